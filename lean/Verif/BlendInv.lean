import Verif.LlamaInv
/-
Model of the stored loop invariants of the blending benchmarks, `llmlift_scripts/correct_sols.py` (`S` below), and of the loops they belong to (`benchmarks/blend/cpp/*.cc`), one iteration at a time.
A state of the outer loop is `(row, out)`, one of the inner loop `(col, row_vec)`.
-/
namespace Metalift.Sols

/-- The form of the outer invariants: `row >= 0 and row <= len(base) and out == M(base[:row], active[:row])` (e.g. S 40-41). -/
def blendInv1 (M : Mat → Mat → Option Mat) (base active : Mat) (s : Int × Mat) : Prop :=
  0 ≤ s.1 ∧ s.1 ≤ base.length ∧ M (base.take s.1.toNat) (active.take s.1.toNat) = some s.2

/-- The form of the inner invariants: also `row_vec == V(base[row][:col], active[row][:col])` (e.g. S 43-46). -/
def blendInv2 (M : Mat → Mat → Option Mat) (V : Vec → Vec → Option Vec) (base active : Mat) (s : Int × Mat) (t : Int × Vec) : Prop :=
  0 ≤ s.1 ∧ s.1 < base.length ∧ 0 ≤ t.1 ∧ t.1 ≤ (base[0]?.getD []).length ∧
    ((atI base s.1).bind fun x => (atI active s.1).bind fun y => V (slice x t.1) (slice y t.1)) = some t.2 ∧
    M (base.take s.1.toNat) (active.take s.1.toNat) = some s.2

/-- One iteration of the inner loop (e.g. `darken_blend_8.cc` 11-18). -/
def blendStep (pix : Int → Int → Option Int) (base active : Mat) (row : Int) : Int × Vec → Option (Int × Vec) :=
  pushStep fun col => both pix ((atI base row).bind fun x => atI x col) ((atI active row).bind fun y => atI y col)

/-- The row in `invariant2` of `dissolve_blend_8` (S 30-31). -/
def dissolveRow (opacity rand : Int) : Vec → Vec → Option Vec := zipE fun b a => (pyDiv (rand.fmod 100 + 1) 100).map fun r => if opacity - r ≥ 0 then a else b
/-- The row in `invariant2` of `darken_blend_8` (S 43-46). -/
def darkenRow : Vec → Vec → Option Vec := zipE fun x y => iteInt (x > y) (some y) (some x)
/-- The row in `invariant2` of `multiply_blend_8` (S 58-59). -/
def multiplyRow (x y : Vec) : Option Vec := (vecMul x y).bind (vecScalarDiv 32)
/-- The row in `invariant2` of `linear_burn_8` (S 71-72). -/
def linearBurnRow (x y : Vec) : Option Vec := (vecAdd x y).bind (vecScalarSub 32)
/-- The row in `invariant2` of `color_burn_8` (S 84-87). -/
def colorBurnRow : Vec → Vec → Option Vec := zipE fun x y => iteInt (y == 0) (some 32) ((pyDiv (32 - x) y).map fun q => 32 - q)
/-- The row in `invariant2` of `lighten_blend_8` (S 99-102). -/
def lightenRow : Vec → Vec → Option Vec := zipE fun x y => iteInt (x < y) (some y) (some x)
/-- The row in `invariant2` of `screen_blend_8` (S 120-121). -/
def screenRow (x y : Vec) : Option Vec := (vecAdd x y).bind fun s => (vecMul x y).bind fun p => (vecScalarDiv 32 p).bind fun q => vecSub s q
/-- `invariant2` of `screen_blend_8` (S 120-121), which allows `row == len(base)`; there `base[row]` raises an exception. -/
def screenInv2 (base active : Mat) (s : Int × Mat) (t : Int × Vec) : Prop :=
  0 ≤ s.1 ∧ s.1 ≤ base.length ∧ 0 ≤ t.1 ∧ t.1 ≤ (base[0]?.getD []).length ∧
    ((atI base s.1).bind fun x => (atI active s.1).bind fun y => screenRow (slice x t.1) (slice y t.1)) = some t.2 ∧
    screen (base.take s.1.toNat) (active.take s.1.toNat) = some s.2
/-- The row in `invariant2` of `linear_dodge_8` (S 133-136). -/
def linearDodgeRow : Vec → Vec → Option Vec := vecAdd
/-- The row in `invariant2` of `color_dodge_8` (S 152-155). -/
def colorDodgeRow (x y : Vec) : Option Vec := (scalarVecSub 32 y).bind fun d => (vecDiv x d).bind fun q => zipE (fun a b => iteInt (a == 32) (some 32) (some b)) y q
/-- The row in `invariant2` of `overlay_blend_8` (S 175-178). -/
def overlayRow : Vec → Vec → Option Vec := zipE fun x _ => iteInt (x ≥ 128) ((pyDiv (2 * x * x) 32).map fun q => 2 * x + x - q - 32) (pyDiv (2 * x * x) 32)

/-- `normal_blend_f_inv` and `normal_blend_8_inv` (S 6-9, 16-19), with the number from which the opacity is subtracted. -/
def normalInv (full : Int) (base active : Vec) (opacity : Int) : Int × Vec → Prop := headInv base.length fun i =>
  (vecScalarMul opacity (slice active i)).bind fun x => (vecScalarMul (full - opacity) (slice base i)).bind fun y => vecAdd x y
/-- `normal_blend_8.cc` 7-9 and `normal_blend_f.cc`. -/
def normalStep (full : Int) (base active : Vec) (opacity : Int) := pushStep fun i => (atI active i).bind fun a => (atI base i).map fun b => opacity * a + (full - opacity) * b

end Metalift.Sols
