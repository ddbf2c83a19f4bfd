/-
Model of the stored solutions of the blending benchmarks, `llmlift_scripts/correct_sols.py` (`S` below), on the functions of `llmlift_scripts/dsl.py` (`L` below), as Python runs them,
and of the benchmarks, `benchmarks/blend/cpp/*.cc`.  `none` is an exception in Python and undefined behaviour in C++.  Integers are unbounded.
-/
namespace Metalift.Sols

/-! ### Python -/

/-- `a // b`. -/
def pyDiv (a b : Int) : Option Int := if b = 0 then none else some (a.fdiv b)

/-- The functions of `dsl.py` that combine two lists of the same length element by element (L 40-89, 128-140, 206-248): `[]` if a list is empty or the lengths differ. -/
def zipE {α β γ : Type} (g : α → β → Option γ) : List α → List β → Option (List γ)
  | a :: x, b :: y => if x.length = y.length then (g a b).bind fun c => (zipE g x y).map (c :: ·) else some []
  | _, _ => some []

/-- The functions of `dsl.py` that change every element of a list (L 96-125, 190-203, 255-268). -/
def mapE {α β : Type} (g : α → Option β) : List α → Option (List β)
  | [] => some []
  | a :: x => (g a).bind fun c => (mapE g x).map (c :: ·)

/-- A vector and a matrix. -/
abbrev Vec := List Int
@[inherit_doc Vec] abbrev Mat := List (List Int)

/-- `vec_elemwise_add` (L 219-224). -/
def vecAdd : Vec → Vec → Option Vec := zipE fun a b => some (a + b)
/-- `vec_elemwise_sub` (L 243-248). -/
def vecSub : Vec → Vec → Option Vec := zipE fun a b => some (a - b)
/-- `vec_elemwise_mul` (L 235-240). -/
def vecMul : Vec → Vec → Option Vec := zipE fun a b => some (a * b)
/-- `vec_elemwise_div` (L 227-232). -/
def vecDiv : Vec → Vec → Option Vec := zipE pyDiv
/-- `vec_scalar_mul` (L 263-264). -/
def vecScalarMul (s : Int) : Vec → Option Vec := mapE fun a => some (s * a)
/-- `vec_scalar_sub` (L 267-268). -/
def vecScalarSub (s : Int) : Vec → Option Vec := mapE fun a => some (a - s)
/-- `vec_scalar_div` (L 259-260). -/
def vecScalarDiv (s : Int) : Vec → Option Vec := mapE fun a => pyDiv a s
/-- `scalar_vec_sub` (L 202-203). -/
def scalarVecSub (s : Int) : Vec → Option Vec := mapE fun a => some (s - a)
/-- `matrix_elemwise_add` (L 40-50). -/
def matAdd : Mat → Mat → Option Mat := zipE vecAdd
/-- `matrix_elemwise_sub` (L 79-89). -/
def matSub : Mat → Mat → Option Mat := zipE vecSub
/-- `matrix_elemwise_mul` (L 66-76). -/
def matMul : Mat → Mat → Option Mat := zipE vecMul
/-- `matrix_elemwise_div` (L 53-63). -/
def matDiv : Mat → Mat → Option Mat := zipE vecDiv
/-- `matrix_scalar_sub` (L 120-125). -/
def matScalarSub (s : Int) : Mat → Option Mat := mapE (vecScalarSub s)
/-- `matrix_scalar_div` (L 104-109). -/
def matScalarDiv (s : Int) : Mat → Option Mat := mapE (vecScalarDiv s)
/-- `scalar_matrix_sub` (L 190-195). -/
def scalarMatSub (s : Int) : Mat → Option Mat := mapE (scalarVecSub s)
/-- `matrix_selection_two_args` (L 128-140) with `selection_two_args` (L 206-216). -/
def matSel (g : Int → Int → Option Int) : Mat → Mat → Option Mat := zipE (zipE g)
/-- `ite_int` (L 28-29) is a function, so all its arguments are evaluated. -/
def iteInt (c : Bool) (a b : Option Int) : Option Int := a.bind fun a => b.map fun b => if c then a else b

/-- `normal_blend_f` (S 2-5). -/
def normalF (base active : Vec) (opacity : Int) : Option Vec :=
  (vecScalarMul opacity active).bind fun x => (vecScalarMul (1 - opacity) base).bind fun y => vecAdd x y
/-- `normal_blend_8` (S 12-15). -/
def normal8 (base active : Vec) (opacity : Int) : Option Vec :=
  (vecScalarMul opacity active).bind fun x => (vecScalarMul (32 - opacity) base).bind fun y => vecAdd x y
/-- `dissolve_blend_8` (S 22-25). -/
def dissolve (base active : Mat) (opacity rand : Int) : Option Mat :=
  matSel (fun b a => (pyDiv (rand.fmod 100 + 1) 100).map fun r => if opacity - r ≥ 0 then a else b) base active
/-- `darken_blend_8` (S 35-38). -/
def darken (base active : Mat) : Option Mat := matSel (fun x y => iteInt (x > y) (some y) (some x)) base active
/-- `multiply_blend_8` (S 50-53). -/
def multiply (base active : Mat) : Option Mat := (matMul base active).bind (matScalarDiv 32)
/-- `linear_burn_8` (S 63-66). -/
def linearBurn (base active : Mat) : Option Mat := (matAdd base active).bind (matScalarSub 32)
/-- `color_burn_8` (S 76-79). -/
def colorBurn (base active : Mat) : Option Mat :=
  matSel (fun x y => iteInt (y == 0) (some 32) ((pyDiv (32 - x) y).map fun q => 32 - q)) base active
/-- `lighten_blend_8` (S 91-94). -/
def lighten (base active : Mat) : Option Mat := matSel (fun x y => iteInt (x < y) (some y) (some x)) base active
/-- `screen_blend_8` (S 106-115). -/
def screen (base active : Mat) : Option Mat :=
  (matAdd base active).bind fun s => (matMul base active).bind fun p => (matScalarDiv 32 p).bind fun q => matSub s q
/-- `linear_dodge_8` (S 125-128). -/
def linearDodge (base active : Mat) : Option Mat := matAdd base active
/-- `color_dodge_8` (S 140-147). -/
def colorDodge (base active : Mat) : Option Mat :=
  (scalarMatSub 32 active).bind fun d => (matDiv base d).bind fun q => matSel (fun a b => iteInt (a == 32) (some 32) (some b)) active q
/-- `overlay_blend_8` (S 159-170). -/
def overlay (base active : Mat) : Option Mat :=
  matSel (fun x _ => iteInt (x ≥ 128) ((pyDiv (2 * x * x) 32).map fun q => 2 * x + x - q - 32) (pyDiv (2 * x * x) 32)) base active

/-- The expression in `invariant1` of `screen_blend_8` (S 116-119): the sum is taken of the whole matrices. -/
def screenInv (base active : Mat) (row : Nat) : Option Mat :=
  (matAdd base active).bind fun s => (matMul (base.take row) (active.take row)).bind fun p => (matScalarDiv 32 p).bind fun q => matSub s q

/-! ### C++ -/

/-- `a / b`. -/
def cDiv (a b : Int) : Option Int := if b = 0 then none else some (a.tdiv b)

/-- `m[row][col]`. -/
def at2 (m : Mat) (row col : Nat) : Option Int := (m[row]?).bind fun r => r[col]?

/-- `for (int i = 0; i < n; i++) { .. v.push_back(body); }`. -/
def pushLoop {α : Type} (n : Nat) (body : Nat → Option α) : Option (List α) :=
  (List.range n).foldlM (fun v i => (body i).map fun p => v ++ [p]) []

/-- The loops that all benchmarks on matrices have (e.g. `darken_blend_8.cc` 4-22); `pixel` gets the elements at the current place. -/
def blend (pixel : Option Int → Option Int → Option Int) (base active : Mat) : Option Mat :=
  (base[0]?).bind fun r => pushLoop base.length fun row => pushLoop r.length fun col => pixel (at2 base row col) (at2 active row col)

/-- A pixel for which both elements are read first. -/
def both (f : Int → Int → Option Int) (a b : Option Int) : Option Int := a.bind fun a => b.bind fun b => f a b

/-- `darken_blend_8.cc` 12-16. -/
def darkenPix : Int → Int → Option Int := fun b a => some (if b > a then a else b)
/-- `lighten_blend_8.cc` 12-16. -/
def lightenPix : Int → Int → Option Int := fun b a => some (if b < a then a else b)
/-- `linear_burn_8.cc` 12. -/
def linearBurnPix : Int → Int → Option Int := fun b a => some (b + a - 32)
/-- `linear_dodge_8.cc` 12. -/
def linearDodgePix : Int → Int → Option Int := fun b a => some (b + a)
/-- `multiply_blend_8.cc` 12. -/
def multiplyPix : Int → Int → Option Int := fun b a => cDiv (b * a) 32
/-- `screen_blend_8.cc` 12. -/
def screenPix : Int → Int → Option Int := fun b a => (cDiv (b * a) 32).map fun q => b + a - q
/-- `color_burn_8.cc` 12-16. -/
def colorBurnPix : Int → Int → Option Int := fun b a => if a = 0 then some 32 else (cDiv (32 - b) a).map fun q => 32 - q
/-- `color_dodge_8.cc` 12-16. -/
def colorDodgePix : Int → Int → Option Int := fun b a => if a = 32 then some 32 else cDiv b (32 - a)
/-- `dissolve_blend_8.cc` 12-17. -/
def dissolvePix (opacity rand : Int) : Int → Int → Option Int := fun b a => (cDiv (rand.tmod 100 + 1) 100).map fun r => if opacity - r ≥ 0 then a else b
/-- `overlay_blend_8.cc` 12-16; `active` is not read, here it is. -/
def overlayPix : Int → Int → Option Int := fun b _ => if b ≥ 16 then (cDiv (2 * b * b) 32).map fun q => 2 * b + b - q - 32 else cDiv (2 * b * b) 32

/-- `normal_blend_f.cc` and `normal_blend_8.cc` 4-11, with the number from which the opacity is subtracted. -/
def normalC (full : Int) (base active : Vec) (opacity : Int) : Option Vec :=
  pushLoop base.length fun i => (active[i]?).bind fun a => (base[i]?).map fun b => opacity * a + (full - opacity) * b

end Metalift.Sols
