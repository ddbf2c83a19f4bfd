import Verif.LlamaSols
/-
Model of the stored loop invariants of the benchmarks from Llama, `llmlift_scripts/correct_sols.py` (`S` below), and of the loops they belong to, one iteration at a time.
A state of a loop is the loop variable with the variable that the loop computes.
-/
namespace Metalift.Sols

/-- `l[i]` in C++. -/
def atI {α : Type} (l : List α) (i : Int) : Option α := if i < 0 then none else l[i.toNat]?

/-- `i >= 0 and i <= n and v == expr`, the form of all invariants of single loops; `expr i` is `none` if it raises an exception. -/
def headInv {τ : Type} (n : Int) (expr : Int → Option τ) (s : Int × τ) : Prop := 0 ≤ s.1 ∧ s.1 ≤ n ∧ expr s.1 = some s.2

/-- `softmax_part1_inv` (S 186-189). -/
def softmax1Inv (input : Vec) (maxPos : Int) : Int × Int → Prop := headInv maxPos fun i => some (reduceMax (slice input i))
/-- `softmax_part2_inv` (S 196-199). -/
def softmax2Inv (exp : Int → Int) (input : Vec) (maxPos maxVal : Int) : Int × Vec → Prop :=
  headInv maxPos fun i => (vecScalarSub maxVal (slice input i)).bind (mapE fun x => some (exp x))
/-- `softmax_part3_inv` (S 206-209). -/
def softmax3Inv (output : Vec) (maxPos : Int) : Int × Int → Prop := headInv maxPos fun i => some (reduceSum (slice output i))
/-- `softmax_part4_inv` (S 216-219). -/
def softmax4Inv (input : Vec) (maxPos sum : Int) : Int × Vec → Prop := headInv maxPos fun i => vecScalarDiv sum (slice input i)
/-- `rmsnorm_part1_inv` (S 226-229). -/
def rmsnorm1Inv (input : Vec) : Int × Int → Prop := headInv input.length fun i => (vecMul (slice input i) (slice input i)).map reduceSum
/-- `rmsnorm_part2_inv` (S 236-239). -/
def rmsnorm2Inv (sqrt : Int → Int) (input weight : Vec) (ss : Int) : Int × Vec → Prop := headInv input.length fun i =>
  (pyDiv ss input.length).bind fun q => (pyDiv 1 (sqrt (q + 1))).bind fun f => (vecScalarMul f (slice input i)).bind fun x => vecMul x (slice weight i)
/-- `transformer_part3_inv` (S 259-262). -/
def transformer3Inv (exp : Int → Int) (input : Vec) (hidden : Int) : Int × Vec → Prop := headInv hidden fun i =>
  (scalarVecSub 0 (slice input i)).bind fun n => (mapE (fun x => some (exp x)) n).bind fun e => (mapE (fun x => some (1 + x)) e).bind fun d =>
    (mapE (fun x => pyDiv 1 x) d).bind fun q => vecMul (slice input i) q
/-- `transformer_part4_inv` (S 269-272). -/
def transformer4Inv (input1 input2 : Vec) (hidden : Int) : Int × Vec → Prop := headInv hidden fun i => vecMul (slice input2 i) (slice input1 i)

/-- `invariant1` of `matmul_inv` (S 247-248); `matrix_row_slice` is `L` 92-93. -/
def matmulInv1 (weight : Mat) (input : Vec) (s : Int × Vec) : Prop := 0 ≤ s.1 ∧ s.1 ≤ weight.length ∧ matVecMul (weight.take s.1.toNat) input = some s.2
/-- `invariant2` of `matmul_inv` (S 250-251); the state is `((row, output), (col, curr))`. -/
def matmulInv2 (weight : Mat) (input : Vec) (s : (Int × Vec) × Int × Int) : Prop :=
  0 ≤ s.1.1 ∧ s.1.1 < weight.length ∧ 0 ≤ s.2.1 ∧ s.2.1 ≤ input.length ∧ matVecMul (weight.take s.1.1.toNat) input = some s.1.2 ∧
    ((atI weight s.1.1).bind fun r => (vecMul (slice r s.2.1) (slice input s.2.1)).map reduceSum) = some s.2.2

/-- One iteration of a loop that pushes `body`. -/
def pushStep (body : Int → Option Int) (s : Int × Vec) : Option (Int × Vec) := (body s.1).map fun p => (s.1 + 1, s.2 ++ [p])
/-- One iteration of a loop that adds `body`. -/
def addStep (body : Int → Option Int) (s : Int × Int) : Option (Int × Int) := (body s.1).map fun p => (s.1 + 1, s.2 + p)

/-- `softmax_part1.cc` 6-8. -/
def softmax1Step (input : Vec) (s : Int × Int) : Option (Int × Int) := (atI input s.1).map fun v => (s.1 + 1, if v > s.2 then v else s.2)
/-- `softmax_part2.cc` 8-11. -/
def softmax2Step (exp : Int → Int) (input : Vec) (maxVal : Int) := pushStep fun i => (atI input i).map fun v => exp (v - maxVal)
/-- `softmax_part3.cc` 6-8. -/
def softmax3Step (output : Vec) := addStep fun i => atI output i
/-- `softmax_part4.cc` 6-8. -/
def softmax4Step (input : Vec) (sum : Int) := pushStep fun i => (atI input i).bind fun v => cDiv v sum
/-- `rmsnorm_part1.cc` 6-8. -/
def rmsnorm1Step (input : Vec) := addStep fun i => (atI input i).map fun v => v * v
/-- `rmsnorm_part2.cc` 9-11. -/
def rmsnorm2Step (sqrt : Int → Int) (input weight : Vec) (ss : Int) := pushStep fun i =>
  (cDiv ss input.length).bind fun q => (cDiv 1 (sqrt (q + 1))).bind fun f => (atI input i).bind fun v => (atI weight i).map fun w => f * v * w
/-- `transformer_part3.cc` 8-11. -/
def transformer3Step (exp : Int → Int) (input : Vec) := pushStep fun i => (atI input i).bind fun v => (cDiv 1 (1 + exp (0 - v))).map fun q => v * q
/-- `transformer_part4.cc` 6-8. -/
def transformer4Step (input1 input2 : Vec) := pushStep fun i => (atI input1 i).bind fun v => (atI input2 i).map fun w => v * w
/-- `matmul.cc` 10-12. -/
def matmulStep (weight : Mat) (input : Vec) (row : Int) := addStep fun col => (atI weight row).bind fun r => (atI r col).bind fun w => (atI input col).map fun v => w * v

end Metalift.Sols
