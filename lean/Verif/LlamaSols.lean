import Verif.CorrectSols
/-
Model of the stored solutions of the benchmarks from Llama, `llmlift_scripts/correct_sols.py` (`S` below), and of these benchmarks: `tests/llvm/tenspiler/softmax_part*.cc`, `rmsnorm_part*.cc`,
`benchmarks/llama/cpp/matmul.cc` and `transformer/transformer_part*.cc`.  The functions `integer_exp` and `integer_sqrt` are parameters: in the C++ files they stand for the functions
of the target language.
-/
namespace Metalift.Sols

/-! ### Python -/

/-- `lst[:end]`, and `vec_slice(lst, 0, end)` (`dsl.py` 271-272). -/
def slice (l : Vec) (e : Int) : Vec := if e < 0 then l.take (l.length + e).toNat else l.take e.toNat

/-- `reduce_sum` (`dsl.py` 174-175). -/
def reduceSum : Vec → Int
  | [] => 0
  | a :: l => a + reduceSum l

/-- `reduce_max` (`dsl.py` 158-167). -/
def reduceMax : Vec → Int
  | [] => -32
  | [a] => a
  | a :: b :: l => if a > reduceMax (b :: l) then a else reduceMax (b :: l)

/-- `matrix_vec_mul` (`dsl.py` 147-155). -/
def matVecMul : Mat → Vec → Option Vec
  | [], _ => some []
  | r :: m, x => if r.length < 1 ∨ r.length ≠ x.length then some [] else (vecMul r x).bind fun p => (matVecMul m x).map (reduceSum p :: ·)

/-- `integer_exp` (`dsl.py` 8-9) of a number from 0. -/
def intExpNat : Nat → Int
  | 0 => 1
  | n + 1 => (intExpNat n * 3).fmod 64
/-- `integer_exp` (`dsl.py` 8-9). -/
def intExp (n : Int) : Int := if n ≤ 0 then 1 else intExpNat n.toNat

/-- `softmax_part1` (S 182-185). -/
def softmax1 (input : Vec) (maxPos : Int) : Option Int := some (reduceMax (slice input maxPos))
/-- `softmax_part2` (S 192-195). -/
def softmax2 (exp : Int → Int) (input : Vec) (maxPos maxVal : Int) : Option Vec := (vecScalarSub maxVal (slice input maxPos)).bind (mapE fun x => some (exp x))
/-- `softmax_part3` (S 202-205). -/
def softmax3 (output : Vec) (maxPos : Int) : Option Int := some (reduceSum (slice output maxPos))
/-- `softmax_part4` (S 212-215). -/
def softmax4 (output : Vec) (maxPos sum : Int) : Option Vec := vecScalarDiv sum (slice output maxPos)
/-- `rmsnorm_part1` (S 222-225). -/
def rmsnorm1 (input : Vec) : Option Int := (vecMul input input).map reduceSum
/-- `rmsnorm_part2` (S 232-235). -/
def rmsnorm2 (sqrt : Int → Int) (input weight : Vec) (ss : Int) : Option Vec :=
  (pyDiv ss input.length).bind fun q => (pyDiv 1 (sqrt (q + 1))).bind fun f => (vecScalarMul f input).bind fun x => vecMul x weight
/-- `matmul` (S 242-245). -/
def matmul (weight : Mat) (input : Vec) : Option Vec := matVecMul weight input
/-- `transformer_part3` (S 255-258). -/
def transformer3 (exp : Int → Int) (input : Vec) (hidden : Int) : Option Vec :=
  (scalarVecSub 0 (slice input hidden)).bind fun n => (mapE (fun x => some (exp x)) n).bind fun e => (mapE (fun x => some (1 + x)) e).bind fun d =>
    (mapE (fun x => pyDiv 1 x) d).bind fun q => vecMul (slice input hidden) q
/-- `transformer_part4` (S 265-268). -/
def transformer4 (input1 input2 : Vec) (hidden : Int) : Option Vec := vecMul (slice input1 hidden) (slice input2 hidden)

/-! ### C++ -/

/-- `for (int i = 0; i < n; i++) { sum += body; }` from `sum = 0`. -/
def sumLoop (n : Nat) (body : Nat → Option Int) : Option Int := (List.range n).foldlM (fun s i => (body i).map fun p => s + p) 0

/-- `softmax_part1.cc` 4-10. -/
def softmax1C (input : Vec) (maxPos : Int) : Option Int :=
  (input[0]?).bind fun m => (List.range' 1 (maxPos.toNat - 1)).foldlM (fun m i => (input[i]?).map fun v => if v > m then v else m) m
/-- `softmax_part2.cc` 6-13. -/
def softmax2C (exp : Int → Int) (input : Vec) (maxPos maxVal : Int) : Option Vec := pushLoop maxPos.toNat fun i => (input[i]?).map fun v => exp (v - maxVal)
/-- `softmax_part3.cc` 4-10. -/
def softmax3C (output : Vec) (maxPos : Int) : Option Int := sumLoop maxPos.toNat fun i => output[i]?
/-- `softmax_part4.cc` 4-10. -/
def softmax4C (output : Vec) (maxPos sum : Int) : Option Vec := pushLoop maxPos.toNat fun i => (output[i]?).bind fun v => cDiv v sum
/-- `rmsnorm_part1.cc` 4-10. -/
def rmsnorm1C (input : Vec) : Option Int := sumLoop input.length fun i => (input[i]?).map fun v => v * v
/-- `rmsnorm_part2.cc` 6-13. -/
def rmsnorm2C (sqrt : Int → Int) (input weight : Vec) (ss : Int) : Option Vec := pushLoop input.length fun i =>
  (cDiv ss input.length).bind fun q => (cDiv 1 (sqrt (q + 1))).bind fun f => (input[i]?).bind fun v => (weight[i]?).map fun w => f * v * w
/-- `matmul.cc` 4-16. -/
def matmulC (weight : Mat) (input : Vec) : Option Vec := pushLoop weight.length fun row => sumLoop input.length fun col =>
  (at2 weight row col).bind fun w => (input[col]?).map fun v => w * v
/-- `transformer_part3.cc` 6-13. -/
def transformer3C (exp : Int → Int) (input : Vec) (hidden : Int) : Option Vec := pushLoop hidden.toNat fun i =>
  (input[i]?).bind fun v => (cDiv 1 (1 + exp (0 - v))).map fun q => v * q
/-- `transformer_part4.cc` 4-10. -/
def transformer4C (input1 input2 : Vec) (hidden : Int) : Option Vec := pushLoop hidden.toNat fun i => (input1[i]?).bind fun v => (input2[i]?).map fun w => v * w

end Metalift.Sols
