import Verif.Tenspiler
/-
Model of the functions that build the expressions of a bounded depth for the search spaces of the tensor language, and of the
helpers for loop indices and loop bounds: `metalift/utils/tenspiler/tenspiler_common.py` 86-176, 357-375, 1890-2168, and
`choose` and `Int.maybe_relaxed` of `metalift/ir.py`.
-/
namespace Metalift.Ten
open Metalift

/-- `choose(*objects)` (`metalift/ir.py` 685-692): raises without objects, and `Choose` (2963-2970) raises unless all have the
same type. -/
def chooseObj : List Obj → Option Obj
  | [] => none
  | o :: os => if os.all (fun p => decide (p.ty = o.ty)) then some ⟨.node .choose o.ty.toTy ((o :: os).map Obj.src), o.ty⟩ else none

/-- `Int.maybe_relaxed` (`metalift/ir.py` 933-936). -/
def maybeRelaxed (o : Obj) (relaxed : Bool) : Option Obj :=
  if relaxed then chooseObj [o, o.sub (.int 1), o.add (.int 1)] else some o

/-! ### Integers -/

/-- `call_integer_exp` (`tenspiler_common.py` 337-338). -/
def callIntegerExp (o : Obj) : Obj := call "integer_exp" .int [o]
/-- `call_integer_sqrt` (341-342). -/
def callIntegerSqrt (o : Obj) : Obj := call "integer_sqrt" .int [o]

/-- The alternatives that the loop of `get_int_expr_with_depth` (2034-2044) adds for one `other_depth`; `swap` is
`other_depth != depth - 1`. -/
def intPair (prev other : Obj) (swap : Bool) : List Obj :=
  [prev.add other, prev.sub other, prev.mul other, prev.div other] ++ (if swap then [other.sub prev, other.div prev] else [])

/-- The body of `get_int_expr_with_depth` for a positive depth (2025-2047).  `levels` are the expressions of the depths below,
in order; `depth` is their number, `depth - 1` the last of them. -/
def intStep (levels : List Obj) : Option Obj :=
  levels.getLast?.bind fun prev =>
    chooseObj ([callIntegerSqrt prev, callIntegerExp prev] ++
      levels.zipIdx.flatMap (fun p => intPair prev p.1 (p.2 != levels.length - 1)))

/-- The values of `depth_to_expr` after `get_int_expr_with_depth(var, depth, depth_to_expr)` (2011-2047), in order of the depth.
The dictionary only avoids computing the same expression twice, so that it is represented by the list of its values. -/
def intLevels (var : Obj) : Nat → Option (List Obj)
  | 0 => some [var]
  | d + 1 => (intLevels var d).bind fun ls => (intStep ls).map fun e => ls ++ [e]

/-- `get_int_expr_with_depth(var, depth, {})` (2011-2047). -/
def intWithDepth (var : Obj) (d : Nat) : Option Obj := (intLevels var d).bind List.getLast?

/-- One iteration of `get_int_expr_eq_or_below_depth_with_sym_grammar` (2067-2075). -/
def symIntStep (e : Obj) : Option Obj :=
  chooseObj [e, e.add e, e.sub e, e.mul e, e.div e, callIntegerExp e, callIntegerSqrt e]

/-- `get_int_expr_eq_or_below_depth_with_sym_grammar` (2064-2076). -/
def symInt (var : Obj) : Nat → Option Obj
  | 0 => some var
  | d + 1 => (symInt var d).bind symIntStep

/-- `get_int_expr_eq_or_below_depth` (2050-2061); the depth is not negative. -/
def intBelow (var : Obj) (d : Nat) : Option Obj :=
  if d ≥ 3 then symInt var d else (intLevels var d).bind chooseObj

/-- `get_cond_expr_eq_or_below_depth` (2079-2088). -/
def condBelow (var : Obj) (d : Nat) : Option Obj :=
  (intBelow var d).bind fun e =>
    (chooseObj [e.lt e, e.le e, e.eq e, e.ge e, e.gt e]).map fun c => ite' c e e

/-! ### Vectors and matrices -/

/-- `is_matrix_type` (`metalift/ir.py` 45-49). -/
def isMatrixType : OTy → Bool
  | .matrix _ => true
  | _ => false

/-- The dispatch of the helpers 86-156 that do not look for 3-dimensional tensors: the function for matrices if the type of `o`
is `Matrix`, otherwise the one for vectors. -/
def dispatch (o : Obj) (mat vec : String) (args : List Obj) : Obj :=
  if isMatrixType o.ty then call mat (.matrix .int) args else call vec (.list .int) args

/-- `call_elemwise_add` (86-92). -/
def elemwiseAdd (l r : Obj) : Obj :=
  if l.ty.isTensor3d then call "tensor3d_elemwise_add" (.tensor3d .int) [l, r]
  else dispatch l "matrix_elemwise_add" "vec_elemwise_add" [l, r]
/-- `call_elemwise_sub` (95-99). -/
def elemwiseSub (l r : Obj) : Obj := dispatch l "matrix_elemwise_sub" "vec_elemwise_sub" [l, r]
/-- `call_elemwise_mul` (102-108). -/
def elemwiseMul (l r : Obj) : Obj :=
  if l.ty.isTensor3d then call "tensor3d_elemwise_mul" (.tensor3d .int) [l, r]
  else dispatch l "matrix_elemwise_mul" "vec_elemwise_mul" [l, r]
/-- `call_elemwise_div` (111-115). -/
def elemwiseDiv (l r : Obj) : Obj := dispatch l "matrix_elemwise_div" "vec_elemwise_div" [l, r]
/-- `call_scalar_add` (118-122). -/
def scalarAdd (s t : Obj) : Obj := dispatch t "matrix_scalar_add" "vec_scalar_add" [s, t]
/-- `call_scalar_sub` (125-129). -/
def scalarSub (s t : Obj) : Obj := dispatch t "matrix_scalar_sub" "vec_scalar_sub" [s, t]
/-- `call_scalar_mul` (132-136). -/
def scalarMul (s t : Obj) : Obj := dispatch t "matrix_scalar_mul" "vec_scalar_mul" [s, t]
/-- `call_scalar_div` (139-143). -/
def scalarDiv (s t : Obj) : Obj := dispatch t "matrix_scalar_div" "vec_scalar_div" [s, t]
/-- `call_scalar_rsub` (146-150). -/
def scalarRsub (s t : Obj) : Obj := dispatch t "scalar_matrix_sub" "scalar_vec_sub" [s, t]
/-- `call_scalar_rdiv` (153-157). -/
def scalarRdiv (s t : Obj) : Obj := dispatch t "scalar_matrix_div" "scalar_vec_div" [s, t]

/-- `vec_to_vec` (374), with `call_vec_map` (349-350). -/
def vecToVec (v : Obj) : Option Obj := chooseObj [call "vec_map" (.list .int) [v, mapArg]]
/-- `call_matrix_vec_mul` (353-354). -/
def callMatrixVecMul (m v : Obj) : Obj := call "matrix_vec_mul" (.list .int) [m, v]

/-- The alternatives combining a scalar with a tensor (1926-1931, 1942-1947, 1994-1999). -/
def scalarChoices (s t : Obj) : List Obj :=
  [scalarAdd s t, scalarSub s t, scalarMul s t, scalarDiv s t, scalarRsub s t, scalarRdiv s t]

/-- The alternatives that the loop of `get_matrix_or_vec_expr_with_depth` (1912-1947) adds for one `other_depth`: `other` is the
tensor and `s` the scalar of that depth, `prev` the tensor and `sPrev` the scalar of the depth `depth - 1`, and `swap` is
`other_depth != depth - 1`. -/
def tensorPair (var : Obj) (extra : Option Obj) (prev sPrev other s : Obj) (swap : Bool) : List Obj :=
  [elemwiseAdd prev other, elemwiseSub prev other, elemwiseMul prev other, elemwiseDiv prev other] ++ scalarChoices s prev ++
  (match extra with
    | some m => if var.ty.isMatrix then [] else [callMatrixVecMul m prev]
    | none => []) ++
  (if swap then [elemwiseSub other prev, elemwiseDiv other prev] ++ scalarChoices sPrev other else [])

/-- The body of `get_matrix_or_vec_expr_with_depth` for a positive depth (1900-1949).  `levels` and `scalars` are the tensors and
the integers of the depths below. -/
def tensorStep (var : Obj) (extra : Option Obj) (levels scalars : List Obj) : Option Obj :=
  levels.getLast?.bind fun prev => scalars.getLast?.bind fun sPrev =>
    (if prev.ty.isMatrix then some [] else (vecToVec prev).map fun v => [v]).bind fun maps =>
      chooseObj (maps ++ (levels.zip scalars).zipIdx.flatMap
        (fun p => tensorPair var extra prev sPrev p.1.1 p.1.2 (p.2 != levels.length - 1)))

/-- The values of `depth_to_expr` after `get_matrix_or_vec_expr_with_depth` (1890-1949), in order of the depth. -/
def tensorLevels (var int : Obj) (extra : Option Obj) : Nat → Option (List Obj)
  | 0 => some [var]
  | d + 1 => (tensorLevels var int extra d).bind fun ls =>
      (intLevels int d).bind fun ss => (tensorStep var extra ls ss).map fun e => ls ++ [e]

/-- One iteration of `get_matrix_or_vec_expr_eq_or_below_depth_with_sym_grammar` (1983-2007) from the scalar and the tensor
before it.  `isNested` is the attribute `is_nested` of list objects; no class of `metalift/ir.py` defines it. -/
def symTensorStep (isNested : Obj → Option Bool) (extra : Option Obj) (p : Obj × Obj) : Option (Obj × Obj) := do
  let s := p.1
  let t := p.2
  let s ← chooseObj [s, s.add s, s.sub s, s.mul s, s.div s]
  let t ← chooseObj ([t, elemwiseAdd t t, elemwiseSub t t, elemwiseMul t t, elemwiseDiv t t] ++ scalarChoices s t)
  if ← isNested t then pure (s, t)
  else
    let t ← chooseObj [t, ← vecToVec t]
    match extra with
    | some m => pure (s, ← chooseObj [callMatrixVecMul m t])
    | none => pure (s, t)

/-- `get_matrix_or_vec_expr_eq_or_below_depth_with_sym_grammar` (1977-2008). -/
def symTensor (isNested : Obj → Option Bool) (var int : Obj) (extra : Option Obj) : Nat → Option (Obj × Obj)
  | 0 => some (int, var)
  | d + 1 => (symTensor isNested var int extra d).bind (symTensorStep isNested extra)

/-- Evaluating `matrix_or_vec.is_nested`: `List`, `Matrix` and `Tensor3D` (`metalift/ir.py` 1056-1599) have no such attribute and
`Object` (785-838) has no `__getattr__`, so that it raises `AttributeError`. -/
def isNestedAttr (_ : Obj) : Option Bool := none

/-- `get_matrix_or_vec_expr_eq_or_below_depth` (1952-1972); the depth is not negative. -/
def tensorBelow (var int : Obj) (extra : Option Obj) (d : Nat) : Option Obj :=
  if d ≥ 3 then (symTensor isNestedAttr var int extra d).map Prod.snd
  else (tensorLevels var int extra d).bind chooseObj

/-! ### Loop indices and bounds -/

/-- `get_lower_bound_fn_body` (2106-2116). -/
def lowerBound (isLeftSmaller left right : Obj) : Option Obj :=
  (chooseObj [right, right.add (.int 1)]).map fun r => ite' isLeftSmaller left r

/-- `get_upper_bound_fn_body` (2119-2130). -/
def upperBound (isLeftSmaller left right : Obj) : Option Obj :=
  (chooseObj [right.sub (.int 1), right]).map fun r => (ite' isLeftSmaller r left).add (.int 1)

/-- The body of the function to synthesize in `get_loop_index_fn` (2133-2143). -/
def loopIndex (args : List Obj) : Option Obj := chooseObj args

/-- The body of the function to synthesize in `get_no_arg_bool_fn` (2159-2166). -/
def noArgBool : Option Obj := chooseObj [⟨boolLit true, .bool⟩, ⟨boolLit false, .bool⟩]

end Metalift.Ten
