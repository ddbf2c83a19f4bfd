import Verif.ListObj
/-
Model of the functions of the tensor target language, `metalift/utils/tenspiler/tenspiler_common.py`, as declarations in the IR.
-/
namespace Metalift.Ten
open Metalift

/-- A declaration `fn_decl_recursive(name, type, body, *params)` or `fn_decl(..)` (`metalift/ir.py` 728-749).  `none` as body: building
the body raises. -/
structure Decl where
  name : String
  params : List (String × OTy)
  body : Option Obj

/-- `x`, `y`, ... (`tenspiler_common.py` 375-389). -/
def x : Obj := .var "x" (.list .int)
@[inherit_doc x] def y : Obj := .var "y" (.list .int)
@[inherit_doc x] def a : Obj := .var "a" .int
@[inherit_doc x] def matrixX : Obj := .var "matrix_x" (.matrix .int)
@[inherit_doc x] def matrixY : Obj := .var "matrix_y" (.matrix .int)
@[inherit_doc x] def tensorX : Obj := .var "tensor3d_x" (.tensor3d .int)
@[inherit_doc x] def tensorY : Obj := .var "tensor3d_y" (.tensor3d .int)
@[inherit_doc x] def intX : Obj := .var "int_x" .int
@[inherit_doc x] def intY : Obj := .var "int_y" .int
@[inherit_doc x] def opacity : Obj := .var "opacity" .int
@[inherit_doc x] def randCons : Obj := .var "rand_cons" .int
@[inherit_doc x] def cond : Obj := .var "cond" .bool

/-- `l[0]`. -/
def first (l : Obj) : Option Obj := l.getitem (.at (.int 0))
/-- `l[1:]`. -/
def rest (l : Obj) : Option Obj := l.getitem (.slice (some (.int 1)) none false)

/-- `reduce_sum_body` (`tenspiler_common.py` 392-398). -/
def reduceSumBody (lst : Obj) : Option Obj := do
  let cur ← first lst
  let recursed := call "reduce_sum" .int [← rest lst]
  pure (ite' (lst.len.lt (.int 1)) (.int 0) (cur.add recursed))

/-- `reduce_sum` (401). -/
def reduceSum : Decl := ⟨"reduce_sum", [("x", .list .int)], reduceSumBody x⟩

/-- `reduce_mul_body` (404-410). -/
def reduceMulBody (lst : Obj) : Option Obj := do
  let cur ← first lst
  let recursed := call "reduce_mul" .int [← rest lst]
  pure (ite' (lst.len.lt (.int 1)) (.int 1) (cur.mul recursed))

/-- `reduce_mul` (413). -/
def reduceMul : Decl := ⟨"reduce_mul", [("x", .list .int)], reduceMulBody x⟩

/-- `reduce_max_body` (416-423). `0 - Int(32)` is `Int.__rsub__`. -/
def reduceMaxBody (lst : Obj) : Option Obj := do
  let cur ← first lst
  let recursed := call "reduce_max" .int [← rest lst]
  let general := ite' (cur.gt recursed) cur recursed
  pure (ite' (lst.len.lt (.int 1)) ((Obj.int 0).sub (.int 32)) (ite' (lst.len.eq (.int 1)) cur general))

/-- `reduce_max` (426). -/
def reduceMax : Decl := ⟨"reduce_max", [("x", .list .int)], reduceMaxBody x⟩

/-- `matrix_vec_mul_body` (429-435). -/
def matrixVecMulBody (matrix vec : Obj) : Option Obj := do
  let row ← first matrix
  let invalid ← orObjs [matrix.len.lt (.int 1), row.len.lt (.int 1), row.len.ne vec.len]
  let cur := call "reduce_sum" .int [call "vec_elemwise_mul" (.list .int) [row, vec]]
  let recursed := call "matrix_vec_mul" (.list .int) [← rest matrix, vec]
  pure (ite' invalid (listEmpty .int) (← recursed.prepend cur))

/-- `matrix_vec_mul` (438-440). -/
def matrixVecMul : Decl :=
  ⟨"matrix_vec_mul", [("matrix_x", .matrix .int), ("x", .list .int)], matrixVecMulBody matrixX x⟩

/-- `ite_int` (442). -/
def iteInt : Decl := ⟨"ite_int", [("cond", .bool), ("int_x", .int), ("int_y", .int)], some (ite' cond intX intY)⟩

/-- The function parameter of the selections (519-535). -/
def selectArg : Obj := .var "select_two_args_arg" (.fn 2)
@[inherit_doc selectArg] def dissolveArg : Obj := .var "dissolve_select_two_args_arg" (.fn 4)
/-- `map_int_to_int_fn_obj` (539). -/
def mapArg : Obj := .var "map_int_to_int" (.fn 1)

/-- The condition `or_objects(left.len() < 1, left.len() != right.len())` used below. -/
def mismatch (left right : Obj) : Option Obj := orObjs [left.len.lt (.int 1), left.len.ne right.len]

/-- `selection_two_args_body` (601-611) and, with the two extra arguments, `dissolve_selection_two_args_body` (624-641). -/
def selectionBody (name : String) (left right fn : Obj) (extra : List Obj) : Option Obj := do
  let cur := callValue fn ([← first left, ← first right] ++ extra)
  let recursed := call name (.list .int) ([← rest left, ← rest right] ++ extra ++ [fn])
  let general ← recursed.prepend cur
  pure (ite' (← mismatch left right) (listEmpty .int) general)

/-- `matrix_selection_two_args_body` (543-553) and `dissolve_matrix_selection_two_args_body` (566-584). -/
def matrixSelectionBody (name vecName : String) (left right fn : Obj) (extra : List Obj) : Option Obj := do
  let cur := call vecName (.list .int) ([← first left, ← first right] ++ extra ++ [fn])
  let recursed := call name (.matrix .int) ([← rest left, ← rest right] ++ extra ++ [fn])
  let general ← recursed.prepend cur
  pure (ite' (← mismatch left right) (matrixEmpty .int) general)

/-- `selection_two_args_fn_decl` (614-621). -/
def selection : Decl := ⟨"selection_two_args", [("x", .list .int), ("y", .list .int), ("select_two_args_arg", .fn 2)],
  selectionBody "selection_two_args" x y selectArg []⟩
/-- `matrix_selection_two_args_fn_decl` (554-561). -/
def matrixSelection : Decl :=
  ⟨"matrix_selection_two_args", [("matrix_x", .matrix .int), ("matrix_y", .matrix .int), ("select_two_args_arg", .fn 2)],
   matrixSelectionBody "matrix_selection_two_args" "selection_two_args" matrixX matrixY selectArg []⟩
/-- `dissolve_selection_two_args_fn_decl` (644-655). -/
def dissolveSelection : Decl :=
  ⟨"dissolve_selection_two_args", [("x", .list .int), ("y", .list .int), ("opacity", .int), ("rand_cons", .int),
    ("dissolve_select_two_args_arg", .fn 4)], selectionBody "dissolve_selection_two_args" x y dissolveArg [opacity, randCons]⟩
/-- `dissolve_matrix_selection_two_args_fn_decl` (587-598). -/
def dissolveMatrixSelection : Decl :=
  ⟨"dissolve_matrix_selection_two_args", [("matrix_x", .matrix .int), ("matrix_y", .matrix .int), ("opacity", .int),
    ("rand_cons", .int), ("dissolve_select_two_args_arg", .fn 4)],
   matrixSelectionBody "dissolve_matrix_selection_two_args" "dissolve_selection_two_args" matrixX matrixY dissolveArg [opacity, randCons]⟩

/-- `elemwise_body` (707-747). -/
def elemwiseBody (left right : Obj) (compute : Obj → Obj → Obj) (vecFn matFn tenFn : String) : Option Obj :=
  match left.ty, right.ty with
  | .tensor3d _, .tensor3d _ => do
    let cur := call matFn (.matrix .int) [← first left, ← first right]
    let recursed := call tenFn (.tensor3d .int) [← rest left, ← rest right]
    let general ← recursed.prepend cur
    pure (ite' (← mismatch left right) (tensor3dEmpty .int) general)
  | .matrix _, .matrix _ => do
    let cur := call vecFn (.list .int) [← first left, ← first right]
    let recursed := call matFn (.matrix .int) [← rest left, ← rest right]
    let general ← recursed.prepend cur
    pure (ite' (← mismatch left right) (matrixEmpty .int) general)
  | .list .int, .list .int => do
    let cur := compute (← first left) (← first right)
    let recursed := call vecFn (.list .int) [← rest left, ← rest right]
    let general ← recursed.prepend cur
    pure (ite' (← mismatch left right) (listEmpty .int) general)
  | _, _ => none

/-- `scalar_body` (750-773). -/
def scalarBody (scalar v : Obj) (compute : Obj → Obj → Obj) (vecFn matFn : String) : Option Obj :=
  match v.ty with
  | .matrix _ => do
    let cur := call vecFn (.list .int) [scalar, ← first v]
    let recursed := call matFn (.matrix .int) [scalar, ← rest v]
    let general ← recursed.prepend cur
    pure (ite' (← orObjs [v.len.lt (.int 1)]) (matrixEmpty .int) general)
  | .list .int => do
    let cur := compute scalar (← first v)
    let recursed := call vecFn (.list .int) [scalar, ← rest v]
    let general ← recursed.prepend cur
    pure (ite' (← orObjs [v.len.lt (.int 1)]) (listEmpty .int) general)
  | _ => none

/-- `fn_decl_recursive(vec_fn, List[Int], elemwise_body(x, y, ..), x, y)`. -/
def vecElemwise (compute : Obj → Obj → Obj) (vecFn matFn tenFn : String) : Decl :=
  ⟨vecFn, [("x", .list .int), ("y", .list .int)], elemwiseBody x y compute vecFn matFn tenFn⟩
/-- The same for matrices. -/
def matElemwise (compute : Obj → Obj → Obj) (vecFn matFn tenFn : String) : Decl :=
  ⟨matFn, [("matrix_x", .matrix .int), ("matrix_y", .matrix .int)], elemwiseBody matrixX matrixY compute vecFn matFn tenFn⟩
/-- The same for tensors. -/
def tenElemwise (compute : Obj → Obj → Obj) (vecFn matFn tenFn : String) : Decl :=
  ⟨tenFn, [("tensor3d_x", .tensor3d .int), ("tensor3d_y", .tensor3d .int)],
   elemwiseBody tensorX tensorY compute vecFn matFn tenFn⟩
/-- `fn_decl_recursive(vec_fn, List[Int], scalar_body(a, x, ..), a, x)`. -/
def vecScalar (compute : Obj → Obj → Obj) (vecFn matFn : String) : Decl :=
  ⟨vecFn, [("a", .int), ("x", .list .int)], scalarBody a x compute vecFn matFn⟩
/-- The same for matrices. -/
def matScalar (compute : Obj → Obj → Obj) (vecFn matFn : String) : Decl :=
  ⟨matFn, [("a", .int), ("matrix_x", .matrix .int)], scalarBody a matrixX compute vecFn matFn⟩

/-- `vec_elemwise_add` (776-788). -/
def vecElemwiseAdd : Decl := vecElemwise Obj.add "vec_elemwise_add" "matrix_elemwise_add" "tensor3d_elemwise_add"
/-- `matrix_elemwise_add` (790-802). -/
def matElemwiseAdd : Decl := matElemwise Obj.add "vec_elemwise_add" "matrix_elemwise_add" "tensor3d_elemwise_add"
/-- `tensor3d_elemwise_add` (804-816). -/
def tenElemwiseAdd : Decl := tenElemwise Obj.add "vec_elemwise_add" "matrix_elemwise_add" "tensor3d_elemwise_add"
/-- `vec_elemwise_sub` (819-831). -/
def vecElemwiseSub : Decl := vecElemwise Obj.sub "vec_elemwise_sub" "matrix_elemwise_sub" "tensor3d_elemwise_sub"
/-- `matrix_elemwise_sub` (833-845); the function given for the elements is `+`, as in the source (it is not used for matrices). -/
def matElemwiseSub : Decl := matElemwise Obj.add "vec_elemwise_sub" "matrix_elemwise_sub" "tensor3d_elemwise_sub"
/-- `vec_elemwise_mul` (848-860). -/
def vecElemwiseMul : Decl := vecElemwise Obj.mul "vec_elemwise_mul" "matrix_elemwise_mul" "tensor3d_elemwise_mul"
/-- `matrix_elemwise_mul` (862-874). -/
def matElemwiseMul : Decl := matElemwise Obj.mul "vec_elemwise_mul" "matrix_elemwise_mul" "tensor3d_elemwise_mul"
/-- `tensor3d_elemwise_mul` (876-888); `+` for the elements as in the source, not used for tensors. -/
def tenElemwiseMul : Decl := tenElemwise Obj.add "vec_elemwise_mul" "matrix_elemwise_mul" "tensor3d_elemwise_mul"
/-- `vec_elemwise_div` (891-903). -/
def vecElemwiseDiv : Decl := vecElemwise Obj.div "vec_elemwise_div" "matrix_elemwise_div" "tensor3d_elemwise_div"
/-- `matrix_elemwise_div` (905-917). -/
def matElemwiseDiv : Decl := matElemwise Obj.div "vec_elemwise_div" "matrix_elemwise_div" "tensor3d_elemwise_div"
/-- `vec_scalar_add` (920-931). -/
def vecScalarAdd : Decl := vecScalar Obj.add "vec_scalar_add" "matrix_scalar_add"
/-- `matrix_scalar_add` (933-944). -/
def matScalarAdd : Decl := matScalar Obj.add "vec_scalar_add" "matrix_scalar_add"
/-- `vec_scalar_mul` (947-958). -/
def vecScalarMul : Decl := vecScalar Obj.mul "vec_scalar_mul" "matrix_scalar_mul"
/-- `matrix_scalar_mul` (960-971). -/
def matScalarMul : Decl := matScalar Obj.mul "vec_scalar_mul" "matrix_scalar_mul"
/-- `vec_scalar_div` (974-985). -/
def vecScalarDiv : Decl := vecScalar (fun s e => e.div s) "vec_scalar_div" "matrix_scalar_div"
/-- `scalar_vec_div` (987-998). -/
def scalarVecDiv : Decl := vecScalar Obj.div "scalar_vec_div" "scalar_matrix_div"
/-- `matrix_scalar_div` (1000-1011). -/
def matScalarDiv : Decl := matScalar (fun s e => e.div s) "vec_scalar_div" "matrix_scalar_div"
/-- `scalar_matrix_div` (1013-1024). -/
def scalarMatDiv : Decl := matScalar Obj.div "scalar_vec_div" "scalar_matrix_div"
/-- `vec_scalar_sub` (1027-1038). -/
def vecScalarSub : Decl := vecScalar (fun s e => e.sub s) "vec_scalar_sub" "matrix_scalar_sub"
/-- `scalar_vec_sub` (1040-1051). -/
def scalarVecSub : Decl := vecScalar Obj.sub "scalar_vec_sub" "scalar_matrix_sub"
/-- `matrix_scalar_sub` (1053-1064). -/
def matScalarSub : Decl := matScalar (fun s e => e.sub s) "vec_scalar_sub" "matrix_scalar_sub"
/-- `scalar_matrix_sub` (1066-1078); the operands are swapped in the function for the elements, as in the source (not used for
matrices). -/
def scalarMatSub : Decl := matScalar (fun s e => e.sub s) "scalar_vec_sub" "scalar_matrix_sub"

/-- `vec_map_body` (1081-1084). -/
def vecMapBody (vec fn : Obj) : Option Obj := do
  let cur := callValue fn [← first vec]
  let recursed := call "vec_map" (.list .int) [← rest vec, fn]
  let general ← recursed.prepend cur
  pure (ite' (vec.len.lt (.int 1)) (listEmpty .int) general)

/-- `vec_map` (1087-1093). -/
def vecMap : Decl := ⟨"vec_map", [("x", .list .int), ("map_int_to_int", .fn 1)], vecMapBody x mapArg⟩

/-- `integer_exp_fn_decl` (1130-1133). -/
def integerExp : Decl :=
  ⟨"integer_exp", [("n", .int)],
   some (ite' ((Obj.var "n" .int).le (.int 0)) (.int 1)
     (((call "integer_exp" .int [(Obj.var "n" .int).sub (.int 1)]).mul (.int 3)).mod (.int 64)))⟩

/-- `integer_sqrt_helper_body` (1137-1145). -/
def integerSqrtHelperBody (n guess : Obj) : Option Obj := do
  let stop ← orObjs [guess.eq (.int 0), guess.eq (.int 1), guess.gt (.int 64)]
  pure (ite' stop (.int 1) (ite' (guess.eq (n.div guess)) guess
    (call "integer_sqrt_helper" .int [n, (guess.add (n.div guess)).div (.int 2)])))

/-- `integer_sqrt_helper_fn_decl` (1146-1152). -/
def integerSqrtHelper : Decl :=
  ⟨"integer_sqrt_helper", [("n", .int), ("guess", .int)], integerSqrtHelperBody (.var "n" .int) (.var "guess" .int)⟩

/-- `integer_sqrt_fn_decl` (1154-1157). -/
def integerSqrt : Decl :=
  ⟨"integer_sqrt", [("n", .int)], some (call "integer_sqrt_helper" .int [(Obj.var "n" .int).div (.int 2), .var "n" .int])⟩

end Metalift.Ten
