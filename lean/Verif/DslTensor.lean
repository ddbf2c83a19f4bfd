import Verif.DslFns
import Verif.DslText
/-
Model of the list of functions of the tensor language, `metalift/utils/tenspiler/constants.py` 46-74.
-/
namespace Metalift.Ten
open Metalift

/-- `fn_decl_recursive` (`metalift/ir.py` 740-749) with the given type. -/
def Decl.recursive (d : Decl) (ret : OTy) : Option FnDecl := declare true d.name ret d.params d.body

/-- `vec_to_int_target_lang` (`metalift/utils/tenspiler/tenspiler_common.py` 1125). -/
def vecToInt : List (Option FnDecl) := [reduceMax.recursive .int, reduceSum.recursive .int, reduceMul.recursive .int]
/-- `matrix_vec_to_vec_target_lang` (1126). -/
def matrixVecToVec : List (Option FnDecl) := [matrixVecMul.recursive (.list .int), vecElemwiseMul.recursive (.list .int), reduceSum.recursive .int]
/-- `vec_vec_to_vec_target_lang` (1097-1102). -/
def vecVecToVec : List (Option FnDecl) := [vecElemwiseAdd, vecElemwiseSub, vecElemwiseMul, vecElemwiseDiv].map fun d => d.recursive (.list .int)
/-- `matrix_matrix_to_matrix_target_lang` (1103-1108). -/
def matrixMatrixToMatrix : List (Option FnDecl) :=
  [matElemwiseAdd, matElemwiseSub, matElemwiseMul, matElemwiseDiv].map fun d => d.recursive (.matrix .int)
/-- `scalar_vec_to_vec_target_lang` (1109-1116). -/
def scalarVecToVec : List (Option FnDecl) :=
  [vecScalarAdd, vecScalarSub, vecScalarMul, vecScalarDiv, scalarVecSub, scalarVecDiv].map fun d => d.recursive (.list .int)
/-- `scalar_matrix_to_matrix_target_lang` (1117-1124). -/
def scalarMatrixToMatrix : List (Option FnDecl) :=
  [matScalarAdd, matScalarSub, matScalarMul, matScalarDiv, scalarMatSub, scalarMatDiv].map fun d => d.recursive (.matrix .int)
/-- `vec_to_vec_target_lang` (1127); `map_int_to_int` (540) has no body. -/
def vecToVecFns : List (Option FnDecl) := [vecMap.recursive (.list .int), some ⟨"map_int_to_int", .int, [("int_x", .int)], none, false⟩]

/-- The arguments of `set` (`constants.py` 46-69). -/
def unsortedFns : List (Option FnDecl) :=
  vecToInt ++ matrixVecToVec ++ vecVecToVec ++ matrixMatrixToMatrix ++ scalarVecToVec ++ scalarMatrixToMatrix ++ vecToVecFns ++
  [matrixSelection.recursive (.matrix .int), selection.recursive (.list .int), vecSliceFn, matrixRowSliceFn, matrixColSliceFn, firstsFn, restsFn,
   matrixTransposeFn] ++ integerFns ++ [iteIntFn]

/-- Insertion into a list sorted by name; a declaration that is already there is left out (the functions of the list differ in their names). -/
def insertFn (d : FnDecl) : List FnDecl → List FnDecl
  | [] => [d]
  | e :: es => if d.name = e.name then e :: es else if d.name < e.name then d :: e :: es else e :: insertFn d es

/-- `sorted(fns, key=lambda x: x.name())` of the set of the declarations (70-74). -/
def sortByName : List FnDecl → List FnDecl
  | [] => []
  | d :: ds => insertFn d (sortByName ds)

/-- `TENSPILER_FNS` (71-74): the declarations with a body, sorted by name. -/
def tenspilerFns : List FnDecl := sortByName (unsortedFns.reduceOption.filter fun d => d.body.isSome)

end Metalift.Ten
