import Verif.Tenspiler
import Verif.SmtText
/-
Model of the selection of target-language functions and axioms for the verification of solutions of language models
(`llmlift_scripts/synthesis.py` 126-183, 303-309; `metalift/synthesis_common.py` 58-71), and of the declarations of the tensor
language that are left out (`metalift/utils/tenspiler/tenspiler_common.py` 1130-1157, 2171-2243).
-/
namespace Metalift.Ten
open Metalift

/-! ### Which functions are written -/

/-- The set of names in `process_dsl_fns_for_smt` (`synthesis.py` 140-147). -/
def inSmtFiles : List String := ["vec_slice", "matrix_col_slice", "firsts", "rests", "matrix_transpose", "matrix_row_slice"]

/-- Which functions `process_dsl_fns_for_smt` leaves out because of their names (137-148). -/
def leftOutName (n : String) : Bool := "integer".toList.isPrefixOf n.toList || decide (n ∈ inSmtFiles)

/-- Which functions `process_dsl_fns_for_smt` leaves out because no function is passed to them (150-157). -/
def leftOutFn (inCalls : List (String × String)) (d : FnDecl) : Bool :=
  d.params.any (fun p => p.2.isFn) && decide (d.name ∉ inCalls.map Prod.fst)

/-- `process_dsl_fns_for_smt` (126-160). -/
def processForSmt (dsl : List FnDecl) (inCalls : List (String × String)) : List FnDecl :=
  dsl.filter (fun d => !leftOutName d.name && !leftOutFn inCalls d)

/-- `process_dsl_fns_for_rosette` (163-183). -/
def processForRosette (dsl : List FnDecl) : List FnDecl :=
  dsl.filter (fun d => !("integer".toList.isPrefixOf d.name.toList) && decide (d.name ≠ "firsts") && d.body.isSome)

/-- `get_used_fn_names` (`metalift/synthesis_common.py` 58-71).  The result is a set; its order is arbitrary. -/
def usedFnNames (fns : List FnDecl) : List String :=
  (fns.flatMap fun d => match d.body with | none => [] | some b => b.callNames).eraseDups

/-- The axioms given to the solver (`synthesis.py` 305-309); `table` is `dsl_fn_name_to_axioms`. -/
def neededAxioms (table : List (String × List Smt.Ax)) (fns : List FnDecl) : List Smt.Ax :=
  (usedFnNames fns).flatMap fun n => (table.lookup n).getD []

/-! ### Declarations of functions that the files define -/

/-- `fn_decl` and `fn_decl_recursive` (`metalift/ir.py` 728-749); `none`: building the body raises. -/
def declare (recursive : Bool) (name : String) (ret : OTy) (params : List (String × OTy)) (body : Option Obj) : Option FnDecl :=
  body.map fun b => ⟨name, ret.toTy, params.map (fun p => (p.1, p.2.toTy)), some b.src, recursive⟩

/-- `lst`, `matrix`, `start`, `end` (`tenspiler_common.py` 2171-2174). -/
def lst : Obj := .var "lst" (.list .int)
@[inherit_doc lst] def matrix : Obj := .var "matrix" (.matrix .int)
@[inherit_doc lst] def start : Obj := .var "start" .int
@[inherit_doc lst] def stop : Obj := .var "end" .int

/-- `lst[:end][start:]`. -/
def takeDrop (l : Obj) : Option Obj := do
  (← l.getitem (.slice none (some stop) false)).getitem (.slice (some start) none false)

/-- `vec_slice_fn_decl` (2177-2179). -/
def vecSliceFn : Option FnDecl :=
  declare false "vec_slice" (.list .int) [("lst", .list .int), ("start", .int), ("end", .int)] (takeDrop lst)

/-- `matrix_row_slice_fn_decl` (2191-2193). -/
def matrixRowSliceFn : Option FnDecl :=
  declare false "matrix_row_slice" (.matrix .int) [("matrix", .matrix .int), ("start", .int), ("end", .int)] (takeDrop matrix)

/-- `matrix_col_slice_body` (2205-2209). -/
def matrixColSliceBody : Option Obj := do
  let row ← (← first matrix).getitem (.slice (some start) (some stop) false)
  let general ← ((← rest matrix).colSlice start stop).prepend row
  pure (ite' (matrix.len.lt (.int 1)) (matrixEmpty .int) general)

/-- `matrix_col_slice_fn_decl` (2210-2212). -/
def matrixColSliceFn : Option FnDecl :=
  declare true "matrix_col_slice" (.matrix .int) [("matrix", .matrix .int), ("start", .int), ("end", .int)] matrixColSliceBody

/-- `firsts_body` (2224-2228). -/
def firstsBody : Option Obj := do
  let general ← (call "firsts" (.list .int) [← rest matrix]).prepend (← first (← first matrix))
  pure (ite' (matrix.len.lt (.int 1)) (listEmpty .int) general)

/-- `firsts_fn_decl` (2229). -/
def firstsFn : Option FnDecl := declare true "firsts" (.list .int) [("matrix", .matrix .int)] firstsBody

/-- `rests_fn_decl` (2230-2233). -/
def restsFn : Option FnDecl := declare true "rests" (.matrix .int) [("matrix", .matrix .int)] do
  pure (ite' (matrix.len.lt (.int 1)) (matrixEmpty .int) (matrix.colSlice (.int 1) (← first matrix).len))

/-- `matrix_transpose_fn_decl` (2234-2243). -/
def matrixTransposeFn : Option FnDecl := declare true "matrix_transpose" (.matrix .int) [("matrix", .matrix .int)] do
  let general ← (call "rests" (.matrix .int) [matrix]).transpose.prepend (call "firsts" (.list .int) [matrix])
  pure (ite' (matrix.len.lt (.int 1)) (matrixEmpty .int) general)

/-- `integer_exp_fn_decl`, `integer_sqrt_helper_fn_decl` and `integer_sqrt_fn_decl` (1130-1157). -/
def integerFns : List (Option FnDecl) :=
  [declare true integerExp.name .int integerExp.params integerExp.body,
   declare true integerSqrtHelper.name .int integerSqrtHelper.params integerSqrtHelper.body,
   declare false integerSqrt.name .int integerSqrt.params integerSqrt.body]

/-- The declarations of the tensor language that `process_dsl_fns_for_smt` leaves out because of their names, except the
transposition. -/
def libraryFns : List FnDecl :=
  (integerFns ++ [vecSliceFn, matrixRowSliceFn, matrixColSliceFn, firstsFn, restsFn]).reduceOption

/-- `ite_int` (442), a declaration of the tensor language that is written. -/
def iteIntFn : Option FnDecl := declare false iteInt.name .int iteInt.params iteInt.body

end Metalift.Ten
