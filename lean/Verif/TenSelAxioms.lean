import Verif.TenAxioms
import Verif.DslFns
import Verif.SmtSpec
/-
Model of the two axioms about selections (`metalift/utils/tenspiler/axioms.py` 205-226, 308-319), and of what is written for them: the
selections take a function, which has no counterpart in SMT, so `toSMT` (`metalift/smt_util.py` 306-526) writes copies of the
selections for the function that is passed and renames the calls in the axioms.
-/
namespace Metalift.Ten.Ax
open Metalift Metalift.Ten

/-- `opacity` and `rand` (`axioms.py` 37-38). -/
def opacityVar : Obj := .var "opacity" .int
@[inherit_doc opacityVar] def randVar : Obj := .var "rand" .int

/-- The common shape of the two axioms; `f` and `v` are the functions on matrices and on vectors, `extra` the arguments after the two
matrices.  The calls do not pass a function (`call_matrix_selection`, `call_selection`, `call_dissolve_matrix_selection`,
`call_dissolve_selection`, `tenspiler_common.py` 295-316). -/
def selAxiom (f v : String) (extra : List Obj) : Option Obj := do
  let lhs := call f (.matrix .int) ([← upTo x, ← upTo y] ++ extra)
  let rhs ← (call f (.matrix .int) ([← oneTo x, ← oneTo y] ++ extra)).prepend
    (call v (.list .int) ([← first x, ← first y] ++ extra))
  pure (impliesObj (← zipPre x y) (lhs.listEq rhs))

/-- `matrix_selection_two_args_axiom` (`axioms.py` 205-212). -/
def matSelAxiom : Option Obj := selAxiom "matrix_selection_two_args" "selection_two_args" []
/-- `dissolve_matrix_selection_two_args_axiom` (`axioms.py` 215-224). -/
def dissolveMatSelAxiom : Option Obj :=
  selAxiom "dissolve_matrix_selection_two_args" "dissolve_selection_two_args" [opacityVar, randVar]

/-- The declarations of the four selections (`tenspiler_common.py` 554-561, 587-598, 614-621, 644-655). -/
def selectionFn : Option FnDecl := declare true selection.name (.list .int) selection.params selection.body
@[inherit_doc selectionFn] def matrixSelectionFn : Option FnDecl :=
  declare true matrixSelection.name (.matrix .int) matrixSelection.params matrixSelection.body
@[inherit_doc selectionFn] def dissolveSelectionFn : Option FnDecl :=
  declare true dissolveSelection.name (.list .int) dissolveSelection.params dissolveSelection.body
@[inherit_doc selectionFn] def dissolveMatrixSelectionFn : Option FnDecl :=
  declare true dissolveMatrixSelection.name (.matrix .int) dissolveMatrixSelection.params dissolveMatrixSelection.body

/-- The copies written for the function `g`: that of the selection on vectors (first round, `smt_util.py` 343-380), and that of its caller,
the selection on matrices (second round, 412-451). -/
def copies (vec mat : Option FnDecl) (g : String) : Option (FnDecl × FnDecl) := do
  let v ← vec
  let m ← mat
  let v' ← specialise v g
  let m' ← specialiseCaller m v'.name v.name
  some (v', m')

/-- One round for an axiom (`smt_util.py` 399-410). -/
def renameRound (new old : String) (e : Expr) : Expr := filterFnArgs (replaceFnName new old e)

/-- The axiom after both rounds, as it is asserted. -/
def asserted (f v : String) (c : FnDecl × FnDecl) (e : Expr) : Expr := renameRound c.2.name f (renameRound c.1.name v e)

end Metalift.Ten.Ax
