import Verif.LlmLoop
import Verif.TenSelAxioms
/-
Model of the changes made for the benchmark `dissolve_blend_8` before a solution of a language model is verified
(`llmlift_scripts/synthesis.py` 464-523), over all attempts for one summary.
-/
namespace Metalift.Llm.Dis
open Metalift Metalift.Llm

/-- `MATRIX_SELECTION_TWO_ARGS`, `SELECTION_TWO_ARGS`, `SELECT_TWO_ARGS_ARG` and the names for `dissolve`
(`metalift/utils/tenspiler/tenspiler_common.py` 64-69). -/
def matName : String := "matrix_selection_two_args"
@[inherit_doc matName] def selName : String := "selection_two_args"
@[inherit_doc matName] def argName : String := "select_two_args_arg"
@[inherit_doc matName] def dMatName : String := "dissolve_matrix_selection_two_args"
@[inherit_doc matName] def dSelName : String := "dissolve_selection_two_args"
@[inherit_doc matName] def dArgName : String := "dissolve_select_two_args_arg"

/-- `Int("opacity").src` and `Int("rand_cons").src` (473-474, 491, 497). -/
def extraVars : List Expr := [.var "opacity" .int, .var "rand_cons" .int]
/-- The same as parameters. -/
def extraParams : List (String × Ty) := [("opacity", .int), ("rand_cons", .int)]

/-- `set_arguments` for the functions passed to selections (470-476).  It changes the declaration itself. -/
def extend (d : FnDecl) : FnDecl :=
  if hasPart argName.toList d.name.toList then { d with params := d.params ++ extraParams } else d

/-- The four passes over an expression (478-499). -/
def rewrite (e : Expr) : Expr :=
  augmentArguments dSelName extraVars 2 (augmentArguments dMatName extraVars 2
    (replaceFnName dSelName selName (replaceFnName dMatName matName e)))

/-- The four passes on a declaration: `map_args` (`metalift/ir.py` 166-180) builds a new declaration; the parameters are variables and stay. -/
def rewriteDecl (d : FnDecl) : FnDecl := { d with body := d.body.map rewrite }

/-- A name in `in_calls` (507-514). -/
def renameIn (s : String) : String :=
  if s = matName then dMatName else if s = selName then dSelName else if s = argName then dArgName else s

/-- `in_calls` (504-515). -/
def renameInCalls (cs : List (String × String)) : List (String × String) := cs.map fun c => (renameIn c.1, renameIn c.2)

/-- The functions of the target language (518-522), with the two declarations for `dissolve`.  The list of the caller is changed. -/
def replaceDsl (dm ds : FnDecl) (dsl : List FnDecl) : List FnDecl :=
  dsl.map fun d => if d.name = matName then dm else if d.name = selName then ds else d

/-- `Expr.__eq__` (`metalift/ir.py` 303-320) of declarations: class, name, body and the names of the parameters. -/
def sameFn (d e : FnDecl) : Bool :=
  decide (d.recursive = e.recursive) && decide (d.name = e.name) && decide (d.params.map Prod.fst = e.params.map Prod.fst) &&
  match d.body, e.body with
  | some b, some c => b.pyEq c
  | none, none => true
  | _, _ => false

/-- Whether `set([*ps_fn_decls, *inv_fn_decls])` (464) keeps a declaration that comes after the declarations `seen`. -/
def isNew (seen : List FnDecl) (d : FnDecl) : Bool := !seen.any (sameFn d)

/-- `list(set(...))` (464); the order, which is arbitrary, is that of the list here. -/
def distinctFns : List FnDecl → List FnDecl → List FnDecl
  | _, [] => []
  | seen, d :: ds => if isNew seen d then d :: distinctFns (seen ++ [d]) ds else distinctFns seen ds

/-- The declarations of the summary after an attempt: those in the set were changed by `set_arguments` (475). -/
def touched : List FnDecl → List FnDecl → List FnDecl
  | _, [] => []
  | seen, d :: ds => if isNew seen d then extend d :: touched (seen ++ [d]) ds else d :: touched seen ds

/-- What is verified in one attempt (464-523): `ps` and `inv` are the declarations of the summary and of the invariants, `cs` the two lists of functions
passed as arguments. -/
def attemptFns (ps inv : List FnDecl) : List FnDecl := (distinctFns [] (ps ++ inv)).map fun d => rewriteDecl (extend d)

/-- The functions verified in the attempts for one summary, with the declarations found for the invariants in each attempt (426-560).  The declarations
of the summary are the same objects in all attempts. -/
def attempts : List FnDecl → List (List FnDecl) → List (List FnDecl)
  | _, [] => []
  | ps, inv :: invs => attemptFns ps inv :: attempts (touched [] ps) invs

end Metalift.Llm.Dis
