import Verif.LlmDissolve
import Verif.LlmSpec
import Verif.PTenspiler
/-
What a solution for `dissolve_blend_8` means in Python: a lambda expression passed to a selection uses its two parameters and the variables of the
function in which it stands.
-/
namespace Metalift.Llm.Dis
open Metalift Metalift.Llm Metalift.Ten

/-- The integer, the vector and the matrix that a value is. -/
def intOf : Val → Option Int
  | .int i => some i
  | _ => none
@[inherit_doc intOf] def vecOf : Val → Option (List Int)
  | .list vs => vs.mapM intOf
  | _ => none
@[inherit_doc intOf] def matOf : Val → Option (List (List Int))
  | .list vs => vs.mapM vecOf
  | _ => none

/-- The value of a function with two parameters called where the variables have the values `ρ`. -/
def closure (I : Interp) (ρ : Env) (d : FnDecl) (x y : Int) : Option Val :=
  match d.params, d.body with
  | [(p, _), (q, _)], some b => some (eval I ((ρ.set p (.int x)).set q (.int y)) b)
  | _, _ => none

/-- The values of the function for the pairs of elements; the empty list when the lengths differ. -/
def select (f : Int → Int → Option Val) (xs ys : List Int) : Option Val :=
  if xs.length = ys.length then ((xs.zip ys).mapM fun p => f p.1 p.2).map .list else some (.list [])

/-- The same for matrices of the same shape without empty rows (with empty rows the declared functions differ, C31). -/
def selectMat (f : Int → Int → Option Val) (ms ns : List (List Int)) : Option Val :=
  if ms.map List.length = ns.map List.length ∧ [] ∉ ms then ((ms.zip ns).mapM fun p => select f p.1 p.2).map .list else none

mutual
/-- The value of an expression of a solution, `none` when a function is used otherwise than as the third argument of a selection.  `L` are the lambda
expressions with their names. -/
def valueIn (I : Interp) (L : List FnDecl) (ρ : Env) : Expr → Option Val
  | .var n t => if t.isFn then none else some (ρ n)
  | .lit l => some l.val
  | .node (.call f) _ [a, b, .var g t] =>
    match valueIn I L ρ a, valueIn I L ρ b with
    | some v, some w =>
      if f = "matrix_selection_two_args" then do
        let d ← L.find? (fun d => decide (d.name = g))
        selectMat (closure I ρ d) (← matOf v) (← matOf w)
      else if f = "selection_two_args" then do
        let d ← L.find? (fun d => decide (d.name = g))
        select (closure I ρ d) (← vecOf v) (← vecOf w)
      else if t.isFn then none else some (I.fn f [v, w, ρ g])
    | _, _ => none
  | .node (.call f) _ args =>
    if f = "matrix_selection_two_args" ∨ f = "selection_two_args" then none else (valuesIn I L ρ args).map (I.fn f)
  | .node op _ args => (valuesIn I L ρ args).map (evalOp I op)
@[inherit_doc valueIn] def valuesIn (I : Interp) (L : List FnDecl) (ρ : Env) : List Expr → Option (List Val)
  | [] => some []
  | e :: es => match valueIn I L ρ e, valuesIn I L ρ es with
    | some v, some vs => some (v :: vs)
    | _, _ => none
end

/-- What is required of a lambda expression: the name the parser gives it, two integer parameters with other names than the two additional ones, and no
other variables than these four; no selection inside. -/
structure LamOk (d : FnDecl) : Prop where
  named : ∃ s, d.name = "select_two_args_arg" ++ s
  shape : ∃ p q b, d.params = [(p, .int), (q, .int)] ∧ d.body = some b ∧ p ≠ q ∧ p ∉ ["opacity", "rand_cons"] ∧ q ∉ ["opacity", "rand_cons"] ∧
    (∀ x ∈ b.vars, x ∈ [p, q, "opacity", "rand_cons"]) ∧
    ∀ f ∈ b.callNames, f ∉ ["matrix_selection_two_args", "selection_two_args", "dissolve_matrix_selection_two_args", "dissolve_selection_two_args"]

/-- What the verifier is given: the primitives, the two declarations for `dissolve`, and the changed lambda expressions, which are what is applied when
their names are passed. -/
structure Defs (I : Interp) (L : List FnDecl) : Prop where
  prims : ListPrims I
  vec : dissolveSelection.Holds I
  mat : dissolveMatrixSelection.Holds I
  lams : ∀ d ∈ L, DeclHolds I (rewriteDecl (extend d))
  apply : ∀ d ∈ L, ∀ vs, I.apply (.fn d.name) vs = I.fn d.name vs

end Metalift.Llm.Dis
