import Verif.PyFrontend
/-
Model of `PredicateTracker` and `Predicate` (`metalift/frontend/python.py` 204-295).
-/
namespace Metalift

/-- `Object.var_name()` (`metalift/ir.py` 797-800), for objects whose source is a variable. -/
def varName : Expr → String
  | .var n _ => n
  | _ => ""

/-- A predicate, reduced to its name and argument objects (`python.py` 204-235). -/
structure Predicate where
  name : String
  args : List Expr

/-- `PredicateTracker` (`python.py` 245-253).  AST nodes are represented by labels. -/
structure Tracker where
  num : Nat := 0
  predicates : List (Nat × Predicate) := []

/-- Insertion by name. -/
def insertObj (x : Expr) : List Expr → List Expr
  | [] => [x]
  | y :: ys => if varName x ≤ varName y then x :: y :: ys else y :: insertObj x ys

/-- `non_args_scope.sort(key=...)` (`python.py` 269). -/
def sortObjs : List Expr → List Expr
  | [] => []
  | x :: xs => insertObj x (sortObjs xs)

/-- `PredicateTracker.invariant` (`python.py` 255-278). -/
def Tracker.invariant (T : Tracker) (fnName : String) (o : Nat) (args inScope : List Expr) :
    Predicate × Tracker :=
  match T.predicates.lookup o with
  | some p => (p, T)
  | none =>
    let nonArgs := ObjectSet.sub (ObjectSet.init inScope) (ObjectSet.init args)
    let p : Predicate := ⟨fnName ++ "_inv" ++ T.num.repr, args ++ sortObjs nonArgs⟩
    (p, { num := T.num + 1, predicates := (o, p) :: T.predicates })

/-- `PredicateTracker.postcondition` (`python.py` 280-292). -/
def Tracker.postcondition (T : Tracker) (fnName : String) (o : Nat) (outs ins : List Expr) :
    Predicate × Tracker :=
  match T.predicates.lookup o with
  | some p => (p, T)
  | none =>
    let p : Predicate := ⟨fnName ++ "_ps", ins ++ outs⟩
    (p, { T with predicates := (o, p) :: T.predicates })

/-- One request to a tracker. -/
inductive Request where
  | inv (fnName : String) (o : Nat) (args inScope : List Expr)
  | ps (fnName : String) (o : Nat) (outs ins : List Expr)

/-- The AST node of a request. -/
def Request.node : Request → Nat
  | .inv _ o _ _ => o
  | .ps _ o _ _ => o

/-- Answering a request. -/
def Tracker.step (T : Tracker) : Request → Predicate × Tracker
  | .inv f o a s => T.invariant f o a s
  | .ps f o a s => T.postcondition f o a s

/-- Answers to a sequence of requests, with the node of each. -/
def Tracker.run (T : Tracker) : List Request → List (Nat × Predicate)
  | [] => []
  | r :: rs => (r.node, (T.step r).1) :: (T.step r).2.run rs

end Metalift
