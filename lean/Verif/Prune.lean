import Verif.FnEval
/-
Model of `prune_fn_decls` (`metalift/synthesis_common.py` 22-55).
-/
namespace Metalift

/-- Comparison with `Bool(True).src` and `Bool(False).src` (`metalift/synthesis_common.py` 37, 39, 45, 47). -/
def constBool (e : Expr) : Option Bool :=
  if e.pyEq (boolLit true) then some true
  else if e.pyEq (boolLit false) then some false
  else none

/-- The tests on the condition (`metalift/synthesis_common.py` 37-48): a constant, or a call of a known function whose body is a
constant. -/
def condConst (D : FnDict) (c : Expr) : Option Bool :=
  match constBool c with
  | some b => some b
  | none =>
    match c with
    | .node (.call f) _ _ => ((D.lookup f).bind FnDecl.body).bind constBool
    | _ => none

mutual
/-- `prune_ite` (`metalift/synthesis_common.py` 28-50). -/
def pruneIte (D : FnDict) : Expr → Expr
  | .var n t => .var n t
  | .lit l => .lit l
  | .node op t args =>
    match op, pruneInners D args with
    | .ite, [c, a, b] =>
      match condConst D c with
      | some true => a
      | some false => b
      | none => .node .ite t (pruneItes D args)
    | op, _ => .node op t (pruneItes D args)
/-- `expr.map_args(prune_ite)`. -/
def pruneInner (D : FnDict) : Expr → Expr
  | .var n t => .var n t
  | .lit l => .lit l
  | .node op t args => .node op t (pruneItes D args)
/-- `pruneIte` on lists. -/
def pruneItes (D : FnDict) : List Expr → List Expr
  | [] => []
  | e :: es => pruneIte D e :: pruneItes D es
/-- `pruneInner` on lists. -/
def pruneInners (D : FnDict) : List Expr → List Expr
  | [] => []
  | e :: es => pruneInner D e :: pruneInners D es
end

/-- `prune_fn_decls` (`metalift/synthesis_common.py` 22-55). -/
def pruneFnDecls (D : FnDict) : FnDict :=
  D.map (fun p => (p.1, { p.2 with body := p.2.body.map (pruneIte D) }))

end Metalift
