import Verif.Simplify
/-
Model of the grammars printed for synthesis: `findCommonExprs`, `replaceExprs` (`metalift/ir.py` 190-282) and the part of
`Synth.to_rosette`/`Synth.toSMT` (2854-2957) that computes the productions, and of `chooseArbitrarily` (185-188, 3004-3005).
-/
namespace Metalift

mutual
/-- `Expr.findCommonExprs` (`metalift/ir.py` 190-210).  When an equal expression is known, its entry is replaced and its arguments
are not visited again. -/
def findCommon : Expr → List (Expr × Nat) → List (Expr × Nat)
  | .var n t, cnts =>
    match cnts.findIdx? (fun p => (Expr.var n t).pyEq p.1) with
    | none => cnts ++ [(.var n t, 1)]
    | some i => cnts.set i (.var n t, (cnts.getD i (.var n t, 0)).2 + 1)
  | .lit l, cnts =>
    match cnts.findIdx? (fun p => (Expr.lit l).pyEq p.1) with
    | none => cnts ++ [(.lit l, 1)]
    | some i => cnts.set i (.lit l, (cnts.getD i (.lit l, 0)).2 + 1)
  | .node op t args, cnts =>
    match cnts.findIdx? (fun p => (Expr.node op t args).pyEq p.1) with
    | none => findCommons args (cnts ++ [(.node op t args, 1)])
    | some i => cnts.set i (.node op t args, (cnts.getD i (.node op t args, 0)).2 + 1)
/-- The loop over the arguments. -/
def findCommons : List Expr → List (Expr × Nat) → List (Expr × Nat)
  | [], cnts => cnts
  | e :: es, cnts => findCommons es (findCommon e cnts)
end

/-- `isinstance(k, Choose)`. -/
def Expr.isChoose : Expr → Bool
  | .node .choose _ _ => true
  | _ => false

/-- The expressions that become non-terminals (`metalift/ir.py` 2857-2863). -/
def commonExprs (e : Expr) : List Expr := ((findCommon e []).map Prod.fst).filter Expr.isChoose

mutual
/-- `Expr.replaceExprs` with `skipTop=False` (`metalift/ir.py` 212-282); `nm i` is the text of the `i`-th non-terminal
(`"(v%d)"` for Rosette, `"v%d"` for SMT). -/
def replaceExprs (nm : Nat → String) (C : List Expr) : Expr → Expr
  | .var n t =>
    match C.findIdx? (fun c => (Expr.var n t).pyEq c) with
    | some i => .var (nm i) t
    | none => .var n t
  | .lit l =>
    match C.findIdx? (fun c => (Expr.lit l).pyEq c) with
    | some i => .var (nm i) (Expr.lit l).ty
    | none => .lit l
  | .node op t args =>
    match C.findIdx? (fun c => (Expr.node op t args).pyEq c) with
    | some i => .var (nm i) t
    | none => .node op t (replaceExprss nm C args)
def replaceExprss (nm : Nat → String) (C : List Expr) : List Expr → List Expr
  | [] => []
  | e :: es => replaceExprs nm C e :: replaceExprss nm C es
end

/-- `Expr.replaceExprs` with `skipTop=True`. -/
def replaceExprsTop (nm : Nat → String) (C : List Expr) : Expr → Expr
  | .node op t args => .node op t (replaceExprss nm C args)
  | e => e

/-- A grammar: the start production `rv` and the productions `v0, v1, ...`. -/
structure Grammar where
  start : Expr
  rules : List Expr

/-- The productions printed by `Synth.to_rosette` (`metalift/ir.py` 2854-2892) and `Synth.toSMT` (2894-2957). -/
def synthGrammar (nm : Nat → String) (e : Expr) : Grammar :=
  { start := replaceExprs nm (commonExprs e) e
    rules := (commonExprs e).map (replaceExprsTop nm (commonExprs e)) }

/-- Non-terminals in Rosette (`metalift/ir.py` 279). -/
def rosetteNt (i : Nat) : String := "(v" ++ i.repr ++ ")"
/-- Non-terminals in SMT (`metalift/ir.py` 281). -/
def smtNt (i : Nat) : String := "v" ++ i.repr

mutual
/-- `chooseArbitrarily` (`metalift/ir.py` 185-188, overridden for `Choose` 3004-3005, which does not look into the alternative
it returns). -/
def chooseArbitrarily : Expr → Expr
  | .var n t => .var n t
  | .lit l => .lit l
  | .node .choose t args => args.headD (.node .choose t [])
  | .node op t args => .node op t (chooseArbitrarilys args)
def chooseArbitrarilys : List Expr → List Expr
  | [] => []
  | e :: es => chooseArbitrarily e :: chooseArbitrarilys es
end

end Metalift
