import Verif.SmtSem
/-
Specification: the `synth-fun` commands of the SyGuS language and the terms their grammars generate.  Nothing here mentions metalift.
-/
namespace Metalift
namespace Smt

/-- A production: non-terminal, its sort, its alternatives. -/
abbrev Production := String × SExpr × List SExpr

/-- A `synth-fun` command with a grammar. -/
structure SynthFun where
  name : String
  params : List (String × SExpr)
  ret : SExpr
  rules : List Production

/-- The non-terminals are declared with their sorts, then the productions are given in the same order. -/
def productions : List SExpr → List SExpr → Option (List Production)
  | [], [] => some []
  | .list [.atom n, s] :: ds, .list [.atom m, t, .list alts] :: gs =>
    if n = m ∧ s = t ∧ alts ≠ [] then (productions ds gs).map ((n, s, alts) :: ·) else none
  | _, _ => none

/-- `(synth-fun f ((x s) ...) r ((n s) ...) ((n s (t ...)) ...))`. -/
def readSynthFun : SExpr → Option SynthFun
  | .list [.atom "synth-fun", .atom f, .list ps, r, .list ds, .list gs] => do
    let params ← binders ps
    let rules ← productions ds gs
    some ⟨f, params, r, rules⟩
  | _ => none

/-- The non-terminals are different from each other and from the parameters, and the first one has the sort of the result. -/
def SynthFun.WellFormed (c : SynthFun) : Prop :=
  (c.rules.map (·.1)).Nodup ∧ (∀ n ∈ c.rules.map (·.1), n ∉ c.params.map Prod.fst) ∧ (c.params.map Prod.fst).Nodup ∧
    (c.rules.map (·.2.1)).head? = some c.ret

/-- The terms that a term with non-terminals generates. -/
inductive Gen (R : List Production) : SExpr → SExpr → Prop where
  | nonterm {n s alts a t} : (n, s, alts) ∈ R → a ∈ alts → Gen R a t → Gen R (.atom n) t
  | atom {a} : a ∉ R.map (·.1) → Gen R (.atom a) (.atom a)
  | qual {a s} : Gen R (.list [.atom "as", a, s]) (.list [.atom "as", a, s])
  | app {h as ts} : h ≠ "as" → All2 (Gen R) as ts → Gen R (.list (.atom h :: as)) (.list (.atom h :: ts))

/-- The terms of the grammar: those generated by the first non-terminal. -/
def SynthFun.Generates (c : SynthFun) (t : SExpr) : Prop := ∃ n, (c.rules.map (·.1)).head? = some n ∧ Gen c.rules (.atom n) t

end Smt
end Metalift
