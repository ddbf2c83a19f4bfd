import Verif.PDecode
import Verif.SmtSem
/-
C52: a concrete answer, and the cases that are not covered.
-/
namespace Metalift
open Smt

deriving instance DecidableEq for FnDecl

/-! ### Non-vacuity and counterexamples -/

/-- The grammar of the invariant below. -/
def exInv : Expr := .node .and .bool [.node .ge .bool [.node .choose .int [.var "n" .int, .var "i" .int], .lit (.int 0)],
  .node .le .bool [.var "i" .int, .node .choose .int [.var "n" .int]]]

/-- `choose(i, n) >= 0 and i <= choose(n)` for `inv0(i, n)`, and `r == n + choose(1)` for `ps0(n, r)`. -/
def exSynths : List SynthFn :=
  [⟨"inv0", exInv, [("i", .int), ("n", .int)]⟩,
   ⟨"ps0", .node .eq .bool [.var "r" .int, .node .add .int [.var "n" .int, .node .choose .int [.lit (.int 1)]]], [("n", .int), ("r", .int)]⟩]

/-- Rosette answers `inv0` only, with the second alternative. -/
def exAnswer : SynthAnswer where
  name := "inv0"
  block := ⟨"/tmp/a.rkt:5:0", "'(define (inv0 i n)", ["   (&& (>= i 0) (<= i (v1))))"]⟩
  shown := .list [.atom "&&", .list [.atom ">=", .atom "i", .atom "0"], .list [.atom "<=", .atom "i", .list [.atom "v1"]]]
  choice := .node .and .bool [.node .ge .bool [.var "i" .int, .lit (.int 0)], .node .le .bool [.var "i" .int, .var "n" .int]]

theorem shows_two {C : List Expr} {op : Op} {t : Ty} {a b r r' : Expr} {h : String} {x y : SExpr} (ho : op ≠ .choose)
    (hh : opHead op (some a.ty) = some h) (h1 : Shows C a x r) (h2 : Shows C b y r') :
    Shows C (.node op t [a, b]) (.list [.atom h, x, y]) (.node op t [r, r']) := by
  refine .node ho hh rfl rfl ?_
  intro i c z q hc hz hq
  match i with
  | 0 => cases hc; cases hz; cases hq; exact h1
  | 1 => cases hc; cases hz; cases hq; exact h2
  | i + 2 => simp at hc

theorem readable_two {E : ReadEnv} {op : Op} {t : Ty} {a b : Expr} (ho : OpOk op t [a.ty, b.ty]) (ha : Readable E a) (hb : Readable E b) :
    Readable E (.node op t [a, b]) := .op ho (by simp [ha, hb])

theorem shows_nonterminal {C : List Expr} {t : Ty} {args : List Expr} {i : Nat} {r : Expr} {v : String} (hv : smtNt i = v)
    (h1 : C[i]? = some (.node .choose t args)) (h2 : allChooses (fun _ as => as.length == 1) (.node .choose t args) = true)
    (h3 : Resolves (.node .choose t args) r) : Shows C (.node .choose t args) (.list [.atom v]) r := by
  subst hv
  exact .nonterminal h1 (fun t as hs => by simpa using allChooses_iff.1 h2 t as hs) h3

theorem exNonterminal : Shows (commonExprs exInv) (.node .choose .int [.var "n" .int]) (.list [.atom "v1"]) (.var "n" .int) :=
  shows_nonterminal (i := 1) (by decide +kernel) (by decide +kernel) (by decide +kernel) (.choose (List.mem_cons_self ..) .var)

theorem exSynths_ok : SolutionOk [] exSynths [exAnswer] where
  names := by decide
  params := by decide
  good := by decide +kernel
  langGood := by simp
  fresh := fun i => ⟨by simp, fun s hs h => by
    have h1 : (smtNt i).toList.head? = some 'v' := by simp [smtNt]
    rw [← h] at h1
    simp only [exSynths, List.mem_cons, List.not_mem_nil, or_false] at hs
    rcases hs with rfl | rfl <;> exact absurd h1 (by decide)⟩
  grammars := fun s hs => by
    simp only [exSynths, List.mem_cons, List.not_mem_nil, or_false] at hs
    rcases hs with rfl | rfl <;> exact grammarB_ok (by decide +kernel)
  answers := fun a ha => by
    rw [List.mem_singleton] at ha
    subst ha
    refine ⟨⟨⟨by decide, by decide, ?_⟩, ?_⟩, _, List.mem_cons_self .., rfl, .inl ?_, ?_⟩
    · intro l hl
      rw [List.mem_singleton.1 hl]
      exact ⟨by decide, by decide, "  (&& (>= i 0) (<= i (v1))))".toList, by decide⟩
    · exact ⟨"'", " i n)", by decide +kernel, .inr rfl, .inl (by decide), by decide +kernel, [.atom "i", .atom "n"], by decide +kernel⟩
    · refine shows_two (by simp) rfl (shows_two (by simp) rfl (.choose (List.mem_cons_of_mem _ (List.mem_cons_self ..)) .var) .lit)
        (shows_two (by simp) rfl .var exNonterminal)
    · have hi : Readable (scopeOf [] exSynths ⟨"inv0", exInv, [("i", .int), ("n", .int)]⟩) (.var "i" .int) := .var (by decide +kernel) (by decide +kernel)
      have hn : Readable (scopeOf [] exSynths ⟨"inv0", exInv, [("i", .int), ("n", .int)]⟩) (.var "n" .int) := .var (by decide +kernel) (by decide +kernel)
      refine readable_two (by simp [OpOk, Expr.ty]) (readable_two (by simp [OpOk, Expr.ty]) hi .lit) (readable_two (by simp [OpOk, Expr.ty]) hi hn)
  once := by decide
  unanswered := fun s hs hn => by
    simp only [exSynths, List.mem_cons, List.not_mem_nil, or_false] at hs
    rcases hs with rfl | rfl
    · simp [exAnswer] at hn
    · constructor
      · intro t args hs
        rw [subExpr_iff] at hs
        simp [Expr.subs, Expr.subss] at hs
        rw [hs.2]
        refine ⟨by simp, fun a ha => ?_⟩
        rw [List.mem_singleton.1 ha]
        intro t' a' hs'
        cases hs'
      · intro t args hs
        rw [subExpr_iff] at hs
        simp [Expr.subs, Expr.subss] at hs

-- the candidates: `inv0` with Rosette's choice, `ps0` with the only choice
example : decodeSolution [] exSynths (answerLines [exAnswer.block]) = some
    [⟨"inv0", .bool, [("i", .int), ("n", .int)],
      some (.node .and .bool [.node .ge .bool [.var "i" .int, .lit (.int 0)], .node .le .bool [.var "i" .int, .var "n" .int]]), true⟩,
     ⟨"ps0", .bool, [("n", .int), ("r", .int)],
      some (.node .eq .bool [.var "r" .int, .node .add .int [.var "n" .int, .lit (.int 1)]]), true⟩] := by decide +kernel

-- the theorem applies to it
example : ∃ cs rs, decodeSolution [] exSynths (answerLines ([exAnswer].map SynthAnswer.block)) = some cs ∧
    cs.map (fun d => (d.name, d.ret, d.params)) = exSynths.map (fun s => (s.name, s.body.ty, s.params)) ∧
    All2 (fun s r => Resolves s.body r ∧ ∀ a ∈ [exAnswer], a.name = s.name → r = a.choice) exSynths rs ∧
    ∀ I, StdCalls I → ∀ ρ f vs v, Computes I ρ (bodiesDict exSynths rs) f vs v → Computes I ρ (cs.map (fun d => (d.name, d))) f vs v :=
  C52_candidates_partial [] exSynths [exAnswer] exSynths_ok

/-- `r == choose(n + choose(n * choose(1)))`: no choice has to be made anywhere. -/
def deepSynths : List SynthFn :=
  [⟨"ps0", .node .eq .bool [.var "r" .int, .node .choose .int [.node .add .int [.var "n" .int, .node .choose .int [.node .mul .int [.var "n" .int,
    .node .choose .int [.lit (.int 1)]]]]]], [("n", .int), ("r", .int)]⟩]

/-- Rosette shows the non-terminal. -/
def deepAnswer : SynthAnswer where
  name := "ps0"
  block := ⟨"/tmp/a.rkt:5:0", "'(define (ps0 n r) (equal? r (v0)))", []⟩
  shown := .list [.atom "equal?", .atom "r", .list [.atom "v0"]]
  choice := .node .eq .bool [.var "r" .int, .node .add .int [.var "n" .int, .node .mul .int [.var "n" .int, .lit (.int 1)]]]

theorem deepShown : ∀ s ∈ deepSynths, Shows (commonExprs s.body) s.body deepAnswer.shown deepAnswer.choice := by
  intro s hs
  rw [List.mem_singleton.1 hs]
  refine shows_two (by simp) rfl .var (shows_nonterminal (i := 0) (by decide +kernel) (by decide +kernel) (by decide +kernel)
    (.choose (List.mem_cons_self ..) (.node (by simp) (.cons .var (.cons ?_ .nil)))))
  exact .choose (List.mem_cons_self ..) (.node (by simp) (.cons .var (.cons (.choose (List.mem_cons_self ..) .lit) .nil)))

/-- C52 fails for deeper nesting: productions are replaced to a depth of one only, and the candidate is about a variable called `(v2)`, which
is not a parameter. -/
theorem C52_nested_choices_refuted :
    (∀ s ∈ deepSynths, NoClash s.body ∧ ChooseTyped s.body ∧ Shows (commonExprs s.body) s.body deepAnswer.shown deepAnswer.choice) ∧
    decodeSolution [] deepSynths (answerLines [deepAnswer.block]) = some
      [⟨"ps0", .bool, [("n", .int), ("r", .int)],
        some (.node .eq .bool [.var "r" .int, .node .add .int [.var "n" .int, .node .mul .int [.var "n" .int, .var "(v2)" .int]]]), true⟩] := by
  refine ⟨fun s hs => ⟨?_, ?_, deepShown s hs⟩, by decide +kernel⟩
  · rw [List.mem_singleton.1 hs]
    intro a b ha hb hab
    have key : (deepSynths.all (fun s => s.body.subs.all (fun a => s.body.subs.all (fun b => !a.pyEq b || decide (a = b))))) = true := by decide +kernel
    simp only [deepSynths, List.all_eq_true, List.mem_singleton, forall_eq] at key
    simpa [hab] using key a ((subExpr_iff _).1 ha) b ((subExpr_iff _).1 hb)
  · rw [List.mem_singleton.1 hs]
    intro t args ha a hm
    have key : (deepSynths.all (fun s => allChooses (fun t args => args.all (fun a => decide (a.ty = t))) s.body)) = true := by decide +kernel
    simp only [deepSynths, List.all_eq_true, List.mem_singleton, forall_eq, allChooses_iff, decide_eq_true_eq] at key
    exact key t args ha a hm

/-- C52 fails when a function of the target language is called like a non-terminal: where Rosette shows the non-terminal `v1`, a call of the
function `v1` is read. -/
theorem C52_nonterminal_name_refuted :
    decodeSolution [⟨"v1", .int, [], some (.lit (.int 7)), true⟩] exSynths (answerLines [exAnswer.block]) = some
    [⟨"inv0", .bool, [("i", .int), ("n", .int)],
      some (.node .and .bool [.node .ge .bool [.var "i" .int, .lit (.int 0)], .node .le .bool [.var "i" .int, .node (.call "v1") .int []]]), true⟩,
     ⟨"ps0", .bool, [("n", .int), ("r", .int)],
      some (.node .eq .bool [.var "r" .int, .node .add .int [.var "n" .int, .lit (.int 1)]]), true⟩] ∧
    ¬ Resolves exInv (.node .and .bool [.node .ge .bool [.var "i" .int, .lit (.int 0)], .node .le .bool [.var "i" .int, .node (.call "v1") .int []]]) := by
  refine ⟨by decide +kernel, fun h => ?_⟩
  cases h with
  | node _ h =>
    cases h with
    | cons _ h =>
      cases h with
      | cons h _ =>
        cases h with
        | node _ h =>
          cases h with
          | cons _ h =>
            cases h with
            | cons h _ =>
              cases h with
              | choose hm h =>
                rw [List.mem_singleton.1 hm] at h
                cases h

end Metalift
