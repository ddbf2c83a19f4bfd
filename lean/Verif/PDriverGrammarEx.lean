import Verif.PDriverGrammar
import Verif.PDecodeEx
import Verif.PLlvmEndEx
/-
A complete example for C48 and C51 from the grammars: the sum of a list, where Rosette has made three choices.
-/
namespace Metalift
open Smt

/-! ### Checking `Within` -/

mutual
/-- Decides `Within`. -/
def withinB (S : Shape) : Expr → Bool
  | .var n t => S.var n t
  | .lit l => S.lit l
  | .node .choose t args => S.choose && args.all (fun a => decide (a.ty = t)) && withinsB S args
  | .node op t args => S.node op t (args.map Expr.ty) && withinsB S args
def withinsB (S : Shape) : List Expr → Bool
  | [] => true
  | e :: es => withinB S e && withinsB S es
end

theorem withinsB_iff {S : Shape} {es : List Expr} : withinsB S es = true ↔ ∀ e ∈ es, withinB S e = true := by
  induction es with
  | nil => simp [withinsB]
  | cons e es ih => simp [withinsB, ih]

theorem withinB_ok {S : Shape} (e : Expr) (h : withinB S e = true) : Within S e := by
  induction e using Expr.ind with
  | hv n t => rw [withinB] at h; exact .var h
  | hl l => rw [withinB] at h; exact .lit h
  | hn op t args ih =>
    by_cases ho : op = .choose
    · subst ho
      simp only [withinB, Bool.and_eq_true, withinsB_iff, List.all_eq_true, decide_eq_true_eq] at h
      exact .choose h.1.1 h.1.2 (fun a ha => ih a ha (h.2 a ha))
    · have : withinB S (.node op t args) = (S.node op t (args.map Expr.ty) && withinsB S args) := by
        cases op <;> first | rfl | exact absurd rfl ho
      rw [this, Bool.and_eq_true, withinsB_iff] at h
      exact .node ho h.1 (fun a ha => ih a ha (h.2 a ha))

theorem shows_one {C : List Expr} {op : Op} {t : Ty} {a r : Expr} {h : String} {x : SExpr} (ho : op ≠ .choose)
    (hh : opHead op (some a.ty) = some h) (h1 : Shows C a x r) : Shows C (.node op t [a]) (.list [.atom h, x]) (.node op t [r]) := by
  refine .node ho hh rfl rfl ?_
  intro i c z q hc hz hq
  match i with
  | 0 => cases hc; cases hz; cases hq; exact h1
  | i + 1 => simp at hc

theorem shows_three {C : List Expr} {op : Op} {t : Ty} {a b c r r' r'' : Expr} {h : String} {x y z : SExpr} (ho : op ≠ .choose)
    (hh : opHead op (some a.ty) = some h) (h1 : Shows C a x r) (h2 : Shows C b y r') (h3 : Shows C c z r'') :
    Shows C (.node op t [a, b, c]) (.list [.atom h, x, y, z]) (.node op t [r, r', r'']) := by
  refine .node ho hh rfl rfl ?_
  intro i c z q hc hz hq
  match i with
  | 0 => cases hc; cases hz; cases hq; exact h1
  | 1 => cases hc; cases hz; cases hq; exact h2
  | 2 => cases hc; cases hz; cases hq; exact h3
  | i + 3 => simp at hc

namespace SumUp

def tail : Expr := mkCall "list_tail" (.list .int) [l, i]

/-- `0 <= i and choose(r, i) <= len(l) and r + choose(sum(l), sum(l[i:])) == sum(l)` -/
def invGrammar : Expr :=
  mkAnd [.node .le .bool [intLit 0, i], .node .le .bool [.node .choose .int [r, i], len l],
    .node .eq .bool [.node .add .int [r, .node .choose .int [sum l, sum tail]], sum l]]

/-- `r == choose(len(l), sum(l))` -/
def psGrammar : Expr := .node .eq .bool [r, .node .choose .int [len l, sum l]]

def synths : List SynthFn := [⟨"f_inv0", invGrammar, [("l", .list .int), ("i", .int), ("r", .int)]⟩, ⟨"f_ps", psGrammar, [("l", .list .int), ("r", .int)]⟩]

theorem grammars_ok : GrammarsOk ["f"] [exSum] [] vars vc synths where
  langOk := by decide +kernel
  langNames := by decide
  axOk := by simp
  varsOk := by decide +kernel
  vcOk := by decide +kernel
  langConst := by
    intro d hd b hb
    simp only [List.mem_singleton] at hd
    subst hd
    cases hb
    decide +kernel
  axConst := by simp
  fnConst := by decide +kernel
  names := by
    intro s hs
    simp only [synths, List.mem_cons, List.not_mem_nil, or_false] at hs
    rcases hs with rfl | rfl
    · exact ⟨by decide +kernel, "f", by simp, .inr ⟨0, rfl⟩⟩
    · exact ⟨by decide +kernel, "f", by simp, .inl rfl⟩
  params := by
    intro s hs
    simp only [synths, List.mem_cons, List.not_mem_nil, or_false] at hs
    rcases hs with rfl | rfl <;> exact ⟨by decide +kernel, by simp⟩
  bodies := by
    intro s hs
    simp only [synths, List.mem_cons, List.not_mem_nil, or_false] at hs
    rcases hs with rfl | rfl <;> exact ⟨by decide +kernel, withinB_ok _ (by decide +kernel)⟩

theorem post_grammar (ops : List Op) (h : .eq ∈ ops) : ∀ s ∈ synths, s.name = "f_ps" → PostGrammar ops .int [.list .int] s := by
  intro s hs hn
  simp only [synths, List.mem_cons, List.not_mem_nil, or_false] at hs
  rcases hs with rfl | rfl
  · exact absurd hn (by decide)
  · exact ⟨[("l", .list .int)], "r", .eq, .bool, _, rfl, rfl, h, rfl, withinB_ok _ (by decide +kernel)⟩

/-- Rosette's answer. -/
def answers : List SynthAnswer := [
  { name := "f_inv0"
    block := ⟨"/tmp/f.rkt:9:0", "'(define (f_inv0 l i r)", ["   (&& (<= 0 i)", "       (<= i (length l))",
      "       (equal? (+ r (sum (list-tail-noerr l i))) (sum l))))"]⟩
    shown := .list [.atom "&&", .list [.atom "<=", .atom "0", .atom "i"], .list [.atom "<=", .atom "i", .list [.atom "length", .atom "l"]],
      .list [.atom "equal?", .list [.atom "+", .atom "r", .list [.atom "sum", .list [.atom "list-tail-noerr", .atom "l", .atom "i"]]],
        .list [.atom "sum", .atom "l"]]]
    choice := mkAnd [.node .le .bool [intLit 0, i], .node .le .bool [i, len l], .node .eq .bool [.node .add .int [r, sum tail], sum l]] },
  { name := "f_ps"
    block := ⟨"/tmp/f.rkt:7:0", "'(define (f_ps l r) (equal? r (sum l)))", []⟩
    shown := .list [.atom "equal?", .atom "r", .list [.atom "sum", .atom "l"]]
    choice := .node .eq .bool [r, sum l] }]

theorem shows_len {C : List Expr} : Shows C (len l) (.list [.atom "length", .atom "l"]) (len l) := shows_one (by simp) rfl .var
theorem shows_sum {C : List Expr} : Shows C (sum l) (.list [.atom "sum", .atom "l"]) (sum l) := shows_one (by simp) rfl .var

theorem solution_ok : SolutionOk [exSum] synths answers where
  names := by decide
  params := by decide
  good := by decide +kernel
  langGood := by decide +kernel
  fresh := fun n => by
    have h1 : (smtNt n).toList.head? = some 'v' := by simp [smtNt]
    refine ⟨fun d hd h => ?_, fun s hs h => ?_⟩ <;> rw [← h] at h1
    · rw [List.mem_singleton.1 hd] at h1
      exact absurd h1 (by decide)
    · simp only [synths, List.mem_cons, List.not_mem_nil, or_false] at hs
      rcases hs with rfl | rfl <;> exact absurd h1 (by decide)
  grammars := fun s hs => by
    simp only [synths, List.mem_cons, List.not_mem_nil, or_false] at hs
    rcases hs with rfl | rfl <;> exact grammarB_ok (by decide +kernel)
  answers := fun a ha => by
    simp only [answers, List.mem_cons, List.not_mem_nil, or_false] at ha
    rcases ha with rfl | rfl
    · refine ⟨⟨⟨by decide, by decide, ?_⟩, ?_⟩, _, List.mem_cons_self .., rfl, .inl ?_, ?_⟩
      · intro t ht
        simp only [List.mem_cons, List.not_mem_nil, or_false] at ht
        rcases ht with rfl | rfl | rfl
        · exact ⟨by decide, by decide, _, rfl⟩
        · exact ⟨by decide, by decide, _, rfl⟩
        · exact ⟨by decide, by decide, _, rfl⟩
      · exact ⟨"'", " l i r)", by decide +kernel, .inr rfl, .inl (by decide), by decide +kernel, [.atom "l", .atom "i", .atom "r"], by decide +kernel⟩
      · refine shows_three (by simp) rfl (shows_two (by simp) rfl .lit .var)
          (shows_two (by simp) rfl (.choose (List.mem_cons_of_mem _ (List.mem_cons_self ..)) .var) shows_len)
          (shows_two (by simp) rfl (shows_two (by simp) rfl .var (.choose (List.mem_cons_of_mem _ (List.mem_cons_self ..))
            (shows_one (by simp) rfl (shows_two (by simp) rfl .var .var)))) shows_sum)
      · have hl : Readable (scopeOf [exSum] synths ⟨"f_inv0", invGrammar, [("l", .list .int), ("i", .int), ("r", .int)]⟩) l := .var (by decide +kernel) (by decide +kernel)
        have hi : Readable (scopeOf [exSum] synths ⟨"f_inv0", invGrammar, [("l", .list .int), ("i", .int), ("r", .int)]⟩) i := .var (by decide +kernel) (by decide +kernel)
        have hr : Readable (scopeOf [exSum] synths ⟨"f_inv0", invGrammar, [("l", .list .int), ("i", .int), ("r", .int)]⟩) r := .var (by decide +kernel) (by decide +kernel)
        have hlen : Readable (scopeOf [exSum] synths ⟨"f_inv0", invGrammar, [("l", .list .int), ("i", .int), ("r", .int)]⟩) (len l) := .prim .list_length (by simp [hl])
        have hs : ∀ e, Readable (scopeOf [exSum] synths ⟨"f_inv0", invGrammar, [("l", .list .int), ("i", .int), ("r", .int)]⟩) e → Readable (scopeOf [exSum] synths ⟨"f_inv0", invGrammar, [("l", .list .int), ("i", .int), ("r", .int)]⟩) (sum e) := fun e h =>
          .user (ts := [.list .int]) (by decide +kernel) (by decide +kernel) (by simp [h])
        have ht : Readable (scopeOf [exSum] synths ⟨"f_inv0", invGrammar, [("l", .list .int), ("i", .int), ("r", .int)]⟩) tail := .prim .list_tail (by simp [hl, hi])
        refine .op (by simp [OpOk, Expr.ty]) ?_
        intro a ha
        simp only [List.mem_cons, List.not_mem_nil, or_false] at ha
        rcases ha with rfl | rfl | rfl
        · exact readable_two (by simp [OpOk, Expr.ty, intLit, i]) .lit hi
        · exact readable_two (by simp [OpOk, Expr.ty, len, mkCall, i]) hi hlen
        · exact readable_two (by simp [OpOk, Expr.ty, sum, mkCall]) (readable_two (by simp [OpOk, Expr.ty, sum, mkCall, r]) hr (hs _ ht)) (hs _ hl)
    · refine ⟨⟨⟨by decide, by decide, by simp⟩, ?_⟩, _, List.mem_cons_of_mem _ (List.mem_cons_self ..), rfl, .inl ?_, ?_⟩
      · exact ⟨"'", " l r) (equal? r (sum l)))", by decide +kernel, .inr rfl, .inl (by decide), by decide +kernel, [.atom "l", .atom "r"], by decide +kernel⟩
      · exact shows_two (by simp) rfl .var (.choose (List.mem_cons_of_mem _ (List.mem_cons_self ..)) shows_sum)
      · have hl : Readable (scopeOf [exSum] synths ⟨"f_ps", psGrammar, [("l", .list .int), ("r", .int)]⟩) l := .var (by decide +kernel) (by decide +kernel)
        have hr : Readable (scopeOf [exSum] synths ⟨"f_ps", psGrammar, [("l", .list .int), ("r", .int)]⟩) r := .var (by decide +kernel) (by decide +kernel)
        exact readable_two (by simp [OpOk, Expr.ty, sum, mkCall, r]) hr (.user (ts := [.list .int]) (by decide +kernel) (by decide +kernel) (by simp [hl]))
  once := by decide
  unanswered := fun s hs hn => by
    simp only [synths, List.mem_cons, List.not_mem_nil, or_false] at hs
    rcases hs with rfl | rfl <;> simp [answers] at hn

/-- What is read from the answer. -/
theorem decoded : decodeSolution [exSum] synths (answerLines (answers.map SynthAnswer.block)) = some cands := by decide +kernel

/-- An environment in which Rosette's first answer is this one, and the solver accepts exactly the query for it. -/
def rosetteEnv : DriverEnv where
  poll _ := none
  file _ _ := some ("#t", answerLines (answers.map SynthAnswer.block))
  decode := decodeSolution [exSum] synths
  cvc := driverEnv.cvc

theorem rosette_right : SolverRight rosetteEnv := driver_right

theorem rosette_answers : RosetteAnswers rosetteEnv [exSum] synths :=
  ⟨rfl, fun _ _ rest h => by cases h; exact ⟨answers, rfl, solution_ok⟩⟩

theorem run_eq {asserts : List Expr} (hvc : andObjects asserts = some vc) :
    runSynthesis kahn id [] asserts [exSum] [] vars rosetteEnv 1 = some (.returned cands) := by
  have ht : verifyText kahn id [] [exSum] [] vars vc.simplify cands = some text := by
    unfold verifyText
    simp only
    rw [if_pos (by decide +kernel)]
    simp only [parseCands_id, funext (transformDecl_eq []), List.map_nil]
    rw [show vc.simplify = vc by decide +kernel]
    exact text_eq
  unfold runSynthesis
  rw [hvc]
  simp only [rosetteEnv, driverEnv, rosetteSynthesize, rosetteLoop, rosetteBody, decoded, rosetteVerify, true_or, if_true, ht, verifySynthResult,
    Bool.false_eq_true, if_false, Int.reduceLT]

/-- All hypotheses of `C48_from_grammars_partial` hold for the example. -/
example (w : World) (hw : func.call { postconditions := [] } = some w) (hvc : w.vc = some vc) :
    ∃ D c ps r, All2 (CandidateOf D) synths c ∧ (∃ d ∈ c, d.name = func.ctx.ps ∧ d.params = ps ++ [(r, func.retTy)]) ∧
      ps.map Prod.snd = func.ctx.params.map func.ctx.types ∧
      ∀ I, Usual I → (∀ d ∈ [exSum], FnHolds I d) → (∀ a ∈ [], AxHolds I a) → (∀ d ∈ c, FnHolds I d) →
      ∀ ρ : Env, (∀ x, OfTy (func.ctx.types x) (ρ x)) → (∀ p ∈ [], holds I ρ p) →
        ∀ v, @Exec strictOps I (func.argStore ρ) func.body (.returned v) → v = eval I (paramEnv ps (func.ctx.params.map ρ)) (sum l) := by
  have hret : pySynthesize kahn id [] ["f"] w.asserts [exSum] [] vars rosetteEnv 1 = some (.returned [("f", some (sum l))]) := by
    unfold pySynthesize
    rw [run_eq hvc]
    rfl
  exact C48_from_grammars_partial kahn kahn_spec id (fun _ => .refl _) func [] w vc (by decide +kernel) (by simp) hw hvc rfl
    ["f"] plain_f (by decide) [exSum] [] vars [] synths (by decide +kernel) (by decide +kernel) (by decide +kernel) grammars_ok (by decide +kernel)
    (post_grammar _ (by simp)) rosetteEnv rosette_right rosette_answers 1 _ hret (sum l) rfl

/-- All hypotheses of `C51_from_grammars_partial` hold for the example. -/
example (V : Ll.Visitor) (hV : Ll.SumLl.func.call [] = some V) :
    ∃ D ps r, All2 (CandidateOf D) synths cands ∧ (∃ d ∈ cands, d.name = "f_ps" ∧ d.params = ps ++ [(r, .int)]) ∧
      ps.map Prod.snd = [.list .int] ∧
      ∀ I, Ll.SolverFns I → (∀ d ∈ [exSum], FnHolds I d) → (∀ a ∈ [], AxHolds I a) → (∀ d ∈ cands, FnHolds I d) →
      ∀ ρ : Env, (∀ x, OfTy (Ll.SumLl.func.ty x) (ρ x)) → (∀ p ∈ [], holds I ρ p) →
        ∀ v, @Ll.Returns Ll.solverOps Ll.SumLl.func I ρ v → v = eval I (paramEnv ps [ρ "l"]) (sum l) := by
  have hvc := Ll.SumLl.vc_eq
  have hand : andObjects (Ll.SumLl.func.asserts V) = some vc := by
    simpa only [Ll.Func.vc, hV, Option.bind_eq_bind, Option.bind_some] using hvc
  have hret : llSynthesize kahn id [] ["f"] (synths.map SynthFn.name) (Ll.SumLl.func.asserts V) [exSum] [] vars rosetteEnv 1 =
      some (.returned ([("f", some (sum l))], cands)) := by
    unfold llSynthesize
    rw [run_eq hand]
    rfl
  exact C51_from_grammars_partial kahn kahn_spec id (fun _ => .refl _) Ll.SumLl.func [] Ll.SumLl.scope V vc (by decide +kernel) (by decide +kernel) hV hvc
    ["f"] plain_f (by decide) [exSum] [] vars [] synths (by decide +kernel) (by decide +kernel) grammars_ok (by decide +kernel)
    (post_grammar _ (by simp)) rosetteEnv rosette_right rosette_answers 1 _ _ hret (sum l) rfl

end SumUp
end Metalift
