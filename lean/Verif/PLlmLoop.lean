import Verif.LlmLoop
import Verif.PLlm
/-
C56: the algorithm reports a solution only if the verifier accepted it.  C57: parsing depends on the solution and the target language only.
-/
namespace Metalift
namespace Llm
open Smt (OfTy OfTys)

/-! ### Specification -/

/-- Answers to requests for a summary. -/
def psAnswers : List Ev → List Sol
  | [] => []
  | .ps _ a :: es => a :: psAnswers es
  | _ :: es => psAnswers es

/-- Answers to requests for invariants. -/
def invAnswers : List Ev → List Sol
  | [] => []
  | .inv _ a :: es => a :: invAnswers es
  | _ :: es => invAnswers es

/-- Runs of the solver. -/
def checks : List Ev → List (Query × Int × String)
  | [] => []
  | .check q n o :: es => (q, n, o) :: checks es
  | _ :: es => checks es

/-- The solution `s` was checked: the last two events are an answer `t` with invariants and a run of the solver on the functions made of `s` and
`t`, where `s` is the last answer with a summary. -/
def Checked (W : World) (c : Config) (tr : List Ev) (s : Sol) (code : Int) (out : String) : Prop :=
  ∃ before psMsgs between invMsgs t stPs stInv lams counts,
    tr = before ++ .ps psMsgs s :: (between ++ [.inv invMsgs t, .check ⟨c.distinct ((stPs.decls ++ stInv.decls).map (process c.benchmark c.out)),
      stPs.inCalls ++ stInv.inCalls, c.vc⟩ code out]) ∧
    psAnswers between = [] ∧ checkSol W c 1 [] [] s = some stPs ∧ checkSol W c (if c.double then 2 else 1) lams counts t = some stInv

theorem psAnswers_append (a b : List Ev) : psAnswers (a ++ b) = psAnswers a ++ psAnswers b := by
  induction a with
  | nil => rfl
  | cons e a ih => cases e <;> simp [psAnswers, ih]

theorem invAnswers_append (a b : List Ev) : invAnswers (a ++ b) = invAnswers a ++ invAnswers b := by
  induction a with
  | nil => rfl
  | cons e a ih => cases e <;> simp [invAnswers, ih]

theorem checks_append (a b : List Ev) : checks (a ++ b) = checks a ++ checks b := by
  induction a with
  | nil => rfl
  | cons e a ih => cases e <;> simp [checks, ih]

/-! ### The loop over invariants -/

/-- What the loop over invariants does: `new` are its events. -/
structure InvRun (W : World) (c : Config) (ps : St) (d : FnDecl) (j k : Nat) (sols : List Sol) (tr new : List Ev) (r : Res) : Prop where
  noPs : psAnswers new = []
  count : (invAnswers new).length ≤ k
  runs : (checks new).length ≤ (invAnswers new).length + j
  used : r = .exhausted → (invAnswers new).length = k
  asked : ∀ a msgs ans b, new = a ++ .inv msgs ans :: b → request (c.invPrompt d) (sols ++ invAnswers a) = some msgs ∧ W.ask (tr ++ a) msgs = some ans
  found : r = .found → ∃ a msgs t stInv lams counts code out,
    new = a ++ [.inv msgs t, .check ⟨c.distinct ((ps.decls ++ stInv.decls).map (process c.benchmark c.out)), ps.inCalls ++ stInv.inCalls, c.vc⟩ code out] ∧
    checkSol W c (if c.double then 2 else 1) lams counts t = some stInv ∧ verified c.method code out = some true
  last : ∀ a q code out b, new = a ++ .check q code out :: b → W.solve (tr ++ a) q = some (code, out) ∧
    (b ≠ [] ∨ r = .exhausted → verified c.method code out = some false)

variable {W : World} {c : Config} {ps : St} {d : FnDecl}

theorem InvRun.nil {j k : Nat} {sols : List Sol} {tr : List Ev} {r : Res} (h : r = .raised ∨ r = .exhausted ∧ k = 0) : InvRun W c ps d j k sols tr [] r where
  noPs := rfl
  count := Nat.zero_le _
  runs := Nat.zero_le _
  used := by rcases h with rfl | ⟨rfl, rfl⟩ <;> simp [invAnswers]
  asked := by simp
  found := by rcases h with rfl | ⟨rfl, rfl⟩ <;> simp
  last := by simp

theorem InvRun.weaken {j j' k : Nat} {sols : List Sol} {tr new : List Ev} {r : Res} (h : InvRun W c ps d j k sols tr new r) (hj : j ≤ j') :
    InvRun W c ps d j' k sols tr new r :=
  { h with runs := Nat.le_trans h.runs (by omega) }

theorem InvRun.step_inv {j k : Nat} {sols : List Sol} {tr new : List Ev} {r : Res} {msgs : List Msg} {x : Sol}
    (h1 : request (c.invPrompt d) sols = some msgs) (h2 : W.ask tr msgs = some x)
    (h : InvRun W c ps d (j + 1) k (sols ++ [x]) (tr ++ [.inv msgs x]) new r) : InvRun W c ps d j (k + 1) sols tr (.inv msgs x :: new) r where
  noPs := h.noPs
  count := by simpa [invAnswers] using h.count
  runs := by have := h.runs; simp only [checks, invAnswers, List.length_cons]; omega
  used := fun e => by simp [invAnswers, h.used e]
  asked := by
    intro a m y b e
    cases a with
    | nil => simp only [List.nil_append, List.cons.injEq, Ev.inv.injEq] at e
             obtain ⟨⟨rfl, rfl⟩, rfl⟩ := e
             simpa [invAnswers] using ⟨h1, h2⟩
    | cons e' a =>
      simp only [List.cons_append, List.cons.injEq] at e
      obtain ⟨rfl, e⟩ := e
      simpa [invAnswers] using h.asked a m y b e
  found := fun e => by
    obtain ⟨a, m, t, st, l, n, code, out, e1, e2⟩ := h.found e
    exact ⟨_ :: a, m, t, st, l, n, code, out, by rw [e1]; rfl, e2⟩
  last := by
    intro a q code out b e
    cases a with
    | nil => simp at e
    | cons e' a =>
      simp only [List.cons_append, List.cons.injEq] at e
      obtain ⟨rfl, e⟩ := e
      simpa using h.last a q code out b e

theorem InvRun.step_check {j k : Nat} {sols : List Sol} {tr new : List Ev} {r : Res} {q : Query} {code : Int} {out : String}
    (h1 : W.solve tr q = some (code, out)) (h2 : new ≠ [] ∨ r = .exhausted → verified c.method code out = some false)
    (h : InvRun W c ps d j k sols (tr ++ [.check q code out]) new r) : InvRun W c ps d (j + 1) k sols tr (.check q code out :: new) r where
  noPs := h.noPs
  count := h.count
  runs := by have := h.runs; simp only [checks, invAnswers, List.length_cons]; omega
  used := h.used
  asked := by
    intro a m y b e
    cases a with
    | nil => simp at e
    | cons e' a =>
      simp only [List.cons_append, List.cons.injEq] at e
      obtain ⟨rfl, e⟩ := e
      simpa [invAnswers] using h.asked a m y b e
  found := fun e => by
    obtain ⟨a, m, t, st, l, n, code, out, e1, e2⟩ := h.found e
    exact ⟨_ :: a, m, t, st, l, n, code, out, by rw [e1]; rfl, e2⟩
  last := by
    intro a q code out b e
    cases a with
    | nil =>
      simp only [List.nil_append, List.cons.injEq, Ev.check.injEq] at e
      obtain ⟨⟨rfl, rfl, rfl⟩, rfl⟩ := e
      simpa using ⟨h1, h2⟩
    | cons e' a =>
      simp only [List.cons_append, List.cons.injEq] at e
      obtain ⟨rfl, e⟩ := e
      simpa using h.last a q code out b e

theorem invLoop_run (W : World) (c : Config) (ps : St) (d : FnDecl) : ∀ k sols lams counts tr,
    ∃ new, (invLoop W c ps d k sols lams counts tr).1 = tr ++ new ∧ InvRun W c ps d 0 k sols tr new (invLoop W c ps d k sols lams counts tr).2
  | 0, sols, lams, counts, tr => ⟨[], by simp [invLoop], .nil (.inr ⟨rfl, rfl⟩)⟩
  | k + 1, sols, lams, counts, tr => by
    unfold invLoop
    split
    · exact ⟨[], by simp, .nil (.inl rfl)⟩
    · rename_i msgs h1
      split
      · exact ⟨[], by simp, .nil (.inl rfl)⟩
      · rename_i x h2
        dsimp only
        split
        · obtain ⟨new, e, h⟩ := invLoop_run W c ps d k (sols ++ [x]) (W.left (tr ++ [.inv msgs x])).1 (W.left (tr ++ [.inv msgs x])).2 (tr ++ [.inv msgs x])
          exact ⟨.inv msgs x :: new, by rw [e]; simp, .step_inv h1 h2 (h.weaken (by omega))⟩
        · rename_i st h3
          split
          · exact ⟨[.inv msgs x], rfl, .step_inv h1 h2 (.nil (.inl rfl))⟩
          · split
            · exact ⟨[.inv msgs x], rfl, .step_inv h1 h2 (.nil (.inl rfl))⟩
            · rename_i code out h4
              split
              · exact ⟨[.inv msgs x, .check _ code out], by simp, .step_inv h1 h2 (.step_check h4 (by simp) (.nil (.inl rfl)))⟩
              · rename_i h5
                have := InvRun.step_inv (W := W) (c := c) (ps := ps) (k := k) h1 h2 (.step_check h4 (r := .raised) (by simp) (.nil (j := 0) (.inl rfl)))
                refine ⟨[.inv msgs x, .check _ code out], by simp, { this with used := by simp, found := ?_, last := ?_ }⟩
                · intro _
                  exact ⟨[], msgs, x, st, lams, counts, code, out, by simp, h3, h5⟩
                · intro a q code out b e
                  have := this.last a q code out b e
                  simpa using this
              · rename_i h5
                obtain ⟨new, e, h⟩ := invLoop_run W c ps d k (sols ++ [x]) st.lams st.counts (tr ++ [.inv msgs x] ++ [.check _ code out])
                exact ⟨.inv msgs x :: .check _ code out :: new, by rw [e]; simp, .step_inv h1 h2 (.step_check h4 (fun _ => h5) h)⟩

/-! ### The loop over summaries -/

/-- What the loop over summaries does. -/
structure PsRun (W : World) (c : Config) (k : Nat) (sols : List Sol) (tr new : List Ev) (r : Outcome) : Prop where
  count : (psAnswers new).length ≤ k
  invs : (invAnswers new).length ≤ (psAnswers new).length * c.maxInv
  runs : (checks new).length ≤ (invAnswers new).length
  used : r = .notFound → (psAnswers new).length = k
  asked : ∀ a msgs ans b, new = a ++ .ps msgs ans :: b → request c.psPrompt (sols ++ psAnswers a) = some msgs ∧ W.ask (tr ++ a) msgs = some ans
  askedInv : ∀ a msgs ans b, new = a ++ .inv msgs ans :: b → W.ask (tr ++ a) msgs = some ans ∧ ∃ a₁ m s a₂ st d, a = a₁ ++ .ps m s :: a₂ ∧ psAnswers a₂ = [] ∧
    checkSol W c 1 [] [] s = some st ∧ d ∈ st.decls.map (process c.benchmark c.out) ∧ request (c.invPrompt d) (invAnswers a₂) = some msgs
  reported : ∀ s, r = .reported s → ∃ code out, Checked W c new s code out ∧ verified c.method code out = some true
  last : ∀ a q code out b, new = a ++ .check q code out :: b → W.solve (tr ++ a) q = some (code, out) ∧
    (b ≠ [] ∨ r = .notFound → verified c.method code out = some false)

theorem PsRun.nil {k : Nat} {sols : List Sol} {tr : List Ev} {r : Outcome} (h : r = .raised ∨ r = .notFound ∧ k = 0) : PsRun W c k sols tr [] r where
  count := Nat.zero_le _
  invs := Nat.zero_le _
  runs := Nat.zero_le _
  used := by rcases h with rfl | ⟨rfl, rfl⟩ <;> simp [psAnswers]
  asked := by simp
  askedInv := by simp
  reported := by rcases h with rfl | ⟨rfl, rfl⟩ <;> simp
  last := by simp

/-- Splitting an event off `p ++ q`. -/
theorem split_append {α : Type} {p q a b : List α} {e : α} (h : p ++ q = a ++ e :: b) :
    (∃ b', p = a ++ e :: b' ∧ b = b' ++ q) ∨ ∃ a', a = p ++ a' ∧ q = a' ++ e :: b := by
  rcases List.append_eq_append_iff.1 h with ⟨a', h1, h2⟩ | ⟨c', h1, h2⟩
  · exact .inr ⟨a', h1, h2⟩
  · cases c' with
    | nil => simp only [List.append_nil] at h1; subst h1; exact .inr ⟨[], by simp, by simpa using h2.symm⟩
    | cons x c' =>
      simp only [List.cons_append, List.cons.injEq] at h2
      obtain ⟨rfl, rfl⟩ := h2
      exact .inl ⟨c', h1, rfl⟩

/-- One attempt: a summary, and what the loop over invariants did with it. -/
theorem PsRun.step {k : Nat} {sols : List Sol} {tr mid new : List Ev} {r : Outcome} {ri : Res} {msgs : List Msg} {x : Sol} {st : St} {d : FnDecl}
    (h1 : request c.psPrompt sols = some msgs) (h2 : W.ask tr msgs = some x) (h3 : checkSol W c 1 [] [] x = some st)
    (h4 : d ∈ st.decls.map (process c.benchmark c.out)) (hi : InvRun W c st d 0 c.maxInv [] (tr ++ [.ps msgs x]) mid ri)
    (hr : (ri = .exhausted ∧ PsRun W c k (sols ++ [x]) (tr ++ .ps msgs x :: mid) new r) ∨ (ri = .raised ∧ r = .raised ∧ new = []) ∨
      (ri = .found ∧ r = .reported x ∧ new = [])) :
    PsRun W c (k + 1) sols tr (.ps msgs x :: (mid ++ new)) r := by
  have hn : (psAnswers new).length ≤ k ∧ (invAnswers new).length ≤ (psAnswers new).length * c.maxInv ∧ (checks new).length ≤ (invAnswers new).length ∧
      (r = .notFound → (psAnswers new).length = k) ∧
      (∀ a msgs' ans b, new = a ++ .ps msgs' ans :: b → request c.psPrompt (sols ++ [x] ++ psAnswers a) = some msgs' ∧
        W.ask (tr ++ .ps msgs x :: mid ++ a) msgs' = some ans) ∧
      (∀ a msgs' ans b, new = a ++ .inv msgs' ans :: b → W.ask (tr ++ .ps msgs x :: mid ++ a) msgs' = some ans ∧ ∃ a₁ m s a₂ st d, a = a₁ ++ .ps m s :: a₂ ∧
        psAnswers a₂ = [] ∧ checkSol W c 1 [] [] s = some st ∧ d ∈ st.decls.map (process c.benchmark c.out) ∧
        request (c.invPrompt d) (invAnswers a₂) = some msgs') ∧
      (∀ a q code out b, new = a ++ .check q code out :: b → W.solve (tr ++ .ps msgs x :: mid ++ a) q = some (code, out) ∧
        (b ≠ [] ∨ r = .notFound → verified c.method code out = some false)) := by
    rcases hr with ⟨-, h⟩ | ⟨-, rfl, rfl⟩ | ⟨-, rfl, rfl⟩
    · exact ⟨h.count, h.invs, h.runs, h.used, h.asked, h.askedInv, h.last⟩
    · simp [psAnswers, invAnswers, checks]
    · simp [psAnswers, invAnswers, checks]
  obtain ⟨n1, n2, n3, n4, n5, n6, n7⟩ := hn
  refine ⟨?_, ?_, ?_, ?_, ?_, ?_, ?_, ?_⟩
  · simp only [psAnswers, psAnswers_append, hi.noPs, List.nil_append, List.length_cons]; omega
  · simp only [psAnswers, invAnswers, invAnswers_append, psAnswers_append, hi.noPs, List.nil_append, List.length_cons, List.length_append, Nat.succ_mul]
    have := hi.count
    omega
  · simp only [checks, invAnswers, invAnswers_append, checks_append, List.length_append]
    have := hi.runs
    omega
  · intro e
    simp only [psAnswers, psAnswers_append, hi.noPs, List.nil_append, List.length_cons, n4 e]
  · intro a m y b e
    cases a with
    | nil =>
      simp only [List.nil_append, List.cons.injEq, Ev.ps.injEq] at e
      obtain ⟨⟨rfl, rfl⟩, -⟩ := e
      simpa [psAnswers] using ⟨h1, h2⟩
    | cons e' a =>
      simp only [List.cons_append, List.cons.injEq] at e
      obtain ⟨rfl, e⟩ := e
      rcases split_append e with ⟨b', rfl, -⟩ | ⟨a', rfl, f⟩
      · have := hi.noPs
        simp [psAnswers_append, psAnswers] at this
      · have := n5 a' m y b f
        simpa [psAnswers, psAnswers_append, hi.noPs] using this
  · intro a m y b e
    cases a with
    | nil => simp at e
    | cons e' a =>
      simp only [List.cons_append, List.cons.injEq] at e
      obtain ⟨rfl, e⟩ := e
      rcases split_append e with ⟨b', f, -⟩ | ⟨a', rfl, f⟩
      · obtain ⟨i1, i2⟩ := hi.asked a m y b' f
        refine ⟨by simpa using i2, [], msgs, x, a, st, d, rfl, ?_, h3, h4, by simpa using i1⟩
        have := hi.noPs
        rw [f, psAnswers_append] at this
        exact (List.append_eq_nil_iff.1 this).1
      · obtain ⟨i1, a₁, m', s, a₂, st', d', rfl, i2⟩ := n6 a' m y b f
        exact ⟨by simpa using i1, .ps msgs x :: mid ++ a₁, m', s, a₂, st', d', by simp, i2⟩
  · intro s e
    rcases hr with ⟨-, h⟩ | ⟨-, rfl, rfl⟩ | ⟨rfl, rfl, rfl⟩
    · obtain ⟨code, out, ⟨be, pm, bt, im, t, sp, si, l, n, e1, e2⟩, hv⟩ := h.reported s e
      exact ⟨code, out, ⟨.ps msgs x :: mid ++ be, pm, bt, im, t, sp, si, l, n, by rw [e1]; simp, e2⟩, hv⟩
    · cases e
    · cases e
      obtain ⟨a, m, t, si, l, n, code, out, e1, e2, e3⟩ := hi.found rfl
      refine ⟨code, out, ⟨[], msgs, a, m, t, st, si, l, n, by rw [e1]; simp, ?_, h3, e2⟩, e3⟩
      have := hi.noPs
      rw [e1, psAnswers_append] at this
      exact (List.append_eq_nil_iff.1 this).1
  · intro a q code out b e
    cases a with
    | nil => simp at e
    | cons e' a =>
      simp only [List.cons_append, List.cons.injEq] at e
      obtain ⟨rfl, e⟩ := e
      rcases split_append e with ⟨b', f, rfl⟩ | ⟨a', rfl, f⟩
      · obtain ⟨i1, i2⟩ := hi.last a q code out b' f
        refine ⟨by simpa using i1, fun hb => i2 ?_⟩
        rcases hr with ⟨rfl, -⟩ | ⟨-, rfl, rfl⟩ | ⟨-, rfl, rfl⟩
        · exact .inr rfl
        · exact .inl (by simpa using hb)
        · exact .inl (by simpa using hb)
      · obtain ⟨i1, i2⟩ := n7 a' q code out b f
        exact ⟨by simpa using i1, i2⟩

/-- A summary that the parser rejects, or that has no function with `ps` in its name. -/
theorem PsRun.step_rejected {k : Nat} {sols : List Sol} {tr new : List Ev} {r : Outcome} {msgs : List Msg} {x : Sol}
    (h1 : request c.psPrompt sols = some msgs) (h2 : W.ask tr msgs = some x) (h : PsRun W c k (sols ++ [x]) (tr ++ [.ps msgs x]) new r) :
    PsRun W c (k + 1) sols tr (.ps msgs x :: new) r where
  count := by simpa [psAnswers] using h.count
  invs := by have := h.invs; simp only [psAnswers, invAnswers, List.length_cons, Nat.succ_mul]; omega
  runs := h.runs
  used := fun e => by simp [psAnswers, h.used e]
  asked := by
    intro a m y b e
    cases a with
    | nil =>
      simp only [List.nil_append, List.cons.injEq, Ev.ps.injEq] at e
      obtain ⟨⟨rfl, rfl⟩, -⟩ := e
      simpa [psAnswers] using ⟨h1, h2⟩
    | cons e' a =>
      simp only [List.cons_append, List.cons.injEq] at e
      obtain ⟨rfl, e⟩ := e
      simpa [psAnswers] using h.asked a m y b e
  askedInv := by
    intro a m y b e
    cases a with
    | nil => simp at e
    | cons e' a =>
      simp only [List.cons_append, List.cons.injEq] at e
      obtain ⟨rfl, e⟩ := e
      obtain ⟨i1, a₁, m', s, a₂, st', d', rfl, i2⟩ := h.askedInv a m y b e
      exact ⟨by simpa using i1, .ps msgs x :: a₁, m', s, a₂, st', d', rfl, i2⟩
  reported := by
    intro s e
    obtain ⟨code, out, ⟨be, pm, bt, im, t, sp, si, l, n, e1, e2⟩, hv⟩ := h.reported s e
    exact ⟨code, out, ⟨.ps msgs x :: be, pm, bt, im, t, sp, si, l, n, by rw [e1]; simp, e2⟩, hv⟩
  last := by
    intro a q code out b e
    cases a with
    | nil => simp at e
    | cons e' a =>
      simp only [List.cons_append, List.cons.injEq] at e
      obtain ⟨rfl, e⟩ := e
      simpa using h.last a q code out b e

theorem psLoop_run (W : World) (c : Config) : ∀ k sols tr, ∃ new, (psLoop W c k sols tr).1 = tr ++ new ∧ PsRun W c k sols tr new (psLoop W c k sols tr).2
  | 0, sols, tr => ⟨[], by simp [psLoop], .nil (.inr ⟨rfl, rfl⟩)⟩
  | k + 1, sols, tr => by
    unfold psLoop
    split
    · exact ⟨[], by simp, .nil (.inl rfl)⟩
    · rename_i msgs h1
      split
      · exact ⟨[], by simp, .nil (.inl rfl)⟩
      · rename_i x h2
        dsimp only
        split
        · obtain ⟨new, e, h⟩ := psLoop_run W c k (sols ++ [x]) (tr ++ [.ps msgs x])
          exact ⟨.ps msgs x :: new, by rw [e]; simp, .step_rejected h1 h2 h⟩
        · rename_i st h3
          split
          · exact ⟨[.ps msgs x], rfl, .step_rejected h1 h2 (.nil (.inl rfl))⟩
          · rename_i d h4
            obtain ⟨mid, e, hi⟩ := invLoop_run W c st d c.maxInv [] st.lams st.counts (tr ++ [.ps msgs x])
            have hd := List.mem_of_find?_eq_some h4
            generalize hl : invLoop W c st d c.maxInv [] st.lams st.counts (tr ++ [.ps msgs x]) = L at *
            obtain ⟨tr', ri⟩ := L
            dsimp only at e hi
            subst e
            cases ri with
            | found => exact ⟨.ps msgs x :: (mid ++ []), by simp, .step h1 h2 h3 hd hi (.inr (.inr ⟨rfl, rfl, rfl⟩))⟩
            | raised => exact ⟨.ps msgs x :: (mid ++ []), by simp, .step h1 h2 h3 hd hi (.inr (.inl ⟨rfl, rfl, rfl⟩))⟩
            | exhausted =>
              obtain ⟨new, e, h⟩ := psLoop_run W c k (sols ++ [x]) (tr ++ [.ps msgs x] ++ mid)
              refine ⟨.ps msgs x :: (mid ++ new), by dsimp only; rw [e]; simp, .step h1 h2 h3 hd hi (.inl ⟨rfl, ?_⟩)⟩
              simpa using h

/-! ### C56 -/

theorem run_ps (W : World) (c : Config) : PsRun W c c.maxPs [] [] (runLlm W c).1 (runLlm W c).2 := by
  obtain ⟨new, e, h⟩ := psLoop_run W c c.maxPs [] []
  rw [List.nil_append] at e
  rw [show (runLlm W c).1 = new from e]
  exact h

/-- C56 (for Rosette): if the algorithm reports a solution, then its last step was to run Racket on the functions made of this solution and of the
last answer with invariants, and Racket answered `(unsat)`. -/
theorem C56_rosette {W : World} {c : Config} {tr : List Ev} {s : Sol} (hm : c.method = .rosette) (h : runLlm W c = (tr, .reported s)) :
    ∃ out, Checked W c tr s 0 out ∧ firstLine out = "(unsat)" := by
  have hr := run_ps W c
  rw [h] at hr
  obtain ⟨code, out, hc, hv⟩ := hr.reported s rfl
  simp only [hm, verified] at hv
  split at hv
  · cases hv
  · rename_i h0
    simp only [ne_eq, Decidable.not_not] at h0
    subst h0
    exact ⟨out, hc, by simpa using hv⟩

/-- C56 (for CVC5, partial: its answer is not looked at, see `C56_smt_any_answer_refuted`): if the algorithm reports a solution, then its last step was
to run CVC5 on the functions made of this solution and of the last answer with invariants, and CVC5 was not killed; if CVC5, whenever it is not
killed, answers `unsat`, then it answered `unsat`. -/
theorem C56_smt_partial {W : World} {c : Config} {tr : List Ev} {s : Sol} (hm : c.method = .smt) (h : runLlm W c = (tr, .reported s)) :
    ∃ code out, 0 ≤ code ∧ Checked W c tr s code out ∧
      ((∀ tr q n o, W.solve tr q = some (n, o) → 0 ≤ n → firstLine o = "unsat") → firstLine out = "unsat") := by
  have hr := run_ps W c
  rw [h] at hr
  obtain ⟨code, out, hc, hv⟩ := hr.reported s rfl
  simp only [hm, verified] at hv
  split at hv
  · cases hv
  · refine ⟨code, out, by omega, hc, fun hs => ?_⟩
    obtain ⟨be, pm, bt, im, t, sp, si, l, n, e1, -⟩ := hc
    exact hs _ _ code out (hr.last (be ++ .ps pm s :: (bt ++ [.inv im t])) ⟨c.distinct ((sp.decls ++ si.decls).map (process c.benchmark c.out)),
      sp.inCalls ++ si.inCalls, c.vc⟩ code out [] (by rw [e1]; simp)).1 (by omega)

/-- C56: the language model and the solver are asked at most as often as the limits say. -/
theorem C56_limits (W : World) (c : Config) : (psAnswers (runLlm W c).1).length ≤ c.maxPs ∧
    (invAnswers (runLlm W c).1).length ≤ c.maxPs * c.maxInv ∧ (checks (runLlm W c).1).length ≤ c.maxPs * c.maxInv := by
  have h := run_ps W c
  have := Nat.mul_le_mul_right c.maxInv h.count
  exact ⟨h.count, Nat.le_trans h.invs this, Nat.le_trans h.runs (Nat.le_trans h.invs this)⟩

/-- C56: every request shows the language model all earlier answers: a request for a summary all earlier summaries, a request for invariants all
invariants for the same summary. -/
theorem C56_feedback (W : World) (c : Config) (a b : List Ev) (msgs : List Msg) (ans : Sol) :
    ((runLlm W c).1 = a ++ .ps msgs ans :: b → request c.psPrompt (psAnswers a) = some msgs) ∧
    ((runLlm W c).1 = a ++ .inv msgs ans :: b → ∃ a₁ m s a₂ d, a = a₁ ++ .ps m s :: a₂ ∧ psAnswers a₂ = [] ∧
      request (c.invPrompt d) (invAnswers a₂) = some msgs) := by
  have h := run_ps W c
  refine ⟨fun e => (h.asked a msgs ans b e).1, fun e => ?_⟩
  obtain ⟨-, a₁, m, s, a₂, st, d, e1, e2, -, -, e3⟩ := h.askedInv a msgs ans b e
  exact ⟨a₁, m, s, a₂, d, e1, e2, e3⟩

/-- C56: a solution that was accepted is not passed over: after a run of the solver that accepts there is no further step, and `No correct
solution found` is raised only after all attempts for summaries, when no run accepted. -/
theorem C56_not_missed (W : World) (c : Config) :
    (∀ a q code out b, (runLlm W c).1 = a ++ .check q code out :: b → verified c.method code out = some true → b = []) ∧
    ((runLlm W c).2 = .notFound → (psAnswers (runLlm W c).1).length = c.maxPs ∧
      ∀ q code out, (q, code, out) ∈ checks (runLlm W c).1 → verified c.method code out = some false) := by
  have h := run_ps W c
  refine ⟨fun a q code out b e hv => ?_, fun e => ⟨h.used e, fun q code out hm => ?_⟩⟩
  · by_contra hb
    have := (h.last a q code out b e).2 (.inl hb)
    rw [hv] at this
    cases this
  · have mem : ∀ tr : List Ev, (q, code, out) ∈ checks tr → ∃ a b, tr = a ++ .check q code out :: b := by
      intro tr
      induction tr with
      | nil => simp [checks]
      | cons ev tr ih =>
        intro hm
        have tail : (q, code, out) ∈ checks tr → ∃ a b, ev :: tr = a ++ .check q code out :: b := by
          intro hm
          obtain ⟨a, b, rfl⟩ := ih hm
          exact ⟨ev :: a, b, rfl⟩
        cases ev with
        | check q' n o =>
          simp only [checks, List.mem_cons, Prod.mk.injEq] at hm
          rcases hm with ⟨rfl, rfl, rfl⟩ | hm
          · exact ⟨[], tr, rfl⟩
          · exact tail hm
        | ps m s => exact tail hm
        | inv m s => exact tail hm
    obtain ⟨a, b, eq⟩ := mem _ hm
    exact (h.last a q code out b eq).2 (.inr e)

/-! ### What the functions given to the solver mean -/

theorem fnEnv_append {ps : List String} {vs : List Val} {x : String} {o : String} {v : Val} (hl : ps.length = vs.length) (hx : x ≠ o) :
    fnEnv (ps ++ [o]) (vs ++ [v]) x = fnEnv ps vs x := by
  have key : ∀ (ps : List String) (vs : List Val), ps.length = vs.length → ((ps ++ [o]).zip (vs ++ [v])).lookup x = (ps.zip vs).lookup x := by
    intro ps
    induction ps with
    | nil =>
      intro vs hl
      cases vs with
      | nil => simp [List.lookup_cons, beq_eq_false_iff_ne.2 hx]
      | cons v vs => simp at hl
    | cons p ps ih =>
      intro vs hl
      cases vs with
      | nil => simp at hl
      | cons w vs =>
        simp only [List.cons_append, List.zip_cons_cons, List.lookup_cons]
        rw [ih vs (by simpa using hl)]
  rw [fnEnv, fnEnv, key ps vs hl]

theorem fnEnv_result {ps : List String} {vs : List Val} {o : String} {v : Val} (hl : ps.length = vs.length) (ho : o ∉ ps) :
    fnEnv (ps ++ [o]) (vs ++ [v]) o = v := by
  have key : ∀ (ps : List String) (vs : List Val), ps.length = vs.length → o ∉ ps → ((ps ++ [o]).zip (vs ++ [v])).lookup o = some v := by
    intro ps
    induction ps with
    | nil =>
      intro vs hl _
      cases vs with
      | nil => simp
      | cons v vs => simp at hl
    | cons p ps ih =>
      intro vs hl ho
      cases vs with
      | nil => simp at hl
      | cons w vs =>
        simp only [List.mem_cons, not_or] at ho
        simp only [List.cons_append, List.zip_cons_cons, List.lookup_cons, beq_eq_false_iff_ne.2 ho.1]
        exact ih vs (by simpa using hl) ho.2
  rw [fnEnv, key ps vs hl ho]
  rfl

theorem ofTys_append {v : Val} {t : Ty} (hv : OfTy t v) : ∀ {ts : List Ty} {vs : List Val}, OfTys ts vs → OfTys (ts ++ [t]) (vs ++ [v])
  | [], [], _ => by simp [OfTys, hv]
  | [], _ :: _, h => by simp [OfTys] at h
  | _ :: _, [], h => by simp [OfTys] at h
  | t :: ts, w :: ws, h => by
    simp only [List.cons_append, OfTys] at h ⊢
    exact ⟨h.1, ofTys_append hv h.2⟩

theorem ofTys_map {val : String → Val} : ∀ {ps : List (String × Ty)}, (∀ p ∈ ps, OfTy p.2 (val p.1)) → OfTys (ps.map Prod.snd) (ps.map fun p => val p.1)
  | [], _ => by simp [OfTys]
  | p :: ps, h => by
    simp only [List.map_cons, OfTys]
    exact ⟨h p List.mem_cons_self, ofTys_map fun q hq => h q (List.mem_cons_of_mem _ hq)⟩

/-- C56 (partial: for summaries to which C55 applies; the name of the result is no parameter and no variable of the body): the predicate the solver
is given for the summary says that the result is what the Python function returns.  `I` is any interpretation of the functions given to the solver
and of the functions of the answer. -/
theorem C56_summary_partial {W : World} {c : Config} {src : String} {ds : List FuncDef} {st : St} {dslSigs : FnSigs} (hs : W.mypy src = some ds)
    (h : checkSol W c 1 [] [] (.text src) = some st) (hdsl : sigsOf c.dsl = some dslSigs) (hn : ((ds ++ c.dsl).map FuncDef.name).Nodup)
    (hok : ∀ d ∈ ds, okDef ds st.decls d = true) (hb : c.benchmark ∉ ["invariant", "invariant1", "invariant2"])
    (ho : ∀ D ∈ st.decls, c.out.1 ∉ D.params.map Prod.fst ∧ ∀ b, D.body = some b → c.out.1 ∉ b.vars)
    {I : Interp} (hB : Builtin I) (hD : ∀ D ∈ st.decls, DeclHolds I D ∧ BodyTyped D) (hP : ∀ D ∈ st.decls.map (process c.benchmark c.out), DeclHolds I D)
    {G : Globals} (hA : Agrees I dslSigs G) {d : FuncDef} (hd : d ∈ ds) (hname : d.name = c.benchmark) :
    ∃ D ∈ st.decls, (∀ p t, (p, t) ∈ D.params ↔ (p, some t) ∈ d.params.zip (d.args.map irTy)) ∧
      ∀ k (val : String → Val), (∀ p ∈ D.params, OfTy p.2 (val p.1)) → ∀ r v, OfTy c.out.2 v →
        (pyModule true G ds k).call d.name (d.params.map fun p => .v (val p)) = some r →
        I.fn (c.benchmark ++ "_ps") (D.params.map (fun p => val p.1) ++ [v]) = .bool (decide (v = r)) := by
  simp only [checkSol, hs, Option.bind_some] at h
  obtain ⟨D, hDm, hDn, hret, ⟨b, hb'⟩, hpar, hval⟩ := C55_solution_partial h hdsl hn hok hB hD hA d hd
  refine ⟨D, hDm, hpar, fun k val hv r v hvt hr => ?_⟩
  obtain ⟨e1, -⟩ := hval k val hv r hr
  obtain ⟨o1, o2⟩ := ho D hDm
  have hproc : process c.benchmark c.out D = processPs c.out D := by
    simp only [List.mem_cons, List.not_mem_nil, or_false, not_or] at hb
    have : D.name = c.benchmark := by rw [hDn, hname]
    simp only [process, this, if_neg hb.1, if_neg hb.2.1, if_neg hb.2.2, if_true]
  have eq := hP (processPs c.out D) (List.mem_map.2 ⟨D, hDm, hproc⟩) (D.params.map (fun p => val p.1) ++ [v])
    (by simp only [processPs, List.map_append, List.map_cons, List.map_nil]; exact ofTys_append hvt (ofTys_map hv)) (mkEq (.var c.out.1 c.out.2) b)
    (by simp [processPs, hb'])
  rw [show (processPs c.out D).name = c.benchmark ++ "_ps" by simp [processPs, hDn, hname]] at eq
  rw [eq]
  have e2 := (hD D hDm).1 _ (ofTys_map hv) b hb'
  rw [hDn, e1] at e2
  have hl : (D.params.map Prod.fst).length = (D.params.map fun p => val p.1).length := by simp
  simp only [processPs, List.map_append, List.map_cons, List.map_nil, mkEq, eval, evals, evalOp]
  have e3 : eval I (fnEnv (D.params.map Prod.fst ++ [c.out.1]) (D.params.map (fun p => val p.1) ++ [v])) b =
      eval I (fnEnv (D.params.map Prod.fst) (D.params.map fun p => val p.1)) b :=
    eval_congr I b fun x hx => fnEnv_append hl fun e => o2 b hb' (e ▸ hx)
  rw [fnEnv_result hl o1, e3, ← e2]

/-- C56 (partial: for invariants to which C55 applies): the predicates the solver is given for the loops say what the Python functions `invariant`,
or `invariant1` and `invariant2`, return. -/
theorem C56_invariant_partial {W : World} {c : Config} {src : String} {ds : List FuncDef} {st : St} {dslSigs : FnSigs} {n : Nat}
    {lams : List (FnDecl × String)} {counts : List (String × Nat)} (hs : W.mypy src = some ds)
    (h : checkSol W c n lams counts (.text src) = some st) (hdsl : sigsOf c.dsl = some dslSigs) (hn : ((ds ++ c.dsl).map FuncDef.name).Nodup)
    (hok : ∀ d ∈ ds, okDef ds st.decls d = true) 
    {I : Interp} (hB : Builtin I) (hD : ∀ D ∈ st.decls, DeclHolds I D ∧ BodyTyped D) (hP : ∀ D ∈ st.decls.map (process c.benchmark c.out), DeclHolds I D)
    {G : Globals} (hA : Agrees I dslSigs G) {d : FuncDef} (hd : d ∈ ds) {i : String}
    (hi : (d.name, i) ∈ [("invariant", "_inv0"), ("invariant1", "_inv0"), ("invariant2", "_inv1")]) :
    ∃ D ∈ st.decls, (∀ p t, (p, t) ∈ D.params ↔ (p, some t) ∈ d.params.zip (d.args.map irTy)) ∧
      ∀ k (val : String → Val), (∀ p ∈ D.params, OfTy p.2 (val p.1)) → ∀ r,
        (pyModule true G ds k).call d.name (d.params.map fun p => .v (val p)) = some r →
        I.fn (c.benchmark ++ i) (D.params.map (fun p => val p.1)) = r := by
  simp only [checkSol, hs, Option.bind_some] at h
  obtain ⟨D, hDm, hDn, hret, ⟨b, hb'⟩, hpar, hval⟩ := C55_solution_partial h hdsl hn hok hB hD hA d hd
  refine ⟨D, hDm, hpar, fun k val hv r hr => ?_⟩
  obtain ⟨e1, -⟩ := hval k val hv r hr
  have e2 := (hD D hDm).1 _ (ofTys_map hv) b hb'
  rw [hDn, e1] at e2
  have hproc : process c.benchmark c.out D = { D with name := c.benchmark ++ i } := by
    have hne : ∀ x : String, x ≠ "" → c.benchmark ++ x ≠ c.benchmark := by
      intro x hx h
      have := congrArg String.toList h
      rw [String.toList_append, List.append_right_eq_self] at this
      exact hx (String.toList_eq_nil_iff.1 this)
    have hlast : ∀ x y : String, x.toList.getLast? ≠ none → x.toList.getLast? ≠ y.toList.getLast? → c.benchmark ++ x ≠ y := by
      intro x y h0 h1 h
      have := congrArg (fun s => s.toList.getLast?) h
      simp only [String.toList_append, List.getLast?_append] at this
      cases hx : x.toList.getLast? with
      | none => exact h0 hx
      | some ch => rw [hx] at this h1; exact h1 this
    simp only [List.mem_cons, Prod.mk.injEq, List.not_mem_nil, or_false] at hi
    rcases hi with ⟨hi, rfl⟩ | ⟨hi, rfl⟩ | ⟨hi, rfl⟩ <;> rw [hi] at hDn
    · simp only [process, hDn, if_true, if_neg (hne "_inv0" (by decide)), if_neg (hlast "_inv0" "invariant1" (by decide +kernel) (by decide +kernel)),
        if_neg (hlast "_inv0" "invariant2" (by decide +kernel) (by decide +kernel))]
    · simp only [process, hDn, if_true, if_neg (hne "_inv0" (by decide)), if_neg (show ¬ "invariant1" = "invariant" by decide),
        if_neg (hlast "_inv0" "invariant2" (by decide +kernel) (by decide +kernel))]
    · simp only [process, hDn, if_true, if_neg (hne "_inv1" (by decide)), if_neg (show ¬ "invariant2" = "invariant" by decide),
        if_neg (show ¬ "invariant2" = "invariant1" by decide)]
  have eq := hP _ (List.mem_map.2 ⟨D, hDm, hproc⟩) (D.params.map (fun p => val p.1)) (ofTys_map hv) b hb'
  rw [eq, ← e2]

/-! ### Runs that end with the first check -/

/-- The query for a summary and invariants. -/
def firstQuery (c : Config) (p i : St) : Query := ⟨c.distinct ((p.decls ++ i.decls).map (process c.benchmark c.out)), p.inCalls ++ i.inCalls, c.vc⟩

theorem run_first {W : World} {c : Config} {s t : Sol} {p i : St} {d : FnDecl} {code : Int} {out : String} (hm : c.method ≠ .none) (h1 : 0 < c.maxPs)
    (h2 : 0 < c.maxInv) (a1 : W.ask [] [.user c.psPrompt] = some s) (k1 : checkSol W c 1 [] [] s = some p)
    (hd : (p.decls.map (process c.benchmark c.out)).find? (fun d => hasPart "ps".toList d.name.toList) = some d)
    (a2 : W.ask [.ps [.user c.psPrompt] s] [.user (c.invPrompt d)] = some t)
    (k2 : checkSol W c (if c.double then 2 else 1) p.lams p.counts t = some i)
    (sv : W.solve [.ps [.user c.psPrompt] s, .inv [.user (c.invPrompt d)] t] (firstQuery c p i) = some (code, out))
    (hv : verified c.method code out = some true) :
    runLlm W c = ([.ps [.user c.psPrompt] s, .inv [.user (c.invPrompt d)] t, .check (firstQuery c p i) code out], .reported s) := by
  have r0 : ∀ x, request x [] = some [.user x] := fun _ => rfl
  obtain ⟨m, hmp⟩ := Nat.exists_eq_succ_of_ne_zero (Nat.pos_iff_ne_zero.1 h1)
  obtain ⟨m', hmi⟩ := Nat.exists_eq_succ_of_ne_zero (Nat.pos_iff_ne_zero.1 h2)
  have inv : invLoop W c p d c.maxInv [] p.lams p.counts [.ps [.user c.psPrompt] s] =
      ([.ps [.user c.psPrompt] s, .inv [.user (c.invPrompt d)] t, .check (firstQuery c p i) code out], .found) := by
    rw [hmi, invLoop]
    simp only [r0, a2, k2, List.cons_append, List.nil_append]
    have sv' : W.solve [.ps [.user c.psPrompt] s, .inv [.user (c.invPrompt d)] t]
        ⟨c.distinct (p.decls.map (process c.benchmark c.out) ++ i.decls.map (process c.benchmark c.out)), p.inCalls ++ i.inCalls, c.vc⟩ = some (code, out) := by
      rw [← List.map_append]; exact sv
    cases hmt : c.method with
    | none => exact absurd hmt hm
    | rosette => rw [hmt] at hv; simp only [sv', hv, firstQuery, List.map_append]
    | smt => rw [hmt] at hv; simp only [sv', hv, firstQuery, List.map_append]
  rw [runLlm, hmp, psLoop]
  simp only [r0, a1, k1, hd, List.nil_append, inv]

/-- C56 fails for CVC5: whatever CVC5 prints, the first solution that can be parsed is reported, if CVC5 is not killed. -/
theorem C56_smt_any_answer_refuted {W : World} {c : Config} {s t : Sol} {p i : St} {d : FnDecl} {code : Int} {out : String} (hm : c.method = .smt)
    (h1 : 0 < c.maxPs) (h2 : 0 < c.maxInv) (a1 : W.ask [] [.user c.psPrompt] = some s) (k1 : checkSol W c 1 [] [] s = some p)
    (hd : (p.decls.map (process c.benchmark c.out)).find? (fun d => hasPart "ps".toList d.name.toList) = some d)
    (a2 : W.ask [.ps [.user c.psPrompt] s] [.user (c.invPrompt d)] = some t)
    (k2 : checkSol W c (if c.double then 2 else 1) p.lams p.counts t = some i)
    (sv : W.solve [.ps [.user c.psPrompt] s, .inv [.user (c.invPrompt d)] t] (firstQuery c p i) = some (code, out)) (hc : 0 ≤ code) :
    (runLlm W c).2 = .reported s := by
  rw [run_first (by rw [hm]; decide) h1 h2 a1 k1 hd a2 k2 sv (by rw [hm, verified, if_neg (by omega)])]

/-- C56 fails without verification: no solution is ever reported. -/
theorem C56_no_verification_refuted (W : World) (c : Config) (hm : c.method = .none) (s : Sol) : (runLlm W c).2 ≠ .reported s := by
  intro h
  obtain ⟨code, out, -, hv⟩ := (run_ps W c).reported s h
  simp [hm, verified] at hv

/-- C56 fails for models whose answers are lists (Claude): no solution is ever reported. -/
theorem C56_list_answers_refuted (W : World) (c : Config) (ha : ∀ tr msgs a, W.ask tr msgs = some a → ∃ ss, a = .parts ss) (s : Sol) :
    (runLlm W c).2 ≠ .reported s := by
  intro h
  have hr := run_ps W c
  obtain ⟨code, out, ⟨be, pm, bt, im, t, sp, si, l, n, e1, -, e2, -⟩, -⟩ := hr.reported s h
  obtain ⟨ss, rfl⟩ := ha _ _ _ (hr.asked be pm s _ e1).2
  simp [checkSol] at e2

/-! ### A concrete run -/

/-- `def dbl(x: int) -> int: return x + x` and `def invariant(i: int, x: int) -> bool: return 0 <= i` -/
def runPs : FuncDef := ⟨"dbl", ["x"], .int, [.int], [.ret (.op "+" (.name "x" .int) (.name "x" .int))]⟩
@[inherit_doc runPs] def runInv : FuncDef := ⟨"invariant", ["i", "x"], .bool, [.int, .int], [.ret (.compare ["<="] [.int 0, .name "i" .int])]⟩

def runPsSt : St := ⟨[], [], [⟨"dbl", .int, [("x", .int)], some (.node .add .int [.var "x" .int, .var "x" .int]), true⟩], []⟩
def runInvSt : St := ⟨[], [], [⟨"invariant", .bool, [("i", .int), ("x", .int)], some (.node .le .bool [intLit 0, .var "i" .int]), true⟩], []⟩

/-- A world in which the language model answers `s` and `t`, and the solver always answers the same. -/
def runWorld (code : Int) (out : String) : World where
  ask := fun _ msgs => match msgs with
    | [.user "P"] => some (.text "s")
    | _ => some (.text "t")
  solve := fun _ _ => some (code, out)
  mypy := fun s => if s = "s" then some [runPs] else some [runInv]
  left := fun _ => ([], [])

/-- The parameters of the run. -/
def runConfig (m : Method) : Config where
  dsl := []
  psPrompt := "P"
  invPrompt := fun _ => "I"
  benchmark := "dbl"
  out := ("r", .int)
  vc := boolLit true
  double := false
  maxPs := 2
  maxInv := 2
  method := m
  distinct := id

theorem runPs_ok : checkSolution [] [runPs] 1 [] [] = some runPsSt := by llm_parse runPs runPs runPsSt

theorem runInv_ok : checkSolution [] [runInv] 1 [] [] = some runInvSt := by llm_parse runInv runInv runInvSt

/-- The functions given to the solver. -/
def runFns : List FnDecl :=
  [⟨"dbl_ps", .bool, [("x", .int), ("r", .int)], some (mkEq (.var "r" .int) (.node .add .int [.var "x" .int, .var "x" .int])), true⟩,
   ⟨"dbl_inv0", .bool, [("i", .int), ("x", .int)], some (.node .le .bool [intLit 0, .var "i" .int]), true⟩]

theorem runFns_eq : (runPsSt.decls ++ runInvSt.decls).map (process "dbl" ("r", .int)) = runFns := by
  simp only [runPsSt, runInvSt, List.cons_append, List.nil_append, List.map_cons, List.map_nil, process, runFns, processPs]
  rfl

theorem firstLine_unsat : firstLine "(unsat)\n" = "(unsat)" := by decide +kernel

/-- The trace of a run in which the first check decides. -/
def runTrace (code : Int) (out : String) : List Ev :=
  [.ps [.user "P"] (.text "s"), .inv [.user "I"] (.text "t"), .check ⟨runFns, [], boolLit true⟩ code out]

theorem run_eq (m : Method) (hm : m ≠ .none) (code : Int) (out : String) (hv : verified m code out = some true) :
    runLlm (runWorld code out) (runConfig m) = (runTrace code out, .reported (.text "s")) := by
  have e1 : checkSol (runWorld code out) (runConfig m) 1 [] [] (.text "s") = some runPsSt := runPs_ok
  have e2 : checkSol (runWorld code out) (runConfig m) 1 [] [] (.text "t") = some runInvSt := runInv_ok
  have e3 : (runPsSt.decls.map (process "dbl" ("r", .int))).find? (fun d => hasPart "ps".toList d.name.toList) = runFns.head? := by
    have : runPsSt.decls.map (process "dbl" ("r", .int)) = runFns.take 1 := congrArg (List.take 1) runFns_eq
    rw [this]
    have h : hasPart "ps".toList "dbl_ps".toList = true := by decide +kernel
    simp only [runFns, List.take_succ_cons, List.take_zero, List.find?_cons, h, List.head?_cons]
  have := run_first (W := runWorld code out) (c := runConfig m) (s := .text "s") (t := .text "t") (code := code) (out := out) hm (Nat.zero_lt_succ _)
    (Nat.zero_lt_succ _) rfl e1 e3 rfl e2 rfl hv
  rw [this]
  simp only [runTrace, firstQuery]
  rw [show (runConfig m).distinct ((runPsSt.decls ++ runInvSt.decls).map (process (runConfig m).benchmark (runConfig m).out)) = runFns from runFns_eq]
  rfl

/-- The hypotheses of `C56_rosette` are met. -/
example : runLlm (runWorld 0 "(unsat)\n") (runConfig .rosette) = (runTrace 0 "(unsat)\n", .reported (.text "s")) :=
  run_eq .rosette (by decide) _ _ (by simp [verified, firstLine_unsat])

/-- With CVC5 the solution is reported also if the answer is `sat`. -/
theorem C56_sat_refuted : runLlm (runWorld 0 "sat\n") (runConfig .smt) = (runTrace 0 "sat\n", .reported (.text "s")) :=
  run_eq .smt (by decide) _ _ (by simp [verified])

/-- C56 fails for a summary that can be parsed, but whose function does not have the name of the benchmark: the algorithm ends with an exception, whatever
attempts are left. -/
theorem C56_other_name_refuted {W : World} {c : Config} {s : Sol} {p : St} (h1 : 0 < c.maxPs) (a1 : W.ask [] [.user c.psPrompt] = some s)
    (k1 : checkSol W c 1 [] [] s = some p)
    (hd : ∀ d ∈ p.decls.map (process c.benchmark c.out), hasPart "ps".toList d.name.toList = false) : (runLlm W c).2 = .raised := by
  obtain ⟨m, hmp⟩ := Nat.exists_eq_succ_of_ne_zero (Nat.pos_iff_ne_zero.1 h1)
  have hf : (p.decls.map (process c.benchmark c.out)).find? (fun d => hasPart "ps".toList d.name.toList) = none := by
    rw [List.find?_eq_none]
    intro d hm h
    rw [hd d hm] at h
    cases h
  have r0 : request c.psPrompt [] = some [.user c.psPrompt] := rfl
  rw [runLlm, hmp, psLoop]
  simp only [r0, a1, k1, hf, List.nil_append]

/-- The hypotheses are met by a benchmark called `f`. -/
example : (runLlm (runWorld 0 "(unsat)\n") { runConfig .rosette with benchmark := "f" }).2 = .raised :=
  C56_other_name_refuted (p := runPsSt) (Nat.zero_lt_succ _) rfl runPs_ok (by
    intro d hd
    have : d = ⟨"dbl", .int, [("x", .int)], some (.node .add .int [.var "x" .int, .var "x" .int]), true⟩ := by simpa [runPsSt, process] using hd
    rw [this]
    decide +kernel)

/-- An interpretation of the functions of the run. -/
def runIFns (f : String) : Option (List Val → Val) :=
  if f = "dbl" then some fun vs => .int ((vs.headD (.int 0)).asInt + (vs.headD (.int 0)).asInt)
  else if f = "dbl_ps" then some fun vs => match vs with | [x, r] => .bool (decide (r = .int (x.asInt + x.asInt))) | _ => .bool false
  else if f = "invariant" ∨ f = "dbl_inv0" then some fun vs => .bool (decide (0 ≤ (vs.headD (.int 0)).asInt))
  else none

/-- The hypotheses of `C56_summary_partial` and `C56_invariant_partial` are met. -/
example : Builtin (exInterp runIFns) ∧ (∀ D ∈ runPsSt.decls ++ runInvSt.decls, DeclHolds (exInterp runIFns) D ∧ BodyTyped D) ∧
    (∀ D ∈ runFns, DeclHolds (exInterp runIFns) D) ∧ Agrees (exInterp runIFns) [] noFns ∧
    (∀ D ∈ runPsSt.decls, "r" ∉ D.params.map Prod.fst ∧ ∀ b, D.body = some b → "r" ∉ b.vars) ∧
    (∀ d ∈ [runPs], okDef [runPs] runPsSt.decls d = true) ∧ (∀ d ∈ [runInv], okDef [runInv] runInvSt.decls d = true) ∧
    (pyModule true noFns [runPs] 1).call "dbl" [.v (.int 3)] = some (.int 6) := by
  have h0 : (Val.int 0).asInt = 0 := rfl
  refine ⟨exInterp_builtin (by decide +kernel), ?_, ?_, by intro f s hs; simp at hs, ?_, by decide +kernel, by decide +kernel, ?_⟩
  · intro D hD
    simp only [runPsSt, runInvSt, List.cons_append, List.nil_append, List.mem_cons, List.not_mem_nil, or_false] at hD
    rcases hD with rfl | rfl
    · refine ⟨fun vs hvs b hb => ?_, fun b hb => by cases hb; rfl⟩
      obtain ⟨v, rfl, -⟩ := ofTys1 hvs
      cases hb
      simp [exInterp, runIFns, eval, evals, evalOp, fnEnv]
    · refine ⟨fun vs hvs b hb => ?_, fun b hb => by cases hb; rfl⟩
      match vs, hvs with
      | [i, x], _ =>
        cases hb
        simp [exInterp, runIFns, eval, evals, evalOp, fnEnv, intLit, Lit.val, h0]
        exact decide_eq_decide.2 Iff.rfl
  · intro D hD
    simp only [runFns, List.mem_cons, List.not_mem_nil, or_false] at hD
    rcases hD with rfl | rfl
    · intro vs hvs b hb
      match vs, hvs with
      | [x, r], _ =>
        cases hb
        simp [exInterp, runIFns, eval, evals, evalOp, fnEnv, mkEq, List.lookup_cons]
    · intro vs hvs b hb
      match vs, hvs with
      | [i, x], _ =>
        cases hb
        simp [exInterp, runIFns, eval, evals, evalOp, fnEnv, intLit, Lit.val, h0]
        exact decide_eq_decide.2 Iff.rfl
  · intro D hD
    simp only [runPsSt, List.mem_cons, List.not_mem_nil, or_false] at hD
    subst hD
    refine ⟨by simp, fun b hb => ?_⟩
    cases hb
    simp [Expr.vars, Expr.varss]
  · simp [pyModule, pyBlock, pyEval, pyName, pyBin, Locals.bind, PV.data?, runPs]

/-! ### C57 -/

/-- The results of a sequence of calls in one process. -/
def manyCalls : Option (List FuncDef) → List (List FuncDef × List FuncDef × Nat) → List (Option St)
  | _, [] => []
  | cache, (dsl, targets, n) :: cs => (checkCached cache dsl targets n [] []).1 :: manyCalls (checkCached cache dsl targets n [] []).2 cs

/-- C57 (partial: if the target language is always the same): the result of every call is what the call alone would give. -/
theorem C57_same_language_partial (dsl : List FuncDef) : ∀ (cs : List (List FuncDef × List FuncDef × Nat)), (∀ x ∈ cs, x.1 = dsl) →
    manyCalls none cs = cs.map fun x => checkSolution x.1 x.2.1 x.2.2 [] [] := by
  have key : ∀ (cache : Option (List FuncDef)) (cs : List (List FuncDef × List FuncDef × Nat)), (cache = none ∨ cache = some dsl) → (∀ x ∈ cs, x.1 = dsl) →
      manyCalls cache cs = cs.map fun x => checkSolution x.1 x.2.1 x.2.2 [] [] := by
    intro cache cs
    induction cs generalizing cache with
    | nil => intro _ _; rfl
    | cons x cs ih =>
      intro hc hx
      obtain ⟨d, ts, n⟩ := x
      have hd : d = dsl := hx _ List.mem_cons_self
      subst hd
      have hg : cache.getD d = d := by rcases hc with rfl | rfl <;> rfl
      simp only [manyCalls, List.map_cons, checkCached, hg]
      split
      · rw [ih _ (.inr rfl) fun y hy => hx y (List.mem_cons_of_mem _ hy)]
      · rename_i hn
        rw [ih _ hc fun y hy => hx y (List.mem_cons_of_mem _ hy)]
        simp [checkSolution, hn]
  intro cs h
  exact key none cs (.inl rfl) h

/-- `def f(v: List[int]) -> List[int]: return vec_map(v, lambda x: x)` -/
def idDef : FuncDef := ⟨"f", ["v"], .list .int, [.list .int], [.ret (.call "vec_map" [.name "v" (.list .int),
  .lambda ["x"] (.name "x" .int) (.callable .int [.int])] [none, none] (.list .int))]⟩

/-- C57 fails if the target language changes: after a call with another target language a solution that would be accepted is rejected. -/
theorem C57_other_language_refuted : (∃ st, checkSolution exDsl [idDef] 1 [] [] = some st) ∧
    (manyCalls none [([], [runPs], 1), (exDsl, [idDef], 1)]).getLast? = some none := by
  constructor
  · llm_parse exDsl idDef idDef
  · simp only [manyCalls, checkCached, List.length_cons, List.length_nil, if_true, Option.getD_none, Option.getD_some]
    have : checkSolution [] [idDef] 1 [] [] = none := by llm_parse idDef idDef idDef
    rw [this]
    rfl

end Llm
end Metalift
