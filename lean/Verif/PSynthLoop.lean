import Verif.SynthLoop
/-
C25, C26: what the synthesis loops return.  C36: what the queries of later rounds exclude.
-/
namespace Metalift

/-! ### Specification -/

/-- In iteration `i` the file of solution `j` says that there is a solution, and the candidate read from it is `c`. -/
def Offered {α : Type} (w : RosetteWorld α) (i j : Nat) (c : α) : Prop :=
  ∃ rest, w.file i j = some ("#t", rest) ∧ w.decode rest = some c

/-- The verifier ran to its end and its first line of output is `unsat`. -/
def CvcRun.Accepts (r : CvcRun) : Prop := ∃ code rest, r = .ran code "unsat" rest ∧ 0 ≤ code

/-- The verifier ran and gave another answer, or was killed. -/
def CvcRun.Rejects (r : CvcRun) : Prop := ∃ code first rest, r = .ran code first rest ∧ (code < 0 ∨ first ≠ "unsat")

/-- The solutions `0, 1, ..., hist.length - 1` were examined one after the other, at the given times (before `i`), and all were rejected. -/
structure AllRejected {α : Type} (w : RosetteWorld α) (i : Nat) (hist : List (Nat × α)) : Prop where
  each : ∀ j (h : j < hist.length), hist[j].1 < i ∧ Offered w hist[j].1 j hist[j].2 ∧ (w.verify j hist[j].2).Rejects
  ordered : hist.Pairwise (fun a b => a.1 < b.1)

/-! ### C25 -/

theorem AllRejected.nil {α : Type} (w : RosetteWorld α) (i : Nat) : AllRejected w i ([] : List (Nat × α)) :=
  ⟨fun j h => by simp at h, List.Pairwise.nil⟩

theorem AllRejected.mono {α : Type} {w : RosetteWorld α} {i i' : Nat} {hist : List (Nat × α)} (h : AllRejected w i hist) (hi : i ≤ i') :
    AllRejected w i' hist :=
  ⟨fun j hj => ⟨Nat.lt_of_lt_of_le (h.each j hj).1 hi, (h.each j hj).2⟩, h.ordered⟩

theorem AllRejected.snoc {α : Type} {w : RosetteWorld α} {i : Nat} {hist : List (Nat × α)} {c : α} (h : AllRejected w i hist)
    (ho : Offered w i hist.length c) (hr : (w.verify hist.length c).Rejects) : AllRejected w (i + 1) (hist ++ [(i, c)]) := by
  refine ⟨?_, ?_⟩
  · intro j hj
    simp only [List.length_append, List.length_cons, List.length_nil] at hj
    by_cases hlt : j < hist.length
    · rw [List.getElem_append_left hlt]
      have := h.each j hlt
      exact ⟨by omega, this.2⟩
    · have : j = hist.length := by omega
      subst this
      simp only [List.getElem_concat_length]
      exact ⟨by omega, ho, hr⟩
  · rw [List.pairwise_append]
    refine ⟨h.ordered, by simp, ?_⟩
    intro a ha b hb
    rw [List.mem_singleton] at hb
    subst hb
    obtain ⟨j, hj, rfl⟩ := List.getElem_of_mem ha
    exact (h.each j hj).1

theorem verify_unsat {r : CvcRun} (h : verifySynthResult r = some "unsat") : r.Accepts := by
  cases r with
  | unsupported => exact nomatch h
  | raises => exact nomatch h
  | ran code first rest =>
    simp only [verifySynthResult] at h
    split at h
    · exact absurd (Option.some.inj h) (by decide)
    · injection h with h
      subst h
      exact ⟨code, rest, rfl, by omega⟩

theorem verify_other {r : CvcRun} {s : String} (h : verifySynthResult r = some s) (hs : s ≠ "unsat") : r.Rejects := by
  cases r with
  | unsupported => exact nomatch h
  | raises => exact nomatch h
  | ran code first rest =>
    simp only [verifySynthResult] at h
    split at h
    · rename_i hc
      exact ⟨code, first, rest, rfl, Or.inl hc⟩
    · injection h with h
      subst h
      exact ⟨code, first, rest, rfl, Or.inr hs⟩

/-- What each way to end says about the run. -/
def Explains {α : Type} (w : RosetteWorld α) (noVerify : Bool) (rounds : Nat) : SynthOutcome α → Prop
  | .returned c => ∃ i hist, AllRejected w i hist ∧ hist.length ≤ rounds ∧ Offered w i hist.length c ∧
      (noVerify = true ∨ (w.verify hist.length c).Accepts)
  | .synthesisFailed => ∃ i hist first rest, AllRejected w i hist ∧ hist.length ≤ rounds ∧ w.file i hist.length = some (first, rest) ∧ first ≠ "#t"
  | .verificationFailed => noVerify = false ∧ ∃ i hist, AllRejected w i hist ∧ hist.length = rounds + 1
  | .exception => ∃ i hist rest, AllRejected w i hist ∧ hist.length ≤ rounds ∧ w.file i hist.length = some ("#t", rest) ∧
      (w.decode rest = none ∨ ∃ c, w.decode rest = some c ∧ noVerify = false ∧
        (w.verify hist.length c = .unsupported ∨ w.verify hist.length c = .raises))
  | .afterLoop => False

theorem rosetteLoop_explains {α : Type} (w : RosetteWorld α) (noVerify : Bool) (rounds : Nat) : ∀ (fuel i : Nat) (hist : List (Nat × α)),
    AllRejected w i hist → hist.length ≤ rounds → ∀ o, rosetteLoop w noVerify rounds fuel i hist.length = some o → Explains w noVerify rounds o
  | 0, _, _, _, _, _, h => nomatch h
  | fuel + 1, i, hist, hh, hlen, o, h => by
    unfold rosetteLoop at h
    rw [if_pos (Or.inr (by omega))] at h
    cases hf : w.file i hist.length with
    | none =>
      have : rosetteBody w noVerify rounds i hist.length = .next hist.length := by simp [rosetteBody, hf]
      rw [this] at h
      exact rosetteLoop_explains w noVerify rounds fuel (i + 1) hist (hh.mono (by omega)) hlen o h
    | some fr =>
      obtain ⟨first, rest⟩ := fr
      by_cases h1 : first = "#t"
      · subst h1
        cases hd : w.decode rest with
        | none =>
          have : rosetteBody w noVerify rounds i hist.length = .done .exception := by simp [rosetteBody, hf, hd]
          rw [this] at h
          injection h with h
          subst h
          exact ⟨i, hist, rest, hh, hlen, hf, Or.inl hd⟩
        | some c =>
          have ho : Offered w i hist.length c := ⟨rest, hf, hd⟩
          cases hv : rosetteVerify w noVerify hist.length c with
          | none =>
            have : rosetteBody w noVerify rounds i hist.length = .done .exception := by simp [rosetteBody, hf, hd, hv]
            rw [this] at h
            injection h with h
            subst h
            refine ⟨i, hist, rest, hh, hlen, hf, Or.inr ⟨c, hd, ?_⟩⟩
            unfold rosetteVerify at hv
            cases noVerify with
            | true => simp at hv
            | false =>
              refine ⟨rfl, ?_⟩
              simp at hv
              cases hr : w.verify hist.length c with
              | unsupported => exact Or.inl rfl
              | raises => exact Or.inr rfl
              | ran code first rest =>
                rw [hr] at hv
                simp only [verifySynthResult] at hv
                split at hv <;> exact nomatch hv
          | some r =>
            by_cases hu : r = "unsat"
            · subst hu
              have : rosetteBody w noVerify rounds i hist.length = .done (.returned c) := by simp [rosetteBody, hf, hd, hv]
              rw [this] at h
              injection h with h
              subst h
              refine ⟨i, hist, hh, hlen, ho, ?_⟩
              unfold rosetteVerify at hv
              cases noVerify with
              | true => exact Or.inl rfl
              | false => exact Or.inr (verify_unsat (by simpa using hv))
            · have hnv : noVerify = false := by
                cases noVerify with
                | true =>
                  simp [rosetteVerify] at hv
                  exact absurd hv.symm hu
                | false => rfl
              subst hnv
              have hr := verify_other (r := w.verify hist.length c) (by simpa [rosetteVerify] using hv) hu
              by_cases he : hist.length = rounds
              · have : rosetteBody w false rounds i hist.length = .done .verificationFailed := by
                  subst he
                  simp [rosetteBody, hf, hd, hv, hu]
                rw [this] at h
                injection h with h
                subst h
                exact ⟨rfl, i + 1, hist ++ [(i, c)], hh.snoc ho hr, by simp [he]⟩
              · have : rosetteBody w false rounds i hist.length = .next (hist.length + 1) := by simp [rosetteBody, hf, hd, hv, hu, he]
                rw [this] at h
                have hl : (hist ++ [(i, c)]).length = hist.length + 1 := by simp
                have h' : rosetteLoop w false rounds fuel (i + 1) (hist ++ [(i, c)]).length = some o := by rw [hl]; exact h
                exact rosetteLoop_explains w false rounds fuel (i + 1) (hist ++ [(i, c)]) (hh.snoc ho hr) (by rw [hl]; omega) o h'
      · have : rosetteBody w noVerify rounds i hist.length = .done .synthesisFailed := by simp [rosetteBody, hf, h1]
        rw [this] at h
        injection h with h
        subst h
        exact ⟨i, hist, first, rest, hh, hlen, hf, h1⟩

/-- **C25**, what is returned: if the call returns `c`, then `c` is the candidate of some solution `k`, the solutions before it were examined in
order, without a gap, and rejected, and the verifier was run on `c` and answered `unsat` (unless verification was switched off). -/
theorem C25_returns_verified {α : Type} (w : RosetteWorld α) (noVerify : Bool) (rounds fuel : Nat) (c : α)
    (h : rosetteSynthesize w noVerify rounds fuel = some (.returned c)) :
    ∃ i hist, AllRejected w i hist ∧ hist.length ≤ rounds ∧ Offered w i hist.length c ∧
      (noVerify = true ∨ (w.verify hist.length c).Accepts) :=
  rosetteLoop_explains w noVerify rounds fuel 0 [] (AllRejected.nil w 0) (by simp) _ h

/-- **C25**, the failures: `VerificationFailed` is raised only after all `rounds + 1` solutions were examined in order and rejected;
`SynthesisFailed` only if the next solution file does not start with `#t`; the code behind the loop is never reached; any other exception
comes from reading a candidate or from calling the verifier. -/
theorem C25_failures {α : Type} (w : RosetteWorld α) (noVerify : Bool) (rounds fuel : Nat) (o : SynthOutcome α)
    (h : rosetteSynthesize w noVerify rounds fuel = some o) : Explains w noVerify rounds o :=
  rosetteLoop_explains w noVerify rounds fuel 0 [] (AllRejected.nil w 0) (by simp) _ h

theorem rosetteLoop_ends {α : Type} (w : RosetteWorld α) (noVerify : Bool) (rounds T : Nat)
    (hT : ∀ i ≥ T, ∀ j ≤ rounds, ∃ c, w.file i j = some c) :
    ∀ (fuel i idx : Nat), idx ≤ rounds → (T - i) + (rounds - idx) < fuel → ∃ o, rosetteLoop w noVerify rounds fuel i idx = some o
  | 0, _, _, _, h => by omega
  | fuel + 1, i, idx, hidx, h => by
    unfold rosetteLoop
    rw [if_pos (Or.inr (by omega))]
    unfold rosetteBody
    cases hf : w.file i idx with
    | none =>
      have hi : i < T := by
        apply Nat.lt_of_not_le
        intro hle
        obtain ⟨c, hc⟩ := hT i hle idx hidx
        rw [hc] at hf
        exact nomatch hf
      exact rosetteLoop_ends w noVerify rounds T hT fuel (i + 1) idx hidx (by omega)
    | some fr =>
      obtain ⟨first, rest⟩ := fr
      simp only
      split
      · rename_i o heq
        exact ⟨o, rfl⟩
      · rename_i idx' heq
        by_cases h1 : first = "#t"
        · rw [if_pos h1] at heq
          cases hd : w.decode rest with
          | none => rw [hd] at heq; exact nomatch heq
          | some c =>
            rw [hd] at heq
            simp only at heq
            cases hv : rosetteVerify w noVerify idx c with
            | none => rw [hv] at heq; exact nomatch heq
            | some r =>
              rw [hv] at heq
              simp only at heq
              by_cases hu : r = "unsat"
              · rw [if_pos hu] at heq; exact nomatch heq
              · rw [if_neg hu] at heq
                by_cases he : idx = rounds
                · rw [if_pos he] at heq; exact nomatch heq
                · rw [if_neg he] at heq
                  injection heq with heq
                  subst heq
                  exact rosetteLoop_ends w noVerify rounds T hT fuel (i + 1) (idx + 1) (by omega) (by omega)
        · rw [if_neg h1] at heq; exact nomatch heq

/-- **C25**, the end: if from some time on all solution files exist, the call ends.  If moreover candidates can be read and the verifier can be
called, it returns a candidate or raises `SynthesisFailed` or `VerificationFailed`. -/
theorem C25_ends_partial {α : Type} (w : RosetteWorld α) (noVerify : Bool) (rounds T : Nat)
    (hT : ∀ i ≥ T, ∀ j ≤ rounds, ∃ c, w.file i j = some c) :
    ∃ fuel o, rosetteSynthesize w noVerify rounds fuel = some o ∧
      ((∀ rest, w.decode rest ≠ none) → (∀ j c, w.verify j c ≠ .unsupported ∧ w.verify j c ≠ .raises) →
        (∃ c, o = .returned c) ∨ o = .synthesisFailed ∨ o = .verificationFailed) := by
  obtain ⟨o, ho⟩ := rosetteLoop_ends w noVerify rounds T hT (T + rounds + 1) 0 0 (by omega) (by omega)
  refine ⟨_, o, ho, fun hd hv => ?_⟩
  have := C25_failures w noVerify rounds _ o ho
  cases o with
  | returned c => exact Or.inl ⟨c, rfl⟩
  | synthesisFailed => exact Or.inr (Or.inl rfl)
  | verificationFailed => exact Or.inr (Or.inr rfl)
  | exception =>
    obtain ⟨i, hist, rest, -, -, -, h | ⟨c, -, -, h | h⟩⟩ := this
    · exact absurd h (hd rest)
    · exact absurd h (hv _ c).1
    · exact absurd h (hv _ c).2
  | afterLoop => exact this.elim

/-- A world that meets the hypotheses of `C25_ends_partial`: two solutions, the first is rejected. -/
def exWorld : RosetteWorld String where
  poll := fun i => if i < 7 then none else some 0
  file := fun i j => if 2 * j < i then some ("#t", ["f"]) else none
  verify := fun j _ => if j = 0 then .ran 0 "sat" [] else .ran 0 "unsat" []
  decode := fun rest => some (rest.headD "")

example : (∀ i ≥ 3, ∀ j ≤ 1, ∃ c, exWorld.file i j = some c) ∧ (∀ rest, exWorld.decode rest ≠ none) ∧
    (∀ j c, exWorld.verify j c ≠ .unsupported ∧ exWorld.verify j c ≠ .raises) ∧
    (match rosetteSynthesize exWorld false 1 10 with | some (.returned c) => c = "f" | _ => False) := by
  refine ⟨?_, fun _ => by simp [exWorld], ?_, by simp [rosetteSynthesize, rosetteLoop, rosetteBody, exWorld, rosetteVerify, verifySynthResult]⟩
  · intro i hi j hj
    exact ⟨_, by simp only [exWorld]; rw [if_pos (by omega)]⟩
  · intro j c
    simp only [exWorld]
    split <;> simp

/-- If the solver process ends (with any code) without having written a solution file, the call never ends, whatever the number of
rounds. -/
theorem C25_no_solution_file_refuted {α : Type} (w : RosetteWorld α) (noVerify : Bool) (rounds : Nat) (h : ∀ i, w.file i 0 = none) :
    ∀ fuel, rosetteSynthesize w noVerify rounds fuel = none := by
  have key : ∀ fuel i, rosetteLoop w noVerify rounds fuel i 0 = none := by
    intro fuel
    induction fuel with
    | zero => intro i; rfl
    | succ fuel ih =>
      intro i
      unfold rosetteLoop
      rw [if_pos (Or.inr (by omega))]
      have : rosetteBody w noVerify rounds i 0 = .next 0 := by simp [rosetteBody, h i]
      rw [this]
      exact ih (i + 1)
  exact fun fuel => key fuel 0

/-- The same happens when functions are to be excluded: the only query writes to `{basename}_sol`, the loop waits for `{basename}_sol0`. -/
theorem C25_excluded_functions_refuted {α γ : Type} (w : RosetteWorld α) (noVerify : Bool) (basename : String) (rounds : Nat) (guesses : List γ)
    (hw : ∀ i j, (∀ q ∈ generateSynth basename rounds guesses true, q.file ≠ solFile basename j) → w.file i j = none) :
    ∀ fuel, rosetteSynthesize w noVerify rounds fuel = none := by
  refine C25_no_solution_file_refuted w noVerify rounds (fun i => hw i 0 ?_)
  intro q hq h
  simp only [generateSynth, if_true, List.mem_singleton] at hq
  subst hq
  have := congrArg (fun s => s.toList.length) h
  simp [solFile] at this

/-- A solution file that is read while it is being written (it exists, but its first line is not complete) makes the call fail, although
the complete file holds a solution that the verifier accepts. -/
theorem C25_partial_file_refuted : ∃ w : RosetteWorld String, (∀ i ≥ 1, Offered w i 0 "f") ∧ (w.verify 0 "f").Accepts ∧
    rosetteSynthesize w false 0 1 = some .synthesisFailed := by
  refine ⟨⟨fun _ => none, fun i _ => if i = 0 then some ("", []) else some ("#t", ["f"]), fun _ _ => .ran 0 "unsat" [],
    fun rest => some (rest.headD "")⟩, ?_, ⟨0, [], rfl, by omega⟩, ?_⟩
  · intro i hi
    exact ⟨["f"], by simp; omega, rfl⟩
  · simp [rosetteSynthesize, rosetteLoop, rosetteBody]

/-! ### C26 -/

/-- The candidate read last before line `i`. -/
def LastCandidate {α : Type} (w : Cvc5World α) (i : Nat) (c : α) : Prop :=
  ∃ k < i, hasSub "sygus-candidate" (w.line k) = true ∧ w.decode (w.line k) = some c ∧
    ∀ k', k < k' → k' < i → hasSub "sygus-candidate" (w.line k') = false

/-- What each way to end says about the run. -/
def Explains5 {α : Type} (w : Cvc5World α) : SynthOutcome α → Prop
  | .returned c => ∃ i, strip (w.line i) = ['('] ∧ LastCandidate w i c ∧ (w.verify c).Accepts
  | .verificationFailed => ∃ i c, strip (w.line i) = ['('] ∧ LastCandidate w i c ∧ (w.verify c).Rejects
  | .synthesisFailed => ∃ i, hasSub "fail" (w.line i) = true ∨ ∃ code, w.poll i = some code ∧ 0 < code
  | .exception => ∃ i, (hasSub "sygus-candidate" (w.line i) = true ∧ w.decode (w.line i) = none) ∨
      (strip (w.line i) = ['('] ∧ ∀ k < i, hasSub "sygus-candidate" (w.line k) = false) ∨
      ∃ c, LastCandidate w i c ∧ (w.verify c = .unsupported ∨ w.verify c = .raises)
  | .afterLoop => False

theorem cvc5Loop_explains {α : Type} (w : Cvc5World α) : ∀ (fuel i : Nat) (cur : Option α),
    (∀ c, cur = some c → LastCandidate w i c) → (cur = none → ∀ k < i, hasSub "sygus-candidate" (w.line k) = false) →
    ∀ o, cvc5Loop w fuel i cur = some o → Explains5 w o
  | 0, _, _, _, _, _, h => nomatch h
  | fuel + 1, i, cur, h1, h2, o, h => by
    unfold cvc5Loop at h
    simp only at h
    have stay : hasSub "sygus-candidate" (w.line i) = false →
        (∀ c, cur = some c → LastCandidate w (i + 1) c) ∧ (cur = none → ∀ k < i + 1, hasSub "sygus-candidate" (w.line k) = false) := by
      intro hf
      refine ⟨fun c hc => ?_, fun hc k hk => ?_⟩
      · obtain ⟨k, hk, a, b, d⟩ := h1 c hc
        refine ⟨k, by omega, a, b, fun k' e f => ?_⟩
        by_cases hki : k' = i
        · exact hki ▸ hf
        · exact d k' e (by omega)
      · by_cases hki : k = i
        · exact hki ▸ hf
        · exact h2 hc k (by omega)
    by_cases hfail : hasSub "fail" (w.line i) = true
    · rw [if_pos hfail] at h
      injection h with h
      subst h
      exact ⟨i, Or.inl hfail⟩
    · rw [if_neg hfail] at h
      by_cases hc : hasSub "sygus-candidate" (w.line i) = true
      · rw [if_pos hc] at h
        cases hd : w.decode (w.line i) with
        | none =>
          rw [hd] at h
          injection h with h
          subst h
          exact ⟨i, Or.inl ⟨hc, hd⟩⟩
        | some c =>
          rw [hd] at h
          exact cvc5Loop_explains w fuel (i + 1) (some c)
            (fun c' hc' => by
              injection hc' with hc'
              subst hc'
              exact ⟨i, by omega, hc, hd, fun k' e f => by omega⟩) (fun hn => nomatch hn) o h
      · rw [if_neg hc] at h
        have hc' : hasSub "sygus-candidate" (w.line i) = false := by simpa using hc
        by_cases hp : strip (w.line i) = ['(']
        · rw [if_pos hp] at h
          cases hcur : cur with
          | none =>
            rw [hcur] at h
            injection h with h
            subst h
            exact ⟨i, Or.inr (Or.inl ⟨hp, h2 hcur⟩)⟩
          | some c =>
            rw [hcur] at h
            simp only at h
            have hl := h1 c hcur
            cases hv : verifySynthResult (w.verify c) with
            | none =>
              rw [hv] at h
              injection h with h
              subst h
              refine ⟨i, Or.inr (Or.inr ⟨c, hl, ?_⟩)⟩
              cases hr : w.verify c with
              | unsupported => exact Or.inl rfl
              | raises => exact Or.inr rfl
              | ran code first rest =>
                rw [hr] at hv
                simp only [verifySynthResult] at hv
                split at hv <;> exact nomatch hv
            | some r =>
              rw [hv] at h
              simp only at h
              by_cases hu : r = "unsat"
              · rw [if_pos hu] at h
                injection h with h
                subst h
                subst hu
                exact ⟨i, hp, hl, verify_unsat hv⟩
              · rw [if_neg hu] at h
                injection h with h
                subst h
                exact ⟨i, c, hp, hl, verify_other hv hu⟩
        · rw [if_neg hp] at h
          cases hpoll : w.poll i with
          | none =>
            rw [hpoll] at h
            exact cvc5Loop_explains w fuel (i + 1) cur (stay hc').1 (stay hc').2 o h
          | some code =>
            rw [hpoll] at h
            simp only at h
            by_cases hcode : code > 0
            · rw [if_pos hcode] at h
              injection h with h
              subst h
              exact ⟨i, Or.inr ⟨code, hpoll, hcode⟩⟩
            · rw [if_neg hcode] at h
              exact cvc5Loop_explains w fuel (i + 1) cur (stay hc').1 (stay hc').2 o h

/-- **C26**: if the CVC5 loop returns `c`, then `c` is the candidate of the last candidate line before the line `(`, and the verifier was run on it and
answered `unsat`. -/
theorem C26_returns_verified {α : Type} (w : Cvc5World α) (fuel : Nat) (c : α) (h : cvc5Synthesize w fuel = some (.returned c)) :
    ∃ i, strip (w.line i) = ['('] ∧ LastCandidate w i c ∧ (w.verify c).Accepts :=
  cvc5Loop_explains w fuel 0 none (fun _ h => nomatch h) (fun _ k hk => by omega) _ h

/-- **C26**, the failures: `VerificationFailed` is raised only if the verifier ran and did not answer `unsat`; `SynthesisFailed` only after a line with
`fail` or an exit code above zero; the loop has no other end than these, returning, and exceptions of parsing or calling the verifier. -/
theorem C26_failures {α : Type} (w : Cvc5World α) (fuel : Nat) (o : SynthOutcome α) (h : cvc5Synthesize w fuel = some o) : Explains5 w o :=
  cvc5Loop_explains w fuel 0 none (fun _ h => nomatch h) (fun _ k hk => by omega) _ h

/-- A run that returns: two candidates, the second is verified. -/
def exWorld5 : Cvc5World String where
  line := fun i => if i = 0 then "(sygus-candidate (f 0))\n" else if i = 1 then "(sygus-candidate (f 1))\n" else if i = 2 then "(\n" else ""
  poll := fun _ => none
  verify := fun c => if c = "(sygus-candidate (f 1))\n" then .ran 0 "unsat" [] else .ran 0 "sat" []
  decode := some

example : (match cvc5Synthesize exWorld5 5 with | some (.returned c) => c = "(sygus-candidate (f 1))\n" | _ => False) := by
  have h0 : hasSub "fail" "(sygus-candidate (f 0))\n" = false := rfl
  have h1 : hasSub "fail" "(sygus-candidate (f 1))\n" = false := rfl
  have h2 : hasSub "sygus-candidate" "(sygus-candidate (f 0))\n" = true := rfl
  have h3 : hasSub "sygus-candidate" "(sygus-candidate (f 1))\n" = true := rfl
  have h4 : hasSub "fail" "(\n" = false := rfl
  have h5 : hasSub "sygus-candidate" "(\n" = false := rfl
  have h6 : strip "(\n" = ['('] := rfl
  simp [cvc5Synthesize, cvc5Loop, exWorld5, verifySynthResult, h0, h1, h2, h3, h4, h5, h6]

/-- If the solver ends with exit code zero, or is killed (code below zero), before it has printed a line `(`, the loop reads empty lines for ever. -/
theorem C26_solver_ends_refuted {α : Type} (w : Cvc5World α) (code : Int) (hc : code ≤ 0) (h : ∀ i, w.line i = "" ∧ w.poll i = some code) :
    ∀ fuel, cvc5Synthesize w fuel = none := by
  have key : ∀ fuel i, cvc5Loop w fuel i none = none := by
    intro fuel
    induction fuel with
    | zero => intro i; rfl
    | succ fuel ih =>
      intro i
      unfold cvc5Loop
      have h1 : hasSub "fail" "" = false := rfl
      have h2 : hasSub "sygus-candidate" "" = false := rfl
      have h3 : strip "" ≠ ['('] := by decide
      simp only [(h i).1, (h i).2, h1, h2, h3, if_false]
      rw [if_neg (by simp), if_neg (by simp), if_neg (by omega)]
      exact ih (i + 1)
  exact fun fuel => key fuel 0

/-- A candidate that mentions a name with `fail` in it (for example a target function called `failures`) is never examined. -/
theorem C26_name_with_fail_refuted : ∃ w : Cvc5World String, w.line 0 = "(sygus-candidate (ps (failures x)))\n" ∧ strip (w.line 1) = ['('] ∧
    w.decode (w.line 0) = some "ps" ∧ (w.verify "ps").Accepts ∧ cvc5Synthesize w 1 = some .synthesisFailed := by
  refine ⟨⟨fun i => if i = 0 then "(sygus-candidate (ps (failures x)))\n" else "(\n", fun _ => none, fun _ => .ran 0 "unsat" [], fun _ => some "ps"⟩,
    rfl, rfl, rfl, ⟨0, [], rfl, by omega⟩, ?_⟩
  have h0 : hasSub "fail" "(sygus-candidate (ps (failures x)))\n" = true := rfl
  simp [cvc5Synthesize, cvc5Loop, h0]

/-! ### C36 -/

section Rounds

variable {γ η ι β : Type} (den : γ → η → ι → β) (asserts : η → ι → Prop)

/-- The assumptions of a query hold for the holes `h` on the input `x`, when `sols j` is the solution of query `j`. -/
def Assumed (sols : Nat → η) (q : SynthQuery γ) (h : η) (x : ι) : Prop :=
  ∀ clause ∈ q.assumes, ∃ gj ∈ clause, den gj.1 h x ≠ den gj.1 (sols gj.2) x

/-- Rosette's `synthesize`: for all inputs that satisfy the assumptions the assertions hold, and there is such an input (the first candidate of the
search is a model of assumptions and assertions). -/
def Solves (sols : Nat → η) (q : SynthQuery γ) (h : η) : Prop :=
  (∃ x, Assumed den sols q h x ∧ asserts h x) ∧ ∀ x, Assumed den sols q h x → asserts h x

theorem query_at {basename : String} {rounds : Nat} {guesses : List γ} {i : Nat} (hi : i ≤ rounds) :
    (generateSynth basename rounds guesses false)[i]? =
      some ⟨solFile basename i, (List.range i).map fun prev => guesses.map fun g => (g, prev)⟩ := by
  unfold generateSynth
  cases i with
  | zero =>
    have h0 : "_sol" ++ (0 : Nat).repr = "_sol0" := rfl
    simp [solFile, String.append_assoc, h0]
  | succ i =>
    simp [show i < rounds by omega, Nat.add_comm]

/-- The file of query `i` is the one the loop waits for. -/
theorem C36_files {basename : String} {rounds : Nat} {guesses : List γ} :
    (generateSynth basename rounds guesses false).map (·.file) = (List.range (rounds + 1)).map (solFile basename) := by
  apply List.ext_getElem?
  intro i
  rw [List.getElem?_map, List.getElem?_map]
  by_cases hi : i ≤ rounds
  · rw [query_at hi, List.getElem?_range (by omega)]
    rfl
  · rw [List.getElem?_eq_none (by simp [generateSynth]; omega), List.getElem?_eq_none (by simp; omega)]
    rfl

theorem assumed_iff (sols : Nat → η) {basename : String} {guesses : List γ} {i : Nat} (h : η) (x : ι) :
    Assumed den sols ⟨solFile basename i, (List.range i).map fun prev => guesses.map fun g => (g, prev)⟩ h x ↔
      ∀ j < i, ∃ g ∈ guesses, den g h x ≠ den g (sols j) x := by
  constructor
  · intro ha j hj
    obtain ⟨gj, hgj, hne⟩ := ha _ (List.mem_map.2 ⟨j, List.mem_range.2 hj, rfl⟩)
    obtain ⟨g, hg, rfl⟩ := List.mem_map.1 hgj
    exact ⟨g, hg, hne⟩
  · intro ha clause hc
    obtain ⟨j, hj, rfl⟩ := List.mem_map.1 hc
    obtain ⟨g, hg, hne⟩ := ha j (List.mem_range.1 hj)
    exact ⟨(g, j), List.mem_map.2 ⟨g, hg, rfl⟩, hne⟩

/-- **C36**, no repetition: a solution of query `i` differs from every earlier solution: on some input one of the functions to guess has another
value. -/
theorem C36_no_repetition (basename : String) (rounds : Nat) (guesses : List γ) (sols : Nat → η) (i : Nat) (q : SynthQuery γ)
    (hq : (generateSynth basename rounds guesses false)[i]? = some q) (h : η) (hs : Solves den asserts sols q h) :
    ∀ j < i, ∃ g ∈ guesses, ∃ x, den g h x ≠ den g (sols j) x := by
  have hi : i ≤ rounds := by
    have := (List.getElem?_eq_some_iff.1 hq).1
    simp [generateSynth] at this
    omega
  rw [query_at hi] at hq
  injection hq with hq
  subst hq
  obtain ⟨⟨x, hx, -⟩, -⟩ := hs
  rw [assumed_iff] at hx
  intro j hj
  obtain ⟨g, hg, hne⟩ := hx j hj
  exact ⟨g, hg, x, hne⟩

/-- **C36**, nothing else is forbidden, under the condition that one input tells the new solution from all earlier ones. -/
theorem C36_nothing_else_partial (basename : String) (rounds : Nat) (guesses : List γ) (sols : Nat → η) (i : Nat) (hi : i ≤ rounds) (h : η)
    (hv : ∀ x, asserts h x) (x : ι) (hx : ∀ j < i, ∃ g ∈ guesses, den g h x ≠ den g (sols j) x) :
    ∃ q, (generateSynth basename rounds guesses false)[i]? = some q ∧ Solves den asserts sols q h :=
  ⟨_, query_at hi, ⟨x, (assumed_iff den sols h x).2 hx, hv x⟩, fun x _ => hv x⟩

end Rounds

/-- Three functions of a boolean, the third differs from each of the first two on one input. -/
def exDen : Unit → Fin 3 → Bool → Nat
  | _, 0, true => 0 | _, 0, false => 1
  | _, 1, true => 1 | _, 1, false => 0
  | _, 2, _ => 1

/-- A new and valid solution is forbidden if the inputs on which it differs from the earlier ones are different ones. -/
theorem C36_different_inputs_refuted : let sols : Nat → Fin 3 := fun j => if j = 0 then 0 else 1
    (∀ j < 2, ∃ x, exDen () 2 x ≠ exDen () (sols j) x) ∧
    ∀ q, (generateSynth "b" 2 [()] false)[2]? = some q → ¬ Solves exDen (fun _ _ => True) sols q 2 := by
  refine ⟨?_, ?_⟩
  · intro j hj
    match j, hj with
    | 0, _ => exact ⟨true, by simp [exDen]⟩
    | 1, _ => exact ⟨false, by simp [exDen]⟩
  · intro q hq hs
    rw [query_at (by omega)] at hq
    injection hq with hq
    subst hq
    obtain ⟨⟨x, hx, -⟩, -⟩ := hs
    rw [assumed_iff] at hx
    obtain ⟨_, -, h0⟩ := hx 0 (by omega)
    obtain ⟨_, -, h1⟩ := hx 1 (by omega)
    cases x
    · exact h0 rfl
    · exact h1 rfl

/-- A later round may return a candidate that violates the verification condition: it need not hold on inputs where the candidate agrees
with an earlier solution. -/
theorem C36_invalid_solution_refuted : let sols : Nat → Fin 3 := fun _ => 0
    ∃ q, (generateSynth "b" 1 [()] false)[1]? = some q ∧ Solves exDen (fun h x => h = 0 ∨ x = true) sols q 2 ∧
      ¬ ∀ x : Bool, (2 : Fin 3) = 0 ∨ x = true := by
  refine ⟨_, query_at (by omega), ⟨⟨true, (assumed_iff _ _ _ _).2 ?_, Or.inr rfl⟩, ?_⟩, ?_⟩
  · intro j hj
    exact ⟨(), by simp, by simp [exDen]⟩
  · intro x hx
    rw [assumed_iff] at hx
    obtain ⟨_, -, h0⟩ := hx 0 (by omega)
    cases x
    · exact absurd rfl h0
    · exact Or.inr rfl
  · intro h
    have := h false
    simp at this

/-- With no functions to guess (the default) every later round is unsatisfiable, although round zero has a solution. -/
theorem C36_no_functions_refuted {γ η ι β : Type} (den : γ → η → ι → β) (asserts : η → ι → Prop) (basename : String) (rounds i : Nat) (hi : 1 ≤ i)
    (sols : Nat → η) (q : SynthQuery γ) (hq : (generateSynth basename rounds [] false)[i]? = some q) (h : η) : ¬ Solves den asserts sols q h := by
  intro hs
  obtain ⟨g, hg, -⟩ := C36_no_repetition den asserts basename rounds [] sols i q hq h hs 0 (by omega)
  exact nomatch hg

end Metalift
