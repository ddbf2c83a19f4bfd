import Verif.TenLoop
import Verif.PSynthLoop
/-
C68: what the loop over list bounds and grammars guarantees.
-/
namespace Metalift

/-- The candidate comes from a call of the synthesizer in which the solutions before it were examined in order and rejected, and, unless verification
was switched off, the verifier accepted it. -/
def Found {α : Type} (w : RosetteWorld α) (noVerify : Bool) (rounds : Nat) (c : α) : Prop :=
  ∃ i hist, AllRejected w i hist ∧ hist.length ≤ rounds ∧ Offered w i hist.length c ∧ (noVerify = true ∨ (w.verify hist.length c).Accepts)

/-- The solver had no further solution. -/
def NoSolution {α : Type} (w : RosetteWorld α) (rounds : Nat) : Prop :=
  ∃ i hist first rest, AllRejected w i hist ∧ hist.length ≤ rounds ∧ w.file i hist.length = some (first, rest) ∧ first ≠ "#t"

/-- All solutions that were asked for were rejected by the verifier. -/
def AllFailed {α : Type} (w : RosetteWorld α) (rounds : Nat) : Prop := ∃ i hist, AllRejected w i hist ∧ hist.length = rounds + 1

/-- Verification failed at this bound: with the strict grammar, or there was no solution in it and verification failed with the relaxed one. -/
def BoundFailed {α β : Type} (w : BenchWorld α β) (rounds : Nat) (hasRelaxed noVerify : Bool) (bound : Nat) : Prop :=
  (noVerify = false ∧ AllFailed (w.synth bound false) rounds) ∨
    (hasRelaxed = true ∧ NoSolution (w.synth bound false) rounds ∧ AllFailed (w.synth bound true) rounds)

/-- Why the run ended like this at a bound. -/
def BenchExplains {α β : Type} (w : BenchWorld α β) (rounds : Nat) (hasRelaxed noVerify : Bool) (bound : Nat) : BenchOutcome α β → Prop
  | .wrote c code => w.generate c = some code ∧ (Found (w.synth bound false) noVerify rounds c ∨
      (hasRelaxed = true ∧ NoSolution (w.synth bound false) rounds ∧ Found (w.synth bound true) false rounds c))
  | .synthesisFailed => NoSolution (w.synth bound false) rounds ∧ (hasRelaxed = true → NoSolution (w.synth bound true) rounds)
  | .verificationFailed => BoundFailed w rounds hasRelaxed noVerify bound
  | .exception => True

theorem runWithBound_explains {α β : Type} (w : BenchWorld α β) (bound rounds : Nat) (hasRelaxed noVerify : Bool) (fuel : Nat) (o : BenchOutcome α β)
    (h : runWithBound w bound rounds hasRelaxed noVerify fuel = some o) : BenchExplains w rounds hasRelaxed noVerify bound o := by
  unfold runWithBound at h
  cases h1 : rosetteSynthesize (w.synth bound false) noVerify rounds fuel with
  | none => rw [h1] at h; cases h
  | some o1 =>
    have e1 := C25_failures _ _ _ _ _ h1
    rw [h1] at h
    cases o1 with
    | returned c =>
      simp only [benchFinish, Option.some.injEq] at h
      cases hg : w.generate c with
      | none => rw [hg] at h; subst h; trivial
      | some code => rw [hg] at h; subst h; exact ⟨hg, .inl e1⟩
    | verificationFailed =>
      simp only [benchFinish, Option.some.injEq] at h
      subst h
      exact .inl e1
    | exception =>
      simp only [benchFinish, Option.some.injEq] at h
      subst h
      trivial
    | afterLoop => exact e1.elim
    | synthesisFailed =>
      cases hasRelaxed with
      | false =>
        simp only [Bool.false_eq_true, if_false, Option.some.injEq] at h
        subst h
        exact ⟨e1, by simp⟩
      | true =>
        simp only [if_true, Option.map_eq_some_iff] at h
        obtain ⟨o2, h2, rfl⟩ := h
        have e2 := C25_failures _ _ _ _ _ h2
        cases o2 with
        | returned c =>
          cases hg : w.generate c with
          | none => simp only [benchFinish, hg]; trivial
          | some code => simp only [benchFinish, hg]; exact ⟨hg, .inr ⟨rfl, e1, e2⟩⟩
        | verificationFailed => exact .inr ⟨rfl, e1, e2.2⟩
        | exception => trivial
        | afterLoop => exact e2.elim
        | synthesisFailed => exact ⟨e1, fun _ => e2⟩

/-- **C68**, how a run ends.  It ends at some bound, verification failed at all smaller bounds from the first one on, and at this bound there is a
reason for the end: code is written for a candidate that was found with the strict grammar, or with the relaxed one if the strict one has no solution. -/
theorem C68_outcome {α β : Type} (w : BenchWorld α β) (rounds : Nat) (hasRelaxed noVerify : Bool) (fuel n start : Nat) (o : BenchOutcome α β)
    (h : runAlgorithm w rounds hasRelaxed noVerify fuel n start = some o) :
    ∃ bound, start ≤ bound ∧ (∀ b, start ≤ b → b < bound → BoundFailed w rounds hasRelaxed noVerify b) ∧ BenchExplains w rounds hasRelaxed noVerify bound o ∧
      o ≠ .verificationFailed := by
  induction n generalizing start with
  | zero => cases h
  | succ n ih =>
    rw [runAlgorithm] at h
    split at h
    · rename_i hv
      obtain ⟨bound, h1, h2, h3, h4⟩ := ih _ h
      refine ⟨bound, by omega, fun b hb hlt => ?_, h3, h4⟩
      by_cases he : b = start
      · subst he
        exact runWithBound_explains w _ rounds hasRelaxed noVerify fuel _ hv
      · exact h2 b (by omega) hlt
    · rename_i hne
      refine ⟨start, Nat.le_refl _, fun b h1 h2 => by omega, runWithBound_explains w _ rounds hasRelaxed noVerify fuel o h, ?_⟩
      rintro rfl
      exact hne h

/-- **C68** (partial: if verification is not switched off).  Code is only written for a candidate that the verifier accepted. -/
theorem C68_verified_partial {α β : Type} (w : BenchWorld α β) (rounds : Nat) (hasRelaxed : Bool) (fuel n start : Nat) (c : α) (code : β)
    (h : runAlgorithm w rounds hasRelaxed false fuel n start = some (.wrote c code)) :
    w.generate c = some code ∧ ∃ bound relaxed i j, start ≤ bound ∧ j ≤ rounds ∧ Offered (w.synth bound relaxed) i j c ∧
      ((w.synth bound relaxed).verify j c).Accepts := by
  obtain ⟨bound, h1, _, ⟨h2, h3⟩, _⟩ := C68_outcome w rounds hasRelaxed false fuel n start _ h
  rcases h3 with ⟨i, hist, _, h4, h5, h6⟩ | ⟨_, _, i, hist, _, h4, h5, h6⟩
  · exact ⟨h2, bound, false, i, hist.length, h1, h4, h5, h6.resolve_left (by simp)⟩
  · exact ⟨h2, bound, true, i, hist.length, h1, h4, h5, h6.resolve_left (by simp)⟩

/-- **C68**: what is found with the relaxed grammar only is verified, also if verification is switched off. -/
theorem C68_relaxed_verified {α β : Type} (w : BenchWorld α β) (rounds : Nat) (hasRelaxed noVerify : Bool) (fuel n start : Nat) (c : α) (code : β)
    (h : runAlgorithm w rounds hasRelaxed noVerify fuel n start = some (.wrote c code)) (hs : ∀ bound i j, ¬ Offered (w.synth bound false) i j c) :
    ∃ bound i j, start ≤ bound ∧ j ≤ rounds ∧ Offered (w.synth bound true) i j c ∧ ((w.synth bound true).verify j c).Accepts := by
  obtain ⟨bound, h1, _, ⟨_, h3⟩, _⟩ := C68_outcome w rounds hasRelaxed noVerify fuel n start _ h
  rcases h3 with ⟨i, hist, _, _, h5, _⟩ | ⟨_, _, i, hist, _, h4, h5, h6⟩
  · exact absurd h5 (hs _ _ _)
  · exact ⟨bound, i, hist.length, h1, h4, h5, h6.resolve_left (by simp)⟩

/-- The verifier rejects everything. -/
def wrongWorld : BenchWorld String String where
  synth := fun _ _ => { exWorld with verify := fun _ _ => .ran 0 "sat" [] }
  generate := some

/-- **C68**, what is not covered: with the default arguments code is written for a candidate that the verifier rejects, since it is not asked. -/
theorem C68_default_refuted : ∃ (w : BenchWorld String String) (c code : String),
    runAlgorithm w defaultRounds false defaultNoVerify 100 1 defaultBound = some (.wrote c code) ∧
    ∀ bound relaxed j c, ((w.synth bound relaxed).verify j c).Rejects := by
  refine ⟨wrongWorld, "f", "f", ?_, fun _ _ _ _ => ⟨0, "sat", [], rfl, .inr (by decide)⟩⟩
  simp [runAlgorithm, runWithBound, rosetteSynthesize, rosetteLoop, rosetteBody, wrongWorld, exWorld, rosetteVerify, defaultNoVerify, defaultBound, benchFinish]

/-- **C68**, what is not covered: if verification fails at all bounds, the run does not end. -/
theorem C68_endless_refuted {α β : Type} (w : BenchWorld α β) (rounds : Nat) (hasRelaxed noVerify : Bool) (fuel start : Nat)
    (h : ∀ bound ≥ start, runWithBound w bound rounds hasRelaxed noVerify fuel = some .verificationFailed) (n : Nat) :
    runAlgorithm w rounds hasRelaxed noVerify fuel n start = none := by
  induction n generalizing start with
  | zero => rfl
  | succ n ih =>
    rw [runAlgorithm, h start (Nat.le_refl _)]
    exact ih _ fun b hb => h b (by omega)

example : ∀ bound, runWithBound wrongWorld bound 1 false false 10 = some .verificationFailed := by
  intro bound
  simp [runWithBound, rosetteSynthesize, rosetteLoop, rosetteBody, wrongWorld, exWorld, rosetteVerify, verifySynthResult, benchFinish]

/-- **C68**: the run ends with the outcome at the first bound at which verification does not fail. -/
theorem C68_first_outcome {α β : Type} (w : BenchWorld α β) (rounds : Nat) (hasRelaxed noVerify : Bool) (fuel start bound : Nat) (hb : start ≤ bound)
    (hv : ∀ b, start ≤ b → b < bound → runWithBound w b rounds hasRelaxed noVerify fuel = some .verificationFailed) {o : BenchOutcome α β}
    (ho : runWithBound w bound rounds hasRelaxed noVerify fuel = some o) (hne : o ≠ .verificationFailed) :
    ∃ n, runAlgorithm w rounds hasRelaxed noVerify fuel n start = some o := by
  obtain ⟨k, rfl⟩ : ∃ k, bound = start + k := ⟨bound - start, by omega⟩
  refine ⟨k + 1, ?_⟩
  clear hb
  induction k generalizing start with
  | zero =>
    rw [runAlgorithm]
    rw [show start + 0 = start from rfl] at ho
    rw [ho]
    cases o <;> first | rfl | exact absurd rfl hne
  | succ k ih =>
    rw [runAlgorithm, hv start (Nat.le_refl _) (by omega)]
    exact ih (start + 1) (fun b h1 h2 => hv b (by omega) (by omega)) (by rw [← ho]; congr 1; omega)

/-- **C68**, non-vacuity: at bound 2 the strict grammar has no solution and the candidates of the relaxed one are rejected, at bound 3 a candidate of
the strict one is accepted. -/
theorem C68_example : ∃ w : BenchWorld String String, runAlgorithm w 1 true false 10 5 2 = some (.wrote "f" "f") ∧
    BoundFailed w 1 true false 2 := by
  let w : BenchWorld String String :=
    { synth := fun b r => if b = 2 then if r then wrongWorld.synth 0 false else { exWorld with file := fun _ _ => some ("#f", []) } else exWorld
      generate := some }
  have h2 : runWithBound w 2 1 true false 10 = some .verificationFailed := by
    simp [w, runWithBound, rosetteSynthesize, rosetteLoop, rosetteBody, wrongWorld, exWorld, rosetteVerify, verifySynthResult, benchFinish]
  have h3 : runWithBound w 3 1 true false 10 = some (.wrote "f" "f") := by
    simp [w, runWithBound, rosetteSynthesize, rosetteLoop, rosetteBody, exWorld, rosetteVerify, verifySynthResult, benchFinish]
  refine ⟨w, ?_, runWithBound_explains w 2 1 true false 10 _ h2⟩
  rw [runAlgorithm, h2]
  simp only
  rw [runAlgorithm, h3]

end Metalift
