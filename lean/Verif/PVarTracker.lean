import Verif.VarTracker
import Verif.Names
/-
Property C15: names handed out by a variable tracker.
-/
namespace Metalift

theorem SDict.lookup_set {α : Type} (d : SDict α) (k j : String) (v : α) :
    (d.set k v).lookup j = if j = k then some v else d.lookup j := by
  induction d with
  | nil =>
    by_cases h : j = k
    · simp [SDict.set, h]
    · have : (j == k) = false := by simpa using h
      simp [SDict.set, List.lookup, h, this]
  | cons p d ih =>
    obtain ⟨i, w⟩ := p
    simp only [SDict.set]
    split
    · next hik =>
      subst hik
      by_cases h : j = i
      · simp [List.lookup, h]
      · have : (j == i) = false := by simpa using h
        simp [List.lookup, h, this]
    · next hik =>
      by_cases h : j = i
      · subst h; simp [List.lookup, hik]
      · have : (j == i) = false := by simpa using h
        simp only [List.lookup, this, ih]

theorem SDict.keys_set {α : Type} (d : SDict α) (k j : String) (v : α) :
    j ∈ (d.set k v).map Prod.fst ↔ j = k ∨ j ∈ d.map Prod.fst := by
  induction d with
  | nil => simp [SDict.set]
  | cons p d ih =>
    obtain ⟨i, w⟩ := p
    simp only [SDict.set]
    split
    · next h => subst h; simp
    · simp only [List.map_cons, List.mem_cons, ih]
      exact or_left_comm

theorem SDict.nodup_set {α : Type} (d : SDict α) (k : String) (v : α) (h : (d.map Prod.fst).Nodup) :
    ((d.set k v).map Prod.fst).Nodup := by
  induction d with
  | nil => simp [SDict.set]
  | cons p d ih =>
    obtain ⟨i, w⟩ := p
    simp only [List.map_cons, List.nodup_cons] at h
    simp only [SDict.set]
    split
    · next hk => subst hk; simpa using h
    · next hk =>
      simp only [List.map_cons, List.nodup_cons]
      refine ⟨fun hm => ?_, ih h.2⟩
      rcases (SDict.keys_set d k i v).1 hm with h1 | h1
      · exact hk h1
      · exact h.1 h1

/-- A name that is non-empty and does not end with a digit. -/
def plainName (s : String) : Bool := decide (s ≠ "") && noDigitEnd s

theorem noDigitEnd_append {a b : String} (h : plainName b = true) : noDigitEnd (a ++ b) = true := by
  simp only [plainName, Bool.and_eq_true, decide_eq_true_eq] at h
  obtain ⟨h1, h2⟩ := h
  unfold noDigitEnd at *
  simp only [String.toList_append, List.reverse_append]
  cases hr : b.toList.reverse with
  | nil =>
    exact absurd (String.ext (by simpa using List.reverse_eq_nil_iff.1 hr)) h1
  | cons c cs => rw [hr] at h2; simpa using h2

theorem underscore_noDigit (a : String) : noDigitEnd (a ++ "_") = true := by
  simp [noDigitEnd, String.toList_append]

/-- Indexed names are unique when the base names do not end with a digit. -/
theorem formatWithIndex_inj {a b : String} {m n : Nat} (ha : noDigitEnd a = true) (hb : noDigitEnd b = true)
    (h : formatWithIndex a m = formatWithIndex b n) : a = b ∧ m = n := by
  unfold formatWithIndex at h
  split at h <;> split at h
  · next h1 h2 => exact ⟨h, by omega⟩
  · exact absurd h (numbered_ne ha)
  · exact absurd h.symm (numbered_ne hb)
  · have := numbered_inj (underscore_noDigit a) (underscore_noDigit b) h
    refine ⟨?_, this.2⟩
    have h2 := congrArg String.toList this.1
    simp only [String.toList_append, List.append_cancel_right_eq] at h2
    exact String.ext h2

/-- Every call is a `group` call or asks a group for a variable whose requested name is non-empty and does
not end with a digit. -/
def TrackerCall.plain : TrackerCall → Bool
  | .group _ => true
  | .var _ _ => false
  | .groupVar _ n _ => plainName n

/-- Names used so far are below the counters. -/
def Below (T : VarTracker) (s : String) : Prop :=
  ∃ my n k, noDigitEnd my = true ∧ s = formatWithIndex my k ∧ T.existing.lookup my = some n ∧ k ≤ n

theorem run_fresh : ∀ (cs : List TrackerCall) (T : VarTracker), (∀ c ∈ cs, c.plain = true) →
    ((T.run cs).1.map Prod.fst).Nodup ∧ ∀ s ∈ (T.run cs).1.map Prod.fst, ¬ Below T s
  | [], T, _ => by simp [VarTracker.run]
  | .group n :: cs, T, h => by
    simp only [VarTracker.run]
    exact run_fresh cs (T.group n).2 (fun c hc => h c (by simp [hc]))
  | .var n t :: cs, T, h => by
    have := h (.var n t) (by simp)
    simp [TrackerCall.plain] at this
  | .groupVar g n t :: cs, T, h => by
    have hp := h (.groupVar g n t) (by simp)
    simp only [TrackerCall.plain] at hp
    have hmy : noDigitEnd (g ++ "_" ++ n) = true := noDigitEnd_append hp
    obtain ⟨ih1, ih2⟩ := run_fresh cs (T.groupVariable g n t).2 (fun c hc => h c (by simp [hc]))
    -- the counter afterwards and the name handed out
    obtain ⟨k, hk1, hk2, hk3⟩ : ∃ k, (T.groupVariable g n t).1 = formatWithIndex (g ++ "_" ++ n) k ∧
        (T.groupVariable g n t).2.existing = T.existing.set (g ++ "_" ++ n) k ∧
        (∀ m, T.existing.lookup (g ++ "_" ++ n) = some m → m < k) := by
      simp only [VarTracker.groupVariable, bump]
      cases hl : T.existing.lookup (g ++ "_" ++ n) with
      | none => exact ⟨0, rfl, rfl, by simp⟩
      | some m => exact ⟨m + 1, rfl, rfl, by simp⟩
    have hmono : ∀ s, Below T s → Below (T.groupVariable g n t).2 s := by
      rintro s ⟨my, m, j, h1, h2, h3, h4⟩
      by_cases he : my = g ++ "_" ++ n
      · subst he
        refine ⟨_, k, j, h1, h2, by rw [hk2, SDict.lookup_set]; simp, ?_⟩
        have := hk3 m h3
        omega
      · exact ⟨my, m, j, h1, h2, by rw [hk2, SDict.lookup_set, if_neg he]; exact h3, h4⟩
    have hnew : Below (T.groupVariable g n t).2 (T.groupVariable g n t).1 :=
      ⟨_, k, k, hmy, hk1, by rw [hk2, SDict.lookup_set]; simp, Nat.le_refl _⟩
    simp only [VarTracker.run, List.map_cons, List.nodup_cons, List.mem_cons]
    refine ⟨⟨fun hm => ih2 _ hm hnew, ih1⟩, ?_⟩
    rintro s (rfl | hs) hb
    · obtain ⟨my, m, j, h1, h2, h3, h4⟩ := hb
      rw [hk1] at h2
      obtain ⟨rfl, rfl⟩ := formatWithIndex_inj hmy h1 h2
      have := hk3 m h3
      omega
    · exact ih2 s hs (hmono s hb)

/-- C15 (partial).  In every history of `group` calls and of `variable` calls on groups in which the requested
variable names are non-empty and do not end with a digit, all names handed out are different.

Missing: names ending with a digit, and variables requested directly from the tracker; both can clash (see the
refutations). -/
theorem C15_names_distinct_partial (cs : List TrackerCall) (h : ∀ c ∈ cs, c.plain = true) :
    ((VarTracker.run cs {}).1.map Prod.fst).Nodup :=
  (run_fresh cs {} h).1

/-- Non-vacuity: repeated requests in two groups of the same name. -/
example : (VarTracker.run [.group "g", .groupVar "g" "x" .int, .group "g", .groupVar "g_1" "x" .int,
    .groupVar "g" "x" .bool, .groupVar "g" "x" .int] {}).1.map Prod.fst = ["g_x", "g_1_x", "g_x_1", "g_x_2"] := by
  decide

/-- A requested name can equal the indexed form of another one: `x`, `x`, `x_1` in one group. -/
theorem C15_index_clash_refuted : ∃ (g : String) (cs : List TrackerCall),
    cs = [.groupVar g "x" .int, .groupVar g "x" .int, .groupVar g "x_1" .int] ∧
    ¬ ((VarTracker.run cs {}).1.map Prod.fst).Nodup :=
  ⟨"g", _, rfl, by decide⟩

/-- Two requests of the same name made directly to the tracker give the same name, and the type of the
first variable is lost. -/
theorem C15_direct_clash_refuted :
    ¬ ((VarTracker.run [.var "x" .int, .var "x" .bool] {}).1.map Prod.fst).Nodup ∧
    (VarTracker.run [.var "x" .int, .var "x" .bool] {}).2.all = [("x", .bool)] :=
  ⟨by decide, rfl⟩

/-- The last type handed out for a name. -/
def lastType (x : String) (out : List (String × Ty)) : Option Ty := out.reverse.lookup x

theorem lookup_append {α : Type} (x : String) (l m : List (String × α)) :
    (l ++ m).lookup x = (l.lookup x).or (m.lookup x) := by
  induction l with
  | nil => simp
  | cons p l ih =>
    obtain ⟨k, v⟩ := p
    simp only [List.cons_append, List.lookup]
    split <;> simp [ih]

theorem lastType_cons (x y : String) (t : Ty) (out : List (String × Ty)) :
    lastType x ((y, t) :: out) = (lastType x out).or (if x = y then some t else none) := by
  simp only [lastType, List.reverse_cons, lookup_append]
  congr 1
  by_cases h : x = y
  · simp [List.lookup, h]
  · have : (x == y) = false := by simpa using h
    simp [List.lookup, h, this]

/-- Invariant of `varToType`. -/
theorem run_types : ∀ (cs : List TrackerCall) (T : VarTracker), (T.varToType.map Prod.fst).Nodup →
    ((T.run cs).2.varToType.map Prod.fst).Nodup ∧
    ∀ x, (T.run cs).2.varToType.lookup x = (lastType x (T.run cs).1).or (T.varToType.lookup x)
  | [], T, h => ⟨h, fun x => by simp [VarTracker.run, lastType]⟩
  | .group n :: cs, T, h => by
    simp only [VarTracker.run]
    exact run_types cs (T.group n).2 h
  | .var n t :: cs, T, h => by
    obtain ⟨i1, i2⟩ := run_types cs (T.variable n t).2 (SDict.nodup_set _ _ _ h)
    simp only [VarTracker.run]
    refine ⟨i1, fun x => ?_⟩
    have hv : (T.variable n t).2.varToType = T.varToType.set (T.variable n t).1 t := rfl
    rw [i2 x, lastType_cons, hv, SDict.lookup_set, Option.or_assoc]
    split <;> simp
  | .groupVar g n t :: cs, T, h => by
    obtain ⟨i1, i2⟩ := run_types cs (T.groupVariable g n t).2 (SDict.nodup_set _ _ _ h)
    simp only [VarTracker.run]
    refine ⟨i1, fun x => ?_⟩
    have hv : (T.groupVariable g n t).2.varToType = T.varToType.set (T.groupVariable g n t).1 t := rfl
    rw [i2 x, lastType_cons, hv, SDict.lookup_set, Option.or_assoc]
    split <;> simp

/-- C15, completeness.  After every history, `all()` lists every name handed out exactly once, with the type of
the last request that got this name, and nothing else. -/
theorem C15_all_complete (cs : List TrackerCall) :
    ((VarTracker.run cs {}).2.all.map Prod.fst).Nodup ∧
    ∀ x, (VarTracker.run cs {}).2.all.lookup x = lastType x (VarTracker.run cs {}).1 := by
  obtain ⟨h1, h2⟩ := run_types cs {} (by simp)
  exact ⟨h1, fun x => by simpa [VarTracker.all] using h2 x⟩

end Metalift
