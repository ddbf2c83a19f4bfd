import Verif.RktLists
/-
C22: division and remainder.  C29: sets given to Rosette.  C30: maps given to Rosette.
-/
namespace Metalift

/-! ### C29 -/

/-- Representation of a finite set: a strictly increasing list. -/
def IsSet (l : List Int) : Prop := l.Pairwise (· < ·)

theorem setUnion_mem (as bs : List Int) (x : Int) : x ∈ Rkt.setUnion as bs ↔ x ∈ as ∨ x ∈ bs := by
  induction as, bs using Rkt.setUnion.induct with
  | case1 bs => simp [Rkt.setUnion]
  | case2 a as => simp [Rkt.setUnion]
  | case3 as a bs ih =>
    rw [Rkt.setUnion, if_pos rfl, ih]
    simp only [List.mem_cons]
    exact ⟨fun h => by rcases h with (h | h) | h <;> simp [h], fun h => by rcases h with (h | h) | h | h <;> simp [h]⟩
  | case4 a as b bs h1 h2 ih =>
    simp only [Rkt.setUnion, if_neg h1, if_pos h2, List.mem_cons, ih]
    exact ⟨fun h => by rcases h with h | h | h | h <;> simp [h], fun h => by rcases h with (h | h) | h | h <;> simp [h]⟩
  | case5 a as b bs h1 h2 ih =>
    simp only [Rkt.setUnion, if_neg h1, if_neg h2, List.mem_cons, ih]
    exact ⟨fun h => by rcases h with h | (h | h) | h <;> simp [h], fun h => by rcases h with (h | h) | h | h <;> simp [h]⟩

theorem setUnion_sorted {as bs : List Int} (ha : IsSet as) (hb : IsSet bs) : IsSet (Rkt.setUnion as bs) := by
  induction as, bs using Rkt.setUnion.induct with
  | case1 bs => simpa [Rkt.setUnion] using hb
  | case2 a as => simpa [Rkt.setUnion] using ha
  | case3 a as bs ih =>
    rw [Rkt.setUnion, if_pos rfl]
    exact ih ha (List.pairwise_cons.mp hb).2
  | case4 a as b bs h1 h2 ih =>
    rw [Rkt.setUnion, if_neg h1, if_pos h2]
    refine List.pairwise_cons.mpr ⟨fun x hx => ?_, ih (List.pairwise_cons.mp ha).2 hb⟩
    rw [setUnion_mem, List.mem_cons] at hx
    rcases hx with hx | rfl | hx
    · exact (List.pairwise_cons.mp ha).1 x hx
    · exact h2
    · exact Int.lt_trans h2 ((List.pairwise_cons.mp hb).1 x hx)
  | case5 a as b bs h1 h2 ih =>
    have h3 : b < a := by omega
    rw [Rkt.setUnion, if_neg h1, if_neg h2]
    refine List.pairwise_cons.mpr ⟨fun x hx => ?_, ih ha (List.pairwise_cons.mp hb).2⟩
    rw [setUnion_mem, List.mem_cons] at hx
    rcases hx with (rfl | hx) | hx
    · exact h3
    · exact Int.lt_trans h3 ((List.pairwise_cons.mp ha).1 x hx)
    · exact (List.pairwise_cons.mp hb).1 x hx

theorem setMinus_mem {as bs : List Int} (ha : IsSet as) (hb : IsSet bs) (x : Int) :
    x ∈ Rkt.setMinus as bs ↔ x ∈ as ∧ x ∉ bs := by
  induction as, bs using Rkt.setMinus.induct with
  | case1 bs => simp [Rkt.setMinus]
  | case2 a as => simp [Rkt.setMinus]
  | case3 a as bs ih =>
    have h1 := (List.pairwise_cons.mp ha).1
    have h2 := (List.pairwise_cons.mp hb).1
    rw [Rkt.setMinus, if_pos rfl, ih (List.pairwise_cons.mp ha).2 (List.pairwise_cons.mp hb).2]
    constructor
    · rintro ⟨h3, h4⟩
      refine ⟨List.mem_cons_of_mem _ h3, ?_⟩
      rw [List.mem_cons]
      rintro (rfl | h)
      · exact absurd (h1 _ h3) (by omega)
      · exact h4 h
    · rintro ⟨h3, h4⟩
      rw [List.mem_cons] at h3 h4
      rcases h3 with rfl | h3
      · exact absurd (Or.inl rfl) h4
      · exact ⟨h3, fun h => h4 (Or.inr h)⟩
  | case4 a as b bs h1 h2 ih =>
    have h5 := (List.pairwise_cons.mp hb).1
    simp only [Rkt.setMinus, if_neg h1, if_pos h2, List.mem_cons, ih (List.pairwise_cons.mp ha).2 hb]
    constructor
    · rintro (rfl | ⟨h3, h4⟩)
      · refine ⟨Or.inl rfl, ?_⟩
        rintro (h | h)
        · exact h1 h
        · have := h5 _ h
          omega
      · exact ⟨Or.inr h3, h4⟩
    · rintro ⟨rfl | h3, h4⟩
      · exact Or.inl rfl
      · exact Or.inr ⟨h3, h4⟩
  | case5 a as b bs h1 h2 ih =>
    rw [Rkt.setMinus, if_neg h1, if_neg h2, ih ha (List.pairwise_cons.mp hb).2]
    constructor
    · rintro ⟨h3, h4⟩
      refine ⟨h3, ?_⟩
      rw [List.mem_cons]
      rintro (rfl | h)
      · rw [List.mem_cons] at h3
        rcases h3 with h3 | h3
        · omega
        · have := (List.pairwise_cons.mp ha).1 _ h3
          omega
      · exact h4 h
    · rintro ⟨h3, h4⟩
      exact ⟨h3, fun h => h4 (List.mem_cons_of_mem _ h)⟩

theorem setMinus_sorted {as bs : List Int} (ha : IsSet as) (hb : IsSet bs) : IsSet (Rkt.setMinus as bs) := by
  induction as, bs using Rkt.setMinus.induct with
  | case1 bs => simp [Rkt.setMinus, IsSet]
  | case2 a as => simpa [Rkt.setMinus] using ha
  | case3 a as bs ih =>
    rw [Rkt.setMinus, if_pos rfl]
    exact ih (List.pairwise_cons.mp ha).2 (List.pairwise_cons.mp hb).2
  | case4 a as b bs h1 h2 ih =>
    rw [Rkt.setMinus, if_neg h1, if_pos h2]
    refine List.pairwise_cons.mpr ⟨fun x hx => ?_, ih (List.pairwise_cons.mp ha).2 hb⟩
    rw [setMinus_mem (List.pairwise_cons.mp ha).2 hb] at hx
    exact (List.pairwise_cons.mp ha).1 x hx.1
  | case5 a as b bs h1 h2 ih =>
    rw [Rkt.setMinus, if_neg h1, if_neg h2]
    exact ih ha (List.pairwise_cons.mp hb).2

theorem setSubset_iff {as bs : List Int} (ha : IsSet as) (hb : IsSet bs) :
    Rkt.setSubset as bs = true ↔ ∀ x ∈ as, x ∈ bs := by
  induction as, bs using Rkt.setSubset.induct with
  | case1 bs => simp [Rkt.setSubset]
  | case2 a as =>
    refine ⟨fun h => (by cases h), fun h => ?_⟩
    exact absurd (h a (List.mem_cons_self ..)) (by simp)
  | case3 a as bs ih =>
    have h1 := (List.pairwise_cons.mp ha).1
    rw [Rkt.setSubset, if_pos rfl, ih (List.pairwise_cons.mp ha).2 (List.pairwise_cons.mp hb).2]
    constructor
    · intro h x hx
      rw [List.mem_cons] at hx ⊢
      exact hx.imp id (h x)
    · intro h x hx
      have := h x (List.mem_cons_of_mem _ hx)
      rw [List.mem_cons] at this
      rcases this with rfl | this
      · exact absurd (h1 _ hx) (by omega)
      · exact this
  | case4 a as b bs h1 h2 =>
    rw [Rkt.setSubset, if_neg h1, if_pos h2]
    refine ⟨fun h => (by cases h), fun h => ?_⟩
    have := h a (List.mem_cons_self ..)
    rw [List.mem_cons] at this
    rcases this with h | h
    · exact absurd h h1
    · have := (List.pairwise_cons.mp hb).1 _ h
      omega
  | case5 a as b bs h1 h2 ih =>
    rw [Rkt.setSubset, if_neg h1, if_neg h2, ih ha (List.pairwise_cons.mp hb).2]
    constructor
    · exact fun h x hx => List.mem_cons_of_mem _ (h x hx)
    · intro h x hx
      have := h x hx
      rw [List.mem_cons] at this
      rcases this with rfl | this
      · rw [List.mem_cons] at hx
        rcases hx with hx | hx
        · omega
        · have := (List.pairwise_cons.mp ha).1 _ hx
          omega
      · exact this

theorem isSet_ext {as bs : List Int} (ha : IsSet as) (hb : IsSet bs) (h : ∀ x, x ∈ as ↔ x ∈ bs) : as = bs := by
  induction as generalizing bs with
  | nil =>
    cases bs with
    | nil => rfl
    | cons b bs => exact absurd ((h b).mpr (List.mem_cons_self ..)) (by simp)
  | cons a as ih =>
    cases bs with
    | nil => exact absurd ((h a).mp (List.mem_cons_self ..)) (by simp)
    | cons b bs =>
      have ha1 := (List.pairwise_cons.mp ha).1
      have hb1 := (List.pairwise_cons.mp hb).1
      have hab : a = b := by
        have h1 := (h a).mp (List.mem_cons_self ..)
        have h2 := (h b).mpr (List.mem_cons_self ..)
        rw [List.mem_cons] at h1 h2
        rcases h1 with h1 | h1
        · exact h1
        · rcases h2 with h2 | h2
          · exact h2.symm
          · have := ha1 _ h2
            have := hb1 _ h1
            omega
      subst hab
      congr 1
      refine ih (List.pairwise_cons.mp ha).2 (List.pairwise_cons.mp hb).2 (fun x => ?_)
      have := h x
      rw [List.mem_cons, List.mem_cons] at this
      constructor
      · intro hx
        rcases this.mp (Or.inr hx) with rfl | h
        · exact absurd (ha1 _ hx) (by omega)
        · exact h
      · intro hx
        rcases this.mpr (Or.inr hx) with rfl | h
        · exact absurd (hb1 _ hx) (by omega)
        · exact h

/-- C29: on strictly increasing lists, the Rosette functions for sets compute the set operations and return strictly increasing
lists; equality is equality of sets. -/
theorem C29_sets (s t : List Int) (hs : IsSet s) (ht : IsSet t) (v : Int) :
    IsSet Rkt.setCreate ∧ (∀ x, x ∉ Rkt.setCreate) ∧
    IsSet (Rkt.setSingleton v) ∧ (∀ x, x ∈ Rkt.setSingleton v ↔ x = v) ∧
    IsSet (Rkt.setInsert v s) ∧ (∀ x, x ∈ Rkt.setInsert v s ↔ x = v ∨ x ∈ s) ∧
    IsSet (Rkt.setUnion s t) ∧ (∀ x, x ∈ Rkt.setUnion s t ↔ x ∈ s ∨ x ∈ t) ∧
    IsSet (Rkt.setMinus s t) ∧ (∀ x, x ∈ Rkt.setMinus s t ↔ x ∈ s ∧ x ∉ t) ∧
    (Rkt.setMember v s = true ↔ v ∈ s) ∧
    (Rkt.setSubset s t = true ↔ ∀ x ∈ s, x ∈ t) ∧
    (Rkt.setEq s t = true ↔ ∀ x, x ∈ s ↔ x ∈ t) := by
  have h1 : IsSet (Rkt.setSingleton v) := by simp [IsSet, Rkt.setSingleton]
  refine ⟨List.Pairwise.nil, fun x hx => (by cases hx), h1, fun x => by simp [Rkt.setSingleton], setUnion_sorted h1 hs,
    fun x => by rw [Rkt.setInsert, setUnion_mem]; simp [Rkt.setSingleton], setUnion_sorted hs ht, setUnion_mem s t,
    setMinus_sorted hs ht, setMinus_mem hs ht, ?_, setSubset_iff hs ht, ?_⟩
  · simp [Rkt.setMember]
  · rw [Rkt.setEq, beq_iff_eq]
    exact ⟨fun h x => by rw [h], isSet_ext hs ht⟩

/-- Two sets. -/
example : IsSet [1, 3, 7] ∧ IsSet [-2, 3] ∧ Rkt.setUnion [1, 3, 7] [-2, 3] = [-2, 1, 3, 7] ∧ Rkt.setMinus [1, 3, 7] [-2, 3] = [1, 7] := by
  simp [IsSet, Rkt.setUnion, Rkt.setMinus]

/-- On lists that are not sorted the operations are wrong: `subset` denies an inclusion. -/
theorem C29_sortedness_needed : (∀ x ∈ [1], x ∈ [2, 1]) ∧ Rkt.setSubset [1] [2, 1] = false := by
  decide

/-! ### C30 -/

theorem mapContains_iff (k : Int) (m : List (Int × Int)) :
    (Rkt.mapContains k m = 1 ↔ ∃ v, (k, v) ∈ m) ∧ (Rkt.mapContains k m = 0 ↔ ¬ ∃ v, (k, v) ∈ m) := by
  induction m with
  | nil => simp [Rkt.mapContains]
  | cons p m ih =>
    obtain ⟨j, w⟩ := p
    rw [Rkt.mapContains]
    by_cases h : j = k
    · subst h
      simp only [if_true]
      refine ⟨⟨fun _ => ⟨w, List.mem_cons_self ..⟩, fun _ => trivial⟩, ⟨fun h => absurd h (by decide), fun h => ?_⟩⟩
      exact absurd ⟨w, List.mem_cons_self ..⟩ h
    · rw [if_neg h]
      have : (∃ v, (k, v) ∈ (j, w) :: m) ↔ ∃ v, (k, v) ∈ m :=
        ⟨fun ⟨v, hv⟩ => ⟨v, by simpa [Ne.symm h] using hv⟩, fun ⟨v, hv⟩ => ⟨v, List.mem_cons_of_mem _ hv⟩⟩
      rw [this]
      exact ih

theorem mapGet_set (k v : Int) : ∀ m : List (Int × Int), (∃ w, (k, w) ∈ m) → ∀ j,
    Rkt.mapGet j (m.set (Rkt.getIdx k m) (k, v)) = if j = k then v else Rkt.mapGet j m := by
  intro m
  induction m with
  | nil => rintro ⟨w, hw⟩; cases hw
  | cons p m ih =>
    obtain ⟨i, w⟩ := p
    intro h j
    rw [Rkt.getIdx]
    by_cases hi : i = k
    · subst hi
      simp only [if_true, List.set_cons_zero, Rkt.mapGet]
      by_cases hj : j = i
      · subst hj; simp
      · simp [hj, Ne.symm hj]
    · simp only [if_neg hi]
      have hm : ∃ w, (k, w) ∈ m := by
        obtain ⟨w', hw⟩ := h
        exact ⟨w', by simpa [Ne.symm hi] using hw⟩
      rw [Nat.add_comm, List.set_cons_succ, Rkt.mapGet, Rkt.mapGet, ih hm j]
      by_cases hij : i = j
      · subst hij; simp [hi]
      · simp [hij]

theorem mapGet_append (k v : Int) : ∀ m : List (Int × Int), (¬ ∃ w, (k, w) ∈ m) → ∀ j,
    Rkt.mapGet j (m ++ [(k, v)]) = if j = k then v else Rkt.mapGet j m := by
  intro m
  induction m with
  | nil =>
    intro _ j
    by_cases hj : j = k
    · subst hj; simp [Rkt.mapGet]
    · simp [Rkt.mapGet, hj, Ne.symm hj]
  | cons p m ih =>
    obtain ⟨i, w⟩ := p
    intro h j
    rw [List.cons_append, Rkt.mapGet, Rkt.mapGet, ih (fun ⟨u, hu⟩ => h ⟨u, List.mem_cons_of_mem _ hu⟩) j]
    by_cases hij : i = j
    · subst hij
      have : i ≠ k := by rintro rfl; exact h ⟨w, List.mem_cons_self ..⟩
      simp [this]
    · simp [hij]

theorem mem_keys_set (k v : Int) : ∀ m : List (Int × Int), (∃ w, (k, w) ∈ m) → (m.set (Rkt.getIdx k m) (k, v)).map Prod.fst = m.map Prod.fst := by
  intro m
  induction m with
  | nil => rintro ⟨w, hw⟩; cases hw
  | cons p m ih =>
    obtain ⟨i, w⟩ := p
    intro h
    rw [Rkt.getIdx]
    by_cases hi : i = k
    · subst hi; simp
    · simp only [if_neg hi]
      have hm : ∃ w, (k, w) ∈ m := by
        obtain ⟨w', hw⟩ := h
        exact ⟨w', by simpa [Ne.symm hi] using hw⟩
      rw [Nat.add_comm, List.set_cons_succ, List.map_cons, List.map_cons, ih hm]

theorem exists_mem_iff_keys (k : Int) (m : List (Int × Int)) : (∃ v, (k, v) ∈ m) ↔ k ∈ m.map Prod.fst := by
  rw [List.mem_map]
  exact ⟨fun ⟨v, h⟩ => ⟨(k, v), h, rfl⟩, fun ⟨⟨_, v⟩, h, e⟩ => ⟨v, by cases e; exact h⟩⟩

/-- C30: after an insertion the inserted key has the inserted value and every other key its old value; the key is present, and for
every other key presence is unchanged; keys stay distinct.  In the empty map every key is absent. -/
theorem C30_maps_partial (m : List (Int × Int)) (k v j : Int) :
    Rkt.mapGet j (Rkt.mapInsert m k v) = (if j = k then v else Rkt.mapGet j m) ∧
    Rkt.mapContains j (Rkt.mapInsert m k v) = (if j = k then 1 else Rkt.mapContains j m) ∧
    ((m.map Prod.fst).Nodup → ((Rkt.mapInsert m k v).map Prod.fst).Nodup) ∧
    Rkt.mapContains j Rkt.mapCreate = 0 := by
  have c01 : ∀ k m, Rkt.mapContains k m = 0 ∨ Rkt.mapContains k m = 1 := by
    intro k m
    by_cases h : ∃ v, (k, v) ∈ m
    · exact Or.inr ((mapContains_iff k m).1.mpr h)
    · exact Or.inl ((mapContains_iff k m).2.mpr h)
  have keq : ∀ {m m' : List (Int × Int)}, ((∃ v, (j, v) ∈ m) ↔ ∃ v, (j, v) ∈ m') → Rkt.mapContains j m = Rkt.mapContains j m' := by
    intro m m' h
    by_cases hx : ∃ v, (j, v) ∈ m
    · rw [(mapContains_iff j m).1.mpr hx, (mapContains_iff j m').1.mpr (h.mp hx)]
    · rw [(mapContains_iff j m).2.mpr hx, (mapContains_iff j m').2.mpr (fun hy => hx (h.mpr hy))]
  unfold Rkt.mapInsert
  split
  · next h0 =>
    have hn := (mapContains_iff k m).2.mp h0
    refine ⟨mapGet_append k v m hn j, ?_, ?_, rfl⟩
    · by_cases hj : j = k
      · subst hj
        rw [if_pos rfl]
        exact (mapContains_iff j _).1.mpr ⟨v, by simp⟩
      · rw [if_neg hj]
        exact keq ⟨fun ⟨w, hw⟩ => ⟨w, by simpa [hj] using hw⟩, fun ⟨w, hw⟩ => ⟨w, List.mem_append_left _ hw⟩⟩
    · intro hd
      rw [List.map_append, List.nodup_append]
      refine ⟨hd, by simp, fun a ha b hb => ?_⟩
      simp only [List.map_cons, List.map_nil, List.mem_singleton] at hb
      subst hb
      rintro rfl
      exact hn ((exists_mem_iff_keys a m).mpr ha)
  · next h0 =>
    have hy := (mapContains_iff k m).1.mp ((c01 k m).resolve_left h0)
    have hk := mem_keys_set k v m hy
    refine ⟨mapGet_set k v m hy j, ?_, fun hd => by rw [hk]; exact hd, rfl⟩
    by_cases hj : j = k
    · subst hj
      rw [if_pos rfl]
      refine (mapContains_iff j _).1.mpr ?_
      rw [exists_mem_iff_keys, hk, ← exists_mem_iff_keys]
      exact hy
    · rw [if_neg hj]
      refine keq ?_
      rw [exists_mem_iff_keys, hk, ← exists_mem_iff_keys]

/-- A history of insertions. -/
def insertAll (ops : List (Int × Int)) : List (Int × Int) := ops.foldl (fun m p => Rkt.mapInsert m p.1 p.2) Rkt.mapCreate

/-- C30 for histories: after any sequence of insertions a key is present iff it was inserted, and it has the value inserted last. -/
theorem C30_histories (ops : List (Int × Int)) (k : Int) :
    (Rkt.mapContains k (insertAll ops) = 1 ↔ ∃ v, (k, v) ∈ ops) ∧
    Rkt.mapGet k (insertAll ops) = ((ops.reverse.find? (fun p => p.1 == k)).map Prod.snd).getD 0 ∧
    ((insertAll ops).map Prod.fst).Nodup := by
  have key : ∀ (r : List (Int × Int)), (Rkt.mapContains k (insertAll r.reverse) = 1 ↔ ∃ v, (k, v) ∈ r) ∧
      Rkt.mapGet k (insertAll r.reverse) = ((r.find? (fun p => p.1 == k)).map Prod.snd).getD 0 ∧
      ((insertAll r.reverse).map Prod.fst).Nodup := by
    intro r
    induction r with
    | nil => simp [insertAll, Rkt.mapCreate, Rkt.mapContains, Rkt.mapGet]
    | cons p r ih =>
      obtain ⟨i, w⟩ := p
      have e : insertAll (((i, w) :: r).reverse) = Rkt.mapInsert (insertAll r.reverse) i w := by
        simp [insertAll, List.foldl_append]
      obtain ⟨h1, h2, h3, _⟩ := C30_maps_partial (insertAll r.reverse) i w k
      rw [e, h1, h2, List.find?_cons]
      refine ⟨?_, ?_, h3 ih.2.2⟩
      · by_cases hk : k = i
        · subst hk
          simp only [if_true, true_iff]
          exact ⟨w, List.mem_cons_self ..⟩
        · rw [if_neg hk, ih.1]
          exact ⟨fun ⟨v, hv⟩ => ⟨v, List.mem_cons_of_mem _ hv⟩, fun ⟨v, hv⟩ => ⟨v, by simpa [hk] using hv⟩⟩
      · by_cases hk : k = i
        · subst hk; simp
        · have : (i == k) = false := by simpa using Ne.symm hk
          simp [hk, this, ih.2.1]
  have := key ops.reverse
  rw [List.reverse_reverse] at this
  simpa using this

/-- C30 fails for equality: two maps with the same content, built in different orders, are not equal. -/
theorem C30_map_eq_refuted :
    let m := insertAll [(1, 10), (2, 20)]
    let m' := insertAll [(2, 20), (1, 10)]
    (∀ k, Rkt.mapGet k m = Rkt.mapGet k m' ∧ Rkt.mapContains k m = Rkt.mapContains k m') ∧ Rkt.mapEq m m' = false := by
  refine ⟨fun k => ?_, by decide⟩
  have e1 : insertAll [(1, 10), (2, 20)] = [(1, 10), (2, 20)] := by decide
  have e2 : insertAll [(2, 20), (1, 10)] = [(2, 20), (1, 10)] := by decide
  rw [e1, e2]
  simp only [Rkt.mapGet, Rkt.mapContains]
  constructor <;> · repeat (split <;> try omega)

/-! ### C22 -/

/-- The three readings of an expression. -/
inductive Reader where
  | rosette
  | smt (zero : Int → Int)
  | python

/-- Value of `Div` (`metalift/ir.py` 2013-2036): `quotient-noerr` for Rosette, `div` for SMT-LIB (Euclidean, with an arbitrary function
`zero` for division by zero), `//` for Python (rounds down, raises an exception for zero). -/
def divBy (r : Reader) (x y : Int) : Option Int :=
  match r with
  | .rosette => some (Rkt.quotientNoerr x y)
  | .smt z => some (if y = 0 then z x else x / y)
  | .python => if y = 0 then none else some (x.fdiv y)

/-- Value of `Mod` (`metalift/ir.py` 2042-2065): `remainder` for Rosette (sign of the dividend, raises an exception for zero), `mod` for
SMT-LIB, `%` for Python (sign of the divisor). -/
def modBy (r : Reader) (x y : Int) : Option Int :=
  match r with
  | .rosette => if y = 0 then none else some (x.tmod y)
  | .smt z => some (if y = 0 then z x else x % y)
  | .python => if y = 0 then none else some (x.fmod y)

theorem tdiv_eq_ediv_iff (x y : Int) (hy : y ≠ 0) : x.tdiv y = x / y ↔ 0 ≤ x ∨ y ∣ x := by
  rw [Int.tdiv_eq_ediv]
  by_cases h : 0 ≤ x ∨ y ∣ x
  · simp [h]
  · simp only [h, if_false, iff_false]
    have : y.sign ≠ 0 := by simpa using hy
    omega

theorem fdiv_eq_ediv_iff (x y : Int) : x.fdiv y = x / y ↔ 0 ≤ y ∨ y ∣ x := by
  rw [Int.fdiv_eq_ediv]
  by_cases h : 0 ≤ y ∨ y ∣ x
  · simp [h]
  · simp only [h, if_false, iff_false]
    omega

/-- All readers agree. -/
def AllAgree (f : Reader → Int → Int → Option Int) (x y : Int) : Prop := ∀ r r', f r x y = f r' x y

/-- C22: the readers agree on a division, and on a remainder, exactly if the divisor is not 0 and either the division is exact or the
dividend is not negative and the divisor is positive. -/
theorem C22_division_partial (x y : Int) :
    (AllAgree divBy x y ↔ y ≠ 0 ∧ (y ∣ x ∨ 0 ≤ x ∧ 0 < y)) ∧ (AllAgree modBy x y ↔ y ≠ 0 ∧ (y ∣ x ∨ 0 ≤ x ∧ 0 < y)) := by
  have key : y ≠ 0 → ((x.tdiv y = x / y ∧ x.fdiv y = x / y) ↔ (y ∣ x ∨ 0 ≤ x ∧ 0 < y)) := by
    intro hy
    rw [tdiv_eq_ediv_iff x y hy, fdiv_eq_ediv_iff]
    constructor
    · rintro ⟨h1 | h1, h2 | h2⟩
      · exact Or.inr ⟨h1, by omega⟩
      · exact Or.inl h2
      · exact Or.inl h1
      · exact Or.inl h1
    · rintro (h | ⟨h1, h2⟩)
      · exact ⟨Or.inr h, Or.inr h⟩
      · exact ⟨Or.inl h1, Or.inl (by omega)⟩
  have keyt : y ≠ 0 → (x.tmod y = x % y ↔ x.tdiv y = x / y) := by
    intro hy
    have h1 := Int.mul_tdiv_add_tmod x y
    have h2 := Int.mul_ediv_add_emod x y
    constructor
    · intro h
      rw [h] at h1
      exact Int.eq_of_mul_eq_mul_left hy (by omega)
    · intro h
      rw [h] at h1
      omega
  have keyf : y ≠ 0 → (x.fmod y = x % y ↔ x.fdiv y = x / y) := by
    intro hy
    have h1 := Int.mul_fdiv_add_fmod x y
    have h2 := Int.mul_ediv_add_emod x y
    constructor
    · intro h
      rw [h] at h1
      exact Int.eq_of_mul_eq_mul_left hy (by omega)
    · intro h
      rw [h] at h1
      omega
  constructor
  · by_cases hy : y = 0
    · refine ⟨fun h => ?_, fun h => absurd hy h.1⟩
      have := h .python .rosette
      simp [divBy, hy] at this
    · have e : ∀ z, divBy .rosette x y = some (x.tdiv y) ∧ divBy .python x y = some (x.fdiv y) ∧ divBy (.smt z) x y = some (x / y) := by
        intro z
        simp [divBy, hy, Rkt.quotientNoerr]
      rw [← key hy]
      constructor
      · intro h
        obtain ⟨e1, e2, e3⟩ := e id
        have h1 := h .rosette (.smt id)
        have h2 := h .python (.smt id)
        rw [e1, e3] at h1
        rw [e2, e3] at h2
        exact ⟨hy, Option.some.inj h1, Option.some.inj h2⟩
      · rintro ⟨_, h1, h2⟩
        have : ∀ r, divBy r x y = some (x / y) := by
          intro r
          cases r with
          | rosette => rw [(e id).1, h1]
          | smt z => exact (e z).2.2
          | python => rw [(e id).2.1, h2]
        intro r r'
        rw [this r, this r']
  · by_cases hy : y = 0
    · refine ⟨fun h => ?_, fun h => absurd hy h.1⟩
      have := h .python (.smt id)
      simp [modBy, hy] at this
    · have e : ∀ z, modBy .rosette x y = some (x.tmod y) ∧ modBy .python x y = some (x.fmod y) ∧ modBy (.smt z) x y = some (x % y) := by
        intro z
        simp [modBy, hy]
      rw [← key hy, ← keyt hy, ← keyf hy]
      constructor
      · intro h
        obtain ⟨e1, e2, e3⟩ := e id
        have h1 := h .rosette (.smt id)
        have h2 := h .python (.smt id)
        rw [e1, e3] at h1
        rw [e2, e3] at h2
        exact ⟨hy, Option.some.inj h1, Option.some.inj h2⟩
      · rintro ⟨_, h1, h2⟩
        have : ∀ r, modBy r x y = some (x % y) := by
          intro r
          cases r with
          | rosette => rw [(e id).1, h1]
          | smt z => exact (e z).2.2
          | python => rw [(e id).2.1, h2]
        intro r r'
        rw [this r, this r']

/-- The guard is met by 7 and 2. -/
example : divBy .rosette 7 2 = divBy .python 7 2 := ((C22_division_partial 7 2).1.mpr ⟨by decide, Or.inr (by decide)⟩) _ _

/-- C22 is false in general: `-7` divided by `2` is `-3` in Rosette and `-4` for the verifier and in Python. -/
theorem C22_negative_refuted :
    divBy .rosette (-7) 2 = some (-3) ∧ (∀ z, divBy (.smt z) (-7) 2 = some (-4)) ∧ divBy .python (-7) 2 = some (-4) ∧
    divBy .python 7 (-2) = some (-4) ∧ (∀ z, divBy (.smt z) 7 (-2) = some (-3)) := by
  refine ⟨by decide, fun z => rfl, by decide, by decide, fun z => rfl⟩

/-- Division by zero is 0-safe in Rosette, arbitrary for the verifier and an exception in Python. -/
theorem C22_zero_refuted : divBy .rosette 5 0 = some 5 ∧ (∃ z, divBy (.smt z) 5 0 ≠ some 5) ∧ divBy .python 5 0 = none :=
  ⟨by decide, ⟨fun _ => 0, by decide⟩, by decide⟩

end Metalift
