import Verif.LlvmSem
import Verif.PyStmtLemmas
import Verif.PIr
/-
Lemmas about `merge_states` of the LLVM front end (`Verif/Llvm.lean`).
-/
namespace Metalift.Ll

/-- All conditions of a list are true. -/
def AllHold (I : Interp) (ρ : Env) (pc : List Expr) : Prop := ∀ c ∈ pc, holds I ρ c

theorem onlyInt_guard {l : List Expr} (h : ∀ e ∈ l, e.OnlyInt) (I : Interp) (ρ : Env) :
    ∀ a ∈ l, ∀ b ∈ l, a.pyEq b = true → eval I ρ a = eval I ρ b :=
  fun a ha b hb hab => onlyInt_eval (h a ha) (h b hb) hab

theorem andObjects_none {l : List Expr} : andObjects l = none ↔ l = [] := by
  unfold andObjects
  rw [init_eq_firstOcc]
  cases l with
  | nil => simp [firstOcc, andExprs]
  | cons a l =>
    simp only [firstOcc, List.any_nil, Bool.false_eq_true, if_false, reduceCtorEq, iff_false]
    cases firstOcc [a] l <;> simp [andExprs]

theorem orObjects_none {l : List Expr} : orObjects l = none ↔ l = [] := by
  unfold orObjects
  rw [init_eq_firstOcc]
  cases l with
  | nil => simp [firstOcc, orExprs]
  | cons a l =>
    simp only [firstOcc, List.any_nil, Bool.false_eq_true, if_false, reduceCtorEq, iff_false]
    cases firstOcc [a] l <;> simp [orExprs]

/-- `and_objects` on conditions without boolean constants. -/
theorem andObjects_iff {I : Interp} {ρ : Env} {l : List Expr} {e : Expr} (hl : ∀ x ∈ l, x.OnlyInt)
    (h : andObjects l = some e) : holds I ρ e ↔ AllHold I ρ l := by
  refine ⟨fun he => ?_, andObjects_holds h⟩
  unfold andObjects at h
  rw [init_eq_firstOcc] at h
  intro x hx
  have hin : ∀ y ∈ firstOcc [] l, holds I ρ y := by
    revert h
    generalize firstOcc [] l = m
    intro h
    cases m with
    | nil => simp
    | cons y ys =>
      simp only [andExprs, Option.some.injEq] at h
      rw [← h, and_fold_holds] at he
      simpa using he
  rcases firstOcc_cover l [] x hx with ⟨y, hy, _⟩ | ⟨y, hy, hxy⟩
  · simp at hy
  · have := hin y hy
    unfold holds at *
    rw [onlyInt_eval (hl x hx) (hl y (firstOcc_mem _ _ _ hy)) hxy]; exact this

/-- `or_objects` on conditions without boolean constants. -/
theorem orObjects_iff {I : Interp} {ρ : Env} {l : List Expr} {e : Expr} (hl : ∀ x ∈ l, x.OnlyInt)
    (h : orObjects l = some e) : holds I ρ e ↔ ∃ x ∈ l, holds I ρ x := by
  unfold orObjects at h
  rw [init_eq_firstOcc] at h
  have hin : holds I ρ e ↔ ∃ y ∈ firstOcc [] l, holds I ρ y := by
    revert h
    generalize firstOcc [] l = m
    intro h
    cases m with
    | nil => simp [orExprs] at h
    | cons y ys =>
      simp only [orExprs, Option.some.injEq] at h
      rw [← h, or_fold_holds]
      simp
  rw [hin]
  constructor
  · rintro ⟨y, hy, hh⟩
    exact ⟨y, firstOcc_mem _ _ _ hy, hh⟩
  · rintro ⟨x, hx, hh⟩
    rcases firstOcc_cover l [] x hx with ⟨y, hy, _⟩ | ⟨y, hy, hxy⟩
    · simp at hy
    · refine ⟨y, hy, ?_⟩
      unfold holds at *
      rw [← onlyInt_eval (hl x hx) (hl y (firstOcc_mem _ _ _ hy)) hxy]; exact hh

theorem orObjects_closed {P : Expr → Prop} (hP : TrClosed P) {l : List Expr} {e : Expr}
    (h : orObjects l = some e) (hl : ∀ x ∈ l, P x) : P e := by
  unfold orObjects at h
  rw [init_eq_firstOcc] at h
  have hm := fun x (hx : x ∈ firstOcc [] l) => hl x (firstOcc_mem l [] x hx)
  revert h hm
  generalize firstOcc [] l = m
  intro h hm
  cases m with
  | nil => simp [orExprs] at h
  | cons y ys =>
    simp only [orExprs, Option.some.injEq] at h
    have : ∀ (zs : List Expr) (a : Expr), P a → (∀ z ∈ zs, P z) →
        P (zs.foldl (fun r x => mkOr [r, x]) a) := by
      intro zs
      induction zs with
      | nil => intro a ha _; exact ha
      | cons z zs ih =>
        intro a ha hz
        exact ih _ (hP.node _ _ _ (by simp [ha, hz z])) (fun w hw => hz w (by simp [hw]))
    rw [← h]
    exact this ys y (hm y (by simp)) (fun z hz => hm z (by simp [hz]))

/-- The condition of a value: one of the lists of conditions is true. -/
theorem aggregate_iff {I : Interp} {ρ : Env} {pcs : List (List Expr)} (hne : pcs ≠ [])
    (hpc : ∀ pc ∈ pcs, pc ≠ []) (hl : ∀ pc ∈ pcs, ∀ c ∈ pc, c.OnlyInt) :
    holds I ρ (aggregate pcs) ↔ ∃ pc ∈ pcs, AllHold I ρ pc := by
  have hf : pcs.filter (fun pc => !pc.isEmpty) = pcs :=
    List.filter_eq_self.2 fun pc h => by simp [hpc pc h]
  unfold aggregate
  rw [hf]
  have hints : ∀ e ∈ pcs.filterMap andObjects, e.OnlyInt := by
    intro e he
    obtain ⟨pc, hpcm, h⟩ := List.mem_filterMap.1 he
    exact andObjects_closed closed_onlyInt h (hl pc hpcm)
  split
  · next e he =>
    rw [orObjects_iff hints he]
    constructor
    · rintro ⟨x, hx, hh⟩
      obtain ⟨pc, hpcm, h⟩ := List.mem_filterMap.1 hx
      exact ⟨pc, hpcm, (andObjects_iff (hl pc hpcm) h).1 hh⟩
    · rintro ⟨pc, hpcm, hh⟩
      cases h : andObjects pc with
      | none => exact absurd (andObjects_none.1 h) (hpc pc hpcm)
      | some x =>
        exact ⟨x, List.mem_filterMap.2 ⟨pc, hpcm, h⟩, (andObjects_iff (hl pc hpcm) h).2 hh⟩
  · next he =>
    exfalso
    rw [orObjects_none] at he
    cases pcs with
    | nil => exact hne rfl
    | cons pc pcs =>
      cases h : andObjects pc with
      | none => exact absurd (andObjects_none.1 h) (hpc pc (by simp))
      | some x => simp [h] at he

/-! ### The dictionary of values -/

/-- What the dictionary of values says about the list of values collected so far. -/
structure Collected (vals : List (Expr × List Expr)) (d : List (Expr × List (List Expr))) : Prop where
  from_ : ∀ k ∈ d, ∀ pc ∈ k.2, ∃ v ∈ vals, v.2 = pc ∧ k.1.pyEq v.1 = true
  key : ∀ k ∈ d, ∃ v ∈ vals, v.1 = k.1
  nonempty : ∀ k ∈ d, k.2 ≠ []
  all : ∀ v ∈ vals, ∃ k ∈ d, v.2 ∈ k.2 ∧ k.1.pyEq v.1 = true

theorem addValue_mem {d : List (Expr × List (List Expr))} {e : Expr} {pc : List Expr} {k} :
    k ∈ addValue d e pc → k ∈ d ∨ k = (e, [pc]) ∨ ∃ k' ∈ d, k'.1.pyEq e = true ∧ k = (k'.1, k'.2 ++ [pc]) := by
  induction d with
  | nil => simp [addValue]
  | cons a d ih =>
    simp only [addValue]
    split
    · next h =>
      intro hk
      rcases List.mem_cons.1 hk with rfl | hk
      · exact .inr (.inr ⟨a, by simp, h, rfl⟩)
      · exact .inl (by simp [hk])
    · intro hk
      rcases List.mem_cons.1 hk with rfl | hk
      · exact .inl (by simp)
      · rcases ih hk with h | h | ⟨k', h1, h2⟩
        · exact .inl (by simp [h])
        · exact .inr (.inl h)
        · exact .inr (.inr ⟨k', by simp [h1], h2⟩)

theorem addValue_old {d : List (Expr × List (List Expr))} (e : Expr) (pc : List Expr) {k} (hk : k ∈ d) :
    ∃ k' ∈ addValue d e pc, k'.1 = k.1 ∧ ∀ q ∈ k.2, q ∈ k'.2 := by
  induction d with
  | nil => simp at hk
  | cons a d ih =>
    simp only [addValue]
    split
    · rcases List.mem_cons.1 hk with rfl | hk
      · exact ⟨_, List.mem_cons_self .., rfl, fun q hq => by simp [hq]⟩
      · exact ⟨k, by simp [hk], rfl, fun _ h => h⟩
    · rcases List.mem_cons.1 hk with rfl | hk
      · exact ⟨_, List.mem_cons_self .., rfl, fun q hq => hq⟩
      · obtain ⟨k', h1, h2⟩ := ih hk
        exact ⟨k', by simp [h1], h2⟩

theorem addValue_new (d : List (Expr × List (List Expr))) (e : Expr) (pc : List Expr) :
    ∃ k ∈ addValue d e pc, pc ∈ k.2 ∧ k.1.pyEq e = true := by
  induction d with
  | nil => exact ⟨(e, [pc]), by simp [addValue], by simp, Expr.pyEq_refl e⟩
  | cons a d ih =>
    simp only [addValue]
    split
    · next h => exact ⟨_, List.mem_cons_self .., by simp, h⟩
    · obtain ⟨k, h1, h2⟩ := ih
      exact ⟨k, by simp [h1], h2⟩

theorem Collected.add {vals d} (h : Collected vals d) (e : Expr) (pc : List Expr) :
    Collected (vals ++ [(e, pc)]) (addValue d e pc) := by
  constructor
  · intro k hk q hq
    rcases addValue_mem hk with hk | rfl | ⟨k', h1, h2, rfl⟩
    · obtain ⟨v, hv, h'⟩ := h.from_ k hk q hq
      exact ⟨v, by simp [hv], h'⟩
    · simp at hq; subst hq
      exact ⟨(e, q), by simp, rfl, Expr.pyEq_refl e⟩
    · rcases List.mem_append.1 hq with hq | hq
      · obtain ⟨v, hv, h'⟩ := h.from_ k' h1 q hq
        exact ⟨v, by simp [hv], h'⟩
      · simp at hq; subst hq
        exact ⟨(e, q), by simp, rfl, h2⟩
  · intro k hk
    rcases addValue_mem hk with hk | rfl | ⟨k', h1, h2, rfl⟩
    · obtain ⟨v, hv, h'⟩ := h.key k hk
      exact ⟨v, by simp [hv], h'⟩
    · exact ⟨(e, pc), by simp, rfl⟩
    · obtain ⟨v, hv, h'⟩ := h.key k' h1
      exact ⟨v, by simp [hv], h'⟩
  · intro k hk
    rcases addValue_mem hk with hk | rfl | ⟨k', h1, h2, rfl⟩
    · exact h.nonempty k hk
    · simp
    · simp
  · intro v hv
    rcases List.mem_append.1 hv with hv | hv
    · obtain ⟨k, hk, h1, h2⟩ := h.all v hv
      obtain ⟨k', hk', h3, h4⟩ := addValue_old e pc hk
      exact ⟨k', hk', h4 _ h1, by rw [h3]; exact h2⟩
    · simp at hv; subst hv
      exact addValue_new d e pc

theorem collected_foldl (vals : List (Expr × List Expr)) : ∀ (vals' : List (Expr × List Expr)) (d),
    Collected vals' d → Collected (vals' ++ vals) (vals.foldl (fun d v => addValue d v.1 v.2) d) := by
  induction vals with
  | nil => intro vals' d h; simpa using h
  | cons v vals ih =>
    intro vals' d h
    have := ih _ _ (h.add v.1 v.2)
    simpa using this

theorem collected (vals : List (Expr × List Expr)) :
    Collected vals (vals.foldl (fun d v => addValue d v.1 v.2) []) := by
  have := collected_foldl vals [] [] ⟨by simp, by simp, by simp, by simp⟩
  simpa using this

theorem mergeChain_eval {I : Interp} {ρ : Env} {v : Val} : ∀ (r : List (Expr × List (List Expr))) (base m : Expr),
    mergeChain base r = some m →
    (eval I ρ base = v ∨ ∃ k ∈ r, holds I ρ (aggregate k.2)) →
    (∀ k ∈ r, holds I ρ (aggregate k.2) → eval I ρ k.1 = v) → eval I ρ m = v := by
  intro r
  induction r with
  | nil =>
    intro base m h h1 _
    simp [mergeChain] at h
    subst h
    simpa using h1
  | cons k r ih =>
    intro base m h h1 h2
    unfold mergeChain at h
    rw [List.foldlM_cons] at h
    by_cases ht : k.1.ty = base.ty
    · rw [if_pos ht] at h
      simp only [Option.bind_eq_bind, Option.bind_some] at h
      refine ih _ m h ?_ (fun k' hk' => h2 k' (by simp [hk']))
      by_cases hk : holds I ρ (aggregate k.2)
      · left
        have := h2 k (by simp) hk
        unfold holds at hk
        simp only [mkIte, eval, evals, evalOp, hk, if_true, this]
      · rcases h1 with h1 | ⟨k', hk', h1⟩
        · left
          unfold holds at hk
          simp only [mkIte, eval, evals, evalOp, hk, h1]; simp
        · right
          rcases List.mem_cons.1 hk' with rfl | hk'
          · exact absurd h1 hk
          · exact ⟨k', hk', h1⟩
    · rw [if_neg ht] at h
      simp at h

/-- The merged value is the value of the alternative whose conditions are true. -/
theorem mergeVal_eval {I : Interp} {ρ : Env} {v : Val} {vals : List (Expr × List Expr)} {m : Expr}
    (h : mergeVal vals = some m)
    (hne : ∀ x ∈ vals, x.2 ≠ []) (hpl : ∀ x ∈ vals, ∀ c ∈ x.2, c.OnlyInt) (hvl : ∀ x ∈ vals, x.1.OnlyInt)
    (hex : ∃ x ∈ vals, AllHold I ρ x.2) (hv : ∀ x ∈ vals, AllHold I ρ x.2 → eval I ρ x.1 = v) :
    eval I ρ m = v := by
  have hc := collected vals
  unfold mergeVal at h
  generalize vals.foldl (fun d v => addValue d v.1 v.2) [] = d at h hc
  have hagg : ∀ k ∈ d, (holds I ρ (aggregate k.2) ↔ ∃ pc ∈ k.2, AllHold I ρ pc) := by
    intro k hk
    refine aggregate_iff (hc.nonempty k hk) ?_ ?_
    · intro pc hpc
      obtain ⟨x, hx, rfl, _⟩ := hc.from_ k hk pc hpc
      exact hne x hx
    · intro pc hpc
      obtain ⟨x, hx, rfl, _⟩ := hc.from_ k hk pc hpc
      exact hpl x hx
  have hkv : ∀ k ∈ d, (∃ pc ∈ k.2, AllHold I ρ pc) → eval I ρ k.1 = v := by
    rintro k hk ⟨pc, hpc, hh⟩
    obtain ⟨x, hx, rfl, he⟩ := hc.from_ k hk pc hpc
    obtain ⟨y, hy, hky⟩ := hc.key k hk
    rw [← hv x hx hh]
    exact onlyInt_eval (hky ▸ hvl y hy) (hvl x hx) he
  obtain ⟨x, hx, hxh⟩ := hex
  obtain ⟨k, hk, hkp, _⟩ := hc.all x hx
  cases d with
  | nil => simp at hk
  | cons a d =>
    simp only at h
    refine mergeChain_eval d a.1 m h ?_ ?_
    · rcases List.mem_cons.1 hk with rfl | hk'
      · exact .inl (hkv _ hk ⟨_, hkp, hxh⟩)
      · exact .inr ⟨k, hk', (hagg k hk).2 ⟨_, hkp, hxh⟩⟩
    · intro k' hk' hh
      exact hkv k' (by simp [hk']) ((hagg k' (by simp [hk'])).1 hh)

/-! ### Maps -/

theorem mem_mergeKeys_aux (l : List String) : ∀ (acc : List String) (x : String),
    x ∈ l.foldl (fun l x => if x ∈ l then l else l ++ [x]) acc ↔ x ∈ acc ∨ x ∈ l := by
  induction l with
  | nil => simp
  | cons a l ih =>
    intro acc x
    rw [List.foldl_cons, ih]
    by_cases h : a ∈ acc
    · rw [if_pos h]
      constructor
      · rintro (h' | h') <;> simp [h']
      · rintro (h' | h')
        · exact .inl h'
        · rcases List.mem_cons.1 h' with rfl | h'
          · exact .inl h
          · exact .inr h'
    · rw [if_neg h]
      simp [or_assoc]

theorem mem_mergeKeys {maps : List SymVars} {x : String} :
    x ∈ mergeKeys maps ↔ ∃ m ∈ maps, ∃ e, m.read x = some e := by
  unfold mergeKeys
  rw [mem_mergeKeys_aux]
  simp only [List.not_mem_nil, false_or, List.mem_flatMap]
  constructor
  · rintro ⟨m, hm, hx⟩
    have := (read_isSome_iff m x).2 hx
    exact ⟨m, hm, Option.isSome_iff_exists.1 this⟩
  · rintro ⟨m, hm, e, he⟩
    exact ⟨m, hm, (read_isSome_iff m x).1 (by simp [he])⟩

theorem mapM_read {g : String → Option Expr} : ∀ {keys : List String} {r : SymVars},
    (keys.mapM fun x => do some (x, ← g x)) = some r →
    ∀ x, r.read x = if x ∈ keys then g x else none := by
  intro keys
  induction keys with
  | nil => intro r h x; simp at h; subst h; rfl
  | cons k keys ih =>
    intro r h x
    rw [List.mapM_cons] at h
    simp only [Option.bind_eq_bind, Option.bind_eq_some_iff, Option.pure_def] at h
    obtain ⟨p, ⟨e, he, hp⟩, r', hr', hr⟩ := h
    injection hp with hp
    injection hr with hr
    subst hr; subst hp
    have ih' := ih (r := r') (by simpa [Option.bind_eq_bind] using hr') x
    by_cases hx : x = k
    · subst hx
      simp [SymVars.read, List.lookup, he]
    · have : (x == k) = false := by simpa using hx
      simp only [SymVars.read, List.lookup, this] at *
      rw [ih']
      simp [hx]

theorem mem_mergeKeys' {maps : List (SymVars × List Expr)} {x : String} :
    x ∈ mergeKeys (maps.map Prod.fst) ↔ ∃ m ∈ maps, ∃ e, m.1.read x = some e := by
  rw [mem_mergeKeys]
  constructor
  · rintro ⟨m, hm, e, he⟩
    obtain ⟨q, hq, rfl⟩ := List.mem_map.1 hm
    exact ⟨q, hq, e, he⟩
  · rintro ⟨q, hq, e, he⟩
    exact ⟨q.1, List.mem_map_of_mem hq, e, he⟩

/-- Reading from a merged map. -/
theorem mergeMaps_read {maps : List (SymVars × List Expr)} {r : SymVars} (h : mergeMaps maps = some r) {x : String}
    (hx : ∃ m ∈ maps, ∃ e, m.1.read x = some e) :
    r.read x = mergeVal (maps.filterMap fun m => (m.1.read x).map fun e => (e, m.2)) := by
  unfold mergeMaps at h
  rw [mapM_read h x, if_pos (mem_mergeKeys'.2 hx)]

/-- Only variables of the merged states are defined. -/
theorem mergeMaps_source {maps : List (SymVars × List Expr)} {r : SymVars} (h : mergeMaps maps = some r) {x : String}
    {e : Expr} (hr : r.read x = some e) : ∃ m ∈ maps, ∃ e, m.1.read x = some e := by
  unfold mergeMaps at h
  rw [mapM_read h x] at hr
  by_cases hx : x ∈ mergeKeys (maps.map Prod.fst)
  · exact mem_mergeKeys'.1 hx
  · rw [if_neg hx] at hr; cases hr

/-- A merged map is defined where one of the maps is. -/
theorem mergeMaps_defined {maps : List (SymVars × List Expr)} {r : SymVars} (h : mergeMaps maps = some r) {x : String}
    (hx : ∃ m ∈ maps, ∃ e, m.1.read x = some e) : ∃ e, r.read x = some e := by
  have hr := mergeMaps_read h hx
  have hk : x ∈ mergeKeys (maps.map Prod.fst) := by
    obtain ⟨m, hm, e, he⟩ := hx
    exact mem_mergeKeys.2 ⟨m.1, List.mem_map_of_mem hm, e, he⟩
  unfold mergeMaps at h
  have : ∀ (keys : List String) (g : String → Option Expr) (r : SymVars),
      (keys.mapM fun x => do some (x, ← g x)) = some r → x ∈ keys → ∃ e, g x = some e := by
    intro keys
    induction keys with
    | nil => simp
    | cons k keys ih =>
      intro g r h hx
      rw [List.mapM_cons] at h
      simp only [Option.bind_eq_bind, Option.bind_eq_some_iff, Option.pure_def] at h
      obtain ⟨p, ⟨e, he, hp⟩, r', hr', hr⟩ := h
      rcases List.mem_cons.1 hx with rfl | hx
      · exact ⟨e, he⟩
      · exact ih g r' (by simpa [Option.bind_eq_bind] using hr') hx
  obtain ⟨e, he⟩ := this _ _ _ h hk
  exact ⟨e, by rw [hr]; exact he⟩

theorem mergeMaps_eval {I : Interp} {ρ : Env} {maps : List (SymVars × List Expr)} {r : SymVars}
    (h : mergeMaps maps = some r) {x : String} {e : Expr} {v : Val} (hr : r.read x = some e)
    (hne : ∀ m ∈ maps, m.2 ≠ []) (hpl : ∀ m ∈ maps, ∀ c ∈ m.2, c.OnlyInt)
    (hvl : ∀ m ∈ maps, ∀ e, m.1.read x = some e → e.OnlyInt)
    (hex : ∃ m ∈ maps, AllHold I ρ m.2 ∧ ∃ e, m.1.read x = some e)
    (hv : ∀ m ∈ maps, AllHold I ρ m.2 → ∀ e, m.1.read x = some e → eval I ρ e = v) : eval I ρ e = v := by
  obtain ⟨m, hm, hh, e0, he0⟩ := hex
  rw [mergeMaps_read h ⟨m, hm, e0, he0⟩] at hr
  have key : ∀ y ∈ maps.filterMap (fun m => (m.1.read x).map fun e => (e, m.2)),
      ∃ m ∈ maps, m.1.read x = some y.1 ∧ y.2 = m.2 := by
    intro y hy
    obtain ⟨m, hm, h⟩ := List.mem_filterMap.1 hy
    cases he : m.1.read x with
    | none => simp [he] at h
    | some e => simp [he] at h; subst h; exact ⟨m, hm, he, rfl⟩
  refine mergeVal_eval hr ?_ ?_ ?_ ?_ ?_
  · intro y hy
    obtain ⟨m, hm, _, h⟩ := key y hy
    rw [h]; exact hne m hm
  · intro y hy
    obtain ⟨m, hm, _, h⟩ := key y hy
    rw [h]; exact hpl m hm
  · intro y hy
    obtain ⟨m, hm, h, _⟩ := key y hy
    exact hvl m hm _ h
  · exact ⟨(e0, m.2), List.mem_filterMap.2 ⟨m, hm, by simp [he0]⟩, hh⟩
  · intro y hy hyh
    obtain ⟨m, hm, h, h'⟩ := key y hy
    exact hv m hm (h' ▸ hyh) _ h

/-- The precondition of a join holds iff those of one predecessor hold. -/
theorem mergePrecond_iff {I : Interp} {ρ : Env} {pend : List Expr} {preds : List St} (hp : preds ≠ [])
    (hne : ∀ p ∈ preds, p.precond ≠ []) (hl : ∀ p ∈ preds, ∀ c ∈ p.precond, c.OnlyInt) :
    AllHold I ρ (mergePrecond pend preds) ↔ ∃ p ∈ preds, AllHold I ρ p.precond := by
  have hf : preds.filter (fun p => !p.precond.isEmpty) = preds :=
    List.filter_eq_self.2 fun p h => by simp [hne p h]
  unfold mergePrecond
  rw [hf]
  have hints : ∀ e ∈ preds.filterMap (fun p => andObjects p.precond), e.OnlyInt := by
    intro e he
    obtain ⟨p, hpm, h⟩ := List.mem_filterMap.1 he
    exact andObjects_closed closed_onlyInt h (hl p hpm)
  split
  · next e he =>
    have h1 : AllHold I ρ [e] ↔ holds I ρ e := by simp [AllHold]
    rw [h1, orObjects_iff hints he]
    constructor
    · rintro ⟨x, hx, hh⟩
      obtain ⟨p, hpm, h⟩ := List.mem_filterMap.1 hx
      exact ⟨p, hpm, (andObjects_iff (hl p hpm) h).1 hh⟩
    · rintro ⟨p, hpm, hh⟩
      cases h : andObjects p.precond with
      | none => exact absurd (andObjects_none.1 h) (hne p hpm)
      | some x => exact ⟨x, List.mem_filterMap.2 ⟨p, hpm, h⟩, (andObjects_iff (hl p hpm) h).2 hh⟩
  · next he =>
    exfalso
    rw [orObjects_none] at he
    cases preds with
    | nil => exact hp rfl
    | cons p preds =>
      cases h : andObjects p.precond with
      | none => exact absurd (andObjects_none.1 h) (hne p (by simp))
      | some x => simp [h] at he

end Metalift.Ll
