import Verif.PyDriver
import Verif.Names
import Verif.FnEval
/-
C50: what `Driver.synthesize` does with the synthesised predicates.
-/
namespace Metalift

/-! ### Specification -/

/-- `f` is an identifier (in ASCII) in which `_ps` does not occur, except perhaps at the very beginning. -/
def PlainName (f : String) : Prop :=
  f.toList ≠ [] ∧ (∀ c ∈ f.toList, isWord c = true) ∧ ¬ ['_', 'p', 's'] <:+: f.toList.tail

/-- The results of a synthesis for the functions `fs`: predicates with different names, each the postcondition or an invariant of one of them
(`metalift/frontend/python.py` 274, 290). -/
def ResultsFor (fs : List String) (ds : List FnDecl) : Prop :=
  (ds.map FnDecl.name).Nodup ∧ ∀ d ∈ ds, ∃ f ∈ fs, d.name = f ++ "_ps" ∨ ∃ i : Nat, d.name = f ++ "_inv" ++ i.repr

/-- `e` is the right side of the equation which is the postcondition of `f`. -/
def VersionOf (ds : List FnDecl) (f : String) (e : Expr) : Prop :=
  ∃ d ∈ ds, d.name = f ++ "_ps" ∧ ∃ t l, d.body = some (.node .eq t [l, e])

/-! ### Matching names -/

theorem psStar_some : ∀ {l g : List Char}, psStar l = some g → ∃ r, l = g ++ '_' :: 'p' :: 's' :: r
  | [], g, h => by cases h
  | c :: cs, g, h => by
    unfold psStar at h
    split at h
    · next g' h' =>
      split at h'
      · cases h
        obtain ⟨r, hr⟩ := psStar_some h'
        exact ⟨r, by rw [hr]; rfl⟩
      · cases h'
    · split at h
      · next hp =>
        cases h
        obtain ⟨r, hr⟩ := List.isPrefixOf_iff_prefix.1 hp
        exact ⟨r, hr.symm⟩
      · cases h

theorem psStar_none {l : List Char} (h : ¬ ['_', 'p', 's'] <:+: l) : psStar l = none := by
  cases hs : psStar l with
  | none => rfl
  | some g =>
    obtain ⟨r, hr⟩ := psStar_some hs
    exact absurd ⟨g, r, by rw [hr]; simp⟩ h

theorem psStar_ps : ∀ {g : List Char}, (∀ c ∈ g, isWord c = true) → psStar (g ++ ['_', 'p', 's']) = some g
  | [], _ => by decide
  | c :: g, h => by
    have ih := psStar_ps (g := g) (fun x hx => h x (by simp [hx]))
    simp only [List.cons_append, psStar, h c (by simp), if_true, ih]

/-- The postcondition of a function is recognised as that of this function. -/
theorem psGroup_ps {f : String} (hne : f.toList ≠ []) (hw : ∀ c ∈ f.toList, isWord c = true) : psGroup (f ++ "_ps") = some f := by
  unfold psGroup
  have : (f ++ "_ps").toList = f.toList ++ ['_', 'p', 's'] := by simp
  rw [this]
  match hf : f.toList, hne with
  | c :: cs, _ =>
    rw [hf] at hw
    simp only [List.cons_append, hw c (by simp), if_true, psStar_ps (g := cs) (fun x hx => hw x (by simp [hx])), Option.map_some, Option.some.injEq]
    rw [← hf, String.ofList_toList]

theorem infix_suffix {l r : List Char} (hs : 's' ∉ r) (h : ['_', 'p', 's'] <:+: l ++ r) : ['_', 'p', 's'] <:+: l := by
  obtain ⟨a, b, hab⟩ := h
  rw [List.append_assoc] at hab
  rcases List.append_eq_append_iff.1 hab with ⟨x, h1, h2⟩ | ⟨x, h1, h2⟩
  · -- the text `a` ends inside `l`
    rcases x with _ | ⟨x1, _ | ⟨x2, _ | ⟨x3, x⟩⟩⟩
    · simp only [List.nil_append] at h2
      rw [← h2] at hs
      simp at hs
    · simp only [List.cons_append, List.nil_append, List.cons.injEq] at h2
      rw [← h2.2] at hs
      simp at hs
    · simp only [List.cons_append, List.nil_append, List.cons.injEq] at h2
      rw [← h2.2.2] at hs
      simp at hs
    · simp only [List.cons_append, List.nil_append, List.cons.injEq] at h2
      obtain ⟨rfl, rfl, rfl, _⟩ := h2
      exact ⟨a, x, by rw [h1]; simp⟩
  · rw [h2] at hs
    simp at hs

/-- An invariant is not taken for a postcondition. -/
theorem psGroup_inv {f : String} (hf : PlainName f) (i : Nat) : psGroup (f ++ "_inv" ++ i.repr) = none := by
  unfold psGroup
  have : (f ++ "_inv" ++ i.repr).toList = f.toList ++ ("_inv".toList ++ i.repr.toList) := by simp
  rw [this]
  match hl : f.toList, hf.1 with
  | c :: cs, _ =>
    simp only [List.cons_append]
    rw [psStar_none ?_]
    · simp
    · intro h
      have hs : 's' ∉ "_inv".toList ++ i.repr.toList := by
        intro hm
        rcases List.mem_append.1 hm with hm | hm
        · revert hm; decide
        · exact absurd (repr_digits i 's' hm) (by decide)
      have := hf.2.2
      rw [hl] at this
      exact this (infix_suffix hs h)

/-! ### Recording -/

theorem map_lookup (fns : Fns) (n : String) (e : Expr) (f : String) :
    (fns.map (fun p => if p.1 = n then (p.1, some e) else p)).lookup f = if f = n then (fns.lookup f).map (fun _ => some e) else fns.lookup f := by
  induction fns with
  | nil => simp
  | cons p fns ih =>
    obtain ⟨a, b⟩ := p
    simp only [List.map_cons]
    by_cases ha : a = n <;> by_cases hf : f = a
    · subst ha; subst hf; simp
    · subst ha
      simp only [if_true, List.lookup_cons, beq_false_of_ne hf, ih]
    · subst hf
      simp only [if_neg ha, List.lookup_cons, BEq.rfl]
    · simp only [if_neg ha, List.lookup_cons, beq_false_of_ne hf, ih]

theorem assign_lookup {fns fns' : Fns} {n : String} {e : Expr} (h : fns.assign n e = some fns') (f : String) :
    fns'.map Prod.fst = fns.map Prod.fst ∧ fns'.lookup f = if f = n then some (some e) else fns.lookup f := by
  unfold Fns.assign at h
  split at h
  · next hany =>
    cases h
    refine ⟨?_, ?_⟩
    · rw [List.map_map]
      refine List.map_congr_left (fun p _ => ?_)
      simp only [Function.comp]
      split <;> rfl
    · rw [map_lookup]
      split
      · next hf =>
        subst hf
        cases hl : fns.lookup f with
        | some x => rfl
        | none =>
          rw [List.lookup_eq_none_iff] at hl
          obtain ⟨p, hp, hpf⟩ := List.any_eq_true.1 hany
          have := hl p hp
          simp only [beq_iff_eq] at hpf
          simp [hpf] at this
      · rfl
  · cases h

/-- What is recorded, in terms of the matched names: the last result whose name matches `f`. -/
theorem recordAllPy_lookup : ∀ {ds : List FnDecl} {fns fns' : Fns}, recordAllPy fns ds = some fns' → ∀ f,
    fns'.map Prod.fst = fns.map Prod.fst ∧
      ((∀ d ∈ ds, psGroup d.name ≠ some f) ∧ fns'.lookup f = fns.lookup f ∨
        ∃ d ∈ ds, psGroup d.name = some f ∧ ∃ t l e, d.body = some (.node .eq t [l, e]) ∧ fns'.lookup f = some (some e))
  | [], fns, fns', h, f => by
    simp only [recordAllPy, List.foldlM_nil, Option.pure_def, Option.some.injEq] at h
    subst h
    exact ⟨rfl, .inl ⟨by simp, rfl⟩⟩
  | d :: ds, fns, fns', h, f => by
    simp only [recordAllPy, List.foldlM_cons, Option.bind_eq_bind, Option.bind_eq_some_iff] at h
    obtain ⟨m, hm, h⟩ := h
    obtain ⟨hk, hrest⟩ := recordAllPy_lookup (fns := m) (ds := ds) h f
    unfold recordPy at hm
    split at hm
    · next hg =>
      cases hm
      refine ⟨hk, ?_⟩
      rcases hrest with ⟨h1, h2⟩ | ⟨d', h1, h2⟩
      · refine .inl ⟨?_, h2⟩
        intro d' hd'
        rcases List.mem_cons.1 hd' with rfl | hd'
        · simp [hg]
        · exact h1 d' hd'
      · exact .inr ⟨d', by simp [h1], h2⟩
    · next n hg =>
      split at hm
      · next t l e hb =>
        have ha := assign_lookup hm f
        refine ⟨hk.trans ha.1, ?_⟩
        rcases hrest with ⟨h1, h2⟩ | ⟨d', h1, h2⟩
        · by_cases hf : f = n
          · subst hf
            refine .inr ⟨d, by simp, hg, t, l, e, hb, ?_⟩
            rw [h2, ha.2, if_pos rfl]
          · refine .inl ⟨?_, ?_⟩
            · intro d' hd'
              rcases List.mem_cons.1 hd' with rfl | hd'
              · rw [hg]
                exact fun hc => hf (Option.some.inj hc).symm
              · exact h1 d' hd'
            · rw [h2, ha.2, if_neg hf]
        · exact .inr ⟨d', by simp [h1], h2⟩
      · cases hm

theorem nodup_map_inj {α β : Type} {g : α → β} : ∀ {l : List α} {a b : α}, (l.map g).Nodup → a ∈ l → b ∈ l → g a = g b → a = b
  | x :: l, a, b, h, ha, hb, he => by
    simp only [List.map_cons, List.nodup_cons] at h
    rcases List.mem_cons.1 ha with rfl | ha' <;> rcases List.mem_cons.1 hb with rfl | hb'
    · rfl
    · exact absurd (List.mem_map.2 ⟨b, hb', he.symm⟩) h.1
    · exact absurd (List.mem_map.2 ⟨a, ha', he⟩) h.1
    · exact nodup_map_inj h.2 ha' hb' he

theorem psGroup_result {fs : List String} {d : FnDecl} {f : String} (hfs : ∀ f ∈ fs, PlainName f)
    (hd : ∃ f ∈ fs, d.name = f ++ "_ps" ∨ ∃ i : Nat, d.name = f ++ "_inv" ++ i.repr) : psGroup d.name = some f → d.name = f ++ "_ps" := by
  intro h
  obtain ⟨g, hg, hn | ⟨i, hn⟩⟩ := hd
  · rw [hn, psGroup_ps (hfs g hg).1 (hfs g hg).2.1] at h
    cases h
    exact hn
  · rw [hn, psGroup_inv (hfs g hg)] at h
    cases h

/-- **C50.**  When `Driver.synthesize` of the Python front end ends normally, the functions that have a synthesised version are those with a
postcondition among the results, and the version is the right side of the equation of that function's own postcondition. -/
theorem C50_own_version_partial (fs : List String) (hfs : ∀ f ∈ fs, PlainName f) (ds : List FnDecl) (hds : ResultsFor fs ds) (fns : Fns)
    (h : recordAllPy (fs.map (fun f => (f, none))) ds = some fns) :
    fns.map Prod.fst = fs ∧ ∀ f ∈ fs, ∀ e, fns.lookup f = some (some e) ↔ VersionOf ds f e := by
  have hnone : ∀ (l : List String) f, f ∈ l → (l.map (fun f => (f, (none : Option Expr)))).lookup f = some none := by
    intro l f hf
    induction l with
    | nil => cases hf
    | cons a l ih =>
      simp only [List.map_cons, List.lookup_cons]
      by_cases ha : f = a
      · simp [ha]
      · simp only [beq_false_of_ne ha]
        exact ih (by simpa [ha] using hf)
  refine ⟨?_, ?_⟩
  · have := (recordAllPy_lookup h "").1
    rw [this, List.map_map]
    simp [Function.comp_def]
  · intro f hf e
    obtain ⟨_, hrec⟩ := recordAllPy_lookup h f
    constructor
    · intro he
      rcases hrec with ⟨_, h2⟩ | ⟨d, hd, hg, t, l, e', hb, h2⟩
      · rw [h2, hnone fs f hf] at he; cases he
      · rw [h2] at he
        cases he
        exact ⟨d, hd, psGroup_result hfs (hds.2 d hd) hg, t, l, hb⟩
    · rintro ⟨d, hd, hn, t, l, hb⟩
      have hg : psGroup d.name = some f := by rw [hn]; exact psGroup_ps (hfs f hf).1 (hfs f hf).2.1
      rcases hrec with ⟨h1, _⟩ | ⟨d', hd', hg', t', l', e', hb', h2⟩
      · exact absurd hg (h1 d hd)
      · have hn' := psGroup_result hfs (hds.2 d' hd') hg'
        have : d' = d := nodup_map_inj hds.1 hd' hd (hn'.trans hn.symm)
        subst this
        rw [hb] at hb'
        cases hb'
        exact h2

theorem assign_some {fns : Fns} {n : String} {e : Expr} (h : n ∈ fns.map Prod.fst) : ∃ fns', fns.assign n e = some fns' := by
  obtain ⟨p, hp, hn⟩ := List.mem_map.1 h
  unfold Fns.assign
  rw [if_pos (List.any_eq_true.2 ⟨p, hp, by simp [hn]⟩)]
  exact ⟨_, rfl⟩

/-- **C50 (errors).**  `Driver.synthesize` of the Python front end raises exactly when some postcondition is not an equation. -/
theorem C50_raises_partial (fs : List String) (hfs : ∀ f ∈ fs, PlainName f) (ds : List FnDecl) (hds : ResultsFor fs ds) :
    recordAllPy (fs.map (fun f => (f, none))) ds = none ↔
      ∃ d ∈ ds, ∃ f ∈ fs, d.name = f ++ "_ps" ∧ ∀ t l e, d.body ≠ some (.node .eq t [l, e]) := by
  have hg : ∀ (ds : List FnDecl), (∀ d ∈ ds, ∃ f ∈ fs, d.name = f ++ "_ps" ∨ ∃ i : Nat, d.name = f ++ "_inv" ++ i.repr) →
      ∀ fns : Fns, fns.map Prod.fst = fs →
      (recordAllPy fns ds = none ↔ ∃ d ∈ ds, ∃ f ∈ fs, d.name = f ++ "_ps" ∧ ∀ t l e, d.body ≠ some (.node .eq t [l, e])) := by
    intro ds
    induction ds with
    | nil => intro _ fns _; simp [recordAllPy]
    | cons d ds ih =>
      intro hds fns hk
      have hds' := fun x hx => hds x (List.mem_cons_of_mem _ hx)
      simp only [recordAllPy, List.foldlM_cons, Option.bind_eq_bind]
      obtain ⟨f, hf, hn | ⟨i, hn⟩⟩ := hds d (by simp)
      · have hps : psGroup d.name = some f := by rw [hn]; exact psGroup_ps (hfs f hf).1 (hfs f hf).2.1
        by_cases hb : ∃ t l e, d.body = some (.node .eq t [l, e])
        · obtain ⟨t, l, e, hb⟩ := hb
          obtain ⟨fns', hfns'⟩ := assign_some (e := e) (hk ▸ hf)
          have hr : recordPy fns d = some fns' := by simp only [recordPy, hps, hb, hfns']
          rw [hr, Option.bind_some]
          refine (ih hds' fns' ((assign_lookup hfns' "").1.trans hk)).trans ?_
          constructor
          · rintro ⟨x, hx, h⟩; exact ⟨x, by simp [hx], h⟩
          · rintro ⟨x, hx, g, hg, hxn, h⟩
            rcases List.mem_cons.1 hx with rfl | hx
            · exact absurd hb (h t l e)
            · exact ⟨x, hx, g, hg, hxn, h⟩
        · have hr : recordPy fns d = none := by
            simp only [recordPy, hps]
            split
            · next t l e h => exact absurd ⟨t, l, e, h⟩ hb
            · rfl
          rw [hr]
          simp only [Option.bind_none, true_iff]
          exact ⟨d, by simp, f, hf, hn, fun t l e h => hb ⟨t, l, e, h⟩⟩
      · have hps : psGroup d.name = none := by rw [hn]; exact psGroup_inv (hfs f hf) i
        have hr : recordPy fns d = some fns := by simp only [recordPy, hps]
        rw [hr, Option.bind_some]
        refine (ih hds' fns hk).trans ?_
        constructor
        · rintro ⟨x, hx, h⟩; exact ⟨x, by simp [hx], h⟩
        · rintro ⟨x, hx, g, hg, hxn, h⟩
          rcases List.mem_cons.1 hx with rfl | hx
          · have := psGroup_ps (hfs g hg).1 (hfs g hg).2.1
            rw [← hxn, hps] at this
            cases this
          · exact ⟨x, hx, g, hg, hxn, h⟩
  exact hg ds hds.2 _ (by rw [List.map_map]; simp [Function.comp_def])

/-- Non-vacuity: two functions, one with an invariant. -/
example : ∃ fns, recordAllPy [("f", none), ("g_p", none)]
    [⟨"f_inv0", .bool, [], some (.node .eq .bool [intLit 1, intLit 2]), true⟩, ⟨"f_ps", .bool, [], some (.node .eq .bool [intLit 1, intLit 3]), true⟩,
      ⟨"g_p_ps", .bool, [], some (.node .eq .bool [intLit 1, intLit 4]), true⟩] = some fns ∧ fns = [("f", some (intLit 3)), ("g_p", some (intLit 4))] :=
  ⟨_, rfl, by decide⟩

/-- With `_ps` inside a name (here `a_ps_b`) C50 is false: the function `a` gets the right side of an invariant of `a_ps_b`, not of its own
postcondition. -/
theorem C50_other_function_refuted : ∃ fs ds fns, (∀ f ∈ fs, f.toList ≠ [] ∧ ∀ c ∈ f.toList, isWord c = true) ∧ ResultsFor fs ds ∧
    recordAllPy (fs.map (fun f => (f, none))) ds = some fns ∧ ∃ f ∈ fs, ∃ e, VersionOf ds f e ∧ fns.lookup f ≠ some (some e) := by
  refine ⟨["a", "a_ps_b"], [⟨"a_ps", .bool, [], some (.node .eq .bool [intLit 1, intLit 2]), true⟩,
    ⟨"a_ps_b_ps", .bool, [], some (.node .eq .bool [intLit 1, intLit 3]), true⟩,
    ⟨"a_ps_b_inv0", .bool, [], some (.node .eq .bool [intLit 1, intLit 4]), true⟩], _, by decide, ⟨by decide, ?_⟩, rfl, "a", by simp, intLit 2, ?_, ?_⟩
  · intro d hd
    simp only [List.mem_cons, List.not_mem_nil, or_false] at hd
    rcases hd with rfl | rfl | rfl
    · exact ⟨"a", by simp, .inl rfl⟩
    · exact ⟨"a_ps_b", by simp, .inl rfl⟩
    · exact ⟨"a_ps_b", by simp, .inr ⟨0, rfl⟩⟩
  · exact ⟨_, List.mem_cons_self .., rfl, _, _, rfl⟩
  · decide

/-- A function with `_ps` inside its name and a loop makes the driver raise although everything was synthesised and verified. -/
theorem C50_key_error_refuted : ∃ fs ds, (∀ f ∈ fs, f.toList ≠ [] ∧ ∀ c ∈ f.toList, isWord c = true) ∧ ResultsFor fs ds ∧
    (∀ d ∈ ds, ∃ t l e, d.body = some (.node .eq t [l, e])) ∧ recordAllPy (fs.map (fun f => (f, none))) ds = none := by
  refine ⟨["a_ps_b"], [⟨"a_ps_b_ps", .bool, [], some (.node .eq .bool [intLit 1, intLit 3]), true⟩,
    ⟨"a_ps_b_inv0", .bool, [], some (.node .eq .bool [intLit 1, intLit 4]), true⟩], by decide, ⟨by decide, ?_⟩, ?_, rfl⟩
  · intro d hd
    simp only [List.mem_cons, List.not_mem_nil, or_false] at hd
    rcases hd with rfl | rfl
    · exact ⟨"a_ps_b", by simp, .inl rfl⟩
    · exact ⟨"a_ps_b", by simp, .inr ⟨0, rfl⟩⟩
  · intro d hd
    simp only [List.mem_cons, List.not_mem_nil, or_false] at hd
    rcases hd with rfl | rfl <;> exact ⟨_, _, _, rfl⟩

/-! ### The LLVM front end -/

/-- `e` is the right side of the equation (of values or of lists) which is the postcondition of `f`. -/
def LlVersionOf (ds : List FnDecl) (f : String) (e : Expr) : Prop :=
  ∃ d ∈ ds, d.name = f ++ "_ps" ∧ ((∃ t l, d.body = some (.node .eq t [l, e])) ∨ ∃ t l r, d.body = some (.node (.call "list_eq") t (l :: e :: r)))

theorem equated_iff {d : FnDecl} {e : Expr} : equated d = some e ↔
    ((∃ t l, d.body = some (.node .eq t [l, e])) ∨ ∃ t l r, d.body = some (.node (.call "list_eq") t (l :: e :: r))) := by
  constructor
  · intro h
    unfold equated at h
    split at h
    · next hb => cases h; exact .inl ⟨_, _, hb⟩
    · next hb =>
      split at h
      · next hf => cases h; exact .inr ⟨_, _, _, by rw [hb, hf]⟩
      · cases h
    · cases h
  · rintro (⟨t, l, hb⟩ | ⟨t, l, r, hb⟩) <;> simp [equated, hb]

theorem recordAllLl_spec (asked : List String) : ∀ {ds : List FnDecl} {st st' : Fns × List FnDecl}, ds.foldlM (recordLl asked) st = some st' →
    (ds.map FnDecl.name).Nodup → (∀ d ∈ ds, ∀ x ∈ st.2, x.name ≠ d.name) → (∀ d ∈ ds, d.name ∈ asked) →
    st'.2 = st.2 ++ ds ∧ st'.1.map Prod.fst = st.1.map Prod.fst ∧ ∀ f,
      ((∀ d ∈ ds, psGroup d.name = some f → equated d = none) ∧ st'.1.lookup f = st.1.lookup f ∨
        ∃ d ∈ ds, psGroup d.name = some f ∧ ∃ e, equated d = some e ∧ st'.1.lookup f = some (some e))
  | [], st, st', h, _, _, _ => by
    simp only [List.foldlM_nil, Option.pure_def, Option.some.injEq] at h
    subst h
    exact ⟨by simp, rfl, fun f => .inl ⟨by simp, rfl⟩⟩
  | d :: ds, st, st', h, hn, hs, ha => by
    simp only [List.foldlM_cons, Option.bind_eq_bind, Option.bind_eq_some_iff] at h
    obtain ⟨m, hm, h⟩ := h
    simp only [List.map_cons, List.nodup_cons] at hn
    have hall : st.2.filter (fun x => x.name != d.name) = st.2 := by
      rw [List.filter_eq_self]
      intro x hx
      simpa using hs d (by simp) x hx
    have hm' : m.2 = st.2 ++ [d] ∧ m.1.map Prod.fst = st.1.map Prod.fst ∧ ∀ f,
        ((psGroup d.name = some f → equated d = none) ∧ m.1.lookup f = st.1.lookup f ∨
          psGroup d.name = some f ∧ ∃ e, equated d = some e ∧ m.1.lookup f = some (some e)) := by
      unfold recordLl at hm
      rw [if_neg (by simpa using ha d (by simp)), hall] at hm
      simp only at hm
      split at hm
      · next n e hg he =>
        obtain ⟨fns, hfns, hm⟩ := Option.map_eq_some_iff.1 hm
        subst hm
        refine ⟨rfl, (assign_lookup hfns "").1, fun f => ?_⟩
        have hl := (assign_lookup hfns f).2
        by_cases hf : f = n
        · subst hf
          exact .inr ⟨hg, e, he, by rw [hl, if_pos rfl]⟩
        · refine .inl ⟨fun hc => ?_, by rw [hl, if_neg hf]⟩
          rw [hg] at hc
          exact absurd (Option.some.inj hc).symm hf
      · next hno =>
        cases hm
        refine ⟨rfl, rfl, fun f => .inl ⟨fun hc => ?_, rfl⟩⟩
        cases he : equated d with
        | none => rfl
        | some e => exact absurd he (hno f e hc)
    obtain ⟨h1, h2, h3⟩ := recordAllLl_spec asked h hn.2 (by
      intro x hx y hy
      rw [hm'.1] at hy
      rcases List.mem_append.1 hy with hy | hy
      · exact hs x (by simp [hx]) y hy
      · simp only [List.mem_singleton] at hy
        subst hy
        intro hc
        exact hn.1 (List.mem_map.2 ⟨x, hx, hc.symm⟩)) (fun x hx => ha x (by simp [hx]))
    refine ⟨by rw [h1, hm'.1]; simp, h2.trans hm'.2.1, fun f => ?_⟩
    rcases h3 f with ⟨h4, h5⟩ | ⟨x, hx, h4⟩
    · rcases hm'.2.2 f with ⟨h6, h7⟩ | ⟨h6, e, h7, h8⟩
      · refine .inl ⟨?_, h5.trans h7⟩
        intro x hx
        rcases List.mem_cons.1 hx with rfl | hx
        · exact h6
        · exact h4 x hx
      · exact .inr ⟨d, by simp, h6, e, h7, h5.trans h8⟩
    · exact .inr ⟨x, by simp [hx], h4⟩

/-- **C50 (LLVM).**  All results are kept in `synthesized_fns`, and each function has as its version the right side of its own postcondition. -/
theorem C50_llvm_own_version_partial (fs : List String) (hfs : ∀ f ∈ fs, PlainName f) (asked : List String) (ds : List FnDecl)
    (hds : ResultsFor fs ds) (hasked : ∀ d ∈ ds, d.name ∈ asked) (fns : Fns) (all : List FnDecl)
    (h : recordAllLl asked (fs.map (fun f => (f, none))) ds = some (fns, all)) :
    all = ds ∧ fns.map Prod.fst = fs ∧ ∀ f ∈ fs, ∀ e, fns.lookup f = some (some e) ↔ LlVersionOf ds f e := by
  obtain ⟨h1, h2, h3⟩ := recordAllLl_spec asked h hds.1 (by simp) hasked
  refine ⟨by simpa using h1, by simp only at h2; rw [h2, List.map_map]; simp [Function.comp_def], ?_⟩
  intro f hf e
  constructor
  · intro he
    rcases h3 f with ⟨_, h5⟩ | ⟨d, hd, hg, e', he', h5⟩
    · simp only at h5
      rw [h5] at he
      have : ∀ l : List String, (l.map (fun f => (f, (none : Option Expr)))).lookup f ≠ some (some e) := by
        intro l
        induction l with
        | nil => simp
        | cons a l ih =>
          simp only [List.map_cons, List.lookup_cons]
          split
          · simp
          · exact ih
      exact absurd he (this fs)
    · simp only at h5
      rw [h5] at he
      cases he
      exact ⟨d, hd, psGroup_result hfs (hds.2 d hd) hg, equated_iff.1 he'⟩
  · rintro ⟨d, hd, hn, hb⟩
    have he := equated_iff.2 hb
    have hg : psGroup d.name = some f := by rw [hn]; exact psGroup_ps (hfs f hf).1 (hfs f hf).2.1
    rcases h3 f with ⟨h4, _⟩ | ⟨d', hd', hg', e', he', h5⟩
    · rw [h4 d hd hg] at he; cases he
    · have hn' := psGroup_result hfs (hds.2 d' hd') hg'
      have : d' = d := nodup_map_inj hds.1 hd' hd (hn'.trans hn.symm)
      subst this
      rw [he] at he'
      cases he'
      exact h5

/-- Unlike the Python front end, the LLVM front end does not raise when a postcondition is not an equation: the function just has no version. -/
theorem C50_llvm_silent_refuted : ∃ fs asked ds fns all, (∀ f ∈ fs, PlainName f) ∧ ResultsFor fs ds ∧ (∀ d ∈ ds, d.name ∈ asked) ∧
    recordAllLl asked (fs.map (fun f => (f, none))) ds = some (fns, all) ∧ ∃ f ∈ fs, (∃ d ∈ ds, d.name = f ++ "_ps") ∧ fns.lookup f = some none := by
  refine ⟨["f"], ["f_ps"], [⟨"f_ps", .bool, [], some (.node .le .bool [intLit 1, intLit 2]), true⟩], _, _, ?_, ⟨by decide, ?_⟩, by simp, rfl,
    "f", by simp, ⟨_, List.mem_cons_self .., rfl⟩, by decide⟩
  · intro f hf
    simp only [List.mem_singleton] at hf
    subst hf
    refine ⟨by decide, by decide, ?_⟩
    rintro ⟨a, b, h⟩
    have := congrArg List.length h
    simp at this
  · intro d hd
    simp only [List.mem_singleton] at hd
    subst hd
    exact ⟨"f", by simp, .inl rfl⟩

/-- **C50 (the function for code generation).**  For one analysed function, `get_actual_ps_fn_decl` turns its postcondition into a function: the
parameters are those of the postcondition without the last, the result has the type of the last, and the body is the right side. -/
theorem C50_actual_ps_partial (f : String) (hf : PlainName f) (ds : List FnDecl) (hds : ResultsFor [f] ds) (d' : FnDecl)
    (h : actualPs ds = some d') : ∃ d ∈ ds, d.name = f ++ "_ps" ∧ ∃ e r, LlVersionOf [d] f e ∧ d.params = d'.params ++ [r] ∧
      d' = { d with ret := r.2, params := d'.params, body := some e } := by
  have hp : ∀ g ∈ [f], PlainName g := by simpa using hf
  replace hds := hds.2
  induction ds with
  | nil => cases h
  | cons d ds ih =>
    unfold actualPs at h
    split at h
    · obtain ⟨x, hx, hrest⟩ := ih h (fun y hy => hds y (by simp [hy]))
      exact ⟨x, by simp [hx], hrest⟩
    · next g hg =>
      simp only [Option.bind_eq_bind, Option.bind_eq_some_iff] at h
      obtain ⟨e, he, r, hr, h⟩ := h
      cases h
      have hn := psGroup_result hp (hds d (by simp)) hg
      obtain ⟨f', hf', hn'⟩ := hds d (by simp)
      simp only [List.mem_singleton] at hf'
      subst hf'
      have hfg : g = f' := by
        rcases hn' with h2 | ⟨i, h2⟩
        · rw [h2, psGroup_ps hf.1 hf.2.1] at hg; exact (Option.some.inj hg).symm
        · rw [h2, psGroup_inv hf] at hg; cases hg
      subst hfg
      refine ⟨d, by simp, hn, e, r, ⟨d, by simp, hn, equated_iff.1 he⟩, ?_, rfl⟩
      obtain ⟨ys, hys⟩ := List.getLast?_eq_some_iff.1 hr
      simp [hys]

/-- With two analysed functions only the first can be had: the version of the second is never returned. -/
theorem C50_actual_ps_second_refuted : ∃ fs ds d', (∀ f ∈ fs, PlainName f) ∧ ResultsFor fs ds ∧ fs.length = ds.length ∧ actualPs ds = some d' ∧
    ∃ f ∈ fs, d'.name ≠ f ++ "_ps" := by
  refine ⟨["f", "g"], [⟨"f_ps", .bool, [("r", .int)], some (.node .eq .bool [.var "r" .int, intLit 2]), true⟩,
    ⟨"g_ps", .bool, [("r", .int)], some (.node .eq .bool [.var "r" .int, intLit 3]), true⟩], _, ?_, ⟨by decide, ?_⟩, rfl, rfl, "g", by simp, by decide⟩
  · intro f hf
    simp only [List.mem_cons, List.not_mem_nil, or_false] at hf
    rcases hf with rfl | rfl <;> refine ⟨by decide, by decide, ?_⟩ <;>
    · rintro ⟨a, b, h⟩
      have := congrArg List.length h
      simp at this
  · intro d hd
    simp only [List.mem_cons, List.not_mem_nil, or_false] at hd
    rcases hd with rfl | rfl
    · exact ⟨"f", by simp, .inl rfl⟩
    · exact ⟨"g", by simp, .inl rfl⟩

end Metalift
