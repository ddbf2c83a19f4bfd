import Verif.PyExprLemmas
/-
Lemmas about the generation of verification conditions for Python functions.
-/
namespace Metalift

/-! ### Dictionaries -/

theorem read_write (vs : SymVars) (x y : String) (e : Expr) :
    (vs.write x e).read y = if y = x then some e else vs.read y := by
  induction vs with
  | nil =>
    by_cases h : y = x
    · simp [SymVars.write, SymVars.read, h]
    · have : (y == x) = false := by simpa using h
      simp [SymVars.write, SymVars.read, List.lookup, h, this]
  | cons p vs ih =>
    obtain ⟨z, f⟩ := p
    simp only [SymVars.write]
    by_cases hz : z = x
    · subst hz
      simp only [if_true, SymVars.read, List.lookup]
      by_cases h : y = z
      · simp [h]
      · have : (y == z) = false := by simpa using h
        simp [h, this]
    · simp only [hz, if_false]
      simp only [SymVars.read, List.lookup] at *
      by_cases h : y = z
      · subst h; simp [hz]
      · have : (y == z) = false := by simpa using h
        simp only [this]
        exact ih

theorem keys_write (vs : SymVars) (x : String) (e : Expr) : ∀ y,
    y ∈ (vs.write x e).map Prod.fst ↔ y = x ∨ y ∈ vs.map Prod.fst := by
  induction vs with
  | nil => intro y; simp [SymVars.write]
  | cons p vs ih =>
    obtain ⟨z, f⟩ := p
    intro y
    simp only [SymVars.write]
    split
    · next h => subst h; simp
    · simp only [List.map_cons, List.mem_cons, ih]
      constructor
      · rintro (h | h | h)
        · exact Or.inr (Or.inl h)
        · exact Or.inl h
        · exact Or.inr (Or.inr h)
      · rintro (h | h | h)
        · exact Or.inr (Or.inl h)
        · exact Or.inl h
        · exact Or.inr (Or.inr h)

theorem nodup_write {vs : SymVars} (h : (vs.map Prod.fst).Nodup) (x : String) (e : Expr) :
    ((vs.write x e).map Prod.fst).Nodup := by
  induction vs with
  | nil => simp [SymVars.write]
  | cons p vs ih =>
    obtain ⟨z, f⟩ := p
    simp only [List.map_cons, List.nodup_cons] at h
    simp only [SymVars.write]
    split
    · next hz => subst hz; simpa using h
    · next hz =>
      simp only [List.map_cons, List.nodup_cons]
      refine ⟨?_, ih h.2⟩
      rw [keys_write]
      rintro (h1 | h1)
      · exact hz h1
      · exact h.1 h1

theorem read_isSome_iff (vs : SymVars) (x : String) :
    (vs.read x).isSome ↔ x ∈ vs.map Prod.fst := by
  induction vs with
  | nil => simp [SymVars.read]
  | cons p vs ih =>
    obtain ⟨z, f⟩ := p
    simp only [SymVars.read, List.lookup] at *
    by_cases h : x = z
    · simp [h]
    · have : (x == z) = false := by simpa using h
      simp only [this, List.map_cons, List.mem_cons, h, false_or]
      exact ih

theorem havoc_read (Γ : String → Ty) (ws : List String) : ∀ (vs : SymVars) (y : String),
    (havoc Γ vs ws).read y = if y ∈ ws then some (.var y (Γ y)) else vs.read y := by
  induction ws with
  | nil => intro vs y; simp [havoc]
  | cons w ws ih =>
    intro vs y
    have : havoc Γ vs (w :: ws) = havoc Γ (vs.write w (.var w (Γ w))) ws := rfl
    rw [this, ih, read_write]
    by_cases h1 : y ∈ ws
    · simp [h1]
    · by_cases h2 : y = w
      · subst h2; simp [h1]
      · simp [h1, h2]

theorem havoc_nodup (Γ : String → Ty) (ws : List String) : ∀ (vs : SymVars),
    (vs.map Prod.fst).Nodup → ((havoc Γ vs ws).map Prod.fst).Nodup := by
  induction ws with
  | nil => intro vs h; exact h
  | cons w ws ih => intro vs h; exact ih _ (nodup_write h _ _)

theorem bindArgs_eq (C : Ctx) (vs : SymVars) : bindArgs C vs = havoc C.types vs C.params := rfl

/-! ### Conjunctions -/

theorem andObjects_holds {I : Interp} {ρ : Env} {l : List Expr} {e : Expr}
    (h : andObjects l = some e) (hl : ∀ x ∈ l, holds I ρ x) : holds I ρ e := by
  unfold andObjects at h
  rw [init_eq_firstOcc] at h
  cases hf : firstOcc [] l with
  | nil => rw [hf] at h; simp [andExprs] at h
  | cons y ys =>
    rw [hf] at h
    simp only [andExprs, Option.some.injEq] at h
    rw [← h, and_fold_holds]
    have hm := fun x (hx : x ∈ y :: ys) => hl x (firstOcc_mem l [] x (hf ▸ hx))
    exact ⟨hm y (by simp), fun x hx => hm x (by simp [hx])⟩

theorem guardBy_holds {I : Interp} {ρ : Env} {pre : List Expr} {e : Expr}
    (hp : ∀ p ∈ pre, holds I ρ p) (h : holds I ρ (guardBy pre e)) : holds I ρ e := by
  unfold guardBy at h
  split at h
  · next p hpe =>
    have hp' := andObjects_holds hpe hp
    simp only [holds, mkImplies, eval, evals, evalOp, Val.asBool_bool] at *
    simpa [hp'] using h
  · exact h

theorem andObjects_closed {P : Expr → Prop} (hP : TrClosed P) {l : List Expr} {e : Expr}
    (h : andObjects l = some e) (hl : ∀ x ∈ l, P x) : P e := by
  unfold andObjects at h
  rw [init_eq_firstOcc] at h
  have hm := fun x (hx : x ∈ firstOcc [] l) => hl x (firstOcc_mem l [] x hx)
  revert h hm
  generalize firstOcc [] l = m
  intro h hm
  cases m with
  | nil => simp [andExprs] at h
  | cons y ys =>
    simp only [andExprs, Option.some.injEq] at h
    have : ∀ (zs : List Expr) (a : Expr), P a → (∀ z ∈ zs, P z) →
        P (zs.foldl (fun r x => mkAnd [r, x]) a) := by
      intro zs
      induction zs with
      | nil => intro a ha _; exact ha
      | cons z zs ih =>
        intro a ha hz
        exact ih _ (hP.node _ _ _ (by simp [ha, hz z])) (fun w hw => hz w (by simp [hw]))
    rw [← h]
    exact this ys y (hm y (by simp)) (fun z hz => hm z (by simp [hz]))

theorem guardBy_closed {P : Expr → Prop} (hP : TrClosed P) {pre : List Expr} {e : Expr}
    (hp : ∀ p ∈ pre, P p) (he : P e) : P (guardBy pre e) := by
  unfold guardBy
  split
  · next p hpe => exact hP.node _ _ _ (by simp [andObjects_closed hP hpe hp, he])
  · exact he

/-! ### Lists of variables -/

theorem readAll_eq {vs : SymVars} {names : List String} {es : List Expr} :
    readAll vs names = some es → ∀ e ∈ es, ∃ x ∈ names, vs.read x = some e := by
  induction names generalizing es with
  | nil => intro h; simp [readAll] at h; simp [h]
  | cons x xs ih =>
    intro h
    simp only [readAll] at h
    split at h
    · next e es' h1 h2 =>
      simp at h; subst h
      intro f hf
      rcases List.mem_cons.1 hf with rfl | hf
      · exact ⟨x, by simp, h1⟩
      · obtain ⟨y, hy, hr⟩ := ih h2 f hf
        exact ⟨y, by simp [hy], hr⟩
    · cases h

theorem readAll_evals {I : Interp} {ρ ρ' : Env} {vs vs' : SymVars} {names : List String}
    {es es' : List Expr} (h : readAll vs names = some es) (h' : readAll vs' names = some es')
    (hx : ∀ x ∈ names, ∀ e e', vs.read x = some e → vs'.read x = some e' →
      eval I ρ e = eval I ρ' e') : evals I ρ es = evals I ρ' es' := by
  induction names generalizing es es' with
  | nil => simp [readAll] at h h'; subst h; subst h'; rfl
  | cons x xs ih =>
    simp only [readAll] at h h'
    split at h
    · next e t h1 h2 =>
      split at h'
      · next e' t' h1' h2' =>
        simp at h h'; subst h; subst h'
        simp only [evals]
        rw [hx x (by simp) e e' h1 h1', ih h2 h2' (fun y hy => hx y (by simp [hy]))]
      · cases h'
    · cases h

/-! ### Merging -/

theorem mergeAsserts_of_ne {acc : List Expr} (h : acc ≠ []) (l : List Expr) :
    mergeAsserts acc l = acc := by
  induction l with
  | nil => rfl
  | cons e es ih =>
    have : acc.isEmpty = false := by cases acc <;> simp_all
    simp [mergeAsserts, this, ih]

theorem mergeAsserts_prefix (acc l : List Expr) : acc <+: mergeAsserts acc l := by
  cases acc with
  | nil => simp
  | cons a as => rw [mergeAsserts_of_ne (by simp)]; simp

theorem mergeAsserts_nil_cons (e : Expr) (l : List Expr) : mergeAsserts [] (e :: l) = [e] := by
  simp [mergeAsserts, mergeAsserts_of_ne]

theorem mergeAsserts_self (l : List Expr) : mergeAsserts l (l ++ l) = l := by
  cases l with
  | nil => rfl
  | cons a as => exact mergeAsserts_of_ne (by simp) _

theorem mergeAsserts_mem {acc l : List Expr} {e : Expr} (h : e ∈ mergeAsserts acc l) :
    e ∈ acc ∨ e ∈ l := by
  cases acc with
  | cons a as => rw [mergeAsserts_of_ne (by simp)] at h; exact Or.inl h
  | nil => cases l with
    | nil => simp [mergeAsserts] at h
    | cons x xs => rw [mergeAsserts_nil_cons] at h; simp at h; simp [h]

theorem mergeVars_read {cond : Expr} {a : SymVars} : ∀ {c acc vs : SymVars},
    (c.map Prod.fst).Nodup → mergeVars cond a acc c = some vs → ∀ x,
      (c.read x = none → vs.read x = acc.read x) ∧
      (∀ ce, c.read x = some ce → ∃ ae m, a.read x = some ae ∧ mergeVal cond ce ae = some m ∧
        vs.read x = some m)
  | [], acc, vs, _, h, x => by
    simp [mergeVars] at h; subst h
    simp [SymVars.read]
  | (v, ce) :: rest, acc, vs, hn, h, x => by
    simp only [List.map_cons, List.nodup_cons] at hn
    simp only [mergeVars] at h
    split at h
    · cases h
    · next ae hae =>
      split at h
      · cases h
      · next m hm =>
        have ih := mergeVars_read hn.2 h x
        by_cases hx : x = v
        · subst hx
          have hrest : SymVars.read rest x = none := by
            cases hr : SymVars.read rest x with
            | none => rfl
            | some e => exact absurd ((read_isSome_iff rest x).1 (by simp [hr])) hn.1
          have hself : SymVars.read ((x, ce) :: rest) x = some ce := by simp [SymVars.read]
          rw [hself]
          refine ⟨by simp, ?_⟩
          intro ce' hce; simp at hce; subst hce
          exact ⟨ae, m, hae, hm, by rw [ih.1 hrest, read_write]; simp⟩
        · have hcons : SymVars.read ((v, ce) :: rest) x = SymVars.read rest x := by
            have : (x == v) = false := by simpa using hx
            simp [SymVars.read, List.lookup, this]
          rw [hcons]
          refine ⟨fun hr => ?_, ih.2⟩
          rw [ih.1 hr, read_write]; simp [hx]

theorem mergeVars_nodup {cond : Expr} {a : SymVars} : ∀ {c acc vs : SymVars},
    (acc.map Prod.fst).Nodup → mergeVars cond a acc c = some vs → (vs.map Prod.fst).Nodup
  | [], acc, vs, hn, h => by simp [mergeVars] at h; subst h; exact hn
  | (v, ce) :: rest, acc, vs, hn, h => by
    simp only [mergeVars] at h
    split at h
    · cases h
    · split at h
      · cases h
      · exact mergeVars_nodup (nodup_write hn _ _) h

theorem mergeVal_cases {cond c a m : Expr} (h : mergeVal cond c a = some m) :
    (m = mkIte c.ty cond c a ∧ a.ty = c.ty) ∨
    (m = c ∧ ((∃ t, c.ty = .list t) ∨ (∃ t, c.ty = .set t) ∨ c.pyEq a = true)) := by
  unfold mergeVal at h
  split at h
  · split at h
    · next h' => simp at h; exact Or.inl ⟨h.symm, h'⟩
    · cases h
  · split at h
    · next h' => simp at h; exact Or.inl ⟨h.symm, h'⟩
    · cases h
  · next t ht => simp at h; exact Or.inr ⟨h.symm, Or.inl ⟨t, ht⟩⟩
  · next t ht => simp at h; exact Or.inr ⟨h.symm, Or.inr (Or.inl ⟨t, ht⟩)⟩
  · split at h
    · next h' => simp at h; exact Or.inr ⟨h.symm, Or.inr (Or.inr h')⟩
    · split at h
      · next h' => simp at h; exact Or.inl ⟨h.symm, h'⟩
      · cases h

/-! ### What every visit does -/

/-- Obligations are only appended, `has_returned` is never reset. -/
theorem visit_mono (C : Ctx) : ∀ (st : Stmt) {σ σ' : PState}, visit C st σ = some σ' →
    σ.asserts <+: σ'.asserts ∧ (σ.hasReturned = true → σ'.hasReturned = true)
  | .skip, σ, σ', h => by simp [visit] at h; subst h; simp
  | .seq a b, σ, σ', h => by
    simp only [visit] at h
    split at h
    · next σ1 h1 =>
      have ha := visit_mono C a h1
      have hb := visit_mono C b h
      exact ⟨ha.1.trans hb.1, fun hr => hb.2 (ha.2 hr)⟩
    · cases h
  | .assign x e, σ, σ', h => by
    simp only [visit] at h
    split at h
    · simp at h; subst h; simp
    · cases h
  | .append x e, σ, σ', h => by
    simp only [visit] at h
    split at h
    · split at h
      · simp at h; subst h; simp
      · cases h
    · cases h
  | .setAdd x e, σ, σ', h => by
    simp only [visit] at h
    split at h
    · simp at h; subst h; simp
    · cases h
  | .setRemove x e, σ, σ', h => by
    simp only [visit] at h
    split at h
    · simp at h; subst h; simp
    · cases h
  | .ret e, σ, σ', h => by
    simp only [visit] at h
    split at h
    · simp at h; subst h; simp
    · cases h
  | .ite c t e, σ, σ', h => by
    simp only [visit] at h
    split at h
    · cases h
    · split at h
      · cases h
      · split at h
        · next cs as hcs has =>
          have h1 := (visit_mono C t hcs).2
          have h2 := (visit_mono C e has).2
          split at h
          · simp at h; subst h; exact ⟨mergeAsserts_prefix _ _, id⟩
          · split at h
            · simp at h; subst h; exact ⟨mergeAsserts_prefix _ _, id⟩
            · split at h
              · simp at h; subst h; exact ⟨mergeAsserts_prefix _ _, id⟩
              · split at h
                · cases h
                · split at h
                  · simp at h; subst h; exact ⟨mergeAsserts_prefix _ _, id⟩
                  · cases h
        · cases h
  | .loop l c b, σ, σ', h => by
    simp only [visit] at h
    split at h
    · cases h
    · split at h
      · split at h
        · cases h
        · split at h
          · simp at h; subst h; simp
          · cases h
      · cases h

theorem read_mem {vs : SymVars} {x : String} {e : Expr} (h : vs.read x = some e) : (x, e) ∈ vs := by
  induction vs with
  | nil => simp [SymVars.read] at h
  | cons p vs ih =>
    obtain ⟨z, f⟩ := p
    simp only [SymVars.read, List.lookup] at *
    by_cases hx : x = z
    · subst hx; simp at h; simp [h]
    · have : (x == z) = false := by simpa using hx
      simp only [this] at h
      exact List.mem_cons_of_mem _ (ih h)

theorem mem_write {vs : SymVars} {x : String} {e : Expr} {q : String × Expr}
    (h : q ∈ vs.write x e) : q = (x, e) ∨ q ∈ vs := by
  induction vs with
  | nil => simp [SymVars.write] at h; exact Or.inl h
  | cons p vs ih =>
    obtain ⟨z, f⟩ := p
    simp only [SymVars.write] at h
    split at h
    · rcases List.mem_cons.1 h with h | h
      · exact Or.inl h
      · exact Or.inr (List.mem_cons_of_mem _ h)
    · rcases List.mem_cons.1 h with h | h
      · exact Or.inr (by simp [h])
      · rcases ih h with h | h
        · exact Or.inl h
        · exact Or.inr (List.mem_cons_of_mem _ h)

theorem mem_havoc {Γ : String → Ty} {q : String × Expr} : ∀ {ws : List String} {vs : SymVars},
    q ∈ havoc Γ vs ws → (∃ w, q = (w, .var w (Γ w))) ∨ q ∈ vs
  | [], vs, h => Or.inr h
  | w :: ws, vs, h => by
    have : havoc Γ vs (w :: ws) = havoc Γ (vs.write w (.var w (Γ w))) ws := rfl
    rw [this] at h
    rcases mem_havoc h with h | h
    · exact Or.inl h
    · rcases mem_write h with h | h
      · exact Or.inl ⟨w, h⟩
      · exact Or.inr h

/-- A property of expressions that holds for all symbols and literals and is preserved by
composite expressions is an invariant of the symbolic state. -/
theorem visit_closed {P : Expr → Prop} (hP : TrClosed P) (hvar : ∀ x t, P (.var x t)) (C : Ctx) :
    ∀ (st : Stmt) {σ σ' : PState}, visit C st σ = some σ' →
    (∀ q ∈ σ.vars, P q.2) → (∀ p ∈ σ.precond, P p) → (∀ p ∈ σ.asserts, P p) →
    (∀ q ∈ σ'.vars, P q.2) ∧ (∀ p ∈ σ'.precond, P p) ∧ (∀ p ∈ σ'.asserts, P p)
  | .skip, σ, σ', h, h1, h2, h3 => by simp [visit] at h; subst h; exact ⟨h1, h2, h3⟩
  | .seq a b, σ, σ', h, h1, h2, h3 => by
    simp only [visit] at h
    split at h
    · next σ1 ha =>
      obtain ⟨g1, g2, g3⟩ := visit_closed hP hvar C a ha h1 h2 h3
      exact visit_closed hP hvar C b h g1 g2 g3
    · cases h
  | .assign x e, σ, σ', h, h1, h2, h3 => by
    have h1r : ∀ x e, σ.vars.read x = some e → P e := fun x e h => h1 _ (read_mem h)
    simp only [visit] at h
    split at h
    · next e' he =>
      simp at h; subst h
      refine ⟨fun q hq => ?_, h2, h3⟩
      rcases mem_write hq with rfl | hq
      · exact tr_closed hP h1r e he
      · exact h1 q hq
    · cases h
  | .append x e, σ, σ', h, h1, h2, h3 => by
    have h1r : ∀ x e, σ.vars.read x = some e → P e := fun x e h => h1 _ (read_mem h)
    simp only [visit] at h
    split at h
    · next y t e' hr he =>
      split at h
      · simp at h; subst h
        refine ⟨fun q hq => ?_, h2, h3⟩
        rcases mem_write hq with rfl | hq
        · exact hP.node _ _ _ (by simp [hvar, tr_closed hP h1r e he])
        · exact h1 q hq
      · cases h
    · cases h
  | .setAdd x e, σ, σ', h, h1, h2, h3 => by
    have h1r : ∀ x e, σ.vars.read x = some e → P e := fun x e h => h1 _ (read_mem h)
    simp only [visit] at h
    split at h
    · next y t e' hr he =>
      simp at h; subst h
      refine ⟨fun q hq => ?_, h2, h3⟩
      rcases mem_write hq with rfl | hq
      · refine hP.node _ _ _ (fun w hw => ?_)
        simp at hw
        rcases hw with rfl | rfl
        · exact hvar _ _
        · exact hP.node _ _ _ (by simpa using tr_closed hP h1r e he)
      · exact h1 q hq
    · cases h
  | .setRemove x e, σ, σ', h, h1, h2, h3 => by
    have h1r : ∀ x e, σ.vars.read x = some e → P e := fun x e h => h1 _ (read_mem h)
    simp only [visit] at h
    split at h
    · next y t e' hr he =>
      simp at h; subst h
      refine ⟨fun q hq => ?_, h2, h3⟩
      rcases mem_write hq with rfl | hq
      · refine hP.node _ _ _ (fun w hw => ?_)
        simp at hw
        rcases hw with rfl | rfl
        · exact hvar _ _
        · exact hP.node _ _ _ (by simpa using tr_closed hP h1r e he)
      · exact h1 q hq
    · cases h
  | .ret e, σ, σ', h, h1, h2, h3 => by
    have h1r : ∀ x e, σ.vars.read x = some e → P e := fun x e h => h1 _ (read_mem h)
    simp only [visit] at h
    split at h
    · next e' he =>
      simp at h; subst h
      refine ⟨h1, h2, fun p hp => ?_⟩
      simp at hp
      rcases hp with hp | rfl
      · exact h3 p hp
      · refine guardBy_closed hP h2 (hP.node _ _ _ (fun w hw => ?_))
        simp only [Ctx.argExprs, List.mem_append, List.mem_map, List.mem_singleton] at hw
        rcases hw with ⟨y, _, rfl⟩ | rfl
        · exact hvar _ _
        · exact tr_closed hP h1r e he
    · cases h
  | .ite c t e, σ, σ', h, h1, h2, h3 => by
    have h1r : ∀ x e, σ.vars.read x = some e → P e := fun x e h => h1 _ (read_mem h)
    simp only [visit] at h
    split at h
    · cases h
    · next cond hc =>
      split at h
      · cases h
      · have hcond := tr_closed hP h1r c hc
        split at h
        · next cs as hcs has =>
          obtain ⟨c1, _, c3⟩ := visit_closed hP hvar C t hcs h1 (by
            intro p hp; simp at hp
            rcases hp with hp | rfl
            · exact h2 p hp
            · exact hcond) h3
          obtain ⟨a1, _, a3⟩ := visit_closed hP hvar C e has h1 (by
            intro p hp; simp at hp
            rcases hp with hp | rfl
            · exact h2 p hp
            · exact hP.node _ _ _ (by simpa using hcond)) h3
          have hm : ∀ p ∈ mergeAsserts σ.asserts (cs.asserts ++ as.asserts), P p := by
            intro p hp
            rcases mergeAsserts_mem hp with hp | hp
            · exact h3 p hp
            · rcases List.mem_append.1 hp with hp | hp
              · exact c3 p hp
              · exact a3 p hp
          split at h
          · simp at h; subst h; exact ⟨h1, h2, hm⟩
          · split at h
            · simp at h; subst h; exact ⟨a1, h2, hm⟩
            · split at h
              · simp at h; subst h; exact ⟨c1, h2, hm⟩
              · split at h
                · cases h
                · split at h
                  · next vs hvs =>
                    simp at h; subst h
                    refine ⟨?_, h2, hm⟩
                    have key : ∀ (c acc vs : SymVars), mergeVars cond as.vars acc c = some vs →
                        (∀ q ∈ acc, P q.2) → (∀ q ∈ c, P q.2) → ∀ q ∈ vs, P q.2 := by
                      intro c
                      induction c with
                      | nil => intro acc vs hh ha _; simp [mergeVars] at hh; subst hh; exact ha
                      | cons q rest ih =>
                        obtain ⟨v, ce⟩ := q
                        intro acc vs hh ha hq
                        simp only [mergeVars] at hh
                        split at hh
                        · cases hh
                        · next ae hae =>
                          split at hh
                          · cases hh
                          · next m hm =>
                            refine ih _ _ hh ?_ (fun q hq' => hq q (by simp [hq']))
                            intro q hqm
                            rcases mem_write hqm with rfl | hqm
                            · have hce : P ce := hq (v, ce) (by simp)
                              rcases mergeVal_cases hm with ⟨rfl, _⟩ | ⟨rfl, _⟩
                              · exact hP.node _ _ _ (by simp [hcond, hce, a1 _ (read_mem hae)])
                              · exact hce
                            · exact ha q hqm
                    exact key cs.vars σ.vars vs hvs h1 c1
                  · cases h
        · cases h
  | .loop l c b, σ, σ', h, h1, h2, h3 => by
    simp only [visit] at h
    split at h
    · cases h
    · next vals0 hv0 =>
      have hvars1 : ∀ q ∈ havoc C.types σ.vars b.writes, P q.2 := by
        intro q hq
        rcases mem_havoc hq with ⟨w, rfl⟩ | hq
        · exact hvar _ _
        · exact h1 q hq
      have hread : ∀ {vs : SymVars} {names es}, (∀ q ∈ vs, P q.2) → readAll vs names = some es →
          P (mkCall (C.inv l) .bool es) := by
        intro vs names es hvs he
        refine hP.node _ _ _ (fun e hee => ?_)
        obtain ⟨x, _, hx⟩ := readAll_eq he e hee
        exact hvs _ (read_mem hx)
      have ha1 : ∀ p ∈ σ.asserts ++ [guardBy σ.precond (mkCall (C.inv l) .bool vals0)], P p := by
        intro p hp; simp at hp
        rcases hp with hp | rfl
        · exact h3 p hp
        · exact guardBy_closed hP h2 (hread h1 hv0)
      split at h
      · next body cond vals1 hb hc hv1 =>
        have hcond := tr_closed hP (fun x e h => hvars1 _ (read_mem h)) c hc
        have hi1 := hread hvars1 hv1
        obtain ⟨b1, _, _⟩ := visit_closed hP hvar C b hb hvars1 h2 ha1
        split at h
        · cases h
        · split at h
          · next vals2 pre post hv2 hpre hpost =>
            simp at h; subst h
            refine ⟨hvars1, ?_, ?_⟩
            · intro p hp
              rcases List.mem_append.1 hp with hp | hp
              · exact h2 p hp
              · simp at hp; subst hp
                refine andObjects_closed hP hpost (fun w hw => ?_)
                simp at hw
                rcases hw with rfl | rfl
                · exact hP.node _ _ _ (by simpa using hcond)
                · exact hi1
            · intro p hp
              have : p ∈ (σ.asserts ++ [guardBy σ.precond (mkCall (C.inv l) .bool vals0)]) ++
                  [mkImplies pre (mkCall (C.inv l) .bool vals2)] := by simpa using hp
              rcases List.mem_append.1 this with hp | hp
              · exact ha1 p hp
              · simp at hp; subst hp
                refine hP.node _ _ _ (fun w hw => ?_)
                simp at hw
                rcases hw with rfl | rfl
                · refine andObjects_closed hP hpre (fun w hw => ?_)
                  simp at hw
                  rcases hw with hw | rfl | rfl
                  · exact h2 w hw
                  · exact hcond
                  · exact hi1
                · exact hread b1 hv2
          · cases h
      · cases h

end Metalift
