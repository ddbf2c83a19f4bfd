import Verif.Simplify
import Std.Data.String.ToNat
/-
Lemmas about the model in `Verif.Simplify`.
-/
namespace Metalift

/-! ### Python equality -/

theorem Lit.pyEq_refl (a : Lit) : a.pyEq a = true := by cases a <;> simp [Lit.pyEq]

theorem Lit.pyEq_symm {a b : Lit} (h : a.pyEq b = true) : b.pyEq a = true := by
  cases a <;> cases b <;> simp_all [Lit.pyEq]

theorem Lit.pyEq_trans {a b c : Lit} (h : a.pyEq b = true) (h' : b.pyEq c = true) :
    a.pyEq c = true := by
  cases a <;> cases b <;> cases c <;> simp only [Lit.pyEq, decide_eq_true_eq] at h h' ⊢
  all_goals first
    | (rename_i x y z; cases x <;> cases z <;> simp_all; done)
    | simp_all

theorem Expr.pyEqs_refl {es : List Expr} (h : ∀ e ∈ es, e.pyEq e = true) : Expr.pyEqs es es = true := by
  induction es with
  | nil => rfl
  | cons e es ih =>
    simp only [Expr.pyEqs, Bool.and_eq_true]
    exact ⟨h e (by simp), ih (fun x hx => h x (by simp [hx]))⟩

theorem Expr.pyEq_refl (e : Expr) : e.pyEq e = true := by
  induction e using Expr.ind with
  | hv n t => simp [Expr.pyEq]
  | hl l => simp [Expr.pyEq, Lit.pyEq_refl]
  | hn op t args ih => simp [Expr.pyEq, Expr.pyEqs_refl ih]

mutual
theorem Expr.pyEq_symm : ∀ a b : Expr, a.pyEq b = true → b.pyEq a = true
  | .var _ _, b, h => by cases b <;> simp_all [Expr.pyEq]
  | .lit _, b, h => by
    cases b <;> simp_all [Expr.pyEq]
    exact Lit.pyEq_symm h
  | .node _ _ as, b, h => by
    cases b <;> simp_all [Expr.pyEq]
    exact Expr.pyEqs_symm as _ h.2
theorem Expr.pyEqs_symm : ∀ a b : List Expr, Expr.pyEqs a b = true → Expr.pyEqs b a = true
  | [], b, h => by cases b <;> simp_all [Expr.pyEqs]
  | a :: as, [], h => by simp [Expr.pyEqs] at h
  | a :: as, b :: bs, h => by
    simp only [Expr.pyEqs, Bool.and_eq_true] at *
    exact ⟨Expr.pyEq_symm a b h.1, Expr.pyEqs_symm as bs h.2⟩
end

mutual
theorem Expr.pyEq_trans : ∀ a b c : Expr, a.pyEq b = true → b.pyEq c = true → a.pyEq c = true
  | .var _ _, b, c, h, h' => by cases b <;> cases c <;> simp_all [Expr.pyEq]
  | .lit _, b, c, h, h' => by
    cases b <;> cases c <;> simp_all [Expr.pyEq]
    exact Lit.pyEq_trans h h'
  | .node _ _ as, b, c, h, h' => by
    cases b <;> cases c <;> simp only [Expr.pyEq, Bool.and_eq_true, decide_eq_true_eq] at h h' ⊢
    all_goals first
      | contradiction
      | exact ⟨h.1.trans h'.1, Expr.pyEqs_trans as _ _ h.2 h'.2⟩
theorem Expr.pyEqs_trans : ∀ a b c : List Expr,
    Expr.pyEqs a b = true → Expr.pyEqs b c = true → Expr.pyEqs a c = true
  | [], b, c, h, h' => by cases b <;> cases c <;> simp_all [Expr.pyEqs]
  | a :: as, [], _, h, _ => by simp [Expr.pyEqs] at h
  | a :: as, b :: bs, [], _, h' => by simp [Expr.pyEqs] at h'
  | a :: as, b :: bs, c :: cs, h, h' => by
    simp only [Expr.pyEqs, Bool.and_eq_true] at *
    exact ⟨Expr.pyEq_trans a b c h.1 h'.1, Expr.pyEqs_trans as bs cs h.2 h'.2⟩
end

/-! ### simplify -/

theorem Expr.simplifys_eq_map (es : List Expr) : Expr.simplifys es = es.map Expr.simplify := by
  induction es with
  | nil => rfl
  | cons e es ih => simp [Expr.simplifys, ih]

theorem andFilter_eval (I : Interp) (ρ : Env) : ∀ es : List Expr,
    match andFilter es with
    | none => (es.map (eval I ρ)).all Val.asBool = false
    | some fs => (es.map (eval I ρ)).all Val.asBool = (fs.map (eval I ρ)).all Val.asBool ∧
        ∀ f ∈ fs, f ∈ es
  | [] => by simp [andFilter]
  | .lit l :: rest => by
    have ih := andFilter_eval I ρ rest
    simp only [andFilter]
    by_cases hl : l.eqFalse = true
    · simp only [hl, if_true, List.map_cons, List.all_cons, eval]
      cases l <;> simp_all [Lit.eqFalse, Lit.val, Val.asBool]
    · simp only [hl]
      have hT : (eval I ρ (.lit l)).asBool = true := by
        cases l <;> simp_all [Lit.eqFalse, Lit.val, Val.asBool, eval]
      cases h : andFilter rest <;> simp_all
  | .var n t :: rest => by
    have ih := andFilter_eval I ρ rest
    simp only [andFilter]
    cases h : andFilter rest <;> simp_all
  | .node o t as :: rest => by
    have ih := andFilter_eval I ρ rest
    simp only [andFilter]
    cases h : andFilter rest <;> simp_all

theorem andFilter_sub : ∀ (es fs : List Expr), andFilter es = some fs → ∀ f ∈ fs, f ∈ es
  | [], fs, h => by simp [andFilter] at h; simp [h]
  | .lit l :: rest, fs, h => by
    simp only [andFilter] at h
    split at h
    · cases h
    · intro f hf; exact List.mem_cons_of_mem _ (andFilter_sub rest fs h f hf)
  | .var n t :: rest, fs, h => by
    simp only [andFilter, Option.map_eq_some_iff] at h
    obtain ⟨gs, hg, rfl⟩ := h
    intro f hf
    rcases List.mem_cons.1 hf with hf | hf
    · simp [hf]
    · exact List.mem_cons_of_mem _ (andFilter_sub rest gs hg f hf)
  | .node o t as :: rest, fs, h => by
    simp only [andFilter, Option.map_eq_some_iff] at h
    obtain ⟨gs, hg, rfl⟩ := h
    intro f hf
    rcases List.mem_cons.1 hf with hf | hf
    · simp [hf]
    · exact List.mem_cons_of_mem _ (andFilter_sub rest gs hg f hf)

theorem simplifyTop_WT {S : Sig} {op : Op} {t : Ty} {args : List Expr}
    (h : (Expr.node op t args).WT S) :
    (simplifyTop op t args).WT S ∧ (simplifyTop op t args).ty = t := by
  unfold simplifyTop
  split
  · have hw := Expr.WT_node.1 h
    obtain ⟨hargs, ho⟩ := hw
    simp only [Op.WT] at ho
    obtain ⟨rfl, hne, hb⟩ := ho
    have hty : ∀ a ∈ args, a.ty = .bool := fun a ha => hb _ (List.mem_map_of_mem ha)
    split
    · simp [boolLit, Expr.WT, Expr.ty]
    · simp [boolLit, Expr.WT, Expr.ty]
    · next e hf =>
      have hm := andFilter_sub _ _ hf e (by simp)
      exact ⟨hargs e hm, hty e hm⟩
    · next es hn1 hn2 hf =>
      have k2 := andFilter_sub _ _ hf
      refine ⟨?_, rfl⟩
      rw [mkAnd, Expr.WT_node]
      refine ⟨fun e he => hargs e (k2 e he), rfl, ?_, ?_⟩
      · simp only [ne_eq, List.map_eq_nil_iff]; exact hn1
      · intro x hx
        obtain ⟨a, ha, rfl⟩ := List.mem_map.1 hx
        exact hty a (k2 a ha)
  · exact ⟨h, rfl⟩

theorem simplifyTop_eval {S : Sig} {I : Interp} {ρ : Env} (hI : I.Ok S) (hρ : ρ.Ok S)
    {op : Op} {t : Ty} {args : List Expr} (h : (Expr.node op t args).WT S) :
    eval I ρ (simplifyTop op t args) = eval I ρ (.node op t args) := by
  unfold simplifyTop
  split
  · have hw := Expr.WT_node.1 h
    obtain ⟨hargs, ho⟩ := hw
    simp only [Op.WT] at ho
    obtain ⟨rfl, hne, hb⟩ := ho
    have key := andFilter_eval I ρ args
    have hty : ∀ a ∈ args, a.ty = .bool := fun a ha => hb _ (List.mem_map_of_mem ha)
    simp only [eval, evals_eq_map, evalOp]
    split
    · next hf => rw [hf] at key; simp [boolLit, eval, Lit.val, key]
    · next hf => rw [hf] at key; simp [boolLit, eval, Lit.val, key]
    · next e hf =>
      rw [hf] at key
      obtain ⟨k1, k2⟩ := key
      have hm := k2 e (by simp)
      have hk := eval_kind hI hρ e (hargs e hm)
      rw [hty e hm] at hk
      rw [k1]; simpa using hk.eq_asBool
    · next es hn1 hn2 hf =>
      rw [hf] at key
      simp only [mkAnd, eval, evals_eq_map, evalOp, key.1]
  · rfl

/-- Simplification keeps typing. -/
theorem simplify_WT {S : Sig} : ∀ e : Expr, e.WT S → e.simplify.WT S ∧ e.simplify.ty = e.ty := by
  intro e
  induction e using Expr.ind with
  | hv n t => intro h; exact ⟨h, rfl⟩
  | hl l => intro h; exact ⟨h, rfl⟩
  | hn op t args ih =>
    intro h
    have hw := Expr.WT_node.1 h
    simp only [Expr.simplify, Expr.simplifys_eq_map]
    have e1 : (args.map Expr.simplify).map Expr.ty = args.map Expr.ty := by
      rw [List.map_map]
      exact List.map_congr_left (fun a ha => (ih a ha (hw.1 a ha)).2)
    apply simplifyTop_WT
    rw [Expr.WT_node, e1]
    refine ⟨?_, hw.2⟩
    intro x hx
    obtain ⟨a, ha, rfl⟩ := List.mem_map.1 hx
    exact (ih a ha (hw.1 a ha)).1

/-- Simplification keeps the value. -/
theorem simplify_eval {S : Sig} {I : Interp} {ρ : Env} (hI : I.Ok S) (hρ : ρ.Ok S) :
    ∀ e : Expr, e.WT S → eval I ρ e.simplify = eval I ρ e := by
  intro e
  induction e using Expr.ind with
  | hv n t => intro h; rfl
  | hl l => intro h; rfl
  | hn op t args ih =>
    intro h
    have hw := Expr.WT_node.1 h
    simp only [Expr.simplify, Expr.simplifys_eq_map]
    have e1 : (args.map Expr.simplify).map Expr.ty = args.map Expr.ty := by
      rw [List.map_map]
      exact List.map_congr_left (fun a ha => (simplify_WT a (hw.1 a ha)).2)
    have e2 : (args.map Expr.simplify).map (eval I ρ) = args.map (eval I ρ) := by
      rw [List.map_map]
      exact List.map_congr_left (fun a ha => ih a ha (hw.1 a ha))
    have h' : (Expr.node op t (args.map Expr.simplify)).WT S := by
      rw [Expr.WT_node, e1]
      refine ⟨?_, hw.2⟩
      intro x hx
      obtain ⟨a, ha, rfl⟩ := List.mem_map.1 hx
      exact (simplify_WT a (hw.1 a ha)).1
    rw [simplifyTop_eval hI hρ h']
    simp only [eval, evals_eq_map, e2]

theorem simplifyTop_vars (op : Op) (t : Ty) (args : List Expr) :
    ∀ x ∈ (simplifyTop op t args).vars, x ∈ Expr.varss args := by
  unfold simplifyTop
  split
  · split
    · simp [boolLit, Expr.vars]
    · simp [boolLit, Expr.vars]
    · next e hf =>
      intro x hx
      exact Expr.mem_varss.2 ⟨e, andFilter_sub _ _ hf e (by simp), hx⟩
    · next es _ _ hf =>
      intro x hx
      simp only [mkAnd, Expr.vars] at hx
      obtain ⟨e, he, hx⟩ := Expr.mem_varss.1 hx
      exact Expr.mem_varss.2 ⟨e, andFilter_sub _ _ hf e he, hx⟩
  · intro x hx; simpa [Expr.vars] using hx

/-- Simplification introduces no variables. -/
theorem simplify_vars : ∀ e : Expr, ∀ x ∈ e.simplify.vars, x ∈ e.vars := by
  intro e
  induction e using Expr.ind with
  | hv n t => intro x hx; exact hx
  | hl l => intro x hx; exact hx
  | hn op t args ih =>
    intro x hx
    simp only [Expr.simplify] at hx
    have h1 := simplifyTop_vars _ _ _ x hx
    rw [Expr.simplifys_eq_map, Expr.mem_varss] at h1
    obtain ⟨e, he, hx⟩ := h1
    obtain ⟨a, ha, rfl⟩ := List.mem_map.1 he
    exact Expr.mem_varss.2 ⟨a, ha, ih a ha x hx⟩

/-! ### rewriting -/

theorem Expr.rewrites_eq_map (m : Dict) (es : List Expr) :
    Expr.rewrites m es = es.map (Expr.rewrite m) := by
  induction es with
  | nil => rfl
  | cons e es ih => simp [Expr.rewrites, ih]

/-- If every rewritten variable has, in `ρ`, the value of what replaces it, rewriting keeps the
value. -/
theorem rewrite_eval (I : Interp) (ρ : Env) (m : Dict)
    (hm : ∀ x t, m.lookup x = some t → eval I ρ t = ρ x) (e : Expr) :
    eval I ρ (e.rewrite m) = eval I ρ e := by
  induction e using Expr.ind with
  | hv n t =>
    simp only [Expr.rewrite]
    cases h : m.lookup n with
    | none => rfl
    | some u => simpa [eval] using hm n u h
  | hl l => rfl
  | hn op t args ih =>
    simp only [Expr.rewrite, eval, evals_eq_map, Expr.rewrites_eq_map, List.map_map]
    congr 1
    exact List.map_congr_left (fun a ha => ih a ha)

theorem rewrite_vars (m : Dict) (V : String → Prop)
    (hm : ∀ x t, m.lookup x = some t → ∀ y ∈ t.vars, V y) (e : Expr) :
    (∀ y ∈ e.vars, V y) → ∀ y ∈ (e.rewrite m).vars, V y := by
  induction e using Expr.ind with
  | hv n t =>
    intro h y hy
    simp only [Expr.rewrite] at hy
    cases hl : m.lookup n with
    | none => rw [hl] at hy; exact h y hy
    | some u => rw [hl] at hy; exact hm n u hl y hy
  | hl l => intro h y hy; exact h y hy
  | hn op t args ih =>
    intro h y hy
    simp only [Expr.rewrite, Expr.vars, Expr.rewrites_eq_map] at hy
    obtain ⟨e, he, hy⟩ := Expr.mem_varss.1 hy
    obtain ⟨a, ha, rfl⟩ := List.mem_map.1 he
    exact ih a ha (fun z hz => h z (Expr.mem_varss.2 ⟨a, ha, hz⟩)) y hy

theorem rewrite_WT {S : Sig} (m : Dict)
    (hm : ∀ x t, m.lookup x = some t → t.WT S ∧ t.ty = S.var x) (e : Expr) :
    e.WT S → (e.rewrite m).WT S ∧ (e.rewrite m).ty = e.ty := by
  induction e using Expr.ind with
  | hv n t =>
    intro h
    simp only [Expr.rewrite]
    cases hl : m.lookup n with
    | none => exact ⟨h, rfl⟩
    | some u =>
      have := hm n u hl
      rw [Expr.WT] at h
      exact ⟨this.1, this.2.trans h.symm⟩
  | hl l => intro h; exact ⟨h, rfl⟩
  | hn op t args ih =>
    intro h
    have hw := Expr.WT_node.1 h
    simp only [Expr.rewrite, Expr.rewrites_eq_map]
    have e1 : (args.map (Expr.rewrite m)).map Expr.ty = args.map Expr.ty := by
      rw [List.map_map]
      exact List.map_congr_left (fun a ha => (ih a ha (hw.1 a ha)).2)
    refine ⟨?_, rfl⟩
    rw [Expr.WT_node, e1]
    refine ⟨?_, hw.2⟩
    intro x hx
    obtain ⟨a, ha, rfl⟩ := List.mem_map.1 hx
    exact (ih a ha (hw.1 a ha)).1

/-! ### collected equations -/

mutual
/-- `Conj e a b`: the equation `a = b` is a conjunct of `e`. -/
def Expr.Conj (a b : Expr) : Expr → Prop
  | .var _ _ => False
  | .lit _ => False
  | .node op _ args =>
    match op with
    | .eq => args = [a, b]
    | .and => Expr.Conjs a b args
    | _ => False
def Expr.Conjs (a b : Expr) : List Expr → Prop
  | [] => False
  | e :: es => Expr.Conj a b e ∨ Expr.Conjs a b es
end

theorem Expr.Conjs_iff {a b : Expr} {es : List Expr} :
    Expr.Conjs a b es ↔ ∃ e ∈ es, Expr.Conj a b e := by
  induction es with
  | nil => simp [Expr.Conjs]
  | cons e es ih => simp [Expr.Conjs, ih]

theorem conj_holds (I : Interp) (ρ : Env) (a b : Expr) : ∀ e : Expr, Expr.Conj a b e →
    holds I ρ e → eval I ρ a = eval I ρ b := by
  intro e
  induction e using Expr.ind with
  | hv n t => intro h; simp [Expr.Conj] at h
  | hl l => intro h; simp [Expr.Conj] at h
  | hn op t args ih =>
    intro h he
    cases op <;> simp only [Expr.Conj] at h
    · subst h
      simpa [holds, eval, evals, evalOp, Val.asBool] using he
    · obtain ⟨x, hx, hc⟩ := Expr.Conjs_iff.1 h
      apply ih x hx hc
      simp only [holds, eval, evals_eq_map, evalOp, Val.asBool, List.all_map, List.all_eq_true] at he
      exact he x hx

theorem conj_vars {a b : Expr} : ∀ e : Expr, Expr.Conj a b e →
    (∀ x ∈ a.vars, x ∈ e.vars) ∧ (∀ x ∈ b.vars, x ∈ e.vars) := by
  intro e
  induction e using Expr.ind with
  | hv n t => intro h; simp [Expr.Conj] at h
  | hl l => intro h; simp [Expr.Conj] at h
  | hn op t args ih =>
    intro h
    cases op <;> simp only [Expr.Conj] at h
    · subst h
      simp only [Expr.vars, Expr.mem_varss]
      exact ⟨fun x hx => ⟨a, by simp, hx⟩, fun x hx => ⟨b, by simp, hx⟩⟩
    · obtain ⟨y, hy, hc⟩ := Expr.Conjs_iff.1 h
      simp only [Expr.vars, Expr.mem_varss]
      exact ⟨fun x hx => ⟨y, hy, (ih y hy hc).1 x hx⟩, fun x hx => ⟨y, hy, (ih y hy hc).2 x hx⟩⟩

theorem conj_WT {S : Sig} {a b : Expr} : ∀ e : Expr, Expr.Conj a b e → e.WT S →
    a.WT S ∧ b.WT S ∧ a.ty = b.ty := by
  intro e
  induction e using Expr.ind with
  | hv n t => intro h; simp [Expr.Conj] at h
  | hl l => intro h; simp [Expr.Conj] at h
  | hn op t args ih =>
    intro h hw
    rw [Expr.WT_node] at hw
    cases op <;> simp only [Expr.Conj] at h
    · subst h
      simp only [Op.WT, List.map_cons, List.map_nil, List.headD_cons] at hw
      exact ⟨hw.1 a (by simp), hw.1 b (by simp), (hw.2.2.2 b.ty (by simp)).symm⟩
    · obtain ⟨y, hy, hc⟩ := Expr.Conjs_iff.1 h
      exact ih y hy hc (hw.1 y hy)

theorem lookup_of_mem_filter {m : Dict} {p : String × Expr → Bool} {x : String} {t : Expr} :
    (m.filter p).lookup x = some t → (x, t) ∈ m := by
  intro h
  have : (x, t) ∈ m.filter p := by
    generalize m.filter p = l at h ⊢
    induction l with
    | nil => simp at h
    | cons y ys ih =>
      obtain ⟨y1, y2⟩ := y
      simp only [List.lookup_cons] at h
      split at h
      · next hx => simp only [beq_iff_eq] at hx; cases h; simp_all
      · exact List.mem_cons_of_mem _ (ih h)
  exact (List.mem_filter.1 this).1

theorem learn_mem {x : String} {e : Expr} {into : Dict} {cf : List String} {r : Dict × List String}
    (h : learn x e into cf = some r) {y : String} {t : Expr} (hm : (y, t) ∈ r.1) :
    (y, t) ∈ into ∨ (y = x ∧ t = e) := by
  unfold learn at h
  split at h
  · cases h
    exact Or.inl (List.mem_filter.1 hm).1
  · split at h
    · cases h
    · cases h
      rcases List.mem_append.1 hm with hm | hm
      · exact Or.inl hm
      · simp at hm; exact Or.inr hm

mutual
theorem collect_mem (ce : String → Bool) : ∀ (e : Expr) (st r : Dict × List String),
    e.collect ce st = some r → ∀ y t, (y, t) ∈ r.1 →
      (y, t) ∈ st.1 ∨ (∃ u, Expr.Conj (.var y u) t e) ∨ (∃ u, Expr.Conj t (.var y u) e)
  | .var _ _, st, r, h, y, t, hm => by simp [Expr.collect] at h; subst h; exact Or.inl hm
  | .lit _, st, r, h, y, t, hm => by simp [Expr.collect] at h; subst h; exact Or.inl hm
  | .node op ty args, st, r, h, y, t, hm => by
    cases op
    case eq =>
      simp only [Expr.collect] at h
      simp only [Expr.Conj]
      unfold collectEq at h
      split at h
      · next x tx b =>
        split at h
        · rcases learn_mem h hm with h1 | ⟨rfl, rfl⟩
          · exact Or.inl h1
          · exact Or.inr (Or.inl ⟨_, rfl⟩)
        · split at h
          · split at h
            · rcases learn_mem h hm with h1 | ⟨rfl, rfl⟩
              · exact Or.inl h1
              · exact Or.inr (Or.inr ⟨_, rfl⟩)
            · cases h; exact Or.inl hm
          · cases h; exact Or.inl hm
      · split at h
        · rcases learn_mem h hm with h1 | ⟨rfl, rfl⟩
          · exact Or.inl h1
          · exact Or.inr (Or.inr ⟨_, rfl⟩)
        · cases h; exact Or.inl hm
      · cases h; exact Or.inl hm
    case and =>
      simp only [Expr.collect] at h
      simp only [Expr.Conj]
      exact collects_mem ce args st r h y t hm
    all_goals (simp only [Expr.collect] at h; cases h; exact Or.inl hm)
theorem collects_mem (ce : String → Bool) : ∀ (es : List Expr) (st r : Dict × List String),
    Expr.collects ce es st = some r → ∀ y t, (y, t) ∈ r.1 →
      (y, t) ∈ st.1 ∨ (∃ u, Expr.Conjs (.var y u) t es) ∨ (∃ u, Expr.Conjs t (.var y u) es)
  | [], st, r, h, y, t, hm => by simp [Expr.collects] at h; subst h; exact Or.inl hm
  | e :: es, st, r, h, y, t, hm => by
    simp only [Expr.collects, Option.bind_eq_some_iff] at h
    obtain ⟨s1, h1, h2⟩ := h
    simp only [Expr.Conjs]
    rcases collects_mem ce es s1 r h2 y t hm with h3 | ⟨u, h3⟩ | ⟨u, h3⟩
    · rcases collect_mem ce e st s1 h1 y t h3 with h4 | ⟨u, h4⟩ | ⟨u, h4⟩
      · exact Or.inl h4
      · exact Or.inr (Or.inl ⟨u, Or.inl h4⟩)
      · exact Or.inr (Or.inr ⟨u, Or.inl h4⟩)
    · exact Or.inr (Or.inl ⟨u, Or.inr h3⟩)
    · exact Or.inr (Or.inr ⟨u, Or.inr h3⟩)
end

/-- Every rewrite used for `p => q` is an equation that is a conjunct of `p`. -/
theorem impliesRewrites_conj {c : Counts} {p q : Expr} {m : Dict}
    (h : impliesRewrites c p q = some m) {x : String} {t : Expr} (hx : m.lookup x = some t) :
    (∃ u, Expr.Conj (.var x u) t p) ∨ (∃ u, Expr.Conj t (.var x u) p) := by
  unfold impliesRewrites at h
  simp only at h
  split at h
  · split at h
    · cases h
    · next into cf hc =>
      simp only [Option.some.injEq] at h
      subst h
      rcases collect_mem _ p _ _ hc x t (lookup_of_mem_filter hx) with h1 | h1
      · simp at h1
      · exact h1
  · cases h

/-! ### implication-free and positive expressions -/

mutual
/-- No `Implies` occurs in the expression. -/
def Expr.noImp : Expr → Bool
  | .var _ _ => true
  | .lit _ => true
  | .node op _ args => !decide (op = .implies) && Expr.noImps args
def Expr.noImps : List Expr → Bool
  | [] => true
  | e :: es => Expr.noImp e && Expr.noImps es
end

mutual
/-- Every `Implies` is in a positive position: reached from the root only through `And`, `Or`,
the right-hand side of `Implies` and the branches of `Ite`. -/
def Expr.posImp : Expr → Bool
  | .var _ _ => true
  | .lit _ => true
  | .node op _ args =>
    match op with
    | .and => Expr.posImps args
    | .or => Expr.posImps args
    | .implies => Expr.posImpTail args
    | .ite => Expr.posImpTail args
    | _ => Expr.noImps args
def Expr.posImps : List Expr → Bool
  | [] => true
  | e :: es => Expr.posImp e && Expr.posImps es
def Expr.posImpTail : List Expr → Bool
  | [] => true
  | p :: rest => Expr.noImp p && Expr.posImps rest
end

theorem Expr.noImps_iff {es : List Expr} : Expr.noImps es = true ↔ ∀ e ∈ es, e.noImp = true := by
  induction es with
  | nil => simp [Expr.noImps]
  | cons e es ih => simp [Expr.noImps, ih]

theorem Expr.posImps_iff {es : List Expr} : Expr.posImps es = true ↔ ∀ e ∈ es, e.posImp = true := by
  induction es with
  | nil => simp [Expr.posImps]
  | cons e es ih => simp [Expr.posImps, ih]

theorem Expr.noImp_posImp : ∀ e : Expr, e.noImp = true → e.posImp = true := by
  intro e
  induction e using Expr.ind with
  | hv n t => intro _; rfl
  | hl l => intro _; rfl
  | hn op t args ih =>
    intro h
    simp only [Expr.noImp, Bool.and_eq_true, Bool.not_eq_true', decide_eq_false_iff_not] at h
    have hn := Expr.noImps_iff.1 h.2
    have hp : ∀ a ∈ args, a.posImp = true := fun a ha => ih a ha (hn a ha)
    cases op <;> simp only [Expr.posImp] <;> first
      | exact h.2
      | exact Expr.posImps_iff.2 hp
      | skip
    · exact absurd rfl h.1
    · cases args with
      | nil => rfl
      | cons p rest =>
        simp only [Expr.posImpTail, Bool.and_eq_true]
        exact ⟨hn p (by simp), Expr.posImps_iff.2 (fun a ha => hp a (by simp [ha]))⟩

theorem conj_noImp {a b : Expr} : ∀ e : Expr, Expr.Conj a b e → e.noImp = true →
    a.noImp = true ∧ b.noImp = true := by
  intro e
  induction e using Expr.ind with
  | hv n t => intro h; simp [Expr.Conj] at h
  | hl l => intro h; simp [Expr.Conj] at h
  | hn op t args ih =>
    intro h hn
    simp only [Expr.noImp, Bool.and_eq_true] at hn
    have hn' := Expr.noImps_iff.1 hn.2
    cases op <;> simp only [Expr.Conj] at h
    · subst h
      exact ⟨hn' a (by simp), hn' b (by simp)⟩
    · obtain ⟨y, hy, hc⟩ := Expr.Conjs_iff.1 h
      exact ih y hy hc (hn' y hy)

theorem rewrite_noImp (m : Dict) (hm : ∀ x t, m.lookup x = some t → t.noImp = true) (e : Expr) :
    e.noImp = true → (e.rewrite m).noImp = true := by
  induction e using Expr.ind with
  | hv n t =>
    intro h
    simp only [Expr.rewrite]
    cases hl : m.lookup n with
    | none => rfl
    | some u => exact hm n u hl
  | hl l => intro h; rfl
  | hn op t args ih =>
    intro h
    simp only [Expr.noImp, Bool.and_eq_true] at h
    simp only [Expr.rewrite, Expr.noImp, Bool.and_eq_true, Expr.rewrites_eq_map]
    refine ⟨h.1, Expr.noImps_iff.2 ?_⟩
    intro x hx
    obtain ⟨a, ha, rfl⟩ := List.mem_map.1 hx
    exact ih a ha (Expr.noImps_iff.1 h.2 a ha)

theorem rewrite_posImp (m : Dict) (hm : ∀ x t, m.lookup x = some t → t.noImp = true) (e : Expr) :
    e.posImp = true → (e.rewrite m).posImp = true := by
  induction e using Expr.ind with
  | hv n t =>
    intro h
    simp only [Expr.rewrite]
    cases hl : m.lookup n with
    | none => rfl
    | some u => exact Expr.noImp_posImp _ (hm n u hl)
  | hl l => intro h; rfl
  | hn op t args ih =>
    have hlist : ∀ as : List Expr, (∀ a ∈ as, a ∈ args) → Expr.posImps as = true →
        Expr.posImps (Expr.rewrites m as) = true := by
      intro as hs h
      rw [Expr.posImps_iff, Expr.rewrites_eq_map]
      intro x hx
      obtain ⟨a, ha, rfl⟩ := List.mem_map.1 hx
      exact ih a (hs a ha) (Expr.posImps_iff.1 h a ha)
    have hlistn : Expr.noImps args = true → Expr.noImps (Expr.rewrites m args) = true := by
      intro h
      rw [Expr.noImps_iff, Expr.rewrites_eq_map]
      intro x hx
      obtain ⟨a, ha, rfl⟩ := List.mem_map.1 hx
      exact rewrite_noImp m hm a (Expr.noImps_iff.1 h a ha)
    intro h
    cases op <;> simp only [Expr.rewrite, Expr.posImp] at h ⊢ <;> first
      | exact hlistn h
      | exact hlist args (fun _ ha => ha) h
      | (cases args with
        | nil => rfl
        | cons p rest =>
          simp only [Expr.posImpTail, Bool.and_eq_true, Expr.rewrites] at h ⊢
          exact ⟨rewrite_noImp m hm p h.1, hlist rest (fun a ha => by simp [ha]) h.2⟩)

theorem All2.noImps {es es' : List Expr}
    (h : All2 (fun e e' => (e.noImp = true → e'.noImp = true) ∧ e'.posImp = true) es es') :
    Expr.noImps es = true → Expr.noImps es' = true := by
  induction h with
  | nil => exact id
  | cons h1 _ ih =>
    simp only [Expr.noImps, Bool.and_eq_true]
    exact fun h => ⟨h1.1 h.1, ih h.2⟩

theorem All2.posImps {es es' : List Expr}
    (h : All2 (fun e e' => (e.noImp = true → e'.noImp = true) ∧ e'.posImp = true) es es') :
    Expr.posImps es' = true := by
  induction h with
  | nil => rfl
  | cons h1 _ ih => simp [Expr.posImps, h1.2, ih]

theorem node_posImp (op : Op) (t : Ty) {es es' : List Expr}
    (hp : (Expr.node op t es).posImp = true)
    (h : All2 (fun e e' => (e.noImp = true → e'.noImp = true) ∧ e'.posImp = true) es es') :
    ((Expr.node op t es).noImp = true → (Expr.node op t es').noImp = true) ∧
    (Expr.node op t es').posImp = true := by
  constructor
  · simp only [Expr.noImp, Bool.and_eq_true]
    exact fun hn => ⟨hn.1, h.noImps hn.2⟩
  · cases op <;> simp only [Expr.posImp] at hp ⊢ <;> first
      | exact h.posImps
      | exact h.noImps hp
      | (cases h with
        | nil => rfl
        | cons h1 hr =>
          simp only [Expr.posImpTail, Bool.and_eq_true] at hp ⊢
          exact ⟨h1.1 hp.1, hr.posImps⟩)

theorem simplifyTop_noImp (op : Op) (t : Ty) (args : List Expr)
    (h : (Expr.node op t args).noImp = true) : (simplifyTop op t args).noImp = true := by
  simp only [Expr.noImp, Bool.and_eq_true] at h
  have hn := Expr.noImps_iff.1 h.2
  unfold simplifyTop
  split
  · split
    · rfl
    · rfl
    · next e hf => exact hn e (andFilter_sub _ _ hf e (by simp))
    · next es _ _ hf =>
      simp only [mkAnd, Expr.noImp, Bool.and_eq_true]
      exact ⟨rfl, Expr.noImps_iff.2 (fun e he => hn e (andFilter_sub _ _ hf e he))⟩
  · simp only [Expr.noImp, Bool.and_eq_true]; exact h

theorem simplifyTop_posImp (op : Op) (t : Ty) (args : List Expr)
    (h : (Expr.node op t args).posImp = true) : (simplifyTop op t args).posImp = true := by
  unfold simplifyTop
  split
  · simp only [Expr.posImp] at h
    have hn := Expr.posImps_iff.1 h
    split
    · rfl
    · rfl
    · next e hf => exact hn e (andFilter_sub _ _ hf e (by simp))
    · next es _ _ hf =>
      simp only [mkAnd, Expr.posImp]
      exact Expr.posImps_iff.2 (fun e he => hn e (andFilter_sub _ _ hf e he))
  · exact h

theorem simplify_noImp (e : Expr) : e.noImp = true → e.simplify.noImp = true := by
  induction e using Expr.ind with
  | hv n t => exact id
  | hl l => exact id
  | hn op t args ih =>
    intro h
    simp only [Expr.simplify, Expr.simplifys_eq_map]
    apply simplifyTop_noImp
    simp only [Expr.noImp, Bool.and_eq_true] at h ⊢
    refine ⟨h.1, Expr.noImps_iff.2 ?_⟩
    intro x hx
    obtain ⟨a, ha, rfl⟩ := List.mem_map.1 hx
    exact ih a ha (Expr.noImps_iff.1 h.2 a ha)

theorem posImp_args {op : Op} {t : Ty} {args : List Expr} (hp : (Expr.node op t args).posImp = true) :
    ∀ a ∈ args, a.posImp = true := by
  intro a ha
  cases op <;> simp only [Expr.posImp] at hp <;> first
    | exact Expr.posImps_iff.1 hp a ha
    | exact Expr.noImp_posImp _ (Expr.noImps_iff.1 hp a ha)
    | (cases args with
      | nil => simp at ha
      | cons p rest =>
        simp only [Expr.posImpTail, Bool.and_eq_true] at hp
        rcases List.mem_cons.1 ha with rfl | ha
        · exact Expr.noImp_posImp _ hp.1
        · exact Expr.posImps_iff.1 hp.2 a ha)

theorem simplify_posImp (e : Expr) : e.posImp = true → e.simplify.posImp = true := by
  induction e using Expr.ind with
  | hv n t => exact id
  | hl l => exact id
  | hn op t args ih =>
    intro h
    simp only [Expr.simplify, Expr.simplifys_eq_map]
    apply simplifyTop_posImp
    have hargs := posImp_args h
    refine (node_posImp op t h ?_).2
    clear h
    induction args with
    | nil => exact .nil
    | cons a as iha =>
      exact .cons ⟨simplify_noImp a, ih a (by simp) (hargs a (by simp))⟩
        (iha (fun b hb => ih b (by simp [hb])) (fun b hb => hargs b (by simp [hb])))

/-! ### Soundness of the optimisation -/

theorem uname_inj {a b : Nat} (h : uname a = uname b) : a = b := by
  unfold uname at h
  have : Nat.repr a = Nat.repr b := by
    have h2 := congrArg String.toList h
    simp only [String.toList_append] at h2
    exact String.toList_inj.1 (List.append_cancel_left h2)
  exact Nat.repr_inj.1 this

/-- No variable of `e` is a replacement name with number at least `n`. -/
def Fresh (n : Nat) (e : Expr) : Prop := ∀ k, n ≤ k → uname k ∉ e.vars

/-- `σ` differs from `ρ` only on replacement names numbered in `[n, n')`. -/
def Ext (n n' : Nat) (ρ σ : Env) : Prop :=
  ∀ x, (∀ k, n ≤ k → k < n' → x ≠ uname k) → σ x = ρ x

/-- What the optimiser guarantees for one expression. -/
structure OptOk (S : Sig) (I : Interp) (n : Nat) (e : Expr) (n' : Nat) (e' : Expr) : Prop where
  le : n ≤ n'
  wt : e'.WT S
  ty : e'.ty = e.ty
  vars : ∀ x ∈ e'.vars, x ∈ e.vars ∨ ∃ k, n ≤ k ∧ k < n' ∧ x = uname k
  noImp : e.noImp = true → e'.noImp = true
  pos : e'.posImp = true
  sem : ∀ ρ : Env, ρ.Ok S → ∃ σ : Env, σ.Ok S ∧ Ext n n' ρ σ ∧
    (e.noImp = true → eval I σ e' = eval I ρ e) ∧ (holds I σ e' → holds I ρ e)

theorem Fresh.mono {n n' : Nat} {e : Expr} (h : Fresh n e) (hle : n ≤ n') : Fresh n' e :=
  fun k hk => h k (Nat.le_trans hle hk)

theorem Ext.eval_old {I : Interp} {n n' : Nat} {ρ σ : Env} {e : Expr} (h : Ext n n' ρ σ)
    (hf : Fresh n e) : eval I σ e = eval I ρ e := by
  apply eval_congr
  intro x hx
  apply h
  intro k hk _ hxk
  exact hf k hk (hxk ▸ hx)

theorem Ext.trans {n n1 n2 : Nat} {ρ σ τ : Env} (h1 : Ext n n1 ρ σ) (h2 : Ext n1 n2 σ τ)
    (hle1 : n ≤ n1) (hle2 : n1 ≤ n2) : Ext n n2 ρ τ := by
  intro x hx
  rw [h2 x (fun k a b => hx k (Nat.le_trans hle1 a) b), h1 x (fun k a b => hx k a (Nat.lt_of_lt_of_le b hle2))]

theorem All2.of_eval_eq {I : Interp} {ρ σ τ : Env} {es es' : List Expr}
    (fa : All2 (fun e e' => (e.noImp = true → eval I τ e' = eval I σ e) ∧
      (holds I τ e' → holds I σ e)) es es')
    (hold : ∀ x ∈ es, eval I σ x = eval I ρ x) :
    All2 (fun e e' => (e.noImp = true → eval I τ e' = eval I ρ e) ∧
      (holds I τ e' → holds I ρ e)) es es' := by
  induction fa with
  | nil => exact .nil
  | @cons a b as bs hab _ ih =>
    refine .cons ?_ (ih (fun x hx => hold x (by simp [hx])))
    have := hold a (by simp)
    unfold holds at *
    rw [this] at hab
    exact hab

/-- Elementwise guarantee for lists of arguments. -/
theorem mapSt_ok {S : Sig} {I : Interp} (f : Nat → Expr → Option (Expr × Nat)) :
    ∀ (es : List Expr) (n n' : Nat) (es' : List Expr),
    (∀ e ∈ es, ∀ n e' n', Fresh n e → f n e = some (e', n') → OptOk S I n e n' e') →
    (∀ e ∈ es, Fresh n e) →
    mapSt f n es = some (es', n') →
    n ≤ n' ∧ (∀ e ∈ es', e.WT S) ∧ es'.map Expr.ty = es.map Expr.ty ∧
    (∀ x ∈ Expr.varss es', x ∈ Expr.varss es ∨ ∃ k, n ≤ k ∧ k < n' ∧ x = uname k) ∧
    All2 (fun e e' => (e.noImp = true → e'.noImp = true) ∧ e'.posImp = true) es es' ∧
    ∀ ρ : Env, ρ.Ok S → ∃ σ : Env, σ.Ok S ∧ Ext n n' ρ σ ∧
      All2 (fun e e' => (e.noImp = true → eval I σ e' = eval I ρ e) ∧
        (holds I σ e' → holds I ρ e)) es es'
  | [], n, n', es', _, _, h => by
    simp only [mapSt, Option.some.injEq, Prod.mk.injEq] at h
    obtain ⟨rfl, rfl⟩ := h
    exact ⟨Nat.le_refl _, by simp, rfl, by simp [Expr.varss], .nil,
      fun ρ hρ => ⟨ρ, hρ, fun _ _ => rfl, .nil⟩⟩
  | e :: es, n, n', es', hf, hfr, h => by
    simp only [mapSt] at h
    split at h
    · cases h
    · next e' n1 h1 =>
      split at h
      · cases h
      · next es1 n2 h2 =>
        simp only [Option.some.injEq, Prod.mk.injEq] at h
        obtain ⟨rfl, rfl⟩ := h
        have o1 := hf e (by simp) n e' n1 (hfr e (by simp)) h1
        have hfr2 : ∀ x ∈ es, Fresh n1 x := fun x hx => (hfr x (by simp [hx])).mono o1.le
        obtain ⟨le2, wt2, ty2, v2, p2, s2⟩ := mapSt_ok f es n1 n2 es1 (fun x hx => hf x (by simp [hx]))
          hfr2 h2
        refine ⟨Nat.le_trans o1.le le2, ?_, ?_, ?_, .cons ⟨o1.noImp, o1.pos⟩ p2, ?_⟩
        · intro x hx
          rcases List.mem_cons.1 hx with rfl | hx
          · exact o1.wt
          · exact wt2 x hx
        · simp [o1.ty, ty2]
        · intro x hx
          simp only [Expr.varss, List.mem_append] at hx ⊢
          rcases hx with hx | hx
          · rcases o1.vars x hx with h3 | ⟨k, a, b, rfl⟩
            · exact Or.inl (Or.inl h3)
            · exact Or.inr ⟨k, a, Nat.lt_of_lt_of_le b le2, rfl⟩
          · rcases v2 x hx with h3 | ⟨k, a, b, rfl⟩
            · exact Or.inl (Or.inr h3)
            · exact Or.inr ⟨k, Nat.le_trans o1.le a, b, rfl⟩
        · intro ρ hρ
          obtain ⟨σ, hσ, x1, q1, q2⟩ := o1.sem ρ hρ
          obtain ⟨τ, hτ, x2, fa⟩ := s2 σ hσ
          refine ⟨τ, hτ, x1.trans x2 o1.le le2, .cons ?_ ?_⟩
          · have hv : eval I τ e' = eval I σ e' := by
              apply eval_congr
              intro x hx
              apply x2
              intro k hk1 hk2 hxk
              rcases o1.vars x hx with h3 | ⟨j, a, b, h3⟩
              · exact hfr e (by simp) k (Nat.le_trans o1.le hk1) (hxk ▸ h3)
              · have := uname_inj (h3.symm.trans hxk)
                omega
            unfold holds at *
            rw [hv]; exact ⟨q1, q2⟩
          · have hold : ∀ x ∈ es, eval I σ x = eval I ρ x :=
              fun x hx => x1.eval_old (hfr x (by simp [hx]))
            exact All2.of_eval_eq fa hold

theorem evalOp_mono_and (I : Interp) (ρ σ : Env) {es es' : List Expr}
    (h : All2 (fun e e' => holds I σ e' → holds I ρ e) es es') :
    (es'.map (eval I σ)).all Val.asBool = true → (es.map (eval I ρ)).all Val.asBool = true := by
  induction h with
  | nil => exact id
  | cons h1 _ ih =>
    simp only [List.map_cons, List.all_cons, Bool.and_eq_true]
    exact fun h => ⟨h1 h.1, ih h.2⟩

theorem evalOp_mono_or (I : Interp) (ρ σ : Env) {es es' : List Expr}
    (h : All2 (fun e e' => holds I σ e' → holds I ρ e) es es') :
    (es'.map (eval I σ)).any Val.asBool = true → (es.map (eval I ρ)).any Val.asBool = true := by
  induction h with
  | nil => exact id
  | cons h1 _ ih =>
    simp only [List.map_cons, List.any_cons, Bool.or_eq_true]
    exact fun h => h.elim (fun h => Or.inl (h1 h)) (fun h => Or.inr (ih h))

theorem forall2_eq (I : Interp) (ρ σ : Env) {es es' : List Expr}
    (h : All2 (fun e e' => e.noImp = true → eval I σ e' = eval I ρ e) es es')
    (hn : ∀ e ∈ es, e.noImp = true) : es'.map (eval I σ) = es.map (eval I ρ) := by
  induction h with
  | nil => rfl
  | cons h1 _ ih =>
    simp only [List.map_cons, List.cons.injEq]
    exact ⟨h1 (hn _ (by simp)), ih (fun e he => hn e (by simp [he]))⟩

/-- From elementwise guarantees for the arguments to the node (before `simplify`). -/
theorem node_sem (I : Interp) (ρ σ : Env) (op : Op) (t : Ty) {es es' : List Expr}
    (hp : (Expr.node op t es).posImp = true)
    (h : All2 (fun e e' => (e.noImp = true → eval I σ e' = eval I ρ e) ∧
        (holds I σ e' → holds I ρ e)) es es') :
    ((Expr.node op t es).noImp = true → eval I σ (.node op t es') = eval I ρ (.node op t es)) ∧
    (holds I σ (.node op t es') → holds I ρ (.node op t es)) := by
  have hE := All2.imp (fun _ _ h => h.1) h
  have hM := All2.imp (fun _ _ h => h.2) h
  have hall : Expr.noImps es = true → eval I σ (.node op t es') = eval I ρ (.node op t es) := by
    intro hn
    simp only [eval, evals_eq_map]
    rw [forall2_eq I ρ σ hE (Expr.noImps_iff.1 hn)]
  constructor
  · intro hn
    simp only [Expr.noImp, Bool.and_eq_true] at hn
    exact hall hn.2
  · cases op
    case and =>
      intro hh
      simp only [holds, eval, evals_eq_map, evalOp, Val.asBool] at hh ⊢
      exact evalOp_mono_and I ρ σ hM hh
    case or =>
      intro hh
      simp only [holds, eval, evals_eq_map, evalOp, Val.asBool] at hh ⊢
      exact evalOp_mono_or I ρ σ hM hh
    case implies =>
      simp only [Expr.posImp] at hp
      cases h with
      | nil => exact id
      | cons h1 hr =>
        simp only [Expr.posImpTail, Bool.and_eq_true] at hp
        cases hr with
        | nil => intro hh; simp [holds, eval, evals, evalOp, Val.asBool] at hh
        | cons h2 hr2 =>
          cases hr2 with
          | cons _ _ => intro hh; simp [holds, eval, evals, evalOp, Val.asBool] at hh
          | nil =>
            intro hh
            simp only [holds, eval, evals, evalOp, Val.asBool] at hh ⊢
            rw [h1.1 hp.1] at hh
            simp only [Bool.or_eq_true] at hh ⊢
            exact hh.elim Or.inl (fun hh => Or.inr (h2.2 hh))
    case ite =>
      simp only [Expr.posImp] at hp
      cases h with
      | nil => exact id
      | cons h1 hr =>
        simp only [Expr.posImpTail, Bool.and_eq_true] at hp
        cases hr with
        | nil => intro hh; simp [holds, eval, evals, evalOp, Val.asBool] at hh
        | cons h2 hr2 =>
          cases hr2 with
          | nil => intro hh; simp [holds, eval, evals, evalOp, Val.asBool] at hh
          | cons h3 hr3 =>
            cases hr3 with
            | cons _ _ => intro hh; simp [holds, eval, evals, evalOp, Val.asBool] at hh
            | nil =>
              intro hh
              simp only [holds, eval, evals, evalOp] at hh ⊢
              rw [h1.1 hp.1] at hh
              split <;> simp_all [holds]
    all_goals
      (simp only [Expr.posImp] at hp
       unfold holds
       rw [hall hp]
       exact id)

theorem Env.set_same (ρ : Env) (n : String) (v : Val) : (ρ.set n v) n = v := by simp [Env.set]

/-- Soundness of the optimiser on positive expressions. -/
theorem opt_ok {S : Sig} {I : Interp} (hI : I.Ok S) (hS : ∀ k, S.var (uname k) = .bool) (c : Counts) :
    ∀ (k n n' : Nat) (e e' : Expr), e.WT S → e.posImp = true → Fresh n e →
      opt c k n e = some (e', n') → OptOk S I n e n' e' := by
  intro k
  induction k with
  | zero => intro n n' e e' _ _ _ h; simp [opt] at h
  | succ k ih =>
    -- the common part: the arguments are optimised, the node rebuilt and simplified
    have hnode : ∀ (n n' : Nat) (op : Op) (t : Ty) (args args' : List Expr),
        (Expr.node op t args).WT S → (Expr.node op t args).posImp = true →
        (∀ a ∈ args, a.posImp = true) →
        Fresh n (.node op t args) → mapSt (opt c k) n args = some (args', n') →
        OptOk S I n (.node op t args) n' (Expr.node op t args').simplify := by
      intro n n' op t args args' hw hp hpa hfr h
      rw [Expr.WT_node] at hw
      have hfr' : ∀ a ∈ args, Fresh n a := fun a ha j hj hx =>
        hfr j hj (by simp only [Expr.vars]; exact Expr.mem_varss.2 ⟨a, ha, hx⟩)
      have hper : ∀ a ∈ args, ∀ m a' m', Fresh m a → opt c k m a = some (a', m') →
          OptOk S I m a m' a' := by
        intro a ha m a' m' hfa hoa
        exact ih m m' a a' (hw.1 a ha) (hpa a ha) hfa hoa
      obtain ⟨le, wt, ty, vs, hpi, sem⟩ := mapSt_ok (S := S) (I := I) (opt c k) args n n' args' hper hfr' h
      have hw' : (Expr.node op t args').WT S := by rw [Expr.WT_node, ty]; exact ⟨wt, hw.2⟩
      obtain ⟨hpi1, hpi2⟩ := node_posImp op t hp hpi
      refine ⟨le, (simplify_WT _ hw').1, (simplify_WT _ hw').2, ?_,
        fun h => simplify_noImp _ (hpi1 h), simplify_posImp _ hpi2, ?_⟩
      · intro x hx
        have := simplify_vars _ x hx
        simp only [Expr.vars] at this ⊢
        exact vs x this
      · intro ρ hρ
        obtain ⟨σ, hσ, hx, fa⟩ := sem ρ hρ
        obtain ⟨q1, q2⟩ := node_sem I ρ σ op t hp fa
        refine ⟨σ, hσ, hx, ?_, ?_⟩
        · rw [simplify_eval hI hσ _ hw']; exact q1
        · unfold holds; rw [simplify_eval hI hσ _ hw']; exact q2
    intro n n' e e' hw hp hfr h
    unfold opt at h
    split at h
    · -- equations
      next t a b =>
      have hw2 := Expr.WT_node.1 hw
      simp only [Op.WT] at hw2
      obtain ⟨hwa, rfl, hlen, hsame⟩ := hw2
      split at h
      · cases h
      · -- replaced by a fresh variable
        simp only [Option.some.injEq, Prod.mk.injEq] at h
        obtain ⟨rfl, rfl⟩ := h
        refine ⟨Nat.le_succ n, (hS n).symm, rfl, ?_, fun _ => rfl, rfl, ?_⟩
        · intro x hx
          simp only [Expr.vars, List.mem_singleton] at hx
          exact Or.inr ⟨n, Nat.le_refl n, Nat.lt_succ_self n, hx⟩
        · intro ρ hρ
          have hev : eval I (ρ.set (uname n) (eval I ρ (.node .eq .bool [a, b])))
              (.var (uname n) .bool) = eval I ρ (.node .eq .bool [a, b]) := by
            simp only [eval, Env.set_same]
          refine ⟨ρ.set (uname n) (eval I ρ (.node .eq .bool [a, b])), ?_, ?_, ?_, ?_⟩
          · intro x
            unfold Env.set
            split
            · next hx => subst hx; rw [hS n]; exact eval_kind hI hρ _ hw
            · exact hρ x
          · intro x hx
            have := hx n (Nat.le_refl n) (Nat.lt_succ_self n)
            simp [Env.set, this]
          · intro _; exact hev
          · unfold holds; rw [hev]; exact id
      · -- an equation between a variable and itself
        next hd =>
        simp only [Option.some.injEq, Prod.mk.injEq] at h
        obtain ⟨rfl, rfl⟩ := h
        have heq : ∃ x t u, a = .var x t ∧ b = .var x u := by
          unfold eqDec at hd
          repeat' (split at hd)
          all_goals first
            | (simp at hd; done)
            | (rename_i hxy; subst hxy; exact ⟨_, _, _, rfl, rfl⟩)
        obtain ⟨x, t, u, rfl, rfl⟩ := heq
        refine ⟨Nat.le_refl _, trivial, rfl, by simp [boolLit, Expr.vars], fun _ => rfl, rfl, ?_⟩
        intro ρ hρ
        refine ⟨ρ, hρ, fun _ _ => rfl, ?_, ?_⟩
        · intro _; simp [boolLit, eval, evals, evalOp, Lit.val]
        · intro _; simp [holds, eval, evals, evalOp, Val.asBool]
      · -- kept
        simp only [Option.map_eq_some_iff] at h
        obtain ⟨⟨args', m⟩, h1, h2⟩ := h
        simp only [Prod.mk.injEq] at h2
        obtain ⟨rfl, rfl⟩ := h2
        exact hnode n m .eq .bool [a, b] args' hw hp (posImp_args hp) hfr h1
    · -- implications
      next t p q =>
      have hw2 := Expr.WT_node.1 hw
      have hwop := hw2.2
      simp only [Op.WT] at hwop
      obtain ⟨rfl, -⟩ := hwop
      split at h
      · cases h
      · next m hm =>
        simp only [Option.map_eq_some_iff] at h
        obtain ⟨⟨args', n1⟩, h1, h2⟩ := h
        simp only [Prod.mk.injEq] at h2
        obtain ⟨rfl, rfl⟩ := h2
        have hp2 := hp
        simp only [Expr.posImp, Expr.posImpTail, Bool.and_eq_true] at hp2
        have hpn := hp2.1
        -- facts about the rewrites
        have hmWT : ∀ x u, m.lookup x = some u → u.WT S ∧ u.ty = S.var x := by
          intro x u hx
          rcases impliesRewrites_conj hm hx with ⟨v, hc⟩ | ⟨v, hc⟩
          · obtain ⟨c1, c2, c3⟩ := conj_WT p hc (hw2.1 p (by simp))
            rw [Expr.WT] at c1
            exact ⟨c2, c3.symm.trans c1⟩
          · obtain ⟨c1, c2, c3⟩ := conj_WT p hc (hw2.1 p (by simp))
            rw [Expr.WT] at c2
            exact ⟨c1, c3.trans c2⟩
        have hmImp : ∀ x u, m.lookup x = some u → u.noImp = true := by
          intro x u hx
          rcases impliesRewrites_conj hm hx with ⟨v, hc⟩ | ⟨v, hc⟩
          · exact (conj_noImp p hc hpn).2
          · exact (conj_noImp p hc hpn).1
        have hmVars : ∀ x u, m.lookup x = some u → ∀ y ∈ u.vars, y ∈ p.vars := by
          intro x u hx
          rcases impliesRewrites_conj hm hx with ⟨v, hc⟩ | ⟨v, hc⟩
          · exact (conj_vars p hc).2
          · exact (conj_vars p hc).1
        have hrw : (Expr.node .implies .bool [p, q]).rewrite m
            = .node .implies .bool [p.rewrite m, q.rewrite m] := by
          simp [Expr.rewrite, Expr.rewrites]
        have hw' := (rewrite_WT m hmWT _ hw).1
        have hpos' := rewrite_posImp m hmImp _ hp
        have hvars' : ∀ y ∈ ((Expr.node .implies .bool [p, q]).rewrite m).vars,
            y ∈ (Expr.node .implies .bool [p, q]).vars := by
          apply rewrite_vars
          · intro x u hx y hy
            simp only [Expr.vars, Expr.mem_varss]
            exact ⟨p, by simp, hmVars x u hx y hy⟩
          · exact fun y hy => hy
        have hfr' : Fresh n ((Expr.node .implies .bool [p, q]).rewrite m) :=
          fun j hj hx => hfr j hj (hvars' _ hx)
        rw [hrw] at hw' hpos' hfr' hvars'
        have o := hnode n n1 .implies .bool [p.rewrite m, q.rewrite m] args' hw' hpos'
          (posImp_args hpos') hfr' h1
        refine ⟨o.le, o.wt, o.ty, ?_, fun hn => by simp [Expr.noImp] at hn, o.pos, ?_⟩
        · intro x hx
          exact (o.vars x hx).imp (hvars' x) id
        · intro ρ hρ
          obtain ⟨σ, hσ, hx, -, q2⟩ := o.sem ρ hρ
          refine ⟨σ, hσ, hx, ?_, ?_⟩
          · intro hn; simp [Expr.noImp] at hn
          · intro hh
            have hh2 := q2 hh
            -- if the antecedent holds, rewriting does not change anything
            by_cases hpρ : holds I ρ p
            · have hmev : ∀ x u, m.lookup x = some u → eval I ρ u = ρ x := by
                intro x u hx
                rcases impliesRewrites_conj hm hx with ⟨v, hc⟩ | ⟨v, hc⟩
                · exact (conj_holds I ρ _ _ p hc hpρ).symm
                · exact conj_holds I ρ _ _ p hc hpρ
              have := rewrite_eval I ρ m hmev (.node .implies .bool [p, q])
              rw [hrw] at this
              unfold holds at *
              rw [← this]; exact hh2
            · simp only [holds] at hpρ ⊢
              simp [eval, evals, evalOp, hpρ]
    · -- other nodes
      next op t args _ _ =>
      simp only [Option.map_eq_some_iff] at h
      obtain ⟨⟨args', m⟩, h1, h2⟩ := h
      simp only [Prod.mk.injEq] at h2
      obtain ⟨rfl, rfl⟩ := h2
      exact hnode n m op t args args' hw hp (posImp_args hp) hfr h1
    · -- leaves
      simp only [Option.some.injEq, Prod.mk.injEq] at h
      obtain ⟨rfl, rfl⟩ := h
      exact ⟨Nat.le_refl _, hw, rfl, fun x hx => Or.inl hx, id, hp,
        fun ρ hρ => ⟨ρ, hρ, fun _ _ => rfl, fun _ => rfl, id⟩⟩

theorem optLoop_ok {S : Sig} {I : Interp} (hI : I.Ok S) (hS : ∀ k, S.var (uname k) = .bool)
    (same : Expr → Expr → Bool) (fuel : Nat) :
    ∀ (r n n' : Nat) (e e' : Expr), e.WT S → e.posImp = true → Fresh n e →
      optLoop same fuel r n e = some (e', n') →
      (∀ σ : Env, σ.Ok S → holds I σ e') → ∀ ρ : Env, ρ.Ok S → holds I ρ e := by
  intro r
  induction r with
  | zero => intro n n' e e' _ _ _ h; simp [optLoop] at h
  | succ r ih =>
    intro n n' e e' hw hp hfr h hv
    simp only [optLoop] at h
    split at h
    · cases h
    · next e1 n1 h1 =>
      have o := opt_ok hI hS _ fuel n n1 e e1 hw hp hfr h1
      have hback : (∀ σ : Env, σ.Ok S → holds I σ e1) → ∀ ρ : Env, ρ.Ok S → holds I ρ e := by
        intro hv1 ρ hρ
        obtain ⟨σ, hσ, -, -, q⟩ := o.sem ρ hρ
        exact q (hv1 σ hσ)
      split at h
      · cases h; exact hback hv
      · apply hback
        refine ih n1 n' e1 e' o.wt o.pos ?_ h hv
        intro k hk hx
        rcases o.vars _ hx with h3 | ⟨j, a, b, h3⟩
        · exact hfr k (Nat.le_trans o.le hk) h3
        · have := uname_inj h3; omega

end Metalift
