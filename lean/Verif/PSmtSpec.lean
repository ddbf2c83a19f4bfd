import Verif.SmtSpec
/-
C18: specialising higher-order functions for SMT.
-/
namespace Metalift

/-! ### Specification -/

/-- The argument list of the original function: `g` at every function parameter, the given values elsewhere. -/
def fillFn (g : String) : List (String × Ty) → List Val → List Val
  | [], _ => []
  | (_, t) :: ps, ws =>
    if t.isFn then .fn g :: fillFn g ps ws
    else match ws with
      | [] => []
      | w :: ws => w :: fillFn g ps ws

mutual
/-- The use of the function parameter `p` that the rewriting supports: `p` is only applied, or passed on at the function
parameters of the functions `f` with `P f = some params`; no other call has an argument of function type. -/
def SpecOk (P : String → Option (List (String × Ty))) (p : String) : Expr → Prop
  | .var n _ => n ≠ p
  | .lit _ => True
  | .node (.call f) _ args =>
    match P f with
    | some ps => SpecArgs P p ps args
    | none => SpecNoFn P p args
  | .node .callValue _ [] => False
  | .node .callValue _ (v :: args) => (∃ t, v = .var p t) ∧ SpecAll P p args
  | .node _ _ args => SpecAll P p args
/-- Arguments of a call of a function with parameters `ps`. -/
def SpecArgs (P : String → Option (List (String × Ty))) (p : String) : List (String × Ty) → List Expr → Prop
  | [], [] => True
  | q :: ps, a :: as =>
    (if q.2.isFn then ∃ t, a = .var p t ∧ t.isFn = true else a.ty.isFn = false ∧ SpecOk P p a) ∧ SpecArgs P p ps as
  | _, _ => False
/-- Arguments without functions among them. -/
def SpecNoFn (P : String → Option (List (String × Ty))) (p : String) : List Expr → Prop
  | [] => True
  | a :: as => a.ty.isFn = false ∧ SpecOk P p a ∧ SpecNoFn P p as
/-- Operands. -/
def SpecAll (P : String → Option (List (String × Ty))) (p : String) : List Expr → Prop
  | [] => True
  | a :: as => SpecOk P p a ∧ SpecAll P p as
end

/-- `p` is the only function parameter. -/
def OneFnParam (p : String) (ps : List (String × Ty)) : Prop :=
  (∃ t, (p, t) ∈ ps ∧ t.isFn = true) ∧ ∀ q ∈ ps, q.2.isFn = true ↔ q.1 = p

/-! ### The rewriting as a total function -/

mutual
/-- What `filter_body` computes when it does not raise: rename called functions with `σ`, drop function arguments, call `g` instead of
applying a function value. -/
def specE (σ : String → String) (g : String) : Expr → Expr
  | .var n t => .var n t
  | .lit l => .lit l
  | .node (.call f) t args => .node (.call (σ f)) t (specDrop σ g args)
  | .node .callValue t [] => .node .callValue t []
  | .node .callValue t (_ :: args) => .node (.call g) t (specMap σ g args)
  | .node op t args => .node op t (specMap σ g args)
def specDrop (σ : String → String) (g : String) : List Expr → List Expr
  | [] => []
  | a :: as => if a.ty.isFn then specDrop σ g as else specE σ g a :: specDrop σ g as
def specMap (σ : String → String) (g : String) : List Expr → List Expr
  | [] => []
  | a :: as => specE σ g a :: specMap σ g as
end

/-- The renaming done by `filter_body`. -/
def ren1 (new old f : String) : String := if old = f then new else f

theorem ren1_eq (new old : String) : ren1 new old old = new := if_pos rfl
theorem ren1_ne {new old f : String} (h : old ≠ f) : ren1 new old f = f := if_neg h

mutual
theorem filterBody_spec (new old g : String) : ∀ (e e' : Expr), filterBody new old (some g) e = some e' →
    e' = specE (ren1 new old) g e
  | .var n t, e', h => by simpa [filterBody, specE] using h.symm
  | .lit l, e', h => by simpa [filterBody, specE] using h.symm
  | .node op t args, e', h => by
    cases op with
    | call f =>
      simp only [filterBody, Option.map_eq_some_iff] at h
      obtain ⟨as, h1, rfl⟩ := h
      rw [filterBodyDrop_spec new old g args as h1]; rfl
    | callValue =>
      cases args with
      | nil => simp [filterBody] at h
      | cons v args =>
        simp only [filterBody] at h
        split at h
        · rename_i x y h1 h2
          cases h1
          rw [filterBodyMap_spec new old g args _ h2] at h
          exact (Option.some.inj h).symm
        · cases h
    | _ =>
      simp only [filterBody, Option.map_eq_some_iff] at h
      obtain ⟨as, h1, rfl⟩ := h
      rw [filterBodyMap_spec new old g args as h1]; rfl
theorem filterBodyDrop_spec (new old g : String) : ∀ (es es' : List Expr), filterBodyDrop new old (some g) es = some es' →
    es' = specDrop (ren1 new old) g es
  | [], es', h => by simpa [filterBodyDrop, specDrop] using h.symm
  | a :: as, es', h => by
    simp only [filterBodyDrop] at h
    simp only [specDrop]
    split
    · rename_i hf; rw [if_pos hf] at h; exact filterBodyDrop_spec new old g as es' h
    · rename_i hf; rw [if_neg hf, Option.bind_eq_some_iff] at h
      obtain ⟨b, h1, h2⟩ := h
      obtain ⟨bs, h3, rfl⟩ := Option.map_eq_some_iff.1 h2
      rw [filterBody_spec new old g a b h1, filterBodyDrop_spec new old g as bs h3]
theorem filterBodyMap_spec (new old g : String) : ∀ (es es' : List Expr), filterBodyMap new old (some g) es = some es' →
    es' = specMap (ren1 new old) g es
  | [], es', h => by simpa [filterBodyMap, specMap] using h.symm
  | a :: as, es', h => by
    simp only [filterBodyMap, Option.bind_eq_some_iff] at h
    obtain ⟨b, h1, h2⟩ := h
    obtain ⟨bs, h3, rfl⟩ := Option.map_eq_some_iff.1 h2
    rw [filterBody_spec new old g a b h1, filterBodyMap_spec new old g as bs h3]; rfl
end

mutual
theorem filterBody_none (new old : String) : ∀ (e e' : Expr), filterBody new old none e = some e' →
    ∀ g, e' = specE (ren1 new old) g e
  | .var n t, e', h, g => by simpa [filterBody, specE] using h.symm
  | .lit l, e', h, g => by simpa [filterBody, specE] using h.symm
  | .node op t args, e', h, g => by
    cases op with
    | call f =>
      simp only [filterBody, Option.map_eq_some_iff] at h
      obtain ⟨as, h1, rfl⟩ := h
      rw [filterBodyDrop_none new old args as h1 g]; rfl
    | callValue =>
      cases args with
      | nil => simp [filterBody] at h
      | cons v args => simp [filterBody] at h
    | _ =>
      simp only [filterBody, Option.map_eq_some_iff] at h
      obtain ⟨as, h1, rfl⟩ := h
      rw [filterBodyMap_none new old args as h1 g]; rfl
theorem filterBodyDrop_none (new old : String) : ∀ (es es' : List Expr), filterBodyDrop new old none es = some es' →
    ∀ g, es' = specDrop (ren1 new old) g es
  | [], es', h, g => by simpa [filterBodyDrop, specDrop] using h.symm
  | a :: as, es', h, g => by
    simp only [filterBodyDrop] at h
    simp only [specDrop]
    split
    · rename_i hf; rw [if_pos hf] at h; exact filterBodyDrop_none new old as es' h g
    · rename_i hf; rw [if_neg hf, Option.bind_eq_some_iff] at h
      obtain ⟨b, h1, h2⟩ := h
      obtain ⟨bs, h3, rfl⟩ := Option.map_eq_some_iff.1 h2
      rw [filterBody_none new old a b h1 g, filterBodyDrop_none new old as bs h3 g]
theorem filterBodyMap_none (new old : String) : ∀ (es es' : List Expr), filterBodyMap new old none es = some es' →
    ∀ g, es' = specMap (ren1 new old) g es
  | [], es', h, g => by simpa [filterBodyMap, specMap] using h.symm
  | a :: as, es', h, g => by
    simp only [filterBodyMap, Option.bind_eq_some_iff] at h
    obtain ⟨b, h1, h2⟩ := h
    obtain ⟨bs, h3, rfl⟩ := Option.map_eq_some_iff.1 h2
    rw [filterBody_none new old a b h1 g, filterBodyMap_none new old as bs h3 g]; rfl
end

theorem specE_ty (σ : String → String) (g : String) : ∀ e : Expr, (specE σ g e).ty = e.ty
  | .var _ _ => rfl
  | .lit _ => rfl
  | .node op t args => by
    cases op with
    | callValue => cases args <;> rfl
    | _ => rfl

mutual
theorem filterBody_comp (new old : String) (τ : String → String) (g : String) : ∀ (e e' : Expr),
    filterBody new old none e = some e' → specE τ g e' = specE (fun f => τ (ren1 new old f)) g e
  | .var n t, e', h => by simp only [filterBody, Option.some.injEq] at h; subst h; rfl
  | .lit l, e', h => by simp only [filterBody, Option.some.injEq] at h; subst h; rfl
  | .node op t args, e', h => by
    cases op with
    | call f =>
      simp only [filterBody, Option.map_eq_some_iff] at h
      obtain ⟨as, h1, rfl⟩ := h
      simp only [specE, filterBodyDrop_comp new old τ g args as h1]; rfl
    | callValue =>
      cases args with
      | nil => simp [filterBody] at h
      | cons v args => simp [filterBody] at h
    | _ =>
      simp only [filterBody, Option.map_eq_some_iff] at h
      obtain ⟨as, h1, rfl⟩ := h
      simp only [specE, filterBodyMap_comp new old τ g args as h1]
theorem filterBodyDrop_comp (new old : String) (τ : String → String) (g : String) : ∀ (es es' : List Expr),
    filterBodyDrop new old none es = some es' → specDrop τ g es' = specDrop (fun f => τ (ren1 new old f)) g es
  | [], es', h => by simp only [filterBodyDrop, Option.some.injEq] at h; subst h; rfl
  | a :: as, es', h => by
    simp only [filterBodyDrop] at h
    simp only [specDrop]
    split
    · rename_i hf; rw [if_pos hf] at h; exact filterBodyDrop_comp new old τ g as es' h
    · rename_i hf; rw [if_neg hf, Option.bind_eq_some_iff] at h
      obtain ⟨b, h1, h2⟩ := h
      obtain ⟨bs, h3, rfl⟩ := Option.map_eq_some_iff.1 h2
      have hty : b.ty = a.ty := by rw [filterBody_none new old a b h1 g, specE_ty]
      simp only [specDrop, hty]
      rw [if_neg hf, filterBody_comp new old τ g a b h1, filterBodyDrop_comp new old τ g as bs h3]
theorem filterBodyMap_comp (new old : String) (τ : String → String) (g : String) : ∀ (es es' : List Expr),
    filterBodyMap new old none es = some es' → specMap τ g es' = specMap (fun f => τ (ren1 new old f)) g es
  | [], es', h => by simp only [filterBodyMap, Option.some.injEq] at h; subst h; rfl
  | a :: as, es', h => by
    simp only [filterBodyMap, Option.bind_eq_some_iff] at h
    obtain ⟨b, h1, h2⟩ := h
    obtain ⟨bs, h3, rfl⟩ := Option.map_eq_some_iff.1 h2
    simp only [specMap]
    rw [filterBody_comp new old τ g a b h1, filterBodyMap_comp new old τ g as bs h3]
end

mutual
/-- The rewriting depends only on the names of the functions called. -/
theorem specE_congr (σ τ : String → String) (g : String) : ∀ e : Expr, (∀ f ∈ e.callNames, σ f = τ f) →
    specE σ g e = specE τ g e
  | .var _ _, _ => rfl
  | .lit _, _ => rfl
  | .node op t args, h => by
    cases op with
    | call f =>
      simp only [Expr.callNames, List.mem_cons] at h
      simp only [specE]
      rw [h f (.inl rfl), specDrop_congr σ τ g args (fun x hx => h x (.inr hx))]
    | callValue =>
      cases args with
      | nil => rfl
      | cons v args =>
        simp only [Expr.callNames, Expr.callNamess, List.mem_append] at h
        simp only [specE]
        rw [specMap_congr σ τ g args (fun x hx => h x (.inr hx))]
    | _ => simp only [specE]; rw [specMap_congr σ τ g args h]
theorem specDrop_congr (σ τ : String → String) (g : String) : ∀ es : List Expr, (∀ f ∈ Expr.callNamess es, σ f = τ f) →
    specDrop σ g es = specDrop τ g es
  | [], _ => rfl
  | a :: as, h => by
    simp only [Expr.callNamess, List.mem_append] at h
    simp only [specDrop]
    rw [specE_congr σ τ g a (fun x hx => h x (.inl hx)), specDrop_congr σ τ g as (fun x hx => h x (.inr hx))]
theorem specMap_congr (σ τ : String → String) (g : String) : ∀ es : List Expr, (∀ f ∈ Expr.callNamess es, σ f = τ f) →
    specMap σ g es = specMap τ g es
  | [], _ => rfl
  | a :: as, h => by
    simp only [Expr.callNamess, List.mem_append] at h
    simp only [specMap]
    rw [specE_congr σ τ g a (fun x hx => h x (.inl hx)), specMap_congr σ τ g as (fun x hx => h x (.inr hx))]
end

section
variable {P Q : String → Option (List (String × Ty))} {p : String}
mutual
theorem SpecOk.congr : ∀ e : Expr, (∀ f ∈ e.callNames, P f = Q f) → SpecOk P p e → SpecOk Q p e
  | .var _ _, _, h => h
  | .lit _, _, h => h
  | .node op t args, hPQ, h => by
    cases op with
    | call f =>
      simp only [Expr.callNames, List.mem_cons] at hPQ
      simp only [SpecOk] at h ⊢
      rw [← hPQ f (.inl rfl)]
      split
      · rename_i ps hps; rw [hps] at h
        exact SpecArgs.congr ps args (fun x hx => hPQ x (.inr hx)) h
      · rename_i hps; rw [hps] at h
        exact SpecNoFn.congr args (fun x hx => hPQ x (.inr hx)) h
    | callValue =>
      cases args with
      | nil => exact absurd h (by simp [SpecOk])
      | cons v args =>
        simp only [Expr.callNames, Expr.callNamess, List.mem_append] at hPQ
        exact ⟨h.1, SpecAll.congr args (fun x hx => hPQ x (.inr hx)) h.2⟩
    | _ => exact SpecAll.congr args hPQ h
theorem SpecArgs.congr : ∀ (ps : List (String × Ty)) (es : List Expr), (∀ f ∈ Expr.callNamess es, P f = Q f) →
    SpecArgs P p ps es → SpecArgs Q p ps es
  | [], [], _, h => h
  | [], _ :: _, _, h => absurd h (by simp [SpecArgs])
  | _ :: _, [], _, h => absurd h (by simp [SpecArgs])
  | q :: ps, a :: as, hPQ, h => by
    simp only [Expr.callNamess, List.mem_append] at hPQ
    simp only [SpecArgs] at h ⊢
    refine ⟨?_, SpecArgs.congr ps as (fun x hx => hPQ x (.inr hx)) h.2⟩
    split
    · rename_i hq; rw [if_pos hq] at h; exact h.1
    · rename_i hq; rw [if_neg hq] at h
      exact ⟨h.1.1, SpecOk.congr a (fun x hx => hPQ x (.inl hx)) h.1.2⟩
theorem SpecNoFn.congr : ∀ (es : List Expr), (∀ f ∈ Expr.callNamess es, P f = Q f) → SpecNoFn P p es → SpecNoFn Q p es
  | [], _, h => h
  | a :: as, hPQ, h => by
    simp only [Expr.callNamess, List.mem_append] at hPQ
    exact ⟨h.1, SpecOk.congr a (fun x hx => hPQ x (.inl hx)) h.2.1, SpecNoFn.congr as (fun x hx => hPQ x (.inr hx)) h.2.2⟩
theorem SpecAll.congr : ∀ (es : List Expr), (∀ f ∈ Expr.callNamess es, P f = Q f) → SpecAll P p es → SpecAll Q p es
  | [], _, h => h
  | a :: as, hPQ, h => by
    simp only [Expr.callNamess, List.mem_append] at hPQ
    exact ⟨SpecOk.congr a (fun x hx => hPQ x (.inl hx)) h.1, SpecAll.congr as (fun x hx => hPQ x (.inr hx)) h.2⟩
end
end

/-! ### The rewriting preserves values -/

/-- The environments of the original and of the copy agree, except that the original binds `p` to `g`. -/
def EnvRel (p g : String) (ρ ρ' : Env) : Prop := ρ p = .fn g ∧ ∀ x, x ≠ p → ρ x = ρ' x

/-- Number of parameters that are not functions. -/
def nonFn (ps : List (String × Ty)) : Nat := (filterArgs ps).length

/-- The original calls, in terms of the calls of the copies. -/
structure CallRel (P : String → Option (List (String × Ty))) (σ : String → String) (g : String)
    (c : String → List Val → Option Val) : Prop where
  same : ∀ f, P f = none → σ f = f
  copy : ∀ f ps, P f = some ps → ∀ ws, ws.length = nonFn ps → c f (fillFn g ps ws) = c (σ f) ws

section
variable {I : Interp} {P : String → Option (List (String × Ty))} {σ : String → String} {p g : String}
  {c : String → List Val → Option Val} {ρ ρ' : Env}

theorem evalCs_length {es : List Expr} {vs : List Val} (h : evalCs I c ρ es = some vs) : vs.length = es.length := by
  have := evalCs_eq.1 h
  induction this with
  | nil => rfl
  | cons h1 h2 ih => simp [ih (evalCs_eq.2 h2)]

mutual
theorem specE_eval (hc : CallRel P σ g c) (hρ : EnvRel p g ρ ρ') : ∀ e : Expr, SpecOk P p e →
    evalC I c ρ e = evalC I c ρ' (specE σ g e)
  | .var n t, h => by simp only [evalC, specE]; rw [hρ.2 n h]
  | .lit l, _ => rfl
  | .node op t args, h => by
    cases op with
    | call f =>
      simp only [SpecOk] at h
      simp only [evalC, specE]
      cases hP : P f with
      | some ps =>
        rw [hP] at h
        obtain ⟨h1, h2⟩ := specArgs_eval hc hρ ps args h
        rw [h1]
        cases hv : evalCs I c ρ' (specDrop σ g args) with
        | none => rfl
        | some ws =>
          simp only [Option.map_some, Option.bind_some]
          exact hc.copy f ps hP ws (by rw [evalCs_length hv, h2])
      | none =>
        rw [hP] at h
        rw [specNoFn_eval hc hρ args h, hc.same f hP]
    | callValue =>
      cases args with
      | nil => exact absurd h (by simp [SpecOk])
      | cons v args =>
        simp only [SpecOk] at h
        obtain ⟨⟨t', rfl⟩, h2⟩ := h
        simp only [evalC, specE, evalCs]
        rw [specAll_eval hc hρ args h2, hρ.1]
        cases evalCs I c ρ' (specMap σ g args) with
        | none => rfl
        | some ws => rfl
    | ite =>
      simp only [SpecOk] at h
      by_cases h3 : args.length = 3
      · obtain ⟨x, y, z, rfl⟩ := length_three h3
        simp only [SpecAll] at h
        simp only [evalC, specE, specMap]
        rw [specE_eval hc hρ x h.1, specE_eval hc hρ y h.2.1, specE_eval hc hρ z h.2.2.1]
      · simp only [specE]
        have h3' : (specMap σ g args).length ≠ 3 := by
          have : ∀ es : List Expr, (specMap σ g es).length = es.length := by
            intro es; induction es with
            | nil => rfl
            | cons e es ih => simp [specMap, ih]
          rw [this]; exact h3
        rw [evalC_ite_bad h3, evalC_ite_bad h3', specAll_eval hc hρ args h]
    | _ =>
      simp only [SpecOk] at h
      simp only [evalC, specE]
      rw [specAll_eval hc hρ args h]
theorem specAll_eval (hc : CallRel P σ g c) (hρ : EnvRel p g ρ ρ') : ∀ es : List Expr, SpecAll P p es →
    evalCs I c ρ es = evalCs I c ρ' (specMap σ g es)
  | [], _ => rfl
  | a :: as, h => by
    simp only [evalCs, specMap]
    rw [specE_eval hc hρ a h.1, specAll_eval hc hρ as h.2]
theorem specNoFn_eval (hc : CallRel P σ g c) (hρ : EnvRel p g ρ ρ') : ∀ es : List Expr, SpecNoFn P p es →
    evalCs I c ρ es = evalCs I c ρ' (specDrop σ g es)
  | [], _ => rfl
  | a :: as, h => by
    simp only [specDrop]
    rw [if_neg (by rw [h.1]; decide)]
    simp only [evalCs]
    rw [specE_eval hc hρ a h.2.1, specNoFn_eval hc hρ as h.2.2]
theorem specArgs_eval (hc : CallRel P σ g c) (hρ : EnvRel p g ρ ρ') : ∀ (ps : List (String × Ty)) (es : List Expr),
    SpecArgs P p ps es →
    evalCs I c ρ es = (evalCs I c ρ' (specDrop σ g es)).map (fillFn g ps) ∧ (specDrop σ g es).length = nonFn ps
  | ps, [], h => by
    cases ps with
    | nil => exact ⟨rfl, rfl⟩
    | cons q ps => exact absurd h (by simp [SpecArgs])
  | ps, a :: as, h => by
    cases ps with
    | nil => exact absurd h (by simp [SpecArgs])
    | cons q ps =>
      obtain ⟨qn, qt⟩ := q
      simp only [SpecArgs] at h
      obtain ⟨h1, h2⟩ := h
      obtain ⟨ih1, ih2⟩ := specArgs_eval hc hρ ps as h2
      simp only [specDrop]
      by_cases hq : qt.isFn = true
      · simp only [hq, if_true] at h1
        obtain ⟨t, rfl, ht⟩ := h1
        simp only [Expr.ty, ht, if_true]
        refine ⟨?_, by simp [nonFn, filterArgs, hq, ih2]⟩
        simp only [evalCs, evalC, Option.bind_some]
        rw [ih1, hρ.1]
        cases evalCs I c ρ' (specDrop σ g as) with
        | none => rfl
        | some ws => simp [fillFn, hq]
      · simp only [hq] at h1
        obtain ⟨h1a, h1b⟩ := h1
        rw [if_neg (by rw [h1a]; decide)]
        refine ⟨?_, by simp [nonFn, filterArgs, hq, ih2]⟩
        simp only [evalCs]
        rw [ih1, specE_eval hc hρ a h1b]
        cases evalC I c ρ' (specE σ g a) with
        | none => rfl
        | some w =>
          cases evalCs I c ρ' (specDrop σ g as) with
          | none => rfl
          | some ws => simp [fillFn, hq]
end
end

theorem fillFn_length (g : String) : ∀ (ps : List (String × Ty)) (ws : List Val), ws.length = nonFn ps →
    (fillFn g ps ws).length = ps.length
  | [], ws, h => rfl
  | (n, t) :: ps, ws, h => by
    by_cases ht : t.isFn = true
    · simp only [fillFn, ht, if_true, List.length_cons]
      rw [fillFn_length g ps ws (by simpa [nonFn, filterArgs, ht] using h)]
    · cases ws with
      | nil => simp [nonFn, filterArgs, ht] at h
      | cons w ws =>
        simp only [fillFn, ht, Bool.false_eq_true, if_false, List.length_cons]
        rw [fillFn_length g ps ws (by simpa [nonFn, filterArgs, ht] using h)]

theorem bind_fill (ρ : Env) (p g : String) : ∀ (ps : List (String × Ty)) (ws : List Val), ws.length = nonFn ps →
    (∀ q ∈ ps, q.2.isFn = true ↔ q.1 = p) →
    ((∃ t, (p, t) ∈ ps) → bindParams ρ ps (fillFn g ps ws) p = .fn g) ∧
    ∀ x, x ≠ p → bindParams ρ ps (fillFn g ps ws) x = bindParams ρ (filterArgs ps) ws x
  | [], ws, h, hq => by
    refine ⟨?_, ?_⟩
    · rintro ⟨t, ht⟩; simp at ht
    · intro x hx; cases ws <;> simp [bindParams, filterArgs]
  | (n, t) :: ps, ws, h, hq => by
    have hq' : ∀ q ∈ ps, q.2.isFn = true ↔ q.1 = p := fun q hm => hq q (by simp [hm])
    have hn := hq (n, t) (by simp)
    by_cases ht : t.isFn = true
    · obtain ⟨ih1, ih2⟩ := bind_fill ρ p g ps ws (by simpa [nonFn, filterArgs, ht] using h) hq'
      have hnp : n = p := hn.1 ht
      subst hnp
      have hfa : filterArgs ((n, t) :: ps) = filterArgs ps := by simp [filterArgs, ht]
      refine ⟨?_, ?_⟩
      · intro _; simp [fillFn, ht, bindParams, Env.set]
      · intro x hx
        rw [hfa, ← ih2 x hx]
        simp [fillFn, ht, bindParams, Env.set, hx]
    · cases ws with
      | nil => simp [nonFn, filterArgs, ht] at h
      | cons w ws =>
        obtain ⟨ih1, ih2⟩ := bind_fill ρ p g ps ws (by simpa [nonFn, filterArgs, ht] using h) hq'
        have hnp : n ≠ p := fun e => ht (hn.2 e)
        have hfa : filterArgs ((n, t) :: ps) = (n, t) :: filterArgs ps := by simp [filterArgs, ht]
        refine ⟨?_, ?_⟩
        · rintro ⟨t', ht'⟩
          rcases List.mem_cons.1 ht' with e | e
          · exact absurd (by cases e; rfl) hnp
          · simp only [fillFn, ht, Bool.false_eq_true, if_false, bindParams, Env.set]
            rw [if_neg (fun e => hnp e.symm)]
            exact ih1 ⟨t', e⟩
        · intro x hx
          rw [hfa]
          simp only [fillFn, ht, Bool.false_eq_true, if_false, bindParams, Env.set]
          rw [ih2 x hx]

/-- A family of functions with copies: every `f` with `P f = some ps` is defined with parameters `ps` (one of
them, `pn f`, a function) and a supported body, and `σ f` is defined by the rewritten body. -/
structure Family (D : FnDict) (P : String → Option (List (String × Ty))) (σ : String → String) (g : String) : Prop where
  same : ∀ f, P f = none → σ f = f
  defs : ∀ f ps, P f = some ps → ∃ d d' b p, D.lookup f = some d ∧ d.params = ps ∧ d.body = some b ∧
    D.lookup (σ f) = some d' ∧ d'.params = filterArgs ps ∧ d'.body = some (specE σ g b) ∧
    OneFnParam p ps ∧ SpecOk P p b

/-- Copies compute what the originals compute, with the same depth of recursion. -/
theorem Family.callRel {D : FnDict} {P : String → Option (List (String × Ty))} {σ : String → String} {g : String}
    (F : Family D P σ g) (I : Interp) (ρ : Env) : ∀ n, CallRel P σ g (callN I ρ D n) := by
  intro n
  induction n with
  | zero =>
    refine ⟨F.same, ?_⟩
    intro f ps hf ws hws
    obtain ⟨d, d', b, p, h1, h2, h3, h4, h5, h6, _, _⟩ := F.defs f ps hf
    rw [callN, callN]
    simp [h1, h2, h3, h4, h5, h6]
  | succ n ih =>
    refine ⟨F.same, ?_⟩
    intro f ps hf ws hws
    obtain ⟨d, d', b, p, h1, h2, h3, h4, h5, h6, h7, h8⟩ := F.defs f ps hf
    rw [callN, callN]
    simp only [h1, h3, h4, h6, Option.bind_some, Option.map_some, h2, h5]
    rw [if_pos (fillFn_length g ps ws hws).symm, if_pos (by rw [hws]; rfl)]
    obtain ⟨⟨t, ht, _⟩, hq⟩ := h7
    obtain ⟨b1, b2⟩ := bind_fill ρ p g ps ws hws hq
    exact specE_eval ih ⟨b1 ⟨t, ht⟩, b2⟩ b h8

/-! ### C18 -/

theorem append_ne (a b : String) (hb : b ≠ "") : a ++ b ≠ a := by
  intro h
  have := congrArg String.length h
  rw [String.length_append] at this
  have : b.length = 0 := by omega
  exact hb (String.length_eq_zero_iff.1 this)

theorem copy_ne (a b : String) : a ++ "_" ++ b ≠ a := by
  rw [String.append_assoc]
  refine append_ne a ("_" ++ b) ?_
  intro h
  have := congrArg String.length h
  rw [String.length_append] at this
  have h1 : "_".length = 1 := rfl
  have h0 : "".length = 0 := rfl
  omega

/-- The copy and the original need the same depth of recursion. -/
theorem copy_fuel (I : Interp) (ρ : Env) (D : FnDict) (t d : FnDecl) (g p : String)
    (hd : specialise t g = some d)
    (hDt : D.lookup t.name = some t) (hDd : D.lookup d.name = some d)
    (hp : OneFnParam p t.params)
    (hb : ∀ b, t.body = some b → SpecOk (fun f => if f = t.name then some t.params else none) p b)
    (ws : List Val) (hws : ws.length = d.params.length) (n : Nat) :
    callN I ρ D n t.name (fillFn g t.params ws) = callN I ρ D n d.name ws := by
  unfold specialise at hd
  cases hbody : t.body with
  | none => simp [hbody] at hd
  | some b =>
    simp only [hbody, Option.map_eq_some_iff] at hd
    obtain ⟨b', hb', rfl⟩ := hd
    have e := filterBody_spec _ _ _ _ _ hb'
    have F : Family D (fun f => if f = t.name then some t.params else none) (ren1 (t.name ++ "_" ++ g) t.name) g := by
      refine ⟨?_, ?_⟩
      · intro f hf
        have : f ≠ t.name := fun h => by simp [h] at hf
        exact if_neg (fun h => this h.symm)
      · intro f ps hf
        by_cases h : f = t.name
        · subst h
          simp only [if_true, Option.some.injEq] at hf
          subst hf
          refine ⟨t, _, b, p, hDt, rfl, hbody, by rw [ren1, if_pos rfl]; exact hDd, rfl, by rw [e], hp, hb b hbody⟩
        · simp [h] at hf
    have := (F.callRel I ρ n).copy t.name t.params (by simp) ws hws
    rw [this, ren1_eq]

/-- C18, first round of the rewriting: for a function `t` with exactly one function parameter `p` that is only applied or passed on
unchanged to `t` itself, the copy made for `g` computes, on all arguments, what `t` computes when `g` is passed for `p`.
Missing: functions with several function parameters, and functions passing `p` to other higher-order functions together with
applying it; both are refuted below or covered by the next theorem. -/
theorem C18_copy_partial (I : Interp) (ρ : Env) (D : FnDict) (t d : FnDecl) (g p : String)
    (hd : specialise t g = some d)
    (hDt : D.lookup t.name = some t) (hDd : D.lookup d.name = some d)
    (hp : OneFnParam p t.params)
    (hb : ∀ b, t.body = some b → SpecOk (fun f => if f = t.name then some t.params else none) p b)
    (ws : List Val) (hws : ws.length = d.params.length) (v : Val) :
    Computes I ρ D d.name ws v ↔ Computes I ρ D t.name (fillFn g t.params ws) v := by
  have key := copy_fuel I ρ D t d g p hd hDt hDd hp hb ws hws
  constructor
  · rintro ⟨n, h⟩; exact ⟨n, (key n).trans h⟩
  · rintro ⟨n, h⟩; exact ⟨n, (key n).symm.trans h⟩

/-- C18, second round: `t2` has one function parameter which it passes to `t` (and to itself); its copy for the copy `d`
of `t` computes what `t2` computes when `g` is passed, on all arguments.
`t` does not call `t2` (the definitions are sorted). -/
theorem C18_caller_partial (I : Interp) (ρ : Env) (D : FnDict) (t d t2 d2 : FnDecl) (g p p2 : String)
    (hd : specialise t g = some d) (hd2 : specialiseCaller t2 d.name t.name = some d2)
    (hDt : D.lookup t.name = some t) (hDd : D.lookup d.name = some d)
    (hDt2 : D.lookup t2.name = some t2) (hDd2 : D.lookup d2.name = some d2)
    (hne : t2.name ≠ t.name) (hne2 : t2.name ≠ d.name)
    (hp : OneFnParam p t.params) (hp2 : OneFnParam p2 t2.params)
    (hb : ∀ b, t.body = some b → t2.name ∉ b.callNames ∧
      SpecOk (fun f => if f = t.name then some t.params else none) p b)
    (hb2 : ∀ b, t2.body = some b →
      SpecOk (fun f => if f = t.name then some t.params else if f = t2.name then some t2.params else none) p2 b)
    (ws : List Val) (hws : ws.length = d2.params.length) (v : Val) :
    Computes I ρ D d2.name ws v ↔ Computes I ρ D t2.name (fillFn g t2.params ws) v := by
  unfold specialise at hd
  cases hbody : t.body with
  | none => simp [hbody] at hd
  | some b =>
    simp only [hbody, Option.map_eq_some_iff] at hd
    obtain ⟨b', hb', rfl⟩ := hd
    unfold specialiseCaller at hd2
    cases hbody2 : t2.body with
    | none => simp [hbody2] at hd2
    | some b2 =>
      simp only [hbody2, Option.bind_eq_some_iff, Option.map_eq_some_iff] at hd2
      obtain ⟨b2', hb2', b2'', hb2'', rfl⟩ := hd2
      simp only at hne2 hDd hDd2 hb2' hb2''
      generalize hN : t.name ++ "_" ++ g = N at *
      generalize hM : t2.name ++ "_" ++ N = M at *
      have e := filterBody_spec _ _ _ _ _ hb'
      have e2 : b2'' = specE (fun f => ren1 M t2.name (ren1 N t.name f)) g b2 := by
        rw [filterBody_none _ _ _ _ hb2'' g]
        exact filterBody_comp _ _ _ g _ _ hb2'
      have F : Family D (fun f => if f = t.name then some t.params else if f = t2.name then some t2.params else none)
          (fun f => ren1 M t2.name (ren1 N t.name f)) g := by
        refine ⟨?_, ?_⟩
        · intro f hf
          have h1 : f ≠ t.name := fun h => by simp [h] at hf
          have h2 : f ≠ t2.name := fun h => by subst h; simp [hne] at hf
          have r1 : ren1 N t.name f = f := if_neg (fun h => h1 h.symm)
          show ren1 M t2.name (ren1 N t.name f) = f
          rw [r1]
          exact if_neg (fun h => h2 h.symm)
        · intro f ps hf
          by_cases h : f = t.name
          · subst h
            simp only [if_true, Option.some.injEq] at hf
            subst hf
            have hren : ren1 M t2.name (ren1 N t.name t.name) = N := by
              rw [ren1_eq, ren1_ne hne2]
            have ht2 := (hb b hbody).1
            refine ⟨t, _, b, p, hDt, rfl, hbody, by rw [hren]; exact hDd, rfl, ?_, hp, ?_⟩
            · rw [e]
              refine congrArg some (specE_congr _ _ g b ?_)
              intro f hf
              have hft2 : f ≠ t2.name := fun h => ht2 (h ▸ hf)
              show ren1 N t.name f = ren1 M t2.name (ren1 N t.name f)
              by_cases h : t.name = f
              · rw [← h, ren1_eq, ren1_ne hne2]
              · rw [ren1_ne h, ren1_ne (fun h' => hft2 h'.symm)]
            · refine SpecOk.congr b ?_ (hb b hbody).2
              intro f hf
              have hft2 : f ≠ t2.name := fun h => ht2 (h ▸ hf)
              simp [hft2]
          · by_cases h' : f = t2.name
            · subst h'
              simp only [h, if_true, if_false, Option.some.injEq] at hf
              subst hf
              have hren : ren1 M t2.name (ren1 N t.name t2.name) = M := by
                rw [ren1_ne (fun h' => hne h'.symm), ren1_eq]
              exact ⟨t2, _, b2, p2, hDt2, rfl, hbody2, by rw [hren]; exact hDd2, rfl, by rw [e2], hp2, hb2 b2 hbody2⟩
            · simp [h, h'] at hf
      have key : ∀ n, callN I ρ D n t2.name (fillFn g t2.params ws) = callN I ρ D n M ws := by
        intro n
        have := (F.callRel I ρ n).copy t2.name t2.params (by simp [hne]) ws hws
        rw [this]
        show callN I ρ D n (ren1 M t2.name (ren1 N t.name t2.name)) ws = _
        rw [ren1_ne (fun h' => hne h'.symm), ren1_eq]
      constructor
      · rintro ⟨n, h⟩; exact ⟨n, (key n).trans h⟩
      · rintro ⟨n, h⟩; exact ⟨n, (key n).symm.trans h⟩

/-! ### Call sites -/

/-- All renamings of one round applied to a candidate (`metalift/smt_util.py` 384-396), then the removal of the function
arguments (471). -/
def rewriteSites (entries : List ((String × String) × String)) (e : Expr) : Expr :=
  filterFnArgs (entries.foldl (fun e x => replaceInCall x.2 x.1.1 x.1.2 e) e)

mutual
/-- Every call with function arguments passes exactly the function `g` at the function parameters of a function `f`
for which the copy for `g` exists. -/
def SitesOk (PS : String → List (String × Ty)) (entries : List ((String × String) × String)) : Expr → Prop
  | .var _ t => t.isFn = false
  | .lit _ => True
  | .node (.call f) _ args =>
    SitesNoFn PS entries args ∨ ∃ g, (∃ n, ((f, g), n) ∈ entries) ∧ SitesArgs PS entries g (PS f) args
  | .node .callValue _ _ => False
  | .node _ _ args => SitesAll PS entries args
def SitesArgs (PS : String → List (String × Ty)) (entries : List ((String × String) × String)) (g : String) :
    List (String × Ty) → List Expr → Prop
  | [], [] => True
  | q :: ps, a :: as =>
    (if q.2.isFn then ∃ t, a = .var g t ∧ t.isFn = true else a.ty.isFn = false ∧ SitesOk PS entries a) ∧
      SitesArgs PS entries g ps as
  | _, _ => False
def SitesNoFn (PS : String → List (String × Ty)) (entries : List ((String × String) × String)) : List Expr → Prop
  | [] => True
  | a :: as => a.ty.isFn = false ∧ SitesOk PS entries a ∧ SitesNoFn PS entries as
def SitesAll (PS : String → List (String × Ty)) (entries : List ((String × String) × String)) : List Expr → Prop
  | [] => True
  | a :: as => SitesOk PS entries a ∧ SitesAll PS entries as
end

/-- The name of a call after all renamings. -/
def siteName (entries : List ((String × String) × String)) (f : String) (args : List Expr) : String :=
  entries.foldl (fun n x => if n = x.1.1 && args.any (isFnArg x.1.2) then x.2 else n) f

/-- All renamings. -/
def sitesFold (entries : List ((String × String) × String)) (e : Expr) : Expr :=
  entries.foldl (fun e x => replaceInCall x.2 x.1.1 x.1.2 e) e

theorem replaceInCalls_map (new old g : String) (es : List Expr) :
    replaceInCalls new old g es = es.map (replaceInCall new old g) := by
  induction es with
  | nil => rfl
  | cons e es ih => simp [replaceInCalls, ih]

theorem isFnArg_replace (h new old g : String) (e : Expr) : isFnArg h (replaceInCall new old g e) = isFnArg h e := by
  cases e with
  | var n t => rfl
  | lit l => rfl
  | node op t args => cases op <;> rfl

theorem any_isFnArg_replace (h new old g : String) (es : List Expr) :
    (es.map (replaceInCall new old g)).any (isFnArg h) = es.any (isFnArg h) := by
  induction es with
  | nil => rfl
  | cons e es ih => simp [isFnArg_replace, ih]

theorem siteName_congr : ∀ (entries : List ((String × String) × String)) (f : String) (as bs : List Expr),
    (∀ h, as.any (isFnArg h) = bs.any (isFnArg h)) → siteName entries f as = siteName entries f bs
  | [], _, _, _, _ => rfl
  | x :: xs, f, as, bs, h => by
    simp only [siteName, List.foldl_cons]
    rw [h x.1.2]
    exact siteName_congr xs _ as bs h

theorem sitesFold_call : ∀ (entries : List ((String × String) × String)) (f : String) (t : Ty) (args : List Expr),
    sitesFold entries (.node (.call f) t args) =
      .node (.call (siteName entries f args)) t (args.map (sitesFold entries))
  | [], f, t, args => by
    show _ = Expr.node (.call f) t (args.map id)
    rw [List.map_id]; rfl
  | x :: xs, f, t, args => by
    have ih := sitesFold_call xs (if f = x.1.1 && args.any (isFnArg x.1.2) then x.2 else f) t
      (args.map (replaceInCall x.2 x.1.1 x.1.2))
    simp only [sitesFold, List.foldl_cons, siteName, replaceInCall, replaceInCalls_map] at ih ⊢
    rw [ih]
    have := siteName_congr xs (if f = x.1.1 && args.any (isFnArg x.1.2) then x.2 else f)
      (args.map (replaceInCall x.2 x.1.1 x.1.2)) args (fun h => any_isFnArg_replace h _ _ _ args)
    simp only [siteName] at this
    rw [this, List.map_map]
    rfl

theorem sitesFold_node {op : Op} (hop : ∀ f, op ≠ .call f) : ∀ (entries : List ((String × String) × String)) (t : Ty)
    (args : List Expr), sitesFold entries (.node op t args) = .node op t (args.map (sitesFold entries))
  | [], t, args => by
    show _ = Expr.node op t (args.map id)
    rw [List.map_id]; rfl
  | x :: xs, t, args => by
    have ih := sitesFold_node hop xs t (args.map (replaceInCall x.2 x.1.1 x.1.2))
    have hr : replaceInCall x.2 x.1.1 x.1.2 (.node op t args) = .node op t (args.map (replaceInCall x.2 x.1.1 x.1.2)) := by
      cases op <;> first
        | (exact absurd rfl (hop _))
        | (simp only [replaceInCall, replaceInCalls_map])
    simp only [sitesFold, List.foldl_cons] at ih ⊢
    rw [hr, ih, List.map_map]
    rfl

theorem sitesFold_var (entries : List ((String × String) × String)) (n : String) (t : Ty) :
    sitesFold entries (.var n t) = .var n t := by
  induction entries with
  | nil => rfl
  | cons x xs ih => simpa [sitesFold, replaceInCall] using ih

theorem sitesFold_lit (entries : List ((String × String) × String)) (l : Lit) :
    sitesFold entries (.lit l) = .lit l := by
  induction entries with
  | nil => rfl
  | cons x xs ih => simpa [sitesFold, replaceInCall] using ih

theorem sitesFold_ty (entries : List ((String × String) × String)) (e : Expr) : (sitesFold entries e).ty = e.ty := by
  cases e with
  | var n t => rw [sitesFold_var]
  | lit l => rw [sitesFold_lit]
  | node op t args =>
    by_cases h : ∃ f, op = .call f
    · obtain ⟨f, rfl⟩ := h; rw [sitesFold_call]; rfl
    · rw [sitesFold_node (fun f hf => h ⟨f, hf⟩)]; rfl

/-- The entries are a dictionary (`in_calls_to_renamed_fn_name`) whose new names are not themselves renamed. -/
def EntriesOk (entries : List ((String × String) × String)) : Prop :=
  (∀ x ∈ entries, ∀ y ∈ entries, x.1 = y.1 → x.2 = y.2) ∧ ∀ x ∈ entries, ∀ y ∈ entries, x.2 ≠ y.1.1

theorem siteName_none : ∀ (entries : List ((String × String) × String)) (f : String) (args : List Expr),
    (∀ x ∈ entries, ¬ (f = x.1.1 ∧ args.any (isFnArg x.1.2) = true)) → siteName entries f args = f
  | [], _, _, _ => rfl
  | x :: xs, f, args, h => by
    have h0 := h x (by simp)
    simp only [siteName, List.foldl_cons]
    rw [if_neg (by simpa using h0)]
    exact siteName_none xs f args (fun y hy => h y (by simp [hy]))

theorem siteName_some : ∀ (entries : List ((String × String) × String)) (f g n : String) (args : List Expr),
    (∀ x ∈ entries, x.1 = (f, g) → x.2 = n) → (∀ x ∈ entries, n ≠ x.1.1) →
    (∀ h, args.any (isFnArg h) = decide (h = g)) → (∃ m, ((f, g), m) ∈ entries) →
    siteName entries f args = n
  | [], _, _, _, _, _, _, _, h => by obtain ⟨m, hm⟩ := h; simp at hm
  | x :: xs, f, g, n, args, h1, h2, h3, h4 => by
    simp only [siteName, List.foldl_cons]
    by_cases hx : x.1 = (f, g)
    · have hc : (decide (f = x.1.1) && args.any (isFnArg x.1.2)) = true := by simp [hx, h3]
      rw [if_pos hc, h1 x (by simp) hx]
      refine siteName_none xs n args ?_
      rintro y hy ⟨e, _⟩
      exact h2 y (by simp [hy]) e
    · have hc : ¬ (decide (f = x.1.1) && args.any (isFnArg x.1.2)) = true := by
        intro hc
        simp only [Bool.and_eq_true, decide_eq_true_eq, h3] at hc
        exact hx (by rw [hc.1, ← hc.2])
      rw [if_neg hc]
      refine siteName_some xs f g n args (fun y hy => h1 y (by simp [hy])) (fun y hy => h2 y (by simp [hy])) h3 ?_
      obtain ⟨m, hm⟩ := h4
      rcases List.mem_cons.1 hm with e | e
      · exact absurd (by rw [← e]) hx
      · exact ⟨m, e⟩

theorem isFnArg_notFn {a : Expr} {h : String} (ha : a.ty.isFn = false) : isFnArg h a = false := by
  cases a with
  | var n t => simp only [isFnArg]; rw [show t.isFn = false from ha]; rfl
  | _ => rfl

section
variable {I : Interp} {PS : String → List (String × Ty)} {entries : List ((String × String) × String)}
  {c : String → List Val → Option Val} {ρ : Env}

theorem sitesNoFn_any : ∀ (es : List Expr), SitesNoFn PS entries es → ∀ h, es.any (isFnArg h) = false
  | [], _, _ => rfl
  | a :: as, hs, h => by
    simp only [List.any_cons, isFnArg_notFn hs.1, Bool.false_or]
    exact sitesNoFn_any as hs.2.2 h

theorem sitesArgs_any {g : String} : ∀ (ps : List (String × Ty)) (es : List Expr), SitesArgs PS entries g ps es → ∀ h,
    es.any (isFnArg h) = (decide (h = g) && ps.any (fun q => q.2.isFn))
  | [], [], _, _ => by simp
  | [], _ :: _, hs, _ => absurd hs (by simp [SitesArgs])
  | _ :: _, [], hs, _ => absurd hs (by simp [SitesArgs])
  | q :: ps, a :: as, hs, h => by
    simp only [SitesArgs] at hs
    have ih := sitesArgs_any ps as hs.2 h
    simp only [List.any_cons, ih]
    by_cases hq : q.2.isFn = true
    · rw [if_pos hq] at hs
      obtain ⟨⟨t, rfl, ht⟩, _⟩ := hs
      simp only [isFnArg, ht, hq, Bool.true_and, Bool.true_or, Bool.and_true]
      by_cases e : h = g
      · simp [e]
      · simp [e]; exact fun e' => e e'.symm
    · rw [if_neg hq] at hs
      rw [isFnArg_notFn hs.1.1]
      simp [hq]

mutual
theorem sites_eval (hE : EntriesOk entries) (hρ : ∀ x ∈ entries, ρ x.1.2 = .fn x.1.2)
    (hfn : ∀ x ∈ entries, (PS x.1.1).any (fun q => q.2.isFn) = true)
    (hc : ∀ x ∈ entries, ∀ ws, ws.length = nonFn (PS x.1.1) → c x.1.1 (fillFn x.1.2 (PS x.1.1) ws) = c x.2 ws) :
    ∀ e : Expr, SitesOk PS entries e → evalC I c ρ e = evalC I c ρ (filterFnArgs (sitesFold entries e))
  | .var n t, _ => by rw [sitesFold_var]; rfl
  | .lit l, _ => by rw [sitesFold_lit]; rfl
  | .node op t args, h => by
    cases op with
    | call f =>
      rw [sitesFold_call]
      simp only [SitesOk] at h
      simp only [filterFnArgs, evalC]
      rcases h with h | ⟨g, ⟨n, hn⟩, h⟩
      · rw [siteName_none entries f args (fun x _ hx => by simp [sitesNoFn_any args h] at hx),
          sitesNoFn_eval hE hρ hfn hc args h]
      · have hany : ∀ h, args.any (isFnArg h) = decide (h = g) := by
          intro h'
          rw [sitesArgs_any _ _ h h', hfn _ hn, Bool.and_true]
        rw [siteName_some entries f g n args (fun x hx e => hE.1 x hx _ hn e) (fun x hx => hE.2 _ hn x hx) hany ⟨n, hn⟩]
        obtain ⟨h1, h2⟩ := sitesArgs_eval hE hρ hfn hc (hρ _ hn) (PS f) args h
        rw [h1]
        cases hv : evalCs I c ρ (filterFnArgsDrop (args.map (sitesFold entries))) with
        | none => rfl
        | some ws =>
          simp only [Option.map_some, Option.bind_some]
          exact hc _ hn ws (by rw [evalCs_length hv, h2])
    | callValue => exact absurd h (by simp [SitesOk])
    | ite =>
      simp only [SitesOk] at h
      rw [sitesFold_node (by simp)]
      simp only [filterFnArgs]
      by_cases h3 : args.length = 3
      · obtain ⟨x, y, z, rfl⟩ := length_three h3
        simp only [SitesAll] at h
        simp only [List.map_cons, List.map_nil, filterFnArgsMap, evalC]
        rw [sites_eval hE hρ hfn hc x h.1, sites_eval hE hρ hfn hc y h.2.1, sites_eval hE hρ hfn hc z h.2.2.1]
      · have hl : ∀ es : List Expr, (filterFnArgsMap es).length = es.length := by
          intro es; induction es with
          | nil => rfl
          | cons e es ih => simp [filterFnArgsMap, ih]
        rw [evalC_ite_bad h3, evalC_ite_bad (by rw [hl, List.length_map]; exact h3), sitesAll_eval hE hρ hfn hc args h]
    | _ =>
      simp only [SitesOk] at h
      rw [sitesFold_node (by simp)]
      simp only [filterFnArgs, evalC]
      rw [sitesAll_eval hE hρ hfn hc args h]
theorem sitesAll_eval (hE : EntriesOk entries) (hρ : ∀ x ∈ entries, ρ x.1.2 = .fn x.1.2)
    (hfn : ∀ x ∈ entries, (PS x.1.1).any (fun q => q.2.isFn) = true)
    (hc : ∀ x ∈ entries, ∀ ws, ws.length = nonFn (PS x.1.1) → c x.1.1 (fillFn x.1.2 (PS x.1.1) ws) = c x.2 ws) :
    ∀ es : List Expr, SitesAll PS entries es →
      evalCs I c ρ es = evalCs I c ρ (filterFnArgsMap (es.map (sitesFold entries)))
  | [], _ => rfl
  | a :: as, h => by
    simp only [List.map_cons, filterFnArgsMap, evalCs]
    rw [sites_eval hE hρ hfn hc a h.1, sitesAll_eval hE hρ hfn hc as h.2]
theorem sitesNoFn_eval (hE : EntriesOk entries) (hρ : ∀ x ∈ entries, ρ x.1.2 = .fn x.1.2)
    (hfn : ∀ x ∈ entries, (PS x.1.1).any (fun q => q.2.isFn) = true)
    (hc : ∀ x ∈ entries, ∀ ws, ws.length = nonFn (PS x.1.1) → c x.1.1 (fillFn x.1.2 (PS x.1.1) ws) = c x.2 ws) :
    ∀ es : List Expr, SitesNoFn PS entries es →
      evalCs I c ρ es = evalCs I c ρ (filterFnArgsDrop (es.map (sitesFold entries)))
  | [], _ => rfl
  | a :: as, h => by
    simp only [List.map_cons, filterFnArgsDrop, sitesFold_ty]
    rw [if_neg (by rw [h.1]; decide)]
    simp only [evalCs]
    rw [sites_eval hE hρ hfn hc a h.2.1, sitesNoFn_eval hE hρ hfn hc as h.2.2]
theorem sitesArgs_eval (hE : EntriesOk entries) (hρ : ∀ x ∈ entries, ρ x.1.2 = .fn x.1.2)
    (hfn : ∀ x ∈ entries, (PS x.1.1).any (fun q => q.2.isFn) = true)
    (hc : ∀ x ∈ entries, ∀ ws, ws.length = nonFn (PS x.1.1) → c x.1.1 (fillFn x.1.2 (PS x.1.1) ws) = c x.2 ws)
    {g : String} (hg : ρ g = .fn g) : ∀ (ps : List (String × Ty)) (es : List Expr), SitesArgs PS entries g ps es →
      evalCs I c ρ es = (evalCs I c ρ (filterFnArgsDrop (es.map (sitesFold entries)))).map (fillFn g ps) ∧
        (filterFnArgsDrop (es.map (sitesFold entries))).length = nonFn ps
  | ps, [], h => by
    cases ps with
    | nil => exact ⟨rfl, rfl⟩
    | cons q ps => exact absurd h (by simp [SitesArgs])
  | ps, a :: as, h => by
    cases ps with
    | nil => exact absurd h (by simp [SitesArgs])
    | cons q ps =>
      obtain ⟨qn, qt⟩ := q
      simp only [SitesArgs] at h
      obtain ⟨h1, h2⟩ := h
      obtain ⟨ih1, ih2⟩ := sitesArgs_eval hE hρ hfn hc hg ps as h2
      simp only [List.map_cons, filterFnArgsDrop, sitesFold_ty]
      by_cases hq : qt.isFn = true
      · simp only [hq, if_true] at h1
        obtain ⟨t, rfl, ht⟩ := h1
        simp only [Expr.ty, ht, if_true]
        refine ⟨?_, by simp [nonFn, filterArgs, hq, ih2]⟩
        simp only [evalCs, evalC, Option.bind_some]
        rw [ih1, hg]
        cases evalCs I c ρ (filterFnArgsDrop (as.map (sitesFold entries))) with
        | none => rfl
        | some ws => simp [fillFn, hq]
      · simp only [hq] at h1
        obtain ⟨h1a, h1b⟩ := h1
        rw [if_neg (by rw [h1a]; decide)]
        refine ⟨?_, by simp [nonFn, filterArgs, hq, ih2]⟩
        simp only [evalCs]
        rw [ih1, sites_eval hE hρ hfn hc a h1b]
        cases evalC I c ρ (filterFnArgs (sitesFold entries a)) with
        | none => rfl
        | some w =>
          cases evalCs I c ρ (filterFnArgsDrop (as.map (sitesFold entries))) with
          | none => rfl
          | some ws => simp [fillFn, hq]
end
end

/-- C18, call sites: in a candidate body in which every call with function arguments passes a named function `g` to a
function for which a copy for `g` was made, renaming the calls and dropping the function arguments does not change the value, for
every number of copies (also several copies of the same function), every nesting and every argument. -/
theorem C18_call_sites_partial (I : Interp) (ρ0 : Env) (D : FnDict) (PS : String → List (String × Ty))
    (entries : List ((String × String) × String)) (hE : EntriesOk entries)
    (hfn : ∀ x ∈ entries, (PS x.1.1).any (fun q => q.2.isFn) = true)
    (hcopy : ∀ x ∈ entries, ∀ n ws, ws.length = nonFn (PS x.1.1) →
      callN I ρ0 D n x.1.1 (fillFn x.1.2 (PS x.1.1) ws) = callN I ρ0 D n x.2 ws)
    (ρ : Env) (hρ : ∀ x ∈ entries, ρ x.1.2 = .fn x.1.2) (e : Expr) (he : SitesOk PS entries e) (n : Nat) :
    evalC I (callN I ρ0 D n) ρ (rewriteSites entries e) = evalC I (callN I ρ0 D n) ρ e :=
  (sites_eval hE hρ hfn (fun x hx ws h => hcopy x hx n ws h) e he).symm

/-! ### A concrete instance: `map` applied to `inc` -/

/-- `map(f, xs) = if xs = [] then [] else cons (f (head xs)) (map(f, tail xs))`. -/
def mapDecl : FnDecl :=
  { name := "map", ret := .list .int, params := [("f", .fn [.int, .int]), ("xs", .list .int)],
    body := some (mkIte (.list .int)
      (mkEq (mkCall "list_length" .int [.var "xs" (.list .int)]) (intLit 0))
      (mkCall "list_empty" (.list .int) [])
      (mkCall "list_prepend" (.list .int)
        [ .node .callValue .int [.var "f" (.fn [.int, .int]), mkCall "list_get" .int [.var "xs" (.list .int), intLit 0]],
          mkCall "map" (.list .int) [.var "f" (.fn [.int, .int]), mkCall "list_tail" (.list .int) [.var "xs" (.list .int), intLit 1]]])),
    recursive := true }

/-- A function calling `map` twice with its own function parameter. -/
def map2Decl : FnDecl :=
  { name := "map2", ret := .list .int, params := [("ys", .list .int), ("h", .fn [.int, .int])],
    body := some (mkCall "map" (.list .int) [.var "h" (.fn [.int, .int]),
      mkCall "map" (.list .int) [.var "h" (.fn [.int, .int]), .var "ys" (.list .int)]]) }

/-- The copy of `map` for `inc`: no function argument is left. -/
example : (specialise mapDecl "inc").bind FnDecl.body = some (mkIte (.list .int)
      (mkEq (mkCall "list_length" .int [.var "xs" (.list .int)]) (intLit 0))
      (mkCall "list_empty" (.list .int) [])
      (mkCall "list_prepend" (.list .int)
        [ mkCall "inc" .int [mkCall "list_get" .int [.var "xs" (.list .int), intLit 0]],
          mkCall "map_inc" (.list .int) [mkCall "list_tail" (.list .int) [.var "xs" (.list .int), intLit 1]]])) := by
  rfl

theorem mapDecl_ok : OneFnParam "f" mapDecl.params ∧ ∀ b, mapDecl.body = some b →
    "map2" ∉ b.callNames ∧ SpecOk (fun f => if f = mapDecl.name then some mapDecl.params else none) "f" b := by
  refine ⟨⟨⟨_, by simp [mapDecl]; rfl, rfl⟩, by simp [mapDecl, Ty.isFn]⟩, ?_⟩
  intro b hb
  cases hb
  refine ⟨by decide, ?_⟩
  simp [SpecOk, SpecAll, SpecNoFn, SpecArgs, mkIte, mkEq, mkCall, mapDecl, Expr.ty, Ty.isFn, intLit]

theorem map2Decl_ok : OneFnParam "h" map2Decl.params ∧ ∀ b, map2Decl.body = some b →
    SpecOk (fun f => if f = mapDecl.name then some mapDecl.params else if f = map2Decl.name then some map2Decl.params else none)
      "h" b := by
  refine ⟨⟨⟨_, by simp [map2Decl]; rfl, rfl⟩, by simp [map2Decl, Ty.isFn]⟩, ?_⟩
  intro b hb
  cases hb
  simp [SpecOk, SpecArgs, mkCall, mapDecl, Expr.ty, Ty.isFn]

/-- The dictionary with both functions and both copies. -/
def mapDict : FnDict :=
  [("map", mapDecl), ("map2", map2Decl),
   ("map_inc", (specialise mapDecl "inc").getD mapDecl),
   ("map2_map_inc", (specialiseCaller map2Decl "map_inc" "map").getD map2Decl)]

/-- All hypotheses of both theorems hold for it. -/
example (I : Interp) (ρ : Env) (xs : Val) (v : Val) :
    Computes I ρ mapDict "map_inc" [xs] v ↔ Computes I ρ mapDict "map" [.fn "inc", xs] v := by
  have := C18_copy_partial I ρ mapDict mapDecl ((specialise mapDecl "inc").getD mapDecl) "inc" "f" rfl rfl rfl
    mapDecl_ok.1 (fun b hb => (mapDecl_ok.2 b hb).2) [xs] rfl v
  exact this

example (I : Interp) (ρ : Env) (xs : Val) (v : Val) :
    Computes I ρ mapDict "map2_map_inc" [xs] v ↔ Computes I ρ mapDict "map2" [xs, .fn "inc"] v := by
  have := C18_caller_partial I ρ mapDict mapDecl ((specialise mapDecl "inc").getD mapDecl) map2Decl
    ((specialiseCaller map2Decl "map_inc" "map").getD map2Decl) "inc" "f" "h" rfl rfl rfl rfl rfl rfl (by decide) (by decide)
    mapDecl_ok.1 map2Decl_ok.1 mapDecl_ok.2 map2Decl_ok.2 [xs] rfl v
  exact this

/-- And those of the theorem about call sites: `map(inc, map(inc, ys))` becomes `map_inc(map_inc(ys))`. -/
def siteDemo : Expr :=
  mkCall "map" (.list .int) [.var "inc" (.fn [.int, .int]),
    mkCall "map" (.list .int) [.var "inc" (.fn [.int, .int]), .var "ys" (.list .int)]]

example : rewriteSites [(("map", "inc"), "map_inc")] siteDemo =
    mkCall "map_inc" (.list .int) [mkCall "map_inc" (.list .int) [.var "ys" (.list .int)]] := by rfl

example (I : Interp) (ρ0 ρ : Env) (hρ : ρ "inc" = .fn "inc") (n : Nat) :
    evalC I (callN I ρ0 mapDict n) ρ (rewriteSites [(("map", "inc"), "map_inc")] siteDemo) =
      evalC I (callN I ρ0 mapDict n) ρ siteDemo := by
  refine C18_call_sites_partial I ρ0 mapDict (fun _ => mapDecl.params) _ ?_ ?_ ?_ ρ ?_ siteDemo ?_ n
  · constructor
    · intro x hx y hy _; simp at hx hy; rw [hx, hy]
    · intro x hx y hy; simp at hx hy; rw [hx, hy]; decide
  · intro x hx; simp at hx; subst hx; rfl
  · intro x hx m ws hws
    simp at hx; subst hx
    exact copy_fuel I ρ0 mapDict mapDecl ((specialise mapDecl "inc").getD mapDecl) "inc" "f" rfl rfl rfl
      mapDecl_ok.1 (fun b hb => (mapDecl_ok.2 b hb).2) ws hws m
  · intro x hx; simp at hx; subst hx; exact hρ
  · refine .inr ⟨"inc", ⟨_, by simp; rfl⟩, ?_⟩
    simp [SitesArgs, SitesOk, SitesNoFn, mapDecl, Ty.isFn, Expr.ty, mkCall]

/-! ### Where the code does not have the property -/

/-- An interpretation for the counterexamples: `g1 x = x + 1`, `g2 x = 2 * x`. -/
def specI : Interp where
  fn f vs := match f, vs with
    | "g1", [.int i] => .int (i + 1)
    | "g2", [.int i] => .int (2 * i)
    | _, _ => .int 0
  apply _ _ := .int 0
  idiv := (· / ·)
  imod := (· % ·)
  choose _ := .int 0

/-- `t(f1, f2, x) = f1(x) + f2(x)`. -/
def twoFnDecl : FnDecl :=
  { name := "t", ret := .int, params := [("f1", .fn [.int, .int]), ("f2", .fn [.int, .int]), ("x", .int)],
    body := some (.node .add .int
      [ .node .callValue .int [.var "f1" (.fn [.int, .int]), .var "x" .int],
        .node .callValue .int [.var "f2" (.fn [.int, .int]), .var "x" .int] ]) }

/-- With two function parameters, neither of the two copies made computes what the call `t(g1, g2, 5)` computes. -/
theorem C18_two_function_parameters_refuted : ∃ (D : FnDict) (d1 d2 : FnDecl),
    specialise twoFnDecl "g1" = some d1 ∧ specialise twoFnDecl "g2" = some d2 ∧
    D.lookup "t" = some twoFnDecl ∧ D.lookup d1.name = some d1 ∧ D.lookup d2.name = some d2 ∧
    ∀ ρ, ∃ v v1 v2, Computes specI ρ D "t" [.fn "g1", .fn "g2", .int 5] v ∧
      Computes specI ρ D d1.name [.int 5] v1 ∧ Computes specI ρ D d2.name [.int 5] v2 ∧ v ≠ v1 ∧ v ≠ v2 := by
  refine ⟨[("t", twoFnDecl), ("t_g1", (specialise twoFnDecl "g1").getD twoFnDecl),
    ("t_g2", (specialise twoFnDecl "g2").getD twoFnDecl)], _, _, rfl, rfl, rfl, rfl, rfl, ?_⟩
  intro ρ
  exact ⟨.int 16, .int 12, .int 20, ⟨1, rfl⟩, ⟨1, rfl⟩, ⟨1, rfl⟩, by decide, by decide⟩

/-- Two functions calling the same higher-order function `ap(f, x) = f(x)`. -/
def apDecl : FnDecl :=
  { name := "ap", ret := .int, params := [("f", .fn [.int, .int]), ("x", .int)],
    body := some (.node .callValue .int [.var "f" (.fn [.int, .int]), .var "x" .int]) }
/-- `a(f, x) = ap(f, x) + 100`. -/
def apCallerA : FnDecl :=
  { name := "a", ret := .int, params := [("f", .fn [.int, .int]), ("x", .int)],
    body := some (.node .add .int [mkCall "ap" .int [.var "f" (.fn [.int, .int]), .var "x" .int], intLit 100]) }
/-- `b(f, x) = ap(f, x)`. -/
def apCallerB : FnDecl :=
  { name := "b", ret := .int, params := [("f", .fn [.int, .int]), ("x", .int)],
    body := some (mkCall "ap" .int [.var "f" (.fn [.int, .int]), .var "x" .int]) }

/-- With two callers of one higher-order function, the copy of the second caller calls the copy of the first caller instead of
the copy of the higher-order function (`new_fn_name` is overwritten in the loop), and computes a different value. -/
theorem C18_two_callers_refuted : ∃ (D : FnDict) (dap da db : FnDecl),
    specialise apDecl "g1" = some dap ∧
    callerLoop "ap" (directCallers [apDecl, apCallerA, apCallerB] "ap") dap.name [apDecl, apCallerA, apCallerB] =
      some [da, db] ∧
    D.lookup "b" = some apCallerB ∧ D.lookup "a" = some apCallerA ∧ D.lookup "ap" = some apDecl ∧
    D.lookup dap.name = some dap ∧ D.lookup da.name = some da ∧ D.lookup db.name = some db ∧
    ∀ ρ, ∃ v v', Computes specI ρ D "b" [.fn "g1", .int 5] v ∧ Computes specI ρ D db.name [.int 5] v' ∧ v ≠ v' := by
  refine ⟨[("b", apCallerB), ("a", apCallerA), ("ap", apDecl), ("ap_g1", (specialise apDecl "g1").getD apDecl),
    ("a_ap_g1", (specialiseCaller apCallerA "ap_g1" "ap").getD apDecl),
    ("b_a_ap_g1", (specialiseCaller apCallerB "a_ap_g1" "ap").getD apDecl)], _, _, _, rfl, rfl, rfl, rfl, rfl, rfl, rfl, rfl, ?_⟩
  intro ρ
  exact ⟨.int 6, .int 106, ⟨2, rfl⟩, ⟨3, rfl⟩, by decide⟩

/-- A body applying its function parameter twice gives the same copy twice, under the same name: the SMT file then
defines the function twice. -/
theorem C18_applied_twice_refuted : ∃ (t : FnDecl) (l : List FnDecl),
    firstRound [t] [("t", "g1")] ["t"] = some l ∧ ¬ (l.map FnDecl.name).Nodup := by
  refine ⟨{ name := "t", ret := .int, params := [("f", .fn [.int, .int]), ("x", .int)],
            body := some (.node .add .int
              [ .node .callValue .int [.var "f" (.fn [.int, .int]), .var "x" .int],
                .node .callValue .int [.var "f" (.fn [.int, .int]), intLit 1] ]) }, _, rfl, ?_⟩
  decide

end Metalift
