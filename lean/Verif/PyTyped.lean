import Verif.PPyFrontend
import Verif.PSmtQuery
/-
Values of the right types: what the Python frontend writes has, in every environment of well-typed values, a value of its type.
Needed to compare runs with the answers of a solver whose variables range over the values of their sorts.
-/
namespace Metalift
open Smt

section Runs
variable [PyOps]

/-- Signature of the functions a program calls: argument types and result type. -/
abbrev Sigs := String → Option (List Ty × Ty)

/-- The interpretation respects the signatures. -/
def Sigs.Respected (sig : Sigs) (I : Interp) : Prop :=
  ∀ f ts t, sig f = some (ts, t) → ∀ vs, OfTys ts vs → OfTy t (I.fn f vs)

mutual
/-- Every call is at the signature of the function and only lists of integers are indexed (as mypy and `__getitem__` check). -/
def PyExpr.callsOk (Γ : String → Ty) (sig : Sigs) : PyExpr → Bool
  | .int _ => true
  | .name _ => true
  | .cmp _ es => PyExpr.callsOks Γ sig es
  | .bin _ l r => l.callsOk Γ sig && r.callsOk Γ sig
  | .neg e => e.callsOk Γ sig
  | .len e => e.callsOk Γ sig
  | .index b i => decide (b.ty Γ = .list .int) && b.callsOk Γ sig && i.callsOk Γ sig
  | .emptyList => true
  | .call f t args => decide (sig f = some (args.map (PyExpr.ty Γ), t)) && PyExpr.callsOks Γ sig args
def PyExpr.callsOks (Γ : String → Ty) (sig : Sigs) : List PyExpr → Bool
  | [] => true
  | e :: es => e.callsOk Γ sig && PyExpr.callsOks Γ sig es
end

/-- Assigned and returned expressions have the declared types (`R` is the type of the result) and calls at their signatures only, and there is
no set operation. -/
def Stmt.typedOk (Γ : String → Ty) (sig : Sigs) (R : Ty) : Stmt → Bool
  | .skip => true
  | .seq a b => a.typedOk Γ sig R && b.typedOk Γ sig R
  | .assign x e => e.callsOk Γ sig && decide (e.ty Γ = Γ x)
  | .append x e => e.callsOk Γ sig && decide (Γ x = .list (e.ty Γ))
  | .setAdd _ _ => false
  | .setRemove _ _ => false
  | .ret e => e.callsOk Γ sig && decide (e.ty Γ = R)
  | .ite _ t e => t.typedOk Γ sig R && e.typedOk Γ sig R
  | .loop _ _ b => b.typedOk Γ sig R

/-- Indexing is total on lists of integers: some integer comes out. -/
def GetInt (I : Interp) : Prop := ∀ vs i, OfTy (.list .int) (.list vs) → OfTy .int (I.fn "list_get" [.list vs, .int i])

/-- Values of the type of the variable. -/
def tyVal (Γ : String → Ty) : String → Val → Prop := fun x v => OfTy (Γ x) v

omit [PyOps] in
theorem processComparison_bool {I : Interp} {ρ : Env} {op l r e} (h : processComparison op l r = some e) :
    ∃ b, eval I ρ e = .bool b := by
  unfold processComparison at h
  split at h
  · cases op <;> simp at h <;> subst h <;> simp [eval, evals, evalOp]
  · cases h

omit [PyOps] in
theorem comparisonLoop_bool {I : Interp} {ρ : Env} : ∀ {e : Expr} {ops : List CmpOp} {es : List Expr} {e' : Expr},
    comparisonLoop e ops es = some e' → (∃ b, eval I ρ e = .bool b) → ∃ b, eval I ρ e' = .bool b
  | e, [], es, e', h, he => by simp [comparisonLoop] at h; exact h ▸ he
  | e, op :: ops, [], e', h, _ => by simp [comparisonLoop] at h
  | e, op :: ops, [_], e', h, _ => by simp [comparisonLoop] at h
  | e, op :: ops, l :: r :: rest, e', h, he => by
    simp only [comparisonLoop] at h
    split at h
    · next e1 h1 => exact comparisonLoop_bool h (processComparison_bool h1)
    · cases h

omit [PyOps] in
theorem visitComparison_bool {I : Interp} {ρ : Env} {ops es e} (h : visitComparison ops es = some e) :
    ∃ b, eval I ρ e = .bool b := by
  match ops, es, h with
  | op :: ops, l :: r :: rest, h =>
    simp only [visitComparison] at h
    split at h
    · next e1 h1 => exact comparisonLoop_bool h (processComparison_bool h1)
    · cases h
  | [], _, h => simp [visitComparison] at h
  | _ :: _, [], h => simp [visitComparison] at h
  | _ :: _, [_], h => simp [visitComparison] at h

mutual
/-- The value of a translated expression is of its type. -/
theorem tr_typed {Γ : String → Ty} {sig : Sigs} {I : Interp} (hI : PyPrims I) (hG : GetInt I) (hS : sig.Respected I)
    {vs : SymVars} (hv : ∀ x e, vs.read x = some e → e.ty = Γ x) {ρ : Env}
    (hT : ∀ x e, vs.read x = some e → OfTy (Γ x) (eval I ρ e)) :
    ∀ (e : PyExpr) {e' : Expr}, e.callsOk Γ sig = true → trExpr vs e = some e' → OfTy (e.ty Γ) (eval I ρ e')
  | .int i, e', _, h => by simp [trExpr] at h; subst h; exact ⟨i, rfl⟩
  | .name x, e', _, h => by simp only [trExpr] at h; exact hT x e' h
  | .cmp ops es, e', _, h => by
    simp only [trExpr] at h
    split at h
    · exact visitComparison_bool h
    · cases h
  | .bin op l r, e', hc, h => by
    simp only [PyExpr.callsOk, Bool.and_eq_true] at hc
    simp only [trExpr] at h
    split at h
    · next l' r' hl hr =>
      have tl := tr_typed hI hG hS hv hT l hc.1 hl
      unfold visitOp at h
      rw [andObjects2, orObjects2] at h
      cases op <;> simp only [Option.ite_none_right_eq_some, Option.some.injEq, reduceCtorEq] at h
      case and =>
        obtain ⟨hh, h⟩ := h
        subst h; split
        · rw [← tr_ty hv l hl, hh.1] at tl; exact tl
        · exact ⟨_, rfl⟩
      case or =>
        obtain ⟨hh, h⟩ := h
        subst h; split
        · rw [← tr_ty hv l hl, hh.1] at tl; exact tl
        · exact ⟨_, rfl⟩
      all_goals (obtain ⟨_, h⟩ := h; subst h; exact ⟨_, rfl⟩)
    · cases h
  | .neg e, e', _, h => by
    simp only [trExpr] at h
    split at h
    · split at h
      · simp at h; subst h; exact ⟨_, rfl⟩
      · cases h
    · cases h
  | .len e, e', hc, h => by
    simp only [PyExpr.callsOk] at hc
    simp only [trExpr] at h
    split at h
    · next e1 he =>
      split at h
      · next hl =>
        simp at h; subst h
        have te := tr_typed hI hG hS hv hT e hc he
        rw [← tr_ty hv e he] at te
        cases ht : e1.ty <;> rw [ht] at hl te <;> simp [Ty.elem?] at hl
        obtain ⟨ws, hw, _⟩ := te
        simp only [mkCall, eval, evals, evalOp, hw, hI.length]
        exact ⟨_, rfl⟩
      · cases h
    · cases h
  | .index b i, e', hc, h => by
    simp only [PyExpr.callsOk, Bool.and_eq_true] at hc
    simp only [trExpr] at h
    split at h
    · next b' i' hb hi =>
      have tb := tr_typed hI hG hS hv hT b hc.1.2 hb
      have ti := tr_typed hI hG hS hv hT i hc.2 hi
      rw [← tr_ty hv b hb] at tb
      rw [← tr_ty hv i hi] at ti
      split at h
      · next hbt =>
        split at h
        · next hit =>
          simp at h; subst h
          rw [hbt] at tb
          rw [hit] at ti
          obtain ⟨n, hn⟩ := ti
          obtain ⟨ws, hw, hws⟩ := tb
          simp only [mkCall, eval, evals, evalOp, hw, hn]
          exact hG ws n ⟨ws, rfl, hws⟩
        · cases h
      · cases h
    · cases h
  | .emptyList, e', _, h => by
    simp [trExpr] at h; subst h
    exact ⟨[], by simp [mkCall, eval, evals, evalOp, hI.empty], by simp⟩
  | .call f t args, e', hc, h => by
    simp only [PyExpr.callsOk, Bool.and_eq_true, decide_eq_true_eq] at hc
    simp only [trExpr] at h
    split at h
    · next as has =>
      simp at h; subst h
      exact hS f _ _ hc.1 _ (trs_typed hI hG hS hv hT args hc.2 has)
    · cases h
theorem trs_typed {Γ : String → Ty} {sig : Sigs} {I : Interp} (hI : PyPrims I) (hG : GetInt I) (hS : sig.Respected I)
    {vs : SymVars} (hv : ∀ x e, vs.read x = some e → e.ty = Γ x) {ρ : Env}
    (hT : ∀ x e, vs.read x = some e → OfTy (Γ x) (eval I ρ e)) :
    ∀ (es : List PyExpr) {es' : List Expr}, PyExpr.callsOks Γ sig es = true → trExprs vs es = some es' →
      OfTys (es.map (PyExpr.ty Γ)) (evals I ρ es')
  | [], es', _, h => by simp [trExprs] at h; subst h; simp [evals, OfTys]
  | e :: es, es', hc, h => by
    simp only [PyExpr.callsOks, Bool.and_eq_true] at hc
    simp only [trExprs] at h
    split at h
    · next e1 es1 he hes =>
      simp at h; subst h
      exact ⟨tr_typed hI hG hS hv hT e hc.1 he, trs_typed hI hG hS hv hT es hc.2 hes⟩
    · cases h
end

/-- Straight-line code keeps the types. -/
theorem typed_step {C : Ctx} {sig : Sigs} {R : Ty} {I : Interp} (hI : PyPrims I) (hG : GetInt I) (hS : sig.Respected I) {U : List String} :
    ∀ {st : Stmt} {σ σ' : PState}, st.simple C.types = true → st.typedOk C.types sig R = true → σ.hasReturned = false →
    GoodVars C.types U σ.vars → visit C st σ = some σ' → VarsIn I (tyVal C.types) σ.vars → VarsIn I (tyVal C.types) σ'.vars
  | .skip, σ, σ', _, _, _, _, h, hV => by simp [visit] at h; subst h; exact hV
  | .seq a b, σ, σ', hs, ht, hr, hg, h, hV => by
    simp only [Stmt.simple, Bool.and_eq_true] at hs
    simp only [Stmt.typedOk, Bool.and_eq_true] at ht
    simp only [visit] at h
    split at h
    · next σ1 h1 =>
      have sa := simple_visit hs.1 hr hg h1
      exact typed_step hI hG hS hs.2 ht.2 sa.ret sa.good h (typed_step hI hG hS hs.1 ht.1 hr hg h1 hV)
    · cases h
  | .assign x e, σ, σ', hs, ht, hr, hg, h, hV => by
    simp only [Stmt.simple, Bool.and_eq_true, decide_eq_true_eq, Bool.not_eq_true'] at hs
    simp only [Stmt.typedOk, Bool.and_eq_true] at ht
    simp only [visit] at h
    split at h
    · next e' he =>
      simp at h; subst h
      intro y f hf ρ hρ
      simp only [read_write] at hf
      split at hf
      · next hy =>
        simp at hf; subst hf; subst hy
        have := tr_typed hI hG hS (fun x e h => (hg.val x e h).ty) (fun x e h => hV x e h ρ hρ) e ht.1 he
        rw [hs.1.2] at this
        exact this
      · exact hV y f hf ρ hρ
    · cases h
  | .append x e, σ, σ', hs, ht, hr, hg, h, hV => by
    simp only [Stmt.typedOk, Bool.and_eq_true] at ht
    simp only [visit] at h
    split at h
    · next z t e' hz he =>
      split at h
      · next hc =>
        obtain ⟨rfl, _, hte⟩ := hc
        simp at h; subst h
        intro y f hf ρ hρ
        simp only [read_write] at hf
        split at hf
        · next hy =>
          simp at hf; subst hf; subst hy
          have te := tr_typed hI hG hS (fun x e h => (hg.val x e h).ty) (fun x e h => hV x e h ρ hρ) e ht.1 he
          rw [← tr_ty (fun x e h => (hg.val x e h).ty) e he] at te
          have tz := hV _ _ hz ρ hρ
          have hty : t = C.types y := (hg.val _ _ hz).ty
          simp only [tyVal, ← hty, hte] at tz ⊢
          obtain ⟨ws, hw, hws⟩ := tz
          simp only [eval] at hw
          refine ⟨ws ++ [eval I ρ e'], ?_, ?_⟩
          · simp [mkCall, eval, evals, evalOp, hw, hI.append]
          · intro w hw'
            rcases List.mem_append.1 hw' with h | h
            · exact hws w h
            · simp at h; subst h; exact te
        · exact hV y f hf ρ hρ
      · cases h
    · cases h
  | .setAdd x e, σ, σ', _, ht, _, _, _, _ => by simp [Stmt.typedOk] at ht
  | .setRemove x e, σ, σ', _, ht, _, _, _, _ => by simp [Stmt.typedOk] at ht
  | .ret e, σ, σ', hs, _, _, _, _, _ => by simp [Stmt.simple] at hs
  | .loop _ _ _, σ, σ', hs, _, _, _, _, _ => by simp [Stmt.simple] at hs
  | .ite c t e, σ, σ', hs, hty, hr, hg, h, hV => by
    simp only [Stmt.simple, Bool.and_eq_true] at hs
    obtain ⟨⟨⟨_, ht⟩, he⟩, _⟩ := hs
    simp only [Stmt.typedOk, Bool.and_eq_true] at hty
    simp only [visit] at h
    split at h
    · cases h
    · next cond hcond =>
      split at h
      · cases h
      · split at h
        · next cs as hcs has =>
          have sc := simple_visit ht (by exact hr) (by exact hg) hcs
          have sa := simple_visit he (by exact hr) (by exact hg) has
          have vc := typed_step hI hG hS ht hty.1 (by exact hr) (by exact hg) hcs (by exact hV)
          have va := typed_step hI hG hS he hty.2 (by exact hr) (by exact hg) has (by exact hV)
          simp only [sc.ret, sa.ret, Bool.and_self, Bool.false_eq_true, if_false] at h
          split at h
          · cases h
          · split at h
            · next vs hvs =>
              simp at h; subst h
              have hm := mergeVars_read sc.good.nodup hvs
              intro x f hf ρ hρ
              simp only at hf
              cases hx : cs.vars.read x with
              | none =>
                rw [(hm x).1 hx] at hf
                exact hV x f hf ρ hρ
              | some ce =>
                obtain ⟨ae, m, h1, h2, h3⟩ := (hm x).2 ce hx
                have : m = f := by simpa [h3] using hf
                subst this
                rcases mergeVal_cases h2 with ⟨rfl, _⟩ | ⟨rfl, _⟩
                · simp only [mkIte, eval, evals, evalOp, tyVal]
                  split
                  · exact vc x ce hx ρ hρ
                  · exact va x ae h1 ρ hρ
                · exact vc x _ hx ρ hρ
            · cases h
        · cases h

/-! ### Values in runs -/

mutual
/-- The value of an expression in a well-typed store is of its type. -/
theorem pyEval_typed {Γ : String → Ty} {sig : Sigs} {I : Interp} (hS : sig.Respected I)
    (hM : ∀ vs i v, PyOps.index vs i = some v → v ∈ vs) {s : Store} (hT : ∀ x v, s x = some v → OfTy (Γ x) v) :
    ∀ (e : PyExpr) {v : Val}, e.callsOk Γ sig = true → pyEval I s e = some v → OfTy (e.ty Γ) v
  | .int i, v, _, h => by simp [pyEval] at h; subst h; exact ⟨i, rfl⟩
  | .name x, v, _, h => by simp only [pyEval] at h; exact hT x v h
  | .cmp ops [], v, _, h => by simp [pyEval] at h
  | .cmp ops (e :: es), v, _, h => by
    simp only [pyEval] at h
    split at h
    · simp only [Option.map_eq_some_iff] at h
      obtain ⟨b, _, rfl⟩ := h
      exact ⟨b, rfl⟩
    · cases h
  | .bin op l r, v, hc, h => by
    cases op
    case and =>
      simp only [pyEval] at h
      split at h
      · simp at h; subst h; exact ⟨_, rfl⟩
      · split at h
        · simp at h; subst h; exact ⟨_, rfl⟩
        · cases h
      · cases h
    case or =>
      simp only [pyEval] at h
      split at h
      · simp at h; subst h; exact ⟨_, rfl⟩
      · split at h
        · simp at h; subst h; exact ⟨_, rfl⟩
        · cases h
      · cases h
    all_goals
      simp only [pyEval] at h
      split at h
      · simp only [Option.map_eq_some_iff] at h
        obtain ⟨b, _, rfl⟩ := h
        exact ⟨b, rfl⟩
      · cases h
  | .neg e, v, _, h => by
    simp only [pyEval] at h
    split at h
    · simp at h; subst h; exact ⟨_, rfl⟩
    · cases h
  | .len e, v, _, h => by
    simp only [pyEval] at h
    split at h
    · simp at h; subst h; exact ⟨_, rfl⟩
    · cases h
  | .index b i, v, hc, h => by
    simp only [PyExpr.callsOk, Bool.and_eq_true, decide_eq_true_eq] at hc
    simp only [pyEval] at h
    split at h
    · next vs k hb hk =>
      have tb := pyEval_typed hS hM hT b hc.1.2 hb
      rw [hc.1.1] at tb
      obtain ⟨ws, hw, hws⟩ := tb
      injection hw with hw
      subst hw
      exact hws v (hM _ _ _ h)
    · cases h
  | .emptyList, v, _, h => by simp [pyEval] at h; subst h; exact ⟨[], rfl, by simp⟩
  | .call f t args, v, hc, h => by
    simp only [PyExpr.callsOk, Bool.and_eq_true, decide_eq_true_eq] at hc
    simp only [pyEval, Option.map_eq_some_iff] at h
    obtain ⟨ws, hw, rfl⟩ := h
    exact hS f _ _ hc.1 _ (pyEvals_typed hS hM hT args hc.2 hw)
theorem pyEvals_typed {Γ : String → Ty} {sig : Sigs} {I : Interp} (hS : sig.Respected I)
    (hM : ∀ vs i v, PyOps.index vs i = some v → v ∈ vs) {s : Store} (hT : ∀ x v, s x = some v → OfTy (Γ x) v) :
    ∀ (es : List PyExpr) {vs : List Val}, PyExpr.callsOks Γ sig es = true → pyEvals I s es = some vs → OfTys (es.map (PyExpr.ty Γ)) vs
  | [], vs, _, h => by simp [pyEvals] at h; subst h; simp [OfTys]
  | e :: es, vs, hc, h => by
    simp only [PyExpr.callsOks, Bool.and_eq_true] at hc
    simp only [pyEvals] at h
    split at h
    · next v hv =>
      simp only [Option.map_eq_some_iff] at h
      obtain ⟨ws, hw, rfl⟩ := h
      exact ⟨pyEval_typed hS hM hT e hc.1 hv, pyEvals_typed hS hM hT es hc.2 hw⟩
    · cases h
end

/-- The store or the result of a run has the declared types. -/
def Outcome.OfTypes (Γ : String → Ty) (R : Ty) : Outcome → Prop
  | .normal s => ∀ x v, s x = some v → OfTy (Γ x) v
  | .returned v => OfTy R v

omit [PyOps] in
theorem set_typed {Γ : String → Ty} {s : Store} (hT : ∀ x v, s x = some v → OfTy (Γ x) v) {y : String} {w : Val} (hw : OfTy (Γ y) w) :
    ∀ x v, s.set y w x = some v → OfTy (Γ x) v := by
  intro x v h
  by_cases hy : x = y
  · subst hy; simp [Store.set] at h; exact h ▸ hw
  · simp only [Store.set, hy, if_false] at h; exact hT x v h

/-- Runs keep the types. -/
theorem exec_typed {Γ : String → Ty} {sig : Sigs} {R : Ty} {I : Interp} (hS : sig.Respected I)
    (hM : ∀ vs i v, PyOps.index vs i = some v → v ∈ vs) {s : Store} {st : Stmt} {o : Outcome} (h : Exec I s st o) :
    st.typedOk Γ sig R = true → (∀ x v, s x = some v → OfTy (Γ x) v) → o.OfTypes Γ R := by
  induction h with
  | skip => intro _ hT; exact hT
  | seq _ _ ih1 ih2 =>
    intro hs hT
    simp only [Stmt.typedOk, Bool.and_eq_true] at hs
    exact ih2 hs.2 (ih1 hs.1 hT)
  | seqRet _ ih =>
    intro hs hT
    simp only [Stmt.typedOk, Bool.and_eq_true] at hs
    exact ih hs.1 hT
  | assign hv =>
    intro hs hT
    simp only [Stmt.typedOk, Bool.and_eq_true, decide_eq_true_eq] at hs
    exact set_typed hT (hs.2 ▸ pyEval_typed hS hM hT _ hs.1 hv)
  | @append s x e vs v hx hv =>
    intro hs hT
    simp only [Stmt.typedOk, Bool.and_eq_true, decide_eq_true_eq] at hs
    refine set_typed hT ?_
    have h1 := hT _ _ hx
    rw [hs.2] at h1 ⊢
    obtain ⟨ws, hw, hws⟩ := h1
    injection hw with hw
    subst hw
    refine ⟨_, rfl, ?_⟩
    intro w hw
    rcases List.mem_append.1 hw with h | h
    · exact hws w h
    · simp at h; subst h; exact pyEval_typed hS hM hT _ hs.1 hv
  | setAdd _ _ => intro hs; simp [Stmt.typedOk] at hs
  | setRemove _ _ _ => intro hs; simp [Stmt.typedOk] at hs
  | ret hv =>
    intro hs hT
    simp only [Stmt.typedOk, Bool.and_eq_true, decide_eq_true_eq] at hs
    have := pyEval_typed hS hM hT _ hs.1 hv
    rw [hs.2] at this
    exact this
  | iteT _ _ ih =>
    intro hs hT
    simp only [Stmt.typedOk, Bool.and_eq_true] at hs
    exact ih hs.1 hT
  | iteF _ _ ih =>
    intro hs hT
    simp only [Stmt.typedOk, Bool.and_eq_true] at hs
    exact ih hs.2 hT
  | loopF _ => intro _ hT; exact hT
  | loopT _ _ _ ih1 ih2 => intro hs hT; exact ih2 hs (ih1 hs hT)
  | loopRet _ _ ih => intro hs hT; exact ih hs hT

/-- The type invariant of the frontend. -/
theorem typeInv_ty {C : Ctx} {sig : Sigs} {R : Ty} {I : Interp} (hI : PyPrims I) (hG : GetInt I) (hS : sig.Respected I) :
    TypeInv C I (tyVal C.types) (fun st => st.typedOk C.types sig R = true) :=
  ⟨fun h => by simpa [Stmt.typedOk] using h, fun h => by simpa [Stmt.typedOk] using h,
    fun h => by simpa [Stmt.typedOk] using h, fun hs hK hr hg h hV => typed_step hI hG hS hs hK hr hg h hV⟩

/-- Every run that returns is covered by an obligation, if the obligations hold in the environments of well-typed values. -/
theorem pyfunc_covered_typed {F : PyFunc} {sig : Sigs} {pre : List Expr} {w : World} {I : Interp} (hI : PyPrims I) (hG : GetInt I)
    (hS : sig.Respected I) (hK : F.body.typedOk F.ctx.types sig F.retTy = true)
    (hsup : F.body.supported F.ctx.types (F.ctx.params ++ Expr.varss pre) true = true)
    (hcall : F.call { postconditions := pre } = some w)
    (hval : ∀ a ∈ w.asserts, validIn (tyVal F.ctx.types) I a) {ρ : Env} (hT : EnvIn (tyVal F.ctx.types) ρ)
    (hρ : ∀ p ∈ pre, holds I ρ p) {v : Val}
    (hrun : Exec I (F.argStore ρ) F.body (.returned v)) : Covered F.ctx I w.asserts ρ v (tyVal F.ctx.types) := by
  unfold PyFunc.call at hcall
  simp only at hcall
  split at hcall
  · cases hcall
  · next σ hσ =>
    simp only [Option.some.injEq] at hcall
    subst hcall
    simp only [List.nil_append]
    refine supported_covered (C := F.ctx) hI (typeInv_ty hI hG hS) hK ?_ hT (.inr ?_) hsup (fun x hx => List.mem_append_left _ hx) rfl (fun _ => rfl)
      ?_ ?_ hσ ?_ ?_ (by exact fun a ha ρ' h => hval a (by simpa using ha) ρ' h) hrun
    · intro x e he ρ' hρ'
      simp only [bindArgs_eq, havoc_read] at he
      split at he
      · simp at he; subst he; exact hρ' x
      · simp [SymVars.read] at he
    · intro x u hu
      simp only [PyFunc.argStore] at hu
      simp only [bindArgs_eq, havoc_read]
      split at hu
      · next hx => simp [hx]
      · cases hu
    · refine ⟨by rw [bindArgs_eq]; exact havoc_nodup _ _ _ List.nodup_nil, fun x e he => ?_⟩
      simp only [bindArgs_eq, havoc_read] at he
      split at he
      · next hx =>
        simp at he; subst he
        refine ⟨rfl, by simp [Expr.OnlyInt, Expr.litTys], ?_, ?_⟩
        · intro y hy; simp [Expr.vars] at hy; subst hy; simp [hx]
        · intro y t h; simp at h; exact h.1.symm
      · simp [SymVars.read] at he
    · intro p hp y hy
      simp at hp
      exact List.mem_append_right _ (Expr.mem_varss.2 ⟨p, hp, hy⟩)
    · intro x e u he hu
      simp only [bindArgs_eq, havoc_read] at he
      simp only [PyFunc.argStore] at hu
      split at he
      · next hx => simp at he; subst he; simp [hx] at hu; simp [eval, hu]
      · next hx => simp [hx] at hu
    · simpa using hρ

end Runs

/-- Every obligation of a verification condition holds where the condition does. -/
theorem vc_asserts_validIn {w : World} {vc : Expr} {I : Interp} {T : String → Val → Prop}
    (hlits : ∀ a ∈ w.asserts, a.OnlyInt) (hvc : w.vc = some vc) (hval : validIn T I vc) :
    ∀ a ∈ w.asserts, validIn T I a := by
  intro a ha ρ' hρ'
  have h1 := hval ρ' hρ'
  unfold World.vc andObjects at hvc
  rw [init_eq_firstOcc] at hvc
  rcases firstOcc_cover w.asserts [] a ha with ⟨y, hy, _⟩ | ⟨y, hy, hay⟩
  · simp at hy
  · have : holds I ρ' y := by
      revert hvc hy
      generalize firstOcc [] w.asserts = m
      intro hvc hy
      cases m with
      | nil => simp [andExprs] at hvc
      | cons z zs =>
        simp only [andExprs, Option.some.injEq] at hvc
        rw [← hvc, and_fold_holds] at h1
        rcases List.mem_cons.1 hy with rfl | hy
        · exact h1.1
        · exact h1.2 y hy
    unfold holds at *
    rw [onlyInt_eval (hlits a ha) (hlits y (firstOcc_mem _ _ _ hy)) hay]
    exact this

end Metalift
