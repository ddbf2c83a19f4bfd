import Verif.PyFrontend
import Verif.VcUtilLemmas
/-
Lemmas about the translation of Python expressions.
-/
namespace Metalift

/-- All literals of the expression are integers. -/
def Expr.OnlyInt (e : Expr) : Prop := ∀ t ∈ e.litTys, t = .int

theorem mem_litTyss {es : List Expr} {t : Ty} : t ∈ Expr.litTyss es ↔ ∃ e ∈ es, t ∈ e.litTys := by
  induction es with
  | nil => simp [Expr.litTyss]
  | cons e es ih => simp [Expr.litTyss, ih]

theorem onlyInt_node {op : Op} {t : Ty} {es : List Expr} :
    (Expr.node op t es).OnlyInt ↔ ∀ e ∈ es, e.OnlyInt := by
  simp only [Expr.OnlyInt, Expr.litTys, mem_litTyss]
  constructor
  · intro h e he t ht; exact h t ⟨e, he, ht⟩
  · rintro h t ⟨e, he, ht⟩; exact h e he t ht

theorem all_eq_list {α : Type} {c : α} : ∀ {l m : List α}, (∀ x ∈ l, x = c) → (∀ x ∈ m, x = c) →
    l.length = m.length → l = m
  | [], [], _, _, _ => rfl
  | [], _ :: _, _, _, h => by simp at h
  | _ :: _, [], _, _, h => by simp at h
  | a :: l, b :: m, h1, h2, h => by
    rw [h1 a (by simp), h2 b (by simp), all_eq_list (l := l) (m := m) (fun x hx => h1 x (by simp [hx]))
      (fun x hx => h2 x (by simp [hx])) (by simpa using h)]

theorem onlyInt_eval {I : Interp} {ρ : Env} {a b : Expr} (ha : a.OnlyInt) (hb : b.OnlyInt)
    (h : a.pyEq b = true) : eval I ρ a = eval I ρ b :=
  pyEq_eval I ρ a b h (all_eq_list ha hb (pyEq_litLen a b h))

theorem mem_vars_node {x : String} {op : Op} {t : Ty} {es : List Expr} :
    x ∈ (Expr.node op t es).vars ↔ ∃ e ∈ es, x ∈ e.vars := by
  rw [Expr.vars, Expr.mem_varss]

/-- A statement about the translation of every subexpression follows from the statement for the
values of variables and for literals, if it is preserved by composite expressions. -/
structure TrClosed (P : Expr → Prop) : Prop where
  int : ∀ i, P (intLit i)
  node : ∀ op t es, (∀ e ∈ es, P e) → P (.node op t es)

theorem processComparison_closed {P : Expr → Prop} (hP : TrClosed P) {op l r e}
    (h : processComparison op l r = some e) (hl : P l) (hr : P r) : P e := by
  unfold processComparison at h
  split at h
  · cases op <;> simp at h <;> subst h <;> exact hP.node _ _ _ (by simp [hl, hr])
  · cases h

theorem comparisonLoop_closed {P : Expr → Prop} (hP : TrClosed P) : ∀ {e : Expr} {ops : List CmpOp}
    {es : List Expr} {e' : Expr}, comparisonLoop e ops es = some e' → P e → (∀ x ∈ es, P x) → P e'
  | e, [], es, e', h, he, _ => by simp [comparisonLoop] at h; exact h ▸ he
  | e, op :: ops, [], e', h, _, _ => by simp [comparisonLoop] at h
  | e, op :: ops, [_], e', h, _, _ => by simp [comparisonLoop] at h
  | e, op :: ops, l :: r :: rest, e', h, he, hs => by
    simp only [comparisonLoop] at h
    split at h
    · next e1 h1 =>
      exact comparisonLoop_closed hP h
        (processComparison_closed hP h1 (hs l (by simp)) (hs r (by simp)))
        (fun x hx => hs x (List.mem_cons_of_mem _ hx))
    · cases h

theorem andObjects2 (l r : Expr) :
    andObjects [l, r] = some (if r.pyEq l then l else mkAnd [l, r]) := by
  simp only [andObjects, ObjectSet.init, List.foldl_cons, List.foldl_nil, List.any_nil, Bool.false_eq_true,
    if_false, List.nil_append, List.any_cons, Bool.or_false]
  split <;> simp [andExprs]

theorem orObjects2 (l r : Expr) :
    orObjects [l, r] = some (if r.pyEq l then l else mkOr [l, r]) := by
  simp only [orObjects, ObjectSet.init, List.foldl_cons, List.foldl_nil, List.any_nil, Bool.false_eq_true,
    if_false, List.nil_append, List.any_cons, Bool.or_false]
  split <;> simp [orExprs]

theorem visitOp_closed {P : Expr → Prop} (hP : TrClosed P) {op l r e}
    (h : visitOp op l r = some e) (hl : P l) (hr : P r) : P e := by
  have two : ∀ o t, P (.node o t [l, r]) := fun o t => hP.node _ _ _ (by simp [hl, hr])
  unfold visitOp at h
  rw [andObjects2, orObjects2] at h
  cases op <;> simp only [Option.ite_none_right_eq_some, Option.some.injEq, reduceCtorEq] at h
  case and =>
    obtain ⟨_, h⟩ := h
    subst h; split
    · exact hl
    · exact two _ _
  case or =>
    obtain ⟨_, h⟩ := h
    subst h; split
    · exact hl
    · exact two _ _
  all_goals (obtain ⟨_, h⟩ := h; subst h; exact two _ _)

mutual
theorem tr_closed {P : Expr → Prop} (hP : TrClosed P) {vs : SymVars}
    (hv : ∀ x e, vs.read x = some e → P e) : ∀ (e : PyExpr) {e' : Expr}, trExpr vs e = some e' → P e'
  | .int i, e', h => by simp [trExpr] at h; exact h ▸ hP.int i
  | .name x, e', h => by simp only [trExpr] at h; exact hv x e' h
  | .cmp ops es, e', h => by
    simp only [trExpr] at h
    split at h
    · next es' hes =>
      have hs := trs_closed hP hv es hes
      match ops, es', h with
      | op :: ops, l :: r :: rest, h =>
        simp only [visitComparison] at h
        split at h
        · next e1 h1 =>
          exact comparisonLoop_closed hP h
            (processComparison_closed hP h1 (hs l (by simp)) (hs r (by simp)))
            (fun x hx => hs x (List.mem_cons_of_mem _ hx))
        · cases h
      | [], _, h => simp [visitComparison] at h
      | _ :: _, [], h => simp [visitComparison] at h
      | _ :: _, [_], h => simp [visitComparison] at h
    · cases h
  | .bin op l r, e', h => by
    simp only [trExpr] at h
    split at h
    · next l' r' hl hr => exact visitOp_closed hP h (tr_closed hP hv l hl) (tr_closed hP hv r hr)
    · cases h
  | .neg e, e', h => by
    simp only [trExpr] at h
    split at h
    · next x hx =>
      split at h
      · simp at h; subst h
        exact hP.node _ _ _ (by
          intro y hy
          simp at hy
          rcases hy with rfl | rfl
          · exact hP.int 0
          · exact tr_closed hP hv e hx)
      · cases h
    · cases h
  | .len e, e', h => by
    simp only [trExpr] at h
    split at h
    · next x hx =>
      split at h
      · simp at h; subst h
        exact hP.node _ _ _ (by simpa using tr_closed hP hv e hx)
      · cases h
    · cases h
  | .index b i, e', h => by
    simp only [trExpr] at h
    split at h
    · next x y hx hy =>
      split at h
      · split at h
        · simp at h; subst h
          exact hP.node _ _ _ (by simpa using ⟨tr_closed hP hv b hx, tr_closed hP hv i hy⟩)
        · cases h
      · cases h
    · cases h
  | .emptyList, e', h => by
    simp [trExpr] at h; subst h; exact hP.node _ _ _ (by simp)
  | .call f t args, e', h => by
    simp only [trExpr] at h
    split at h
    · next as has =>
      simp at h; subst h
      exact hP.node _ _ _ (trs_closed hP hv args has)
    · cases h
theorem trs_closed {P : Expr → Prop} (hP : TrClosed P) {vs : SymVars}
    (hv : ∀ x e, vs.read x = some e → P e) : ∀ (es : List PyExpr) {es' : List Expr},
    trExprs vs es = some es' → ∀ e ∈ es', P e
  | [], es', h => by simp [trExprs] at h; simp [h]
  | e :: es, es', h => by
    simp only [trExprs] at h
    split at h
    · next e1 es1 h1 h2 =>
      simp at h; subst h
      intro y hy
      rcases List.mem_cons.1 hy with rfl | hy
      · exact tr_closed hP hv e h1
      · exact trs_closed hP hv es h2 y hy
    · cases h
end

theorem closed_onlyInt : TrClosed Expr.OnlyInt :=
  ⟨fun i => by simp [intLit, Expr.OnlyInt, Expr.litTys], fun _ _ _ h => onlyInt_node.2 h⟩

theorem closed_fresh (U : List String) : TrClosed (fun e => ∀ y ∈ e.vars, y ∈ U) :=
  ⟨fun i => by simp [intLit, Expr.vars], fun _ _ es h y hy => by
    obtain ⟨e, he, hy⟩ := mem_vars_node.1 hy; exact h e he y hy⟩

/-! ### Types -/

/-- The type mypy gives to an expression of the subset. -/
def PyExpr.ty (Γ : String → Ty) : PyExpr → Ty
  | .int _ => .int
  | .name x => Γ x
  | .cmp _ _ => .bool
  | .bin .and _ _ => .bool
  | .bin .or _ _ => .bool
  | .bin _ _ _ => .int
  | .neg _ => .int
  | .len _ => .int
  | .index _ _ => .int
  | .emptyList => .list .int
  | .call _ t _ => t

theorem processComparison_ty {op l r e} (h : processComparison op l r = some e) : e.ty = .bool := by
  unfold processComparison at h
  split at h
  · cases op <;> simp at h <;> subst h <;> rfl
  · cases h

theorem comparisonLoop_ty : ∀ {e : Expr} {ops : List CmpOp}
    {es : List Expr} {e' : Expr}, comparisonLoop e ops es = some e' → e.ty = .bool → e'.ty = .bool
  | e, [], es, e', h, he => by simp [comparisonLoop] at h; exact h ▸ he
  | e, op :: ops, [], e', h, _ => by simp [comparisonLoop] at h
  | e, op :: ops, [_], e', h, _ => by simp [comparisonLoop] at h
  | e, op :: ops, l :: r :: rest, e', h, he => by
    simp only [comparisonLoop] at h
    split at h
    · next e1 h1 => exact comparisonLoop_ty h (processComparison_ty h1)
    · cases h

theorem tr_ty {Γ : String → Ty} {vs : SymVars} (hv : ∀ x e, vs.read x = some e → e.ty = Γ x)
    (e : PyExpr) {e' : Expr} (h : trExpr vs e = some e') : e'.ty = e.ty Γ := by
  cases e with
  | int i => simp [trExpr] at h; subst h; rfl
  | name x => simp only [trExpr] at h; exact hv x e' h
  | cmp ops es =>
    simp only [trExpr] at h
    split at h
    · next es' hes =>
      match ops, es', h with
      | op :: ops, l :: r :: rest, h =>
        simp only [visitComparison] at h
        split at h
        · next e1 h1 => exact comparisonLoop_ty h (processComparison_ty h1)
        · cases h
      | [], _, h => simp [visitComparison] at h
      | _ :: _, [], h => simp [visitComparison] at h
      | _ :: _, [_], h => simp [visitComparison] at h
    · cases h
  | bin op l r =>
    simp only [trExpr] at h
    split at h
    · next l' r' hl hr =>
      unfold visitOp at h
      rw [andObjects2, orObjects2] at h
      cases op <;> simp only [Option.ite_none_right_eq_some, Option.some.injEq, reduceCtorEq] at h
      case and =>
        obtain ⟨hh, h⟩ := h
        subst h; split
        · exact hh.1
        · rfl
      case or =>
        obtain ⟨hh, h⟩ := h
        subst h; split
        · exact hh.1
        · rfl
      all_goals (obtain ⟨_, h⟩ := h; subst h; rfl)
    · cases h
  | neg e =>
    simp only [trExpr] at h
    split at h
    · split at h
      · simp at h; subst h; rfl
      · cases h
    · cases h
  | len e =>
    simp only [trExpr] at h
    split at h
    · split at h
      · simp at h; subst h; rfl
      · cases h
    · cases h
  | index b i =>
    simp only [trExpr] at h
    split at h
    · split at h
      · split at h
        · simp at h; subst h; rfl
        · cases h
      · cases h
    · cases h
  | emptyList => simp [trExpr] at h; subst h; rfl
  | call f t args =>
    simp only [trExpr] at h
    split at h
    · simp at h; subst h; rfl
    · cases h

/-! ### Values -/

section Runs
variable [PyOps]

/-- The interpretation gives the operations of the run (Python's, unless stated otherwise) to the primitives the frontend emits. -/
structure PyPrims (I : Interp) : Prop where
  length : ∀ vs, I.fn "list_length" [.list vs] = .int vs.length
  get : ∀ vs i v, PyOps.index vs i = some v → I.fn "list_get" [.list vs, .int i] = v
  empty : I.fn "list_empty" [] = .list []
  append : ∀ vs v, I.fn "list_append" [.list vs, v] = .list (vs ++ [v])
  setAdd : ∀ vs v, I.fn "set-union" [.list vs, I.fn "set-singleton" [v]] = .list (PyOps.setAdd vs v)
  setRemove : ∀ vs v ws, PyOps.setRemove vs v = some ws →
    I.fn "set-minus" [.list vs, I.fn "set-singleton" [v]] = .list ws
  div : ∀ a b c, PyOps.floordiv a b = some c → I.idiv a b = c

mutual
/-- No comparison has more than one operator (`a < b < c` does not occur). -/
def PyExpr.noChain : PyExpr → Bool
  | .cmp ops es => decide (ops.length ≤ 1) && PyExpr.noChains es
  | .bin _ l r => l.noChain && r.noChain
  | .neg e => e.noChain
  | .len e => e.noChain
  | .index b i => b.noChain && i.noChain
  | .call _ _ args => PyExpr.noChains args
  | .int _ => true
  | .name _ => true
  | .emptyList => true
def PyExpr.noChains : List PyExpr → Bool
  | [] => true
  | e :: es => e.noChain && PyExpr.noChains es
end

/-- The symbolic variables describe the store under `ρ`: every bound variable has the value of its
symbolic expression. -/
def Describes (I : Interp) (ρ : Env) (vs : SymVars) (s : Store) : Prop :=
  ∀ x e v, vs.read x = some e → s x = some v → v = eval I ρ e

omit [PyOps] in
theorem processComparison_eval {I : Interp} {ρ : Env} {op l r e a b c}
    (h : processComparison op l r = some e) (hl : eval I ρ l = .int a) (hr : eval I ρ r = .int b)
    (hc : op.run a b = some c) : eval I ρ e = .bool c := by
  unfold processComparison at h
  split at h
  · cases op <;> simp at h <;> subst h <;>
      simp only [CmpOp.run, Option.some.injEq] at hc <;>
      simp only [eval, evals, evalOp, hl, hr, ← hc, Val.asInt_int, Val.int.injEq] <;> congr
  · cases h

mutual
theorem tr_eval {I : Interp} (hI : PyPrims I) {ρ : Env} {vs : SymVars} {s : Store}
    (hd : Describes I ρ vs s) (hi : ∀ x e, vs.read x = some e → e.OnlyInt) :
    ∀ (e : PyExpr) {e' : Expr} {v : Val}, e.noChain = true → trExpr vs e = some e' →
      pyEval I s e = some v → eval I ρ e' = v
  | .int i, e', v, _, h, hv => by
    simp [trExpr] at h; subst h; simp [pyEval] at hv; subst hv; rfl
  | .name x, e', v, _, h, hv => by
    simp only [trExpr] at h; simp only [pyEval] at hv
    exact (hd x e' v h hv).symm
  | .cmp ops es, e', v, hn, h, hv => by
    simp only [PyExpr.noChain, Bool.and_eq_true, decide_eq_true_eq] at hn
    simp only [trExpr] at h
    match ops, es, h, hn, hv with
    | [], es, h, hn, hv => split at h <;> simp [visitComparison] at h
    | _ :: _ :: _, es, h, hn, hv => simp at hn
    | [op], [], h, hn, hv => simp [pyEval] at hv
    | [op], [l], h, hn, hv =>
      simp only [pyEval] at hv
      split at hv <;> simp [pyChain] at hv
    | [op], l :: r :: rest, h, hn, hv =>
      simp only [PyExpr.noChains, Bool.and_eq_true] at hn
      simp only [trExprs] at h
      cases hl : trExpr vs l with
      | none => simp [hl] at h
      | some l' =>
        cases hr : trExpr vs r with
        | none => simp [hl, hr] at h
        | some r' =>
        cases hrest : trExprs vs rest with
        | none => simp [hl, hr, hrest] at h
        | some rest' =>
          simp only [hl, hr, hrest, visitComparison] at h
          split at h
          · next e1 h1 =>
            simp only [comparisonLoop, Option.some.injEq] at h
            subst h
            simp only [pyEval] at hv
            split at hv
            · next a ha =>
              simp only [pyChain] at hv
              split at hv
              · next b hb =>
                have e1l := tr_eval hI hd hi l hn.2.1 hl ha
                have e1r := tr_eval hI hd hi r hn.2.2.1 hr hb
                split at hv
                · next hc =>
                  cases rest with
                  | nil =>
                    simp [pyChain] at hv; subst hv; exact processComparison_eval h1 e1l e1r hc
                  | cons => simp [pyChain] at hv
                · next hc => simp at hv; subst hv; exact processComparison_eval h1 e1l e1r hc
                · simp at hv
              · simp at hv
            · cases hv
          · cases h
  | .bin op l r, e', v, hn, h, hv => by
    simp only [PyExpr.noChain, Bool.and_eq_true] at hn
    simp only [trExpr] at h
    cases hl : trExpr vs l with
    | none => simp [hl] at h
    | some l' =>
    cases hr : trExpr vs r with
    | none => simp [hl, hr] at h
    | some r' =>
    simp only [hl, hr] at h
    have el := fun w => tr_eval hI hd hi l (v := w) hn.1 hl
    have er := fun w => tr_eval hI hd hi r (v := w) hn.2 hr
    unfold visitOp at h
    rw [andObjects2, orObjects2] at h
    cases op <;> simp only [Option.ite_none_right_eq_some, Option.some.injEq, reduceCtorEq] at h
    case and =>
      obtain ⟨_, h⟩ := h
      simp only [pyEval] at hv
      split at hv
      · next ha =>
        have := el _ ha
        simp at hv; subst hv; subst h
        split
        · exact this
        · simp [mkAnd, eval, evals, evalOp, this]
      · next ha =>
        have := el _ ha
        split at hv
        · next b hb =>
          have hb := er _ hb
          simp at hv; subst hv; subst h
          split
          · next hpy =>
            rw [this, ← hb]
            rw [onlyInt_eval (tr_closed closed_onlyInt hi r hr) (tr_closed closed_onlyInt hi l hl) hpy, this]
          · simp [mkAnd, eval, evals, evalOp, this, hb]
        · cases hv
      · cases hv
    case or =>
      obtain ⟨_, h⟩ := h
      simp only [pyEval] at hv
      split at hv
      · next ha =>
        have := el _ ha
        simp at hv; subst hv; subst h
        split
        · exact this
        · simp [mkOr, eval, evals, evalOp, this]
      · next ha =>
        have := el _ ha
        split at hv
        · next b hb =>
          have hb := er _ hb
          simp at hv; subst hv; subst h
          split
          · next hpy =>
            rw [this, ← hb]
            rw [onlyInt_eval (tr_closed closed_onlyInt hi r hr) (tr_closed closed_onlyInt hi l hl) hpy, this]
          · simp [mkOr, eval, evals, evalOp, this, hb]
        · cases hv
      · cases hv
    all_goals
      obtain ⟨_, h⟩ := h
      subst h
      simp only [pyEval] at hv
      split at hv
      · next a b ha hb =>
        have ha := el _ ha
        have hb := er _ hb
        first
          | (simp only [BinOp.run, Option.map_some, Option.some.injEq] at hv
             subst hv
             simp [eval, evals, evalOp, ha, hb])
          | (simp only [BinOp.run, Option.map_eq_some_iff] at hv
             obtain ⟨c, hc, rfl⟩ := hv
             simp [eval, evals, evalOp, ha, hb, hI.div _ _ _ hc])
      · cases hv
  | .neg e, e', v, hn, h, hv => by
    simp only [PyExpr.noChain] at hn
    simp only [trExpr] at h
    split at h
    · next x hx =>
      split at h
      · simp at h; subst h
        simp only [pyEval] at hv
        split at hv
        · next a ha =>
          have := tr_eval hI hd hi e hn hx ha
          simp at hv; subst hv
          simp [eval, evals, evalOp, this, intLit, Lit.val]
        · cases hv
      · cases h
    · cases h
  | .len e, e', v, hn, h, hv => by
    simp only [PyExpr.noChain] at hn
    simp only [trExpr] at h
    split at h
    · next x hx =>
      split at h
      · simp at h; subst h
        simp only [pyEval] at hv
        split at hv
        · next ws ha =>
          have := tr_eval hI hd hi e hn hx ha
          simp at hv; subst hv
          simp [eval, evals, evalOp, this, mkCall, hI.length]
        · cases hv
      · cases h
    · cases h
  | .index b i, e', v, hn, h, hv => by
    simp only [PyExpr.noChain, Bool.and_eq_true] at hn
    simp only [trExpr] at h
    split at h
    · next x y hx hy =>
      split at h
      · split at h
        · simp at h; subst h
          simp only [pyEval] at hv
          split at hv
          · next ws k ha hb =>
            have h1 := tr_eval hI hd hi b hn.1 hx ha
            have h2 := tr_eval hI hd hi i hn.2 hy hb
            simp [eval, evals, evalOp, h1, h2, mkCall, hI.get _ _ _ hv]
          · cases hv
        · cases h
      · cases h
    · cases h
  | .emptyList, e', v, _, h, hv => by
    simp [trExpr] at h; subst h; simp [pyEval] at hv; subst hv
    simp [mkCall, eval, evals, evalOp, hI.empty]
  | .call f t args, e', v, hn, h, hv => by
    simp only [PyExpr.noChain] at hn
    simp only [trExpr] at h
    split at h
    · next as has =>
      simp at h; subst h
      simp only [pyEval, Option.map_eq_some_iff] at hv
      obtain ⟨ws, hws, rfl⟩ := hv
      simp only [mkCall, eval, evalOp, trs_eval hI hd hi args hn has hws]
    · cases h
theorem trs_eval {I : Interp} (hI : PyPrims I) {ρ : Env} {vs : SymVars} {s : Store}
    (hd : Describes I ρ vs s) (hi : ∀ x e, vs.read x = some e → e.OnlyInt) :
    ∀ (es : List PyExpr) {es' : List Expr} {ws : List Val}, PyExpr.noChains es = true →
      trExprs vs es = some es' → pyEvals I s es = some ws → evals I ρ es' = ws
  | [], es', ws, _, h, hv => by
    simp [trExprs] at h; subst h; simp [pyEvals] at hv; subst hv; rfl
  | e :: es, es', ws, hn, h, hv => by
    simp only [PyExpr.noChains, Bool.and_eq_true] at hn
    simp only [trExprs] at h
    split at h
    · next e1 es1 h1 h2 =>
      simp at h; subst h
      simp only [pyEvals] at hv
      split at hv
      · next w hw =>
        simp only [Option.map_eq_some_iff] at hv
        obtain ⟨ws', hws, rfl⟩ := hv
        simp [evals, tr_eval hI hd hi e hn.1 h1 hw, trs_eval hI hd hi es hn.2 h2 hws]
      · cases hv
    · cases h
end

end Runs

end Metalift
