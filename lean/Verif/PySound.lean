import Verif.PyStmtLemmas
/-
Soundness of the generated verification conditions on the supported fragment.
-/
namespace Metalift

/-! ### The fragment -/

/-- Scalar types. -/
def Ty.scalar : Ty → Bool
  | .int => true
  | .bool => true
  | _ => false

/-- Set types. -/
def Ty.isSet : Ty → Bool
  | .set _ => true
  | _ => false

/-- Straight-line code: no loop, no return, no chained comparison; assignments respect the
declared types and do not alias sets; an `if` modifies only scalar variables. -/
def Stmt.simple (Γ : String → Ty) : Stmt → Bool
  | .skip => true
  | .seq a b => a.simple Γ && b.simple Γ
  | .assign x e => e.noChain && decide (e.ty Γ = Γ x) && !(Γ x).isSet
  | .append _ e => e.noChain
  | .setAdd _ e => e.noChain
  | .setRemove _ e => e.noChain
  | .ret _ => false
  | .ite c t e => c.noChain && t.simple Γ && e.simple Γ &&
      (t.writes ++ e.writes).all (fun x => (Γ x).scalar)
  | .loop _ _ _ => false

/-- Straight-line code that ends with a return (followed by anything). -/
def Stmt.retTail (Γ : String → Ty) : Stmt → Bool
  | .ret e => e.noChain
  | .seq (.ret e) _ => e.noChain
  | .seq a b => a.simple Γ && b.retTail Γ
  | _ => false

/-- The supported function bodies.  `U` are the symbols in use (parameters and symbols of the
preconditions, variables modified by earlier loops), `first` says that no obligation has been
generated yet.
* straight-line code is supported anywhere;
* a loop has a straight-line body that modifies no variable in `U`;
* a branch that ends with a return is supported if the other branch is straight-line
  and it is the first statement generating an obligation;
* a return ends the function (dead code may follow). -/
def Stmt.supported (Γ : String → Ty) (U : List String) (first : Bool) : Stmt → Bool
  | .seq a b =>
    if a.simple Γ then b.supported Γ U first
    else match a with
      | .loop _ c body => c.noChain && body.simple Γ && body.writes.all (fun x => !U.contains x) &&
          b.supported Γ (U ++ body.writes) false
      | .ite c t e => first && c.noChain &&
          ((t.retTail Γ && e.simple Γ) || (t.simple Γ && e.retTail Γ)) && b.supported Γ U false
      | .ret e => e.noChain
      | _ => false
  | .ret e => e.noChain
  | a => a.simple Γ

/-! ### Invariant of the symbolic variables -/

/-- What holds of every symbolic value: its type is the declared one, its literals are integers,
its symbols are in `U`, and a set variable holds at most its own symbol. -/
structure GoodVal (Γ : String → Ty) (U : List String) (x : String) (e : Expr) : Prop where
  ty : e.ty = Γ x
  ints : e.OnlyInt
  fresh : ∀ y ∈ e.vars, y ∈ U
  sets : ∀ y t, e = .var y (.set t) → y = x

structure GoodVars (Γ : String → Ty) (U : List String) (vs : SymVars) : Prop where
  nodup : (vs.map Prod.fst).Nodup
  val : ∀ x e, vs.read x = some e → GoodVal Γ U x e

theorem GoodVars.write {Γ U vs x e} (h : GoodVars Γ U vs) (he : GoodVal Γ U x e) :
    GoodVars Γ U (vs.write x e) :=
  ⟨nodup_write h.nodup _ _, fun y f hy => by
    rw [read_write] at hy
    split at hy
    · next hyx => simp at hy; subst hy; exact hyx ▸ he
    · exact h.val y f hy⟩

theorem GoodVars.describes_set {I : Interp} {ρ : Env} {vs : SymVars} {s : Store} {x : String} {e : Expr}
    {v : Val} (hd : Describes I ρ vs s) (he : eval I ρ e = v) :
    Describes I ρ (vs.write x e) (s.set x v) := by
  intro y f w hy hw
  rw [read_write] at hy
  simp only [Store.set] at hw
  split at hy
  · next h => subst h; simp at hw hy; subst hw; subst hy; exact he.symm
  · next h => simp [h] at hw; exact hd y f w hy hw

section Runs
variable [PyOps]

/-- Result of visiting straight-line code. -/
structure SimpleStep (Γ : String → Ty) (U : List String) (st : Stmt) (σ σ' : PState) : Prop where
  precond : σ'.precond = σ.precond
  asserts : σ'.asserts = σ.asserts
  ret : σ'.hasReturned = false
  good : GoodVars Γ U σ'.vars
  some_keep : ∀ x e, σ.vars.read x = some e → ∃ e', σ'.vars.read x = some e' ∧
    (x ∉ st.writes → ∀ I ρ, eval I ρ e' = eval I ρ e)
  none_keep : ∀ x, x ∉ st.writes → σ.vars.read x = none → σ'.vars.read x = none
  run : ∀ I ρ s s', PyPrims I → Describes I ρ σ.vars s → Exec I s st (.normal s') →
    Describes I ρ σ'.vars s'

theorem simple_no_return {Γ : String → Ty} {I : Interp} : ∀ {st : Stmt} {s : Store} {v : Val},
    st.simple Γ = true → ¬ Exec I s st (.returned v)
  | .skip, s, v, _, h => nomatch h
  | .seq a b, s, v, hs, h => by
    simp only [Stmt.simple, Bool.and_eq_true] at hs
    cases h with
    | seq h1 h2 => exact simple_no_return hs.2 h2
    | seqRet h1 => exact simple_no_return hs.1 h1
  | .assign x e, s, v, _, h => nomatch h
  | .append x e, s, v, _, h => nomatch h
  | .setAdd x e, s, v, _, h => nomatch h
  | .setRemove x e, s, v, _, h => nomatch h
  | .ret e, s, v, hs, h => by simp [Stmt.simple] at hs
  | .ite c t e, s, v, hs, h => by
    simp only [Stmt.simple, Bool.and_eq_true] at hs
    cases h with
    | iteT _ h => exact simple_no_return hs.1.1.2 h
    | iteF _ h => exact simple_no_return hs.1.2 h
  | .loop _ _ _, s, v, hs, h => by simp [Stmt.simple] at hs

/-- A write of a good value is a `SimpleStep`. -/
theorem SimpleStep.ofWrite {Γ : String → Ty} {U : List String} {st : Stmt} {σ : PState} {x : String}
    {e : Expr} (hg : GoodVars Γ U σ.vars) (hr : σ.hasReturned = false) (he : GoodVal Γ U x e)
    (hw : x ∈ st.writes)
    (run : ∀ I ρ s s', PyPrims I → Describes I ρ σ.vars s → Exec I s st (.normal s') →
      s' = s.set x (eval I ρ e)) :
    SimpleStep Γ U st σ { σ with vars := σ.vars.write x e } where
  precond := rfl
  asserts := rfl
  ret := hr
  good := hg.write he
  some_keep := by
    intro y f hy
    by_cases h : y = x
    · subst h
      exact ⟨e, by simp [read_write], fun hn => absurd hw hn⟩
    · exact ⟨f, by simp [read_write, h, hy], fun _ _ _ => rfl⟩
  none_keep := by
    intro y hy hn
    have : y ≠ x := fun h => hy (h ▸ hw)
    simp [read_write, this, hn]
  run := by
    intro I ρ s s' hI hd hx
    rw [run I ρ s s' hI hd hx]
    exact GoodVars.describes_set hd rfl

theorem SimpleStep.ofSetOp {Γ : String → Ty} {U : List String} {st : Stmt} {σ : PState} {x y : String}
    {t : Ty} {e' : Expr} {f : String} {e : PyExpr}
    (hg : GoodVars Γ U σ.vars) (hr : σ.hasReturned = false)
    (hread : σ.vars.read x = some (.var y (.set t))) (htr : trExpr σ.vars e = some e')
    (hw : x ∈ st.writes)
    (run : ∀ I ρ s s', PyPrims I → Describes I ρ σ.vars s → Exec I s st (.normal s') →
      s' = s.set x (I.fn f [ρ x, I.fn "set-singleton" [eval I ρ e']])) :
    SimpleStep Γ U st σ { σ with vars := σ.vars.write y (mkCall f (.set t)
        [.var y (.set t), mkCall "set-singleton" (.set e'.ty) [e']]) } := by
  have gx := hg.val x _ hread
  have hyx : y = x := gx.sets y t rfl
  subst hyx
  have hU := tr_closed (closed_fresh U) (fun x e h => (hg.val x e h).fresh) e htr
  have hO := tr_closed closed_onlyInt (fun x e h => (hg.val x e h).ints) e htr
  refine SimpleStep.ofWrite hg hr ⟨gx.ty, ?_, ?_, ?_⟩ hw ?_
  · refine onlyInt_node.2 (fun w hw => ?_)
    simp at hw
    rcases hw with rfl | rfl
    · exact gx.ints
    · exact onlyInt_node.2 (by simpa using hO)
  · intro z hz
    obtain ⟨w, hw, hz'⟩ := mem_vars_node.1 hz
    simp at hw
    rcases hw with rfl | rfl
    · exact gx.fresh z hz'
    · obtain ⟨w, hw, hz''⟩ := mem_vars_node.1 hz'
      simp at hw; subst hw
      exact hU z hz''
  · intro z u h; simp [mkCall] at h
  · intro I ρ s s' hI hd hx
    rw [run I ρ s s' hI hd hx]
    simp [mkCall, eval, evals, evalOp]

theorem simple_visit {C : Ctx} {U : List String} : ∀ {st : Stmt} {σ σ' : PState},
    st.simple C.types = true → σ.hasReturned = false → GoodVars C.types U σ.vars →
    visit C st σ = some σ' → SimpleStep C.types U st σ σ'
  | .skip, σ, σ', _, hr, hg, h => by
    simp [visit] at h; subst h
    exact ⟨rfl, rfl, hr, hg, fun x e he => ⟨e, he, fun _ _ _ => rfl⟩, fun _ _ h => h,
      fun I ρ s s' _ hd hx => by cases hx; exact hd⟩
  | .seq a b, σ, σ', hs, hr, hg, h => by
    simp only [Stmt.simple, Bool.and_eq_true] at hs
    simp only [visit] at h
    split at h
    · next σ1 h1 =>
      have sa := simple_visit hs.1 hr hg h1
      have sb := simple_visit hs.2 sa.ret sa.good h
      refine ⟨sb.precond.trans sa.precond, sb.asserts.trans sa.asserts, sb.ret, sb.good, ?_, ?_, ?_⟩
      · intro x e he
        obtain ⟨e1, he1, k1⟩ := sa.some_keep x e he
        obtain ⟨e2, he2, k2⟩ := sb.some_keep x e1 he1
        refine ⟨e2, he2, fun hn I ρ => ?_⟩
        simp only [Stmt.writes, List.mem_append, not_or] at hn
        rw [k2 hn.2, k1 hn.1]
      · intro x hn he
        simp only [Stmt.writes, List.mem_append, not_or] at hn
        exact sb.none_keep x hn.2 (sa.none_keep x hn.1 he)
      · intro I ρ s s' hI hd hx
        cases hx with
        | seq x1 x2 => exact sb.run I ρ _ _ hI (sa.run I ρ _ _ hI hd x1) x2
    · cases h
  | .assign x e, σ, σ', hs, hr, hg, h => by
    simp only [Stmt.simple, Bool.and_eq_true, decide_eq_true_eq, Bool.not_eq_true'] at hs
    simp only [visit] at h
    split at h
    · next e' he =>
      simp at h; subst h
      have hty := tr_ty (fun x e h => (hg.val x e h).ty) e he
      refine SimpleStep.ofWrite hg hr ⟨hty.trans hs.1.2, ?_, ?_, ?_⟩ (by simp [Stmt.writes]) ?_
      · exact tr_closed closed_onlyInt (fun x e h => (hg.val x e h).ints) e he
      · exact tr_closed (closed_fresh U) (fun x e h => (hg.val x e h).fresh) e he
      · intro y t h
        rw [h, hs.1.2] at hty
        simp only [Expr.ty] at hty
        have := hs.2
        rw [← hty] at this
        simp [Ty.isSet] at this
      · intro I ρ s s' hI hd hx
        cases hx with
        | assign hv =>
          rw [tr_eval hI hd (fun x e h => (hg.val x e h).ints) e hs.1.1 he hv]
    · cases h
  | .append x e, σ, σ', hs, hr, hg, h => by
    simp only [Stmt.simple] at hs
    simp only [visit] at h
    split at h
    · next y t e' hy he =>
      split at h
      · next hc =>
        obtain ⟨rfl, _, ht⟩ := hc
        simp at h; subst h
        have gx := hg.val _ _ hy
        refine SimpleStep.ofWrite hg hr ⟨?_, ?_, ?_, ?_⟩ (by simp [Stmt.writes]) ?_
        · exact gx.ty
        · refine onlyInt_node.2 (fun w hw => ?_)
          simp at hw
          rcases hw with rfl | rfl
          · exact gx.ints
          · exact tr_closed closed_onlyInt (fun x e h => (hg.val x e h).ints) e he
        · intro z hz
          obtain ⟨w, hw, hz'⟩ := mem_vars_node.1 hz
          simp at hw
          rcases hw with rfl | rfl
          · exact gx.fresh z hz'
          · exact tr_closed (closed_fresh U) (fun x e h => (hg.val x e h).fresh) e he z hz'
        · intro z u h; simp [mkCall] at h
        · intro I ρ s s' hI hd hx
          cases hx with
          | append h1 h2 =>
            have e1 := hd _ _ _ hy h1
            have e2 := tr_eval hI hd (fun x e h => (hg.val x e h).ints) e hs he h2
            simp only [eval] at e1
            simp [mkCall, eval, evals, evalOp, ← e1, e2, hI.append]
      · cases h
    · cases h
  | .setAdd x e, σ, σ', hs, hr, hg, h => by
    simp only [Stmt.simple] at hs
    simp only [visit] at h
    split at h
    · next y t e' hy he =>
      simp at h; subst h
      refine SimpleStep.ofSetOp hg hr hy he (by simp [Stmt.writes]) ?_
      intro I ρ s s' hI hd hx
      have hyx : y = x := (hg.val _ _ hy).sets y t rfl
      subst hyx
      cases hx with
      | setAdd h1 h2 =>
        have e1 := hd _ _ _ hy h1
        have e2 := tr_eval hI hd (fun x e h => (hg.val x e h).ints) e hs he h2
        simp only [eval] at e1
        rw [← e1, e2, hI.setAdd]
    · cases h
  | .setRemove x e, σ, σ', hs, hr, hg, h => by
    simp only [Stmt.simple] at hs
    simp only [visit] at h
    split at h
    · next y t e' hy he =>
      simp at h; subst h
      refine SimpleStep.ofSetOp hg hr hy he (by simp [Stmt.writes]) ?_
      intro I ρ s s' hI hd hx
      have hyx : y = x := (hg.val _ _ hy).sets y t rfl
      subst hyx
      cases hx with
      | setRemove h1 h2 h3 =>
        have e1 := hd _ _ _ hy h1
        have e2 := tr_eval hI hd (fun x e h => (hg.val x e h).ints) e hs he h2
        simp only [eval] at e1
        rw [← e1, e2, hI.setRemove _ _ _ h3]
    · cases h
  | .ret e, σ, σ', hs, hr, hg, h => by simp [Stmt.simple] at hs
  | .loop _ _ _, σ, σ', hs, hr, hg, h => by simp [Stmt.simple] at hs
  | .ite c t e, σ, σ', hs, hr, hg, h => by
    simp only [Stmt.simple, Bool.and_eq_true] at hs
    obtain ⟨⟨⟨hc, ht⟩, he⟩, hw⟩ := hs
    simp only [visit] at h
    split at h
    · cases h
    · next cond hcond =>
      split at h
      · cases h
      · split at h
        · next cs as hcs has =>
          have sc := simple_visit ht (by exact hr) (by exact hg) hcs
          have sa := simple_visit he (by exact hr) (by exact hg) has
          simp only [sc.ret, sa.ret, Bool.and_self, Bool.false_eq_true, if_false] at h
          split at h
          · cases h
          · split at h
            · next vs hvs =>
              simp at h; subst h
              have hm := mergeVars_read sc.good.nodup hvs
              have hcU := tr_closed (closed_fresh U) (fun x e h => (hg.val x e h).fresh) c hcond
              have hcI := tr_closed closed_onlyInt (fun x e h => (hg.val x e h).ints) c hcond
              -- outside the write sets, the values of the branches coincide
              have same : ∀ x ce ae, x ∉ t.writes → x ∉ e.writes → cs.vars.read x = some ce →
                  as.vars.read x = some ae → ∀ I ρ, eval I ρ ce = eval I ρ ae := by
                intro x ce ae h1 h2 h3 h4 I ρ
                cases hx : σ.vars.read x with
                | none =>
                  have := sc.none_keep x h1 hx
                  rw [h3] at this; cases this
                | some e0 =>
                  obtain ⟨e1, g1, k1⟩ := sc.some_keep x e0 hx
                  obtain ⟨e2, g2, k2⟩ := sa.some_keep x e0 hx
                  rw [h3] at g1; rw [h4] at g2
                  simp at g1 g2; subst g1; subst g2
                  rw [k1 h1, k2 h2]
              -- the merged value is the value of the branch taken
              have value : ∀ x ce ae m, cs.vars.read x = some ce → as.vars.read x = some ae →
                  mergeVal cond ce ae = some m → ∀ I ρ,
                    eval I ρ m = if holds I ρ cond then eval I ρ ce else eval I ρ ae := by
                intro x ce ae m h3 h4 h5 I ρ
                rcases mergeVal_cases h5 with ⟨rfl, _⟩ | ⟨rfl, hl⟩
                · simp [mkIte, eval, evals, evalOp, holds]
                · have : eval I ρ m = eval I ρ ae := by
                    rcases hl with ⟨u, hu⟩ | ⟨u, hu⟩ | hpy
                    · have : x ∉ t.writes ++ e.writes := by
                        intro hx
                        have := List.all_eq_true.1 hw x hx
                        rw [← (sc.good.val x _ h3).ty, hu] at this
                        simp [Ty.scalar] at this
                      simp only [List.mem_append, not_or] at this
                      exact same x _ _ this.1 this.2 h3 h4 I ρ
                    · have : x ∉ t.writes ++ e.writes := by
                        intro hx
                        have := List.all_eq_true.1 hw x hx
                        rw [← (sc.good.val x _ h3).ty, hu] at this
                        simp [Ty.scalar] at this
                      simp only [List.mem_append, not_or] at this
                      exact same x _ _ this.1 this.2 h3 h4 I ρ
                    · exact onlyInt_eval (sc.good.val x _ h3).ints (sa.good.val x _ h4).ints hpy
                  split
                  · rfl
                  · exact this
              refine ⟨rfl, ?_, hr, ?_, ?_, ?_, ?_⟩
              · show mergeAsserts σ.asserts (cs.asserts ++ as.asserts) = σ.asserts
                rw [sc.asserts, sa.asserts]
                exact mergeAsserts_self _
              · refine ⟨mergeVars_nodup hg.nodup hvs, ?_⟩
                intro x f hf
                cases hx : cs.vars.read x with
                | none =>
                  rw [(hm x).1 hx] at hf
                  exact hg.val x f hf
                | some ce =>
                  obtain ⟨ae, m, h1, h2, h3⟩ := (hm x).2 ce hx
                  have : m = f := by simpa [h3] using hf
                  subst this
                  have gc := sc.good.val x _ hx
                  have ga := sa.good.val x _ h1
                  rcases mergeVal_cases h2 with ⟨rfl, hty⟩ | ⟨rfl, _⟩
                  · refine ⟨gc.ty, ?_, ?_, ?_⟩
                    · exact onlyInt_node.2 (by simp [hcI, gc.ints, ga.ints])
                    · intro z hz
                      obtain ⟨w, hw, hz'⟩ := mem_vars_node.1 hz
                      simp at hw
                      rcases hw with rfl | rfl | rfl
                      · exact hcU z hz'
                      · exact gc.fresh z hz'
                      · exact ga.fresh z hz'
                    · intro y u h; simp [mkIte] at h
                  · exact gc
              · intro x f hf
                obtain ⟨ce, hce, kc⟩ := sc.some_keep x f hf
                obtain ⟨ae, m, h1, h2, h3⟩ := (hm x).2 ce hce
                refine ⟨m, h3, fun hn I ρ => ?_⟩
                simp only [Stmt.writes, List.mem_append, not_or] at hn
                rw [value x ce ae m hce h1 h2, ← same x ce ae hn.1 hn.2 hce h1, kc hn.1]
                split <;> rfl
              · intro x hn hf
                simp only [Stmt.writes, List.mem_append, not_or] at hn
                rw [(hm x).1 (sc.none_keep x hn.1 hf)]
                exact hf
              · intro I ρ s s' hI hd hx
                have hints := fun x e h => (hg.val x e h).ints
                cases hx with
                | iteT hv hrun =>
                  have hct := tr_eval hI hd hints c hc hcond hv
                  have hd' := sc.run I ρ _ _ hI hd hrun
                  intro x f v hf hv'
                  cases hx : cs.vars.read x with
                  | none =>
                    rw [(hm x).1 hx] at hf
                    obtain ⟨e', he', _⟩ := sc.some_keep x f hf
                    rw [hx] at he'; cases he'
                  | some ce =>
                    obtain ⟨ae, m, h1, h2, h3⟩ := (hm x).2 ce hx
                    have : m = f := by simpa [h3] using hf
                    subst this
                    rw [value x ce ae _ hx h1 h2]
                    simp only [holds, hct, Val.asBool_bool, if_true]
                    exact hd' x ce v hx hv'
                | iteF hv hrun =>
                  have hct := tr_eval hI hd hints c hc hcond hv
                  have hd' := sa.run I ρ _ _ hI hd hrun
                  intro x f v hf hv'
                  cases hx : cs.vars.read x with
                  | none =>
                    rw [(hm x).1 hx] at hf
                    obtain ⟨e', he', _⟩ := sc.some_keep x f hf
                    rw [hx] at he'; cases he'
                  | some ce =>
                    obtain ⟨ae, m, h1, h2, h3⟩ := (hm x).2 ce hx
                    have : m = f := by simpa [h3] using hf
                    subst this
                    rw [value x ce ae _ hx h1 h2]
                    simp only [holds, hct, Val.asBool_bool, Bool.false_eq_true, if_false]
                    exact hd' x ae v h1 hv'
            · cases h
        · cases h

/-! ### Variables that are bound -/

/-- Every variable bound in the store is known to the visitor. -/
def Bound (vs : SymVars) (s : Store) : Prop := ∀ x v, s x = some v → (vs.read x).isSome = true

theorem exec_dom {I : Interp} {s : Store} {st : Stmt} {o : Outcome} (h : Exec I s st o) :
    ∀ s', o = .normal s' → ∀ x v, s' x = some v → (∃ u, s x = some u) ∨ x ∈ st.writes := by
  have set : ∀ {s : Store} {y : String} {w : Val} {x : String} {v : Val}, s.set y w x = some v →
      (∃ u, s x = some u) ∨ x ∈ [y] := by
    intro s y w x v hx
    by_cases hy : x = y
    · simp [hy]
    · simp only [Store.set, hy, if_false] at hx
      exact .inl ⟨v, hx⟩
  induction h with
  | skip => intro s' ho x v hx; cases ho; exact .inl ⟨v, hx⟩
  | seq _ _ ih1 ih2 =>
    intro s' ho x v hx
    rcases ih2 s' ho x v hx with ⟨u, hu⟩ | hw
    · rcases ih1 _ rfl x u hu with h | hw
      · exact .inl h
      · exact .inr (by simp [Stmt.writes, hw])
    · exact .inr (by simp [Stmt.writes, hw])
  | seqRet _ _ => intro s' ho; cases ho
  | assign _ => intro s' ho x v hx; cases ho; exact set hx
  | append _ _ => intro s' ho x v hx; cases ho; exact set hx
  | setAdd _ _ => intro s' ho x v hx; cases ho; exact set hx
  | setRemove _ _ _ => intro s' ho x v hx; cases ho; exact set hx
  | ret _ => intro s' ho; cases ho
  | iteT _ _ ih =>
    intro s' ho x v hx
    rcases ih s' ho x v hx with h | h
    · exact .inl h
    · exact .inr (by simp [Stmt.writes, h])
  | iteF _ _ ih =>
    intro s' ho x v hx
    rcases ih s' ho x v hx with h | h
    · exact .inl h
    · exact .inr (by simp [Stmt.writes, h])
  | loopF _ => intro s' ho x v hx; cases ho; exact .inl ⟨v, hx⟩
  | loopT _ _ _ ih1 ih2 =>
    intro s' ho x v hx
    rcases ih2 s' ho x v hx with ⟨u, hu⟩ | hw
    · rcases ih1 _ rfl x u hu with h | hw
      · exact .inl h
      · exact .inr (by simpa [Stmt.writes] using hw)
    · exact .inr hw
  | loopRet _ _ _ => intro s' ho; cases ho

theorem simple_writes {C : Ctx} {U : List String} : ∀ {st : Stmt} {σ σ' : PState},
    st.simple C.types = true → σ.hasReturned = false → GoodVars C.types U σ.vars →
    visit C st σ = some σ' → ∀ x ∈ st.writes, (σ'.vars.read x).isSome = true
  | .skip, σ, σ', _, _, _, _ => by simp [Stmt.writes]
  | .seq a b, σ, σ', hs, hr, hg, h => by
    simp only [Stmt.simple, Bool.and_eq_true] at hs
    simp only [visit] at h
    split at h
    · next σ1 h1 =>
      have sa := simple_visit hs.1 hr hg h1
      have sb := simple_visit hs.2 sa.ret sa.good h
      intro x hx
      rcases List.mem_append.1 hx with hx | hx
      · have := simple_writes hs.1 hr hg h1 x hx
        obtain ⟨e, he⟩ := Option.isSome_iff_exists.1 this
        obtain ⟨e', he', _⟩ := sb.some_keep x e he
        simp [he']
      · exact simple_writes hs.2 sa.ret sa.good h x hx
    · cases h
  | .assign x e, σ, σ', _, _, _, h => by
    simp only [visit] at h
    split at h
    · simp at h; subst h
      intro y hy
      simp [Stmt.writes] at hy
      simp [read_write, hy]
    · cases h
  | .append x e, σ, σ', _, _, _, h => by
    simp only [visit] at h
    split at h
    · split at h
      · simp at h; subst h
        intro y hy
        simp [Stmt.writes] at hy
        simp [read_write, hy]
      · cases h
    · cases h
  | .setAdd x e, σ, σ', _, _, hg, h => by
    simp only [visit] at h
    split at h
    · next y t e' hy he =>
      have hyx : y = x := (hg.val _ _ hy).sets y t rfl
      subst hyx
      simp at h; subst h
      intro z hz
      simp [Stmt.writes] at hz
      simp [read_write, hz]
    · cases h
  | .setRemove x e, σ, σ', _, _, hg, h => by
    simp only [visit] at h
    split at h
    · next y t e' hy he =>
      have hyx : y = x := (hg.val _ _ hy).sets y t rfl
      subst hyx
      simp at h; subst h
      intro z hz
      simp [Stmt.writes] at hz
      simp [read_write, hz]
    · cases h
  | .ret e, σ, σ', hs, _, _, _ => by simp [Stmt.simple] at hs
  | .loop _ _ _, σ, σ', hs, _, _, _ => by simp [Stmt.simple] at hs
  | .ite c t e, σ, σ', hs, hr, hg, h => by
    simp only [Stmt.simple, Bool.and_eq_true] at hs
    obtain ⟨⟨⟨hc, ht⟩, he⟩, hw⟩ := hs
    simp only [visit] at h
    split at h
    · cases h
    · split at h
      · cases h
      · split at h
        · next cs as hcs has =>
          have sc := simple_visit ht (by exact hr) (by exact hg) hcs
          have sa := simple_visit he (by exact hr) (by exact hg) has
          have wc := simple_writes ht (by exact hr) (by exact hg) hcs
          have wa := simple_writes he (by exact hr) (by exact hg) has
          simp only [sc.ret, sa.ret, Bool.and_self, Bool.false_eq_true, if_false] at h
          split at h
          · cases h
          · next hone =>
            split at h
            · next vs hvs =>
              simp at h; subst h
              have hm := mergeVars_read sc.good.nodup hvs
              have key : ∀ x, (cs.vars.read x).isSome = true → (vs.read x).isSome = true := by
                intro x hx
                obtain ⟨ce, hce⟩ := Option.isSome_iff_exists.1 hx
                obtain ⟨ae, m, _, _, h3⟩ := (hm x).2 ce hce
                simp [h3]
              intro x hx
              rcases List.mem_append.1 hx with hx | hx
              · exact key x (wc x hx)
              · refine key x ?_
                cases hcx : cs.vars.read x with
                | some _ => rfl
                | none =>
                  exfalso
                  have hax := wa x hx
                  obtain ⟨ae, hae⟩ := Option.isSome_iff_exists.1 hax
                  have hsx : σ.vars.read x = none := by
                    cases hσ : σ.vars.read x with
                    | none => rfl
                    | some e0 =>
                      obtain ⟨e1, h1, _⟩ := sc.some_keep x e0 hσ
                      rw [hcx] at h1; cases h1
                  apply hone
                  simp only [oneSided, List.any_eq_true, List.mem_append]
                  exact ⟨(x, ae), .inr (read_mem hae), by simp [hsx, hcx, hae]⟩
            · cases h
        · cases h

theorem simple_bound {C : Ctx} {U : List String} {st : Stmt} {σ σ' : PState} {I : Interp} {s s' : Store}
    (hs : st.simple C.types = true) (hr : σ.hasReturned = false) (hg : GoodVars C.types U σ.vars)
    (h : visit C st σ = some σ') (hx : Exec I s st (.normal s')) (hb : Bound σ.vars s) : Bound σ'.vars s' := by
  intro x v hv
  rcases exec_dom hx s' rfl x v hv with ⟨u, hu⟩ | hw
  · obtain ⟨e, he⟩ := Option.isSome_iff_exists.1 (hb x u hu)
    obtain ⟨e', he', _⟩ := (simple_visit hs hr hg h).some_keep x e he
    simp [he']
  · exact simple_writes hs hr hg h x hw

/-! ### Environments in which the obligations are valid -/

/-- Every variable has a value in `T`. -/
def EnvIn (T : String → Val → Prop) (ρ : Env) : Prop := ∀ x, T x (ρ x)

/-- The values of the symbolic variables are in `T`. -/
def VarsIn (I : Interp) (T : String → Val → Prop) (vs : SymVars) : Prop :=
  ∀ x e, vs.read x = some e → ∀ ρ, EnvIn T ρ → T x (eval I ρ e)

/-- Straight-line code (of the class `K`) keeps the values in `T`. -/
structure TypeInv (C : Ctx) (I : Interp) (T : String → Val → Prop) (K : Stmt → Prop) : Prop where
  seq : ∀ {a b}, K (.seq a b) → K a ∧ K b
  ite : ∀ {c t e}, K (.ite c t e) → K t ∧ K e
  loop : ∀ {l c b}, K (.loop l c b) → K b
  step : ∀ {U st σ σ'}, st.simple C.types = true → K st → σ.hasReturned = false → GoodVars C.types U σ.vars →
    visit C st σ = some σ' → VarsIn I T σ.vars → VarsIn I T σ'.vars

/-- All values. -/
def anyVal : String → Val → Prop := fun _ _ => True
/-- All statements. -/
def anyStmt : Stmt → Prop := fun _ => True

omit [PyOps] in
theorem typeInv_any (C : Ctx) (I : Interp) : TypeInv C I anyVal anyStmt :=
  ⟨fun _ => ⟨trivial, trivial⟩, fun _ => ⟨trivial, trivial⟩, fun _ => trivial, fun _ _ _ _ _ _ _ _ _ _ _ => trivial⟩

omit [PyOps] in
theorem varsIn_any (I : Interp) (vs : SymVars) : VarsIn I anyVal vs := fun _ _ _ _ _ => trivial

/-- The store binds no variable unknown to the visitor (not needed if all values are allowed). -/
def Loose (T : String → Val → Prop) (vs : SymVars) (s : Store) : Prop := (∀ x v, T x v) ∨ Bound vs s

/-- The obligation holds in all environments with values in `T`. -/
def validIn (T : String → Val → Prop) (I : Interp) (e : Expr) : Prop := ∀ ρ, EnvIn T ρ → holds I ρ e

/-! ### Returns -/

/-- The postcondition instance required of a run that returns `v`. -/
def psHolds (C : Ctx) (I : Interp) (ρ : Env) (v : Val) : Prop :=
  (I.fn C.ps (C.params.map ρ ++ [v])).asBool = true

omit [PyOps] in
theorem ps_eval (C : Ctx) (I : Interp) (ρ : Env) (e : Expr) :
    holds I ρ (mkCall C.ps .bool (C.argExprs ++ [e])) ↔ psHolds C I ρ (eval I ρ e) := by
  have : ∀ l : List String, evals I ρ (l.map (fun x => Expr.var x (C.types x)) ++ [e]) =
      l.map ρ ++ [eval I ρ e] := by
    intro l
    induction l with
    | nil => rfl
    | cons x xs ih => simp [evals, eval, ih]
  simp only [holds, mkCall, eval, evalOp, Ctx.argExprs, this, psHolds]

/-- `a` is a return obligation for the path condition `pre` and the returned expression `e`. -/
def IsReturn (C : Ctx) (a : Expr) (pre : List Expr) (e : Expr) : Prop :=
  a = guardBy pre (mkCall C.ps .bool (C.argExprs ++ [e]))

/-- Some obligation `pre ⇒ ps(args, e)` speaks about a run with arguments `ρ` that returns `v`: for
some values of the other symbols, the path condition holds and `e` denotes `v`. -/
def Covered (C : Ctx) (I : Interp) (asserts : List Expr) (ρ : Env) (v : Val) (T : String → Val → Prop := anyVal) : Prop :=
  ∃ a ∈ asserts, ∃ pre e ρ', IsReturn C a pre e ∧ (∀ x ∈ C.params, ρ' x = ρ x) ∧
    (∀ p ∈ pre, holds I ρ' p) ∧ eval I ρ' e = v ∧ EnvIn T ρ'

omit [PyOps] in
theorem Covered.psHolds {C : Ctx} {I : Interp} {asserts : List Expr} {ρ : Env} {v : Val} {T : String → Val → Prop}
    (h : Covered C I asserts ρ v T) (hval : ∀ a ∈ asserts, validIn T I a) : psHolds C I ρ v := by
  obtain ⟨a, ha, pre, e, ρ', rfl, hρ, hp, rfl, hT⟩ := h
  have := (ps_eval C I ρ' e).1 (guardBy_holds hp (hval _ ha ρ' hT))
  unfold Metalift.psHolds at *
  rw [List.map_congr_left (g := ρ) hρ] at this
  exact this

/-- Result of visiting a block that ends with a return: the obligation comes first. -/
structure RetStep (C : Ctx) (st : Stmt) (σ σ' : PState) : Prop where
  ret : σ'.hasReturned = true
  obligation : ∃ a, (σ.asserts ++ [a]) <+: σ'.asserts ∧ ∃ pre e, IsReturn C a pre e ∧
    ∀ I ρ s v, PyPrims I → Describes I ρ σ.vars s → (∀ p ∈ σ.precond, holds I ρ p) →
    Exec I s st (.returned v) → (∀ p ∈ pre, holds I ρ p) ∧ eval I ρ e = v
  noNormal : ∀ I s s', ¬ Exec I s st (.normal s')

theorem ret_visit {C : Ctx} {U : List String} {e : PyExpr} {σ σ' : PState}
    (he : e.noChain = true) (hg : GoodVars C.types U σ.vars) (h : visit C (.ret e) σ = some σ') :
    RetStep C (.ret e) σ σ' := by
  simp only [visit] at h
  split at h
  · next e' htr =>
    simp at h; subst h
    refine ⟨rfl, ⟨_, List.prefix_refl _, σ.precond, e', rfl, ?_⟩, fun I s s' h => nomatch h⟩
    intro I ρ s v hI hd hp hx
    cases hx with
    | ret hv =>
      exact ⟨hp, tr_eval hI hd (fun x e h => (hg.val x e h).ints) e he htr hv⟩
  · cases h

theorem RetStep.seqLeft {C : Ctx} {a b : Stmt} {σ σ1 σ' : PState} (h1 : RetStep C a σ σ1)
    (h : visit C b σ1 = some σ') : RetStep C (.seq a b) σ σ' := by
  have hm := visit_mono C b h
  refine ⟨hm.2 h1.ret, ?_, ?_⟩
  · obtain ⟨o, ho, pre, e, hre, hrun⟩ := h1.obligation
    refine ⟨o, ho.trans hm.1, pre, e, hre, ?_⟩
    intro I ρ s v hI hd hp hx
    cases hx with
    | seq x1 _ => exact absurd x1 (h1.noNormal I _ _)
    | seqRet x1 => exact hrun I ρ s v hI hd hp x1
  · intro I s s' hx
    cases hx with
    | seq x1 _ => exact h1.noNormal I _ _ x1

theorem RetStep.seqRight {C : Ctx} {U : List String} {a b : Stmt} {σ σ1 σ' : PState}
    (hs : a.simple C.types = true) (h1 : SimpleStep C.types U a σ σ1)
    (h2 : RetStep C b σ1 σ') : RetStep C (.seq a b) σ σ' := by
  refine ⟨h2.ret, ?_, ?_⟩
  · obtain ⟨o, ho, pre, e, hre, hrun⟩ := h2.obligation
    refine ⟨o, h1.asserts ▸ ho, pre, e, hre, ?_⟩
    intro I ρ s v hI hd hp hx
    cases hx with
    | seq x1 x2 =>
      exact hrun I ρ _ v hI (h1.run I ρ _ _ hI hd x1) (h1.precond ▸ hp) x2
    | seqRet x1 => exact absurd x1 (simple_no_return hs)
  · intro I s s' hx
    cases hx with
    | seq _ x2 => exact h2.noNormal I _ _ x2

theorem retTail_visit {C : Ctx} {U : List String} : ∀ {st : Stmt} {σ σ' : PState},
    st.retTail C.types = true → σ.hasReturned = false → GoodVars C.types U σ.vars →
    visit C st σ = some σ' → RetStep C st σ σ'
  | .ret e, σ, σ', hs, hr, hg, h => by
    simp only [Stmt.retTail] at hs
    exact ret_visit hs hg h
  | .seq a b, σ, σ', hs, hr, hg, h => by
    simp only [visit] at h
    split at h
    · next σ1 h1 =>
      by_cases ha : a.simple C.types = true
      · have sa := simple_visit ha hr hg h1
        have hb : b.retTail C.types = true := by
          cases a with
          | ret e => simp [Stmt.simple] at ha
          | _ => simp only [Stmt.retTail, Bool.and_eq_true] at hs; exact hs.2
        exact RetStep.seqRight ha sa (retTail_visit hb sa.ret sa.good h)
      · cases a with
        | ret e =>
          simp only [Stmt.retTail] at hs
          exact (ret_visit hs hg h1).seqLeft h
        | _ => simp only [Stmt.retTail, Bool.and_eq_true] at hs; exact absurd hs.1 ha
    · cases h
  | .skip, _, _, hs, _, _, _ => by simp [Stmt.retTail] at hs
  | .assign _ _, _, _, hs, _, _, _ => by simp [Stmt.retTail] at hs
  | .append _ _, _, _, hs, _, _, _ => by simp [Stmt.retTail] at hs
  | .setAdd _ _, _, _, hs, _, _, _ => by simp [Stmt.retTail] at hs
  | .setRemove _ _, _, _, hs, _, _, _ => by simp [Stmt.retTail] at hs
  | .ite _ _ _, _, _, hs, _, _, _ => by simp [Stmt.retTail] at hs
  | .loop _ _ _, _, _, hs, _, _, _ => by simp [Stmt.retTail] at hs

/-! ### Loops -/

/-- Environment in which the symbols of the modified variables have the values of the given
symbolic expressions. -/
noncomputable def reenv (T : String → Val → Prop) (I : Interp) (ρ : Env) (vs : SymVars) (ws : List String) (s : Store) : Env := fun x =>
  if x ∈ ws then
    match vs.read x with
    | some e => eval I ρ e
    | none => open Classical in if T x ((s x).getD (.int 0)) then (s x).getD (.int 0) else ρ x
  else ρ x

omit [PyOps] in
theorem reenv_in {T : String → Val → Prop} {I : Interp} {ρ : Env} {vs : SymVars} {ws : List String} {s : Store}
    (hv : VarsIn I T vs) (hρ : EnvIn T ρ) : EnvIn T (reenv T I ρ vs ws s) := by
  intro x
  unfold reenv
  split
  · split
    · next e he => exact hv x e he ρ hρ
    · split
      · next h => exact h
      · exact hρ x
  · exact hρ x

omit [PyOps] in
/-- The value of a variable known to the store but not to the visitor. -/
theorem reenv_none {T : String → Val → Prop} {I : Interp} {ρ : Env} {vs : SymVars} {ws : List String} {s : Store} {x : String} {v : Val}
    (hl : Loose T vs s) (hx : x ∈ ws) (hrd : vs.read x = none) (hv : s x = some v) : v = reenv T I ρ vs ws s x := by
  rcases hl with hl | hl
  · simp [reenv, hx, hrd, hv, hl x v]
  · have := hl x v hv
    rw [hrd] at this; cases this

omit [PyOps] in
theorem reenv_eval {T : String → Val → Prop} {I : Interp} {ρ : Env} {vs : SymVars} {ws U : List String} {s : Store} {e : Expr}
    (hU : ∀ y ∈ e.vars, y ∈ U) (hw : ∀ x ∈ ws, x ∉ U) :
    eval I (reenv T I ρ vs ws s) e = eval I ρ e := by
  apply eval_congr
  intro x hx
  have : x ∉ ws := fun h => hw x h (hU x hx)
  simp [reenv, this]

/-- Result of visiting a loop with a straight-line body. -/
structure LoopStep (C : Ctx) (U : List String) (b : Stmt) (st : Stmt) (σ σ' : PState) (T : String → Val → Prop) (K : Stmt → Prop) : Prop where
  ret : σ'.hasReturned = false
  good : GoodVars C.types (U ++ b.writes) σ'.vars
  pre : ∀ p ∈ σ'.precond, ∀ y ∈ p.vars, y ∈ U ++ b.writes
  asserts : σ.asserts <+: σ'.asserts
  noRet : ∀ I s v, ¬ Exec I s st (.returned v)
  run : ∀ I ρ s s', PyPrims I → TypeInv C I T K → VarsIn I T σ.vars → EnvIn T ρ → Loose T σ.vars s →
    Describes I ρ σ.vars s → (∀ p ∈ σ.precond, holds I ρ p) →
    (∀ a ∈ σ'.asserts, validIn T I a) → Exec I s st (.normal s') →
    VarsIn I T σ'.vars ∧ Loose T σ'.vars s' ∧
    ∃ ρ', EnvIn T ρ' ∧ (∀ x ∈ U, ρ' x = ρ x) ∧ Describes I ρ' σ'.vars s' ∧ ∀ p ∈ σ'.precond, holds I ρ' p

theorem loop_no_return {Γ : String → Ty} {I : Interp} {l : Nat} {c : PyExpr} {b : Stmt}
    (hb : b.simple Γ = true) {s : Store} {v : Val} : ¬ Exec I s (.loop l c b) (.returned v) := by
  intro h
  generalize hst : Stmt.loop l c b = st at h
  generalize ho : Outcome.returned v = o at h
  induction h with
  | loopT _ _ _ _ ih => cases hst; exact ih rfl ho
  | loopRet _ h _ => cases hst; exact simple_no_return hb h
  | loopF _ => cases ho
  | _ => cases hst

/-- Loop rule: an invariant of stores that holds initially and is preserved holds at the exit. -/
theorem loop_rule {I : Interp} {l : Nat} {c : PyExpr} {b : Stmt} {J : Store → Prop}
    (pres : ∀ s s', J s → pyEval I s c = some (.bool true) → Exec I s b (.normal s') → J s')
    {s s' : Store} (h : Exec I s (.loop l c b) (.normal s')) (hj : J s) :
    J s' ∧ pyEval I s' c = some (.bool false) := by
  generalize hst : Stmt.loop l c b = st at h
  generalize ho : Outcome.normal s' = o at h
  induction h with
  | loopF hc => cases hst; cases ho; exact ⟨hj, hc⟩
  | loopT hc hb _ _ ih => cases hst; exact ih (pres _ _ hj hc hb) rfl ho
  | loopRet _ _ => cases ho
  | _ => cases hst

theorem loop_visit {C : Ctx} {U : List String} {l : Nat} {c : PyExpr} {b : Stmt} {σ σ' : PState}
    (hc : c.noChain = true) (hb : b.simple C.types = true) (hw : ∀ x ∈ b.writes, x ∉ U)
    (hr : σ.hasReturned = false) (hg : GoodVars C.types U σ.vars)
    (hp : ∀ p ∈ σ.precond, ∀ y ∈ p.vars, y ∈ U)
    {T : String → Val → Prop} {K : Stmt → Prop} (hK : K b)
    (h : visit C (.loop l c b) σ = some σ') : LoopStep C U b (.loop l c b) σ σ' T K := by
  have hpre := (visit_mono C (.loop l c b) h).1
  simp only [visit] at h
  split at h
  · cases h
  · next vals0 hv0 =>
    split at h
    · next body cond vals1 hbody hcond hv1 =>
      split at h
      · cases h
      · split at h
        · next vals2 pre post hv2 hpreq hpostq =>
          simp at h; subst h
          -- the havocked variables
          have hgood : GoodVars C.types (U ++ b.writes) (havoc C.types σ.vars b.writes) := by
            refine ⟨havoc_nodup _ _ _ hg.nodup, fun x e he => ?_⟩
            rw [havoc_read] at he
            split at he
            · next hx =>
              simp at he; subst he
              refine ⟨rfl, ?_, ?_, ?_⟩
              · simp [Expr.OnlyInt, Expr.litTys]
              · intro y hy; simp [Expr.vars] at hy; subst hy; simp [hx]
              · intro y t h; simp at h; exact h.1.symm
            · have g := hg.val x e he
              exact ⟨g.ty, g.ints, fun y hy => List.mem_append_left _ (g.fresh y hy), g.sets⟩
          have hints := fun x e h => (hgood.val x e h).ints
          have sb := simple_visit hb (by exact hr) hgood hbody
          have invU : ∀ y ∈ (mkCall (C.inv l) .bool vals1).vars, y ∈ U ++ b.writes := by
            intro y hy
            obtain ⟨e, he, hy'⟩ := mem_vars_node.1 hy
            obtain ⟨x, _, hx⟩ := readAll_eq hv1 e he
            exact (hgood.val x e hx).fresh y hy'
          have condU := tr_closed (closed_fresh (U ++ b.writes))
            (fun x e h => (hgood.val x e h).fresh) c hcond
          refine ⟨hr, hgood, ?_, hpre, fun I s v => loop_no_return hb, ?_⟩
          · intro p hpm y hy
            rcases List.mem_append.1 hpm with hpm | hpm
            · exact List.mem_append_left _ (hp p hpm y hy)
            · simp at hpm; subst hpm
              exact andObjects_closed (closed_fresh (U ++ b.writes)) hpostq (by
                intro w hw y hy
                simp at hw
                rcases hw with rfl | rfl
                · obtain ⟨e, he, hy'⟩ := mem_vars_node.1 hy
                  simp at he; subst he
                  exact condU y hy'
                · exact invU y hy) y hy
          · intro I ρ s s' hI hTI hVT hρT hloose hd hpr hval hx
            have hVT1 : VarsIn I T (havoc C.types σ.vars b.writes) := by
              intro x e he ρ' hρ'
              rw [havoc_read] at he
              split at he
              · simp at he; subst he; exact hρ' x
              · exact hVT x e he ρ' hρ'
            have hVT2 : VarsIn I T body.vars := hTI.step hb hK (by exact hr) hgood hbody hVT1
            have hva1 := hval (guardBy σ.precond (mkCall (C.inv l) .bool vals0)) (by simp)
            have hva2 := hval (mkImplies pre (mkCall (C.inv l) .bool vals2)) (by simp)
            -- loop invariant on stores
            let J : Store → Prop := fun s => Loose T (havoc C.types σ.vars b.writes) s ∧ ∃ ρ', EnvIn T ρ' ∧ (∀ x ∈ U, ρ' x = ρ x) ∧
              Describes I ρ' (havoc C.types σ.vars b.writes) s ∧
              holds I ρ' (mkCall (C.inv l) .bool vals1)
            have outside : ∀ (ρ' : Env), (∀ x ∈ U, ρ' x = ρ x) → ∀ p ∈ σ.precond, holds I ρ' p := by
              intro ρ' hρ p hpm
              have := hpr p hpm
              unfold holds at *
              rw [eval_congr I (ρ := ρ') (σ := ρ) p (fun x hx => hρ x (hp p hpm x hx))]
              exact this
            -- entry
            have entry : J s := by
              refine ⟨?_, reenv T I ρ σ.vars b.writes s, reenv_in hVT hρT, ?_, ?_, ?_⟩
              · refine hloose.imp id (fun hb x v hv => ?_)
                rw [havoc_read]
                split
                · rfl
                · exact hb x v hv
              · intro x hx
                have : x ∉ b.writes := fun h => hw x h hx
                simp [reenv, this]
              · intro x e v he hv
                rw [havoc_read] at he
                split at he
                · next hxw =>
                  simp at he; subst he
                  cases hrd : σ.vars.read x with
                  | none => exact reenv_none hloose hxw hrd hv
                  | some f => simp only [eval, reenv, hxw, if_true, hrd]; exact hd x f v hrd hv
                · rw [reenv_eval (hg.val x e he).fresh hw]
                  exact hd x e v he hv
              · have h1 := guardBy_holds hpr (hva1 ρ hρT)
                have : evals I ρ vals0 = evals I (reenv T I ρ σ.vars b.writes s) vals1 := by
                  refine readAll_evals hv0 hv1 (fun x _ e e' he he' => ?_)
                  rw [havoc_read] at he'
                  split at he'
                  · next hxw =>
                    simp at he'; subst he'
                    simp [eval, reenv, hxw, he]
                  · rw [he] at he'; simp at he'; subst he'
                    rw [reenv_eval (hg.val x e he).fresh hw]
                simp only [holds, mkCall, eval, evalOp, this] at *
                exact h1
            -- preservation
            have pres : ∀ s s', J s → pyEval I s c = some (.bool true) → Exec I s b (.normal s') →
                J s' := by
              rintro s s' ⟨hl1, ρ1, hT1, hρ1, hd1, hinv1⟩ hct hxb
              have hd2 := sb.run I ρ1 s s' hI hd1 hxb
              have hl2 : Loose T body.vars s' := hl1.imp id (fun hb1 => simple_bound hb (by exact hr) hgood hbody hxb hb1)
              refine ⟨?_, reenv T I ρ1 body.vars b.writes s', reenv_in hVT2 hT1, ?_, ?_, ?_⟩
              · refine hl1.imp id (fun hb1 x v hv => ?_)
                rcases exec_dom hxb s' rfl x v hv with ⟨u, hu⟩ | hxw
                · exact hb1 x u hu
                · rw [havoc_read, if_pos hxw]; rfl
              · intro x hx
                have : x ∉ b.writes := fun h => hw x h hx
                simp [reenv, this, hρ1 x hx]
              · intro x e v he hv
                rw [havoc_read] at he
                split at he
                · next hxw =>
                  simp at he; subst he
                  cases hrd : body.vars.read x with
                  | none => exact reenv_none hl2 hxw hrd hv
                  | some f => simp only [eval, reenv, hxw, if_true, hrd]; exact hd2 x f v hrd hv
                · next hxw =>
                  rw [reenv_eval (hg.val x e he).fresh hw]
                  obtain ⟨e', he', hk⟩ := sb.some_keep x e (by
                    show (havoc C.types σ.vars b.writes).read x = some e
                    rw [havoc_read]; simp [hxw, he])
                  rw [← hk hxw]
                  exact hd2 x e' v he' hv
              · have hcv := tr_eval hI hd1 hints c hc hcond hct
                have hcp : holds I ρ1 pre := by
                  refine andObjects_holds hpreq (fun w hw => ?_)
                  simp at hw
                  rcases hw with hw | rfl | rfl
                  · exact outside ρ1 hρ1 w hw
                  · simp [holds, hcv]
                  · exact hinv1
                have h2 : holds I ρ1 (mkCall (C.inv l) .bool vals2) := by
                  have := hva2 ρ1 hT1
                  simp only [holds, mkImplies, eval, evals, evalOp, Val.asBool_bool] at *
                  simpa [hcp] using this
                have : evals I ρ1 vals2 = evals I (reenv T I ρ1 body.vars b.writes s') vals1 := by
                  refine readAll_evals hv2 hv1 (fun x _ e e' he he' => ?_)
                  rw [havoc_read] at he'
                  split at he'
                  · next hxw =>
                    simp at he'; subst he'
                    simp [eval, reenv, hxw, he]
                  · next hxw =>
                    obtain ⟨e2, he2, hk⟩ := sb.some_keep x e' (by
                      show (havoc C.types σ.vars b.writes).read x = some e'
                      rw [havoc_read]; simp [hxw, he'])
                    rw [he] at he2; simp at he2; subst he2
                    rw [hk hxw, reenv_eval (hg.val x e' he').fresh hw]
                simp only [holds, mkCall, eval, evalOp, this] at *
                exact h2
            obtain ⟨⟨hl', ρ', hT', hρ', hd', hinv'⟩, hcf⟩ := loop_rule pres hx entry
            refine ⟨hVT1, hl', ρ', hT', hρ', hd', ?_⟩
            intro p hpm
            rcases List.mem_append.1 hpm with hpm | hpm
            · exact outside ρ' hρ' p hpm
            · simp at hpm; subst hpm
              refine andObjects_holds hpostq (fun w hw => ?_)
              simp at hw
              rcases hw with rfl | rfl
              · have hcv := tr_eval hI hd' hints c hc hcond hcf
                simp [holds, mkNot, eval, evals, evalOp, hcv]
              · exact hinv'
        · cases h
    · cases h

/-! ### Function bodies -/

/-- Every run of a supported body that returns is covered by an obligation.  (Validity of the
obligations is used for the loop invariants.) -/
theorem supported_covered {C : Ctx} {I : Interp} (hI : PyPrims I) {T : String → Val → Prop} {K : Stmt → Prop}
    (hTI : TypeInv C I T K) : ∀ {st : Stmt} {U : List String}
    {first : Bool} {σ σ' : PState} {ρ : Env} {s : Store} {v : Val}, K st → VarsIn I T σ.vars → EnvIn T ρ → Loose T σ.vars s →
    st.supported C.types U first = true → (∀ x ∈ C.params, x ∈ U) →
    σ.hasReturned = false → (first = true → σ.asserts = []) → GoodVars C.types U σ.vars →
    (∀ p ∈ σ.precond, ∀ y ∈ p.vars, y ∈ U) →
    visit C st σ = some σ' → Describes I ρ σ.vars s → (∀ p ∈ σ.precond, holds I ρ p) →
    (∀ a ∈ σ'.asserts, validIn T I a) → Exec I s st (.returned v) →
    Covered C I σ'.asserts ρ v T
  | .seq a b, U, first, σ, σ', ρ, s, v, hK, hVT, hρT, hl, hs, hU, hr, hf, hg, hp, h, hd, hpr, hval, hx => by
    simp only [visit] at h
    split at h
    · next σ1 h1 =>
      have hm := (visit_mono C b h).1
      simp only [Stmt.supported] at hs
      split at hs
      · next ha =>
        have sa := simple_visit ha hr hg h1
        cases hx with
        | seqRet x1 => exact absurd x1 (simple_no_return ha)
        | seq x1 x2 =>
          exact supported_covered hI hTI (hTI.seq hK).2 (hTI.step ha (hTI.seq hK).1 hr hg h1 hVT) hρT
            (hl.imp id (simple_bound ha hr hg h1 x1)) hs hU sa.ret (fun hft => sa.asserts.trans (hf hft)) sa.good
            (sa.precond ▸ hp) h (sa.run I ρ _ _ hI hd x1) (sa.precond ▸ hpr) hval x2
      · next ha =>
        split at hs
        · next l c body =>
          simp only [Bool.and_eq_true] at hs
          obtain ⟨⟨⟨hc, hb⟩, hw⟩, hrest⟩ := hs
          have hw' : ∀ x ∈ body.writes, x ∉ U := by
            intro x hx
            have := List.all_eq_true.1 hw x hx
            simpa using this
          have sl := loop_visit (T := T) (K := K) hc hb hw' hr hg hp (hTI.loop (hTI.seq hK).1) h1
          cases hx with
          | seqRet x1 => exact absurd x1 (sl.noRet I _ _)
          | seq x1 x2 =>
            obtain ⟨hVT', hl', ρ', hT', hρ', hd', hp'⟩ := sl.run I ρ _ _ hI hTI hVT hρT hl hd hpr
              (fun a ha => hval a (hm.subset ha)) x1
            have := supported_covered hI hTI (hTI.seq hK).2 hVT' hT' hl' hrest (fun x hx => List.mem_append_left _ (hU x hx)) sl.ret
              (by simp) sl.good sl.pre h hd' hp' hval x2
            obtain ⟨a, ha, pre, e, ρ2, hre, hρ2, hrest'⟩ := this
            exact ⟨a, ha, pre, e, ρ2, hre, fun x hx => (hρ2 x hx).trans (hρ' x (hU x hx)), hrest'⟩
        · next c t e =>
          simp only [Bool.and_eq_true, Bool.or_eq_true] at hs
          obtain ⟨⟨⟨hfirst, hc⟩, hbr⟩, hrest⟩ := hs
          have hnil := hf hfirst
          simp only [visit] at h1
          split at h1
          · cases h1
          · next cond hcond =>
            split at h1
            · cases h1
            · split at h1
              · next cs as hcs has =>
                have hints := fun x e h => (hg.val x e h).ints
                rcases hbr with ⟨ht, he⟩ | ⟨ht, he⟩
                · have rc := retTail_visit ht (by exact hr) (by exact hg) hcs
                  have sa := simple_visit he (by exact hr) (by exact hg) has
                  obtain ⟨o, ho, pre, er, hre, hrun⟩ := rc.obligation
                  simp only [hnil, List.nil_append] at ho
                  obtain ⟨tl, htl⟩ := ho
                  have hmo : mergeAsserts σ.asserts (cs.asserts ++ as.asserts) = [o] := by
                    rw [hnil, ← htl]; exact mergeAsserts_nil_cons _ _
                  simp only [rc.ret, sa.ret, Bool.and_false, Bool.false_eq_true, if_false, if_true,
                    Option.some.injEq] at h1
                  subst h1
                  cases hx with
                  | seqRet x1 =>
                    cases x1 with
                    | iteF _ x => exact absurd x (simple_no_return he)
                    | iteT hv x =>
                      have hcv := tr_eval hI hd hints c hc hcond hv
                      refine ⟨o, hm.subset (by simp [hmo]), pre, er, ρ, hre, fun _ _ => rfl,
                        ⟨(hrun I ρ s v hI hd ?_ x).1, (hrun I ρ s v hI hd ?_ x).2, hρT⟩⟩
                      all_goals
                        intro p hpm
                        rcases List.mem_append.1 hpm with hpm | hpm
                        · exact hpr p hpm
                        · simp at hpm; subst hpm; simp [holds, hcv]
                  | seq x1 x2 =>
                    cases x1 with
                    | iteT _ x => exact absurd x (rc.noNormal I _ _)
                    | iteF hv x =>
                      have hvb : VarsIn I T as.vars := hTI.step he (hTI.ite (hTI.seq hK).1).2 (by exact hr) (by exact hg) has (by exact hVT)
                      have hlb : Loose T as.vars _ := hl.imp id (fun hb => simple_bound he (by exact hr) (by exact hg) has x (by exact hb))
                      exact supported_covered hI hTI (hTI.seq hK).2
                        (by exact hvb) hρT
                        (by exact hlb)
                        hrest hU (by exact hr) (by simp) (by exact sa.good)
                        (by exact hp) h (by exact sa.run I ρ _ _ hI hd x) (by exact hpr) hval x2
                · have sc := simple_visit ht (by exact hr) (by exact hg) hcs
                  have ra := retTail_visit he (by exact hr) (by exact hg) has
                  obtain ⟨o, ho, pre, er, hre, hrun⟩ := ra.obligation
                  simp only [hnil, List.nil_append] at ho
                  obtain ⟨tl, htl⟩ := ho
                  have hmo : mergeAsserts σ.asserts (cs.asserts ++ as.asserts) = [o] := by
                    have : cs.asserts = [] := sc.asserts.trans hnil
                    rw [hnil, this, ← htl]; exact mergeAsserts_nil_cons _ _
                  simp only [ra.ret, sc.ret, Bool.false_and, Bool.false_eq_true, if_false, if_true,
                    Option.some.injEq] at h1
                  subst h1
                  cases hx with
                  | seqRet x1 =>
                    cases x1 with
                    | iteT _ x => exact absurd x (simple_no_return ht)
                    | iteF hv x =>
                      have hcv := tr_eval hI hd hints c hc hcond hv
                      refine ⟨o, hm.subset (by simp [hmo]), pre, er, ρ, hre, fun _ _ => rfl,
                        ⟨(hrun I ρ s v hI hd ?_ x).1, (hrun I ρ s v hI hd ?_ x).2, hρT⟩⟩
                      all_goals
                        intro p hpm
                        rcases List.mem_append.1 hpm with hpm | hpm
                        · exact hpr p hpm
                        · simp at hpm; subst hpm
                          simp [holds, mkNot, eval, evals, evalOp, hcv]
                  | seq x1 x2 =>
                    cases x1 with
                    | iteF _ x => exact absurd x (ra.noNormal I _ _)
                    | iteT hv x =>
                      have hvb : VarsIn I T cs.vars := hTI.step ht (hTI.ite (hTI.seq hK).1).1 (by exact hr) (by exact hg) hcs (by exact hVT)
                      have hlb : Loose T cs.vars _ := hl.imp id (fun hb => simple_bound ht (by exact hr) (by exact hg) hcs x (by exact hb))
                      exact supported_covered hI hTI (hTI.seq hK).2
                        (by exact hvb) hρT
                        (by exact hlb)
                        hrest hU (by exact hr) (by simp) (by exact sc.good)
                        (by exact hp) h (by exact sc.run I ρ _ _ hI hd x) (by exact hpr) hval x2
              · cases h1
        · next e =>
          have rs := ret_visit hs hg h1
          obtain ⟨o, ho, pre, er, hre, hrun⟩ := rs.obligation
          cases hx with
          | seq x1 _ => exact absurd x1 (rs.noNormal I _ _)
          | seqRet x1 =>
            obtain ⟨r1, r2⟩ := hrun I ρ s v hI hd hpr x1
            exact ⟨o, (ho.trans hm).subset (by simp), pre, er, ρ, hre, fun _ _ => rfl, r1, r2, hρT⟩
        · cases hs
    · cases h
  | .ret e, U, first, σ, σ', ρ, s, v, hK, hVT, hρT, hl, hs, hU, hr, hf, hg, hp, h, hd, hpr, hval, hx => by
    simp only [Stmt.supported] at hs
    obtain ⟨o, ho, pre, er, hre, hrun⟩ := (ret_visit hs hg h).obligation
    obtain ⟨r1, r2⟩ := hrun I ρ s v hI hd hpr hx
    exact ⟨o, ho.subset (by simp), pre, er, ρ, hre, fun _ _ => rfl, r1, r2, hρT⟩
  | .skip, _, _, _, _, _, _, _, _, _, _, _, _, _, _, _, _, _, _, _, _, _, hx => nomatch hx
  | .assign _ _, _, _, _, _, _, _, _, _, _, _, _, _, _, _, _, _, _, _, _, _, _, hx => nomatch hx
  | .append _ _, _, _, _, _, _, _, _, _, _, _, _, _, _, _, _, _, _, _, _, _, _, hx => nomatch hx
  | .setAdd _ _, _, _, _, _, _, _, _, _, _, _, _, _, _, _, _, _, _, _, _, _, _, hx => nomatch hx
  | .setRemove _ _, _, _, _, _, _, _, _, _, _, _, _, _, _, _, _, _, _, _, _, _, _, hx => nomatch hx
  | .ite c t e, _, _, _, _, _, _, _, _, _, _, _, hs, _, _, _, _, _, _, _, _, _, hx =>
    absurd hx (simple_no_return (by simpa only [Stmt.supported] using hs))
  | .loop l c b, _, _, _, _, _, _, _, _, _, _, _, hs, _, _, _, _, _, _, _, _, _, hx =>
    absurd hx (simple_no_return (by simpa only [Stmt.supported] using hs))

end Runs

end Metalift
