import Verif.LlmSound
import Verif.Names
import Verif.PyExprLemmas
/-
Proofs for C55: the names of lambda expressions.
-/
namespace Metalift
namespace Llm

/-- The dictionaries `lambda_exprs` and `arg_name_to_count` fit together: different entries have different names, and all names have been counted. -/
structure Named (lams : List (FnDecl × String)) (counts : List (String × Nat)) : Prop where
  apart : ∀ p ∈ lams, ∀ q ∈ lams, p.2 = q.2 → p = q
  counted : ∀ p ∈ lams, ∃ a n, p.2 = a ++ "_" ++ toString n ∧ n < (counts.lookup a).getD 0
  ints : ∀ p ∈ lams, ∃ b, p.1.body = some b ∧ b.OnlyInt

/-- The function is one of the entries. -/
def Entered (lams : List (FnDecl × String)) (D : FnDecl) : Prop :=
  ∃ p ∈ lams, p.2 = D.name ∧ p.1.params.map Prod.fst = D.params.map Prod.fst ∧ ∃ b c, p.1.body = some b ∧ D.body = some c ∧ b.pyEq c = true ∧
    c.OnlyInt

/-- What holds of the state while the functions are translated. -/
structure NInv (ts : List String) (st : St) : Prop where
  named : Named st.lams st.counts
  decls : ∀ D ∈ st.decls, D.name ∈ ts ∨ Entered st.lams D

theorem lambda_name_inj {a b : String} {m n : Nat} (h : a ++ "_" ++ toString m = b ++ "_" ++ toString n) : a = b ∧ m = n := by
  have := numbered_inj (a := a ++ "_") (b := b ++ "_") (m := m) (n := n) (by simp [noDigitEnd]) (by simp [noDigitEnd]) h
  refine ⟨?_, this.2⟩
  have h2 := congrArg String.toList this.1
  simp only [String.toList_append] at h2
  exact String.ext (List.append_cancel_right h2)

theorem lambdaName_inv {ts : List String} {a : String} {d : FnDecl} {b : Expr} {st : St} (h : NInv ts st) (hb : d.body = some b) (hi : b.OnlyInt) :
    NInv ts (lambdaName a d st).2 ∧ Entered (lambdaName a d st).2.lams { d with name := (lambdaName a d st).1 } := by
  unfold lambdaName
  split
  · rename_i p hp
    refine ⟨h, p, List.mem_of_find?_eq_some hp, rfl, ?_⟩
    have := List.find?_some hp
    simp only [Bool.and_eq_true, decide_eq_true_eq, hb] at this
    refine ⟨this.1, ?_⟩
    cases hq : p.1.body with
    | none => rw [hq] at this; simp at this
    | some c => rw [hq] at this; exact ⟨c, b, rfl, hb, this.2, hi⟩
  · rename_i hnone
    dsimp only
    refine ⟨⟨⟨?_, ?_, ?_⟩, ?_⟩, ?_⟩
    · have fresh : ∀ p ∈ st.lams, p.2 ≠ a ++ "_" ++ toString ((st.counts.lookup a).getD 0) := by
        intro p hp he
        obtain ⟨a', n, h1, h2⟩ := h.named.counted p hp
        rw [h1] at he
        obtain ⟨rfl, rfl⟩ := lambda_name_inj he
        omega
      intro p hp q hq hpq
      simp only [List.mem_append, List.mem_singleton] at hp hq
      rcases hp with hp | rfl <;> rcases hq with hq | rfl
      · exact h.named.apart p hp q hq hpq
      · exact (fresh p hp hpq).elim
      · exact (fresh q hq hpq.symm).elim
      · rfl
    · intro p hp
      simp only [List.mem_append, List.mem_singleton] at hp
      rcases hp with hp | rfl
      · obtain ⟨a', n, h1, h2⟩ := h.named.counted p hp
        refine ⟨a', n, h1, ?_⟩
        simp only [List.lookup_cons]
        by_cases ha : a' = a
        · subst ha; simp; omega
        · have : (a' == a) = false := by simpa using ha
          rw [this]; exact h2
      · exact ⟨a, _, rfl, by simp⟩
    · intro p hp
      simp only [List.mem_append, List.mem_singleton] at hp
      rcases hp with hp | rfl
      · exact h.named.ints p hp
      · exact ⟨b, hb, hi⟩
    · intro D hD
      rcases h.decls D hD with h1 | ⟨p, hp, h2⟩
      · exact .inl h1
      · exact .inr ⟨p, List.mem_append_left _ hp, h2⟩
    · exact ⟨_, List.mem_append_right _ (List.mem_singleton.2 rfl), rfl, rfl, b, b, hb, hb, Expr.pyEq_refl b, hi⟩

theorem onlyInt_var (x : String) (t : Ty) : (Expr.var x t).OnlyInt := by simp [Expr.OnlyInt, Expr.litTys]
theorem onlyInt_lit (i : Int) : (intLit i).OnlyInt := by simp [intLit, Expr.OnlyInt, Expr.litTys]

theorem binary_onlyInt {o : String} {l r e : Expr} (h : binary o l r = some e) (hl : l.OnlyInt) (hr : r.OnlyInt) : e.OnlyInt := by
  have key : ∀ op t, (Expr.node op t [l, r]).OnlyInt := fun op t => onlyInt_node.2 (by simp [hl, hr])
  unfold binary at h
  repeat' split at h
  all_goals first | (cases h; done) | (simp only [Option.some.injEq] at h; subst h; exact key _ _)

theorem comparison_onlyInt {o : String} {l r e : Expr} (h : comparison o l r = some e) (hl : l.OnlyInt) (hr : r.OnlyInt) : e.OnlyInt := by
  have key : ∀ op t, (Expr.node op t [l, r]).OnlyInt := fun op t => onlyInt_node.2 (by simp [hl, hr])
  unfold comparison at h
  repeat' split at h
  all_goals first | (cases h; done) | (simp only [Option.some.injEq] at h; subst h; first | exact key _ _ | exact onlyInt_node.2 (by simp [mkEq, key]))

/-- What is proved of an expression. -/
def NAt (ts : List String) (sigs : FnSigs) (n : Node) : Prop := ∀ st e st', parse sigs n st = some (e, st') → NInv ts st → NInv ts st' ∧ e.OnlyInt

theorem nBound {ts : List String} {sigs : FnSigs} {n : Node} (ih : NAt ts sigs n) {st st' : St} {o : Option Expr} (h : parseBound sigs n st = some (o, st'))
    (hi : NInv ts st) : NInv ts st' ∧ ∀ e, o = some e → e.OnlyInt := by
  rcases parseBound_cases h with ⟨-, rfl, rfl⟩ | ⟨e, rfl, hp, -⟩
  · exact ⟨hi, by simp⟩
  · obtain ⟨h1, h2⟩ := ih _ _ _ hp hi
    exact ⟨h1, fun e' he => by cases he; exact h2⟩

/-- The cases of `parseArg` with the whole state. -/
theorem nArg {ts : List String} {sigs : FnSigs} {f a : String} {n : Node} {ty : Option Ty} {st st' : St} {e : Expr}
    (h : parseArg sigs f n a ty st = some (e, st')) (ih : NAt ts sigs n) (ih2 : ∀ ps b t, n = .lambda ps b t → NAt ts sigs b) (hi : NInv ts st) :
    NInv ts st' ∧ e.OnlyInt := by
  cases n with
  | lambda ps body t =>
    simp only [parseArg] at h
    split at h
    · rename_i r tys ht
      simp only [Option.bind_eq_bind, Option.bind_eq_some_iff] at h
      obtain ⟨⟨b, st1⟩, hb, h⟩ := h
      simp only at h
      split at h
      · simp only [Option.some.injEq, Prod.mk.injEq] at h
        obtain ⟨rfl, rfl⟩ := h
        obtain ⟨h1, h2⟩ := ih2 ps body t rfl _ _ _ hb hi
        obtain ⟨g1, g2⟩ := lambdaName_inv (a := a) (d := { name := "<lambda>", ret := r, params := ps.zip tys, body := some b, recursive := true }) h1 rfl h2
        refine ⟨⟨g1.named, ?_⟩, onlyInt_var _ _⟩
        intro D hD
        simp only [List.mem_append, List.mem_singleton] at hD
        rcases hD with hD | rfl
        · exact g1.decls D hD
        · exact .inr g2
      · cases h
    · cases h
  | _ =>
    simp only [parseArg, Option.bind_eq_bind, Option.bind_eq_some_iff] at h
    obtain ⟨⟨e1, st1⟩, hp, h⟩ := h
    obtain ⟨h1, h2⟩ := ih _ _ _ hp hi
    simp only at h
    split at h
    · split at h
      · simp only [Option.some.injEq, Prod.mk.injEq] at h
        obtain ⟨rfl, rfl⟩ := h
        exact ⟨⟨h1.named, h1.decls⟩, h2⟩
      · simp only [Option.some.injEq, Prod.mk.injEq] at h
        obtain ⟨rfl, rfl⟩ := h
        exact ⟨h1, h2⟩
    · cases h

theorem parse_names (ts : List String) (sigs : FnSigs) (n : Node) : NAt ts sigs n ∧ (∀ ps b t, n = .lambda ps b t → NAt ts sigs b) := by
  induction n using Node.ind with
  | hint n =>
    refine ⟨fun st e st' h hi => ?_, by simp⟩
    simp only [parse, Option.some.injEq, Prod.mk.injEq] at h
    obtain ⟨rfl, rfl⟩ := h
    exact ⟨hi, onlyInt_lit _⟩
  | hname x t =>
    refine ⟨fun st e st' h hi => ?_, by simp⟩
    simp only [parse, Option.map_eq_some_iff, Prod.mk.injEq] at h
    obtain ⟨_, _, rfl, rfl⟩ := h
    exact ⟨hi, onlyInt_var _ _⟩
  | hcall f args kws t ih =>
    refine ⟨fun st e st' h hi => ?_, by simp⟩
    rcases parse_call_cases h with ⟨-, a, e1, rfl, hp, hl⟩ | ⟨-, s, es, -, -, hp, -, rfl⟩
    · obtain ⟨h1, h2⟩ := (ih a (by simp)).1 _ _ _ hp hi
      refine ⟨h1, ?_⟩
      unfold lenCall at hl
      split at hl
      · simp only [Option.some.injEq] at hl
        subst hl
        exact onlyInt_node.2 (by simp [h2])
      · cases hl
    · have go : ∀ (args : List Node) (as : List String) (tys : List (Option Ty)) (st : St) (es : List Expr) (st' : St),
          (∀ a ∈ args, NAt ts sigs a ∧ (∀ ps b t, a = .lambda ps b t → NAt ts sigs b)) →
          parseArgs sigs f args as tys st = some (es, st') → NInv ts st → NInv ts st' ∧ ∀ e ∈ es, e.OnlyInt := by
        intro args
        induction args with
        | nil =>
          intro as tys st es st' _ h hi
          simp only [parseArgs, Option.some.injEq, Prod.mk.injEq] at h
          obtain ⟨rfl, rfl⟩ := h
          exact ⟨hi, by simp⟩
        | cons a args ih' =>
          intro as tys st es st' hall h hi
          cases as with
          | nil => simp [parseArgs] at h
          | cons x as =>
            cases tys with
            | nil => simp [parseArgs] at h
            | cons ty tys =>
              simp only [parseArgs, Option.bind_eq_bind, Option.bind_eq_some_iff] at h
              obtain ⟨⟨e1, st1⟩, h1, ⟨es1, st2⟩, h2, h⟩ := h
              simp only [Option.some.injEq, Prod.mk.injEq] at h
              obtain ⟨rfl, rfl⟩ := h
              obtain ⟨g1, g2⟩ := nArg h1 (hall a (by simp)).1 (hall a (by simp)).2 hi
              obtain ⟨g3, g4⟩ := ih' as tys st1 es1 st2 (fun a ha => hall a (by simp [ha])) h2 g1
              exact ⟨g3, by simpa using ⟨g2, g4⟩⟩
      obtain ⟨h1, h2⟩ := go args s.names s.args st es st' ih hp hi
      exact ⟨h1, onlyInt_node.2 h2⟩
  | hop o l r il ir =>
    refine ⟨fun st e st' h hi => ?_, by simp⟩
    simp only [parse, Option.bind_eq_bind, Option.bind_eq_some_iff] at h
    obtain ⟨⟨e1, st1⟩, h1, ⟨e2, st2⟩, h2, c, hc, h⟩ := h
    simp only [Option.some.injEq, Prod.mk.injEq] at h
    obtain ⟨rfl, rfl⟩ := h
    obtain ⟨i1, j1⟩ := il.1 _ _ _ h1 hi
    obtain ⟨i2, j2⟩ := ir.1 _ _ _ h2 i1
    exact ⟨i2, binary_onlyInt hc j1 j2⟩
  | hun o e ie =>
    refine ⟨fun st e st' h hi => ?_, by simp⟩
    simp only [parse] at h
    split at h
    · simp only [Option.bind_eq_bind, Option.bind_eq_some_iff] at h
      obtain ⟨⟨e1, st1⟩, h1, h⟩ := h
      simp only at h
      split at h
      · simp only [Option.some.injEq, Prod.mk.injEq] at h
        obtain ⟨rfl, rfl⟩ := h
        obtain ⟨i1, j1⟩ := ie.1 _ _ _ h1 hi
        exact ⟨i1, onlyInt_node.2 (by simp [j1, onlyInt_lit])⟩
      · cases h
    · cases h
  | hlist es t ih =>
    refine ⟨fun st e st' h hi => ?_, by simp⟩
    simp only [parse] at h
    split at h
    · simp only [Option.some.injEq, Prod.mk.injEq] at h
      obtain ⟨rfl, rfl⟩ := h
      exact ⟨hi, onlyInt_node.2 (by simp)⟩
    · cases h
  | hcond c a b ic ia ib =>
    refine ⟨fun st e st' h hi => ?_, by simp⟩
    simp only [parse, Option.bind_eq_bind, Option.bind_eq_some_iff] at h
    obtain ⟨⟨e1, st1⟩, h1, ⟨e2, st2⟩, h2, ⟨e3, st3⟩, h3, c, hc, h⟩ := h
    simp only [Option.some.injEq, Prod.mk.injEq] at h
    obtain ⟨rfl, rfl⟩ := h
    obtain ⟨i1, j1⟩ := ic.1 _ _ _ h1 hi
    obtain ⟨i2, j2⟩ := ia.1 _ _ _ h2 i1
    obtain ⟨i3, j3⟩ := ib.1 _ _ _ h3 i2
    refine ⟨i3, ?_⟩
    unfold conditional at hc
    split at hc
    · split at hc
      · cases hc
      · simp only [Option.some.injEq] at hc
        subst hc
        exact onlyInt_node.2 (by simp [j1, j2, j3])
    · cases hc
  | hcmp os es ih =>
    refine ⟨fun st e st' h hi => ?_, by simp⟩
    simp only [parse, Option.bind_eq_bind, Option.bind_eq_some_iff] at h
    obtain ⟨⟨cs, st1⟩, h1, h⟩ := h
    have go : ∀ (os : List String) (es : List Node) (st : St) (cs : List Expr) (st' : St),
        (∀ a ∈ es, NAt ts sigs a) → parseClauses sigs os es st = some (cs, st') → NInv ts st → NInv ts st' ∧ ∀ c ∈ cs, c.OnlyInt := by
      intro os
      induction os with
      | nil =>
        intro es st cs st' _ h hi
        simp only [parseClauses, Option.some.injEq, Prod.mk.injEq] at h
        obtain ⟨rfl, rfl⟩ := h
        exact ⟨hi, by simp⟩
      | cons o os ih' =>
        intro es st cs st' hall h hi
        cases es with
        | nil => simp [parseClauses] at h
        | cons a es =>
          cases es with
          | nil => simp [parseClauses] at h
          | cons b es =>
            simp only [parseClauses, Option.bind_eq_bind, Option.bind_eq_some_iff] at h
            obtain ⟨⟨e1, st1⟩, h1, ⟨e2, st2⟩, h2, c, hc, ⟨cs1, st3⟩, h3, h⟩ := h
            simp only [Option.some.injEq, Prod.mk.injEq] at h
            obtain ⟨rfl, rfl⟩ := h
            obtain ⟨i1, j1⟩ := hall a (by simp) _ _ _ h1 hi
            obtain ⟨i2, j2⟩ := hall b (by simp) _ _ _ h2 i1
            obtain ⟨i3, j3⟩ := ih' (b :: es) st2 cs1 st3 (fun x hx => hall x (List.mem_cons_of_mem _ hx)) h3 i2
            exact ⟨i3, by simpa using ⟨comparison_onlyInt hc j1 j2, j3⟩⟩
    obtain ⟨i1, j1⟩ := go os es st cs st1 (fun a ha => (ih a ha).1) h1 hi
    simp only at h
    split at h
    · simp only [Option.some.injEq, Prod.mk.injEq] at h
      obtain ⟨rfl, rfl⟩ := h
      exact ⟨i1, j1 _ (by simp)⟩
    · cases h
    · simp only [Option.some.injEq, Prod.mk.injEq] at h
      obtain ⟨rfl, rfl⟩ := h
      exact ⟨i1, onlyInt_node.2 j1⟩
  | hidx b i ib ii =>
    refine ⟨fun st e st' h hi => ?_, by simp⟩
    simp only [parse, Option.bind_eq_bind, Option.bind_eq_some_iff] at h
    obtain ⟨⟨e1, st1⟩, h1, h⟩ := h
    simp only at h
    split at h
    · cases h
    · simp only [Option.bind_eq_some_iff] at h
      obtain ⟨⟨e2, st2⟩, h2, c, hc, h⟩ := h
      simp only [Option.some.injEq, Prod.mk.injEq] at h
      obtain ⟨rfl, rfl⟩ := h
      obtain ⟨i1, j1⟩ := ib.1 _ _ _ h1 hi
      obtain ⟨i2, j2⟩ := ii.1 _ _ _ h2 i1
      refine ⟨i2, ?_⟩
      unfold getAt at hc
      split at hc
      · simp only [Option.some.injEq] at hc
        subst hc
        exact onlyInt_node.2 (by simp [j1, j2])
      · cases hc
  | hsl b lo hi' sp ib il ih is =>
    refine ⟨fun st e st' h hi => ?_, by simp⟩
    simp only [parse, Option.bind_eq_bind, Option.bind_eq_some_iff] at h
    obtain ⟨⟨e1, st1⟩, h1, h⟩ := h
    simp only at h
    split at h
    · cases h
    · simp only [Option.bind_eq_some_iff] at h
      obtain ⟨⟨e2, st2⟩, h2, ⟨e3, st3⟩, h3, c, hc, h⟩ := h
      simp only [Option.some.injEq, Prod.mk.injEq] at h
      obtain ⟨rfl, rfl⟩ := h
      obtain ⟨i1, j1⟩ := ib.1 _ _ _ h1 hi
      obtain ⟨i2, j2⟩ := nBound il.1 h2 i1
      obtain ⟨i3, j3⟩ := nBound ih.1 h3 i2
      refine ⟨i3, ?_⟩
      unfold getSlice at hc
      split at hc
      · split at hc <;> first | (cases hc; done) | (simp only [Option.some.injEq] at hc; subst hc)
        · rename_i q1 q2
          exact onlyInt_node.2 (by simp [j1, j3 _ q2])
        · rename_i q1 q2
          exact onlyInt_node.2 (by simp [j1, j2 _ q1])
        · rename_i q1 q2
          exact onlyInt_node.2 (by simp [j1, j2 _ q1, j3 _ q2])
      · cases hc
  | hlam ps b t ib =>
    refine ⟨fun st e st' h => by simp [parse] at h, fun ps' b' t' hn => ?_⟩
    cases hn
    exact ib.1
  | hab => exact ⟨fun st e st' h => by simp [parse] at h, by simp⟩
  | hot => exact ⟨fun st e st' h => by simp [parse] at h, by simp⟩

theorem parseDefs_names {ts : List String} {sigs : FnSigs} : ∀ {ds : List FuncDef} {st st' : St}, (∀ d ∈ ds, d.name ∈ ts) →
    parseDefs sigs ds st = some st' → NInv ts st → NInv ts st'
  | [], st, st', _, h, hi => by simp only [parseDefs, Option.some.injEq] at h; exact h ▸ hi
  | d :: ds, st, st', hts, h, hi => by
    simp only [parseDefs, Option.bind_eq_some_iff] at h
    obtain ⟨st1, h1, h2⟩ := h
    refine parseDefs_names (fun d hd => hts d (by simp [hd])) h2 ?_
    simp only [parseDef, Option.bind_eq_bind, Option.bind_eq_some_iff] at h1
    obtain ⟨s, -, ps, -, ⟨b, st2⟩, hb, h1⟩ := h1
    simp only [Option.some.injEq] at h1
    subst h1
    obtain ⟨n, -, hp, -⟩ := parseBlock_expr hb
    obtain ⟨i1, -⟩ := (parse_names ts sigs n).1 _ _ _ hp hi
    refine ⟨i1.named, ?_⟩
    intro D hD
    simp only [List.mem_append, List.mem_singleton] at hD
    rcases hD with hD | rfl
    · exact i1.decls D hD
    · exact .inl (hts d (by simp))

end Llm
end Metalift
