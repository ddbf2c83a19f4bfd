import Verif.Tenspiler
import Verif.PListObj
/-
C31: the functions of the tensor target language compute their textbook meaning.
-/
namespace Metalift.Ten
open Metalift

/-! ### Specification -/

/-- A vector, a matrix and a tensor of integers as values. -/
def vecV (xs : List Int) : Val := .list (xs.map .int)
@[inherit_doc vecV] def matV (m : List (List Int)) : Val := .list (m.map vecV)
@[inherit_doc vecV] def tenV (t : List (List (List Int))) : Val := .list (t.map matV)

/-- The values of a type. -/
def OfTy : OTy → Val → Prop
  | .int, v => ∃ i, v = .int i
  | .bool, v => ∃ b, v = .bool b
  | .list .int, v => ∃ xs, v = vecV xs
  | .matrix .int, v => ∃ m, v = matV m
  | .tensor3d .int, v => ∃ t, v = tenV t
  | .fn _, v => ∃ g, v = .fn g
  | _, _ => False

/-- The interpretation satisfies the defining equation of the function, for all arguments of the declared types. -/
def Decl.Holds (I : Interp) (d : Decl) : Prop :=
  ∃ b, d.body = some b ∧ ∀ ρ : Env, (∀ p ∈ d.params, OfTy p.2 (ρ p.1)) →
    I.fn d.name (d.params.map (fun p => ρ p.1)) = eval I ρ b.src

/-- The recursive functions of the target language (the integer functions are treated separately). -/
def decls : List Decl :=
  [reduceSum, reduceMul, reduceMax, matrixVecMul, iteInt, selection, matrixSelection, dissolveSelection, dissolveMatrixSelection,
   vecElemwiseAdd, matElemwiseAdd, tenElemwiseAdd, vecElemwiseSub, matElemwiseSub, vecElemwiseMul, matElemwiseMul, tenElemwiseMul,
   vecElemwiseDiv, matElemwiseDiv, vecScalarAdd, matScalarAdd, vecScalarMul, matScalarMul, vecScalarDiv, scalarVecDiv, matScalarDiv,
   scalarMatDiv, vecScalarSub, scalarVecSub, matScalarSub, scalarMatSub, vecMap]

/-- An interpretation of the target language: the primitives have their meaning and the definitions hold. -/
structure Model (I : Interp) : Prop where
  prims : ListPrims I
  defs : ∀ d ∈ decls, d.Holds I

/-- Element-wise application to two lists of the same length; the empty list when the lengths differ. -/
def zipIf {α β γ : Type} (op : α → β → γ) (xs : List α) (ys : List β) : List γ :=
  if xs.length = ys.length then List.zipWith op xs ys else []

/-! ### Evaluation of bodies -/

theorem eval_ite' (I : Interp) (ρ : Env) (c a b : Obj) :
    eval I ρ (ite' c a b).src = if (eval I ρ c.src).asBool then eval I ρ a.src else eval I ρ b.src := by
  simp [ite', mkIte, eval, evals_eq_map, evalOp]

theorem eval_lt (I : Interp) (ρ : Env) (a b : Obj) :
    eval I ρ (a.lt b).src = .bool (decide ((eval I ρ a.src).asInt < (eval I ρ b.src).asInt)) := by
  simp [Obj.lt, eval, evals_eq_map, evalOp]

theorem eval_gt (I : Interp) (ρ : Env) (a b : Obj) :
    eval I ρ (a.gt b).src = .bool (decide ((eval I ρ a.src).asInt > (eval I ρ b.src).asInt)) := by
  simp [Obj.gt, eval, evals_eq_map, evalOp]

theorem eval_le (I : Interp) (ρ : Env) (a b : Obj) :
    eval I ρ (a.le b).src = .bool (decide ((eval I ρ a.src).asInt ≤ (eval I ρ b.src).asInt)) := by
  simp [Obj.le, eval, evals_eq_map, evalOp]

theorem eval_eq' (I : Interp) (ρ : Env) (a b : Obj) :
    eval I ρ (a.eq b).src = .bool (decide (eval I ρ a.src = eval I ρ b.src)) := by
  simp [Obj.eq, mkEq, eval, evals_eq_map, evalOp]

theorem eval_ne' (I : Interp) (ρ : Env) (a b : Obj) :
    eval I ρ (a.ne b).src = .bool (!decide (eval I ρ a.src = eval I ρ b.src)) := by
  simp [Obj.ne, mkNot, mkEq, eval, evals_eq_map, evalOp, Val.asBool]

theorem eval_int (I : Interp) (ρ : Env) (i : Int) : eval I ρ (Obj.int i).src = .int i := rfl

theorem eval_add (I : Interp) (ρ : Env) (a b : Obj) :
    eval I ρ (a.add b).src = .int ((eval I ρ a.src).asInt + (eval I ρ b.src).asInt) := by
  simp [Obj.add, eval, evals_eq_map, evalOp]

theorem eval_sub (I : Interp) (ρ : Env) (a b : Obj) :
    eval I ρ (a.sub b).src = .int ((eval I ρ a.src).asInt - (eval I ρ b.src).asInt) := by
  simp [Obj.sub, eval, evals_eq_map, evalOp]

theorem eval_mul (I : Interp) (ρ : Env) (a b : Obj) :
    eval I ρ (a.mul b).src = .int ((eval I ρ a.src).asInt * (eval I ρ b.src).asInt) := by
  simp [Obj.mul, eval, evals_eq_map, evalOp]

theorem eval_div (I : Interp) (ρ : Env) (a b : Obj) :
    eval I ρ (a.div b).src = .int (I.idiv (eval I ρ a.src).asInt (eval I ρ b.src).asInt) := by
  simp [Obj.div, eval, evals_eq_map, evalOp]

theorem eval_mod (I : Interp) (ρ : Env) (a b : Obj) :
    eval I ρ (a.mod b).src = .int (I.imod (eval I ρ a.src).asInt (eval I ρ b.src).asInt) := by
  simp [Obj.mod, eval, evals_eq_map, evalOp]

theorem eval_var (I : Interp) (ρ : Env) (n : String) (t : OTy) : eval I ρ (Obj.var n t).src = ρ n := rfl

theorem eval_or (I : Interp) (ρ : Env) (es : List Expr) :
    eval I ρ (mkOr es) = .bool (es.any (fun e => (eval I ρ e).asBool)) := by
  simp [mkOr, eval, evals_eq_map, evalOp, Function.comp_def]

theorem eval_callValue (I : Interp) (ρ : Env) (f : Obj) (os : List Obj) :
    eval I ρ (callValue f os).src = I.apply (eval I ρ f.src) (os.map (fun o => eval I ρ o.src)) := by
  simp [callValue, eval, evals_eq_map, evalOp, Function.comp_def]

/-- The two halves of a recursion over a list: the first element and the rest of a non-empty list. -/
theorem first_rest {I : Interp} (P : ListPrims I) {ρ : Env} {l : Obj} {t : OTy} {v : Val} {vs : List Val}
    (ht : l.ty.contained? = some t) (hl : eval I ρ l.src = .list (v :: vs)) :
    (∃ o, first l = some o ∧ o.ty = t ∧ eval I ρ o.src = v) ∧ (∃ o, rest l = some o ∧ o.ty = l.ty ∧ eval I ρ o.src = .list vs) := by
  constructor
  · exact eval_at P ht hl (i := .int 0) (n := 0) rfl (by omega) rfl
  · have := eval_tail P hl (i := .int 1) (n := 1) rfl (by omega) (by simp only [List.length_cons]; omega)
    exact this

/-- The condition `len < 1 or len != len`. -/
def mismatchObj (l r : Obj) : Obj := ⟨mkOr [(l.len.lt (.int 1)).src, (l.len.ne r.len).src], .bool⟩

theorem eval_mismatch {I : Interp} (P : ListPrims I) {ρ : Env} {l r : Obj} {us vs : List Val} (hl : eval I ρ l.src = .list us)
    (hr : eval I ρ r.src = .list vs) :
    (eval I ρ (mismatchObj l r).src).asBool = decide (us = [] ∨ us.length ≠ vs.length) := by
  rw [mismatchObj, eval_or]
  simp only [List.any_cons, List.any_nil, Bool.or_false, eval_lt, eval_ne', eval_len P hl, eval_len P hr, eval_int, Val.asInt, Val.asBool,
    Val.int.injEq]
  rw [Bool.eq_iff_iff]
  simp only [Bool.or_eq_true, decide_eq_true_eq, Bool.not_eq_true', decide_eq_false_iff_not]
  cases us with
  | nil => simp
  | cons u us =>
    simp only [List.length_cons, reduceCtorEq, false_or]
    omega

/-- Any body of the shape `ite(len < 1 or lens differ, empty, step)`. -/
theorem eval_zipBody {I : Interp} (P : ListPrims I) {ρ : Env} {l r e s : Obj} {us vs : List Val} (hl : eval I ρ l.src = .list us)
    (hr : eval I ρ r.src = .list vs) (he : eval I ρ e.src = .list []) :
    eval I ρ (ite' (mismatchObj l r) e s).src =
      if us = [] ∨ us.length ≠ vs.length then .list [] else eval I ρ s.src := by
  rw [eval_ite', eval_mismatch P hl hr, he]
  simp only [decide_eq_true_eq]

theorem eval_listEmpty {I : Interp} (P : ListPrims I) (ρ : Env) : eval I ρ (listEmpty .int).src = .list [] := P.list.emp
theorem eval_matrixEmpty {I : Interp} (P : ListPrims I) (ρ : Env) : eval I ρ (matrixEmpty .int).src = .list [] := P.matrix.emp
theorem eval_tensorEmpty {I : Interp} (P : ListPrims I) (ρ : Env) : eval I ρ (tensor3dEmpty .int).src = .list [] := P.tensor.emp

/-- Environments binding two names. -/
def env2 (n : String) (u v : Val) : Env := fun m => if m = n then u else v

theorem OfTy.vec (xs : List Int) : OfTy (.list .int) (vecV xs) := ⟨xs, rfl⟩
theorem OfTy.mat (m : List (List Int)) : OfTy (.matrix .int) (matV m) := ⟨m, rfl⟩
theorem OfTy.ten (t : List (List (List Int))) : OfTy (.tensor3d .int) (tenV t) := ⟨t, rfl⟩

/-- What is asked of the function applied to elements: an integer object with the given value. -/
structure Computes (I : Interp) (c : Obj → Obj → Obj) (op : Int → Int → Int) : Prop where
  ty : ∀ a b, (c a b).ty = .int
  val : ∀ ρ a b i j, eval I ρ a.src = .int i → eval I ρ b.src = .int j → eval I ρ (c a b).src = .int (op i j)

theorem computes_add (I : Interp) : Computes I Obj.add (· + ·) :=
  ⟨fun _ _ => rfl, fun ρ a b i j ha hb => by rw [eval_add, ha, hb]; rfl⟩
theorem computes_sub (I : Interp) : Computes I Obj.sub (· - ·) :=
  ⟨fun _ _ => rfl, fun ρ a b i j ha hb => by rw [eval_sub, ha, hb]; rfl⟩
theorem computes_mul (I : Interp) : Computes I Obj.mul (· * ·) :=
  ⟨fun _ _ => rfl, fun ρ a b i j ha hb => by rw [eval_mul, ha, hb]; rfl⟩
theorem computes_div (I : Interp) : Computes I Obj.div I.idiv :=
  ⟨fun _ _ => rfl, fun ρ a b i j ha hb => by rw [eval_div, ha, hb]; rfl⟩
theorem Computes.flip {I : Interp} {c : Obj → Obj → Obj} {op : Int → Int → Int} (h : Computes I c op) :
    Computes I (fun s e => c e s) (fun s e => op e s) :=
  ⟨fun a b => h.ty b a, fun ρ a b i j ha hb => h.val ρ b a j i hb ha⟩

/-- A body that recurses on two lists, `ite(mismatch, empty, rec(rest, rest).prepend(mk(first, first)))`: the value when the lists are
empty or of different lengths. -/
theorem zipBody_stop {I : Interp} (P : ListPrims I) {ρ : Env} {l r E b : Obj} {us vs : List Val} {mk rec : Obj → Obj → Obj}
    (hb : (do let cur := mk (← first l) (← first r)
              let recursed := rec (← rest l) (← rest r)
              let general ← recursed.prepend cur
              pure (ite' (← mismatch l r) E general)) = some b)
    (hm : mismatch l r = some (mismatchObj l r)) (hl : eval I ρ l.src = .list us) (hr : eval I ρ r.src = .list vs)
    (hE : eval I ρ E.src = .list []) (h : us = [] ∨ us.length ≠ vs.length) : eval I ρ b.src = .list [] := by
  simp only [Option.bind_eq_bind, Option.bind_eq_some_iff] at hb
  obtain ⟨f1, hf1, f2, hf2, r1, hr1, r2, hr2, g, hg, m, hm', hb⟩ := hb
  cases hm.symm.trans hm'
  have hb : ite' (mismatchObj l r) E g = b := by injection hb
  subst hb
  rw [eval_zipBody P hl hr hE, if_pos h]

/-- The value when the lists are not empty and have the same length, before the meaning of `prepend` is used. -/
theorem zipBody_step' {I : Interp} (P : ListPrims I) {ρ : Env} {l r E b : Obj} {t : OTy} {u v w : Val} {us vs ws : List Val}
    {mk rec : Obj → Obj → Obj}
    (hb : (do let cur := mk (← first l) (← first r)
              let recursed := rec (← rest l) (← rest r)
              let general ← recursed.prepend cur
              pure (ite' (← mismatch l r) E general)) = some b)
    (hm : mismatch l r = some (mismatchObj l r)) (hl : eval I ρ l.src = .list (u :: us)) (hr : eval I ρ r.src = .list (v :: vs))
    (hE : eval I ρ E.src = .list []) (ht : l.ty.contained? = some t) (ht' : r.ty.contained? = some t) (hlen : us.length = vs.length)
    (hmkty : ∀ o o', (mk o o').ty = t) (hrecty : ∀ o o', (rec o o').ty = l.ty)
    (hmk : ∀ o o', eval I ρ o.src = u → eval I ρ o'.src = v → eval I ρ (mk o o').src = w)
    (hrec : ∀ o o', eval I ρ o.src = .list us → eval I ρ o'.src = .list vs → eval I ρ (rec o o').src = .list ws) :
    eval I ρ b.src = I.fn l.ty.prependFn [w, .list ws] := by
  simp only [Option.bind_eq_bind, Option.bind_eq_some_iff] at hb
  obtain ⟨f1, hf1, f2, hf2, r1, hr1, r2, hr2, g, hg, m, hm', hb⟩ := hb
  cases hm.symm.trans hm'
  have hb : ite' (mismatchObj l r) E g = b := by injection hb
  subst hb
  obtain ⟨⟨o1, a1, -, c1⟩, ⟨o2, a2, -, c2⟩⟩ := first_rest P ht hl
  obtain ⟨⟨o3, a3, -, c3⟩, ⟨o4, a4, -, c4⟩⟩ := first_rest P ht' hr
  cases hf1.symm.trans a1
  cases hf2.symm.trans a3
  cases hr1.symm.trans a2
  cases hr2.symm.trans a4
  rw [eval_zipBody P hl hr hE, if_neg (by simp [hlen])]
  cases hg.symm.trans (prepend_some (l := rec r1 r2) (e := mk f1 f2) (by rw [hrecty, hmkty]; exact ht))
  rw [eval_call]
  simp only [List.map_cons, List.map_nil, hrec _ _ c2 c4, hmk _ _ c1 c3, hrecty]

/-- The value when the lists are not empty and have the same length. -/
theorem zipBody_step {I : Interp} (P : ListPrims I) {ρ : Env} {l r E b : Obj} {t : OTy} {u v w : Val} {us vs ws : List Val}
    {mk rec : Obj → Obj → Obj}
    (hb : (do let cur := mk (← first l) (← first r)
              let recursed := rec (← rest l) (← rest r)
              let general ← recursed.prepend cur
              pure (ite' (← mismatch l r) E general)) = some b)
    (hm : mismatch l r = some (mismatchObj l r)) (hl : eval I ρ l.src = .list (u :: us)) (hr : eval I ρ r.src = .list (v :: vs))
    (hE : eval I ρ E.src = .list []) (ht : l.ty.contained? = some t) (ht' : r.ty.contained? = some t) (hlen : us.length = vs.length)
    (hmkty : ∀ o o', (mk o o').ty = t) (hrecty : ∀ o o', (rec o o').ty = l.ty)
    (hmk : ∀ o o', eval I ρ o.src = u → eval I ρ o'.src = v → eval I ρ (mk o o').src = w)
    (hrec : ∀ o o', eval I ρ o.src = .list us → eval I ρ o'.src = .list vs → eval I ρ (rec o o').src = .list ws)
    (hok : l.ty.okPrepend w) : eval I ρ b.src = .list (w :: ws) := by
  rw [zipBody_step' P hb hm hl hr hE ht ht' hlen hmkty hrecty hmk hrec]
  exact P.prepend ws hok

/-- A body that recurses on one list: the value on the empty list. -/
theorem mapBody_stop {I : Interp} (P : ListPrims I) {ρ : Env} {l E b c : Obj} {cond : Option Obj} {mk rec : Obj → Obj}
    (hb : (do let cur := mk (← first l)
              let recursed := rec (← rest l)
              let general ← recursed.prepend cur
              pure (ite' (← cond) E general)) = some b)
    (hc : cond = some c) (hc' : c.src = (l.len.lt (.int 1)).src) (hl : eval I ρ l.src = .list [])
    (hE : eval I ρ E.src = .list []) : eval I ρ b.src = .list [] := by
  simp only [Option.bind_eq_bind, Option.bind_eq_some_iff] at hb
  obtain ⟨f1, hf1, r1, hr1, g, hg, m, hm', hb⟩ := hb
  cases hc.symm.trans hm'
  have hb : ite' c E g = b := by injection hb
  subst hb
  rw [eval_ite', hc', eval_lt, eval_len P hl, hE]
  rfl

/-- The value on a non-empty list, before the meaning of `prepend` is used. -/
theorem mapBody_step' {I : Interp} (P : ListPrims I) {ρ : Env} {l E b c : Obj} {cond : Option Obj} {t : OTy} {u w : Val} {us ws : List Val}
    {mk rec : Obj → Obj}
    (hb : (do let cur := mk (← first l)
              let recursed := rec (← rest l)
              let general ← recursed.prepend cur
              pure (ite' (← cond) E general)) = some b)
    (hc : cond = some c) (hc' : c.src = (l.len.lt (.int 1)).src) (hl : eval I ρ l.src = .list (u :: us))
    (ht : l.ty.contained? = some t) (hmkty : ∀ o, (mk o).ty = t) (hrecty : ∀ o, (rec o).ty = l.ty)
    (hmk : ∀ o, eval I ρ o.src = u → eval I ρ (mk o).src = w)
    (hrec : ∀ o, eval I ρ o.src = .list us → eval I ρ (rec o).src = .list ws) :
    eval I ρ b.src = I.fn l.ty.prependFn [w, .list ws] := by
  simp only [Option.bind_eq_bind, Option.bind_eq_some_iff] at hb
  obtain ⟨f1, hf1, r1, hr1, g, hg, m, hm', hb⟩ := hb
  cases hc.symm.trans hm'
  have hb : ite' c E g = b := by injection hb
  subst hb
  obtain ⟨⟨o1, a1, -, c1⟩, ⟨o2, a2, -, c2⟩⟩ := first_rest P ht hl
  cases hf1.symm.trans a1
  cases hr1.symm.trans a2
  cases hg.symm.trans (prepend_some (l := rec r1) (e := mk f1) (by rw [hrecty, hmkty]; exact ht))
  rw [eval_ite', hc', eval_lt, eval_len P hl, eval_call]
  have : ¬ ((us.length : Int) + 1 < 1) := by omega
  simp [eval_int, Val.asInt, Val.asBool, this, hrec _ c2, hmk _ c1, hrecty]

/-- The value on a non-empty list. -/
theorem mapBody_step {I : Interp} (P : ListPrims I) {ρ : Env} {l E b c : Obj} {cond : Option Obj} {t : OTy} {u w : Val} {us ws : List Val}
    {mk rec : Obj → Obj}
    (hb : (do let cur := mk (← first l)
              let recursed := rec (← rest l)
              let general ← recursed.prepend cur
              pure (ite' (← cond) E general)) = some b)
    (hc : cond = some c) (hc' : c.src = (l.len.lt (.int 1)).src) (hl : eval I ρ l.src = .list (u :: us))
    (ht : l.ty.contained? = some t) (hmkty : ∀ o, (mk o).ty = t) (hrecty : ∀ o, (rec o).ty = l.ty)
    (hmk : ∀ o, eval I ρ o.src = u → eval I ρ (mk o).src = w)
    (hrec : ∀ o, eval I ρ o.src = .list us → eval I ρ (rec o).src = .list ws)
    (hok : l.ty.okPrepend w) : eval I ρ b.src = .list (w :: ws) := by
  rw [mapBody_step' P hb hc hc' hl ht hmkty hrecty hmk hrec]
  exact P.prepend ws hok

theorem env_ok2 {n1 n2 : String} {t1 t2 : OTy} {u v : Val} (hne : n2 ≠ n1) (h1 : OfTy t1 u) (h2 : OfTy t2 v) :
    ∀ p ∈ [(n1, t1), (n2, t2)], OfTy p.2 (env2 n1 u v p.1) := by
  intro p hp
  simp only [List.mem_cons, List.not_mem_nil, or_false] at hp
  rcases hp with rfl | rfl
  · simpa [env2] using h1
  · simpa [env2, hne] using h2

theorem zipIf_cons {α β γ : Type} (op : α → β → γ) (x0 : α) (y0 : β) {xs : List α} {ys : List β} (h : xs.length = ys.length) :
    zipIf op (x0 :: xs) (y0 :: ys) = op x0 y0 :: zipIf op xs ys := by
  rw [zipIf, zipIf, if_pos h, if_pos (by simp [h])]; rfl

/-- Element-wise functions on vectors. -/
theorem vecElemwise_spec {I : Interp} (P : ListPrims I) {c : Obj → Obj → Obj} {op : Int → Int → Int} (hc : Computes I c op)
    {v m t : String} (H : (vecElemwise c v m t).Holds I) (xs ys : List Int) :
    I.fn v [vecV xs, vecV ys] = vecV (zipIf op xs ys) := by
  obtain ⟨b, hb, H⟩ := H
  have hfn : ∀ xs ys, I.fn v [vecV xs, vecV ys] = eval I (env2 "x" (vecV xs) (vecV ys)) b.src := fun xs ys =>
    H (env2 "x" (vecV xs) (vecV ys)) (env_ok2 (by decide) (OfTy.vec xs) (OfTy.vec ys))
  induction xs generalizing ys with
  | nil =>
    rw [hfn, zipBody_stop P (us := []) (vs := ys.map .int) hb rfl rfl rfl (eval_listEmpty P _) (Or.inl rfl)]
    cases ys <;> rfl
  | cons x0 xs ih =>
    rw [hfn]
    by_cases hlen : (x0 :: xs).length = ys.length
    · cases ys with
      | nil => cases hlen
      | cons y0 ys =>
        have hlen : xs.length = ys.length := by simpa using hlen
        rw [zipIf_cons op x0 y0 hlen]
        refine zipBody_step P (u := .int x0) (v := .int y0) (us := xs.map .int) (vs := ys.map .int) hb rfl rfl rfl (eval_listEmpty P _) rfl rfl
          (by simpa using hlen) hc.ty (fun _ _ => rfl) (fun o o' h1 h2 => hc.val _ _ _ _ _ h1 h2) ?_ trivial
        intro o o' h1 h2
        rw [eval_call]
        simp only [List.map_cons, List.map_nil, h1, h2]
        exact ih ys
    · rw [zipBody_stop P (us := (x0 :: xs).map .int) (vs := ys.map .int) hb rfl rfl rfl (eval_listEmpty P _)
        (Or.inr (by simpa using hlen)), zipIf, if_neg hlen]
      rfl

/-- Two matrices with the same rows and columns, and no empty row. -/
def SameShape (m n : List (List Int)) : Prop := All2 (fun r s => r ≠ [] ∧ r.length = s.length) m n

theorem SameShape.length {m n : List (List Int)} (h : SameShape m n) : m.length = n.length := by
  induction h with
  | nil => rfl
  | cons _ _ ih => simp [ih]

theorem zipIf_eq {α β γ : Type} (op : α → β → γ) {xs : List α} {ys : List β} (h : xs.length = ys.length) :
    zipIf op xs ys = List.zipWith op xs ys := if_pos h

theorem vecV_ne {xs : List Int} (h : xs ≠ []) : (vecV xs).asList ≠ [] := by
  cases xs with
  | nil => exact absurd rfl h
  | cons _ _ => simp [vecV, Val.asList]

theorem zipWith_ne {op : Int → Int → Int} {r s : List Int} (h : r ≠ [] ∧ r.length = s.length) : List.zipWith op r s ≠ [] := by
  obtain ⟨h1, h2⟩ := h
  cases r with
  | nil => exact absurd rfl h1
  | cons _ _ =>
    cases s with
    | nil => cases h2
    | cons _ _ => simp

/-- Element-wise functions on matrices. -/
theorem matElemwise_spec {I : Interp} (P : ListPrims I) {c : Obj → Obj → Obj} {op : Int → Int → Int} {v m t : String}
    (V : ∀ xs ys, I.fn v [vecV xs, vecV ys] = vecV (zipIf op xs ys)) (H : (matElemwise c v m t).Holds I) :
    (∀ ms ns, SameShape ms ns → I.fn m [matV ms, matV ns] = matV (List.zipWith (List.zipWith op) ms ns)) ∧
    (∀ ms ns : List (List Int), ms.length ≠ ns.length → I.fn m [matV ms, matV ns] = matV []) := by
  obtain ⟨b, hb, H⟩ := H
  have hfn : ∀ ms ns, I.fn m [matV ms, matV ns] = eval I (env2 "matrix_x" (matV ms) (matV ns)) b.src := fun ms ns =>
    H (env2 "matrix_x" (matV ms) (matV ns)) (env_ok2 (by decide) (OfTy.mat ms) (OfTy.mat ns))
  constructor
  · intro ms ns hs
    induction hs with
    | nil =>
      rw [hfn]
      exact zipBody_stop P (us := []) (vs := []) hb rfl rfl rfl (eval_matrixEmpty P _) (Or.inl rfl)
    | @cons r s ms ns hrs htl ih =>
      rw [hfn]
      refine zipBody_step P (u := vecV r) (v := vecV s) (us := ms.map vecV) (vs := ns.map vecV) (w := vecV (List.zipWith op r s)) hb rfl rfl
        rfl (eval_matrixEmpty P _) rfl rfl (by simpa using SameShape.length htl) (fun _ _ => rfl) (fun _ _ => rfl) ?_ ?_
        (vecV_ne (zipWith_ne hrs))
      · intro o o' h1 h2
        rw [eval_call]
        simp only [List.map_cons, List.map_nil, h1, h2]
        rw [V, zipIf_eq op hrs.2]
      · intro o o' h1 h2
        rw [eval_call]
        simp only [List.map_cons, List.map_nil, h1, h2]
        exact ih
  · intro ms ns hne
    rw [hfn]
    exact zipBody_stop P (us := ms.map vecV) (vs := ns.map vecV) hb rfl rfl rfl (eval_matrixEmpty P _) (Or.inr (by simpa using hne))

/-- Two tensors of the same shape without empty matrices or rows. -/
def SameShape3 (t u : List (List (List Int))) : Prop := All2 (fun m n => m ≠ [] ∧ SameShape m n) t u

theorem SameShape3.length {m n : List (List (List Int))} (h : SameShape3 m n) : m.length = n.length := by
  induction h with
  | nil => rfl
  | cons _ _ ih => simp [ih]

/-- Element-wise functions on tensors. -/
theorem tenElemwise_spec {I : Interp} (P : ListPrims I) {c : Obj → Obj → Obj} {op : Int → Int → Int} {v m t : String}
    (V : ∀ ms ns, SameShape ms ns → I.fn m [matV ms, matV ns] = matV (List.zipWith (List.zipWith op) ms ns))
    (H : (tenElemwise c v m t).Holds I) :
    (∀ ts us, SameShape3 ts us → I.fn t [tenV ts, tenV us] = tenV (List.zipWith (List.zipWith (List.zipWith op)) ts us)) ∧
    (∀ ts us : List (List (List Int)), ts.length ≠ us.length → I.fn t [tenV ts, tenV us] = tenV []) := by
  obtain ⟨b, hb, H⟩ := H
  have hfn : ∀ ts us, I.fn t [tenV ts, tenV us] = eval I (env2 "tensor3d_x" (tenV ts) (tenV us)) b.src := fun ts us =>
    H (env2 "tensor3d_x" (tenV ts) (tenV us)) (env_ok2 (by decide) (OfTy.ten ts) (OfTy.ten us))
  constructor
  · intro ts us hs
    induction hs with
    | nil =>
      rw [hfn]
      exact zipBody_stop P (us := []) (vs := []) hb rfl rfl rfl (eval_tensorEmpty P _) (Or.inl rfl)
    | @cons r s ms ns hrs htl ih =>
      rw [hfn]
      refine zipBody_step P (u := matV r) (v := matV s) (us := ms.map matV) (vs := ns.map matV)
        (w := matV (List.zipWith (List.zipWith op) r s)) hb rfl rfl
        rfl (eval_tensorEmpty P _) rfl rfl (by simpa using SameShape3.length htl) (fun _ _ => rfl) (fun _ _ => rfl) ?_ ?_ ?_
      · intro o o' h1 h2
        rw [eval_call]
        simp only [List.map_cons, List.map_nil, h1, h2]
        exact V r s hrs.2
      · intro o o' h1 h2
        rw [eval_call]
        simp only [List.map_cons, List.map_nil, h1, h2]
        exact ih
      · obtain ⟨h1, h2⟩ := hrs
        cases h2 with
        | nil => exact absurd rfl h1
        | cons _ _ => simp [OTy.okPrepend, tensorX, Obj.var, matV, Val.asList]
  · intro ts us hne
    rw [hfn]
    exact zipBody_stop P (us := ts.map matV) (vs := us.map matV) hb rfl rfl rfl (eval_tensorEmpty P _) (Or.inr (by simpa using hne))

theorem orOne (o : Obj) : orObjs [o] = some ⟨o.src, .bool⟩ := by
  rfl

/-- Functions of a scalar and a vector. -/
theorem vecScalar_spec {I : Interp} (P : ListPrims I) {c : Obj → Obj → Obj} {op : Int → Int → Int} (hc : Computes I c op)
    {v m : String} (H : (vecScalar c v m).Holds I) (s : Int) (xs : List Int) :
    I.fn v [.int s, vecV xs] = vecV (xs.map (op s)) := by
  obtain ⟨b, hb, H⟩ := H
  have hfn : ∀ xs, I.fn v [.int s, vecV xs] = eval I (env2 "a" (.int s) (vecV xs)) b.src := fun xs =>
    H (env2 "a" (.int s) (vecV xs)) (env_ok2 (by decide) ⟨s, rfl⟩ (OfTy.vec xs))
  induction xs with
  | nil =>
    rw [hfn]
    exact mapBody_stop P hb (orOne _) rfl rfl (eval_listEmpty P _)
  | cons x0 xs ih =>
    rw [hfn]
    refine mapBody_step P (u := .int x0) (us := xs.map .int) hb (orOne _) rfl rfl rfl (hc.ty _) (fun _ => rfl)
      (fun o h => hc.val _ _ _ _ _ rfl h) ?_ trivial
    intro o h
    rw [eval_call]
    simp only [List.map_cons, List.map_nil, h]
    exact ih

/-- Functions of a scalar and a matrix without empty rows. -/
theorem matScalar_spec {I : Interp} (P : ListPrims I) {c : Obj → Obj → Obj} {op : Int → Int → Int} {v m : String}
    (V : ∀ s xs, I.fn v [.int s, vecV xs] = vecV (xs.map (op s))) (H : (matScalar c v m).Holds I) (s : Int) (ms : List (List Int))
    (hne : ∀ r ∈ ms, r ≠ []) : I.fn m [.int s, matV ms] = matV (ms.map (List.map (op s))) := by
  obtain ⟨b, hb, H⟩ := H
  have hfn : ∀ ms, I.fn m [.int s, matV ms] = eval I (env2 "a" (.int s) (matV ms)) b.src := fun ms =>
    H (env2 "a" (.int s) (matV ms)) (env_ok2 (by decide) ⟨s, rfl⟩ (OfTy.mat ms))
  induction ms with
  | nil =>
    rw [hfn]
    exact mapBody_stop P hb (orOne _) rfl rfl (eval_matrixEmpty P _)
  | cons r ms ih =>
    rw [hfn]
    refine mapBody_step P (u := vecV r) (us := ms.map vecV) (w := vecV (r.map (op s))) hb (orOne _) rfl rfl rfl (fun _ => rfl) (fun _ => rfl)
      ?_ ?_ ?_
    · intro o h
      rw [eval_call]
      simp only [List.map_cons, List.map_nil, h]
      exact V s r
    · intro o h
      rw [eval_call]
      simp only [List.map_cons, List.map_nil, h]
      exact ih (fun r hr => hne r (List.mem_cons_of_mem _ hr))
    · refine vecV_ne ?_
      have := hne r (List.mem_cons_self ..)
      simpa using this

/-! ### Reductions -/

/-- Environments binding one name. -/
def env1 (v : Val) : Env := fun _ => v

theorem env_ok1 {n : String} {t : OTy} {v : Val} (h : OfTy t v) : ∀ p ∈ [(n, t)], OfTy p.2 (env1 v p.1) := by
  intro p hp
  simp only [List.mem_cons, List.not_mem_nil, or_false] at hp
  subst hp
  exact h

theorem eval_first_x {I : Interp} (P : ListPrims I) {ρ : Env} {x0 : Int} {xs : List Int} (h : ρ "x" = vecV (x0 :: xs)) :
    eval I ρ (call "list_get" .int [x, .int 0]).src = .int x0 := by
  rw [eval_call]
  have : eval I ρ x.src = .list (.int x0 :: xs.map .int) := h
  simp only [List.map_cons, List.map_nil, this]
  exact P.list.get _ 0 _ (by omega) rfl

theorem eval_rest_x {I : Interp} (P : ListPrims I) {ρ : Env} {x0 : Int} {xs : List Int} (h : ρ "x" = vecV (x0 :: xs)) :
    eval I ρ (call "list_tail" (.list .int) [x, .int 1]).src = vecV xs := by
  rw [eval_call]
  have : eval I ρ x.src = .list (.int x0 :: xs.map .int) := h
  simp only [List.map_cons, List.map_nil, this]
  exact P.list.tail _ 1 (by omega) (by simp only [List.length_cons]; omega)

theorem eval_len_x {I : Interp} (P : ListPrims I) {ρ : Env} {xs : List Int} (h : ρ "x" = vecV xs) :
    eval I ρ x.len.src = .int xs.length := by
  have : eval I ρ x.src = .list (xs.map .int) := h
  rw [eval_len P this]
  simp

theorem reduceSum_spec {I : Interp} (P : ListPrims I) (H : reduceSum.Holds I) (xs : List Int) :
    I.fn "reduce_sum" [vecV xs] = .int xs.sum := by
  obtain ⟨b, hb, H⟩ := H
  have hb' : b = ite' (x.len.lt (.int 1)) (.int 0) ((call "list_get" .int [x, .int 0]).add
      (call "reduce_sum" .int [call "list_tail" (.list .int) [x, .int 1]])) := (Option.some.inj hb).symm
  subst hb'
  have hfn : ∀ xs, I.fn "reduce_sum" [vecV xs] = _ := fun xs => H (env1 (vecV xs)) (env_ok1 (OfTy.vec xs))
  induction xs with
  | nil => rw [hfn, eval_ite', eval_lt, eval_len_x P (xs := []) rfl]; rfl
  | cons x0 xs ih =>
    rw [hfn, eval_ite', eval_lt, eval_len_x P (xs := x0 :: xs) rfl, eval_int, eval_add, eval_first_x P rfl, eval_call]
    simp only [List.map_cons, List.map_nil, eval_rest_x P (ρ := env1 (vecV (x0 :: xs))) rfl, ih]
    have : ¬ ((xs.length : Int) + 1 < 1) := by omega
    simp [Val.asInt, Val.asBool, this]

theorem reduceMul_spec {I : Interp} (P : ListPrims I) (H : reduceMul.Holds I) (xs : List Int) :
    I.fn "reduce_mul" [vecV xs] = .int (xs.foldr (· * ·) 1) := by
  obtain ⟨b, hb, H⟩ := H
  have hb' : b = ite' (x.len.lt (.int 1)) (.int 1) ((call "list_get" .int [x, .int 0]).mul
      (call "reduce_mul" .int [call "list_tail" (.list .int) [x, .int 1]])) := (Option.some.inj hb).symm
  subst hb'
  have hfn : ∀ xs, I.fn "reduce_mul" [vecV xs] = _ := fun xs => H (env1 (vecV xs)) (env_ok1 (OfTy.vec xs))
  induction xs with
  | nil => rw [hfn, eval_ite', eval_lt, eval_len_x P (xs := []) rfl]; rfl
  | cons x0 xs ih =>
    rw [hfn, eval_ite', eval_lt, eval_len_x P (xs := x0 :: xs) rfl, eval_int, eval_mul, eval_first_x P rfl, eval_call]
    simp only [List.map_cons, List.map_nil, eval_rest_x P (ρ := env1 (vecV (x0 :: xs))) rfl, ih]
    have : ¬ ((xs.length : Int) + 1 < 1) := by omega
    simp [Val.asInt, Val.asBool, this]

/-- `m` is the largest element. -/
def IsMax (m : Int) (xs : List Int) : Prop := m ∈ xs ∧ ∀ z ∈ xs, z ≤ m

theorem reduceMax_spec {I : Interp} (P : ListPrims I) (H : reduceMax.Holds I) :
    I.fn "reduce_max" [vecV []] = .int (-32) ∧ ∀ x0 xs, ∃ m, I.fn "reduce_max" [vecV (x0 :: xs)] = .int m ∧ IsMax m (x0 :: xs) := by
  obtain ⟨b, hb, H⟩ := H
  have hb' : b = ite' (x.len.lt (.int 1)) ((Obj.int 0).sub (.int 32)) (ite' (x.len.eq (.int 1)) (call "list_get" .int [x, .int 0])
      (ite' ((call "list_get" .int [x, .int 0]).gt (call "reduce_max" .int [call "list_tail" (.list .int) [x, .int 1]]))
        (call "list_get" .int [x, .int 0]) (call "reduce_max" .int [call "list_tail" (.list .int) [x, .int 1]]))) := (Option.some.inj hb).symm
  subst hb'
  have hfn : ∀ xs, I.fn "reduce_max" [vecV xs] = _ := fun xs => H (env1 (vecV xs)) (env_ok1 (OfTy.vec xs))
  refine ⟨by rw [hfn, eval_ite', eval_lt, eval_len_x P (xs := []) rfl]; rfl, ?_⟩
  intro x0 xs
  induction xs generalizing x0 with
  | nil =>
    refine ⟨x0, ?_, ?_⟩
    · rw [hfn, eval_ite', eval_lt, eval_len_x P (xs := [x0]) rfl, eval_ite', eval_eq', eval_len_x P (xs := [x0]) rfl, eval_first_x P rfl]
      rfl
    · exact ⟨List.mem_cons_self .., by simp⟩
  | cons x1 xs ih =>
    obtain ⟨m, hm, hm1, hm2⟩ := ih x1
    have e1 := eval_first_x P (ρ := env1 (vecV (x0 :: x1 :: xs))) rfl
    have e2 : eval I (env1 (vecV (x0 :: x1 :: xs))) (call "reduce_max" .int [call "list_tail" (.list .int) [x, .int 1]]).src = .int m := by
      rw [eval_call]
      simp only [List.map_cons, List.map_nil, eval_rest_x P (ρ := env1 (vecV (x0 :: x1 :: xs))) rfl]
      exact hm
    refine ⟨if x0 > m then x0 else m, ?_, ?_, ?_⟩
    · rw [hfn, eval_ite', eval_lt, eval_len_x P (xs := x0 :: x1 :: xs) rfl, eval_ite', eval_eq', eval_len_x P (xs := x0 :: x1 :: xs) rfl,
        eval_ite', eval_gt, e1, e2]
      have h1 : ¬ ((xs.length : Int) + 1 + 1 < 1) := by omega
      have h2 : ¬ ((xs.length : Int) + 1 + 1 = 1) := by omega
      by_cases h : m < x0 <;> simp [eval_int, Val.asInt, Val.asBool, h1, h2, h]
    · split
      · exact List.mem_cons_self ..
      · exact List.mem_cons_of_mem _ hm1
    · intro z hz
      rcases List.mem_cons.mp hz with rfl | hz
      · split <;> omega
      · have := hm2 z hz
        split <;> omega

/-! ### Matrix-vector product -/

/-- The scalar product. -/
def dot (r v : List Int) : Int := (List.zipWith (· * ·) r v).sum

theorem matrixVecMul_spec {I : Interp} (P : ListPrims I) (S : ∀ xs, I.fn "reduce_sum" [vecV xs] = .int xs.sum)
    (V : ∀ xs ys, I.fn "vec_elemwise_mul" [vecV xs, vecV ys] = vecV (zipIf (· * ·) xs ys)) (H : matrixVecMul.Holds I)
    (ms : List (List Int)) (v : List Int) :
    I.fn "matrix_vec_mul" [matV ms, vecV v] =
      vecV ((ms.takeWhile (fun r => decide (r ≠ [] ∧ r.length = v.length))).map (fun r => dot r v)) := by
  obtain ⟨b, hb, H⟩ := H
  have hb' : b = ite' ⟨mkOr [mkOr [(matrixX.len.lt (.int 1)).src, ((call "matrix_get" (.list .int) [matrixX, .int 0]).len.lt (.int 1)).src],
        ((call "matrix_get" (.list .int) [matrixX, .int 0]).len.ne x.len).src], .bool⟩ (listEmpty .int)
      (call "list_prepend" (.list .int) [call "reduce_sum" .int [call "vec_elemwise_mul" (.list .int)
        [call "matrix_get" (.list .int) [matrixX, .int 0], x]],
        call "matrix_vec_mul" (.list .int) [call "matrix_tail" (.matrix .int) [matrixX, .int 1], x]]) := (Option.some.inj hb).symm
  subst hb'
  have hfn : ∀ ms, I.fn "matrix_vec_mul" [matV ms, vecV v] = _ := fun ms =>
    H (env2 "matrix_x" (matV ms) (vecV v)) (env_ok2 (by decide) (OfTy.mat ms) (OfTy.vec v))
  have hx : ∀ ms, eval I (env2 "matrix_x" (matV ms) (vecV v)) x.src = vecV v := fun _ => rfl
  induction ms with
  | nil =>
    have hl : eval I (env2 "matrix_x" (matV []) (vecV v)) matrixX.src = .list [] := rfl
    rw [hfn, eval_ite', eval_listEmpty P, eval_or]
    simp only [List.any_cons, eval_or, eval_lt, eval_len P hl]
    rfl
  | cons r ms ih =>
    have hl : eval I (env2 "matrix_x" (matV (r :: ms)) (vecV v)) matrixX.src = .list (vecV r :: ms.map vecV) := rfl
    have hrow : eval I (env2 "matrix_x" (matV (r :: ms)) (vecV v)) (call "matrix_get" (.list .int) [matrixX, .int 0]).src = vecV r := by
      rw [eval_call]
      simp only [List.map_cons, List.map_nil, hl]
      exact P.matrix.get _ 0 _ (by omega) rfl
    have htl : eval I (env2 "matrix_x" (matV (r :: ms)) (vecV v)) (call "matrix_tail" (.matrix .int) [matrixX, .int 1]).src = matV ms := by
      rw [eval_call]
      simp only [List.map_cons, List.map_nil, hl]
      exact P.matrix.tail _ 1 (by omega) (by simp only [List.length_cons]; omega)
    rw [hfn, eval_ite', eval_listEmpty P, eval_or]
    simp only [List.any_cons, List.any_nil, eval_or, eval_lt, eval_ne', eval_len P hl, eval_len P hrow, eval_len P (hx (r :: ms)), eval_int,
      Val.asInt, Val.asBool, Bool.or_false, Val.int.injEq, List.length_map, List.length_cons]
    have h1 : ¬ (((ms.length + 1 : Nat) : Int) < 1) := by omega
    by_cases hr : r ≠ [] ∧ r.length = v.length
    · have h2 : ¬ ((r.length : Int) < 1) := by
        have := List.length_pos_iff.mpr hr.1
        omega
      have h3 : (r.length : Int) = v.length := by omega
      rw [List.takeWhile_cons_of_pos (by simpa using hr), if_neg (by simp only [Bool.or_eq_true, decide_eq_true_eq, Bool.not_eq_true', decide_eq_false_iff_not]; omega), eval_call]
      simp only [List.map_cons, List.map_nil, eval_call, hrow, htl, hx, V, S, ih]
      rw [zipIf_eq _ hr.2, vecV, P.list.pre _ _ trivial]
      rfl
    · have h2 : (r.length : Int) < 1 ∨ ¬ (r.length : Int) = v.length := by
        cases r with
        | nil => left; simp
        | cons r0 r =>
          right
          intro h
          exact hr ⟨by simp, by omega⟩
      rw [List.takeWhile_cons_of_neg (by simpa using hr), if_pos (by rcases h2 with h2 | h2 <;> simp [h2])]
      rfl

/-! ### Selections, maps and `ite_int` -/

theorem selection_spec {I : Interp} (P : ListPrims I) (H : selection.Holds I) (g : String) (xs ys : List Int) :
    I.fn "selection_two_args" [vecV xs, vecV ys, .fn g] =
      .list (zipIf (fun a b => I.apply (.fn g) [.int a, .int b]) xs ys) := by
  obtain ⟨b, hb, H⟩ := H
  let env : List Int → List Int → Env := fun xs ys n => if n = "x" then vecV xs else if n = "y" then vecV ys else .fn g
  have hfn : ∀ xs ys, I.fn "selection_two_args" [vecV xs, vecV ys, .fn g] = eval I (env xs ys) b.src := fun xs ys => H (env xs ys) (by
    intro p hp
    simp only [selection, List.mem_cons, List.not_mem_nil, or_false] at hp
    rcases hp with rfl | rfl | rfl
    · exact OfTy.vec _
    · exact OfTy.vec _
    · exact ⟨g, rfl⟩)
  induction xs generalizing ys with
  | nil =>
    rw [hfn, zipBody_stop P (us := []) (vs := ys.map .int) (mk := fun o o' => callValue selectArg [o, o'])
      (rec := fun o o' => call "selection_two_args" (.list .int) [o, o', selectArg]) hb rfl rfl rfl (eval_listEmpty P _) (Or.inl rfl)]
    cases ys <;> rfl
  | cons x0 xs ih =>
    rw [hfn]
    by_cases hlen : (x0 :: xs).length = ys.length
    · cases ys with
      | nil => cases hlen
      | cons y0 ys =>
        have hlen : xs.length = ys.length := by simpa using hlen
        rw [zipIf_cons _ x0 y0 hlen]
        refine zipBody_step P (u := .int x0) (v := .int y0) (us := xs.map .int) (vs := ys.map .int)
          (mk := fun o o' => callValue selectArg [o, o'])
          (rec := fun o o' => call "selection_two_args" (.list .int) [o, o', selectArg]) hb rfl rfl rfl (eval_listEmpty P _) rfl rfl
          (by simpa using hlen) (fun _ _ => rfl) (fun _ _ => rfl) ?_ ?_ trivial
        · intro o o' h1 h2
          rw [eval_callValue]
          simp only [List.map_cons, List.map_nil, h1, h2]
          rfl
        · intro o o' h1 h2
          rw [eval_call]
          simp only [List.map_cons, List.map_nil, h1, h2]
          exact ih ys
    · rw [zipBody_stop P (us := (x0 :: xs).map .int) (vs := ys.map .int) (mk := fun o o' => callValue selectArg [o, o'])
        (rec := fun o o' => call "selection_two_args" (.list .int) [o, o', selectArg]) hb rfl rfl rfl (eval_listEmpty P _)
        (Or.inr (by simpa using hlen)), zipIf, if_neg hlen]

theorem dissolveSelection_spec {I : Interp} (P : ListPrims I) (H : dissolveSelection.Holds I) (g : String) (op rc : Int) (xs ys : List Int) :
    I.fn "dissolve_selection_two_args" [vecV xs, vecV ys, .int op, .int rc, .fn g] =
      .list (zipIf (fun a b => I.apply (.fn g) [.int a, .int b, .int op, .int rc]) xs ys) := by
  obtain ⟨b, hb, H⟩ := H
  let env : List Int → List Int → Env := fun xs ys n =>
    if n = "x" then vecV xs else if n = "y" then vecV ys else if n = "opacity" then .int op else if n = "rand_cons" then .int rc else .fn g
  have hfn : ∀ xs ys, I.fn "dissolve_selection_two_args" [vecV xs, vecV ys, .int op, .int rc, .fn g] = eval I (env xs ys) b.src :=
    fun xs ys => H (env xs ys) (by
      intro p hp
      simp only [dissolveSelection, List.mem_cons, List.not_mem_nil, or_false] at hp
      rcases hp with rfl | rfl | rfl | rfl | rfl
      · exact OfTy.vec _
      · exact OfTy.vec _
      · exact ⟨op, rfl⟩
      · exact ⟨rc, rfl⟩
      · exact ⟨g, rfl⟩)
  induction xs generalizing ys with
  | nil =>
    rw [hfn, zipBody_stop P (us := []) (vs := ys.map .int) (mk := fun o o' => callValue dissolveArg [o, o', opacity, randCons])
      (rec := fun o o' => call "dissolve_selection_two_args" (.list .int) [o, o', opacity, randCons, dissolveArg]) hb rfl rfl rfl
      (eval_listEmpty P _) (Or.inl rfl)]
    cases ys <;> rfl
  | cons x0 xs ih =>
    rw [hfn]
    by_cases hlen : (x0 :: xs).length = ys.length
    · cases ys with
      | nil => cases hlen
      | cons y0 ys =>
        have hlen : xs.length = ys.length := by simpa using hlen
        rw [zipIf_cons _ x0 y0 hlen]
        refine zipBody_step P (u := .int x0) (v := .int y0) (us := xs.map .int) (vs := ys.map .int)
          (mk := fun o o' => callValue dissolveArg [o, o', opacity, randCons])
          (rec := fun o o' => call "dissolve_selection_two_args" (.list .int) [o, o', opacity, randCons, dissolveArg]) hb rfl rfl rfl
          (eval_listEmpty P _) rfl rfl
          (by simpa using hlen) (fun _ _ => rfl) (fun _ _ => rfl) ?_ ?_ trivial
        · intro o o' h1 h2
          rw [eval_callValue]
          simp only [List.map_cons, List.map_nil, h1, h2]
          rfl
        · intro o o' h1 h2
          rw [eval_call]
          simp only [List.map_cons, List.map_nil, h1, h2]
          exact ih ys
    · rw [zipBody_stop P (us := (x0 :: xs).map .int) (vs := ys.map .int) (mk := fun o o' => callValue dissolveArg [o, o', opacity, randCons])
        (rec := fun o o' => call "dissolve_selection_two_args" (.list .int) [o, o', opacity, randCons, dissolveArg]) hb rfl rfl rfl
        (eval_listEmpty P _) (Or.inr (by simpa using hlen)), zipIf, if_neg hlen]

theorem zipWith_ne' {γ : Type} {op : Int → Int → γ} {r s : List Int} (h : r ≠ [] ∧ r.length = s.length) : List.zipWith op r s ≠ [] := by
  obtain ⟨h1, h2⟩ := h
  cases r with
  | nil => exact absurd rfl h1
  | cons _ _ =>
    cases s with
    | nil => cases h2
    | cons _ _ => simp

theorem matrixSelection_spec {I : Interp} (P : ListPrims I) (g : String)
    (V : ∀ xs ys, I.fn "selection_two_args" [vecV xs, vecV ys, .fn g] =
      .list (zipIf (fun a b => I.apply (.fn g) [.int a, .int b]) xs ys)) (H : matrixSelection.Holds I) (ms ns : List (List Int))
    (hs : SameShape ms ns) :
    I.fn "matrix_selection_two_args" [matV ms, matV ns, .fn g] =
      .list (List.zipWith (fun r s => Val.list (List.zipWith (fun a b => I.apply (.fn g) [.int a, .int b]) r s)) ms ns) := by
  obtain ⟨b, hb, H⟩ := H
  let env : List (List Int) → List (List Int) → Env := fun xs ys n =>
    if n = "matrix_x" then matV xs else if n = "matrix_y" then matV ys else .fn g
  have hfn : ∀ xs ys, I.fn "matrix_selection_two_args" [matV xs, matV ys, .fn g] = eval I (env xs ys) b.src := fun xs ys => H (env xs ys) (by
    intro p hp
    simp only [matrixSelection, List.mem_cons, List.not_mem_nil, or_false] at hp
    rcases hp with rfl | rfl | rfl
    · exact OfTy.mat _
    · exact OfTy.mat _
    · exact ⟨g, rfl⟩)
  induction hs with
  | nil =>
    rw [hfn]
    exact zipBody_stop P (us := []) (vs := []) (mk := fun o o' => call "selection_two_args" (.list .int) [o, o', selectArg])
      (rec := fun o o' => call "matrix_selection_two_args" (.matrix .int) [o, o', selectArg]) hb rfl rfl rfl (eval_matrixEmpty P _)
      (Or.inl rfl)
  | @cons r s ms ns hrs htl ih =>
    rw [hfn]
    refine zipBody_step P (u := vecV r) (v := vecV s) (us := ms.map vecV) (vs := ns.map vecV)
      (w := .list (List.zipWith (fun a b => I.apply (.fn g) [.int a, .int b]) r s))
      (mk := fun o o' => call "selection_two_args" (.list .int) [o, o', selectArg])
      (rec := fun o o' => call "matrix_selection_two_args" (.matrix .int) [o, o', selectArg]) hb rfl rfl rfl (eval_matrixEmpty P _) rfl rfl
      (by simpa using SameShape.length htl) (fun _ _ => rfl) (fun _ _ => rfl) ?_ ?_ (zipWith_ne' hrs)
    · intro o o' h1 h2
      rw [eval_call]
      simp only [List.map_cons, List.map_nil, h1, h2]
      rw [← zipIf_eq _ hrs.2]
      exact V r s
    · intro o o' h1 h2
      rw [eval_call]
      simp only [List.map_cons, List.map_nil, h1, h2]
      exact ih

theorem dissolveMatrixSelection_spec {I : Interp} (P : ListPrims I) (g : String) (op rc : Int)
    (V : ∀ xs ys, I.fn "dissolve_selection_two_args" [vecV xs, vecV ys, .int op, .int rc, .fn g] =
      .list (zipIf (fun a b => I.apply (.fn g) [.int a, .int b, .int op, .int rc]) xs ys)) (H : dissolveMatrixSelection.Holds I)
    (ms ns : List (List Int)) (hs : SameShape ms ns) :
    I.fn "dissolve_matrix_selection_two_args" [matV ms, matV ns, .int op, .int rc, .fn g] =
      .list (List.zipWith (fun r s => Val.list (List.zipWith (fun a b => I.apply (.fn g) [.int a, .int b, .int op, .int rc]) r s)) ms ns) := by
  obtain ⟨b, hb, H⟩ := H
  let env : List (List Int) → List (List Int) → Env := fun xs ys n =>
    if n = "matrix_x" then matV xs else if n = "matrix_y" then matV ys else if n = "opacity" then .int op
    else if n = "rand_cons" then .int rc else .fn g
  have hfn : ∀ xs ys, I.fn "dissolve_matrix_selection_two_args" [matV xs, matV ys, .int op, .int rc, .fn g] = eval I (env xs ys) b.src :=
    fun xs ys => H (env xs ys) (by
      intro p hp
      simp only [dissolveMatrixSelection, List.mem_cons, List.not_mem_nil, or_false] at hp
      rcases hp with rfl | rfl | rfl | rfl | rfl
      · exact OfTy.mat _
      · exact OfTy.mat _
      · exact ⟨op, rfl⟩
      · exact ⟨rc, rfl⟩
      · exact ⟨g, rfl⟩)
  induction hs with
  | nil =>
    rw [hfn]
    exact zipBody_stop P (us := []) (vs := [])
      (mk := fun o o' => call "dissolve_selection_two_args" (.list .int) [o, o', opacity, randCons, dissolveArg])
      (rec := fun o o' => call "dissolve_matrix_selection_two_args" (.matrix .int) [o, o', opacity, randCons, dissolveArg]) hb rfl rfl rfl
      (eval_matrixEmpty P _) (Or.inl rfl)
  | @cons r s ms ns hrs htl ih =>
    rw [hfn]
    refine zipBody_step P (u := vecV r) (v := vecV s) (us := ms.map vecV) (vs := ns.map vecV)
      (w := .list (List.zipWith (fun a b => I.apply (.fn g) [.int a, .int b, .int op, .int rc]) r s))
      (mk := fun o o' => call "dissolve_selection_two_args" (.list .int) [o, o', opacity, randCons, dissolveArg])
      (rec := fun o o' => call "dissolve_matrix_selection_two_args" (.matrix .int) [o, o', opacity, randCons, dissolveArg]) hb rfl rfl rfl
      (eval_matrixEmpty P _) rfl rfl
      (by simpa using SameShape.length htl) (fun _ _ => rfl) (fun _ _ => rfl) ?_ ?_ (zipWith_ne' hrs)
    · intro o o' h1 h2
      rw [eval_call]
      simp only [List.map_cons, List.map_nil, h1, h2]
      rw [← zipIf_eq _ hrs.2]
      exact V r s
    · intro o o' h1 h2
      rw [eval_call]
      simp only [List.map_cons, List.map_nil, h1, h2]
      exact ih

theorem vecMap_spec {I : Interp} (P : ListPrims I) (H : vecMap.Holds I) (g : String) (xs : List Int) :
    I.fn "vec_map" [vecV xs, .fn g] = .list (xs.map (fun a => I.apply (.fn g) [.int a])) := by
  obtain ⟨b, hb, H⟩ := H
  have hfn : ∀ xs, I.fn "vec_map" [vecV xs, .fn g] = eval I (env2 "x" (vecV xs) (.fn g)) b.src := fun xs =>
    H (env2 "x" (vecV xs) (.fn g)) (env_ok2 (by decide) (OfTy.vec xs) ⟨g, rfl⟩)
  induction xs with
  | nil =>
    rw [hfn]
    exact mapBody_stop P (l := x) (mk := fun o => callValue mapArg [o]) (rec := fun o => call "vec_map" (.list .int) [o, mapArg])
      (cond := some (x.len.lt (.int 1))) hb rfl rfl rfl (eval_listEmpty P _)
  | cons x0 xs ih =>
    rw [hfn]
    refine mapBody_step P (l := x) (u := .int x0) (us := xs.map .int) (mk := fun o => callValue mapArg [o])
      (rec := fun o => call "vec_map" (.list .int) [o, mapArg]) (cond := some (x.len.lt (.int 1))) hb rfl rfl rfl rfl (fun _ => rfl)
      (fun _ => rfl) ?_ ?_ trivial
    · intro o h
      rw [eval_callValue]
      simp only [List.map_cons, List.map_nil, h]
      rfl
    · intro o h
      rw [eval_call]
      simp only [List.map_cons, List.map_nil, h]
      exact ih

theorem iteInt_spec {I : Interp} (H : iteInt.Holds I) (c : Bool) (i j : Int) :
    I.fn "ite_int" [.bool c, .int i, .int j] = .int (if c then i else j) := by
  obtain ⟨b, hb, H⟩ := H
  let env : Env := fun n => if n = "cond" then .bool c else if n = "int_x" then .int i else .int j
  have h1 : I.fn "ite_int" [.bool c, .int i, .int j] = eval I env b.src := H env (by
    intro p hp
    simp only [iteInt, List.mem_cons, List.not_mem_nil, or_false] at hp
    rcases hp with rfl | rfl | rfl
    · exact ⟨c, rfl⟩
    · exact ⟨i, rfl⟩
    · exact ⟨j, rfl⟩)
  have hb' : b = ite' cond intX intY := (Option.some.inj hb).symm
  rw [h1, hb', eval_ite']
  cases c <;> rfl

/-! ### C31 -/

/-- C31, vectors: element-wise arithmetic, arithmetic with a scalar on either side, in every interpretation of the target language.
Two vectors of different lengths give the empty vector. -/
theorem C31_vectors (I : Interp) (M : Model I) (xs ys : List Int) (s : Int) :
    I.fn "vec_elemwise_add" [vecV xs, vecV ys] = vecV (zipIf (· + ·) xs ys) ∧
    I.fn "vec_elemwise_sub" [vecV xs, vecV ys] = vecV (zipIf (· - ·) xs ys) ∧
    I.fn "vec_elemwise_mul" [vecV xs, vecV ys] = vecV (zipIf (· * ·) xs ys) ∧
    I.fn "vec_elemwise_div" [vecV xs, vecV ys] = vecV (zipIf I.idiv xs ys) ∧
    I.fn "vec_scalar_add" [.int s, vecV xs] = vecV (xs.map (s + ·)) ∧
    I.fn "vec_scalar_mul" [.int s, vecV xs] = vecV (xs.map (s * ·)) ∧
    I.fn "vec_scalar_sub" [.int s, vecV xs] = vecV (xs.map (· - s)) ∧
    I.fn "vec_scalar_div" [.int s, vecV xs] = vecV (xs.map (I.idiv · s)) ∧
    I.fn "scalar_vec_sub" [.int s, vecV xs] = vecV (xs.map (s - ·)) ∧
    I.fn "scalar_vec_div" [.int s, vecV xs] = vecV (xs.map (I.idiv s ·)) :=
  ⟨vecElemwise_spec M.prims (computes_add I) (M.defs vecElemwiseAdd (by simp [decls])) xs ys,
   vecElemwise_spec M.prims (computes_sub I) (M.defs vecElemwiseSub (by simp [decls])) xs ys,
   vecElemwise_spec M.prims (computes_mul I) (M.defs vecElemwiseMul (by simp [decls])) xs ys,
   vecElemwise_spec M.prims (computes_div I) (M.defs vecElemwiseDiv (by simp [decls])) xs ys,
   vecScalar_spec M.prims (computes_add I) (M.defs vecScalarAdd (by simp [decls])) s xs,
   vecScalar_spec M.prims (computes_mul I) (M.defs vecScalarMul (by simp [decls])) s xs,
   vecScalar_spec M.prims (computes_sub I).flip (M.defs vecScalarSub (by simp [decls])) s xs,
   vecScalar_spec M.prims (computes_div I).flip (M.defs vecScalarDiv (by simp [decls])) s xs,
   vecScalar_spec M.prims (computes_sub I) (M.defs scalarVecSub (by simp [decls])) s xs,
   vecScalar_spec M.prims (computes_div I) (M.defs scalarVecDiv (by simp [decls])) s xs⟩

/-- C31, matrices with rows of matching lengths.  Partial: rows must not be empty, see `C31_empty_rows_refuted`. -/
theorem C31_matrices_partial (I : Interp) (M : Model I) (ms ns : List (List Int)) (h : SameShape ms ns) :
    I.fn "matrix_elemwise_add" [matV ms, matV ns] = matV (List.zipWith (List.zipWith (· + ·)) ms ns) ∧
    I.fn "matrix_elemwise_sub" [matV ms, matV ns] = matV (List.zipWith (List.zipWith (· - ·)) ms ns) ∧
    I.fn "matrix_elemwise_mul" [matV ms, matV ns] = matV (List.zipWith (List.zipWith (· * ·)) ms ns) ∧
    I.fn "matrix_elemwise_div" [matV ms, matV ns] = matV (List.zipWith (List.zipWith I.idiv) ms ns) := by
  have V := C31_vectors I M
  exact ⟨(matElemwise_spec M.prims (fun xs ys => (V xs ys 0).1) (M.defs matElemwiseAdd (by simp [decls]))).1 ms ns h,
    (matElemwise_spec M.prims (fun xs ys => (V xs ys 0).2.1) (M.defs matElemwiseSub (by simp [decls]))).1 ms ns h,
    (matElemwise_spec M.prims (fun xs ys => (V xs ys 0).2.2.1) (M.defs matElemwiseMul (by simp [decls]))).1 ms ns h,
    (matElemwise_spec M.prims (fun xs ys => (V xs ys 0).2.2.2.1) (M.defs matElemwiseDiv (by simp [decls]))).1 ms ns h⟩

/-- C31, matrices with different numbers of rows: the empty matrix. -/
theorem C31_matrices_mismatch (I : Interp) (M : Model I) (ms ns : List (List Int)) (h : ms.length ≠ ns.length) :
    ∀ f ∈ ["matrix_elemwise_add", "matrix_elemwise_sub", "matrix_elemwise_mul", "matrix_elemwise_div"],
      I.fn f [matV ms, matV ns] = matV [] := by
  have V := C31_vectors I M
  intro f hf
  simp only [List.mem_cons, List.not_mem_nil, or_false] at hf
  rcases hf with rfl | rfl | rfl | rfl
  · exact (matElemwise_spec M.prims (fun xs ys => (V xs ys 0).1) (M.defs matElemwiseAdd (by simp [decls]))).2 ms ns h
  · exact (matElemwise_spec M.prims (fun xs ys => (V xs ys 0).2.1) (M.defs matElemwiseSub (by simp [decls]))).2 ms ns h
  · exact (matElemwise_spec M.prims (fun xs ys => (V xs ys 0).2.2.1) (M.defs matElemwiseMul (by simp [decls]))).2 ms ns h
  · exact (matElemwise_spec M.prims (fun xs ys => (V xs ys 0).2.2.2.1) (M.defs matElemwiseDiv (by simp [decls]))).2 ms ns h

/-- C31, a scalar and a matrix without empty rows. -/
theorem C31_scalar_matrices_partial (I : Interp) (M : Model I) (s : Int) (ms : List (List Int)) (h : ∀ r ∈ ms, r ≠ []) :
    I.fn "matrix_scalar_add" [.int s, matV ms] = matV (ms.map (List.map (s + ·))) ∧
    I.fn "matrix_scalar_mul" [.int s, matV ms] = matV (ms.map (List.map (s * ·))) ∧
    I.fn "matrix_scalar_sub" [.int s, matV ms] = matV (ms.map (List.map (· - s))) ∧
    I.fn "matrix_scalar_div" [.int s, matV ms] = matV (ms.map (List.map (I.idiv · s))) ∧
    I.fn "scalar_matrix_sub" [.int s, matV ms] = matV (ms.map (List.map (s - ·))) ∧
    I.fn "scalar_matrix_div" [.int s, matV ms] = matV (ms.map (List.map (I.idiv s ·))) := by
  have V := fun s xs => (C31_vectors I M xs [] s).2.2.2.2
  exact ⟨matScalar_spec M.prims (op := (· + ·)) (fun s xs => (V s xs).1) (M.defs matScalarAdd (by simp [decls])) s ms h,
    matScalar_spec M.prims (op := (· * ·)) (fun s xs => (V s xs).2.1) (M.defs matScalarMul (by simp [decls])) s ms h,
    matScalar_spec M.prims (op := fun s e => e - s) (fun s xs => (V s xs).2.2.1) (M.defs matScalarSub (by simp [decls])) s ms h,
    matScalar_spec M.prims (op := fun s e => I.idiv e s) (fun s xs => (V s xs).2.2.2.1) (M.defs matScalarDiv (by simp [decls])) s ms h,
    matScalar_spec M.prims (op := (· - ·)) (fun s xs => (V s xs).2.2.2.2.1) (M.defs scalarMatSub (by simp [decls])) s ms h,
    matScalar_spec M.prims (op := I.idiv) (fun s xs => (V s xs).2.2.2.2.2) (M.defs scalarMatDiv (by simp [decls])) s ms h⟩

/-- C31, tensors of the same shape without empty parts. -/
theorem C31_tensors_partial (I : Interp) (M : Model I) (ts us : List (List (List Int))) (h : SameShape3 ts us) :
    I.fn "tensor3d_elemwise_add" [tenV ts, tenV us] = tenV (List.zipWith (List.zipWith (List.zipWith (· + ·))) ts us) ∧
    I.fn "tensor3d_elemwise_mul" [tenV ts, tenV us] = tenV (List.zipWith (List.zipWith (List.zipWith (· * ·))) ts us) :=
  ⟨(tenElemwise_spec M.prims (fun ms ns hs => (C31_matrices_partial I M ms ns hs).1) (M.defs tenElemwiseAdd (by simp [decls]))).1 ts us h,
   (tenElemwise_spec M.prims (fun ms ns hs => (C31_matrices_partial I M ms ns hs).2.2.1) (M.defs tenElemwiseMul (by simp [decls]))).1
     ts us h⟩

/-- C31, reductions: sum, product and maximum; the maximum of the empty vector is -32. -/
theorem C31_reductions (I : Interp) (M : Model I) (xs : List Int) :
    I.fn "reduce_sum" [vecV xs] = .int xs.sum ∧
    I.fn "reduce_mul" [vecV xs] = .int (xs.foldr (· * ·) 1) ∧
    (xs = [] → I.fn "reduce_max" [vecV xs] = .int (-32)) ∧
    (xs ≠ [] → ∃ m, I.fn "reduce_max" [vecV xs] = .int m ∧ m ∈ xs ∧ ∀ z ∈ xs, z ≤ m) := by
  have R := reduceMax_spec M.prims (M.defs reduceMax (by simp [decls]))
  refine ⟨reduceSum_spec M.prims (M.defs reduceSum (by simp [decls])) xs, reduceMul_spec M.prims (M.defs reduceMul (by simp [decls])) xs,
    fun h => h ▸ R.1, fun h => ?_⟩
  cases xs with
  | nil => exact absurd rfl h
  | cons x0 xs => exact R.2 x0 xs

/-- C31, the matrix-vector product: for a matrix all of whose rows have the (non-zero) length of the vector, the vector of scalar
products; in general the scalar products of the rows before the first row of another length. -/
theorem C31_matrix_vec_mul (I : Interp) (M : Model I) (ms : List (List Int)) (v : List Int) :
    ((∀ r ∈ ms, r ≠ [] ∧ r.length = v.length) →
      I.fn "matrix_vec_mul" [matV ms, vecV v] = vecV (ms.map (fun r => (List.zipWith (· * ·) r v).sum))) ∧
    I.fn "matrix_vec_mul" [matV ms, vecV v] =
      vecV ((ms.takeWhile (fun r => decide (r ≠ [] ∧ r.length = v.length))).map (fun r => (List.zipWith (· * ·) r v).sum)) := by
  have h := matrixVecMul_spec M.prims (fun xs => (C31_reductions I M xs).1) (fun xs ys => (C31_vectors I M xs ys 0).2.2.1)
    (M.defs matrixVecMul (by simp [decls])) ms v
  refine ⟨fun hr => ?_, h⟩
  have htw : ms.takeWhile (fun r => decide (r ≠ [] ∧ r.length = v.length)) = ms := by
    induction ms with
    | nil => rfl
    | cons r ms ih =>
      rw [List.takeWhile_cons_of_pos (by simpa using hr r (List.mem_cons_self ..)),
        ih (matrixVecMul_spec M.prims (fun xs => (C31_reductions I M xs).1) (fun xs ys => (C31_vectors I M xs ys 0).2.2.1)
          (M.defs matrixVecMul (by simp [decls])) ms v) (fun r h => hr r (List.mem_cons_of_mem _ h))]
  rw [h, htw]
  rfl

/-- C31, maps, selections and `ite_int`; `I.apply (.fn g)` is the function passed. -/
theorem C31_functional (I : Interp) (M : Model I) (g : String) (xs ys : List Int) (opac rand : Int) (c : Bool) (i j : Int) :
    I.fn "vec_map" [vecV xs, .fn g] = .list (xs.map (fun a => I.apply (.fn g) [.int a])) ∧
    I.fn "selection_two_args" [vecV xs, vecV ys, .fn g] =
      .list (zipIf (fun a b => I.apply (.fn g) [.int a, .int b]) xs ys) ∧
    I.fn "dissolve_selection_two_args" [vecV xs, vecV ys, .int opac, .int rand, .fn g] =
      .list (zipIf (fun a b => I.apply (.fn g) [.int a, .int b, .int opac, .int rand]) xs ys) ∧
    I.fn "ite_int" [.bool c, .int i, .int j] = .int (if c then i else j) :=
  ⟨vecMap_spec M.prims (M.defs vecMap (by simp [decls])) g xs, selection_spec M.prims (M.defs selection (by simp [decls])) g xs ys,
   dissolveSelection_spec M.prims (M.defs dissolveSelection (by simp [decls])) g opac rand xs ys,
   iteInt_spec (M.defs iteInt (by simp [decls])) c i j⟩

/-- C31, selections on matrices of the same shape without empty rows. -/
theorem C31_matrix_selections_partial (I : Interp) (M : Model I) (g : String) (ms ns : List (List Int)) (opac rand : Int)
    (h : SameShape ms ns) :
    I.fn "matrix_selection_two_args" [matV ms, matV ns, .fn g] =
      .list (List.zipWith (fun r s => Val.list (List.zipWith (fun a b => I.apply (.fn g) [.int a, .int b]) r s)) ms ns) ∧
    I.fn "dissolve_matrix_selection_two_args" [matV ms, matV ns, .int opac, .int rand, .fn g] =
      .list (List.zipWith (fun r s => Val.list (List.zipWith (fun a b => I.apply (.fn g) [.int a, .int b, .int opac, .int rand]) r s))
        ms ns) :=
  ⟨matrixSelection_spec M.prims g (fun xs ys => (C31_functional I M g xs ys 0 0 true 0 0).2.1) (M.defs matrixSelection (by simp [decls]))
    ms ns h,
   dissolveMatrixSelection_spec M.prims g opac rand (fun xs ys => (C31_functional I M g xs ys opac rand true 0 0).2.2.1)
    (M.defs dissolveMatrixSelection (by simp [decls])) ms ns h⟩

end Metalift.Ten
