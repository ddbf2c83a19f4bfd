import Verif.RosettePrims
/-
Evaluation of printed expressions in Racket ends, if the meaning of the expression needs no more nested recursive calls than there is fuel and
no remainder by zero.
-/
namespace Metalift
namespace Rkt
open Smt (OfTy OfTys FnHolds paramEnv)

/-! ### Specification -/

/-- `Safe I fns fu ρ e`: computing the value of `e` takes at most `fu` nested calls of recursive functions, and it takes no remainder by zero and
calls no function of the library that uses up fuel itself.  All arguments are computed, except that `ite` computes only one branch and `or` stops at
the first true argument. -/
inductive Safe (I : Interp) (fns : List FnDecl) : Nat → Env → Expr → Prop
  | var {fu ρ y t} : Safe I fns fu ρ (.var y t)
  | lit {fu ρ l} : Safe I fns fu ρ (.lit l)
  | op {fu ρ op t args} (h1 : op ≠ .mod) (h2 : op ≠ .ite) (h3 : op ≠ .or) (h4 : ∀ f, op ≠ .call f) (ha : ∀ a ∈ args, Safe I fns fu ρ a) :
      Safe I fns fu ρ (.node op t args)
  | mod {fu ρ t a b} (ha : Safe I fns fu ρ a) (hb : Safe I fns fu ρ b) (h : eval I ρ b ≠ .int 0) : Safe I fns fu ρ (.node .mod t [a, b])
  | ite_true {fu ρ t c a b} (hc : Safe I fns fu ρ c) (h : eval I ρ c = .bool true) (ha : Safe I fns fu ρ a) : Safe I fns fu ρ (.node .ite t [c, a, b])
  | ite_false {fu ρ t c a b} (hc : Safe I fns fu ρ c) (h : eval I ρ c = .bool false) (ha : Safe I fns fu ρ b) : Safe I fns fu ρ (.node .ite t [c, a, b])
  | or_all {fu ρ t args} (ha : ∀ a ∈ args, Safe I fns fu ρ a) : Safe I fns fu ρ (.node .or t args)
  | or_stop {fu ρ t pre a post} (hp : ∀ p ∈ pre, Safe I fns fu ρ p) (ha : Safe I fns fu ρ a) (h : eval I ρ a = .bool true) :
      Safe I fns fu ρ (.node .or t (pre ++ a :: post))
  | prim {fu ρ f t args} (ha : ∀ a ∈ args, Safe I fns fu ρ a) (hf : ∀ d ∈ fns, d.name ≠ f) (h : f ∉ fuelFns) : Safe I fns fu ρ (.node (.call f) t args)
  | fn {fu ρ d t args b} (ha : ∀ a ∈ args, Safe I fns fu ρ a) (hd : d ∈ fns) (hr : d.recursive = false) (hb : d.body = some b)
      (h : Safe I fns fu (paramEnv d.params (args.map (eval I ρ))) b) : Safe I fns fu ρ (.node (.call d.name) t args)
  | fn_rec {fu ρ d t args b} (ha : ∀ a ∈ args, Safe I fns (fu + 1) ρ a) (hd : d ∈ fns) (hr : d.recursive = true) (hb : d.body = some b)
      (h : Safe I fns fu (paramEnv d.params (args.map (eval I ρ))) b) : Safe I fns (fu + 1) ρ (.node (.call d.name) t args)

/-! ### Proof -/

theorem lit_eval {M : Module} {σ : REnv} (l : Lit) (h1 : σ "true" = none ∧ σ "false" = none)
    (h2 : M.globals "true" = none ∧ M.globals "false" = none) : evalAtom M σ (litText l) = some l.val := by
  have key : ∃ v, evalAtom M σ (litText l) = some v := by
    cases l with
    | int i =>
      simp only [litText]
      split
      · have e1 : ("-" ++ i.natAbs.repr).toList = '-' :: i.natAbs.repr.toList := by
          rw [String.toList_append]
          rfl
        have e2 : isNumeric ('-' :: i.natAbs.repr.toList) = false := by simp [isNumeric]
        simp only [evalAtom, e1, e2, List.head?_cons, List.tail_cons, isNumeric_repr, Bool.false_eq_true, if_false, and_self, if_true]
        exact ⟨_, rfl⟩
      · rw [evalAtom_num (isNumeric_repr _)]
        exact ⟨_, rfl⟩
    | bool b =>
      cases b with
      | true =>
        refine ⟨.bool true, ?_⟩
        rw [show litText (.bool true) = "true" from rfl, evalAtom_name (by decide +kernel), evalName, h1.1, h2.1]
        rfl
      | false =>
        refine ⟨.bool false, ?_⟩
        rw [show litText (.bool false) = "false" from rfl, evalAtom_name (by decide +kernel), evalName, h1.2, h2.2]
        rfl
  obtain ⟨v, hv⟩ := key
  rw [hv, lit_value l h1 h2 hv]

theorem ints_args {vs : List Val} (h : ∀ v ∈ vs, ∃ i, v = .int i) : ∃ is, intArgs vs = some is := by
  induction vs with
  | nil => exact ⟨[], rfl⟩
  | cons v vs ih =>
    obtain ⟨i, rfl⟩ := h v (by simp)
    obtain ⟨is, e⟩ := ih (fun w hw => h w (by simp [hw]))
    refine ⟨i :: is, ?_⟩
    simp only [intArgs] at e
    simp only [intArgs, List.mapM_cons, Val.toInt?, e]
    rfl

theorem bools_args {vs : List Val} (h : ∀ v ∈ vs, ∃ i, v = .bool i) : ∃ is, boolArgs vs = some is := by
  induction vs with
  | nil => exact ⟨[], rfl⟩
  | cons v vs ih =>
    obtain ⟨i, rfl⟩ := h v (by simp)
    obtain ⟨is, e⟩ := ih (fun w hw => h w (by simp [hw]))
    refine ⟨i :: is, ?_⟩
    simp only [boolArgs] at e
    simp only [boolArgs, List.mapM_cons, Val.toBool?, e]
    rfl

/-- What the arguments of an operator are. -/
def OpArgs (op : Op) (vs : List Val) : Prop :=
  match op with
  | .add | .mul => ∀ v ∈ vs, ∃ i, v = .int i
  | .sub | .div | .lt | .le | .gt | .ge => ∃ a b, vs = [.int a, .int b]
  | .mod => ∃ a b, vs = [.int a, .int b] ∧ b ≠ 0
  | .eq => ∃ a b, vs = [a, b]
  | .and => ∀ v ∈ vs, ∃ i, v = .bool i
  | .not => ∃ a, vs = [.bool a]
  | .implies => ∃ a b, vs = [.bool a, .bool b]
  | _ => False

theorem op_total {op : Op} {t1 : Option Ty} {h : String} (hh : opHead op t1 = some h) {vs : List Val} (hv : OpArgs op vs) (n fu : Nat) :
    ∃ v, libCall (n + 6) fu h vs = some v := by
  have b : ∀ {h : String} {v : Val}, lib.find h = none → ((builtin h).bind fun p => p vs) = some v → ∃ v, libCall (n + 6) fu h vs = some v := by
    intro h v hf e
    exact ⟨v, by rw [libCall_builtin hf, e]⟩
  cases op with
  | or => exact hv.elim
  | ite => exact hv.elim
  | tuple => exact hv.elim
  | call f => exact hv.elim
  | callValue => exact hv.elim
  | choose => exact hv.elim
  | add =>
    cases hh
    obtain ⟨is, e⟩ := ints_args hv
    exact b (v := .int (is.foldl (· + ·) 0)) (by decide +kernel) (by simp [builtin, e])
  | mul =>
    cases hh
    obtain ⟨is, e⟩ := ints_args hv
    exact b (v := .int (is.foldl (· * ·) 1)) (by decide +kernel) (by simp [builtin, e])
  | sub =>
    cases hh
    obtain ⟨x, y, rfl⟩ := hv
    exact b (by decide +kernel) b_sub
  | div =>
    cases hh
    obtain ⟨x, y, rfl⟩ := hv
    exact ⟨_, lib_quotient⟩
  | mod =>
    cases hh
    obtain ⟨x, y, rfl, hy⟩ := hv
    exact b (v := .int (x.tmod y)) (by decide +kernel) (by rw [b_rem, if_neg hy])
  | eq =>
    obtain ⟨x, y, rfl⟩ := hv
    have : h = "set-eq" ∨ h = "equal?" := by
      unfold opHead at hh
      split at hh <;> first | (cases hh; simp; done) | simp_all
    rcases this with rfl | rfl
    · exact ⟨_, b_set_eq⟩
    · exact b (by decide +kernel) b_equal
  | lt =>
    cases hh
    obtain ⟨x, y, rfl⟩ := hv
    exact b (by decide +kernel) b_lt
  | le =>
    cases hh
    obtain ⟨x, y, rfl⟩ := hv
    exact b (by decide +kernel) b_le
  | gt =>
    cases hh
    obtain ⟨x, y, rfl⟩ := hv
    exact b (by decide +kernel) b_gt
  | ge =>
    cases hh
    obtain ⟨x, y, rfl⟩ := hv
    exact b (by decide +kernel) b_ge
  | and =>
    cases hh
    obtain ⟨is, e⟩ := bools_args hv
    exact b (v := .bool (is.all id)) (by decide +kernel) (by simp [builtin, e])
  | not =>
    cases hh
    obtain ⟨x, rfl⟩ := hv
    exact b (v := .bool !x) (by decide +kernel) rfl
  | implies =>
    cases hh
    obtain ⟨x, y, rfl⟩ := hv
    exact b (v := .bool (!x || y)) (by decide +kernel) rfl

/-- The value of the arguments, from some number of steps on. -/
theorem args_run {ev : Nat → SExpr → Option Val} {f : Expr → Val} {es : List Expr} {xs : List SExpr} (hx : rktSxs es = some xs)
    (h : ∀ e ∈ es, ∀ x, rktSx e = some x → ∃ k, ∀ n, k ≤ n → ev n x = some (f e)) : ∃ k, ∀ n, k ≤ n → xs.mapM (ev n) = some (es.map f) := by
  induction es generalizing xs with
  | nil =>
    cases hx
    exact ⟨0, fun n _ => rfl⟩
  | cons e es ih =>
    simp only [rktSxs, Option.bind_eq_bind, Option.bind_eq_some_iff, Option.some.injEq] at hx
    obtain ⟨x, hx, ys, hys, rfl⟩ := hx
    obtain ⟨k1, h1⟩ := h e (by simp) x hx
    obtain ⟨k2, h2⟩ := ih hys (fun e he => h e (by simp [he]))
    refine ⟨k1 + k2, fun n hn => ?_⟩
    simp only [List.mapM_cons, h1 n (by omega), h2 n (by omega), Option.bind_eq_bind, Option.bind_some, Option.pure_def, List.map_cons]

theorem rktSxs_append {es fs : List Expr} {zs : List SExpr} (h : rktSxs (es ++ fs) = some zs) :
    ∃ xs ys, rktSxs es = some xs ∧ rktSxs fs = some ys ∧ zs = xs ++ ys := by
  induction es generalizing zs with
  | nil => exact ⟨[], zs, rfl, h, rfl⟩
  | cons e es ih =>
    simp only [List.cons_append, rktSxs, Option.bind_eq_bind, Option.bind_eq_some_iff, Option.some.injEq] at h
    obtain ⟨x, hx, ys, hys, rfl⟩ := h
    obtain ⟨xs, ws, h1, h2, rfl⟩ := ih hys
    refine ⟨x :: xs, ws, ?_, h2, rfl⟩
    simp [rktSxs, hx, h1]

theorem or_run {ev : Nat → SExpr → Option Val} {f : Expr → Val} {es : List Expr} {xs ys : List SExpr} (hx : rktSxs es = some xs)
    (h : ∀ e ∈ es, ∀ x, rktSx e = some x → ∃ k, ∀ n, k ≤ n → ev n x = some (f e)) (hb : ∀ e ∈ es, ∃ b, f e = .bool b) :
    ∃ k, ∀ n, k ≤ n → evalOr (ev n) (xs ++ ys) = if (es.map f).any Val.asBool then some (.bool true) else evalOr (ev n) ys := by
  induction es generalizing xs with
  | nil =>
    cases hx
    exact ⟨0, fun n _ => rfl⟩
  | cons e es ih =>
    simp only [rktSxs, Option.bind_eq_bind, Option.bind_eq_some_iff, Option.some.injEq] at hx
    obtain ⟨x, hx, zs, hzs, rfl⟩ := hx
    obtain ⟨k1, h1⟩ := h e (by simp) x hx
    obtain ⟨k2, h2⟩ := ih hzs (fun e he => h e (by simp [he])) (fun e he => hb e (by simp [he]))
    refine ⟨k1 + k2, fun n hn => ?_⟩
    obtain ⟨b, hb⟩ := hb e (by simp)
    simp only [List.cons_append, evalOr, h1 n (by omega), Option.bind_some, h2 n (by omega), hb, List.map_cons, List.any_cons]
    cases b <;> simp [Val.asBool]

theorem rk_or {M : Module} {n fu : Nat} {σ : REnv} {as : List SExpr} (h1 : σ "or" = none) (h2 : M.find "or" = none) (h3 : M.globals "or" = none) :
    rkEval M (n + 1) fu σ (.list (.atom "or" :: as)) = evalOr (rkEval M n fu σ) as := by
  simp [rkEval, h1, h2, h3]

/-- Nothing hides the names that the file uses. -/
structure Visible (M : Module) (σ : REnv) (fns : List FnDecl) : Prop where
  names : ∀ y v, σ y = some v → rktName y = true
  heads : ∀ h, h ∈ reservedHeads ∨ h ∈ imported ∨ h ∈ fns.map FnDecl.name → σ h = none

theorem bindArgs_total {ps : List String} {vs : List Val} (h : ps.length = vs.length) : bindArgs ps none vs = some (ps.zip vs) := by
  induction ps generalizing vs with
  | nil =>
    cases vs with
    | nil => rfl
    | cons v vs => cases h
  | cons p ps ih =>
    cases vs with
    | nil => cases h
    | cons v vs => simp [bindArgs, ih (by simpa using h)]

theorem nodup_names {fns : List FnDecl} (hn : (fns.map FnDecl.name).Nodup) {d d' : FnDecl} (h : d ∈ fns) (h' : d' ∈ fns) (e : d'.name = d.name) : d' = d := by
  induction fns with
  | nil => cases h
  | cons a fns ih =>
    simp only [List.map_cons, List.nodup_cons] at hn
    rcases List.mem_cons.1 h with h1 | h1 <;> rcases List.mem_cons.1 h' with h2 | h2
    · rw [h1, h2]
    · subst h1
      exact absurd (e ▸ List.mem_map_of_mem h2) hn.1
    · subst h2
      exact absurd (e.symm ▸ List.mem_map_of_mem h1) hn.1
    · exact ih hn.2 h1 h2

/-- **Evaluation of a printed expression gives its meaning, if the meaning is safe to compute.** -/
theorem rk_complete {I : Interp} (hI : LibMeaning I) {M : Module} {cands lang : List FnDecl} (hM : HasFns M (cands ++ lang))
    (hnd : ((cands ++ lang).map FnDecl.name).Nodup)
    (hg : ∀ y v, M.globals y = some v → rktName y = true)
    (hgh : ∀ h, h ∈ reservedHeads ∨ h ∈ imported ∨ h ∈ (cands ++ lang).map FnDecl.name → M.globals h = none)
    (hok : ∀ d ∈ cands ++ lang, fnOk (fileSig cands lang) d = true ∧ FnHolds I d ∧ ∀ b, d.body = some b → arithOk b = true)
    (hps : ∀ d ∈ cands ++ lang, ∀ p ∈ d.params, p.1 ∉ reservedHeads ∧ p.1 ∉ imported ∧ p.1 ∉ (cands ++ lang).map FnDecl.name)
    {fu : Nat} {ρ : Env} {e : Expr} (hs : Safe I (cands ++ lang) fu ρ e) :
    ∀ (σ : REnv) (Γ : String → Ty) (x : SExpr), rktSx e = some x →
      e.sorted Γ (fileSig cands lang) = true → arithOk e = true → (∀ y, OfTy (Γ y) (ρ y)) → Visible M σ (cands ++ lang) →
      (∀ y ∈ e.vars, rktName y = true ∧ evalName M σ y = some (ρ y)) → ∃ k, ∀ n, k ≤ n → rkEval M n fu σ x = some (eval I ρ e) := by
  have hR := fileSig_respected hI (fun d hd => (hok d hd).2.1)
  have hmono : M.imports.Mono := by
    rw [hM.imports]
    exact exports_mono builtin_mono
  -- it is enough to have some value
  have some_value : ∀ {fu : Nat} {ρ : Env} {e : Expr} {σ : REnv} {Γ : String → Ty} {x : SExpr}, rktSx e = some x →
      e.sorted Γ (fileSig cands lang) = true → arithOk e = true → (∀ y, OfTy (Γ y) (ρ y)) → Visible M σ (cands ++ lang) →
      (∀ y ∈ e.vars, rktName y = true ∧ evalName M σ y = some (ρ y)) → (∃ k v, rkEval M k fu σ x = some v) →
      ∃ k, ∀ n, k ≤ n → rkEval M n fu σ x = some (eval I ρ e) := by
    rintro fu ρ e σ Γ x hx hs ha hρ hσ hv ⟨k, v, h⟩
    have := rk_sound hI hM hg hok k fu σ Γ ρ e x v hx hs ha hρ hσ.names (fun y hy => ⟨(hv y hy).1, fun w hw => by
      rw [(hv y hy).2] at hw
      exact (Option.some.inj hw).symm⟩) h
    subst this
    exact ⟨k, fun n hn => rkEval_mono hmono k n hn fu σ x _ h⟩
  have ftrue : ∀ {σ : REnv}, (∀ y v, σ y = some v → rktName y = true) → σ "true" = none ∧ σ "false" = none := by
    intro σ hσ
    have n1 : ∀ y, rktName y = false → σ y = none := by
      intro y hy
      cases e : σ y with
      | none => rfl
      | some w => rw [hσ y w e] at hy; cases hy
    exact ⟨n1 _ true_not_name.1, n1 _ true_not_name.2⟩
  -- heads of applications
  have hhead : ∀ {σ : REnv} {h : String}, Visible M σ (cands ++ lang) → h ∈ reservedHeads ∨ h ∈ imported →
      σ h = none ∧ M.find h = none ∧ M.globals h = none := by
    intro σ h hσ hh
    refine ⟨hσ.heads h ?_, hM.free h hh, hgh h ?_⟩ <;> rcases hh with hh | hh <;> simp [hh]
  -- the arguments of an operator or a call
  have hargs : ∀ {fu : Nat} {ρ : Env} {op : Op} {t : Ty} {args : List Expr} {xs : List SExpr} {σ : REnv} {Γ : String → Ty},
      (∀ a ∈ args, ∀ (σ : REnv) (Γ : String → Ty) (x : SExpr), rktSx a = some x →
        a.sorted Γ (fileSig cands lang) = true → arithOk a = true → (∀ y, OfTy (Γ y) (ρ y)) → Visible M σ (cands ++ lang) →
        (∀ y ∈ a.vars, rktName y = true ∧ evalName M σ y = some (ρ y)) → ∃ k, ∀ n, k ≤ n → rkEval M n fu σ x = some (eval I ρ a)) →
      rktSxs args = some xs → (Expr.node op t args).sorted Γ (fileSig cands lang) = true → arithOk (.node op t args) = true →
      (∀ y, OfTy (Γ y) (ρ y)) → Visible M σ (cands ++ lang) →
      (∀ y ∈ (Expr.node op t args).vars, rktName y = true ∧ evalName M σ y = some (ρ y)) →
      ∃ k, ∀ n, k ≤ n → xs.mapM (rkEval M n fu σ) = some (args.map (eval I ρ)) := by
    intro fu ρ op t args xs σ Γ iha hxs hs ha hρ hσ hv
    simp only [Expr.sorted, Bool.and_eq_true, sorteds_iff] at hs
    simp only [arithOk, Bool.and_eq_true, arithOks_iff] at ha
    exact args_run (ev := fun n => rkEval M n fu σ) (f := eval I ρ) hxs (fun a ham x hx =>
      iha a ham σ Γ x hx (hs.1 a ham) (ha.1 a ham) hρ hσ (fun y hy => hv y (by
        simp only [Expr.vars]
        exact Expr.mem_varss.2 ⟨a, ham, hy⟩)))
  -- a strict operator
  have hop : ∀ {fu : Nat} {ρ : Env} {op : Op} {t : Ty} {args : List Expr}, op ≠ .ite → op ≠ .or → (∀ f, op ≠ .call f) →
      (∀ a ∈ args, ∀ (σ : REnv) (Γ : String → Ty) (x : SExpr), rktSx a = some x →
        a.sorted Γ (fileSig cands lang) = true → arithOk a = true → (∀ y, OfTy (Γ y) (ρ y)) → Visible M σ (cands ++ lang) →
        (∀ y ∈ a.vars, rktName y = true ∧ evalName M σ y = some (ρ y)) → ∃ k, ∀ n, k ≤ n → rkEval M n fu σ x = some (eval I ρ a)) →
      (op = .mod → ∀ a b, args = [a, b] → eval I ρ b ≠ .int 0) →
      ∀ (σ : REnv) (Γ : String → Ty) (x : SExpr), rktSx (.node op t args) = some x →
        (Expr.node op t args).sorted Γ (fileSig cands lang) = true → arithOk (.node op t args) = true →
        (∀ y, OfTy (Γ y) (ρ y)) → Visible M σ (cands ++ lang) →
        (∀ y ∈ (Expr.node op t args).vars, rktName y = true ∧ evalName M σ y = some (ρ y)) →
        ∃ k, ∀ n, k ≤ n → rkEval M n fu σ x = some (eval I ρ (.node op t args)) := by
    intro fu ρ op t args h_ite h_or hcf iha hmod σ Γ x hx hs ha hρ hσ hv
    refine some_value hx hs ha hρ hσ hv ?_
    simp only [rktSx, Option.bind_eq_bind, Option.bind_eq_some_iff, Option.some.injEq] at hx
    obtain ⟨hd, hhd, xs, hxs, rfl⟩ := hx
    obtain ⟨k1, h1⟩ := hargs iha hxs hs ha hρ hσ hv
    simp only [Expr.sorted, Bool.and_eq_true, sorteds_iff] at hs
    simp only [arithOk, Bool.and_eq_true, arithOks_iff] at ha
    have hty : ∀ a ∈ args, OfTy a.ty (eval I ρ a) := fun a ham => sorted_typed hR hρ a (hs.1 a ham)
    obtain ⟨f1, f2, f3⟩ := hhead hσ (.inl (op_heads op _ hd hhd hcf))
    have ints : (∀ a ∈ args, a.ty = .int) → ∀ v ∈ args.map (eval I ρ), ∃ i, v = .int i := by
      intro h v hv
      obtain ⟨a, ham, rfl⟩ := List.mem_map.1 hv
      have := hty a ham
      rwa [h a ham] at this
    have two : args.length = 2 → (∀ a ∈ args, a.ty = .int) → ∃ i j, args.map (eval I ρ) = [.int i, .int j] := by
      intro h h'
      match args, h, ints h' with
      | [a, b], _, h =>
        obtain ⟨i, hi⟩ := h (eval I ρ a) (by simp)
        obtain ⟨j, hj⟩ := h (eval I ρ b) (by simp)
        exact ⟨i, j, by simp [hi, hj]⟩
    have hoa : OpArgs op (args.map (eval I ρ)) := by
      have ho := hs.2
      have ha2 := ha.2
      cases op with
      | or => exact absurd rfl h_or
      | ite => exact absurd rfl h_ite
      | call f => exact absurd rfl (hcf f)
      | tuple => simp [opSorted] at ho
      | callValue => simp [opSorted] at ho
      | choose => simp [opSorted] at ho
      | add =>
        simp only [List.all_eq_true, decide_eq_true_eq] at ha2
        exact ints ha2
      | mul =>
        simp only [List.all_eq_true, decide_eq_true_eq] at ha2
        exact ints ha2
      | and =>
        simp only [opSorted, decide_eq_true_eq, List.mem_map] at ho
        intro v hv
        obtain ⟨a, ham, rfl⟩ := List.mem_map.1 hv
        have := hty a ham
        rwa [ho.2 a.ty ⟨a, ham, rfl⟩] at this
      | eq =>
        simp only [opSorted, decide_eq_true_eq, List.length_map] at ho
        match args, ho.2 with
        | [a, b], _ => exact ⟨_, _, rfl⟩
      | not =>
        simp only [opSorted, decide_eq_true_eq] at ho
        match args with
        | [] => simp at ho
        | _ :: _ :: _ => simp at ho
        | [a] =>
          have := hty a (by simp)
          simp only [List.map_cons, List.map_nil, List.cons.injEq, and_true] at ho
          rw [ho.2] at this
          obtain ⟨i, hi⟩ := this
          exact ⟨i, by simp [hi]⟩
      | implies =>
        simp only [opSorted, decide_eq_true_eq] at ho
        match args with
        | [] => simp at ho
        | [_] => simp at ho
        | _ :: _ :: _ :: _ => simp at ho
        | [a, b] =>
          have t1 := hty a (by simp)
          have t2 := hty b (by simp)
          simp only [List.map_cons, List.map_nil, List.cons.injEq, and_true] at ho
          rw [ho.2.1] at t1
          rw [ho.2.2] at t2
          obtain ⟨i, hi⟩ := t1
          obtain ⟨j, hj⟩ := t2
          exact ⟨i, j, by simp [hi, hj]⟩
      | mod =>
        simp only [opSorted, decide_eq_true_eq, List.length_map] at ho
        simp only [List.all_eq_true, decide_eq_true_eq] at ha2
        obtain ⟨i, j, e⟩ := two ho.2 ha2
        refine ⟨i, j, e, ?_⟩
        match args, ho.2, e with
        | [a, b], _, e =>
          simp only [List.map_cons, List.map_nil, List.cons.injEq, and_true] at e
          have := hmod rfl a b rfl
          rw [e.2] at this
          simpa using this
      | sub | div | lt | le | gt | ge =>
        simp only [opSorted, decide_eq_true_eq, List.length_map] at ho
        simp only [List.all_eq_true, decide_eq_true_eq] at ha2
        exact two ho.2 ha2
    obtain ⟨v, h2⟩ := op_total hhd hoa k1 fu
    refine ⟨k1 + 6 + 1, v, ?_⟩
    have hspec : hd ∉ specialForms := by
      have hnot : op ≠ .tuple := by
        rintro rfl
        have := hs.2
        simp [opSorted] at this
      unfold opHead at hhd
      split at hhd <;> first
        | (cases hhd; decide +kernel)
        | exact absurd rfl (hcf _)
        | exact absurd rfl h_or
        | exact absurd rfl h_ite
        | cases hhd
    rw [rk_app f1 f2 f3 hspec, h1 (k1 + 6) (by omega), Option.bind_some, hM.imports]
    exact h2
  -- a call of a function of the file
  have hcall : ∀ {fu fu' : Nat} {ρ : Env} {d : FnDecl} {t : Ty} {args : List Expr} {b : Expr}, d ∈ cands ++ lang → d.body = some b →
      (d.recursive = false ∧ fu = fu' ∨ d.recursive = true ∧ fu = fu' + 1) →
      (∀ a ∈ args, ∀ (σ : REnv) (Γ : String → Ty) (x : SExpr), rktSx a = some x →
        a.sorted Γ (fileSig cands lang) = true → arithOk a = true → (∀ y, OfTy (Γ y) (ρ y)) → Visible M σ (cands ++ lang) →
        (∀ y ∈ a.vars, rktName y = true ∧ evalName M σ y = some (ρ y)) → ∃ k, ∀ n, k ≤ n → rkEval M n fu σ x = some (eval I ρ a)) →
      (∀ (σ : REnv) (Γ : String → Ty) (x : SExpr), rktSx b = some x →
        b.sorted Γ (fileSig cands lang) = true → arithOk b = true → (∀ y, OfTy (Γ y) (paramEnv d.params (args.map (eval I ρ)) y)) →
        Visible M σ (cands ++ lang) →
        (∀ y ∈ b.vars, rktName y = true ∧ evalName M σ y = some (paramEnv d.params (args.map (eval I ρ)) y)) →
        ∃ k, ∀ n, k ≤ n → rkEval M n fu' σ x = some (eval I (paramEnv d.params (args.map (eval I ρ))) b)) →
      ∀ (σ : REnv) (Γ : String → Ty) (x : SExpr), rktSx (.node (.call d.name) t args) = some x →
        (Expr.node (.call d.name) t args).sorted Γ (fileSig cands lang) = true → arithOk (.node (.call d.name) t args) = true →
        (∀ y, OfTy (Γ y) (ρ y)) → Visible M σ (cands ++ lang) →
        (∀ y ∈ (Expr.node (.call d.name) t args).vars, rktName y = true ∧ evalName M σ y = some (ρ y)) →
        ∃ k, ∀ n, k ≤ n → rkEval M n fu σ x = some (eval I ρ (.node (.call d.name) t args)) := by
    intro fu fu' ρ d t args b hdm hb hfu iha ihb σ Γ x hx hs ha hρ hσ hv
    refine some_value hx hs ha hρ hσ hv ?_
    simp only [rktSx, Option.bind_eq_bind, Option.bind_eq_some_iff, Option.some.injEq] at hx
    obtain ⟨hd, hhd, xs, hxs, rfl⟩ := hx
    obtain ⟨k1, h1⟩ := hargs iha hxs hs ha hρ hσ hv
    simp only [Expr.sorted, Bool.and_eq_true, sorteds_iff] at hs
    obtain ⟨ho, hh, harith⟩ := hok d hdm
    obtain ⟨b', bx, hb', hbx, hfind⟩ := hM.fn d hdm
    rw [hb] at hb'
    cases hb'
    simp only [fnOk, hb, Bool.and_eq_true, List.all_eq_true, decide_eq_true_eq] at ho
    obtain ⟨⟨⟨⟨o1, o2⟩, o3⟩, o4⟩, o5⟩ := ho
    rw [user_head o3.2] at hhd
    cases hhd
    have hty : ∀ a ∈ args, OfTy a.ty (eval I ρ a) := fun a ham => sorted_typed hR hρ a (hs.1 a ham)
    have htys : OfTys (args.map Expr.ty) (args.map (eval I ρ)) := ofTys_evals hty
    have hsf := hs.2
    simp only [opSorted, decide_eq_true_eq] at hsf
    have hparams : args.map Expr.ty = d.params.map Prod.snd := by
      have hl : langSig (cands ++ lang) d.name = some (d.params.map Prod.snd, d.ret) := by
        simp only [langSig, Option.map_eq_some_iff]
        cases e : (cands ++ lang).find? (fun d' => d'.name == d.name) with
        | none =>
          have := List.find?_eq_none.1 e d hdm
          simp at this
        | some d' =>
          have e1 := List.mem_of_find?_eq_some e
          have e2 := List.find?_some e
          rw [nodup_names hnd hdm e1 (by simpa using e2)]
          exact ⟨d, rfl, rfl⟩
      simp only [fileSig, hl] at hsf
      have := Option.some.inj hsf
      exact (Prod.mk.inj this).1.symm
    rw [hparams] at htys
    have hlen : (d.params.map Prod.fst).length = (args.map (eval I ρ)).length := by
      simpa using congrArg List.length hparams.symm
    have hbind : ∀ y w, bindAll (fun _ => none) ((d.params.map Prod.fst).zip (args.map (eval I ρ))) y = some w →
        ((d.params.map Prod.fst).zip (args.map (eval I ρ))).lookup y = some w := by
      intro y w hy
      rw [bindAll_eq] at hy
      split at hy
      · next u hu => cases hy; exact hu
      · cases hy
    have hin : ∀ y w, bindAll (fun _ => none) ((d.params.map Prod.fst).zip (args.map (eval I ρ))) y = some w → ∃ p ∈ d.params, p.1 = y := by
      intro y w hy
      exact List.mem_map.1 (List.of_mem_zip (lookup_mem (hbind y w hy))).1
    obtain ⟨k2, h2⟩ := ihb (bindAll (fun _ => none) ((d.params.map Prod.fst).zip (args.map (eval I ρ)))) (paramTypes d.params) bx hbx o1 (harith b hb)
      (paramEnv_typed htys) ⟨fun y w hy => by
        obtain ⟨p, hp, rfl⟩ := hin y w hy
        exact o4 p hp, fun h hh => by
        cases e : bindAll (fun _ => none) ((d.params.map Prod.fst).zip (args.map (eval I ρ))) h with
        | none => rfl
        | some w =>
          obtain ⟨p, hp, rfl⟩ := hin h w e
          obtain ⟨q1, q2, q3⟩ := hps d hdm p hp
          rcases hh with hh | hh | hh
          · exact absurd hh q1
          · exact absurd hh q2
          · exact absurd hh q3⟩ (fun y hy => by
        have hyp := o2 y hy
        obtain ⟨p, hp, e⟩ := List.mem_map.1 hyp
        refine ⟨e ▸ o4 p hp, ?_⟩
        obtain ⟨u, hu⟩ := zip_lookup hlen hyp
        have : bindAll (fun _ => none) ((d.params.map Prod.fst).zip (args.map (eval I ρ))) y = some u := by
          rw [bindAll_eq, hu]
        rw [evalName_local this]
        simp [paramEnv, hu])
    refine ⟨k1 + k2 + 1, eval I (paramEnv d.params (args.map (eval I ρ))) b, ?_⟩
    rw [rk_call (hσ.heads _ (.inr (.inr (List.mem_map_of_mem hdm)))) hfind, h1 _ (by omega), Option.bind_some]
    simp only [applyDef, bindArgs_total hlen, Option.bind_some]
    rcases hfu with ⟨hr, rfl⟩ | ⟨hr, rfl⟩
    · simp only [hr, Bool.false_eq_true, if_false]
      exact h2 _ (by omega)
    · simp only [hr, if_true]
      exact h2 _ (by omega)
  induction hs with
  | var =>
    intro σ Γ x hx hs ha hρ hσ hv
    cases hx
    refine ⟨0, fun n _ => ?_⟩
    rw [rk_atom, evalAtom_name (rktName_isName (hv _ (by simp [Expr.vars])).1)]
    exact (hv _ (by simp [Expr.vars])).2
  | lit =>
    intro σ Γ x hx hs ha hρ hσ hv
    cases hx
    refine ⟨0, fun n _ => ?_⟩
    rw [rk_atom, lit_eval _ (ftrue hσ.names) (ftrue hg)]
    rfl
  | op h1 h2 h3 h4 _ iha => exact hop h2 h3 h4 iha (fun h => absurd h h1)
  | mod _ _ h iha ihb =>
    refine hop (by simp) (by simp) (by simp) ?_ ?_
    · intro a ha
      simp only [List.mem_cons, List.not_mem_nil, or_false] at ha
      rcases ha with rfl | rfl
      · exact iha
      · exact ihb
    · rintro _ a b e
      cases e
      exact h
  | @ite_true fu ρ t c a b _ h _ ihc iha =>
    intro σ Γ x hx hs ha hρ hσ hv
    refine some_value hx hs ha hρ hσ hv ?_
    simp only [rktSx, Option.bind_eq_bind, Option.bind_eq_some_iff, Option.some.injEq] at hx
    obtain ⟨hd, hhd, xs, hxs, rfl⟩ := hx
    cases hhd
    simp only [rktSxs, Option.bind_eq_bind, Option.bind_eq_some_iff, Option.some.injEq] at hxs
    obtain ⟨cx, hcx, _, ⟨ax, hax, _, ⟨bx, hbx, _, rfl, rfl⟩, rfl⟩, rfl⟩ := hxs
    obtain ⟨f1, f2, f3⟩ := hhead hσ (.inl (by decide +kernel : "if" ∈ reservedHeads))
    simp only [Expr.sorted, Bool.and_eq_true, sorteds_iff] at hs
    simp only [arithOk, Bool.and_eq_true, arithOks_iff] at ha
    simp only [Expr.vars, Expr.mem_varss] at hv
    obtain ⟨k1, h1⟩ := ihc σ Γ cx hcx (hs.1 c (by simp)) (ha.1 c (by simp)) hρ hσ (fun y hy => hv y ⟨c, by simp, hy⟩)
    obtain ⟨k2, h2⟩ := iha σ Γ ax hax (hs.1 a (by simp)) (ha.1 a (by simp)) hρ hσ (fun y hy => hv y ⟨a, by simp, hy⟩)
    refine ⟨k1 + k2 + 1, eval I ρ a, ?_⟩
    rw [rk_if f1 f2 f3, h1 _ (by omega), Option.bind_some, h, if_neg (by simp), h2 _ (by omega)]
  | @ite_false fu ρ t c a b _ h _ ihc iha =>
    intro σ Γ x hx hs ha hρ hσ hv
    refine some_value hx hs ha hρ hσ hv ?_
    simp only [rktSx, Option.bind_eq_bind, Option.bind_eq_some_iff, Option.some.injEq] at hx
    obtain ⟨hd, hhd, xs, hxs, rfl⟩ := hx
    cases hhd
    simp only [rktSxs, Option.bind_eq_bind, Option.bind_eq_some_iff, Option.some.injEq] at hxs
    obtain ⟨cx, hcx, _, ⟨ax, hax, _, ⟨bx, hbx, _, rfl, rfl⟩, rfl⟩, rfl⟩ := hxs
    obtain ⟨f1, f2, f3⟩ := hhead hσ (.inl (by decide +kernel : "if" ∈ reservedHeads))
    simp only [Expr.sorted, Bool.and_eq_true, sorteds_iff] at hs
    simp only [arithOk, Bool.and_eq_true, arithOks_iff] at ha
    simp only [Expr.vars, Expr.mem_varss] at hv
    obtain ⟨k1, h1⟩ := ihc σ Γ cx hcx (hs.1 c (by simp)) (ha.1 c (by simp)) hρ hσ (fun y hy => hv y ⟨c, by simp, hy⟩)
    obtain ⟨k2, h2⟩ := iha σ Γ bx hbx (hs.1 b (by simp)) (ha.1 b (by simp)) hρ hσ (fun y hy => hv y ⟨b, by simp, hy⟩)
    refine ⟨k1 + k2 + 1, eval I ρ b, ?_⟩
    rw [rk_if f1 f2 f3, h1 _ (by omega), Option.bind_some, h, if_pos rfl, h2 _ (by omega)]
  | @or_all fu ρ t args _ iha =>
    intro σ Γ x hx hs ha hρ hσ hv
    refine some_value hx hs ha hρ hσ hv ?_
    simp only [rktSx, Option.bind_eq_bind, Option.bind_eq_some_iff, Option.some.injEq] at hx
    obtain ⟨hd, hhd, xs, hxs, rfl⟩ := hx
    cases hhd
    obtain ⟨f1, f2, f3⟩ := hhead hσ (.inl (by decide +kernel : "or" ∈ reservedHeads))
    simp only [Expr.sorted, Bool.and_eq_true, sorteds_iff] at hs
    simp only [arithOk, Bool.and_eq_true, arithOks_iff] at ha
    simp only [Expr.vars, Expr.mem_varss] at hv
    have ho := hs.2
    simp only [opSorted, decide_eq_true_eq, List.mem_map] at ho
    obtain ⟨k, h⟩ := or_run (ev := fun n => rkEval M n fu σ) (f := eval I ρ) (ys := []) hxs (fun a ham x hx =>
      iha a ham σ Γ x hx (hs.1 a ham) (ha.1 a ham) hρ hσ (fun y hy => hv y ⟨a, ham, hy⟩)) (fun a ham => by
        have := sorted_typed hR hρ a (hs.1 a ham)
        rwa [ho.2 a.ty ⟨a, ham, rfl⟩] at this)
    refine ⟨k + 1, if (args.map (eval I ρ)).any Val.asBool then .bool true else .bool false, ?_⟩
    rw [rk_or f1 f2 f3, ← List.append_nil xs, h k (Nat.le_refl _)]
    exact (apply_ite some _ (Val.bool true) (Val.bool false)).symm
  | @or_stop fu ρ t pre a post _ _ h ihp iha =>
    intro σ Γ x hx hs ha hρ hσ hv
    refine some_value hx hs ha hρ hσ hv ?_
    simp only [rktSx, Option.bind_eq_bind, Option.bind_eq_some_iff, Option.some.injEq] at hx
    obtain ⟨hd, hhd, xs, hxs, rfl⟩ := hx
    cases hhd
    obtain ⟨f1, f2, f3⟩ := hhead hσ (.inl (by decide +kernel : "or" ∈ reservedHeads))
    simp only [Expr.sorted, Bool.and_eq_true, sorteds_iff] at hs
    simp only [arithOk, Bool.and_eq_true, arithOks_iff] at ha
    simp only [Expr.vars, Expr.mem_varss] at hv
    have ho := hs.2
    simp only [opSorted, decide_eq_true_eq, List.mem_map] at ho
    rw [List.append_cons] at hxs
    obtain ⟨ps, qs, hps', hqs, rfl⟩ := rktSxs_append hxs
    have hm : ∀ c ∈ pre ++ [a], c ∈ pre ++ a :: post := by
      intro c hc
      simp only [List.mem_append, List.mem_cons, List.not_mem_nil, or_false] at hc ⊢
      tauto
    obtain ⟨k, hk⟩ := or_run (ev := fun n => rkEval M n fu σ) (f := eval I ρ) (ys := qs) hps' (fun c hcm x hx => by
        rcases List.mem_append.1 hcm with hc | hc
        · exact ihp c hc σ Γ x hx (hs.1 c (hm c hcm)) (ha.1 c (hm c hcm)) hρ hσ (fun y hy => hv y ⟨c, hm c hcm, hy⟩)
        · obtain rfl := List.mem_singleton.1 hc
          exact iha σ Γ x hx (hs.1 c (hm c hcm)) (ha.1 c (hm c hcm)) hρ hσ (fun y hy => hv y ⟨c, hm c hcm, hy⟩)) (fun c hcm => by
        have := sorted_typed hR hρ c (hs.1 c (hm c hcm))
        rwa [ho.2 c.ty ⟨c, hm c hcm, rfl⟩] at this)
    refine ⟨k + 1, .bool true, ?_⟩
    rw [rk_or f1 f2 f3, hk k (Nat.le_refl _), if_pos]
    simp [h]
  | @prim fu ρ f t args _ hf hfu iha =>
    intro σ Γ x hx hs ha hρ hσ hv
    refine some_value hx hs ha hρ hσ hv ?_
    simp only [rktSx, Option.bind_eq_bind, Option.bind_eq_some_iff, Option.some.injEq] at hx
    obtain ⟨hd, hhd, xs, hxs, rfl⟩ := hx
    obtain ⟨k1, h1⟩ := hargs iha hxs hs ha hρ hσ hv
    simp only [Expr.sorted, Bool.and_eq_true, sorteds_iff] at hs
    have hty : ∀ a ∈ args, OfTy a.ty (eval I ρ a) := fun a ham => sorted_typed hR hρ a (hs.1 a ham)
    have htys : OfTys (args.map Expr.ty) (args.map (eval I ρ)) := ofTys_evals hty
    have hsf := hs.2
    simp only [opSorted, decide_eq_true_eq] at hsf
    rcases fileSig_some hsf with ⟨d, hdm, e, _⟩ | hp
    · exact absurd e (hf d hdm)
    obtain ⟨hd', hhd', _, hspec, hres⟩ := prim_ok hp
    have e : hd' = hd := by
      rw [List.head?_map] at hhd'
      rw [hhd'] at hhd
      exact Option.some.inj hhd
    subst e
    obtain ⟨f1, f2, f3⟩ := hhead hσ hres
    rcases prim_total hp hhd' htys with ⟨_, v, _, k2, h2⟩ | ⟨h, _⟩
    · refine ⟨k1 + k2 + 1, v, ?_⟩
      rw [rk_app f1 f2 f3 hspec, h1 _ (by omega), Option.bind_some, hM.imports]
      exact h2 k1 fu
    · exact absurd h hfu
  | fn _ hd hr hb _ iha ih => exact hcall hd hb (.inl ⟨hr, rfl⟩) iha ih
  | fn_rec _ hd hr hb _ iha ih => exact hcall hd hb (.inr ⟨hr, rfl⟩) iha ih

end Rkt
end Metalift
