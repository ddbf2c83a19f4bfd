import Verif.PLlmDissolve
import Verif.PLlmLoop
import Verif.PTenModel
/-
C74: the functions verified for `dissolve_blend_8`; a concrete solution.
-/
namespace Metalift.Llm.Dis
open Metalift Metalift.Llm Metalift.Ten

theorem closure_congr {I : Interp} {d : FnDecl} (hd : LamOk d) {ρ σ : Env} (ho : ρ "opacity" = σ "opacity") (hr : ρ "rand_cons" = σ "rand_cons") :
    closure I ρ d = closure I σ d := by
  obtain ⟨p, q, b, hp, hb, hpq, hp', hq', hv, hc⟩ := hd.shape
  funext x y
  simp only [closure, hp, hb, Option.some.injEq]
  refine eval_congr I b fun z hz => ?_
  have := hv z hz
  simp only [List.mem_cons, List.not_mem_nil, or_false, not_or] at this
  rcases this with rfl | rfl | rfl | rfl <;> simp only [Env.set] <;> split <;> (try split) <;> first | rfl | assumption | contradiction

theorem valueIn_congr {I : Interp} {L : List FnDecl} (hL : ∀ d ∈ L, LamOk d) {ρ σ : Env} (ho : ρ "opacity" = σ "opacity")
    (hr : ρ "rand_cons" = σ "rand_cons") : ∀ e : Expr, (∀ x ∈ e.vars, ρ x = σ x) → valueIn I L ρ e = valueIn I L σ e := by
  intro e
  induction e using Expr.ind with
  | hv n t => intro h; rw [valueIn, valueIn, h n (by simp [Expr.vars])]
  | hl l => intro _; rw [valueIn, valueIn]
  | hn op t args ih =>
    intro h
    replace h : ∀ x ∈ Expr.varss args, ρ x = σ x := h
    have key : valuesIn I L ρ args = valuesIn I L σ args := by
      induction args with
      | nil => rw [valuesIn, valuesIn]
      | cons a as ih' =>
        simp only [Expr.varss, List.mem_append] at h
        rw [valuesIn, valuesIn, ih a (List.mem_cons_self ..) (fun x hx => h x (.inl hx)),
          ih' (fun e he => ih e (List.mem_cons_of_mem _ he)) (fun x hx => h x (.inr hx))]
    by_cases hcall : ∃ f, op = .call f
    · obtain ⟨f, rfl⟩ := hcall
      by_cases hsh : ∃ a b g tg, args = [a, b, .var g tg]
      · obtain ⟨a, b, g, tg, rfl⟩ := hsh
        simp only [Expr.varss, List.mem_append, Expr.vars] at h
        rw [valueIn, valueIn, ih a (by simp) (fun x hx => h x (.inl hx)), ih b (by simp) (fun x hx => h x (.inr (.inl hx))),
          h g (by simp)]
        have hfd : ∀ {α : Type} (k : (Int → Int → Option Val) → Option α),
            ((L.find? (fun d => decide (d.name = g))).bind fun d => k (closure I ρ d)) =
              (L.find? (fun d => decide (d.name = g))).bind fun d => k (closure I σ d) := by
          intro α k
          cases hd : L.find? (fun d => decide (d.name = g)) with
          | none => rfl
          | some d => simp only [Option.bind_some]; rw [closure_congr (hL d (find_lam hd).1) ho hr]
        cases valueIn I L σ a with
        | none => rfl
        | some v => cases valueIn I L σ b with
          | none => rfl
          | some w =>
            simp only [Option.bind_eq_bind]
            rw [hfd (fun c => (matOf v).bind fun m => (matOf w).bind fun n => selectMat c m n),
              hfd (fun c => (vecOf v).bind fun m => (vecOf w).bind fun n => select c m n)]
      · have hsh : ∀ (a b : Expr) (g : String) (tg : Ty), args = [a, b, .var g tg] → False := fun a b g tg he => hsh ⟨a, b, g, tg, he⟩
        rw [valueIn.eq_4 (x_1 := hsh), valueIn.eq_4 (x_1 := hsh), key]
    · have hcall : ∀ f, op ≠ .call f := fun f hf => hcall ⟨f, hf⟩
      have hx : ∀ τ, valueIn I L τ (.node op t args) = (valuesIn I L τ args).map (evalOp I op) := by
        intro τ
        cases op <;> first | exact absurd rfl (hcall _) | (rw [valueIn] <;> simp)
      rw [hx, hx, key]

/-- The variables of the function where a solution is evaluated. -/
theorem fnEnv_value {ps : List (String × Ty)} {val : String → Val} : ∀ {p : String × Ty}, p ∈ ps →
    fnEnv (ps.map Prod.fst) (ps.map fun p => val p.1) p.1 = val p.1 := by
  intro p hp
  have key : ∀ ps : List (String × Ty), p ∈ ps → ((ps.map Prod.fst).zip (ps.map fun p => val p.1)).lookup p.1 = some (val p.1) := by
    intro ps
    induction ps with
    | nil => intro h; simp at h
    | cons q qs ih =>
      intro h
      simp only [List.map_cons, List.zip_cons_cons, List.lookup]
      by_cases he : p.1 = q.1
      · simp [he]
      · rw [beq_false_of_ne he]
        rcases List.mem_cons.1 h with rfl | h
        · exact absurd rfl he
        · exact ih h
  rw [fnEnv, key ps hp]; rfl

theorem fnEnv_name {ps : List (String × Ty)} {val : String → Val} {g : String} (hg : g ∉ ps.map Prod.fst) :
    fnEnv (ps.map Prod.fst) (ps.map fun p => val p.1) g = .fn g := by
  have key : ∀ ps : List (String × Ty), g ∉ ps.map Prod.fst → ((ps.map Prod.fst).zip (ps.map fun p => val p.1)).lookup g = none := by
    intro ps
    induction ps with
    | nil => intro _; rfl
    | cons q qs ih =>
      intro h
      simp only [List.map_cons, List.mem_cons, not_or] at h
      simp only [List.map_cons, List.zip_cons_cons, List.lookup]
      rw [beq_false_of_ne h.1]
      exact ih h.2
  rw [fnEnv, key ps hg]; rfl

/-- What is required of a function of a solution, besides `LamOk` of the lambda expressions in it: it has the parameters `opacity` and `rand_cons`, no
parameter has the name of a lambda expression, and it does not call the functions of the changed language. -/
structure FnOk (L : List FnDecl) (D : FnDecl) (b : Expr) : Prop where
  body : D.body = some b
  named : hasPart "select_two_args_arg".toList D.name.toList = false
  opacity : ("opacity", .int) ∈ D.params
  rand : ("rand_cons", .int) ∈ D.params
  apart : ∀ d ∈ L, d.name ∉ D.params.map Prod.fst
  calls : ∀ f ∈ b.callNames, f ∉ ["dissolve_matrix_selection_two_args", "dissolve_selection_two_args"]

theorem extend_fn {D : FnDecl} (h : hasPart "select_two_args_arg".toList D.name.toList = false) : extend D = D := by
  rw [extend, if_neg]
  rw [show argName = "select_two_args_arg" from rfl, h]
  exact Bool.false_ne_true

/-- C74: the predicate verified for a loop has, on all arguments, the value that the function of the solution has in Python.  Partial as
`C74_meaning_partial`. -/
theorem C74_invariant_partial {I : Interp} {L : List FnDecl} (hI : Defs I L) (hL : ∀ d ∈ L, LamOk d) {D : FnDecl} {b : Expr} (hD : FnOk L D b)
    (hh : DeclHolds I (rewriteDecl (extend D))) {val : String → Val} (hv : ∀ p ∈ D.params, Smt.OfTy p.2 (val p.1)) {r : Val}
    (hr : valueIn I L (fnEnv (D.params.map Prod.fst) (D.params.map fun p => val p.1)) b = some r) :
    I.fn D.name (D.params.map fun p => val p.1) = r := by
  rw [extend_fn hD.named] at hh
  obtain ⟨o, ho⟩ := hv _ hD.opacity
  obtain ⟨rc, hrc⟩ := hv _ hD.rand
  have hv' : ∀ p ∈ (rewriteDecl D).params, Smt.OfTy p.2 (val p.1) := hv
  have eq := hh _ (ofTys_map hv') (rewrite b) (by simp [rewriteDecl, hD.body])
  refine (show I.fn D.name (D.params.map fun p => val p.1) = _ from eq).trans ?_
  exact C74_meaning_partial hI hL ((fnEnv_value hD.opacity).trans ho) ((fnEnv_value hD.rand).trans hrc)
    (fun d hd => fnEnv_name (hD.apart d hd)) b hD.calls r hr

/-- C74: the predicate verified for the summary of `dissolve_blend_8` says exactly that the result is the value of the function of the solution in
Python.  Partial as `C74_meaning_partial`. -/
theorem C74_summary_partial {I : Interp} {L : List FnDecl} (hI : Defs I L) (hL : ∀ d ∈ L, LamOk d) {D : FnDecl} {b : Expr} (hD : FnOk L D b)
    (hname : D.name = "dissolve_blend_8") {out : String × Ty} (h1 : out.1 ∉ D.params.map Prod.fst) (h2 : out.1 ∉ b.vars) (h3 : ∀ d ∈ L, d.name ≠ out.1)
    (hh : DeclHolds I (rewriteDecl (extend (process "dissolve_blend_8" out D)))) {val : String → Val} (hv : ∀ p ∈ D.params, Smt.OfTy p.2 (val p.1))
    {r v : Val} (hvt : Smt.OfTy out.2 v) (hr : valueIn I L (fnEnv (D.params.map Prod.fst) (D.params.map fun p => val p.1)) b = some r) :
    I.fn "dissolve_blend_8_ps" ((D.params.map fun p => val p.1) ++ [v]) = .bool (decide (v = r)) := by
  have hproc : process "dissolve_blend_8" out D = processPs out D := by
    simp [process, hname]
  have hpn : (processPs out D).name = "dissolve_blend_8_ps" := by simp only [processPs, hname]; decide
  rw [hproc, extend_fn (by rw [hpn]; decide +kernel)] at hh
  obtain ⟨o, ho⟩ := hv _ hD.opacity
  obtain ⟨rc, hrc⟩ := hv _ hD.rand
  have hl : (D.params.map Prod.fst).length = (D.params.map fun p => val p.1).length := by simp
  have ne : ∀ x, x ∈ D.params.map Prod.fst → x ≠ out.1 := fun x hx he => h1 (he ▸ hx)
  have mo : "opacity" ∈ D.params.map Prod.fst := List.mem_map.2 ⟨_, hD.opacity, rfl⟩
  have mr : "rand_cons" ∈ D.params.map Prod.fst := List.mem_map.2 ⟨_, hD.rand, rfl⟩
  have eq := hh ((D.params.map fun p => val p.1) ++ [v])
    (by simp only [rewriteDecl, processPs, List.map_append, List.map_cons, List.map_nil]; exact ofTys_append hvt (ofTys_map hv))
    (mkEq (.var out.1 out.2) (rewrite b)) (by
      simp only [rewriteDecl, processPs, hD.body, Option.map_some, mkEq]
      rw [rewrite_node (by simp)]
      rfl)
  rw [show (rewriteDecl (processPs out D)).name = "dissolve_blend_8_ps" from hpn] at eq
  rw [eq]
  simp only [rewriteDecl, processPs, List.map_append, List.map_cons, List.map_nil, mkEq, eval, evals, evalOp]
  rw [fnEnv_result hl h1]
  have hr' : valueIn I L (fnEnv (D.params.map Prod.fst ++ [out.1]) ((D.params.map fun p => val p.1) ++ [v])) b = some r := by
    rw [← hr]
    exact valueIn_congr hL (fnEnv_append hl (ne _ mo)) (fnEnv_append hl (ne _ mr)) b fun x hx => fnEnv_append hl fun he => h2 (he ▸ hx)
  rw [C74_meaning_partial hI hL (((fnEnv_append hl (ne _ mo)).trans (fnEnv_value hD.opacity)).trans ho)
    (((fnEnv_append hl (ne _ mr)).trans (fnEnv_value hD.rand)).trans hrc)
    (fun d hd => (fnEnv_append hl (h3 d hd)).trans (fnEnv_name (hD.apart d hd))) b hD.calls r hr']

/-! ### The functions passed as arguments -/

/-- C74: the lists that say which function is passed to which keep their lambda expressions, and name the functions that are called after the change.
Partial: for functions that are not called `select_two_args_arg` themselves, see below. -/
theorem C74_in_calls_partial (cs : List (String × String)) (h : ∀ c ∈ cs, c.2 ∉ ["matrix_selection_two_args", "selection_two_args", "select_two_args_arg"])
    (f g : String) : (f, g) ∈ renameInCalls cs ↔ ∃ f', (f', g) ∈ cs ∧ f = (if f' = "matrix_selection_two_args" then "dissolve_matrix_selection_two_args"
      else if f' = "selection_two_args" then "dissolve_selection_two_args"
      else if f' = "select_two_args_arg" then "dissolve_select_two_args_arg" else f') := by
  have h2 : ∀ c ∈ cs, renameIn c.2 = c.2 := by
    intro c hc
    have := h c hc
    simp only [List.mem_cons, List.not_mem_nil, or_false, not_or] at this
    simp only [renameIn, matName, selName, argName, this.1, this.2.1, this.2.2, if_false]
  simp only [renameInCalls, List.mem_map]
  constructor
  · rintro ⟨c, hc, he⟩
    simp only [Prod.mk.injEq] at he
    rw [h2 c hc] at he
    exact ⟨c.1, he.2 ▸ hc, he.1.symm⟩
  · rintro ⟨f', hc, rfl⟩
    exact ⟨_, hc, by rw [h2 _ hc]; rfl⟩

/-- C74 fails for a function of the solution that is called `select_two_args_arg`: the list then names a function that is not in the file. -/
theorem C74_in_calls_refuted (ps inv : List FnDecl) (h : ∀ d ∈ ps ++ inv, d.name ≠ "dissolve_select_two_args_arg") :
    ("dissolve_matrix_selection_two_args", "dissolve_select_two_args_arg") ∈ renameInCalls [("matrix_selection_two_args", "select_two_args_arg")] ∧
      ∀ f ∈ attemptFns ps inv, f.name ≠ "dissolve_select_two_args_arg" := by
  refine ⟨by decide +kernel, fun f hf => ?_⟩
  obtain ⟨d, hd, rfl⟩ := List.mem_map.1 hf
  have := h d (distinct_sub _ _ _ hd)
  rw [extend]; split <;> exact this

/-! ### A concrete solution -/

/-- `lambda int_x, int_y: int_y if opacity - (rand_cons % 100 + 1) // 100 >= 0 else int_x`. -/
def exBody : Expr :=
  mkIte .int (.node .ge .bool [.node .sub .int [.var "opacity" .int,
    .node .div .int [.node .add .int [.node .mod .int [.var "rand_cons" .int, intLit 100], intLit 1], intLit 100]], intLit 0])
    (.var "int_y" .int) (.var "int_x" .int)
@[inherit_doc exBody] def exLam : FnDecl := ⟨"select_two_args_arg_0", .int, [("int_x", .int), ("int_y", .int)], some exBody, true⟩

/-- `matrix_selection_two_args(base, active, <the lambda expression>)`. -/
def exCall : Expr := mkCall "matrix_selection_two_args" (.list (.list .int))
  [.var "base" (.list (.list .int)), .var "active" (.list (.list .int)), .var "select_two_args_arg_0" (.fn [.int, .int, .int])]
/-- `def dissolve_blend_8(active, base, opacity, rand_cons): return matrix_selection_two_args(base, active, ...)`. -/
def exFn : FnDecl := ⟨"dissolve_blend_8", .list (.list .int),
  [("active", .list (.list .int)), ("base", .list (.list .int)), ("opacity", .int), ("rand_cons", .int)], some exCall, true⟩

theorem exLam_ok : LamOk exLam where
  named := ⟨"_0", by decide⟩
  shape := ⟨"int_x", "int_y", exBody, rfl, rfl, by decide, by decide, by decide, by decide +kernel, by decide +kernel⟩

theorem exFn_ok : FnOk [exLam] exFn exCall where
  body := rfl
  named := by decide +kernel
  opacity := by decide
  rand := by decide
  apart := by intro d hd; rw [List.mem_singleton] at hd; subst hd; decide
  calls := by decide +kernel

/-- The value of the lambda expression where the four variables have the values. -/
def exVal (vs : List Val) : Val := eval (stdInterp false (fun _ _ => .int 0) Int.fdiv) (fnEnv ["int_x", "int_y", "opacity", "rand_cons"] vs) exBody

/-- The standard meaning of the target language with the lambda expression and the summary. -/
def exInterp : Interp :=
  let I := stdInterp false (fun _ vs => exVal vs) Int.fdiv
  { I with fn := fun f vs => if f = "select_two_args_arg_0" then exVal vs
                             else if f = "dissolve_blend_8_ps" then .bool (decide (vs.getD 4 (.int 0) = I.fn "dissolve_matrix_selection_two_args"
                               [vs.getD 1 (.int 0), vs.getD 0 (.int 0), vs.getD 2 (.int 0), vs.getD 3 (.int 0), .fn "select_two_args_arg_0"]))
                             else I.fn f vs }

/-- The value of an expression depends on the functions that it calls only. -/
theorem eval_fn_congr {I J : Interp} (ha : I.apply = J.apply) (hd : I.idiv = J.idiv) (hm : I.imod = J.imod) (hc : I.choose = J.choose) {ρ : Env} :
    ∀ e : Expr, (∀ f ∈ e.callNames, I.fn f = J.fn f) → eval I ρ e = eval J ρ e := by
  obtain ⟨fI, aI, dI, mI, cI⟩ := I
  obtain ⟨fJ, aJ, dJ, mJ, cJ⟩ := J
  simp only at ha hd hm hc
  subst ha hd hm hc
  intro e
  induction e using Expr.ind with
  | hv n t => intro _; rfl
  | hl l => intro _; rfl
  | hn op t args ih =>
    intro h
    have key : (∀ f ∈ Expr.callNamess args, fI f = fJ f) → evals ⟨fI, aI, dI, mI, cI⟩ ρ args = evals ⟨fJ, aI, dI, mI, cI⟩ ρ args := by
      intro h
      have : ∀ es : List Expr, (∀ e ∈ es, (∀ f ∈ e.callNames, fI f = fJ f) → eval ⟨fI, aI, dI, mI, cI⟩ ρ e = eval ⟨fJ, aI, dI, mI, cI⟩ ρ e) →
          (∀ f ∈ Expr.callNamess es, fI f = fJ f) → evals ⟨fI, aI, dI, mI, cI⟩ ρ es = evals ⟨fJ, aI, dI, mI, cI⟩ ρ es := by
        intro es
        induction es with
        | nil => intro _ _; rfl
        | cons a as ih' =>
          intro H h
          simp only [Expr.callNamess, List.mem_append] at h
          rw [evals, evals, H a (List.mem_cons_self ..) (fun f hf => h f (.inl hf)),
            ih' (fun e he => H e (List.mem_cons_of_mem _ he)) (fun f hf => h f (.inr hf))]
      exact this args ih h
    rw [eval, eval]
    cases op
    case call f =>
      simp only [Expr.callNames, List.mem_cons] at h
      rw [key (fun g hg => h g (.inr hg)), evalOp_fn, evalOp_fn]
      exact congrFun (h f (.inl rfl)) _
    all_goals
      rw [key h]
      generalize evals ⟨fJ, aI, dI, mI, cI⟩ ρ args = vs
      rcases vs with _ | ⟨a, _ | ⟨b, _ | ⟨c, _ | ⟨d, vs⟩⟩⟩⟩ <;> rfl

theorem ex_std : ∀ f, f ≠ "select_two_args_arg_0" → f ≠ "dissolve_blend_8_ps" → exInterp.fn f = (stdInterp false (fun _ vs => exVal vs) Int.fdiv).fn f := by
  intro f h1 h2
  funext vs
  simp only [exInterp, if_neg h1, if_neg h2]

theorem ex_defs : Defs exInterp [exLam] where
  prims := by
    have P := std_prims false (fun _ vs => exVal vs) Int.fdiv
    obtain ⟨⟨a1, a2, a3, a4, a5, a6, a7, a8, a9⟩, ⟨b1, b2, b3, b4, b5, b6, b7, b8, b9⟩, ⟨c1, c2, c3, c4, c5, c6, c7, c8, c9⟩, d, e⟩ := P
    exact ⟨⟨a1, a2, a3, a4, a5, a6, a7, a8, a9⟩, ⟨b1, b2, b3, b4, b5, b6, b7, b8, b9⟩, ⟨c1, c2, c3, c4, c5, c6, c7, c8, c9⟩, d, e⟩
  vec := by
    obtain ⟨b, hb, H⟩ := dissolveSelection_holds (drop := false) (ap := fun _ vs => exVal vs) (idiv := Int.fdiv)
    refine ⟨b, hb, fun ρ hρ => ?_⟩
    rw [ex_std _ (by decide) (by decide), H ρ hρ]
    refine (eval_fn_congr (I := exInterp) (J := stdInterp false (fun _ vs => exVal vs) Int.fdiv) rfl rfl rfl rfl _ fun f hf => ?_).symm
    have : ∀ b, dissolveSelection.body = some b → ∀ f ∈ b.src.callNames, f ≠ "select_two_args_arg_0" ∧ f ≠ "dissolve_blend_8_ps" := by
      intro b hb; cases hb; decide +kernel
    exact ex_std f (this b hb f hf).1 (this b hb f hf).2
  mat := by
    obtain ⟨b, hb, H⟩ := dissolveMatrixSelection_holds (drop := false) (ap := fun _ vs => exVal vs) (idiv := Int.fdiv)
    refine ⟨b, hb, fun ρ hρ => ?_⟩
    rw [ex_std _ (by decide) (by decide), H ρ hρ]
    refine (eval_fn_congr (I := exInterp) (J := stdInterp false (fun _ vs => exVal vs) Int.fdiv) rfl rfl rfl rfl _ fun f hf => ?_).symm
    have : ∀ b, dissolveMatrixSelection.body = some b → ∀ f ∈ b.src.callNames, f ≠ "select_two_args_arg_0" ∧ f ≠ "dissolve_blend_8_ps" := by
      intro b hb; cases hb; decide +kernel
    exact ex_std f (this b hb f hf).1 (this b hb f hf).2
  lams := by
    intro d hd
    rw [List.mem_singleton] at hd
    subst hd
    intro vs _ b hb
    cases hb
    show exVal vs = _
    rw [exVal]
    rfl
  apply := by
    intro d hd vs
    rw [List.mem_singleton] at hd
    subst hd
    rfl

/-- The summary satisfies the equation that is verified. -/
theorem ex_holds : DeclHolds exInterp (rewriteDecl (extend (process "dissolve_blend_8" ("out", .list (.list .int)) exFn))) := by
  intro vs hvs b hb
  have e1 : (rewriteDecl (extend (process "dissolve_blend_8" ("out", .list (.list .int)) exFn))).body = some (mkEq (.var "out" (.list (.list .int)))
      (mkCall "dissolve_matrix_selection_two_args" (.list (.list .int)) [.var "base" (.list (.list .int)), .var "active" (.list (.list .int)),
        .var "opacity" .int, .var "rand_cons" .int, .var "select_two_args_arg_0" (.fn [.int, .int, .int])])) := by rfl
  rw [e1] at hb
  cases hb
  have e2 : (rewriteDecl (extend (process "dissolve_blend_8" ("out", .list (.list .int)) exFn))).params.map Prod.snd =
      [.list (.list .int), .list (.list .int), .int, .int, .list (.list .int)] := by rfl
  rw [e2] at hvs
  rcases vs with _ | ⟨v1, _ | ⟨v2, _ | ⟨v3, _ | ⟨v4, _ | ⟨v5, _ | ⟨_, _⟩⟩⟩⟩⟩⟩ <;> simp only [Smt.OfTys, and_false] at hvs
  rfl

/-- C74 for a concrete solution: the predicate that is verified for an image of two pixels says what the function returns in Python. -/
theorem C74_example (out : List (List Int)) :
    exInterp.fn "dissolve_blend_8_ps" [matV [[8, 9]], matV [[3, 4]], .int 5, .int 41, matV out] = .bool (decide (matV out = matV [[8, 9]])) ∧
    exInterp.fn "dissolve_blend_8_ps" [matV [[8, 9]], matV [[3, 4]], .int (-1), .int 41, matV out] = .bool (decide (matV out = matV [[3, 4]])) := by
  have mt : ∀ m, Smt.OfTy (.list (.list .int)) (matV m) := by
    intro m
    refine ⟨m.map vecV, rfl, fun w hw => ?_⟩
    obtain ⟨r, -, rfl⟩ := List.mem_map.1 hw
    refine ⟨r.map .int, rfl, fun w hw => ?_⟩
    obtain ⟨i, -, rfl⟩ := List.mem_map.1 hw
    exact ⟨i, rfl⟩
  have key : ∀ (o : Int) (r : Val), valueIn exInterp [exLam] (fnEnv ["active", "base", "opacity", "rand_cons"]
      [matV [[8, 9]], matV [[3, 4]], .int o, .int 41]) exCall = some r →
      exInterp.fn "dissolve_blend_8_ps" [matV [[8, 9]], matV [[3, 4]], .int o, .int 41, matV out] = .bool (decide (matV out = r)) := by
    intro o r hr
    exact C74_summary_partial ex_defs (fun d hd => by rw [List.mem_singleton] at hd; subst hd; exact exLam_ok) exFn_ok rfl
      (out := ("out", .list (.list .int))) (by decide) (by decide +kernel)
      (fun d hd => by rw [List.mem_singleton] at hd; subst hd; decide) ex_holds
      (val := fun x => if x = "active" then matV [[8, 9]] else if x = "base" then matV [[3, 4]] else if x = "opacity" then .int o else .int 41)
      (by
        intro p hp
        simp only [exFn, List.mem_cons, List.not_mem_nil, or_false] at hp
        rcases hp with rfl | rfl | rfl | rfl
        · exact mt _
        · exact mt _
        · exact ⟨o, rfl⟩
        · exact ⟨41, rfl⟩) (mt out) hr
  exact ⟨key _ _ (by rfl), key _ _ (by rfl)⟩

/-- The second attempt for this solution. -/
example : ∃ fns, (attempts [exLam, exFn] [[], []])[1]? = some fns ∧ ∃ f ∈ fns, f.name = "select_two_args_arg_0" ∧
    f.params.map Prod.fst = ["int_x", "int_y", "opacity", "rand_cons", "opacity", "rand_cons"] := by
  refine ⟨_, rfl, _, List.mem_cons_self .., ?_, ?_⟩ <;> decide +kernel

end Metalift.Llm.Dis
