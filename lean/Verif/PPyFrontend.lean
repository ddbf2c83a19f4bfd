import Verif.PySound
/-
Properties C01-C08 of the Python frontend.
-/
namespace Metalift

/-! ### A standard interpretation for the examples -/

/-- The primitives emitted by the frontend. -/
def primFn (f : String) (vs : List Val) : Val :=
  if f = "list_length" then match vs with
    | [.list l] => .int l.length
    | _ => .int 0
  else if f = "list_get" then match vs with
    | [.list l, .int i] => (pyIndex l i).getD (.int 0)
    | _ => .int 0
  else if f = "list_empty" then .list []
  else if f = "list_append" then match vs with
    | [.list l, v] => .list (l ++ [v])
    | _ => .list []
  else if f = "set-singleton" then match vs with
    | [v] => .list [v]
    | _ => .list []
  else if f = "set-union" then match vs with
    | [.list l, .list [v]] => .list (pySetAdd l v)
    | _ => .list []
  else if f = "set-minus" then match vs with
    | [.list l, .list [v]] => .list (l.filter (fun w => decide (w ≠ v)))
    | _ => .list []
  else .int 0

/-- Names of the primitives. -/
def primNames : List String :=
  ["list_length", "list_get", "list_empty", "list_append", "set-singleton", "set-union", "set-minus"]

/-- Interpretation with the given predicates. -/
def stdI (preds : List (String × (List Val → Bool))) : Interp where
  fn := fun f vs => match preds.lookup f with
    | some p => .bool (p vs)
    | none => primFn f vs
  apply := fun _ _ => .int 0
  idiv := Int.fdiv
  imod := Int.fmod
  choose := fun vs => vs.headD (.int 0)

theorem stdI_prims {preds : List (String × (List Val → Bool))}
    (h : ∀ f ∈ primNames, preds.lookup f = none) : PyPrims (stdI preds) := by
  have hf : ∀ f ∈ primNames, ∀ vs, (stdI preds).fn f vs = primFn f vs := by
    intro f hf vs
    simp [stdI, h f hf]
  refine ⟨?_, ?_, ?_, ?_, ?_, ?_, ?_⟩
  · intro vs; rw [hf _ (by simp [primNames])]; simp [primFn]
  · intro vs i v hv; rw [hf _ (by simp [primNames])]; simp only [PyOps.index] at hv; simp [primFn, hv]
  · rw [hf _ (by simp [primNames])]; simp [primFn]
  · intro vs v; rw [hf _ (by simp [primNames])]; simp [primFn]
  · intro vs v
    rw [hf "set-singleton" (by simp [primNames]), hf _ (by simp [primNames])]; simp [primFn, PyOps.setAdd]
  · intro vs v ws hw
    rw [hf "set-singleton" (by simp [primNames]), hf _ (by simp [primNames])]
    simp only [PyOps.setRemove, pySetRemove] at hw
    split at hw
    · simp at hw; simp [primFn, ← hw]
    · cases hw
  · intro a b c h
    simp only [PyOps.floordiv, pyFloordiv] at h
    split at h
    · cases h
    · exact Option.some.inj h

/-- The store a call starts with: exactly the parameters are bound. -/
def PyFunc.argStore (F : PyFunc) (ρ : Env) : Store := fun x =>
  if x ∈ F.ctx.params then some (ρ x) else none

/-- The contract promised to the user: the postcondition holds of the arguments and the result. -/
def PyFunc.contract (F : PyFunc) (I : Interp) (ρ : Env) (v : Val) : Prop :=
  (I.fn F.ctx.ps (F.ctx.params.map ρ ++ [v])).asBool = true

/-- Executable runs with bounded loop iterations (only used to exhibit runs). -/
def exec [PyOps] (I : Interp) : Nat → Store → Stmt → Option Outcome
  | _, s, .skip => some (.normal s)
  | 0, _, _ => none
  | n + 1, s, .seq a b => match exec I n s a with
    | some (.normal s') => exec I n s' b
    | o => o
  | _, s, .assign x e => match pyEval I s e with
    | some v => some (.normal (s.set x v))
    | none => none
  | _, s, .append x e => match s x, pyEval I s e with
    | some (.list vs), some v => some (.normal (s.set x (.list (vs ++ [v]))))
    | _, _ => none
  | _, _, .setAdd _ _ => none
  | _, _, .setRemove _ _ => none
  | _, s, .ret e => (pyEval I s e).map .returned
  | n + 1, s, .ite c t e => match pyEval I s c with
    | some (.bool true) => exec I n s t
    | some (.bool false) => exec I n s e
    | _ => none
  | n + 1, s, .loop l c b => match pyEval I s c with
    | some (.bool false) => some (.normal s)
    | some (.bool true) => match exec I n s b with
      | some (.normal s') => exec I n s' (.loop l c b)
      | o => o
    | _ => none

theorem exec_sound [PyOps] {I : Interp} : ∀ {n : Nat} {s : Store} {st : Stmt} {o : Outcome},
    exec I n s st = some o → Exec I s st o := by
  intro n
  induction n with
  | zero =>
    intro s st o h
    cases st <;> simp [exec] at h
    subst h; exact .skip
  | succ n ih =>
    intro s st o h
    cases st with
    | skip => simp [exec] at h; subst h; exact .skip
    | seq a b =>
      simp only [exec] at h
      split at h
      · next s' h1 => exact .seq (ih h1) (ih h)
      · next hn =>
        cases o with
        | normal s' => exact absurd h (hn s')
        | returned v => exact .seqRet (ih h)
    | assign x e =>
      simp only [exec] at h
      split at h
      · next v hv => simp at h; subst h; exact .assign hv
      · cases h
    | append x e =>
      simp only [exec] at h
      split at h
      · next vs v h1 h2 => simp at h; subst h; exact .append h1 h2
      · cases h
    | setAdd x e => simp [exec] at h
    | setRemove x e => simp [exec] at h
    | ret e =>
      simp only [exec, Option.map_eq_some_iff] at h
      obtain ⟨v, hv, rfl⟩ := h
      exact .ret hv
    | ite c t e =>
      simp only [exec] at h
      split at h
      · next hc => exact .iteT hc (ih h)
      · next hc => exact .iteF hc (ih h)
      · cases h
    | loop l c b =>
      simp only [exec] at h
      split at h
      · next hc => simp at h; subst h; exact .loopF hc
      · next hc =>
        split at h
        · next s' h1 => exact .loopT hc (ih h1) (ih h)
        · next hn =>
          cases o with
          | normal s' => exact absurd h (hn s')
          | returned v => exact .loopRet hc (ih h)
      · cases h

/-! ### C01 -/

theorem pyfunc_covered {F : PyFunc} {pre : List Expr} {w : World} {I : Interp} (hI : PyPrims I)
    (hsup : F.body.supported F.ctx.types (F.ctx.params ++ Expr.varss pre) true = true)
    (hcall : F.call { postconditions := pre } = some w)
    (hval : ∀ a ∈ w.asserts, valid I a) {ρ : Env} (hρ : ∀ p ∈ pre, holds I ρ p) {v : Val}
    (hrun : Exec I (F.argStore ρ) F.body (.returned v)) : Covered F.ctx I w.asserts ρ v := by
  unfold PyFunc.call at hcall
  simp only at hcall
  split at hcall
  · cases hcall
  · next σ hσ =>
    simp only [Option.some.injEq] at hcall
    subst hcall
    simp only [List.nil_append]
    refine supported_covered (C := F.ctx) hI (typeInv_any _ _) trivial (varsIn_any _ _) (fun _ => trivial) (.inl (fun _ _ => trivial)) hsup (fun x hx => List.mem_append_left _ hx) rfl (fun _ => rfl)
      ?_ ?_ hσ ?_ ?_ (by exact fun a ha ρ' _ => hval a (by simpa using ha) ρ') hrun
    · refine ⟨by rw [bindArgs_eq]; exact havoc_nodup _ _ _ List.nodup_nil, fun x e he => ?_⟩
      simp only [bindArgs_eq, havoc_read] at he
      split at he
      · next hx =>
        simp at he; subst he
        refine ⟨rfl, by simp [Expr.OnlyInt, Expr.litTys], ?_, ?_⟩
        · intro y hy; simp [Expr.vars] at hy; subst hy; simp [hx]
        · intro y t h; simp at h; exact h.1.symm
      · simp [SymVars.read] at he
    · intro p hp y hy
      simp at hp
      exact List.mem_append_right _ (Expr.mem_varss.2 ⟨p, hp, hy⟩)
    · intro x e u he hu
      simp only [bindArgs_eq, havoc_read] at he
      simp only [PyFunc.argStore] at hu
      split at he
      · next hx => simp at he; subst he; simp [hx] at hu; simp [eval, hu]
      · next hx => simp [hx] at hu
    · simpa using hρ

/-- Every obligation of a valid verification condition is valid. -/
theorem vc_asserts_valid {w : World} {vc : Expr} {I : Interp}
    (hlits : ∀ a ∈ w.asserts, a.OnlyInt) (hvc : w.vc = some vc) (hval : valid I vc) :
    ∀ a ∈ w.asserts, valid I a := by
  intro a ha ρ'
  have h1 := hval ρ'
  unfold World.vc andObjects at hvc
  rw [init_eq_firstOcc] at hvc
  rcases firstOcc_cover w.asserts [] a ha with ⟨y, hy, _⟩ | ⟨y, hy, hay⟩
  · simp at hy
  · have : holds I ρ' y := by
      revert hvc hy
      generalize firstOcc [] w.asserts = m
      intro hvc hy
      cases m with
      | nil => simp [andExprs] at hvc
      | cons z zs =>
        simp only [andExprs, Option.some.injEq] at hvc
        rw [← hvc, and_fold_holds] at h1
        rcases List.mem_cons.1 hy with rfl | hy
        · exact h1.1
        · exact h1.2 y hy
    unfold holds at *
    rw [onlyInt_eval (hlits a ha) (hlits y (firstOcc_mem _ _ _ hy)) hay]
    exact this

/-- Obligations contain only integer literals when the preconditions do. -/
theorem call_onlyInt {F : PyFunc} {pre : List Expr} {w : World}
    (hcall : F.call { postconditions := pre } = some w) (hpre : ∀ p ∈ pre, p.OnlyInt) :
    ∀ a ∈ w.asserts, a.OnlyInt := by
  unfold PyFunc.call at hcall
  simp only at hcall
  split at hcall
  · cases hcall
  · next σ hσ =>
    simp only [Option.some.injEq] at hcall
    subst hcall
    have := visit_closed closed_onlyInt (fun x t => by simp [Expr.OnlyInt, Expr.litTys]) F.ctx F.body hσ
      (by
        intro q hq
        rw [bindArgs_eq] at hq
        rcases mem_havoc hq with ⟨w, rfl⟩ | hq
        · simp [Expr.OnlyInt, Expr.litTys]
        · cases hq) (by simpa using hpre) (by simp)
    simpa using this.2.2

/-- C01 (partial).  For every function whose body is in the supported fragment (`Stmt.supported`), every
precondition list without boolean literals, every interpretation of the predicates under which
the verification condition handed to the synthesizer is valid and which gives Python's meaning to the
primitives, every input satisfying the preconditions and every terminating run: the postcondition
holds of the arguments and the returned value.

Missing with respect to the full statement: bodies outside the fragment.  The exclusions are needed,
see the `_refuted` theorems of C02, C03, C05 and C06. -/
theorem C01_python_vc_sound_partial (F : PyFunc) (pre : List Expr) (w : World) (vc : Expr) (I : Interp)
    (hI : PyPrims I)
    (hsup : F.body.supported F.ctx.types (F.ctx.params ++ Expr.varss pre) true = true)
    (hlit : ∀ p ∈ pre, p.OnlyInt)
    (hcall : F.call { postconditions := pre } = some w) (hvc : w.vc = some vc) (hval : valid I vc)
    (ρ : Env) (hρ : ∀ p ∈ pre, holds I ρ p) (v : Val)
    (hrun : Exec I (F.argStore ρ) F.body (.returned v)) : F.contract I ρ v := by
  have hv := vc_asserts_valid (call_onlyInt hcall hlit) hvc hval
  exact (pyfunc_covered hI hsup hcall hv hρ hrun).psHolds (fun a ha ρ' _ => hv a ha ρ')

/-! #### Example: counting up to `n` -/

/-- All variables are integers. -/
def intTypes : String → Ty := fun _ => .int
def vi (x : String) : Expr := .var x .int
/-- `a < b`, `a + b` in Python. -/
def pyLt (a b : PyExpr) : PyExpr := .cmp [.lt] [a, b]
def pyAdd (a b : PyExpr) : PyExpr := .bin .add a b

/-- A block. -/
def block : List Stmt → Stmt
  | [] => .skip
  | s :: ss => .seq s (block ss)

/-- Context for a function `f` with integer variables. -/
def intCtx (f : String) (params : List String) : Ctx where
  types := intTypes
  params := params
  ps := f ++ "_ps"
  inv := fun l => f ++ "_inv" ++ toString l

/-- `def f(n): i = 0; while i < n: i = i + 1; return i` -/
def countUp : PyFunc where
  name := "f"
  ctx := intCtx "f" ["n"]
  retTy := .int
  body := block [.assign "i" (.int 0),
    .loop 0 (pyLt (.name "i") (.name "n")) (block [.assign "i" (pyAdd (.name "i") (.int 1))]),
    .ret (.name "i")]

/-- Boolean comparisons. -/
def leB (a b : Int) : Bool := decide (a ≤ b)
def eqB (a b : Int) : Bool := decide (a = b)
theorem leB_iff {a b : Int} : leB a b = true ↔ a ≤ b := decide_eq_true_iff
theorem eqB_iff {a b : Int} : eqB a b = true ↔ a = b := decide_eq_true_iff
theorem leB_false {a b : Int} : leB a b = false ↔ b < a := by simp [leB]
theorem eqB_false {a b : Int} : eqB a b = false ↔ a ≠ b := by simp [eqB]

/-- Invariant `i <= n`, postcondition `r == n`. -/
def countI : Interp := stdI
  [("f_inv0", fun | [n, i] => leB i.asInt n.asInt | _ => false),
   ("f_ps", fun | [n, r] => eqB r.asInt n.asInt | _ => false)]

/-- Precondition `n >= 0`. -/
def countPre : Expr := .node .ge .bool [vi "n", intLit 0]

/-- The verification condition of `countUp`. -/
def countVc : Expr :=
  let lt := Expr.node .lt .bool [vi "i", vi "n"]
  let inv := fun e => mkCall "f_inv0" .bool [vi "n", e]
  mkAnd [mkAnd [mkImplies countPre (inv (intLit 0)),
    mkImplies (mkAnd [mkAnd [countPre, lt], inv (vi "i")]) (inv (.node .add .int [vi "i", intLit 1]))],
    mkImplies (mkAnd [countPre, mkAnd [mkNot lt, inv (vi "i")]]) (mkCall "f_ps" .bool [vi "n", vi "i"])]

theorem countVc_eq : (countUp.call { postconditions := [countPre] }).bind World.vc = some countVc := by
  rfl

theorem countVc_valid : valid countI countVc := by
  intro ρ
  simp [countVc, countPre, holds, mkAnd, mkImplies, mkCall, mkNot, vi, intLit, eval, evals, evalOp, countI, stdI,
    List.lookup, Lit.val, leB_iff, eqB_iff, leB_false]
  omega

/-- Non-vacuity: all hypotheses of C01 hold for `countUp`, and the run for `n = 1` returns. -/
example : ∃ w vc, countUp.call { postconditions := [countPre] } = some w ∧ w.vc = some vc ∧
    valid countI vc ∧ PyPrims countI ∧
    countUp.body.supported countUp.ctx.types (countUp.ctx.params ++ Expr.varss [countPre]) true = true ∧
    (∀ p ∈ [countPre], p.OnlyInt) ∧ (∀ p ∈ [countPre], holds countI (fun _ => .int 1) p) ∧
    Exec countI (countUp.argStore (fun _ => .int 1)) countUp.body (.returned (.int 1)) := by
  have h := countVc_eq
  cases hw : countUp.call { postconditions := [countPre] } with
  | none => rw [hw] at h; cases h
  | some w =>
    rw [hw] at h
    refine ⟨w, countVc, rfl, h, countVc_valid, stdI_prims (by decide), by decide, ?_, by decide, ?_⟩
    · intro p hp t ht
      simp at hp; subst hp
      simp [countPre, Expr.litTys, Expr.litTyss, vi, intLit] at ht
      exact ht
    · exact exec_sound (n := 20) rfl

/-! ### C02-C08: failures of the full statement

`VcSound F` is the full statement of C01 for one function. -/

/-- Acceptance of the verification condition implies the contract on every run. -/
def VcSound (F : PyFunc) : Prop :=
  ∀ (pre : List Expr) (w : World) (vc : Expr) (I : Interp), PyPrims I → (∀ p ∈ pre, p.OnlyInt) →
    F.call { postconditions := pre } = some w → w.vc = some vc → valid I vc →
    ∀ (ρ : Env), (∀ p ∈ pre, holds I ρ p) → ∀ v : Val,
      Exec I (F.argStore ρ) F.body (.returned v) → F.contract I ρ v

theorem not_vcSound {F : PyFunc} {pre : List Expr} {vc : Expr} {I : Interp} {ρ : Env} {v : Val}
    (hI : PyPrims I) (hlit : ∀ p ∈ pre, p.OnlyInt)
    (hvc : (F.call { postconditions := pre }).bind World.vc = some vc) (hval : valid I vc)
    (hpre : ∀ p ∈ pre, holds I ρ p) (hrun : Exec I (F.argStore ρ) F.body (.returned v))
    (hbad : ¬ F.contract I ρ v) : ¬ VcSound F := by
  intro h
  cases hw : F.call { postconditions := pre } with
  | none => rw [hw] at hvc; cases hvc
  | some w =>
    rw [hw] at hvc
    exact hbad (h pre w vc I hI hlit hw hvc hval ρ hpre v hrun)

/-- C02 (partial).  For supported bodies, every run that returns is covered by an obligation `path
condition ⇒ ps(args, e)` of the verification condition: for suitable values of the loop symbols the path
condition holds and `e` denotes the returned value.

Missing: bodies outside the fragment, see the refutations below. -/
theorem C02_returns_covered_partial (F : PyFunc) (pre : List Expr) (w : World) (vc : Expr) (I : Interp)
    (hI : PyPrims I)
    (hsup : F.body.supported F.ctx.types (F.ctx.params ++ Expr.varss pre) true = true)
    (hlit : ∀ p ∈ pre, p.OnlyInt)
    (hcall : F.call { postconditions := pre } = some w) (hvc : w.vc = some vc) (hval : valid I vc)
    (ρ : Env) (hρ : ∀ p ∈ pre, holds I ρ p) (v : Val)
    (hrun : Exec I (F.argStore ρ) F.body (.returned v)) :
    ∃ a ∈ w.asserts, ∃ pc e ρ',
      a = guardBy pc (mkCall F.ctx.ps .bool (F.ctx.argExprs ++ [e])) ∧
      (∀ x ∈ F.ctx.params, ρ' x = ρ x) ∧ (∀ p ∈ pc, holds I ρ' p) ∧ eval I ρ' e = v :=
  have ⟨a, ha, pc, e, ρ', h1, h2, h3, h4, _⟩ :=
    pyfunc_covered hI hsup hcall (vc_asserts_valid (call_onlyInt hcall hlit) hvc hval) hρ hrun
  ⟨a, ha, pc, e, ρ', h1, h2, h3, h4⟩

/-- `def f(x): if x < 0: return 1 else: return 2` -/
def bothReturn : PyFunc where
  name := "f"
  ctx := intCtx "f" ["x"]
  retTy := .int
  body := .ite (pyLt (.name "x") (.int 0)) (.ret (.int 1)) (.ret (.int 2))

/-- The obligation of the second return is dropped: "always returns 1" is accepted. -/
theorem C02_return_in_both_branches_refuted : ¬ VcSound bothReturn := by
  refine not_vcSound (pre := [])
    (vc := mkImplies (.node .lt .bool [vi "x", intLit 0]) (mkCall "f_ps" .bool [vi "x", intLit 1]))
    (I := stdI [("f_ps", fun | [_, r] => eqB r.asInt 1 | _ => false)]) (ρ := fun _ => .int 0) (v := .int 2)
    (stdI_prims (by decide)) (by simp) rfl ?_ (by simp) (exec_sound (n := 20) rfl) (by unfold PyFunc.contract; decide)
  intro ρ
  simp [holds, mkImplies, mkCall, vi, intLit, eval, evals, evalOp, stdI, List.lookup, Lit.val, eqB_iff]

/-- `def f(x): while 0 < 1: return 5; return 0` -/
def loopReturn : PyFunc where
  name := "f"
  ctx := intCtx "f" ["x"]
  retTy := .int
  body := block [.loop 0 (pyLt (.int 0) (.int 1)) (.ret (.int 5)), .ret (.int 0)]

/-- The obligation of a return inside a loop is dropped: the postcondition `false` is accepted. -/
theorem C02_return_in_loop_refuted : ¬ VcSound loopReturn := by
  let lt := Expr.node .lt .bool [intLit 0, intLit 1]
  let inv := mkCall "f_inv0" .bool [vi "x"]
  refine not_vcSound (pre := [])
    (vc := mkAnd [mkAnd [inv, mkImplies (mkAnd [lt, inv]) inv],
      mkImplies (mkAnd [mkNot lt, inv]) (mkCall "f_ps" .bool [vi "x", intLit 0])])
    (I := stdI [("f_inv0", fun _ => true), ("f_ps", fun _ => false)]) (ρ := fun _ => .int 0) (v := .int 5)
    (stdI_prims (by decide)) (by simp) rfl ?_ (by simp) (exec_sound (n := 20) rfl) (by unfold PyFunc.contract; decide)
  intro ρ
  simp [lt, inv, mkAnd, mkNot, holds, mkImplies, mkCall, vi, intLit, eval, evals, evalOp, stdI, List.lookup, Lit.val]

/-- `def f(n): while 0 < n: n = n - 1; return n` -/
def paramLoop : PyFunc where
  name := "f"
  ctx := intCtx "f" ["n"]
  retTy := .int
  body := block [.loop 0 (pyLt (.int 0) (.name "n")) (.assign "n" (.bin .sub (.name "n") (.int 1))),
    .ret (.name "n")]

/-- After a loop over a parameter, the symbol of the parameter still stands for the argument:
"returns its argument" is accepted. -/
theorem C03_loop_over_parameter_refuted : ¬ VcSound paramLoop := by
  let lt := Expr.node .lt .bool [intLit 0, vi "n"]
  let inv := fun e => mkCall "f_inv0" .bool [e]
  refine not_vcSound (pre := [])
    (vc := mkAnd [mkAnd [inv (vi "n"),
        mkImplies (mkAnd [lt, inv (vi "n")]) (inv (.node .sub .int [vi "n", intLit 1]))],
      mkImplies (mkAnd [mkNot lt, inv (vi "n")]) (mkCall "f_ps" .bool [vi "n", vi "n"])])
    (I := stdI [("f_inv0", fun _ => true), ("f_ps", fun | [n, r] => eqB r.asInt n.asInt | _ => false)])
    (ρ := fun _ => .int 3) (v := .int 0)
    (stdI_prims (by decide)) (by simp) rfl ?_ (by simp) (exec_sound (n := 20) rfl) (by unfold PyFunc.contract; decide)
  intro ρ
  simp [lt, inv, mkAnd, mkNot, holds, mkImplies, mkCall, vi, intLit, eval, evals, evalOp, stdI, List.lookup,
    Lit.val, eqB_iff]

/-- `def f(n): i = 0; while i < n: i = i + 1; while 0 < i: i = i - 1; return i` -/
def twoLoops : PyFunc where
  name := "f"
  ctx := intCtx "f" ["n"]
  retTy := .int
  body := block [.assign "i" (.int 0),
    .loop 0 (pyLt (.name "i") (.name "n")) (.assign "i" (pyAdd (.name "i") (.int 1))),
    .loop 1 (pyLt (.int 0) (.name "i")) (.assign "i" (.bin .sub (.name "i") (.int 1))),
    .ret (.name "i")]

/-- Two loops over the same variable use the same symbol, so the exit conditions of both
are assumed of it: with the precondition `n >= 1` the postcondition `false` is accepted. -/
theorem C03_two_loops_refuted : ¬ VcSound twoLoops := by
  let p := Expr.node .ge .bool [vi "n", intLit 1]
  let lt0 := Expr.node .lt .bool [vi "i", vi "n"]
  let lt1 := Expr.node .lt .bool [intLit 0, vi "i"]
  let inv0 := fun e => mkCall "f_inv0" .bool [vi "n", e]
  let inv1 := fun e => mkCall "f_inv1" .bool [vi "n", e]
  let post0 := mkAnd [mkNot lt0, inv0 (vi "i")]
  let post1 := mkAnd [mkNot lt1, inv1 (vi "i")]
  refine not_vcSound (pre := [p])
    (vc := mkAnd [mkAnd [mkAnd [mkAnd [
        mkImplies p (inv0 (intLit 0)),
        mkImplies (mkAnd [mkAnd [p, lt0], inv0 (vi "i")]) (inv0 (.node .add .int [vi "i", intLit 1]))],
        mkImplies (mkAnd [p, post0]) (inv1 (vi "i"))],
        mkImplies (mkAnd [mkAnd [mkAnd [p, post0], lt1], inv1 (vi "i")])
          (inv1 (.node .sub .int [vi "i", intLit 1]))],
        mkImplies (mkAnd [mkAnd [p, post0], post1]) (mkCall "f_ps" .bool [vi "n", vi "i"])])
    (I := stdI [("f_inv0", fun _ => true), ("f_inv1", fun _ => true), ("f_ps", fun _ => false)])
    (ρ := fun _ => .int 1) (v := .int 0)
    (stdI_prims (by decide)) ?_ rfl ?_ (by decide) (exec_sound (n := 20) rfl) (by unfold PyFunc.contract; decide)
  · intro q hq t ht
    simp at hq; subst hq
    simp [p, Expr.litTys, Expr.litTyss, vi, intLit] at ht
    exact ht
  · intro ρ
    simp [p, lt0, lt1, inv0, inv1, post0, post1, mkAnd, mkNot, holds, mkImplies, mkCall, vi, intLit, eval, evals,
      evalOp, stdI, List.lookup, Lit.val]
    by_cases h : 0 < (ρ "i").asInt
    · exact Or.inr (decide_eq_true h)
    · left; omega

/-- `def f(n): i = 0; j = 0; while i < n: { while j < 5: j = j + 1; i = i + 1 }; return j` -/
def nestedLoops : PyFunc where
  name := "f"
  ctx := intCtx "f" ["n"]
  retTy := .int
  body := block [.assign "i" (.int 0), .assign "j" (.int 0),
    .loop 0 (pyLt (.name "i") (.name "n")) (block [
      .loop 1 (pyLt (.name "j") (.int 5)) (.assign "j" (pyAdd (.name "j") (.int 1))),
      .assign "i" (pyAdd (.name "i") (.int 1))]),
    .ret (.name "j")]

/-- An inner loop leaves its variables unchanged in the eyes of the outer loop, and its obligations
are dropped: "returns 0" is accepted. -/
theorem C03_nested_loops_refuted : ¬ VcSound nestedLoops := by
  let lt := Expr.node .lt .bool [vi "i", vi "n"]
  let inv := fun e f => mkCall "f_inv0" .bool [vi "n", e, f]
  refine not_vcSound (pre := [])
    (vc := mkAnd [mkAnd [inv (intLit 0) (intLit 0),
        mkImplies (mkAnd [lt, inv (vi "i") (vi "j")]) (inv (.node .add .int [vi "i", intLit 1]) (vi "j"))],
      mkImplies (mkAnd [mkNot lt, inv (vi "i") (vi "j")]) (mkCall "f_ps" .bool [vi "n", vi "j"])])
    (I := stdI [("f_inv0", fun | [_, _, j] => eqB j.asInt 0 | _ => false),
      ("f_ps", fun | [_, r] => eqB r.asInt 0 | _ => false)])
    (ρ := fun _ => .int 1) (v := .int 5)
    (stdI_prims (by decide)) (by simp) rfl ?_ (by simp) (exec_sound (n := 20) rfl) (by unfold PyFunc.contract; decide)
  intro ρ
  simp [lt, inv, mkAnd, mkNot, holds, mkImplies, mkCall, vi, intLit, eval, evals, evalOp, stdI, List.lookup,
    Lit.val, eqB_iff, eqB_false]
  omega

/-- Types for the list example. -/
def listTypes : String → Ty := fun x => if x = "xs" ∨ x = "ys" then .list .int else .int

/-- `def f(n, xs): if n < 0: ys = [] else: ys = xs; return len(ys)` -/
def listMerge : PyFunc where
  name := "f"
  ctx := { intCtx "f" ["n", "xs"] with types := listTypes }
  retTy := .int
  body := block [.ite (pyLt (.name "n") (.int 0)) (.assign "ys" .emptyList) (.assign "ys" (.name "xs")),
    .ret (.len (.name "ys"))]

/-- Lists of both branches are not merged, the value of the first branch is kept: "returns 0" is
accepted. -/
theorem C06_list_merge_refuted : ¬ VcSound listMerge := by
  refine not_vcSound (pre := [])
    (vc := mkCall "f_ps" .bool [vi "n", .var "xs" (.list .int),
      mkCall "list_length" .int [mkCall "list_empty" (.list .int) []]])
    (I := stdI [("f_ps", fun | [_, _, r] => eqB r.asInt 0 | _ => false)])
    (ρ := fun x => if x = "xs" then .list [.int 7] else .int 0) (v := .int 1)
    (stdI_prims (by decide)) (by simp) rfl ?_ (by simp) (exec_sound (n := 20) rfl) (by unfold PyFunc.contract; decide)
  intro ρ
  simp [holds, mkCall, vi, eval, evals, evalOp, stdI, List.lookup, primFn, eqB_iff]

/-! ### C03 -/

/-- C03 (partial).  For a loop with straight-line body that modifies no symbol in `U`, where `U` contains
the symbols occurring in the state before the loop: the symbolic state after the loop
describes the store after every terminating run of the loop, for an assignment of the
symbols that differs from the one before only on the modified variables, provided the obligations hold.

Missing: loops that modify a variable whose symbol is already in use, and nested loops; see the refutations. -/
theorem C03_loop_state_partial (C : Ctx) (U : List String) (l : Nat) (c : PyExpr) (b : Stmt) (σ σ' : PState)
    (hc : c.noChain = true) (hb : b.simple C.types = true) (hw : ∀ x ∈ b.writes, x ∉ U)
    (hr : σ.hasReturned = false) (hg : GoodVars C.types U σ.vars)
    (hp : ∀ p ∈ σ.precond, ∀ y ∈ p.vars, y ∈ U) (h : visit C (.loop l c b) σ = some σ')
    (I : Interp) (hI : PyPrims I) (hval : ∀ a ∈ σ'.asserts, valid I a)
    (ρ : Env) (s s' : Store) (hd : Describes I ρ σ.vars s) (hpre : ∀ p ∈ σ.precond, holds I ρ p)
    (hrun : Exec I s (.loop l c b) (.normal s')) :
    ∃ ρ', (∀ x ∈ U, ρ' x = ρ x) ∧ Describes I ρ' σ'.vars s' ∧ ∀ p ∈ σ'.precond, holds I ρ' p :=
  by
  obtain ⟨_, _, ρ', _, h'⟩ := (loop_visit (T := anyVal) (K := anyStmt) hc hb hw hr hg hp trivial h).run I ρ s s' hI
    (typeInv_any _ _) (varsIn_any _ _) (fun _ => trivial) (.inl (fun _ _ => trivial)) hd hpre (fun a ha ρ' _ => hval a ha ρ') hrun
  exact ⟨ρ', h'⟩

/-- Non-vacuity of `C03_loop_state_partial`: the loop of `countUp` after `i = 0`. -/
example : ∃ σ', visit countUp.ctx (.loop 0 (pyLt (.name "i") (.name "n")) (.assign "i" (pyAdd (.name "i") (.int 1))))
      { precond := [], vars := [("n", vi "n"), ("i", intLit 0)], asserts := [], hasReturned := false } = some σ' ∧
    GoodVars countUp.ctx.types ["n"] [("n", vi "n"), ("i", intLit 0)] ∧
    (∀ a ∈ σ'.asserts, valid (stdI [("f_inv0", fun _ => true)]) a) := by
  refine ⟨_, rfl, ⟨by decide, ?_⟩, ?_⟩
  · intro x e h
    simp only [SymVars.read, List.lookup] at h
    split at h
    · next hx =>
      simp at h hx; subst h; subst hx
      exact ⟨rfl, by simp [Expr.OnlyInt, Expr.litTys, vi], by simp [Expr.vars, vi],
        fun y t h => by simp [vi] at h⟩
    · split at h
      · next hx =>
        simp at h hx; subst h; subst hx
        exact ⟨rfl, by simp [Expr.OnlyInt, Expr.litTys, intLit], by simp [Expr.vars, intLit],
          fun y t h => by simp [intLit] at h⟩
      · cases h
  · intro a ha ρ
    have ha : a ∈ [mkCall "f_inv0" .bool [vi "n", intLit 0],
      mkImplies (mkAnd [.node .lt .bool [vi "i", vi "n"], mkCall "f_inv0" .bool [vi "n", vi "i"]])
        (mkCall "f_inv0" .bool [vi "n", .node .add .int [vi "i", intLit 1]])] := ha
    simp at ha
    rcases ha with rfl | rfl <;>
      simp [holds, mkCall, mkImplies, eval, evals, evalOp, stdI, List.lookup]

/-! ### C04 -/

/-- C04.  A variable outside the write set of a statement is unchanged by every execution of the
statement that ends normally. -/
theorem C04_writes_cover (I : Interp) (st : Stmt) (s s' : Store) (h : Exec I s st (.normal s')) (x : String)
    (hx : x ∉ st.writes) : s' x = s x := by
  generalize ho : Outcome.normal s' = o at h
  induction h generalizing s' with
  | skip => cases ho; rfl
  | seq _ _ ih1 ih2 =>
    simp only [Stmt.writes, List.mem_append, not_or] at hx
    rw [ih2 s' hx.2 ho, ih1 _ hx.1 rfl]
  | seqRet _ _ => cases ho
  | assign _ => cases ho; simp [Stmt.writes] at hx; simp [Store.set, hx]
  | append _ _ => cases ho; simp [Stmt.writes] at hx; simp [Store.set, hx]
  | setAdd _ _ => cases ho; simp [Stmt.writes] at hx; simp [Store.set, hx]
  | setRemove _ _ _ => cases ho; simp [Stmt.writes] at hx; simp [Store.set, hx]
  | ret _ => cases ho
  | iteT _ _ ih => simp only [Stmt.writes, List.mem_append, not_or] at hx; exact ih s' hx.1 ho
  | iteF _ _ ih => simp only [Stmt.writes, List.mem_append, not_or] at hx; exact ih s' hx.2 ho
  | loopF _ => cases ho; rfl
  | loopT _ _ _ ih1 ih2 => rw [ih2 s' hx ho, ih1 _ hx rfl]
  | loopRet _ _ _ => cases ho

/-- Non-vacuity: the loop of `countUp` changes `i`, which is in its write set, and keeps `n`. -/
example : ∃ s', Exec countI (fun x => if x = "n" then some (.int 1) else if x = "i" then some (.int 0) else none)
    (.loop 0 (pyLt (.name "i") (.name "n")) (.assign "i" (pyAdd (.name "i") (.int 1)))) (.normal s') ∧
    s' "i" = some (.int 1) ∧ "n" ∉ (Stmt.loop 0 (pyLt (.name "i") (.name "n"))
      (.assign "i" (pyAdd (.name "i") (.int 1)))).writes :=
  ⟨_, exec_sound (n := 20) rfl, rfl, by decide⟩

/-! ### C05 -/

/-- C05 (partial).  The translation of an expression without chained comparisons evaluates to the value
Python computes, in every store described by the symbolic variables.

Missing: chained comparisons, see `C05_chained_comparison_refuted`; boolean literals in symbolic values (the
frontend cannot translate them from source, but preconditions could introduce them). -/
theorem C05_translation_partial (I : Interp) (hI : PyPrims I) (ρ : Env) (vs : SymVars) (s : Store)
    (hd : Describes I ρ vs s) (hi : ∀ x e, vs.read x = some e → e.OnlyInt) (e : PyExpr) (e' : Expr) (v : Val)
    (hc : e.noChain = true) (htr : trExpr vs e = some e') (hv : pyEval I s e = some v) : eval I ρ e' = v :=
  tr_eval hI hd hi e hc htr hv

/-- Non-vacuity: `x + len(xs) < 3 and 0 < x`. -/
example : ∃ e', trExpr [("x", vi "x"), ("xs", .var "xs" (.list .int))]
      (.bin .and (pyLt (pyAdd (.name "x") (.len (.name "xs"))) (.int 3)) (pyLt (.int 0) (.name "x"))) = some e' ∧
    pyEval (stdI []) (fun x => if x = "x" then some (.int 1) else some (.list [.int 4]))
      (.bin .and (pyLt (pyAdd (.name "x") (.len (.name "xs"))) (.int 3)) (pyLt (.int 0) (.name "x"))) =
      some (.bool true) :=
  ⟨_, rfl, rfl⟩

/-- A chained comparison keeps only its last link: `0 < x < 3` is translated to `x < 3`. -/
theorem C05_chained_comparison_refuted :
    ∃ (e : PyExpr) (e' : Expr) (ρ : Env) (s : Store), Describes (stdI []) ρ [("x", vi "x")] s ∧
      trExpr [("x", vi "x")] e = some e' ∧ pyEval (stdI []) s e = some (.bool false) ∧
      eval (stdI []) ρ e' = .bool true := by
  refine ⟨.cmp [.lt, .lt] [.int 0, .name "x", .int 3], _, fun _ => .int (-1), fun _ => some (.int (-1)), ?_, rfl,
    by decide, by decide⟩
  intro x e v he hv
  simp only [SymVars.read, List.lookup] at he
  split at he
  · simp at he hv; subst he; subst hv; rfl
  · cases he

/-! ### C06 -/

/-- C06 (partial).  After an `if` whose branches are straight-line code modifying only integer and
boolean variables, the symbolic value of every variable evaluates to the value the
variable has after the branch that was taken.

Missing: lists and sets (`C06_list_merge_refuted`). -/
theorem C06_if_merge_partial (C : Ctx) (U : List String) (c : PyExpr) (t e : Stmt) (σ σ' : PState)
    (hs : (Stmt.ite c t e).simple C.types = true) (hr : σ.hasReturned = false)
    (hg : GoodVars C.types U σ.vars) (h : visit C (.ite c t e) σ = some σ')
    (I : Interp) (hI : PyPrims I) (ρ : Env) (s s' : Store) (hd : Describes I ρ σ.vars s)
    (hrun : Exec I s (.ite c t e) (.normal s')) (x : String) (ex : Expr) (v : Val)
    (hx : σ'.vars.read x = some ex) (hv : s' x = some v) : eval I ρ ex = v :=
  ((simple_visit hs hr hg h).run I ρ s s' hI hd hrun x ex v hx hv).symm

/-- Non-vacuity: `if x < 0: y = 0 - x else: y = x`. -/
example : ∃ σ' s', visit (intCtx "f" ["x"]) (.ite (pyLt (.name "x") (.int 0)) (.assign "y" (.neg (.name "x")))
      (.assign "y" (.name "x")))
      { precond := [], vars := [("x", vi "x")], asserts := [], hasReturned := false } = some σ' ∧
    (Stmt.ite (pyLt (.name "x") (.int 0)) (.assign "y" (.neg (.name "x")))
      (.assign "y" (.name "x"))).simple intTypes = true ∧
    Exec (stdI []) (fun _ => some (.int (-4))) (.ite (pyLt (.name "x") (.int 0))
      (.assign "y" (.neg (.name "x"))) (.assign "y" (.name "x"))) (.normal s') ∧
    (σ'.vars.read "y").isSome ∧ s' "y" = some (.int 4) :=
  ⟨_, _, rfl, by decide, exec_sound (n := 20) rfl, rfl, rfl⟩

/-! ### C07 -/

/-- A history of calls of analysed functions. -/
def runCalls : List PyFunc → World → Option World
  | [], w => some w
  | F :: Fs, w => match F.call w with
    | some w' => runCalls Fs w'
    | none => none

/-- C07 (partial).  No call removes or changes an obligation of an earlier call: after any history the
obligations are a prefix of those after any longer history, in the same order.

Missing: that nothing is added to the assumptions of later calls (`C07_second_call_refuted`). -/
theorem C07_obligations_kept_partial (Fs : List PyFunc) (w w' : World) (h : runCalls Fs w = some w') :
    w.asserts <+: w'.asserts := by
  induction Fs generalizing w with
  | nil => simp [runCalls] at h; subst h; exact List.prefix_refl _
  | cons F Fs ih =>
    simp only [runCalls] at h
    split at h
    · next w1 h1 =>
      refine List.IsPrefix.trans ?_ (ih w1 h)
      unfold PyFunc.call at h1
      simp only at h1
      split at h1
      · cases h1
      · simp at h1; subst h1; exact List.prefix_append _ _
    · cases h

/-- `def f(): i = 0; while i < 0: i = i + 1; return i` -/
def leakF : PyFunc where
  name := "f"
  ctx := intCtx "f" []
  retTy := .int
  body := block [.assign "i" (.int 0),
    .loop 0 (pyLt (.name "i") (.int 0)) (.assign "i" (pyAdd (.name "i") (.int 1))), .ret (.name "i")]

/-- `def g(i): return i` -/
def leakG : PyFunc where
  name := "g"
  ctx := intCtx "g" ["i"]
  retTy := .int
  body := .ret (.name "i")

example : ∃ w, runCalls [leakF, leakG] {} = some w ∧ w.asserts.length = 7 := ⟨_, rfl, rfl⟩

/-- The verification condition after calling `F` and then `G` entails the contract of `G`, on inputs
satisfying what is assumed when `G` is called. -/
def SecondCallSound (F G : PyFunc) : Prop :=
  ∀ (w1 w2 : World) (vc : Expr) (I : Interp), PyPrims I → F.call {} = some w1 → G.call w1 = some w2 →
    w2.vc = some vc → valid I vc → ∀ (ρ : Env), (∀ p ∈ w1.postconditions, holds I ρ p) → ∀ v : Val,
      Exec I (G.argStore ρ) G.body (.returned v) → G.contract I ρ v

/-- The assumptions made while analysing `f` stay in force while `g` is analysed (shared default list):
"g returns 0" is accepted although `g` returns its argument.  Both functions are in the supported
fragment. -/
theorem C07_second_call_refuted : ¬ SecondCallSound leakF leakG ∧
    leakF.body.supported leakF.ctx.types [] true = true ∧
    leakG.body.supported leakG.ctx.types ["i"] true = true := by
  refine ⟨?_, by decide, by decide⟩
  intro h
  let I := stdI [("f_inv0", fun | [i] => eqB i.asInt 0 | _ => false), ("f_ps", fun | [r] => eqB r.asInt 0 | _ => false),
    ("g_ps", fun | [_, r] => eqB r.asInt 0 | _ => false)]
  cases h1 : leakF.call {} with
  | none => exact absurd h1 (by decide)
  | some w1 =>
  cases h2 : leakG.call w1 with
  | none => 
    have : (leakF.call {}).bind leakG.call ≠ none := by decide
    rw [h1] at this; exact absurd h2 this
  | some w2 =>
  let lt := Expr.node .lt .bool [vi "i", intLit 0]
  let inv := fun e => mkCall "f_inv0" .bool [e]
  let post := mkAnd [mkNot lt, inv (vi "i")]
  let vc := mkAnd [mkAnd [mkAnd [inv (intLit 0),
        mkImplies (mkAnd [lt, inv (vi "i")]) (inv (.node .add .int [vi "i", intLit 1]))],
        mkImplies post (mkCall "f_ps" .bool [vi "i"])],
        mkImplies (mkAnd [post, mkCall "f_ps" .bool [vi "f_rv"]]) (mkCall "g_ps" .bool [vi "i", vi "i"])]
  have hvc : ((leakF.call {}).bind leakG.call).bind World.vc = some vc := rfl
  have hpost : (leakF.call {}).map World.postconditions = some [mkCall "f_ps" .bool [vi "f_rv"]] := rfl
  rw [h1] at hvc hpost
  simp only [Option.bind_some, h2, Option.map_some, Option.some.injEq] at hvc hpost
  have hval : valid I vc := by
    intro ρ
    simp [vc, I, lt, inv, post, mkAnd, mkNot, holds, mkImplies, mkCall, vi, intLit, eval, evals, evalOp, stdI,
      List.lookup, Lit.val, eqB_iff, eqB_false]
    by_cases h : (ρ "i").asInt = 0
    · exact ⟨⟨.inl (.inl (decide_eq_false (by omega))), .inr h⟩, .inr h⟩
    · exact ⟨⟨.inl (.inr h), .inl (.inr h)⟩, .inl (.inl (.inr h))⟩
  have := h w1 w2 vc I (stdI_prims (by decide)) h1 h2 hvc hval
    (fun x => if x = "i" then .int 5 else .int 0) (by
      rw [hpost]
      intro p hp
      simp at hp; subst hp
      decide) (.int 5) (.ret rfl)
  exact absurd this (by unfold PyFunc.contract; decide)

/-! ### C08 -/

/-- What the call site assumes is the contract of the callee for the result variable. -/
def CallSiteMatches (F : PyFunc) : Prop :=
  ∀ (w w' : World), F.call w = some w' → ∃ p, w'.postconditions = w.postconditions ++ [p] ∧
    ∀ (I : Interp) (ρ : Env), holds I ρ p ↔ F.contract I ρ (ρ (F.name ++ "_rv"))

/-- C08 (partial).  For functions without parameters, the call site assumes exactly the contract.

Missing: functions with parameters (`C08_call_site_refuted`). -/
theorem C08_call_site_partial (F : PyFunc) (h : F.ctx.params = []) : CallSiteMatches F := by
  intro w w' hc
  unfold PyFunc.call at hc
  simp only at hc
  split at hc
  · cases hc
  · simp only [Option.some.injEq] at hc
    subst hc
    refine ⟨_, rfl, fun I ρ => ?_⟩
    simp [PyFunc.contract, h, Ctx.argExprs, holds, mkCall, eval, evals, evalOp]

example : leakF.ctx.params = [] ∧ (leakF.call {}).isSome = true := ⟨rfl, rfl⟩

/-- The call site puts the result first, the callee proves it with the result last: `f` returns its argument plus
one and proves `ps(x, r) = (r == x + 1)`, the call site assumes `x == r + 1`. -/
theorem C08_call_site_refuted : ∃ F : PyFunc, ¬ CallSiteMatches F ∧ (F.call {}).isSome = true := by
  refine ⟨⟨"f", intCtx "f" ["x"], .ret (pyAdd (.name "x") (.int 1)), .int⟩, ?_, rfl⟩
  intro h
  obtain ⟨p, hp, hI⟩ := h {} _ rfl
  simp at hp
  subst hp
  have := hI (stdI [("f_ps", fun | [x, r] => eqB r.asInt (x.asInt + 1) | _ => false)])
    (fun x => if x = "x" then .int 0 else .int 1)
  exact absurd (this.2 (by unfold PyFunc.contract; decide)) (by decide)

end Metalift
