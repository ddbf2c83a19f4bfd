import Verif.GemminiProof
/- The induction for C75. -/
namespace Metalift.Gem
open Metalift Ten

/-- `y` is no temporary variable from number `c` on. -/
def Old (c : Nat) (y : String) : Prop := ∀ m, c ≤ m → y ≠ tempName m

theorem Old.mono {c c' : Nat} {y : String} (h : Old c y) (hc : c ≤ c') : Old c' y := fun m hm => h m (by omega)

theorem old_temp {c m : Nat} (h : m < c) : Old c (tempName m) := fun n hn e => by have := tempName_inj e; omega

/-- The variable that the result is assigned to. -/
def Target (c : Nat) (x : String) : Prop := x = "out" ∨ ∃ m, m < c ∧ x = tempName m

theorem Target.old {c : Nat} {x : String} (h : Target c x) : Old c x := by
  rcases h with rfl | ⟨m, hm, rfl⟩
  · exact fun m _ => numbered_ne (by decide +kernel)
  · exact old_temp hm

theorem Target.mono {c c' : Nat} {x : String} (h : Target c x) (hc : c ≤ c') : Target c' x := by
  rcases h with rfl | ⟨m, hm, rfl⟩
  · exact .inl rfl
  · exact .inr ⟨m, by omega, rfl⟩

theorem Target.ne {c : Nat} {x y : String} (h : Target c x) (hy : Clean y) : y ≠ x := by
  rcases h with rfl | ⟨m, hm, rfl⟩
  · exact hy.1
  · exact hy.2.2.2.2 m

theorem Clean.old {c : Nat} {y : String} (h : Clean y) : Old c y := fun m _ => h.2.2.2.2 m

variable (I : Interp) (M : Mach) (fns : List (String × Np.SynthFn)) (flt : Bool) (k : K) (params : List (String × Ty)) (ρ : Env)

/-- The dimensions of the parameters are known. -/
def DimOk (D : Dims) : Prop := ∀ y, (y, k.ty) ∈ params → D.lookup y = some (len, len)

/-- The code for an expression assigns its value to `x`. -/
def GenOk (t : TExp) (x : String) (D : Dims) (c : Nat) : Prop :=
  ∃ (s : List Stm) (D' : Dims) (c' : Nat), (∃ n0, ∀ n, n0 ≤ n → gen fns flt n (t.toExpr k) x D c = some (.stms s, k.ty, D', c')) ∧ c ≤ c' ∧
    D'.lookup x = some (len, len) ∧ (∀ y, y ≠ x → Old c y → D'.lookup y = D.lookup y) ∧
    ∀ σ, Holds M.len k params ρ σ → (σ.arr x).isSome → ∃ σ' A, execs M s σ = some σ' ∧ σ'.sc = σ.sc ∧ σ'.arr x = some A ∧
      eval I ρ (t.toExpr k) = valOf M.len k A ∧ ∀ y, y ≠ x → Old c y → σ'.arr y = σ.arr y

/-- The code for an argument: the value is in the array `p`. -/
def ArgOk (t : TExp) (D : Dims) (c : Nat) : Prop :=
  ∃ (s : List Stm) (p : String) (D' : Dims) (c' : Nat), (∃ n0, ∀ n, n0 ≤ n → ∀ es, genArgs fns flt (n + 1) (t.toExpr k :: es) D c =
      (genArgs fns flt n es D' c').bind fun r => some (s ++ r.1, .name p :: r.2.1, r.2.2.1, r.2.2.2)) ∧ c ≤ c' ∧
    D'.lookup p = some (len, len) ∧ ((p, k.ty) ∈ params ∨ ∃ m, c ≤ m ∧ m < c' ∧ p = tempName m) ∧ (∀ y, Old c y → D'.lookup y = D.lookup y) ∧
    ∀ σ, Holds M.len k params ρ σ → ∃ σ' A, execs M s σ = some σ' ∧ σ'.sc = σ.sc ∧ σ'.arr p = some A ∧
      eval I ρ (t.toExpr k) = valOf M.len k A ∧ ∀ y, Old c y → σ'.arr y = σ.arr y

variable {I M fns flt k params ρ}

theorem holds_of {σ σ' : St} (hc : ∀ p ∈ params, Clean p.1) (H : Holds M.len k params ρ σ) (h1 : σ'.sc = σ.sc)
    (h2 : ∀ y, Clean y → σ'.arr y = σ.arr y) : Holds M.len k params ρ σ' where
  arr x hx := by rw [h2 x (hc _ hx)]; exact H.arr x hx
  int x hx := by rw [h1]; exact H.int x hx
  bool x hx := by rw [h1]; exact H.bool x hx

theorem exprTy_texp (t : TExp) (ht : t.ok k params) : Np.exprTy (t.toExpr k) = k.ty := by
  cases t <;> simp [TExp.toExpr, Np.exprTy]
  simp [TExp.ok] at ht; simp [ht.1, K.ty]

theorem arg_of_gen (hc : ∀ p ∈ params, Clean p.1) (t : TExp) (ht : t.ok k params) (D : Dims) (c : Nat) (hD : DimOk k params D)
    (h : ¬ t.isVar → ∀ x D c, Target c x → DimOk k params D → GenOk I M fns flt k params ρ t x D c) : ArgOk I M fns flt k params ρ t D c := by
  by_cases hv : t.isVar
  · cases t with
    | var x =>
      refine ⟨[], x, D, c, ⟨1, ?_⟩, Nat.le_refl _, hD x ht, .inl ht, fun _ _ => rfl, ?_⟩
      · intro n hn es
        obtain ⟨n, rfl⟩ : ∃ m, n = m + 1 := ⟨n - 1, by omega⟩
        simp [TExp.toExpr, genArgs, gen, Code.toExp, isCall]
      · intro σ H
        obtain ⟨A, h1, h2⟩ := H.arr x ht
        exact ⟨σ, A, by simp [execs], rfl, h1, by simp [TExp.toExpr, eval, h2], fun _ _ => rfl⟩
    | _ => simp [TExp.isVar] at hv
  · obtain ⟨s, D', c', ⟨n0, hn0⟩, hle, hl, hp, he⟩ := h hv (tempName c) D (c + 1) (.inr ⟨c, by omega, rfl⟩) hD
    have hold : ∀ y, Old c y → y ≠ tempName c ∧ Old (c + 1) y := fun y hy => ⟨hy c (Nat.le_refl _), hy.mono (by omega)⟩
    refine ⟨.decl (tempName c) :: s, tempName c, D', c', ⟨n0, ?_⟩, by omega, hl, .inr ⟨c, Nat.le_refl _, by omega, rfl⟩,
      fun y hy => hp y (hold y hy).1 (hold y hy).2, ?_⟩
    · intro n hn es
      have hcall : isCall (t.toExpr k) = true := by
        cases t <;> simp [TExp.toExpr, TExp.isVar, isCall] at hv ⊢
      have hty : k.ty = .list .int ∨ k.ty = .list (.list .int) := by cases k <;> simp [K.ty]
      rw [genArgs]
      simp only [hcall, if_true, hn0 n hn, Option.bind_some, if_pos hty]
      cases genArgs fns flt n es D' c' <;> simp [Code.toStms]
    · intro σ H
      obtain ⟨σ', A, h1, h2, h3, h4, h5⟩ := he (σ.setArr (tempName c) (M.stat (tempName c)))
        (holds_of hc H rfl fun y hy => by simp [St.setArr, hy.old (c := c) c (Nat.le_refl _)]) (by simp [St.setArr])
      refine ⟨σ', A, by simp [execs, exec, h1], h2, h3, h4, fun y hy => ?_⟩
      rw [h5 y (hold y hy).1 (hold y hy).2]
      simp [St.setArr, (hold y hy).1]

theorem genArgs_scalar (s : SExp) (D : Dims) (c : Nat) (n : Nat) (hn : s.sz ≤ n) (es : List Expr) :
    genArgs fns flt (n + 1) (s.toExpr :: es) D c = (genArgs fns flt n es D c).bind fun r => some (r.1, s.code :: r.2.1, r.2.2.1, r.2.2.2) := by
  have hcall : isCall s.toExpr = false := by
    cases s with
    | bin o => cases o <;> simp [SExp.toExpr, Ar.op, isCall]
    | _ => simp [SExp.toExpr, isCall]
  rw [genArgs]
  simp only [hcall, gen_scalar fns flt D c s n hn]
  simp [Code.toExp]

/-- The statement for a binary operation. -/
def binStm (k : K) (o : Ar) (p q x : String) : Stm :=
  match o with
  | .add => .resadd len len (.num 1) (.num 1) (.name p) (.name q) x
  | .sub => .resadd len len (.num 1) (.num (-1)) (.name p) (.name q) x
  | .mul => loopStm k x fun v => .bin .mul (v (.name p)) (v (.name q))

theorem callStms_bin (o : Ar) (p q x : String) (D : Dims) (hp : D.lookup p = some (len, len)) :
    callStms (k.fn o) [.name p, .name q] x D = some ([binStm k o p q x], (x, (len, len)) :: D) := by
  cases k <;> cases o <;> simp [callStms, binStm, K.fn, dimOf, hp, loopFns, List.lookup, elemRhs, loopStm, pure]

theorem callStms_subScalar (a : CExp) (q x : String) (D : Dims) (hq : D.lookup q = some (len, len)) :
    callStms k.subScalar [a, .name q] x D = some ([loopStm k x fun v => readRight .sub (v (.name q)) a], (x, (len, len)) :: D) := by
  cases k <;> simp [callStms, K.subScalar, dimOf, hq, loopFns, List.lookup, elemRhs, loopStm, pure]

theorem callStms_scalarSub (a : CExp) (q x : String) (D : Dims) (hq : D.lookup q = some (len, len)) :
    callStms k.scalarSub [a, .name q] x D = some ([loopStm k x fun v => .bin .sub a (v (.name q))], (x, (len, len)) :: D) := by
  cases k <;> simp [callStms, K.scalarSub, dimOf, hq, loopFns, List.lookup, elemRhs, loopStm, pure, readRight, col, cell]

theorem callStms_transpose (q x : String) (D : Dims) (hq : D.lookup q = some (len, len)) :
    callStms "matrix_transpose" [.name q] x D = some ([.for2 c0 len c0 len x (.at (.name q) cj ci)], (x, (len, len)) :: D) := by
  simp [callStms, dimOf, hq, loopFns, List.lookup, pure]

/-- After the last statement of a call. -/
theorem finish {σ σ1 σ2 : St} {x : String} {c : Nat} {g : Nat → Nat → Int} (hs : σ1.sc = σ.sc) (hp : ∀ y, Old c y → σ1.arr y = σ.arr y)
    (hw : Wrote M k σ1 x g σ2) : σ2.sc = σ.sc ∧ ∃ A, σ2.arr x = some A ∧ valOf M.len k g = valOf M.len k A ∧ ∀ y, y ≠ x → Old c y → σ2.arr y = σ.arr y := by
  obtain ⟨C, rfl, h⟩ := hw
  refine ⟨hs, C, by simp [St.setArr], (valOf_congr k h).symm, fun y hy ho => ?_⟩
  rw [← hp y ho]; simp [St.setArr, hy]

/-- Lookup after the assignment to the target. -/
theorem dims_cons {x : String} {D : Dims} : ((x, (len, len)) :: D).lookup x = some (len, len) ∧
    ∀ y, y ≠ x → ((x, (len, len)) :: D).lookup y = D.lookup y := by
  refine ⟨by simp [List.lookup], fun y hy => ?_⟩
  have : (y == x) = false := by simpa using hy
  simp [List.lookup, this]

theorem dimOk_of (hc : ∀ p ∈ params, Clean p.1) {D D' : Dims} {c : Nat} (hD : DimOk k params D) (h : ∀ y, Old c y → D'.lookup y = D.lookup y) : DimOk k params D' :=
  fun y hy => by rw [h y (hc _ hy).old]; exact hD y hy

/-- A call with one tensor argument, after integer arguments. -/
theorem call_one (HI : Np.NpModel I) (hM : M.Ok) (hc : ∀ p ∈ params, Clean p.1) (f : String) (hk : known f = true) (hl : f ≠ "list_length")
    (hf1 : f ≠ "vec_elemwise_add") (hf2 : f ≠ "matrix_elemwise_add") (t a : TExp) (ss : List SExp)
    (ht : t.toExpr k = .node (.call f) k.ty (ss.map SExp.toExpr ++ [a.toExpr k])) (hss : ∀ s ∈ ss, s.ok params) (op : List Int → (Nat → Nat → Int) → Nat → Nat → Int)
    (hfn : ∀ vs A, vs.length = ss.length → I.fn f (vs.map Val.int ++ [valOf M.len k A]) = valOf M.len k (op vs A)) (hsm : Small k (eval I ρ (t.toExpr k))) (st : String → String → Stm)
    (hst : ∀ q x D, D.lookup q = some (len, len) → callStms f (ss.map SExp.code ++ [.name q]) x D = some ([st q x], (x, (len, len)) :: D))
    (hex : ∀ q x σ A vs, vs.length = ss.length → σ.arr q = some A → (σ.arr x).isSome → q ≠ x →
      (∀ i (h : i < ss.length), ∀ τ : St, (∀ y, y ≠ "i" → y ≠ "j" → τ.sc y = σ.sc y) → cval M τ ss[i].code = some (vs.getD i 0)) →
      (∀ i j, Idx M.len k i j → Byte (op vs A i j)) → ∃ σ', execs M [st q x] σ = some σ' ∧ Wrote M k σ x (op vs A) σ')
    (x : String) (D : Dims) (c : Nat) (hx : Target c x) (hD : DimOk k params D) (ha : ArgOk I M fns flt k params ρ a D c) :
    GenOk I M fns flt k params ρ t x D c := by
  obtain ⟨s, p, D', c', ⟨n0, hn0⟩, hle, hlk, hp, hdp, he⟩ := ha
  have hpx : p ≠ x := by
    rcases hp with h | ⟨m, h1, h2, rfl⟩
    · exact hx.ne (hc _ h)
    · exact fun h => hx.old m h1 h.symm
  refine ⟨s ++ [st p x], (x, (len, len)) :: D', c', ⟨n0 + (ss.map SExp.sz).sum + ss.length + 4, ?_⟩, hle, dims_cons.1, fun y hy ho => (dims_cons.2 y hy).trans (hdp y ho), ?_⟩
  · intro n hn
    have key : ∀ (ss : List SExp) (n : Nat), n0 + (ss.map SExp.sz).sum + ss.length + 2 ≤ n → genArgs fns flt n (ss.map SExp.toExpr ++ [a.toExpr k]) D c =
        some (s, ss.map SExp.code ++ [.name p], D', c') := by
      intro ss
      induction ss with
      | nil =>
        intro n hn
        simp only [List.map_nil, List.sum_nil, List.length_nil] at hn
        obtain ⟨n, rfl⟩ : ∃ m, n = m + 1 := ⟨n - 1, by omega⟩
        rw [List.map_nil, List.nil_append, hn0 n (by omega)]
        simp [genArgs]
      | cons e ss ih =>
        intro n hn
        simp only [List.map_cons, List.sum_cons, List.length_cons] at hn
        obtain ⟨n, rfl⟩ : ∃ m, n = m + 1 := ⟨n - 1, by omega⟩
        rw [List.map_cons, List.cons_append, genArgs_scalar e D c n (by omega), ih n (by omega)]
        simp
    obtain ⟨n, rfl⟩ : ∃ m, n = m + 1 := ⟨n - 1, by omega⟩
    rw [ht, gen, fused_ne hf1 hf2]
    simp only [key ss n (by omega), Option.bind_some, if_neg hl, hk, if_true, hst p x D' hlk, Option.map_some]
  · intro σ H hxs
    obtain ⟨σ1, A, h1, h2, h3, h4, h5⟩ := he σ H
    have hvs : ∃ vs : List Int, vs.length = ss.length ∧ evals I ρ (ss.map SExp.toExpr) = vs.map Val.int ∧
        ∀ i (h : i < ss.length), ∀ τ : St, (∀ y, y ≠ "i" → y ≠ "j" → τ.sc y = σ.sc y) → cval M τ ss[i].code = some (vs.getD i 0) := by
      clear hst hex ht hfn
      induction ss with
      | nil => exact ⟨[], rfl, rfl, fun i h => by simp at h⟩
      | cons e ss ih =>
        obtain ⟨vs, e1, e2, e3⟩ := ih (fun s hs => hss s (List.mem_cons_of_mem _ hs))
        obtain ⟨v, f1, f2⟩ := scalar_ok I M hc H e (hss e (List.mem_cons_self ..))
        refine ⟨v :: vs, by simp [e1], by simp [evals, f1, e2], fun i h τ hτ => ?_⟩
        cases i with
        | zero => simpa using f2 τ hτ
        | succ i => simpa using e3 i (by simpa using h) τ hτ
    obtain ⟨vs, v1, v2, v3⟩ := hvs
    have hev : eval I ρ (t.toExpr k) = valOf M.len k (op vs A) := by
      rw [ht, eval, evals_eq_map, List.map_append, ← evals_eq_map, v2]
      simp only [List.map_cons, List.map_nil, h4, evalOp]
      exact hfn vs A v1
    rw [hev] at hsm
    obtain ⟨σ2, g1, g2⟩ := hex p x σ1 A vs v1 h3 (by rw [h5 x hx.old]; exact hxs) hpx (fun i h τ hτ => v3 i h τ fun y h1 h2' => by rw [hτ y h1 h2', h2])
      (fun i j hij => small_idx hsm hij)
    obtain ⟨r1, B, r2, r3, r4⟩ := finish h2 h5 g2
    exact ⟨σ2, B, by rw [execs_append, h1]; exact g1, r1, r2, by rw [hev, r3], r4⟩

theorem gen_ok (HI : Np.NpModel I) (hM : M.Ok) (hc : ∀ p ∈ params, Clean p.1) (t : TExp) (ht : t.ok k params) (hsm : ∀ u ∈ t.subs, Small k (eval I ρ (u.toExpr k))) :
    ¬ t.isVar → ∀ x D c, Target c x → DimOk k params D → GenOk I M fns flt k params ρ t x D c := by
  induction t with
  | var x => intro h; exact absurd trivial h
  | subScalar s a ih =>
    intro _ x D c hx hD
    have ha := arg_of_gen hc a ht.2.2 D c hD (ih ht.2.2 fun u hu => hsm u (by simp [TExp.subs, hu]))
    refine call_one HI hM hc k.subScalar (by cases k <;> decide +kernel) (by cases k <;> decide +kernel) (by cases k <;> decide +kernel) (by cases k <;> decide +kernel)
      (.subScalar s a) a [s] rfl (by simpa using ht.1) (fun vs A i j => A i j - vs.getD 0 0) ?_ (hsm _ (by simp [TExp.subs]))
      (fun q x => loopStm k x fun v => readRight .sub (v (.name q)) s.code) (fun q x D hq => callStms_subScalar s.code q x D hq) ?_ x D c hx hD ha
    · intro vs A hv
      obtain ⟨v, rfl⟩ := List.length_eq_one_iff.1 hv
      exact fn_subScalar HI M.len hM.pos k v A
    · intro q x σ A vs hv hA hxs hqx hs hb
      have hr : ∀ e, readRight .sub e s.code = .bin .sub e s.code := by
        intro e
        have := ht.2.1
        cases s with
        | bin o => simp only [SExp.tight] at this; subst this; simp [SExp.code, readRight, COp.additive]
        | _ => simp [SExp.code, readRight]
      simp only [hr]
      refine loop_ok hM k (fun v => .bin .sub (v (.name q)) s.code) _ hxs ?_ ?_ hb
      · intro _ A' i hi
        have := hs 0 (by simp) ((σ.setArr x A').setSc "i" i) (by intro y h1 h2; simp [St.setArr, St.setSc, h1])
        simp only [List.getElem_cons_zero] at this
        simp only [cval, col_ok hA hqx A' hi, this, Option.bind_some, COp.run]
      · intro _ A' i j hi hj
        have := hs 0 (by simp) (((σ.setArr x A').setSc "i" i).setSc "j" j) (by intro y h1 h2; simp [St.setArr, St.setSc, h1, h2])
        simp only [List.getElem_cons_zero] at this
        simp only [cval, (cell_ok hA hqx A' hi hj).1, this, Option.bind_some, COp.run]
  | scalarSub s a ih =>
    intro _ x D c hx hD
    have ha := arg_of_gen hc a ht.2 D c hD (ih ht.2 fun u hu => hsm u (by simp [TExp.subs, hu]))
    refine call_one HI hM hc k.scalarSub (by cases k <;> decide +kernel) (by cases k <;> decide +kernel) (by cases k <;> decide +kernel) (by cases k <;> decide +kernel)
      (.scalarSub s a) a [s] rfl (by simpa using ht.1) (fun vs A i j => vs.getD 0 0 - A i j) ?_ (hsm _ (by simp [TExp.subs]))
      (fun q x => loopStm k x fun v => .bin .sub s.code (v (.name q))) (fun q x D hq => callStms_scalarSub s.code q x D hq) ?_ x D c hx hD ha
    · intro vs A hv
      obtain ⟨v, rfl⟩ := List.length_eq_one_iff.1 hv
      exact fn_scalarSub HI M.len hM.pos k v A
    · intro q x σ A vs hv hA hxs hqx hs hb
      refine loop_ok hM k (fun v => .bin .sub s.code (v (.name q))) _ hxs ?_ ?_ hb
      · intro _ A' i hi
        have := hs 0 (by simp) ((σ.setArr x A').setSc "i" i) (by intro y h1 h2; simp [St.setArr, St.setSc, h1])
        simp only [List.getElem_cons_zero] at this
        simp only [cval, col_ok hA hqx A' hi, this, Option.bind_some, COp.run]
      · intro _ A' i j hi hj
        have := hs 0 (by simp) (((σ.setArr x A').setSc "i" i).setSc "j" j) (by intro y h1 h2; simp [St.setArr, St.setSc, h1, h2])
        simp only [List.getElem_cons_zero] at this
        simp only [cval, (cell_ok hA hqx A' hi hj).1, this, Option.bind_some, COp.run]
  | transpose a ih =>
    intro _ x D c hx hD
    obtain ⟨rfl, ht⟩ := ht
    have ha := arg_of_gen hc a ht D c hD (ih ht fun u hu => hsm u (by simp [TExp.subs, hu]))
    refine call_one HI hM hc "matrix_transpose" (by decide +kernel) (by decide) (by decide) (by decide)
      (.transpose a) a [] rfl (by simp) (fun _ A i j => A j i) ?_ (hsm _ (by simp [TExp.subs]))
      (fun q x => loopStm .mat x fun _ => .at (.name q) cj ci) (fun q x D hq => callStms_transpose q x D hq) ?_ x D c hx hD ha
    · intro vs A hv
      obtain rfl := List.length_eq_zero_iff.1 hv
      exact fn_transpose HI M.len hM.pos A
    · intro q x σ A vs hv hA hxs hqx hs hb
      exact loop_ok hM .mat (fun _ => .at (.name q) cj ci) _ hxs (by simp) (fun _ A' i j hi hj => (cell_ok hA hqx A' hi hj).2) hb
  | cond v a b iha ihb =>
    intro _ x D c hx hD
    obtain ⟨hv, hta, htb, hna, hnb⟩ := ht
    obtain ⟨s, D1, c1, ⟨n1, hn1⟩, hle1, hl1, hd1, he1⟩ := iha hta (fun u hu => hsm u (by simp [TExp.subs, hu])) hna x D c hx hD
    have hD1 : DimOk k params D1 := fun y hy => by rw [hd1 y (hx.ne (hc _ hy)) (hc _ hy).old]; exact hD y hy
    obtain ⟨s', D2, c2, ⟨n2, hn2⟩, hle2, hl2, hd2, he2⟩ := ihb htb (fun u hu => hsm u (by simp [TExp.subs, hu])) hnb x D1 c1 (hx.mono hle1) hD1
    refine ⟨[.cond (.name v) s s'], D2, c2, ⟨n1 + n2 + 2, ?_⟩, by omega, hl2, fun y hy ho => (hd2 y hy (ho.mono hle1)).trans (hd1 y hy ho), ?_⟩
    · intro n hn
      obtain ⟨n, rfl⟩ : ∃ m, n = m + 2 := ⟨n - 2, by omega⟩
      simp only [TExp.toExpr, gen, Option.bind_some, hn1 (n + 1) (by omega), hn2 (n + 1) (by omega), exprTy_texp a hta, Code.toExp, Code.toStms]
    · intro σ H hxs
      obtain ⟨bv, e1, e2⟩ := H.bool v hv
      have hcv : cval M σ (.name v) = some (if bv then 1 else 0) := by simp only [cval]; rw [if_neg (hc _ hv).2.2.2.1, e1]
      have hev : eval I ρ ((TExp.cond v a b).toExpr k) = if bv then eval I ρ (a.toExpr k) else eval I ρ (b.toExpr k) := by
        simp [TExp.toExpr, eval, evals, evalOp, e2]
        cases bv <;> simp [Val.asBool]
      cases bv with
      | true =>
        obtain ⟨σ', A, h1, h2, h3, h4, h5⟩ := he1 σ H hxs
        exact ⟨σ', A, by simp [execs, exec, hcv, h1], h2, h3, by rw [hev]; exact h4, h5⟩
      | false =>
        obtain ⟨σ', A, h1, h2, h3, h4, h5⟩ := he2 σ H hxs
        exact ⟨σ', A, by simp [execs, exec, hcv, h1], h2, h3, by rw [hev]; exact h4, fun y hy ho => h5 y hy (ho.mono hle1)⟩
  | lincomb s y t z =>
    intro _ x D c hx hD
    obtain ⟨rfl, hs, ht', hy, hz⟩ := ht
    refine ⟨[.resadd len len s.code t.code (.name y) (.name z) x], (x, (len, len)) :: D, c, ⟨s.sz + t.sz + 5, ?_⟩, Nat.le_refl _, dims_cons.1, fun y hy _ => dims_cons.2 y hy, ?_⟩
    · intro n hn
      obtain ⟨n, rfl⟩ : ∃ m, n = m + 4 := ⟨n - 4, by omega⟩
      have hdy : D.lookup y = some (len, len) := hD y hy
      simp [TExp.toExpr, gen, fused, genAll, gen_scalar fns flt D c s (n + 2) (by omega), gen_scalar fns flt D c t (n + 2) (by omega), Code.toExp, dimOf, hdy, K.ty, pure]
    · intro σ H hxs
      obtain ⟨A, a1, a2⟩ := H.arr y hy
      obtain ⟨B, b1, b2⟩ := H.arr z hz
      obtain ⟨v, v1, v2⟩ := scalar_ok I M hc H s hs
      obtain ⟨w, w1, w2⟩ := scalar_ok I M hc H t ht'
      have hev : eval I ρ ((TExp.lincomb s y t z).toExpr .vec) = valOf M.len .vec fun i j => v * A i j + w * B i j := by
        simp only [TExp.toExpr, eval, evals, evalOp, v1, w1, a2, b2, fn_scalarMul HI]
        exact fn_bin HI M.len hM.pos .vec .add _ _
      have hsm' := hsm _ (by simp [TExp.subs] : TExp.lincomb s y t z ∈ _)
      rw [hev] at hsm'
      obtain ⟨σ2, g1, g2⟩ := resadd_ok hM .vec a1 b1 hxs (v2 σ fun _ _ _ => rfl) (w2 σ fun _ _ _ => rfl) (fun i j hij => small_idx hsm' hij)
      obtain ⟨r1, C, r2, r3, r4⟩ := finish (σ := σ) (c := c) rfl (fun _ _ => rfl) g2
      exact ⟨σ2, C, g1, r1, r2, by rw [hev, r3], r4⟩
  | bin o a b iha ihb =>
    intro _ x D c hx hD
    obtain ⟨s, p, D1, c1, ⟨n1, hn1⟩, hle1, hl1, hp1, hd1, he1⟩ := arg_of_gen hc a ht.1 D c hD (iha ht.1 fun u hu => hsm u (by simp [TExp.subs, hu]))
    obtain ⟨s', q, D2, c2, ⟨n2, hn2⟩, hle2, hl2, hp2, hd2, he2⟩ := arg_of_gen hc b ht.2 D1 c1 (dimOk_of hc hD hd1) (ihb ht.2 fun u hu => hsm u (by simp [TExp.subs, hu]))
    have hpo : Old c1 p := by
      rcases hp1 with h | ⟨m, h1, h2, rfl⟩
      · exact (hc _ h).old
      · exact old_temp h2
    have hpx : p ≠ x := by
      rcases hp1 with h | ⟨m, h1, h2, rfl⟩
      · exact hx.ne (hc _ h)
      · exact fun h => hx.old m h1 h.symm
    have hqx : q ≠ x := by
      rcases hp2 with h | ⟨m, h1, h2, rfl⟩
      · exact hx.ne (hc _ h)
      · exact fun h => hx.old m (by omega) h.symm
    have hlp : D2.lookup p = some (len, len) := (hd2 p hpo).trans hl1
    refine ⟨s ++ (s' ++ [binStm k o p q x]), (x, (len, len)) :: D2, c2, ⟨n1 + n2 + 4, ?_⟩, by omega, dims_cons.1,
      fun y hy ho => (dims_cons.2 y hy).trans ((hd2 y (ho.mono hle1)).trans (hd1 y ho)), ?_⟩
    · intro n hn
      obtain ⟨n, rfl⟩ : ∃ m, n = m + 3 := ⟨n - 3, by omega⟩
      have hk : known (k.fn o) = true := by cases k <;> cases o <;> decide +kernel
      have hll : k.fn o ≠ "list_length" := by cases k <;> cases o <;> decide +kernel
      rw [TExp.toExpr, gen, fused_texp]
      have hnil : genArgs fns flt n [] D2 c2 = some ([], [], D2, c2) := by cases n <;> simp [genArgs]
      simp only [hn1 (n + 1) (by omega), hn2 n (by omega), hnil, Option.bind_some, if_neg hll, hk, if_true, List.append_nil, callStms_bin o p q x D2 hlp, Option.map_some,
        List.append_assoc]
    · intro σ H hxs
      obtain ⟨σ1, A, h1, h2, h3, h4, h5⟩ := he1 σ H
      obtain ⟨σ2, B, i1, i2, i3, i4, i5⟩ := he2 σ1 (holds_of hc H h2 fun y hy => h5 y hy.old)
      have hev : eval I ρ ((TExp.bin o a b).toExpr k) = valOf M.len k fun i j => o.run (A i j) (B i j) := by
        simp only [TExp.toExpr, eval, evals, evalOp, h4, i4]
        exact fn_bin HI M.len hM.pos k o _ _
      have hsm' := hsm _ (by simp [TExp.subs] : TExp.bin o a b ∈ _)
      rw [hev] at hsm'
      have hA2 : σ2.arr p = some A := (i5 p hpo).trans h3
      have hxs2 : (σ2.arr x).isSome := by rw [i5 x (hx.old.mono hle1), h5 x hx.old]; exact hxs
      have hstep : ∃ σ3, execs M [binStm k o p q x] σ2 = some σ3 ∧ Wrote M k σ2 x (fun i j => o.run (A i j) (B i j)) σ3 := by
        cases o with
        | add =>
          have e : (fun i j => Ar.run .add (A i j) (B i j)) = fun i j => 1 * A i j + 1 * B i j := by funext i j; simp [Ar.run]
          rw [e] at hsm' ⊢
          exact resadd_ok hM k hA2 i3 hxs2 rfl rfl (fun i j hij => small_idx hsm' hij)
        | sub =>
          have e : (fun i j => Ar.run .sub (A i j) (B i j)) = fun i j => 1 * A i j + (-1) * B i j := by funext i j; simp [Ar.run]; omega
          rw [e] at hsm' ⊢
          exact resadd_ok hM k hA2 i3 hxs2 rfl rfl (fun i j hij => small_idx hsm' hij)
        | mul =>
          refine loop_ok hM k (fun v => .bin .mul (v (.name p)) (v (.name q))) _ hxs2 ?_ ?_ (fun i j hij => small_idx hsm' hij)
          · intro _ A' i hi
            simp only [cval, col_ok hA2 hpx A' hi, col_ok i3 hqx A' hi, Option.bind_some, COp.run, Ar.run]
          · intro _ A' i j hi hj
            simp only [cval, (cell_ok hA2 hpx A' hi hj).1, (cell_ok i3 hqx A' hi hj).1, Option.bind_some, COp.run, Ar.run]
      obtain ⟨σ3, g1, g2⟩ := hstep
      obtain ⟨r1, C, r2, r3, r4⟩ := finish (σ := σ) (c := c) (i2.trans h2) (fun y ho => (i5 y (ho.mono hle1)).trans (h5 y ho)) g2
      refine ⟨σ3, C, ?_, r1, r2, by rw [hev, r3], r4⟩
      rw [execs_append, h1, Option.bind_some, execs_append, i1, Option.bind_some]
      exact g1

end Metalift.Gem
