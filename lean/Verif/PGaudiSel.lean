import Verif.PGaudi
/-
C77 for selections: the kernel for `matrix_selection_two_args(a, b, g)`.
-/
namespace Metalift.Gaudi
open Metalift Metalift.Ten
open Metalift.Gem (Ar K SExp)

/-! ### Specification -/

/-- The operator of a comparison. -/
def Cmp.op : Cmp → Op
  | .gt => .gt
  | .eq => .eq
  | .lt => .lt
  | .le => .le
  | .ge => .ge

/-- A function of two integers that selects one of two expressions by a comparison. -/
structure Sel where
  x : String
  y : String
  c : Cmp
  e0 : SExp
  e1 : SExp
  e2 : SExp
  e3 : SExp
/-- Its condition. -/
def Sel.cond (S : Sel) : Expr := .node S.c.op .bool [S.e0.toExpr, S.e1.toExpr]
/-- Its body. -/
def Sel.body (S : Sel) : Expr := .node .ite .int [S.cond, S.e2.toExpr, S.e3.toExpr]
/-- The variables in its body are its parameters. -/
def Sel.ok (S : Sel) : Prop := ∀ e ∈ [S.e0, S.e1, S.e2, S.e3], e.ok [(S.x, .int), (S.y, .int)]
/-- The variables of a call. -/
def Sel.env (S : Sel) (u v : Int) : Env := fun z => if z = S.x then .int u else .int v
/-- In a call with these arguments all numbers are in the range; those of the other branch need not be. -/
def Sel.Fits (I : Interp) (d : DT) (S : Sel) (u v : Int) : Prop :=
  (∀ e ∈ intSubs S.e0 ++ intSubs S.e1, InRange d (eval I (S.env u v) e.toExpr)) ∧
    ∀ e ∈ intSubs (if (eval I (S.env u v) S.cond).asBool then S.e2 else S.e3), InRange d (eval I (S.env u v) e.toExpr)
/-- The last function whose name ends in `select_two_args` is this one. -/
def IsSelect (fns : List (String × Fn)) (S : Sel) : Prop :=
  ∃ pre name post, fns = pre ++ (name ++ "select_two_args", ⟨[S.x, S.y], S.body⟩) :: post ∧ ∀ p ∈ post, ∀ name, p.1 ≠ name ++ "select_two_args"

/-! ### Proof -/

theorem endsWith_append (a b : String) : endsWith (a ++ b) b = true := by
  simp [endsWith, String.toList_append, List.reverse_append, List.isPrefixOf_iff_prefix]
theorem endsWith_inv {a b : String} (h : endsWith a b = true) : ∃ n, a = n ++ b := by
  simp only [endsWith, List.isPrefixOf_iff_prefix] at h
  obtain ⟨l, hl⟩ := h
  refine ⟨String.ofList l.reverse, String.ext ?_⟩
  have := congrArg List.reverse hl
  simp at this
  simp [String.toList_append, ← this]

theorem isSelect_find {fns : List (String × Fn)} {S : Sel} (h : IsSelect fns S) : ∃ nm, (fns.reverse.find? fun p => endsWith p.1 "select_two_args") = some (nm, ⟨[S.x, S.y], S.body⟩) := by
  obtain ⟨pre, name, post, rfl, hpost⟩ := h
  refine ⟨name ++ "select_two_args", ?_⟩
  have h1 : (post.reverse.find? fun p => endsWith p.1 "select_two_args") = none := by
    rw [List.find?_eq_none]
    intro p hp h
    obtain ⟨n, hn⟩ := endsWith_inv h
    exact hpost p (List.mem_reverse.1 hp) n hn
  simp [List.reverse_append, List.find?_append, h1, endsWith_append]

/-- There is a variable in the expression. -/
def hasVar : SExp → Bool
  | .var _ => true
  | .lit _ => false
  | .bin _ a b => hasVar a || hasVar b

theorem noVar (e : SExp) (h : hasVar e = false) : e.ok [] ∧ (∀ pv qv, sval pv e = sval qv e) ∧ ∀ u ∈ intSubs e, hasVar u = false := by
  induction e with
  | var x => simp [hasVar] at h
  | lit i => exact ⟨trivial, fun _ _ => rfl, by simp [intSubs, hasVar]⟩
  | bin o a b iha ihb =>
    have h' := h
    simp only [hasVar, Bool.or_eq_false_iff] at h
    obtain ⟨a1, a2, a3⟩ := iha h.1
    obtain ⟨b1, b2, b3⟩ := ihb h.2
    refine ⟨⟨a1, b1⟩, fun pv qv => by simp [sval, a2 pv qv, b2 pv qv], fun u hu => ?_⟩
    simp only [intSubs, List.mem_cons, List.mem_append] at hu
    rcases hu with rfl | hu | hu
    · exact h'
    · exact a3 u hu
    · exact b3 u hu

theorem noVar_small {d : DT} (e : SExp) (h : hasVar e = false) {pv qv : String → Int} (hs : ssmall d qv e) : ssmall d pv e := by
  intro u hu
  rw [(noVar u ((noVar e h).2.2 u hu)).2.1 pv qv]
  exact hs u hu

section
variable {M : Mach} {d : DT} {P : Seen} {pv : String → Int}

theorem sel_int (hM : M.Ok) (hd : d ≠ .f32) (fns : List (String × Fn)) {rep : List (String × Expr)} {x y : String} {m0 m1 : Expr} (hx : rep.lookup x = some m0) (hy : rep.lookup y = some m1)
    (N0 : Nat) {p q : Prop} {qv : String → Int}
    (h0 : ∀ ov, (ov = none ∨ ov = some (vecTy d)) → ∀ G s, Inv M d P pv G s → GenN M d P pv G (fun n => gen fns d n ov rep s m0) N0 (vecTy d) fun v => p → v = qv x)
    (h1 : ∀ ov, (ov = none ∨ ov = some (vecTy d)) → ∀ G s, Inv M d P pv G s → GenN M d P pv G (fun n => gen fns d n ov rep s m1) N0 (vecTy d) fun v => q → v = qv y)
    (e : SExp) (he : e.ok [(x, .int), (y, .int)]) :
    ∀ ov, (ov = none ∨ ov = some (vecTy d)) → ∀ G s, Inv M d P pv G s →
      GenN M d P pv G (fun n => gen fns d n ov rep s e.toExpr) (N0 + depth e) (ov.getD (if hasVar e then vecTy d else intTy d)) fun v => p ∧ q ∧ ssmall d qv e → v = sval qv e := by
  have const : ∀ e : SExp, hasVar e = false → ∀ ov, (ov = none ∨ ov = some (vecTy d)) → ∀ G s, Inv M d P pv G s →
      GenN M d P pv G (fun n => gen fns d n ov rep s e.toExpr) (N0 + depth e) (ov.getD (if hasVar e then vecTy d else intTy d)) fun v => p ∧ q ∧ ssmall d qv e → v = sval qv e := by
    intro e h ov hov G s hi
    obtain ⟨l, i, s', G', a, b, c, v, r, hv⟩ := int_ok (params := []) hM hd fns ⟨fun _ h => by simp at h, fun _ _ h => by simp at h, fun _ h => by simp at h⟩
      (rep := rep) (fun _ h => by simp at h) e (noVar e h).1 ov hov G s hi
    refine ⟨l, i, s', G', fun n hn => a n (by omega), b, c, v, by simpa [h] using r, fun hs => ?_⟩
    rw [(noVar e h).2.1 qv pv]
    exact hv (noVar_small e h hs.2.2)
  induction e with
  | var z =>
    intro ov hov G s hi
    have hz : z = x ∨ z = y := by simpa [SExp.ok] using he
    have hty : ov.getD (if hasVar (.var z) then vecTy d else intTy d) = vecTy d := by rcases hov with rfl | rfl <;> simp [hasVar]
    rw [hty]
    have step : ∀ n m, rep.lookup z = some m → gen fns d (n + 1) ov rep s (SExp.var z).toExpr = gen fns d n ov rep s m := by
      intro n m hm
      simp only [SExp.toExpr, gen, Expr.ty, bodyTy_int, hm]
    rcases hz with rfl | rfl
    · obtain ⟨l, i, s', G', a, b, c, v, r, hv⟩ := h0 ov hov G s hi
      refine ⟨l, i, s', G', fun n hn => ?_, b, c, v, r, fun h => hv h.1⟩
      obtain ⟨n, rfl⟩ : ∃ m, n = m + 1 := ⟨n - 1, by simp only [depth] at hn; omega⟩
      simp only [depth] at hn
      exact (step n _ hx).trans (a n (by omega))
    · obtain ⟨l, i, s', G', a, b, c, v, r, hv⟩ := h1 ov hov G s hi
      refine ⟨l, i, s', G', fun n hn => ?_, b, c, v, r, fun h => hv h.2.1⟩
      obtain ⟨n, rfl⟩ : ∃ m, n = m + 1 := ⟨n - 1, by simp only [depth] at hn; omega⟩
      simp only [depth] at hn
      exact (step n _ hy).trans (a n (by omega))
  | lit k => exact const (.lit k) rfl
  | bin o a b iha ihb =>
    cases hv : hasVar (.bin o a b) with
    | false => exact fun ov hov G s hi => by have := const (.bin o a b) hv ov hov G s hi; rwa [hv] at this
    | true =>
    intro ov hov G s hi
    have hsm : ssmall d qv (.bin o a b) → ssmall d qv a ∧ ssmall d qv b ∧ d.has (o.run (sval qv a) (sval qv b)) := fun h =>
      ⟨fun u hu => h u (by simp [intSubs, hu]), fun u hu => h u (by simp [intSubs, hu]), h _ (intSubs_self _)⟩
    obtain ⟨la, ia, s1, G1, e1, p1, i1, v, r1, -⟩ := iha he.1 none (.inl rfl) G s hi
    obtain ⟨lb, ib, s2, G2, e2, p2, i2, w, r2, -⟩ := ihb he.2 none (.inl rfl) G1 s1 i1
    have hgen : ∀ n, N0 + depth a + depth b ≤ n → gen fns d (n + 1) ov rep s (SExp.bin o a b).toExpr =
        match ia.prim?, ib.prim? with
          | some true, some true =>
            (fmt s2.count (.prim (copOf o) ia.dest ib.dest) (intTy d) (some (ov.getD (intTy d)))).bind fun (l, k, i) =>
            some (la ++ lb ++ l, i, ⟨k, s2.cache⟩)
          | some true, some false => gen fns d n none rep s2 (.node (.call ("scalar_matrix" ++ suffix (copOf o))) (.list (.list .int)) [a.toExpr, b.toExpr])
          | some false, some true => gen fns d n none rep s2 (.node (.call ("matrix_scalar" ++ suffix (copOf o))) (.list (.list .int)) [b.toExpr, a.toExpr])
          | some false, some false => gen fns d n none rep s2 (.node (.call ("matrix_elemwise" ++ suffix (copOf o))) (.list (.list .int)) [a.toExpr, b.toExpr])
          | _, _ => none := by
      intro n hn
      have e1 := e1 n (by omega)
      have e2 := e2 n (by omega)
      cases o <;> · simp only [SExp.toExpr, Ar.op]; rw [gen]; simp only [Expr.ty, bodyTy_int, cop, copOf, e1, e2, Option.bind_some]; rfl
    have ta : ia.prim? = some (if hasVar a then vecTy d else intTy d).prim := by simpa [Instr.prim?] using congrArg (Option.map BT.prim) r1.ty
    have tb : ib.prim? = some (if hasVar b then vecTy d else intTy d).prim := by simpa [Instr.prim?] using congrArg (Option.map BT.prim) r2.ty
    have hvec : (vecTy d).prim = false := by cases d <;> rfl
    -- the call that is generated instead
    have route : ∀ (nm : String) (c1 c2 : SExp), (opOf nm = some (vop o) ∧ endsWith nm "matrix_selection_two_args" = false ∧ nm ≠ "reduce_sum" ∧ nm ∉ slices) →
        (swapped nm = false ∧ c1 = a ∧ c2 = b ∨ swapped nm = true ∧ c1 = b ∧ c2 = a) →
        (∀ n, N0 + depth a + depth b + 1 ≤ n → gen fns d (n + 1) ov rep s (SExp.bin o a b).toExpr =
          gen fns d n none rep s2 (.node (.call nm) (.list (.list .int)) [c1.toExpr, c2.toExpr])) →
        GenN M d P pv G (fun n => gen fns d n ov rep s (SExp.bin o a b).toExpr) (N0 + depth (.bin o a b)) (ov.getD (vecTy d))
          fun v => p ∧ q ∧ ssmall d qv (.bin o a b) → v = sval qv (.bin o a b) := by
      rintro nm c1 c2 ⟨n1, n2, n3, n4⟩ hsw hn
      have hc : ∀ c : SExp, c = a ∨ c = b → ∀ G s, Inv M d P pv G s →
          GenN M d P pv G (fun n => gen fns d n (some (vecTy d)) rep s c.toExpr) (N0 + depth a + depth b) (vecTy d) fun v => p ∧ q ∧ ssmall d qv c → v = sval qv c := by
        rintro c (rfl | rfl) G s hi
        · exact (iha he.1 _ (.inr rfl) G s hi).weaken (by omega)
        · exact (ihb he.2 _ (.inr rfl) G s hi).weaken (by omega)
      obtain ⟨l, i, s3, G3, e3, p3, i3, u, r3, q3⟩ := call_ok hM hd fns (N0 + depth a + depth b) n1 n2 n3 n4 (.list .int) (ov := none) (.inl rfl) c1.toExpr c2.toExpr (sval qv c1) (sval qv c2)
        (p ∧ q ∧ ssmall d qv c1) (p ∧ q ∧ ssmall d qv c2) (hc c1 (by rcases hsw with h | h <;> simp [h])) (hc c2 (by rcases hsw with h | h <;> simp [h])) i2
      have hfin : ov.getD (vecTy d) = vecTy d := by rcases hov with rfl | rfl <;> rfl
      refine ⟨l, i, s3, G3, fun n hn' => ?_, (p1.trans p2).trans p3, i3, u, by rw [hfin]; exact r3, fun hx => ?_⟩
      · simp only [depth] at hn'
        obtain ⟨n, rfl⟩ : ∃ m, n = m + 1 := ⟨n - 1, by omega⟩
        exact (hn n (by omega)).trans (e3 n (by omega))
      · obtain ⟨hp, hq, hx⟩ := hx
        obtain ⟨ha, hb, hx⟩ := hsm hx
        rcases hsw with ⟨hs, rfl, rfl⟩ | ⟨hs, rfl, rfl⟩
        · have := q3 ⟨hp, hq, ha⟩ ⟨hp, hq, hb⟩
          rw [hs, vop_run] at this
          exact this hx
        · have := q3 ⟨hp, hq, hb⟩ ⟨hp, hq, ha⟩
          rw [hs, vop_run] at this
          exact this hx
    have nme : opOf ("matrix_elemwise" ++ suffix (copOf o)) = some (vop o) ∧ endsWith ("matrix_elemwise" ++ suffix (copOf o)) "matrix_selection_two_args" = false ∧
        "matrix_elemwise" ++ suffix (copOf o) ≠ "reduce_sum" ∧ "matrix_elemwise" ++ suffix (copOf o) ∉ slices := by cases o <;> decide +kernel
    have nms : opOf ("matrix_scalar" ++ suffix (copOf o)) = some (vop o) ∧ endsWith ("matrix_scalar" ++ suffix (copOf o)) "matrix_selection_two_args" = false ∧
        "matrix_scalar" ++ suffix (copOf o) ≠ "reduce_sum" ∧ "matrix_scalar" ++ suffix (copOf o) ∉ slices := by cases o <;> decide +kernel
    have nsm : opOf ("scalar_matrix" ++ suffix (copOf o)) = some (vop o) ∧ endsWith ("scalar_matrix" ++ suffix (copOf o)) "matrix_selection_two_args" = false ∧
        "scalar_matrix" ++ suffix (copOf o) ≠ "reduce_sum" ∧ "scalar_matrix" ++ suffix (copOf o) ∉ slices := by cases o <;> decide +kernel
    have swe : swapped ("matrix_elemwise" ++ suffix (copOf o)) = false := by cases o <;> decide +kernel
    have sws : swapped ("matrix_scalar" ++ suffix (copOf o)) = true := by cases o <;> decide +kernel
    have ssm : swapped ("scalar_matrix" ++ suffix (copOf o)) = false := by cases o <;> decide +kernel
    simp only [ta, tb] at hgen
    simp only [if_true]
    cases pa : (if hasVar a then vecTy d else intTy d).prim <;> cases pb : (if hasVar b then vecTy d else intTy d).prim <;> simp only [pa, pb] at hgen
    · exact route _ a b nme (.inl ⟨swe, rfl, rfl⟩) fun n hn => hgen n (by omega)
    · exact route _ b a nms (.inr ⟨sws, rfl, rfl⟩) fun n hn => hgen n (by omega)
    · exact route _ a b nsm (.inl ⟨ssm, rfl, rfl⟩) fun n hn => hgen n (by omega)
    · simp only [hasVar, Bool.or_eq_true] at hv
      rcases hv with h | h
      · simp [h, hvec] at pa
      · simp [h, hvec] at pb

theorem select_ok (hM : M.Ok) (hd : d ≠ .f32) {fns : List (String × Fn)} {S : Sel} (hS : S.ok) (hfns : IsSelect fns S) (hxy : S.x ≠ S.y) (m0 m1 : Expr) (rest : List Expr) (N0 : Nat) {p q : Prop}
    {qv : String → Int}
    (h0 : ∀ ov, (ov = none ∨ ov = some (vecTy d)) → ∀ G s, Inv M d P pv G s →
      GenN M d P pv G (fun n => gen fns d n ov [(S.y, m1), (S.x, m0)] s m0) N0 (vecTy d) fun v => p → v = qv S.x)
    (h1 : ∀ ov, (ov = none ∨ ov = some (vecTy d)) → ∀ G s, Inv M d P pv G s →
      GenN M d P pv G (fun n => gen fns d n ov [(S.y, m1), (S.x, m0)] s m1) N0 (vecTy d) fun v => q → v = qv S.y) {G : Log} {s : Gaudi.S} (hi : Inv M d P pv G s) :
    GenN M d P pv G (fun n => gen fns d n (some (vecTy d)) [] s (.node (.call "matrix_selection_two_args") (.list (.list .int)) (m0 :: m1 :: rest)))
      (N0 + depth S.e0 + depth S.e1 + depth S.e2 + depth S.e3 + 1) (vecTy d)
      fun v => p ∧ q → ssmall d qv S.e0 → ssmall d qv S.e1 →
        ssmall d qv (if S.c.run (sval qv S.e0) (sval qv S.e1) then S.e2 else S.e3) → v = sval qv (if S.c.run (sval qv S.e0) (sval qv S.e1) then S.e2 else S.e3) := by
  obtain ⟨nm, hnm⟩ := isSelect_find hfns
  have hx : List.lookup S.x [(S.y, m1), (S.x, m0)] = some m0 := by
    have : (S.x == S.y) = false := by simp [hxy]
    simp [List.lookup, this]
  have hy : List.lookup S.y [(S.y, m1), (S.x, m0)] = some m1 := by simp [List.lookup]
  have go := fun e he => sel_int hM hd fns hx hy N0 h0 h1 e he (some (vecTy d)) (.inr rfl)
  obtain ⟨l0, i0, s0, G0, a0, p0, k0, v0, r0, q0⟩ := go S.e0 (hS _ (by simp)) G s hi
  obtain ⟨l1, i1, s1, G1, a1, p1, k1, v1, r1, q1⟩ := go S.e1 (hS _ (by simp)) G0 s0 k0
  obtain ⟨l2, i2, s2, G2, a2, p2, k2, v2, r2, q2⟩ := go S.e2 (hS _ (by simp)) G1 s1 k1
  obtain ⟨l3, i3, s3, G3, a3, p3, k3, v3, r3, q3⟩ := go S.e3 (hS _ (by simp)) G2 s2 k2
  simp only [Option.getD_some] at r0 r1 r2 r3
  have t0 := r0.mono ((p1.trans p2).trans p3)
  have t1 := r1.mono (p2.trans p3)
  have t2 := r2.mono p3
  have hs : Snd d P G3 (.sel S.c i0.dest i1.dest i2.dest i3.dest) (vecTy d) (if S.c.run v0 v1 then v2 else v3) := by
    intro look _ h
    have g0 := h i0.dest (by simp [Rhs.names]) _ _ (res_at k3 t0)
    have g1 := h i1.dest (by simp [Rhs.names]) _ _ (res_at k3 t1)
    have g2 := h i2.dest (by simp [Rhs.names]) _ _ (res_at k3 t2)
    have g3 := h i3.dest (by simp [Rhs.names]) _ _ (res_at k3 r3)
    simp [evalRhs, g0, g1, g2, g3, hd]
  obtain ⟨l', n', i', G', f1, f2, f3, u, f4, f5⟩ := fmt_ok hM k3 (La := l0 ++ l1 ++ l2 ++ l3)
    (by
      intro I h
      simp only [List.mem_append] at h
      rcases h with ((h | h) | h) | h
      · exact t0.logged I h
      · exact t1.logged I h
      · exact t2.logged I h
      · exact r3.logged I h)
    (closed_append (closed_append (closed_append r0.closed (closed_mono (by simp) r1.closed)) (closed_mono (by simp) r2.closed)) (closed_mono (by simp) r3.closed)) hs
    (by
      intro a ha n _
      simp only [Rhs.names, List.mem_cons, List.not_mem_nil, or_false] at ha
      simp only [List.map_append, List.mem_append]
      rcases ha with rfl | rfl | rfl | rfl
      · exact .inl (.inl (.inl (List.mem_map.2 ⟨_, r0.mem, rfl⟩)))
      · exact .inl (.inl (.inr (List.mem_map.2 ⟨_, r1.mem, rfl⟩)))
      · exact .inl (.inr (List.mem_map.2 ⟨_, r2.mem, rfl⟩))
      · exact .inr (List.mem_map.2 ⟨_, r3.mem, rfl⟩)) (.inl rfl)
  refine ⟨l0 ++ l1 ++ l2 ++ l3 ++ l', i', ⟨n', s3.cache⟩, G', fun n hn => ?_, (((p0.trans p1).trans p2).trans p3).trans f2, f3, u, f4, fun hpq b0 b1 b2 => ?_⟩
  · obtain ⟨n, rfl⟩ : ∃ m, n = m + 1 := ⟨n - 1, by omega⟩
    have a0 := a0 n (by omega)
    have a1 := a1 n (by omega)
    have a2 := a2 n (by omega)
    have a3 := a3 n (by omega)
    have he : endsWith "matrix_selection_two_args" "matrix_selection_two_args" = true := by decide +kernel
    have hc : cmpOf S.c.op = some S.c := by cases S.c <;> rfl
    simp only [gen, Expr.ty, bodyTy_list, he, if_true, hnm, Sel.body, Sel.cond, hc, a0, a1, a2, a3, Option.bind_some, Option.getD_some, f1]
  · rw [q0 ⟨hpq.1, hpq.2, b0⟩, q1 ⟨hpq.1, hpq.2, b1⟩] at f5
    have hv : (if S.c.run (sval qv S.e0) (sval qv S.e1) = true then v2 else v3) = sval qv (if S.c.run (sval qv S.e0) (sval qv S.e1) then S.e2 else S.e3) := by
      split at b2 <;> rename_i hc
      · simp only [hc, if_true]; exact q2 ⟨hpq.1, hpq.2, b2⟩
      · simp only [hc, if_false, Bool.false_eq_true]; exact q3 ⟨hpq.1, hpq.2, b2⟩
    rw [hv] at f5
    have := fit_vec d _ (b2 _ (intSubs_self _))
    exact f5 this this

end

theorem sel_eval (I : Interp) (S : Sel) (hxy : S.x ≠ S.y) (u v : Int) {qv : String → Int} (h1 : qv S.x = u) (h2 : qv S.y = v) (e : SExp) (he : e.ok [(S.x, .int), (S.y, .int)]) :
    eval I (S.env u v) e.toExpr = .int (sval qv e) := by
  induction e with
  | var z =>
    have hz : z = S.x ∨ z = S.y := by simpa [SExp.ok] using he
    rcases hz with rfl | rfl
    · simp [SExp.toExpr, eval, Sel.env, sval, h1]
    · simp [SExp.toExpr, eval, Sel.env, sval, h2, Ne.symm hxy]
  | lit i => simp [SExp.toExpr, eval, Lit.val, sval]
  | bin o a b iha ihb =>
    have ha := iha he.1
    have hb := ihb he.2
    cases o <;> simp [SExp.toExpr, Ar.op, eval, evals, evalOp, ha, hb, sval, Ar.run, Val.asInt]

theorem cond_eval (I : Interp) (S : Sel) (hS : S.ok) (hxy : S.x ≠ S.y) (u v : Int) {qv : String → Int} (h1 : qv S.x = u) (h2 : qv S.y = v) :
    eval I (S.env u v) S.cond = .bool (S.c.run (sval qv S.e0) (sval qv S.e1)) := by
  have e0 := sel_eval I S hxy u v h1 h2 S.e0 (hS _ (by simp))
  have e1 := sel_eval I S hxy u v h1 h2 S.e1 (hS _ (by simp))
  cases hc : S.c <;> simp [Sel.cond, hc, Cmp.op, eval, evals, evalOp, e0, e1, Cmp.run, Val.asInt] <;> exact decide_eq_decide.2 Iff.rfl

theorem body_eval (I : Interp) (S : Sel) (hS : S.ok) (hxy : S.x ≠ S.y) (u v : Int) {qv : String → Int} (h1 : qv S.x = u) (h2 : qv S.y = v) :
    eval I (S.env u v) S.body = .int (sval qv (if S.c.run (sval qv S.e0) (sval qv S.e1) then S.e2 else S.e3)) := by
  have e2 := sel_eval I S hxy u v h1 h2 S.e2 (hS _ (by simp))
  have e3 := sel_eval I S hxy u v h1 h2 S.e3 (hS _ (by simp))
  have c := cond_eval I S hS hxy u v h1 h2
  simp only [Sel.body, eval, evals, evalOp, c, e2, e3, Val.asBool]
  split <;> rename_i h <;> simp [h]

/-- The two arguments of a call of the function. -/
def Sel.vals (S : Sel) (u v : Int) : String → Int := fun z => if z = S.x then u else v

theorem fits_small {I : Interp} {d : DT} {S : Sel} (hS : S.ok) (hxy : S.x ≠ S.y) {u v : Int} (h : S.Fits I d u v) :
    ssmall d (S.vals u v) S.e0 ∧ ssmall d (S.vals u v) S.e1 ∧
      ssmall d (S.vals u v) (if S.c.run (sval (S.vals u v) S.e0) (sval (S.vals u v) S.e1) then S.e2 else S.e3) := by
  have h1 : S.vals u v S.x = u := by simp [Sel.vals]
  have h2 : S.vals u v S.y = v := by simp [Sel.vals, Ne.symm hxy]
  have go : ∀ e : SExp, e.ok [(S.x, .int), (S.y, .int)] → (∀ z ∈ intSubs e, InRange d (eval I (S.env u v) z.toExpr)) → ssmall d (S.vals u v) e := by
    intro e he hz z hm
    have := hz z hm
    rw [sel_eval I S hxy u v h1 h2 z (ok_intSubs he z hm)] at this
    exact range_int this
  refine ⟨go _ (hS _ (by simp)) fun z hz => h.1 z (List.mem_append_left _ hz), go _ (hS _ (by simp)) fun z hz => h.1 z (List.mem_append_right _ hz), ?_⟩
  have h3 := h.2
  rw [cond_eval I S hS hxy u v h1 h2] at h3
  simp only [Val.asBool] at h3
  refine go _ ?_ h3
  split
  · exact hS _ (by simp)
  · exact hS _ (by simp)

/-- C77, selections.  The kernel for the selection between two matrices, element by element, by a function that compares two expressions: the last synthesized function whose name ends in
`select_two_args`, which is also the function that the summary passes (`hg`).  Its parameters must have other names than those of the kernel, and the numbers that occur must be in the range
of the data type, apart from those of the branch that is not taken. -/
theorem C77_selection_partial (I : Interp) (HI : Model I) (M : Mach) (hM : M.Ok) (d : DT) (hd : d ≠ .f32) (fns : List (String × Fn)) (S : Sel) (hS : S.ok) (hxy : S.x ≠ S.y) (hfns : IsSelect fns S)
    (f : String) (params : List (String × Ty)) (hp : Proper f params) (hn : ∀ p ∈ params, p.1 ≠ S.x ∧ p.1 ≠ S.y) (a b : TE) (ha : a.ok .mat params) (hb : b.ok .mat params) (fn : Expr) :
    ∃ (Kn : Kernel) (N : Nat),
      (∀ n, N ≤ n → kernel fns d n f params (.list (.list .int)) (.node (.call "matrix_selection_two_args") (.list (.list .int)) [a.toExpr .mat, b.toExpr .mat, fn]) = some Kn) ∧
      ∀ (w h : Nat) (ρ : Env) (scal : String → Int) (tens : String → Tensor) (g : String), 0 < w → Given w h .mat params ρ scal tens →
        eval I ρ fn = .fn g → (∀ u v, I.apply (.fn g) [.int u, .int v] = eval I (S.env u v) S.body) →
        (∀ u ∈ a.ints ++ b.ints, InRange d (eval I ρ u.toExpr)) → (∀ u ∈ a.subs ++ b.subs, InRange d (eval I ρ (u.toExpr .mat))) →
        (∀ A B, eval I ρ (a.toExpr .mat) = tensorOf w h .mat A → eval I ρ (b.toExpr .mat) = tensorOf w h .mat B → ∀ x y, Inside w h .mat x y → S.Fits I d (A x y) (B x y)) →
        ∃ T : Tensor, eval I ρ (.node (.call "matrix_selection_two_args") (.list (.list .int)) [a.toExpr .mat, b.toExpr .mat, fn]) = tensorOf w h .mat T ∧
          ∀ (i j i' j' : Int) (o : Tensor), ∃ o', Kn.run M d scal tens i j i' j' o = some o' ∧
            (∀ x y, Covers d .mat i j i' j' x y → Inside w h .mat x y → o' x y = T x y) ∧ (∀ x y, ¬ Covers d .mat i j i' j' x y → o' x y = o x y) := by
  have hnd := (List.nodup_append.1 hp.distinct).1
  have hrep : ∀ p ∈ params, List.lookup p.1 [(S.y, b.toExpr .mat), (S.x, a.toExpr .mat)] = none := by
    intro p hq
    have h1 : (p.1 == S.y) = false := by simp [(hn p hq).2]
    have h2 : (p.1 == S.x) = false := by simp [(hn p hq).1]
    simp [List.lookup, h1, h2]
  let res : (String → Int) → Int := fun pv =>
    sval (S.vals (a.at pv) (b.at pv)) (if S.c.run (sval (S.vals (a.at pv) (b.at pv)) S.e0) (sval (S.vals (a.at pv) (b.at pv)) S.e1) then S.e2 else S.e3)
  obtain ⟨Kn, h1, h2, h3, h4⟩ := kernel_gen (M := M) (k := .mat) fns hp (.node (.call "matrix_selection_two_args") (.list (.list .int)) [a.toExpr .mat, b.toExpr .mat, fn]) (by simp [isReduce])
    (a.depth + b.depth + depth S.e0 + depth S.e1 + depth S.e2 + depth S.e3 + 1)
    (fun pv v => a.small d pv ∧ b.small d pv → ssmall d (S.vals (a.at pv) (b.at pv)) S.e0 → ssmall d (S.vals (a.at pv) (b.at pv)) S.e1 →
      ssmall d (S.vals (a.at pv) (b.at pv)) (if S.c.run (sval (S.vals (a.at pv) (b.at pv)) S.e0) (sval (S.vals (a.at pv) (b.at pv)) S.e1) then S.e2 else S.e3) → v = res pv)
    fun P pv H => select_ok hM hd hS hfns hxy (a.toExpr .mat) (b.toExpr .mat) [fn] (a.depth + b.depth) (qv := S.vals (a.at pv) (b.at pv))
      (fun ov hov G s hi => by
        have := (ten_ok hM hd fns .mat H hrep a ha ov hov G s hi).weaken (N' := a.depth + b.depth) (by omega)
        simpa [Sel.vals] using this)
      (fun ov hov G s hi => by
        have := (ten_ok hM hd fns .mat H hrep b hb ov hov G s hi).weaken (N' := a.depth + b.depth) (by omega)
        simpa [Sel.vals, Ne.symm hxy] using this) inv_nil
  refine ⟨Kn, _, h1, fun w h ρ scal tens g hw H hfn hg hi hs hfit => ?_⟩
  have ea := eval_ten HI hw hnd H a ha
  have eb := eval_ten HI hw hnd H b hb
  refine ⟨fun x y => res (pvAt params scal tens x y), ?_, fun i j i' j' o => kernel_run hp h2 h3 (fun x y => ?_) i j i' j' o⟩
  · simp only [eval, evals, evalOp, ea, eb, hfn]
    have C := (C31_matrix_selections_partial I HI g _ _ 0 0 (same_shape' h w hw (fun x y => a.at (pvAt params scal tens x y)) fun x y => b.at (pvAt params scal tens x y))).1
    simp only [tensorOf]
    rw [C]
    simp only [matV, vecV, List.zipWith_map_left, List.zipWith_map_right, List.zipWith_self, List.map_map, Function.comp_def, Val.list.injEq]
    refine List.map_congr_left fun y _ => ?_
    congr 1
    refine List.map_congr_left fun x _ => ?_
    rw [hg, body_eval I S hS hxy _ _ (qv := S.vals (a.at (pvAt params scal tens x y)) (b.at (pvAt params scal tens x y))) (by simp [Sel.vals]) (by simp [Sel.vals, Ne.symm hxy])]
  · obtain ⟨v, hv, hq⟩ := h4 scal tens x y
    refine ⟨v, hv, fun hxy' => ?_⟩
    have small : ∀ t : TE, t.ok .mat params → (∀ u ∈ t.ints, InRange d (eval I ρ u.toExpr)) → (∀ u ∈ t.subs, InRange d (eval I ρ (u.toExpr .mat))) → t.small d (pvAt params scal tens x y) := by
      intro t ht h1 h2
      refine ⟨fun u hu => ?_, fun u hu => ?_⟩
      · have := h1 u hu
        rw [eval_int H u (ok_ints ht u hu) x y] at this
        exact range_int this
      · have := h2 u hu
        rw [eval_ten HI hw hnd H u (ok_subs ht u hu)] at this
        exact range_at this hxy'
    obtain ⟨f1, f2, f3⟩ := fits_small hS hxy (hfit _ _ ea eb x y hxy')
    exact hq ⟨small a ha (fun u hu => hi u (List.mem_append_left _ hu)) fun u hu => hs u (List.mem_append_left _ hu),
      small b hb (fun u hu => hi u (List.mem_append_right _ hu)) fun u hu => hs u (List.mem_append_right _ hu)⟩ f1 f2 f3

end Metalift.Gaudi
