import Verif.GaudiSpec
/-
C77: proofs about the generation of instructions and how a lane runs them.
-/
namespace Metalift.Gaudi
open Metalift Metalift.Ten
open Metalift.Gem (Ar K SExp)

theorem vname_inj {m n : Nat} (h : vname m = vname n) : m = n := by
  have := congrArg String.toList h
  simp only [vname, String.toList_append] at this
  exact Nat.repr_inj.1 (String.ext (List.append_cancel_left this))

/-- All instructions that were made, with their values in a lane. -/
abbrev Log := List (Instr × Int)

/-- The name has the type and value. -/
def At (G : Log) (a : String) (t : BT) (v : Int) : Prop := ∃ n I, a = vname n ∧ G[n]? = some (I, v) ∧ I.ty = some t

section
variable (M : Mach) (d : DT) (P : Seen)

/-- The right-hand side has the exact value `raw`. -/
def Snd (G : Log) (rhs : Rhs) (t : BT) (raw : Int) : Prop :=
  ∀ look : String → Option (BT × Int), (∀ a, (∀ n, a ≠ vname n) → look a = none) → (∀ a ∈ rhs.names, ∀ s w, At G a s w → look a = some (s, w)) →
    evalRhs d look P t rhs = some raw

/-- The log is right. -/
def WF (G : Log) : Prop :=
  ∀ n I v, G[n]? = some (I, v) → I.dest = vname n ∧ I.dest ∉ I.rhs.names ∧ ∃ t raw, I.ty = some t ∧ Snd d P G I.rhs t raw ∧ v = M.fit t raw

/-- Operands are declared before. -/
def Closed (seen : List String) : List Instr → Prop
  | [] => True
  | I :: l => (∀ a ∈ I.rhs.names, (∃ n, a = vname n) → a ∈ seen) ∧ Closed (I.dest :: seen) l

/-- All instructions are in the log. -/
def Logged (G : Log) (l : List Instr) : Prop := ∀ I ∈ l, ∃ (n : Nat) (v : Int), G[n]? = some (I, v)

/-- A result. -/
structure Res (G : Log) (l : List Instr) (i : Instr) (t : BT) (v : Int) : Prop where
  logged : Logged G l
  closed : Closed [] l
  mem : i ∈ l
  val : ∃ n : Nat, G[n]? = some (i, v)
  ty : i.ty = some t

theorem get_mono {G G' : Log} (h : G <+: G') {n : Nat} {p : Instr × Int} (hn : G[n]? = some p) : G'[n]? = some p := by
  obtain ⟨H, rfl⟩ := h
  rw [List.getElem?_append_left]
  · exact hn
  · exact (List.getElem?_eq_some_iff.1 hn).1

theorem At.mono {G G' : Log} (h : G <+: G') {a : String} {t : BT} {v : Int} : At G a t v → At G' a t v :=
  fun ⟨n, I, h1, h2, h3⟩ => ⟨n, I, h1, get_mono h h2, h3⟩

theorem Snd.mono {d : DT} {P : Seen} {G G' : Log} (h : G <+: G') {rhs : Rhs} {t : BT} {raw : Int} (hs : Snd d P G rhs t raw) : Snd d P G' rhs t raw :=
  fun look h1 h2 => hs look h1 fun a ha s w hw => h2 a ha s w (hw.mono h)

theorem Res.mono {G G' : Log} (h : G <+: G') {l : List Instr} {i : Instr} {t : BT} {v : Int} (r : Res G l i t v) : Res G' l i t v :=
  ⟨fun I hI => (r.logged I hI).imp fun _ ⟨v, hv⟩ => ⟨v, get_mono h hv⟩, r.closed, r.mem, r.val.imp fun _ hn => get_mono h hn, r.ty⟩

theorem closed_mono {s s' : List String} (h : ∀ a ∈ s, a ∈ s') {l : List Instr} (hl : Closed s l) : Closed s' l := by
  induction l generalizing s s' with
  | nil => trivial
  | cons I l ih =>
    refine ⟨fun a ha hv => h a (hl.1 a ha hv), ih (s := I.dest :: s) ?_ hl.2⟩
    intro a ha
    rcases List.mem_cons.1 ha with e | e
    · simp [e]
    · exact List.mem_cons_of_mem _ (h a e)

theorem closed_append {s : List String} {l m : List Instr} (hl : Closed s l) (hm : Closed (l.map Instr.dest ++ s) m) : Closed s (l ++ m) := by
  induction l generalizing s with
  | nil => exact hm
  | cons I l ih =>
    refine ⟨hl.1, ih hl.2 (closed_mono ?_ hm)⟩
    intro a ha
    simp only [List.map_cons, List.cons_append, List.mem_cons, List.mem_append] at ha ⊢
    rcases ha with h | h | h <;> simp [h]

/-- The state after some generation. -/
structure Inv (pv : String → Int) (G : Log) (s : S) : Prop where
  len : G.length = s.count
  wf : WF M d P G
  cache : ∀ e t l i, ((e, t), (l, i)) ∈ s.cache → ∃ v, Res G l i t v ∧
    ((∃ x ty, e = .var x ty ∧ (d.has (pv x) → v = pv x)) ∨ ∃ k, e = .lit (.int k) ∧ (d.has k → v = k))

variable {M d P}

theorem push {pv : String → Int} {G : Log} {s : S} (hi : Inv M d P pv G s) {La : List Instr} (h1 : Logged G La) (h2 : Closed [] La) {rhs : Rhs} {t : BT} {raw : Int}
    (h3 : Snd d P G rhs t raw) (h4 : ∀ a ∈ rhs.names, ∀ n, a = vname n → a ∈ La.map Instr.dest) :
    ∃ G', G <+: G' ∧ Inv M d P pv G' ⟨s.count + 1, s.cache⟩ ∧ Res G' (La ++ [⟨vname s.count, some t, rhs⟩]) ⟨vname s.count, some t, rhs⟩ t (M.fit t raw) := by
  have hp : G <+: G ++ [((⟨vname s.count, some t, rhs⟩ : Instr), M.fit t raw)] := ⟨_, rfl⟩
  have hget : (G ++ [((⟨vname s.count, some t, rhs⟩ : Instr), M.fit t raw)])[s.count]? = some (⟨vname s.count, some t, rhs⟩, M.fit t raw) := by
    rw [← hi.len]; simp
  refine ⟨_, hp, ⟨by simp [hi.len], ?_, ?_⟩, ?_, ?_, by simp, ⟨s.count, hget⟩, rfl⟩
  · intro n I v hn
    by_cases hl : n < G.length
    · rw [List.getElem?_append_left hl] at hn
      obtain ⟨a, b, t, raw, c, e, f⟩ := hi.wf n I v hn
      exact ⟨a, b, t, raw, c, e.mono hp, f⟩
    · have hn' : n = s.count := by
        have := (List.getElem?_eq_some_iff.1 hn).1
        simp only [List.length_append, List.length_singleton] at this
        have := hi.len
        omega
      subst hn'
      rw [hget] at hn
      simp only [Option.some.injEq, Prod.mk.injEq] at hn
      obtain ⟨rfl, rfl⟩ := hn
      refine ⟨rfl, fun hm => ?_, t, raw, rfl, h3.mono hp, rfl⟩
      obtain ⟨J, hJ, e⟩ := List.mem_map.1 (h4 _ hm _ rfl)
      obtain ⟨m, w, hm⟩ := h1 J hJ
      have := (hi.wf m J w hm).1
      rw [this] at e
      have := vname_inj e
      have := (List.getElem?_eq_some_iff.1 hm).1
      have := hi.len
      omega
  · intro e t l i hc
    obtain ⟨v, r, h⟩ := hi.cache e t l i hc
    exact ⟨v, r.mono hp, h⟩
  · intro I hI
    rcases List.mem_append.1 hI with h | h
    · obtain ⟨n, v, hn⟩ := h1 I h
      exact ⟨n, v, get_mono hp hn⟩
    · rw [List.mem_singleton] at h
      subst h
      exact ⟨_, _, hget⟩
  · refine closed_append h2 ⟨fun a ha ⟨n, hn⟩ => ?_, trivial⟩
    simpa using h4 a ha n hn

/-- The conversions that are used. -/
inductive Cv : BT → BT → Prop
  | u8 : Cv .uint8 .uchar256
  | mul8 : Cv .uint256 .uchar256
  | mul32 : Cv .int128 .int64

theorem res_at {pv : String → Int} {G : Log} {s : S} (hi : Inv M d P pv G s) {l : List Instr} {i : Instr} {t : BT} {v : Int} (r : Res G l i t v) : At G i.dest t v := by
  obtain ⟨n, hn⟩ := r.val
  exact ⟨n, i, (hi.wf n i v hn).1, hn, r.ty⟩

theorem snd_conv {G : Log} {a : String} {s t : BT} {v : Int} (hc : Cv s t) (ha : At G a s v) : Snd d P G (convRhs a s t) t v := by
  intro look _ h
  cases hc <;>
  · have := h a (by simp [convRhs, Rhs.names, BT.prim]) _ _ ha
    simp [convRhs, evalRhs, this, BT.prim]

theorem names_conv (a : String) (s t : BT) : (convRhs a s t).names = [a] := by
  unfold convRhs; split
  · rfl
  · split <;> rfl

theorem fmt_ok (hM : M.Ok) {pv : String → Int} {G : Log} {s : S} (hi : Inv M d P pv G s) {La : List Instr} (h1 : Logged G La) (h2 : Closed [] La) {rhs : Rhs} {t u : BT} {raw : Int}
    (h3 : Snd d P G rhs t raw) (h4 : ∀ a ∈ rhs.names, ∀ n, a = vname n → a ∈ La.map Instr.dest) (hc : t = u ∨ Cv t u) :
    ∃ l n i G', fmt s.count rhs t (some u) = some (l, n, i) ∧ G <+: G' ∧ Inv M d P pv G' ⟨n, s.cache⟩ ∧ ∃ v, Res G' (La ++ l) i u v ∧ (t.fits raw → u.fits raw → v = raw) := by
  obtain ⟨G1, p1, i1, r1⟩ := push hi h1 h2 h3 h4
  rcases hc with rfl | hc
  · refine ⟨_, _, _, G1, ?_, p1, i1, _, r1, fun h _ => hM _ _ h⟩
    have : (!t.prim && t.prim) = false := by cases t.prim <;> rfl
    simp [fmt, this]
  · obtain ⟨G2, p2, i2, r2⟩ := push i1 r1.logged r1.closed (snd_conv hc (res_at i1 r1)) (by
      intro a ha n hn
      rw [names_conv, List.mem_singleton] at ha
      subst ha
      exact List.mem_map.2 ⟨_, r1.mem, rfl⟩)
    refine ⟨[⟨vname s.count, some t, rhs⟩, ⟨vname (s.count + 1), some u, convRhs (vname s.count) t u⟩], s.count + 2,
      ⟨vname (s.count + 1), some u, convRhs (vname s.count) t u⟩, G2, ?_, p1.trans p2, i2, M.fit u (M.fit t raw), ?_, fun h h' => ?_⟩
    · cases hc <;> simp [fmt, BT.prim]
    · simpa using r2
    · rw [hM _ _ h, hM _ _ h']

variable {pv : String → Int}

/-- What a generation yields: instructions that are in an extended log, and the value of the last one. -/
def Gen (M : Mach) (d : DT) (P : Seen) (pv : String → Int) (G : Log) (r : Option (List Instr × Instr × S)) (t : BT) (Q : Int → Prop) : Prop :=
  ∃ l i s G', r = some (l, i, s) ∧ G <+: G' ∧ Inv M d P pv G' s ∧ ∃ v, Res G' l i t v ∧ Q v

theorem via_ok (e : Expr) (x : Int) (he : (∃ y ty, e = .var y ty ∧ x = pv y) ∨ e = .lit (.int x)) {G : Log} {s : S}
    {r : Option (List Instr × Nat × Instr)} {t : BT} {l : List Instr} {n : Nat} {i : Instr} {G' : Log} (hr : r = some (l, n, i)) (hp : G <+: G') (hi' : Inv M d P pv G' ⟨n, s.cache⟩)
    {v : Int} (rs : Res G' l i t v) (hv : d.has x → v = x) : Gen M d P pv G (viaCache s e r) t fun v => d.has x → v = x := by
  subst hr
  unfold viaCache
  simp only [rs.ty]
  cases hf : s.find e t with
  | some p =>
    obtain ⟨l', i'⟩ := p
    simp only [S.find, Option.map_eq_some_iff] at hf
    obtain ⟨⟨⟨e', t'⟩, l2, i2⟩, h1, h2⟩ := hf
    simp only [Prod.mk.injEq] at h2
    obtain ⟨rfl, rfl⟩ := h2
    have hm := List.mem_of_find?_eq_some h1
    have hq := List.find?_some h1
    simp only [Bool.and_eq_true, beq_iff_eq] at hq
    obtain ⟨hq, rfl⟩ := hq
    obtain ⟨w, rw', hw⟩ := hi'.cache _ _ _ _ hm
    refine ⟨_, _, _, G', rfl, hp, hi', w, rw', fun hx => ?_⟩
    rcases hw with ⟨z, ty, rfl, hz⟩ | ⟨k, rfl, hk⟩
    · rcases he with ⟨y, ty', rfl, rfl⟩ | rfl
      · simp only [Expr.pyEq, decide_eq_true_eq] at hq
        subst hq
        exact hz hx
      · simp [Expr.pyEq] at hq
    · rcases he with ⟨y, ty', rfl, rfl⟩ | rfl
      · simp [Expr.pyEq] at hq
      · simp only [Expr.pyEq, Lit.pyEq, decide_eq_true_eq] at hq
        subst hq
        exact hk hx
  | none =>
    refine ⟨_, _, _, G', rfl, hp, ⟨hi'.len, hi'.wf, ?_⟩, v, rs, hv⟩
    intro e' t' l' i' hm
    rcases List.mem_cons.1 hm with h | h
    · simp only [Prod.mk.injEq] at h
      obtain ⟨⟨rfl, rfl⟩, rfl, rfl⟩ := h
      refine ⟨v, rs, ?_⟩
      rcases he with ⟨y, ty', rfl, rfl⟩ | rfl
      · exact .inl ⟨_, _, rfl, hv⟩
      · exact .inr ⟨_, rfl, hv⟩
    · exact hi'.cache _ _ _ _ h

/-- The value of an integer expression. -/
def sval (pv : String → Int) : SExp → Int
  | .var x => pv x
  | .lit i => i
  | .bin o a b => o.run (sval pv a) (sval pv b)
/-- The value of a tensor expression at a place. -/
def TE.at (pv : String → Int) : TE → Int
  | .var x => pv x
  | .bin o a b => o.run (a.at pv) (b.at pv)
  | .right o s a => o.run (a.at pv) (sval pv s)
  | .left s a => sval pv s - a.at pv
/-- All values are in the range. -/
def ssmall (d : DT) (pv : String → Int) (s : SExp) : Prop := ∀ u ∈ intSubs s, d.has (sval pv u)
@[inherit_doc ssmall] def TE.small (d : DT) (pv : String → Int) (t : TE) : Prop := (∀ u ∈ t.ints, d.has (sval pv u)) ∧ ∀ u ∈ t.subs, d.has (u.at pv)

theorem intSubs_self (s : SExp) : s ∈ intSubs s := by cases s <;> simp [intSubs]
theorem subs_self (t : TE) : t ∈ t.subs := by cases t <;> simp [TE.subs]

/-- A type for values of the data type. -/
def Fit (d : DT) (t : BT) : Prop := ∀ v, d.has v → t.fits v
theorem fit_vec (d : DT) : Fit d (vecTy d) := by
  intro v h; cases d <;> simp_all [vecTy, BT.fits, DT.has]
/-- The type of integers. -/
def intTy : DT → BT
  | .u8 => .uint8
  | .i32 => .int64
  | .f32 => .float
theorem fit_int (d : DT) : Fit d (intTy d) := by
  intro v h; cases d <;> simp_all [intTy, BT.fits, DT.has]

/-- The parameters as a lane sees them. -/
structure Sees (params : List (String × Ty)) (P : Seen) (pv : String → Int) : Prop where
  sc : ∀ x, (x, Ty.int) ∈ params → P.sc x = some (pv x)
  tn : ∀ x t, (x, Ty.list t) ∈ params → P.tn x = some (pv x)
  nv : ∀ p ∈ params, ∀ n, p.1 ≠ vname n

theorem leaf_fmt (hM : M.Ok) {G : Log} {s : S} (hi : Inv M d P pv G s) (e : Expr) (x : Int) (he : (∃ y ty, e = .var y ty ∧ x = pv y) ∨ e = .lit (.int x)) {rhs : Rhs} {t : BT}
    (hs : Snd d P G rhs t x) (hn : ∀ a ∈ rhs.names, ∀ n, a ≠ vname n) (ht : Fit d t) {final : Option BT} (hf : final = none ∨ final = some t) :
    Gen M d P pv G (viaCache s e (fmt s.count rhs t final)) t fun v => d.has x → v = x := by
  obtain ⟨l, n, i, G', h1, h2, h3, v, h4, h5⟩ := fmt_ok hM hi (La := []) (by intro I h; simp at h) trivial hs (fun a ha n h => absurd h (hn a ha n)) (.inl rfl)
  have h1' : fmt s.count rhs t final = some (l, n, i) := by
    rcases hf with rfl | rfl
    · rw [← h1]
      have : (!t.prim && t.prim) = false := by cases t.prim <;> rfl
      simp [fmt, this]
    · exact h1
  exact via_ok e x he h1' h2 h3 (by simpa using h4) fun hx => h5 (ht _ hx) (ht _ hx)

theorem vec_ok (hM : M.Ok) (hd : d ≠ .f32) {G : Log} {s : S} (hi : Inv M d P pv G s) {l m : List Instr} {i j : Instr} {v w : Int} (r1 : Res G l i (vecTy d) v) (r2 : Res G m j (vecTy d) w)
    (o : VOp) : ∃ l' n i' G', fmt s.count (.vec o i.dest j.dest) (resTy d (vecTy d) o) (some (vecTy d)) = some (l', n, i') ∧ G <+: G' ∧ Inv M d P pv G' ⟨n, s.cache⟩ ∧
      (∃ u, Res G' (l ++ m ++ l') i' (vecTy d) u ∧ (d.has (o.run v w) → u = o.run v w)) := by
  have hs : Snd d P G (.vec o i.dest j.dest) (resTy d (vecTy d) o) (o.run v w) := by
    intro look _ h
    have h1 := h i.dest (by simp [Rhs.names]) _ _ (res_at hi r1)
    have h2 := h j.dest (by simp [Rhs.names]) _ _ (res_at hi r2)
    have h3 : resTy d (vecTy d) o = insTy d o := by cases d <;> cases o <;> rfl
    simp [evalRhs, h1, h2, hd, h3]
  have hc : resTy d (vecTy d) o = vecTy d ∨ Cv (resTy d (vecTy d) o) (vecTy d) := by
    cases d <;> cases o <;> first | exact .inl rfl | exact .inr .mul8 | exact .inr .mul32
  obtain ⟨l', n, i', G', h1, h2, h3, u, h4, h5⟩ := fmt_ok hM hi (La := l ++ m)
    (by intro I h; exact (List.mem_append.1 h).elim (r1.logged I) (r2.logged I))
    (closed_append r1.closed (closed_mono (by simp) r2.closed)) hs
    (by
      intro a ha n _
      simp only [Rhs.names, List.mem_cons, List.not_mem_nil, or_false] at ha
      simp only [List.map_append, List.mem_append]
      rcases ha with rfl | rfl
      · exact .inl (List.mem_map.2 ⟨_, r1.mem, rfl⟩)
      · exact .inr (List.mem_map.2 ⟨_, r2.mem, rfl⟩)) hc
  refine ⟨l', n, i', G', h1, h2, h3, u, h4, fun hx => h5 ?_ (fit_vec d _ hx)⟩
  revert hx
  cases d <;> cases o <;> simp only [resTy, vecTy, BT.fits, DT.has] <;> intro hx <;> omega

theorem bodyTy_list (d : DT) (t : Ty) : bodyTy d (.list t) = some (vecTy d) := rfl
theorem bodyTy_int (d : DT) : bodyTy d .int = some (intTy d) := by cases d <;> rfl

/-- The same for all large bounds of the recursion. -/
def GenN (M : Mach) (d : DT) (P : Seen) (pv : String → Int) (G : Log) (r : Nat → Option (List Instr × Instr × S)) (N : Nat) (t : BT) (Q : Int → Prop) : Prop :=
  ∃ l i s G', (∀ n, N ≤ n → r n = some (l, i, s)) ∧ G <+: G' ∧ Inv M d P pv G' s ∧ ∃ v, Res G' l i t v ∧ Q v

theorem call_ok (hM : M.Ok) (hd : d ≠ .f32) (fns : List (String × Fn)) {rep : List (String × Expr)} (N : Nat) {f : String} {o : VOp} (ho : opOf f = some o) (h1 : endsWith f "matrix_selection_two_args" = false)
    (h2 : f ≠ "reduce_sum") (h3 : f ∉ slices) (ty : Ty) {ov : Option BT} (hov : ov = none ∨ ov = some (vecTy d)) (a b : Expr) (x y : Int) (p q : Prop)
    (ha : ∀ G s, Inv M d P pv G s → GenN M d P pv G (fun n => gen fns d n (some (vecTy d)) rep s a) N (vecTy d) fun v => p → v = x)
    (hb : ∀ G s, Inv M d P pv G s → GenN M d P pv G (fun n => gen fns d n (some (vecTy d)) rep s b) N (vecTy d) fun v => q → v = y) {G : Log} {s : S} (hi : Inv M d P pv G s) :
    GenN M d P pv G (fun n => gen fns d n ov rep s (.node (.call f) (.list ty) [a, b])) (N + 1) (vecTy d)
      fun v => p → q → d.has (if swapped f then o.run y x else o.run x y) → v = if swapped f then o.run y x else o.run x y := by
  obtain ⟨la, ia, s1, G1, e1, p1, i1, v, r1, q1⟩ := ha G s hi
  obtain ⟨lb, ib, s2, G2, e2, p2, i2, w, r2, q2⟩ := hb G1 s1 i1
  have hfin : ov.getD (vecTy d) = vecTy d := by rcases hov with rfl | rfl <;> rfl
  cases hsw : swapped f
  · obtain ⟨l', m, i', G3, e3, p3, i3, u, r3, q3⟩ := vec_ok hM hd i2 (r1.mono p2) r2 o
    refine ⟨la ++ lb ++ l', i', ⟨m, s2.cache⟩, G3, fun n hn => ?_, (p1.trans p2).trans p3, i3, u, r3, fun hp hq => ?_⟩
    · obtain ⟨n, rfl⟩ : ∃ m, n = m + 1 := ⟨n - 1, by omega⟩
      have e1 := e1 n (by omega)
      have e2 := e2 n (by omega)
      simp only [gen, Expr.ty, bodyTy_list, h1, h2, h3, ho, e1, e2, hsw, hfin, e3, Option.bind_some, if_false, Bool.false_eq_true]
    · rw [← q1 hp, ← q2 hq]; simpa using q3
  · obtain ⟨l', m, i', G3, e3, p3, i3, u, r3, q3⟩ := vec_ok hM hd i2 r2 (r1.mono p2) o
    refine ⟨lb ++ la ++ l', i', ⟨m, s2.cache⟩, G3, fun n hn => ?_, (p1.trans p2).trans p3, i3, u, r3, fun hp hq => ?_⟩
    · obtain ⟨n, rfl⟩ : ∃ m, n = m + 1 := ⟨n - 1, by omega⟩
      have e1 := e1 n (by omega)
      have e2 := e2 n (by omega)
      simp only [gen, Expr.ty, bodyTy_list, h1, h2, h3, ho, e1, e2, hsw, hfin, e3, Option.bind_some, if_false, if_true, Bool.false_eq_true]
    · rw [← q1 hp, ← q2 hq]; simpa using q3

theorem GenN.weaken {G : Log} {r : Nat → Option (List Instr × Instr × S)} {N N' : Nat} (h : N ≤ N') {t : BT} {Q : Int → Prop} : GenN M d P pv G r N t Q → GenN M d P pv G r N' t Q :=
  fun ⟨l, i, s, G', a, b⟩ => ⟨l, i, s, G', fun n hn => a n (by omega), b⟩

/-- A leaf does not use the recursion. -/
theorem Gen.leaf {G : Log} {r : Nat → Option (List Instr × Instr × S)} {r0 : Option (List Instr × Instr × S)} {t : BT} {Q : Int → Prop} (h : Gen M d P pv G r0 t Q) (hr : ∀ n, r (n + 1) = r0) :
    GenN M d P pv G r 1 t Q := by
  obtain ⟨l, i, s, G', a, b⟩ := h
  refine ⟨l, i, s, G', fun n hn => ?_, b⟩
  obtain ⟨n, rfl⟩ : ∃ m, n = m + 1 := ⟨n - 1, by omega⟩
  rw [hr, a]

/-- The vector operation. -/
def vop : Ar → VOp
  | .add => .add
  | .sub => .sub
  | .mul => .mul
theorem vop_run (o : Ar) : (vop o).run = o.run := by cases o <;> rfl
/-- The operator of C. -/
def copOf : Ar → COp
  | .add => .add
  | .sub => .sub
  | .mul => .mul
theorem cop_run (o : Ar) : (copOf o).run = o.run := by cases o <;> rfl

/-- Enough depth. -/
def depth : SExp → Nat
  | .bin _ a b => depth a + depth b + 2
  | _ => 1

theorem snd_name {G : Log} {params : List (String × Ty)} (H : Sees params P pv) {x : String} (hx : (x, Ty.int) ∈ params) (t : BT) : Snd d P G (.nm x) t (pv x) := by
  intro look h _
  simp [evalRhs, h x fun n => H.nv _ hx n, H.sc x hx]

theorem int_ok (hM : M.Ok) (hd : d ≠ .f32) (fns : List (String × Fn)) {params : List (String × Ty)} (H : Sees params P pv) {rep : List (String × Expr)}
    (hrep : ∀ p ∈ params, rep.lookup p.1 = none) (e : SExp) (he : e.ok params) :
    ∀ ov, (ov = none ∨ ov = some (vecTy d)) → ∀ G s, Inv M d P pv G s →
      GenN M d P pv G (fun n => gen fns d n ov rep s e.toExpr) (depth e) (ov.getD (intTy d)) fun v => ssmall d pv e → v = sval pv e := by
  have hf : ∀ ov, (ov = none ∨ ov = some (vecTy d)) → Fit d (ov.getD (intTy d)) := by
    rintro ov (rfl | rfl)
    · exact fit_int d
    · exact fit_vec d
  have weak : ∀ {G : Log} {r N t} {e : SExp}, GenN M d P pv G r N t (fun v => d.has (sval pv e) → v = sval pv e) → GenN M d P pv G r N t fun v => ssmall d pv e → v = sval pv e :=
    fun ⟨l, i, s, G', a, b, c, v, r, q⟩ => ⟨l, i, s, G', a, b, c, v, r, fun h => q (h _ (intSubs_self _))⟩
  induction e with
  | var x =>
    intro ov hov G s hi
    refine weak ?_
    have := leaf_fmt hM hi (.var x .int) (pv x) (.inl ⟨x, .int, rfl, rfl⟩) (snd_name H he (ov.getD (intTy d))) (by
      intro a ha; simp only [Rhs.names, List.mem_singleton] at ha; subst ha; exact fun n => H.nv _ he n) (hf ov hov) (.inl rfl)
    exact this.leaf fun n => by simp only [SExp.toExpr, gen, Expr.ty, bodyTy_int, hrep _ he]
  | lit k =>
    intro ov hov G s hi
    refine weak ?_
    have := leaf_fmt hM hi (.lit (.int k)) k (.inr rfl) (rhs := .lit (.int k)) (t := ov.getD (intTy d)) (by intro look _ _; rfl) (by simp [Rhs.names]) (hf ov hov) (.inl rfl)
    exact this.leaf fun n => by simp only [SExp.toExpr, gen, Expr.ty, bodyTy_int]
  | bin o a b iha ihb =>
    intro ov hov G s hi
    have hsm : ssmall d pv (.bin o a b) → ssmall d pv a ∧ ssmall d pv b ∧ d.has (o.run (sval pv a) (sval pv b)) := fun h =>
      ⟨fun u hu => h u (by simp [intSubs, hu]), fun u hu => h u (by simp [intSubs, hu]), h _ (intSubs_self _)⟩
    obtain ⟨la, ia, s1, G1, e1, p1, i1, v, r1, q1⟩ := iha he.1 none (.inl rfl) G s hi
    obtain ⟨lb, ib, s2, G2, e2, p2, i2, w, r2, q2⟩ := ihb he.2 none (.inl rfl) G1 s1 i1
    have hgen : ∀ n, depth a + depth b ≤ n → gen fns d (n + 1) ov rep s (SExp.bin o a b).toExpr =
        match ia.prim?, ib.prim? with
          | some true, some true =>
            (fmt s2.count (.prim (copOf o) ia.dest ib.dest) (intTy d) (some (ov.getD (intTy d)))).bind fun (l, k, i) =>
            some (la ++ lb ++ l, i, ⟨k, s2.cache⟩)
          | some true, some false => gen fns d n none rep s2 (.node (.call ("scalar_matrix" ++ suffix (copOf o))) (.list (.list .int)) [a.toExpr, b.toExpr])
          | some false, some true => gen fns d n none rep s2 (.node (.call ("matrix_scalar" ++ suffix (copOf o))) (.list (.list .int)) [b.toExpr, a.toExpr])
          | some false, some false => gen fns d n none rep s2 (.node (.call ("matrix_elemwise" ++ suffix (copOf o))) (.list (.list .int)) [a.toExpr, b.toExpr])
          | _, _ => none := by
      intro n hn
      have e1 := e1 n (by omega)
      have e2 := e2 n (by omega)
      cases o <;> · simp only [SExp.toExpr, Ar.op]; rw [gen]; simp only [Expr.ty, bodyTy_int, cop, copOf, e1, e2, Option.bind_some]; rfl
    have ta : ia.prim? = some (intTy d).prim := by simpa [Instr.prim?] using congrArg (Option.map BT.prim) r1.ty
    have tb : ib.prim? = some (intTy d).prim := by simpa [Instr.prim?] using congrArg (Option.map BT.prim) r2.ty
    simp only [ta, tb] at hgen
    cases d with
    | f32 => exact absurd rfl hd
    | u8 =>
      simp only [intTy, BT.prim] at hgen
      have r1' := r1.mono p2
      have hs : Snd .u8 P G2 (.prim (copOf o) ia.dest ib.dest) .uint8 (o.run v w) := by
        intro look _ h
        have h1 := h ia.dest (by simp [Rhs.names]) _ _ (res_at i2 r1')
        have h2 := h ib.dest (by simp [Rhs.names]) _ _ (res_at i2 r2)
        simp only [evalRhs, h1, h2]
        cases o <;> simp [intTy, copOf, COp.run, Ar.run]
      obtain ⟨l', m, i', G3, e3, p3, i3, u, h4, h5⟩ := fmt_ok hM i2 (La := la ++ lb) (u := ov.getD .uint8)
        (by intro I h; exact (List.mem_append.1 h).elim (r1'.logged I) (r2.logged I))
        (closed_append r1.closed (closed_mono (by simp) r2.closed)) hs
        (by
          intro a ha n _
          simp only [Rhs.names, List.mem_cons, List.not_mem_nil, or_false] at ha
          simp only [List.map_append, List.mem_append]
          rcases ha with rfl | rfl
          · exact .inl (List.mem_map.2 ⟨_, r1.mem, rfl⟩)
          · exact .inr (List.mem_map.2 ⟨_, r2.mem, rfl⟩)) (by exact hov.elim (fun h => by subst h; exact .inl rfl) fun h => by subst h; exact .inr .u8)
      refine ⟨la ++ lb ++ l', i', ⟨m, s2.cache⟩, G3, fun n hn => ?_, (p1.trans p2).trans p3, i3, u, h4, fun hx => ?_⟩
      · obtain ⟨n, rfl⟩ : ∃ m, n = m + 1 := ⟨n - 1, by simp only [depth] at hn; omega⟩
        simp only [depth] at hn
        simp only [hgen n (by omega), e3, Option.bind_some]
      · obtain ⟨ha, hb, hx⟩ := hsm hx
        rw [q1 ha, q2 hb] at h5
        exact h5 (fit_int .u8 _ hx) (hf ov hov _ hx)
    | i32 =>
      have hname : opOf ("matrix_elemwise" ++ suffix (copOf o)) = some (vop o) ∧ endsWith ("matrix_elemwise" ++ suffix (copOf o)) "matrix_selection_two_args" = false ∧
          "matrix_elemwise" ++ suffix (copOf o) ≠ "reduce_sum" ∧ "matrix_elemwise" ++ suffix (copOf o) ∉ slices ∧ swapped ("matrix_elemwise" ++ suffix (copOf o)) = false := by
        cases o <;> decide +kernel
      obtain ⟨n1, n2, n3, n4, n5⟩ := hname
      obtain ⟨l, i, s3, G3, e3, p3, i3, u, r3, q3⟩ := call_ok hM hd fns (depth a + depth b) n1 n2 n3 n4 (.list .int) (ov := none) (.inl rfl) a.toExpr b.toExpr (sval pv a) (sval pv b)
        (ssmall .i32 pv a) (ssmall .i32 pv b) (fun G s hi => (iha he.1 (some .int64) (.inr rfl) G s hi).weaken (by omega))
        (fun G s hi => (ihb he.2 (some .int64) (.inr rfl) G s hi).weaken (by omega)) i2
      refine ⟨l, i, s3, G3, fun n hn => ?_, (p1.trans p2).trans p3, i3, u, ?_, fun hx => ?_⟩
      · obtain ⟨n, rfl⟩ : ∃ m, n = m + 1 := ⟨n - 1, by simp only [depth] at hn; omega⟩
        simp only [depth] at hn
        have := hgen n (by omega)
        simp only [intTy, BT.prim] at this
        exact this.trans (e3 n (by omega))
      · rcases hov with rfl | rfl <;> exact r3
      · obtain ⟨ha, hb, hx⟩ := hsm hx
        have := q3 ha hb
        rw [n5, vop_run] at this
        exact this hx

/-- Enough depth. -/
def TE.depth : TE → Nat
  | .var _ => 1
  | .bin _ a b => a.depth + b.depth + 1
  | .right _ s a | .left s a => Gaudi.depth s + a.depth + 1

theorem ten_ok (hM : M.Ok) (hd : d ≠ .f32) (fns : List (String × Fn)) (k : K) {params : List (String × Ty)} (H : Sees params P pv) {rep : List (String × Expr)}
    (hrep : ∀ p ∈ params, rep.lookup p.1 = none) (e : TE) (he : e.ok k params) : ∀ ov, (ov = none ∨ ov = some (vecTy d)) → ∀ G s, Inv M d P pv G s →
      GenN M d P pv G (fun n => gen fns d n ov rep s (e.toExpr k)) e.depth (vecTy d) fun v => e.small d pv → v = e.at pv := by
  have key : ∀ {G : Log} {r N t} {e : TE} {p q : Prop} {x : Int}, GenN M d P pv G r N t (fun v => p → q → d.has x → v = x) → (e.small d pv → p ∧ q) → e.at pv = x →
      GenN M d P pv G r N t fun v => e.small d pv → v = e.at pv :=
    fun ⟨l, i, s, G', a, b, c, v, r, h⟩ hpq hx => ⟨l, i, s, G', a, b, c, v, r, fun hs => by rw [hx]; exact h (hpq hs).1 (hpq hs).2 (hx ▸ hs.2 _ (subs_self _))⟩
  obtain ⟨et, hkt⟩ : ∃ et, k.ty = .list et := by cases k <;> exact ⟨_, rfl⟩
  induction e with
  | var x =>
    intro ov hov G s hi
    have he' : (x, k.ty) ∈ params := he
    rw [hkt] at he'
    have hs : Snd d P G (.ld x) (vecTy d) (pv x) := by
      intro look h _
      simp [evalRhs, h x fun n => H.nv _ he' n, H.tn x _ he']
    have := leaf_fmt hM hi (.var x k.ty) (pv x) (.inl ⟨x, _, rfl, rfl⟩) hs (by
      intro a ha; simp only [Rhs.names, List.mem_singleton] at ha; subst ha; exact fun n => H.nv _ he n) (fit_vec d) (.inr rfl)
    obtain ⟨l, i, s', G', a, b, c, v, r, h⟩ := this
    refine Gen.leaf (r0 := viaCache s (.var x k.ty) (fmt s.count (.ld x) (vecTy d) (some (vecTy d)))) ⟨l, i, s', G', a, b, c, v, r, fun hs => h (hs.2 _ (subs_self _))⟩ fun n => ?_
    have hfin : ov.getD (vecTy d) = vecTy d := by rcases hov with rfl | rfl <;> rfl
    simp only [TE.toExpr, hkt, gen, Expr.ty, bodyTy_list, hrep _ he', hfin]
  | bin o a b iha ihb =>
    intro ov hov G s hi
    have hname : opOf (k.fn o) = some (vop o) ∧ endsWith (k.fn o) "matrix_selection_two_args" = false ∧ k.fn o ≠ "reduce_sum" ∧ k.fn o ∉ slices ∧ swapped (k.fn o) = false := by
      cases k <;> cases o <;> decide +kernel
    obtain ⟨n1, n2, n3, n4, n5⟩ := hname
    have := call_ok hM hd fns (a.depth + b.depth) n1 n2 n3 n4 et hov (a.toExpr k) (b.toExpr k) (a.at pv) (b.at pv) (a.small d pv) (b.small d pv)
      (fun G s hi => (iha he.1 _ (.inr rfl) G s hi).weaken (by omega)) (fun G s hi => (ihb he.2 _ (.inr rfl) G s hi).weaken (by omega)) hi
    rw [n5, ← hkt] at this
    exact key this (fun h => ⟨⟨fun u hu => h.1 u (by simp [TE.ints, hu]), fun u hu => h.2 u (by simp [TE.subs, hu])⟩,
      fun u hu => h.1 u (by simp [TE.ints, hu]), fun u hu => h.2 u (by simp [TE.subs, hu])⟩) (by simp [TE.at, vop_run])
  | right o s a iha =>
    intro ov hov G s' hi
    have hname : opOf (Gaudi.right k o) = some (vop o) ∧ endsWith (Gaudi.right k o) "matrix_selection_two_args" = false ∧ Gaudi.right k o ≠ "reduce_sum" ∧ Gaudi.right k o ∉ slices ∧
        swapped (Gaudi.right k o) = true := by
      cases k <;> cases o <;> decide +kernel
    obtain ⟨n1, n2, n3, n4, n5⟩ := hname
    have := call_ok hM hd fns (Gaudi.depth s + a.depth) n1 n2 n3 n4 et hov s.toExpr (a.toExpr k) (sval pv s) (a.at pv) (ssmall d pv s) (a.small d pv)
      (fun G s' hi => (int_ok hM hd fns H hrep s he.1 _ (.inr rfl) G s' hi).weaken (by omega)) (fun G s hi => (iha he.2 _ (.inr rfl) G s hi).weaken (by omega)) hi
    rw [n5, ← hkt] at this
    exact key this (fun h => ⟨fun u hu => h.1 u (by simp [TE.ints, hu]),
      fun u hu => h.1 u (by simp [TE.ints, hu]), fun u hu => h.2 u (by simp [TE.subs, hu])⟩) (by simp [TE.at, vop_run])
  | left s a iha =>
    intro ov hov G s' hi
    have hname : opOf (Gaudi.left k) = some .sub ∧ endsWith (Gaudi.left k) "matrix_selection_two_args" = false ∧ Gaudi.left k ≠ "reduce_sum" ∧ Gaudi.left k ∉ slices ∧
        swapped (Gaudi.left k) = false := by
      cases k <;> decide +kernel
    obtain ⟨n1, n2, n3, n4, n5⟩ := hname
    have := call_ok hM hd fns (Gaudi.depth s + a.depth) n1 n2 n3 n4 et hov s.toExpr (a.toExpr k) (sval pv s) (a.at pv) (ssmall d pv s) (a.small d pv)
      (fun G s' hi => (int_ok hM hd fns H hrep s he.1 _ (.inr rfl) G s' hi).weaken (by omega)) (fun G s hi => (iha he.2 _ (.inr rfl) G s hi).weaken (by omega)) hi
    rw [n5, ← hkt] at this
    exact key this (fun h => ⟨fun u hu => h.1 u (by simp [TE.ints, hu]),
      fun u hu => h.1 u (by simp [TE.ints, hu]), fun u hu => h.2 u (by simp [TE.subs, hu])⟩) (by simp [TE.at, VOp.run])

/-! ### Running the instructions -/

theorem dedup_mem {l : List Instr} : ∀ {seen : List Instr}, ∀ I ∈ dedup seen l, I ∈ l ∧ I ∉ seen := by
  induction l with
  | nil => simp [dedup]
  | cons J l ih =>
    intro seen I h
    simp only [dedup] at h
    split at h
    · exact ⟨List.mem_cons_of_mem _ (ih I h).1, (ih I h).2⟩
    · rename_i hJ
      rcases List.mem_cons.1 h with rfl | h
      · exact ⟨List.mem_cons_self .., hJ⟩
      · exact ⟨List.mem_cons_of_mem _ (ih I h).1, fun hs => (ih I h).2 (List.mem_cons_of_mem _ hs)⟩

theorem mem_dedup {l : List Instr} : ∀ {seen : List Instr}, ∀ I ∈ l, I ∈ seen ∨ I ∈ dedup seen l := by
  induction l with
  | nil => simp
  | cons J l ih =>
    intro seen I h
    simp only [dedup]
    rcases List.mem_cons.1 h with rfl | h
    · split
      · rename_i hs; exact .inl hs
      · exact .inr (List.mem_cons_self ..)
    · split
      · exact ih I h
      · rcases ih (seen := J :: seen) I h with h1 | h1
        · rcases List.mem_cons.1 h1 with rfl | h1
          · exact .inr (List.mem_cons_self ..)
          · exact .inl h1
        · exact .inr (List.mem_cons_of_mem _ h1)

theorem run_ok {G : Log} (hw : WF M d P G) {L : List Instr} : ∀ (seen : List Instr) (ln : Lane), Logged G L → Logged G seen → Closed (seen.map Instr.dest) L →
    (∀ a, a ∈ ln.map Prod.fst ↔ a ∈ seen.map Instr.dest) → (∀ a s w, List.lookup a ln = some (s, w) → At G a s w) →
    ∃ ln', runLane M d P (dedup seen L) ln = some ln' ∧ (∀ a, a ∈ ln'.map Prod.fst ↔ a ∈ seen.map Instr.dest ∨ a ∈ L.map Instr.dest) ∧
      (∀ a s w, List.lookup a ln' = some (s, w) → At G a s w) := by
  have at_fun : ∀ {a s w s' w'}, At G a s w → At G a s' w' → s = s' ∧ w = w' := by
    rintro a s w s' w' ⟨n, I, rfl, h1, h2⟩ ⟨m, J, e, h3, h4⟩
    rw [← vname_inj e, h1] at h3
    simp only [Option.some.injEq, Prod.mk.injEq] at h3
    obtain ⟨rfl, rfl⟩ := h3
    rw [h2] at h4
    exact ⟨Option.some.inj h4, rfl⟩
  have look_mem : ∀ {a : String} {ln : Lane}, a ∈ ln.map Prod.fst → ∃ s w, List.lookup a ln = some (s, w) := by
    intro a ln h
    induction ln with
    | nil => simp at h
    | cons p ln ih =>
      obtain ⟨b, s, w⟩ := p
      simp only [List.lookup]
      by_cases hb : a = b
      · subst hb; exact ⟨s, w, by simp⟩
      · have : (a == b) = false := by simpa using hb
        rw [this]
        refine ih ?_
        simpa [hb] using h
  have look_none : ∀ {a : String} {ln : Lane}, a ∉ ln.map Prod.fst → List.lookup a ln = none := by
    intro a ln h
    induction ln with
    | nil => rfl
    | cons p ln ih =>
      obtain ⟨b, s, w⟩ := p
      simp only [List.map_cons, List.mem_cons, not_or] at h
      have : (a == b) = false := by simpa using h.1
      simp only [List.lookup, this]
      exact ih h.2
  induction L with
  | nil =>
    intro seen ln _ _ _ hk hv
    exact ⟨ln, rfl, fun a => by simp [hk a], hv⟩
  | cons I L ih =>
    intro seen ln hL hs hc hk hv
    simp only [dedup]
    obtain ⟨n, v, hn⟩ := hL I (List.mem_cons_self ..)
    have hL' : Logged G L := fun J hJ => hL J (List.mem_cons_of_mem _ hJ)
    by_cases hI : I ∈ seen
    · rw [if_pos hI]
      have hd : I.dest ∈ seen.map Instr.dest := List.mem_map.2 ⟨_, hI, rfl⟩
      obtain ⟨ln', h1, h2, h3⟩ := ih seen ln hL' hs (closed_mono (by
        intro a ha
        rcases List.mem_cons.1 ha with rfl | ha
        · exact hd
        · exact ha) hc.2) hk hv
      refine ⟨ln', h1, fun a => ?_, h3⟩
      rw [h2 a]
      simp only [List.map_cons, List.mem_cons]
      constructor
      · rintro (h | h)
        · exact .inl h
        · exact .inr (.inr h)
      · rintro (h | rfl | h)
        · exact .inl h
        · exact .inl hd
        · exact .inr h
    · rw [if_neg hI]
      obtain ⟨hd, hself, t, raw, hty, hsnd, hval⟩ := hw n I v hn
      have hfresh : I.dest ∉ seen.map Instr.dest := by
        intro h
        obtain ⟨J, hJ, e⟩ := List.mem_map.1 h
        obtain ⟨m, w, hm⟩ := hs J hJ
        have e' := (hw m J w hm).1
        rw [e, hd] at e'
        rw [← vname_inj e', hn] at hm
        simp only [Option.some.injEq, Prod.mk.injEq] at hm
        exact hI (hm.1 ▸ hJ)
      have hev : evalRhs d (fun x => List.lookup x ln) P t I.rhs = some raw := by
        refine hsnd _ (fun a ha => look_none ?_) (fun a ha s w hw' => ?_)
        · rw [hk a]
          intro h
          obtain ⟨J, hJ, rfl⟩ := List.mem_map.1 h
          obtain ⟨m, w, hm⟩ := hs J hJ
          exact ha m (hw m J w hm).1
        · have ⟨m, _, e, _⟩ := hw'
          obtain ⟨s', w', hl⟩ := look_mem ((hk a).2 (hc.1 a ha ⟨m, e⟩))
          obtain ⟨rfl, rfl⟩ := at_fun hw' (hv a s' w' hl)
          exact hl
      have hstep : step M d P ln I = some ((I.dest, t, v) :: ln) := by
        simp only [step, hty]
        rw [if_neg, hev, hval]
        · rfl
        · rintro (h | h)
          · exact hfresh ((hk _).1 h)
          · exact hself h
      obtain ⟨ln', h1, h2, h3⟩ := ih (I :: seen) ((I.dest, t, v) :: ln) hL' (by
          intro J hJ
          rcases List.mem_cons.1 hJ with rfl | hJ
          · exact ⟨n, v, hn⟩
          · exact hs J hJ) hc.2 (by intro a; simp [hk a]) (by
          intro a s w hl
          simp only [List.lookup] at hl
          by_cases ha : a = I.dest
          · subst ha
            simp only [beq_self_eq_true, Option.some.injEq, Prod.mk.injEq] at hl
            obtain ⟨rfl, rfl⟩ := hl
            exact ⟨n, I, hd, hn, hty⟩
          · have : (a == I.dest) = false := by simpa using ha
            rw [this] at hl
            exact hv a s w hl)
      refine ⟨ln', by simp [runLane, hstep, h1], fun a => ?_, h3⟩
      rw [h2 a]
      simp only [List.map_cons, List.mem_cons]
      constructor
      · rintro ((h | h) | h)
        · exact .inr (.inl h)
        · exact .inl h
        · exact .inr (.inr h)
      · rintro (h | h | h)
        · exact .inl (.inr h)
        · exact .inl (.inl h)
        · exact .inr h

end

end Metalift.Gaudi
