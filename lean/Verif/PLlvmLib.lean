import Verif.LlvmLibSpec
/-
C72: calls of library functions in compiled code are read with the meaning of the called function.

The claim fails: `listAppend` changes an object that other variables may share, `set_contains` yields Python's `True`, and other defects shown at the end.
The theorems hold for programs that do not read a variable after the object it shared has been appended to.
-/
namespace Metalift.Ll.Lib

/-! ### Variables whose object has been changed -/

/-- Registers and cells whose object has been appended to through another name, and the objects that have been appended to. -/
structure Stale where
  regs : String → Prop
  cells : String → Prop
  objs : Nat → Prop

/-- Nothing has been changed. -/
def Stale.none : Stale := ⟨fun _ => False, fun _ => False, fun _ => False⟩

/-- The object `i` is appended to. -/
def Stale.touch (S : Stale) (st : HSt) (i : Nat) : Stale where
  regs := fun n => S.regs n ∨ st.prim n = some (.obj i)
  cells := fun n => S.cells n ∨ st.ptr n = some (.obj i)
  objs := fun j => S.objs j ∨ j = i

/-- A register or cell gets a new value. -/
def Stale.put (S : Stale) (toPtr : Bool) (x : String) : Stale :=
  if toPtr then { S with cells := fun n => S.cells n ∧ n ≠ x } else { S with regs := fun n => S.regs n ∧ n ≠ x }

/-- The object an instruction appends to. -/
def appended (st : HSt) : LInst → Option Nat
  | .call _ _ f _ _ (a :: _) =>
    if f = "listAppend" then match st.read a with
      | some (.obj i, _) => some i
      | _ => Option.none
    else Option.none
  | _ => Option.none

/-- The register or cell an instruction gives a new value. -/
def LInst.dest : LInst → Option (Bool × String)
  | .alloca r _ => some (true, r)
  | .load toPtr r _ => some (toPtr, r)
  | .store _ p => some (true, p)
  | .copy toPtr r _ => some (toPtr, r)
  | .arith _ r _ _ => some (false, r)
  | .call toPtr r f _ _ args => if f = "vector" ∨ f = "push_back" then some (true, opdName (args.headD (.int 0))) else if r = "" then Option.none else some (toPtr, r)

/-- The operands an instruction reads. -/
def LInst.uses : LInst → List Opd
  | .alloca _ _ => []
  | .load _ _ p => [.ptr p]
  | .store v _ => [v]
  | .copy _ _ a => [a]
  | .arith _ _ a b => [a, b]
  | .call _ _ f _ _ args => if f = "vector" then [] else args

/-- The changed variables after an instruction. -/
def Stale.after (S : Stale) (st : HSt) (i : LInst) : Stale :=
  let S := match appended st i with
    | some k => S.touch st k
    | Option.none => S
  match i.dest with
  | some (p, x) => S.put p x
  | Option.none => S

/-- The operand has not been changed behind its back. -/
def Stale.fresh (S : Stale) : Opd → Prop
  | .reg n => ¬ S.regs n
  | .ptr n => ¬ S.cells n
  | _ => True

/-- No instruction reads a changed variable. -/
def NoStaleReads : HSt → Stale → List LInst → Prop
  | _, _, [] => True
  | st, S, i :: is => (∀ o ∈ i.uses, S.fresh o) ∧ ∀ st', step st i = some st' → NoStaleReads st' (S.after st i) is

/-- The changed variables at the end. -/
def staleAt : HSt → Stale → List LInst → Stale
  | _, S, [] => S
  | st, S, i :: is => match step st i with
    | some st' => staleAt st' (S.after st i) is
    | Option.none => S

/-! ### The simulation -/

/-- The reference is to an object that means the value. -/
def Means (I : Interp) (ρ : Env) (st : HSt) (r : PyRef) (v : Val) : Prop := ∃ o, st.deref r = some o ∧ eval I ρ o.src = v

structure Sim (I : Interp) (ρ : Env) (k : String → Bool) (args : List (String × LTy)) (st : HSt) (c : CSt) (S : Stale) : Prop where
  regs : ∀ n v, c.regs n = some v → ¬ S.regs n → ∃ r, st.prim n = some r ∧ Means I ρ st r v
  cells : ∀ n v, c.cells n = some v → ¬ S.cells n → ∃ r, st.ptr n = some r ∧ Means I ρ st r v
  kind : ∀ n, st.prim n ≠ Option.none → k n = false
  args : ∀ j a, args[j]? = some a → ¬ S.objs j → Means I ρ st (.obj j) (ρ a.1)

/-- More objects. -/
structure Ext (st st' : HSt) : Prop where
  prim : st'.prim = st.prim
  ptr : st'.ptr = st.ptr
  heap : ∃ e, st'.heap = st.heap ++ e

theorem Ext.refl (st : HSt) : Ext st st := ⟨rfl, rfl, [], by simp⟩
theorem Ext.trans {a b c : HSt} (h : Ext a b) (g : Ext b c) : Ext a c := by
  obtain ⟨e, he⟩ := h.heap; obtain ⟨e', he'⟩ := g.heap
  exact ⟨g.prim.trans h.prim, g.ptr.trans h.ptr, e ++ e', by simp [he', he]⟩
theorem ext_new (st : HSt) (o : LObj) : Ext st (st.new o).2 := ⟨rfl, rfl, [o], rfl⟩

theorem Ext.deref {st st' : HSt} (h : Ext st st') {r : PyRef} {o : LObj} (ho : st.deref r = some o) : st'.deref r = some o := by
  obtain ⟨e, he⟩ := h.heap
  cases r with
  | pyTrue => cases ho
  | obj i =>
    simp only [HSt.deref] at ho ⊢
    rw [he, List.getElem?_append_left (by exact (List.getElem?_eq_some_iff.1 ho).1)]
    exact ho

variable {I : Interp} {ρ : Env} {k : String → Bool} {args : List (String × LTy)} {sq ex : Int → Int}

theorem Means.ext {st st' : HSt} {r : PyRef} {v : Val} (h : Means I ρ st r v) (e : Ext st st') : Means I ρ st' r v := by
  obtain ⟨o, h1, h2⟩ := h
  exact ⟨o, e.deref h1, h2⟩

theorem Sim.ext {st st' : HSt} {c : CSt} {S : Stale} (h : Sim I ρ k args st c S) (e : Ext st st') : Sim I ρ k args st' c S where
  regs n v hv hs := by
    obtain ⟨r, h1, h2⟩ := h.regs n v hv hs
    exact ⟨r, by rw [e.prim]; exact h1, h2.ext e⟩
  cells n v hv hs := by
    obtain ⟨r, h1, h2⟩ := h.cells n v hv hs
    exact ⟨r, by rw [e.ptr]; exact h1, h2.ext e⟩
  kind n hn := h.kind n (by rw [← e.prim]; exact hn)
  args j a ha hs := (h.args j a ha hs).ext e

theorem means_new (st : HSt) (o : LObj) : Means I ρ (st.new o).2 (st.new o).1 (eval I ρ o.src) :=
  ⟨o, by simp [HSt.new, HSt.deref], rfl⟩

theorem Sim.read {st : HSt} {c : CSt} {S : Stale} (h : Sim I ρ k args st c S) {o : Opd} {r : PyRef} {st' : HSt} {v : Val}
    (hr : st.read o = some (r, st')) (hv : c.read o = some v) (hf : S.fresh o) : Ext st st' ∧ Means I ρ st' r v := by
  cases o with
  | reg n =>
    obtain ⟨r', h1, h2⟩ := h.regs n v hv hf
    simp only [HSt.read, h1, Option.map_some, Option.some.injEq, Prod.mk.injEq] at hr
    obtain ⟨rfl, rfl⟩ := hr
    exact ⟨.refl _, h2⟩
  | ptr n =>
    obtain ⟨r', h1, h2⟩ := h.cells n v hv hf
    simp only [HSt.read, h1, Option.map_some, Option.some.injEq, Prod.mk.injEq] at hr
    obtain ⟨rfl, rfl⟩ := hr
    exact ⟨.refl _, h2⟩
  | int i =>
    simp only [HSt.read, Option.some.injEq] at hr
    simp only [CSt.read, Option.some.injEq] at hv
    have h1 := ext_new st ⟨intLit i, .base .int⟩
    have h2 := means_new (I := I) (ρ := ρ) st ⟨intLit i, .base .int⟩
    rw [hr] at h1 h2
    subst hv
    exact ⟨h1, h2⟩
  | bool b =>
    simp only [HSt.read, Option.some.injEq] at hr
    simp only [CSt.read, Option.some.injEq] at hv
    have h1 := ext_new st ⟨boolLit b, .base .bool⟩
    have h2 := means_new (I := I) (ρ := ρ) st ⟨boolLit b, .base .bool⟩
    rw [hr] at h1 h2
    subst hv
    exact ⟨h1, h2⟩

theorem Sim.read1 {st : HSt} {c : CSt} {S : Stale} (h : Sim I ρ k args st c S) {as : List Opd} {r : PyRef} {x : LObj} {st' : HSt} {v : Val}
    (hr : st.read1 as = some (r, x, st')) (hv : readVals c as = some [v]) (hf : ∀ o ∈ as, S.fresh o) :
    ∃ a, as = [a] ∧ c.read a = some v ∧ st.read a = some (r, st') ∧ Ext st st' ∧ st'.deref r = some x ∧ eval I ρ x.src = v := by
  match as, hr with
  | [a], hr =>
    simp only [HSt.read1, Option.bind_eq_bind, Option.bind_eq_some_iff, Option.some.injEq, Prod.mk.injEq, Prod.exists] at hr
    obtain ⟨r', s', h1, x', h2, rfl, rfl, rfl⟩ := hr
    simp only [readVals, Option.bind_eq_bind, Option.bind_eq_some_iff, Option.some.injEq, List.cons.injEq] at hv
    obtain ⟨v', hv', vs, -, rfl, -⟩ := hv
    obtain ⟨he, o, ho, hev⟩ := h.read h1 hv' (hf a (by simp))
    rw [h2] at ho; cases ho
    exact ⟨a, rfl, hv', h1, he, h2, hev⟩

theorem Sim.read2 {st : HSt} {c : CSt} {S : Stale} (h : Sim I ρ k args st c S) {as : List Opd} {r r' : PyRef} {x x' : LObj} {st' : HSt} {v v' : Val}
    (hr : st.read2 as = some (r, x, r', x', st')) (hv : readVals c as = some [v, v']) (hf : ∀ o ∈ as, S.fresh o) :
    ∃ a b st1, as = [a, b] ∧ c.read a = some v ∧ c.read b = some v' ∧ st.read a = some (r, st1) ∧ Ext st st' ∧ st'.deref r = some x ∧ st'.deref r' = some x' ∧
      eval I ρ x.src = v ∧ eval I ρ x'.src = v' := by
  match as, hr with
  | [a, b], hr =>
    simp only [HSt.read2, Option.bind_eq_bind, Option.bind_eq_some_iff, Option.some.injEq, Prod.mk.injEq, Prod.exists] at hr
    obtain ⟨r1, s1, h1, r2, s2, h2, y1, g1, y2, g2, rfl, rfl, rfl, rfl, rfl⟩ := hr
    simp only [readVals, Option.bind_eq_bind, Option.bind_eq_some_iff, Option.some.injEq, List.cons.injEq] at hv
    obtain ⟨w1, hw1, vs, ⟨w2, hw2, vs', -, rfl⟩, rfl, h3⟩ := hv
    simp only [List.cons.injEq] at h3
    obtain ⟨rfl, -⟩ := h3
    obtain ⟨he, hm⟩ := h.read h1 hw1 (hf a (by simp))
    obtain ⟨he2, o2, ho2, hev2⟩ := (h.ext he).read h2 hw2 (hf b (by simp))
    obtain ⟨o, ho, hev⟩ := hm.ext he2
    rw [g1] at ho; cases ho
    rw [g2] at ho2; cases ho2
    exact ⟨a, b, s1, rfl, hw1, hw2, h1, he.trans he2, g1, g2, hev, hev2⟩

theorem Sim.readAll {c : CSt} {S : Stale} : ∀ {as : List Opd} {st st' : HSt} {rs : List PyRef} {vs : List Val} (_ : Sim I ρ k args st c S)
    (_ : st.readAll as = some (rs, st')) (_ : readVals c as = some vs) (_ : ∀ o ∈ as, S.fresh o), Ext st st' ∧ List.Forall₂ (Means I ρ st') rs vs
  | [], st, st', rs, vs, h, hr, hv, _ => by
    simp only [HSt.readAll, Option.some.injEq, Prod.mk.injEq] at hr
    simp only [readVals, Option.some.injEq] at hv
    obtain ⟨rfl, rfl⟩ := hr; subst hv
    exact ⟨.refl _, .nil⟩
  | a :: as, st, st', rs, vs, h, hr, hv, hf => by
    simp only [HSt.readAll, Option.bind_eq_bind, Option.bind_eq_some_iff, Option.some.injEq, Prod.mk.injEq, Prod.exists] at hr
    obtain ⟨r1, s1, h1, rs', s2, h2, rfl, rfl⟩ := hr
    simp only [readVals, Option.bind_eq_bind, Option.bind_eq_some_iff, Option.some.injEq] at hv
    obtain ⟨v', hv', vs', hvs', rfl⟩ := hv
    obtain ⟨he, hm⟩ := h.read h1 hv' (hf a (by simp))
    obtain ⟨he2, hm2⟩ := Sim.readAll (h.ext he) h2 hvs' fun o ho => hf o (by simp [ho])
    exact ⟨he.trans he2, .cons (hm.ext he2) hm2⟩

theorem srcs_means {st : HSt} {rs : List PyRef} {vs : List Val} (h : List.Forall₂ (Means I ρ st) rs vs) :
    ∀ {es}, st.srcs rs = some es → evals I ρ es = vs := by
  induction h with
  | nil => intro es he; simp only [HSt.srcs, Option.some.injEq] at he; subst he; rfl
  | cons hm _ ih =>
    intro es he
    simp only [HSt.srcs, Option.bind_eq_bind, Option.bind_eq_some_iff, Option.some.injEq] at he
    obtain ⟨o, ho, es', he', rfl⟩ := he
    obtain ⟨o', ho', hev⟩ := hm
    rw [ho] at ho'; cases ho'
    simp only [evals, hev, ih he']

theorem Sim.write {st : HSt} {c : CSt} {S : Stale} (h : Sim I ρ k args st c S) {x : String} {r : PyRef} {v : Val} (hm : Means I ρ st r v) (hk : k x = false) :
    Sim I ρ k args (st.write x r) (c.write x v) (S.put false x) where
  regs n w hw hs := by
    simp only [CSt.write] at hw
    simp only [Stale.put, Bool.false_eq_true, if_false] at hs
    by_cases hn : n = x
    · simp only [hn, if_true, Option.some.injEq] at hw
      subst hw
      exact ⟨r, by simp [HSt.write, hn], hm⟩
    · simp only [hn, if_false] at hw
      obtain ⟨r', h1, h2⟩ := h.regs n w hw (by tauto)
      exact ⟨r', by simp [HSt.write, hn, h1], h2⟩
  cells n w hw hs := h.cells n w hw hs
  kind n hn := by
    by_cases hx : n = x
    · exact hx ▸ hk
    · exact h.kind n (by simpa [HSt.write, hx] using hn)
  args j a ha hs := h.args j a ha hs

theorem Sim.store {st : HSt} {c : CSt} {S : Stale} (h : Sim I ρ k args st c S) {x : String} {r : PyRef} {v : Val} (hm : Means I ρ st r v) :
    Sim I ρ k args (st.store x r) (c.store x v) (S.put true x) where
  regs n w hw hs := h.regs n w hw hs
  cells n w hw hs := by
    simp only [CSt.store] at hw
    simp only [Stale.put, if_true] at hs
    by_cases hn : n = x
    · simp only [hn, if_true, Option.some.injEq] at hw
      subst hw
      exact ⟨r, by simp [HSt.store, hn], hm⟩
    · simp only [hn, if_false] at hw
      obtain ⟨r', h1, h2⟩ := h.cells n w hw (by tauto)
      exact ⟨r', by simp [HSt.store, hn, h1], h2⟩
  kind n hn := h.kind n hn
  args j a ha hs := h.args j a ha hs

theorem Sim.put {st : HSt} {c : CSt} {S : Stale} (h : Sim I ρ k args st c S) {x : String} {p : Bool} {r : PyRef} {v : Val} (hm : Means I ρ st r v) (hk : k x = p) :
    Sim I ρ k args (st.put p x r) (c.put p x v) (S.put p x) := by
  cases p
  · exact h.write hm hk
  · exact h.store hm

theorem Means.touch {st : HSt} {i : Nat} {o : LObj} {r : PyRef} {v : Val} (h : Means I ρ st r v) (hr : r ≠ .obj i) : Means I ρ (st.update i o) r v := by
  obtain ⟨x, h1, h2⟩ := h
  refine ⟨x, ?_, h2⟩
  cases r with
  | pyTrue => exact h1
  | obj j =>
    have : i ≠ j := fun e => hr (e ▸ rfl)
    simpa [HSt.deref, HSt.update, this] using h1

theorem Sim.touch {st st0 : HSt} {c : CSt} {S : Stale} (h : Sim I ρ k args st c S) (he : Ext st0 st) (i : Nat) (o : LObj) :
    Sim I ρ k args (st.update i o) c (S.touch st0 i) where
  regs n w hw hs := by
    simp only [Stale.touch, not_or] at hs
    obtain ⟨r, h1, h2⟩ := h.regs n w hw hs.1
    exact ⟨r, h1, h2.touch fun e => hs.2 (by rw [← he.prim, h1, e])⟩
  cells n w hw hs := by
    simp only [Stale.touch, not_or] at hs
    obtain ⟨r, h1, h2⟩ := h.cells n w hw hs.1
    exact ⟨r, h1, h2.touch fun e => hs.2 (by rw [← he.ptr, h1, e])⟩
  kind n hn := h.kind n hn
  args j a ha hs := by
    simp only [Stale.touch, not_or] at hs
    exact (h.args j a ha hs.1).touch fun e => hs.2 (by cases e; rfl)

theorem means_update {st : HSt} {i : Nat} {x o : LObj} (h : st.deref (.obj i) = some x) : Means I ρ (st.update i o) (.obj i) (eval I ρ o.src) := by
  refine ⟨o, ?_, rfl⟩
  simp only [HSt.deref] at h
  simp [HSt.deref, HSt.update, (List.getElem?_eq_some_iff.1 h).1]

theorem Means.retype {st : HSt} {i : Nat} {x o : LObj} (hx : st.deref (.obj i) = some x) (ho : o.src = x.src) {r : PyRef} {v : Val} (h : Means I ρ st r v) :
    Means I ρ (st.update i o) r v := by
  by_cases hr : r = .obj i
  · subst hr
    obtain ⟨y, h1, h2⟩ := h
    rw [hx] at h1; cases h1
    have := means_update (I := I) (ρ := ρ) (o := o) hx
    rwa [ho, h2] at this
  · exact h.touch hr

theorem Sim.retype {st : HSt} {c : CSt} {S : Stale} (h : Sim I ρ k args st c S) {i : Nat} {x o : LObj} (hx : st.deref (.obj i) = some x) (ho : o.src = x.src) :
    Sim I ρ k args (st.update i o) c S where
  regs n w hw hs := by
    obtain ⟨r, h1, h2⟩ := h.regs n w hw hs
    exact ⟨r, h1, h2.retype hx ho⟩
  cells n w hw hs := by
    obtain ⟨r, h1, h2⟩ := h.cells n w hw hs
    exact ⟨r, h1, h2.retype hx ho⟩
  kind n hn := h.kind n hn
  args j a ha hs := (h.args j a ha hs).retype hx ho

/-! ### Meaning of the expressions -/

theorem eval_mkCall (I : Interp) (ρ : Env) (f : String) (t : Ty) (es : List Expr) : eval I ρ (mkCall f t es) = I.fn f (evals I ρ es) := by
  simp [mkCall, eval, evalOp]

theorem base?_src {o : LObj} {b : Obj} (h : o.base? = some b) : b.src = o.src := by
  unfold LObj.base? at h
  split at h
  · cases h; rfl
  · cases h

theorem eval_getitem (L : LibFns I sq ex) {l i o : Obj} {vs : List Val} {n : Nat} {v : Val} (hl : eval I ρ l.src = .list vs) (hi : eval I ρ i.src = .int n)
    (hv : vs[n]? = some v) (ho : l.getitem (.at i) = some o) : eval I ρ o.src = v := by
  simp only [Obj.getitem, Option.map_eq_some_iff] at ho
  obtain ⟨t, -, rfl⟩ := ho
  simp only [call, eval_mkCall, List.map_cons, List.map_nil, evals, hl, hi]
  exact L.get _ (by unfold OTy.pick; split <;> [skip; split] <;> simp) vs n v hv

theorem eval_lib_len (L : LibFns I sq ex) {l : Obj} {vs : List Val} (hl : eval I ρ l.src = .list vs) : eval I ρ l.len.src = .int vs.length := by
  simp only [Obj.len, eval_mkCall, evals, hl]
  exact L.length _ (by split <;> simp) vs

theorem eval_lib_append (L : LibFns I sq ex) {l x o : Obj} {vs : List Val} {v : Val} (hl : eval I ρ l.src = .list vs) (hx : eval I ρ x.src = v)
    (ho : l.append x = some o) : eval I ρ o.src = .list (vs ++ [v]) := by
  unfold Obj.append at ho
  split at ho
  · cases ho
    simp only [call, eval_mkCall, List.map_cons, List.map_nil, evals, hl, hx]
    exact L.append _ (by split <;> simp) vs v
  · cases ho

/-- A function without effects on variables: the result is a new object with the meaning of the result. -/
theorem Sim.result {st st' : HSt} {c : CSt} {S : Stale} (h : Sim I ρ k args st c S) (he : Ext st st') {o : LObj} {w : Val} (hw : eval I ρ o.src = w) {p : Bool} {r : String}
    (hk : k r = p) :
    Sim I ρ k args (if r ≠ "" then (st'.fresh o).st.put p r (st'.new o).1 else (st'.fresh o).st) (if r = "" then c else c.put p r w)
      (if r = "" then S else S.put p r) := by
  have h' := h.ext (he.trans (ext_new st' o))
  have hm : Means I ρ (st'.new o).2 (st'.new o).1 w := hw ▸ means_new st' o
  by_cases hr : r = ""
  · simp only [hr, ne_eq, not_true, if_false, if_true]
    exact h'
  · simp only [hr, ne_eq, not_false_eq_true, if_true, if_false]
    exact h'.put hm hk

theorem step_call {st st' : HSt} {p : Bool} {r f t : String} {d : Option Nat} {as : List Opd} {m : HSt → List Opd → Option RV} (hm : fnModel d t f = some m)
    (h : step st (.call p r f d t as) = some st') :
    ∃ rv, m st as = some rv ∧ st' = (match rv.assign with
      | some (x, ref, loc) => if loc then (match rv.val with | some ref => if r ≠ "" then rv.st.put p r ref else rv.st | Option.none => rv.st).write x ref
        else (match rv.val with | some ref => if r ≠ "" then rv.st.put p r ref else rv.st | Option.none => rv.st).store x ref
      | Option.none => (match rv.val with | some ref => if r ≠ "" then rv.st.put p r ref else rv.st | Option.none => rv.st)) := by
  simp only [step, hm, Option.bind_eq_bind, Option.bind_eq_some_iff, Option.some.injEq] at h
  obtain ⟨rv, h1, h2⟩ := h
  exact ⟨rv, h1, h2.symm⟩

theorem after_pure (S : Stale) (st : HSt) (p : Bool) (r f t : String) (d : Option Nat) (as : List Opd) (h1 : f ≠ "listAppend") (h2 : f ≠ "vector") (h3 : f ≠ "push_back") :
    S.after st (.call p r f d t as) = if r = "" then S else S.put p r := by
  have ha : appended st (.call p r f d t as) = Option.none := by
    cases as <;> simp [appended, h1]
  simp only [Stale.after, ha, LInst.dest, h2, h3, or_self, if_false]
  split
  · next h => split at h <;> simp_all
  · next h => split at h <;> simp_all

/-- Calls of functions that return a new object and do nothing else. -/
theorem Sim.pure {st st' st1 : HSt} {c : CSt} {S : Stale} (h : Sim I ρ k args st c S) {p : Bool} {r f t : String} {d : Option Nat} {as : List Opd}
    {m : HSt → List Opd → Option RV} (hm : fnModel d t f = some m) (hs : step st (.call p r f d t as) = some st') (hk : k r = p)
    {o : LObj} {w : Val} (he : Ext st st1) (ho : m st as = some (st1.fresh o)) (hw : eval I ρ o.src = w)
    (h1 : f ≠ "listAppend") (h2 : f ≠ "vector") (h3 : f ≠ "push_back") :
    Sim I ρ k args st' (if r = "" then c else c.put p r w) (S.after st (.call p r f d t as)) := by
  obtain ⟨rv, hrv, rfl⟩ := step_call hm hs
  rw [ho] at hrv
  cases hrv
  rw [after_pure S st p r f t d as h1 h2 h3]
  exact h.result he hw hk

theorem Sim.step {st st' : HSt} {c c' : CSt} {S : Stale} (L : LibFns I sq ex) (h : Sim I ρ k args st c S) {i : LInst} (hs : step st i = some st')
    (hx : Exec1 sq ex c i c') (hk : instKind k i) (hf : ∀ o ∈ i.uses, S.fresh o) (hc : i.fn ≠ some "set_contains") :
    Sim I ρ k args st' c' (S.after st i) := by
  cases hx with
  | alloca r t =>
    simp only [Lib.step, Option.bind_eq_bind, Option.bind_eq_some_iff, Option.some.injEq] at hs
    obtain ⟨ty, -, o, -, rfl⟩ := hs
    have h' := h.ext (ext_new st o)
    exact
    { regs := h'.regs
      cells := fun n w hw hn => by
        by_cases hr : n = r
        · simp [hr] at hw
        · simp only [hr, if_false] at hw
          obtain ⟨ref, h1, h2⟩ := h'.cells n w hw (fun hS => hn ⟨hS, hr⟩)
          exact ⟨ref, by simp [HSt.store, hr]; exact h1, h2⟩
      kind := h'.kind
      args := h'.args }
  | load p r x v hv =>
    simp only [Lib.step, Option.bind_eq_bind, Option.bind_eq_some_iff, Option.some.injEq] at hs
    obtain ⟨ref, hr, o, ho, rfl⟩ := hs
    obtain ⟨ref', h1, h2⟩ := h.cells x v hv (hf (.ptr x) (by simp [LInst.uses]))
    rw [hr] at h1; cases h1
    exact h.put h2 hk.1
  | store o x v hv =>
    simp only [Lib.step, Option.bind_eq_bind, Option.bind_eq_some_iff, Option.some.injEq, Prod.exists] at hs
    obtain ⟨ref, st1, hr, o', ho, rfl⟩ := hs
    obtain ⟨he, hm⟩ := h.read hr hv (hf o (by simp [LInst.uses]))
    exact (h.ext he).store hm
  | copy p r o v hv =>
    simp only [Lib.step, Option.bind_eq_bind, Option.bind_eq_some_iff, Option.some.injEq, Prod.exists] at hs
    obtain ⟨ref, st1, hr, o', ho, rfl⟩ := hs
    obtain ⟨he, hm⟩ := h.read hr hv (hf o (by simp [LInst.uses]))
    exact (h.ext he).put hm hk.1
  | arith op r a b x y hxa hyb hfits =>
    simp only [Lib.step, Option.bind_eq_bind, Option.bind_eq_some_iff, Prod.exists] at hs
    obtain ⟨r1, x1, r2, x2, st1, hr, hs⟩ := hs
    obtain ⟨a', b', st2, -, -, -, -, he, -, -, e1, e2⟩ := h.read2 hr (v := .int x) (v' := .int y) (by simp [readVals, hxa, hyb]) (fun o ho => hf o (by simpa [LInst.uses] using ho))
    split at hs
    · simp only [Option.some.injEq] at hs
      subst hs
      refine (h.ext (he.trans (ext_new st1 _))).write (x := r) (v := .int (op.value x y)) ?_ hk.1
      have := means_new (I := I) (ρ := ρ) st1 ⟨.node op.op .int [x1.src, x2.src], .base .int⟩
      have hv : eval I ρ (.node op.op .int [x1.src, x2.src]) = .int (op.value x y) := by
        cases op <;> simp [Arith.op, eval, evals, evalOp, e1, e2, Arith.value, Val.asInt]
      exact hv ▸ this
    · cases hs
  | vector p r d t x =>
    obtain ⟨rv, hrv, rfl⟩ := step_call (m := newVector d) (by simp [fnModel]) hs
    simp only [newVector, Option.bind_eq_bind, Option.bind_eq_some_iff, Option.some.injEq] at hrv
    obtain ⟨o, ho, loc, hloc, rfl⟩ := hrv
    have hkx : k x = true := hk.2.1 (.ptr x) (by simp)
    have hp : st.prim x = Option.none := by
      cases hp : st.prim x with
      | none => rfl
      | some _ => have := h.kind x (by simp [hp]); simp [hkx] at this
    have hl : loc = false := by
      simp only [HSt.location, opdName, hp, Option.isSome_none, Bool.false_eq_true, if_false] at hloc
      cases hq : st.ptr x <;> simp [hq] at hloc
      exact hloc
    subst hl
    have hv : eval I ρ (ofBase o).src = .list [] := by
      have : o.src = mkCall "list_empty" (OTy.list .int).toTy [] ∨ o.src = mkCall "matrix_empty" (OTy.matrix .int).toTy [] ∨ o.src = mkCall "tensor3d_empty" (OTy.tensor3d .int).toTy [] := by
        unfold emptyOf at ho
        split at ho <;> cases ho <;> simp [listEmpty, matrixEmpty, tensor3dEmpty, OTy.isPrimitive]
      rcases this with e | e | e <;> simp only [ofBase, e, eval_mkCall, evals] <;> exact L.empty _ (by simp)
    have hm := means_new (I := I) (ρ := ρ) st (ofBase o)
    rw [hv] at hm
    have := (h.ext (ext_new st (ofBase o))).store (x := x) hm
    simpa [Stale.after, appended, LInst.dest, opdName] using this
  | pushBack p r d t x o l v hl hv =>
    obtain ⟨rv, hrv, rfl⟩ := step_call (m := vectorAppend t) (by simp [fnModel]) hs
    simp only [vectorAppend, Option.bind_eq_bind, Option.bind_eq_some_iff, Prod.exists] at hrv
    obtain ⟨r1, x1, r2, x2, st1, hr, lb, hlb, hrv⟩ := hrv
    obtain ⟨a', b', st2, -, -, -, -, he, -, -, e1, e2⟩ := h.read2 hr (v := .list l) (v' := v) (by have h0 : c.read (.ptr x) = some (.list l) := hl; simp [readVals, hv, h0])
      (fun o ho => hf o (by simpa [LInst.uses] using ho))
    split at hrv
    · simp only [Option.bind_eq_bind, Option.bind_eq_some_iff, Option.some.injEq, List.headD_cons, opdName] at hrv
      obtain ⟨ty, -, loc, hloc, rfl⟩ := hrv
      have hkx : k x = true := hk.2.1 (.ptr x) (by simp)
      have hp : st1.prim x = Option.none := by
        cases hp : st1.prim x with
        | none => rfl
        | some _ => have := (h.ext he).kind x (by simp [hp]); simp [hkx] at this
      have hl' : loc = false := by
        simp only [HSt.location, hp, Option.isSome_none, Bool.false_eq_true, if_false] at hloc
        split at hloc <;> simp_all
      subst hl'
      have hm := means_new (I := I) (ρ := ρ) st1 ⟨mkCall (lb.ty.pick "matrix_append" "tensor3d_append" "list_append") ty.toTy [x1.src, x2.src], ty⟩
      simp only [eval_mkCall, evals, e1, e2] at hm
      rw [L.append _ (by unfold OTy.pick; split <;> [skip; split] <;> simp) l v] at hm
      have := (h.ext (he.trans (ext_new st1 _))).store (x := x) hm
      simpa [Stale.after, appended, LInst.dest, opdName] using this
    · cases hrv
  | call p r f d t as vs w hvs hw =>
    have hkr := hk.1
    cases hw with
    | newList =>
      have hm : fnModel d t "newList" = some newList := by simp [fnModel]
      obtain ⟨rv, hrv, -⟩ := step_call hm hs
      have hl : as.length = 0 := by
        by_cases hl : as.length = 0
        · exact hl
        · simp [newList, hl] at hrv
      refine h.pure hm hs hkr (.refl st) (o := ofBase (listEmpty .int)) (by simp [newList, hl]) ?_ (by simp) (by simp) (by simp)
      simp only [ofBase, listEmpty, OTy.isPrimitive, if_true, eval_mkCall, evals]
      exact L.empty _ (by simp)
    | listLength l =>
      have hm : fnModel d t "listLength" = some listLength := by simp [fnModel]
      obtain ⟨rv, hrv, -⟩ := step_call hm hs
      have hrv0 := hrv
      simp only [listLength, Option.bind_eq_bind, Option.bind_eq_some_iff, Prod.exists] at hrv
      obtain ⟨r1, x1, st1, hr, lb, hlb, hrv⟩ := hrv
      obtain ⟨a', -, -, -, he, -, e1⟩ := h.read1 hr hvs (fun o ho => hf o (by simpa [LInst.uses] using ho))
      split at hrv
      · simp only [Option.some.injEq] at hrv
        refine h.pure hm hs hkr he (by rw [hrv0, ← hrv]) ?_ (by simp) (by simp) (by simp)
        exact eval_lib_len L (by rw [base?_src hlb]; exact e1)
      · cases hrv
    | listGet l i v hi =>
      have hm : fnModel d t "listGet" = some listGet := by simp [fnModel]
      obtain ⟨rv, hrv, -⟩ := step_call hm hs
      have hrv0 := hrv
      simp only [listGet, Option.bind_eq_bind, Option.bind_eq_some_iff, Prod.exists, Option.some.injEq] at hrv
      obtain ⟨r1, x1, r2, x2, st1, hr, lb, hlb, ib, hib, o, ho, hrv⟩ := hrv
      obtain ⟨a', b', st2, -, -, -, -, he, -, -, e1, e2⟩ := h.read2 hr hvs (fun o ho => hf o (by simpa [LInst.uses] using ho))
      refine h.pure hm hs hkr he (by rw [hrv0, ← hrv]) ?_ (by simp) (by simp) (by simp)
      exact eval_getitem L (by rw [base?_src hlb]; exact e1) (by rw [base?_src hib]; exact e2) hi ho
    | listAppend l v =>
      have hm : fnModel d t "listAppend" = some listAppend := by simp [fnModel]
      obtain ⟨rv, hrv, rfl⟩ := step_call hm hs
      simp only [listAppend, Option.bind_eq_bind, Option.bind_eq_some_iff, Prod.exists] at hrv
      obtain ⟨r1, x1, r2, x2, st1, hr, lb, hlb, vb, hvb, o, ho, hrv⟩ := hrv
      obtain ⟨a', b', st2, rfl, -, -, hra, he, hd, -, e1, e2⟩ := h.read2 hr hvs (fun o ho => hf o (by simpa [LInst.uses] using ho))
      cases r1 with
      | pyTrue => cases hrv
      | obj i =>
        simp only [Option.some.injEq] at hrv
        subst hrv
        have hev : eval I ρ (ofBase o).src = .list (l ++ [v]) :=
          eval_lib_append L (by rw [base?_src hlb]; exact e1) (by rw [base?_src hvb]; exact e2) ho
        have h' := (h.ext he).touch he i (ofBase o)
        have hmn := means_update (I := I) (ρ := ρ) (o := ofBase o) hd
        rw [hev] at hmn
        have ha : appended st (.call p r "listAppend" d t [a', b']) = some i := by simp [appended, hra]
        simp only [Stale.after, ha, LInst.dest]
        by_cases hr0 : r = ""
        · simp [hr0]; exact h'
        · simpa [hr0] using h'.put hmn hkr
    | size l =>
      have hm : fnModel d t "size" = some (vectorLength d) := by simp [fnModel]
      obtain ⟨rv, hrv, rfl⟩ := step_call hm hs
      simp only [vectorLength, Option.bind_eq_bind, Option.bind_eq_some_iff, Prod.exists] at hrv
      obtain ⟨r1, x1, st1, hr, lb, hlb, ct, hct, ty, hty, loc, hloc, hrv⟩ := hrv
      obtain ⟨a', -, -, -, he, hd, e1⟩ := h.read1 hr hvs (fun o ho => hf o (by simpa [LInst.uses] using ho))
      cases r1 with
      | pyTrue => cases hrv
      | obj i =>
        simp only [Option.some.injEq] at hrv
        subst hrv
        rw [after_pure S st p r _ t d as (by simp) (by simp) (by simp)]
        have h' := (h.ext he).retype hd (o := ofBase ⟨lb.src, ty⟩) (base?_src hlb)
        refine h'.result (.refl _) (eval_lib_len L (l := ⟨lb.src, ty⟩) ?_) hkr
        show eval I ρ lb.src = _
        rw [base?_src hlb]; exact e1
    | index l i v hi =>
      have hm : fnModel d t "operator[]" = some vectorGet := by simp [fnModel]
      obtain ⟨rv, hrv, rfl⟩ := step_call hm hs
      simp only [vectorGet, Option.bind_eq_bind, Option.bind_eq_some_iff, Prod.exists, Option.some.injEq] at hrv
      obtain ⟨r1, x1, r2, x2, st1, hr, loc, hloc, lb, hlb, ib, hib, o, ho, rfl⟩ := hrv
      obtain ⟨a', b', st2, rfl, hca, -, hra, he, -, -, e1, e2⟩ := h.read2 hr hvs (fun o ho => hf o (by simpa [LInst.uses] using ho))
      have hev : eval I ρ (ofBase o).src = w := eval_getitem L (by rw [base?_src hlb]; exact e1) (by rw [base?_src hib]; exact e2) hi ho
      rw [after_pure S st p r _ t d _ (by simp) (by simp) (by simp)]
      have hres := h.result he hev hkr
      -- storing the operand under its own name changes nothing
      have hsame : ∀ (s : HSt), s = (if r ≠ "" then (st1.fresh (ofBase o)).st.put p r (st1.new (ofBase o)).1 else (st1.fresh (ofBase o)).st) →
          (if loc then s.write (opdName a') r1 else s.store (opdName a') r1) = s := by
        intro s hse
        have hprim : ∀ n, n = r → p = false → opdName a' = n → a' = .reg n → False := by
          intro n hn _ _ ha
          exact hk.2.2.1 (by simp [ha, hn])
        cases a' with
        | int _ => simp [CSt.read] at hca
        | bool _ => simp [CSt.read] at hca
        | reg n =>
          have hnr : n ≠ r := fun e => hk.2.2.1 (by simp [e])
          simp only [HSt.read, Option.map_eq_some_iff, Prod.mk.injEq] at hra
          obtain ⟨rr, hn, hrr, rfl⟩ := hra
          rw [hrr] at hn
          have hsn : s.prim n = some r1 := by
            rw [hse]
            have h0 : (st1.fresh (ofBase o)).st.prim n = some r1 := (congrFun (he.trans (ext_new st1 (ofBase o))).prim n).trans hn
            by_cases hr0 : r = ""
            · simp only [hr0, ne_eq, not_true, if_false]; exact h0
            · simp only [hr0, ne_eq, not_false_eq_true, if_true]
              cases p
              · simp [HSt.put, HSt.write, hnr, h0]
              · simpa [HSt.put, HSt.store] using h0
          have hl : loc = true := by
            simp only [HSt.location, List.headD_cons, opdName, he.prim, hn, Option.isSome_some, if_true, Option.some.injEq] at hloc
            exact hloc.symm
          subst hl
          simp only [if_true, opdName, HSt.write]
          cases s
          congr
          funext y
          by_cases hy : y = n
          · simp [hy]; exact hsn.symm
          · simp [hy]
        | ptr n =>
          have hnr : n ≠ r := fun e => hk.2.2.2 (by simp [e])
          simp only [HSt.read, Option.map_eq_some_iff, Prod.mk.injEq] at hra
          obtain ⟨rr, hn, hrr, rfl⟩ := hra
          rw [hrr] at hn
          have hkn : k n = true := hk.2.1 (.ptr n) (by simp)
          have hp : st1.prim n = Option.none := by
            cases hp : st1.prim n with
            | none => rfl
            | some _ => have := (h.ext he).kind n (by simp [hp]); simp [hkn] at this
          have hsn : s.ptr n = some r1 := by
            rw [hse]
            have h0 : (st1.fresh (ofBase o)).st.ptr n = some r1 := (congrFun (he.trans (ext_new st1 (ofBase o))).ptr n).trans hn
            by_cases hr0 : r = ""
            · simp only [hr0, ne_eq, not_true, if_false]; exact h0
            · simp only [hr0, ne_eq, not_false_eq_true, if_true]
              cases p
              · simpa [HSt.put, HSt.write] using h0
              · simp [HSt.put, HSt.store, hnr, h0]
          have hl : loc = false := by
            simp only [HSt.location, List.headD_cons, opdName, hp, he.ptr, hn, Option.isSome_some, Option.isSome_none, if_true, Bool.false_eq_true, if_false, Option.some.injEq] at hloc
            exact hloc.symm
          subst hl
          simp only [Bool.false_eq_true, if_false, opdName, HSt.store]
          cases s
          congr
          funext y
          by_cases hy : y = n
          · simp [hy]; exact hsn.symm
          · simp [hy]
      have := hsame _ rfl
      simp only [List.headD_cons]
      exact Eq.mpr (congrArg (fun s => Sim I ρ k args s _ _) this) hres
    | setCreate w hw =>
      have hm : fnModel d t "set_create" = some setCreate := by simp [fnModel]
      refine h.pure hm hs hkr (.refl st) (by rw [setCreate]) ?_ (by simp) (by simp) (by simp)
      simp only [SO.setEmpty, eval_mkCall, evals]
      exact L.sets.unique L.sets.create hw
    | setAdd s w X x hX hw =>
      have hm : fnModel d t "set_add" = some setAdd := by simp [fnModel]
      obtain ⟨rv, hrv, -⟩ := step_call hm hs
      have hrv0 := hrv
      simp only [setAdd, Option.bind_eq_bind, Option.bind_eq_some_iff, Prod.exists, Option.some.injEq] at hrv
      obtain ⟨r1, x1, r2, x2, st1, hr, o, ho, hrv⟩ := hrv
      obtain ⟨a', b', st2, -, -, -, -, he, -, -, e1, e2⟩ := h.read2 hr hvs (fun o ho => hf o (by simpa [LInst.uses] using ho))
      refine h.pure hm hs hkr he (by rw [hrv0, ← hrv]) ?_ (by simp) (by simp) (by simp)
      unfold SO.setAdd at ho
      split at ho
      · split at ho
        · cases ho
          simp only [eval_mkCall, evals, LObj.so, e1, e2]
          exact L.sets.unique (L.sets.insert x hX) hw
        · cases ho
      · cases ho
    | setRemove s w X x hX hw =>
      have hm : fnModel d t "set_remove" = some setRemove := by simp [fnModel]
      obtain ⟨rv, hrv, -⟩ := step_call hm hs
      have hrv0 := hrv
      simp only [setRemove, Option.bind_eq_bind, Option.bind_eq_some_iff, Prod.exists, Option.some.injEq] at hrv
      obtain ⟨r1, x1, r2, x2, st1, hr, o, ho, hrv⟩ := hrv
      obtain ⟨a', b', st2, -, -, -, -, he, -, -, e1, e2⟩ := h.read2 hr hvs (fun o ho => hf o (by simpa [LInst.uses] using ho))
      refine h.pure hm hs hkr he (by rw [hrv0, ← hrv]) ?_ (by simp) (by simp) (by simp)
      unfold SO.setRemove at ho
      split at ho
      · split at ho
        · simp only [SO.setSingleton, Option.map_map, Option.map_eq_some_iff, Function.comp_apply] at ho
          obtain ⟨ct, -, rfl⟩ := ho
          simp only [eval_mkCall, evals, LObj.so, e1, e2]
          refine L.sets.unique (L.sets.minus hX (L.sets.singleton x)) (L.sets.ext hw fun y => ?_)
          exact and_comm
        · cases ho
      · cases ho
    | setContains => exact absurd rfl hc
    | makeTuple =>
      have hm : fnModel d t "MakeTuple" = some makeTuple := by simp [fnModel]
      obtain ⟨rv, hrv, -⟩ := step_call hm hs
      have hrv0 := hrv
      simp only [makeTuple, Option.bind_eq_bind, Option.bind_eq_some_iff, Prod.exists, Option.some.injEq] at hrv
      obtain ⟨rs, st1, hr, es, hes, hrv⟩ := hrv
      obtain ⟨he, hms⟩ := h.readAll hr hvs (fun o ho => hf o (by simpa [LInst.uses] using ho))
      refine h.pure hm hs hkr he (by rw [hrv0, ← hrv]) ?_ (by simp) (by simp) (by simp)
      simp only [eval_mkCall, srcs_means hms hes]
      exact L.tuple _
    | tupleGet ws i v hi =>
      have hm : fnModel d t "tupleGet" = some tupleGet := by simp [fnModel]
      obtain ⟨rv, hrv, -⟩ := step_call hm hs
      have hrv0 := hrv
      simp only [tupleGet, Option.bind_eq_bind, Option.bind_eq_some_iff, Prod.exists, Option.some.injEq] at hrv
      obtain ⟨r1, x1, r2, x2, st1, hr, hrv⟩ := hrv
      obtain ⟨a', b', st2, -, -, -, -, he, -, -, e1, e2⟩ := h.read2 hr hvs (fun o ho => hf o (by simpa [LInst.uses] using ho))
      refine h.pure hm hs hkr he (by rw [hrv0, ← hrv]) ?_ (by simp) (by simp) (by simp)
      simp only [eval_mkCall, evals, e1, e2]
      exact L.tupleGet _ _ _ hi
    | sqrt x =>
      have hm : fnModel d t "integer_sqrt" = some (integerFn "integer_sqrt") := by simp [fnModel]
      obtain ⟨rv, hrv, -⟩ := step_call hm hs
      have hrv0 := hrv
      simp only [integerFn, Option.bind_eq_bind, Option.bind_eq_some_iff, Prod.exists, Option.some.injEq] at hrv
      obtain ⟨r1, x1, st1, hr, hrv⟩ := hrv
      obtain ⟨a', -, -, -, he, -, e1⟩ := h.read1 hr hvs (fun o ho => hf o (by simpa [LInst.uses] using ho))
      refine h.pure hm hs hkr he (by rw [hrv0, ← hrv]) ?_ (by simp) (by simp) (by simp)
      simp only [eval_mkCall, evals, e1]
      exact L.sqrt x
    | exp x =>
      have hm : fnModel d t "integer_exp" = some (integerFn "integer_exp") := by simp [fnModel]
      obtain ⟨rv, hrv, -⟩ := step_call hm hs
      have hrv0 := hrv
      simp only [integerFn, Option.bind_eq_bind, Option.bind_eq_some_iff, Prod.exists, Option.some.injEq] at hrv
      obtain ⟨r1, x1, st1, hr, hrv⟩ := hrv
      obtain ⟨a', -, -, -, he, -, e1⟩ := h.read1 hr hvs (fun o ho => hf o (by simpa [LInst.uses] using ho))
      refine h.pure hm hs hkr he (by rw [hrv0, ← hrv]) ?_ (by simp) (by simp) (by simp)
      simp only [eval_mkCall, evals, e1]
      exact L.exp x

theorem Sim.run (L : LibFns I sq ex) {c' : CSt} : ∀ {is : List LInst} {st st' : HSt} {c : CSt} {S : Stale} (_ : Sim I ρ k args st c S) (_ : run st is = some st')
    (_ : Exec sq ex c is c') (_ : ∀ i ∈ is, instKind k i ∧ i.fn ≠ some "set_contains") (_ : NoStaleReads st S is), Sim I ρ k args st' c' (staleAt st S is)
  | [], st, st', c, S, h, hr, hx, _, _ => by
    cases hx
    simp only [Lib.run, List.foldlM_nil, Option.pure_def, Option.some.injEq] at hr
    subst hr
    exact h
  | i :: is, st, st', c, S, h, hr, hx, hk, hn => by
    cases hx with
    | cons h1 h2 =>
      simp only [Lib.run, List.foldlM_cons, Option.bind_eq_bind, Option.bind_eq_some_iff] at hr
      obtain ⟨st1, hs, hr⟩ := hr
      simp only [staleAt, hs]
      exact Sim.run L (h.step L hs h1 (hk i (by simp)).1 hn.1 (hk i (by simp)).2) hr h2 (fun j hj => hk j (by simp [hj])) (hn.2 st1 hs)

theorem argIndex_some {x : String} {p : Bool} (h : args.any (fun a => decide (a.1 = x) && (a.2.isPointer == p)) = true) :
    ∃ j a, argIndex args x p = some (.obj j) ∧ args[j]? = some a ∧ a.1 = x ∧ a.2.isPointer = p := by
  cases hj : args.findIdx? (fun a => decide (a.1 = x) && (a.2.isPointer == p)) with
  | none =>
    rw [List.findIdx?_eq_none_iff] at hj
    obtain ⟨a, ha, hp⟩ := List.any_eq_true.1 h
    rw [hj a ha] at hp
    cases hp
  | some j =>
    obtain ⟨hlt, hp, -⟩ := List.findIdx?_eq_some_iff_getElem.1 hj
    simp only [Bool.and_eq_true, decide_eq_true_eq, beq_iff_eq] at hp
    exact ⟨j, args[j], by simp [argIndex, hj], by simp [hlt], hp.1, hp.2⟩

theorem sim_initial (hk : ∀ a ∈ args, k a.1 = a.2.isPointer) : Sim I ρ k args (initial args) (start args ρ) Stale.none where
  regs n v hv _ := by
    simp only [start] at hv
    split at hv
    · next ha =>
      cases hv
      obtain ⟨j, a, h1, h2, rfl, -⟩ := argIndex_some ha
      exact ⟨_, h1, _, by simp only [HSt.deref, initial, List.getElem?_map, h2, Option.map_some]; rfl, by simp [eval]⟩
    · cases hv
  cells n v hv _ := by
    simp only [start] at hv
    split at hv
    · next ha =>
      cases hv
      obtain ⟨j, a, h1, h2, rfl, -⟩ := argIndex_some ha
      exact ⟨_, h1, _, by simp only [HSt.deref, initial, List.getElem?_map, h2, Option.map_some]; rfl, by simp [eval]⟩
    · cases hv
  kind n hn := by
    have ha : args.any (fun a => decide (a.1 = n) && (a.2.isPointer == false)) = true := by
      by_cases ha : args.any (fun a => decide (a.1 = n) && (a.2.isPointer == false)) = true
      · exact ha
      · refine absurd ?_ hn
        simp only [initial, argIndex, Option.map_eq_none_iff, List.findIdx?_eq_none_iff]
        intro a hm
        have := fun h => ha (List.any_eq_true.2 ⟨a, hm, h⟩)
        simpa using this
    obtain ⟨j, a, -, h2, rfl, h3⟩ := argIndex_some ha
    rw [hk a (List.mem_of_getElem? h2), h3]
  args j a ha _ := ⟨⟨.var a.1 a.2.toTy, a.2⟩, by simp [HSt.deref, initial, ha], by simp [eval]⟩

/-! ### The property -/

/-- C72, registers and cells: for every program of the modelled instructions and every run of it, after the front end has read it every register and cell that has a
value in the run, and whose object has not been appended to under another name, holds an object whose expression has that value.
Missing: programs that read a variable after its object has been appended to under another name, and `set_contains` (both refuted below). -/
theorem C72_library_partial (I : Interp) (sq ex : Int → Int) (L : LibFns I sq ex) (ρ : Env) (k : String → Bool) (args : List (String × LTy)) (is : List LInst)
    (st : HSt) (c : CSt) (hk : ∀ a ∈ args, k a.1 = a.2.isPointer) (hi : ∀ i ∈ is, instKind k i ∧ i.fn ≠ some "set_contains")
    (hr : run (initial args) is = some st) (hx : Exec sq ex (start args ρ) is c) (hn : NoStaleReads (initial args) Stale.none is) :
    (∀ x v, c.regs x = some v → ¬ (staleAt (initial args) Stale.none is).regs x →
      ∃ i o, st.prim x = some (.obj i) ∧ st.heap[i]? = some o ∧ eval I ρ o.src = v) ∧
    ∀ x v, c.cells x = some v → ¬ (staleAt (initial args) Stale.none is).cells x →
      ∃ i o, st.ptr x = some (.obj i) ∧ st.heap[i]? = some o ∧ eval I ρ o.src = v := by
  have h := Sim.run L (sim_initial (I := I) (ρ := ρ) hk) hr hx hi hn
  constructor
  · intro x v hv hs
    obtain ⟨r, h1, o, h2, h3⟩ := h.regs x v hv hs
    cases r with
    | pyTrue => cases h2
    | obj i => exact ⟨i, o, h1, h2, h3⟩
  · intro x v hv hs
    obtain ⟨r, h1, o, h2, h3⟩ := h.cells x v hv hs
    cases r with
    | pyTrue => cases h2
    | obj i => exact ⟨i, o, h1, h2, h3⟩

theorem sim_ret {st : HSt} {c : CSt} {S : Stale} (h : Sim I ρ k args st c S) {o : Opd} {v : Val} {ps : String} {e : Expr} (hr : ret st ps args o = some e)
    (hv : c.read o = some v) (hf : S.fresh o) (ha : ∀ j < args.length, ¬ S.objs j) : eval I ρ e = I.fn ps (args.map (fun a => ρ a.1) ++ [v]) := by
  simp only [ret, Option.bind_eq_bind, Option.bind_eq_some_iff, Option.some.injEq, Prod.exists] at hr
  obtain ⟨r, st1, h1, res, h2, as, h3, rfl⟩ := hr
  obtain ⟨he, o', ho', hev⟩ := h.read h1 hv hf
  rw [h2] at ho'; cases ho'
  have h' := h.ext he
  have hall : List.Forall₂ (Means I ρ st1) ((List.range args.length).map .obj) (args.map fun a => ρ a.1) := by
    rw [List.forall₂_iff_get]
    refine ⟨by simp, fun j hj hj' => ?_⟩
    have hlt : j < args.length := by simpa using hj'
    have := h'.args j args[j] (by simp [hlt]) (ha j hlt)
    simpa using this
  have := srcs_means hall h3
  rw [eval_mkCall]
  congr 1
  rw [evals_eq_map] at this ⊢
  rw [List.map_append, this, List.map_cons, List.map_nil, hev]

/-- C72, the function: the obligation built for a function with one block says that the postcondition holds for the values of the arguments and the value the function
returns, for every value of the arguments for which the function returns.
Missing: as in `C72_library_partial`, and functions that append to an argument (refuted below). -/
theorem C72_function_partial (I : Interp) (sq ex : Int → Int) (L : LibFns I sq ex) (ρ : Env) (k : String → Bool) (ps : String) (args : List (String × LTy))
    (is : List LInst) (o : Opd) (e : Expr) (c : CSt) (v : Val) (hk : ∀ a ∈ args, k a.1 = a.2.isPointer)
    (hi : ∀ i ∈ is, instKind k i ∧ i.fn ≠ some "set_contains") (he : obligation ps args is o = some e) (hx : Exec sq ex (start args ρ) is c) (hv : c.read o = some v)
    (hn : NoStaleReads (initial args) Stale.none is) (ho : (staleAt (initial args) Stale.none is).fresh o)
    (ha : ∀ j < args.length, ¬ (staleAt (initial args) Stale.none is).objs j) :
    eval I ρ e = I.fn ps (args.map (fun a => ρ a.1) ++ [v]) := by
  simp only [obligation, Option.bind_eq_some_iff] at he
  obtain ⟨st, hr, he⟩ := he
  exact sim_ret (Sim.run L (sim_initial (I := I) (ρ := ρ) hk) hr hx hi hn) he hv ho ha

theorem after_none {st : HSt} {i : LInst} (h : i.fn ≠ some "listAppend") : Stale.none.after st i = Stale.none := by
  have ha : appended st i = Option.none := by
    cases i with
    | call p r f d t as =>
      have hf : f ≠ "listAppend" := fun e => h (by simp [LInst.fn, e])
      cases as <;> simp [appended, hf]
    | _ => rfl
  simp only [Stale.after, ha]
  split
  · next p x _ => cases p <;> simp [Stale.put, Stale.none]
  · rfl

theorem noAppend : ∀ (is : List LInst) (st : HSt), (∀ i ∈ is, i.fn ≠ some "listAppend") → NoStaleReads st Stale.none is ∧ staleAt st Stale.none is = Stale.none
  | [], _, _ => ⟨trivial, rfl⟩
  | i :: is, st, h => by
    have ha := after_none (st := st) (h i (by simp))
    have hf : ∀ o, Stale.none.fresh o := by intro o; cases o <;> simp [Stale.fresh, Stale.none]
    refine ⟨⟨fun o _ => hf o, fun st' _ => ?_⟩, ?_⟩
    · rw [ha]; exact (noAppend is st' fun j hj => h j (by simp [hj])).1
    · simp only [staleAt]
      split
      · next st' _ => rw [ha]; exact (noAppend is st' fun j hj => h j (by simp [hj])).2
      · rfl

/-- C72 without `listAppend`: there is no condition on sharing. -/
theorem C72_function_no_append_partial (I : Interp) (sq ex : Int → Int) (L : LibFns I sq ex) (ρ : Env) (k : String → Bool) (ps : String) (args : List (String × LTy))
    (is : List LInst) (o : Opd) (e : Expr) (c : CSt) (v : Val) (hk : ∀ a ∈ args, k a.1 = a.2.isPointer)
    (hi : ∀ i ∈ is, instKind k i ∧ i.fn ≠ some "set_contains" ∧ i.fn ≠ some "listAppend") (he : obligation ps args is o = some e)
    (hx : Exec sq ex (start args ρ) is c) (hv : c.read o = some v) :
    eval I ρ e = I.fn ps (args.map (fun a => ρ a.1) ++ [v]) := by
  obtain ⟨hn, hs⟩ := noAppend is (initial args) fun i h => (hi i h).2.2
  refine C72_function_partial I sq ex L ρ k ps args is o e c v hk (fun i h => ⟨(hi i h).1, (hi i h).2.1⟩) he hx hv hn ?_ ?_
  · rw [hs]; cases o <;> simp [Stale.fresh, Stale.none]
  · rw [hs]; simp [Stale.none]

end Metalift.Ll.Lib
