import Verif.LlvmEqn
/-
Simulation of executions by the symbolic states of the LLVM front end.
-/
namespace Metalift.Ll

/-! ### Definite assignment -/

/-- Registers and cells that certainly have a value. -/
structure Scope where
  regs : List String
  cells : List String

/-- The operand has a value. -/
def Scope.has (sc : Scope) : Opd → Prop
  | .reg n => n ∈ sc.regs
  | .ptr n => n ∈ sc.cells
  | _ => True

/-- What the instruction reads has a value. -/
def Inst.ready (sc : Scope) : Inst → Prop
  | .alloca _ _ => True
  | .load _ _ p => p ∈ sc.cells
  | .store v _ => sc.has v
  | .bin _ _ _ a b => sc.has a ∧ sc.has b
  | .icmp _ _ a b => sc.has a ∧ sc.has b
  | .cast _ _ a => sc.has a
  | .call _ _ _ _ args => ∀ a ∈ args, sc.has a
  | .vector p _ => p ∈ sc.cells
  | .pushBack p v => p ∈ sc.cells ∧ sc.has v
  | .other _ => True

/-- Registers written by an instruction. -/
def Inst.regWrites : Inst → List String
  | .load false r _ => [r]
  | .bin _ _ r _ _ => [r]
  | .icmp _ r _ _ => [r]
  | .cast _ r _ => [r]
  | .call false r _ _ _ => [r]
  | _ => []

/-- Cells written by an instruction. -/
def Inst.cellWrites : Inst → List String
  | .alloca r _ => [r]
  | .load true r _ => [r]
  | .store _ p => [p]
  | .call true r _ _ _ => [r]
  | .vector p _ => [p]
  | .pushBack p _ => [p]
  | _ => []

/-- Cells an instruction creates; the other instructions that write cells modify them in place. -/
def Inst.cellDefs : Inst → List String
  | .alloca r _ => [r]
  | .load true r _ => [r]
  | .call true r _ _ _ => [r]
  | .vector p _ => [p]
  | _ => []

/-- A cell that is modified in place counts as modified in the loop. -/
theorem Inst.cellWrites_cases {i : Inst} {x : String} (h : x ∈ i.cellWrites) : x ∈ i.cellDefs ∨ x ∈ i.havocs := by
  cases i with
  | alloca => exact Or.inl h
  | load b r p => cases b with
    | true => exact Or.inl h
    | false => cases h
  | store => exact Or.inr h
  | call b r f t as => cases b with
    | true => exact Or.inl h
    | false => cases h
  | vector => exact Or.inl h
  | pushBack => exact Or.inr h
  | bin => cases h
  | icmp => cases h
  | cast => cases h
  | other => cases h

/-- The scope after an instruction. -/
def Scope.after (sc : Scope) (i : Inst) : Scope :=
  ⟨i.regWrites ++ sc.regs, i.cellWrites ++ sc.cells⟩

/-- The scope after a list of instructions. -/
def Scope.afterAll (sc : Scope) (is : List Inst) : Scope := is.foldl Scope.after sc

/-- All reads of a list of instructions have a value. -/
def readyAll : Scope → List Inst → Prop
  | _, [] => True
  | sc, i :: is => i.ready sc ∧ readyAll (sc.after i) is

/-- The names in scope have a symbolic value and a concrete one, and these agree. -/
structure Agree (I : Interp) (ρ : Env) (sc : Scope) (st : St) (s : CSt) : Prop where
  regs : ∀ x ∈ sc.regs, ∃ e v, st.prim.read x = some e ∧ s.regs x = some v ∧ eval I ρ e = v
  cells : ∀ x ∈ sc.cells, ∃ e v, st.ptr.read x = some e ∧ s.cells x = some v ∧ eval I ρ e = v

theorem Agree.opd {I ρ sc st s} (h : Agree I ρ sc st s) {o : Opd} (ho : sc.has o) {e : Expr} {v : Val}
    (he : st.read o = some e) (hv : s.read o = some v) : eval I ρ e = v := by
  cases o with
  | reg n =>
    obtain ⟨e', v', h1, h2, h3⟩ := h.regs n ho
    simp only [St.read, CSt.read] at he hv
    rw [h1] at he; rw [h2] at hv
    injection he with he; injection hv with hv
    rw [← he, ← hv, h3]
  | ptr n =>
    obtain ⟨e', v', h1, h2, h3⟩ := h.cells n ho
    simp only [St.read, CSt.read] at he hv
    rw [h1] at he; rw [h2] at hv
    injection he with he; injection hv with hv
    rw [← he, ← hv, h3]
  | int i => simp [St.read, CSt.read] at he hv; subst he; subst hv; rfl
  | bool b => simp [St.read, CSt.read] at he hv; subst he; subst hv; rfl

theorem Agree.cell {I ρ sc st s} (h : Agree I ρ sc st s) {p : String} (hp : p ∈ sc.cells) {e : Expr} {v : Val}
    (he : st.ptr.read p = some e) (hv : s.cells p = some v) : eval I ρ e = v :=
  h.opd (o := .ptr p) hp he hv

theorem Agree.opds {I ρ sc st s} (h : Agree I ρ sc st s) : ∀ {os : List Opd} {es vs}, (∀ o ∈ os, sc.has o) →
    readOpds st os = some es → readAllC s os = some vs → es.map (eval I ρ) = vs
  | [], es, vs, _, h1, h2 => by simp [readOpds, readAllC] at h1 h2; subst h1; subst h2; rfl
  | o :: os, es, vs, ho, h1, h2 => by
    simp only [readOpds, readAllC, Option.bind_eq_bind, Option.bind_eq_some_iff, Option.some.injEq] at h1 h2
    obtain ⟨e, he, es', hes, rfl⟩ := h1
    obtain ⟨v, hv, vs', hvs, rfl⟩ := h2
    simp [h.opd (ho o (by simp)) he hv, h.opds (fun o ho' => ho o (by simp [ho'])) hes hvs]

theorem Agree.write {I ρ sc st s} (h : Agree I ρ sc st s) (x : String) {e : Expr} {v : Val} (he : eval I ρ e = v) :
    Agree I ρ ⟨[x] ++ sc.regs, [] ++ sc.cells⟩ (st.write x e) (s.write x v) := by
  constructor
  · intro y hy
    simp only [St.write, CSt.write, read_write]
    by_cases hyx : y = x
    · exact ⟨e, v, by simp [hyx], by simp [hyx], he⟩
    · obtain ⟨e', v', h1, h2, h3⟩ := h.regs y (by simpa [hyx] using hy)
      exact ⟨e', v', by simp [hyx, h1], by simp [hyx, h2], h3⟩
  · intro y hy
    exact h.cells y (by simpa using hy)

theorem Agree.store {I ρ sc st s} (h : Agree I ρ sc st s) (x : String) {e : Expr} {v : Val} (he : eval I ρ e = v) :
    Agree I ρ ⟨[] ++ sc.regs, [x] ++ sc.cells⟩ (st.store x e) (s.store x v) := by
  constructor
  · intro y hy
    exact h.regs y (by simpa using hy)
  · intro y hy
    simp only [St.store, CSt.store, read_write]
    by_cases hyx : y = x
    · exact ⟨e, v, by simp [hyx], by simp [hyx], he⟩
    · obtain ⟨e', v', h1, h2, h3⟩ := h.cells y (by simpa [hyx] using hy)
      exact ⟨e', v', by simp [hyx, h1], by simp [hyx, h2], h3⟩

theorem agree_inst [LlOps] {I ρ ty sc st s} (h : Agree I ρ sc st s) {i : Inst} {st' : St} {s' : CSt}
    (hx : i.exact I) (hr : i.ready sc) (h1 : stepInst st i = some st') (h2 : execInst I ty s i = some s') :
    Agree I ρ (sc.after i) st' s' := by
  cases i with
  | alloca r t =>
    simp only [stepInst, execInst, Option.bind_eq_bind, Option.bind_eq_some_iff, Option.some.injEq] at h1 h2
    obtain ⟨e, he, rfl⟩ := h1
    obtain ⟨v, hv, w, hw, rfl⟩ := h2
    obtain ⟨rfl, _⟩ := ofTy_some.1 hw
    refine h.store r ?_
    cases t <;> simp [defaultVal, initVal] at he hv <;> subst he <;> subst hv
    · rfl
    · rfl
    · simp only [Inst.exact] at hx
      simp [mkCall, eval, evals, evalOp, hx]
  | load tp r p =>
    simp only [stepInst, execInst, Option.bind_eq_bind, Option.bind_eq_some_iff, Option.some.injEq] at h1 h2
    obtain ⟨e, he, rfl⟩ := h1
    obtain ⟨v, hv, w, hw, rfl⟩ := h2
    obtain ⟨rfl, _⟩ := ofTy_some.1 hw
    cases tp
    · exact h.write r (h.cell hr he hv)
    · exact h.store r (h.cell hr he hv)
  | store o p =>
    simp only [stepInst, execInst, Option.bind_eq_bind, Option.bind_eq_some_iff, Option.some.injEq] at h1 h2
    obtain ⟨e, he, rfl⟩ := h1
    obtain ⟨v, hv, w, hw, rfl⟩ := h2
    obtain ⟨rfl, _⟩ := ofTy_some.1 hw
    exact h.store p (h.opd hr he hv)
  | bin op nsw r a b =>
    simp only [stepInst, execInst, Option.bind_eq_bind, Option.bind_eq_some_iff, Option.some.injEq] at h1 h2
    obtain ⟨ea, hea, eb, heb, e, he, rfl⟩ := h1
    obtain ⟨va, hva, vb, hvb, h2⟩ := h2
    have h3 := h.opd hr.1 hea hva
    have h4 := h.opd hr.2 heb hvb
    cases va with
    | int i =>
      cases vb with
      | int j =>
        simp only [Option.bind_eq_some_iff, Option.some.injEq] at h2
        obtain ⟨k, hk, rfl⟩ := h2
        exact h.write r (binExpr_eval hx h3 h4 he hk)
      | _ => simp at h2
    | _ => simp at h2
  | icmp c r a b =>
    simp only [stepInst, execInst, Option.bind_eq_bind, Option.bind_eq_some_iff, Option.some.injEq] at h1 h2
    obtain ⟨ea, hea, eb, heb, e, he, rfl⟩ := h1
    obtain ⟨va, hva, vb, hvb, k, hk, rfl⟩ := h2
    exact h.write r (cmpExpr_eval hx (h.opd hr.1 hea hva) (h.opd hr.2 heb hvb) he hk)
  | cast k r a =>
    simp only [stepInst, execInst, Option.bind_eq_bind, Option.bind_eq_some_iff, Option.some.injEq] at h1 h2
    obtain ⟨e, he, rfl⟩ := h1
    obtain ⟨v, hv, w, hw, rfl⟩ := h2
    refine h.write r ?_
    rw [h.opd hr he hv]
    cases k with
    | bitcast => simpa [convSem] using hw
    | sext n m =>
      simp only [Inst.exact] at hx
      cases v <;> simp [convSem, hx] at hw
      exact hw
    | trunc n m =>
      simp only [Inst.exact] at hx
      obtain ⟨rfl, rfl⟩ := hx
      cases v <;> simp [convSem] at hw
      exact hw
  | call tp r f t args =>
    simp only [stepInst, execInst, Option.bind_eq_bind, Option.bind_eq_some_iff, Option.some.injEq] at h1 h2
    obtain ⟨es, hes, rfl⟩ := h1
    obtain ⟨vs, hvs, w, hl, w', hw, rfl⟩ := h2
    obtain ⟨rfl, _⟩ := ofTy_some.1 hw
    have he : eval I ρ (mkCall f t es) = w := by
      simp only [Inst.exact] at hx
      simp [mkCall, eval, evalOp, evals_eq_map, h.opds hr hes hvs, hx vs w hl]
    cases tp
    · exact h.write r he
    · exact h.store r he
  | vector p t =>
    simp only [stepInst, execInst, Option.bind_eq_bind, Option.bind_eq_some_iff, Option.some.injEq] at h1 h2
    obtain ⟨_, _, rfl⟩ := h1
    obtain ⟨_, _, w, hw, rfl⟩ := h2
    obtain ⟨rfl, _⟩ := ofTy_some.1 hw
    simp only [Inst.exact] at hx
    exact h.store p (by simp [mkCall, eval, evals, evalOp, hx])
  | pushBack p o =>
    simp only [stepInst, execInst, Option.bind_eq_bind, Option.bind_eq_some_iff, Option.some.injEq] at h1 h2
    obtain ⟨e, he, f, hf, h1⟩ := h1
    split at h1
    · cases h1
    injection h1 with h1
    subst h1
    obtain ⟨v, hv, x, hx', w, hp, w', hw, rfl⟩ := h2
    obtain ⟨rfl, _⟩ := ofTy_some.1 hw
    simp only [Inst.exact] at hx
    exact h.store p (by simp [mkCall, eval, evals, evalOp, h.cell hr.1 he hv, h.opd hr.2 hf hx', hx v x w hp])
  | other o => simp [stepInst] at h1

theorem agree_insts [LlOps] {I ρ ty} : ∀ {is : List Inst} {sc st s st' s'}, Agree I ρ sc st s → (∀ i ∈ is, i.exact I) →
    readyAll sc is → stepInsts st is = some st' → execInsts I ty s is = some s' →
    Agree I ρ (sc.afterAll is) st' s'
  | [], sc, st, s, st', s', h, _, _, h1, h2 => by
    simp [stepInsts, execInsts] at h1 h2
    subst h1; subst h2; exact h
  | i :: is, sc, st, s, st', s', h, hx, hr, h1, h2 => by
    simp only [stepInsts, execInsts, List.foldlM_cons, Option.bind_eq_bind, Option.bind_eq_some_iff] at h1 h2
    obtain ⟨st1, h1, h1'⟩ := h1
    obtain ⟨s1, h2, h2'⟩ := h2
    exact agree_insts (is := is) (agree_inst h (hx i (by simp)) hr.1 h1 h2) (fun j hj => hx j (by simp [hj])) hr.2 h1' h2'

/-! ### Instructions leave other names alone -/

theorem stepInst_keep {st st' : St} {i : Inst} (h : stepInst st i = some st') (x : String) :
    (x ∉ i.regWrites → st'.prim.read x = st.prim.read x) ∧ (x ∉ i.cellWrites → st'.ptr.read x = st.ptr.read x) := by
  cases i <;>
    simp only [stepInst, Option.bind_eq_bind, Option.bind_eq_some_iff, Option.some.injEq, reduceCtorEq] at h
  case alloca =>
    obtain ⟨_, _, rfl⟩ := h
    simp only [Inst.cellWrites, List.mem_singleton, St.store, read_write]
    exact ⟨fun _ => by trivial, fun hx => by simp [hx]⟩
  case load tp r p =>
    obtain ⟨_, _, rfl⟩ := h
    cases tp
    · simp only [Inst.regWrites, List.mem_singleton, St.write, Bool.false_eq_true, if_false, read_write]
      exact ⟨fun hx => by simp [hx], fun _ => by trivial⟩
    · simp only [Inst.cellWrites, List.mem_singleton, St.store, if_true, read_write]
      exact ⟨fun _ => by trivial, fun hx => by simp [hx]⟩
  case store =>
    obtain ⟨_, _, rfl⟩ := h
    simp only [Inst.cellWrites, List.mem_singleton, St.store, read_write]
    exact ⟨fun _ => by trivial, fun hx => by simp [hx]⟩
  case bin =>
    obtain ⟨_, _, _, _, _, _, rfl⟩ := h
    simp only [Inst.regWrites, List.mem_singleton, St.write, read_write]
    exact ⟨fun hx => by simp [hx], fun _ => by trivial⟩
  case icmp =>
    obtain ⟨_, _, _, _, _, _, rfl⟩ := h
    simp only [Inst.regWrites, List.mem_singleton, St.write, read_write]
    exact ⟨fun hx => by simp [hx], fun _ => by trivial⟩
  case cast =>
    obtain ⟨_, _, rfl⟩ := h
    simp only [Inst.regWrites, List.mem_singleton, St.write, read_write]
    exact ⟨fun hx => by simp [hx], fun _ => by trivial⟩
  case call tp r f t args =>
    obtain ⟨_, _, rfl⟩ := h
    cases tp
    · simp only [Inst.regWrites, List.mem_singleton, St.write, Bool.false_eq_true, if_false, read_write]
      exact ⟨fun hx => by simp [hx], fun _ => by trivial⟩
    · simp only [Inst.cellWrites, List.mem_singleton, St.store, if_true, read_write]
      exact ⟨fun _ => by trivial, fun hx => by simp [hx]⟩
  case vector =>
    obtain ⟨_, _, rfl⟩ := h
    simp only [Inst.cellWrites, List.mem_singleton, St.store, read_write]
    exact ⟨fun _ => by trivial, fun hx => by simp [hx]⟩
  case pushBack =>
    obtain ⟨_, _, _, _, h⟩ := h
    split at h
    · cases h
    injection h with h
    subst h
    simp only [Inst.cellWrites, List.mem_singleton, St.store, read_write]
    exact ⟨fun _ => by trivial, fun hx => by simp [hx]⟩

theorem stepInsts_keep : ∀ {is : List Inst} {st st' : St}, stepInsts st is = some st' → ∀ x,
    (x ∉ is.flatMap Inst.regWrites → st'.prim.read x = st.prim.read x) ∧
    (x ∉ is.flatMap Inst.cellWrites → st'.ptr.read x = st.ptr.read x)
  | [], st, st', h, x => by simp [stepInsts] at h; subst h; exact ⟨fun _ => by trivial, fun _ => by trivial⟩
  | i :: is, st, st', h, x => by
    simp only [stepInsts, List.foldlM_cons, Option.bind_eq_bind, Option.bind_eq_some_iff] at h
    obtain ⟨st1, h1, h2⟩ := h
    have k1 := stepInst_keep h1 x
    have k2 := stepInsts_keep (is := is) h2 x
    simp only [List.flatMap_cons, List.mem_append, not_or]
    exact ⟨fun hx => by rw [k2.1 hx.2, k1.1 hx.1], fun hx => by rw [k2.2 hx.2, k1.2 hx.1]⟩

/-- All values in memory have the type of their cell. -/
def CellsTyped (F : Func) (s : CSt) : Prop := ∀ x v, s.cells x = some v → hasTy (F.ty x) v = true

theorem cellsTyped_store {F : Func} {s : CSt} (h : CellsTyped F s) {x : String} {v w : Val}
    (hw : ofTy (F.ty x) v = some w) : CellsTyped F (s.store x w) := by
  obtain ⟨rfl, ht⟩ := ofTy_some.1 hw
  intro y u hu
  simp only [CSt.store] at hu
  by_cases hy : y = x
  · simp only [hy, if_true, Option.some.injEq] at hu; subst hu; rw [hy]; exact ht
  · simp only [hy, if_false] at hu; exact h y u hu

theorem execInst_typed [LlOps] {I : Interp} {F : Func} {s s' : CSt} {i : Inst} (h : CellsTyped F s)
    (he : execInst I F.ty s i = some s') : CellsTyped F s' := by
  cases i <;>
    simp only [execInst, Option.bind_eq_bind, Option.bind_eq_some_iff, Option.some.injEq, reduceCtorEq] at he
  case alloca => obtain ⟨_, _, _, hw, rfl⟩ := he; exact cellsTyped_store h hw
  case load tp _ _ =>
    obtain ⟨_, _, _, hw, rfl⟩ := he
    cases tp
    · exact h
    · exact cellsTyped_store h hw
  case store => obtain ⟨_, _, _, hw, rfl⟩ := he; exact cellsTyped_store h hw
  case bin =>
    obtain ⟨v, _, w, _, he⟩ := he
    cases v with
    | int i =>
      cases w with
      | int j =>
        simp only [Option.bind_eq_some_iff, Option.some.injEq] at he
        obtain ⟨_, _, rfl⟩ := he
        exact h
      | _ => simp at he
    | _ => simp at he
  case icmp => obtain ⟨_, _, _, _, _, _, rfl⟩ := he; exact h
  case cast => obtain ⟨_, _, _, _, rfl⟩ := he; exact h
  case call tp _ _ _ _ =>
    obtain ⟨_, _, _, _, _, hw, rfl⟩ := he
    cases tp
    · exact h
    · exact cellsTyped_store h hw
  case vector => obtain ⟨_, _, _, hw, rfl⟩ := he; exact cellsTyped_store h hw
  case pushBack => obtain ⟨_, _, _, _, _, _, _, hw, rfl⟩ := he; exact cellsTyped_store h hw

theorem execInsts_typed [LlOps] {I : Interp} {F : Func} : ∀ {is : List Inst} {s s' : CSt}, CellsTyped F s →
    execInsts I F.ty s is = some s' → CellsTyped F s'
  | [], s, s', h, he => by simp [execInsts] at he; subst he; exact h
  | i :: is, s, s', h, he => by
    simp only [execInsts, List.foldlM_cons, Option.bind_eq_bind, Option.bind_eq_some_iff] at he
    obtain ⟨s1, h1, h2⟩ := he
    exact execInsts_typed (is := is) (execInst_typed h h1) h2

/-! ### Closure of merged states -/

theorem aggregate_closed {P : Expr → Prop} (hP : TrClosed P) (hb : P (boolLit true)) {pcs : List (List Expr)}
    (h : ∀ pc ∈ pcs, ∀ c ∈ pc, P c) : P (aggregate pcs) := by
  unfold aggregate
  split
  · next e he =>
    refine orObjects_closed hP he ?_
    intro x hx
    obtain ⟨pc, hpc, hx⟩ := List.mem_filterMap.1 hx
    exact andObjects_closed hP hx (h pc (List.mem_filter.1 hpc).1)
  · exact hb

theorem mergeChain_closed {P : Expr → Prop} (hP : TrClosed P) : ∀ (r : List (Expr × List (List Expr))) (base m : Expr),
    mergeChain base r = some m → P base → (∀ k ∈ r, P k.1 ∧ P (aggregate k.2)) → P m
  | [], base, m, h, hb, _ => by simp [mergeChain] at h; subst h; exact hb
  | k :: r, base, m, h, hb, hk => by
    unfold mergeChain at h
    rw [List.foldlM_cons] at h
    by_cases ht : k.1.ty = base.ty
    · rw [if_pos ht] at h
      simp only [Option.bind_eq_bind, Option.bind_some] at h
      have hk0 := hk k (by simp)
      exact mergeChain_closed hP r _ m h (hP.node _ _ _ (by simp [hk0.1, hk0.2, hb])) (fun k' hk' => hk k' (by simp [hk']))
    · rw [if_neg ht] at h; simp at h

theorem mergeVal_closed {P : Expr → Prop} (hP : TrClosed P) (hb : P (boolLit true)) {vals : List (Expr × List Expr)}
    {m : Expr} (h : mergeVal vals = some m) (hv : ∀ x ∈ vals, P x.1 ∧ ∀ c ∈ x.2, P c) : P m := by
  have hc := collected vals
  unfold mergeVal at h
  generalize vals.foldl (fun d v => addValue d v.1 v.2) [] = d at h hc
  have hk : ∀ k ∈ d, P k.1 ∧ P (aggregate k.2) := by
    intro k hk
    obtain ⟨x, hx, hxk⟩ := hc.key k hk
    refine ⟨hxk ▸ (hv x hx).1, aggregate_closed hP hb ?_⟩
    intro pc hpc
    obtain ⟨y, hy, rfl, _⟩ := hc.from_ k hk pc hpc
    exact (hv y hy).2
  cases d with
  | nil => simp at h
  | cons a d =>
    exact mergeChain_closed hP d a.1 m h (hk a (by simp)).1 (fun k hk' => hk k (by simp [hk']))

theorem mergeMaps_closed {P : Expr → Prop} (hP : TrClosed P) (hb : P (boolLit true)) {maps : List (SymVars × List Expr)}
    {r : SymVars} (h : mergeMaps maps = some r) {x : String} {e : Expr} (hr : r.read x = some e)
    (hv : ∀ m ∈ maps, (∀ e, m.1.read x = some e → P e) ∧ ∀ c ∈ m.2, P c) : P e := by
  rw [mergeMaps_read h (mergeMaps_source h hr)] at hr
  refine mergeVal_closed hP hb hr ?_
  intro y hy
  obtain ⟨m, hm, hy⟩ := List.mem_filterMap.1 hy
  cases he : m.1.read x with
  | none => simp [he] at hy
  | some e' => simp [he] at hy; subst hy; exact ⟨(hv m hm).1 _ he, (hv m hm).2⟩

theorem mergePrecond_closed {P : Expr → Prop} (hP : TrClosed P) {pend : List Expr} {preds : List St}
    (hpend : ∀ c ∈ pend, P c) (h : ∀ p ∈ preds, ∀ c ∈ p.precond, P c) : ∀ c ∈ mergePrecond pend preds, P c := by
  unfold mergePrecond
  split
  · next e he =>
    intro c hc
    simp at hc; subst hc
    refine orObjects_closed hP he ?_
    intro x hx
    obtain ⟨p, hp, hx⟩ := List.mem_filterMap.1 hx
    exact andObjects_closed hP hx (h p (List.mem_filter.1 hp).1)
  · exact hpend

end Metalift.Ll
