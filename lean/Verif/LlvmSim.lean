import Verif.LlvmSound
/-
Every execution is followed by the symbolic states: the invariant behind the soundness of the verification
condition of the LLVM front end.
-/
namespace Metalift.Ll

/-! ### Assumptions -/

/-- What is assumed about a loop, `h` being its header: a register written in it has no value before it, a cell
created in it is new, and no name of a havocked cell occurs before it as a symbolic variable. -/
structure LoopGuard (F : Func) (V : Visitor) (scope : String → Scope) (L : Loop) (h : LBlk) : Prop where
  regs : ∀ p ∈ h.preds, ∀ b ∈ F.blocks, b.name ∈ L.blocks → ∀ x ∈ b.insts.flatMap Inst.regWrites,
    (V.states p).prim.read x = none
  cells : ∀ p ∈ h.preds, ∀ b ∈ F.blocks, b.name ∈ L.blocks → ∀ x ∈ b.insts.flatMap Inst.cellDefs,
    (V.states p).ptr.read x = none
  fresh : ∀ p ∈ h.preds, ∀ x ∈ F.havocs L, (∀ c ∈ (V.states p).precond, x ∉ c.vars) ∧
    (∀ y e, (V.states p).prim.read y = some e → x ∉ e.vars) ∧
    (∀ y e, y ∉ F.havocs L → (V.states p).ptr.read y = some e → x ∉ e.vars)
  inScope : ∀ x ∈ F.havocs L, x ∈ (scope h.name).cells
  args : ∀ x ∈ F.havocs L, x ∉ F.args

/-- What is assumed about instructions: they are translated exactly, everything read has been written before on
every path (`scope` is the certificate), and registers and cells have different names. -/
structure Flow [LlOps] (F : Func) (V : Visitor) (I : Interp) (scope : String → Scope) : Prop where
  apart : ∀ b ∈ F.blocks, ∀ c ∈ F.blocks, ∀ x e, (V.states b.name).prim.read x = some e →
    (V.states c.name).ptr.read x = none
  exact_ : ∀ b ∈ F.blocks, ∀ i ∈ b.insts, i.exact I
  ready : ∀ b ∈ F.blocks, readyAll (scope b.name) b.insts
  entry : ∀ b ∈ F.blocks, b.preds = [] →
    (∀ x ∈ (scope b.name).regs, x ∈ F.args ∧ isPointer (F.ty x) = false) ∧
    (∀ x ∈ (scope b.name).cells, x ∈ F.args ∧ isPointer (F.ty x) = true ∨ F.sret = some x)
  edge : ∀ b ∈ F.blocks, ∀ c ∈ F.blocks, c.name ∈ b.term.targets.getD [] →
    (∀ x ∈ (scope c.name).regs, x ∈ ((scope b.name).afterAll b.insts).regs) ∧
    (∀ x ∈ (scope c.name).cells, x ∈ ((scope b.name).afterAll b.insts).cells)
  cond : ∀ b ∈ F.blocks, ∀ c t f, b.term = .cbr c t f → ((scope b.name).afterAll b.insts).has c
  ret : ∀ b ∈ F.blocks, ∀ o, b.term = .ret (some o) → ((scope b.name).afterAll b.insts).has o
  sret : ∀ b ∈ F.blocks, b.term = .ret none → ∀ x, F.sret = some x →
    x ∈ ((scope b.name).afterAll b.insts).cells ∧ ∃ t, (V.states b.name).ptr.read x = some (.var x t)
  loops : ∀ L ∈ F.loops, ∀ h ∈ F.blocks, h.name = L.header → LoopGuard F V scope L h

/-! ### Merging seen from one predecessor -/

theorem merge_from {F posts V rank} (h : Solved F posts V rank) {I : Interp} {ρ : Env} {b c : LBlk}
    (hb : b ∈ F.blocks) (hc : c ∈ F.blocks) (hbc : b.name ∈ c.preds) {pend : List Expr} {m : St}
    (hm : mergeStates pend (c.preds.map V.states) = some m) (hs : AllHold I ρ (V.states b.name).precond) :
    (AllHold I ρ pend → AllHold I ρ m.precond) ∧
    (∀ x e, (V.states b.name).prim.read x = some e → ∃ e', m.prim.read x = some e' ∧ eval I ρ e' = eval I ρ e) ∧
    (∀ x e, (V.states b.name).ptr.read x = some e → ∃ e', m.ptr.read x = some e' ∧ eval I ρ e' = eval I ρ e) := by
  have hcp : c.preds ≠ [] := List.ne_nil_of_mem hbc
  rcases merge_cases h.shape hc hcp hm with ⟨B, hB, hp, rfl⟩ | ⟨h2, hpc, h3, h4⟩
  · rw [hp] at hbc
    have hbB : b = B := h.shape.cfg.inj hb hB (by simpa using hbc)
    subst hbB
    exact ⟨fun hpend => allHold_append.2 ⟨hpend, hs⟩, fun x e he => ⟨e, he, rfl⟩, fun x e he => ⟨e, he, rfl⟩⟩
  · have hmem : V.states b.name ∈ c.preds.map V.states := List.mem_map_of_mem hbc
    have hne := h.shape.nonemptyMap hc h2
    have hlit := h.shape.litsMap hc
    have only : ∀ st ∈ c.preds.map V.states, AllHold I ρ st.precond → st = V.states b.name := by
      intro st hst hsat
      obtain ⟨B, hB, hBc, rfl⟩ := h.shape.mapStates hc hst
      rw [exclusive h hc h2 hB hb hBc hbc hsat hs]
    refine ⟨fun _ => ?_, fun x e he => ?_, fun x e he => ?_⟩
    · rw [hpc, mergePrecond_iff (by simpa using hcp) hne (fun st hst => (hlit st hst).1)]
      exact ⟨_, hmem, hs⟩
    · have hin : (V.states b.name).prim.read x = some e ∧
          ((V.states b.name).prim, (V.states b.name).precond) ∈ (c.preds.map V.states).map fun p => (p.prim, p.precond) :=
        ⟨he, List.mem_map_of_mem (f := fun p : St => (p.prim, p.precond)) hmem⟩
      obtain ⟨e', he'⟩ := mergeMaps_defined h3 ⟨_, hin.2, e, he⟩
      refine ⟨e', he', mergeMaps_eval h3 he' ?_ ?_ ?_ ⟨_, hin.2, hs, e, he⟩ ?_⟩
      · intro q hq; obtain ⟨st, hst, rfl⟩ := List.mem_map.1 hq; exact hne st hst
      · intro q hq; obtain ⟨st, hst, rfl⟩ := List.mem_map.1 hq; exact (hlit st hst).1
      · intro q hq e0 h0; obtain ⟨st, hst, rfl⟩ := List.mem_map.1 hq; exact (hlit st hst).2.1 x e0 h0
      · intro q hq hsat e0 h0
        obtain ⟨st, hst, rfl⟩ := List.mem_map.1 hq
        have := only st hst hsat
        subst this
        rw [show (V.states b.name).prim.read x = some e0 from h0] at he
        injection he with he; rw [he]
    · have hin : ((V.states b.name).ptr, (V.states b.name).precond) ∈
          (c.preds.map V.states).map fun p => (p.ptr, p.precond) :=
        List.mem_map_of_mem (f := fun p : St => (p.ptr, p.precond)) hmem
      obtain ⟨e', he'⟩ := mergeMaps_defined h4 ⟨_, hin, e, he⟩
      refine ⟨e', he', mergeMaps_eval h4 he' ?_ ?_ ?_ ⟨_, hin, hs, e, he⟩ ?_⟩
      · intro q hq; obtain ⟨st, hst, rfl⟩ := List.mem_map.1 hq; exact hne st hst
      · intro q hq; obtain ⟨st, hst, rfl⟩ := List.mem_map.1 hq; exact (hlit st hst).1
      · intro q hq e0 h0; obtain ⟨st, hst, rfl⟩ := List.mem_map.1 hq; exact (hlit st hst).2.2 x e0 h0
      · intro q hq hsat e0 h0
        obtain ⟨st, hst, rfl⟩ := List.mem_map.1 hq
        have := only st hst hsat
        subst this
        rw [show (V.states b.name).ptr.read x = some e0 from h0] at he
        injection he with he; rw [he]

/-- Names defined in a merged state are defined in a predecessor. -/
theorem merge_source {F posts V rank} (h : Solved F posts V rank) {c : LBlk} (hc : c ∈ F.blocks) (hcp : c.preds ≠ [])
    {pend : List Expr} {m : St} (hm : mergeStates pend (c.preds.map V.states) = some m) (x : String) :
    (∀ e, m.prim.read x = some e → ∃ B ∈ F.blocks, B.name ∈ c.preds ∧ ∃ e', (V.states B.name).prim.read x = some e') ∧
    (∀ e, m.ptr.read x = some e → ∃ B ∈ F.blocks, B.name ∈ c.preds ∧ ∃ e', (V.states B.name).ptr.read x = some e') := by
  rcases merge_cases h.shape hc hcp hm with ⟨B, hB, hp, rfl⟩ | ⟨h2, hpc, h3, h4⟩
  · exact ⟨fun e he => ⟨B, hB, by simp [hp], e, he⟩, fun e he => ⟨B, hB, by simp [hp], e, he⟩⟩
  · constructor
    · intro e he
      obtain ⟨q, hq, e', he'⟩ := mergeMaps_source h3 he
      obtain ⟨st, hst, rfl⟩ := List.mem_map.1 hq
      obtain ⟨B, hB, hBc, rfl⟩ := h.shape.mapStates hc hst
      exact ⟨B, hB, hBc, e', he'⟩
    · intro e he
      obtain ⟨q, hq, e', he'⟩ := mergeMaps_source h4 he
      obtain ⟨st, hst, rfl⟩ := List.mem_map.1 hq
      obtain ⟨B, hB, hBc, rfl⟩ := h.shape.mapStates hc hst
      exact ⟨B, hB, hBc, e', he'⟩

/-- Names defined in a predecessor are defined in the merged state. -/
theorem merge_defined {F posts V rank} (h : Solved F posts V rank) {b c : LBlk} (hb : b ∈ F.blocks) (hc : c ∈ F.blocks)
    (hbc : b.name ∈ c.preds) {pend : List Expr} {m : St} (hm : mergeStates pend (c.preds.map V.states) = some m)
    (x : String) :
    (∀ e, (V.states b.name).prim.read x = some e → ∃ e', m.prim.read x = some e') ∧
    (∀ e, (V.states b.name).ptr.read x = some e → ∃ e', m.ptr.read x = some e') := by
  rcases merge_cases h.shape hc (List.ne_nil_of_mem hbc) hm with ⟨B, hB, hp, rfl⟩ | ⟨h2, hpc, h3, h4⟩
  · rw [hp] at hbc
    have hbB : b = B := h.shape.cfg.inj hb hB (by simpa using hbc)
    subst hbB
    exact ⟨fun e he => ⟨e, he⟩, fun e he => ⟨e, he⟩⟩
  · have hmem : V.states b.name ∈ c.preds.map V.states := List.mem_map_of_mem hbc
    exact ⟨fun e he => mergeMaps_defined h3 ⟨_, List.mem_map_of_mem (f := fun p : St => (p.prim, p.precond)) hmem, e, he⟩,
      fun e he => mergeMaps_defined h4 ⟨_, List.mem_map_of_mem (f := fun p : St => (p.ptr, p.precond)) hmem, e, he⟩⟩

/-- A property of all expressions in the predecessors holds in the merged state. -/
theorem merge_closed {F posts V rank} (h : Solved F posts V rank) {c : LBlk} (hc : c ∈ F.blocks) (hcp : c.preds ≠ [])
    {pend : List Expr} {m : St} (hm : mergeStates pend (c.preds.map V.states) = some m)
    {P : Expr → Prop} (hP : TrClosed P) (hb : P (boolLit true)) (hpend : ∀ e ∈ pend, P e)
    (hpc : ∀ p ∈ c.preds, ∀ e ∈ (V.states p).precond, P e) :
    (∀ e ∈ m.precond, P e) ∧
    (∀ x, (∀ p ∈ c.preds, ∀ e, (V.states p).prim.read x = some e → P e) → ∀ e, m.prim.read x = some e → P e) ∧
    (∀ x, (∀ p ∈ c.preds, ∀ e, (V.states p).ptr.read x = some e → P e) → ∀ e, m.ptr.read x = some e → P e) := by
  rcases merge_cases h.shape hc hcp hm with ⟨B, hB, hp, rfl⟩ | ⟨h2, hmp, h3, h4⟩
  · have hBp : B.name ∈ c.preds := by simp [hp]
    refine ⟨?_, fun x hx e he => hx _ hBp e he, fun x hx e he => hx _ hBp e he⟩
    intro e he
    rcases List.mem_append.1 he with he | he
    · exact hpend e he
    · exact hpc _ hBp e he
  · refine ⟨?_, fun x hx e he => ?_, fun x hx e he => ?_⟩
    · rw [hmp]
      refine mergePrecond_closed hP hpend ?_
      intro st hst
      obtain ⟨p, hp, rfl⟩ := List.mem_map.1 hst
      exact hpc p hp
    · refine mergeMaps_closed hP hb h3 he ?_
      intro q hq
      obtain ⟨st, hst, rfl⟩ := List.mem_map.1 hq
      obtain ⟨p, hp, rfl⟩ := List.mem_map.1 hst
      exact ⟨hx p hp, hpc p hp⟩
    · refine mergeMaps_closed hP hb h4 he ?_
      intro q hq
      obtain ⟨st, hst, rfl⟩ := List.mem_map.1 hq
      obtain ⟨p, hp, rfl⟩ := List.mem_map.1 hst
      exact ⟨hx p hp, hpc p hp⟩

/-! ### Inside a loop, what was there before the loop is kept -/

theorem loop_keep [LlOps] {F posts V rank} (h : Solved F posts V rank) {I : Interp} {scope} (hf : Flow F V I scope)
    {L : Loop} (hL : L ∈ F.loops) {hd : LBlk} (hhd : hd ∈ F.blocks) (hhn : hd.name = L.header)
    {pend : List Expr} {st1 st2 m : St} (heq : Eqn F posts V hd pend st1 st2)
    (hm : mergeStates pend (hd.preds.map V.states) = some m) (hen : F.enterLoop m L = some st1) {ρ : Env} :
    ∀ (k : Nat) (b : LBlk), b ∈ F.blocks → b.name ∈ L.blocks → rank b.name < k →
      AllHold I ρ (V.states b.name).precond →
      AllHold I ρ m.precond ∧
      (∀ x e, m.prim.read x = some e → ∃ e', (V.states b.name).prim.read x = some e' ∧ eval I ρ e' = eval I ρ e) ∧
      (∀ x e, x ∉ F.havocs L → m.ptr.read x = some e →
        ∃ e', (V.states b.name).ptr.read x = some e' ∧ eval I ρ e' = eval I ρ e) := by
  have hsh := h.shape.loops L hL
  have hg := hf.loops L hL hd hhd hhn
  have hhp : hd.preds ≠ [] := by
    obtain ⟨h', hh', hn', hp'⟩ := hsh.header
    rw [h.shape.cfg.inj hhd hh' (by rw [hhn, hn'])]; exact hp'
  have nowr : ∀ b ∈ F.blocks, b.name ∈ L.blocks → ∀ x e, m.prim.read x = some e →
      x ∉ b.insts.flatMap Inst.regWrites := by
    intro b hb hbL x e he hw
    obtain ⟨B, hB, hBp, e', he'⟩ := (merge_source h hhd hhp hm x).1 e he
    rw [hg.regs _ hBp b hb hbL x hw] at he'; cases he'
  have nowc : ∀ b ∈ F.blocks, b.name ∈ L.blocks → ∀ x e, x ∉ F.havocs L → m.ptr.read x = some e →
      x ∉ b.insts.flatMap Inst.cellWrites := by
    intro b hb hbL x e hx he hw
    obtain ⟨B, hB, hBp, e', he'⟩ := (merge_source h hhd hhp hm x).2 e he
    obtain ⟨i, hi, hw⟩ := List.mem_flatMap.1 hw
    rcases Inst.cellWrites_cases hw with h1 | h1
    · rw [hg.cells _ hBp b hb hbL x (List.mem_flatMap.2 ⟨i, hi, h1⟩)] at he'; cases he'
    · refine hx (List.mem_flatMap.2 ⟨b.name, hbL, ?_⟩)
      rw [h.shape.cfg.find hb]
      exact List.mem_flatMap.2 ⟨i, hi, h1⟩
  intro k
  induction k with
  | zero => intro b _ _ hk; omega
  | succ k ih =>
    intro b hb hbL hk hsat
    by_cases hbh : b.name = L.header
    · have : b = hd := h.shape.cfg.inj hb hhd (by rw [hbh, hhn])
      subst this
      obtain ⟨e0, _, hp, h1, h2⟩ := enterLoop_fields hen
      rw [heq.precond', hp, allHold_append] at hsat
      refine ⟨hsat.1, fun x e he => ⟨e, ?_, rfl⟩, fun x e hx he => ⟨e, ?_, rfl⟩⟩
      · rw [heq.prim, (stepInsts_keep heq.step x).1 (nowr b hb hbL x e he), h1, he]
      · rw [heq.ptr, (stepInsts_keep heq.step x).2 (nowc b hb hbL x e hx he), h2, (havocSt_fields F L m).2.2, if_neg hx, he]
    · obtain ⟨hbp, hin⟩ := hsh.natural b hb hbL hbh
      obtain ⟨pend', s1, s2, hq⟩ := h.eqn b hb
      obtain ⟨mb, hmb, hor⟩ := h.merged hbp hq
      have hs1 : s1 = mb := by
        rcases hor with ⟨_, h1⟩ | ⟨L', hL', hn', _⟩
        · exact h1
        · have := hsh.unique L' hL' (by rw [hn']; exact hbL)
          subst this
          exact absurd hn'.symm hbh
      subst hs1
      rw [hq.precond'] at hsat
      obtain ⟨B, hB, hBp, hBsat, _⟩ := merge_back h.shape hb hbp hmb hsat
      obtain ⟨i1, i2, i3⟩ := ih B hB (hin _ hBp) (by have := h.rank b hb _ hBp; omega) hBsat
      obtain ⟨_, m2, m3⟩ := merge_from h hB hb hBp hmb hBsat
      refine ⟨i1, fun x e he => ?_, fun x e hx he => ?_⟩
      · obtain ⟨e1, he1, hv1⟩ := i2 x e he
        obtain ⟨e2, he2, hv2⟩ := m2 x e1 he1
        exact ⟨e2, by rw [hq.prim, (stepInsts_keep hq.step x).1 (nowr b hb hbL x e he), he2], by rw [hv2, hv1]⟩
      · obtain ⟨e1, he1, hv1⟩ := i3 x e hx he
        obtain ⟨e2, he2, hv2⟩ := m3 x e1 he1
        exact ⟨e2, by rw [hq.ptr, (stepInsts_keep hq.step x).2 (nowc b hb hbL x e hx he), he2], by rw [hv2, hv1]⟩

/-! ### Names in scope have a symbolic value -/

theorem stepInst_defines {st st' : St} {i : Inst} (h : stepInst st i = some st') (x : String) :
    (x ∈ i.regWrites ∨ (∃ e, st.prim.read x = some e) → ∃ e, st'.prim.read x = some e) ∧
    (x ∈ i.cellWrites ∨ (∃ e, st.ptr.read x = some e) → ∃ e, st'.ptr.read x = some e) := by
  have aux : ∀ (vs : SymVars) (r : String) (e : Expr), (x ∈ [r] ∨ ∃ e, vs.read x = some e) →
      ∃ e', (vs.write r e).read x = some e' := by
    intro vs r e hx
    rw [read_write]
    by_cases hr : x = r
    · exact ⟨e, by simp [hr]⟩
    · rcases hx with hx | ⟨e', he'⟩
      · exact absurd (by simpa using hx) hr
      · exact ⟨e', by simp [hr, he']⟩
  cases i <;>
    simp only [stepInst, Option.bind_eq_bind, Option.bind_eq_some_iff, Option.some.injEq, reduceCtorEq] at h
  case alloca => obtain ⟨_, _, rfl⟩ := h; exact ⟨fun hx => by simpa [Inst.regWrites, St.store] using hx, aux _ _ _⟩
  case load tp r p =>
    obtain ⟨_, _, rfl⟩ := h
    cases tp
    · exact ⟨aux _ _ _, fun hx => by simpa [Inst.cellWrites, St.write] using hx⟩
    · exact ⟨fun hx => by simpa [Inst.regWrites, St.store] using hx, aux _ _ _⟩
  case store => obtain ⟨_, _, rfl⟩ := h; exact ⟨fun hx => by simpa [Inst.regWrites, St.store] using hx, aux _ _ _⟩
  case bin => obtain ⟨_, _, _, _, _, _, rfl⟩ := h; exact ⟨aux _ _ _, fun hx => by simpa [Inst.cellWrites, St.write] using hx⟩
  case icmp => obtain ⟨_, _, _, _, _, _, rfl⟩ := h; exact ⟨aux _ _ _, fun hx => by simpa [Inst.cellWrites, St.write] using hx⟩
  case cast => obtain ⟨_, _, rfl⟩ := h; exact ⟨aux _ _ _, fun hx => by simpa [Inst.cellWrites, St.write] using hx⟩
  case call tp r f t args =>
    obtain ⟨_, _, rfl⟩ := h
    cases tp
    · exact ⟨aux _ _ _, fun hx => by simpa [Inst.cellWrites, St.write] using hx⟩
    · exact ⟨fun hx => by simpa [Inst.regWrites, St.store] using hx, aux _ _ _⟩
  case vector => obtain ⟨_, _, rfl⟩ := h; exact ⟨fun hx => by simpa [Inst.regWrites, St.store] using hx, aux _ _ _⟩
  case pushBack =>
    obtain ⟨_, _, _, _, h⟩ := h
    split at h
    · cases h
    injection h with h
    subst h
    exact ⟨fun hx => by simpa [Inst.regWrites, St.store] using hx, aux _ _ _⟩

/-- Everything in scope is defined. -/
def Scope.DefinedIn (sc : Scope) (st : St) : Prop :=
  (∀ x ∈ sc.regs, ∃ e, st.prim.read x = some e) ∧ ∀ x ∈ sc.cells, ∃ e, st.ptr.read x = some e

theorem stepInsts_defines : ∀ {is : List Inst} {sc : Scope} {st st' : St}, sc.DefinedIn st →
    stepInsts st is = some st' → (sc.afterAll is).DefinedIn st'
  | [], sc, st, st', hd, h => by simp [stepInsts] at h; subst h; exact hd
  | i :: is, sc, st, st', hd, h => by
    simp only [stepInsts, List.foldlM_cons, Option.bind_eq_bind, Option.bind_eq_some_iff] at h
    obtain ⟨s1, h1, h2⟩ := h
    refine stepInsts_defines (is := is) (sc := sc.after i) ⟨?_, ?_⟩ h2
    · intro x hx
      rcases List.mem_append.1 hx with hx | hx
      · exact (stepInst_defines h1 x).1 (.inl hx)
      · exact (stepInst_defines h1 x).1 (.inr (hd.1 x hx))
    · intro x hx
      rcases List.mem_append.1 hx with hx | hx
      · exact (stepInst_defines h1 x).2 (.inl hx)
      · exact (stepInst_defines h1 x).2 (.inr (hd.2 x hx))

/-! ### The start of the function -/

/-- All values are the variables of the same name. -/
def St.Own (st : St) : Prop :=
  (∀ x e, st.prim.read x = some e → ∃ t, e = .var x t) ∧ ∀ x e, st.ptr.read x = some e → ∃ t, e = .var x t

theorem own_write {st : St} (h : st.Own) (x : String) (t : Ty) : (st.write x (.var x t)).Own := by
  refine ⟨fun y e he => ?_, h.2⟩
  simp only [St.write, read_write] at he
  by_cases hy : y = x
  · rw [if_pos hy] at he; injection he with he; exact ⟨t, by rw [← he, hy]⟩
  · rw [if_neg hy] at he; exact h.1 y e he

theorem own_store {st : St} (h : st.Own) (x : String) (t : Ty) : (st.store x (.var x t)).Own := by
  refine ⟨h.1, fun y e he => ?_⟩
  simp only [St.store, read_write] at he
  by_cases hy : y = x
  · rw [if_pos hy] at he; injection he with he; exact ⟨t, by rw [← he, hy]⟩
  · rw [if_neg hy] at he; exact h.2 y e he

theorem bindArgs_fields (F : Func) : ∀ (l : List String) (st : St), st.Own →
    (l.foldl F.bindArg st).Own ∧ (l.foldl F.bindArg st).precond = st.precond ∧
    (∀ x, (∃ e, st.prim.read x = some e) ∨ x ∈ l ∧ isPointer (F.ty x) = false →
      ∃ e, (l.foldl F.bindArg st).prim.read x = some e) ∧
    (∀ x, (∃ e, st.ptr.read x = some e) ∨ x ∈ l ∧ isPointer (F.ty x) = true →
      ∃ e, (l.foldl F.bindArg st).ptr.read x = some e)
  | [], st, h => ⟨h, rfl, fun x hx => by simpa using hx, fun x hx => by simpa using hx⟩
  | a :: l, st, h => by
    rw [List.foldl_cons]
    by_cases ha : isPointer (F.ty a) = true
    · have hst : F.bindArg st a = st.store a (.var a (F.ty a)) := by simp [Func.bindArg, ha]
      rw [hst]
      obtain ⟨i1, i2, i3, i4⟩ := bindArgs_fields F l _ (own_store h a (F.ty a))
      refine ⟨i1, i2, fun x hx => i3 x ?_, fun x hx => i4 x ?_⟩
      · rcases hx with hx | ⟨hx, hp⟩
        · exact .inl hx
        · rcases List.mem_cons.1 hx with rfl | hx
          · rw [ha] at hp; cases hp
          · exact .inr ⟨hx, hp⟩
      · simp only [St.store, read_write]
        by_cases hxa : x = a
        · exact .inl ⟨_, by rw [if_pos hxa]⟩
        · rcases hx with ⟨e, he⟩ | ⟨hx, hp⟩
          · exact .inl ⟨e, by rw [if_neg hxa, he]⟩
          · rcases List.mem_cons.1 hx with rfl | hx
            · exact absurd rfl hxa
            · exact .inr ⟨hx, hp⟩
    · have hst : F.bindArg st a = st.write a (.var a (F.ty a)) := by simp [Func.bindArg, ha]
      rw [hst]
      obtain ⟨i1, i2, i3, i4⟩ := bindArgs_fields F l _ (own_write h a (F.ty a))
      refine ⟨i1, i2, fun x hx => i3 x ?_, fun x hx => i4 x ?_⟩
      · simp only [St.write, read_write]
        by_cases hxa : x = a
        · exact .inl ⟨_, by rw [if_pos hxa]⟩
        · rcases hx with ⟨e, he⟩ | ⟨hx, hp⟩
          · exact .inl ⟨e, by rw [if_neg hxa, he]⟩
          · rcases List.mem_cons.1 hx with rfl | hx
            · exact absurd rfl hxa
            · exact .inr ⟨hx, hp⟩
      · rcases hx with hx | ⟨hx, hp⟩
        · exact .inl hx
        · rcases List.mem_cons.1 hx with rfl | hx
          · exact absurd hp ha
          · exact .inr ⟨hx, hp⟩

theorem preprocess_fields (F : Func) (pend posts : List Expr) :
    (F.preprocess pend posts).Own ∧ (F.preprocess pend posts).precond = pend ++ posts ∧
    (∀ x, x ∈ F.args ∧ isPointer (F.ty x) = false → ∃ e, (F.preprocess pend posts).prim.read x = some e) ∧
    (∀ x, x ∈ F.args ∧ isPointer (F.ty x) = true ∨ F.sret = some x →
      ∃ e, (F.preprocess pend posts).ptr.read x = some e) := by
  have wr : ∀ (vs : SymVars) (x r : String) (e : Expr), (∃ e, vs.read x = some e) → ∃ e', (vs.write r e).read x = some e' := by
    intro vs x r e ⟨e', he'⟩
    rw [read_write]
    by_cases hr : x = r
    · exact ⟨e, by simp [hr]⟩
    · exact ⟨e', by simp [hr, he']⟩
  obtain ⟨i1, i2, i3, i4⟩ := bindArgs_fields F F.args { precond := pend ++ posts }
    ⟨by simp [SymVars.read], by simp [SymVars.read]⟩
  have key : ∀ st : St, st.Own → st.precond = pend ++ posts →
      (∀ x, x ∈ F.args ∧ isPointer (F.ty x) = false → ∃ e, st.prim.read x = some e) →
      (∀ x, x ∈ F.args ∧ isPointer (F.ty x) = true → ∃ e, st.ptr.read x = some e) →
      ∀ st', st' = (match F.sret with
        | some x => st.store x (.var x (F.ty x))
        | none => st) →
      st'.Own ∧ st'.precond = pend ++ posts ∧
      (∀ x, x ∈ F.args ∧ isPointer (F.ty x) = false → ∃ e, st'.prim.read x = some e) ∧
      (∀ x, x ∈ F.args ∧ isPointer (F.ty x) = true ∨ F.sret = some x → ∃ e, st'.ptr.read x = some e) := by
    intro st h1 h2 h3 h4 st' h'
    cases hs : F.sret with
    | none =>
      rw [hs] at h'; subst h'
      exact ⟨h1, h2, h3, fun x hx => h4 x (by simpa using hx)⟩
    | some y =>
      rw [hs] at h'; subst h'
      refine ⟨own_store h1 y _, h2, h3, fun x hx => ?_⟩
      simp only [St.store]
      rcases hx with hx | hx
      · exact wr _ _ _ _ (h4 x hx)
      · injection hx with hx
        exact ⟨_, by rw [read_write, if_pos hx.symm]⟩
  by_cases hr : isPointer F.retTy = true
  · refine key ((F.args.foldl F.bindArg { precond := pend ++ posts }).store (F.name ++ "_rv") (.var (F.name ++ "_rv") F.retTy))
      (own_store i1 _ _) i2 (fun x hx => i3 x (.inr hx)) (fun x hx => wr _ _ _ _ (i4 x (.inr hx))) _ ?_
    simp only [Func.preprocess, hr, if_true]
    cases F.sret <;> rfl
  · refine key ((F.args.foldl F.bindArg { precond := pend ++ posts }).write (F.name ++ "_rv") (.var (F.name ++ "_rv") F.retTy))
      (own_write i1 _ _) i2 (fun x hx => wr _ _ _ _ (i3 x (.inr hx))) (fun x hx => i4 x (.inr hx)) _ ?_
    simp only [Func.preprocess, hr, if_false, Bool.false_eq_true]
    cases F.sret <;> rfl

/-! ### Definedness of the start states -/

theorem start_defined [LlOps] {F posts V rank} (h : Solved F posts V rank) {I : Interp} {scope} (hf : Flow F V I scope) :
    ∀ (k : Nat) (b : LBlk), b ∈ F.blocks → rank b.name < k → ∀ {pend st1 st2}, Eqn F posts V b pend st1 st2 →
      (∀ m, mergeStates pend (b.preds.map V.states) = some m → b.preds ≠ [] → (scope b.name).DefinedIn m) ∧
      (scope b.name).DefinedIn st1 := by
  intro k
  induction k with
  | zero => intro b _ hk; omega
  | succ k ih =>
    intro b hb hk pend st1 st2 he
    have hmd : ∀ m, mergeStates pend (b.preds.map V.states) = some m → b.preds ≠ [] → (scope b.name).DefinedIn m := by
      intro m hm hbp
      obtain ⟨p, hp⟩ := List.exists_mem_of_ne_nil _ hbp
      obtain ⟨B, hB, hn, htg⟩ := (h.shape.cfg.preds b hb).2 p hp
      subst hn
      obtain ⟨pend', s1, s2, heB⟩ := h.eqn B hB
      have hd := stepInsts_defines (ih B hB (by have := h.rank b hb _ hp; omega) heB).2 heB.step
      obtain ⟨e1, e2⟩ := hf.edge B hB b hb htg
      constructor
      · intro x hx
        obtain ⟨e, hx⟩ := hd.1 x (e1 x hx)
        rw [← heB.prim] at hx
        exact (merge_defined h hB hb hp hm x).1 e hx
      · intro x hx
        obtain ⟨e, hx⟩ := hd.2 x (e2 x hx)
        rw [← heB.ptr] at hx
        exact (merge_defined h hB hb hp hm x).2 e hx
    refine ⟨hmd, ?_⟩
    by_cases hbp : b.preds = []
    · have hnh : ∀ L ∈ F.loops, L.header ≠ b.name := by
        intro L hL hn
        obtain ⟨hd, hhd, hn', hp'⟩ := (h.shape.loops L hL).header
        have := h.shape.cfg.inj hhd hb (by rw [hn', hn])
        subst this
        exact hp' hbp
      rw [startBlock_entry hbp hnh he.start]
      obtain ⟨_, _, p3, p4⟩ := preprocess_fields F pend posts
      obtain ⟨q1, q2⟩ := hf.entry b hb hbp
      exact ⟨fun x hx => p3 x (q1 x hx), fun x hx => p4 x (q2 x hx)⟩
    · obtain ⟨m, hm, hor⟩ := h.merged hbp he
      have hd := hmd m hm hbp
      rcases hor with ⟨_, rfl⟩ | ⟨L, _, _, hen⟩
      · exact hd
      · obtain ⟨_, _, _, h1, h2⟩ := enterLoop_fields hen
        refine ⟨fun x hx => by rw [h1]; exact hd.1 x hx, fun x hx => ?_⟩
        rw [h2, (havocSt_fields F L m).2.2]
        by_cases hx' : x ∈ F.havocs L
        · exact ⟨_, if_pos hx'⟩
        · rw [if_neg hx']; exact hd.2 x hx

/-! ### Entering a loop -/

/-- The assignment in which havocked variables have the content of their cells. -/
def reassign (hs : List String) (s : CSt) (ρ : Env) : Env :=
  fun x => if x ∈ hs then (s.cells x).getD (ρ x) else ρ x

theorem eval_reassign {I : Interp} {hs : List String} {s : CSt} {ρ : Env} {e : Expr} (h : ∀ x ∈ hs, x ∉ e.vars) :
    eval I (reassign hs s ρ) e = eval I ρ e := by
  refine eval_congr I e fun x hx => ?_
  unfold reassign
  rw [if_neg fun hh => h x hh hx]

theorem closed_avoid (hs : List String) : TrClosed (fun e => ∀ x ∈ hs, x ∉ e.vars) :=
  ⟨fun i => by simp [intLit, Expr.vars], fun _ _ es h x hx hm => by
    obtain ⟨e, he, hm⟩ := mem_vars_node.1 hm; exact h e he x hx hm⟩

theorem mapM_all2 {α β γ : Type} {f : α → Option β} {g : α → Option γ} {P : β → γ → Prop} : ∀ {l : List α} {r : List β}
    {t : List γ}, l.mapM f = some r → l.mapM g = some t → (∀ a ∈ l, ∀ b c, f a = some b → g a = some c → P b c) →
    All2 P r t
  | [], r, t, h1, h2, _ => by simp at h1 h2; subst h1; subst h2; exact .nil
  | a :: l, r, t, h1, h2, hp => by
    rw [List.mapM_cons] at h1 h2
    simp only [Option.bind_eq_bind, Option.bind_eq_some_iff, Option.pure_def, Option.some.injEq] at h1 h2
    obtain ⟨b, hb, r', hr', rfl⟩ := h1
    obtain ⟨c, hc, t', ht', rfl⟩ := h2
    exact .cons (hp a (by simp) b c hb hc) (mapM_all2 hr' ht' fun a ha => hp a (by simp [ha]))

/-- Arriving at the header of a loop from a block `b` (a predecessor or a latch) where the invariant was proved. -/
theorem enter_loop [LlOps] {F posts V rank} (h : Solved F posts V rank) {I : Interp} {scope} (hf : Flow F V I scope)
    {L : Loop} (hL : L ∈ F.loops) {hd : LBlk} (hhd : hd ∈ F.blocks) (hhn : hd.name = L.header)
    {pend : List Expr} {st1 st2 m : St} (heq : Eqn F posts V hd pend st1 st2)
    (hm : mergeStates pend (hd.preds.map V.states) = some m) (hen : F.enterLoop m L = some st1)
    {b : LBlk} (hb : b ∈ F.blocks) (htg : hd.name ∈ b.term.targets.getD []) {ρ : Env} {s : CSt}
    (hag : Agree I ρ ((scope b.name).afterAll b.insts) (V.states b.name) s)
    {inv : Expr} (hc : L.call (V.states b.name) = some inv) (hinv : holds I ρ inv)
    (hpre : AllHold I ρ m.precond)
    (hR : ∀ x e e', m.prim.read x = some e → (V.states b.name).prim.read x = some e' → eval I ρ e = eval I ρ e')
    (hC : ∀ x e e', x ∉ F.havocs L → m.ptr.read x = some e → (V.states b.name).ptr.read x = some e' →
      eval I ρ e = eval I ρ e') :
    AllHold I (reassign (F.havocs L) s ρ) st1.precond ∧ Agree I (reassign (F.havocs L) s ρ) (scope hd.name) st1 s := by
  have hg := hf.loops L hL hd hhd hhn
  have hhp : hd.preds ≠ [] := by
    obtain ⟨h', hh', hn', hp'⟩ := (h.shape.loops L hL).header
    rw [h.shape.cfg.inj hhd hh' (by rw [hhn, hn'])]; exact hp'
  have hpend : pend = [] := by
    cases hp : pend with
    | nil => rfl
    | cons e l =>
      exfalso
      obtain ⟨B, hB, c, t, f, x, ht, _, _, hor⟩ := heq.pendSound e (by simp [hp])
      have := (h.shape.loops L hL).direct B hB c t f ht
      rw [hhn] at hor
      rcases hor with ⟨h1, _⟩ | ⟨h1, _⟩
      · exact this.1 h1.symm
      · exact this.2 h1.symm
  obtain ⟨c1, c2, c3⟩ := merge_closed h hhd hhp hm (closed_avoid (F.havocs L)) (by simp [boolLit, Expr.vars])
    (by simp [hpend]) (fun p hp e he x hx => (hg.fresh p hp x hx).1 e he)
  have f2 : ∀ x e, m.prim.read x = some e → eval I (reassign (F.havocs L) s ρ) e = eval I ρ e := fun x e he =>
    eval_reassign (c2 x (fun p hp e he y hy => (hg.fresh p hp y hy).2.1 x e he) e he)
  have f3 : ∀ x e, x ∉ F.havocs L → m.ptr.read x = some e → eval I (reassign (F.havocs L) s ρ) e = eval I ρ e :=
    fun x e hx he => eval_reassign (c3 x (fun p hp e he y hy => (hg.fresh p hp y hy).2.2 x e hx he) e he)
  obtain ⟨einv, hcall, hp, h1, h2⟩ := enterLoop_fields hen
  obtain ⟨_, hp2, hread⟩ := havocSt_fields F L m
  obtain ⟨ed1, ed2⟩ := hf.edge b hb hd hhd htg
  have hcell : ∀ x ∈ F.havocs L, ∃ e v, (V.states b.name).ptr.read x = some e ∧ s.cells x = some v ∧ eval I ρ e = v :=
    fun x hx => hag.cells x (ed2 x (hg.inScope x hx))
  have hnew : ∀ x ∈ F.havocs L, ∀ v, s.cells x = some v → reassign (F.havocs L) s ρ x = v := by
    intro x hx v hv
    simp [reassign, hx, hv]
  obtain ⟨hmd, _⟩ := start_defined h hf _ hd hhd (Nat.lt_succ_self _) heq
  have hmdef := hmd m hm hhp
  constructor
  · rw [hp, allHold_append]
    constructor
    · intro c hc
      unfold holds
      rw [eval_reassign (c1 c hc)]
      exact hpre c hc
    · intro c hc'
      simp only [List.mem_singleton] at hc'
      subst hc'
      simp only [Loop.call, Option.bind_eq_bind, Option.bind_eq_some_iff, Option.some.injEq] at hc hcall
      obtain ⟨as, has, rfl⟩ := hc
      obtain ⟨bs, hbs, rfl⟩ := hcall
      have hall : All2 (fun e e' => eval I (reassign (F.havocs L) s ρ) e = eval I ρ e') bs as := by
        refine mapM_all2 hbs has ?_
        intro x _ e e' hx hx'
        simp only [St.readVar, hp2] at hx
        simp only [St.readVar] at hx'
        cases hmx : m.prim.read x with
        | some e0 =>
          rw [hmx] at hx
          injection hx with hx
          subst hx
          rw [f2 x e0 hmx]
          obtain ⟨B, hB, _, e1, he1⟩ := (merge_source h hhd hhp hm x).1 e0 hmx
          have hno := hf.apart B hB b hb x e1 he1
          cases hbx : (V.states b.name).prim.read x with
          | none => rw [hbx, hno] at hx'; cases hx'
          | some e2 =>
            rw [hbx] at hx'
            injection hx' with hx'
            subst hx'
            exact hR x e0 e2 hmx hbx
        | none =>
          rw [hmx] at hx
          simp only at hx
          rw [hread x] at hx
          have hptr : ∀ {e2}, (V.states b.name).prim.read x = some e2 → ∀ B ∈ F.blocks, (V.states B.name).ptr.read x = none :=
            fun he2 B hB => hf.apart b hb B hB x _ he2
          by_cases hxh : x ∈ F.havocs L
          · rw [if_pos hxh] at hx
            injection hx with hx
            subst hx
            obtain ⟨e3, v, he3, hv, hev⟩ := hcell x hxh
            cases hbx : (V.states b.name).prim.read x with
            | some e2 => rw [hptr hbx b hb] at he3; cases he3
            | none =>
              rw [hbx] at hx'
              simp only at hx'
              rw [he3] at hx'
              injection hx' with hx'
              subst hx'
              rw [hev]
              exact hnew x hxh v hv
          · rw [if_neg hxh] at hx
            rw [f3 x e hxh hx]
            obtain ⟨B, hB, _, e1, he1⟩ := (merge_source h hhd hhp hm x).2 e hx
            cases hbx : (V.states b.name).prim.read x with
            | some e2 => rw [hptr hbx B hB] at he1; cases he1
            | none =>
              rw [hbx] at hx'
              exact hC x e e' hxh hx hx'
      have hmap : bs.map (eval I (reassign (F.havocs L) s ρ)) = as.map (eval I ρ) := by
        clear has hbs hinv hp
        induction hall with
        | nil => rfl
        | cons h1 _ ih => rw [List.map_cons, List.map_cons, h1, ih]
      unfold holds at hinv ⊢
      simp only [mkCall, eval, evals_eq_map, hmap] at hinv ⊢
      exact hinv
  · constructor
    · intro x hx
      obtain ⟨e, he⟩ := hmdef.1 x hx
      obtain ⟨e', v, he', hv, hev⟩ := hag.regs x (ed1 x hx)
      exact ⟨e, v, by rw [h1]; exact he, hv, by rw [f2 x e he, hR x e e' he he', hev]⟩
    · intro x hx
      obtain ⟨e', v, he', hv, hev⟩ := hag.cells x (ed2 x hx)
      rw [h2, hread x]
      by_cases hxh : x ∈ F.havocs L
      · exact ⟨_, v, if_pos hxh, hv, hnew x hxh v hv⟩
      · obtain ⟨e, he⟩ := hmdef.2 x hx
        exact ⟨e, v, by rw [if_neg hxh, he], hv, by rw [f3 x e hxh he, hC x e e' hxh he he', hev]⟩

/-! ### The invariant of executions -/

/-- The obligations are true under well typed assignments. -/
def Obligations (F : Func) (V : Visitor) (I : Interp) : Prop :=
  ∀ ρ, Typed F ρ → ∀ b ∈ F.blocks, ∀ a ∈ (V.states b.name).asserts, holds I ρ a

/-- The state `s` before block `b` is one of those described by the symbolic state of `b`. -/
structure Follows (F : Func) (posts : List Expr) (V : Visitor) (I : Interp) (scope : String → Scope) (ρ0 : Env)
    (b : LBlk) (s : CSt) (ρ : Env) : Prop where
  mem : b ∈ F.blocks
  typed : Typed F ρ
  args : ∀ x ∈ F.args, ρ x = ρ0 x
  cells : CellsTyped F s
  state : ∃ pend st1 st2, Eqn F posts V b pend st1 st2 ∧ AllHold I ρ st1.precond ∧ Agree I ρ (scope b.name) st1 s

theorem typed_reassign {F : Func} {ρ : Env} (h : Typed F ρ) {s : CSt} (hs : CellsTyped F s) (l : List String) :
    Typed F (reassign l s ρ) := by
  intro x
  unfold reassign
  by_cases hx : x ∈ l
  · rw [if_pos hx]
    cases hc : s.cells x with
    | none => exact h x
    | some v => exact hs x v hc
  · rw [if_neg hx]; exact h x

theorem follows_step [LlOps] {F posts V rank} (h : Solved F posts V rank) {I : Interp} {scope} (hf : Flow F V I scope)
    (hob : Obligations F V I) {ρ0 ρ : Env} {b c : LBlk} {s s' : CSt} (hi : Follows F posts V I scope ρ0 b s ρ)
    (hex : execInsts I F.ty s b.insts = some s') (hnx : nextBlock s' b.term = some c.name) (hc : c ∈ F.blocks) :
    ∃ ρ', Follows F posts V I scope ρ0 c s' ρ' := by
  have hb := hi.mem
  obtain ⟨pend, st1, st2, heb, hpre, hag⟩ := hi.state
  have hct := execInsts_typed hi.cells hex
  have hag' : Agree I ρ ((scope b.name).afterAll b.insts) (V.states b.name) s' := by
    have := agree_insts hag (hf.exact_ b hb) (hf.ready b hb) heb.step hex
    exact ⟨by rw [heb.prim]; exact this.regs, by rw [heb.ptr]; exact this.cells⟩
  have hsat : AllHold I ρ (V.states b.name).precond := by rw [heb.precond']; exact hpre
  have htg : c.name ∈ b.term.targets.getD [] := by
    cases ht : b.term with
    | br t => rw [ht] at hnx; simp only [nextBlock, Option.some.injEq] at hnx; simp [Term.targets, hnx]
    | cbr o t f =>
      rw [ht] at hnx
      simp only [nextBlock] at hnx
      split at hnx
      · injection hnx with hnx; simp [Term.targets, hnx]
      · injection hnx with hnx; simp [Term.targets, hnx]
      · cases hnx
    | _ => rw [ht] at hnx; simp [nextBlock] at hnx
  obtain ⟨pendc, sc1, sc2, hec⟩ := h.eqn c hc
  obtain ⟨ed1, ed2⟩ := hf.edge b hb c hc htg
  rcases h.shape.cfg.edges b hb c hc htg with hbc | ⟨L, hL, hLc, hlat⟩
  · -- a forward edge
    have hcp : c.preds ≠ [] := List.ne_nil_of_mem hbc
    obtain ⟨m, hm, hor⟩ := h.merged hcp hec
    obtain ⟨m1, m2, m3⟩ := merge_from h hb hc hbc hm hsat
    have hpend : AllHold I ρ pendc := by
      intro e he
      obtain ⟨B, hB, o, t, f, x, ht, hp, hx, hor⟩ := hec.pendSound e he
      have hBb : B = b := by
        refine h.shape.cfg.inj hB hb ?_
        rw [hp] at hbc
        exact (List.mem_singleton.1 hbc).symm
      subst hBb
      rw [ht] at hnx
      simp only [nextBlock] at hnx
      have htf := (h.shape.cfg.cond B hB o t f ht).1
      split at hnx
      · next hr =>
        have hv := hag'.opd (hf.cond B hB o t f ht) hx hr
        injection hnx with hnx
        rcases hor with ⟨_, rfl⟩ | ⟨h1, _⟩
        · unfold holds; rw [hv]; rfl
        · exact absurd (hnx.trans h1) htf
      · next hr =>
        have hv := hag'.opd (hf.cond B hB o t f ht) hx hr
        injection hnx with hnx
        rcases hor with ⟨h1, _⟩ | ⟨_, rfl⟩
        · exact absurd (h1.symm.trans hnx.symm) htf
        · simp [holds, mkNot, eval, evals, evalOp, hv]
      · cases hnx
    rcases hor with ⟨_, rfl⟩ | ⟨L, hL, hLc, hen⟩
    · refine ⟨ρ, hc, hi.typed, hi.args, hct, pendc, sc1, sc2, hec, m1 hpend, ?_⟩
      constructor
      · intro x hx
        obtain ⟨e, v, he, hv, hev⟩ := hag'.regs x (ed1 x hx)
        obtain ⟨e', he', hee⟩ := m2 x e he
        exact ⟨e', v, he', hv, by rw [hee, hev]⟩
      · intro x hx
        obtain ⟨e, v, he, hv, hev⟩ := hag'.cells x (ed2 x hx)
        obtain ⟨e', he', hee⟩ := m3 x e he
        exact ⟨e', v, he', hv, by rw [hee, hev]⟩
    · obtain ⟨inv, hcall, hmem⟩ := heb.loops L hL (.inl ⟨c, by rw [hLc]; exact h.shape.cfg.find hc, hbc⟩)
      have hinv := guardBy_holds hsat (hob ρ hi.typed b hb _ hmem)
      obtain ⟨r1, r2⟩ := enter_loop h hf hL hc hLc.symm hec hm hen hb htg hag' hcall hinv (m1 hpend)
        (fun x e e' he he' => by
          obtain ⟨e2, he2, hee⟩ := m2 x e' he'
          rw [he] at he2; injection he2 with he2; rw [he2, hee])
        (fun x e e' _ he he' => by
          obtain ⟨e2, he2, hee⟩ := m3 x e' he'
          rw [he] at he2; injection he2 with he2; rw [he2, hee])
      refine ⟨_, hc, typed_reassign hi.typed hct _, ?_, hct, pendc, sc1, sc2, hec, r1, r2⟩
      intro x hx
      have : x ∉ F.havocs L := fun hxh => (hf.loops L hL c hc hLc.symm).args x hxh hx
      simp only [reassign, if_neg this]
      exact hi.args x hx
  · -- a back edge
    have hcp : c.preds ≠ [] := by
      obtain ⟨hd, hhd, hn', hp'⟩ := (h.shape.loops L hL).header
      rw [h.shape.cfg.inj hc hhd (by rw [hn', hLc])]; exact hp'
    obtain ⟨m, hm, hor⟩ := h.merged hcp hec
    have hen : F.enterLoop m L = some sc1 := by
      rcases hor with ⟨hno, _⟩ | ⟨L', hL', hLc', hen⟩
      · exact absurd hLc (hno L hL)
      · have := (h.shape.loops L hL).unique L' hL' (by rw [hLc', ← hLc]; exact (h.shape.loops L hL).inside.1)
        subst this; exact hen
    have hbL := (h.shape.loops L hL).inside.2 _ hlat
    obtain ⟨k1, k2, k3⟩ := loop_keep h hf hL hc hLc.symm hec hm hen _ b hb hbL (Nat.lt_succ_self _) hsat
    obtain ⟨inv, hcall, hmem⟩ := heb.loops L hL (.inr hlat)
    have hinv := guardBy_holds hsat (hob ρ hi.typed b hb _ hmem)
    obtain ⟨r1, r2⟩ := enter_loop h hf hL hc hLc.symm hec hm hen hb htg hag' hcall hinv k1
      (fun x e e' he he' => by
        obtain ⟨e2, he2, hee⟩ := k2 x e he
        rw [he'] at he2; injection he2 with he2; rw [he2, hee])
      (fun x e e' hx he he' => by
        obtain ⟨e2, he2, hee⟩ := k3 x e hx he
        rw [he'] at he2; injection he2 with he2; rw [he2, hee])
    refine ⟨_, hc, typed_reassign hi.typed hct _, ?_, hct, pendc, sc1, sc2, hec, r1, r2⟩
    intro x hx
    have : x ∉ F.havocs L := fun hxh => (hf.loops L hL c hc hLc.symm).args x hxh hx
    simp only [reassign, if_neg this]
    exact hi.args x hx

theorem follows_reaches [LlOps] {F posts V rank} (h : Solved F posts V rank) {I : Interp} {scope} (hf : Flow F V I scope)
    (hob : Obligations F V I) {ρ0 : Env} (hty : Typed F ρ0) (hposts : ∀ p ∈ posts, holds I ρ0 p) {b : LBlk} {s : CSt}
    (hr : Reaches F I ρ0 b s) : ∃ ρ, Follows F posts V I scope ρ0 b s ρ := by
  induction hr with
  | start b hb =>
    obtain ⟨ent, rest, hbl, hentp, _⟩ := h.shape.cfg.entry
    rw [hbl] at hb
    simp only [List.head?_cons, Option.some.injEq] at hb
    subst hb
    have hent : ent ∈ F.blocks := by rw [hbl]; simp
    obtain ⟨pend, st1, st2, he⟩ := h.eqn ent hent
    have hnh : ∀ L ∈ F.loops, L.header ≠ ent.name := by
      intro L hL hn
      obtain ⟨hd, hhd, hn', hp'⟩ := (h.shape.loops L hL).header
      have := h.shape.cfg.inj hhd hent (by rw [hn', hn])
      subst this
      exact hp' hentp
    have hst := startBlock_entry hentp hnh he.start
    have hpend : pend = [] := by
      cases hp : pend with
      | nil => rfl
      | cons e l =>
        obtain ⟨B, _, _, _, _, _, _, hpB, _⟩ := he.pendSound e (by simp [hp])
        rw [hentp] at hpB; cases hpB
    obtain ⟨p1, p2, p3, p4⟩ := preprocess_fields F pend posts
    obtain ⟨q1, q2⟩ := hf.entry ent hent hentp
    refine ⟨ρ0, hent, hty, fun _ _ => rfl, ?_, pend, st1, st2, he, ?_, ?_⟩
    · intro x v hv
      simp only [Func.initial] at hv
      split at hv
      · injection hv with hv; rw [← hv]; exact hty x
      · cases hv
    · rw [hst, p2, hpend]
      exact fun c hc => hposts c (by simpa using hc)
    · rw [hst]
      constructor
      · intro x hx
        obtain ⟨e, he⟩ := p3 x (q1 x hx)
        obtain ⟨t, rfl⟩ := p1.1 x e he
        exact ⟨_, ρ0 x, he, by simp only [Func.initial]; rw [if_pos (q1 x hx)], rfl⟩
      · intro x hx
        obtain ⟨e, he⟩ := p4 x (q2 x hx)
        obtain ⟨t, rfl⟩ := p1.2 x e he
        exact ⟨_, ρ0 x, he, by simp only [Func.initial]; rw [if_pos (q2 x hx)], rfl⟩
  | step _ hex hnx hc ih =>
    obtain ⟨ρ, hi⟩ := ih
    exact follows_step h hf hob hi hex hnx hc

/-- What is returned satisfies the postcondition. -/
theorem returns_contract [LlOps] {F posts V rank} (h : Solved F posts V rank) {I : Interp} {scope} (hf : Flow F V I scope)
    (hob : Obligations F V I) {ρ0 : Env} (hty : Typed F ρ0) (hposts : ∀ p ∈ posts, holds I ρ0 p) {v : Val}
    (hr : Returns F I ρ0 v) : F.contract I ρ0 v := by
  obtain ⟨b, s, s', o, hreach, hex, ht, hv⟩ := hr
  obtain ⟨ρ, hi⟩ := follows_reaches h hf hob hty hposts hreach
  have hb := hi.mem
  obtain ⟨pend, st1, st2, heb, hpre, hag⟩ := hi.state
  have hag' : Agree I ρ ((scope b.name).afterAll b.insts) (V.states b.name) s' := by
    have := agree_insts hag (hf.exact_ b hb) (hf.ready b hb) heb.step hex
    exact ⟨by rw [heb.prim]; exact this.regs, by rw [heb.ptr]; exact this.cells⟩
  have hsat : AllHold I ρ (V.states b.name).precond := by rw [heb.precond']; exact hpre
  obtain ⟨e, hret, hmem⟩ := heb.ret o ht
  have hps := guardBy_holds hsat (hob ρ hi.typed b hb _ hmem)
  have hval : eval I ρ e = v := by
    cases o with
    | some o => exact hag'.opd (hf.ret b hb o ht) hret hv
    | none =>
      obtain ⟨x, hx, hv⟩ := hv
      obtain ⟨hsc, t, hvar⟩ := hf.sret b hb ht x hx
      simp only [Func.retVal, hx, Option.bind_eq_bind, Option.bind_some, hvar, Option.some.injEq] at hret
      subst hret
      have := hag'.cell hsc hvar hv
      simpa [eval] using this
  unfold holds Func.psCall at hps
  simp only [mkCall, eval, evalOp, evals_eq_map, List.map_append, List.map_map, List.map_cons, List.map_nil, hval] at hps
  have hargs : F.args.map (eval I ρ ∘ fun x => Expr.var x (F.ty x)) = F.args.map ρ0 := by
    refine List.map_congr_left fun x hx => ?_
    simp [eval, hi.args x hx]
  rw [hargs] at hps
  exact hps

end Metalift.Ll
