import Verif.PLlvmSound
import Verif.PDriverEnd
/-
C51: from the answer of the solver to the runs of the LLVM function.
-/
namespace Metalift.Ll
open Smt

/-! ### Specification -/

/-- Division of a run that gives up where the solver's division differs from LLVM's: on a negative dividend.  (Where such a run has a result, it
is a run of the LLVM function: `returns_llvm`.) -/
@[reducible] def solverOps : LlOps where
  sdiv a b := if 0 ≤ a ∧ b ≠ 0 then overflow true (a / b) else none
  srem a b := if 0 ≤ a ∧ b ≠ 0 then (overflow true (a / b)).map fun _ => a % b else none

/-- The functions that are neither target language nor synthesised have their meaning: those of the solver and those of the files of definitions
(without `matrix_transpose`). -/
structure SolverFns (I : Interp) : Prop where
  solver : FixedFns I
  files : ∃ S F, SmtModel.Core S ∧ IntFns.Ok F ∧ Rep I.asModel S F

/-- The instructions that are translated exactly (`Inst.exact`) for the solver's functions: arithmetic without wrapping around, no unsigned
comparison, no conversion that changes the value, no vectors of depth three (the files do not define `tensor3d_empty`). -/
def Inst.solverB : Inst → Bool
  | .bin .sdiv _ _ _ _ => true
  | .bin .srem _ _ _ _ => true
  | .bin _ nsw _ _ _ => nsw
  | .icmp c _ _ _ => decide (c ≠ .ult)
  | .cast (.sext w _) _ _ => decide (w ≠ 1)
  | .cast (.trunc n w) _ _ => decide (n = 8 ∧ w = 1)
  | .alloca _ (.list (.list (.list _))) => false
  | .vector _ (.list (.list (.list _))) => false
  | _ => true

/-- Type of an operand. -/
def Opd.tyIn (ty : String → Ty) : Opd → Ty
  | .reg n => ty n
  | .ptr n => ty n
  | .int _ => .int
  | .bool _ => .bool

/-- The register written has the type of the result (which LLVM's verifier checks). -/
def Inst.typedB (ty : String → Ty) : Inst → Bool
  | .bin _ _ r _ _ => decide (ty r = .int)
  | .icmp _ r _ _ => decide (ty r = .bool)
  | .cast .bitcast r a => decide (ty r = a.tyIn ty)
  | .cast (.sext _ _) r _ => decide (ty r = .int)
  | .cast (.trunc _ w) r _ => decide (ty r = if w = 1 then .bool else .int)
  | _ => true

/-- What is returned has the type of the result. -/
def Func.retB (F : Func) : Term Opd → Bool
  | .ret (some o) => decide (o.tyIn F.ty = F.retTy)
  | .ret none => match F.sret with
    | some x => decide (F.ty x = F.retTy)
    | none => true
  | _ => true

/-- The function is well typed and its instructions are translated exactly. -/
def Func.solverOk (F : Func) : Bool :=
  F.blocks.all (fun b => b.insts.all (fun i => i.solverB && i.typedB F.ty) && F.retB b.term)

/-! ### Runs with the solver's division are runs -/

theorem binSem_llvm {op : BinOp} {nsw : Bool} {a b k : Int} (h : @binSem solverOps op nsw a b = some k) : binSem op nsw a b = some k := by
  cases op with
  | sdiv =>
    simp only [binSem, LlOps.sdiv] at h ⊢
    split at h
    · next hc => rw [if_neg hc.2, (C35_division_nonneg a b hc.1).1]; exact h
    · cases h
  | srem =>
    simp only [binSem, LlOps.srem] at h ⊢
    split at h
    · next hc => rw [if_neg hc.2, (C35_division_nonneg a b hc.1).1, (C35_division_nonneg a b hc.1).2]; exact h
    · cases h
  | _ => exact h

theorem execInst_llvm {I : Interp} {ty : String → Ty} {s s' : CSt} {i : Inst} (h : @execInst solverOps I ty s i = some s') :
    execInst I ty s i = some s' := by
  cases i with
  | bin op nsw r a b =>
    simp only [execInst, Option.bind_eq_bind, Option.bind_eq_some_iff] at h ⊢
    obtain ⟨u, hu, w, hw, h⟩ := h
    refine ⟨u, hu, w, hw, ?_⟩
    split at h
    · simp only [Option.bind_eq_some_iff] at h ⊢
      obtain ⟨k, hk, h⟩ := h
      exact ⟨k, binSem_llvm hk, h⟩
    · cases h
  | _ => exact h

theorem execInsts_llvm {I : Interp} {ty : String → Ty} : ∀ {is : List Inst} {s s' : CSt}, @execInsts solverOps I ty s is = some s' →
    execInsts I ty s is = some s'
  | [], _, _, h => h
  | i :: is, s, s', h => by
    simp only [execInsts, List.foldlM_cons, Option.bind_eq_bind, Option.bind_eq_some_iff] at h ⊢
    obtain ⟨s1, h1, h2⟩ := h
    exact ⟨s1, execInst_llvm h1, execInsts_llvm (is := is) h2⟩

theorem reaches_llvm {F : Func} {I : Interp} {ρ : Env} {b : LBlk} {s : CSt} (h : @Reaches solverOps F I ρ b s) : Reaches F I ρ b s := by
  induction h with
  | start b h => exact .start b h
  | step _ hx hn hc ih => exact .step ih (execInsts_llvm hx) hn hc

/-- A run that gives up on negative dividends is a run of the LLVM function. -/
theorem returns_llvm {F : Func} {I : Interp} {ρ : Env} {v : Val} (h : @Returns solverOps F I ρ v) : Returns F I ρ v := by
  obtain ⟨b, s, s', o, hr, hx, ht, h⟩ := h
  exact ⟨b, s, s', o, reaches_llvm hr, execInsts_llvm hx, ht, h⟩

/-- The instruction is not a division. -/
def Inst.noDiv : Inst → Bool
  | .bin .sdiv _ _ _ _ => false
  | .bin .srem _ _ _ _ => false
  | _ => true

theorem execInst_noDiv {I : Interp} {ty : String → Ty} {s : CSt} {i : Inst} (h : i.noDiv = true) :
    @execInst solverOps I ty s i = execInst I ty s i := by
  cases i with
  | bin op nsw r a b => cases op <;> first | rfl | simp [Inst.noDiv] at h
  | _ => rfl

theorem execInsts_noDiv {I : Interp} {ty : String → Ty} : ∀ {is : List Inst} {s : CSt}, (∀ i ∈ is, i.noDiv = true) →
    @execInsts solverOps I ty s is = execInsts I ty s is
  | [], _, _ => rfl
  | i :: is, s, h => by
    simp only [execInsts, List.foldlM_cons, Option.bind_eq_bind]
    rw [execInst_noDiv (h i (by simp))]
    cases execInst I ty s i with
    | none => rfl
    | some s1 => exact execInsts_noDiv (is := is) (fun j hj => h j (by simp [hj]))

/-- In a function without divisions all runs are such runs. -/
theorem returns_noDiv {F : Func} {I : Interp} {ρ : Env} {v : Val} (hd : ∀ b ∈ F.blocks, ∀ i ∈ b.insts, i.noDiv = true) (h : Returns F I ρ v) :
    @Returns solverOps F I ρ v := by
  have key : ∀ b s, Reaches F I ρ b s → b ∈ F.blocks ∧ @Reaches solverOps F I ρ b s := by
    intro b s hr
    induction hr with
    | start b h => exact ⟨List.mem_of_mem_head? h, @Reaches.start solverOps F I ρ b h⟩
    | step _ hx hn hc ih => exact ⟨hc, @Reaches.step solverOps F I ρ _ _ _ _ ih.2 (by rw [execInsts_noDiv (hd _ ih.1)]; exact hx) hn hc⟩
  obtain ⟨b, s, s', o, hr, hx, ht, h⟩ := h
  obtain ⟨hb, hr'⟩ := key b s hr
  exact ⟨b, s, s', o, hr', by rw [execInsts_noDiv (hd _ hb)]; exact hx, ht, h⟩

/-! ### Types -/

mutual
theorem hasTy_iff : ∀ (t : Ty) (v : Val), hasTy t v = true ↔ OfTy t v
  | .int, v => by cases v <;> simp [hasTy, OfTy]
  | .bool, v => by cases v <;> simp [hasTy, OfTy]
  | .list t, v => by
    cases v with
    | list vs =>
      simp only [hasTy, OfTy, List.all_eq_true]
      exact ⟨fun h => ⟨vs, rfl, fun w hw => (hasTy_iff t w).1 (h w hw)⟩, fun ⟨ws, hw, h⟩ w hm => by
        cases hw; exact (hasTy_iff t w).2 (h w hm)⟩
    | _ => simp [hasTy, OfTy]
  | .set t, v => by
    cases v with
    | list vs =>
      simp only [hasTy, OfTy, List.all_eq_true, Bool.and_eq_true, decide_eq_true_eq]
      exact ⟨fun h => ⟨vs, rfl, fun w hw => (hasTy_iff t w).1 (h.1 w hw), h.2⟩, fun ⟨ws, hw, h⟩ => by
        cases hw; exact ⟨fun w hm => (hasTy_iff t w).2 (h.1 w hm), h.2⟩⟩
    | _ => simp [hasTy, OfTy]
  | .tuple ts, v => by
    cases v with
    | tuple vs =>
      simp only [hasTy, OfTy]
      exact ⟨fun h => ⟨vs, rfl, (hasTys_iff ts vs).1 h⟩, fun ⟨ws, hw, h⟩ => by cases hw; exact (hasTys_iff ts vs).2 h⟩
    | _ => simp [hasTy, OfTy]
  | .fn ts, v => by cases v <;> simp [hasTy, OfTy]
theorem hasTys_iff : ∀ (ts : List Ty) (vs : List Val), hasTys ts vs = true ↔ OfTys ts vs
  | [], [] => by simp [hasTys, OfTys]
  | [], _ :: _ => by simp [hasTys, OfTys]
  | _ :: _, [] => by simp [hasTys, OfTys]
  | t :: ts, v :: vs => by simp [hasTys, OfTys, hasTy_iff t v, hasTys_iff ts vs]
end

/-- Registers hold values of their types. -/
def RegsTyped (F : Func) (s : CSt) : Prop := ∀ x v, s.regs x = some v → hasTy (F.ty x) v = true

theorem opd_typed {F : Func} {s : CSt} (hr : RegsTyped F s) (hc : CellsTyped F s) {o : Opd} {v : Val} (h : s.read o = some v) :
    hasTy (o.tyIn F.ty) v = true := by
  cases o with
  | reg n => exact hr n v h
  | ptr n => exact hc n v h
  | int i => simp only [CSt.read, Option.some.injEq] at h; subst h; rfl
  | bool i => simp only [CSt.read, Option.some.injEq] at h; subst h; rfl

theorem regsTyped_write {F : Func} {s : CSt} (h : RegsTyped F s) {x : String} {v : Val} (hv : hasTy (F.ty x) v = true) :
    RegsTyped F (s.write x v) := by
  intro y w hw
  simp only [CSt.write] at hw
  split at hw
  · next e => cases hw; subst e; exact hv
  · exact h y w hw

theorem convSem_typed {F : Func} {k : Conv} {r : String} {a : Opd} (ht : (Inst.cast k r a).typedB F.ty = true) {v w : Val}
    (hv : hasTy (a.tyIn F.ty) v = true) (h : convSem k v = some w) : hasTy (F.ty r) w = true := by
  cases k with
  | bitcast =>
    simp only [Inst.typedB, decide_eq_true_eq] at ht
    simp only [convSem, Option.some.injEq] at h
    rw [ht, ← h]; exact hv
  | sext n m =>
    simp only [Inst.typedB, decide_eq_true_eq] at ht
    rw [ht]
    unfold convSem at h
    split at h <;> simp_all <;> (subst h; rfl)
  | trunc n m =>
    simp only [Inst.typedB, decide_eq_true_eq] at ht
    rw [ht]
    unfold convSem at h
    split at h <;> simp_all
    all_goals (try (subst h; rfl))

theorem execInst_regs [LlOps] {I : Interp} {F : Func} {s s' : CSt} {i : Inst} (ht : i.typedB F.ty = true) (hr : RegsTyped F s)
    (hc : CellsTyped F s) (he : execInst I F.ty s i = some s') : RegsTyped F s' := by
  cases i with
  | alloca r t =>
    simp only [execInst, Option.bind_eq_bind, Option.bind_eq_some_iff, Option.some.injEq] at he
    obtain ⟨_, _, _, _, rfl⟩ := he; exact hr
  | load tp r p =>
    simp only [execInst, Option.bind_eq_bind, Option.bind_eq_some_iff, Option.some.injEq] at he
    obtain ⟨_, _, w, hw, rfl⟩ := he
    obtain ⟨rfl, hw'⟩ := ofTy_some.1 hw
    cases tp
    · exact regsTyped_write hr hw'
    · exact hr
  | store v p =>
    simp only [execInst, Option.bind_eq_bind, Option.bind_eq_some_iff, Option.some.injEq] at he
    obtain ⟨_, _, _, _, rfl⟩ := he; exact hr
  | bin op nsw r a b =>
    simp only [execInst, Option.bind_eq_bind, Option.bind_eq_some_iff] at he
    obtain ⟨_, _, _, _, he⟩ := he
    split at he
    · simp only [Option.bind_eq_some_iff, Option.some.injEq] at he
      obtain ⟨k, _, rfl⟩ := he
      simp only [Inst.typedB, decide_eq_true_eq] at ht
      exact regsTyped_write hr (by rw [ht]; rfl)
    · cases he
  | icmp c r a b =>
    simp only [execInst, Option.bind_eq_bind, Option.bind_eq_some_iff, Option.some.injEq] at he
    obtain ⟨_, _, _, _, _, _, rfl⟩ := he
    simp only [Inst.typedB, decide_eq_true_eq] at ht
    exact regsTyped_write hr (by rw [ht]; rfl)
  | cast k r a =>
    simp only [execInst, Option.bind_eq_bind, Option.bind_eq_some_iff, Option.some.injEq] at he
    obtain ⟨v, hv, w, hw, rfl⟩ := he
    exact regsTyped_write hr (convSem_typed ht (opd_typed hr hc hv) hw)
  | call tp r f t args =>
    simp only [execInst, Option.bind_eq_bind, Option.bind_eq_some_iff, Option.some.injEq] at he
    obtain ⟨_, _, _, _, w, hw, rfl⟩ := he
    obtain ⟨rfl, hw'⟩ := ofTy_some.1 hw
    cases tp
    · exact regsTyped_write hr hw'
    · exact hr
  | vector p t =>
    simp only [execInst, Option.bind_eq_bind, Option.bind_eq_some_iff, Option.some.injEq] at he
    obtain ⟨_, _, _, _, rfl⟩ := he; exact hr
  | pushBack p v =>
    simp only [execInst, Option.bind_eq_bind, Option.bind_eq_some_iff, Option.some.injEq] at he
    obtain ⟨_, _, _, _, _, _, _, _, rfl⟩ := he; exact hr
  | other => simp [execInst] at he

theorem execInsts_regs [LlOps] {I : Interp} {F : Func} : ∀ {is : List Inst} {s s' : CSt}, (∀ i ∈ is, i.typedB F.ty = true) → RegsTyped F s →
    CellsTyped F s → execInsts I F.ty s is = some s' → RegsTyped F s' ∧ CellsTyped F s'
  | [], s, s', _, hr, hc, h => by simp [execInsts] at h; subst h; exact ⟨hr, hc⟩
  | i :: is, s, s', ht, hr, hc, h => by
    simp only [execInsts, List.foldlM_cons, Option.bind_eq_bind, Option.bind_eq_some_iff] at h
    obtain ⟨s1, h1, h2⟩ := h
    exact execInsts_regs (is := is) (fun j hj => ht j (by simp [hj])) (execInst_regs (ht i (by simp)) hr hc h1) (execInst_typed hc h1) h2

theorem solverOk_iff {F : Func} : F.solverOk = true ↔ ∀ b ∈ F.blocks, (∀ i ∈ b.insts, i.solverB = true ∧ i.typedB F.ty = true) ∧ F.retB b.term = true := by
  simp [Func.solverOk]

theorem reaches_typed [LlOps] {F : Func} {I : Interp} {ρ : Env} (hok : F.solverOk = true) (hT : Typed F ρ) {b : LBlk} {s : CSt}
    (h : Reaches F I ρ b s) : b ∈ F.blocks ∧ RegsTyped F s ∧ CellsTyped F s := by
  induction h with
  | start b h =>
    refine ⟨List.mem_of_mem_head? h, ?_, ?_⟩
    · intro x v hv
      simp only [Func.initial] at hv
      split at hv
      · cases hv; exact hT x
      · cases hv
    · intro x v hv
      simp only [Func.initial] at hv
      split at hv
      · cases hv; exact hT x
      · cases hv
  | step _ hx _ hc ih => exact ⟨hc, execInsts_regs (fun i hi => (((solverOk_iff.1 hok) _ ih.1).1 i hi).2) ih.2.1 ih.2.2 hx⟩

/-- The value returned is of the type of the result. -/
theorem returns_typed [LlOps] {F : Func} {I : Interp} {ρ : Env} (hok : F.solverOk = true) (hT : Typed F ρ) {v : Val} (h : Returns F I ρ v) :
    OfTy F.retTy v := by
  obtain ⟨b, s, s', o, hr, hx, ht, h⟩ := h
  obtain ⟨hb, h1, h2⟩ := reaches_typed hok hT hr
  obtain ⟨h3, h4⟩ := execInsts_regs (fun i hi => (((solverOk_iff.1 hok) _ hb).1 i hi).2) h1 h2 hx
  have hret := ((solverOk_iff.1 hok) _ hb).2
  rw [ht] at hret
  rw [← hasTy_iff]
  cases o with
  | some o =>
    simp only [Func.retB, decide_eq_true_eq] at hret
    rw [← hret]
    exact opd_typed h3 h4 h
  | none =>
    obtain ⟨x, hx, hv⟩ := h
    simp only [Func.retB, hx, decide_eq_true_eq] at hret
    rw [← hret]
    exact h4 x v hv

/-! ### The functions of the files are those of C++ -/

theorem ints_enc {l : List Val} (h : l.all (hasTy .int) = true) : ∃ k : List Int, Val.list l = encL k :=
  ofTy_ints ⟨l, rfl, fun w hw => (hasTy_iff _ _).1 (List.all_eq_true.1 h w hw)⟩

theorem rows_enc {l : List Val} (h : l.all (hasTy (.list .int)) = true) : ∃ m : List (List Int), Val.list l = encM m := by
  induction l with
  | nil => exact ⟨[], rfl⟩
  | cons v l ih =>
    simp only [List.all_cons, Bool.and_eq_true] at h
    obtain ⟨m, hm⟩ := ih h.2
    obtain ⟨vs, rfl, hv⟩ := (hasTy_iff _ _).1 h.1
    obtain ⟨k, hk⟩ := ofTy_ints ⟨vs, rfl, hv⟩
    refine ⟨k :: m, ?_⟩
    simp only [encM, List.map_cons, Val.list.injEq] at hm ⊢
    rw [hm, hk]

theorem libCall_solver {I : Interp} (hI : SolverFns I) {f : String} {vs : List Val} {w : Val} (h : libCall I f vs = some w) : I.fn f vs = w := by
  obtain ⟨S, Fi, hS, _, hR⟩ := hI.files
  unfold libCall at h
  split at h
  · next hf =>
    subst hf
    unfold vecLength at h
    split at h
    · next l =>
      split at h
      · next hl =>
        obtain ⟨k, hk⟩ := ints_enc hl
        cases h
        rw [hk]
        refine (hR.length k).trans ?_
        rw [SmtSeq.Axioms.length_eq hS.ints]
        have := congrArg (fun v => match v with | Val.list l => l.length | _ => 0) hk
        simp only [encL, List.length_map] at this
        rw [this]
      · cases h
    · cases h
  · split at h
    · next hf =>
      subst hf
      unfold vecGet at h
      split at h
      · next l i =>
        split at h
        · next hl =>
          obtain ⟨k, hk⟩ := ints_enc hl.1
          rw [hk]
          refine (hR.get k i).trans ?_
          have e1 : l = k.map .int := by simpa [encL] using hk
          subst e1
          rw [List.getElem?_map, Option.map_eq_some_iff] at h
          obtain ⟨x, hx, rfl⟩ := h
          obtain ⟨hlt, _⟩ := List.getElem?_eq_some_iff.1 hx
          rw [SmtSeq.Axioms.get_eq hS.ints 0 k i hl.2 (by omega), List.getD_eq_getElem?_getD, hx]
          rfl
        · cases h
      · cases h
    · split at h
      · next hf =>
        subst hf
        unfold vecLength at h
        split at h
        · next l =>
          split at h
          · next hl =>
            obtain ⟨k, hk⟩ := rows_enc hl
            cases h
            rw [hk]
            refine (hR.lengthM k).trans ?_
            rw [SmtSeq.Axioms.length_eq hS.rows]
            have := congrArg (fun v => match v with | Val.list l => l.length | _ => 0) hk
            simp only [encM, List.length_map] at this
            rw [this]
          · cases h
        · cases h
      · split at h
        · next hf =>
          subst hf
          unfold vecGet at h
          split at h
          · next l i =>
            split at h
            · next hl =>
              obtain ⟨k, hk⟩ := rows_enc hl.1
              rw [hk]
              refine (hR.getM k i).trans ?_
              have e1 : l = k.map encL := by simpa [encM] using hk
              subst e1
              rw [List.getElem?_map, Option.map_eq_some_iff] at h
              obtain ⟨x, hx, rfl⟩ := h
              obtain ⟨hlt, _⟩ := List.getElem?_eq_some_iff.1 hx
              rw [SmtSeq.Axioms.get_eq hS.rows [] k i hl.2 (by omega), List.getD_eq_getElem?_getD, hx]
              rfl
            · cases h
          · cases h
        · exact Option.some.inj h

theorem empty_solver {I : Interp} (hI : SolverFns I) {t : Ty} (ht : ∀ u, t ≠ .list (.list (.list u))) : I.fn (emptyName t) [] = .list [] := by
  obtain ⟨S, Fi, hS, _, hR⟩ := hI.files
  unfold emptyName
  split
  · next u => exact absurd rfl (ht u)
  · exact hR.emptyM
  · exact hR.empty

theorem exact_solver {I : Interp} (hI : SolverFns I) {i : Inst} (h : i.solverB = true) : @Inst.exact solverOps I i := by
  cases i with
  | bin op nsw r a b =>
    cases op with
    | sdiv | srem =>
      show @DivExact solverOps I
      intro a b k
      constructor
      · intro hk
        simp only [LlOps.sdiv] at hk
        split at hk
        · next hc =>
          unfold overflow at hk
          simp only [if_true] at hk
          split at hk
          · cases hk; exact hI.solver.div a b hc.2
          · cases hk
        · cases hk
      · intro hk
        simp only [LlOps.srem] at hk
        split at hk
        · next hc =>
          rw [Option.map_eq_some_iff] at hk
          obtain ⟨_, _, rfl⟩ := hk
          exact hI.solver.mod a b hc.2
        · cases hk
    | _ => exact h
  | icmp c r a b => simpa [Inst.solverB, Inst.exact] using h
  | cast k r a => cases k <;> first | trivial | simpa [Inst.solverB, Inst.exact] using h
  | alloca r t =>
    cases t with
    | list t =>
      refine empty_solver hI ?_
      rintro u ⟨⟩
      simp [Inst.solverB] at h
    | _ => trivial
  | vector p t =>
    refine empty_solver hI ?_
    rintro u rfl
    simp [Inst.solverB] at h
  | pushBack p v =>
    intro l v w hw
    obtain ⟨S, Fi, hS, _, hR⟩ := hI.files
    unfold vecPush at hw
    split at hw
    · next l i =>
      split at hw
      · next hl =>
        obtain ⟨k, hk⟩ := ints_enc hl
        cases hw
        rw [hk]
        refine (hR.append k i).trans ?_
        have e1 : l = k.map .int := by simpa [encL] using hk
        rw [SmtSeq.Axioms.append_eq hS.ints, e1]
        simp [encL]
      · cases hw
    · cases hw
  | call tp r f t args => exact fun vs w hw => libCall_solver hI hw
  | _ => trivial

/-! ### C51 -/

/-- The core of C51, for a condition `vc'` given to the solver that implies the verification condition. -/
theorem ll_post_of_query (topo : List (String × String) → Option (List String)) (htopo : TopoSpec topo)
    (setOrder : List String → List String) (hset : ∀ l, (setOrder l).Perm l)
    (F : Func) (posts : List Expr) (scope : String → Scope) (vc : Expr)
    (hsup : F.supported posts scope = true) (hok : F.solverOk = true) (hvc : F.vc posts = some vc)
    (lang : List FnDecl) (axs : List Ax) (cands : List FnDecl) (vars : List (String × Ty)) (vc' : Expr)
    (hq : QueryOk lang axs cands vars vc')
    (hres : ∀ v ∈ vars, v.1 ∉ reserved ∧ v.1 ≠ "list_empty" ∧ v.1 ≠ "matrix_empty") (hvars : ∀ v ∈ vars, v.2 = F.ty v.1) (text : String)
    (ht : queryText topo setOrder lang axs cands vars vc' = some text)
    (hun : ∀ fs, readFile filesText = some (fs ++ [c_matrix_transpose]) → ∀ cs, readScript text = some cs → ∀ M : Model, ¬ M.Sat (fs ++ cs))
    (I : Interp) (hI : SolverFns I) (hl : ∀ d ∈ lang, FnHolds I d) (ha : ∀ a ∈ axs, AxHolds I a) (hc : ∀ d ∈ cands, FnHolds I d)
    (hstep : ∀ ρ', (∀ x, OfTy (F.ty x) (ρ' x)) → holds I ρ' vc' → holds I ρ' vc)
    (ρ : Env) (hT : ∀ x, OfTy (F.ty x) (ρ x)) (hpre : ∀ p ∈ posts, holds I ρ p) (v : Val) (hrun : @Returns solverOps F I ρ v) :
    OfTy F.retTy v ∧ F.contract I ρ v := by
  have hT' : Typed F ρ := fun x => (hasTy_iff _ _).2 (hT x)
  refine ⟨@returns_typed solverOps F I ρ hok hT' v hrun, ?_⟩
  refine @C33_supported_partial solverOps F posts I scope hsup
    (fun b hb i hi => exact_solver hI (((solverOk_iff.1 hok) b hb).1 i hi).1) vc hvc ?_ ρ v hT' hpre hrun
  intro ρ' hρ'
  replace hρ' := fun x => (hasTy_iff _ _).1 (hρ' x)
  obtain ⟨S, Fi, hSc, hFi, hR⟩ := hI.files
  refine hstep ρ' hρ' (C46_unsat_valid_partial topo htopo setOrder hset lang axs cands vars vc' hq (fun v hv => (hres v hv).1) text ht
    (fun M => M.Sat coreCmds) ?_ I hI.solver ρ' ?_ (fun d hd _ => hl d hd) ha hc ?_)
  · intro cs hcs M hM hM'
    refine hun coreCmds (by rw [files_read, fileCmds_eq]) cs hcs M ?_
    intro c hc
    rcases List.mem_append.1 hc with h | h
    · exact hM c h
    · exact hM' c h
  · have hn : ∀ f, (∀ v ∈ vars, v.1 ≠ f) → f ∉ vars.map Prod.fst := by
      intro f hf hm
      obtain ⟨v, hv, rfl⟩ := List.mem_map.1 hm
      exact hf v hv rfl
    exact core_sat (rep_model hR _ _ (hn _ (fun v hv => (hres v hv).2.1)) (hn _ (fun v hv => (hres v hv).2.2))) hSc hFi
  · intro v hv
    rw [hvars v hv]
    exact hρ' v.1

/-- **C51.** If the solver is right that no structure satisfies the definitions (without `matrix_transpose`) and the query of an LLVM function,
then every run without negative dividends that returns satisfies the synthesised postcondition. -/
theorem C51_postcondition_partial (topo : List (String × String) → Option (List String)) (htopo : TopoSpec topo)
    (setOrder : List String → List String) (hset : ∀ l, (setOrder l).Perm l)
    -- the program and its verification condition
    (F : Func) (posts : List Expr) (scope : String → Scope) (vc : Expr)
    (hsup : F.supported posts scope = true) (hok : F.solverOk = true) (hvc : F.vc posts = some vc)
    -- the query
    (lang : List FnDecl) (axs : List Ax) (cands : List FnDecl) (vars : List (String × Ty)) (hq : QueryOk lang axs cands vars vc)
    (hres : ∀ v ∈ vars, v.1 ∉ reserved ∧ v.1 ≠ "list_empty" ∧ v.1 ≠ "matrix_empty") (hvars : ∀ v ∈ vars, v.2 = F.ty v.1) (text : String)
    (ht : queryText topo setOrder lang axs cands vars vc = some text)
    -- the answer of the solver
    (hun : ∀ fs, readFile filesText = some (fs ++ [c_matrix_transpose]) → ∀ cs, readScript text = some cs → ∀ M : Model, ¬ M.Sat (fs ++ cs))
    -- meaning of the functions
    (I : Interp) (hI : SolverFns I) (hl : ∀ d ∈ lang, FnHolds I d) (ha : ∀ a ∈ axs, AxHolds I a) (hc : ∀ d ∈ cands, FnHolds I d)
    -- the run
    (ρ : Env) (hT : ∀ x, OfTy (F.ty x) (ρ x)) (hpre : ∀ p ∈ posts, holds I ρ p) (v : Val) (hrun : @Returns solverOps F I ρ v) :
    OfTy F.retTy v ∧ F.contract I ρ v :=
  ll_post_of_query topo htopo setOrder hset F posts scope vc hsup hok hvc lang axs cands vars vc hq hres hvars text ht hun I hI hl ha hc
    (fun _ _ h => h) ρ hT hpre v hrun

/-- **C51 (functions without division).**  Then it holds of every run. -/
theorem C51_no_division_partial (topo : List (String × String) → Option (List String)) (htopo : TopoSpec topo)
    (setOrder : List String → List String) (hset : ∀ l, (setOrder l).Perm l)
    (F : Func) (posts : List Expr) (scope : String → Scope) (vc : Expr)
    (hsup : F.supported posts scope = true) (hok : F.solverOk = true) (hvc : F.vc posts = some vc)
    (hdiv : ∀ b ∈ F.blocks, ∀ i ∈ b.insts, i.noDiv = true)
    (lang : List FnDecl) (axs : List Ax) (cands : List FnDecl) (vars : List (String × Ty)) (hq : QueryOk lang axs cands vars vc)
    (hres : ∀ v ∈ vars, v.1 ∉ reserved ∧ v.1 ≠ "list_empty" ∧ v.1 ≠ "matrix_empty") (hvars : ∀ v ∈ vars, v.2 = F.ty v.1) (text : String)
    (ht : queryText topo setOrder lang axs cands vars vc = some text)
    (hun : ∀ fs, readFile filesText = some (fs ++ [c_matrix_transpose]) → ∀ cs, readScript text = some cs → ∀ M : Model, ¬ M.Sat (fs ++ cs))
    (I : Interp) (hI : SolverFns I) (hl : ∀ d ∈ lang, FnHolds I d) (ha : ∀ a ∈ axs, AxHolds I a) (hc : ∀ d ∈ cands, FnHolds I d)
    (ρ : Env) (hT : ∀ x, OfTy (F.ty x) (ρ x)) (hpre : ∀ p ∈ posts, holds I ρ p) (v : Val) (hrun : Returns F I ρ v) :
    OfTy F.retTy v ∧ F.contract I ρ v :=
  C51_postcondition_partial topo htopo setOrder hset F posts scope vc hsup hok hvc lang axs cands vars hq hres hvars text ht hun I hI hl ha hc
    ρ hT hpre v (returns_noDiv hdiv hrun)

/-- From the contract to the value. -/
theorem ll_value_of_contract {F : Func} {d : FnDecl} (hok : candOk d = true) (hname : d.name = F.name ++ "_ps") {ps : List (String × Ty)}
    {r : String} (hparams : d.params = ps ++ [(r, F.retTy)]) (hps : ps.map Prod.snd = F.args.map F.ty) {e : Expr}
    (hb : Equates d r F.retTy e) (hr : r ∉ e.vars) {I : Interp} (hF : FixedFns I) (hc : FnHolds I d)
    {ρ : Env} (hT : ∀ x, OfTy (F.ty x) (ρ x)) {v : Val} (hv : OfTy F.retTy v) (hcon : F.contract I ρ v) :
    v = eval I (paramEnv ps (F.args.map ρ)) e := by
  unfold Func.contract at hcon
  rw [← hname] at hcon
  exact value_of_post hok hparams (by rw [hps]; exact ofTys_map hT _) (by simpa using congrArg List.length hps) hb hr hF hc hv hcon

/-- **C51 (the lifted program).**  If moreover the synthesised postcondition says that the result equals `e`, then the function returns exactly
the value of `e`, which the driver keeps as its synthesised version, at the arguments. -/
theorem C51_lifted_program_partial (topo : List (String × String) → Option (List String)) (htopo : TopoSpec topo)
    (setOrder : List String → List String) (hset : ∀ l, (setOrder l).Perm l)
    (F : Func) (posts : List Expr) (scope : String → Scope) (vc : Expr)
    (hsup : F.supported posts scope = true) (hok : F.solverOk = true) (hvc : F.vc posts = some vc)
    (lang : List FnDecl) (axs : List Ax) (cands : List FnDecl) (vars : List (String × Ty)) (hq : QueryOk lang axs cands vars vc)
    (hres : ∀ v ∈ vars, v.1 ∉ reserved ∧ v.1 ≠ "list_empty" ∧ v.1 ≠ "matrix_empty") (hvars : ∀ v ∈ vars, v.2 = F.ty v.1) (text : String)
    (ht : queryText topo setOrder lang axs cands vars vc = some text)
    (hun : ∀ fs, readFile filesText = some (fs ++ [c_matrix_transpose]) → ∀ cs, readScript text = some cs → ∀ M : Model, ¬ M.Sat (fs ++ cs))
    -- the synthesised postcondition: parameters, and an equation for the result that is not about the result itself
    (d : FnDecl) (hd : d ∈ cands) (hname : d.name = F.name ++ "_ps") (ps : List (String × Ty)) (r : String)
    (hparams : d.params = ps ++ [(r, F.retTy)]) (hps : ps.map Prod.snd = F.args.map F.ty) (e : Expr)
    (hbody : Equates d r F.retTy e) (hr : r ∉ e.vars)
    (I : Interp) (hI : SolverFns I) (hl : ∀ d ∈ lang, FnHolds I d) (ha : ∀ a ∈ axs, AxHolds I a) (hc : ∀ d ∈ cands, FnHolds I d)
    (ρ : Env) (hT : ∀ x, OfTy (F.ty x) (ρ x)) (hpre : ∀ p ∈ posts, holds I ρ p) (v : Val) (hrun : @Returns solverOps F I ρ v) :
    equated d = some e ∧ v = eval I (paramEnv ps (F.args.map ρ)) e := by
  refine ⟨?_, ?_⟩
  · obtain ⟨t, hb | hb⟩ := hbody
    · exact equated_iff.2 (.inl ⟨t, _, hb⟩)
    · exact equated_iff.2 (.inr ⟨t, _, [], hb⟩)
  · obtain ⟨hv, hcon⟩ := C51_postcondition_partial topo htopo setOrder hset F posts scope vc hsup hok hvc lang axs cands vars hq hres hvars
      text ht hun I hI hl ha hc ρ hT hpre v hrun
    exact ll_value_of_contract (hq.candOk d hd) hname hparams hps hbody hr hI.solver (hc d hd) hT hv hcon

/-! ### The driver -/

/-- Signatures of the functions on vectors that the front end writes. -/
def vecSig : Sigs := fun f =>
  if f = "matrix_length" then some ([.list (.list .int)], .int)
  else if f = "matrix_get" then some ([.list (.list .int), .int], .list .int)
  else if f = "matrix_empty" then some ([], .list (.list .int))
  else listSig f

/-- Signatures of all functions: candidates, target language, vectors. -/
def vecAllSig (cands lang : List FnDecl) : Sigs := fun f => ((langSig (cands ++ lang)) f).orElse (fun _ => vecSig f)

theorem ofTy_list_int {v : Val} (h : OfTy (.list .int) v) : ∃ l : List Int, v = encL l := by
  obtain ⟨vs, rfl, hv⟩ := h
  exact ofTy_ints ⟨vs, rfl, hv⟩

theorem ofTy_rows {v : Val} (h : OfTy (.list (.list .int)) v) : ∃ m : List (List Int), v = encM m := by
  have := (hasTy_iff _ _).2 h
  obtain ⟨vs, rfl, hv⟩ := h
  exact rows_enc (by simpa [hasTy] using this)

theorem encL_ofTy (l : List Int) : OfTy (.list .int) (encL l) :=
  ⟨_, rfl, fun w hw => by obtain ⟨i, _, rfl⟩ := List.mem_map.1 hw; exact ⟨i, rfl⟩⟩

theorem vecSig_respected {I : Interp} (hI : SolverFns I) : vecSig.Respected I := by
  obtain ⟨S, Fi, _, _, hR⟩ := hI.files
  intro f ts t hf vs hv
  unfold vecSig listSig at hf
  split at hf
  · next h1 =>
    subst h1; cases hf
    match vs, hv with
    | [v], hv => obtain ⟨m, rfl⟩ := ofTy_rows hv.1; exact ⟨_, hR.lengthM m⟩
  split at hf
  · next h1 =>
    subst h1; cases hf
    match vs, hv with
    | [v, i], hv =>
      obtain ⟨m, rfl⟩ := ofTy_rows hv.1
      obtain ⟨i, rfl⟩ := hv.2.1
      have h : I.fn "matrix_get" [encM m, .int i] = _ := hR.getM m i
      rw [h]
      exact encL_ofTy _
  split at hf
  · next h1 =>
    subst h1; cases hf
    match vs, hv with
    | [], _ => exact ⟨[], hR.emptyM, by simp⟩
  split at hf
  · next h1 =>
    subst h1; cases hf
    match vs, hv with
    | [v], hv => obtain ⟨m, rfl⟩ := ofTy_list_int hv.1; exact ⟨_, hR.length m⟩
  split at hf
  · next h1 =>
    subst h1; cases hf
    match vs, hv with
    | [v, i], hv =>
      obtain ⟨m, rfl⟩ := ofTy_list_int hv.1
      obtain ⟨i, rfl⟩ := hv.2.1
      exact ⟨_, hR.get m i⟩
  split at hf
  · next h1 =>
    subst h1; cases hf
    match vs, hv with
    | [v, i], hv =>
      obtain ⟨m, rfl⟩ := ofTy_list_int hv.1
      obtain ⟨i, rfl⟩ := hv.2.1
      have h : I.fn "list_append" [encL m, .int i] = _ := hR.append m i
      rw [h]
      exact encL_ofTy _
  split at hf
  · next h1 =>
    subst h1; cases hf
    match vs, hv with
    | [], _ => exact ⟨[], hR.empty, by simp⟩
  · cases hf

theorem vecAllSig_respected {c lang : List FnDecl} {I : Interp} (hI : SolverFns I) (hc : ∀ d ∈ c, FnHolds I d) (hl : ∀ d ∈ lang, FnHolds I d) :
    (vecAllSig c lang).Respected I := by
  intro f ts t hf vs hv
  unfold vecAllSig at hf
  cases hs : langSig (c ++ lang) f with
  | some p =>
    rw [hs] at hf
    cases hf
    exact langSig_respected (lang := c ++ lang) (fun d hd => (List.mem_append.1 hd).elim (hc d) (hl d)) f _ _ hs vs hv
  | none =>
    rw [hs] at hf
    exact vecSig_respected hI f ts t hf vs hv

/-- What is required of the candidates read from a solution, for the function `F` with verification condition `vc`. -/
structure LlCandsOk (fs asked : List String) (F : Func) (lang : List FnDecl) (axs : List Ax) (vars : List (String × Ty)) (vc : Expr)
    (c : List FnDecl) : Prop where
  query : QueryOk (lang.map asRecursive) axs c vars vc.simplify
  results : ResultsFor fs c
  asked : ∀ d ∈ c, d.name ∈ asked
  sorted : vc.sorted F.ty (vecAllSig c lang) = true
  /-- the postcondition of `F` is an equation for the result that is not about the result itself (from the grammar) -/
  post : ∀ d ∈ c, d.name = F.name ++ "_ps" → ∃ ps r e, d.params = ps ++ [(r, F.retTy)] ∧ ps.map Prod.snd = F.args.map F.ty ∧
    Equates d r F.retTy e ∧ r ∉ e.vars

/-- **C51 (the driver).**  When `Driver.synthesize` of the LLVM front end ends normally and `e` is then the synthesised version of the function,
there were candidates in a solution file such that, for every meaning of the functions that satisfies the target language and these candidates,
every run of the function without negative dividends that returns, returns the value of `e` at the arguments. -/
theorem C51_driver_partial (topo : List (String × String) → Option (List String)) (htopo : TopoSpec topo)
    (setOrder : List String → List String) (hset : ∀ l, (setOrder l).Perm l)
    -- the program and its obligations
    (F : Func) (posts : List Expr) (scope : String → Scope) (V : Visitor) (vc : Expr)
    (hsup : F.supported posts scope = true) (hok : F.solverOk = true) (hcall : F.call posts = some V) (hvc : F.vc posts = some vc)
    (fs asked : List String) (hfs : ∀ f ∈ fs, PlainName f) (hF : F.name ∈ fs)
    -- target language, variables, environment
    (lang : List FnDecl) (axs : List Ax) (vars : List (String × Ty)) (known : List String)
    (hres : ∀ v ∈ vars, v.1 ∉ reserved ∧ v.1 ≠ "list_empty" ∧ v.1 ≠ "matrix_empty") (hvars : ∀ v ∈ vars, v.2 = F.ty v.1)
    (E : DriverEnv) (hsolver : SolverRight E) 
    (hcands : ∀ i j rest c, E.file i j = some ("#t", rest) → E.decode rest = some c → LlCandsOk fs asked F lang axs vars vc c)
    -- the call of `synthesize`
    (fuel : Nat) (fns : Fns) (all : List FnDecl)
    (hret : llSynthesize topo setOrder known fs asked (F.asserts V) lang axs vars E fuel = some (.returned (fns, all)))
    (e : Expr) (he : fns.lookup F.name = some (some e)) :
    ∃ i j rest ps r, E.file i j = some ("#t", rest) ∧ E.decode rest = some all ∧ (∃ d ∈ all, d.name = F.name ++ "_ps" ∧ d.params = ps ++ [(r, F.retTy)]) ∧
      ps.map Prod.snd = F.args.map F.ty ∧
      ∀ I, SolverFns I → (∀ d ∈ lang, FnHolds I d) → (∀ a ∈ axs, AxHolds I a) → (∀ d ∈ all, FnHolds I d) →
      ∀ ρ : Env, (∀ x, OfTy (F.ty x) (ρ x)) → (∀ p ∈ posts, holds I ρ p) → ∀ v, @Returns solverOps F I ρ v →
        v = eval I (paramEnv ps (F.args.map ρ)) e := by
  have hand : andObjects (F.asserts V) = some vc := by
    simpa only [Func.vc, hcall, Option.bind_eq_bind, Option.bind_some] using hvc
  simp only [llSynthesize, Option.map_eq_some_iff] at hret
  obtain ⟨o, ho, hret⟩ := hret
  obtain ⟨c, rfl, hrec⟩ := andThen_returned hret
  obtain ⟨fi, fk, rest, text, j, hfile, hdec, htext, hver⟩ := runSynthesis_verified hand ho
  have hcok := hcands fi fk rest c hfile hdec
  obtain ⟨rfl, _, hown⟩ := C50_llvm_own_version_partial fs hfs asked c hcok.results hcok.asked fns all hrec
  obtain ⟨d, hd, hn, hb'⟩ := (hown F.name hF e).1 he
  obtain ⟨ps, r, e', hparams, hpty, hb, hr⟩ := hcok.post d hd hn
  have hee : e' = e := by
    obtain ⟨t, hb | hb⟩ := hb
    · have := equated_iff.2 (.inl ⟨t, _, hb⟩)
      rw [equated_iff.2 hb'] at this
      exact (Option.some.inj this).symm
    · have := equated_iff.2 (.inr ⟨t, _, [], hb⟩)
      rw [equated_iff.2 hb'] at this
      exact (Option.some.inj this).symm
  subst hee
  refine ⟨fi, fk, rest, ps, r, hfile, hdec, ⟨d, hd, hn, hparams⟩, hpty, ?_⟩
  intro I hI hl ha hc ρ hT hpre v hrun
  have hS := vecAllSig_respected hI hc hl
  obtain ⟨hv, hcon⟩ := ll_post_of_query topo htopo setOrder hset F posts scope vc hsup hok hvc (lang.map asRecursive) axs all vars vc.simplify
    hcok.query hres hvars text (verifyText_eq htext) (hsolver _ text hver) I hI
    (by
      intro d hd
      obtain ⟨d0, hd0, rfl⟩ := List.mem_map.1 hd
      exact hl d0 hd0) ha hc
    (by
      intro ρ' hρ' h
      unfold holds at *
      rw [← simplify_value hS hρ' vc hcok.sorted]
      exact h) ρ hT hpre v hrun
  exact ll_value_of_contract (hcok.query.candOk d hd) hn hparams hpty hb hr hI.solver (hc d hd) hT hv hcon

end Metalift.Ll
