import Verif.LlvmMerge
/-
C34: merging the states of predecessors.  C35: the meaning of instructions.
-/
namespace Metalift.Ll

/-! ### C34 -/

/-- The value that a map of symbolic values gives to a variable. -/
def valueOf (I : Interp) (ρ : Env) (m : SymVars) (x : String) : Option Val := (m.read x).map (eval I ρ)

/-- No boolean constant occurs in the conditions and the values of a state.  (For Python `1 == True`, so
constants of different types would be confused.) -/
def St.NoBoolConst (p : St) : Prop :=
  (∀ c ∈ p.precond, c.OnlyInt) ∧ (∀ x e, p.prim.read x = some e → e.OnlyInt) ∧ ∀ x e, p.ptr.read x = some e → e.OnlyInt

/-- C34 (partial): if the preconditions of exactly one predecessor `p` of a join are true, then the merged precondition is
true and every variable of `p` has in the merged state the value it has in `p`.  Guards: every predecessor has a
precondition (see `C34_empty_precondition_refuted`), and there are no boolean constants. -/
theorem C34_merge_partial (I : Interp) (ρ : Env) (pend : List Expr) (l₁ l₂ : List St) (p st : St)
    (hjoin : l₁ ++ l₂ ≠ []) (hmerge : mergeStates pend (l₁ ++ p :: l₂) = some st)
    (hne : ∀ q ∈ l₁ ++ p :: l₂, q.precond ≠ []) (hlit : ∀ q ∈ l₁ ++ p :: l₂, q.NoBoolConst)
    (hp : ∀ c ∈ p.precond, holds I ρ c) (hq : ∀ q ∈ l₁ ++ l₂, ∃ c ∈ q.precond, ¬ holds I ρ c) :
    (∀ c ∈ st.precond, holds I ρ c) ∧
    (∀ x v, valueOf I ρ p.prim x = some v → valueOf I ρ st.prim x = some v) ∧
    (∀ x v, valueOf I ρ p.ptr x = some v → valueOf I ρ st.ptr x = some v) := by
  have hpm : p ∈ l₁ ++ p :: l₂ := by simp
  have only : ∀ q ∈ l₁ ++ p :: l₂, AllHold I ρ q.precond → q = p ∨ False := by
    intro q hqm hh
    by_cases h : q ∈ l₁ ++ l₂
    · obtain ⟨c, hc, hn⟩ := hq q h
      exact absurd (hh c hc) hn
    · simp only [List.mem_append, List.mem_cons, not_or] at hqm h
      rcases hqm with h' | h' | h'
      · exact absurd h' h.1
      · exact .inl h'
      · exact absurd h' h.2
  generalize hps : l₁ ++ p :: l₂ = ps at *
  have hps0 : ps ≠ [] := by rw [← hps]; simp
  have hms : mergeStates pend ps = (do
      let prim ← mergeMaps (ps.map fun p => (p.prim, p.precond))
      let ptr ← mergeMaps (ps.map fun p => (p.ptr, p.precond))
      some { precond := mergePrecond pend ps, prim := prim, ptr := ptr }) := by
    cases ps with
    | nil => exact absurd rfl hps0
    | cons a ps =>
      cases ps with
      | nil =>
        exfalso
        have := congrArg List.length hps
        have : (l₁ ++ l₂).length = 0 := by simp only [List.length_append, List.length_cons, List.length_nil] at this ⊢; omega
        exact hjoin (List.length_eq_zero_iff.1 this)
      | cons b ps => rfl
  rw [hms] at hmerge
  simp only [Option.bind_eq_bind, Option.bind_eq_some_iff, Option.some.injEq] at hmerge
  obtain ⟨prim, h1, ptr, h2, rfl⟩ := hmerge
  have hval : ∀ (f : St → SymVars) (r : SymVars), mergeMaps (ps.map fun p => (f p, p.precond)) = some r →
      (∀ q ∈ ps, ∀ x e, (f q).read x = some e → e.OnlyInt) →
      ∀ x v, valueOf I ρ (f p) x = some v → valueOf I ρ r x = some v := by
    intro f r hr hl x v hv
    unfold valueOf at hv ⊢
    rw [Option.map_eq_some_iff] at hv
    obtain ⟨e, he, hv⟩ := hv
    have hm : (f p, p.precond) ∈ ps.map fun p => (f p, p.precond) := List.mem_map.2 ⟨p, hpm, rfl⟩
    obtain ⟨e', he'⟩ := mergeMaps_defined hr ⟨_, hm, e, he⟩
    rw [he', Option.map_some, Option.some.injEq]
    refine mergeMaps_eval hr he' ?_ ?_ ?_ ⟨_, hm, hp, e, he⟩ ?_
    · intro m hm; obtain ⟨q, hq, rfl⟩ := List.mem_map.1 hm; exact hne q hq
    · intro m hm; obtain ⟨q, hq, rfl⟩ := List.mem_map.1 hm; exact (hlit q hq).1
    · intro m hm; obtain ⟨q, hq, rfl⟩ := List.mem_map.1 hm; exact hl q hq x
    · intro m hm hh e'' he''
      obtain ⟨q, hq, rfl⟩ := List.mem_map.1 hm
      rcases only q hq hh with rfl | h
      · rw [he] at he''; injection he'' with he''; rw [← he'']; exact hv
      · exact h.elim
  refine ⟨?_, ?_, ?_⟩
  · exact (mergePrecond_iff hps0 hne fun q hq => (hlit q hq).1).2 ⟨p, hpm, hp⟩
  · exact hval St.prim prim h1 fun q hq => (hlit q hq).2.1
  · exact hval St.ptr ptr h2 fun q hq => (hlit q hq).2.2

/-- C34, the condition: if no predecessor's preconditions are true, the precondition of the join is false.  So an
obligation at the join speaks only about paths through a predecessor. -/
theorem C34_precondition_partial (I : Interp) (ρ : Env) (pend : List Expr) (p q : St) (ps : List St) (st : St)
    (hmerge : mergeStates pend (p :: q :: ps) = some st)
    (hne : ∀ r ∈ p :: q :: ps, r.precond ≠ []) (hlit : ∀ r ∈ p :: q :: ps, r.NoBoolConst) :
    (∀ c ∈ st.precond, holds I ρ c) ↔ ∃ r ∈ p :: q :: ps, ∀ c ∈ r.precond, holds I ρ c := by
  simp only [mergeStates, Option.bind_eq_bind, Option.bind_eq_some_iff, Option.some.injEq] at hmerge
  obtain ⟨prim, h1, ptr, h2, rfl⟩ := hmerge
  exact mergePrecond_iff (by simp) hne fun r hr => (hlit r hr).1

/-- C34, one predecessor: all values are kept, and the condition of the branch is added. -/
theorem C34_single (I : Interp) (ρ : Env) (pend : List Expr) (p : St) :
    ∃ st, mergeStates pend [p] = some st ∧ st.prim = p.prim ∧ st.ptr = p.ptr ∧
      ((∀ c ∈ st.precond, holds I ρ c) ↔ (∀ c ∈ pend, holds I ρ c) ∧ ∀ c ∈ p.precond, holds I ρ c) :=
  ⟨_, rfl, rfl, rfl, by simp [or_imp, forall_and]⟩

/-- An interpretation for examples: division as in SMT-LIB. -/
def llI : Interp where
  fn := fun _ _ => .bool true
  apply := fun _ _ => .bool true
  idiv := fun a b => a / b
  imod := fun a b => a % b
  choose := fun _ => .int 0

/-- `x = 1` under `c > 0`, `x = 2` under `not (c > 0)`. -/
def condC : Expr := .node .gt .bool [.var "c" .int, intLit 0]
def leftSt : St := { precond := [condC], ptr := [("x", intLit 1)] }
def rightSt : St := { precond := [mkNot condC], ptr := [("x", intLit 2)] }

/-- The hypotheses of `C34_merge_partial` are met for `c = 0`. -/
example : ∃ st, mergeStates [] [leftSt, rightSt] = some st ∧ valueOf llI (fun _ => .int 0) st.ptr "x" = some (.int 2) := by
  have hm : ∃ st, mergeStates [] [leftSt, rightSt] = some st := ⟨_, rfl⟩
  obtain ⟨st, hm⟩ := hm
  refine ⟨st, hm, ?_⟩
  have hints : ∀ q ∈ [leftSt, rightSt], q.NoBoolConst := by
    intro q hq
    have hc : condC.OnlyInt := by simp [condC, Expr.OnlyInt, Expr.litTys, Expr.litTyss, intLit]
    simp only [List.mem_cons, List.not_mem_nil, or_false] at hq
    rcases hq with rfl | rfl
    · refine ⟨by simp [leftSt, hc], by simp [leftSt, SymVars.read], ?_⟩
      intro x e h
      simp only [leftSt, SymVars.read, List.lookup] at h
      split at h
      · injection h with h; subst h; simp [Expr.OnlyInt, Expr.litTys, intLit]
      · cases h
    · refine ⟨?_, by simp [rightSt, SymVars.read], ?_⟩
      · simp only [rightSt, List.mem_singleton, forall_eq]
        exact closed_onlyInt.node _ _ _ (by simp [hc])
      · intro x e h
        simp only [rightSt, SymVars.read, List.lookup] at h
        split at h
        · injection h with h; subst h; simp [Expr.OnlyInt, Expr.litTys, intLit]
        · cases h
  refine (C34_merge_partial llI (fun _ => .int 0) [] [leftSt] [] rightSt st (by simp) hm ?_ hints ?_ ?_).2.2 "x" _ ?_
  · intro q hq
    simp only [List.cons_append, List.nil_append, List.mem_cons, List.not_mem_nil, or_false] at hq
    rcases hq with rfl | rfl <;> simp [leftSt, rightSt]
  · intro c hc
    simp only [rightSt, List.mem_singleton] at hc
    subst hc; decide
  · intro q hq
    simp only [List.append_nil, List.mem_singleton] at hq
    subst hq
    exact ⟨condC, by simp [leftSt], by decide⟩
  · rfl

/-- C34 is false if a predecessor has no precondition, which happens when a conditional branch goes directly to a join:
the empty list is dropped from the condition under which a value is chosen.  Here the second
predecessor has no precondition and `x = 1`; the conditions of the others are false; the merged value is 2, and
the merged precondition is false. -/
theorem C34_empty_precondition_refuted :
    let c : Expr := .node .gt .bool [.var "c" .int, intLit 0]
    let d : Expr := .node .lt .bool [.var "c" .int, intLit 0]
    let q : St := { precond := [c], ptr := [("x", intLit 2)] }
    let p : St := { precond := [], ptr := [("x", intLit 1)] }
    let r : St := { precond := [d], ptr := [("x", intLit 1)] }
    let ρ : Env := fun _ => .int 0
    ∃ st, mergeStates [] [q, p, r] = some st ∧ ¬ holds llI ρ c ∧ ¬ holds llI ρ d ∧
      valueOf llI ρ st.ptr "x" = some (.int 2) ∧ ∃ e ∈ st.precond, ¬ holds llI ρ e := by
  refine ⟨_, rfl, by decide, by decide, by decide, _, List.mem_singleton.2 rfl, by decide⟩

/-! ### C35 -/

/-- The symbolic state describes the concrete one: where both are defined, the values agree. -/
def Describe (I : Interp) (ρ : Env) (st : St) (s : CSt) : Prop :=
  (∀ x v w, valueOf I ρ st.prim x = some v → s.regs x = some w → v = w) ∧
  (∀ x v w, valueOf I ρ st.ptr x = some v → s.cells x = some w → v = w)

/-- Division of the backend rounds towards zero. -/
def TruncDiv (I : Interp) : Prop :=
  ∀ a b : Int, b ≠ 0 → I.idiv a b = a.tdiv b ∧ I.imod a b = a.tmod b

/-- Division of the backend is that of the run, where the latter is defined. -/
def DivExact [LlOps] (I : Interp) : Prop :=
  ∀ a b k : Int, (LlOps.sdiv a b = some k → I.idiv a b = k) ∧ (LlOps.srem a b = some k → I.imod a b = k)

/-- For LLVM's own division it is enough that the backend rounds towards zero. -/
theorem TruncDiv.exact {I : Interp} (h : TruncDiv I) : DivExact I := by
  intro a b k
  have hov : ∀ m : Int, overflow true m = some k → m = k := by
    intro m h
    unfold overflow at h
    simp only [if_true] at h
    by_cases hf : fits 32 m
    · rw [if_pos hf] at h; injection h
    · rw [if_neg hf] at h; cases h
  constructor
  · intro hk
    simp only [LlOps.sdiv] at hk
    by_cases h0 : b = 0
    · rw [if_pos h0] at hk; cases hk
    · rw [if_neg h0] at hk
      rw [(h a b h0).1, hov _ hk]
  · intro hk
    simp only [LlOps.srem] at hk
    by_cases h0 : b = 0
    · rw [if_pos h0] at hk; cases hk
    · rw [if_neg h0, Option.map_eq_some_iff] at hk
      obtain ⟨_, _, hk⟩ := hk
      rw [(h a b h0).2, hk]

/-- The instructions that are translated exactly: additions, subtractions and multiplications whose overflow is undefined,
division if the backend divides like the machine (`TruncDiv.exact`), no unsigned comparison, no conversion that changes the value, vector
functions if the backend's functions of the same name compute the same. -/
def Inst.exact [LlOps] (I : Interp) : Inst → Prop
  | .bin .sdiv _ _ _ _ => DivExact I
  | .bin .srem _ _ _ _ => DivExact I
  | .bin _ nsw _ _ _ => nsw = true
  | .icmp c _ _ _ => c ≠ .ult
  | .cast (.sext w _) _ _ => w ≠ 1
  | .cast (.trunc n w) _ _ => n = 8 ∧ w = 1
  | .alloca _ (.list t) => I.fn (emptyName (.list t)) [] = .list []
  | .vector _ t => I.fn (emptyName t) [] = .list []
  | .pushBack _ _ => ∀ l v w, vecPush l v = some w → I.fn "list_append" [l, v] = w
  | .call _ _ f _ _ => ∀ vs w, libCall I f vs = some w → I.fn f vs = w
  | _ => True

theorem describe_write {I : Interp} {ρ : Env} {st : St} {s : CSt} (h : Describe I ρ st s) (x : String) {e : Expr}
    {v : Val} (he : eval I ρ e = v) : Describe I ρ (st.write x e) (s.write x v) := by
  constructor
  · intro y a b ha hb
    simp only [St.write, valueOf, read_write, CSt.write] at ha hb
    by_cases hy : y = x
    · simp [hy] at ha hb; rw [← ha, ← hb, he]
    · simp only [hy, if_false] at ha hb
      exact h.1 y a b ha hb
  · exact h.2

theorem describe_store {I : Interp} {ρ : Env} {st : St} {s : CSt} (h : Describe I ρ st s) (x : String) {e : Expr}
    {v : Val} (he : eval I ρ e = v) : Describe I ρ (st.store x e) (s.store x v) := by
  constructor
  · exact h.1
  · intro y a b ha hb
    simp only [St.store, valueOf, read_write, CSt.store] at ha hb
    by_cases hy : y = x
    · simp [hy] at ha hb; rw [← ha, ← hb, he]
    · simp only [hy, if_false] at ha hb
      exact h.2 y a b ha hb

theorem describe_read {I : Interp} {ρ : Env} {st : St} {s : CSt} (h : Describe I ρ st s) {o : Opd} {e : Expr} {v : Val}
    (he : st.read o = some e) (hv : s.read o = some v) : eval I ρ e = v := by
  cases o with
  | reg n => exact h.1 n _ _ (by simp only [valueOf]; rw [show st.prim.read n = some e from he]; rfl) hv
  | ptr n => exact h.2 n _ _ (by simp only [valueOf]; rw [show st.ptr.read n = some e from he]; rfl) hv
  | int i => simp [St.read, CSt.read] at he hv; subst he; subst hv; rfl
  | bool b => simp [St.read, CSt.read] at he hv; subst he; subst hv; rfl

theorem describe_ptr {I : Interp} {ρ : Env} {st : St} {s : CSt} (h : Describe I ρ st s) {p : String} {e : Expr} {v : Val}
    (he : st.ptr.read p = some e) (hv : s.cells p = some v) : eval I ρ e = v :=
  describe_read (o := .ptr p) h he hv

theorem describe_opds {I : Interp} {ρ : Env} {st : St} {s : CSt} (h : Describe I ρ st s) : ∀ {os : List Opd} {es vs},
    readOpds st os = some es → readAllC s os = some vs → es.map (eval I ρ) = vs
  | [], es, vs, h1, h2 => by simp [readOpds, readAllC] at h1 h2; subst h1; subst h2; rfl
  | o :: os, es, vs, h1, h2 => by
    simp only [readOpds, readAllC, Option.bind_eq_bind, Option.bind_eq_some_iff, Option.some.injEq] at h1 h2
    obtain ⟨e, he, es', hes, rfl⟩ := h1
    obtain ⟨v, hv, vs', hvs, rfl⟩ := h2
    simp [describe_read h he hv, describe_opds h hes hvs]

theorem ofTy_some {t : Ty} {v w : Val} : ofTy t v = some w ↔ v = w ∧ hasTy t v = true := by
  unfold ofTy
  by_cases h : hasTy t v = true <;> simp [h]

theorem binExpr_eval [LlOps] {I : Interp} {ρ : Env} {op : BinOp} {nsw : Bool} {r : String} {o1 o2 : Opd} {a b e : Expr} {i j k : Int}
    (hx : (Inst.bin op nsw r o1 o2).exact I) (ha : eval I ρ a = .int i) (hb : eval I ρ b = .int j)
    (he : binExpr op a b = some e) (hk : binSem op nsw i j = some k) : eval I ρ e = .int k := by
  unfold binExpr at he
  by_cases ht : a.ty = .int ∧ b.ty = .int
  · rw [if_pos ht] at he
    injection he with he
    subst he
    have hov : ∀ m : Int, overflow true m = some k → m = k := by
      intro m h
      unfold overflow at h
      simp only [if_true] at h
      by_cases hf : fits 32 m
      · rw [if_pos hf] at h; injection h
      · rw [if_neg hf] at h; cases h
    cases op with
    | add =>
      simp only [Inst.exact] at hx; subst hx
      simp [eval, evals, evalOp, ha, hb, hov _ hk]
    | sub =>
      simp only [Inst.exact] at hx; subst hx
      simp [eval, evals, evalOp, ha, hb, hov _ hk]
    | mul =>
      simp only [Inst.exact] at hx; subst hx
      simp [eval, evals, evalOp, ha, hb, hov _ hk]
    | sdiv =>
      simp only [Inst.exact] at hx
      simp only [binSem] at hk
      simp [eval, evals, evalOp, ha, hb, (hx i j k).1 hk]
    | srem =>
      simp only [Inst.exact] at hx
      simp only [binSem] at hk
      simp [eval, evals, evalOp, ha, hb, (hx i j k).2 hk]
  · rw [if_neg ht] at he; cases he

theorem cmpExpr_eval {I : Interp} {ρ : Env} {c : Cmp} {a b e : Expr} {v w : Val} {k : Bool}
    (hc : c ≠ .ult) (ha : eval I ρ a = v) (hb : eval I ρ b = w)
    (he : cmpExpr c a b = some e) (hk : cmpVal c v w = some k) : eval I ρ e = .bool k := by
  have opt : ∀ (P : Prop) [Decidable P] (x : Expr), (if P then some x else none) = some e → x = e := by
    intro P _ x h
    by_cases hP : P
    · rw [if_pos hP] at h; injection h
    · rw [if_neg hP] at h; cases h
  cases v with
  | int i =>
    cases w with
    | int j =>
      simp only [cmpVal, Option.some.injEq] at hk
      subst hk
      cases c with
      | ult => exact absurd rfl hc
      | ugt => simp [cmpExpr] at he
      | uge => simp [cmpExpr] at he
      | ule => simp [cmpExpr] at he
      | eq => simp only [cmpExpr, Option.some.injEq] at he; subst he; simp [mkEq, eval, evals, evalOp, ha, hb, cmpSem]
      | ne => simp only [cmpExpr, Option.some.injEq] at he; subst he; simp [mkEq, mkNot, eval, evals, evalOp, ha, hb, cmpSem]
      | sgt => rw [← opt _ _ he]; simp [eval, evals, evalOp, ha, hb, cmpSem]
      | sge => rw [← opt _ _ he]; simp [eval, evals, evalOp, ha, hb, cmpSem]
      | slt => rw [← opt _ _ he]; simp only [eval, evals, evalOp, ha, hb, cmpSem, Val.asInt_int]; rfl
      | sle => rw [← opt _ _ he]; simp only [eval, evals, evalOp, ha, hb, cmpSem, Val.asInt_int]; rfl
    | _ => simp [cmpVal] at hk
  | bool i =>
    cases w with
    | bool j =>
      cases c with
      | eq =>
        simp only [cmpExpr, Option.some.injEq] at he; subst he
        simp only [cmpVal, Option.some.injEq] at hk; subst hk
        simp [mkEq, eval, evals, evalOp, ha, hb]
      | ne =>
        simp only [cmpExpr, Option.some.injEq] at he; subst he
        simp only [cmpVal, Option.some.injEq] at hk; subst hk
        simp [mkEq, mkNot, eval, evals, evalOp, ha, hb]
      | _ => simp [cmpVal] at hk
    | _ => simp [cmpVal] at hk
  | _ => simp [cmpVal] at hk

/-- C35 (partial): if a symbolic state describes the machine state, the front end accepts the instruction and the machine
can execute it, then the new symbolic state describes the new machine state — for all operand values, for the
instructions of `Inst.exact`. -/
theorem C35_instruction_partial [LlOps] (I : Interp) (ρ : Env) (ty : String → Ty) (i : Inst) (st st' : St) (s s' : CSt)
    (hx : i.exact I) (hd : Describe I ρ st s) (h1 : stepInst st i = some st') (h2 : execInst I ty s i = some s') :
    Describe I ρ st' s' := by
  cases i with
  | alloca r t =>
    simp only [stepInst, execInst, Option.bind_eq_bind, Option.bind_eq_some_iff, Option.some.injEq] at h1 h2
    obtain ⟨e, he, rfl⟩ := h1
    obtain ⟨v, hv, w, hw, rfl⟩ := h2
    obtain ⟨rfl, _⟩ := ofTy_some.1 hw
    refine describe_store hd r ?_
    cases t <;> simp [defaultVal, initVal] at he hv <;> subst he <;> subst hv
    · rfl
    · rfl
    · simp only [Inst.exact] at hx
      simp [mkCall, eval, evals, evalOp, hx]
  | load tp r p =>
    simp only [stepInst, execInst, Option.bind_eq_bind, Option.bind_eq_some_iff, Option.some.injEq] at h1 h2
    obtain ⟨e, he, rfl⟩ := h1
    obtain ⟨v, hv, w, hw, rfl⟩ := h2
    obtain ⟨rfl, _⟩ := ofTy_some.1 hw
    cases tp
    · exact describe_write hd r (describe_ptr hd he hv)
    · exact describe_store hd r (describe_ptr hd he hv)
  | store o p =>
    simp only [stepInst, execInst, Option.bind_eq_bind, Option.bind_eq_some_iff, Option.some.injEq] at h1 h2
    obtain ⟨e, he, rfl⟩ := h1
    obtain ⟨v, hv, w, hw, rfl⟩ := h2
    obtain ⟨rfl, _⟩ := ofTy_some.1 hw
    exact describe_store hd p (describe_read hd he hv)
  | bin op nsw r a b =>
    simp only [stepInst, execInst, Option.bind_eq_bind, Option.bind_eq_some_iff, Option.some.injEq] at h1 h2
    obtain ⟨ea, hea, eb, heb, e, he, rfl⟩ := h1
    obtain ⟨va, hva, vb, hvb, h2⟩ := h2
    have h3 := describe_read hd hea hva
    have h4 := describe_read hd heb hvb
    cases va with
    | int i =>
      cases vb with
      | int j =>
        simp only [Option.bind_eq_some_iff, Option.some.injEq] at h2
        obtain ⟨k, hk, rfl⟩ := h2
        exact describe_write hd r (binExpr_eval hx h3 h4 he hk)
      | _ => simp at h2
    | _ => simp at h2
  | icmp c r a b =>
    simp only [stepInst, execInst, Option.bind_eq_bind, Option.bind_eq_some_iff, Option.some.injEq] at h1 h2
    obtain ⟨ea, hea, eb, heb, e, he, rfl⟩ := h1
    obtain ⟨va, hva, vb, hvb, k, hk, rfl⟩ := h2
    exact describe_write hd r (cmpExpr_eval hx (describe_read hd hea hva) (describe_read hd heb hvb) he hk)
  | cast k r a =>
    simp only [stepInst, execInst, Option.bind_eq_bind, Option.bind_eq_some_iff, Option.some.injEq] at h1 h2
    obtain ⟨e, he, rfl⟩ := h1
    obtain ⟨v, hv, w, hw, rfl⟩ := h2
    refine describe_write hd r ?_
    rw [describe_read hd he hv]
    cases k with
    | bitcast => simpa [convSem] using hw
    | sext n m =>
      simp only [Inst.exact] at hx
      cases v <;> simp [convSem, hx] at hw
      exact hw
    | trunc n m =>
      simp only [Inst.exact] at hx
      obtain ⟨rfl, rfl⟩ := hx
      cases v <;> simp [convSem] at hw
      exact hw
  | call tp r f t args =>
    simp only [stepInst, execInst, Option.bind_eq_bind, Option.bind_eq_some_iff, Option.some.injEq] at h1 h2
    obtain ⟨es, hes, rfl⟩ := h1
    obtain ⟨vs, hvs, w, hl, w', hw, rfl⟩ := h2
    obtain ⟨rfl, _⟩ := ofTy_some.1 hw
    have he : eval I ρ (mkCall f t es) = w := by
      simp only [Inst.exact] at hx
      simp [mkCall, eval, evalOp, evals_eq_map, describe_opds hd hes hvs, hx vs w hl]
    cases tp
    · exact describe_write hd r he
    · exact describe_store hd r he
  | vector p t =>
    simp only [stepInst, execInst, Option.bind_eq_bind, Option.bind_eq_some_iff, Option.some.injEq] at h1 h2
    obtain ⟨_, _, rfl⟩ := h1
    obtain ⟨_, _, w, hw, rfl⟩ := h2
    obtain ⟨rfl, _⟩ := ofTy_some.1 hw
    simp only [Inst.exact] at hx
    exact describe_store hd p (by simp [mkCall, eval, evals, evalOp, hx])
  | pushBack p o =>
    simp only [stepInst, execInst, Option.bind_eq_bind, Option.bind_eq_some_iff, Option.some.injEq] at h1 h2
    obtain ⟨e, he, f, hf, h1⟩ := h1
    split at h1
    · cases h1
    injection h1 with h1
    subst h1
    obtain ⟨v, hv, x, hx', w, hp, w', hw, rfl⟩ := h2
    obtain ⟨rfl, _⟩ := ofTy_some.1 hw
    simp only [Inst.exact] at hx
    exact describe_store hd p (by
      simp [mkCall, eval, evals, evalOp, describe_ptr hd he hv, describe_read hd hf hx', hx v x w hp])
  | other o => simp [stepInst] at h1

/-- C35: on a dividend that is not negative, division as defined by SMT-LIB agrees
with LLVM's, so the restriction on division is needed for negative dividends only. -/
theorem C35_division_nonneg (a b : Int) (ha : 0 ≤ a) : a.tdiv b = a / b ∧ a.tmod b = a % b :=
  ⟨Int.tdiv_eq_ediv_of_nonneg ha, Int.tmod_eq_emod_of_nonneg ha⟩

/-- The state before and after one instruction on registers `a` and `b`. -/
def twoRegs (t : Ty) : St := { prim := [("a", .var "a" t), ("b", .var "b" t)] }
def twoVals (v w : Val) : CSt :=
  { regs := fun x => if x = "a" then some v else if x = "b" then some w else none, cells := fun _ => none }
def twoEnv (v w : Val) : Env := fun x => if x = "a" then v else w

theorem two_describe (I : Interp) (t : Ty) (v w : Val) : Describe I (twoEnv v w) (twoRegs t) (twoVals v w) := by
  constructor
  · intro x u u' h h'
    simp only [valueOf, twoRegs, SymVars.read, List.lookup, twoVals] at h h'
    by_cases ha : x = "a"
    · subst ha
      simp [eval, twoEnv] at h h'
      rw [← h, ← h']
    · by_cases hb : x = "b"
      · subst hb
        simp [eval, twoEnv] at h h'
        rw [← h, ← h']
      · simp [ha, hb] at h'
  · intro x u u' h h'
    simp [twoVals] at h'

/-- The hypotheses of `C35_instruction_partial` are met: `-7 srem 2` is `-1`. -/
example : Describe { llI with idiv := Int.tdiv, imod := Int.tmod } (twoEnv (.int (-7)) (.int 2))
    ((twoRegs .int).write "r" (.node .mod .int [.var "a" .int, .var "b" .int]))
    ((twoVals (.int (-7)) (.int 2)).write "r" (.int (-1))) :=
  C35_instruction_partial { llI with idiv := Int.tdiv, imod := Int.tmod } _ (fun _ => .int)
    (.bin .srem false "r" (.reg "a") (.reg "b")) _ _ _ _ (TruncDiv.exact (fun _ _ _ => ⟨rfl, rfl⟩)) (two_describe _ .int _ _) rfl rfl

/-- What the front end and the machine compute for register `r`. -/
def bothResults (I : Interp) (ty : String → Ty) (i : Inst) (t : Ty) (v w : Val) : Option (Val × Val) := do
  let st ← stepInst (twoRegs t) i
  let s ← execInst I ty (twoVals v w) i
  some (← valueOf I (twoEnv v w) st.prim "r", ← s.regs "r")

/-- C35 is false for signed division if the backend divides as SMT-LIB prescribes (`-7 / 2` is `-4`, not `-3`). -/
theorem C35_sdiv_refuted :
    bothResults llI (fun _ => .int) (.bin .sdiv false "r" (.reg "a") (.reg "b")) .int (.int (-7)) (.int 2) =
      some (.int (-4), .int (-3)) ∧
    bothResults llI (fun _ => .int) (.bin .srem false "r" (.reg "a") (.reg "b")) .int (.int (-7)) (.int 2) =
      some (.int 1, .int (-1)) := by decide

/-- C35 is false for the unsigned comparison `ult`, which is translated like `slt`; the other unsigned comparisons are
rejected. -/
theorem C35_unsigned_refuted :
    bothResults llI (fun _ => .int) (.icmp .ult "r" (.reg "a") (.reg "b")) .int (.int (-1)) (.int 1) =
      some (.bool true, .bool false) ∧
    stepInst (twoRegs .int) (.icmp .ugt "r" (.reg "a") (.reg "b")) = none ∧
    stepInst (twoRegs .int) (.icmp .uge "r" (.reg "a") (.reg "b")) = none ∧
    stepInst (twoRegs .int) (.icmp .ule "r" (.reg "a") (.reg "b")) = none := ⟨by decide, rfl, rfl, rfl⟩

/-- Unsigned arithmetic wraps around in LLVM, not in the translation. -/
theorem C35_wraparound_refuted :
    bothResults llI (fun _ => .int) (.bin .add false "r" (.reg "a") (.reg "b")) .int (.int 2147483647) (.int 1) =
      some (.int 2147483648, .int (-2147483648)) := by decide

/-- Conversions are translated to the identity: `sext` of the bit 1 is `-1`, `trunc` of 65536 to 16 bits
is 0. -/
theorem C35_conversion_refuted :
    bothResults llI (fun _ => .int) (.cast (.sext 1 32) "r" (.reg "a")) .bool (.bool true) (.int 0) =
      some (.bool true, .int (-1)) ∧
    bothResults llI (fun _ => .int) (.cast (.trunc 32 16) "r" (.reg "a")) .int (.int 65536) (.int 0) =
      some (.int 65536, .int 0) := by decide

end Metalift.Ll
