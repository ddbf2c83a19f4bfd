import Verif.LlvmRun
import Verif.PLlvm
/-
Equations of the states computed by the LLVM front end, and the fact that under one assignment of the symbolic
variables at most one predecessor of a join is reached.
-/
namespace Metalift.Ll

theorem allHold_append {I : Interp} {ρ : Env} {a b : List Expr} :
    AllHold I ρ (a ++ b) ↔ AllHold I ρ a ∧ AllHold I ρ b := by
  simp [AllHold, or_imp, forall_and]

/-- What is known about the state computed for a block.  `pend` is what branches appended to the precondition of
the block, `st1` the state before the first instruction. -/
structure Eqn (F : Func) (posts : List Expr) (V : Visitor) (b : LBlk) (pend : List Expr) (st1 st2 : St) : Prop where
  start : F.startBlock posts pend (b.preds.map V.states) b = some st1
  step : stepInsts st1 b.insts = some st2
  prim : (V.states b.name).prim = st2.prim
  ptr : (V.states b.name).ptr = st2.ptr
  precond : (V.states b.name).precond = st2.precond
  conds : ∃ cs, brConds (V.states b.name) b.term = some cs
  noSwitch : ∀ c d l, b.term ≠ .switch c d l
  ret : ∀ o, b.term = .ret o → ∃ e, F.retVal (V.states b.name) o = some e ∧
    guardBy (V.states b.name).precond (F.psCall e) ∈ (V.states b.name).asserts
  loops : ∀ L ∈ F.loops, (∃ h, F.find L.header = some h ∧ b.name ∈ h.preds) ∨ b.name ∈ L.latches →
    ∃ e, L.call (V.states b.name) = some e ∧ guardBy (V.states b.name).precond e ∈ (V.states b.name).asserts
  pendSound : ∀ e ∈ pend, ∃ B ∈ F.blocks, ∃ c t f x, B.term = .cbr c t f ∧ b.preds = [B.name] ∧
    (V.states B.name).read c = some x ∧ ((b.name = t ∧ e = x) ∨ (b.name = f ∧ e = mkNot x))
  pendComplete : ∀ B ∈ F.blocks, ∀ c t f, B.term = .cbr c t f → ∃ x, (V.states B.name).read c = some x ∧
    (b.name = t → x ∈ pend) ∧ (b.name = f → mkNot x ∈ pend)

theorem startBlock_posts {F : Func} {posts posts' pend : List Expr} {preds : List St} {b : LBlk}
    (h : b.preds = [] → posts' = posts) : F.startBlock posts' pend preds b = F.startBlock posts pend preds b := by
  unfold Func.startBlock
  cases hb : b.preds with
  | nil => rw [h hb]
  | cons p ps => rfl

/-- After a complete analysis every block has its equation, and predecessors were visited before. -/
theorem call_eqns {F : Func} (hC : Cfg F) {posts : List Expr} {V : Visitor} (h : F.call posts = some V)
    (hall : ∀ b ∈ F.blocks, (V.states b.name).processed = true) :
    ∃ rank : String → Nat, (∀ b ∈ F.blocks, ∀ p ∈ b.preds, rank p < rank b.name) ∧
      ∀ b ∈ F.blocks, ∃ pend st1 st2, Eqn F posts V b pend st1 st2 := by
  obtain ⟨l, hl⟩ := call_visits h
  have hv := visits_inv hC hl
  have hin : ∀ b ∈ F.blocks, b ∈ l := by
    intro b hb
    obtain ⟨c, hc, hn⟩ := (hv.proc b.name).1 (hall b hb)
    rw [← hC.inj (hv.mem c hc) hb hn]; exact hc
  refine ⟨fun n => (l.reverse.map Blk.name).idxOf n, ?_, ?_⟩
  · intro b hb p hp
    obtain ⟨l₁, l₂, rfl⟩ := List.append_of_mem (hin b hb)
    obtain ⟨h1, h2, _⟩ := hv.vis l₁ b l₂ rfl
    obtain ⟨B, hB, rfl⟩ := h1 p hp
    simp only [List.reverse_append, List.reverse_cons, List.append_assoc, List.map_append, List.map_cons, List.map_nil]
    have hnb : b.name ∉ l₂.reverse.map Blk.name := by
      intro hm
      obtain ⟨c, hc, hn⟩ := List.mem_map.1 hm
      exact h2 c (List.mem_reverse.1 hc) hn
    have hBm : B.name ∈ l₂.reverse.map Blk.name := List.mem_map.2 ⟨B, List.mem_reverse.2 hB, rfl⟩
    rw [List.idxOf_append, if_pos hBm, List.idxOf_append, if_neg hnb]
    have := List.idxOf_lt_length_of_mem hBm
    omega
  · intro b hb
    obtain ⟨l₁, l₂, hsp⟩ := List.append_of_mem (hin b hb)
    obtain ⟨h1, h2, posts', h3, h4⟩ := hv.vis l₁ b l₂ hsp
    obtain ⟨st1, st2, e1, e2, e3, e4, e5⟩ := h4.run
    refine ⟨_, st1, st2, by rw [← startBlock_posts h3]; exact e1, e2, e3, e4, e5, h4.conds, h4.noSwitch, h4.ret, h4.loops, ?_, ?_⟩
    · intro e he
      obtain ⟨B, hB, hc⟩ := List.mem_flatMap.1 he
      have hBb : B ∈ F.blocks := hv.mem B (by rw [hsp]; simp [List.mem_reverse.1 hB])
      refine ⟨B, hBb, ?_⟩
      unfold condsTo at hc
      cases ht : B.term with
      | cbr c t f =>
        rw [ht] at hc
        obtain ⟨x, hx⟩ : ∃ x, (V.states B.name).read c = some x := by
          cases hx : (V.states B.name).read c with
          | none => simp [brConds, hx] at hc
          | some x => exact ⟨x, rfl⟩
        simp only [brConds, hx, Option.bind_eq_bind, Option.bind_some] at hc
        by_cases hty : x.ty = .bool
        · rw [if_pos hty] at hc
          simp only [Option.getD_some] at hc
          obtain ⟨q, hq, hqe⟩ := List.mem_filterMap.1 hc
          by_cases hqn : q.1 = b.name
          · rw [if_pos hqn] at hqe
            injection hqe with hqe
            simp only [List.mem_cons, List.not_mem_nil, or_false] at hq
            have hor : b.name = t ∨ b.name = f := by
              rcases hq with rfl | rfl
              · exact .inl hqn.symm
              · exact .inr hqn.symm
            refine ⟨c, t, f, x, rfl, (hC.cond B hBb c t f ht).2 b hb hor, hx, ?_⟩
            rcases hq with rfl | rfl
            · exact .inl ⟨hqn.symm, hqe.symm⟩
            · exact .inr ⟨hqn.symm, hqe.symm⟩
          · rw [if_neg hqn] at hqe; cases hqe
        · rw [if_neg hty] at hc; simp at hc
      | _ => rw [ht] at hc; simp [brConds] at hc
    · intro B hBb c t f ht
      have hBl := hin B hBb
      obtain ⟨m₁, m₂, hm⟩ := List.append_of_mem hBl
      obtain ⟨_, _, _, _, h6⟩ := hv.vis m₁ B m₂ hm
      obtain ⟨cs, hcs⟩ := h6.conds
      rw [ht] at hcs
      simp only [brConds, Option.bind_eq_bind, Option.bind_eq_some_iff] at hcs
      obtain ⟨x, hx, hcs⟩ := hcs
      have hty : x.ty = .bool := by
        by_cases hty : x.ty = .bool
        · exact hty
        · rw [if_neg hty] at hcs; cases hcs
      have hBl₂ : b.name = t ∨ b.name = f → B ∈ l₂ := by
        intro hor
        have hp := (hC.cond B hBb c t f ht).2 b hb hor
        obtain ⟨B', hB', hn⟩ := h1 B.name (by rw [hp]; simp)
        rw [← hC.inj (hv.mem B' (by rw [hsp]; simp [hB'])) hBb hn]
        exact hB'
      have hct : condsTo V B b.name =
          [(t, x), (f, mkNot x)].filterMap fun c => if c.1 = b.name then some c.2 else none := by
        simp only [condsTo, ht, brConds, hx, Option.bind_eq_bind, Option.bind_some, if_pos hty, Option.getD_some]
      refine ⟨x, hx, fun hn => ?_, fun hn => ?_⟩
      · refine List.mem_flatMap.2 ⟨B, List.mem_reverse.2 (hBl₂ (.inl hn)), ?_⟩
        rw [hct]
        exact List.mem_filterMap.2 ⟨(t, x), by simp, by simp [hn]⟩
      · refine List.mem_flatMap.2 ⟨B, List.mem_reverse.2 (hBl₂ (.inr hn)), ?_⟩
        rw [hct]
        exact List.mem_filterMap.2 ⟨(f, mkNot x), by simp, by simp [hn]⟩

/-! ### Instructions do not touch preconditions -/

theorem stepInst_precond {st st' : St} {i : Inst} (h : stepInst st i = some st') : st'.precond = st.precond := by
  cases i <;>
    simp only [stepInst, Option.bind_eq_bind, Option.bind_eq_some_iff, Option.some.injEq, reduceCtorEq] at h
  case alloca => obtain ⟨_, _, rfl⟩ := h; rfl
  case load => obtain ⟨_, _, rfl⟩ := h; split <;> rfl
  case store => obtain ⟨_, _, rfl⟩ := h; rfl
  case bin => obtain ⟨_, _, _, _, _, _, rfl⟩ := h; rfl
  case icmp => obtain ⟨_, _, _, _, _, _, rfl⟩ := h; rfl
  case cast => obtain ⟨_, _, rfl⟩ := h; rfl
  case call => obtain ⟨_, _, rfl⟩ := h; split <;> rfl
  case vector => obtain ⟨_, _, rfl⟩ := h; rfl
  case pushBack =>
    obtain ⟨_, _, _, _, h⟩ := h
    split at h
    · cases h
    injection h with h
    subst h
    rfl

theorem stepInsts_precond : ∀ {is : List Inst} {st st' : St}, stepInsts st is = some st' → st'.precond = st.precond
  | [], st, st', h => by simp [stepInsts] at h; rw [h]
  | i :: is, st, st', h => by
    simp only [stepInsts, List.foldlM_cons, Option.bind_eq_bind, Option.bind_eq_some_iff] at h
    obtain ⟨st1, h1, h2⟩ := h
    rw [stepInsts_precond (is := is) h2, stepInst_precond h1]

theorem Eqn.precond' {F posts V b pend st1 st2} (h : Eqn F posts V b pend st1 st2) :
    (V.states b.name).precond = st1.precond := by rw [h.precond, stepInsts_precond h.step]

/-! ### Start states -/

theorem startBlock_entry {F : Func} {posts pend : List Expr} {preds : List St} {b : LBlk} {st1 : St}
    (hb : b.preds = []) (hnh : ∀ L ∈ F.loops, L.header ≠ b.name)
    (h : F.startBlock posts pend preds b = some st1) : st1 = F.preprocess pend posts := by
  unfold Func.startBlock at h
  have hf : F.loops.filter (fun L => decide (L.header = b.name)) = [] :=
    List.filter_eq_nil_iff.2 fun L hL => by simpa using hnh L hL
  rw [hb, hf] at h
  simpa [eq_comm] using h

theorem startBlock_plain {F : Func} {posts pend : List Expr} {preds : List St} {b : LBlk} {st1 : St}
    (hb : b.preds ≠ []) (hnh : ∀ L ∈ F.loops, L.header ≠ b.name)
    (h : F.startBlock posts pend preds b = some st1) : mergeStates pend preds = some st1 := by
  unfold Func.startBlock at h
  have hf : F.loops.filter (fun L => decide (L.header = b.name)) = [] :=
    List.filter_eq_nil_iff.2 fun L hL => by simpa using hnh L hL
  have hbe : b.preds.isEmpty = false := by cases hp : b.preds <;> simp_all
  rw [hf, hbe] at h
  simp only [Bool.false_eq_true, if_false, Option.bind_eq_bind, Option.bind_eq_some_iff, List.foldlM_nil,
    Option.pure_def, Option.some.injEq] at h
  obtain ⟨st, h1, rfl⟩ := h
  exact h1

theorem filter_single {α : Type} {l : List α} (hn : l.Nodup) {p : α → Bool} {a : α} (ha : a ∈ l) (hpa : p a = true)
    (hu : ∀ b ∈ l, p b = true → b = a) : l.filter p = [a] := by
  induction l with
  | nil => simp at ha
  | cons b l ih =>
    have hnb := List.nodup_cons.1 hn
    by_cases hb : p b = true
    · have := hu b (by simp) hb
      subst this
      have : l.filter p = [] := List.filter_eq_nil_iff.2 fun c hc hpc => by
        have := hu c (by simp [hc]) hpc
        subst this; exact hnb.1 hc
      simp [hb, this]
    · have hal : a ∈ l := by
        rcases List.mem_cons.1 ha with rfl | h
        · exact absurd hpa hb
        · exact h
      rw [List.filter_cons_of_neg hb]
      exact ih hnb.2 hal fun c hc => hu c (by simp [hc])

theorem startBlock_header {F : Func} {posts pend : List Expr} {preds : List St} {b : LBlk} {st1 : St} {L : Loop}
    (hb : b.preds ≠ []) (hn : F.loops.Nodup) (hL : L ∈ F.loops) (hLb : L.header = b.name)
    (hu : ∀ L' ∈ F.loops, L'.header = L.header → L' = L)
    (h : F.startBlock posts pend preds b = some st1) :
    ∃ m, mergeStates pend preds = some m ∧ F.enterLoop m L = some st1 := by
  unfold Func.startBlock at h
  have hf : F.loops.filter (fun L => decide (L.header = b.name)) = [L] :=
    filter_single hn hL (by simpa using hLb) fun L' h' he => hu L' h' (by rw [hLb]; simpa using he)
  have hbe : b.preds.isEmpty = false := by cases hp : b.preds <;> simp_all
  rw [hf, hbe] at h
  simp only [Bool.false_eq_true, if_false, Option.bind_eq_bind, Option.bind_eq_some_iff, List.foldlM_cons, List.foldlM_nil,
    Option.pure_def, Option.some.injEq] at h
  obtain ⟨st, h1, st', h2, rfl⟩ := h
  exact ⟨st, h1, h2⟩

/-! ### Loop structure -/

/-- What is assumed about loops: natural loops that are not nested, entered through the header only. -/
structure LoopShape (F : Func) (L : Loop) : Prop where
  header : ∃ h ∈ F.blocks, h.name = L.header ∧ h.preds ≠ []
  inside : L.header ∈ L.blocks ∧ ∀ l ∈ L.latches, l ∈ L.blocks
  unique : ∀ L' ∈ F.loops, L'.header ∈ L.blocks → L' = L
  natural : ∀ b ∈ F.blocks, b.name ∈ L.blocks → b.name ≠ L.header → b.preds ≠ [] ∧ ∀ p ∈ b.preds, p ∈ L.blocks
  direct : ∀ B ∈ F.blocks, ∀ c t f, B.term = .cbr c t f → t ≠ L.header ∧ f ≠ L.header

/-- The part of the assumptions that concerns the shape of the graph and the path conditions. -/
structure Shape (F : Func) (V : Visitor) : Prop where
  cfg : Cfg F
  all : ∀ b ∈ F.blocks, (V.states b.name).processed = true
  loopsNodup : F.loops.Nodup
  loops : ∀ L ∈ F.loops, LoopShape F L
  nonempty : ∀ b ∈ F.blocks, 2 ≤ b.preds.length → ∀ p ∈ b.preds, (V.states p).precond ≠ []
  lits : ∀ b ∈ F.blocks, (V.states b.name).NoBoolConst

theorem Shape.mapStates {F : Func} {V : Visitor} (h : Shape F V) {c : LBlk} (hc : c ∈ F.blocks) {st : St}
    (hst : st ∈ c.preds.map V.states) : ∃ B ∈ F.blocks, B.name ∈ c.preds ∧ st = V.states B.name := by
  obtain ⟨p, hp, rfl⟩ := List.mem_map.1 hst
  obtain ⟨B, hB, hn, _⟩ := (h.cfg.preds c hc).2 p hp
  exact ⟨B, hB, by rw [hn]; exact hp, by rw [hn]⟩

/-- The merged state of a block that is not the entry: either there is one predecessor, or the block is a join. -/
theorem merge_cases {F : Func} {V : Visitor} (h : Shape F V) {c : LBlk} (hc : c ∈ F.blocks) (hcp : c.preds ≠ [])
    {pend : List Expr} {m : St} (hm : mergeStates pend (c.preds.map V.states) = some m) :
    (∃ B ∈ F.blocks, c.preds = [B.name] ∧
      m = { precond := pend ++ (V.states B.name).precond, prim := (V.states B.name).prim, ptr := (V.states B.name).ptr }) ∨
    (2 ≤ c.preds.length ∧ m.precond = mergePrecond pend (c.preds.map V.states) ∧
      mergeMaps ((c.preds.map V.states).map fun p => (p.prim, p.precond)) = some m.prim ∧
      mergeMaps ((c.preds.map V.states).map fun p => (p.ptr, p.precond)) = some m.ptr) := by
  cases hp : c.preds with
  | nil => exact absurd hp hcp
  | cons p ps =>
    cases ps with
    | nil =>
      left
      obtain ⟨B, hB, hn, _⟩ := (h.cfg.preds c hc).2 p (by simp [hp])
      rw [hp] at hm
      simp only [List.map_cons, List.map_nil, mergeStates, Option.some.injEq] at hm
      exact ⟨B, hB, by rw [hn], by rw [← hm, hn]⟩
    | cons q ps =>
      right
      rw [hp] at hm
      simp only [List.map_cons, mergeStates, Option.bind_eq_bind, Option.bind_eq_some_iff, Option.some.injEq] at hm
      obtain ⟨prim, h1, ptr, h2, rfl⟩ := hm
      exact ⟨by simp, rfl, h1, h2⟩

theorem Shape.nonemptyMap {F : Func} {V : Visitor} (h : Shape F V) {c : LBlk} (hc : c ∈ F.blocks)
    (h2 : 2 ≤ c.preds.length) : ∀ st ∈ c.preds.map V.states, st.precond ≠ [] := by
  intro st hst
  obtain ⟨p, hp, rfl⟩ := List.mem_map.1 hst
  exact h.nonempty c hc h2 p hp

theorem Shape.litsMap {F : Func} {V : Visitor} (h : Shape F V) {c : LBlk} (hc : c ∈ F.blocks) :
    ∀ st ∈ c.preds.map V.states, st.NoBoolConst := by
  intro st hst
  obtain ⟨B, hB, _, rfl⟩ := h.mapStates hc hst
  exact h.lits B hB

/-- If the merged precondition is true, so is the precondition of a predecessor. -/
theorem merge_back {F : Func} {V : Visitor} (h : Shape F V) {c : LBlk} (hc : c ∈ F.blocks) (hcp : c.preds ≠ [])
    {pend : List Expr} {m : St} (hm : mergeStates pend (c.preds.map V.states) = some m) {I : Interp} {ρ : Env}
    (hh : AllHold I ρ m.precond) :
    ∃ B ∈ F.blocks, B.name ∈ c.preds ∧ AllHold I ρ (V.states B.name).precond ∧
      (c.preds = [B.name] → AllHold I ρ pend) := by
  rcases merge_cases h hc hcp hm with ⟨B, hB, hp, rfl⟩ | ⟨h2, hpc, _, _⟩
  · rw [allHold_append] at hh
    exact ⟨B, hB, by rw [hp]; simp, hh.2, fun _ => hh.1⟩
  · rw [hpc, mergePrecond_iff (by simpa using hcp) (h.nonemptyMap hc h2) (fun st hst => (h.litsMap hc st hst).1)] at hh
    obtain ⟨st, hst, hh⟩ := hh
    obtain ⟨B, hB, hBp, rfl⟩ := h.mapStates hc hst
    refine ⟨B, hB, hBp, hh, fun he => ?_⟩
    rw [he] at h2; simp at h2

/-! ### At most one predecessor of a join is reached -/

/-- The edge taken under an assignment. -/
def Taken (F : Func) (V : Visitor) (I : Interp) (ρ : Env) (b c : LBlk) : Prop :=
  b ∈ F.blocks ∧ c ∈ F.blocks ∧ b.name ∈ c.preds ∧
    (b.term = .br c.name ∨ ∃ o t f x, b.term = .cbr o t f ∧ (V.states b.name).read o = some x ∧
      ((c.name = t ∧ holds I ρ x) ∨ (c.name = f ∧ ¬ holds I ρ x)))

theorem taken_unique {F : Func} (hC : Cfg F) {V : Visitor} {I : Interp} {ρ : Env} {b c c' : LBlk}
    (h : Taken F V I ρ b c) (h' : Taken F V I ρ b c') : c = c' := by
  obtain ⟨_, hc, _, h⟩ := h
  obtain ⟨_, hc', _, h'⟩ := h'
  apply hC.inj hc hc'
  rcases h with h | ⟨o, t, f, x, h1, h2, h3⟩ <;> rcases h' with h' | ⟨o', t', f', x', h1', h2', h3'⟩
  · rw [h] at h'; injection h'
  · rw [h] at h1'; cases h1'
  · rw [h'] at h1; cases h1
  · rw [h1] at h1'
    injection h1' with a1 a2 a3
    subst a1; subst a2; subst a3
    rw [h2] at h2'
    injection h2' with a4
    subst a4
    rcases h3 with ⟨e1, e2⟩ | ⟨e1, e2⟩ <;> rcases h3' with ⟨e1', e2'⟩ | ⟨e1', e2'⟩
    · rw [e1, e1']
    · exact absurd e2 e2'
    · exact absurd e2' e2
    · rw [e1, e1']

/-- `n` taken edges lead from `a` to `b`. -/
inductive Walk (F : Func) (V : Visitor) (I : Interp) (ρ : Env) : Nat → LBlk → LBlk → Prop where
  | zero (a : LBlk) : Walk F V I ρ 0 a a
  | succ {n : Nat} {a b c : LBlk} : Walk F V I ρ n a b → Taken F V I ρ b c → Walk F V I ρ (n + 1) a c

theorem walk_split {F : Func} (hC : Cfg F) {V : Visitor} {I : Interp} {ρ : Env} {e a : LBlk} {n : Nat}
    (ha : Walk F V I ρ n e a) : ∀ {k : Nat} {b : LBlk}, Walk F V I ρ (n + k) e b → Walk F V I ρ k a b := by
  have uniq : ∀ {n : Nat} {a b : LBlk}, Walk F V I ρ n e a → Walk F V I ρ n e b → a = b := by
    intro n
    induction n with
    | zero => intro a b h1 h2; cases h1; cases h2; rfl
    | succ n ih =>
      intro a b h1 h2
      cases h1 with
      | succ h1 t1 =>
        cases h2 with
        | succ h2 t2 =>
          have := ih h1 h2
          subst this
          exact taken_unique hC t1 t2
  intro k
  induction k with
  | zero =>
    intro b h
    rw [uniq ha h]; exact .zero _
  | succ k ih =>
    intro b h
    cases h with
    | succ h t => exact .succ (ih h) t

theorem walk_first {F : Func} {V : Visitor} {I : Interp} {ρ : Env} : ∀ {n : Nat} {a b : LBlk},
    Walk F V I ρ (n + 1) a b → ∃ c, Taken F V I ρ a c ∧ Walk F V I ρ n c b := by
  intro n
  induction n with
  | zero =>
    intro a b h
    cases h with
    | succ h t => cases h; exact ⟨b, t, .zero b⟩
  | succ n ih =>
    intro a b h
    cases h with
    | succ h t =>
      obtain ⟨c, h1, h2⟩ := ih h
      exact ⟨c, h1, .succ h2 t⟩

theorem walk_rank {F : Func} {V : Visitor} {I : Interp} {ρ : Env} {rank : String → Nat}
    (hr : ∀ b ∈ F.blocks, ∀ p ∈ b.preds, rank p < rank b.name) : ∀ {n : Nat} {a b : LBlk},
    Walk F V I ρ n a b → rank a.name ≤ rank b.name := by
  intro n a b h
  induction h with
  | zero => exact Nat.le_refl _
  | succ _ t ih => exact Nat.le_trans ih (Nat.le_of_lt (hr _ t.2.1 _ t.2.2.1))

/-- The states satisfy their equations, in an order in which predecessors come first. -/
structure Solved (F : Func) (posts : List Expr) (V : Visitor) (rank : String → Nat) : Prop where
  shape : Shape F V
  rank : ∀ b ∈ F.blocks, ∀ p ∈ b.preds, rank p < rank b.name
  eqn : ∀ b ∈ F.blocks, ∃ pend st1 st2, Eqn F posts V b pend st1 st2

/-- The merged state behind the start state of a block that is not the entry. -/
theorem Solved.merged {F posts V rank} (h : Solved F posts V rank) {b : LBlk} (hbp : b.preds ≠ [])
    {pend st1 st2} (he : Eqn F posts V b pend st1 st2) :
    ∃ m, mergeStates pend (b.preds.map V.states) = some m ∧
      ((∀ L ∈ F.loops, L.header ≠ b.name) ∧ st1 = m ∨
        ∃ L ∈ F.loops, L.header = b.name ∧ F.enterLoop m L = some st1) := by
  by_cases hh : ∃ L ∈ F.loops, L.header = b.name
  · obtain ⟨L, hL, hLb⟩ := hh
    have hs := h.shape.loops L hL
    obtain ⟨m, h1, h2⟩ := startBlock_header hbp h.shape.loopsNodup hL hLb
      (fun L' h' hn => hs.unique L' h' (by rw [hn]; exact hs.inside.1)) he.start
    exact ⟨m, h1, .inr ⟨L, hL, hLb, h2⟩⟩
  · have hnh : ∀ L ∈ F.loops, L.header ≠ b.name := fun L hL hn => hh ⟨L, hL, hn⟩
    exact ⟨st1, startBlock_plain hbp hnh he.start, .inl ⟨hnh, rfl⟩⟩

theorem havocSt_fields (F : Func) (L : Loop) (st : St) :
    (F.havocSt L st).precond = st.precond ∧ (F.havocSt L st).prim = st.prim ∧
    ∀ x, (F.havocSt L st).ptr.read x = if x ∈ F.havocs L then some (.var x (F.ty x)) else st.ptr.read x := by
  unfold Func.havocSt
  generalize F.havocs L = hs
  induction hs generalizing st with
  | nil => simp
  | cons y ys ih =>
    rw [List.foldl_cons]
    obtain ⟨h1, h2, h3⟩ := ih (st.store y (.var y (F.ty y)))
    refine ⟨by rw [h1]; rfl, by rw [h2]; rfl, ?_⟩
    intro x
    rw [h3 x]
    simp only [St.store, read_write, List.mem_cons]
    by_cases hx : x ∈ ys
    · simp [hx]
    · by_cases hxy : x = y
      · simp [hxy]
      · simp [hx, hxy]

theorem enterLoop_fields {F : Func} {L : Loop} {m st1 : St} (h : F.enterLoop m L = some st1) :
    ∃ e, L.call (F.havocSt L m) = some e ∧ st1.precond = m.precond ++ [e] ∧ st1.prim = m.prim ∧
      st1.ptr = (F.havocSt L m).ptr := by
  simp only [Func.enterLoop, Option.bind_eq_bind, Option.bind_eq_some_iff, Option.some.injEq] at h
  obtain ⟨e, he, rfl⟩ := h
  obtain ⟨h1, h2, _⟩ := havocSt_fields F L m
  exact ⟨e, he, by rw [h1], h2, rfl⟩

/-- If the preconditions of a block are true, the block lies on the path taken from the entry. -/
theorem sat_walk {F posts V rank} (h : Solved F posts V rank) {I : Interp} {ρ : Env} {ent : LBlk}
    (hent : ent ∈ F.blocks) (hentp : ent.preds = []) :
    ∀ (k : Nat) (b : LBlk), b ∈ F.blocks → rank b.name < k → AllHold I ρ (V.states b.name).precond →
      ∃ n, Walk F V I ρ n ent b := by
  intro k
  induction k with
  | zero => intro b _ hk; omega
  | succ k ih =>
    intro b hb hk hsat
    obtain ⟨pend, st1, st2, he⟩ := h.eqn b hb
    by_cases hbp : b.preds = []
    · rw [h.shape.cfg.entry_unique hb hent hbp hentp]
      exact ⟨0, .zero _⟩
    · obtain ⟨m, hm, hor⟩ := h.merged hbp he
      rw [he.precond'] at hsat
      have hmsat : AllHold I ρ m.precond := by
        rcases hor with ⟨_, rfl⟩ | ⟨L, _, _, hen⟩
        · exact hsat
        · obtain ⟨e, _, hp, _⟩ := enterLoop_fields hen
          rw [hp, allHold_append] at hsat
          exact hsat.1
      obtain ⟨B, hB, hBp, hBsat, hpend⟩ := merge_back h.shape hb hbp hm hmsat
      obtain ⟨n, hw⟩ := ih B hB (by have := h.rank b hb _ hBp; omega) hBsat
      refine ⟨n + 1, .succ hw ⟨hB, hb, hBp, ?_⟩⟩
      obtain ⟨B', hB', hn', htg⟩ := (h.shape.cfg.preds b hb).2 _ hBp
      have := h.shape.cfg.inj hB' hB hn'
      subst this
      cases ht : B'.term with
      | br t =>
        left; rw [ht] at htg
        simp only [Term.targets, Option.getD_some, List.mem_singleton] at htg
        rw [htg]
      | cbr o t f =>
        right
        obtain ⟨x, hx, h1, h2⟩ := he.pendComplete B' hB o t f ht
        rw [ht] at htg
        simp only [Term.targets, Option.getD_some, List.mem_cons, List.not_mem_nil, or_false] at htg
        have hps : AllHold I ρ pend := hpend ((h.shape.cfg.cond B' hB o t f ht).2 b hb (Or.comm.1 htg))
        refine ⟨o, t, f, x, rfl, hx, ?_⟩
        rcases htg with hf | ht'
        · right
          refine ⟨hf, ?_⟩
          have := hps _ (h2 hf)
          simp only [holds, mkNot, eval, evals, evalOp, Val.asBool_bool] at this
          intro hc
          unfold holds at hc
          rw [hc] at this; cases this
        · exact .inl ⟨ht', hps _ (h1 ht')⟩
      | switch o d l =>
        obtain ⟨_, _, _, heB⟩ := h.eqn B' hB
        exact absurd ht (heB.noSwitch o d l)
      | ret o => rw [ht] at htg; simp [Term.targets] at htg
      | other o => rw [ht] at htg; simp [Term.targets] at htg

/-- Under one assignment at most one predecessor of a join has true preconditions. -/
theorem exclusive {F posts V rank} (h : Solved F posts V rank) {I : Interp} {ρ : Env} {j a b : LBlk}
    (hj : j ∈ F.blocks) (h2 : 2 ≤ j.preds.length) (ha : a ∈ F.blocks) (hb : b ∈ F.blocks)
    (haj : a.name ∈ j.preds) (hbj : b.name ∈ j.preds)
    (hsa : AllHold I ρ (V.states a.name).precond) (hsb : AllHold I ρ (V.states b.name).precond) : a = b := by
  obtain ⟨ent, rest, hbl, hentp, _⟩ := h.shape.cfg.entry
  have hent : ent ∈ F.blocks := by rw [hbl]; simp
  have main : ∀ (a b : LBlk), a ∈ F.blocks → b ∈ F.blocks → a.name ∈ j.preds → b.name ∈ j.preds →
      ∀ n k, Walk F V I ρ n ent a → Walk F V I ρ (n + k) ent b → a = b := by
    intro a b ha hb haj hbj n k hwa hwb
    have hw := walk_split h.shape.cfg hwa hwb
    cases k with
    | zero => cases hw; rfl
    | succ k =>
      exfalso
      obtain ⟨c, htk, hw'⟩ := walk_first hw
      have hcj : c = j := by
        refine h.shape.cfg.inj htk.2.1 hj ?_
        obtain ⟨B', hB', hn', htg⟩ := (h.shape.cfg.preds j hj).2 _ haj
        have := h.shape.cfg.inj hB' ha hn'
        subst this
        rcases htk.2.2.2 with hbr | ⟨o, t, f, x, hcb, _⟩
        · rw [hbr] at htg
          simp only [Term.targets, Option.getD_some, List.mem_singleton] at htg
          exact htg.symm
        · exfalso
          rw [hcb] at htg
          simp only [Term.targets, Option.getD_some, List.mem_cons, List.not_mem_nil, or_false] at htg
          have := (h.shape.cfg.cond B' hB' o t f hcb).2 j hj (Or.comm.1 htg)
          rw [this] at h2; simp at h2
      subst hcj
      have h3 := walk_rank h.rank hw'
      have h4 := h.rank c hj _ hbj
      omega
  obtain ⟨n, hwa⟩ := sat_walk h hent hentp _ a ha (Nat.lt_succ_self _) hsa
  obtain ⟨m, hwb⟩ := sat_walk h hent hentp _ b hb (Nat.lt_succ_self _) hsb
  rcases Nat.le_total n m with hle | hle
  · obtain ⟨k, rfl⟩ := Nat.exists_eq_add_of_le hle
    exact main a b ha hb haj hbj n k hwa hwb
  · obtain ⟨k, rfl⟩ := Nat.exists_eq_add_of_le hle
    exact (main b a hb ha hbj haj m k hwb hwa).symm

end Metalift.Ll
