import Verif.LlvmSim
/-
A decision procedure for the assumptions of the soundness theorem, so that they can be checked for a given function by
computation.
-/
namespace Metalift.Ll

theorem read_mem {vs : SymVars} {x : String} {e : Expr} (h : vs.read x = some e) : (x, e) ∈ vs := by
  unfold SymVars.read at h
  obtain ⟨l₁, l₂, h, _⟩ := List.lookup_eq_some_iff.1 h
  rw [h]; simp

def onlyIntB (e : Expr) : Bool := e.litTys.all (fun t => decide (t = .int))

theorem onlyIntB_iff {e : Expr} : onlyIntB e = true ↔ e.OnlyInt := by
  simp [onlyIntB, Expr.OnlyInt]

def St.noBoolB (st : St) : Bool :=
  st.precond.all onlyIntB && st.prim.all (fun p => onlyIntB p.2) && st.ptr.all (fun p => onlyIntB p.2)

theorem St.noBoolB_sound {st : St} (h : st.noBoolB = true) : st.NoBoolConst := by
  simp only [St.noBoolB, Bool.and_eq_true, List.all_eq_true, onlyIntB_iff] at h
  exact ⟨h.1.1, fun x e he => h.1.2 _ (read_mem he), fun x e he => h.2 _ (read_mem he)⟩

def Scope.hasB (sc : Scope) : Opd → Bool
  | .reg n => sc.regs.contains n
  | .ptr n => sc.cells.contains n
  | _ => true

theorem Scope.hasB_sound {sc : Scope} {o : Opd} (h : sc.hasB o = true) : sc.has o := by
  cases o <;> simp [Scope.hasB, Scope.has] at h ⊢ <;> exact h

def Inst.readyB (sc : Scope) : Inst → Bool
  | .alloca _ _ => true
  | .load _ _ p => sc.cells.contains p
  | .store v _ => sc.hasB v
  | .bin _ _ _ a b => sc.hasB a && sc.hasB b
  | .icmp _ _ a b => sc.hasB a && sc.hasB b
  | .cast _ _ a => sc.hasB a
  | .call _ _ _ _ args => args.all sc.hasB
  | .vector p _ => sc.cells.contains p
  | .pushBack p v => sc.cells.contains p && sc.hasB v
  | .other _ => true

theorem Inst.readyB_sound {sc : Scope} {i : Inst} (h : i.readyB sc = true) : i.ready sc := by
  cases i <;> simp only [Inst.readyB, Inst.ready, Bool.and_eq_true, List.all_eq_true, List.contains_iff_mem] at h ⊢
  case store => exact Scope.hasB_sound h
  case bin => exact ⟨Scope.hasB_sound h.1, Scope.hasB_sound h.2⟩
  case icmp => exact ⟨Scope.hasB_sound h.1, Scope.hasB_sound h.2⟩
  case cast => exact Scope.hasB_sound h
  case call => exact fun a ha => Scope.hasB_sound (h a ha)
  case load => exact h
  case vector => exact h
  case pushBack => exact ⟨h.1, Scope.hasB_sound h.2⟩

def readyAllB : Scope → List Inst → Bool
  | _, [] => true
  | sc, i :: is => i.readyB sc && readyAllB (sc.after i) is

theorem readyAllB_sound : ∀ {is : List Inst} {sc : Scope}, readyAllB sc is = true → readyAll sc is
  | [], _, _ => trivial
  | i :: is, sc, h => by
    simp only [readyAllB, Bool.and_eq_true] at h
    exact ⟨Inst.readyB_sound h.1, readyAllB_sound h.2⟩

/-- Checks `Cfg`. -/
def Func.cfgB (F : Func) : Bool :=
  decide (F.blocks.map Blk.name).Nodup &&
  (match F.blocks with
    | [] => false
    | b :: rest => b.preds.isEmpty && rest.all (fun c => !c.preds.isEmpty)) &&
  F.blocks.all (fun c => decide c.preds.Nodup &&
    c.preds.all (fun p => F.blocks.any (fun B => decide (B.name = p) && (B.term.targets.getD []).contains c.name))) &&
  F.blocks.all (fun B => F.blocks.all (fun c => !(B.term.targets.getD []).contains c.name || c.preds.contains B.name ||
    F.loops.any (fun L => decide (L.header = c.name) && L.latches.contains B.name))) &&
  F.blocks.all (fun B => match B.term with
    | .cbr _ t f => decide (t ≠ f) &&
      F.blocks.all (fun C => !(decide (C.name = t) || decide (C.name = f)) || decide (C.preds = [B.name]))
    | _ => true)

theorem Func.cfgB_sound {F : Func} (h : F.cfgB = true) : Cfg F := by
  simp only [Func.cfgB, Bool.and_eq_true, List.all_eq_true, decide_eq_true_eq, List.any_eq_true, Bool.or_eq_true,
    Bool.not_eq_true', List.contains_iff_mem] at h
  obtain ⟨⟨⟨⟨h1, h2⟩, h3⟩, h4⟩, h5⟩ := h
  refine ⟨h1, ?_, ?_, ?_, ?_⟩
  · cases hb : F.blocks with
    | nil => rw [hb] at h2; cases h2
    | cons b rest =>
      rw [hb] at h2
      simp only [Bool.and_eq_true, List.all_eq_true, Bool.not_eq_true'] at h2
      exact ⟨b, rest, rfl, List.isEmpty_iff.1 h2.1, fun c hc he => by have := h2.2 c hc; rw [he] at this; cases this⟩
  · intro c hc
    exact ⟨(h3 c hc).1, (h3 c hc).2⟩
  · intro B hB c hc hm
    rcases h4 B hB c hc with (h | h) | h
    · rw [← Bool.not_eq_true, List.contains_iff_mem] at h
      exact absurd hm h
    · exact .inl h
    · exact .inr h
  · intro B hB c t f ht
    have := h5 B hB
    rw [ht] at this
    simp only [Bool.and_eq_true, List.all_eq_true, decide_eq_true_eq, Bool.or_eq_true, Bool.not_eq_true',
      Bool.or_eq_false_iff, decide_eq_false_iff_not] at this
    refine ⟨this.1, fun C hC hor => ?_⟩
    rcases this.2 C hC with h | h
    · rcases hor with h' | h'
      · exact absurd h' h.1
      · exact absurd h' h.2
    · exact h

/-- Checks `LoopShape`. -/
def Func.loopB (F : Func) (L : Loop) : Bool :=
  F.blocks.any (fun h => decide (h.name = L.header) && !h.preds.isEmpty) &&
  L.blocks.contains L.header && L.latches.all L.blocks.contains &&
  F.blocks.all (fun b => !L.blocks.contains b.name || decide (b.name = L.header) ||
    (!b.preds.isEmpty && b.preds.all L.blocks.contains)) &&
  F.blocks.all (fun B => match B.term with
    | .cbr _ t f => decide (t ≠ L.header) && decide (f ≠ L.header)
    | _ => true)

/-- The headers of the loops are different, and no loop contains the header of another loop. -/
def loopsApart : List Loop → Bool
  | [] => true
  | L :: Ls => Ls.all (fun L' => !L.blocks.contains L'.header && !L'.blocks.contains L.header) && loopsApart Ls

theorem loopsApart_sound : ∀ {Ls : List Loop}, loopsApart Ls = true → (∀ L ∈ Ls, L.header ∈ L.blocks) →
    Ls.Nodup ∧ ∀ L ∈ Ls, ∀ L' ∈ Ls, L'.header ∈ L.blocks → L' = L
  | [], _, _ => by simp
  | L :: Ls, h, hin => by
    simp only [loopsApart, Bool.and_eq_true, List.all_eq_true, Bool.not_eq_true'] at h
    obtain ⟨h1, h2⟩ := h
    obtain ⟨i1, i2⟩ := loopsApart_sound h2 fun M hM => hin M (by simp [hM])
    have n1 : ∀ M ∈ Ls, M.header ∉ L.blocks := fun M hM hm => by
      have := (h1 M hM).1; rw [← Bool.not_eq_true, List.contains_iff_mem] at this; exact this hm
    have n2 : ∀ M ∈ Ls, L.header ∉ M.blocks := fun M hM hm => by
      have := (h1 M hM).2; rw [← Bool.not_eq_true, List.contains_iff_mem] at this; exact this hm
    refine ⟨List.nodup_cons.2 ⟨fun hm => n1 L hm (hin L (by simp)), i1⟩, ?_⟩
    intro M hM M' hM' hm
    rcases List.mem_cons.1 hM with e | hM
    · rcases List.mem_cons.1 hM' with e' | hM'
      · rw [e, e']
      · rw [e] at hm; exact absurd hm (n1 M' hM')
    · rcases List.mem_cons.1 hM' with e' | hM'
      · rw [e'] at hm; exact absurd hm (n2 M hM)
      · exact i2 M hM M' hM' hm

/-- Checks `Shape`. -/
def Func.shapeB (F : Func) (V : Visitor) : Bool :=
  F.cfgB && F.blocks.all (fun b => (V.states b.name).processed) && loopsApart F.loops && F.loops.all F.loopB &&
  F.blocks.all (fun b => !decide (2 ≤ b.preds.length) || b.preds.all (fun p => !(V.states p).precond.isEmpty)) &&
  F.blocks.all (fun b => (V.states b.name).noBoolB)

theorem Func.shapeB_sound {F : Func} {V : Visitor} (h : F.shapeB V = true) : Shape F V := by
  simp only [Func.shapeB, Bool.and_eq_true, List.all_eq_true, Bool.or_eq_true, Bool.not_eq_true'] at h
  obtain ⟨⟨⟨⟨⟨h1, h2⟩, h3⟩, h4⟩, h5⟩, h6⟩ := h
  have hl : ∀ L ∈ F.loops, _ := h4
  simp only [Func.loopB, Bool.and_eq_true, List.all_eq_true, List.any_eq_true, Bool.or_eq_true, Bool.not_eq_true',
    decide_eq_true_eq, List.contains_iff_mem] at hl
  obtain ⟨a1, a2⟩ := loopsApart_sound h3 fun L hL => (hl L hL).1.1.1.2
  refine ⟨cfgB_sound h1, h2, a1, ?_, ?_, fun b hb => St.noBoolB_sound (h6 b hb)⟩
  · intro L hL
    obtain ⟨⟨⟨⟨l1, l2⟩, l3⟩, l4⟩, l5⟩ := hl L hL
    refine ⟨?_, ⟨l2, l3⟩, a2 L hL, ?_, ?_⟩
    · obtain ⟨hd, hhd, hn, hp⟩ := l1
      exact ⟨hd, hhd, hn, fun he => by rw [he] at hp; cases hp⟩
    · intro b hb hbL hne
      rcases l4 b hb with (h | h) | h
      · rw [← Bool.not_eq_true, List.contains_iff_mem] at h; exact absurd hbL h
      · exact absurd h hne
      · refine ⟨fun he => ?_, h.2⟩
        have := h.1; rw [he] at this; cases this
    · intro B hB c t f ht
      have := l5 B hB
      rw [ht] at this
      simpa using this
  · intro b hb h2' p hp he
    rcases h5 b hb with h | h
    · simp at h; omega
    · have := h p hp; rw [he] at this; cases this

def isVarB (x : String) : Option Expr → Bool
  | some (.var y _) => decide (y = x)
  | _ => false

theorem isVarB_sound {x : String} {o : Option Expr} (h : isVarB x o = true) : ∃ t, o = some (.var x t) := by
  cases o with
  | none => cases h
  | some e =>
    cases e <;> simp [isVarB] at h
    next y t => exact ⟨t, by rw [h]⟩

/-- Checks `LoopGuard`. -/
def Func.loopGuardB (F : Func) (V : Visitor) (scope : String → Scope) (L : Loop) (h : LBlk) : Bool :=
  h.preds.all (fun p => F.blocks.all (fun b => !L.blocks.contains b.name ||
    ((b.insts.flatMap Inst.regWrites).all (fun x => ((V.states p).prim.read x).isNone) &&
     (b.insts.flatMap Inst.cellDefs).all (fun x => ((V.states p).ptr.read x).isNone)))) &&
  h.preds.all (fun p => (F.havocs L).all (fun x => (V.states p).precond.all (fun c => !c.vars.contains x) &&
    (V.states p).prim.all (fun q => !q.2.vars.contains x) &&
    (V.states p).ptr.all (fun q => (F.havocs L).contains q.1 || !q.2.vars.contains x))) &&
  (F.havocs L).all (fun x => (scope h.name).cells.contains x && !F.args.contains x)

theorem not_contains {l : List String} {x : String} (h : l.contains x = false) : x ∉ l := by
  rwa [← Bool.not_eq_true, List.contains_iff_mem] at h

theorem Func.loopGuardB_sound {F : Func} {V : Visitor} {scope : String → Scope} {L : Loop} {h : LBlk}
    (hb : F.loopGuardB V scope L h = true) : LoopGuard F V scope L h := by
  simp only [Func.loopGuardB, Bool.and_eq_true, List.all_eq_true, Bool.or_eq_true, Bool.not_eq_true',
    List.contains_iff_mem, Option.isNone_iff_eq_none] at hb
  obtain ⟨⟨h1, h2⟩, h3⟩ := hb
  refine ⟨?_, ?_, ?_, fun x hx => (h3 x hx).1, fun x hx => not_contains (h3 x hx).2⟩
  · intro p hp b hb hbL x hx
    rcases h1 p hp b hb with h | h
    · exact absurd hbL (not_contains h)
    · exact h.1 x hx
  · intro p hp b hb hbL x hx
    rcases h1 p hp b hb with h | h
    · exact absurd hbL (not_contains h)
    · exact h.2 x hx
  · intro p hp x hx
    obtain ⟨⟨a, b⟩, c⟩ := h2 p hp x hx
    refine ⟨fun e he => not_contains (a e he), fun y e he => not_contains (b _ (read_mem he)), fun y e hy he => ?_⟩
    rcases c _ (read_mem he) with h | h
    · exact absurd h hy
    · exact not_contains h

/-- Checks `Flow` except that instructions are exact. -/
def Func.flowB (F : Func) (V : Visitor) (scope : String → Scope) : Bool :=
  F.blocks.all (fun b => F.blocks.all (fun c => (V.states b.name).prim.all (fun p => ((V.states c.name).ptr.read p.1).isNone))) &&
  F.blocks.all (fun b => readyAllB (scope b.name) b.insts) &&
  F.blocks.all (fun b => !b.preds.isEmpty ||
    ((scope b.name).regs.all (fun x => F.args.contains x && !isPointer (F.ty x)) &&
     (scope b.name).cells.all (fun x => (F.args.contains x && isPointer (F.ty x)) || decide (F.sret = some x)))) &&
  F.blocks.all (fun b => F.blocks.all (fun c => !(b.term.targets.getD []).contains c.name ||
    ((scope c.name).regs.all ((scope b.name).afterAll b.insts).regs.contains &&
     (scope c.name).cells.all ((scope b.name).afterAll b.insts).cells.contains))) &&
  F.blocks.all (fun b => match b.term with
    | .cbr c _ _ => ((scope b.name).afterAll b.insts).hasB c
    | .ret (some o) => ((scope b.name).afterAll b.insts).hasB o
    | .ret none => (match F.sret with
      | some x => ((scope b.name).afterAll b.insts).cells.contains x && isVarB x ((V.states b.name).ptr.read x)
      | none => true)
    | _ => true) &&
  F.loops.all (fun L => F.blocks.all (fun h => !decide (h.name = L.header) || F.loopGuardB V scope L h))

theorem Func.flowB_sound [LlOps] {F : Func} {V : Visitor} {scope : String → Scope} (h : F.flowB V scope = true) {I : Interp}
    (hex : ∀ b ∈ F.blocks, ∀ i ∈ b.insts, i.exact I) : Flow F V I scope := by
  simp only [Func.flowB, Bool.and_eq_true, List.all_eq_true, Bool.or_eq_true, Bool.not_eq_true',
    List.contains_iff_mem, Option.isNone_iff_eq_none, decide_eq_true_eq, decide_eq_false_iff_not] at h
  obtain ⟨⟨⟨⟨⟨h1, h2⟩, h3⟩, h4⟩, h5⟩, h6⟩ := h
  refine ⟨fun b hb c hc x e he => h1 b hb c hc _ (read_mem he), hex, fun b hb => readyAllB_sound (h2 b hb), ?_, ?_, ?_, ?_, ?_, ?_⟩
  · intro b hb hbp
    rcases h3 b hb with h | h
    · rw [hbp] at h; cases h
    · exact ⟨h.1, h.2⟩
  · intro b hb c hc hm
    rcases h4 b hb c hc with h | h
    · exact absurd hm (not_contains h)
    · exact h
  · intro b hb c t f ht
    have := h5 b hb
    rw [ht] at this
    exact Scope.hasB_sound this
  · intro b hb o ht
    have := h5 b hb
    rw [ht] at this
    exact Scope.hasB_sound this
  · intro b hb ht x hx
    have := h5 b hb
    rw [ht, hx] at this
    simp only [Bool.and_eq_true, List.contains_iff_mem] at this
    exact ⟨this.1, isVarB_sound this.2⟩
  · intro L hL hd hhd hn
    rcases h6 L hL hd hhd with h | h
    · exact absurd hn h
    · exact loopGuardB_sound h

/-- The function is one of those for which soundness is proved: the graph is reducible without nested loops, and so on (see
`Shape`, `Flow`). -/
def Func.supported (F : Func) (posts : List Expr) (scope : String → Scope) : Bool :=
  match F.call posts with
  | none => false
  | some V => F.shapeB V && F.flowB V scope && (F.asserts V).all onlyIntB

end Metalift.Ll
