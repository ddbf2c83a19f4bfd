import Verif.LlvmCfg
import Mathlib.Data.List.Nodup
import Mathlib.Data.List.Count
/-
C40: predecessors and successors computed by `setupBlocks` are those of the control-flow graph.
C39: the pass that adds empty blocks.
-/
namespace Metalift.Ll

variable {α β : Type}

/-! ### Specification of C40 -/

/-- The edges out of a block, as a list of targets (with repetitions): what the last instruction says. -/
def RawBlk.targets (b : RawBlk α β) : List String := b.term.targets.getD []

/-- The function ends every block with a branch, a switch or a return, the names of the blocks are
distinct, and every target is a block. -/
structure WellFormed (blks : List (RawBlk α β)) : Prop where
  names : (blks.map RawBlk.name).Nodup
  ends : ∀ b ∈ blks, b.term.targets ≠ none
  closed : ∀ b ∈ blks, ∀ t ∈ b.targets, ∃ c ∈ blks, c.name = t

/-! ### Lemmas -/

theorem blkDict_new : ∀ (d : List (Blk α β)) (b : Blk α β), b.name ∉ d.map Blk.name → blkDict d b = d ++ [b]
  | [], b, _ => rfl
  | c :: cs, b, h => by
    simp only [List.map_cons, List.mem_cons, not_or] at h
    rw [blkDict, if_neg (fun e => h.1 e.symm), blkDict_new cs b h.2]
    rfl

/-- Block without edges. -/
def toBlk (b : RawBlk α β) : Blk α β := ⟨b.name, b.insts, b.term, [], []⟩

theorem dict_distinct : ∀ (blks : List (RawBlk α β)) (d : List (Blk α β)),
    (d.map Blk.name ++ blks.map RawBlk.name).Nodup →
    blks.foldl (fun d b => blkDict d (toBlk b)) d = d ++ blks.map toBlk
  | [], d, _ => by simp
  | b :: bs, d, h => by
    have hb : b.name ∉ d.map Blk.name := by
      intro hm
      rw [List.map_cons, List.nodup_append] at h
      exact h.2.2 _ hm _ (by simp) rfl
    rw [List.foldl_cons, blkDict_new d (toBlk b) (by simpa [toBlk] using hb), dict_distinct bs]
    · simp
    · simpa [toBlk] using h

/-- A state of the loop: every block with the given lists. -/
def withEdges (s p : String → List String) (blks : List (RawBlk α β)) : List (Blk α β) :=
  blks.map (fun b => ⟨b.name, b.insts, b.term, s b.name, p b.name⟩)

theorem updBlk_withEdges {s p s' p' : String → List String} {n : String} {f : Blk α β → Blk α β}
    (hf : ∀ c : Blk α β, c.name = n → c.succs = s n → c.preds = p n →
      f c = ⟨c.name, c.insts, c.term, s' n, p' n⟩)
    (ho : ∀ m, m ≠ n → s' m = s m ∧ p' m = p m) : ∀ (blks : List (RawBlk α β)),
    (blks.map RawBlk.name).Nodup → n ∈ blks.map RawBlk.name →
    updBlk f n (withEdges s p blks) = some (withEdges s' p' blks)
  | [], _, h => by simp at h
  | b :: bs, hn, hm => by
    rw [List.map_cons, List.nodup_cons] at hn
    simp only [withEdges, List.map_cons, updBlk]
    by_cases hb : b.name = n
    · rw [if_pos hb, hf _ hb (by rw [← hb]) (by rw [← hb])]
      have : ∀ c ∈ bs, s' c.name = s c.name ∧ p' c.name = p c.name := by
        intro c hc
        apply ho
        rw [← hb]
        intro e
        exact hn.1 (List.mem_map.2 ⟨c, hc, e⟩)
      simp only [Option.some.injEq, List.cons.injEq, hb, true_and]
      exact List.map_congr_left (fun c hc => by rw [(this c hc).1, (this c hc).2])
    · rw [if_neg hb]
      have hm' : n ∈ bs.map RawBlk.name := by
        rw [List.map_cons] at hm
        rcases List.mem_cons.1 hm with h | h
        · exact absurd h.symm hb
        · exact h
      have ih := updBlk_withEdges hf ho bs hn.2 hm'
      simp only [withEdges] at ih
      rw [ih]
      simp [ho b.name hb]

/-- Predecessor lists after appending `b` for every target in `ts`. -/
def plus (p : String → List String) (b : String) (ts : List String) : String → List String :=
  fun m => p m ++ List.replicate (ts.count m) b

theorem addPreds_withEdges {s : String → List String} {n : String} {blks : List (RawBlk α β)}
    (hn : (blks.map RawBlk.name).Nodup) : ∀ (ts : List String) (p : String → List String),
    (∀ t ∈ ts, t ∈ blks.map RawBlk.name) →
    addPreds n ts (withEdges s p blks) = some (withEdges s (plus p n ts) blks)
  | [], p, _ => by simp [addPreds, withEdges, plus]
  | t :: ts, p, h => by
    have h1 := updBlk_withEdges (s := s) (p := p) (s' := s) (p' := plus p n [t]) (n := t) (f := addPred n)
      (fun c _ hs hp => by simp [addPred, hs, hp, plus])
      (fun m hm => by simp [plus, Ne.symm hm]) blks hn (h t (by simp))
    rw [addPreds, List.foldlM_cons]
    simp only [h1, Option.bind_eq_bind, Option.bind_some]
    have := addPreds_withEdges (s := s) (n := n) hn ts (plus p n [t]) (fun u hu => h u (by simp [hu]))
    rw [addPreds] at this
    rw [this]
    congr 2
    funext m
    simp only [plus, List.append_assoc, List.replicate_append_replicate, List.count_cons, List.count_nil]
    rw [Nat.zero_add, Nat.add_comm]

theorem find_withEdges {s p : String → List String} : ∀ {blks : List (RawBlk α β)} {b : RawBlk α β},
    (blks.map RawBlk.name).Nodup → b ∈ blks →
    (withEdges s p blks).find? (fun c => c.name = b.name) =
      some ⟨b.name, b.insts, b.term, s b.name, p b.name⟩
  | [], b, _, h => by simp at h
  | c :: cs, b, hn, hb => by
    rw [List.map_cons, List.nodup_cons] at hn
    simp only [withEdges, List.map_cons, List.find?_cons]
    rcases List.mem_cons.1 hb with rfl | hb
    · simp
    · have hne : c.name ≠ b.name := fun e => hn.1 (List.mem_map.2 ⟨b, hb, e.symm⟩)
      simp only [hne, decide_false]
      exact find_withEdges hn.2 hb

theorem setupOne_withEdges {s p : String → List String} {blks : List (RawBlk α β)} (hw : WellFormed blks)
    {b : RawBlk α β} (hb : b ∈ blks) :
    setupOne (withEdges s p blks) b.name = some (withEdges
      (fun m => if m = b.name then b.targets else s m) (plus p b.name b.targets) blks) := by
  obtain ⟨ts, hts⟩ := Option.ne_none_iff_exists'.1 (hw.ends b hb)
  have htg : b.targets = ts := by simp [RawBlk.targets, hts]
  have hcl : ∀ t ∈ ts, t ∈ blks.map RawBlk.name := by
    intro t ht
    obtain ⟨c, hc, e⟩ := hw.closed b hb t (htg ▸ ht)
    exact List.mem_map.2 ⟨c, hc, e⟩
  unfold setupOne
  simp only [find_withEdges hw.names hb, Option.bind_eq_bind, Option.bind_some, hts]
  rw [if_pos, updBlk_withEdges (s := s) (p := p) (s' := fun m => if m = b.name then ts else s m) (p' := p)
    (n := b.name) (fun c hc _ hp => by simp [hp]) (fun m hm => by simp [hm]) blks hw.names
    (List.mem_map.2 ⟨b, hb, rfl⟩), Option.bind_some, addPreds_withEdges hw.names ts p hcl, htg]
  simp only [List.all_eq_true, List.any_eq_true, decide_eq_true_eq]
  intro t ht
  obtain ⟨c, hc, e⟩ := List.mem_map.1 (hcl t ht)
  exact ⟨_, List.mem_map.2 ⟨c, hc, rfl⟩, e⟩

theorem setup_fold {blks : List (RawBlk α β)} (hw : WellFormed blks) : ∀ (bs : List (RawBlk α β))
    (s p : String → List String), (∀ b ∈ bs, b ∈ blks) →
    (bs.map RawBlk.name).foldlM setupOne (withEdges s p blks) = some (withEdges
      (fun m => (bs.reverse.find? (fun b => b.name = m)).elim (s m) RawBlk.targets)
      (fun m => p m ++ bs.flatMap (fun b => List.replicate (b.targets.count m) b.name)) blks)
  | [], s, p, _ => by simp
  | b :: bs, s, p, h => by
    rw [List.map_cons, List.foldlM_cons, setupOne_withEdges hw (h b (by simp))]
    simp only [Option.bind_eq_bind, Option.bind_some]
    rw [setup_fold hw bs _ _ (fun c hc => h c (by simp [hc]))]
    congr 2
    · funext m
      rw [List.reverse_cons, List.find?_append]
      cases hf : bs.reverse.find? (fun c => decide (c.name = m)) with
      | some c => simp
      | none =>
        by_cases hm : b.name = m
        · simp [hm]
        · simp [hm, Ne.symm hm]
    · funext m
      simp [plus]

/-! ### C40 -/

/-- C40: on a well-formed function the blocks are kept in order with their instructions, the
successors of a block are the targets of its last instruction in operand order, and the predecessors of a block
are listed in the order of the blocks, each as often as it branches to the block. -/
theorem C40_setup_blocks (blks : List (RawBlk α β)) (hw : WellFormed blks) :
    setupBlocks blks = some (blks.map fun b =>
      ⟨b.name, b.insts, b.term, b.targets,
        blks.flatMap fun c => List.replicate (c.targets.count b.name) c.name⟩) := by
  unfold setupBlocks
  have h0 : blks.foldl (fun d b => blkDict d ⟨b.name, b.insts, b.term, [], []⟩) [] =
      withEdges (fun _ => []) (fun _ => []) blks := by
    have := dict_distinct blks [] (by simpa using hw.names)
    rw [List.nil_append] at this
    exact this
  simp only [h0]
  have hnames : (withEdges (fun _ => []) (fun _ => []) blks : List (Blk α β)).map Blk.name = blks.map RawBlk.name := by
    simp [withEdges]
  rw [hnames, setup_fold hw blks _ _ (fun b hb => hb)]
  congr 1
  apply List.map_congr_left
  intro b hb
  congr 1
  have hn : (blks.reverse.map RawBlk.name).Nodup := by
    rw [List.map_reverse, List.nodup_reverse]; exact hw.names
  have hf : blks.reverse.find? (fun c => decide (c.name = b.name)) = some b := by
    have hm : b ∈ blks.reverse := List.mem_reverse.2 hb
    revert hn hm
    generalize blks.reverse = l
    intro hn hm
    induction l with
    | nil => simp at hm
    | cons c cs ih =>
      rw [List.map_cons, List.nodup_cons] at hn
      rcases List.mem_cons.1 hm with rfl | hm
      · simp
      · have hne : c.name ≠ b.name := fun e => hn.1 (List.mem_map.2 ⟨b, hm, e.symm⟩)
        rw [List.find?_cons]
        simp only [hne, decide_false]
        exact ih hn.2 hm
  show (blks.reverse.find? (fun c => decide (c.name = b.name))).elim [] RawBlk.targets = b.targets
  rw [hf]
  rfl

/-- C40, as a statement about edges: block `b` occurs among the predecessors of block `c` as often as `c` is a
target of `b`, which is how often `c` occurs among the successors of `b`; all lists contain only blocks. -/
theorem C40_edges (blks : List (RawBlk α β)) (hw : WellFormed blks) :
    ∃ bbs, setupBlocks blks = some bbs ∧
      bbs.map (fun b => (b.name, b.insts, b.term)) = blks.map (fun b => (b.name, b.insts, b.term)) ∧
      ∀ b ∈ bbs, ∀ c ∈ bbs, c.preds.count b.name = (b.term.targets.getD []).count c.name ∧
        b.succs.count c.name = (b.term.targets.getD []).count c.name ∧
        (∀ x ∈ c.preds, x ∈ blks.map RawBlk.name) ∧ ∀ x ∈ c.succs, x ∈ blks.map RawBlk.name := by
  refine ⟨_, C40_setup_blocks blks hw, by simp [Function.comp_def], ?_⟩
  intro b hb c hc
  simp only [List.mem_map] at hb hc
  obtain ⟨b, hb, rfl⟩ := hb
  obtain ⟨c, hc, rfl⟩ := hc
  refine ⟨?_, rfl, ?_, ?_⟩
  · have hn := hw.names
    show List.count b.name (blks.flatMap fun d => List.replicate (d.targets.count c.name) d.name) =
      b.targets.count c.name
    rw [List.count_flatMap]
    clear hw hc
    induction blks with
    | nil => simp at hb
    | cons d ds ih =>
      rw [List.map_cons, List.nodup_cons] at hn
      simp only [List.map_cons, List.sum_cons, Function.comp_apply, List.count_replicate]
      rcases List.mem_cons.1 hb with rfl | hb
      · have : ∀ l : List (RawBlk α β), b.name ∉ l.map RawBlk.name →
            (l.map (List.count b.name ∘ fun d => List.replicate (d.targets.count c.name) d.name)).sum = 0 := by
          intro l hl
          induction l with
          | nil => rfl
          | cons e es ih2 =>
            simp only [List.map_cons, List.mem_cons, not_or] at hl
            simp only [List.map_cons, List.sum_cons, Function.comp_apply, List.count_replicate]
            rw [ih2 hl.2]
            simp [Ne.symm hl.1]
        rw [this ds hn.1]
        simp
      · have hne : d.name ≠ b.name := fun e => hn.1 (List.mem_map.2 ⟨b, hb, e.symm⟩)
        have := ih hb hn.2
        simp only [Function.comp_def] at this
        simp [hne, this, Function.comp_def]
  · intro x hx
    simp only [List.mem_flatMap] at hx
    obtain ⟨d, hd, h2⟩ := hx
    rw [(List.mem_replicate.1 h2).2]
    exact List.mem_map.2 ⟨d, hd, rfl⟩
  · intro x hx
    obtain ⟨d, hd, e⟩ := hw.closed c hc x hx
    exact List.mem_map.2 ⟨d, hd, e⟩

/-- A diamond: `entry` branches to `a` and `b`, both branch to `c`. -/
def diamond : List (RawBlk Unit String) :=
  [⟨"entry", [()], .cbr "x" "a" "b"⟩, ⟨"a", [], .br "c"⟩, ⟨"b", [], .br "c"⟩, ⟨"c", [], .ret (some "y")⟩]

theorem diamond_wf : WellFormed diamond :=
  ⟨by decide, by
    intro b hb
    simp only [diamond, List.mem_cons, List.not_mem_nil, or_false] at hb
    rcases hb with rfl | rfl | rfl | rfl <;> simp [Term.targets], by
    intro b hb t ht
    simp only [diamond, List.mem_cons, List.not_mem_nil, or_false] at hb
    rcases hb with rfl | rfl | rfl | rfl <;> simp [RawBlk.targets, Term.targets] at ht <;>
      (try rcases ht with rfl | rfl) <;> simp_all [diamond]⟩

example : (setupBlocks diamond).map (fun l => l.map fun b => (b.name, b.succs, b.preds)) =
    some [("entry", ["b", "a"], []), ("a", ["c"], ["entry"]), ("b", ["c"], ["entry"]), ("c", [], ["a", "b"])] := by
  decide

/-- C40 does not hold for functions with other block ends: a block that ends with `unreachable` (or `invoke`,
`resume`, ...) makes the analysis fail although the graph is well defined. -/
theorem C40_unreachable_refuted :
    setupBlocks (α := Unit) (β := Unit) [⟨"entry", [], .other "unreachable"⟩] = none := by decide

/-- C40 does not hold for blocks with the same name (llvmlite reports `""` for every unnamed block): the later one
replaces the earlier one, and the target of the first block changes. -/
theorem C40_unnamed_blocks_refuted :
    (setupBlocks (α := Unit) (β := Unit) [⟨"entry", [], .br ""⟩, ⟨"", [], .br "x"⟩, ⟨"", [], .ret none⟩, ⟨"x", [], .ret none⟩]).map
      (fun l => l.map fun b => (b.name, b.succs, b.preds)) =
    some [("entry", [""], []), ("", [], ["entry"]), ("x", [], [])] := by decide

/-! ### Specification of C39 -/

/-- Choices made at the end of a block. -/
inductive Choice where
  | only
  | yes
  | no
  | case (i : Nat)
  deriving DecidableEq, Repr

/-- The block reached from a block end by a choice. -/
def Term.next : Term β → Choice → Option String
  | .br t, .only => some t
  | .cbr _ t _, .yes => some t
  | .cbr _ _ f, .no => some f
  | .switch _ d _, .case 0 => some d
  | .switch _ _ cs, .case (i + 1) => (cs[i]?).map Prod.snd
  | _, _ => none

/-- C40, the edges are the possible jumps: block `b` is a predecessor of `c`, and `c` a successor of `b`, exactly if
some choice at the end of `b` leads to `c`. -/
theorem C40_edges_are_jumps (blks : List (RawBlk α β)) (hw : WellFormed blks) :
    ∃ bbs, setupBlocks blks = some bbs ∧ ∀ b ∈ bbs, ∀ c ∈ bbs,
      (b.name ∈ c.preds ↔ ∃ ch, b.term.next ch = some c.name) ∧
      (c.name ∈ b.succs ↔ ∃ ch, b.term.next ch = some c.name) := by
  obtain ⟨bbs, h1, _, h2⟩ := C40_edges blks hw
  refine ⟨bbs, h1, fun b hb c hc => ?_⟩
  have key : c.name ∈ b.term.targets.getD [] ↔ ∃ ch, b.term.next ch = some c.name := by
    cases b.term with
    | br t =>
      refine ⟨fun h => ⟨.only, by simp_all [Term.targets, Term.next]⟩, fun ⟨ch, h⟩ => ?_⟩
      cases ch <;> simp_all [Term.targets, Term.next]
    | cbr o t f =>
      constructor
      · intro h
        simp only [Term.targets, Option.getD_some, List.mem_cons, List.not_mem_nil, or_false] at h
        rcases h with h | h
        · exact ⟨.no, by simp [Term.next, h]⟩
        · exact ⟨.yes, by simp [Term.next, h]⟩
      · rintro ⟨ch, h⟩
        cases ch <;> simp_all [Term.targets, Term.next]
    | switch o d cs =>
      constructor
      · intro h
        simp only [Term.targets, Option.getD_some, List.mem_cons, List.mem_map] at h
        rcases h with h | ⟨x, hx, h⟩
        · exact ⟨.case 0, by simp [Term.next, h]⟩
        · obtain ⟨i, hi⟩ := List.mem_iff_getElem?.1 hx
          exact ⟨.case (i + 1), by simp [Term.next, hi, h]⟩
      · rintro ⟨ch, h⟩
        simp only [Term.targets, Option.getD_some, List.mem_cons, List.mem_map]
        cases ch with
        | case i =>
          cases i with
          | zero => left; simpa [Term.next, eq_comm] using h
          | succ i =>
            right
            simp only [Term.next, Option.map_eq_some_iff] at h
            obtain ⟨x, hx, h⟩ := h
            exact ⟨x, List.mem_of_getElem? hx, h⟩
        | _ => simp [Term.next] at h
    | ret v => constructor
               · simp [Term.targets]
               · rintro ⟨ch, h⟩; cases ch <;> simp [Term.next] at h
    | other o => constructor
                 · simp [Term.targets]
                 · rintro ⟨ch, h⟩; cases ch <;> simp [Term.next] at h
  have := h2 b hb c hc
  constructor
  · rw [← key, ← List.count_pos_iff, this.1, List.count_pos_iff]
  · rw [← key, ← List.count_pos_iff, this.2.1, List.count_pos_iff]

/-- `Path G a cs b`: starting in block `a` and making the choices `cs` one arrives in block `b`. -/
inductive Path (G : List (RawBlk α β)) : String → List Choice → String → Prop where
  | nil (a : String) : a ∈ G.map RawBlk.name → Path G a [] a
  | cons {b : RawBlk α β} {c : Choice} {cs : List Choice} {t e : String} :
      b ∈ G → b.term.next c = some t → Path G t cs e → Path G b.name (c :: cs) e

/-- What a list of choices becomes when every conditional edge gets an intermediate block. -/
def expand : List Choice → List Choice
  | [] => []
  | .yes :: cs => .yes :: .only :: expand cs
  | .no :: cs => .no :: .only :: expand cs
  | c :: cs => c :: expand cs

/-- `fresh` gives new, pairwise different names. -/
structure Fresh (fresh : String → Nat → String) (G : List (RawBlk α β)) : Prop where
  new : ∀ b ∈ G, ∀ i, i < 2 → fresh b.name i ∉ G.map RawBlk.name
  inj : ∀ b ∈ G, ∀ c ∈ G, ∀ i j, i < 2 → j < 2 → fresh b.name i = fresh c.name j → b.name = c.name ∧ i = j

/-! ### Lemmas -/

theorem expand_inj : ∀ cs ds : List Choice, expand cs = expand ds → cs = ds
  | [], [], _ => rfl
  | [], d :: ds, h => by cases d <;> simp [expand] at h
  | c :: cs, [], h => by cases c <;> simp [expand] at h
  | c :: cs, d :: ds, h => by
    cases c <;> cases d <;> simp [expand] at h ⊢
    all_goals first
      | exact expand_inj cs ds h
      | exact ⟨h.1, expand_inj cs ds h.2⟩

theorem split_name (fresh : String → Nat → String) (b : RawBlk α β) : (splitTerm fresh b).1.name = b.name := by
  unfold splitTerm; split <;> rfl

theorem split_cbr {fresh : String → Nat → String} {b : RawBlk α β} {c : β} {t f : String} (h : b.term = .cbr c t f) :
    splitTerm fresh b = ({ b with term := .cbr c (fresh b.name 0) (fresh b.name 1) },
      [⟨fresh b.name 0, [], .br t⟩, ⟨fresh b.name 1, [], .br f⟩]) := by
  unfold splitTerm; rw [h]

theorem split_other {fresh : String → Nat → String} {b : RawBlk α β} (h : ∀ c t f, b.term ≠ .cbr c t f) :
    splitTerm fresh b = (b, []) := by
  unfold splitTerm
  split
  · next c t f e => exact absurd e (h c t f)
  · rfl

theorem split_new {fresh : String → Nat → String} {b d : RawBlk α β} (h : d ∈ (splitTerm fresh b).2) :
    ∃ c t f, b.term = .cbr c t f ∧ ((d = ⟨fresh b.name 0, [], .br t⟩) ∨ (d = ⟨fresh b.name 1, [], .br f⟩)) := by
  unfold splitTerm at h
  split at h
  · next c t f e => exact ⟨c, t, f, e, by simpa using h⟩
  · simp at h

theorem mem_add {fresh : String → Nat → String} {G : List (RawBlk α β)} {d : RawBlk α β} :
    d ∈ addEmptyBlocks fresh G ↔
      (∃ b ∈ G, d = (splitTerm fresh b).1) ∨ (∃ b ∈ G, d ∈ (splitTerm fresh b).2) := by
  simp [addEmptyBlocks, eq_comm]

theorem path_mem_start {G : List (RawBlk α β)} {a : String} {cs : List Choice} {e : String}
    (h : Path G a cs e) : a ∈ G.map RawBlk.name := by
  cases h with
  | nil a h => exact h
  | cons hb _ _ => exact List.mem_map.2 ⟨_, hb, rfl⟩

theorem path_mem_end {G : List (RawBlk α β)} {a : String} {cs : List Choice} {e : String}
    (h : Path G a cs e) : e ∈ G.map RawBlk.name := by
  induction h with
  | nil a h => exact h
  | cons _ _ _ ih => exact ih

/-- A block of the new graph with the name of an old block is that block. -/
theorem add_old {fresh : String → Nat → String} {G : List (RawBlk α β)} (hG : (G.map RawBlk.name).Nodup)
    (hf : Fresh fresh G) {b d : RawBlk α β} (hb : b ∈ G) (hd : d ∈ addEmptyBlocks fresh G) (e : d.name = b.name) :
    d = (splitTerm fresh b).1 := by
  rcases mem_add.1 hd with ⟨c, hc, rfl⟩ | ⟨c, hc, hm⟩
  · rw [split_name] at e
    have := List.inj_on_of_nodup_map hG hc hb e
    rw [this]
  · obtain ⟨x, t, f, _, h | h⟩ := split_new hm
    · exact absurd (List.mem_map.2 ⟨b, hb, by rw [← e, h]⟩) (hf.new c hc 0 (by decide))
    · exact absurd (List.mem_map.2 ⟨b, hb, by rw [← e, h]⟩) (hf.new c hc 1 (by decide))

/-- A block of the new graph with a fresh name is the created block. -/
theorem add_new {fresh : String → Nat → String} {G : List (RawBlk α β)} (hG : (G.map RawBlk.name).Nodup)
    (hf : Fresh fresh G) {b d : RawBlk α β} (hb : b ∈ G) {i : Nat} (hi : i < 2) (hd : d ∈ addEmptyBlocks fresh G)
    (e : d.name = fresh b.name i) {c : β} {t f : String} (hbt : b.term = .cbr c t f) :
    (i = 0 ∧ d = ⟨fresh b.name 0, [], .br t⟩) ∨ (i = 1 ∧ d = ⟨fresh b.name 1, [], .br f⟩) := by
  rcases mem_add.1 hd with ⟨x, hx, rfl⟩ | ⟨x, hx, hm⟩
  · rw [split_name] at e
    exact absurd (List.mem_map.2 ⟨x, hx, e⟩) (hf.new b hb i hi)
  · obtain ⟨x1, t1, f1, ht1, h⟩ := split_new hm
    have hxb : ∀ j, j < 2 → fresh x.name j = fresh b.name i → x = b ∧ j = i := by
      intro j hj2 hj
      obtain ⟨h1, h2⟩ := hf.inj x hx b hb j i hj2 hi hj
      exact ⟨List.inj_on_of_nodup_map hG hx hb h1, h2⟩
    rcases h with h | h
    · obtain ⟨rfl, rfl⟩ := hxb 0 (by decide) (by rw [← e, h])
      rw [hbt] at ht1
      cases ht1
      exact Or.inl ⟨rfl, h⟩
    · obtain ⟨rfl, rfl⟩ := hxb 1 (by decide) (by rw [← e, h])
      rw [hbt] at ht1
      cases ht1
      exact Or.inr ⟨rfl, h⟩

/-- Choices at a block that does not end with a conditional branch. -/
theorem expand_other {b : RawBlk α β} {c : Choice} {t : String} (h : ∀ x t f, b.term ≠ .cbr x t f)
    (hn : b.term.next c = some t) (cs : List Choice) : expand (c :: cs) = c :: expand cs := by
  cases c with
  | only => rfl
  | case i => rfl
  | yes => cases hb : b.term with
    | cbr x t f => exact absurd hb (h x t f)
    | _ => rw [hb] at hn; cases hn
  | no => cases hb : b.term with
    | cbr x t f => exact absurd hb (h x t f)
    | _ => rw [hb] at hn; cases hn

theorem path_forth {fresh : String → Nat → String} {G : List (RawBlk α β)} {a : String} {cs : List Choice}
    {e : String} (h : Path G a cs e) : Path (addEmptyBlocks fresh G) a (expand cs) e := by
  induction h with
  | nil a ha =>
    obtain ⟨b, hb, rfl⟩ := List.mem_map.1 ha
    exact Path.nil _ (List.mem_map.2 ⟨_, mem_add.2 (Or.inl ⟨b, hb, rfl⟩), split_name fresh b⟩)
  | @cons b c cs t e hb hn _ ih =>
    by_cases hc : ∃ x t f, b.term = .cbr x t f
    · obtain ⟨x, t1, f1, hbt⟩ := hc
      have hs := split_cbr (fresh := fresh) hbt
      have hm : (splitTerm fresh b).1 ∈ addEmptyBlocks fresh G := mem_add.2 (Or.inl ⟨b, hb, rfl⟩)
      have hm0 : (⟨fresh b.name 0, [], .br t1⟩ : RawBlk α β) ∈ addEmptyBlocks fresh G :=
        mem_add.2 (Or.inr ⟨b, hb, by rw [hs]; simp⟩)
      have hm1 : (⟨fresh b.name 1, [], .br f1⟩ : RawBlk α β) ∈ addEmptyBlocks fresh G :=
        mem_add.2 (Or.inr ⟨b, hb, by rw [hs]; simp⟩)
      rw [hs] at hm
      rw [hbt] at hn
      cases c with
      | yes =>
        simp only [Term.next, Option.some.injEq] at hn
        subst hn
        exact Path.cons (b := ⟨b.name, b.insts, .cbr x (fresh b.name 0) (fresh b.name 1)⟩) hm rfl (Path.cons hm0 rfl ih)
      | no =>
        simp only [Term.next, Option.some.injEq] at hn
        subst hn
        exact Path.cons (b := ⟨b.name, b.insts, .cbr x (fresh b.name 0) (fresh b.name 1)⟩) hm rfl (Path.cons hm1 rfl ih)
      | only => simp [Term.next] at hn
      | case i => simp [Term.next] at hn
    · have hc : ∀ x t f, b.term ≠ .cbr x t f := fun x t f e => hc ⟨x, t, f, e⟩
      have hm : (splitTerm fresh b).1 ∈ addEmptyBlocks fresh G := mem_add.2 (Or.inl ⟨b, hb, rfl⟩)
      rw [split_other hc] at hm
      rw [expand_other hc hn]
      exact Path.cons hm hn ih

theorem path_back {fresh : String → Nat → String} {G : List (RawBlk α β)} (hG : (G.map RawBlk.name).Nodup)
    (hf : Fresh fresh G) (hcl : ∀ b ∈ G, ∀ t ∈ b.targets, t ∈ G.map RawBlk.name) :
    ∀ (n : Nat) (ds : List Choice) (a e : String), ds.length ≤ n → a ∈ G.map RawBlk.name → e ∈ G.map RawBlk.name →
      Path (addEmptyBlocks fresh G) a ds e → ∃ cs, ds = expand cs ∧ Path G a cs e := by
  intro n
  induction n with
  | zero =>
    intro ds a e hl ha _ h
    have : ds = [] := List.length_eq_zero_iff.1 (by omega)
    subst this
    cases h
    exact ⟨[], rfl, Path.nil _ ha⟩
  | succ n ih =>
    intro ds a e hl ha he h
    cases h with
    | nil _ _ => exact ⟨[], rfl, Path.nil _ ha⟩
    | @cons d c ds t e hd hn hp =>
      obtain ⟨b, hb, eb⟩ := List.mem_map.1 ha
      have hd' := add_old hG hf hb hd eb.symm
      by_cases hc : ∃ x t f, b.term = .cbr x t f
      · obtain ⟨x, t1, f1, hbt⟩ := hc
        rw [split_cbr hbt] at hd'
        have key : ∀ (i : Nat) (u : String), i < 2 → t = fresh b.name i →
            (∀ d', d' ∈ addEmptyBlocks fresh G → d'.name = fresh b.name i → d' = ⟨fresh b.name i, [], .br u⟩) →
            u ∈ b.targets → ∃ cs, ds = .only :: expand cs ∧ Path G u cs e := by
          intro i u hi ht hu hub
          cases hp with
          | nil _ _ => exact absurd he (ht ▸ hf.new b hb i hi)
          | @cons d2 c2 ds2 t2 e hd2 hn2 hp2 =>
            have h2 := hu d2 hd2 ht
            rw [h2] at hn2
            cases c2 with
            | only =>
              simp only [Term.next, Option.some.injEq] at hn2
              subst hn2
              obtain ⟨cs, rfl, hcs⟩ := ih ds2 u e (by simp at hl; omega) (hcl b hb u hub) he hp2
              exact ⟨cs, rfl, hcs⟩
            | yes => simp [Term.next] at hn2
            | no => simp [Term.next] at hn2
            | case i => simp [Term.next] at hn2
        rw [hd'] at hn
        rw [← eb]
        cases c with
        | yes =>
          simp only [Term.next, Option.some.injEq] at hn
          obtain ⟨cs, rfl, hcs⟩ := key 0 t1 (by decide) hn.symm (fun d' h1 h2 => by
            rcases add_new hG hf hb (by decide) h1 h2 hbt with ⟨_, h⟩ | ⟨h, _⟩
            · exact h
            · exact absurd h (by decide)) (by simp [RawBlk.targets, hbt, Term.targets])
          exact ⟨.yes :: cs, rfl, Path.cons hb (by rw [hbt]; rfl) hcs⟩
        | no =>
          simp only [Term.next, Option.some.injEq] at hn
          obtain ⟨cs, rfl, hcs⟩ := key 1 f1 (by decide) hn.symm (fun d' h1 h2 => by
            rcases add_new hG hf hb (by decide) h1 h2 hbt with ⟨h, _⟩ | ⟨_, h⟩
            · exact absurd h (by decide)
            · exact h) (by simp [RawBlk.targets, hbt, Term.targets])
          exact ⟨.no :: cs, rfl, Path.cons hb (by rw [hbt]; rfl) hcs⟩
        | only => simp [Term.next] at hn
        | case i => simp [Term.next] at hn
      · have hc : ∀ x t f, b.term ≠ .cbr x t f := fun x t f e => hc ⟨x, t, f, e⟩
        rw [split_other hc] at hd'
        rw [hd'] at hn
        have htt : t ∈ b.targets := by
          cases hb2 : b.term with
          | br u => rw [hb2] at hn; cases c <;> simp_all [Term.next, RawBlk.targets, Term.targets]
          | cbr x u v => exact absurd hb2 (hc x u v)
          | switch x dd l =>
            rw [hb2] at hn
            cases c with
            | case i =>
              cases i with
              | zero => simp_all [Term.next, RawBlk.targets, Term.targets]
              | succ i =>
                simp only [Term.next, Option.map_eq_some_iff] at hn
                obtain ⟨q, hq, rfl⟩ := hn
                simp only [RawBlk.targets, hb2, Term.targets, Option.getD_some, List.mem_cons, List.mem_map]
                exact Or.inr ⟨q, List.mem_of_getElem? hq, rfl⟩
            | _ => simp [Term.next] at hn
          | ret v => rw [hb2] at hn; cases c <;> simp [Term.next] at hn
          | other v => rw [hb2] at hn; cases c <;> simp [Term.next] at hn
        obtain ⟨cs, rfl, hcs⟩ := ih ds t e (by simp at hl; omega) (hcl b hb t htt) he hp
        rw [← eb]
        exact ⟨c :: cs, (expand_other hc hn cs).symm, Path.cons hb hn hcs⟩

/-! ### C39 -/

/-- C39: after the pass, the two successors of a conditional branch differ, and each has exactly one predecessor:
only that branch, and only once, leads to it. -/
theorem C39_one_predecessor (fresh : String → Nat → String) (G : List (RawBlk α β)) (hw : WellFormed G)
    (hf : Fresh fresh G) (d : RawBlk α β) (hd : d ∈ addEmptyBlocks fresh G) (c : β) (t f : String)
    (hdt : d.term = .cbr c t f) :
    t ≠ f ∧ ∀ s, s = t ∨ s = f →
      (∀ e ∈ addEmptyBlocks fresh G, s ∈ e.targets → e.name = d.name) ∧ d.targets.count s = 1 := by
  rcases mem_add.1 hd with ⟨b, hb, rfl⟩ | ⟨b, hb, hm⟩
  · by_cases hc : ∃ x t f, b.term = .cbr x t f
    · obtain ⟨x, t1, f1, hbt⟩ := hc
      have hs := split_cbr (fresh := fresh) hbt
      rw [hs] at hdt
      simp only [Term.cbr.injEq] at hdt
      obtain ⟨rfl, rfl, rfl⟩ := hdt
      have hne : fresh b.name 0 ≠ fresh b.name 1 := fun e => absurd (hf.inj b hb b hb 0 1 (by decide) (by decide) e).2 (by decide)
      refine ⟨hne, ?_⟩
      have honly : ∀ i, i < 2 → ∀ e ∈ addEmptyBlocks fresh G, fresh b.name i ∈ e.targets →
          e.name = (splitTerm fresh b).1.name := by
        intro i hi e he ht
        have old : ∀ y ∈ G, fresh b.name i ∉ y.targets := by
          intro y hy hm
          obtain ⟨z, hz, ez⟩ := hw.closed y hy _ hm
          exact hf.new b hb i hi (List.mem_map.2 ⟨z, hz, ez⟩)
        rcases mem_add.1 he with ⟨y, hy, rfl⟩ | ⟨y, hy, hm⟩
        · by_cases hcy : ∃ x t f, y.term = .cbr x t f
          · obtain ⟨x2, t2, f2, hyt⟩ := hcy
            rw [split_cbr hyt] at ht
            simp only [RawBlk.targets, Term.targets, Option.getD_some, List.mem_cons, List.not_mem_nil, or_false] at ht
            rw [split_name, split_name]
            rcases ht with h | h
            · exact (hf.inj b hb y hy _ _ hi (by decide) h).1.symm
            · exact (hf.inj b hb y hy _ _ hi (by decide) h).1.symm
          · rw [split_other (fun x t f e => hcy ⟨x, t, f, e⟩)] at ht
            exact absurd ht (old y hy)
        · obtain ⟨x2, t2, f2, hyt, h | h⟩ := split_new hm
          · rw [h] at ht
            simp only [RawBlk.targets, Term.targets, Option.getD_some, List.mem_singleton] at ht
            exact absurd (by rw [ht]; simp [RawBlk.targets, hyt, Term.targets]) (old y hy)
          · rw [h] at ht
            simp only [RawBlk.targets, Term.targets, Option.getD_some, List.mem_singleton] at ht
            exact absurd (by rw [ht]; simp [RawBlk.targets, hyt, Term.targets]) (old y hy)
      intro s hs'
      rcases hs' with rfl | rfl
      · refine ⟨honly 0 (by decide), ?_⟩
        rw [hs]
        simp [RawBlk.targets, Term.targets, hne.symm]
      · refine ⟨honly 1 (by decide), ?_⟩
        rw [hs]
        simp [RawBlk.targets, Term.targets, hne]
    · rw [split_other (fun x t f e => hc ⟨x, t, f, e⟩)] at hdt
      exact absurd ⟨c, t, f, hdt⟩ hc
  · obtain ⟨x, t1, f1, _, h | h⟩ := split_new hm <;> (rw [h] at hdt; cases hdt)

/-- C39: the paths between blocks of the function before and after the pass correspond one to one: the
choices `cs` lead from `a` to `e` before iff `expand cs` leads from `a` to `e` afterwards, every path between
old blocks in the new graph is of this form, and different choices stay different. -/
theorem C39_paths (fresh : String → Nat → String) (G : List (RawBlk α β)) (hw : WellFormed G)
    (hf : Fresh fresh G) (a e : String) (ha : a ∈ G.map RawBlk.name) (he : e ∈ G.map RawBlk.name) :
    (∀ cs, Path G a cs e ↔ Path (addEmptyBlocks fresh G) a (expand cs) e) ∧
    (∀ ds, Path (addEmptyBlocks fresh G) a ds e → ∃ cs, ds = expand cs) ∧
    Function.Injective expand := by
  have hcl : ∀ b ∈ G, ∀ t ∈ b.targets, t ∈ G.map RawBlk.name := by
    intro b hb t ht
    obtain ⟨c, hc, e⟩ := hw.closed b hb t ht
    exact List.mem_map.2 ⟨c, hc, e⟩
  refine ⟨fun cs => ⟨path_forth, fun h => ?_⟩, fun ds h => ?_, fun cs ds h => expand_inj cs ds h⟩
  · obtain ⟨cs', h1, h2⟩ := path_back hw.names hf hcl _ _ a e (Nat.le_refl _) ha he h
    rw [expand_inj _ _ h1]
    exact h2
  · obtain ⟨cs, h1, _⟩ := path_back hw.names hf hcl _ _ a e (Nat.le_refl _) ha he h
    exact ⟨cs, h1⟩

/-- C39: the new blocks contain no instructions, the old ones keep theirs, in order, and the conditions of
the branches do not change. -/
theorem C39_instructions (fresh : String → Nat → String) (G : List (RawBlk α β)) :
    ((addEmptyBlocks fresh G).take G.length).map (fun b => (b.name, b.insts)) = G.map (fun b => (b.name, b.insts)) ∧
    (∀ b ∈ (addEmptyBlocks fresh G).drop G.length, b.insts = []) ∧
    (∀ (i : Nat) c t f, (G[i]?).map RawBlk.term = some (.cbr c t f) →
      ∃ t' f', ((addEmptyBlocks fresh G)[i]?).map RawBlk.term = some (.cbr c t' f')) ∧
    (∀ (i : Nat) x, (∀ c t f, x ≠ .cbr c t f) → (G[i]?).map RawBlk.term = some x →
      ((addEmptyBlocks fresh G)[i]?).map RawBlk.term = some x) := by
  have hi : ∀ b : RawBlk α β, (splitTerm fresh b).1.insts = b.insts := by
    intro b; unfold splitTerm; split <;> rfl
  have hget : ∀ (i : Nat) (b : RawBlk α β), G[i]? = some b → (addEmptyBlocks fresh G)[i]? = some (splitTerm fresh b).1 := by
    intro i b h
    unfold addEmptyBlocks
    have hlt : i < G.length := by
      rw [List.getElem?_eq_some_iff] at h
      exact h.1
    rw [List.getElem?_append_left (by simpa using hlt), List.getElem?_map, h]
    rfl
  refine ⟨?_, ?_, ?_, ?_⟩
  · unfold addEmptyBlocks
    rw [List.take_left' (by simp)]
    simp [split_name, hi, Function.comp_def]
  · intro b hb
    unfold addEmptyBlocks at hb
    rw [List.drop_left' (by simp)] at hb
    obtain ⟨d, _, hm⟩ := List.mem_flatMap.1 hb
    obtain ⟨x, t, f, _, h | h⟩ := split_new hm <;> rw [h]
  · intro i c t f h
    obtain ⟨b, hb, hbt⟩ := Option.map_eq_some_iff.1 h
    rw [hget i b hb, split_cbr hbt]
    exact ⟨_, _, rfl⟩
  · intro i x hx h
    obtain ⟨b, hb, hbt⟩ := Option.map_eq_some_iff.1 h
    rw [hget i b hb, split_other (by rw [hbt]; exact hx)]
    simp [hbt]

/-- `if (x) y; z` and a loop: `entry` branches to `a` or directly to `c`; `c` may return to `entry`'s successor. -/
def triangle : List (RawBlk Nat String) :=
  [⟨"entry", [1], .cbr "x" "a" "c"⟩, ⟨"a", [2], .br "c"⟩, ⟨"c", [3], .cbr "y" "a" "d"⟩, ⟨"d", [], .ret none⟩]

/-- Names for the example. -/
def freshName (n : String) (i : Nat) : String := if i = 0 then n ++ ".t" else n ++ ".f"

example : ((addEmptyBlocks freshName triangle).map fun b => (b.name, b.insts, b.targets)) =
    [("entry", [1], ["entry.f", "entry.t"]), ("a", [2], ["c"]), ("c", [3], ["c.f", "c.t"]), ("d", [], []),
     ("entry.t", [], ["a"]), ("entry.f", [], ["c"]), ("c.t", [], ["a"]), ("c.f", [], ["d"])] := by decide

theorem triangle_wf : WellFormed triangle :=
  ⟨by decide, by
    intro b hb
    simp only [triangle, List.mem_cons, List.not_mem_nil, or_false] at hb
    rcases hb with rfl | rfl | rfl | rfl <;> simp [Term.targets], by
    intro b hb t ht
    simp only [triangle, List.mem_cons, List.not_mem_nil, or_false] at hb
    rcases hb with rfl | rfl | rfl | rfl <;> simp [RawBlk.targets, Term.targets] at ht <;>
      (try rcases ht with rfl | rfl) <;> simp_all [triangle]⟩

theorem triangle_fresh : Fresh freshName triangle := by
  constructor
  · intro b hb i hi
    simp only [triangle, List.mem_cons, List.not_mem_nil, or_false] at hb
    have : i = 0 ∨ i = 1 := by omega
    rcases this with rfl | rfl <;> rcases hb with rfl | rfl | rfl | rfl <;> decide
  · intro b hb c hc i j hi hj
    simp only [triangle, List.mem_cons, List.not_mem_nil, or_false] at hb hc
    have : i = 0 ∨ i = 1 := by omega
    have : j = 0 ∨ j = 1 := by omega
    rcases ‹i = 0 ∨ i = 1› with rfl | rfl <;> rcases ‹j = 0 ∨ j = 1› with rfl | rfl <;>
      rcases hb with rfl | rfl | rfl | rfl <;> rcases hc with rfl | rfl | rfl | rfl <;> decide

/-- The hypotheses of the theorems are met: around the loop `a`, `c` of the triangle and out of it. -/
example : Path (addEmptyBlocks freshName triangle) "entry"
    (expand [.no, .yes, .only, .no]) "d" := by
  have h : Path triangle "entry" [.no, .yes, .only, .no] "d" :=
    Path.cons (b := ⟨"entry", [1], .cbr "x" "a" "c"⟩) (by simp [triangle]) rfl
      (Path.cons (b := ⟨"c", [3], .cbr "y" "a" "d"⟩) (by simp [triangle]) rfl
        (Path.cons (b := ⟨"a", [2], .br "c"⟩) (by simp [triangle]) rfl
          (Path.cons (b := ⟨"c", [3], .cbr "y" "a" "d"⟩) (by simp [triangle]) rfl (Path.nil _ (by decide)))))
  exact ((C39_paths freshName triangle triangle_wf triangle_fresh "entry" "d" (by decide) (by decide)).1 _).1 h

/-- Before the pass a successor of a conditional branch may have several predecessors. -/
example : ("entry" ∈ triangle.map RawBlk.name) ∧
    (triangle.filter (fun b => "c" ∈ b.targets)).map RawBlk.name = ["entry", "a"] := by decide

end Metalift.Ll
