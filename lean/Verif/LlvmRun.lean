import Verif.LlvmMerge
import Mathlib.Tactic.ByContra
/-
The visiting order of the LLVM front end and the equations satisfied by the states it leaves behind.
-/
namespace Metalift.Ll

/-- The conditions a block end appends to the precondition of block `n`. -/
def condsTo (V : Visitor) (B : LBlk) (n : String) : List Expr :=
  ((brConds (V.states B.name) B.term).getD []).filterMap fun c => if c.1 = n then some c.2 else none

/-- The order of visits; the last visited block comes first. -/
inductive Visits (F : Func) (posts : List Expr) : List LBlk → Visitor → Prop where
  | nil : Visits F posts [] { posts := posts }
  | cons {l : List LBlk} {V V' : Visitor} {b : LBlk} : Visits F posts l V → b ∈ F.blocks →
      (V.states b.name).processed = false → (∀ p ∈ b.preds, (V.states p).processed = true) →
      F.visitBlock V b = some V' → Visits F posts (b :: l) V'

theorem onePass_visits {F : Func} {posts : List Expr} : ∀ (bs : List LBlk), (∀ b ∈ bs, b ∈ F.blocks) →
    ∀ {l V V'}, Visits F posts l V → bs.foldlM F.visitIfReady V = some V' → ∃ l', Visits F posts l' V'
  | [], _, l, V, V', h, h' => by simp at h'; subst h'; exact ⟨l, h⟩
  | b :: bs, hb, l, V, V', h, h' => by
    rw [List.foldlM_cons] at h'
    simp only [Option.bind_eq_bind, Option.bind_eq_some_iff] at h'
    obtain ⟨V1, h1, h2⟩ := h'
    have hbs := fun c hc => hb c (List.mem_cons_of_mem _ hc)
    unfold Func.visitIfReady at h1
    by_cases hr : (!(V.states b.name).processed && b.preds.all (fun p => (V.states p).processed)) = true
    · rw [if_pos hr] at h1
      simp only [Bool.and_eq_true, Bool.not_eq_true', List.all_eq_true] at hr
      exact onePass_visits bs hbs (.cons h (hb b (by simp)) hr.1 hr.2 h1) h2
    · rw [if_neg hr] at h1
      injection h1 with h1
      subst h1
      exact onePass_visits bs hbs h h2

theorem passes_visits {F : Func} {posts : List Expr} : ∀ (n : Nat) {l V V'}, Visits F posts l V →
    F.passes n V = some V' → ∃ l', Visits F posts l' V'
  | 0, l, V, V', h, h' => by simp [Func.passes] at h'; subst h'; exact ⟨l, h⟩
  | n + 1, l, V, V', h, h' => by
    simp only [Func.passes, Option.bind_eq_bind, Option.bind_eq_some_iff] at h'
    obtain ⟨V1, h1, h2⟩ := h'
    obtain ⟨l1, hl1⟩ := onePass_visits F.blocks (fun _ h => h) h h1
    exact passes_visits n hl1 h2

theorem call_visits {F : Func} {posts : List Expr} {V : Visitor} (h : F.call posts = some V) :
    ∃ l, Visits F posts l V := passes_visits _ .nil h

/-! ### Shape of the control-flow graph -/

/-- What is assumed about the control-flow graph (after back edges were removed and empty blocks were added). -/
structure Cfg (F : Func) : Prop where
  names : (F.blocks.map Blk.name).Nodup
  entry : ∃ b rest, F.blocks = b :: rest ∧ b.preds = [] ∧ ∀ c ∈ rest, c.preds ≠ []
  preds : ∀ c ∈ F.blocks, c.preds.Nodup ∧ ∀ p ∈ c.preds, ∃ B ∈ F.blocks, B.name = p ∧ c.name ∈ B.term.targets.getD []
  edges : ∀ B ∈ F.blocks, ∀ c ∈ F.blocks, c.name ∈ B.term.targets.getD [] →
    B.name ∈ c.preds ∨ ∃ L ∈ F.loops, L.header = c.name ∧ B.name ∈ L.latches
  cond : ∀ B ∈ F.blocks, ∀ c t f, B.term = .cbr c t f → t ≠ f ∧ ∀ C ∈ F.blocks, C.name = t ∨ C.name = f →
    C.preds = [B.name]

theorem Cfg.inj {F : Func} (h : Cfg F) {b c : LBlk} (hb : b ∈ F.blocks) (hc : c ∈ F.blocks) (hn : b.name = c.name) :
    b = c := by
  have := h.names
  revert hb hc this
  generalize F.blocks = bs
  intro hb hc this
  induction bs with
  | nil => simp at hb
  | cons a bs ih =>
    simp only [List.map_cons, List.nodup_cons, List.mem_map, not_exists, not_and] at this
    rcases List.mem_cons.1 hb with h1 | h1 <;> rcases List.mem_cons.1 hc with h2 | h2
    · rw [h1, h2]
    · exact absurd (by rw [← hn, h1]) (this.1 c h2)
    · exact absurd (by rw [hn, h2]) (this.1 b h1)
    · exact ih h1 h2 this.2

theorem Cfg.entry_unique {F : Func} (h : Cfg F) {b c : LBlk} (hb : b ∈ F.blocks) (hc : c ∈ F.blocks)
    (hbp : b.preds = []) (hcp : c.preds = []) : b = c := by
  obtain ⟨e, rest, he, _, hr⟩ := h.entry
  rw [he] at hb hc
  rcases List.mem_cons.1 hb with h1 | h1
  · rcases List.mem_cons.1 hc with h2 | h2
    · rw [h1, h2]
    · exact absurd hcp (hr c h2)
  · exact absurd hbp (hr b h1)

theorem Cfg.find {F : Func} (h : Cfg F) {b : LBlk} (hb : b ∈ F.blocks) : F.find b.name = some b := by
  unfold Func.find
  cases hf : F.blocks.find? (fun c => decide (c.name = b.name)) with
  | none =>
    have := List.find?_eq_none.1 hf b hb
    simp at this
  | some c =>
    have h1 := List.mem_of_find?_eq_some hf
    have h2 := List.find?_some hf
    simp only [decide_eq_true_eq] at h2
    rw [h.inj h1 hb h2]

theorem Cfg.find_mem {F : Func} {n : String} {b : LBlk} (h : F.find n = some b) : b ∈ F.blocks ∧ b.name = n := by
  unfold Func.find at h
  exact ⟨List.mem_of_find?_eq_some h, by simpa using List.find?_some h⟩

/-! ### What is true of the visitor after any number of visits -/

theorem append_states (V : Visitor) (c : String × Expr) (n : String) :
    (V.append c).states n = { V.states n with
      precond := (V.states n).precond ++ [c].filterMap fun c => if c.1 = n then some c.2 else none } := by
  unfold Visitor.append Visitor.set
  by_cases h : c.1 = n
  · subst h; simp
  · have : ¬ n = c.1 := fun e => h e.symm
    simp [h, this]

theorem appends_states : ∀ (cs : List (String × Expr)) (V : Visitor) (n : String),
    (cs.foldl Visitor.append V).states n = { V.states n with
      precond := (V.states n).precond ++ cs.filterMap fun c => if c.1 = n then some c.2 else none }
  | [], V, n => by simp
  | c :: cs, V, n => by
    rw [List.foldl_cons, appends_states cs, append_states]
    by_cases h : c.1 = n <;> simp [h]

theorem append_posts : ∀ (cs : List (String × Expr)) (V : Visitor), (cs.foldl Visitor.append V).posts = V.posts
  | [], _ => rfl
  | c :: cs, V => by rw [List.foldl_cons, append_posts cs]; rfl

theorem brConds_congr {st st' : St} (h1 : st.prim = st'.prim) (h2 : st.ptr = st'.ptr) (t : Term Opd) :
    brConds st t = brConds st' t := by
  have : ∀ o, st.read o = st'.read o := by
    intro o; cases o <;> simp [St.read, h1, h2]
  cases t <;> simp [brConds, this]

/-- What visiting a block leaves behind. -/
structure Left (F : Func) (posts pend : List Expr) (preds : List St) (b : LBlk) (S : St) : Prop where
  run : ∃ st1 st2, F.startBlock posts pend preds b = some st1 ∧ stepInsts st1 b.insts = some st2 ∧
    S.prim = st2.prim ∧ S.ptr = st2.ptr ∧ S.precond = st2.precond
  conds : ∃ cs, brConds S b.term = some cs
  noSwitch : ∀ c d l, b.term ≠ .switch c d l
  ret : ∀ o, b.term = .ret o → ∃ e, F.retVal S o = some e ∧ guardBy S.precond (F.psCall e) ∈ S.asserts
  loops : ∀ L ∈ F.loops, (∃ h, F.find L.header = some h ∧ b.name ∈ h.preds) ∨ b.name ∈ L.latches →
    ∃ e, L.call S = some e ∧ guardBy S.precond e ∈ S.asserts

theorem call_congr {L : Loop} {st st' : St} (h1 : st.prim = st'.prim) (h2 : st.ptr = st'.ptr) :
    L.call st = L.call st' := by
  have : st.readVar = st'.readVar := by
    funext x; simp [St.readVar, h1, h2]
  simp [Loop.call, this]

theorem retVal_congr {F : Func} {st st' : St} (h1 : st.prim = st'.prim) (h2 : st.ptr = st'.ptr) (o : Option Opd) :
    F.retVal st o = F.retVal st' o := by
  cases o with
  | none => simp [Func.retVal, h2]
  | some o => cases o <;> simp [Func.retVal, St.read, h1, h2]

theorem mapM_mem {α β : Type} {f : α → Option β} : ∀ {l : List α} {r : List β}, l.mapM f = some r →
    ∀ a ∈ l, ∃ b, f a = some b ∧ b ∈ r
  | [], _, _, a, ha => by simp at ha
  | x :: l, r, h, a, ha => by
    rw [List.mapM_cons] at h
    simp only [Option.bind_eq_bind, Option.bind_eq_some_iff, Option.pure_def, Option.some.injEq] at h
    obtain ⟨b, hb, r', hr', rfl⟩ := h
    rcases List.mem_cons.1 ha with rfl | ha
    · exact ⟨b, hb, by simp⟩
    · obtain ⟨c, hc, hm⟩ := mapM_mem hr' a ha
      exact ⟨c, hc, by simp [hm]⟩

theorem visitLocal_left {F : Func} {posts pend : List Expr} {preds : List St} {b : LBlk} {S : St} {conds ps}
    (h : F.visitLocal posts pend preds b = some (S, conds, ps)) :
    Left F posts pend preds b S ∧ brConds S b.term = some conds ∧ S.processed = true := by
  simp only [Func.visitLocal, Option.bind_eq_bind, Option.bind_eq_some_iff, Option.some.injEq, Prod.mk.injEq] at h
  obtain ⟨st1, h1, st2, h2, cs, h3, ⟨st3, qs⟩, h4, S', h5, rfl, rfl, rfl⟩ := h
  have hret : st3.prim = st2.prim ∧ st3.ptr = st2.ptr ∧ st3.precond = st2.precond ∧
      ∀ o, b.term = .ret o → ∃ e, F.retVal st2 o = some e ∧ guardBy st2.precond (F.psCall e) ∈ st3.asserts := by
    cases ht : b.term with
    | ret o =>
      rw [ht] at h4
      simp only [Func.visitRet, Option.bind_eq_bind, Option.bind_eq_some_iff, Option.some.injEq, Prod.mk.injEq] at h4
      obtain ⟨e, he, rfl, rfl⟩ := h4
      refine ⟨rfl, rfl, rfl, ?_⟩
      intro o' ho'
      injection ho' with ho'
      subst ho'
      exact ⟨e, he, by simp⟩
    | br t =>
      rw [ht] at h4
      simp only [Func.visitRet, Option.some.injEq, Prod.mk.injEq] at h4
      obtain ⟨rfl, rfl⟩ := h4
      exact ⟨rfl, rfl, rfl, fun o ho => by cases ho⟩
    | cbr c t f =>
      rw [ht] at h4
      simp only [Func.visitRet, Option.some.injEq, Prod.mk.injEq] at h4
      obtain ⟨rfl, rfl⟩ := h4
      exact ⟨rfl, rfl, rfl, fun o ho => by cases ho⟩
    | switch c d l => rw [ht] at h4; simp [Func.visitRet] at h4
    | other o => rw [ht] at h4; simp [Func.visitRet] at h4
  obtain ⟨r1, r2, r3, r4⟩ := hret
  simp only [Func.loopAsserts, Option.bind_eq_bind, Option.bind_eq_some_iff, Option.some.injEq] at h5
  obtain ⟨as, has, rfl⟩ := h5
  refine ⟨⟨⟨st1, st2, h1, h2, r1, r2, r3⟩, ?_, ?_, ?_, ?_⟩, ?_, rfl⟩
  · exact ⟨cs, by rw [← h3]; exact brConds_congr r1 r2 _⟩
  · intro c d l ht
    rw [ht] at h4; simp [Func.visitRet] at h4
  · intro o ho
    obtain ⟨e, he, hm⟩ := r4 o ho
    refine ⟨e, by rw [← he]; exact retVal_congr r1 r2 _, ?_⟩
    show guardBy st3.precond _ ∈ st3.asserts ++ as
    rw [r3]; simp [hm]
  · intro L hL hor
    have hmem : L ∈ F.loops.filter (fun L => ((F.find L.header).map fun h => h.preds.contains b.name).getD false) ++
        F.loops.filter (fun L => L.latches.contains b.name) := by
      rw [List.mem_append, List.mem_filter, List.mem_filter]
      rcases hor with ⟨h, hf, hp⟩ | hl
      · left; refine ⟨hL, ?_⟩; simp [hf, hp]
      · right; exact ⟨hL, by simpa using hl⟩
    obtain ⟨a, ha, ham⟩ := mapM_mem has L hmem
    simp only [Option.bind_eq_some_iff, Option.some.injEq] at ha
    obtain ⟨e, he, rfl⟩ := ha
    refine ⟨e, by rw [← he]; exact call_congr rfl rfl, ?_⟩
    show _ ∈ st3.asserts ++ as
    simp [ham]
  · rw [← h3]; exact brConds_congr r1 r2 _

/-- Invariant of the visits. -/
structure VInv (F : Func) (posts : List Expr) (l : List LBlk) (V : Visitor) : Prop where
  mem : ∀ b ∈ l, b ∈ F.blocks
  proc : ∀ n, (V.states n).processed = true ↔ ∃ b ∈ l, b.name = n
  pend : ∀ n, (V.states n).processed = false →
    (V.states n).precond = l.reverse.flatMap (fun B => condsTo V B n)
  postsEq : l = [] → V.posts = posts
  vis : ∀ l₁ b l₂, l = l₁ ++ b :: l₂ → (∀ p ∈ b.preds, ∃ B ∈ l₂, B.name = p) ∧ (∀ B ∈ l₂, B.name ≠ b.name) ∧
    ∃ posts', (b.preds = [] → posts' = posts) ∧
      Left F posts' (l₂.reverse.flatMap (fun B => condsTo V B b.name)) (b.preds.map V.states) b (V.states b.name)

theorem split_cons {α : Type} {a b : α} {l l₁ l₂ : List α} (h : a :: l = l₁ ++ b :: l₂) :
    (l₁ = [] ∧ a = b ∧ l = l₂) ∨ ∃ l₁', l₁ = a :: l₁' ∧ l = l₁' ++ b :: l₂ := by
  cases l₁ with
  | nil => simp at h; exact .inl ⟨rfl, h.1, h.2⟩
  | cons c l₁ => simp at h; exact .inr ⟨l₁, by rw [h.1], h.2⟩

theorem visits_inv {F : Func} (hC : Cfg F) {posts : List Expr} {l : List LBlk} {V : Visitor} (h : Visits F posts l V) :
    VInv F posts l V := by
  induction h with
  | nil => exact ⟨by simp, by simp, by simp, by simp, by simp⟩
  | @cons l V V' b _ hb hnp hready hvis ih =>
    simp only [Func.visitBlock, Option.bind_eq_bind, Option.bind_eq_some_iff, Option.some.injEq] at hvis
    obtain ⟨⟨st, conds, ps⟩, hloc, hV'⟩ := hvis
    obtain ⟨hleft, hconds, hproc⟩ := visitLocal_left hloc
    -- blocks that are targets of the conditions
    have htgt : ∀ c ∈ conds, (V.states c.1).processed = false ∧ c.1 ≠ b.name := by
      intro c hc
      cases ht : b.term with
      | cbr o t f =>
        rw [ht] at hconds
        simp only [brConds, Option.bind_eq_bind, Option.bind_eq_some_iff] at hconds
        obtain ⟨e, _, hconds⟩ := hconds
        by_cases hty : e.ty = .bool
        · rw [if_pos hty] at hconds
          injection hconds with hconds
          have hcn : c.1 = t ∨ c.1 = f := by
            rw [← hconds] at hc
            simp only [List.mem_cons, List.not_mem_nil, or_false] at hc
            rcases hc with rfl | rfl <;> simp
          constructor
          · by_contra hp
            have hp : (V.states c.1).processed = true := by simpa using hp
            obtain ⟨C, hCl, hCn⟩ := (ih.proc _).1 hp
            have hCp := (hC.cond b hb o t f ht).2 C (ih.mem C hCl) (by rw [hCn]; exact hcn)
            obtain ⟨l₁, l₂, rfl⟩ := List.append_of_mem hCl
            obtain ⟨hpre, _⟩ := ih.vis l₁ C l₂ rfl
            obtain ⟨B, hB, hBn⟩ := hpre b.name (by rw [hCp]; simp)
            have := (ih.proc b.name).2 ⟨B, by simp [hB], hBn⟩
            rw [hnp] at this; cases this
          · intro he
            have hbp := (hC.cond b hb o t f ht).2 b hb (by rw [← he]; exact hcn)
            have := hready b.name (by rw [hbp]; simp)
            rw [hnp] at this; cases this
        · rw [if_neg hty] at hconds; cases hconds
      | _ => rw [ht] at hconds; simp [brConds] at hconds; subst hconds; simp at hc
    have hst : ∀ n, V'.states n = { (if n = b.name then st else V.states n) with
        precond := (if n = b.name then st else V.states n).precond ++
          conds.filterMap fun c => if c.1 = n then some c.2 else none } := by
      intro n
      rw [← hV']
      show (conds.foldl Visitor.append (V.set b.name st)).states n = _
      rw [appends_states]; rfl
    have hnone : ∀ n, (n = b.name ∨ (V.states n).processed = true) →
        (conds.filterMap fun c => if c.1 = n then some c.2 else none) = [] := by
      intro n hn
      rw [List.filterMap_eq_nil_iff]
      intro c hc
      have := htgt c hc
      by_cases hcn : c.1 = n
      · rcases hn with rfl | hn
        · exact absurd hcn this.2
        · rw [hcn, hn] at this; cases this.1
      · simp [hcn]
    have hstb : V'.states b.name = st := by
      rw [hst, hnone _ (.inl rfl)]; simp
    have hstp : ∀ n, (V.states n).processed = true → V'.states n = V.states n := by
      intro n hn
      have hne : n ≠ b.name := fun e => by rw [e, hnp] at hn; cases hn
      rw [hst, hnone _ (.inr hn)]; simp [hne]
    have hct : ∀ B ∈ l, ∀ n, condsTo V' B n = condsTo V B n := by
      intro B hB n
      simp only [condsTo, hstp _ ((ih.proc _).2 ⟨B, hB, rfl⟩)]
    have hctb : ∀ n, condsTo V' b n = conds.filterMap fun c => if c.1 = n then some c.2 else none := by
      intro n
      simp only [condsTo, hstb, hconds, Option.getD_some]
    have hflat : ∀ (m : List LBlk), (∀ B ∈ m, B ∈ l) → ∀ n,
        m.flatMap (fun B => condsTo V' B n) = m.flatMap (fun B => condsTo V B n) := by
      intro m
      induction m with
      | nil => simp
      | cons B m ihm =>
        intro hm n
        rw [List.flatMap_cons, List.flatMap_cons, hct B (hm B (by simp)), ihm (fun C hC => hm C (by simp [hC]))]
    refine ⟨?_, ?_, ?_, by simp, ?_⟩
    · intro c hc
      rcases List.mem_cons.1 hc with rfl | hc
      · exact hb
      · exact ih.mem c hc
    · intro n
      rw [hst]
      by_cases hn : n = b.name
      · subst hn
        simp [hproc]
      · simp only [if_neg hn, ih.proc n, List.mem_cons]
        constructor
        · rintro ⟨c, hc, rfl⟩; exact ⟨c, .inr hc, rfl⟩
        · rintro ⟨c, hc | hc, rfl⟩
          · exact absurd (by rw [hc]) hn
          · exact ⟨c, hc, rfl⟩
    · intro n hn
      have hne : n ≠ b.name := fun e => by rw [e, hstb, hproc] at hn; cases hn
      have hold : (V.states n).processed = false := by
        rw [hst] at hn; simpa [hne] using hn
      rw [hst]
      simp only [if_neg hne, List.reverse_cons, List.flatMap_append, List.flatMap_cons, List.flatMap_nil, List.append_nil]
      rw [hctb, ih.pend n hold, hflat _ (fun B hB => List.mem_reverse.1 hB)]
    · intro l₁ c l₂ hsp
      rcases split_cons hsp with ⟨rfl, rfl, rfl⟩ | ⟨l₁', rfl, rfl⟩
      · refine ⟨fun p hp => (ih.proc p).1 (hready p hp), ?_, V.posts, ?_, ?_⟩
        · intro B hB he
          have := (ih.proc b.name).2 ⟨B, hB, he⟩
          rw [hnp] at this; cases this
        · intro hbp
          cases hl : l with
          | nil => exact ih.postsEq hl
          | cons a m =>
            exfalso
            obtain ⟨m', x, hmx⟩ : ∃ m' x, l = m' ++ [x] := by
              rw [hl]; exact ⟨_, _, (List.dropLast_concat_getLast (List.cons_ne_nil a m)).symm⟩
            obtain ⟨hxp, _⟩ := ih.vis m' x [] hmx
            have hx0 : x.preds = [] := by
              cases hp : x.preds with
              | nil => rfl
              | cons p ps => exact absurd (hxp p (by simp [hp])) (by simp)
            have hxl : x ∈ l := by rw [hmx]; simp
            have := hC.entry_unique (ih.mem x hxl) hb hx0 hbp
            have := (ih.proc b.name).2 ⟨x, hxl, by rw [this]⟩
            rw [hnp] at this; cases this
        · rw [hstb, hflat _ (fun B hB => List.mem_reverse.1 hB), ← ih.pend _ hnp]
          have : b.preds.map V'.states = b.preds.map V.states :=
            List.map_congr_left fun p hp => hstp p (hready p hp)
          rw [this]
          exact hleft
      · obtain ⟨h1, h2, posts', h3, h4⟩ := ih.vis l₁' c l₂ rfl
        refine ⟨h1, h2, posts', h3, ?_⟩
        rw [hstp c.name ((ih.proc _).2 ⟨c, by simp, rfl⟩), hflat _ (fun B hB => by simp [List.mem_reverse.1 hB])]
        have : c.preds.map V'.states = c.preds.map V.states := by
          refine List.map_congr_left fun p hp => hstp p ?_
          obtain ⟨B, hB, hBn⟩ := h1 p hp
          exact (ih.proc p).2 ⟨B, by simp [hB], hBn⟩
        rw [this]
        exact h4

end Metalift.Ll
