import Verif.SmtUtil
import Verif.Names
import Mathlib.Logic.Relation
import Mathlib.Data.Fintype.EquivFin
import Mathlib.Data.Fintype.Pigeonhole
import Mathlib.Data.List.Perm.Basic
/-
C16: `topological_sort` emits every definition once, after what it calls.
-/
namespace Metalift

/-! ### Specification -/

/-- A call of `g` occurs in the expression. -/
inductive Expr.Calls (g : String) : Expr → Prop where
  | here {t args} : Expr.Calls g (.node (.call g) t args)
  | arg {op t args a} : a ∈ args → Expr.Calls g a → Expr.Calls g (.node op t args)

/-- A call of `g` or a variable named `g` occurs in the expression. -/
inductive Expr.Mentions (g : String) : Expr → Prop where
  | var {t} : Expr.Mentions g (.var g t)
  | call {t args} : Expr.Mentions g (.node (.call g) t args)
  | arg {op t args a} : a ∈ args → Expr.Mentions g a → Expr.Mentions g (.node op t args)

/-- `f` and `g` are different functions of the list, and the body of `f` contains a call of `g`. -/
def CallsFn (fns : List FnDecl) (g f : String) : Prop :=
  g ≠ f ∧ g ∈ fns.map FnDecl.name ∧ ∃ d ∈ fns, d.name = f ∧ ∃ b, d.body = some b ∧ b.Calls g

/-- Same with "contains a call of, or a variable named". -/
def MentionsFn (fns : List FnDecl) (g f : String) : Prop :=
  g ≠ f ∧ g ∈ fns.map FnDecl.name ∧ ∃ d ∈ fns, d.name = f ∧ ∃ b, d.body = some b ∧ b.Mentions g

/-- A relation has no cycle. -/
def Acyclic (r : String → String → Prop) : Prop := ∀ x, ¬ Relation.TransGen r x x

/-- `a` occurs before `b`. -/
def Before {α : Type} (l : List α) (a b : α) : Prop :=
  ∃ l1 l2 l3, l = l1 ++ a :: l2 ++ b :: l3

/-- What the documentation of `networkx.topological_sort` promises: the nodes of the graph, each once,
such that every edge points forward; it raises only when the graph has a cycle. -/
structure TopoSpec (topo : List (String × String) → Option (List String)) : Prop where
  nodup : ∀ es l, topo es = some l → l.Nodup
  mem : ∀ es l, topo es = some l → ∀ x, x ∈ l ↔ ∃ e ∈ es, x = e.1 ∨ x = e.2
  order : ∀ es l, topo es = some l → ∀ a b, (a, b) ∈ es → Before l a b
  cyclic : ∀ es, topo es = none → ¬ Acyclic (fun a b => (a, b) ∈ es)

/-! ### Lemmas -/

theorem Expr.mem_strss {x : String} {es : List Expr} : x ∈ Expr.strss es ↔ ∃ e ∈ es, x ∈ e.strs := by
  induction es with
  | nil => simp [Expr.strss]
  | cons e es ih => simp [Expr.strss, ih]

theorem Expr.mem_strs {g : String} {e : Expr} : g ∈ e.strs ↔ e.Mentions g := by
  induction e using Expr.ind with
  | hv n t =>
    simp only [Expr.strs, List.mem_singleton]
    constructor
    · rintro rfl; exact .var
    · intro h; cases h; rfl
  | hl l => simp only [Expr.strs, List.not_mem_nil, false_iff]; intro h; cases h
  | hn op t args ih =>
    have key : g ∈ Expr.strss args ↔ ∃ a ∈ args, a.Mentions g := by
      rw [Expr.mem_strss]
      constructor
      · rintro ⟨a, ha, h⟩; exact ⟨a, ha, (ih a ha).1 h⟩
      · rintro ⟨a, ha, h⟩; exact ⟨a, ha, (ih a ha).2 h⟩
    by_cases hc : ∃ f, op = .call f
    · obtain ⟨f, rfl⟩ := hc
      simp only [Expr.strs, List.mem_cons, key]
      constructor
      · rintro (rfl | ⟨a, ha, h⟩)
        · exact .call
        · exact .arg ha h
      · intro h
        cases h with
        | call => exact .inl rfl
        | arg ha h => exact .inr ⟨_, ha, h⟩
    · have hs : (Expr.node op t args).strs = Expr.strss args := by
        cases op <;> first | rfl | (exact absurd ⟨_, rfl⟩ hc)
      rw [hs, key]
      constructor
      · rintro ⟨a, ha, h⟩; exact .arg ha h
      · intro h
        cases h with
        | call => exact absurd ⟨_, rfl⟩ hc
        | arg ha h => exact ⟨_, ha, h⟩

theorem Expr.Calls.mentions {g : String} {e : Expr} (h : e.Calls g) : e.Mentions g := by
  induction h with
  | here => exact .call
  | arg ha _ ih => exact .arg ha ih

theorem CallsFn.mentions {fns : List FnDecl} {g f : String} (h : CallsFn fns g f) : MentionsFn fns g f := by
  obtain ⟨h1, h2, d, hd, h3, b, hb, hc⟩ := h
  exact ⟨h1, h2, d, hd, h3, b, hb, hc.mentions⟩

theorem mem_depEdges {fns : List FnDecl} {g f : String} : (g, f) ∈ depEdges fns ↔ MentionsFn fns g f := by
  simp only [depEdges, List.mem_flatMap, List.mem_map, List.mem_filter, Prod.mk.injEq, MentionsFn]
  constructor
  · rintro ⟨d, hd, x, ⟨hx, hne⟩, rfl, rfl⟩
    simp only [dependentFnNames] at hx
    cases hb : d.body with
    | none => simp [hb] at hx
    | some b =>
      simp only [hb, List.mem_filter, decide_eq_true_eq, List.mem_map] at hx
      exact ⟨fun e => (of_decide_eq_true hne) e.symm, hx.2, d, hd, rfl, b, hb, Expr.mem_strs.1 hx.1⟩
  · rintro ⟨hne, hg, d, hd, rfl, b, hb, hm⟩
    refine ⟨d, hd, g, ⟨?_, decide_eq_true (fun e => hne e.symm)⟩, rfl, rfl⟩
    simp only [dependentFnNames, hb, List.mem_filter, decide_eq_true_eq, List.mem_map]
    exact ⟨Expr.mem_strs.2 hm, hg⟩

theorem Item.perm (items : List Item) :
    ((Item.fns items).map Item.fn ++ (Item.axs items).map Item.ax).Perm items := by
  induction items with
  | nil => exact .refl _
  | cons i is ih =>
    cases i with
    | fn f => exact ih.cons _
    | ax a =>
      simp only [Item.fns, Item.axs, List.map_cons]
      exact List.perm_middle.trans (ih.cons _)

theorem declOf_mem {fns : List FnDecl} {n : String} {d : FnDecl} (h : declOf fns n = some d) :
    d ∈ fns ∧ d.name = n := by
  have h1 := List.mem_of_find?_eq_some h
  have h2 := List.find?_some h
  exact ⟨List.mem_reverse.1 h1, of_decide_eq_true h2⟩

theorem declOf_isSome {fns : List FnDecl} {n : String} (h : n ∈ fns.map FnDecl.name) :
    ∃ d, declOf fns n = some d := by
  obtain ⟨d, hd, rfl⟩ := List.mem_map.1 h
  have : (declOf fns d.name).isSome = true := by
    rw [declOf, List.find?_isSome]
    exact ⟨d, List.mem_reverse.2 hd, decide_eq_true rfl⟩
  exact Option.isSome_iff_exists.1 this

theorem mapM_declOf {fns : List FnDecl} : ∀ {ns : List String}, (∀ n ∈ ns, n ∈ fns.map FnDecl.name) →
    ∃ ds, ns.mapM (declOf fns) = some ds ∧ ds.map FnDecl.name = ns ∧ ∀ d ∈ ds, d ∈ fns
  | [], _ => ⟨[], rfl, rfl, by simp⟩
  | n :: ns, h => by
    obtain ⟨d, hd⟩ := declOf_isSome (h n (by simp))
    obtain ⟨ds, h1, h2, h3⟩ := mapM_declOf (ns := ns) (fun m hm => h m (by simp [hm]))
    obtain ⟨hm, hn⟩ := declOf_mem hd
    refine ⟨d :: ds, ?_, ?_, ?_⟩
    · simp [List.mapM_cons, hd, h1]
    · simp [h2, hn]
    · intro x hx
      rcases List.mem_cons.1 hx with rfl | hx
      · exact hm
      · exact h3 x hx

theorem eq_of_name {fns : List FnDecl} (hn : (fns.map FnDecl.name).Nodup) {a b : FnDecl}
    (ha : a ∈ fns) (hb : b ∈ fns) (h : a.name = b.name) : a = b :=
  List.inj_on_of_nodup_map hn ha hb h

theorem Before.map {α β : Type} {f : α → β} {l : List α} {x y : β} (h : Before (l.map f) x y) :
    ∃ a b, f a = x ∧ f b = y ∧ Before l a b := by
  obtain ⟨l1, l2, l3, h⟩ := h
  rw [List.append_assoc] at h
  obtain ⟨m1, m2, rfl, rfl, h1⟩ := List.map_eq_append_iff.1 h
  rw [List.cons_append] at h1
  obtain ⟨a, m3, rfl, rfl, h2⟩ := List.map_eq_cons_iff.1 h1
  obtain ⟨m4, m5, rfl, rfl, h3⟩ := List.map_eq_append_iff.1 h2
  obtain ⟨b, m6, rfl, rfl, rfl⟩ := List.map_eq_cons_iff.1 h3
  exact ⟨a, b, rfl, rfl, m1, m4, m6, by simp⟩

theorem Before.of_map {α β : Type} {f : α → β} {l : List α} {a b : α} (h : Before l a b) :
    Before (l.map f) (f a) (f b) := by
  obtain ⟨l1, l2, l3, rfl⟩ := h
  exact ⟨l1.map f, l2.map f, l3.map f, by simp⟩

theorem Before.append {α : Type} {l m : List α} {a b : α} (h : Before l a b) : Before (l ++ m) a b := by
  obtain ⟨l1, l2, l3, rfl⟩ := h
  exact ⟨l1, l2, l3 ++ m, by simp⟩

theorem Before.trans_ne {α : Type} {l : List α} (hn : l.Nodup) {a b c : α} (h1 : Before l a b)
    (h2 : Before l b c) : Before l a c := by
  obtain ⟨l1, l2, l3, rfl⟩ := h1
  obtain ⟨m1, m2, m3, h⟩ := h2
  -- the occurrence of `b` is unique
  have e : (l1 ++ a :: l2) ++ b :: l3 = m1 ++ b :: (m2 ++ c :: m3) := by simpa using h
  have hb1 : b ∉ l1 ++ a :: l2 := by
    intro hb
    have := (List.nodup_append.1 hn).2.2 b hb b (by simp)
    exact this rfl
  have hm1 : b ∉ m1 := by
    intro hb
    rw [h, List.append_assoc] at hn
    have := (List.nodup_append.1 hn).2.2 b hb b (by simp)
    exact this rfl
  have : m1 = l1 ++ a :: l2 ∧ m2 ++ c :: m3 = l3 := by
    have := List.append_eq_append_iff.1 e
    rcases this with ⟨as, h1, h2⟩ | ⟨as, h1, h2⟩
    · cases as with
      | nil => simp at h1 h2; exact ⟨by rw [h1], h2.symm⟩
      | cons x xs =>
        simp only [List.cons_append, List.cons.injEq] at h2
        obtain ⟨rfl, _⟩ := h2
        exact absurd (by rw [h1]; simp) hm1
    · cases as with
      | nil => simp at h1 h2; exact ⟨h1.symm, h2⟩
      | cons x xs =>
        simp only [List.cons_append, List.cons.injEq] at h2
        obtain ⟨rfl, _⟩ := h2
        exact absurd (by rw [h1]; simp) hb1
  obtain ⟨_, rfl⟩ := this
  exact ⟨l1, l2 ++ b :: m2, m3, by simp⟩

theorem Before.irrefl {α : Type} {l : List α} (hn : l.Nodup) {a : α} : ¬ Before l a a := by
  rintro ⟨l1, l2, l3, rfl⟩
  have := (List.nodup_append.1 hn).2.2 a (by simp) a (by simp)
  exact this rfl

/-! ### C16 -/

/-- C16 for lists whose function names are pairwise different: when `topological_sort` returns, the result is a permutation
of the input, the axioms come after all functions, and every function comes after all functions it calls;
it returns whenever no cycle of mentions exists, and it raises whenever there is a cycle.
`networkx.topological_sort` is any function meeting its documentation, `setOrder` any order of iteration over a set.
Missing: the property asks this for every list, and for acyclic *call* graphs; the refutations below show both fail. -/
theorem C16_topological_sort_partial (topo : List (String × String) → Option (List String))
    (htopo : TopoSpec topo) (setOrder : List String → List String) (hset : ∀ l, (setOrder l).Perm l)
    (items : List Item) (hn : ((Item.fns items).map FnDecl.name).Nodup) :
    (∀ r, topologicalSort topo setOrder items = some r →
      r.Perm items ∧
      (∃ fs : List FnDecl, r = fs.map Item.fn ++ (Item.axs items).map Item.ax) ∧
      ∀ f ∈ Item.fns items, ∀ g ∈ Item.fns items, CallsFn (Item.fns items) g.name f.name →
        Before r (Item.fn g) (Item.fn f)) ∧
    (Acyclic (MentionsFn (Item.fns items)) ↔ ∃ r, topologicalSort topo setOrder items = some r) := by
  generalize hfns : Item.fns items = fns at *
  -- what happens when networkx returns
  have main : ∀ ordered, topo (depEdges fns) = some ordered → ∃ ds is : List FnDecl,
      topologicalSort topo setOrder items =
        some (ds.map Item.fn ++ is.map Item.fn ++ (Item.axs items).map Item.ax) ∧
      (ds ++ is).Perm fns ∧ ds.map FnDecl.name = ordered := by
    intro ordered ho
    have hmem : ∀ n ∈ ordered, n ∈ fns.map FnDecl.name := by
      intro n hnm
      obtain ⟨⟨a, b⟩, he, h⟩ := (htopo.mem _ _ ho n).1 hnm
      obtain ⟨_, h2, d, hd, h3, _⟩ := mem_depEdges.1 he
      rcases h with rfl | rfl
      · exact h2
      · exact List.mem_map.2 ⟨d, hd, h3⟩
    obtain ⟨ds, hd1, hd2, hd3⟩ := mapM_declOf hmem
    have hp := hset ((fns.map FnDecl.name).eraseDups.filter (fun n => decide (n ∉ ordered)))
    have hind : ∀ n, n ∈ setOrder ((fns.map FnDecl.name).eraseDups.filter (fun n => decide (n ∉ ordered))) ↔
        n ∈ fns.map FnDecl.name ∧ n ∉ ordered := by
      intro n
      rw [hp.mem_iff]
      simp [List.mem_filter, List.mem_eraseDups]
    obtain ⟨is, hi1, hi2, hi3⟩ := mapM_declOf (fns := fns) (ns := setOrder _) (fun n h => ((hind n).1 h).1)
    refine ⟨ds, is, ?_, ?_, hd2⟩
    · simp only [topologicalSort, hfns, ho, hd1, hi1]
    · have hdn : (ds.map FnDecl.name).Nodup := by rw [hd2]; exact htopo.nodup _ _ ho
      have hin : (is.map FnDecl.name).Nodup := by
        rw [hi2]
        refine hp.nodup_iff.2 (List.Nodup.filter _ ?_)
        exact eraseDups_pairwise _ _ (Nat.le_refl _)
      have hnn : ((ds ++ is).map FnDecl.name).Nodup := by
        rw [List.map_append, List.nodup_append]
        refine ⟨hdn, hin, ?_⟩
        rintro a ha b hb rfl
        rw [hd2] at ha
        rw [hi2] at hb
        exact ((hind _).1 hb).2 ha
      refine (List.perm_ext_iff_of_nodup hnn.of_map hn.of_map).2 ?_
      intro d
      rw [List.mem_append]
      constructor
      · rintro (h | h)
        · exact hd3 d h
        · exact hi3 d h
      · intro h
        by_cases ho' : d.name ∈ ordered
        · rw [← hd2] at ho'
          obtain ⟨d', h', e⟩ := List.mem_map.1 ho'
          exact .inl (eq_of_name hn (hd3 d' h') h e ▸ h')
        · have : d.name ∈ is.map FnDecl.name := by
            rw [hi2]; exact (hind _).2 ⟨List.mem_map.2 ⟨d, h, rfl⟩, ho'⟩
          obtain ⟨d', h', e⟩ := List.mem_map.1 this
          exact .inr (eq_of_name hn (hi3 d' h') h e ▸ h')
  constructor
  · intro r hr
    cases ho : topo (depEdges fns) with
    | none => simp [topologicalSort, hfns, ho] at hr
    | some ordered =>
      obtain ⟨ds, is, h1, h2, h3⟩ := main ordered ho
      rw [hr] at h1
      obtain rfl := Option.some.inj h1
      refine ⟨?_, ⟨ds ++ is, by simp⟩, ?_⟩
      · have := (h2.map Item.fn).append_right ((Item.axs items).map Item.ax)
        rw [List.map_append] at this
        refine this.trans ?_
        rw [← hfns]
        exact Item.perm items
      · intro f hf g hg hc
        have hb := htopo.order _ _ ho _ _ (mem_depEdges.2 hc.mentions)
        rw [← h3] at hb
        obtain ⟨a, b, ea, eb, hab⟩ := hb.map
        have ha : a ∈ fns := h2.mem_iff.1 (List.mem_append_left _ (by obtain ⟨_, _, _, rfl⟩ := hab; simp))
        have hb' : b ∈ fns := h2.mem_iff.1 (List.mem_append_left _ (by obtain ⟨_, _, _, rfl⟩ := hab; simp))
        obtain rfl := eq_of_name hn ha hg ea
        obtain rfl := eq_of_name hn hb' hf eb
        rw [List.append_assoc]
        exact hab.of_map.append
  · constructor
    · intro hac
      cases ho : topo (depEdges fns) with
      | none =>
        refine absurd ?_ (htopo.cyclic _ ho)
        intro x hx
        exact hac x (Relation.TransGen.mono (fun a b (h : (a, b) ∈ depEdges fns) => mem_depEdges.1 h) _ _ hx)
      | some ordered =>
        obtain ⟨ds, is, h1, _⟩ := main ordered ho
        exact ⟨_, h1⟩
    · rintro ⟨r, hr⟩ x hx
      cases ho : topo (depEdges fns) with
      | none => simp [topologicalSort, hfns, ho] at hr
      | some ordered =>
        have hnd := htopo.nodup _ _ ho
        have : ∀ y, Relation.TransGen (MentionsFn fns) x y → Before ordered x y := by
          intro y hy
          induction hy with
          | single h => exact htopo.order _ _ ho _ _ (mem_depEdges.2 h)
          | tail _ h ih => exact Before.trans_ne hnd ih (htopo.order _ _ ho _ _ (mem_depEdges.2 h))
        exact Before.irrefl hnd (this x hx)

/-! ### The hypotheses can be met: a concrete topological sort (Kahn's algorithm) -/

/-- Kahn's algorithm: repeatedly emit a remaining node without a remaining predecessor. -/
def kahnLoop (es : List (String × String)) : Nat → List String → Option (List String)
  | _, [] => some []
  | 0, _ :: _ => none
  | n + 1, rem =>
    match rem.find? (fun x => es.all (fun e => !(decide (e.2 = x) && decide (e.1 ∈ rem)))) with
    | none => none
    | some x => (kahnLoop es n (rem.filter (fun y => decide (y ≠ x)))).map (x :: ·)

/-- All nodes of the graph. -/
def edgeNodes (es : List (String × String)) : List String :=
  (es.flatMap (fun e => [e.1, e.2])).eraseDups

/-- Kahn's algorithm on the graph with the given edges. -/
def kahn (es : List (String × String)) : Option (List String) :=
  kahnLoop es (edgeNodes es).length (edgeNodes es)

theorem mem_edgeNodes {es : List (String × String)} {x : String} :
    x ∈ edgeNodes es ↔ ∃ e ∈ es, x = e.1 ∨ x = e.2 := by
  simp [edgeNodes, List.mem_eraseDups]

theorem kahnLoop_some {es : List (String × String)} : ∀ (n : Nat) (rem l : List String), rem.Nodup →
    kahnLoop es n rem = some l → l.Nodup ∧ (∀ x, x ∈ l ↔ x ∈ rem) ∧
      ∀ a b, (a, b) ∈ es → a ∈ rem → b ∈ rem → Before l a b
  | n, [], l, _, h => by
    have : l = [] := by cases n <;> simpa [kahnLoop] using h.symm
    subst this; simp
  | 0, x :: xs, l, _, h => by simp [kahnLoop] at h
  | n + 1, r :: rs, l, hn, h => by
    simp only [kahnLoop] at h
    generalize r :: rs = rem at *
    cases hf : rem.find? (fun x => es.all (fun e => !(decide (e.2 = x) && decide (e.1 ∈ rem)))) with
    | none => rw [hf] at h; cases h
    | some x =>
      simp only [hf, Option.map_eq_some_iff] at h
      obtain ⟨l', hl', rfl⟩ := h
      have hx : x ∈ rem := List.mem_of_find?_eq_some hf
      have hp := List.find?_some hf
      obtain ⟨h1, h2, h3⟩ := kahnLoop_some n _ l' (hn.filter _) hl'
      have hmem : ∀ y, y ∈ l' ↔ y ∈ rem ∧ y ≠ x := by intro y; rw [h2]; simp
      have hnp : ∀ a, (a, x) ∈ es → a ∉ rem := by
        intro a ha har
        have := List.all_eq_true.1 hp _ ha
        simp [har] at this
      refine ⟨List.nodup_cons.2 ⟨fun hc => ((hmem x).1 hc).2 rfl, h1⟩, ?_, ?_⟩
      · intro y
        rw [List.mem_cons, hmem]
        constructor
        · rintro (rfl | h)
          · exact hx
          · exact h.1
        · intro hy
          by_cases e : y = x
          · exact .inl e
          · exact .inr ⟨hy, e⟩
      · intro a b hab ha hb
        by_cases ebx : b = x
        · subst ebx; exact absurd ha (hnp a hab)
        · by_cases eax : a = x
          · subst eax
            obtain ⟨s, t, rfl⟩ := List.append_of_mem ((hmem b).2 ⟨hb, ebx⟩)
            exact ⟨[], s, t, by simp⟩
          · obtain ⟨l1, l2, l3, e⟩ := h3 a b hab (by simp [ha, eax]) (by simp [hb, ebx])
            exact ⟨x :: l1, l2, l3, by simp [e]⟩

/-- A nonempty finite set in which every element has a predecessor contains a cycle. -/
theorem exists_cycle {r : String → String → Prop} (rem : List String) (h0 : rem ≠ [])
    (h : ∀ x ∈ rem, ∃ y ∈ rem, r y x) : ∃ x, Relation.TransGen r x x := by
  classical
  let S := {x // x ∈ rem}
  have hfin : Finite S := by
    refine Finite.of_injective (fun x : S => (⟨rem.idxOf x.1, List.idxOf_lt_length_of_mem x.2⟩ : Fin rem.length)) ?_
    intro a b hab
    have := Fin.mk.inj_iff.1 hab
    exact Subtype.ext ((List.idxOf_inj a.2).1 this)
  have hpred : ∀ x : S, ∃ y : S, r y.1 x.1 := fun x => by
    obtain ⟨y, hy, hr⟩ := h x.1 x.2
    exact ⟨⟨y, hy⟩, hr⟩
  choose f hf using hpred
  obtain ⟨x0, hx0⟩ := List.exists_mem_of_ne_nil rem h0
  let x : S := ⟨x0, hx0⟩
  have hiter : ∀ (k : Nat) (y : S), Relation.TransGen r ((f^[k+1]) y).1 y.1 := by
    intro k
    induction k with
    | zero => intro y; exact .single (hf y)
    | succ k ih =>
      intro y
      rw [Function.iterate_succ_apply]
      exact (ih (f y)).tail (hf y)
  obtain ⟨i, j, hij, e⟩ := Finite.exists_ne_map_eq_of_infinite (fun n : Nat => (f^[n]) x)
  rcases Nat.lt_or_gt_of_ne hij with hlt | hlt
  · refine ⟨((f^[i]) x).1, ?_⟩
    have := hiter (j - i - 1) ((f^[i]) x)
    rw [← Function.iterate_add_apply, show j - i - 1 + 1 + i = j by omega] at this
    simpa [← e] using this
  · refine ⟨((f^[j]) x).1, ?_⟩
    have := hiter (i - j - 1) ((f^[j]) x)
    rw [← Function.iterate_add_apply, show i - j - 1 + 1 + j = i by omega] at this
    simpa [e] using this

theorem kahnLoop_none {es : List (String × String)} : ∀ (n : Nat) (rem : List String), rem.Nodup → rem.length ≤ n →
    kahnLoop es n rem = none → ¬ Acyclic (fun a b => (a, b) ∈ es)
  | n, [], _, _, h => by cases n <;> simp [kahnLoop] at h
  | 0, x :: xs, _, hl, _ => by simp at hl
  | n + 1, r :: rs, hn, hl, h => by
    simp only [kahnLoop] at h
    have hne : r :: rs ≠ [] := by simp
    generalize r :: rs = rem at *
    cases hf : rem.find? (fun x => es.all (fun e => !(decide (e.2 = x) && decide (e.1 ∈ rem)))) with
    | none =>
      have : ∀ x ∈ rem, ∃ y ∈ rem, (y, x) ∈ es := by
        intro x hx
        have := List.find?_eq_none.1 hf x hx
        simp only [List.all_eq_true, not_forall, Bool.not_eq_true', Bool.not_eq_false] at this
        obtain ⟨⟨a, b⟩, he, h⟩ := this
        simp only [Bool.and_eq_true, decide_eq_true_eq] at h
        obtain ⟨rfl, h2⟩ := h
        exact ⟨a, h2, he⟩
      obtain ⟨x, hx⟩ := exists_cycle rem hne this
      exact fun hac => hac x hx
    | some x =>
      simp only [hf, Option.map_eq_none_iff] at h
      have hx : x ∈ rem := List.mem_of_find?_eq_some hf
      refine kahnLoop_none n _ (hn.filter _) ?_ h
      have : (rem.filter (fun y => decide (y ≠ x))).length < rem.length :=
        List.length_filter_lt_length_iff_exists.2 ⟨x, hx, by simp⟩
      omega

/-- `TopoSpec` has an instance. -/
theorem kahn_spec : TopoSpec kahn where
  nodup es l h := (kahnLoop_some _ _ l (eraseDups_pairwise _ _ (Nat.le_refl _)) h).1
  mem es l h x := by
    rw [(kahnLoop_some _ _ l (eraseDups_pairwise _ _ (Nat.le_refl _)) h).2.1 x]
    exact mem_edgeNodes
  order es l h a b hab := (kahnLoop_some _ _ l (eraseDups_pairwise _ _ (Nat.le_refl _)) h).2.2 a b hab
    (mem_edgeNodes.2 ⟨_, hab, .inl rfl⟩) (mem_edgeNodes.2 ⟨_, hab, .inr rfl⟩)
  cyclic es h := kahnLoop_none _ _ (eraseDups_pairwise _ _ (Nat.le_refl _)) (Nat.le_refl _) h

/-- Three functions, `f` calling `g`, `g` calling `h` and itself, with an axiom in between. -/
def topoDemo : List Item :=
  [ .fn ⟨"f", .int, [("x", .int)], some (mkCall "g" .int [.var "x" .int]), false⟩,
    .ax (mkEq (mkCall "g" .int [intLit 0]) (intLit 1)),
    .fn ⟨"g", .int, [("x", .int)],
      some (.node .add .int [mkCall "h" .int [.var "x" .int], mkCall "g" .int [.var "x" .int]]), true⟩,
    .fn ⟨"h", .int, [("x", .int)], some (.var "x" .int), false⟩,
    .fn ⟨"k", .int, [], none, false⟩ ]

/-- The example meets the hypothesis of the theorem and is sorted as expected. -/
example : ((Item.fns topoDemo).map FnDecl.name).Nodup := by decide

/-- Name of the function of an item. -/
def Item.name? : Item → Option String
  | .fn f => some f.name
  | .ax _ => none

example : (topologicalSort kahn id topoDemo).map (List.map Item.name?) =
    some [some "h", some "g", some "f", some "k", none] := by decide

/-- Two declarations with the same name: one of them is silently dropped, for every behaviour of networkx and of set
iteration. -/
theorem C16_duplicate_names_refuted : ∃ items : List Item, Acyclic (MentionsFn (Item.fns items)) ∧
    ∀ topo, TopoSpec topo → ∀ setOrder : List String → List String, (∀ l, (setOrder l).Perm l) →
      ∃ r, topologicalSort topo setOrder items = some r ∧ ¬ r.Perm items := by
  refine ⟨[.fn ⟨"f", .int, [], some (intLit 1), false⟩, .fn ⟨"f", .int, [], some (intLit 2), false⟩], ?_, ?_⟩
  · intro x hx
    have : ∀ a b, ¬ MentionsFn (Item.fns [.fn ⟨"f", .int, [], some (intLit 1), false⟩,
        .fn ⟨"f", .int, [], some (intLit 2), false⟩]) a b := by
      intro a b h
      have := mem_depEdges.2 h
      simp [depEdges, Item.fns, dependentFnNames, intLit, Expr.strs] at this
    cases hx with
    | single h => exact this _ _ h
    | tail _ h => exact this _ _ h
  · intro topo ht so hso
    have hE : depEdges (Item.fns [.fn ⟨"f", .int, [], some (intLit 1), false⟩,
        .fn ⟨"f", .int, [], some (intLit 2), false⟩]) = [] := by
      simp [depEdges, Item.fns, dependentFnNames, intLit, Expr.strs]
    cases ho : topo [] with
    | none =>
      refine absurd ?_ (ht.cyclic [] ho)
      intro x hx
      cases hx with
      | single h => simp at h
      | tail _ h => simp at h
    | some l =>
      have hl : l = [] := by
        apply List.eq_nil_iff_forall_not_mem.2
        intro x hx
        simpa using (ht.mem [] l ho x).1 hx
      subst hl
      have hs : so ["f"] = ["f"] := by
        have := hso ["f"]
        simpa using this
      refine ⟨[.fn ⟨"f", .int, [], some (intLit 2), false⟩], ?_, ?_⟩
      · simp only [topologicalSort, hE, ho]
        simp [Item.fns, List.eraseDups_cons, hs, declOf]
        rfl
      · intro hp
        have := hp.length_eq
        simp at this

/-- A variable that happens to be named like a function counts as a use of that function: here `f` has a parameter `g` and `g`
calls `f`; no function calls another in a cycle, yet sorting fails for every behaviour of networkx. -/
theorem C16_variable_name_refuted : ∃ items : List Item, ((Item.fns items).map FnDecl.name).Nodup ∧
    Acyclic (CallsFn (Item.fns items)) ∧
    ∀ topo, TopoSpec topo → ∀ setOrder : List String → List String, (∀ l, (setOrder l).Perm l) →
      topologicalSort topo setOrder items = none := by
  let items : List Item :=
    [ .fn ⟨"f", .int, [("g", .int)], some (.var "g" .int), false⟩,
      .fn ⟨"g", .int, [], some (mkCall "f" .int [intLit 3]), false⟩ ]
  have hn : ((Item.fns items).map FnDecl.name).Nodup := by decide
  refine ⟨items, hn, ?_, ?_⟩
  · have h1 : ∀ a b, CallsFn (Item.fns items) a b → a = "f" ∧ b = "g" := by
      rintro a b ⟨hne, ha, d, hd, hdn, bd, hb, hc⟩
      simp only [items, Item.fns, List.mem_cons, List.not_mem_nil, or_false] at hd
      rcases hd with rfl | rfl
      · simp at hb; subst hb; cases hc
      · simp at hb; subst hb
        simp at hdn
        cases hc with
        | here => exact ⟨rfl, hdn.symm⟩
        | arg h hc =>
          simp at h; subst h; cases hc
    intro x hx
    have : ∀ y, Relation.TransGen (CallsFn (Item.fns items)) x y → x = "f" ∧ y = "g" := by
      intro y hy
      induction hy with
      | single h => exact h1 _ _ h
      | tail _ h ih => exact ⟨ih.1, (h1 _ _ h).2⟩
    have := this x hx
    rw [this.1] at this
    exact absurd this.2 (by decide)
  · intro topo ht so hso
    have hth := (C16_topological_sort_partial topo ht so hso items hn).2
    cases hr : topologicalSort topo so items with
    | none => rfl
    | some r =>
      have hac := hth.2 ⟨r, hr⟩
      have e1 : MentionsFn (Item.fns items) "g" "f" :=
        ⟨by decide, by decide, ⟨"f", .int, [("g", .int)], some (.var "g" .int), false⟩, by simp [items, Item.fns], rfl,
          _, rfl, .var⟩
      have e2 : MentionsFn (Item.fns items) "f" "g" :=
        ⟨by decide, by decide, ⟨"g", .int, [], some (mkCall "f" .int [intLit 3]), false⟩, by simp [items, Item.fns], rfl,
          _, rfl, .call⟩
      exact absurd (.tail (.single e1) e2) (hac "g")

end Metalift
