import Verif.PSmtQuery
/-
C47: the solver accepts the query: every symbol is declared before it is used, and no symbol is declared twice.
-/
namespace Metalift
namespace Smt

/-! ### Specification -/

/-- The calls of `e` go to functions that are known to the solver (`F0`) or declared in `fns`, with the right number of arguments, and are not
hidden by a parameter. -/
def CallsKnown (F0 : String → Option Nat) (fns : List FnDecl) (ps : List (String × Ty)) (e : Expr) : Prop :=
  ∀ c ∈ calls e, fnName c.1 = true →
    (F0 c.1 = some c.2 ∨ ∃ g ∈ fns, g.name = c.1 ∧ g.params.length = c.2) ∧ c.1 ∉ ps.map Prod.fst

/-- Queries in which every function called is known or declared, with the right number of arguments, and the names are
different.  `F0` are the functions of the files of definitions. -/
structure Complete (F0 : String → Option Nat) (lang : List FnDecl) (axs : List Ax) (cands : List FnDecl)
    (vars : List (String × Ty)) (vc : Expr) : Prop where
  names : (lang.map FnDecl.name ++ (cands.map FnDecl.name ++ vars.map Prod.fst)).Nodup
  unknown : ∀ n ∈ lang.map FnDecl.name ++ (cands.map FnDecl.name ++ vars.map Prod.fst), F0 n = none
  varNames : ∀ v ∈ vars, v.1 ∉ reserved
  paramNames : ∀ d ∈ lang ++ cands, ∀ p ∈ d.params, p.1 ∉ reserved
  axNames : ∀ a ∈ axs, a.vars ≠ [] ∧ ∀ p ∈ a.vars, p.1 ∉ reserved
  /-- a `FnDecl` without body is not written -/
  langWritten : ∀ d ∈ lang, written d = true
  langCalls : ∀ d ∈ lang, ∀ b ∈ d.body, CallsKnown F0 lang d.params b
  axCalls : ∀ a ∈ axs, CallsKnown F0 lang a.vars a.body
  candCalls : ∀ d ∈ cands, ∀ b ∈ d.body, CallsKnown F0 (lang ++ cands) d.params b
  vcCalls : CallsKnown F0 (lang ++ cands) [] vc
  /-- a `FnDecl` does not call itself -/
  selfCalls : ∀ d ∈ lang ++ cands, d.recursive = false → ∀ b ∈ d.body, ∀ c ∈ calls b, c.1 ≠ d.name

/-! ### Lemmas -/

/-- The functions known after the declarations. -/
def addFns (F : String → Option Nat) (l : List FnDecl) : String → Option Nat :=
  l.foldl (fun F d => declare F d.name d.params.length) F

/-- The constants known after their declarations. -/
def addConsts (F : String → Option Nat) (l : List (String × Ty)) : String → Option Nat :=
  l.foldl (fun F v => declare F v.1 0) F

theorem addFns_not_mem {l : List FnDecl} {F : String → Option Nat} {n : String} (h : n ∉ l.map FnDecl.name) :
    addFns F l n = F n := by
  induction l generalizing F with
  | nil => rfl
  | cons d l ih =>
    simp only [List.map_cons, List.mem_cons, not_or] at h
    have e : addFns F (d :: l) = addFns (declare F d.name d.params.length) l := rfl
    rw [e, ih h.2, declare, if_neg h.1]

theorem addFns_mem {l : List FnDecl} {F : String → Option Nat} (hn : (l.map FnDecl.name).Nodup) {d : FnDecl} (h : d ∈ l) :
    addFns F l d.name = some d.params.length := by
  induction l generalizing F with
  | nil => simp at h
  | cons e l ih =>
    simp only [List.map_cons, List.nodup_cons] at hn
    have e1 : addFns F (e :: l) = addFns (declare F e.name e.params.length) l := rfl
    rw [e1]
    rcases List.mem_cons.1 h with rfl | h
    · rw [addFns_not_mem hn.1]
      simp [declare]
    · exact ih hn.2 h

theorem addConsts_not_mem {l : List (String × Ty)} {F : String → Option Nat} {n : String} (h : n ∉ l.map Prod.fst) :
    addConsts F l n = F n := by
  induction l generalizing F with
  | nil => rfl
  | cons d l ih =>
    simp only [List.map_cons, List.mem_cons, not_or] at h
    have e : addConsts F (d :: l) = addConsts (declare F d.1 0) l := rfl
    rw [e, ih h.2, declare, if_neg h.1]

theorem addConsts_mem {l : List (String × Ty)} {F : String → Option Nat} {n : String} (h : n ∈ l.map Prod.fst) :
    addConsts F l n = some 0 := by
  induction l generalizing F with
  | nil => simp at h
  | cons e l ih =>
    have e1 : addConsts F (e :: l) = addConsts (declare F e.1 0) l := rfl
    rw [e1]
    by_cases hm : n ∈ l.map Prod.fst
    · exact ih hm
    · rw [addConsts_not_mem hm]
      simp only [List.map_cons, List.mem_cons] at h
      simp [declare, h.resolve_right hm]

theorem accepts_cons {F F' : String → Option Nat} {c : SExpr} {cs : List SExpr} (h : accept1 F c = some F') :
    accepts F (c :: cs) = accepts F' cs := by
  simp [accepts, h]

theorem fnName_fresh {F : String → Option Nat} {f : String} (h : fnName f = true) (hF : F f = none) : fresh F f = true := by
  simp only [fnName, Bool.and_eq_true, Bool.not_eq_true'] at h
  simp only [fresh, h.1.1, hF, h.2]
  rfl

theorem accept_decl {F : String → Option Nat} {d : FnDecl} (h : declOk d = true) (hF : F d.name = none)
    (hp : ∀ p ∈ d.params, p.1 ∉ reserved)
    (hb : ∀ b ∈ d.body, Declared (if d.recursive then declare F d.name d.params.length else F) (d.params.map Prod.fst) b) :
    accept1 F (sxDecl d) = some (declare F d.name d.params.length) := by
  simp only [declOk, Bool.and_eq_true] at h
  obtain ⟨⟨⟨⟨h1, h2⟩, h3⟩, h4⟩, h5⟩ := h
  have hfr := fnName_fresh h1 hF
  cases hbd : d.body with
  | none =>
    have e : sxDecl d = .list [.atom "declare-fun", .atom d.name, .list (sortSxs (d.params.map Prod.snd)), sortSx d.ret] := by
      simp [sxDecl, hbd]
    rw [e]
    simp [accept1, hfr, sortSxs_length]
  | some b =>
    rw [hbd] at h5
    simp only [Bool.and_eq_true] at h5
    have hx : ∀ x ∈ d.params.map Prod.fst, x ∉ reserved := by
      intro x hx
      obtain ⟨p, hp', rfl⟩ := List.mem_map.1 hx
      exact hp p hp'
    have hok := sx_ok hx b h5.1 (hb b hbd)
    have e : sxDecl d = .list [.atom (if d.recursive then "define-fun-rec" else "define-fun"), .atom d.name, .list (d.params.map sxParam),
      sortSx d.ret, sx b] := by simp [sxDecl, hbd]
    rw [e]
    cases hr : d.recursive with
    | true =>
      rw [hr] at hok
      simp only [if_true] at hok
      simp [accept1, binders_params, hfr, Function.comp_def, hok]
    | false =>
      rw [hr] at hok
      simp only [Bool.false_eq_true, if_false] at hok
      simp [accept1, binders_params, hfr, Function.comp_def, hok]

/-- Declarations in an order in which functions are declared before they are used. -/
theorem accept_decls : ∀ (l : List FnDecl) (F : String → Option Nat), (l.map FnDecl.name).Nodup → (∀ d ∈ l, declOk d = true) →
    (∀ d ∈ l, F d.name = none) → (∀ d ∈ l, ∀ p ∈ d.params, p.1 ∉ reserved) →
    (∀ l1 d l2, l = l1 ++ d :: l2 → ∀ b ∈ d.body,
      Declared (if d.recursive then declare (addFns F l1) d.name d.params.length else addFns F l1) (d.params.map Prod.fst) b) →
    ∀ cs, accepts F (l.map sxDecl ++ cs) = accepts (addFns F l) cs
  | [], F, _, _, _, _, _, cs => rfl
  | d :: l, F, hn, hok, hF, hp, hb, cs => by
    simp only [List.map_cons, List.nodup_cons] at hn
    have h1 := accept_decl (hok d List.mem_cons_self) (hF d List.mem_cons_self) (hp d List.mem_cons_self) (hb [] d l rfl)
    rw [List.map_cons, List.cons_append, accepts_cons h1]
    have := accept_decls l (declare F d.name d.params.length) hn.2 (fun e he => hok e (List.mem_cons_of_mem _ he))
      (fun e he => by
        have : e.name ≠ d.name := fun h => hn.1 (h ▸ List.mem_map_of_mem he)
        rw [declare, if_neg this]
        exact hF e (List.mem_cons_of_mem _ he))
      (fun e he => hp e (List.mem_cons_of_mem _ he))
      (fun l1 e l2 h => by
        have := hb (d :: l1) e l2 (by rw [h]; rfl)
        exact this) cs
    rw [this]
    rfl

theorem split_unique {α : Type} {l1 l2 m1 m2 : List α} {d : α} (hn : (l1 ++ d :: l2).Nodup) (h : l1 ++ d :: l2 = m1 ++ d :: m2) :
    l1 = m1 := by
  induction l1 generalizing m1 with
  | nil =>
    cases m1 with
    | nil => rfl
    | cons a m1 =>
      simp only [List.nil_append, List.cons_append, List.cons.injEq] at h
      obtain ⟨rfl, h⟩ := h
      simp only [List.nil_append, List.nodup_cons] at hn
      exact absurd (by rw [h]; simp) hn.1
  | cons a l1 ih =>
    cases m1 with
    | nil =>
      simp only [List.nil_append, List.cons_append, List.cons.injEq] at h
      obtain ⟨rfl, h⟩ := h
      simp only [List.cons_append, List.nodup_cons] at hn
      exact absurd (by simp) hn.1
    | cons b m1 =>
      simp only [List.cons_append, List.cons.injEq] at h
      simp only [List.cons_append, List.nodup_cons] at hn
      rw [h.1, ih hn.2 h.2]

theorem callss_mem {c : String × Nat} {es : List Expr} (h : c ∈ callss es) : ∃ a ∈ es, c ∈ calls a := by
  induction es with
  | nil => simp [callss] at h
  | cons e es ih =>
    simp only [callss, List.mem_append] at h
    rcases h with h | h
    · exact ⟨e, List.mem_cons_self, h⟩
    · obtain ⟨a, ha, h⟩ := ih h
      exact ⟨a, List.mem_cons_of_mem _ ha, h⟩

theorem calls_Calls {c : String × Nat} (e : Expr) : c ∈ calls e → e.Calls c.1 := by
  induction e using Expr.ind with
  | hv n t => intro h; simp [calls] at h
  | hl l => intro h; simp [calls] at h
  | hn op t args ih =>
    intro h
    have key : c ∈ callss args → Expr.Calls c.1 (.node op t args) := by
      intro h
      obtain ⟨a, ha, h⟩ := callss_mem h
      exact .arg ha (ih a ha h)
    cases op with
    | call f =>
      simp only [calls, List.mem_cons] at h
      rcases h with rfl | h
      · exact .here
      · exact key h
    | _ => exact key (by simpa [calls] using h)

/-- Called functions of the list come before the callers. -/
theorem sorted_before {topo : List (String × String) → Option (List String)} (htopo : TopoSpec topo)
    {setOrder : List String → List String} (hset : ∀ l, (setOrder l).Perm l) {l r : List FnDecl} (hn : (l.map FnDecl.name).Nodup)
    (h : sortFns topo setOrder l = some r) {l1 l2 : List FnDecl} {d g : FnDecl} (hr : r = l1 ++ d :: l2) (hg : g ∈ l) (hne : g.name ≠ d.name)
    {b : Expr} (hb : d.body = some b) {c : String × Nat} (hc : c ∈ calls b) (hgc : g.name = c.1) : g ∈ l1 := by
  have hperm := sortFns_perm htopo hset hn h
  simp only [sortFns, Option.map_eq_some_iff] at h
  obtain ⟨is, his, hri⟩ := h
  have h16 := (C16_topological_sort_partial topo htopo setOrder hset (l.map Item.fn) (by rw [fns_map]; exact hn)).1 is his
  rw [fns_map] at h16
  have hd : d ∈ l := hperm.mem_iff.1 (by rw [hr]; simp)
  obtain ⟨a1, a2, a3, hbef⟩ := h16.2.2 d hd g hg
    ⟨hne, List.mem_map_of_mem hg, d, hd, rfl, b, hb, by rw [hgc]; exact calls_Calls b hc⟩
  have happ : ∀ a b : List Item, Item.fns (a ++ b) = Item.fns a ++ Item.fns b := by
    intro a b
    induction a with
    | nil => rfl
    | cons x a ih => cases x <;> simp [Item.fns, ih]
  have hr' : r = (Item.fns a1 ++ g :: Item.fns a2) ++ d :: Item.fns a3 := by
    rw [← hri, hbef]
    simp [happ, Item.fns]
  have hnd : r.Nodup := by
    have : (r.map FnDecl.name).Nodup := (hperm.map _).nodup_iff.2 hn
    exact List.Nodup.of_map _ this
  have : l1 = Item.fns a1 ++ g :: Item.fns a2 := split_unique (by rw [← hr]; exact hnd) (by rw [← hr, hr'])
  rw [this]
  simp

theorem accept_consts : ∀ (l : List (String × Ty)) (F : String → Option Nat), (l.map Prod.fst).Nodup → (∀ v ∈ l, varName v.1 = true) →
    (∀ v ∈ l, v.1 ∉ reserved) → (∀ v ∈ l, F v.1 = none) → ∀ cs, accepts F (l.map sxConst ++ cs) = accepts (addConsts F l) cs
  | [], F, _, _, _, _, cs => rfl
  | v :: l, F, hn, hok, hres, hF, cs => by
    simp only [List.map_cons, List.nodup_cons] at hn
    have hv := hok v List.mem_cons_self
    simp only [varName, Bool.and_eq_true] at hv
    have hfr : fresh F v.1 = true := by
      have := hres v List.mem_cons_self
      simp [fresh, hv.1.1.1, hF v List.mem_cons_self, this]
    have h1 : accept1 F (sxConst v) = some (declare F v.1 0) := by simp [sxConst, accept1, hfr]
    rw [List.map_cons, List.cons_append, accepts_cons h1]
    rw [accept_consts l (declare F v.1 0) hn.2 (fun w hw => hok w (List.mem_cons_of_mem _ hw))
      (fun w hw => hres w (List.mem_cons_of_mem _ hw))
      (fun w hw => by
        have : w.1 ≠ v.1 := fun h => hn.1 (h ▸ List.mem_map_of_mem hw)
        rw [declare, if_neg this]
        exact hF w (List.mem_cons_of_mem _ hw)) cs]
    rfl

theorem accept_axs {F : String → Option Nat} : ∀ (l : List Ax), (∀ a ∈ l, printable a.body = true ∧ a.vars ≠ [] ∧
    (∀ p ∈ a.vars, p.1 ∉ reserved) ∧ Declared F (a.vars.map Prod.fst) a.body) → ∀ cs, accepts F (l.map sxAx ++ cs) = accepts F cs
  | [], _, cs => rfl
  | a :: l, h, cs => by
    obtain ⟨h1, h2, h3, h4⟩ := h a List.mem_cons_self
    have hx : ∀ x ∈ a.vars.map Prod.fst, x ∉ reserved := by
      intro x hx
      obtain ⟨p, hp', rfl⟩ := List.mem_map.1 hx
      exact h3 p hp'
    have hok := sx_ok hx a.body h1 h4
    have : accept1 F (sxAx a) = some F := by
      simp [sxAx, accept1, binders_params, Function.comp_def, hok, h2]
    rw [List.map_cons, List.cons_append, accepts_cons this]
    exact accept_axs l (fun b hb => h b (List.mem_cons_of_mem _ hb)) cs

theorem declared_of {F : String → Option Nat} {ps : List (String × Ty)} {e : Expr} (hs : scopedIn ps e = true)
    (hc : ∀ c ∈ calls e, fnName c.1 = true → F c.1 = some c.2 ∧ c.1 ∉ ps.map Prod.fst) : Declared F (ps.map Prod.fst) e := by
  simp only [scopedIn, Bool.and_eq_true, List.all_eq_true, decide_eq_true_eq] at hs
  exact ⟨fun p hp => .inl (List.mem_map_of_mem (hs.1 p hp)), hc⟩

/-! ### C47 -/

/-- **C47.** Every symbol of the text is declared before it is used, none is declared twice and every function is applied to the declared
number of arguments: the solver accepts the text after the files of definitions (`F0`).  (Sorts are not checked.) -/
theorem C47_query_accepted_partial (topo : List (String × String) → Option (List String)) (htopo : TopoSpec topo)
    (setOrder : List String → List String) (hset : ∀ l, (setOrder l).Perm l) (lang : List FnDecl) (axs : List Ax)
    (cands : List FnDecl) (vars : List (String × Ty)) (vc : Expr) (hq : QueryOk lang axs cands vars vc)
    (F0 : String → Option Nat) (hcomp : Complete F0 lang axs cands vars vc) (text : String)
    (ht : queryText topo setOrder lang axs cands vars vc = some text) :
    ∃ cs, readScript text = some cs ∧ accepts F0 cs = true := by
  obtain ⟨lang', cands', hl, hc, hread⟩ := query_reads htopo hset hq ht
  have pl := sortFns_perm htopo hset hq.langNames hl
  have pc := sortFns_perm htopo hset hq.candNames hc
  refine ⟨_, hread, ?_⟩
  have hfil : lang'.filter written = lang' := List.filter_eq_self.2 (fun d hd => hcomp.langWritten d (pl.mem_iff.1 hd))
  have hln : (lang'.map FnDecl.name).Nodup := (pl.map _).nodup_iff.2 hq.langNames
  have hcn : (cands'.map FnDecl.name).Nodup := (pc.map _).nodup_iff.2 hq.candNames
  have hnames := hcomp.names
  rw [List.nodup_append] at hnames
  obtain ⟨_, hn2, hdis⟩ := hnames
  rw [List.nodup_append] at hn2
  obtain ⟨_, hvn, hdis2⟩ := hn2
  have hcand : ∀ d ∈ cands', declOk d = true := by
    intro d hd
    have := hq.candOk d (pc.mem_iff.1 hd)
    simp only [candOk, Bool.and_eq_true] at this
    exact this.1
  -- what is known after the target language
  have F1 : ∀ n, F0 n = none → n ∉ lang.map FnDecl.name → addFns F0 lang' n = none := by
    intro n h1 h2
    rw [addFns_not_mem (by rw [(pl.map FnDecl.name).mem_iff]; exact h2), h1]
  have F1known : ∀ n k, F0 n = some k → addFns F0 lang' n = some k := by
    intro n k h
    rw [addFns_not_mem, h]
    intro hm
    rw [(pl.map FnDecl.name).mem_iff] at hm
    have := hcomp.unknown n (List.mem_append_left _ hm)
    rw [h] at this
    cases this
  have F1lang : ∀ g ∈ lang, addFns F0 lang' g.name = some g.params.length := fun g hg => addFns_mem hln (pl.mem_iff.2 hg)
  -- what is known after the candidates
  have F2old : ∀ n k, addFns F0 lang' n = some k → (n ∉ cands.map FnDecl.name) → addFns (addFns F0 lang') cands' n = some k := by
    intro n k h1 h2
    rw [addFns_not_mem (by rw [(pc.map FnDecl.name).mem_iff]; exact h2), h1]
  have F2 : ∀ n k, (F0 n = some k ∨ ∃ g ∈ lang ++ cands, g.name = n ∧ g.params.length = k) →
      addFns (addFns F0 lang') cands' n = some k := by
    rintro n k (h | ⟨g, hg, rfl, rfl⟩)
    · refine F2old n k (F1known n k h) ?_
      intro hm
      have := hcomp.unknown n (List.mem_append_right _ (List.mem_append_left _ hm))
      rw [h] at this
      cases this
    · rcases List.mem_append.1 hg with hg | hg
      · refine F2old _ _ (F1lang g hg) ?_
        intro hm
        exact hdis _ (List.mem_map_of_mem hg) _ (List.mem_append_left _ hm) rfl
      · exact addFns_mem hcn (pc.mem_iff.2 hg)
  rw [sxQuery, hfil]
  -- target language
  rw [accept_decls lang' F0 hln (fun d hd => hq.langOk d (pl.mem_iff.1 hd))
    (fun d hd => hcomp.unknown _ (List.mem_append_left _ (List.mem_map_of_mem (pl.mem_iff.1 hd))))
    (fun d hd => hcomp.paramNames d (List.mem_append_left _ (pl.mem_iff.1 hd)))]
  rotate_left
  · intro l1 d l2 hsplit b hb
    have hd : d ∈ lang := pl.mem_iff.1 (by rw [hsplit]; simp)
    have hok := hq.langOk d hd
    simp only [declOk, Bool.and_eq_true, Option.mem_def.1 hb] at hok
    refine declared_of hok.2.2 ?_
    intro c hc hf
    obtain ⟨hk, hnp⟩ := hcomp.langCalls d hd b hb c hc hf
    refine ⟨?_, hnp⟩
    have hl1n : (l1.map FnDecl.name).Nodup := by
      rw [hsplit, List.map_append, List.nodup_append] at hln
      exact hln.1
    have hdl1 : d.name ∉ l1.map FnDecl.name := by
      rw [hsplit, List.map_append, List.nodup_append] at hln
      intro hm
      exact hln.2.2 _ hm _ (by simp) rfl
    have base : c.1 ≠ d.name → addFns F0 l1 c.1 = some c.2 := by
      intro hne
      rcases hk with hk | ⟨g, hg, hgn, hgl⟩
      · rw [addFns_not_mem, hk]
        intro hm
        have : c.1 ∈ lang.map FnDecl.name := by
          rw [← (pl.map FnDecl.name).mem_iff, hsplit, List.map_append]
          exact List.mem_append_left _ hm
        have := hcomp.unknown _ (List.mem_append_left _ this)
        rw [hk] at this
        cases this
      · have hg1 : g ∈ l1 := sorted_before htopo hset hq.langNames hl hsplit hg (by rw [hgn]; exact hne) hb hc hgn
        rw [← hgn, addFns_mem hl1n hg1, hgl]
    cases hr : d.recursive with
    | true =>
      simp only [if_true, declare]
      by_cases he : c.1 = d.name
      · rw [if_pos he]
        rcases hk with hk | ⟨g, hg, hgn, hgl⟩
        · have := hcomp.unknown _ (List.mem_append_left _ (List.mem_map_of_mem hd))
          rw [← he, hk] at this
          cases this
        · have : g = d := List.inj_on_of_nodup_map hq.langNames hg hd (by rw [hgn, he])
          rw [← this, hgl]
      · rw [if_neg he]
        exact base he
    | false =>
      simp only [Bool.false_eq_true, if_false]
      exact base (hcomp.selfCalls d (List.mem_append_left _ hd) hr b hb c hc)
  -- axioms
  rw [accept_axs axs (fun a ha => ⟨(hq.axOk a ha).2.1, (hcomp.axNames a ha).1, (hcomp.axNames a ha).2, declared_of (hq.axOk a ha).2.2 (by
    intro c hc hf
    obtain ⟨hk, hnp⟩ := hcomp.axCalls a ha c hc hf
    refine ⟨?_, hnp⟩
    rcases hk with hk | ⟨g, hg, hgn, hgl⟩
    · exact F1known _ _ hk
    · rw [← hgn, F1lang g hg, hgl])⟩)]
  -- candidates
  rw [accept_decls cands' (addFns F0 lang') hcn hcand
    (fun d hd => by
      have hd' := pc.mem_iff.1 hd
      refine F1 _ (hcomp.unknown _ (List.mem_append_right _ (List.mem_append_left _ (List.mem_map_of_mem hd')))) ?_
      intro hm
      exact hdis _ hm _ (List.mem_append_left _ (List.mem_map_of_mem hd')) rfl)
    (fun d hd => hcomp.paramNames d (List.mem_append_right _ (pc.mem_iff.1 hd)))]
  rotate_left
  · intro l1 d l2 hsplit b hb
    have hd' : d ∈ cands' := by rw [hsplit]; simp
    have hd : d ∈ cands := pc.mem_iff.1 hd'
    have hok := hcand d hd'
    simp only [declOk, Bool.and_eq_true, Option.mem_def.1 hb] at hok
    refine declared_of hok.2.2 ?_
    intro c hc' hf
    obtain ⟨hk, hnp⟩ := hcomp.candCalls d hd b hb c hc' hf
    refine ⟨?_, hnp⟩
    have hl1n : (l1.map FnDecl.name).Nodup := by
      rw [hsplit, List.map_append, List.nodup_append] at hcn
      exact hcn.1
    have sub : ∀ n, n ∈ l1.map FnDecl.name → n ∈ cands.map FnDecl.name := by
      intro n hm
      rw [← (pc.map FnDecl.name).mem_iff, hsplit, List.map_append]
      exact List.mem_append_left _ hm
    have base : c.1 ≠ d.name → addFns (addFns F0 lang') l1 c.1 = some c.2 := by
      intro hne
      rcases hk with hk | ⟨g, hg, hgn, hgl⟩
      · rw [addFns_not_mem, F1known _ _ hk]
        intro hm
        have := hcomp.unknown _ (List.mem_append_right _ (List.mem_append_left _ (sub _ hm)))
        rw [hk] at this
        cases this
      · rcases List.mem_append.1 hg with hg | hg
        · rw [addFns_not_mem, ← hgn, F1lang g hg, hgl]
          intro hm
          exact hdis _ (List.mem_map_of_mem hg) _ (List.mem_append_left _ (sub _ (by rw [hgn]; exact hm))) rfl
        · have hg1 : g ∈ l1 := sorted_before htopo hset hq.candNames hc hsplit hg (by rw [hgn]; exact hne) hb hc' hgn
          rw [← hgn, addFns_mem hl1n hg1, hgl]
    cases hr : d.recursive with
    | true =>
      simp only [if_true, declare]
      by_cases he : c.1 = d.name
      · rw [if_pos he]
        rcases hk with hk | ⟨g, hg, hgn, hgl⟩
        · have := hcomp.unknown _ (List.mem_append_right _ (List.mem_append_left _ (List.mem_map_of_mem hd)))
          rw [← he, hk] at this
          cases this
        · rcases List.mem_append.1 hg with hg | hg
          · exfalso
            exact hdis _ (List.mem_map_of_mem hg) _ (List.mem_append_left _ (List.mem_map_of_mem hd)) (by rw [hgn, he])
          · have : g = d := List.inj_on_of_nodup_map hq.candNames hg hd (by rw [hgn, he])
            rw [← this, hgl]
      · rw [if_neg he]
        exact base he
    | false =>
      simp only [Bool.false_eq_true, if_false]
      exact base (hcomp.selfCalls d (List.mem_append_right _ hd) hr b hb c hc')
  -- constants
  have hvars := hq.varsOk
  simp only [paramsOk, Bool.and_eq_true, List.all_eq_true] at hvars
  have hvfresh : ∀ v ∈ vars, v.1 ∉ cands.map FnDecl.name ∧ v.1 ∉ lang.map FnDecl.name := by
    intro v hv
    exact ⟨fun hm => hdis2 _ hm _ (List.mem_map_of_mem hv) rfl,
      fun hm => hdis _ hm _ (List.mem_append_right _ (List.mem_map_of_mem hv)) rfl⟩
  rw [accept_consts vars _ hvn (fun v hv => (hvars.1 v hv).1) hcomp.varNames (fun v hv => by
    rw [addFns_not_mem (by rw [(pc.map FnDecl.name).mem_iff]; exact (hvfresh v hv).1)]
    exact F1 _ (hcomp.unknown _ (List.mem_append_right _ (List.mem_append_right _ (List.mem_map_of_mem hv)))) (hvfresh v hv).2)]
  -- the condition
  have hs := hq.vcOk.2.2
  simp only [scopedIn, Bool.and_eq_true, List.all_eq_true, decide_eq_true_eq] at hs
  have hdecl : Declared (addConsts (addFns (addFns F0 lang') cands') vars) [] (mkNot vc) := by
    constructor
    · intro p hp
      have hp' : p ∈ occs vc := by simpa [mkNot, occs, occss] using hp
      exact .inr (addConsts_mem (List.mem_map_of_mem (hs.1 p hp')))
    · intro c hc hf
      have hc' : c ∈ calls vc := by simpa [mkNot, calls, callss] using hc
      have hk := (hcomp.vcCalls c hc' hf).1
      refine ⟨?_, by simp⟩
      rw [addConsts_not_mem, F2 _ _ hk]
      intro hm
      rcases hk with hk | ⟨g, hg, hgn, _⟩
      · have := hcomp.unknown _ (List.mem_append_right _ (List.mem_append_right _ hm))
        rw [hk] at this
        cases this
      · obtain ⟨v, hv, hve⟩ := List.mem_map.1 hm
        rcases List.mem_append.1 hg with hg | hg
        · exact (hvfresh v hv).2 (by rw [hve, ← hgn]; exact List.mem_map_of_mem hg)
        · exact (hvfresh v hv).1 (by rw [hve, ← hgn]; exact List.mem_map_of_mem hg)
  have hgoal := sx_ok (xs := []) (by simp) (mkNot vc) (printable_not hq.vcOk.1) hdecl
  have e : sx (mkNot vc) = .list [.atom "not", sx vc] := by simp [mkNot, sx, sxs, headSym, headArgs, opName, app]
  have h1 : accept1 (addConsts (addFns (addFns F0 lang') cands') vars) (.list [.atom "assert", sx (mkNot vc)]) =
      some (addConsts (addFns (addFns F0 lang') cands') vars) := by
    rw [e] at hgoal ⊢
    simp [accept1, hgoal]
  rw [accepts_cons h1]
  simp [accepts, accept1]

/-- The text can be written when no function of the target language and no synthesised function depends on itself through others
(variables named like functions count, see C16). -/
theorem C46_query_written_partial (topo : List (String × String) → Option (List String)) (htopo : TopoSpec topo)
    (setOrder : List String → List String) (hset : ∀ l, (setOrder l).Perm l) (lang : List FnDecl) (axs : List Ax)
    (cands : List FnDecl) (vars : List (String × Ty)) (vc : Expr) (hq : QueryOk lang axs cands vars vc)
    (hl : Acyclic (MentionsFn lang)) (hc : Acyclic (MentionsFn cands)) :
    ∃ text, queryText topo setOrder lang axs cands vars vc = some text := by
  have sorted : ∀ l : List FnDecl, (l.map FnDecl.name).Nodup → Acyclic (MentionsFn l) → ∃ r, sortFns topo setOrder l = some r ∧ r.Perm l := by
    intro l hn ha
    obtain ⟨is, his⟩ := (C16_topological_sort_partial topo htopo setOrder hset (l.map Item.fn) (by rw [fns_map]; exact hn)).2.1
      (by rw [fns_map]; exact ha)
    have h : sortFns topo setOrder l = some (Item.fns is) := by simp [sortFns, his]
    exact ⟨_, h, sortFns_perm htopo hset hn h⟩
  obtain ⟨lang', hl', pl⟩ := sorted lang hq.langNames hl
  obtain ⟨cands', hc', pc⟩ := sorted cands hq.candNames hc
  have hcf : cands.map filterCand = cands := by
    have : ∀ d ∈ cands, filterCand d = id d := fun d hd => filterCand_eq (hq.candOk d hd)
    rw [List.map_congr_left this, List.map_id]
  obtain ⟨a1, ha1, _⟩ := mapM_denotes (f := declText) (g := sxDecl) (l := lang'.filter written)
    (fun d hd => decl_denotes (hq.langOk d (pl.mem_iff.1 (List.mem_filter.1 hd).1)))
  obtain ⟨a2, ha2, _⟩ := mapM_denotes (f := axText) (g := sxAx) (l := axs)
    (fun a ha => ax_denotes (hq.axOk a ha).1 (hq.axOk a ha).2.1)
  obtain ⟨a3, ha3, _⟩ := mapM_denotes (f := declText) (g := sxDecl) (l := cands') (fun d hd => decl_denotes (by
    have := hq.candOk d (pc.mem_iff.1 hd)
    simp only [candOk, Bool.and_eq_true] at this
    exact this.1))
  obtain ⟨a4, ha4, _⟩ := mapM_denotes (f := constText) (g := sxConst) (l := vars) (fun v hv => by
    have := hq.varsOk
    simp only [paramsOk, Bool.and_eq_true, List.all_eq_true] at this
    exact const_denotes (this.1 v hv).1 (this.1 v hv).2)
  obtain ⟨a5, ha5, _⟩ := text_denotes (mkNot vc) (printable_not hq.vcOk.1)
  exact ⟨_, by simp only [queryText, hcf, hl', hc', ha1, ha2, ha3, ha4, hq.vcOk.2.1, ha5, Option.bind_eq_bind, Option.bind_some]; rfl⟩

/-! ### An example -/

/-- `sum` of a list. -/
def exSum : FnDecl :=
  ⟨"sum", .int, [("xs", .list .int)], some (.node .ite .int
    [.node .eq .bool [.node (.call "list_length") .int [.var "xs" (.list .int)], .lit (.int 0)], .lit (.int 0),
     .node .add .int [.node (.call "list_get") .int [.var "xs" (.list .int), .lit (.int 0)],
       .node (.call "sum") .int [.node (.call "list_tail") (.list .int) [.var "xs" (.list .int), .lit (.int 1)]]]]), true⟩

/-- An axiom. -/
def exAx : Ax := ⟨[("a", .int)], .node .eq .bool [.node (.call "sum") .int
  [.node (.call "list_prepend") (.list .int) [.var "a" .int, .node (.call "list_empty") (.list .int) []]], .var "a" .int]⟩

/-- A synthesised postcondition. -/
def exPs : FnDecl :=
  ⟨"ps", .bool, [("r", .int), ("l", .list .int)], some (.node .eq .bool [.var "r" .int, .node (.call "sum") .int [.var "l" (.list .int)]]), true⟩

/-- A verification condition. -/
def exVc : Expr :=
  .node .implies .bool [.node .eq .bool [.node (.call "list_length") .int [.var "l" (.list .int)], .lit (.int 0)],
    .node (.call "ps") .bool [.lit (.int 0), .var "l" (.list .int)]]

/-- The functions of the files of definitions used here. -/
def exF0 : String → Option Nat := fun n =>
  [("list_length", 1), ("list_get", 2), ("list_tail", 2), ("list_prepend", 2), ("list_empty", 0)].lookup n

example : queryText kahn id [exSum] [exAx] [exPs] [("l", .list .int)] exVc = some ("\n(define-fun-rec sum ((xs (MLList Int))) Int\n(ite (= (list_length xs) 0) 0 (+ (list_get xs 0) (sum (list_tail xs 1)))))\n" ++
    "\n(assert (forall ( (a Int) ) (= (sum (list_prepend a list_empty)) a) ))\n" ++
    "\n(define-fun-rec ps ((r Int) (l (MLList Int))) Bool\n(= r (sum l)))\n" ++
    "\n(declare-const l (MLList Int))\n\n\n\n(assert (not (=> (= (list_length l) 0) (ps 0 l))))\n\n(check-sat)\n(get-model)") := by decide +kernel

theorem exQueryOk : QueryOk [exSum] [exAx] [exPs] [("l", .list .int)] exVc where
  langOk := by decide +kernel
  langNames := by decide
  axOk := by
    intro a ha
    simp only [List.mem_singleton] at ha
    subst ha
    decide +kernel
  candOk := by decide +kernel
  candNames := by decide
  varsOk := by decide +kernel
  vcOk := by decide +kernel
  langConst := by
    intro d hd b hb
    simp only [List.mem_singleton] at hd
    subst hd
    cases hb
    decide +kernel
  candConst := by
    intro d hd b hb
    simp only [List.mem_singleton] at hd
    subst hd
    cases hb
    decide +kernel
  axConst := by
    intro a ha
    simp only [List.mem_singleton] at ha
    subst ha
    decide +kernel
  fnConst := by decide +kernel

/-- A decidable form of `CallsKnown`. -/
def callsKnown (F0 : String → Option Nat) (fns : List FnDecl) (ps : List (String × Ty)) (e : Expr) : Bool :=
  (calls e).all (fun c => !fnName c.1 || (F0 c.1 == some c.2 || fns.any (fun g => g.name == c.1 && g.params.length == c.2)) &&
    !(ps.map Prod.fst).contains c.1)

theorem callsKnown_sound {F0 : String → Option Nat} {fns : List FnDecl} {ps : List (String × Ty)} {e : Expr}
    (h : callsKnown F0 fns ps e = true) : CallsKnown F0 fns ps e := by
  intro c hc hf
  simp only [callsKnown, List.all_eq_true] at h
  have := h c hc
  simp only [hf, Bool.not_true, Bool.false_or, Bool.and_eq_true, Bool.or_eq_true, beq_iff_eq, List.any_eq_true, Bool.not_eq_true'] at this
  exact ⟨this.1, by simpa using this.2⟩

theorem exComplete : Complete exF0 [exSum] [exAx] [exPs] [("l", .list .int)] exVc where
  names := by decide
  unknown := by decide
  varNames := by decide
  paramNames := by decide
  axNames := by
    intro a ha
    simp only [List.mem_singleton] at ha
    subst ha
    decide
  langWritten := by decide
  langCalls := by
    intro d hd b hb
    simp only [List.mem_singleton] at hd
    subst hd
    cases hb
    exact callsKnown_sound (by decide +kernel)
  axCalls := by
    intro a ha
    simp only [List.mem_singleton] at ha
    subst ha
    exact callsKnown_sound (by decide +kernel)
  candCalls := by
    intro d hd b hb
    simp only [List.mem_singleton] at hd
    subst hd
    cases hb
    exact callsKnown_sound (by decide +kernel)
  vcCalls := callsKnown_sound (by decide +kernel)
  selfCalls := by
    intro d hd hr
    simp only [List.cons_append, List.nil_append, List.mem_cons, List.not_mem_nil, or_false] at hd
    rcases hd with rfl | rfl <;> cases hr

/-! ### Refutations -/

/-- A function declared with `FnDecl` and parameters cannot be printed: `toSMT` is applied to the type. -/
theorem C46_fn_decl_raises_refuted :
    queryText kahn id [⟨"double", .int, [("x", .int)], some (.node .add .int [.var "x" .int, .var "x" .int]), false⟩] [] [] []
      (.lit (.bool true)) = none := by decide +kernel

/-- A function without definition is used and not declared. -/
theorem C47_uninterpreted_function_refuted :
    ∃ text cs, queryText kahn id [⟨"f", .int, [("x", .int)], none, false⟩] [] [] [("y", .int)]
        (.node .eq .bool [.node (.call "f") .int [.var "y" .int], .lit (.int 0)]) = some text ∧ readScript text = some cs ∧
      ∀ F0, F0 "f" = none → F0 "y" = none → accepts F0 cs = false := by
  refine ⟨"\n(declare-const y Int)\n\n\n\n(assert (not (= (f y) 0)))\n\n(check-sat)\n(get-model)",
    [.list [.atom "declare-const", .atom "y", .atom "Int"],
     .list [.atom "assert", .list [.atom "not", .list [.atom "=", .list [.atom "f", .atom "y"], .atom "0"]]],
     .list [.atom "check-sat"], .list [.atom "get-model"]], by decide +kernel, by decide +kernel, ?_⟩
  intro F0 h1 h2
  have hb : builtinArity "f" 1 = false := by decide +kernel
  have hfr : fresh F0 "y" = true := by
    have : symbolOk "y" = true ∧ "y" ∉ reserved := by decide +kernel
    simp [fresh, this, h2]
  have hd : declare F0 "y" 0 "f" = none := by simp [declare, h1]
  simp [accepts, accept1, hfr, termOk, termsOk, hb, hd]

/-- A negative literal in the verification condition is not accepted. -/
theorem C47_negative_literal_refuted :
    ∃ text cs, queryText kahn id [] [] [] [("y", .int)] (.node .gt .bool [.var "y" .int, .lit (.int (-1))]) = some text ∧
      readScript text = some cs ∧ ∀ F0, F0 "-1" = none → accepts F0 cs = false := by
  refine ⟨"\n(declare-const y Int)\n\n\n\n(assert (not (> y -1)))\n\n(check-sat)\n(get-model)",
    [.list [.atom "declare-const", .atom "y", .atom "Int"],
     .list [.atom "assert", .list [.atom "not", .list [.atom ">", .atom "y", .atom "-1"]]],
     .list [.atom "check-sat"], .list [.atom "get-model"]], by decide +kernel, by decide +kernel, ?_⟩
  intro F0 h1
  have hn : isNumeric "-1".toList = false := by decide
  have hd : declare F0 "y" 0 "-1" = none := by simp [declare, h1]
  have ht : termOk (declare F0 "y" 0) [] (.atom "-1") = false := by
    simp only [termOk, hn, hd]
    simp
  by_cases hfr : fresh F0 "y" = true
  · have : termOk (declare F0 "y" 0) [] (.list [.atom "not", .list [.atom ">", .atom "y", .atom "-1"]]) = false := by
      rw [termOk, termsOk, termOk, termsOk, termsOk, termsOk, ht] <;> simp
    simp [accepts, accept1, hfr, this]
  · simp [accepts, accept1, hfr]

/-- An axiom without variables is printed as a quantifier without variables, which is not accepted. -/
theorem C47_axiom_without_variables_refuted :
    ∃ text cs, queryText kahn id [] [⟨[], .lit (.bool true)⟩] [] [] (.lit (.bool true)) = some text ∧ readScript text = some cs ∧
      ∀ F0, accepts F0 cs = false := by
  refine ⟨"\n(assert (forall (  ) true ))\n\n\n\n\n\n(assert (not true))\n\n(check-sat)\n(get-model)",
    [.list [.atom "assert", .list [.atom "forall", .list [], .atom "true"]],
     .list [.atom "assert", .list [.atom "not", .atom "true"]],
     .list [.atom "check-sat"], .list [.atom "get-model"]], by decide +kernel, by decide +kernel, ?_⟩
  intro F0
  simp [accepts, accept1, binders]

/-- An axiom about a synthesised function comes before its definition. -/
theorem C47_axiom_about_candidate_refuted :
    ∃ text cs, queryText kahn id [] [⟨[("x", .int)], .node .ge .bool [.node (.call "g") .int [.var "x" .int], .lit (.int 0)]⟩]
        [⟨"g", .int, [("x", .int)], some (.var "x" .int), true⟩] [] (.lit (.bool true)) = some text ∧ readScript text = some cs ∧
      ∀ F0, F0 "g" = none → accepts F0 cs = false := by
  refine ⟨"\n(assert (forall ( (x Int) ) (>= (g x) 0) ))\n\n(define-fun-rec g ((x Int)) Int\nx)\n\n\n\n\n\n(assert (not true))\n\n(check-sat)\n(get-model)",
    [.list [.atom "assert", .list [.atom "forall", .list [.list [.atom "x", .atom "Int"]],
       .list [.atom ">=", .list [.atom "g", .atom "x"], .atom "0"]]],
     .list [.atom "define-fun-rec", .atom "g", .list [.list [.atom "x", .atom "Int"]], .atom "Int", .atom "x"],
     .list [.atom "assert", .list [.atom "not", .atom "true"]],
     .list [.atom "check-sat"], .list [.atom "get-model"]], by decide +kernel, by decide +kernel, ?_⟩
  intro F0 h
  have hb : builtinArity "g" 1 = false := by decide +kernel
  simp [accepts, accept1, binders, termOk, termsOk, hb, h]

end Smt
end Metalift
