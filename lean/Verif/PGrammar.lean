import Verif.Grammar
import Verif.SimplifyLemmas
import Verif.FnEval
import Verif.Names
import Mathlib.Tactic.ByContra
/-
C19: grammars generate exactly the language of the choose expression.  C41: arbitrary choices.
-/
namespace Metalift

/-! ### Specification -/

/-- `r` is obtained from `e` by resolving every choose to one of its alternatives. -/
inductive Resolves : Expr → Expr → Prop where
  | var {n t} : Resolves (.var n t) (.var n t)
  | lit {l} : Resolves (.lit l) (.lit l)
  | choose {t args a r} : a ∈ args → Resolves a r → Resolves (.node .choose t args) r
  | node {op t args rs} : op ≠ .choose → All2 Resolves args rs → Resolves (.node op t args) (.node op t rs)

/-- `r` can be derived from the right-hand side `e` of a production; variables called `nm i` are the non-terminals. -/
inductive Derives (nm : Nat → String) (G : Grammar) : Expr → Expr → Prop where
  | nonterm {n i t rhs r} : n = nm i → G.rules[i]? = some rhs → Derives nm G rhs r → Derives nm G (.var n t) r
  | var {n t} : (∀ i, n ≠ nm i) → Derives nm G (.var n t) (.var n t)
  | lit {l} : Derives nm G (.lit l) (.lit l)
  | choose {t args a r} : a ∈ args → Derives nm G a r → Derives nm G (.node .choose t args) r
  | node {op t args rs} : op ≠ .choose → All2 (Derives nm G) args rs → Derives nm G (.node op t args) (.node op t rs)

/-- The language of a grammar: what its start production derives. -/
def Grammar.Generates (nm : Nat → String) (G : Grammar) (r : Expr) : Prop := Derives nm G G.start r

/-- `a` is a subexpression of `e`. -/
inductive SubExpr (a : Expr) : Expr → Prop where
  | refl : SubExpr a a
  | arg {op t args b} : b ∈ args → SubExpr a b → SubExpr a (.node op t args)

/-- Subexpressions of `e` that Python's `==` cannot tell apart are the same expression. -/
def NoClash (e : Expr) : Prop := ∀ a b, SubExpr a e → SubExpr b e → a.pyEq b = true → a = b

/-- No variable of `e` has the name of a non-terminal. -/
def NoNtVars (nm : Nat → String) (e : Expr) : Prop := ∀ n t, SubExpr (.var n t) e → ∀ i, n ≠ nm i

/-- No choose is left. -/
def ChooseFree (e : Expr) : Prop := ∀ t args, ¬ SubExpr (.node .choose t args) e

/-! ### Subexpressions -/

theorem SubExpr.trans {a b c : Expr} (h : SubExpr a b) (h' : SubExpr b c) : SubExpr a c := by
  induction h' with
  | refl => exact h
  | arg hm _ ih => exact .arg hm (ih)

theorem SubExpr.size_le {a b : Expr} (h : SubExpr a b) : sizeOf a ≤ sizeOf b := by
  induction h with
  | refl => exact Nat.le_refl _
  | @arg op t args b hm _ ih =>
    have := List.sizeOf_lt_of_mem hm
    simp only [Expr.node.sizeOf_spec]
    omega

/-! ### `findCommonExprs` visits everything -/

/-- The known expressions. -/
def fsts (c : List (Expr × Nat)) : List Expr := c.map Prod.fst

/-- All subexpressions of `c` are known. -/
def Closed (F : List Expr) (c : Expr) : Prop := ∀ a, SubExpr a c → a ∈ F

theorem fsts_set {cnts : List (Expr × Nat)} {e : Expr} {i n : Nat} {p : Expr × Nat} (hi : cnts[i]? = some p)
    (he : p.1 = e) : fsts (cnts.set i (e, n)) = fsts cnts := by
  subst he
  apply List.ext_getElem?
  intro j
  simp only [fsts, List.getElem?_map, List.getElem?_set]
  by_cases h : i = j
  · subst h
    have : i < cnts.length := by
      by_contra hc
      rw [List.getElem?_eq_none (by omega)] at hi
      cases hi
    rw [List.getElem?_eq_getElem this, Option.some.injEq] at hi
    simp [this, hi]
  · simp [h]

/-- What a visit of `e` achieves. -/
def Visited (E : Expr) (e : Expr) (cnts cnts' : List (Expr × Nat)) : Prop :=
  (∀ c ∈ fsts cnts, c ∈ fsts cnts') ∧ Closed (fsts cnts') e ∧
  (∀ c ∈ fsts cnts', c ∈ fsts cnts ∨ Closed (fsts cnts') c) ∧ (∀ c ∈ fsts cnts', SubExpr c E)

/-- Known expressions are complete, or in progress and hence larger than what is visited next. -/
def Pending (n : Nat) (cnts : List (Expr × Nat)) : Prop :=
  ∀ c ∈ fsts cnts, Closed (fsts cnts) c ∨ n < sizeOf c

theorem visited_hit {E e : Expr} {cnts : List (Expr × Nat)} {i : Nat} {d : Expr × Nat} (hE : NoClash E) (he : SubExpr e E)
    (hs : ∀ c ∈ fsts cnts, SubExpr c E) (hp : Pending (sizeOf e) cnts)
    (hi : cnts.findIdx? (fun p => e.pyEq p.1) = some i) : Visited E e cnts (cnts.set i (e, (cnts.getD i d).2 + 1)) := by
  obtain ⟨hlt, hq, _⟩ := List.findIdx?_eq_some_iff_getElem.mp hi
  have hmem : cnts[i].1 ∈ fsts cnts := List.mem_map.mpr ⟨cnts[i], List.getElem_mem _, rfl⟩
  have heq : e = cnts[i].1 := hE _ _ he (hs _ hmem) hq
  have hf : fsts (cnts.set i (e, (cnts.getD i d).2 + 1)) = fsts cnts :=
    fsts_set (List.getElem?_eq_getElem hlt) heq.symm
  unfold Visited
  rw [hf]
  refine ⟨fun c hc => hc, ?_, fun c hc => .inl hc, hs⟩
  rw [← heq] at hmem
  rcases hp e hmem with h | h
  · exact h
  · omega

theorem visited_leaf {E e : Expr} {cnts : List (Expr × Nat)} (he : SubExpr e E)
    (hs : ∀ c ∈ fsts cnts, SubExpr c E) (hleaf : ∀ a, SubExpr a e → a = e) : Visited E e cnts (cnts ++ [(e, 1)]) := by
  have hf : fsts (cnts ++ [(e, 1)]) = fsts cnts ++ [e] := by simp [fsts]
  unfold Visited
  rw [hf]
  refine ⟨fun c hc => by simp [hc], fun a ha => by simp [hleaf a ha], fun c hc => ?_, fun c hc => ?_⟩
  · simp only [List.mem_append, List.mem_singleton] at hc
    rcases hc with hc | hc
    · exact .inl hc
    · subst hc
      exact .inr (fun a ha => by simp [hleaf a ha])
  · simp only [List.mem_append, List.mem_singleton] at hc
    rcases hc with hc | hc
    · exact hs c hc
    · exact hc ▸ he

mutual
theorem findCommon_visited (E : Expr) (hE : NoClash E) : ∀ (e : Expr) (cnts : List (Expr × Nat)), SubExpr e E →
    (∀ c ∈ fsts cnts, SubExpr c E) → Pending (sizeOf e) cnts → Visited E e cnts (findCommon e cnts)
  | .var n t, cnts, he, hs, hp => by
    rw [findCommon]
    split
    · exact visited_leaf he hs (fun a ha => by cases ha; rfl)
    · next i hi => exact visited_hit hE he hs hp hi
  | .lit l, cnts, he, hs, hp => by
    rw [findCommon]
    split
    · exact visited_leaf he hs (fun a ha => by cases ha; rfl)
    · next i hi => exact visited_hit hE he hs hp hi
  | .node op t args, cnts, he, hs, hp => by
    rw [findCommon]
    split
    · have hf : fsts (cnts ++ [(.node op t args, 1)]) = fsts cnts ++ [.node op t args] := by simp [fsts]
      have hs' : ∀ c ∈ fsts (cnts ++ [(.node op t args, 1)]), SubExpr c E := by
        intro c hc
        rw [hf] at hc
        simp only [List.mem_append, List.mem_singleton] at hc
        rcases hc with hc | hc
        · exact hs c hc
        · exact hc ▸ he
      have hp' : ∀ a ∈ args, Pending (sizeOf a) (cnts ++ [(.node op t args, 1)]) := by
        intro a ha c hc
        rw [hf] at hc ⊢
        have hsz : sizeOf a < sizeOf (Expr.node op t args) := by
          have := List.sizeOf_lt_of_mem ha
          simp only [Expr.node.sizeOf_spec]
          omega
        simp only [List.mem_append, List.mem_singleton] at hc
        rcases hc with hc | hc
        · rcases hp c hc with h | h
          · exact .inl (fun x hx => by simp [h x hx])
          · exact .inr (by omega)
        · subst hc
          exact .inr hsz
      obtain ⟨h1, h2, h3, h4⟩ := findCommons_visited E hE args _ (fun a ha => (SubExpr.arg ha .refl).trans he) hs' hp'
      have hself : Expr.node op t args ∈ fsts (findCommons args (cnts ++ [(.node op t args, 1)])) :=
        h1 _ (by rw [hf]; simp)
      have hcl : Closed (fsts (findCommons args (cnts ++ [(.node op t args, 1)]))) (.node op t args) := by
        intro a ha
        cases ha with
        | refl => exact hself
        | arg hm hsub => exact h2 _ hm _ hsub
      refine ⟨fun c hc => h1 c (by rw [hf]; simp [hc]), hcl, fun c hc => ?_, h4⟩
      rcases h3 c hc with h | h
      · rw [hf] at h
        simp only [List.mem_append, List.mem_singleton] at h
        rcases h with h | h
        · exact .inl h
        · subst h
          exact .inr hcl
      · exact .inr h
    · next i hi => exact visited_hit hE he hs hp hi
theorem findCommons_visited (E : Expr) (hE : NoClash E) : ∀ (es : List Expr) (cnts : List (Expr × Nat)),
    (∀ e ∈ es, SubExpr e E) → (∀ c ∈ fsts cnts, SubExpr c E) → (∀ e ∈ es, Pending (sizeOf e) cnts) →
    (∀ c ∈ fsts cnts, c ∈ fsts (findCommons es cnts)) ∧
    (∀ e ∈ es, Closed (fsts (findCommons es cnts)) e) ∧
    (∀ c ∈ fsts (findCommons es cnts), c ∈ fsts cnts ∨ Closed (fsts (findCommons es cnts)) c) ∧
    (∀ c ∈ fsts (findCommons es cnts), SubExpr c E)
  | [], cnts, _, hs, _ => by
    rw [findCommons]
    exact ⟨fun c hc => hc, by simp, fun c hc => .inl hc, hs⟩
  | e :: es, cnts, he, hs, hp => by
    rw [findCommons]
    obtain ⟨a1, a2, a3, a4⟩ := findCommon_visited E hE e cnts (he e (by simp)) hs (hp e (by simp))
    have hp' : ∀ x ∈ es, Pending (sizeOf x) (findCommon e cnts) := by
      intro x hx c hc
      rcases a3 c hc with h | h
      · rcases hp x (by simp [hx]) c h with h' | h'
        · exact .inl (fun y hy => a1 _ (h' y hy))
        · exact .inr h'
      · exact .inl h
    obtain ⟨b1, b2, b3, b4⟩ := findCommons_visited E hE es _ (fun x hx => he x (by simp [hx])) a4 hp'
    refine ⟨fun c hc => b1 _ (a1 c hc), ?_, fun c hc => ?_, b4⟩
    · intro x hx
      simp only [List.mem_cons] at hx
      rcases hx with rfl | hx
      · exact fun y hy => b1 _ (a2 y hy)
      · exact b2 x hx
    · rcases b3 c hc with h | h
      · rcases a3 c h with h' | h'
        · exact .inl h'
        · exact .inr (fun y hy => b1 _ (h' y hy))
      · exact .inr h
end

theorem isChoose_iff {e : Expr} : e.isChoose = true ↔ ∃ t args, e = .node .choose t args := by
  constructor
  · intro h
    match e, h with
    | .node .choose t args, _ => exact ⟨t, args, rfl⟩
  · rintro ⟨t, args, rfl⟩
    rfl

/-- The non-terminals are exactly the choose subexpressions. -/
theorem mem_commonExprs {E : Expr} (hE : NoClash E) {c : Expr} :
    c ∈ commonExprs E ↔ SubExpr c E ∧ ∃ t args, c = .node .choose t args := by
  obtain ⟨-, h2, -, h4⟩ := findCommon_visited E hE E [] .refl (by simp [fsts]) (by intro c hc; simp [fsts] at hc)
  simp only [commonExprs, List.mem_filter, isChoose_iff]
  exact ⟨fun ⟨h, h'⟩ => ⟨h4 c h, h'⟩, fun ⟨h, h'⟩ => ⟨h2 c h, h'⟩⟩

theorem find_choose {E : Expr} (hE : NoClash E) {t : Ty} {args : List Expr} (he : SubExpr (.node .choose t args) E) :
    ∃ i, (commonExprs E).findIdx? (fun c => (Expr.node .choose t args).pyEq c) = some i ∧
      (commonExprs E)[i]? = some (.node .choose t args) := by
  have hm := (mem_commonExprs hE).mpr ⟨he, t, args, rfl⟩
  cases hf : (commonExprs E).findIdx? (fun c => (Expr.node .choose t args).pyEq c) with
  | none =>
    have := List.findIdx?_eq_none_iff.mp hf _ hm
    rw [Expr.pyEq_refl] at this
    cases this
  | some i =>
    obtain ⟨hlt, hq, _⟩ := List.findIdx?_eq_some_iff_getElem.mp hf
    refine ⟨i, rfl, ?_⟩
    rw [List.getElem?_eq_getElem hlt]
    exact congrArg some (hE _ _ he ((mem_commonExprs hE).mp (List.getElem_mem hlt)).1 hq).symm

theorem find_other {E : Expr} (hE : NoClash E) {e : Expr} (he : SubExpr e E) (hn : ∀ t args, e ≠ .node .choose t args) :
    (commonExprs E).findIdx? (fun c => e.pyEq c) = none := by
  apply List.findIdx?_eq_none_iff.mpr
  intro c hc
  by_contra hq
  obtain ⟨hs, t, args, rfl⟩ := (mem_commonExprs hE).mp hc
  exact hn t args (hE _ _ he hs (by simpa using hq))

/-! ### Replacement -/

theorem replaceExprss_eq (nm : Nat → String) (C : List Expr) (es : List Expr) :
    replaceExprss nm C es = es.map (replaceExprs nm C) := by
  induction es with
  | nil => rfl
  | cons e es ih => rw [replaceExprss, ih]; rfl

theorem replace_node {E : Expr} (hE : NoClash E) {nm : Nat → String} {op : Op} {t : Ty} {args : List Expr}
    (he : SubExpr (.node op t args) E) (ho : op ≠ .choose) :
    replaceExprs nm (commonExprs E) (.node op t args) = .node op t (args.map (replaceExprs nm (commonExprs E))) := by
  rw [replaceExprs, find_other hE he (fun t' a' h => ho (by cases h; rfl)), replaceExprss_eq]

theorem rule_choose {E : Expr} {nm : Nat → String} {i : Nat} {t : Ty} {args : List Expr}
    (h : (commonExprs E)[i]? = some (.node .choose t args)) :
    (synthGrammar nm E).rules[i]? = some (.node .choose t (args.map (replaceExprs nm (commonExprs E)))) := by
  simp only [synthGrammar, List.getElem?_map, h, Option.map_some, replaceExprsTop, replaceExprss_eq]

theorem replaced_derives {E : Expr} (hE : NoClash E) {nm : Nat → String} (hv : NoNtVars nm E) (e : Expr) :
    SubExpr e E → ∀ r, Resolves e r → Derives nm (synthGrammar nm E) (replaceExprs nm (commonExprs E) e) r := by
  induction e using Expr.ind with
  | hv n t =>
    intro he r hr
    cases hr
    rw [replaceExprs, find_other hE he (by simp)]
    exact .var (hv n t he)
  | hl l =>
    intro he r hr
    cases hr
    rw [replaceExprs, find_other hE he (by simp)]
    exact .lit
  | hn op t args ih =>
    intro he r hr
    cases hr with
    | @choose _ _ a _ ha hr =>
      obtain ⟨i, h1, h2⟩ := find_choose hE he
      rw [replaceExprs, h1]
      exact .nonterm rfl (rule_choose h2)
        (.choose (List.mem_map_of_mem ha) (ih a ha ((SubExpr.arg ha .refl).trans he) r hr))
    | @node _ _ _ rs ho hrs =>
      rw [replace_node hE he ho]
      exact .node ho (All2.map_left.mpr
        (hrs.imp_mem (fun a ha b hb => ih a ha ((SubExpr.arg ha .refl).trans he) b hb)))

theorem derives_replaced {E : Expr} (hE : NoClash E) {nm : Nat → String} (hv : NoNtVars nm E)
    (hinj : ∀ i j, nm i = nm j → i = j) (e : Expr) :
    SubExpr e E → ∀ r, Derives nm (synthGrammar nm E) (replaceExprs nm (commonExprs E) e) r → Resolves e r := by
  induction e using Expr.ind with
  | hv n t =>
    intro he r hr
    rw [replaceExprs, find_other hE he (by simp)] at hr
    cases hr with
    | nonterm hn => exact absurd hn (hv n t he _)
    | var => exact .var
  | hl l =>
    intro he r hr
    rw [replaceExprs, find_other hE he (by simp)] at hr
    cases hr
    exact .lit
  | hn op t args ih =>
    intro he r hr
    by_cases ho : op = .choose
    · subst ho
      obtain ⟨i, h1, h2⟩ := find_choose hE he
      rw [replaceExprs, h1] at hr
      cases hr with
      | nonterm hn hrule hd =>
        have := hinj _ _ hn
        subst this
        rw [rule_choose h2] at hrule
        cases hrule
        cases hd with
        | choose hm hd =>
          obtain ⟨a, ha, rfl⟩ := List.mem_map.mp hm
          exact .choose ha (ih a ha ((SubExpr.arg ha .refl).trans he) r hd)
        | node ho => exact absurd rfl ho
      | var hn => exact absurd rfl (hn i)
    · rw [replace_node hE he ho] at hr
      cases hr with
      | choose => exact absurd rfl ho
      | node _ hrs =>
        exact .node ho ((All2.map_left.mp hrs).imp_mem (fun a ha b hb => ih a ha ((SubExpr.arg ha .refl).trans he) b hb))

theorem smtNt_inj (i j : Nat) (h : smtNt i = smtNt j) : i = j :=
  (numbered_inj (a := "v") (b := "v") (by decide) (by decide) h).2

theorem rosetteNt_inj (i j : Nat) (h : rosetteNt i = rosetteNt j) : i = j := by
  refine smtNt_inj i j ?_
  have h' := congrArg String.toList h
  simp only [rosetteNt, String.toList_append] at h'
  have := List.append_cancel_right h'
  apply String.toList_inj.mp
  have e1 : "(v".toList = '(' :: "v".toList := by decide
  rw [e1] at this
  simpa [smtNt] using this

/-- C19: the grammar printed for synthesis, for Rosette and for SMT (`nm`), generates exactly the expressions obtained by
resolving every choose, however chooses are shared or nested, provided equal-looking subexpressions are equal and no variable
has the name of a non-terminal. -/
theorem C19_grammar_language_partial (nm : Nat → String) (hnm : nm = rosetteNt ∨ nm = smtNt) (e : Expr) (hc : NoClash e)
    (hv : NoNtVars nm e) (r : Expr) : (synthGrammar nm e).Generates nm r ↔ Resolves e r := by
  have hinj : ∀ i j, nm i = nm j → i = j := by
    rcases hnm with rfl | rfl
    · exact rosetteNt_inj
    · exact smtNt_inj
  exact ⟨derives_replaced hc hv hinj e .refl r, replaced_derives hc hv e .refl r⟩

/-! ### Non-vacuity and counterexamples -/

mutual
/-- The list of subexpressions. -/
def Expr.subs : Expr → List Expr
  | .var n t => [.var n t]
  | .lit l => [.lit l]
  | .node op t args => .node op t args :: Expr.subss args
def Expr.subss : List Expr → List Expr
  | [] => []
  | e :: es => Expr.subs e ++ Expr.subss es
end

theorem mem_subss {a : Expr} {es : List Expr} : a ∈ Expr.subss es ↔ ∃ e ∈ es, a ∈ e.subs := by
  induction es with
  | nil => simp [Expr.subss]
  | cons e es ih => simp [Expr.subss, ih]

theorem subExpr_iff {a : Expr} (e : Expr) : SubExpr a e ↔ a ∈ e.subs := by
  induction e using Expr.ind with
  | hv n t =>
    simp only [Expr.subs, List.mem_singleton]
    exact ⟨fun h => by cases h; rfl, fun h => h ▸ .refl⟩
  | hl l =>
    simp only [Expr.subs, List.mem_singleton]
    exact ⟨fun h => by cases h; rfl, fun h => h ▸ .refl⟩
  | hn op t args ih =>
    simp only [Expr.subs, List.mem_cons, mem_subss]
    constructor
    · intro h
      cases h with
      | refl => exact .inl rfl
      | arg hm h => exact .inr ⟨_, hm, (ih _ hm).mp h⟩
    · rintro (rfl | ⟨b, hb, h⟩)
      · exact .refl
      · exact .arg hb ((ih b hb).mpr h)

/-- A grammar with a shared and a nested choose: `choose(x, choose(y, 1)) + choose(y, 1)`. -/
def exGrammar : Expr :=
  .node .add .int [.node .choose .int [.var "x" .int, .node .choose .int [.var "y" .int, .lit (.int 1)]],
    .node .choose .int [.var "y" .int, .lit (.int 1)]]

theorem exGrammar_noClash : NoClash exGrammar := by
  intro a b ha hb
  rw [subExpr_iff] at ha hb
  simp only [exGrammar, Expr.subs, Expr.subss, List.append_nil, List.mem_cons, List.mem_append, List.not_mem_nil,
    or_false] at ha hb
  rcases ha with rfl | (rfl | rfl | rfl | rfl | rfl) | rfl | rfl | rfl <;>
    rcases hb with rfl | (rfl | rfl | rfl | rfl | rfl) | rfl | rfl | rfl <;>
    simp [Expr.pyEq, Expr.pyEqs]

theorem exGrammar_noNtVars : NoNtVars smtNt exGrammar := by
  intro n t h i
  rw [subExpr_iff] at h
  simp [exGrammar, Expr.subs, Expr.subss] at h
  have : (smtNt i).toList.head? = some 'v' := by simp [smtNt]
  intro hn
  rw [← hn] at this
  rcases h with ⟨rfl, rfl⟩ | ⟨rfl, rfl⟩ | ⟨rfl, rfl⟩ <;> exact absurd this (by decide)

-- the shared choose is one non-terminal, and the two occurrences are resolved independently: `1 + y` is generated
example : (commonExprs exGrammar).length = 2 ∧
    (synthGrammar smtNt exGrammar).Generates smtNt (.node .add .int [.lit (.int 1), .var "y" .int]) := by
  refine ⟨rfl, (C19_grammar_language_partial smtNt (.inr rfl) _ exGrammar_noClash exGrammar_noNtVars _).mpr ?_⟩
  exact .node (by simp) (.cons (.choose (List.mem_cons_of_mem _ (List.mem_singleton.mpr rfl)) (.choose (List.mem_cons_of_mem _ (List.mem_singleton.mpr rfl)) .lit))
    (.cons (.choose (List.mem_cons_self ..) .var) .nil))

/-- `choose(true, false) and (choose(1, 0) == x)`. -/
def clashGrammar : Expr :=
  .node .and .bool [.node .choose .bool [.lit (.bool true), .lit (.bool false)],
    .node .eq .bool [.node .choose .int [.lit (.int 1), .lit (.int 0)], .var "x" .int]]

/-- C19 fails without the first guard: two chooses whose literals are equal in Python are merged although one is Boolean and
the other is an integer, and the generated Boolean operand is the integer `1`. -/
theorem C19_merged_choices_refuted :
    (∀ nm, nm = rosetteNt ∨ nm = smtNt → NoNtVars nm clashGrammar) ∧
    Resolves clashGrammar (.node .and .bool [.lit (.bool true), .node .eq .bool [.lit (.int 1), .var "x" .int]]) ∧
    ¬ (synthGrammar smtNt clashGrammar).Generates smtNt
      (.node .and .bool [.lit (.bool true), .node .eq .bool [.lit (.int 1), .var "x" .int]]) ∧
    (synthGrammar smtNt clashGrammar).Generates smtNt
      (.node .and .bool [.lit (.int 1), .node .eq .bool [.lit (.int 1), .var "x" .int]]) := by
  have hv : ∀ nm, nm = rosetteNt ∨ nm = smtNt → NoNtVars nm clashGrammar := by
    intro nm hnm n t h i
    rw [subExpr_iff] at h
    simp [clashGrammar, Expr.subs, Expr.subss] at h
    obtain ⟨rfl, rfl⟩ := h
    intro hn
    have := congrArg (fun s => s.toList.head?) hn
    rcases hnm with rfl | rfl <;> simp [smtNt, rosetteNt] at this
  have hstart : (synthGrammar smtNt clashGrammar).start = .node .and .bool [.var "v0" .bool,
    .node .eq .bool [.var "v0" .int, .var "x" .int]] := rfl
  have hrules : (synthGrammar smtNt clashGrammar).rules = [.node .choose .int [.lit (.int 1), .lit (.int 0)]] := rfl
  have hx : ∀ i, "x" ≠ smtNt i := hv smtNt (.inr rfl) "x" .int
    (.arg (List.mem_cons_of_mem _ (List.mem_singleton.mpr rfl)) (.arg (List.mem_cons_of_mem _ (List.mem_singleton.mpr rfl)) .refl))
  refine ⟨hv, ?_, ?_, ?_⟩
  · exact .node (by simp) (.cons (.choose (List.mem_cons_self ..) .lit) (.cons (.node (by simp)
      (.cons (.choose (List.mem_cons_self ..) .lit) (.cons .var .nil))) .nil))
  · intro h
    unfold Grammar.Generates at h
    rw [hstart] at h
    cases h with
    | node _ h =>
      cases h with
      | cons h _ =>
        cases h with
        | @nonterm _ i _ _ _ hn hr hd =>
          have : i = 0 := smtNt_inj i 0 hn.symm
          subst this
          rw [hrules] at hr
          cases hr
          cases hd with
          | choose hm hd =>
            simp only [List.mem_cons, List.not_mem_nil, or_false] at hm
            rcases hm with rfl | rfl <;> cases hd
  · unfold Grammar.Generates
    rw [hstart]
    exact .node (by simp) (.cons (.nonterm (i := 0) rfl (by rw [hrules]; rfl) (.choose (List.mem_cons_self ..) .lit))
      (.cons (.node (by simp) (.cons (.nonterm (i := 0) rfl (by rw [hrules]; rfl) (.choose (List.mem_cons_self ..) .lit))
        (.cons (.var hx) .nil))) .nil))

/-- `choose(1, v0 + 1)` for a function with an argument called `v0`. -/
def ntGrammar : Expr := .node .choose .int [.lit (.int 1), .node .add .int [.var "v0" .int, .lit (.int 1)]]

/-- C19 fails in SMT without the second guard: an argument called `v0` is captured by the non-terminal `v0`, so that `v0 + 1`
is not generated, and `1 + 1` is. -/
theorem C19_argument_name_refuted :
    NoClash ntGrammar ∧
    Resolves ntGrammar (.node .add .int [.var "v0" .int, .lit (.int 1)]) ∧
    ¬ (synthGrammar smtNt ntGrammar).Generates smtNt (.node .add .int [.var "v0" .int, .lit (.int 1)]) ∧
    ¬ Resolves ntGrammar (.node .add .int [.lit (.int 1), .lit (.int 1)]) ∧
    (synthGrammar smtNt ntGrammar).Generates smtNt (.node .add .int [.lit (.int 1), .lit (.int 1)]) := by
  have hstart : (synthGrammar smtNt ntGrammar).start = .var "v0" .int := rfl
  have hrules : (synthGrammar smtNt ntGrammar).rules =
    [.node .choose .int [.lit (.int 1), .node .add .int [.var "v0" .int, .lit (.int 1)]]] := rfl
  have hinv : ∀ r, Derives smtNt (synthGrammar smtNt ntGrammar) (.var "v0" .int) r →
      r = .lit (.int 1) ∨ ∃ r', r = .node .add .int [r', .lit (.int 1)] ∧
        Derives smtNt (synthGrammar smtNt ntGrammar) (.var "v0" .int) r' := by
    intro r h
    cases h with
    | @nonterm _ i _ _ _ hn hr hd =>
      have : i = 0 := smtNt_inj i 0 hn.symm
      subst this
      rw [hrules] at hr
      cases hr
      cases hd with
      | choose hm hd =>
        simp only [List.mem_cons, List.not_mem_nil, or_false] at hm
        rcases hm with rfl | rfl
        · cases hd
          exact .inl rfl
        · cases hd with
          | node _ h =>
            cases h with
            | cons h1 h =>
              cases h with
              | cons h2 h =>
                cases h
                cases h2
                exact .inr ⟨_, rfl, h1⟩
      | node h => exact absurd rfl h
    | var h => exact absurd rfl (h 0)
  have one : Derives smtNt (synthGrammar smtNt ntGrammar) (.var "v0" .int) (.lit (.int 1)) :=
    .nonterm (i := 0) rfl (by rw [hrules]; rfl) (.choose (List.mem_cons_self ..) .lit)
  refine ⟨?_, ?_, ?_, ?_, ?_⟩
  · intro a b ha hb
    rw [subExpr_iff] at ha hb
    simp only [ntGrammar, Expr.subs, Expr.subss, List.append_nil, List.mem_cons, List.mem_append, List.not_mem_nil,
      or_false] at ha hb
    rcases ha with rfl | rfl | rfl | rfl | rfl <;> rcases hb with rfl | rfl | rfl | rfl | rfl <;>
      simp [Expr.pyEq, Expr.pyEqs]
  · exact .choose (List.mem_cons_of_mem _ (List.mem_singleton.mpr rfl))
      (.node (by simp) (.cons .var (.cons .lit .nil)))
  · intro h
    unfold Grammar.Generates at h
    rw [hstart] at h
    rcases hinv _ h with h | ⟨r', h, h'⟩
    · cases h
    · cases h
      rcases hinv _ h' with h | ⟨r', h, _⟩ <;> cases h
  · intro h
    cases h with
    | choose hm h =>
      simp only [List.mem_cons, List.not_mem_nil, or_false] at hm
      rcases hm with rfl | rfl
      · cases h
      · cases h with
        | node _ h => cases h with
          | cons h _ => cases h
  · unfold Grammar.Generates
    rw [hstart]
    exact .nonterm (i := 0) rfl (by rw [hrules]; rfl) (.choose (List.mem_cons_of_mem _ (List.mem_singleton.mpr rfl))
      (.node (by simp) (.cons one (.cons .lit .nil))))

/-! ### C41: arbitrary choices -/

/-- Every choose of `e` has an alternative, and its alternatives contain no choose. -/
def FlatChoices (e : Expr) : Prop :=
  ∀ t args, SubExpr (.node .choose t args) e → args ≠ [] ∧ ∀ a ∈ args, ChooseFree a

theorem resolves_self (e : Expr) : ChooseFree e → Resolves e e := by
  induction e using Expr.ind with
  | hv n t => exact fun _ => .var
  | hl l => exact fun _ => .lit
  | hn op t args ih =>
    intro h
    have ho : op ≠ .choose := by
      rintro rfl
      exact h t args .refl
    refine .node ho ?_
    have hargs : ∀ a ∈ args, Resolves a a := fun a ha => ih a ha (fun t' a' hs => h t' a' (.arg ha hs))
    clear h ih
    induction args with
    | nil => exact .nil
    | cons a as ih' => exact .cons (hargs a (by simp)) (ih' (fun x hx => hargs x (by simp [hx])))

theorem chooseArbitrarilys_eq (es : List Expr) : chooseArbitrarilys es = es.map chooseArbitrarily := by
  induction es with
  | nil => rfl
  | cons e es ih => rw [chooseArbitrarilys, ih]; rfl

theorem chooseArbitrarily_node {op : Op} {t : Ty} {args : List Expr} (h : op ≠ .choose) :
    chooseArbitrarily (.node op t args) = .node op t (args.map chooseArbitrarily) := by
  rw [← chooseArbitrarilys_eq]
  cases op <;> first | rfl | exact absurd rfl h

/-- C41: with alternatives that contain no further choose, the arbitrary choice made for a function Rosette does not return is
one of the expressions of its grammar, and contains no choose. -/
theorem C41_arbitrary_choice_partial (e : Expr) (h : FlatChoices e) :
    Resolves e (chooseArbitrarily e) ∧ ChooseFree (chooseArbitrarily e) := by
  induction e using Expr.ind with
  | hv n t => exact ⟨.var, fun t' a' hs => by cases hs⟩
  | hl l => exact ⟨.lit, fun t' a' hs => by cases hs⟩
  | hn op t args ih =>
    by_cases ho : op = .choose
    · subst ho
      obtain ⟨hne, hfree⟩ := h t args .refl
      match args, hne with
      | a :: as, _ =>
        have ha := hfree a (by simp)
        exact ⟨.choose (by simp) (resolves_self a ha), ha⟩
    · rw [chooseArbitrarily_node ho]
      have hi : ∀ a ∈ args, Resolves a (chooseArbitrarily a) ∧ ChooseFree (chooseArbitrarily a) :=
        fun a ha => ih a ha (fun t' a' hs => h t' a' (.arg ha hs))
      constructor
      · refine .node ho ?_
        clear h ih
        induction args with
        | nil => exact .nil
        | cons a as ih' => exact .cons (hi a (by simp)).1 (ih' (fun x hx => hi x (by simp [hx])))
      · intro t' a' hs
        cases hs with
        | refl => exact ho rfl
        | arg hm hs =>
          obtain ⟨a, ha, rfl⟩ := List.mem_map.mp hm
          exact (hi a ha).2 t' a' hs

-- a sum of two flat chooses meets the guard
example : FlatChoices (.node .add .int [.node .choose .int [.var "x" .int, .lit (.int 1)], .node .choose .int [.var "y" .int]]) ∧
    chooseArbitrarily (.node .add .int [.node .choose .int [.var "x" .int, .lit (.int 1)], .node .choose .int [.var "y" .int]])
      = .node .add .int [.var "x" .int, .var "y" .int] := by
  refine ⟨?_, rfl⟩
  intro t args h
  rw [subExpr_iff] at h
  simp [Expr.subs, Expr.subss] at h
  rcases h with ⟨rfl, rfl⟩ | ⟨rfl, rfl⟩
  · refine ⟨by simp, fun a ha t' a' hs => ?_⟩
    simp only [List.mem_cons, List.not_mem_nil, or_false] at ha
    rcases ha with rfl | rfl <;> cases hs
  · refine ⟨by simp, fun a ha t' a' hs => ?_⟩
    simp only [List.mem_cons, List.not_mem_nil, or_false] at ha
    subst ha
    cases hs

/-- C41 fails for nested chooses: the alternative is returned as it is, with its own choose still in it, even when every choose
has a single alternative. -/
theorem C41_nested_choice_refuted :
    ∃ e, (∃ r, Resolves e r ∧ ∀ r', Resolves e r' → r' = r) ∧ ¬ ChooseFree (chooseArbitrarily e) ∧ ¬ Resolves e (chooseArbitrarily e) := by
  have inv : ∀ {t a r}, Resolves (.node .choose t [a]) r → Resolves a r := by
    intro t a r h
    cases h with
    | choose hm h => exact List.mem_singleton.mp hm ▸ h
    | node h => exact absurd rfl h
  refine ⟨.node .choose .int [.node .choose .int [.var "x" .int]], ⟨.var "x" .int, ?_, ?_⟩, ?_, ?_⟩
  · exact .choose (List.mem_singleton.mpr rfl) (.choose (List.mem_singleton.mpr rfl) .var)
  · intro r h
    cases inv (inv h)
    rfl
  · exact fun h => h .int [.var "x" .int] .refl
  · intro h
    cases inv (inv h)

end Metalift
