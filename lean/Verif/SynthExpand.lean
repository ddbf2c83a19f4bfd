import Verif.SynthFileRead
/-
The forms derived from the grammar of a sketch are the printed resolutions of the sketch.
-/
namespace Metalift

/-! ### Specification: resolutions of bounded depth -/

mutual
/-- `r` is obtained from `e` by resolving every choose to one of its alternatives, where at most `d` chooses are nested in each other on the way. -/
inductive ResolvesIn : Nat → Expr → Expr → Prop where
  | var {d n t} : ResolvesIn d (.var n t) (.var n t)
  | lit {d l} : ResolvesIn d (.lit l) (.lit l)
  | choose {d t args a r} : a ∈ args → ResolvesIn d a r → ResolvesIn (d + 1) (.node .choose t args) r
  | node {d op t args rs} : op ≠ .choose → ResolveIn d args rs → ResolvesIn d (.node op t args) (.node op t rs)
/-- The same for lists of expressions. -/
inductive ResolveIn : Nat → List Expr → List Expr → Prop where
  | nil {d} : ResolveIn d [] []
  | cons {d e es r rs} : ResolvesIn d e r → ResolveIn d es rs → ResolveIn d (e :: es) (r :: rs)
end

theorem resolveIn_iff {d : Nat} {es rs : List Expr} : ResolveIn d es rs ↔ All2 (ResolvesIn d) es rs := by
  induction es generalizing rs with
  | nil => exact ⟨fun h => by cases h; exact .nil, fun h => by cases h; exact .nil⟩
  | cons e es ih =>
    constructor
    · intro h
      cases h with
      | cons h1 h2 => exact .cons h1 (ih.1 h2)
    · intro h
      cases h with
      | cons h1 h2 => exact .cons h1 (ih.2 h2)

theorem ResolvesIn.resolves {d : Nat} {e r : Expr} (h : ResolvesIn d e r) : Resolves e r := by
  induction e using Expr.ind generalizing d r with
  | hv n t => cases h; exact .var
  | hl l => cases h; exact .lit
  | hn op t args ih =>
    cases h with
    | choose hm h => exact .choose hm (ih _ hm h)
    | node ho h => exact .node ho ((resolveIn_iff.1 h).imp_mem fun a ha b hb => ih a ha hb)

mutual
/-- How deep chooses are nested in each other. -/
def chooseDepth : Expr → Nat
  | .var _ _ => 0
  | .lit _ => 0
  | .node op _ args => chooseDepths args + if op = .choose then 1 else 0
def chooseDepths : List Expr → Nat
  | [] => 0
  | e :: es => max (chooseDepth e) (chooseDepths es)
end

theorem chooseDepth_le {es : List Expr} {e : Expr} (h : e ∈ es) : chooseDepth e ≤ chooseDepths es := by
  induction es with
  | nil => cases h
  | cons a es ih =>
    rw [chooseDepths]
    rcases List.mem_cons.1 h with rfl | h
    · exact Nat.le_max_left _ _
    · exact Nat.le_trans (ih h) (Nat.le_max_right _ _)

theorem Resolves.resolvesIn {e r : Expr} (h : Resolves e r) : ∀ d, chooseDepth e ≤ d → ResolvesIn d e r := by
  induction e using Expr.ind generalizing r with
  | hv n t => intro d _; cases h; exact .var
  | hl l => intro d _; cases h; exact .lit
  | hn op t args ih =>
    intro d hd
    rw [chooseDepth] at hd
    cases h with
    | choose hm h =>
      rw [if_pos rfl] at hd
      obtain ⟨k, rfl⟩ : ∃ k, d = k + 1 := ⟨d - 1, by omega⟩
      have := chooseDepth_le hm
      exact .choose hm (ih _ hm h k (by omega))
    | node ho h =>
      rw [if_neg ho] at hd
      refine .node ho (resolveIn_iff.2 (h.imp_mem fun a ha b hb => ih a ha hb d ?_))
      have := chooseDepth_le ha
      omega

/-! ### Properties of resolutions -/

section
variable {Γ : String → Ty} {sig : Sigs}

theorem sketch_res_ty {e r : Expr} (h : Resolves e r) : e.sketchSorted Γ sig = true → r.ty = e.ty := by
  induction e using Expr.ind generalizing r with
  | hv n t => intro _; cases h; rfl
  | hl l => intro _; cases h; rfl
  | hn op t args ih =>
    intro hs
    simp only [Expr.sketchSorted, Bool.and_eq_true, sketchSorteds_iff] at hs
    cases h with
    | @choose _ _ a _ hm h =>
      rw [ih _ hm h (hs.1 _ hm)]
      have := hs.2
      simp only [opSketch, List.all_eq_true, decide_eq_true_eq] at this
      exact this _ (List.mem_map_of_mem hm)
    | node => rfl

theorem sketch_res_tys {es rs : List Expr} (h : All2 Resolves es rs) (hs : ∀ e ∈ es, e.sketchSorted Γ sig = true) :
    rs.map Expr.ty = es.map Expr.ty := by
  induction h with
  | nil => rfl
  | cons h1 _ ih =>
    rw [List.map_cons, List.map_cons, sketch_res_ty h1 (hs _ (by simp)), ih fun e he => hs e (by simp [he])]

theorem all2_right {α β : Type} {R : α → β → Prop} {as : List α} {bs : List β} (h : All2 R as bs) {b : β} (hb : b ∈ bs) : ∃ a ∈ as, R a b := by
  induction h with
  | nil => cases hb
  | cons h1 _ ih =>
    rcases List.mem_cons.1 hb with rfl | hb
    · exact ⟨_, by simp, h1⟩
    · obtain ⟨a, ha, h⟩ := ih hb
      exact ⟨a, by simp [ha], h⟩

theorem all2_left {α β : Type} {R : α → β → Prop} {as : List α} {bs : List β} (h : All2 R as bs) {a : α} (ha : a ∈ as) : ∃ b ∈ bs, R a b := by
  induction h with
  | nil => cases ha
  | cons h1 _ ih =>
    rcases List.mem_cons.1 ha with rfl | ha
    · exact ⟨_, by simp, h1⟩
    · obtain ⟨b, hb, h⟩ := ih ha
      exact ⟨b, by simp [hb], h⟩

theorem sketch_res_sorted {e r : Expr} (h : Resolves e r) : e.sketchSorted Γ sig = true → r.sorted Γ sig = true := by
  induction e using Expr.ind generalizing r with
  | hv n t => intro hs; cases h; exact hs
  | hl l => intro _; cases h; rfl
  | hn op t args ih =>
    intro hs
    simp only [Expr.sketchSorted, Bool.and_eq_true, sketchSorteds_iff] at hs
    cases h with
    | choose hm h => exact ih _ hm h (hs.1 _ hm)
    | node ho h =>
      rw [opSketch_ne ho] at hs
      simp only [Expr.sorted, Bool.and_eq_true, sorteds_iff]
      refine ⟨fun b hb => ?_, by rw [sketch_res_tys h hs.1]; exact hs.2⟩
      obtain ⟨a, ha, hr⟩ := all2_right h hb
      exact ih a ha hr (hs.1 a ha)

theorem sketch_res_arith {e r : Expr} (h : Resolves e r) : e.sketchSorted Γ sig = true → Rkt.arithOk e = true → Rkt.arithOk r = true := by
  induction e using Expr.ind generalizing r with
  | hv n t => intro _ hs; cases h; exact hs
  | hl l => intro _ _; cases h; rfl
  | hn op t args ih =>
    intro hs harith
    simp only [Expr.sketchSorted, Bool.and_eq_true, sketchSorteds_iff] at hs
    simp only [Rkt.arithOk, Bool.and_eq_true, Rkt.arithOks_iff] at harith
    cases h with
    | choose hm h => exact ih _ hm h (hs.1 _ hm) (harith.1 _ hm)
    | @node _ _ _ rs ho h =>
      simp only [Rkt.arithOk, Bool.and_eq_true, Rkt.arithOks_iff]
      constructor
      · intro b hb
        obtain ⟨a, ha, hr⟩ := all2_right h hb
        exact ih a ha hr (hs.1 a ha) (harith.1 a ha)
      · have hty : (rs.all fun a => decide (a.ty = .int)) = args.all fun a => decide (a.ty = .int) := by
          have := sketch_res_tys h hs.1
          have h1 : ∀ l : List Expr, (l.all fun a => decide (a.ty = .int)) = (l.map Expr.ty).all fun t => decide (t = .int) := by
            intro l
            rw [List.all_map]
            rfl
          rw [h1, h1, this]
        rw [hty]
        exact harith.2

theorem sketch_res_vars {e r : Expr} (h : Resolves e r) : ∀ x ∈ r.vars, x ∈ e.vars := by
  induction e using Expr.ind generalizing r with
  | hv n t => cases h; exact fun x hx => hx
  | hl l => cases h; exact fun x hx => hx
  | hn op t args ih =>
    intro x hx
    simp only [Expr.vars]
    rw [Expr.mem_varss]
    cases h with
    | choose hm h => exact ⟨_, hm, ih _ hm h x hx⟩
    | node ho h =>
      simp only [Expr.vars] at hx
      obtain ⟨b, hb, hx⟩ := Expr.mem_varss.1 hx
      obtain ⟨a, ha, hr⟩ := all2_right h hb
      exact ⟨a, ha, ih a ha hr x hx⟩
end

namespace Rkt

/-! ### Names of non-terminals -/

/-- Names with a special meaning in grammars: those of productions, and `choose`. -/
def ntName (s : String) : Bool :=
  s == "rv" || s == "choose" || (match s.toList with
    | 'v' :: cs => !cs.isEmpty && cs.all Char.isDigit
    | _ => false)

theorem ntName_nt (i : Nat) : ntName (smtNt i) = true := by
  have e : (smtNt i).toList = 'v' :: i.repr.toList := by
    rw [smtNt, String.toList_append]
    rfl
  have h1 : i.repr.toList.isEmpty = false := by
    cases h : i.repr.toList with
    | nil => exact absurd h (repr_ne_nil i)
    | cons c cs => rfl
  have h2 : i.repr.toList.all Char.isDigit = true := by
    rw [List.all_eq_true]
    exact repr_digits i
  rw [ntName, e]
  simp only [h1, h2, Bool.not_false, Bool.and_self, Bool.or_true]

theorem ntName_lit (l : Lit) : ntName (litText l) = false := by
  have key : ∀ s : String, (∃ c cs, s.toList = c :: cs ∧ (c.isDigit = true ∨ c = '-')) → ntName s = false := by
    rintro s ⟨c, cs, e, hc⟩
    have h1 : c ≠ 'v' ∧ c ≠ 'r' ∧ c ≠ 'c' := by
      rcases hc with hc | rfl
      · refine ⟨?_, ?_, ?_⟩ <;> rintro rfl <;> exact absurd hc (by decide)
      · decide
    have h2 : s ≠ "rv" ∧ s ≠ "choose" := by
      constructor
      · rintro rfl
        exact h1.2.1 (by have : "rv".toList = ['r', 'v'] := by decide
                         rw [this] at e; cases e; rfl)
      · rintro rfl
        exact h1.2.2 (by have : "choose".toList = ['c', 'h', 'o', 'o', 's', 'e'] := by decide
                         rw [this] at e; cases e; rfl)
    rw [ntName, e]
    simp only [Bool.or_eq_false_iff, beq_eq_false_iff_ne]
    refine ⟨h2, ?_⟩
    split
    · next h => cases h; exact absurd rfl h1.1
    · rfl
  cases l with
  | int i =>
    apply key
    have hd : ∀ n : Nat, ∃ c cs, n.repr.toList = c :: cs ∧ c.isDigit = true := by
      intro n
      cases h : n.repr.toList with
      | nil => exact absurd h (repr_ne_nil n)
      | cons c cs => exact ⟨c, cs, rfl, repr_digits n c (by simp [h])⟩
    simp only [litText]
    split
    · exact ⟨'-', _, by rw [String.toList_append]; rfl, .inr rfl⟩
    · obtain ⟨c, cs, e, h⟩ := hd i.natAbs
      exact ⟨c, cs, e, .inl h⟩
  | bool b => cases b <;> decide

theorem listFns_nt : (listFns.all fun p => !ntName p.2) = true := by decide +kernel

theorem callHead_nt {f : String} {t1 : Option Ty} {h : String} (hf : ntName f = false) (hh : callHead f t1 = some h) : ntName h = false := by
  unfold callHead at hh
  split at hh
  · cases hh; exact hf
  split at hh
  · split at hh
    · split at hh
      · cases hh; decide
      · cases hh
    split at hh
    · split at hh
      · cases hh; decide
      · cases hh; decide
      · cases hh
    cases hl : listFns.lookup f with
    | none => rw [hl] at hh; cases hh; exact hf
    | some g =>
      rw [hl] at hh
      cases hh
      have := List.all_eq_true.1 listFns_nt _ (lookup_mem hl)
      simpa using this
  split at hh
  · split at hh
    · cases hh; decide
    split at hh
    · cases hh; decide
    · cases hh
  · cases hh; exact hf

theorem head_nt {op : Op} {t1 : Option Ty} {h : String} (hf : ∀ f, op = .call f → ntName f = false) (hh : opHead op t1 = some h) :
    ntName h = false := by
  unfold opHead at hh
  split at hh <;> first
    | (cases hh; decide)
    | exact callHead_nt (hf _ rfl) hh
    | cases hh

/-! ### Derivations -/

theorem expand_atom {rules : List (String × SExpr)} (hr : ∀ r ∈ rules, ntName r.1 = true) {s : String} (hs : ntName s = false) {d : Nat} {x : SExpr} :
    Expand rules d (.atom s) x ↔ x = .atom s := by
  constructor
  · intro h
    cases h
    rfl
  · rintro rfl
    refine .atom fun r hm e => ?_
    rw [← e, hr r hm] at hs
    cases hs

theorem expands_iff {rules : List (String × SExpr)} {d : Nat} {xs ys : List SExpr} : Expands rules d xs ys ↔ All2 (Expand rules d) xs ys := by
  induction xs generalizing ys with
  | nil => exact ⟨fun h => by cases h; exact .nil, fun h => by cases h; exact .nil⟩
  | cons e es ih =>
    constructor
    · intro h
      cases h with
      | cons h1 h2 => exact .cons h1 (ih.1 h2)
    · intro h
      cases h with
      | cons h1 h2 => exact .cons h1 (ih.2 h2)

theorem lookup_names {rules : List (String × SExpr)} {v : String} {e : SExpr} (h : rules.lookup v = some e) : ∃ r ∈ rules, r.1 = v :=
  ⟨(v, e), lookup_mem h, rfl⟩

theorem expand_form {rules : List (String × SExpr)} (hr : ∀ r ∈ rules, ntName r.1 = true) {h : String} (hh : ntName h = false) {d : Nat}
    {xs : List SExpr} {x : SExpr} :
    Expand rules d (.list (.atom h :: xs)) x ↔ ∃ ys, x = .list (.atom h :: ys) ∧ All2 (Expand rules d) xs ys := by
  constructor
  · intro hx
    cases hx with
    | choose => exact absurd hh (by decide)
    | nonterminal hl =>
      obtain ⟨r, hm, rfl⟩ := lookup_names hl
      rw [hr r hm] at hh
      cases hh
    | form _ hs =>
      cases hs with
      | cons h1 h2 =>
        rw [expand_atom hr hh] at h1
        subst h1
        exact ⟨_, rfl, expands_iff.1 h2⟩
  · rintro ⟨ys, rfl, h⟩
    refine .form ?_ (.cons ((expand_atom hr hh).2 rfl) (expands_iff.2 h))
    intro e
    simp only [List.head?_cons, Option.some.injEq, SExpr.atom.injEq] at e
    subst e
    exact absurd hh (by decide)

theorem expand_choose {rules : List (String × SExpr)} (hr : ∀ r ∈ rules, r.1 ≠ "choose") {d : Nat} {xs : List SExpr} {x : SExpr} :
    Expand rules d (.list (.atom "choose" :: xs)) x ↔ ∃ a ∈ xs, Expand rules d a x := by
  constructor
  · intro hx
    cases hx with
    | choose hm h => exact ⟨_, hm, h⟩
    | nonterminal hl =>
      obtain ⟨r, hm, e⟩ := lookup_names hl
      exact absurd e (hr r hm)
    | form hne => exact absurd rfl hne
  · rintro ⟨a, ha, h⟩
    exact .choose ha h

theorem expand_nt {rules : List (String × SExpr)} {v : String} {e : SExpr} (hl : rules.lookup v = some e) (hv : v ≠ "choose") {d : Nat} {x : SExpr} :
    Expand rules d (.list [.atom v]) x ↔ ∃ k, d = k + 1 ∧ Expand rules k e x := by
  constructor
  · intro hx
    cases hx with
    | choose => exact absurd rfl hv
    | nonterminal hl' h =>
      rw [hl] at hl'
      cases hl'
      exact ⟨_, rfl, h⟩
    | form _ hs =>
      cases hs with
      | cons h1 _ =>
        cases h1 with
        | atom hn =>
          obtain ⟨r, hm, rfl⟩ := lookup_names hl
          exact absurd rfl (hn r hm)
  · rintro ⟨k, rfl, h⟩
    exact .nonterminal hl h

/-- The productions of the grammar of `B`. -/
def prodsOf (x : SExpr) (ys : List SExpr) : List (String × SExpr) :=
  ("rv", .list [.atom "choose", x]) :: ys.mapIdx fun i y => (smtNt i, y)

theorem lookup_mapIdx {ys : List SExpr} : ∀ {f : Nat → String}, (∀ i j, f i = f j → i = j) → ∀ {i : Nat} {y : SExpr}, ys[i]? = some y →
    (ys.mapIdx fun i y => (f i, y)).lookup (f i) = some y := by
  induction ys with
  | nil => intro f _ i y h; simp at h
  | cons z ys ih =>
    intro f hf i y h
    rw [List.mapIdx_cons, List.lookup_cons]
    cases i with
    | zero =>
      simp only [List.getElem?_cons_zero, Option.some.injEq] at h
      simp [h]
    | succ i =>
      simp only [List.getElem?_cons_succ] at h
      have : (f (i + 1) == f 0) = false := by
        rw [beq_eq_false_iff_ne]
        intro e
        exact absurd (hf _ _ e) (by omega)
      rw [this]
      exact ih (f := fun i => f (i + 1)) (fun a b e => by have := hf _ _ e; omega) h

theorem prods_lookup {x : SExpr} {ys : List SExpr} {i : Nat} {y : SExpr} (h : ys[i]? = some y) : (prodsOf x ys).lookup (smtNt i) = some y := by
  rw [prodsOf, List.lookup_cons]
  have : (smtNt i == "rv") = false := by
    rw [beq_eq_false_iff_ne]
    intro e
    have := congrArg String.toList e
    rw [smtNt, String.toList_append] at this
    exact absurd (congrArg List.head? this) (by simp)
  rw [this]
  exact lookup_mapIdx smtNt_inj h

theorem prods_nt {x : SExpr} {ys : List SExpr} : ∀ r ∈ prodsOf x ys, ntName r.1 = true ∧ r.1 ≠ "choose" := by
  intro r hr
  rcases List.mem_cons.1 hr with rfl | hr
  · exact ⟨show ntName "rv" = true by decide, show "rv" ≠ "choose" by decide⟩
  · obtain ⟨i, hi, rfl⟩ := List.mem_mapIdx.1 hr
    refine ⟨ntName_nt _, fun e => ?_⟩
    have := congrArg String.toList e
    simp only [smtNt, String.toList_append] at this
    exact absurd (congrArg List.head? this) (by simp)

section
variable {Γ : String → Ty} {sig : Sigs} (hsig : ∀ f ts t, sig f = some (ts, t) → ntName f = false) {B : Expr} (hB : NoClash B)
  (hsort : B.sketchSorted Γ sig = true) (hvars : ∀ x ∈ B.vars, ntName x = false) {start : SExpr} {ys : List SExpr}
  (hys : All2 (fun c y => altSx (commonExprs B) c = some y) (commonExprs B) ys)

theorem all2_get {α β : Type} {R : α → β → Prop} {as : List α} {bs : List β} (h : All2 R as bs) : ∀ {i : Nat} {a : α}, as[i]? = some a →
    ∃ b, bs[i]? = some b ∧ R a b := by
  induction h with
  | nil => intro i a h; simp at h
  | @cons a b as bs h1 _ ih =>
    intro i x h
    cases i with
    | zero =>
      simp only [List.getElem?_cons_zero, Option.some.injEq] at h
      subst h
      exact ⟨b, rfl, h1⟩
    | succ i => exact ih h

include hsig hB hsort hvars hys

theorem hole_expand (e : Expr) : SubExpr e B → ∀ y, holeSx (commonExprs B) e = some y → ∀ d x,
    Expand (prodsOf start ys) d y x ↔ ∃ r, ResolvesIn d e r ∧ rktSx r = some x := by
  have hr : ∀ r ∈ prodsOf start ys, ntName r.1 = true := fun r h => (prods_nt r h).1
  induction e using Expr.ind with
  | hv n t =>
    intro he y hy d x
    cases hy
    rw [expand_atom hr (hvars n (vars_sub he n (by simp [Expr.vars])))]
    constructor
    · rintro rfl
      exact ⟨_, .var, rfl⟩
    · rintro ⟨r, h, hx⟩
      cases h
      cases hx
      rfl
  | hl l =>
    intro he y hy d x
    cases hy
    rw [expand_atom hr (ntName_lit l)]
    constructor
    · rintro rfl
      exact ⟨_, .lit, rfl⟩
    · rintro ⟨r, h, hx⟩
      cases h
      cases hx
      rfl
  | hn op t args ih =>
    intro he y hy d x
    have hsub : ∀ a ∈ args, SubExpr a B := fun a ha => (SubExpr.arg ha .refl).trans he
    by_cases ho : op = .choose
    · subst ho
      obtain ⟨i, h1, h2⟩ := find_choose hB he
      rw [holeSx, if_pos rfl, h1] at hy
      cases hy
      obtain ⟨z, hz, halt⟩ := all2_get hys h2
      simp only [altSx] at halt
      obtain ⟨xs, hxs, rfl⟩ := Option.map_eq_some_iff.1 halt
      rw [holeSxs_iff] at hxs
      rw [expand_nt (prods_lookup hz) (fun e => (prods_nt _ (lookup_mem (prods_lookup (x := start) hz))).2 e)]
      constructor
      · rintro ⟨k, rfl, h⟩
        rw [expand_choose fun r hm => (prods_nt r hm).2] at h
        obtain ⟨a, ha, h⟩ := h
        obtain ⟨e, hm, hae⟩ := all2_right hxs ha
        obtain ⟨r, h3, h4⟩ := (ih e hm (hsub e hm) a hae k x).1 h
        exact ⟨r, .choose hm h3, h4⟩
      · rintro ⟨r, h, hx⟩
        cases h with
        | @choose k _ _ a _ hm h =>
          refine ⟨k, rfl, (expand_choose fun r hm => (prods_nt r hm).2).2 ?_⟩
          obtain ⟨b, hb, hab⟩ := all2_left hxs hm
          exact ⟨b, hb, (ih a hm (hsub a hm) b hab k x).2 ⟨r, h, hx⟩⟩
        | node ho => exact absurd rfl ho
    · rw [holeSx, if_neg ho] at hy
      simp only [Option.bind_eq_bind, Option.bind_eq_some_iff, Option.some.injEq] at hy
      obtain ⟨h, hh, xs, hxs, rfl⟩ := hy
      rw [holeSxs_iff] at hxs
      have hs := sketch_sub he hsort
      simp only [Expr.sketchSorted, Bool.and_eq_true, sketchSorteds_iff, opSketch_ne ho] at hs
      have hnt : ntName h = false := by
        refine head_nt (fun f hf => ?_) hh
        subst hf
        have := hs.2
        simp only [opSorted, decide_eq_true_eq] at this
        exact hsig _ _ _ this
      have hhead : ∀ {rs : List Expr}, All2 Resolves args rs → opHead op (rs.head?.map Expr.ty) = some h := by
        intro rs hrs
        have := congrArg List.head? (sketch_res_tys hrs hs.1)
        rw [List.head?_map, List.head?_map] at this
        rw [this, hh]
      rw [expand_form hr hnt]
      have key : ∀ {l : List Expr} {xs : List SExpr}, (∀ a ∈ l, a ∈ args) → All2 (fun e x => holeSx (commonExprs B) e = some x) l xs → ∀ zs,
          All2 (Expand (prodsOf start ys) d) xs zs ↔ ∃ rs, All2 (ResolvesIn d) l rs ∧ All2 (fun r z => rktSx r = some z) rs zs := by
        intro l xs hl h
        induction h with
        | nil =>
          intro zs
          constructor
          · intro h
            cases h
            exact ⟨[], .nil, .nil⟩
          · rintro ⟨rs, h1, h2⟩
            cases h1
            cases h2
            exact .nil
        | @cons a x l xs h1 _ ih2 =>
          intro zs
          have ha := hl a (by simp)
          constructor
          · intro h
            cases h with
            | cons g1 g2 =>
              obtain ⟨r, k1, k2⟩ := (ih a ha (hsub a ha) x h1 d _).1 g1
              obtain ⟨rs, k3, k4⟩ := (ih2 (fun b hb => hl b (by simp [hb])) _).1 g2
              exact ⟨r :: rs, .cons k1 k3, .cons k2 k4⟩
          · rintro ⟨rs, g1, g2⟩
            cases g1 with
            | cons k1 k3 =>
              cases g2 with
              | cons k2 k4 =>
                exact .cons ((ih a ha (hsub a ha) x h1 d _).2 ⟨_, k1, k2⟩) ((ih2 (fun b hb => hl b (by simp [hb])) _).2 ⟨_, k3, k4⟩)
      constructor
      · rintro ⟨zs, rfl, hz⟩
        obtain ⟨rs, g1, g2⟩ := (key (fun a ha => ha) hxs zs).1 hz
        refine ⟨.node op t rs, .node ho (resolveIn_iff.2 g1), ?_⟩
        simp [rktSx, hhead (g1.imp fun _ _ h => h.resolves), rktSxs_iff.2 g2]
      · rintro ⟨r, hres, hx⟩
        cases hres with
        | choose => exact absurd rfl ho
        | @node _ _ _ _ rs _ hrs =>
          rw [resolveIn_iff] at hrs
          simp only [rktSx, hhead (hrs.imp fun _ _ h => h.resolves), Option.bind_eq_bind, Option.bind_some, Option.bind_eq_some_iff,
            Option.some.injEq] at hx
          obtain ⟨zs, hzs, rfl⟩ := hx
          exact ⟨zs, rfl, (key (fun a ha => ha) hxs zs).2 ⟨rs, hrs, rktSxs_iff.1 hzs⟩⟩

omit hsig hvars in
/-- Resolutions can be printed. -/
theorem resolution_prints (e : Expr) : SubExpr e B → ∀ y, holeSx (commonExprs B) e = some y → ∀ r, Resolves e r → ∃ x, rktSx r = some x := by
  induction e using Expr.ind with
  | hv n t => intro _ _ _ r h; cases h; exact ⟨_, rfl⟩
  | hl l => intro _ _ _ r h; cases h; exact ⟨_, rfl⟩
  | hn op t args ih =>
    intro he y hy r hres
    have hsub : ∀ a ∈ args, SubExpr a B := fun a ha => (SubExpr.arg ha .refl).trans he
    cases hres with
    | @choose _ _ a _ hm h =>
      obtain ⟨i, h1, h2⟩ := find_choose hB he
      obtain ⟨z, hz, halt⟩ := all2_get hys h2
      simp only [altSx] at halt
      obtain ⟨xs, hxs, rfl⟩ := Option.map_eq_some_iff.1 halt
      obtain ⟨b, _, hab⟩ := all2_left (holeSxs_iff.1 hxs) hm
      exact ih a hm (hsub a hm) b hab r h
    | @node _ _ _ rs ho hrs =>
      rw [holeSx, if_neg ho] at hy
      simp only [Option.bind_eq_bind, Option.bind_eq_some_iff, Option.some.injEq] at hy
      obtain ⟨h, hh, xs, hxs, rfl⟩ := hy
      have hs := sketch_sub he hsort
      simp only [Expr.sketchSorted, Bool.and_eq_true, sketchSorteds_iff] at hs
      have hhead : opHead op (rs.head?.map Expr.ty) = some h := by
        have := congrArg List.head? (sketch_res_tys hrs hs.1)
        rw [List.head?_map, List.head?_map] at this
        rw [this, hh]
      have : ∃ zs, All2 (fun r z => rktSx r = some z) rs zs := by
        have key : ∀ {l : List Expr} {rs : List Expr}, (∀ a ∈ l, a ∈ args) → All2 Resolves l rs → ∃ zs, All2 (fun r z => rktSx r = some z) rs zs := by
          intro l rs hl h
          induction h with
          | nil => exact ⟨[], .nil⟩
          | @cons a r l rs h1 _ ih2 =>
            have ha := hl a (by simp)
            obtain ⟨b, _, hab⟩ := all2_left (holeSxs_iff.1 hxs) ha
            obtain ⟨z, hz⟩ := ih a ha (hsub a ha) b hab r h1
            obtain ⟨zs, hzs⟩ := ih2 fun b hb => hl b (by simp [hb])
            exact ⟨z :: zs, .cons hz hzs⟩
        exact key (fun a ha => ha) hrs
      obtain ⟨zs, hzs⟩ := this
      exact ⟨.list (.atom h :: zs), by simp only [rktSx, hhead, rktSxs_iff.2 hzs, Option.bind_eq_bind, Option.bind_some]⟩
end

end Rkt
end Metalift
