import Verif.Decode
import Verif.PGrammar
import Verif.PRosette
import Verif.PPrune
/-
C52: the candidates read from a solution are the choices Rosette made, and belong to the grammars.
-/
namespace Metalift

/-! ### Specification -/

/-- No choice has to be made in `e`: every choose has one alternative. -/
def NoChoice (e : Expr) : Prop := ∀ t args, SubExpr (.node .choose t args) e → args.length = 1

/-- `x` is how Rosette may show the resolution `r` of the choose expression `e`: chooses are replaced by (what is shown for) the alternative
taken; where no choice has to be made, the non-terminal, the `i`-th of the list `C`, or the form `(choose a)` may be left. -/
inductive Shows (C : List Expr) : Expr → SExpr → Expr → Prop where
  | var {n t} : Shows C (.var n t) (.atom n) (.var n t)
  | lit {l} : Shows C (.lit l) (.atom (litText l)) (.lit l)
  | choose {t args a x r} : a ∈ args → Shows C a x r → Shows C (.node .choose t args) x r
  | form {t a x r} : Shows C a x r → Shows C (.node .choose t [a]) (.list [.atom "choose", x]) r
  | nonterminal {t args i r} : C[i]? = some (.node .choose t args) → NoChoice (.node .choose t args) →
      Resolves (.node .choose t args) r → Shows C (.node .choose t args) (.list [.atom (smtNt i)]) r
  | node {op t args h xs rs} : op ≠ .choose → opHead op (args.head?.map Expr.ty) = some h → xs.length = args.length →
      rs.length = args.length → (∀ (i : Nat) a x r, args[i]? = some a → xs[i]? = some x → rs[i]? = some r → Shows C a x r) →
      Shows C (.node op t args) (.list (.atom h :: xs)) (.node op t rs)

/-- The start production is `(choose e)`. -/
def ShowsTop (C : List Expr) (e : Expr) (x : SExpr) (r : Expr) : Prop :=
  Shows C e x r ∨ ∃ y, x = .list [.atom "choose", y] ∧ Shows C e y r

/-- The alternatives of a choose have the type of the choose (checked by its constructor, `metalift/ir.py` 2964-2970). -/
def ChooseTyped (e : Expr) : Prop := ∀ t args, SubExpr (.node .choose t args) e → ∀ a ∈ args, a.ty = t

/-- The alternative behind chooses with one alternative. -/
def stripChoose : Expr → Expr
  | .node .choose _ [a] => stripChoose a
  | e => e

/-- Behind these chooses, chooses are not nested. -/
def ShallowChoice (c : Expr) : Prop := ∀ t args, SubExpr (.node .choose t args) (stripChoose c) → ∀ a ∈ args, ChooseFree a

/-- `e` is `r` with some calls of `list_eq` and `ite` replaced by the operators of that meaning. -/
inductive ReadAs : Expr → Expr → Prop where
  | var {n t} : ReadAs (.var n t) (.var n t)
  | lit {l} : ReadAs (.lit l) (.lit l)
  | node {op t rs es} : All2 ReadAs rs es → ReadAs (.node op t rs) (.node op t es)
  | listEq {t a b a' b'} : ReadAs a a' → ReadAs b b' → ReadAs (.node (.call "list_eq") t [a, b]) (.node .eq t [a', b'])
  | ite {t c a b c' a' b'} : ReadAs c c' → ReadAs a a' → ReadAs b b' →
      ReadAs (.node (.call "ite") t [c, a, b]) (.node .ite t [c', a', b'])

/-! ### Productions -/

theorem lookup_mapIdx {β : Type} {k : Nat → String} (hk : ∀ i j, k i = k j → i = j) : ∀ (l : List β) (f : Nat → Nat) (_ : ∀ i j, f i = f j → i = j)
    (j : Nat), (l.mapIdx (fun i e => (k (f i), e))).lookup (k (f j)) = l[j]?
  | [], _, _, _ => by simp
  | a :: l, f, hf, j => by
    rw [List.mapIdx_cons, List.lookup_cons]
    cases j with
    | zero => simp
    | succ j =>
      have : (k (f (j + 1)) == k (f 0)) = false := by
        simp only [beq_eq_false_iff_ne, ne_eq]
        intro h
        have := hf _ _ (hk _ _ h)
        omega
      rw [this]
      simp only [List.getElem?_cons_succ]
      exact lookup_mapIdx hk l (fun i => f (i + 1)) (fun i j h => by have := hf _ _ h; omega) j

theorem choices_lookup {B : Expr} {i : Nat} {t : Ty} {args : List Expr} (h : (commonExprs B)[i]? = some (.node .choose t args)) :
    (choicesOf B).lookup (smtNt i) = some (.node .choose t (args.map (replaceExprs rosetteNt (commonExprs B)))) := by
  exact (lookup_mapIdx smtNt_inj _ id (fun _ _ h => h) i).trans (rule_choose h)

theorem nt_alternative {B : Expr} {i : Nat} {t : Ty} {a : Expr} (h : (commonExprs B)[i]? = some (.node .choose t [a])) :
    ntAlternative (choicesOf B) (rosetteNt i) = some (replaceExprs rosetteNt (commonExprs B) a) := by
  have h1 : (rosetteNt i).toList = '(' :: ((smtNt i).toList ++ [')']) := by
    simp [rosetteNt, smtNt]
  rw [ntAlternative, h1]
  simp only [List.head?_cons, if_true, List.tail_cons, List.dropLast_concat, String.ofList_toList]
  rw [choices_lookup h]
  rfl

theorem nt_none {ch : List (String × Expr)} {n : String} (h : n.toList.head? ≠ some '(') : ntAlternative ch n = none := by
  rw [ntAlternative, if_neg h]

/-! ### Reading a non-terminal -/

theorem resolves_single {t : Ty} {a r : Expr} : Resolves (.node .choose t [a]) r ↔ Resolves a r := by
  constructor
  · intro h
    cases h with
    | choose hm h => rw [List.mem_singleton.1 hm] at h; exact h
    | node ho => exact absurd rfl ho
  · exact fun h => .choose (by simp) h

theorem chooseFree_arg {op : Op} {t : Ty} {args : List Expr} {a : Expr} (h : ChooseFree (.node op t args)) (ha : a ∈ args) : ChooseFree a :=
  fun t' as hs => h t' as (.arg ha hs)

theorem resolves_free (e : Expr) : ChooseFree e → ∀ r, Resolves e r → r = e := by
  induction e using Expr.ind with
  | hv n t => intro _ r h; cases h; rfl
  | hl l => intro _ r h; cases h; rfl
  | hn op t args ih =>
    intro hf r h
    cases h with
    | choose => exact absurd .refl (hf _ _)
    | @node _ _ _ rs _ hrs =>
      congr
      have : ∀ {as rs : List Expr}, (∀ a ∈ as, a ∈ args) → All2 Resolves as rs → rs = as := by
        intro as rs hm h
        induction h with
        | nil => rfl
        | @cons a r as rs h1 _ ih2 =>
          rw [ih a (hm a (by simp)) (chooseFree_arg hf (hm a (by simp))) r h1, ih2 (fun b hb => hm b (by simp [hb]))]
      exact this (fun a ha => ha) hrs

theorem replace_free {B : Expr} (hB : NoClash B) {nm : Nat → String} (e : Expr) : SubExpr e B → ChooseFree e →
    replaceExprs nm (commonExprs B) e = e := by
  induction e using Expr.ind with
  | hv n t => intro hs _; rw [replaceExprs, find_other hB hs (by simp)]
  | hl l => intro hs _; rw [replaceExprs, find_other hB hs (by simp)]
  | hn op t args ih =>
    intro hs hf
    have ho : op ≠ .choose := by rintro rfl; exact hf _ _ .refl
    rw [replace_node hB hs ho]
    congr
    conv => rhs; rw [← List.map_id args]
    exact List.map_congr_left (fun a ha => ih a ha ((SubExpr.arg ha .refl).trans hs) (chooseFree_arg hf ha))

/-- No variable starts with a parenthesis. -/
def PlainVars (e : Expr) : Prop := ∀ n t, SubExpr (.var n t) e → n.toList.head? ≠ some '('

theorem PlainVars.arg {op : Op} {t : Ty} {args : List Expr} {a : Expr} (h : PlainVars (.node op t args)) (ha : a ∈ args) : PlainVars a :=
  fun n t' hs => h n t' (.arg ha hs)

theorem NoChoice.arg {op : Op} {t : Ty} {args : List Expr} {a : Expr} (h : NoChoice (.node op t args)) (ha : a ∈ args) : NoChoice a :=
  fun t' as hs => h t' as (.arg ha hs)

theorem replaceChoicess_eq (ch : List (String × Expr)) (es : List Expr) : replaceChoicess ch es = es.map (replaceChoices ch) := by
  induction es with
  | nil => rfl
  | cons e es ih => rw [replaceChoicess, ih]; rfl

theorem map_resolves {args rs : List Expr} {g : Expr → Expr} (h : All2 Resolves args rs) (hg : ∀ a ∈ args, ∀ r, Resolves a r → g a = r) :
    args.map g = rs := by
  induction h with
  | nil => rfl
  | @cons a r as rs h1 _ ih =>
    rw [List.map_cons, hg a (by simp) r h1, ih (fun b hb => hg b (by simp [hb]))]

theorem noChoice_single {t : Ty} {args : List Expr} (h : NoChoice (.node .choose t args)) : ∃ a, args = [a] := by
  match args, h t args .refl with
  | [a], _ => exact ⟨a, rfl⟩

theorem replaceChoices_resolved {B : Expr} (hB : NoClash B) (e : Expr) : SubExpr e B → PlainVars e → NoChoice e →
    (∀ t args, SubExpr (.node .choose t args) e → ∀ a ∈ args, ChooseFree a) → ∀ r, Resolves e r →
    replaceChoices (choicesOf B) (replaceExprs rosetteNt (commonExprs B) e) = r := by
  induction e using Expr.ind with
  | hv n t =>
    intro hs hv _ _ r hr
    cases hr
    rw [replaceExprs, find_other hB hs (by simp)]
    simp only [replaceChoices]
    rw [nt_none (hv n t .refl)]
    rfl
  | hl l =>
    intro hs hv _ _ r hr
    cases hr
    rw [replaceExprs, find_other hB hs (by simp)]
    rfl
  | hn op t args ih =>
    intro hs hv hn hf r hr
    by_cases ho : op = .choose
    · subst ho
      obtain ⟨a, rfl⟩ := noChoice_single hn
      obtain ⟨i, h1, h2⟩ := find_choose hB hs
      rw [replaceExprs, h1]
      simp only [replaceChoices]
      have ha := hf t [a] .refl a (by simp)
      rw [nt_alternative h2, Option.getD_some, replace_free hB a ((SubExpr.arg (by simp) .refl).trans hs) ha]
      exact (resolves_free a ha r (resolves_single.1 hr)).symm
    · rw [replace_node hB hs ho]
      cases hr with
      | choose => exact absurd rfl ho
      | node _ hrs =>
        simp only [replaceChoices, replaceChoicess_eq, List.map_map]
        congr
        exact map_resolves hrs (fun a ha r hr => ih a ha ((SubExpr.arg ha .refl).trans hs) (hv.arg ha) (hn.arg ha)
          (fun t' as h => hf t' as (.arg ha h)) r hr)

/-- The chooses gone through. -/
def chain : Expr → List Expr
  | .node .choose t [a] => .node .choose t [a] :: chain a
  | _ => []

theorem chain_spec (e : Expr) : ∀ c ∈ chain e, SubExpr c e ∧ ∃ t args, c = .node .choose t args := by
  induction e using Expr.ind with
  | hv n t => simp [chain]
  | hl l => simp [chain]
  | hn op t args ih =>
    intro c hc
    match op, args, hc, ih with
    | .choose, [a], hc, ih =>
      rw [chain, List.mem_cons] at hc
      rcases hc with rfl | hc
      · exact ⟨.refl, _, _, rfl⟩
      · obtain ⟨h1, h2⟩ := ih a (by simp) c hc
        exact ⟨.arg (by simp) h1, h2⟩
    | .choose, [], hc, _ => simp [chain] at hc
    | .choose, _ :: _ :: _, hc, _ => simp [chain] at hc
    | .add, _, hc, _ | .sub, _, hc, _ | .mul, _, hc, _ | .div, _, hc, _ | .mod, _, hc, _ | .eq, _, hc, _ | .lt, _, hc, _ | .le, _, hc, _
    | .gt, _, hc, _ | .ge, _, hc, _ | .and, _, hc, _ | .or, _, hc, _ | .not, _, hc, _ | .implies, _, hc, _ | .ite, _, hc, _ | .tuple, _, hc, _
    | .call _, _, hc, _ | .callValue, _, hc, _ => simp [chain] at hc

theorem chain_nodup (e : Expr) : (chain e).Nodup := by
  induction e using Expr.ind with
  | hv n t => simp [chain]
  | hl l => simp [chain]
  | hn op t args ih =>
    unfold chain
    split
    · next heq =>
      cases heq
      rw [List.nodup_cons]
      refine ⟨fun hm => ?_, ih _ (by simp)⟩
      have := (chain_spec _ _ hm).1.size_le
      simp at this
      omega
    · exact List.nodup_nil

theorem chain_length {B : Expr} (hB : NoClash B) {e : Expr} (he : SubExpr e B) : (chain e).length ≤ (commonExprs B).length :=
  List.Nodup.length_le_of_subset (chain_nodup e) (fun c hc => by
    obtain ⟨h1, h2⟩ := chain_spec e c hc
    exact (mem_commonExprs hB).2 ⟨h1.trans he, h2⟩)

theorem stripChoose_sub (e : Expr) : SubExpr (stripChoose e) e := by
  induction e using Expr.ind with
  | hv n t => exact .refl
  | hl l => exact .refl
  | hn op t args ih =>
    unfold stripChoose
    split
    · next heq => cases heq; exact .arg (by simp) (ih _ (by simp))
    · exact .refl

theorem stripChoose_resolves (e : Expr) : ∀ r, Resolves e r → Resolves (stripChoose e) r := by
  induction e using Expr.ind with
  | hv n t => exact fun r h => h
  | hl l => exact fun r h => h
  | hn op t args ih =>
    intro r h
    unfold stripChoose
    split
    · next heq => cases heq; exact ih _ (by simp) r (resolves_single.1 h)
    · exact h

theorem stripChoose_ne (e : Expr) : NoChoice e → ∀ t args, stripChoose e ≠ .node .choose t args := by
  induction e using Expr.ind with
  | hv n t => intro _ t' as h; cases h
  | hl l => intro _ t' as h; cases h
  | hn op t args ih =>
    intro hn t' as
    unfold stripChoose
    split
    · next heq => cases heq; exact ih _ (by simp) (hn.arg (by simp)) t' as
    · next hne =>
      intro heq
      cases heq
      obtain ⟨a, rfl⟩ := noChoice_single hn
      exact hne _ _ rfl

theorem chase_ok {B : Expr} (hB : NoClash B) (e : Expr) : SubExpr e B → PlainVars e → NoChoice e → ∀ k, (chain e).length ≤ k →
    chaseChoice (choicesOf B) (k + 1) (replaceExprs rosetteNt (commonExprs B) e) =
      some (replaceExprs rosetteNt (commonExprs B) (stripChoose e)) := by
  induction e using Expr.ind with
  | hv n t =>
    intro hs hv _ k _
    rw [stripChoose, replaceExprs, find_other hB hs (by simp)]
    · simp only [chaseChoice]
      rw [nt_none (hv n t .refl)]
    · simp
  | hl l =>
    intro hs hv _ k _
    rw [stripChoose, replaceExprs, find_other hB hs (by simp)]
    · rfl
    · simp
  | hn op t args ih =>
    intro hs hv hn k hk
    by_cases ho : op = .choose
    · subst ho
      obtain ⟨a, rfl⟩ := noChoice_single hn
      obtain ⟨i, h1, h2⟩ := find_choose hB hs
      rw [replaceExprs, h1]
      simp only [chaseChoice]
      rw [nt_alternative h2]
      rw [chain, List.length_cons] at hk
      match k, hk with
      | k + 1, hk =>
        rw [stripChoose]
        exact ih a (by simp) ((SubExpr.arg (by simp) .refl).trans hs) (hv.arg (by simp)) (hn.arg (by simp)) k (by omega)
    · have hst : stripChoose (.node op t args) = .node op t args := by
        unfold stripChoose
        split
        · next heq => cases heq; exact absurd rfl ho
        · rfl
      rw [hst, replace_node hB hs ho]
      rfl

theorem readChoice_ok {B : Expr} (hB : NoClash B) {t : Ty} {args : List Expr} {i : Nat} (hs : SubExpr (.node .choose t args) B)
    (hv : PlainVars (.node .choose t args)) (hi : (commonExprs B)[i]? = some (.node .choose t args)) (hn : NoChoice (.node .choose t args))
    (hsh : ShallowChoice (.node .choose t args)) {r : Expr} (hr : Resolves (.node .choose t args) r) :
    readChoice (choicesOf B) (smtNt i) = some r := by
  obtain ⟨a, rfl⟩ := noChoice_single hn
  have hsa : SubExpr a B := (SubExpr.arg (by simp) .refl).trans hs
  have hlen : (choicesOf B).length = (commonExprs B).length := by simp [choicesOf, synthGrammar]
  rw [readChoice, choices_lookup hi]
  simp only [List.map_cons, List.map_nil, Option.bind_some, Expr.firstArg]
  rw [chase_ok hB a hsa (hv.arg (by simp)) (hn.arg (by simp)) _ (by rw [hlen]; exact chain_length hB hsa), Option.map_some, Option.some.injEq]
  have hra := stripChoose_resolves a r (resolves_single.1 hr)
  have hps : SubExpr (stripChoose a) B := (stripChoose_sub a).trans hsa
  have hpv : PlainVars (stripChoose a) := fun n t h => hv.arg (by simp) n t (h.trans (stripChoose_sub a))
  have hpn : NoChoice (stripChoose a) := fun n t h => hn.arg (a := a) (by simp) n t (h.trans (stripChoose_sub a))
  have hne := stripChoose_ne a (hn.arg (by simp))
  have hpf : ∀ t args, SubExpr (.node .choose t args) (stripChoose a) → ∀ b ∈ args, ChooseFree b := hsh
  generalize stripChoose a = p at *
  cases p with
  | var n t =>
    rw [replaceExprs, find_other hB hps (by simp)]
    cases hra
    rfl
  | lit l =>
    rw [replaceExprs, find_other hB hps (by simp)]
    cases hra
    rfl
  | node op t as =>
    have ho : op ≠ .choose := by rintro rfl; exact hne _ _ rfl
    rw [replace_node hB hps ho]
    cases hra with
    | choose => exact absurd rfl ho
    | node _ hrs =>
      simp only [replaceChoicesTop, replaceChoicess_eq, List.map_map]
      congr
      exact map_resolves hrs (fun a ha r hr => replaceChoices_resolved hB a ((SubExpr.arg ha .refl).trans hps) (hpv.arg ha) (hpn.arg ha)
        (fun t' as h => hpf t' as (.arg ha h)) r hr)

/-! ### What is shown is a resolution, and is read back -/

theorem all2_of_getElem {α β : Type} {R : α → β → Prop} : ∀ {as : List α} {bs : List β}, bs.length = as.length →
    (∀ (i : Nat) a b, as[i]? = some a → bs[i]? = some b → R a b) → All2 R as bs
  | [], [], _, _ => .nil
  | [], _ :: _, h, _ => by simp at h
  | _ :: _, [], h, _ => by simp at h
  | a :: as, b :: bs, h, hR => .cons (hR 0 a b rfl rfl) (all2_of_getElem (by simpa using h) (fun i x y hx hy => hR (i + 1) x y hx hy))

theorem all2_same_length {α β : Type} {R : α → β → Prop} {as : List α} {bs : List β} (h : All2 R as bs) : as.length = bs.length := by
  induction h with
  | nil => rfl
  | cons _ _ ih => rw [List.length_cons, List.length_cons, ih]

theorem shows_resolves {C : List Expr} (e : Expr) : ∀ x r, Shows C e x r → Resolves e r := by
  induction e using Expr.ind with
  | hv n t => intro x r h; cases h; exact .var
  | hl l => intro x r h; cases h; exact .lit
  | hn op t args ih =>
    intro x r h
    cases h with
    | choose ha h => exact .choose ha (ih _ ha _ _ h)
    | form h => exact .choose (by simp) (ih _ (by simp) _ _ h)
    | nonterminal _ _ h => exact h
    | @node _ _ _ _ xs rs ho _ hx hr h =>
      refine .node ho (all2_of_getElem hr (fun i a r ha hr' => ?_))
      have hlt : i < xs.length := by
        rw [hx]
        exact (List.getElem?_eq_some_iff.1 ha).1
      exact ih a (List.mem_of_getElem? ha) xs[i] r (h i a xs[i] r ha (List.getElem?_eq_getElem hlt) hr')

theorem resolves_ty (e : Expr) : ChooseTyped e → ∀ r, Resolves e r → r.ty = e.ty := by
  induction e using Expr.ind with
  | hv n t => intro _ r h; cases h; rfl
  | hl l => intro _ r h; cases h; rfl
  | hn op t args ih =>
    intro ht r h
    cases h with
    | @choose _ _ a _ ha h =>
      rw [ih a ha (fun t' as hs => ht t' as (.arg ha hs)) r h]
      exact ht t args .refl a ha
    | node => rfl

theorem ReadAs.refl (e : Expr) : ReadAs e e := by
  induction e using Expr.ind with
  | hv n t => exact .var
  | hl l => exact .lit
  | hn op t args ih =>
    refine .node ?_
    have : ∀ as : List Expr, (∀ a ∈ as, a ∈ args) → All2 ReadAs as as := by
      intro as
      induction as with
      | nil => exact fun _ => .nil
      | cons a as ih2 => exact fun hm => .cons (ih a (hm a (by simp))) (ih2 (fun b hb => hm b (by simp [hb])))
    exact this args (fun _ h => h)

theorem ReadAs.ty {r e : Expr} (h : ReadAs r e) : e.ty = r.ty := by cases h <;> rfl

theorem ReadAs.tys {rs es : List Expr} (h : All2 ReadAs rs es) : es.map Expr.ty = rs.map Expr.ty := by
  induction h with
  | nil => rfl
  | cons h _ ih => rw [List.map_cons, List.map_cons, h.ty, ih]

theorem smtNt_shape (i : Nat) : ∃ c cs, (smtNt i).toList = 'v' :: c :: cs ∧ c.isDigit = true := by
  have h1 : (smtNt i).toList = 'v' :: i.repr.toList := by simp [smtNt]
  have h2 := isNumeric_repr i
  cases hr : i.repr.toList with
  | nil => exact absurd hr (repr_ne_nil i)
  | cons c cs =>
    rw [hr] at h1 h2
    simp only [isNumeric, List.all_cons, Bool.and_eq_true] at h2
    exact ⟨c, cs, h1, h2.2.1⟩

theorem reserved_shape : ∀ s ∈ reservedHeads, (match s.toList with | 'v' :: c :: _ => c.isDigit | _ => false) = false := by decide +kernel

theorem smtNt_reserved (i : Nat) : smtNt i ∉ reservedHeads := by
  intro h
  have := reserved_shape _ h
  obtain ⟨c, cs, h1, h2⟩ := smtNt_shape i
  rw [h1] at this
  simp [h2] at this

theorem read_nonterminal {E : ReadEnv} {i : Nat} (hE : E.fns (smtNt i) = none) :
    toExpr E (.list [.atom (smtNt i)]) = readChoice E.choices (smtNt i) := by
  have hr := smtNt_reserved i
  simp only [reservedHeads, List.mem_append, List.mem_cons, List.not_mem_nil, or_false, not_or] at hr
  obtain ⟨⟨⟨⟨⟨r1, r2⟩, r3⟩, r4⟩, r5⟩, r6⟩ := hr
  simp only [toExpr]
  rw [readNode, if_neg r1, if_neg r2, lookup_none r3, lookup_none r4, lookup_none r5]
  simp [r6, hE]

/-- Every node that can be printed can be read, whatever its arguments are. -/
theorem readable_node {E : ReadEnv} {op : Op} {t : Ty} {rs es : List Expr} (h : Readable E (.node op t rs)) (hes : All2 ReadAs rs es) :
    ∃ hd e, opHead op (rs.head?.map Expr.ty) = some hd ∧ readNode E hd (es.map some) = some e ∧ ReadAs (.node op t rs) e ∧
      (∀ r ∈ rs, Readable E r) := by
  have hty := ReadAs.tys hes
  cases h with
  | op hop hargs =>
    obtain ⟨hd, h1, _, h3⟩ := op_read (args := es) (by rw [hty]; exact hop) E
    refine ⟨hd, _, ?_, h3, .node hes, hargs⟩
    rw [← h1, ← List.head?_map, ← List.head?_map, hty]
  | @prim f _ _ hp hargs =>
    obtain ⟨hd, r, h1, h2, h3, h4, h5, h6, h7, h8, h9, h10⟩ := prim_head hp
    have hl : es.length = (rs.map Expr.ty).length := by rw [← hty, List.length_map]
    exact ⟨hd, _, by rw [← h1, List.head?_map], readNode_call h3 h4 h5 h6 h7 hl (by rw [hty]; exact h8), .node hes, hargs⟩
  | @listEq a b ha hb =>
    cases hes with
    | cons hes1 hes =>
      cases hes with
      | cons hes2 hes =>
        cases hes
        refine ⟨"equal?", _, rfl, ?_, .listEq hes1 hes2, by simp [ha, hb]⟩
        rw [readNode_op (op := .eq) (by decide) (by decide) (by rfl)]
        rfl
  | @iteCall c a b hc hab h1 h2 h3 =>
    cases hes with
    | cons hes1 hes =>
      cases hes with
      | cons hes2 hes =>
        cases hes with
        | cons hes3 hes =>
          cases hes
          refine ⟨"if", _, rfl, ?_, .ite hes1 hes2 hes3, by simp [h1, h2, h3]⟩
          rw [readNode_opN (n := 3) (op := .ite) (by decide) (by decide) (by rfl) (by rfl) rfl]
          simp [construct, hes1.ty, hes2.ty, hes3.ty, hc, hab]
  | @user f _ ts _ hu hE hargs =>
    have hr : f ∉ reservedHeads := by
      simp only [userName, Bool.and_eq_true, Bool.not_eq_true', List.contains_eq_mem, decide_eq_false_iff_not] at hu
      exact hu.1.1.1.1.1.2
    simp only [reservedHeads, List.mem_append, List.mem_cons, List.not_mem_nil, or_false, not_or] at hr
    obtain ⟨⟨⟨⟨⟨r1, r2⟩, r3⟩, r4⟩, r5⟩, r6⟩ := hr
    exact ⟨f, _, user_head hu _, readNode_user r1 r2 (lookup_none r3) (lookup_none r4) (lookup_none r5) (by simpa using r6) hE es,
      .node hes, hargs⟩

theorem readable_plain {E : ReadEnv} (r : Expr) : Readable E r → PlainVars r := by
  induction r using Expr.ind with
  | hv n t =>
    intro h n' t' hs
    cases hs
    cases h with
    | var hn _ =>
      simp only [goodVar, goodAtom, Bool.and_eq_true] at hn
      have := hn.1.1.1.1.2
      intro hh
      cases hl : n.toList with
      | nil => rw [hl] at hh; cases hh
      | cons c cs =>
        rw [hl] at hh this
        simp only [List.head?_cons, Option.some.injEq] at hh
        subst hh
        simp [isDelim] at this
  | hl l => intro _ n t hs; cases hs
  | hn op t args ih =>
    intro h n t' hs
    have hargs : ∀ a ∈ args, Readable E a := by
      obtain ⟨_, _, _, _, _, h⟩ := readable_node h (by
        have : ∀ as : List Expr, All2 ReadAs as as := fun as => by
          induction as with
          | nil => exact .nil
          | cons a as ih => exact .cons (.refl a) ih
        exact this args)
      exact h
    cases hs with
    | arg ha hs => exact ih _ ha (hargs _ ha) n t' hs

/-- The variables of a choose expression without choices occur in its resolution. -/
theorem resolves_vars (e : Expr) : NoChoice e → ∀ r, Resolves e r → ∀ n t, SubExpr (.var n t) e → SubExpr (.var n t) r := by
  induction e using Expr.ind with
  | hv n t => intro _ r h n' t' hs; cases h; exact hs
  | hl l => intro _ r h n' t' hs; cases h; exact hs
  | hn op t args ih =>
    intro hn r h n t' hs
    cases hs with
    | @arg _ _ _ b hb hs =>
      cases h with
      | @choose _ _ a _ ha h =>
        obtain ⟨c, rfl⟩ := noChoice_single hn
        rw [List.mem_singleton] at ha hb
        subst ha; subst hb
        exact ih _ (by simp) (hn.arg (by simp)) r h n t' hs
      | @node _ _ _ rs _ hrs =>
        have : ∃ r ∈ rs, Resolves b r := by
          have : ∀ {as rs : List Expr}, All2 Resolves as rs → b ∈ as → ∃ r ∈ rs, Resolves b r := by
            intro as rs h
            induction h with
            | nil => intro hb; cases hb
            | @cons a r as rs h1 _ ih =>
              intro hb
              rw [List.mem_cons] at hb
              rcases hb with rfl | hb
              · exact ⟨r, by simp, h1⟩
              · obtain ⟨r', h2, h3⟩ := ih hb
                exact ⟨r', by simp [h2], h3⟩
          exact this hrs hb
        obtain ⟨r', hm, hr'⟩ := this
        exact .arg hm (ih b hb (hn.arg hb) r' hr' n t' hs)

/-- What is needed of a grammar. -/
structure GrammarOk (B : Expr) : Prop where
  /-- subexpressions that Python's `==` cannot tell apart are the same -/
  clash : NoClash B
  typed : ChooseTyped B
  /-- productions without a choice are not nested too deeply -/
  shallow : ∀ t args, SubExpr (.node .choose t args) B → NoChoice (.node .choose t args) → ShallowChoice (.node .choose t args)

theorem toExprs_map (E : ReadEnv) (xs : List SExpr) : toExprs E xs = xs.map (toExpr E) := by
  induction xs with
  | nil => rfl
  | cons x xs ih => rw [toExprs, ih]; rfl

theorem shows_read {E : ReadEnv} {B : Expr} (hB : GrammarOk B) (hch : E.choices = choicesOf B) (hfn : ∀ i, E.fns (smtNt i) = none) (e : Expr) :
    SubExpr e B → ∀ x r, Shows (commonExprs B) e x r → Readable E r → ∃ e', toExpr E x = some e' ∧ ReadAs r e' := by
  induction e using Expr.ind with
  | hv n t =>
    intro hs x r h hr
    cases h
    cases hr with
    | var hn hE => exact ⟨_, by rw [toExpr]; exact read_var hn hE, .var⟩
  | hl l =>
    intro hs x r h hr
    cases h
    exact ⟨_, by rw [toExpr]; exact read_lit E l, .lit⟩
  | hn op t args ih =>
    intro hs x r h hr
    cases h with
    | choose ha h => exact ih _ ha ((SubExpr.arg ha .refl).trans hs) _ _ h hr
    | @form _ a x _ h =>
      obtain ⟨e', h1, h2⟩ := ih a (by simp) ((SubExpr.arg (by simp) .refl).trans hs) _ _ h hr
      refine ⟨e', ?_, h2⟩
      simp [toExpr, toExprs, readNode, h1]
    | nonterminal hi hn hres =>
      refine ⟨r, ?_, .refl r⟩
      rw [read_nonterminal (hfn _), hch]
      refine readChoice_ok hB.clash hs ?_ hi hn (hB.shallow _ _ hs hn) hres
      exact fun n t' hv => readable_plain r hr n t' (resolves_vars _ hn r hres n t' hv)
    | @node _ _ _ hd xs rs ho hh hx hr' h =>
      have hrs : ∀ r ∈ rs, Readable E r := by
        obtain ⟨_, _, _, _, _, h⟩ := readable_node hr (by
          have : ∀ as : List Expr, All2 ReadAs as as := fun as => by
            induction as with
            | nil => exact .nil
            | cons a as ih => exact .cons (.refl a) ih
          exact this rs)
        exact h
      -- the arguments
      have hargs : ∃ es, toExprs E xs = es.map some ∧ All2 ReadAs rs es := by
        rw [toExprs_map]
        have key : ∀ (as : List Expr) (xs : List SExpr) (rs : List Expr), (∀ a ∈ as, a ∈ args) → (∀ r ∈ rs, Readable E r) →
            xs.length = as.length → rs.length = as.length →
            (∀ (i : Nat) a x r, as[i]? = some a → xs[i]? = some x → rs[i]? = some r → Shows (commonExprs B) a x r) →
            ∃ es, xs.map (toExpr E) = es.map some ∧ All2 ReadAs rs es := by
          intro as
          induction as with
          | nil =>
            intro xs rs _ _ h1 h2 _
            have := List.eq_nil_of_length_eq_zero h1
            have := List.eq_nil_of_length_eq_zero h2
            subst_vars
            exact ⟨[], rfl, .nil⟩
          | cons a as ih2 =>
            intro xs rs hm hR h1 h2 h3
            match xs, rs, h1, h2 with
            | x :: xs, r :: rs, h1, h2 =>
              obtain ⟨e', g1, g2⟩ := ih a (hm a (by simp)) ((SubExpr.arg (hm a (by simp)) .refl).trans hs) x r (h3 0 a x r rfl rfl rfl) (hR r (by simp))
              obtain ⟨es, g3, g4⟩ := ih2 xs rs (fun b hb => hm b (by simp [hb])) (fun b hb => hR b (by simp [hb])) (by simpa using h1)
                (by simpa using h2) (fun i a' x' r' q1 q2 q3 => h3 (i + 1) a' x' r' q1 q2 q3)
              exact ⟨e' :: es, by rw [List.map_cons, List.map_cons, g1, g3], .cons g2 g4⟩
        exact key args xs rs (fun _ h => h) hrs hx hr' h
      obtain ⟨es, h1, h2⟩ := hargs
      obtain ⟨hd', e, g1, g2, g3, _⟩ := readable_node hr h2
      have : opHead op (rs.head?.map Expr.ty) = opHead op (args.head?.map Expr.ty) := by
        clear ih hrs h1 h2 g1 g2 g3 hr hh
        match args, rs, xs, hr', hx, h, hs with
        | [], [], _, _, _, _, _ => rfl
        | a :: as, r :: rs, x :: xs, _, _, h, hs =>
          have h0 := h 0 a x r rfl rfl rfl
          have htB : ChooseTyped a := fun t' as' hs' => hB.typed t' as' ((hs'.trans (SubExpr.arg (by simp) .refl)).trans hs)
          simp only [List.head?_cons, Option.map_some]
          rw [resolves_ty a htB r (shows_resolves a x r h0)]
      rw [this, hh] at g1
      cases g1
      exact ⟨e, by rw [toExpr, h1, g2], g3⟩

/-! ### Values -/

theorem ReadAs.evals {I : Interp} {ρ : Env} {rs es : List Expr} (h : All2 ReadAs rs es) (ih : ∀ r ∈ rs, ∀ e, ReadAs r e → eval I ρ e = eval I ρ r) :
    es.map (eval I ρ) = rs.map (eval I ρ) := by
  induction h with
  | nil => rfl
  | cons h1 _ ih2 => rw [List.map_cons, List.map_cons, ih _ (by simp) _ h1, ih2 (fun r hr => ih r (by simp [hr]))]

/-- Reading keeps the value. -/
theorem ReadAs.eval {I : Interp} (hI : StdCalls I) (ρ : Env) (r : Expr) : ∀ e, ReadAs r e → Metalift.eval I ρ e = Metalift.eval I ρ r := by
  induction r using Expr.ind with
  | hv n t => intro e h; cases h; rfl
  | hl l => intro e h; cases h; rfl
  | hn op t args ih =>
    intro e h
    cases h with
    | node h => simp only [Metalift.eval, evals_eq_map]; rw [ReadAs.evals h ih]
    | listEq h1 h2 =>
      simp only [Metalift.eval, evals_eq_map, List.map_cons, List.map_nil, evalOp]
      rw [hI.list_eq, ih _ (by simp) _ h1, ih _ (by simp) _ h2]
    | ite h1 h2 h3 =>
      simp only [Metalift.eval, evals_eq_map, List.map_cons, List.map_nil, evalOp]
      rw [hI.ite, ih _ (by simp) _ h1, ih _ (by simp) _ h2, ih _ (by simp) _ h3]

/-- Calls of `list_eq` and `ite` mean the operators. -/
def StdTable (c : String → List Val → Option Val) : Prop :=
  (∀ a b v, c "list_eq" [a, b] = some v → v = .bool (decide (a = b))) ∧ (∀ x a b v, c "ite" [x, a, b] = some v → v = if x.asBool then a else b)

theorem ReadAs.evalCs {I : Interp} {c d : String → List Val → Option Val} {ρ : Env} {rs es : List Expr} (h : All2 ReadAs rs es)
    (ih : ∀ r ∈ rs, ∀ e, ReadAs r e → ∀ v, evalC I c ρ r = some v → evalC I d ρ e = some v) (vs : List Val) (hv : evalCs I c ρ rs = some vs) :
    Metalift.evalCs I d ρ es = some vs := by
  induction h generalizing vs with
  | nil => exact hv
  | cons h1 _ ih2 =>
    simp only [Metalift.evalCs, Option.bind_eq_some_iff, Option.map_eq_some_iff] at hv ⊢
    obtain ⟨v, e1, ws, e2, rfl⟩ := hv
    exact ⟨v, ih _ (by simp) _ h1 v e1, ws, ih2 (fun r hr => ih r (by simp [hr])) ws e2, rfl⟩

/-- Reading keeps the values that exist, with calls of defined functions. -/
theorem ReadAs.evalC {I : Interp} {c d : String → List Val → Option Val} (hcd : CallLe c d) (hc : StdTable c) {ρ : Env} (r : Expr) :
    ∀ e, ReadAs r e → ∀ v, Metalift.evalC I c ρ r = some v → Metalift.evalC I d ρ e = some v := by
  induction r using Expr.ind with
  | hv n t => intro e h v hv; cases h; exact hv
  | hl l => intro e h v hv; cases h; exact hv
  | hn op t args ih =>
    intro e h v hv
    cases h with
    | @listEq _ a b a' b' h1 h2 =>
      simp only [Metalift.evalC, Option.bind_eq_some_iff, Metalift.evalCs, Option.map_eq_some_iff] at hv
      obtain ⟨ws, ⟨va, e1, w2, ⟨vb, e2, w3, e3, rfl⟩, rfl⟩, hv⟩ := hv
      cases e3
      rw [hc.1 _ _ _ hv]
      rw [evalC_node (by simp) (by simp) (by simp)]
      simp only [Metalift.evalCs, ih a (by simp) a' h1 va e1, ih b (by simp) b' h2 vb e2]
      rfl
    | @ite _ x a b x' a' b' h1 h2 h3 =>
      simp only [Metalift.evalC, Option.bind_eq_some_iff, Metalift.evalCs, Option.map_eq_some_iff] at hv
      obtain ⟨ws, ⟨vx, e1, w2, ⟨va, e2, w3, ⟨vb, e3, w4, e4, rfl⟩, rfl⟩, rfl⟩, hv⟩ := hv
      cases e4
      rw [hc.2 _ _ _ _ hv]
      simp only [Metalift.evalC, ih x (by simp) x' h1 vx e1]
      split
      · exact ih a (by simp) a' h2 va e2
      · exact ih b (by simp) b' h3 vb e3
    | @node _ _ _ es h =>
      have hargs := fun vs => ReadAs.evalCs (I := I) (ρ := ρ) h (fun r hr e he v hv => ih r hr e he v hv) vs
      by_cases o1 : op = .ite
      · subst o1
        by_cases h3 : args.length = 3
        · obtain ⟨x, y, z, rfl⟩ := length_three h3
          cases h with
          | cons p1 h =>
            cases h with
            | cons p2 h =>
              cases h with
              | cons p3 h =>
                cases h
                simp only [Metalift.evalC] at hv ⊢
                cases hx : Metalift.evalC I c ρ x with
                | none => simp [hx] at hv
                | some w =>
                  rw [hx] at hv
                  rw [ih x (by simp) _ p1 w hx]
                  simp only at hv ⊢
                  split
                  · rename_i hw; rw [if_pos hw] at hv; exact ih y (by simp) _ p2 v hv
                  · rename_i hw; rw [if_neg hw] at hv; exact ih z (by simp) _ p3 v hv
        · have h3' : es.length ≠ 3 := by rw [← all2_same_length h]; exact h3
          rw [evalC_ite_bad h3, Option.map_eq_some_iff] at hv
          rw [evalC_ite_bad h3', Option.map_eq_some_iff]
          obtain ⟨vs, h4, h5⟩ := hv
          exact ⟨vs, hargs vs h4, h5⟩
      · by_cases o2 : ∃ f, op = .call f
        · obtain ⟨f, rfl⟩ := o2
          simp only [Metalift.evalC, Option.bind_eq_some_iff] at hv ⊢
          obtain ⟨vs, h4, h5⟩ := hv
          exact ⟨vs, hargs vs h4, hcd _ _ _ h5⟩
        · by_cases o3 : op = .callValue
          · subst o3
            simp only [Metalift.evalC, Option.bind_eq_some_iff] at hv ⊢
            obtain ⟨vs, h4, h5⟩ := hv
            refine ⟨vs, hargs vs h4, ?_⟩
            split at h5
            · exact hcd _ _ _ h5
            · cases h5
          · rw [evalC_node o1 (fun f hf => o2 ⟨f, hf⟩) o3, Option.map_eq_some_iff] at hv ⊢
            obtain ⟨vs, h4, h5⟩ := hv
            exact ⟨vs, hargs vs h4, h5⟩

/-- The dictionary of these functions with these bodies. -/
def bodiesDict (synths : List SynthFn) (rs : List Expr) : FnDict := (synths.zip rs).map (fun p => (p.1.name, p.1.decl p.2))

theorem lookup_bodies {R : Expr → Expr → Prop} {synths : List SynthFn} {rs es : List Expr} (h : All2 R rs es) (f : String) :
    ((bodiesDict synths rs).lookup f = none ∧ (bodiesDict synths es).lookup f = none) ∨
    ∃ s ∈ synths, ∃ r e, s.name = f ∧ R r e ∧ (bodiesDict synths rs).lookup f = some (s.decl r) ∧ (bodiesDict synths es).lookup f = some (s.decl e) := by
  induction h generalizing synths with
  | nil => simp [bodiesDict]
  | @cons r e rs es h1 _ ih =>
    cases synths with
    | nil => simp [bodiesDict]
    | cons s synths =>
      simp only [bodiesDict, List.zip_cons_cons, List.map_cons, List.lookup_cons]
      by_cases hf : f = s.name
      · subst hf
        exact .inr ⟨s, by simp, r, e, rfl, h1, by simp, by simp⟩
      · have : (f == s.name) = false := by simpa using hf
        rw [this]
        rcases @ih synths with h | ⟨s', hs', r', e', q⟩
        · exact .inl h
        · exact .inr ⟨s', by simp [hs'], r', e', q⟩

theorem bodiesDict_keys {synths : List SynthFn} {rs : List Expr} {f : String} (h : ∀ s ∈ synths, s.name ≠ f) : (bodiesDict synths rs).lookup f = none := by
  induction synths generalizing rs with
  | nil => rfl
  | cons s synths ih =>
    cases rs with
    | nil => rfl
    | cons r rs =>
      simp only [bodiesDict, List.zip_cons_cons, List.map_cons, List.lookup_cons]
      have : (f == s.name) = false := by simpa using (h s (by simp)).symm
      rw [this]
      exact ih (fun s hs => h s (by simp [hs]))

theorem std_callN {I : Interp} (hI : StdCalls I) {ρ : Env} {D : FnDict} (h1 : D.lookup "list_eq" = none) (h2 : D.lookup "ite" = none) (n : Nat) :
    StdTable (callN I ρ D n) := by
  constructor
  · intro a b v h
    rw [callN, h1] at h
    simp only [Option.bind_none, Option.map_none, Option.some.injEq] at h
    rw [← h, hI.list_eq]
  · intro x a b v h
    rw [callN, h2] at h
    simp only [Option.bind_none, Option.map_none, Option.some.injEq] at h
    rw [← h, hI.ite]

/-- Functions whose bodies were read compute the values of the functions that were written. -/
theorem computes_read {I : Interp} (hI : StdCalls I) (ρ : Env) {synths : List SynthFn} {rs es : List Expr} (h : All2 ReadAs rs es)
    (hn : ∀ s ∈ synths, s.name ≠ "list_eq" ∧ s.name ≠ "ite") (f : String) (vs : List Val) (v : Val)
    (hv : Computes I ρ (bodiesDict synths rs) f vs v) : Computes I ρ (bodiesDict synths es) f vs v := by
  obtain ⟨n, hv⟩ := hv
  refine ⟨n, ?_⟩
  have h1 := bodiesDict_keys (rs := rs) (fun s hs => (hn s hs).1)
  have h2 := bodiesDict_keys (rs := rs) (fun s hs => (hn s hs).2)
  induction n generalizing f vs v with
  | zero =>
    rw [callN] at hv ⊢
    rcases lookup_bodies (synths := synths) h f with ⟨q1, q2⟩ | ⟨s, _, r, e, rfl, hre, q1, q2⟩
    · rw [q1] at hv; rw [q2]; exact hv
    · rw [q1] at hv; cases hv
  | succ n ih =>
    rw [callN] at hv ⊢
    rcases lookup_bodies (synths := synths) h f with ⟨q1, q2⟩ | ⟨s, _, r, e, rfl, hre, q1, q2⟩
    · rw [q1] at hv; rw [q2]; exact hv
    · rw [q1] at hv; rw [q2]
      simp only [SynthFn.decl, Option.bind_some, Option.map_some] at hv ⊢
      split
      · rename_i hl
        rw [if_pos hl] at hv
        exact ReadAs.evalC (fun f' vs' v' h' => ih f' vs' v' h') (std_callN hI h1 h2 n) r e hre v hv
      · rename_i hl; rw [if_neg hl] at hv; cases hv

/-! ### Functions that are not answered -/

/-- Calls of `list_eq` are as its constructor checks. -/
def ListEqCalls (e : Expr) : Prop := ∀ t args, SubExpr (.node (.call "list_eq") t args) e → t = .bool ∧ args.length = 2

theorem convertExpr_read {r : Expr} (h : ListEqCalls r) : ReadAs r (convertExpr r) := by
  unfold convertExpr
  split
  · next t a b c =>
    have := h _ _ .refl
    obtain ⟨rfl, hl⟩ := this
    match c, hl with
    | [], _ => exact .listEq (.refl a) (.refl b)
  · exact .refl _

theorem convertArgs_read {r : Expr} (h : ListEqCalls r) : ReadAs r (convertArgs r) := by
  cases r with
  | var n t => exact .refl _
  | lit l => exact .refl _
  | node op t args =>
    refine .node ?_
    have : ∀ as : List Expr, (∀ a ∈ as, a ∈ args) → All2 ReadAs as (as.map convertExpr) := by
      intro as
      induction as with
      | nil => exact fun _ => .nil
      | cons a as ih =>
        exact fun hm => .cons (convertExpr_read (fun t' args' hs => h t' args' (.arg (hm a (by simp)) hs))) (ih (fun b hb => hm b (by simp [hb])))
    exact this args (fun _ h => h)

/-- Nodes of a resolution come from nodes of the choose expression. -/
theorem resolves_sub (e : Expr) : ∀ r, Resolves e r → ∀ op t rs, SubExpr (.node op t rs) r → op ≠ .choose →
    ∃ args, SubExpr (.node op t args) e ∧ args.length = rs.length := by
  induction e using Expr.ind with
  | hv n t => intro r h op t' rs hs _; cases h; cases hs
  | hl l => intro r h op t' rs hs _; cases h; cases hs
  | hn op0 t0 args0 ih =>
    intro r h op t rs hs ho
    cases h with
    | choose ha h =>
      obtain ⟨args, h1, h2⟩ := ih _ ha r h op t rs hs ho
      exact ⟨args, .arg ha h1, h2⟩
    | @node _ _ _ rs0 ho0 hrs =>
      cases hs with
      | refl => exact ⟨args0, .refl, all2_same_length hrs⟩
      | @arg _ _ _ b hb hs =>
        have : ∃ a ∈ args0, Resolves a b := by
          clear ih
          induction hrs with
          | nil => cases hb
          | @cons a r as rs h1 _ ih =>
            rw [List.mem_cons] at hb
            rcases hb with rfl | hb
            · exact ⟨a, by simp, h1⟩
            · obtain ⟨r', h2, h3⟩ := ih hb
              exact ⟨r', by simp [h2], h3⟩
        obtain ⟨a, ha, hab⟩ := this
        obtain ⟨args, h1, h2⟩ := ih a ha b hab op t rs hs ho
        exact ⟨args, .arg ha h1, h2⟩

theorem arbitrary_read {B : Expr} (hf : FlatChoices B) (hl : ListEqCalls B) :
    ∃ r, Resolves B r ∧ ReadAs r (convertArgs (chooseArbitrarily B)) := by
  have h := (C41_arbitrary_choice_partial B hf).1
  refine ⟨_, h, convertArgs_read ?_⟩
  intro t rs hs
  obtain ⟨args, h1, h2⟩ := resolves_sub B _ h _ t rs hs (by simp)
  rw [← h2]
  exact hl t args h1

/-! ### The text of the answer -/

theorem hasSubL_iff {p s : List Char} : hasSubL p s = true ↔ ∃ a b, s = a ++ (p ++ b) := by
  induction s with
  | nil =>
    simp only [hasSubL, List.isEmpty_iff]
    constructor
    · rintro rfl; exact ⟨[], [], rfl⟩
    · rintro ⟨a, b, h⟩
      have := congrArg List.length h
      simp only [List.length_nil, List.length_append] at this
      exact List.eq_nil_of_length_eq_zero (by omega)
  | cons c cs ih =>
    simp only [hasSubL, Bool.or_eq_true, ih, List.isPrefixOf_iff_prefix]
    constructor
    · rintro (⟨b, h⟩ | ⟨a, b, h⟩)
      · exact ⟨[], b, by simpa using h.symm⟩
      · exact ⟨c :: a, b, by simp [h]⟩
    · rintro ⟨a, b, h⟩
      cases a with
      | nil => exact .inl ⟨b, by simpa using h.symm⟩
      | cons x a =>
        simp only [List.cons_append, List.cons.injEq] at h
        exact .inr ⟨a, b, h.2⟩

theorem hasSub_false_tail {p a b : List Char} (h : hasSubL p (a ++ b) = false) : hasSubL p b = false := by
  rw [← Bool.not_eq_true] at h ⊢
  intro hb
  obtain ⟨x, y, rfl⟩ := hasSubL_iff.1 hb
  exact h (hasSubL_iff.2 ⟨a ++ x, y, by simp⟩)

/-- The characters of `define`. -/
def defineChars : List Char := ['d', 'e', 'f', 'i', 'n', 'e']

/-- `define` occurs in `efine (` followed by `t` only if it occurs in `t`. -/
theorem no_define {t : List Char} (h : hasSubL defineChars t = false) : hasSubL defineChars (['e', 'f', 'i', 'n', 'e', ' ', '('] ++ t) = false := by
  simp only [defineChars] at h
  simp only [hasSubL, defineChars, List.cons_append, List.nil_append, h, Bool.or_false, Bool.or_eq_false_iff]
  exact ⟨rfl, rfl, rfl, rfl, rfl, rfl, rfl⟩

/-- Name and rest are determined where the name has no separators. -/
theorem name_split {n f r t : List Char} (hn : ∀ c ∈ n, isDelim c = false) (hf : ∀ c ∈ f, isDelim c = false) (hr : StartsDelim r ∧ r ≠ [])
    (ht : StartsDelim t ∧ t ≠ []) (h : n ++ r = f ++ t) : n = f := by
  obtain ⟨c, r', rfl, hc⟩ := hr.1.resolve_left hr.2
  obtain ⟨d, t', rfl, hd⟩ := ht.1.resolve_left ht.2
  induction n generalizing f with
  | nil =>
    cases f with
    | nil => rfl
    | cons x f =>
      simp only [List.nil_append, List.cons_append, List.cons.injEq] at h
      rw [h.1] at hc
      rw [hf x (by simp)] at hc
      cases hc
  | cons y n ih =>
    cases f with
    | nil =>
      simp only [List.nil_append, List.cons_append, List.cons.injEq] at h
      rw [← h.1] at hd
      rw [hn y (by simp)] at hd
      cases hd
    | cons x f =>
      simp only [List.cons_append, List.cons.injEq] at h
      rw [h.1, ih (fun c hc => hn c (by simp [hc])) (fun c hc => hf c (by simp [hc])) h.2]

/-- `define (n` followed by `d` occurs in a block only as its opening. -/
theorem opening {q n f t : List Char} {d : Char} (hq : 'd' ∉ q) (hn : ∀ c ∈ n, isDelim c = false) (hf : ∀ c ∈ f, isDelim c = false)
    (hd : isDelim d = true) (ht : StartsDelim t ∧ t ≠ []) (hno : hasSubL defineChars (f ++ t) = false)
    (hs : hasSubL (defineChars ++ ([' ', '('] ++ (n ++ [d]))) (q ++ (defineChars ++ ([' ', '('] ++ (f ++ t)))) = true) :
    n = f ∧ ∃ t', t = d :: t' := by
  obtain ⟨a, b, h⟩ := hasSubL_iff.1 hs
  clear hs
  rw [List.append_eq_append_iff] at h
  rcases h with ⟨as, rfl, h⟩ | ⟨bs, rfl, h⟩
  · cases as with
    | nil =>
      simp only [List.nil_append, List.append_assoc, List.append_cancel_left_eq, List.cons_append, List.cons.injEq, true_and] at h
      have h0 : n ++ (d :: b) = f ++ t := by simpa using h.symm
      have e := name_split hn hf ⟨.inr ⟨d, b, rfl, hd⟩, by simp⟩ ht h0
      subst e
      exact ⟨rfl, b, (List.append_cancel_left h0).symm⟩
    | cons x as =>
      exfalso
      simp only [defineChars, List.cons_append, List.cons.injEq] at h
      have h1 := no_define hno
      rw [← Bool.not_eq_true] at h1
      apply h1
      rw [hasSubL_iff]
      refine ⟨as, [' ', '('] ++ (n ++ [d]) ++ b, ?_⟩
      have h2 := h.2
      simp only [defineChars, List.cons_append, List.nil_append, List.append_assoc] at h2 ⊢
      exact h2
  · cases bs with
    | nil =>
      simp only [List.nil_append, List.append_assoc, List.append_cancel_left_eq, List.cons_append, List.cons.injEq, true_and] at h
      have h0 : n ++ (d :: b) = f ++ t := by simpa using h
      have e := name_split hn hf ⟨.inr ⟨d, b, rfl, hd⟩, by simp⟩ ht h0
      subst e
      exact ⟨rfl, b, (List.append_cancel_left h0).symm⟩
    | cons x bs =>
      exfalso
      simp only [defineChars, List.cons_append, List.cons.injEq] at h
      exact hq (by rw [h.1]; simp)

/-- One answer of Rosette: the function, the lines, what is shown for its body, and the resolution this stands for. -/
structure SynthAnswer where
  name : String
  block : AnswerBlock
  shown : SExpr
  choice : Expr

/-- The block opens with `(define (name`, possibly quoted, `define` does not occur in it again, and it is the definition of the function
with the body shown. -/
structure SynthAnswer.Ok (a : SynthAnswer) : Prop where
  lines : a.block.Ok
  opens : ∃ q w, a.block.first = q ++ "(define (" ++ a.name ++ w ∧ (q = "" ∨ q = "'") ∧ (w.toList.head? = some ' ' ∨ w.toList.head? = some ')') ∧
    hasSub "define" (a.name ++ w ++ catAll a.block.more) = false ∧
    ∃ params, generateAst ("(define (" ++ a.name ++ w ++ catAll (a.block.more.map ("\n" ++ ·))) =
      some [.list [.atom "define", .list (.atom a.name :: params), a.shown]]

/-- What is passed on for an answer. -/
def OutputFor (a : SynthAnswer) (s : String) : Prop :=
  (∀ n, goodAtom n = true → goodAtom a.name = true → (definesName n s = true ↔ n = a.name)) ∧ ∀ E, readDefinition E (fromParen s) = toExpr E a.shown

theorem output_for {a : SynthAnswer} (h : a.Ok) : OutputFor a (a.block.first ++ catAll a.block.more) := by
  obtain ⟨q, w, hf, hq, hw, hno, params, hast⟩ := h.opens
  have e1 : "(define (".toList = '(' :: (defineChars ++ [' ', '(']) := by decide
  have e2 : "define (".toList = defineChars ++ [' ', '('] := by decide
  have e3 : " ".toList = [' '] := by decide
  have e4 : ")".toList = [')'] := by decide
  have hq' : 'd' ∉ q.toList ++ ['('] := by rcases hq with rfl | rfl <;> decide
  have htext : (a.block.first ++ catAll a.block.more).toList =
      (q.toList ++ ['(']) ++ (defineChars ++ ([' ', '('] ++ (a.name.toList ++ (w.toList ++ (catAll a.block.more).toList)))) := by
    rw [hf]
    simp only [String.toList_append, e1]
    simp
  have hwd : StartsDelim (w.toList ++ (catAll a.block.more).toList) ∧ w.toList ++ (catAll a.block.more).toList ≠ [] := by
    cases hl : w.toList with
    | nil => rw [hl] at hw; rcases hw with hw | hw <;> cases hw
    | cons c cs =>
      rw [hl] at hw
      refine ⟨.inr ⟨c, _, rfl, ?_⟩, by simp⟩
      simp only [List.head?_cons, Option.some.injEq] at hw
      rcases hw with rfl | rfl <;> decide
  have hno' : hasSubL defineChars (a.name.toList ++ (w.toList ++ (catAll a.block.more).toList)) = false := by
    have : "define".toList = defineChars := by decide
    rw [← this]
    simpa [hasSub] using hno
  constructor
  · intro n hn hna
    have hn := (goodAtom_delim hn).2
    have hna := (goodAtom_delim hna).2
    simp only [definesName, Bool.or_eq_true, hasSub, htext]
    simp only [String.toList_append, e2, e3, e4, List.append_assoc (bs := [' ', '('])]
    simp only [List.append_assoc]
    constructor
    · rintro (h | h)
      · have h' := opening (d := ' ') (q := q.toList ++ ['(']) hq' hn hna (by decide) hwd hno' (by simpa [List.append_assoc] using h)
        exact String.toList_inj.1 h'.1
      · have h' := opening (d := ')') (q := q.toList ++ ['(']) hq' hn hna (by decide) hwd hno' (by simpa [List.append_assoc] using h)
        exact String.toList_inj.1 h'.1
    · rintro rfl
      cases hl : w.toList with
      | nil => rw [hl] at hw; rcases hw with hw | hw <;> cases hw
      | cons c cs =>
        rw [hl] at hw
        simp only [List.head?_cons, Option.some.injEq] at hw
        rcases hw with rfl | rfl
        · exact .inl (hasSubL_iff.2 ⟨q.toList ++ ['('], cs ++ (catAll a.block.more).toList, by simp⟩)
        · exact .inr (hasSubL_iff.2 ⟨q.toList ++ ['('], cs ++ (catAll a.block.more).toList, by simp⟩)
  · intro E
    have hfrom : (fromParen (a.block.first ++ catAll a.block.more)).toList = ("(define (" ++ a.name ++ w).toList ++ (catAll a.block.more).toList := by
      rw [fromParen, String.toList_ofList, hf]
      simp only [String.toList_append, e1]
      rcases hq with rfl | rfl <;> simp
    have : generateAst (fromParen (a.block.first ++ catAll a.block.more)) =
        generateAst ("(define (" ++ a.name ++ w ++ catAll (a.block.more.map ("\n" ++ ·))) := by
      rw [generateAst, generateAst, hfrom, String.toList_append (s := "(define (" ++ a.name ++ w)]
      rw [tokens_congr (fun c => tokens_lines (fun l hl => (h.lines.more l hl).2.2) c)]
    rw [readDefinition, this, hast]
    simp [toExpr, toExprs, readNode]

/-- The answers are found. -/
theorem outputs (A : List SynthAnswer) (h : ∀ a ∈ A, a.Ok) : All2 OutputFor A (parseOutput (answerLines (A.map SynthAnswer.block))) := by
  induction A with
  | nil => exact .nil
  | cons a A ih =>
    have hb := (h a (by simp)).lines
    have hrest : answerLines (A.map SynthAnswer.block) = [] ∨ ∃ l r, answerLines (A.map SynthAnswer.block) = l :: r ∧ hasSub "/" l = true := by
      cases A with
      | nil => exact .inl rfl
      | cons b A => exact .inr ⟨b.block.location, b.block.first :: b.block.more ++ answerLines (A.map SynthAnswer.block), rfl, (h b (by simp)).lines.loc.1⟩
    have e1 : answerLines ((a :: A).map SynthAnswer.block) = a.block.location :: a.block.first :: (a.block.more ++ answerLines (A.map SynthAnswer.block)) := by
      simp [answerLines]
    rw [e1, parseOutput, hb.loc.2, parseOutput, hb.first]
    simp only [Bool.false_eq_true, if_false, if_true]
    rw [untilSlash_append (fun l hl => (hb.more l hl).1) hrest, parseOutput_skip (fun l hl => (hb.more l hl).2.1)]
    exact .cons (output_for (h a (by simp))) (ih (fun x hx => h x (by simp [hx])))

/-- What is read for a function. -/
theorem readsOf_eq {A : List SynthAnswer} {output : List String} (h : All2 OutputFor A output) (hg : ∀ a ∈ A, goodAtom a.name = true) (E : ReadEnv) {n : String}
    (hn : goodAtom n = true) : readsOf E output n = ((A.filter (fun a => decide (n = a.name))).mapM (fun a => toExpr E a.shown)) := by
  unfold readsOf
  induction h with
  | nil => rfl
  | @cons a s A output h1 _ ih =>
    have ih := ih (fun x hx => hg x (by simp [hx]))
    have hd := h1.1 n hn (hg a (by simp))
    by_cases hna : n = a.name
    · rw [List.filter_cons_of_pos (hd.2 hna), List.filter_cons_of_pos (by simpa using hna), List.mapM_cons, List.mapM_cons, ih, h1.2]
    · rw [List.filter_cons_of_neg (fun hh => hna (hd.1 hh)), List.filter_cons_of_neg (by simpa using hna)]
      exact ih

/-! ### The candidates -/

/-- What names mean in the body of a function to be synthesised: its own parameters, the functions of the target language and the functions to
be synthesised, with the types they were declared with. -/
def scopeOf (lang : List FnDecl) (synths : List SynthFn) (s : SynthFn) : ReadEnv where
  fns f := ((lang.map fun d => (d.name, Ty.fn (d.ret :: d.params.map Prod.snd))) ++
    synths.map fun s => (s.name, Ty.fn (s.body.ty :: s.params.map Prod.snd))).lookup f
  vars x := s.params.lookup x

/-- What is needed of the functions to be synthesised and of Rosette's answer. -/
structure SolutionOk (lang : List FnDecl) (synths : List SynthFn) (A : List SynthAnswer) : Prop where
  names : (lang.map FnDecl.name ++ synths.map SynthFn.name).Nodup
  params : ∀ s ∈ synths, (s.params.map Prod.fst).Nodup
  good : ∀ s ∈ synths, goodAtom s.name = true ∧ s.name ≠ "list_eq" ∧ s.name ≠ "ite"
  langGood : ∀ d ∈ lang, d.body = none → goodAtom d.name = true
  /-- no function is called like a non-terminal -/
  fresh : ∀ i, (∀ d ∈ lang, d.name ≠ smtNt i) ∧ ∀ s ∈ synths, s.name ≠ smtNt i
  grammars : ∀ s ∈ synths, GrammarOk s.body
  answers : ∀ a ∈ A, a.Ok ∧ ∃ s ∈ synths, s.name = a.name ∧ ShowsTop (commonExprs s.body) s.body a.shown a.choice ∧
    Readable (scopeOf lang synths s) a.choice
  once : (A.map SynthAnswer.name).Nodup
  unanswered : ∀ s ∈ synths, s.name ∉ A.map SynthAnswer.name → FlatChoices s.body ∧ ListEqCalls s.body

theorem lookup_absent {β : Type} {l : List (String × β)} {k : String} (h : ∀ p ∈ l, p.1 ≠ k) : l.lookup k = none := by
  rw [List.lookup_eq_none_iff]
  intro p hp
  simpa using (h p hp).symm

theorem dictGet_absent {β : Type} {l : List (String × β)} {k : String} (h : ∀ p ∈ l, p.1 ≠ k) : dictGet l k = none :=
  lookup_absent (fun p hp => h p (List.mem_reverse.1 hp))

theorem lookup_nodup {β : Type} {l : List (String × β)} (hn : (l.map Prod.fst).Nodup) {k : String} {b : β} (h : (k, b) ∈ l) : l.lookup k = some b := by
  induction l with
  | nil => cases h
  | cons p l ih =>
    obtain ⟨k', b'⟩ := p
    simp only [List.map_cons, List.nodup_cons] at hn
    rw [List.lookup_cons]
    rcases List.mem_cons.1 h with h1 | h1
    · cases h1; simp
    · have : k ≠ k' := by
        rintro rfl
        exact hn.1 (List.mem_map.2 ⟨(k, b), h1, rfl⟩)
      have : (k == k') = false := by simpa using this
      rw [this]
      exact ih hn.2 h1

theorem dictGet_nodup {β : Type} {l : List (String × β)} (hn : (l.map Prod.fst).Nodup) {k : String} {b : β} (h : (k, b) ∈ l) : dictGet l k = some b := by
  refine lookup_nodup ?_ (List.mem_reverse.2 h)
  rw [List.map_reverse]
  exact List.pairwise_reverse.2 (hn.imp Ne.symm)

theorem lookup_unique {β : Type} {l : List (String × β)} {k : String} {b : β} (h : l.lookup k = some b) : (k, b) ∈ l := by
  induction l with
  | nil => cases h
  | cons p l ih =>
    obtain ⟨k', b'⟩ := p
    rw [List.lookup_cons] at h
    split at h
    · next hk => cases h; rw [beq_iff_eq.1 hk]; simp
    · exact List.mem_cons_of_mem _ (ih h)

/-- A dictionary with different keys is a list of pairs. -/
theorem dictGet_eq {β : Type} {l : List (String × β)} (hn : (l.map Prod.fst).Nodup) (k : String) : dictGet l k = l.lookup k := by
  cases h : l.lookup k with
  | none =>
    refine dictGet_absent (fun p hp hk => ?_)
    rw [List.lookup_eq_none_iff] at h
    have := h p hp
    simp [hk] at this
  | some b => exact dictGet_nodup hn (lookup_unique h)

/-- Reading depends on the types of names only. -/
theorem Readable.congr {E E' : ReadEnv} (hf : ∀ f, E.fns f = E'.fns f) (hv : ∀ x, E.vars x = E'.vars x) {e : Expr} (h : Readable E e) :
    Readable E' e := by
  induction h with
  | var h1 h2 => exact .var h1 (by rw [← hf, ← hv]; exact h2)
  | lit => exact .lit
  | op h1 _ ih => exact .op h1 ih
  | prim h1 _ ih => exact .prim h1 ih
  | listEq _ _ ih1 ih2 => exact .listEq ih1 ih2
  | iteCall h1 h2 _ _ _ i1 i2 i3 => exact .iteCall h1 h2 i1 i2 i3
  | user h1 h2 _ ih => exact .user h1 (by rw [← hf]; exact h2) ih

theorem SolutionOk.synthNames {lang : List FnDecl} {synths : List SynthFn} {A : List SynthAnswer} (h : SolutionOk lang synths A) :
    (synths.map SynthFn.name).Nodup := (List.nodup_append.1 h.names).2.1

/-- The code reads each function with the types of its own parameters. -/
theorem readable_scope {lang : List FnDecl} {synths : List SynthFn} {A : List SynthAnswer} (h : SolutionOk lang synths A) {s : SynthFn}
    (hs : s ∈ synths) {e : Expr} (he : Readable (scopeOf lang synths s) e) : Readable (readEnvOf lang synths s.name) e := by
  refine he.congr (fun f => ?_) (fun x => ?_)
  · refine (dictGet_eq ?_ f).symm
    simp only [List.map_append, List.map_map]
    exact h.names
  · have h1 : dictGet (varTypes lang synths) s.name = some s.params := by
      refine dictGet_nodup ?_ ?_
      · simp only [varTypes, List.map_append, List.map_map]
        exact (List.perm_append_comm.nodup_iff).1 h.names
      · exact List.mem_append_left _ (List.mem_map.2 ⟨s, hs, rfl⟩)
    simp only [readEnvOf, h1, Option.getD_some]
    exact (dictGet_eq (h.params s hs) x).symm

theorem mapM_all {α β : Type} {P : α → β → Prop} {f : α → Option β} {l : List α} (h : ∀ a ∈ l, ∃ b, f a = some b ∧ P a b) :
    ∃ bs, l.mapM f = some bs ∧ All2 P l bs := by
  induction l with
  | nil => exact ⟨[], rfl, .nil⟩
  | cons a l ih =>
    obtain ⟨b, h1, h2⟩ := h a (by simp)
    obtain ⟨bs, h3, h4⟩ := ih (fun x hx => h x (by simp [hx]))
    exact ⟨b :: bs, by simp [List.mapM_cons, h1, h3], .cons h2 h4⟩

theorem filter_once {A : List SynthAnswer} (hn : (A.map SynthAnswer.name).Nodup) (n : String) :
    (A.filter (fun a => decide (n = a.name)) = [] ∧ n ∉ A.map SynthAnswer.name) ∨
    ∃ a ∈ A, a.name = n ∧ A.filter (fun a => decide (n = a.name)) = [a] ∧ ∀ b ∈ A, b.name = n → b = a := by
  induction A with
  | nil => simp
  | cons a A ih =>
    simp only [List.map_cons, List.nodup_cons] at hn
    by_cases h : n = a.name
    · subst h
      right
      have : ∀ b ∈ A, b.name ≠ a.name := fun b hb hh => hn.1 (List.mem_map.2 ⟨b, hb, hh⟩)
      refine ⟨a, by simp, rfl, ?_, ?_⟩
      · rw [List.filter_cons_of_pos (by simp), List.filter_eq_nil_iff.2]
        intro b hb
        simpa using (this b hb).symm
      · intro b hb hh
        rcases List.mem_cons.1 hb with hb | hb
        · exact hb
        · exact absurd hh (this b hb)
    · rcases ih hn.2 with ⟨h1, h2⟩ | ⟨b, hb, h1, h2, h3⟩
      · left
        refine ⟨?_, ?_⟩
        · rw [List.filter_cons_of_neg (by simpa using h)]; exact h1
        · simp only [List.map_cons, List.mem_cons, not_or]; exact ⟨h, h2⟩
      · right
        refine ⟨b, by simp [hb], h1, ?_, ?_⟩
        · rw [List.filter_cons_of_neg (by simpa using h)]; exact h2
        · intro c hc hh
          rcases List.mem_cons.1 hc with hc | hc
          · subst hc; exact absurd hh.symm h
          · exact h3 c hc hh

theorem insertDecl_fold (cs : List FnDecl) : ∀ D : FnDict, (D.map Prod.fst ++ cs.map FnDecl.name).Nodup →
    cs.foldl insertDecl D = D ++ cs.map (fun d => (d.name, d)) := by
  induction cs with
  | nil => intro D _; simp
  | cons d cs ih =>
    intro D h
    have hd : D.any (fun p => p.1 = d.name) = false := by
      rw [List.any_eq_false]
      intro p hp
      simp only [decide_eq_true_eq]
      intro e
      have := List.nodup_append.1 h
      exact this.2.2 p.1 (List.mem_map.2 ⟨p, hp, rfl⟩) d.name (by simp) e
    rw [List.foldl_cons, insertDecl, hd]
    simp only [Bool.false_eq_true, if_false]
    rw [ih]
    · simp
    · simpa using h

theorem name_unique {synths : List SynthFn} (hn : (synths.map SynthFn.name).Nodup) {s s' : SynthFn} (hs : s ∈ synths) (hs' : s' ∈ synths)
    (h : s.name = s'.name) : s = s' := by
  induction synths with
  | nil => cases hs
  | cons x xs ih =>
    simp only [List.map_cons, List.nodup_cons] at hn
    rcases List.mem_cons.1 hs with q | q <;> rcases List.mem_cons.1 hs' with q' | q'
    · rw [q, q']
    · exact absurd (List.mem_map.2 ⟨s', q', by rw [← h, q]⟩) hn.1
    · exact absurd (List.mem_map.2 ⟨s, q, by rw [h, q']⟩) hn.1
    · exact ih hn.2 q q'

/-- Reading the answer for one function. -/
theorem reads_one {lang : List FnDecl} {synths : List SynthFn} {A : List SynthAnswer} (h : SolutionOk lang synths A) {output : List String}
    (ho : All2 OutputFor A output) (s : SynthFn) (hs : s ∈ synths) :
    ∃ reads r, readsOf (readEnvOf lang synths s.name) output s.name = some reads ∧ Resolves s.body r ∧ ReadAs r (candidateBody s reads) ∧
      ∀ a ∈ A, a.name = s.name → r = a.choice := by
  have hA : ∀ a ∈ A, goodAtom a.name = true := by
    intro a ha
    obtain ⟨_, s', hs', h1, _⟩ := h.answers a ha
    rw [← h1]
    exact (h.good s' hs').1
  rw [readsOf_eq ho hA _ (h.good s hs).1]
  rcases filter_once h.once s.name with ⟨h1, h2⟩ | ⟨a, ha, h1, h2, h3⟩
  · obtain ⟨hf, hl⟩ := h.unanswered s hs h2
    obtain ⟨r, hr1, hr2⟩ := arbitrary_read hf hl
    refine ⟨[], r, by rw [h1]; rfl, hr1, hr2, ?_⟩
    intro a ha hn
    exact absurd (List.mem_map.2 ⟨a, ha, hn⟩) h2
  · obtain ⟨hok, s', hs', e1, e2, e3⟩ := h.answers a ha
    have hss : s' = s := name_unique h.synthNames hs' hs (e1.trans h1)
    subst hss
    replace e3 := readable_scope h hs e3
    have hch : (readEnvOf lang synths s'.name).choices = choicesOf s'.body := by
      simp only [readEnvOf]
      rw [dictGet_nodup (b := choicesOf s'.body) (by rw [List.map_map]; exact h.synthNames) (List.mem_map.2 ⟨s', hs, rfl⟩)]
      rfl
    have hfn : ∀ i, (readEnvOf lang synths s'.name).fns (smtNt i) = none := by
      intro i
      refine dictGet_absent ?_
      intro p hp
      simp only [fnsType, List.mem_append, List.mem_map] at hp
      rcases hp with ⟨d, hd, rfl⟩ | ⟨d, hd, rfl⟩
      · exact (h.fresh i).1 d hd
      · exact (h.fresh i).2 d hd
    obtain ⟨e, q1, q2⟩ : ∃ e, toExpr (readEnvOf lang synths s'.name) a.shown = some e ∧ ReadAs a.choice e := by
      rcases e2 with e2 | ⟨y, ey, e2⟩
      · exact shows_read (h.grammars s' hs) hch hfn s'.body .refl _ _ e2 e3
      · obtain ⟨e, q1, q2⟩ := shows_read (h.grammars s' hs) hch hfn s'.body .refl _ _ e2 e3
        exact ⟨e, by rw [ey]; simp [toExpr, toExprs, readNode, q1], q2⟩
    refine ⟨[e], a.choice, by rw [h2]; simp [q1], ?_, q2, ?_⟩
    · rcases e2 with e2 | ⟨y, _, e2⟩
      · exact shows_resolves _ _ _ e2
      · exact shows_resolves _ _ _ e2
    · intro b hb hn
      rw [h3 b hb hn]

/-- The candidates, explicitly: what was read from Rosette's choices, without the conditionals that were decided. -/
theorem decode_bodies {lang : List FnDecl} {synths : List SynthFn} {A : List SynthAnswer} (h : SolutionOk lang synths A) :
    ∃ rs es, All2 (fun s r => Resolves s.body r ∧ ∀ a ∈ A, a.name = s.name → r = a.choice) synths rs ∧ All2 ReadAs rs es ∧
      decodeSolution lang synths (answerLines (A.map SynthAnswer.block)) = some ((pruneFnDecls (bodiesDict synths es)).map Prod.snd) := by
  have ho := outputs A (fun a ha => (h.answers a ha).1)
  have hA : ∀ a ∈ A, goodAtom a.name = true := by
    intro a ha
    obtain ⟨_, s', hs', h1, _⟩ := h.answers a ha
    rw [← h1]
    exact (h.good s' hs').1
  have hr := fun s hs => reads_one h ho s hs
  -- all readings succeed
  obtain ⟨ys, hys, _⟩ := mapM_all (P := fun _ _ => True) (l := toSynthesize lang synths)
    (f := fun n => readsOf (readEnvOf lang synths n) (parseOutput (answerLines (A.map SynthAnswer.block))) n) (by
    intro n hn
    by_cases hns : ∃ s ∈ synths, s.name = n
    · obtain ⟨s, hs, rfl⟩ := hns
      obtain ⟨reads, _, h1, _⟩ := hr s hs
      exact ⟨reads, h1, trivial⟩
    · have hg : goodAtom n = true := by
        simp only [toSynthesize, List.mem_append, List.mem_map, List.mem_filter] at hn
        rcases hn with hn | ⟨d, ⟨hd, hb⟩, rfl⟩
        · exact absurd hn hns
        · exact h.langGood d hd (by simpa using hb)
      refine ⟨[], ?_, trivial⟩
      rw [readsOf_eq ho hA _ hg]
      rcases filter_once h.once n with ⟨h1, _⟩ | ⟨a, ha, h1, _, _⟩
      · rw [h1]; rfl
      · obtain ⟨_, s, hs, h2, _⟩ := h.answers a ha
        exact absurd ⟨s, hs, h2.trans h1⟩ hns)
  obtain ⟨cs, hcs, hall⟩ := mapM_all (l := synths)
    (P := fun s d => ∃ r e, d = s.decl e ∧ ReadAs r e ∧ Resolves s.body r ∧ ∀ a ∈ A, a.name = s.name → r = a.choice)
    (f := fun s => (do
      let reads ← readsOf (readEnvOf lang synths s.name) (parseOutput (answerLines (A.map SynthAnswer.block))) s.name
      some (s.decl (candidateBody s reads)))) (by
    intro s hs
    obtain ⟨reads, r, h1, h2, h3, h4⟩ := hr s hs
    exact ⟨_, by rw [h1]; rfl, r, _, rfl, h3, h2, h4⟩)
  obtain ⟨rs, es, h1, h2, h3⟩ : ∃ rs es, All2 (fun s r => Resolves s.body r ∧ ∀ a ∈ A, a.name = s.name → r = a.choice) synths rs ∧
      All2 ReadAs rs es ∧ cs = (synths.zip es).map (fun p => p.1.decl p.2) := by
    clear hcs hys hr h
    rename_i hx
    clear hx
    induction hall with
    | nil => exact ⟨[], [], .nil, .nil, rfl⟩
    | cons q _ ih =>
      obtain ⟨r, e, rfl, q1, q2⟩ := q
      obtain ⟨rs, es, i1, i2, i3⟩ := ih
      exact ⟨r :: rs, e :: es, .cons q2 i1, .cons q1 i2, by rw [i3]; rfl⟩
  refine ⟨rs, es, h1, h2, ?_⟩
  have hnames : cs.map FnDecl.name = synths.map SynthFn.name := by
    have hl : es.length = synths.length := by rw [← all2_same_length h2, ← all2_same_length h1]
    rw [h3, List.map_map]
    have : (FnDecl.name ∘ fun p : SynthFn × Expr => p.1.decl p.2) = SynthFn.name ∘ Prod.fst := rfl
    rw [this, ← List.map_map, List.map_fst_zip (by omega)]
  have hfold := insertDecl_fold cs [] (by rw [List.map_nil, List.nil_append, hnames]; exact h.synthNames)
  simp only [List.nil_append] at hfold
  have hd : cs.map (fun d => (d.name, d)) = bodiesDict synths es := by
    rw [h3, List.map_map]
    rfl
  unfold decodeSolution
  simp only [Option.bind_eq_bind] at hcs ⊢
  rw [hys, Option.bind_some, hcs, Option.bind_some, hfold, hd]

theorem pruneFnDecls_names (D : FnDict) (h : ∀ p ∈ D, p.2.name = p.1) :
    ((pruneFnDecls D).map Prod.snd).map (fun d => (d.name, d)) = pruneFnDecls D := by
  simp only [pruneFnDecls, List.map_map]
  refine List.map_congr_left (fun p hp => ?_)
  simp [h p hp]

/-- C52: when Rosette's answer stands for resolutions of the grammars, it is read as candidates with the names, parameters and types of the
functions to be synthesised; the choices are those Rosette made, or arbitrary ones where none had to be made, so every candidate belongs to
its grammar; and the candidates compute the values that the functions with Rosette's choices compute. -/
theorem C52_candidates_partial (lang : List FnDecl) (synths : List SynthFn) (A : List SynthAnswer) (h : SolutionOk lang synths A) :
    ∃ cs rs, decodeSolution lang synths (answerLines (A.map SynthAnswer.block)) = some cs ∧
      cs.map (fun d => (d.name, d.ret, d.params)) = synths.map (fun s => (s.name, s.body.ty, s.params)) ∧
      All2 (fun s r => Resolves s.body r ∧ ∀ a ∈ A, a.name = s.name → r = a.choice) synths rs ∧
      ∀ I, StdCalls I → ∀ ρ f vs v, Computes I ρ (bodiesDict synths rs) f vs v → Computes I ρ (cs.map (fun d => (d.name, d))) f vs v := by
  obtain ⟨rs, es, h1, h2, h3⟩ := decode_bodies h
  have hl : es.length = synths.length := by rw [← all2_same_length h2, ← all2_same_length h1]
  refine ⟨_, rs, h3, ?_, h1, fun I hI ρ f vs v hv => ?_⟩
  · simp only [pruneFnDecls, List.map_map, bodiesDict]
    show List.map ((fun s : SynthFn => (s.name, s.body.ty, s.params)) ∘ Prod.fst) (synths.zip es) = _
    rw [← List.map_map, List.map_fst_zip (by omega)]
  · rw [pruneFnDecls_names _ (by
      intro p hp
      simp only [bodiesDict, List.mem_map] at hp
      obtain ⟨q, _, rfl⟩ := hp
      rfl)]
    exact C17_prune_preserves I ρ _ f vs v (computes_read hI ρ h2 (fun s hs => (h.good s hs).2) f vs v hv)

/-! ### Checking the conditions on grammars -/

/-- Every choose in `e` satisfies `p`. -/
def allChooses (p : Ty → List Expr → Bool) (e : Expr) : Bool :=
  e.subs.all (fun x => match x with
    | .node .choose t args => p t args
    | _ => true)

theorem allChooses_iff {p : Ty → List Expr → Bool} {e : Expr} : allChooses p e = true ↔ ∀ t args, SubExpr (.node .choose t args) e → p t args = true := by
  simp only [allChooses, List.all_eq_true]
  constructor
  · intro h t args hs
    exact h _ ((subExpr_iff e).1 hs)
  · intro h x hx
    split
    · next t args => exact h t args ((subExpr_iff e).2 hx)
    · rfl

/-- Decides `GrammarOk`. -/
def grammarB (B : Expr) : Bool :=
  B.subs.all (fun a => B.subs.all (fun b => !a.pyEq b || decide (a = b))) &&
  allChooses (fun t args => args.all (fun a => decide (a.ty = t))) B &&
  allChooses (fun t args => !allChooses (fun _ as => as.length == 1) (.node .choose t args) ||
    allChooses (fun _ as => as.all (allChooses (fun _ _ => false))) (stripChoose (.node .choose t args))) B

theorem grammarB_ok {B : Expr} (h : grammarB B = true) : GrammarOk B := by
  simp only [grammarB, Bool.and_eq_true, allChooses_iff] at h
  obtain ⟨⟨h1, h2⟩, h3⟩ := h
  constructor
  · intro a b ha hb hab
    simp only [List.all_eq_true] at h1
    have := h1 a ((subExpr_iff B).1 ha) b ((subExpr_iff B).1 hb)
    simpa [hab] using this
  · intro t args hs a ha
    have := h2 t args hs
    simp only [List.all_eq_true, decide_eq_true_eq] at this
    exact this a ha
  · intro t args hs hn t' as hs' a ha t2 as2 hs2
    have := h3 t args hs
    have hn' : allChooses (fun _ as => as.length == 1) (.node .choose t args) = true := allChooses_iff.2 (fun t as hs => by simpa using hn t as hs)
    rw [hn'] at this
    simp only [Bool.not_true, Bool.false_or, allChooses_iff, List.all_eq_true] at this
    exact absurd (this t' as hs' a ha t2 as2 hs2) (by simp)

end Metalift
