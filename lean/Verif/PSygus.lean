import Verif.Sygus
import Verif.SygusSem
import Verif.PSmtQuery
import Verif.PGrammar
import Verif.PCvc5
/-
C62: the synthesis query for CVC5.
-/
namespace Metalift
namespace Smt

/-! ### Specification -/

/-- Names that are not used for non-terminals. -/
def NotNt (n : String) : Prop := n ≠ "rv" ∧ ∀ i : Nat, n ≠ smtNt i

mutual
/-- The sketches covered: the alternatives of a choose have its type, everything else is as for expressions (`printable`). -/
def sketchOk : Expr → Bool
  | .var n _ => varName n
  | .lit (.int i) => decide (0 ≤ i)
  | .lit (.bool _) => true
  | .node .choose t args => !args.isEmpty && (sortText t).isSome && sketchOks args
  | .node op t args => opOk op t args && sketchOks args
def sketchOks : List Expr → Bool
  | [] => true
  | e :: es => sketchOk e && sketchOks es
end

/-- The functions to be synthesised that are covered. -/
structure SketchText (s : SynthFn) : Prop where
  name : fnName s.name = true
  params : paramsOk s.params = true
  ret : (sortText s.body.ty).isSome = true
  sketch : sketchOk s.body = true
  clash : NoClash s.body
  vars : ∀ n t, SubExpr (.var n t) s.body → NotNt n
  consts : ∀ n t, SubExpr (.node (.call n) t []) s.body → NotNt n
  paramNts : ∀ p ∈ s.params, NotNt p.1

/-! ### Sketches, productions and resolutions are printed alike -/

theorem sketchOks_all {es : List Expr} (h : sketchOks es = true) : ∀ e ∈ es, sketchOk e = true := by
  induction es with
  | nil => simp
  | cons e es ih =>
    simp only [sketchOks, Bool.and_eq_true] at h
    intro a ha
    rcases List.mem_cons.1 ha with rfl | ha
    · exact h.1
    · exact ih h.2 a ha

theorem sketchOk_node {op : Op} {t : Ty} {args : List Expr} (ho : op ≠ .choose) (h : sketchOk (.node op t args) = true) :
    opOk op t args = true ∧ ∀ e ∈ args, sketchOk e = true := by
  have : sketchOk (.node op t args) = (opOk op t args && sketchOks args) := by cases op <;> first | rfl | exact absurd rfl ho
  rw [this, Bool.and_eq_true] at h
  exact ⟨h.1, sketchOks_all h.2⟩

theorem sketchOk_choose {t : Ty} {args : List Expr} (h : sketchOk (.node .choose t args) = true) :
    args ≠ [] ∧ (sortText t).isSome = true ∧ ∀ e ∈ args, sketchOk e = true := by
  simp only [sketchOk, Bool.and_eq_true, Bool.not_eq_true', List.isEmpty_eq_false_iff] at h
  exact ⟨h.1.1, h.1.2, sketchOks_all h.2⟩

/-- `b` can take the place of `a` in an expression. -/
def Like (a b : Expr) : Prop := (∀ n, knownArity a = some n → knownArity b = some n) ∧ ∀ l, a = .lit l → b = .lit l

theorem printables_of_all {es : List Expr} (h : ∀ e ∈ es, printable e = true) : printables es = true := by
  induction es with
  | nil => rfl
  | cons e es ih =>
    simp only [printables, Bool.and_eq_true]
    exact ⟨h e List.mem_cons_self, ih fun a ha => h a (List.mem_cons_of_mem _ ha)⟩

theorem opOk_like {op : Op} {t : Ty} {as bs : List Expr} (h : opOk op t as = true) (hl : All2 Like as bs) : opOk op t bs = true := by
  have hlen := hl.lengths
  have hemp : as.isEmpty = bs.isEmpty := by cases hl <;> rfl
  cases op with
  | call f =>
    by_cases hf : f = "tupleGet"
    · subst hf
      rcases call_cases h with ⟨hf, _⟩ | ⟨hf, _⟩ | ⟨_, u, i, n, rfl, hk, h0, h1, h2⟩ | ⟨hf, _⟩ | ⟨hf, _⟩ | ⟨p, hm, hf, _⟩ | ⟨hf, _⟩
      · exact absurd hf (by decide)
      · exact absurd hf (by decide)
      · cases hl with
        | cons hu hl =>
          cases hl with
          | cons hi hl =>
            cases hl
            have := hi.2 _ rfl
            subst this
            simp [opOk, projOk, hu.1 _ hk, h0, h1, h2]
      · exact absurd hf (by decide)
      · exact absurd hf (by decide)
      · exfalso
        simp only [setFns, List.mem_cons, List.not_mem_nil, or_false] at hm
        rcases hm with rfl | rfl | rfl | rfl | rfl | rfl <;> exact absurd hf (by decide)
      · exact absurd hf (by decide)
    · simp only [opOk, if_neg hf] at h ⊢
      rw [← hlen, ← hemp]
      exact h
  | _ => first
    | (simp only [opOk] at h ⊢; rw [← hlen]; exact h)
    | (simp only [opOk] at h ⊢; rw [← hemp]; exact h)
    | cases h

/-- The symbol at the head does not depend on the choices. -/
theorem headSym_like {op : Op} {t : Ty} {as bs cs : List Expr} (h : opOk op t as = true) (hb : All2 Like as bs) (hc : All2 Like as cs)
    (pb : printables bs = true) (pc : printables cs = true) : headSym op bs = headSym op cs := by
  have h1 := hb.lengths
  have h2 := hc.lengths
  cases op with
  | tuple => simp only [headSym]; rw [← h1, ← h2]
  | call f =>
    rcases call_cases h with ⟨rfl, _⟩ | ⟨rfl, _⟩ | ⟨rfl, u, i, n, rfl, hk, h0, _, _⟩ | ⟨rfl, _⟩ | ⟨rfl, _⟩ | ⟨p, hm, rfl, _⟩ | ⟨hf, _⟩
    · rfl
    · simp [headSym, word, ← h1, ← h2]
    · cases hb with
      | cons hu hb =>
        cases hb with
        | cons hi hb =>
          cases hb
          cases hc with
          | cons hu' hc =>
            cases hc with
            | cons hi' hc =>
              cases hc
              have e1 := hi.2 _ rfl
              have e2 := hi'.2 _ rfl
              subst e1
              subst e2
              simp only [printables, Bool.and_eq_true] at pb pc
              simp [headSym, word, knownArity_some (hu.1 _ hk) pb.1, knownArity_some (hu'.1 _ hk) pc.1, indexText]
    · rfl
    · rfl
    · simp [headSym, setFn_word _ p hm]
    · simp [headSym, fnName_word hf]
  | _ => rfl

theorem headSym_as {op : Op} {t : Ty} {as : List Expr} (h : opOk op t as = true) (pa : printables as = true) : headSym op as ≠ "as" := by
  have hd : ∀ (p : String) (c : Char), p.toList.head? = some c → c ≠ 'a' → ∀ s, p ++ s ≠ "as" := by
    intro p c hp hc s he
    have := congrArg (fun x : String => x.toList.head?) he
    simp only [String.toList_append] at this
    cases hq : p.toList with
    | nil => rw [hq] at hp; cases hp
    | cons a b =>
      rw [hq] at hp this
      simp at hp this
      exact hc (hp ▸ this)
  cases op with
  | tuple => exact hd "tuple" 't' (by decide) (by decide) _
  | call f =>
    rcases call_cases h with ⟨rfl, _⟩ | ⟨rfl, _⟩ | ⟨rfl, u, i, n, rfl, hk, h0, _, _⟩ | ⟨rfl, _⟩ | ⟨rfl, _⟩ | ⟨p, hm, rfl, _⟩ | ⟨hf, _⟩
    · simp [headSym, word, startsWith]
    · simp only [headSym, word, if_true, Option.getD_some]
      exact hd "tuple" 't' (by decide) (by decide) _
    · simp only [printables, Bool.and_eq_true] at pa
      have : headSym (.call "tupleGet") [u, .lit (.int i)] = "tuple" ++ (n.repr ++ "_get" ++ litText (.int i)) := by
        simp [headSym, word, knownArity_some hk pa.1, indexText, String.append_assoc]
      rw [this]
      exact hd "tuple" 't' (by decide) (by decide) _
    · simp [headSym, word, startsWith]
    · simp [headSym, word, startsWith]
    · simp only [headSym, setFn_word _ p hm, Option.getD_some]
      simp only [setFns, List.mem_cons, List.not_mem_nil, or_false] at hm
      rcases hm with rfl | rfl | rfl | rfl | rfl | rfl <;> decide
    · simp only [headSym, fnName_word hf, Option.getD_some]
      rintro rfl
      exact absurd hf (by decide)
  | callValue => cases h
  | choose => cases h
  | _ => simp [headSym, opName]

/-! ### Productions -/

/-- The expression of a production. -/
abbrev rep (E : Expr) : Expr → Expr := replaceExprs smtNt (commonExprs E)

theorem rep_leaf {E e : Expr} (hE : NoClash E) (he : SubExpr e E) (hn : ∀ op t args, e ≠ .node op t args) : rep E e = e := by
  cases e with
  | var n t => simp only [rep, replaceExprs, find_other hE he (by simp)]
  | lit l => simp only [rep, replaceExprs, find_other hE he (by simp)]
  | node op t args => exact absurd rfl (hn op t args)

theorem ntName (i : Nat) : varName (smtNt i) = true := by
  have h1 : ∀ c ∈ i.repr.toList, c.isDigit = true := by
    intro c hc
    exact Nat.isDigit_of_mem_toDigits (b := 10) (by decide) (by decide) (by simpa [Nat.repr] using hc)
  have hl : (smtNt i).toList = 'v' :: i.repr.toList := by simp [smtNt]
  have hne : ∀ s : String, s.toList.head? ≠ some 'v' → smtNt i ≠ s := by
    intro s hs he
    rw [← he, hl] at hs
    exact hs rfl
  simp only [varName, symbolOk, hl, plain, startsWith, Bool.and_eq_true, List.all_eq_true]
  refine ⟨⟨⟨⟨⟨by decide, by decide⟩, fun c hc => ?_⟩, ?_⟩, ?_⟩, ?_⟩
  · simp [symbolChar, Char.isAlphanum, h1 c hc]
  · refine ⟨⟨⟨⟨?_, ?_⟩, ?_⟩, ?_⟩, ?_⟩
    · simpa using hne _ (by decide)
    · simpa using hne _ (by decide)
    · simpa using hne _ (by decide)
    · have : "set-".toList = ['s', 'e', 't', '-'] := by decide
      rw [this]; rfl
    · have : "map-".toList = ['m', 'a', 'p', '-'] := by decide
      rw [this]; rfl
  · simpa using hne _ (by decide)
  · simpa using hne _ (by decide)

theorem knownArity_call {f : String} {t : Ty} {as : List Expr} {n : Nat} (h : knownArity (.node (.call f) t as) = some n) :
    f = "make-tuple" ∧ n = as.length := by
  unfold knownArity at h
  split at h
  · next heq => cases heq
  · next heq => injection heq with h1 h2 h3; injection h1 with h1; subst h1; subst h3; injection h with h; exact ⟨rfl, h.symm⟩
  · next heq => cases heq
  · cases h

theorem rep_like {E e : Expr} (hE : NoClash E) (he : SubExpr e E) : Like e (rep E e) := by
  cases e with
  | var n t => rw [rep_leaf hE he (by simp)]; exact ⟨fun _ h => h, fun _ h => h⟩
  | lit l => rw [rep_leaf hE he (by simp)]; exact ⟨fun _ h => h, fun _ h => h⟩
  | node op t args =>
    refine ⟨?_, by simp⟩
    by_cases ho : op = .choose
    · subst ho
      intro n h
      cases h
    · intro n h
      rw [rep, replace_node hE he ho]
      cases op with
      | tuple => simpa [knownArity] using h
      | call f =>
        obtain ⟨rfl, rfl⟩ := knownArity_call h
        simp [knownArity]
      | _ => cases h

theorem resolves_like {e r : Expr} (h : Resolves e r) : Like e r := by
  cases h with
  | var => exact ⟨fun _ h => h, fun _ h => h⟩
  | lit => exact ⟨fun _ h => h, fun _ h => h⟩
  | choose => exact ⟨fun n h => (by cases h), by simp⟩
  | @node op t args rs ho hrs =>
    refine ⟨?_, by simp⟩
    intro n h
    have hl := hrs.lengths
    cases op with
    | tuple => simpa [knownArity, hl] using h
    | call f =>
      obtain ⟨rfl, rfl⟩ := knownArity_call h
      simp [knownArity, hl]
    | _ => cases h

theorem all2_map_self {α β : Type} {R : α → β → Prop} {f : α → β} {as : List α} (h : ∀ a ∈ as, R a (f a)) : All2 R as (as.map f) := by
  induction as with
  | nil => exact .nil
  | cons a as ih => exact .cons (h a List.mem_cons_self) (ih fun b hb => h b (List.mem_cons_of_mem _ hb))

theorem printable_rep {E : Expr} (hE : NoClash E) (e : Expr) : SubExpr e E → sketchOk e = true → printable (rep E e) = true := by
  induction e using Expr.ind with
  | hv n t => intro he h; rw [rep_leaf hE he (by simp)]; exact h
  | hl l => intro he h; rw [rep_leaf hE he (by simp)]; cases l <;> exact h
  | hn op t args ih =>
    intro he h
    by_cases ho : op = .choose
    · subst ho
      obtain ⟨i, h1, -⟩ := find_choose hE he
      rw [rep, replaceExprs, h1]
      exact ntName i
    · obtain ⟨h1, h2⟩ := sketchOk_node ho h
      have hsub : ∀ a ∈ args, SubExpr a E := fun a ha => (SubExpr.arg ha .refl).trans he
      rw [rep, replace_node hE he ho]
      simp only [printable, Bool.and_eq_true]
      refine ⟨opOk_like h1 (all2_map_self fun a ha => rep_like hE (hsub a ha)), printables_of_all fun a ha => ?_⟩
      obtain ⟨b, hb, rfl⟩ := List.mem_map.1 ha
      exact ih b hb (hsub b hb) (h2 b hb)

theorem all2_right {α β : Type} {R : α → β → Prop} {as : List α} {bs : List β} (h : All2 R as bs) : ∀ b ∈ bs, ∃ a ∈ as, R a b := by
  induction h with
  | nil => simp
  | cons h _ ih =>
    intro b hb
    rcases List.mem_cons.1 hb with rfl | hb
    · exact ⟨_, List.mem_cons_self, h⟩
    · obtain ⟨a, ha, h⟩ := ih b hb
      exact ⟨a, List.mem_cons_of_mem _ ha, h⟩

theorem printable_res (e : Expr) : sketchOk e = true → ∀ r, Resolves e r → printable r = true := by
  induction e using Expr.ind with
  | hv n t => intro h r hr; cases hr; exact h
  | hl l => intro h r hr; cases hr; cases l <;> exact h
  | hn op t args ih =>
    intro h r hr
    cases hr with
    | choose ha hr => exact ih _ ha ((sketchOk_choose h).2.2 _ ha) r hr
    | node ho hrs =>
      obtain ⟨h1, h2⟩ := sketchOk_node ho h
      simp only [printable, Bool.and_eq_true]
      refine ⟨opOk_like h1 (hrs.imp fun a b hab => resolves_like hab), printables_of_all fun b hb => ?_⟩
      obtain ⟨a, ha, hab⟩ := all2_right hrs b hb
      exact ih a ha (h2 a ha) b hab

/-- The alternatives of a production. -/
def altsOf : Expr → List SExpr
  | .node .choose _ args => sxs args
  | e => [sx e]

/-- The productions. -/
def sygusRules (E : Expr) : List Production :=
  ("rv", sortSx E.ty, [sx (rep E E)]) ::
    (synthGrammar smtNt E).rules.mapIdx (fun i e => (smtNt i, sortSx e.ty, altsOf e))

theorem rule_mem {E : Expr} {n : String} {s : SExpr} {alts : List SExpr} (h : (n, s, alts) ∈ sygusRules E) :
    (n = "rv" ∧ alts = [sx (rep E E)]) ∨ ∃ i e, n = smtNt i ∧ (synthGrammar smtNt E).rules[i]? = some e ∧ alts = altsOf e := by
  rcases List.mem_cons.1 h with h | h
  · injection h with h1 h2
    injection h2 with h2 h3
    exact .inl ⟨h1, h3⟩
  · rw [List.mem_mapIdx] at h
    obtain ⟨i, hi, h⟩ := h
    injection h with h1 h2
    injection h2 with h2 h3
    exact .inr ⟨i, _, h1.symm, List.getElem?_eq_getElem hi, h3.symm⟩

theorem mem_rule {E : Expr} {i : Nat} {e : Expr} (h : (synthGrammar smtNt E).rules[i]? = some e) :
    (smtNt i, sortSx e.ty, altsOf e) ∈ sygusRules E := by
  refine List.mem_cons_of_mem _ (List.mem_mapIdx.2 ?_)
  obtain ⟨hi, rfl⟩ := List.getElem?_eq_some_iff.1 h
  exact ⟨i, hi, rfl⟩

theorem notNt_mem {E : Expr} {n : String} (h : NotNt n) : n ∉ (sygusRules E).map (·.1) := by
  intro hm
  obtain ⟨⟨m, s, alts⟩, hp, rfl⟩ := List.mem_map.1 hm
  rcases rule_mem hp with ⟨h', _⟩ | ⟨i, _, h', _⟩
  · exact h.1 h'
  · exact h.2 i h'

theorem rv_ne (i : Nat) : "rv" ≠ smtNt i := by
  intro h
  have := congrArg (fun s : String => s.toList.head?) h
  simp [smtNt] at this

theorem notNt_lit (l : Lit) (h : sketchOk (.lit l) = true) : NotNt (litText l) := by
  have hv : ∀ s : String, s.toList.head? ≠ some 'v' → s.toList.head? ≠ some 'r' → NotNt s := by
    intro s h1 h2
    refine ⟨?_, fun i he => ?_⟩
    · rintro rfl; exact h2 rfl
    · rw [he] at h1
      simp [smtNt] at h1
  cases l with
  | bool b => cases b <;> exact hv _ (by decide) (by decide)
  | int i =>
    simp only [sketchOk, decide_eq_true_eq] at h
    obtain ⟨n, rfl⟩ := Int.eq_ofNat_of_zero_le h
    have hd : ∀ c, (litText (.int n)).toList.head? = some c → c.isDigit = true := by
      intro c hc
      have : litText (.int n) = n.repr := by simp [litText]
      rw [this] at hc
      have hm := List.mem_of_mem_head? hc
      exact Nat.isDigit_of_mem_toDigits (b := 10) (by decide) (by decide) (by simpa [Nat.repr] using hm)
    exact hv _ (fun hc => absurd (hd _ hc) (by decide)) (fun hc => absurd (hd _ hc) (by decide))

theorem sx_call {op : Op} {t : Ty} {args : List Expr} (h : op ≠ .call "set-create") :
    sx (.node op t args) = app (headSym op args) (headArgs op (sxs args)) := by
  rw [sx, if_neg h]

theorem gens_resolve {R : List Production} {f : Expr → Expr} {as : List Expr}
    (h : ∀ a ∈ as, ∀ t, Gen R (sx (f a)) t ↔ ∃ r, Resolves a r ∧ t = sx r) :
    ∀ ts, All2 (Gen R) (sxs (as.map f)) ts ↔ ∃ rs, All2 Resolves as rs ∧ ts = sxs rs := by
  induction as with
  | nil =>
    intro ts
    constructor
    · intro h; cases h; exact ⟨[], .nil, rfl⟩
    · rintro ⟨rs, h, rfl⟩; cases h; exact .nil
  | cons a as ih =>
    intro ts
    constructor
    · intro hh
      cases hh with
      | cons h1 h2 =>
        obtain ⟨r, hr, rfl⟩ := (h a List.mem_cons_self _).1 h1
        obtain ⟨rs, hrs, rfl⟩ := (ih (fun b hb => h b (List.mem_cons_of_mem _ hb)) _).1 h2
        exact ⟨r :: rs, .cons hr hrs, rfl⟩
    · rintro ⟨rs, hh, rfl⟩
      cases hh with
      | cons h1 h2 =>
        exact .cons ((h a List.mem_cons_self _).2 ⟨_, h1, rfl⟩) ((ih (fun b hb => h b (List.mem_cons_of_mem _ hb)) _).2 ⟨_, h2, rfl⟩)

theorem gen_app {R : List Production} {h : String} (hh : h ≠ "as") {xs : List SExpr} {t : SExpr} :
    Gen R (.list (.atom h :: xs)) t ↔ ∃ ts, All2 (Gen R) xs ts ∧ t = .list (.atom h :: ts) := by
  constructor
  · intro hg
    cases hg with
    | qual => exact absurd rfl hh
    | app _ ha => exact ⟨_, ha, rfl⟩
  · rintro ⟨ts, ha, rfl⟩
    exact .app hh ha

theorem gen_iff {E : Expr} (hE : NoClash E) (hv : ∀ n t, SubExpr (.var n t) E → NotNt n)
    (hc : ∀ n t, SubExpr (.node (.call n) t []) E → NotNt n) (e : Expr) : SubExpr e E → sketchOk e = true →
    ∀ t, Gen (sygusRules E) (sx (rep E e)) t ↔ ∃ r, Resolves e r ∧ t = sx r := by
  have leaf : ∀ {n : String} {t : SExpr}, NotNt n → (Gen (sygusRules E) (.atom n) t ↔ t = .atom n) := by
    intro n t hn
    constructor
    · intro h
      cases h with
      | nonterm hm => exact absurd (List.mem_map_of_mem (f := (·.1)) hm) (notNt_mem hn)
      | atom => rfl
    · rintro rfl
      exact .atom (notNt_mem hn)
  induction e using Expr.ind with
  | hv n t =>
    intro he h x
    rw [rep_leaf hE he (by simp), sx, leaf (hv n t he)]
    exact ⟨fun h => ⟨_, .var, h⟩, by rintro ⟨r, hr, rfl⟩; cases hr; rfl⟩
  | hl l =>
    intro he h x
    rw [rep_leaf hE he (by simp), sx, leaf (notNt_lit l h)]
    exact ⟨fun h => ⟨_, .lit, h⟩, by rintro ⟨r, hr, rfl⟩; cases hr; rfl⟩
  | hn op t args ih =>
    intro he h x
    have hsub : ∀ a ∈ args, SubExpr a E := fun a ha => (SubExpr.arg ha .refl).trans he
    by_cases ho : op = .choose
    · subst ho
      obtain ⟨i, h1, h2⟩ := find_choose hE he
      have hr := rule_choose (nm := smtNt) h2
      have e1 : sx (rep E (.node .choose t args)) = .atom (smtNt i) := by rw [rep, replaceExprs, h1, sx]
      have e2 : altsOf (.node .choose t (args.map (rep E))) = args.map fun a => sx (rep E a) := by
        simp [altsOf, sxs_eq_map]
      rw [e1]
      constructor
      · intro hg
        cases hg with
        | nonterm hm ha hg =>
          rcases rule_mem hm with ⟨h', _⟩ | ⟨j, e, hn, he', rfl⟩
          · exact absurd h'.symm (rv_ne i)
          · have := smtNt_inj _ _ hn
            subst this
            rw [hr] at he'
            injection he' with he'
            subst he'
            rw [e2] at ha
            obtain ⟨a, ha', rfl⟩ := List.mem_map.1 ha
            obtain ⟨r, hr, rfl⟩ := (ih a ha' (hsub a ha') ((sketchOk_choose h).2.2 a ha') x).1 hg
            exact ⟨r, .choose ha' hr, rfl⟩
        | atom hm => exact absurd (List.mem_map_of_mem (f := (·.1)) (mem_rule hr)) hm
      · rintro ⟨r, hr', rfl⟩
        cases hr' with
        | @choose _ _ a _ ha hr' =>
          exact .nonterm (mem_rule hr) (by rw [e2]; exact List.mem_map_of_mem ha)
            ((ih a ha (hsub a ha) ((sketchOk_choose h).2.2 a ha) _).2 ⟨r, hr', rfl⟩)
        | node ho => exact absurd rfl ho
    · obtain ⟨h1, h2⟩ := sketchOk_node ho h
      have ih' : ∀ a ∈ args, ∀ t, Gen (sygusRules E) (sx (rep E a)) t ↔ ∃ r, Resolves a r ∧ t = sx r :=
        fun a ha => ih a ha (hsub a ha) (h2 a ha)
      have inv : ∀ r, Resolves (.node op t args) r ↔ ∃ rs, r = .node op t rs ∧ All2 Resolves args rs := by
        intro r
        constructor
        · intro hr
          cases hr with
          | choose => exact absurd rfl ho
          | node _ hrs => exact ⟨_, rfl, hrs⟩
        · rintro ⟨rs, rfl, hrs⟩
          exact .node ho hrs
      rw [rep, replace_node hE he ho]
      by_cases hs : op = .call "set-create"
      · subst hs
        have : args = [] := by
          simp only [opOk, if_pos, Bool.and_eq_true, List.isEmpty_iff] at h1
          exact h1.1
        subst this
        simp only [List.map_nil, sx, if_true]
        constructor
        · intro hg
          cases hg with
          | qual => exact ⟨_, .node ho .nil, by simp [sx]⟩
          | app ha => exact absurd rfl ha
        · rintro ⟨r, hr, rfl⟩
          obtain ⟨rs, rfl, hrs⟩ := (inv r).1 hr
          cases hrs
          simp only [sx, if_true]
          exact .qual
      · have pa : printables (args.map (rep E)) = true := printables_of_all fun a ha => by
          obtain ⟨b, hb, rfl⟩ := List.mem_map.1 ha
          exact printable_rep hE b (hsub b hb) (h2 b hb)
        have pr : ∀ rs, All2 Resolves args rs → printables rs = true := fun rs hrs => printables_of_all fun b hb => by
          obtain ⟨a, ha, hab⟩ := all2_right hrs b hb
          exact printable_res a (h2 a ha) b hab
        have la : All2 Like args (args.map (rep E)) := all2_map_self fun a ha => rep_like hE (hsub a ha)
        have hd : ∀ rs, All2 Resolves args rs → headSym op (args.map (rep E)) = headSym op rs := fun rs hrs =>
          headSym_like h1 la (hrs.imp fun a b hab => resolves_like hab) pa (pr rs hrs)
        have has : headSym op (args.map (rep E)) ≠ "as" := headSym_as (opOk_like h1 la) pa
        have gs := gens_resolve ih'
        rw [sx_call hs]
        by_cases hne : args = []
        · subst hne
          have hnt : NotNt (headSym op ([].map (rep E))) := by
            cases op with
            | call f =>
              have hf : word false f [] = some f := by
                rcases call_cases h1 with ⟨rfl, _⟩ | ⟨rfl, hh⟩ | ⟨rfl, u, i, n, hh, _⟩ | ⟨rfl, hh⟩ | ⟨rfl, hh⟩ | ⟨p, hm, rfl, hh⟩ | ⟨hf, _⟩
                · exact absurd rfl hs
                · simp at hh
                · cases hh
                · cases hh
                · cases hh
                · exfalso
                  simp only [setFns, List.mem_cons, List.not_mem_nil, or_false] at hm
                  rcases hm with rfl | rfl | rfl | rfl | rfl | rfl <;> cases hh
                · exact fnName_word hf []
              simp only [List.map_nil, headSym, hf, Option.getD_some]
              exact hc f t he
            | _ => simp [opOk] at h1
          have e0 : ∀ op', app (headSym op' []) (headArgs op' (sxs [])) = .atom (headSym op' []) := by
            intro op'
            simp [headArgs, sxs, app]
          rw [List.map_nil] at hnt ⊢
          rw [e0, leaf hnt]
          constructor
          · rintro rfl
            exact ⟨_, .node ho .nil, by rw [sx_call hs, e0]⟩
          · rintro ⟨r, hr, rfl⟩
            obtain ⟨rs, rfl, hrs⟩ := (inv r).1 hr
            cases hrs
            rw [sx_call hs, e0]
        · by_cases hg : op = .call "tupleGet"
          · subst hg
            rcases call_cases h1 with ⟨hf, _⟩ | ⟨hf, _⟩ | ⟨_, u, i, n, rfl, hk, h0, _⟩ | ⟨hf, _⟩ | ⟨hf, _⟩ | ⟨p, hm, hf, _⟩ | ⟨hf, _⟩
            · exact absurd hf (by decide)
            · exact absurd hf (by decide)
            · have hlit : ∀ rs, All2 Resolves [u, .lit (.int i)] rs ↔ ∃ r, rs = [r, .lit (.int i)] ∧ Resolves u r := by
                intro rs
                constructor
                · intro hrs
                  cases hrs with
                  | cons h1 hrs =>
                    cases hrs with
                    | cons h2 hrs =>
                      cases hrs
                      cases h2
                      exact ⟨_, rfl, h1⟩
                · rintro ⟨r, rfl, hr⟩
                  exact .cons hr (.cons .lit .nil)
              have e0 : ∀ (w : String) (a b : Expr), app w (headArgs (.call "tupleGet") (sxs [a, b])) = .list [.atom w, sx a] := by
                intro w a b
                simp [headArgs, sxs, app]
              simp only [List.map_cons, List.map_nil] at hd has ⊢
              rw [e0, gen_app has]
              constructor
              · rintro ⟨ts, hts, rfl⟩
                cases hts with
                | cons ht hts =>
                  cases hts
                  obtain ⟨r, hr, rfl⟩ := (ih' u (by simp) _).1 ht
                  have hrs := (hlit [r, .lit (.int i)]).2 ⟨r, rfl, hr⟩
                  exact ⟨_, .node ho hrs, by rw [sx_call hs, e0, hd _ hrs]⟩
              · rintro ⟨r, hr, rfl⟩
                obtain ⟨rs, rfl, hrs⟩ := (inv r).1 hr
                obtain ⟨r, rfl, hr'⟩ := (hlit rs).1 hrs
                rw [sx_call hs, e0, ← hd _ hrs]
                exact ⟨[sx r], .cons ((ih' u (by simp) _).2 ⟨r, hr', rfl⟩) .nil, rfl⟩
            · exact absurd hf (by decide)
            · exact absurd hf (by decide)
            · exfalso
              simp only [setFns, List.mem_cons, List.not_mem_nil, or_false] at hm
              rcases hm with rfl | rfl | rfl | rfl | rfl | rfl <;> exact absurd hf (by decide)
            · exact absurd hf (by decide)
          · have e0 : ∀ w (as : List Expr), as ≠ [] → app w (headArgs op (sxs as)) = .list (.atom w :: sxs as) := by
              intro w as hne
              have := sxs_ne hne
              simp [headArgs, hg, app, this]
            rw [e0 _ _ (by simpa using hne), gen_app has]
            have hne' : ∀ rs, All2 Resolves args rs → rs ≠ [] := by
              rintro _ hrs rfl
              cases hrs
              exact hne rfl
            constructor
            · rintro ⟨ts, hts, rfl⟩
              obtain ⟨rs, hrs, rfl⟩ := (gs ts).1 hts
              exact ⟨_, .node ho hrs, by rw [sx_call hs, e0 _ _ (hne' rs hrs), hd rs hrs]⟩
            · rintro ⟨r, hr, rfl⟩
              obtain ⟨rs, rfl, hrs⟩ := (inv r).1 hr
              rw [sx_call hs, e0 _ _ (hne' rs hrs), ← hd rs hrs]
              exact ⟨_, (gs _).2 ⟨rs, hrs, rfl⟩, rfl⟩

/-! ### The text -/

theorem all2_mapIdx {α β γ δ : Type} {R : α → β → Prop} {Q : γ → δ → Prop} {as : List α} {bs : List β} (h : All2 R as bs) :
    ∀ {f : Nat → α → γ} {g : Nat → β → δ}, (∀ i a b, R a b → Q (f i a) (g i b)) → All2 Q (as.mapIdx f) (bs.mapIdx g) := by
  induction h with
  | nil => intro f g _; exact .nil
  | cons h _ ih =>
    intro f g hfg
    rw [List.mapIdx_cons, List.mapIdx_cons]
    exact .cons (hfg 0 _ _ h) (ih fun i a b => hfg (i + 1) a b)

theorem all2_zip {α β γ : Type} {R : α → γ → Prop} {Q : β → γ → Prop} {as : List α} {bs : List β} {cs : List γ} (h : All2 R as cs)
    (h' : All2 Q bs cs) : All2 (fun p c => R p.1 c ∧ Q p.2 c) (as.zip bs) cs := by
  induction h generalizing bs with
  | nil => cases h'; exact .nil
  | cons h _ ih =>
    cases h' with
    | cons q h' => exact .cons ⟨h, q⟩ (ih h')

theorem mapM_all2 {α : Type} {f : α → Option String} {Q : String → α → Prop} {l : List α}
    (h : ∀ a ∈ l, ∃ s, f a = some s ∧ Q s a) : ∃ ss, l.mapM f = some ss ∧ All2 Q ss l := by
  induction l with
  | nil => exact ⟨[], rfl, .nil⟩
  | cons a l ih =>
    obtain ⟨s, hs, hd⟩ := h a List.mem_cons_self
    obtain ⟨ss, hss, hds⟩ := ih (fun b hb => h b (List.mem_cons_of_mem _ hb))
    exact ⟨s :: ss, by simp [List.mapM_cons, hs, hss], .cons hd hds⟩

/-- Texts separated by blanks. -/
theorem joinSp_piece {ss : List String} {xs : List SExpr} (h : All2 Denotes ss xs) : Piece (joinSp ss) xs := by
  cases h with
  | nil => exact piece_empty
  | @cons s x ss xs hs hss =>
    have h2 : ∀ {ss : List String} {xs : List SExpr}, All2 Denotes ss xs →
        Piece (catAll (ss.map (" " ++ ·))) xs ∧ Lead (catAll (ss.map (" " ++ ·))) := by
      intro ss xs h
      induction h with
      | nil => exact ⟨piece_empty, lead_empty⟩
      | @cons s x ss xs hs _ ih =>
        simp only [List.map_cons, catAll]
        constructor
        · have := (piece_empty.sp hs.piece).append ih.1 ih.2
          simpa [String.append_assoc] using this
        · rw [String.append_assoc]
          intro rest hr
          have : " ".toList = [' '] := by decide
          rw [String.toList_append, this]
          exact delim_space _
    exact hs.piece.append (h2 hss).1 (h2 hss).2

/-- The command `Synth.toSMT` prints. -/
def sxSynth (s : SynthFn) : SExpr :=
  .list [.atom "synth-fun", .atom s.name, .list (s.params.map sxParam), sortSx s.body.ty,
    .list ((sygusRules s.body).map fun p => .list [.atom p.1, p.2.1]),
    .list ((sygusRules s.body).map fun p => .list [.atom p.1, p.2.1, .list p.2.2])]

theorem rule_form {E : Expr} (hE : NoClash E) {e : Expr} (h : e ∈ (synthGrammar smtNt E).rules) :
    ∃ t args, SubExpr (.node .choose t args) E ∧ e = .node .choose t (args.map (rep E)) := by
  simp only [synthGrammar, List.mem_map] at h
  obtain ⟨c, hc, rfl⟩ := h
  obtain ⟨hs, t, args, rfl⟩ := (mem_commonExprs hE).1 hc
  exact ⟨t, args, hs, by simp [replaceExprsTop, replaceExprss_eq]⟩

theorem sketchOk_sub {e a : Expr} (h : SubExpr a e) : sketchOk e = true → sketchOk a = true := by
  induction h with
  | refl => exact id
  | @arg op t args b hm _ ih =>
    intro h
    apply ih
    by_cases ho : op = .choose
    · subst ho
      exact (sketchOk_choose h).2.2 b hm
    · exact (sketchOk_node ho h).2 b hm

theorem start_production (s : SynthFn) (h : SketchText s) :
    ∃ x, exprText (rep s.body s.body) = some x ∧ Denotes x (sx (rep s.body s.body)) ∧
      productionText (rep s.body s.body) = some ("(" ++ x ++ ")") := by
  have hp := printable_rep h.clash s.body .refl h.sketch
  obtain ⟨x, h1, h2⟩ := text_denotes _ hp
  refine ⟨x, h1, h2, ?_⟩
  have : ∀ e : Expr, printable e = true → productionText e = (exprText e).map (fun s => "(" ++ s ++ ")") := by
    intro e he
    unfold productionText
    split
    · simp [printable, opOk] at he
    · rfl
  rw [this _ hp, h1]
  rfl

theorem production_text {s : SynthFn} (h : SketchText s) {e : Expr} (he : e ∈ (synthGrammar smtNt s.body).rules) :
    (∃ x, sortText e.ty = some x ∧ Denotes x (sortSx e.ty)) ∧ ∃ x, productionText e = some x ∧ Denotes x (.list (altsOf e)) := by
  obtain ⟨t, args, hs, rfl⟩ := rule_form h.clash he
  obtain ⟨h1, h2, h3⟩ := sketchOk_choose (sketchOk_sub hs h.sketch)
  obtain ⟨x, hx⟩ := Option.isSome_iff_exists.1 h2
  refine ⟨⟨x, hx, sort_denotes hx⟩, ?_⟩
  have : ∀ a ∈ args.map (rep s.body), ∃ x, exprText a = some x ∧ Denotes x (sx a) := by
    intro a ha
    obtain ⟨b, hb, rfl⟩ := List.mem_map.1 ha
    exact text_denotes _ (printable_rep h.clash b ((SubExpr.arg hb .refl).trans hs) (h3 b hb))
  obtain ⟨ss, hss, hds⟩ := texts_denote this
  exact ⟨"(" ++ joinSp ss ++ ")", by simp [productionText, exprText, hss], denotes_paren hds⟩

theorem synth_denotes (s : SynthFn) (h : SketchText s) : ∃ text, synthText s = some text ∧ Denotes text (sxSynth s) := by
  obtain ⟨r, hr⟩ := Option.isSome_iff_exists.1 h.ret
  obtain ⟨x, hx, hxd, hxp⟩ := start_production s h
  obtain ⟨ps, hps, hpd⟩ := params_denote h.params
  obtain ⟨ts, hts, htd⟩ := mapM_all2 (f := fun e : Expr => sortText e.ty) (Q := fun x e => Denotes x (sortSx e.ty))
    (l := (synthGrammar smtNt s.body).rules) (fun e he => (production_text h he).1)
  obtain ⟨as, has, had⟩ := mapM_all2 (f := productionText) (Q := fun x e => Denotes x (.list (altsOf e)))
    (l := (synthGrammar smtNt s.body).rules) (fun e he => (production_text h he).2)
  have hnt : ∀ i : Nat, goodAtom ("v" ++ i.repr) = true := fun i => by
    have := ntName i
    simp only [varName, Bool.and_eq_true] at this
    exact symbolOk_good this.1.1.1
  have d1 : All2 Denotes (ts.mapIdx fun i t => "(v" ++ i.repr ++ " " ++ t ++ ")")
      ((synthGrammar smtNt s.body).rules.mapIdx fun i e => .list [.atom (smtNt i), sortSx e.ty]) := by
    refine all2_mapIdx htd fun i t e ht => ?_
    have := ((piece_atom (hnt i)).sp ht.piece).paren
    have e : "(v" ++ i.repr ++ " " ++ t ++ ")" = "(" ++ ("v" ++ i.repr ++ " " ++ t) ++ ")" := by
      rw [show "(v" = "(" ++ "v" from by decide +kernel]
      simp only [String.append_assoc]
    rw [e]
    exact this
  have d2 : All2 Denotes ((ts.zip as).mapIdx fun i p => "(v" ++ i.repr ++ " " ++ p.1 ++ " " ++ p.2 ++ ")")
      ((synthGrammar smtNt s.body).rules.mapIdx fun i e => .list [.atom (smtNt i), sortSx e.ty, .list (altsOf e)]) := by
    refine all2_mapIdx (all2_zip htd had) fun i p e ht => ?_
    have := (((piece_atom (hnt i)).sp ht.1.piece).sp ht.2.piece).paren
    have e : "(v" ++ i.repr ++ " " ++ p.1 ++ " " ++ p.2 ++ ")" = "(" ++ ("v" ++ i.repr ++ " " ++ p.1 ++ " " ++ p.2) ++ ")" := by
      rw [show "(v" = "(" ++ "v" from by decide +kernel]
      simp only [String.append_assoc]
    rw [e]
    exact this
  have hrv := piece_atom (s := "rv") (by decide)
  have p1 := (((hrv.sp (sort_denotes hr).piece).paren.piece).sp (joinSp_piece d1)).paren
  have p2 := ((((hrv.sp (sort_denotes hr).piece).sp hxd.piece.paren.piece).paren.piece).nl (joinNl_piece d2)).paren
  have all := ((((((piece_atom (s := "synth-fun") (by decide)).sp (piece_atom (fnName_good h.name))).sp (denotes_paren hpd).piece).sp
    (sort_denotes hr).piece).nl p1.piece).nl p2.piece).paren
  have e : sxSynth s = .list ([.atom "synth-fun"] ++ [.atom s.name] ++ [.list (s.params.map sxParam)] ++ [sortSx s.body.ty] ++
        [.list ([.list ([.atom "rv"] ++ [sortSx s.body.ty])] ++ (synthGrammar smtNt s.body).rules.mapIdx fun i e => .list [.atom (smtNt i), sortSx e.ty])] ++
        [.list ([.list ([.atom "rv"] ++ [sortSx s.body.ty] ++ [.list [sx (rep s.body s.body)]])] ++
          (synthGrammar smtNt s.body).rules.mapIdx fun i e => .list [.atom (smtNt i), sortSx e.ty, .list (altsOf e)])]) := by
      have hm : ∀ (f : Production → SExpr) (g : Nat → Expr → Production) (l : List Expr), (l.mapIdx g).map f = l.mapIdx fun i e => f (g i e) := by
        intro f g l
        apply List.ext_getElem <;> simp
      simp [sxSynth, sygusRules, hm]
  rw [← e] at all
  refine ⟨_, ?_, all⟩
  · have hstart : (synthGrammar smtNt s.body).start = rep s.body s.body := rfl
    simp only [synthText, hr, hts, has, hps, hstart, hxp, Option.bind_eq_bind, Option.bind_some]
    refine congrArg some ?_
    rw [show "(synth-fun " = "(" ++ ("synth-fun" ++ " ") from by decide +kernel, show " (" = " " ++ "(" from rfl, show ") " = ")" ++ " " from rfl,
      show "((rv " = "(" ++ ("(" ++ ("rv" ++ " ")) from by decide +kernel, show "(rv " = "(" ++ ("rv" ++ " ") from by decide +kernel,
      show ")\n" = ")" ++ "\n" from by decide +kernel]
    simp only [String.append_assoc]

theorem productions_read (R : List Production) (h : ∀ p ∈ R, p.2.2 ≠ []) :
    productions (R.map fun p => .list [.atom p.1, p.2.1]) (R.map fun p => .list [.atom p.1, p.2.1, .list p.2.2]) = some R := by
  induction R with
  | nil => rfl
  | cons p R ih =>
    simp only [List.map_cons, productions, h p List.mem_cons_self, ne_eq, not_false_eq_true, and_self, if_true,
      ih fun q hq => h q (List.mem_cons_of_mem _ hq)]
    rfl

/-- C62: the `synth-fun` command written for a sketch reads back as a well-formed command with the function's name, parameters and result, and the
terms of its grammar are exactly the texts of the ways to resolve the choices of the sketch. -/
theorem C62_grammar_partial (s : SynthFn) (hs : SketchText s) :
    ∃ text x c, synthText s = some text ∧ readScript text = some [x] ∧ readSynthFun x = some c ∧ c.name = s.name ∧
      All2 (fun (p : String × SExpr) (q : String × Ty) => p.1 = q.1 ∧ ∃ w, sortText q.2 = some w ∧ readTerm w = some p.2) c.params s.params ∧
      (∃ w, sortText s.body.ty = some w ∧ readTerm w = some c.ret) ∧ c.WellFormed ∧
      ∀ t, c.Generates t ↔ ∃ r w, Resolves s.body r ∧ exprText r = some w ∧ readTerm w = some t := by
  obtain ⟨text, h1, h2⟩ := synth_denotes s hs
  obtain ⟨w, hw⟩ := Option.isSome_iff_exists.1 hs.ret
  have hp := hs.params
  simp only [paramsOk, Bool.and_eq_true, List.all_eq_true, decide_eq_true_eq] at hp
  have hne : ∀ p ∈ sygusRules s.body, p.2.2 ≠ [] := by
    rintro ⟨n, u, alts⟩ hm
    rcases rule_mem hm with ⟨_, rfl⟩ | ⟨i, e, _, he, rfl⟩
    · simp
    · obtain ⟨t, args, hs', rfl⟩ := rule_form hs.clash (List.mem_of_getElem? he)
      have := (sketchOk_choose (sketchOk_sub hs' hs.sketch)).1
      cases args with
      | nil => exact absurd rfl this
      | cons a args => simp [altsOf, sxs]
  have hnames : (sygusRules s.body).map (·.1) = "rv" :: (List.range (synthGrammar smtNt s.body).rules.length).map smtNt := by
    simp only [sygusRules, List.map_cons]
    congr 1
    apply List.ext_getElem <;> simp
  refine ⟨text, sxSynth s, ⟨s.name, s.params.map fun p => (p.1, sortSx p.2), sortSx s.body.ty, sygusRules s.body⟩, h1,
    Piece.read (xs := [_]) h2.piece, ?_, rfl, ?_, ⟨w, hw, readTerm_eq (sort_denotes hw)⟩, ⟨?_, ?_, ?_, rfl⟩, ?_⟩
  · simp only [sxSynth, readSynthFun, binders_params, productions_read _ hne, Option.bind_eq_bind, Option.bind_some]
  · have : ∀ l : List (String × Ty), (∀ q ∈ l, (sortText q.2).isSome = true) →
        All2 (fun (p : String × SExpr) (q : String × Ty) => p.1 = q.1 ∧ ∃ w, sortText q.2 = some w ∧ readTerm w = some p.2)
          (l.map fun p => (p.1, sortSx p.2)) l := by
      intro l hl
      induction l with
      | nil => exact .nil
      | cons q l ih =>
        obtain ⟨w, hw⟩ := Option.isSome_iff_exists.1 (hl q List.mem_cons_self)
        exact .cons ⟨rfl, w, hw, readTerm_eq (sort_denotes hw)⟩ (ih fun a ha => hl a (List.mem_cons_of_mem _ ha))
    exact this _ fun q hq => (hp.1 q hq).2
  · show ((sygusRules s.body).map (·.1)).Nodup
    rw [hnames, List.nodup_cons]
    refine ⟨?_, (List.nodup_range).map fun i j h => ?_⟩
    · intro h
      obtain ⟨i, _, hi⟩ := List.mem_map.1 h
      exact rv_ne i hi.symm
    · exact smtNt_inj i j h
  · intro n hn hm
    rw [map_fst_binders] at hm
    obtain ⟨p, hpm, rfl⟩ := List.mem_map.1 hm
    exact notNt_mem (hs.paramNts p hpm) hn
  · rw [map_fst_binders]
    exact hp.2
  · intro t
    have key := gen_iff hs.clash hs.vars hs.consts s.body .refl hs.sketch t
    have hgen : SynthFun.Generates ⟨s.name, s.params.map fun p => (p.1, sortSx p.2), sortSx s.body.ty, sygusRules s.body⟩ t ↔
        Gen (sygusRules s.body) (sx (rep s.body s.body)) t := by
      constructor
      · rintro ⟨n, hn, hg⟩
        have hn : some "rv" = some n := hn
        cases hn
        cases hg with
        | nonterm hm ha hg =>
          rcases rule_mem hm with ⟨_, rfl⟩ | ⟨i, _, h, _⟩
          · rw [List.mem_singleton] at ha
            rw [← ha]
            exact hg
          · exact absurd h (rv_ne i)
        | atom h => exact absurd (by rw [hnames]; exact List.mem_cons_self) h
      · intro h
        exact ⟨"rv", rfl, .nonterm (n := "rv") List.mem_cons_self (List.mem_singleton.2 rfl) h⟩
    rw [hgen, key]
    constructor
    · rintro ⟨r, hr, rfl⟩
      obtain ⟨x, hx, hd⟩ := text_denotes r (printable_res _ hs.sketch r hr)
      exact ⟨r, x, hr, hx, readTerm_eq hd⟩
    · rintro ⟨r, w', hr, hx, ht⟩
      obtain ⟨x, hx', hd⟩ := text_denotes r (printable_res _ hs.sketch r hr)
      rw [hx] at hx'
      cases hx'
      rw [readTerm_eq hd] at ht
      exact ⟨r, hr, (Option.some.inj ht).symm⟩

/-- C62 fails for every query: a synthesis query with a function to be synthesised is never written, `toSMT` raises an exception. -/
theorem C62_query_refuted (topo : List (String × String) → Option (List String)) (setOrder : List String → List String)
    (lang : List FnDecl) (axs : List Ax) (cands : List Cand) (vars : List (String × Ty)) (vc : Expr) (s : SynthFn) (hs : .synth s ∈ cands) :
    sygusText topo setOrder lang axs cands vars vc = none := by
  have : cands.mapM Cand.filter = none := by
    induction cands with
    | nil => cases hs
    | cons c cs ih =>
      rcases List.mem_cons.1 hs with rfl | h
      · rfl
      · rw [List.mapM_cons, ih h]
        cases c.filter <;> rfl
  simp only [sygusText, this, Option.bind_eq_bind, Option.bind_none]
  cases sortFns topo setOrder lang with
  | none => rfl
  | some l => simp

/-- The function of the example. -/
def exSketch : SynthFn := { name := "f_ps", params := [("x", .int), ("y", .int)], body := exGrammar }

theorem exSketch_ok : SketchText exSketch where
  name := by decide +kernel
  params := by decide +kernel
  ret := by decide +kernel
  sketch := by decide +kernel
  clash := exGrammar_noClash
  vars := by
    intro n t h
    refine ⟨?_, exGrammar_noNtVars n t h⟩
    change SubExpr (.var n t) exGrammar at h
    rw [subExpr_iff] at h
    simp [exGrammar, Expr.subs, Expr.subss] at h
    rcases h with ⟨rfl, rfl⟩ | ⟨rfl, rfl⟩ | ⟨rfl, rfl⟩ <;> decide
  consts := by
    intro n t h
    change SubExpr (.node (.call n) t []) exGrammar at h
    rw [subExpr_iff] at h
    simp [exGrammar, Expr.subs, Expr.subss] at h
  paramNts := by
    intro p hp
    have : p = ("x", .int) ∨ p = ("y", .int) := by simpa [exSketch] using hp
    have hv : ∀ s : String, s.toList.head? ≠ some 'v' → ∀ i, s ≠ smtNt i := by
      intro s h1 i h
      rw [h] at h1
      exact h1 (by simp [smtNt])
    rcases this with rfl | rfl <;> exact ⟨by decide, hv _ (by decide)⟩

-- the text written for the example, and a term of its grammar
example : synthText exSketch = some
    "(synth-fun f_ps ((x Int) (y Int)) Int\n((rv Int) (v0 Int) (v1 Int))\n((rv Int ((+ v0 v1)))\n(v0 Int (x v1))\n(v1 Int (y 1))))" := by
  decide +kernel

example : ∃ x c, readScript "(synth-fun f_ps ((x Int) (y Int)) Int\n((rv Int) (v0 Int) (v1 Int))\n((rv Int ((+ v0 v1)))\n(v0 Int (x v1))\n(v1 Int (y 1))))" = some [x] ∧
    readSynthFun x = some c ∧ c.Generates (.list [.atom "+", .atom "1", .atom "y"]) := by
  obtain ⟨text, x, c, h1, h2, h3, _, _, _, _, h4⟩ := C62_grammar_partial exSketch exSketch_ok
  have h1' : synthText exSketch = some
    "(synth-fun f_ps ((x Int) (y Int)) Int\n((rv Int) (v0 Int) (v1 Int))\n((rv Int ((+ v0 v1)))\n(v0 Int (x v1))\n(v1 Int (y 1))))" := by
    decide +kernel
  rw [h1] at h1'
  cases h1'
  refine ⟨x, c, h2, h3, (h4 _).2 ⟨.node .add .int [.lit (.int 1), .var "y" .int], "(+ 1 y)", ?_, by decide +kernel, by decide +kernel⟩⟩
  exact .node (by simp) (.cons (.choose (List.mem_cons_of_mem _ (List.mem_singleton.mpr rfl)) (.choose (List.mem_cons_of_mem _ (List.mem_singleton.mpr rfl)) .lit))
    (.cons (.choose (List.mem_cons_self ..) .var) .nil))

end Smt
end Metalift
