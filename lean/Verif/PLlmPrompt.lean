import Verif.LlmPrompt
/-
C76: prompts for loop invariants.  The signature that a template shows, the arguments that the verification condition gives to the invariant, and the
program with assertions.
-/
namespace Metalift.Llm.Prompt
open Smt (OfTys)

/-! ### Specification -/

/-- The variables of a loop, in the order in which they are declared. -/
def declared : LoopInfo → Nat → List V
  | .single l r m, 0 => r ++ m ++ [l]
  | .double o _ r _ m _, 0 => r ++ m ++ [o]
  | .double _ i _ r _ m, 1 => r ++ m ++ [i]
  | _, _ => []

/-- The loops of a program with these loops. -/
def loops : LoopInfo → Nat
  | .single .. => 1
  | .double .. => 2

/-- The name under which the prompt asks for the invariant of a loop. -/
def asked : LoopInfo → Nat → String
  | .single .., _ => "invariant"
  | .double .., 0 => "invariant1"
  | .double .., _ => "invariant2"

/-- Reads the names in front of colons. -/
def beforeColons : List Char → List Char → List (List Char)
  | _, [] => []
  | acc, c :: cs =>
    if c = ':' then acc :: beforeColons [] cs
    else if isWord c then beforeColons (acc ++ [c]) cs
    else beforeColons [] cs

/-- The names of the parameters in a text `def f(x: T, ...)`. -/
def params (t : List Char) : List String := (beforeColons [] (((t.dropWhile (· ≠ '(')).drop 1).takeWhile (· ≠ ')'))).map String.ofList

/-- Names are made of letters, digits and underscores. -/
def Ident (n : String) : Prop := ∀ c ∈ n.toList, isWord c = true

/-- The environment in which the names of the parameters have the values that the program's variables have at a point: the driver's other name is used where there
is one. Other names are names of functions. -/
def stateEnv (I : Interp) (σ : Env) (ρ : List (String × String)) (st : Ll.St) (names : List String) : Env := fun x =>
  if x ∈ names then ((st.readVar (rename ρ x)).map (eval I σ)).getD (.fn x) else .fn x

/-! ### Arguments -/

theorem keep_sub {v : V} : ∀ {vs : List V}, v ∈ keep vs → v ∈ vs
  | [], h => by cases h
  | w :: ws, h => by
    rcases List.mem_cons.1 h with rfl | h
    · exact List.mem_cons_self
    · exact List.mem_cons_of_mem _ (keep_sub (List.mem_filter.1 h).1)

theorem keep_nodup : ∀ vs : List V, ((keep vs).map Prod.fst).Nodup
  | [] => by simp [keep]
  | v :: vs => by
    simp only [keep, List.map_cons, List.nodup_cons]
    refine ⟨?_, ?_⟩
    · intro h
      obtain ⟨w, hw, e⟩ := List.mem_map.1 h
      simpa [e] using (List.mem_filter.1 hw).2
    · exact (keep_nodup vs).sublist (List.filter_sublist.map _)

theorem keep_find : ∀ (vs : List V) (v : V), v ∈ keep vs → vs.find? (fun w => decide (w.1 = v.1)) = some v
  | [], v, h => by cases h
  | w :: ws, v, h => by
    rcases List.mem_cons.1 h with rfl | h
    · simp
    · obtain ⟨h, hne⟩ := List.mem_filter.1 h
      have hne : ¬ w.1 = v.1 := fun e => by simp [e] at hne
      simpa [List.find?_cons, hne] using keep_find ws v h

theorem keep_names : ∀ (vs : List V) (n : String), n ∈ (keep vs).map Prod.fst ↔ n ∈ vs.map Prod.fst
  | [], n => by simp [keep]
  | v :: vs, n => by
    have ih := keep_names vs n
    simp only [keep, List.map_cons, List.mem_cons]
    constructor
    · rintro (h | h)
      · exact .inl h
      · obtain ⟨w, hw, e⟩ := List.mem_map.1 h
        exact .inr (ih.1 (List.mem_map.2 ⟨w, (List.mem_filter.1 hw).1, e⟩))
    · rintro (h | h)
      · exact .inl h
      · by_cases he : n = v.1
        · exact .inl he
        · obtain ⟨w, hw, e⟩ := List.mem_map.1 (ih.2 h)
          exact .inr (List.mem_map.2 ⟨w, List.mem_filter.2 ⟨hw, by simpa [e] using he⟩, e⟩)

theorem insertVar_perm (x : V) : ∀ ys, (insertVar x ys).Perm (x :: ys)
  | [] => .refl _
  | y :: ys => by
    unfold insertVar
    split
    · exact .refl _
    · exact ((insertVar_perm x ys).cons y).trans (.swap _ _ _)

theorem sortVars_perm : ∀ xs, (sortVars xs).Perm xs
  | [] => .refl _
  | x :: xs => (insertVar_perm x _).trans ((sortVars_perm xs).cons x)

theorem insertVar_le (x : V) : ∀ {ys : List V}, ys.Pairwise (fun a b => a.1 ≤ b.1) → (insertVar x ys).Pairwise (fun a b => a.1 ≤ b.1)
  | [], _ => by simp [insertVar]
  | y :: ys, h => by
    unfold insertVar
    obtain ⟨h1, h2⟩ := List.pairwise_cons.1 h
    split
    · rename_i hle
      refine List.pairwise_cons.2 ⟨fun a ha => ?_, h⟩
      rcases List.mem_cons.1 ha with rfl | ha
      · exact hle
      · exact String.le_trans hle (h1 a ha)
    · rename_i hle
      refine List.pairwise_cons.2 ⟨fun a ha => ?_, insertVar_le x h2⟩
      rcases List.mem_cons.1 ((insertVar_perm x ys).mem_iff.1 ha) with rfl | ha
      · exact (String.le_total _ _).resolve_left hle
      · exact h1 a ha

theorem sortVars_le : ∀ xs : List V, (sortVars xs).Pairwise (fun a b => a.1 ≤ b.1)
  | [] => .nil
  | x :: xs => insertVar_le x (sortVars_le xs)

theorem lt_of_le_ne {a b : String} (h : a ≤ b) (hne : a ≠ b) : a < b := String.not_le.1 fun h' => hne (String.le_antisymm h h')

theorem argsOf_perm {ord : List V → List V} (hord : ∀ l, (ord l).Perm l) (r m : List V) (l : V) : (argsOf ord r m l).Perm (keep (r ++ m ++ [l])) :=
  (sortVars_perm _).trans (hord _)

theorem argsOf_lt {ord : List V → List V} (hord : ∀ l, (ord l).Perm l) (r m : List V) (l : V) :
    (argsOf ord r m l).Pairwise (fun a b => a.1 < b.1) := by
  have h1 := sortVars_le (ord (keep (r ++ m ++ [l])))
  have h2 : ((argsOf ord r m l).map Prod.fst).Nodup := ((argsOf_perm hord r m l).map Prod.fst).nodup_iff.2 (keep_nodup _)
  have h3 := List.pairwise_map.1 h2
  exact h1.imp₂ (fun _ _ h h' => lt_of_le_ne h h') h3

theorem argsOf_ord {o1 o2 : List V → List V} (h1 : ∀ l, (o1 l).Perm l) (h2 : ∀ l, (o2 l).Perm l) (r m : List V) (l : V) :
    argsOf o1 r m l = argsOf o2 r m l :=
  ((argsOf_perm h1 r m l).trans (argsOf_perm h2 r m l).symm).eq_of_pairwise
    (fun _ _ _ _ h h' => absurd (String.lt_trans h h') (String.lt_irrefl _)) (argsOf_lt h1 r m l) (argsOf_lt h2 r m l)

theorem getInvArgs_at (ord : List V → List V) (L : LoopInfo) (k : Nat) (hk : k < loops L) :
    (getInvArgs ord L)[k]? = some (sortVars (ord (keep (declared L k)))) := by
  cases L with
  | single l r m =>
    have : k = 0 := by simp [loops] at hk; omega
    subst this
    rfl
  | double o i ro ri mo mi =>
    have : k = 0 ∨ k = 1 := by simp [loops] at hk; omega
    rcases this with rfl | rfl <;> rfl

/-- C76: the arguments of the invariant of a loop are its read variables, its modified variables and its counter, each once, in the order of their names,
each with the type with which it is declared first. -/
theorem C76_arguments (ord : List V → List V) (hord : ∀ l, (ord l).Perm l) (L : LoopInfo) (k : Nat) (hk : k < loops L) :
    ∃ as, (getInvArgs ord L)[k]? = some as ∧ as.Pairwise (fun a b => a.1 < b.1) ∧
      (∀ n, n ∈ as.map Prod.fst ↔ n ∈ (declared L k).map Prod.fst) ∧
      ∀ a ∈ as, (declared L k).find? (fun w => decide (w.1 = a.1)) = some a := by
  refine ⟨_, getInvArgs_at ord L k hk, ?_, fun n => ?_, fun a ha => ?_⟩
  · have h1 := sortVars_le (ord (keep (declared L k)))
    have h2 : ((sortVars (ord (keep (declared L k)))).map Prod.fst).Nodup :=
      (((sortVars_perm _).trans (hord _)).map Prod.fst).nodup_iff.2 (keep_nodup _)
    exact h1.imp₂ (fun _ _ h h' => lt_of_le_ne h h') (List.pairwise_map.1 h2)
  · rw [(((sortVars_perm _).trans (hord _)).map Prod.fst).mem_iff, keep_names]
  · exact keep_find _ _ (((sortVars_perm _).trans (hord _)).mem_iff.1 ha)

/-- C76: the arguments do not depend on the order in which Python lists a set. -/
theorem C76_order (o1 o2 : List V → List V) (h1 : ∀ l, (o1 l).Perm l) (h2 : ∀ l, (o2 l).Perm l) (L : LoopInfo) :
    getInvArgs o1 L = getInvArgs o2 L := by
  cases L with
  | single l r m => simp only [getInvArgs, argsOf_ord h1 h2]
  | double o i ro ri mo mi => simp only [getInvArgs, argsOf_ord h1 h2]

/-! ### Templates -/

/-- Characters of the texts of types. -/
def TyChar (c : Char) : Prop := c ≠ ':' ∧ c ≠ '(' ∧ c ≠ ')'

theorem mem_intercalate {s : List Char} {c : Char} : ∀ {ls : List (List Char)}, c ∈ s.intercalate ls → c ∈ s ∨ ∃ l ∈ ls, c ∈ l
  | [], h => by simp [List.intercalate] at h
  | [l], h => by
    simp [List.intercalate] at h
    exact .inr ⟨l, by simp, h⟩
  | l :: l' :: ls, h => by
    have e : s.intercalate (l :: l' :: ls) = l ++ s ++ s.intercalate (l' :: ls) := by simp [List.intercalate]
    rw [e] at h
    simp only [List.mem_append] at h
    rcases h with (h | h) | h
    · exact .inr ⟨l, by simp, h⟩
    · exact .inl h
    · rcases mem_intercalate h with h | ⟨x, hx, h⟩
      · exact .inl h
      · exact .inr ⟨x, List.mem_cons_of_mem _ hx, h⟩

mutual
theorem tyStr_chars : ∀ (t : Ty) (s : List Char), tyStr t = some s → ∀ c ∈ s, TyChar c
  | .int, s, h, c, hc => by
    simp only [tyStr, Option.some.injEq] at h
    subst h
    revert c
    unfold TyChar
    decide +kernel
  | .bool, s, h, c, hc => by
    simp only [tyStr, Option.some.injEq] at h
    subst h
    revert c
    unfold TyChar
    decide +kernel
  | .list t, s, h, c, hc => by
    simp only [tyStr, Option.bind_eq_bind, Option.bind_eq_some_iff, Option.some.injEq] at h
    obtain ⟨u, hu, rfl⟩ := h
    simp only [List.mem_append] at hc
    rcases hc with (hc | hc) | hc
    · revert c
      unfold TyChar
      decide +kernel
    · exact tyStr_chars t u hu c hc
    · revert c
      unfold TyChar
      decide +kernel
  | .fn [], s, h, c, hc => by simp [tyStr] at h
  | .fn (r :: as), s, h, c, hc => by
    simp only [tyStr, Option.bind_eq_bind, Option.bind_eq_some_iff, Option.some.injEq] at h
    obtain ⟨u, hu, us, hus, rfl⟩ := h
    simp only [List.mem_append] at hc
    rcases hc with (((hc | hc) | hc) | hc) | hc
    · revert c
      unfold TyChar
      decide +kernel
    · rcases mem_intercalate hc with hc | ⟨l, hl, hc⟩
      · exact (by unfold TyChar; decide +kernel : ∀ c ∈ ", ".toList, TyChar c) c hc
      · exact tyStrs_chars as us hus l hl c hc
    · revert c
      unfold TyChar
      decide +kernel
    · exact tyStr_chars r u hu c hc
    · revert c
      unfold TyChar
      decide +kernel
  | .set t, s, h, c, hc => by simp [tyStr] at h
  | .tuple ts, s, h, c, hc => by simp [tyStr] at h
theorem tyStrs_chars : ∀ (ts : List Ty) (ss : List (List Char)), tyStrs ts = some ss → ∀ s ∈ ss, ∀ c ∈ s, TyChar c
  | [], ss, h, s, hs, c, hc => by
    simp only [tyStrs, Option.some.injEq] at h
    subst h
    cases hs
  | t :: ts, ss, h, s, hs, c, hc => by
    simp only [tyStrs, Option.bind_eq_bind, Option.bind_eq_some_iff, Option.some.injEq] at h
    obtain ⟨u, hu, us, hus, rfl⟩ := h
    rcases List.mem_cons.1 hs with rfl | hs
    · exact tyStr_chars t _ hu c hc
    · exact tyStrs_chars ts us hus s hs c hc
end

theorem beforeColons_name : ∀ (n acc cs : List Char), (∀ c ∈ n, isWord c = true) → beforeColons acc (n ++ ':' :: cs) = (acc ++ n) :: beforeColons [] cs
  | [], acc, cs, _ => by simp [beforeColons]
  | c :: n, acc, cs, h => by
    have hc := h c List.mem_cons_self
    have hne : c ≠ ':' := fun e => by
      subst e
      exact absurd hc (by decide)
    simp only [List.cons_append, beforeColons, if_neg hne, if_pos hc]
    rw [beforeColons_name n _ cs (fun d hd => h d (List.mem_cons_of_mem _ hd))]
    simp

theorem beforeColons_space : ∀ (w acc cs : List Char), (∀ c ∈ w, c ≠ ':') → beforeColons acc (w ++ ' ' :: cs) = beforeColons [] cs
  | [], acc, cs, _ => by simp [beforeColons, show isWord ' ' = false by decide]
  | c :: w, acc, cs, h => by
    have ih := fun a => beforeColons_space w a cs (fun d hd => h d (List.mem_cons_of_mem _ hd))
    simp only [List.cons_append, beforeColons, if_neg (h c List.mem_cons_self), ih]
    split <;> rfl

theorem beforeColons_none : ∀ (w acc : List Char), (∀ c ∈ w, c ≠ ':') → beforeColons acc w = []
  | [], acc, _ => rfl
  | c :: w, acc, h => by
    have ih := fun a => beforeColons_none w a (fun d hd => h d (List.mem_cons_of_mem _ hd))
    simp only [beforeColons, if_neg (h c List.mem_cons_self), ih]
    split <;> rfl

theorem beforeColons_args : ∀ (as : List V) (ss : List (List Char)), argStrs as = some ss → (∀ a ∈ as, Ident a.1) →
    beforeColons [] (", ".toList.intercalate ss) = as.map fun a => a.1.toList
  | [], ss, h, _ => by
    simp only [argStrs, Option.some.injEq] at h
    subst h
    rfl
  | [a], ss, h, hi => by
    simp only [argStrs, argStr, Option.bind_eq_bind, Option.bind_eq_some_iff, Option.some.injEq] at h
    obtain ⟨u, ⟨t, ht, rfl⟩, us, rfl, rfl⟩ := h
    have e : ", ".toList.intercalate [a.1.toList ++ ": ".toList ++ t] = a.1.toList ++ ':' :: ([] ++ ' ' :: t) := by simp [List.intercalate]
    rw [e, beforeColons_name _ _ _ (hi a (by simp)), beforeColons_space _ _ _ (by simp), beforeColons_none _ _ (fun c hc => (tyStr_chars _ _ ht c hc).1)]
    simp
  | a :: b :: as, ss, h, hi => by
    rw [argStrs] at h
    simp only [argStr, Option.bind_eq_bind, Option.bind_eq_some_iff, Option.some.injEq] at h
    obtain ⟨u, ⟨t, ht, rfl⟩, us, hus, rfl⟩ := h
    have ih := beforeColons_args (b :: as) us hus (fun x hx => hi x (List.mem_cons_of_mem _ hx))
    obtain ⟨s', us', rfl⟩ : ∃ s' us', us = s' :: us' := by
      simp only [argStrs, Option.bind_eq_bind, Option.bind_eq_some_iff, Option.some.injEq] at hus
      obtain ⟨x, _, y, _, rfl⟩ := hus
      exact ⟨_, _, rfl⟩
    have e : ", ".toList.intercalate ((a.1.toList ++ ": ".toList ++ t) :: s' :: us') =
        a.1.toList ++ ':' :: ([] ++ ' ' :: ((t ++ [',']) ++ ' ' :: ", ".toList.intercalate (s' :: us'))) := by simp [List.intercalate]
    rw [e, beforeColons_name _ _ _ (hi a (by simp)), beforeColons_space _ _ _ (by simp), beforeColons_space, ih]
    · simp
    · intro c hc
      rcases List.mem_append.1 hc with hc | hc
      · exact (tyStr_chars _ _ ht c hc).1
      · simp at hc
        subst hc
        decide

theorem argStrs_chars : ∀ (as : List V) (ss : List (List Char)), argStrs as = some ss → (∀ a ∈ as, Ident a.1) → ∀ s ∈ ss, ∀ c ∈ s, c ≠ ')'
  | [], ss, h, _, s, hs, c, hc => by
    simp only [argStrs, Option.some.injEq] at h
    subst h
    cases hs
  | a :: as, ss, h, hi, s, hs, c, hc => by
    rw [argStrs] at h
    simp only [argStr, Option.bind_eq_bind, Option.bind_eq_some_iff, Option.some.injEq] at h
    obtain ⟨u, ⟨t, ht, rfl⟩, us, hus, rfl⟩ := h
    rcases List.mem_cons.1 hs with rfl | hs
    · simp only [List.mem_append] at hc
      rcases hc with (hc | hc) | hc
      · intro e
        subst e
        exact absurd (hi a (by simp) _ hc) (by decide)
      · revert c
        decide +kernel
      · exact (tyStr_chars _ _ ht c hc).2.2
    · exact argStrs_chars as us hus (fun x hx => hi x (List.mem_cons_of_mem _ hx)) s hs c hc

theorem dropWhile_until {p : Char → Bool} {c : Char} (hc : p c = false) : ∀ (w cs : List Char), (∀ d ∈ w, p d = true) → (w ++ c :: cs).dropWhile p = c :: cs
  | [], cs, _ => by simp [hc]
  | d :: w, cs, h => by
    simp only [List.cons_append, List.dropWhile, h d List.mem_cons_self]
    exact dropWhile_until hc w cs fun x hx => h x (List.mem_cons_of_mem _ hx)

theorem takeWhile_until {p : Char → Bool} {c : Char} (hc : p c = false) : ∀ (w cs : List Char), (∀ d ∈ w, p d = true) → (w ++ c :: cs).takeWhile p = w
  | [], cs, _ => by simp [hc]
  | d :: w, cs, h => by
    simp only [List.cons_append, List.takeWhile, h d List.mem_cons_self]
    rw [takeWhile_until hc w cs fun x hx => h x (List.mem_cons_of_mem _ hx)]

theorem template_params {name : String} {as : List V} {over : List Char} {mods : List V} {t : List Char} (hn : Ident name) (hi : ∀ a ∈ as, Ident a.1)
    (h : template name as over mods = some t) : params t = as.map Prod.fst := by
  simp only [template, Option.bind_eq_bind, Option.bind_eq_some_iff, Option.some.injEq] at h
  obtain ⟨ss, hss, rfl⟩ := h
  have e : "\ndef ".toList ++ name.toList ++ "(".toList ++ ", ".toList.intercalate ss ++ ") -> bool:\n    return expression over loop index variable ".toList ++
      over ++ " and ".toList ++ condStr mods ++ "\n".toList = ("\ndef ".toList ++ name.toList) ++ '(' :: (", ".toList.intercalate ss ++ ')' ::
        (" -> bool:\n    return expression over loop index variable ".toList ++ over ++ " and ".toList ++ condStr mods ++ "\n".toList)) := by simp
  rw [e, params, dropWhile_until (by decide)]
  · rw [List.drop_succ_cons, List.drop_zero, takeWhile_until (by decide), beforeColons_args as ss hss hi, List.map_map]
    · apply List.map_congr_left
      intro a _
      simp
    · intro d hd
      rcases mem_intercalate hd with hd | ⟨s, hs, hd⟩
      · exact (by decide +kernel : ∀ d ∈ ", ".toList, decide (d ≠ ')') = true) d hd
      · simpa using argStrs_chars as ss hss hi s hs d hd
  · intro d hd
    rcases List.mem_append.1 hd with hd | hd
    · exact (by decide +kernel : ∀ d ∈ "\ndef ".toList, decide (d ≠ '(') = true) d hd
    · have := hn d hd
      have hne : d ≠ '(' := fun e => by
        subst e
        exact absurd this (by decide)
      simpa using hne

/-- C76: a template shows the name under which the invariant is asked for and, as parameters, the names of its arguments in their order. -/
theorem C76_template (ord : List V → List V) (hord : ∀ l, (ord l).Perm l) (L : LoopInfo) (ts : List (List Char)) (h : templates ord L = some ts) (k : Nat)
    (hk : k < loops L) (hi : ∀ v ∈ declared L k, Ident v.1) :
    ∃ t as, ts[k]? = some t ∧ (getInvArgs ord L)[k]? = some as ∧ params t = as.map Prod.fst ∧
      ("\ndef " ++ asked L k ++ "(").toList <+: t := by
  have hid : ∀ a ∈ sortVars (ord (keep (declared L k))), Ident a.1 := fun a ha =>
    hi a (keep_sub (((sortVars_perm _).trans (hord _)).mem_iff.1 ha))
  have hpre : ∀ {name : String} {as : List V} {over : List Char} {mods : List V} {t : List Char}, template name as over mods = some t →
      ("\ndef " ++ name ++ "(").toList <+: t := by
    intro name as over mods t h
    simp only [template, Option.bind_eq_bind, Option.bind_eq_some_iff, Option.some.injEq] at h
    obtain ⟨ss, -, rfl⟩ := h
    simp only [String.toList_append, List.append_assoc]
    exact ⟨_, by simp only [List.append_assoc]; rfl⟩
  cases L with
  | single l r m =>
    have : k = 0 := by simp [loops] at hk; omega
    subst this
    simp only [templates, Option.bind_eq_bind, Option.bind_eq_some_iff, Option.some.injEq] at h
    obtain ⟨t, ht, rfl⟩ := h
    exact ⟨t, _, rfl, rfl, template_params (by unfold Ident; decide +kernel) hid ht, hpre ht⟩
  | double o i ro ri mo mi =>
    simp only [templates, Option.bind_eq_bind, Option.bind_eq_some_iff, Option.some.injEq] at h
    obtain ⟨t1, ht1, t2, ht2, rfl⟩ := h
    have : k = 0 ∨ k = 1 := by simp [loops] at hk; omega
    rcases this with rfl | rfl
    · exact ⟨t1, _, rfl, rfl, template_params (by unfold Ident; decide +kernel) hid ht1, hpre ht1⟩
    · exact ⟨t2, _, rfl, rfl, template_params (by unfold Ident; decide +kernel) hid ht2, hpre ht2⟩

/-! ### Arguments in the verification condition -/

theorem visits_mem {gs : List (String × Grammar)} {fnArgs : List V} {v : Visit} {oe : Option Expr} {g : Grammar} (hg : gs.lookup v.name = some g) (hs : g.inScope = [])
    (ho : g.override ≠ []) : ∀ (vs : List Visit) (T : Preds), (∀ p, T.lookup v.name = some p → p = g.override) → (v, oe) ∈ visits gs fnArgs T vs →
    oe = (g.override.mapM fun o => v.st.readVar o.1).map (mkCall v.name .bool)
  | [], T, _, h => by cases h
  | w :: vs, T, hT, h => by
    have key : w.name = v.name → (visit gs fnArgs T w).1 = (g.override.mapM fun o => w.st.readVar o.1).map (mkCall w.name .bool) ∧
        (visit gs fnArgs T w).2.lookup v.name = some g.override := by
      intro e
      have hf : (w.scope.filter fun o => decide (o.1 ∈ g.inScope)) = [] := by simp [hs]
      simp only [visit, e, hg, hf, if_neg ho, invariant]
      cases hl : T.lookup v.name with
      | some p => simp [hT p hl, hl]
      | none => simp [subVars, keep, sortVars]
    rcases List.mem_cons.1 h with h | h
    · obtain ⟨rfl, rfl⟩ := Prod.mk.inj h
      exact (key rfl).1
    · refine visits_mem hg hs ho vs _ (fun p hp => ?_) h
      by_cases e : w.name = v.name
      · rw [(key e).2] at hp
        exact (Option.some.inj hp).symm
      · have hn : ∀ args scope, (invariant T w.name args scope).2.lookup v.name = T.lookup v.name := by
          intro args scope
          unfold invariant
          split
          · rfl
          · have : (v.name == w.name) = false := by simpa using fun h => e h.symm
            simp [List.lookup_cons, this]
        simp only [visit, hn] at hp
        exact hT p hp

theorem zip_lookup {I : Interp} {σ : Env} {ρ : List (String × String)} {st : Ll.St} : ∀ (as : List V) (es : List Expr),
    ((replaceArgs ρ as).mapM fun o => st.readVar o.1) = some es →
    fnEnv (as.map Prod.fst) (es.map (eval I σ)) = stateEnv I σ ρ st (as.map Prod.fst) ∧
      es.map (eval I σ) = (as.map Prod.fst).map (stateEnv I σ ρ st (as.map Prod.fst)) := by
  have main : ∀ (as : List V) (es : List Expr), ((replaceArgs ρ as).mapM fun o => st.readVar o.1) = some es →
      (∀ x, ((as.map Prod.fst).zip (es.map (eval I σ))).lookup x = if x ∈ as.map Prod.fst then (st.readVar (rename ρ x)).map (eval I σ) else none) ∧
      es.map (eval I σ) = as.map fun a => ((st.readVar (rename ρ a.1)).map (eval I σ)).getD (.fn a.1) := by
    intro as
    induction as with
    | nil =>
      intro es h
      simp [replaceArgs] at h
      subst h
      simp
    | cons a as ih =>
      intro es h
      simp only [replaceArgs, List.map_cons, List.mapM_cons, Option.bind_eq_bind, Option.pure_def, Option.bind_eq_some_iff, Option.some.injEq] at h
      obtain ⟨e, he, es', hes, rfl⟩ := h
      obtain ⟨h1, h2⟩ := ih es' hes
      refine ⟨fun x => ?_, by simp [h2, he]⟩
      simp only [List.map_cons, List.zip_cons_cons, List.lookup_cons, h1]
      by_cases hx : x = a.1
      · subst hx
        simp [he]
      · have : (x == a.1) = false := by simpa using hx
        simp only [this, List.mem_cons, hx, false_or]
  intro as es h
  obtain ⟨h1, h2⟩ := main as es h
  refine ⟨funext fun x => ?_, ?_⟩
  · simp only [fnEnv, h1, stateEnv]
    split
    · rfl
    · rfl
  · rw [h2, List.map_map]
    apply List.map_congr_left
    intro a ha
    have : a.1 ∈ as.map Prod.fst := List.mem_map_of_mem ha
    simp [stateEnv, this]

/-- The name of an invariant in the verification condition. -/
def invName (fn : String) (k : Nat) : String := fn ++ "_inv" ++ toString k

theorem name_ne (fn : String) : (fn ++ "_inv1" == fn ++ "_inv0") = false := by simp

theorem driver_lookup (ord : List V → List V) (fn : String) (ρ : List (String × String)) (L : LoopInfo) (k : Nat) (hk : k < loops L) :
    (driverGrammars ord fn ρ L).lookup (invName fn k) = some ⟨[], replaceArgs ρ (sortVars (ord (keep (declared L k))))⟩ := by
  have e0 : invName fn 0 = fn ++ "_inv0" := by
    rw [invName, String.append_assoc]
    rfl
  have e1 : invName fn 1 = fn ++ "_inv1" := by
    rw [invName, String.append_assoc]
    rfl
  cases L with
  | single l r m =>
    have : k = 0 := by simp [loops] at hk; omega
    subst this
    simp [e0, driverGrammars, getInvArgs, argsOf, declared]
  | double o i ro ri mo mi =>
    have : k = 0 ∨ k = 1 := by simp [loops] at hk; omega
    rcases this with rfl | rfl
    · simp [e0, driverGrammars, getInvArgs, argsOf, declared]
    · simp [e1, driverGrammars, getInvArgs, argsOf, declared, List.lookup_cons, name_ne]

theorem process_asked (fn : String) (out : String × Ty) (d : FnDecl) (L : LoopInfo) (k : Nat) (hk : k < loops L) (hd : d.name = asked L k) :
    process fn out d = { d with name := invName fn k } := by
  have e0 : invName fn 0 = fn ++ "_inv0" := by
    rw [invName, String.append_assoc]
    rfl
  have e1 : invName fn 1 = fn ++ "_inv1" := by
    rw [invName, String.append_assoc]
    rfl
  have n0 : ∀ s : String, s.toList.length = 5 → fn ++ s ≠ fn := fun s hs h => by
    have := congrArg (fun x => x.toList.length) h
    simp only [String.toList_append, List.length_append, hs] at this
    omega
  have n1 : ∀ s t : String, s.toList.getLast? ≠ t.toList.getLast? → s ≠ "" → fn ++ s ≠ t := fun s t hs hne h => by
    have := congrArg (fun x => x.toList.getLast?) h
    simp only [String.toList_append] at this
    rw [List.getLast?_append_of_ne_nil _ (by simpa using hne)] at this
    exact hs this
  cases L with
  | single l r m =>
    have : k = 0 := by simp [loops] at hk; omega
    subst this
    simp only [asked] at hd
    simp only [process, hd, if_pos, e0]
    rw [if_neg (n1 "_inv0" "invariant1" (by decide +kernel) (by decide)), if_neg (n1 "_inv0" "invariant2" (by decide +kernel) (by decide)),
      if_neg (n0 "_inv0" (by decide +kernel))]
  | double o i ro ri mo mi =>
    have : k = 0 ∨ k = 1 := by simp [loops] at hk; omega
    rcases this with rfl | rfl
    · simp only [asked] at hd
      simp only [process, hd, if_pos, if_neg (show ¬ "invariant1" = "invariant" by decide), e0]
      rw [if_neg (n1 "_inv0" "invariant2" (by decide +kernel) (by decide)), if_neg (n0 "_inv0" (by decide +kernel))]
    · simp only [asked] at hd
      simp only [process, hd, if_pos, if_neg (show ¬ "invariant2" = "invariant" by decide), if_neg (show ¬ "invariant2" = "invariant1" by decide), e1]
      rw [if_neg (n0 "_inv1" (by decide +kernel))]

/-- C76: suppose that a driver passes the arguments of `get_inv_args` to the front end, with other names for some variables, and that an answer defines the invariant
under the name that is asked for, with the parameters that the template shows.  Then the call of the invariant at every point of the verification condition means the body of
the answer, where every parameter has the value that the program's variable has at this point. -/
theorem C76_binding_partial (ord : List V → List V) (hord : ∀ l, (ord l).Perm l) (L : LoopInfo) (ts : List (List Char)) (h : templates ord L = some ts)
    (k : Nat) (hk : k < loops L) (hi : ∀ v ∈ declared L k, Ident v.1) (t : List Char) (ht : ts[k]? = some t)
    (fn : String) (ρ : List (String × String)) (fnArgs : List V) (vs : List Visit) (v : Visit) (e : Expr) (hn : v.name = invName fn k)
    (hv : (v, some e) ∈ visits (driverGrammars ord fn ρ L) fnArgs [] vs)
    (d : FnDecl) (b : Expr) (hd : d.name = asked L k) (hp : d.params.map Prod.fst = params t) (hb : d.body = some b)
    (out : String × Ty) (I : Interp) (hI : DeclHolds I (process fn out d)) (σ : Env)
    (hty : OfTys (d.params.map Prod.snd) ((params t).map (stateEnv I σ ρ v.st (params t)))) :
    eval I σ e = eval I (stateEnv I σ ρ v.st (params t)) b := by
  obtain ⟨t', as, ht', has, hpar, -⟩ := C76_template ord hord L ts h k hk hi
  have : t' = t := Option.some.inj (ht'.symm.trans ht)
  subst this
  have has' : as = sortVars (ord (keep (declared L k))) := Option.some.inj (has.symm.trans (getInvArgs_at ord L k hk))
  have hl := driver_lookup ord fn ρ L k hk
  rw [← hn, ← has'] at hl
  have hne : replaceArgs ρ as ≠ [] := by
    intro h0
    have h0 : as = [] := by simpa [replaceArgs] using h0
    have hperm := (sortVars_perm (ord (keep (declared L k)))).trans (hord _)
    rw [← has', h0] at hperm
    have h1 := hperm.symm.eq_nil
    cases L with
    | single l r m =>
      have : k = 0 := by simp [loops] at hk; omega
      subst this
      have := (keep_names (declared (.single l r m) 0) l.1).2 (by simp [declared])
      rw [h1] at this
      cases this
    | double o i ro ri mo mi =>
      have : k = 0 ∨ k = 1 := by simp [loops] at hk; omega
      rcases this with rfl | rfl
      · have := (keep_names (declared (.double o i ro ri mo mi) 0) o.1).2 (by simp [declared])
        rw [h1] at this
        cases this
      · have := (keep_names (declared (.double o i ro ri mo mi) 1) i.1).2 (by simp [declared])
        rw [h1] at this
        cases this
  have hcall := visits_mem hl rfl hne vs [] (by simp) hv
  obtain ⟨es, hes, he⟩ := Option.map_eq_some_iff.1 hcall.symm
  obtain ⟨z1, z2⟩ := zip_lookup (I := I) (σ := σ) as es hes
  rw [process_asked fn out d L k hk hd] at hI
  have hI := hI (es.map (eval I σ)) (by rw [z2, ← hpar]; exact hty) b hb
  simp only at hI
  rw [hp, hpar, z1, ← hn] at hI
  rw [← he, hpar, ← hI]
  simp only [mkCall, eval, evalOp, evals_eq_map]

/-! ### The program with assertions -/

/-- A text in which `return` does not occur as a word when it comes after the character `prev`. -/
def NoReturn (prev : Option Char) (t : List Char) : Prop :=
  ∀ u v, t = u ++ "return".toList ++ v → (u.getLast?.or prev).any isWord = true ∨ v.head?.any isWord = true

/-- A piece of code before a statement `return`: it has no such statement and ends at the end of a word. -/
def Gap (prev : Option Char) (t : List Char) : Prop := NoReturn prev t ∧ ∀ c, t.getLast? = some c → isWord c = false

/-- A returned expression: on one line, without semicolon, separated from `return`. -/
def Returned (e : List Char) : Prop := ';' ∉ e ∧ '\n' ∉ e ∧ ∀ c, e.head? = some c → isWord c = false

/-- A program: pieces of code and returned expressions, then the rest. -/
def code : List (List Char × List Char) → List Char → List Char
  | [], last => last
  | (t, e) :: ps, last => t ++ "return".toList ++ e ++ ";".toList ++ code ps last

/-- The program with an assertion in the place of every statement `return`. -/
def asserted (a : List Char) : List (List Char × List Char) → List Char → List Char
  | [], last => last
  | (t, _) :: ps, last => t ++ "assert ".toList ++ a ++ ";".toList ++ asserted a ps last

/-- The pieces are as required; a piece other than the first comes after a semicolon. -/
def Plain : Option Char → List (List Char × List Char) → List Char → Prop
  | prev, [], last => NoReturn prev last
  | prev, (t, e) :: ps, last => Gap prev t ∧ Returned e ∧ Plain (some ';') ps last

theorem upto_plain : ∀ (e rest : List Char), ';' ∉ e → '\n' ∉ e → upto (e ++ ';' :: rest) = some rest
  | [], rest, _, _ => by simp [upto]
  | c :: e, rest, h1, h2 => by
    simp only [List.mem_cons, not_or] at h1 h2
    simp only [List.cons_append, upto, if_neg (fun h => h1.1 (Eq.symm h)), if_neg (fun h => h2.1 (Eq.symm h))]
    exact upto_plain e rest h1.2 h2.2

theorem last_or (c : Char) (w : List Char) (p : Option Char) : (c :: w).getLast?.or p = w.getLast?.or (some c) := by
  rw [List.getLast?_cons]
  cases w.getLast? <;> rfl

theorem subFrom_skip (a : List Char) : ∀ (w : List Char) (p : Option Char) (rest : List Char), subFrom a w.length p (w ++ rest) = subFrom a 0 (w.getLast?.or p) rest
  | [], p, rest => by simp
  | c :: w, p, rest => by
    simp only [List.length_cons, List.cons_append, subFrom, subFrom_skip a w, last_or]

/-- No match starts in a piece of code. -/
theorem hit_gap {prev : Option Char} {t rest : List Char} (hne : t ≠ []) (hn : NoReturn prev t) (hl : rest = [] ∨ ∀ c, t.getLast? = some c → isWord c = false) :
    hit prev (t ++ rest) = none := by
  unfold hit
  split
  · rfl
  · rename_i hp
    split
    · rename_i hpre
      obtain ⟨v, hv⟩ := List.isPrefixOf_iff_prefix.1 hpre
      have hd : (t ++ rest).drop 6 = v := by rw [← hv]; rfl
      rcases List.append_eq_append_iff.1 hv with ⟨w, h1, h2⟩ | ⟨w, h1, h2⟩
      · have h3 := hn [] w (by rw [h1]; rfl)
        rcases h3 with h3 | h3
        · simp at h3
          simp [h3] at hp
        · rw [hd, h2]
          have : (w ++ rest).head?.any isWord = true := by
            cases w with
            | nil => simp at h3
            | cons c w => simpa using h3
          rw [if_pos this]
      · by_cases hw : w = []
        · subst hw
          rcases hl with rfl | hl
          · simp at h2
            rw [hd, h2]
            simp [upto]
          · exfalso
            simp at h1
            have := hl 'n' (by rw [← h1]; rfl)
            exact absurd this (by decide)
        · exfalso
          rcases hl with rfl | hl
          · cases w with
            | nil => exact hw rfl
            | cons c w => simp at h2
          · have hmem : ∀ c ∈ "return".toList, isWord c = true := by decide +kernel
            obtain ⟨c, hc⟩ : ∃ c, t.getLast? = some c := by
              cases h : t.getLast? with
              | none => exact absurd (List.getLast?_eq_none_iff.1 h) hne
              | some c => exact ⟨c, rfl⟩
            have h4 := hmem c (by rw [h1]; exact List.mem_append_left _ (List.mem_of_getLast? hc))
            rw [hl c hc] at h4
            cases h4
    · rfl

theorem NoReturn.tail {prev : Option Char} {c : Char} {t : List Char} (h : NoReturn prev (c :: t)) : NoReturn (some c) t := by
  intro u v e
  rcases h (c :: u) v (by rw [e]; rfl) with h | h
  · exact .inl (by rwa [last_or] at h)
  · exact .inr h

theorem subFrom_gap (a : List Char) : ∀ (t : List Char) (prev : Option Char) (rest : List Char), NoReturn prev t →
    (rest = [] ∨ ∀ c, t.getLast? = some c → isWord c = false) → subFrom a 0 prev (t ++ rest) = t ++ subFrom a 0 (t.getLast?.or prev) rest
  | [], prev, rest, _, _ => by simp
  | c :: t, prev, rest, hn, hl => by
    have hh := hit_gap (rest := rest) (by simp) hn hl
    rw [List.cons_append] at hh
    rw [List.cons_append, subFrom, hh]
    simp only [List.cons_append, List.cons.injEq, true_and]
    rw [subFrom_gap a t (some c) rest hn.tail (hl.imp id fun hl d hd => hl d (by cases t with
      | nil => cases hd
      | cons e t => rw [List.getLast?_cons_cons]; exact hd)), last_or]

theorem subFrom_code (a : List Char) : ∀ (ps : List (List Char × List Char)) (last : List Char) (prev : Option Char), prev.any isWord = false →
    Plain prev ps last → subFrom ("assert ".toList ++ a ++ ";".toList) 0 prev (code ps last) = asserted a ps last
  | [], last, prev, hp, h => by
    have := subFrom_gap ("assert ".toList ++ a ++ ";".toList) last prev [] h (.inl rfl)
    simpa [code, asserted, subFrom] using this
  | (t, e) :: ps, last, prev, hp, ⟨⟨hg1, hg2⟩, ⟨he1, he2, he3⟩, h⟩ => by
    have e1 : code ((t, e) :: ps) last = t ++ ('r' :: ("eturn".toList ++ e ++ [';'] ++ code ps last)) := by
      simp [code]
    have hprev : (t.getLast?.or prev).any isWord = false := by
      cases hl : t.getLast? with
      | none => simpa using hp
      | some c => simpa using hg2 c hl
    have hh : hit (t.getLast?.or prev) ('r' :: ("eturn".toList ++ e ++ [';'] ++ code ps last)) = some (code ps last) := by
      have hd : List.drop 6 ('r' :: ("eturn".toList ++ e ++ [';'] ++ code ps last)) = e ++ ';' :: code ps last := by simp
      have hpre : "return".toList.isPrefixOf ('r' :: ("eturn".toList ++ e ++ [';'] ++ code ps last)) = true :=
        List.isPrefixOf_iff_prefix.2 ⟨e ++ ';' :: code ps last, by simp⟩
      have hhd : ((e ++ ';' :: code ps last).head?.any isWord) = false := by
        cases e with
        | nil => simp; decide
        | cons c e => simpa using he3 c rfl
      simp only [hit, hprev, hpre, hd, hhd, if_pos, Bool.false_eq_true, if_false, upto_plain e _ he1 he2]
    rw [e1, subFrom_gap _ t prev _ hg1 (.inr hg2), subFrom, hh]
    have hlen : ("eturn".toList ++ e ++ [';'] ++ code ps last).length - (code ps last).length = ("eturn".toList ++ e ++ [';']).length := by
      rw [List.length_append]
      omega
    simp only [hlen, subFrom_skip]
    have hlast : ("eturn".toList ++ e ++ [';']).getLast?.or (some 'r') = some ';' := by
      rw [List.getLast?_append_of_ne_nil _ (by simp)]
      rfl
    rw [hlast, subFrom_code a ps last (some ';') (by decide) h]
    simp [asserted]

/-- C76: in a program whose statements `return` are each on one line, without semicolon in the expression, every such statement becomes the assertion, and nothing else changes. -/
theorem C76_assert_partial (a : List Char) (ps : List (List Char × List Char)) (last : List Char) (h : Plain none ps last) :
    withAssert a (code ps last) = asserted a ps last :=
  subFrom_code a ps last none rfl h

end Metalift.Llm.Prompt
