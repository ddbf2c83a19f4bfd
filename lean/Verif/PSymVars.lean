import Verif.SymVars
import Verif.Names
/-
C24: the symbolic inputs generated for Rosette range over exactly the values of the bounded shape, and depend on nothing but the
quantified constants.
-/
namespace Metalift

/-! ### Specification -/

/-- The values a variable of the given type has to range over, for list bound `b`: integers and booleans are unrestricted; a list has at most
`b` elements; a matrix has at most `b` rows of exactly `b` elements each; a 3D tensor has at most `b` matrices of exactly `b` rows of
exactly `b` elements; a set is a strictly increasing list of at most `b` integers. -/
def Shaped (b : Nat) : VTy → Val → Prop
  | .int, v => ∃ i, v = .int i
  | .bool, v => ∃ i, v = .bool i
  | .list t, v => ∃ vs, v = .list vs ∧ vs.length ≤ b ∧ ∀ x ∈ vs, Shaped b t x
  | .matrix t, v => ∃ rows : List (List Val), v = .list (rows.map .list) ∧ rows.length ≤ b ∧
      ∀ r ∈ rows, r.length = b ∧ ∀ x ∈ r, Shaped b t x
  | .tensor3d t, v => ∃ ms : List (List (List Val)), v = .list (ms.map fun m => .list (m.map .list)) ∧ ms.length ≤ b ∧
      ∀ m ∈ ms, m.length = b ∧ ∀ r ∈ m, r.length = b ∧ ∀ x ∈ r, Shaped b t x
  | .set _, v => ∃ is : List Int, v = .list (is.map .int) ∧ is.length ≤ b ∧ is.Pairwise (· < ·)
  | .tuple _, _ => False
  | .fn _, _ => False

/-- The types `gen_var` handles: no tuples and functions, sets of integers only, and no matrices if the bound is one. -/
def VTy.Supported (b : Nat) : VTy → Prop
  | .int => True
  | .bool => True
  | .list t => t.Supported b
  | .set t => t = .int
  | .matrix t => 2 ≤ b ∧ t.Supported b
  | .tensor3d t => t.Supported b
  | .tuple _ => False
  | .fn _ => False

/-- The names declared symbolic. -/
def symNames : List RDecl → List String
  | [] => []
  | .symInt n :: ds => n :: symNames ds
  | .symBool n :: ds => n :: symNames ds
  | .define _ _ :: ds => symNames ds

/-! ### Names -/

/-- `m` is `n` or a name generated from it. -/
def Under (n m : String) : Prop := m = n ∨ ∃ r, m = n ++ "_BOUNDEDSET-" ++ r

/-- Split at the first character with a property. -/
theorem split_at {p : Char → Prop} : ∀ {a b d e : List Char}, (∀ c ∈ d, ¬ p c) → (∀ c ∈ e, ¬ p c) →
    (∀ c ∈ a.head?, p c) → (∀ c ∈ b.head?, p c) → d ++ a = e ++ b → d = e ∧ a = b
  | a, b, [], [], _, _, _, _, h => ⟨rfl, h⟩
  | a, b, [], c :: e, _, he, ha, _, h => by
    simp at h
    subst h
    exact absurd (ha c (by simp)) (he c (by simp))
  | a, b, c :: d, [], hd, _, _, hb, h => by
    simp at h
    subst h
    exact absurd (hb c (by simp)) (hd c (by simp))
  | a, b, c :: d, c' :: e, hd, he, ha, hb, h => by
    simp only [List.cons_append, List.cons.injEq] at h
    obtain ⟨rfl, h⟩ := h
    have := split_at (fun c hc => hd c (by simp [hc])) (fun c hc => he c (by simp [hc])) ha hb h
    exact ⟨by rw [this.1], this.2⟩

theorem Under.tail {n m : String} (h : Under n m) : ∃ s, m.toList = n.toList ++ s ∧ ∀ c ∈ s.head?, c = '_' := by
  rcases h with rfl | ⟨r, rfl⟩
  · exact ⟨[], by simp, by simp⟩
  · exact ⟨"_BOUNDEDSET-".toList ++ r.toList, by simp, by simp⟩

theorem Under.trans {n a m : String} (h : Under (n ++ "_BOUNDEDSET-" ++ a) m) : ∃ r, m = n ++ "_BOUNDEDSET-" ++ r := by
  rcases h with rfl | ⟨r, rfl⟩
  · exact ⟨_, rfl⟩
  · exact ⟨a ++ "_BOUNDEDSET-" ++ r, by simp [String.append_assoc]⟩

/-- Slots of one variable do not share names. -/
theorem slots_apart {n a a' m : String} (ha : '_' ∉ a.toList) (ha' : '_' ∉ a'.toList)
    (h : Under (n ++ "_BOUNDEDSET-" ++ a) m) (h' : Under (n ++ "_BOUNDEDSET-" ++ a') m) : a = a' := by
  obtain ⟨s, h1, h2⟩ := h.tail
  obtain ⟨s', h1', h2'⟩ := h'.tail
  rw [h1'] at h1
  simp only [String.toList_append, List.append_assoc, List.append_cancel_left_eq] at h1
  have := split_at (p := fun c => c = '_') (fun c hc he => ha' (he ▸ hc)) (fun c hc he => ha (he ▸ hc)) h2' h2 h1
  exact String.ext this.1.symm

/-- Variables without a dash in their names do not share names. -/
theorem vars_apart {x y m : String} (hx : '-' ∉ x.toList) (hy : '-' ∉ y.toList) (h : Under x m) (h' : Under y m) : x = y := by
  have key : ∀ {x : String}, '-' ∉ x.toList → ∀ c ∈ x.toList ++ "_BOUNDEDSET".toList, ¬ c = '-' := by
    intro x hx c hc he
    subst he
    rcases List.mem_append.1 hc with h | h
    · exact hx h
    · exact absurd h (by decide)
  have dash : ∀ (x r : String), (x ++ "_BOUNDEDSET-" ++ r).toList = (x.toList ++ "_BOUNDEDSET".toList) ++ '-' :: r.toList := by
    intro x r
    simp
  rcases h with rfl | ⟨r, rfl⟩
  · rcases h' with h' | ⟨r', h'⟩
    · exact h'
    · exfalso
      apply hx
      rw [h', dash]
      simp
  · rcases h' with h' | ⟨r', h'⟩
    · exfalso
      apply hy
      rw [← h', dash]
      simp
    · have h1 := congrArg String.toList h'
      rw [dash, dash] at h1
      have := split_at (p := fun c => c = '-') (key hx) (key hy) (by simp) (by simp) h1
      exact String.ext (List.append_cancel_right this.1)

theorem no_underscore_repr (i : Nat) : '_' ∉ i.repr.toList := fun h => absurd (repr_digits i _ h) (by decide)

theorem no_underscore_len : '_' ∉ "len".toList := by decide

theorem repr_ne_len (i : Nat) : "len" ≠ i.repr := by
  intro h
  have := repr_digits i 'l' (by rw [← h]; decide)
  exact absurd this (by decide)

/-! ### Blocks of definitions -/

/-- The names defined. -/
def defNames (ds : List RDecl) : List String := ds.map RDecl.name

theorem runDecls_append (σ : String → Val) : ∀ (ds ds' : List RDecl) (env : REnv),
    runDecls σ env (ds ++ ds') = (runDecls σ env ds).bind fun env' => runDecls σ env' ds'
  | [], ds', env => rfl
  | d :: ds, ds', env => by
    simp only [List.cons_append, runDecls]
    split
    · rfl
    · cases d.value σ env with
      | none => rfl
      | some v => exact runDecls_append σ ds ds' _

theorem run_one {σ : String → Val} {env env' : REnv} {d : RDecl} (h : runDecls σ env [d] = some env') :
    env d.name = none ∧ ∃ v, d.value σ env = some v ∧ env' = fun m => if m = d.name then some v else env m := by
  unfold runDecls at h
  by_cases hs : (env d.name).isSome = true
  · rw [if_pos hs] at h
    exact nomatch h
  · rw [if_neg hs, Option.bind_eq_some_iff] at h
    obtain ⟨v, hv, h⟩ := h
    injection h with h
    exact ⟨by simpa using hs, v, hv, h.symm⟩

/-- Definitions whose effect is to define each listed name with every value that has the listed property, and no other value. -/
structure Block (items : List (String × (Val → Prop))) (ds : List RDecl) (cs : List String) : Prop where
  consts : cs = symNames ds
  nodup : (defNames ds).Nodup
  owned : ∀ m ∈ defNames ds, ∃ it ∈ items, Under it.1 m
  sound : ∀ σ env env', runDecls σ env ds = some env' →
    (∀ m, m ∉ defNames ds → env' m = env m) ∧ (∀ m ∈ defNames ds, env m = none) ∧ ∀ it ∈ items, ∃ x, env' it.1 = some x ∧ it.2 x
  complete : ∀ xs, All2 (fun it x => it.2 x) items xs → ∃ τ : String → Val, ∀ σ, (∀ c ∈ cs, σ c = τ c) →
    ∀ env, (∀ m ∈ defNames ds, env m = none) →
      ∃ env', runDecls σ env ds = some env' ∧ All2 (fun it x => env' it.1 = some x) items xs
  mem : ∀ it ∈ items, it.1 ∈ defNames ds
  indep : ∀ σ σ', (∀ c ∈ cs, σ c = σ' c) → ∀ env, runDecls σ env ds = runDecls σ' env ds

theorem symNames_append : ∀ ds ds' : List RDecl, symNames (ds ++ ds') = symNames ds ++ symNames ds'
  | [], _ => rfl
  | .symInt n :: ds, ds' => by simp [symNames, symNames_append ds ds']
  | .symBool n :: ds, ds' => by simp [symNames, symNames_append ds ds']
  | .define n e :: ds, ds' => by simp [symNames, symNames_append ds ds']

theorem symNames_sub : ∀ ds : List RDecl, ∀ c ∈ symNames ds, c ∈ defNames ds
  | .symInt n :: ds, c, h => by
    rcases List.mem_cons.1 h with rfl | h
    · simp [defNames, RDecl.name]
    · exact List.mem_cons_of_mem _ (symNames_sub ds c h)
  | .symBool n :: ds, c, h => by
    rcases List.mem_cons.1 h with rfl | h
    · simp [defNames, RDecl.name]
    · exact List.mem_cons_of_mem _ (symNames_sub ds c h)
  | .define n e :: ds, c, h => List.mem_cons_of_mem _ (symNames_sub ds c h)

theorem defNames_append (ds ds' : List RDecl) : defNames (ds ++ ds') = defNames ds ++ defNames ds' := by simp [defNames]

theorem Block.nil : Block [] [] [] where
  consts := rfl
  nodup := by simp [defNames]
  owned := by simp [defNames]
  sound := by
    intro σ env env' h
    injection h with h
    subst h
    simp [defNames]
  complete := by
    intro xs h
    cases h
    exact ⟨fun _ => .int 0, fun σ _ env _ => ⟨env, rfl, .nil⟩⟩
  mem := by simp
  indep := fun _ _ _ _ => rfl

theorem All2.imp' {α β : Type} {R S : α → β → Prop} : ∀ {as : List α} {bs : List β}, All2 R as bs → (∀ a ∈ as, ∀ b, R a b → S a b) → All2 S as bs
  | _, _, .nil, _ => .nil
  | _, _, .cons h t, f => .cons (f _ (by simp) _ h) (t.imp' fun a ha => f a (by simp [ha]))

theorem All2.split {α β : Type} {R : α → β → Prop} : ∀ {as as' : List α} {bs : List β}, All2 R (as ++ as') bs →
    ∃ b1 b2, bs = b1 ++ b2 ∧ All2 R as b1 ∧ All2 R as' b2
  | [], _, bs, h => ⟨[], bs, rfl, .nil, h⟩
  | a :: as, as', _, .cons h t => by
    obtain ⟨b1, b2, rfl, h1, h2⟩ := t.split
    exact ⟨_ :: b1, b2, rfl, .cons h h1, h2⟩

theorem All2.join {α β : Type} {R : α → β → Prop} : ∀ {as as' : List α} {bs bs' : List β}, All2 R as bs → All2 R as' bs' →
    All2 R (as ++ as') (bs ++ bs')
  | _, _, _, _, .nil, h => h
  | _, _, _, _, .cons h t, h' => .cons h (t.join h')

theorem Block.append {i1 i2 ds1 ds2 cs1 cs2} (h1 : Block i1 ds1 cs1) (h2 : Block i2 ds2 cs2)
    (hd : ∀ a ∈ i1, ∀ b ∈ i2, ∀ m, Under a.1 m → ¬ Under b.1 m) : Block (i1 ++ i2) (ds1 ++ ds2) (cs1 ++ cs2) := by
  have disj : ∀ m, m ∈ defNames ds1 → m ∉ defNames ds2 := by
    intro m hm hm'
    obtain ⟨a, ha, hu⟩ := h1.owned m hm
    obtain ⟨b, hb, hu'⟩ := h2.owned m hm'
    exact hd a ha b hb m hu hu'
  refine ⟨?_, ?_, ?_, ?_, ?_, ?_, ?_⟩
  · rw [symNames_append, h1.consts, h2.consts]
  · rw [defNames_append, List.nodup_append]
    exact ⟨h1.nodup, h2.nodup, fun a ha b hb he => disj a ha (he ▸ hb)⟩
  · intro m hm
    rw [defNames_append] at hm
    rcases List.mem_append.1 hm with h | h
    · obtain ⟨a, ha, hu⟩ := h1.owned m h
      exact ⟨a, by simp [ha], hu⟩
    · obtain ⟨a, ha, hu⟩ := h2.owned m h
      exact ⟨a, by simp [ha], hu⟩
  · intro σ env env' h
    rw [runDecls_append, Option.bind_eq_some_iff] at h
    obtain ⟨e1, r1, r2⟩ := h
    obtain ⟨f1, n1, s1⟩ := h1.sound σ env e1 r1
    obtain ⟨f2, n2, s2⟩ := h2.sound σ e1 env' r2
    refine ⟨?_, ?_, ?_⟩
    · intro m hm
      rw [defNames_append, List.mem_append, not_or] at hm
      rw [f2 m hm.2, f1 m hm.1]
    · intro m hm
      rw [defNames_append] at hm
      rcases List.mem_append.1 hm with h | h
      · exact n1 m h
      · rw [← f1 m (fun h' => disj m h' h)]
        exact n2 m h
    · intro it hit
      rcases List.mem_append.1 hit with h | h
      · obtain ⟨x, hx, hp⟩ := s1 it h
        exact ⟨x, by rw [f2 _ (disj _ (h1.mem it h)), hx], hp⟩
      · exact s2 it h
  · intro xs hxs
    obtain ⟨x1, x2, rfl, a1, a2⟩ := hxs.split
    obtain ⟨τ1, c1⟩ := h1.complete x1 a1
    obtain ⟨τ2, c2⟩ := h2.complete x2 a2
    refine ⟨fun c => if c ∈ cs1 then τ1 c else τ2 c, ?_⟩
    intro σ hσ env he
    have e1 : ∀ c ∈ cs1, σ c = τ1 c := fun c hc => by rw [hσ c (by simp [hc])]; simp [hc]
    have e2 : ∀ c ∈ cs2, σ c = τ2 c := fun c hc => by
      rw [hσ c (by simp [hc])]
      have : c ∉ cs1 := fun h => disj c (symNames_sub _ _ (h1.consts ▸ h)) (symNames_sub _ _ (h2.consts ▸ hc))
      simp [this]
    rw [defNames_append] at he
    obtain ⟨env1, r1, v1⟩ := c1 σ e1 env (fun m hm => he m (by simp [hm]))
    obtain ⟨f1, -, -⟩ := h1.sound σ env env1 r1
    obtain ⟨env2, r2, v2⟩ := c2 σ e2 env1 (fun m hm => by
      rw [f1 m (fun h' => disj m h' hm)]
      exact he m (by simp [hm]))
    obtain ⟨f2, -, -⟩ := h2.sound σ env1 env2 r2
    refine ⟨env2, by rw [runDecls_append, r1]; exact r2, ?_⟩
    refine All2.join (v1.imp' fun a ha x hx => ?_) v2
    rw [f2 _ (disj _ (h1.mem a ha)), hx]
  · intro it hit
    rw [defNames_append]
    rcases List.mem_append.1 hit with h | h
    · exact List.mem_append_left _ (h1.mem it h)
    · exact List.mem_append_right _ (h2.mem it h)
  · intro σ σ' h env
    rw [runDecls_append, runDecls_append, h1.indep σ σ' (fun c hc => h c (by simp [hc])) env]
    congr 1
    funext e
    exact h2.indep σ σ' (fun c hc => h c (by simp [hc])) e

theorem Block.symInt (n : String) : Block [(n, fun v => ∃ i, v = .int i)] [.symInt n] [n] where
  consts := rfl
  nodup := by simp [defNames]
  owned := by simp [defNames, RDecl.name, Under]
  sound := by
    intro σ env env' h
    obtain ⟨h0, v, hv, rfl⟩ := run_one h
    simp only [RDecl.value] at hv
    refine ⟨?_, ?_, ?_⟩
    · intro m hm
      simp [defNames, RDecl.name] at hm
      simp [hm, RDecl.name]
    · intro m hm
      simp [defNames] at hm
      exact hm ▸ h0
    · intro it hit
      obtain rfl := List.mem_singleton.1 hit
      refine ⟨v, by simp [RDecl.name], ?_⟩
      split at hv
      · injection hv with hv
        exact ⟨_, hv.symm⟩
      · exact nomatch hv
  complete := by
    intro xs h
    cases h with
    | cons h t =>
      cases t
      rename_i x
      obtain ⟨i, rfl⟩ := h
      refine ⟨fun _ => .int i, fun σ hσ env he => ?_⟩
      have := hσ n (by simp)
      have hn : env n = none := he n (by simp [defNames, RDecl.name])
      exact ⟨_, by simp [runDecls, RDecl.name, RDecl.value, hn, this]; rfl, .cons (by simp) .nil⟩
  mem := by simp [defNames, RDecl.name]
  indep := by
    intro σ σ' h env
    simp only [runDecls, RDecl.value, h n (by simp)]

theorem Block.symBool (n : String) : Block [(n, fun v => ∃ i, v = .bool i)] [.symBool n] [n] where
  consts := rfl
  nodup := by simp [defNames]
  owned := by simp [defNames, RDecl.name, Under]
  sound := by
    intro σ env env' h
    obtain ⟨h0, v, hv, rfl⟩ := run_one h
    simp only [RDecl.value] at hv
    refine ⟨?_, ?_, ?_⟩
    · intro m hm
      simp [defNames, RDecl.name] at hm
      simp [hm, RDecl.name]
    · intro m hm
      simp [defNames] at hm
      exact hm ▸ h0
    · intro it hit
      obtain rfl := List.mem_singleton.1 hit
      refine ⟨v, by simp [RDecl.name], ?_⟩
      split at hv
      · injection hv with hv
        exact ⟨_, hv.symm⟩
      · exact nomatch hv
  complete := by
    intro xs h
    cases h with
    | cons h t =>
      cases t
      rename_i x
      obtain ⟨i, rfl⟩ := h
      refine ⟨fun _ => .bool i, fun σ hσ env he => ?_⟩
      have := hσ n (by simp)
      have hn : env n = none := he n (by simp [defNames, RDecl.name])
      exact ⟨_, by simp [runDecls, RDecl.name, RDecl.value, hn, this]; rfl, .cons (by simp) .nil⟩
  mem := by simp [defNames, RDecl.name]
  indep := by
    intro σ σ' h env
    simp only [runDecls, RDecl.value, h n (by simp)]

/-- A sequence of variables of one type. -/
theorem Block.all {g : String → GenResult} {P : Val → Prop} (hg : ∀ n, ∃ ds cs, g n = some (ds, cs) ∧ Block [(n, P)] ds cs) :
    ∀ ns : List String, ns.Pairwise (fun a b => ∀ m, Under a m → ¬ Under b m) →
      ∃ ds cs, genAll g ns = some (ds, cs) ∧ Block (ns.map fun n => (n, P)) ds cs
  | [], _ => ⟨[], [], rfl, Block.nil⟩
  | n :: ns, h => by
    obtain ⟨ds, cs, e1, b1⟩ := hg n
    obtain ⟨ds', cs', e2, b2⟩ := Block.all hg ns (List.pairwise_cons.1 h).2
    refine ⟨ds ++ ds', cs ++ cs', by simp [genAll, e1, e2], b1.append b2 ?_⟩
    intro a ha b hb m hu
    simp only [List.mem_singleton] at ha
    subst ha
    obtain ⟨n', hn', rfl⟩ := List.mem_map.1 hb
    exact (List.pairwise_cons.1 h).1 n' hn' m hu

theorem slotNames_apart (n : String) (k : Nat) : (slotNames n k).Pairwise (fun a b => ∀ m, Under a m → ¬ Under b m) := by
  unfold slotNames
  rw [List.pairwise_map]
  refine List.Pairwise.imp ?_ (List.nodup_range (n := k))
  intro i j hij m h h'
  exact hij (Nat.repr_inj.1 (slots_apart (no_underscore_repr i) (no_underscore_repr j) h h'))

/-- The effect of a container definition `e` over the slots: it reshapes the slots to rows, takes a prefix, and normalises. -/
def DefinesAs (e : RExp) (len : String) (tmp : List String) (shape : List Val → List Val) (post : List Val → Option (List Val)) : Prop :=
  ∀ (env : REnv) (vs : List Val), All2 (fun n v => env n = some v) tmp vs → ∀ k, env len = some (.int k) →
    e.eval env = if 0 ≤ k ∧ k ≤ (shape vs).length then (post ((shape vs).take k.toNat)).map .list else none

theorem all2_slots {env : REnv} {P : Val → Prop} : ∀ {ns : List String}, (∀ it ∈ ns.map (fun n => (n, P)), ∃ x, env it.1 = some x ∧ it.2 x) →
    ∃ vs, All2 (fun n v => env n = some v) ns vs ∧ vs.length = ns.length ∧ ∀ v ∈ vs, P v
  | [], _ => ⟨[], .nil, rfl, by simp⟩
  | n :: ns, h => by
    obtain ⟨x, hx, hp⟩ := h (n, P) (by simp)
    obtain ⟨vs, h1, h2, h3⟩ := all2_slots (ns := ns) (fun it hit => h it (by simp only [List.map_cons]; exact List.mem_cons_of_mem _ hit))
    exact ⟨x :: vs, .cons hx h1, by simp [h2], by
      intro v hv
      rcases List.mem_cons.1 hv with rfl | hv
      · exact hp
      · exact h3 v hv⟩

theorem all2_items {P : Val → Prop} : ∀ {ns : List String} {vs : List Val}, vs.length = ns.length → (∀ v ∈ vs, P v) →
    All2 (fun (it : String × (Val → Prop)) x => it.2 x) (ns.map fun n => (n, P)) vs
  | [], [], _, _ => .nil
  | n :: ns, v :: vs, h, hp => .cons (hp v (by simp)) (all2_items (by simpa using h) (fun v hv => hp v (by simp [hv])))

theorem all2_unmap {P : Val → Prop} {env : REnv} : ∀ {ns : List String} {vs : List Val},
    All2 (fun (it : String × (Val → Prop)) x => env it.1 = some x) (ns.map fun n => (n, P)) vs → All2 (fun n v => env n = some v) ns vs
  | [], _, .nil => .nil
  | _ :: _, _, .cons h t => .cons h (all2_unmap t)

theorem Block.container {g : String → GenResult} {P Q : Val → Prop} (hg : ∀ n, ∃ ds cs, g n = some (ds, cs) ∧ Block [(n, P)] ds cs)
    (n : String) (k : Nat) (define : List String → Option RExp) (e : RExp) (shape : List Val → List Val) (post : List Val → Option (List Val))
    (hdef : define (slotNames n k) = some e) (he : DefinesAs e (lenName n) (slotNames n k) shape post)
    (hQ : ∀ x, Q x ↔ ∃ vs l ys, vs.length = k ∧ (∀ v ∈ vs, P v) ∧ l ≤ (shape vs).length ∧ post ((shape vs).take l) = some ys ∧ x = .list ys) :
    ∃ ds cs, genContainer g n k define = some (ds, cs) ∧ Block [(n, Q)] ds cs := by
  obtain ⟨ds, cs, e1, b1⟩ := Block.all hg _ (slotNames_apart n k)
  have b2 : Block ((lenName n, fun v => ∃ i, v = .int i) :: (slotNames n k).map fun n => (n, P)) (.symInt (lenName n) :: ds) (lenName n :: cs) := by
    refine (Block.symInt (lenName n)).append b1 ?_
    intro a ha b hb m hu hu'
    simp only [List.mem_singleton] at ha
    subst ha
    obtain ⟨n', hn', rfl⟩ := List.mem_map.1 hb
    obtain ⟨i, -, rfl⟩ := List.mem_map.1 hn'
    have hl : lenName n = n ++ "_BOUNDEDSET-" ++ "len" := by
      simp [lenName, String.append_assoc]
    rw [hl] at hu
    exact repr_ne_len i (slots_apart no_underscore_len (no_underscore_repr i) hu hu')
  have hslot : (slotNames n k).length = k := by simp [slotNames]
  have under : ∀ m ∈ defNames (.symInt (lenName n) :: ds), ∃ r, m = n ++ "_BOUNDEDSET-" ++ r := by
    intro m hm
    obtain ⟨it, hit, hu⟩ := b2.owned m hm
    rcases List.mem_cons.1 hit with rfl | hit
    · refine Under.trans (a := "len") ?_
      rw [String.append_assoc]
      exact hu
    · obtain ⟨n', hn', rfl⟩ := List.mem_map.1 hit
      obtain ⟨i, -, rfl⟩ := List.mem_map.1 hn'
      exact hu.trans
  have hn : n ∉ defNames (.symInt (lenName n) :: ds) := by
    intro h
    obtain ⟨r, hr⟩ := under n h
    have := congrArg (fun s => s.toList.length) hr
    simp at this
  refine ⟨.symInt (lenName n) :: (ds ++ [.define n e]), lenName n :: cs, by simp [genContainer, e1, hdef], ?_⟩
  rw [← List.cons_append]
  generalize hD : (RDecl.symInt (lenName n) :: ds) = D at *
  have hdn : defNames (D ++ [.define n e]) = defNames D ++ [n] := by rw [defNames_append]; rfl
  refine ⟨?_, ?_, ?_, ?_, ?_, ?_, ?_⟩
  · rw [symNames_append, ← b2.consts]
    simp [symNames]
  · rw [hdn, List.nodup_append]
    refine ⟨b2.nodup, by simp, ?_⟩
    intro a ha b hb he
    simp only [List.mem_singleton] at hb
    exact hn (hb ▸ he ▸ ha)
  · intro m hm
    rw [hdn] at hm
    rcases List.mem_append.1 hm with h | h
    · exact ⟨_, List.mem_singleton.2 rfl, Or.inr (under m h)⟩
    · exact ⟨_, List.mem_singleton.2 rfl, Or.inl (List.mem_singleton.1 h)⟩
  · intro σ env env' h
    rw [runDecls_append, Option.bind_eq_some_iff] at h
    obtain ⟨env1, r1, r2⟩ := h
    obtain ⟨f1, n1, s1⟩ := b2.sound σ env env1 r1
    obtain ⟨v, hl, i, rfl⟩ := s1 _ (List.mem_cons_self ..)
    obtain ⟨vs, hvs, hlen, hP⟩ := all2_slots (P := P) (fun it hit => s1 it (List.mem_cons_of_mem _ hit))
    have hev := he env1 vs hvs i hl
    obtain ⟨hn1, v, hv, rfl⟩ := run_one r2
    simp only [RDecl.name] at hn1
    have hv' : e.eval env1 = some v := hv
    rw [hev] at hv'
    by_cases hk : 0 ≤ i ∧ i ≤ (shape vs).length
    · rw [if_pos hk] at hv'
      · cases hp : post ((shape vs).take i.toNat) with
        | none => rw [hp] at hv'; exact nomatch hv'
        | some ys =>
          rw [hp] at hv'
          injection hv' with hv'
          subst hv'
          simp only [RDecl.name]
          refine ⟨?_, ?_, ?_⟩
          · intro m hm
            rw [hdn, List.mem_append, not_or] at hm
            have : m ≠ n := fun h => hm.2 (by simp [h])
            simp only [this, if_false]
            exact f1 m hm.1
          · intro m hm
            rw [hdn] at hm
            rcases List.mem_append.1 hm with h | h
            · exact n1 m h
            · obtain rfl := List.mem_singleton.1 h
              rw [← f1 _ hn]
              exact hn1
          · intro it hit
            obtain rfl := List.mem_singleton.1 hit
            refine ⟨.list ys, by simp, (hQ _).2 ⟨vs, i.toNat, ys, by rw [hlen, hslot], hP, by omega, hp, rfl⟩⟩
    · rw [if_neg hk] at hv'
      exact nomatch hv'
  · intro xs hxs
    cases hxs with
    | cons hx t =>
    cases t
    rename_i x
    obtain ⟨vs, l, ys, hlen, hP, hl, hp, rfl⟩ := (hQ x).1 hx
    obtain ⟨τ, hτ⟩ := b2.complete (.int l :: vs) (.cons ⟨_, rfl⟩ (all2_items (by rw [hlen, hslot]) hP))
    refine ⟨τ, fun σ hσ env hfree => ?_⟩
    obtain ⟨env1, r1, v1⟩ := hτ σ hσ env (fun m hm => hfree m (by rw [hdn]; exact List.mem_append_left _ hm))
    obtain ⟨f1, -, -⟩ := b2.sound σ env env1 r1
    have hn1 : env1 n = none := by
      rw [f1 n hn]
      exact hfree n (by rw [hdn]; simp)
    cases v1 with
    | cons hlen1 hvs =>
    have hev := he env1 vs (all2_unmap hvs) l hlen1
    rw [if_pos ⟨by omega, by omega⟩, Int.toNat_natCast, hp] at hev
    exact ⟨_, by rw [runDecls_append, r1]; simp [runDecls, RDecl.name, RDecl.value, hn1, hev]; rfl, .cons (by simp) .nil⟩
  · intro it hit
    obtain rfl := List.mem_singleton.1 hit
    rw [hdn]
    simp
  · intro σ σ' h env
    rw [runDecls_append, runDecls_append, b2.indep σ σ' h env]
    rfl

/-! ### The shapes -/

theorem evals_ids {env : REnv} : ∀ {ns : List String} {vs : List Val}, All2 (fun n v => env n = some v) ns vs →
    RExp.evals env (ns.map .id) = some vs
  | _, _, .nil => rfl
  | _, _, .cons h t => by
    simp [RExp.evals, RExp.eval, h, evals_ids t]

theorem All2.drop' {α β : Type} {R : α → β → Prop} : ∀ (i : Nat) {as : List α} {bs : List β}, All2 R as bs → All2 R (as.drop i) (bs.drop i)
  | 0, _, _, h => h
  | _ + 1, _, _, .nil => by simpa using All2.nil
  | i + 1, _, _, .cons _ t => t.drop' i

theorem All2.take' {α β : Type} {R : α → β → Prop} : ∀ (i : Nat) {as : List α} {bs : List β}, All2 R as bs → All2 R (as.take i) (bs.take i)
  | 0, _, _, _ => .nil
  | _ + 1, _, _, .nil => .nil
  | i + 1, _, _, .cons h t => .cons h (t.take' i)

theorem eval_row {env : REnv} {tmp : List String} {vs : List Val} (h : All2 (fun n v => env n = some v) tmp vs) (i b : Nat) :
    (rowExp tmp i b).eval env = some (.list ((vs.drop i).take b)) := by
  simp only [rowExp, RExp.eval, evals_ids ((h.drop' i).take' b), Option.map_some]

theorem evals_map {α : Type} {env : REnv} {f : α → RExp} {g : α → Val} (h : ∀ a, (f a).eval env = some (g a)) :
    ∀ as : List α, RExp.evals env (as.map f) = some (as.map g)
  | [] => rfl
  | a :: as => by simp [RExp.evals, h a, evals_map h as]

theorem rexp_eval_take {env : REnv} {es : List RExp} {us : List Val} {n : String} {k : Int} (he : RExp.evals env es = some us)
    (hn : env n = some (.int k)) : (RExp.take (.list es) n).eval env = if 0 ≤ k ∧ k ≤ us.length then some (.list (us.take k.toNat)) else none := by
  simp [RExp.eval, he, hn]

/-- The rows of a matrix, from its slots. -/
def rows2 (b : Nat) (vs : List Val) : List Val := (List.range b).map fun i => .list ((vs.drop (i * b)).take b)
/-- The matrices of a tensor, from its slots. -/
def rows3 (b : Nat) (vs : List Val) : List Val :=
  (List.range b).map fun i => .list ((List.range b).map fun j => .list ((vs.drop (i * b * b + j * b)).take b))

theorem pyRange_rows {b : Nat} (hb : 2 ≤ b) : pyRange (b * b - 1) b = some ((List.range b).map (· * b)) := by
  have h1 : (b * b - 1 + b - 1) / b = b := by
    have h2 : 2 * b ≤ b * b := Nat.mul_le_mul_right b hb
    have h3 : b * b - 1 + b - 1 = (b - 2) + b * b := by omega
    rw [h3, Nat.add_mul_div_right _ _ (by omega), Nat.div_eq_of_lt (by omega)]
    omega
  unfold pyRange
  rw [if_neg (by omega), h1]

theorem chunk_flatten {α : Type} (b : Nat) : ∀ (rows : List (List α)), (∀ r ∈ rows, r.length = b) → ∀ (i : Nat) (h : i < rows.length),
    (rows.flatten.drop (i * b)).take b = rows[i]
  | r :: rows, hr, 0, _ => by
    have := hr r (by simp)
    simp [← this]
  | r :: rows, hr, i + 1, h => by
    have hl := hr r (by simp)
    have : (i + 1) * b = r.length + i * b := by rw [hl, Nat.succ_mul, Nat.add_comm]
    rw [List.flatten_cons, this, List.drop_append, List.drop_of_length_le (by omega)]
    simp only [List.nil_append, Nat.add_sub_cancel_left, List.getElem_cons_succ]
    exact chunk_flatten b rows (fun r hr' => hr r (by simp [hr'])) i (by simpa using h)

theorem chunks_flatten {α : Type} (b : Nat) (rows : List (List α)) (hr : ∀ r ∈ rows, r.length = b) :
    (List.range rows.length).map (fun i => (rows.flatten.drop (i * b)).take b) = rows := by
  apply List.ext_getElem (by simp)
  intro i h1 h2
  simp [chunk_flatten b rows hr i h2]

theorem length_flatten_const {α : Type} (b : Nat) : ∀ (rows : List (List α)), (∀ r ∈ rows, r.length = b) → rows.flatten.length = rows.length * b
  | [], _ => by simp
  | r :: rows, h => by
    rw [List.flatten_cons, List.length_append, length_flatten_const b rows (fun r hr => h r (by simp [hr])), h r (by simp)]
    simp [Nat.succ_mul, Nat.add_comm]

theorem rows2_flatten {b : Nat} {rows : List (List Val)} (hl : rows.length = b) (hr : ∀ r ∈ rows, r.length = b) :
    rows2 b rows.flatten = rows.map .list := by
  have := congrArg (List.map Val.list) (chunks_flatten b rows hr)
  rw [hl, List.map_map] at this
  exact this

theorem rows3_flatten {b : Nat} {ms : List (List (List Val))} (hl : ms.length = b) (hm : ∀ m ∈ ms, m.length = b)
    (hr : ∀ m ∈ ms, ∀ r ∈ m, r.length = b) : rows3 b (ms.map List.flatten).flatten = ms.map fun m => .list (m.map .list) := by
  have hsq : ∀ r ∈ ms.map List.flatten, r.length = b * b := by
    intro r h
    obtain ⟨m, h1, rfl⟩ := List.mem_map.1 h
    rw [length_flatten_const b m (hr m h1), hm m h1]
  unfold rows3
  apply List.ext_getElem (by simp [hl])
  intro i h1 h2
  simp only [List.length_map, List.length_range] at h1
  have him : i < ms.length := by omega
  simp only [List.getElem_map, List.getElem_range]
  have hmi := chunk_flatten (b * b) _ hsq i (by simpa using him)
  simp only [List.getElem_map] at hmi
  congr 1
  have hmem : ms[i] ∈ ms := List.getElem_mem him
  have h3 := rows2_flatten (hm _ hmem) (hr _ hmem)
  rw [← h3]
  unfold rows2
  apply List.map_congr_left
  intro j hj
  rw [List.mem_range] at hj
  rw [← hmi, Nat.mul_assoc, ← List.drop_drop, List.drop_take, List.take_take]
  have : j * b + b ≤ b * b := by
    rw [← Nat.succ_mul]
    exact Nat.mul_le_mul_right b hj
  rw [Nat.min_eq_left (by omega)]

theorem Shaped.inhabited {b : Nat} : ∀ {t : VTy}, t.Supported b → ∃ v, Shaped b t v
  | .int, _ => ⟨.int 0, 0, rfl⟩
  | .bool, _ => ⟨.bool true, true, rfl⟩
  | .list _, _ => ⟨.list [], [], rfl, by simp, by simp⟩
  | .matrix _, _ => ⟨.list [], [], rfl, by simp, by simp⟩
  | .tensor3d _, _ => ⟨.list [], [], rfl, by simp, by simp⟩
  | .set _, _ => ⟨.list [], [], rfl, by simp, by simp⟩

theorem shaped_list {b : Nat} {t : VTy} (ht : t.Supported b) (x : Val) : Shaped b (.list t) x ↔
    ∃ (vs : List Val) (l : Nat) (ys : List Val), vs.length = b ∧ (∀ v ∈ vs, Shaped b t v) ∧ l ≤ vs.length ∧ some (vs.take l) = some ys ∧ x = .list ys := by
  constructor
  · rintro ⟨vs, rfl, hl, hs⟩
    obtain ⟨d, hd⟩ := Shaped.inhabited ht
    refine ⟨vs ++ List.replicate (b - vs.length) d, vs.length, vs, by simp; omega, ?_, by simp, by simp, rfl⟩
    intro v hv
    rcases List.mem_append.1 hv with h | h
    · exact hs v h
    · rw [(List.mem_replicate.1 h).2]
      exact hd
  · rintro ⟨vs, l, ys, h1, h2, h3, h4, rfl⟩
    injection h4 with h4
    subst h4
    exact ⟨_, rfl, by simp; omega, fun v hv => h2 v (List.mem_of_mem_take hv)⟩

theorem shaped_matrix {b : Nat} {t : VTy} (ht : t.Supported b) (x : Val) : Shaped b (.matrix t) x ↔
    ∃ vs l ys, vs.length = b * b ∧ (∀ v ∈ vs, Shaped b t v) ∧ l ≤ (rows2 b vs).length ∧ some ((rows2 b vs).take l) = some ys ∧ x = .list ys := by
  constructor
  · rintro ⟨rows, rfl, hl, hs⟩
    obtain ⟨d, hd⟩ := Shaped.inhabited ht
    have hlen : ∀ r ∈ rows ++ List.replicate (b - rows.length) (List.replicate b d), r.length = b := by
      intro r hr
      rcases List.mem_append.1 hr with h | h
      · exact (hs r h).1
      · rw [(List.mem_replicate.1 h).2]
        simp
    have htot : (rows ++ List.replicate (b - rows.length) (List.replicate b d)).length = b := by simp; omega
    have hrows := rows2_flatten htot hlen
    refine ⟨(rows ++ List.replicate (b - rows.length) (List.replicate b d)).flatten, rows.length, rows.map .list, ?_, ?_, ?_, ?_, rfl⟩
    · rw [length_flatten_const b _ hlen, htot]
    · intro v hv
      obtain ⟨r, hr, hv⟩ := List.mem_flatten.1 hv
      rcases List.mem_append.1 hr with h | h
      · exact (hs r h).2 v hv
      · rw [(List.mem_replicate.1 h).2] at hv
        rw [(List.mem_replicate.1 hv).2]
        exact hd
    · simp [rows2, hl]
    · rw [hrows, List.map_append, List.take_left' (by simp)]
  · rintro ⟨vs, l, ys, h1, h2, h3, h4, rfl⟩
    injection h4 with h4
    subst h4
    have hl : l ≤ b := by simpa [rows2] using h3
    refine ⟨((List.range b).map fun i => (vs.drop (i * b)).take b).take l, ?_, ?_, ?_⟩
    · rw [rows2, List.map_take, List.map_map]
      rfl
    · simp; omega
    · intro r hr
      obtain ⟨i, hi, rfl⟩ := List.mem_map.1 (List.mem_of_mem_take hr)
      rw [List.mem_range] at hi
      refine ⟨?_, fun v hv => h2 v (List.mem_of_mem_drop (List.mem_of_mem_take hv))⟩
      have : i * b + b ≤ b * b := by
        rw [← Nat.succ_mul]
        exact Nat.mul_le_mul_right b hi
      simp [h1]; omega

theorem shaped_tensor {b : Nat} {t : VTy} (ht : t.Supported b) (x : Val) : Shaped b (.tensor3d t) x ↔
    ∃ vs l ys, vs.length = b * b * b ∧ (∀ v ∈ vs, Shaped b t v) ∧ l ≤ (rows3 b vs).length ∧ some ((rows3 b vs).take l) = some ys ∧
      x = .list ys := by
  constructor
  · rintro ⟨ms, rfl, hl, hs⟩
    obtain ⟨d, hd⟩ := Shaped.inhabited ht
    generalize hM : ms ++ List.replicate (b - ms.length) (List.replicate b (List.replicate b d)) = M
    have hmem : ∀ m ∈ M, m.length = b ∧ ∀ r ∈ m, r.length = b ∧ ∀ x ∈ r, Shaped b t x := by
      intro m hm
      rw [← hM] at hm
      rcases List.mem_append.1 hm with h | h
      · exact hs m h
      · rw [(List.mem_replicate.1 h).2]
        refine ⟨by simp, fun r hr => ?_⟩
        rw [(List.mem_replicate.1 hr).2]
        refine ⟨by simp, fun x hx => ?_⟩
        rw [(List.mem_replicate.1 hx).2]
        exact hd
    have htot : M.length = b := by rw [← hM]; simp; omega
    have hrows := rows3_flatten htot (fun m hm => (hmem m hm).1) (fun m hm r hr => ((hmem m hm).2 r hr).1)
    have hsq : ∀ r ∈ M.map List.flatten, r.length = b * b := by
      intro r h
      obtain ⟨m, h1, rfl⟩ := List.mem_map.1 h
      rw [length_flatten_const b m (fun r hr => ((hmem m h1).2 r hr).1), (hmem m h1).1]
    refine ⟨(M.map List.flatten).flatten, ms.length, ms.map fun m => .list (m.map .list), ?_, ?_, ?_, ?_, rfl⟩
    · rw [length_flatten_const (b * b) _ hsq, List.length_map, htot, Nat.mul_assoc]
    · intro v hv
      obtain ⟨f, hf, hv⟩ := List.mem_flatten.1 hv
      obtain ⟨m, hm, rfl⟩ := List.mem_map.1 hf
      obtain ⟨r, hr, hv⟩ := List.mem_flatten.1 hv
      exact ((hmem m hm).2 r hr).2 v hv
    · simp [rows3, hl]
    · rw [hrows, ← hM, List.map_append, List.take_left' (by simp)]
  · rintro ⟨vs, l, ys, h1, h2, h3, h4, rfl⟩
    injection h4 with h4
    subst h4
    have hl : l ≤ b := by simpa [rows3] using h3
    refine ⟨((List.range b).map fun i => (List.range b).map fun j => (vs.drop (i * b * b + j * b)).take b).take l, ?_, ?_, ?_⟩
    · rw [rows3, List.map_take, List.map_map]
      congr 2
      apply List.map_congr_left
      intro i _
      simp only [Function.comp, List.map_map]
      rfl
    · simp; omega
    · intro m hm
      obtain ⟨i, hi, rfl⟩ := List.mem_map.1 (List.mem_of_mem_take hm)
      rw [List.mem_range] at hi
      refine ⟨by simp, fun r hr => ?_⟩
      obtain ⟨j, hj, rfl⟩ := List.mem_map.1 hr
      rw [List.mem_range] at hj
      refine ⟨?_, fun v hv => h2 v (List.mem_of_mem_drop (List.mem_of_mem_take hv))⟩
      have e1 : j * b + b ≤ b * b := by
        rw [← Nat.succ_mul]
        exact Nat.mul_le_mul_right b hj
      have e2 : i * (b * b) + b * b ≤ b * (b * b) := by
        rw [← Nat.succ_mul]
        exact Nat.mul_le_mul_right _ hi
      rw [List.length_take, List.length_drop, h1, Nat.mul_assoc b b b, Nat.mul_assoc i b b]
      omega

theorem eraseDups_map_int : ∀ (n : Nat) (is : List Int), is.length ≤ n → (is.map Val.int).eraseDups = is.eraseDups.map Val.int
  | _, [], _ => by simp
  | 0, x :: xs, h => by simp at h
  | n + 1, x :: xs, h => by
    have hf : (xs.map Val.int).filter (fun b => !b == Val.int x) = (xs.filter fun b => !b == x).map Val.int := by
      rw [List.filter_map]
      congr 1
      apply List.filter_congr
      intro a _
      simp only [Function.comp]
      congr 1
      rw [Bool.eq_iff_iff]
      simp
    rw [List.map_cons, List.eraseDups_cons, List.eraseDups_cons, hf, eraseDups_map_int n _ ?_, List.map_cons]
    have := List.length_filter_le (fun b => !b == x) xs
    simp at h ⊢
    omega

theorem mapM_toInt : ∀ is : List Int, (is.map Val.int).mapM Val.toInt? = some is
  | [] => rfl
  | i :: is => by simp [List.mapM_cons, Val.toInt?, mapM_toInt is]

theorem sortVals_int (is : List Int) : sortVals (is.map .int) = some ((is.eraseDups.mergeSort (· ≤ ·)).map .int) := by
  unfold sortVals
  rw [eraseDups_map_int _ _ (Nat.le_refl _)]
  cases h : is.eraseDups with
  | nil => simp
  | cons x xs =>
    cases xs with
    | nil => simp
    | cons y ys =>
      have := mapM_toInt (x :: y :: ys)
      simp only [List.map_cons] at this ⊢
      simp only [this, Option.map_some]

theorem nodup_of_lt {is : List Int} (h : is.Pairwise (· < ·)) : is.Nodup := h.imp (fun h => by omega)

theorem eraseDups_nodup : ∀ {is : List Int}, is.Nodup → is.eraseDups = is
  | [], _ => by simp
  | x :: xs, h => by
    rw [List.eraseDups_cons, List.filter_eq_self.2, eraseDups_nodup (List.nodup_cons.1 h).2]
    intro a ha
    have : a ≠ x := fun he => (List.nodup_cons.1 h).1 (he ▸ ha)
    simp [this]

theorem nodup_eraseDups : ∀ (n : Nat) (l : List Int), l.length ≤ n → l.eraseDups.Nodup ∧ l.eraseDups.length ≤ l.length
  | _, [], _ => by simp
  | 0, x :: xs, h => by simp at h
  | n + 1, x :: xs, h => by
    have hl := List.length_filter_le (fun b => !b == x) xs
    have ih := nodup_eraseDups n (xs.filter fun b => !b == x) (by simp at h; omega)
    rw [List.eraseDups_cons]
    refine ⟨List.nodup_cons.2 ⟨?_, ih.1⟩, by simp only [List.length_cons]; omega⟩
    intro hy
    rw [List.mem_eraseDups] at hy
    have := (List.mem_filter.1 hy).2
    simp at this

theorem shaped_set {b : Nat} {t : VTy} (x : Val) : Shaped b (.set t) x ↔
    ∃ (vs : List Val) (l : Nat) (ys : List Val), vs.length = b ∧ (∀ v ∈ vs, ∃ i, v = .int i) ∧ l ≤ vs.length ∧ sortVals (vs.take l) = some ys ∧ x = .list ys := by
  constructor
  · rintro ⟨is, rfl, hl, hs⟩
    refine ⟨is.map .int ++ List.replicate (b - is.length) (.int 0), is.length, is.map .int, by simp; omega, ?_, by simp, ?_, rfl⟩
    · intro v hv
      rcases List.mem_append.1 hv with h | h
      · obtain ⟨i, -, rfl⟩ := List.mem_map.1 h
        exact ⟨i, rfl⟩
      · exact ⟨0, (List.mem_replicate.1 h).2⟩
    · rw [List.take_left' (by simp), sortVals_int, eraseDups_nodup (nodup_of_lt hs), List.mergeSort_of_pairwise]
      exact hs.imp (fun h => by simp; omega)
  · rintro ⟨vs, l, ys, h1, h2, h3, h4, rfl⟩
    obtain ⟨is, rfl⟩ : ∃ is : List Int, vs = is.map .int := by
      clear h1 h3 h4
      induction vs with
      | nil => exact ⟨[], rfl⟩
      | cons v vs ih =>
        obtain ⟨i, rfl⟩ := h2 v (by simp)
        obtain ⟨is, rfl⟩ := ih (fun v hv => h2 v (by simp [hv]))
        exact ⟨i :: is, rfl⟩
    rw [← List.map_take, sortVals_int] at h4
    injection h4 with h4
    subst h4
    have hd := nodup_eraseDups _ (is.take l) (Nat.le_refl _)
    have hperm := List.mergeSort_perm (is.take l).eraseDups (· ≤ ·)
    refine ⟨_, rfl, ?_, ?_⟩
    · rw [hperm.length_eq]
      simp at h1 h3 hd
      omega
    · have hs := List.pairwise_mergeSort (le := fun (a b : Int) => decide (a ≤ b)) (by intro a b c; simp; omega) (by intro a b; simp; omega)
        (is.take l).eraseDups
      have hn : ((is.take l).eraseDups.mergeSort (· ≤ ·)).Nodup := hperm.nodup_iff.2 hd.1
      refine (hs.and hn).imp ?_
      rintro a b ⟨h, h'⟩
      simp at h
      omega

theorem slotNames_length (n : String) (k : Nat) : (slotNames n k).length = k := by simp [slotNames]

/-- What `gen_var` generates for one variable. -/
theorem genVar_block (b : Nat) : ∀ (t : VTy), t.Supported b → ∀ n, ∃ ds cs, genVar b t n = some (ds, cs) ∧ Block [(n, Shaped b t)] ds cs
  | .int, _, n => ⟨_, _, rfl, Block.symInt n⟩
  | .bool, _, n => ⟨_, _, rfl, Block.symBool n⟩
  | .list t, ht, n => by
    refine Block.container (genVar_block b t ht) n b _ (.take (.list ((slotNames n b).map .id)) (lenName n)) id some ?_ ?_ (shaped_list ht)
    · simp only [List.take_of_length_le (Nat.le_of_eq (slotNames_length n b))]
    · intro env vs h k hk
      rw [rexp_eval_take (evals_ids h) hk]
      rfl
  | .set t, ht, n => by
    have ht' : t = .int := ht
    subst ht'
    refine Block.container (genVar_block b .int trivial) n b _ (.sortDedup (.take (.list ((slotNames n b).map .id)) (lenName n))) id sortVals ?_ ?_
      shaped_set
    · simp only [List.take_of_length_le (Nat.le_of_eq (slotNames_length n b))]
    · intro env vs h k hk
      simp only [RExp.eval]
      have := rexp_eval_take (evals_ids h) hk
      simp only [RExp.eval] at this
      rw [this]
      by_cases hc : 0 ≤ k ∧ k ≤ vs.length
      · simp [hc]
      · simp [hc]
  | .matrix t, ht, n => by
    refine Block.container (genVar_block b t ht.2) n (b * b) _
      (.take (.list (((List.range b).map (· * b)).map fun i => rowExp (slotNames n (b * b)) i b)) (lenName n)) (rows2 b) some ?_ ?_ (shaped_matrix ht.2)
    · simp only [slotNames_length, pyRange_rows ht.1, Option.bind_eq_bind, Option.bind_some]
      rfl
    · intro env vs h k hk
      rw [List.map_map]
      exact (rexp_eval_take (evals_map (f := (fun i => rowExp (slotNames n (b * b)) i b) ∘ (· * b))
        (g := fun i => .list ((vs.drop (i * b)).take b)) (fun i => eval_row h (i * b) b) _) hk).trans rfl
  | .tensor3d t, ht, n => by
    refine Block.container (genVar_block b t ht) n (b * b * b) _ _ (rows3 b) some rfl ?_ (shaped_tensor ht)
    intro env vs h k hk
    rw [rexp_eval_take (evals_map (g := fun i => .list ((List.range b).map fun j => .list ((vs.drop (i * b * b + j * b)).take b))) ?_ _) hk]
    · rfl
    · intro i
      simp only [RExp.eval]
      rw [evals_map (g := fun j => .list ((vs.drop (i * b * b + j * b)).take b)) (fun j => eval_row h _ b)]
      rfl

theorem genVars_block (b : Nat) : ∀ vs : List (String × VTy), (∀ v ∈ vs, v.2.Supported b ∧ '-' ∉ v.1.toList) → (vs.map (·.1)).Nodup →
    ∃ ds cs, genVars b vs = some (ds, cs) ∧ Block (vs.map fun v => (v.1, Shaped b v.2)) ds cs
  | [], _, _ => ⟨[], [], rfl, Block.nil⟩
  | (n, t) :: vs, h, hn => by
    obtain ⟨ds, cs, e1, b1⟩ := genVar_block b t (h (n, t) (by simp)).1 n
    obtain ⟨ds', cs', e2, b2⟩ := genVars_block b vs (fun v hv => h v (by simp [hv])) (List.nodup_cons.1 hn).2
    refine ⟨ds ++ ds', cs ++ cs', by simp [genVars, e1, e2], b1.append b2 ?_⟩
    intro a ha c hc m hu hu'
    obtain rfl := List.mem_singleton.1 ha
    obtain ⟨v, hv, rfl⟩ := List.mem_map.1 hc
    have := vars_apart (h (n, t) (by simp)).2 (h v (by simp [hv])).2 hu hu'
    exact (List.nodup_cons.1 hn).1 (List.mem_map.2 ⟨v, hv, this.symm⟩)

/-- **C24.**  For variables with distinct names (without `-`) of supported types: the generated definitions
* quantify over distinct constants, exactly the symbolic ones, and depend on nothing else;
* never give a variable a value that does not have the bounded shape, whatever the constants are;
* for every choice of values of the bounded shape for all variables there are values of the constants for which the
  variables have these values. -/
theorem C24_bounded_inputs_partial (b : Nat) (vars : List (String × VTy)) (hs : ∀ v ∈ vars, v.2.Supported b ∧ '-' ∉ v.1.toList)
    (hn : (vars.map (·.1)).Nodup) :
    ∃ ds cs, generateVars vars b = some (ds, cs) ∧ cs = symNames ds ∧ cs.Nodup ∧
      (∀ σ σ', (∀ c ∈ cs, σ c = σ' c) → runDecls σ (fun _ => none) ds = runDecls σ' (fun _ => none) ds) ∧
      (∀ σ env, runDecls σ (fun _ => none) ds = some env → ∀ v ∈ vars, ∃ x, env v.1 = some x ∧ Shaped b v.2 x) ∧
      (∀ f : String → Val, (∀ v ∈ vars, Shaped b v.2 (f v.1)) →
        ∃ σ env, runDecls σ (fun _ => none) ds = some env ∧ ∀ v ∈ vars, env v.1 = some (f v.1)) := by
  have hp := List.mergeSort_perm vars fun v w => decide (v.1 ≤ w.1)
  obtain ⟨ds, cs, e, B⟩ := genVars_block b (vars.mergeSort fun v w => decide (v.1 ≤ w.1)) (fun v hv => hs v (hp.mem_iff.1 hv))
    ((hp.map _).nodup_iff.2 hn)
  refine ⟨ds, cs, e, B.consts, ?_, ?_, ?_, ?_⟩
  · rw [B.consts]
    have key : ∀ ds : List RDecl, (defNames ds).Nodup → (symNames ds).Nodup := by
      intro ds
      induction ds with
      | nil => intro _; exact List.nodup_nil
      | cons d ds ih =>
        intro h
        have h' := List.nodup_cons.1 h
        cases d with
        | symInt n => exact List.nodup_cons.2 ⟨fun hm => h'.1 (symNames_sub ds n hm), ih h'.2⟩
        | symBool n => exact List.nodup_cons.2 ⟨fun hm => h'.1 (symNames_sub ds n hm), ih h'.2⟩
        | define n e => exact ih h'.2
    exact key ds B.nodup
  · exact fun σ σ' h => B.indep σ σ' h _
  · intro σ env h v hv
    exact (B.sound σ _ env h).2.2 (v.1, Shaped b v.2) (List.mem_map.2 ⟨v, hp.mem_iff.2 hv, rfl⟩)
  · intro f hf
    have key : ∀ vs : List (String × VTy), (∀ v ∈ vs, v ∈ vars) →
        All2 (fun (it : String × (Val → Prop)) x => it.2 x) (vs.map fun v => (v.1, Shaped b v.2)) (vs.map fun v => f v.1) := by
      intro vs
      induction vs with
      | nil => intro _; exact .nil
      | cons v vs ih => exact fun h => .cons (hf v (h v (by simp))) (ih fun w hw => h w (by simp [hw]))
    obtain ⟨τ, hτ⟩ := B.complete _ (key _ fun v hv => hp.mem_iff.1 hv)
    obtain ⟨env, r, hv⟩ := hτ τ (fun _ _ => rfl) (fun _ => none) (fun _ _ => rfl)
    refine ⟨τ, env, r, fun v hm => ?_⟩
    have key2 : ∀ vs : List (String × VTy), All2 (fun (it : String × (Val → Prop)) x => env it.1 = some x)
        (vs.map fun v => (v.1, Shaped b v.2)) (vs.map fun v => f v.1) → ∀ v ∈ vs, env v.1 = some (f v.1) := by
      intro vs
      induction vs with
      | nil => intro _ v hv; exact nomatch hv
      | cons w vs ih =>
        intro h v hv
        cases h with
        | cons h t =>
          rcases List.mem_cons.1 hv with rfl | hv
          · exact h
          · exact ih t v hv
    exact key2 _ hv v (hp.mem_iff.2 hm)

/-- A non-trivial case: a list of matrices, a set and a boolean, with bound 4. -/
example : ∀ v ∈ [("x", VTy.list (.matrix .int)), ("s", .set .int), ("i_1", .bool)], v.2.Supported 4 ∧ '-' ∉ v.1.toList := by
  intro v hv
  simp at hv
  rcases hv with rfl | rfl | rfl <;> exact ⟨by simp [VTy.Supported], by decide⟩

/-- With list bound one, a matrix variable is only ever the empty matrix: `range(0, len(tmp) - 1, 1)` is empty. -/
theorem C24_matrix_bound_one_refuted : ∃ ds cs, generateVars [("m", .matrix .int)] 1 = some (ds, cs) ∧
    (∀ σ env, runDecls σ (fun _ => none) ds = some env → env "m" = some (.list [])) ∧
    Shaped 1 (.matrix .int) (.list [.list [.int 7]]) := by
  refine ⟨[.symInt "m_BOUNDEDSET-len", .symInt "m_BOUNDEDSET-0", .define "m" (.take (.list []) "m_BOUNDEDSET-len")],
    ["m_BOUNDEDSET-len", "m_BOUNDEDSET-0"], by rw [generateVars, List.mergeSort_singleton]; rfl, ?_, ⟨[[.int 7]], rfl, by simp, by simp [Shaped]⟩⟩
  intro σ env h
  have h' : runDecls σ (fun _ => none) ([.symInt "m_BOUNDEDSET-len", .symInt "m_BOUNDEDSET-0"] ++ [.define "m" (.take (.list []) "m_BOUNDEDSET-len")])
    = some env := h
  rw [runDecls_append, Option.bind_eq_some_iff] at h'
  obtain ⟨env1, -, h2⟩ := h'
  obtain ⟨-, v, hv, rfl⟩ := run_one h2
  simp only [RDecl.name, if_true]
  simp only [RDecl.value, RExp.eval, RExp.evals, Option.map_some, Option.bind_eq_bind, Option.bind_some] at hv
  cases hl : env1 "m_BOUNDEDSET-len" with
  | none => rw [hl] at hv; exact nomatch hv
  | some l =>
    rw [hl] at hv
    simp only [Option.bind_some] at hv
    split at hv
    · rename_i vs k heq
      injection heq with heq
      subst heq
      split at hv
      · injection hv with hv
        rw [← hv]
        simp
      · exact nomatch hv
    · exact nomatch hv

/-- Variables of tuple type cannot be generated at all. -/
theorem C24_tuple_refuted (b : Nat) (n : String) (ts : List VTy) : generateVars [(n, .tuple ts)] b = none := by
  simp [generateVars, genVars, genVar]

end Metalift
