import Verif.PyTracker
import Verif.VcUtilLemmas
import Verif.Names
/-
Property C09: argument lists and names of loop invariants.
-/
namespace Metalift

theorem pyEq_var {a b : Expr} (ha : a.isVar = true) (hb : b.isVar = true) :
    a.pyEq b = true ↔ varName a = varName b := by
  cases a <;> simp [Expr.isVar] at ha
  cases b <;> simp [Expr.isVar] at hb
  simp [Expr.pyEq, varName]

theorem insertObj_mem (x : Expr) (l : List Expr) (y : Expr) : y ∈ insertObj x l ↔ y = x ∨ y ∈ l := by
  induction l with
  | nil => simp [insertObj]
  | cons z zs ih =>
    simp only [insertObj]
    split
    · simp
    · simp [ih, or_left_comm]

theorem sortObjs_mem (l : List Expr) (y : Expr) : y ∈ sortObjs l ↔ y ∈ l := by
  induction l with
  | nil => simp [sortObjs]
  | cons z zs ih => simp [sortObjs, insertObj_mem, ih]

theorem insertObj_sorted (x : Expr) (l : List Expr) (h : (l.map varName).Pairwise (· < ·))
    (hx : varName x ∉ l.map varName) : ((insertObj x l).map varName).Pairwise (· < ·) := by
  induction l with
  | nil => simp [insertObj]
  | cons z zs ih =>
    simp only [List.map_cons, List.pairwise_cons, List.mem_cons, not_or] at h hx
    simp only [insertObj]
    split
    · next hle =>
      have hlt : varName x < varName z := by
        rcases Decidable.em (varName z ≤ varName x) with h' | h'
        · exact absurd (String.le_antisymm hle h') hx.1
        · exact String.not_le.1 h'
      simp only [List.map_cons, List.pairwise_cons, List.mem_cons]
      refine ⟨?_, h⟩
      rintro a (rfl | ha)
      · exact hlt
      · exact String.lt_trans hlt (h.1 a ha)
    · next hle =>
      have hlt : varName z < varName x := String.not_le.1 hle
      simp only [List.map_cons, List.pairwise_cons]
      refine ⟨?_, ih h.2 hx.2⟩
      intro a ha
      obtain ⟨w, hw, rfl⟩ := List.mem_map.1 ha
      rcases (insertObj_mem x zs w).1 hw with rfl | hw
      · exact hlt
      · exact h.1 _ (List.mem_map.2 ⟨w, hw, rfl⟩)

theorem sortObjs_sorted (l : List Expr) (h : l.Pairwise (fun a b => varName a ≠ varName b)) :
    ((sortObjs l).map varName).Pairwise (· < ·) := by
  induction l with
  | nil => simp [sortObjs]
  | cons z zs ih =>
    simp only [List.pairwise_cons] at h
    refine insertObj_sorted z _ (ih h.2) ?_
    intro hm
    obtain ⟨w, hw, hwz⟩ := List.mem_map.1 hm
    exact h.1 w ((sortObjs_mem zs w).1 hw) hwz.symm

/-- Two strictly sorted lists with the same elements are equal. -/
theorem sorted_ext : ∀ {l m : List String}, l.Pairwise (· < ·) → m.Pairwise (· < ·) → (∀ x, x ∈ l ↔ x ∈ m) → l = m
  | [], [], _, _, _ => rfl
  | [], y :: ys, _, _, h => by have := (h y).2 (by simp); cases this
  | x :: xs, [], _, _, h => by have := (h x).1 (by simp); cases this
  | x :: xs, y :: ys, hl, hm, h => by
    simp only [List.pairwise_cons] at hl hm
    have hxy : x = y := by
      rcases List.mem_cons.1 ((h x).1 (by simp)) with h1 | h1
      · exact h1
      · rcases List.mem_cons.1 ((h y).2 (by simp)) with h2 | h2
        · exact h2.symm
        · exact absurd (String.lt_trans (hl.1 y h2) (hm.1 x h1)) (String.lt_irrefl x)
    subst hxy
    congr 1
    refine sorted_ext hl.2 hm.2 (fun z => ⟨fun hz => ?_, fun hz => ?_⟩)
    · rcases List.mem_cons.1 ((h z).1 (by simp [hz])) with rfl | h1
      · exact absurd (hl.1 z hz) (String.lt_irrefl z)
      · exact h1
    · rcases List.mem_cons.1 ((h z).2 (by simp [hz])) with rfl | h1
      · exact absurd (hm.1 z hz) (String.lt_irrefl z)
      · exact h1

theorem nonArgs_spec {args inScope : List Expr} (ha : ∀ a ∈ args, a.isVar = true)
    (hs : ∀ a ∈ inScope, a.isVar = true) :
    let r := ObjectSet.sub (ObjectSet.init inScope) (ObjectSet.init args)
    (∀ a ∈ r, a ∈ inScope) ∧ r.Pairwise (fun a b => varName a ≠ varName b) ∧
    ∀ x, x ∈ r.map varName ↔ x ∈ inScope.map varName ∧ x ∉ args.map varName := by
  intro r
  have hr : r = firstOcc [] ((firstOcc [] inScope).filter (fun o => !ObjectSet.contains (firstOcc [] args) o)) := by
    simp only [r, ObjectSet.sub, init_eq_firstOcc]
  have hsub : ∀ a ∈ r, a ∈ inScope := by
    intro a har
    rw [hr] at har
    exact firstOcc_mem _ _ _ (List.mem_filter.1 (firstOcc_mem _ _ _ har)).1
  have hcont : ∀ o, o.isVar = true → (ObjectSet.contains (firstOcc [] args) o = true ↔ varName o ∈ args.map varName) := by
    intro o ho
    simp only [ObjectSet.contains, List.any_eq_true]
    constructor
    · rintro ⟨y, hy, hyo⟩
      have hy' := firstOcc_mem _ _ _ hy
      exact List.mem_map.2 ⟨y, hy', (pyEq_var (ha y hy') ho).1 hyo⟩
    · intro h
      obtain ⟨y, hy, hyo⟩ := List.mem_map.1 h
      rcases firstOcc_cover args [] y hy with ⟨z, hz, _⟩ | ⟨z, hz, hyz⟩
      · cases hz
      · have hz' := firstOcc_mem _ _ _ hz
        exact ⟨z, hz, (pyEq_var (ha z hz') ho).2 (((pyEq_var (ha y hy) (ha z hz')).1 hyz).symm.trans hyo)⟩
  refine ⟨hsub, ?_, fun x => ⟨fun hx => ?_, fun hx => ?_⟩⟩
  · have := firstOcc_pairwise ((firstOcc [] inScope).filter (fun o => !ObjectSet.contains (firstOcc [] args) o)) []
    rw [← hr] at this
    refine (List.Pairwise.imp_of_mem ?_ this)
    intro a b h1 h2 hab hne
    rw [(pyEq_var (hs a (hsub a h1)) (hs b (hsub b h2))).2 hne] at hab
    cases hab
  · obtain ⟨a, har, rfl⟩ := List.mem_map.1 hx
    refine ⟨List.mem_map.2 ⟨a, hsub a har, rfl⟩, fun hc => ?_⟩
    rw [hr] at har
    have := (List.mem_filter.1 (firstOcc_mem _ _ _ har)).2
    rw [(hcont a (hs a (hsub a (hr ▸ har)))).2 hc] at this
    cases this
  · obtain ⟨h1, h2⟩ := hx
    obtain ⟨a, har, rfl⟩ := List.mem_map.1 h1
    rcases firstOcc_cover inScope [] a har with ⟨z, hz, _⟩ | ⟨z, hz, hyz⟩
    · cases hz
    · have hz' := firstOcc_mem _ _ _ hz
      have ez := (pyEq_var (hs a har) (hs z hz')).1 hyz
      have hzf : z ∈ (firstOcc [] inScope).filter (fun o => !ObjectSet.contains (firstOcc [] args) o) := by
        refine List.mem_filter.2 ⟨hz, ?_⟩
        cases hc : ObjectSet.contains (firstOcc [] args) z with
        | false => rfl
        | true => exact absurd (ez ▸ (hcont z (hs z hz')).1 hc) h2
      rcases firstOcc_cover _ [] z hzf with ⟨w, hw, _⟩ | ⟨w, hw, hzw⟩
      · cases hw
      · rw [← hr] at hw
        exact List.mem_map.2 ⟨w, hw, (ez.trans ((pyEq_var (hs z hz') (hs w (hsub w hw))).1 hzw)).symm⟩

/-- C09, coverage and order.  For a loop seen for the first time, the argument list of the invariant
is the list of function arguments followed by a list whose names are strictly increasing (sorted, each
name once) and are exactly the names in scope that are not names of arguments. -/
theorem C09_invariant_args (T : Tracker) (f : String) (o : Nat) (args inScope : List Expr)
    (hnew : T.predicates.lookup o = none) (ha : ∀ a ∈ args, a.isVar = true) (hs : ∀ a ∈ inScope, a.isVar = true) :
    ∃ rest, (T.invariant f o args inScope).1.args = args ++ rest ∧ (rest.map varName).Pairwise (· < ·) ∧
      ∀ x, x ∈ rest.map varName ↔ x ∈ inScope.map varName ∧ x ∉ args.map varName := by
  obtain ⟨h1, h2, h3⟩ := nonArgs_spec ha hs
  refine ⟨sortObjs (ObjectSet.sub (ObjectSet.init inScope) (ObjectSet.init args)), by simp [Tracker.invariant, hnew],
    sortObjs_sorted _ h2, fun x => ?_⟩
  rw [← h3 x]
  simp only [List.mem_map, sortObjs_mem]

/-- C09, independence of the order in which the scope was collected: two scopes with the same names give
invariants with the same argument names in the same order. -/
theorem C09_order_independent (T : Tracker) (f : String) (o : Nat) (args scope1 scope2 : List Expr)
    (hnew : T.predicates.lookup o = none) (ha : ∀ a ∈ args, a.isVar = true)
    (hs1 : ∀ a ∈ scope1, a.isVar = true) (hs2 : ∀ a ∈ scope2, a.isVar = true)
    (hsame : ∀ x, x ∈ scope1.map varName ↔ x ∈ scope2.map varName) :
    (T.invariant f o args scope1).1.args.map varName = (T.invariant f o args scope2).1.args.map varName := by
  obtain ⟨r1, e1, p1, m1⟩ := C09_invariant_args T f o args scope1 hnew ha hs1
  obtain ⟨r2, e2, p2, m2⟩ := C09_invariant_args T f o args scope2 hnew ha hs2
  rw [e1, e2, List.map_append, List.map_append]
  congr 1
  exact sorted_ext p1 p2 (fun x => by rw [m1, m2, hsame])

/-- Non-vacuity: arguments `n`, `b`; scope `{i, b, n, a}`. -/
example : (Tracker.invariant {} "f" 0 [.var "n" .int, .var "b" .int]
    [.var "i" .int, .var "b" .int, .var "n" .int, .var "a" .int]).1.args.map varName = ["n", "b", "a", "i"] := by
  decide

theorem lookup_step (T : Tracker) (r : Request) : (T.step r).2.predicates.lookup r.node = some (T.step r).1 := by
  cases r with
  | inv f o a s =>
    simp only [Tracker.step, Tracker.invariant, Request.node]
    split
    · next h => exact h
    · simp
  | ps f o a s =>
    simp only [Tracker.step, Tracker.postcondition, Request.node]
    split
    · next h => exact h
    · simp

theorem step_cached (T : Tracker) (r : Request) (p : Predicate) (h : T.predicates.lookup r.node = some p) :
    T.step r = (p, T) := by
  cases r <;> simp only [Request.node] at h <;>
    simp [Tracker.step, Tracker.invariant, Tracker.postcondition, h]

theorem lookup_other (T : Tracker) (r : Request) (k : Nat) (h : k ≠ r.node) :
    (T.step r).2.predicates.lookup k = T.predicates.lookup k := by
  cases r with
  | inv f o a s =>
    simp only [Request.node] at h
    have : (k == o) = false := by simpa using h
    simp only [Tracker.step, Tracker.invariant]
    split <;> simp [List.lookup, this]
  | ps f o a s =>
    simp only [Request.node] at h
    have : (k == o) = false := by simpa using h
    simp only [Tracker.step, Tracker.postcondition]
    split <;> simp [List.lookup, this]

theorem step_keeps (T : Tracker) (r : Request) (k : Nat) (p : Predicate) (h : T.predicates.lookup k = some p) :
    (T.step r).2.predicates.lookup k = some p := by
  by_cases hk : k = r.node
  · subst hk; rw [step_cached T r p h]; exact h
  · rw [lookup_other T r k hk]; exact h

theorem run_lookup {k : Nat} {p : Predicate} : ∀ (rs : List Request) (T : Tracker), T.predicates.lookup k = some p →
    ∀ q, (k, q) ∈ T.run rs → q = p
  | [], _, _, q, hm => nomatch hm
  | r :: rs, T, h, q, hm => by
    rcases List.mem_cons.1 hm with he | hm
    · simp only [Prod.mk.injEq] at he
      rw [he.2, step_cached T r p (he.1 ▸ h)]
    · exact run_lookup rs _ (step_keeps T r k p h) q hm

/-- C09, caching.  In every history of requests, all requests for the same loop or function get the
same predicate (whatever arguments and scope the later requests pass). -/
theorem C09_same_node_same_predicate (rs : List Request) : ∀ (T : Tracker) (k : Nat) (p q : Predicate),
    (k, p) ∈ T.run rs → (k, q) ∈ T.run rs → p = q := by
  induction rs with
  | nil => intro T k p q hp; cases hp
  | cons r rs ih =>
    intro T k p q hp hq
    have hl := lookup_step T r
    rcases List.mem_cons.1 hp with he | hp <;> rcases List.mem_cons.1 hq with hf | hq
    · simp only [Prod.mk.injEq] at he hf; rw [he.2, hf.2]
    · simp only [Prod.mk.injEq] at he
      rw [he.2]
      exact (run_lookup rs _ (he.1 ▸ hl) q hq).symm
    · simp only [Prod.mk.injEq] at hf
      rw [hf.2]
      exact run_lookup rs _ (hf.1 ▸ hl) p hp
    · exact ih _ k p q hp hq

theorem inv_noDigit (f : String) : noDigitEnd (f ++ "_inv") = true := by
  simp [noDigitEnd, String.toList_append]

theorem ps_noDigit (f : String) : noDigitEnd (f ++ "_ps") = true := by
  simp [noDigitEnd, String.toList_append]

/-- What the names in a tracker look like: an invariant with a number below `num`, used by one node only,
or a postcondition. -/
structure Tracker.Ok (T : Tracker) : Prop where
  shape : ∀ k p, T.predicates.lookup k = some p →
    (∃ f n, n < T.num ∧ p.name = f ++ "_inv" ++ n.repr) ∨ ∃ f, p.name = f ++ "_ps"
  uniq : ∀ k p k' p', T.predicates.lookup k = some p → T.predicates.lookup k' = some p' →
    p.name = p'.name → k = k' ∨ ∃ f, p.name = f ++ "_ps"

theorem Tracker.Ok.step {T : Tracker} (h : T.Ok) (r : Request) : (T.step r).2.Ok := by
  cases hl : T.predicates.lookup r.node with
  | some p => rw [step_cached T r p hl]; exact h
  | none =>
    have hother : ∀ k p, (T.step r).2.predicates.lookup k = some p →
        (k = r.node ∧ p = (T.step r).1) ∨ (k ≠ r.node ∧ T.predicates.lookup k = some p) := by
      intro k p hp
      by_cases hk : k = r.node
      · subst hk
        rw [lookup_step] at hp
        exact .inl ⟨rfl, by simpa using hp.symm⟩
      · rw [lookup_other T r k hk] at hp
        exact .inr ⟨hk, hp⟩
    cases r with
    | inv f o a s =>
      simp only [Request.node] at hl hother
      have hname : (T.step (.inv f o a s)).1.name = f ++ "_inv" ++ T.num.repr := by
        simp [Tracker.step, Tracker.invariant, hl]
      have hnum : (T.step (.inv f o a s)).2.num = T.num + 1 := by
        simp [Tracker.step, Tracker.invariant, hl]
      -- the new name differs from all existing ones
      have hfresh : ∀ k p, T.predicates.lookup k = some p → p.name ≠ f ++ "_inv" ++ T.num.repr := by
        intro k p hp he
        rcases h.shape k p hp with ⟨g, n, hn, hg⟩ | ⟨g, hg⟩
        · have := (numbered_inj (inv_noDigit g) (inv_noDigit f) (hg.symm.trans he)).2
          omega
        · exact numbered_ne (ps_noDigit g) (hg.symm.trans he)
      refine ⟨fun k p hp => ?_, fun k p k' p' hp hp' he => ?_⟩
      · rcases hother k p hp with ⟨_, rfl⟩ | ⟨_, hp⟩
        · exact .inl ⟨f, T.num, by omega, hname⟩
        · rcases h.shape k p hp with ⟨g, n, hn, hg⟩ | hg
          · exact .inl ⟨g, n, by omega, hg⟩
          · exact .inr hg
      · rcases hother k p hp with ⟨rfl, rfl⟩ | ⟨_, hq⟩ <;> rcases hother k' p' hp' with ⟨rfl, rfl⟩ | ⟨_, hq'⟩
        · exact .inl rfl
        · exact absurd (he.symm.trans hname) (hfresh k' p' hq')
        · exact absurd (he.trans hname) (hfresh k p hq)
        · exact h.uniq k p k' p' hq hq' he
    | ps f o a s =>
      simp only [Request.node] at hl hother
      have hname : (T.step (.ps f o a s)).1.name = f ++ "_ps" := by
        simp [Tracker.step, Tracker.postcondition, hl]
      have hnum : (T.step (.ps f o a s)).2.num = T.num := by
        simp [Tracker.step, Tracker.postcondition, hl]
      refine ⟨fun k p hp => ?_, fun k p k' p' hp hp' he => ?_⟩
      · rcases hother k p hp with ⟨_, rfl⟩ | ⟨_, hp⟩
        · exact .inr ⟨f, hname⟩
        · rw [hnum]; exact h.shape k p hp
      · rcases hother k p hp with ⟨rfl, rfl⟩ | ⟨_, hp⟩
        · exact .inr ⟨f, hname⟩
        · rcases hother k' p' hp' with ⟨rfl, rfl⟩ | ⟨_, hp'⟩
          · exact .inr ⟨f, he.trans hname⟩
          · exact h.uniq k p k' p' hp hp' he

/-- The tracker after a sequence of requests. -/
def Tracker.after (T : Tracker) : List Request → Tracker
  | [] => T
  | r :: rs => (T.step r).2.after rs

theorem after_lookup (k : Nat) (p : Predicate) : ∀ (rs : List Request) (T : Tracker),
    T.predicates.lookup k = some p → (T.after rs).predicates.lookup k = some p
  | [], _, h => h
  | r :: rs, T, h => after_lookup k p rs _ (step_keeps T r k p h)

theorem run_after : ∀ (rs : List Request) (T : Tracker) (k : Nat) (p : Predicate), (k, p) ∈ T.run rs →
    (T.after rs).predicates.lookup k = some p
  | [], _, _, _, h => nomatch h
  | r :: rs, T, k, p, h => by
    rcases List.mem_cons.1 h with he | h
    · simp only [Prod.mk.injEq] at he
      obtain ⟨rfl, rfl⟩ := he
      exact after_lookup _ _ rs _ (lookup_step T r)
    · exact run_after rs _ k p h

theorem after_ok : ∀ (rs : List Request) (T : Tracker), T.Ok → (T.after rs).Ok
  | [], _, h => h
  | r :: rs, _, h => after_ok rs _ (h.step r)

/-- C09, distinct names.  In every history of requests to a new tracker, an invariant has the name of no
predicate that belongs to another loop or function. -/
theorem C09_distinct_names (rs : List Request) (k k' : Nat) (p p' : Predicate)
    (h : (k, p) ∈ Tracker.run {} rs) (h' : (k', p') ∈ Tracker.run {} rs)
    (hinv : ∃ f n, p.name = f ++ "_inv" ++ Nat.repr n) (hne : k ≠ k') : p.name ≠ p'.name := by
  have hok := after_ok rs {} ⟨fun k p h => by simp at h, fun k p _ _ h => by simp at h⟩
  intro he
  rcases hok.uniq k p k' p' (run_after rs {} k p h) (run_after rs {} k' p' h') he with hk | ⟨f, hf⟩
  · exact hne hk
  · obtain ⟨g, n, hg⟩ := hinv
    exact numbered_ne (ps_noDigit f) (hf.symm.trans hg)

/-- Non-vacuity: two loops and a postcondition; the second loop is asked for twice. -/
example : (Tracker.run {} [.inv "f" 1 [] [.var "i" .int], .ps "f" 0 [] [], .inv "f" 2 [] [], .inv "g" 2 [] []]).map
    (fun q => (q.1, q.2.name)) = [(1, "f_inv0"), (0, "f_ps"), (2, "f_inv1"), (2, "f_inv1")] := by
  decide

/-! ### Link with the verification condition generator -/

theorem insertName_mem (x : String) (l : List String) (y : String) : y ∈ insertName x l ↔ y = x ∨ y ∈ l := by
  induction l with
  | nil => simp [insertName]
  | cons z zs ih =>
    simp only [insertName]
    split
    · simp
    · simp [ih, or_left_comm]

theorem sortNames_mem (l : List String) (y : String) : y ∈ sortNames l ↔ y ∈ l := by
  induction l with
  | nil => simp [sortNames]
  | cons z zs ih => simp [sortNames, insertName_mem, ih]

theorem insertObj_names (x : Expr) (l : List Expr) :
    (insertObj x l).map varName = insertName (varName x) (l.map varName) := by
  induction l with
  | nil => rfl
  | cons z zs ih => simp only [insertObj, insertName, List.map_cons]; split <;> simp [ih]

theorem sortObjs_names (l : List Expr) : (sortObjs l).map varName = sortNames (l.map varName) := by
  induction l with
  | nil => rfl
  | cons z zs ih => simp [sortObjs, sortNames, insertObj_names, ih]

/-- The argument names used by the generator (`invArgs` in `PyFrontend.lean`) are those of the tracker, for the
scope consisting of the variables of the state. -/
theorem invArgs_tracker (T : Tracker) (f : String) (o : Nat) (Γ : String → Ty) (params : List String) (vars : SymVars)
    (hnew : T.predicates.lookup o = none) :
    (T.invariant f o (params.map (fun x => .var x (Γ x))) (vars.map (fun q => .var q.1 (Γ q.1)))).1.args.map varName =
      invArgs params vars := by
  have hv : ∀ (l : List String), (l.map (fun x => Expr.var x (Γ x))).map varName = l := by
    intro l; induction l with
    | nil => rfl
    | cons x xs ih => simp only [List.map_cons, ih, varName]
  have hvars : (vars.map (fun q => Expr.var q.1 (Γ q.1))) = (vars.map Prod.fst).map (fun x => .var x (Γ x)) := by
    simp
  have iv : ∀ (l : List String), ∀ a ∈ l.map (fun x => Expr.var x (Γ x)), a.isVar = true := by
    intro l a ha
    obtain ⟨x, _, rfl⟩ := List.mem_map.1 ha
    rfl
  rw [hvars]
  obtain ⟨rest, e1, p1, m1⟩ := C09_invariant_args T f o (params.map (fun x => .var x (Γ x)))
    ((vars.map Prod.fst).map (fun x => .var x (Γ x))) hnew (iv _) (iv _)
  rw [e1, List.map_append, hv, invArgs]
  congr 1
  let d := ((vars.map Prod.fst).filter (fun x => !params.contains x)).eraseDups
  have hd : d.Pairwise (· ≠ ·) := eraseDups_pairwise _ _ (Nat.le_refl _)
  have hs : (sortNames d).Pairwise (· < ·) := by
    rw [← hv d, ← sortObjs_names]
    apply sortObjs_sorted
    rw [List.pairwise_map]
    exact hd
  refine sorted_ext p1 hs (fun x => ?_)
  rw [m1, hv, hv, sortNames_mem]
  simp only [List.mem_eraseDups, List.mem_filter, Bool.not_eq_true', List.contains_eq_mem, decide_eq_false_iff_not]

end Metalift
