import Verif.VcUtilLemmas
/-
Properties C10-C14: conjunction helpers, object sets, expression equality, `simplify`,
`optimize_useless_equality`.
-/
namespace Metalift

/-! ### A concrete signature, interpretation and environment for the examples -/

/-- `x`, `y` are integers, everything else is boolean. -/
def demoS : Sig where
  var := fun n => if n = "x" ∨ n = "y" then .int else .bool
  ret := fun _ => .bool

/-- Functions return true on a singleton list of a positive integer. -/
def demoI : Interp where
  fn := fun _ vs => .bool (match vs with | [v] => decide (v.asInt > 0) | _ => false)
  apply := fun _ vs => .bool (match vs with | [v] => decide (v.asInt > 0) | _ => false)
  idiv := Int.tdiv
  imod := Int.tmod
  choose := fun vs => vs.headD (.int 0)

theorem demoI_ok : demoI.Ok demoS := by
  refine ⟨fun f vs => ⟨_, rfl⟩, fun g vs => rfl, ?_⟩
  intro vs h
  cases vs with
  | nil => exact absurd rfl h
  | cons v vs => simp [demoI]

/-- `x = 3`, `y = 4`, booleans true. -/
def demoρ : Env := fun n => if n = "x" then .int 3 else if n = "y" then .int 4 else .bool true

theorem demoρ_ok : demoρ.Ok demoS := by
  intro n
  unfold demoρ demoS
  by_cases h1 : n = "x"
  · simp [h1, HasKind, Ty.kind]
  · by_cases h2 : n = "y"
    · simp [h2, HasKind, Ty.kind]
    · simp [h1, h2, HasKind, Ty.kind]

theorem demoS_uname (k : Nat) : demoS.var (uname k) = .bool := by
  have h : ∀ s : String, s.toList.head? ≠ some 'u' → uname k ≠ s := by
    intro s hs he
    apply hs
    rw [← he]
    simp [uname]
  have h1 : uname k ≠ "x" := h _ (by decide)
  have h2 : uname k ≠ "y" := h _ (by decide)
  simp [demoS, h1, h2]

def vx : Expr := .var "x" .int
def vy : Expr := .var "y" .int
def vb : Expr := .var "b" .bool

/-! ### C10: `and_objects` / `or_objects` -/

/-- C10 (partial): on every non-empty list of objects `and_objects` returns an expression that holds
exactly when all members hold; it raises exactly on the empty list.  The guard excludes lists in
which two members are equal for Python only because `1 == True` (see `C10_and_objects_refuted`). -/
theorem C10_and_objects_partial (I : Interp) (l : List Expr)
    (guard : ∀ a ∈ l, ∀ b ∈ l, a.pyEq b = true → a.litTys = b.litTys) :
    (andObjects l = none ↔ l = []) ∧
    ∀ e, andObjects l = some e → ∀ ρ, (holds I ρ e ↔ ∀ x ∈ l, holds I ρ x) := by
  unfold andObjects
  rw [init_eq_firstOcc]
  constructor
  · cases l with
    | nil => simp [firstOcc, andExprs]
    | cons x xs => simp [firstOcc, andExprs]
  · intro e he ρ
    have key : holds I ρ e ↔ ∀ x ∈ firstOcc [] l, holds I ρ x := by
      cases hf : firstOcc [] l with
      | nil => rw [hf] at he; simp [andExprs] at he
      | cons y ys =>
        rw [hf] at he
        simp only [andExprs, Option.some.injEq] at he
        rw [← he, and_fold_holds]; simp
    rw [key]
    constructor
    · intro h x hx
      rcases firstOcc_cover l [] x hx with ⟨y, hy, _⟩ | ⟨y, hy, hxy⟩
      · simp at hy
      · have := pyEq_eval I ρ x y hxy (guard x hx y (firstOcc_mem _ _ _ hy) hxy)
        unfold holds at *
        rw [this]; exact h y hy
    · intro h x hx
      exact h x (firstOcc_mem _ _ _ hx)

/-- C10 (partial): `or_objects` holds exactly when some member holds; same guard. -/
theorem C10_or_objects_partial (I : Interp) (l : List Expr)
    (guard : ∀ a ∈ l, ∀ b ∈ l, a.pyEq b = true → a.litTys = b.litTys) :
    (orObjects l = none ↔ l = []) ∧
    ∀ e, orObjects l = some e → ∀ ρ, (holds I ρ e ↔ ∃ x ∈ l, holds I ρ x) := by
  unfold orObjects
  rw [init_eq_firstOcc]
  constructor
  · cases l with
    | nil => simp [firstOcc, orExprs]
    | cons x xs => simp [firstOcc, orExprs]
  · intro e he ρ
    have key : holds I ρ e ↔ ∃ x ∈ firstOcc [] l, holds I ρ x := by
      cases hf : firstOcc [] l with
      | nil => rw [hf] at he; simp [orExprs] at he
      | cons y ys =>
        rw [hf] at he
        simp only [orExprs, Option.some.injEq] at he
        rw [← he, or_fold_holds]; simp
    rw [key]
    constructor
    · rintro ⟨x, hx, h⟩
      exact ⟨x, firstOcc_mem _ _ _ hx, h⟩
    · rintro ⟨x, hx, h⟩
      rcases firstOcc_cover l [] x hx with ⟨y, hy, _⟩ | ⟨y, hy, hxy⟩
      · simp at hy
      · have := pyEq_eval I ρ x y hxy (guard x hx y (firstOcc_mem _ _ _ hy) hxy)
        unfold holds at *
        exact ⟨y, hy, this ▸ h⟩

/-- Non-vacuity: three objects, one a duplicate. -/
example : ∃ e, andObjects [vb, mkEq vx (intLit 3), vb] = some e ∧
    (∀ a ∈ [vb, mkEq vx (intLit 3), vb], ∀ b ∈ [vb, mkEq vx (intLit 3), vb],
      a.pyEq b = true → a.litTys = b.litTys) ∧ holds demoI demoρ e ∧
    e = mkAnd [vb, mkEq vx (intLit 3)] := by
  refine ⟨_, rfl, ?_, ?_, ?_⟩
  · decide
  · decide
  · decide

/-- C10 refuted in full generality: `x == 1` and `x == True` count as duplicates, so the
conjunction loses the second one. -/
theorem C10_and_objects_refuted : ∃ (l : List Expr) (e : Expr) (ρ : Env),
    andObjects l = some e ∧ holds demoI ρ e ∧ ¬ ∀ x ∈ l, holds demoI ρ x :=
  ⟨[mkEq vx (intLit 1), mkEq vx (boolLit true)], _, fun _ => .int 1, rfl, by decide, by
    intro h
    exact absurd (h (mkEq vx (boolLit true)) (by simp)) (by decide)⟩

/-! ### C11: `ObjectSet` -/

/-- Histories of operations that build an `ObjectSet`. -/
inductive SetHist where
  | new (objs : List Expr)
  | add (h : SetHist) (key : Expr)
  | sub (h g : SetHist)
  | union (h g : SetHist)

/-- The list of objects held after a history, according to the code. -/
def SetHist.run : SetHist → List Expr
  | .new objs => ObjectSet.init objs
  | .add h k => ObjectSet.add h.run k
  | .sub h g => ObjectSet.sub h.run g.run
  | .union h g => ObjectSet.union h.run g.run

/-- Specification: which objects are in the set. -/
def SetHist.Mem (x : Expr) : SetHist → Prop
  | .new objs => ∃ o ∈ objs, x.pyEq o = true
  | .add h k => h.Mem x ∨ x.pyEq k = true
  | .sub h g => h.Mem x ∧ ¬ g.Mem x
  | .union h g => h.Mem x ∨ g.Mem x

theorem mem_congr (x y : Expr) (hxy : x.pyEq y = true) : ∀ h : SetHist, h.Mem y → h.Mem x
  | .new objs, h => by
    obtain ⟨o, ho, e⟩ := h
    exact ⟨o, ho, Expr.pyEq_trans _ _ _ hxy e⟩
  | .add h k, hm => hm.elim (fun a => Or.inl (mem_congr x y hxy h a))
      (fun a => Or.inr (Expr.pyEq_trans _ _ _ hxy a))
  | .sub h g, hm => ⟨mem_congr x y hxy h hm.1,
      fun a => hm.2 (mem_congr y x (Expr.pyEq_symm _ _ hxy) g a)⟩
  | .union h g, hm => hm.imp (mem_congr x y hxy h) (mem_congr x y hxy g)

theorem contains_iff (s : List Expr) (x : Expr) :
    ObjectSet.contains s x = true ↔ ∃ o ∈ s, x.pyEq o = true := by
  rw [ObjectSet.contains, any_pyEq_comm, List.any_eq_true]

theorem init_mem (l : List Expr) (x : Expr) :
    (∃ o ∈ ObjectSet.init l, x.pyEq o = true) ↔ ∃ o ∈ l, x.pyEq o = true := by
  rw [init_eq_firstOcc]
  constructor
  · rintro ⟨o, ho, h⟩
    exact ⟨o, firstOcc_mem _ _ _ ho, h⟩
  · rintro ⟨o, ho, h⟩
    rcases firstOcc_cover l [] o ho with ⟨y, hy, _⟩ | ⟨y, hy, hoy⟩
    · simp at hy
    · exact ⟨y, hy, Expr.pyEq_trans _ _ _ h hoy⟩

/-- C11: after any history, `x in s` iff the set specification says so. -/
theorem C11_contains (h : SetHist) (x : Expr) : ObjectSet.contains h.run x = true ↔ h.Mem x := by
  induction h generalizing x with
  | new objs => rw [contains_iff]; exact init_mem objs x
  | add h k ih =>
    simp only [SetHist.run, SetHist.Mem, ObjectSet.add]
    rw [← ih x]
    split
    · next hk =>
      constructor
      · exact Or.inl
      · rintro (h1 | h1)
        · exact h1
        · rw [contains_iff] at *
          rw [any_pyEq_comm, List.any_eq_true] at hk
          obtain ⟨o, ho, e⟩ := hk
          exact ⟨o, ho, Expr.pyEq_trans _ _ _ h1 e⟩
    · simp only [contains_iff, List.mem_append, List.mem_singleton]
      constructor
      · rintro ⟨o, h1 | rfl, e⟩
        · exact Or.inl ⟨o, h1, e⟩
        · exact Or.inr e
      · rintro (⟨o, h1, e⟩ | e)
        · exact ⟨o, Or.inl h1, e⟩
        · exact ⟨k, Or.inr rfl, e⟩
  | sub h g ih1 ih2 =>
    simp only [SetHist.run, SetHist.Mem, ObjectSet.sub]
    rw [contains_iff, init_mem]
    constructor
    · rintro ⟨o, ho, e⟩
      rw [List.mem_filter] at ho
      refine ⟨(ih1 x).1 ((contains_iff _ _).2 ⟨o, ho.1, e⟩), fun hg => ?_⟩
      have : g.Mem o := mem_congr o x (Expr.pyEq_symm _ _ e) g hg
      rw [(ih2 o).2 this] at ho
      simp at ho
    · rintro ⟨h1, h2⟩
      obtain ⟨o, ho, e⟩ := (contains_iff _ _).1 ((ih1 x).2 h1)
      refine ⟨o, List.mem_filter.2 ⟨ho, ?_⟩, e⟩
      cases hc : ObjectSet.contains g.run o with
      | false => rfl
      | true => exact absurd (mem_congr x o e g ((ih2 o).1 hc)) h2
  | union h g ih1 ih2 =>
    simp only [SetHist.run, SetHist.Mem]
    rw [union_eq, ← init_eq_firstOcc, contains_iff, init_mem, ← ih1 x, ← ih2 x]
    simp only [contains_iff, List.mem_append]
    constructor
    · rintro ⟨o, h1 | h1, e⟩
      · exact Or.inl ⟨o, h1, e⟩
      · exact Or.inr ⟨o, h1, e⟩
    · rintro (⟨o, h1, e⟩ | ⟨o, h1, e⟩)
      · exact ⟨o, Or.inl h1, e⟩
      · exact ⟨o, Or.inr h1, e⟩

/-- C11: after any history the objects listed are pairwise different. -/
theorem C11_no_duplicates (h : SetHist) : h.run.Pairwise (fun a b => a.pyEq b = false) := by
  induction h with
  | new objs => rw [SetHist.run, init_eq_firstOcc]; exact firstOcc_pairwise _ _
  | add h k ih =>
    simp only [SetHist.run, ObjectSet.add]
    split
    · exact ih
    · next hk =>
      rw [List.pairwise_append]
      refine ⟨ih, List.pairwise_singleton _ _, ?_⟩
      intro a ha b hb
      simp only [List.mem_singleton] at hb
      subst hb
      cases hab : a.pyEq b with
      | false => rfl
      | true => exact absurd (List.any_eq_true.2 ⟨a, ha, hab⟩) hk
  | sub h g _ _ => rw [SetHist.run, ObjectSet.sub, init_eq_firstOcc]; exact firstOcc_pairwise _ _
  | union h g _ _ => rw [SetHist.run, union_eq]; exact firstOcc_pairwise _ _

/-- C11: objects are listed in order of first insertion.  A new set keeps exactly those elements that
equal no earlier one; adding appends at the end or does nothing; difference keeps the order of
the first set; union lists the first set and then the second, without repetitions. -/
theorem C11_order :
    (∀ objs, (SetHist.new objs).run = firstOcc [] objs) ∧
    (∀ h k, (SetHist.add h k).run = firstOcc [] (h.run ++ [k])) ∧
    (∀ h g, (SetHist.sub h g).run = h.run.filter (fun o => !ObjectSet.contains g.run o)) ∧
    (∀ h g, (SetHist.union h g).run = firstOcc [] (h.run ++ g.run)) := by
  have self : ∀ l : List Expr, l.Pairwise (fun a b => a.pyEq b = false) → ∀ seen : List Expr,
      (∀ x ∈ l, ∀ y ∈ seen, x.pyEq y = false) → firstOcc seen l = l := by
    intro l
    induction l with
    | nil => intro _ _ _; rfl
    | cons x xs ih =>
      intro hp seen hs
      rw [List.pairwise_cons] at hp
      have : seen.any (fun y => x.pyEq y) = false := by
        rw [List.any_eq_false]
        intro y hy
        simp [hs x (by simp) y hy]
      simp only [firstOcc, this, Bool.false_eq_true, if_false]
      rw [ih hp.2]
      intro z hz y hy
      rcases List.mem_cons.1 hy with rfl | hy
      · cases hzy : z.pyEq y with
        | false => rfl
        | true =>
          have := hp.1 z hz
          rw [Expr.pyEq_symm _ _ hzy] at this; cases this
      · exact hs z (by simp [hz]) y hy
  refine ⟨fun objs => init_eq_firstOcc objs, ?_, ?_, fun h g => union_eq _ _⟩
  · intro h k
    rw [firstOcc_append, self _ (C11_no_duplicates h) [] (by simp)]
    simp only [SetHist.run, ObjectSet.add, firstOcc, List.append_nil]
    rw [any_pyEq_comm]
    have : h.run.reverse.any (fun y => k.pyEq y) = h.run.any (fun y => k.pyEq y) := by
      rw [List.any_reverse]
    rw [this]
    split <;> simp
  · intro h g
    rw [SetHist.run, ObjectSet.sub, init_eq_firstOcc]
    apply self
    · exact (C11_no_duplicates h).filter _
    · simp

example : (SetHist.union (.add (.new [vx, vb, vx]) vy) (.sub (.new [vb, intLit 1]) (.new [vb]))).run
    = [vx, vb, vy, intLit 1] := by decide

/-! ### C12: expression equality and hashing -/

/-- C12: `==` on expressions is an equivalence relation, and equal expressions have equal hashes (for
every hash function on tuples). -/
theorem C12_equivalence (h : List String → Int) :
    (∀ a : Expr, a.pyEq a = true) ∧
    (∀ a b : Expr, a.pyEq b = true → b.pyEq a = true) ∧
    (∀ a b c : Expr, a.pyEq b = true → b.pyEq c = true → a.pyEq c = true) ∧
    (∀ a b : Expr, a.pyEq b = true → a.pyHash h = b.pyHash h) :=
  ⟨Expr.pyEq_refl, Expr.pyEq_symm, Expr.pyEq_trans, fun _ _ _ => rfl⟩

/-- C12: equality is a congruence: replacing equal arguments gives equal expressions. -/
theorem C12_congruence (op : Op) (t u : Ty) (as bs : List Expr)
    (h : All2 (fun a b => a.pyEq b = true) as bs) :
    (Expr.node op t as).pyEq (.node op u bs) = true := by
  simp only [Expr.pyEq, decide_true, Bool.true_and]
  induction h with
  | nil => rfl
  | cons h1 _ ih => simp [Expr.pyEqs, h1, ih]

/-- C12 (partial): expressions that are equal and whose literals have the same types denote the same
value in every environment and interpretation. -/
theorem C12_same_value_partial (I : Interp) (ρ : Env) (a b : Expr) (h : a.pyEq b = true)
    (hl : a.litTys = b.litTys) : eval I ρ a = eval I ρ b := pyEq_eval I ρ a b h hl

example : (mkEq vx (intLit 3)).pyEq (mkEq (.var "x" .bool) (intLit 3)) = true ∧
    (mkEq vx (intLit 3)).litTys = (mkEq (.var "x" .bool) (intLit 3)).litTys := by decide

/-- C12 refuted in full generality: `Lit(1, Int) == Lit(True, Bool)` but `x == 1` and `x == True` have
different values. -/
theorem C12_same_value_refuted : ∃ (a b : Expr) (ρ : Env), a.pyEq b = true ∧
    eval demoI ρ a ≠ eval demoI ρ b :=
  ⟨mkEq vx (intLit 1), mkEq vx (boolLit true), fun _ => .int 1, by decide, by decide⟩

/-! ### C13: `simplify` -/

/-- C13: simplification never changes the value of a well-typed expression, nor its type, and
introduces no variables. -/
theorem C13_simplify {S : Sig} {I : Interp} {ρ : Env} (hI : I.Ok S) (hρ : ρ.Ok S) (e : Expr)
    (h : e.WT S) :
    eval I ρ e.simplify = eval I ρ e ∧ e.simplify.WT S ∧ e.simplify.ty = e.ty ∧
    ∀ x ∈ e.simplify.vars, x ∈ e.vars :=
  ⟨simplify_eval hI hρ e h, (simplify_WT e h).1, (simplify_WT e h).2, simplify_vars e⟩

example : (mkAnd [mkAnd [vb, boolLit true], mkNot (mkAnd [boolLit false, vb]), boolLit true]).simplify
      = mkAnd [vb, mkNot (boolLit false)] ∧
    (mkAnd [mkAnd [vb, boolLit true], mkNot (mkAnd [boolLit false, vb]), boolLit true]).WT demoS := by
  refine ⟨by decide, ?_⟩
  simp [mkAnd, mkNot, vb, boolLit, Expr.WT, Expr.WTs, Op.WT, Expr.ty, demoS]

mutual
/-- Specification: some `And` inside the expression has a literal among its arguments, or fewer than two
arguments. -/
def Expr.hasRedundantAnd : Expr → Bool
  | .var _ _ => false
  | .lit _ => false
  | .node op _ args =>
    (decide (op = .and) && (args.any (fun a => match a with | .lit _ => true | _ => false) ||
      decide (args.length < 2))) || Expr.hasRedundantAnds args
def Expr.hasRedundantAnds : List Expr → Bool
  | [] => false
  | e :: es => Expr.hasRedundantAnd e || Expr.hasRedundantAnds es
end

theorem andFilter_nolit : ∀ (es fs : List Expr), andFilter es = some fs →
    ∀ f ∈ fs, (match f with | .lit _ => true | _ => false) = false
  | [], fs, h => by simp [andFilter] at h; simp [h]
  | .lit l :: rest, fs, h => by
    simp only [andFilter] at h
    split at h
    · cases h
    · exact andFilter_nolit rest fs h
  | .var n t :: rest, fs, h => by
    simp only [andFilter, Option.map_eq_some_iff] at h
    obtain ⟨gs, hg, rfl⟩ := h
    intro f hf
    rcases List.mem_cons.1 hf with rfl | hf
    · rfl
    · exact andFilter_nolit rest gs hg f hf
  | .node o t as :: rest, fs, h => by
    simp only [andFilter, Option.map_eq_some_iff] at h
    obtain ⟨gs, hg, rfl⟩ := h
    intro f hf
    rcases List.mem_cons.1 hf with rfl | hf
    · rfl
    · exact andFilter_nolit rest gs hg f hf

theorem hasRedundantAnds_iff {es : List Expr} :
    Expr.hasRedundantAnds es = false ↔ ∀ e ∈ es, e.hasRedundantAnd = false := by
  induction es with
  | nil => simp [Expr.hasRedundantAnds]
  | cons e es ih => simp [Expr.hasRedundantAnds, ih]

/-- C13: the result contains no conjunction with a literal or with fewer than two members. -/
theorem C13_simplified (e : Expr) : e.simplify.hasRedundantAnd = false := by
  induction e using Expr.ind with
  | hv n t => rfl
  | hl l => rfl
  | hn op t args ih =>
    simp only [Expr.simplify, Expr.simplifys_eq_map]
    have hargs : ∀ a ∈ args.map Expr.simplify, a.hasRedundantAnd = false := by
      intro a ha
      obtain ⟨b, hb, rfl⟩ := List.mem_map.1 ha
      exact ih b hb
    unfold simplifyTop
    split
    · split
      · rfl
      · rfl
      · next e hf => exact hargs e (andFilter_sub _ _ hf e (by simp))
      · next es h1 h2 hf =>
        simp only [mkAnd, Expr.hasRedundantAnd, Bool.or_eq_false_iff, decide_true, Bool.true_and,
          decide_eq_false_iff_not]
        refine ⟨⟨?_, ?_⟩, hasRedundantAnds_iff.2 (fun a ha => hargs a (andFilter_sub _ _ hf a ha))⟩
        · rw [List.any_eq_false]
          intro f hf'
          simpa using andFilter_nolit _ _ hf f hf'
        · match es, h1, h2 with
          | [], h1, _ => exact absurd rfl h1
          | [a], _, h2 => exact absurd rfl (h2 a)
          | _ :: _ :: _, _, _ => simp
    · next op hop =>
      simp only [Expr.hasRedundantAnd, Bool.or_eq_false_iff, Bool.and_eq_false_iff,
        decide_eq_false_iff_not]
      exact ⟨Or.inl hop, hasRedundantAnds_iff.2 hargs⟩

/-! ### C14: `optimize_useless_equality` -/

/-- C14 (partial): when every implication of a well-typed verification condition is in a positive
position (reached from the root through conjunctions, disjunctions, conclusions of implications and branches of
conditionals) and the replacement names `useless_equality_k` (`k ≥ n`) do not occur in it, validity of
the optimised condition implies validity of the original one - for one pass with arbitrary counts... -/
theorem C14_optimize_partial {S : Sig} {I : Interp} (hI : I.Ok S)
    (hS : ∀ k, S.var (uname k) = .bool) (c : Counts) (fuel n n' : Nat) (vc vc' : Expr)
    (hw : vc.WT S) (hpos : vc.posImp = true) (hfresh : ∀ k, n ≤ k → uname k ∉ vc.vars)
    (h : opt c fuel n vc = some (vc', n'))
    (hvalid : ∀ σ : Env, σ.Ok S → holds I σ vc') : ∀ ρ : Env, ρ.Ok S → holds I ρ vc := by
  intro ρ hρ
  obtain ⟨σ, hσ, -, -, q⟩ := (opt_ok hI hS c fuel n n' vc vc' hw hpos hfresh h).sem ρ hρ
  exact q (hvalid σ hσ)

/-- ... and for the driver loop that repeats the pass until the text no longer changes. -/
theorem C14_optimize_loop_partial {S : Sig} {I : Interp} (hI : I.Ok S)
    (hS : ∀ k, S.var (uname k) = .bool) (same : Expr → Expr → Bool) (fuel rounds n' : Nat)
    (vc vc' : Expr) (hw : vc.WT S) (hpos : vc.posImp = true) (hfresh : ∀ k, uname k ∉ vc.vars)
    (h : optLoop same fuel rounds 0 vc = some (vc', n'))
    (hvalid : ∀ σ : Env, σ.Ok S → holds I σ vc') : ∀ ρ : Env, ρ.Ok S → holds I ρ vc :=
  optLoop_ok hI hS same fuel rounds 0 n' vc vc' hw hpos (fun k _ => hfresh k) h hvalid

/-- A condition of the shape the frontends produce: `(y = 3 and b => ps(y)) and (b => inv(x))`. -/
def demoVC : Expr :=
  mkAnd [mkImplies (mkAnd [mkEq vy (intLit 3), vb]) (mkCall "ps" .bool [vy]),
    mkImplies vb (mkCall "inv" .bool [vx])]

example : ∃ vc' n', optLoop (fun a b => decide (a = b)) 10 5 0 demoVC = some (vc', n') ∧
    demoVC.WT demoS ∧ demoVC.posImp = true ∧ vc' ≠ demoVC ∧ demoI.Ok demoS ∧
    (∀ k, demoS.var (uname k) = .bool) ∧ ∀ k, uname k ∉ demoVC.vars := by
  refine ⟨_, _, rfl, ?_, by decide, by decide, demoI_ok, demoS_uname, ?_⟩
  · simp [demoVC, mkAnd, mkImplies, mkEq, mkCall, vb, vx, vy, intLit, Expr.WT, Expr.WTs, Op.WT, Expr.ty,
      demoS, Ty.kind]
  · intro k hk
    have : demoVC.vars = ["y", "b", "y", "b", "x"] := by decide
    rw [this] at hk
    have h : ∀ s : String, s.toList.head? ≠ some 'u' → uname k ≠ s := by
      intro s hs he
      apply hs; rw [← he]; simp [uname]
    simp [h "y" (by decide), h "x" (by decide), h "b" (by decide)] at hk

/-- C14 refuted without the position guard: `not (x = 3 => false)` is not valid, but optimising it
gives `not (3 = 3 => false)`, which is. -/
theorem C14_optimize_refuted : ∃ (vc vc' : Expr) (n' : Nat),
    opt vc.counts 10 0 vc = some (vc', n') ∧ vc.WT demoS ∧ (∀ k, uname k ∉ vc.vars) ∧
    (∀ σ : Env, holds demoI σ vc') ∧ ∃ ρ : Env, ρ.Ok demoS ∧ ¬ holds demoI ρ vc := by
  refine ⟨mkNot (mkImplies (mkEq vx (intLit 3)) (boolLit false)),
    mkNot (mkImplies (mkEq (intLit 3) (intLit 3)) (boolLit false)), 0, by decide, ?_, ?_, ?_, ?_⟩
  · simp [mkNot, mkImplies, mkEq, vx, intLit, boolLit, Expr.WT, Expr.WTs, Op.WT, Expr.ty, demoS]
  · intro k hk
    have hu : uname k = "x" := by
      simpa [mkNot, mkImplies, mkEq, vx, intLit, boolLit, Expr.vars, Expr.varss] using hk
    have : (uname k).toList.head? = some 'u' := by simp [uname]
    rw [hu] at this
    exact absurd this (by decide)
  · intro σ; rfl
  · refine ⟨demoρ.set "x" (.int 4), ?_, by decide⟩
    intro m
    unfold Env.set
    split
    · next h => subst h; simp [demoS, HasKind, Ty.kind]
    · exact demoρ_ok m

end Metalift
