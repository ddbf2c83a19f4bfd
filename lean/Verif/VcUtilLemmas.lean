import Verif.VcUtil
import Verif.SimplifyLemmas
/-
Lemmas about `ObjectSet` and the conjunction helpers.
-/
namespace Metalift

/-- Specification: the elements of the list that equal no earlier element of the list
(`seen` are the earlier elements). -/
def firstOcc (seen : List Expr) : List Expr → List Expr
  | [] => []
  | x :: xs => if seen.any (fun y => x.pyEq y) then firstOcc (x :: seen) xs
      else x :: firstOcc (x :: seen) xs

theorem any_congr_seen {s t : List Expr}
    (h : ∀ x, s.any (fun y => Expr.pyEq x y) = t.any (fun y => Expr.pyEq x y)) (l : List Expr) :
    firstOcc s l = firstOcc t l := by
  induction l generalizing s t with
  | nil => rfl
  | cons x xs ih =>
    simp only [firstOcc, h x]
    have h' : ∀ z, (x :: s).any (fun y => Expr.pyEq z y) = (x :: t).any (fun y => Expr.pyEq z y) := by
      intro z; simp only [List.any_cons, h z]
    rw [ih h']

theorem pyEq_any {x y : Expr} {s : List Expr} (hxy : x.pyEq y = true)
    (h : s.any (fun z => y.pyEq z) = true) : s.any (fun z => x.pyEq z) = true := by
  rw [List.any_eq_true] at *
  obtain ⟨z, hz, h⟩ := h
  exact ⟨z, hz, Expr.pyEq_trans _ _ _ hxy h⟩

theorem init_foldl (l : List Expr) : ∀ acc : List Expr,
    l.foldl (fun s obj => if s.any (fun o => obj.pyEq o) then s else s ++ [obj]) acc
      = acc ++ firstOcc acc l := by
  induction l with
  | nil => intro acc; simp [firstOcc]
  | cons x xs ih =>
    intro acc
    simp only [List.foldl_cons, firstOcc]
    split
    · next h =>
      rw [ih acc]
      congr 1
      apply any_congr_seen
      intro z
      simp only [List.any_cons]
      cases hz : z.pyEq x with
      | false => simp
      | true => rw [pyEq_any hz h]; rfl
    · next h =>
      rw [ih (acc ++ [x])]
      simp only [List.append_assoc, List.singleton_append]
      congr 2
      apply any_congr_seen
      intro z
      simp only [List.any_append, List.any_cons, List.any_nil, Bool.or_false]
      rw [Bool.or_comm]

theorem init_eq_firstOcc (l : List Expr) : ObjectSet.init l = firstOcc [] l := by
  rw [ObjectSet.init, init_foldl]; rfl

theorem firstOcc_mem : ∀ (l seen : List Expr) (x : Expr), x ∈ firstOcc seen l → x ∈ l
  | [], _, _, h => by simp [firstOcc] at h
  | y :: ys, seen, x, h => by
    simp only [firstOcc] at h
    split at h
    · exact List.mem_cons_of_mem _ (firstOcc_mem ys _ x h)
    · rcases List.mem_cons.1 h with h | h
      · simp [h]
      · exact List.mem_cons_of_mem _ (firstOcc_mem ys _ x h)

/-- Every element of the list is represented, or was seen before. -/
theorem firstOcc_cover : ∀ (l seen : List Expr) (x : Expr), x ∈ l →
    (∃ y ∈ seen, x.pyEq y = true) ∨ ∃ y ∈ firstOcc seen l, x.pyEq y = true
  | [], _, _, h => by simp at h
  | y :: ys, seen, x, h => by
    simp only [firstOcc]
    rcases List.mem_cons.1 h with rfl | h
    · split
      · next hs => exact Or.inl (List.any_eq_true.1 hs)
      · exact Or.inr ⟨x, by simp, Expr.pyEq_refl x⟩
    · rcases firstOcc_cover ys (y :: seen) x h with ⟨z, hz, hx⟩ | ⟨z, hz, hx⟩
      · rcases List.mem_cons.1 hz with rfl | hz
        · split
          · next hs =>
            exact Or.inl (List.any_eq_true.1 (pyEq_any hx hs))
          · exact Or.inr ⟨z, by simp, hx⟩
        · exact Or.inl ⟨z, hz, hx⟩
      · refine Or.inr ⟨z, ?_, hx⟩
        split
        · exact hz
        · exact List.mem_cons_of_mem _ hz

theorem firstOcc_notSeen : ∀ (l seen : List Expr) (x : Expr), x ∈ firstOcc seen l →
    ∀ y ∈ seen, x.pyEq y = false
  | [], _, _, h, _, _ => by simp [firstOcc] at h
  | z :: zs, seen, x, h, y, hy => by
    simp only [firstOcc] at h
    split at h
    · exact firstOcc_notSeen zs _ x h y (by simp [hy])
    · next hs =>
      rcases List.mem_cons.1 h with rfl | h
      · cases hxy : x.pyEq y with
        | false => rfl
        | true => exact absurd (List.any_eq_true.2 ⟨y, hy, hxy⟩) hs
      · exact firstOcc_notSeen zs _ x h y (by simp [hy])

theorem firstOcc_pairwise : ∀ (l seen : List Expr),
    (firstOcc seen l).Pairwise (fun a b => a.pyEq b = false)
  | [], _ => by simp [firstOcc]
  | z :: zs, seen => by
    simp only [firstOcc]
    split
    · exact firstOcc_pairwise zs _
    · refine List.Pairwise.cons ?_ (firstOcc_pairwise zs _)
      intro b hb
      have := firstOcc_notSeen zs (z :: seen) b hb z (by simp)
      cases hzb : z.pyEq b with
      | false => rfl
      | true => rw [Expr.pyEq_symm _ _ hzb] at this; cases this

theorem any_pyEq_comm (s : List Expr) (k : Expr) :
    s.any (fun o => o.pyEq k) = s.any (fun o => k.pyEq o) := by
  induction s with
  | nil => rfl
  | cons a as ih =>
    simp only [List.any_cons, ih]
    congr 1
    cases h : a.pyEq k with
    | true => rw [Expr.pyEq_symm _ _ h]
    | false =>
      cases h2 : k.pyEq a with
      | false => rfl
      | true => rw [Expr.pyEq_symm _ _ h2] at h; cases h

theorem addAll_eq (t : List Expr) (acc : List Expr) :
    ObjectSet.addAll acc t = acc ++ firstOcc acc t := by
  rw [← init_foldl]
  unfold ObjectSet.addAll
  congr 1
  funext a o
  simp only [ObjectSet.contains, ObjectSet.add, any_pyEq_comm]
  cases a.any (fun z => o.pyEq z) <;> simp

theorem firstOcc_append : ∀ (s t seen : List Expr),
    firstOcc seen (s ++ t) = firstOcc seen s ++ firstOcc (s.reverse ++ seen) t
  | [], t, seen => by simp [firstOcc]
  | x :: xs, t, seen => by
    simp only [List.cons_append, firstOcc, List.reverse_cons, List.append_assoc, List.nil_append]
    rw [firstOcc_append xs t (x :: seen)]
    split <;> simp

theorem union_eq (s t : List Expr) : ObjectSet.union s t = firstOcc [] (s ++ t) := by
  unfold ObjectSet.union
  rw [addAll_eq, addAll_eq, firstOcc_append]
  have h0 : ObjectSet.init [] = [] := rfl
  rw [h0, List.nil_append]
  congr 1
  apply any_congr_seen
  intro x
  rw [Bool.eq_iff_iff, List.any_eq_true, List.any_eq_true]
  constructor
  · rintro ⟨y, hy, h⟩
    exact ⟨y, by simp [firstOcc_mem _ _ _ hy], h⟩
  · rintro ⟨y, hy, h⟩
    have hy : y ∈ s := by simpa using hy
    rcases firstOcc_cover s [] y hy with ⟨z, hz, _⟩ | ⟨z, hz, hyz⟩
    · simp at hz
    · exact ⟨z, hz, Expr.pyEq_trans _ _ _ h hyz⟩

/-! ### Literal types -/

mutual
/-- Types of the literals of an expression, from left to right. -/
def Expr.litTys : Expr → List Ty
  | .var _ _ => []
  | .lit (.int _) => [.int]
  | .lit (.bool _) => [.bool]
  | .node _ _ args => Expr.litTyss args
def Expr.litTyss : List Expr → List Ty
  | [] => []
  | e :: es => Expr.litTys e ++ Expr.litTyss es
end

mutual
theorem pyEq_litLen : ∀ a b : Expr, a.pyEq b = true → a.litTys.length = b.litTys.length
  | .var _ _, b, h => by cases b <;> simp_all [Expr.pyEq, Expr.litTys]
  | .lit l, b, h => by
    cases b <;> simp [Expr.pyEq] at h
    rename_i m
    cases l <;> cases m <;> simp [Expr.litTys]
  | .node _ _ as, b, h => by
    cases b <;> simp [Expr.pyEq] at h
    simp only [Expr.litTys]
    exact pyEqs_litLen as _ h.2
theorem pyEqs_litLen : ∀ a b : List Expr, Expr.pyEqs a b = true →
    (Expr.litTyss a).length = (Expr.litTyss b).length
  | [], b, h => by cases b <;> simp_all [Expr.pyEqs]
  | a :: as, [], h => by simp [Expr.pyEqs] at h
  | a :: as, b :: bs, h => by
    simp only [Expr.pyEqs, Bool.and_eq_true] at h
    simp [Expr.litTyss, pyEq_litLen a b h.1, pyEqs_litLen as bs h.2]
end

mutual
theorem pyEq_eval (I : Interp) (ρ : Env) : ∀ a b : Expr, a.pyEq b = true → a.litTys = b.litTys →
    eval I ρ a = eval I ρ b
  | .var _ _, b, h, _ => by cases b <;> simp_all [Expr.pyEq, eval]
  | .lit l, b, h, h' => by
    cases b <;> simp [Expr.pyEq] at h
    rename_i m
    cases l <;> cases m <;> simp_all [Expr.litTys, Lit.pyEq, eval]
  | .node o _ as, b, h, h' => by
    cases b <;> simp [Expr.pyEq] at h
    simp only [Expr.litTys] at h'
    simp only [eval, pyEqs_eval I ρ as _ h.2 h', h.1]
theorem pyEqs_eval (I : Interp) (ρ : Env) : ∀ a b : List Expr, Expr.pyEqs a b = true →
    Expr.litTyss a = Expr.litTyss b → evals I ρ a = evals I ρ b
  | [], b, h, _ => by cases b <;> simp_all [Expr.pyEqs]
  | a :: as, [], h, _ => by simp [Expr.pyEqs] at h
  | a :: as, b :: bs, h, h' => by
    simp only [Expr.pyEqs, Bool.and_eq_true] at h
    simp only [Expr.litTyss] at h'
    obtain ⟨h1, h2⟩ := List.append_inj h' (pyEq_litLen a b h.1)
    simp only [evals, pyEq_eval I ρ a b h.1 h1, pyEqs_eval I ρ as bs h.2 h2]
end

/-! ### Folds -/

theorem and_fold_holds (I : Interp) (ρ : Env) (es : List Expr) : ∀ e : Expr,
    holds I ρ (es.foldl (fun r x => mkAnd [r, x]) e) ↔ holds I ρ e ∧ ∀ x ∈ es, holds I ρ x := by
  induction es with
  | nil => simp
  | cons x xs ih =>
    intro e
    simp only [List.foldl_cons, ih]
    simp [holds, mkAnd, eval, evals, evalOp, and_assoc]

theorem or_fold_holds (I : Interp) (ρ : Env) (es : List Expr) : ∀ e : Expr,
    holds I ρ (es.foldl (fun r x => mkOr [r, x]) e) ↔ holds I ρ e ∨ ∃ x ∈ es, holds I ρ x := by
  induction es with
  | nil => simp
  | cons x xs ih =>
    intro e
    simp only [List.foldl_cons, ih]
    simp [holds, mkOr, eval, evals, evalOp, or_assoc]

end Metalift
