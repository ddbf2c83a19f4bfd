import Verif.PTenModel
/-
C37, continued: the arithmetic helpers of lists and matrices pass their operands in the right order.
-/
namespace Metalift.Ten
open Metalift

/-- The helpers and the operation each stands for. -/
def helpers (I : Interp) : List ((Container → Obj → Obj → Option Obj) × (Int → Int → Int)) :=
  [(Container.add, (· + ·)), (Container.sub, (· - ·)), (Container.mul, (· * ·)), (Container.div, I.idiv)]

/-- The common part: the result of a helper from the meaning of the three functions it may call. -/
theorem arith_eval {I : Interp} {ρ : Env} {c : Container} {left right elem : String} {a b : Obj} {u v r : Val}
    (ha : eval I ρ a.src = u) (hb : eval I ρ b.src = v)
    (h : a.ty = .int ∧ b.ty = c.ty ∧ I.fn left [u, v] = r ∨ a.ty = c.ty ∧ b.ty = .int ∧ I.fn right [v, u] = r ∨
      a.ty = c.ty ∧ b.ty = c.ty ∧ I.fn elem [u, v] = r) :
    ∃ o, Container.arith c left right elem a b = some o ∧ o.ty = c.ty ∧ eval I ρ o.src = r := by
  have hc : c.ty ≠ .int := by cases c <;> simp [Container.ty]
  rcases h with ⟨h1, h2, h3⟩ | ⟨h1, h2, h3⟩ | ⟨h1, h2, h3⟩
  · refine ⟨call left c.ty [a, b], by simp [Container.arith, Container.check, h1, h2], rfl, ?_⟩
    rw [eval_call]
    simp only [List.map_cons, List.map_nil, ha, hb, h3]
  · refine ⟨call right c.ty [b, a], by simp [Container.arith, Container.check, h1, h2, hc], rfl, ?_⟩
    rw [eval_call]
    simp only [List.map_cons, List.map_nil, ha, hb, h3]
  · refine ⟨call elem c.ty [a, b], by simp [Container.arith, Container.check, h1, h2, hc], rfl, ?_⟩
    rw [eval_call]
    simp only [List.map_cons, List.map_nil, ha, hb, h3]

/-- C37, arithmetic on vectors: `add`, `sub`, `mul` and `div` of two vectors, of a scalar and a vector, and of a vector and a scalar denote
the operation applied to the elements, left operand first. -/
theorem C37_vector_arithmetic (I : Interp) (M : Model I) (F : Container → Obj → Obj → Option Obj) (op : Int → Int → Int)
    (hF : (F, op) ∈ helpers I) (ρ : Env) (a b : Obj) (xs ys : List Int) (i : Int) :
    (a.ty = .list .int → b.ty = .list .int → eval I ρ a.src = vecV xs → eval I ρ b.src = vecV ys →
      ∃ o, F .vec a b = some o ∧ o.ty = .list .int ∧ eval I ρ o.src = vecV (zipIf op xs ys)) ∧
    (a.ty = .int → b.ty = .list .int → eval I ρ a.src = .int i → eval I ρ b.src = vecV ys →
      ∃ o, F .vec a b = some o ∧ o.ty = .list .int ∧ eval I ρ o.src = vecV (ys.map (fun e => op i e))) ∧
    (a.ty = .list .int → b.ty = .int → eval I ρ a.src = vecV xs → eval I ρ b.src = .int i →
      ∃ o, F .vec a b = some o ∧ o.ty = .list .int ∧ eval I ρ o.src = vecV (xs.map (fun e => op e i))) ∧
    (a.ty = .int → b.ty = .int → F .vec a b = none) := by
  obtain ⟨z1, z2, z3, z4, -⟩ := C31_vectors I M xs ys i
  obtain ⟨-, -, -, -, l1, l2, -, -, l3, l4⟩ := C31_vectors I M ys ys i
  obtain ⟨-, -, -, -, r1, r2, r3, r4, -⟩ := C31_vectors I M xs xs i
  have c1 : xs.map (i + ·) = xs.map (· + i) := List.map_congr_left (fun e _ => Int.add_comm i e)
  have c2 : xs.map (i * ·) = xs.map (· * i) := List.map_congr_left (fun e _ => Int.mul_comm i e)
  rw [c1] at r1
  rw [c2] at r2
  simp only [helpers, List.mem_cons, Prod.mk.injEq, List.not_mem_nil, or_false] at hF
  rcases hF with ⟨rfl, rfl⟩ | ⟨rfl, rfl⟩ | ⟨rfl, rfl⟩ | ⟨rfl, rfl⟩
  · exact ⟨fun h1 h2 h3 h4 => arith_eval (c := .vec) h3 h4 (.inr (.inr ⟨h1, h2, z1⟩)),
      fun h1 h2 h3 h4 => arith_eval (c := .vec) h3 h4 (.inl ⟨h1, h2, l1⟩),
      fun h1 h2 h3 h4 => arith_eval (c := .vec) h3 h4 (.inr (.inl ⟨h1, h2, r1⟩)),
      fun h1 h2 => by simp [Container.add, Container.arith, Container.check, h1, h2, Container.ty]⟩
  · exact ⟨fun h1 h2 h3 h4 => arith_eval (c := .vec) h3 h4 (.inr (.inr ⟨h1, h2, z2⟩)),
      fun h1 h2 h3 h4 => arith_eval (c := .vec) h3 h4 (.inl ⟨h1, h2, l3⟩),
      fun h1 h2 h3 h4 => arith_eval (c := .vec) h3 h4 (.inr (.inl ⟨h1, h2, r3⟩)),
      fun h1 h2 => by simp [Container.sub, Container.arith, Container.check, h1, h2, Container.ty]⟩
  · exact ⟨fun h1 h2 h3 h4 => arith_eval (c := .vec) h3 h4 (.inr (.inr ⟨h1, h2, z3⟩)),
      fun h1 h2 h3 h4 => arith_eval (c := .vec) h3 h4 (.inl ⟨h1, h2, l2⟩),
      fun h1 h2 h3 h4 => arith_eval (c := .vec) h3 h4 (.inr (.inl ⟨h1, h2, r2⟩)),
      fun h1 h2 => by simp [Container.mul, Container.arith, Container.check, h1, h2, Container.ty]⟩
  · exact ⟨fun h1 h2 h3 h4 => arith_eval (c := .vec) h3 h4 (.inr (.inr ⟨h1, h2, z4⟩)),
      fun h1 h2 h3 h4 => arith_eval (c := .vec) h3 h4 (.inl ⟨h1, h2, l4⟩),
      fun h1 h2 h3 h4 => arith_eval (c := .vec) h3 h4 (.inr (.inl ⟨h1, h2, r4⟩)),
      fun h1 h2 => by simp [Container.div, Container.arith, Container.check, h1, h2, Container.ty]⟩

/-- C37, arithmetic on matrices without empty rows. -/
theorem C37_matrix_arithmetic_partial (I : Interp) (M : Model I) (F : Container → Obj → Obj → Option Obj) (op : Int → Int → Int)
    (hF : (F, op) ∈ helpers I) (ρ : Env) (a b : Obj) (ms ns : List (List Int)) (i : Int) :
    (SameShape ms ns → a.ty = .matrix .int → b.ty = .matrix .int → eval I ρ a.src = matV ms → eval I ρ b.src = matV ns →
      ∃ o, F .mat a b = some o ∧ o.ty = .matrix .int ∧ eval I ρ o.src = matV (List.zipWith (List.zipWith op) ms ns)) ∧
    ((∀ r ∈ ns, r ≠ []) → a.ty = .int → b.ty = .matrix .int → eval I ρ a.src = .int i → eval I ρ b.src = matV ns →
      ∃ o, F .mat a b = some o ∧ o.ty = .matrix .int ∧ eval I ρ o.src = matV (ns.map (List.map (fun e => op i e)))) ∧
    ((∀ r ∈ ms, r ≠ []) → a.ty = .matrix .int → b.ty = .int → eval I ρ a.src = matV ms → eval I ρ b.src = .int i →
      ∃ o, F .mat a b = some o ∧ o.ty = .matrix .int ∧ eval I ρ o.src = matV (ms.map (List.map (fun e => op e i)))) := by
  have c1 : ms.map (List.map (i + ·)) = ms.map (List.map (· + i)) :=
    List.map_congr_left (fun r _ => List.map_congr_left (fun e _ => Int.add_comm i e))
  have c2 : ms.map (List.map (i * ·)) = ms.map (List.map (· * i)) :=
    List.map_congr_left (fun r _ => List.map_congr_left (fun e _ => Int.mul_comm i e))
  simp only [helpers, List.mem_cons, Prod.mk.injEq, List.not_mem_nil, or_false] at hF
  rcases hF with ⟨rfl, rfl⟩ | ⟨rfl, rfl⟩ | ⟨rfl, rfl⟩ | ⟨rfl, rfl⟩
  · exact ⟨fun h h1 h2 h3 h4 => arith_eval (c := .mat) h3 h4 (.inr (.inr ⟨h1, h2, (C31_matrices_partial I M ms ns h).1⟩)),
      fun h h1 h2 h3 h4 => arith_eval (c := .mat) h3 h4 (.inl ⟨h1, h2, (C31_scalar_matrices_partial I M i ns h).1⟩),
      fun h h1 h2 h3 h4 => arith_eval (c := .mat) h3 h4
        (.inr (.inl ⟨h1, h2, (C31_scalar_matrices_partial I M i ms h).1.trans (congrArg matV c1)⟩))⟩
  · exact ⟨fun h h1 h2 h3 h4 => arith_eval (c := .mat) h3 h4 (.inr (.inr ⟨h1, h2, (C31_matrices_partial I M ms ns h).2.1⟩)),
      fun h h1 h2 h3 h4 => arith_eval (c := .mat) h3 h4 (.inl ⟨h1, h2, (C31_scalar_matrices_partial I M i ns h).2.2.2.2.1⟩),
      fun h h1 h2 h3 h4 => arith_eval (c := .mat) h3 h4 (.inr (.inl ⟨h1, h2, (C31_scalar_matrices_partial I M i ms h).2.2.1⟩))⟩
  · exact ⟨fun h h1 h2 h3 h4 => arith_eval (c := .mat) h3 h4 (.inr (.inr ⟨h1, h2, (C31_matrices_partial I M ms ns h).2.2.1⟩)),
      fun h h1 h2 h3 h4 => arith_eval (c := .mat) h3 h4 (.inl ⟨h1, h2, (C31_scalar_matrices_partial I M i ns h).2.1⟩),
      fun h h1 h2 h3 h4 => arith_eval (c := .mat) h3 h4
        (.inr (.inl ⟨h1, h2, (C31_scalar_matrices_partial I M i ms h).2.1.trans (congrArg matV c2)⟩))⟩
  · exact ⟨fun h h1 h2 h3 h4 => arith_eval (c := .mat) h3 h4 (.inr (.inr ⟨h1, h2, (C31_matrices_partial I M ms ns h).2.2.2⟩)),
      fun h h1 h2 h3 h4 => arith_eval (c := .mat) h3 h4 (.inl ⟨h1, h2, (C31_scalar_matrices_partial I M i ns h).2.2.2.2.2⟩),
      fun h h1 h2 h3 h4 => arith_eval (c := .mat) h3 h4 (.inr (.inl ⟨h1, h2, (C31_scalar_matrices_partial I M i ms h).2.2.2.1⟩))⟩

/-- `List.sub(10, x)` is `10 - x` element by element. -/
example (ap : Val → List Val → Val) : ∃ o, Container.sub .vec (.int 10) (.var "x" (.list .int)) = some o ∧
    eval (stdInterp false ap Int.fdiv) (fun _ => vecV [1, 2]) o.src = vecV [9, 8] := by
  obtain ⟨o, h1, -, h2⟩ := (C37_vector_arithmetic _ (std_model false ap Int.fdiv) Container.sub (· - ·) (by simp [helpers])
    (fun _ => vecV [1, 2]) (.int 10) (.var "x" (.list .int)) [] [1, 2] 10).2.1 rfl rfl rfl rfl
  exact ⟨o, h1, h2⟩

end Metalift.Ten
