import Verif.PGaudiSel
import Verif.PGaudiEx
/-
C77: an example for selections.
-/
namespace Metalift.Gaudi
open Metalift Metalift.Ten
open Metalift.Gem (Ar K SExp)

/-- The distance of two integers: neither difference is in the range of a byte for all arguments, but the one that is selected is. -/
def exSel : Sel := ⟨"int_x", "int_y", .gt, .var "int_x", .var "int_y", .bin .sub (.var "int_x") (.var "int_y"), .bin .sub (.var "int_y") (.var "int_x")⟩
@[inherit_doc exSel] def exAp (_ : Val) (vs : List Val) : Val :=
  match vs with
  | [.int u, .int v] => .int (if u > v then u - v else v - u)
  | _ => .int 0
/-- The functions; an earlier one with a similar name does not count. -/
def exFns : List (String × Fn) := [("other_select_two_args", selMax), ("select_two_args", ⟨["int_x", "int_y"], exSel.body⟩), ("inv0", ⟨[], .lit (.bool true)⟩)]
@[inherit_doc exSel] def exSelE : Expr :=
  .node (.call "matrix_selection_two_args") matT [(TE.bin .add (.var "a") (.var "b")).toExpr .mat, (TE.right .add (.var "s") (.var "b")).toExpr .mat, .var "g" (.fn [.int, .int, .int])]
@[inherit_doc exSel] def exSelEnv : Env := fun x => if x = "g" then .fn "select_two_args" else exEnv x

theorem exSel_given : Given 3 2 .mat exParams exSelEnv (fun _ => 3) exTens := by
  refine ⟨fun x hx => ?_, fun x hx => ?_⟩
  · have : x = "a" ∨ x = "b" := by simpa [exParams, K.ty] using hx
    rcases this with rfl | rfl <;> rfl
  · have : x = "s" := by simpa [exParams] using hx
    subst this; rfl

theorem exSel_last : IsSelect exFns exSel := by
  refine ⟨[("other_select_two_args", selMax)], "", [("inv0", ⟨[], .lit (.bool true)⟩)], rfl, fun p hp n => ?_⟩
  simp only [List.mem_singleton] at hp
  subst hp
  intro h
  have := congrArg (fun s => s.toList.reverse.head?) h
  simp [String.toList_append, List.reverse_append] at this

/-- The elements of the two matrices are bytes. -/
theorem exSel_fits {u v : Int} (hu : 0 ≤ u ∧ u < 256) (hv : 0 ≤ v ∧ v < 256) : exSel.Fits (stdInterp true exAp (· / ·)) .u8 u v := by
  have hx : eval (stdInterp true exAp (· / ·)) (exSel.env u v) (SExp.var "int_x").toExpr = .int u := rfl
  have hy : eval (stdInterp true exAp (· / ·)) (exSel.env u v) (SExp.var "int_y").toExpr = .int v := rfl
  have hc : (eval (stdInterp true exAp (· / ·)) (exSel.env u v) exSel.cond).asBool = decide (v < u) := rfl
  refine ⟨fun e he => ?_, ?_⟩
  · have : e = .var "int_x" ∨ e = .var "int_y" := by simpa [exSel, intSubs] using he
    rcases this with rfl | rfl
    · exact inRange_int _ hx hu
    · exact inRange_int _ hy hv
  · rw [hc]
    intro e he
    by_cases h : v < u
    · have : e = .bin .sub (.var "int_x") (.var "int_y") ∨ e = .var "int_x" ∨ e = .var "int_y" := by simpa [h, exSel, intSubs] using he
      rcases this with rfl | rfl | rfl
      · exact inRange_int (u - v) rfl (by simp only [DT.has]; omega)
      · exact inRange_int _ hx hu
      · exact inRange_int _ hy hv
    · have : e = .bin .sub (.var "int_y") (.var "int_x") ∨ e = .var "int_y" ∨ e = .var "int_x" := by simpa [h, exSel, intSubs] using he
      rcases this with rfl | rfl | rfl
      · exact inRange_int (v - u) rfl (by simp only [DT.has]; omega)
      · exact inRange_int _ hy hv
      · exact inRange_int _ hx hu

/-- The hypotheses hold for the distance of `a + b` and `b + s`. -/
theorem C77_selection_example (o : Tensor) : ∃ Kn N, (∀ n, N ≤ n → kernel exFns .u8 n "f" exParams matT exSelE = some Kn) ∧
    ∃ o', Kn.run exMach .u8 (fun _ => 3) exTens 0 1 0 2 o = some o' ∧ tensorOf 3 2 .mat o' = matV [[2, 0, 2], [1, 1, 3]] := by
  obtain ⟨Kn, N, h1, h2⟩ := C77_selection_partial (stdInterp true exAp (· / ·)) (Np.std_npModel _ _).model exMach exMach_ok .u8 (by decide) exFns exSel
    (by intro e he; simp only [exSel, List.mem_cons, List.not_mem_nil, or_false] at he; rcases he with rfl | rfl | rfl | rfl <;> simp [SExp.ok, exSel]) (by decide) exSel_last
    "f" exParams exParams_proper (by decide) (.bin .add (.var "a") (.var "b")) (.right .add (.var "s") (.var "b")) (by simp [TE.ok, exParams, K.ty])
    (by simp [TE.ok, SExp.ok, exParams, K.ty]) (.var "g" (.fn [.int, .int, .int]))
  refine ⟨Kn, N, h1, ?_⟩
  have go : ∀ (v : Val) (m : List (List Int)), v = matV m → (∀ r ∈ m, ∀ x ∈ r, 0 ≤ x ∧ x < 256) → InRange .u8 v := fun v m h1 h2 => inRange_mat m h1 h2
  have ra : InRange .u8 (eval (stdInterp true exAp (· / ·)) exSelEnv ((TE.bin .add (.var "a") (.var "b")).toExpr .mat)) := go _ [[10, 11, 12], [10, 11, 12]] rfl (by decide)
  have rb : InRange .u8 (eval (stdInterp true exAp (· / ·)) exSelEnv ((TE.right .add (.var "s") (.var "b")).toExpr .mat)) := go _ [[12, 11, 10], [11, 10, 9]] rfl (by decide)
  obtain ⟨T, hT, hr⟩ := h2 3 2 exSelEnv (fun _ => 3) exTens "select_two_args" (by decide) exSel_given rfl (fun u v => by
      show exAp (.fn "select_two_args") [.int u, .int v] = _
      simp only [exAp]
      rw [body_eval (stdInterp true exAp (· / ·)) exSel
        (by intro e he; simp only [exSel, List.mem_cons, List.not_mem_nil, or_false] at he; rcases he with rfl | rfl | rfl | rfl <;> simp [SExp.ok, exSel]) (by decide) u v
        (qv := exSel.vals u v) (by simp [Sel.vals]) (by simp [Sel.vals, exSel])]
      simp only [exSel, sval, Cmp.run, Sel.vals]
      by_cases h : u > v <;> simp [h, sval, Ar.run, Sel.vals])
    (by
      intro u hu
      have : u = .var "s" := by simpa [TE.ints, intSubs] using hu
      subst this
      exact inRange_int 3 rfl (by simp [DT.has]))
    (by
      intro u hu
      simp only [TE.subs, List.cons_append, List.nil_append, List.mem_cons, List.not_mem_nil, or_false] at hu
      rcases hu with rfl | rfl | rfl | rfl | rfl
      · exact ra
      · exact go _ [[1, 3, 5], [2, 4, 6]] rfl (by decide)
      · exact go _ [[9, 8, 7], [8, 7, 6]] rfl (by decide)
      · exact rb
      · exact go _ [[9, 8, 7], [8, 7, 6]] rfl (by decide))
    (fun A B hA hB x y hxy => by
      rw [hA] at ra
      rw [hB] at rb
      exact exSel_fits (range_at ra hxy) (range_at rb hxy))
  obtain ⟨o', e, hv, _⟩ := hr 0 1 0 2 o
  refine ⟨o', e, ?_⟩
  have he : eval (stdInterp true exAp (· / ·)) exSelEnv exSelE = matV [[2, 0, 2], [1, 1, 3]] := rfl
  rw [← he, exSelE, hT]
  refine tensor_congr .mat fun x y hx hy _ => ?_
  have := hy rfl
  exact hv x y (by simp [Covers, lanes]; omega) (by simp only [Inside]; omega)

end Metalift.Gaudi
