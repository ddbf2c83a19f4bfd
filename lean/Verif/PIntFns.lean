import Verif.RktLists
/-
C44: the integer functions `integer_exp` and `integer_sqrt` for Rosette and for the SMT verifier.
-/
namespace Metalift

/-- Interpretation of the symbols defined in `metalift/utils/integer-fn-axioms.smt`. -/
structure SmtIntFns where
  exp : Int → Int
  sqrtHelper : Int → Int → Int
  /-- Values of `div` and of `mod` for the divisor 0. -/
  divZero : Int → Int

/-- SMT-LIB's `div`. -/
def SmtIntFns.idiv (M : SmtIntFns) (x y : Int) : Int := if y = 0 then M.divZero x else x / y

/-- The equations asserted by `metalift/utils/integer-fn-axioms.smt` 3-7. -/
structure SmtIntFns.Sat (M : SmtIntFns) : Prop where
  exp_rec : ∀ n, M.exp n = if n ≤ 0 then 1 else (M.exp (n - 1) * 3) % 64
  sqrt_rec : ∀ n g, M.sqrtHelper n g = if (g = 0 ∨ g = 1) ∨ g > 64 then 1
    else if g = M.idiv n g then g else M.sqrtHelper n (M.idiv (g + M.idiv n g) 2)

/-- `integer_sqrt` (`metalift/utils/integer-fn-axioms.smt` 9-10). -/
def SmtIntFns.sqrt (M : SmtIntFns) (n : Int) : Int := M.sqrtHelper (M.idiv n 2) n

/-- C44: `integer_exp` is `3 ^ n mod 64` for Rosette, as long as its fuel lasts, and for every interpretation of the verifier. -/
theorem C44_integer_exp_partial (M : SmtIntFns) (h : M.Sat) (n : Nat) :
    M.exp n = 3 ^ n % 64 ∧ (n < Rkt.fuel → Rkt.integerExp Rkt.fuel n = some (M.exp n)) ∧
    (∀ k : Int, k ≤ 0 → M.exp k = 1 ∧ Rkt.integerExp Rkt.fuel k = some 1) := by
  have e : ∀ n : Nat, M.exp n = 3 ^ n % 64 := by
    intro n
    induction n with
    | zero => rw [h.exp_rec]; rfl
    | succ n ih =>
      have h1 : ¬ ((n + 1 : Nat) : Int) ≤ 0 := by omega
      have h2 : ((n + 1 : Nat) : Int) - 1 = n := by omega
      rw [h.exp_rec, if_neg h1, h2, ih, Int.pow_succ, Int.mul_emod, Int.emod_emod, ← Int.mul_emod]
  refine ⟨e n, ?_, fun k hk => ⟨by rw [h.exp_rec, if_pos hk], by rw [Rkt.fuel, Rkt.integerExp, if_pos hk]⟩⟩
  have r : ∀ (n k : Nat), n < k → Rkt.integerExp k n = some (M.exp n) := by
    intro n
    induction n with
    | zero =>
      intro k hk
      cases k with
      | zero => omega
      | succ k => rw [h.exp_rec]; rfl
    | succ n ih =>
      intro k hk
      cases k with
      | zero => omega
      | succ k =>
        have h1 : ¬ ((n + 1 : Nat) : Int) ≤ 0 := by omega
        have h2 : ((n + 1 : Nat) : Int) - 1 = n := by omega
        have h3 : (0 : Int) ≤ M.exp n := by rw [e]; exact Int.emod_nonneg _ (by decide)
        rw [Rkt.integerExp, if_neg h1, h2, ih k (by omega), h.exp_rec ((n + 1 : Nat) : Int), if_neg h1, h2, Option.map_some,
          Int.tmod_eq_emod_of_nonneg (by omega), Int.mul_comm]
  exact r n Rkt.fuel

/-- Iterations of `integer_sqrt_helper`: the value if it ends within the given number of calls. -/
def sqrtRun (n : Int) : Nat → Int → Option Int
  | 0, _ => none
  | k + 1, g => if (g = 0 ∨ g = 1) ∨ g > 64 then some 1 else if g = n / g then some g else sqrtRun n k ((g + n / g) / 2)

theorem sqrtRun_sound {n : Int} : ∀ {k : Nat} {g v : Int}, sqrtRun n k g = some v → ∀ j, sqrtRun n (k + j) g = some v := by
  intro k
  induction k with
  | zero => intro g v h; cases h
  | succ k ih =>
    intro g v h j
    rw [sqrtRun] at h
    rw [Nat.add_right_comm, sqrtRun]
    split
    · next h1 => rw [if_pos h1] at h; exact h
    · next h1 =>
      rw [if_neg h1] at h
      split
      · next h2 => rw [if_pos h2] at h; exact h
      · next h2 => rw [if_neg h2] at h; exact ih h j

/-- An interpretation that satisfies the equations: the value of a recursion that ends, and 1 for one that does not. -/
noncomputable def stdIntFns : SmtIntFns where
  exp n := 3 ^ n.toNat % 64
  sqrtHelper n g := by
    classical
    exact if h : ∃ v k, sqrtRun n k g = some v then h.choose else 1
  divZero := id

theorem stdIntFns_sqrt {n g v : Int} {k : Nat} (h : sqrtRun n k g = some v) : stdIntFns.sqrtHelper n g = v := by
  have hx : ∃ v k, sqrtRun n k g = some v := ⟨v, k, h⟩
  have : stdIntFns.sqrtHelper n g = hx.choose := by
    simp only [stdIntFns]
    exact dif_pos hx
  rw [this]
  obtain ⟨k', hk⟩ := hx.choose_spec
  have h1 := sqrtRun_sound hk k
  have h2 := sqrtRun_sound h k'
  rw [Nat.add_comm, h2] at h1
  exact (Option.some.inj h1).symm

/-- The hypotheses of the theorems of this file can be met. -/
theorem stdIntFns_sat : stdIntFns.Sat where
  exp_rec n := by
    show (3 : Int) ^ n.toNat % 64 = if n ≤ 0 then 1 else (3 ^ (n - 1).toNat % 64 * 3) % 64
    by_cases hn : n ≤ 0
    · rw [if_pos hn, show n.toNat = 0 by omega]; rfl
    · rw [if_neg hn, show n.toNat = (n - 1).toNat + 1 by omega, Int.pow_succ, Int.mul_emod, ← Int.emod_emod (3 ^ _),
        ← Int.mul_emod, Int.emod_emod]
  sqrt_rec n g := by
    by_cases h1 : (g = 0 ∨ g = 1) ∨ g > 64
    · rw [if_pos h1]
      exact stdIntFns_sqrt (k := 1) (by rw [sqrtRun, if_pos h1])
    · have hg : g ≠ 0 := fun h => h1 (Or.inl (Or.inl h))
      have e1 : ∀ x, stdIntFns.idiv x g = x / g := fun x => by rw [SmtIntFns.idiv, if_neg hg]
      have e2 : ∀ x, stdIntFns.idiv x 2 = x / 2 := fun x => rfl
      rw [if_neg h1, e1, e2]
      by_cases h2 : g = n / g
      · rw [if_pos h2]
        exact stdIntFns_sqrt (k := 1) (by rw [sqrtRun, if_neg h1, if_pos h2])
      · rw [if_neg h2]
        have step : ∀ k, sqrtRun n (k + 1) g = sqrtRun n k ((g + n / g) / 2) := fun k => by rw [sqrtRun, if_neg h1, if_neg h2]
        by_cases hx : ∃ v k, sqrtRun n k ((g + n / g) / 2) = some v
        · obtain ⟨v, k, hk⟩ := hx
          rw [stdIntFns_sqrt hk]
          exact stdIntFns_sqrt (k := k + 1) (by rw [step, hk])
        · have hy : ¬ ∃ v k, sqrtRun n k g = some v := by
            rintro ⟨v, k, hk⟩
            cases k with
            | zero => cases hk
            | succ k => exact hx ⟨v, k, by rw [← step, hk]⟩
          simp only [stdIntFns]
          rw [dif_neg hx, dif_neg hy]

/-- C44 is false for `integer_sqrt`: of 9 it is 9 for Rosette and 2 for the verifier. -/
theorem C44_integer_sqrt_refuted (M : SmtIntFns) (h : M.Sat) : M.sqrt 9 = 2 ∧ Rkt.integerSqrt 9 = 9 := by
  refine ⟨?_, rfl⟩
  have d : ∀ x y, y ≠ 0 → M.idiv x y = x / y := fun x y hy => if_neg hy
  rw [SmtIntFns.sqrt, d 9 2 (by decide), h.sqrt_rec, d _ 9 (by decide), d _ 2 (by decide)]
  simp only [show ¬ (((9 : Int) = 0 ∨ (9 : Int) = 1) ∨ (9 : Int) > 64) by decide, show ¬ (9 : Int) = (9 : Int) / 2 / 9 by decide, if_false]
  rw [show ((9 : Int) + 9 / 2 / 9) / 2 = 4 by decide, h.sqrt_rec, d _ 4 (by decide), d _ 2 (by decide)]
  simp only [show ¬ (((4 : Int) = 0 ∨ (4 : Int) = 1) ∨ (4 : Int) > 64) by decide, show ¬ (4 : Int) = (9 : Int) / 2 / 4 by decide, if_false]
  rw [show ((4 : Int) + 9 / 2 / 4) / 2 = 2 by decide, h.sqrt_rec, d _ 2 (by decide)]
  simp

end Metalift
