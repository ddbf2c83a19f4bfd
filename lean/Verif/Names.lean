import Std.Data.String.ToNat
/-
Facts about names with a numeric suffix.
-/
namespace Metalift

/-- The string is empty or ends with a character that is not a digit. -/
def noDigitEnd (s : String) : Bool :=
  match s.toList.reverse with
  | [] => true
  | c :: _ => !c.isDigit

theorem split_digits : ∀ {a b d e : List Char}, (∀ c ∈ d, c.isDigit = true) → (∀ c ∈ e, c.isDigit = true) →
    (∀ c ∈ a.head?, c.isDigit = false) → (∀ c ∈ b.head?, c.isDigit = false) → d ++ a = e ++ b →
    d = e ∧ a = b
  | a, b, [], [], _, _, _, _, h => ⟨rfl, h⟩
  | a, b, [], c :: e, _, he, ha, _, h => by
    simp at h
    subst h
    have := ha c (by simp)
    rw [he c (by simp)] at this; cases this
  | a, b, c :: d, [], hd, _, _, hb, h => by
    simp at h
    subst h
    have := hb c (by simp)
    rw [hd c (by simp)] at this; cases this
  | a, b, c :: d, c' :: e, hd, he, ha, hb, h => by
    simp only [List.cons_append, List.cons.injEq] at h
    obtain ⟨rfl, h⟩ := h
    have := split_digits (fun c hc => hd c (by simp [hc])) (fun c hc => he c (by simp [hc])) ha hb h
    exact ⟨by rw [this.1], this.2⟩

theorem repr_digits (n : Nat) : ∀ c ∈ n.repr.toList, c.isDigit = true := by
  intro c hc
  rw [Nat.toList_repr] at hc
  exact Nat.isDigit_of_mem_toDigits (by decide) (by decide) hc

/-- Prefix and number can be recovered from a name when the prefix does not end with a digit. -/
theorem numbered_inj {a b : String} {m n : Nat} (ha : noDigitEnd a = true) (hb : noDigitEnd b = true)
    (h : a ++ m.repr = b ++ n.repr) : a = b ∧ m = n := by
  have h1 := congrArg (fun s => s.toList.reverse) h
  simp only [String.toList_append, List.reverse_append] at h1
  have key : ∀ s : String, noDigitEnd s = true → ∀ c ∈ s.toList.reverse.head?, c.isDigit = false := by
    intro s hs c hc
    unfold noDigitEnd at hs
    cases hr : s.toList.reverse with
    | nil => rw [hr] at hc; simp at hc
    | cons d ds =>
      rw [hr] at hc hs
      simp at hc hs
      exact hc ▸ hs
  have := split_digits (fun c hc => repr_digits m c (List.mem_reverse.1 hc))
    (fun c hc => repr_digits n c (List.mem_reverse.1 hc)) (key a ha) (key b hb) h1
  refine ⟨String.ext (List.reverse_inj.1 this.2), ?_⟩
  exact Nat.repr_inj.1 (String.ext (List.reverse_inj.1 this.1))

/-- A name that does not end with a digit is no numbered name. -/
theorem numbered_ne {a b : String} {n : Nat} (ha : noDigitEnd a = true) : a ≠ b ++ n.repr := by
  intro h
  subst h
  unfold noDigitEnd at ha
  simp only [String.toList_append, List.reverse_append] at ha
  cases hr : n.repr.toList.reverse with
  | nil =>
    have h1 : n.repr.toList = [] := List.reverse_eq_nil_iff.1 hr
    rw [Nat.toList_repr] at h1
    have := Nat.length_toDigits_pos (b := 10) (n := n)
    rw [h1] at this
    simp at this
  | cons c cs =>
    rw [hr] at ha
    simp at ha
    have := repr_digits n c (List.mem_reverse.1 (by rw [hr]; simp))
    rw [ha] at this; cases this

theorem eraseDups_pairwise : ∀ (n : Nat) (l : List String), l.length ≤ n → l.eraseDups.Pairwise (· ≠ ·)
  | _, [], _ => by simp
  | 0, x :: xs, h => by simp at h
  | n + 1, x :: xs, h => by
    rw [List.eraseDups_cons]
    refine List.pairwise_cons.2 ⟨?_, eraseDups_pairwise n _ ?_⟩
    · intro y hy
      rw [List.mem_eraseDups] at hy
      have := (List.mem_filter.1 hy).2
      simp at this
      exact fun he => this he.symm
    · have := List.length_filter_le (fun b => !b == x) xs
      simp at h ⊢
      omega

end Metalift
