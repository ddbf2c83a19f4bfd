import Verif.RktLists
import Verif.SmtLists
/-
C27: consistency of the SMT preamble.  C28: list primitives mean the same to Rosette and to the SMT verifier.
-/
namespace Metalift

/-! ### The standard model -/

/-- Reading with the index clamped at 0, as `list_get_helper` does. -/
def stdGet {α : Type} (d : α) : List α → Int → α
  | [], _ => d
  | h :: t, i => if i ≤ 0 then h else stdGet d t (i - 1)

def stdTail {α : Type} : List α → Int → List α
  | [], _ => []
  | h :: t, n => if n ≤ 0 then h :: t else stdTail t (n - 1)

def stdTake {α : Type} : List α → Int → List α
  | [], _ => []
  | h :: t, n => if n ≤ 0 then [] else h :: stdTake t (n - 1)

/-- The intended interpretation. -/
def stdSeq {α : Type} (d : α) : SmtSeq α where
  headNil := d
  tailNil := []
  length l := l.length
  append l v := l ++ [v]
  get := stdGet d
  tail := stdTail
  take := stdTake

theorem stdTail_nonpos {α : Type} (l : List α) {n : Int} (h : n ≤ 0) : stdTail l n = l := by
  cases l with
  | nil => rfl
  | cons a l => simp [stdTail, h]

theorem stdTail_all {α : Type} : ∀ (l : List α) (n : Int), n ≥ l.length → stdTail l n = []
  | [], _, _ => rfl
  | a :: l, n, h => by
    simp only [List.length_cons] at h
    have : ¬ n ≤ 0 := by omega
    simp only [stdTail, if_neg this]
    exact stdTail_all l (n - 1) (by omega)

theorem stdTake_all {α : Type} : ∀ (l : List α) (n : Int), n ≥ l.length → stdTake l n = l
  | [], _, _ => rfl
  | a :: l, n, h => by
    simp only [List.length_cons] at h
    have : ¬ n ≤ 0 := by omega
    simp only [stdTake, if_neg this]
    rw [stdTake_all l (n - 1) (by omega)]

theorem stdSeq_axioms {α : Type} (d : α) : (stdSeq d).Axioms where
  length_nil := rfl
  length_cons v l := by simp [stdSeq]; omega
  length_nonneg l := by simp [stdSeq]
  append_nil v := rfl
  append_cons h t v := rfl
  get_cons h t i := by
    by_cases hi : i ≤ 0 <;> simp [stdSeq, stdGet, hi]
  tail_rec l n := by
    cases l with
    | nil => simp [stdSeq, stdTail, SmtSeq.tl]
    | cons a l =>
      by_cases hi : n ≤ 0 <;> simp [stdSeq, stdTail, SmtSeq.tl, hi]
  tail_cons n h t := by
    by_cases hi : n ≤ 0 <;> simp [stdSeq, stdTail, hi]
  tail_nil n := rfl
  tail_all n l h := stdTail_all l n h
  take_cons n h t := by
    by_cases hi : n ≤ 0 <;> simp [stdSeq, stdTake, hi]
  take_nil n := rfl
  take_all n l h := stdTake_all l n h
  take_zero l := by
    cases l with
    | nil => rfl
    | cons a l => simp [stdSeq, stdTake]

theorem stdTail_get (d : Int) (l : List Int) : ∀ i : Int, 0 ≤ i ∧ i < l.length → stdTail l i = stdGet d l i :: stdTail l (i + 1) := by
  induction l with
  | nil => intro i h; simp at h; omega
  | cons a l ih =>
    intro i h
    simp only [List.length_cons] at h
    by_cases hi : i ≤ 0
    · have : i = 0 := by omega
      subst this
      simp [stdTail, stdGet, stdTail_nonpos]
    · have h1 : ¬ i + 1 ≤ 0 := by omega
      simp only [stdTail, stdGet, if_neg hi, if_neg h1]
      rw [ih (i - 1) (by omega)]
      congr 2
      omega

/-- The intended interpretation of all symbols but `matrix_transpose`; `d` is read beyond the end of a list. -/
def stdModel (d : Int) : SmtModel where
  ints := stdSeq d
  rows := stdSeq []
  concat xs ys := xs ++ ys
  contains l v := l.any (fun c => decide (c = v))
  colSlice m s e := m.map fun r => stdTail (stdTake r e) s
  firsts m := m.map fun r => stdGet d r 0
  rests m := match m with
    | [] => []
    | r :: m => (r :: m).map fun q => stdTail (stdTake q r.length) 1
  transpose _ := []

theorem stdModel_core (d : Int) : (stdModel d).Core := by
  have lenpos : ∀ {α : Type} (r : α) (m : List α), ¬ ((r :: m).length : Int) < 1 := by intros; simp; omega
  have tail1 : ∀ {α : Type} (r : α) (m : List α), stdTail (r :: m) 1 = m := by intros; simp [stdTail, stdTail_nonpos]
  exact {
    ints := stdSeq_axioms d
    rows := stdSeq_axioms []
    concat_rec := fun xs ys => by cases xs <;> simp [stdModel, stdSeq, SmtSeq.hd, SmtSeq.tl]
    contains_rec := fun l v => by
      cases l with
      | nil => rfl
      | cons a l =>
        have : ¬ (((a :: l).length : Nat) : Int) = 0 := by simp; omega
        show _ = if (((a :: l).length : Nat) : Int) = 0 then _ else _
        rw [if_neg this]
        simp only [stdModel, stdSeq, SmtSeq.hd, SmtSeq.tl, List.any_cons]
        by_cases h : a = v <;> simp [h]
    concat_nil := fun l => by simp [stdModel]
    tail_get := fun l i h => stdTail_get d l i h
    concat_cons := fun xs y ys => by simp [stdModel, stdSeq]
    colSlice_rec := fun m s e => by
      cases m with
      | nil => rfl
      | cons r m =>
        show _ = if ((r :: m).length : Int) < 1 then _ else _
        rw [if_neg (lenpos r m)]
        show _ = SmtModel.prepend _ ((stdModel d).colSlice (stdTail (r :: m) 1) s e)
        rw [tail1]
        rfl
    firsts_rec := fun m => by
      cases m with
      | nil => rfl
      | cons r m =>
        show _ = if ((r :: m).length : Int) < 1 then _ else _
        rw [if_neg (lenpos r m)]
        show _ = SmtModel.prepend _ ((stdModel d).firsts (stdTail (r :: m) 1))
        rw [tail1]
        rfl
    rests_rec := fun m => by
      cases m with
      | nil => rfl
      | cons r m =>
        show _ = if ((r :: m).length : Int) < 1 then _ else _
        rw [if_neg (lenpos r m)]
        rfl }

/-- C27, without `matrix_transpose`: the assertions have a model. -/
theorem C27_without_transpose_partial : ∃ M : SmtModel, M.Core := ⟨stdModel 0, stdModel_core 0⟩

/-- C27 is false: the theory prepended to every verification query has no model.  For the matrix with one empty row, `rests` is the
same matrix, and the equation of `matrix_transpose` makes a finite list its own tail. -/
theorem C27_preamble_inconsistent_refuted : ¬ ∃ M : SmtModel, M.Sat := by
  rintro ⟨M, h⟩
  have c := h.core
  have l1 : M.rows.length [[]] = 1 := by rw [c.rows.length_cons, c.rows.length_nil]; rfl
  have g : M.rows.get [[]] 0 = [] := by
    have := c.rows.get_cons [] [] 0
    simpa using this
  have t1 : M.rows.tail [[]] 1 = [] := by
    have := c.rows.tail_cons 1 [] []
    simp only [show ¬ (1 : Int) ≤ 0 by omega, if_false] at this
    rw [this, c.rows.tail_nil]
  have sl : ∀ s e, M.ints.slice [] s e = [] := fun s e => by rw [SmtSeq.slice, c.ints.take_nil, c.ints.tail_nil]
  have r : M.rests [[]] = [[]] := by
    rw [c.rests_rec, l1, g, c.ints.length_nil, c.colSlice_rec, l1, g, t1, c.colSlice_rec [], c.rows.length_nil, sl]
    rfl
  have e := h.transpose_rec [[]]
  rw [l1, r] at e
  simp only [show ¬ (1 : Int) < 1 by omega, if_false, SmtModel.prepend] at e
  have := congrArg List.length e
  simp at this

/-- Consequence: every formula follows from the preamble, so `unsat` says nothing about the candidate. -/
theorem C27_everything_follows_refuted (Q : SmtModel → Prop) : ∀ M : SmtModel, M.Sat → Q M :=
  fun M h => absurd ⟨M, h⟩ C27_preamble_inconsistent_refuted

/-! ### C28 -/

namespace SmtSeq.Axioms
variable {α : Type} {S : SmtSeq α} (h : S.Axioms)
include h

theorem length_eq (l : List α) : S.length l = l.length := by
  induction l with
  | nil => exact h.length_nil
  | cons a l ih => rw [h.length_cons, ih, List.length_cons]; omega

theorem append_eq (l : List α) (v : α) : S.append l v = l ++ [v] := by
  induction l with
  | nil => exact h.append_nil v
  | cons a l ih => rw [h.append_cons, ih]; rfl

theorem get_eq (d : α) (l : List α) : ∀ i : Int, 0 ≤ i → i < l.length → S.get l i = l.getD i.toNat d := by
  induction l with
  | nil => intro i h0 h1; simp at h1; omega
  | cons a l ih =>
    intro i h0 h1
    have := h.get_cons a l i
    simp only [List.length_cons] at h1
    by_cases hi : i ≤ 0
    · rw [if_pos hi] at this
      have : i = 0 := by omega
      subst this
      simpa using this
    · rw [if_neg hi] at this
      rw [this, ih (i - 1) (by omega) (by omega)]
      have : i.toNat = (i - 1).toNat + 1 := by omega
      rw [this]
      simp

theorem tail_eq (l : List α) : ∀ n : Int, 0 ≤ n → S.tail l n = l.drop n.toNat := by
  induction l with
  | nil => intro n _; rw [h.tail_nil]; simp
  | cons a l ih =>
    intro n hn
    have := h.tail_cons n a l
    by_cases hi : n ≤ 0
    · rw [if_pos hi] at this
      have : n = 0 := by omega
      subst this
      simpa using this
    · rw [if_neg hi] at this
      rw [this, ih (n - 1) (by omega)]
      have : n.toNat = (n - 1).toNat + 1 := by omega
      rw [this]
      simp

theorem take_eq (l : List α) : ∀ n : Int, S.take l n = l.take n.toNat := by
  induction l with
  | nil => intro n; rw [h.take_nil]; simp
  | cons a l ih =>
    intro n
    have := h.take_cons n a l
    by_cases hi : n ≤ 0
    · rw [if_pos hi] at this
      rw [this]
      have : n.toNat = 0 := by omega
      rw [this]
      rfl
    · rw [if_neg hi] at this
      rw [this, ih (n - 1)]
      have : n.toNat = (n - 1).toNat + 1 := by omega
      rw [this]
      simp

end SmtSeq.Axioms

theorem rktTail_eq {α : Type} (l : List α) {n : Int} (hn : 0 ≤ n) : Rkt.listTail l n = l.drop n.toNat := by
  unfold Rkt.listTail
  by_cases h : n ≤ l.length
  · rw [if_pos ⟨hn, h⟩]
  · rw [if_neg (fun hh => h hh.2), List.drop_of_length_le (by omega)]

theorem rktTake_eq {α : Type} (l : List α) (n : Int) : Rkt.listTake l n = l.take n.toNat := by
  unfold Rkt.listTake
  by_cases h : n ≤ 0
  · rw [if_pos h]
    have : n.toNat = 0 := by omega
    rw [this]
    rfl
  · rw [if_neg h]
    by_cases h2 : n < l.length
    · rw [if_pos ⟨by omega, h2⟩]
    · rw [if_neg (fun hh => h2 hh.2), List.take_of_length_le (by omega)]

theorem rktRef_eq (l : List Int) {i : Int} (h0 : 0 ≤ i) (h1 : i < l.length) : Rkt.listRef l i = l.getD i.toNat 0 := by
  rw [Rkt.listRef, if_pos ⟨h0, h1⟩]

theorem rktMatrixRef_eq {α : Type} (l : List (List α)) {i : Int} (h0 : 0 ≤ i) (h1 : i < l.length) :
    Rkt.matrixRef l i = l.getD i.toNat [] := by
  rw [Rkt.matrixRef, if_pos ⟨h0, h1⟩]

section
variable (M : SmtModel) (h : M.Core)
include h

theorem smtConcat_eq : ∀ xs ys, M.concat xs ys = xs ++ ys := by
  intro xs ys
  induction xs with
  | nil => rw [h.concat_rec]; rfl
  | cons a xs ih => rw [h.concat_rec]; simp [SmtSeq.hd, SmtSeq.tl, ih]

theorem smtRow0 (r : List Int) (m : List (List Int)) : M.rows.get (r :: m) 0 = r := by
  rw [h.rows.get_eq [] (r :: m) 0 (by omega) (by simp)]
  rfl

theorem smtTail1 (r : List Int) (m : List (List Int)) : M.rows.tail (r :: m) 1 = m := by
  rw [h.rows.tail_eq _ 1 (by omega)]
  rfl

theorem smtLen (r : List Int) (m : List (List Int)) : ¬ M.rows.length (r :: m) < 1 := by
  rw [h.rows.length_eq, List.length_cons]
  omega

theorem smtColSlice_eq (s e : Int) : ∀ m, M.colSlice m s e = m.map fun r => M.ints.slice r s e := by
  intro m
  induction m with
  | nil => rw [h.colSlice_rec, h.rows.length_nil]; rfl
  | cons r m ih =>
    rw [h.colSlice_rec, if_neg (smtLen M h r m), smtRow0 M h, smtTail1 M h, ih]
    rfl

theorem smtFirsts_eq : ∀ m, M.firsts m = m.map fun r => M.ints.get r 0 := by
  intro m
  induction m with
  | nil => rw [h.firsts_rec, h.rows.length_nil]; rfl
  | cons r m ih =>
    rw [h.firsts_rec, if_neg (smtLen M h r m), smtRow0 M h, smtTail1 M h, ih]
    rfl

end

theorem slice_agrees {α : Type} {S : SmtSeq α} (h : S.Axioms) (l : List α) {s : Int} (e : Int) (hs : 0 ≤ s) :
    S.slice l s e = Rkt.slice l s e := by
  rw [SmtSeq.slice, Rkt.slice, h.tail_eq _ s hs, h.take_eq, rktTail_eq _ hs, rktTake_eq]

theorem rktSlice_eq {α : Type} (l : List α) {s : Int} (e : Int) (hs : 0 ≤ s) :
    Rkt.slice l s e = (l.take e.toNat).drop s.toNat := by
  rw [Rkt.slice, rktTail_eq _ hs, rktTake_eq]

theorem rktColSlice_eq (s e : Int) : ∀ m : List (List Int), (∀ r ∈ m, Rkt.slice r s e ≠ []) →
    Rkt.colSlice s e m = m.map fun r => Rkt.slice r s e := by
  intro m
  induction m with
  | nil => intro _; rfl
  | cons r m ih =>
    intro H
    have h1 : (Rkt.slice r s e).length > 0 := List.length_pos_iff.mpr (H r (List.mem_cons_self ..))
    rw [Rkt.colSlice, ih (fun q hq => H q (List.mem_cons_of_mem _ hq)), Rkt.matrixPrepend, if_pos h1]
    rfl

theorem rktFirsts_eq : ∀ (m : List (List Int)) (n : Nat), m.length < n →
    Rkt.firsts n m = some (m.map fun r => Rkt.listRef r 0) := by
  intro m
  induction m with
  | nil =>
    intro n hn
    cases n with
    | zero => simp at hn
    | succ n => rfl
  | cons r m ih =>
    intro n hn
    cases n with
    | zero => simp at hn
    | succ n =>
      have h1 : ¬ Rkt.matrixLength (r :: m) < 1 := by simp [Rkt.matrixLength]; omega
      have h2 : Rkt.listTail (r :: m) 1 = m := by rw [rktTail_eq _ (by omega)]; rfl
      have h3 : Rkt.matrixRef (r :: m) 0 = r := by simp [Rkt.matrixRef]
      rw [Rkt.firsts, if_neg h1, h2, h3, ih n (by simpa using hn)]
      rfl

/-- C28, lists: in every interpretation that satisfies the assertions, the list primitives have the values computed by Rosette, for
indices in range (`list_get`), start positions that are not negative (`list_tail`, slices), and without restriction otherwise. -/
theorem C28_lists_partial (M : SmtModel) (h : M.Core) (l l' : List Int) (v i j : Int) :
    M.ints.length l = l.length ∧
    SmtModel.prepend v l = Rkt.listPrepend v l ∧
    M.ints.append l v = Rkt.listAppend l v ∧
    M.concat l l' = Rkt.listConcat l l' ∧
    M.ints.take l i = Rkt.listTake l i ∧
    (0 ≤ i → i < l.length → M.ints.get l i = Rkt.listRef l i) ∧
    (0 ≤ i → M.ints.tail l i = Rkt.listTail l i) ∧
    (0 ≤ i → M.ints.slice l i j = Rkt.slice l i j) ∧
    (0 ≤ i → M.ints.sliceWithLength l i j = Rkt.sliceWithLength l i j) := by
  refine ⟨h.ints.length_eq l, rfl, h.ints.append_eq l v, smtConcat_eq M h l l', ?_, ?_, ?_, ?_, ?_⟩
  · rw [h.ints.take_eq, rktTake_eq]
  · intro h0 h1
    rw [h.ints.get_eq 0 l i h0 h1, rktRef_eq l h0 h1]
  · intro h0
    rw [h.ints.tail_eq l i h0, rktTail_eq l h0]
  · exact fun h0 => slice_agrees h.ints l j h0
  · exact fun h0 => slice_agrees h.ints l (i + j) h0

/-- C28, matrices: the same for lists of rows.  Rows given to `matrix_prepend`, and rows cut out by a column slice, must not be
empty; `firsts` needs rows that are not empty and less than 64 of them. -/
theorem C28_matrices_partial (M : SmtModel) (h : M.Core) (m : List (List Int)) (r : List Int) (i j : Int) :
    M.rows.length m = Rkt.matrixLength m ∧
    M.rows.append m r = Rkt.listAppend m r ∧
    M.rows.take m i = Rkt.listTake m i ∧
    (r ≠ [] → SmtModel.prepend r m = Rkt.matrixPrepend r m) ∧
    (0 ≤ i → i < m.length → M.rows.get m i = Rkt.matrixRef m i) ∧
    (0 ≤ i → M.rows.tail m i = Rkt.listTail m i) ∧
    (0 ≤ i → M.rows.slice m i j = Rkt.slice m i j) ∧
    (0 ≤ i → M.rows.sliceWithLength m i j = Rkt.sliceWithLength m i j) ∧
    (0 ≤ i → i < j → (∀ q ∈ m, i < q.length) → M.colSlice m i j = Rkt.colSlice i j m) ∧
    ((∀ q ∈ m, q ≠ []) → m.length < Rkt.fuel → some (M.firsts m) = Rkt.firsts Rkt.fuel m) ∧
    ((∀ q ∈ m, 2 ≤ q.length) → M.rests m = Rkt.rests m) := by
  have col : ∀ (i j : Int), 0 ≤ i → i < j → (∀ q ∈ m, i < q.length) → M.colSlice m i j = Rkt.colSlice i j m := by
    intro i j h0 h1 h2
    rw [smtColSlice_eq M h, rktColSlice_eq]
    · exact List.map_congr_left (fun q _ => slice_agrees h.ints q j h0)
    · intro q hq hn
      rw [rktSlice_eq _ _ h0] at hn
      have := congrArg List.length hn
      have hq' := h2 q hq
      simp at this
      omega
  refine ⟨h.rows.length_eq m, h.rows.append_eq m r, ?_, ?_, ?_, ?_, fun h0 => slice_agrees h.rows m j h0,
    fun h0 => slice_agrees h.rows m (i + j) h0, col i j, ?_, ?_⟩
  · rw [h.rows.take_eq, rktTake_eq]
  · intro hr
    rw [Rkt.matrixPrepend, if_pos (List.length_pos_iff.mpr hr)]
    rfl
  · intro h0 h1
    rw [h.rows.get_eq [] m i h0 h1, rktMatrixRef_eq m h0 h1]
  · intro h0
    rw [h.rows.tail_eq m i h0, rktTail_eq m h0]
  · intro h0 h1
    rw [rktFirsts_eq m _ h1, smtFirsts_eq M h]
    congr 1
    refine List.map_congr_left (fun q hq => ?_)
    have : 0 < q.length := List.length_pos_iff.mpr (h0 q hq)
    rw [h.ints.get_eq 0 q 0 (by omega) (by omega), rktRef_eq q (by omega) (by omega)]
  · intro h0
    cases m with
    | nil => rw [h.rests_rec, h.rows.length_nil]; rfl
    | cons q m =>
      have h1 : ¬ Rkt.matrixLength (q :: m) < 1 := by simp [Rkt.matrixLength]; omega
      have h3 : Rkt.matrixRef (q :: m) 0 = q := by simp [Rkt.matrixRef]
      have hq := h0 q (List.mem_cons_self ..)
      rw [h.rests_rec, if_neg (smtLen M h q m), smtRow0 M h, Rkt.rests, if_neg h1, h3, h.ints.length_eq]
      exact col 1 q.length (by omega) (by omega) (fun p hp => by have := h0 p hp; omega)

/-- The conditions are met, for example, by this matrix. -/
example : (0 : Int) ≤ 1 ∧ (1 : Int) < 3 ∧ (∀ q ∈ [[1, 2, 3], [4, 5, 6]], (1 : Int) < (q : List Int).length) ∧
    Rkt.colSlice 1 3 [[1, 2, 3], [4, 5, 6]] = [[2, 3], [5, 6]] := by decide

/-- C28 without the restriction on indices is false: `list_tail` of a negative number is the whole list to the verifier, and empty
to Rosette. -/
theorem C28_negative_tail_refuted (M : SmtModel) (h : M.Core) : M.ints.tail [1] (-1) ≠ Rkt.listTail [1] (-1) := by
  have := h.ints.tail_cons (-1) 1 []
  rw [if_pos (by omega)] at this
  rw [this]
  decide

/-- `list_get` of a negative index is the first element to the verifier, and 0 to Rosette. -/
theorem C28_negative_get_refuted (M : SmtModel) (h : M.Core) : M.ints.get [7] (-1) ≠ Rkt.listRef [7] (-1) := by
  have := h.ints.get_cons 7 [] (-1)
  rw [if_pos (by omega)] at this
  rw [this]
  decide

/-- `matrix_prepend` of an empty row adds a row for the verifier, and none for Rosette. -/
theorem C28_empty_row_refuted (m : List (List Int)) : SmtModel.prepend [] m ≠ Rkt.matrixPrepend [] m := by
  intro h
  have := congrArg List.length h
  simp [SmtModel.prepend, Rkt.matrixPrepend] at this

/-- Beyond the end of a list, `list_get` is arbitrary to the verifier, so that nothing Rosette relies on (it reads 0) can be proved. -/
theorem C28_get_beyond_refuted : ∃ M : SmtModel, M.Core ∧ M.ints.get [] 0 ≠ Rkt.listRef [] 0 :=
  ⟨stdModel 1, stdModel_core 1, by decide⟩

/-! ### C43: transposition in Rosette -/

theorem rktRests_one {m : List (List Int)} (h : ∀ r ∈ m, r.length = 1) : Rkt.rests m = [] := by
  have : ∀ (e : Int) (m : List (List Int)), (∀ r ∈ m, r.length = 1) → Rkt.colSlice 1 e m = [] := by
    intro e m
    induction m with
    | nil => intro _; rfl
    | cons r m ih =>
      intro H
      have hr := H r (List.mem_cons_self ..)
      have : Rkt.slice r 1 e = [] := by
        rw [rktSlice_eq _ _ (by omega)]
        refine List.drop_of_length_le ?_
        rw [List.length_take, hr]
        exact Nat.min_le_right ..
      rw [Rkt.colSlice, ih (fun q hq => H q (List.mem_cons_of_mem _ hq)), this]
      rfl
  unfold Rkt.rests
  split
  · rfl
  · exact this _ m h

theorem rktRests_more {m : List (List Int)} {c : Nat} (hc : 2 ≤ c) (h : ∀ r ∈ m, r.length = c) : Rkt.rests m = m.map List.tail := by
  cases m with
  | nil => rfl
  | cons q m =>
    have h1 : ¬ Rkt.matrixLength (q :: m) < 1 := by simp [Rkt.matrixLength]; omega
    have h3 : Rkt.matrixRef (q :: m) 0 = q := by simp [Rkt.matrixRef]
    have hs : ∀ r ∈ q :: m, Rkt.slice r 1 q.length = r.tail := by
      intro r hr
      rw [rktSlice_eq _ _ (by omega), List.take_of_length_le, ← List.drop_one]
      · rfl
      · rw [h r hr, h q (List.mem_cons_self ..)]
        simp
    rw [Rkt.rests, if_neg h1, h3, rktColSlice_eq]
    · exact List.map_congr_left hs
    · intro r hr hn
      rw [hs r hr] at hn
      have := congrArg List.length hn
      rw [List.length_tail, h r hr] at this
      simp at this
      omega

/-- C43: for a matrix whose rows all have `c ≥ 1` elements, Rosette's `matrix_transpose` returns the matrix whose rows are the
columns, if there is fuel for the number of rows plus columns. -/
theorem C43_transpose_rosette (m : List (List Int)) (c : Nat) (hm : m ≠ []) (hc : 1 ≤ c) (h : ∀ r ∈ m, r.length = c)
    (n : Nat) (hn : m.length + c < n) :
    Rkt.transpose n m = some ((List.range c).map fun j => m.map fun r => r.getD j 0) := by
  induction c generalizing m n with
  | zero => omega
  | succ c ih =>
    cases n with
    | zero => omega
    | succ n =>
      have hlen : 0 < m.length := List.length_pos_iff.mpr hm
      have h1 : ¬ Rkt.matrixLength m < 1 := by simp [Rkt.matrixLength]; omega
      have hf : (m.map fun r => Rkt.listRef r 0) = m.map fun r => r.getD 0 0 := by
        refine List.map_congr_left (fun r hr => ?_)
        rw [rktRef_eq r (by omega) (by rw [h r hr]; omega)]
        rfl
      rw [Rkt.transpose, if_neg h1, rktFirsts_eq m n (by omega), hf]
      have hp : ∀ t, Rkt.matrixPrepend (m.map fun r => r.getD 0 0) t = (m.map fun r => r.getD 0 0) :: t := by
        intro t
        rw [Rkt.matrixPrepend, if_pos (by simpa using hlen)]
        rfl
      by_cases hc1 : c = 0
      · subst hc1
        rw [rktRests_one h]
        cases n with
        | zero => omega
        | succ n =>
          have : Rkt.transpose (n + 1) [] = some [] := rfl
          simp only [this, Option.bind_eq_bind, Option.bind_some, hp]
          rfl
      · rw [rktRests_more (c := c + 1) (by omega) h]
        have := ih (m.map List.tail) (by simpa using hm) (by omega)
          (by intro r hr; obtain ⟨q, hq, rfl⟩ := List.mem_map.mp hr; rw [List.length_tail, h q hq]; rfl) n
          (by rw [List.length_map]; omega)
        simp only [this, Option.bind_eq_bind, Option.bind_some, hp]
        rw [List.range_succ_eq_map, List.map_cons, List.map_map]
        congr 2
        refine List.map_congr_left (fun j _ => ?_)
        rw [List.map_map]
        refine List.map_congr_left (fun r hr => ?_)
        cases r with
        | nil => rfl
        | cons a r => rfl

/-- A matrix with two rows and three columns. -/
example : Rkt.transpose Rkt.fuel [[1, 2, 3], [4, 5, 6]] = some [[1, 4], [2, 5], [3, 6]] :=
  C43_transpose_rosette [[1, 2, 3], [4, 5, 6]] 3 (by decide) (by decide) (by decide) Rkt.fuel (by decide)

/-- C43 without the bound is false: 63 rows are too many. -/
theorem C43_fuel_refuted (m : List (List Int)) (h : 63 ≤ m.length) : Rkt.transpose Rkt.fuel m = none := by
  have ff : ∀ (n : Nat) (m : List (List Int)), n ≤ m.length → Rkt.firsts n m = none := by
    intro n
    induction n with
    | zero => intros; rfl
    | succ n ih =>
      intro m hm
      cases m with
      | nil => simp at hm
      | cons r m =>
        have h1 : ¬ Rkt.matrixLength (r :: m) < 1 := by simp [Rkt.matrixLength]; omega
        have h2 : Rkt.listTail (r :: m) 1 = m := by rw [rktTail_eq _ (by omega)]; rfl
        rw [Rkt.firsts, if_neg h1, h2, ih m (by simpa using hm)]
        rfl
  have h1 : ¬ Rkt.matrixLength m < 1 := by simp [Rkt.matrixLength]; omega
  rw [Rkt.fuel, Rkt.transpose, if_neg h1, ff 63 m h]
  rfl

end Metalift
