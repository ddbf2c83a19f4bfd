import Verif.PSmtFiles
/-
C49: the definition files determine the functions on lists.
-/
namespace Metalift
namespace Smt

/-! ### Specification -/

/-- The functions on lists of integers are the usual ones.  A negative count takes nothing and drops nothing. -/
structure ListsUsual (M : Model) : Prop where
  empty : M.fn "list_empty" [] = encL []
  length : ∀ l, M.fn "list_length" [encL l] = .int l.length
  prepend : ∀ v l, M.fn "list_prepend" [.int v, encL l] = encL (v :: l)
  append : ∀ l v, M.fn "list_append" [encL l, .int v] = encL (l ++ [v])
  get : ∀ l (i : Nat) v, l[i]? = some v → M.fn "list_get" [encL l, .int i] = .int v
  tail : ∀ l n, M.fn "list_tail" [encL l, .int n] = encL (l.drop n.toNat)
  take : ∀ l n, M.fn "list_take" [encL l, .int n] = encL (l.take n.toNat)
  concat : ∀ l k, M.fn "list_concat" [encL l, encL k] = encL (l ++ k)
  contains : ∀ l v, M.fn "list_contains" [encL l, .int v] = .bool (decide (v ∈ l))
  slice : ∀ l a b, M.fn "vec_slice" [encL l, .int a, .int b] = encL ((l.take b.toNat).drop a.toNat)
  sliceLen : ∀ l a b, M.fn "vec_slice_with_length" [encL l, .int a, .int b] = encL ((l.take (a + b).toNat).drop a.toNat)

/-- The functions on matrices (lists of rows) are the usual ones. -/
structure MatricesUsual (M : Model) : Prop where
  empty : M.fn "matrix_empty" [] = encM []
  length : ∀ m, M.fn "matrix_length" [encM m] = .int m.length
  prepend : ∀ r m, M.fn "matrix_prepend" [encL r, encM m] = encM (r :: m)
  append : ∀ m r, M.fn "matrix_append" [encM m, encL r] = encM (m ++ [r])
  get : ∀ m (i : Nat) r, m[i]? = some r → M.fn "matrix_get" [encM m, .int i] = encL r
  tail : ∀ m n, M.fn "matrix_tail" [encM m, .int n] = encM (m.drop n.toNat)
  take : ∀ m n, M.fn "matrix_take" [encM m, .int n] = encM (m.take n.toNat)
  rowSlice : ∀ m a b, M.fn "matrix_row_slice" [encM m, .int a, .int b] = encM ((m.take b.toNat).drop a.toNat)
  rowSliceLen : ∀ m a b, M.fn "matrix_row_slice_with_length" [encM m, .int a, .int b] = encM ((m.take (a + b).toNat).drop a.toNat)
  colSlice : ∀ m a b, M.fn "matrix_col_slice" [encM m, .int a, .int b] = encM (m.map fun r => (r.take b.toNat).drop a.toNat)
  colSliceLen : ∀ m a b, M.fn "matrix_col_slice_with_length" [encM m, .int a, .int b] =
    encM (m.map fun r => (r.take (a + b).toNat).drop a.toNat)
  /-- first elements, if there are any -/
  firsts : ∀ m, (∀ r ∈ m, r ≠ []) → M.fn "firsts" [encM m] = encL (m.map fun r => r.headD 0)
  /-- the other elements, of rows of the same length -/
  rests : ∀ m, (∀ r ∈ m, r.length = (m.headD []).length) → M.fn "rests" [encM m] = encM (m.map List.tail)

variable {M : Model}

theorem core_mem {c : SExpr} (h : c ∈ fileCmds.flatten) (hn : c ≠ c_matrix_transpose) : c ∈ coreCmds := by
  rw [fileCmds_eq] at h
  rcases List.mem_append.1 h with h | h
  · exact h
  · simp at h; exact absurd h hn

theorem bt {p : Prop} [Decidable p] (h : Val.bool (decide p) = .bool true) : p := by
  injection h with h
  exact of_decide_eq_true h

theorem bt_ite {c p q : Prop} [Decidable c] [Decidable p] [Decidable q]
    (h : (if decide c = true then Val.bool (decide p) else Val.bool (decide q)) = .bool true) : if c then p else q := by
  by_cases hc : c
  · simp only [hc, decide_true, if_true] at h ⊢; exact bt h
  · simp only [hc, decide_false, Bool.false_eq_true, if_false] at h ⊢; exact bt h

theorem toNat_succ {n : Int} (h : ¬ n ≤ 0) : n.toNat = (n - 1).toNat + 1 := by omega

theorem det_length (h : M.Sat coreCmds) (l : List Int) : M.fn "list_length" [encL l] = .int l.length := by
  have h1 := h c_ax_list_length1 (core_mem (by simp [fileCmds]) (by decide +kernel))
  have h2 := h c_ax_list_length2 (core_mem (by simp [fileCmds]) (by decide +kernel))
  unfold c_ax_list_length1 at h1
  unfold c_ax_list_length2 at h2
  revert h1 h2
  smt_eval
  intro h1 h2
  induction l with
  | nil => exact bt h1
  | cons a l ih =>
    rw [bt (h2 a l), ih, apply_add]
    simp only [List.length_cons, Val.int.injEq]
    omega

theorem det_append (h : M.Sat coreCmds) (l : List Int) (v : Int) : M.fn "list_append" [encL l, Val.int v] = encL (l ++ [v]) := by
  have h1 := h c_ax_list_append1 (core_mem (by simp [fileCmds]) (by decide +kernel))
  have h2 := h c_ax_list_append2 (core_mem (by simp [fileCmds]) (by decide +kernel))
  unfold c_ax_list_append1 at h1
  unfold c_ax_list_append2 at h2
  revert h1 h2
  smt_eval
  intro h1 h2
  induction l with
  | nil => exact bt (h1 v)
  | cons a l ih =>
    rw [bt (h2 a l v), ih, apply_cons_l]
    rfl

theorem det_prepend (h : M.Sat coreCmds) (v : Int) (l : List Int) : M.fn "list_prepend" [Val.int v, encL l] = encL (v :: l) := by
  have h1 := h c_list_prepend (core_mem (by simp [fileCmds]) (by decide +kernel))
  unfold c_list_prepend at h1
  revert h1
  smt_eval
  intro h1
  exact ((h1 v l).2).symm

theorem det_empty (h : M.Sat coreCmds) : M.fn "list_empty" [] = encL [] := by
  have h1 := h c_list_empty (core_mem (by simp [fileCmds]) (by decide +kernel))
  unfold c_list_empty at h1
  revert h1
  smt_eval
  intro h1
  exact h1.2.symm

theorem det_get (h : M.Sat coreCmds) (l : List Int) (i : Int) (h0 : 0 ≤ i) (v : Int) (hv : l[i.toNat]? = some v) :
    M.fn "list_get" [encL l, .int i] = Val.int v := by
  have h1 := h c_ax_list_get1 (core_mem (by simp [fileCmds]) (by decide +kernel))
  have h2 := h c_list_get (core_mem (by simp [fileCmds]) (by decide +kernel))
  unfold c_ax_list_get1 at h1
  unfold c_list_get at h2
  revert h1 h2
  smt_eval
  intro h1 h2
  rw [← (h2 l i).2]
  clear h2
  induction l generalizing i with
  | nil => simp at hv
  | cons a l ih =>
    have e := bt_ite (h1 a l i)
    by_cases hi : i ≤ 0
    · rw [if_pos hi] at e
      rw [e]
      rw [show i.toNat = 0 by omega] at hv
      simp at hv
      rw [hv]
    · rw [if_neg hi] at e
      rw [e]
      rw [toNat_succ hi] at hv
      exact ih (i - 1) (by omega) (by simpa using hv)

theorem det_tail (h : M.Sat coreCmds) (l : List Int) (n : Int) : M.fn "list_tail" [encL l, .int n] = encL (l.drop n.toNat) := by
  have h1 := h c_ax_list_tail1 (core_mem (by simp [fileCmds]) (by decide +kernel))
  have h2 := h c_ax_list_tail2 (core_mem (by simp [fileCmds]) (by decide +kernel))
  unfold c_ax_list_tail1 at h1
  unfold c_ax_list_tail2 at h2
  revert h1 h2
  smt_eval
  intro h1 h2
  induction l generalizing n with
  | nil => rw [bt (h2 n), List.drop_nil]
  | cons a l ih =>
    have e := bt_ite (h1 n a l)
    by_cases hi : n ≤ 0
    · rw [if_pos hi] at e
      rw [e, show n.toNat = 0 by omega, List.drop_zero]
    · rw [if_neg hi] at e
      rw [e, ih, toNat_succ hi, List.drop_succ_cons]

theorem det_take (h : M.Sat coreCmds) (l : List Int) (n : Int) : M.fn "list_take" [encL l, .int n] = encL (l.take n.toNat) := by
  have h1 := h c_ax_list_take1 (core_mem (by simp [fileCmds]) (by decide +kernel))
  have h2 := h c_ax_list_take2 (core_mem (by simp [fileCmds]) (by decide +kernel))
  unfold c_ax_list_take1 at h1
  unfold c_ax_list_take2 at h2
  revert h1 h2
  smt_eval
  intro h1 h2
  induction l generalizing n with
  | nil => rw [bt (h2 n), List.take_nil]
  | cons a l ih =>
    have e := bt_ite (h1 n a l)
    by_cases hi : n ≤ 0
    · rw [if_pos hi] at e
      rw [e, show n.toNat = 0 by omega, List.take_zero]
    · rw [if_neg hi] at e
      rw [e, ih, toNat_succ hi, List.take_succ_cons, apply_cons_l]

theorem det_lengthM (h : M.Sat coreCmds) (l : List (List Int)) : M.fn "matrix_length" [encM l] = .int l.length := by
  have h1 := h c_ax_matrix_length1 (core_mem (by simp [fileCmds]) (by decide +kernel))
  have h2 := h c_ax_matrix_length2 (core_mem (by simp [fileCmds]) (by decide +kernel))
  unfold c_ax_matrix_length1 at h1
  unfold c_ax_matrix_length2 at h2
  revert h1 h2
  smt_eval
  intro h1 h2
  induction l with
  | nil => exact bt h1
  | cons a l ih =>
    rw [bt (h2 a l), ih, apply_add]
    simp only [List.length_cons, Val.int.injEq]
    omega

theorem det_appendM (h : M.Sat coreCmds) (l : List (List Int)) (v : (List Int)) : M.fn "matrix_append" [encM l, encL v] = encM (l ++ [v]) := by
  have h1 := h c_ax_matrix_append1 (core_mem (by simp [fileCmds]) (by decide +kernel))
  have h2 := h c_ax_matrix_append2 (core_mem (by simp [fileCmds]) (by decide +kernel))
  unfold c_ax_matrix_append1 at h1
  unfold c_ax_matrix_append2 at h2
  revert h1 h2
  smt_eval
  intro h1 h2
  induction l with
  | nil => exact bt (h1 v)
  | cons a l ih =>
    rw [bt (h2 a l v), ih, apply_cons_m]
    rfl

theorem det_prependM (h : M.Sat coreCmds) (v : (List Int)) (l : List (List Int)) : M.fn "matrix_prepend" [encL v, encM l] = encM (v :: l) := by
  have h1 := h c_matrix_prepend (core_mem (by simp [fileCmds]) (by decide +kernel))
  unfold c_matrix_prepend at h1
  revert h1
  smt_eval
  intro h1
  exact ((h1 v l).2).symm

theorem det_emptyM (h : M.Sat coreCmds) : M.fn "matrix_empty" [] = encM [] := by
  have h1 := h c_matrix_empty (core_mem (by simp [fileCmds]) (by decide +kernel))
  unfold c_matrix_empty at h1
  revert h1
  smt_eval
  intro h1
  exact h1.2.symm

theorem det_getM (h : M.Sat coreCmds) (l : List (List Int)) (i : Int) (h0 : 0 ≤ i) (v : (List Int)) (hv : l[i.toNat]? = some v) :
    M.fn "matrix_get" [encM l, .int i] = encL v := by
  have h1 := h c_ax_matrix_get1 (core_mem (by simp [fileCmds]) (by decide +kernel))
  have h2 := h c_matrix_get (core_mem (by simp [fileCmds]) (by decide +kernel))
  unfold c_ax_matrix_get1 at h1
  unfold c_matrix_get at h2
  revert h1 h2
  smt_eval
  intro h1 h2
  rw [← (h2 l i).2]
  clear h2
  induction l generalizing i with
  | nil => simp at hv
  | cons a l ih =>
    have e := bt_ite (h1 a l i)
    by_cases hi : i ≤ 0
    · rw [if_pos hi] at e
      rw [e]
      rw [show i.toNat = 0 by omega] at hv
      simp at hv
      rw [hv]
    · rw [if_neg hi] at e
      rw [e]
      rw [toNat_succ hi] at hv
      exact ih (i - 1) (by omega) (by simpa using hv)

theorem det_tailM (h : M.Sat coreCmds) (l : List (List Int)) (n : Int) : M.fn "matrix_tail" [encM l, .int n] = encM (l.drop n.toNat) := by
  have h1 := h c_ax_matrix_tail1 (core_mem (by simp [fileCmds]) (by decide +kernel))
  have h2 := h c_ax_matrix_tail2 (core_mem (by simp [fileCmds]) (by decide +kernel))
  unfold c_ax_matrix_tail1 at h1
  unfold c_ax_matrix_tail2 at h2
  revert h1 h2
  smt_eval
  intro h1 h2
  induction l generalizing n with
  | nil => rw [bt (h2 n), List.drop_nil]
  | cons a l ih =>
    have e := bt_ite (h1 n a l)
    by_cases hi : n ≤ 0
    · rw [if_pos hi] at e
      rw [e, show n.toNat = 0 by omega, List.drop_zero]
    · rw [if_neg hi] at e
      rw [e, ih, toNat_succ hi, List.drop_succ_cons]

theorem det_takeM (h : M.Sat coreCmds) (l : List (List Int)) (n : Int) : M.fn "matrix_take" [encM l, .int n] = encM (l.take n.toNat) := by
  have h1 := h c_ax_matrix_take1 (core_mem (by simp [fileCmds]) (by decide +kernel))
  have h2 := h c_ax_matrix_take2 (core_mem (by simp [fileCmds]) (by decide +kernel))
  unfold c_ax_matrix_take1 at h1
  unfold c_ax_matrix_take2 at h2
  revert h1 h2
  smt_eval
  intro h1 h2
  induction l generalizing n with
  | nil => rw [bt (h2 n), List.take_nil]
  | cons a l ih =>
    have e := bt_ite (h1 n a l)
    by_cases hi : n ≤ 0
    · rw [if_pos hi] at e
      rw [e, show n.toNat = 0 by omega, List.take_zero]
    · rw [if_neg hi] at e
      rw [e, ih, toNat_succ hi, List.take_succ_cons, apply_cons_m]

theorem det_concat (h : M.Sat coreCmds) (l k : List Int) : M.fn "list_concat" [encL l, encL k] = encL (l ++ k) := by
  have h1 := h c_list_concat (core_mem (by simp [fileCmds]) (by decide +kernel))
  unfold c_list_concat at h1
  revert h1
  smt_eval
  intro h1
  induction l with
  | nil =>
    rw [← (h1 [] k).2]
    simp
  | cons a l ih =>
    rw [← (h1 (a :: l) k).2, apply_tail_l, ih, apply_head_l, apply_cons_l]
    rw [if_neg (by simp [encL])]
    rfl

theorem det_contains (h : M.Sat coreCmds) (l : List Int) (v : Int) :
    M.fn "list_contains" [encL l, .int v] = .bool (decide (v ∈ l)) := by
  have hl := det_length h
  have h1 := h c_list_contains (core_mem (by simp [fileCmds]) (by decide +kernel))
  unfold c_list_contains at h1
  revert h1
  smt_eval
  intro h1
  induction l with
  | nil =>
    rw [← (h1 [] v).2, hl]
    simp
  | cons a l ih =>
    rw [← (h1 (a :: l) v).2, apply_tail_l, ih, apply_head_l, hl]
    rw [if_neg (by simp; omega)]
    by_cases ha : a = v
    · simp [ha]
    · simp [ha, Ne.symm ha]

theorem det_slice (h : M.Sat coreCmds) (l : List Int) (a b : Int) :
    M.fn "vec_slice" [encL l, .int a, .int b] = encL ((l.take b.toNat).drop a.toNat) := by
  have ht := det_take h
  have hd := det_tail h
  have h1 := h c_vec_slice (core_mem (by simp [fileCmds]) (by decide +kernel))
  unfold c_vec_slice at h1
  revert h1
  smt_eval
  intro h1
  rw [← (h1 l a b).2, ht, hd]

theorem det_sliceLen (h : M.Sat coreCmds) (l : List Int) (a b : Int) :
    M.fn "vec_slice_with_length" [encL l, .int a, .int b] = encL ((l.take (a + b).toNat).drop a.toNat) := by
  have hs := det_slice h
  have h1 := h c_vec_slice_with_length (core_mem (by simp [fileCmds]) (by decide +kernel))
  unfold c_vec_slice_with_length at h1
  revert h1
  smt_eval
  intro h1
  rw [← (h1 l a b).2, hs]

theorem det_rowSlice (h : M.Sat coreCmds) (l : List (List Int)) (a b : Int) :
    M.fn "matrix_row_slice" [encM l, .int a, .int b] = encM ((l.take b.toNat).drop a.toNat) := by
  have ht := det_takeM h
  have hd := det_tailM h
  have h1 := h c_matrix_row_slice (core_mem (by simp [fileCmds]) (by decide +kernel))
  unfold c_matrix_row_slice at h1
  revert h1
  smt_eval
  intro h1
  rw [← (h1 l a b).2, ht, hd]

theorem det_rowSliceLen (h : M.Sat coreCmds) (l : List (List Int)) (a b : Int) :
    M.fn "matrix_row_slice_with_length" [encM l, .int a, .int b] = encM ((l.take (a + b).toNat).drop a.toNat) := by
  have hs := det_rowSlice h
  have h1 := h c_matrix_row_slice_with_length (core_mem (by simp [fileCmds]) (by decide +kernel))
  unfold c_matrix_row_slice_with_length at h1
  revert h1
  smt_eval
  intro h1
  rw [← (h1 l a b).2, hs]

theorem det_colSlice (h : M.Sat coreCmds) (m : List (List Int)) (a b : Int) :
    M.fn "matrix_col_slice" [encM m, .int a, .int b] = encM (m.map fun r => (r.take b.toNat).drop a.toNat) := by
  have hs := det_slice h
  have hl := det_lengthM h
  have he := det_emptyM h
  have hp := det_prependM h
  have hd := det_tailM h
  have hg := det_getM h
  have h1 := h c_matrix_col_slice (core_mem (by simp [fileCmds]) (by decide +kernel))
  unfold c_matrix_col_slice at h1
  revert h1
  smt_eval
  intro h1
  induction m with
  | nil =>
    rw [← (h1 [] a b).2, hl, apply_lt, apply_ite, he]
    simp
  | cons r m ih =>
    rw [← (h1 (r :: m) a b).2, hl, apply_lt, apply_ite, hg (r :: m) 0 (by omega) r rfl, hs, hd]
    rw [show ((r :: m).drop (1 : Int).toNat) = m from rfl, ih, hp]
    rw [if_neg (by simp)]
    rfl

theorem det_firsts (h : M.Sat coreCmds) (m : List (List Int)) (hm : ∀ r ∈ m, r ≠ []) :
    M.fn "firsts" [encM m] = encL (m.map fun r => r.headD 0) := by
  have hl := det_lengthM h
  have he := det_empty h
  have hp := det_prepend h
  have hd := det_tailM h
  have hg := det_getM h
  have hg' := det_get h
  have h1 := h c_firsts (core_mem (by simp [fileCmds]) (by decide +kernel))
  unfold c_firsts at h1
  revert h1
  smt_eval
  intro h1
  induction m with
  | nil =>
    rw [← (h1 []).2, hl, apply_lt, apply_ite, he]
    simp
  | cons r m ih =>
    cases r with
    | nil => exact absurd rfl (hm [] (by simp))
    | cons x r =>
      rw [← (h1 ((x :: r) :: m)).2, hl, apply_lt, apply_ite, hg ((x :: r) :: m) 0 (by omega) (x :: r) rfl, hg' (x :: r) 0 (by omega) x rfl, hd]
      rw [show (((x :: r) :: m).drop (1 : Int).toNat) = m from rfl, ih (fun r hr => hm r (List.mem_cons_of_mem _ hr)), hp]
      rw [if_neg (by simp)]
      rfl

theorem det_colSliceLen (h : M.Sat coreCmds) (m : List (List Int)) (a b : Int) :
    M.fn "matrix_col_slice_with_length" [encM m, .int a, .int b] = encM (m.map fun r => (r.take (a + b).toNat).drop a.toNat) := by
  have hs := det_colSlice h
  have h1 := h c_matrix_col_slice_with_length (core_mem (by simp [fileCmds]) (by decide +kernel))
  unfold c_matrix_col_slice_with_length at h1
  revert h1
  smt_eval
  intro h1
  rw [← (h1 m a b).2, hs]

theorem det_rests (h : M.Sat coreCmds) (m : List (List Int)) :
    M.fn "rests" [encM m] = encM (m.map fun r => (r.take (m.headD []).length).drop 1) := by
  have hl := det_lengthM h
  have he := det_emptyM h
  have hL := det_length h
  have hg := det_getM h
  have hs := det_colSlice h
  have h1 := h c_rests (core_mem (by simp [fileCmds]) (by decide +kernel))
  unfold c_rests at h1
  revert h1
  smt_eval
  intro h1
  cases m with
  | nil =>
    rw [← (h1 []).2, hl, apply_lt, apply_ite, he]
    simp
  | cons r m =>
    rw [← (h1 (r :: m)).2, hl, apply_lt, apply_ite, hg (r :: m) 0 (by omega) r rfl, hL, hs]
    rw [if_neg (by simp)]
    simp

theorem det_exp (h : M.Sat coreCmds) (n : Int) : M.fn "integer_exp" [.int n] = .int (3 ^ n.toNat % 64) := by
  have h1 := h c_integer_exp (core_mem (by simp [fileCmds]) (by decide +kernel))
  unfold c_integer_exp at h1
  revert h1
  smt_eval
  intro h1
  have key : ∀ (k : Nat) (n : Int), n.toNat = k → M.fn "integer_exp" [.int n] = .int (3 ^ k % 64) := by
    intro k
    induction k with
    | zero =>
      intro n hn
      rw [← (h1 n).2, if_pos (by simp; omega)]
      rfl
    | succ k ih =>
      intro n hn
      rw [← (h1 n).2, if_neg (by simp; omega), ih (n - 1) (by omega), apply_mul, apply_mod, mmod (by decide)]
      congr 1
      rw [Int.pow_succ, Int.mul_emod, Int.emod_emod_of_dvd _ (Int.dvd_refl 64), ← Int.mul_emod]
  exact key _ n rfl

/-- The definitions of the files, without that of `matrix_transpose`. -/
theorem files_core {fs : List SExpr} (h : readFile filesText = some (fs ++ [c_matrix_transpose])) : fs = coreCmds := by
  rw [files_read, fileCmds_eq, Option.some.injEq, List.append_cancel_right_eq] at h
  exact h.symm

/-- **C49 (lists).**  In every structure that satisfies the text of the files without the definition of `matrix_transpose`, the functions on
lists are the usual ones. -/
theorem C49_lists_determined (fs : List SExpr) (hfs : readFile filesText = some (fs ++ [c_matrix_transpose])) (M : Model) (hM : M.Sat fs) :
    ListsUsual M := by
  rw [files_core hfs] at hM
  exact ⟨det_empty hM, det_length hM, det_prepend hM, det_append hM, fun l i v h => det_get hM l i (by omega) v (by simpa using h),
    det_tail hM, det_take hM, det_concat hM, det_contains hM, det_slice hM, det_sliceLen hM⟩

/-- **C49 (matrices).** -/
theorem C49_matrices_determined (fs : List SExpr) (hfs : readFile filesText = some (fs ++ [c_matrix_transpose])) (M : Model) (hM : M.Sat fs) :
    MatricesUsual M := by
  rw [files_core hfs] at hM
  refine ⟨det_emptyM hM, det_lengthM hM, det_prependM hM, det_appendM hM, fun l i v h => det_getM hM l i (by omega) v (by simpa using h),
    det_tailM hM, det_takeM hM, det_rowSlice hM, det_rowSliceLen hM, det_colSlice hM, det_colSliceLen hM, det_firsts hM, ?_⟩
  intro m hm
  rw [det_rests hM]
  refine congrArg encM (List.map_congr_left (fun r hr => ?_))
  rw [← hm r hr, List.take_length, List.drop_one]

/-- **C49 (exponential).**  `integer_exp` is the power of three modulo 64 (1 for negative numbers). -/
theorem C49_integer_exp_determined (fs : List SExpr) (hfs : readFile filesText = some (fs ++ [c_matrix_transpose])) (M : Model)
    (hM : M.Sat fs) (n : Int) : M.fn "integer_exp" [.int n] = .int (3 ^ n.toNat % 64) := by
  exact det_exp (files_core hfs ▸ hM) n

/-- Non-vacuity: there is such a structure. -/
example : ∃ fs, readFile filesText = some (fs ++ [c_matrix_transpose]) ∧ ∃ M : Model, M.Sat fs := C27_files_satisfiable_partial

/-- Elements beyond the end of a list are not determined: any integer is possible. -/
theorem C49_get_beyond_any (d : Int) : ∃ fs, readFile filesText = some (fs ++ [c_matrix_transpose]) ∧ ∃ M : Model, M.Sat fs ∧
    M.fn "list_get" [encL [7], .int 1] = .int d := by
  refine ⟨coreCmds, by rw [files_read, fileCmds_eq], ⟨fileFn (stdModel d) stdInts, fun _ => 0, fun _ => 0⟩, ?_, ?_⟩
  · exact core_sat (rep_of_fn _ _ (fun f _ vs => rfl)) (stdModel_core d) stdInts_ok
  · have hR := rep_of_fn (M := ⟨fileFn (stdModel d) stdInts, fun _ => 0, fun _ => 0⟩) (stdModel d) stdInts (fun f _ vs => rfl)
    rw [hR.get]
    rfl

end Smt
end Metalift
