import Verif.RktLib
/-
What the recursive functions of `metalift/utils/utils.rkt` compute.
-/
namespace Metalift
namespace Rkt

/-! ### Columns -/

/-- A matrix as a Racket list. -/
def rowsV (m : List (List Val)) : List Val := m.map .list

theorem refV_rows {d : Val} {r : List Val} {m : List (List Val)} : refV d (rowsV (r :: m)) 0 = .list r := by
  simp [refV, rowsV]

theorem tail_rows {v : Val} {m : List Val} : listTail (v :: m) 1 = m := by
  simp [listTail]; omega

theorem len_rows {v : Val} {m : List Val} : decide ((((v :: m).length : Nat) : Int) < 1) = false := by
  simp; omega

theorem lib_col_slice {i j : Int} {fu : Nat} : ∀ (rows : List (List Val)) (n : Nat),
    libCall (n + 3 * rows.length + 12) fu "matrix-col-slice-noerr" [.list (rowsV rows), .int i, .int j] =
      some (.list (rowsV ((rows.map fun r => slice r i j).filter fun r => decide (r.length > 0))))
  | [], n => by
    rw [show n + 3 * ([] : List (List Val)).length + 12 = n + 12 from rfl]
    rkt_eval d_matrix_col_slice_noerr
    simp [lib_matrix_length, rowsV, b_lt]
  | r :: rows, n => by
    have ih := lib_col_slice (i := i) (j := j) (fu := fu) rows n
    rw [show n + 3 * (r :: rows).length + 12 = n + 3 * rows.length + 15 by simp; omega]
    rkt_eval d_matrix_col_slice_noerr
    simp only [lib_matrix_length, lib_matrix_ref, lib_matrix_tail, Option.bind_some, b_lt, if_bool, refV_rows]
    rw [show rowsV (r :: rows) = .list r :: rowsV rows from rfl]
    simp only [tail_rows, len_rows, lib_list_slice, ih, Option.bind_some, lib_matrix_prepend]
    by_cases h : (slice r i j).length > 0 <;> simp [h, rowsV]

theorem lib_col_slice_len {i j : Int} {fu : Nat} (rows : List (List Val)) (n : Nat) :
    libCall (n + 3 * rows.length + 14) fu "matrix-col-slice-with-length-noerr" [.list (rowsV rows), .int i, .int j] =
      some (.list (rowsV ((rows.map fun r => slice r i (i + j)).filter fun r => decide (r.length > 0)))) := by
  rkt_eval d_matrix_col_slice_with_length_noerr
  have h := lib_col_slice (i := i) (j := i + j) (fu := fu) rows (n + 1)
  rw [show n + 1 + 3 * rows.length + 12 = n + 3 * rows.length + 13 by omega] at h
  rw [h]

theorem lib_firsts : ∀ (rows : List (List Val)) (n fu : Nat),
    libCall (n + 3 * rows.length + 12) fu "firsts" [.list (rowsV rows)] =
      if rows.length < fu then some (.list (rows.map fun r => r.headD (.int 0))) else none
  | rows, n, 0 => by
    rw [libCall_def (d := d_firsts) (by rfl)]
    simp [applyDef, d_firsts]
  | [], n, fu + 1 => by
    rw [show n + 3 * ([] : List (List Val)).length + 12 = n + 12 from rfl]
    rkt_eval d_firsts
    simp [lib_matrix_length, rowsV, b_lt, lib_list_empty]
  | r :: rows, n, fu + 1 => by
    have ih := lib_firsts rows n fu
    rw [show n + 3 * (r :: rows).length + 12 = n + 3 * rows.length + 15 by simp; omega]
    rkt_eval d_firsts
    simp only [lib_matrix_length, lib_matrix_ref, lib_list_tail, Option.bind_some, b_lt, if_bool, refV_rows, lib_list_ref]
    rw [show rowsV (r :: rows) = .list r :: rowsV rows from rfl]
    simp only [tail_rows, len_rows, ih, Bool.false_eq_true, if_false]
    simp only [List.length_cons, Nat.add_lt_add_iff_right]
    by_cases h : rows.length < fu
    · simp only [h, if_true, Option.bind_some, lib_list_prepend]
      cases r <;> simp [refV]
    · simp [h]

theorem lib_rests (rows : List (List Val)) (n fu : Nat) :
    libCall (n + 3 * rows.length + 14) fu "rests" [.list (rowsV rows)] =
      some (.list (rowsV ((rows.map fun r => slice r 1 ((rows.headD []).length)).filter fun r => decide (r.length > 0)))) := by
  rkt_eval d_rests
  cases rows with
  | nil => simp [lib_matrix_length, rowsV, b_lt, lib_matrix_empty]
  | cons r rows =>
    have h := lib_col_slice (i := 1) (j := r.length) (fu := fu) (r :: rows) n
    simp only [lib_matrix_length, lib_matrix_ref, Option.bind_some, b_lt, if_bool, refV_rows, b_length, h]
    rw [show rowsV (r :: rows) = .list r :: rowsV rows from rfl]
    simp only [len_rows]
    rfl

theorem lib_sqrt {n fu : Nat} {i : Int} : libCall (n + 6) (fu + 1) "integer-sqrt-noerr" [.int i] = some (.int i) := by
  rkt_eval d_integer_sqrt_noerr

theorem lib_exp : ∀ (fu n : Nat) (i : Int), libCall (n + 4 * fu + 6) fu "integer-exp-noerr" [.int i] = (integerExp fu i).map .int
  | 0, n, i => by
    rw [libCall_def (d := d_integer_exp_noerr) (by rfl)]
    simp [applyDef, d_integer_exp_noerr, integerExp]
  | fu + 1, n, i => by
    have ih := lib_exp fu n (i - 1)
    rw [show n + 4 * (fu + 1) + 6 = n + 4 * fu + 10 by omega]
    rkt_eval d_integer_exp_noerr
    rw [ih]
    by_cases h : i ≤ 0
    · simp [h, integerExp]
    · cases h2 : integerExp fu (i - 1) with
      | none => simp [h, integerExp, h2]
      | some e => simp [h, integerExp, h2, b_mul, b_rem]

/-! ### Sets -/

/-- A set of integers as a Racket list. -/
def setV (s : List Int) : Val := .list (s.map .int)

theorem lib_set_union : ∀ (as bs : List Int) (n fu : Nat),
    libCall (n + 5 * (as.length + bs.length) + 12) fu "set-union" [setV as, setV bs] = some (setV (setUnion as bs))
  | [], bs, n, fu => by
    simp only [setV, List.map_nil]
    rkt_eval d_set_union
    simp [setUnion]
  | a :: as, [], n, fu => by
    simp only [setV, List.map_nil, List.map_cons]
    rkt_eval d_set_union
    simp [setUnion]
  | a :: as, b :: bs, n, fu => by
    have e1 : ∀ k, n + k + 5 * ((a :: as).length + bs.length) + 12 = n + 5 * (as.length + bs.length) + (17 + k) := by intro k; simp; omega
    have e2 : ∀ k, n + k + 5 * (as.length + (b :: bs).length) + 12 = n + 5 * (as.length + bs.length) + (17 + k) := by intro k; simp; omega
    have e3 : ∀ k, n + k + 5 * (as.length + bs.length) + 12 = n + 5 * (as.length + bs.length) + (12 + k) := by intro k; omega
    have i1 := lib_set_union (a :: as) bs (n + 2) fu
    have i2 := lib_set_union (a :: as) bs (n + 0) fu
    have i3 := lib_set_union as (b :: bs) (n + 0) fu
    rw [e1] at i1 i2
    rw [e2] at i3
    simp only [setV, List.map_cons, Nat.reduceAdd] at i1 i2 i3 ⊢
    rw [show n + 5 * ((a :: as).length + (b :: bs).length) + 12 = n + 5 * (as.length + bs.length) + 22 by simp; omega]
    rkt_eval d_set_union
    rw [i1, i2, i3, setUnion]
    by_cases h : a = b
    · simp [h]
    · by_cases h2 : a < b <;> simp [h, h2, b_cons]
termination_by as bs => as.length + bs.length

theorem lib_set_subset : ∀ (as bs : List Int) (n fu : Nat),
    libCall (n + 5 * (as.length + bs.length) + 12) fu "set-subset" [setV as, setV bs] = some (.bool (setSubset as bs))
  | [], bs, n, fu => by
    simp only [setV, List.map_nil]
    rkt_eval d_set_subset
    simp [setSubset]
  | a :: as, [], n, fu => by
    simp only [setV, List.map_nil, List.map_cons]
    rkt_eval d_set_subset
    simp [setSubset]
  | a :: as, b :: bs, n, fu => by
    have e1 : ∀ k, n + k + 5 * ((a :: as).length + bs.length) + 12 = n + 5 * (as.length + bs.length) + (17 + k) := by intro k; simp; omega
    have e2 : ∀ k, n + k + 5 * (as.length + (b :: bs).length) + 12 = n + 5 * (as.length + bs.length) + (17 + k) := by intro k; simp; omega
    have e3 : ∀ k, n + k + 5 * (as.length + bs.length) + 12 = n + 5 * (as.length + bs.length) + (12 + k) := by intro k; omega
    have i1 := lib_set_subset (a :: as) bs (n + 1) fu
    have i2 := lib_set_subset as bs (n + 7) fu
    rw [e1] at i1
    rw [e3] at i2
    simp only [setV, List.map_cons, Nat.reduceAdd] at i1 i2 ⊢
    rw [show n + 5 * ((a :: as).length + (b :: bs).length) + 12 = n + 5 * (as.length + bs.length) + 22 by simp; omega]
    rkt_eval d_set_subset
    rw [i1, i2, setSubset]
    by_cases h : a = b
    · simp [h]
    · by_cases h2 : a < b <;> simp [h, h2]
termination_by as bs => as.length + bs.length

theorem lib_set_minus : ∀ (as bs : List Int) (n fu : Nat),
    libCall (n + 5 * (as.length + bs.length) + 12) fu "set-minus" [setV as, setV bs] = some (setV (setMinus as bs))
  | [], bs, n, fu => by
    simp only [setV, List.map_nil]
    rkt_eval d_set_minus
    simp [setMinus]
  | a :: as, [], n, fu => by
    simp only [setV, List.map_nil, List.map_cons]
    rkt_eval d_set_minus
    simp [setMinus]
  | a :: as, b :: bs, n, fu => by
    have e1 : ∀ k, n + k + 5 * ((a :: as).length + bs.length) + 12 = n + 5 * (as.length + bs.length) + (17 + k) := by intro k; simp; omega
    have e2 : ∀ k, n + k + 5 * (as.length + (b :: bs).length) + 12 = n + 5 * (as.length + bs.length) + (17 + k) := by intro k; simp; omega
    have e3 : ∀ k, n + k + 5 * (as.length + bs.length) + 12 = n + 5 * (as.length + bs.length) + (12 + k) := by intro k; omega
    have i1 := lib_set_minus (a :: as) bs (n + 1) fu
    have i2 := lib_set_minus as bs (n + 7) fu
    have i3 := lib_set_minus as (b :: bs) (n + 0) fu
    rw [e1] at i1
    rw [e3] at i2
    rw [e2] at i3
    simp only [setV, List.map_cons, Nat.reduceAdd] at i1 i2 i3 ⊢
    rw [show n + 5 * ((a :: as).length + (b :: bs).length) + 12 = n + 5 * (as.length + bs.length) + 22 by simp; omega]
    rkt_eval d_set_minus
    rw [i1, i2, i3, setMinus]
    by_cases h : a = b
    · simp [h]
    · by_cases h2 : a < b <;> simp [h, h2, b_cons]
termination_by as bs => as.length + bs.length

theorem lib_set_create {n fu : Nat} : libCall (n + 6) fu "set-create" [] = some (setV setCreate) := by
  rkt_eval d_set_create

theorem lib_set_singleton {n fu : Nat} {i : Int} : libCall (n + 6) fu "set-singleton" [.int i] = some (setV (setSingleton i)) := by
  rkt_eval d_set_singleton
  rfl

theorem map_int_inj {a b : List Int} : a.map Val.int = b.map Val.int ↔ a = b :=
  ⟨fun h => (List.map_inj_right (fun _ _ h => by simpa using h)).1 h, fun h => by rw [h]⟩

theorem lib_set_eq {n fu : Nat} {a b : List Int} : libCall (n + 6) fu "set-eq" [setV a, setV b] = some (.bool (setEq a b)) := by
  rkt_eval d_set_eq
  simp only [setV, Val.list.injEq, map_int_inj, setEq]
  congr 2
  by_cases h : a = b <;> simp [h]

theorem lib_set_insert {n fu : Nat} {i : Int} {s : List Int} :
    libCall (n + 5 * s.length + 20) fu "set-insert" [.int i, setV s] = some (setV (setInsert i s)) := by
  rkt_eval d_set_insert
  simp only [lib_set_singleton, Option.bind_some]
  have h := lib_set_union (setSingleton i) s (n + 2) fu
  rw [show n + 2 + 5 * ((setSingleton i).length + s.length) + 12 = n + 5 * s.length + 19 by simp [setSingleton]; omega] at h
  rw [h]; rfl

theorem evalAny_eq (v : Int) (s : List Int) {f : Val → Option Val} (hf : ∀ w, f w = some (.bool (decide (Val.int v = w)))) :
    evalAny f (s.map .int) = some (.bool (setMember v s)) := by
  induction s with
  | nil => rfl
  | cons a s ih =>
    simp only [List.map_cons, evalAny, hf, Option.bind_some, ih, setMember, List.any_cons, if_bool]
    by_cases h : v = a <;> simp [h]

theorem lib_set_member {n fu : Nat} {v : Int} {s : List Int} :
    libCall (n + 6) fu "set-member" [.int v, setV s] = some (.bool (setMember v s)) := by
  rw [libCall_def (d := d_set_member) (by rfl)]
  simp (decide := true) only [applyDef, d_set_member, bindArgs, Option.map_some, Option.bind_some, if_false, bindAll]
  rw [lib_ormap (vs := s.map .int) (by simp) (by simp (decide := true) [rk_atom, evalAtom_name, evalName]; rfl)]
  apply evalAny_eq
  intro w
  simp (decide := true) only [lib_app, bindAll, List.mapM_cons, List.mapM_nil, rk_atom, evalAtom_name, evalName, Option.pure_def, Option.bind_eq_bind,
    Option.bind_some, if_true, if_false, b_equal]

/-! ### Tuples and maps -/

theorem lib_make_tuple {n fu : Nat} {v : Val} {vs : List Val} : libCall (n + 6) fu "make-tuple" (v :: vs) = some (.list (v :: vs)) := by
  rkt_eval d_make_tuple

theorem lib_tupleGet {n fu : Nat} {l : List Val} {i : Int} : libCall (n + 8) fu "tupleGet" [.list l, .int i] = some (refV (.int 0) l i) := by
  rkt_eval d_tupleGet
  rw [lib_list_ref]

/-- A map from integers to integers as a Racket list of lists of two elements. -/
def pairsV (m : List (Int × Int)) : List Val := m.map fun p => .list [.int p.1, .int p.2]

theorem lib_map_create {n fu : Nat} : libCall (n + 6) fu "map-create" [] = some (.list (pairsV mapCreate)) := by
  rkt_eval d_map_create

theorem refV_pairs {p : Int × Int} {m : List (Int × Int)} : refV (.list []) (pairsV (p :: m)) 0 = .list [.int p.1, .int p.2] := by
  simp [refV, pairsV]

theorem refV_fst {a b : Int} : refV (.int 0) [.int a, .int b] 0 = .int a := by simp [refV]
theorem refV_snd {a b : Int} : refV (.int 0) [.int a, .int b] 1 = .int b := by simp [refV]

theorem len_pairs {p : Int × Int} {m : List (Int × Int)} : decide (Val.int ((pairsV (p :: m)).length : Nat) = Val.int 0) = false := by
  simp [pairsV]; omega

theorem tail_pairs {p : Int × Int} {m : List (Int × Int)} : listTail (pairsV (p :: m)) 1 = pairsV m := tail_rows

theorem lib_map_contains : ∀ (m : List (Int × Int)) (k : Int) (n fu : Nat),
    libCall (n + 5 * m.length + 16) fu "map-contains" [.list (pairsV m), .int k] = some (.int (mapContains k m))
  | [], k, n, fu => by
    rw [show n + 5 * ([] : List (Int × Int)).length + 16 = n + 16 from rfl]
    rkt_eval d_map_contains
    simp [mapContains]
  | p :: m, k, n, fu => by
    have ih := lib_map_contains m k (n + 2) fu
    rw [show n + 2 + 5 * m.length + 16 = n + 5 * m.length + 18 by omega] at ih
    rw [show n + 5 * (p :: m).length + 16 = n + 5 * m.length + 21 by simp; omega]
    rkt_eval d_map_contains
    simp only [len_pairs, tail_pairs, refV_pairs, refV_fst, lib_matrix_ref, lib_list_tail, lib_tupleGet, Option.bind_some, b_equal, if_bool, ih]
    rw [mapContains]
    by_cases h : p.1 = k <;> simp [h]

theorem lib_getIdx : ∀ (m : List (Int × Int)) (k : Int) (n fu : Nat),
    libCall (n + 5 * m.length + 16) fu "getIdx" [.list (pairsV m), .int k] = some (.int (getIdx k m))
  | [], k, n, fu => by
    rw [show n + 5 * ([] : List (Int × Int)).length + 16 = n + 16 from rfl]
    rkt_eval d_getIdx
    simp [getIdx]
  | p :: m, k, n, fu => by
    have ih := lib_getIdx m k (n + 1) fu
    rw [show n + 1 + 5 * m.length + 16 = n + 5 * m.length + 17 by omega] at ih
    rw [show n + 5 * (p :: m).length + 16 = n + 5 * m.length + 21 by simp; omega]
    rkt_eval d_getIdx
    simp only [len_pairs, tail_pairs, refV_pairs, refV_fst, lib_matrix_ref, lib_list_tail, lib_tupleGet, Option.bind_some, b_equal, if_bool, ih]
    rw [getIdx]
    by_cases h : p.1 = k
    · simp [h]
    · simp [h, b_add]

theorem lib_map_get : ∀ (m : List (Int × Int)) (k : Int) (n fu : Nat),
    libCall (n + 5 * m.length + 16) fu "map-get" [.list (pairsV m), .int k] = some (.int (mapGet k m))
  | [], k, n, fu => by
    rw [show n + 5 * ([] : List (Int × Int)).length + 16 = n + 16 from rfl]
    rkt_eval d_map_get
    simp [mapGet]
  | p :: m, k, n, fu => by
    have ih := lib_map_get m k (n + 2) fu
    rw [show n + 2 + 5 * m.length + 16 = n + 5 * m.length + 18 by omega] at ih
    rw [show n + 5 * (p :: m).length + 16 = n + 5 * m.length + 21 by simp; omega]
    rkt_eval d_map_get
    simp only [len_pairs, tail_pairs, refV_pairs, refV_fst, refV_snd, lib_matrix_ref, lib_list_tail, lib_tupleGet, Option.bind_some, b_equal,
      if_bool, ih]
    rw [mapGet]
    by_cases h : p.1 = k <;> simp [h]

theorem getIdx_lt {k : Int} : ∀ {m : List (Int × Int)}, mapContains k m ≠ 0 → getIdx k m < m.length
  | [], h => by simp [mapContains] at h
  | p :: m, h => by
    rw [mapContains] at h
    rw [getIdx]
    by_cases h1 : p.1 = k
    · simp [h1]
    · rw [if_neg h1] at h ⊢
      have := getIdx_lt h
      simp; omega

theorem lib_map_insert (m : List (Int × Int)) (k v : Int) (n fu : Nat) :
    libCall (n + 5 * m.length + 20) fu "map-insert" [.list (pairsV m), .int k, .int v] = some (.list (pairsV (mapInsert m k v))) := by
  rkt_eval d_map_insert
  have h1 := lib_map_contains m k (n + 1) fu
  have h2 := lib_getIdx m k (n + 1) fu
  rw [show n + 1 + 5 * m.length + 16 = n + 5 * m.length + 17 by omega] at h1
  rw [show n + 1 + 5 * m.length + 16 = n + 5 * m.length + 17 by omega] at h2
  simp only [h1, h2, lib_make_tuple, Option.bind_some, b_equal, if_bool, b_list1, b_append, b_listSet]
  rw [mapInsert]
  by_cases h : mapContains k m = 0
  · simp [h, pairsV]
  · have hl := getIdx_lt h
    rw [if_neg (by simpa using h), if_neg h, index_in (by simp [pairsV]; omega)]
    simp [pairsV, hl, List.map_set]

theorem lib_map_eq {n fu : Nat} {a b : List (Int × Int)} :
    libCall (n + 6) fu "map-eq" [.list (pairsV a), .list (pairsV b)] = some (.bool (mapEq a b)) := by
  rkt_eval d_map_eq
  have h : ∀ a b : List (Int × Int), pairsV a = pairsV b ↔ a = b := fun a b =>
    ⟨fun h => (List.map_inj_right (fun p q h => by simp at h; exact Prod.ext h.1 h.2)).1 h, fun h => by rw [h]⟩
  simp only [Val.list.injEq, h, mapEq]
  congr 2
  by_cases h : a = b <;> simp [h]

/-! ### Matrices of integers -/

/-- A list of integers. -/
def intsV (l : List Int) : List Val := l.map .int

/-- A matrix of integers. -/
def matV (m : List (List Int)) : List Val := rowsV (m.map intsV)

theorem slice_map {l : List Int} {i j : Int} : slice (intsV l) i j = intsV (slice l i j) := by
  unfold slice listTail listTake intsV
  simp only [List.length_map]
  split
  · simp
  · split
    · simp only [List.length_take, List.length_map]
      split <;> simp [List.map_take, List.map_drop]
    · simp only [List.length_map]
      split <;> simp [List.map_drop]

theorem colSlice_filter {i j : Int} : ∀ m : List (List Int),
    colSlice i j m = (m.map fun r => slice r i j).filter fun r => decide (r.length > 0)
  | [] => rfl
  | r :: m => by
    rw [colSlice, colSlice_filter m, matrixPrepend]
    by_cases h : (slice r i j).length > 0 <;> simp [h]

theorem colSlice_map {i j : Int} {m : List (List Int)} :
    rowsV (((m.map intsV).map fun r => slice r i j).filter fun r => decide (r.length > 0)) = matV (colSlice i j m) := by
  rw [colSlice_filter]
  simp only [matV, List.map_map]
  rw [show ((fun r => slice r i j) ∘ intsV) = intsV ∘ fun r => slice r i j from funext fun r => slice_map]
  rw [← List.map_map, List.filter_map]
  congr 3
  funext r
  simp [intsV]

theorem firsts_eq : ∀ (m : List (List Int)) (fu : Nat),
    (if m.length < fu then some (m.map fun r => r.headD 0) else none) = firsts fu m
  | m, 0 => by simp [firsts]
  | [], fu + 1 => by simp [firsts, matrixLength]
  | r :: m, fu + 1 => by
    have h1 : ¬ matrixLength (r :: m) < 1 := by simp [matrixLength]; omega
    have h2 : matrixRef (r :: m) 0 = r := by simp [matrixRef]
    have h3 : listTail (r :: m) 1 = m := by simp [listTail]; omega
    rw [firsts, if_neg h1, h2, h3, ← firsts_eq m fu]
    by_cases h : m.length < fu
    · simp only [List.length_cons, Nat.add_lt_add_iff_right, h, if_true, Option.map_some, listPrepend, List.map_cons]
      cases r <;> simp [listRef]
    · simp [h]

theorem lib_firsts_int (m : List (List Int)) (n fu : Nat) :
    libCall (n + 3 * m.length + 12) fu "firsts" [.list (matV m)] = (firsts fu m).map fun l => .list (intsV l) := by
  have h := lib_firsts (m.map intsV) n fu
  rw [List.length_map] at h
  rw [matV, h, ← firsts_eq]
  by_cases h : m.length < fu
  · simp only [h, if_true, Option.map_some, intsV, List.map_map, Option.some.injEq, Val.list.injEq]
    apply List.map_congr_left
    intro r _
    cases r <;> simp [intsV]
  · simp [h]

theorem lib_rests_int (m : List (List Int)) (n fu : Nat) :
    libCall (n + 3 * m.length + 14) fu "rests" [.list (matV m)] = some (.list (matV (rests m))) := by
  have h := lib_rests (m.map intsV) n fu
  rw [List.length_map] at h
  rw [matV, h, colSlice_map]
  cases m with
  | nil => rfl
  | cons r m =>
    have h1 : ¬ matrixLength (r :: m) < 1 := by simp [matrixLength]; omega
    rw [rests, if_neg h1]
    simp [matrixRef, intsV]

theorem rests_length (m : List (List Int)) : (rests m).length ≤ m.length := by
  unfold rests
  split
  · simp
  · rw [colSlice_filter]
    exact Nat.le_trans (List.length_filter_le _ _) (by simp)

theorem lib_transpose : ∀ (fu : Nat) (m : List (List Int)) (n : Nat),
    libCall (n + 3 * m.length + 4 * fu + 20) fu "matrix-transpose-noerr" [.list (matV m)] = (transpose fu m).map fun r => .list (matV r)
  | 0, m, n => by
    rw [libCall_def (d := d_matrix_transpose_noerr) (by rfl)]
    simp [applyDef, d_matrix_transpose_noerr, transpose]
  | fu + 1, m, n => by
    have hl := rests_length m
    have ih := lib_transpose fu (rests m) (n + 1 + 3 * (m.length - (rests m).length))
    rw [show n + 1 + 3 * (m.length - (rests m).length) + 3 * (rests m).length + 4 * fu + 20 = n + 3 * m.length + 4 * fu + 21 by omega] at ih
    rw [show n + 3 * m.length + 4 * (fu + 1) + 20 = n + 3 * m.length + 4 * fu + 24 by omega]
    have h1 := lib_firsts_int m (n + 4 * fu + 9) fu
    have h2 := lib_rests_int m (n + 4 * fu + 6) fu
    rw [show n + 4 * fu + 9 + 3 * m.length + 12 = n + 3 * m.length + 4 * fu + 21 by omega] at h1
    rw [show n + 4 * fu + 6 + 3 * m.length + 14 = n + 3 * m.length + 4 * fu + 20 by omega] at h2
    rkt_eval d_matrix_transpose_noerr
    simp only [h1, h2, lib_matrix_length, Option.bind_some, ih, transpose, b_lt, if_bool]
    have hm : ((matV m).length : Int) = matrixLength m := by simp only [matV, rowsV, List.length_map, matrixLength]
    rw [hm]
    by_cases h : matrixLength m < 1
    · simp [h, matV, rowsV, lib_matrix_empty]
    · simp only [h, decide_false, Bool.false_eq_true, if_false]
      cases firsts fu m with
      | none => simp
      | some f =>
        cases transpose fu (rests m) with
        | none => simp
        | some r =>
          simp only [Option.map_some, Option.bind_some, lib_matrix_prepend, matrixPrepend, matV, rowsV, Option.bind_eq_bind]
          by_cases hf : f.length > 0 <;> simp [hf, intsV]
end Rkt
end Metalift
