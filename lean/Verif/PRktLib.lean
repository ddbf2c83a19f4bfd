import Verif.RktLib2
import Verif.RktFileRead
import Verif.PSets
import Verif.PLists
/-
C53: the functions of the Rosette library, as written in `metalift/utils/utils.rkt`, compute the operations on lists, matrices, tensors,
tuples, sets, maps and integers that they are named after.
-/
namespace Metalift
namespace Rkt

/-! ### Specification -/

/-- `LibSpec f vs v k`: the value of `(f vs ...)` should be `v`, and the evaluation may use up to `k` nested bounded calls. -/
inductive LibSpec : String → List Val → Val → Nat → Prop
  | ref_in {f : String} {l : List Val} {i : Nat} {v : Val}
      (hf : f ∈ ["list-ref-noerr", "matrix-ref-noerr", "tensor3d-ref-noerr", "list-tuple-ref-noerr", "tupleGet"]) (h : l[i]? = some v) :
      LibSpec f [.list l, .int i] v 0
  | elem_out {f : String} {l : List Val} {i : Int} (hf : f ∈ ["list-ref-noerr", "tupleGet"]) (h : i < 0 ∨ l.length ≤ i) :
      LibSpec f [.list l, .int i] (.int 0) 0
  | row_out {f : String} {l : List Val} {i : Int} (hf : f ∈ ["matrix-ref-noerr", "tensor3d-ref-noerr", "list-tuple-ref-noerr"])
      (h : i < 0 ∨ l.length ≤ i) : LibSpec f [.list l, .int i] (.list []) 0
  | tail {f : String} {l : List Val} {i : Nat}
      (hf : f ∈ ["list-tail-noerr", "matrix-tail-noerr", "tensor3d-tail-noerr", "list-tuple-tail-noerr"]) :
      LibSpec f [.list l, .int i] (.list (l.drop i)) 0
  | tail_neg {f : String} {l : List Val} {i : Int}
      (hf : f ∈ ["list-tail-noerr", "matrix-tail-noerr", "tensor3d-tail-noerr", "list-tuple-tail-noerr"]) (h : i < 0) :
      LibSpec f [.list l, .int i] (.list []) 0
  | take {f : String} {l : List Val} {i : Int}
      (hf : f ∈ ["list-take-noerr", "matrix-take-noerr", "tensor3d-take-noerr", "list-tuple-take-noerr"]) :
      LibSpec f [.list l, .int i] (.list (l.take i.toNat)) 0
  | slice {f : String} {l : List Val} {i : Nat} {j : Int} (hf : f ∈ ["vec-slice-noerr", "matrix-row-slice-noerr", "tensor3d-slice-noerr"]) :
      LibSpec f [.list l, .int i, .int j] (.list ((l.take j.toNat).drop i)) 0
  | slice_neg {f : String} {l : List Val} {i j : Int} (hf : f ∈ ["vec-slice-noerr", "matrix-row-slice-noerr", "tensor3d-slice-noerr"])
      (h : i < 0) : LibSpec f [.list l, .int i, .int j] (.list []) 0
  | slice_len {f : String} {l : List Val} {i k : Nat}
      (hf : f ∈ ["vec-slice-with-length-noerr", "matrix-row-slice-with-length-noerr", "tensor3d-slice-with-length-noerr"]) :
      LibSpec f [.list l, .int i, .int k] (.list ((l.drop i).take k)) 0
  | append {f : String} {l : List Val} {v : Val} (hf : f ∈ ["list-append", "matrix-append", "tensor3d-append", "list-tuple-append"]) :
      LibSpec f [.list l, v] (.list (l ++ [v])) 0
  | prepend {f : String} {l : List Val} {v : Val} (hf : f ∈ ["list-prepend", "list-tuple-prepend"]) :
      LibSpec f [v, .list l] (.list (v :: l)) 0
  | row_prepend {f : String} {r l : List Val} (hf : f ∈ ["matrix-prepend", "tensor3d-prepend"]) (h : r ≠ []) :
      LibSpec f [.list r, .list l] (.list (.list r :: l)) 0
  | row_prepend_empty {f : String} {l : List Val} (hf : f ∈ ["matrix-prepend", "tensor3d-prepend"]) :
      LibSpec f [.list [], .list l] (.list l) 0
  | concat {a b : List Val} : LibSpec "list-concat" [.list a, .list b] (.list (a ++ b)) 0
  | empty {f : String} (hf : f ∈ ["list-empty", "matrix-empty", "tensor3d-empty", "list-tuple-empty", "set-create", "map-create"]) :
      LibSpec f [] (.list []) 0
  | length {f : String} {l : List Val} (hf : f ∈ ["matrix-length", "tensor3d-length", "list-tuple-length"]) :
      LibSpec f [.list l] (.int l.length) 0
  | make_tuple {v : Val} {vs : List Val} : LibSpec "make-tuple" (v :: vs) (.list (v :: vs)) 0
  | col_slice {m : List (List Val)} {i : Nat} {j : Int} :
      LibSpec "matrix-col-slice-noerr" [.list (m.map .list), .int i, .int j]
        (.list (((m.map fun r => (r.take j.toNat).drop i).filter (· ≠ [])).map .list)) 0
  | col_slice_len {m : List (List Val)} {i k : Nat} :
      LibSpec "matrix-col-slice-with-length-noerr" [.list (m.map .list), .int i, .int k]
        (.list (((m.map fun r => (r.drop i).take k).filter (· ≠ [])).map .list)) 0
  | firsts {m : List (List Val)} : LibSpec "firsts" [.list (m.map .list)] (.list (m.map fun r => r.headD (.int 0))) (m.length + 1)
  | transpose {m : List (List Int)} {c : Nat} (hm : m ≠ []) (hc : 1 ≤ c) (h : ∀ r ∈ m, r.length = c) :
      LibSpec "matrix-transpose-noerr" [.list (m.map fun r => .list (r.map .int))]
        (.list ((List.range c).map fun j => .list (m.map fun r => .int (r.getD j 0)))) (m.length + c + 1)
  | quotient {x y : Int} (h : y ≠ 0) : LibSpec "quotient-noerr" [.int x, .int y] (.int (x.tdiv y)) 0
  | quotient_zero {x : Int} : LibSpec "quotient-noerr" [.int x, .int 0] (.int x) 0
  | exp {n : Nat} : LibSpec "integer-exp-noerr" [.int n] (.int (3 ^ n % 64)) (n + 1)
  | exp_neg {x : Int} (h : x < 0) : LibSpec "integer-exp-noerr" [.int x] (.int 1) 1
  | set_singleton {x : Int} : LibSpec "set-singleton" [.int x] (.list [.int x]) 0
  | set_insert {s t : List Int} {v : Int} (hs : IsSet s) (ht : IsSet t) (h : ∀ x, x ∈ t ↔ x = v ∨ x ∈ s) :
      LibSpec "set-insert" [.int v, .list (s.map .int)] (.list (t.map .int)) 0
  | set_union {r s t : List Int} (hr : IsSet r) (hs : IsSet s) (ht : IsSet t) (h : ∀ x, x ∈ t ↔ x ∈ r ∨ x ∈ s) :
      LibSpec "set-union" [.list (r.map .int), .list (s.map .int)] (.list (t.map .int)) 0
  | set_minus {r s t : List Int} (hr : IsSet r) (hs : IsSet s) (ht : IsSet t) (h : ∀ x, x ∈ t ↔ x ∈ r ∧ x ∉ s) :
      LibSpec "set-minus" [.list (r.map .int), .list (s.map .int)] (.list (t.map .int)) 0
  | set_member {s : List Int} {v : Int} (hs : IsSet s) : LibSpec "set-member" [.int v, .list (s.map .int)] (.bool (decide (v ∈ s))) 0
  | set_subset {r s : List Int} (hr : IsSet r) (hs : IsSet s) :
      LibSpec "set-subset" [.list (r.map .int), .list (s.map .int)] (.bool (decide (∀ x ∈ r, x ∈ s))) 0
  | set_eq {r s : List Int} {b : Bool} (hr : IsSet r) (hs : IsSet s) (h : b = true ↔ ∀ x, x ∈ r ↔ x ∈ s) :
      LibSpec "set-eq" [.list (r.map .int), .list (s.map .int)] (.bool b) 0
  | map_get {m : List (Int × Int)} {k : Int} :
      LibSpec "map-get" [.list (m.map fun p => .list [.int p.1, .int p.2]), .int k] (.int ((m.lookup k).getD 0)) 0
  | map_contains {m : List (Int × Int)} {k : Int} :
      LibSpec "map-contains" [.list (m.map fun p => .list [.int p.1, .int p.2]), .int k] (.int (if (m.lookup k).isSome then 1 else 0)) 0
  | map_insert_new {m : List (Int × Int)} {k v : Int} (h : m.lookup k = none) :
      LibSpec "map-insert" [.list (m.map fun p => .list [.int p.1, .int p.2]), .int k, .int v]
        (.list ((m ++ [(k, v)]).map fun p => .list [.int p.1, .int p.2])) 0
  | map_insert_old {m m' : List (Int × Int)} {k v v' : Int} (h : m.lookup k = none) :
      LibSpec "map-insert" [.list ((m ++ (k, v') :: m').map fun p => .list [.int p.1, .int p.2]), .int k, .int v]
        (.list ((m ++ (k, v) :: m').map fun p => .list [.int p.1, .int p.2])) 0
  | map_eq {a b : List (Int × Int)} :
      LibSpec "map-eq" [.list (a.map fun p => .list [.int p.1, .int p.2]), .list (b.map fun p => .list [.int p.1, .int p.2])]
        (.bool (decide (a = b))) 0

/-- The library read from the text of a file, as a module on top of the language. -/
def moduleOf (ds : List RDef) : Module where
  defs := ds
  imports := fun _ _ f => builtin f

/-- A module's function applied to values, with at most `n` nested steps and the given fuel. -/
def Module.call (M : Module) (n fu : Nat) (f : String) (vs : List Val) : Option Val := (M.exports n fu f).bind fun p => p vs

/-! ### Proof -/

theorem call_lib {n fu : Nat} {f : String} {vs : List Val} : (moduleOf utilsDefs).call n fu f vs = libCall n fu f vs := rfl

theorem libCall_mono {n m fu : Nat} {f : String} {vs : List Val} {v : Val} (h : n ≤ m) (hv : libCall n fu f vs = some v) :
    libCall m fu f vs = some v := by
  obtain ⟨p, hp, hv⟩ := Option.bind_eq_some_iff.1 hv
  obtain ⟨q, hq, hpq⟩ := exports_mono (M := lib) builtin_mono n m fu f h p hp
  exact Option.bind_eq_some_iff.2 ⟨q, hq, hpq vs v hv⟩

/-- Enough steps exist. -/
def Computes (fu : Nat) (f : String) (vs : List Val) (v : Val) : Prop := ∃ n, libCall n fu f vs = some v

theorem Computes.of {n fu : Nat} {f : String} {vs : List Val} {v w : Val} (h : libCall n fu f vs = some w) (e : w = v) : Computes fu f vs v :=
  ⟨n, e ▸ h⟩

theorem refV_in {d v : Val} {l : List Val} {i : Nat} (h : l[i]? = some v) : refV d l i = v := by
  obtain ⟨h1, h2⟩ := List.getElem?_eq_some_iff.1 h
  simp [refV, h1, h2]

theorem refV_out {d : Val} {l : List Val} {i : Int} (h : i < 0 ∨ l.length ≤ i) : refV d l i = d := by
  simp [refV]; intro h1 h2; omega

theorem listTail_nat {α : Type} {l : List α} {i : Nat} : listTail l i = l.drop i := by
  simp only [listTail, Int.toNat_natCast]
  by_cases h : i ≤ l.length
  · rw [if_pos (by omega)]
  · rw [if_neg (by omega), List.drop_eq_nil_of_le (by omega)]

theorem listTail_neg {α : Type} {l : List α} {i : Int} (h : i < 0) : listTail l i = [] := by
  simp only [listTail]; rw [if_neg (by omega)]

theorem listTake_eq {α : Type} {l : List α} {i : Int} : listTake l i = l.take i.toNat := by
  unfold listTake
  by_cases h : i ≤ 0
  · rw [if_pos h, show i.toNat = 0 by omega]; rfl
  · rw [if_neg h]
    by_cases h2 : i < l.length
    · rw [if_pos (by omega)]
    · rw [if_neg (by omega), List.take_of_length_le (by omega)]

theorem slice_nat {α : Type} {l : List α} {i : Nat} {j : Int} : slice l i j = (l.take j.toNat).drop i := by
  rw [slice, listTail_nat, listTake_eq]

theorem slice_negative {α : Type} {l : List α} {i j : Int} (h : i < 0) : slice l i j = [] := listTail_neg h

theorem sliceWithLength_nat {α : Type} {l : List α} {i k : Nat} : sliceWithLength l (i : Int) (k : Int) = (l.drop i).take k := by
  rw [sliceWithLength, slice_nat, show ((i : Int) + k).toNat = i + k by omega, List.drop_take, Nat.add_sub_cancel_left]

theorem exp_eq : ∀ (n fu : Nat), n < fu → integerExp fu n = some (3 ^ n % 64)
  | _, 0, h => absurd h (Nat.not_lt_zero _)
  | 0, fu + 1, _ => by simp [integerExp]
  | n + 1, fu + 1, h => by
    have ih := exp_eq n fu (by omega)
    rw [integerExp, if_neg (by omega), show ((n + 1 : Nat) : Int) - 1 = n by omega, ih, Option.map_some, Int.tmod_eq_emod_of_nonneg]
    · congr 1
      rw [Int.pow_succ, Int.mul_comm (3 ^ n) 3, Int.mul_emod 3 (3 ^ n % 64), Int.emod_emod_of_dvd _ (Int.dvd_refl 64), ← Int.mul_emod]
    · apply Int.mul_nonneg (by omega)
      exact Int.emod_nonneg _ (by omega)

theorem set_unique {s t : List Int} (hs : IsSet s) (ht : IsSet t) (h : ∀ x, x ∈ s ↔ x ∈ t) : s = t := by
  have := (C29_sets s t hs ht 0).2.2.2.2.2.2.2.2.2.2.2.2
  simpa [setEq] using this.2 h

theorem mapGet_lookup (k : Int) : ∀ m : List (Int × Int), mapGet k m = (m.lookup k).getD 0
  | [] => rfl
  | p :: m => by
    rw [mapGet, List.lookup_cons, mapGet_lookup k m]
    by_cases h : p.1 = k
    · simp [h]
    · rw [if_neg h, show (k == p.1) = false by simpa using fun e => h e.symm]

theorem mapContains_lookup (k : Int) : ∀ m : List (Int × Int), mapContains k m = if (m.lookup k).isSome then 1 else 0
  | [] => rfl
  | p :: m => by
    rw [mapContains, List.lookup_cons, mapContains_lookup k m]
    by_cases h : p.1 = k
    · simp [h]
    · rw [if_neg h, show (k == p.1) = false by simpa using fun e => h e.symm]

theorem getIdx_append {k v : Int} {m' : List (Int × Int)} : ∀ {m : List (Int × Int)}, m.lookup k = none →
    getIdx k (m ++ (k, v) :: m') = m.length
  | [], _ => by simp [getIdx]
  | p :: m, h => by
    rw [List.lookup_cons] at h
    split at h
    · cases h
    · next hp =>
      rw [List.cons_append, getIdx, if_neg (fun e => by simp [e] at hp), getIdx_append h]
      simp [Nat.add_comm]

theorem lookup_append {k v : Int} {m' : List (Int × Int)} : ∀ {m : List (Int × Int)}, m.lookup k = none →
    (m ++ (k, v) :: m').lookup k = some v
  | [], _ => by simp
  | p :: m, h => by
    rw [List.lookup_cons] at h
    split at h
    · cases h
    · next hp => rw [List.cons_append, List.lookup_cons, hp]; exact lookup_append h

theorem libSpec_computes {f : String} {vs : List Val} {v : Val} {k : Nat} (h : LibSpec f vs v k) (fu : Nat) (hk : k ≤ fu) :
    Computes fu f vs v := by
  cases h with
  | ref_in hf h =>
    simp only [List.mem_cons, List.not_mem_nil, or_false] at hf
    rcases hf with rfl | rfl | rfl | rfl | rfl
    · exact .of (lib_list_ref (n := 0)) (refV_in h)
    · exact .of (lib_matrix_ref (n := 0)) (refV_in h)
    · exact .of (lib_tensor_ref (n := 0)) (refV_in h)
    · exact .of (lib_tuple_ref (n := 0)) (refV_in h)
    · exact .of (lib_tupleGet (n := 0)) (refV_in h)
  | elem_out hf h =>
    simp only [List.mem_cons, List.not_mem_nil, or_false] at hf
    rcases hf with rfl | rfl
    · exact .of (lib_list_ref (n := 0)) (refV_out h)
    · exact .of (lib_tupleGet (n := 0)) (refV_out h)
  | row_out hf h =>
    simp only [List.mem_cons, List.not_mem_nil, or_false] at hf
    rcases hf with rfl | rfl | rfl
    · exact .of (lib_matrix_ref (n := 0)) (refV_out h)
    · exact .of (lib_tensor_ref (n := 0)) (refV_out h)
    · exact .of (lib_tuple_ref (n := 0)) (refV_out h)
  | tail hf =>
    simp only [List.mem_cons, List.not_mem_nil, or_false] at hf
    rcases hf with rfl | rfl | rfl | rfl
    · exact .of (lib_list_tail (n := 0)) (by rw [listTail_nat])
    · exact .of (lib_matrix_tail (n := 0)) (by rw [listTail_nat])
    · exact .of (lib_tensor_tail (n := 0)) (by rw [listTail_nat])
    · exact .of (lib_tuple_tail (n := 0)) (by rw [listTail_nat])
  | tail_neg hf h =>
    simp only [List.mem_cons, List.not_mem_nil, or_false] at hf
    rcases hf with rfl | rfl | rfl | rfl
    · exact .of (lib_list_tail (n := 0)) (by rw [listTail_neg h])
    · exact .of (lib_matrix_tail (n := 0)) (by rw [listTail_neg h])
    · exact .of (lib_tensor_tail (n := 0)) (by rw [listTail_neg h])
    · exact .of (lib_tuple_tail (n := 0)) (by rw [listTail_neg h])
  | take hf =>
    simp only [List.mem_cons, List.not_mem_nil, or_false] at hf
    rcases hf with rfl | rfl | rfl | rfl
    · exact .of (lib_list_take (n := 0)) (by rw [listTake_eq])
    · exact .of (lib_matrix_take (n := 0)) (by rw [listTake_eq])
    · exact .of (lib_tensor_take (n := 0)) (by rw [listTake_eq])
    · exact .of (lib_tuple_take (n := 0)) (by rw [listTake_eq])
  | slice hf =>
    simp only [List.mem_cons, List.not_mem_nil, or_false] at hf
    rcases hf with rfl | rfl | rfl
    · exact .of (lib_list_slice (n := 0)) (by rw [slice_nat])
    · exact .of (lib_matrix_slice (n := 0)) (by rw [slice_nat])
    · exact .of (lib_tensor_slice (n := 0)) (by rw [slice_nat])
  | slice_neg hf h =>
    simp only [List.mem_cons, List.not_mem_nil, or_false] at hf
    rcases hf with rfl | rfl | rfl
    · exact .of (lib_list_slice (n := 0)) (by rw [slice_negative h])
    · exact .of (lib_matrix_slice (n := 0)) (by rw [slice_negative h])
    · exact .of (lib_tensor_slice (n := 0)) (by rw [slice_negative h])
  | slice_len hf =>
    simp only [List.mem_cons, List.not_mem_nil, or_false] at hf
    rcases hf with rfl | rfl | rfl
    · exact .of (lib_list_slice_len (n := 0)) (by rw [sliceWithLength_nat])
    · exact .of (lib_matrix_slice_len (n := 0)) (by rw [sliceWithLength_nat])
    · exact .of (lib_tensor_slice_len (n := 0)) (by rw [sliceWithLength_nat])
  | append hf =>
    simp only [List.mem_cons, List.not_mem_nil, or_false] at hf
    rcases hf with rfl | rfl | rfl | rfl
    · exact .of (lib_list_append (n := 0)) rfl
    · exact .of (lib_matrix_append (n := 0)) rfl
    · exact .of (lib_tensor_append (n := 0)) rfl
    · exact .of (lib_tuple_append (n := 0)) rfl
  | prepend hf =>
    simp only [List.mem_cons, List.not_mem_nil, or_false] at hf
    rcases hf with rfl | rfl
    · exact .of (lib_list_prepend (n := 0)) rfl
    · exact .of (lib_tuple_prepend (n := 0)) rfl
  | row_prepend hf h =>
    have h := List.length_pos_iff.2 h
    simp only [List.mem_cons, List.not_mem_nil, or_false] at hf
    rcases hf with rfl | rfl
    · exact .of (lib_matrix_prepend (n := 0)) (by simp [h])
    · exact .of (lib_tensor_prepend (n := 0)) (by simp [h])
  | row_prepend_empty hf =>
    simp only [List.mem_cons, List.not_mem_nil, or_false] at hf
    rcases hf with rfl | rfl
    · exact .of (lib_matrix_prepend (n := 0)) rfl
    · exact .of (lib_tensor_prepend (n := 0)) rfl
  | concat => exact .of (lib_list_concat (n := 0)) rfl
  | empty hf =>
    simp only [List.mem_cons, List.not_mem_nil, or_false] at hf
    rcases hf with rfl | rfl | rfl | rfl | rfl | rfl
    · exact .of (lib_list_empty (n := 0)) rfl
    · exact .of (lib_matrix_empty (n := 0)) rfl
    · exact .of (lib_tensor_empty (n := 0)) rfl
    · exact .of (lib_tuple_empty (n := 0)) rfl
    · exact .of (lib_set_create (n := 0)) rfl
    · exact .of (lib_map_create (n := 0)) rfl
  | length hf =>
    simp only [List.mem_cons, List.not_mem_nil, or_false] at hf
    rcases hf with rfl | rfl | rfl
    · exact .of (lib_matrix_length (n := 0)) rfl
    · exact .of (lib_tensor_length (n := 0)) rfl
    · exact .of (lib_tuple_length (n := 0)) rfl
  | make_tuple => exact .of (lib_make_tuple (n := 0)) rfl
  | @col_slice m i j =>
    refine .of (lib_col_slice m 0) ?_
    simp only [slice_nat, rowsV]
    congr 3
    funext r
    simp [List.length_pos_iff]
  | @col_slice_len m i k =>
    refine .of (lib_col_slice_len m 0) ?_
    have : ∀ r : List Val, Rkt.slice r i ((i : Int) + k) = (r.drop i).take k := fun r => sliceWithLength_nat
    simp only [this, rowsV]
    congr 3
    funext r
    simp [List.length_pos_iff]
  | @firsts m =>
    have := lib_firsts m 0 fu
    rw [if_pos (by omega)] at this
    exact .of this rfl
  | @transpose m c hm hc h =>
    have h1 := lib_transpose fu m 0
    rw [C43_transpose_rosette m c hm hc h fu (by omega), Option.map_some] at h1
    have e : matV m = m.map fun r => .list (r.map .int) := by simp [matV, rowsV, intsV]
    rw [e] at h1
    refine .of h1 ?_
    simp [matV, rowsV, intsV]
  | quotient h => exact .of (lib_quotient (n := 0)) (by simp [quotientNoerr, h])
  | quotient_zero => exact .of (lib_quotient (n := 0)) (by simp [quotientNoerr])
  | @exp n =>
    have := lib_exp fu 0 n
    rw [exp_eq n fu (by omega)] at this
    exact .of this rfl
  | @exp_neg x h =>
    have := lib_exp fu 0 x
    obtain ⟨fu, rfl⟩ : ∃ k, fu = k + 1 := ⟨fu - 1, by omega⟩
    rw [integerExp, if_pos (by omega)] at this
    exact .of this rfl
  | set_singleton => exact .of (lib_set_singleton (n := 0)) rfl
  | @set_insert s t v hs ht h =>
    refine .of (lib_set_insert (n := 0) (s := s)) ?_
    have c := C29_sets s t hs ht v
    rw [set_unique c.2.2.2.2.1 ht fun x => (c.2.2.2.2.2.1 x).trans (h x).symm]; rfl
  | @set_union r s t hr hs ht h =>
    refine .of (lib_set_union r s 0 fu) ?_
    have c := C29_sets r s hr hs 0
    rw [set_unique c.2.2.2.2.2.2.1 ht fun x => (c.2.2.2.2.2.2.2.1 x).trans (h x).symm]; rfl
  | @set_minus r s t hr hs ht h =>
    refine .of (lib_set_minus r s 0 fu) ?_
    have c := C29_sets r s hr hs 0
    rw [set_unique c.2.2.2.2.2.2.2.2.1 ht fun x => (c.2.2.2.2.2.2.2.2.2.1 x).trans (h x).symm]; rfl
  | @set_member s v hs =>
    refine .of (lib_set_member (n := 0) (s := s)) ?_
    have c := (C29_sets s s hs hs v).2.2.2.2.2.2.2.2.2.2.1
    rw [Val.bool.injEq, Bool.eq_iff_iff, c, decide_eq_true_iff]
  | @set_subset r s hr hs =>
    refine .of (lib_set_subset r s 0 fu) ?_
    have c := (C29_sets r s hr hs 0).2.2.2.2.2.2.2.2.2.2.2.1
    rw [Val.bool.injEq, Bool.eq_iff_iff, c, decide_eq_true_iff]
  | @set_eq r s b hr hs h =>
    refine .of (lib_set_eq (n := 0) (a := r) (b := s)) ?_
    have c := (C29_sets r s hr hs 0).2.2.2.2.2.2.2.2.2.2.2.2
    rw [Val.bool.injEq, Bool.eq_iff_iff, c, h]
  | @map_get m k => exact .of (lib_map_get m k 0 fu) (by rw [mapGet_lookup])
  | @map_contains m k => exact .of (lib_map_contains m k 0 fu) (by rw [mapContains_lookup])
  | @map_insert_new m k v h =>
    refine .of (lib_map_insert m k v 0 fu) ?_
    rw [mapInsert, mapContains_lookup, h]; rfl
  | @map_insert_old m m' k v v' h =>
    refine .of (lib_map_insert (m ++ (k, v') :: m') k v 0 fu) ?_
    rw [mapInsert, mapContains_lookup, lookup_append h, getIdx_append h]
    simp [pairsV]
  | @map_eq a b =>
    refine .of (lib_map_eq (n := 0) (a := a) (b := b)) ?_
    simp only [mapEq]
    by_cases h : a = b <;> simp [h]

/-! ### C53 -/

/-- C53: let `ds` be the definitions in the text of the library.  Evaluation of each of its functions on arguments of the right shape gives the
value of the specification as soon as there are enough steps and enough fuel, whatever the steps, and never another value. -/
theorem C53_library {ds : List RDef} (hds : (readModule utilsText).map (List.filterMap readDef) = some ds)
    {f : String} {vs : List Val} {v : Val} {k : Nat} (h : LibSpec f vs v k) (fu : Nat) (hk : k ≤ fu) :
    (∃ n0, ∀ n, n0 ≤ n → (moduleOf ds).call n fu f vs = some v) ∧ (∀ n w, (moduleOf ds).call n fu f vs = some w → w = v) := by
  rw [utils_read] at hds
  cases hds
  simp only [call_lib]
  obtain ⟨n0, h0⟩ := libSpec_computes h fu hk
  refine ⟨⟨n0, fun n hn => libCall_mono hn h0⟩, fun n w hw => ?_⟩
  have h1 := libCall_mono (Nat.le_max_left n0 n) h0
  have h2 := libCall_mono (Nat.le_max_right n0 n) hw
  rw [h1] at h2
  exact (Option.some.inj h2).symm

/-- The fuel bound is needed: the transpose of a matrix with 63 rows fails. -/
theorem C53_transpose_fuel_refuted {ds : List RDef} (hds : (readModule utilsText).map (List.filterMap readDef) = some ds)
    (m : List (List Int)) (h : 63 ≤ m.length) (n : Nat) :
    (moduleOf ds).call n 64 "matrix-transpose-noerr" [.list (m.map fun r => .list (r.map .int))] = none := by
  rw [utils_read] at hds
  cases hds
  simp only [call_lib]
  have h1 := lib_transpose 64 m n
  rw [show transpose 64 m = none from C43_fuel_refuted m h] at h1
  have e : (m.map fun r => Val.list (r.map .int)) = matV m := by simp [matV, rowsV, intsV]
  rw [e]
  cases hc : libCall n 64 "matrix-transpose-noerr" [.list (matV m)] with
  | none => rfl
  | some v =>
    rw [libCall_mono (by omega) hc] at h1
    cases h1

/-- `map-insert` takes three arguments; `map-normalize` (lines 107-112) gives it four, so that it fails on every map that is not empty. -/
theorem C53_map_insert_arity_refuted {ds : List RDef} (hds : (readModule utilsText).map (List.filterMap readDef) = some ds)
    (m k v g : Val) (n fu : Nat) : (moduleOf ds).call n fu "map-insert" [m, k, v, g] = none := by
  rw [utils_read] at hds
  cases hds
  simp only [call_lib]
  rw [libCall_def (d := d_map_insert) (by rfl)]
  simp [applyDef, d_map_insert, bindArgs]

/-! ### Examples -/

/-- The library does have a text that can be read, and there are functions in it. -/
theorem C53_nonvacuous : (∃ ds, (readModule utilsText).map (List.filterMap readDef) = some ds ∧ 50 < ds.length) ∧
    LibSpec "set-union" [.list [.int 1, .int 5], .list [.int 2, .int 5]] (.list [.int 1, .int 2, .int 5]) 0 ∧
    LibSpec "matrix-transpose-noerr" [.list [.list [.int 1, .int 2, .int 3], .list [.int 4, .int 5, .int 6]]]
      (.list [.list [.int 1, .int 4], .list [.int 2, .int 5], .list [.int 3, .int 6]]) 6 ∧
    LibSpec "matrix-col-slice-noerr" [.list [.list [.int 1, .int 2], .list [.int 3]], .int 1, .int 2] (.list [.list [.int 2]]) 0 := by
  refine ⟨⟨_, utils_read, by decide⟩, ?_, ?_, ?_⟩
  · exact LibSpec.set_union (r := [1, 5]) (s := [2, 5]) (t := [1, 2, 5]) (by unfold IsSet; decide) (by unfold IsSet; decide)
      (by unfold IsSet; decide) (fun x => by simp; omega)
  · exact LibSpec.transpose (m := [[1, 2, 3], [4, 5, 6]]) (c := 3) (by decide) (by decide) (by decide)
  · exact LibSpec.col_slice (m := [[.int 1, .int 2], [.int 3]]) (i := 1) (j := 2)

end Rkt
end Metalift
