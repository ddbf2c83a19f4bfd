import Verif.RktFile
import Verif.RktLists
/-
What the functions of `metalift/utils/utils.rkt` compute: evaluation of their definitions.
-/
namespace Metalift
namespace Rkt

/-! ### Steps of the evaluation -/

/-- Atoms that are names, not numbers. -/
def isName (s : String) : Bool := !isNumeric s.toList && !(s.toList.head? == some '-' && isNumeric s.toList.tail)

/-- Value of a name. -/
def evalName (M : Module) (σ : REnv) (s : String) : Option Val :=
  match σ s with
  | some v => some v
  | none =>
    match M.globals s with
    | some v => some v
    | none => if s = "true" ∨ s = "#t" then some (.bool true) else if s = "false" ∨ s = "#f" then some (.bool false) else none

theorem evalAtom_name {M : Module} {σ : REnv} {s : String} (h : isName s = true) : evalAtom M σ s = evalName M σ s := by
  simp only [isName, Bool.and_eq_true, Bool.not_eq_true', Bool.and_eq_false_iff, beq_eq_false_iff_ne] at h
  unfold evalAtom
  rw [if_neg (by simp [h.1]), if_neg]
  · rfl
  rintro ⟨h1, h2⟩
  rcases h.2 with h3 | h3
  · exact h3 h1
  · rw [h2] at h3; cases h3

theorem evalName_local {M : Module} {σ : REnv} {s : String} {v : Val} (h : σ s = some v) : evalName M σ s = some v := by simp [evalName, h]

theorem evalAtom_num {M : Module} {σ : REnv} {s : String} (h : isNumeric s.toList = true) : evalAtom M σ s = some (.int (numeral s.toList)) := by
  simp [evalAtom, h]

theorem atom0 {M : Module} {σ : REnv} : evalAtom M σ "0" = some (.int 0) := evalAtom_num (by decide)
theorem atom1 {M : Module} {σ : REnv} : evalAtom M σ "1" = some (.int 1) := evalAtom_num (by decide)
theorem atom3 {M : Module} {σ : REnv} : evalAtom M σ "3" = some (.int 3) := evalAtom_num (by decide)
theorem atom64 {M : Module} {σ : REnv} : evalAtom M σ "64" = some (.int 64) := evalAtom_num (by decide)

theorem rk_atom (M : Module) (n fu : Nat) (σ : REnv) (s : String) : rkEval M n fu σ (.atom s) = evalAtom M σ s := by
  cases n <;> rfl

/-- Forms that are not applications of procedures. -/
def specialForms : List String := ["if", "or", "match*", "ormap", "sort"]

theorem rk_app {M : Module} {n fu : Nat} {σ : REnv} {h : String} {as : List SExpr} (h1 : σ h = none) (h2 : M.find h = none)
    (h3 : M.globals h = none) (h4 : h ∉ specialForms) :
    rkEval M (n + 1) fu σ (.list (.atom h :: as)) = (as.mapM (rkEval M n fu σ)).bind fun vs => (M.imports n fu h).bind fun p => p vs := by
  simp only [specialForms, List.mem_cons, List.not_mem_nil, or_false, not_or] at h4
  simp [rkEval, h1, h2, h3, h4]

theorem rk_call {M : Module} {n fu : Nat} {σ : REnv} {h : String} {as : List SExpr} {d : RDef} (h1 : σ h = none) (h2 : M.find h = some d) :
    rkEval M (n + 1) fu σ (.list (.atom h :: as)) = (as.mapM (rkEval M n fu σ)).bind (applyDef (rkEval M n) fu d) := by
  simp [rkEval, h1, h2]

theorem rk_if {M : Module} {n fu : Nat} {σ : REnv} {c a b : SExpr} (h1 : σ "if" = none) (h2 : M.find "if" = none)
    (h3 : M.globals "if" = none) :
    rkEval M (n + 1) fu σ (.list [.atom "if", c, a, b]) =
      (rkEval M n fu σ c).bind fun v => if v = .bool false then rkEval M n fu σ b else rkEval M n fu σ a := by
  simp [rkEval, h1, h2, h3]

theorem rk_match {M : Module} {n fu : Nat} {σ : REnv} {es cs : List SExpr} (h1 : σ "match*" = none) (h2 : M.find "match*" = none)
    (h3 : M.globals "match*" = none) :
    rkEval M (n + 1) fu σ (.list (.atom "match*" :: .list es :: cs)) = (es.mapM (rkEval M n fu σ)).bind fun vs =>
      (matchClauses cs vs).bind fun r => rkEval M n fu (bindAll σ r.1) r.2 := by
  simp [rkEval, h1, h2, h3]

/-! ### The library -/

/-- Application of a function that a module requiring the library sees. -/
def libCall (n fu : Nat) (f : String) (vs : List Val) : Option Val := (lib.exports n fu f).bind fun p => p vs

/-- Application of a function of the library, seen from inside. -/
theorem libCall_def {n fu : Nat} {f : String} {vs : List Val} {d : RDef} (h : lib.find f = some d) :
    libCall n fu f vs = applyDef (rkEval lib n) fu d vs := by
  simp [libCall, Module.exports, h]

theorem lib_imports (n fu : Nat) (f : String) : lib.imports n fu f = builtin f := rfl
theorem lib_globals (f : String) : lib.globals f = none := rfl

theorem lib_builtin {M : Module} (hM : M.globals = fun _ => none) (hi : ∀ n fu f, M.imports n fu f = builtin f) {n fu : Nat} {σ : REnv} {h : String} {as : List SExpr} (h1 : σ h = none) (h2 : M.find h = none)
    (h4 : h ∉ specialForms) :
    rkEval M (n + 1) fu σ (.list (.atom h :: as)) = (as.mapM (rkEval M n fu σ)).bind fun vs => (builtin h).bind fun p => p vs := by
  rw [rk_app h1 h2 (by rw [hM]) h4]
  simp [hi]

theorem lib_app {n fu : Nat} {σ : REnv} {h : String} {as : List SExpr} (h1 : σ h = none) (h2 : lib.find h = none) (h4 : h ∉ specialForms) :
    rkEval lib (n + 1) fu σ (.list (.atom h :: as)) = (as.mapM (rkEval lib n fu σ)).bind fun vs => (builtin h).bind fun p => p vs :=
  rk_app h1 h2 rfl h4

/-- A call inside the library. -/
theorem lib_call {n fu : Nat} {σ : REnv} {h : String} {as : List SExpr} (h1 : σ h = none) (h2 : (lib.find h).isSome = true) :
    rkEval lib (n + 1) fu σ (.list (.atom h :: as)) = (as.mapM (rkEval lib n fu σ)).bind (libCall n fu h) := by
  obtain ⟨d, hd⟩ := Option.isSome_iff_exists.1 h2
  rw [rk_call h1 hd]
  congr 1
  funext vs
  exact (libCall_def hd).symm

theorem lib_if {n fu : Nat} {σ : REnv} {c a b : SExpr} (h1 : σ "if" = none) :
    rkEval lib (n + 1) fu σ (.list [.atom "if", c, a, b]) =
      (rkEval lib n fu σ c).bind fun v => if v = .bool false then rkEval lib n fu σ b else rkEval lib n fu σ a :=
  rk_if h1 (by decide) rfl

theorem lib_match {n fu : Nat} {σ : REnv} {es cs : List SExpr} (h1 : σ "match*" = none) :
    rkEval lib (n + 1) fu σ (.list (.atom "match*" :: .list es :: cs)) = (es.mapM (rkEval lib n fu σ)).bind fun vs =>
      (matchClauses cs vs).bind fun r => rkEval lib n fu (bindAll σ r.1) r.2 :=
  rk_match h1 (by decide) rfl

theorem lib_ormap {n fu : Nat} {σ : REnv} {x y : String} {body : SExpr} {vs : List Val} (h1 : σ "ormap" = none)
    (h2 : rkEval lib n fu σ (.atom y) = some (.list vs)) :
    rkEval lib (n + 1) fu σ (.list [.atom "ormap", .list [.atom "lambda", .list [.atom x], body], .atom y]) =
      evalAny (fun w => rkEval lib n fu (bindAll σ [(x, w)]) body) vs := by
  have h3 : lib.find "ormap" = none := by decide
  simp [rkEval, h1, h3, lib_globals]
  rw [rk_atom] at h2
  simp [h2]

theorem if_bool {b : Bool} {x y : Option Val} : (if Val.bool b = Val.bool false then x else y) = if b = true then y else x := by
  cases b <;> simp

/-! Builtin procedures on the values they are meant for. -/

theorem b_add {a b : Int} : ((builtin "+").bind fun p => p [.int a, .int b]) = some (.int (a + b)) := by
  show some (Val.int (0 + a + b)) = _
  simp
theorem b_mul {a b : Int} : ((builtin "*").bind fun p => p [.int a, .int b]) = some (.int (a * b)) := by
  show some (Val.int (1 * a * b)) = _
  simp
theorem b_sub {a b : Int} : ((builtin "-").bind fun p => p [.int a, .int b]) = some (.int (a - b)) := rfl
theorem b_quot {a b : Int} : ((builtin "quotient").bind fun p => p [.int a, .int b]) = if b = 0 then none else some (.int (a.tdiv b)) := rfl
theorem b_rem {a b : Int} : ((builtin "remainder").bind fun p => p [.int a, .int b]) = if b = 0 then none else some (.int (a.tmod b)) := rfl
theorem b_lt {a b : Int} : ((builtin "<").bind fun p => p [.int a, .int b]) = some (.bool (decide (a < b))) := rfl
theorem b_le {a b : Int} : ((builtin "<=").bind fun p => p [.int a, .int b]) = some (.bool (decide (a ≤ b))) := rfl
theorem b_gt {a b : Int} : ((builtin ">").bind fun p => p [.int a, .int b]) = some (.bool (decide (a > b))) := rfl
theorem b_ge {a b : Int} : ((builtin ">=").bind fun p => p [.int a, .int b]) = some (.bool (decide (a ≥ b))) := rfl
theorem b_equal {a b : Val} : ((builtin "equal?").bind fun p => p [a, b]) = some (.bool (decide (a = b))) := rfl
theorem b_and {a b : Bool} : ((builtin "&&").bind fun p => p [.bool a, .bool b]) = some (.bool (a && b)) := by
  show some (Val.bool (a && (b && true))) = _
  simp
theorem b_length {l : List Val} : ((builtin "length").bind fun p => p [.list l]) = some (.int l.length) := rfl
theorem b_ref {l : List Val} {i : Int} : ((builtin "list-ref").bind fun p => p [.list l, .int i]) = (index l.length i).bind fun k => l[k]? := rfl
theorem b_tail {l : List Val} {i : Int} : ((builtin "list-tail").bind fun p => p [.list l, .int i]) = (index l.length i).map fun k => .list (l.drop k) := rfl
theorem b_take {l : List Val} {i : Int} : ((builtin "take").bind fun p => p [.list l, .int i]) = (index l.length i).map fun k => .list (l.take k) := rfl
theorem b_append {a b : List Val} : ((builtin "append").bind fun p => p [.list a, .list b]) = some (.list (a ++ b)) := by
  show some (Val.list (a ++ (b ++ []))) = _
  simp
theorem b_list0 : ((builtin "list").bind fun p => p []) = some (.list []) := rfl
theorem b_list1 {v : Val} : ((builtin "list").bind fun p => p [v]) = some (.list [v]) := rfl
theorem b_cons {v : Val} {l : List Val} : ((builtin "cons").bind fun p => p [v, .list l]) = some (.list (v :: l)) := rfl
theorem b_listQ {l : List Val} : ((builtin "list?").bind fun p => p [.list l]) = some (.bool true) := rfl

theorem b_listSet {l : List Val} {i : Int} {v : Val} : ((builtin "list-set").bind fun p => p [.list l, .int i, v]) =
    (index l.length i).bind fun k => if k < l.length then some (.list (l.set k v)) else none := rfl

/-- Evaluation of the body of a function of the library. -/
macro "rkt_eval" d:ident : tactic => `(tactic| (
  rw [libCall_def (d := $d) (by rfl)]
  simp (decide := true) only [applyDef, $d:ident, bindArgs, Option.map_some, Option.bind_some, Bool.false_eq_true, if_false, if_true,
    lib_if, lib_app, lib_call, bindAll, List.mapM_cons, List.mapM_nil, rk_atom, atom0, atom1, atom3, atom64, evalAtom_name, evalName,
    Option.pure_def, Option.bind_eq_bind, if_bool, b_add, b_mul, b_sub, b_quot, b_rem, b_lt, b_le, b_gt, b_ge, b_equal, b_and, b_length, b_ref, b_tail,
    b_take, b_append, b_list0, b_list1, b_cons, b_listQ, b_listSet, lib_match, matchClauses, matchPats, matchPat, List.nil_append, List.cons_append, Option.bind_none, lib_globals, or_true, true_or, or_false, false_or]))

/-! ### Lists -/

/-- Element of a list, or the given value outside the list. -/
def refV (d : Val) (l : List Val) (i : Int) : Val := if 0 ≤ i ∧ i < l.length then l.getD i.toNat d else d

theorem index_in {n : Nat} {i : Int} (h : 0 ≤ i ∧ i ≤ n) : index n i = some i.toNat := if_pos h

theorem refV_eq {d : Val} {l : List Val} {i : Int} :
    (if (decide (i ≥ 0) && decide (i < (l.length : Int))) = true then (index l.length i).bind fun k => l[k]? else some d) = some (refV d l i) := by
  unfold refV
  by_cases h : 0 ≤ i ∧ i < l.length
  · simp [h, index_in (n := l.length) (i := i) (by omega)]
  · rw [if_neg h, if_neg]
    simpa using h

theorem tail_eq {l : List Val} {i : Int} :
    (if (decide (i ≥ 0) && decide (i ≤ (l.length : Int))) = true then (index l.length i).map fun k => Val.list (l.drop k) else some (.list [])) =
      some (.list (listTail l i)) := by
  unfold listTail
  by_cases h : 0 ≤ i ∧ i ≤ l.length
  · simp [h, index_in (n := l.length) (i := i) (by omega)]
  · rw [if_neg h, if_neg]
    simpa using h

theorem take_eq {l : List Val} {i : Int} :
    (if decide (i ≤ 0) = true then some (Val.list []) else
      if (decide (i ≥ 0) && decide (i < (l.length : Int))) = true then (index l.length i).map fun k => Val.list (l.take k) else some (.list l)) =
      some (.list (listTake l i)) := by
  unfold listTake
  by_cases h0 : i ≤ 0
  · simp [h0]
  · by_cases h : 0 ≤ i ∧ i < l.length
    · simp [h0, h, index_in (n := l.length) (i := i) (by omega)]
    · rw [if_neg h, if_neg (by simpa using h0), if_neg h0, if_neg]
      simpa using h

theorem lib_list_ref {n fu : Nat} {l : List Val} {i : Int} : libCall (n + 6) fu "list-ref-noerr" [.list l, .int i] =
    some (refV (.int 0) l i) := by
  rkt_eval d_list_ref_noerr
  exact refV_eq

theorem lib_list_tail {n fu : Nat} {l : List Val} {i : Int} : libCall (n + 6) fu "list-tail-noerr" [.list l, .int i] =
    some (.list (listTail l i)) := by
  rkt_eval d_list_tail_noerr
  exact tail_eq

theorem lib_list_take {n fu : Nat} {l : List Val} {i : Int} : libCall (n + 6) fu "list-take-noerr" [.list l, .int i] =
    some (.list (listTake l i)) := by
  rkt_eval d_list_take_noerr
  exact take_eq

theorem lib_list_append {n fu : Nat} {l : List Val} {v : Val} : libCall (n + 6) fu "list-append" [.list l, v] =
    some (.list (l ++ [v])) := by
  rkt_eval d_list_append

theorem lib_list_empty {n fu : Nat}  : libCall (n + 6) fu "list-empty" [] =
    some (.list []) := by
  rkt_eval d_list_empty

theorem lib_matrix_ref {n fu : Nat} {l : List Val} {i : Int} : libCall (n + 6) fu "matrix-ref-noerr" [.list l, .int i] =
    some (refV (.list []) l i) := by
  rkt_eval d_matrix_ref_noerr
  exact refV_eq

theorem lib_matrix_tail {n fu : Nat} {l : List Val} {i : Int} : libCall (n + 6) fu "matrix-tail-noerr" [.list l, .int i] =
    some (.list (listTail l i)) := by
  rkt_eval d_matrix_tail_noerr
  exact tail_eq

theorem lib_matrix_take {n fu : Nat} {l : List Val} {i : Int} : libCall (n + 6) fu "matrix-take-noerr" [.list l, .int i] =
    some (.list (listTake l i)) := by
  rkt_eval d_matrix_take_noerr
  exact take_eq

theorem lib_matrix_append {n fu : Nat} {l : List Val} {v : Val} : libCall (n + 6) fu "matrix-append" [.list l, v] =
    some (.list (l ++ [v])) := by
  rkt_eval d_matrix_append

theorem lib_matrix_empty {n fu : Nat}  : libCall (n + 6) fu "matrix-empty" [] =
    some (.list []) := by
  rkt_eval d_matrix_empty

theorem lib_matrix_length {n fu : Nat} {l : List Val} : libCall (n + 6) fu "matrix-length" [.list l] =
    some (.int l.length) := by
  rkt_eval d_matrix_length

theorem lib_tuple_ref {n fu : Nat} {l : List Val} {i : Int} : libCall (n + 6) fu "list-tuple-ref-noerr" [.list l, .int i] =
    some (refV (.list []) l i) := by
  rkt_eval d_list_tuple_ref_noerr
  exact refV_eq

theorem lib_tuple_tail {n fu : Nat} {l : List Val} {i : Int} : libCall (n + 6) fu "list-tuple-tail-noerr" [.list l, .int i] =
    some (.list (listTail l i)) := by
  rkt_eval d_list_tuple_tail_noerr
  exact tail_eq

theorem lib_tuple_take {n fu : Nat} {l : List Val} {i : Int} : libCall (n + 6) fu "list-tuple-take-noerr" [.list l, .int i] =
    some (.list (listTake l i)) := by
  rkt_eval d_list_tuple_take_noerr
  exact take_eq

theorem lib_tuple_append {n fu : Nat} {l : List Val} {v : Val} : libCall (n + 6) fu "list-tuple-append" [.list l, v] =
    some (.list (l ++ [v])) := by
  rkt_eval d_list_tuple_append

theorem lib_tuple_empty {n fu : Nat}  : libCall (n + 6) fu "list-tuple-empty" [] =
    some (.list []) := by
  rkt_eval d_list_tuple_empty

theorem lib_tuple_length {n fu : Nat} {l : List Val} : libCall (n + 6) fu "list-tuple-length" [.list l] =
    some (.int l.length) := by
  rkt_eval d_list_tuple_length

theorem lib_tensor_ref {n fu : Nat} {l : List Val} {i : Int} : libCall (n + 6) fu "tensor3d-ref-noerr" [.list l, .int i] =
    some (refV (.list []) l i) := by
  rkt_eval d_tensor3d_ref_noerr
  exact refV_eq

theorem lib_tensor_tail {n fu : Nat} {l : List Val} {i : Int} : libCall (n + 6) fu "tensor3d-tail-noerr" [.list l, .int i] =
    some (.list (listTail l i)) := by
  rkt_eval d_tensor3d_tail_noerr
  exact tail_eq

theorem lib_tensor_take {n fu : Nat} {l : List Val} {i : Int} : libCall (n + 6) fu "tensor3d-take-noerr" [.list l, .int i] =
    some (.list (listTake l i)) := by
  rkt_eval d_tensor3d_take_noerr
  exact take_eq

theorem lib_tensor_append {n fu : Nat} {l : List Val} {v : Val} : libCall (n + 6) fu "tensor3d-append" [.list l, v] =
    some (.list (l ++ [v])) := by
  rkt_eval d_tensor3d_append

theorem lib_tensor_empty {n fu : Nat}  : libCall (n + 6) fu "tensor3d-empty" [] =
    some (.list []) := by
  rkt_eval d_tensor3d_empty

theorem lib_tensor_length {n fu : Nat} {l : List Val} : libCall (n + 6) fu "tensor3d-length" [.list l] =
    some (.int l.length) := by
  rkt_eval d_tensor3d_length

theorem lib_list_prepend {n fu : Nat} {l : List Val} {v : Val} : libCall (n + 6) fu "list-prepend" [v, .list l] =
    some (.list (v :: l)) := by
  rkt_eval d_list_prepend

theorem lib_tuple_prepend {n fu : Nat} {l : List Val} {v : Val} : libCall (n + 6) fu "list-tuple-prepend" [v, .list l] =
    some (.list (v :: l)) := by
  rkt_eval d_list_tuple_prepend

theorem lib_list_concat {n fu : Nat} {a b : List Val} : libCall (n + 6) fu "list-concat" [.list a, .list b] =
    some (.list (a ++ b)) := by
  rkt_eval d_list_concat

theorem lib_matrix_prepend {n fu : Nat} {r l : List Val} : libCall (n + 6) fu "matrix-prepend" [.list r, .list l] =
    some (.list (if r.length > 0 then .list r :: l else l)) := by
  rkt_eval d_matrix_prepend
  cases r <;> simp

theorem lib_tensor_prepend {n fu : Nat} {r l : List Val} : libCall (n + 6) fu "tensor3d-prepend" [.list r, .list l] =
    some (.list (if r.length > 0 then .list r :: l else l)) := by
  rkt_eval d_tensor3d_prepend
  cases r <;> simp

theorem lib_list_slice {n fu : Nat} {l : List Val} {i j : Int} : libCall (n + 8) fu "vec-slice-noerr" [.list l, .int i, .int j] =
    some (.list (slice l i j)) := by
  rkt_eval d_vec_slice_noerr
  simp only [lib_list_take, lib_list_tail, Option.bind_some, slice]

theorem lib_list_slice_len {n fu : Nat} {l : List Val} {i j : Int} : libCall (n + 10) fu "vec-slice-with-length-noerr" [.list l, .int i, .int j] =
    some (.list (sliceWithLength l i j)) := by
  rkt_eval d_vec_slice_with_length_noerr
  simp only [lib_list_slice, sliceWithLength]

theorem lib_matrix_slice {n fu : Nat} {l : List Val} {i j : Int} : libCall (n + 8) fu "matrix-row-slice-noerr" [.list l, .int i, .int j] =
    some (.list (slice l i j)) := by
  rkt_eval d_matrix_row_slice_noerr
  simp only [lib_matrix_take, lib_matrix_tail, Option.bind_some, slice]

theorem lib_matrix_slice_len {n fu : Nat} {l : List Val} {i j : Int} : libCall (n + 10) fu "matrix-row-slice-with-length-noerr" [.list l, .int i, .int j] =
    some (.list (sliceWithLength l i j)) := by
  rkt_eval d_matrix_row_slice_with_length_noerr
  simp only [lib_matrix_slice, sliceWithLength]

theorem lib_tensor_slice {n fu : Nat} {l : List Val} {i j : Int} : libCall (n + 8) fu "tensor3d-slice-noerr" [.list l, .int i, .int j] =
    some (.list (slice l i j)) := by
  rkt_eval d_tensor3d_slice_noerr
  simp only [lib_tensor_take, lib_tensor_tail, Option.bind_some, slice]

theorem lib_tensor_slice_len {n fu : Nat} {l : List Val} {i j : Int} : libCall (n + 10) fu "tensor3d-slice-with-length-noerr" [.list l, .int i, .int j] =
    some (.list (sliceWithLength l i j)) := by
  rkt_eval d_tensor3d_slice_with_length_noerr
  simp only [lib_tensor_slice, sliceWithLength]

theorem lib_quotient {n fu : Nat} {i j : Int} : libCall (n + 6) fu "quotient-noerr" [.int i, .int j] =
    some (.int (quotientNoerr i j)) := by
  rkt_eval d_quotient_noerr
  unfold quotientNoerr
  by_cases h : j = 0
  · simp [h, b_quot]
  · simp [h, b_quot]

end Rkt
end Metalift
