import Verif.ListObj
import Verif.RktLists
/-
C37: indexing, slicing and building of IR lists follow Python.
-/
namespace Metalift

/-! ### Specification

What the primitives mean, where both backends agree on it (see C28): indices in range, and, for matrices and tensors, no empty row
prepended. -/

/-- The meaning of one family of list primitives; `ok` restricts the elements that may be prepended. -/
structure SeqPrims (I : Interp) (ok : Val → Prop) (get tail take slice sliceLen len app pre emp : String) : Prop where
  get : ∀ (vs : List Val) (n : Int) (v : Val), 0 ≤ n → vs[n.toNat]? = some v → I.fn get [.list vs, .int n] = v
  tail : ∀ (vs : List Val) (n : Int), 0 ≤ n → n ≤ vs.length → I.fn tail [.list vs, .int n] = .list (vs.drop n.toNat)
  take : ∀ (vs : List Val) (n : Int), 0 ≤ n → n ≤ vs.length → I.fn take [.list vs, .int n] = .list (vs.take n.toNat)
  slice : ∀ (vs : List Val) (a b : Int), 0 ≤ a → a ≤ b → b ≤ vs.length → I.fn slice [.list vs, .int a, .int b] = .list ((vs.take b.toNat).drop a.toNat)
  sliceLen : ∀ (vs : List Val) (a n : Int), 0 ≤ a → 0 ≤ n → a + n ≤ vs.length →
    I.fn sliceLen [.list vs, .int a, .int n] = .list ((vs.drop a.toNat).take n.toNat)
  len : ∀ vs, I.fn len [.list vs] = .int vs.length
  app : ∀ vs v, I.fn app [.list vs, v] = .list (vs ++ [v])
  pre : ∀ v vs, ok v → I.fn pre [v, .list vs] = .list (v :: vs)
  emp : I.fn emp [] = .list []

/-- The list primitives have their usual meaning. -/
structure ListPrims (I : Interp) : Prop where
  list : SeqPrims I (fun _ => True) "list_get" "list_tail" "list_take" "vec_slice" "vec_slice_with_length" "list_length"
    "list_append" "list_prepend" "list_empty"
  matrix : SeqPrims I (fun v => v.asList ≠ []) "matrix_get" "matrix_tail" "matrix_take" "matrix_row_slice"
    "matrix_row_slice_with_length" "matrix_length" "matrix_append" "matrix_prepend" "matrix_empty"
  tensor : SeqPrims I (fun v => v.asList ≠ []) "tensor3d_get" "tensor3d_tail" "tensor3d_take" "tensor3d_slice"
    "tensor3d_slice_with_length" "tensor3d_length" "tensor3d_append" "tensor3d_prepend" "tensor3d_empty"
  concat : ∀ us vs, I.fn "list_concat" [.list us, .list vs] = .list (us ++ vs)
  eq : ∀ u v, I.fn "list_eq" [u, v] = .bool (decide (u = v))

/-! ### Evaluation of the object methods -/

theorem eval_call (I : Interp) (ρ : Env) (f : String) (t : OTy) (os : List Obj) :
    eval I ρ (call f t os).src = I.fn f (os.map (fun o => eval I ρ o.src)) := by
  simp [call, mkCall, eval, evals_eq_map, evalOp, Function.comp_def]

theorem eval_len {I : Interp} (h : ListPrims I) {ρ : Env} {l : Obj} {vs : List Val} (hl : eval I ρ l.src = .list vs) :
    eval I ρ l.len.src = .int vs.length := by
  simp only [Obj.len, mkCall, eval, evals_eq_map, evalOp, List.map_cons, List.map_nil, hl]
  split
  · exact h.matrix.len vs
  · exact h.tensor.len vs
  · exact h.list.len vs

theorem eval_at {I : Interp} (h : ListPrims I) {ρ : Env} {l i : Obj} {t : OTy} {vs : List Val} {n : Int} {v : Val}
    (ht : l.ty.contained? = some t) (hl : eval I ρ l.src = .list vs) (hi : eval I ρ i.src = .int n) (h0 : 0 ≤ n)
    (hv : vs[n.toNat]? = some v) : ∃ o, l.getitem (.at i) = some o ∧ o.ty = t ∧ eval I ρ o.src = v := by
  refine ⟨call (l.ty.pick "matrix_get" "tensor3d_get" "list_get") t [l, i], by simp [Obj.getitem, ht], rfl, ?_⟩
  rw [eval_call]
  simp only [List.map_cons, List.map_nil, hl, hi, OTy.pick]
  split
  · exact h.matrix.get vs n v h0 hv
  · split
    · exact h.tensor.get vs n v h0 hv
    · exact h.list.get vs n v h0 hv

theorem eval_tail {I : Interp} (h : ListPrims I) {ρ : Env} {l i : Obj} {vs : List Val} {n : Int}
    (hl : eval I ρ l.src = .list vs) (hi : eval I ρ i.src = .int n) (h0 : 0 ≤ n) (h1 : n ≤ vs.length) :
    ∃ o, l.getitem (.slice (some i) none false) = some o ∧ o.ty = l.ty ∧ eval I ρ o.src = .list (vs.drop n.toNat) := by
  refine ⟨_, rfl, rfl, ?_⟩
  rw [eval_call]
  simp only [List.map_cons, List.map_nil, hl, hi, OTy.pick]
  split
  · exact h.matrix.tail vs n h0 h1
  · split
    · exact h.tensor.tail vs n h0 h1
    · exact h.list.tail vs n h0 h1

theorem eval_take {I : Interp} (h : ListPrims I) {ρ : Env} {l i : Obj} {vs : List Val} {n : Int}
    (hl : eval I ρ l.src = .list vs) (hi : eval I ρ i.src = .int n) (h0 : 0 ≤ n) (h1 : n ≤ vs.length) :
    ∃ o, l.getitem (.slice none (some i) false) = some o ∧ o.ty = l.ty ∧ eval I ρ o.src = .list (vs.take n.toNat) := by
  refine ⟨_, rfl, rfl, ?_⟩
  rw [eval_call]
  simp only [List.map_cons, List.map_nil, hl, hi, OTy.pick]
  split
  · exact h.matrix.take vs n h0 h1
  · split
    · exact h.tensor.take vs n h0 h1
    · exact h.list.take vs n h0 h1

theorem eval_slice {I : Interp} (h : ListPrims I) {ρ : Env} {l i j : Obj} {vs : List Val} {m n : Int}
    (hl : eval I ρ l.src = .list vs) (hi : eval I ρ i.src = .int m) (hj : eval I ρ j.src = .int n) (h0 : 0 ≤ m) (h1 : m ≤ n)
    (h2 : n ≤ vs.length) :
    ∃ o, l.getitem (.slice (some i) (some j) false) = some o ∧ o.ty = l.ty ∧
      eval I ρ o.src = .list ((vs.take n.toNat).drop m.toNat) := by
  refine ⟨_, rfl, rfl, ?_⟩
  rw [eval_call]
  simp only [List.map_cons, List.map_nil, hl, hi, hj, OTy.pick]
  split
  · exact h.matrix.slice vs m n h0 h1 h2
  · split
    · exact h.tensor.slice vs m n h0 h1 h2
    · exact h.list.slice vs m n h0 h1 h2

theorem eval_sliceLen {I : Interp} (h : ListPrims I) {ρ : Env} {l i j : Obj} {vs : List Val} {m n : Int}
    (hl : eval I ρ l.src = .list vs) (hi : eval I ρ i.src = .int m) (hj : eval I ρ j.src = .int n) (h0 : 0 ≤ m) (h1 : 0 ≤ n)
    (h2 : m + n ≤ vs.length) : eval I ρ (l.sliceWithLength i j).src = .list ((vs.drop m.toNat).take n.toNat) := by
  rw [Obj.sliceWithLength, eval_call]
  simp only [List.map_cons, List.map_nil, hl, hi, hj, OTy.pick]
  split
  · exact h.matrix.sliceLen vs m n h0 h1 h2
  · split
    · exact h.tensor.sliceLen vs m n h0 h1 h2
    · exact h.list.sliceLen vs m n h0 h1 h2

theorem eval_append {I : Interp} (h : ListPrims I) {ρ : Env} {l e : Obj} {vs : List Val} {v : Val}
    (ht : l.ty.contained? = some e.ty) (hl : eval I ρ l.src = .list vs) (hv : eval I ρ e.src = v) :
    ∃ o, l.append e = some o ∧ o.ty = l.ty ∧ eval I ρ o.src = .list (vs ++ [v]) := by
  refine ⟨_, if_pos ht.symm, rfl, ?_⟩
  rw [eval_call]
  simp only [List.map_cons, List.map_nil, hl, hv]
  split
  · exact h.matrix.app vs v
  · exact h.tensor.app vs v
  · exact h.list.app vs v

/-- May the value be prepended to a list object of this type?  Any value to a list; a non-empty row to a matrix or tensor. -/
def OTy.okPrepend : OTy → Val → Prop
  | .matrix _, v | .tensor3d _, v => v.asList ≠ []
  | _, _ => True

theorem prepend_some {l e : Obj} (ht : l.ty.contained? = some e.ty) : l.prepend e = some (call l.ty.prependFn l.ty [e, l]) :=
  if_pos ht.symm

theorem ListPrims.prepend {I : Interp} (h : ListPrims I) {t : OTy} {v : Val} (vs : List Val) (hok : t.okPrepend v) :
    I.fn t.prependFn [v, .list vs] = .list (v :: vs) := by
  cases t with
  | matrix t => exact h.matrix.pre v vs hok
  | tensor3d t => exact h.tensor.pre v vs hok
  | _ => exact h.list.pre v vs trivial

theorem eval_prepend {I : Interp} (h : ListPrims I) {ρ : Env} {l e : Obj} {vs : List Val} {v : Val}
    (ht : l.ty.contained? = some e.ty) (hl : eval I ρ l.src = .list vs) (hv : eval I ρ e.src = v) (hok : l.ty.okPrepend v) :
    ∃ o, l.prepend e = some o ∧ o.ty = l.ty ∧ eval I ρ o.src = .list (v :: vs) := by
  refine ⟨_, prepend_some ht, rfl, ?_⟩
  rw [eval_call]
  simp only [List.map_cons, List.map_nil, hl, hv]
  exact h.prepend vs hok

/-! ### C37 -/

/-- C37 for lists, matrices and tensors: for an object with a list as value, the objects built by `len()`, `l[i]`, `l[a:]`, `l[:b]`, `l[a:b]`,
`slice_with_length`, `append`, `prepend`, `+` and `==` have the value of the Python operation, and the expected type, for
indices in range.  Partial: `prepend` on matrices only for non-empty rows, see `C37_prepend_empty_row_refuted`. -/
theorem C37_list_operations_partial (I : Interp) (h : ListPrims I) (ρ : Env) (l : Obj) (t : OTy) (vs : List Val)
    (ht : l.ty.contained? = some t) (hl : eval I ρ l.src = .list vs) :
    eval I ρ l.len.src = .int vs.length ∧
    (∀ (i : Obj) (n : Int), eval I ρ i.src = .int n → (h0 : 0 ≤ n) → (hn : n < vs.length) →
      ∃ o, l.getitem (.at i) = some o ∧ o.ty = t ∧ eval I ρ o.src = vs[n.toNat]'(by omega)) ∧
    (∀ (i : Obj) (n : Int), eval I ρ i.src = .int n → 0 ≤ n → n ≤ vs.length →
      (∃ o, l.getitem (.slice (some i) none false) = some o ∧ o.ty = l.ty ∧ eval I ρ o.src = .list (vs.drop n.toNat)) ∧
      (∃ o, l.getitem (.slice none (some i) false) = some o ∧ o.ty = l.ty ∧ eval I ρ o.src = .list (vs.take n.toNat))) ∧
    (∀ (i j : Obj) (m n : Int), eval I ρ i.src = .int m → eval I ρ j.src = .int n → 0 ≤ m → m ≤ n → n ≤ vs.length →
      ∃ o, l.getitem (.slice (some i) (some j) false) = some o ∧ o.ty = l.ty ∧
        eval I ρ o.src = .list ((vs.drop m.toNat).take (n - m).toNat)) ∧
    (∀ (i j : Obj) (m n : Int), eval I ρ i.src = .int m → eval I ρ j.src = .int n → 0 ≤ m → 0 ≤ n → m + n ≤ vs.length →
      eval I ρ (l.sliceWithLength i j).src = .list ((vs.drop m.toNat).take n.toNat)) ∧
    (∀ e : Obj, e.ty = t → ∃ o, l.append e = some o ∧ o.ty = l.ty ∧ eval I ρ o.src = .list (vs ++ [eval I ρ e.src])) ∧
    (∀ e : Obj, e.ty = t → l.ty.okPrepend (eval I ρ e.src) →
      ∃ o, l.prepend e = some o ∧ o.ty = l.ty ∧ eval I ρ o.src = .list (eval I ρ e.src :: vs)) ∧
    (∀ (r : Obj) (us : List Val), r.ty = l.ty → eval I ρ r.src = .list us →
      (∃ o, l.concat r = some o ∧ o.ty = l.ty ∧ eval I ρ o.src = .list (vs ++ us)) ∧
      eval I ρ (l.listEq r).src = .bool (decide (vs = us))) := by
  refine ⟨eval_len h hl, ?_, ?_, ?_, ?_, ?_, ?_, ?_⟩
  · intro i n hi h0 hn
    exact eval_at h ht hl hi h0 (List.getElem?_eq_getElem (by omega))
  · intro i n hi h0 h1
    exact ⟨eval_tail h hl hi h0 h1, eval_take h hl hi h0 h1⟩
  · intro i j m n hi hj h0 h1 h2
    obtain ⟨o, h3, h4, h5⟩ := eval_slice h hl hi hj h0 h1 h2
    refine ⟨o, h3, h4, ?_⟩
    rw [h5, List.drop_take]
    congr 3
    omega
  · intro i j m n hi hj h0 h1 h2
    exact eval_sliceLen h hl hi hj h0 h1 h2
  · intro e he
    exact eval_append h (he ▸ ht) hl rfl
  · intro e he hok
    exact eval_prepend h (he ▸ ht) hl rfl hok
  · intro r us hr hu
    constructor
    · refine ⟨_, if_pos hr.symm, rfl, ?_⟩
      simp only [mkCall, eval, evals_eq_map, List.map_cons, List.map_nil, evalOp, hl, hu, h.concat]
    · rw [Obj.listEq, if_pos hr.symm, eval_call]
      simp only [List.map_cons, List.map_nil, hl, hu, h.eq, Val.list.injEq]

/-! ### The primitives of Rosette -/

/-- `list-ref-noerr` and its variants, on values. -/
def rktGet (vs : List Val) (n : Int) : Val := if 0 ≤ n ∧ n < vs.length then vs.getD n.toNat (.int 0) else .int 0

/-- An interpretation in which the primitives are those of `metalift/utils/utils.rkt` (see `Verif/RktLists.lean`), on values.
The functions on elements (`matrix-prepend` ...) are those of `RktLists`, generalised to values. -/
def rktFn (f : String) : List Val → Val
  | [] => .list []
  | [.list vs] =>
    .int vs.length
  | [.list us, .list vs] =>
    if f = "list_concat" then .list (us ++ vs)
    else if f = "matrix_append" ∨ f = "tensor3d_append" ∨ f = "list_append" then .list (Rkt.listAppend us (.list vs))
    else if f = "list_eq" then .bool (decide (us = vs))
    else if f = "list_prepend" ∨ us.length > 0 then .list (.list us :: vs) else .list vs
  | [.list vs, .int n] =>
    if f = "list_get" ∨ f = "matrix_get" ∨ f = "tensor3d_get" then rktGet vs n
    else if f = "list_tail" ∨ f = "matrix_tail" ∨ f = "tensor3d_tail" then .list (Rkt.listTail vs n)
    else if f = "list_eq" then .bool false
    else if f = "matrix_append" ∨ f = "tensor3d_append" ∨ f = "list_append" then .list (Rkt.listAppend vs (.int n))
    else .list (Rkt.listTake vs n)
  | [.list vs, .int a, .int b] =>
    if f = "vec_slice" ∨ f = "matrix_row_slice" ∨ f = "tensor3d_slice" then .list (Rkt.slice vs a b)
    else .list (Rkt.sliceWithLength vs a b)
  | [.list vs, v] => if f = "list_eq" then .bool false
    else if f = "list_prepend" then .list []
    else .list (Rkt.listAppend vs v)
  | [u, .list vs] => if f = "list_eq" then .bool false else .list (u :: vs)
  | [u, v] => .bool (decide (u = v))
  | _ => .int 0

/-- The interpretation with these primitives and Python's division. -/
def rktInterp : Interp := ⟨rktFn, fun _ _ => .int 0, Int.fdiv, Int.fmod, fun vs => vs.headD (.int 0)⟩

theorem rktGet_eq {vs : List Val} {n : Int} {v : Val} (h0 : 0 ≤ n) (h : vs[n.toNat]? = some v) : rktGet vs n = v := by
  have hlt : n.toNat < vs.length := (List.getElem?_eq_some_iff.mp h).1
  rw [rktGet, if_pos ⟨h0, by omega⟩, List.getD_eq_getElem?_getD, h]; rfl

theorem rktTake_val {α : Type} {vs : List α} {n : Int} (_h0 : 0 ≤ n) (_h1 : n ≤ vs.length) : Rkt.listTake vs n = vs.take n.toNat := by
  unfold Rkt.listTake
  split
  · have : n.toNat = 0 := by omega
    simp [this]
  · split
    · rfl
    · rw [List.take_of_length_le (by omega)]

theorem rktTail_val {α : Type} {vs : List α} {n : Int} (h0 : 0 ≤ n) (h1 : n ≤ vs.length) : Rkt.listTail vs n = vs.drop n.toNat := by
  rw [Rkt.listTail, if_pos ⟨h0, h1⟩]

theorem rktSlice_val {α : Type} {vs : List α} {a b : Int} (h0 : 0 ≤ a) (h1 : a ≤ b) (h2 : b ≤ vs.length) :
    Rkt.slice vs a b = (vs.take b.toNat).drop a.toNat := by
  have hl : ((vs.take b.toNat).length : Int) = b := by simp only [List.length_take]; omega
  rw [Rkt.slice, rktTake_val (by omega) h2, rktTail_val h0 (by omega)]

theorem rktSliceLen_val {α : Type} {vs : List α} {a n : Int} (h0 : 0 ≤ a) (h1 : 0 ≤ n) (h2 : a + n ≤ vs.length) :
    Rkt.sliceWithLength vs a n = (vs.drop a.toNat).take n.toNat := by
  rw [Rkt.sliceWithLength, rktSlice_val h0 (by omega) h2, List.drop_take]
  congr 1
  omega

/-- The hypotheses of C37 are met by the primitives of Rosette. -/
theorem rktInterp_prims : ListPrims rktInterp where
  list := by
    constructor
    · intro vs n v h0 h; exact rktGet_eq h0 h
    · intro vs n h0 h1; exact congrArg Val.list (rktTail_val h0 h1)
    · intro vs n h0 h1; exact congrArg Val.list (rktTake_val h0 h1)
    · intro vs a b h0 h1 h2; exact congrArg Val.list (rktSlice_val h0 h1 h2)
    · intro vs a n h0 h1 h2; exact congrArg Val.list (rktSliceLen_val h0 h1 h2)
    · intro vs; rfl
    · intro vs v; cases v <;> rfl
    · intro v vs _; cases v <;> rfl
    · rfl
  matrix := by
    constructor
    · intro vs n v h0 h; exact rktGet_eq h0 h
    · intro vs n h0 h1; exact congrArg Val.list (rktTail_val h0 h1)
    · intro vs n h0 h1; exact congrArg Val.list (rktTake_val h0 h1)
    · intro vs a b h0 h1 h2; exact congrArg Val.list (rktSlice_val h0 h1 h2)
    · intro vs a n h0 h1 h2; exact congrArg Val.list (rktSliceLen_val h0 h1 h2)
    · intro vs; rfl
    · intro vs v; cases v <;> rfl
    · intro v vs hv
      cases v with
      | list us =>
        cases us with
        | nil => exact absurd rfl hv
        | cons u us => simp [rktInterp, rktFn]
      | _ => rfl
    · rfl
  tensor := by
    constructor
    · intro vs n v h0 h; exact rktGet_eq h0 h
    · intro vs n h0 h1; exact congrArg Val.list (rktTail_val h0 h1)
    · intro vs n h0 h1; exact congrArg Val.list (rktTake_val h0 h1)
    · intro vs a b h0 h1 h2; exact congrArg Val.list (rktSlice_val h0 h1 h2)
    · intro vs a n h0 h1 h2; exact congrArg Val.list (rktSliceLen_val h0 h1 h2)
    · intro vs; rfl
    · intro vs v; cases v <;> rfl
    · intro v vs hv
      cases v with
      | list us =>
        cases us with
        | nil => exact absurd rfl hv
        | cons u us => simp [rktInterp, rktFn]
      | _ => rfl
    · rfl
  concat := by intro us vs; rfl
  eq := by
    intro u v
    cases u <;> cases v <;> simp [rktInterp, rktFn]

/-- A list of rows: `m[1:][0][:2]` on the matrix `[[1], [2, 3, 4]]` is `[2, 3]`. -/
example : ∃ o1 o2 o3 : Obj, (Obj.var "m" (.matrix .int)).getitem (.slice (some (.int 1)) none false) = some o1 ∧
    o1.getitem (.at (.int 0)) = some o2 ∧ o2.getitem (.slice none (some (.int 2)) false) = some o3 ∧ o3.ty = .list .int ∧
    eval rktInterp (fun _ => .list [.list [.int 1], .list [.int 2, .int 3, .int 4]]) o3.src = .list [.int 2, .int 3] := by
  obtain ⟨o1, h1, t1, e1⟩ := ((C37_list_operations_partial rktInterp rktInterp_prims
    (fun _ => .list [.list [.int 1], .list [.int 2, .int 3, .int 4]]) (.var "m" (.matrix .int)) _ _ rfl rfl).2.2.1 (.int 1) 1 rfl
      (by decide) (by decide)).1
  obtain ⟨o2, h2, t2, e2⟩ := (C37_list_operations_partial rktInterp rktInterp_prims
    _ o1 (.list .int) _ (by rw [t1]; rfl) e1).2.1 (.int 0) 0 rfl (by decide) (by decide)
  obtain ⟨o3, h3, t3, e3⟩ := ((C37_list_operations_partial rktInterp rktInterp_prims
    _ o2 .int [.int 2, .int 3, .int 4] (by rw [t2]; rfl) (by rw [e2]; rfl)).2.2.1 (.int 2) 2 rfl (by decide) (by decide)).2
  exact ⟨o1, o2, o3, h1, h2, h3, by rw [t3, t2], by rw [e3]; rfl⟩

/-- C37 is false for `!=`: it answers `False` for two different lists. -/
theorem C37_not_equal_refuted : ∃ (l r : Obj) (ρ : Env), l.ty = .list .int ∧ r.ty = .list .int ∧
    eval rktInterp ρ l.src ≠ eval rktInterp ρ r.src ∧ Obj.listNe l r = false :=
  ⟨.var "l" (.list .int), .var "r" (.list .int), fun n => if n = "l" then .list [] else .list [.int 1], rfl, rfl, by
    simp [Obj.var, eval], rfl⟩

/-- C37 is false for `prepend` of an empty row: with the primitives of Rosette the row is lost. -/
theorem C37_prepend_empty_row_refuted : ∃ (m row o : Obj) (ρ : Env), m.ty = .matrix .int ∧ row.ty = .list .int ∧
    eval rktInterp ρ m.src = .list [.list [.int 1]] ∧ eval rktInterp ρ row.src = .list [] ∧ m.prepend row = some o ∧
    eval rktInterp ρ o.src = .list [.list [.int 1]] :=
  ⟨.var "m" (.matrix .int), .var "r" (.list .int), _, fun n => if n = "m" then .list [.list [.int 1]] else .list [], rfl, rfl, rfl, rfl,
    rfl, by rw [eval_call]; rfl⟩

/-- C37: a list type different from the list's own is rejected by `+`, `append` and `prepend`, so the operations never mix types. -/
theorem C37_type_checked (l e : Obj) :
    ((l.append e).isSome ↔ l.ty.contained? = some e.ty) ∧ ((l.prepend e).isSome ↔ l.ty.contained? = some e.ty) ∧
    ((l.concat e).isSome ↔ l.ty = e.ty) := by
  unfold Obj.append Obj.prepend Obj.concat
  refine ⟨?_, ?_, ?_⟩
  · split
    · rename_i h; simp [h.symm]
    · rename_i h; simp [Ne.symm h]
  · split
    · rename_i h; simp [h.symm]
    · rename_i h; simp [Ne.symm h]
  · split <;> simp [*]

end Metalift
