import Verif.RosetteRun
/-
The functions of the library, as they are called from a file: results and their types.
-/
namespace Metalift
namespace Rkt
open Smt (OfTy OfTys FnHolds paramEnv)

/-- Whatever the fuel, the call has the value as soon as there are enough steps, and the value has the type. -/
def Total (hd : String) (vs : List Val) (t : Ty) : Prop := ∃ v, OfTy t v ∧ ∃ k, ∀ n fu, libCall (n + k) fu hd vs = some v

/-- The call has no value but one of the type. -/
def Unique (hd : String) (vs : List Val) (t : Ty) : Prop := ∃ v, OfTy t v ∧ ∀ n fu w, libCall n fu hd vs = some w → w = v

theorem Total.unique {hd : String} {vs : List Val} {t : Ty} (h : Total hd vs t) : Unique hd vs t := by
  obtain ⟨v, hv, k, h⟩ := h
  refine ⟨v, hv, fun n fu w hw => ?_⟩
  have := libCall_mono (Nat.le_add_right n k) hw
  rw [h] at this
  exact (Option.some.inj this).symm

/-! ### Types of values -/

theorem ints_of_ty {v : Val} (h : OfTy (.list .int) v) : ∃ l : List Int, v = .list (intsV l) := by
  obtain ⟨vs, rfl, h⟩ := h
  suffices ∃ l : List Int, vs = intsV l from by obtain ⟨l, rfl⟩ := this; exact ⟨l, rfl⟩
  induction vs with
  | nil => exact ⟨[], rfl⟩
  | cons v vs ih =>
    obtain ⟨i, rfl⟩ := h v (by simp)
    obtain ⟨l, rfl⟩ := ih (fun w hw => h w (by simp [hw]))
    exact ⟨i :: l, rfl⟩

theorem mat_of_ty {v : Val} (h : OfTy (.list (.list .int)) v) : ∃ m : List (List Int), v = .list (matV m) := by
  obtain ⟨vs, rfl, h⟩ := h
  suffices ∃ m : List (List Int), vs = matV m from by obtain ⟨l, rfl⟩ := this; exact ⟨l, rfl⟩
  induction vs with
  | nil => exact ⟨[], rfl⟩
  | cons v vs ih =>
    obtain ⟨r, rfl⟩ := ints_of_ty (h v (by simp))
    obtain ⟨l, rfl⟩ := ih (fun w hw => h w (by simp [hw]))
    exact ⟨r :: l, rfl⟩

theorem set_of_ty {v : Val} (h : OfTy (.set .int) v) : ∃ s : List Int, v = setV s ∧ IsSet s := by
  obtain ⟨vs, rfl, h1, h2⟩ := h
  obtain ⟨l, e⟩ := ints_of_ty ⟨vs, rfl, h1⟩
  cases e
  refine ⟨l, rfl, ?_⟩
  simp only [intsV, List.pairwise_map] at h2
  exact h2

theorem ty_ints {l : List Int} : OfTy (.list .int) (.list (intsV l)) := by
  refine ⟨_, rfl, fun w hw => ?_⟩
  obtain ⟨i, _, rfl⟩ := List.mem_map.1 hw
  exact ⟨i, rfl⟩

theorem ty_mat {m : List (List Int)} : OfTy (.list (.list .int)) (.list (matV m)) := by
  refine ⟨_, rfl, fun w hw => ?_⟩
  simp only [matV, rowsV, List.map_map] at hw
  obtain ⟨r, _, rfl⟩ := List.mem_map.1 hw
  exact ty_ints

theorem ty_set {s : List Int} (h : IsSet s) : OfTy (.set .int) (setV s) := by
  refine ⟨_, rfl, fun w hw => ?_, ?_⟩
  · obtain ⟨i, _, rfl⟩ := List.mem_map.1 hw
    exact ⟨i, rfl⟩
  · rw [List.pairwise_map]
    exact h

theorem ty_sub {t : Ty} {l l' : List Val} (h : ∀ w ∈ l, OfTy t w) (hs : ∀ w ∈ l', w ∈ l) : OfTy (.list t) (.list l') :=
  ⟨_, rfl, fun w hw => h w (hs w hw)⟩

theorem mem_tail {α : Type} {l : List α} {i : Int} {x : α} (h : x ∈ listTail l i) : x ∈ l := by
  unfold listTail at h
  split at h
  · exact List.mem_of_mem_drop h
  · cases h

theorem mem_take {α : Type} {l : List α} {i : Int} {x : α} (h : x ∈ listTake l i) : x ∈ l := by
  unfold listTake at h
  split at h
  · cases h
  · split at h
    · exact List.mem_of_mem_take h
    · exact h

theorem mem_slice {α : Type} {l : List α} {i j : Int} {x : α} (h : x ∈ slice l i j) : x ∈ l := mem_take (mem_tail h)

theorem ty_ref {t : Ty} {l : List Val} {d : Val} {i : Int} (hd : OfTy t d) (h : ∀ w ∈ l, OfTy t w) : OfTy t (refV d l i) := by
  unfold refV
  split
  · next hi =>
    have : i.toNat < l.length := by omega
    rw [List.getD_eq_getElem?_getD, List.getElem?_eq_getElem this]
    exact h _ (List.getElem_mem _)
  · exact hd

/-! ### The functions -/

section
variable {t : Ty} {l r : List Val} {v : Val} {i j : Int}

theorem p_ref {hd : String} {d : Val} (he : ∀ n fu, libCall (n + 6) fu hd [.list l, .int i] = some (refV d l i)) (hdt : OfTy t d)
    (h : ∀ w ∈ l, OfTy t w) : Total hd [.list l, .int i] t := ⟨_, ty_ref hdt h, 6, he⟩

theorem p_tail {hd : String} (he : ∀ n fu, libCall (n + 6) fu hd [.list l, .int i] = some (.list (listTail l i))) (h : ∀ w ∈ l, OfTy t w) :
    Total hd [.list l, .int i] (.list t) := ⟨_, ty_sub h (fun _ => mem_tail), 6, he⟩

theorem p_take {hd : String} (he : ∀ n fu, libCall (n + 6) fu hd [.list l, .int i] = some (.list (listTake l i))) (h : ∀ w ∈ l, OfTy t w) :
    Total hd [.list l, .int i] (.list t) := ⟨_, ty_sub h (fun _ => mem_take), 6, he⟩

theorem p_slice {hd : String} (he : ∀ n fu, libCall (n + 8) fu hd [.list l, .int i, .int j] = some (.list (slice l i j))) (h : ∀ w ∈ l, OfTy t w) :
    Total hd [.list l, .int i, .int j] (.list t) := ⟨_, ty_sub h (fun _ => mem_slice), 8, he⟩

theorem p_slice_len {hd : String} (he : ∀ n fu, libCall (n + 10) fu hd [.list l, .int i, .int j] = some (.list (sliceWithLength l i j)))
    (h : ∀ w ∈ l, OfTy t w) : Total hd [.list l, .int i, .int j] (.list t) := ⟨_, ty_sub h (fun _ => mem_slice), 10, he⟩

theorem p_append {hd : String} (he : ∀ n fu, libCall (n + 6) fu hd [.list l, v] = some (.list (l ++ [v]))) (h : ∀ w ∈ l, OfTy t w) (hv : OfTy t v) :
    Total hd [.list l, v] (.list t) := by
  refine ⟨_, ⟨_, rfl, fun w hw => ?_⟩, 6, he⟩
  rcases List.mem_append.1 hw with hw | hw
  · exact h w hw
  · exact (List.mem_singleton.1 hw) ▸ hv

theorem p_prepend {hd : String} (he : ∀ n fu, libCall (n + 6) fu hd [.list r, .list l] = some (.list (if r.length > 0 then .list r :: l else l)))
    (h : ∀ w ∈ l, OfTy t w) (hv : OfTy t (.list r)) : Total hd [.list r, .list l] (.list t) := by
  refine ⟨_, ⟨_, rfl, fun w hw => ?_⟩, 6, he⟩
  split at hw
  · rcases List.mem_cons.1 hw with rfl | hw
    · exact hv
    · exact h w hw
  · exact h w hw

end

/-- The names under which the functions are called. -/
def headTable : List String :=
  ["length", "matrix-length", "tensor3d-length", "list-empty", "matrix-empty", "tensor3d-empty", "list-append", "matrix-append", "tensor3d-append",
   "list-prepend", "matrix-prepend", "tensor3d-prepend", "list-ref-noerr", "matrix-ref-noerr", "tensor3d-ref-noerr", "list-tail-noerr",
   "matrix-tail-noerr", "tensor3d-tail-noerr", "list-take-noerr", "matrix-take-noerr", "tensor3d-take-noerr", "list-concat", "vec-slice-noerr",
   "matrix-row-slice-noerr", "tensor3d-slice-noerr", "vec-slice-with-length-noerr", "matrix-row-slice-with-length-noerr",
   "tensor3d-slice-with-length-noerr", "matrix-col-slice-noerr", "matrix-col-slice-with-length-noerr", "matrix-transpose-noerr",
   "integer-sqrt-noerr", "integer-exp-noerr", "equal?", "set-create", "set-insert", "set-singleton", "set-union", "set-minus", "set-subset",
   "set-member"]

theorem heads_table : primTable.map (fun p => opHead (.call p.1) p.2.1.head?) = headTable.map some := by decide +kernel

theorem zip_heads {α : Type} {g : α → Option String} : ∀ {l : List α} {hs : List String}, l.map g = hs.map some → ∀ {p : α} {h : String}, p ∈ l →
    g p = some h → (p, h) ∈ l.zip hs
  | [], [], _, _, _, hp, _ => by cases hp
  | a :: l, [], e, _, _, _, _ => by simp at e
  | [], h :: hs, e, _, _, _, _ => by simp at e
  | a :: l, k :: hs, e, p, h, hp, hg => by
    simp only [List.map_cons, List.cons.injEq] at e
    rw [List.zip_cons_cons]
    rcases List.mem_cons.1 hp with rfl | hp
    · rw [e.1] at hg
      cases hg
      simp
    · exact List.mem_cons_of_mem _ (zip_heads e.2 hp hg)

/-- The functions whose results depend on the fuel. -/
def fuelFns : List String := ["matrix_transpose", "integer_sqrt", "integer_exp"]

/-- What is to be shown of a function of the library. -/
def PrimOk (p : (String × List Ty × Ty) × String) : Prop :=
  ∀ vs, OfTys p.1.2.1 vs → (p.1.1 ∉ fuelFns ∧ Total p.2 vs p.1.2.2) ∨ (p.1.1 ∈ fuelFns ∧ Unique p.2 vs p.1.2.2)

theorem ty_int {i : Int} : OfTy .int (.int i) := ⟨i, rfl⟩
theorem ty_bool {b : Bool} : OfTy .bool (.bool b) := ⟨b, rfl⟩
theorem ty_nil {t : Ty} : OfTy (.list t) (.list []) := ⟨[], rfl, by simp⟩

theorem ok0 {f hd : String} {t : Ty} (hf : f ∉ fuelFns) (h : Total hd [] t) : PrimOk ((f, [], t), hd)
  | [], _ => .inl ⟨hf, h⟩
  | _ :: _, h => h.elim

theorem ok1 {f hd : String} {t1 t : Ty} (hf : f ∉ fuelFns) (h : ∀ a, OfTy t1 a → Total hd [a] t) : PrimOk ((f, [t1], t), hd)
  | [], h' => h'.elim
  | [a], h' => .inl ⟨hf, h a h'.1⟩
  | _ :: _ :: _, h' => h'.2.elim

theorem ok2 {f hd : String} {t1 t2 t : Ty} (hf : f ∉ fuelFns) (h : ∀ a b, OfTy t1 a → OfTy t2 b → Total hd [a, b] t) : PrimOk ((f, [t1, t2], t), hd)
  | [], h' => h'.elim
  | [_], h' => h'.2.elim
  | [a, b], h' => .inl ⟨hf, h a b h'.1 h'.2.1⟩
  | _ :: _ :: _ :: _, h' => h'.2.2.elim

theorem ok3 {f hd : String} {t1 t2 t3 t : Ty} (hf : f ∉ fuelFns) (h : ∀ a b c, OfTy t1 a → OfTy t2 b → OfTy t3 c → Total hd [a, b, c] t) :
    PrimOk ((f, [t1, t2, t3], t), hd)
  | [], h' => h'.elim
  | [_], h' => h'.2.elim
  | [_, _], h' => h'.2.2.elim
  | [a, b, c], h' => .inl ⟨hf, h a b c h'.1 h'.2.1 h'.2.2.1⟩
  | _ :: _ :: _ :: _ :: _, h' => h'.2.2.2.elim

theorem u1 {f hd : String} {t1 t : Ty} (hf : f ∈ fuelFns) (h : ∀ a, OfTy t1 a → Unique hd [a] t) : PrimOk ((f, [t1], t), hd)
  | [], h' => h'.elim
  | [a], h' => .inr ⟨hf, h a h'.1⟩
  | _ :: _ :: _, h' => h'.2.elim

theorem exp_unique (i : Int) : ∃ e, ∀ fu w, integerExp fu i = some w → w = e := by
  by_cases h : ∃ fu w, integerExp fu i = some w
  · obtain ⟨fu, w, h⟩ := h
    refine ⟨w, fun fu' w' h' => ?_⟩
    have key : ∀ (a b : Nat) (i w w' : Int), integerExp a i = some w → integerExp b i = some w' → w = w' := by
      intro a
      induction a with
      | zero => intro b i w w' h; cases h
      | succ a ih =>
        intro b i w w' h h'
        match b, h' with
        | b + 1, h' =>
          simp only [integerExp] at h h'
          split at h
          · rw [if_pos (by assumption)] at h'
            cases h; cases h'; rfl
          · rw [if_neg (by assumption)] at h'
            obtain ⟨u, hu, rfl⟩ := Option.map_eq_some_iff.1 h
            obtain ⟨u', hu', rfl⟩ := Option.map_eq_some_iff.1 h'
            rw [ih b _ u u' hu hu']
    exact key _ _ _ _ _ h' h
  · exact ⟨0, fun fu w hw => absurd ⟨fu, w, hw⟩ h⟩

theorem firsts_fuel : ∀ (a b : Nat) (m : List (List Int)) (w w' : List Int), firsts a m = some w → firsts b m = some w' → w = w' := by
  intro a
  induction a with
  | zero => intro b m w w' h; cases h
  | succ a ih =>
    intro b m w w' h h'
    match b, h' with
    | b + 1, h' =>
      simp only [firsts] at h h'
      split at h
      · rw [if_pos (by assumption)] at h'
        cases h; cases h'; rfl
      · rw [if_neg (by assumption)] at h'
        obtain ⟨u, hu, rfl⟩ := Option.map_eq_some_iff.1 h
        obtain ⟨u', hu', rfl⟩ := Option.map_eq_some_iff.1 h'
        rw [ih b _ u u' hu hu']

theorem transpose_fuel : ∀ (a b : Nat) (m : List (List Int)) (w w' : List (List Int)), transpose a m = some w → transpose b m = some w' → w = w' := by
  intro a
  induction a with
  | zero => intro b m w w' h; cases h
  | succ a ih =>
    intro b m w w' h h'
    match b, h' with
    | b + 1, h' =>
      simp only [transpose] at h h'
      split at h
      · rw [if_pos (by assumption)] at h'
        cases h; cases h'; rfl
      · rw [if_neg (by assumption)] at h'
        simp only [Option.bind_eq_bind, Option.bind_eq_some_iff, Option.some.injEq] at h h'
        obtain ⟨f, hf, u, hu, rfl⟩ := h
        obtain ⟨f', hf', u', hu', rfl⟩ := h'
        rw [ih b _ u u' hu hu', firsts_fuel _ _ _ _ _ hf hf']

theorem rows_filter {t : Ty} {rows : List (List Val)} {i j : Int} (h : ∀ r ∈ rows, ∀ w ∈ r, OfTy t w) :
    OfTy (.list (.list t)) (.list (rowsV ((rows.map fun r => slice r i j).filter fun r => decide (r.length > 0)))) := by
  refine ⟨_, rfl, fun w hw => ?_⟩
  obtain ⟨r, hr, rfl⟩ := List.mem_map.1 hw
  obtain ⟨q, hq, rfl⟩ := List.mem_map.1 (List.mem_filter.1 hr).1
  exact ⟨_, rfl, fun w hw => h q hq w (mem_slice hw)⟩

theorem rows_of_ty {t : Ty} {v : Val} (h : OfTy (.list (.list t)) v) : ∃ rows, v = .list (rowsV rows) ∧ ∀ r ∈ rows, ∀ w ∈ r, OfTy t w := by
  obtain ⟨vs, rfl, h⟩ := h
  suffices ∃ rows, vs = rowsV rows ∧ ∀ r ∈ rows, ∀ w ∈ r, OfTy t w from by
    obtain ⟨l, rfl, h'⟩ := this
    exact ⟨l, rfl, h'⟩
  induction vs with
  | nil => exact ⟨[], rfl, by simp⟩
  | cons v vs ih =>
    obtain ⟨r, rfl, hr⟩ := h v (by simp)
    obtain ⟨l, rfl, hl⟩ := ih (fun w hw => h w (by simp [hw]))
    refine ⟨r :: l, rfl, ?_⟩
    intro q hq
    rcases List.mem_cons.1 hq with rfl | hq
    · exact hr
    · exact hl q hq

theorem prims_total : ∀ p ∈ primTable.zip headTable, PrimOk p := by
  have e : ∀ {f : String} {vs : List Val} {v : Val} (n fu : Nat), lib.find f = none → ((builtin f).bind fun p => p vs) = some v →
      libCall (n + 0) fu f vs = some v := by
    intro f vs v n fu hf h
    rw [libCall_builtin hf, h]
  simp only [primTable, headTable, List.zip_cons_cons, List.zip_nil_left, List.forall_mem_cons, List.not_mem_nil, false_implies, implies_true, and_true]
  refine ⟨?_, ?_, ?_, ?_, ?_, ?_, ?_, ?_, ?_, ?_, ?_, ?_, ?_, ?_, ?_, ?_, ?_, ?_, ?_, ?_, ?_, ?_, ?_, ?_, ?_, ?_, ?_, ?_, ?_, ?_, ?_, ?_, ?_, ?_, ?_, ?_,
    ?_, ?_, ?_, ?_, ?_⟩
  · exact ok1 (by decide) fun a ⟨l, h, _⟩ => h ▸ ⟨_, ty_int, 0, fun n fu => e n fu (by decide +kernel) b_length⟩
  · exact ok1 (by decide) fun a ⟨l, h, _⟩ => h ▸ ⟨_, ty_int, 6, fun n fu => lib_matrix_length⟩
  · exact ok1 (by decide) fun a ⟨l, h, _⟩ => h ▸ ⟨_, ty_int, 6, fun n fu => lib_tensor_length⟩
  · exact ok0 (by decide) ⟨_, ty_nil, 6, fun n fu => lib_list_empty⟩
  · exact ok0 (by decide) ⟨_, ty_nil, 6, fun n fu => lib_matrix_empty⟩
  · exact ok0 (by decide) ⟨_, ty_nil, 6, fun n fu => lib_tensor_empty⟩
  · exact ok2 (by decide) fun a b ⟨l, h, hl⟩ hb => h ▸ p_append (fun n fu => lib_list_append) hl hb
  · exact ok2 (by decide) fun a b ⟨l, h, hl⟩ hb => h ▸ p_append (fun n fu => lib_matrix_append) hl hb
  · exact ok2 (by decide) fun a b ⟨l, h, hl⟩ hb => h ▸ p_append (fun n fu => lib_tensor_append) hl hb
  · refine ok2 (by decide) fun a b ha ⟨l, h, hl⟩ => h ▸ ⟨_, ⟨_, rfl, fun w hw => ?_⟩, 6, fun n fu => lib_list_prepend⟩
    rcases List.mem_cons.1 hw with rfl | hw
    · exact ha
    · exact hl w hw
  · refine ok2 (by decide) fun a b ha ⟨l, h, hl⟩ => ?_
    obtain ⟨r, hr, hrt⟩ := id ha
    subst h hr
    exact p_prepend (fun n fu => lib_matrix_prepend) hl ha
  · refine ok2 (by decide) fun a b ha ⟨l, h, hl⟩ => ?_
    obtain ⟨r, hr, hrt⟩ := id ha
    subst h hr
    exact p_prepend (fun n fu => lib_tensor_prepend) hl ha
  · exact ok2 (by decide) fun a b ⟨l, h, hl⟩ ⟨i, hi⟩ => h ▸ hi ▸ p_ref (fun n fu => lib_list_ref) ty_int hl
  · exact ok2 (by decide) fun a b ⟨l, h, hl⟩ ⟨i, hi⟩ => h ▸ hi ▸ p_ref (fun n fu => lib_matrix_ref) ty_nil hl
  · exact ok2 (by decide) fun a b ⟨l, h, hl⟩ ⟨i, hi⟩ => h ▸ hi ▸ p_ref (fun n fu => lib_tensor_ref) ty_nil hl
  · exact ok2 (by decide) fun a b ⟨l, h, hl⟩ ⟨i, hi⟩ => h ▸ hi ▸ p_tail (fun n fu => lib_list_tail) hl
  · exact ok2 (by decide) fun a b ⟨l, h, hl⟩ ⟨i, hi⟩ => h ▸ hi ▸ p_tail (fun n fu => lib_matrix_tail) hl
  · exact ok2 (by decide) fun a b ⟨l, h, hl⟩ ⟨i, hi⟩ => h ▸ hi ▸ p_tail (fun n fu => lib_tensor_tail) hl
  · exact ok2 (by decide) fun a b ⟨l, h, hl⟩ ⟨i, hi⟩ => h ▸ hi ▸ p_take (fun n fu => lib_list_take) hl
  · exact ok2 (by decide) fun a b ⟨l, h, hl⟩ ⟨i, hi⟩ => h ▸ hi ▸ p_take (fun n fu => lib_matrix_take) hl
  · exact ok2 (by decide) fun a b ⟨l, h, hl⟩ ⟨i, hi⟩ => h ▸ hi ▸ p_take (fun n fu => lib_tensor_take) hl
  · refine ok2 (by decide) fun a b ⟨l, h, hl⟩ ⟨r, h', hr⟩ => h ▸ h' ▸ ⟨_, ⟨_, rfl, fun w hw => ?_⟩, 6, fun n fu => lib_list_concat⟩
    rcases List.mem_append.1 hw with hw | hw
    · exact hl w hw
    · exact hr w hw
  · exact ok3 (by decide) fun a b c ⟨l, h, hl⟩ ⟨i, hi⟩ ⟨j, hj⟩ => h ▸ hi ▸ hj ▸ p_slice (fun n fu => lib_list_slice) hl
  · exact ok3 (by decide) fun a b c ⟨l, h, hl⟩ ⟨i, hi⟩ ⟨j, hj⟩ => h ▸ hi ▸ hj ▸ p_slice (fun n fu => lib_matrix_slice) hl
  · exact ok3 (by decide) fun a b c ⟨l, h, hl⟩ ⟨i, hi⟩ ⟨j, hj⟩ => h ▸ hi ▸ hj ▸ p_slice (fun n fu => lib_tensor_slice) hl
  · exact ok3 (by decide) fun a b c ⟨l, h, hl⟩ ⟨i, hi⟩ ⟨j, hj⟩ => h ▸ hi ▸ hj ▸ p_slice_len (fun n fu => lib_list_slice_len) hl
  · exact ok3 (by decide) fun a b c ⟨l, h, hl⟩ ⟨i, hi⟩ ⟨j, hj⟩ => h ▸ hi ▸ hj ▸ p_slice_len (fun n fu => lib_matrix_slice_len) hl
  · exact ok3 (by decide) fun a b c ⟨l, h, hl⟩ ⟨i, hi⟩ ⟨j, hj⟩ => h ▸ hi ▸ hj ▸ p_slice_len (fun n fu => lib_tensor_slice_len) hl
  · refine ok3 (by decide) fun a b c ha ⟨i, hi⟩ ⟨j, hj⟩ => ?_
    obtain ⟨rows, rfl, hr⟩ := rows_of_ty ha
    subst hi hj
    exact ⟨_, rows_filter hr, 3 * rows.length + 12, fun n fu => lib_col_slice rows n⟩
  · refine ok3 (by decide) fun a b c ha ⟨i, hi⟩ ⟨j, hj⟩ => ?_
    obtain ⟨rows, rfl, hr⟩ := rows_of_ty ha
    subst hi hj
    exact ⟨_, rows_filter hr, 3 * rows.length + 14, fun n fu => lib_col_slice_len rows n⟩
  · refine u1 (by decide) fun a ha => ?_
    obtain ⟨m, rfl⟩ := mat_of_ty ha
    have key : ∀ n fu w, libCall n fu "matrix-transpose-noerr" [.list (matV m)] = some w → ∃ r, transpose fu m = some r ∧ w = .list (matV r) := by
      intro n fu w hw
      have h1 := lib_transpose fu m n
      rw [libCall_mono (by omega) hw] at h1
      obtain ⟨r, hr, e⟩ := Option.map_eq_some_iff.1 h1.symm
      exact ⟨r, hr, e.symm⟩
    by_cases h : ∃ fu r, transpose fu m = some r
    · obtain ⟨fu, r, h⟩ := h
      refine ⟨_, ty_mat (m := r), fun n fu' w hw => ?_⟩
      obtain ⟨r', hr', rfl⟩ := key n fu' w hw
      rw [transpose_fuel _ _ _ _ _ hr' h]
    · refine ⟨_, ty_mat (m := []), fun n fu' w hw => ?_⟩
      obtain ⟨r', hr', rfl⟩ := key n fu' w hw
      exact absurd ⟨fu', r', hr'⟩ h
  · refine u1 (by decide) fun a ⟨i, hi⟩ => ?_
    subst hi
    refine ⟨_, ty_int (i := i), fun n fu w hw => ?_⟩
    cases fu with
    | zero =>
      rw [libCall_def (d := d_integer_sqrt_noerr) (by rfl)] at hw
      simp [applyDef, d_integer_sqrt_noerr] at hw
    | succ fu =>
      have h1 := lib_sqrt (n := n) (fu := fu) (i := i)
      rw [libCall_mono (by omega) hw] at h1
      exact Option.some.inj h1
  · refine u1 (by decide) fun a ⟨i, hi⟩ => ?_
    subst hi
    obtain ⟨e, he⟩ := exp_unique i
    refine ⟨_, ty_int (i := e), fun n fu w hw => ?_⟩
    have h1 := lib_exp fu n i
    rw [libCall_mono (by omega) hw] at h1
    obtain ⟨r, hr, e⟩ := Option.map_eq_some_iff.1 h1.symm
    rw [← e, he fu r hr]
  · exact ok2 (by decide) fun a b _ _ => ⟨_, ty_bool, 0, fun n fu => e n fu (by decide +kernel) b_equal⟩
  · exact ok0 (by decide) ⟨_, ty_set (s := []) List.Pairwise.nil, 6, fun n fu => lib_set_create⟩
  · refine ok2 (by decide) fun a b ⟨i, hi⟩ hb => ?_
    obtain ⟨s, rfl, hs⟩ := set_of_ty hb
    subst hi
    exact ⟨_, ty_set (setUnion_sorted (List.pairwise_singleton _ _) hs), 5 * s.length + 20, fun n fu => lib_set_insert⟩
  · exact ok1 (by decide) fun a ⟨i, hi⟩ => hi ▸ ⟨_, ty_set (List.pairwise_singleton _ _), 6, fun n fu => lib_set_singleton⟩
  · refine ok2 (by decide) fun a b ha hb => ?_
    obtain ⟨r, rfl, hr⟩ := set_of_ty ha
    obtain ⟨s, rfl, hs⟩ := set_of_ty hb
    exact ⟨_, ty_set (setUnion_sorted hr hs), 5 * (r.length + s.length) + 12, fun n fu => lib_set_union r s n fu⟩
  · refine ok2 (by decide) fun a b ha hb => ?_
    obtain ⟨r, rfl, hr⟩ := set_of_ty ha
    obtain ⟨s, rfl, hs⟩ := set_of_ty hb
    exact ⟨_, ty_set (setMinus_sorted hr hs), 5 * (r.length + s.length) + 12, fun n fu => lib_set_minus r s n fu⟩
  · refine ok2 (by decide) fun a b ha hb => ?_
    obtain ⟨r, rfl, hr⟩ := set_of_ty ha
    obtain ⟨s, rfl, hs⟩ := set_of_ty hb
    exact ⟨_, ty_bool, 5 * (r.length + s.length) + 12, fun n fu => lib_set_subset r s n fu⟩
  · refine ok2 (by decide) fun a b ⟨i, hi⟩ hb => ?_
    obtain ⟨s, rfl, hs⟩ := set_of_ty hb
    subst hi
    exact ⟨_, ty_bool, 6, fun n fu => lib_set_member⟩

/-- A primitive and the name under which it is called. -/
theorem prim_total {f : String} {ts : List Ty} {t : Ty} {hd : String} (h : primSig f = some (ts, t)) (hh : opHead (.call f) ts.head? = some hd)
    {vs : List Val} (hvs : OfTys ts vs) : (f ∉ fuelFns ∧ Total hd vs t) ∨ (f ∈ fuelFns ∧ Unique hd vs t) :=
  prims_total _ (zip_heads heads_table (lookup_mem h) hh) vs hvs

open Classical in
/-- The meaning that the library gives to its functions; others are given by `g`. -/
noncomputable def libInterp (g : String → List Val → Val) : Interp where
  apply _ _ := .int 0
  choose vs := vs.headD (.int 0)
  idiv a b := if b = 0 then a else a.tdiv b
  imod a b := a.tmod b
  fn f vs :=
    match primSig f with
    | some (ts, t) =>
      match opHead (.call f) ts.head? with
      | some hd => if h : Unique hd vs t then h.choose else g f vs
      | none => g f vs
    | none => g f vs

/-- There is a meaning of the functions of the library as C54 assumes it. -/
theorem libInterp_meaning (g : String → List Val → Val) : LibMeaning (libInterp g) := by
  have key : ∀ f ts t hd, primSig f = some (ts, t) → opHead (.call f) ts.head? = some hd → ∀ vs, OfTys ts vs →
      OfTy t ((libInterp g).fn f vs) ∧ ∀ n fu w, libCall n fu hd vs = some w → w = (libInterp g).fn f vs := by
    intro f ts t hd h hh vs hvs
    have hu : Unique hd vs t := (prim_total h hh hvs).elim (fun h => h.2.unique) And.right
    have : (libInterp g).fn f vs = hu.choose := by
      simp only [libInterp, h, hh, dif_pos hu]
    rw [this]
    exact hu.choose_spec
  refine ⟨?_, ?_, ?_, ?_, ?_⟩
  · intro f ts t hd h hh vs v hvs n fu hc
    exact ((key f ts t hd h hh vs hvs).2 n fu v hc).symm
  · intro f ts t h vs hvs
    obtain ⟨hd, hh, _⟩ := prim_ok h
    exact (key f ts t hd h hh vs hvs).1
  · intro a b h
    simp [libInterp, h]
  · intro a
    simp [libInterp]
  · intro a b _
    rfl

/-- Other functions have the meaning given. -/
theorem libInterp_other (g : String → List Val → Val) {f : String} (h : primSig f = none) (vs : List Val) : (libInterp g).fn f vs = g f vs := by
  simp only [libInterp, h]

end Rkt
end Metalift
