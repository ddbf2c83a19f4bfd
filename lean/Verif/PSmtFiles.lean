import Verif.SmtFilesRead
import Verif.PLists
import Verif.PTenModel
/-
What the files of definitions mean to the solver: without the last definition they are satisfied by the usual functions on lists, with it
they are satisfied by nothing.
-/
namespace Metalift
namespace Smt

/-! ### Values -/

/-- A list of integers. -/
def encL (l : List Int) : Val := .list (l.map .int)
/-- A list of lists of integers. -/
def encM (m : List (List Int)) : Val := .list (m.map encL)

theorem encL_inj {a b : List Int} : encL a = encL b ↔ a = b := by
  constructor
  · intro h
    injection h with h
    induction a generalizing b with
    | nil => cases b <;> simp_all
    | cons x xs ih =>
      cases b with
      | nil => simp at h
      | cons y ys =>
        simp only [List.map_cons, List.cons.injEq, Val.int.injEq] at h
        rw [h.1, ih h.2]
  · rintro rfl; rfl

theorem encM_inj {a b : List (List Int)} : encM a = encM b ↔ a = b := by
  constructor
  · intro h
    injection h with h
    induction a generalizing b with
    | nil => cases b <;> simp_all
    | cons x xs ih =>
      cases b with
      | nil => simp at h
      | cons y ys =>
        simp only [List.map_cons, List.cons.injEq, encL_inj] at h
        rw [h.1, ih h.2]
  · rintro rfl; rfl

/-- `(MLList Int)`. -/
def sL : SExpr := .list [.atom "MLList", .atom "Int"]

theorem sort_int (v : Val) : HasSort (.atom "Int") v ↔ ∃ i, v = .int i := by simp [HasSort]
theorem sort_t1 (v : Val) : HasSort (.atom "List_T1") v ↔ ∃ i, v = .int i := by simp [HasSort]
theorem sort_bool (v : Val) : HasSort (.atom "Bool") v ↔ ∃ b, v = .bool b := by simp [HasSort]

theorem sort_list_aux {s : SExpr} (hs : ∀ v, HasSort s v ↔ ∃ i, v = .int i) (v : Val) :
    HasSort (.list [.atom "MLList", s]) v ↔ ∃ l, v = encL l := by
  have h0 : HasSort (.list [.atom "MLList", s]) v ↔ ∃ vs, v = .list vs ∧ ∀ w ∈ vs, HasSort s w := by rw [HasSort]
  rw [h0]
  constructor
  · rintro ⟨vs, rfl, h⟩
    simp only [hs] at h
    suffices ∃ l : List Int, vs = l.map .int by obtain ⟨l, rfl⟩ := this; exact ⟨l, rfl⟩
    clear h0
    induction vs with
    | nil => exact ⟨[], rfl⟩
    | cons w ws ih =>
      obtain ⟨i, rfl⟩ := h w List.mem_cons_self
      obtain ⟨l, rfl⟩ := ih (fun w hw => h w (List.mem_cons_of_mem _ hw))
      exact ⟨i :: l, rfl⟩
  · rintro ⟨l, rfl⟩
    refine ⟨_, rfl, fun w hw => ?_⟩
    rw [hs]
    obtain ⟨i, -, rfl⟩ := List.mem_map.1 hw
    exact ⟨i, rfl⟩

theorem sort_list (v : Val) : HasSort (.list [.atom "MLList", .atom "Int"]) v ↔ ∃ l, v = encL l := sort_list_aux sort_int v
theorem sort_list_t1 (v : Val) : HasSort (.list [.atom "MLList", .atom "List_T1"]) v ↔ ∃ l, v = encL l := sort_list_aux sort_t1 v

theorem sort_mat (v : Val) : HasSort (.list [.atom "MLList", .list [.atom "MLList", .atom "Int"]]) v ↔ ∃ m, v = encM m := by
  have h0 : HasSort (.list [.atom "MLList", .list [.atom "MLList", .atom "Int"]]) v ↔
      ∃ vs, v = .list vs ∧ ∀ w ∈ vs, HasSort (.list [.atom "MLList", .atom "Int"]) w := by rw [HasSort]
  rw [h0]
  simp only [sort_list]
  constructor
  · rintro ⟨vs, rfl, h⟩
    suffices ∃ l : List (List Int), vs = l.map encL by obtain ⟨l, rfl⟩ := this; exact ⟨l, rfl⟩
    clear h0
    induction vs with
    | nil => exact ⟨[], rfl⟩
    | cons w ws ih =>
      obtain ⟨i, rfl⟩ := h w List.mem_cons_self
      obtain ⟨l, rfl⟩ := ih (fun w hw => h w (List.mem_cons_of_mem _ hw))
      exact ⟨i :: l, rfl⟩
  · rintro ⟨l, rfl⟩
    refine ⟨_, rfl, fun w hw => ?_⟩
    obtain ⟨i, -, rfl⟩ := List.mem_map.1 hw
    exact ⟨i, rfl⟩

/-! ### Quantification over values of given sorts -/

theorem all_nil {Q : List Val → Prop} : (∀ vs, HasSorts [] vs → Q vs) ↔ Q [] := by
  constructor
  · intro h; exact h [] (by simp [HasSorts])
  · intro h vs hvs
    cases vs with
    | nil => exact h
    | cons v vs => simp [HasSorts] at hvs

theorem all_cons {s : SExpr} {ss : List SExpr} {Q : List Val → Prop} :
    (∀ vs, HasSorts (s :: ss) vs → Q vs) ↔ ∀ v, HasSort s v → ∀ vs, HasSorts ss vs → Q (v :: vs) := by
  constructor
  · intro h v hv vs hvs; exact h _ (by simp [HasSorts, hv, hvs])
  · intro h vs hvs
    cases vs with
    | nil => simp [HasSorts] at hvs
    | cons v vs => simp only [HasSorts] at hvs; exact h v hvs.1 vs hvs.2

theorem all_ex {α : Type} {f : α → Val} {Q : Val → Prop} : (∀ v, (∃ a, v = f a) → Q v) ↔ ∀ a, Q (f a) :=
  ⟨fun h a => h _ ⟨a, rfl⟩, fun h _ ⟨a, ha⟩ => ha ▸ h a⟩

/-! ### Commands -/

variable {M : Model} {σ : String → Option Val}

theorem sat_rec {f : String} {ps : List SExpr} {r body : SExpr} :
    M.Sat1 (.list [.atom "define-fun-rec", .atom f, .list ps, r, body]) ↔ Defines M f ps r body := by simp [Model.Sat1]
theorem sat_fun {f : String} {ps : List SExpr} {r body : SExpr} :
    M.Sat1 (.list [.atom "define-fun", .atom f, .list ps, r, body]) ↔ Defines M f ps r body := by simp [Model.Sat1]
theorem sat_declare {f : String} {ss : List SExpr} {r : SExpr} :
    M.Sat1 (.list [.atom "declare-fun", .atom f, .list ss, r]) ↔ ∀ vs, HasSorts ss vs → HasSort r (M.fn f vs) := by simp [Model.Sat1]
theorem sat_forall {ps : List SExpr} {t : SExpr} : M.Sat1 (.list [.atom "assert", .list [.atom "forall", .list ps, t]]) ↔
    ∃ bs, binders ps = some bs ∧ ∀ vs, HasSorts (bs.map Prod.snd) vs → val M (bind (bs.map Prod.fst) vs) t = .bool true := by
  simp [Model.Sat1]
theorem sat_assert {h : String} {ts : List SExpr} (hh : h ≠ "forall") : M.Sat1 (.list [.atom "assert", .list (.atom h :: ts)]) ↔
    val M noVars (.list (.atom h :: ts)) = .bool true := by
  simp only [Model.Sat1]
  split
  all_goals simp_all

theorem ex_some {α : Type} {a : α} {Q : α → Prop} : (∃ b, some a = some b ∧ Q b) ↔ Q a :=
  ⟨fun ⟨_, h, hq⟩ => by injection h with h; exact h ▸ hq, fun h => ⟨a, rfl, h⟩⟩

theorem binders_nil : binders [] = some [] := rfl
theorem binders_cons {x : String} {s : SExpr} {ps : List SExpr} :
    binders (.list [.atom x, s] :: ps) = (binders ps).map ((x, s) :: ·) := by rw [binders]

/-! ### Terms -/

/-- An atom that is a variable or a constant. -/
def nameAtom (s : String) : Bool := !isNumeric s.toList && s != "true" && s != "false"

theorem val_name {s : String} (hs : nameAtom s = true) : val M σ (.atom s) = match σ s with
    | some v => v
    | none => M.fn s [] := by
  simp only [nameAtom, Bool.and_eq_true, Bool.not_eq_true', bne_iff_ne, ne_eq] at hs
  rw [val]
  rw [if_neg (by simp [hs.1.1]), if_neg hs.1.2, if_neg hs.2]
  cases σ s <;> rfl

theorem val_0 : val M σ (.atom "0") = .int 0 := rfl
theorem val_1 : val M σ (.atom "1") = .int 1 := rfl
theorem val_2 : val M σ (.atom "2") = .int 2 := rfl
theorem val_3 : val M σ (.atom "3") = .int 3 := rfl
theorem val_64 : val M σ (.atom "64") = .int 64 := rfl
theorem val_true : val M σ (.atom "true") = .bool true := rfl
theorem val_false : val M σ (.atom "false") = .bool false := rfl

theorem val_nil_l : val M σ (.list [.atom "as", .atom "nil", .list [.atom "MLList", .atom "Int"]]) = encL [] := by rw [val]; rfl
theorem val_nil_t1 : val M σ (.list [.atom "as", .atom "nil", .list [.atom "MLList", .atom "List_T1"]]) = encL [] := by rw [val]; rfl
theorem val_nil_m : val M σ (.list [.atom "as", .atom "nil", .list [.atom "MLList", .list [.atom "MLList", .atom "Int"]]]) = encM [] := by
  rw [val]; rfl

/-- The functions of the files. -/
def fileFns : List String :=
  ["integer_exp", "integer_sqrt_helper", "integer_sqrt", "list_length", "list_prepend", "list_append", "list_get_helper", "list_get",
   "list_empty", "list_tail", "list_take", "list_concat", "list_contains", "matrix_length", "matrix_prepend", "matrix_append",
   "matrix_get_helper", "matrix_get", "matrix_empty", "matrix_tail", "matrix_take", "vec_slice", "vec_slice_with_length",
   "matrix_row_slice", "matrix_row_slice_with_length", "matrix_col_slice", "matrix_col_slice_with_length", "firsts", "rests",
   "matrix_transpose"]

theorem apply_file {f : String} (hf : f ∈ fileFns) {vs : List Val} : M.apply f vs = M.fn f vs := by
  refine apply_fn M ?_ vs
  revert f
  decide +kernel

theorem apply_add {a b : Int} : M.apply "+" [.int a, .int b] = .int (a + b) := by
  show Val.int (a + (b + 0)) = _
  simp
theorem apply_mul {a b : Int} : M.apply "*" [.int a, .int b] = .int (a * b) := by
  show Val.int (a * (b * 1)) = _
  simp
theorem apply_sub {a b : Int} : M.apply "-" [.int a, .int b] = .int (a - b) := rfl
theorem apply_div {a b : Int} : M.apply "div" [.int a, .int b] = .int (M.div a b) := rfl
theorem apply_mod {a b : Int} : M.apply "mod" [.int a, .int b] = .int (M.mod a b) := rfl
theorem apply_eq {a b : Val} : M.apply "=" [a, b] = .bool (decide (a = b)) := rfl
theorem apply_le {a b : Int} : M.apply "<=" [.int a, .int b] = .bool (decide (a ≤ b)) := rfl
theorem apply_lt {a b : Int} : M.apply "<" [.int a, .int b] = .bool (decide (a < b)) := rfl
theorem apply_ge {a b : Int} : M.apply ">=" [.int a, .int b] = .bool (decide (b ≤ a)) := rfl
theorem apply_gt {a b : Int} : M.apply ">" [.int a, .int b] = .bool (decide (b < a)) := rfl
theorem apply_imp {a b : Bool} : M.apply "=>" [.bool a, .bool b] = .bool (!a || b) := rfl
theorem apply_and {a b : Bool} : M.apply "and" [.bool a, .bool b] = .bool (a && b) := by cases a <;> cases b <;> rfl
theorem apply_or {a b : Bool} : M.apply "or" [.bool a, .bool b] = .bool (a || b) := by cases a <;> cases b <;> rfl
theorem apply_ite {c : Bool} {a b : Val} : M.apply "ite" [.bool c, a, b] = if c then a else b := rfl
theorem apply_cons_l {a : Int} {l : List Int} : M.apply "cons" [.int a, encL l] = encL (a :: l) := rfl
theorem apply_cons_m {a : List Int} {l : List (List Int)} : M.apply "cons" [encL a, encM l] = encM (a :: l) := rfl
theorem apply_head_l {a : Int} {l : List Int} : M.apply "head" [encL (a :: l)] = .int a := rfl
theorem apply_tail_l {a : Int} {l : List Int} : M.apply "tail" [encL (a :: l)] = encL l := rfl
theorem apply_tail_m {a : List Int} {l : List (List Int)} : M.apply "tail" [encM (a :: l)] = encM l := rfl
theorem apply_tail_nil_l : M.apply "tail" [encL []] = M.fn "tail" [.list []] := rfl
theorem apply_tail_nil_m : M.apply "tail" [encM []] = M.fn "tail" [.list []] := rfl

theorem val_n_end : val M σ (.atom "end") = match σ "end" with
    | some v => v
    | none => M.fn "end" [] := val_name (by decide +kernel)
theorem val_n_guess : val M σ (.atom "guess") = match σ "guess" with
    | some v => v
    | none => M.fn "guess" [] := val_name (by decide +kernel)
theorem val_n_h : val M σ (.atom "h") = match σ "h" with
    | some v => v
    | none => M.fn "h" [] := val_name (by decide +kernel)
theorem val_n_i : val M σ (.atom "i") = match σ "i" with
    | some v => v
    | none => M.fn "i" [] := val_name (by decide +kernel)
theorem val_n_l : val M σ (.atom "l") = match σ "l" with
    | some v => v
    | none => M.fn "l" [] := val_name (by decide +kernel)
theorem val_n_lst : val M σ (.atom "lst") = match σ "lst" with
    | some v => v
    | none => M.fn "lst" [] := val_name (by decide +kernel)
theorem val_n_lst_length : val M σ (.atom "lst_length") = match σ "lst_length" with
    | some v => v
    | none => M.fn "lst_length" [] := val_name (by decide +kernel)
theorem val_n_matrix : val M σ (.atom "matrix") = match σ "matrix" with
    | some v => v
    | none => M.fn "matrix" [] := val_name (by decide +kernel)
theorem val_n_n : val M σ (.atom "n") = match σ "n" with
    | some v => v
    | none => M.fn "n" [] := val_name (by decide +kernel)
theorem val_n_out : val M σ (.atom "out") = match σ "out" with
    | some v => v
    | none => M.fn "out" [] := val_name (by decide +kernel)
theorem val_n_start : val M σ (.atom "start") = match σ "start" with
    | some v => v
    | none => M.fn "start" [] := val_name (by decide +kernel)
theorem val_n_t : val M σ (.atom "t") = match σ "t" with
    | some v => v
    | none => M.fn "t" [] := val_name (by decide +kernel)
theorem val_n_val : val M σ (.atom "val") = match σ "val" with
    | some v => v
    | none => M.fn "val" [] := val_name (by decide +kernel)
theorem val_n_xs : val M σ (.atom "xs") = match σ "xs" with
    | some v => v
    | none => M.fn "xs" [] := val_name (by decide +kernel)
theorem val_n_y : val M σ (.atom "y") = match σ "y" with
    | some v => v
    | none => M.fn "y" [] := val_name (by decide +kernel)
theorem val_n_ys : val M σ (.atom "ys") = match σ "ys" with
    | some v => v
    | none => M.fn "ys" [] := val_name (by decide +kernel)
theorem val_n_list_empty : val M σ (.atom "list_empty") = match σ "list_empty" with
    | some v => v
    | none => M.fn "list_empty" [] := val_name (by decide +kernel)
theorem val_n_matrix_empty : val M σ (.atom "matrix_empty") = match σ "matrix_empty" with
    | some v => v
    | none => M.fn "matrix_empty" [] := val_name (by decide +kernel)
theorem apply_n_integer_exp {vs : List Val} : M.apply "integer_exp" vs = M.fn "integer_exp" vs := apply_file (by decide)
theorem apply_n_integer_sqrt_helper {vs : List Val} : M.apply "integer_sqrt_helper" vs = M.fn "integer_sqrt_helper" vs := apply_file (by decide)
theorem apply_n_integer_sqrt {vs : List Val} : M.apply "integer_sqrt" vs = M.fn "integer_sqrt" vs := apply_file (by decide)
theorem apply_n_list_length {vs : List Val} : M.apply "list_length" vs = M.fn "list_length" vs := apply_file (by decide)
theorem apply_n_list_prepend {vs : List Val} : M.apply "list_prepend" vs = M.fn "list_prepend" vs := apply_file (by decide)
theorem apply_n_list_append {vs : List Val} : M.apply "list_append" vs = M.fn "list_append" vs := apply_file (by decide)
theorem apply_n_list_get_helper {vs : List Val} : M.apply "list_get_helper" vs = M.fn "list_get_helper" vs := apply_file (by decide)
theorem apply_n_list_get {vs : List Val} : M.apply "list_get" vs = M.fn "list_get" vs := apply_file (by decide)
theorem apply_n_list_empty {vs : List Val} : M.apply "list_empty" vs = M.fn "list_empty" vs := apply_file (by decide)
theorem apply_n_list_tail {vs : List Val} : M.apply "list_tail" vs = M.fn "list_tail" vs := apply_file (by decide)
theorem apply_n_list_take {vs : List Val} : M.apply "list_take" vs = M.fn "list_take" vs := apply_file (by decide)
theorem apply_n_list_concat {vs : List Val} : M.apply "list_concat" vs = M.fn "list_concat" vs := apply_file (by decide)
theorem apply_n_list_contains {vs : List Val} : M.apply "list_contains" vs = M.fn "list_contains" vs := apply_file (by decide)
theorem apply_n_matrix_length {vs : List Val} : M.apply "matrix_length" vs = M.fn "matrix_length" vs := apply_file (by decide)
theorem apply_n_matrix_prepend {vs : List Val} : M.apply "matrix_prepend" vs = M.fn "matrix_prepend" vs := apply_file (by decide)
theorem apply_n_matrix_append {vs : List Val} : M.apply "matrix_append" vs = M.fn "matrix_append" vs := apply_file (by decide)
theorem apply_n_matrix_get_helper {vs : List Val} : M.apply "matrix_get_helper" vs = M.fn "matrix_get_helper" vs := apply_file (by decide)
theorem apply_n_matrix_get {vs : List Val} : M.apply "matrix_get" vs = M.fn "matrix_get" vs := apply_file (by decide)
theorem apply_n_matrix_empty {vs : List Val} : M.apply "matrix_empty" vs = M.fn "matrix_empty" vs := apply_file (by decide)
theorem apply_n_matrix_tail {vs : List Val} : M.apply "matrix_tail" vs = M.fn "matrix_tail" vs := apply_file (by decide)
theorem apply_n_matrix_take {vs : List Val} : M.apply "matrix_take" vs = M.fn "matrix_take" vs := apply_file (by decide)
theorem apply_n_vec_slice {vs : List Val} : M.apply "vec_slice" vs = M.fn "vec_slice" vs := apply_file (by decide)
theorem apply_n_vec_slice_with_length {vs : List Val} : M.apply "vec_slice_with_length" vs = M.fn "vec_slice_with_length" vs := apply_file (by decide)
theorem apply_n_matrix_row_slice {vs : List Val} : M.apply "matrix_row_slice" vs = M.fn "matrix_row_slice" vs := apply_file (by decide)
theorem apply_n_matrix_row_slice_with_length {vs : List Val} : M.apply "matrix_row_slice_with_length" vs = M.fn "matrix_row_slice_with_length" vs := apply_file (by decide)
theorem apply_n_matrix_col_slice {vs : List Val} : M.apply "matrix_col_slice" vs = M.fn "matrix_col_slice" vs := apply_file (by decide)
theorem apply_n_matrix_col_slice_with_length {vs : List Val} : M.apply "matrix_col_slice_with_length" vs = M.fn "matrix_col_slice_with_length" vs := apply_file (by decide)
theorem apply_n_firsts {vs : List Val} : M.apply "firsts" vs = M.fn "firsts" vs := apply_file (by decide)
theorem apply_n_rests {vs : List Val} : M.apply "rests" vs = M.fn "rests" vs := apply_file (by decide)
theorem apply_n_matrix_transpose {vs : List Val} : M.apply "matrix_transpose" vs = M.fn "matrix_transpose" vs := apply_file (by decide)

/-- Evaluation of the terms in the files. -/
macro "smt_eval" : tactic => `(tactic| simp (disch := simp) only [
  sat_rec, sat_fun, sat_declare, sat_forall, sat_assert, Defines, binders_nil, binders_cons, Option.map_some, ex_some, List.map_cons,
  List.map_nil, all_nil, all_cons, sort_int, sort_t1, sort_bool, sort_list, sort_list_t1, sort_mat, all_ex, val_app_list, vals,
  val_0, val_1, val_2, val_3, val_64, val_true, val_false, val_nil_l, val_nil_t1, val_nil_m, bind, noVars, List.zip_cons_cons,
  List.zip_nil_right, List.lookup, String.reduceBEq, apply_add, apply_mul, apply_sub, apply_div, apply_mod, apply_eq, apply_le,
  apply_lt, apply_ge, apply_gt, apply_imp, apply_and, apply_or, apply_ite, apply_cons_l, apply_cons_m,
  val_n_end, val_n_guess, val_n_h, val_n_i, val_n_l, val_n_lst, val_n_lst_length, val_n_matrix, val_n_n, val_n_out, val_n_start,
  val_n_t, val_n_val, val_n_xs, val_n_y, val_n_ys, val_n_list_empty, val_n_matrix_empty, apply_n_integer_exp,
  apply_n_integer_sqrt_helper, apply_n_integer_sqrt, apply_n_list_length, apply_n_list_prepend, apply_n_list_append,
  apply_n_list_get_helper, apply_n_list_get, apply_n_list_empty, apply_n_list_tail, apply_n_list_take, apply_n_list_concat,
  apply_n_list_contains, apply_n_matrix_length, apply_n_matrix_prepend, apply_n_matrix_append, apply_n_matrix_get_helper,
  apply_n_matrix_get, apply_n_matrix_empty, apply_n_matrix_tail, apply_n_matrix_take, apply_n_vec_slice, apply_n_vec_slice_with_length,
  apply_n_matrix_row_slice, apply_n_matrix_row_slice_with_length, apply_n_matrix_col_slice, apply_n_matrix_col_slice_with_length,
  apply_n_firsts, apply_n_rests, apply_n_matrix_transpose])

/-! ### Structures that interpret the symbols by given functions -/

/-- Interpretation of the integer functions of the files. -/
structure IntFns where
  exp : Int → Int
  sqrtHelper : Int → Int → Int

/-- The definitions of the integer functions (`metalift/utils/integer-fn-axioms.smt` 3-7). -/
structure IntFns.Ok (F : IntFns) : Prop where
  exp_rec : ∀ n, F.exp n = if n ≤ 0 then 1 else F.exp (n - 1) * 3 % 64
  sqrt_rec : ∀ n g, F.sqrtHelper n g = if g = 0 ∨ g = 1 ∨ 64 < g then 1 else if g = n / g then g
    else F.sqrtHelper n ((g + n / g) / 2)

/-- The structure interprets the symbols of the files by the functions of `S` and `F`. -/
structure Rep (M : Model) (S : SmtModel) (F : IntFns) : Prop where
  exp : ∀ n, M.fn "integer_exp" [.int n] = .int (F.exp n)
  sqrtHelper : ∀ n g, M.fn "integer_sqrt_helper" [.int n, .int g] = .int (F.sqrtHelper n g)
  sqrt : ∀ n, M.fn "integer_sqrt" [.int n] = .int (F.sqrtHelper (n / 2) n)
  selNil : M.fn "tail" [.list []] = .list []
  length : ∀ l, M.fn "list_length" [encL l] = .int (S.ints.length l)
  prepend : ∀ v l, M.fn "list_prepend" [.int v, encL l] = encL (v :: l)
  append : ∀ l v, M.fn "list_append" [encL l, .int v] = encL (S.ints.append l v)
  getHelper : ∀ l i, M.fn "list_get_helper" [encL l, .int i] = .int (S.ints.get l i)
  get : ∀ l i, M.fn "list_get" [encL l, .int i] = .int (S.ints.get l i)
  empty : M.fn "list_empty" [] = encL []
  tail : ∀ l i, M.fn "list_tail" [encL l, .int i] = encL (S.ints.tail l i)
  take : ∀ l i, M.fn "list_take" [encL l, .int i] = encL (S.ints.take l i)
  concat : ∀ l k, M.fn "list_concat" [encL l, encL k] = encL (S.concat l k)
  contains : ∀ l v, M.fn "list_contains" [encL l, .int v] = .bool (S.contains l v)
  lengthM : ∀ l, M.fn "matrix_length" [encM l] = .int (S.rows.length l)
  prependM : ∀ v l, M.fn "matrix_prepend" [encL v, encM l] = encM (v :: l)
  appendM : ∀ l v, M.fn "matrix_append" [encM l, encL v] = encM (S.rows.append l v)
  getHelperM : ∀ l i, M.fn "matrix_get_helper" [encM l, .int i] = encL (S.rows.get l i)
  getM : ∀ l i, M.fn "matrix_get" [encM l, .int i] = encL (S.rows.get l i)
  emptyM : M.fn "matrix_empty" [] = encM []
  tailM : ∀ l i, M.fn "matrix_tail" [encM l, .int i] = encM (S.rows.tail l i)
  takeM : ∀ l i, M.fn "matrix_take" [encM l, .int i] = encM (S.rows.take l i)
  slice : ∀ l a b, M.fn "vec_slice" [encL l, .int a, .int b] = encL (S.ints.slice l a b)
  sliceLen : ∀ l a b, M.fn "vec_slice_with_length" [encL l, .int a, .int b] = encL (S.ints.sliceWithLength l a b)
  rowSlice : ∀ l a b, M.fn "matrix_row_slice" [encM l, .int a, .int b] = encM (S.rows.slice l a b)
  rowSliceLen : ∀ l a b, M.fn "matrix_row_slice_with_length" [encM l, .int a, .int b] = encM (S.rows.sliceWithLength l a b)
  colSlice : ∀ l a b, M.fn "matrix_col_slice" [encM l, .int a, .int b] = encM (S.colSlice l a b)
  colSliceLen : ∀ l a b, M.fn "matrix_col_slice_with_length" [encM l, .int a, .int b] = encM (S.colSlice l a (a + b))
  firsts : ∀ l, M.fn "firsts" [encM l] = encL (S.firsts l)
  rests : ∀ l, M.fn "rests" [encM l] = encM (S.rests l)

theorem bool_inj {a b : Bool} : Val.bool a = Val.bool b ↔ a = b := ⟨fun h => by injection h, fun h => h ▸ rfl⟩
theorem int_inj {a b : Int} : Val.int a = Val.int b ↔ a = b := ⟨fun h => by injection h, fun h => h ▸ rfl⟩
theorem ite_encL {c : Prop} [Decidable c] {a b : List Int} : (if c then encL a else encL b) = encL (if c then a else b) := by split <;> rfl
theorem ite_encM {c : Prop} [Decidable c] {a b : List (List Int)} : (if c then encM a else encM b) = encM (if c then a else b) := by
  split <;> rfl
theorem ite_int {c : Prop} [Decidable c] {a b : Int} : (if c then Val.int a else Val.int b) = .int (if c then a else b) := by split <;> rfl
theorem ite_bool {c : Prop} [Decidable c] {a b : Bool} : (if c then Val.bool a else Val.bool b) = .bool (if c then a else b) := by
  split <;> rfl
theorem ite_decide {c p q : Prop} [Decidable c] [Decidable p] [Decidable q] : (if c then decide p else decide q) = true ↔ if c then p else q := by
  split <;> simp
theorem imp_of {p q : Prop} (h : p → q) : ¬ p ∨ q := by
  by_cases hp : p
  · exact .inr (h hp)
  · exact .inl hp
theorem mdiv {a b : Int} (h : b ≠ 0) : M.div a b = a / b := by rw [Model.div, if_neg h]; rfl
theorem mmod {a b : Int} (h : b ≠ 0) : M.mod a b = a % b := by rw [Model.mod, if_neg h]; rfl

variable {S : SmtModel} {F : IntFns}

/-- Evaluation of the functions. -/
macro "rep_eval" h:ident : tactic => `(tactic| simp (disch := decide) only [
  apply_cons_l, apply_cons_m, apply_head_l, apply_tail_l, apply_tail_m, apply_eq, apply_le, apply_lt, apply_ge, apply_gt, apply_imp,
  apply_and, apply_or, apply_ite, apply_add, apply_mul, apply_sub, apply_div, apply_mod, mdiv, mmod,
  ($h).exp, ($h).sqrtHelper, ($h).sqrt, ($h).length, ($h).prepend, ($h).append, ($h).getHelper, ($h).get, ($h).empty, ($h).tail, ($h).take, ($h).concat,
  ($h).contains, ($h).lengthM, ($h).prependM, ($h).appendM, ($h).getHelperM, ($h).getM, ($h).emptyM, ($h).tailM, ($h).takeM, ($h).slice, ($h).sliceLen,
  ($h).rowSlice, ($h).rowSliceLen, ($h).colSlice, ($h).colSliceLen, ($h).firsts, ($h).rests, bool_inj, int_inj, encL_inj, encM_inj,
  decide_eq_true_eq, ite_encL, ite_encM, ite_int, ite_bool, exists_eq', ite_decide, true_and, and_true, implies_true, Bool.or_eq_true,
  Bool.and_eq_true, Bool.not_eq_true', decide_eq_false_iff_not])

/-- All commands but the last one, the definition of `matrix_transpose`. -/
def coreCmds : List SExpr := fileCmds.flatten.dropLast

theorem fileCmds_eq : fileCmds.flatten = coreCmds ++ [c_matrix_transpose] := rfl

theorem sat_c_data1 : M.Sat1 c_data1 := by
  show c_data1 ∈ fixedDecls
  decide +kernel

theorem sat_c_data2 : M.Sat1 c_data2 := by
  show c_data2 ∈ fixedDecls
  decide +kernel

theorem sat_c_data3 : M.Sat1 c_data3 := by
  show c_data3 ∈ fixedDecls
  decide +kernel

theorem sat_c_data4 : M.Sat1 c_data4 := by
  show c_data4 ∈ fixedDecls
  decide +kernel

theorem sat_c_data5 : M.Sat1 c_data5 := by
  show c_data5 ∈ fixedDecls
  decide +kernel

theorem sat_c_integer_exp (hR : Rep M S F) (hF : F.Ok) : M.Sat1 c_integer_exp := by
  unfold c_integer_exp
  smt_eval
  rep_eval hR
  exact fun n => (hF.exp_rec n).symm

theorem sat_c_integer_sqrt_helper (hR : Rep M S F) (hF : F.Ok) : M.Sat1 c_integer_sqrt_helper := by
  unfold c_integer_sqrt_helper
  smt_eval
  rep_eval hR
  intro n g
  rw [hF.sqrt_rec n g]
  by_cases hg : g = 0
  · simp [hg]
  · simp only [mdiv hg, or_assoc]

theorem sat_c_integer_sqrt (hR : Rep M S F) : M.Sat1 c_integer_sqrt := by
  unfold c_integer_sqrt
  smt_eval
  rep_eval hR

theorem sat_c_data6 : M.Sat1 c_data6 := by
  show c_data6 ∈ fixedDecls
  decide +kernel

theorem sat_c_List_T1 : M.Sat1 c_List_T1 := by
  show c_List_T1 ∈ fixedDecls
  decide +kernel

theorem sat_c_list_length (hR : Rep M S F) : M.Sat1 c_list_length := by
  unfold c_list_length
  smt_eval
  rep_eval hR

theorem sat_c_ax_list_length1 (hR : Rep M S F) (hS : S.Core) : M.Sat1 c_ax_list_length1 := by
  unfold c_ax_list_length1
  smt_eval
  rep_eval hR
  exact hS.ints.length_nil

theorem sat_c_ax_list_length2 (hR : Rep M S F) (hS : S.Core) : M.Sat1 c_ax_list_length2 := by
  unfold c_ax_list_length2
  smt_eval
  rep_eval hR
  exact hS.ints.length_cons

theorem sat_c_ax_list_length3 (hR : Rep M S F) (hS : S.Core) : M.Sat1 c_ax_list_length3 := by
  unfold c_ax_list_length3
  smt_eval
  rep_eval hR
  exact hS.ints.length_nonneg

theorem sat_c_list_prepend (hR : Rep M S F) : M.Sat1 c_list_prepend := by
  unfold c_list_prepend
  smt_eval
  rep_eval hR

theorem sat_c_list_append (hR : Rep M S F) : M.Sat1 c_list_append := by
  unfold c_list_append
  smt_eval
  rep_eval hR

theorem sat_c_ax_list_append1 (hR : Rep M S F) (hS : S.Core) : M.Sat1 c_ax_list_append1 := by
  unfold c_ax_list_append1
  smt_eval
  rep_eval hR
  exact hS.ints.append_nil

theorem sat_c_ax_list_append2 (hR : Rep M S F) (hS : S.Core) : M.Sat1 c_ax_list_append2 := by
  unfold c_ax_list_append2
  smt_eval
  rep_eval hR
  exact hS.ints.append_cons

theorem sat_c_list_get_helper (hR : Rep M S F) : M.Sat1 c_list_get_helper := by
  unfold c_list_get_helper
  smt_eval
  rep_eval hR

theorem sat_c_list_get (hR : Rep M S F) : M.Sat1 c_list_get := by
  unfold c_list_get
  smt_eval
  rep_eval hR

theorem sat_c_ax_list_get1 (hR : Rep M S F) (hS : S.Core) : M.Sat1 c_ax_list_get1 := by
  unfold c_ax_list_get1
  smt_eval
  rep_eval hR
  exact hS.ints.get_cons

theorem sat_c_list_empty (hR : Rep M S F) : M.Sat1 c_list_empty := by
  unfold c_list_empty
  smt_eval
  rep_eval hR

theorem sat_c_list_tail (hR : Rep M S F) (hS : S.Core) : M.Sat1 c_list_tail := by
  unfold c_list_tail
  smt_eval
  rep_eval hR
  intro l n
  cases l with
  | nil =>
    have h : M.fn "list_tail" [.list [], .int (n - 1)] = encL [] := by
      have := hR.tail [] (n - 1)
      rw [hS.ints.tail_nil] at this
      exact this
    rw [apply_tail_nil_l, hR.selNil, h, hS.ints.tail_nil]
    simp
  | cons a l =>
    have h := hS.ints.tail_cons n a l
    rw [apply_tail_l, hR.tail]
    split <;> rename_i hn <;> simp only [hn, if_true, if_false] at h <;> rw [h]

theorem sat_c_ax_list_tail1 (hR : Rep M S F) (hS : S.Core) : M.Sat1 c_ax_list_tail1 := by
  unfold c_ax_list_tail1
  smt_eval
  rep_eval hR
  exact hS.ints.tail_cons

theorem sat_c_ax_list_tail2 (hR : Rep M S F) (hS : S.Core) : M.Sat1 c_ax_list_tail2 := by
  unfold c_ax_list_tail2
  smt_eval
  rep_eval hR
  exact hS.ints.tail_nil

theorem sat_c_ax_list_tail3 (hR : Rep M S F) (hS : S.Core) : M.Sat1 c_ax_list_tail3 := by
  unfold c_ax_list_tail3
  smt_eval
  rep_eval hR
  exact fun n l => imp_of (hS.ints.tail_all n l)

theorem sat_c_list_take (hR : Rep M S F) : M.Sat1 c_list_take := by
  unfold c_list_take
  smt_eval
  rep_eval hR

theorem sat_c_ax_list_take1 (hR : Rep M S F) (hS : S.Core) : M.Sat1 c_ax_list_take1 := by
  unfold c_ax_list_take1
  smt_eval
  rep_eval hR
  exact hS.ints.take_cons

theorem sat_c_ax_list_take2 (hR : Rep M S F) (hS : S.Core) : M.Sat1 c_ax_list_take2 := by
  unfold c_ax_list_take2
  smt_eval
  rep_eval hR
  exact hS.ints.take_nil

theorem sat_c_ax_list_take3 (hR : Rep M S F) (hS : S.Core) : M.Sat1 c_ax_list_take3 := by
  unfold c_ax_list_take3
  smt_eval
  rep_eval hR
  exact fun n l => imp_of (hS.ints.take_all n l)

theorem sat_c_ax_list_take4 (hR : Rep M S F) (hS : S.Core) : M.Sat1 c_ax_list_take4 := by
  unfold c_ax_list_take4
  smt_eval
  rep_eval hR
  exact hS.ints.take_zero

theorem sat_c_list_concat (hR : Rep M S F) (hS : S.Core) : M.Sat1 c_list_concat := by
  unfold c_list_concat
  smt_eval
  rep_eval hR
  intro xs ys
  rw [hS.concat_rec]
  cases xs with
  | nil => simp
  | cons x xs =>
    rw [apply_head_l, apply_tail_l, hR.concat, apply_cons_l]
    simp [SmtSeq.hd, SmtSeq.tl]

theorem sat_c_list_contains (hR : Rep M S F) (hS : S.Core) : M.Sat1 c_list_contains := by
  unfold c_list_contains
  smt_eval
  rep_eval hR
  intro l v
  have e := hS.contains_rec l v
  cases l with
  | nil =>
    rw [if_pos hS.ints.length_nil] at e
    rw [if_pos hS.ints.length_nil, e]
  | cons x xs =>
    rw [apply_head_l, apply_tail_l, hR.contains]
    by_cases h1 : S.ints.length (x :: xs) = 0
    · rw [if_pos h1] at e
      rw [if_pos h1, e]
    · rw [if_neg h1] at e
      rw [if_neg h1]
      by_cases h2 : x = v
      · rw [if_pos (show S.ints.hd (x :: xs) = v from h2)] at e
        rw [e, if_pos (congrArg Val.int h2)]
      · rw [if_neg (show ¬ S.ints.hd (x :: xs) = v from h2)] at e
        rw [e, if_neg (fun h => h2 (int_inj.1 h))]
        rfl

theorem sat_c_ax_list_contains1 (hR : Rep M S F) (hS : S.Core) : M.Sat1 c_ax_list_contains1 := by
  unfold c_ax_list_contains1
  smt_eval
  rep_eval hR
  exact hS.concat_nil

theorem sat_c_ax_list_contains2 (hR : Rep M S F) (hS : S.Core) : M.Sat1 c_ax_list_contains2 := by
  unfold c_ax_list_contains2
  smt_eval
  rep_eval hR
  intro l i _
  rw [← Bool.not_eq_true, Bool.and_eq_true, decide_eq_true_eq, decide_eq_true_eq]
  exact imp_of (hS.tail_get l i)

theorem sat_c_ax_list_contains3 (hR : Rep M S F) (hS : S.Core) : M.Sat1 c_ax_list_contains3 := by
  unfold c_ax_list_contains3
  smt_eval
  rep_eval hR
  exact hS.concat_cons

theorem sat_c_matrix_length (hR : Rep M S F) : M.Sat1 c_matrix_length := by
  unfold c_matrix_length
  smt_eval
  rep_eval hR

theorem sat_c_ax_matrix_length1 (hR : Rep M S F) (hS : S.Core) : M.Sat1 c_ax_matrix_length1 := by
  unfold c_ax_matrix_length1
  smt_eval
  rep_eval hR
  exact hS.rows.length_nil

theorem sat_c_ax_matrix_length2 (hR : Rep M S F) (hS : S.Core) : M.Sat1 c_ax_matrix_length2 := by
  unfold c_ax_matrix_length2
  smt_eval
  rep_eval hR
  exact hS.rows.length_cons

theorem sat_c_ax_matrix_length3 (hR : Rep M S F) (hS : S.Core) : M.Sat1 c_ax_matrix_length3 := by
  unfold c_ax_matrix_length3
  smt_eval
  rep_eval hR
  exact hS.rows.length_nonneg

theorem sat_c_matrix_prepend (hR : Rep M S F) : M.Sat1 c_matrix_prepend := by
  unfold c_matrix_prepend
  smt_eval
  rep_eval hR

theorem sat_c_matrix_append (hR : Rep M S F) : M.Sat1 c_matrix_append := by
  unfold c_matrix_append
  smt_eval
  rep_eval hR

theorem sat_c_ax_matrix_append1 (hR : Rep M S F) (hS : S.Core) : M.Sat1 c_ax_matrix_append1 := by
  unfold c_ax_matrix_append1
  smt_eval
  rep_eval hR
  exact hS.rows.append_nil

theorem sat_c_ax_matrix_append2 (hR : Rep M S F) (hS : S.Core) : M.Sat1 c_ax_matrix_append2 := by
  unfold c_ax_matrix_append2
  smt_eval
  rep_eval hR
  exact hS.rows.append_cons

theorem sat_c_matrix_get_helper (hR : Rep M S F) : M.Sat1 c_matrix_get_helper := by
  unfold c_matrix_get_helper
  smt_eval
  rep_eval hR

theorem sat_c_matrix_get (hR : Rep M S F) : M.Sat1 c_matrix_get := by
  unfold c_matrix_get
  smt_eval
  rep_eval hR

theorem sat_c_ax_matrix_get1 (hR : Rep M S F) (hS : S.Core) : M.Sat1 c_ax_matrix_get1 := by
  unfold c_ax_matrix_get1
  smt_eval
  rep_eval hR
  exact hS.rows.get_cons

theorem sat_c_matrix_empty (hR : Rep M S F) : M.Sat1 c_matrix_empty := by
  unfold c_matrix_empty
  smt_eval
  rep_eval hR

theorem sat_c_matrix_tail (hR : Rep M S F) (hS : S.Core) : M.Sat1 c_matrix_tail := by
  unfold c_matrix_tail
  smt_eval
  rep_eval hR
  intro l n
  cases l with
  | nil =>
    have h : M.fn "matrix_tail" [.list [], .int (n - 1)] = encM [] := by
      have := hR.tailM [] (n - 1)
      rw [hS.rows.tail_nil] at this
      exact this
    rw [apply_tail_nil_m, hR.selNil, h, hS.rows.tail_nil]
    simp
  | cons a l =>
    have h := hS.rows.tail_cons n a l
    rw [apply_tail_m, hR.tailM]
    split <;> rename_i hn <;> simp only [hn, if_true, if_false] at h <;> rw [h]

theorem sat_c_ax_matrix_tail1 (hR : Rep M S F) (hS : S.Core) : M.Sat1 c_ax_matrix_tail1 := by
  unfold c_ax_matrix_tail1
  smt_eval
  rep_eval hR
  exact hS.rows.tail_cons

theorem sat_c_ax_matrix_tail2 (hR : Rep M S F) (hS : S.Core) : M.Sat1 c_ax_matrix_tail2 := by
  unfold c_ax_matrix_tail2
  smt_eval
  rep_eval hR
  exact hS.rows.tail_nil

theorem sat_c_ax_matrix_tail3 (hR : Rep M S F) (hS : S.Core) : M.Sat1 c_ax_matrix_tail3 := by
  unfold c_ax_matrix_tail3
  smt_eval
  rep_eval hR
  exact fun n l => imp_of (hS.rows.tail_all n l)

theorem sat_c_matrix_take (hR : Rep M S F) : M.Sat1 c_matrix_take := by
  unfold c_matrix_take
  smt_eval
  rep_eval hR

theorem sat_c_ax_matrix_take1 (hR : Rep M S F) (hS : S.Core) : M.Sat1 c_ax_matrix_take1 := by
  unfold c_ax_matrix_take1
  smt_eval
  rep_eval hR
  exact hS.rows.take_cons

theorem sat_c_ax_matrix_take2 (hR : Rep M S F) (hS : S.Core) : M.Sat1 c_ax_matrix_take2 := by
  unfold c_ax_matrix_take2
  smt_eval
  rep_eval hR
  exact hS.rows.take_nil

theorem sat_c_ax_matrix_take3 (hR : Rep M S F) (hS : S.Core) : M.Sat1 c_ax_matrix_take3 := by
  unfold c_ax_matrix_take3
  smt_eval
  rep_eval hR
  exact fun n l => imp_of (hS.rows.take_all n l)

theorem sat_c_ax_matrix_take4 (hR : Rep M S F) (hS : S.Core) : M.Sat1 c_ax_matrix_take4 := by
  unfold c_ax_matrix_take4
  smt_eval
  rep_eval hR
  exact hS.rows.take_zero

theorem sat_c_vec_slice (hR : Rep M S F) : M.Sat1 c_vec_slice := by
  unfold c_vec_slice
  smt_eval
  rep_eval hR
  exact fun _ _ _ => rfl

theorem sat_c_vec_slice_with_length (hR : Rep M S F) : M.Sat1 c_vec_slice_with_length := by
  unfold c_vec_slice_with_length
  smt_eval
  rep_eval hR
  exact fun _ _ _ => rfl

theorem sat_c_matrix_row_slice (hR : Rep M S F) : M.Sat1 c_matrix_row_slice := by
  unfold c_matrix_row_slice
  smt_eval
  rep_eval hR
  exact fun _ _ _ => rfl

theorem sat_c_matrix_row_slice_with_length (hR : Rep M S F) : M.Sat1 c_matrix_row_slice_with_length := by
  unfold c_matrix_row_slice_with_length
  smt_eval
  rep_eval hR
  exact fun _ _ _ => rfl

theorem sat_c_matrix_col_slice (hR : Rep M S F) (hS : S.Core) : M.Sat1 c_matrix_col_slice := by
  unfold c_matrix_col_slice
  smt_eval
  rep_eval hR
  exact fun m s e => (hS.colSlice_rec m s e).symm

theorem sat_c_matrix_col_slice_with_length (hR : Rep M S F) : M.Sat1 c_matrix_col_slice_with_length := by
  unfold c_matrix_col_slice_with_length
  smt_eval
  rep_eval hR

theorem sat_c_firsts (hR : Rep M S F) (hS : S.Core) : M.Sat1 c_firsts := by
  unfold c_firsts
  smt_eval
  rep_eval hR
  exact fun m => (hS.firsts_rec m).symm

theorem sat_c_rests (hR : Rep M S F) (hS : S.Core) : M.Sat1 c_rests := by
  unfold c_rests
  smt_eval
  rep_eval hR
  exact fun m => (hS.rests_rec m).symm

/-- The structure satisfies all commands but the definition of `matrix_transpose`. -/
theorem core_sat (hR : Rep M S F) (hS : S.Core) (hF : F.Ok) : M.Sat coreCmds := by
  intro c hc
  simp only [coreCmds, fileCmds, List.flatten_cons, List.flatten_nil, List.cons_append, List.nil_append, List.append_nil,
    List.dropLast, List.mem_cons, List.not_mem_nil, or_false] at hc
  rcases hc with rfl | rfl | rfl | rfl | rfl | rfl | rfl | rfl | rfl | rfl | rfl | rfl | rfl | rfl | rfl | rfl | rfl | rfl | rfl | rfl |
    rfl | rfl | rfl | rfl | rfl | rfl | rfl | rfl | rfl | rfl | rfl | rfl | rfl | rfl | rfl | rfl | rfl | rfl | rfl | rfl |
    rfl | rfl | rfl | rfl | rfl | rfl | rfl | rfl | rfl | rfl | rfl | rfl | rfl | rfl | rfl | rfl | rfl | rfl | rfl | rfl |
    rfl | rfl | rfl | rfl | rfl
  · exact sat_c_data1
  · exact sat_c_data2
  · exact sat_c_data3
  · exact sat_c_data4
  · exact sat_c_data5
  · exact sat_c_integer_exp hR hF
  · exact sat_c_integer_sqrt_helper hR hF
  · exact sat_c_integer_sqrt hR
  · exact sat_c_data6
  · exact sat_c_List_T1
  · exact sat_c_list_length hR
  · exact sat_c_ax_list_length1 hR hS
  · exact sat_c_ax_list_length2 hR hS
  · exact sat_c_ax_list_length3 hR hS
  · exact sat_c_list_prepend hR
  · exact sat_c_list_append hR
  · exact sat_c_ax_list_append1 hR hS
  · exact sat_c_ax_list_append2 hR hS
  · exact sat_c_list_get_helper hR
  · exact sat_c_list_get hR
  · exact sat_c_ax_list_get1 hR hS
  · exact sat_c_list_empty hR
  · exact sat_c_list_tail hR hS
  · exact sat_c_ax_list_tail1 hR hS
  · exact sat_c_ax_list_tail2 hR hS
  · exact sat_c_ax_list_tail3 hR hS
  · exact sat_c_list_take hR
  · exact sat_c_ax_list_take1 hR hS
  · exact sat_c_ax_list_take2 hR hS
  · exact sat_c_ax_list_take3 hR hS
  · exact sat_c_ax_list_take4 hR hS
  · exact sat_c_list_concat hR hS
  · exact sat_c_list_contains hR hS
  · exact sat_c_ax_list_contains1 hR hS
  · exact sat_c_ax_list_contains2 hR hS
  · exact sat_c_ax_list_contains3 hR hS
  · exact sat_c_matrix_length hR
  · exact sat_c_ax_matrix_length1 hR hS
  · exact sat_c_ax_matrix_length2 hR hS
  · exact sat_c_ax_matrix_length3 hR hS
  · exact sat_c_matrix_prepend hR
  · exact sat_c_matrix_append hR
  · exact sat_c_ax_matrix_append1 hR hS
  · exact sat_c_ax_matrix_append2 hR hS
  · exact sat_c_matrix_get_helper hR
  · exact sat_c_matrix_get hR
  · exact sat_c_ax_matrix_get1 hR hS
  · exact sat_c_matrix_empty hR
  · exact sat_c_matrix_tail hR hS
  · exact sat_c_ax_matrix_tail1 hR hS
  · exact sat_c_ax_matrix_tail2 hR hS
  · exact sat_c_ax_matrix_tail3 hR hS
  · exact sat_c_matrix_take hR
  · exact sat_c_ax_matrix_take1 hR hS
  · exact sat_c_ax_matrix_take2 hR hS
  · exact sat_c_ax_matrix_take3 hR hS
  · exact sat_c_ax_matrix_take4 hR hS
  · exact sat_c_vec_slice hR
  · exact sat_c_vec_slice_with_length hR
  · exact sat_c_matrix_row_slice hR
  · exact sat_c_matrix_row_slice_with_length hR
  · exact sat_c_matrix_col_slice hR hS
  · exact sat_c_matrix_col_slice_with_length hR
  · exact sat_c_firsts hR hS
  · exact sat_c_rests hR hS

/-! ### A structure with the functions of `S` and `F` -/

/-- The integers of a list. -/
def decL : Val → List Int
  | .list vs => vs.map Val.asInt
  | _ => []
/-- The rows of a list. -/
def decM : Val → List (List Int)
  | .list vs => vs.map decL
  | _ => []

theorem decL_encL (l : List Int) : decL (encL l) = l := by
  simp only [encL, decL, List.map_map]
  conv => rhs; rw [← List.map_id l]
  rfl

theorem decM_encM (m : List (List Int)) : decM (encM m) = m := by
  simp only [encM, decM, List.map_map]
  conv => rhs; rw [← List.map_id m]
  refine List.map_congr_left (fun l _ => decL_encL l)

/-- The functions of the files, by name. -/
def fileTable (S : SmtModel) (F : IntFns) : List (String × (List Val → Val)) := [
  ("integer_exp", fun vs => match vs with
    | [.int n] => .int (F.exp n)
    | _ => .int 0),
  ("integer_sqrt_helper", fun vs => match vs with
    | [.int n, .int g] => .int (F.sqrtHelper n g)
    | _ => .int 0),
  ("integer_sqrt", fun vs => match vs with
    | [.int n] => .int (F.sqrtHelper (n / 2) n)
    | _ => .int 0),
  ("tail", fun vs => match vs with
    | _ => .list []),
  ("list_length", fun vs => match vs with
    | [l] => .int (S.ints.length (decL l))
    | _ => .int 0),
  ("list_prepend", fun vs => match vs with
    | [.int v, l] => encL (v :: decL l)
    | _ => .int 0),
  ("list_append", fun vs => match vs with
    | [l, .int v] => encL (S.ints.append (decL l) v)
    | _ => .int 0),
  ("list_get_helper", fun vs => match vs with
    | [l, .int i] => .int (S.ints.get (decL l) i)
    | _ => .int 0),
  ("list_get", fun vs => match vs with
    | [l, .int i] => .int (S.ints.get (decL l) i)
    | _ => .int 0),
  ("list_empty", fun vs => match vs with
    | [] => encL []
    | _ => .int 0),
  ("list_tail", fun vs => match vs with
    | [l, .int i] => encL (S.ints.tail (decL l) i)
    | _ => .int 0),
  ("list_take", fun vs => match vs with
    | [l, .int i] => encL (S.ints.take (decL l) i)
    | _ => .int 0),
  ("list_concat", fun vs => match vs with
    | [l, k] => encL (S.concat (decL l) (decL k))
    | _ => .int 0),
  ("list_contains", fun vs => match vs with
    | [l, .int v] => .bool (S.contains (decL l) v)
    | _ => .int 0),
  ("matrix_length", fun vs => match vs with
    | [l] => .int (S.rows.length (decM l))
    | _ => .int 0),
  ("matrix_prepend", fun vs => match vs with
    | [v, l] => encM (decL v :: decM l)
    | _ => .int 0),
  ("matrix_append", fun vs => match vs with
    | [l, v] => encM (S.rows.append (decM l) (decL v))
    | _ => .int 0),
  ("matrix_get_helper", fun vs => match vs with
    | [l, .int i] => encL (S.rows.get (decM l) i)
    | _ => .int 0),
  ("matrix_get", fun vs => match vs with
    | [l, .int i] => encL (S.rows.get (decM l) i)
    | _ => .int 0),
  ("matrix_empty", fun vs => match vs with
    | [] => encM []
    | _ => .int 0),
  ("matrix_tail", fun vs => match vs with
    | [l, .int i] => encM (S.rows.tail (decM l) i)
    | _ => .int 0),
  ("matrix_take", fun vs => match vs with
    | [l, .int i] => encM (S.rows.take (decM l) i)
    | _ => .int 0),
  ("vec_slice", fun vs => match vs with
    | [l, .int a, .int b] => encL (S.ints.slice (decL l) a b)
    | _ => .int 0),
  ("vec_slice_with_length", fun vs => match vs with
    | [l, .int a, .int b] => encL (S.ints.sliceWithLength (decL l) a b)
    | _ => .int 0),
  ("matrix_row_slice", fun vs => match vs with
    | [l, .int a, .int b] => encM (S.rows.slice (decM l) a b)
    | _ => .int 0),
  ("matrix_row_slice_with_length", fun vs => match vs with
    | [l, .int a, .int b] => encM (S.rows.sliceWithLength (decM l) a b)
    | _ => .int 0),
  ("matrix_col_slice", fun vs => match vs with
    | [l, .int a, .int b] => encM (S.colSlice (decM l) a b)
    | _ => .int 0),
  ("matrix_col_slice_with_length", fun vs => match vs with
    | [l, .int a, .int b] => encM (S.colSlice (decM l) a (a + b))
    | _ => .int 0),
  ("firsts", fun vs => match vs with
    | [l] => encL (S.firsts (decM l))
    | _ => .int 0),
  ("rests", fun vs => match vs with
    | [l] => encM (S.rests (decM l))
    | _ => .int 0)]

/-- The functions of the files, by name. -/
def fileFn (S : SmtModel) (F : IntFns) (f : String) (vs : List Val) : Val :=
  match (fileTable S F).lookup f with
  | some g => g vs
  | none => .int 0

theorem rep_of_fn {M : Model} (S : SmtModel) (F : IntFns) (h : ∀ f ∈ "tail" :: fileFns, ∀ vs, M.fn f vs = fileFn S F f vs) : Rep M S F := by
  constructor <;> intros <;> rw [h _ (by decide)] <;>
    simp only [fileFn, fileTable, List.lookup, String.reduceBEq, decL_encL, decM_encM]

/-- The usual integer functions; where the iteration of the square root does not end the value is 0. -/
def expNat : Nat → Int
  | 0 => 1
  | n + 1 => expNat n * 3 % 64

open Classical in
/-- The usual integer functions; where the iteration of the square root does not end the value is 0. -/
noncomputable def stdInts : IntFns where
  exp n := expNat n.toNat
  sqrtHelper n g := if h : ∃ r, Ten.Stops (· / ·) n g r then h.choose else 0

theorem stdInts_ok : stdInts.Ok where
  exp_rec n := by
    show expNat n.toNat = if n ≤ 0 then 1 else expNat (n - 1).toNat * 3 % 64
    split
    · next h => rw [show n.toNat = 0 by omega]; rfl
    · next h => rw [show n.toNat = (n - 1).toNat + 1 by omega]; rfl
  sqrt_rec n g := by
    have key : ∀ g r, Ten.Stops (· / ·) n g r → stdInts.sqrtHelper n g = r := by
      intro g r h
      have hex : ∃ r, Ten.Stops (· / ·) n g r := ⟨r, h⟩
      simp only [stdInts]
      rw [dif_pos hex]
      exact hex.choose_spec.unique h
    split
    · rename_i h; exact key _ _ (.one h)
    · rename_i h
      split
      · rename_i h2; exact key _ _ (.found h h2)
      · rename_i h2
        by_cases hs : ∃ r, Ten.Stops (· / ·) n ((g + n / g) / 2) r
        · obtain ⟨r, hr⟩ := hs
          rw [key _ _ hr, key _ _ (.step h h2 hr)]
        · simp only [stdInts]
          rw [dif_neg hs, dif_neg]
          rintro ⟨r, hr⟩
          cases hr with
          | one h' => exact h h'
          | found _ h' => exact h2 h'
          | step _ _ h' => exact hs ⟨r, h'⟩

/-- **C27 (about the text of the files).**  All definitions but that of `matrix_transpose` are satisfied by the usual functions. -/
theorem C27_files_satisfiable_partial :
    ∃ cs, readFile filesText = some (cs ++ [c_matrix_transpose]) ∧ ∃ M : Model, M.Sat cs := by
  refine ⟨coreCmds, by rw [files_read, fileCmds_eq], ⟨fileFn (stdModel 0) stdInts, fun _ => 0, fun _ => 0⟩, ?_⟩
  exact core_sat (rep_of_fn _ _ (fun f _ vs => rfl)) (stdModel_core 0) stdInts_ok

/-! ### No structure satisfies the whole text -/

/-- C27 is false of the text of the files: no structure satisfies it.  (`matrix_transpose` of a matrix with one empty row would be a
row longer than itself.) -/
theorem C27_files_unsatisfiable_refuted (cs : List SExpr) (hcs : readFile filesText = some cs) (M : Model) : ¬ M.Sat cs := by
  rw [files_read, Option.some.injEq] at hcs
  subst hcs
  intro hM
  have h0 : ∀ c, c ∈ fileCmds.flatten → M.Sat1 c := hM
  have hlenM1 := h0 c_ax_matrix_length1 (by simp [fileCmds])
  have hlenM2 := h0 c_ax_matrix_length2 (by simp [fileCmds])
  have hlen := h0 c_ax_list_length1 (by simp [fileCmds])
  have hgetH := h0 c_ax_matrix_get1 (by simp [fileCmds])
  have hget := h0 c_matrix_get (by simp [fileCmds])
  have htake := h0 c_ax_list_take2 (by simp [fileCmds])
  have htail := h0 c_ax_list_tail2 (by simp [fileCmds])
  have htailM := h0 c_ax_matrix_tail1 (by simp [fileCmds])
  have htailM2 := h0 c_ax_matrix_tail2 (by simp [fileCmds])
  have hempty := h0 c_matrix_empty (by simp [fileCmds])
  have hpre := h0 c_matrix_prepend (by simp [fileCmds])
  have hslice := h0 c_vec_slice (by simp [fileCmds])
  have hcol := h0 c_matrix_col_slice (by simp [fileCmds])
  have hfirsts := h0 c_firsts (by simp [fileCmds])
  have hrests := h0 c_rests (by simp [fileCmds])
  have htr := h0 c_matrix_transpose (by simp [fileCmds])
  clear h0 hM
  unfold c_ax_matrix_length1 at hlenM1
  unfold c_ax_matrix_length2 at hlenM2
  unfold c_ax_list_length1 at hlen
  unfold c_ax_matrix_get1 at hgetH
  unfold c_matrix_get at hget
  unfold c_ax_list_take2 at htake
  unfold c_ax_list_tail2 at htail
  unfold c_ax_matrix_tail1 at htailM
  unfold c_ax_matrix_tail2 at htailM2
  unfold c_matrix_empty at hempty
  unfold c_matrix_prepend at hpre
  unfold c_vec_slice at hslice
  unfold c_matrix_col_slice at hcol
  unfold c_firsts at hfirsts
  unfold c_rests at hrests
  unfold c_matrix_transpose at htr
  revert hlenM1 hlenM2 hlen hgetH hget htake htail htailM htailM2 hempty hpre hslice hcol hfirsts hrests htr
  smt_eval
  intro hlenM1 hlenM2 hlen hgetH hget htake htail htailM htailM2 hempty hpre hslice hcol hfirsts hrests htr
  simp only [bool_inj, decide_eq_true_eq] at hlenM1 hlenM2 hlen htake htail htailM2
  have e1 : M.fn "matrix_length" [encM [[]]] = .int 1 := by rw [of_decide_eq_true (hlenM2 [] []), hlenM1, apply_add]; rfl
  have e2 : M.fn "matrix_get" [encM [[]], .int 0] = encL [] := by
    rw [← (hget _ _).2]
    have := hgetH [] [] 0
    simp only [show ((0 : Int) ≤ 0) by decide, decide_true, if_true, bool_inj] at this
    exact of_decide_eq_true this
  have e3 : ∀ a b, M.fn "vec_slice" [encL [], .int a, .int b] = encL [] := by
    intro a b
    rw [← (hslice _ _ _).2, htake, htail]
  have e4 : M.fn "matrix_tail" [encM [[]], .int 1] = encM [] := by
    have := htailM 1 [] []
    simp only [bool_inj, show ¬ ((1 : Int) ≤ 0) by decide, decide_false, if_false, Bool.false_eq_true, htailM2] at this
    exact of_decide_eq_true this
  have e5 : ∀ a b, M.fn "matrix_col_slice" [encM [], .int a, .int b] = encM [] := by
    intro a b
    rw [← (hcol _ _ _).2, hlenM1, apply_lt]
    simp [apply_ite, ← hempty.2]
  have e6 : ∀ a b, M.fn "matrix_col_slice" [encM [[]], .int a, .int b] = encM [[]] := by
    intro a b
    rw [← (hcol _ _ _).2, e1, apply_lt, e2, e3, e4, e5]
    rw [← (hpre _ _).2]
    simp [apply_ite]
  have e7 : M.fn "rests" [encM [[]]] = encM [[]] := by
    rw [← (hrests _).2, e1, apply_lt, e2, hlen, e6]
    simp [apply_ite]
  obtain ⟨t, ht⟩ := (htr [[]]).1
  obtain ⟨r, hr⟩ := (hfirsts [[]]).1
  have h := (htr [[]]).2
  rw [e1, apply_lt, e7, ht, hr, ← (hpre _ _).2] at h
  simp only [show ¬ ((1 : Int) < 1) by decide, decide_false, apply_ite, Bool.false_eq_true, if_false, encM_inj] at h
  have := congrArg List.length h
  simp at this

/-- So the answer `unsat` of a solver says nothing about the query: with the files of definitions in front, no query is satisfiable,
whatever its verification condition. -/
theorem C27_every_query_unsat_refuted (fs cs : List SExpr) (hfs : readFile filesText = some fs) (M : Model) : ¬ M.Sat (fs ++ cs) :=
  fun h => C27_files_unsatisfiable_refuted fs hfs M (fun c hc => h c (List.mem_append_left _ hc))

/-! ### The symbols that the files declare -/

/-- Symbols with their numbers of arguments. -/
def table (t : List (String × Nat)) : String → Option Nat := fun g => t.lookup g

theorem declare_table (t : List (String × Nat)) (f : String) (n : Nat) : declare (table t) f n = table ((f, n) :: t) := by
  funext g
  by_cases h : g = f
  · subst h; simp [declare, table]
  · simp only [declare, table, if_neg h, List.lookup]
    split
    · next hh => exact absurd (by simpa using hh) h
    · rfl

/-- The functions of the files with their numbers of arguments. -/
def fileArities : List (String × Nat) :=
  [("matrix_transpose", 1), ("rests", 1), ("firsts", 1), ("matrix_col_slice_with_length", 3), ("matrix_col_slice", 3),
   ("matrix_row_slice_with_length", 3), ("matrix_row_slice", 3), ("vec_slice_with_length", 3), ("vec_slice", 3), ("matrix_take", 2),
   ("matrix_tail", 2), ("matrix_empty", 0), ("matrix_get", 2), ("matrix_get_helper", 2), ("matrix_append", 2), ("matrix_prepend", 2),
   ("matrix_length", 1), ("list_contains", 2), ("list_concat", 2), ("list_take", 2), ("list_tail", 2), ("list_empty", 0),
   ("list_get", 2), ("list_get_helper", 2), ("list_append", 2), ("list_prepend", 2), ("list_length", 1), ("integer_sqrt", 1),
   ("integer_sqrt_helper", 2), ("integer_exp", 1)]

/-- The symbol that a command of the files declares. -/
def declOf : SExpr → List (String × Nat)
  | .list [.atom "define-fun-rec", .atom f, .list ps, _, _] => [(f, ps.length)]
  | .list [.atom "define-fun", .atom f, .list ps, _, _] => [(f, ps.length)]
  | .list [.atom "declare-fun", .atom f, .list ss, _] => [(f, ss.length)]
  | .list [.atom "declare-const", .atom x, _] => [(x, 0)]
  | _ => []

theorem binders_length {ps : List SExpr} {bs : List (String × SExpr)} (h : binders ps = some bs) : bs.length = ps.length := by
  induction ps generalizing bs with
  | nil => simp only [binders, Option.some.injEq] at h; subst h; rfl
  | cons p ps ih =>
    unfold binders at h
    split at h
    · simp_all
    · next heq =>
      injection heq with h1 h2
      subst h2
      simp only [Option.map_eq_some_iff] at h
      obtain ⟨b, hb, rfl⟩ := h
      simp [ih hb]
    · cases h

theorem accept1_table {t : List (String × Nat)} {c : SExpr} {F' : String → Option Nat} (h : accept1 (table t) c = some F') :
    F' = table (declOf c ++ t) := by
  unfold accept1 at h
  split at h
  · simp only [Option.bind_eq_bind, Option.bind_eq_some_iff] at h
    obtain ⟨bs, hb, h⟩ := h
    split at h
    · injection h with h; subst h
      rw [declare_table, binders_length hb]
      simp [declOf]
    · cases h
  · simp only [Option.bind_eq_bind, Option.bind_eq_some_iff] at h
    obtain ⟨bs, hb, h⟩ := h
    split at h
    · injection h with h; subst h
      rw [declare_table, binders_length hb]
      simp [declOf]
    · cases h
  · split at h
    · injection h with h; subst h
      rw [declare_table]
      simp [declOf]
    · cases h
  · split at h
    · injection h with h; subst h
      rw [declare_table]
      simp [declOf]
    · cases h
  · simp only [Option.bind_eq_bind, Option.bind_eq_some_iff] at h
    obtain ⟨bs, hb, h⟩ := h
    split at h
    · injection h with h; subst h
      simp [declOf]
    · cases h
  · split at h
    · injection h with h; subst h
      simp [declOf]
    · cases h
  · injection h with h; subst h
    simp [declOf]
  · injection h with h; subst h
    simp [declOf]
  · next n1 n2 n3 n4 n5 n6 n7 n8 =>
    split at h
    · injection h with h; subst h
      rw [declOf]
      · simp
      all_goals assumption
    · cases h

/-- The table of symbols after the commands. -/
def acceptT (t : List (String × Nat)) : List SExpr → Option (List (String × Nat))
  | [] => some t
  | c :: cs => if (accept1 (table t) c).isSome then acceptT (declOf c ++ t) cs else none

theorem accepts_table {t t' : List (String × Nat)} {cs ds : List SExpr} (h : acceptT t cs = some t') :
    accepts (table t) (cs ++ ds) = accepts (table t') ds := by
  induction cs generalizing t with
  | nil => simp only [acceptT, Option.some.injEq] at h; subst h; rfl
  | cons c cs ih =>
    simp only [acceptT] at h
    split at h
    · next hs =>
      obtain ⟨F', hF⟩ := Option.isSome_iff_exists.1 hs
      have := accept1_table hF
      subst this
      simp only [List.cons_append, accepts, hF]
      exact ih h
    · cases h

set_option maxRecDepth 100000 in
theorem files_accepted : acceptT [] fileCmds.flatten = some fileArities := by decide +kernel

/-- **C47 (with the files of definitions).**  The solver, started without any symbol, accepts the files of definitions followed by the
query. -/
theorem C47_files_and_query_accepted_partial (topo : List (String × String) → Option (List String)) (htopo : TopoSpec topo)
    (setOrder : List String → List String) (hset : ∀ l, (setOrder l).Perm l) (lang : List FnDecl) (axs : List Ax)
    (cands : List FnDecl) (vars : List (String × Ty)) (vc : Expr) (hq : QueryOk lang axs cands vars vc)
    (hcomp : Complete (fun f => fileArities.lookup f) lang axs cands vars vc) (text : String)
    (ht : queryText topo setOrder lang axs cands vars vc = some text) :
    ∃ fs cs, readFile filesText = some fs ∧ readScript text = some cs ∧ accepts (fun _ => none) (fs ++ cs) = true := by
  obtain ⟨cs, h1, h2⟩ := C47_query_accepted_partial topo htopo setOrder hset lang axs cands vars vc hq _ hcomp text ht
  refine ⟨_, cs, files_read, h1, ?_⟩
  have h0 : (fun _ => none : String → Option Nat) = table [] := rfl
  rw [h0, accepts_table files_accepted]
  exact h2

/-- The query of `PSmtAccept.lean` uses the functions of the files with the right numbers of arguments. -/
theorem exFilesComplete : Complete (fun f => fileArities.lookup f) [exSum] [exAx] [exPs] [("l", .list .int)] exVc where
  names := by decide
  unknown := by decide
  varNames := by decide
  paramNames := by decide
  axNames := by
    intro a ha
    simp only [List.mem_singleton] at ha
    subst ha
    decide
  langWritten := by decide
  langCalls := by
    intro d hd b hb
    simp only [List.mem_singleton] at hd
    subst hd
    cases hb
    exact callsKnown_sound (by decide +kernel)
  axCalls := by
    intro a ha
    simp only [List.mem_singleton] at ha
    subst ha
    exact callsKnown_sound (by decide +kernel)
  candCalls := by
    intro d hd b hb
    simp only [List.mem_singleton] at hd
    subst hd
    cases hb
    exact callsKnown_sound (by decide +kernel)
  vcCalls := callsKnown_sound (by decide +kernel)
  selfCalls := by
    intro d hd hr
    simp only [List.cons_append, List.nil_append, List.mem_cons, List.not_mem_nil, or_false] at hd
    rcases hd with rfl | rfl <;> cases hr

end Smt
end Metalift
