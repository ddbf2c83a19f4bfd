import Verif.GeneralSpace
import Verif.PHoleSpace
/-
C71: what the general search spaces for matrix programs contain.
-/
namespace Metalift.Ten
open Metalift

/-! ### Specification: programs that compute a pixel from two pixels -/

/-- The value of an operation; the division is that of the interpretation. -/
def IntOp.val (I : Interp) : IntOp → Int → Int → Int
  | .add, a, b => a + b
  | .sub, a, b => a - b
  | .mul, a, b => a * b
  | .div, a, b => I.idiv a b

/-- The operations of a constant `s` and a pixel `t`. -/
def ScOp.val (I : Interp) : ScOp → Int → Int → Int
  | .add, s, t => s + t
  | .sub, s, t => t - s
  | .mul, s, t => s * t
  | .div, s, t => I.idiv t s
  | .rsub, s, t => s - t
  | .rdiv, s, t => I.idiv s t

/-- Arithmetic on constants. -/
inductive Sc where
  | const (k : Int)
  | bin (o : IntOp) (a b : Sc)

def Sc.depth : Sc → Nat
  | .const _ => 0
  | .bin _ a b => max a.depth b.depth + 1
def Sc.consts : Sc → List Int
  | .const k => [k]
  | .bin _ a b => a.consts ++ b.consts
def Sc.val (I : Interp) : Sc → Int
  | .const k => k
  | .bin o a b => o.val I (a.val I) (b.val I)

/-- A computation of a pixel: from the two pixels `base[row][col]` and `active[row][col]`, with operations on two pixels and operations on
a constant and a pixel. -/
inductive Px where
  | base | active
  | ew (o : IntOp) (a b : Px)
  | sc (o : ScOp) (s : Sc) (t : Px)

def Px.depth : Px → Nat
  | .base | .active => 0
  | .ew _ a b => max a.depth b.depth + 1
  | .sc _ s t => max s.depth t.depth + 1
def Px.consts : Px → List Int
  | .base | .active => []
  | .ew _ a b => a.consts ++ b.consts
  | .sc _ s t => s.consts ++ t.consts
/-- The pixel computed from the pixels `b` and `a`. -/
def Px.val (I : Interp) (b a : Int) : Px → Int
  | .base => b
  | .active => a
  | .ew o l r => o.val I (l.val I b a) (r.val I b a)
  | .sc o s t => o.val I (s.val I) (t.val I b a)

/-- Arithmetic on the two pixels, constants and the two further inputs of `dissolve_blend_8`. -/
inductive Ar where
  | base | active | opacity | rand
  | const (k : Int)
  | bin (o : IntOp) (a b : Ar)

def Ar.depth : Ar → Nat
  | .bin _ a b => max a.depth b.depth + 1
  | _ => 0
def Ar.consts : Ar → List Int
  | .const k => [k]
  | .bin _ a b => a.consts ++ b.consts
  | _ => []
/-- Neither of the further inputs is used. -/
def Ar.Plain : Ar → Prop
  | .opacity | .rand => False
  | .bin _ a b => a.Plain ∧ b.Plain
  | _ => True
def Ar.val (I : Interp) (opac rand b a : Int) : Ar → Int
  | .base => b
  | .active => a
  | .opacity => opac
  | .rand => rand
  | .const k => k
  | .bin o l r => o.val I (l.val I opac rand b a) (r.val I opac rand b a)

/-- The comparisons. -/
inductive Cmp where
  | lt | le | eq | ge | gt
def Cmp.test : Cmp → Int → Int → Prop
  | .lt, a, b => a < b
  | .le, a, b => a ≤ b
  | .eq, a, b => a = b
  | .ge, a, b => a ≥ b
  | .gt, a, b => a > b
instance (o : Cmp) (a b : Int) : Decidable (o.test a b) := by cases o <;> simp only [Cmp.test] <;> infer_instance

/-- The meaning of `matrix_col_slice` and `list_length` where the backends agree: for slices with a column in range, for the empty matrix,
for the rows of a slice without columns (Rosette drops them, but reading a row that is missing gives the empty list). -/
structure ColPrims (I : Interp) : Prop where
  slice : ∀ (m : List (List Int)) (a b : Int), 0 ≤ a → a < b → (∀ r ∈ m, b ≤ r.length) →
    I.fn "matrix_col_slice" [matV m, .int a, .int b] = matV (m.map fun r => (r.take b.toNat).drop a.toNat)
  nil : ∀ a b : Int, I.fn "matrix_col_slice" [matV [], .int a, .int b] = matV []
  zero : ∀ (m : List (List Int)) (i : Int), 0 ≤ i → i < m.length →
    I.fn "matrix_get" [I.fn "matrix_col_slice" [matV m, .int 0, .int 0], .int i] = vecV []
  len : ∀ v, ∃ n : Int, I.fn "list_length" [v] = .int n

/-- The candidate belongs to the search space for the variables written by the two loops and read by them. -/
structure Candidate.Of (c : Candidate) (S : Space) (w0 w1 rd : List Obj) : Prop where
  inv0 : ∃ g, S.inv0 w0 rd = some g ∧ Resolves g.src c.inv0
  inv1 : ∃ g, S.inv1 w1 rd [outV, rowV] = some g ∧ Resolves g.src c.inv1
  ps : ∃ g, S.ps [outV] rd = some g ∧ Resolves g.src c.ps
  fns : All2 (fun s e => ∃ g, s.2.2 = some g ∧ Resolves g.src e) S.synths c.fns

/-- The interpretation satisfies the declarations of the target language and the functions found have their bodies. -/
structure Candidate.Means (c : Candidate) (S : Space) (I : Interp) : Prop where
  model : Model I
  cols : ColPrims I
  fns : All2 (fun s e => HasBody I s.1 s.2.1 e) S.synths c.fns
  apply : ∀ s ∈ S.synths, ∀ vs, I.apply (.fn s.1) vs = I.fn s.1 vs

/-- The verification conditions of the program that computes the pixels by `f` hold for the inputs in `P`. -/
def Candidate.SolvesFor (c : Candidate) (S : Space) (f : Interp → Input → Int → Int → Int) (P : Input → Prop) : Prop :=
  ∀ I, c.Means S I → ∀ x, P x → Valid I x (f I x) c.inv0 c.inv1 c.ps

/-- Square matrices of the same size. -/
def Square (x : Input) : Prop :=
  x.base.length = x.active.length ∧ ∀ r, r ∈ x.base ∨ r ∈ x.active → r.length = x.base.length

theorem Square.rect {x : Input} (h : Square x) : Rect x := by
  by_cases hn : x.base.length = 0
  · have hb : x.base = [] := List.eq_nil_of_length_eq_zero hn
    have ha : x.active = [] := List.eq_nil_of_length_eq_zero (by rw [← h.1, hn])
    exact ⟨h.1, 1, Nat.le_refl _, by simp [hb, ha]⟩
  · exact ⟨h.1, x.base.length, by omega, h.2⟩

/-! ### Building blocks -/

/-- `o[a:b].col_slice(c, d)`. -/
def slObj (o a b c d : Obj) : Obj := (call "matrix_row_slice" (.matrix .int) [o, a, b]).colSlice c d
/-- The choice of the slice or its transposed. -/
def slTr (i : Obj) : Obj :=
  ⟨.node .choose (OTy.matrix .int).toTy [(slObj opObj i i i i).src, (slObj opObj i i i i).transpose.src], .matrix .int⟩

theorem slicedOrTransposed_op (i : Obj) : slicedOrTransposed opObj i = some (slTr i) := rfl

theorem resolves_slObj {o a b c d o' a' b' c' d' : Obj} (ho : Resolves o.src o'.src) (ha : Resolves a.src a'.src)
    (hb : Resolves b.src b'.src) (hc : Resolves c.src c'.src) (hd : Resolves d.src d'.src) :
    Resolves (slObj o a b c d).src (slObj o' a' b' c' d').src :=
  resolves_call (.cons (resolves_call (.cons ho (.cons ha (.cons hb .nil)))) (.cons hc (.cons hd .nil)))

theorem resolves_slTr {i o a b c d : Obj} (ho : o = baseV ∨ o = activeV) (ha : Resolves i.src a.src)
    (hb : Resolves i.src b.src) (hc : Resolves i.src c.src) (hd : Resolves i.src d.src) :
    Resolves (slTr i).src (slObj o a b c d).src :=
  .choose (List.mem_cons_self ..) (resolves_slObj (resolves_op ho) ha hb hc hd)

/-- The parts of the matrices used by the solutions; `w` is the number of columns. -/
def lm (w o : Obj) : Obj := slObj o (.int 0) rowV (.int 0) w
@[inherit_doc lm] def lp (w o : Obj) : Obj := slObj o (.int 0) baseV.len (.int 0) w
@[inherit_doc lm] def lv (o : Obj) : Obj := call "matrix_get" (.list .int) [slObj o (.int 0) baseV.len (.int 0) colV, rowV]

/-- The number of columns of `base`. -/
def wid : Obj := (call "matrix_get" (.list .int) [baseV, .int 0]).len

theorem relaxed_some (o : Obj) (h : o.ty = .int) (b : Bool) : ∃ g, maybeRelaxed o b = some g ∧ g.ty = .int ∧
    ∀ e, Resolves o.src e → Resolves g.src e := by
  cases b with
  | false => exact ⟨o, rfl, h, fun _ h => h⟩
  | true =>
    obtain ⟨g, hg, hty, hl⟩ := chooseObj_lang (t := .int) (os := [o, o.sub (.int 1), o.add (.int 1)]) (by simp)
      (by simp [h, Obj.sub, Obj.add])
    exact ⟨g, hg, hty, fun e he => (hl e).2 ⟨o, List.mem_cons_self .., he⟩⟩

theorem index_some (os : List Obj) (hne : os ≠ []) (hty : ∀ o ∈ os, o.ty = .int) (relaxed : Bool) : ∃ cv iv,
    chooseObj os = some cv ∧ maybeRelaxed cv relaxed = some iv ∧ iv.ty = .int ∧
    ∀ o ∈ os, ∀ e, Resolves o.src e → Resolves iv.src e := by
  obtain ⟨cv, hc, hct, hl⟩ := chooseObj_lang hne hty
  obtain ⟨iv, hi, hit, hr⟩ := relaxed_some cv hct relaxed
  exact ⟨cv, iv, hc, hi, hit, fun o ho e he => hr _ ((hl e).2 ⟨o, ho, he⟩)⟩

theorem intBelow_leaf (iv : Obj) (h : iv.ty = .int) (d : Nat) : ∃ i, intBelow iv d = some i ∧ i.ty = .int ∧
    ∀ e, Resolves iv.src e → Resolves i.src e := by
  obtain ⟨i, hi, hu⟩ := intBelow_upTo iv h d
  refine ⟨i, hi, hu.ty, fun e he => ?_⟩
  obtain ⟨t', hs, hr⟩ := hu.complete (.leaf e) (Nat.zero_le _) he
  cases hs
  exact hr

/-! ### The candidates -/

/-- The invariants and the result, with the right-hand sides chosen. -/
def gen0 (G : Expr) : Expr :=
  mkAnd [mkAnd [(rowV.ge (.int 0)).src, (rowV.le baseV.len).src], mkCall "list_eq" .bool [outV.src, G]]
@[inherit_doc gen0] def gen1 (H G : Expr) : Expr :=
  mkAnd [mkAnd [mkAnd [mkAnd [mkAnd [(rowV.ge (.int 0)).src, (rowV.le baseV.len).src], (colV.ge (.int 0)).src],
    (colV.le wid).src], mkCall "list_eq" .bool [rowVecV.src, H]], mkCall "list_eq" .bool [outV.src, G]]
@[inherit_doc gen0] def genP (G : Expr) : Expr := mkCall "list_eq" .bool [outV.src, G]

theorem andObjs3G (A B : Obj) (G : Expr) : andObjs [rowV.ge A, rowV.le B, ⟨mkCall "list_eq" .bool [outV.src, G], .bool⟩] =
    some ⟨mkAnd [mkAnd [(rowV.ge A).src, (rowV.le B).src], mkCall "list_eq" .bool [outV.src, G]], .bool⟩ := by
  simp only [andObjs, andObjects, ObjectSet.init, andExprs, Obj.ge, Obj.le, mkCall, List.map_cons, List.map_nil, List.foldl_cons,
    List.foldl_nil, List.any_nil, List.any_cons, pyEq_node, Bool.or_false, Bool.false_eq_true,
    if_false, List.nil_append, List.cons_append, reduceCtorEq, decide_false, Bool.false_and, Option.map_some]

theorem andObjs6G (A B C D : Obj) (H G : Expr) : andObjs [rowV.ge A, rowV.le B, colV.ge C, colV.le D,
      ⟨mkCall "list_eq" .bool [rowVecV.src, H], .bool⟩, ⟨mkCall "list_eq" .bool [outV.src, G], .bool⟩] =
    some ⟨mkAnd [mkAnd [mkAnd [mkAnd [mkAnd [(rowV.ge A).src, (rowV.le B).src], (colV.ge C).src],
      (colV.le D).src], mkCall "list_eq" .bool [rowVecV.src, H]], mkCall "list_eq" .bool [outV.src, G]], .bool⟩ := by
  have h1 : ∀ a b, Expr.pyEqs (colV.src :: a) (rowV.src :: b) = false := fun a b => pyEqs_var _ _ _ _ a b (by decide)
  have h2 : ∀ a b, Expr.pyEqs (outV.src :: a) (rowVecV.src :: b) = false := fun a b => pyEqs_var _ _ _ _ a b (by decide)
  simp only [andObjs, andObjects, ObjectSet.init, andExprs, Obj.ge, Obj.le, mkCall, List.map_cons, List.map_nil, List.foldl_cons,
    List.foldl_nil, List.any_nil, List.any_cons, pyEq_node, h1, h2, Bool.and_false, Bool.or_false, Bool.false_eq_true,
    if_false, List.nil_append, List.cons_append, reduceCtorEq, decide_false, Bool.false_and, Option.map_some]

theorem resolves_gen0 {A B : Obj} {G G' : Expr} (hA : Resolves A.src (Obj.int 0).src) (hB : Resolves B.src baseV.len.src)
    (hG : Resolves G G') : Resolves (mkAnd [mkAnd [(rowV.ge A).src, (rowV.le B).src], mkCall "list_eq" .bool [outV.src, G]]) (gen0 G') :=
  resolves_and (resolves_and (resolves_cmp (by simp) .var hA) (resolves_cmp (by simp) .var hB)) (.node (by simp) (.cons .var (.cons hG .nil)))

theorem resolves_gen1 {A B C D : Obj} {H H' G G' : Expr} (hA : Resolves A.src (Obj.int 0).src) (hB : Resolves B.src baseV.len.src)
    (hC : Resolves C.src (Obj.int 0).src) (hD : Resolves D.src wid.src) (hH : Resolves H H') (hG : Resolves G G') :
    Resolves (mkAnd [mkAnd [mkAnd [mkAnd [mkAnd [(rowV.ge A).src, (rowV.le B).src], (colV.ge C).src],
      (colV.le D).src], mkCall "list_eq" .bool [rowVecV.src, H]], mkCall "list_eq" .bool [outV.src, G]]) (gen1 H' G') :=
  resolves_and (resolves_and (resolves_and (resolves_and (resolves_and (resolves_cmp (by simp) .var hA) (resolves_cmp (by simp) .var hB))
    (resolves_cmp (by simp) .var hC)) (resolves_cmp (by simp) .var hD)) (.node (by simp) (.cons .var (.cons hH .nil))))
    (.node (by simp) (.cons .var (.cons hG .nil)))

theorem resolves_genP {G G' : Expr} (hG : Resolves G G') : Resolves (mkCall "list_eq" .bool [outV.src, G]) (genP G') :=
  .node (by simp) (.cons .var (.cons hG .nil))

theorem resolves_wid : Resolves wid.src wid.src := .node (by simp) (.cons (.node (by simp) (.cons .var (.cons .lit .nil))) .nil)
theorem resolves_baseLen : Resolves baseV.len.src baseV.len.src := .node (by simp) (.cons .var .nil)

/-! ### What the candidates say -/

section Meaning

variable {I : Interp} {x : Input} {f : Int → Int → Int} (P : ListPrims I) (K : ColPrims I) (R : Rect x)

theorem width_of_mem (R : Rect x) {r : List Int} (h : r ∈ x.base ∨ r ∈ x.active) : (r.length : Int) = x.width := by
  obtain ⟨hl, n, hn, hr⟩ := R
  cases hb : x.base with
  | nil =>
    have : x.active = [] := List.eq_nil_of_length_eq_zero (by rw [← hl, hb]; rfl)
    rw [hb, this] at h
    simp at h
  | cons q qs => rw [Input.width, hb, hr r h]; exact congrArg Int.ofNat (hr q (by simp [hb])).symm

theorem width_pos (R : Rect x) (h : x.base ≠ []) : 0 < x.width := by
  obtain ⟨hl, n, hn, hr⟩ := R
  cases hb : x.base with
  | nil => exact absurd hb h
  | cons q qs => rw [Input.width, hb]; have := hr q (by simp [hb]); simp only [List.headD_cons]; omega

include P in
theorem eval_baseLen (s : Vars) : eval I (x.env s) baseV.len.src = .int x.base.length := by
  have hb : eval I (x.env s) baseV.src = .list (x.base.map vecV) := rfl
  rw [eval_len P hb, List.length_map]

include P in
theorem eval_wid (s : Vars) (h : x.base ≠ []) : eval I (x.env s) wid.src = .int x.width := by
  obtain ⟨r, rs, h0⟩ : ∃ r rs, x.base = r :: rs := by
    cases hb : x.base with
    | nil => exact absurd hb h
    | cons r rs => exact ⟨r, rs, rfl⟩
  have : eval I (x.env s) (call "matrix_get" (.list .int) [baseV, .int 0]).src = .list (r.map .int) := by
    rw [eval_call]
    simp only [List.map_cons, List.map_nil]
    exact P.matrix.get (x.base.map vecV) 0 (vecV r) (Int.le_refl _) (by simp [h0])
  rw [wid, eval_len P this, Input.width, h0]
  simp

include K in
theorem eval_wid_int (s : Vars) : ∃ n : Int, eval I (x.env s) wid.src = .int n := by
  obtain ⟨n, hn⟩ := K.len (eval I (x.env s) (call "matrix_get" (.list .int) [baseV, .int 0]).src)
  exact ⟨n, (eval_call I (x.env s) "list_length" .int [call "matrix_get" (.list .int) [baseV, .int 0]]).trans hn⟩

/-- What is needed of the number of columns `w`. -/
def IsWidth (I : Interp) (x : Input) (w : Obj) : Prop :=
  ∀ s : Vars, (∃ n : Int, eval I (x.env s) w.src = .int n) ∧ (x.base ≠ [] → eval I (x.env s) w.src = .int x.width)

include P K in
theorem isWidth_wid : IsWidth I x wid := fun s => ⟨eval_wid_int K s, eval_wid P s⟩

include P in
theorem isWidth_len (S : Square x) : IsWidth I x baseV.len := fun s =>
  ⟨⟨_, eval_baseLen P s⟩, fun h => by
    rw [eval_baseLen P s]
    cases hb : x.base with
    | nil => exact absurd hb h
    | cons r rs => rw [Input.width, hb, List.headD_cons, S.2 r (by simp [hb]), hb]⟩

include P K R in
theorem eval_slice (s : Vars) {o b w : Obj} {m : List (List Int)} {k : Int} (hw : IsWidth I x w)
    (ho : eval I (x.env s) o.src = matV m) (hm : m.length = x.base.length) (hmr : ∀ r ∈ m, (r.length : Int) = x.width)
    (hb : eval I (x.env s) b.src = .int k) (h0 : 0 ≤ k) (h1 : k ≤ x.base.length) :
    eval I (x.env s) (slObj o (.int 0) b (.int 0) w).src = matV (m.take k.toNat) := by
  have hrow : I.fn "matrix_row_slice" [matV m, .int 0, .int k] = matV (m.take k.toNat) := by
    rw [matV, P.matrix.slice (m.map vecV) 0 k (Int.le_refl _) h0 (by simpa [hm] using h1), matV, List.map_take]
    simp
  have hz : eval I (x.env s) (Obj.int 0).src = .int 0 := rfl
  rw [slObj, Obj.colSlice, eval_call]
  simp only [List.map_cons, List.map_nil, eval_call, ho, hb, hz, hrow]
  by_cases hk : m.take k.toNat = []
  · obtain ⟨n, hn⟩ := (hw s).1
    rw [hk, hn]
    exact K.nil 0 n
  · have hne : x.base ≠ [] := by
      rintro he
      rw [he] at hm
      exact hk (by rw [List.eq_nil_of_length_eq_zero hm]; simp)
    rw [(hw s).2 hne, K.slice _ 0 x.width (Int.le_refl _) (width_pos R hne) (fun r hr => Int.le_of_eq (hmr r (List.mem_of_mem_take hr)).symm)]
    congr 1
    conv => rhs; rw [← List.map_id (m.take k.toNat)]
    refine List.map_congr_left fun r hr => ?_
    have := hmr r (List.mem_of_mem_take hr)
    simp only [Int.toNat_zero, List.drop_zero, id]
    exact List.take_of_length_le (by omega)

include P K in
theorem eval_lv (s : Vars) {o : Obj} {m : List (List Int)} {r : List Int}
    (ho : eval I (x.env s) o.src = matV m) (hm : m.length = x.base.length) (hmr : ∀ r ∈ m, (r.length : Int) = x.width)
    (h0 : 0 ≤ s.row) (hr : m[s.row.toNat]? = some r) (hc0 : 0 ≤ s.col) (hc1 : s.col ≤ x.width) :
    eval I (x.env s) (lv o).src = vecV (r.take s.col.toNat) := by
  have hrow : I.fn "matrix_row_slice" [matV m, .int 0, .int x.base.length] = matV m := by
    rw [matV, P.matrix.slice (m.map vecV) 0 x.base.length (Int.le_refl _) (Int.natCast_nonneg _) (by simp [hm])]
    simp only [Int.toNat_zero, List.drop_zero, Int.toNat_natCast]
    rw [List.take_of_length_le (by simp [hm])]
  have hz : eval I (x.env s) (Obj.int 0).src = .int 0 := rfl
  have hrw : eval I (x.env s) rowV.src = .int s.row := rfl
  have hcl : eval I (x.env s) colV.src = .int s.col := rfl
  rw [lv, slObj, Obj.colSlice, eval_call]
  simp only [List.map_cons, List.map_nil, eval_call, ho, eval_baseLen P s, hz, hrw, hcl, hrow]
  by_cases hc : s.col = 0
  · rw [hc]
    exact K.zero m s.row h0 (by have := (List.getElem?_eq_some_iff.mp hr).1; omega)
  · rw [K.slice m 0 s.col (Int.le_refl _) (by omega) (fun q hq => by rw [hmr q hq]; exact hc1), matV,
      P.matrix.get _ s.row (vecV (r.take s.col.toNat)) h0 (by simp [hr])]

include P in
theorem gen_valid (R : Rect x) {G0 H G1 GP : Expr}
    (h0 : ∀ s : Vars, 0 ≤ s.row → s.row ≤ x.base.length → eval I (x.env s) G0 =
      matV (List.zipWith (List.zipWith f) (x.base.take s.row.toNat) (x.active.take s.row.toNat)))
    (h1 : ∀ s : Vars, 0 ≤ s.row → s.row ≤ x.base.length → eval I (x.env s) G1 =
      matV (List.zipWith (List.zipWith f) (x.base.take s.row.toNat) (x.active.take s.row.toNat)))
    (hv : ∀ (s : Vars) (b a : List Int), x.base[s.row.toNat]? = some b → x.active[s.row.toNat]? = some a → 0 ≤ s.row → 0 ≤ s.col →
      s.col ≤ x.width → eval I (x.env s) H = vecV (List.zipWith f (b.take s.col.toNat) (a.take s.col.toNat)))
    (hp : ∀ s : Vars, eval I (x.env s) GP = matV (List.zipWith (List.zipWith f) x.base x.active)) :
    Valid I x f (gen0 G0) (gen1 H G1) (genP GP) := by
  have ho : ∀ s : Vars, eval I (x.env s) outV.src = matV s.out := fun _ => rfl
  have hrv : ∀ s : Vars, eval I (x.env s) rowVecV.src = vecV s.rowVec := fun _ => rfl
  refine valid_of_sem P R ?_ ?_ ?_
  · intro s
    rw [gen0, holds_and, holds_row P, Sem0, and_assoc]
    refine and_congr_right fun ha => and_congr_right fun hb => ?_
    rw [holds_listEq P, ho, h0 s ha hb]
    exact ⟨fun h => Np.matV_inj h, fun h => by rw [h]⟩
  · intro s b a hb ha
    have hne : x.base ≠ [] := by rintro h; rw [h] at hb; simp at hb
    have hc : eval I (x.env s) colV.src = .int s.col := rfl
    rw [gen1, holds_and, holds_and, holds_and, holds_and, holds_row P, holds_ge hc rfl, holds_le hc (eval_wid P s hne), holds_listEq P,
      holds_listEq P, ho, hrv, Sem0, Sem1]
    constructor
    · rintro ⟨⟨⟨⟨⟨a0, a1⟩, a2⟩, a3⟩, a4⟩, a5⟩
      rw [h1 s a0 a1] at a5
      rw [hv s b a hb ha a0 a2 a3] at a4
      exact ⟨⟨a0, a1, Np.matV_inj a5⟩, a2, a3, Np.vecV_inj a4⟩
    · rintro ⟨⟨a0, a1, a5⟩, a2, a3, a4⟩
      refine ⟨⟨⟨⟨⟨a0, a1⟩, a2⟩, a3⟩, ?_⟩, ?_⟩
      · rw [hv s b a hb ha a0 a2 a3, a4]
      · rw [h1 s a0 a1, a5]
  · intro s
    rw [genP, holds_listEq P, ho, hp s]
    exact ⟨fun h => Np.matV_inj h, fun h => by rw [h]⟩

/-- The right-hand sides compute `f` element by element from the operands. -/
structure Rhs (I : Interp) (x : Input) (f : Int → Int → Int) (w : Obj) (G0 H G1 GP : Expr) : Prop where
  g0 : ∀ s ms ns, eval I (x.env s) (lm w baseV).src = matV ms → eval I (x.env s) (lm w activeV).src = matV ns → SameShape ms ns →
    eval I (x.env s) G0 = matV (List.zipWith (List.zipWith f) ms ns)
  g1 : ∀ s ms ns, eval I (x.env s) (lm w baseV).src = matV ms → eval I (x.env s) (lm w activeV).src = matV ns → SameShape ms ns →
    eval I (x.env s) G1 = matV (List.zipWith (List.zipWith f) ms ns)
  h : ∀ s xs ys, eval I (x.env s) (lv baseV).src = vecV xs → eval I (x.env s) (lv activeV).src = vecV ys → xs.length = ys.length →
    eval I (x.env s) H = vecV (List.zipWith f xs ys)
  gp : ∀ s ms ns, eval I (x.env s) (lp w baseV).src = matV ms → eval I (x.env s) (lp w activeV).src = matV ns → SameShape ms ns →
    eval I (x.env s) GP = matV (List.zipWith (List.zipWith f) ms ns)

include P K R in
theorem Rhs.valid {w : Obj} {G0 H G1 GP : Expr} (hw : IsWidth I x w) (C : Rhs I x f w G0 H G1 GP) :
    Valid I x f (gen0 G0) (gen1 H G1) (genP GP) := by
  have hb : ∀ s, eval I (x.env s) baseV.src = matV x.base := fun _ => rfl
  have ha : ∀ s, eval I (x.env s) activeV.src = matV x.active := fun _ => rfl
  have hrow : ∀ s : Vars, eval I (x.env s) rowV.src = .int s.row := fun _ => rfl
  have mb : ∀ r ∈ x.base, (r.length : Int) = x.width := fun r hr => width_of_mem R (.inl hr)
  have ma : ∀ r ∈ x.active, (r.length : Int) = x.width := fun r hr => width_of_mem R (.inr hr)
  refine gen_valid P R ?_ ?_ ?_ ?_
  · intro s h0 h1
    exact C.g0 s _ _ (eval_slice P K R s hw (hb s) rfl mb (hrow s) h0 h1) (eval_slice P K R s hw (ha s) R.1.symm ma (hrow s) h0 h1)
      (R.shape.take _)
  · intro s h0 h1
    exact C.g1 s _ _ (eval_slice P K R s hw (hb s) rfl mb (hrow s) h0 h1) (eval_slice P K R s hw (ha s) R.1.symm ma (hrow s) h0 h1)
      (R.shape.take _)
  · intro s b a eb ea h0 h1 h2
    have lb := mb b (List.mem_of_getElem? eb)
    have la := ma a (List.mem_of_getElem? ea)
    exact C.h s _ _ (eval_lv P K s (hb s) rfl mb h0 eb h1 h2) (eval_lv P K s (ha s) R.1.symm ma h0 ea h1 h2)
      (by simp only [List.length_take]; omega)
  · intro s
    have e1 := eval_slice P K R s hw (hb s) rfl mb (eval_baseLen P s) (Int.natCast_nonneg _) (Int.le_refl _)
    have e2 := eval_slice P K R s hw (ha s) R.1.symm ma (eval_baseLen P s) (Int.natCast_nonneg _) (Int.le_refl _)
    rw [Int.toNat_natCast, List.take_of_length_le (Nat.le_refl _)] at e1
    rw [Int.toNat_natCast, List.take_of_length_le (by rw [R.1]; exact Nat.le_refl _)] at e2
    exact C.gp s _ _ e1 e2 R.shape

end Meaning

/-! ### The right-hand sides -/

def Sc.toA : Sc → AExp
  | .const k => .leaf (Obj.int k).src
  | .bin o a b => .bin o a.toA b.toA

def Px.toT (p q : Expr) : Px → TExp
  | .base => .leaf p
  | .active => .leaf q
  | .ew o a b => .ew o (a.toT p q) (b.toT p q)
  | .sc o s t => .sc o s.toA (t.toT p q)

theorem Sc.toA_depth : ∀ s : Sc, s.toA.depth = s.depth
  | .const _ => rfl
  | .bin _ a b => by simp only [Sc.toA, AExp.depth, Sc.depth, a.toA_depth, b.toA_depth]
theorem Px.toT_depth (p q : Expr) : ∀ t : Px, (t.toT p q).depth = t.depth
  | .base | .active => rfl
  | .ew _ a b => by simp only [Px.toT, TExp.depth, Px.depth, a.toT_depth, b.toT_depth]
  | .sc _ s t => by simp only [Px.toT, TExp.depth, Px.depth, s.toA_depth, t.toT_depth]

theorem Sc.toA_over {Q : Expr → Prop} : ∀ s : Sc, (∀ k ∈ s.consts, Q (Obj.int k).src) → s.toA.Over Q
  | .const k, h => h k (List.mem_cons_self ..)
  | .bin _ a b, h => ⟨a.toA_over fun k hk => h k (List.mem_append_left _ hk), b.toA_over fun k hk => h k (List.mem_append_right _ hk)⟩
theorem Px.toT_over {mat : Bool} {p q : Expr} {P Q M : Expr → Prop} (hp : P p) (hq : P q) : ∀ t : Px,
    (∀ k ∈ t.consts, Q (Obj.int k).src) → (t.toT p q).Over mat P Q M
  | .base, _ => hp
  | .active, _ => hq
  | .ew _ a b, h => ⟨a.toT_over hp hq fun k hk => h k (List.mem_append_left _ hk), b.toT_over hp hq fun k hk => h k (List.mem_append_right _ hk)⟩
  | .sc _ s t, h => ⟨s.toA_over fun k hk => h k (List.mem_append_left _ hk), t.toT_over hp hq fun k hk => h k (List.mem_append_right _ hk)⟩

theorem IntOp.val_comm {o : IntOp} (h : o = .add ∨ o = .mul) (I : Interp) (a b : Int) : o.val I a b = o.val I b a := by
  rcases h with rfl | rfl
  · exact Int.add_comm ..
  · exact Int.mul_comm ..

theorem Sc.swap : ∀ (s : Sc) (t : AExp), AExp.Swap s.toA t → ∃ s' : Sc, t = s'.toA ∧ ∀ I, s'.val I = s.val I
  | .const k, t, h => by cases h; exact ⟨.const k, rfl, fun _ => rfl⟩
  | .bin o a b, t, h => by
    cases h with
    | bin ha hb =>
      obtain ⟨a', rfl, va⟩ := a.swap _ ha
      obtain ⟨b', rfl, vb⟩ := b.swap _ hb
      exact ⟨.bin o a' b', rfl, fun I => by simp only [Sc.val, va, vb]⟩
    | comm ho ha hb =>
      obtain ⟨a', rfl, va⟩ := a.swap _ ha
      obtain ⟨b', rfl, vb⟩ := b.swap _ hb
      exact ⟨.bin o b' a', rfl, fun I => by simp only [Sc.val, va, vb, IntOp.val_comm ho]⟩

theorem Px.swap (p q : Expr) : ∀ (x : Px) (t : TExp), TExp.Swap (x.toT p q) t →
    ∃ x' : Px, t = x'.toT p q ∧ ∀ I b a, x'.val I b a = x.val I b a
  | .base, t, h => by cases h; exact ⟨.base, rfl, fun _ _ _ => rfl⟩
  | .active, t, h => by cases h; exact ⟨.active, rfl, fun _ _ _ => rfl⟩
  | .ew o a b, t, h => by
    cases h with
    | ew ha hb =>
      obtain ⟨a', rfl, va⟩ := a.swap p q _ ha
      obtain ⟨b', rfl, vb⟩ := b.swap p q _ hb
      exact ⟨.ew o a' b', rfl, fun I x y => by simp only [Px.val, va, vb]⟩
    | comm ho ha hb =>
      obtain ⟨a', rfl, va⟩ := a.swap p q _ ha
      obtain ⟨b', rfl, vb⟩ := b.swap p q _ hb
      exact ⟨.ew o b' a', rfl, fun I x y => by simp only [Px.val, va, vb, IntOp.val_comm ho I (b.val I x y)]⟩
  | .sc o s u, t, h => by
    cases h with
    | sc hs hu =>
      obtain ⟨s', rfl, vs⟩ := s.swap _ hs
      obtain ⟨u', rfl, vu⟩ := u.swap p q _ hu
      exact ⟨.sc o s' u', rfl, fun I x y => by simp only [Px.val, vs, vu]⟩

/-- Every computation is in the grammar, up to the order of operands. -/
theorem tensorBelow_px (mat : Bool) (var int : Obj) (hv : var.ty = tensorTy mat) (hi : int.ty = .int)
    (extra : Option Obj) (d : Nat) (hd : d ≤ 2) : ∃ g, tensorBelow var int extra d = some g ∧ g.ty = tensorTy mat ∧
    ∀ (x : Px) (p q : Expr), x.depth ≤ d → (∀ k ∈ x.consts, Resolves int.src (Obj.int k).src) → Resolves var.src p → Resolves var.src q →
      ∃ x' : Px, Resolves g.src ((x'.toT p q).toExpr mat) ∧ ∀ I b a, x'.val I b a = x.val I b a := by
  obtain ⟨ls, hls, hlen, h⟩ := tensorLevels_exact mat var int hv hi extra d
  have hne : ls ≠ [] := by rintro rfl; simp at hlen
  obtain ⟨g, hg, hty, hlang⟩ := chooseObj_lang (t := tensorTy mat) hne (by
    intro o ho
    obtain ⟨i, hi⟩ := List.getElem?_of_mem ho
    exact (h i o hi).ty)
  refine ⟨g, by rw [tensorBelow, if_neg (by omega), hls, Option.bind_some, hg], hty, fun x p q hx hc hp hq => ?_⟩
  have hdep := x.toT_depth p q
  obtain ⟨o, ho⟩ : ∃ o, ls[(x.toT p q).depth]? = some o := ⟨ls[(x.toT p q).depth], by simp⟩
  obtain ⟨t', hs, hr⟩ := (h _ o ho).complete (x.toT p q) rfl (x.toT_over hp hq hc)
  obtain ⟨x', rfl, hv⟩ := x.swap p q _ hs
  exact ⟨x', (hlang _).2 ⟨o, List.mem_of_getElem? ho, hr⟩, hv⟩

theorem Sc.eval_toA (I : Interp) (ρ : Env) : ∀ s : Sc, eval I ρ s.toA.toExpr = .int (s.val I)
  | .const _ => rfl
  | .bin o a b => by
    cases o <;> simp [Sc.toA, AExp.toExpr, IntOp.op, eval, evals, evalOp, a.eval_toA I ρ, b.eval_toA I ρ, Sc.val, IntOp.val]

theorem zipWith_fst2 {ms ns : List (List Int)} (h : SameShape ms ns) : List.zipWith (List.zipWith fun b _ => b) ms ns = ms := by
  induction h with
  | nil => rfl
  | cons h _ ih => rw [List.zipWith_cons_cons, ih, zipWith_fst h.2]
where
  zipWith_fst : ∀ {xs ys : List Int}, xs.length = ys.length → List.zipWith (fun b _ => b) xs ys = xs
    | [], [], _ => rfl
    | a :: xs, b :: ys, h => by rw [List.zipWith_cons_cons, zipWith_fst (by simpa using h)]

theorem zipWith_snd2 {ms ns : List (List Int)} (h : SameShape ms ns) : List.zipWith (List.zipWith fun _ a => a) ms ns = ns := by
  induction h with
  | nil => rfl
  | cons h _ ih => rw [List.zipWith_cons_cons, ih, zipWith_snd h.2]
where
  zipWith_snd : ∀ {xs ys : List Int}, xs.length = ys.length → List.zipWith (fun _ a => a) xs ys = ys
    | [], [], _ => rfl
    | a :: xs, b :: ys, h => by rw [List.zipWith_cons_cons, zipWith_snd (by simpa using h)]

theorem Px.eval_mat {I : Interp} (M : Model I) {ρ : Env} {p q : Expr} {ms ns : List (List Int)} (hp : eval I ρ p = matV ms)
    (hq : eval I ρ q = matV ns) (h : SameShape ms ns) : ∀ x : Px,
    eval I ρ ((x.toT p q).toExpr true) = matV (List.zipWith (List.zipWith (x.val I)) ms ns)
  | .base => by rw [Px.toT, TExp.toExpr, hp]; exact congrArg matV (zipWith_fst2 h).symm
  | .active => by rw [Px.toT, TExp.toExpr, hq]; exact congrArg matV (zipWith_snd2 h).symm
  | .ew o l r => by
    have A := C31_matrices_partial I M _ _ (zipWith_zipWith_shape (f := l.val I) (g := r.val I) h)
    simp only [zipWith_both2] at A
    rw [Px.toT, TExp.toExpr, eval_mkCall]
    simp only [List.map_cons, List.map_nil, Px.eval_mat M hp hq h]
    cases o <;> simp only [IntOp.ewFn, if_true, A] <;> rfl
  | .sc o s t => by
    have A := C31_scalar_matrices_partial I M (s.val I) _ (zipWith_shape (f := t.val I) h)
    simp only [zipWith_map_map] at A
    rw [Px.toT, TExp.toExpr, eval_mkCall]
    simp only [List.map_cons, List.map_nil, Px.eval_mat M hp hq h, Sc.eval_toA]
    cases o <;> simp only [ScOp.scFn, if_true, A] <;> rfl

theorem Px.eval_vec {I : Interp} (M : Model I) {ρ : Env} {p q : Expr} {xs ys : List Int} (hp : eval I ρ p = vecV xs)
    (hq : eval I ρ q = vecV ys) (h : xs.length = ys.length) : ∀ x : Px,
    eval I ρ ((x.toT p q).toExpr false) = vecV (List.zipWith (x.val I) xs ys)
  | .base => by rw [Px.toT, TExp.toExpr, hp]; exact congrArg vecV (zipWith_fst2.zipWith_fst h).symm
  | .active => by rw [Px.toT, TExp.toExpr, hq]; exact congrArg vecV (zipWith_snd2.zipWith_snd h).symm
  | .ew o l r => by
    have A := C31_vectors I M (List.zipWith (l.val I) xs ys) (List.zipWith (r.val I) xs ys) 0
    have hl : (List.zipWith (l.val I) xs ys).length = (List.zipWith (r.val I) xs ys).length := by simp
    simp only [zipIf_eq _ hl, zipWith_both] at A
    rw [Px.toT, TExp.toExpr, eval_mkCall]
    simp only [List.map_cons, List.map_nil, Px.eval_vec M hp hq h]
    cases o <;> simp only [IntOp.ewFn, Bool.false_eq_true, if_false, A] <;> rfl
  | .sc o s t => by
    have A := C31_vectors I M (List.zipWith (t.val I) xs ys) [] (s.val I)
    simp only [List.map_zipWith] at A
    rw [Px.toT, TExp.toExpr, eval_mkCall]
    simp only [List.map_cons, List.map_nil, Px.eval_vec M hp hq h, Sc.eval_toA]
    cases o <;> simp only [ScOp.scFn, Bool.false_eq_true, if_false, A] <;> rfl

theorem rhs_px {I : Interp} (M : Model I) (x : Input) (w : Obj) (f g0 g1 h gp : Px) (e0 : ∀ I b a, g0.val I b a = f.val I b a)
    (e1 : ∀ I b a, g1.val I b a = f.val I b a) (eh : ∀ I b a, h.val I b a = f.val I b a) (ep : ∀ I b a, gp.val I b a = f.val I b a) :
    Rhs I x (f.val I) w ((g0.toT (lm w baseV).src (lm w activeV).src).toExpr true) ((h.toT (lv baseV).src (lv activeV).src).toExpr false)
      ((g1.toT (lm w baseV).src (lm w activeV).src).toExpr true) ((gp.toT (lp w baseV).src (lp w activeV).src).toExpr true) := by
  have k : ∀ {y : Px}, (∀ I b a, y.val I b a = f.val I b a) → f.val I = y.val I := fun h => by funext b a; exact (h I b a).symm
  exact ⟨fun s ms ns hp hq hs => by rw [k e0]; exact Px.eval_mat M hp hq hs _, fun s ms ns hp hq hs => by rw [k e1]; exact Px.eval_mat M hp hq hs _,
    fun s xs ys hp hq hs => by rw [k eh]; exact Px.eval_vec M hp hq hs _, fun s ms ns hp hq hs => by rw [k ep]; exact Px.eval_mat M hp hq hs _⟩

/-! ### Computations -/

/-- The variables of the programs, in the order in which the driver gives them. -/
def genWrites0 : List Obj := [outV, colV, pixelV, rowV, rowVecV]
@[inherit_doc genWrites0] def genWrites1 : List Obj := [colV, pixelV, rowVecV]
@[inherit_doc genWrites0] def genReads : List Obj := [baseV, activeV]

theorem map_fns : ∃ g e, mapSynth.2.2 = some g ∧ Resolves g.src e ∧ e = (callIntegerExp intX).src :=
  ⟨_, _, rfl, .choose (List.mem_cons_self ..) (.node (by simp) (.cons .var .nil)), rfl⟩

theorem listEq_of {l r : Obj} (h : r.ty = l.ty) : l.listEq r = ⟨mkCall "list_eq" .bool [l.src, r.src], .bool⟩ := by rw [Obj.listEq, if_pos h.symm]; rfl
theorem op_choose : chooseObj [baseV, activeV] = some opObj := rfl
theorem base_row0 : baseV.getitem (.at (.int 0)) = some (call "matrix_get" (.list .int) [baseV, .int 0]) := rfl
theorem slTr_get (i : Obj) (hi : i.ty = .int) : (slTr i).getitem (.at i) = some (call "matrix_get" (.list .int) [slTr i, i]) := by
  obtain ⟨e, t⟩ := i
  cases hi
  rfl

/-- C71: for every depth up to two, every list of constants and every pixel computed by an expression of that depth with these constants, the
general search space for computations contains a solution for the square matrices.  Partial: see `C71_computation_deep_refuted` and
`C71_computation_wide_refuted`. -/
theorem C71_computation_partial (d : Nat) (hd : d ≤ 2) (ks : List Int) (relaxed : Bool) (f : Px) (hf : f.depth ≤ d) (hk : ∀ k ∈ f.consts, k ∈ ks) :
    ∃ c : Candidate, c.Of (generalComputation d (ks.map Obj.int) relaxed) genWrites0 genWrites1 genReads ∧
      c.SolvesFor (generalComputation d (ks.map Obj.int) relaxed) (fun I _ => f.val I) Square := by
  have kty : ∀ o ∈ ks.map Obj.int, o.ty = .int := by
    intro o ho
    obtain ⟨k, -, rfl⟩ := List.mem_map.1 ho
    rfl
  have r0 : Resolves (Obj.int 0).src (Obj.int 0).src := .lit
  have rrow : Resolves rowV.src rowV.src := .var
  have rcol : Resolves colV.src colV.src := .var
  have hks : ∀ k ∈ f.consts, ∀ os : List Obj, Obj.int k ∈ os ++ ks.map Obj.int := fun k h os =>
    List.mem_append_right _ (List.mem_map_of_mem (hk k h))
  obtain ⟨mz, hmz, -, rz⟩ := relaxed_some (.int 0) rfl relaxed
  obtain ⟨ml, hml, -, rl⟩ := relaxed_some baseV.len rfl relaxed
  -- the outer invariant
  obtain ⟨cv0, iv0, hc0, hi0, ty0, R0⟩ := index_some ([.int 0, baseV.len, rowV] ++ ks.map Obj.int) (by simp)
    (by intro o ho; rcases List.mem_append.1 ho with ho | ho
        · simp only [List.mem_cons, List.not_mem_nil, or_false] at ho; rcases ho with rfl | rfl | rfl <;> rfl
        · exact kty o ho) relaxed
  obtain ⟨i0, hb0, bt0, B0⟩ := intBelow_leaf iv0 ty0 d
  obtain ⟨t0, ht0, tt0, T0⟩ := tensorBelow_px true (slTr i0) iv0 rfl ty0 none d hd
  have S0 : ∀ o, o = baseV ∨ o = activeV → Resolves (slTr i0).src (lm baseV.len o).src := fun o ho =>
    resolves_slTr ho (B0 _ (R0 (.int 0) (by simp) _ r0)) (B0 _ (R0 rowV (by simp) _ rrow)) (B0 _ (R0 (.int 0) (by simp) _ r0))
      (B0 _ (R0 baseV.len (by simp) _ resolves_baseLen))
  obtain ⟨g0, rg0, vg0⟩ := T0 f _ _ hf (fun k hk' => R0 (.int k) (hks k hk' _) _ .lit) (S0 baseV (.inl rfl)) (S0 activeV (.inr rfl))
  -- the inner invariant
  obtain ⟨cv1, iv1, hc1, hi1, ty1, R1⟩ := index_some ([.int 0, baseV.len, wid, rowV, colV] ++ ks.map Obj.int) (by simp)
    (by intro o ho; rcases List.mem_append.1 ho with ho | ho
        · simp only [List.mem_cons, List.not_mem_nil, or_false] at ho; rcases ho with rfl | rfl | rfl | rfl | rfl <;> rfl
        · exact kty o ho) relaxed
  obtain ⟨i1, hb1, bt1, B1⟩ := intBelow_leaf iv1 ty1 d
  obtain ⟨t1, ht1, tt1, T1⟩ := tensorBelow_px true (slTr i1) iv1 rfl ty1 none d hd
  obtain ⟨u1, hu1, ut1, U1⟩ := tensorBelow_px false (call "matrix_get" (.list .int) [slTr i1, i1]) iv1 rfl ty1 (some (slTr i1)) d hd
  have S1 : ∀ o, o = baseV ∨ o = activeV → Resolves (slTr i1).src (lm baseV.len o).src := fun o ho =>
    resolves_slTr ho (B1 _ (R1 (.int 0) (by simp) _ r0)) (B1 _ (R1 rowV (by simp) _ rrow)) (B1 _ (R1 (.int 0) (by simp) _ r0))
      (B1 _ (R1 baseV.len (by simp) _ resolves_baseLen))
  have V1 : ∀ o, o = baseV ∨ o = activeV → Resolves (call "matrix_get" (.list .int) [slTr i1, i1]).src (lv o).src := fun o ho =>
    resolves_call (.cons (resolves_slTr ho (B1 _ (R1 (.int 0) (by simp) _ r0)) (B1 _ (R1 baseV.len (by simp) _ resolves_baseLen))
      (B1 _ (R1 (.int 0) (by simp) _ r0)) (B1 _ (R1 colV (by simp) _ rcol))) (.cons (B1 _ (R1 rowV (by simp) _ rrow)) .nil))
  obtain ⟨g1, rg1, vg1⟩ := T1 f _ _ hf (fun k hk' => R1 (.int k) (hks k hk' _) _ .lit) (S1 baseV (.inl rfl)) (S1 activeV (.inr rfl))
  obtain ⟨h1, rh1, vh1⟩ := U1 f _ _ hf (fun k hk' => R1 (.int k) (hks k hk' _) _ .lit) (V1 baseV (.inl rfl)) (V1 activeV (.inr rfl))
  -- the result
  obtain ⟨cvp, ivp, hcp, hip, typ, Rp⟩ := index_some ([.int 0, baseV.len, wid] ++ ks.map Obj.int) (by simp)
    (by intro o ho; rcases List.mem_append.1 ho with ho | ho
        · simp only [List.mem_cons, List.not_mem_nil, or_false] at ho; rcases ho with rfl | rfl | rfl <;> rfl
        · exact kty o ho) relaxed
  obtain ⟨ip, hbp, btp, Bp⟩ := intBelow_leaf ivp typ d
  obtain ⟨tp, htp, ttp, Tp⟩ := tensorBelow_px true (slTr ip) ivp rfl typ none d hd
  have Sp : ∀ o, o = baseV ∨ o = activeV → Resolves (slTr ip).src (lp baseV.len o).src := fun o ho =>
    resolves_slTr ho (Bp _ (Rp (.int 0) (by simp) _ r0)) (Bp _ (Rp baseV.len (by simp) _ resolves_baseLen))
      (Bp _ (Rp (.int 0) (by simp) _ r0)) (Bp _ (Rp baseV.len (by simp) _ resolves_baseLen))
  obtain ⟨gp, rgp, vgp⟩ := Tp f _ _ hf (fun k hk' => Rp (.int k) (hks k hk' _) _ .lit) (Sp baseV (.inl rfl)) (Sp activeV (.inr rfl))
  obtain ⟨mg, me, hmg, hme, -⟩ := map_fns
  refine ⟨⟨gen0 ((g0.toT (lm baseV.len baseV).src (lm baseV.len activeV).src).toExpr true),
    gen1 ((h1.toT (lv baseV).src (lv activeV).src).toExpr false) ((g1.toT (lm baseV.len baseV).src (lm baseV.len activeV).src).toExpr true),
    genP ((gp.toT (lp baseV.len baseV).src (lp baseV.len activeV).src).toExpr true), [me]⟩, ⟨?_, ?_, ?_, .cons ⟨mg, hmg, hme⟩ .nil⟩, ?_⟩
  · refine ⟨⟨_, .bool⟩, ?_, resolves_gen0 (rz _ r0) (rl _ resolves_baseLen) rg0⟩
    · simp only [generalComputation, genWrites0, genReads, hc0, hi0, hb0, op_choose, slicedOrTransposed_op, ht0, hmz, hml, Option.bind_eq_bind,
        Option.bind_some]
      rw [listEq_of tt0]
      exact andObjs3G _ _ _
  · refine ⟨⟨_, .bool⟩, ?_, resolves_gen1 r0 resolves_baseLen r0 resolves_wid rh1 rg1⟩
    · have hc1' : chooseObj ([.int 0, baseV.len, (call "matrix_get" (.list .int) [baseV, .int 0]).len, rowV, colV] ++ ks.map Obj.int) = some cv1 := hc1
      simp only [generalComputation, genWrites1, genReads, base_row0, hc1', hi1, hb1, op_choose, slicedOrTransposed_op, slTr_get _ bt1, ht1, hu1,
        Option.bind_eq_bind, Option.bind_some]
      rw [listEq_of ut1, listEq_of tt1]
      exact andObjs6G _ _ _ _ _ _
  · refine ⟨⟨_, .bool⟩, ?_, resolves_genP rgp⟩
    · have hcp' : chooseObj ([.int 0, baseV.len, (call "matrix_get" (.list .int) [baseV, .int 0]).len] ++ ks.map Obj.int) = some cvp := hcp
      simp only [generalComputation, genReads, base_row0, hcp', hip, hbp, op_choose, slicedOrTransposed_op, htp, Option.bind_eq_bind,
        Option.bind_some]
      rw [listEq_of ttp]
      rfl
  · intro I H x hx
    exact (rhs_px H.model x baseV.len f g0 g1 h1 gp vg0 vg1 vh1 vgp).valid H.model.prims H.cols hx.rect (isWidth_len H.model.prims hx)

/-- C71 fails for deeper computations: building the space raises for every depth from three on. -/
theorem C71_computation_deep_refuted (d : Nat) (hd : d ≥ 3) (ks : List Int) (relaxed : Bool) :
    (generalComputation d (ks.map Obj.int) relaxed).inv0 genWrites0 genReads = none := by
  simp only [generalComputation, genWrites0, genReads, C58_tensor_deep_refuted _ _ _ d hd, Option.bind_eq_bind,
    Option.bind_none, Option.bind_fun_none]

/-! ### Selections -/

/-- A pixel computed by `if l ⋈ r then t else e`. -/
structure Cond where
  op : Cmp
  l : Ar
  r : Ar
  t : Ar
  e : Ar

def Cond.parts (c : Cond) : List Ar := [c.l, c.r, c.t, c.e]
/-- The pixel. -/
def Cond.val (c : Cond) (I : Interp) (b a : Int) : Int :=
  if c.op.test (c.l.val I 0 0 b a) (c.r.val I 0 0 b a) then c.t.val I 0 0 b a else c.e.val I 0 0 b a

def Cmp.toOp : Cmp → Op
  | .lt => .lt
  | .le => .le
  | .eq => .eq
  | .ge => .ge
  | .gt => .gt

def Ar.toA : Ar → AExp
  | .base => .leaf intX.src
  | .active => .leaf intY.src
  | .opacity => .leaf Ten.opacity.src
  | .rand => .leaf randCons.src
  | .const k => .leaf (Obj.int k).src
  | .bin o a b => .bin o a.toA b.toA

theorem Ar.toA_depth : ∀ s : Ar, s.toA.depth = s.depth
  | .base | .active | .opacity | .rand | .const _ => rfl
  | .bin _ a b => by simp only [Ar.toA, AExp.depth, Ar.depth, a.toA_depth, b.toA_depth]

theorem Ar.eval_toA {I : Interp} {ρ : Env} {b a o r : Int} (h1 : ρ "int_x" = .int b) (h2 : ρ "int_y" = .int a) (h3 : ρ "opacity" = .int o)
    (h4 : ρ "rand_cons" = .int r) : ∀ s : Ar, eval I ρ s.toA.toExpr = .int (s.val I o r b a)
  | .base => h1
  | .active => h2
  | .opacity => h3
  | .rand => h4
  | .const _ => rfl
  | .bin p l q => by
    cases p <;> simp [Ar.toA, AExp.toExpr, IntOp.op, eval, evals, evalOp, Ar.eval_toA h1 h2 h3 h4 l, Ar.eval_toA h1 h2 h3 h4 q, Ar.val,
      IntOp.val]

theorem Cmp.eval_test (o : Cmp) {I : Interp} {ρ : Env} {p q : Expr} {a b : Int} (hp : eval I ρ p = .int a) (hq : eval I ρ q = .int b) :
    eval I ρ (.node o.toOp .bool [p, q]) = .bool (decide (o.test a b)) := by
  cases o <;> simp [Cmp.toOp, eval, evals, evalOp, hp, hq] <;> rfl

theorem Cond.eval {I : Interp} {ρ : Env} {b a : Int} (c : Cond) (h1 : ρ "int_x" = .int b) (h2 : ρ "int_y" = .int a) (h3 : ρ "opacity" = .int 0)
    (h4 : ρ "rand_cons" = .int 0) :
    Metalift.eval I ρ (mkIte .int (.node c.op.toOp .bool [c.l.toA.toExpr, c.r.toA.toExpr]) c.t.toA.toExpr c.e.toA.toExpr) = .int (c.val I b a) := by
  have E := fun s : Ar => Ar.eval_toA (I := I) h1 h2 h3 h4 s
  have T := Cmp.eval_test c.op (E c.l) (E c.r)
  simp only [mkIte, Metalift.eval, evals, evalOp] at T ⊢
  rw [T, E, E]
  by_cases h : c.op.test (c.l.val I 0 0 b a) (c.r.val I 0 0 b a) <;> simp [Cond.val, h]

theorem Ar.toA_over {v : Obj} {ks : List Int} (hx : Resolves v.src intX.src) (hy : Resolves v.src intY.src)
    (hk : ∀ k ∈ ks, Resolves v.src (Obj.int k).src) : ∀ s : Ar, s.Plain → (∀ k ∈ s.consts, k ∈ ks) → s.toA.Over (Resolves v.src)
  | .base, _, _ => hx
  | .active, _, _ => hy
  | .const k, _, h => hk k (h k (List.mem_cons_self ..))
  | .bin _ a b, h1, h2 => ⟨a.toA_over hx hy hk h1.1 fun k h => h2 k (List.mem_append_left _ h),
      b.toA_over hx hy hk h1.2 fun k h => h2 k (List.mem_append_right _ h)⟩

theorem rhs_fill {I : Interp} {x : Input} {f : Int → Int → Int} {tm vm : Expr → Expr → Expr} (C : Computes2 I x f tm vm) (w : Obj) :
    Rhs I x f w (tm (lm w baseV).src (lm w activeV).src) (vm (lv baseV).src (lv activeV).src) (tm (lm w baseV).src (lm w activeV).src)
      (tm (lp w baseV).src (lp w activeV).src) :=
  ⟨fun s => C.mat s _ _, fun s => C.mat s _ _, fun s => C.vec s _ _, fun s => C.mat s _ _⟩

/-- The two operand and its transposed, before the slices. -/
def opTr : Obj := ⟨.node .choose (OTy.matrix .int).toTy [opObj.src, opObj.transpose.src], .matrix .int⟩
theorem opTr_choose : chooseObj [opObj, opObj.transpose] = some opTr := rfl
theorem sliced_opTr (i : Obj) : sliced opTr i = some (slObj opTr i i i i) := rfl
theorem resolves_opTr {o : Obj} (ho : o = baseV ∨ o = activeV) : Resolves opTr.src o.src :=
  .choose (List.mem_cons_self ..) (resolves_op ho)

/-- C71: for every depth, every list of constants and every pixel computed by a conditional of that depth with these constants, the general
search space for selections contains a solution for all rectangular matrices with a column. -/
theorem C71_select_partial (d : Nat) (ks : List Int) (relaxed : Bool) (f : Cond)
    (hf : ∀ e ∈ f.parts, e.depth ≤ d ∧ e.Plain ∧ ∀ k ∈ e.consts, k ∈ ks) :
    ∃ c : Candidate, c.Of (generalSelect d (ks.map Obj.int) relaxed) genWrites0 genWrites1 genReads ∧
      c.SolvesFor (generalSelect d (ks.map Obj.int) relaxed) (fun I _ => f.val I) Rect := by
  have r0 : Resolves (Obj.int 0).src (Obj.int 0).src := .lit
  have rrow : Resolves rowV.src rowV.src := .var
  have rcol : Resolves colV.src colV.src := .var
  have rfn : Resolves selectFn.src selectFn.src := .var
  obtain ⟨mz, hmz, -, rz⟩ := relaxed_some (.int 0) rfl relaxed
  obtain ⟨ml, hml, -, rl⟩ := relaxed_some baseV.len rfl relaxed
  obtain ⟨mw, hmw, -, rw'⟩ := relaxed_some wid rfl relaxed
  have hmw' : maybeRelaxed (call "matrix_get" (.list .int) [baseV, .int 0]).len relaxed = some mw := hmw
  -- the function
  obtain ⟨v, hv, vty, vl⟩ := chooseObj_lang (t := .int) (os := [intX, intY] ++ ks.map Obj.int) (by simp) (by
    intro o ho
    simp only [List.mem_append, List.mem_cons, List.not_mem_nil, or_false, List.mem_map] at ho
    rcases ho with (rfl | rfl) | ⟨k, -, rfl⟩ <;> rfl)
  obtain ⟨fg, hfg, -, -, comp⟩ := C58_conditionals v vty d
  have over : ∀ e ∈ f.parts, e.toA.depth ≤ d ∧ e.toA.Over (Resolves v.src) := fun e he =>
    ⟨by rw [e.toA_depth]; exact (hf e he).1, e.toA_over (ks := ks) ((vl _).2 ⟨intX, by simp, .var⟩) ((vl _).2 ⟨intY, by simp, .var⟩)
      (fun k hk => (vl _).2 ⟨.int k, List.mem_append_right _ (List.mem_map_of_mem hk), .lit⟩) (hf e he).2.1 (hf e he).2.2⟩
  obtain ⟨fe, rfe, vfe⟩ := comp f.op.toOp (by cases f.op <;> simp [Cmp.toOp, cmpOps]) f.l.toA f.r.toA f.t.toA f.e.toA (by
    intro t ht
    simp only [List.mem_cons, List.not_mem_nil, or_false] at ht
    rcases ht with rfl | rfl | rfl | rfl <;> exact over _ (by simp [Cond.parts]))
  -- the indices
  obtain ⟨cv0, iv0, hc0, hi0, ty0, R0⟩ := index_some [.int 0, baseV.len, wid, rowV] (by simp)
    (by intro o ho; simp only [List.mem_cons, List.not_mem_nil, or_false] at ho; rcases ho with rfl | rfl | rfl | rfl <;> rfl) relaxed
  obtain ⟨i0, hb0, bt0, B0⟩ := intBelow_leaf iv0 ty0 d
  obtain ⟨cv1, iv1, hc1, hi1, ty1, R1⟩ := index_some [.int 0, baseV.len, wid, rowV, colV] (by simp)
    (by intro o ho; simp only [List.mem_cons, List.not_mem_nil, or_false] at ho; rcases ho with rfl | rfl | rfl | rfl | rfl <;> rfl) relaxed
  obtain ⟨i1, hb1, bt1, B1⟩ := intBelow_leaf iv1 ty1 d
  obtain ⟨cvp, ivp, hcp, hip, typ, Rp⟩ := index_some [.int 0, baseV.len, wid] (by simp)
    (by intro o ho; simp only [List.mem_cons, List.not_mem_nil, or_false] at ho; rcases ho with rfl | rfl | rfl <;> rfl) relaxed
  obtain ⟨ip, hbp, btp, Bp⟩ := intBelow_leaf ivp typ d
  have hc0' : chooseObj [.int 0, baseV.len, (call "matrix_get" (.list .int) [baseV, .int 0]).len, rowV] = some cv0 := hc0
  have hc1' : chooseObj [.int 0, baseV.len, (call "matrix_get" (.list .int) [baseV, .int 0]).len, rowV, colV] = some cv1 := hc1
  have hcp' : chooseObj [.int 0, baseV.len, (call "matrix_get" (.list .int) [baseV, .int 0]).len] = some cvp := hcp
  have S0 : ∀ o, o = baseV ∨ o = activeV → Resolves (slTr i0).src (lm wid o).src := fun o ho =>
    resolves_slTr ho (B0 _ (R0 (.int 0) (by simp) _ r0)) (B0 _ (R0 rowV (by simp) _ rrow)) (B0 _ (R0 (.int 0) (by simp) _ r0))
      (B0 _ (R0 wid (by simp) _ resolves_wid))
  have S1 : ∀ o, o = baseV ∨ o = activeV → Resolves (slTr i1).src (lm wid o).src := fun o ho =>
    resolves_slTr ho (B1 _ (R1 (.int 0) (by simp) _ r0)) (B1 _ (R1 rowV (by simp) _ rrow)) (B1 _ (R1 (.int 0) (by simp) _ r0))
      (B1 _ (R1 wid (by simp) _ resolves_wid))
  have V1 : ∀ o, o = baseV ∨ o = activeV → Resolves (call "matrix_get" (.list .int) [slTr i1, i1]).src (lv o).src := fun o ho =>
    resolves_call (.cons (resolves_slTr ho (B1 _ (R1 (.int 0) (by simp) _ r0)) (B1 _ (R1 baseV.len (by simp) _ resolves_baseLen))
      (B1 _ (R1 (.int 0) (by simp) _ r0)) (B1 _ (R1 colV (by simp) _ rcol))) (.cons (B1 _ (R1 rowV (by simp) _ rrow)) .nil))
  have Sp : ∀ o, o = baseV ∨ o = activeV → Resolves (slObj opTr ip ip ip ip).src (lp wid o).src := fun o ho =>
    resolves_slObj (resolves_opTr ho) (Bp _ (Rp (.int 0) (by simp) _ r0)) (Bp _ (Rp baseV.len (by simp) _ resolves_baseLen))
      (Bp _ (Rp (.int 0) (by simp) _ r0)) (Bp _ (Rp wid (by simp) _ resolves_wid))
  have fillm : ∀ {m : Obj} {p q : Expr}, Resolves m.src p → Resolves m.src q →
      Resolves (call "matrix_selection_two_args" (.matrix .int) [m, m, selectFn]).src (Bench.darken.fill true p q) := fun hp hq =>
    .node (by simp) (.cons hp (.cons hq (.cons rfn .nil)))
  have fillv : ∀ {m : Obj} {p q : Expr}, Resolves m.src p → Resolves m.src q →
      Resolves (call "selection_two_args" (.list .int) [m, m, selectFn]).src (Bench.darken.fill false p q) := fun hp hq =>
    .node (by simp) (.cons hp (.cons hq (.cons rfn .nil)))
  have w0 : byName genWrites0 "agg.result" = some outV ∧ byName genWrites0 "col" = some colV ∧ byName genWrites0 "row" = some rowV := ⟨rfl, rfl, rfl⟩
  have w1 : byName genWrites1 "col" = some colV ∧ byName genWrites1 "row_vec" = some rowVecV := ⟨rfl, rfl⟩
  have sc : byName [outV, rowV] "agg.result" = some outV ∧ byName [outV, rowV] "row" = some rowV := ⟨rfl, rfl⟩
  have rd : byName genReads "base" = some baseV ∧ byName genReads "active" = some activeV := ⟨rfl, rfl⟩
  obtain ⟨mg, me, hmg, hme, -⟩ := map_fns
  refine ⟨⟨gen0 (Bench.darken.fill true (lm wid baseV).src (lm wid activeV).src),
    gen1 (Bench.darken.fill false (lv baseV).src (lv activeV).src) (Bench.darken.fill true (lm wid baseV).src (lm wid activeV).src),
    genP (Bench.darken.fill true (lp wid baseV).src (lp wid activeV).src), [fe, me]⟩,
    ⟨?_, ?_, ?_, .cons ⟨fg, ?_, rfe⟩ (.cons ⟨mg, hmg, hme⟩ .nil)⟩, ?_⟩
  · refine ⟨⟨_, .bool⟩, ?_, resolves_gen0 (rz _ r0) (rl _ resolves_baseLen) (fillm (S0 _ (.inl rfl)) (S0 _ (.inr rfl)))⟩
    simp only [generalSelect, w0, rd, base_row0, hc0', hi0, hb0, op_choose, slicedOrTransposed_op, hmz, hml, Option.bind_eq_bind,
      Option.bind_some]
    exact andObjs3G _ _ _
  · refine ⟨⟨_, .bool⟩, ?_, resolves_gen1 (rz _ r0) (rl _ resolves_baseLen) (rz _ r0) (rw' _ resolves_wid)
      (fillv (V1 _ (.inl rfl)) (V1 _ (.inr rfl))) (fillm (S1 _ (.inl rfl)) (S1 _ (.inr rfl)))⟩
    simp only [generalSelect, generalInv1, w1, sc, rd, base_row0, hc1', hi1, hb1, op_choose, slicedOrTransposed_op, slTr_get _ bt1, hmz, hml, hmw',
      Option.bind_eq_bind, Option.bind_some]
    exact andObjs6G _ _ _ _ _ _
  · refine ⟨⟨_, .bool⟩, ?_, resolves_genP (fillm (Sp _ (.inl rfl)) (Sp _ (.inr rfl)))⟩
    simp only [generalSelect, List.head?_cons, rd, base_row0, hcp', hip, hbp, op_choose, opTr_choose, sliced_opTr, Option.bind_eq_bind,
      Option.bind_some]
    rfl
  · exact (congrArg (fun o => o.bind fun v => condBelow v d) hv).trans hfg
  · intro I H x hx
    have F := H.fns
    have A := H.apply ("select_two_args", ["int_x", "int_y"], _) (List.mem_cons_self ..)
    have hap : ∀ a c, I.apply (.fn "select_two_args") [.int a, .int c] = .int (f.val I a c) := by
      intro a c
      cases F with
      | cons h _ =>
        refine (A _).trans ((h (argEnv a c 0 0) ?_).trans ?_)
        · intro p hp
          simp only [List.mem_cons, List.not_mem_nil, or_false] at hp
          rcases hp with rfl | rfl <;> exact ⟨_, rfl⟩
        · rw [vfe]; exact f.eval rfl rfl rfl rfl
    exact (rhs_fill (computes_select .darken (fun _ _ _ => rfl) H.model x _ hap) wid).valid H.model.prims H.cols hx
      (isWidth_wid H.model.prims H.cols)

/-! ### `dissolve` -/

/-- The variables of `dissolve_blend_8`. -/
def disWrites0 : List Obj := [outV, colV, pixelV, randV, rowV, rowVecV]
@[inherit_doc disWrites0] def disWrites1 : List Obj := [colV, pixelV, randV, rowVecV]
@[inherit_doc disWrites0] def disReads : List Obj := [baseV, activeV, opacity, randCons]

theorem Ar.toA_over4 {v : Obj} (hx : Resolves v.src intX.src) (hy : Resolves v.src intY.src)
    (ho : Resolves v.src Ten.opacity.src) (hr : Resolves v.src randCons.src) : ∀ s : Ar, s.consts = [] → s.toA.Over (Resolves v.src)
  | .base, _ => hx
  | .active, _ => hy
  | .opacity, _ => ho
  | .rand, _ => hr
  | .const k, h => by simp [Ar.consts] at h
  | .bin _ a b, h => by
    have h := List.append_eq_nil_iff.1 h
    exact ⟨a.toA_over4 hx hy ho hr h.1, b.toA_over4 hx hy ho hr h.2⟩

/-- C71: for every depth and every pixel computed from the two pixels, the opacity and the random number by an expression of that depth without
constants, the general search space for `dissolve` contains a solution for the square matrices.  Partial: see `C71_dissolve_wide_refuted`. -/
theorem C71_dissolve_partial (d : Nat) (relaxed : Bool) (f : Ar) (hf : f.depth ≤ d) (hk : f.consts = []) :
    ∃ c : Candidate, c.Of (generalDissolve d relaxed) disWrites0 disWrites1 disReads ∧
      c.SolvesFor (generalDissolve d relaxed) (fun I x => f.val I x.opac x.rand) Square := by
  have r0 : Resolves (Obj.int 0).src (Obj.int 0).src := .lit
  have rrow : Resolves rowV.src rowV.src := .var
  have rcol : Resolves colV.src colV.src := .var
  have rfn : Resolves dissolveSelectFn.src dissolveSelectFn.src := .var
  have rop : Resolves opacity.src opacity.src := .var
  have rrc : Resolves randCons.src randCons.src := .var
  obtain ⟨mz, hmz, -, rz⟩ := relaxed_some (.int 0) rfl relaxed
  obtain ⟨ml, hml, -, rl⟩ := relaxed_some baseV.len rfl relaxed
  obtain ⟨mw, hmw, -, rw'⟩ := relaxed_some wid rfl relaxed
  have hmw' : maybeRelaxed (call "matrix_get" (.list .int) [baseV, .int 0]).len relaxed = some mw := hmw
  -- the function
  obtain ⟨v, hv, vty, vl⟩ := chooseObj_lang (t := .int) (os := [intX, intY, opacity, randCons]) (by simp) (by
    intro o ho
    simp only [List.mem_cons, List.not_mem_nil, or_false] at ho
    rcases ho with rfl | rfl | rfl | rfl <;> rfl)
  obtain ⟨fg, hfg, -, -, comp⟩ := C58_int_expressions v vty d
  obtain ⟨fe, rfe, vfe⟩ := comp f.toA (by rw [f.toA_depth]; exact hf) (f.toA_over4 ((vl _).2 ⟨intX, by simp, .var⟩) ((vl _).2 ⟨intY, by simp, .var⟩)
    ((vl _).2 ⟨opacity, by simp, .var⟩) ((vl _).2 ⟨randCons, by simp, .var⟩) hk)
  -- the indices
  obtain ⟨cv0, i0, hc0, hi0, bt0, R0⟩ := index_some [.int 0, baseV.len, rowV] (by simp)
    (by intro o ho; simp only [List.mem_cons, List.not_mem_nil, or_false] at ho; rcases ho with rfl | rfl | rfl <;> rfl) relaxed
  obtain ⟨cv1, i1, hc1, hi1, bt1, R1⟩ := index_some [.int 0, baseV.len, wid, rowV, colV] (by simp)
    (by intro o ho; simp only [List.mem_cons, List.not_mem_nil, or_false] at ho; rcases ho with rfl | rfl | rfl | rfl | rfl <;> rfl) relaxed
  obtain ⟨cvp, ip, hcp, hip, btp, Rp⟩ := index_some [.int 0, baseV.len, wid] (by simp)
    (by intro o ho; simp only [List.mem_cons, List.not_mem_nil, or_false] at ho; rcases ho with rfl | rfl | rfl <;> rfl) relaxed
  have hc1' : chooseObj [.int 0, baseV.len, (call "matrix_get" (.list .int) [baseV, .int 0]).len, rowV, colV] = some cv1 := hc1
  have hcp' : chooseObj [.int 0, baseV.len, (call "matrix_get" (.list .int) [baseV, .int 0]).len] = some cvp := hcp
  have S0 : ∀ o, o = baseV ∨ o = activeV → Resolves (slTr i0).src (lm baseV.len o).src := fun o ho =>
    resolves_slTr ho (R0 (.int 0) (by simp) _ r0) (R0 rowV (by simp) _ rrow) (R0 (.int 0) (by simp) _ r0)
      (R0 baseV.len (by simp) _ resolves_baseLen)
  have S1 : ∀ o, o = baseV ∨ o = activeV → Resolves (slTr i1).src (lm baseV.len o).src := fun o ho =>
    resolves_slTr ho (R1 (.int 0) (by simp) _ r0) (R1 rowV (by simp) _ rrow) (R1 (.int 0) (by simp) _ r0)
      (R1 baseV.len (by simp) _ resolves_baseLen)
  have V1 : ∀ o, o = baseV ∨ o = activeV → Resolves (call "matrix_get" (.list .int) [slTr i1, i1]).src (lv o).src := fun o ho =>
    resolves_call (.cons (resolves_slTr ho (R1 (.int 0) (by simp) _ r0) (R1 baseV.len (by simp) _ resolves_baseLen)
      (R1 (.int 0) (by simp) _ r0) (R1 colV (by simp) _ rcol)) (.cons (R1 rowV (by simp) _ rrow) .nil))
  have Sp : ∀ o, o = baseV ∨ o = activeV → Resolves (slObj opTr ip ip ip ip).src (lp baseV.len o).src := fun o ho =>
    resolves_slObj (resolves_opTr ho) (Rp (.int 0) (by simp) _ r0) (Rp baseV.len (by simp) _ resolves_baseLen)
      (Rp (.int 0) (by simp) _ r0) (Rp baseV.len (by simp) _ resolves_baseLen)
  have fillm : ∀ {m : Obj} {p q : Expr}, Resolves m.src p → Resolves m.src q →
      Resolves (call "dissolve_matrix_selection_two_args" (.matrix .int) [m, m, opacity, randCons, dissolveSelectFn]).src
        (Bench.dissolve.fill true p q) := fun hp hq => .node (by simp) (.cons hp (.cons hq (.cons rop (.cons rrc (.cons rfn .nil)))))
  have fillv : ∀ {m : Obj} {p q : Expr}, Resolves m.src p → Resolves m.src q →
      Resolves (call "dissolve_selection_two_args" (.list .int) [m, m, opacity, randCons, dissolveSelectFn]).src
        (Bench.dissolve.fill false p q) := fun hp hq => .node (by simp) (.cons hp (.cons hq (.cons rop (.cons rrc (.cons rfn .nil)))))
  have w0 : byName disWrites0 "agg.result" = some outV ∧ byName disWrites0 "col" = some colV ∧ byName disWrites0 "row" = some rowV := ⟨rfl, rfl, rfl⟩
  have w1 : byName disWrites1 "col" = some colV ∧ byName disWrites1 "row_vec" = some rowVecV := ⟨rfl, rfl⟩
  have sc : byName [outV, rowV] "agg.result" = some outV ∧ byName [outV, rowV] "row" = some rowV := ⟨rfl, rfl⟩
  have rd : byName disReads "base" = some baseV ∧ byName disReads "active" = some activeV ∧ byName disReads "opacity" = some opacity ∧
    byName disReads "rand_cons" = some randCons := ⟨rfl, rfl, rfl, rfl⟩
  obtain ⟨mg, me, hmg, hme, -⟩ := map_fns
  refine ⟨⟨gen0 (Bench.dissolve.fill true (lm baseV.len baseV).src (lm baseV.len activeV).src),
    gen1 (Bench.dissolve.fill false (lv baseV).src (lv activeV).src) (Bench.dissolve.fill true (lm baseV.len baseV).src (lm baseV.len activeV).src),
    genP (Bench.dissolve.fill true (lp baseV.len baseV).src (lp baseV.len activeV).src), [fe, me]⟩,
    ⟨?_, ?_, ?_, .cons ⟨fg, ?_, rfe⟩ (.cons ⟨mg, hmg, hme⟩ .nil)⟩, ?_⟩
  · refine ⟨⟨_, .bool⟩, ?_, resolves_gen0 (rz _ r0) (rl _ resolves_baseLen) (fillm (S0 _ (.inl rfl)) (S0 _ (.inr rfl)))⟩
    simp only [generalDissolve, w0, rd, hc0, hi0, op_choose, slicedOrTransposed_op, hmz, hml, Option.bind_eq_bind,
      Option.bind_some]
    exact andObjs3G _ _ _
  · refine ⟨⟨_, .bool⟩, ?_, resolves_gen1 (rz _ r0) (rl _ resolves_baseLen) (rz _ r0) (rw' _ resolves_wid)
      (fillv (V1 _ (.inl rfl)) (V1 _ (.inr rfl))) (fillm (S1 _ (.inl rfl)) (S1 _ (.inr rfl)))⟩
    simp only [generalDissolve, generalInv1, w1, sc, rd, base_row0, hc1', hi1, op_choose, slicedOrTransposed_op, slTr_get _ bt1, hmz, hml, hmw',
      Option.bind_eq_bind, Option.bind_some]
    exact andObjs6G _ _ _ _ _ _
  · refine ⟨⟨_, .bool⟩, ?_, resolves_genP (fillm (Sp _ (.inl rfl)) (Sp _ (.inr rfl)))⟩
    simp only [generalDissolve, List.head?_cons, rd, base_row0, hcp', hip, op_choose, opTr_choose, sliced_opTr, Option.bind_eq_bind,
      Option.bind_some]
    rfl
  · exact (congrArg (fun o => o.bind fun v => intBelow v d) hv).trans hfg
  · intro I H x hx
    have F := H.fns
    have A := H.apply ("dissolve_select_two_args", ["int_x", "int_y", "opacity", "rand_cons"], _) (List.mem_cons_self ..)
    have hap : ∀ a c, I.apply (.fn "dissolve_select_two_args") [.int a, .int c, .int x.opac, .int x.rand] = .int (f.val I x.opac x.rand a c) := by
      intro a c
      cases F with
      | cons h _ =>
        refine (A _).trans ((h (argEnv a c x.opac x.rand) ?_).trans ?_)
        · intro p hp
          simp only [List.mem_cons, List.not_mem_nil, or_false] at hp
          rcases hp with rfl | rfl | rfl | rfl <;> exact ⟨_, rfl⟩
        · rw [vfe]; exact Ar.eval_toA rfl rfl rfl rfl f
    exact (rhs_fill (computes_dissolve H.model x _ hap) baseV.len).valid H.model.prims H.cols hx.rect
      (isWidth_len H.model.prims hx)

/-! ### The hypotheses are met -/

theorem std_cols (drop : Bool) (ap : Val → List Val → Val) (idiv : Int → Int → Int) : ColPrims (stdInterp drop ap idiv) where
  slice m a b _ _ _ := by
    show onCols (fun r a b => (r.take b).drop a) [matV m, .int a, .int b] = _
    simp only [matV, onCols, List.map_map]
    congr 1
    refine List.map_congr_left fun r _ => ?_
    simp [vecV, Val.asList, List.map_take, List.map_drop]
  nil a b := rfl
  zero m i h0 h1 := by
    have e : (stdInterp drop ap idiv).fn "matrix_col_slice" [matV m, .int 0, .int 0] = .list (m.map fun _ => vecV []) := by
      show onCols (fun r a b => (r.take b).drop a) [matV m, .int 0, .int 0] = _
      simp only [matV, onCols, List.map_map]
      congr 1
    rw [e]
    refine (std_prims drop ap idiv).matrix.get _ i (vecV []) h0 ?_
    have : i.toNat < m.length := by omega
    simp [this]
  len v := by cases v <;> exact ⟨_, rfl⟩

/-- The functions found: `g` for selections; `map_int_to_int` is not given a meaning of its own. -/
def selAp (g : List Val → Val) : Val → List Val → Val
  | .fn n, vs => if n = "map_int_to_int" then rktFn n vs else g vs
  | _, _ => .int 0

theorem map_hasBody (drop : Bool) (g : List Val → Val) (idiv : Int → Int → Int) {e : Expr}
    (h : ∃ o, mapSynth.2.2 = some o ∧ Resolves o.src e) : HasBody (stdInterp drop (selAp g) idiv) "map_int_to_int" ["int_x"] e := by
  obtain ⟨o, ho, hr⟩ := h
  have ho' : o = ⟨.node .choose .int [(callIntegerExp intX).src, (callIntegerSqrt intX).src], .int⟩ := Option.some.inj (ho.symm.trans rfl)
  subst ho'
  intro ρ hρ
  obtain ⟨i, hi⟩ := hρ "int_x" (by simp)
  have hx : eval (stdInterp drop (selAp g) idiv) ρ intX.src = .int i := hi
  obtain ⟨a, ha, hr⟩ := resolves_choose.1 hr
  simp only [List.mem_cons, List.not_mem_nil, or_false] at ha
  have key : ∀ n, (n = "integer_exp" ∨ n = "integer_sqrt") → Resolves (call n .int [intX]).src e →
      eval (stdInterp drop (selAp g) idiv) ρ e = .int 0 := by
    intro n hn hr
    obtain ⟨b, hb, rfl⟩ := (resolves_one (by simp)).1 hr
    obtain rfl := resolves_var.1 hb
    have : ∀ n, (n = "integer_exp" ∨ n = "integer_sqrt") → (stdInterp drop (selAp g) idiv).fn n [.int i] = .int 0 := by
      rintro n (rfl | rfl) <;> rfl
    exact (eval_call (stdInterp drop (selAp g) idiv) ρ n .int [intX]).trans (by rw [List.map_cons, hx]; exact this n hn)
  have h0 : eval (stdInterp drop (selAp g) idiv) ρ e = .int 0 := by
    rcases ha with rfl | rfl
    · exact key _ (.inl rfl) hr
    · exact key _ (.inr rfl) hr
  rw [h0]
  show rktFn "map_int_to_int" [ρ "int_x"] = _
  rw [hi]
  rfl

theorem map_apply (drop : Bool) (g : List Val → Val) (idiv : Int → Int → Int) (vs : List Val) :
    (stdInterp drop (selAp g) idiv).apply (.fn "map_int_to_int") vs = (stdInterp drop (selAp g) idiv).fn "map_int_to_int" vs := rfl

/-- Every candidate for a computation has an interpretation. -/
theorem computation_means {c : Candidate} {d : Nat} {os : List Obj} {relaxed : Bool} {w0 w1 rd : List Obj}
    (h : c.Of (generalComputation d os relaxed) w0 w1 rd) (drop : Bool) (g : List Val → Val) (idiv : Int → Int → Int) :
    c.Means (generalComputation d os relaxed) (stdInterp drop (selAp g) idiv) where
  model := std_model drop _ _
  cols := std_cols drop _ _
  fns := by
    have F := h.fns
    change All2 _ [mapSynth] _ at F
    change All2 _ [mapSynth] _
    generalize c.fns = fs at F
    cases F with
    | cons h F => cases F; exact .cons (map_hasBody drop g idiv h) .nil
  apply := by
    intro s hs vs
    have : s = mapSynth := by simpa [generalComputation] using hs
    subst this
    exact map_apply drop g idiv vs

/-- The parameters as an environment. -/
def parEnv : List String → List Val → Env
  | p :: ps, v :: vs => fun n => if n = p then v else parEnv ps vs n
  | _, _ => fun _ => .int 0

theorem parEnv_map (ρ : Env) : ∀ (ps : List String) (n : String), n ∈ ps → parEnv ps (ps.map ρ) n = ρ n
  | p :: ps, n, h => by
    simp only [List.map_cons, parEnv]
    split
    · rename_i h; rw [h]
    · rename_i hne
      rcases List.mem_cons.1 h with rfl | h
      · exact absurd rfl hne
      · exact parEnv_map ρ ps n h

theorem AExp.eval_congr {I J : Interp} {ρ σ : Env} (hd : I.idiv = J.idiv)
    (hs : ∀ v, I.fn "integer_sqrt" [v] = J.fn "integer_sqrt" [v]) (he : ∀ v, I.fn "integer_exp" [v] = J.fn "integer_exp" [v]) {P : Expr → Prop}
    (hP : ∀ e, P e → eval I ρ e = eval J σ e) : ∀ t : AExp, t.Over P → eval I ρ t.toExpr = eval J σ t.toExpr
  | .leaf e, h => hP e h
  | .bin o a b, h => by
    have ha := a.eval_congr hd hs he hP h.1
    have hb := b.eval_congr hd hs he hP h.2
    cases o <;> simp only [AExp.toExpr, IntOp.op, eval, evals, evalOp, ha, hb, hd]
  | .sqrt a, h => by
    have ha := a.eval_congr hd hs he hP h
    simp only [AExp.toExpr, eval_mkCall, List.map_cons, List.map_nil, ha, hs]
  | .exp a, h => by
    have ha := a.eval_congr hd hs he hP h
    simp only [AExp.toExpr, eval_mkCall, List.map_cons, List.map_nil, ha, he]

/-- The interpretation for the candidates of the other two spaces: the function found is given by its body. -/
def bodyInterp (drop : Bool) (ps : List String) (e : Expr) (idiv : Int → Int → Int) : Interp :=
  stdInterp drop (selAp fun vs => eval (stdInterp drop (selAp fun _ => .int 0) idiv) (parEnv ps vs) e) idiv

theorem body_congr (drop : Bool) (ps : List String) (e : Expr) (idiv : Int → Int → Int) (ρ : Env) (t : AExp) {P : Expr → Prop} (h : t.Over P)
    (hP : ∀ l, P l → (∃ n ∈ ps, ∃ ty, l = .var n ty) ∨ ∃ k, l = .lit k) :
    eval (stdInterp drop (selAp fun _ => .int 0) idiv) (parEnv ps (ps.map ρ)) t.toExpr = eval (bodyInterp drop ps e idiv) ρ t.toExpr :=
  AExp.eval_congr (I := stdInterp drop (selAp fun _ => .int 0) idiv) (J := bodyInterp drop ps e idiv) (P := P) rfl (fun _ => rfl) (fun _ => rfl) (fun l hl => by
    rcases hP l hl with ⟨n, hn, ty, rfl⟩ | ⟨k, rfl⟩
    · exact parEnv_map ρ ps n hn
    · rfl) t h

theorem cmp_evalOp (I J : Interp) {op : Op} (h : op ∈ cmpOps) (vs : List Val) : evalOp I op vs = evalOp J op vs := by
  simp only [cmpOps, List.mem_cons, List.not_mem_nil, or_false] at h
  rcases h with rfl | rfl | rfl | rfl | rfl <;> rcases vs with _ | ⟨_, _ | ⟨_, _ | _⟩⟩ <;> rfl

/-- Every candidate for `dissolve` has an interpretation. -/
theorem dissolve_means {c : Candidate} {d : Nat} {relaxed : Bool} {w0 w1 rd : List Obj}
    (h : c.Of (generalDissolve d relaxed) w0 w1 rd) (drop : Bool) (idiv : Int → Int → Int) :
    ∃ e, c.Means (generalDissolve d relaxed) (bodyInterp drop ["int_x", "int_y", "opacity", "rand_cons"] e idiv) := by
  have F := h.fns
  obtain ⟨v, hv, vty, vl⟩ := chooseObj_lang (t := .int) (os := [intX, intY, opacity, randCons]) (by simp) (by
    intro o ho
    simp only [List.mem_cons, List.not_mem_nil, or_false] at ho
    rcases ho with rfl | rfl | rfl | rfl <;> rfl)
  obtain ⟨fg, hfg, -, snd, -⟩ := C58_int_expressions v vty d
  change All2 _ [("dissolve_select_two_args", ["int_x", "int_y", "opacity", "rand_cons"], _), mapSynth] _ at F
  generalize hfs : c.fns = fs at F
  cases F with
  | cons h1 F => cases F with
    | cons h2 F =>
      cases F
      rename_i e e2
      obtain ⟨g, hg, hr⟩ := h1
      have : g = fg := Option.some.inj (hg.symm.trans ((congrArg (fun o => o.bind fun v => intBelow v d) hv).trans hfg))
      subst this
      obtain ⟨t, -, ho, rfl⟩ := snd e hr
      refine ⟨t.toExpr, std_model drop _ _, std_cols drop _ _, ?_, ?_⟩
      · rw [hfs]
        refine .cons (fun ρ _ => ?_) (.cons (map_hasBody drop _ idiv h2) .nil)
        refine body_congr drop _ _ idiv ρ t ho fun l hl => ?_
        obtain ⟨o, ho, hl⟩ := (vl l).1 hl
        simp only [List.mem_cons, List.not_mem_nil, or_false] at ho
        rcases ho with rfl | rfl | rfl | rfl <;> obtain rfl := resolves_var.1 hl <;> exact .inl ⟨_, by simp, _, rfl⟩
      · intro s hs vs
        change s ∈ [("dissolve_select_two_args", ["int_x", "int_y", "opacity", "rand_cons"], _), mapSynth] at hs
        simp only [List.mem_cons, List.not_mem_nil, or_false] at hs
        rcases hs with rfl | rfl
        · rfl
        · exact map_apply drop _ idiv vs

/-- Every candidate for a selection has an interpretation. -/
theorem select_means {c : Candidate} {d : Nat} {ks : List Int} {relaxed : Bool} {w0 w1 rd : List Obj}
    (h : c.Of (generalSelect d (ks.map Obj.int) relaxed) w0 w1 rd) (drop : Bool) (idiv : Int → Int → Int) :
    ∃ e, c.Means (generalSelect d (ks.map Obj.int) relaxed) (bodyInterp drop ["int_x", "int_y"] e idiv) := by
  have F := h.fns
  obtain ⟨v, hv, vty, vl⟩ := chooseObj_lang (t := .int) (os := [intX, intY] ++ ks.map Obj.int) (by simp) (by
    intro o ho
    simp only [List.mem_append, List.mem_cons, List.not_mem_nil, or_false, List.mem_map] at ho
    rcases ho with (rfl | rfl) | ⟨k, -, rfl⟩ <;> rfl)
  obtain ⟨fg, hfg, -, snd, -⟩ := C58_conditionals v vty d
  change All2 _ [("select_two_args", ["int_x", "int_y"], _), mapSynth] _ at F
  generalize hfs : c.fns = fs at F
  cases F with
  | cons h1 F => cases F with
    | cons h2 F =>
      cases F
      rename_i e e2
      obtain ⟨g, hg, hr⟩ := h1
      have : g = fg := Option.some.inj (hg.symm.trans ((congrArg (fun o => o.bind fun v => condBelow v d) hv).trans hfg))
      subst this
      obtain ⟨op, hop, a, b, u, w, hall, rfl⟩ := snd e hr
      refine ⟨mkIte .int (.node op .bool [a.toExpr, b.toExpr]) u.toExpr w.toExpr, std_model drop _ _, std_cols drop _ _, ?_, ?_⟩
      · rw [hfs]
        refine .cons (fun ρ _ => ?_) (.cons (map_hasBody drop _ idiv h2) .nil)
        have L : ∀ l, Resolves v.src l → (∃ n ∈ ["int_x", "int_y"], ∃ ty, l = .var n ty) ∨ ∃ k, l = .lit k := by
          intro l hl
          obtain ⟨o, ho, hl⟩ := (vl l).1 hl
          simp only [List.mem_append, List.mem_cons, List.not_mem_nil, or_false, List.mem_map] at ho
          rcases ho with (rfl | rfl) | ⟨k, -, rfl⟩
          · obtain rfl := resolves_var.1 hl; exact .inl ⟨_, by simp, _, rfl⟩
          · obtain rfl := resolves_var.1 hl; exact .inl ⟨_, by simp, _, rfl⟩
          · obtain rfl := resolves_lit.1 hl; exact .inr ⟨_, rfl⟩
        have E := fun (t : AExp) (ht : t ∈ [a, b, u, w]) =>
          body_congr drop ["int_x", "int_y"] (mkIte .int (.node op .bool [a.toExpr, b.toExpr]) u.toExpr w.toExpr) idiv ρ t (hall t ht).2 L
        show eval (stdInterp drop (selAp fun _ => .int 0) idiv) (parEnv ["int_x", "int_y"] (["int_x", "int_y"].map ρ))
          (mkIte .int (.node op .bool [a.toExpr, b.toExpr]) u.toExpr w.toExpr) = _
        have hops : ∀ vs, evalOp (stdInterp drop (selAp fun _ => .int 0) idiv) op vs =
            evalOp (bodyInterp drop ["int_x", "int_y"] (mkIte .int (.node op .bool [a.toExpr, b.toExpr]) u.toExpr w.toExpr) idiv) op vs := by
          intro vs
          exact cmp_evalOp _ _ hop vs
        simp only [mkIte, eval, evals]
        rw [E a (by simp), E b (by simp), E u (by simp), E w (by simp), hops]
        rfl
      · intro s hs vs
        change s ∈ [("select_two_args", ["int_x", "int_y"], _), mapSynth] at hs
        simp only [List.mem_cons, List.not_mem_nil, or_false] at hs
        rcases hs with rfl | rfl
        · rfl
        · exact map_apply drop _ idiv vs

/-! ### Images with more columns than rows -/

section Wide

/-- Images with one row of `n` pixels. -/
def wide (n : Nat) : Input := ⟨[List.replicate n 0], [List.replicate n 0], 0, 0⟩

theorem wide_rect {n : Nat} (h : 1 ≤ n) : Rect (wide n) := ⟨rfl, n, h, by simp [wide]⟩

variable (drop : Bool) (ap : Val → List Val → Val) (idiv : Int → Int → Int)

/-- After the only row, the value of the expression is an integer that does not depend on the number of columns. -/
def ConstInt (I : Interp) (e : Expr) : Prop := ∃ k : Int, ∀ n (s : Vars), s.row = 1 → eval I ((wide n).env s) e = .int k
/-- The value does not depend on the number of columns when there are enough. -/
def Settles (I : Interp) (e : Expr) : Prop := ∃ (B : Nat) (v : Val), ∀ n, B ≤ n → ∀ s : Vars, s.row = 1 → eval I ((wide n).env s) e = v

theorem settles_call {I : Interp} {f : String} {t : Ty} {as : List Expr} (h : ∀ a ∈ as, Settles I a) : Settles I (mkCall f t as) := by
  have : ∃ (B : Nat) (vs : List Val), ∀ n, B ≤ n → ∀ s : Vars, s.row = 1 → as.map (eval I ((wide n).env s)) = vs := by
    induction as with
    | nil => exact ⟨0, [], fun _ _ _ _ => rfl⟩
    | cons a as ih =>
      obtain ⟨B, v, hv⟩ := h a (List.mem_cons_self ..)
      obtain ⟨C, vs, hvs⟩ := ih fun b hb => h b (List.mem_cons_of_mem _ hb)
      exact ⟨max B C, v :: vs, fun n hn s hs => by rw [List.map_cons, hv n (by omega) s hs, hvs n (by omega) s hs]⟩
  obtain ⟨B, vs, h⟩ := this
  exact ⟨B, I.fn f vs, fun n hn s hs => by rw [eval_mkCall, h n hn s hs]⟩

theorem ConstInt.settles {I : Interp} {e : Expr} (h : ConstInt I e) : Settles I e := by
  obtain ⟨k, hk⟩ := h
  exact ⟨0, .int k, fun n _ s hs => hk n s hs⟩

theorem constInt_aexp {P : Expr → Prop} (hP : ∀ e, P e → ConstInt (stdInterp drop ap idiv) e) : ∀ t : AExp, t.Over P →
    ConstInt (stdInterp drop ap idiv) t.toExpr
  | .leaf e, h => hP e h
  | .bin o a b, h => by
    obtain ⟨i, hi⟩ := constInt_aexp hP a h.1
    obtain ⟨j, hj⟩ := constInt_aexp hP b h.2
    refine ⟨o.val (stdInterp drop ap idiv) i j, fun n s hs => ?_⟩
    cases o <;> simp [AExp.toExpr, IntOp.op, eval, evals, evalOp, hi n s hs, hj n s hs, IntOp.val]
  | .sqrt a, h => by
    obtain ⟨i, hi⟩ := constInt_aexp hP a h
    refine ⟨0, fun n s hs => ?_⟩
    rw [AExp.toExpr, eval_mkCall, List.map_cons, hi n s hs]
    rfl
  | .exp a, h => by
    obtain ⟨i, hi⟩ := constInt_aexp hP a h
    refine ⟨0, fun n s hs => ?_⟩
    rw [AExp.toExpr, eval_mkCall, List.map_cons, hi n s hs]
    rfl

theorem constInt_row (I : Interp) : ConstInt I rowV.src := ⟨1, fun _ s hs => by rw [← hs]; rfl⟩
theorem constInt_int (I : Interp) (k : Int) : ConstInt I (Obj.int k).src := ⟨k, fun _ _ _ => rfl⟩
theorem constInt_len : ConstInt (stdInterp drop ap idiv) baseV.len.src :=
  ⟨1, fun n s _ => eval_baseLen (std_prims drop ap idiv) s⟩

/-- Everything that an index can be. -/
theorem index_const {os : List Obj} (hne : os ≠ []) (hty : ∀ o ∈ os, o.ty = .int)
    (hos : ∀ o ∈ os, ∀ e, Resolves o.src e → ConstInt (stdInterp drop ap idiv) e) (relaxed : Bool) {cv iv : Obj} (hc : chooseObj os = some cv)
    (hi : maybeRelaxed cv relaxed = some iv) : iv.ty = .int ∧ ∀ e, Resolves iv.src e → ConstInt (stdInterp drop ap idiv) e := by
  obtain ⟨cv', hc', cty, cl⟩ := chooseObj_lang hne hty
  obtain rfl : cv = cv' := Option.some.inj (hc.symm.trans hc')
  have hcv : ∀ e, Resolves cv.src e → ConstInt (stdInterp drop ap idiv) e := fun e he => by
    obtain ⟨o, ho, he⟩ := (cl e).1 he
    exact hos o ho e he
  cases relaxed with
  | false =>
    obtain rfl : cv = iv := Option.some.inj hi
    exact ⟨cty, hcv⟩
  | true =>
    obtain ⟨g, hg, hgty, hl⟩ := chooseObj_lang (t := .int) (os := [cv, cv.sub (.int 1), cv.add (.int 1)]) (by simp)
      (by simp [cty, Obj.sub, Obj.add])
    have hi' : chooseObj [cv, cv.sub (.int 1), cv.add (.int 1)] = some iv := hi
    obtain rfl : iv = g := Option.some.inj (hi'.symm.trans hg)
    refine ⟨hgty, fun e he => ?_⟩
    obtain ⟨o, ho, he⟩ := (hl e).1 he
    simp only [List.mem_cons, List.not_mem_nil, or_false] at ho
    have key : ∀ (op : IntOp) (p q : Expr), Resolves cv.src p → Resolves (Obj.int 1).src q →
        ConstInt (stdInterp drop ap idiv) (.node op.op .int [p, q]) := by
      intro op p q hp hq
      obtain rfl := resolves_lit.1 hq
      exact constInt_aexp drop ap idiv (P := fun e => ConstInt (stdInterp drop ap idiv) e) (fun _ h => h)
        (.bin op (.leaf p) (.leaf (Obj.int 1).src)) ⟨hcv p hp, constInt_int _ 1⟩
    rcases ho with rfl | rfl | rfl
    · exact hcv e he
    · obtain ⟨p, q, hp, hq, rfl⟩ := resolves_sub.1 he
      exact key .sub p q hp hq
    · obtain ⟨p, q, hp, hq, rfl⟩ := resolves_add.1 he
      exact key .add p q hp hq

theorem below_const {iv i : Obj} (hty : iv.ty = .int) (h : ∀ e, Resolves iv.src e → ConstInt (stdInterp drop ap idiv) e) {d : Nat}
    (hi : intBelow iv d = some i) : ∀ e, Resolves i.src e → ConstInt (stdInterp drop ap idiv) e := by
  obtain ⟨g, hg, -, snd, -⟩ := C58_int_expressions iv hty d
  obtain rfl : i = g := Option.some.inj (hi.symm.trans hg)
  intro e he
  obtain ⟨t, -, ho, rfl⟩ := snd e he
  exact constInt_aexp drop ap idiv h t ho

theorem slice_one (a b : Int) : ∃ k : Nat, ∀ w : Val, Rkt.slice [w] a b = List.replicate k w := by
  by_cases h1 : b ≤ 0
  · have e : ∀ w : Val, Rkt.listTake [w] b = [] := fun w => if_pos h1
    exact ⟨0, fun w => by rw [Rkt.slice, e, Rkt.listTail]; split <;> simp⟩
  · have e : ∀ w : Val, Rkt.listTake [w] b = [w] := by
      intro w
      rw [Rkt.listTake, if_neg h1]
      split
      · rename_i h; simp only [List.length_cons, List.length_nil] at h; omega
      · rfl
    by_cases h2 : 0 ≤ a ∧ a ≤ 1
    · obtain h3 | h3 : a = 0 ∨ a = 1 := by omega
      · subst h3; exact ⟨1, fun w => by rw [Rkt.slice, e]; rfl⟩
      · subst h3; exact ⟨0, fun w => by rw [Rkt.slice, e]; rfl⟩
    · exact ⟨0, fun w => by rw [Rkt.slice, e, Rkt.listTail, if_neg (by simpa using h2)]; rfl⟩

theorem settles_slice {o a b c d e : Expr} (ho : o = baseV.src ∨ o = activeV.src) {t1 t2 : Ty} (ha : ConstInt (stdInterp drop ap idiv) a)
    (hb : ConstInt (stdInterp drop ap idiv) b) (hc : ConstInt (stdInterp drop ap idiv) c) (hd : ConstInt (stdInterp drop ap idiv) d)
    (he : e = mkCall "matrix_col_slice" t1 [mkCall "matrix_row_slice" t2 [o, a, b], c, d]) : Settles (stdInterp drop ap idiv) e := by
  subst he
  obtain ⟨i, hi⟩ := ha
  obtain ⟨j, hj⟩ := hb
  obtain ⟨k, hk⟩ := hc
  obtain ⟨l, hl⟩ := hd
  obtain ⟨m, hm⟩ := slice_one i j
  refine ⟨l.toNat, .list (List.replicate m (.list (((List.replicate l.toNat (.int 0)).drop k.toNat)))), fun n hn s hs => ?_⟩
  have hov : eval (stdInterp drop ap idiv) ((wide n).env s) o = .list [.list (List.replicate n (.int 0))] := by
    have : eval (stdInterp drop ap idiv) ((wide n).env s) o = matV [List.replicate n 0] := by rcases ho with rfl | rfl <;> rfl
    rw [this]
    simp [matV, vecV]
  simp only [eval_mkCall, List.map_cons, List.map_nil, hov, hi n s hs, hj n s hs, hk n s hs, hl n s hs]
  have e1 : (stdInterp drop ap idiv).fn "matrix_row_slice" [.list [.list (List.replicate n (.int 0))], .int i, .int j] =
      .list (Rkt.slice [.list (List.replicate n (.int 0))] i j) := rfl
  rw [e1, hm]
  show onCols (fun r a b => (r.take b).drop a) [.list (List.replicate m (.list (List.replicate n (.int 0)))), .int k, .int l] = _
  simp only [onCols, List.map_replicate, Val.asList]
  rw [List.take_replicate, Nat.min_eq_left hn]

theorem settles_slTr {i : Obj} (h : ∀ e, Resolves i.src e → ConstInt (stdInterp drop ap idiv) e) {e : Expr} (he : Resolves (slTr i).src e) :
    Settles (stdInterp drop ap idiv) e := by
  have sl : ∀ e, Resolves (slObj opObj i i i i).src e → Settles (stdInterp drop ap idiv) e := by
    intro e he
    obtain ⟨p, q, r, hp, hq, hr, rfl⟩ := (resolves_three (by simp)).1 he
    obtain ⟨o, a, b, ho, ha, hb, rfl⟩ := (resolves_three (by simp)).1 hp
    have ho' : o = baseV.src ∨ o = activeV.src := by
      obtain ⟨z, hz, ho⟩ := resolves_choose.1 ho
      simp only [List.mem_cons, List.not_mem_nil, or_false] at hz
      rcases hz with rfl | rfl
      · exact .inl (resolves_var.1 ho)
      · exact .inr (resolves_var.1 ho)
    exact settles_slice drop ap idiv ho' (h a ha) (h b hb) (h q hq) (h r hr) rfl
  obtain ⟨z, hz, he⟩ := resolves_choose.1 he
  simp only [List.mem_cons, List.not_mem_nil, or_false] at hz
  rcases hz with rfl | rfl
  · exact sl e he
  · obtain ⟨p, hp, rfl⟩ := (resolves_one (by simp)).1 he
    exact settles_call (f := "matrix_transpose") (by simpa using sl p hp)

theorem settles_tensor {P Q M : Expr → Prop} (hP : ∀ e, P e → Settles (stdInterp drop ap idiv) e)
    (hQ : ∀ e, Q e → ConstInt (stdInterp drop ap idiv) e) : ∀ t : TExp, t.Over true P Q M → Settles (stdInterp drop ap idiv) (t.toExpr true)
  | .leaf e, h => hP e h
  | .ew o a b, h => settles_call (by
      intro e he
      simp only [List.mem_cons, List.not_mem_nil, or_false] at he
      rcases he with rfl | rfl
      · exact settles_tensor hP hQ a h.1
      · exact settles_tensor hP hQ b h.2)
  | .sc o s t, h => settles_call (by
      intro e he
      simp only [List.mem_cons, List.not_mem_nil, or_false] at he
      rcases he with rfl | rfl
      · exact (constInt_aexp drop ap idiv hQ s h.1).settles
      · exact settles_tensor hP hQ t h.2)
  | .map t, h => by simp [TExp.Over] at h
  | .mulMat m t, h => by simp [TExp.Over] at h

/-- No outer invariant whose right-hand side settles holds for all widths. -/
theorem settles_absurd {A B : Obj} {G r0 : Expr} (h : Resolves (mkAnd [mkAnd [(rowV.ge A).src, (rowV.le B).src], mkCall "list_eq" .bool [outV.src, G]]) r0)
    (hG : ∀ e, Resolves G e → Settles (stdInterp drop ap idiv) e) {f : Nat → Int → Int → Int} {r1 rp : Expr}
    (hv : ∀ n, 1 ≤ n → Valid (stdInterp drop ap idiv) (wide n) (f n) r0 r1 rp) : False := by
  obtain ⟨p, q, -, hq, rfl⟩ := (resolves_two (by simp)).1 h
  obtain ⟨o, g, ho, hg, rfl⟩ := (resolves_two (by simp)).1 hq
  obtain rfl := resolves_var.1 ho
  obtain ⟨N, v, hN⟩ := hG g hg
  have key : ∀ n, N ≤ n → 1 ≤ n → ∃ r : List Int, v = matV [r] ∧ r.length = n := by
    intro n h1 h2
    obtain ⟨s, hs, hh, ho⟩ := (hv n h2).rows 1 (Nat.le_refl _)
    have hh := ((holds_and _ _ _).1 hh).2
    rw [← mkCall, holds_listEq (std_prims drop ap idiv), hN n h1 s hs] at hh
    have hout : eval (stdInterp drop ap idiv) ((wide n).env s) (.var "agg.result" (OTy.matrix .int).toTy) = matV s.out := rfl
    exact ⟨_, hh.symm.trans (hout.trans (congrArg matV ho)), by simp [wide, Input.width]⟩
  obtain ⟨r, e1, l1⟩ := key (N + 1) (by omega) (by omega)
  obtain ⟨r', e2, l2⟩ := key (N + 2) (by omega) (by omega)
  have := Np.matV_inj (e1.symm.trans e2)
  simp only [List.cons.injEq, and_true] at this
  rw [this, l2] at l1
  omega

end Wide

/-- C71 fails for images with more columns than rows: whatever the pixels are computed by, no candidate of the general search space for
computations solves the program for all rectangular matrices, because the number of columns is missing among the indices of the outer
invariant. -/
theorem C71_computation_wide_refuted (d : Nat) (ks : List Int) (relaxed : Bool) (f : Interp → Input → Int → Int → Int) :
    ¬ ∃ c : Candidate, c.Of (generalComputation d (ks.map Obj.int) relaxed) genWrites0 genWrites1 genReads ∧
      c.SolvesFor (generalComputation d (ks.map Obj.int) relaxed) f Rect := by
  rintro ⟨c, hc, hs⟩
  obtain ⟨g, hg, hr⟩ := hc.inv0
  by_cases hd : d ≥ 3
  · rw [C71_computation_deep_refuted d hd] at hg
    simp at hg
  have hos : ∀ o ∈ [.int 0, baseV.len, rowV] ++ ks.map Obj.int, o.ty = .int := by
    intro o ho
    simp only [List.mem_append, List.mem_cons, List.not_mem_nil, or_false, List.mem_map] at ho
    rcases ho with (rfl | rfl | rfl) | ⟨k, -, rfl⟩ <;> rfl
  obtain ⟨mz, hmz, -, -⟩ := relaxed_some (.int 0) rfl relaxed
  obtain ⟨ml, hml, -, -⟩ := relaxed_some baseV.len rfl relaxed
  obtain ⟨cv0, iv0, hc0, hi0, ty0, -⟩ := index_some ([.int 0, baseV.len, rowV] ++ ks.map Obj.int) (by simp) hos relaxed
  obtain ⟨i0, hb0, -, -⟩ := intBelow_leaf iv0 ty0 d
  obtain ⟨t0, ht0, tt0, snd, -⟩ := C58_tensor_expressions_partial true (slTr i0) iv0 rfl ty0 none d (by omega)
  simp only [generalComputation, genWrites0, genReads, hc0, hi0, hb0, op_choose, slicedOrTransposed_op, ht0, hmz, hml, Option.bind_eq_bind,
    Option.bind_some, listEq_of (l := outV) tt0, andObjs3G] at hg
  obtain rfl := Option.some.inj hg
  have K := index_const false (selAp fun _ => .int 0) Int.fdiv (by simp) hos (by
    intro o ho e he
    simp only [List.mem_append, List.mem_cons, List.not_mem_nil, or_false, List.mem_map] at ho
    rcases ho with (rfl | rfl | rfl) | ⟨k, -, rfl⟩
    · obtain rfl := resolves_lit.1 he; exact constInt_int _ _
    · obtain ⟨p, hp, rfl⟩ := (resolves_one (by simp)).1 he
      obtain rfl := resolves_var.1 hp
      exact constInt_len ..
    · obtain rfl := resolves_var.1 he; exact constInt_row _
    · obtain rfl := resolves_lit.1 he; exact constInt_int _ _) relaxed hc0 hi0
  refine settles_absurd false (selAp fun _ => .int 0) Int.fdiv hr (fun e he => ?_) (f := fun n => f _ (wide n))
    (fun n hn => hs _ (computation_means hc false _ _) (wide n) (wide_rect hn))
  obtain ⟨t, -, ho, rfl⟩ := snd e he
  exact settles_tensor _ _ _ (fun e he => settles_slTr _ _ _ (below_const _ _ _ K.1 K.2 hb0) he) K.2 t ho

/-- C71 fails for images with more columns than rows in the general search space for `dissolve`, too. -/
theorem C71_dissolve_wide_refuted (d : Nat) (relaxed : Bool) (f : Interp → Input → Int → Int → Int) :
    ¬ ∃ c : Candidate, c.Of (generalDissolve d relaxed) disWrites0 disWrites1 disReads ∧
      c.SolvesFor (generalDissolve d relaxed) f Rect := by
  rintro ⟨c, hc, hs⟩
  obtain ⟨g, hg, hr⟩ := hc.inv0
  have hos : ∀ o ∈ [.int 0, baseV.len, rowV], o.ty = .int := by
    intro o ho
    simp only [List.mem_cons, List.not_mem_nil, or_false] at ho
    rcases ho with rfl | rfl | rfl <;> rfl
  obtain ⟨mz, hmz, -, -⟩ := relaxed_some (.int 0) rfl relaxed
  obtain ⟨ml, hml, -, -⟩ := relaxed_some baseV.len rfl relaxed
  obtain ⟨cv0, iv0, hc0, hi0, ty0, -⟩ := index_some [.int 0, baseV.len, rowV] (by simp) hos relaxed
  have w0 : byName disWrites0 "agg.result" = some outV ∧ byName disWrites0 "col" = some colV ∧ byName disWrites0 "row" = some rowV := ⟨rfl, rfl, rfl⟩
  have rd : byName disReads "base" = some baseV ∧ byName disReads "active" = some activeV ∧ byName disReads "opacity" = some opacity ∧
    byName disReads "rand_cons" = some randCons := ⟨rfl, rfl, rfl, rfl⟩
  have hl : ∀ r : Obj, r.ty = .matrix .int → outV.listEq r = ⟨mkCall "list_eq" .bool [outV.src, r.src], .bool⟩ := fun r h => listEq_of h
  simp only [generalDissolve, w0, rd, hc0, hi0, op_choose, slicedOrTransposed_op, hmz, hml, Option.bind_eq_bind,
    Option.bind_some, hl (call "dissolve_matrix_selection_two_args" _ _) rfl, andObjs3G] at hg
  obtain rfl := Option.some.inj hg
  obtain ⟨e, hm⟩ := dissolve_means hc false Int.fdiv
  have K := index_const false (selAp fun vs => eval (stdInterp false (selAp fun _ => .int 0) Int.fdiv)
      (parEnv ["int_x", "int_y", "opacity", "rand_cons"] vs) e) Int.fdiv (by simp) hos (by
    intro o ho e he
    simp only [List.mem_cons, List.not_mem_nil, or_false] at ho
    rcases ho with rfl | rfl | rfl
    · obtain rfl := resolves_lit.1 he; exact constInt_int _ _
    · obtain ⟨p, hp, rfl⟩ := (resolves_one (by simp)).1 he
      obtain rfl := resolves_var.1 hp
      exact constInt_len ..
    · obtain rfl := resolves_var.1 he; exact constInt_row _) relaxed hc0 hi0
  refine settles_absurd false _ Int.fdiv hr (fun r hr => ?_) (f := fun n => f _ (wide n))
    (fun n hn => hs _ hm (wide n) (wide_rect hn))
  cases hr with
  | node _ h =>
    refine settles_call (f := "dissolve_matrix_selection_two_args") ?_
    have all : ∀ {as bs : List Expr}, All2 Resolves as bs →
        (∀ a ∈ as, ∀ b, Resolves a b → Settles (bodyInterp false ["int_x", "int_y", "opacity", "rand_cons"] e Int.fdiv) b) →
        ∀ b ∈ bs, Settles (bodyInterp false ["int_x", "int_y", "opacity", "rand_cons"] e Int.fdiv) b := by
      intro as bs h
      induction as generalizing bs with
      | nil => cases h; simp
      | cons a as ih => cases h with
        | cons h1 h2 =>
          intro hall b hb
          rcases List.mem_cons.1 hb with rfl | hb
          · exact hall _ (List.mem_cons_self ..) _ h1
          · exact ih h2 (fun a ha => hall a (List.mem_cons_of_mem _ ha)) b hb
    refine all h fun a ha b hab => ?_
    simp only [List.map_cons, List.map_nil, List.mem_cons, List.not_mem_nil, or_false] at ha
    rcases ha with rfl | rfl | rfl | rfl | rfl
    · exact settles_slTr _ _ _ K.2 hab
    · exact settles_slTr _ _ _ K.2 hab
    · obtain rfl := resolves_var.1 hab; exact ⟨0, .int 0, fun _ _ _ _ => rfl⟩
    · obtain rfl := resolves_var.1 hab; exact ⟨0, .int 0, fun _ _ _ _ => rfl⟩
    · obtain rfl := resolves_var.1 hab; exact ⟨0, .fn "dissolve_select_two_args", fun _ _ _ _ => rfl⟩

/-! ### Consequences -/

/-- C71: with a solution the program returns what the postcondition says. -/
theorem C71_solution_sound_partial {S : Space} {c : Candidate} {f : Interp → Input → Int → Int → Int} {P : Input → Prop} (h : c.SolvesFor S f P)
    (I : Interp) (H : c.Means S I) (x : Input) (hx : P x) : ∃ s : Vars, s.out = result I x (f I x) ∧ holds I (x.env s) c.ps :=
  (h I H x hx).sound

/-- For example: `base + active - 32`, with the constant 32, for an image of two rows and two columns. -/
example : ∃ c : Candidate, c.Of (generalComputation 2 [.int 32] true) genWrites0 genWrites1 genReads ∧
    ∃ I, c.Means (generalComputation 2 [.int 32] true) I ∧ ∃ s : Vars, s.out = [[-21, -10], [12, 23]] ∧
      holds I (Input.env ⟨[[1, 2], [4, 5]], [[10, 20], [40, 50]], 0, 0⟩ s) c.ps := by
  obtain ⟨c, h1, h2⟩ := C71_computation_partial 2 (Nat.le_refl _) [32] true (.sc .sub (.const 32) (.ew .add .base .active)) (by decide) (by decide)
  have H := computation_means h1 true (fun _ => .int 0) Int.fdiv
  exact ⟨c, h1, _, H, C71_solution_sound_partial h2 _ H ⟨[[1, 2], [4, 5]], [[10, 20], [40, 50]], 0, 0⟩
    ⟨rfl, by rintro r (h | h) <;> simp at h <;> rcases h with rfl | rfl <;> rfl⟩⟩

/-- The larger of the two pixels, for an image of two rows and three columns. -/
example : ∃ c : Candidate, c.Of (generalSelect 0 [] false) genWrites0 genWrites1 genReads ∧
    ∃ I, c.Means (generalSelect 0 [] false) I ∧ ∃ s : Vars, s.out = [[10, 20, 30], [40, 50, 60]] ∧
      holds I (Input.env ⟨[[1, 20, 3], [40, 5, 6]], [[10, 2, 30], [4, 50, 60]], 0, 0⟩ s) c.ps := by
  obtain ⟨c, h1, h2⟩ := C71_select_partial 0 [] false ⟨.lt, .base, .active, .active, .base⟩ (by
    simp [Cond.parts, Ar.depth, Ar.Plain, Ar.consts])
  obtain ⟨e, H⟩ := select_means h1 true Int.fdiv
  exact ⟨c, h1, _, H, C71_solution_sound_partial h2 _ H ⟨[[1, 20, 3], [40, 5, 6]], [[10, 2, 30], [4, 50, 60]], 0, 0⟩
    ⟨rfl, 3, by decide, by rintro r (h | h) <;> simp at h <;> rcases h with rfl | rfl <;> rfl⟩⟩

/-- `opacity - base`, for an image of one pixel. -/
example : ∃ c : Candidate, c.Of (generalDissolve 1 true) disWrites0 disWrites1 disReads ∧
    ∃ I, c.Means (generalDissolve 1 true) I ∧ ∃ s : Vars, s.out = [[4]] ∧ holds I (Input.env ⟨[[3]], [[8]], 7, 0⟩ s) c.ps := by
  obtain ⟨c, h1, h2⟩ := C71_dissolve_partial 1 true (.bin .sub .opacity .base) (by decide) rfl
  obtain ⟨e, H⟩ := dissolve_means h1 true Int.fdiv
  exact ⟨c, h1, _, H, C71_solution_sound_partial h2 _ H ⟨[[3]], [[8]], 7, 0⟩
    ⟨rfl, by rintro r (h | h) <;> simp at h <;> rcases h with rfl <;> rfl⟩⟩

end Metalift.Ten
