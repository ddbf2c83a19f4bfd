import Verif.PTenspiler
/-
C31, continued: interpretations in which the definitions of the tensor target language hold (so that the hypothesis of the theorems of
`Verif/PTenspiler.lean` is met), what goes wrong for matrices with empty rows, and the integer functions.
-/
namespace Metalift.Ten
open Metalift

/-! ### Interpretations of the target language -/

/-- What `matrix_prepend` does to a row: Rosette drops an empty row (`drop`), CVC5 keeps it. -/
def prep (drop : Bool) (w : Val) (ws : List Val) : List Val := if drop ∧ w.asList = [] then ws else w :: ws

/-- Element-wise application to lists of the same length. -/
def zipRows (pre : Val → List Val → List Val) (f : Val → Val → Val) : List Val → List Val → List Val
  | u :: us, v :: vs => pre (f u v) (zipRows pre f us vs)
  | _, _ => []

/-- The same, empty for lists of different lengths. -/
def zipV (pre : Val → List Val → List Val) (f : Val → Val → Val) (us vs : List Val) : List Val :=
  if us.length = vs.length then zipRows pre f us vs else []

/-- Application to the elements of a list. -/
def mapV (pre : Val → List Val → List Val) (f : Val → Val) (us : List Val) : List Val := us.foldr (fun u acc => pre (f u) acc) []

/-- A function of two lists as a function of a list of arguments. -/
def zipFn (pre : Val → List Val → List Val) (f : Val → Val → Val) : List Val → Val
  | [.list us, .list vs] => .list (zipV pre f us vs)
  | _ => .int 0

/-- A function of a scalar and a list. -/
def mapFn (pre : Val → List Val → List Val) (f : Val → Val → Val) : List Val → Val
  | [s, .list us] => .list (mapV pre (f s) us)
  | _ => .int 0

/-- An integer operation on values. -/
def liftOp (op : Int → Int → Int) (u v : Val) : Val := .int (op u.asInt v.asInt)

/-- The element-wise functions on vectors, matrices and tensors. -/
def vecZ (op : Int → Int → Int) : List Val → Val := zipFn List.cons (liftOp op)
@[inherit_doc vecZ] def matZ (drop : Bool) (op : Int → Int → Int) : List Val → Val := zipFn (prep drop) (fun u v => vecZ op [u, v])
@[inherit_doc vecZ] def tenZ (drop : Bool) (op : Int → Int → Int) : List Val → Val := zipFn (prep drop) (fun u v => matZ drop op [u, v])
/-- The functions of a scalar and a vector or matrix. -/
def vecS (op : Int → Int → Int) : List Val → Val := mapFn List.cons (liftOp op)
@[inherit_doc vecS] def matS (drop : Bool) (op : Int → Int → Int) : List Val → Val := mapFn (prep drop) (fun s v => vecS op [s, v])

/-- The largest element, -32 for the empty list. -/
def maxV : List Val → Int
  | [] => -32
  | [u] => u.asInt
  | u :: us => if u.asInt > maxV us then u.asInt else maxV us

/-- The matrix-vector product. -/
def mvm (v : List Val) : List Val → List Val
  | [] => []
  | r :: rs => if r.asList.length < 1 ∨ r.asList.length ≠ v.length then []
    else .int (((vecZ (· * ·) [r, .list v]).asList.map Val.asInt).sum) :: mvm v rs

/-- A function of one list, of a list and an argument, of a matrix and a vector. -/
def onList (f : List Val → Val) : List Val → Val
  | [.list us] => f us
  | _ => .int 0
@[inherit_doc onList] def onPair (f : Val → List Val → Val) : List Val → Val
  | [w, .list ws] => f w ws
  | _ => .int 0
@[inherit_doc onList] def onLists (f : List Val → List Val → List Val → Val) : List Val → Val
  | .list us :: .list vs :: rest => f us vs rest
  | _ => .int 0

/-- A function of the rows of a matrix and two positions. -/
def onCols (f : List Val → Nat → Nat → List Val) : List Val → Val
  | [.list rs, .int a, .int b] => .list (rs.map fun r => .list (f r.asList a.toNat b.toNat))
  | _ => .int 0

/-- The selections; `rest` are the remaining arguments, the function first. -/
def selV (ap : Val → List Val → Val) (us vs : List Val) : List Val → List Val
  | [g] => zipV List.cons (fun u v => ap g [u, v]) us vs
  | [p, r, g] => zipV List.cons (fun u v => ap g [u, v, p, r]) us vs
  | _ => []

/-- The functions of the target language; the functions to be found are given by `ap`. -/
def table (drop : Bool) (ap : Val → List Val → Val) (idiv : Int → Int → Int) : List (String × (List Val → Val)) :=
  [("vec_elemwise_add", vecZ (· + ·)), ("vec_elemwise_sub", vecZ (· - ·)), ("vec_elemwise_mul", vecZ (· * ·)),
   ("vec_elemwise_div", vecZ idiv), ("matrix_elemwise_add", matZ drop (· + ·)), ("matrix_elemwise_sub", matZ drop (· - ·)),
   ("matrix_elemwise_mul", matZ drop (· * ·)), ("matrix_elemwise_div", matZ drop idiv), ("tensor3d_elemwise_add", tenZ drop (· + ·)),
   ("tensor3d_elemwise_mul", tenZ drop (· * ·)), ("vec_scalar_add", vecS (· + ·)), ("vec_scalar_mul", vecS (· * ·)),
   ("vec_scalar_sub", vecS (fun s e => e - s)), ("vec_scalar_div", vecS (fun s e => idiv e s)), ("scalar_vec_sub", vecS (· - ·)),
   ("scalar_vec_div", vecS idiv), ("matrix_scalar_add", matS drop (· + ·)), ("matrix_scalar_mul", matS drop (· * ·)),
   ("matrix_scalar_sub", matS drop (fun s e => e - s)), ("matrix_scalar_div", matS drop (fun s e => idiv e s)),
   ("scalar_matrix_sub", matS drop (· - ·)), ("scalar_matrix_div", matS drop idiv),
   ("reduce_sum", onList (fun us => .int (us.map Val.asInt).sum)),
   ("reduce_mul", onList (fun us => .int ((us.map Val.asInt).foldr (· * ·) 1))),
   ("reduce_max", onList (fun us => .int (maxV us))),
   ("matrix_vec_mul", onLists (fun ms v _ => .list (mvm v ms))),
   ("ite_int", fun vs => if (vs.getD 0 (.int 0)).asBool then vs.getD 1 (.int 0) else vs.getD 2 (.int 0)),
   ("vec_map", fun vs => .list ((vs.getD 0 (.int 0)).asList.map (fun u => ap (vs.getD 1 (.int 0)) [u]))),
   ("selection_two_args", onLists (fun us vs r => .list (selV ap us vs r))),
   ("dissolve_selection_two_args", onLists (fun us vs r => .list (selV ap us vs r))),
   ("matrix_selection_two_args", onLists (fun us vs r => .list (zipV (prep drop) (fun a b => .list (selV ap a.asList b.asList r)) us vs))),
   ("dissolve_matrix_selection_two_args",
     onLists (fun us vs r => .list (zipV (prep drop) (fun a b => .list (selV ap a.asList b.asList r)) us vs))),
   ("matrix_prepend", onPair (fun w ws => .list (prep drop w ws))),
   ("tensor3d_prepend", onPair (fun w ws => .list (prep drop w ws))),
   ("matrix_col_slice", onCols (fun r a b => (r.take b).drop a)),
   ("matrix_col_slice_with_length", onCols (fun r a n => (r.drop a).take n)),
   ("matrix_transpose", onList (fun rs => .list ((List.range (rs.headD (.list [])).asList.length).map fun j => .list (rs.map fun r => r.asList.getD j (.int 0))))),
   ("OUTER_LOOP_INDEX_FIRST", ap (.fn "OUTER_LOOP_INDEX_FIRST")), ("select_two_args", ap (.fn "select_two_args")),
   ("dissolve_select_two_args", ap (.fn "dissolve_select_two_args"))]

/-- The interpretation: the functions above, and the list primitives of Rosette. -/
def stdInterp (drop : Bool) (ap : Val → List Val → Val) (idiv : Int → Int → Int) : Interp :=
  ⟨fun f => ((table drop ap idiv).lookup f).getD (rktFn f), ap, idiv, Int.fmod, fun vs => vs.headD (.int 0)⟩

section
variable (drop : Bool) (ap : Val → List Val → Val) (idiv : Int → Int → Int)

theorem std_prims : ListPrims (stdInterp drop ap idiv) where
  list := by
    obtain ⟨h1, h2, h3, h4, h5, h6, h7, h8, h9⟩ := rktInterp_prims.list
    exact ⟨h1, h2, h3, h4, h5, h6, h7, h8, h9⟩
  matrix := by
    obtain ⟨h1, h2, h3, h4, h5, h6, h7, h8, h9⟩ := rktInterp_prims.matrix
    refine ⟨h1, h2, h3, h4, h5, h6, h7, ?_, h9⟩
    intro v vs h
    show Val.list (prep drop v vs) = _
    rw [prep, if_neg (fun hh => h hh.2)]
  tensor := by
    obtain ⟨h1, h2, h3, h4, h5, h6, h7, h8, h9⟩ := rktInterp_prims.tensor
    refine ⟨h1, h2, h3, h4, h5, h6, h7, ?_, h9⟩
    intro v vs h
    show Val.list (prep drop v vs) = _
    rw [prep, if_neg (fun hh => h hh.2)]
  concat := rktInterp_prims.concat
  eq := rktInterp_prims.eq

/-! ### The definitions hold -/

variable {drop ap idiv}

/-- Bodies that recurse on two lists. -/
theorem zipBody_eval {I : Interp} (P : ListPrims I) {ρ : Env} {l r E b : Obj} {t : OTy} {us vs : List Val} {mk rec : Obj → Obj → Obj}
    {pre : Val → List Val → List Val} {f : Val → Val → Val}
    (hb : (do let cur := mk (← first l) (← first r)
              let recursed := rec (← rest l) (← rest r)
              let general ← recursed.prepend cur
              pure (ite' (← mismatch l r) E general)) = some b)
    (hm : mismatch l r = some (mismatchObj l r)) (hl : eval I ρ l.src = .list us) (hr : eval I ρ r.src = .list vs)
    (hE : eval I ρ E.src = .list []) (ht : l.ty.contained? = some t) (ht' : r.ty.contained? = some t)
    (hmkty : ∀ o o', (mk o o').ty = t) (hrecty : ∀ o o', (rec o o').ty = l.ty)
    (hpre : ∀ w ws, I.fn l.ty.prependFn [w, .list ws] = .list (pre w ws))
    (hmk : ∀ o o' u v, u ∈ us → v ∈ vs → eval I ρ o.src = u → eval I ρ o'.src = v → eval I ρ (mk o o').src = f u v)
    (hrec : ∀ o o' us' vs', eval I ρ o.src = .list us' → eval I ρ o'.src = .list vs' →
      eval I ρ (rec o o').src = .list (zipV pre f us' vs')) :
    eval I ρ b.src = .list (zipV pre f us vs) := by
  by_cases h : us = [] ∨ us.length ≠ vs.length
  · rw [zipBody_stop P hb hm hl hr hE h]
    rcases h with rfl | h
    · unfold zipV
      cases vs <;> simp [zipRows]
    · rw [zipV, if_neg h]
  · obtain ⟨h1, h2⟩ := not_or.mp h
    have h2 : us.length = vs.length := Classical.not_not.mp h2
    cases us with
    | nil => exact absurd rfl h1
    | cons u us =>
      cases vs with
      | nil => cases h2
      | cons v vs =>
        have h3 : us.length = vs.length := by simpa using h2
        rw [zipBody_step' P (w := f u v) (ws := zipV pre f us vs) hb hm hl hr hE ht ht' h3 hmkty hrecty
          (fun o o' => hmk o o' u v (List.mem_cons_self ..) (List.mem_cons_self ..)) (fun o o' => hrec o o' us vs), hpre]
        rw [zipV, zipV, if_pos h2, if_pos h3, zipRows]

/-- Bodies that recurse on one list. -/
theorem mapBody_eval {I : Interp} (P : ListPrims I) {ρ : Env} {l E b c : Obj} {cond : Option Obj} {t : OTy} {us : List Val}
    {mk rec : Obj → Obj} {pre : Val → List Val → List Val} {f : Val → Val}
    (hb : (do let cur := mk (← first l)
              let recursed := rec (← rest l)
              let general ← recursed.prepend cur
              pure (ite' (← cond) E general)) = some b)
    (hc : cond = some c) (hc' : c.src = (l.len.lt (.int 1)).src) (hl : eval I ρ l.src = .list us)
    (hE : eval I ρ E.src = .list []) (ht : l.ty.contained? = some t) (hmkty : ∀ o, (mk o).ty = t) (hrecty : ∀ o, (rec o).ty = l.ty)
    (hpre : ∀ w ws, I.fn l.ty.prependFn [w, .list ws] = .list (pre w ws))
    (hmk : ∀ o u, u ∈ us → eval I ρ o.src = u → eval I ρ (mk o).src = f u)
    (hrec : ∀ o us', eval I ρ o.src = .list us' → eval I ρ (rec o).src = .list (mapV pre f us')) :
    eval I ρ b.src = .list (mapV pre f us) := by
  cases us with
  | nil => rw [mapBody_stop P hb hc hc' hl hE]; rfl
  | cons u us =>
    rw [mapBody_step' P (w := f u) (ws := mapV pre f us) hb hc hc' hl ht hmkty hrecty (fun o => hmk o u (List.mem_cons_self ..))
      (fun o => hrec o us), hpre]
    rfl

theorem mem_vec {xs : List Int} {u : Val} (h : u ∈ xs.map Val.int) : u = .int u.asInt := by
  obtain ⟨i, -, rfl⟩ := List.mem_map.mp h
  rfl

theorem vecElemwise_holds {I : Interp} (P : ListPrims I) {c : Obj → Obj → Obj} {op : Int → Int → Int} (hc : Computes I c op)
    (hpre : ∀ w ws, I.fn "list_prepend" [w, .list ws] = .list (w :: ws))
    {v m t : String} {b : Obj} (hfn : ∀ args, I.fn v args = vecZ op args) (hb : elemwiseBody x y c v m t = some b) :
    (vecElemwise c v m t).Holds I := by
  refine ⟨b, hb, fun ρ hρ => ?_⟩
  obtain ⟨xs, hx⟩ := hρ _ (List.mem_cons_self ..)
  obtain ⟨ys, hy⟩ := hρ _ (List.mem_cons_of_mem _ (List.mem_cons_self ..))
  have hx : ρ "x" = vecV xs := hx
  have hy : ρ "y" = vecV ys := hy
  show I.fn v [ρ "x", ρ "y"] = _
  rw [hfn, hx, hy]
  refine (zipBody_eval P (pre := List.cons) (f := liftOp op) (us := xs.map .int) (vs := ys.map .int) hb rfl hx hy (eval_listEmpty P _) rfl
    rfl (hc.ty) (fun _ _ => rfl) hpre ?_ ?_).symm
  · intro o o' u v hu hv h1 h2
    rw [mem_vec hu] at h1
    rw [mem_vec hv] at h2
    exact hc.val _ _ _ _ _ h1 h2
  · intro o o' us' vs' h1 h2
    rw [eval_call]
    simp only [List.map_cons, List.map_nil, h1, h2, hfn]
    rfl

theorem matElemwise_holds {I : Interp} (P : ListPrims I) {c : Obj → Obj → Obj} {op : Int → Int → Int}
    (hpre : ∀ w ws, I.fn "matrix_prepend" [w, .list ws] = .list (prep drop w ws))
    {v m t : String} {b : Obj} (hv : ∀ args, I.fn v args = vecZ op args) (hfn : ∀ args, I.fn m args = matZ drop op args)
    (hb : elemwiseBody matrixX matrixY c v m t = some b) : (matElemwise c v m t).Holds I := by
  refine ⟨b, hb, fun ρ hρ => ?_⟩
  obtain ⟨xs, hx⟩ := hρ _ (List.mem_cons_self ..)
  obtain ⟨ys, hy⟩ := hρ _ (List.mem_cons_of_mem _ (List.mem_cons_self ..))
  have hx : ρ "matrix_x" = matV xs := hx
  have hy : ρ "matrix_y" = matV ys := hy
  show I.fn m [ρ "matrix_x", ρ "matrix_y"] = _
  rw [hfn, hx, hy]
  refine (zipBody_eval P (pre := prep drop) (f := fun u v => vecZ op [u, v]) (us := xs.map vecV) (vs := ys.map vecV) hb rfl hx hy
    (eval_matrixEmpty P _) rfl rfl (fun _ _ => rfl) (fun _ _ => rfl) hpre ?_ ?_).symm
  · intro o o' u v _ _ h1 h2
    rw [eval_call]
    simp only [List.map_cons, List.map_nil, h1, h2, hv]
  · intro o o' us' vs' h1 h2
    rw [eval_call]
    simp only [List.map_cons, List.map_nil, h1, h2, hfn]
    rfl

theorem tenElemwise_holds {I : Interp} (P : ListPrims I) {c : Obj → Obj → Obj} {op : Int → Int → Int}
    (hpre : ∀ w ws, I.fn "tensor3d_prepend" [w, .list ws] = .list (prep drop w ws))
    {v m t : String} {b : Obj} (hv : ∀ args, I.fn m args = matZ drop op args) (hfn : ∀ args, I.fn t args = tenZ drop op args)
    (hb : elemwiseBody tensorX tensorY c v m t = some b) : (tenElemwise c v m t).Holds I := by
  refine ⟨b, hb, fun ρ hρ => ?_⟩
  obtain ⟨xs, hx⟩ := hρ _ (List.mem_cons_self ..)
  obtain ⟨ys, hy⟩ := hρ _ (List.mem_cons_of_mem _ (List.mem_cons_self ..))
  have hx : ρ "tensor3d_x" = tenV xs := hx
  have hy : ρ "tensor3d_y" = tenV ys := hy
  show I.fn t [ρ "tensor3d_x", ρ "tensor3d_y"] = _
  rw [hfn, hx, hy]
  refine (zipBody_eval P (pre := prep drop) (f := fun u v => matZ drop op [u, v]) (us := xs.map matV) (vs := ys.map matV) hb rfl hx hy
    (eval_tensorEmpty P _) rfl rfl (fun _ _ => rfl) (fun _ _ => rfl) hpre ?_ ?_).symm
  · intro o o' u v _ _ h1 h2
    rw [eval_call]
    simp only [List.map_cons, List.map_nil, h1, h2, hv]
  · intro o o' us' vs' h1 h2
    rw [eval_call]
    simp only [List.map_cons, List.map_nil, h1, h2, hfn]
    rfl

theorem vecScalar_holds {I : Interp} (P : ListPrims I) {c : Obj → Obj → Obj} {op : Int → Int → Int} (hc : Computes I c op)
    (hpre : ∀ w ws, I.fn "list_prepend" [w, .list ws] = .list (w :: ws))
    {v m : String} {b : Obj} (hfn : ∀ args, I.fn v args = vecS op args) (hb : scalarBody a x c v m = some b) :
    (vecScalar c v m).Holds I := by
  refine ⟨b, hb, fun ρ hρ => ?_⟩
  obtain ⟨s, hs⟩ := hρ _ (List.mem_cons_self ..)
  obtain ⟨xs, hx⟩ := hρ _ (List.mem_cons_of_mem _ (List.mem_cons_self ..))
  have hs : ρ "a" = .int s := hs
  have hx : ρ "x" = vecV xs := hx
  show I.fn v [ρ "a", ρ "x"] = _
  rw [hfn, hs, hx]
  refine (mapBody_eval P (pre := List.cons) (f := liftOp op (.int s)) (us := xs.map .int) hb (orOne _) rfl hx (eval_listEmpty P _) rfl
    (hc.ty _) (fun _ => rfl) hpre ?_ ?_).symm
  · intro o u hu h1
    rw [mem_vec hu] at h1
    exact hc.val _ _ _ _ _ hs h1
  · intro o us' h1
    have : eval I ρ a.src = .int s := hs
    rw [eval_call]
    simp only [List.map_cons, List.map_nil, h1, hfn, this]
    rfl

theorem matScalar_holds {I : Interp} (P : ListPrims I) {c : Obj → Obj → Obj} {op : Int → Int → Int}
    (hpre : ∀ w ws, I.fn "matrix_prepend" [w, .list ws] = .list (prep drop w ws))
    {v m : String} {b : Obj} (hv : ∀ args, I.fn v args = vecS op args) (hfn : ∀ args, I.fn m args = matS drop op args)
    (hb : scalarBody a matrixX c v m = some b) : (matScalar c v m).Holds I := by
  refine ⟨b, hb, fun ρ hρ => ?_⟩
  obtain ⟨s, hs⟩ := hρ _ (List.mem_cons_self ..)
  obtain ⟨xs, hx⟩ := hρ _ (List.mem_cons_of_mem _ (List.mem_cons_self ..))
  have hs : ρ "a" = .int s := hs
  have hx : ρ "matrix_x" = matV xs := hx
  have ha : eval I ρ a.src = .int s := hs
  show I.fn m [ρ "a", ρ "matrix_x"] = _
  rw [hfn, hs, hx]
  refine (mapBody_eval P (pre := prep drop) (f := fun r => vecS op [.int s, r]) (us := xs.map vecV) hb (orOne _) rfl hx
    (eval_matrixEmpty P _) rfl (fun _ => rfl) (fun _ => rfl) hpre ?_ ?_).symm
  · intro o u _ h1
    rw [eval_call]
    simp only [List.map_cons, List.map_nil, h1, hv, ha]
  · intro o us' h1
    rw [eval_call]
    simp only [List.map_cons, List.map_nil, h1, hfn, ha]
    rfl

theorem reduceSum_holds : reduceSum.Holds (stdInterp drop ap idiv) := by
  have P := std_prims drop ap idiv
  refine ⟨ite' (x.len.lt (.int 1)) (.int 0) ((call "list_get" .int [x, .int 0]).add
    (call "reduce_sum" .int [call "list_tail" (.list .int) [x, .int 1]])), rfl, fun ρ hρ => ?_⟩
  obtain ⟨xs, hx⟩ := hρ _ (List.mem_cons_self ..)
  have hx : ρ "x" = vecV xs := hx
  show (stdInterp drop ap idiv).fn "reduce_sum" [ρ "x"] = _
  rw [eval_ite', eval_lt, eval_len_x P hx, eval_int, hx]
  cases xs with
  | nil => rfl
  | cons x0 xs =>
    have e2 : eval (stdInterp drop ap idiv) ρ (call "reduce_sum" .int [call "list_tail" (.list .int) [x, .int 1]]).src =
        .int (xs.map Val.int |>.map Val.asInt).sum := by
      rw [eval_call]
      simp only [List.map_cons, List.map_nil, eval_rest_x P hx]
      rfl
    rw [eval_add, eval_first_x P hx, e2]
    have h : ¬ (((x0 :: xs).length : Int) < 1) := by simp only [List.length_cons]; omega
    simp only [Val.asInt, Val.asBool, h, decide_false, Bool.false_eq_true, if_false]
    rfl

theorem reduceMul_holds : reduceMul.Holds (stdInterp drop ap idiv) := by
  have P := std_prims drop ap idiv
  refine ⟨ite' (x.len.lt (.int 1)) (.int 1) ((call "list_get" .int [x, .int 0]).mul
    (call "reduce_mul" .int [call "list_tail" (.list .int) [x, .int 1]])), rfl, fun ρ hρ => ?_⟩
  obtain ⟨xs, hx⟩ := hρ _ (List.mem_cons_self ..)
  have hx : ρ "x" = vecV xs := hx
  show (stdInterp drop ap idiv).fn "reduce_mul" [ρ "x"] = _
  rw [eval_ite', eval_lt, eval_len_x P hx, eval_int, hx]
  cases xs with
  | nil => rfl
  | cons x0 xs =>
    have e2 : eval (stdInterp drop ap idiv) ρ (call "reduce_mul" .int [call "list_tail" (.list .int) [x, .int 1]]).src =
        .int ((xs.map Val.int |>.map Val.asInt).foldr (· * ·) 1) := by
      rw [eval_call]
      simp only [List.map_cons, List.map_nil, eval_rest_x P hx]
      rfl
    rw [eval_mul, eval_first_x P hx, e2]
    have h : ¬ (((x0 :: xs).length : Int) < 1) := by simp only [List.length_cons]; omega
    simp only [Val.asInt, Val.asBool, h, decide_false, Bool.false_eq_true, if_false]
    rfl

theorem reduceMax_holds : reduceMax.Holds (stdInterp drop ap idiv) := by
  have P := std_prims drop ap idiv
  refine ⟨_, rfl, fun ρ hρ => ?_⟩
  obtain ⟨xs, hx⟩ := hρ _ (List.mem_cons_self ..)
  have hx : ρ "x" = vecV xs := hx
  show (stdInterp drop ap idiv).fn "reduce_max" [ρ "x"] = _
  rw [eval_ite', eval_lt, eval_len_x P hx, eval_int, eval_ite', eval_eq', eval_len_x P hx, eval_int, eval_ite', eval_gt, hx]
  cases xs with
  | nil => rfl
  | cons x0 xs =>
    have h : ¬ (((x0 :: xs).length : Int) < 1) := by simp only [List.length_cons]; omega
    have e1 := eval_first_x P hx
    have e2 : eval (stdInterp drop ap idiv) ρ (call "reduce_max" .int [call "list_tail" (.list .int) [x, .int 1]]).src =
        .int (maxV (xs.map .int)) := by
      rw [eval_call]
      simp only [List.map_cons, List.map_nil, eval_rest_x P hx]
      rfl
    erw [e1, e2]
    simp only [Val.asInt, Val.asBool, h, decide_false, Bool.false_eq_true, if_false]
    cases xs with
    | nil => rfl
    | cons x1 xs =>
      have h' : ¬ (Val.int (((x0 :: x1 :: xs).length : Nat) : Int) = Val.int 1) := by
        simp only [List.length_cons, Val.int.injEq]; omega
      simp only [h', decide_false, Bool.false_eq_true, if_false]
      show Val.int (if x0 > maxV ((x1 :: xs).map .int) then x0 else maxV ((x1 :: xs).map .int)) = _
      by_cases h'' : x0 > maxV ((x1 :: xs).map .int)
      · simp only [h'', if_true, decide_true]
      · simp only [h'', if_false, decide_false, Bool.false_eq_true]

theorem iteInt_holds : iteInt.Holds (stdInterp drop ap idiv) := by
  refine ⟨_, rfl, fun ρ _ => ?_⟩
  rw [eval_ite']
  rfl

theorem vecMap_holds : vecMap.Holds (stdInterp drop ap idiv) := by
  have P := std_prims drop ap idiv
  refine ⟨_, rfl, fun ρ hρ => ?_⟩
  obtain ⟨xs, hx⟩ := hρ _ (List.mem_cons_self ..)
  have hx : ρ "x" = vecV xs := hx
  have hmap : ∀ us : List Val, us.map (fun u => ap (ρ "map_int_to_int") [u]) = mapV List.cons (fun u => ap (ρ "map_int_to_int") [u]) us := by
    intro us
    induction us with
    | nil => rfl
    | cons u us ih => rw [List.map_cons, ih]; rfl
  show (stdInterp drop ap idiv).fn "vec_map" [ρ "x", ρ "map_int_to_int"] = _
  rw [hx]
  show Val.list ((xs.map Val.int).map (fun u => ap (ρ "map_int_to_int") [u])) = _
  rw [hmap]
  refine (mapBody_eval P (pre := List.cons) (f := fun u => ap (ρ "map_int_to_int") [u]) (us := xs.map .int)
    (l := x) (mk := fun o => callValue mapArg [o]) (rec := fun o => call "vec_map" (.list .int) [o, mapArg])
    (cond := some (x.len.lt (.int 1))) (E := listEmpty .int) rfl rfl rfl hx (eval_listEmpty P _) rfl
    (fun _ => rfl) (fun _ => rfl) (fun w ws => by cases w <;> rfl) ?_ ?_).symm
  · intro o u hu h1
    rw [eval_callValue]
    simp only [List.map_cons, List.map_nil, h1]
    rfl
  · intro o us' h1
    rw [eval_call]
    simp only [List.map_cons, List.map_nil, h1]
    rw [← hmap]
    rfl

theorem selection_holds : selection.Holds (stdInterp drop ap idiv) := by
  have P := std_prims drop ap idiv
  refine ⟨_, rfl, fun ρ hρ => ?_⟩
  obtain ⟨xs, hx⟩ := hρ _ (List.mem_cons_self ..)
  obtain ⟨ys, hy⟩ := hρ _ (List.mem_cons_of_mem _ (List.mem_cons_self ..))
  have hx : ρ "x" = vecV xs := hx
  have hy : ρ "y" = vecV ys := hy
  show (stdInterp drop ap idiv).fn "selection_two_args" [ρ "x", ρ "y", ρ "select_two_args_arg"] = _
  rw [hx, hy]
  refine (zipBody_eval P (pre := List.cons) (f := fun u v => ap (ρ "select_two_args_arg") [u, v]) (us := xs.map .int) (vs := ys.map .int)
    (l := x) (r := y) (mk := fun o o' => callValue selectArg [o, o'])
    (rec := fun o o' => call "selection_two_args" (.list .int) [o, o', selectArg]) (E := listEmpty .int) rfl rfl hx hy
    (eval_listEmpty P _) rfl rfl (fun _ _ => rfl) (fun _ _ => rfl) (fun w ws => by cases w <;> rfl) ?_ ?_).symm
  · intro o o' u v _ _ h1 h2
    rw [eval_callValue]
    simp only [List.map_cons, List.map_nil, h1, h2]
    rfl
  · intro o o' us' vs' h1 h2
    rw [eval_call]
    simp only [List.map_cons, List.map_nil, h1, h2]
    rfl

theorem dissolveSelection_holds : dissolveSelection.Holds (stdInterp drop ap idiv) := by
  have P := std_prims drop ap idiv
  refine ⟨_, rfl, fun ρ hρ => ?_⟩
  obtain ⟨xs, hx⟩ := hρ _ (List.mem_cons_self ..)
  obtain ⟨ys, hy⟩ := hρ _ (List.mem_cons_of_mem _ (List.mem_cons_self ..))
  have hx : ρ "x" = vecV xs := hx
  have hy : ρ "y" = vecV ys := hy
  show (stdInterp drop ap idiv).fn "dissolve_selection_two_args"
    [ρ "x", ρ "y", ρ "opacity", ρ "rand_cons", ρ "dissolve_select_two_args_arg"] = _
  rw [hx, hy]
  refine (zipBody_eval P (pre := List.cons) (f := fun u v => ap (ρ "dissolve_select_two_args_arg") [u, v, ρ "opacity", ρ "rand_cons"])
    (us := xs.map .int) (vs := ys.map .int) (l := x) (r := y) (mk := fun o o' => callValue dissolveArg [o, o', opacity, randCons])
    (rec := fun o o' => call "dissolve_selection_two_args" (.list .int) [o, o', opacity, randCons, dissolveArg])
    (E := listEmpty .int) rfl rfl hx hy
    (eval_listEmpty P _) rfl rfl (fun _ _ => rfl) (fun _ _ => rfl) (fun w ws => by cases w <;> rfl) ?_ ?_).symm
  · intro o o' u v _ _ h1 h2
    rw [eval_callValue]
    simp only [List.map_cons, List.map_nil, h1, h2]
    rfl
  · intro o o' us' vs' h1 h2
    rw [eval_call]
    simp only [List.map_cons, List.map_nil, h1, h2]
    rfl

theorem mem_mat {xs : List (List Int)} {u : Val} (h : u ∈ xs.map vecV) : u = .list u.asList := by
  obtain ⟨i, -, rfl⟩ := List.mem_map.mp h
  rfl

theorem matrixSelection_holds : matrixSelection.Holds (stdInterp drop ap idiv) := by
  have P := std_prims drop ap idiv
  refine ⟨_, rfl, fun ρ hρ => ?_⟩
  obtain ⟨xs, hx⟩ := hρ _ (List.mem_cons_self ..)
  obtain ⟨ys, hy⟩ := hρ _ (List.mem_cons_of_mem _ (List.mem_cons_self ..))
  have hx : ρ "matrix_x" = matV xs := hx
  have hy : ρ "matrix_y" = matV ys := hy
  show (stdInterp drop ap idiv).fn "matrix_selection_two_args" [ρ "matrix_x", ρ "matrix_y", ρ "select_two_args_arg"] = _
  rw [hx, hy]
  refine (zipBody_eval P (pre := prep drop) (f := fun u v => .list (selV ap u.asList v.asList [ρ "select_two_args_arg"]))
    (us := xs.map vecV) (vs := ys.map vecV)
    (l := matrixX) (r := matrixY) (mk := fun o o' => call "selection_two_args" (.list .int) [o, o', selectArg])
    (rec := fun o o' => call "matrix_selection_two_args" (.matrix .int) [o, o', selectArg]) (E := matrixEmpty .int) rfl rfl hx hy
    (eval_matrixEmpty P _) rfl rfl (fun _ _ => rfl) (fun _ _ => rfl) (fun w ws => by cases w <;> rfl) ?_ ?_).symm
  · intro o o' u v hu hv h1 h2
    rw [mem_mat hu] at h1 ⊢
    rw [mem_mat hv] at h2 ⊢
    rw [eval_call]
    simp only [List.map_cons, List.map_nil, h1, h2]
    rfl
  · intro o o' us' vs' h1 h2
    rw [eval_call]
    simp only [List.map_cons, List.map_nil, h1, h2]
    rfl

theorem dissolveMatrixSelection_holds : dissolveMatrixSelection.Holds (stdInterp drop ap idiv) := by
  have P := std_prims drop ap idiv
  refine ⟨_, rfl, fun ρ hρ => ?_⟩
  obtain ⟨xs, hx⟩ := hρ _ (List.mem_cons_self ..)
  obtain ⟨ys, hy⟩ := hρ _ (List.mem_cons_of_mem _ (List.mem_cons_self ..))
  have hx : ρ "matrix_x" = matV xs := hx
  have hy : ρ "matrix_y" = matV ys := hy
  show (stdInterp drop ap idiv).fn "dissolve_matrix_selection_two_args"
    [ρ "matrix_x", ρ "matrix_y", ρ "opacity", ρ "rand_cons", ρ "dissolve_select_two_args_arg"] = _
  rw [hx, hy]
  refine (zipBody_eval P (pre := prep drop)
    (f := fun u v => .list (selV ap u.asList v.asList [ρ "opacity", ρ "rand_cons", ρ "dissolve_select_two_args_arg"]))
    (us := xs.map vecV) (vs := ys.map vecV) (l := matrixX) (r := matrixY)
    (mk := fun o o' => call "dissolve_selection_two_args" (.list .int) [o, o', opacity, randCons, dissolveArg])
    (rec := fun o o' => call "dissolve_matrix_selection_two_args" (.matrix .int) [o, o', opacity, randCons, dissolveArg])
    (E := matrixEmpty .int) rfl rfl hx hy
    (eval_matrixEmpty P _) rfl rfl (fun _ _ => rfl) (fun _ _ => rfl) (fun w ws => by cases w <;> rfl) ?_ ?_).symm
  · intro o o' u v hu hv h1 h2
    rw [mem_mat hu] at h1 ⊢
    rw [mem_mat hv] at h2 ⊢
    rw [eval_call]
    simp only [List.map_cons, List.map_nil, h1, h2]
    rfl
  · intro o o' us' vs' h1 h2
    rw [eval_call]
    simp only [List.map_cons, List.map_nil, h1, h2]
    rfl

theorem matrixVecMul_holds : matrixVecMul.Holds (stdInterp drop ap idiv) := by
  have P := std_prims drop ap idiv
  refine ⟨ite' ⟨mkOr [mkOr [(matrixX.len.lt (.int 1)).src, ((call "matrix_get" (.list .int) [matrixX, .int 0]).len.lt (.int 1)).src],
        ((call "matrix_get" (.list .int) [matrixX, .int 0]).len.ne x.len).src], .bool⟩ (listEmpty .int)
      (call "list_prepend" (.list .int) [call "reduce_sum" .int [call "vec_elemwise_mul" (.list .int)
        [call "matrix_get" (.list .int) [matrixX, .int 0], x]],
        call "matrix_vec_mul" (.list .int) [call "matrix_tail" (.matrix .int) [matrixX, .int 1], x]]), rfl, fun ρ hρ => ?_⟩
  obtain ⟨ms, hm⟩ := hρ _ (List.mem_cons_self ..)
  obtain ⟨v, hv⟩ := hρ _ (List.mem_cons_of_mem _ (List.mem_cons_self ..))
  have hm : ρ "matrix_x" = matV ms := hm
  have hv : ρ "x" = vecV v := hv
  have hx : eval (stdInterp drop ap idiv) ρ x.src = .list (v.map .int) := hv
  show (stdInterp drop ap idiv).fn "matrix_vec_mul" [ρ "matrix_x", ρ "x"] = _
  rw [hm, hv]
  show Val.list (mvm (v.map .int) (ms.map vecV)) = _
  cases ms with
  | nil =>
    have hl : eval (stdInterp drop ap idiv) ρ matrixX.src = .list [] := hm
    rw [eval_ite', eval_listEmpty P, eval_or]
    simp only [List.any_cons, eval_or, eval_lt, eval_len P hl]
    rfl
  | cons r ms =>
    have hl : eval (stdInterp drop ap idiv) ρ matrixX.src = .list (vecV r :: ms.map vecV) := hm
    have hrow : eval (stdInterp drop ap idiv) ρ (call "matrix_get" (.list .int) [matrixX, .int 0]).src = .list (r.map .int) := by
      rw [eval_call]
      simp only [List.map_cons, List.map_nil, hl]
      exact P.matrix.get _ 0 _ (by omega) rfl
    have htl : eval (stdInterp drop ap idiv) ρ (call "matrix_tail" (.matrix .int) [matrixX, .int 1]).src = .list (ms.map vecV) := by
      rw [eval_call]
      simp only [List.map_cons, List.map_nil, hl]
      exact P.matrix.tail _ 1 (by omega) (by simp only [List.length_cons]; omega)
    rw [eval_ite', eval_listEmpty P, eval_or]
    simp only [List.any_cons, List.any_nil, eval_or, eval_lt, eval_ne', eval_len P hl, eval_len P hrow, eval_len P hx, eval_int,
      Val.asInt, Val.asBool, Bool.or_false, Val.int.injEq, List.length_map, List.length_cons, List.map_cons, mvm, vecV, Val.asList]
    have h1 : ¬ (((ms.length + 1 : Nat) : Int) < 1) := by omega
    by_cases hr : r.length < 1 ∨ r.length ≠ v.length
    · rw [if_pos hr, if_pos]
      simp only [Bool.or_eq_true, decide_eq_true_eq, Bool.not_eq_true', decide_eq_false_iff_not]
      omega
    · rw [if_neg hr, if_neg]
      · rw [eval_call]
        simp only [List.map_cons, List.map_nil, eval_call, hrow, htl, hx]
        rfl
      · simp only [Bool.or_eq_true, decide_eq_true_eq, Bool.not_eq_true', decide_eq_false_iff_not]
        omega

variable (drop ap idiv)

/-- The definitions of the target language have a model, whatever the functions passed to the selections and whatever the division, both
when empty rows are dropped and when they are kept. -/
theorem std_model : Model (stdInterp drop ap idiv) := by
  have P := std_prims drop ap idiv
  have hl : ∀ (w : Val) (ws : List Val), (stdInterp drop ap idiv).fn "list_prepend" [w, .list ws] = .list (w :: ws) := by
    intro w ws; cases w <;> rfl
  have hm : ∀ (w : Val) (ws : List Val), (stdInterp drop ap idiv).fn "matrix_prepend" [w, .list ws] = .list (prep drop w ws) :=
    fun _ _ => rfl
  have ht : ∀ (w : Val) (ws : List Val), (stdInterp drop ap idiv).fn "tensor3d_prepend" [w, .list ws] = .list (prep drop w ws) :=
    fun _ _ => rfl
  refine ⟨P, ?_⟩
  simp only [decls, List.forall_mem_cons, List.not_mem_nil, false_implies, implies_true, and_true]
  refine ⟨reduceSum_holds, reduceMul_holds, reduceMax_holds, matrixVecMul_holds, iteInt_holds, selection_holds, matrixSelection_holds,
    dissolveSelection_holds, dissolveMatrixSelection_holds, ?_, ?_, ?_, ?_, ?_, ?_, ?_, ?_, ?_, ?_, ?_, ?_, ?_, ?_, ?_, ?_, ?_, ?_, ?_,
    ?_, ?_, ?_, vecMap_holds⟩
  · exact vecElemwise_holds P (computes_add _) hl (fun _ => rfl) rfl
  · exact matElemwise_holds (op := (· + ·)) P hm (fun _ => rfl) (fun _ => rfl) rfl
  · exact tenElemwise_holds (op := (· + ·)) P ht (fun _ => rfl) (fun _ => rfl) rfl
  · exact vecElemwise_holds P (computes_sub _) hl (fun _ => rfl) rfl
  · exact matElemwise_holds (op := (· - ·)) P hm (fun _ => rfl) (fun _ => rfl) rfl
  · exact vecElemwise_holds P (computes_mul _) hl (fun _ => rfl) rfl
  · exact matElemwise_holds (op := (· * ·)) P hm (fun _ => rfl) (fun _ => rfl) rfl
  · exact tenElemwise_holds (op := (· * ·)) P ht (fun _ => rfl) (fun _ => rfl) rfl
  · exact vecElemwise_holds P (computes_div _) hl (fun _ => rfl) rfl
  · exact matElemwise_holds (op := idiv) P hm (fun _ => rfl) (fun _ => rfl) rfl
  · exact vecScalar_holds P (computes_add _) hl (fun _ => rfl) rfl
  · exact matScalar_holds (op := (· + ·)) P hm (fun _ => rfl) (fun _ => rfl) rfl
  · exact vecScalar_holds P (computes_mul _) hl (fun _ => rfl) rfl
  · exact matScalar_holds (op := (· * ·)) P hm (fun _ => rfl) (fun _ => rfl) rfl
  · exact vecScalar_holds P (computes_div _).flip hl (fun _ => rfl) rfl
  · exact vecScalar_holds P (computes_div _) hl (fun _ => rfl) rfl
  · exact matScalar_holds (op := fun s e => idiv e s) P hm (fun _ => rfl) (fun _ => rfl) rfl
  · exact matScalar_holds (op := idiv) P hm (fun _ => rfl) (fun _ => rfl) rfl
  · exact vecScalar_holds P (computes_sub _).flip hl (fun _ => rfl) rfl
  · exact vecScalar_holds P (computes_sub _) hl (fun _ => rfl) rfl
  · exact matScalar_holds (op := fun s e => e - s) P hm (fun _ => rfl) (fun _ => rfl) rfl
  · exact matScalar_holds (op := (· - ·)) P hm (fun _ => rfl) (fun _ => rfl) rfl

end

/-- The hypotheses of the theorems of `PTenspiler` are met: the two interpretations, a matrix with rows of different lengths. -/
example (ap : Val → List Val → Val) : (stdInterp true ap Int.fdiv).fn "matrix_elemwise_add" [matV [[1], [2, 3]], matV [[10], [20, 30]]] =
    matV [[11], [22, 33]] :=
  (C31_matrices_partial _ (std_model true ap Int.fdiv) [[1], [2, 3]] [[10], [20, 30]]
    (.cons ⟨by simp, rfl⟩ (.cons ⟨by simp, rfl⟩ .nil))).1

/-- C31 is false for matrices with empty rows: where `matrix_prepend` drops an empty row, as in Rosette (see C28), adding a scalar to a
matrix loses its empty rows; where it does not, as in CVC5, they are kept. -/
theorem C31_empty_rows_refuted (ap : Val → List Val → Val) (idiv : Int → Int → Int) :
    (Model (stdInterp true ap idiv) ∧ (stdInterp true ap idiv).fn "matrix_scalar_add" [.int 1, matV [[], [5]]] = matV [[6]]) ∧
    (Model (stdInterp false ap idiv) ∧ (stdInterp false ap idiv).fn "matrix_scalar_add" [.int 1, matV [[], [5]]] = matV [[], [6]]) :=
  ⟨⟨std_model _ _ _, rfl⟩, ⟨std_model _ _ _, rfl⟩⟩

/-! ### The integer functions -/

/-- C31, `integer_exp`: the power of three modulo 64 (the constant base is the stand-in for the exponential), 1 for negative numbers. -/
theorem C31_integer_exp (I : Interp) (H : integerExp.Holds I) (hmod : ∀ i : Int, 0 ≤ i → I.imod i 64 = i % 64) :
    (∀ n : Nat, I.fn "integer_exp" [.int n] = .int (3 ^ n % 64)) ∧ (∀ n : Int, n ≤ 0 → I.fn "integer_exp" [.int n] = .int 1) := by
  obtain ⟨b, hb, H⟩ := H
  have hb' : b = _ := (Option.some.inj hb).symm
  subst hb'
  have hfn : ∀ n : Int, I.fn "integer_exp" [.int n] =
      if n ≤ 0 then .int 1 else .int (I.imod ((I.fn "integer_exp" [.int (n - 1)]).asInt * 3) 64) := by
    intro n
    have := H (env1 (.int n)) (env_ok1 ⟨n, rfl⟩)
    rw [eval_ite', eval_le, eval_mod, eval_mul, eval_call] at this
    simp only [List.map_cons, List.map_nil, eval_sub, eval_int, eval_var, env1] at this
    refine Eq.trans this ?_
    by_cases h : n ≤ 0 <;> simp [h, Val.asInt, Val.asBool]
  refine ⟨fun n => ?_, fun n hn => by rw [hfn, if_pos hn]⟩
  induction n with
  | zero => rw [hfn]; rfl
  | succ n ih =>
    rw [hfn, if_neg (by omega), show ((n + 1 : Nat) : Int) - 1 = n by omega, ih]
    simp only [Val.asInt, Val.int.injEq]
    rw [hmod _ (by omega), Int.pow_succ, Int.mul_emod, Int.emod_emod_of_dvd _ (Int.dvd_refl _), ← Int.mul_emod]

/-- An interpretation in which the definition of `integer_exp` holds. -/
example : ∃ I : Interp, integerExp.Holds I ∧ (∀ i : Int, 0 ≤ i → I.imod i 64 = i % 64) := by
  refine ⟨⟨fun _ vs => .int (3 ^ (vs.headD (.int 0)).asInt.toNat % 64), fun _ _ => .int 0, (· / ·), (· % ·), fun _ => .int 0⟩,
    ⟨_, rfl, ?_⟩, fun _ _ => rfl⟩
  intro ρ hρ
  obtain ⟨n, hn⟩ := hρ _ (List.mem_cons_self ..)
  have hn : ρ "n" = .int n := hn
  rw [eval_ite', eval_le, eval_mod, eval_mul, eval_call]
  simp only [List.map_cons, List.map_nil, eval_sub, eval_int, Val.asInt, Val.asBool, eval_var, decide_eq_true_eq, hn, integerExp,
    List.headD_cons]
  split
  · rename_i h
    rw [show n.toNat = 0 by omega]
    rfl
  · rename_i h
    rw [show n.toNat = (n - 1).toNat + 1 by omega, Int.pow_succ, Int.mul_emod, Int.mul_emod (3 ^ _ % 64),
      Int.emod_emod_of_dvd _ (Int.dvd_refl _)]
    rfl

theorem eval_sqrtBody (I : Interp) (ρ : Env) (n g : Int) (hn : ρ "n" = .int n) (hg : ρ "guess" = .int g) :
    ∃ b, integerSqrtHelper.body = some b ∧ eval I ρ b.src =
      if g = 0 ∨ g = 1 ∨ g > 64 then .int 1 else if g = I.idiv n g then .int g
      else I.fn "integer_sqrt_helper" [.int n, .int (I.idiv (g + I.idiv n g) 2)] := by
  refine ⟨_, rfl, ?_⟩
  rw [eval_ite', eval_ite', eval_call]
  have e : eval I ρ (mkOr [mkOr [((Obj.var "guess" .int).eq (.int 0)).src, ((Obj.var "guess" .int).eq (.int 1)).src],
      ((Obj.var "guess" .int).gt (.int 64)).src]) = .bool (decide (g = 0 ∨ g = 1 ∨ g > 64)) := by
    rw [eval_or]
    simp only [List.any_cons, List.any_nil, eval_or, eval_eq', eval_gt, eval_var, hg, eval_int, Val.asInt, Val.asBool, Bool.or_false,
      Val.int.injEq]
    refine congrArg Val.bool ?_
    rw [Bool.eq_iff_iff]
    simp only [Bool.or_eq_true, decide_eq_true_eq]
    exact or_assoc
  erw [e]
  simp only [List.map_cons, List.map_nil, eval_eq', eval_div, eval_add, eval_int, Val.asInt, Val.asBool, eval_var, hn, hg,
    decide_eq_true_eq, Val.int.injEq]

/-- C31 is false for `integer_sqrt`: in every interpretation satisfying its definition it is 1 for all numbers above 64, since the
first guess is the number itself and guesses above 64 are answered with 1. -/
theorem C31_integer_sqrt_refuted (I : Interp) (H : integerSqrt.Holds I) (H' : integerSqrtHelper.Holds I) (n : Int) (hn : 64 < n) :
    I.fn "integer_sqrt" [.int n] = .int 1 := by
  obtain ⟨b, hb, H⟩ := H
  have hb' : b = _ := (Option.some.inj hb).symm
  subst hb'
  have h1 := H (env1 (.int n)) (env_ok1 ⟨n, rfl⟩)
  rw [eval_call] at h1
  simp only [List.map_cons, List.map_nil, eval_div, eval_var] at h1
  obtain ⟨b, hb, H'⟩ := H'
  have h2 := H' (env2 "n" (.int (I.idiv n 2)) (.int n)) (env_ok2 (by decide) ⟨_, rfl⟩ ⟨n, rfl⟩)
  obtain ⟨b', hb', h3⟩ := eval_sqrtBody I (env2 "n" (.int (I.idiv n 2)) (.int n)) (I.idiv n 2) n rfl rfl
  cases hb.symm.trans hb'
  rw [h3, if_pos (by omega)] at h2
  exact h1.trans h2

/-- The iteration of `integer_sqrt_helper` stops with a result. -/
inductive Stops (idiv : Int → Int → Int) (n : Int) : Int → Int → Prop
  | one {g : Int} : g = 0 ∨ g = 1 ∨ g > 64 → Stops idiv n g 1
  | found {g : Int} : ¬ (g = 0 ∨ g = 1 ∨ g > 64) → g = idiv n g → Stops idiv n g g
  | step {g r : Int} : ¬ (g = 0 ∨ g = 1 ∨ g > 64) → g ≠ idiv n g → Stops idiv n (idiv (g + idiv n g) 2) r → Stops idiv n g r

theorem Stops.unique {idiv : Int → Int → Int} {n g r r' : Int} (h : Stops idiv n g r) (h' : Stops idiv n g r') : r = r' := by
  induction h generalizing r' with
  | one h =>
    cases h' with
    | one _ => rfl
    | found h1 _ => exact absurd h h1
    | step h1 _ _ => exact absurd h h1
  | found h1 h2 =>
    cases h' with
    | one h => exact absurd h h1
    | found _ _ => rfl
    | step _ h3 _ => exact absurd h2 h3
  | step h1 h2 _ ih =>
    cases h' with
    | one h => exact absurd h h1
    | found _ h3 => exact absurd h3 h2
    | step _ _ h3 => exact ih h3

open Classical in
/-- The helper: the result if the iteration stops, `d` otherwise. -/
noncomputable def sqrtVal (d n g : Int) : Int := if h : ∃ r, Stops Int.fdiv n g r then h.choose else d

theorem sqrtVal_eq (d n g : Int) : sqrtVal d n g = if g = 0 ∨ g = 1 ∨ g > 64 then 1 else if g = Int.fdiv n g then g
    else sqrtVal d n (Int.fdiv (g + Int.fdiv n g) 2) := by
  have key : ∀ g r, Stops Int.fdiv n g r → sqrtVal d n g = r := by
    intro g r h
    have hex : ∃ r, Stops Int.fdiv n g r := ⟨r, h⟩
    rw [sqrtVal, dif_pos hex]
    exact hex.choose_spec.unique h
  split
  · rename_i h; exact key _ _ (.one h)
  · rename_i h
    split
    · rename_i h2; exact key _ _ (.found h h2)
    · rename_i h2
      by_cases hs : ∃ r, Stops Int.fdiv n (Int.fdiv (g + Int.fdiv n g) 2) r
      · obtain ⟨r, hr⟩ := hs
        rw [key _ _ hr, key _ _ (.step h h2 hr)]
      · rw [sqrtVal, sqrtVal, dif_neg hs, dif_neg]
        rintro ⟨r, hr⟩
        cases hr with
        | one h' => exact h h'
        | found _ h' => exact h2 h'
        | step _ _ h' => exact hs ⟨r, h'⟩

/-- An interpretation of the two functions with the value `d` where the iteration does not stop. -/
noncomputable def sqrtInterp (d : Int) : Interp :=
  ⟨fun f vs => match vs with
    | [.int n, .int g] => .int (sqrtVal d n g)
    | [.int n] => .int (sqrtVal d (Int.fdiv n 2) n)
    | _ => if f = "" then .int 0 else .int 0, fun _ _ => .int 0, Int.fdiv, Int.fmod, fun _ => .int 0⟩

theorem sqrtInterp_holds (d : Int) : integerSqrt.Holds (sqrtInterp d) ∧ integerSqrtHelper.Holds (sqrtInterp d) := by
  constructor
  · refine ⟨_, rfl, fun ρ hρ => ?_⟩
    obtain ⟨n, hn⟩ := hρ _ (List.mem_cons_self ..)
    have hn : ρ "n" = .int n := hn
    rw [eval_call]
    simp only [List.map_cons, List.map_nil, eval_div, eval_var, integerSqrt, hn]
    rfl
  · obtain ⟨b, hb, -⟩ := eval_sqrtBody (sqrtInterp d) (env1 (.int 0)) 0 0 rfl rfl
    refine ⟨b, hb, fun ρ hρ => ?_⟩
    obtain ⟨n, hn⟩ := hρ _ (List.mem_cons_self ..)
    obtain ⟨g, hg⟩ := hρ _ (List.mem_cons_of_mem _ (List.mem_cons_self ..))
    obtain ⟨b', hb', h⟩ := eval_sqrtBody (sqrtInterp d) ρ n g hn hg
    cases hb.symm.trans hb'
    rw [h]
    have hn : ρ "n" = .int n := hn
    have hg : ρ "guess" = .int g := hg
    simp only [integerSqrtHelper, List.map_cons, List.map_nil, hn, hg]
    show Val.int (sqrtVal d n g) = _
    rw [sqrtVal_eq]
    show _ = if g = 0 ∨ g = 1 ∨ g > 64 then Val.int 1 else if g = Int.fdiv n g then Val.int g
      else Val.int (sqrtVal d n (Int.fdiv (g + Int.fdiv n g) 2))
    split
    · rfl
    · split <;> rfl

theorem no_stop {g r : Int} (h : Stops Int.fdiv 8 g r) : g ≠ 2 ∧ g ≠ 3 := by
  induction h with
  | one h => omega
  | found h1 h2 => refine ⟨?_, ?_⟩ <;> (rintro rfl; revert h2; decide)
  | step h1 h2 _ ih =>
    refine ⟨?_, ?_⟩
    · rintro rfl; exact ih.2 (by decide)
    · rintro rfl; exact ih.1 (by decide)

/-- C31 is false for `integer_sqrt` of 16: the iteration alternates between the guesses 3 and 2, and the definition does not determine
a value: there are interpretations with any value. -/
theorem C31_integer_sqrt_16_refuted (d : Int) : ∃ I : Interp, integerSqrt.Holds I ∧ integerSqrtHelper.Holds I ∧ I.idiv = Int.fdiv ∧
    I.fn "integer_sqrt" [.int 16] = .int d := by
  refine ⟨sqrtInterp d, (sqrtInterp_holds d).1, (sqrtInterp_holds d).2, rfl, ?_⟩
  show Val.int (sqrtVal d 8 16) = .int d
  rw [sqrtVal_eq, if_neg (by decide), if_neg (by decide), show Int.fdiv (16 + Int.fdiv 8 16) 2 = 8 from by decide,
    sqrtVal_eq, if_neg (by decide), if_neg (by decide), show Int.fdiv (8 + Int.fdiv 8 8) 2 = 4 from by decide,
    sqrtVal_eq, if_neg (by decide), if_neg (by decide), show Int.fdiv (4 + Int.fdiv 8 4) 2 = 3 from by decide,
    sqrtVal, dif_neg]
  rintro ⟨r, hr⟩
  exact (no_stop hr).2 rfl

end Metalift.Ten
