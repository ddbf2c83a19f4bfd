import Verif.GemminiSpec
/- Lemmas for C75. -/
namespace Metalift.Gem
open Metalift Ten

/-! ### Loops -/

theorem setArr_setArr (σ : St) (x : String) (A B : Nat → Nat → Int) : (σ.setArr x A).setArr x B = σ.setArr x B := by
  simp only [St.setArr]; congr; funext y; by_cases h : y = x <;> simp [h]

theorem loop_inv {more : Nat → St → Option Bool} {body : Nat → St → Option St} {L : Nat} {S : Nat → St} (h1 : ∀ i < L, more i (S i) = some true)
    (h2 : ∀ i < L, body i (S i) = some (S (i + 1))) (h3 : more L (S L) = some false) :
    ∀ f i, i ≤ L → L + 1 ≤ f + i → loop more body f i (S i) = some (S L) := by
  intro f
  induction f with
  | zero => intro i h h'; omega
  | succ f ih =>
    intro i hi hf
    by_cases h : i = L
    · subst h; simp [loop, h3]
    · simp only [loop, h1 i (by omega), h2 i (by omega), Option.bind_some, if_true]
      exact ih (i + 1) (by omega) (by omega)

theorem below_len (M : Mach) (v : String) (i : Nat) (σ : St) : below M v len i σ = some (decide (i < M.len)) := by
  simp [below, cval, len]

theorem for1_ok (M : Mach) (x : String) (e : CExp) (σ : St) (A : Nat → Nat → Int) (g : Nat → Int) (hL : 0 < M.len) (hA : σ.arr x = some A)
    (he : ∀ A' i, i < M.len → cval M ((σ.setArr x A').setSc "i" i) e = some (g i)) :
    exec M (.for1 len x e) σ = some (σ.setArr x fun a b => if a < M.len ∧ b = 0 then M.conv (g a) else A a b) := by
  have h0 : σ = σ.setArr x (fun a b => if a < 0 ∧ b = 0 then M.conv (g a) else A a b) := by
    cases σ; simp only [St.setArr]; congr; funext y; by_cases h : y = x
    · subst h; simpa using hA
    · simp [h]
  simp only [exec]
  refine (congrArg (loop _ _ _ _) h0).trans ?_
  refine loop_inv (S := fun i => σ.setArr x (fun a b => if a < i ∧ b = 0 then M.conv (g a) else A a b)) (L := M.len) ?_ ?_ ?_ _ _ (by omega) (by omega)
  · intro i hi; simp [below_len, hi]
  · intro i hi
    have : (σ.setArr x (fun a b => if a < i ∧ b = 0 then M.conv (g a) else A a b)).arr x = some (fun a b => if a < i ∧ b = 0 then M.conv (g a) else A a b) := by
      simp [St.setArr]
    simp only [assign, this, Option.bind_some, he _ i hi, hi, hL, and_self, if_true, setArr_setArr, Option.some.injEq]
    congr 1
    funext a b
    simp only [put]
    by_cases ha : a = i
    · subst ha; by_cases hb : b = 0 <;> simp [hb]
    · have : (a < i + 1) = (a < i) := by simp; omega
      simp [ha, this]
  · simp [below_len]

theorem for2_ok (M : Mach) (x : String) (e : CExp) (σ : St) (A : Nat → Nat → Int) (g : Nat → Nat → Int) (hA : σ.arr x = some A)
    (he : ∀ A' i j, i < M.len → j < M.len → cval M (((σ.setArr x A').setSc "i" i).setSc "j" j) e = some (g i j)) :
    exec M (.for2 c0 len c0 len x e) σ = some (σ.setArr x fun a b => if a < M.len ∧ b < M.len then M.conv (g a b) else A a b) := by
  have h0 : σ = σ.setArr x (fun a b => if a < 0 ∧ b < M.len then M.conv (g a b) else A a b) := by
    cases σ; simp only [St.setArr]; congr; funext y; by_cases h : y = x
    · subst h; simpa using hA
    · simp [h]
  have hs : ∀ τ, start M τ c0 = some 0 := fun τ => by simp [start, c0, cval]
  simp only [exec, hs, Option.bind_some]
  refine (congrArg (loop _ _ _ _) h0).trans ?_
  refine loop_inv (S := fun i => σ.setArr x (fun a b => if a < i ∧ b < M.len then M.conv (g a b) else A a b)) (L := M.len) ?_ ?_ ?_ _ _ (by omega) (by omega)
  · intro i hi; simp [below_len, hi]
  · intro i hi
    have e0 : ∀ a b, (if a < i ∧ b < M.len then M.conv (g a b) else A a b) = if (a < i ∨ a = i ∧ b < 0) ∧ b < M.len then M.conv (g a b) else A a b := by
      intro a b; simp
    have e1 : ∀ a b, (if a < i + 1 ∧ b < M.len then M.conv (g a b) else A a b) = if (a < i ∨ a = i ∧ b < M.len) ∧ b < M.len then M.conv (g a b) else A a b := by
      intro a b
      by_cases hb : b < M.len
      · have : (a < i + 1) ↔ (a < i ∨ a = i) := by omega
        simp [hb, this]
      · simp [hb]
    simp only [e0, e1]
    refine loop_inv (S := fun j => σ.setArr x (fun a b => if (a < i ∨ a = i ∧ b < j) ∧ b < M.len then M.conv (g a b) else A a b)) (L := M.len) ?_ ?_ ?_ _ _ (by omega) (by omega)
    · intro j hj; simp [below_len, hj]
    · intro j hj
      have : (σ.setArr x (fun a b => if (a < i ∨ a = i ∧ b < j) ∧ b < M.len then M.conv (g a b) else A a b)).arr x =
          some (fun a b => if (a < i ∨ a = i ∧ b < j) ∧ b < M.len then M.conv (g a b) else A a b) := by
        simp [St.setArr]
      simp only [assign, this, Option.bind_some, he _ i j hi hj, hi, hj, and_self, if_true, setArr_setArr, Option.some.injEq]
      congr 1
      funext a b
      simp only [put]
      by_cases hab : a = i ∧ b = j
      · obtain ⟨rfl, rfl⟩ := hab; simp [hj]
      · have : (a < i ∨ a = i ∧ b < j + 1) ↔ (a < i ∨ a = i ∧ b < j) := by omega
        simp [hab, this]
    · simp [below_len]
  · simp [below_len]

/-! ### Expressions -/

/-- The text of an integer expression. -/
def SExp.code : SExp → CExp
  | .var x => .name x
  | .lit i => .num i
  | .bin o a b => .bin (match o with | .add => .add | .sub => .sub | .mul => .mul) a.code b.code

theorem scalar_ok {L : Nat} {k : K} {params : List (String × Ty)} {ρ : Env} {σ : St} (I : Interp) (M : Mach) (hc : ∀ p ∈ params, Clean p.1)
    (H : Holds L k params ρ σ) (s : SExp) (hs : s.ok params) :
    ∃ v, eval I ρ s.toExpr = .int v ∧ ∀ τ : St, (∀ y, y ≠ "i" → y ≠ "j" → τ.sc y = σ.sc y) → cval M τ s.code = some v := by
  induction s with
  | var x =>
    obtain ⟨i, h1, h2⟩ := H.int x hs
    obtain ⟨_, c1, c2, c3, _⟩ := hc _ hs
    exact ⟨i, by simp [SExp.toExpr, eval, h2], fun τ hτ => by simp only [SExp.code, cval]; rw [if_neg c3, hτ x c1 c2, h1]⟩
  | lit i => exact ⟨i, by simp [SExp.toExpr, eval, Lit.val], fun τ _ => by simp [SExp.code, cval]⟩
  | bin o a b iha ihb =>
    obtain ⟨v, a1, a2⟩ := iha hs.1
    obtain ⟨w, b1, b2⟩ := ihb hs.2
    refine ⟨o.run v w, ?_, fun τ hτ => ?_⟩
    · cases o <;> simp [SExp.toExpr, eval, evals, evalOp, Ar.op, Ar.run, a1, b1, Val.asInt]
    · cases o <;> simp [SExp.code, cval, a2 τ hτ, b2 τ hτ, COp.run, Ar.run]

theorem sExpr_notCall (s : SExp) : (∀ f t as, s.toExpr ≠ .node (.call f) t as) ∧ (∀ t as, s.toExpr ≠ .node .ite t as) := by
  cases s with
  | bin o => cases o <;> simp [SExp.toExpr, Ar.op]
  | _ => simp [SExp.toExpr]

/-- The size of an integer expression. -/
def SExp.sz : SExp → Nat
  | .bin _ a b => a.sz + b.sz + 4
  | _ => 1

theorem gen_scalar (fns : List (String × Np.SynthFn)) (flt : Bool) (D : Dims) (k : Nat) (s : SExp) :
    ∀ n, s.sz ≤ n → ∀ x, gen fns flt n s.toExpr x D k = some (.exp s.code, .int, D, k) := by
  induction s with
  | var x => intro n hn y; obtain ⟨n, rfl⟩ : ∃ m, n = m + 1 := ⟨n - 1, by simp [SExp.sz] at hn; omega⟩; simp [SExp.toExpr, gen, SExp.code]
  | lit i => intro n hn y; obtain ⟨n, rfl⟩ : ∃ m, n = m + 1 := ⟨n - 1, by simp [SExp.sz] at hn; omega⟩; simp [SExp.toExpr, gen, SExp.code]
  | bin o a b iha ihb =>
    intro n hn y
    simp only [SExp.sz] at hn
    obtain ⟨n, rfl⟩ : ∃ m, n = m + 4 := ⟨n - 4, by omega⟩
    cases o <;> simp [SExp.toExpr, Ar.op, gen, genAll, iha _ (by omega : a.sz ≤ n + 2), ihb _ (by omega : b.sz ≤ n + 1), arith, Code.toExp, SExp.code, guard, pure]

/-! ### Values -/

theorem vecOf_congr {L : Nat} {A B : Nat → Nat → Int} (h : ∀ i < L, A i 0 = B i 0) : vecOf L A = vecOf L B :=
  List.map_congr_left fun i hi => h i (List.mem_range.1 hi)

theorem matOf_congr {L : Nat} {A B : Nat → Nat → Int} (h : ∀ i < L, ∀ j < L, A i j = B i j) : matOf L A = matOf L B :=
  List.map_congr_left fun i hi => List.map_congr_left fun j hj => h i (List.mem_range.1 hi) j (List.mem_range.1 hj)

/-- The relevant indices. -/
def Idx (L : Nat) : K → Nat → Nat → Prop
  | .vec, i, j => i < L ∧ j = 0
  | .mat, i, j => i < L ∧ j < L

theorem valOf_congr {L : Nat} (k : K) {A B : Nat → Nat → Int} (h : ∀ i j, Idx L k i j → A i j = B i j) : valOf L k A = valOf L k B := by
  cases k with
  | vec => simp only [valOf, vecOf_congr fun i hi => h i 0 ⟨hi, rfl⟩]
  | mat => simp only [valOf, matOf_congr fun i hi j hj => h i j ⟨hi, hj⟩]

theorem vecV_inj {a b : List Int} (h : vecV a = vecV b) : a = b := by
  simp only [vecV, Val.list.injEq] at h
  exact (List.map_inj_right fun _ _ h => Val.int.inj h).1 h

theorem matV_inj {a b : List (List Int)} (h : matV a = matV b) : a = b := by
  simp only [matV, Val.list.injEq] at h
  exact (List.map_inj_right fun _ _ h => vecV_inj h).1 h

theorem small_idx {L : Nat} {k : K} {A : Nat → Nat → Int} (h : Small k (valOf L k A)) {i j : Nat} (hij : Idx L k i j) : Byte (A i j) := by
  cases k with
  | vec =>
    obtain ⟨xs, h1, h2⟩ := h
    obtain ⟨hi, rfl⟩ := hij
    rw [← vecV_inj h1] at h2
    exact h2 _ (List.mem_map.2 ⟨i, List.mem_range.2 hi, rfl⟩)
  | mat =>
    obtain ⟨xs, h1, h2⟩ := h
    obtain ⟨hi, hj⟩ := hij
    rw [← matV_inj h1] at h2
    exact h2 _ (List.mem_map.2 ⟨i, List.mem_range.2 hi, rfl⟩) _ (List.mem_map.2 ⟨j, List.mem_range.2 hj, rfl⟩)

theorem zip_range {α β γ : Type} (op : α → β → γ) (l : List Nat) (f : Nat → α) (g : Nat → β) :
    List.zipWith op (l.map f) (l.map g) = l.map fun i => op (f i) (g i) := by
  induction l with
  | nil => rfl
  | cons a l ih => simp [ih]

theorem same_shape (l : List Nat) (L : Nat) (hL : 0 < L) (A B : Nat → Nat → Int) :
    SameShape (l.map fun i => (List.range L).map fun j => A i j) (l.map fun i => (List.range L).map fun j => B i j) := by
  induction l with
  | nil => exact .nil
  | cons a l ih =>
    refine .cons ⟨?_, by simp⟩ ih
    intro h
    have := congrArg List.length h
    simp at this; omega

theorem fn_bin {I : Interp} (HI : Np.NpModel I) (L : Nat) (hL : 0 < L) (k : K) (o : Ar) (A B : Nat → Nat → Int) :
    I.fn (k.fn o) [valOf L k A, valOf L k B] = valOf L k fun i j => o.run (A i j) (B i j) := by
  cases k with
  | vec =>
    have V := C31_vectors I HI.model (vecOf L A) (vecOf L B) 0
    have hl : (vecOf L A).length = (vecOf L B).length := by simp [vecOf]
    cases o
    · simp only [K.fn, valOf, V.1, zipIf, if_pos hl]; simp [vecOf, Ar.run]
    · simp only [K.fn, valOf, V.2.1, zipIf, if_pos hl]; simp [vecOf, Ar.run]
    · simp only [K.fn, valOf, V.2.2.1, zipIf, if_pos hl]; simp [vecOf, Ar.run]
  | mat =>
    have V := C31_matrices_partial I HI.model (matOf L A) (matOf L B) (same_shape _ L hL A B)
    cases o
    · simp only [K.fn, valOf, V.1]; simp [matOf, Ar.run]
    · simp only [K.fn, valOf, V.2.1]; simp [matOf, Ar.run]
    · simp only [K.fn, valOf, V.2.2.1]; simp [matOf, Ar.run]

theorem mat_rows (L : Nat) (hL : 0 < L) (A : Nat → Nat → Int) : ∀ r ∈ matOf L A, r ≠ [] := by
  intro r hr h
  obtain ⟨i, _, rfl⟩ := List.mem_map.1 hr
  have := congrArg List.length h
  simp at this; omega

theorem fn_subScalar {I : Interp} (HI : Np.NpModel I) (L : Nat) (hL : 0 < L) (k : K) (s : Int) (A : Nat → Nat → Int) :
    I.fn k.subScalar [.int s, valOf L k A] = valOf L k fun i j => A i j - s := by
  cases k with
  | vec =>
    have V := (C31_vectors I HI.model (vecOf L A) [] s).2.2.2.2.2.2.1
    simp only [K.subScalar, valOf, V]; simp [vecOf, Function.comp_def]
  | mat =>
    have V := (C31_scalar_matrices_partial I HI.model s (matOf L A) (mat_rows L hL A)).2.2.1
    simp only [K.subScalar, valOf, V]; simp [matOf, Function.comp_def]

theorem fn_scalarSub {I : Interp} (HI : Np.NpModel I) (L : Nat) (hL : 0 < L) (k : K) (s : Int) (A : Nat → Nat → Int) :
    I.fn k.scalarSub [.int s, valOf L k A] = valOf L k fun i j => s - A i j := by
  cases k with
  | vec =>
    have V := (C31_vectors I HI.model (vecOf L A) [] s).2.2.2.2.2.2.2.2.1
    simp only [K.scalarSub, valOf, V]; simp [vecOf, Function.comp_def]
  | mat =>
    have V := (C31_scalar_matrices_partial I HI.model s (matOf L A) (mat_rows L hL A)).2.2.2.2.1
    simp only [K.scalarSub, valOf, V]; simp [matOf, Function.comp_def]

theorem fn_scalarMul {I : Interp} (HI : Np.NpModel I) (L : Nat) (s : Int) (A : Nat → Nat → Int) :
    I.fn "vec_scalar_mul" [.int s, valOf L .vec A] = valOf L .vec fun i j => s * A i j := by
  have V := (C31_vectors I HI.model (vecOf L A) [] s).2.2.2.2.2.1
  simp only [valOf, V]; simp [vecOf, Function.comp_def]

theorem fn_transpose {I : Interp} (HI : Np.NpModel I) (L : Nat) (hL : 0 < L) (A : Nat → Nat → Int) :
    I.fn "matrix_transpose" [valOf L .mat A] = valOf L .mat fun i j => A j i := by
  have hne : matOf L A ≠ [] := by
    intro h
    have := congrArg List.length h
    simp [matOf] at this; omega
  have V := HI.transpose (matOf L A) L hne hL (by
    intro r hr
    obtain ⟨i, _, rfl⟩ := List.mem_map.1 hr
    simp)
  simp only [valOf, V]
  congr 1
  simp only [matOf, List.map_map]
  refine List.map_congr_left fun j hj => List.map_congr_left fun i hi => ?_
  simp [List.getD, List.mem_range.1 hj]

/-! ### Statements -/

theorem cell_ok {M : Mach} {σ : St} {y x : String} {B : Nat → Nat → Int} (hy : σ.arr y = some B) (hyx : y ≠ x) (A' : Nat → Nat → Int) {i j : Nat}
    (hi : i < M.len) (hj : j < M.len) :
    cval M (((σ.setArr x A').setSc "i" i).setSc "j" j) (cell (.name y)) = some (B i j) ∧
    cval M (((σ.setArr x A').setSc "i" i).setSc "j" j) (.at (.name y) cj ci) = some (B j i) := by
  simp [cell, ci, cj, cval, St.setArr, St.setSc, hyx, hy, hi, hj]

theorem col_ok {M : Mach} {σ : St} {y x : String} {B : Nat → Nat → Int} (hy : σ.arr y = some B) (hyx : y ≠ x) (A' : Nat → Nat → Int) {i : Nat}
    (hi : i < M.len) : cval M ((σ.setArr x A').setSc "i" i) (col (.name y)) = some (B i 0) := by
  have : 0 < M.len := by omega
  simp [col, ci, c0, cval, St.setArr, St.setSc, hyx, hy, hi, this]

/-- `σ'` is `σ` with the values `g` in the array `x`. -/
def Wrote (M : Mach) (k : K) (σ : St) (x : String) (g : Nat → Nat → Int) (σ' : St) : Prop :=
  ∃ C, σ' = σ.setArr x C ∧ ∀ i j, Idx M.len k i j → C i j = g i j

theorem resadd_ok {M : Mach} (hM : M.Ok) (k : K) {σ : St} {p q x : String} {A B : Nat → Nat → Int} {s t : CExp} {v w : Int} (hp : σ.arr p = some A)
    (hq : σ.arr q = some B) (hx : (σ.arr x).isSome) (hs : cval M σ s = some v) (ht : cval M σ t = some w)
    (hb : ∀ i j, Idx M.len k i j → Byte (v * A i j + w * B i j)) :
    ∃ σ', execs M [.resadd len len s t (.name p) (.name q) x] σ = some σ' ∧ Wrote M k σ x (fun i j => v * A i j + w * B i j) σ' := by
  obtain ⟨C, hC⟩ := Option.isSome_iff_exists.1 hx
  refine ⟨σ.setArr x (resaddArr M v w A B C M.len), ?_, _, rfl, ?_⟩
  · have : cval M σ len = some (M.len : Int) := by simp [len, cval]
    simp [execs, exec, this, hs, ht, arrOf, hp, hq, hC, guard, pure]
  · intro i j hij
    have h1 : i < M.len := by cases k <;> exact hij.1
    have h2 : j < M.len := by
      cases k with
      | vec => obtain ⟨_, rfl⟩ := hij; exact hM.pos
      | mat => exact hij.2
    simp only [resaddArr]
    rw [if_pos ⟨by exact_mod_cast h1, h2⟩, hM.sat _ (hb i j hij)]

/-- A loop over all elements. -/
def loopStm (k : K) (x : String) (e : (CExp → CExp) → CExp) : Stm :=
  match k with
  | .vec => .for1 len x (e col)
  | .mat => .for2 c0 len c0 len x (e cell)

theorem loop_ok {M : Mach} (hM : M.Ok) (k : K) {σ : St} {x : String} (e : (CExp → CExp) → CExp) (g : Nat → Nat → Int) (hx : (σ.arr x).isSome)
    (h1 : k = .vec → ∀ A' i, i < M.len → cval M ((σ.setArr x A').setSc "i" i) (e col) = some (g i 0))
    (h2 : k = .mat → ∀ A' i j, i < M.len → j < M.len → cval M (((σ.setArr x A').setSc "i" i).setSc "j" j) (e cell) = some (g i j))
    (hb : ∀ i j, Idx M.len k i j → Byte (g i j)) :
    ∃ σ', execs M [loopStm k x e] σ = some σ' ∧ Wrote M k σ x g σ' := by
  obtain ⟨C, hC⟩ := Option.isSome_iff_exists.1 hx
  cases k with
  | vec =>
    refine ⟨_, by simp only [execs, loopStm]; rw [for1_ok M x _ σ C (fun i => g i 0) hM.pos hC (h1 rfl)]; rfl, _, rfl, ?_⟩
    rintro i j ⟨hi, rfl⟩
    simp [hi, hM.conv _ (hb i 0 ⟨hi, rfl⟩)]
  | mat =>
    refine ⟨_, by simp only [execs, loopStm]; rw [for2_ok M x _ σ C g hC (h2 rfl)]; rfl, _, rfl, ?_⟩
    rintro i j ⟨hi, hj⟩
    simp [hi, hj, hM.conv _ (hb i j ⟨hi, hj⟩)]

theorem execs_append (M : Mach) (s t : List Stm) (σ : St) : execs M (s ++ t) σ = (execs M s σ).bind (execs M t) := by
  induction s generalizing σ with
  | nil => simp [execs]
  | cons a s ih =>
    simp only [List.cons_append, execs]
    cases exec M a σ <;> simp [ih]

/-! ### Generation -/

theorem tempName_inj {m n : Nat} (h : tempName m = tempName n) : m = n := by
  have := congrArg String.toList h
  simp only [tempName, String.toList_append] at this
  exact Nat.repr_inj.1 (String.ext (List.append_cancel_left this))

theorem texp_not_scale (k : K) (t : TExp) (g : String) (ty : Ty) (as : List Expr) (h : t.toExpr k = .node (.call g) ty as) : g ≠ "vec_scalar_mul" := by
  cases t with
  | bin o => cases k <;> cases o <;> simp [TExp.toExpr, K.fn] at h <;> simp [← h.1]
  | subScalar => cases k <;> simp [TExp.toExpr, K.subScalar] at h <;> simp [← h.1]
  | scalarSub => cases k <;> simp [TExp.toExpr, K.scalarSub] at h <;> simp [← h.1]
  | transpose => simp [TExp.toExpr] at h; simp [← h.1]
  | lincomb => simp [TExp.toExpr] at h; simp [← h.1]
  | _ => simp [TExp.toExpr] at h

theorem fused_ne {f : String} (h1 : f ≠ "vec_elemwise_add") (h2 : f ≠ "matrix_elemwise_add") (as : List Expr) : fused f as = none := by
  unfold fused
  split
  · simp [h1, h2]
  · rfl

theorem fused_texp (f : String) (k : K) (a b : TExp) : fused f [a.toExpr k, b.toExpr k] = none := by
  generalize ha : a.toExpr k = u
  unfold fused
  split
  · next h =>
    injection h with h1 h2
    have := texp_not_scale k a _ _ _ (ha.trans h1)
    simp [this]
  · rfl

end Metalift.Gem
