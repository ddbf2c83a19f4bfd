import Verif.GaudiProof
import Verif.GemminiProof
/-
C77: the kernel generated for Gaudi computes the program.
-/
namespace Metalift.Gaudi
open Metalift Metalift.Ten
open Metalift.Gem (Ar K SExp)

open Classical in
/-- The parameters at a place. -/
noncomputable def pvAt (params : List (String × Ty)) (scal : String → Int) (tens : String → Tensor) (x y : Int) (a : String) : Int :=
  if (a, Ty.int) ∈ params then scal a else tens a x y

theorem pv_int {params : List (String × Ty)} {a : String} (h : (a, Ty.int) ∈ params) (scal : String → Int) (tens : String → Tensor) (x y : Int) :
    pvAt params scal tens x y a = scal a := by simp [pvAt, h]

theorem nodup_ty {params : List (String × Ty)} (hnd : (params.map Prod.fst).Nodup) {a : String} {s t : Ty} (h1 : (a, s) ∈ params) (h2 : (a, t) ∈ params) : s = t := by
  induction params with
  | nil => simp at h1
  | cons p params ih =>
    simp only [List.map_cons, List.nodup_cons] at hnd
    rcases List.mem_cons.1 h1 with rfl | h3 <;> rcases List.mem_cons.1 h2 with h2 | h2
    · injection h2 with _ h; exact h.symm
    · exact absurd (List.mem_map.2 ⟨_, h2, rfl⟩) hnd.1
    · subst h2; exact absurd (List.mem_map.2 ⟨(a, s), h3, rfl⟩ : a ∈ params.map Prod.fst) hnd.1
    · exact ih hnd.2 h3 h2

theorem pv_ten {params : List (String × Ty)} (hnd : (params.map Prod.fst).Nodup) {a : String} {t : Ty} (h : (a, Ty.list t) ∈ params) (scal : String → Int) (tens : String → Tensor)
    (x y : Int) : pvAt params scal tens x y a = tens a x y := by
  rw [pvAt, if_neg]
  intro h'
  exact absurd (nodup_ty hnd h h') (by simp)

theorem ty_list (k : K) : ∃ et, k.ty = .list et := by cases k <;> exact ⟨_, rfl⟩

theorem tensor_congr {w h : Nat} (k : K) {S T : Tensor} (e : ∀ x y : Nat, x < w → (k = .mat → y < h) → (k = .vec → y = 0) → S x y = T x y) : tensorOf w h k S = tensorOf w h k T := by
  cases k with
  | vec =>
    simp only [tensorOf]
    congr 1
    exact List.map_congr_left fun x hx => by simpa using e x 0 (List.mem_range.1 hx) (by simp) (by simp)
  | mat =>
    simp only [tensorOf]
    congr 1
    exact List.map_congr_left fun y hy => List.map_congr_left fun x hx => e x y (List.mem_range.1 hx) (fun _ => List.mem_range.1 hy) (by simp)

theorem eval_int {I : Interp} {w h : Nat} {k : K} {params : List (String × Ty)} {ρ : Env} {scal : String → Int} {tens : String → Tensor} (H : Given w h k params ρ scal tens)
    (s : SExp) (hs : s.ok params) (x y : Int) : eval I ρ s.toExpr = .int (sval (pvAt params scal tens x y) s) := by
  induction s with
  | var a => simp [SExp.toExpr, eval, H.int a hs, sval, pv_int hs]
  | lit i => simp [SExp.toExpr, eval, Lit.val, sval]
  | bin o a b iha ihb =>
    have ha := iha hs.1
    have hb := ihb hs.2
    cases o <;> simp [SExp.toExpr, Ar.op, eval, evals, evalOp, ha, hb, sval, Ar.run, Val.asInt]

theorem same_shape' (h w : Nat) (hw : 0 < w) (S T : Tensor) :
    SameShape ((List.range h).map fun (y : Nat) => (List.range w).map fun (x : Nat) => S x y) ((List.range h).map fun (y : Nat) => (List.range w).map fun (x : Nat) => T x y) :=
  Gem.same_shape _ w hw (fun y x => S x y) fun y x => T x y

theorem fn_bin' {I : Interp} (HI : Model I) (w h : Nat) (hw : 0 < w) (k : K) (o : Ar) (S T : Tensor) :
    I.fn (k.fn o) [tensorOf w h k S, tensorOf w h k T] = tensorOf w h k fun x y => o.run (S x y) (T x y) := by
  cases k with
  | vec =>
    have V := C31_vectors I HI ((List.range w).map fun (x : Nat) => S x 0) ((List.range w).map fun (x : Nat) => T x 0) 0
    have hl : ((List.range w).map fun (x : Nat) => S x 0).length = ((List.range w).map fun (x : Nat) => T x 0).length := by simp
    cases o
    · simp only [K.fn, tensorOf, V.1, zipIf, if_pos hl]; simp [Ar.run]
    · simp only [K.fn, tensorOf, V.2.1, zipIf, if_pos hl]; simp [Ar.run]
    · simp only [K.fn, tensorOf, V.2.2.1, zipIf, if_pos hl]; simp [Ar.run]
  | mat =>
    have V := C31_matrices_partial I HI _ _ (same_shape' h w hw S T)
    cases o
    · simp only [K.fn, tensorOf, V.1]; simp [Ar.run]
    · simp only [K.fn, tensorOf, V.2.1]; simp [Ar.run]
    · simp only [K.fn, tensorOf, V.2.2.1]; simp [Ar.run]

theorem rows_ne (h w : Nat) (hw : 0 < w) (T : Tensor) : ∀ r ∈ ((List.range h).map fun (y : Nat) => (List.range w).map fun (x : Nat) => T x y), r ≠ [] := by
  intro r hr e
  obtain ⟨i, _, rfl⟩ := List.mem_map.1 hr
  have := congrArg List.length e
  simp at this; omega

theorem fn_right {I : Interp} (HI : Model I) (w h : Nat) (hw : 0 < w) (k : K) (o : Ar) (s : Int) (T : Tensor) :
    I.fn (right k o) [.int s, tensorOf w h k T] = tensorOf w h k fun x y => o.run (T x y) s := by
  cases k with
  | vec =>
    have V := (C31_vectors I HI ((List.range w).map fun (x : Nat) => T x 0) [] s).2.2.2.2
    cases o
    · simp only [right, tensorOf, V.1]; simp [Ar.run, Function.comp_def, Int.add_comm]
    · simp only [right, tensorOf, V.2.2.1]; simp [Ar.run, Function.comp_def]
    · simp only [right, tensorOf, V.2.1]; simp [Ar.run, Function.comp_def, Int.mul_comm]
  | mat =>
    have V := C31_scalar_matrices_partial I HI s _ (rows_ne h w hw T)
    cases o
    · simp only [right, tensorOf, V.1]; simp [Ar.run, Function.comp_def, Int.add_comm]
    · simp only [right, tensorOf, V.2.2.1]; simp [Ar.run, Function.comp_def]
    · simp only [right, tensorOf, V.2.1]; simp [Ar.run, Function.comp_def, Int.mul_comm]

theorem fn_left {I : Interp} (HI : Model I) (w h : Nat) (hw : 0 < w) (k : K) (s : Int) (T : Tensor) :
    I.fn (left k) [.int s, tensorOf w h k T] = tensorOf w h k fun x y => s - T x y := by
  cases k with
  | vec =>
    have V := (C31_vectors I HI ((List.range w).map fun (x : Nat) => T x 0) [] s).2.2.2.2.2.2.2.2.1
    simp only [left, tensorOf, V]; simp [Function.comp_def]
  | mat =>
    have V := (C31_scalar_matrices_partial I HI s _ (rows_ne h w hw T)).2.2.2.2.1
    simp only [left, tensorOf, V]; simp [Function.comp_def]

theorem eval_ten {I : Interp} (HI : Model I) {w h : Nat} (hw : 0 < w) {k : K} {params : List (String × Ty)} (hnd : (params.map Prod.fst).Nodup) {ρ : Env} {scal : String → Int}
    {tens : String → Tensor} (H : Given w h k params ρ scal tens) (t : TE) (ht : t.ok k params) :
    eval I ρ (t.toExpr k) = tensorOf w h k fun x y => t.at (pvAt params scal tens x y) := by
  induction t with
  | var a =>
    obtain ⟨et, he⟩ := ty_list k
    have ht' : (a, k.ty) ∈ params := ht
    rw [he] at ht'
    simp only [TE.toExpr, eval, H.ten a ht, TE.at, pv_ten hnd ht']
  | bin o a b iha ihb => simp only [TE.toExpr, eval, evals, evalOp, iha ht.1, ihb ht.2, fn_bin' HI w h hw, TE.at]
  | right o s a iha =>
    simp only [TE.toExpr, eval, evals, evalOp, iha ht.2, eval_int H s ht.1 0 0, fn_right HI w h hw, TE.at]
    refine tensor_congr k fun x y _ _ _ => ?_
    have := (eval_int (I := I) H s ht.1 0 0).symm.trans (eval_int H s ht.1 x y)
    injection this with this
    rw [this]
  | left s a iha =>
    simp only [TE.toExpr, eval, evals, evalOp, iha ht.2, eval_int H s ht.1 0 0, fn_left HI w h hw, TE.at]
    refine tensor_congr k fun x y _ _ _ => ?_
    have := (eval_int (I := I) H s ht.1 0 0).symm.trans (eval_int H s ht.1 x y)
    injection this with this
    rw [this]

theorem range_list {d : DT} {vs : List Val} (h : InRange d (.list vs)) : ∀ v ∈ vs, InRange d v := by cases h; assumption
theorem range_int {d : DT} {i : Int} (h : InRange d (.int i)) : d.has i := by cases h; assumption

theorem range_at {d : DT} {w h : Nat} {k : K} {T : Tensor} (hr : InRange d (tensorOf w h k T)) {x y : Int} (hxy : Inside w h k x y) : d.has (T x y) := by
  obtain ⟨x, rfl⟩ := Int.eq_ofNat_of_zero_le hxy.1
  have hx := hxy.2.1
  cases k with
  | vec =>
    have hy : y = 0 := hxy.2.2
    subst hy
    exact range_int (range_list hr _ (List.mem_map.2 ⟨_, List.mem_map.2 ⟨x, List.mem_range.2 (by omega), rfl⟩, rfl⟩))
  | mat =>
    obtain ⟨hy0, hy⟩ : 0 ≤ y ∧ y < h := hxy.2.2
    obtain ⟨y, rfl⟩ := Int.eq_ofNat_of_zero_le hy0
    have := range_list hr _ (List.mem_map.2 ⟨_, List.mem_map.2 ⟨y, List.mem_range.2 (by omega), rfl⟩, rfl⟩)
    exact range_int (range_list this _ (List.mem_map.2 ⟨_, List.mem_map.2 ⟨x, List.mem_range.2 (by omega), rfl⟩, rfl⟩))

theorem ok_subs {k : K} {params : List (String × Ty)} {t : TE} (ht : t.ok k params) : ∀ u ∈ t.subs, u.ok k params := by
  induction t with
  | var a => intro u hu; simp only [TE.subs, List.mem_singleton] at hu; subst hu; exact ht
  | bin o a b iha ihb =>
    intro u hu
    simp only [TE.subs, List.mem_cons, List.mem_append] at hu
    rcases hu with rfl | hu | hu
    · exact ht
    · exact iha ht.1 u hu
    · exact ihb ht.2 u hu
  | right o s a iha =>
    intro u hu
    simp only [TE.subs, List.mem_cons] at hu
    rcases hu with rfl | hu
    · exact ht
    · exact iha ht.2 u hu
  | left s a iha =>
    intro u hu
    simp only [TE.subs, List.mem_cons] at hu
    rcases hu with rfl | hu
    · exact ht
    · exact iha ht.2 u hu

theorem ok_intSubs {params : List (String × Ty)} {s : SExp} (hs : s.ok params) : ∀ u ∈ intSubs s, u.ok params := by
  induction s with
  | var a => intro u hu; simp only [intSubs, List.mem_singleton] at hu; subst hu; exact hs
  | lit a => intro u hu; simp only [intSubs, List.mem_singleton] at hu; subst hu; exact hs
  | bin o a b iha ihb =>
    intro u hu
    simp only [intSubs, List.mem_cons, List.mem_append] at hu
    rcases hu with rfl | hu | hu
    · exact hs
    · exact iha hs.1 u hu
    · exact ihb hs.2 u hu

theorem ok_ints {k : K} {params : List (String × Ty)} {t : TE} (ht : t.ok k params) : ∀ u ∈ t.ints, u.ok params := by
  induction t with
  | var a => intro u hu; simp [TE.ints] at hu
  | bin o a b iha ihb =>
    intro u hu
    rcases List.mem_append.1 hu with hu | hu
    · exact iha ht.1 u hu
    · exact ihb ht.2 u hu
  | right o s a iha =>
    intro u hu
    rcases List.mem_append.1 hu with hu | hu
    · exact ok_intSubs ht.1 u hu
    · exact iha ht.2 u hu
  | left s a iha =>
    intro u hu
    rcases List.mem_append.1 hu with hu | hu
    · exact ok_intSubs ht.1 u hu
    · exact iha ht.2 u hu

/-! ### The loops -/

theorem mapM_some {α β : Type} {g : α → Option β} {f : α → β} {l : List α} (h : ∀ a ∈ l, g a = some (f a)) : l.mapM g = some (l.map f) := by
  induction l with
  | nil => rfl
  | cons a l ih =>
    simp [List.mapM_cons, h a (List.mem_cons_self ..), ih fun b hb => h b (List.mem_cons_of_mem _ hb)]

/-- The values `f` are written at the places `A`. -/
def Writes (f : Tensor) (A : Int → Int → Prop) (o o' : Tensor) : Prop := ∀ x y, (A x y → o' x y = f x y) ∧ (¬ A x y → o' x y = o x y)

theorem fold_writes {α : Type} (f : Tensor) (A : α → Int → Int → Prop) (g : Tensor → α → Option Tensor) (l : List α) (h : ∀ a ∈ l, ∀ o, ∃ o', g o a = some o' ∧ Writes f (A a) o o') (o : Tensor) :
    ∃ o', l.foldlM g o = some o' ∧ Writes f (fun x y => ∃ a ∈ l, A a x y) o o' := by
  induction l generalizing o with
  | nil => exact ⟨o, rfl, fun x y => ⟨by simp, fun _ => rfl⟩⟩
  | cons a l ih =>
    obtain ⟨o1, h1, w1⟩ := h a (List.mem_cons_self ..) o
    obtain ⟨o2, h2, w2⟩ := ih (fun b hb => h b (List.mem_cons_of_mem _ hb)) o1
    refine ⟨o2, by simp [List.foldlM_cons, h1, h2], fun x y => ⟨?_, fun hn => ?_⟩⟩
    · rintro ⟨b, hb, hA⟩
      by_cases h3 : ∃ c ∈ l, A c x y
      · exact (w2 x y).1 h3
      · rw [(w2 x y).2 h3]
        rcases List.mem_cons.1 hb with rfl | hb
        · exact (w1 x y).1 hA
        · exact absurd ⟨b, hb, hA⟩ h3
    · rw [(w2 x y).2 fun ⟨c, hc, hA⟩ => hn ⟨c, List.mem_cons_of_mem _ hc, hA⟩, (w1 x y).2 fun hA => hn ⟨a, List.mem_cons_self .., hA⟩]

theorem mem_span {a b i : Int} : i ∈ span a b ↔ a ≤ i ∧ i < b := by
  simp only [span, List.mem_map, List.mem_range]
  constructor
  · rintro ⟨n, h1, rfl⟩; omega
  · rintro ⟨h1, h2⟩; exact ⟨(i - a).toNat, by omega, by omega⟩

theorem lanes_pos (d : DT) : 0 < lanes d := by cases d <;> decide
theorem vec_len_eq (d : DT) : vecLen d = lanes d := by cases d <;> rfl

theorem round_writes {K : Kernel} {M : Mach} {d : DT} {scal : String → Int} {tens : String → Tensor} {f : Tensor} (h : ∀ x y, K.lane M d scal tens x y = some (f x y)) (i j : Int) (o : Tensor) :
    ∃ o', K.round M d scal tens i j o = some o' ∧ Writes f (fun x y => y = j ∧ i * lanes d ≤ x ∧ x < (i + 1) * lanes d) o o' := by
  refine ⟨_, by rw [Kernel.round, vec_len_eq, mapM_some (f := fun (n : Nat) => f (i * lanes d + n) j) fun n _ => h _ _]; rfl, fun x y => ?_⟩
  have e : (i + 1) * (lanes d : Int) = i * lanes d + lanes d := by rw [Int.add_mul, Int.one_mul]
  rw [e]
  generalize i * (lanes d : Int) = b
  constructor
  · rintro ⟨rfl, h1, h2⟩
    have h3 : (x - b).toNat < lanes d := by omega
    have h4 : ((x - b).toNat : Int) = x - b := by omega
    have h5 : ¬ x < b := by omega
    simp only [if_true, if_neg h5, List.getElem?_map, List.getElem?_range h3, Option.map_some, Option.getD_some, h4]
    congr 1; omega
  · intro hn
    by_cases hy : y = j
    · by_cases hx : x < b
      · simp [hy, hx]
      · have h3 : ¬ (x - b).toNat < lanes d := by
          intro h; exact hn ⟨hy, by omega, by omega⟩
        have : (List.range (lanes d))[(x - b).toNat]? = none := by simp; omega
        simp [hy, hx, this]
    · simp [hy]

theorem covers_first {d : DT} {a b x : Int} : (∃ i ∈ span a b, i * (lanes d : Int) ≤ x ∧ x < (i + 1) * lanes d) ↔ a * lanes d ≤ x ∧ x < b * lanes d := by
  have hp : (0 : Int) < lanes d := by have := lanes_pos d; omega
  constructor
  · rintro ⟨i, hi, h1, h2⟩
    rw [mem_span] at hi
    exact ⟨Int.le_trans (Int.mul_le_mul_of_nonneg_right hi.1 (Int.le_of_lt hp)) h1, Int.lt_of_lt_of_le h2 (Int.mul_le_mul_of_nonneg_right (by omega) (Int.le_of_lt hp))⟩
  · rintro ⟨h1, h2⟩
    refine ⟨x / lanes d, mem_span.2 ⟨(Int.le_ediv_iff_mul_le hp).2 h1, (Int.ediv_lt_iff_lt_mul hp).2 h2⟩, Int.ediv_mul_le _ (by omega), ?_⟩
    exact Int.lt_ediv_add_one_mul_self _ hp

theorem vname_eq (n : Nat) : vname n = "v" ++ n.repr := rfl

theorem header_ok (d : DT) (params : List (String × Ty)) (f : String) (k : K) (hty : ∀ p ∈ params, p.2 = .int ∨ ∃ t, p.2 = .list t) :
    ∃ h, header d params f k.ty = some h ∧ h.map Prod.fst = params.map Prod.fst ++ [f ++ "_rv"] ∧ (∀ x, (x, Ty.int) ∈ params → ∃ q ∈ h, q.1 = x ∧ q.2 ≠ .tensor) ∧
      ∀ x t, (x, Ty.list t) ∈ params → ∃ q ∈ h, q.1 = x ∧ q.2 = .tensor := by
  let g : Ty → HT := fun t => (headTy d t).getD .tensor
  have hg : ∀ p ∈ params ++ [(f ++ "_rv", k.ty)], (headTy d p.2).map (fun h => (p.1, h)) = some (p.1, g p.2) := by
    intro p hp
    have : p.2 = .int ∨ ∃ t, p.2 = .list t := by
      rcases List.mem_append.1 hp with hp | hp
      · exact hty p hp
      · rw [List.mem_singleton] at hp; subst hp; exact .inr (ty_list k)
    rcases this with e | ⟨t, e⟩ <;> simp [g, e, headTy]
  have hm := mapM_some (g := fun p : String × Ty => (headTy d p.2).map fun h => (p.1, h)) (f := fun p => (p.1, g p.2)) hg
  refine ⟨_, hm, ?_, fun x hx => ⟨(x, g .int), List.mem_map.2 ⟨_, List.mem_append_left _ hx, rfl⟩, rfl, ?_⟩,
    fun x t hx => ⟨(x, g (.list t)), List.mem_map.2 ⟨_, List.mem_append_left _ hx, rfl⟩, rfl, rfl⟩⟩
  · simp
  · cases d <;> simp [g, headTy]

theorem inv_nil {M : Mach} {d : DT} {P : Seen} {pv : String → Int} : Inv M d P pv [] ⟨0, []⟩ := ⟨rfl, fun n I v h => by simp at h, fun e t l i h => by simp at h⟩

/-- The loops. -/
def shapeOf : K → Shape
  | .vec => .vec
  | .mat => .mat

theorem kernel_gen {M : Mach} {d : DT} (fns : List (String × Fn)) {k : K} {f : String} {params : List (String × Ty)} (hp : Proper f params) (e : Expr) (hred : isReduce e = false) (N : Nat)
    (Q : (String → Int) → Int → Prop) (hgen : ∀ P pv, Sees params P pv → GenN M d P pv [] (fun n => gen fns d n (some (vecTy d)) [] ⟨0, []⟩ e) N (vecTy d) (Q pv)) :
    ∃ Kn : Kernel, (∀ n, N ≤ n → kernel fns d n f params k.ty e = some Kn) ∧ Kn.header.map Prod.fst = params.map Prod.fst ++ [f ++ "_rv"] ∧ Kn.shape = shapeOf k ∧
      ∀ scal tens x y, ∃ v, Kn.lane M d scal tens x y = some v ∧ Q (pvAt params scal tens x y) v := by
  obtain ⟨h, hh, hn, hs, htn⟩ := header_ok d params f k hp.types
  have hnd : (params.map Prod.fst).Nodup := (List.nodup_append.1 hp.distinct).1
  -- what every lane sees
  have sees : ∀ (Kn : Kernel) scal tens x y, Kn.header = h → Kn.shape = shapeOf k →
      Sees params (Kn.seen scal tens x y) (pvAt params scal tens x y) := by
    intro Kn scal tens x y e1 e2
    have hcl : ∀ p ∈ params, p.1 ∉ Kn.shape.counters := by
      intro p hq hc
      have := hp.clean p.1 (List.mem_append_left _ (List.mem_map.2 ⟨_, hq, rfl⟩))
      rw [e2] at hc
      cases k <;> simp only [shapeOf, Shape.counters, List.mem_cons, List.not_mem_nil, or_false] at hc
      · exact this.2.1 hc
      · rcases hc with hc | hc
        · exact this.2.1 hc
        · exact this.2.2.1 hc
    refine ⟨fun a ha => ?_, fun a t ha => ?_, fun p hq n => ?_⟩
    · simp only [Kernel.seen, e1]
      rw [if_pos ⟨hs a ha, hcl _ ha⟩, pv_int ha]
    · simp only [Kernel.seen, e1]
      rw [if_pos ⟨htn a t ha, hcl _ ha⟩, pv_ten hnd ha]
    · exact (hp.clean p.1 (List.mem_append_left _ (List.mem_map.2 ⟨_, hq, rfl⟩))).2.2.2 n
  -- the kernel
  let sh : Shape := shapeOf k
  let K0 : Kernel := ⟨h, f ++ "_rv", sh, [], ""⟩
  obtain ⟨l, i, s, _, hg, _⟩ := hgen _ _ (sees K0 (fun _ => 0) (fun _ _ _ => 0) 0 0 rfl rfl)
  let Kn : Kernel := ⟨h, f ++ "_rv", sh, dedup [] l, i.dest⟩
  refine ⟨Kn, fun n hn => ?_, hn, rfl, fun scal tens x y => ?_⟩
  · have hg := hg n hn
    obtain ⟨et, he⟩ := ty_list k
    have h1 : isList k.ty = true := by rw [he]; rfl
    have h2 : (if isMat k.ty then Shape.mat else .vec) = sh := by cases k <;> rfl
    simp only [kernel, h1, hred, hh, hg, h2, Option.bind_some, Bool.not_true, Bool.false_and, if_true, if_false, Bool.false_eq_true]
    rfl
  · have S := sees Kn scal tens x y rfl rfl
    obtain ⟨l', i', s', G, hg', _, hi, v, r, hv⟩ := hgen _ _ S
    have hg' := hg' _ (Nat.le_refl _)
    rw [hg _ (Nat.le_refl _)] at hg'
    simp only [Option.some.injEq, Prod.mk.injEq] at hg'
    obtain ⟨rfl, rfl, rfl⟩ := hg'
    obtain ⟨ln, h1, h2, h3⟩ := run_ok hi.wf [] [] r.logged (fun I h => by simp at h) r.closed (by simp) (by simp)
    obtain ⟨m, hm⟩ := r.val
    have hdest := (hi.wf m i v hm).1
    have hrv : f ++ "_rv" ∉ ln.map Prod.fst := by
      rw [h2]
      rintro (h | h)
      · simp at h
      · obtain ⟨J, hJ, e⟩ := List.mem_map.1 h
        obtain ⟨m, w, hm⟩ := r.logged J hJ
        have := (hi.wf m J w hm).1
        rw [e] at this
        exact (hp.clean (f ++ "_rv") (by simp)).2.2.2 m this
    have hrc : f ++ "_rv" ∉ Kn.shape.counters := by
      have := hp.clean (f ++ "_rv") (by simp)
      intro hc
      cases k <;> simp only [Kn, sh, shapeOf, Shape.counters, List.mem_cons, List.not_mem_nil, or_false] at hc
      · exact this.2.1 hc
      · rcases hc with hc | hc
        · exact this.2.1 hc
        · exact this.2.2.1 hc
    have hl : i.dest ∈ ln.map Prod.fst := by
      rw [h2]; exact .inr (List.mem_map.2 ⟨_, r.mem, rfl⟩)
    have hlk : ∃ p, List.lookup i.dest ln = some p := by
      cases e : List.lookup i.dest ln with
      | some p => exact ⟨p, rfl⟩
      | none =>
        rw [List.lookup_eq_none_iff] at e
        obtain ⟨q, hq, e'⟩ := List.mem_map.1 hl
        exact absurd (e q hq) (by simp [e'])
    obtain ⟨⟨ty, w⟩, hlk⟩ := hlk
    obtain ⟨m', J, e1, e2, e3⟩ := h3 _ _ _ hlk
    rw [hdest] at e1
    rw [← vname_inj e1, hm] at e2
    simp only [Option.some.injEq, Prod.mk.injEq] at e2
    obtain ⟨rfl, rfl⟩ := e2
    rw [r.ty] at e3
    simp only [Option.some.injEq] at e3
    subst e3
    refine ⟨v, ?_, hv⟩
    simp only [Kernel.lane]
    rw [show Kn.body = dedup [] l from rfl, h1]
    simp only [Option.bind_some]
    rw [if_neg (by exact fun h => h.elim hrv hrc), show Kn.ret = i.dest from rfl, hlk]
    simp

theorem kernel_run {M : Mach} {d : DT} {k : K} {f : String} {params : List (String × Ty)} (hp : Proper f params) {Kn : Kernel} (h2 : Kn.header.map Prod.fst = params.map Prod.fst ++ [f ++ "_rv"])
    (h3 : Kn.shape = shapeOf k) {scal : String → Int} {tens : String → Tensor} {w h : Nat} {T : Tensor}
    (h4 : ∀ x y, ∃ v, Kn.lane M d scal tens x y = some v ∧ (Inside w h k x y → v = T x y)) (a b a' b' : Int) (o : Tensor) :
    ∃ o', Kn.run M d scal tens a b a' b' o = some o' ∧
      (∀ x y, Covers d k a b a' b' x y → Inside w h k x y → o' x y = T x y) ∧ (∀ x y, ¬ Covers d k a b a' b' x y → o' x y = o x y) := by
  let g : Tensor := fun x y => (Kn.lane M d scal tens x y).getD 0
  have hg : ∀ x y, Kn.lane M d scal tens x y = some (g x y) := by
    intro x y
    obtain ⟨v, hv, _⟩ := h4 x y
    simp [g, hv]
  have hgv : ∀ x y, Inside w h k x y → g x y = T x y := by
    intro x y hxy
    obtain ⟨v, hv, hs⟩ := h4 x y
    simp [g, hv, hs hxy]
  have hok : ¬ (¬ (Kn.header.map Prod.fst).Nodup ∨ ∃ x ∈ Kn.header.map Prod.fst, x ∈ outer) := by
    rw [h2]
    rintro (h | ⟨x, hx, ho⟩)
    · exact h hp.distinct
    · exact (hp.clean x hx).1 ho
  have fin : ∀ o', Writes g (fun x y => Covers d k a b a' b' x y) o o' →
      (∀ x y, Covers d k a b a' b' x y → Inside w h k x y → o' x y = T x y) ∧ (∀ x y, ¬ Covers d k a b a' b' x y → o' x y = o x y) :=
    fun o' hw' => ⟨fun x y hc hin => by rw [(hw' x y).1 hc, hgv x y hin], fun x y hc => (hw' x y).2 hc⟩
  cases k with
  | vec =>
    obtain ⟨o', e, hw'⟩ := fold_writes g _ (fun o i => Kn.round M d scal tens i 0 o) (span a b) (fun i _ o => round_writes hg i 0 o) o
    refine ⟨o', ?_, fin o' ?_⟩
    · rw [Kernel.run, if_neg hok, h3]; exact e
    · have : (fun x y => ∃ i ∈ span a b, y = 0 ∧ i * (lanes d : Int) ≤ x ∧ x < (i + 1) * lanes d) = fun x y => Covers d .vec a b a' b' x y := by
        funext x y
        refine propext ⟨?_, ?_⟩
        · rintro ⟨i, hi, hy, hx⟩
          have := covers_first.1 ⟨i, hi, hx⟩
          exact ⟨this.1, this.2, hy⟩
        · rintro ⟨h1, h2, hy⟩
          obtain ⟨i, hi, hx⟩ := covers_first.2 ⟨h1, h2⟩
          exact ⟨i, hi, hy, hx⟩
      rw [← this]; exact hw'
  | mat =>
    obtain ⟨o', e, hw'⟩ := fold_writes g _ (fun o i => (span a' b').foldlM (fun o j => Kn.round M d scal tens i j o) o) (span a b)
      (fun i _ o => fold_writes g _ (fun o j => Kn.round M d scal tens i j o) (span a' b') (fun j _ o => round_writes hg i j o) o) o
    refine ⟨o', ?_, fin o' ?_⟩
    · rw [Kernel.run, if_neg hok, h3]; exact e
    · have : (fun x y => ∃ i ∈ span a b, ∃ j ∈ span a' b', y = j ∧ i * (lanes d : Int) ≤ x ∧ x < (i + 1) * lanes d) = fun x y => Covers d .mat a b a' b' x y := by
        funext x y
        refine propext ⟨?_, ?_⟩
        · rintro ⟨i, hi, j, hj, rfl, hx⟩
          have := covers_first.1 ⟨i, hi, hx⟩
          exact ⟨this.1, this.2, mem_span.1 hj⟩
        · rintro ⟨h1, h2, hy⟩
          obtain ⟨i, hi, hx⟩ := covers_first.2 ⟨h1, h2⟩
          exact ⟨i, hi, y, mem_span.2 hy, rfl, hx⟩
      rw [← this]; exact hw'

/-- C77.  For every tensor program of the fragment `TE`, for vectors and for matrices, every function with proper parameters, both integer data types, all arguments and every machine whose
types keep the values in their range: the generator yields a kernel (whatever the bound of the recursion, if it is large enough), and if the values of all subexpressions are in the range of the
data type, then the kernel, called on any part of the index space, runs to the end, writes the value of the program at all places of the tensor that this part covers, and changes the tensor for
the result nowhere else. -/
theorem C77_kernel_partial (I : Interp) (HI : Model I) (M : Mach) (hM : M.Ok) (d : DT) (hd : d ≠ .f32) (fns : List (String × Fn)) (k : K) (f : String) (params : List (String × Ty))
    (hp : Proper f params) (t : TE) (ht : t.ok k params) :
    ∃ (Kn : Kernel) (N : Nat), (∀ n, N ≤ n → kernel fns d n f params k.ty (t.toExpr k) = some Kn) ∧
      ∀ (w h : Nat) (ρ : Env) (scal : String → Int) (tens : String → Tensor), 0 < w → Given w h k params ρ scal tens →
        (∀ u ∈ t.ints, InRange d (eval I ρ u.toExpr)) → (∀ u ∈ t.subs, InRange d (eval I ρ (u.toExpr k))) →
        ∃ T : Tensor, eval I ρ (t.toExpr k) = tensorOf w h k T ∧
          ∀ (a b a' b' : Int) (o : Tensor), ∃ o', Kn.run M d scal tens a b a' b' o = some o' ∧
            (∀ x y, Covers d k a b a' b' x y → Inside w h k x y → o' x y = T x y) ∧ (∀ x y, ¬ Covers d k a b a' b' x y → o' x y = o x y) := by
  have hred : isReduce (t.toExpr k) = false := by
    cases t <;> cases k <;> first | rfl | (rename_i o _ _; cases o <;> rfl)
  obtain ⟨Kn, h1, h2, h3, h4⟩ := kernel_gen (M := M) fns hp (t.toExpr k) hred t.depth (fun pv v => t.small d pv → v = t.at pv)
    fun P pv H => ten_ok hM hd fns k H (fun _ _ => rfl) t ht _ (.inr rfl) [] ⟨0, []⟩ inv_nil
  refine ⟨Kn, t.depth, h1, fun w h ρ scal tens hw H hi hs => ⟨_, eval_ten HI hw (List.nodup_append.1 hp.distinct).1 H t ht, fun a b a' b' o => ?_⟩⟩
  have hnd := (List.nodup_append.1 hp.distinct).1
  have small : ∀ x y, Inside w h k x y → t.small d (pvAt params scal tens x y) := by
    intro x y hxy
    refine ⟨fun u hu => ?_, fun u hu => ?_⟩
    · have := hi u hu
      rw [eval_int H u (ok_ints ht u hu) x y] at this
      exact range_int this
    · have := hs u hu
      rw [eval_ten HI hw hnd H u (ok_subs ht u hu)] at this
      exact range_at this hxy
  refine kernel_run hp h2 h3 (fun x y => ?_) a b a' b' o
  obtain ⟨v, hv, hs⟩ := h4 scal tens x y
  exact ⟨v, hv, fun hxy => hs (small x y hxy)⟩

/-- C77, all cores.  A sequence of calls on parts of the index space, in any order and possibly overlapping, that together cover the tensor leaves the value of the program in the tensor for the
result, whatever it contained before. -/
theorem C77_parts_partial (I : Interp) (HI : Model I) (M : Mach) (hM : M.Ok) (d : DT) (hd : d ≠ .f32) (fns : List (String × Fn)) (k : K) (f : String) (params : List (String × Ty))
    (hp : Proper f params) (t : TE) (ht : t.ok k params) :
    ∃ (Kn : Kernel) (N : Nat), (∀ n, N ≤ n → kernel fns d n f params k.ty (t.toExpr k) = some Kn) ∧
      ∀ (w h : Nat) (ρ : Env) (scal : String → Int) (tens : String → Tensor), 0 < w → Given w h k params ρ scal tens →
        (∀ u ∈ t.ints, InRange d (eval I ρ u.toExpr)) → (∀ u ∈ t.subs, InRange d (eval I ρ (u.toExpr k))) →
        ∀ (parts : List (Int × Int × Int × Int)) (o : Tensor), (∀ x y, Inside w h k x y → ∃ p ∈ parts, Covers d k p.1 p.2.1 p.2.2.1 p.2.2.2 x y) →
          ∃ o', parts.foldlM (fun o p => Kn.run M d scal tens p.1 p.2.1 p.2.2.1 p.2.2.2 o) o = some o' ∧ tensorOf w h k o' = eval I ρ (t.toExpr k) := by
  obtain ⟨Kn, N, h1, h2⟩ := C77_kernel_partial I HI M hM d hd fns k f params hp t ht
  refine ⟨Kn, N, h1, fun w h ρ scal tens hw H hi hs parts o hcov => ?_⟩
  obtain ⟨T, hT, hrun⟩ := h2 w h ρ scal tens hw H hi hs
  have key : ∀ (parts : List (Int × Int × Int × Int)) (o : Tensor), ∃ o', parts.foldlM (fun o p => Kn.run M d scal tens p.1 p.2.1 p.2.2.1 p.2.2.2 o) o = some o' ∧
      ∀ x y, Inside w h k x y → (o x y = T x y ∨ ∃ p ∈ parts, Covers d k p.1 p.2.1 p.2.2.1 p.2.2.2 x y) → o' x y = T x y := by
    intro parts
    induction parts with
    | nil => exact fun o => ⟨o, rfl, fun x y _ h => by simpa using h⟩
    | cons p parts ih =>
      intro o
      obtain ⟨o1, e1, w1, w2⟩ := hrun p.1 p.2.1 p.2.2.1 p.2.2.2 o
      obtain ⟨o2, e2, w3⟩ := ih o1
      refine ⟨o2, by simp [List.foldlM_cons, e1, e2], fun x y hin hc => w3 x y hin ?_⟩
      by_cases hp : Covers d k p.1 p.2.1 p.2.2.1 p.2.2.2 x y
      · exact .inl (w1 x y hp hin)
      · rcases hc with hc | ⟨q, hq, hc⟩
        · exact .inl ((w2 x y hp).trans hc)
        · rcases List.mem_cons.1 hq with rfl | hq
          · exact absurd hc hp
          · exact .inr ⟨q, hq, hc⟩
  obtain ⟨o', e, hv⟩ := key parts o
  refine ⟨o', e, ?_⟩
  rw [hT]
  refine tensor_congr k fun x y hx hy hy0 => ?_
  have hin : Inside w h k x y := by
    refine ⟨by omega, by omega, ?_⟩
    cases k with
    | vec => simpa using hy0 rfl
    | mat => exact ⟨by omega, by have := hy rfl; omega⟩
  exact hv x y hin (.inr (hcov x y hin))

/-- C77, the glue code.  For bytes and for floats, and for 32-bit integers if there are no integer parameters, the number of input tensors and of dimensions that the glue code declares are those of
the function. -/
theorem C77_glue_partial (d : DT) (k : K) (f : String) (params : List (String × Ty)) (hty : ∀ p ∈ params, p.2 = .int ∨ p.2 = k.ty) (hd : d = .i32 → ∀ p ∈ params, p.2 ≠ .int) :
    glue d params f k.ty = some ((params.filter fun p => isList p.2).length, match k with | .vec => 1 | .mat => 2) := by
  have hl : isList k.ty = true := by cases k <;> rfl
  let g : Ty → HT := fun t => (headTy d t).getD .tensor
  have hg : ∀ p ∈ params ++ [(f ++ "_rv", k.ty)], (headTy d p.2).map (fun h => (p.1, h)) = some (p.1, g p.2) ∧ (!(g p.2).prim) = isList p.2 ∧ (isList p.2 = true → p.2 = k.ty) := by
    intro p hp
    have : (p.2 = .int ∧ d ≠ .i32) ∨ p.2 = k.ty := by
      rcases List.mem_append.1 hp with hp | hp
      · rcases hty p hp with h | h
        · exact .inl ⟨h, fun e => hd e p hp h⟩
        · exact .inr h
      · rw [List.mem_singleton] at hp; subst hp; exact .inr rfl
    rcases this with ⟨e, hd'⟩ | e
    · cases d <;> simp_all [g, headTy, HT.prim, isList]
    · obtain ⟨et, he⟩ := ty_list k
      simp [g, e, he, headTy, HT.prim, isList]
  have hm : header d params f k.ty = some ((params ++ [(f ++ "_rv", k.ty)]).map fun p => (p.1, g p.2)) := mapM_some fun p hp => (hg p hp).1
  have zf : ∀ l : List (String × Ty), (∀ p ∈ l, (!(g p.2).prim) = isList p.2) →
      ((l.zip (l.map fun p => (p.1, g p.2))).filter fun p => !p.2.2.prim) = (l.filter fun p => isList p.2).map fun p => (p, (p.1, g p.2)) := by
    intro l
    induction l with
    | nil => intro _; rfl
    | cons p l ih =>
      intro h
      have h1 := h p (List.mem_cons_self ..)
      have h2 := ih fun q hq => h q (List.mem_cons_of_mem _ hq)
      simp only [List.map_cons, List.zip_cons_cons, List.filter_cons, h1, h2]
      split <;> rfl
  simp only [glue, hm, Option.bind_some, zf _ fun p hp => (hg p hp).2.1, List.filter_append]
  have hf : ∀ p ∈ (params.filter fun p => isList p.2), p.2 = k.ty := fun p hp => (hg p (List.mem_append_left _ (List.mem_filter.1 hp).1)).2.2 (List.mem_filter.1 hp).2
  cases e : (params.filter fun p => isList p.2) with
  | nil => cases k <;> simp [hl, K.ty, isMat, isList]
  | cons p l =>
    have := hf p (by rw [e]; exact List.mem_cons_self ..)
    cases k <;> simp [hl, this, K.ty, isMat, isList]

end Metalift.Gaudi
