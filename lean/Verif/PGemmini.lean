import Verif.GemminiMain
import Verif.PNumpy
/-
C75: the kernel generated for Gemmini computes the program.
-/
namespace Metalift.Gem
open Metalift Ten

theorem lookup_nodup {D : Dims} (h : (D.map Prod.fst).Nodup) {x : String} {d : CExp × CExp} (hm : (x, d) ∈ D) : D.lookup x = some d := by
  induction D with
  | nil => simp at hm
  | cons p D ih =>
    obtain ⟨y, e⟩ := p
    simp only [List.map_cons, List.nodup_cons] at h
    rcases List.mem_cons.1 hm with h1 | h1
    · injection h1 with h1 h2; subst h1; subst h2; simp [List.lookup]
    · have hne : x ≠ y := fun e' => h.1 (e' ▸ List.mem_map.2 ⟨_, h1, rfl⟩)
      have : (x == y) = false := by simpa using hne
      simp only [List.lookup, this]
      exact ih h.2 h1

theorem param_dims (params : List (String × Ty)) (hty : ∀ p ∈ params, p.2 ∈ [.int, .bool, .list .int, .list (.list .int)]) :
    ∃ D : Dims, (params.mapM fun p => (paramDims p.2).map fun d => (p.1, d)) = some D ∧ D.map Prod.fst = params.map Prod.fst ∧
      ∀ (k : K) y, (y, k.ty) ∈ params → (y, (len, len)) ∈ D := by
  induction params with
  | nil => exact ⟨[], rfl, rfl, by simp⟩
  | cons p params ih =>
    obtain ⟨D, h1, h2, h3⟩ := ih fun q hq => hty q (List.mem_cons_of_mem _ hq)
    have hp := hty p (List.mem_cons_self ..)
    obtain ⟨y, T⟩ := p
    have hd : ∃ d, paramDims T = some d ∧ ∀ k : K, T = k.ty → d = (len, len) := by
      simp only [List.mem_cons, List.not_mem_nil, or_false] at hp
      rcases hp with rfl | rfl | rfl | rfl
      · exact ⟨_, rfl, fun k => by cases k <;> simp [K.ty]⟩
      · exact ⟨_, rfl, fun k => by cases k <;> simp [K.ty]⟩
      · exact ⟨_, rfl, fun k _ => rfl⟩
      · exact ⟨_, rfl, fun k _ => rfl⟩
    obtain ⟨d, d1, d2⟩ := hd
    refine ⟨(y, d) :: D, by simp [List.mapM_cons, h1, d1], by simp [h2], fun k z hz => ?_⟩
    rcases List.mem_cons.1 hz with hz | hz
    · injection hz with e1 e2
      subst e1
      simp [d2 k e2.symm]
    · exact List.mem_cons_of_mem _ (h3 k z hz)

/-- C75.  For every tensor program of the fragment `TExp` other than a variable, every function signature with clean and distinct names, every `LEN`, all arguments, all
contents of `out` and of the static arrays, and every machine whose conversion and saturation keep the values of `elem_t`: if the values of all tensor
subexpressions are in the range of `elem_t`, the generator yields a kernel, which runs to the end without undefined behaviour, leaves the value of the program in
`out` and changes none of its arguments.  The code is determined by the program: the equation holds for all sufficiently large bounds of the recursion. -/
theorem C75_kernel_partial (I : Interp) (HI : Np.NpModel I) (M : Mach) (hM : M.Ok) (fns : List (String × Np.SynthFn)) (flt : Bool) (params : List (String × Ty))
    (hty : ∀ p ∈ params, p.2 ∈ [.int, .bool, .list .int, .list (.list .int)]) (hnd : (params.map Prod.fst).Nodup) (hc : ∀ p ∈ params, Clean p.1)
    (k : K) (t : TExp) (ht : t.ok k params) (hv : ¬ t.isVar) (ρ : Env) (σ : St) (H : Holds M.len k params ρ σ) (hout : (σ.arr "out").isSome)
    (hsm : ∀ u ∈ t.subs, Small k (eval I ρ (u.toExpr k))) :
    ∃ code N, (∀ n, N ≤ n → kernel fns flt n params k.ty (t.toExpr k) = some code) ∧
      ∃ σ' A, execs M code σ = some σ' ∧ σ'.arr "out" = some A ∧ eval I ρ (t.toExpr k) = valOf M.len k A ∧
        (∀ p ∈ params, σ'.arr p.1 = σ.arr p.1) ∧ σ'.sc = σ.sc := by
  obtain ⟨D, h1, h2, h3⟩ := param_dims params hty
  have hD : DimOk k params (("out", (len, len)) :: D.reverse) := by
    intro y hy
    rw [dims_cons.2 y (hc _ hy).1]
    refine lookup_nodup ?_ (List.mem_reverse.2 (h3 k y hy))
    rw [List.map_reverse, h2]
    exact (List.reverse_perm _).nodup_iff.2 hnd
  obtain ⟨s, D', c', ⟨N, hN⟩, _, _, _, he⟩ := gen_ok (I := I) (M := M) (fns := fns) (flt := flt) (ρ := ρ) HI hM hc t ht hsm hv "out" _ 0 (.inl rfl) hD
  obtain ⟨σ', A, e1, e2, e3, e4, e5⟩ := he σ H hout
  refine ⟨s, N, fun n hn => ?_, σ', A, e1, e3, e4, fun p hp => e5 p.1 (hc p hp).1 (hc p hp).old, e2⟩
  have hr : paramDims k.ty = some (len, len) := by cases k <;> rfl
  simp [kernel, h1, hr, hN n hn, Code.toStms]

/-! ### A case that meets the hypotheses -/

/-- A machine with `LEN = 2` and 8-bit integers. -/
def exMach : Mach where
  len := 2
  conv v := (v + 128) % 256 - 128
  sat v := max (-128) (min 127 v)
  stat _ _ _ := 77
  matmul _ _ := fun _ _ => 0
  average _ _ := 0

theorem exMach_ok : exMach.Ok where
  pos := by decide
  conv v hv := by unfold Byte at hv; simp only [exMach]; omega
  sat v hv := by unfold Byte at hv; simp only [exMach]; omega

/-- `(a + b) * transpose(a - 2 * s)`, or `s - b` if not `c`. -/
def exT : TExp := .cond "c" (.bin .mul (.bin .add (.var "a") (.var "b")) (.transpose (.subScalar (.bin .mul (.lit 2) (.var "s")) (.var "a")))) (.scalarSub (.var "s") (.var "b"))
@[inherit_doc exT] def exParams : List (String × Ty) := [("a", .list (.list .int)), ("b", .list (.list .int)), ("s", .int), ("c", .bool)]
@[inherit_doc exT] def exA (i j : Nat) : Int := 2 * i + j
@[inherit_doc exT] def exB (i j : Nat) : Int := 5 - i - 3 * j
@[inherit_doc exT] def exSt : St where
  arr x := if x = "a" then some exA else if x = "b" then some exB else if x = "out" then some (fun _ _ => 99) else none
  sc x := if x = "s" then some 3 else if x = "c" then some 1 else none
@[inherit_doc exT] def exEnv : Env := fun x =>
  if x = "a" then matV [[0, 1], [2, 3]] else if x = "b" then matV [[5, 2], [4, 1]] else if x = "s" then .int 3 else .bool true

/-- The hypotheses hold for this program and these arguments. -/
theorem C75_example : ∃ code N, (∀ n, N ≤ n → kernel [] false n exParams (.list (.list .int)) (exT.toExpr .mat) = some code) ∧
    ∃ σ' A, execs exMach code exSt = some σ' ∧ σ'.arr "out" = some A ∧
      eval (stdInterp true Np.exApply (· / ·)) exEnv (exT.toExpr .mat) = matV (matOf 2 A) ∧ (∀ p ∈ exParams, σ'.arr p.1 = exSt.arr p.1) ∧ σ'.sc = exSt.sc := by
  refine C75_kernel_partial (stdInterp true Np.exApply (· / ·)) (Np.std_npModel _ _) exMach exMach_ok [] false exParams (by decide) (by decide) ?_ .mat exT
    (by simp [exT, TExp.ok, SExp.ok, SExp.tight, exParams, K.ty, TExp.isVar]) (by simp [exT, TExp.isVar]) exEnv exSt ?_ (by decide) ?_
  · intro p hp
    have hd : ∀ x : String, noDigitEnd x = true → ∀ m : Nat, x ≠ "temp" ++ m.repr := fun x hx m => numbered_ne hx
    simp only [exParams, List.mem_cons, List.not_mem_nil, or_false] at hp
    rcases hp with rfl | rfl | rfl | rfl <;> exact ⟨by decide, by decide, by decide, by decide, hd _ (by decide +kernel)⟩
  · refine ⟨fun x hx => ?_, fun x hx => ?_, fun x hx => ?_⟩
    · simp only [exParams, K.ty, List.mem_cons, List.not_mem_nil, or_false, Prod.mk.injEq, reduceCtorEq, and_false, and_true] at hx
      rcases hx with rfl | rfl
      · exact ⟨exA, rfl, rfl⟩
      · exact ⟨exB, rfl, rfl⟩
    · simp [exParams] at hx; subst hx; exact ⟨3, rfl, rfl⟩
    · simp [exParams] at hx; subst hx; exact ⟨true, rfl, rfl⟩
  · intro u hu
    simp only [exT, TExp.subs, List.mem_cons, List.mem_append, List.not_mem_nil, or_false] at hu
    have go : ∀ (v : Val) (m : List (List Int)), v = matV m → (∀ r ∈ m, ∀ x ∈ r, Byte x) → Small .mat v := fun v m h1 h2 => ⟨m, h1, h2⟩
    unfold Byte at go
    rcases hu with rfl | (rfl | (rfl | rfl | rfl) | rfl | rfl | rfl) | rfl | rfl
    · exact go _ [[-30, -12], [-30, -12]] rfl (by decide)
    · exact go _ [[-30, -12], [-30, -12]] rfl (by decide)
    · exact go _ [[5, 3], [6, 4]] rfl (by decide)
    · exact go _ [[0, 1], [2, 3]] rfl (by decide)
    · exact go _ [[5, 2], [4, 1]] rfl (by decide)
    · exact go _ [[-6, -4], [-5, -3]] rfl (by decide)
    · exact go _ [[-6, -5], [-4, -3]] rfl (by decide)
    · exact go _ [[0, 1], [2, 3]] rfl (by decide)
    · exact go _ [[-2, 1], [-1, 2]] rfl (by decide)
    · exact go _ [[5, 2], [4, 1]] rfl (by decide)

/-! ### Where the property fails -/

/-- Types and variables of the examples. -/
abbrev vecT : Ty := .list .int
@[inherit_doc vecT] abbrev matT : Ty := .list (.list .int)
@[inherit_doc vecT] def va : Expr := .var "a" vecT
@[inherit_doc vecT] def vs : Expr := .var "s" .int

/-- C75 fails for the multiplication with an integer: the copy goes the wrong way, so that `out` keeps its contents and the argument is overwritten by them. -/
theorem C75_scale_refuted (fns : List (String × Np.SynthFn)) (flt : Bool) (M : Mach) (σ : St) (A O : Nat → Nat → Int) (ha : σ.arr "a" = some A) (ho : σ.arr "out" = some O) :
    ∃ code, (∀ n, 4 ≤ n → kernel fns flt n [("s", .int), ("a", vecT)] vecT (mkCall "vec_scalar_mul" vecT [vs, va]) = some code) ∧
      ∃ σ', execs M code σ = some σ' ∧ σ'.arr "out" = some O ∧ σ'.arr "a" = some O := by
  refine ⟨[.scale (.name "a") (.name "s"), .copy (.name "a") "out"], fun n hn => ?_, σ.setArr "a" O, ?_, ?_, ?_⟩
  · obtain ⟨n, rfl⟩ : ∃ m, n = m + 4 := ⟨n - 4, by omega⟩
    rfl
  · simp [execs, exec, arrOf, ha, ho]
  · simp [St.setArr, ho]
  · simp [St.setArr]

/-- C75 fails for the sum of a multiple and another tensor that is no multiple: the multiple is lost, and `a` is overwritten. -/
theorem C75_multiple_refuted (fns : List (String × Np.SynthFn)) (flt : Bool) (M : Mach) (σ : St) (A B C O : Nat → Nat → Int) (ha : σ.arr "a" = some A) (hb : σ.arr "b" = some B)
    (hc : σ.arr "c" = some C) (ho : σ.arr "out" = some O) :
    ∃ code, (∀ n, 8 ≤ n → kernel fns flt n [("s", .int), ("a", vecT), ("b", vecT), ("c", vecT)] vecT
        (mkCall "vec_elemwise_add" vecT [mkCall "vec_scalar_mul" vecT [vs, va], mkCall "vec_elemwise_sub" vecT [.var "b" vecT, .var "c" vecT]]) = some code) ∧
      ∃ σ', execs M code σ = some σ' ∧ σ'.arr "a" = some (M.stat "temp0") := by
  refine ⟨[.decl "temp0", .scale (.name "a") (.name "s"), .copy (.name "a") "temp0", .decl "temp1", .resadd len len (.num 1) (.num (-1)) (.name "b") (.name "c") "temp1",
    .resadd len len (.num 1) (.num 1) (.name "temp0") (.name "temp1") "out"], fun n hn => ?_, ?_⟩
  · obtain ⟨n, rfl⟩ : ∃ m, n = m + 8 := ⟨n - 8, by omega⟩
    rfl
  · simp [execs, exec, arrOf, ha, ho, hb, hc, cval, len, St.setArr, guard]

/-- C75 fails for the addition of an integer: the integer is subscripted, and the vector added, which is not C. -/
theorem C75_scalar_add_refuted (fns : List (String × Np.SynthFn)) (flt : Bool) (M : Mach) (hM : 0 < M.len) (σ : St) (hs : σ.arr "s" = none) :
    ∃ code, (∀ n, 4 ≤ n → kernel fns flt n [("s", .int), ("a", vecT)] vecT (mkCall "vec_scalar_add" vecT [vs, va]) = some code) ∧ execs M code σ = none := by
  refine ⟨[.for1 len "out" (.bin .add (col (.name "s")) (.name "a"))], fun n hn => ?_, ?_⟩
  · obtain ⟨n, rfl⟩ : ∃ m, n = m + 4 := ⟨n - 4, by omega⟩
    rfl
  · have h : assign M σ (σ.setSc "i" 0) "out" 0 0 (.bin .add (col (.name "s")) (.name "a")) = none := by
      cases ho : σ.arr "out" <;> simp [assign, cval, col, St.setSc, hs, ho]
    simp [execs, exec, loop, below_len, hM, h]

/-- C75 fails for the subtraction of a sum: `a - s + r` is stored. -/
theorem C75_sum_refuted (fns : List (String × Np.SynthFn)) (flt : Bool) (M : Mach) (hM : M.Ok) (σ : St) (A O : Nat → Nat → Int) (s r : Int) (ha : σ.arr "a" = some A)
    (ho : σ.arr "out" = some O) (hs : σ.sc "s" = some s) (hr : σ.sc "r" = some r) :
    ∃ code, (∀ n, 8 ≤ n → kernel fns flt n [("s", .int), ("r", .int), ("a", vecT)] vecT
        (mkCall "vec_scalar_sub" vecT [.node .add .int [vs, .var "r" .int], va]) = some code) ∧
      ∃ σ' B, execs M code σ = some σ' ∧ σ'.arr "out" = some B ∧ ∀ i < M.len, B i 0 = M.conv (A i 0 - s + r) := by
  refine ⟨[.for1 len "out" (.bin .add (.bin .sub (col (.name "a")) (.name "s")) (.name "r"))], fun n hn => ?_, ?_⟩
  · obtain ⟨n, rfl⟩ : ∃ m, n = m + 8 := ⟨n - 8, by omega⟩
    rfl
  · have h := for1_ok M "out" (.bin .add (.bin .sub (col (.name "a")) (.name "s")) (.name "r")) σ O (fun i => A i 0 - s + r) hM.pos ho (by
      intro A' i hi
      simp only [cval, col_ok ha (by decide : ("a" : String) ≠ "out") A' hi]
      simp [St.setArr, St.setSc, hs, hr, COp.run])
    exact ⟨_, fun a b => if a < M.len ∧ b = 0 then M.conv (A a 0 - s + r) else O a b, by simp only [execs, h]; rfl, by simp [St.setArr], fun i hi => by simp [hi]⟩

/-- C75 fails if an integer parameter has the name of a loop variable. -/
theorem C75_capture_refuted (fns : List (String × Np.SynthFn)) (flt : Bool) (M : Mach) (hM : M.Ok) (σ : St) (A O : Nat → Nat → Int) (ha : σ.arr "a" = some A)
    (ho : σ.arr "out" = some O) :
    ∃ code, (∀ n, 4 ≤ n → kernel fns flt n [("i", .int), ("a", vecT)] vecT (mkCall "scalar_vec_sub" vecT [.var "i" .int, va]) = some code) ∧
      ∃ σ' B, execs M code σ = some σ' ∧ σ'.arr "out" = some B ∧ ∀ i < M.len, B i 0 = M.conv (i - A i 0) := by
  refine ⟨[.for1 len "out" (.bin .sub (.name "i") (col (.name "a")))], fun n hn => ?_, ?_⟩
  · obtain ⟨n, rfl⟩ : ∃ m, n = m + 4 := ⟨n - 4, by omega⟩
    rfl
  · have h := for1_ok M "out" (.bin .sub (.name "i") (col (.name "a"))) σ O (fun i => i - A i 0) hM.pos ho (by
      intro A' i hi
      simp only [cval, col_ok ha (by decide : ("a" : String) ≠ "out") A' hi]
      simp [St.setArr, St.setSc, COp.run])
    exact ⟨_, fun a b => if a < M.len ∧ b = 0 then M.conv (a - A a 0) else O a b, by simp only [execs, h]; rfl, by simp [St.setArr], fun i hi => by simp [hi]⟩

/-- C75 fails if the program is a variable, or a branch is: there is no assignment, and the text is not C. -/
theorem C75_variable_refuted (fns : List (String × Np.SynthFn)) (flt : Bool) (M : Mach) (σ : St) :
    (∀ n, 2 ≤ n → kernel fns flt n [("a", vecT)] vecT va = some [.bad]) ∧
    (∀ n, 5 ≤ n → kernel fns flt n [("a", vecT), ("c", .bool)] vecT (mkIte vecT (.var "c" .bool) va (mkCall "vec_elemwise_add" vecT [va, va])) =
      some [.cond (.name "c") [.bad] [.resadd len len (.num 1) (.num 1) (.name "a") (.name "a") "out"]]) ∧
    execs M [.bad] σ = none ∧
    (∀ v, v ≠ 0 → σ.sc "c" = some v → execs M [.cond (.name "c") [.bad] [.resadd len len (.num 1) (.num 1) (.name "a") (.name "a") "out"]] σ = none) := by
  refine ⟨fun n hn => ?_, fun n hn => ?_, rfl, fun v hv h => ?_⟩
  · obtain ⟨n, rfl⟩ : ∃ m, n = m + 2 := ⟨n - 2, by omega⟩
    rfl
  · obtain ⟨n, rfl⟩ : ∃ m, n = m + 5 := ⟨n - 5, by omega⟩
    rfl
  · simp [execs, exec, cval, h, hv]

/-- C75 fails with an exception: a comparison as condition, a division if the data type is not `FLOAT`, the number of elements of a matrix, and a call with an integer
result as an argument. -/
theorem C75_exception_refuted (fns : List (String × Np.SynthFn)) (n : Nat) :
    (∀ flt, kernel fns flt n [("a", vecT), ("s", .int)] vecT
      (mkIte vecT (.node .gt .bool [vs, intLit 0]) (mkCall "scalar_vec_sub" vecT [vs, va]) (mkCall "vec_scalar_sub" vecT [vs, va])) = none) ∧
    kernel fns false n [("a", vecT), ("s", .int)] vecT (mkCall "scalar_vec_sub" vecT [.node .div .int [vs, intLit 2], va]) = none ∧
    (∀ flt, kernel fns flt n [("m", matT)] .int (mkCall "matrix_length" .int [.var "m" matT]) = none) ∧
    (∀ flt, kernel fns flt n [("a", vecT)] vecT (mkCall "scalar_vec_sub" vecT [mkCall "reduce_sum" .int [va], va]) = none) := by
  refine ⟨fun flt => ?_, ?_, fun flt => ?_, fun flt => ?_⟩
  · match n with
    | 0 | 1 | 2 | 3 | 4 => rfl
    | n + 5 => rfl
  · match n with
    | 0 | 1 | 2 | 3 | 4 | 5 => rfl
    | n + 6 => rfl
  · match n with
    | 0 | 1 | 2 | 3 => rfl
    | n + 4 => rfl
  · match n with
    | 0 | 1 | 2 | 3 | 4 => rfl
    | n + 5 => rfl

/-- C75 fails for rows `1` to `2` of a matrix: they stay at their place, and the first row of `out` is not assigned. -/
theorem C75_rows_refuted (fns : List (String × Np.SynthFn)) (flt : Bool) (M : Mach) (hM : M.len = 2) (σ : St) (A O : Nat → Nat → Int) (ha : σ.arr "a" = some A)
    (ho : σ.arr "out" = some O) :
    ∃ code, (∀ n, 5 ≤ n → kernel fns flt n [("a", matT)] matT (mkCall "matrix_row_slice" matT [.var "a" matT, intLit 1, intLit 2]) = some code) ∧
      ∃ σ' B, execs M code σ = some σ' ∧ σ'.arr "out" = some B ∧ (∀ j, B 0 j = O 0 j) ∧ B 1 0 = M.conv (A 1 0) := by
  refine ⟨[.for2 (.num 1) (.num 2) c0 len "out" (cell (.name "a"))], fun n hn => ?_,
    σ.setArr "out" (put (put O 1 0 (M.conv (A 1 0))) 1 1 (M.conv (A 1 1))), _, ?_, by simp [St.setArr]; rfl, ?_, ?_⟩
  · obtain ⟨n, rfl⟩ : ∃ m, n = m + 5 := ⟨n - 5, by omega⟩
    rfl
  · simp [execs, exec, start, loop, below, cval, c0, hM, len, assign, ho, ha, cell, ci, cj, St.setArr, St.setSc]
    funext y
    by_cases h : y = "out" <;> simp [h]
  · intro j; simp [put]
  · simp [put]

/-- C75 fails where a sum is not in the range of `elem_t`. -/
theorem C75_range_refuted (fns : List (String × Np.SynthFn)) (flt : Bool) (M : Mach) (hM : 0 < M.len) (hs : ∀ v, Byte (M.sat v)) (σ : St) (O : Nat → Nat → Int)
    (ha : σ.arr "a" = some fun _ _ => 100) (ho : σ.arr "out" = some O) :
    ∃ code, (∀ n, 4 ≤ n → kernel fns flt n [("a", vecT)] vecT (mkCall "vec_elemwise_add" vecT [va, va]) = some code) ∧
      ∃ σ' B, execs M code σ = some σ' ∧ σ'.arr "out" = some B ∧ B 0 0 ≠ 100 + 100 := by
  refine ⟨[.resadd len len (.num 1) (.num 1) (.name "a") (.name "a") "out"], fun n hn => ?_, σ.setArr "out" (resaddArr M 1 1 (fun _ _ => 100) (fun _ _ => 100) O M.len),
    resaddArr M 1 1 (fun _ _ => 100) (fun _ _ => 100) O M.len, ?_, ?_, ?_⟩
  · obtain ⟨n, rfl⟩ : ∃ m, n = m + 4 := ⟨n - 4, by omega⟩
    rfl
  · simp [execs, exec, cval, len, arrOf, ha, ho, guard, pure]
  · simp [St.setArr]
  · have := hs 200
    unfold Byte at this
    have h0 : (0 : Int) < M.len := by omega
    simp only [resaddArr, h0, hM]
    simp
    omega

/-- C75 fails in the function around the kernel: the array for the result has never elements of type `elem_t`, and neither have the matrices that are passed. -/
theorem C75_glue_refuted (d : Np.DType) (params : List (String × Ty)) (ret : Ty) (h : ret = vecT ∨ ret = matT) :
    (glueTypes d params ret).getLast? = some (libTy d) ∧ libTy d ≠ .int8 := by
  refine ⟨?_, by cases d <;> decide⟩
  simp only [glueTypes, if_pos h]
  simp

end Metalift.Gem
