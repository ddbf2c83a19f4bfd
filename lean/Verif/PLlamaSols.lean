import Verif.LlamaSols
import Verif.PCorrectSols
/-
C79: the stored solutions compute the benchmarks from Llama.
-/
namespace Metalift.Sols

theorem slice_eq (l : Vec) (e : Int) (h : 0 ≤ e) : slice l e = l.take e.toNat := by rw [slice, if_neg (by omega)]

theorem mapE_some {α β : Type} (g : α → Option β) (f : α → β) : ∀ l : List α, (∀ x ∈ l, g x = some (f x)) → mapE g l = some (l.map f)
  | [], _ => rfl
  | a :: l, h => by
    rw [mapE, h a (by simp), Option.bind_some, mapE_some g f l fun x hx => h x (by simp [hx])]
    rfl

theorem zipE_some {α β γ : Type} (g : α → β → Option γ) (f : α → β → γ) (x : List α) (y : List β) (hl : x.length = y.length) (h : ∀ p ∈ x.zip y, g p.1 p.2 = some (f p.1 p.2)) :
    zipE g x y = some (List.zipWith f x y) := by
  have := zipE_fuse g (fun a _ => a) (fun _ b => b) f x y h
  rwa [zip_fst x y hl, zip_snd x y hl] at this

theorem reduceSum_append : ∀ (x y : Vec), reduceSum (x ++ y) = reduceSum x + reduceSum y
  | [], y => by simp [reduceSum]
  | a :: x, y => by rw [List.cons_append, reduceSum, reduceSum, reduceSum_append x y]; omega

theorem sumLoop_eq (body : Nat → Option Int) (l : Vec) (h : ∀ i, (hi : i < l.length) → body i = some l[i]) : sumLoop l.length body = some (reduceSum l) := by
  have : ∀ n, n ≤ l.length → (List.range n).foldlM (fun s i => (body i).map fun p => s + p) 0 = some (reduceSum (l.take n)) := by
    intro n
    induction n with
    | zero => intro _; simp [reduceSum]
    | succ n ih =>
      intro hn
      rw [List.range_succ, List.foldlM_append, ih (by omega)]
      have hb := h n (by omega)
      have ht : l.take (n + 1) = l.take n ++ [l[n]] := by rw [List.take_add_one, List.getElem?_eq_getElem (show n < l.length by omega)]; rfl
      rw [ht, reduceSum_append, reduceSum, reduceSum, Int.add_zero]
      simp only [List.foldlM_cons, List.foldlM_nil, hb, Option.map_some, Option.bind_eq_bind, Option.bind_some, Option.pure_def]
  have := this l.length (Nat.le_refl _)
  rwa [List.take_length] at this

theorem reduceMax_append (x : Int) : ∀ l : Vec, l ≠ [] → reduceMax (l ++ [x]) = if x > reduceMax l then x else reduceMax l
  | [], h => absurd rfl h
  | [a], _ => by
    simp only [List.cons_append, List.nil_append, reduceMax]
    by_cases h1 : a > x <;> by_cases h2 : x > a <;> simp only [h1, h2, if_true, if_false] <;> omega
  | a :: b :: l, _ => by
    have ih := reduceMax_append x (b :: l) (by simp)
    rw [List.cons_append] at ih
    simp only [List.cons_append, reduceMax]
    rw [ih]
    by_cases h1 : x > reduceMax (b :: l) <;> by_cases h2 : a > reduceMax (b :: l) <;> by_cases h3 : a > x <;> by_cases h4 : x > a <;> simp only [h1, h2, h3, h4, if_true, if_false] <;> omega

/-- C79, for the benchmarks whose solutions are right whenever the bound is between 0 (for the maximum: 1) and the length of the vector. -/
theorem C79_llama_exact (exp : Int → Int) (input input2 : Vec) (k maxVal : Int) (h0 : 0 ≤ k) (h1 : k ≤ input.length) (h2 : k ≤ input2.length) :
    (0 < k → ∃ m, softmax1 input k = some m ∧ softmax1C input k = some m) ∧
    (∃ out, softmax2 exp input k maxVal = some out ∧ softmax2C exp input k maxVal = some out) ∧
    (∃ s, softmax3 input k = some s ∧ softmax3C input k = some s) ∧
    (∃ s, rmsnorm1 input = some s ∧ rmsnorm1C input = some s) ∧
    (∃ out, transformer4 input input2 k = some out ∧ transformer4C input input2 k = some out) := by
  have lt : (input.take k.toNat).length = k.toNat := by rw [List.length_take]; omega
  have lt2 : (input2.take k.toNat).length = k.toNat := by rw [List.length_take]; omega
  refine ⟨fun hk => ⟨_, rfl, ?_⟩, ⟨(input.take k.toNat).map fun v => exp (v - maxVal), ?_, ?_⟩, ⟨_, rfl, ?_⟩, ⟨reduceSum (input.map fun v => v * v), ?_, ?_⟩,
    ⟨List.zipWith (fun a b => a * b) (input.take k.toNat) (input2.take k.toNat), ?_, ?_⟩⟩
  · rw [slice_eq _ _ h0]
    have : ∀ n, n + 1 ≤ input.length → (List.range' 1 n).foldlM (fun m i => (input[i]?).map fun v => if v > m then v else m) (input[0]?.getD 0) = some (reduceMax (input.take (n + 1))) := by
      intro n
      induction n with
      | zero =>
        intro hn
        cases input with
        | nil => simp at hn
        | cons a l => simp [reduceMax]
      | succ n ih =>
        intro hn
        have hne : input.take (n + 1) ≠ [] := by
          intro e
          have := congrArg List.length e
          rw [List.length_take, List.length_nil] at this
          omega
        have hi := List.getElem?_eq_getElem (show n + 1 < input.length by omega)
        rw [List.range'_1_concat, List.foldlM_append, ih (by omega), List.take_add_one (i := n + 1), hi, Option.toList_some, reduceMax_append _ _ hne, Nat.add_comm 1 n]
        simp [hi]
    have h := this (k.toNat - 1) (by omega)
    rw [show k.toNat - 1 + 1 = k.toNat by omega] at h
    rw [softmax1C, List.getElem?_eq_getElem (show 0 < input.length by omega), Option.bind_some]
    rw [List.getElem?_eq_getElem (show 0 < input.length by omega), Option.getD_some] at h
    exact h
  · rw [softmax2, slice_eq _ _ h0, vecScalarSub, mapE_some _ (fun v => v - maxVal) _ (fun _ _ => rfl), Option.bind_some, mapE_some _ exp _ (fun _ _ => rfl), List.map_map]
    rfl
  · have e : ((input.take k.toNat).map fun v => exp (v - maxVal)).length = k.toNat := by rw [List.length_map, lt]
    rw [softmax2C]
    conv => lhs; rw [← e]
    refine pushLoop_eq _ _ fun i hi => ?_
    have hi' : i < input.length := by omega
    simp [hi']
  · rw [softmax3C, slice_eq _ _ h0]
    conv => lhs; rw [← lt]
    refine sumLoop_eq _ _ fun i hi => ?_
    have hi' : i < input.length := by omega
    simp [hi']
  · rw [rmsnorm1, vecMul, zipE_some _ (fun a b => a * b) _ _ rfl (fun _ _ => rfl), Option.map_some]
    congr 2
    exact List.ext_getElem (by simp) fun i a b => by simp
  · have e : (input.map fun v => v * v).length = input.length := List.length_map _
    rw [rmsnorm1C]
    conv => lhs; rw [← e]
    refine sumLoop_eq _ _ fun i hi => ?_
    have hi' : i < input.length := by omega
    simp [hi']
  · rw [transformer4, slice_eq _ _ h0, slice_eq _ _ h0, vecMul]
    exact zipE_some _ _ _ _ (by omega) fun _ _ => rfl
  · have e : (List.zipWith (fun a b => a * b) (input.take k.toNat) (input2.take k.toNat)).length = k.toNat := by rw [List.length_zipWith, lt, lt2]; omega
    rw [transformer4C]
    conv => lhs; rw [← e]
    refine pushLoop_eq _ _ fun i hi => ?_
    have a1 : i < input.length := by omega
    have a2 : i < input2.length := by omega
    simp [a1, a2]

/-- C79 for `softmax_part4`, if the sum is positive and no number is negative. -/
theorem C79_softmax4_partial (input : Vec) (k sum : Int) (h0 : 0 ≤ k) (h1 : k ≤ input.length) (hs : 0 < sum) (hn : ∀ x ∈ input, 0 ≤ x) :
    ∃ out, softmax4 input k sum = some out ∧ softmax4C input k sum = some out := by
  have lt : (input.take k.toNat).length = k.toNat := by rw [List.length_take]; omega
  refine ⟨(input.take k.toNat).map fun v => v.fdiv sum, ?_, ?_⟩
  · rw [softmax4, slice_eq _ _ h0, vecScalarDiv]
    exact mapE_some _ _ _ fun x _ => pyDiv_pos x hs
  · have e : ((input.take k.toNat).map fun v => v.fdiv sum).length = k.toNat := by rw [List.length_map, lt]
    rw [softmax4C]
    conv => lhs; rw [← e]
    refine pushLoop_eq _ _ fun i hi => ?_
    have hi' : i < input.length := by omega
    simp [hi', cDiv_pos (hn _ (List.getElem_mem hi')) hs]

/-- C79 for `rmsnorm_part2`, if there are numbers, `ss` is not negative and the square root is positive. -/
theorem C79_rmsnorm2_partial (sqrt : Int → Int) (input weight : Vec) (ss : Int) (hq : 0 < sqrt (ss / input.length + 1)) (h0 : input ≠ []) (hl : input.length = weight.length) (hs : 0 ≤ ss) :
    ∃ out, rmsnorm2 sqrt input weight ss = some out ∧ rmsnorm2C sqrt input weight ss = some out := by
  have hp : (0 : Int) < input.length := by
    have := List.length_pos_iff.2 h0
    omega
  have hr : 0 < sqrt (ss.fdiv input.length + 1) := by rw [Int.fdiv_eq_ediv_of_nonneg _ (by omega)]; exact hq
  refine ⟨List.zipWith (fun v w => Int.fdiv 1 (sqrt (ss.fdiv input.length + 1)) * v * w) input weight, ?_, ?_⟩
  · rw [rmsnorm2, pyDiv_pos _ hp, Option.bind_some, pyDiv_pos _ hr, Option.bind_some, vecScalarMul, mapE_some _ (fun v => Int.fdiv 1 (sqrt (ss.fdiv input.length + 1)) * v) _ (fun _ _ => rfl),
      Option.bind_some, vecMul, zipE_some _ (fun a b => a * b) _ _ (by simpa using hl) (fun _ _ => rfl), List.zipWith_map_left]
  · have e : (List.zipWith (fun v w => Int.fdiv 1 (sqrt (ss.fdiv input.length + 1)) * v * w) input weight).length = input.length := by rw [List.length_zipWith]; omega
    simp only [rmsnorm2C, cDiv_pos hs hp, Option.bind_some, cDiv_pos (show (0 : Int) ≤ 1 by omega) hr]
    generalize Int.fdiv 1 (sqrt (ss.fdiv input.length + 1)) = f at e ⊢
    conv => lhs; rw [← e]
    refine pushLoop_eq _ _ fun i hi => ?_
    have a1 : i < input.length := by omega
    have a2 : i < weight.length := by omega
    simp [a1, a2]

/-- C79 for `transformer_part3`, if exponentials are not negative. -/
theorem C79_transformer3_partial (exp : Int → Int) (he : ∀ x, 0 ≤ exp x) (input : Vec) (k : Int) (h0 : 0 ≤ k) (h1 : k ≤ input.length) :
    ∃ out, transformer3 exp input k = some out ∧ transformer3C exp input k = some out := by
  have lt : (input.take k.toNat).length = k.toNat := by rw [List.length_take]; omega
  have hpos : ∀ v, 0 < 1 + exp (0 - v) := fun v => by have := he (0 - v); omega
  refine ⟨(input.take k.toNat).map fun v => v * Int.fdiv 1 (1 + exp (0 - v)), ?_, ?_⟩
  · rw [transformer3, slice_eq _ _ h0, scalarVecSub, mapE_some _ (fun v => 0 - v) _ (fun _ _ => rfl), Option.bind_some, mapE_some _ exp _ (fun _ _ => rfl), Option.bind_some,
      mapE_some _ (fun v => 1 + v) _ (fun _ _ => rfl), Option.bind_some, List.map_map, List.map_map,
      mapE_some _ (fun v => Int.fdiv 1 v) _ (fun x hx => ?_), Option.bind_some, vecMul, zipE_some _ (fun a b => a * b) _ _ (by simp) (fun _ _ => rfl)]
    · congr 1
      exact List.ext_getElem (by simp) fun i a b => by simp
    · obtain ⟨v, _, rfl⟩ := List.mem_map.1 hx
      exact pyDiv_pos 1 (hpos v)
  · have e : ((input.take k.toNat).map fun v => v * Int.fdiv 1 (1 + exp (0 - v))).length = k.toNat := by rw [List.length_map, lt]
    rw [transformer3C]
    conv => lhs; rw [← e]
    refine pushLoop_eq _ _ fun i hi => ?_
    have hi' : i < input.length := by omega
    simp only [List.getElem?_eq_getElem hi', Option.bind_some, cDiv_pos (show (0 : Int) ≤ 1 by omega) (hpos _), Option.map_some, List.getElem_map, List.getElem_take]

theorem intExp_nonneg (n : Int) : 0 ≤ intExp n := by
  have : ∀ n, 0 ≤ intExpNat n
    | 0 => by decide
    | n + 1 => by rw [intExpNat, Int.fmod_eq_emod_of_nonneg _ (by omega)]; omega
  rw [intExp]
  split
  · omega
  · exact this _

/-- The value that `integer_exp` has when Python runs it (`C65_tensor_integer_exp`). -/
theorem intExp_eq (n : Nat) : intExp n = 3 ^ n % 64 := by
  have key : ∀ m, intExpNat m = 3 ^ m % 64 := by
    intro m
    induction m with
    | zero => decide
    | succ m ih => rw [intExpNat, ih, Int.fmod_eq_emod_of_nonneg _ (by omega), Int.pow_succ]; omega
  rw [intExp]
  split
  · have : n = 0 := by omega
    subst this; decide
  · exact key n

/-- C79 for `softmax_part2` and `transformer_part3` with the `integer_exp` of the target language: right for all bounds from 0 to the length. -/
theorem C79_llama_exp (input : Vec) (k maxVal : Int) (h0 : 0 ≤ k) (h1 : k ≤ input.length) :
    (∃ out, softmax2 intExp input k maxVal = some out ∧ softmax2C intExp input k maxVal = some out) ∧
    (∃ out, transformer3 intExp input k = some out ∧ transformer3C intExp input k = some out) :=
  ⟨(C79_llama_exact intExp input input k maxVal h0 h1 h1).2.1, C79_transformer3_partial intExp intExp_nonneg input k h0 h1⟩

/-- C79 for `matmul`, if all rows have the length of the vector and it is not 0. -/
theorem C79_matmul_partial (weight : Mat) (input : Vec) (h0 : input ≠ []) (hw : ∀ r ∈ weight, r.length = input.length) :
    ∃ out, matmul weight input = some out ∧ matmulC weight input = some out := by
  have hp := List.length_pos_iff.2 h0
  refine ⟨weight.map fun r => reduceSum (List.zipWith (fun a b => a * b) r input), ?_, ?_⟩
  · have : ∀ w : Mat, (∀ r ∈ w, r.length = input.length) → matVecMul w input = some (w.map fun r => reduceSum (List.zipWith (fun a b => a * b) r input)) := by
      intro w
      induction w with
      | nil => intro _; rfl
      | cons r w ih =>
        intro h
        have hr := h r (by simp)
        rw [matVecMul, if_neg (by omega), vecMul, zipE_some _ (fun a b => a * b) _ _ hr (fun _ _ => rfl), Option.bind_some, ih fun s hs => h s (by simp [hs])]
        rfl
    exact this weight hw
  · have e : (weight.map fun r => reduceSum (List.zipWith (fun a b => a * b) r input)).length = weight.length := List.length_map _
    rw [matmulC]
    conv => lhs; rw [← e]
    refine pushLoop_eq _ _ fun i hi => ?_
    have hi' : i < weight.length := by omega
    have hr := hw _ (List.getElem_mem hi')
    have e2 : (List.zipWith (fun a b => a * b) weight[i] input).length = input.length := by rw [List.length_zipWith]; omega
    rw [List.getElem_map]
    conv => lhs; rw [← e2]
    refine sumLoop_eq _ _ fun j hj => ?_
    have j1 : j < input.length := by omega
    have j2 : j < weight[i].length := by omega
    simp [at2, hi', j1, j2]

/-! ### Refutations -/

/-- C79 fails for the bound 0 of the maximum, for negative bounds, for matrices without columns, for vectors without elements, and for negative numbers. -/
theorem C79_llama_refuted :
    (softmax1 [5] 0 = some (-32) ∧ softmax1C [5] 0 = some 5) ∧
    (softmax3 [5, 6] (-1) = some 5 ∧ softmax3C [5, 6] (-1) = some 0) ∧
    (transformer4 [5, 6] [7, 8] (-1) = some [35] ∧ transformer4C [5, 6] [7, 8] (-1) = some []) ∧
    (matmul [[], []] [] = some [] ∧ matmulC [[], []] [] = some [0, 0]) ∧
    (∀ sqrt ss, rmsnorm2 sqrt [] [] ss = none ∧ rmsnorm2C sqrt [] [] ss = some []) ∧
    (softmax4 [-1] 1 2 = some [-1] ∧ softmax4C [-1] 1 2 = some [0]) := by
  refine ⟨by decide +kernel, by decide +kernel, by decide +kernel, by decide +kernel, fun sqrt ss => ⟨by simp [rmsnorm2, pyDiv], rfl⟩, by decide +kernel⟩

/-- Values of the solutions where the hypotheses hold. -/
theorem C79_llama_example : softmax1 [3, 9, 4, 20] 3 = some 9 ∧ softmax3 [3, 9, 4, 20] 3 = some 16 ∧ rmsnorm1 [3, 9] = some 90 ∧ transformer4 [3, 9, 4] [2, 1, 7] 2 = some [6, 9] ∧
    softmax4 [3, 9, 4, 20] 3 2 = some [1, 4, 2] ∧ matmul [[1, 2], [3, 4], [5, 6]] [10, 1] = some [12, 34, 56] ∧
    rmsnorm2 (fun _ => 1) [2, 3] [5, 7] 4 = some [10, 21] ∧ transformer3 (fun x => if x ≤ 0 then 0 else 1) [3, -2] 2 = some [3, 0] ∧
    softmax2 intExp [3, 9, 4, 20] 3 4 = some [1, 51, 1] ∧ intExp 3 = 27 := by
  decide +kernel

end Metalift.Sols
