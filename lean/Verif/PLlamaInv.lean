import Verif.LlamaInv
import Verif.PLlamaSols
/-
C79: the stored invariants of the benchmarks from Llama are inductive and imply the stored solutions.
-/
namespace Metalift.Sols

/-! ### Specification -/

/-- `inv` holds before the loop, is kept by every iteration, and gives `post` when the loop ends. -/
def Proves {σ : Type} (init : σ) (guard : σ → Prop) (step : σ → Option σ) (inv post : σ → Prop) : Prop :=
  inv init ∧ (∀ s, inv s → guard s → ∃ s', step s = some s' ∧ inv s') ∧ ∀ s, inv s → ¬ guard s → post s

/-- The states that a loop has before its guard is tested. -/
inductive Reaches {σ : Type} (init : σ) (guard : σ → Prop) (step : σ → Option σ) : σ → Prop
  | start : Reaches init guard step init
  | next {s s' : σ} : Reaches init guard step s → guard s → step s = some s' → Reaches init guard step s'

/-- What `Proves` is good for: the invariant holds whenever the loop is reached, no iteration is undefined, and the loop ends with `post`. -/
theorem C79_invariants_hold {σ : Type} {init : σ} {guard : σ → Prop} {step : σ → Option σ} {inv post : σ → Prop} (h : Proves init guard step inv post) (s : σ) (hr : Reaches init guard step s) :
    inv s ∧ (guard s → ∃ s', step s = some s') ∧ (¬ guard s → post s) := by
  have hi : inv s := by
    induction hr with
    | start => exact h.1
    | next _ g e ih =>
      obtain ⟨t, e', ht⟩ := h.2.1 _ ih g
      rw [e] at e'
      cases e'
      exact ht
  exact ⟨hi, fun g => (h.2.1 s hi g).imp fun _ x => x.1, h.2.2 s hi⟩

/-! ### Lemmas -/

theorem atI_eq {α : Type} (l : List α) (i : Int) (h0 : 0 ≤ i) (h1 : i < l.length) : atI l i = some (l[i.toNat]'(by omega)) := by
  rw [atI, if_neg (by omega), List.getElem?_eq_getElem]

theorem take_step {α : Type} (l : List α) (i : Int) (h0 : 0 ≤ i) (h1 : i < l.length) : l.take (i + 1).toNat = l.take i.toNat ++ [l[i.toNat]'(by omega)] := by
  rw [show (i + 1).toNat = i.toNat + 1 by omega, List.take_add_one, List.getElem?_eq_getElem (show i.toNat < l.length by omega)]
  rfl

theorem loop_proof {τ : Type} (F : Int → Option τ) (C : Int → τ) (n i0 : Int) (init : τ) (step : Int × τ → Option (Int × τ)) (post : Int × τ → Prop) (h0 : 0 ≤ i0) (hn : i0 ≤ n)
    (hC : ∀ k, 0 ≤ k → k ≤ n → F k = some (C k)) (hi : C i0 = init) (hs : ∀ k, 0 ≤ k → k < n → step (k, C k) = some (k + 1, C (k + 1))) (hp : ∀ k, post (k, C n)) :
    Proves (i0, init) (fun s => s.1 < n) step (headInv n F) post := by
  refine ⟨⟨h0, hn, by rw [← hi]; exact hC i0 h0 hn⟩, fun s h g => ?_, fun s h g => ?_⟩
  · obtain ⟨k, v⟩ := s
    obtain ⟨a, b, c⟩ := h
    simp only at a b c g
    rw [hC k a b] at c
    cases c
    exact ⟨_, hs k a g, by simp only; omega, by simp only; omega, hC _ (by omega) (by omega)⟩
  · obtain ⟨k, v⟩ := s
    obtain ⟨a, b, c⟩ := h
    simp only at a b c g
    have e : k = n := by omega
    subst e
    rw [hC k a b] at c
    cases c
    exact hp k

/-! ### Theorems -/

/-- C79 for the invariants of `softmax_part2`, `softmax_part3` and `transformer_part4`. -/
theorem C79_llama_invariants (exp : Int → Int) (input input2 : Vec) (n maxVal : Int) (h0 : 0 ≤ n) (h1 : n ≤ input.length) (h2 : n ≤ input2.length) :
    Proves (0, []) (fun s => s.1 < n) (softmax2Step exp input maxVal) (softmax2Inv exp input n maxVal) (fun s => softmax2 exp input n maxVal = some s.2) ∧
    Proves (0, 0) (fun s => s.1 < n) (softmax3Step input) (softmax3Inv input n) (fun s => softmax3 input n = some s.2) ∧
    Proves (0, []) (fun s => s.1 < n) (transformer4Step input input2) (transformer4Inv input input2 n) (fun s => transformer4 input input2 n = some s.2) := by
  have c2 : ∀ k, 0 ≤ k → softmax2 exp input k maxVal = some ((input.take k.toNat).map fun v => exp (v - maxVal)) := by
    intro k hk
    rw [softmax2, slice_eq _ _ hk, vecScalarSub, mapE_some _ (fun v => v - maxVal) _ (fun _ _ => rfl), Option.bind_some, mapE_some _ exp _ (fun _ _ => rfl), List.map_map]
    rfl
  have len : ∀ (l : Vec) (k : Int), 0 ≤ k → k ≤ l.length → (l.take k.toNat).length = k.toNat := fun l k a b => by rw [List.length_take]; omega
  refine ⟨loop_proof _ (fun k => (input.take k.toNat).map fun v => exp (v - maxVal)) _ _ _ _ _ (Int.le_refl 0) h0 (fun k hk _ => c2 k hk) rfl (fun k hk hn => ?_) (fun _ => c2 n h0),
    loop_proof _ (fun k => reduceSum (input.take k.toNat)) _ _ _ _ _ (Int.le_refl 0) h0 (fun k hk _ => by rw [slice_eq _ _ hk]) rfl (fun k hk hn => ?_)
      (fun _ => by rw [softmax3, slice_eq _ _ h0]),
    loop_proof _ (fun k => List.zipWith (fun a b => a * b) (input2.take k.toNat) (input.take k.toNat)) _ _ _ _ _ (Int.le_refl 0) h0 (fun k hk hn => ?_) rfl (fun k hk hn => ?_) (fun _ => ?_)⟩
  · rw [softmax2Step, pushStep, atI_eq input k hk (by omega), take_step input k hk (by omega), List.map_append]
    rfl
  · rw [softmax3Step, addStep, atI_eq input k hk (by omega), take_step input k hk (by omega), reduceSum_append, reduceSum, reduceSum, Int.add_zero]
    rfl
  · rw [slice_eq _ _ hk, slice_eq _ _ hk, vecMul]
    exact zipE_some _ _ _ _ (by rw [len _ _ hk (by omega), len _ _ hk (by omega)]) fun _ _ => rfl
  · rw [transformer4Step, pushStep, atI_eq input k hk (by omega), atI_eq input2 k hk (by omega), take_step input k hk (by omega), take_step input2 k hk (by omega),
      List.zipWith_append (by rw [len _ _ hk (by omega), len _ _ hk (by omega)])]
    simp only [Option.bind_some, Option.map_some, List.zipWith_cons_cons, List.zipWith_nil_left, Int.mul_comm]
  · rw [transformer4, slice_eq _ _ h0, slice_eq _ _ h0, vecMul, zipE_some _ (fun a b => a * b) _ _ (by rw [len _ _ h0 h1, len _ _ h0 h2]) (fun _ _ => rfl)]
    simp only
    rw [List.zipWith_comm]
    simp only [Int.mul_comm]

/-- C79 for the invariant of `rmsnorm_part1`. -/
theorem C79_rmsnorm1_invariant (input : Vec) :
    Proves (0, 0) (fun s : Int × Int => s.1 < input.length) (rmsnorm1Step input) (rmsnorm1Inv input) (fun s => rmsnorm1 input = some s.2) := by
  have c : ∀ l : Vec, (vecMul l l).map reduceSum = some (reduceSum (l.map fun v => v * v)) := by
    intro l
    rw [vecMul, zipE_some _ (fun a b => a * b) _ _ rfl (fun _ _ => rfl), Option.map_some]
    congr 2
    exact List.ext_getElem (by simp) fun i a b => by simp
  refine loop_proof _ (fun k => reduceSum ((input.take k.toNat).map fun v => v * v)) _ _ _ _ _ (Int.le_refl 0) (by omega) (fun k hk _ => by rw [slice_eq _ _ hk]; exact c _) rfl (fun k hk hn => ?_)
    (fun _ => ?_)
  · rw [rmsnorm1Step, addStep, atI_eq input k hk (by omega), take_step input k hk (by omega), List.map_append, reduceSum_append, List.map_cons, List.map_nil, reduceSum, reduceSum, Int.add_zero]
    rfl
  · rw [rmsnorm1, c, show ((input.length : Int)).toNat = input.length by omega, List.take_length]

/-- C79 for the invariant of `softmax_part1`, if no number is below -32. -/
theorem C79_softmax1_invariant_partial (input : Vec) (n : Int) (h0 : 0 < n) (h1 : n ≤ input.length) (hb : ∀ x ∈ input, -32 ≤ x) (m : Int) (hm : input[0]? = some m) :
    Proves (1, m) (fun s => s.1 < n) (softmax1Step input) (softmax1Inv input n) (fun s => softmax1 input n = some s.2) := by
  refine loop_proof _ (fun k => reduceMax (input.take k.toNat)) _ _ _ _ _ (by omega) (by omega) (fun k hk _ => by rw [slice_eq _ _ hk]) ?_ (fun k hk hn => ?_)
    (fun _ => by rw [softmax1, slice_eq _ _ (by omega)])
  · cases input with
    | nil => simp at hm
    | cons a l => simp at hm; simp [reduceMax, hm]
  · rw [softmax1Step, atI_eq input k hk (by omega), take_step input k hk (by omega), Option.map_some]
    by_cases hz : input.take k.toNat = []
    · have := hb _ (List.getElem_mem (show k.toNat < input.length by omega))
      rw [hz, List.nil_append, reduceMax, reduceMax]
      congr 2
      split <;> omega
    · rw [reduceMax_append _ _ hz]

/-- C79 for the invariant of `softmax_part4`, if the sum is positive and no number is negative. -/
theorem C79_softmax4_invariant_partial (input : Vec) (n sum : Int) (h0 : 0 ≤ n) (h1 : n ≤ input.length) (hs : 0 < sum) (hn : ∀ x ∈ input, 0 ≤ x) :
    Proves (0, []) (fun s => s.1 < n) (softmax4Step input sum) (softmax4Inv input n sum) (fun s => softmax4 input n sum = some s.2) := by
  have c : ∀ k, 0 ≤ k → vecScalarDiv sum (slice input k) = some ((input.take k.toNat).map fun v => v.fdiv sum) := by
    intro k hk
    rw [slice_eq _ _ hk, vecScalarDiv]
    exact mapE_some _ _ _ fun x _ => pyDiv_pos x hs
  refine loop_proof _ (fun k => (input.take k.toNat).map fun v => Int.fdiv v sum) _ _ _ _ _ (Int.le_refl 0) h0 (fun k hk _ => c k hk) rfl (fun k hk hk2 => ?_) (fun _ => c n h0)
  rw [softmax4Step, pushStep, atI_eq input k hk (by omega), take_step input k hk (by omega), List.map_append, Option.bind_some, cDiv_pos (hn _ (List.getElem_mem _)) hs]
  rfl

/-- C79 for the invariant of `transformer_part3`, if exponentials are not negative. -/
theorem C79_transformer3_invariant_partial (exp : Int → Int) (he : ∀ x, 0 ≤ exp x) (input : Vec) (n : Int) (h0 : 0 ≤ n) (h1 : n ≤ input.length) :
    Proves (0, []) (fun s => s.1 < n) (transformer3Step exp input) (transformer3Inv exp input n) (fun s => transformer3 exp input n = some s.2) := by
  have hpos : ∀ v, 0 < 1 + exp (0 - v) := fun v => by have := he (0 - v); omega
  have c : ∀ k, 0 ≤ k → transformer3 exp input k = some ((input.take k.toNat).map fun v => v * Int.fdiv 1 (1 + exp (0 - v))) := by
    intro k hk
    rw [transformer3, slice_eq _ _ hk, scalarVecSub, mapE_some _ (fun v => 0 - v) _ (fun _ _ => rfl), Option.bind_some, mapE_some _ exp _ (fun _ _ => rfl), Option.bind_some,
      mapE_some _ (fun v => 1 + v) _ (fun _ _ => rfl), Option.bind_some, List.map_map, List.map_map,
      mapE_some _ (fun v => Int.fdiv 1 v) _ (fun x hx => ?_), Option.bind_some, vecMul, zipE_some _ (fun a b => a * b) _ _ (by simp) (fun _ _ => rfl)]
    · congr 1
      exact List.ext_getElem (by simp) fun i a b => by simp
    · obtain ⟨v, _, rfl⟩ := List.mem_map.1 hx
      exact pyDiv_pos 1 (hpos v)
  refine loop_proof _ (fun k => (input.take k.toNat).map fun v => v * Int.fdiv 1 (1 + exp (0 - v))) _ _ _ _ _ (Int.le_refl 0) h0 (fun k hk _ => c k hk) rfl (fun k hk hk2 => ?_) (fun _ => c n h0)
  rw [transformer3Step, pushStep, atI_eq input k hk (by omega), take_step input k hk (by omega), List.map_append, Option.bind_some, cDiv_pos (show (0 : Int) ≤ 1 by omega) (hpos _)]
  rfl

/-- C79 for the invariant of `rmsnorm_part2`, if there are numbers, `ss` is not negative and the square root is positive. -/
theorem C79_rmsnorm2_invariant_partial (sqrt : Int → Int) (input weight : Vec) (ss : Int) (hq : 0 < sqrt (ss / input.length + 1)) (h0 : input ≠ []) (hl : input.length = weight.length) (hs : 0 ≤ ss) :
    Proves (0, []) (fun s : Int × Vec => s.1 < input.length) (rmsnorm2Step sqrt input weight ss) (rmsnorm2Inv sqrt input weight ss) (fun s => rmsnorm2 sqrt input weight ss = some s.2) := by
  have hp : (0 : Int) < input.length := by
    have := List.length_pos_iff.2 h0
    omega
  have hr : 0 < sqrt (ss.fdiv input.length + 1) := by rw [Int.fdiv_eq_ediv_of_nonneg _ (by omega)]; exact hq
  have c : ∀ x y : Vec, x.length = y.length → ((pyDiv ss input.length).bind fun q => (pyDiv 1 (sqrt (q + 1))).bind fun f => (vecScalarMul f x).bind fun x => vecMul x y) =
      some (List.zipWith (fun v w => Int.fdiv 1 (sqrt (ss.fdiv input.length + 1)) * v * w) x y) := by
    intro x y h
    rw [pyDiv_pos _ hp, Option.bind_some, pyDiv_pos _ hr, Option.bind_some, vecScalarMul, mapE_some _ (fun v => Int.fdiv 1 (sqrt (ss.fdiv input.length + 1)) * v) _ (fun _ _ => rfl),
      Option.bind_some, vecMul, zipE_some _ (fun a b => a * b) _ _ (by simpa using h) (fun _ _ => rfl), List.zipWith_map_left]
  have len : ∀ k : Int, (input.take k.toNat).length = (weight.take k.toNat).length := fun k => by rw [List.length_take, List.length_take, hl]
  refine loop_proof _ (fun k => List.zipWith (fun v w => Int.fdiv 1 (sqrt (ss.fdiv input.length + 1)) * v * w) (input.take k.toNat) (weight.take k.toNat)) _ _ _ _ _ (Int.le_refl 0) (by omega)
    (fun k hk _ => by rw [slice_eq _ _ hk, slice_eq _ _ hk]; exact c _ _ (len k)) rfl (fun k hk hk2 => ?_) (fun _ => ?_)
  · rw [take_step input k hk hk2, take_step weight k hk (by omega), List.zipWith_append (len k)]
    simp only [rmsnorm2Step, pushStep, atI_eq input k hk hk2, atI_eq weight k hk (by omega), cDiv_pos hs hp, Option.bind_some, cDiv_pos (show (0 : Int) ≤ 1 by omega) hr, Option.map_some,
      List.zipWith_cons_cons, List.zipWith_nil_left]
  · rw [rmsnorm2, c _ _ hl, show ((input.length : Int)).toNat = input.length by omega, List.take_length, hl, List.take_length]

/-- C79 for the invariants of `matmul`, if all rows have the length of the vector and it is not 0: the outer invariant holds first, gives the inner one before the inner loop, which is kept, gives the outer one
after it, and the outer one gives the solution in the end. -/
theorem C79_matmul_invariants_partial (weight : Mat) (input : Vec) (h0 : input ≠ []) (hw : ∀ r ∈ weight, r.length = input.length) :
    matmulInv1 weight input (0, []) ∧
    (∀ s, matmulInv1 weight input s → s.1 < weight.length →
      Proves (0, 0) (fun t : Int × Int => t.1 < input.length) (matmulStep weight input s.1) (fun t => matmulInv2 weight input (s, t)) (fun t => matmulInv1 weight input (s.1 + 1, s.2 ++ [t.2]))) ∧
    ∀ s, matmulInv1 weight input s → ¬ s.1 < weight.length → matmul weight input = some s.2 := by
  have hp := List.length_pos_iff.2 h0
  have cm : ∀ w : Mat, (∀ r ∈ w, r.length = input.length) → matVecMul w input = some (w.map fun r => reduceSum (List.zipWith (fun a b => a * b) r input)) := by
    intro w
    induction w with
    | nil => intro _; rfl
    | cons r w ih =>
      intro h
      have hr := h r (by simp)
      rw [matVecMul, if_neg (by omega), vecMul, zipE_some _ (fun a b => a * b) _ _ hr (fun _ _ => rfl), Option.bind_some, ih fun s hs => h s (by simp [hs])]
      rfl
  have ct : ∀ k : Nat, matVecMul (weight.take k) input = some ((weight.take k).map fun r => reduceSum (List.zipWith (fun a b => a * b) r input)) :=
    fun k => cm _ fun r hr => hw r (List.mem_of_mem_take hr)
  refine ⟨⟨Int.le_refl 0, by simp only; omega, rfl⟩, fun s h g => ?_, fun s h g => ?_⟩
  · obtain ⟨row, out⟩ := s
    obtain ⟨a, b, d⟩ := h
    simp only at a b d g ⊢
    have hr := hw _ (List.getElem_mem (show row.toNat < weight.length by omega))
    have hat := atI_eq weight row a g
    have ht := take_step weight row a g
    generalize weight[row.toNat]'(by omega) = r at hr hat ht
    have len : ∀ k : Int, (r.take k.toNat).length = (input.take k.toNat).length := fun k => by rw [List.length_take, List.length_take, hr]
    have key := loop_proof (fun k => (vecMul (slice r k) (slice input k)).map reduceSum) (fun k => reduceSum (List.zipWith (fun a b => a * b) (r.take k.toNat) (input.take k.toNat)))
      input.length 0 0 (matmulStep weight input row) (fun t => matmulInv1 weight input (row + 1, out ++ [t.2])) (Int.le_refl 0) (by omega)
      (fun k hk _ => by rw [slice_eq _ _ hk, slice_eq _ _ hk, vecMul, zipE_some _ (fun a b => a * b) _ _ (len k) (fun _ _ => rfl)]; rfl) rfl
      (fun k hk hk2 => by
        rw [take_step r k hk (by omega), take_step input k hk hk2, List.zipWith_append (len k), reduceSum_append]
        simp only [matmulStep, addStep, hat, atI_eq r k hk (by omega), atI_eq input k hk hk2, Option.bind_some, Option.map_some, List.zipWith_cons_cons, List.zipWith_nil_left, reduceSum, Int.add_zero])
      (fun _ => by
        refine ⟨by simp only; omega, by simp only; omega, ?_⟩
        simp only
        rw [ct, ht, List.map_append, ← Option.some_inj.1 ((ct row.toNat).symm.trans d), show ((input.length : Int)).toNat = input.length by omega, List.take_length, ← hr, List.take_length]
        rfl)
    have hiff : ∀ t, matmulInv2 weight input ((row, out), t) ↔ headInv input.length (fun k => (vecMul (slice r k) (slice input k)).map reduceSum) t := by
      intro t
      rw [matmulInv2, headInv]
      simp only
      rw [hat, Option.bind_some]
      exact ⟨fun ⟨_, _, x, y, _, z⟩ => ⟨x, y, z⟩, fun ⟨x, y, z⟩ => ⟨a, g, x, y, d, z⟩⟩
    rw [funext fun t => propext (hiff t)]
    exact key
  · obtain ⟨row, out⟩ := s
    obtain ⟨a, b, d⟩ := h
    simp only at a b d g ⊢
    rw [show row.toNat = weight.length by omega, List.take_length] at d
    exact d

/-! ### Refutations -/

/-- C79 fails for invariants: that of `softmax_part1` holds for `i = 0` and the value -32, which an iteration does not keep if the first number is smaller; and no invariant holds before the loop if the bound is
negative. -/
theorem C79_softmax1_invariant_refuted :
    (softmax1Inv [-50, -60] 2 (0, -32) ∧ softmax1Step [-50, -60] (0, -32) = some (1, -32) ∧ ¬ softmax1Inv [-50, -60] 2 (1, -32)) ∧
    (∀ (τ : Type) (n : Int) (expr : Int → Option τ) (v : τ), n < 0 → ¬ headInv n expr (0, v)) := by
  refine ⟨⟨⟨by decide, by decide, by decide +kernel⟩, by decide +kernel, fun h => absurd h.2.2 (by decide +kernel)⟩, fun τ n expr v hn h => ?_⟩
  have := h.2.1
  simp only at this
  omega

/-- Invariants in the middle of the loops. -/
theorem C79_llama_invariant_example : softmax1Inv [3, 9, 4, 20] 4 (3, 9) ∧ softmax3Inv [3, 9, 4, 20] 4 (2, 12) ∧ transformer4Inv [3, 9, 4] [2, 1, 7] 3 (2, [6, 9]) ∧
    matmulInv2 [[1, 2], [3, 4], [5, 6]] [10, 1] ((1, [12]), (1, 30)) := by
  refine ⟨⟨by decide, by decide, by decide +kernel⟩, ⟨by decide, by decide, by decide +kernel⟩, ⟨by decide, by decide, by decide +kernel⟩, by decide, by decide, by decide, by decide, by decide +kernel,
    by decide +kernel⟩

end Metalift.Sols
