import Verif.BlendInv
import Verif.PLlamaInv
/-
C79: the stored invariants of the blending benchmarks are inductive and imply the stored solutions.
-/
namespace Metalift.Sols

/-! ### Specification -/

/-- `inv1` holds before the outer loop; before every inner loop it gives `inv2`, which every iteration keeps and which gives `inv1` again when the inner loop ends and its row is pushed; and `inv1` gives `post` when
the outer loop ends. -/
def NestedProves (m n : Nat) (step : Int → Int × Vec → Option (Int × Vec)) (inv1 : Int × Mat → Prop) (inv2 : Int × Mat → Int × Vec → Prop) (post : Mat → Prop) : Prop :=
  inv1 (0, []) ∧
  (∀ s, inv1 s → s.1 < m → Proves (0, []) (fun t : Int × Vec => t.1 < n) (step s.1) (inv2 s) (fun t => inv1 (s.1 + 1, s.2 ++ [t.2]))) ∧
  ∀ s, inv1 s → ¬ s.1 < m → post s.2

/-! ### Lemmas -/

/-- All pairs of elements at the same place of two vectors. -/
def PairsV (Q : Int → Int → Prop) (x y : Vec) : Prop := x.length = y.length ∧ ∀ p ∈ x.zip y, Q p.1 p.2
/-- All pairs of elements at the same place of two matrices. -/
def PairsM (Q : Int → Int → Prop) (X Y : Mat) : Prop := X.length = Y.length ∧ ∀ p ∈ X.zip Y, PairsV Q p.1 p.2

theorem PairsM.take {Q : Int → Int → Prop} {X Y : Mat} (h : PairsM Q X Y) (k : Nat) : PairsM Q (X.take k) (Y.take k) := by
  refine ⟨by rw [List.length_take, List.length_take, h.1], fun p hp => h.2 p ?_⟩
  rw [List.zip, ← List.take_zipWith] at hp
  exact List.mem_of_mem_take hp

theorem PairsV.take {Q : Int → Int → Prop} {x y : Vec} (h : PairsV Q x y) (k : Nat) : PairsV Q (x.take k) (y.take k) := by
  refine ⟨by rw [List.length_take, List.length_take, h.1], fun p hp => h.2 p ?_⟩
  rw [List.zip, ← List.take_zipWith] at hp
  exact List.mem_of_mem_take hp

theorem PairsM.at {Q : Int → Int → Prop} {X Y : Mat} (h : PairsM Q X Y) (i : Nat) (h1 : i < X.length) (h2 : i < Y.length) : PairsV Q X[i] Y[i] := by
  have := h.2 ((X.zip Y)[i]'(by rw [List.length_zip]; omega)) (List.getElem_mem _)
  rwa [List.getElem_zip] at this

theorem PairsV.at {Q : Int → Int → Prop} {X Y : Vec} (h : PairsV Q X Y) (i : Nat) (h1 : i < X.length) (h2 : i < Y.length) : Q X[i] Y[i] := by
  have := h.2 ((X.zip Y)[i]'(by rw [List.length_zip]; omega)) (List.getElem_mem _)
  rwa [List.getElem_zip] at this

theorem pairs_of {Q : Int → Int → Prop} {base active : Mat} (hs : SameShape base active) (h : Pixels base active Q) : PairsM Q base active := by
  obtain ⟨n, a1, a2⟩ := hs.width
  refine ⟨hs.count, fun p hp => ?_⟩
  obtain ⟨i, hi, rfl⟩ := List.getElem_of_mem hp
  have hi' := hi
  rw [List.length_zip] at hi'
  rw [List.getElem_zip]
  have b1 : i < base.length := by omega
  have b2 : i < active.length := by omega
  refine ⟨(a1 _ (List.getElem_mem b1)).trans (a2 _ (List.getElem_mem b2)).symm, fun q hq => ?_⟩
  obtain ⟨j, hj, rfl⟩ := List.getElem_of_mem hq
  have hj' := hj
  rw [List.length_zip] at hj'
  rw [List.getElem_zip]
  simp only at hj' ⊢
  refine h i j _ _ ?_ ?_
  · rw [at2, List.getElem?_eq_getElem b1, Option.bind_some, List.getElem?_eq_getElem (by omega)]
  · rw [at2, List.getElem?_eq_getElem b2, Option.bind_some, List.getElem?_eq_getElem (by omega)]

theorem nested_proof {Q : Int → Int → Prop} {base active : Mat} (hs : SameShape base active) (hq : Pixels base active Q) (M : Mat → Mat → Option Mat) (V : Vec → Vec → Option Vec)
    (pix : Int → Int → Option Int) (f : Int → Int → Int) (hM : ∀ X Y, PairsM Q X Y → M X Y = some (List.zipWith (List.zipWith f) X Y))
    (hV : ∀ x y, PairsV Q x y → V x y = some (List.zipWith f x y)) (hp : ∀ b a, Q b a → pix b a = some (f b a)) :
    NestedProves base.length (base[0]?.getD []).length (blendStep pix base active) (blendInv1 M base active) (blendInv2 M V base active) (fun out => M base active = some out) := by
  have hP := pairs_of hs hq
  obtain ⟨n, w1, w2⟩ := hs.width
  have hc := hs.count
  have hn : (base[0]?.getD []).length = n := by
    cases base with
    | nil => exact absurd rfl hs.rows
    | cons r R => exact w1 r (by simp)
  have ct := fun k => hM _ _ (hP.take k)
  refine ⟨⟨Int.le_refl 0, by simp only; omega, by simpa using ct 0⟩, fun s h g => ?_, fun s h g => ?_⟩
  · obtain ⟨row, out⟩ := s
    obtain ⟨a, b, d⟩ := h
    simp only at a b d g ⊢
    have l1 : row.toNat < base.length := by omega
    have l2 : row.toNat < active.length := by omega
    have hx := w1 _ (List.getElem_mem l1)
    have hy := w2 _ (List.getElem_mem l2)
    have hxy := hP.at row.toNat l1 l2
    have tx := atI_eq base row a g
    have ty := atI_eq active row a (by omega)
    have sx := take_step base row a g
    have sy := take_step active row a (by omega)
    generalize base[row.toNat] = x at hx hxy tx sx
    generalize active[row.toNat] = y at hy hxy ty sy
    have key := loop_proof (fun k => V (slice x k) (slice y k)) (fun k => List.zipWith f (x.take k.toNat) (y.take k.toNat)) ((base[0]?.getD []).length : Int) 0 []
      (blendStep pix base active row) (fun t => blendInv1 M base active (row + 1, out ++ [t.2])) (Int.le_refl 0) (by omega)
      (fun k hk _ => by rw [slice_eq _ _ hk, slice_eq _ _ hk]; exact hV _ _ (hxy.take _)) (by simp)
      (fun k hk hk2 => by
        rw [take_step x k hk (by omega), take_step y k hk (by omega), List.zipWith_append (hxy.take k.toNat).1]
        simp only [blendStep, pushStep, tx, ty, Option.bind_some, atI_eq x k hk (by omega), atI_eq y k hk (by omega), both, hp _ _ (hxy.at k.toNat (by omega) (by omega)), Option.map_some,
          List.zipWith_cons_cons, List.zipWith_nil_left])
      (fun _ => by
        refine ⟨by simp only; omega, by simp only; omega, ?_⟩
        simp only
        rw [ct, sx, sy, List.zipWith_append (hP.take row.toNat).1, ← Option.some_inj.1 ((ct row.toNat).symm.trans d), List.take_of_length_le (l := x) (by omega), List.take_of_length_le (l := y) (by omega)]
        rfl)
    have hiff : ∀ t, blendInv2 M V base active (row, out) t ↔ headInv ((base[0]?.getD []).length : Int) (fun k => V (slice x k) (slice y k)) t := by
      intro t
      rw [blendInv2, headInv]
      simp only
      rw [tx, ty, Option.bind_some, Option.bind_some]
      exact ⟨fun ⟨_, _, x, y, z, _⟩ => ⟨x, y, z⟩, fun ⟨x, y, z⟩ => ⟨a, g, x, y, z, d⟩⟩
    rw [funext fun t => propext (hiff t)]
    exact key
  · obtain ⟨row, out⟩ := s
    obtain ⟨a, b, d⟩ := h
    simp only at a b d g ⊢
    rwa [List.take_of_length_le (by omega), List.take_of_length_le (by omega)] at d

theorem vec_some {Q : Int → Int → Prop} (g : Int → Int → Option Int) (f : Int → Int → Int) (hg : ∀ b a, Q b a → g b a = some (f b a)) (x y : Vec) (h : PairsV Q x y) :
    zipE g x y = some (List.zipWith f x y) := zipE_some _ _ _ _ h.1 fun p hp => hg _ _ (h.2 p hp)

theorem mat_some {Q : Int → Int → Prop} (g : Int → Int → Option Int) (f : Int → Int → Int) (hg : ∀ b a, Q b a → g b a = some (f b a)) (X Y : Mat) (h : PairsM Q X Y) :
    zipE (zipE g) X Y = some (List.zipWith (List.zipWith f) X Y) := zipE_some _ _ _ _ h.1 fun p hp => vec_some g f hg _ _ (h.2 p hp)

theorem mat_map {α β : Type} (g : α → Option β) (f : α → β) (hg : ∀ x, g x = some (f x)) (X : List (List α)) : mapE (mapE g) X = some (X.map (List.map f)) :=
  mapE_some _ _ _ fun _ _ => mapE_some _ _ _ fun x _ => hg x

theorem zip_map2 (g : Int → Int) (f : Int → Int → Int) (X Y : Mat) : (List.zipWith (List.zipWith f) X Y).map (List.map g) = List.zipWith (List.zipWith fun b a => g (f b a)) X Y := by
  rw [List.map_zipWith]
  congr 1
  funext x y
  rw [List.map_zipWith]

/-! ### Theorems -/

variable {base active : Mat}

/-- C79 for the invariants of the benchmarks whose solutions are right everywhere. -/
theorem C79_blend_invariants (hs : SameShape base active) :
    NestedProves base.length (base[0]?.getD []).length (blendStep darkenPix base active) (blendInv1 darken base active) (blendInv2 darken darkenRow base active) (fun out => darken base active = some out) ∧
    NestedProves base.length (base[0]?.getD []).length (blendStep lightenPix base active) (blendInv1 lighten base active) (blendInv2 lighten lightenRow base active) (fun out => lighten base active = some out) ∧
    NestedProves base.length (base[0]?.getD []).length (blendStep linearBurnPix base active) (blendInv1 linearBurn base active) (blendInv2 linearBurn linearBurnRow base active)
      (fun out => linearBurn base active = some out) ∧
    NestedProves base.length (base[0]?.getD []).length (blendStep linearDodgePix base active) (blendInv1 linearDodge base active) (blendInv2 linearDodge linearDodgeRow base active)
      (fun out => linearDodge base active = some out) := by
  have ht : Pixels base active fun _ _ => True := fun _ _ _ _ _ _ => trivial
  refine ⟨nested_proof hs ht _ _ _ (fun b a => if b > a then a else b) (mat_some _ _ fun b a _ => ?_) (vec_some _ _ fun b a _ => ?_) (fun _ _ _ => rfl),
    nested_proof hs ht _ _ _ (fun b a => if b < a then a else b) (mat_some _ _ fun b a _ => ?_) (vec_some _ _ fun b a _ => ?_) (fun _ _ _ => rfl),
    nested_proof hs ht _ _ _ (fun b a => b + a - 32) (fun X Y h => ?_) (fun x y h => ?_) (fun _ _ _ => rfl),
    nested_proof hs ht _ _ _ (fun b a => b + a) (mat_some _ _ fun b a _ => rfl) (vec_some _ _ fun b a _ => rfl) (fun _ _ _ => rfl)⟩
  · simp [iteInt]
  · simp [iteInt]
  · simp [iteInt]
  · simp [iteInt]
  · rw [linearBurn, matAdd, vecAdd, mat_some _ (fun b a => b + a) (fun _ _ _ => rfl) X Y h, Option.bind_some]
    exact (mat_map _ (fun v => v - 32) (fun _ => rfl) _).trans (congrArg some (zip_map2 _ _ X Y))
  · rw [linearBurnRow, vecAdd, vec_some _ (fun b a => b + a) (fun _ _ _ => rfl) x y h, Option.bind_some, vecScalarSub, mapE_some _ (fun v => v - 32) _ (fun _ _ => rfl), List.map_zipWith]

/-- C79 for the invariants of `multiply_blend_8`, without negative products. -/
theorem C79_multiply_invariants_partial (hs : SameShape base active) (hn : Pixels base active fun b a => 0 ≤ b * a) :
    NestedProves base.length (base[0]?.getD []).length (blendStep multiplyPix base active) (blendInv1 multiply base active) (blendInv2 multiply multiplyRow base active)
      (fun out => multiply base active = some out) := by
  refine nested_proof hs hn _ _ _ (fun b a => (b * a).fdiv 32) (fun X Y h => ?_) (fun x y h => ?_) (fun b a h => cDiv_pos h (by omega))
  · rw [multiply, matMul, vecMul, mat_some _ (fun b a => b * a) (fun _ _ _ => rfl) X Y h, Option.bind_some]
    exact (mat_map _ (fun v => Int.fdiv v 32) (fun v => pyDiv_32 v) _).trans (congrArg some (zip_map2 _ _ X Y))
  · rw [multiplyRow, vecMul, vec_some _ (fun b a => b * a) (fun _ _ _ => rfl) x y h, Option.bind_some, vecScalarDiv, mapE_some _ (fun v => Int.fdiv v 32) _ (fun v _ => pyDiv_32 v), List.map_zipWith]

/-- C79 for the invariants of `color_burn_8`, if `active` is positive and `base` at most 32. -/
theorem C79_color_burn_invariants_partial (hs : SameShape base active) (hn : Pixels base active fun b a => b ≤ 32 ∧ 0 < a) :
    NestedProves base.length (base[0]?.getD []).length (blendStep colorBurnPix base active) (blendInv1 colorBurn base active) (blendInv2 colorBurn colorBurnRow base active)
      (fun out => colorBurn base active = some out) := by
  have hg : ∀ b a : Int, b ≤ 32 ∧ 0 < a → iteInt (a == 0) (some 32) ((pyDiv (32 - b) a).map fun q => 32 - q) = some (32 - (32 - b).fdiv a) := by
    intro b a h
    have : (a == 0) = false := by simp; omega
    rw [pyDiv_pos _ h.2, this]
    rfl
  refine nested_proof hs hn _ _ _ (fun b a => 32 - (32 - b).fdiv a) (mat_some _ _ hg) (vec_some _ _ hg) (fun b a h => ?_)
  rw [colorBurnPix, if_neg (by omega), cDiv_pos (by omega) h.2]
  rfl

/-- C79 for the invariants of `dissolve_blend_8`, if the random number is not negative. -/
theorem C79_dissolve_invariants_partial (hs : SameShape base active) (opacity rand : Int) (hr : 0 ≤ rand) :
    NestedProves base.length (base[0]?.getD []).length (blendStep (dissolvePix opacity rand) base active) (blendInv1 (fun X Y => dissolve X Y opacity rand) base active)
      (blendInv2 (fun X Y => dissolve X Y opacity rand) (dissolveRow opacity rand) base active) (fun out => dissolve base active opacity rand = some out) := by
  have hm : rand.tmod 100 = rand.fmod 100 := by rw [Int.tmod_eq_emod_of_nonneg hr, Int.fmod_eq_emod_of_nonneg _ (by omega)]
  have h0 : 0 ≤ rand.fmod 100 + 1 := by rw [Int.fmod_eq_emod_of_nonneg _ (by omega)]; omega
  have hg : ∀ b a : Int, True → ((pyDiv (rand.fmod 100 + 1) 100).map fun r => if opacity - r ≥ 0 then a else b) = some (if opacity - (rand.fmod 100 + 1).fdiv 100 ≥ 0 then a else b) := by
    intro b a _
    rw [pyDiv_pos _ (by omega)]
    rfl
  refine nested_proof hs (fun _ _ _ _ _ _ => trivial) _ _ _ (fun b a => if opacity - (rand.fmod 100 + 1).fdiv 100 ≥ 0 then a else b) (mat_some _ _ hg) (vec_some _ _ hg) (fun b a _ => ?_)
  rw [dissolvePix, hm, cDiv_pos h0 (by omega)]
  rfl

theorem zip_zip (g f1 f2 : Int → Int → Int) : ∀ x y : Vec, List.zipWith g (List.zipWith f1 x y) (List.zipWith f2 x y) = List.zipWith (fun b a => g (f1 b a) (f2 b a)) x y
  | [], _ => by simp
  | _ :: _, [] => by simp
  | b :: x, a :: y => by simp [zip_zip g f1 f2 x y]

theorem zip_zip2 (g f1 f2 : Int → Int → Int) : ∀ X Y : Mat, List.zipWith (List.zipWith g) (List.zipWith (List.zipWith f1) X Y) (List.zipWith (List.zipWith f2) X Y) =
    List.zipWith (List.zipWith fun b a => g (f1 b a) (f2 b a)) X Y
  | [], _ => by simp
  | _ :: _, [] => by simp
  | x :: X, y :: Y => by simp only [List.zipWith_cons_cons, zip_zip2 g f1 f2 X Y, zip_zip]

theorem zip_len (f1 f2 : Int → Int → Int) : ∀ (X Y : Mat), ∀ p ∈ (List.zipWith (List.zipWith f1) X Y).zip (List.zipWith (List.zipWith f2) X Y), p.1.length = p.2.length
  | [], _, p, h => by simp at h
  | _ :: _, [], p, h => by simp at h
  | x :: X, y :: Y, p, h => by
    rw [List.zipWith_cons_cons, List.zipWith_cons_cons, List.zip_cons_cons, List.mem_cons] at h
    rcases h with rfl | h
    · simp
    · exact zip_len f1 f2 X Y p h

/-- C79 for the invariants of `screen_blend_8`, without negative products and with an outer invariant that slices all matrices: the stored inner invariant fits that one, and not the stored outer one
(`C79_screen_invariant_refuted`). -/
theorem C79_screen_invariants_partial (hs : SameShape base active) (hn : Pixels base active fun b a => 0 ≤ b * a) :
    NestedProves base.length (base[0]?.getD []).length (blendStep screenPix base active) (blendInv1 screen base active) (screenInv2 base active)
      (fun out => screen base active = some out) := by
  have hM : ∀ X Y, PairsM (fun b a => 0 ≤ b * a) X Y → screen X Y = some (List.zipWith (List.zipWith fun b a => b + a - (b * a).fdiv 32) X Y) := by
    intro X Y h
    have h3 : matScalarDiv 32 (List.zipWith (List.zipWith fun b a => b * a) X Y) = some (List.zipWith (List.zipWith fun b a => (b * a).fdiv 32) X Y) :=
      (mat_map _ (fun v => Int.fdiv v 32) (fun v => pyDiv_32 v) _).trans (congrArg some (zip_map2 _ _ X Y))
    rw [screen, matAdd, vecAdd, mat_some _ (fun b a => b + a) (fun _ _ _ => rfl) X Y h, Option.bind_some, matMul, vecMul, mat_some _ (fun b a => b * a) (fun _ _ _ => rfl) X Y h, Option.bind_some,
      h3, Option.bind_some, matSub, vecSub, mat_some (Q := fun _ _ => True) _ (fun b a => b - a) (fun _ _ _ => rfl) _ _ ⟨by simp, fun p hp => ⟨zip_len _ _ X Y p hp, fun _ _ => trivial⟩⟩, zip_zip2]
  have hV : ∀ x y, PairsV (fun b a => 0 ≤ b * a) x y → screenRow x y = some (List.zipWith (fun b a => b + a - (b * a).fdiv 32) x y) := by
    intro x y h
    rw [screenRow, vecAdd, vec_some _ (fun b a => b + a) (fun _ _ _ => rfl) x y h, Option.bind_some, vecMul, vec_some _ (fun b a => b * a) (fun _ _ _ => rfl) x y h, Option.bind_some,
      vecScalarDiv, mapE_some _ (fun v => Int.fdiv v 32) _ (fun v _ => pyDiv_32 v), List.map_zipWith, Option.bind_some, vecSub,
      vec_some (Q := fun _ _ => True) _ (fun b a => b - a) (fun _ _ _ => rfl) _ _ ⟨by simp, fun _ _ => trivial⟩, zip_zip]
  have h := nested_proof hs hn screen screenRow screenPix (fun b a => b + a - (b * a).fdiv 32) hM hV (fun b a h => by rw [screenPix, cDiv_pos h (by omega)]; rfl)
  have e : screenInv2 base active = blendInv2 screen screenRow base active := by
    funext s t
    refine propext ⟨fun ⟨a, b, c, d, x, y⟩ => ⟨a, ?_, c, d, x, y⟩, fun ⟨a, b, c, d, x, y⟩ => ⟨a, by omega, c, d, x, y⟩⟩
    by_cases hb : s.1 < base.length
    · exact hb
    · rw [atI, if_neg (by omega), List.getElem?_eq_none (by omega)] at x
      exact absurd x (by simp)
  rw [e]
  exact h

/-- C79 for the invariants of `overlay_blend_8`, where `base` is below 16 or at least 128. -/
theorem C79_overlay_invariants_partial (hs : SameShape base active) (hn : Pixels base active fun b _ => b < 16 ∨ 128 ≤ b) :
    NestedProves base.length (base[0]?.getD []).length (blendStep overlayPix base active) (blendInv1 overlay base active) (blendInv2 overlay overlayRow base active)
      (fun out => overlay base active = some out) := by
  have sq : ∀ b : Int, 0 ≤ 2 * b * b := fun b => by
    rw [Int.mul_assoc]
    exact Int.mul_nonneg (by omega) ((Int.le_total 0 b).elim (fun h => Int.mul_nonneg h h) fun h => Int.mul_nonneg_of_nonpos_of_nonpos h h)
  have hg : ∀ b a : Int, b < 16 ∨ 128 ≤ b → iteInt (b ≥ 128) ((pyDiv (2 * b * b) 32).map fun q => 2 * b + b - q - 32) (pyDiv (2 * b * b) 32) =
      some (if b ≥ 128 then 2 * b + b - (2 * b * b).fdiv 32 - 32 else (2 * b * b).fdiv 32) := by
    intro b a _
    rw [pyDiv_32]
    simp [iteInt]
  refine nested_proof hs hn _ _ _ (fun b _ => if b ≥ 128 then 2 * b + b - (2 * b * b).fdiv 32 - 32 else (2 * b * b).fdiv 32) (mat_some _ _ hg) (vec_some _ _ hg) (fun b a h => ?_)
  simp only [overlayPix, cDiv_pos (sq b) (show (0 : Int) < 32 by omega)]
  by_cases hb : b ≥ 128
  · rw [if_pos hb, if_pos (by omega)]; rfl
  · rw [if_neg hb, if_neg (by omega)]

/-- C79 for the invariants of `color_dodge_8`, if `active` is below 32 and `base` not negative. -/
theorem C79_color_dodge_invariants_partial (hs : SameShape base active) (hn : Pixels base active fun b a => 0 ≤ b ∧ a < 32) :
    NestedProves base.length (base[0]?.getD []).length (blendStep colorDodgePix base active) (blendInv1 colorDodge base active) (blendInv2 colorDodge colorDodgeRow base active)
      (fun out => colorDodge base active = some out) := by
  have row1 : ∀ x y : Vec, PairsV (fun b a => 0 ≤ b ∧ a < 32) x y → vecDiv x (y.map fun v => 32 - v) = some (List.zipWith (fun b a => b.fdiv (32 - a)) x y) := by
    intro x y h
    rw [vecDiv, zipE_some _ (fun b a => Int.fdiv b a) _ _ (by simpa using h.1) (fun p hp => ?_), List.zipWith_map_right]
    rw [List.zip_map_right] at hp
    obtain ⟨q, hq, rfl⟩ := List.mem_map.1 hp
    have := h.2 q hq
    exact pyDiv_pos _ (by simp only [Prod.map]; omega)
  have row2 : ∀ x y : Vec, PairsV (fun b a => 0 ≤ b ∧ a < 32) x y →
      zipE (fun a b => iteInt (a == 32) (some 32) (some b)) y (List.zipWith (fun b a => b.fdiv (32 - a)) x y) = some (List.zipWith (fun b a => b.fdiv (32 - a)) x y) := by
    intro x y h
    have hl := h.1
    rw [zipE_some _ (fun a b => if a = 32 then 32 else b) _ _ (by rw [List.length_zipWith]; omega) (fun p hp => by simp [iteInt])]
    congr 1
    refine List.ext_getElem (by simp; omega) fun i a b => ?_
    simp only [List.length_zipWith] at b
    have := h.at i (by omega) (by omega)
    simp only [List.getElem_zipWith]
    rw [if_neg (by omega)]
  have hV : ∀ x y : Vec, PairsV (fun b a => 0 ≤ b ∧ a < 32) x y → colorDodgeRow x y = some (List.zipWith (fun b a => b.fdiv (32 - a)) x y) := by
    intro x y h
    rw [colorDodgeRow, scalarVecSub, mapE_some _ (fun v => 32 - v) _ (fun _ _ => rfl), Option.bind_some, row1 x y h, Option.bind_some, row2 x y h]
  refine nested_proof hs hn _ _ _ (fun b a => b.fdiv (32 - a)) (fun X Y h => ?_) hV (fun b a h => ?_)
  · have hl := h.1
    rw [colorDodge, scalarMatSub, mapE_some (scalarVecSub 32) (List.map fun v => 32 - v) Y (fun y _ => mapE_some _ _ _ fun _ _ => rfl), Option.bind_some]
    have hd : matDiv X (Y.map (List.map fun v => 32 - v)) = some (List.zipWith (List.zipWith fun b a => b.fdiv (32 - a)) X Y) := by
      rw [matDiv, zipE_some _ (fun x d => List.zipWith (fun b a => Int.fdiv b a) x d) _ _ (by simpa using hl) (fun p hp => ?_), List.zipWith_map_right]
      · congr 2
        funext x y
        rw [List.zipWith_map_right]
      · rw [List.zip_map_right] at hp
        obtain ⟨q, hq, rfl⟩ := List.mem_map.1 hp
        have := row1 _ _ (h.2 q hq)
        simp only [Prod.map, id]
        rw [this, List.zipWith_map_right]
    rw [hd, Option.bind_some, matSel]
    have : ∀ (X Y : Mat), PairsM (fun b a => 0 ≤ b ∧ a < 32) X Y → zipE (zipE fun a b => iteInt (a == 32) (some 32) (some b)) Y (List.zipWith (List.zipWith fun b a => b.fdiv (32 - a)) X Y) =
        some (List.zipWith (List.zipWith fun b a => b.fdiv (32 - a)) X Y) := by
      intro X
      induction X with
      | nil => intro Y h; cases Y with
        | nil => rfl
        | cons y Y => exact absurd h.1 (by simp)
      | cons x X ih => intro Y h; cases Y with
        | nil => exact absurd h.1 (by simp)
        | cons y Y =>
          have h1 := h.1
          simp only [List.length_cons] at h1
          rw [List.zipWith_cons_cons, zipE, if_pos (by rw [List.length_zipWith]; omega), row2 x y (h.2 (x, y) (by simp)), Option.bind_some,
            ih Y ⟨by omega, fun p hp => h.2 p (by simp [hp])⟩]
          rfl
    exact this X Y h
  · rw [colorDodgePix, if_neg (by omega), cDiv_pos h.1 (by omega)]

theorem normal_invariant (full : Int) (base active : Vec) (opacity : Int) (hl : base.length = active.length) :
    Proves (0, []) (fun s : Int × Vec => s.1 < base.length) (normalStep full base active opacity) (normalInv full base active opacity)
      (fun s => ((vecScalarMul opacity active).bind fun x => (vecScalarMul (full - opacity) base).bind fun y => vecAdd x y) = some s.2) := by
  have c : ∀ x y : Vec, x.length = y.length → ((vecScalarMul opacity x).bind fun x => (vecScalarMul (full - opacity) y).bind fun y => vecAdd x y) =
      some (List.zipWith (fun a b => opacity * a + (full - opacity) * b) x y) := by
    intro x y h
    rw [vecScalarMul, mapE_some _ (fun v => opacity * v) _ (fun _ _ => rfl), Option.bind_some, vecScalarMul, mapE_some _ (fun v => (full - opacity) * v) _ (fun _ _ => rfl), Option.bind_some, vecAdd,
      zipE_some _ (fun a b => a + b) _ _ (by simpa using h) (fun _ _ => rfl), List.zipWith_map]
  have len : ∀ k : Int, (active.take k.toNat).length = (base.take k.toNat).length := fun k => by rw [List.length_take, List.length_take, hl]
  refine loop_proof _ (fun k => List.zipWith (fun a b => opacity * a + (full - opacity) * b) (active.take k.toNat) (base.take k.toNat)) _ _ _ _ _ (Int.le_refl 0) (by omega)
    (fun k hk _ => by rw [slice_eq _ _ hk, slice_eq _ _ hk]; exact c _ _ (len k)) rfl (fun k hk hk2 => ?_) (fun _ => ?_)
  · rw [take_step active k hk (by omega), take_step base k hk hk2, List.zipWith_append (len k)]
    simp only [normalStep, pushStep, atI_eq active k hk (by omega), atI_eq base k hk hk2, Option.bind_some, Option.map_some, List.zipWith_cons_cons, List.zipWith_nil_left]
  · simp only
    rw [c _ _ hl.symm, List.take_of_length_le (by omega), List.take_of_length_le (by omega)]

/-- C79 for the invariants of the two normal blends. -/
theorem C79_normal_invariants (base active : Vec) (opacity : Int) (hl : base.length = active.length) :
    Proves (0, []) (fun s : Int × Vec => s.1 < base.length) (normalStep 1 base active opacity) (normalInv 1 base active opacity) (fun s => normalF base active opacity = some s.2) ∧
    Proves (0, []) (fun s : Int × Vec => s.1 < base.length) (normalStep 32 base active opacity) (normalInv 32 base active opacity) (fun s => normal8 base active opacity = some s.2) :=
  ⟨normal_invariant 1 base active opacity hl, normal_invariant 32 base active opacity hl⟩

/-! ### Refutation -/

/-- C79 fails for the inner invariant of `overlay_blend_8`: it holds before the inner loop, and an iteration does not keep it if the element of `base` is 16. -/
theorem C79_overlay_invariant_refuted :
    blendInv2 overlay overlayRow [[16]] [[0]] (0, []) (0, []) ∧ (∃ t, blendStep overlayPix [[16]] [[0]] 0 (0, []) = some t ∧ ¬ blendInv2 overlay overlayRow [[16]] [[0]] (0, []) t) := by
  refine ⟨⟨by decide, by decide, by decide, by decide, by decide +kernel, by decide +kernel⟩, (1, [0]), by decide +kernel, fun h => absurd h.2.2.2.2.1 (by decide +kernel)⟩

/-- The inner invariants in the middle of the loops. -/
theorem C79_blend_invariant_example : blendInv2 darken darkenRow [[30, 20], [10, 5]] [[2, 40], [8, 10]] (1, [[2, 20]]) (1, [8]) ∧
    blendInv2 linearBurn linearBurnRow [[30, 20], [10, 5]] [[2, 40], [8, 10]] (1, [[0, 28]]) (2, [-14, -17]) ∧
    blendInv2 multiply multiplyRow [[30, 20], [10, 5]] [[2, 40], [8, 10]] (1, [[1, 25]]) (1, [2]) := by
  refine ⟨⟨by decide, by decide, by decide, by decide, by decide +kernel, by decide +kernel⟩, ⟨by decide, by decide, by decide, by decide, by decide +kernel, by decide +kernel⟩, by decide, by decide, by decide,
    by decide, by decide +kernel, by decide +kernel⟩

end Metalift.Sols
