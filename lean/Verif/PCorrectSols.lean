import Verif.CorrectSols
/-
C79: the stored solutions compute the benchmarks.
-/
namespace Metalift.Sols

/-! ### Specification -/

/-- Two matrices with at least one row, with the same number of rows, and with rows of one length. -/
structure SameShape (base active : Mat) : Prop where
  rows : base ≠ []
  count : base.length = active.length
  width : ∃ n, (∀ r ∈ base, r.length = n) ∧ ∀ r ∈ active, r.length = n

/-- `P` holds for the two numbers at every place. -/
def Pixels (base active : Mat) (P : Int → Int → Prop) : Prop :=
  ∀ row col b a, at2 base row col = some b → at2 active row col = some a → P b a

/-! ### Proofs -/

/-- A function applied at every place. -/
def zz (f : Int → Int → Int) (X Y : Mat) : Mat := List.zipWith (List.zipWith f) X Y

theorem zipE_fuse {α β γ δ ε : Type} (g : γ → δ → Option ε) (f₁ : α → β → γ) (f₂ : α → β → δ) (h : α → β → ε) : ∀ (x : List α) (y : List β),
    (∀ p ∈ x.zip y, g (f₁ p.1 p.2) (f₂ p.1 p.2) = some (h p.1 p.2)) → zipE g (List.zipWith f₁ x y) (List.zipWith f₂ x y) = some (List.zipWith h x y)
  | [], _, _ => by simp [zipE]
  | _ :: _, [], _ => by simp [zipE]
  | a :: x, b :: y, H => by
    have h1 := H (a, b) (by simp)
    have h2 := zipE_fuse g f₁ f₂ h x y (fun p hp => H p (by simp [hp]))
    simp only [List.zipWith_cons_cons, zipE, List.length_zipWith, if_true, h2]
    simp at h1
    simp [h1]

theorem mapE_fuse {α β γ ε : Type} (g : γ → Option ε) (f : α → β → γ) (h : α → β → ε) : ∀ (x : List α) (y : List β),
    (∀ p ∈ x.zip y, g (f p.1 p.2) = some (h p.1 p.2)) → mapE g (List.zipWith f x y) = some (List.zipWith h x y)
  | [], _, _ => by simp [mapE]
  | _ :: _, [], _ => by simp [mapE]
  | a :: x, b :: y, H => by
    have h1 := H (a, b) (by simp)
    have h2 := mapE_fuse g f h x y (fun p hp => H p (by simp [hp]))
    simp at h1
    simp [mapE, h1, h2]

theorem zip_fst {α β : Type} : ∀ (x : List α) (y : List β), x.length = y.length → List.zipWith (fun a _ => a) x y = x
  | [], _, _ => by simp
  | _ :: _, [], h => by simp at h
  | a :: x, b :: y, h => by simp [zip_fst x y (by simpa using h)]

theorem zip_snd {α β : Type} : ∀ (x : List α) (y : List β), x.length = y.length → List.zipWith (fun _ b => b) x y = y
  | [], [], _ => by simp
  | [], _ :: _, h => by simp at h
  | _ :: _, [], h => by simp at h
  | a :: x, b :: y, h => by simp [zip_snd x y (by simpa using h)]

theorem zipWith_congr' {α β γ : Type} (f g : α → β → γ) : ∀ (x : List α) (y : List β), (∀ p ∈ x.zip y, f p.1 p.2 = g p.1 p.2) → List.zipWith f x y = List.zipWith g x y
  | [], _, _ => by simp
  | _ :: _, [], _ => by simp
  | a :: x, b :: y, H => by
    have := H (a, b) (by simp)
    simp at this
    simp [this, zipWith_congr' f g x y (fun p hp => H p (by simp [hp]))]

variable {base active : Mat}

theorem SameShape.pair (hs : SameShape base active) : ∀ p ∈ base.zip active, p.1.length = p.2.length := by
  obtain ⟨n, h1, h2⟩ := hs.width
  intro p hp
  have := List.of_mem_zip (a := p.1) (b := p.2) hp
  rw [h1 _ this.1, h2 _ this.2]

theorem zz_base (hs : SameShape base active) : zz (fun b _ => b) base active = base := by
  rw [zz, zipWith_congr' _ (fun x _ => x) _ _ (fun p hp => zip_fst p.1 p.2 (hs.pair p hp)), zip_fst _ _ hs.count]

theorem zz_active (hs : SameShape base active) : zz (fun _ a => a) base active = active := by
  rw [zz, zipWith_congr' _ (fun _ y => y) _ _ (fun p hp => zip_snd p.1 p.2 (hs.pair p hp)), zip_snd _ _ hs.count]

theorem pixels_zip {P : Int → Int → Prop} (hp : Pixels base active P) : ∀ p ∈ base.zip active, ∀ q ∈ p.1.zip p.2, P q.1 q.2 := by
  intro p h q k
  obtain ⟨i, hi⟩ := List.mem_iff_getElem?.1 h
  obtain ⟨j, hj⟩ := List.mem_iff_getElem?.1 k
  obtain ⟨i1, i2⟩ := List.getElem?_zip_eq_some.1 hi
  obtain ⟨j1, j2⟩ := List.getElem?_zip_eq_some.1 hj
  exact hp i j q.1 q.2 (by simp [at2, i1, j1]) (by simp [at2, i2, j2])

theorem zz2 (g : Int → Int → Option Int) (f₁ f₂ h : Int → Int → Int) (hp : Pixels base active fun b a => g (f₁ b a) (f₂ b a) = some (h b a)) :
    zipE (zipE g) (zz f₁ base active) (zz f₂ base active) = some (zz h base active) :=
  zipE_fuse _ _ _ _ _ _ fun p m => zipE_fuse g f₁ f₂ h p.1 p.2 (pixels_zip hp p m)

theorem zz1 (g : Int → Option Int) (f h : Int → Int → Int) (hp : Pixels base active fun b a => g (f b a) = some (h b a)) :
    mapE (mapE g) (zz f base active) = some (zz h base active) :=
  mapE_fuse _ _ _ _ _ fun p m => mapE_fuse g f h p.1 p.2 (pixels_zip hp p m)

/-- The same for the matrices themselves. -/
theorem zz0 (hs : SameShape base active) (g : Int → Int → Option Int) (h : Int → Int → Int) (hp : Pixels base active fun b a => g b a = some (h b a)) :
    zipE (zipE g) base active = some (zz h base active) := by
  have := zz2 g (fun b _ => b) (fun _ a => a) h hp
  rwa [zz_base hs, zz_active hs] at this

theorem fold_push {α β : Type} (k : α → Option β) (F : α → β) : ∀ (l : List α) (acc : List β), (∀ x ∈ l, k x = some (F x)) →
    l.foldlM (fun v i => (k i).map fun p => v ++ [p]) acc = some (acc ++ l.map F)
  | [], acc, _ => by simp
  | x :: l, acc, h => by
    rw [List.foldlM_cons, h x (by simp)]
    have := fold_push k F l (acc ++ [F x]) fun y hy => h y (by simp [hy])
    simpa using this

theorem pushLoop_eq {α : Type} (body : Nat → Option α) (out : List α) (h : ∀ i, (hi : i < out.length) → body i = some out[i]) : pushLoop out.length body = some out := by
  by_cases he : out = []
  · subst he; rfl
  · have : Nonempty α := ⟨out.head he⟩
    let F : Nat → α := fun i => (out[i]?).getD (out.head he)
    have hk : ∀ x ∈ List.range out.length, body x = some (F x) := by
      intro x hx
      have hx := List.mem_range.1 hx
      rw [h x hx]
      simp [F, hx]
    rw [pushLoop, fold_push body F _ _ hk, List.nil_append]
    congr 1
    refine List.ext_getElem (by simp) fun i h1 h2 => ?_
    simp [F, h2]

theorem blend_eq (hs : SameShape base active) (pix : Int → Int → Option Int) (f : Int → Int → Int) (hp : Pixels base active fun b a => pix b a = some (f b a)) :
    blend (both pix) base active = some (zz f base active) := by
  obtain ⟨n, h1, h2⟩ := hs.width
  have hc := hs.count
  obtain ⟨r, R, rfl⟩ : ∃ r R, base = r :: R := by
    cases base with
    | nil => exact absurd rfl hs.rows
    | cons r R => exact ⟨r, R, rfl⟩
  have hr : r.length = n := h1 r (by simp)
  have hl : (zz f (r :: R) active).length = (r :: R).length := by
    rw [zz, List.length_zipWith]; omega
  show (pushLoop (r :: R).length fun row => pushLoop r.length fun col => both pix (at2 (r :: R) row col) (at2 active row col)) = _
  rw [← hl]
  refine pushLoop_eq _ _ fun i hi => ?_
  have hi1 : i < (r :: R).length := by rw [← hl]; exact hi
  have hi2 : i < active.length := by omega
  have e : (zz f (r :: R) active)[i] = List.zipWith f (r :: R)[i] active[i] := by simp [zz]
  have w1 := h1 _ (List.getElem_mem hi1)
  have w2 := h2 _ (List.getElem_mem hi2)
  rw [e, show r.length = (List.zipWith f (r :: R)[i] active[i]).length by rw [List.length_zipWith, w1, w2, hr]; omega]
  refine pushLoop_eq _ _ fun j hj => ?_
  have hj' : j < n := by rw [List.length_zipWith, w1, w2] at hj; omega
  have a1 : at2 (r :: R) i j = some ((r :: R)[i][j]'(by omega)) := by
    rw [at2, List.getElem?_eq_getElem hi1, Option.bind_some, List.getElem?_eq_getElem]
  have a2 : at2 active i j = some (active[i][j]'(by omega)) := by
    rw [at2, List.getElem?_eq_getElem hi2, Option.bind_some, List.getElem?_eq_getElem]
  rw [a1, a2, List.getElem_zipWith]
  exact hp i j _ _ a1 a2

theorem pyDiv_32 (a : Int) : pyDiv a 32 = some (a.fdiv 32) := by simp [pyDiv]
theorem cDiv_pos {a b : Int} (ha : 0 ≤ a) (hb : 0 < b) : cDiv a b = some (a.fdiv b) := by
  rw [cDiv, if_neg (by omega), Int.tdiv_eq_ediv_of_nonneg ha, Int.fdiv_eq_ediv_of_nonneg _ (by omega)]
theorem pyDiv_pos (a : Int) {b : Int} (hb : 0 < b) : pyDiv a b = some (a.fdiv b) := by
  rw [pyDiv, if_neg (by omega)]

/-- C79, for the benchmarks whose solutions are right on all inputs: the solution returns what the benchmark returns. -/
theorem C79_exact (hs : SameShape base active) :
    (∃ out, darken base active = some out ∧ blend (both darkenPix) base active = some out) ∧
    (∃ out, lighten base active = some out ∧ blend (both lightenPix) base active = some out) ∧
    (∃ out, linearBurn base active = some out ∧ blend (both linearBurnPix) base active = some out) ∧
    (∃ out, linearDodge base active = some out ∧ blend (both linearDodgePix) base active = some out) := by
  refine ⟨⟨zz (fun b a => if b > a then a else b) base active, zz0 hs _ _ ?_, blend_eq hs _ _ ?_⟩,
    ⟨zz (fun b a => if b < a then a else b) base active, zz0 hs _ _ ?_, blend_eq hs _ _ ?_⟩,
    ⟨zz (fun b a => b + a - 32) base active, ?_, blend_eq hs _ _ ?_⟩, ⟨zz (fun b a => b + a) base active, zz0 hs _ _ ?_, blend_eq hs _ _ ?_⟩⟩
  · intro _ _ b a _ _; simp [iteInt]
  · intro _ _ b a _ _; rfl
  · intro _ _ b a _ _; simp [iteInt]
  · intro _ _ b a _ _; rfl
  · rw [linearBurn, matAdd, vecAdd, zz0 hs _ (fun b a => b + a) (fun _ _ _ _ _ _ => rfl), Option.bind_some]
    exact zz1 _ _ _ fun _ _ _ _ _ _ => rfl
  · intro _ _ b a _ _; rfl
  · intro _ _ b a _ _; rfl
  · intro _ _ b a _ _; rfl

/-- C79, for the benchmarks on vectors: all vectors of the same length and all opacities. -/
theorem C79_normal (base active : Vec) (opacity : Int) (h : base.length = active.length) :
    (∃ out, normalF base active opacity = some out ∧ normalC 1 base active opacity = some out) ∧
    (∃ out, normal8 base active opacity = some out ∧ normalC 32 base active opacity = some out) := by
  have key : ∀ full : Int, ((vecScalarMul opacity active).bind fun x => (vecScalarMul (full - opacity) base).bind fun y => vecAdd x y) =
      some (List.zipWith (fun b a => opacity * a + (full - opacity) * b) base active) := by
    intro full
    have h1 := mapE_fuse (fun a => some (opacity * a)) (fun _ a => a) (fun _ a => opacity * a) base active (fun _ _ => rfl)
    have h2 := mapE_fuse (fun a => some ((full - opacity) * a)) (fun b _ => b) (fun b _ => (full - opacity) * b) base active (fun _ _ => rfl)
    rw [zip_snd base active h] at h1
    rw [zip_fst base active h] at h2
    rw [vecScalarMul, vecScalarMul, h1, h2]
    exact zipE_fuse _ _ _ _ base active fun _ _ => rfl
  have hc : ∀ full : Int, normalC full base active opacity = some (List.zipWith (fun b a => opacity * a + (full - opacity) * b) base active) := by
    intro full
    have hl : (List.zipWith (fun b a => opacity * a + (full - opacity) * b) base active).length = base.length := by rw [List.length_zipWith]; omega
    rw [normalC, ← hl]
    refine pushLoop_eq _ _ fun i hi => ?_
    have h1 : i < base.length := by omega
    have h2 : i < active.length := by omega
    simp [h1, h2]
  exact ⟨⟨_, key 1, hc 1⟩, ⟨_, key 32, hc 32⟩⟩

/-- C79 for `multiply_blend_8`, if no product is negative. -/
theorem C79_multiply_partial (hs : SameShape base active) (hp : Pixels base active fun b a => 0 ≤ b * a) :
    ∃ out, multiply base active = some out ∧ blend (both multiplyPix) base active = some out := by
  refine ⟨zz (fun b a => (b * a).fdiv 32) base active, ?_, blend_eq hs _ _ fun i j b a h1 h2 => cDiv_pos (hp i j b a h1 h2) (by omega)⟩
  rw [multiply, matMul, vecMul, zz0 hs _ (fun b a => b * a) (fun _ _ _ _ _ _ => rfl), Option.bind_some]
  exact zz1 _ _ _ fun _ _ b a _ _ => pyDiv_32 _

/-- C79 for `screen_blend_8`, if no product is negative. -/
theorem C79_screen_partial (hs : SameShape base active) (hp : Pixels base active fun b a => 0 ≤ b * a) :
    ∃ out, screen base active = some out ∧ blend (both screenPix) base active = some out := by
  refine ⟨zz (fun b a => b + a - (b * a).fdiv 32) base active, ?_, blend_eq hs _ _ fun i j b a h1 h2 => ?_⟩
  · have e : ∀ p, matScalarDiv 32 p = mapE (mapE fun a => pyDiv a 32) p := fun _ => rfl
    rw [screen, matAdd, vecAdd, matMul, vecMul, zz0 hs _ (fun b a => b + a) (fun _ _ _ _ _ _ => rfl), zz0 hs _ (fun b a => b * a) (fun _ _ _ _ _ _ => rfl), Option.bind_some,
      Option.bind_some, e, zz1 (fun a => pyDiv a 32) (fun b a => b * a) (fun b a => (b * a).fdiv 32) fun _ _ b a _ _ => pyDiv_32 _, Option.bind_some]
    exact zz2 _ _ _ _ fun _ _ _ _ _ _ => rfl
  · simp [screenPix, cDiv_pos (hp i j b a h1 h2) (show (0 : Int) < 32 by omega)]

/-- C79 for `color_burn_8`, if `active` is positive and `base` is at most 32. -/
theorem C79_color_burn_partial (hs : SameShape base active) (hp : Pixels base active fun b a => b ≤ 32 ∧ 0 < a) :
    ∃ out, colorBurn base active = some out ∧ blend (both colorBurnPix) base active = some out := by
  refine ⟨zz (fun b a => 32 - (32 - b).fdiv a) base active, zz0 hs _ _ fun i j b a h1 h2 => ?_, blend_eq hs _ _ fun i j b a h1 h2 => ?_⟩
  · have h := hp i j b a h1 h2
    have ha : (a == 0) = false := by simpa using (by omega : a ≠ 0)
    simp [iteInt, ha, pyDiv_pos _ h.2]
  · have h := hp i j b a h1 h2
    simp [colorBurnPix, show a ≠ 0 by omega, cDiv_pos (show 0 ≤ 32 - b by omega) h.2]

/-- C79 for `color_dodge_8`, if `active` is less than 32 and `base` is not negative. -/
theorem C79_color_dodge_partial (hs : SameShape base active) (hp : Pixels base active fun b a => 0 ≤ b ∧ a < 32) :
    ∃ out, colorDodge base active = some out ∧ blend (both colorDodgePix) base active = some out := by
  refine ⟨zz (fun b a => b.fdiv (32 - a)) base active, ?_, blend_eq hs _ _ fun i j b a h1 h2 => ?_⟩
  · have e1 := zz1 (fun a => some (32 - a)) (fun _ a => a) (fun _ a => 32 - a) (base := base) (active := active) fun _ _ _ _ _ _ => rfl
    rw [zz_active hs] at e1
    have e2 := zz2 pyDiv (fun b _ => b) (fun _ a => 32 - a) (fun b a => b.fdiv (32 - a)) (base := base) (active := active)
      fun i j b a h1 h2 => pyDiv_pos b (by have := hp i j b a h1 h2; omega)
    rw [zz_base hs] at e2
    have e3 := zz2 (fun a b => iteInt (a == 32) (some 32) (some b)) (fun _ a => a) (fun b a => b.fdiv (32 - a)) (fun b a => b.fdiv (32 - a)) (base := base) (active := active)
      fun i j b a h1 h2 => by
        have h := hp i j b a h1 h2
        have ha : (a == 32) = false := by simpa using (by omega : a ≠ 32)
        simp [iteInt, ha]
    rw [zz_active hs] at e3
    have d1 : ∀ p, scalarMatSub 32 p = mapE (mapE fun a => some (32 - a)) p := fun _ => rfl
    have d2 : ∀ p q, matDiv p q = zipE (zipE pyDiv) p q := fun _ _ => rfl
    rw [colorDodge, d1, e1, Option.bind_some, d2, e2, Option.bind_some]
    exact e3
  · have h := hp i j b a h1 h2
    simp [colorDodgePix, show a ≠ 32 by omega, cDiv_pos h.1 (show 0 < 32 - a by omega)]

/-- C79 for `dissolve_blend_8`, if the random number is not negative. -/
theorem C79_dissolve_partial (hs : SameShape base active) (opacity rand : Int) (hr : 0 ≤ rand) :
    ∃ out, dissolve base active opacity rand = some out ∧ blend (both (dissolvePix opacity rand)) base active = some out := by
  have hm : rand.tmod 100 = rand.fmod 100 := by
    rw [Int.tmod_eq_emod_of_nonneg hr, Int.fmod_eq_emod_of_nonneg _ (by omega)]
  have h0 : 0 ≤ rand.fmod 100 := by
    rw [Int.fmod_eq_emod_of_nonneg _ (by omega)]; omega
  refine ⟨zz (fun b a => if opacity - (rand.fmod 100 + 1).fdiv 100 ≥ 0 then a else b) base active, zz0 hs _ _ fun i j b a _ _ => ?_, blend_eq hs _ _ fun i j b a _ _ => ?_⟩
  · simp [pyDiv_pos _ (show (0 : Int) < 100 by omega)]
  · simp [dissolvePix, hm, cDiv_pos (show 0 ≤ rand.fmod 100 + 1 by omega) (show (0 : Int) < 100 by omega)]

theorem sq_nonneg' (x : Int) : 0 ≤ 2 * x * x := by
  have : 0 ≤ x * x := by
    rcases Int.le_total 0 x with h | h
    · exact Int.mul_nonneg h h
    · exact Int.mul_nonneg_of_nonpos_of_nonpos h h
  rw [Int.mul_assoc]; omega

/-- C79 for `overlay_blend_8`, if no element of `base` is between 16 and 127. -/
theorem C79_overlay_partial (hs : SameShape base active) (hp : Pixels base active fun b _ => b < 16 ∨ 128 ≤ b) :
    ∃ out, overlay base active = some out ∧ blend (both overlayPix) base active = some out := by
  refine ⟨zz (fun b _ => if b ≥ 128 then 2 * b + b - (2 * b * b).fdiv 32 - 32 else (2 * b * b).fdiv 32) base active, zz0 hs _ _ fun i j b a _ _ => ?_,
    blend_eq hs _ _ fun i j b a h1 h2 => ?_⟩
  · simp [pyDiv_32, iteInt]
  · simp only [overlayPix, cDiv_pos (sq_nonneg' b) (show (0 : Int) < 32 by omega)]
    rcases hp i j b a h1 h2 with h | h
    · rw [if_neg (by omega), if_neg (by omega)]
    · rw [if_pos (by omega), if_pos (by omega)]; rfl

/-! ### Refutations -/

/-- C79 fails for `overlay_blend_8`: every element of `base` from 16 to 127 gets another number than in the benchmark, whose boundary is 16 and not 128. -/
theorem C79_overlay_refuted (b a : Int) (h1 : 16 ≤ b) (h2 : b < 128) :
    ∃ p q, overlay [[b]] [[a]] = some [[p]] ∧ blend (both overlayPix) [[b]] [[a]] = some [[q]] ∧ p ≠ q := by
  have hc := cDiv_pos (sq_nonneg' b) (show (0 : Int) < 32 by omega)
  refine ⟨(2 * b * b).fdiv 32, 2 * b + b - (2 * b * b).fdiv 32 - 32, ?_, ?_, ?_⟩
  · simp [overlay, matSel, zipE, iteInt, pyDiv_32, show ¬ b ≥ 128 by omega]
  · simp [blend, pushLoop, List.range, List.range.loop, at2, both, overlayPix, hc, h1]
  · rw [Int.fdiv_eq_ediv_of_nonneg _ (by omega)]
    have e : 0 ≤ (b - 12) * (b - 12) := by
      rcases Int.le_total 0 (b - 12) with h | h
      · exact Int.mul_nonneg h h
      · exact Int.mul_nonneg_of_nonpos_of_nonpos h h
    have e' : (b - 12) * (b - 12) = b * b - 24 * b + 144 := by
      rw [Int.sub_mul, Int.mul_sub, Int.mul_sub]; omega
    rw [Int.mul_assoc]
    omega

/-- C79 fails for `color_burn_8` and `color_dodge_8`: where the benchmark takes the other branch, the solution divides by zero. -/
theorem C79_zero_refuted (b : Int) :
    colorBurn [[b]] [[0]] = none ∧ blend (both colorBurnPix) [[b]] [[0]] = some [[32]] ∧
    colorDodge [[b]] [[32]] = none ∧ blend (both colorDodgePix) [[b]] [[32]] = some [[32]] := by
  refine ⟨by simp [colorBurn, matSel, zipE, iteInt, pyDiv], by simp [blend, pushLoop, List.range, List.range.loop, at2, both, colorBurnPix], ?_,
    by simp [blend, pushLoop, List.range, List.range.loop, at2, both, colorDodgePix]⟩
  simp [colorDodge, scalarMatSub, scalarVecSub, mapE, matDiv, vecDiv, zipE, pyDiv]

/-- C79 fails for negative numbers: divisions are rounded in different directions. -/
theorem C79_negative_refuted : (multiply [[-1]] [[1]] = some [[-1]] ∧ blend (both multiplyPix) [[-1]] [[1]] = some [[0]]) ∧
    (screen [[-1]] [[1]] = some [[1]] ∧ blend (both screenPix) [[-1]] [[1]] = some [[0]]) ∧
    (dissolve [[3]] [[4]] 0 (-1) = some [[3]] ∧ blend (both (dissolvePix 0 (-1))) [[3]] [[4]] = some [[4]]) := by
  decide +kernel

/-- C79 fails for the invariant of `screen_blend_8`: between the first and the last row it requires the output to be empty. -/
theorem C79_screen_invariant_refuted (hs : SameShape base active) (row : Nat) (h0 : 0 < row) (h1 : row < base.length) : screenInv base active row = some [] := by
  have e : ∀ p, matScalarDiv 32 p = mapE (mapE fun a => pyDiv a 32) p := fun _ => rfl
  have ht : SameShape (base.take row) (active.take row) := by
    obtain ⟨n, a1, a2⟩ := hs.width
    refine ⟨?_, by simp [hs.count], n, fun r h => a1 r (List.mem_of_mem_take h), fun r h => a2 r (List.mem_of_mem_take h)⟩
    intro h
    have := congrArg List.length h
    simp only [List.length_take, List.length_nil] at this
    omega
  rw [screenInv, matAdd, vecAdd, matMul, vecMul, zz0 hs _ (fun b a => b + a) (fun _ _ _ _ _ _ => rfl), zz0 ht _ (fun b a => b * a) (fun _ _ _ _ _ _ => rfl), Option.bind_some,
    Option.bind_some, e, zz1 (fun a => pyDiv a 32) (fun b a => b * a) (fun b a => (b * a).fdiv 32) fun _ _ b a _ _ => pyDiv_32 _, Option.bind_some]
  have hc := hs.count
  generalize hS : zz (fun b a => b + a) base active = s
  generalize hQ : zz (fun b a => (b * a).fdiv 32) (base.take row) (active.take row) = q
  have l1 : s.length = base.length := by rw [← hS, zz, List.length_zipWith]; omega
  have l2 : q.length = row := by rw [← hQ, zz, List.length_zipWith, List.length_take, List.length_take]; omega
  cases s with
  | nil => simp [matSub, zipE]
  | cons x s =>
    cases q with
    | nil => simp [matSub, zipE]
    | cons y q =>
      simp only [List.length_cons] at l1 l2
      rw [matSub, zipE, if_neg (by omega)]

/-! ### Examples -/

/-- The hypotheses of all theorems above, and three results. -/
theorem C79_example : SameShape [[30, 20], [10, 5]] [[2, 4], [8, 10]] ∧ (Pixels [[30, 20], [10, 5]] [[2, 4], [8, 10]] fun b a => 0 ≤ b * a ∧ b ≤ 32 ∧ 0 < a ∧ 0 ≤ b ∧ a < 32) ∧
    colorBurn [[30, 20], [10, 5]] [[2, 4], [8, 10]] = some [[31, 29], [30, 30]] ∧ colorDodge [[30, 20], [10, 5]] [[2, 4], [8, 10]] = some [[1, 0], [0, 0]] ∧
    screen [[30, 20], [10, 5]] [[2, 4], [8, 10]] = some [[31, 22], [16, 14]] := by
  refine ⟨⟨by simp, by simp, 2, by simp, by simp⟩, ?_, by decide +kernel, by decide +kernel, by decide +kernel⟩
  intro row col b a h1 h2
  match row, col with
  | 0, 0 => simp [at2] at h1 h2; subst h1; subst h2; decide
  | 0, 1 => simp [at2] at h1 h2; subst h1; subst h2; decide
  | 1, 0 => simp [at2] at h1 h2; subst h1; subst h2; decide
  | 1, 1 => simp [at2] at h1 h2; subst h1; subst h2; decide
  | 0, n + 2 => simp [at2] at h1
  | 1, n + 2 => simp [at2] at h1
  | n + 2, _ => simp [at2] at h1

end Metalift.Sols
