import Verif.NumpyParse
/-
The library functions of the tensor language and their NumPy translations compute the same values.
-/
namespace Metalift.Np
open Metalift Py Metalift.Ten

/-! ### Element-wise operations -/

theorem mapO_map {α β γ : Type} {f : α → Option β} {g : γ → α} {h : γ → β} : ∀ {xs : List γ}, (∀ x ∈ xs, f (g x) = some (h x)) →
    mapO f (xs.map g) = some (xs.map h)
  | [], _ => rfl
  | x :: xs, H => by
    rw [List.map_cons, mapO, H x (List.mem_cons_self ..), Option.bind_some, mapO_map fun y hy => H y (List.mem_cons_of_mem _ hy)]
    rfl

theorem zipO_map {α β γ δ ε ζ : Type} {f : α → β → Option γ} {g : δ → α} {g' : ε → β} {h : ζ → γ} {op : δ → ε → ζ} :
    ∀ {xs : List δ} {ys : List ε}, xs.length = ys.length → (∀ p ∈ xs.zip ys, f (g p.1) (g' p.2) = some (h (op p.1 p.2))) →
      zipO f (xs.map g) (ys.map g') = some ((List.zipWith op xs ys).map h)
  | [], [], _, _ => rfl
  | [], _ :: _, hl, _ => by simp at hl
  | _ :: _, [], hl, _ => by simp at hl
  | x :: xs, y :: ys, hl, H => by
    rw [List.map_cons, List.map_cons, zipO, H (x, y) (List.mem_cons_self ..), Option.bind_some,
      zipO_map (by simpa using hl) fun p hp => H p (List.mem_cons_of_mem _ hp)]
    rfl

theorem mem_zipWith {α β γ : Type} (op : α → β → γ) : ∀ {xs : List α} {ys : List β} {p : α × β}, p ∈ xs.zip ys → op p.1 p.2 ∈ List.zipWith op xs ys
  | [], _, _, h => by simp at h
  | _ :: _, [], _, h => by simp at h
  | x :: xs, y :: ys, p, h => by
    simp only [List.zip_cons_cons, List.mem_cons] at h
    rcases h with rfl | h
    · exact List.mem_cons_self ..
    · exact List.mem_cons_of_mem _ (mem_zipWith op h)

theorem ints_map : ∀ xs : List Int, intss (xs.map Val.int) = xs
  | [] => rfl
  | x :: xs => by rw [List.map_cons, intss, ints, ints_map xs]; rfl
theorem ints_vecV (xs : List Int) : ints (vecV xs) = xs := ints_map xs
theorem ints_matV (m : List (List Int)) : ints (matV m) = m.flatten := by
  show intss (m.map vecV) = _
  induction m with
  | nil => rfl
  | cons r m ih => rw [List.map_cons, intss, ints_vecV, ih]; rfl

theorem vecV_asList (xs : List Int) : (vecV xs).asList = xs.map .int := rfl
theorem matV_asList (m : List (List Int)) : (matV m).asList = m.map vecV := rfl
theorem rowLens_matV (m : List (List Int)) : rowLens (matV m) = m.map List.length := by
  simp [rowLens, matV_asList, vecV_asList, Function.comp_def]
theorem matV_ne {m : List (List Int)} (h : (matV m).asList ≠ []) : m ≠ [] := by
  rintro rfl
  exact h rfl

/-- The operation on integers. -/
def AOp.op (I : Interp) : AOp → Int → Int → Int
  | .add => (· + ·)
  | .sub => (· - ·)
  | .mul => (· * ·)
  | .div => I.idiv

theorem arith_ok {I : Interp} (hI : NpModel I) {w : Int → Int} {o : AOp} {x y : Int} (hd : o = .div → 0 ≤ x ∧ 0 < y) (hw : w (o.op I x y) = o.op I x y) :
    arith w o.bin (.int x) (.int y) = some (.int (o.op I x y)) := by
  cases o with
  | add => exact congrArg (fun i => some (Sc.int i)) hw
  | sub => exact congrArg (fun i => some (Sc.int i)) hw
  | mul => exact congrArg (fun i => some (Sc.int i)) hw
  | div =>
    obtain ⟨h0, h1⟩ := hd rfl
    have he : (if y = 0 then 0 else Int.fdiv x y) = I.idiv x y := by
      rw [if_neg (by omega), hI.div x y h0 h1, Int.fdiv_eq_ediv_of_nonneg _ (by omega)]
    show some (Sc.int (w (if y = 0 then 0 else Int.fdiv x y))) = _
    rw [he]
    exact congrArg (fun i => some (Sc.int i)) hw

theorem bcast_eq {α β γ : Type} {f : α → β → Option γ} {as : List α} {bs : List β} (h : as.length = bs.length) :
    bcast f as bs = zipO f as bs := if_pos h

theorem bcols_self (c : Nat) : bcols c c = some c := if_pos rfl

/-- Two vectors of the same length. -/
theorem zip_vec {f : Sc → Sc → Option Sc} {op : Int → Int → Int} {xs ys : List Int} (hl : xs.length = ys.length)
    (H : ∀ p ∈ xs.zip ys, f (.int p.1) (.int p.2) = some (.int (op p.1 p.2))) :
    bcast f (xs.map .int) (ys.map .int) = some ((List.zipWith op xs ys).map .int) := by
  rw [bcast_eq (by simpa using hl)]
  exact zipO_map hl H

theorem rows_of_lens {m n : List (List Int)} {c d : Nat} (hm : ∀ r ∈ m, r.length = c) (hn : ∀ r ∈ n, r.length = d) (hne : m ≠ [])
    (h : m.map List.length = n.map List.length) : m.length = n.length ∧ c = d := by
  have hl : m.length = n.length := by simpa using congrArg List.length h
  refine ⟨hl, ?_⟩
  cases m with
  | nil => exact absurd rfl hne
  | cons r m =>
    cases n with
    | nil => simp at hl
    | cons s n =>
      simp only [List.map_cons, List.cons.injEq] at h
      rw [← hm r (List.mem_cons_self ..), ← hn s (List.mem_cons_self ..), h.1]

/-- Two matrices of the same shape. -/
theorem zip_mat {α : Type} {f : Sc → Sc → Option α} {β : Type} {op : Int → Int → β} {g : β → α} {m n : List (List Int)} {c : Nat} (hl : m.length = n.length)
    (hm : ∀ r ∈ m, r.length = c) (hn : ∀ r ∈ n, r.length = c)
    (H : ∀ rs ∈ m.zip n, ∀ p ∈ rs.1.zip rs.2, f (.int p.1) (.int p.2) = some (g (op p.1 p.2))) :
    Arr.zip f (.a2 c (m.map fun r => r.map .int)) (.a2 c (n.map fun r => r.map .int)) =
      some (.a2 c ((List.zipWith (List.zipWith op) m n).map fun r => r.map g)) := by
  show ((bcols c c).bind fun k => (bcast (bcast f) _ _).map (Arr.a2 k)) = _
  rw [bcols_self, Option.bind_some, bcast_eq (by simpa using hl),
    zipO_map (h := fun r : List β => r.map g) (op := List.zipWith op) hl]
  · rfl
  · intro rs hrs
    have h1 := hm _ (List.of_mem_zip hrs).1
    have h2 := hn _ (List.of_mem_zip hrs).2
    rw [bcast_eq (by simp [h1, h2])]
    exact zipO_map (by rw [h1, h2]) (H rs hrs)

theorem sameShape {m n : List (List Int)} {c : Nat} (hc : 1 ≤ c) : m.length = n.length → (∀ r ∈ m, r.length = c) → (∀ r ∈ n, r.length = c) → SameShape m n := by
  intro hl hm hn
  induction m generalizing n with
  | nil =>
    cases n with
    | nil => exact .nil
    | cons s n => simp at hl
  | cons r m ih =>
    cases n with
    | nil => simp at hl
    | cons s n =>
      have h1 := hm r (List.mem_cons_self ..)
      have h2 := hn s (List.mem_cons_self ..)
      refine .cons ⟨?_, by rw [h1, h2]⟩ (ih (by simpa using hl) (fun r hr => hm r (List.mem_cons_of_mem _ hr))
        (fun r hr => hn r (List.mem_cons_of_mem _ hr)))
      rintro rfl
      simp at h1
      omega

theorem zipWith_rows {β : Type} {op : Int → Int → β} {m n : List (List Int)} {c : Nat} (hm : ∀ r ∈ m, r.length = c) (hn : ∀ r ∈ n, r.length = c) :
    ∀ r ∈ List.zipWith (List.zipWith op) m n, r.length = c := by
  intro r hr
  obtain ⟨i, hi, rfl⟩ := List.getElem_of_mem hr
  rw [List.getElem_zipWith, List.length_zipWith, hm _ (List.getElem_mem _), hn _ (List.getElem_mem _), Nat.min_self]

/-! ### Meaning of the functions -/

/-- What the function computes in the tensor language, from `C31`. -/
def Fn.Meaning (I : Interp) (f : String) : Fn → Prop
  | .vzip o => ∀ xs ys, I.fn f [vecV xs, vecV ys] = vecV (zipIf (o.op I) xs ys)
  | .mzip o => ∀ ms ns, SameShape ms ns → I.fn f [matV ms, matV ns] = matV (List.zipWith (List.zipWith (o.op I)) ms ns)
  | .vsc o swap => ∀ s xs, I.fn f [.int s, vecV xs] = vecV (xs.map fun x => if swap then o.op I x s else o.op I s x)
  | .msc o swap => ∀ s ms, (∀ r ∈ ms, r ≠ []) →
      I.fn f [.int s, matV ms] = matV (ms.map fun r => r.map fun x => if swap then o.op I x s else o.op I s x)
  | .mvm => ∀ ms v, (∀ r ∈ ms, r ≠ [] ∧ r.length = v.length) →
      I.fn f [matV ms, vecV v] = vecV (ms.map (fun r => (List.zipWith (· * ·) r v).sum))
  | .get _ => ∀ (vs : List Val) (n : Int) (v : Val), 0 ≤ n → vs[n.toNat]? = some v → I.fn f [.list vs, .int n] = v
  | .append _ => ∀ vs v, I.fn f [.list vs, v] = .list (vs ++ [v])
  | .take _ => ∀ (vs : List Val) (n : Int), 0 ≤ n → n ≤ vs.length → I.fn f [.list vs, .int n] = .list (vs.take n.toNat)
  | .mtail => ∀ (vs : List Val) (n : Int), 0 ≤ n → n ≤ vs.length → I.fn f [.list vs, .int n] = .list (vs.drop n.toNat)
  | .slice _ => ∀ (vs : List Val) (a b : Int), 0 ≤ a → a ≤ b → b ≤ vs.length →
      I.fn f [.list vs, .int a, .int b] = .list ((vs.take b.toNat).drop a.toNat)
  | .sliceLen _ => ∀ (vs : List Val) (a n : Int), 0 ≤ a → 0 ≤ n → a + n ≤ vs.length →
      I.fn f [.list vs, .int a, .int n] = .list ((vs.drop a.toNat).take n.toNat)
  | .cslice => ∀ (m : List (List Int)) (a b : Int), 0 ≤ a → a < b → (∀ r ∈ m, b ≤ r.length) →
      I.fn f [matV m, .int a, .int b] = matV (m.map fun r => (r.take b.toNat).drop a.toNat)
  | .csliceLen => ∀ (m : List (List Int)) (a n : Int), 0 ≤ a → 0 < n → (∀ r ∈ m, a + n ≤ r.length) →
      I.fn f [matV m, .int a, .int n] = matV (m.map fun r => (r.drop a.toNat).take n.toNat)
  | .size => ∀ vs, I.fn f [.list vs] = .int vs.length
  | .transpose => ∀ (m : List (List Int)) (c : Nat), m ≠ [] → 1 ≤ c → (∀ r ∈ m, r.length = c) →
      I.fn f [matV m] = matV ((List.range c).map fun j => m.map fun r => r.getD j 0)
  | .rmax => ∀ xs, xs ≠ [] → ∃ m, I.fn f [vecV xs] = .int m ∧ IsMax m xs
  | .rsum => ∀ xs, I.fn f [vecV xs] = .int xs.sum
  | .rmul => ∀ xs, I.fn f [vecV xs] = .int (xs.foldr (· * ·) 1)
  | .empty _ => I.fn f [] = .list []

theorem fn_meaning {I : Interp} (hI : NpModel I) {f : String} {F : Fn} (hF : fnTable.lookup f = some F) : F.Meaning I f := by
  have hm := mem_of_lookup hF
  clear hF
  simp only [fnTable, List.mem_cons, Prod.mk.injEq, List.not_mem_nil, or_false] at hm
  have V := C31_vectors I hI.model
  have M := C31_matrices_partial I hI.model
  have S := C31_scalar_matrices_partial I hI.model
  have R := C31_reductions I hI.model
  have P := hI.model.prims
  rcases hm with ⟨rfl, rfl⟩ | ⟨rfl, rfl⟩ | ⟨rfl, rfl⟩ | ⟨rfl, rfl⟩ | ⟨rfl, rfl⟩ | ⟨rfl, rfl⟩ | ⟨rfl, rfl⟩ | ⟨rfl, rfl⟩ | ⟨rfl, rfl⟩ | ⟨rfl, rfl⟩ |
    ⟨rfl, rfl⟩ | ⟨rfl, rfl⟩ | ⟨rfl, rfl⟩ | ⟨rfl, rfl⟩ | ⟨rfl, rfl⟩ | ⟨rfl, rfl⟩ | ⟨rfl, rfl⟩ | ⟨rfl, rfl⟩ | ⟨rfl, rfl⟩ | ⟨rfl, rfl⟩ |
    ⟨rfl, rfl⟩ | ⟨rfl, rfl⟩ | ⟨rfl, rfl⟩ | ⟨rfl, rfl⟩ | ⟨rfl, rfl⟩ | ⟨rfl, rfl⟩ | ⟨rfl, rfl⟩ | ⟨rfl, rfl⟩ | ⟨rfl, rfl⟩ | ⟨rfl, rfl⟩ |
    ⟨rfl, rfl⟩ | ⟨rfl, rfl⟩ | ⟨rfl, rfl⟩ | ⟨rfl, rfl⟩ | ⟨rfl, rfl⟩ | ⟨rfl, rfl⟩ | ⟨rfl, rfl⟩ | ⟨rfl, rfl⟩ | ⟨rfl, rfl⟩ | ⟨rfl, rfl⟩ | ⟨rfl, rfl⟩
  · exact fun xs ys => (V xs ys 0).1
  · exact fun xs ys => (V xs ys 0).2.1
  · exact fun xs ys => (V xs ys 0).2.2.1
  · exact fun xs ys => (V xs ys 0).2.2.2.1
  · exact fun ms ns h => (M ms ns h).1
  · exact fun ms ns h => (M ms ns h).2.1
  · exact fun ms ns h => (M ms ns h).2.2.1
  · exact fun ms ns h => (M ms ns h).2.2.2
  · exact fun s xs => (V xs [] s).2.2.2.2.1
  · exact fun s xs => (V xs [] s).2.2.2.2.2.1
  · exact fun s xs => (V xs [] s).2.2.2.2.2.2.1
  · exact fun s xs => (V xs [] s).2.2.2.2.2.2.2.1
  · exact fun s xs => (V xs [] s).2.2.2.2.2.2.2.2.1
  · exact fun s xs => (V xs [] s).2.2.2.2.2.2.2.2.2
  · exact fun s ms h => (S s ms h).1
  · exact fun s ms h => (S s ms h).2.1
  · exact fun s ms h => (S s ms h).2.2.1
  · exact fun s ms h => (S s ms h).2.2.2.1
  · exact fun s ms h => (S s ms h).2.2.2.2.1
  · exact fun s ms h => (S s ms h).2.2.2.2.2
  · exact fun ms v => (C31_matrix_vec_mul I hI.model ms v).1
  · exact P.list.get
  · exact P.matrix.get
  · exact P.list.app
  · exact P.matrix.app
  · exact P.list.take
  · exact P.matrix.take
  · exact P.matrix.tail
  · exact P.list.slice
  · exact P.matrix.slice
  · exact P.list.sliceLen
  · exact P.matrix.sliceLen
  · exact hI.colSlice
  · exact hI.colSliceLen
  · exact P.list.len
  · exact hI.transpose
  · exact fun xs h => (R xs).2.2.2 h
  · exact fun xs => (R xs).1
  · exact fun xs => (R xs).2.1
  · exact P.list.emp
  · exact P.matrix.emp

/-! ### Evaluation -/

theorem evalArgs_pos {w : Int → Int} {η : String → Option NV} {a : Ast} {v : NV} (h : eval w η a = some v) (as : List Ast) :
    evalArgs w η (a :: as) = (evalArgs w η as).bind fun vs => some (v :: vs.1, vs.2) := by
  have hk : ∀ s b, a ≠ .kwarg s b := by
    rintro s b rfl
    rw [eval] at h
    cases h
  rw [evalArgs, h, Option.bind_some]
  exact hk

theorem eval_np {w : Int → Int} {η : String → Option NV} (hη : η "np" = none) (f : String) (as : List Ast) :
    eval w η (npAst f as) = (evalArgs w η as).bind fun vs => npFn w f vs.1 vs.2 := by
  rw [npAst, eval, hη]

theorem eval_np1 {w : Int → Int} {η : String → Option NV} (hη : η "np" = none) (f : String) {a : Ast} {v : NV} (h : eval w η a = some v) :
    eval w η (npAst f [a]) = npFn w f [v] [] := by
  rw [eval_np hη, evalArgs_pos h]; rfl

theorem eval_np2 {w : Int → Int} {η : String → Option NV} (hη : η "np" = none) (f : String) {a b : Ast} {u v : NV} (h : eval w η a = some u)
    (h' : eval w η b = some v) : eval w η (npAst f [a, b]) = npFn w f [u, v] [] := by
  rw [eval_np hη, evalArgs_pos h, evalArgs_pos h']; rfl

theorem eval_np3 {w : Int → Int} {η : String → Option NV} (hη : η "np" = none) (f : String) {a b c : Ast} {u v x : NV} (h : eval w η a = some u)
    (h' : eval w η b = some v) (h'' : eval w η c = some x) : eval w η (npAst f [a, b, c]) = npFn w f [u, v, x] [] := by
  rw [eval_np hη, evalArgs_pos h, evalArgs_pos h', evalArgs_pos h'']; rfl

theorem eval_npk {w : Int → Int} {η : String → Option NV} (hη : η "np" = none) (f : String) {a : Ast} {v : NV} (h : eval w η a = some v) :
    eval w η (npAst f [a, .kwarg "axis" (.num 0)]) = npFn w f [v] [("axis", .arr (.sc (.int 0)))] := by
  rw [eval_np hη, evalArgs_pos h]; rfl

theorem eval_bin {w : Int → Int} {η : String → Option NV} {a b : Ast} {x y z : Arr Sc} {o : BinOp} (h : eval w η a = some (.arr x)) (h' : eval w η b = some (.arr y))
    (hz : binOp w o x y = some z) : eval w η (.bin o a b) = some (.arr z) := by
  rw [eval, h, Option.bind_some, h', Option.bind_some]
  show ((binOp w o x y).map NV.arr) = _
  rw [hz]; rfl

/-- The arguments evaluate to representations of the values. -/
inductive ArgsEval (w : Int → Int) (η : String → Option NV) : List (K × Nat) → List Ast → List Val → Prop where
  | nil : ArgsEval w η [] [] []
  | cons {k : K} {l : Nat} {ks : List (K × Nat)} {a : Ast} {as : List Ast} {u : NV} {v : Val} {vs : List Val} :
      eval w η a = some u → Rep k u v → ArgsEval w η ks as vs → ArgsEval w η ((k, l) :: ks) (a :: as) (v :: vs)

theorem bound_ok {n : Nat} {i : Int} (h : 0 ≤ i) (h' : i ≤ n) : Py.bound n i = i.toNat := by
  unfold Py.bound
  rw [if_pos h]
  omega

theorem maxO_ok : ∀ (x : Int) (xs : List Int), ∃ m, maxO ((x :: xs).map .int) = some m ∧ IsMax m (x :: xs)
  | x, [] => ⟨x, rfl, by simp [IsMax]⟩
  | x, y :: xs => by
    obtain ⟨m, hm, h1, h2⟩ := maxO_ok y xs
    refine ⟨max x m, ?_, ?_, ?_⟩
    · show ((maxO ((y :: xs).map Sc.int)).map (max x)) = _
      rw [hm]; rfl
    · rcases Int.le_total x m with h | h
      · rw [Int.max_eq_right h]; exact List.mem_cons_of_mem _ h1
      · rw [Int.max_eq_left h]; exact List.mem_cons_self ..
    · intro z hz
      rcases List.mem_cons.1 hz with rfl | hz
      · omega
      · have := h2 z hz; omega

theorem sumO_ok : ∀ xs : List Int, sumO (xs.map .int) = some xs.sum
  | [] => rfl
  | x :: xs => by
    show ((sumO (xs.map Sc.int)).map (x + ·)) = _
    rw [sumO_ok xs]; simp

theorem prodO_ok : ∀ xs : List Int, prodO (xs.map .int) = some (xs.foldr (· * ·) 1)
  | [] => rfl
  | x :: xs => by
    show ((prodO (xs.map Sc.int)).map (x * ·)) = _
    rw [prodO_ok xs]; rfl

theorem IsMax.unique {m n : Int} {xs : List Int} (h : IsMax m xs) (h' : IsMax n xs) : m = n :=
  Int.le_antisymm (h'.2 _ h.1) (h.2 _ h'.1)

theorem dotO_ok {w : Int → Int} {r v : List Int} (hl : r.length = v.length) (hw : w (List.zipWith (· * ·) r v).sum = (List.zipWith (· * ·) r v).sum) :
    dotO w (r.map .int) (v.map .int) = some (.int (List.zipWith (· * ·) r v).sum) := by
  rw [dotO, zipO_map (h := Sc.int) (op := (· * ·)) hl (fun _ _ => rfl), Option.bind_some, sumO_ok]
  show some (Sc.int (w _)) = _
  rw [hw]

theorem index_ok {α : Type} {xs : List α} {i : Int} (h : 0 ≤ i) : index xs i = xs[i.toNat]? := if_pos h

theorem getItem_vec {w : Int → Int} {η : String → Option NV} {a b : Ast} {x : Arr Sc} {i : Int} (h : eval w η a = some (.arr x))
    (h' : eval w η b = some (.arr (.sc (.int i)))) : eval w η (.index a b) = getItem x i := by
  rw [eval, h, Option.bind_some, h']; rfl

theorem evalO_some {w : Int → Int} {η : String → Option NV} {b : Ast} {i : Int} (h' : eval w η b = some (.arr (.sc (.int i)))) :
    evalO w η (some b) = some (some i) := by
  rw [evalO, h']; rfl

theorem eval_slice {w : Int → Int} {η : String → Option NV} {a : Ast} {x : Arr Sc} {b c : Option Ast} {i j : Option Int} (h : eval w η a = some (.arr x))
    (h' : evalO w η b = some i) (h'' : evalO w η c = some j) : eval w η (.slice a b c) = getSlice x i j := by
  rw [eval, h, Option.bind_some, h', Option.bind_some, h'']; rfl

theorem eval_cols {w : Int → Int} {η : String → Option NV} {a b c : Ast} {x : Arr Sc} {i j : Int} (h : eval w η a = some (.arr x))
    (h' : eval w η b = some (.arr (.sc (.int i)))) (h'' : eval w η c = some (.arr (.sc (.int j)))) :
    eval w η (.colSlice a b c) = getCols x i j := by
  rw [eval, h, Option.bind_some, h', Option.bind_some, h'']; rfl

theorem eval_plus {w : Int → Int} {η : String → Option NV} {b c : Ast} {i j : Int}
    (h' : eval w η b = some (.arr (.sc (.int i)))) (h'' : eval w η c = some (.arr (.sc (.int j)))) (hw : w (i + j) = i + j) :
    eval w η (.bin .add b c) = some (.arr (.sc (.int (i + j)))) :=
  eval_bin h' h'' (by show some (Arr.sc (Sc.int (w (i + j)))) = _; rw [hw])

theorem slice_take {α : Type} {xs : List α} {n : Int} (h : 0 ≤ n) (h' : n ≤ xs.length) : slice xs none (some n) = xs.take n.toNat := by
  simp only [slice, bound_ok h h', List.drop_zero]

theorem slice_drop {α : Type} {xs : List α} {n : Int} (h : 0 ≤ n) (h' : n ≤ xs.length) : slice xs (some n) none = xs.drop n.toNat := by
  simp only [slice, bound_ok h h', List.take_length]

theorem slice_both {α : Type} {xs : List α} {a b : Int} (h : 0 ≤ a) (h' : a ≤ b) (h'' : b ≤ xs.length) :
    slice xs (some a) (some b) = (xs.take b.toNat).drop a.toNat := by
  simp only [slice, bound_ok h (show a ≤ xs.length by omega), bound_ok (show 0 ≤ b by omega) h'']

theorem slice_len {α : Type} {xs : List α} {a n : Int} (h : 0 ≤ a) (h' : 0 ≤ n) (h'' : a + n ≤ xs.length) :
    slice xs (some a) (some (a + n)) = (xs.drop a.toNat).take n.toNat := by
  rw [slice_both h (by omega) h'', List.drop_take]
  congr 1
  omega

theorem Rep.int_inv {u : NV} {v : Val} (h : Rep .int u v) : ∃ i, u = .arr (.sc (.int i)) ∧ v = .int i := by cases h; exact ⟨_, rfl, rfl⟩
theorem Rep.bool_inv {u : NV} {v : Val} (h : Rep .bool u v) : ∃ b, u = .arr (.sc (.bool b)) ∧ v = .bool b := by cases h; exact ⟨_, rfl, rfl⟩
theorem Rep.vec_inv {u : NV} {v : Val} (h : Rep .vec u v) : ∃ xs : List Int, u = .arr (.a1 (xs.map .int)) ∧ v = vecV xs := by cases h; exact ⟨_, rfl, rfl⟩
theorem Rep.mat_inv {u : NV} {v : Val} (h : Rep .mat u v) : ∃ (c : Nat) (m : List (List Int)), u = .arr (.a2 c (m.map fun r => r.map .int)) ∧ v = matV m ∧
    (∀ r ∈ m, r.length = c) ∧ (m ≠ [] → 1 ≤ c) := by
  cases h
  exact ⟨_, _, rfl, rfl, ‹_›, ‹_›⟩

theorem args1 {w : Int → Int} {η : String → Option NV} {k : K} {l : Nat} {as vs} (h : ArgsEval w η [(k, l)] as vs) :
    ∃ a u v, as = [a] ∧ vs = [v] ∧ eval w η a = some u ∧ Rep k u v := by
  cases h with | cons h1 h1' h => cases h with | nil => exact ⟨_, _, _, rfl, rfl, h1, h1'⟩
theorem args2 {w : Int → Int} {η : String → Option NV} {k k' : K} {l l' : Nat} {as vs} (h : ArgsEval w η [(k, l), (k', l')] as vs) :
    ∃ a b u u' v v', as = [a, b] ∧ vs = [v, v'] ∧ eval w η a = some u ∧ Rep k u v ∧ eval w η b = some u' ∧ Rep k' u' v' := by
  cases h with | cons h1 h1' h => cases h with | cons h2 h2' h => cases h with | nil =>
    exact ⟨_, _, _, _, _, _, rfl, rfl, h1, h1', h2, h2'⟩
theorem args3 {w : Int → Int} {η : String → Option NV} {k k' k'' : K} {l l' l'' : Nat} {as vs} (h : ArgsEval w η [(k, l), (k', l'), (k'', l'')] as vs) :
    ∃ a b c u u' u'' v v' v'', as = [a, b, c] ∧ vs = [v, v', v''] ∧ eval w η a = some u ∧ Rep k u v ∧ eval w η b = some u' ∧ Rep k' u' v' ∧
      eval w η c = some u'' ∧ Rep k'' u'' v'' := by
  cases h with | cons h1 h1' h => cases h with | cons h2 h2' h => cases h with | cons h3 h3' h => cases h with | nil =>
    exact ⟨_, _, _, _, _, _, _, _, _, rfl, rfl, h1, h1', h2, h2', h3, h3'⟩

theorem binOp_a1 (w : Int → Int) (o : AOp) (a b : List Sc) : binOp w o.bin (.a1 a) (.a1 b) = Arr.zip (arith w o.bin) (.a1 a) (.a1 b) := by
  cases o <;> rfl
theorem binOp_a2 (w : Int → Int) (o : AOp) (c d : Nat) (a b : List (List Sc)) :
    binOp w o.bin (.a2 c a) (.a2 d b) = Arr.zip (arith w o.bin) (.a2 c a) (.a2 d b) := by
  cases o <;> rfl
theorem binOp_s1 (w : Int → Int) (o : AOp) (a : Sc) (b : List Sc) : binOp w o.bin (.sc a) (.a1 b) = Arr.zip (arith w o.bin) (.sc a) (.a1 b) := by
  cases o <;> rfl
theorem binOp_1s (w : Int → Int) (o : AOp) (a : Sc) (b : List Sc) : binOp w o.bin (.a1 b) (.sc a) = Arr.zip (arith w o.bin) (.a1 b) (.sc a) := by
  cases o <;> rfl
theorem binOp_s2 (w : Int → Int) (o : AOp) (a : Sc) (c : Nat) (b : List (List Sc)) :
    binOp w o.bin (.sc a) (.a2 c b) = Arr.zip (arith w o.bin) (.sc a) (.a2 c b) := by
  cases o <;> rfl
theorem binOp_2s (w : Int → Int) (o : AOp) (a : Sc) (c : Nat) (b : List (List Sc)) :
    binOp w o.bin (.a2 c b) (.sc a) = Arr.zip (arith w o.bin) (.a2 c b) (.sc a) := by
  cases o <;> rfl

/-- A library function: the text evaluates to a representation of the value of the function. -/
theorem fn_sound {I : Interp} (hI : NpModel I) {w : Int → Int} {η : String → Option NV} (hη : η "np" = none) {f : String} {F : Fn}
    (hF : fnTable.lookup f = some F) {as : List Ast} {vs : List Val} (h : ArgsEval w η F.args as vs) (hok : F.ok w vs (I.fn f vs)) :
    ∃ v, eval w η (F.ast as) = some v ∧ Rep F.res v (I.fn f vs) := by
  have hM := fn_meaning hI hF
  cases F with
  | vzip o =>
    obtain ⟨a, b, _, _, _, _, rfl, rfl, ha, hu, hb, hv⟩ := args2 h
    obtain ⟨xs, rfl, rfl⟩ := hu.vec_inv
    obtain ⟨ys, rfl, rfl⟩ := hv.vec_inv
    obtain ⟨hl, hd, hw⟩ := hok
    have hl : xs.length = ys.length := by simpa [vecV_asList] using hl
    rw [hM, zipIf_eq _ hl] at hw ⊢
    refine ⟨_, eval_bin ha hb ?_, Rep.vec _⟩
    rw [binOp_a1]
    show (bcast _ _ _).map Arr.a1 = _
    rw [zip_vec (op := o.op I) hl]
    · rfl
    · intro p hp
      refine arith_ok hI (fun ho => ?_) (hw _ (by rw [ints_vecV]; exact mem_zipWith _ hp))
      obtain ⟨h1, h2⟩ := hd ho
      rw [ints_vecV] at h1 h2
      exact ⟨h1 _ (List.of_mem_zip hp).1, h2 _ (List.of_mem_zip hp).2⟩
  | mzip o =>
    obtain ⟨a, b, _, _, _, _, rfl, rfl, ha, hu, hb, hv⟩ := args2 h
    obtain ⟨c, m, rfl, rfl, hm, hc⟩ := hu.mat_inv
    obtain ⟨d, n, rfl, rfl, hn, -⟩ := hv.mat_inv
    obtain ⟨hne, hl, hd, hw⟩ := hok
    have hne := matV_ne hne
    rw [rowLens_matV, rowLens_matV] at hl
    obtain ⟨hl, rfl⟩ := rows_of_lens hm hn hne hl
    rw [hM _ _ (sameShape (hc hne) hl hm hn)] at hw ⊢
    refine ⟨_, eval_bin ha hb ?_, Rep.mat c _ (zipWith_rows hm hn) (fun _ => hc hne)⟩
    rw [binOp_a2]
    refine zip_mat hl hm hn fun rs hrs p hp => arith_ok hI (fun ho => ?_) (hw _ ?_)
    · obtain ⟨h1, h2⟩ := hd ho
      rw [ints_matV] at h1 h2
      exact ⟨h1 _ (List.mem_flatten.2 ⟨_, (List.of_mem_zip hrs).1, (List.of_mem_zip hp).1⟩),
        h2 _ (List.mem_flatten.2 ⟨_, (List.of_mem_zip hrs).2, (List.of_mem_zip hp).2⟩)⟩
    · rw [ints_matV]
      exact List.mem_flatten.2 ⟨_, mem_zipWith (List.zipWith (o.op I)) hrs, mem_zipWith (o.op I) hp⟩
  | vsc o swap =>
    obtain ⟨a, b, _, _, _, _, rfl, rfl, ha, hu, hb, hv⟩ := args2 h
    obtain ⟨s, rfl, rfl⟩ := hu.int_inv
    obtain ⟨ys, rfl, rfl⟩ := hv.vec_inv
    obtain ⟨hd, hw⟩ := hok
    rw [hM] at hw ⊢
    rw [Fixed, ints_vecV] at hw
    cases swap with
    | false =>
      refine ⟨_, eval_bin ha hb ?_, Rep.vec _⟩
      rw [binOp_s1]
      show (mapO _ _).map Arr.a1 = _
      rw [mapO_map (h := fun x => Sc.int (o.op I s x))]
      · simp [Function.comp_def]
      · intro x hx
        refine arith_ok hI (fun ho => ?_) (hw _ (List.mem_map.2 ⟨x, hx, rfl⟩))
        obtain ⟨h1, h2⟩ := hd ho
        rw [ints_vecV] at h2
        exact ⟨h1 _ (by simp [ints]), h2 x hx⟩
    | true =>
      refine ⟨_, eval_bin hb ha ?_, Rep.vec _⟩
      rw [binOp_1s]
      show (mapO _ _).map Arr.a1 = _
      rw [mapO_map (h := fun x => Sc.int (o.op I x s))]
      · simp [Function.comp_def]
      · intro x hx
        refine arith_ok hI (fun ho => ?_) (hw _ (List.mem_map.2 ⟨x, hx, rfl⟩))
        obtain ⟨h1, h2⟩ := hd ho
        rw [ints_vecV] at h1
        exact ⟨h1 x hx, h2 _ (by simp [ints])⟩
  | msc o swap =>
    obtain ⟨a, b, _, _, _, _, rfl, rfl, ha, hu, hb, hv⟩ := args2 h
    obtain ⟨s, rfl, rfl⟩ := hu.int_inv
    obtain ⟨c, m, rfl, rfl, hm, hc⟩ := hv.mat_inv
    obtain ⟨hd, hw⟩ := hok
    have hne : ∀ r ∈ m, r ≠ [] := by
      rintro r hr rfl
      have := hm _ hr
      have := hc (List.ne_nil_of_mem hr)
      simp at *
      omega
    rw [hM _ _ hne] at hw ⊢
    rw [Fixed, ints_matV] at hw
    have hrows : ∀ g : Int → Int, ∀ r ∈ m.map (fun r => r.map g), r.length = c := by
      intro g r hr
      obtain ⟨r', hr', rfl⟩ := List.mem_map.1 hr
      rw [List.length_map, hm r' hr']
    cases swap with
    | false =>
      refine ⟨_, eval_bin ha hb ?_, Rep.mat c _ (hrows _) (fun h => hc (by simpa using h))⟩
      rw [binOp_s2]
      show (mapO _ _).map (Arr.a2 c) = _
      rw [mapO_map (h := fun r : List Int => r.map fun x => Sc.int (o.op I s x))]
      · simp [Function.comp_def]
      · intro r hr
        refine mapO_map fun x hx => arith_ok hI (fun ho => ?_) (hw _ ?_)
        · obtain ⟨h1, h2⟩ := hd ho
          rw [ints_matV] at h2
          exact ⟨h1 _ (by simp [ints]), h2 x (List.mem_flatten.2 ⟨r, hr, hx⟩)⟩
        · exact List.mem_flatten.2 ⟨_, List.mem_map.2 ⟨r, hr, rfl⟩, List.mem_map.2 ⟨x, hx, rfl⟩⟩
    | true =>
      refine ⟨_, eval_bin hb ha ?_, Rep.mat c _ (hrows _) (fun h => hc (by simpa using h))⟩
      rw [binOp_2s]
      show (mapO _ _).map (Arr.a2 c) = _
      rw [mapO_map (h := fun r : List Int => r.map fun x => Sc.int (o.op I x s))]
      · simp [Function.comp_def]
      · intro r hr
        refine mapO_map fun x hx => arith_ok hI (fun ho => ?_) (hw _ ?_)
        · obtain ⟨h1, h2⟩ := hd ho
          rw [ints_matV] at h1
          exact ⟨h1 x (List.mem_flatten.2 ⟨r, hr, hx⟩), h2 _ (by simp [ints])⟩
        · exact List.mem_flatten.2 ⟨_, List.mem_map.2 ⟨r, hr, rfl⟩, List.mem_map.2 ⟨x, hx, rfl⟩⟩
  | mvm =>
    obtain ⟨a, b, _, _, _, _, rfl, rfl, ha, hu, hb, hv⟩ := args2 h
    obtain ⟨c, m, rfl, rfl, hm, hc⟩ := hu.mat_inv
    obtain ⟨ys, rfl, rfl⟩ := hv.vec_inv
    obtain ⟨hne, hl, hw⟩ := hok
    have hne := matV_ne hne
    have hlen : ∀ r ∈ m, r.length = ys.length := by
      intro r hr
      have := hl r.length (by rw [rowLens_matV]; exact List.mem_map.2 ⟨r, hr, rfl⟩)
      simpa [vecV_asList] using this
    have hcy : c = ys.length := by
      obtain ⟨r, m', rfl⟩ := List.exists_cons_of_ne_nil hne
      rw [← hm r (List.mem_cons_self ..), hlen r (List.mem_cons_self ..)]
    rw [hM _ _ fun r hr => ⟨by
      rintro rfl
      have := hm _ hr
      have := hc hne
      simp at *
      omega, hlen r hr⟩] at hw ⊢
    rw [Fixed, ints_vecV] at hw
    refine ⟨_, ?_, Rep.vec _⟩
    show eval w η (npAst "matmul" [a, b]) = _
    rw [eval_np2 hη _ ha hb]
    show (if c = (ys.map Sc.int).length then _ else _) = _
    rw [if_pos (by simpa using hcy), mapO_map (h := fun r : List Int => Sc.int (List.zipWith (· * ·) r ys).sum)]
    · simp [Function.comp_def]
    · intro r hr
      exact dotO_ok (hlen r hr) (hw _ (List.mem_map.2 ⟨r, hr, rfl⟩))
  | get mat =>
    cases mat with
    | false =>
      obtain ⟨a, b, _, _, _, _, rfl, rfl, ha, hu, hb, hv⟩ := args2 h
      obtain ⟨xs, rfl, rfl⟩ := hu.vec_inv
      obtain ⟨i, rfl, rfl⟩ := hv.int_inv
      obtain ⟨h0, h1⟩ := hok
      simp only [vecV_asList, List.length_map] at h1
      have hx : xs[i.toNat]? = some xs[i.toNat] := List.getElem?_eq_getElem (by omega)
      rw [vecV, hM _ _ (.int xs[i.toNat]) h0 (by rw [List.getElem?_map, hx]; rfl)]
      refine ⟨_, ?_, Rep.int _⟩
      show eval w η (.index a b) = _
      rw [getItem_vec ha hb]
      show (index _ _).map _ = _
      rw [index_ok h0, List.getElem?_map, hx]
      rfl
    | true =>
      obtain ⟨a, b, _, _, _, _, rfl, rfl, ha, hu, hb, hv⟩ := args2 h
      obtain ⟨c, m, rfl, rfl, hm, hc⟩ := hu.mat_inv
      obtain ⟨i, rfl, rfl⟩ := hv.int_inv
      obtain ⟨h0, h1⟩ := hok
      simp only [matV_asList, List.length_map] at h1
      have hx : m[i.toNat]? = some m[i.toNat] := List.getElem?_eq_getElem (by omega)
      rw [matV, hM _ _ (vecV m[i.toNat]) h0 (by rw [List.getElem?_map, hx]; rfl)]
      refine ⟨_, ?_, Rep.vec _⟩
      show eval w η (.index a b) = _
      rw [getItem_vec ha hb]
      show (index _ _).map _ = _
      rw [index_ok h0, List.getElem?_map, hx]
      rfl
  | append mat =>
    cases mat with
    | false =>
      obtain ⟨a, b, _, _, _, _, rfl, rfl, ha, hu, hb, hv⟩ := args2 h
      obtain ⟨xs, rfl, rfl⟩ := hu.vec_inv
      obtain ⟨i, rfl, rfl⟩ := hv.int_inv
      have hr : I.fn f [vecV xs, .int i] = vecV (xs ++ [i]) := by
        rw [vecV, hM, vecV, List.map_append]; rfl
      rw [hr]
      refine ⟨_, ?_, Rep.vec _⟩
      have he : eval w η (npAst "expand_dims" [b, .kwarg "axis" (.num 0)]) = some (.arr (.a1 [.int i])) := by rw [eval_npk hη _ hb]; rfl
      have hs : eval w η (.list [a, npAst "expand_dims" [b, .kwarg "axis" (.num 0)]]) = some (.seq [.arr (.a1 (xs.map .int)), .arr (.a1 [.int i])]) := by
        rw [eval, evals, ha, Option.bind_some, evals, he]; rfl
      show eval w η (npAst "concatenate" _) = _
      rw [eval_npk hη _ hs]
      show some (NV.arr (Arr.a1 (xs.map .int ++ [.int i]))) = _
      rw [List.map_append]; rfl
    | true =>
      obtain ⟨a, b, _, _, _, _, rfl, rfl, ha, hu, hb, hv⟩ := args2 h
      obtain ⟨c, m, rfl, rfl, hm, hc⟩ := hu.mat_inv
      obtain ⟨ys, rfl, rfl⟩ := hv.vec_inv
      obtain ⟨hne, hl⟩ := hok rfl
      have hne := matV_ne hne
      have hcy : c = ys.length := by
        obtain ⟨r, m', rfl⟩ := List.exists_cons_of_ne_nil hne
        have := hl r.length (by rw [rowLens_matV]; simp)
        rw [← hm r (List.mem_cons_self ..), this]
        simp [vecV_asList]
      have hr : I.fn f [matV m, vecV ys] = matV (m ++ [ys]) := by
        rw [matV, hM, matV, List.map_append]; rfl
      rw [hr]
      refine ⟨_, ?_, Rep.mat c _ ?_ (fun _ => hc hne)⟩
      · have he : eval w η (npAst "expand_dims" [b, .kwarg "axis" (.num 0)]) = some (.arr (.a2 c [ys.map .int])) := by
          rw [eval_npk hη _ hb, hcy]
          show some (NV.arr (Arr.a2 (ys.map Sc.int).length _)) = _
          rw [List.length_map]
        have hs : eval w η (.list [a, npAst "expand_dims" [b, .kwarg "axis" (.num 0)]]) =
            some (.seq [.arr (.a2 c (m.map fun r => r.map .int)), .arr (.a2 c [ys.map .int])]) := by
          rw [eval, evals, ha, Option.bind_some, evals, he]; rfl
        show eval w η (npAst "concatenate" _) = _
        rw [eval_npk hη _ hs]
        show (if c = c then _ else _ : Option (Arr Sc)).map NV.arr = _
        rw [if_pos rfl, List.map_append]; rfl
      · intro r hr
        rcases List.mem_append.1 hr with hr | hr
        · exact hm r hr
        · rw [List.mem_singleton.1 hr, hcy]
  | take mat =>
    cases mat with
    | false =>
      obtain ⟨a, b, _, _, _, _, rfl, rfl, ha, hu, hb, hv⟩ := args2 h
      obtain ⟨xs, rfl, rfl⟩ := hu.vec_inv
      obtain ⟨i, rfl, rfl⟩ := hv.int_inv
      obtain ⟨h0, h1⟩ := hok
      simp only [vecV_asList] at h1
      have hr : I.fn f [vecV xs, .int i] = vecV (xs.take i.toNat) := by
        rw [vecV, hM _ _ h0 h1, vecV, List.map_take]
      rw [hr]
      refine ⟨_, ?_, Rep.vec _⟩
      show eval w η (.slice a none (some b)) = _
      rw [eval_slice ha rfl (evalO_some hb)]
      show some (NV.arr (Arr.a1 (slice _ _ _))) = _
      rw [slice_take h0 (by simpa using h1), List.map_take]
    | true =>
      obtain ⟨a, b, _, _, _, _, rfl, rfl, ha, hu, hb, hv⟩ := args2 h
      obtain ⟨c, m, rfl, rfl, hm, hc⟩ := hu.mat_inv
      obtain ⟨i, rfl, rfl⟩ := hv.int_inv
      obtain ⟨h0, h1⟩ := hok
      simp only [matV_asList] at h1
      have hr : I.fn f [matV m, .int i] = matV (m.take i.toNat) := by
        rw [matV, hM _ _ h0 h1, matV, List.map_take]
      rw [hr]
      refine ⟨_, ?_, Rep.mat c _ (fun r hr => hm r (List.mem_of_mem_take hr)) (fun h => hc (by rintro rfl; simp at h))⟩
      show eval w η (.slice a none (some b)) = _
      rw [eval_slice ha rfl (evalO_some hb)]
      show some (NV.arr (Arr.a2 c (slice _ _ _))) = _
      rw [slice_take h0 (by simpa using h1), List.map_take]
  | mtail =>
    obtain ⟨a, b, _, _, _, _, rfl, rfl, ha, hu, hb, hv⟩ := args2 h
    obtain ⟨c, m, rfl, rfl, hm, hc⟩ := hu.mat_inv
    obtain ⟨i, rfl, rfl⟩ := hv.int_inv
    obtain ⟨h0, h1⟩ := hok
    simp only [matV_asList] at h1
    have hr : I.fn f [matV m, .int i] = matV (m.drop i.toNat) := by
      rw [matV, hM _ _ h0 h1, matV, List.map_drop]
    rw [hr]
    refine ⟨_, ?_, Rep.mat c _ (fun r hr => hm r (List.mem_of_mem_drop hr)) (fun h => hc (by rintro rfl; simp at h))⟩
    show eval w η (.slice a (some b) none) = _
    rw [eval_slice ha (evalO_some hb) rfl]
    show some (NV.arr (Arr.a2 c (slice _ _ _))) = _
    rw [slice_drop h0 (by simpa using h1), List.map_drop]
  | slice mat =>
    cases mat with
    | false =>
      obtain ⟨a, b, c, _, _, _, _, _, _, rfl, rfl, ha, hu, hb, hv, hc', hz⟩ := args3 h
      obtain ⟨xs, rfl, rfl⟩ := hu.vec_inv
      obtain ⟨i, rfl, rfl⟩ := hv.int_inv
      obtain ⟨j, rfl, rfl⟩ := hz.int_inv
      obtain ⟨h0, h1, h2⟩ := hok
      simp only [vecV_asList] at h2
      have hr : I.fn f [vecV xs, .int i, .int j] = vecV ((xs.take j.toNat).drop i.toNat) := by
        rw [vecV, hM _ _ _ h0 h1 h2, vecV, List.map_drop, List.map_take]
      rw [hr]
      refine ⟨_, ?_, Rep.vec _⟩
      show eval w η (.slice a (some b) (some c)) = _
      rw [eval_slice ha (evalO_some hb) (evalO_some hc')]
      show some (NV.arr (Arr.a1 (slice _ _ _))) = _
      rw [slice_both h0 h1 (by simpa using h2), List.map_drop, List.map_take]
    | true =>
      obtain ⟨a, b, c, _, _, _, _, _, _, rfl, rfl, ha, hu, hb, hv, hc', hz⟩ := args3 h
      obtain ⟨k, m, rfl, rfl, hm, hc⟩ := hu.mat_inv
      obtain ⟨i, rfl, rfl⟩ := hv.int_inv
      obtain ⟨j, rfl, rfl⟩ := hz.int_inv
      obtain ⟨h0, h1, h2⟩ := hok
      simp only [matV_asList] at h2
      have hr : I.fn f [matV m, .int i, .int j] = matV ((m.take j.toNat).drop i.toNat) := by
        rw [matV, hM _ _ _ h0 h1 h2, matV, List.map_drop, List.map_take]
      rw [hr]
      refine ⟨_, ?_, Rep.mat k _ (fun r hr => hm r (List.mem_of_mem_take (List.mem_of_mem_drop hr))) (fun h => hc (by rintro rfl; simp at h))⟩
      show eval w η (.slice a (some b) (some c)) = _
      rw [eval_slice ha (evalO_some hb) (evalO_some hc')]
      show some (NV.arr (Arr.a2 k (slice _ _ _))) = _
      rw [slice_both h0 h1 (by simpa using h2), List.map_drop, List.map_take]
  | sliceLen mat =>
    cases mat with
    | false =>
      obtain ⟨a, b, c, _, _, _, _, _, _, rfl, rfl, ha, hu, hb, hv, hc', hz⟩ := args3 h
      obtain ⟨xs, rfl, rfl⟩ := hu.vec_inv
      obtain ⟨i, rfl, rfl⟩ := hv.int_inv
      obtain ⟨j, rfl, rfl⟩ := hz.int_inv
      obtain ⟨h0, h1, h2, hw⟩ := hok
      simp only [vecV_asList] at h2
      have hr : I.fn f [vecV xs, .int i, .int j] = vecV ((xs.drop i.toNat).take j.toNat) := by
        rw [vecV, hM _ _ _ h0 h1 h2, vecV, List.map_take, List.map_drop]
      rw [hr]
      refine ⟨_, ?_, Rep.vec _⟩
      show eval w η (.slice a (some b) (some (.bin .add b c))) = _
      rw [eval_slice ha (evalO_some hb) (evalO_some (eval_plus hb hc' hw))]
      show some (NV.arr (Arr.a1 (slice _ _ _))) = _
      rw [slice_len h0 h1 (by simpa using h2), List.map_take, List.map_drop]
    | true =>
      obtain ⟨a, b, c, _, _, _, _, _, _, rfl, rfl, ha, hu, hb, hv, hc', hz⟩ := args3 h
      obtain ⟨k, m, rfl, rfl, hm, hc⟩ := hu.mat_inv
      obtain ⟨i, rfl, rfl⟩ := hv.int_inv
      obtain ⟨j, rfl, rfl⟩ := hz.int_inv
      obtain ⟨h0, h1, h2, hw⟩ := hok
      simp only [matV_asList] at h2
      have hr : I.fn f [matV m, .int i, .int j] = matV ((m.drop i.toNat).take j.toNat) := by
        rw [matV, hM _ _ _ h0 h1 h2, matV, List.map_take, List.map_drop]
      rw [hr]
      refine ⟨_, ?_, Rep.mat k _ (fun r hr => hm r (List.mem_of_mem_drop (List.mem_of_mem_take hr))) (fun h => hc (by rintro rfl; simp at h))⟩
      show eval w η (.slice a (some b) (some (.bin .add b c))) = _
      rw [eval_slice ha (evalO_some hb) (evalO_some (eval_plus hb hc' hw))]
      show some (NV.arr (Arr.a2 k (slice _ _ _))) = _
      rw [slice_len h0 h1 (by simpa using h2), List.map_take, List.map_drop]
  | cslice =>
    obtain ⟨a, b, c, _, _, _, _, _, _, rfl, rfl, ha, hu, hb, hv, hc', hz⟩ := args3 h
    obtain ⟨k, m, rfl, rfl, hm, hc⟩ := hu.mat_inv
    obtain ⟨i, rfl, rfl⟩ := hv.int_inv
    obtain ⟨j, rfl, rfl⟩ := hz.int_inv
    obtain ⟨hne, h0, h1, h2⟩ := hok
    have hne := matV_ne hne
    rw [rowLens_matV] at h2
    have hj : ∀ r ∈ m, j ≤ r.length := fun r hr => h2 _ (List.mem_map.2 ⟨r, hr, rfl⟩)
    have hjk : j ≤ k := by
      obtain ⟨r, m', rfl⟩ := List.exists_cons_of_ne_nil hne
      rw [← hm r (List.mem_cons_self ..)]
      exact hj r (List.mem_cons_self ..)
    rw [hM _ _ _ h0 h1 hj]
    refine ⟨_, ?_, Rep.mat (j.toNat - i.toNat) _ ?_ (fun _ => by omega)⟩
    · show eval w η (.colSlice a b c) = _
      rw [eval_cols ha hb hc']
      show some (NV.arr (Arr.a2 (Py.bound k j - Py.bound k i) _)) = _
      rw [bound_ok (by omega) hjk, bound_ok h0 (by omega), List.map_map, List.map_map]
      congr 3
      refine List.map_congr_left fun r hr => ?_
      show slice (r.map Sc.int) (some i) (some j) = _
      rw [slice_both h0 (by omega) (by simpa using hj r hr)]
      simp [List.map_drop, List.map_take]
    · intro r hr
      obtain ⟨r', hr', rfl⟩ := List.mem_map.1 hr
      have := hj r' hr'
      simp
      omega
  | csliceLen =>
    obtain ⟨a, b, c, _, _, _, _, _, _, rfl, rfl, ha, hu, hb, hv, hc', hz⟩ := args3 h
    obtain ⟨k, m, rfl, rfl, hm, hc⟩ := hu.mat_inv
    obtain ⟨i, rfl, rfl⟩ := hv.int_inv
    obtain ⟨j, rfl, rfl⟩ := hz.int_inv
    obtain ⟨hne, h0, h1, h2, hw⟩ := hok
    have hne := matV_ne hne
    rw [rowLens_matV] at h2
    have hj : ∀ r ∈ m, i + j ≤ r.length := fun r hr => h2 _ (List.mem_map.2 ⟨r, hr, rfl⟩)
    have hjk : i + j ≤ k := by
      obtain ⟨r, m', rfl⟩ := List.exists_cons_of_ne_nil hne
      rw [← hm r (List.mem_cons_self ..)]
      exact hj r (List.mem_cons_self ..)
    rw [hM _ _ _ h0 h1 hj]
    refine ⟨_, ?_, Rep.mat ((i + j).toNat - i.toNat) _ ?_ (fun _ => by omega)⟩
    · show eval w η (.colSlice a b (.bin .add b c)) = _
      rw [eval_cols ha hb (eval_plus hb hc' hw)]
      show some (NV.arr (Arr.a2 (Py.bound k (i + j) - Py.bound k i) _)) = _
      rw [bound_ok (by omega) hjk, bound_ok h0 (by omega), List.map_map, List.map_map]
      congr 3
      refine List.map_congr_left fun r hr => ?_
      show slice (r.map Sc.int) (some i) (some (i + j)) = _
      rw [slice_len h0 (by omega) (by simpa using hj r hr)]
      simp [List.map_drop, List.map_take]
    · intro r hr
      obtain ⟨r', hr', rfl⟩ := List.mem_map.1 hr
      have := hj r' hr'
      simp
      omega
  | size =>
    obtain ⟨a, _, _, rfl, rfl, ha, hu⟩ := args1 h
    obtain ⟨xs, rfl, rfl⟩ := hu.vec_inv
    rw [vecV, hM]
    refine ⟨_, ?_, Rep.int _⟩
    show eval w η (.attr a "size") = _
    rw [eval, ha]
    simp [attr]
  | transpose =>
    obtain ⟨a, _, _, rfl, rfl, ha, hu⟩ := args1 h
    obtain ⟨c, m, rfl, rfl, hm, hc⟩ := hu.mat_inv
    have hne := matV_ne hok
    rw [hM m c hne (hc hne) hm]
    refine ⟨_, ?_, Rep.mat m.length _ ?_ (fun _ => ?_)⟩
    · show eval w η (npAst "transpose" [a]) = _
      rw [eval_np1 hη _ ha]
      show (mapO _ _).map (fun n => NV.arr (Arr.a2 (m.map _).length n)) = _
      have : mapO (fun j => mapO (fun r : List Sc => r[j]?) (m.map fun r => r.map Sc.int)) ((List.range c).map id) =
          some ((List.range c).map fun j => m.map fun r => Sc.int (r.getD j 0)) := by
        refine mapO_map fun j hj => mapO_map fun r hr => ?_
        have hj' : j < r.length := by rw [hm r hr]; simpa using hj
        simp [hj']
      rw [List.map_id] at this
      rw [this]
      simp [Function.comp_def]
    · intro r hr
      obtain ⟨j, hj, rfl⟩ := List.mem_map.1 hr
      simp
    · exact List.length_pos_iff.2 hne
  | rmax =>
    obtain ⟨a, _, _, rfl, rfl, ha, hu⟩ := args1 h
    obtain ⟨xs, rfl, rfl⟩ := hu.vec_inv
    have hne : xs ≠ [] := by rintro rfl; exact hok rfl
    obtain ⟨m, hm, hmax⟩ := hM xs hne
    rw [hm]
    refine ⟨_, ?_, Rep.int _⟩
    show eval w η (npAst "max" [a]) = _
    rw [eval_np1 hη _ ha]
    obtain ⟨x, xs', rfl⟩ := List.exists_cons_of_ne_nil hne
    obtain ⟨m', hm', hmax'⟩ := maxO_ok x xs'
    show (maxO _).map _ = _
    have : maxO ((Arr.a1 ((x :: xs').map Sc.int)).elems) = some m' := hm'
    rw [this, IsMax.unique (xs := x :: xs') hmax hmax']
    rfl
  | rsum =>
    obtain ⟨a, _, _, rfl, rfl, ha, hu⟩ := args1 h
    obtain ⟨xs, rfl, rfl⟩ := hu.vec_inv
    rw [hM]
    refine ⟨_, ?_, Rep.int _⟩
    show eval w η (npAst "sum" [a]) = _
    rw [eval_np1 hη _ ha]
    show (sumO (xs.map Sc.int)).map _ = _
    rw [sumO_ok]; rfl
  | rmul =>
    obtain ⟨a, _, _, rfl, rfl, ha, hu⟩ := args1 h
    obtain ⟨xs, rfl, rfl⟩ := hu.vec_inv
    rw [hM]
    refine ⟨_, ?_, Rep.int _⟩
    show eval w η (npAst "prod" [a]) = _
    rw [eval_np1 hη _ ha]
    show (prodO (xs.map Sc.int)).map _ = _
    rw [prodO_ok]; rfl
  | empty mat =>
    cases h
    rw [show I.fn f [] = .list [] from hM]
    cases mat with
    | false =>
      refine ⟨_, ?_, Rep.vec []⟩
      show eval w η (npAst "empty" [.num 0]) = _
      rw [eval_np1 hη _ (show eval w η (.num 0) = some (.arr (.sc (.int 0))) from rfl)]
      rfl
    | true =>
      refine ⟨_, ?_, Rep.mat 0 [] (by simp) (by simp)⟩
      show eval w η (npAst "empty" [.tuple [.num 0, .num 0]]) = _
      rw [eval_np1 hη _ (show eval w η (.tuple [.num 0, .num 0]) = some (.seq [.arr (.sc (.int 0)), .arr (.sc (.int 0))]) from rfl)]
      rfl

end Metalift.Np
