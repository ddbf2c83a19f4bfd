import Verif.PDslTensor
import Verif.PTenModel
/-
C65 for the tensor language: what the functions of its Python text return.
-/
namespace Metalift.Ten
open Py (Tok Ast PyDef Runs pyFn)

/-! ### Specification -/

/-- The module has the functions of `llmlift_scripts/dsl.py`: no later definition replaces one of them. -/
def Has (M : List PyDef) : Prop := ∀ D ∈ dslModule, M.reverse.find? (fun d => decide (d.name = D.name)) = some D

/-! ### Evaluation -/

/-- The scope in which the body of a definition is evaluated. -/
def scope (M : List PyDef) (D : PyDef) (vs : List Val) (k : Nat) : Py.Scope := ⟨fun x => ((D.params.map Prod.fst).zip vs).lookup x, pyFn M k⟩

theorem pyFn_step {M : List PyDef} {D : PyDef} (hM : Has M) (hD : D ∈ dslModule) {vs : List Val} (hl : vs.length = D.params.length) (k : Nat) :
    pyFn M (k + 1) D.name vs = Py.eval (scope M D vs k) D.body := by
  simp only [pyFn, hM D hD, if_pos hl, scope]

/-- The function returns the value whenever `n` calls may be nested. -/
def At (M : List PyDef) (n : Nat) (f : String) (vs : List Val) (w : Val) : Prop := ∀ k, n ≤ k → pyFn M k f vs = some w

theorem At.mono {M : List PyDef} {n m : Nat} {f : String} {vs : List Val} {w : Val} (h : At M n f vs w) (hm : n ≤ m) : At M m f vs w :=
  fun k hk => h k (by omega)

/-- One step of a computation. -/
theorem at_step {M : List PyDef} {D : PyDef} (hM : Has M) (hD : D ∈ dslModule) {vs : List Val} (hl : vs.length = D.params.length) {n : Nat} {w : Val}
    (h : ∀ k, n ≤ k → Py.eval (scope M D vs k) D.body = some w) : At M (n + 1) D.name vs w := by
  intro k hk
  obtain ⟨k, rfl, hk⟩ := Py.exists_succ hk
  rw [pyFn_step hM hD hl, h k (by omega)]

/-- Finitely many computations have a common bound. -/
theorem common {M : List PyDef} {α : Type} {f : String} {args : α → List Val} {out : α → Val} : ∀ {xs : List α},
    (∀ x ∈ xs, Runs M f (args x) (out x)) → ∃ n, ∀ x ∈ xs, At M n f (args x) (out x)
  | [], _ => ⟨0, by simp⟩
  | x :: xs, h => by
    obtain ⟨n, hn⟩ := common (fun y hy => h y (List.mem_cons_of_mem _ hy))
    obtain ⟨m, hm⟩ := h x (List.mem_cons_self ..)
    refine ⟨n + m, fun y hy => ?_⟩
    rcases List.mem_cons.mp hy with rfl | hy
    · exact fun k hk => hm k (by omega)
    · exact (hn y hy).mono (by omega)

/-- Recursion over a list. -/
theorem map_at {M : List PyDef} {α : Type} {D : PyDef} (hM : Has M) (hD : D ∈ dslModule) (args : List α → List Val) (out : α → Val) (m : Nat)
    (P : α → Prop) (hlen : ∀ us, (args us).length = D.params.length) (h0 : ∀ k, Py.eval (scope M D (args []) k) D.body = some (.list []))
    (h1 : ∀ k u us rs, m ≤ k → P u → pyFn M k D.name (args us) = some (.list rs) →
      Py.eval (scope M D (args (u :: us)) k) D.body = some (.list (out u :: rs))) :
    ∀ us, (∀ u ∈ us, P u) → At M (m + us.length + 1) D.name (args us) (.list (us.map out))
  | [], _ => at_step hM hD (hlen _) (fun k _ => h0 k)
  | u :: us, h => at_step hM hD (hlen _) (fun k hk => by
      simp only [List.length_cons] at hk
      exact h1 k u us _ (by omega) (h u (by simp)) (map_at hM hD args out m P hlen h0 h1 us (fun v hv => h v (by simp [hv])) k (by omega)))

/-- Recursion over two lists. -/
theorem zip_at {M : List PyDef} {α β : Type} {D : PyDef} (hM : Has M) (hD : D ∈ dslModule) (A : α → Val) (B : β → Val) (extra : List Val)
    (out : α → β → Val) (m : Nat) (P : α → β → Prop) (hlen : extra.length + 2 = D.params.length)
    (h0 : ∀ k us vs, us = [] ∨ us.length ≠ vs.length → Py.eval (scope M D (.list us :: .list vs :: extra) k) D.body = some (.list []))
    (h1 : ∀ k a b us vs rs, m ≤ k → P a b → us.length = vs.length → pyFn M k D.name (.list us :: .list vs :: extra) = some (.list rs) →
      Py.eval (scope M D (.list (A a :: us) :: .list (B b :: vs) :: extra) k) D.body = some (.list (out a b :: rs)))
    (xs : List α) (ys : List β) (h : ∀ p ∈ xs.zip ys, P p.1 p.2) :
    At M (m + xs.length + 1) D.name (.list (xs.map A) :: .list (ys.map B) :: extra) (.list (zipIf out xs ys)) := by
  by_cases hl : xs.length = ys.length
  · rw [zipIf, if_pos hl]
    induction xs generalizing ys with
    | nil => exact at_step hM hD (by simpa using hlen) (fun k _ => by simpa using h0 k [] (ys.map B) (.inl rfl))
    | cons x xs ih =>
      cases ys with
      | nil => simp at hl
      | cons y ys =>
        refine at_step hM hD (by simpa using hlen) (fun k hk => ?_)
        simp only [List.length_cons] at hk
        exact h1 k x y _ _ _ (by omega) (h (x, y) (by simp)) (by simpa using hl)
          (ih ys (fun p hp => h p (by simp [hp])) (by simpa using hl) k (by omega))
  · rw [zipIf, if_neg hl]
    exact (at_step hM hD (by simpa using hlen) (fun k (_ : 0 ≤ k) => h0 k _ _ (.inr (by simpa using hl)))).mono (by omega)

theorem At.runs {M : List PyDef} {n : Nat} {f : String} {vs : List Val} {w : Val} (h : At M n f vs w) : Runs M f vs w := ⟨n, h⟩

theorem cast_neg (n : Nat) : ((n : Int) < 0) = False := by
  simp

theorem cast_succ_neg (n : Nat) : ((n : Int) + 1 < 0) = False := by
  simp only [eq_iff_iff, iff_false]
  omega

theorem cast_succ_zero (n : Nat) : ((n : Int) + 1 = 0) = False := by
  simp only [eq_iff_iff, iff_false]
  omega

attribute [local simp] List.lookup Py.eval Py.evals Py.evalItems Py.evalO Py.Scope.apply Py.binOp Py.cmpOp Py.int? Py.valEq Val.asBool Py.index
  Py.slice Py.bound cast_neg cast_succ_neg cast_succ_zero scope

theorem mem_dsl {D : PyDef} (n : Nat) (h : dslModule[n]? = some D) : D ∈ dslModule := List.mem_of_getElem? h

/-! ### Vectors -/

theorem pyVecElemwiseAdd_runs {M : List PyDef} (hM : Has M) (xs ys : List Int) :
    Runs M "vec_elemwise_add" [vecV xs, vecV ys] (vecV (zipIf (fun a b => a + b) xs ys)) := by
  have := zip_at hM (mem_dsl 27 rfl) Val.int Val.int [] (fun a b => .int ((fun a b => a + b) a b)) 0 (fun _ _ => True) rfl
    (by rintro k us vs (rfl | h)
        · simp [pyVecElemwiseAdd]
        · have h' : ¬ ((us.length : Int) = vs.length) := by omega
          by_cases hz : ((us.length : Int) < 1) <;> simp [pyVecElemwiseAdd, h', hz])
    (by intro k a b us vs rs _ hP hl hr
        replace hr : pyFn M k "vec_elemwise_add" _ = _ := hr
        simp [pyVecElemwiseAdd, hr, hl]) xs ys (fun _ _ => trivial)
  have e : zipIf (fun a b => Val.int ((fun a b => a + b) a b)) xs ys = (zipIf (fun a b => a + b) xs ys).map Val.int := by
    unfold zipIf
    split <;> simp [List.map_zipWith]
  rw [e] at this
  exact this.runs

theorem pyVecElemwiseSub_runs {M : List PyDef} (hM : Has M) (xs ys : List Int) :
    Runs M "vec_elemwise_sub" [vecV xs, vecV ys] (vecV (zipIf (fun a b => a - b) xs ys)) := by
  have := zip_at hM (mem_dsl 30 rfl) Val.int Val.int [] (fun a b => .int ((fun a b => a - b) a b)) 0 (fun _ _ => True) rfl
    (by rintro k us vs (rfl | h)
        · simp [pyVecElemwiseSub]
        · have h' : ¬ ((us.length : Int) = vs.length) := by omega
          by_cases hz : ((us.length : Int) < 1) <;> simp [pyVecElemwiseSub, h', hz])
    (by intro k a b us vs rs _ hP hl hr
        replace hr : pyFn M k "vec_elemwise_sub" _ = _ := hr
        simp [pyVecElemwiseSub, hr, hl]) xs ys (fun _ _ => trivial)
  have e : zipIf (fun a b => Val.int ((fun a b => a - b) a b)) xs ys = (zipIf (fun a b => a - b) xs ys).map Val.int := by
    unfold zipIf
    split <;> simp [List.map_zipWith]
  rw [e] at this
  exact this.runs

theorem pyVecElemwiseMul_runs {M : List PyDef} (hM : Has M) (xs ys : List Int) :
    Runs M "vec_elemwise_mul" [vecV xs, vecV ys] (vecV (zipIf (fun a b => a * b) xs ys)) := by
  have := zip_at hM (mem_dsl 29 rfl) Val.int Val.int [] (fun a b => .int ((fun a b => a * b) a b)) 0 (fun _ _ => True) rfl
    (by rintro k us vs (rfl | h)
        · simp [pyVecElemwiseMul]
        · have h' : ¬ ((us.length : Int) = vs.length) := by omega
          by_cases hz : ((us.length : Int) < 1) <;> simp [pyVecElemwiseMul, h', hz])
    (by intro k a b us vs rs _ hP hl hr
        replace hr : pyFn M k "vec_elemwise_mul" _ = _ := hr
        simp [pyVecElemwiseMul, hr, hl]) xs ys (fun _ _ => trivial)
  have e : zipIf (fun a b => Val.int ((fun a b => a * b) a b)) xs ys = (zipIf (fun a b => a * b) xs ys).map Val.int := by
    unfold zipIf
    split <;> simp [List.map_zipWith]
  rw [e] at this
  exact this.runs

theorem pyVecElemwiseDiv_runs {M : List PyDef} (hM : Has M) (xs ys : List Int) (h : ∀ y ∈ ys, y ≠ 0) :
    Runs M "vec_elemwise_div" [vecV xs, vecV ys] (vecV (zipIf (Int.fdiv) xs ys)) := by
  have := zip_at hM (mem_dsl 28 rfl) Val.int Val.int [] (fun a b => .int ((Int.fdiv) a b)) 0 (fun _ b => b ≠ 0) rfl
    (by rintro k us vs (rfl | h)
        · simp [pyVecElemwiseDiv]
        · have h' : ¬ ((us.length : Int) = vs.length) := by omega
          by_cases hz : ((us.length : Int) < 1) <;> simp [pyVecElemwiseDiv, h', hz])
    (by intro k a b us vs rs _ hP hl hr
        replace hr : pyFn M k "vec_elemwise_div" _ = _ := hr
        simp [pyVecElemwiseDiv, hr, hl, show b ≠ 0 from hP]) xs ys (fun p hp => h _ (List.of_mem_zip hp).2)
  have e : zipIf (fun a b => Val.int ((Int.fdiv) a b)) xs ys = (zipIf (Int.fdiv) xs ys).map Val.int := by
    unfold zipIf
    split <;> simp [List.map_zipWith]
  rw [e] at this
  exact this.runs

theorem pyVecScalarAdd_runs {M : List PyDef} (hM : Has M) (s : Int) (xs : List Int) :
    Runs M "vec_scalar_add" [.int s, vecV xs] (vecV (xs.map fun x => s + x)) := by
  have := map_at hM (mem_dsl 32 rfl) (fun us => [.int s, vecV us]) (fun x : Int => .int (s + x)) 0 (fun _ => True) (fun _ => rfl)
    (by intro k
        simp [pyVecScalarAdd, vecV])
    (by intro k u us rs _ hP hr
        replace hr : pyFn M k "vec_scalar_add" [.int s, .list (us.map .int)] = _ := hr
        simp [pyVecScalarAdd, vecV, hr]) xs (fun _ _ => trivial)
  have e : vecV (xs.map fun x => s + x) = .list (xs.map fun x => Val.int (s + x)) := by simp [vecV]
  rw [e]
  exact this.runs

theorem pyVecScalarMul_runs {M : List PyDef} (hM : Has M) (s : Int) (xs : List Int) :
    Runs M "vec_scalar_mul" [.int s, vecV xs] (vecV (xs.map fun x => s * x)) := by
  have := map_at hM (mem_dsl 34 rfl) (fun us => [.int s, vecV us]) (fun x : Int => .int (s * x)) 0 (fun _ => True) (fun _ => rfl)
    (by intro k
        simp [pyVecScalarMul, vecV])
    (by intro k u us rs _ hP hr
        replace hr : pyFn M k "vec_scalar_mul" [.int s, .list (us.map .int)] = _ := hr
        simp [pyVecScalarMul, vecV, hr]) xs (fun _ _ => trivial)
  have e : vecV (xs.map fun x => s * x) = .list (xs.map fun x => Val.int (s * x)) := by simp [vecV]
  rw [e]
  exact this.runs

theorem pyVecScalarSub_runs {M : List PyDef} (hM : Has M) (s : Int) (xs : List Int) :
    Runs M "vec_scalar_sub" [.int s, vecV xs] (vecV (xs.map fun x => x - s)) := by
  have := map_at hM (mem_dsl 35 rfl) (fun us => [.int s, vecV us]) (fun x : Int => .int (x - s)) 0 (fun _ => True) (fun _ => rfl)
    (by intro k
        simp [pyVecScalarSub, vecV])
    (by intro k u us rs _ hP hr
        replace hr : pyFn M k "vec_scalar_sub" [.int s, .list (us.map .int)] = _ := hr
        simp [pyVecScalarSub, vecV, hr]) xs (fun _ _ => trivial)
  have e : vecV (xs.map fun x => x - s) = .list (xs.map fun x => Val.int (x - s)) := by simp [vecV]
  rw [e]
  exact this.runs

theorem pyVecScalarDiv_runs {M : List PyDef} (hM : Has M) (s : Int) (xs : List Int) (h : s ≠ 0) :
    Runs M "vec_scalar_div" [.int s, vecV xs] (vecV (xs.map fun x => Int.fdiv x s)) := by
  have := map_at hM (mem_dsl 33 rfl) (fun us => [.int s, vecV us]) (fun x : Int => .int (Int.fdiv x s)) 0 (fun _ => True) (fun _ => rfl)
    (by intro k
        simp [pyVecScalarDiv, vecV])
    (by intro k u us rs _ hP hr
        replace hr : pyFn M k "vec_scalar_div" [.int s, .list (us.map .int)] = _ := hr
        simp [pyVecScalarDiv, vecV, hr, h]) xs (fun _ _ => trivial)
  have e : vecV (xs.map fun x => Int.fdiv x s) = .list (xs.map fun x => Val.int (Int.fdiv x s)) := by simp [vecV]
  rw [e]
  exact this.runs

theorem pyScalarVecSub_runs {M : List PyDef} (hM : Has M) (s : Int) (xs : List Int) :
    Runs M "scalar_vec_sub" [.int s, vecV xs] (vecV (xs.map fun x => s - x)) := by
  have := map_at hM (mem_dsl 25 rfl) (fun us => [.int s, vecV us]) (fun x : Int => .int (s - x)) 0 (fun _ => True) (fun _ => rfl)
    (by intro k
        simp [pyScalarVecSub, vecV])
    (by intro k u us rs _ hP hr
        replace hr : pyFn M k "scalar_vec_sub" [.int s, .list (us.map .int)] = _ := hr
        simp [pyScalarVecSub, vecV, hr]) xs (fun _ _ => trivial)
  have e : vecV (xs.map fun x => s - x) = .list (xs.map fun x => Val.int (s - x)) := by simp [vecV]
  rw [e]
  exact this.runs

theorem pyScalarVecDiv_runs {M : List PyDef} (hM : Has M) (s : Int) (xs : List Int) (h : ∀ x ∈ xs, x ≠ 0) :
    Runs M "scalar_vec_div" [.int s, vecV xs] (vecV (xs.map fun x => Int.fdiv s x)) := by
  have := map_at hM (mem_dsl 24 rfl) (fun us => [.int s, vecV us]) (fun x : Int => .int (Int.fdiv s x)) 0 (fun x => x ≠ 0) (fun _ => rfl)
    (by intro k
        simp [pyScalarVecDiv, vecV])
    (by intro k u us rs _ hP hr
        replace hr : pyFn M k "scalar_vec_div" [.int s, .list (us.map .int)] = _ := hr
        simp [pyScalarVecDiv, vecV, hr, show u ≠ 0 from hP]) xs h
  have e : vecV (xs.map fun x => Int.fdiv s x) = .list (xs.map fun x => Val.int (Int.fdiv s x)) := by simp [vecV]
  rw [e]
  exact this.runs

/-! ### Matrices -/

theorem pyMatrixElemwiseAdd_runs {M : List PyDef} (hM : Has M) (ms ns : List (List Int)) :
    Runs M "matrix_elemwise_add" [matV ms, matV ns] (matV (zipIf (zipIf (fun a b => a + b)) ms ns)) := by
  obtain ⟨m, hm⟩ := common (M := M) (f := "vec_elemwise_add") (xs := ms.zip ns) (args := fun p => [vecV p.1, vecV p.2])
    (out := fun p => vecV (zipIf (fun a b => a + b) p.1 p.2)) (fun p _ => pyVecElemwiseAdd_runs hM p.1 p.2)
  have := zip_at hM (mem_dsl 6 rfl) vecV vecV [] (fun a b => vecV (zipIf (fun a b => a + b) a b)) m
    (fun a b => At M m "vec_elemwise_add" [vecV a, vecV b] (vecV (zipIf (fun a b => a + b) a b))) rfl
    (by rintro k us vs (rfl | h)
        · simp [pyMatrixElemwiseAdd]
        · have h' : ¬ ((us.length : Int) = vs.length) := by omega
          by_cases hz : ((us.length : Int) < 1) <;> simp [pyMatrixElemwiseAdd, h', hz])
    (by intro k a b us vs rs hk hP hl hr
        replace hr : pyFn M k "matrix_elemwise_add" _ = _ := hr
        simp [pyMatrixElemwiseAdd, hr, hl, hP k hk]) ms ns hm
  have e : zipIf (fun a b => vecV (zipIf (fun a b => a + b) a b)) ms ns = (zipIf (zipIf (fun a b => a + b)) ms ns).map vecV := by
    unfold zipIf
    split <;> simp [List.map_zipWith]
  rw [e] at this
  exact this.runs

theorem pyMatrixElemwiseSub_runs {M : List PyDef} (hM : Has M) (ms ns : List (List Int)) :
    Runs M "matrix_elemwise_sub" [matV ms, matV ns] (matV (zipIf (zipIf (fun a b => a - b)) ms ns)) := by
  obtain ⟨m, hm⟩ := common (M := M) (f := "vec_elemwise_sub") (xs := ms.zip ns) (args := fun p => [vecV p.1, vecV p.2])
    (out := fun p => vecV (zipIf (fun a b => a - b) p.1 p.2)) (fun p _ => pyVecElemwiseSub_runs hM p.1 p.2)
  have := zip_at hM (mem_dsl 9 rfl) vecV vecV [] (fun a b => vecV (zipIf (fun a b => a - b) a b)) m
    (fun a b => At M m "vec_elemwise_sub" [vecV a, vecV b] (vecV (zipIf (fun a b => a - b) a b))) rfl
    (by rintro k us vs (rfl | h)
        · simp [pyMatrixElemwiseSub]
        · have h' : ¬ ((us.length : Int) = vs.length) := by omega
          by_cases hz : ((us.length : Int) < 1) <;> simp [pyMatrixElemwiseSub, h', hz])
    (by intro k a b us vs rs hk hP hl hr
        replace hr : pyFn M k "matrix_elemwise_sub" _ = _ := hr
        simp [pyMatrixElemwiseSub, hr, hl, hP k hk]) ms ns hm
  have e : zipIf (fun a b => vecV (zipIf (fun a b => a - b) a b)) ms ns = (zipIf (zipIf (fun a b => a - b)) ms ns).map vecV := by
    unfold zipIf
    split <;> simp [List.map_zipWith]
  rw [e] at this
  exact this.runs

theorem pyMatrixElemwiseMul_runs {M : List PyDef} (hM : Has M) (ms ns : List (List Int)) :
    Runs M "matrix_elemwise_mul" [matV ms, matV ns] (matV (zipIf (zipIf (fun a b => a * b)) ms ns)) := by
  obtain ⟨m, hm⟩ := common (M := M) (f := "vec_elemwise_mul") (xs := ms.zip ns) (args := fun p => [vecV p.1, vecV p.2])
    (out := fun p => vecV (zipIf (fun a b => a * b) p.1 p.2)) (fun p _ => pyVecElemwiseMul_runs hM p.1 p.2)
  have := zip_at hM (mem_dsl 8 rfl) vecV vecV [] (fun a b => vecV (zipIf (fun a b => a * b) a b)) m
    (fun a b => At M m "vec_elemwise_mul" [vecV a, vecV b] (vecV (zipIf (fun a b => a * b) a b))) rfl
    (by rintro k us vs (rfl | h)
        · simp [pyMatrixElemwiseMul]
        · have h' : ¬ ((us.length : Int) = vs.length) := by omega
          by_cases hz : ((us.length : Int) < 1) <;> simp [pyMatrixElemwiseMul, h', hz])
    (by intro k a b us vs rs hk hP hl hr
        replace hr : pyFn M k "matrix_elemwise_mul" _ = _ := hr
        simp [pyMatrixElemwiseMul, hr, hl, hP k hk]) ms ns hm
  have e : zipIf (fun a b => vecV (zipIf (fun a b => a * b) a b)) ms ns = (zipIf (zipIf (fun a b => a * b)) ms ns).map vecV := by
    unfold zipIf
    split <;> simp [List.map_zipWith]
  rw [e] at this
  exact this.runs

theorem pyMatrixElemwiseDiv_runs {M : List PyDef} (hM : Has M) (ms ns : List (List Int)) (h : ∀ r ∈ ns, ∀ y ∈ r, y ≠ 0) :
    Runs M "matrix_elemwise_div" [matV ms, matV ns] (matV (zipIf (zipIf (Int.fdiv)) ms ns)) := by
  obtain ⟨m, hm⟩ := common (M := M) (f := "vec_elemwise_div") (xs := ms.zip ns) (args := fun p => [vecV p.1, vecV p.2])
    (out := fun p => vecV (zipIf (Int.fdiv) p.1 p.2)) (fun p hp => pyVecElemwiseDiv_runs hM p.1 p.2 (h _ (List.of_mem_zip hp).2))
  have := zip_at hM (mem_dsl 7 rfl) vecV vecV [] (fun a b => vecV (zipIf (Int.fdiv) a b)) m
    (fun a b => At M m "vec_elemwise_div" [vecV a, vecV b] (vecV (zipIf (Int.fdiv) a b))) rfl
    (by rintro k us vs (rfl | h)
        · simp [pyMatrixElemwiseDiv]
        · have h' : ¬ ((us.length : Int) = vs.length) := by omega
          by_cases hz : ((us.length : Int) < 1) <;> simp [pyMatrixElemwiseDiv, h', hz])
    (by intro k a b us vs rs hk hP hl hr
        replace hr : pyFn M k "matrix_elemwise_div" _ = _ := hr
        simp [pyMatrixElemwiseDiv, hr, hl, hP k hk]) ms ns hm
  have e : zipIf (fun a b => vecV (zipIf (Int.fdiv) a b)) ms ns = (zipIf (zipIf (Int.fdiv)) ms ns).map vecV := by
    unfold zipIf
    split <;> simp [List.map_zipWith]
  rw [e] at this
  exact this.runs

theorem pyMatrixScalarAdd_runs {M : List PyDef} (hM : Has M) (s : Int) (ms : List (List Int)) :
    Runs M "matrix_scalar_add" [.int s, matV ms] (matV (ms.map fun r => r.map fun x => s + x)) := by
  obtain ⟨m, hm⟩ := common (M := M) (f := "vec_scalar_add") (xs := ms) (args := fun r => [.int s, vecV r])
    (out := fun r => vecV (r.map fun x => s + x)) (fun r _ => pyVecScalarAdd_runs hM s r)
  have := map_at hM (mem_dsl 11 rfl) (fun us => [.int s, matV us]) (fun r => vecV (r.map fun x => s + x)) m
    (fun r => At M m "vec_scalar_add" [.int s, vecV r] (vecV (r.map fun x => s + x))) (fun _ => rfl)
    (by intro k
        simp [pyMatrixScalarAdd, matV])
    (by intro k u us rs hk hP hr
        replace hr : pyFn M k "matrix_scalar_add" [.int s, .list (us.map vecV)] = _ := hr
        simp [pyMatrixScalarAdd, matV, hr, hP k hk]) ms hm
  have e : matV (ms.map fun r => r.map fun x => s + x) = .list (ms.map fun r => vecV (r.map fun x => s + x)) := by simp [matV]
  rw [e]
  exact this.runs

theorem pyMatrixScalarMul_runs {M : List PyDef} (hM : Has M) (s : Int) (ms : List (List Int)) :
    Runs M "matrix_scalar_mul" [.int s, matV ms] (matV (ms.map fun r => r.map fun x => s * x)) := by
  obtain ⟨m, hm⟩ := common (M := M) (f := "vec_scalar_mul") (xs := ms) (args := fun r => [.int s, vecV r])
    (out := fun r => vecV (r.map fun x => s * x)) (fun r _ => pyVecScalarMul_runs hM s r)
  have := map_at hM (mem_dsl 13 rfl) (fun us => [.int s, matV us]) (fun r => vecV (r.map fun x => s * x)) m
    (fun r => At M m "vec_scalar_mul" [.int s, vecV r] (vecV (r.map fun x => s * x))) (fun _ => rfl)
    (by intro k
        simp [pyMatrixScalarMul, matV])
    (by intro k u us rs hk hP hr
        replace hr : pyFn M k "matrix_scalar_mul" [.int s, .list (us.map vecV)] = _ := hr
        simp [pyMatrixScalarMul, matV, hr, hP k hk]) ms hm
  have e : matV (ms.map fun r => r.map fun x => s * x) = .list (ms.map fun r => vecV (r.map fun x => s * x)) := by simp [matV]
  rw [e]
  exact this.runs

theorem pyMatrixScalarSub_runs {M : List PyDef} (hM : Has M) (s : Int) (ms : List (List Int)) :
    Runs M "matrix_scalar_sub" [.int s, matV ms] (matV (ms.map fun r => r.map fun x => x - s)) := by
  obtain ⟨m, hm⟩ := common (M := M) (f := "vec_scalar_sub") (xs := ms) (args := fun r => [.int s, vecV r])
    (out := fun r => vecV (r.map fun x => x - s)) (fun r _ => pyVecScalarSub_runs hM s r)
  have := map_at hM (mem_dsl 14 rfl) (fun us => [.int s, matV us]) (fun r => vecV (r.map fun x => x - s)) m
    (fun r => At M m "vec_scalar_sub" [.int s, vecV r] (vecV (r.map fun x => x - s))) (fun _ => rfl)
    (by intro k
        simp [pyMatrixScalarSub, matV])
    (by intro k u us rs hk hP hr
        replace hr : pyFn M k "matrix_scalar_sub" [.int s, .list (us.map vecV)] = _ := hr
        simp [pyMatrixScalarSub, matV, hr, hP k hk]) ms hm
  have e : matV (ms.map fun r => r.map fun x => x - s) = .list (ms.map fun r => vecV (r.map fun x => x - s)) := by simp [matV]
  rw [e]
  exact this.runs

theorem pyMatrixScalarDiv_runs {M : List PyDef} (hM : Has M) (s : Int) (ms : List (List Int)) (h : s ≠ 0) :
    Runs M "matrix_scalar_div" [.int s, matV ms] (matV (ms.map fun r => r.map fun x => Int.fdiv x s)) := by
  obtain ⟨m, hm⟩ := common (M := M) (f := "vec_scalar_div") (xs := ms) (args := fun r => [.int s, vecV r])
    (out := fun r => vecV (r.map fun x => Int.fdiv x s)) (fun r _ => pyVecScalarDiv_runs hM s r h)
  have := map_at hM (mem_dsl 12 rfl) (fun us => [.int s, matV us]) (fun r => vecV (r.map fun x => Int.fdiv x s)) m
    (fun r => At M m "vec_scalar_div" [.int s, vecV r] (vecV (r.map fun x => Int.fdiv x s))) (fun _ => rfl)
    (by intro k
        simp [pyMatrixScalarDiv, matV])
    (by intro k u us rs hk hP hr
        replace hr : pyFn M k "matrix_scalar_div" [.int s, .list (us.map vecV)] = _ := hr
        simp [pyMatrixScalarDiv, matV, hr, hP k hk]) ms hm
  have e : matV (ms.map fun r => r.map fun x => Int.fdiv x s) = .list (ms.map fun r => vecV (r.map fun x => Int.fdiv x s)) := by simp [matV]
  rw [e]
  exact this.runs

theorem pyScalarMatrixSub_runs {M : List PyDef} (hM : Has M) (s : Int) (ms : List (List Int)) :
    Runs M "scalar_matrix_sub" [.int s, matV ms] (matV (ms.map fun r => r.map fun x => s - x)) := by
  obtain ⟨m, hm⟩ := common (M := M) (f := "scalar_vec_sub") (xs := ms) (args := fun r => [.int s, vecV r])
    (out := fun r => vecV (r.map fun x => s - x)) (fun r _ => pyScalarVecSub_runs hM s r)
  have := map_at hM (mem_dsl 23 rfl) (fun us => [.int s, matV us]) (fun r => vecV (r.map fun x => s - x)) m
    (fun r => At M m "scalar_vec_sub" [.int s, vecV r] (vecV (r.map fun x => s - x))) (fun _ => rfl)
    (by intro k
        simp [pyScalarMatrixSub, matV])
    (by intro k u us rs hk hP hr
        replace hr : pyFn M k "scalar_matrix_sub" [.int s, .list (us.map vecV)] = _ := hr
        simp [pyScalarMatrixSub, matV, hr, hP k hk]) ms hm
  have e : matV (ms.map fun r => r.map fun x => s - x) = .list (ms.map fun r => vecV (r.map fun x => s - x)) := by simp [matV]
  rw [e]
  exact this.runs

theorem pyScalarMatrixDiv_runs {M : List PyDef} (hM : Has M) (s : Int) (ms : List (List Int)) (h : ∀ r ∈ ms, ∀ x ∈ r, x ≠ 0) :
    Runs M "scalar_matrix_div" [.int s, matV ms] (matV (ms.map fun r => r.map fun x => Int.fdiv s x)) := by
  obtain ⟨m, hm⟩ := common (M := M) (f := "scalar_vec_div") (xs := ms) (args := fun r => [.int s, vecV r])
    (out := fun r => vecV (r.map fun x => Int.fdiv s x)) (fun r hr => pyScalarVecDiv_runs hM s r (h r hr))
  have := map_at hM (mem_dsl 22 rfl) (fun us => [.int s, matV us]) (fun r => vecV (r.map fun x => Int.fdiv s x)) m
    (fun r => At M m "scalar_vec_div" [.int s, vecV r] (vecV (r.map fun x => Int.fdiv s x))) (fun _ => rfl)
    (by intro k
        simp [pyScalarMatrixDiv, matV])
    (by intro k u us rs hk hP hr
        replace hr : pyFn M k "scalar_matrix_div" [.int s, .list (us.map vecV)] = _ := hr
        simp [pyScalarMatrixDiv, matV, hr, hP k hk]) ms hm
  have e : matV (ms.map fun r => r.map fun x => Int.fdiv s x) = .list (ms.map fun r => vecV (r.map fun x => Int.fdiv s x)) := by simp [matV]
  rw [e]
  exact this.runs

/-! ### Reductions -/

theorem pyReduceSum_runs {M : List PyDef} (hM : Has M) : ∀ xs : List Int, At M (xs.length + 1) "reduce_sum" [vecV xs] (.int xs.sum)
  | [] => at_step hM (mem_dsl 20 rfl) rfl (fun k _ => by simp [pyReduceSum, vecV])
  | x :: xs => at_step hM (mem_dsl 20 rfl) rfl (fun k hk => by
      have ih := pyReduceSum_runs hM xs k hk
      simp only [vecV] at ih
      simp [pyReduceSum, vecV, ih])

theorem pyReduceMul_runs {M : List PyDef} (hM : Has M) : ∀ xs : List Int, At M (xs.length + 1) "reduce_mul" [vecV xs] (.int (xs.foldr (fun a b => a * b) 1))
  | [] => at_step hM (mem_dsl 19 rfl) rfl (fun k _ => by simp [pyReduceMul, vecV])
  | x :: xs => at_step hM (mem_dsl 19 rfl) rfl (fun k hk => by
      have ih := pyReduceMul_runs hM xs k hk
      simp only [vecV] at ih
      simp [pyReduceMul, vecV, ih])

/-- The greatest element of a list that is not empty. -/
def listMax : Int → List Int → Int
  | x, [] => x
  | x, y :: ys => if listMax y ys < x then x else listMax y ys

theorem listMax_spec : ∀ (x : Int) (xs : List Int), listMax x xs ∈ x :: xs ∧ ∀ z ∈ x :: xs, z ≤ listMax x xs
  | x, [] => by simp [listMax]
  | x, y :: ys => by
    obtain ⟨h1, h2⟩ := listMax_spec y ys
    simp only [listMax]
    split
    · refine ⟨by simp, fun z hz => ?_⟩
      rcases List.mem_cons.mp hz with rfl | hz
      · omega
      · have := h2 z hz
        omega
    · refine ⟨List.mem_cons_of_mem _ h1, fun z hz => ?_⟩
      rcases List.mem_cons.mp hz with rfl | hz
      · omega
      · exact h2 z hz

theorem pyReduceMax_runs {M : List PyDef} (hM : Has M) : ∀ (x : Int) (xs : List Int),
    At M (xs.length + 1) "reduce_max" [vecV (x :: xs)] (.int (listMax x xs))
  | x, [] => at_step hM (mem_dsl 18 rfl) rfl (fun k _ => by simp [pyReduceMax, vecV, listMax])
  | x, y :: xs => at_step hM (mem_dsl 18 rfl) rfl (fun k hk => by
      have ih := pyReduceMax_runs hM y xs k hk
      simp only [vecV, List.map_cons] at ih
      by_cases h : listMax y xs < x <;> simp [pyReduceMax, vecV, ih, h, listMax])

theorem pyReduceMax_nil {M : List PyDef} (hM : Has M) : At M 1 "reduce_max" [vecV []] (.int (-32)) :=
  at_step hM (mem_dsl 18 rfl) rfl (fun k _ => by simp [pyReduceMax, vecV])

/-! ### Matrix times vector -/

theorem pyMatrixVecMul_runs {M : List PyDef} (hM : Has M) (v : List Int) : ∀ ms : List (List Int), Runs M "matrix_vec_mul" [matV ms, vecV v]
    (vecV ((ms.takeWhile (fun r => decide (r ≠ [] ∧ r.length = v.length))).map (fun r => (List.zipWith (fun a b => a * b) r v).sum)))
  | [] => (at_step hM (mem_dsl 17 rfl) rfl (fun k (_ : 0 ≤ k) => by simp [pyMatrixVecMul, matV, vecV])).runs
  | r :: ms => by
    obtain ⟨n, ih⟩ := pyMatrixVecMul_runs hM v ms
    by_cases h : r ≠ [] ∧ r.length = v.length
    · obtain ⟨m, hm⟩ := pyVecElemwiseMul_runs hM r v
      have hs := pyReduceSum_runs hM (List.zipWith (fun a b => a * b) r v)
      rw [List.takeWhile_cons_of_pos (by simpa using h)]
      rw [zipIf, if_pos h.2] at hm
      refine (at_step hM (mem_dsl 17 rfl) rfl (n := n + m + ((List.zipWith (fun a b => a * b) r v).length + 1)) (fun k hk => ?_)).runs
      have h1 := ih k (by omega)
      have h2 := hm k (by omega)
      have h3 := hs k (by omega)
      simp only [vecV, matV] at h1 h2 h3
      have hv : ¬ ((v.length : Int) < 1) := by
        have := List.length_pos_iff.mpr h.1
        omega
      simp [pyMatrixVecMul, vecV, matV, h1, h2, h3, h.2, hv, -List.map_zipWith]
    · rw [List.takeWhile_cons_of_neg (by simpa using h)]
      refine (at_step hM (mem_dsl 17 rfl) rfl (n := 0) (fun k _ => ?_)).runs
      by_cases hr : r = []
      · subst hr
        simp [pyMatrixVecMul, vecV, matV]
      · have h' : ¬ ((r.length : Int) = v.length) := by
          intro e
          exact h ⟨hr, by omega⟩
        by_cases hz : ((r.length : Int) < 1) <;> simp [pyMatrixVecMul, vecV, matV, h', hz]

/-! ### Functions as arguments -/

theorem pyVecMap_runs {M : List PyDef} (hM : Has M) (g : String) (hg : g ≠ "len") (xs : List Int) (out : Int → Val)
    (h : ∀ x ∈ xs, Runs M g [.int x] (out x)) : Runs M "vec_map" [vecV xs, .fn g] (.list (xs.map out)) := by
  obtain ⟨m, hm⟩ := common (args := fun x : Int => [.int x]) h
  exact (map_at hM (mem_dsl 31 rfl) (fun us => [vecV us, .fn g]) out m (fun x => At M m g [.int x] (out x)) (fun _ => rfl)
    (by intro k
        simp [pyVecMap, vecV])
    (by intro k u us rs hk hP hr
        replace hr : pyFn M k "vec_map" [.list (us.map .int), .fn g] = _ := hr
        simp [pyVecMap, vecV, hr, hg, hP k hk]) xs hm).runs

theorem pySelectionTwoArgs_runs {M : List PyDef} (hM : Has M) (g : String) (hg : g ≠ "len") (xs ys : List Int) (out : Int → Int → Val)
    (h : ∀ p ∈ xs.zip ys, Runs M g [.int p.1, .int p.2] (out p.1 p.2)) :
    Runs M "selection_two_args" [vecV xs, vecV ys, .fn g] (.list (zipIf out xs ys)) := by
  obtain ⟨m, hm⟩ := common (args := fun p : Int × Int => [.int p.1, .int p.2]) h
  exact (zip_at hM (mem_dsl 26 rfl) Val.int Val.int [.fn g] out m (fun a b => At M m g [.int a, .int b] (out a b)) rfl
    (by rintro k us vs (rfl | h)
        · simp [pySelectionTwoArgs]
        · have h' : ¬ ((us.length : Int) = vs.length) := by omega
          by_cases hz : ((us.length : Int) < 1) <;> simp [pySelectionTwoArgs, h', hz])
    (by intro k a b us vs rs hk hP hl hr
        replace hr : pyFn M k "selection_two_args" _ = _ := hr
        simp [pySelectionTwoArgs, hr, hl, hg, hP k hk]) xs ys hm).runs

theorem pyMatrixSelectionTwoArgs_runs {M : List PyDef} (hM : Has M) (g : String) (hg : g ≠ "len") (ms ns : List (List Int)) (out : Int → Int → Val)
    (h : ∀ q ∈ ms.zip ns, ∀ p ∈ q.1.zip q.2, Runs M g [.int p.1, .int p.2] (out p.1 p.2)) :
    Runs M "matrix_selection_two_args" [matV ms, matV ns, .fn g] (.list (zipIf (fun r s => .list (zipIf out r s)) ms ns)) := by
  obtain ⟨m, hm⟩ := common (M := M) (f := "selection_two_args") (xs := ms.zip ns) (args := fun p => [vecV p.1, vecV p.2, .fn g])
    (out := fun p => .list (zipIf out p.1 p.2)) (fun p hp => pySelectionTwoArgs_runs hM g hg p.1 p.2 out (h p hp))
  exact (zip_at hM (mem_dsl 15 rfl) vecV vecV [.fn g] (fun r s => .list (zipIf out r s)) m
    (fun a b => At M m "selection_two_args" [vecV a, vecV b, .fn g] (.list (zipIf out a b))) rfl
    (by rintro k us vs (rfl | h)
        · simp [pyMatrixSelectionTwoArgs]
        · have h' : ¬ ((us.length : Int) = vs.length) := by omega
          by_cases hz : ((us.length : Int) < 1) <;> simp [pyMatrixSelectionTwoArgs, h', hz])
    (by intro k a b us vs rs hk hP hl hr
        replace hr : pyFn M k "matrix_selection_two_args" _ = _ := hr
        simp [pyMatrixSelectionTwoArgs, hr, hl, hP k hk]) ms ns hm).runs

theorem pyIteInt_runs {M : List PyDef} (hM : Has M) (c : Bool) (i j : Int) : Runs M "ite_int" [.bool c, .int i, .int j] (.int (if c then i else j)) :=
  (at_step hM (mem_dsl 4 rfl) rfl (n := 0) (fun k _ => by cases c <;> simp [pyIteInt])).runs

/-! ### Slices -/

theorem take_bound {α : Type} (xs : List α) (e : Nat) : xs.take (min e xs.length) = xs.take e := by
  rcases Nat.le_total e xs.length with h | h
  · rw [Nat.min_eq_left h]
  · rw [Nat.min_eq_right h, List.take_length, List.take_of_length_le h]

theorem drop_bound {α : Type} (xs : List α) (e : Nat) : xs.drop (min e xs.length) = xs.drop e := by
  rcases Nat.le_total e xs.length with h | h
  · rw [Nat.min_eq_left h]
  · rw [Nat.min_eq_right h, List.drop_length, List.drop_of_length_le h]

theorem drop_take_bound {α : Type} (xs : List α) (s e : Nat) : (xs.take (min e xs.length)).drop (min s xs.length) = (xs.take e).drop s := by
  rw [take_bound]
  rcases Nat.le_total s xs.length with h | h
  · rw [Nat.min_eq_left h]
  · rw [Nat.min_eq_right h, List.drop_of_length_le (by simp), List.drop_of_length_le (by simp; omega)]

theorem slice_from (xs : List Val) (s : Nat) : Py.slice xs (some s) none = xs.drop s := by
  simp [drop_bound]

theorem slice_to (xs : List Val) (e : Nat) : Py.slice xs none (some e) = xs.take e := by
  simp [take_bound]

theorem slice_both (xs : List Val) (s e : Nat) : Py.slice xs (some s) (some e) = (xs.take e).drop s := by
  simp [drop_take_bound]

theorem pyVecSlice_runs {M : List PyDef} (hM : Has M) (xs : List Int) (s e : Nat) :
    Runs M "vec_slice" [vecV xs, .int s, .int e] (vecV ((xs.take e).drop s)) :=
  (at_step hM (mem_dsl 36 rfl) rfl (n := 0) (fun k _ => by
    simp [pyVecSlice, vecV, slice_from, slice_to, -Py.slice, List.map_drop, List.map_take])).runs

theorem pyMatrixRowSlice_runs {M : List PyDef} (hM : Has M) (ms : List (List Int)) (s e : Nat) :
    Runs M "matrix_row_slice" [matV ms, .int s, .int e] (matV ((ms.take e).drop s)) :=
  (at_step hM (mem_dsl 10 rfl) rfl (n := 0) (fun k _ => by
    simp [pyMatrixRowSlice, matV, slice_from, slice_to, -Py.slice, List.map_drop, List.map_take])).runs

theorem pyMatrixColSlice_at {M : List PyDef} (hM : Has M) (ms : List (List Int)) (s e : Nat) :
    At M (ms.length + 1) "matrix_col_slice" [matV ms, .int s, .int e] (matV (ms.map fun r => (r.take e).drop s)) := by
  have := map_at hM (mem_dsl 5 rfl) (fun us => [matV us, .int s, .int e]) (fun r : List Int => vecV ((r.take e).drop s)) 0
    (fun _ => True) (fun _ => rfl)
    (by intro k
        simp [pyMatrixColSlice, matV])
    (by intro k u us rs hk hP hr
        replace hr : pyFn M k "matrix_col_slice" [.list (us.map vecV), .int s, .int e] = _ := hr
        have h1 : Py.slice (.list (u.map .int) :: us.map vecV) (some 1) none = us.map vecV := slice_from _ 1
        simp [pyMatrixColSlice, matV, vecV, slice_both, h1, hr, -Py.slice, List.map_drop, List.map_take]) ms (fun _ _ => trivial)
  have e' : matV (ms.map fun r => (r.take e).drop s) = .list (ms.map fun r => vecV ((r.take e).drop s)) := by simp [matV]
  rw [e']
  exact this.mono (by omega)

/-! ### Columns -/

theorem pyFirsts_runs {M : List PyDef} (hM : Has M) (ms : List (List Int)) (h : ∀ r ∈ ms, r ≠ []) :
    Runs M "firsts" [matV ms] (vecV (ms.map fun r => r.headD 0)) := by
  have := map_at hM (mem_dsl 0 rfl) (fun us => [matV us]) (fun r : List Int => .int (r.headD 0)) 0 (fun r => r ≠ []) (fun _ => rfl)
    (by intro k
        simp [pyFirsts, matV])
    (by intro k u us rs hk hP hr
        replace hr : pyFn M k "firsts" [.list (us.map vecV)] = _ := hr
        cases u with
        | nil => exact absurd rfl hP
        | cons a u => simp [pyFirsts, matV, vecV, hr]) ms h
  have e : vecV (ms.map fun r => r.headD 0) = .list (ms.map fun r => Val.int (r.headD 0)) := by simp [vecV]
  rw [e]
  exact this.runs

theorem pyFirsts_raises {M : List PyDef} (hM : Has M) : ∀ (k : Nat) (ms : List (List Int)), (∃ r ∈ ms, r = []) → pyFn M k "firsts" [matV ms] = none
  | 0, _, _ => rfl
  | k + 1, [], h => absurd h (by simp)
  | k + 1, [] :: ms, _ => by
    rw [show "firsts" = pyFirsts.name from rfl, pyFn_step hM (mem_dsl 0 rfl) rfl]
    simp [pyFirsts, matV, vecV]
  | k + 1, (a :: r) :: ms, h => by
    have ih := pyFirsts_raises hM k ms (by simpa using h)
    rw [show "firsts" = pyFirsts.name from rfl, pyFn_step hM (mem_dsl 0 rfl) rfl]
    simp only [matV] at ih
    simp [pyFirsts, matV, ih]

theorem pyRests_at {M : List PyDef} (hM : Has M) (r : List Int) (ms : List (List Int)) :
    At M (ms.length + 3) "rests" [matV (r :: ms)] (matV ((r :: ms).map fun s => (s.take r.length).drop 1)) :=
  at_step hM (mem_dsl 21 rfl) rfl (fun k hk => by
    have h := pyMatrixColSlice_at hM (r :: ms) 1 r.length k (by simpa using hk)
    have e : Py.eval (scope M pyRests [matV (r :: ms)] k) pyRests.body = pyFn M k "matrix_col_slice" [matV (r :: ms), .int 1, .int r.length] := by
      simp [pyRests, matV, vecV]
    rw [e]
    exact h)

theorem pyRests_nil {M : List PyDef} (hM : Has M) : At M 1 "rests" [matV []] (matV []) :=
  at_step hM (mem_dsl 21 rfl) rfl (fun k _ => by simp [pyRests, matV])

/-! ### Integers -/

theorem pyIntegerExp_pos {M : List PyDef} (hM : Has M) : ∀ n : Nat, At M (n + 1) "integer_exp" [.int n] (.int (3 ^ n % 64))
  | 0 => at_step hM (mem_dsl 1 rfl) rfl (fun k _ => by simp [pyIntegerExp])
  | n + 1 => at_step hM (mem_dsl 1 rfl) rfl (fun k hk => by
      have ih := pyIntegerExp_pos hM n k hk
      have h1 : ¬ ((n : Int) + 1 ≤ 0) := by omega
      have h2 : Int.fmod ((3 : Int) ^ n % 64 * 3) 64 = 3 ^ (n + 1) % 64 := by
        rw [Int.fmod_eq_emod_of_nonneg _ (by omega), Int.pow_succ, Int.mul_emod, Int.emod_emod_of_dvd _ (Int.dvd_refl _), ← Int.mul_emod]
      simp [pyIntegerExp, h1, ih, h2])

theorem pyIntegerExp_neg {M : List PyDef} (hM : Has M) (n : Int) (h : n ≤ 0) : At M 1 "integer_exp" [.int n] (.int 1) :=
  at_step hM (mem_dsl 1 rfl) rfl (fun k _ => by simp [pyIntegerExp, h])

end Metalift.Ten
