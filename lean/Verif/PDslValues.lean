import Verif.PDslRuns
/-
C65 for the tensor language: what the functions of its Python text return, and where they do not do what the declarations say.
-/
namespace Metalift.Ten
open Py (Tok Ast PyDef Runs pyFn)

/-! ### Specification -/

/-- A Python module that begins with the text of the tensor language and goes on with functions of other names. -/
def TensorModule (M : List PyDef) : Prop :=
  ∃ ts M₀ U, dslCode tenspilerFns = some ts ∧ Py.IsModule ts M₀ ∧ M = M₀ ++ U ∧ ∀ d ∈ U, d.name ∉ M₀.map PyDef.name

/-- No call of the function with these arguments returns: it raises, or never ends. -/
def NeverReturns (M : List PyDef) (f : String) (vs : List Val) : Prop := ∀ w, ¬ Runs M f vs w

/-! ### The modules -/

theorem TensorModule.has {M : List PyDef} (h : TensorModule M) : Has M := by
  obtain ⟨ts, M₀, U, h1, h2, rfl, h4⟩ := h
  obtain ⟨ts', k1, -, k3⟩ := C65_tensor_text
  cases h1.symm.trans k1
  cases k3 _ h2
  intro D hD
  rw [List.reverse_append, List.find?_append, List.find?_eq_none.mpr, Option.none_or]
  · exact find_nodup (by simpa using hD) (by rw [List.map_reverse, List.nodup_reverse]; decide)
  · intro d hd e
    exact h4 d (by simpa using hd) (by simpa [of_decide_eq_true e] using List.mem_map_of_mem hD)

/-- The text alone. -/
theorem tensorModule_dsl : TensorModule dslModule := by
  obtain ⟨ts, h1, h2, -⟩ := C65_tensor_text
  exact ⟨ts, dslModule, [], h1, h2, by simp, by simp⟩

/-- The text with one more function, as in the file that a synthesized function is added to. -/
example : TensorModule (dslModule ++ [⟨"double", [("x", .int)], .int, .bin .add (.name "x") (.name "x")⟩]) := by
  obtain ⟨ts, h1, h2, -⟩ := C65_tensor_text
  exact ⟨ts, dslModule, _, h1, h2, rfl, by decide⟩

/-! ### Values -/

variable {M : List PyDef}

/-- C65, vectors: the Python functions are the element-wise operations; for vectors of different lengths the result is empty.  Division rounds down,
and divisors must not be zero (Python raises). -/
theorem C65_tensor_vectors (hM : TensorModule M) (xs ys : List Int) (s : Int) :
    Runs M "vec_elemwise_add" [vecV xs, vecV ys] (vecV (zipIf (· + ·) xs ys)) ∧
    Runs M "vec_elemwise_sub" [vecV xs, vecV ys] (vecV (zipIf (· - ·) xs ys)) ∧
    Runs M "vec_elemwise_mul" [vecV xs, vecV ys] (vecV (zipIf (· * ·) xs ys)) ∧
    ((∀ y ∈ ys, y ≠ 0) → Runs M "vec_elemwise_div" [vecV xs, vecV ys] (vecV (zipIf Int.fdiv xs ys))) ∧
    Runs M "vec_scalar_add" [.int s, vecV xs] (vecV (xs.map (s + ·))) ∧
    Runs M "vec_scalar_mul" [.int s, vecV xs] (vecV (xs.map (s * ·))) ∧
    Runs M "vec_scalar_sub" [.int s, vecV xs] (vecV (xs.map (· - s))) ∧
    (s ≠ 0 → Runs M "vec_scalar_div" [.int s, vecV xs] (vecV (xs.map (Int.fdiv · s)))) ∧
    Runs M "scalar_vec_sub" [.int s, vecV xs] (vecV (xs.map (s - ·))) ∧
    ((∀ x ∈ xs, x ≠ 0) → Runs M "scalar_vec_div" [.int s, vecV xs] (vecV (xs.map (Int.fdiv s ·)))) :=
  have h := hM.has
  ⟨pyVecElemwiseAdd_runs h xs ys, pyVecElemwiseSub_runs h xs ys, pyVecElemwiseMul_runs h xs ys, pyVecElemwiseDiv_runs h xs ys,
   pyVecScalarAdd_runs h s xs, pyVecScalarMul_runs h s xs, pyVecScalarSub_runs h s xs, pyVecScalarDiv_runs h s xs, pyScalarVecSub_runs h s xs,
   pyScalarVecDiv_runs h s xs⟩

/-- C65, matrices: the operations row by row. -/
theorem C65_tensor_matrices (hM : TensorModule M) (ms ns : List (List Int)) (s : Int) :
    Runs M "matrix_elemwise_add" [matV ms, matV ns] (matV (zipIf (zipIf (· + ·)) ms ns)) ∧
    Runs M "matrix_elemwise_sub" [matV ms, matV ns] (matV (zipIf (zipIf (· - ·)) ms ns)) ∧
    Runs M "matrix_elemwise_mul" [matV ms, matV ns] (matV (zipIf (zipIf (· * ·)) ms ns)) ∧
    ((∀ r ∈ ns, ∀ y ∈ r, y ≠ 0) → Runs M "matrix_elemwise_div" [matV ms, matV ns] (matV (zipIf (zipIf Int.fdiv) ms ns))) ∧
    Runs M "matrix_scalar_add" [.int s, matV ms] (matV (ms.map (List.map (s + ·)))) ∧
    Runs M "matrix_scalar_mul" [.int s, matV ms] (matV (ms.map (List.map (s * ·)))) ∧
    Runs M "matrix_scalar_sub" [.int s, matV ms] (matV (ms.map (List.map (· - s)))) ∧
    (s ≠ 0 → Runs M "matrix_scalar_div" [.int s, matV ms] (matV (ms.map (List.map (Int.fdiv · s))))) ∧
    Runs M "scalar_matrix_sub" [.int s, matV ms] (matV (ms.map (List.map (s - ·)))) ∧
    ((∀ r ∈ ms, ∀ x ∈ r, x ≠ 0) → Runs M "scalar_matrix_div" [.int s, matV ms] (matV (ms.map (List.map (Int.fdiv s ·))))) :=
  have h := hM.has
  ⟨pyMatrixElemwiseAdd_runs h ms ns, pyMatrixElemwiseSub_runs h ms ns, pyMatrixElemwiseMul_runs h ms ns, pyMatrixElemwiseDiv_runs h ms ns,
   pyMatrixScalarAdd_runs h s ms, pyMatrixScalarMul_runs h s ms, pyMatrixScalarSub_runs h s ms, pyMatrixScalarDiv_runs h s ms,
   pyScalarMatrixSub_runs h s ms, pyScalarMatrixDiv_runs h s ms⟩

/-- C65, reductions: sum, product and maximum; the maximum of the empty vector is -32. -/
theorem C65_tensor_reductions (hM : TensorModule M) (xs : List Int) :
    Runs M "reduce_sum" [vecV xs] (.int xs.sum) ∧
    Runs M "reduce_mul" [vecV xs] (.int (xs.foldr (· * ·) 1)) ∧
    (xs = [] → Runs M "reduce_max" [vecV xs] (.int (-32))) ∧
    (xs ≠ [] → ∃ m, Runs M "reduce_max" [vecV xs] (.int m) ∧ m ∈ xs ∧ ∀ z ∈ xs, z ≤ m) := by
  have h := hM.has
  refine ⟨(pyReduceSum_runs h xs).runs, (pyReduceMul_runs h xs).runs, fun e => e ▸ (pyReduceMax_nil h).runs, fun hx => ?_⟩
  cases xs with
  | nil => exact absurd rfl hx
  | cons x xs => exact ⟨_, (pyReduceMax_runs h x xs).runs, listMax_spec x xs⟩

/-- C65, the matrix-vector product: the scalar products of the rows before the first row that is empty or has not the length of the vector. -/
theorem C65_tensor_matrix_vec_mul (hM : TensorModule M) (ms : List (List Int)) (v : List Int) :
    Runs M "matrix_vec_mul" [matV ms, vecV v]
      (vecV ((ms.takeWhile (fun r => decide (r ≠ [] ∧ r.length = v.length))).map (fun r => (List.zipWith (· * ·) r v).sum))) :=
  pyMatrixVecMul_runs hM.has v ms

/-- C65, functions as arguments: maps and selections apply the function with the given name to the elements, wherever it returns. -/
theorem C65_tensor_functional (hM : TensorModule M) (g : String) (hg : g ≠ "len") (xs ys : List Int) (ms ns : List (List Int))
    (out : Int → Val) (out₂ : Int → Int → Val) (c : Bool) (i j : Int) :
    ((∀ x ∈ xs, Runs M g [.int x] (out x)) → Runs M "vec_map" [vecV xs, .fn g] (.list (xs.map out))) ∧
    ((∀ p ∈ xs.zip ys, Runs M g [.int p.1, .int p.2] (out₂ p.1 p.2)) →
      Runs M "selection_two_args" [vecV xs, vecV ys, .fn g] (.list (zipIf out₂ xs ys))) ∧
    ((∀ q ∈ ms.zip ns, ∀ p ∈ q.1.zip q.2, Runs M g [.int p.1, .int p.2] (out₂ p.1 p.2)) →
      Runs M "matrix_selection_two_args" [matV ms, matV ns, .fn g] (.list (zipIf (fun r s => .list (zipIf out₂ r s)) ms ns))) ∧
    Runs M "ite_int" [.bool c, .int i, .int j] (.int (if c then i else j)) :=
  have h := hM.has
  ⟨pyVecMap_runs h g hg xs out, pySelectionTwoArgs_runs h g hg xs ys out₂, pyMatrixSelectionTwoArgs_runs h g hg ms ns out₂, pyIteInt_runs h c i j⟩

/-- C65, slices and columns: the elements, rows or columns from `s` up to `e`; the first column; all columns but the first. -/
theorem C65_tensor_slices (hM : TensorModule M) (xs : List Int) (ms : List (List Int)) (s e : Nat) :
    Runs M "vec_slice" [vecV xs, .int s, .int e] (vecV ((xs.take e).drop s)) ∧
    Runs M "matrix_row_slice" [matV ms, .int s, .int e] (matV ((ms.take e).drop s)) ∧
    Runs M "matrix_col_slice" [matV ms, .int s, .int e] (matV (ms.map fun r => (r.take e).drop s)) ∧
    ((∀ r ∈ ms, r ≠ []) → Runs M "firsts" [matV ms] (vecV (ms.map fun r => r.headD 0))) ∧
    (∀ c, (∀ r ∈ ms, r.length = c) → Runs M "rests" [matV ms] (matV (ms.map List.tail))) := by
  have h := hM.has
  refine ⟨pyVecSlice_runs h xs s e, pyMatrixRowSlice_runs h ms s e, (pyMatrixColSlice_at h ms s e).runs, pyFirsts_runs h ms, fun c hc => ?_⟩
  cases ms with
  | nil => exact (pyRests_nil h).runs
  | cons r ms =>
    have e : (r :: ms).map List.tail = (r :: ms).map fun s => (s.take r.length).drop 1 := by
      refine List.map_congr_left (fun s hs => ?_)
      rw [hc r (by simp), ← hc s hs, List.take_length, List.drop_one]
    rw [e]
    exact (pyRests_at h r ms).runs

/-- C65, `integer_exp`: the power of three modulo 64, and 1 for negative numbers. -/
theorem C65_tensor_integer_exp (hM : TensorModule M) :
    (∀ n : Nat, Runs M "integer_exp" [.int n] (.int (3 ^ n % 64))) ∧ ∀ n : Int, n ≤ 0 → Runs M "integer_exp" [.int n] (.int 1) :=
  ⟨fun n => (pyIntegerExp_pos hM.has n).runs, fun n h => (pyIntegerExp_neg hM.has n h).runs⟩

/-! ### The declared functions -/

theorem zipIf_shape {op : Int → Int → Int} {ms ns : List (List Int)} (h : SameShape ms ns) :
    zipIf (zipIf op) ms ns = List.zipWith (List.zipWith op) ms ns := by
  rw [zipIf, if_pos h.length]
  induction h with
  | nil => rfl
  | cons h _ ih => simp only [List.zipWith_cons_cons, ih, zipIf, if_pos h.2]

theorem zipIf_select (out : Int → Int → Val) {ms ns : List (List Int)} (h : SameShape ms ns) : zipIf (fun r s => Val.list (zipIf out r s)) ms ns =
    List.zipWith (fun r s => Val.list (List.zipWith out r s)) ms ns := by
  rw [zipIf, if_pos h.length]
  induction h with
  | nil => rfl
  | cons h _ ih =>
    rw [List.zipWith_cons_cons, List.zipWith_cons_cons, ih]
    simp only [zipIf, if_pos h.2]

/-- C65, against the declarations: in every interpretation that satisfies the definitions of the tensor language, with division rounding down, the
Python functions return the values of the declared functions.  Partial: matrices must have the same shape and no empty rows (for other matrices the
definitions do not determine the value, `C31_empty_rows_refuted`). -/
theorem C65_tensor_declared_partial (hM : TensorModule M) (I : Interp) (hI : Model I) (hdiv : I.idiv = Int.fdiv) :
    (∀ f ∈ ["vec_elemwise_add", "vec_elemwise_sub", "vec_elemwise_mul"], ∀ xs ys : List Int,
      Runs M f [vecV xs, vecV ys] (I.fn f [vecV xs, vecV ys])) ∧
    (∀ xs ys : List Int, (∀ y ∈ ys, y ≠ 0) → Runs M "vec_elemwise_div" [vecV xs, vecV ys] (I.fn "vec_elemwise_div" [vecV xs, vecV ys])) ∧
    (∀ f ∈ ["vec_scalar_add", "vec_scalar_mul", "vec_scalar_sub", "scalar_vec_sub"], ∀ (s : Int) (xs : List Int),
      Runs M f [.int s, vecV xs] (I.fn f [.int s, vecV xs])) ∧
    (∀ (s : Int) (xs : List Int), s ≠ 0 → Runs M "vec_scalar_div" [.int s, vecV xs] (I.fn "vec_scalar_div" [.int s, vecV xs])) ∧
    (∀ (s : Int) (xs : List Int), (∀ x ∈ xs, x ≠ 0) → Runs M "scalar_vec_div" [.int s, vecV xs] (I.fn "scalar_vec_div" [.int s, vecV xs])) ∧
    (∀ f ∈ ["matrix_elemwise_add", "matrix_elemwise_sub", "matrix_elemwise_mul"], ∀ ms ns : List (List Int), SameShape ms ns →
      Runs M f [matV ms, matV ns] (I.fn f [matV ms, matV ns])) ∧
    (∀ ms ns : List (List Int), SameShape ms ns → (∀ r ∈ ns, ∀ y ∈ r, y ≠ 0) →
      Runs M "matrix_elemwise_div" [matV ms, matV ns] (I.fn "matrix_elemwise_div" [matV ms, matV ns])) ∧
    (∀ f ∈ ["matrix_scalar_add", "matrix_scalar_mul", "matrix_scalar_sub", "scalar_matrix_sub"], ∀ (s : Int) (ms : List (List Int)),
      (∀ r ∈ ms, r ≠ []) → Runs M f [.int s, matV ms] (I.fn f [.int s, matV ms])) ∧
    (∀ (s : Int) (ms : List (List Int)), (∀ r ∈ ms, r ≠ []) → s ≠ 0 →
      Runs M "matrix_scalar_div" [.int s, matV ms] (I.fn "matrix_scalar_div" [.int s, matV ms])) ∧
    (∀ (s : Int) (ms : List (List Int)), (∀ r ∈ ms, r ≠ []) → (∀ r ∈ ms, ∀ x ∈ r, x ≠ 0) →
      Runs M "scalar_matrix_div" [.int s, matV ms] (I.fn "scalar_matrix_div" [.int s, matV ms])) ∧
    (∀ f ∈ ["reduce_sum", "reduce_mul", "reduce_max"], ∀ xs : List Int, Runs M f [vecV xs] (I.fn f [vecV xs])) ∧
    (∀ (ms : List (List Int)) (v : List Int), Runs M "matrix_vec_mul" [matV ms, vecV v] (I.fn "matrix_vec_mul" [matV ms, vecV v])) ∧
    (∀ (c : Bool) (i j : Int), Runs M "ite_int" [.bool c, .int i, .int j] (I.fn "ite_int" [.bool c, .int i, .int j])) ∧
    (∀ g, g ≠ "len" → (∀ a b : Int, Runs M g [.int a, .int b] (I.apply (.fn g) [.int a, .int b])) →
      (∀ xs ys : List Int, Runs M "selection_two_args" [vecV xs, vecV ys, .fn g] (I.fn "selection_two_args" [vecV xs, vecV ys, .fn g])) ∧
      ∀ ms ns : List (List Int), SameShape ms ns →
        Runs M "matrix_selection_two_args" [matV ms, matV ns, .fn g] (I.fn "matrix_selection_two_args" [matV ms, matV ns, .fn g])) ∧
    (∀ g, g ≠ "len" → (∀ a : Int, Runs M g [.int a] (I.apply (.fn g) [.int a])) →
      ∀ xs : List Int, Runs M "vec_map" [vecV xs, .fn g] (I.fn "vec_map" [vecV xs, .fn g])) := by
  have V := fun xs ys s => C65_tensor_vectors hM xs ys s
  have V' := fun xs ys s => C31_vectors I hI xs ys s
  have N := fun ms ns s => C65_tensor_matrices hM ms ns s
  have N' := fun ms ns h => C31_matrices_partial I hI ms ns h
  have S' := fun s ms h => C31_scalar_matrices_partial I hI s ms h
  rw [hdiv] at V' N' S'
  have R := fun xs => C65_tensor_reductions hM xs
  have R' := fun xs => C31_reductions I hI xs
  refine ⟨?_, ?_, ?_, ?_, ?_, ?_, ?_, ?_, ?_, ?_, ?_, ?_, ?_, ?_, ?_⟩
  · intro f hf xs ys
    obtain ⟨a1, a2, a3, -⟩ := V xs ys 0
    obtain ⟨b1, b2, b3, -⟩ := V' xs ys 0
    simp only [List.mem_cons, List.not_mem_nil, or_false] at hf
    rcases hf with rfl | rfl | rfl
    · rw [b1]; exact a1
    · rw [b2]; exact a2
    · rw [b3]; exact a3
  · intro xs ys h
    rw [(V' xs ys 0).2.2.2.1]
    exact (V xs ys 0).2.2.2.1 h
  · intro f hf s xs
    obtain ⟨-, -, -, -, a1, a2, a3, -, a4, -⟩ := V xs [] s
    obtain ⟨-, -, -, -, b1, b2, b3, -, b4, -⟩ := V' xs [] s
    simp only [List.mem_cons, List.not_mem_nil, or_false] at hf
    rcases hf with rfl | rfl | rfl | rfl
    · rw [b1]; exact a1
    · rw [b2]; exact a2
    · rw [b3]; exact a3
    · rw [b4]; exact a4
  · intro s xs h
    obtain ⟨-, -, -, -, -, -, -, a, -⟩ := V xs [] s
    obtain ⟨-, -, -, -, -, -, -, b, -⟩ := V' xs [] s
    rw [b]; exact a h
  · intro s xs h
    obtain ⟨-, -, -, -, -, -, -, -, -, a⟩ := V xs [] s
    obtain ⟨-, -, -, -, -, -, -, -, -, b⟩ := V' xs [] s
    rw [b]; exact a h
  · intro f hf ms ns h
    obtain ⟨a1, a2, a3, -⟩ := N ms ns 0
    obtain ⟨b1, b2, b3, -⟩ := N' ms ns h
    simp only [List.mem_cons, List.not_mem_nil, or_false] at hf
    rcases hf with rfl | rfl | rfl
    · rw [b1, ← zipIf_shape h]; exact a1
    · rw [b2, ← zipIf_shape h]; exact a2
    · rw [b3, ← zipIf_shape h]; exact a3
  · intro ms ns h h0
    rw [(N' ms ns h).2.2.2, ← zipIf_shape h]
    exact (N ms ns 0).2.2.2.1 h0
  · intro f hf s ms h
    obtain ⟨-, -, -, -, a1, a2, a3, -, a4, -⟩ := N ms [] s
    obtain ⟨b1, b2, b3, -, b4, -⟩ := S' s ms h
    simp only [List.mem_cons, List.not_mem_nil, or_false] at hf
    rcases hf with rfl | rfl | rfl | rfl
    · rw [b1]; exact a1
    · rw [b2]; exact a2
    · rw [b3]; exact a3
    · rw [b4]; exact a4
  · intro s ms h h0
    obtain ⟨-, -, -, -, -, -, -, a, -⟩ := N ms [] s
    obtain ⟨-, -, -, b, -⟩ := S' s ms h
    rw [b]; exact a h0
  · intro s ms h h0
    obtain ⟨-, -, -, -, -, -, -, -, -, a⟩ := N ms [] s
    obtain ⟨-, -, -, -, -, b⟩ := S' s ms h
    rw [b]; exact a h0
  · intro f hf xs
    obtain ⟨a1, a2, a3, a4⟩ := R xs
    obtain ⟨b1, b2, b3, b4⟩ := R' xs
    simp only [List.mem_cons, List.not_mem_nil, or_false] at hf
    rcases hf with rfl | rfl | rfl
    · rw [b1]; exact a1
    · rw [b2]; exact a2
    · by_cases hx : xs = []
      · rw [b3 hx]; exact a3 hx
      · obtain ⟨m, hm, h1, h2⟩ := a4 hx
        obtain ⟨m', hm', h1', h2'⟩ := b4 hx
        have : m = m' := Int.le_antisymm (h2' m h1) (h2 m' h1')
        rw [hm', ← this]; exact hm
  · intro ms v
    rw [(C31_matrix_vec_mul I hI ms v).2]
    exact C65_tensor_matrix_vec_mul hM ms v
  · intro c i j
    rw [(C31_functional I hI "" [] [] 0 0 c i j).2.2.2]
    exact pyIteInt_runs hM.has c i j
  · intro g hg hr
    refine ⟨fun xs ys => ?_, fun ms ns h => ?_⟩
    · rw [(C31_functional I hI g xs ys 0 0 true 0 0).2.1]
      exact pySelectionTwoArgs_runs hM.has g hg xs ys _ (fun p _ => hr p.1 p.2)
    · rw [(C31_matrix_selections_partial I hI g ms ns 0 0 h).1]
      have := pyMatrixSelectionTwoArgs_runs hM.has g hg ms ns (fun a b => I.apply (.fn g) [.int a, .int b]) (fun _ _ p _ => hr p.1 p.2)
      rw [zipIf_select _ h] at this
      exact this
  · intro g hg hr xs
    rw [(C31_functional I hI g xs [] 0 0 true 0 0).1]
    exact pyVecMap_runs hM.has g hg xs _ (fun x _ => hr x)

/-- Such interpretations exist. -/
example : ∃ I : Interp, Model I ∧ I.idiv = Int.fdiv := ⟨stdInterp false (fun _ _ => .int 0) Int.fdiv, std_model _ _ _, rfl⟩

/-! ### What goes wrong -/

attribute [local simp] List.lookup Py.eval Py.evals Py.evalItems Py.evalO Py.Scope.apply Py.binOp Py.cmpOp Py.int? Py.valEq Val.asBool Py.index
  Py.slice Py.bound cast_neg cast_succ_neg cast_succ_zero scope

theorem rests_value (h : Has M) {k : Nat} {r : List Int} {ms : List (List Int)} {w : Val} (hw : pyFn M k "rests" [matV (r :: ms)] = some w) :
    ∃ r' ms', w = matV (r' :: ms') := by
  obtain ⟨n, hn⟩ := Py.runs_iff.mpr ⟨k, hw⟩
  have := hn (n + (ms.length + 3)) (by omega)
  rw [pyRests_at h r ms _ (by omega)] at this
  exact ⟨_, _, (Option.some.inj this).symm⟩

/-- C65 is false for `matrix_transpose`: the Python function returns for no matrix but the empty one. The declared function is the transposed matrix
where rows without elements are dropped (Rosette's `matrix-prepend`, C43); the Python text keeps them, and the recursion does not end before
`firsts` reads the first element of an empty row. -/
theorem C65_transpose_refuted (hM : TensorModule M) :
    (∀ ms : List (List Int), ms ≠ [] → NeverReturns M "matrix_transpose" [matV ms]) ∧ Runs M "matrix_transpose" [matV []] (matV []) := by
  have h := hM.has
  refine ⟨fun ms hms w hw => ?_, (at_step h (mem_dsl 16 rfl) rfl (n := 0) (fun k _ => by simp [pyMatrixTranspose, matV])).runs⟩
  have key : ∀ k r ms w, pyFn M k "matrix_transpose" [matV (r :: ms)] ≠ some w := by
    intro k
    induction k with
    | zero => intro r ms w; simp [pyFn]
    | succ k ih =>
      intro r ms w hw
      rw [show "matrix_transpose" = pyMatrixTranspose.name from rfl, pyFn_step h (mem_dsl 16 rfl) rfl] at hw
      cases h1 : pyFn M k "firsts" [matV (r :: ms)] with
      | none =>
        simp only [matV, List.map_cons] at h1
        simp [pyMatrixTranspose, matV, h1] at hw
      | some v =>
        cases h2 : pyFn M k "rests" [matV (r :: ms)] with
        | none =>
          simp only [matV, List.map_cons] at h1 h2
          simp [pyMatrixTranspose, matV, h1, h2] at hw
        | some u =>
          obtain ⟨r', ms', rfl⟩ := rests_value h h2
          cases h3 : pyFn M k "matrix_transpose" [matV (r' :: ms')] with
          | none =>
            simp only [matV, List.map_cons] at h1 h2 h3
            simp [pyMatrixTranspose, matV, h1, h2, h3] at hw
          | some z => exact ih _ _ _ h3
  obtain ⟨k, hk⟩ := Py.runs_iff.mp hw
  cases ms with
  | nil => exact hms rfl
  | cons r ms => exact key k r ms w hk

/-- One step of the helper in Python. -/
theorem pySqrtHelper_step (h : Has M) (k : Nat) (n g : Int) : pyFn M (k + 1) "integer_sqrt_helper" [.int n, .int g] =
    if g = 0 ∨ g = 1 ∨ g > 64 then some (.int 1) else if g = Int.fdiv n g then some (.int g)
    else pyFn M k "integer_sqrt_helper" [.int n, .int (g + Int.fdiv (Int.fdiv n g) 2)] := by
  rw [show "integer_sqrt_helper" = pyIntegerSqrtHelper.name from rfl, pyFn_step h (mem_dsl 3 rfl) rfl]
  by_cases h0 : g = 0
  · subst h0
    simp [pyIntegerSqrtHelper]
  · by_cases h1 : g = 1
    · subst h1
      simp [pyIntegerSqrtHelper]
    · by_cases h2 : g > 64
      · have h2' : 64 < g := h2
        simp [pyIntegerSqrtHelper, h0, h1, h2']
      · have h2' : ¬ 64 < g := h2
        by_cases h3 : g = Int.fdiv n g
        · rw [if_neg (by omega), if_pos h3]
          simp [pyIntegerSqrtHelper, h0, h1, h2']
          simp [← h3]
        · rw [if_neg (by omega), if_neg h3]
          simp [pyIntegerSqrtHelper, h0, h1, h2', h3]

/-- The helper as declared. -/
theorem sqrtHelper_declared {I : Interp} (H : integerSqrtHelper.Holds I) {n g r : Int} (h : Stops I.idiv n g r) :
    I.fn "integer_sqrt_helper" [.int n, .int g] = .int r := by
  obtain ⟨b, hb, H⟩ := H
  have step : ∀ g : Int, I.fn "integer_sqrt_helper" [.int n, .int g] = if g = 0 ∨ g = 1 ∨ g > 64 then .int 1 else if g = I.idiv n g then .int g
      else I.fn "integer_sqrt_helper" [.int n, .int (I.idiv (g + I.idiv n g) 2)] := by
    intro g
    have h2 := H (env2 "n" (.int n) (.int g)) (env_ok2 (by decide) ⟨_, rfl⟩ ⟨_, rfl⟩)
    obtain ⟨b', hb', h3⟩ := eval_sqrtBody I (env2 "n" (.int n) (.int g)) n g rfl rfl
    cases hb.symm.trans hb'
    exact h2.trans h3
  induction h with
  | one h => rw [step, if_pos h]
  | found h1 h2 => rw [step, if_neg h1, if_pos h2]
  | step h1 h2 _ ih => rw [step, if_neg h1, if_neg h2, ih]

theorem sqrt_declared {I : Interp} (H : integerSqrt.Holds I) (n : Int) :
    I.fn "integer_sqrt" [.int n] = I.fn "integer_sqrt_helper" [.int (I.idiv n 2), .int n] := by
  obtain ⟨b, hb, H⟩ := H
  have hb' : b = _ := (Option.some.inj hb).symm
  subst hb'
  have h1 := H (env1 (.int n)) (env_ok1 ⟨n, rfl⟩)
  rw [eval_call] at h1
  simp only [List.map_cons, List.map_nil, eval_div, eval_var] at h1
  exact h1

/-- C65 is false for `integer_sqrt`: the declared helper goes on with `(guess + n // guess) // 2`, its Python text with
`guess + (n // guess) // 2`, since the text of a sum has no parentheses.  For all numbers from 2 to 64 the Python function does not return, while the
declared function has a value for many of them (32, for example); and where both helpers return their results differ. -/
theorem C65_integer_sqrt_refuted (hM : TensorModule M) :
    (∀ n : Int, 2 ≤ n → n ≤ 64 → NeverReturns M "integer_sqrt" [.int n]) ∧
    Runs M "integer_sqrt_helper" [.int 200, .int 2] (.int 1) ∧
    ∀ I : Interp, integerSqrt.Holds I → integerSqrtHelper.Holds I → I.idiv = Int.fdiv →
      I.fn "integer_sqrt" [.int 32] = .int 4 ∧ I.fn "integer_sqrt_helper" [.int 200, .int 2] = .int 14 := by
  have h := hM.has
  refine ⟨fun n h2 h64 w hw => ?_, ?_, fun I H H' hd => ⟨?_, ?_⟩⟩
  · obtain ⟨k, hk⟩ := Py.runs_iff.mp hw
    have hq : Int.fdiv (Int.fdiv n 2) n = 0 := by
      rw [Int.fdiv_eq_ediv_of_nonneg _ (by omega), Int.fdiv_eq_ediv_of_nonneg _ (by omega)]
      exact Int.ediv_eq_zero_of_lt (by omega) (by omega)
    have key : ∀ k, pyFn M k "integer_sqrt_helper" [.int (Int.fdiv n 2), .int n] = none := by
      intro k
      induction k with
      | zero => rfl
      | succ k ih =>
        rw [pySqrtHelper_step h, if_neg (by omega), hq, if_neg (by omega), show Int.fdiv 0 2 = 0 from rfl, Int.add_zero, ih]
    cases k with
    | zero => simp [pyFn] at hk
    | succ k =>
      rw [show "integer_sqrt" = pyIntegerSqrt.name from rfl, pyFn_step h (mem_dsl 2 rfl) rfl] at hk
      simp [pyIntegerSqrt, key] at hk
  · refine Py.runs_iff.mpr ⟨20, ?_⟩
    repeat (first | (rw [pySqrtHelper_step h, if_neg (by decide), if_neg (by decide)]) | (rw [pySqrtHelper_step h, if_pos (by decide)]))
  · rw [sqrt_declared H, hd]
    refine sqrtHelper_declared H' ?_
    rw [hd]
    exact .step (by decide) (by decide) (.step (by decide) (by decide) (.step (by decide) (by decide) (.step (by decide) (by decide)
      (.found (by decide) (by decide)))))
  · refine sqrtHelper_declared H' ?_
    rw [hd]
    exact .step (by decide) (by decide) (.step (by decide) (by decide) (.step (by decide) (by decide) (.step (by decide) (by decide)
      (.found (by decide) (by decide)))))

/-- The declarations of the two functions can be satisfied, with division rounding down. -/
example : ∃ I : Interp, integerSqrt.Holds I ∧ integerSqrtHelper.Holds I ∧ I.idiv = Int.fdiv :=
  ⟨sqrtInterp 0, (sqrtInterp_holds 0).1, (sqrtInterp_holds 0).2, rfl⟩

/-! ### The general theorem -/

/-- `reduce_sum`, written out. -/
def sumDecl : FnDecl :=
  ⟨"reduce_sum", .int, [("x", .list .int)],
   some (.node .ite .int [.node .lt .bool [mkCall "list_length" .int [.var "x" (.list .int)], intLit 1], intLit 0,
     .node .add .int [mkCall "list_get" .int [.var "x" (.list .int), intLit 0],
       mkCall "reduce_sum" .int [mkCall "list_tail" (.list .int) [.var "x" (.list .int), intLit 1]]]]), true⟩

/-- An interpretation of `reduce_sum` in which names of functions mean these functions. -/
def sumInterp : Interp :=
  let S := stdInterp false (fun _ _ => .int 0) Int.fdiv
  ⟨S.fn, fun v vs => match v with | .fn g => S.fn g vs | _ => .int 0, Int.fdiv, Int.fmod, S.choose⟩

theorem sumInterp_fn : sumInterp.fn = (stdInterp false (fun _ _ => .int 0) Int.fdiv).fn := rfl

theorem listPrims_of_fn {I J : Interp} (h : I.fn = J.fn) (P : ListPrims J) : ListPrims I := by
  obtain ⟨p1, p2, p3, p4, p5⟩ := P
  have seq : ∀ {ok a b c d e f g i j}, SeqPrims J ok a b c d e f g i j → SeqPrims I ok a b c d e f g i j := by
    rintro ok a b c d e f g i j ⟨q1, q2, q3, q4, q5, q6, q7, q8, q9⟩
    rw [← h] at q1 q2 q3 q4 q5 q6 q7 q8 q9
    exact ⟨q1, q2, q3, q4, q5, q6, q7, q8, q9⟩
  rw [← h] at p4 p5
  exact ⟨seq p1, seq p2, seq p3, p4, p5⟩

/-- `C65_text_partial` applies to `reduce_sum`: the declaration can be printed, and terminates on all vectors. -/
example : reduceSum.recursive .int = some sumDecl ∧ Printable sumDecl ∧ Means sumInterp [sumDecl] ∧
    ∀ xs : List Int, Terminates sumInterp [sumDecl] (xs.length + 1) "reduce_sum" [vecV xs] := by
  have P := (std_model false (fun _ _ => .int 0) Int.fdiv).prims
  have hsum : ∀ xs : List Int, sumInterp.fn "reduce_sum" [vecV xs] = .int xs.sum := fun xs =>
    (C31_reductions _ (std_model false (fun _ _ => .int 0) Int.fdiv) xs).1
  have hlen : ∀ us, sumInterp.fn "list_length" [.list us] = .int us.length := P.list.len
  have hget : ∀ u us, sumInterp.fn "list_get" [.list (u :: us), .int 0] = u := fun u us => P.list.get (u :: us) 0 u (by omega) rfl
  have htail : ∀ u us, sumInterp.fn "list_tail" [.list (u :: us), .int 1] = .list us := fun u us => P.list.tail (u :: us) 1 (by omega) (by simp)
  refine ⟨rfl, ⟨⟨_, rfl, ?_⟩, by decide, by decide, by decide, by decide⟩, ⟨listPrims_of_fn sumInterp_fn P, fun _ _ => rfl, ?_⟩, ?_⟩
  · simp [Expr.PySafe, Expr.PySafes, OpSafe, CallSafe, Expr.pyLvl, mkCall, intLit, sumDecl]
  · intro d hd vs hvs b hb
    cases List.mem_singleton.mp hd
    cases hb
    obtain ⟨v, rfl, us, rfl, hus⟩ : ∃ v, vs = [v] ∧ Smt.OfTy (.list .int) v := by
      cases hvs with
      | cons h1 h2 => cases h2 with
        | nil => exact ⟨_, rfl, h1⟩
    obtain ⟨xs, rfl⟩ : ∃ xs : List Int, us = xs.map Val.int := by
      clear hvs hd
      induction us with
      | nil => exact ⟨[], rfl⟩
      | cons u us ih =>
        obtain ⟨xs, rfl⟩ := ih (fun w hw => hus w (by simp [hw]))
        obtain ⟨i, rfl⟩ := hus u (by simp)
        exact ⟨i :: xs, rfl⟩
    cases xs with
    | nil => exact (hsum []).trans (by simp [eval, evals, evalOp, mkCall, intLit, Llm.fnEnv, sumDecl, hlen, Lit.val, Val.asInt, Val.asBool])
    | cons x xs =>
      have h1 := hsum xs
      refine (hsum (x :: xs)).trans ?_
      simp only [vecV] at h1
      simp [eval, evals, evalOp, mkCall, intLit, Llm.fnEnv, sumDecl, hlen, hget, htail, h1, Lit.val, Val.asInt, Val.asBool]
  · intro xs
    induction xs with
    | nil =>
      refine ⟨sumDecl, by simp, rfl, .cons ⟨[], rfl, by simp⟩ .nil, _, rfl, ?_⟩
      simp [Defined, DefinedAll, OpDefined, CallDefined, eval, evals, evalOp, mkCall, intLit, Llm.fnEnv, sumDecl, hlen, Lit.val, Val.asInt, vecV]
    | cons x xs ih =>
      refine ⟨sumDecl, by simp, rfl, .cons ⟨_, rfl, by simp [Smt.OfTy]⟩ .nil, _, rfl, ?_⟩
      have h1 := hsum xs
      simp only [vecV] at ih h1
      simp [Defined, DefinedAll, OpDefined, CallDefined, eval, evals, evalOp, mkCall, intLit, Llm.fnEnv, sumDecl, hlen, hget, htail, h1, Lit.val,
        Val.asInt, vecV]
      exact ih

end Metalift.Ten
