import Verif.PGaudi
import Verif.PNumpy
/-
C77: an example for the theorems on kernels for Gaudi, and where the property fails.
-/
namespace Metalift.Gaudi
open Metalift Metalift.Ten
open Metalift.Gem (Ar K SExp)

/-! ### An example -/

/-- A machine whose bytes wrap around. -/
def exMach : Mach where
  fit
    | .uchar256, v | .uint8, v => v % 256
    | _, v => v
theorem exMach_ok : exMach.Ok := by
  intro t v h
  cases t <;> simp [BT.fits, exMach] at h ⊢ <;> omega

/-- `(a + b) * a - (2 * s - a)`. -/
def exT : TE := .bin .sub (.bin .mul (.bin .add (.var "a") (.var "b")) (.var "a")) (.left (.bin .mul (.lit 2) (.var "s")) (.var "a"))
@[inherit_doc exT] def exParams : List (String × Ty) := [("a", .list (.list .int)), ("b", .list (.list .int)), ("s", .int)]
@[inherit_doc exT] def exA : Tensor := fun x y => 2 * x + y + 1
@[inherit_doc exT] def exB : Tensor := fun x y => 9 - x - y
@[inherit_doc exT] def exEnv : Env := fun x =>
  if x = "a" then matV [[1, 3, 5], [2, 4, 6]] else if x = "b" then matV [[9, 8, 7], [8, 7, 6]] else .int 3
@[inherit_doc exT] def exTens (x : String) : Tensor := if x = "a" then exA else exB

theorem exParams_proper : Proper "f" exParams := by
  refine ⟨by simp [exParams], by decide, fun x hx => ?_⟩
  have hd : ∀ x : String, noDigitEnd x = true → ∀ m : Nat, x ≠ "v" ++ m.repr := fun x hx m => numbered_ne hx
  have : x = "a" ∨ x = "b" ∨ x = "s" ∨ x = "f_rv" := by simpa [exParams] using hx
  rcases this with rfl | rfl | rfl | rfl <;> exact ⟨by decide, by decide, by decide, hd _ (by decide +kernel)⟩

theorem exGiven : Given 3 2 .mat exParams exEnv (fun _ => 3) exTens := by
  refine ⟨fun x hx => ?_, fun x hx => ?_⟩
  · have : x = "a" ∨ x = "b" := by simpa [exParams, K.ty] using hx
    rcases this with rfl | rfl <;> rfl
  · have : x = "s" := by simpa [exParams] using hx
    subst this; rfl

theorem inRange_mat {d : DT} {v : Val} (m : List (List Int)) (h : v = matV m) (hm : ∀ r ∈ m, ∀ x ∈ r, d.has x) : InRange d v := by
  subst h
  refine .list fun v hv => ?_
  obtain ⟨r, hr, rfl⟩ := List.mem_map.1 hv
  refine .list fun v hv => ?_
  obtain ⟨x, hx, rfl⟩ := List.mem_map.1 hv
  exact .int (hm r hr x hx)

theorem inRange_int {d : DT} {v : Val} (i : Int) (h : v = .int i) (hi : d.has i) : InRange d v := h ▸ .int hi

/-- The hypotheses hold for this program with a matrix of two rows and three columns, and two calls, the second of which is for the first row. -/
theorem C77_example (fns : List (String × Fn)) (o : Tensor) : ∃ Kn N, (∀ n, N ≤ n → kernel fns .u8 n "f" exParams (.list (.list .int)) (exT.toExpr .mat) = some Kn) ∧
    ∃ o', [(0, 1, 1, 2), (0, 1, 0, 1)].foldlM (fun o (p : Int × Int × Int × Int) => Kn.run exMach .u8 (fun _ => 3) exTens p.1 p.2.1 p.2.2.1 p.2.2.2 o) o = some o' ∧
      tensorOf 3 2 .mat o' = matV [[5, 30, 59], [16, 42, 72]] := by
  obtain ⟨Kn, N, h1, h2⟩ := C77_parts_partial (stdInterp true Np.exApply (· / ·)) (Np.std_npModel _ _).model exMach exMach_ok .u8 (by decide) fns .mat "f" exParams exParams_proper exT
    (by simp [exT, TE.ok, SExp.ok, exParams, K.ty])
  refine ⟨Kn, N, h1, ?_⟩
  have e : eval (stdInterp true Np.exApply (· / ·)) exEnv (exT.toExpr .mat) = matV [[5, 30, 59], [16, 42, 72]] := rfl
  rw [← e]
  refine h2 3 2 exEnv _ exTens (by decide) exGiven ?_ ?_ _ o ?_
  · intro u hu
    simp only [exT, TE.ints, intSubs, List.mem_cons, List.mem_append, List.not_mem_nil, or_false, false_or] at hu
    rcases hu with rfl | rfl | rfl
    · exact inRange_int 6 rfl (by simp [DT.has])
    · exact inRange_int 2 rfl (by simp [DT.has])
    · exact inRange_int 3 rfl (by simp [DT.has])
  · intro u hu
    simp only [exT, TE.subs, List.mem_cons, List.mem_append, List.not_mem_nil, or_false] at hu
    have go : ∀ (v : Val) (m : List (List Int)), v = matV m → (∀ r ∈ m, ∀ x ∈ r, 0 ≤ x ∧ x < 256) → InRange .u8 v := fun v m h1 h2 => inRange_mat m h1 h2
    rcases hu with rfl | (rfl | (rfl | rfl | rfl) | rfl) | rfl | rfl
    · exact go _ [[5, 30, 59], [16, 42, 72]] rfl (by decide)
    · exact go _ [[10, 33, 60], [20, 44, 72]] rfl (by decide)
    · exact go _ [[10, 11, 12], [10, 11, 12]] rfl (by decide)
    · exact go _ [[1, 3, 5], [2, 4, 6]] rfl (by decide)
    · exact go _ [[9, 8, 7], [8, 7, 6]] rfl (by decide)
    · exact go _ [[1, 3, 5], [2, 4, 6]] rfl (by decide)
    · exact go _ [[5, 3, 1], [4, 2, 0]] rfl (by decide)
    · exact go _ [[1, 3, 5], [2, 4, 6]] rfl (by decide)
  · rintro x y ⟨h1, h2, h3⟩
    by_cases hy : y = 0
    · exact ⟨(0, 1, 0, 1), by simp, by simp [Covers, lanes]; omega⟩
    · refine ⟨(0, 1, 1, 2), by simp, ?_⟩
      simp only at h3
      simp [Covers, lanes]; omega

/-- The instructions of this program. -/
theorem C77_text_example : (kernel [] .u8 8 "f" exParams (.list (.list .int)) (exT.toExpr .mat)).map (fun K => (K.body.map (Instr.str .u8), K.ret)) = some
    (["uchar256 v0 = v_u8_ld_tnsr_b(inputCoord, a);", "uchar256 v1 = v_u8_ld_tnsr_b(inputCoord, b);", "uchar256 v2 = v_u8_add_b(v0, v1);", "uint256 v4 = v_u8_mul_b(v2, v0);",
      "uchar256 v5 = convert_uint256_to_uchar256(v4, 0);", "uint8_t v6 = 2;", "uint8_t v7 = s;", "uint8_t v8 = v6 * v7;", "uchar256 v9 = v8;", "uchar256 v11 = v_u8_sub_b(v9, v0);",
      "uchar256 v12 = v_u8_sub_b(v5, v11);"], "v12") := by
  decide +kernel

/-! ### Where the property fails -/

/-- Types and variables of the examples. -/
abbrev vecT : Ty := .list .int
@[inherit_doc vecT] abbrev matT : Ty := .list (.list .int)
@[inherit_doc vecT] def va : Expr := .var "a" vecT
@[inherit_doc vecT] def vb : Expr := .var "b" vecT

/-- C77 fails for conditionals: whatever the function in the condition is, the kernel is that of the first branch. -/
theorem C77_condition_refuted (I : Interp) (ρ : Env) (d : DT) (hc : eval I ρ (.node (.call "c") .bool []) = .bool false) :
    ∃ Kn, (∀ n, 4 ≤ n → kernel [("c", ⟨[], .lit (.bool false)⟩)] d n "f" [("a", vecT), ("b", vecT)] vecT (.node .ite vecT [.node (.call "c") .bool [], va, vb]) = some Kn) ∧
      (∀ n, 4 ≤ n → kernel [] d n "f" [("a", vecT), ("b", vecT)] vecT va = some Kn) ∧
      eval I ρ (.node .ite vecT [.node (.call "c") .bool [], va, vb]) = ρ "b" := by
  refine ⟨⟨[("a", .tensor), ("b", .tensor), ("f_rv", .tensor)], "f_rv", .vec, [⟨vname 0, some (vecTy d), .ld "a"⟩], vname 0⟩, fun n hn => ?_, fun n hn => ?_, ?_⟩
  · obtain ⟨n, rfl⟩ : ∃ m, n = m + 4 := ⟨n - 4, by omega⟩
    cases d <;> rfl
  · obtain ⟨n, rfl⟩ : ∃ m, n = m + 4 := ⟨n - 4, by omega⟩
    cases d <;> rfl
  · simp only [eval, evals] at hc ⊢
    simp [hc, va, vb, eval]
    rfl

/-- C77 fails for a parameter with the name of a variable of the kernel, or of a counter: C does not accept the kernel. -/
theorem C77_capture_refuted (M : Mach) (d : DT) (x : String) (hx : x = "v0" ∨ x = "i") (scal : String → Int) (tens : String → Tensor) (o : Tensor) :
    ∃ Kn, (∀ n, 4 ≤ n → kernel [] d n "f" [(x, vecT)] vecT (.var x vecT) = some Kn) ∧ Kn.run M d scal tens 0 1 0 1 o = none := by
  refine ⟨⟨[(x, .tensor), ("f_rv", .tensor)], "f_rv", .vec, [⟨vname 0, some (vecTy d), .ld x⟩], vname 0⟩, fun n hn => ?_, ?_⟩
  · obtain ⟨n, rfl⟩ : ∃ m, n = m + 4 := ⟨n - 4, by omega⟩
    cases d <;> rfl
  · have hl : ∀ i j, Kernel.lane ⟨[(x, .tensor), ("f_rv", .tensor)], "f_rv", .vec, [⟨vname 0, some (vecTy d), .ld x⟩], vname 0⟩ M d scal tens i j = none := by
      intro i j
      rcases hx with rfl | rfl
      · have : vname 0 = "v0" := by decide +kernel
        simp [Kernel.lane, runLane, step, this, Rhs.names]
      · simp [Kernel.lane, runLane, step, Rhs.names, evalRhs, Kernel.seen, Shape.counters]
    have hr : ∀ i j o, Kernel.round ⟨[(x, .tensor), ("f_rv", .tensor)], "f_rv", .vec, [⟨vname 0, some (vecTy d), .ld x⟩], vname 0⟩ M d scal tens i j o = none := by
      intro i j o
      obtain ⟨m, hm⟩ : ∃ m, lanes d = m + 1 := ⟨lanes d - 1, by have := lanes_pos d; omega⟩
      simp [Kernel.round, hl, hm, List.range_succ_eq_map]
    simp [Kernel.run, span, hr]

/-- C77 fails for slices: the kernel is that of the tensor that the slice is taken of. -/
theorem C77_slice_refuted (fns : List (String × Fn)) (d : DT) (f : String) (params : List (String × Ty)) (n : Nat) (x : String) (l u : Expr) :
    kernel fns d (n + 1) f params vecT (.node (.call "vec_slice") vecT [.var x vecT, l, u]) = kernel fns d n f params vecT (.var x vecT) ∧
      eval (stdInterp true Np.exApply (· / ·)) (fun _ => vecV [5, 6, 7]) (.node (.call "vec_slice") vecT [.var x vecT, .lit (.int 1), .lit (.int 3)]) = vecV [6, 7] := by
  refine ⟨?_, rfl⟩
  cases d <;> rfl

/-- C77 fails for a sum with more than two summands: only two of them count. -/
theorem C77_summands_refuted (fns : List (String × Fn)) (d : DT) (n : Nat) (ov : Option BT) (rep : List (String × Expr)) (s : S) (a b c : Expr) :
    gen fns d n ov rep s (.node .add .int [a, b, c]) = gen fns d n ov rep s (.node .add .int [a, b]) ∧
      eval (stdInterp true Np.exApply (· / ·)) (fun _ => .int 5) (.node .add .int [.var "s" .int, .var "s" .int, .var "s" .int]) = .int 15 := by
  refine ⟨?_, rfl⟩
  cases n <;> rfl

/-- C77 fails for sums of a vector: for bytes there is no kernel; for 32-bit integers the result, which the kernel stores like a tensor, is declared as a number. -/
theorem C77_sum_refuted (fns : List (String × Fn)) (M : Mach) (scal : String → Int) (tens : String → Tensor) (a b a' b' : Int) (o : Tensor) :
    (∀ n, kernel fns .u8 n "f" [("a", vecT)] .int (.node (.call "reduce_sum") .int [va]) = none) ∧
      ∃ Kn, (∀ n, 4 ≤ n → kernel fns .i32 n "f" [("a", vecT)] .int (.node (.call "reduce_sum") .int [va]) = some Kn) ∧ ("f_rv", HT.int32) ∈ Kn.header ∧ Kn.rv = "f_rv" ∧
        Kn.run M .i32 scal tens a b a' b' o = none := by
  refine ⟨fun n => ?_, ⟨[("a", .tensor), ("f_rv", .int32)], "f_rv", .sum, [⟨vname 0, some .int64, .ld "a"⟩, ⟨"sum", none, .reduce (vname 0)⟩], "sum"⟩, fun n hn => ?_, ?_, rfl, ?_⟩
  · rcases n with _ | _ | n <;> rfl
  · obtain ⟨n, rfl⟩ : ∃ m, n = m + 4 := ⟨n - 4, by omega⟩
    rfl
  · simp
  · simp [Kernel.run]

/-- The larger of two numbers. -/
def selMax : Fn := ⟨["x", "y"], .node .ite .int [.node .gt .bool [.var "x" .int, .var "y" .int], .var "x" .int, .var "y" .int]⟩
theorem gen_loop (fns : List (String × Fn)) (d : DT) (ov : Option BT) (rep : List (String × Expr)) (s : S) (x : String) (t t' : Ty) (h : rep.lookup x = some (.var x t')) (n : Nat) :
    gen fns d n ov rep s (.var x t) = none := by
  induction n generalizing t with
  | zero => rfl
  | succ n ih =>
    simp only [gen, Expr.ty]
    cases bodyTy d t with
    | none => rfl
    | some b => simp only [h, ih]

/-- C77 fails for a selection on matrices that have the names of the parameters of the selecting function: the generator does not end. -/
theorem C77_recursion_refuted (d : DT) (n : Nat) :
    kernel [("select_two_args", selMax)] d n "f" [("x", matT), ("y", matT)] matT (.node (.call "matrix_selection_two_args") matT [.var "x" matT, .var "y" matT]) = none ∧
      (kernel [("select_two_args", selMax)] d (n + 5) "f" [("a", matT), ("b", matT)] matT (.node (.call "matrix_selection_two_args") matT [.var "a" matT, .var "b" matT])).isSome = true := by
  constructor
  · cases n with
    | zero => cases d <;> rfl
    | succ n =>
      have h : gen [("select_two_args", selMax)] d (n + 1) (some (vecTy d)) [] ⟨0, []⟩ (.node (.call "matrix_selection_two_args") matT [.var "x" matT, .var "y" matT]) = none := by
        have h1 : endsWith "matrix_selection_two_args" "matrix_selection_two_args" = true := by decide +kernel
        have h2 : endsWith "select_two_args" "select_two_args" = true := by decide +kernel
        have h3 := gen_loop [("select_two_args", selMax)] d (some (vecTy d)) [("y", .var "y" matT), ("x", .var "x" matT)] ⟨0, []⟩ "x" .int matT (by decide +kernel) n
        simp [gen, Expr.ty, bodyTy, h1, h2, selMax, cmpOf] at h3 ⊢
        simp [h3]
      simp [kernel, isList, isReduce, h]
  · cases d <;> rfl

/-- C77 fails for the functions of the language of tensors that the generator does not know. -/
theorem C77_unsupported_refuted (fns : List (String × Fn)) (d : DT) (n : Nat) (f : String) (params : List (String × Ty)) (ret : Ty) (args : List Expr) (g : String)
    (hg : g ∈ ["matrix_transpose", "matrix_vec_mul", "vec_map", "list_prepend", "list_append", "list_concat", "vec_elemwise_max", "integer_sqrt"]) :
    kernel fns d n f params ret (.node (.call g) ret args) = none := by
  have h : ∀ ov, gen fns d n ov [] ⟨0, []⟩ (.node (.call g) ret args) = none := by
    intro ov
    cases n with
    | zero => rfl
    | succ n =>
      have h1 : endsWith g "matrix_selection_two_args" = false ∧ g ≠ "reduce_sum" ∧ g ∉ slices ∧ opOf g = none := by
        simp only [List.mem_cons, List.not_mem_nil, or_false] at hg
        rcases hg with rfl | rfl | rfl | rfl | rfl | rfl | rfl | rfl <;> decide +kernel
      simp only [gen, Expr.ty]
      cases bodyTy d ret with
      | none => rfl
      | some b => simp [h1.1, h1.2.1, h1.2.2.1, h1.2.2.2]
  simp only [kernel, h]
  split
  · rfl
  · cases header d params f ret <;> rfl

/-- C77 fails for results out of range: on a machine whose bytes wrap around, the sum of 200 and 100 is 44. -/
theorem C77_range_refuted (fns : List (String × Fn)) (scal : String → Int) (o : Tensor) :
    ∃ Kn, (∀ n, 4 ≤ n → kernel fns .u8 n "f" [("a", vecT), ("b", vecT)] vecT (.node (.call "vec_elemwise_add") vecT [va, vb]) = some Kn) ∧
      (∃ o', Kn.run exMach .u8 scal (fun x _ _ => if x = "a" then 200 else 100) 0 1 0 1 o = some o' ∧ o' 0 0 = 44) ∧
      eval (stdInterp true Np.exApply (· / ·)) (fun x => if x = "a" then vecV [200] else vecV [100]) (.node (.call "vec_elemwise_add") vecT [va, vb]) = vecV [300] := by
  refine ⟨⟨[("a", .tensor), ("b", .tensor), ("f_rv", .tensor)], "f_rv", .vec,
    [⟨vname 0, some .uchar256, .ld "a"⟩, ⟨vname 1, some .uchar256, .ld "b"⟩, ⟨vname 2, some .uchar256, .vec .add (vname 0) (vname 1)⟩], vname 2⟩, fun n hn => ?_, ?_, rfl⟩
  · obtain ⟨n, rfl⟩ : ∃ m, n = m + 4 := ⟨n - 4, by omega⟩
    rfl
  · have hl : ∀ i j, Kernel.lane ⟨[("a", .tensor), ("b", .tensor), ("f_rv", .tensor)], "f_rv", .vec,
        [⟨vname 0, some .uchar256, .ld "a"⟩, ⟨vname 1, some .uchar256, .ld "b"⟩, ⟨vname 2, some .uchar256, .vec .add (vname 0) (vname 1)⟩], vname 2⟩
        exMach .u8 scal (fun x _ _ => if x = "a" then 200 else 100) i j = some 44 := fun i j => by rfl
    refine ⟨_, by simp [Kernel.run, span, Kernel.round, hl, mapM_some fun _ _ => rfl, outer]; rfl, ?_⟩
    simp [lanes]

/-- The glue code is wrong for 32-bit integers with an integer parameter: it counts as an input tensor, and if it is the first parameter, its dimension counts. -/
theorem C77_glue_refuted : glue .i32 [("s", .int), ("a", matT)] "f" matT = some (2, 1) ∧ glue .u8 [("s", .int), ("a", matT)] "f" matT = some (1, 2) := by
  decide +kernel

/-- The structure for the parameters is not C++ if there are two integer parameters: no semicolon follows the first member. -/
theorem C77_struct_refuted : members .u8 [("s", .int), ("t", .int), ("a", vecT)] "f" vecT = some "uint8_t s\nuint8_t t;" := by
  decide +kernel

end Metalift.Gaudi
