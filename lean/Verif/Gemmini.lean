import Verif.NumpyGen
/-
Model of the generator of C code for the Gemmini accelerator, `tests/llvm/tenspiler/codegen/gemmini_codegen.py` (`G` below).

The text of C expressions and statements is modelled by the syntax tree that C's grammar gives it.  Where a template puts a text next to an operator
without parentheses, the tree is that of the resulting text (`readRight`, `readDiv`); the scale factor `1 / (float)s`, which has no effect, is an exception.  `none` is an exception.
-/
namespace Metalift.Gem
open Metalift

/-- The operators of C. -/
inductive COp where
  | add | sub | mul | div | mod
  deriving DecidableEq, Repr

/-- `+` and `-` bind less than the others. -/
def COp.additive : COp → Bool
  | .add | .sub => true
  | _ => false

/-- C expressions.  A composite expression is printed `(a) o (b)` (G 79-83).  `bool` is the text `True` or `False`, `bad` a text that is no expression. -/
inductive CExp where
  | name (x : String)
  | num (i : Int)
  | bool (b : Bool)
  | bin (o : COp) (a b : CExp)
  | fdiv (a b : CExp)
  | at (x : CExp) (i j : CExp)
  | bad
  deriving DecidableEq, Repr

/-- How C reads the text `x o E`, where `E` is the text of an expression and `o` is `+` or `-`. -/
def readRight (o : COp) (x : CExp) : CExp → CExp
  | .bin p a b => if p.additive then .bin p (.bin o x a) b else .bin o x (.bin p a b)
  | e => .bin o x e

/-- How C reads the text `E / (float)y`, where `E` is the text of an expression. -/
def readDiv (y : CExp) : CExp → CExp
  | .bin p a b => if p.additive then .bin p a (.fdiv b y) else .fdiv (.bin p a b) y
  | e => .fdiv e y

/-- The statements of kernels.
* `decl x`: `static elem_t x[LEN][LEN];`
* `resadd r c s t a b x`: `tiled_resadd_auto(r, c, s, t, 1, a[0], b[0], x[0], false, WS);`
* `for1 n x e`: `for (int i = 0; i < n; i++) { x[i][0] = e; }`
* `for2 l n l' n' x e`: `for (int i = l; i < n; i++) { for (int j = l'; j < n'; j++) { x[i][j] = e; } }`
* `scale a s`: `GEMMINI_ACC_SCALE(a, s);`, a macro for an expression
* `copy a x`: `memcpy(a, x, sizeof(elem_t) * LEN * LEN);`
* `matmul a b x`: the call of `tiled_matmul_auto` (G 70)
* `average a x n`: `tiled_global_average(a[0], (elem_t*) x, 1, 1, n, 1);`
* `times x p`: `x = x * LEN * LEN;`, with `*x` for `x` if `p`
* `cond c s t`: `if (c) { s } else { t }`
* `bad`: a text that is no statement. -/
inductive Stm where
  | decl (x : String)
  | resadd (r c s t : CExp) (a b : CExp) (x : String)
  | for1 (n : CExp) (x : String) (e : CExp)
  | for2 (l n l' n' : CExp) (x : String) (e : CExp)
  | scale (a s : CExp)
  | copy (a : CExp) (x : String)
  | matmul (a b : CExp) (x : String)
  | average (a : CExp) (x : String) (n : CExp)
  | times (x : String) (p : Bool)
  | cond (c : CExp) (s t : List Stm)
  | bad

/-- `var_dimensions`: the texts for the numbers of rows and columns.  The keys are texts; only names are ever put in. -/
abbrev Dims := List (String × (CExp × CExp))

/-- `var_dimensions[text]`; `none`: `KeyError`. -/
def dimOf (D : Dims) : CExp → Option (CExp × CExp)
  | .name x => D.lookup x
  | _ => none

/-- The text of an expression or of statements. -/
inductive Code where
  | exp (e : CExp)
  | stms (s : List Stm)

/-- A text used as an expression. -/
def Code.toExp : Code → CExp
  | .exp e => e
  | .stms _ => .bad
/-- A text used as statements; an expression has no semicolon. -/
def Code.toStms : Code → List Stm
  | .exp _ => [.bad]
  | .stms s => s

/-- The text `LEN`. -/
def len : CExp := .name "LEN"
@[inherit_doc len] def ci : CExp := .name "i"
@[inherit_doc len] def cj : CExp := .name "j"
@[inherit_doc len] def c0 : CExp := .num 0
/-- `{a}[i][0]` and `{a}[i][j]`. -/
def col (a : CExp) : CExp := .at a ci c0
@[inherit_doc col] def cell (a : CExp) : CExp := .at a ci cj

/-- The right-hand sides of the loops over elements (G 52-67), where `v` is `col` for vectors and `cell` for matrices.  Mind the first one: the
scalar is subscripted. -/
def elemRhs (v : CExp → CExp) (a b : CExp) : String → Option CExp
  | "scalar_add" => some (readRight .add (v a) b)
  | "scalar_sub" => some (readRight .sub (v b) a)
  | "sub" => some (readRight .sub a (v b))
  | "mul" => some (.bin .mul (v a) (v b))
  | "div" => some (.fdiv (v a) (v b))
  | "scalar_div" => some (readDiv (v b) a)
  | _ => none

/-- The functions with a loop over all elements, whether they are for vectors, the kind of right-hand side, and the argument that gives the dimensions
(G 52-67, 230-266, 283-297).  The text of a sum or difference on the left of `-` keeps its meaning. -/
def loopFns : List (String × (Bool × String × Nat)) :=
  [("vec_scalar_add", (true, "scalar_add", 1)), ("matrix_scalar_add", (false, "scalar_add", 1)),
   ("scalar_vec_sub", (true, "sub", 1)), ("scalar_matrix_sub", (false, "sub", 1)),
   ("vec_scalar_sub", (true, "scalar_sub", 1)), ("matrix_scalar_sub", (false, "scalar_sub", 1)),
   ("vec_elemwise_mul", (true, "mul", 0)), ("matrix_elemwise_mul", (false, "mul", 0)),
   ("vec_elemwise_div", (true, "div", 0)), ("matrix_elemwise_div", (false, "div", 0)),
   ("scalar_vec_div", (true, "scalar_div", 1)), ("scalar_matrix_div", (false, "scalar_div", 1))]

/-- The statements for a call with the given texts of its arguments (G 210-357), assigning to `x`, and the dimensions after it.  The value is `none` for an
exception and for names that are no keys; those are treated by the caller. -/
def callStms (f : String) (ps : List CExp) (x : String) (D : Dims) : Option (List Stm × Dims) :=
  if f = "vec_elemwise_add" ∨ f = "matrix_elemwise_add" ∨ f = "vec_elemwise_sub" ∨ f = "matrix_elemwise_sub" then do
    let a ← ps[0]?
    let d ← dimOf D a
    let b ← ps[1]?
    let t : Int := if f = "vec_elemwise_add" ∨ f = "matrix_elemwise_add" then 1 else -1
    return ([.resadd d.1 d.2 (.num 1) (.num t) a b x], (x, d) :: D)
  else match loopFns.lookup f with
  | some (vec, kind, k) => do
    let p ← ps[k]?
    let d ← dimOf D p
    let a ← ps[0]?
    let b ← ps[1]?
    let e ← elemRhs (if vec then col else cell) a b kind
    return ([if vec then .for1 d.1 x e else .for2 c0 d.1 c0 d.2 x e], (x, d) :: D)
  | none =>
  if f = "vec_scalar_mul" ∨ f = "matrix_scalar_mul" ∨ f = "vec_scalar_div" ∨ f = "matrix_scalar_div" then do
    let v ← ps[1]?
    let d ← dimOf D v
    let s ← ps[0]?
    let s' : CExp := if f = "vec_scalar_mul" ∨ f = "matrix_scalar_mul" then s else .fdiv (.num 1) s
    return (.scale v s' :: (if v = .name x then [] else [.copy v x]), (x, d) :: D)
  else if f = "matrix_vec_mul" then do
    let a ← ps[0]?
    let b ← ps[1]?
    let d ← dimOf D a
    let d' ← dimOf D b
    return ([.matmul a b x], (x, (d.1, d'.2)) :: D)
  else if f = "reduce_sum" then do
    let a ← ps[0]?
    let d ← D.lookup x
    return ([.average a x d.1, .times x (decide (x = "out"))], D)
  else if f = "list_take" then do
    let a ← ps[0]?
    let n ← ps[1]?
    return ([.for1 n x (col a)], (x, (n, n)) :: D)
  else if f = "matrix_take" then do
    let a ← ps[0]?
    let d ← dimOf D a
    let n ← ps[1]?
    return ([.for2 c0 n c0 d.2 x (cell a)], (x, d) :: D)
  else if f = "matrix_col_slice" then do
    let a ← ps[0]?
    let d ← dimOf D a
    let l ← ps[1]?
    let n ← ps[2]?
    return ([.for2 c0 d.1 l n x (cell a)], (x, d) :: D)
  else if f = "matrix_row_slice" then do
    let a ← ps[0]?
    let d ← dimOf D a
    let l ← ps[1]?
    let n ← ps[2]?
    return ([.for2 l n c0 d.2 x (cell a)], (x, d) :: D)
  else if f = "matrix_transpose" then do
    let a ← ps[0]?
    let d ← dimOf D a
    return ([.for2 c0 d.1 c0 d.1 x (.at a cj ci)], (x, d) :: D)
  else none

/-- The names with a branch of their own (G 210-357). -/
def known (f : String) : Bool :=
  decide (f ∈ ["vec_elemwise_add", "matrix_elemwise_add", "vec_elemwise_sub", "matrix_elemwise_sub", "vec_scalar_mul", "matrix_scalar_mul",
    "vec_scalar_div", "matrix_scalar_div", "matrix_vec_mul", "reduce_sum", "list_take", "matrix_take", "matrix_col_slice", "matrix_row_slice",
    "list_length", "matrix_length", "matrix_transpose"]) || (loopFns.lookup f).isSome

/-- The operands of the special case (G 157-181): `vec_elemwise_add(vec_scalar_mul(..), vec_scalar_mul(..))`. -/
def fused : String → List Expr → Option (List Expr × List Expr)
  | f, .node (.call g) _ as :: .node (.call h) _ bs :: _ =>
    if (f = "vec_elemwise_add" ∨ f = "matrix_elemwise_add") ∧ g = "vec_scalar_mul" ∧ h = "vec_scalar_mul" then some (as, bs) else none
  | _, _ => none

/-- The name of a temporary variable (G 185). -/
def tempName (k : Nat) : String := "temp" ++ k.repr

/-- The arithmetic operators (G 79-83, 381-402): all arguments are integers; a division is possible only if the data type is `FLOAT`, because
`translations` has no entry `float_div`. -/
def arith (flt : Bool) (o : Op) (ps : List (Code × Ty)) : Option (Code × Ty) := do
  guard (ps.all fun p => decide (p.2 = .int))
  let a ← ps[0]?
  let b ← ps[1]?
  let o' : COp ← match o with
    | .add => some COp.add
    | .sub => some .sub
    | .mul => some .mul
    | .div => if flt then some .div else none
    | .mod => some .mod
    | _ => none
  return (.exp (.bin o' a.1.toExp b.1.toExp), .int)

/-- `isinstance(arg, Call) or isinstance(arg, Ite)` (G 184). -/
def isCall : Expr → Bool
  | .node (.call _) _ _ => true
  | .node .ite _ _ => true
  | _ => false

/-- The result of `helper`: the text and its type, the dimensions, and the number of temporary variables. -/
abbrev Res := Code × Ty × Dims × Nat

mutual
/-- `helper` (G 143-428).  `x` is `curr_var`; `vars_to_replace` is always empty.  The first argument bounds the depth of the recursion, as bodies of
synthesized functions are visited.  There are no entries for comparisons and logical operators: `KeyError`.  For the condition of an `Ite` the code
uses a dictionary of dimensions that is shared by all conditions; here it is empty.  Where the code returns a string instead of a pair, the model
raises an exception. -/
def gen (fns : List (String × Np.SynthFn)) (flt : Bool) : Nat → Expr → String → Dims → Nat → Option Res
  | 0, _, _, _, _ => none
  | _ + 1, .var y t, _, D, k => some (.exp (.name y), t, D, k)
  | _ + 1, .lit (.int i), _, D, k => some (.exp (.num i), .int, D, k)
  | _ + 1, .lit (.bool b), _, D, k => some (.exp (.bool b), .bool, D, k)
  | n + 1, .node (.call f) t args, x, D, k =>
    match fused f args with
    | some (as, bs) =>
      (genAll fns flt n as D k).bind fun (ps, D, k) =>
      (genAll fns flt n bs D k).bind fun (qs, D, k) => do
        let v ← (ps[1]?).map fun p => p.1.toExp
        let d ← dimOf D v
        let s ← (ps[0]?).map fun p => p.1.toExp
        let s' ← (qs[0]?).map fun p => p.1.toExp
        let v' ← (qs[1]?).map fun p => p.1.toExp
        return (.stms [.resadd d.1 d.2 s s' v v' x], t, (x, d) :: D, k)
    | none =>
      (genArgs fns flt n args D k).bind fun (res, ps, D, k) =>
      if f = "list_length" then do
        let a ← ps[0]?
        let d ← dimOf D a
        return (if res.isEmpty then .exp d.1 else .stms (res ++ [.bad]), t, D, k)
      else if known f then (callStms f ps x D).map fun (s, D) => (.stms (res ++ s), t, D, k)
      else match fns.lookup f with
        | some g => gen fns flt n g.body x D k
        | none => none
  | n + 1, .node .ite _ args, x, D, k =>
    match args with
    | [c, a, b] =>
      (gen fns flt n c "" [] k).bind fun (c, _, _, k) =>
      match c with
      | .exp (.bool true) => gen fns flt n a x D k
      | .exp (.bool false) => gen fns flt n b x D k
      | c => (gen fns flt n a x D k).bind fun (s, _, D, k) => (gen fns flt n b x D k).bind fun (t, _, D, k) =>
        some (.stms [.cond c.toExp s.toStms t.toStms], Np.exprTy a, D, k)
    | _ => none
  | n + 1, .node o _ args, _, D, k =>
    (genAll fns flt n args D k).bind fun (ps, D, k) => (arith flt o ps).map fun (c, t) => (c, t, D, k)
/-- `[helper(arg, vars_to_replace, "", var_dimensions) for arg in ..]` (G 166-173, 382-386). -/
def genAll (fns : List (String × Np.SynthFn)) (flt : Bool) : Nat → List Expr → Dims → Nat → Option (List (Code × Ty) × Dims × Nat)
  | _, [], D, k => some ([], D, k)
  | 0, _ :: _, _, _ => none
  | n + 1, e :: es, D, k => (gen fns flt n e "" D k).bind fun (c, t, D, k) => (genAll fns flt n es D k).bind fun (ps, D, k) => some ((c, t) :: ps, D, k)
/-- The loop over the arguments of a call (G 183-208): statements, texts of the arguments.  An argument of type `Int` or `Bool` that is a call is left out
(`continue`). -/
def genArgs (fns : List (String × Np.SynthFn)) (flt : Bool) : Nat → List Expr → Dims → Nat → Option (List Stm × List CExp × Dims × Nat)
  | _, [], D, k => some ([], [], D, k)
  | 0, _ :: _, _, _ => none
  | n + 1, e :: es, D, k =>
    if isCall e then
      (gen fns flt n e (tempName k) D (k + 1)).bind fun (c, t, D, k') =>
      if t = .list .int ∨ t = .list (.list .int) then
        (genArgs fns flt n es D k').bind fun (s, ps, D, k'') => some (.decl (tempName k) :: (c.toStms ++ s), .name (tempName k) :: ps, D, k'')
      else if t = .int ∨ t = .bool then genArgs fns flt n es D k'
      else none
    else
      (gen fns flt n e "" D k).bind fun (c, _, D, k) =>
      (genArgs fns flt n es D k).bind fun (s, ps, D, k) => some (s, c.toExp :: ps, D, k)
end

/-- `gemmini_type_helper` (G 89-100): the dimensions of a parameter. -/
def paramDims : Ty → Option (CExp × CExp)
  | .list .int | .list (.list .int) => some (len, len)
  | .int | .bool => some (.num 1, .num 1)
  | _ => none

/-- `kernel_fn` (G 442-476): the statements of the kernel for a function with the given parameters, result type and body; the result is in `out`. -/
def kernel (fns : List (String × Np.SynthFn)) (flt : Bool) (n : Nat) (params : List (String × Ty)) (ret : Ty) (body : Expr) : Option (List Stm) := do
  let D ← params.mapM fun p => (paramDims p.2).map fun d => (p.1, d)
  let d ← paramDims ret
  let r ← gen fns flt n body "out" (("out", d) :: D.reverse) 0
  return r.1.toStms

/-- The element types of C arrays; `elem_t` is `int8_t` (G 438). -/
inductive CTy where
  | int8 | uint8 | int32 | float
  deriving DecidableEq, Repr

/-- `lib_dtype` (G 483-489). -/
def libTy : Np.DType → CTy
  | .float => .float
  | .int32 => .int32
  | .uint8 => .uint8

/-- The element types of the arrays that the glue function passes to the kernel (G 116-134, 496-518): vectors are copied to arrays of `elem_t`, matrices are
passed as they are; the last one is `out`. -/
def glueTypes (d : Np.DType) (params : List (String × Ty)) (ret : Ty) : List CTy :=
  params.filterMap (fun p => if p.2 = .list .int then some .int8 else if p.2 = .list (.list .int) then some (libTy d) else none) ++
  (if ret = .list .int ∨ ret = .list (.list .int) then [libTy d] else [])

end Metalift.Gem
