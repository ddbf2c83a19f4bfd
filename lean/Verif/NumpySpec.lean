import Verif.NumpyGen
import Verif.PTenspiler
/-
C38: which tensor programs the NumPy code generator is proved right for, and on which inputs.

* `Rep` relates NumPy values to the values of the IR.
* `check` is a decidable condition on the expression: known functions, kinds of arguments, and no text whose operator precedence comes out
  wrong.
* `Fits` says that on the given inputs the shapes match at every operation, indices are in range, divisions are of non-negative numbers by positive ones,
  and no arithmetic result leaves the range of the element type.
-/
namespace Metalift.Np
open Metalift Py Metalift.Ten

/-- Kinds of values: scalars, vectors and matrices. -/
inductive K where
  | int | bool | vec | mat
  deriving DecidableEq, Repr

/-- The kind of a type: `Int`, `Bool`, `List[Int]`, `Matrix[Int]`. -/
def kindOf : Ty → Option K
  | .int => some .int
  | .bool => some .bool
  | .list .int => some .vec
  | .list (.list .int) => some .mat
  | _ => none

/-- NumPy values and the values of the IR they stand for.  Matrices are rectangular, and those with rows have columns. -/
inductive Rep : K → NV → Val → Prop where
  | int (i : Int) : Rep .int (.arr (.sc (.int i))) (.int i)
  | bool (b : Bool) : Rep .bool (.arr (.sc (.bool b))) (.bool b)
  | vec (xs : List Int) : Rep .vec (.arr (.a1 (xs.map .int))) (vecV xs)
  | mat (c : Nat) (m : List (List Int)) : (∀ r ∈ m, r.length = c) → (m ≠ [] → 1 ≤ c) →
      Rep .mat (.arr (.a2 c (m.map fun r => r.map .int))) (matV m)

/-! ### The functions -/

/-- The four operations. -/
inductive AOp where
  | add | sub | mul | div
  deriving DecidableEq, Repr

/-- The functions of the target language the theorem covers.  `mat` distinguishes the matrix variant of a function from the vector
variant, `swap` the functions whose first argument is the second operand. -/
inductive Fn where
  | vzip (o : AOp)
  | mzip (o : AOp)
  | vsc (o : AOp) (swap : Bool)
  | msc (o : AOp) (swap : Bool)
  | mvm
  | get (mat : Bool)
  | append (mat : Bool)
  | take (mat : Bool)
  | mtail
  | slice (mat : Bool)
  | sliceLen (mat : Bool)
  | cslice
  | csliceLen
  | size
  | transpose
  | rmax
  | rsum
  | rmul
  | empty (mat : Bool)
  deriving DecidableEq, Repr

/-- Their names. -/
def fnTable : List (String × Fn) :=
  [("vec_elemwise_add", .vzip .add), ("vec_elemwise_sub", .vzip .sub), ("vec_elemwise_mul", .vzip .mul), ("vec_elemwise_div", .vzip .div),
   ("matrix_elemwise_add", .mzip .add), ("matrix_elemwise_sub", .mzip .sub), ("matrix_elemwise_mul", .mzip .mul),
   ("matrix_elemwise_div", .mzip .div), ("vec_scalar_add", .vsc .add false), ("vec_scalar_mul", .vsc .mul false),
   ("vec_scalar_sub", .vsc .sub true), ("vec_scalar_div", .vsc .div true), ("scalar_vec_sub", .vsc .sub false),
   ("scalar_vec_div", .vsc .div false), ("matrix_scalar_add", .msc .add false), ("matrix_scalar_mul", .msc .mul false),
   ("matrix_scalar_sub", .msc .sub true), ("matrix_scalar_div", .msc .div true), ("scalar_matrix_sub", .msc .sub false),
   ("scalar_matrix_div", .msc .div false), ("matrix_vec_mul", .mvm), ("list_get", .get false), ("matrix_get", .get true),
   ("list_append", .append false), ("matrix_append", .append true), ("list_take", .take false), ("matrix_take", .take true),
   ("matrix_tail", .mtail), ("vec_slice", .slice false), ("matrix_row_slice", .slice true), ("vec_slice_with_length", .sliceLen false),
   ("matrix_row_slice_with_length", .sliceLen true), ("matrix_col_slice", .cslice), ("matrix_col_slice_with_length", .csliceLen),
   ("list_length", .size), ("matrix_transpose", .transpose), ("reduce_max", .rmax), ("reduce_sum", .rsum), ("reduce_mul", .rmul),
   ("list_empty", .empty false), ("matrix_empty", .empty true)]

/-- The kind of a list or matrix. -/
def seqK (mat : Bool) : K := if mat then .mat else .vec
/-- The kind of its elements. -/
def elemK (mat : Bool) : K := if mat then .vec else .int

/-- The kinds of the arguments, and the precedence their text must have at least: 8 (names, calls, subscripts) before a
subscript or attribute, 6 (products) next to `+`. -/
def Fn.args : Fn → List (K × Nat)
  | .vzip _ => [(.vec, 0), (.vec, 0)]
  | .mzip _ => [(.mat, 0), (.mat, 0)]
  | .vsc _ _ => [(.int, 0), (.vec, 0)]
  | .msc _ _ => [(.int, 0), (.mat, 0)]
  | .mvm => [(.mat, 0), (.vec, 0)]
  | .get b => [(seqK b, 8), (.int, 0)]
  | .append b => [(seqK b, 0), (elemK b, 0)]
  | .take b => [(seqK b, 8), (.int, 0)]
  | .mtail => [(.mat, 8), (.int, 0)]
  | .slice b => [(seqK b, 8), (.int, 0), (.int, 0)]
  | .sliceLen b => [(seqK b, 8), (.int, 6), (.int, 6)]
  | .cslice => [(.mat, 8), (.int, 0), (.int, 0)]
  | .csliceLen => [(.mat, 8), (.int, 6), (.int, 6)]
  | .size => [(.vec, 8)]
  | .transpose => [(.mat, 0)]
  | .rmax => [(.vec, 0)]
  | .rsum => [(.vec, 0)]
  | .rmul => [(.vec, 0)]
  | .empty _ => []

/-- The kind of the result. -/
def Fn.res : Fn → K
  | .vzip _ | .vsc _ _ | .mvm => .vec
  | .mzip _ | .msc _ _ | .mtail | .cslice | .csliceLen | .transpose => .mat
  | .get b => elemK b
  | .append b | .take b | .slice b | .sliceLen b | .empty b => seqK b
  | .size | .rmax | .rsum | .rmul => .int

/-- The precedence of `a + b`, `a - b` and `a * b`, `a // b`. -/
def AOp.lvl : AOp → Nat
  | .add | .sub => 5
  | .mul | .div => 6

/-- The precedence of the text. -/
def Fn.lvl : Fn → Nat
  | .vzip o | .mzip o | .vsc o _ | .msc o _ => o.lvl
  | _ => 8

/-! ### The condition on expressions -/

/-- What `check` finds out about an expression: its kind, the type `helper` returns, the precedence of its text. -/
structure Info where
  k : K
  τ : Ty
  lvl : Nat
  deriving DecidableEq

/-- The arguments have the required kinds and precedences. -/
def argsOk : List (K × Nat) → List Info → Bool
  | [], [] => true
  | (k, l) :: ks, i :: is => decide (i.k = k) && decide (l ≤ i.lvl) && argsOk ks is
  | _, _ => false

mutual
/-- The names of the variables of an expression. -/
def names : Expr → List String
  | .var n _ => [n]
  | .lit _ => []
  | .node _ _ as => namess as
@[inherit_doc names] def namess : List Expr → List String
  | [] => []
  | e :: es => names e ++ namess es
end

/-- Kinds of the expressions in the body of the select function: integer or boolean; made from the elements of the matrices, or constant. -/
structure LInfo where
  bool : Bool
  arr : Bool
  deriving DecidableEq

/-- The body of the select function with parameters `p` and `q`: arithmetic, comparisons and logical operations on the parameters and constants. -/
def checkL (p q : String) : Expr → Option LInfo
  | .var x _ => if x = p ∨ x = q then some ⟨false, true⟩ else none
  | .lit (.int _) => some ⟨false, false⟩
  | .lit (.bool _) => some ⟨true, false⟩
  | .node o _ [a, b] =>
    (checkL p q a).bind fun i => (checkL p q b).bind fun j =>
      if i.arr || j.arr then
        if o ∈ [Op.add, .sub, .mul, .div, .mod] then (if i.bool || j.bool then none else some ⟨false, true⟩)
        else if o ∈ [Op.eq, .lt, .le, .gt, .ge] then (if i.bool || j.bool then none else some ⟨true, true⟩)
        else if o ∈ [Op.and, .or] then (if i.bool && j.bool then some ⟨true, true⟩ else none)
        else none
      else none
  | .node .not _ [a] => (checkL p q a).bind fun i => if i.bool && i.arr then some ⟨true, true⟩ else none
  | _ => none

/-- The select function: two parameters, and a conditional as body; the branches are integers. -/
def checkSelect (fns : List (String × SynthFn)) : Option (String × String × Expr × Expr × Expr) :=
  (selectFn fns).bind fun s =>
    match s.params, s.body with
    | [(p, _), (q, _)], .node .ite _ [c, a, b] =>
      if p ≠ q ∧ checkL p q c = some ⟨true, true⟩ ∧ (checkL p q a).map LInfo.bool = some false ∧ (checkL p q b).map LInfo.bool = some false then
        some (p, q, c, a, b) else none
    | _, _ => none

mutual
/-- Which expressions are covered. -/
def check (fns : List (String × SynthFn)) (params : List (String × Ty)) : Expr → Option Info
  | .var x t => if (x, t) ∈ params then (kindOf t).map fun k => ⟨k, t, 8⟩ else none
  | .lit (.int i) => some ⟨.int, .int, if i < 0 then 7 else 8⟩
  | .lit (.bool _) => some ⟨.bool, .bool, 8⟩
  | .node (.call "matrix_selection_two_args") t [m, m', .var _ _] =>
    (check fns params m).bind fun i => (check fns params m').bind fun j => (checkSelect fns).bind fun s =>
      if i.k = .mat ∧ j.k = .mat ∧ s.1 ∉ names m ++ names m' ∧ s.2.1 ∉ names m ++ names m' ∧ kindOf t = some .mat then some ⟨.mat, t, 8⟩ else none
  | .node (.call f) t args =>
    (fnTable.lookup f).bind fun F => (checks fns params args).bind fun is =>
      if argsOk F.args is ∧ kindOf t = some F.res then some ⟨F.res, t, F.lvl⟩ else none
  | .node .ite _ [.lit (.bool true), a, _] => check fns params a
  | .node .ite _ [.lit (.bool false), _, b] => check fns params b
  | .node .ite _ [c, a, b] =>
    (check fns params c).bind fun i => (check fns params a).bind fun j => (check fns params b).bind fun k =>
      if i.k = .bool ∧ j.k = k.k ∧ j.τ = exprTy a ∧ k.τ = exprTy a ∧ 1 ≤ i.lvl ∧ 1 ≤ j.lvl then some ⟨j.k, j.τ, 0⟩ else none
  | .node .choose _ [e] => check fns params e
  | .node .not _ [a] => (check fns params a).bind fun i =>
      if i.k = .bool then
        if i.τ = .bool then (if 3 ≤ i.lvl then some ⟨.bool, .bool, 3⟩ else none)
        else some ⟨.bool, .list .bool, 8⟩
      else none
  | .node o _ [a, b] =>
    (check fns params a).bind fun i => (check fns params b).bind fun j =>
      if i.k = .int ∧ j.k = .int then
        if o ∈ [Op.add, .sub] then some ⟨.int, .int, 5⟩
        else if o ∈ [Op.mul, .div, .mod] then some ⟨.int, .int, 6⟩
        else if o ∈ [Op.eq, .lt, .le, .gt, .ge] then (if 5 ≤ i.lvl ∧ 5 ≤ j.lvl then some ⟨.bool, .bool, 4⟩ else none)
        else none
      else if i.k = .bool ∧ j.k = .bool then
        if o = .eq then some ⟨.bool, .list .bool, 8⟩
        else if o = .and then (if i.τ = .bool ∧ j.τ = .bool then some ⟨.bool, .bool, 2⟩ else none)
        else if o = .or then (if i.τ = .bool ∧ j.τ = .bool then some ⟨.bool, .bool, 1⟩ else none)
        else none
      else none
  | _ => none
/-- `check` for all arguments. -/
def checks (fns : List (String × SynthFn)) (params : List (String × Ty)) : List Expr → Option (List Info)
  | [] => some []
  | e :: es => (check fns params e).bind fun i => (checks fns params es).bind fun is => some (i :: is)
end

/-! ### The condition on inputs -/

mutual
/-- All integers in a value. -/
def ints : Val → List Int
  | .int i => [i]
  | .list vs => intss vs
  | .tuple vs => intss vs
  | _ => []
@[inherit_doc ints] def intss : List Val → List Int
  | [] => []
  | v :: vs => ints v ++ intss vs
end

/-- All integers in the value are in the range of the element type. -/
def Fixed (w : Int → Int) (v : Val) : Prop := ∀ i ∈ ints v, w i = i

/-- Divisions are of non-negative numbers by positive ones: there the division of the backends agrees with `//`. -/
def DivOk (o : AOp) (x y : Val) : Prop := o = .div → (∀ i ∈ ints x, 0 ≤ i) ∧ ∀ j ∈ ints y, 0 < j

/-- The lengths of the rows of a matrix. -/
def rowLens (v : Val) : List Nat := v.asList.map fun r => r.asList.length

/-- The arguments `vs` of the function have matching shapes, and the result `r` does not overflow. -/
def Fn.ok (w : Int → Int) (F : Fn) (vs : List Val) (r : Val) : Prop :=
  match F, vs with
  | .vzip o, [x, y] => x.asList.length = y.asList.length ∧ DivOk o x y ∧ Fixed w r
  | .mzip o, [x, y] => x.asList ≠ [] ∧ rowLens x = rowLens y ∧ DivOk o x y ∧ Fixed w r
  | .vsc o swap, [s, x] => (if swap then DivOk o x s else DivOk o s x) ∧ Fixed w r
  | .msc o swap, [s, x] => (if swap then DivOk o x s else DivOk o s x) ∧ Fixed w r
  | .mvm, [m, v] => m.asList ≠ [] ∧ (∀ l ∈ rowLens m, l = v.asList.length) ∧ Fixed w r
  | .get _, [x, .int i] => 0 ≤ i ∧ i < x.asList.length
  | .append mat, [x, e] => mat = true → x.asList ≠ [] ∧ ∀ l ∈ rowLens x, l = e.asList.length
  | .take _, [x, .int n] => 0 ≤ n ∧ n ≤ x.asList.length
  | .mtail, [x, .int n] => 0 ≤ n ∧ n ≤ x.asList.length
  | .slice _, [x, .int a, .int b] => 0 ≤ a ∧ a ≤ b ∧ b ≤ x.asList.length
  | .sliceLen _, [x, .int a, .int n] => 0 ≤ a ∧ 0 ≤ n ∧ a + n ≤ x.asList.length ∧ w (a + n) = a + n
  | .cslice, [x, .int a, .int b] => x.asList ≠ [] ∧ 0 ≤ a ∧ a < b ∧ ∀ l ∈ rowLens x, b ≤ (l : Int)
  | .csliceLen, [x, .int a, .int n] => x.asList ≠ [] ∧ 0 ≤ a ∧ 0 < n ∧ (∀ l ∈ rowLens x, a + n ≤ (l : Int)) ∧ w (a + n) = a + n
  | .transpose, [x] => x.asList ≠ []
  | .rmax, [x] => x.asList ≠ []
  | .size, [_] => True
  | .rsum, [_] => True
  | .rmul, [_] => True
  | .empty _, [] => True
  | _, _ => False

/-- The same for the operators on integers. -/
def opOk (w : Int → Int) (o : Op) (vs : List Val) (r : Val) : Prop :=
  match o, vs with
  | .add, _ | .sub, _ | .mul, _ => Fixed w r
  | .div, [.int a, .int b] | .mod, [.int a, .int b] => 0 ≤ a ∧ 0 < b ∧ Fixed w r
  | .div, _ | .mod, _ => False
  | _, _ => True

/-- `Fits` for expressions without calls: bodies of select functions.  Operands that are not needed are exempt. -/
def ScalarFits (I : Interp) (w : Int → Int) (ρ : Env) : Expr → Prop
  | .var _ _ => True
  | .lit _ => True
  | .node .ite _ [c, a, b] => ScalarFits I w ρ c ∧ if (Metalift.eval I ρ c).asBool then ScalarFits I w ρ a else ScalarFits I w ρ b
  | .node .and _ [a, b] => ScalarFits I w ρ a ∧ ((Metalift.eval I ρ a).asBool = true → ScalarFits I w ρ b)
  | .node .or _ [a, b] => ScalarFits I w ρ a ∧ ((Metalift.eval I ρ a).asBool = false → ScalarFits I w ρ b)
  | .node .not _ [a] => ScalarFits I w ρ a
  | .node o t [a, b] => ScalarFits I w ρ a ∧ ScalarFits I w ρ b ∧
      opOk w o [Metalift.eval I ρ a, Metalift.eval I ρ b] (Metalift.eval I ρ (.node o t [a, b]))
  | _ => False

/-- The function value `g` is the select function, the matrices `m` and `n` have the same shape and rows, and the body of the
select function fits for all pairs of elements. -/
def SelectOk (fns : List (String × SynthFn)) (I : Interp) (w : Int → Int) (g : Val) (m n : List (List Int)) : Prop :=
  m ≠ [] ∧ m.map List.length = n.map List.length ∧
  ∃ s p q h, selectFn fns = some s ∧ s.params.map Prod.fst = [p, q] ∧ g = .fn h ∧
    ∀ rs ∈ m.zip n, ∀ ab ∈ rs.1.zip rs.2,
      let ρ : Env := fun x => if x = p then .int ab.1 else .int ab.2
      I.apply g [.int ab.1, .int ab.2] = Metalift.eval I ρ s.body ∧ ScalarFits I w ρ s.body

mutual
/-- On the inputs `ρ` the shapes match, and nothing overflows.  Operands that are not needed are exempt. -/
def Fits (fns : List (String × SynthFn)) (I : Interp) (w : Int → Int) (ρ : Env) : Expr → Prop
  | .var _ _ => True
  | .lit _ => True
  | .node .ite _ [c, a, b] => Fits fns I w ρ c ∧ if (Metalift.eval I ρ c).asBool then Fits fns I w ρ a else Fits fns I w ρ b
  | .node .and _ [a, b] => Fits fns I w ρ a ∧ ((Metalift.eval I ρ a).asBool = true → Fits fns I w ρ b)
  | .node .or _ [a, b] => Fits fns I w ρ a ∧ ((Metalift.eval I ρ a).asBool = false → Fits fns I w ρ b)
  | .node (.call f) t args => FitsAll fns I w ρ args ∧
      (∀ F, fnTable.lookup f = some F → F.ok w (Metalift.evals I ρ args) (Metalift.eval I ρ (.node (.call f) t args))) ∧
      (f = "matrix_selection_two_args" → ∀ m n g, Metalift.evals I ρ args = [matV m, matV n, g] → SelectOk fns I w g m n)
  | .node o t args => FitsAll fns I w ρ args ∧ opOk w o (Metalift.evals I ρ args) (Metalift.eval I ρ (.node o t args))
@[inherit_doc Fits] def FitsAll (fns : List (String × SynthFn)) (I : Interp) (w : Int → Int) (ρ : Env) : List Expr → Prop
  | [] => True
  | e :: es => Fits fns I w ρ e ∧ FitsAll fns I w ρ es
end

/-- The arguments of the generated program: integers, booleans, lists of integers, rectangular matrices with at least one element; elements in the range
of the element type. -/
def InputOk (w : Int → Int) : Ty → Val → Prop
  | .int, v => ∃ i, v = .int i
  | .bool, v => ∃ b, v = .bool b
  | .list .int, v => ∃ xs : List Int, v = vecV xs ∧ ∀ x ∈ xs, w x = x
  | .list (.list .int), v => ∃ (m : List (List Int)) (c : Nat), v = matV m ∧ m ≠ [] ∧ 1 ≤ c ∧ (∀ r ∈ m, r.length = c ∧ ∀ x ∈ r, w x = x)
  | _, _ => True

/-- The interpretation of the target language: its definitions hold, and the primitives without a definition have their meaning. -/
structure NpModel (I : Interp) : Prop where
  model : Model I
  div : ∀ a b : Int, 0 ≤ a → 0 < b → I.idiv a b = a / b
  mod : ∀ a b : Int, 0 ≤ a → 0 < b → I.imod a b = a % b
  choose : ∀ v, I.choose [v] = v
  colSlice : ∀ (m : List (List Int)) (a b : Int), 0 ≤ a → a < b → (∀ r ∈ m, b ≤ r.length) →
    I.fn "matrix_col_slice" [matV m, .int a, .int b] = matV (m.map fun r => (r.take b.toNat).drop a.toNat)
  colSliceLen : ∀ (m : List (List Int)) (a n : Int), 0 ≤ a → 0 < n → (∀ r ∈ m, a + n ≤ r.length) →
    I.fn "matrix_col_slice_with_length" [matV m, .int a, .int n] = matV (m.map fun r => (r.drop a.toNat).take n.toNat)
  transpose : ∀ (m : List (List Int)) (c : Nat), m ≠ [] → 1 ≤ c → (∀ r ∈ m, r.length = c) →
    I.fn "matrix_transpose" [matV m] = matV ((List.range c).map fun j => m.map fun r => r.getD j 0)

end Metalift.Np
