import Verif.GemminiSem
import Verif.NumpySpec
import Verif.Names
/-
C75: which tensor programs the generator for Gemmini is proved right for, and on which inputs.

* `SExp` and `TExp` are the integer and tensor expressions; `toExpr` is their IR.
* `TExp.ok` says that the variables are parameters of the right type, that the scalar subtracted from a tensor is no sum or difference, and that the branches of a conditional are
  no variables.
* `Holds` says that the arguments of the kernel are the values of the parameters.
* `Small` says that the elements of a tensor are in the range of `elem_t`.
-/
namespace Metalift.Gem
open Metalift Ten

/-- The operators on integers and, element by element, on tensors. -/
inductive Ar where
  | add | sub | mul
  deriving DecidableEq, Repr
/-- The operator of the IR. -/
def Ar.op : Ar → Op
  | .add => .add
  | .sub => .sub
  | .mul => .mul
/-- What it computes. -/
def Ar.run : Ar → Int → Int → Int
  | .add => (· + ·)
  | .sub => (· - ·)
  | .mul => (· * ·)

/-- Vectors or matrices. -/
inductive K where
  | vec | mat
  deriving DecidableEq, Repr
/-- The type. -/
def K.ty : K → Ty
  | .vec => .list .int
  | .mat => .list (.list .int)
/-- The functions of the target language. -/
def K.fn : K → Ar → String
  | .vec, .add => "vec_elemwise_add"
  | .vec, .sub => "vec_elemwise_sub"
  | .vec, .mul => "vec_elemwise_mul"
  | .mat, .add => "matrix_elemwise_add"
  | .mat, .sub => "matrix_elemwise_sub"
  | .mat, .mul => "matrix_elemwise_mul"
/-- Subtraction of an integer from all elements. -/
def K.subScalar : K → String
  | .vec => "vec_scalar_sub"
  | .mat => "matrix_scalar_sub"
/-- Subtraction of all elements from an integer. -/
def K.scalarSub : K → String
  | .vec => "scalar_vec_sub"
  | .mat => "scalar_matrix_sub"

/-- Integer expressions. -/
inductive SExp where
  | var (x : String)
  | lit (i : Int)
  | bin (o : Ar) (a b : SExp)
/-- Their IR. -/
def SExp.toExpr : SExp → Expr
  | .var x => .var x .int
  | .lit i => .lit (.int i)
  | .bin o a b => .node o.op .int [a.toExpr, b.toExpr]
/-- The variables are parameters. -/
def SExp.ok (params : List (String × Ty)) : SExp → Prop
  | .var x => (x, Ty.int) ∈ params
  | .lit _ => True
  | .bin _ a b => a.ok params ∧ b.ok params
/-- Not a sum or a difference. -/
def SExp.tight : SExp → Prop
  | .bin o _ _ => o = .mul
  | _ => True

/-- Tensor expressions.  `lincomb s x t y` is `s * x + t * y` for vectors `x` and `y`. -/
inductive TExp where
  | var (x : String)
  | bin (o : Ar) (a b : TExp)
  | subScalar (s : SExp) (a : TExp)
  | scalarSub (s : SExp) (a : TExp)
  | transpose (a : TExp)
  | cond (c : String) (a b : TExp)
  | lincomb (s : SExp) (x : String) (t : SExp) (y : String)
/-- Their IR. -/
def TExp.toExpr (k : K) : TExp → Expr
  | .var x => .var x k.ty
  | .bin o a b => .node (.call (k.fn o)) k.ty [a.toExpr k, b.toExpr k]
  | .subScalar s a => .node (.call k.subScalar) k.ty [s.toExpr, a.toExpr k]
  | .scalarSub s a => .node (.call k.scalarSub) k.ty [s.toExpr, a.toExpr k]
  | .transpose a => .node (.call "matrix_transpose") k.ty [a.toExpr k]
  | .cond c a b => .node .ite k.ty [.var c .bool, a.toExpr k, b.toExpr k]
  | .lincomb s x t y => .node (.call "vec_elemwise_add") (.list .int)
      [.node (.call "vec_scalar_mul") (.list .int) [s.toExpr, .var x (.list .int)],
       .node (.call "vec_scalar_mul") (.list .int) [t.toExpr, .var y (.list .int)]]
/-- A variable. -/
def TExp.isVar : TExp → Prop
  | .var _ => True
  | _ => False
/-- See above. -/
def TExp.ok (k : K) (params : List (String × Ty)) : TExp → Prop
  | .var x => (x, k.ty) ∈ params
  | .bin _ a b => a.ok k params ∧ b.ok k params
  | .subScalar s a => s.ok params ∧ s.tight ∧ a.ok k params
  | .scalarSub s a => s.ok params ∧ a.ok k params
  | .transpose a => k = .mat ∧ a.ok k params
  | .cond c a b => (c, Ty.bool) ∈ params ∧ a.ok k params ∧ b.ok k params ∧ ¬ a.isVar ∧ ¬ b.isVar
  | .lincomb s x t y => k = .vec ∧ s.ok params ∧ t.ok params ∧ (x, k.ty) ∈ params ∧ (y, k.ty) ∈ params
/-- The tensor expressions in an expression. -/
def TExp.subs : TExp → List TExp
  | .var x => [.var x]
  | .bin o a b => .bin o a b :: (a.subs ++ b.subs)
  | .subScalar s a => .subScalar s a :: a.subs
  | .scalarSub s a => .scalarSub s a :: a.subs
  | .transpose a => .transpose a :: a.subs
  | .cond c a b => .cond c a b :: (a.subs ++ b.subs)
  | .lincomb s x t y => [.lincomb s x t y]

/-- The tensor that is in an array of `L` rows and columns; a vector is in the first column. -/
def vecOf (L : Nat) (A : Nat → Nat → Int) : List Int := (List.range L).map fun i => A i 0
@[inherit_doc vecOf] def matOf (L : Nat) (A : Nat → Nat → Int) : List (List Int) := (List.range L).map fun i => (List.range L).map fun j => A i j
@[inherit_doc vecOf] def valOf (L : Nat) : K → (Nat → Nat → Int) → Val
  | .vec, A => vecV (vecOf L A)
  | .mat, A => matV (matOf L A)

/-- The range of `elem_t`. -/
def Byte (v : Int) : Prop := -128 ≤ v ∧ v ≤ 127
/-- A tensor with elements in the range of `elem_t`. -/
def Small : K → Val → Prop
  | .vec, v => ∃ xs, v = vecV xs ∧ ∀ x ∈ xs, Byte x
  | .mat, v => ∃ m, v = matV m ∧ ∀ r ∈ m, ∀ x ∈ r, Byte x

/-- Conversion and saturation do not change the values of `elem_t`. -/
structure Mach.Ok (M : Mach) : Prop where
  pos : 0 < M.len
  conv : ∀ v, Byte v → M.conv v = v
  sat : ∀ v, Byte v → M.sat v = v

/-- The arguments of the kernel are the values of the parameters. -/
structure Holds (L : Nat) (k : K) (params : List (String × Ty)) (ρ : Env) (σ : St) : Prop where
  arr : ∀ x, (x, k.ty) ∈ params → ∃ A, σ.arr x = some A ∧ ρ x = valOf L k A
  int : ∀ x, (x, Ty.int) ∈ params → ∃ i, σ.sc x = some i ∧ ρ x = .int i
  bool : ∀ x, (x, Ty.bool) ∈ params → ∃ b : Bool, σ.sc x = some (if b then 1 else 0) ∧ ρ x = .bool b

/-- The names that the generated code uses itself. -/
def Clean (x : String) : Prop := x ≠ "out" ∧ x ≠ "i" ∧ x ≠ "j" ∧ x ≠ "LEN" ∧ ∀ m : Nat, x ≠ "temp" ++ m.repr

end Metalift.Gem
