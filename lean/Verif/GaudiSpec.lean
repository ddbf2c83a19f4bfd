import Verif.GaudiSem
import Verif.GemminiSpec
/-
C77: which tensor programs the generator for Gaudi is proved right for, and on which inputs.

* `TE` are the tensor expressions, `Gem.SExp` the integer expressions in them; `toExpr` is their IR.
* `TE.ok` says that the variables are parameters of the right type.
* `tensorOf` is the tensor of the IR that a tensor of Gaudi contains.
* `Given` says that the arguments of the kernel are the values of the parameters.
* `InRange` says that the elements of a value are in the range of the data type.
* `Clean` excludes the names that kernels use themselves; `Proper` says that parameters are integers or lists with such names.
* `Covers` are the places that a part of the index space stands for, `Inside` the places of the tensor.
-/
namespace Metalift.Gaudi
open Metalift Metalift.Ten
open Metalift.Gem (Ar K SExp)

/-- The operation on a tensor and an integer on its right: `matrix_scalar_sub(s, a)` is `a - s`. -/
def right : K → Ar → String
  | .vec, .add => "vec_scalar_add"
  | .vec, .sub => "vec_scalar_sub"
  | .vec, .mul => "vec_scalar_mul"
  | .mat, .add => "matrix_scalar_add"
  | .mat, .sub => "matrix_scalar_sub"
  | .mat, .mul => "matrix_scalar_mul"
/-- The difference of an integer on the left and a tensor: `scalar_matrix_sub(s, a)` is `s - a`. -/
def left : K → String
  | .vec => "scalar_vec_sub"
  | .mat => "scalar_matrix_sub"

/-- Tensor expressions. -/
inductive TE where
  | var (x : String)
  | bin (o : Ar) (a b : TE)
  | right (o : Ar) (s : SExp) (a : TE)
  | left (s : SExp) (a : TE)
/-- Their IR. -/
def TE.toExpr (k : K) : TE → Expr
  | .var x => .var x k.ty
  | .bin o a b => .node (.call (k.fn o)) k.ty [a.toExpr k, b.toExpr k]
  | .right o s a => .node (.call (Gaudi.right k o)) k.ty [s.toExpr, a.toExpr k]
  | .left s a => .node (.call (Gaudi.left k)) k.ty [s.toExpr, a.toExpr k]
/-- The variables are parameters. -/
def TE.ok (k : K) (params : List (String × Ty)) : TE → Prop
  | .var x => (x, k.ty) ∈ params
  | .bin _ a b => a.ok k params ∧ b.ok k params
  | .right _ s a => s.ok params ∧ a.ok k params
  | .left s a => s.ok params ∧ a.ok k params

/-- The integer expressions in an integer expression. -/
def intSubs : SExp → List SExp
  | .var x => [.var x]
  | .lit i => [.lit i]
  | .bin o a b => .bin o a b :: (intSubs a ++ intSubs b)
/-- The tensor expressions in an expression. -/
def TE.subs : TE → List TE
  | .var x => [.var x]
  | .bin o a b => .bin o a b :: (a.subs ++ b.subs)
  | .right o s a => .right o s a :: a.subs
  | .left s a => .left s a :: a.subs
/-- The integer expressions in a tensor expression. -/
def TE.ints : TE → List SExp
  | .var _ => []
  | .bin _ a b => a.ints ++ b.ints
  | .right _ s a => intSubs s ++ a.ints
  | .left s a => intSubs s ++ a.ints

/-- The value in the first `w` elements of a vector, or in the first `w` columns and `h` rows of a matrix; the first coordinate is the column. -/
def tensorOf (w h : Nat) : K → Tensor → Val
  | .vec, T => vecV ((List.range w).map fun (x : Nat) => T x 0)
  | .mat, T => matV ((List.range h).map fun (y : Nat) => (List.range w).map fun (x : Nat) => T x y)

/-- The arguments of the kernel are the values of the parameters. -/
structure Given (w h : Nat) (k : K) (params : List (String × Ty)) (ρ : Env) (scal : String → Int) (tens : String → Tensor) : Prop where
  ten : ∀ x, (x, k.ty) ∈ params → ρ x = tensorOf w h k (tens x)
  int : ∀ x, (x, Ty.int) ∈ params → ρ x = .int (scal x)

/-- The integers of a data type. -/
def DT.has : DT → Int → Prop
  | .u8, v => 0 ≤ v ∧ v < 256
  | .i32, v => -2147483648 ≤ v ∧ v < 2147483648
  | .f32, _ => False
/-- All integers in a value are in the range. -/
inductive InRange (d : DT) : Val → Prop
  | int {i : Int} : d.has i → InRange d (.int i)
  | list {vs : List Val} : (∀ v ∈ vs, InRange d v) → InRange d (.list vs)

/-- No name that kernels use. -/
def Clean (x : String) : Prop := x ∉ outer ∧ x ≠ "i" ∧ x ≠ "j" ∧ ∀ n : Nat, x ≠ "v" ++ n.repr

/-- The coordinates in an index space, which counts vectors in the first dimension. -/
def Covers (d : DT) (k : K) (a b a' b' : Int) (x y : Int) : Prop :=
  a * lanes d ≤ x ∧ x < b * lanes d ∧ match k with | .vec => y = 0 | .mat => a' ≤ y ∧ y < b'

/-- The place is in the tensor. -/
def Inside (w h : Nat) (k : K) (x y : Int) : Prop := 0 ≤ x ∧ x < w ∧ match k with | .vec => y = 0 | .mat => 0 ≤ y ∧ y < h

/-- The types and names that the parameters must have; the tensor for the result of `f` is called `f_rv`. -/
structure Proper (f : String) (params : List (String × Ty)) : Prop where
  types : ∀ p ∈ params, p.2 = .int ∨ ∃ t, p.2 = .list t
  distinct : (params.map Prod.fst ++ [f ++ "_rv"]).Nodup
  clean : ∀ x ∈ params.map Prod.fst ++ [f ++ "_rv"], Clean x

end Metalift.Gaudi
