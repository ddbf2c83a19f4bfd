import Verif.PySyntax
/-
Meaning of Python expressions over NumPy arrays, as far as the text produced by `tests/llvm/tenspiler/codegen/numpy_codegen.py` uses it.

This file is specification: it follows the NumPy reference ("Broadcasting", "Indexing on ndarrays", "Routines"), not the code of Metalift.

Arrays have one or two dimensions, and integer or boolean elements (no floating-point numbers).  The element type of the integer arrays is
given by the function `w` that brings an integer into its range (`w i = i % 256` for `uint8`).  `w` is applied to the result of every
arithmetic operation.  Python's own integers do not overflow, so this is only right for integers that are elements of arrays; the theorems
assume that `w` does not change the results.
-/
namespace Metalift.Np

open Py (Ast BinOp CmpOp)

/-- Scalars: Python's and NumPy's integers and booleans. -/
inductive Sc where
  | int (i : Int)
  | bool (b : Bool)
  deriving DecidableEq, Repr

/-- Scalars and arrays.  `a2 c rows` is the two-dimensional array with `c` columns (it has `c` columns even when it has no rows). -/
inductive Arr (α : Type) where
  | sc (a : α)
  | a1 (as : List α)
  | a2 (c : Nat) (rows : List (List α))
  deriving DecidableEq, Repr

/-- Values: scalars and arrays, and lists or tuples of values. -/
inductive NV where
  | arr (a : Arr Sc)
  | seq (vs : List NV)

/-- Apply a function that may fail to all elements. -/
def mapO {α β : Type} (f : α → Option β) : List α → Option (List β)
  | [] => some []
  | a :: as => (f a).bind fun b => (mapO f as).bind fun bs => some (b :: bs)

/-- Apply it to the pairs of elements of two lists of the same length. -/
def zipO {α β γ : Type} (f : α → β → Option γ) : List α → List β → Option (List γ)
  | [], [] => some []
  | a :: as, b :: bs => (f a b).bind fun c => (zipO f as bs).bind fun cs => some (c :: cs)
  | _, _ => none

/-- Broadcasting along one dimension: equal lengths, or one of them 1. -/
def bcast {α β γ : Type} (f : α → β → Option γ) (as : List α) (bs : List β) : Option (List γ) :=
  if as.length = bs.length then zipO f as bs
  else match as, bs with
    | [a], bs => mapO (f a) bs
    | as, [b] => mapO (fun a => f a b) as
    | _, _ => none

/-- The number of columns of the result of broadcasting. -/
def bcols (c d : Nat) : Option Nat := if c = d then some c else if c = 1 then some d else if d = 1 then some c else none

/-- An element-wise operation with broadcasting. -/
def Arr.zip {α β γ : Type} (f : α → β → Option γ) : Arr α → Arr β → Option (Arr γ)
  | .sc a, .sc b => (f a b).map .sc
  | .sc a, .a1 bs => (mapO (f a) bs).map .a1
  | .sc a, .a2 c m => (mapO (mapO (f a)) m).map (.a2 c)
  | .a1 as, .sc b => (mapO (fun a => f a b) as).map .a1
  | .a2 c m, .sc b => (mapO (mapO (fun a => f a b)) m).map (.a2 c)
  | .a1 as, .a1 bs => (bcast f as bs).map .a1
  | .a1 as, .a2 c m => (bcols as.length c).bind fun k => (bcast (bcast f) [as] m).map (.a2 k)
  | .a2 c m, .a1 bs => (bcols c bs.length).bind fun k => (bcast (bcast f) m [bs]).map (.a2 k)
  | .a2 c m, .a2 d n => (bcols c d).bind fun k => (bcast (bcast f) m n).map (.a2 k)

/-- An element-wise operation on one array. -/
def Arr.mapO {α β : Type} (f : α → Option β) : Arr α → Option (Arr β)
  | .sc a => (f a).map .sc
  | .a1 as => (Np.mapO f as).map .a1
  | .a2 c m => (Np.mapO (Np.mapO f) m).map (.a2 c)

/-- All elements. -/
def Arr.elems {α : Type} : Arr α → List α
  | .sc a => [a]
  | .a1 as => as
  | .a2 _ m => m.flatten

/-- Integer arithmetic.  Division of array elements by zero is 0 (with a warning). -/
def arith (w : Int → Int) (o : BinOp) : Sc → Sc → Option Sc
  | .int a, .int b =>
    match o with
    | .add => some (.int (w (a + b)))
    | .sub => some (.int (w (a - b)))
    | .mul => some (.int (w (a * b)))
    | .floordiv => some (.int (w (if b = 0 then 0 else Int.fdiv a b)))
    | .mod => some (.int (w (if b = 0 then 0 else Int.fmod a b)))
    | .truediv => none
  | _, _ => none

/-- `a o b`; division of a scalar by a scalar zero raises. -/
def binOp (w : Int → Int) (o : BinOp) (a b : Arr Sc) : Option (Arr Sc) :=
  match o, a, b with
  | .floordiv, .sc _, .sc (.int 0) => none
  | .mod, .sc _, .sc (.int 0) => none
  | _, _, _ => Arr.zip (arith w o) a b

/-- Comparison of scalars; booleans count as 0 and 1. -/
def compare (o : CmpOp) (a b : Sc) : Option Sc :=
  let i := match a with | .int i => i | .bool b => if b then 1 else 0
  let j := match b with | .int i => i | .bool b => if b then 1 else 0
  some (.bool (match o with
    | .eq => decide (i = j)
    | .lt => decide (i < j)
    | .le => decide (i ≤ j)
    | .gt => decide (i > j)
    | .ge => decide (i ≥ j)))

/-- The truth value of a scalar. -/
def Sc.truth : Sc → Bool
  | .int i => decide (i ≠ 0)
  | .bool b => b

/-- The truth value of a value; that of an array is an error (arrays with one element are not given one either). -/
def truth : NV → Option Bool
  | .arr (.sc s) => some s.truth
  | _ => none

/-- `a[i]`: negative indices count from the end. -/
def index {α : Type} (xs : List α) (i : Int) : Option α :=
  if 0 ≤ i then xs[i.toNat]? else if 0 ≤ i + xs.length then xs[(i + xs.length).toNat]? else none

/-- `a[lo:hi]`. -/
def slice {α : Type} (xs : List α) (lo hi : Option Int) : List α :=
  let l := match lo with | none => 0 | some i => Py.bound xs.length i
  let h := match hi with | none => xs.length | some i => Py.bound xs.length i
  (xs.take h).drop l

/-- The integer in a scalar. -/
def Sc.int? : Sc → Option Int
  | .int i => some i
  | .bool _ => none
/-- The integer in a value. -/
def int? : NV → Option Int
  | .arr (.sc s) => s.int?
  | _ => none
/-- The array in a value. -/
def arr? : NV → Option (Arr Sc)
  | .arr a => some a
  | .seq _ => none

/-- `a[i]` for arrays of one and of two dimensions. -/
def getItem (a : Arr Sc) (i : Int) : Option NV :=
  match a with
  | .sc _ => none
  | .a1 xs => (index xs i).map fun s => .arr (.sc s)
  | .a2 _ m => (index m i).map fun r => .arr (.a1 r)
/-- `a[lo:hi]`. -/
def getSlice (a : Arr Sc) (lo hi : Option Int) : Option NV :=
  match a with
  | .sc _ => none
  | .a1 xs => some (.arr (.a1 (slice xs lo hi)))
  | .a2 c m => some (.arr (.a2 c (slice m lo hi)))
/-- `a[:, lo:hi]`. -/
def getCols (a : Arr Sc) (lo hi : Int) : Option NV :=
  match a with
  | .a2 c m => some (.arr (.a2 (Py.bound c hi - Py.bound c lo) (m.map fun r => slice r (some lo) (some hi))))
  | _ => none

/-- The sum of integers, `none` if there is a boolean. -/
def sumO : List Sc → Option Int
  | [] => some 0
  | s :: ss => s.int?.bind fun i => (sumO ss).map (i + ·)
/-- The product. -/
def prodO : List Sc → Option Int
  | [] => some 1
  | s :: ss => s.int?.bind fun i => (prodO ss).map (i * ·)
/-- The largest of integers; no value for no integers. -/
def maxO : List Sc → Option Int
  | [] => none
  | [s] => s.int?
  | s :: ss => s.int?.bind fun i => (maxO ss).map (max i)

/-- The scalar product of two rows of the same length. -/
def dotO (w : Int → Int) (r v : List Sc) : Option Sc :=
  (zipO (fun a b => a.int?.bind fun i => b.int?.map fun j => Sc.int (i * j)) r v).bind fun ps => (sumO ps).map fun s => .int (w s)

/-- `np.transpose` of `m` with `c` columns. -/
def transpose {α : Type} (c : Nat) (m : List (List α)) : Option (List (List α)) :=
  mapO (fun j => mapO (fun r => r[j]?) m) (List.range c)

/-- `np.concatenate(.., axis=0)` of two arrays. -/
def concat : Arr Sc → Arr Sc → Option (Arr Sc)
  | .a1 as, .a1 bs => some (.a1 (as ++ bs))
  | .a2 c m, .a2 d n => if c = d then some (.a2 c (m ++ n)) else none
  | _, _ => none

/-- `np.expand_dims(a, axis=0)`. -/
def expandDims : Arr Sc → Option (Arr Sc)
  | .sc s => some (.a1 [s])
  | .a1 xs => some (.a2 xs.length [xs])
  | .a2 _ _ => none

/-- The functions of the module `np`; `kws` are the keyword arguments. -/
def npFn (w : Int → Int) (f : String) (args : List NV) (kws : List (String × NV)) : Option NV :=
  match f, args, kws with
  | "matmul", [.arr (.a2 c m), .arr (.a1 v)], [] =>
    if c = v.length then (mapO (fun r => dotO w r v) m).map fun xs => .arr (.a1 xs) else none
  | "equal", [.arr a, .arr b], [] => (Arr.zip (compare .eq) a b).map .arr
  | "greater", [.arr a, .arr b], [] => (Arr.zip (compare .gt) a b).map .arr
  | "greater_equal", [.arr a, .arr b], [] => (Arr.zip (compare .ge) a b).map .arr
  | "less", [.arr a, .arr b], [] => (Arr.zip (compare .lt) a b).map .arr
  | "less_equal", [.arr a, .arr b], [] => (Arr.zip (compare .le) a b).map .arr
  | "logical_and", [.arr a, .arr b], [] => (Arr.zip (fun s t => some (.bool (s.truth && t.truth))) a b).map .arr
  | "logical_or", [.arr a, .arr b], [] => (Arr.zip (fun s t => some (.bool (s.truth || t.truth))) a b).map .arr
  | "logical_not", [.arr a], [] => (a.mapO (fun s => some (.bool (!s.truth)))).map .arr
  | "where", [.arr c, .arr a, .arr b], [] =>
    (Arr.zip (fun s t => some (s, t)) a b).bind fun p =>
      (Arr.zip (fun (s : Sc) (t : Sc × Sc) => some (if s.truth then t.1 else t.2)) c p).map .arr
  | "empty", [.arr (.sc (.int 0))], [] => some (.arr (.a1 []))
  | "empty", [.seq [.arr (.sc (.int 0)), .arr (.sc (.int 0))]], [] => some (.arr (.a2 0 []))
  | "concatenate", [.seq [.arr a, .arr b]], [("axis", .arr (.sc (.int 0)))] => (concat a b).map .arr
  | "expand_dims", [.arr a], [("axis", .arr (.sc (.int 0)))] => (expandDims a).map .arr
  | "transpose", [.arr (.a2 c m)], [] => (transpose c m).map fun n => .arr (.a2 m.length n)
  | "transpose", [.arr (.a1 xs)], [] => some (.arr (.a1 xs))
  | "max", [.arr a], [] => (maxO a.elems).map fun i => .arr (.sc (.int i))
  | "sum", [.arr a], [] => (sumO a.elems).map fun i => .arr (.sc (.int i))
  | "prod", [.arr a], [] => (prodO a.elems).map fun i => .arr (.sc (.int i))
  | _, _, _ => none

/-- Attributes of arrays. -/
def attr : NV → String → Option NV
  | .arr (.a1 xs), "size" => some (.arr (.sc (.int xs.length)))
  | .arr (.a2 c m), "size" => some (.arr (.sc (.int (m.length * c : Nat))))
  | _, _ => none

mutual
/-- Value of an expression; `none` means that evaluation raises, or that the operation is outside this specification.  `η` are the local
variables; the module is known under the name `np`. -/
def eval (w : Int → Int) (η : String → Option NV) : Ast → Option NV
  | .name x => η x
  | .num n => some (.arr (.sc (.int n)))
  | .bool b => some (.arr (.sc (.bool b)))
  | .neg a => (eval w η a).bind fun v => (int? v).bind fun i => some (.arr (.sc (.int (-i))))
  | .bin o a b => (eval w η a).bind fun u => (eval w η b).bind fun v => (arr? u).bind fun x => (arr? v).bind fun y => (binOp w o x y).map .arr
  | .cmp o a b => (eval w η a).bind fun u => (eval w η b).bind fun v => (arr? u).bind fun x => (arr? v).bind fun y =>
      (Arr.zip (compare o) x y).map .arr
  | .and a b => (eval w η a).bind fun v => (truth v).bind fun t => if t then eval w η b else some v
  | .or a b => (eval w η a).bind fun v => (truth v).bind fun t => if t then some v else eval w η b
  | .not a => (eval w η a).bind fun v => (truth v).bind fun t => some (.arr (.sc (.bool (!t))))
  | .ite c a b => (eval w η c).bind fun v => (truth v).bind fun t => if t then eval w η a else eval w η b
  | .call (.attr (.name "np") f) as => match η "np" with
      | none => (evalArgs w η as).bind fun vs => npFn w f vs.1 vs.2
      | some _ => none
  | .call _ _ => none
  | .index a i => (eval w η a).bind fun v => (eval w η i).bind fun u => (arr? v).bind fun x => (int? u).bind fun n => getItem x n
  | .slice a lo hi => (eval w η a).bind fun v => (evalO w η lo).bind fun l => (evalO w η hi).bind fun h => (arr? v).bind fun x => getSlice x l h
  | .colSlice a lo hi => (eval w η a).bind fun v => (eval w η lo).bind fun l => (eval w η hi).bind fun h => (arr? v).bind fun x =>
      (int? l).bind fun i => (int? h).bind fun j => getCols x i j
  | .tuple as => (evals w η as).map .seq
  | .list as => (evals w η as).map .seq
  | .attr a s => (eval w η a).bind fun v => attr v s
  | .starred _ => none
  | .kwarg _ _ => none
/-- Items of a display. -/
def evals (w : Int → Int) (η : String → Option NV) : List Ast → Option (List NV)
  | [] => some []
  | a :: as => (eval w η a).bind fun v => (evals w η as).bind fun vs => some (v :: vs)
/-- Arguments of a call: positional and keyword. -/
def evalArgs (w : Int → Int) (η : String → Option NV) : List Ast → Option (List NV × List (String × NV))
  | [] => some ([], [])
  | .kwarg s a :: as => (eval w η a).bind fun v => (evalArgs w η as).bind fun vs => some (vs.1, (s, v) :: vs.2)
  | a :: as => (eval w η a).bind fun v => (evalArgs w η as).bind fun vs => some (v :: vs.1, vs.2)
/-- Value of a slice bound. -/
def evalO (w : Int → Int) (η : String → Option NV) : Option Ast → Option (Option Int)
  | none => some none
  | some a => (eval w η a).bind fun v => (int? v).bind fun i => some (some i)
end

/-- The value is an integer. -/
def isInt : Val → Bool
  | .int _ => true
  | _ => false
/-- The value is a list of `n` integers. -/
def isRow (n : Nat) : Val → Bool
  | .list ws => decide (ws.length = n) && ws.all isInt
  | _ => false

/-- `np.array(v).astype(..)` for a Python list of integers, or of at least one list of integers, all of the same length; `w` brings an integer into
the range of the element type. -/
def npArray (w : Int → Int) : Val → Option NV
  | .list vs =>
    if vs.all isInt then some (.arr (.a1 (vs.map fun v => .int (w v.asInt))))
    else match vs with
      | .list us :: _ =>
        if vs.all (isRow us.length) then some (.arr (.a2 us.length (vs.map fun v => v.asList.map fun u => .int (w u.asInt)))) else none
      | _ => none
  | _ => none

/-- A Python integer or boolean. -/
def npScalar : Val → Option NV
  | .int i => some (.arr (.sc (.int i)))
  | .bool b => some (.arr (.sc (.bool b)))
  | _ => none

end Metalift.Np
