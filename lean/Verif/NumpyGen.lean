import Verif.ToPython
import Verif.NumpySem
/-
Model of the NumPy code generator `tests/llvm/tenspiler/codegen/numpy_codegen.py`.

As for `to_python`, text is modelled as its list of Python tokens, and `none` is an exception.
-/
namespace Metalift.Np
open Metalift Py

/-- A synthesized function, an entry of `all_synthesized_fns`: its parameters and its body. -/
structure SynthFn where
  params : List (String × Ty)
  body : Expr

/-- `({a}) o ({b})`. -/
def parenBin (o : Tok) (a b : List Tok) : List Tok := .lpar :: (a ++ .rpar :: o :: .lpar :: (b ++ [.rpar]))

/-- `np.f(p1, p2, ..)`. -/
def npCall (f : String) (ps : List (List Tok)) : List Tok := .name "np" :: .attr f :: .lpar :: (joinToks .comma ps ++ [.rpar])

/-- `axis=0`. -/
def kwZero (k : String) : List Tok := [.name k, .assign, .num 0]

/-- The operator printed for the functions of two tensors, and whether the arguments are swapped (`numpy_codegen.py` 52-83, 195-206).  The divisions get
`//`, or `/` when the data type is `FLOAT`. -/
def tensorOp (flt : Bool) (f : String) : Option (Tok × Bool) :=
  let div : Tok := if flt then .slash else .slashslash
  [("vec_elemwise_add", (Tok.plus, false)), ("matrix_elemwise_add", (.plus, false)), ("vec_scalar_add", (.plus, false)),
   ("matrix_scalar_add", (.plus, false)), ("vec_elemwise_sub", (.minus, false)), ("matrix_elemwise_sub", (.minus, false)),
   ("scalar_vec_sub", (.minus, false)), ("scalar_matrix_sub", (.minus, false)), ("vec_scalar_sub", (.minus, true)),
   ("matrix_scalar_sub", (.minus, true)), ("vec_elemwise_mul", (.star, false)), ("matrix_elemwise_mul", (.star, false)),
   ("vec_scalar_mul", (.star, false)), ("matrix_scalar_mul", (.star, false)), ("vec_elemwise_div", (div, false)),
   ("matrix_elemwise_div", (div, false)), ("scalar_vec_div", (div, false)), ("scalar_matrix_div", (div, false)),
   ("vec_scalar_div", (div, true)), ("matrix_scalar_div", (div, true))].lookup f

/-- The entries of `translations` for the other functions (`numpy_codegen.py` 84-112); `a`, `b`, `c` are `processed_args[0]`, ...  `none`: the name is not
a key.  `some none`: an `IndexError`. -/
def libText (f : String) (ps : List (List Tok)) : Option (Option (List Tok)) :=
  let one (g : List Tok → List Tok) : Option (Option (List Tok)) := some ((ps[0]?).map g)
  let two (g : List Tok → List Tok → List Tok) : Option (Option (List Tok)) := some ((ps[0]?).bind fun a => (ps[1]?).map (g a))
  let three (g : List Tok → List Tok → List Tok → List Tok) : Option (Option (List Tok)) :=
    some ((ps[0]?).bind fun a => (ps[1]?).bind fun b => (ps[2]?).map (g a b))
  match f with
  | "matrix_vec_mul" => two fun a b => npCall "matmul" [a, b]
  | "list_eq" => two fun a b => npCall "equal" [a, b]
  | "list_empty" => some (some (npCall "empty" [[.lpar, .num 0, .rpar]]))
  | "matrix_empty" => some (some (npCall "empty" [[.lpar, .num 0, .comma, .num 0, .rpar]]))
  | "list_get" => two fun a b => a ++ .lbr :: (b ++ [.rbr])
  | "matrix_get" => two fun a b => a ++ .lbr :: (b ++ [.rbr])
  | "list_append" => two fun a b =>
      npCall "concatenate" [.lbr :: (joinToks .comma [a, npCall "expand_dims" [b, kwZero "axis"]] ++ [.rbr]), kwZero "axis"]
  | "matrix_append" => two fun a b =>
      npCall "concatenate" [.lbr :: (joinToks .comma [a, npCall "expand_dims" [b, kwZero "axis"]] ++ [.rbr]), kwZero "axis"]
  | "list_prepend" => two fun a b =>
      npCall "concatenate" [.lbr :: (joinToks .comma [npCall "expand_dims" [b, kwZero "axis"], a] ++ [.rbr]), kwZero "axis"]
  | "matrix_prepand" => two fun a b =>
      npCall "concatenate" [.lbr :: (joinToks .comma [npCall "expand_dims" [b, kwZero "axis"], a] ++ [.rbr]), kwZero "axis"]
  | "list_concat" => two fun a b => npCall "concatenate" [.lbr :: (joinToks .comma [a, b] ++ [.rbr]), kwZero "dim"]
  | "list_tail" => two fun a b => a ++ .lbr :: .colon :: (b ++ [.rbr])
  | "matrix_tail" => two fun a b => a ++ .lbr :: (b ++ [.colon, .rbr])
  | "list_take" => two fun a b => a ++ .lbr :: .colon :: (b ++ [.rbr])
  | "matrix_take" => two fun a b => a ++ .lbr :: .colon :: (b ++ [.rbr])
  | "vec_slice" => three fun a b c => a ++ .lbr :: (b ++ .colon :: (c ++ [.rbr]))
  | "matrix_row_slice" => three fun a b c => a ++ .lbr :: (b ++ .colon :: (c ++ [.rbr]))
  | "vec_slice_with_length" => three fun a b c => a ++ .lbr :: (b ++ .colon :: (b ++ .plus :: (c ++ [.rbr])))
  | "matrix_row_slice_with_length" => three fun a b c => a ++ .lbr :: (b ++ .colon :: (b ++ .plus :: (c ++ [.rbr])))
  | "matrix_col_slice" => three fun a b c => a ++ .lbr :: .colon :: .comma :: (b ++ .colon :: (c ++ [.rbr]))
  | "matrix_col_slice_with_length" => three fun a b c =>
      a ++ .lbr :: .colon :: .comma :: (b ++ .colon :: (b ++ .plus :: (c ++ [.rbr])))
  | "list_length" => one fun a => a ++ [.attr "size"]
  | "matrix_length" => one fun a => a ++ [.attr "size"]
  | "matrix_transpose" => one fun a => npCall "transpose" [a]
  | "reduce_max" => one fun a => npCall "max" [a]
  | "reduce_sum" => one fun a => npCall "sum" [a]
  | "reduce_mul" => one fun a => npCall "prod" [a]
  | "integer_sqrt" => one fun a => npCall "sqrt" [a]
  | "integer_exp" => one fun a => npCall "exp" [a]
  | _ => none

/-- The keys of `translations` that are strings (`numpy_codegen.py` 51-143). -/
def callText (flt : Bool) (f : String) (ps : List (List Tok)) : Option (Option (List Tok)) :=
  match tensorOp flt f with
  | some (o, swap) => some ((ps[0]?).bind fun a => (ps[1]?).map fun b => if swap then parenBin o b a else parenBin o a b)
  | none =>
    if f = "float_div" then some ((ps[0]?).bind fun a => (ps[1]?).map fun b => parenBin .slash a b)
    else libText f ps

/-- The classes of the arithmetic operators (`numpy_codegen.py` 113-118, 231-244): text and type of the result, given texts and types of the
arguments.  Only the first two arguments are printed. -/
def arithText (flt : Bool) (o : Op) (ps : List (List Tok × Ty)) : Option (List Tok × Ty) := do
  let τ ← if ps.all (fun p => decide (p.2 = .int)) then some Ty.int else (ps.map Prod.snd).find? (fun t => decide (t ≠ .int))
  let a ← ps[0]?
  let b ← ps[1]?
  let op : Tok ← match o with
    | .add => some Tok.plus
    | .sub => some .minus
    | .mul => some .star
    | .div => some (if flt then .slash else .slashslash)
    | .mod => some .percent
    | _ => none
  return (parenBin op a.1 b.1, τ)

/-- The classes of the comparisons (`numpy_codegen.py` 119-133, 247-250). -/
def cmpText (o : Op) (ps : List (List Tok × Ty)) : Option (List Tok × Ty) := do
  let a ← ps[0]?
  let b ← ps[1]?
  let (t, f) ← match o with
    | .eq => some (CmpOp.eq, "equal")
    | .gt => some (CmpOp.gt, "greater")
    | .ge => some (CmpOp.ge, "greater_equal")
    | .lt => some (CmpOp.lt, "less")
    | .le => some (CmpOp.le, "less_equal")
    | _ => none
  if ps.all (fun p => decide (p.2 = .int)) then return (a.1 ++ .cmp t :: b.1, .bool)
  else return (npCall f [a.1, b.1], .list .bool)

/-- The classes `Not`, `And`, `Or` (`numpy_codegen.py` 134-142, 251-256). -/
def boolText (o : Op) (ps : List (List Tok × Ty)) : Option (List Tok × Ty) := do
  let prim := ps.all (fun p => decide (p.2 = .int ∨ p.2 = .bool))
  let τ : Ty := if prim then .bool else .list .bool
  let a ← ps[0]?
  match o with
  | .not => return (if prim then .knot :: a.1 else npCall "logical_not" [a.1], τ)
  | .and =>
    let b ← ps[1]?
    return (if prim then parenBin .kand a.1 b.1 else npCall "logical_and" [a.1, b.1], τ)
  | .or =>
    let b ← ps[1]?
    return (if prim then parenBin .kor a.1 b.1 else npCall "logical_or" [a.1, b.1], τ)
  | _ => none

/-- The type of an expression object (`Expr.type`, `metalift/ir.py`). -/
def exprTy : Expr → Ty
  | .var _ t => t
  | .lit (.int _) => .int
  | .lit (.bool _) => .bool
  | .node _ t _ => t

/-- The last function whose name ends in `select_two_args` (`numpy_codegen.py` 165-169); none: `UnboundLocalError`. -/
def selectFn (fns : List (String × SynthFn)) : Option SynthFn :=
  ((fns.filter (fun p => p.1.endsWith "select_two_args")).getLast?).map Prod.snd

mutual
/-- `helper` of `numpy_codegen` (`numpy_codegen.py` 151-266): text and type of an expression.  `σ` is `vars_to_replace`.  The first argument bounds the
depth of the recursion, which is not structural: bodies of synthesized functions and replacements of variables are visited too.  For
tuples, implications and calls of function values the code returns a string where a pair is expected, of which the callers
take the first character: treated as an exception. -/
def gen (fns : List (String × SynthFn)) (flt : Bool) : Nat → List (String × Expr) → Expr → Option (List Tok × Ty)
  | 0, _, _ => none
  | n + 1, σ, .var x t =>
    match σ.lookup x with
    | some e => gen fns flt n σ e
    | none => some ([.name x], t)
  | _ + 1, _, .lit l => some (l.toPython, exprTy (.lit l))
  | n + 1, σ, .node .choose _ args =>
    match args with
    | [e] => gen fns flt n σ e
    | _ => none
  | n + 1, σ, .node (.call f) t args =>
    (gens fns flt n σ args).bind fun ps =>
    if f.endsWith "matrix_selection_two_args" then do
      let sel ← selectFn fns
      let (c, a, b) ← match sel.body with
        | .node .ite _ [c, a, b] => some (c, a, b)
        | _ => none
      let (p, q) ← match sel.params with
        | p :: q :: _ => some (p, q)
        | _ => none
      let (m, m') ← match args with
        | m :: m' :: _ => some (m, m')
        | _ => none
      let τ := [(q.1, m'), (p.1, m)]
      let c ← gen fns flt n τ c
      let a ← gen fns flt n τ a
      let b ← gen fns flt n τ b
      return (npCall "where" [c.1, a.1, b.1], t)
    else if f = "map_int_to_int" ∨ f = "vec_map" then do
      let g ← fns.lookup "map_int_to_int"
      let name ← match g.body with
        | .node (.call g) _ _ => some g
        | _ => none
      if name = "integer_sqrt" ∨ name = "integer_exp" then
        let s ← (callText flt name (ps.map Prod.fst)).bind id
        return (s, t)
      else none
    else match callText flt f (ps.map Prod.fst) with
      | some s => s.map fun s => (s, t)
      | none =>
        match fns.lookup f with
        | some g => gen fns flt n [] g.body
        | none => none
  | n + 1, σ, .node .ite _ args =>
    match args with
    | [c, a, b] =>
      (gen fns flt n [] c).bind fun c =>
      if c.1 = [.tru] then gen fns flt n σ a
      else if c.1 = [.fls] then gen fns flt n σ b
      else (gen fns flt n σ a).bind fun s => (gen fns flt n σ b).bind fun t =>
        some (s.1 ++ .kif :: (c.1 ++ .kelse :: t.1), exprTy a)
    | _ => none
  | n + 1, σ, .node o _ args =>
    (gens fns flt n σ args).bind fun ps =>
      match o with
      | .add | .sub | .mul | .div | .mod => arithText flt o ps
      | .eq | .gt | .ge | .lt | .le => cmpText o ps
      | .and | .or | .not => boolText o ps
      | _ => none
/-- `[helper(arg, vars_to_replace) for arg in ..]`. -/
def gens (fns : List (String × SynthFn)) (flt : Bool) : Nat → List (String × Expr) → List Expr → Option (List (List Tok × Ty))
  | _, _, [] => some []
  | 0, _, _ :: _ => none
  | n + 1, σ, e :: es => (gen fns flt n σ e).bind fun p => (gens fns flt n σ es).bind fun ps => some (p :: ps)
end

/-- The data type of the arrays (`tests/llvm/tenspiler/codegen/utils.py` 10-14). -/
inductive DType where
  | float | uint8 | int32
  deriving DecidableEq, Repr

/-- The generated program (`numpy_codegen.py` 268-317): the parameters of both functions, those that the glue function converts to
arrays, and the expression the kernel returns.  The text of the `def` statements is not modelled. -/
structure Program where
  params : List String
  converted : List String
  body : List Tok

/-- `numpy_codegen` for a function with the given parameters and body. -/
def codegen (fns : List (String × SynthFn)) (d : DType) (n : Nat) (params : List (String × Ty)) (body : Expr) : Option Program :=
  (gen fns (decide (d = .float)) n [] body).map fun p =>
    ⟨params.map Prod.fst, (params.filter (fun p => decide (p.2 = .list .int ∨ p.2 = .list (.list .int)))).map Prod.fst, p.1⟩

/-- The local variables of the kernel when the glue function is called with the given arguments. -/
def Program.locals (w : Int → Int) (P : Program) (args : String → Val) : String → Option NV := fun x =>
  if x ∈ P.params then (if x ∈ P.converted then npArray w (args x) else npScalar (args x)) else none

/-- `Returns w P args v`: called with the arguments `args`, the generated program returns `v`. -/
def Program.Returns (w : Int → Int) (P : Program) (args : String → Val) (v : NV) : Prop :=
  ∃ a, Parses P.body a ∧ eval w (P.locals w args) a = some v

end Metalift.Np
