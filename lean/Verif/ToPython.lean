import Verif.PySyntax
/-
Model of the `to_python` methods of `metalift/ir.py` (Python text of expressions, used in the prompts of `llmlift_scripts`).

The text is modelled as its list of Python tokens; `none` is an exception.  Variable and function names are assumed to be Python
identifiers that are not keywords.
-/
namespace Metalift

open Py (Tok)

/-- `sep.join(parts)`. -/
def joinToks (sep : Tok) : List (List Tok) → List Tok
  | [] => []
  | [p] => p
  | p :: ps => p ++ sep :: joinToks sep ps

/-- `Lit.to_python` (`metalift/ir.py` 1916-1917): `str(val)`. -/
def Lit.toPython : Lit → List Tok
  | .int i => if i < 0 then [.minus, .num i.natAbs] else [.num i.natAbs]
  | .bool true => [.tru]
  | .bool false => [.fls]

/-- `Call.to_python` (`metalift/ir.py` 2562-2583), given the texts of the arguments; `processed_args[i]` raises `IndexError` when there
is no such argument. -/
def callToPython (f : String) (ps : List (List Tok)) : Option (List Tok) :=
  if f ∈ ["list_length", "matrix_length"] then do
    let a ← ps[0]?
    return .name "len" :: .lpar :: (a ++ [.rpar])
  else if f ∈ ["list_get", "matrix_get"] then do
    let a ← ps[0]?
    let i ← ps[1]?
    return a ++ .lbr :: (i ++ [.rbr])
  else if f ∈ ["list_prepend", "matrix_prepend"] then do
    let a ← ps[0]?
    let l ← ps[1]?
    return .lbr :: (a ++ .comma :: .star :: (l ++ [.rbr]))
  else if f ∈ ["list_append", "matrix_append"] then do
    let l ← ps[0]?
    let a ← ps[1]?
    return .lbr :: .star :: (l ++ .comma :: (a ++ [.rbr]))
  else if f ∈ ["list_empty", "matrix_empty"] then
    return [.lbr, .rbr]
  else if f ∈ ["list_tail", "matrix_tail"] then do
    let a ← ps[0]?
    let i ← ps[1]?
    return a ++ .lbr :: (i ++ [.colon, .rbr])
  else if f ∈ ["list_take", "matrix_take"] then do
    let a ← ps[0]?
    let i ← ps[1]?
    return a ++ .lbr :: .colon :: (i ++ [.rbr])
  else if f ∈ ["vec_slice", "matrix_row_slice"] then do
    let a ← ps[0]?
    let i ← ps[1]?
    let j ← ps[2]?
    return a ++ .lbr :: (i ++ .colon :: (j ++ [.rbr]))
  else if f ∈ ["vec_slice_with_length", "matrix_row_slice_with_length"] then do
    let a ← ps[0]?
    let i ← ps[1]?
    let n ← ps[2]?
    return a ++ .lbr :: (i ++ .colon :: (i ++ .plus :: (n ++ [.rbr])))
  else
    return .name f :: .lpar :: (joinToks .comma ps ++ [.rpar])

/-- `to_python` of the composite classes, given the texts of the arguments: `Add` 1950-1951, `Sub` 1978-1979, `Mul` 2006-2007, `Div` 2032-2033,
`Mod` 2064-2065, `Eq` 2100-2102, `Lt` 2132-2133, `Le` 2163-2164, `Gt` 2194-2195, `Ge` 2225-2226, `And` 2252-2253, `Or` 2280-2281,
`Not` 2304-2305, `Ite` 2365-2366, `CallValue` 2698-2699, `TupleExpr` 2772-2773 (all `metalift/ir.py`).  `Implies` (2311) and `Choose` (2963) inherit
`Expr.to_python` (337-338), which raises `NotImplementedError`. -/
def opToPython : Op → List (List Tok) → Option (List Tok)
  | .add, ps => some (joinToks .plus ps)
  | .mul, ps => some (joinToks .star ps)
  | .sub, [a, b] => some (.lpar :: (a ++ .minus :: (b ++ [.rpar])))
  | .div, [a, b] => some (.lpar :: (a ++ .slashslash :: (b ++ [.rpar])))
  | .mod, [a, b] => some (.lpar :: (a ++ .percent :: (b ++ [.rpar])))
  | .eq, [a, b] => some (a ++ .cmp .eq :: b)
  | .lt, [a, b] => some (a ++ .cmp .lt :: b)
  | .le, [a, b] => some (a ++ .cmp .le :: b)
  | .gt, [a, b] => some (a ++ .cmp .gt :: b)
  | .ge, [a, b] => some (a ++ .cmp .ge :: b)
  | .and, ps => some (joinToks .kand ps)
  | .or, ps => some (joinToks .kor ps)
  | .not, [a] => some (.knot :: a)
  | .ite, [c, a, b] => some (.lpar :: (a ++ .kif :: (c ++ .kelse :: (b ++ [.rpar]))))
  | .tuple, ps => some (.lpar :: (joinToks .comma ps ++ [.rpar]))
  | .call f, ps => callToPython f ps
  | .callValue, v :: ps => some (v ++ .lpar :: (joinToks .comma ps ++ [.rpar]))
  | _, _ => none

mutual
/-- `Expr.to_python` (`metalift/ir.py`): `Var` 1873-1874, `Lit` 1916-1917, composite classes as in `opToPython`. -/
def Expr.toPython : Expr → Option (List Tok)
  | .var n _ => some [.name n]
  | .lit l => some l.toPython
  | .node op _ args => (Expr.toPythons args).bind (opToPython op)
/-- `[arg.to_python() for arg in args]`. -/
def Expr.toPythons : List Expr → Option (List (List Tok))
  | [] => some []
  | e :: es => (Expr.toPython e).bind fun t => (Expr.toPythons es).bind fun ts => some (t :: ts)
end

end Metalift
