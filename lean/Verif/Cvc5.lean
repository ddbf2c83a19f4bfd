import Verif.Rosette
/-
Model of the parser of CVC5's candidates, `toExpr` of `metalift/synthesize_cvc5.py` (105-228).
-/
namespace Metalift

/-- `funName`/`returnType` (their types) and `varType`; let-bound names with the expressions they stand for. -/
structure CvcEnv where
  fns : String → Option Ty
  vars : String → Option Ty

/-- `expr_bi` (`metalift/synthesize_cvc5.py` 112-124). -/
def cvcOps : List (String × Op) :=
  [("=", .eq), ("+", .add), ("-", .sub), ("*", .mul), ("<", .lt), ("<=", .le), (">", .gt), (">=", .ge), ("and", .and),
   ("or", .or), ("=>", .implies)]

/-- Calls recognised by `toExpr` (`metalift/synthesize_cvc5.py` 191-216): name of the call, number of arguments used, type. -/
def cvcCalls : List (String × String × Nat × RetTy) :=
  [("set.insert", "set-insert", 2, .setOf 0), ("set.singleton", "set-singleton", 1, .setOf 0),
   ("set.union", "set-union", 2, .same 0), ("set.minus", "set-minus", 2, .same 0),
   ("set.subset", "set-subset", 2, .const .bool), ("set.member", "set-member", 2, .const .bool)]

/-- `toExpr` for a list that starts with the string `h` and is not a `let` or an `as`, from the results for the other elements
(`metalift/synthesize_cvc5.py` 127-218). -/
def cvcNode (E : CvcEnv) (h : String) (as : List (Option Expr)) : Option Expr :=
  if let some op := cvcOps.lookup h then
    match as with
    | [a, b] => do construct op [← a, ← b]
    | [a] => if h = "-" then do construct .sub [intLit 0, ← a] else none
    | _ => none
  else if h = "not" then do
    let es ← takeArgs 1 as
    construct .not es
  else if let some ft := E.fns h then do
    let es ← takeArgs as.length as
    let t ← ft.fnRet
    some (.node (.call h) t es)
  else if h = "ite" then do
    let es ← takeArgs 3 as
    construct .ite es
  else if startsWith h "tuple" then
    if hasSub "_get" h then none
    else do
      let es ← takeArgs as.length as
      if es.length < 2 then none
      else some (.node (.call ("tuple" ++ es.length.repr)) (.tuple (es.map Expr.ty)) es)
  else if h = "set.eq" then do
    let es ← takeArgs 2 as
    construct .eq es
  else if let some (f, n, r) := cvcCalls.lookup h then do
    let es ← takeArgs n as
    let t ← r.get (es.map Expr.ty)
    some (.node (.call f) t es)
  else none

/-- `toExpr` for a string (`metalift/synthesize_cvc5.py` 219-228). -/
def cvcAtom (E : CvcEnv) (L : List (String × Expr)) (s : String) : Option Expr :=
  if isNumeric s.toList then some (intLit (numeral s.toList))
  else if s = "false" then some (boolLit false)
  else if s = "true" then some (boolLit true)
  else if let some e := L.lookup s then some e
  else (E.vars s).map (.var s)

mutual
/-- `toExpr` (`metalift/synthesize_cvc5.py` 105-228).  Of a `let` only the first binding is read (152-157). -/
def cvcToExpr (E : CvcEnv) : List (String × Expr) → SExpr → Option Expr
  | L, .atom s => cvcAtom E L s
  | L, .list (.atom "let" :: .list (.list (.atom v :: b :: w) :: bs) :: body :: rest) =>
    if (E.fns "let").isSome then
      cvcNode E "let" (cvcToExpr E L (.list (.list (.atom v :: b :: w) :: bs)) :: cvcToExpr E L body :: cvcToExprs E L rest)
    else do
      let e ← cvcToExpr E L b
      cvcToExpr E ((v, e) :: L) body
  | L, .list (.atom "as" :: .atom "set.empty" :: rest) =>
    if (E.fns "as").isSome then cvcNode E "as" (cvcAtom E L "set.empty" :: cvcToExprs E L rest)
    else some (.node (.call "set-create") (.set .int) [])
  | L, .list (.atom h :: as) => cvcNode E h (cvcToExprs E L as)
  | _, .list _ => none
def cvcToExprs (E : CvcEnv) : List (String × Expr) → List SExpr → List (Option Expr)
  | _, [] => []
  | L, a :: as => cvcToExpr E L a :: cvcToExprs E L as
end

end Metalift
