import Verif.Ir
/-
Model of the text exchanged with Rosette: printing (`to_rosette` methods of `metalift/ir.py`) and reading back
(`generate_ast`, `to_expr` of `metalift/synthesize_rosette.py`).
-/
namespace Metalift

/-! ### S-expressions -/

/-- What `generate_ast` returns: nested lists of strings. -/
inductive SExpr where
  | atom (s : String)
  | list (l : List SExpr)

inductive Token where
  | lpar
  | rpar
  | atom (cs : List Char)
  deriving DecidableEq

/-- Separators: the default whitespace of pyparsing and the parentheses. -/
def isSpace (c : Char) : Bool := c == ' ' || c == '\t' || c == '\n' || c == '\r'
def isDelim (c : Char) : Bool := isSpace c || c == '(' || c == ')'

/-- The pending atom, if any. -/
def flush (cur : List Char) : List Token := if cur.isEmpty then [] else [.atom cur]

/-- Tokens of `pp.nestedExpr(opener="(", closer=")")` (`metalift/synthesize_rosette.py` 62-69): parentheses and maximal runs of
other characters; quoted strings are not modelled. -/
def tokens (cur : List Char) : List Char → List Token
  | [] => flush cur
  | c :: cs =>
    if isSpace c then flush cur ++ tokens [] cs
    else if c == '(' then flush cur ++ .lpar :: tokens [] cs
    else if c == ')' then flush cur ++ .rpar :: tokens [] cs
    else tokens (cur ++ [c]) cs

/-- Grouping of tokens; `none` is the exception for unbalanced text or atoms outside parentheses. -/
def parseTokens : List Token → List SExpr → List (List SExpr) → Option (List SExpr)
  | [], cur, [] => some cur.reverse
  | [], _, _ :: _ => none
  | .lpar :: ts, cur, st => parseTokens ts [] (cur :: st)
  | .rpar :: _, _, [] => none
  | .rpar :: ts, cur, p :: st => parseTokens ts (.list cur.reverse :: p) st
  | .atom _ :: _, _, [] => none
  | .atom a :: ts, cur, p :: st => parseTokens ts (.atom (String.ofList a) :: cur) (p :: st)

/-- `generate_ast` (`metalift/synthesize_rosette.py` 62-69). -/
def generateAst (s : String) : Option (List SExpr) := parseTokens (tokens [] s.toList) [] []

/-! ### Printing -/

/-- `str.startswith`. -/
def startsWith (s p : String) : Bool := p.toList.isPrefixOf s.toList

/-- `Expr.get_list_fn` (`metalift/ir.py` 375-454) without the two entries that look at the type of the argument. -/
def listFns : List (String × String) :=
  [("list_get", "list-ref-noerr"), ("matrix_get", "matrix-ref-noerr"), ("tensor3d_get", "tensor3d-ref-noerr"),
   ("list_append", "list-append"), ("matrix_append", "matrix-append"), ("tensor3d_append", "tensor3d-append"),
   ("list_empty", "list-empty"), ("matrix_empty", "matrix-empty"), ("tensor3d_empty", "tensor3d-empty"),
   ("list_tail", "list-tail-noerr"), ("matrix_tail", "matrix-tail-noerr"), ("tensor3d_tail", "tensor3d-tail-noerr"),
   ("list_length", "length"), ("matrix_length", "matrix-length"), ("tensor3d_length", "tensor3d-length"),
   ("list_take", "list-take-noerr"), ("matrix_take", "matrix-take-noerr"), ("tensor3d_take", "tensor3d-take-noerr"),
   ("vec_slice", "vec-slice-noerr"), ("matrix_row_slice", "matrix-row-slice-noerr"),
   ("tensor3d_slice", "tensor3d-slice-noerr"), ("vec_slice_with_length", "vec-slice-with-length-noerr"),
   ("matrix_row_slice_with_length", "matrix-row-slice-with-length-noerr"),
   ("tensor3d_slice_with_length", "tensor3d-slice-with-length-noerr"),
   ("matrix_col_slice", "matrix-col-slice-noerr"),
   ("matrix_col_slice_with_length", "matrix-col-slice-with-length-noerr"),
   ("list_prepend", "list-prepend"), ("matrix_prepend", "matrix-prepend"), ("tensor3d_prepend", "tensor3d-prepend"),
   ("list_eq", "equal?")]

/-- The function symbol printed for a `Call` whose first argument has type `t1` (`metalift/ir.py` 2429-2470, 363-454); `none`
is an exception. -/
def callHead (f : String) (t1 : Option Ty) : Option String :=
  if startsWith f "inv" || startsWith f "ps" then some f
  else if startsWith f "list" || startsWith f "matrix" || startsWith f "vec" || startsWith f "tensor3d" then
    if f = "matrix_transpose" then
      match t1 with
      | some (.list (.list _)) => some "matrix-transpose-noerr"
      | _ => none
    else if f = "list_concat" then
      match t1 with
      | some (.list .int) => some "list-concat"
      | some (.list .bool) => some "list-concat"
      | _ => none
    else some ((listFns.lookup f).getD f)
  else if startsWith f "integer" then
    if f = "integer_sqrt" then some "integer-sqrt-noerr"
    else if f = "integer_exp" then some "integer-exp-noerr"
    else none
  else some f

/-- `RosetteName` of the operator classes (`metalift/ir.py` 1931-2360, 2787). -/
def opHead : Op → Option Ty → Option String
  | .add, _ => some "+"
  | .sub, _ => some "-"
  | .mul, _ => some "*"
  | .div, _ => some "quotient-noerr"
  | .mod, _ => some "remainder"
  | .eq, some (.set _) => some "set-eq"
  | .eq, _ => some "equal?"
  | .lt, _ => some "<"
  | .le, _ => some "<="
  | .gt, _ => some ">"
  | .ge, _ => some ">="
  | .and, _ => some "&&"
  | .or, _ => some "or"
  | .not, _ => some "!"
  | .implies, _ => some "=>"
  | .ite, _ => some "if"
  | .tuple, _ => some "make-tuple"
  | .call "ite", _ => some "if"
  | .call f, t1 => callHead f t1
  | .callValue, _ => none
  | .choose, _ => none

/-- Concatenation of strings. -/
def catAll : List String → String
  | [] => ""
  | s :: ss => s ++ catAll ss

/-- `toRosetteSimple` (`metalift/ir.py` 461-471): a space after every argument. -/
def textSimple (h : String) (as : List String) : String := "(" ++ h ++ " " ++ catAll (as.map (· ++ " ")) ++ ")"
/-- Calls of invariants and postconditions (`metalift/ir.py` 2432-2437). -/
def textInv (h : String) (as : List String) : String := "( " ++ h ++ " " ++ catAll (as.map (· ++ " ")) ++ ")"
/-- Other calls: `"(" + " ".join(...) + ")"` (`metalift/ir.py` 2465-2478). -/
def textJoin (h : String) (as : List String) : String := "(" ++ h ++ catAll (as.map (" " ++ ·)) ++ ")"

/-- Layout of a composite expression (`metalift/ir.py` 461-471, 2429-2478). -/
def nodeText (op : Op) (h : String) (as : List String) : String :=
  match op with
  | .call "ite" => textSimple h as
  | .call f =>
    if startsWith f "inv" || startsWith f "ps" then textInv h as
    else if startsWith f "list" || startsWith f "matrix" || startsWith f "vec" || startsWith f "tensor3d" ||
      startsWith f "integer" then textSimple h as
    else textJoin h as
  | .tuple => textJoin h as
  | _ => textSimple h as

/-- `Lit.to_rosette` (`metalift/ir.py` 1901-1907). -/
def litText : Lit → String
  | .int i => if i < 0 then "-" ++ i.natAbs.repr else i.natAbs.repr
  | .bool true => "true"
  | .bool false => "false"

mutual
/-- `to_rosette` (`metalift/ir.py` 1864-2582, 2756-2761); chooses and applications of function values are not modelled. -/
def rosetteText : Expr → Option String
  | .var n _ => some n
  | .lit l => some (litText l)
  | .node op _ args => do
    let h ← opHead op (args.head?.map Expr.ty)
    let as ← rosetteTexts args
    some (nodeText op h as)
def rosetteTexts : List Expr → Option (List String)
  | [] => some []
  | e :: es => do
    let s ← rosetteText e
    let ss ← rosetteTexts es
    some (s :: ss)
end

/-! ### Reading -/

/-- The constructors of the operator classes with their checks (`metalift/ir.py` 1931-2360); `none` is an exception. -/
def construct (op : Op) (args : List Expr) : Option Expr :=
  let ts := args.map Expr.ty
  match op, args with
  | .add, a :: _ | .mul, a :: _ => if ts.all (fun t => decide (t = a.ty)) then some (.node op .int args) else none
  | .sub, [a, b] | .div, [a, b] | .mod, [a, b] => if b.ty = a.ty then some (.node op .int args) else none
  | .eq, [_, _] => some (.node op .bool args)
  | .lt, [a, b] | .le, [a, b] | .gt, [a, b] | .ge, [a, b] => if b.ty = a.ty then some (.node op .bool args) else none
  | .and, _ :: _ | .or, _ :: _ => if ts.all (fun t => decide (t = .bool)) then some (.node op .bool args) else none
  | .not, [a] => if a.ty = .bool then some (.node op .bool args) else none
  | .implies, [a, b] => if a.ty = .bool ∧ b.ty = .bool then some (.node op .bool args) else none
  | .ite, [c, a, b] => if c.ty = .bool ∧ a.ty = b.ty then some (.node op a.ty args) else none
  | .tuple, _ => some (.node .tuple (.tuple ts) args)
  | _, _ => none

/-- Result types assigned by `to_expr`. -/
inductive RetTy where
  | const (t : Ty)
  | same (i : Nat)
  | elem (i : Nat)
  | listOf (i : Nat)
  | setOf (i : Nat)

def Ty.elemTy : Ty → Option Ty
  | .list t => some t
  | _ => none

def RetTy.get (r : RetTy) (ts : List Ty) : Option Ty :=
  match r with
  | .const t => some t
  | .same i => ts[i]?
  | .elem i => (ts[i]?).bind Ty.elemTy
  | .listOf i => ts[i]?.map .list
  | .setOf i => ts[i]?.map .set

/-- Operators recognised by `to_expr` (`metalift/synthesize_rosette.py` 101-117, 148-152, 373-376): Rosette name and class. -/
def readOps : List (String × Op) :=
  [("equal?", .eq), ("+", .add), ("-", .sub), ("*", .mul), ("quotient-noerr", .div), ("<", .lt), ("<=", .le), (">", .gt),
   (">=", .ge), ("&&", .and), ("or", .or), ("=>", .implies), ("remainder", .mod), ("make-tuple", .tuple)]

/-- Operators read with a fixed number of arguments, further ones being ignored: `!` (127-128), `if` (129-143), `=` (144-148),
`set-eq` (380-383). -/
def readOpsN : List (String × Op × Nat) := [("!", .not, 1), ("if", .ite, 3), ("=", .eq, 2), ("set-eq", .eq, 2)]

/-- Calls recognised by `to_expr` (`metalift/synthesize_rosette.py` 149-395): name of the call, number of arguments, type. -/
def readCalls : List (String × String × Nat × RetTy) :=
  [("length", "list_length", 1, .const .int), ("matrix-length", "matrix_length", 1, .const .int),
   ("tensor3d-length", "tensor3d_length", 1, .const .int),
   ("list-empty", "list_empty", 0, .const (.list .int)), ("matrix-empty", "matrix_empty", 0, .const (.list (.list .int))),
   ("tensor3d-empty", "tensor3d_empty", 0, .const (.list (.list (.list .int)))),
   ("matrix-append", "matrix_append", 2, .same 0), ("tensor3d-append", "tensor3d_append", 2, .same 0),
   ("list-prepend", "list_prepend", 2, .listOf 0), ("matrix-prepend", "matrix_prepend", 2, .same 1),
   ("tensor3d-prepend", "tensor3d_prepend", 2, .same 1),
   ("list-ref-noerr", "list_get", 2, .elem 0), ("matrix-ref-noerr", "matrix_get", 2, .elem 0),
   ("tensor3d-ref-noerr", "tensor3d_get", 2, .const (.list (.list .int))),
   ("list-tail-noerr", "list_tail", 2, .same 0), ("matrix-tail-noerr", "matrix_tail", 2, .same 0),
   ("tensor3d-tail-noerr", "tensor3d_tail", 2, .same 0), ("list-concat", "list_concat", 2, .same 0),
   ("list-take-noerr", "list_take", 2, .same 0), ("matrix-take-noerr", "matrix_take", 2, .same 0),
   ("tensor3d-take-noerr", "tensor3d_take", 2, .same 0), ("vec-slice-noerr", "vec_slice", 3, .same 0),
   ("matrix-row-slice-noerr", "matrix_row_slice", 3, .same 0),
   ("vec-slice-with-length-noerr", "vec_slice_with_length", 3, .same 0),
   ("matrix-row-slice-with-length-noerr", "matrix_row_slice_with_length", 3, .same 0),
   ("matrix-col-slice-noerr", "matrix_col_slice", 3, .same 0),
   ("matrix-col-slice-with-length-noerr", "matrix_col_slice_with_length", 3, .same 0),
   ("matrix-transpose-noerr", "matrix_transpose", 1, .same 0),
   ("integer-sqrt-noerr", "integer_sqrt", 1, .const .int), ("integer-exp-noerr", "integer_exp", 1, .const .int),
   ("set-create", "set-create", 0, .const (.set .int)), ("set-insert", "set-insert", 2, .setOf 0),
   ("set-singleton", "set-singleton", 1, .setOf 0), ("set-union", "set-union", 2, .same 0),
   ("set-minus", "set-minus", 2, .same 0), ("set-subset", "set-subset", 2, .const .bool),
   ("set-member", "set-member", 2, .const .bool)]

/-- Heads whose reading raises an exception or is not modelled: `list-append` calls an undefined function (167-175), `tupleGet`
cannot be constructed (377-381), maps use undefined names (396-427), `lambda`, `let`, `reduce_int`, `reduce_bool` (428-475). -/
def readFails : List String :=
  ["list-append", "tupleGet", "map-union", "map-values", "map-singleton", "map-create", "map-get", "lambda", "let",
   "reduce_int", "reduce_bool"]

/-- The first `n` arguments, all of which must have been read. -/
def takeArgs (n : Nat) (as : List (Option Expr)) : Option (List Expr) :=
  match n, as with
  | 0, _ => some []
  | _ + 1, [] => none
  | n + 1, a :: as => do
    let e ← a
    let es ← takeArgs n as
    some (e :: es)

/-- Types of functions and variables: `fnsType` and `varType`.  A function type lists the return type first.  `choices`: the productions of
the grammar by the name of their non-terminal. -/
structure ReadEnv where
  fns : String → Option Ty
  vars : String → Option Ty
  choices : List (String × Expr) := []

/-- `choices[...].args[0]`: the first alternative of a production. -/
def Expr.firstArg : Expr → Option Expr
  | .node _ _ (a :: _) => some a
  | _ => none

/-- The first alternative of the non-terminal that a variable called `n` stands for: `n.startswith("(") and n[1:-1] in choices`
(`metalift/synthesize_rosette.py` 497-498, 505-507). -/
def ntAlternative (ch : List (String × Expr)) (n : String) : Option Expr :=
  if n.toList.head? = some '(' then (ch.lookup (String.ofList n.toList.tail.dropLast)).bind Expr.firstArg else none

/-- The loop over `picked` (502-509), for at most so many iterations (`none`: it has not ended). -/
def chaseChoice (ch : List (String × Expr)) : Nat → Expr → Option Expr
  | 0, _ => none
  | k + 1, .var n t =>
    match ntAlternative ch n with
    | some a => chaseChoice ch k a
    | none => some (.var n t)
  | _ + 1, e => some e

mutual
/-- `replace_choices` (492-500): what is put in place of a non-terminal is not looked at again. -/
def replaceChoices (ch : List (String × Expr)) : Expr → Expr
  | .var n t => (ntAlternative ch n).getD (.var n t)
  | .lit l => .lit l
  | .node op t args => .node op t (replaceChoicess ch args)
def replaceChoicess (ch : List (String × Expr)) : List Expr → List Expr
  | [] => []
  | e :: es => replaceChoices ch e :: replaceChoicess ch es
end

/-- `picked.map_args(replace_choices)` (510); the argument of a variable is its name. -/
def replaceChoicesTop (ch : List (String × Expr)) : Expr → Expr
  | .node op t args => .node op t (replaceChoicess ch args)
  | e => e

/-- Reading the non-terminal `(h)` (`metalift/synthesize_rosette.py` 490-510).  Without an infinite loop, at most all productions are
visited. -/
def readChoice (ch : List (String × Expr)) (h : String) : Option Expr :=
  (((ch.lookup h).bind Expr.firstArg).bind (chaseChoice ch (ch.length + 1))).map (replaceChoicesTop ch)

/-- `get_fn_return_type` (`metalift/ir.py` 101-103). -/
def Ty.fnRet : Ty → Option Ty
  | .fn (r :: _) => some r
  | _ => none

/-- `to_expr` for a list whose first element is the string `h` (`metalift/synthesize_rosette.py` 119-512), from the results for the
other elements (an element that is not used may be unreadable). -/
def readNode (E : ReadEnv) (h : String) (as : List (Option Expr)) : Option Expr :=
  if h = "define" then (as[1]?).join
  else if h = "choose" then (as[0]?).join
  else if let some op := readOps.lookup h then do
    let es ← takeArgs as.length as
    construct op es
  else if let some (op, n) := readOpsN.lookup h then do
    let es ← takeArgs n as
    construct op es
  else if let some (f, n, r) := readCalls.lookup h then do
    let es ← takeArgs n as
    let t ← r.get (es.map Expr.ty)
    some (.node (.call f) t es)
  else if readFails.contains h then none
  else if let some ft := E.fns h then do
    let es ← takeArgs as.length as
    let t ← ft.fnRet
    some (.node (.call h) t es)
  else readChoice E.choices h

/-- `str.isnumeric` for ASCII text. -/
def isNumeric (cs : List Char) : Bool := !cs.isEmpty && cs.all Char.isDigit

/-- `int(...)` of a numeral. -/
def numeral (cs : List Char) : Nat := cs.foldl (fun n c => 10 * n + (c.toNat - '0'.toNat)) 0

/-- `to_expr` for a string (`metalift/synthesize_rosette.py` 513-525). -/
def readAtom (E : ReadEnv) (s : String) : Option Expr :=
  if isNumeric s.toList then some (intLit (numeral s.toList))
  else if s.toList.head? = some '-' ∧ isNumeric s.toList.tail then some (intLit (-(numeral s.toList.tail)))
  else if s = "true" then some (boolLit true)
  else if s = "false" then some (boolLit false)
  else if let some t := E.fns s then some (.var s t)
  else (E.vars s).map (.var s)

mutual
/-- `to_expr` (`metalift/synthesize_rosette.py` 94-525). -/
def toExpr (E : ReadEnv) : SExpr → Option Expr
  | .atom s => readAtom E s
  | .list (.atom h :: as) => readNode E h (toExprs E as)
  | .list _ => none
def toExprs (E : ReadEnv) : List SExpr → List (Option Expr)
  | [] => []
  | a :: as => toExpr E a :: toExprs E as
end

/-- Reading the definition of a function (`metalift/synthesize_rosette.py` 668-680): `to_expr(generate_ast(text)[0], ...)`. -/
def readDefinition (E : ReadEnv) (text : String) : Option Expr :=
  (generateAst text).bind (fun l => l.head?.bind (toExpr E))

/-! ### Splitting Rosette's answer -/

/-- `p in s` for strings. -/
def hasSubL (p : List Char) : List Char → Bool
  | [] => p.isEmpty
  | c :: cs => p.isPrefixOf (c :: cs) || hasSubL p cs
def hasSub (p s : String) : Bool := hasSubL p.toList s.toList

/-- The inner loop of `parse_output`: the lines up to one that contains a slash. -/
def untilSlash : List String → List String
  | [] => []
  | l :: ls => if hasSub "/" l then [] else l :: untilSlash ls

/-- `parse_output` (`metalift/synthesize_rosette.py` 72-85).  The assignment to the loop variable has no effect in Python. -/
def parseOutput : List String → List String
  | [] => []
  | l :: ls => if hasSub "define" l then (l ++ catAll (untilSlash ls)) :: parseOutput ls else parseOutput ls

end Metalift
