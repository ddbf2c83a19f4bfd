import Verif.SmtUtil
import Verif.Simplify
/-
Model of `llmlift_scripts/parser.py`: the translation of the Python functions written by a language model to IR functions.
-/
namespace Metalift
namespace Llm

/-- The types mypy reports, as far as `mypy_type_to_ir_type` (`llmlift_scripts/parser.py` 73-112) tells them apart. `other` is `Any`, a missing
type, or a class that is not supported. -/
inductive MTy where
  | int
  | bool
  | list (t : MTy)
  | callable (ret : MTy) (args : List MTy)
  | other

mutual
/-- `mypy_type_to_ir_type` (73-112); `none` is Python's `None`.  A list or callable type with a part that has no IR type (`List[None]`) is `none`
here: no expression of such a type can be built except its name. -/
def irTy : MTy → Option Ty
  | .int => some .int
  | .bool => some .bool
  | .list t => (irTy t).map .list
  | .callable r as => do
    let r ← irTy r
    let as ← irTys as
    some (.fn (r :: as))
  | .other => none
@[inherit_doc irTy] def irTys : List MTy → Option (List Ty)
  | [] => some []
  | t :: ts => do
    let t ← irTy t
    let ts ← irTys ts
    some (t :: ts)
end

/-- The expressions of mypy's syntax tree that `parse_node` (241-512) knows; where the code looks up `types[node]`, that type is part of the
node.  `kws` are the keywords of the arguments of a call (`CallExpr.arg_names`), `absent` stands for a missing bound of a slice or a missing
expression, `other` for every other kind of node. -/
inductive Node where
  | int (n : Nat)
  | name (x : String) (t : MTy)
  | call (f : String) (args : List Node) (kws : List (Option String)) (t : MTy)
  | op (o : String) (l r : Node)
  | unary (o : String) (e : Node)
  | list (es : List Node) (t : MTy)
  | cond (c a b : Node)
  | compare (ops : List String) (es : List Node)
  | index (b i : Node)
  | slice (b lo hi step : Node)
  | lambda (ps : List String) (body : Node) (t : MTy)
  | absent
  | other

/-- Statements of a function. -/
inductive Stmt where
  | assign (lvalues : List Node) (rvalue : Node)
  | ret (e : Node)
  | other

/-- `FuncDef`: the type is the type of the function. -/
structure FuncDef where
  name : String
  params : List String
  ret : MTy
  args : List MTy
  body : List Stmt

/-- What `func_sign` (174-195) records for a function: the names of its arguments, the IR types of its arguments, its IR type. -/
structure Sig where
  names : List String
  args : List (Option Ty)
  ret : Ty

/-- The signatures; a function is looked up from the front. -/
abbrev FnSigs := List (String × Sig)

/-- The entries of `func_sign` (175-195); `none` is the exception for a missing return type. -/
def FuncDef.sig (d : FuncDef) : Option (String × Sig) := (irTy d.ret).map fun r => (d.name, ⟨d.params, d.args.map irTy, r⟩)

/-- `mypy_parse` 173-196: entries of later functions replace those of earlier ones, so they come first here. -/
def sigsOf : List FuncDef → Option FnSigs
  | [] => some []
  | d :: ds => do
    let s ← d.sig
    let ss ← sigsOf ds
    some (ss ++ [s])

/-- The lists and dictionaries that `mypy_node_to_ir` (232-240) fills: `lambda_exprs`, `arg_name_to_count`, `fn_decls` (only functions, see
`parseArg`) and `in_calls`. -/
structure St where
  lams : List (FnDecl × String)
  counts : List (String × Nat)
  decls : List FnDecl
  inCalls : List (String × String)

/-- `is_list_type and not is_nested_list_type` (`metalift/ir.py` 38-65). -/
def flatList : Ty → Bool
  | .list (.list _) => false
  | .list _ => true
  | _ => false

/-- `is_nested_list_type` (`metalift/ir.py` 59-65) on types that come from mypy. -/
def nestedList : Ty → Bool
  | .list (.list _) => true
  | _ => false

/-- `is_primitive_type` (`metalift/ir.py` 86-87). -/
def primitive : Ty → Bool
  | .int | .bool => true
  | _ => false

/-- The call built for `len(e)` (292-304); on an argument that is not a list `get_args(ty)[0]` raises. -/
def lenCall (e : Expr) : Option Expr :=
  match e.ty with
  | .list _ => some (mkCall (if nestedList e.ty then "matrix_length" else "list_length") .int [e])
  | _ => none

/-- The binary operators (376-425).  `call` for the concatenation returns an object, not an expression; the model keeps the expression
(its type is always `List[Int]`). -/
def binary (o : String) (l r : Expr) : Option Expr :=
  if l.ty = .int ∧ r.ty = .int then
    if o = "+" then some (.node .add .int [l, r])
    else if o = "-" then some (.node .sub .int [l, r])
    else if o = "*" then some (.node .mul .int [l, r])
    else if o = "//" ∨ o = "/" then some (.node .div .int [l, r])
    else if o = "%" then some (.node .mod .int [l, r])
    else none
  else if flatList l.ty ∧ flatList r.ty then
    if o = "+" then some (mkCall "list_concat" (.list .int) [l, r]) else none
  else if l.ty = .bool ∧ r.ty = .bool then
    if o = "and" then some (mkAnd [l, r])
    else if o = "or" then some (mkOr [l, r])
    else none
  else none

/-- One comparison (450-482). -/
def comparison (o : String) (l r : Expr) : Option Expr :=
  if o = "==" then if l.ty = r.ty then some (mkEq l r) else none
  else if l.ty = .int ∧ r.ty = .int then
    if o = ">" then some (.node .gt .bool [l, r])
    else if o = "<" then some (.node .lt .bool [l, r])
    else if o = ">=" then some (.node .ge .bool [l, r])
    else if o = "<=" then some (.node .le .bool [l, r])
    else if o = "!=" then some (mkNot (mkEq l r))
    else none
  else none

/-- `base_object[index]` (487-515) with `List.__getitem__` (`metalift/ir.py` 1108-1155). -/
def getAt (b i : Expr) : Option Expr :=
  match b.ty with
  | .list t => some (mkCall (if nestedList b.ty then "matrix_get" else "list_get") t [b, i])
  | _ => none

/-- `base_object[lo:hi]`; at least one bound is there. -/
def getSlice (b : Expr) (lo hi : Option Expr) : Option Expr :=
  match b.ty with
  | .list _ =>
    match lo, hi with
    | none, some h => some (mkCall (if nestedList b.ty then "matrix_take" else "list_take") b.ty [b, h])
    | some l, none => some (mkCall (if nestedList b.ty then "matrix_tail" else "list_tail") b.ty [b, l])
    | some l, some h => some (mkCall (if nestedList b.ty then "matrix_row_slice" else "vec_slice") b.ty [b, l, h])
    | none, none => none
  | _ => none

/-- Whether `parse_node` answers with an object instead of an expression: for the concatenation of lists (411).  `create_object(base_expr.type,
base_expr)` (488) raises on it. -/
def isObject : Node → Expr → Bool
  | .op _ _ _, e => flatList e.ty
  | _, _ => false

/-- The name of a lambda expression passed for the argument `a` (341-353): an equal expression seen before keeps its name, else
`{a}_{count}`.  Equality of expressions is `Expr.__eq__`, which ignores types; on expressions that contain the object `Int(0)` of a unary minus or
the object of a list concatenation below `==` Python's answer is a different one, which is not modelled. -/
def lambdaName (a : String) (d : FnDecl) (st : St) : String × St :=
  match st.lams.find? (fun p => decide (p.1.params.map Prod.fst = d.params.map Prod.fst) &&
      (match p.1.body, d.body with | some b, some c => b.pyEq c | _, _ => false)) with
  | some p => (p.2, st)
  | none =>
    let n := (st.counts.lookup a).getD 0
    (a ++ "_" ++ toString n, { st with lams := st.lams ++ [(d, a ++ "_" ++ toString n)], counts := (a, n + 1) :: st.counts })

/-- `ite` with the checks of `Ite` (`metalift/ir.py` 695-706, 2338-2346). -/
def conditional (c a b : Expr) : Option Expr :=
  if c.ty = .bool ∧ a.ty = b.ty then
    match a.ty with
    | .fn _ => none
    | t => some (mkIte t c a b)
  else none

mutual
/-- `parse_node` (241-512) on an expression.  A lambda expression that is not an argument of a call is rejected here (the code makes a function
of it that nothing accepts later). -/
def parse (sigs : FnSigs) : Node → St → Option (Expr × St)
  | .int n, st => some (intLit n, st)
  | .name x t, st => (irTy t).map fun t => (.var x t, st)
  | .call f args _ t, st =>
    if f = "len" then
      match args with
      | [a] => do
        let (e, st) ← parse sigs a st
        let c ← lenCall e
        some (c, st)
      | _ => none
    else do
      let s ← sigs.lookup f
      if args.length = s.args.length then
        let (es, st) ← parseArgs sigs f args s.names s.args st
        if irTy t = some s.ret then some (mkCall f s.ret es, st) else none
      else none
  | .op o l r, st => do
    let (l, st) ← parse sigs l st
    let (r, st) ← parse sigs r st
    let e ← binary o l r
    some (e, st)
  | .unary o e, st =>
    if o = "-" then do
      let (e, st) ← parse sigs e st
      if e.ty = .int then some (.node .sub .int [intLit 0, e], st) else none
    else none
  | .list _ t, st =>
    match irTy t with
    | some (.list t) => some (mkCall (if primitive t then "list_empty" else "matrix_empty") (.list t) [], st)
    | _ => none
  | .cond c a b, st => do
    let (c, st) ← parse sigs c st
    let (a, st) ← parse sigs a st
    let (b, st) ← parse sigs b st
    let e ← conditional c a b
    some (e, st)
  | .compare ops es, st => do
    let (cs, st) ← parseClauses sigs ops es st
    match cs with
    | [c] => some (c, st)
    | [] => none
    | cs => some (mkAnd cs, st)
  | .index b i, st => do
    let (eb, st) ← parse sigs b st
    if isObject b eb then none
    else
      let (ei, st) ← parse sigs i st
      let e ← getAt eb ei
      some (e, st)
  | .slice b lo hi _, st => do
    let (eb, st) ← parse sigs b st
    if isObject b eb then none
    else
      let (el, st) ← parseBound sigs lo st
      let (eh, st) ← parseBound sigs hi st
      let e ← getSlice eb el eh
      some (e, st)
  | .lambda _ _ _, _ => none
  | .absent, _ => none
  | .other, _ => none
/-- A bound of a slice (490-500). -/
def parseBound (sigs : FnSigs) : Node → St → Option (Option Expr × St)
  | .absent, st => some (none, st)
  | n, st => (parse sigs n st).map fun p => (some p.1, p.2)
/-- The clauses of a comparison (446-482): operand `i` and operand `i + 1` are parsed for operator `i`. -/
def parseClauses (sigs : FnSigs) : List String → List Node → St → Option (List Expr × St)
  | [], _, st => some ([], st)
  | o :: ops, a :: b :: es, st => do
    let (l, st) ← parse sigs a st
    let (r, st) ← parse sigs b st
    let c ← comparison o l r
    let (cs, st) ← parseClauses sigs ops (b :: es) st
    some (c :: cs, st)
  | _ :: _, _, _ => none
/-- The arguments of a call of `f` (326-364) with the names and the types of the parameters. -/
def parseArgs (sigs : FnSigs) (f : String) : List Node → List String → List (Option Ty) → St → Option (List Expr × St)
  | [], _, _, st => some ([], st)
  | n :: ns, a :: as, t :: ts, st => do
    let (e, st) ← parseArg sigs f n a t st
    let (es, st) ← parseArgs sigs f ns as ts st
    some (e :: es, st)
  | _ :: _, _, _, _ => none
/-- One argument (330-364).  A lambda expression becomes a function with a name, which is added to `fn_decls`; the argument is, after
`replace_in_calls` (`llmlift_scripts/synthesis.py` 67-107), the name of the function.  If the name of a function is passed, the code adds the variable
to `fn_decls`; this is left out. -/
def parseArg (sigs : FnSigs) (f : String) : Node → String → Option Ty → St → Option (Expr × St)
  | .lambda ps body t, a, ty, st =>
    match irTy t with
    | some (.fn (r :: ts)) => do
      let (b, st) ← parse sigs body st
      let d : FnDecl := { name := "<lambda>", ret := r, params := ps.zip ts, body := some b, recursive := true }
      let fty := Ty.fn (r :: (ps.zip ts).map Prod.snd)
      if ty = some fty then
        let (g, st) := lambdaName a d st
        some (.var g fty, { st with decls := st.decls ++ [{ d with name := g }], inCalls := st.inCalls ++ [(f, g)] })
      else none
    | _ => none
  | n, _, ty, st => do
    let (e, st) ← parse sigs n st
    if ty = some e.ty then
      match e, e.ty with
      | .var g _, .fn _ => some (e, { st with inCalls := st.inCalls ++ [(f, g)] })
      | _, _ => some (e, st)
    else none
end

/-- The block of a function (261-290). -/
def parseBlock (sigs : FnSigs) : List Stmt → St → Option (Expr × St)
  | [.assign [.name x _] e, .ret (.name y _)], st => if x = y then parse sigs e st else none
  | [.ret e], st => parse sigs e st
  | _, _ => none

/-- Insertion of a parameter by name. -/
def insertParam (p : String × Ty) : List (String × Ty) → List (String × Ty)
  | [] => [p]
  | q :: qs => if p.1 ≤ q.1 then p :: q :: qs else q :: insertParam p qs

/-- `sorted(variables, key=lambda x: x.var_name())` (254); stable, on strings. -/
def sortParams : List (String × Ty) → List (String × Ty)
  | [] => []
  | p :: ps => insertParam p (sortParams ps)

/-- `create_object` for every argument (249-251); `None` as a type raises. -/
def paramVars : List String → List (Option Ty) → Option (List (String × Ty))
  | p :: ps, t :: ts => do
    let t ← t
    let r ← paramVars ps ts
    some ((p, t) :: r)
  | _, _ => some []

/-- `mypy_node_to_ir` on a function (240-260, 514-515): the parameters are sorted by name. -/
def parseDef (sigs : FnSigs) (d : FuncDef) (st : St) : Option St := do
  let s ← sigs.lookup d.name
  let ps ← paramVars d.params s.args
  let (b, st) ← parseBlock sigs d.body st
  some { st with decls := st.decls ++ [{ name := d.name, ret := s.ret, params := sortParams ps, body := some b, recursive := true }] }

/-- The loop over the functions (537-548). -/
def parseDefs (sigs : FnSigs) : List FuncDef → St → Option St
  | [], st => some st
  | d :: ds, st => (parseDef sigs d st).bind (parseDefs sigs ds)

/-- `check_solution` (518-550) after mypy: `dsl` are the functions of the target language, `n` is `expected_num_funcs`, `lams` and `counts` the two
dictionaries the caller passes. -/
def checkSolution (dsl targets : List FuncDef) (n : Nat) (lams : List (FnDecl × String)) (counts : List (String × Nat)) : Option St :=
  if targets.length = n then do
    let sigs ← sigsOf (targets ++ dsl)
    parseDefs sigs targets ⟨lams, counts, [], []⟩
  else none

end Llm
end Metalift
