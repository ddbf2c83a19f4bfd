import Verif.VcUtil
/-
Model of the Python frontend `metalift/frontend/python.py`: the statement language, the
read/write analysis, the translation of expressions and the generation of verification conditions.

The concrete semantics of the analysed programs (`pyEval`, `Exec`) is the specification: it is
Python's behaviour on the supported subset and does not mention the generator.

Simplifications:
* a block `[s1, ..., sn]` is `seq s1 (seq ... skip)`; a missing `else` is `skip`;
* lists and sets are values (two variables never denote the same mutable object);
* loops carry a label that stands for the identity of the AST node; the name of the invariant is a
  function of the label (the code numbers the loops in the order of first visit, see `Tracker` in
  `PyTracker.lean`);
* printing is dropped.
-/
namespace Metalift

/-! ### Syntax of the analysed programs -/

/-- Comparison operators (`python.py` 694-709).  `other` stands for `!=`, `is`, `in`, ..., which
`process_comparison` rejects. -/
inductive CmpOp where
  | gt | lt | eq | ge | le | other
  deriving DecidableEq, Repr

/-- Binary operators (`python.py` 712-739). -/
inductive BinOp where
  | add | sub | mul | floordiv | truediv | mod | and | or
  deriving DecidableEq, Repr

/-- Python expressions visited by `VCVisitor` (`python.py` 678-815).  Tuples are left out:
`to_object_type` (128-152) rejects every variable and result of tuple type. -/
inductive PyExpr where
  | int (i : Int)
  | name (x : String)
  | cmp (ops : List CmpOp) (operands : List PyExpr)
  | bin (op : BinOp) (l r : PyExpr)
  | neg (e : PyExpr)
  | len (e : PyExpr)
  | index (base idx : PyExpr)
  | emptyList
  | call (f : String) (t : Ty) (args : List PyExpr)

/-- Python statements visited by `VCVisitor` (`python.py` 355-655, 771-808). -/
inductive Stmt where
  | skip
  | seq (a b : Stmt)
  | assign (x : String) (e : PyExpr)
  | append (x : String) (e : PyExpr)
  | setAdd (x : String) (e : PyExpr)
  | setRemove (x : String) (e : PyExpr)
  | ret (e : PyExpr)
  | ite (c : PyExpr) (thn els : Stmt)
  | loop (lbl : Nat) (c : PyExpr) (body : Stmt)

/-! ### Python's behaviour (specification) -/

/-- Stores; `none` means the variable is not bound. -/
abbrev Store := String → Option Val

/-- Python's integer comparison. -/
def CmpOp.run : CmpOp → Int → Int → Option Bool
  | .gt, a, b => some (decide (a > b))
  | .lt, a, b => some (decide (a < b))
  | .eq, a, b => some (decide (a = b))
  | .ge, a, b => some (decide (a ≥ b))
  | .le, a, b => some (decide (a ≤ b))
  | .other, _, _ => none

/-- Python's `xs[i]`: negative indices count from the end, `IndexError` outside. -/
def pyIndex (vs : List Val) (i : Int) : Option Val :=
  if 0 ≤ i then vs[i.toNat]? else if 0 ≤ i + vs.length then vs[(i + vs.length).toNat]? else none

/-- `s.add(v)`. -/
def pySetAdd (vs : List Val) (v : Val) : List Val := if v ∈ vs then vs else vs ++ [v]

/-- `s.remove(v)`; raises `KeyError` when absent. -/
def pySetRemove (vs : List Val) (v : Val) : Option (List Val) :=
  if v ∈ vs then some (vs.filter (fun w => decide (w ≠ v))) else none

/-- Python's `a // b`; raises `ZeroDivisionError`. -/
def pyFloordiv (a b : Int) : Option Int := if b = 0 then none else some (Int.fdiv a b)

/-- The operations of a run; `none` is an exception.  The instance `python` is Python's behaviour and is the one meant wherever no other is
named.  (The other one, in `PEndToEnd.lean`, gives up where the solver's operations differ from Python's.) -/
class PyOps where
  index : List Val → Int → Option Val
  floordiv : Int → Int → Option Int
  setAdd : List Val → Val → List Val
  setRemove : List Val → Val → Option (List Val)

/-- Python's operations. -/
instance python : PyOps := ⟨pyIndex, pyFloordiv, pySetAdd, pySetRemove⟩

section Runs
variable [PyOps]

/-- Arithmetic of Python's binary operators on integers; `none` is an exception. -/
def BinOp.run : BinOp → Int → Int → Option Int
  | .add, a, b => some (a + b)
  | .sub, a, b => some (a - b)
  | .mul, a, b => some (a * b)
  | .floordiv, a, b => PyOps.floordiv a b
  | .mod, a, b => if b = 0 then none else some (Int.fmod a b)
  | _, _, _ => none

mutual
/-- The value of a Python expression; `none` means that an exception is raised.  `and`, `or` and
comparison chains stop early.  Calls of uninterpreted functions are given by `I`. -/
def pyEval (I : Interp) (s : Store) : PyExpr → Option Val
  | .int i => some (.int i)
  | .name x => s x
  | .cmp ops (e :: es) =>
    match pyEval I s e with
    | some (.int a) => (pyChain I s a ops es).map .bool
    | _ => none
  | .cmp _ [] => none
  | .bin .and l r =>
    match pyEval I s l with
    | some (.bool false) => some (.bool false)
    | some (.bool true) => match pyEval I s r with
      | some (.bool b) => some (.bool b)
      | _ => none
    | _ => none
  | .bin .or l r =>
    match pyEval I s l with
    | some (.bool true) => some (.bool true)
    | some (.bool false) => match pyEval I s r with
      | some (.bool b) => some (.bool b)
      | _ => none
    | _ => none
  | .bin op l r =>
    match pyEval I s l, pyEval I s r with
    | some (.int a), some (.int b) => (op.run a b).map .int
    | _, _ => none
  | .neg e => match pyEval I s e with
    | some (.int a) => some (.int (-a))
    | _ => none
  | .len e => match pyEval I s e with
    | some (.list vs) => some (.int vs.length)
    | _ => none
  | .index b i =>
    match pyEval I s b, pyEval I s i with
    | some (.list vs), some (.int k) => PyOps.index vs k
    | _, _ => none
  | .emptyList => some (.list [])
  | .call f _ args => (pyEvals I s args).map (I.fn f)
/-- Comparison chain `a op1 e1 op2 e2 ...` with `a` already evaluated. -/
def pyChain (I : Interp) (s : Store) (a : Int) : List CmpOp → List PyExpr → Option Bool
  | [], [] => some true
  | op :: ops, e :: es =>
    match pyEval I s e with
    | some (.int b) => match op.run a b with
      | some true => pyChain I s b ops es
      | some false => some false
      | none => none
    | _ => none
  | _, _ => none
/-- Arguments from left to right. -/
def pyEvals (I : Interp) (s : Store) : List PyExpr → Option (List Val)
  | [] => some []
  | e :: es => match pyEval I s e with
    | some v => (pyEvals I s es).map (v :: ·)
    | none => none
end

/-- Update of a store. -/
def Store.set (s : Store) (x : String) (v : Val) : Store := fun y => if y = x then some v else s y

/-- How a statement ends (runs that raise an exception or do not terminate have no outcome). -/
inductive Outcome where
  | normal (s : Store)
  | returned (v : Val)

/-- Terminating runs of a statement (big-step semantics of Python). -/
inductive Exec (I : Interp) : Store → Stmt → Outcome → Prop where
  | skip {s} : Exec I s .skip (.normal s)
  | seq {s a b s' o} : Exec I s a (.normal s') → Exec I s' b o → Exec I s (.seq a b) o
  | seqRet {s a b v} : Exec I s a (.returned v) → Exec I s (.seq a b) (.returned v)
  | assign {s x e v} : pyEval I s e = some v → Exec I s (.assign x e) (.normal (s.set x v))
  | append {s x e vs v} : s x = some (.list vs) → pyEval I s e = some v →
      Exec I s (.append x e) (.normal (s.set x (.list (vs ++ [v]))))
  | setAdd {s x e vs v} : s x = some (.list vs) → pyEval I s e = some v →
      Exec I s (.setAdd x e) (.normal (s.set x (.list (PyOps.setAdd vs v))))
  | setRemove {s x e vs v ws} : s x = some (.list vs) → pyEval I s e = some v →
      PyOps.setRemove vs v = some ws → Exec I s (.setRemove x e) (.normal (s.set x (.list ws)))
  | ret {s e v} : pyEval I s e = some v → Exec I s (.ret e) (.returned v)
  | iteT {s c t e o} : pyEval I s c = some (.bool true) → Exec I s t o → Exec I s (.ite c t e) o
  | iteF {s c t e o} : pyEval I s c = some (.bool false) → Exec I s e o → Exec I s (.ite c t e) o
  | loopF {s l c b} : pyEval I s c = some (.bool false) → Exec I s (.loop l c b) (.normal s)
  | loopT {s l c b s' o} : pyEval I s c = some (.bool true) → Exec I s b (.normal s') →
      Exec I s' (.loop l c b) o → Exec I s (.loop l c b) o
  | loopRet {s l c b v} : pyEval I s c = some (.bool true) → Exec I s b (.returned v) →
      Exec I s (.loop l c b) (.returned v)

end Runs

/-! ### Read/write analysis -/

mutual
/-- Names visited by `RWVarsVisitor.visit_name_expr` below an expression (`python.py` 181-201); the
name of a called function is not visited. -/
def PyExpr.names : PyExpr → List String
  | .int _ => []
  | .name x => [x]
  | .cmp _ es => PyExpr.namess es
  | .bin _ l r => l.names ++ r.names
  | .neg e => e.names
  | .len e => e.names
  | .index b i => b.names ++ i.names
  | .emptyList => []
  | .call _ _ args => PyExpr.namess args
def PyExpr.namess : List PyExpr → List String
  | [] => []
  | e :: es => e.names ++ PyExpr.namess es
end

/-- `RWVarsVisitor.writes` after visiting a statement (`python.py` 170-201): assignments
write their target, `append`/`add`/`remove` on a name write that name.  (A Python set; order and repetitions
do not matter, the types are those of `Ctx.types`.) -/
def Stmt.writes : Stmt → List String
  | .skip => []
  | .seq a b => a.writes ++ b.writes
  | .assign x _ => [x]
  | .append x _ => [x]
  | .setAdd x _ => [x]
  | .setRemove x _ => [x]
  | .ret _ => []
  | .ite _ t e => t.writes ++ e.writes
  | .loop _ _ b => b.writes

/-- `RWVarsVisitor.reads` after visiting a statement (`python.py` 181-201). -/
def Stmt.reads : Stmt → List String
  | .skip => []
  | .seq a b => a.reads ++ b.reads
  | .assign _ e => e.names
  | .append x e => x :: e.names
  | .setAdd x e => x :: e.names
  | .setRemove x e => x :: e.names
  | .ret e => e.names
  | .ite c t e => c.names ++ t.reads ++ e.reads
  | .loop _ c b => c.names ++ b.reads

/-! ### Symbolic states -/

/-- `State.vars` (`python.py` 101-125), a dictionary in insertion order. -/
abbrev SymVars := List (String × Expr)

/-- `State.read` (119-122); `none` is the `RuntimeError`. -/
def SymVars.read (vs : SymVars) (x : String) : Option Expr := vs.lookup x

/-- `State.write` (124-125): replaces the value or appends a new key. -/
def SymVars.write : SymVars → String → Expr → SymVars
  | [], x, e => [(x, e)]
  | (y, f) :: vs, x, e => if y = x then (x, e) :: vs else (y, f) :: SymVars.write vs x e

/-- `State` (`python.py` 101-117).  `leaked` is not a field of the class: it records the value of
the dictionary object the state was created with, once `vars` has been rebound to another
dictionary (636, 638). -/
structure PState where
  precond : List Expr
  vars : SymVars
  asserts : List Expr
  hasReturned : Bool
  leaked : Option SymVars := none

/-! ### Translation of expressions -/

/-- `process_comparison` (`python.py` 694-709) with `Int.__gt__` etc. (`ir.py` 1009-1043). -/
def processComparison (op : CmpOp) (l r : Expr) : Option Expr :=
  if l.ty = .int ∧ r.ty = .int then
    match op with
    | .gt => some (.node .gt .bool [l, r])
    | .lt => some (.node .lt .bool [l, r])
    | .eq => some (.node .eq .bool [l, r])
    | .ge => some (.node .ge .bool [l, r])
    | .le => some (.node .le .bool [l, r])
    | .other => none
  else none

/-- The loop of `visit_comparison_expr` (`python.py` 688-692): `e = e and process(...)`.  The
object `e` is truthy, so Python's `and` evaluates to its right operand. -/
def comparisonLoop : Expr → List CmpOp → List Expr → Option Expr
  | e, [], _ => some e
  | _, op :: ops, l :: r :: rest =>
    match processComparison op l r with
    | some e' => comparisonLoop e' ops (r :: rest)
    | none => none
  | _, _ :: _, _ => none

/-- `visit_comparison_expr` (`python.py` 685-692) on translated operands. -/
def visitComparison : List CmpOp → List Expr → Option Expr
  | op :: ops, l :: r :: rest =>
    match processComparison op l r with
    | some e => comparisonLoop e ops (r :: rest)
    | none => none
  | _, _ => none

/-- `visit_op_expr` (`python.py` 712-739).  `//` on lists (`ir.py` 1500ff) is treated as an
error. -/
def visitOp (op : BinOp) (l r : Expr) : Option Expr :=
  match op with
  | .add => if l.ty = .int ∧ r.ty = .int then some (.node .add .int [l, r]) else none
  | .sub => if l.ty = .int ∧ r.ty = .int then some (.node .sub .int [l, r]) else none
  | .mul => if l.ty = .int ∧ r.ty = .int then some (.node .mul .int [l, r]) else none
  | .floordiv => if l.ty = .int ∧ r.ty = .int then some (.node .div .int [l, r]) else none
  | .truediv => none
  | .mod => none
  | .and => if l.ty = .bool ∧ r.ty = .bool then andObjects [l, r] else none
  | .or => if l.ty = .bool ∧ r.ty = .bool then orObjects [l, r] else none

/-- Element type of a list type. -/
def Ty.elem? : Ty → Option Ty
  | .list t => some t
  | _ => none

mutual
/-- `o.accept(visitor)` for expressions (`python.py` 678-815): symbolic value in the state with
variables `vs`; `none` is an exception. -/
def trExpr (vs : SymVars) : PyExpr → Option Expr
  | .int i => some (intLit i)                                   -- 678-679
  | .name x => vs.read x                                        -- 681-682
  | .cmp ops es => match trExprs vs es with                     -- 685-692
    | some es' => visitComparison ops es'
    | none => none
  | .bin op l r => match trExpr vs l, trExpr vs r with          -- 712-739
    | some l', some r' => visitOp op l' r'
    | _, _ => none
  | .neg e => match trExpr vs e with                            -- 763-769, `Int.__rsub__`
    | some e' => if e'.ty = .int then some (.node .sub .int [intLit 0, e']) else none
    | none => none
  | .len e => match trExpr vs e with                            -- 772-777
    | some e' => if e'.ty.elem?.isSome then some (mkCall "list_length" .int [e']) else none
    | none => none
  | .index b i => match trExpr vs b, trExpr vs i with           -- 745-756, `List.__getitem__`
    | some b', some i' =>
      match b'.ty with
      | .list .int => if i'.ty = .int then some (mkCall "list_get" .int [b', i']) else none
      | _ => none
    | _, _ => none
  | .emptyList => some (mkCall "list_empty" (.list .int) [])    -- 758-761
  | .call f t args => match trExprs vs args with                -- 809-814
    | some as => some (mkCall f t as)
    | none => none
/-- Lists of expressions. -/
def trExprs (vs : SymVars) : List PyExpr → Option (List Expr)
  | [] => some []
  | e :: es => match trExpr vs e, trExprs vs es with
    | some e', some es' => some (e' :: es')
    | _, _ => none
end

/-! ### Invariant arguments -/

/-- Insertion into a sorted list of names. -/
def insertName (x : String) : List String → List String
  | [] => [x]
  | y :: ys => if x ≤ y then x :: y :: ys else y :: insertName x ys

/-- `non_args_scope.sort(key=...)` (`python.py` 269).  The keys are distinct, so every sorting
algorithm gives the same list. -/
def sortNames : List String → List String
  | [] => []
  | x :: xs => insertName x (sortNames xs)

/-- Argument names of a loop invariant (`PredicateTracker.invariant`, `python.py` 268-272; scope
collected at 446-454, 466, 482-484): the function arguments, then the other variables in scope, sorted.
Every variable in the state is taken to have a type entry. -/
def invArgs (args : List String) (vars : SymVars) : List String :=
  args ++ sortNames ((vars.map Prod.fst).filter (fun x => !args.contains x)).eraseDups

/-- Reads a list of variables (`Predicate.call`, `python.py` 236-238). -/
def readAll (vs : SymVars) : List String → Option (List Expr)
  | [] => some []
  | x :: xs => match vs.read x, readAll vs xs with
    | some e, some es => some (e :: es)
    | _, _ => none

/-! ### Generation of verification conditions -/

/-- Per-function data of the visitor: types of the names, parameters (the actual arguments are the
variables of the same names), name of the postcondition and of the invariants. -/
structure Ctx where
  types : String → Ty
  params : List String
  ps : String
  inv : Nat → String

/-- The argument objects `self.args`. -/
def Ctx.argExprs (C : Ctx) : List Expr := C.params.map (fun x => .var x (C.types x))

/-- `implies(and_objects(*precond), e) if precond else e` (`python.py` 497-501, 557-565). -/
def guardBy (precond : List Expr) (e : Expr) : Expr :=
  match andObjects precond with
  | some p => mkImplies p e
  | none => e

/-- Merging the obligations of the branches into the state (`python.py` 629-631).  `e not in
self.state.asserts` compares `Bool` objects with `Bool.__eq__`, whose result is always truthy
(`ir.py` 881-884), so the test fails as soon as the list is non-empty. -/
def mergeAsserts : List Expr → List Expr → List Expr
  | acc, [] => acc
  | acc, e :: es => if acc.isEmpty then mergeAsserts (acc ++ [e]) es else mergeAsserts acc es

/-- Merging one variable (`python.py` 648-653).  `c_e != a_e` is a truthy object for `Int` and
`Bool` (`ir.py` 886-889, 1014-1017); `List` and `Set` only define `__eq__`, whose result is truthy, so
Python's derived `!=` is `False`.  `Ite` raises when the types differ (`ir.py` 2333-2343). -/
def mergeVal (cond c a : Expr) : Option Expr :=
  match c.ty with
  | .int => if a.ty = c.ty then some (mkIte c.ty cond c a) else none
  | .bool => if a.ty = c.ty then some (mkIte c.ty cond c a) else none
  | .list _ => some c
  | .set _ => some c
  | _ => if c.pyEq a then some c else if a.ty = c.ty then some (mkIte c.ty cond c a) else none

/-- The merge loop (`python.py` 648-653). -/
def mergeVars (cond : Expr) (a : SymVars) : SymVars → SymVars → Option SymVars
  | acc, [] => some acc
  | acc, (v, ce) :: rest =>
    match a.read v with
    | none => none
    | some ae => match mergeVal cond ce ae with
      | none => none
      | some m => mergeVars cond a (acc.write v m) rest

/-- Is there a variable in exactly one of the branches that was unknown before (640-645)? -/
def oneSided (self c a : SymVars) : Bool :=
  (c ++ a).any (fun p => (self.read p.1).isNone &&
    ((c.read p.1).isNone != (a.read p.1).isNone))

/-- Havoc of the modified variables (`python.py` 505-508): every written variable becomes the
symbol *of its own name*. -/
def havoc (types : String → Ty) (vs : SymVars) (ws : List String) : SymVars :=
  ws.foldl (fun vs x => vs.write x (.var x (types x))) vs

/-- `o.accept(visitor)` for statements.  `none` is an exception. -/
def visit (C : Ctx) : Stmt → PState → Option PState
  | .skip, σ => some σ
  | .seq a b, σ => match visit C a σ with                        -- 436-438
    | some σ' => visit C b σ'
    | none => none
  | .assign x e, σ => match trExpr σ.vars e with                 -- 355-359
    | some e' => some { σ with vars := σ.vars.write x e' }
    | none => none
  | .append x e, σ =>                                            -- 778-788
    -- `append` mutates the list object; modelled only when the variable holds its own symbol and
    -- is not a parameter (whose argument object would be mutated too)
    match σ.vars.read x, trExpr σ.vars e with
    | some (.var y t), some e' =>
      if y = x ∧ x ∉ C.params ∧ t = .list e'.ty then
        some { σ with vars := σ.vars.write x (mkCall "list_append" t [.var y t, e']) }
      else none
    | _, _ => none
  | .setAdd x e, σ =>                                            -- 789-808
    match σ.vars.read x, trExpr σ.vars e with
    | some (.var y (.set t)), some e' =>
      -- the result is written to the variable named by the symbol
      some { σ with vars := σ.vars.write y (mkCall "set-union" (.set t)
        [.var y (.set t), mkCall "set-singleton" (.set e'.ty) [e']]) }
    | _, _ => none
  | .setRemove x e, σ =>                                         -- 789-808
    match σ.vars.read x, trExpr σ.vars e with
    | some (.var y (.set t)), some e' =>
      some { σ with vars := σ.vars.write y (mkCall "set-minus" (.set t)
        [.var y (.set t), mkCall "set-singleton" (.set e'.ty) [e']]) }
    | _, _ => none
  | .ret e, σ => match trExpr σ.vars e with                      -- 547-568
    | some e' => some { σ with
        asserts := σ.asserts ++ [guardBy σ.precond (mkCall C.ps .bool (C.argExprs ++ [e']))]
        hasReturned := true }
    | none => none
  | .ite c t e, σ =>                                             -- 573-655
    match trExpr σ.vars c with
    | none => none
    | some cond =>
      if cond.ty ≠ .bool then none else
      match visit C t { σ with precond := σ.precond ++ [cond] },
        visit C e { σ with precond := σ.precond ++ [mkNot cond] } with
      | some cs, some as =>
        let asserts := mergeAsserts σ.asserts (cs.asserts ++ as.asserts)
        if cs.hasReturned && as.hasReturned then some { σ with asserts := asserts }
        else if cs.hasReturned then
          some { σ with asserts := asserts, vars := as.vars, leaked := some (σ.leaked.getD σ.vars) }
        else if as.hasReturned then
          some { σ with asserts := asserts, vars := cs.vars, leaked := some (σ.leaked.getD σ.vars) }
        else if oneSided σ.vars cs.vars as.vars then none
        else match mergeVars cond as.vars σ.vars cs.vars with
          | some vs => some { σ with asserts := asserts, vars := vs }
          | none => none
      | _, _ => none
  | .loop l c b, σ =>                                            -- 456-545
    let names := invArgs C.params σ.vars
    match readAll σ.vars names with
    | none => none
    | some vals0 =>
      let inv := fun vals => mkCall (C.inv l) .bool vals
      let asserts1 := σ.asserts ++ [guardBy σ.precond (inv vals0)]
      let vars1 := havoc C.types σ.vars b.writes
      match visit C b { σ with asserts := asserts1, vars := vars1 }, trExpr vars1 c,
        readAll vars1 names with
      | some body, some cond, some vals1 =>
        if cond.ty ≠ .bool then none else  -- `And`/`Not` raise
        match readAll body.vars names, andObjects (σ.precond ++ [cond, inv vals1]),
          andObjects [mkNot cond, inv vals1] with
        | some vals2, some pre, some post =>
          some { σ with
            asserts := asserts1 ++ [mkImplies pre (inv vals2)]
            vars := vars1
            precond := σ.precond ++ [post] }
        | _, _, _ => none
      | _, _, _ => none

/-! ### Calls and the driver -/

/-- An analysed function: context and body (`MetaliftFunc`, `python.py` 909-953). -/
structure PyFunc where
  name : String
  ctx : Ctx
  body : Stmt
  retTy : Ty

/-- What persists in the process: the default list/dict objects of `State.__init__` (shared by all
`State()` instances, `python.py` 107-117) and the driver's lists (818-834). -/
structure World where
  dPrecond : List Expr := []
  dVars : SymVars := []
  dAsserts : List Expr := []
  asserts : List Expr := []
  postconditions : List Expr := []

/-- Writing the actual arguments to the formals (`visit_func_def`, `python.py` 387-392); the actuals
are the variables of the same names. -/
def bindArgs (C : Ctx) (vs : SymVars) : SymVars :=
  C.params.foldl (fun vs x => vs.write x (.var x (C.types x))) vs

/-- `MetaliftFunc.__call__` (`python.py` 955-989) with `visit_func_def` (370-406).  `state.precond +=
postconditions` extends the shared default list in place; the visitor then appends to the shared lists
and dictionary.  -/
def PyFunc.call (F : PyFunc) (w : World) : Option World :=
  let σ0 : PState :=
    { precond := w.dPrecond ++ w.postconditions, vars := bindArgs F.ctx w.dVars,
      asserts := w.dAsserts, hasReturned := false }
  match visit F.ctx F.body σ0 with
  | none => none
  | some σ => some
    { dPrecond := σ.precond
      dVars := σ.leaked.getD σ.vars
      dAsserts := σ.asserts
      asserts := w.asserts ++ σ.asserts
      postconditions := w.postconditions ++
        [mkCall F.ctx.ps .bool (.var (F.name ++ "_rv") F.retTy :: F.ctx.argExprs)] }

/-- `Driver.add_precondition` (`python.py` 904-906). -/
def World.addPrecondition (w : World) (e : Expr) : World :=
  { w with postconditions := w.postconditions ++ [e] }

/-- The verification condition of `Driver.synthesize` (`python.py` 870-874). -/
def World.vc (w : World) : Option Expr := andObjects w.asserts

end Metalift
