import Verif.Llvm
import Verif.ListObj
import Verif.SetObj
/-
Model of the library functions the LLVM front end knows (`fn_models`, `metalift/frontend/llvm.py` 62-409) and of straight-line code that calls them.

Unlike in `Llvm.lean`, objects have an identity here: variables hold references, `load`, `store` and conversions copy the reference, and a method that
changes an object in place changes it for every variable that refers to it.  Only one block is modelled (the code copies the objects when it goes on to
the next block, 1080-1082, 1168).  Exceptions are `none`.
-/
namespace Metalift.Ll.Lib

/-- Types of objects: those of `ListObj.lean`, `Set[Int]`, and tuples of `n` integers. -/
inductive LTy where
  | base (t : OTy)
  | set
  | tuple (n : Nat)
  deriving DecidableEq

/-- The type recorded in expressions. -/
def LTy.toTy : LTy → Ty
  | .base t => t.toTy
  | .set => .set .int
  | .tuple n => .tuple (List.replicate n .int)

/-- An object: its expression and its type. -/
structure LObj where
  src : Expr
  ty : LTy

/-- What a variable of the front end holds: a reference to an object, or Python's `True`. -/
inductive PyRef where
  | obj (i : Nat)
  | pyTrue
  deriving DecidableEq

/-- `State` (663-684) with the objects that exist.  The dictionaries `primitive_vars` and `pointer_vars` are partial functions. -/
structure HSt where
  heap : List LObj
  prim : String → Option PyRef
  ptr : String → Option PyRef

/-- A new object. -/
def HSt.new (st : HSt) (o : LObj) : PyRef × HSt := (.obj st.heap.length, { st with heap := st.heap ++ [o] })

/-- The object a reference refers to; `none` for `True`, which has no attribute `src` or `type`. -/
def HSt.deref (st : HSt) : PyRef → Option LObj
  | .obj i => st.heap[i]?
  | .pyTrue => none

/-- `write_operand`, `write_var` (704-707, 734-735). -/
def HSt.write (st : HSt) (x : String) (r : PyRef) : HSt := { st with prim := fun y => if y = x then some r else st.prim y }
/-- `store_operand`, `store_var` (709-712, 737-738). -/
def HSt.store (st : HSt) (x : String) (r : PyRef) : HSt := { st with ptr := fun y => if y = x then some r else st.ptr y }

/-- `read_or_load_operand` (749-753, 686-702): a constant is a new object. -/
def HSt.read (st : HSt) : Opd → Option (PyRef × HSt)
  | .reg n => (st.prim n).map fun r => (r, st)
  | .ptr n => (st.ptr n).map fun r => (r, st)
  | .int i => some (st.new ⟨intLit i, .base .int⟩)
  | .bool b => some (st.new ⟨boolLit b, .base .bool⟩)

/-- Reading all operands from left to right. -/
def HSt.readAll (st : HSt) : List Opd → Option (List PyRef × HSt)
  | [] => some ([], st)
  | o :: os => do
    let (r, st) ← st.read o
    let (rs, st) ← st.readAll os
    some (r :: rs, st)

/-- `get_var_location` (755-761): whether the variable is a primitive one. -/
def HSt.location (st : HSt) (x : String) : Option Bool :=
  if (st.prim x).isSome then some true else if (st.ptr x).isSome then some false else none

/-- Prefix test of strings. -/
def startsWith (s p : String) : Bool := p.toList.isPrefixOf s.toList

/-- `parse_type_ref_to_obj` (`metalift/ir.py` 623-651) on the text of a type.  The two regular expressions end with `"*`, which matches nothing too, so that they
are tests of a prefix.  For the types `%struct.tup.…` the code indexes the type instead of its text, which raises. -/
def parseTypeRef (s : String) : Option LTy :=
  if s ∈ ["i32", "i32*"] then some (.base .int)
  else if s ∈ ["i1", "i8", "i8*"] then some (.base .bool)
  else if s ∈ ["%struct.list*", "%struct.list**"] then some (.base (.list .int))
  else if startsWith s "%\"class.std::__1::List" then some (.base (.list .int))
  else if startsWith s "%\"class.std::__1::vector" then some (.base (.list (.list .int)))
  else if s = "%struct.set*" then some .set
  else if s = "%struct.tup*" then some (.tuple 2)
  else none

/-- `default_value` (`metalift/ir.py` 864, 939, 1098, 1626-1627, 1733-1734): sets and tuples are variables named `v`; a type built from `List` gives an empty list
of integers. -/
def defaultObj : LTy → Option LObj
  | .base .int => some ⟨intLit 0, .base .int⟩
  | .base .bool => some ⟨boolLit false, .base .bool⟩
  | .base (.list _) => some ⟨(listEmpty .int).src, .base (.list .int)⟩
  | .base _ => none
  | .set => some ⟨.var "v" (.set .int), .set⟩
  | .tuple _ => some ⟨.var "v" (.tuple [.int, .int]), .tuple 2⟩

/-- The object as an object of `ListObj.lean`. -/
def LObj.base? (o : LObj) : Option Obj :=
  match o.ty with
  | .base t => some ⟨o.src, t⟩
  | _ => none

/-- The object as an object of `SetObj.lean`. -/
def LObj.so (o : LObj) : SO.Obj := ⟨o.src, o.ty.toTy⟩

/-- The object of an object of `ListObj.lean`. -/
def ofBase (o : Obj) : LObj := ⟨o.src, .base o.ty⟩

/-- `ReturnValue` (45-52): the value and the assignment (there is at most one), with the objects afterwards; `Bool`: the location is `primitive`. -/
structure RV where
  val : Option PyRef
  assign : Option (String × PyRef × Bool)
  st : HSt

/-- A result that is a new object. -/
def HSt.fresh (st : HSt) (o : LObj) : RV := let (r, st) := st.new o; ⟨some r, none, st⟩

/-- Replacing the contents of an object. -/
def HSt.update (st : HSt) (i : Nat) (o : LObj) : HSt := { st with heap := st.heap.set i o }

/-- `set_create` (62-68). -/
def setCreate (st : HSt) (_args : List Opd) : Option RV := some (st.fresh ⟨(SO.setEmpty .int).src, .set⟩)

/-- Reading the two arguments of a function. -/
def HSt.read2 (st : HSt) (args : List Opd) : Option (PyRef × LObj × PyRef × LObj × HSt) :=
  match args with
  | [a, b] => do
    let (ra, st) ← st.read a
    let (rb, st) ← st.read b
    some (ra, ← st.deref ra, rb, ← st.deref rb, st)
  | _ => none

/-- Reading the argument of a function. -/
def HSt.read1 (st : HSt) (args : List Opd) : Option (PyRef × LObj × HSt) :=
  match args with
  | [a] => do
    let (ra, st) ← st.read a
    some (ra, ← st.deref ra, st)
  | _ => none

/-- `set_add` (71-80). -/
def setAdd (st : HSt) (args : List Opd) : Option RV := do
  let (_, s, _, x, st) ← st.read2 args
  let o ← SO.setAdd s.so x.so
  some (st.fresh ⟨o.src, s.ty⟩)

/-- `set_remove` (83-92). -/
def setRemove (st : HSt) (args : List Opd) : Option RV := do
  let (_, s, _, x, st) ← st.read2 args
  let o ← SO.setRemove s.so x.so
  some (st.fresh ⟨o.src, s.ty⟩)

/-- `set_contains` (95-104): `item in s` is a Python boolean. -/
def setContains (st : HSt) (args : List Opd) : Option RV := do
  let (_, s, _, x, st) ← st.read2 args
  let b ← SO.pyIn x.so s.so
  if b then some ⟨some .pyTrue, none, st⟩ else none

/-- `new_list` (107-114). -/
def newList (st : HSt) (args : List Opd) : Option RV :=
  if args.length = 0 then some (st.fresh (ofBase (listEmpty .int))) else none

/-- Whether the object is one of the classes `List`, `Matrix` and `Tensor3D`. -/
def isListTy : OTy → Bool
  | .list _ | .matrix _ | .tensor3d _ => true
  | _ => false

/-- `list_length` (117-129). -/
def listLength (st : HSt) (args : List Opd) : Option RV := do
  let (_, l, st) ← st.read1 args
  let l ← l.base?
  if isListTy l.ty then some (st.fresh (ofBase l.len)) else none

/-- `list_get` (132-144). -/
def listGet (st : HSt) (args : List Opd) : Option RV := do
  let (_, l, _, i, st) ← st.read2 args
  let o ← (← l.base?).getitem (.at (← i.base?))
  some (st.fresh (ofBase o))

/-- `list_append` (147-159): `append` changes the object and returns it (`metalift/ir.py` 1166-1172). -/
def listAppend (st : HSt) (args : List Opd) : Option RV := do
  let (r, l, _, v, st) ← st.read2 args
  let o ← (← l.base?).append (← v.base?)
  match r with
  | .obj i => some ⟨some r, none, st.update i (ofBase o)⟩
  | .pyTrue => none

/-- Name of the variable of an operand (`args[0].name`). -/
def opdName : Opd → String
  | .reg n | .ptr n => n
  | _ => ""

/-- The empty list, matrix or tensor (194-200). -/
def emptyOf : Option Nat → Option Obj
  | some 1 => some (listEmpty .int)
  | some 2 => some (matrixEmpty .int)
  | some 3 => some (tensor3dEmpty .int)
  | _ => none

/-- `new_vector` (177-206); `depth` says which of the three regular expressions matches the name of the function: 1, 2 or 3 levels. -/
def newVector (depth : Option Nat) (st : HSt) (args : List Opd) : Option RV :=
  match args with
  | [a] => do
    let o ← emptyOf depth
    let loc ← st.location (opdName a)
    let (r, st) := st.new (ofBase o)
    some ⟨none, some (opdName a, r, loc), st⟩
  | _ => none

/-- `vector_append` (209-237); `argTy` is the type of the first argument. -/
def vectorAppend (argTy : String) (st : HSt) (args : List Opd) : Option RV := do
  let (_, l, _, v, st) ← st.read2 args
  let lb ← l.base?
  if isListTy lb.ty then
    let t ← parseTypeRef argTy
    let o : LObj := ⟨mkCall (lb.ty.pick "matrix_append" "tensor3d_append" "list_append") t.toTy [l.src, v.src], t⟩
    let x := opdName (args.headD (.int 0))
    let loc ← st.location x
    let (r, st) := st.new o
    some ⟨none, some (x, r, loc), st⟩
  else none

/-- Assigning `containedT` (260-264).  For a `Matrix` or `Tensor3D` only the value it has already is modelled. -/
def setContained (c : OTy) : OTy → Option OTy
  | .list _ => some (.list c)
  | .matrix t => if c = .list t then some (.matrix t) else none
  | .tensor3d t => if c = .matrix t then some (.tensor3d t) else none
  | _ => none

/-- Type of the elements of a vector (260-264). -/
def elemOf : Option Nat → Option OTy
  | some 1 => some .int
  | some 2 => some (.list .int)
  | some 3 => some (.matrix .int)
  | _ => none

/-- `vector_length` (240-275): changes the type of the object. -/
def vectorLength (depth : Option Nat) (st : HSt) (args : List Opd) : Option RV := do
  let (r, l, st) ← st.read1 args
  let l ← l.base?
  let c ← elemOf depth
  let t ← setContained c l.ty
  let _ ← st.location (opdName (args.headD (.int 0)))
  match r with
  | .obj i =>
    let l' : Obj := ⟨l.src, t⟩
    some ((st.update i (ofBase l')).fresh (ofBase l'.len))
  | .pyTrue => none

/-- `vector_get` (278-292). -/
def vectorGet (st : HSt) (args : List Opd) : Option RV := do
  let (r, l, _, i, st) ← st.read2 args
  let x := opdName (args.headD (.int 0))
  let loc ← st.location x
  let o ← (← l.base?).getitem (.at (← i.base?))
  let (r', st) := st.new (ofBase o)
  some ⟨some r', some (x, r, loc), st⟩

/-- Expressions of the objects. -/
def HSt.srcs (st : HSt) : List PyRef → Option (List Expr)
  | [] => some []
  | r :: rs => do
    let o ← st.deref r
    let es ← st.srcs rs
    some (o.src :: es)

/-- `make_tuple` (305-315). -/
def makeTuple (st : HSt) (args : List Opd) : Option RV := do
  let (rs, st) ← st.readAll args
  let es ← st.srcs rs
  some (st.fresh ⟨mkCall "make-tuple" (.tuple (List.replicate args.length .int)) es, .tuple args.length⟩)

/-- `tuple_get` (318-332). -/
def tupleGet (st : HSt) (args : List Opd) : Option RV := do
  let (_, t, _, i, st) ← st.read2 args
  some (st.fresh ⟨mkCall "tupleGet" .int [t.src, i.src], .base .int⟩)

/-- `get_field` and `set_field` (335-356) are called with a state and an empty dictionary as the first two arguments; looking up a variable in the empty
dictionary raises. -/
def field (_st : HSt) (_args : List Opd) : Option RV := none

/-- `integer_sqrt`, `integer_exp` (359-382). -/
def integerFn (f : String) (st : HSt) (args : List Opd) : Option RV := do
  let (_, x, st) ← st.read1 args
  some (st.fresh ⟨mkCall f .int [x.src], .base .int⟩)

/-- `fn_models` (385-409): the function called for a name. -/
def fnModel (depth : Option Nat) (argTy : String) (f : String) : Option (HSt → List Opd → Option RV) :=
  if f = "newList" then some newList
  else if f = "listLength" then some listLength
  else if f = "listAppend" then some listAppend
  else if f = "listGet" then some listGet
  else if f = "vector" then some (newVector depth)
  else if f = "size" then some (vectorLength depth)
  else if f = "push_back" then some (vectorAppend argTy)
  else if f = "operator[]" then some vectorGet
  else if f = "getField" then some field
  else if f = "setField" then some field
  else if f = "set_create" then some setCreate
  else if f = "set_add" then some setAdd
  else if f = "set_remove" then some setRemove
  else if f = "set_contains" then some setContains
  else if f = "MakeTuple" then some makeTuple
  else if f = "tupleGet" then some tupleGet
  else if f = "integer_sqrt" then some (integerFn "integer_sqrt")
  else if f = "integer_exp" then some (integerFn "integer_exp")
  else none

/-- The integer instructions that are modelled here. -/
inductive Arith where
  | add | sub | mul
  deriving DecidableEq

/-- The operator of the expression (1313-1334). -/
def Arith.op : Arith → Op
  | .add => .add
  | .sub => .sub
  | .mul => .mul

/-- Instructions.  `r` is the name of the result, empty if there is none; `toPtr`: its type is a pointer.  For a call, `depth` and `argTy` are what the demangled name
and the type of the first argument say. -/
inductive LInst where
  | alloca (r : String) (t : String)
  | load (toPtr : Bool) (r p : String)
  | store (v : Opd) (p : String)
  | copy (toPtr : Bool) (r : String) (a : Opd)
  | arith (op : Arith) (r : String) (a b : Opd)
  | call (toPtr : Bool) (r f : String) (depth : Option Nat) (argTy : String) (args : List Opd)

/-- Writing or storing a reference (714-718). -/
def HSt.put (st : HSt) (toPtr : Bool) (x : String) (r : PyRef) : HSt := if toPtr then st.store x r else st.write x r

/-- `visit_load_instruction` … `visit_call_instruction` (1269-1357, 1451-1495).  The visitors other than that of calls look at the type of the object, which raises for
`True`.  A call of an unknown function is ignored (uninterpreted functions are modelled in `Llvm.lean`). -/
def step (st : HSt) : LInst → Option HSt
  | .alloca r t => do
    let o ← defaultObj (← parseTypeRef t)
    let (ref, st) := st.new o
    some (st.store r ref)
  | .load toPtr r p => do
    let ref ← st.ptr p
    let _ ← st.deref ref
    some (st.put toPtr r ref)
  | .store v p => do
    let (ref, st) ← st.read v
    let _ ← st.deref ref
    some (st.store p ref)
  | .copy toPtr r a => do
    let (ref, st) ← st.read a
    let _ ← st.deref ref
    some (st.put toPtr r ref)
  | .arith op r a b => do
    let (_, x, _, y, st) ← st.read2 [a, b]
    if x.ty = .base .int ∧ y.ty = .base .int then
      let (ref, st) := st.new ⟨.node op.op .int [x.src, y.src], .base .int⟩
      some (st.write r ref)
    else none
  | .call toPtr r f depth argTy args =>
    match fnModel depth argTy f with
    | none => some st
    | some m => do
      let rv ← m st args
      let st := match rv.val with
        | some ref => if r ≠ "" then rv.st.put toPtr r ref else rv.st
        | none => rv.st
      some (match rv.assign with
        | some (x, ref, loc) => if loc then st.write x ref else st.store x ref
        | none => st)

/-- `visit_instructions` (1265-1267). -/
def run (st : HSt) (is : List LInst) : Option HSt := is.foldlM step st

/-- `is_pointer_type` (`metalift/ir.py` 90-91). -/
def LTy.isPointer : LTy → Bool
  | .base .int | .base .bool => false
  | _ => true

/-- The first object of a name in a list of arguments. -/
def argIndex (args : List (String × LTy)) (x : String) (p : Bool) : Option PyRef :=
  ((args.findIdx? fun a => decide (a.1 = x) && (a.2.isPointer == p))).map .obj

/-- `preprocess` (1020-1036) for the arguments: the objects handed over are put into the state themselves.  (The object for the result is left out.) -/
def initial (args : List (String × LTy)) : HSt where
  heap := args.map fun a => ⟨.var a.1 a.2.toTy, a.2⟩
  prim := fun x => argIndex args x false
  ptr := fun x => argIndex args x true

/-- `visit_ret_instruction` (1400-1449) in a block without preconditions: the postcondition is applied to the argument objects and the returned object. -/
def ret (st : HSt) (ps : String) (args : List (String × LTy)) (o : Opd) : Option Expr := do
  let (r, st) ← st.read o
  let res ← st.deref r
  let as ← st.srcs ((List.range args.length).map .obj)
  some (mkCall ps .bool (as ++ [res.src]))

/-- The obligation of a function with one block. -/
def obligation (ps : String) (args : List (String × LTy)) (is : List LInst) (o : Opd) : Option Expr :=
  (run (initial args) is).bind fun st => ret st ps args o

end Metalift.Ll.Lib
