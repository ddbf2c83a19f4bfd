import Verif.PyFrontend
import Verif.LlvmCfg
/-
Model of the LLVM front end: `State`, `VCVisitor` and the loop of `MetaliftFunc.__call__`
(`metalift/frontend/llvm.py` 663-1754).

Operands are either registers, pointers or constants: llvmlite knows from the type of an operand whether the
code reads it with `read_operand` (`primitive_vars`) or with `load_operand` (`pointer_vars`), so this
is part of the syntax here.  Exceptions are `none`.
-/
namespace Metalift.Ll

/-- Operands of instructions: `read_operand` (686-695) reads a register or a constant, `load_operand`
(697-702) a pointer. -/
inductive Opd where
  | reg (n : String)
  | ptr (n : String)
  | int (i : Int)
  | bool (b : Bool)
  deriving DecidableEq, Repr

/-- Binary integer instructions. -/
inductive BinOp where
  | add | sub | mul | sdiv | srem
  deriving DecidableEq, Repr

/-- Predicates of `icmp`. -/
inductive Cmp where
  | eq | ne | sgt | sge | slt | sle | ugt | uge | ult | ule
  deriving DecidableEq, Repr

/-- Conversions, with the widths of the source and the target type. -/
inductive Conv where
  | bitcast
  | sext (source target : Nat)
  | trunc (source target : Nat)
  deriving DecidableEq, Repr

/-- Instructions other than block ends.  `nsw` is the flag of integer instructions that makes overflow undefined; the front
end ignores it.  `cast` is `bitcast` of a non-pointer, `sext` or `trunc`
(1345-1357, 1492-1495); `toPtr` says whether the loaded value is a pointer (1282-1289).  `call` is a call of a function that has a model without assignments, or of an
uninterpreted function (1456-1490); `toPtr` says whether its result has a pointer type.  `vector` and `pushBack` are the
calls of the constructor and of `push_back` (177-237); `push_back` on a vector of vectors, where the code picks `matrix_append` or
`tensor3d_append`, is not modelled. -/
inductive Inst where
  | alloca (r : String) (t : Ty)
  | load (toPtr : Bool) (r p : String)
  | store (v : Opd) (p : String)
  | bin (op : BinOp) (nsw : Bool) (r : String) (a b : Opd)
  | icmp (c : Cmp) (r : String) (a b : Opd)
  | cast (k : Conv) (r : String) (a : Opd)
  | call (toPtr : Bool) (r f : String) (t : Ty) (args : List Opd)
  | vector (p : String) (t : Ty)
  | pushBack (p : String) (v : Opd)
  | other (opcode : String)

/-- Blocks of the front end. -/
abbrev LBlk := Blk Inst Opd

/-- A loop (`LoopInfo`, 426-472): its header, its blocks (header, body, exiting blocks and latches), its latches; and
the invariant with its arguments (`Predicate`, 764-802).  In the code the name is `{fn}_inv{index}`, and the arguments are
fixed by the first call of `PredicateTracker.invariant` (819-843); here they are any list of variables. -/
structure Loop where
  header : String
  blocks : List String
  latches : List String
  inv : String
  invArgs : List String

/-- A function (`MetaliftFunc`, 1635-1754, and the arguments of `__call__`). `blocks` has lost its back edges. `sret` is the
argument that holds the result, if there is one.  `ty` gives the type of every variable: the type
recorded by `primitive_var_types` and `pointer_var_types` (936-976), simplified to one type per name. -/
structure Func where
  name : String
  args : List String
  sret : Option String
  retTy : Ty
  ty : String → Ty
  blocks : List LBlk
  loops : List Loop

/-- `State` (663-684).  `has_returned` is never read. -/
structure St where
  precond : List Expr := []
  prim : SymVars := []
  ptr : SymVars := []
  asserts : List Expr := []
  processed : Bool := false

/-- `is_pointer_type` (`metalift/ir.py` 90-91). -/
def isPointer : Ty → Bool
  | .int => false
  | .bool => false
  | _ => true

/-- `read_or_load_operand` (749-753) and its two parts (686-702). -/
def St.read (st : St) : Opd → Option Expr
  | .reg n => st.prim.read n
  | .ptr n => st.ptr.read n
  | .int i => some (intLit i)
  | .bool b => some (boolLit b)

/-- `read_or_load_var` (740-747). -/
def St.readVar (st : St) (x : String) : Option Expr :=
  match st.prim.read x with
  | some e => some e
  | none => st.ptr.read x

/-- `write_operand`, `write_var` (704-707, 734-735). -/
def St.write (st : St) (x : String) (e : Expr) : St := { st with prim := st.prim.write x e }
/-- `store_operand`, `store_var` (709-712, 737-738). -/
def St.store (st : St) (x : String) (e : Expr) : St := { st with ptr := st.ptr.write x e }

/-- Name of the empty vector of a type: `List.empty`, `Matrix.empty`, `Tensor3D.empty` (`metalift/ir.py` 1094, 1355, 1574). -/
def emptyName : Ty → String
  | .list (.list (.list _)) => "tensor3d_empty"
  | .list (.list _) => "matrix_empty"
  | _ => "list_empty"

/-- `default_value` (`metalift/ir.py` 864, 939, 1098, 1358, 1577); sets and tuples not modelled. -/
def defaultVal : Ty → Option Expr
  | .int => some (intLit 0)
  | .bool => some (boolLit false)
  | .list t => some (mkCall (emptyName (.list t)) (.list t) [])
  | _ => none

/-- The expression built for a binary instruction (1300-1343); both operands must be `Int` objects. -/
def binExpr (op : BinOp) (a b : Expr) : Option Expr :=
  if a.ty = .int ∧ b.ty = .int then
    some (.node (match op with
      | .add => .add
      | .sub => .sub
      | .mul => .mul
      | .sdiv => .div
      | .srem => .mod) .int [a, b])
  else none

/-- The expression built for `icmp` (1359-1384).  Only `Int` has the operators `<`, `<=`, `>`, `>=`. -/
def cmpExpr (c : Cmp) (a b : Expr) : Option Expr :=
  match c with
  | .eq => some (mkEq a b)
  | .ne => some (mkNot (mkEq a b))
  | .sgt => if a.ty = .int then some (.node .gt .bool [a, b]) else none
  | .sle => if a.ty = .int then some (.node .le .bool [a, b]) else none
  | .slt => if a.ty = .int then some (.node .lt .bool [a, b]) else none
  | .ult => if a.ty = .int then some (.node .lt .bool [a, b]) else none
  | .sge => if a.ty = .int then some (.node .ge .bool [a, b]) else none
  | .ugt => none
  | .uge => none
  | .ule => none

/-- Operands of a call. -/
def readOpds (st : St) : List Opd → Option (List Expr)
  | [] => some []
  | o :: os => do
    let e ← st.read o
    let es ← readOpds st os
    some (e :: es)

/-- Vectors of vectors. -/
def _root_.Metalift.Ty.isNested : Ty → Bool
  | .list (.list _) => true
  | _ => false

/-- `visit_instruction` for everything but block ends (1038-1071 and the visitors 1269-1495). -/
def stepInst (st : St) : Inst → Option St
  | .alloca r t => do some (st.store r (← defaultVal t))
  | .load toPtr r p => do
    let e ← st.ptr.read p
    some (if toPtr then st.store r e else st.write r e)
  | .store v p => do some (st.store p (← st.read v))
  | .bin op _ r a b => do some (st.write r (← binExpr op (← st.read a) (← st.read b)))
  | .icmp c r a b => do some (st.write r (← cmpExpr c (← st.read a) (← st.read b)))
  | .cast _ r a => do some (st.write r (← st.read a))
  | .call toPtr r f t args => do
    let e := mkCall f t (← readOpds st args)
    some (if toPtr then st.store r e else st.write r e)
  | .vector p t => do
    let _ ← st.ptr.read p
    some (st.store p (mkCall (emptyName t) t []))
  | .pushBack p v => do
    let l ← st.ptr.read p
    let e ← st.read v
    if l.ty.isNested then none else some (st.store p (mkCall "list_append" l.ty [l, e]))
  | .other _ => none

/-- `visit_instructions` without the block end (1265-1267). -/
def stepInsts (st : St) (is : List Inst) : Option St := is.foldlM stepInst st

/-! ### Merging -/

/-- `value_dict[expr].append(precond)` with the test of membership (1106-1118): the keys of the dictionary
are compared with `Expr.__eq__`. -/
def addValue : List (Expr × List (List Expr)) → Expr → List Expr → List (Expr × List (List Expr))
  | [], e, pc => [(e, [pc])]
  | (f, pcs) :: r, e, pc => if f.pyEq e then (f, pcs ++ [pc]) :: r else (f, pcs) :: addValue r e pc

/-- The condition under which a value is taken (1132-1151).  `and_objects` and `or_objects` do not raise here. -/
def aggregate (pcs : List (List Expr)) : Expr :=
  match orObjects ((pcs.filter (fun pc => !pc.isEmpty)).filterMap andObjects) with
  | some e => e
  | none => boolLit true

/-- The loop that builds the `Ite` (1153-1167); `Ite` raises if the types of the branches differ. -/
def mergeChain (base : Expr) (vals : List (Expr × List (List Expr))) : Option Expr :=
  vals.foldlM (fun m v => if v.1.ty = m.ty then some (mkIte v.1.ty (aggregate v.2) v.1 m) else none) base

/-- The merged value of a variable (1125-1169) from its values in the predecessors with their preconditions. -/
def mergeVal (vals : List (Expr × List Expr)) : Option Expr :=
  match vals.foldl (fun d v => addValue d v.1 v.2) [] with
  | [] => none
  | (e, _) :: r => mergeChain e r

/-- Names of the variables in the states, in the order of their first occurrence. -/
def mergeKeys (maps : List SymVars) : List String :=
  (maps.flatMap (fun m => m.map Prod.fst)).foldl (fun l x => if x ∈ l then l else l ++ [x]) []

/-- Merging one of the two maps (1099-1170). -/
def mergeMaps (maps : List (SymVars × List Expr)) : Option SymVars :=
  (mergeKeys (maps.map Prod.fst)).mapM fun x => do
    let e ← mergeVal (maps.filterMap fun m => (m.1.read x).map fun e => (e, m.2))
    some (x, e)

/-- The precondition of a block with several predecessors (1085-1092); `pend` is what branches
have appended before. -/
def mergePrecond (pend : List Expr) (preds : List St) : List Expr :=
  match orObjects ((preds.filter (fun p => !p.precond.isEmpty)).filterMap (fun p => andObjects p.precond)) with
  | some e => [e]
  | none => pend

/-- `merge_states` (1073-1170). -/
def mergeStates (pend : List Expr) (preds : List St) : Option St :=
  match preds with
  | [] => some { precond := pend }
  | [p] => some { precond := pend ++ p.precond, prim := p.prim, ptr := p.ptr }
  | ps => do
    let prim ← mergeMaps (ps.map fun p => (p.prim, p.precond))
    let ptr ← mergeMaps (ps.map fun p => (p.ptr, p.precond))
    some { precond := mergePrecond pend ps, prim := prim, ptr := ptr }

/-! ### Blocks -/

/-- `store_var_to_block` or `write_var_to_block` for an argument (1027-1031). -/
def Func.bindArg (F : Func) (st : St) (x : String) : St :=
  if isPointer (F.ty x) then st.store x (.var x (F.ty x)) else st.write x (.var x (F.ty x))

/-- `preprocess` (1020-1036); `posts` is `driver.postconditions`. -/
def Func.preprocess (F : Func) (pend posts : List Expr) : St :=
  let st : St := { precond := pend ++ posts }
  let st := F.args.foldl F.bindArg st
  let rv := F.name ++ "_rv"
  let st := if isPointer F.retTy then st.store rv (.var rv F.retTy) else st.write rv (.var rv F.retTy)
  match F.sret with
  | some x => st.store x (.var x (F.ty x))
  | none => st

/-- Pointers an instruction stores to, as collected by `LoopInfo` (445-456). -/
def Inst.havocs : Inst → List String
  | .store _ p => [p]
  | .pushBack p _ => [p]
  | _ => []

/-- The block with a given name. -/
def Func.find (F : Func) (n : String) : Option LBlk := F.blocks.find? (fun b => b.name = n)

/-- `LoopInfo.havocs` (445-456). The code keeps a set and sorts it; order and repetitions do not matter below. -/
def Func.havocs (F : Func) (L : Loop) : List String :=
  L.blocks.flatMap fun n => ((F.find n).map fun b => b.insts.flatMap Inst.havocs).getD []

/-- `inv.call(state)` (793-802). -/
def Loop.call (L : Loop) (st : St) : Option Expr := do
  some (mkCall L.inv .bool (← L.invArgs.mapM st.readVar))

/-- Havoc: `store_var_to_block` for every modified variable (1184-1187). -/
def Func.havocSt (F : Func) (L : Loop) (st : St) : St :=
  (F.havocs L).foldl (fun st x => st.store x (.var x (F.ty x))) st

/-- What is done at the header of a loop (1180-1216). -/
def Func.enterLoop (F : Func) (st : St) (L : Loop) : Option St := do
  let st := F.havocSt L st
  some { st with precond := st.precond ++ [← L.call st] }

/-- The call of the postcondition (1434-1442). -/
def Func.psCall (F : Func) (ret : Expr) : Expr :=
  mkCall (F.name ++ "_ps") .bool (F.args.map (fun x => .var x (F.ty x)) ++ [ret])

/-- The value handed to the postcondition (1404-1421).  For a result returned through an argument it is the
variable named like the argument. -/
def Func.retVal (F : Func) (st : St) : Option Opd → Option Expr
  | some v => st.read v
  | none => do
    let x ← F.sret
    let e ← st.ptr.read x
    some (.var x e.ty)

/-- `visit_ret_instruction` (1400-1449): the obligation, and the postcondition appended to `driver.postconditions`. -/
def Func.visitRet (F : Func) (st : St) : Term Opd → Option (St × List Expr)
  | .ret v => do
    let ps := F.psCall (← F.retVal st v)
    some ({ st with asserts := st.asserts ++ [guardBy st.precond ps] }, [ps])
  | .switch _ _ _ => none
  | .other _ => none
  | _ => some (st, [])

/-- `visit_br_instruction` (1386-1398): conditions appended to the preconditions of the targets. -/
def brConds (st : St) : Term Opd → Option (List (String × Expr))
  | .cbr c t f => do
    let e ← st.read c
    if e.ty = .bool then some [(t, e), (f, mkNot e)] else none
  | _ => some []

/-- The obligations at the predecessors of a header and at the latches (1222-1263). -/
def Func.loopAsserts (F : Func) (b : LBlk) (st : St) : Option St := do
  let ls := F.loops.filter (fun L => ((F.find L.header).map fun h => h.preds.contains b.name).getD false) ++
    F.loops.filter (fun L => L.latches.contains b.name)
  let as ← ls.mapM fun L => do some (guardBy st.precond (← L.call st))
  some { st with asserts := st.asserts ++ as }

/-- The state a block starts with (1172-1216): merged or prepared, then havocked if it is a header. -/
def Func.startBlock (F : Func) (posts pend : List Expr) (preds : List St) (b : LBlk) : Option St := do
  let st ← if b.preds.isEmpty then some (F.preprocess pend posts) else mergeStates pend preds
  (F.loops.filter (fun L => L.header = b.name)).foldlM F.enterLoop st

/-- `visit_llvm_block` (1172-1263) as a function of what branches have appended to the precondition of the
block (`pend`) and of the states of its predecessors.  The conditions for the
successors and the postconditions for the driver are returned. The obligations for loops are generated
after the block end was visited, which matters only for a block that conditionally branches to itself. -/
def Func.visitLocal (F : Func) (posts pend : List Expr) (preds : List St) (b : LBlk) :
    Option (St × List (String × Expr) × List Expr) := do
  let st ← F.startBlock posts pend preds b
  let st ← stepInsts st b.insts
  let conds ← brConds st b.term
  let (st, ps) ← F.visitRet st b.term
  let st ← F.loopAsserts b { st with processed := true }
  some (st, conds, ps)

/-- The visitor's `fn_blocks_states` (a `defaultdict`) and `driver.postconditions`. -/
structure Visitor where
  states : String → St := fun _ => {}
  posts : List Expr := []

/-- Update of one state. -/
def Visitor.set (V : Visitor) (n : String) (st : St) : Visitor :=
  { V with states := fun m => if m = n then st else V.states m }

/-- `self.fn_blocks_states[target].precond.append(cond)`. -/
def Visitor.append (V : Visitor) (c : String × Expr) : Visitor :=
  V.set c.1 { V.states c.1 with precond := (V.states c.1).precond ++ [c.2] }

/-- `visit_llvm_block` on the visitor. -/
def Func.visitBlock (F : Func) (V : Visitor) (b : LBlk) : Option Visitor := do
  let (st, conds, ps) ← F.visitLocal V.posts (V.states b.name).precond (b.preds.map V.states) b
  let V := conds.foldl Visitor.append (V.set b.name st)
  some { V with posts := V.posts ++ ps }

/-- One iteration of the `for` loop of `__call__` (1731-1737). -/
def Func.visitIfReady (F : Func) (V : Visitor) (b : LBlk) : Option Visitor :=
  if !(V.states b.name).processed && b.preds.all (fun p => (V.states p).processed) then F.visitBlock V b
  else some V

/-- One iteration of the `while` loop of `__call__` (1729-1737). -/
def Func.onePass (F : Func) (V : Visitor) : Option Visitor := F.blocks.foldlM F.visitIfReady V

/-- `n` iterations. -/
def Func.passes (F : Func) : Nat → Visitor → Option Visitor
  | 0, V => some V
  | n + 1, V => do F.passes n (← F.onePass V)

/-- `MetaliftFunc.__call__` (1706-1754) with the given `driver.postconditions`.  Every iteration but the last visits a
block, and no block is visited twice, so the loop ends after at most one iteration more than there are
blocks; further iterations change nothing. -/
def Func.call (F : Func) (posts : List Expr) : Option Visitor :=
  F.passes (F.blocks.length + 1) { posts := posts }

/-- The obligations handed to the driver (1751-1752). -/
def Func.asserts (F : Func) (V : Visitor) : List Expr := F.blocks.flatMap (fun b => (V.states b.name).asserts)

/-- The verification condition (`Driver.synthesize`, 1595) after one function was analysed. -/
def Func.vc (F : Func) (posts : List Expr) : Option Expr := do
  andObjects (F.asserts (← F.call posts))

end Metalift.Ll
