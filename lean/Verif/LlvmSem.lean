import Verif.Llvm
/-
Specification: what the modelled LLVM instructions do, and what it means that a function meets its postcondition.
This file does not depend on the front end's visitor, only on the syntax of functions.

Integers are signed 32-bit numbers represented by Lean integers.  `i1` and `i8` are booleans: the front end maps
both to `Bool` (`metalift/ir.py` 629).  Memory is a set of cells named by the pointers; there is no pointer arithmetic and no
aliasing.  Undefined behaviour and type errors have no result (`none`).
-/
namespace Metalift.Ll

mutual
/-- The value belongs to the type.  A set is represented by the increasing list of its elements; variables do not hold functions. -/
def hasTy : Ty → Val → Bool
  | .int, .int _ => true
  | .bool, .bool _ => true
  | .list t, .list vs => vs.all (hasTy t)
  | .set t, .list vs => vs.all (hasTy t) && decide (vs.Pairwise (fun a b => a.asInt < b.asInt))
  | .tuple ts, .tuple vs => hasTys ts vs
  | _, _ => false
/-- Values of tuples. -/
def hasTys : List Ty → List Val → Bool
  | [], [] => true
  | t :: ts, v :: vs => hasTy t v && hasTys ts vs
  | _, _ => false
end

/-- Numbers representable in `w` bits, two's complement. -/
def fits (w : Nat) (i : Int) : Prop := -(2 ^ (w - 1)) ≤ i ∧ i < 2 ^ (w - 1)

instance (w : Nat) (i : Int) : Decidable (fits w i) := by unfold fits; infer_instance

/-- The number with the same lowest `w` bits that is representable in `w` bits. -/
def wrap (w : Nat) (i : Int) : Int := (i + 2 ^ (w - 1)) % 2 ^ w - 2 ^ (w - 1)

/-- The number read as an unsigned 32-bit number. -/
def unsigned (i : Int) : Int := i % 2 ^ 32

/-- Registers and memory cells. -/
structure CSt where
  regs : String → Option Val
  cells : String → Option Val

/-- Value of an operand. -/
def CSt.read (s : CSt) : Opd → Option Val
  | .reg n => s.regs n
  | .ptr n => s.cells n
  | .int i => some (.int i)
  | .bool b => some (.bool b)

/-- Update of a register. -/
def CSt.write (s : CSt) (x : String) (v : Val) : CSt := { s with regs := fun y => if y = x then some v else s.regs y }
/-- Update of a cell. -/
def CSt.store (s : CSt) (x : String) (v : Val) : CSt := { s with cells := fun y => if y = x then some v else s.cells y }

/-- Integer result of an instruction: overflow is undefined with `nsw` and wraps around otherwise. -/
def overflow (nsw : Bool) (i : Int) : Option Int :=
  if nsw then (if fits 32 i then some i else none) else some (wrap 32 i)

/-- Division of a run; `none` is undefined behaviour.  The instance `llvm` is LLVM's and is the one meant wherever no other is named.  (The
other one, in `PLlvmEnd.lean`, gives up where the solver's division differs from LLVM's.) -/
class LlOps where
  sdiv : Int → Int → Option Int
  srem : Int → Int → Option Int

/-- The language reference: `sdiv` rounds towards zero, `srem` has the sign of the dividend; division by zero is undefined, and so is
overflow in `sdiv` and `srem`. -/
instance llvm : LlOps where
  sdiv a b := if b = 0 then none else overflow true (a.tdiv b)
  srem a b := if b = 0 then none else (overflow true (a.tdiv b)).map fun _ => a.tmod b

section Runs
variable [LlOps]

/-- Integer instructions of the language reference. -/
def binSem (op : BinOp) (nsw : Bool) (a b : Int) : Option Int :=
  match op with
  | .add => overflow nsw (a + b)
  | .sub => overflow nsw (a - b)
  | .mul => overflow nsw (a * b)
  | .sdiv => LlOps.sdiv a b
  | .srem => LlOps.srem a b

/-- Comparisons of integers. -/
def cmpSem (c : Cmp) (a b : Int) : Bool :=
  match c with
  | .eq => decide (a = b)
  | .ne => decide (a ≠ b)
  | .sgt => decide (a > b)
  | .sge => decide (a ≥ b)
  | .slt => decide (a < b)
  | .sle => decide (a ≤ b)
  | .ugt => decide (unsigned a > unsigned b)
  | .uge => decide (unsigned a ≥ unsigned b)
  | .ult => decide (unsigned a < unsigned b)
  | .ule => decide (unsigned a ≤ unsigned b)

/-- Comparisons; booleans can be tested for equality. -/
def cmpVal (c : Cmp) : Val → Val → Option Bool
  | .int a, .int b => some (cmpSem c a b)
  | .bool a, .bool b =>
    match c with
    | .eq => some (decide (a = b))
    | .ne => some (decide (a ≠ b))
    | _ => none
  | _, _ => none

/-- Conversions: sign extension of the bit 1 is -1, truncation keeps the lowest bits.  `i8` is
only used for booleans. -/
def convSem : Conv → Val → Option Val
  | .bitcast, v => some v
  | .sext 1 _, .bool b => some (.int (if b then -1 else 0))
  | .sext _ _, .int i => some (.int i)
  | .trunc 8 1, .bool b => some (.bool b)
  | .trunc 8 _, _ => none
  | .trunc _ 1, .int i => some (.bool (decide (i % 2 = 1)))
  | .trunc _ w, .int i => some (.int (wrap w i))
  | _, _ => none

/-- Content of a new cell: reading an uninitialised variable is undefined in C, so any choice is good. -/
def initVal : Ty → Option Val
  | .int => some (.int 0)
  | .bool => some (.bool false)
  | .list _ => some (.list [])
  | _ => none

/-- The value if it has the type. -/
def ofTy (t : Ty) (v : Val) : Option Val := if hasTy t v then some v else none

/-- Values of operands. -/
def readAllC (s : CSt) : List Opd → Option (List Val)
  | [] => some []
  | o :: os => do
    let v ← s.read o
    let vs ← readAllC s os
    some (v :: vs)

/-- `size()` of a vector of elements of type `t`. -/
def vecLength (t : Ty) : List Val → Option Val
  | [.list l] => if l.all (hasTy t) then some (.int l.length) else none
  | _ => none

/-- `operator[]` on a vector of elements of type `t`: undefined out of range. -/
def vecGet (t : Ty) : List Val → Option Val
  | [.list l, .int i] => if l.all (hasTy t) ∧ 0 ≤ i then l[i.toNat]? else none
  | _ => none

/-- `push_back` of a number. -/
def vecPush : Val → Val → Option Val
  | .list l, .int i => if l.all (hasTy .int) then some (.list (l ++ [.int i])) else none
  | _, _ => none

/-- Calls: the vector functions, under the names the front end gives them for vectors and vectors of vectors of numbers,
do what the C++ standard says; other functions are interpreted by `I`. -/
def libCall (I : Interp) (f : String) (vs : List Val) : Option Val :=
  if f = "list_length" then vecLength .int vs
  else if f = "list_get" then vecGet .int vs
  else if f = "matrix_length" then vecLength (.list .int) vs
  else if f = "matrix_get" then vecGet (.list .int) vs
  else some (I.fn f vs)

/-- One instruction.  `ty` gives the declared type of registers and cells: LLVM is typed, a value of a different type
cannot be written. -/
def execInst (I : Interp) (ty : String → Ty) (s : CSt) : Inst → Option CSt
  | .alloca r t => do some (s.store r (← ofTy (ty r) (← initVal t)))
  | .load toPtr r p => do
    let v ← ofTy (ty r) (← s.cells p)
    some (if toPtr then s.store r v else s.write r v)
  | .store v p => do some (s.store p (← ofTy (ty p) (← s.read v)))
  | .bin op nsw r a b => do
    match (← s.read a), (← s.read b) with
    | .int i, .int j => some (s.write r (.int (← binSem op nsw i j)))
    | _, _ => none
  | .icmp c r a b => do some (s.write r (.bool (← cmpVal c (← s.read a) (← s.read b))))
  | .cast k r a => do some (s.write r (← convSem k (← s.read a)))
  | .call toPtr r f _ args => do
    let v ← ofTy (ty r) (← libCall I f (← readAllC s args))
    some (if toPtr then s.store r v else s.write r v)
  | .vector p _ => do
    let _ ← s.cells p
    some (s.store p (← ofTy (ty p) (.list [])))
  | .pushBack p v => do
    let l ← s.cells p
    some (s.store p (← ofTy (ty p) (← vecPush l (← s.read v))))
  | .other _ => none

/-- A list of instructions. -/
def execInsts (I : Interp) (ty : String → Ty) (s : CSt) (is : List Inst) : Option CSt :=
  is.foldlM (execInst I ty) s

/-- The block reached from a block end. -/
def nextBlock (s : CSt) : Term Opd → Option String
  | .br t => some t
  | .cbr c t f =>
    match s.read c with
    | some (.bool true) => some t
    | some (.bool false) => some f
    | _ => none
  | _ => none

/-- Start: arguments are in registers or, for lists, behind pointers; the place for the result is a cell. -/
def Func.initial (F : Func) (ρ : Env) : CSt where
  regs := fun x => if x ∈ F.args ∧ isPointer (F.ty x) = false then some (ρ x) else none
  cells := fun x => if x ∈ F.args ∧ isPointer (F.ty x) = true ∨ F.sret = some x then some (ρ x) else none

/-- `Reaches F I ρ b s`: called with the arguments `ρ`, the function can be about to execute block `b`
in state `s`. -/
inductive Reaches (F : Func) (I : Interp) (ρ : Env) : LBlk → CSt → Prop where
  | start (b : LBlk) : F.blocks.head? = some b → Reaches F I ρ b (F.initial ρ)
  | step {b c : LBlk} {s s' : CSt} : Reaches F I ρ b s → execInsts I F.ty s b.insts = some s' →
      nextBlock s' b.term = some c.name → c ∈ F.blocks → Reaches F I ρ c s'

/-- The function returns `v`. -/
def Returns (F : Func) (I : Interp) (ρ : Env) (v : Val) : Prop :=
  ∃ b s s' o, Reaches F I ρ b s ∧ execInsts I F.ty s b.insts = some s' ∧ b.term = .ret o ∧
    match o with
    | some o => s'.read o = some v
    | none => ∃ x, F.sret = some x ∧ s'.cells x = some v

/-- All variables have values of their types. -/
def Typed (F : Func) (ρ : Env) : Prop := ∀ x, hasTy (F.ty x) (ρ x) = true

/-- The postcondition holds for the arguments and the result. -/
def Func.contract (F : Func) (I : Interp) (ρ : Env) (v : Val) : Prop :=
  (I.fn (F.name ++ "_ps") (F.args.map ρ ++ [v])).asBool = true

/-- What a user relies on: if the verification condition is true for all values of the variables, then whatever
the function returns, called with arguments that satisfy the preconditions, satisfies the postcondition. -/
def VcSound (F : Func) (posts : List Expr) (I : Interp) : Prop :=
  ∀ vc, F.vc posts = some vc → (∀ ρ, Typed F ρ → holds I ρ vc) →
    ∀ ρ v, Typed F ρ → (∀ p ∈ posts, holds I ρ p) → Returns F I ρ v → F.contract I ρ v

end Runs

end Metalift.Ll
