import Verif.LlvmLib
import Verif.LlvmSem
import Verif.PSetObj
/-
Specification for C72: what code that calls the list, vector, set and tuple libraries does (`headers/list.h`, `headers/set.h`, `headers/tuples.h` and the C++ standard).
It does not depend on the front end, only on the syntax of instructions.

Lists, sets and tuples are values: the functions of the headers leave their arguments as they are.  Vectors are changed by `push_back`.  There is no aliasing of
vectors.  `tupleGet(t, i)` is component `i`, as its callers mean it; the template in the header returns the first component whatever `i` is.
-/
namespace Metalift.Ll.Lib

/-- `LibVal sq ex f vs w`: called with the values `vs`, the function `f` returns `w`.  `sq` and `ex` are the two integer functions.  Sets are increasing lists. -/
inductive LibVal (sq ex : Int → Int) : String → List Val → Val → Prop where
  | newList : LibVal sq ex "newList" [] (.list [])
  | listLength (l : List Val) : LibVal sq ex "listLength" [.list l] (.int l.length)
  | listGet (l : List Val) (i : Nat) (v : Val) (h : l[i]? = some v) : LibVal sq ex "listGet" [.list l, .int i] v
  | listAppend (l : List Val) (v : Val) : LibVal sq ex "listAppend" [.list l, v] (.list (l ++ [v]))
  | size (l : List Val) : LibVal sq ex "size" [.list l] (.int l.length)
  | index (l : List Val) (i : Nat) (v : Val) (h : l[i]? = some v) : LibVal sq ex "operator[]" [.list l, .int i] v
  | setCreate (w : Val) (h : SO.rktRep w fun _ => False) : LibVal sq ex "set_create" [] w
  | setAdd (s w : Val) (S : Int → Prop) (x : Int) (hs : SO.rktRep s S) (hw : SO.rktRep w fun y => y = x ∨ S y) : LibVal sq ex "set_add" [s, .int x] w
  | setRemove (s w : Val) (S : Int → Prop) (x : Int) (hs : SO.rktRep s S) (hw : SO.rktRep w fun y => y ≠ x ∧ S y) : LibVal sq ex "set_remove" [s, .int x] w
  | setContains (s : Val) (S : Int → Prop) (x : Int) (b : Bool) (hs : SO.rktRep s S) (hb : b = true ↔ S x) :
      LibVal sq ex "set_contains" [s, .int x] (.int (if b then 1 else 0))
  | makeTuple (vs : List Val) : LibVal sq ex "MakeTuple" vs (.tuple vs)
  | tupleGet (vs : List Val) (i : Nat) (v : Val) (h : vs[i]? = some v) : LibVal sq ex "tupleGet" [.tuple vs, .int i] v
  | sqrt (x : Int) : LibVal sq ex "integer_sqrt" [.int x] (.int (sq x))
  | exp (x : Int) : LibVal sq ex "integer_exp" [.int x] (.int (ex x))

/-- Writing a register or a cell. -/
def _root_.Metalift.Ll.CSt.put (c : CSt) (toPtr : Bool) (x : String) (v : Val) : CSt := if toPtr then c.store x v else c.write x v

/-- Values of operands. -/
def readVals (c : CSt) : List Opd → Option (List Val)
  | [] => some []
  | o :: os => do
    let v ← c.read o
    let vs ← readVals c os
    some (v :: vs)

/-- Result of an integer instruction on mathematical integers. -/
def Arith.value : Arith → Int → Int → Int
  | .add, a, b => a + b
  | .sub, a, b => a - b
  | .mul, a, b => a * b

/-- One instruction.  Memory that has just been allocated has no value; overflow is undefined. -/
inductive Exec1 (sq ex : Int → Int) : CSt → LInst → CSt → Prop where
  | alloca (c : CSt) (r t : String) : Exec1 sq ex c (.alloca r t) { c with cells := fun y => if y = r then none else c.cells y }
  | load (c : CSt) (toPtr : Bool) (r p : String) (v : Val) (h : c.cells p = some v) : Exec1 sq ex c (.load toPtr r p) (c.put toPtr r v)
  | store (c : CSt) (o : Opd) (p : String) (v : Val) (h : c.read o = some v) : Exec1 sq ex c (.store o p) (c.store p v)
  | copy (c : CSt) (toPtr : Bool) (r : String) (o : Opd) (v : Val) (h : c.read o = some v) : Exec1 sq ex c (.copy toPtr r o) (c.put toPtr r v)
  | arith (c : CSt) (op : Arith) (r : String) (a b : Opd) (i j : Int) (ha : c.read a = some (.int i)) (hb : c.read b = some (.int j))
      (hfits : fits 32 (op.value i j)) : Exec1 sq ex c (.arith op r a b) (c.write r (.int (op.value i j)))
  | call (c : CSt) (toPtr : Bool) (r f : String) (d : Option Nat) (t : String) (args : List Opd) (vs : List Val) (w : Val)
      (hvs : readVals c args = some vs) (hw : LibVal sq ex f vs w) :
      Exec1 sq ex c (.call toPtr r f d t args) (if r = "" then c else c.put toPtr r w)
  | vector (c : CSt) (toPtr : Bool) (r : String) (d : Option Nat) (t p : String) : Exec1 sq ex c (.call toPtr r "vector" d t [.ptr p]) (c.store p (.list []))
  | pushBack (c : CSt) (toPtr : Bool) (r : String) (d : Option Nat) (t p : String) (o : Opd) (l : List Val) (v : Val) (hl : c.cells p = some (.list l))
      (hv : c.read o = some v) : Exec1 sq ex c (.call toPtr r "push_back" d t [.ptr p, o]) (c.store p (.list (l ++ [v])))

/-- A sequence of instructions. -/
inductive Exec (sq ex : Int → Int) : CSt → List LInst → CSt → Prop where
  | nil (c : CSt) : Exec sq ex c [] c
  | cons {c c' c'' : CSt} {i : LInst} {is : List LInst} (h : Exec1 sq ex c i c') (hs : Exec sq ex c' is c'') : Exec sq ex c (i :: is) c''

/-- The arguments at the start: numbers in registers, everything else behind pointers. -/
def start (args : List (String × LTy)) (ρ : Env) : CSt where
  regs := fun x => if args.any fun a => decide (a.1 = x) && (a.2.isPointer == false) then some (ρ x) else none
  cells := fun x => if args.any fun a => decide (a.1 = x) && (a.2.isPointer == true) then some (ρ x) else none

/-- The functions named in the expressions have their meaning: the functions for lists, matrices and tensors are the same operations on lists. -/
structure LibFns (I : Interp) (sq ex : Int → Int) : Prop where
  empty : ∀ f ∈ ["list_empty", "matrix_empty", "tensor3d_empty"], I.fn f [] = .list []
  length : ∀ f ∈ ["list_length", "matrix_length", "tensor3d_length"], ∀ l : List Val, I.fn f [.list l] = .int l.length
  get : ∀ f ∈ ["list_get", "matrix_get", "tensor3d_get"], ∀ (l : List Val) (i : Nat) v, l[i]? = some v → I.fn f [.list l, .int i] = v
  append : ∀ f ∈ ["list_append", "matrix_append", "tensor3d_append"], ∀ (l : List Val) v, I.fn f [.list l, v] = .list (l ++ [v])
  sets : SO.SetPrims I SO.rktRep
  tuple : ∀ vs, I.fn "make-tuple" vs = .tuple vs
  tupleGet : ∀ (vs : List Val) (i : Nat) v, vs[i]? = some v → I.fn "tupleGet" [.tuple vs, .int i] = v
  sqrt : ∀ x, I.fn "integer_sqrt" [.int x] = .int (sq x)
  exp : ∀ x, I.fn "integer_exp" [.int x] = .int (ex x)

/-! ### Conditions on programs -/

/-- A name is the name of a pointer or not, as LLVM's types say (`k`). -/
def opdKind (k : String → Bool) : Opd → Prop
  | .reg n => k n = false
  | .ptr n => k n = true
  | _ => True

/-- An instruction uses the names as LLVM's types say, and the result of a call is not one of its operands. -/
def instKind (k : String → Bool) : LInst → Prop
  | .alloca r _ => k r = true
  | .load toPtr r p => k r = toPtr ∧ k p = true
  | .store v p => opdKind k v ∧ k p = true
  | .copy toPtr r a => k r = toPtr ∧ opdKind k a
  | .arith _ r a b => k r = false ∧ opdKind k a ∧ opdKind k b
  | .call toPtr r _ _ _ args => k r = toPtr ∧ (∀ a ∈ args, opdKind k a) ∧ Opd.reg r ∉ args ∧ Opd.ptr r ∉ args

/-- The function called by an instruction. -/
def LInst.fn : LInst → Option String
  | .call _ _ f _ _ _ => some f
  | _ => none

end Metalift.Ll.Lib
