import Verif.Ir
/-
Model of the set and tuple objects of the IR: classes `Set` (`metalift/ir.py` 1602-1686) and `Tuple` (1692-1765), `make_tuple` (756-758).  An object is the
expression it wraps together with its type; `Matrix[t]` and `List[List[t]]` are not distinguished here.  `none` is an exception.
-/
namespace Metalift
namespace SO

/-- An object. -/
structure Obj where
  src : Expr
  ty : Ty

/-- Equality of types, `==` on classes and generic aliases. -/
def tyEq (a b : Ty) : Bool := a.beq b

/-- `type(item)` for an object: its class.  This is the type of the object for `Int` and `Bool`; for objects of generic classes it is the class without
arguments, which is different from every type (`none`). -/
def classOf (t : Ty) : Option Ty :=
  match t with
  | .int => some .int
  | .bool => some .bool
  | _ => none

/-- `containedT` of a set. -/
def containedT (t : Ty) : Option Ty :=
  match t with
  | .set t => some t
  | _ => none

/-- `Set(t, name)` (`metalift/ir.py` 1603-1619) for a name. -/
def setVar (n : String) (t : Ty) : Obj := ⟨.var n (.set t), .set t⟩

/-- `Set.empty(t)` (`metalift/ir.py` 1672-1674). -/
def setEmpty (t : Ty) : Obj := ⟨mkCall "set-create" (.set t) [], .set t⟩

/-- `Set.singleton(item)` (`metalift/ir.py` 1644-1646), for items of a class without arguments (others get a set of an incomplete type). -/
def setSingleton (item : Obj) : Option Obj := (classOf item.ty).map fun t => ⟨mkCall "set-singleton" (.set t) [item.src], .set t⟩

/-- `s.add(value)` (`metalift/ir.py` 1629-1634). -/
def setAdd (s value : Obj) : Option Obj :=
  match containedT s.ty with
  | some t => if tyEq value.ty t then some ⟨mkCall "set-insert" s.ty [value.src, s.src], s.ty⟩ else none
  | none => none

/-- `s.remove(item)` (`metalift/ir.py` 1636-1642). -/
def setRemove (s item : Obj) : Option Obj :=
  match containedT s.ty, classOf item.ty with
  | some t, some c => if tyEq c t then (setSingleton item).map fun o => ⟨mkCall "set-minus" s.ty [s.src, o.src], s.ty⟩ else none
  | _, _ => none

/-- `s.union(t)` (`metalift/ir.py` 1648-1654). -/
def setUnion (s t : Obj) : Option Obj := if tyEq s.ty t.ty then some ⟨mkCall "set-union" s.ty [s.src, t.src], s.ty⟩ else none

/-- `s.difference(t)` (`metalift/ir.py` 1656-1661). -/
def setDifference (s t : Obj) : Option Obj := if tyEq s.ty t.ty then some ⟨mkCall "set-minus" s.ty [s.src, t.src], s.ty⟩ else none

/-- `s.__contains__(value)` (`metalift/ir.py` 1663-1666). -/
def setContains (s value : Obj) : Option Obj :=
  match containedT s.ty with
  | some t => if tyEq value.ty t then some ⟨mkCall "set-pointer_varsber" .bool [s.src, value.src], .bool⟩ else some ⟨boolLit false, .bool⟩
  | none => none

/-- `bool(o)` for a `Bool` object: the class defines neither `__bool__` nor `__len__`. -/
def pyBool (_ : Obj) : Bool := true

/-- `value in s` in Python: the truth value of what `__contains__` returns. -/
def pyIn (value s : Obj) : Option Bool := (setContains s value).map pyBool

/-- `s == t` (`metalift/ir.py` 1668-1669). -/
def setEq (s t : Obj) : Obj := ⟨mkEq s.src t.src, .bool⟩

/-! ### Tuples -/

/-- `make_tuple(*objects)` (`metalift/ir.py` 756-758, `TupleExpr` 2751-2754). -/
def makeTuple (os : List Obj) : Obj := ⟨.node .tuple (.tuple (os.map (·.src.ty))) (os.map Obj.src), .tuple (os.map Obj.ty)⟩

/-- `Tuple((t1, ...), name)` (`metalift/ir.py` 1693-1709) for a name. -/
def tupleVar (n : String) (ts : List Ty) : Obj := ⟨.var n (.tuple ts), .tuple ts⟩

/-- `call(name, Tuple[tuple[t1, ...]], ...)` (`metalift/ir.py` 713-719, `create_object` 654-668): `create_object` hands over `tuple[t1, ...]` as the contained
types, so that the type of the object is that of a tuple with one component, itself of a generic type. -/
def callTuple (f : String) (ts : List Ty) (args : List Obj) : Obj := ⟨mkCall f (.tuple ts) (args.map Obj.src), .tuple [.tuple ts]⟩

/-- Indexing of a Python tuple: negative indices count from the end. -/
def pyIndex {α : Type} (l : List α) (i : Int) : Option α :=
  if 0 ≤ i then l[i.toNat]? else if 0 ≤ l.length + i then l[(l.length + i).toNat]? else none

/-- `t[i]` (`metalift/ir.py` 1711-1727) for a Python integer or an `Int` literal.  `issubclass` raises for generic aliases. -/
def tupleGetItem (t : Obj) (i : Int) : Option Obj :=
  match t.ty with
  | .tuple ts => (pyIndex ts i).bind fun item => (classOf item).map fun c => ⟨mkCall "tupleGet" c [t.src, intLit i], c⟩
  | _ => none

end SO
end Metalift
