import Verif.VcUtil
/-
Model of the object layer of the IR for integers and lists: `metalift/ir.py` 654-749 and the classes `Int` 911-1053, `List` 1055-1325,
`Matrix` 1328-1544, `Tensor3D` 1546-1599.  An object is the expression it wraps together with its type.
-/
namespace Metalift

/-- Types of the objects modelled here.  `matrix t` is `Matrix[t]`, which is a different Python type from `List[List[t]]`.
`fn n` is the type of functions from `n` integers to an integer, `Fn[tuple[Int, ...]]`. -/
inductive OTy where
  | int
  | bool
  | list (t : OTy)
  | matrix (t : OTy)
  | tensor3d (t : OTy)
  | fn (n : Nat)
  deriving DecidableEq

/-- The type recorded in expressions. -/
def OTy.toTy : OTy → Ty
  | .int => .int
  | .bool => .bool
  | .list t => .list t.toTy
  | .matrix t => .list (.list t.toTy)
  | .tensor3d t => .list (.list (.list t.toTy))
  | .fn n => .fn (List.replicate (n + 1) .int)

/-- An object: `Object.src` and the type given by its class and `containedT`/`elemT`. -/
structure Obj where
  src : Expr
  ty : OTy

/-- `create_object(t, name)` (`metalift/ir.py` 654-668) for a variable. -/
def Obj.var (n : String) (t : OTy) : Obj := ⟨.var n t.toTy, t⟩

/-- `Int(n)` (`metalift/ir.py` 912-924). -/
def Obj.int (i : Int) : Obj := ⟨intLit i, .int⟩

/-- `call(fn_name, return_type, *args)` (`metalift/ir.py` 713-719). -/
def call (f : String) (t : OTy) (args : List Obj) : Obj := ⟨mkCall f t.toTy (args.map Obj.src), t⟩

/-- `call_value(fn, *args)` (`metalift/ir.py` 722-725), for functions returning an integer. -/
def callValue (f : Obj) (args : List Obj) : Obj := ⟨.node .callValue .int (f.src :: args.map Obj.src), .int⟩

/-- `ite(c, a, b)` (`metalift/ir.py` 695-706). -/
def ite' (c : Obj) (a b : Obj) : Obj := ⟨mkIte a.ty.toTy c.src a.src b.src, a.ty⟩

/-- `implies(a, b)` (`metalift/ir.py` 709-710). -/
def impliesObj (a b : Obj) : Obj := ⟨mkImplies a.src b.src, .bool⟩

/-- `or_objects` on `Bool` objects (`metalift/vc_util.py` 57-59). -/
def orObjs (os : List Obj) : Option Obj := (orObjects (os.map Obj.src)).map (⟨·, .bool⟩)

/-- `and_objects` on `Bool` objects (`metalift/vc_util.py` 52-54). -/
def andObjs (os : List Obj) : Option Obj := (andObjects (os.map Obj.src)).map (⟨·, .bool⟩)

/-! ### `Int` (`metalift/ir.py` 911-1053), both operands `Int` objects (Python integers are wrapped by `Obj.int` first) -/

/-- `Int.__add__` (963-964). -/
def Obj.add (a b : Obj) : Obj := ⟨.node .add .int [a.src, b.src], .int⟩
/-- `Int.__sub__` (966-967). -/
def Obj.sub (a b : Obj) : Obj := ⟨.node .sub .int [a.src, b.src], .int⟩
/-- `Int.__mul__` (969-970). -/
def Obj.mul (a b : Obj) : Obj := ⟨.node .mul .int [a.src, b.src], .int⟩
/-- `Int.__floordiv__` (972-973). -/
def Obj.div (a b : Obj) : Obj := ⟨.node .div .int [a.src, b.src], .int⟩
/-- `Int.__mod__` (975-976). -/
def Obj.mod (a b : Obj) : Obj := ⟨.node .mod .int [a.src, b.src], .int⟩
/-- `Int.__eq__` (1009-1012). -/
def Obj.eq (a b : Obj) : Obj := ⟨mkEq a.src b.src, .bool⟩
/-- `Int.__ne__` (1014-1017). -/
def Obj.ne (a b : Obj) : Obj := ⟨mkNot (mkEq a.src b.src), .bool⟩
/-- `Int.__ge__` (1019-1022). -/
def Obj.ge (a b : Obj) : Obj := ⟨.node .ge .bool [a.src, b.src], .bool⟩
/-- `Int.__gt__` (1024-1027). -/
def Obj.gt (a b : Obj) : Obj := ⟨.node .gt .bool [a.src, b.src], .bool⟩
/-- `Int.__lt__` (1029-1032). -/
def Obj.lt (a b : Obj) : Obj := ⟨.node .lt .bool [a.src, b.src], .bool⟩
/-- `Int.__le__` (1034-1037). -/
def Obj.le (a b : Obj) : Obj := ⟨.node .le .bool [a.src, b.src], .bool⟩

/-! ### Lists -/

/-- `containedT` of a list object: `List` 1075, `Matrix` 1345, `Tensor3D` 1564. `none` for other objects. -/
def OTy.contained? : OTy → Option OTy
  | .list t => some t
  | .matrix t => some (.list t)
  | .tensor3d t => some (.matrix t)
  | _ => none

/-- `is_matrix` (`metalift/ir.py` 1082-1084): `Matrix[..]`, or a list type whose argument is a list type (59-65).
`Tensor3D[Int]` has the argument `Int`. -/
def OTy.isMatrix : OTy → Bool
  | .matrix _ => true
  | .list (.list _) | .list (.matrix _) | .list (.tensor3d _) => true
  | .tensor3d (.list _) | .tensor3d (.matrix _) | .tensor3d (.tensor3d _) => true
  | _ => false

/-- `is_tensor3d` (`metalift/ir.py` 1086-1088). -/
def OTy.isTensor3d : OTy → Bool
  | .tensor3d _ => true
  | _ => false

/-- `is_primitive_type` (`metalift/ir.py` 86-87). -/
def OTy.isPrimitive : OTy → Bool
  | .int | .bool => true
  | _ => false

/-- The choice among three function names made in `__getitem__` and `slice_with_length`. -/
def OTy.pick (t : OTy) (m t3 l : String) : String := if t.isMatrix then m else if t.isTensor3d then t3 else l

/-- `List.empty(t)` (`metalift/ir.py` 1090-1096). -/
def listEmpty (t : OTy) : Obj :=
  ⟨mkCall (if t.isPrimitive then "list_empty" else "matrix_empty") (OTy.list t).toTy [], .list t⟩
/-- `Matrix.empty(t)` (`metalift/ir.py` 1353-1355). -/
def matrixEmpty (t : OTy) : Obj := ⟨mkCall "matrix_empty" (OTy.matrix t).toTy [], .matrix t⟩
/-- `Tensor3D.empty(t)` (`metalift/ir.py` 1572-1574). -/
def tensor3dEmpty (t : OTy) : Obj := ⟨mkCall "tensor3d_empty" (OTy.tensor3d t).toTy [], .tensor3d t⟩

/-- `len()`: `List` 1104-1105, `Matrix` 1361-1362, `Tensor3D` 1580-1581. -/
def Obj.len (l : Obj) : Obj :=
  ⟨mkCall (match l.ty with | .matrix _ => "matrix_length" | .tensor3d _ => "tensor3d_length" | _ => "list_length") .int [l.src], .int⟩

/-- What may stand between the brackets of `l[...]`; a slice has optional bounds and perhaps a step. -/
inductive Index where
  | at (i : Obj)
  | slice (start stop : Option Obj) (step : Bool)

/-- `List.__getitem__` (`metalift/ir.py` 1107-1154).  `l[:]` takes the first branch with `start = None`; the arguments then contain
`None`, which no later use of the expression accepts; it is modelled as an exception. -/
def Obj.getitem (l : Obj) : Index → Option Obj
  | .at i => l.ty.contained?.map (fun t => call (l.ty.pick "matrix_get" "tensor3d_get" "list_get") t [l, i])
  | .slice start none false => start.map (fun s => call (l.ty.pick "matrix_tail" "tensor3d_tail" "list_tail") l.ty [l, s])
  | .slice none (some stop) false => some (call (l.ty.pick "matrix_take" "tensor3d_take" "list_take") l.ty [l, stop])
  | .slice (some start) (some stop) false =>
    some (call (l.ty.pick "matrix_row_slice" "tensor3d_slice" "vec_slice") l.ty [l, start, stop])
  | .slice _ _ true => none

/-- `__setitem__` (`metalift/ir.py` 1156-1163): the object afterwards. -/
def Obj.setitem (l i v : Obj) : Option Obj :=
  if some v.ty = l.ty.contained? then some ⟨mkCall "list_set" l.ty.toTy [l.src, i.src, v.src], l.ty⟩ else none

/-- `append`: `List` 1166-1172, `Matrix` 1445-1452, `Tensor3D` 1593-1599; the object afterwards. -/
def Obj.append (l v : Obj) : Option Obj :=
  if some v.ty = l.ty.contained? then
    some (call (match l.ty with | .matrix _ => "matrix_append" | .tensor3d _ => "tensor3d_append" | _ => "list_append") l.ty [l, v])
  else none

/-- The function called by `prepend`: `List` 1181, `Matrix` 1458, `Tensor3D` 1589. -/
def OTy.prependFn : OTy → String
  | .matrix _ => "matrix_prepend"
  | .tensor3d _ => "tensor3d_prepend"
  | _ => "list_prepend"

/-- `prepend`: `List` 1175-1181, `Matrix` 1455-1462, `Tensor3D` 1584-1591; the object afterwards. -/
def Obj.prepend (l v : Obj) : Option Obj :=
  if some v.ty = l.ty.contained? then some (call l.ty.prependFn l.ty [v, l]) else none

/-- `slice_with_length`: `List` 1183-1197, `Matrix` 1487-1494. -/
def Obj.sliceWithLength (l start n : Obj) : Obj :=
  call (l.ty.pick "matrix_row_slice_with_length" "tensor3d_slice_with_length" "vec_slice_with_length") l.ty [l, start, n]

/-- `col_slice` (`metalift/ir.py` 1464-1469). -/
def Obj.colSlice (m start stop : Obj) : Obj := call "matrix_col_slice" m.ty [m, start, stop]
/-- `col_slice_with_length` (`metalift/ir.py` 1471-1478). -/
def Obj.colSliceWithLength (m start n : Obj) : Obj := call "matrix_col_slice_with_length" m.ty [m, start, n]
/-- `transpose` (`metalift/ir.py` 1496-1498). -/
def Obj.transpose (m : Obj) : Obj := call "matrix_transpose" m.ty [m]
/-- `col_vec` (`metalift/ir.py` 1480-1485). -/
def Obj.colVec (m i : Obj) : Option Obj :=
  (call "matrix_col_slice_with_length" m.ty [m, i, Obj.int 1]).transpose.getitem (.at (Obj.int 0))

/-- `+` on two list objects: `List.__add__` 1199-1206, `Matrix.__add__` 1501-1506. -/
def Obj.concat (l r : Obj) : Option Obj :=
  if l.ty = r.ty then some ⟨mkCall "list_concat" l.ty.toTy [l.src, r.src], l.ty⟩ else none

/-- `==` on two list objects, `List.__eq__` 1208-1212. -/
def Obj.listEq (l r : Obj) : Obj := if l.ty = r.ty then call "list_eq" .bool [l, r] else ⟨boolLit false, .bool⟩

/-- `!=` on two list objects.  `List` defines `__eq__` and not `__ne__`, so Python answers `not (l == r)`; the object `l == r` has no
`__bool__`, so it counts as true. The answer is a Python boolean. -/
def Obj.listNe (_l _r : Obj) : Bool := false

/-- The two kinds of numeric containers that have `add`, `sub`, `mul` and `div`, `List` and `Matrix`. -/
inductive Container where
  | vec
  | mat
  deriving DecidableEq

/-- `List[Int]` or `Matrix[Int]`. -/
def Container.ty : Container → OTy
  | .vec => .list .int
  | .mat => .matrix .int

/-- An operand accepted by the numeric helpers is an `Int` or the container (`_check_type_for_numeric_op`,
`metalift/ir.py` 1217-1239 and 1364-1390); `true` when at least one is the container. -/
def Container.check (c : Container) (a b : Obj) : Bool :=
  (a.ty == c.ty || b.ty == c.ty) && (a.ty == c.ty || a.ty == .int) && (b.ty == c.ty || b.ty == .int)

/-- The common shape of `add`, `sub`, `mul` and `div` (`List` 1241-1291, `Matrix` 1392-1442): the function for a scalar on the left, for
a scalar on the right, and for two containers. The scalar is always passed first. -/
def Container.arith (c : Container) (left right elem : String) (a b : Obj) : Option Obj :=
  if c.check a b then
    if a.ty = .int then some (call left c.ty [a, b])
    else if b.ty = .int then some (call right c.ty [b, a])
    else some (call elem c.ty [a, b])
  else none

/-- `List.add` 1242-1252, `Matrix.add` 1393-1403. -/
def Container.add : Container → Obj → Obj → Option Obj
  | .vec => Container.arith .vec "vec_scalar_add" "vec_scalar_add" "vec_elemwise_add"
  | .mat => Container.arith .mat "matrix_scalar_add" "matrix_scalar_add" "matrix_elemwise_add"
/-- `List.sub` 1255-1265, `Matrix.sub` 1406-1416. -/
def Container.sub : Container → Obj → Obj → Option Obj
  | .vec => Container.arith .vec "scalar_vec_sub" "vec_scalar_sub" "vec_elemwise_sub"
  | .mat => Container.arith .mat "scalar_matrix_sub" "matrix_scalar_sub" "matrix_elemwise_sub"
/-- `List.mul` 1268-1278, `Matrix.mul` 1419-1429. -/
def Container.mul : Container → Obj → Obj → Option Obj
  | .vec => Container.arith .vec "vec_scalar_mul" "vec_scalar_mul" "vec_elemwise_mul"
  | .mat => Container.arith .mat "matrix_scalar_mul" "matrix_scalar_mul" "matrix_elemwise_mul"
/-- `List.div` 1281-1291, `Matrix.div` 1432-1442. -/
def Container.div : Container → Obj → Obj → Option Obj
  | .vec => Container.arith .vec "scalar_vec_div" "vec_scalar_div" "vec_elemwise_div"
  | .mat => Container.arith .mat "scalar_matrix_div" "matrix_scalar_div" "matrix_elemwise_div"

end Metalift
