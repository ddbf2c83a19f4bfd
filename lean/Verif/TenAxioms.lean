import Verif.Tenspiler
/-
Model of the axioms about the tensor target language, `metalift/utils/tenspiler/axioms.py`.
-/
namespace Metalift.Ten.Ax
open Metalift Metalift.Ten

/-- The variables of the axioms (`axioms.py` 31-36). -/
def index : Obj := .var "index" .int
@[inherit_doc index] def a : Obj := .var "a" (.list .int)
@[inherit_doc index] def b : Obj := .var "b" (.list .int)
@[inherit_doc index] def i : Obj := .var "i" .int
@[inherit_doc index] def x : Obj := .var "x" (.matrix .int)
@[inherit_doc index] def y : Obj := .var "y" (.matrix .int)

/-- `l[:index]`. -/
def upTo (l : Obj) : Option Obj := l.getitem (.slice none (some index) false)
/-- `l[1:index]`. -/
def oneTo (l : Obj) : Option Obj := l.getitem (.slice (some (.int 1)) (some index) false)

/-- `and_objects(index >= 0, index < l.len(), l.len() == r.len())`. -/
def zipPre (l r : Obj) : Option Obj := andObjs [index.ge (.int 0), index.lt l.len, l.len.eq r.len]
/-- `and_objects(index >= 0, index < l.len())`. -/
def mapPre (l : Obj) : Option Obj := andObjs [index.ge (.int 0), index.lt l.len]

/-- The common shape of the axioms on two lists: `implies(.., f(l[:index], r[:index]) == f(l[1:index], r[1:index]).prepend(g(l[0], r[0])))`. -/
def zipAxiom (f : String) (l r : Obj) (g : Obj → Obj → Obj) : Option Obj := do
  let lhs := call f l.ty [← upTo l, ← upTo r]
  let rhs ← (call f l.ty [← oneTo l, ← oneTo r]).prepend (g (← first l) (← first r))
  pure (impliesObj (← zipPre l r) (lhs.listEq rhs))

/-- The common shape of the axioms on a list and another argument: `before` and `after` are the arguments around the list, `t` the
type of the result. -/
def mapAxiom (f : String) (t : OTy) (l : Obj) (before after : List Obj) (g : Obj → Obj) : Option Obj := do
  let lhs := call f t (before ++ [← upTo l] ++ after)
  let rhs ← (call f t (before ++ [← oneTo l] ++ after)).prepend (g (← first l))
  pure (impliesObj (← mapPre l) (lhs.listEq rhs))

/-- `vec_elemwise_add_axiom` (41-46), `.._mul_..` (49-54), `.._sub_..` (97-102), `.._div_..` (133-138). -/
def vecZipAxioms : List (Option Obj) :=
  [zipAxiom "vec_elemwise_add" a b Obj.add, zipAxiom "vec_elemwise_mul" a b Obj.mul, zipAxiom "vec_elemwise_sub" a b Obj.sub,
   zipAxiom "vec_elemwise_div" a b Obj.div]

/-- `scalar_vec_sub_axiom` (57-62), `vec_scalar_sub_axiom` (65-70), `vec_scalar_add_axiom` (73-78), `scalar_vec_div_axiom` (81-86),
`vec_scalar_mul_axiom` (89-94), `vec_scalar_div_axiom` (125-130). -/
def vecScalarAxioms : List (Option Obj) :=
  [mapAxiom "scalar_vec_sub" (.list .int) a [i] [] (fun e => i.sub e), mapAxiom "vec_scalar_sub" (.list .int) a [i] [] (fun e => e.sub i),
   mapAxiom "vec_scalar_add" (.list .int) a [i] [] (fun e => i.add e), mapAxiom "scalar_vec_div" (.list .int) a [i] [] (fun e => i.div e),
   mapAxiom "vec_scalar_mul" (.list .int) a [i] [] (fun e => i.mul e), mapAxiom "vec_scalar_div" (.list .int) a [i] [] (fun e => e.div i)]

/-- `matrix_elemwise_add_axiom` (141-148), `.._sub_..` (151-158), `.._mul_..` (179-186). -/
def matZipAxioms : List (Option Obj) :=
  [zipAxiom "matrix_elemwise_add" x y (fun u v => call "vec_elemwise_add" (.list .int) [u, v]),
   zipAxiom "matrix_elemwise_sub" x y (fun u v => call "vec_elemwise_sub" (.list .int) [u, v]),
   zipAxiom "matrix_elemwise_mul" x y (fun u v => call "vec_elemwise_mul" (.list .int) [u, v])]

/-- `matrix_scalar_mul_axiom` (161-166), `.._div_..` (189-194), `.._sub_..` (197-202). -/
def matScalarAxioms : List (Option Obj) :=
  [mapAxiom "matrix_scalar_mul" (.matrix .int) x [i] [] (fun u => call "vec_scalar_mul" (.list .int) [i, u]),
   mapAxiom "matrix_scalar_div" (.matrix .int) x [i] [] (fun u => call "vec_scalar_div" (.list .int) [i, u]),
   mapAxiom "matrix_scalar_sub" (.matrix .int) x [i] [] (fun u => call "vec_scalar_sub" (.list .int) [i, u])]

/-- `matrix_vec_mul_axiom` (169-176). -/
def matVecAxiom : Option Obj :=
  mapAxiom "matrix_vec_mul" (.list .int) x [] [b] (fun u => call "reduce_sum" .int [call "vec_elemwise_mul" (.list .int) [u, b]])

/-- `and_objects(index >= 0, index <= max_pos, max_pos >= 0)`; the variable `i` is `max_pos` (259-261). -/
def posPre : Option Obj := andObjs [index.ge (.int 0), index.le i, i.ge (.int 0)]

/-- `reduce_sum_axiom` (105-110, 259). -/
def reduceSumAxiom : Option Obj := do
  let lhs := call "reduce_sum" .int [← a.getitem (.slice none (some (index.add (.int 1))) false)]
  let rhs := (call "reduce_sum" .int [← upTo a]).add (← a.getitem (.at index))
  pure (impliesObj (← posPre) (lhs.eq rhs))

/-- `reduce_max_axiom` (113-122, 261). -/
def reduceMaxAxiom : Option Obj := do
  let lhs := call "reduce_max" .int [← a.getitem (.slice none (some (index.add (.int 1))) false)]
  let before := call "reduce_max" .int [← upTo a]
  let e ← a.getitem (.at index)
  pure (impliesObj (← posPre) (lhs.eq (ite' (e.gt before) e before)))

end Metalift.Ten.Ax
