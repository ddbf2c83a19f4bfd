import Verif.Simplify
/-
Model of `metalift/frontend/utils.py` (ObjectSet) and of the conjunction/disjunction
helpers in `metalift/vc_util.py`.  Objects are represented by their `src` expression; `Object.__eq__`
(`metalift/ir.py` 811-814) compares sources with `Expr.__eq__`.
-/
namespace Metalift

/-- `ObjectSet.__contains__` (`metalift/frontend/utils.py` 33-34). -/
def ObjectSet.contains (s : List Expr) (key : Expr) : Bool := s.any (fun o => o.pyEq key)

/-- `ObjectSet.add` (`metalift/frontend/utils.py` 25-31). -/
def ObjectSet.add (s : List Expr) (key : Expr) : List Expr :=
  if s.any (fun o => o.pyEq key) then s else s ++ [key]

/-- `ObjectSet.__init__` (`metalift/frontend/utils.py` 19-23): the loop with `self.objs` as accumulator. -/
def ObjectSet.init (objs : List Expr) : List Expr :=
  objs.foldl (fun s obj => if s.any (fun o => obj.pyEq o) then s else s ++ [obj]) []

/-- `ObjectSet.__sub__` (`metalift/frontend/utils.py` 36-41). -/
def ObjectSet.sub (s t : List Expr) : List Expr :=
  ObjectSet.init (s.filter (fun o => !ObjectSet.contains t o))

/-- One loop of `ObjectSet.__add__` (`metalift/frontend/utils.py` 45-47 and 48-50). -/
def ObjectSet.addAll (acc : List Expr) (s : List Expr) : List Expr :=
  s.foldl (fun acc o => if !ObjectSet.contains acc o then ObjectSet.add acc o else acc) acc

/-- `ObjectSet.__add__` (`metalift/frontend/utils.py` 43-51). -/
def ObjectSet.union (s t : List Expr) : List Expr :=
  ObjectSet.addAll (ObjectSet.addAll (ObjectSet.init []) s) t

/-- `and_exprs` (`metalift/vc_util.py` 33-39); `none` is the exception. -/
def andExprs : List Expr → Option Expr
  | [] => none
  | e :: es => some (es.foldl (fun r x => mkAnd [r, x]) e)

/-- `or_exprs` (`metalift/vc_util.py` 43-49); `none` is the exception. -/
def orExprs : List Expr → Option Expr
  | [] => none
  | e :: es => some (es.foldl (fun r x => mkOr [r, x]) e)

/-- `and_objects` (`metalift/vc_util.py` 52-54). -/
def andObjects (objs : List Expr) : Option Expr := andExprs (ObjectSet.init objs)

/-- `or_objects` (`metalift/vc_util.py` 57-59). -/
def orObjects (objs : List Expr) : Option Expr := orExprs (ObjectSet.init objs)

end Metalift
