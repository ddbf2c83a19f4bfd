import Verif.Ir
/-
Model of `VariableTracker` and `VariableGroup` (`metalift/analysis.py` 420-468).
-/
namespace Metalift

/-- `format_with_index` (`metalift/analysis.py` 420-424). -/
def formatWithIndex (a : String) (idx : Nat) : String := if idx = 0 then a else a ++ "_" ++ idx.repr

/-- Python dictionaries with string keys, in insertion order. -/
abbrev SDict (α : Type) := List (String × α)

/-- `d[k] = v`. -/
def SDict.set {α : Type} : SDict α → String → α → SDict α
  | [], k, v => [(k, v)]
  | (j, w) :: d, k, v => if j = k then (k, v) :: d else (j, w) :: SDict.set d k v

/-- `VariableTracker` (`metalift/analysis.py` 427-436). -/
structure VarTracker where
  groups : SDict Nat := []
  existing : SDict Nat := []
  varToType : SDict Ty := []

/-- The counter update `if k in d: d[k] += 1 else: d[k] = 0` (439-442, 461-464); returns the new value. -/
def bump (d : SDict Nat) (k : String) : Nat × SDict Nat :=
  match d.lookup k with
  | some n => (n + 1, d.set k (n + 1))
  | none => (0, d.set k 0)

/-- `VariableTracker.group` (`metalift/analysis.py` 438-443): name of the new group. -/
def VarTracker.group (T : VarTracker) (name : String) : String × VarTracker :=
  let (n, g) := bump T.groups name
  (formatWithIndex name n, { T with groups := g })

/-- `VariableTracker.variable` (`metalift/analysis.py` 445-447). -/
def VarTracker.variable (T : VarTracker) (name : String) (t : Ty) : String × VarTracker :=
  (name, { T with varToType := T.varToType.set name t })

/-- `VariableGroup.variable` (`metalift/analysis.py` 458-468) for the group called `group`. -/
def VarTracker.groupVariable (T : VarTracker) (group name : String) (t : Ty) : String × VarTracker :=
  let my := group ++ "_" ++ name
  let (n, e) := bump T.existing my
  (formatWithIndex my n, { T with existing := e, varToType := T.varToType.set (formatWithIndex my n) t })

/-- `VariableTracker.all` (`metalift/analysis.py` 449-450). -/
def VarTracker.all (T : VarTracker) : List (String × Ty) := T.varToType

/-- Client calls.  A call on a group object names the group; `groupVar` may use any group name, in particular those
returned by earlier `group` calls. -/
inductive TrackerCall where
  | group (name : String)
  | var (name : String) (t : Ty)
  | groupVar (group name : String) (t : Ty)

/-- Runs a history of calls; returns the variables handed out, in order, and the final state. -/
def VarTracker.run : List TrackerCall → VarTracker → List (String × Ty) × VarTracker
  | [], T => ([], T)
  | .group n :: cs, T => VarTracker.run cs (T.group n).2
  | .var n t :: cs, T =>
    let r := VarTracker.run cs (T.variable n t).2
    (((T.variable n t).1, t) :: r.1, r.2)
  | .groupVar g n t :: cs, T =>
    let r := VarTracker.run cs (T.groupVariable g n t).2
    (((T.groupVariable g n t).1, t) :: r.1, r.2)

end Metalift
