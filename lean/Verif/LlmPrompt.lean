import Verif.LlmLoop
import Verif.LlmSpec
import Verif.Llvm
/-
Model of the prompts for loop invariants: the signatures that the templates show (`get_inv_args`, `replace_args` in `llmlift_scripts/utils.py` 8-22,
49-97, `generate_invariant_template` in `llmlift_scripts/prompts.py` 9-67), the program with assertions (`get_inv_prompt`, 102-105), and the arguments
of the invariants in the verification condition (`metalift/frontend/llvm.py` 651-660, 764-843, 1190-1216, 1233-1255).

Objects whose source is a variable are pairs of a name and a type.  The constant text of the prompts is not modelled.
-/
namespace Metalift.Llm.Prompt

/-- An object whose source is a variable. -/
abbrev V := String × Ty

/-- `SingleLoopInfo`, `DoubleLoopInfo` (`llmlift_scripts/utils.py` 8-22). -/
inductive LoopInfo where
  | single (loop : V) (reads mods : List V)
  | double (outer inner : V) (outerReads innerReads outerMods innerMods : List V)

/-- The elements of `set(vs)`: `Expr.__eq__` (`metalift/ir.py` 303-323) compares variables by name only and `Expr.__hash__` (331-332) is the hash of
`("args", "type")` for every expression, so the first variable with a name is kept. -/
def keep : List V → List V
  | [] => []
  | v :: vs => v :: (keep vs).filter fun w => decide (w.1 ≠ v.1)

/-- Insertion by name, before equal names. -/
def insertVar (x : V) : List V → List V
  | [] => [x]
  | y :: ys => if x.1 ≤ y.1 then x :: y :: ys else y :: insertVar x ys

/-- `sorted(vs, key=lambda x: x.name())`, which is stable. -/
def sortVars : List V → List V
  | [] => []
  | x :: xs => insertVar x (sortVars xs)

/-- The arguments of one invariant (`utils.py` 54-63, 65-74, 75-84).  `ord` is the order in which the set is listed.  `create_object` (64, 85-86) gives an
object with the same name and type. -/
def argsOf (ord : List V → List V) (reads mods : List V) (loop : V) : List V := sortVars (ord (keep (reads ++ mods ++ [loop])))

/-- `get_inv_args` (`utils.py` 49-88): the arguments of the invariant of the loop, or of the outer and of the inner loop. -/
def getInvArgs (ord : List V → List V) : LoopInfo → List (List V)
  | .single l r m => [argsOf ord r m l]
  | .double o i ro ri mo mi => [argsOf ord ro mo o, argsOf ord ri mi i]

/-- `replace_args.get(n, n)` (`utils.py` 95). -/
def rename (ρ : List (String × String)) (n : String) : String := (ρ.lookup n).getD n

/-- `replace_args` (`utils.py` 91-97). -/
def replaceArgs (ρ : List (String × String)) (args : List V) : List V := args.map fun a => (rename ρ a.1, a.2)

/-! ### Templates -/

mutual
/-- `to_python_type_str` (`metalift/ir.py` 899-900, 1044-1045, 1304-1309, 1520-1526, 1822-1832), see `Ty.pyText`. -/
def tyStr : Ty → Option (List Char)
  | .int => some "int".toList
  | .bool => some "bool".toList
  | .list t => do
    let s ← tyStr t
    some ("List[".toList ++ s ++ "]".toList)
  | .fn (r :: as) => do
    let r ← tyStr r
    let as ← tyStrs as
    some ("Callable[[".toList ++ ", ".toList.intercalate as ++ "], ".toList ++ r ++ "]".toList)
  | _ => none
@[inherit_doc tyStr] def tyStrs : List Ty → Option (List (List Char))
  | [] => some []
  | t :: ts => do
    let s ← tyStr t
    let ss ← tyStrs ts
    some (s :: ss)
end

/-- `f"{arg}: {arg.type.to_python_type_str(get_args(arg.type))}"` (`prompts.py` 15). -/
def argStr (v : V) : Option (List Char) := do
  let t ← tyStr v.2
  some (v.1.toList ++ ": ".toList ++ t)

/-- The strings of all arguments. -/
def argStrs : List V → Option (List (List Char))
  | [] => some []
  | v :: vs => do
    let s ← argStr v
    let ss ← argStrs vs
    some (s :: ss)

/-- `" and ".join(f"{var} == operation over defined functions" for var in vars)` (`prompts.py` 20-25, 48-59). -/
def condStr (mods : List V) : List Char := " and ".toList.intercalate (mods.map fun v => v.1.toList ++ " == operation over defined functions".toList)

/-- A template (`prompts.py` 26-31, 60-67) after `dedent`, which takes away the margin of the literal: names and types have no newline. -/
def template (name : String) (args : List V) (over : List Char) (mods : List V) : Option (List Char) := do
  let as ← argStrs args
  some ("\ndef ".toList ++ name.toList ++ "(".toList ++ ", ".toList.intercalate as ++ ") -> bool:\n    return expression over loop index variable ".toList ++
    over ++ " and ".toList ++ condStr mods ++ "\n".toList)

/-- `generate_invariant_template` (`prompts.py` 9-67): one template for each loop. -/
def templates (ord : List V → List V) : LoopInfo → Option (List (List Char))
  | .single l r m => do
    let t ← template "invariant" (argsOf ord r m l) l.1.toList m
    some [t]
  | .double o i ro ri mo mi => do
    let t1 ← template "invariant1" (argsOf ord ro mo o) ("`".toList ++ o.1.toList ++ "`".toList) mo
    let t2 ← template "invariant2" (argsOf ord ri mi i) ("`".toList ++ o.1.toList ++ "` and `".toList ++ i.1.toList ++ "`".toList) mi
    some [t1, t2]

/-- `repr` of a string without quotes and backslashes. -/
def reprStr (s : List Char) : List Char := "'".toList ++ s.flatMap (fun c => if c = '\n' then "\\n".toList else [c]) ++ "'".toList

/-- What `{generate_invariant_template(loop_info)}` puts into the prompt (`prompts.py` 142): the template of a single loop, and the Python list of the two
templates of a double loop. -/
def inPrompt (ord : List V → List V) (L : LoopInfo) : Option (List Char) := do
  match L, ← templates ord L with
  | .single .., [t] => some t
  | _, ts => some ("[".toList ++ ", ".toList.intercalate (ts.map reprStr) ++ "]".toList)

/-! ### The program with assertions -/

/-- `\w`, for ASCII. -/
def isWord (c : Char) : Bool := c.isAlphanum || c == '_'

/-- `.*?;` at the start of a text: what is left after the first semicolon of the line. -/
def upto : List Char → Option (List Char)
  | [] => none
  | c :: cs => if c = ';' then some cs else if c = '\n' then none else upto cs

/-- `\breturn\b.*?;` after the character `prev`: what is left after a match. -/
def hit (prev : Option Char) (s : List Char) : Option (List Char) :=
  if prev.any isWord then none
  else if "return".toList.isPrefixOf s then
    if (s.drop 6).head?.any isWord then none else upto (s.drop 6)
  else none

/-- `re.sub(r"\breturn\b.*?;", a, s)`: `skip` is the number of characters of the last match that are still to be passed over.  The replacement has no
backslash. -/
def subFrom (a : List Char) : Nat → Option Char → List Char → List Char
  | _, _, [] => []
  | k + 1, _, c :: cs => subFrom a k (some c) cs
  | 0, prev, c :: cs => match hit prev (c :: cs) with
    | some r => a ++ subFrom a (cs.length - r.length) (some c) cs
    | none => c :: subFrom a 0 (some c) cs

/-- `inv_code_with_assert` (`prompts.py` 102-105); `assertion` is the text of the postcondition. -/
def withAssert (assertion source : List Char) : List Char := subFrom ("assert ".toList ++ assertion ++ ";".toList) 0 none source

/-! ### Arguments of the invariants in the verification condition -/

/-- `InvGrammar` (`llvm.py` 651-660), without the grammar itself. -/
structure Grammar where
  inScope : List String
  override : List V

/-- The predicates of a `PredicateTracker` (`llvm.py` 811-817): names and arguments. -/
abbrev Preds := List (String × List V)

/-- `ObjectSet(a) - ObjectSet(b)` (`metalift/frontend/utils.py` 18-41); objects are compared by the names of their variables. -/
def subVars (a b : List V) : List V := (keep a).filter fun v => decide (v.1 ∉ b.map Prod.fst)

/-- `PredicateTracker.invariant` (`llvm.py` 819-843). -/
def invariant (T : Preds) (name : String) (args scope : List V) : List V × Preds :=
  match T.lookup name with
  | some p => (p, T)
  | none =>
    let p := args ++ sortVars (subVars scope args)
    (p, (name, p) :: T)

/-- A point at which the visitor writes an invariant: the head of a loop (`llvm.py` 1190-1216), a predecessor of the head or a latch (1233-1255). -/
structure Visit where
  /-- `{fn_name}_inv{index}` -/
  name : String
  scope : List V
  havocs : List V
  st : Ll.St

/-- The predicate of a visit and its call (`llvm.py` 1194-1216, 1237-1255 and `Predicate.call`, 793-802). -/
def visit (gs : List (String × Grammar)) (fnArgs : List V) (T : Preds) (v : Visit) : Option Expr × Preds :=
  let g := gs.lookup v.name
  let scope := match g with
    | some g => v.scope.filter fun o => decide (o.1 ∈ g.inScope)
    | none => v.scope
  let args := sortVars (keep (v.havocs ++ fnArgs))
  let override := match g with
    | some g => g.override
    | none => []
  let r := invariant T v.name (if override = [] then args else override) scope
  ((r.1.mapM fun o => v.st.readVar o.1).map (mkCall v.name .bool), r.2)

/-- All visits, one after another. -/
def visits (gs : List (String × Grammar)) (fnArgs : List V) : Preds → List Visit → List (Visit × Option Expr)
  | _, [] => []
  | T, v :: vs => (v, (visit gs fnArgs T v).1) :: visits gs fnArgs (visit gs fnArgs T v).2 vs

/-- The grammars that the drivers give (`benchmarks/*/driver/*.py`, e.g. `transformer_part2_driver.py` 42-57): no names in scope, and the arguments of
`get_inv_args` with other names for some variables. -/
def driverGrammars (ord : List V → List V) (fn : String) (ρ : List (String × String)) (L : LoopInfo) : List (String × Grammar) :=
  match getInvArgs ord L with
  | [a] => [(fn ++ "_inv0", ⟨[], replaceArgs ρ a⟩)]
  | [a, b] => [(fn ++ "_inv0", ⟨[], replaceArgs ρ a⟩), (fn ++ "_inv1", ⟨[], replaceArgs ρ b⟩)]
  | _ => []

end Metalift.Llm.Prompt
