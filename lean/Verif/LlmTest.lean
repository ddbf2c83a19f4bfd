/-
Model of the counting of passed tests: `llmlift_scripts/verification_with_testing/openai_test_cases.py` (`O` below).
Solutions are texts.  What Python does with a text is given by `World`.  Not modelled: solutions that do not terminate, that change modules or
other global objects, or that change the expected outputs, and the printed messages.
-/
namespace Metalift.Llm.Test

/-- The values in the tables: integers and lists. -/
inductive Val where
  | int (i : Int)
  | list (l : List Val)

mutual
/-- `==` of Python on these values. -/
def Val.eq : Val → Val → Bool
  | .int i, .int j => i == j
  | .list l, .list m => Val.eqs l m
  | _, _ => false
/-- `==` on lists. -/
def Val.eqs : List Val → List Val → Bool
  | [], [] => true
  | a :: l, b :: m => Val.eq a b && Val.eqs l m
  | _, _ => false
end

/-- The keyword arguments of a call, an entry of `inputs_mapping` (O 26-142). -/
abbrev Args := List (String × Val)

/-- What a call does: the object that it returns, `none` for an exception, and the arguments afterwards.  The lists in the arguments are the ones of the table. -/
abbrev Fun (R : Type) := Args → Option R × Args

/-- Python: the modules that can be imported, the effect of `exec` on a solution after the imports (O 150-152; `none` is an exception, the inner `none` says that the
solution does not define the function), and `actual == expected` (`none` is an exception).  The first argument of `exec` is the name of the function. -/
structure World (R : Type) where
  modules : List String
  exec : String → String → Option (Option (Fun R))
  eq : R → Val → Option Bool

/-- The modules imported before a solution (O 146-149). -/
def imports : List String := ["llmlift_scripts.python_dsl", "typing"]

/-- `exec(ps_sol, namespace)` (O 150-152) followed by looking up the function. -/
def World.load {R : Type} (W : World R) (f sol : String) : Option (Option (Fun R)) :=
  if imports.all fun m => W.modules.contains m then W.exec f sol else none

/-- One turn of the loop (O 161-168): whether the test is passed, and its arguments afterwards. -/
def turn {R : Type} (W : World R) (g : Option (Fun R)) (a : Args) (o : Val) : Bool × Args :=
  match g with
  | none => (false, a)
  | some g =>
    match (g a).1 with
    | none => (false, (g a).2)
    | some r => (W.eq r o == some true, (g a).2)

/-- The loop over the tests (O 159-168): `passed_count` and the arguments afterwards. -/
def loop {R : Type} (W : World R) (g : Option (Fun R)) : List (Args × Val) → Nat × List Args
  | [] => (0, [])
  | (a, o) :: ts =>
    let t := turn W g a o
    let r := loop W g ts
    ((if t.1 then 1 else 0) + r.1, t.2 :: r.2)

/-- `run_test` (O 145-170) with the tables of the function: its result and the table of inputs afterwards.  The assertion (O 155-157) compares the lengths. -/
def runTest {R : Type} (W : World R) (f sol : String) (ins : List Args) (outs : List Val) : Option (Nat × List Args) :=
  match W.load f sol with
  | none => none
  | some g => if ins.length = outs.length then some (loop W g (ins.zip outs)) else none

/-- `exceptions_count` and `num_passed_test_cases` (O 173-174). -/
structure Report where
  passed : List Nat
  failed : List Nat
  errors : List (String × Nat)
  deriving DecidableEq

/-- `d[k] = d.get(k, 0) + 1` (O 201). -/
def bump (k : String) : List (String × Nat) → List (String × Nat)
  | [] => [(k, 1)]
  | (x, n) :: l => if x = k then (x, n + 1) :: l else (x, n) :: bump k l

/-- The `try` statement (O 195-202): `check` is the message of the exception that `check_solution(ps_sol, 1)` raises. -/
def record (check : String → Option String) (r : Report) (sol : String) (n : Nat) : Report :=
  match check sol with
  | none => { r with passed := r.passed ++ [n] }
  | some e => { r with failed := r.failed ++ [n], errors := bump e r.errors }

/-- The loop over the solutions (O 181-202). -/
def go {R : Type} (W : World R) (check : String → Option String) (f : String) (outs : List Val) : List String → List Args → Report → List String → Option Report
  | _, _, r, [] => some r
  | seen, ins, r, s :: ss =>
    if s ∈ seen then go W check f outs seen ins r ss
    else
      match runTest W f s ins outs with
      | none => none
      | some (n, ins') => go W check f outs (s :: seen) ins' (record check r s n) ss

/-- The script (O 176-202) for the tables of the function and the solutions of the file. -/
def main {R : Type} (W : World R) (check : String → Option String) (f : String) (ins : List Args) (outs : List Val) (sols : List String) : Option Report :=
  go W check f outs [] ins ⟨[], [], []⟩ sols

/-- `check_solution(ps_sol, 1)` (O 196): the parameters of `check_solution` are keyword-only (`llmlift_scripts/parser.py` 518-525). -/
def asCalled : String → Option String := fun _ => some "check_solution() takes 0 positional arguments but 2 were given"

/-- The modules of the package `llmlift_scripts` in the repository, and `typing`. -/
def repoModules : List String :=
  ["typing", "llmlift_scripts.constants", "llmlift_scripts.correct_sols", "llmlift_scripts.dsl", "llmlift_scripts.parser", "llmlift_scripts.prompts", "llmlift_scripts.synthesis",
    "llmlift_scripts.utils"]

/-- A row of integers. -/
def row (l : List Int) : Val := .list (l.map .int)
/-- A matrix. -/
def mat (l : List (List Int)) : Val := .list (l.map row)

/-- `inputs_mapping["fdtd_2d_part2"]` (O 125-141). -/
def fdtdIn : List Args :=
  [[("nx", .int 2), ("ny", .int 3), ("ex", mat [[1, 2, 3], [4, 5, 6]]), ("hz", mat [[1, 1, 1], [0, 1, 0]])],
    [("nx", .int 3), ("ny", .int 4), ("ex", mat [[0, 0, 0, 0], [1, 1, 1, 1], [2, 2, 2, 2]]), ("hz", mat [[1, 2, 3, 4], [4, 3, 2, 1], [0, 0, 0, 0]])],
    [("nx", .int 1), ("ny", .int 2), ("ex", mat [[5, 6]]), ("hz", mat [[1, 2]])],
    [("nx", .int 2), ("ny", .int 3), ("ex", mat [[7, 8, 9], [10, 11, 12]]), ("hz", mat [[1, 2, 3], [3, 2, 1]])],
    [("nx", .int 2), ("ny", .int 2), ("ex", mat [[3, 4], [5, 6]]), ("hz", mat [[2, 3], [1, 1]])]]

/-- `outputs_mapping["fdtd_2d_part2"]` (O 18-24). -/
def fdtdOut : List Val :=
  [mat [[2, 3], [0, 11]], mat [[-5, -5, -5], [6, 6, 6], [2, 2, 2]], mat [[1]], mat [[3, 4], [16, 17]], mat [[-1], [6]]]

end Metalift.Llm.Test
