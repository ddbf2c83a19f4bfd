import Verif.RktFile
/-
The meaning of a program file of the kind written by `metalift/rosette_translator.py`: which definitions a run of the file makes, for given
values of the symbolic constants, and what it means that its assertions pass.  Nothing here models code in /repo; it is the specification side
for C54.
-/
namespace Metalift
namespace Rkt

/-- Names provided by the modules that the file requires: the library (`metalift/utils/utils.rkt`), `bounded.rkt` and Rosette's libraries, as far
as they matter here.  Unlike names of the language itself, they cannot be defined again. -/
def imported : List String :=
  utilsDefs.map RDef.name ++ ["fuel", "define-bounded", "choose", "choose*", "??", "define-grammar", "define-simple-grammar", "print-forms",
    "generate-forms", "match", "match*", "match-lambda", "match-let", "match-define", "bitwuzla"]

/-- The forms with which definitions are made; a program that gives one of these names another meaning is not considered. -/
def definingForms : List String := ["define", "define-symbolic", "require", "verify", "current-bitwidth", "current-solver", "assert", "quote", "lambda"]

/-- The name a form defines. -/
def defined : SExpr → Option String
  | .list [.atom "define-symbolic", .atom x, _] => some x
  | .list [.atom "define", .atom x, _] => some x
  | f => (readDef f).map RDef.name

/-- One more definition. -/
def extend (env : REnv) (x : String) (v : Val) : REnv := fun y => if y = x then some v else env y

/-- The definitions of data made by running the forms in order, when the symbolic constants have the values `σ`; at most `n` nested steps per
definition.  The parameter `fuel` is 64 (`metalift/utils/bounded.rkt` 4). -/
def runForms (M : Module) (n : Nat) (σ : String → Val) : REnv → List SExpr → Option REnv
  | env, [] => some env
  | env, f :: fs =>
    match f with
    | .list [.atom "define-symbolic", .atom x, .atom "integer?"] =>
      match σ x with
      | .int i => runForms M n σ (extend env x (.int i)) fs
      | _ => none
    | .list [.atom "define-symbolic", .atom x, .atom "boolean?"] =>
      match σ x with
      | .bool i => runForms M n σ (extend env x (.bool i)) fs
      | _ => none
    | .list [.atom "define", .atom x, e] =>
      (rkEval { M with globals := env } n 64 (fun _ => none) e).bind fun v => runForms M n σ (extend env x v) fs
    | _ => runForms M n σ env fs

/-- The module that the file defines; `none` is an error. -/
def runFile (text : List Char) (n : Nat) (σ : String → Val) : Option Module :=
  (readModule (String.ofList text)).bind fun forms =>
    let names := forms.filterMap defined
    if names.Nodup ∧ (∀ x ∈ names, x ∉ imported ∧ x ∉ definingForms) then
      let ds := forms.filterMap readDef
      (runForms ⟨ds, fun _ => none, lib.exports⟩ n σ (fun _ => none) forms).map fun env => ⟨ds, env, lib.exports⟩
    else none

/-- Running the file, with these values of the symbolic constants, defines the module. -/
def Runs (text : List Char) (σ : String → Val) (M : Module) : Prop := ∃ n, runFile text n σ = some M

/-- Evaluation of `(assertions)` ends without a failed assertion or an error. -/
def Passes (M : Module) : Prop := ∃ n v, rkEval M n 64 (fun _ => none) (.list [.atom "assertions"]) = some v

/-- `(verify (assertions))` has no counterexample: the file is a program that can be run and, whatever the values of the symbolic constants for
which its definitions can be made, the assertions pass. -/
def Verified (text : List Char) : Prop := (∃ σ M, Runs text σ M) ∧ ∀ σ M, Runs text σ M → Passes M

end Rkt
end Metalift
