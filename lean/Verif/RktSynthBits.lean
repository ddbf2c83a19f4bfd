import Verif.RktSynth
import Verif.RktBits
/-
The solutions of a synthesis query when integers have a fixed number of bits.  Nothing here models code in /repo; it is the specification side for
C61, as `RktSynth.lean` is for unbounded integers.
-/
namespace Metalift
namespace Rkt

/-- The module that a program defines, with other procedures of the language; compare `runProgram`. -/
def runProgramWith (B : Procs) (forms : List SExpr) (n : Nat) (σ : String → Val) : Option Module :=
  let names := forms.filterMap defined
  if names.Nodup ∧ (∀ x ∈ names, x ∉ imported ∧ x ∉ definingForms) then
    let ds := forms.filterMap readDef
    let imp := (libWith B).exportsWith B
    (runForms ⟨ds, fun _ => none, imp⟩ n σ (fun _ => none) forms).map fun env => ⟨ds, env, imp⟩
  else none

def ProgramRunsWith (B : Procs) (forms : List SExpr) (σ : String → Val) (M : Module) : Prop := ∃ n, runProgramWith B forms n σ = some M

/-- `prog` is a solution of the first query in the file when integers have `k` bits; compare `Answers`. -/
def AnswersBits (k : Nat) (text : List Char) (prog : List SExpr) : Prop :=
  ∃ forms pre xs post, readModule (String.ofList text) = some forms ∧ firstQuery forms = some (pre, xs, post) ∧ Completes pre prog ∧
    (prog.filterMap defined ++ ((pre.filterMap readGrammar).map RGrammar.name ++ post.filterMap defined)).Nodup ∧
    (∀ x ∈ (pre.filterMap readGrammar).map RGrammar.name ++ post.filterMap defined, x ∉ imported ∧ x ∉ definingForms) ∧
    ∃ τ : String → Val, (∃ σ M, (∀ x, fits k (σ x) = true) ∧ (∀ x, x ∉ xs → σ x = τ x) ∧ ProgramRunsWith (builtinBits k) prog σ M) ∧
      ∀ σ M, (∀ x, fits k (σ x) = true) → (∀ x, x ∉ xs → σ x = τ x) → ProgramRunsWith (builtinBits k) prog σ M → Passes M

/-- `prog` is a solution of the first query in the file, with integers as the file demands. -/
def AnswersAs (text : List Char) (prog : List SExpr) : Prop :=
  match bitwidth text with
  | none => Answers text prog
  | some k => AnswersBits k text prog

/-- The variables can have these values, and the asserted condition of the program can be evaluated with them, to true or to false, without a number of
more than `k` bits; compare `Fits`. -/
def FitsProgram (k : Nat) (prog : List SExpr) (vars : List String) (ρ : Env) : Prop :=
  ∃ σ M, (∀ x, fits k (σ x) = true) ∧ ProgramRunsWith (builtinFits k) prog σ M ∧ (∀ v ∈ vars, M.globals v = some (ρ v)) ∧
    ∃ d x n v, M.find "assertions" = some d ∧ d.body = .list [.atom "assert", x] ∧ rkEval M n 64 (fun _ => none) x = some v

theorem runs_programWith (B : Procs) {text : List Char} {forms : List SExpr} (h : readModule (String.ofList text) = some forms) (σ : String → Val) (M : Module) :
    RunsWith B text σ M ↔ ProgramRunsWith B forms σ M := by
  unfold RunsWith runFileWith ProgramRunsWith
  rw [h]
  rfl

end Rkt
end Metalift
