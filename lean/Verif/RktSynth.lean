import Verif.RktProg
import Verif.Ir
/-
The meaning of a synthesis query in a program file of the kind written by `metalift/rosette_translator.py`: grammars, programs with holes, and
the solutions of `synthesize`.  Nothing here models code in /repo; it is the specification side for C61.
-/
namespace Metalift
namespace Rkt

/-! ### Grammars -/

/-- A grammar `(define-grammar (name params ...) [v e] ...)`; the first production is the one to start with. -/
structure RGrammar where
  name : String
  params : List SExpr
  rules : List (String × SExpr)

def readRule : SExpr → Option (String × SExpr)
  | .list [.atom v, e] => some (v, e)
  | _ => none

def readGrammar : SExpr → Option RGrammar
  | .list (.atom "define-grammar" :: .list (.atom g :: ps) :: rules) => (rules.mapM readRule).map fun rs => ⟨g, ps, rs⟩
  | _ => none

mutual
/-- The forms derived from a form in which the non-terminals may still be replaced `d` times in a row: `(v)` is replaced by (what is derived from)
the right-hand side of `v`, `(choose a ...)` by one of the `a`; choices at different places are independent. -/
inductive Expand (rules : List (String × SExpr)) : Nat → SExpr → SExpr → Prop where
  | atom {d s} : (∀ r ∈ rules, r.1 ≠ s) → Expand rules d (.atom s) (.atom s)
  | choose {d as a x} : a ∈ as → Expand rules d a x → Expand rules d (.list (.atom "choose" :: as)) x
  | nonterminal {d v e x} : rules.lookup v = some e → Expand rules d e x → Expand rules (d + 1) (.list [.atom v]) x
  | form {d xs ys} : xs.head? ≠ some (.atom "choose") → Expands rules d xs ys → Expand rules d (.list xs) (.list ys)
/-- The same for lists of forms. -/
inductive Expands (rules : List (String × SExpr)) : Nat → List SExpr → List SExpr → Prop where
  | nil {d} : Expands rules d [] []
  | cons {d x xs y ys} : Expand rules d x y → Expands rules d xs ys → Expands rules d (x :: xs) (y :: ys)
end

/-! ### Programs with holes -/

/-- The call `(g a ... #:depth k)` of a grammar. -/
def grammarCall (g : String) (as : List SExpr) (k : SExpr) : SExpr := .list (.atom g :: (as ++ [.atom "#:depth", k]))

/-- What a form may stand for: the body of a definition that is the call of a grammar, with its parameters as arguments (other calls are not
considered), stands for the forms derived from the first production, in which non-terminals are replaced at most `k` times in a row. -/
inductive Instance (gs : List RGrammar) : SExpr → SExpr → Prop where
  | hole {f g v e rest x} {k : Nat} : g ∈ gs → g.rules = (v, e) :: rest → Expand g.rules k e x →
      Instance gs (.list [.atom "define", .list (.atom f :: g.params), grammarCall g.name g.params (.atom (Nat.repr k))])
        (.list [.atom "define", .list (.atom f :: g.params), x])
  | other {x} : (∀ f g as k, x ≠ .list [.atom "define", f, grammarCall g as k]) → Instance gs x x

/-- The programs that a program with holes may stand for. -/
def Completes (forms prog : List SExpr) : Prop :=
  All2 (Instance (forms.filterMap readGrammar)) (forms.filter fun f => (readGrammar f).isNone) prog

/-! ### Queries -/

/-- The names in a list of atoms. -/
def atomNames : List SExpr → Option (List String)
  | [] => some []
  | .atom x :: xs => (atomNames xs).map (x :: ·)
  | _ :: _ => none

/-- The query `(define sol (synthesize #:forall (list x ...) #:guarantee (assertions)))`: the constants that are universally quantified. -/
def readQuery : SExpr → Option (List String)
  | .list [.atom "define", .atom _, .list [.atom "synthesize", .atom "#:forall", .list (.atom "list" :: xs), .atom "#:guarantee",
      .list [.atom "assertions"]]] => atomNames xs
  | _ => none

/-- The forms before the first query, the constants quantified in it, and the query with the forms after it. -/
def firstQuery : List SExpr → Option (List SExpr × List String × List SExpr)
  | [] => none
  | f :: fs =>
    match readQuery f with
    | some xs => some ([], xs, f :: fs)
    | none => (firstQuery fs).map fun p => (f :: p.1, p.2)

/-- The module that a program defines (as `runFile` for a file). -/
def runProgram (forms : List SExpr) (n : Nat) (σ : String → Val) : Option Module :=
  let names := forms.filterMap defined
  if names.Nodup ∧ (∀ x ∈ names, x ∉ imported ∧ x ∉ definingForms) then
    let ds := forms.filterMap readDef
    (runForms ⟨ds, fun _ => none, lib.exports⟩ n σ (fun _ => none) forms).map fun env => ⟨ds, env, lib.exports⟩
  else none

/-- Running the program, with these values of the symbolic constants, defines the module. -/
def ProgramRuns (forms : List SExpr) (σ : String → Val) (M : Module) : Prop := ∃ n, runProgram forms n σ = some M

/-- `prog` is a solution of the first query in the file: it is a program that the part of the file before the query may stand for, the names that
the file defines do not clash, and for some values `τ` of the constants that are not quantified it can be run and its assertions pass for all
values of the quantified ones for which its definitions can be made. -/
def Answers (text : List Char) (prog : List SExpr) : Prop :=
  ∃ forms pre xs post, readModule (String.ofList text) = some forms ∧ firstQuery forms = some (pre, xs, post) ∧ Completes pre prog ∧
    (prog.filterMap defined ++ ((pre.filterMap readGrammar).map RGrammar.name ++ post.filterMap defined)).Nodup ∧
    (∀ x ∈ (pre.filterMap readGrammar).map RGrammar.name ++ post.filterMap defined, x ∉ imported ∧ x ∉ definingForms) ∧
    ∃ τ : String → Val, (∃ σ M, (∀ x, x ∉ xs → σ x = τ x) ∧ ProgramRuns prog σ M) ∧
      ∀ σ M, (∀ x, x ∉ xs → σ x = τ x) → ProgramRuns prog σ M → Passes M

theorem runs_program {text : List Char} {forms : List SExpr} (h : readModule (String.ofList text) = some forms) (σ : String → Val) (M : Module) :
    Runs text σ M ↔ ProgramRuns forms σ M := by
  unfold Runs runFile ProgramRuns
  rw [h]
  rfl

end Rkt
end Metalift
