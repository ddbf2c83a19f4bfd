import Verif.RktSynth
/-
The meaning of the queries of further rounds in a synthesis file, which ask for solutions other than those of the earlier queries.  Nothing here
models code in /repo; it is the specification side for C67.
-/
namespace Metalift
namespace Rkt

/-! ### Reading the queries -/

/-- A query: the name given to the solution, the constants that are universally quantified, and the assumptions made before the assertions. -/
structure RQuery where
  name : String
  consts : List String
  assumes : List SExpr

/-- The assumptions in `(assume e) ... (assertions)`. -/
def readBegin : List SExpr → Option (List SExpr)
  | [.list [.atom "assertions"]] => some []
  | .list [.atom "assume", e] :: fs => (readBegin fs).map (e :: ·)
  | _ => none

def readGuarantee : SExpr → Option (List SExpr)
  | .list [.atom "assertions"] => some []
  | .list (.atom "begin" :: fs) => readBegin fs
  | _ => none

/-- The query `(define sol (synthesize #:forall (list x ...) #:guarantee g))`. -/
def readNext : SExpr → Option RQuery
  | .list [.atom "define", .atom s, .list [.atom "synthesize", .atom "#:forall", .list (.atom "list" :: xs), .atom "#:guarantee", g]] =>
    (atomNames xs).bind fun cs => (readGuarantee g).map fun as => ⟨s, cs, as⟩
  | _ => none

/-! ### Assumptions -/

/-- The condition `(! (eq? c (evaluate c s)))` has this truth value: `M` is what the candidate defines and `S s` what the solution called `s`
defines, with the same values of the symbolic constants. -/
def DiffersIs (M : Module) (S : String → Module → Prop) (e : SExpr) (b : Bool) : Prop :=
  ∃ c s N n v m w, e = .list [.atom "!", .list [.atom "eq?", c, .list [.atom "evaluate", c, .atom s]]] ∧ S s N ∧
    rkEval M n 64 (fun _ => none) c = some v ∧ rkEval N m 64 (fun _ => none) c = some w ∧ b = decide (v ≠ w)

/-- The condition `(|| e ...)` has this truth value. -/
def AssumeIs (M : Module) (S : String → Module → Prop) (e : SExpr) (b : Bool) : Prop :=
  ∃ es bs, e = .list (.atom "||" :: es) ∧ All2 (DiffersIs M S) es bs ∧ b = bs.any id

/-- How `(begin (assume e) ... (assertions))` ends: `false` if an assumption is violated, `true` if none is and the assertions pass. -/
inductive Ends (M : Module) (S : String → Module → Prop) : List SExpr → Bool → Prop where
  | violated {e es} : AssumeIs M S e false → Ends M S (e :: es) false
  | assumed {e es b} : AssumeIs M S e true → Ends M S es b → Ends M S (e :: es) b
  | passed : Passes M → Ends M S [] true

/-! ### Solutions -/

/-- What the solution called `s` defines with these values of the symbolic constants, if `prev` are the solutions of the queries `qs` so far. -/
def SolutionRuns (qs : List RQuery) (prev : List (List SExpr)) (σ : String → Val) (s : String) (N : Module) : Prop :=
  ∃ (j : Nat) (q : RQuery) (p : List SExpr), qs[j]? = some q ∧ q.name = s ∧ prev[j]? = some p ∧ ProgramRuns p σ N

/-- `prog` is a solution of query number `i` in the file, if `prev` are the solutions of the queries before it.  It is a program that the part of the
file before the first query may stand for, the names that the file defines do not clash, and for some values `τ` of the constants that are not
quantified: for some values of the quantified ones the assumptions hold and the assertions pass, and for all of them an assumption is violated or the
assertions pass. -/
def AnswersRound (text : List Char) (i : Nat) (prev : List (List SExpr)) (prog : List SExpr) : Prop :=
  ∃ forms pre xs post q, readModule (String.ofList text) = some forms ∧ firstQuery forms = some (pre, xs, post) ∧ Completes pre prog ∧
    (prog.filterMap defined ++ ((pre.filterMap readGrammar).map RGrammar.name ++ post.filterMap defined)).Nodup ∧
    (∀ x ∈ (pre.filterMap readGrammar).map RGrammar.name ++ post.filterMap defined, x ∉ imported ∧ x ∉ definingForms) ∧
    (post.filterMap readNext)[i]? = some q ∧
    ∃ τ : String → Val, (∃ σ M, (∀ x, x ∉ q.consts → σ x = τ x) ∧ ProgramRuns prog σ M ∧
        Ends M (SolutionRuns (post.filterMap readNext) prev σ) q.assumes true) ∧
      ∀ σ M, (∀ x, x ∉ q.consts → σ x = τ x) → ProgramRuns prog σ M → ∃ b, Ends M (SolutionRuns (post.filterMap readNext) prev σ) q.assumes b

/-- `progs` are solutions of the first queries in the file, one for each. -/
def AnswersRounds (text : List Char) (progs : List (List SExpr)) : Prop :=
  ∀ (i : Nat) (prog : List SExpr), progs[i]? = some prog → AnswersRound text i (progs.take i) prog


end Rkt
end Metalift
