import Verif.LlmParser
/-
Model of `run_llm_synthesis_algorithm` (`llmlift_scripts/synthesis.py` 347-570) and of the functions it uses to check solutions.  The language
model, mypy and the solvers are arbitrary.
-/
namespace Metalift
namespace Llm

/-- `VerificationMethod` (`llmlift_scripts/synthesis.py` 55-58). -/
inductive Method where
  | none
  | rosette
  | smt
  deriving DecidableEq

/-- A message of a conversation: `{"role": ..., "content": ...}`. -/
inductive Msg where
  | user (content : String)
  | assistant (content : String)
  deriving DecidableEq

/-- What `get_solution_from_llm` (630-637) returns: text (GPT 586-598, Gemini 601-627), or a list of texts (Claude 573-583). -/
inductive Sol where
  | text (s : String)
  | parts (ss : List String)
  deriving DecidableEq

/-- What is given to a verifier: the functions, the functions passed as arguments, and the verification condition. -/
structure Query where
  fns : List FnDecl
  inCalls : List (String × String)
  vc : Expr

/-- What the process does to its surroundings: requests to the language model with their answers, and runs of a solver with exit code and output. -/
inductive Ev where
  | ps (msgs : List Msg) (answer : Sol)
  | inv (msgs : List Msg) (answer : Sol)
  | check (q : Query) (code : Int) (out : String)

/-- The surroundings: they may depend on everything that happened.  `none` is an exception. `left` is what an attempt that is rejected by the parser
leaves in the dictionaries of lambda expressions. -/
structure World where
  ask : List Ev → List Msg → Option Sol
  solve : List Ev → Query → Option (Int × String)
  mypy : String → Option (List FuncDef)
  left : List Ev → List (FnDecl × String) × List (String × Nat)

/-- The parameters of the algorithm (347-360).  `dsl` are the functions that mypy finds in the text of the target language, `psPrompt` and `invPrompt` the
prompts (`llmlift_scripts/prompts.py`), `vc` is `and_objects(*driver.asserts).src.simplify()` (527), in which `replace_in_calls` finds no function to replace.
`double` says that there are two loops.  `distinct` is `list(set(...))` (464), in some order. -/
structure Config where
  dsl : List FuncDef
  psPrompt : String
  invPrompt : FnDecl → String
  benchmark : String
  out : String × Ty
  vc : Expr
  double : Bool
  maxPs : Nat
  maxInv : Nat
  method : Method
  distinct : List FnDecl → List FnDecl

/-- `TEMPLATE_ERR` (`llmlift_scripts/constants.py` 14). -/
def templateErr : String := "These generated programs are incorrect. Do not generate the same. Please generate another program."

/-- `"\n".join(sols)`; a list among the strings raises. -/
def joined : List Sol → Option String
  | [] => some ""
  | [.text s] => some s
  | .text s :: ss => (joined ss).map (s ++ "\n" ++ ·)
  | .parts _ :: _ => none

/-- The messages for the next solution (382-391, 429-438): the incorrect solutions are shown. -/
def request (prompt : String) (sols : List Sol) : Option (List Msg) :=
  if sols.length > 0 then (joined sols).map fun s => [.user prompt, .assistant s, .user templateErr]
  else some [.user prompt]

/-- `check_solution` on an answer: `dedent` raises on a list. -/
def checkSol (W : World) (c : Config) (n : Nat) (lams : List (FnDecl × String)) (counts : List (String × Nat)) : Sol → Option St
  | .text s => (W.mypy s).bind fun ds => checkSolution c.dsl ds n lams counts
  | .parts _ => none

/-- `process_ps_fn_decl` (112-123). -/
def processPs (out : String × Ty) (d : FnDecl) : FnDecl :=
  { d with name := d.name ++ "_ps", ret := .bool, params := d.params ++ [out], body := d.body.map (mkEq (.var out.1 out.2)) }

/-- `process_synthesized_fn_decls` (186-212) on one function. -/
def process (b : String) (out : String × Ty) (d : FnDecl) : FnDecl :=
  let d := if d.name = "invariant" then { d with name := b ++ "_inv0" } else d
  let d := if d.name = "invariant1" then { d with name := b ++ "_inv0" } else d
  let d := if d.name = "invariant2" then { d with name := b ++ "_inv1" } else d
  if d.name = b then processPs out d else d

/-- `p in s` for strings, as lists of characters. -/
def hasPart (p : List Char) : List Char → Bool
  | [] => p.isEmpty
  | c :: cs => p.isPrefixOf (c :: cs) || hasPart p cs

/-- `output.split("\n")[0]` -/
def firstLine (s : String) : String := String.ofList (s.toList.takeWhile (· ≠ '\n'))

/-- The answer of the verifier: `verify_benchmark_rosette` (276-287; `check=True` raises on an exit code other than 0), `verify_benchmark_smt` (290-344). -/
def verified (m : Method) (code : Int) (out : String) : Option Bool :=
  match m with
  | .rosette => if code ≠ 0 then none else some (decide (firstLine out = "(unsat)"))
  | .smt => if code < 0 then some false else some true
  | .none => none

/-- How a loop ends: a solution was verified, the attempts are used up, an exception. -/
inductive Res where
  | found
  | exhausted
  | raised
  deriving DecidableEq

/-- The loop over invariants (426-560), with the number of attempts left, the solutions so far and the two dictionaries.  With
`VerificationMethod.NONE` no verifier is run and `if verified` (557) raises, because the variable has no value.  The
changes made for the benchmark `dissolve_blend_8` (467-523) are in `LlmDissolve`. -/
def invLoop (W : World) (c : Config) (ps : St) (d : FnDecl) :
    Nat → List Sol → List (FnDecl × String) → List (String × Nat) → List Ev → List Ev × Res
  | 0, _, _, _, tr => (tr, .exhausted)
  | k + 1, sols, lams, counts, tr =>
    match request (c.invPrompt d) sols with
    | none => (tr, .raised)
    | some msgs =>
      match W.ask tr msgs with
      | none => (tr, .raised)
      | some a =>
        let tr := tr ++ [.inv msgs a]
        match checkSol W c (if c.double then 2 else 1) lams counts a with
        | none => invLoop W c ps d k (sols ++ [a]) (W.left tr).1 (W.left tr).2 tr
        | some st =>
          let q : Query := ⟨c.distinct (ps.decls.map (process c.benchmark c.out) ++ st.decls.map (process c.benchmark c.out)), ps.inCalls ++ st.inCalls, c.vc⟩
          match c.method with
          | .none => (tr, .raised)
          | m =>
            match W.solve tr q with
            | none => (tr, .raised)
            | some (code, out) =>
              let tr := tr ++ [.check q code out]
              match verified m code out with
              | none => (tr, .raised)
              | some true => (tr, .found)
              | some false => invLoop W c ps d k (sols ++ [a]) st.lams st.counts tr

/-- How the algorithm ends: it prints a solution (569-570), raises `No correct solution found` (566-567), or another exception. -/
inductive Outcome where
  | reported (s : Sol)
  | notFound
  | raised
  deriving DecidableEq

/-- The loop over summaries (379-564). -/
def psLoop (W : World) (c : Config) : Nat → List Sol → List Ev → List Ev × Outcome
  | 0, _, tr => (tr, .notFound)
  | k + 1, sols, tr =>
    match request c.psPrompt sols with
    | none => (tr, .raised)
    | some msgs =>
      match W.ask tr msgs with
      | none => (tr, .raised)
      | some a =>
        let tr := tr ++ [.ps msgs a]
        match checkSol W c 1 [] [] a with
        | none => psLoop W c k (sols ++ [a]) tr
        | some st =>
          match (st.decls.map (process c.benchmark c.out)).find? (fun d => hasPart "ps".toList d.name.toList) with
          | none => (tr, .raised)
          | some d =>
            match invLoop W c st d c.maxInv [] st.lams st.counts tr with
            | (tr, .found) => (tr, .reported a)
            | (tr, .raised) => (tr, .raised)
            | (tr, .exhausted) => psLoop W c k (sols ++ [a]) tr

/-- `run_llm_synthesis_algorithm` (347-570). -/
def runLlm (W : World) (c : Config) : List Ev × Outcome := psLoop W c c.maxPs [] []

/-! ### The signatures of the target language -/

/-- `check_solution` as it is called again and again in one process: `get_dsl_func_defs` (`llmlift_scripts/parser.py` 119-142) is cached, so that the
functions of the first call are used in all calls (173).  The state is the cache. -/
def checkCached (cache : Option (List FuncDef)) (dsl targets : List FuncDef) (n : Nat) (lams : List (FnDecl × String)) (counts : List (String × Nat)) :
    Option St × Option (List FuncDef) :=
  if targets.length = n then (checkSolution (cache.getD dsl) targets n lams counts, some (cache.getD dsl))
  else (none, cache)

end Llm
end Metalift
