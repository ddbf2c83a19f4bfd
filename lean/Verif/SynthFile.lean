import Verif.RosetteFile
import Verif.Grammar
import Verif.Decode
/-
Model of the file that `to_rosette` (`metalift/rosette_translator.py` 258-345) writes for synthesis, and of `Synth.to_rosette`
(`metalift/ir.py` 2854-2892).
-/
namespace Metalift
namespace Rkt
open Smt (joinSp)

/-- `Choose.to_rosette` (`metalift/ir.py` 2975-2987): the alternatives, separated by spaces. -/
def alternativesText : Expr → Option String
  | .node .choose _ args => (rosetteTexts args).map joinSp
  | e => rosetteText e

/-- One production (`metalift/ir.py` 2887-2889). -/
def ruleText (i : Nat) (alternatives : String) : String := "[v" ++ i.repr ++ " (choose " ++ alternatives ++ ")]"

/-- `Synth.to_rosette` (`metalift/ir.py` 2854-2892). -/
def grammarText (s : SynthFn) : Option String := do
  let g := synthGrammar rosetteNt s.body
  let start ← rosetteText g.start
  let rules ← g.rules.mapM alternativesText
  some ("(define-grammar (" ++ s.name ++ "_gram " ++ joinSp (s.params.map Prod.fst) ++ ")\n " ++
    ("[rv (choose " ++ start ++ ")]\n" ++ joinLines (rules.mapIdx ruleText)) ++ "\n)")

/-- The loop over `inv_and_ps` (`metalift/rosette_translator.py` 298-304). -/
def grammarTexts : List SynthFn → Option String
  | [] => some ""
  | s :: ss => do
    let g ← grammarText s
    let r ← grammarTexts ss
    some (g ++ " \n\n" ++ r)

/-- The query of the first round (`generate_synth`, `metalift/rosette_translator.py` 178-197). -/
def queryText (basename : String) (cs : List String) : String :=
  "\n    (define sol0\n        (synthesize\n            #:forall (list " ++ joinSp cs ++
  ")\n            #:guarantee (assertions)\n        )\n    )\n    (sat? sol0)\n    (with-output-to-file\n        \"synthesisLogs/" ++ basename ++
  "_sol0\"\n        (lambda ()\n            (begin\n                (printf (~a (sat? sol0)))\n                (printf \"\\n\")\n" ++
  "                (print-forms sol0)\n            )\n        )\n    )\n    (print-forms sol0)\n    "

/-- The call of a function whose earlier solutions are to be excluded, with its own parameters as arguments
(`metalift/rosette_translator.py` 204). -/
def guessCall (g : SynthFn) : String := "(" ++ g.name ++ " " ++ joinSp (g.params.map Prod.fst) ++ ")"

/-- The value of the call is not the one that it has with the solution of round `j` (`metalift/rosette_translator.py` 205-207). -/
def differsText (j : Nat) (g : SynthFn) : String := "(! (eq? " ++ guessCall g ++ " (evaluate " ++ guessCall g ++ " sol" ++ j.repr ++ ")))"

/-- The assumption for an earlier round (`metalift/rosette_translator.py` 202-211). -/
def assumeText (guesses : List SynthFn) (j : Nat) : String := "(assume (|| " ++ joinSp (guesses.map (differsText j)) ++ "))"

/-- The query of round `i`, from the second on (`metalift/rosette_translator.py` 200-234). -/
def nextQueryText (basename : String) (cs : List String) (guesses : List SynthFn) (i : Nat) : String :=
  "\n        (define sol" ++ i.repr ++ "\n            (synthesize\n                #:forall (list " ++ joinSp cs ++
  ")\n                #:guarantee (begin\n                    " ++ joinSp ((List.range i).map (assumeText guesses)) ++
  "\n                    (assertions)\n                )\n            )\n        )\n        (sat? sol" ++ i.repr ++
  ")\n        (with-output-to-file\n            \"synthesisLogs/" ++ basename ++ "_sol" ++ i.repr ++
  "\"\n            (lambda ()\n                (begin\n                    (printf (~a (sat? sol" ++ i.repr ++
  ")))\n                    (printf \"\\n\")\n                    (print-forms sol" ++ i.repr ++
  ")\n                )\n            )\n        )\n        (print-forms sol" ++ i.repr ++ ")\n        "

/-- `generate_synth` (`metalift/rosette_translator.py` 142-236) with nothing in `fn_defs_to_exclude`: `rounds` is `rounds_to_guess` and `guesses` is
`fns_to_guess`. -/
def queriesText (basename : String) (rounds : Nat) (guesses : List SynthFn) (cs : List String) : String :=
  joinLines (queryText basename cs :: (List.range rounds).map fun i => nextQueryText basename cs guesses (i + 1))

/-- The file after its header, for synthesis: `to_rosette` (`metalift/rosette_translator.py` 286-345) where `loop_and_ps_info` are the predicates
`synths` and `inv_and_ps` these and the grammars `helpers` of functions of the target language, as the drivers pass
(`metalift/frontend/python.py` 880-892, `metalift/frontend/llvm.py` 1590-1609).  The functions of the target language without a body
(`metalift/rosette_translator.py` 308-317) are the ones that the grammars `helpers` are for. -/
def synthBody (basename : String) (rounds : Nat) (guesses : List SynthFn) (lang : List FnDecl) (synths helpers : List SynthFn) (ds : List RDecl)
    (cs : List String) (unbounded : Bool) (vc : Expr) : Option String := do
  let l ← langTexts lang
  let c ← grammarTexts (synths ++ helpers)
  let guessed := lang.filter (fun d => d.body.isNone)
  let g := if guessed.isEmpty then "" else invPsText (guessed.map fun d => (d.name, d.params.map Prod.fst)) ++ "\n"
  let v ← rosetteText vc
  some (l ++ c ++ (invPsText (synths.map fun s => (s.name, s.params.map Prod.fst)) ++ "\n") ++ g ++ joinLines (ds.map rdeclText) ++ "\n" ++
    (if unbounded then "(current-bitwidth #f)\n" else "(current-bitwidth 6)\n") ++
    "(define (assertions)\n (assert " ++ v ++ "))\n" ++ "\n" ++ (queriesText basename rounds guesses cs ++ "\n"))

/-- The file (`metalift/rosette_translator.py` 258-345). -/
def synthFile (basename : String) (rounds : Nat) (guesses : List SynthFn) (lang : List FnDecl) (synths helpers : List SynthFn)
    (vars : List (String × VTy)) (b : Nat) (unbounded : Bool) (vc : Expr) : Option (List Char) := do
  let (ds, cs) ← generateVars vars b
  let s ← synthBody basename rounds guesses lang synths helpers ds cs unbounded vc
  some (fileHeader ++ s.toList)

end Rkt
end Metalift
