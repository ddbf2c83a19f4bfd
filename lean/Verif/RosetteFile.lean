import Verif.Rosette
import Verif.SmtText
import Verif.SymVars
import Verif.RktFile
/-
Model of the file that `to_rosette` (`metalift/rosette_translator.py` 258-345) writes in verification mode.
-/
namespace Metalift
namespace Rkt
open Smt (joinSp)

/-- The lines at the start of the file (`metalift/rosette_translator.py` 277-285); `print` adds one more end of line. -/
def fileHeader : List Char := chars! "#lang rosette
(require \"./bounded.rkt\")
(require \"./utils.rkt\")
(require rosette/lib/angelic rosette/lib/match rosette/lib/synthax)
(require rosette/solver/smt/bitwuzla)
(current-solver (bitwuzla #:path \"/Users/jieq/Desktop/bitwuzla/build/src/main/bitwuzla\" #:options (hash ':seed 0)))

"

mutual
/-- The text of the expressions in the declarations of `gen_var` (`metalift/rosette_translator.py` 54-58, 75-82, 94-108). -/
def rexpText : RExp → String
  | .id s => s
  | .list es => "(list " ++ joinSp (rexpTexts es) ++ ")"
  | .take e n => "(take " ++ rexpText e ++ " " ++ n ++ ")"
  | .sortDedup e => "(sort (remove-duplicates " ++ rexpText e ++ ") <)"
def rexpTexts : List RExp → List String
  | [] => []
  | e :: es => rexpText e :: rexpTexts es
end

/-- The text of a declaration (`metalift/rosette_translator.py` 35, 39, 57, 81, 95-108). -/
def rdeclText : RDecl → String
  | .symInt n => "(define-symbolic " ++ n ++ " integer?)"
  | .symBool n => "(define-symbolic " ++ n ++ " boolean?)"
  | .define n e => "(define " ++ n ++ " " ++ rexpText e ++ ")"

/-- `"\n".join(...)` (`metalift/rosette_translator.py` 139). -/
def joinLines : List String → String
  | [] => ""
  | [s] => s
  | s :: ss => s ++ "\n" ++ joinLines ss

/-- `FnDeclRecursive.to_rosette` (`metalift/ir.py` 3042-3069) and `FnDecl.to_rosette` (3184-3210) for a function with a body; `none` is an
exception (or that there is no body). -/
def fnText (d : FnDecl) : Option String := do
  let b ← d.body
  let s ← rosetteText b
  some ("(" ++ (if d.recursive then "define-bounded" else "define") ++ " (" ++ d.name ++ " " ++ joinSp (d.params.map Prod.fst) ++ ") \n" ++ s ++ ")")

/-- `generate_inv_ps` (`metalift/rosette_translator.py` 239-255). -/
def invPsText : List (String × List String) → String
  | [] => ""
  | (f, ps) :: fs => "(define (" ++ f ++ " " ++ joinSp ps ++ ") (" ++ (f ++ "_gram") ++ " " ++ joinSp ps ++ " #:depth 10))\n" ++ invPsText fs

/-- The functions of the target language (`metalift/rosette_translator.py` 287-295): those without a body are skipped, axioms print as blank
lines (left out here), `uninterp_fns` is empty. -/
def langTexts : List FnDecl → Option String
  | [] => some ""
  | d :: ds =>
    if d.body.isNone then langTexts ds
    else do
      let s ← fnText d
      let r ← langTexts ds
      some ("\n " ++ s ++ " \n\n" ++ r)

/-- The predicates (298-304). -/
def candTexts : List FnDecl → Option String
  | [] => some ""
  | d :: ds => do
    let s ← fnText d
    let r ← candTexts ds
    some (s ++ " \n\n" ++ r)

/-- The file after its header, from the declarations of the variables: `to_rosette` (`metalift/rosette_translator.py` 286-345) with
`verify_mode`, `loop_and_ps_info` empty (as `verify_synth_result` passes, `metalift/synthesis_common.py` 172-184), and `inv_and_ps` the functions
`cands`. -/
def fileBody (lang cands : List FnDecl) (ds : List RDecl) (unbounded : Bool) (vc : Expr) : Option String := do
  let l ← langTexts lang
  let c ← candTexts cands
  let guessed := lang.filter (fun d => d.body.isNone)
  let g := if guessed.isEmpty then "" else invPsText (guessed.map fun d => (d.name, d.params.map Prod.fst)) ++ "\n"
  let v ← rosetteText vc
  some (l ++ c ++ "\n" ++ g ++ joinLines (ds.map rdeclText) ++ "\n" ++
    (if unbounded then "(current-bitwidth #f)\n" else "(current-bitwidth 6)\n") ++
    "(define (assertions)\n (assert " ++ v ++ "))\n" ++ "\n" ++ "(verify (assertions))\n")

/-- The file (`metalift/rosette_translator.py` 258-345); `b` is `list_bound`. -/
def verifyFile (lang cands : List FnDecl) (vars : List (String × VTy)) (b : Nat) (unbounded : Bool) (vc : Expr) : Option (List Char) := do
  let (ds, _) ← generateVars vars b
  let s ← fileBody lang cands ds unbounded vc
  some (fileHeader ++ s.toList)

end Rkt
end Metalift
