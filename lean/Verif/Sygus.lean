import Verif.SmtText
import Verif.Cvc5
import Verif.Decode
/-
Model of the synthesis queries for CVC5: `Synth.toSMT` (`metalift/ir.py` 2894-2957), `toSMT` of `metalift/smt_util.py` (306-526) for synthesis,
and of `extractFuns` and `generateCandidates` (`metalift/synthesize_cvc5.py` 64-102), which read what CVC5 prints.
-/
namespace Metalift
namespace Smt

/-- The text of a production (`metalift/ir.py` 2924-2938): `Choose.toSMT` prints its alternatives in parentheses (2989-3003), other expressions are put in
parentheses. -/
def productionText (e : Expr) : Option String :=
  match e with
  | .node .choose _ _ => exprText e
  | e => (exprText e).map (fun s => "(" ++ s ++ ")")

/-- `Synth.toSMT` (`metalift/ir.py` 2894-2957).  The type of a `Synth` is that of its body (2840). -/
def synthText (s : SynthFn) : Option String := do
  let g := synthGrammar smtNt s.body
  let r ← sortText s.body.ty
  let ts ← g.rules.mapM (fun e => sortText e.ty)
  let decls := "((rv " ++ r ++ ") " ++ joinSp (ts.mapIdx fun i t => "(v" ++ i.repr ++ " " ++ t ++ ")") ++ ")"
  let start ← productionText g.start
  let alts ← g.rules.mapM productionText
  let defs := "(rv " ++ r ++ " " ++ start ++ ")\n" ++
    joinNl ((ts.zip alts).mapIdx fun i p => "(v" ++ i.repr ++ " " ++ p.1 ++ " " ++ p.2 ++ ")")
  let ps ← s.params.mapM paramText
  some ("(synth-fun " ++ s.name ++ " (" ++ joinSp ps ++ ") " ++ r ++ "\n" ++ (decls ++ "\n" ++ "(" ++ defs ++ ")") ++ ")")

/-- An element of `inv_and_ps`: a function to be synthesised or one that is known. -/
inductive Cand where
  | fn (d : FnDecl)
  | synth (s : SynthFn)

/-- `filter_fn_args` applied to an element of `inv_and_ps` (`metalift/smt_util.py` 157-167, 470-471): for a `Synth` it calls `map_args`, which
has no case for this class and raises (`metalift/ir.py` 113-183). -/
def Cand.filter : Cand → Option Cand
  | .fn d => some (.fn (filterCand d))
  | .synth _ => none

/-- The functions that are known. -/
def Cand.fns (cs : List Cand) : List FnDecl := cs.filterMap fun | .fn d => some d | .synth _ => none

/-- The functions to be synthesised. -/
def Cand.synths (cs : List Cand) : List SynthFn := cs.filterMap fun | .fn _ => none | .synth s => some s

/-- What `toSMT` of `metalift/smt_util.py` (306-526) writes for synthesis (`is_synthesis = True`) after the file `tuples.smt`, as `synthesize`
of `metalift/synthesize_cvc5.py` calls it (274-284): no functions passed as arguments.  `none` is an exception.  `topological_sort` treats a `Synth` like an
axiom: it comes after the functions (113-147). -/
def sygusText (topo : List (String × String) → Option (List String)) (setOrder : List String → List String)
    (lang : List FnDecl) (axs : List Ax) (cands : List Cand) (vars : List (String × Ty)) (vc : Expr) : Option String := do
  let lang' ← sortFns topo setOrder lang
  let langTexts ← (lang'.filter written).mapM declText
  let cands' ← cands.mapM Cand.filter
  let fns ← sortFns topo setOrder (Cand.fns cands')
  let axTexts ← axs.mapM axText
  let fnTexts ← fns.mapM declText
  let synthTexts ← (Cand.synths cands').mapM synthText
  let decls ← vars.mapM fun v => (sortText v.2).map (fun s => "(declare-var " ++ v.1 ++ " " ++ s ++ ")")
  let goal ← exprText (filterFnArgs vc)
  some (catAll (langTexts.map (fun s => "\n" ++ s ++ "\n")) ++ blocks axTexts ++ blocks (fnTexts ++ synthTexts) ++
    "\n" ++ joinNl decls ++ "\n\n" ++ "\n\n" ++ "(constraint " ++ goal ++ ")" ++ "\n\n" ++ "(check-synth)")

end Smt

/-! ### Reading candidates -/

/-- `name in a` (`metalift/synthesize_cvc5.py` 89): for a string a substring test, for a list a test for an element. -/
def nameIn (name : String) : SExpr → Bool
  | .atom s => hasSub name s
  | .list xs => xs.any fun | .atom s => s == name | .list _ => false

/-- `a[0]` and `a[1]` (`metalift/synthesize_cvc5.py` 94): characters of a string, elements of a list; `none` is an exception, also the one
raised when a list is used as a key of a dictionary. -/
def firstTwo : SExpr → Option (String × SExpr)
  | .atom s => match s.toList with
    | c :: d :: _ => some (c.toString, .atom d.toString)
    | _ => none
  | .list (.atom f :: t :: _) => some (f, t)
  | _ => none

/-- `extractFuns` (`metalift/synthesize_cvc5.py` 64-74) and the lookup with `funName.index`; `varType` is the dictionary built at 90-92. -/
def cvcEnv (lang : List FnDecl) (params : List (String × Ty)) : CvcEnv where
  fns f := (lang.map fun d => (d.name, d.fnTy)).lookup f
  vars := dictGet params

/-- The body of the inner loop of `generateCandidates` (`metalift/synthesize_cvc5.py` 88-101). -/
def candidateIn (lang : List FnDecl) (s : SynthFn) (a : SExpr) : Option (List FnDecl) :=
  if nameIn s.name a then do
    let (_, t) ← firstTwo a
    let e ← cvcToExpr (cvcEnv lang s.params) [] t
    some [{ name := s.name, ret := s.body.ty, params := s.params, body := some e, recursive := true }]
  else some []

/-- `generateCandidates` (`metalift/synthesize_cvc5.py` 77-102), first component of the result.  `ast[0]` is a list, since the parser only
returns lists; `generateAST` (57-61) also skips the text `(exit)`, which is not modelled. -/
def generateCandidates (lang : List FnDecl) (synths : List SynthFn) (line : String) : Option (List FnDecl) := do
  let ast ← generateAst line
  let first ← ast.head?
  let xs ← match first with
    | .list xs => some xs
    | .atom _ => none
  let css ← synths.mapM fun s => (xs.mapM (candidateIn lang s)).map List.flatten
  some css.flatten

end Metalift
