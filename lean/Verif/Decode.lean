import Verif.Rosette
import Verif.Grammar
import Verif.Prune
/-
Model of reading a solution of the Rosette synthesizer into candidates (`metalift/synthesize_rosette.py` 642-709).
-/
namespace Metalift

/-- `Synth` (`metalift/ir.py` 2838-2852): a function to be synthesised, with its grammar. -/
structure SynthFn where
  name : String
  body : Expr
  params : List (String × Ty)

/-- Looking up a key in a Python dictionary built from these items in this order. -/
def dictGet {β : Type} (items : List (String × β)) (k : String) : Option β := items.reverse.lookup k

/-- Type of a declaration: `Fn[...]`, return type first (`metalift/ir.py` 3019). -/
def FnDecl.fnTy (d : FnDecl) : Ty := .fn (d.ret :: d.params.map Prod.snd)

/-- `fnsType` (`metalift/synthesize_rosette.py` 662-667).  Axioms, which are entered as well, are not modelled. -/
def fnsType (lang : List FnDecl) (synths : List SynthFn) : List (String × Ty) :=
  lang.map (fun d => (d.name, d.fnTy)) ++ synths.map (fun s => (s.name, .fn (s.body.ty :: s.params.map Prod.snd)))

/-- `var_types` (648-657), when `loop_and_ps_info` and `inv_and_ps` are the same list, as in both drivers. -/
def varTypes (lang : List FnDecl) (synths : List SynthFn) : List (String × List (String × Ty)) :=
  synths.map (fun s => (s.name, s.params)) ++ lang.map (fun d => (d.name, d.params))

/-- `write_choices_to` for one grammar (`metalift/ir.py` 2883-2885). -/
def choicesOf (body : Expr) : List (String × Expr) := ((synthGrammar rosetteNt body).rules.mapIdx (fun i e => (smtNt i, e)))

/-- What `to_expr` is given when function `n` is read (672-677). -/
def readEnvOf (lang : List FnDecl) (synths : List SynthFn) (n : String) : ReadEnv where
  fns := dictGet (fnsType lang synths)
  vars := dictGet ((dictGet (varTypes lang synths) n).getD [])
  choices := (dictGet (synths.map (fun s => (s.name, choicesOf s.body))) n).getD []

/-- `"define (" + n + " " in r or "define (" + n + ")" in r` (670). -/
def definesName (n r : String) : Bool := hasSub ("define (" ++ n ++ " ") r || hasSub ("define (" ++ n ++ ")") r

/-- `r[r.find("("):]` (671-673). -/
def fromParen (r : String) : String := String.ofList (r.toList.dropWhile (· != '('))

/-- The expressions assigned to `candidate_dict[n]` one after the other (668-677); `none` is an exception. -/
def readsOf (E : ReadEnv) (output : List String) (n : String) : Option (List Expr) :=
  (output.filter (definesName n)).mapM (fun r => readDefinition E (fromParen r))

/-- `to_synthesize` (528-541) for the same list as above. -/
def toSynthesize (lang : List FnDecl) (synths : List SynthFn) : List String :=
  synths.map SynthFn.name ++ (lang.filter (fun d => d.body.isNone)).map FnDecl.name

/-- `convert_expr` (`metalift/synthesize_rosette.py` 88-91).  A call of `list_eq` with fewer than two arguments raises in the code. -/
def convertExpr : Expr → Expr
  | .node (.call "list_eq") _ (a :: b :: _) => .node .eq .bool [a, b]
  | e => e

/-- `e.map_args(lambda expr: convert_expr(expr))` (690-694). -/
def convertArgs : Expr → Expr
  | .node op t args => .node op t (args.map convertExpr)
  | e => e

/-- The body of the candidate for `s` (684-703): what was read last, or an arbitrary choice. -/
def candidateBody (s : SynthFn) (reads : List Expr) : Expr :=
  match reads.getLast? with
  | some e => e
  | none => convertArgs (chooseArbitrarily s.body)

/-- `FnDeclRecursive(ce_name, synth_fun.body().type, candidate_dict[ce_name], *all_vars)` (696-703). -/
def SynthFn.decl (s : SynthFn) (e : Expr) : FnDecl := ⟨s.name, s.body.ty, s.params, some e, true⟩

/-- `D[d.name()] = d` in a dictionary. -/
def insertDecl (D : FnDict) (d : FnDecl) : FnDict :=
  if D.any (fun p => p.1 = d.name) then D.map (fun p => if p.1 = d.name then (p.1, d) else p) else D ++ [(d.name, d)]

/-- From the lines of a solution, after the first, to the candidates (`metalift/synthesize_rosette.py` 660-709); `none` is an
exception. -/
def decodeSolution (lang : List FnDecl) (synths : List SynthFn) (lines : List String) : Option (List FnDecl) := do
  let output := parseOutput lines
  let _ ← (toSynthesize lang synths).mapM (fun n => readsOf (readEnvOf lang synths n) output n)
  let cands ← synths.mapM (fun s => do
    let reads ← readsOf (readEnvOf lang synths s.name) output s.name
    some (s.decl (candidateBody s reads)))
  some ((pruneFnDecls (cands.foldl insertDecl [])).map Prod.snd)

end Metalift
