import Verif.SynthLoop
import Verif.SmtText
import Verif.VcUtil
import Verif.Simplify
/-
Model of `Driver.synthesize` of both front ends: what is done with the synthesised predicates (`metalift/frontend/python.py` 889-901,
`metalift/frontend/llvm.py` 1558-1629), and what is given to the verifier (`metalift/synthesis_common.py` 187-239).
-/
namespace Metalift

/-! ### `re.match("(\w+)_ps", name)` -/

/-- `\w` (Python's class also has the letters and digits of other alphabets; names here are taken to be ASCII). -/
def isWord (c : Char) : Bool := c.isAlphanum || c == '_'

/-- Matching `(\w*)_ps` at the start of the text: as in a backtracking matcher, another character is taken for the group if the rest can then be
matched, otherwise `_ps` must follow here.  The result is the group. -/
def psStar : List Char → Option (List Char)
  | [] => none
  | c :: cs =>
    match (if isWord c then psStar cs else none) with
    | some g => some (c :: g)
    | none => if ['_', 'p', 's'].isPrefixOf (c :: cs) then some [] else none

/-- `re.match("(\w+)_ps", name).groups()[0]` (`metalift/frontend/python.py` 893-895, `metalift/frontend/llvm.py` 1568, 1618-1620); `none`: no
match. -/
def psGroup (name : String) : Option String :=
  match name.toList with
  | [] => none
  | c :: cs => if isWord c then (psStar cs).map (fun g => String.ofList (c :: g)) else none

/-! ### Recording the results -/

/-- `self.fns`: name and `synthesized` of the analysed functions (dictionaries keep the order of insertion). -/
abbrev Fns := List (String × Option Expr)

/-- `self.fns[name].synthesized = e`; `none` is a `KeyError`. -/
def Fns.assign (fns : Fns) (name : String) (e : Expr) : Option Fns :=
  if fns.any (fun p => p.1 == name) then some (fns.map (fun p => if p.1 = name then (p.1, some e) else p)) else none

/-- One result in `Driver.synthesize` of the Python front end (`metalift/frontend/python.py` 892-901); `none` is an exception. -/
def recordPy (fns : Fns) (d : FnDecl) : Option Fns :=
  match psGroup d.name with
  | none => some fns
  | some name =>
    match d.body with
    | some (.node .eq _ [_, e]) => fns.assign name e
    | _ => none

/-- The loop over the results (`metalift/frontend/python.py` 892-901). -/
def recordAllPy (fns : Fns) (ds : List FnDecl) : Option Fns := ds.foldlM recordPy fns

/-- The right side of the equation, for `Eq` and for `list_eq` (`metalift/frontend/llvm.py` 1570-1582, 1621-1629). -/
def equated (d : FnDecl) : Option Expr :=
  match d.body with
  | some (.node .eq _ [_, e]) => some e
  | some (.node (.call f) _ (_ :: e :: _)) => if f = "list_eq" then some e else none
  | _ => none

/-- One result in `Driver.synthesize` of the LLVM front end (`metalift/frontend/llvm.py` 1610-1629): results that were not asked for (`asked`:
the names of `inv_and_ps`) are ignored, and a postcondition that is not an equation sets nothing. -/
def recordLl (asked : List String) (st : Fns × List FnDecl) (d : FnDecl) : Option (Fns × List FnDecl) :=
  if d.name ∉ asked then some st
  else
    let all := st.2.filter (fun x => x.name != d.name) ++ [d]
    match psGroup d.name, equated d with
    | some name, some e => (st.1.assign name e).map (fun fns => (fns, all))
    | _, _ => some (st.1, all)

/-- The loop over the results, from empty `synthesized_fns` (`metalift/frontend/llvm.py` 1610-1629).  (A second result of the same name would
keep the dictionary position of the first; results have distinct names.) -/
def recordAllLl (asked : List String) (fns : Fns) (ds : List FnDecl) : Option (Fns × List FnDecl) :=
  ds.foldlM (recordLl asked) (fns, [])

/-- `get_actual_ps_fn_decl` (`metalift/frontend/llvm.py` 1562-1584): the first result whose name matches is rewritten from a predicate about the
result to a function that returns it; `none` is an exception. -/
def actualPs : List FnDecl → Option FnDecl
  | [] => none
  | d :: ds =>
    match psGroup d.name with
    | none => actualPs ds
    | some _ => do
      let e ← equated d
      let r ← d.params.getLast?
      some { d with ret := r.2, params := d.params.dropLast, body := some e }

/-! ### What is verified -/

/-- `ar.args[0]` of an argument of function type (`metalift/synthesis_common.py` 124): a variable or a call. -/
def fnArgName : Expr → Option String
  | .var n (.fn _) => some n
  | .node (.call g) (.fn _) _ => some g
  | _ => none

mutual
/-- `parse_candidates` (`metalift/synthesis_common.py` 95-149): the expression is rebuilt, and the functions passed as arguments are collected
(`in_calls`).  `known`: the names in `fns_type`.  There are no `Lambda`s in the model.  The list `fn_calls` is only used together with
`in_calls` and is left out. -/
def parseCands (known : List String) : Expr → Expr × List (String × String)
  | .var n t => (.var n t, [])
  | .lit l => (.lit l, [])
  | .node op t args =>
    let r := parseCandss known args
    match op with
    | .call f => (.node (.call f) t r.1,
        r.2 ++ (r.1.filterMap fnArgName).filterMap (fun g => if g ∈ known then some (f, g) else none))
    | op => (.node op t r.1, r.2)
def parseCandss (known : List String) : List Expr → List Expr × List (String × String)
  | [] => ([], [])
  | e :: es => ((parseCands known e).1 :: (parseCandss known es).1, (parseCands known e).2 ++ (parseCandss known es).2)
end

/-- `transformedLang` (`metalift/synthesis_common.py` 199-225): functions with a body become `FnDeclRecursive`. -/
def transformDecl (known : List String) (d : FnDecl) : FnDecl :=
  match d.body with
  | some b => { d with body := some (parseCands known b).1, recursive := true }
  | none => d

/-- The text that `verify_synth_result` (`metalift/synthesis_common.py` 186-239) gives to CVC5 after the files of definitions.  Queries with
functions as arguments are not modelled here (`none`).  (The code collects `in_calls` from the candidates before pruning.) -/
def verifyText (topo : List (String × String) → Option (List String)) (setOrder : List String → List String) (known : List String)
    (lang : List FnDecl) (axs : List Smt.Ax) (vars : List (String × Ty)) (vc : Expr) (cands : List FnDecl) : Option String :=
  let bodies := (cands ++ lang).filterMap FnDecl.body ++ axs.map Smt.Ax.body
  if (parseCandss known (vc :: bodies)).2 = [] then
    Smt.queryText topo setOrder (lang.map (transformDecl known)) (axs.map (fun a => { a with body := (parseCands known a.body).1 })) cands vars
      (parseCands known vc).1
  else none

/-- What a run of the Python driver sees of the world around it. -/
structure DriverEnv where
  /-- `proc_synthesis.poll()` -/
  poll : Nat → Option Int
  /-- the solution files -/
  file : Nat → Nat → Option (String × List String)
  /-- reading a solution, up to and including `prune_fn_decls` -/
  decode : List String → Option (List FnDecl)
  /-- CVC5, in round `j`, on this text (after the files of definitions) -/
  cvc : Nat → String → CvcRun

/-- `synthesize` of `metalift/synthesize_rosette.py` (544-805; the condition is simplified, 596; one round, verification on) as both drivers
call it.  `asserts`: the obligations.  `none`: still running after `fuel` iterations. -/
def runSynthesis (topo : List (String × String) → Option (List String)) (setOrder : List String → List String) (known : List String)
    (asserts : List Expr) (lang : List FnDecl) (axs : List Smt.Ax) (vars : List (String × Ty)) (E : DriverEnv) (fuel : Nat) :
    Option (SynthOutcome (List FnDecl)) :=
  match andObjects asserts with
  | none => some .exception
  | some vc =>
    rosetteSynthesize
      { poll := E.poll, file := E.file, decode := E.decode
        verify := fun j c =>
          match verifyText topo setOrder known lang axs vars vc.simplify c with
          | none => .raises
          | some text => E.cvc j text } false 0 fuel

/-- What is done with the results afterwards; `none` in `record` is an exception. -/
def SynthOutcome.andThen {α β : Type} (record : α → Option β) : SynthOutcome α → SynthOutcome β
  | .returned c => match record c with
    | none => .exception
    | some b => .returned b
  | .synthesisFailed => .synthesisFailed
  | .verificationFailed => .verificationFailed
  | .exception => .exception
  | .afterLoop => .afterLoop

/-- `Driver.synthesize` of the Python front end (`metalift/frontend/python.py` 868-901).  `fs`: the analysed functions. -/
def pySynthesize (topo : List (String × String) → Option (List String)) (setOrder : List String → List String) (known : List String)
    (fs : List String) (asserts : List Expr) (lang : List FnDecl) (axs : List Smt.Ax) (vars : List (String × Ty)) (E : DriverEnv) (fuel : Nat) :
    Option (SynthOutcome Fns) :=
  (runSynthesis topo setOrder known asserts lang axs vars E fuel).map (.andThen (recordAllPy (fs.map (fun f => (f, none)))))

/-- `Driver.synthesize` of the LLVM front end (`metalift/frontend/llvm.py` 1586-1629).  `asked`: the names of invariants and postconditions. -/
def llSynthesize (topo : List (String × String) → Option (List String)) (setOrder : List String → List String) (known : List String)
    (fs asked : List String) (asserts : List Expr) (lang : List FnDecl) (axs : List Smt.Ax) (vars : List (String × Ty)) (E : DriverEnv)
    (fuel : Nat) : Option (SynthOutcome (Fns × List FnDecl)) :=
  (runSynthesis topo setOrder known asserts lang axs vars E fuel).map (.andThen (recordAllLl asked (fs.map (fun f => (f, none)))))

end Metalift
