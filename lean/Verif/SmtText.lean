import Verif.SmtSpec
import Verif.Rosette
/-
Model of the text written for the SMT solver: the methods `toSMT` and `toSMTType` of `metalift/ir.py` and the function
`toSMT` of `metalift/smt_util.py` (without function arguments: `in_calls` is empty).
-/
namespace Metalift
namespace Smt

/-! ### Sorts -/

/-- `" ".join(...)`. -/
def joinSp : List String → String
  | [] => ""
  | s :: ss => s ++ catAll (ss.map (" " ++ ·))

mutual
/-- `toSMTType` (`metalift/ir.py` 903, 1048, 1312-1317, 1529-1535, 1677-1686, 1737-1749); function types have none (833-834). -/
def sortText : Ty → Option String
  | .int => some "Int"
  | .bool => some "Bool"
  | .list t => (sortText t).map (fun s => "(MLList " ++ s ++ ")")
  | .set t => (sortText t).map (fun s => "(Set " ++ s ++ ")")
  | .tuple ts => (sortTexts ts).map (fun ss => "(Tuple" ++ ts.length.repr ++ " " ++ joinSp ss ++ ")")
  | .fn _ => none
def sortTexts : List Ty → Option (List String)
  | [] => some []
  | t :: ts => do
    let s ← sortText t
    let ss ← sortTexts ts
    some (s :: ss)
end

/-! ### Expressions -/

/-- `SMTName` of the operator classes (`metalift/ir.py` 1931-2360). -/
def opName : Op → Option String
  | .add => some "+"
  | .sub => some "-"
  | .mul => some "*"
  | .div => some "div"
  | .mod => some "mod"
  | .eq => some "="
  | .lt => some "<"
  | .le => some "<="
  | .gt => some ">"
  | .ge => some ">="
  | .and => some "and"
  | .or => some "or"
  | .not => some "not"
  | .implies => some "=>"
  | .ite => some "ite"
  | _ => none

/-- `toSMTSimple` (`metalift/ir.py` 344-361), also the layout of `TupleExpr.toSMT` (2763-2770). -/
def simple (h : String) (as : List String) : String := "(" ++ h ++ " " ++ joinSp as ++ ")"

/-- The index of a `tupleGet`, printed with `%d`; `none`: the argument is not an integer literal (an exception, or text that is
not modelled). -/
def indexText : Expr → Option String
  | .lit (.int i) => some (litText (.int i))
  | _ => none

/-- `s.split("_")[1]`: the part between the first two underscores; `none` is the `IndexError`. -/
def afterUnderscore (s : String) : Option (List Char) :=
  match s.toList.dropWhile (· != '_') with
  | [] => none
  | _ :: cs => some (cs.takeWhile (· != '_'))

/-- `Counter(name.split("_")[1])["i"]` (`metalift/ir.py` 2547-2551). -/
def countI (s : String) : Option Nat := (afterUnderscore s).map (fun cs => (cs.filter (· == 'i')).length)

/-- The number of components of the tuple in a `tupleGet` (`metalift/ir.py` 2513-2551), guessed from the form of the
argument. -/
def tupleArity : Expr → Option Nat
  | .node .tuple _ as => some as.length
  | .node (.call f) _ as => if f = "make-tuple" then some as.length else countI f
  | .var n t =>
    if n = "make-tuple" then some 0
    else match t with
      | .tuple ts => some ts.length
      | _ => countI n
  | _ => none

/-- What is printed for a string `s` in a call, where `rest` are the arguments after it (`metalift/ir.py` 2507-2560).  Function
names and variables are treated alike, since the code looks at `str(a)`.  `cv` says that the node is a `CallValue` (2651-2690), whose method has no
case for `list_eq` and knows fewer forms of tuples. -/
def word (cv : Bool) (s : String) (rest : List Expr) : Option String :=
  if s = "make-tuple" then some ("tuple" ++ rest.length.repr)
  else if s = "tupleGet" then
    match rest with
    | t :: i :: _ => do
      let n ← if cv then (match t with
        | .node (.call f) _ as => if f = "make-tuple" then some as.length else countI f
        | .var n _ => if n = "make-tuple" then some 0 else countI n
        | _ => none) else tupleArity t
      let i ← indexText i
      some ("tuple" ++ n.repr ++ "_get" ++ i)
    | _ => none
  else if startsWith s "set-" then some ("set." ++ String.ofList (s.toList.drop 4))
  else if startsWith s "map-" then some ("map_" ++ String.ofList (s.toList.drop 4))
  else if s = "list_eq" ∧ cv = false then some "="
  else some s

mutual
/-- `toSMT` of expressions (`metalift/ir.py` 1870, 1910-1914, 1947-2363, 2495-2563, 2651-2690, 2763-2770, 2989-3003).  `none` is an
exception. -/
def exprText : Expr → Option String
  | .var n _ => some n
  | .lit l => some (litText l)
  | .node (.call f) t args =>
    if f = "set-create" then (sortText t).map (fun s => "(as set.empty " ++ s ++ ")")
    else if f = "tupleGet" then do
      -- `argvals` is `args` without the last element; a call without arguments has no words at all
      if args.isEmpty then some ""
      else
        let h ← word false f args
        let ws ← callWords false true args
        some ("(" ++ joinSp (h :: ws) ++ ")")
    else do
      let h ← word false f args
      let ws ← callWords false false args
      some (if args.isEmpty then h else "(" ++ joinSp (h :: ws) ++ ")")
  | .node .callValue _ args => do
    let ws ← callWords true false args
    some ("(" ++ joinSp ws ++ ")")
  | .node .tuple _ args => do
    let ss ← exprTexts args
    some (simple ("tuple" ++ args.length.repr) ss)
  | .node .choose _ args => do
    let ss ← exprTexts args
    some ("(" ++ joinSp ss ++ ")")
  | .node op _ args => do
    let h ← opName op
    let ss ← exprTexts args
    some (simple h ss)
/-- The loop over the arguments of a call (`metalift/ir.py` 2507-2560); `dropLast` leaves out the last one. -/
def callWords (cv dropLast : Bool) : List Expr → Option (List String)
  | [] => some []
  | a :: as =>
    if dropLast && as.isEmpty then some []
    else do
      let w ← match a with
        | .var n _ => word cv n as
        | e => exprText e
      let ws ← callWords cv dropLast as
      some (w :: ws)
def exprTexts : List Expr → Option (List String)
  | [] => some []
  | e :: es => do
    let s ← exprText e
    let ss ← exprTexts es
    some (s :: ss)
end

/-! ### Declarations -/

/-- A parameter `"(%s %s)" % (name, sort)`. -/
def paramText (p : String × Ty) : Option String := (sortText p.2).map (fun s => "(" ++ p.1 ++ " " ++ s ++ ")")

/-- `FnDeclRecursive.toSMT` (`metalift/ir.py` 3071-3098) and `FnDecl.toSMT` (3212-3243).  The latter evaluates `d[1].toSMT()` for the type of
every parameter, which raises. -/
def declText (d : FnDecl) : Option String :=
  match d.body with
  | none => do
    let ss ← sortTexts (d.params.map Prod.snd)
    let r ← sortText d.ret
    some ("(declare-fun " ++ d.name ++ " (" ++ joinSp ss ++ ") " ++ r ++ ")")
  | some b =>
    if d.recursive || d.params.isEmpty then do
      let ps ← d.params.mapM paramText
      let r ← sortText d.ret
      let s ← exprText b
      some ("(" ++ (if d.recursive then "define-fun-rec " else "define-fun ") ++ d.name ++ " (" ++ joinSp ps ++ ") " ++ r ++
        "\n" ++ s ++ ")")
    else none

/-- `Axiom(e, *vars)` (`metalift/ir.py` 2812-2835). -/
structure Ax where
  vars : List (String × Ty)
  body : Expr

/-- `Axiom.toSMT` (`metalift/ir.py` 2829-2835). -/
def axText (a : Ax) : Option String := do
  let vs ← a.vars.mapM paramText
  let s ← exprText a.body
  some ("(assert (forall ( " ++ joinSp vs ++ " ) " ++ s ++ " ))")

/-! ### The query -/

/-- `"\n\n".join(["\n%s\n" % s for s in ...])` (`metalift/smt_util.py` 478-481). -/
def blocks : List String → String
  | [] => ""
  | s :: ss => "\n" ++ s ++ "\n" ++ catAll (ss.map (fun s => "\n\n" ++ "\n" ++ s ++ "\n"))

/-- `"\n".join(...)`. -/
def joinNl : List String → String
  | [] => ""
  | s :: ss => s ++ catAll (ss.map ("\n" ++ ·))

/-- `(declare-const x sort)` (`metalift/smt_util.py` 487-497). -/
def constText (v : String × Ty) : Option String :=
  (sortText v.2).map (fun s => "(declare-const " ++ v.1 ++ " " ++ s ++ ")")

/-- The function declarations returned by `topological_sort` (`metalift/smt_util.py` 113-147) for a list of declarations (axioms keep their
order and come last). -/
def sortFns (topo : List (String × String) → Option (List String)) (setOrder : List String → List String)
    (fns : List FnDecl) : Option (List FnDecl) :=
  (topologicalSort topo setOrder (fns.map Item.fn)).map Item.fns

/-- Is the declaration written (`metalift/smt_util.py` 456-464)?  A `FnDecl` without body is skipped. -/
def written (d : FnDecl) : Bool := d.recursive || d.body.isSome

/-- `filter_fn_args` applied to a candidate (`metalift/smt_util.py` 470-471). -/
def filterCand (d : FnDecl) : FnDecl := { d with body := d.body.map filterFnArgs }

/-- What `toSMT` of `metalift/smt_util.py` (306-526) writes after the three files of definitions, for verification
(`is_synthesis = False`), no predicates (`preds = []`) and no functions passed as arguments (`in_calls = []`).  `vars` is a
Python set: its order is arbitrary. -/
def queryText (topo : List (String × String) → Option (List String)) (setOrder : List String → List String)
    (lang : List FnDecl) (axs : List Ax) (cands : List FnDecl) (vars : List (String × Ty)) (vc : Expr) : Option String := do
  let lang' ← sortFns topo setOrder lang
  let langTexts ← (lang'.filter written).mapM declText
  let cands' ← sortFns topo setOrder (cands.map filterCand)
  let axTexts ← axs.mapM axText
  let candTexts ← cands'.mapM declText
  let consts ← vars.mapM constText
  let goal ← exprText (mkNot (filterFnArgs vc))
  some (catAll (langTexts.map (fun s => "\n" ++ s ++ "\n")) ++ blocks axTexts ++ blocks candTexts ++
    "\n" ++ joinNl consts ++ "\n\n" ++ "\n\n" ++ "(assert " ++ goal ++ ")" ++ "\n\n" ++ "(check-sat)\n(get-model)")

end Smt
end Metalift
