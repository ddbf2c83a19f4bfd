import Verif.Simplify
/-
Model of `topological_sort` and its helpers (`metalift/smt_util.py` 11-147).
-/
namespace Metalift

/-- `FnDecl` (`metalift/ir.py` 3153) and `FnDeclRecursive` (3011): name, return type, parameters, body (`None` for an
uninterpreted function) and which of the two classes it is. -/
structure FnDecl where
  name : String
  ret : Ty
  params : List (String × Ty)
  body : Option Expr
  recursive : Bool := false

/-- An element of the list given to `topological_sort`: a function declaration or anything else
(`Axiom`, `metalift/ir.py` 2812, or a `Synth`, 2838), which the code treats alike. -/
inductive Item where
  | fn (f : FnDecl)
  | ax (e : Expr)

mutual
/-- The strings `get_dependent_fn_names` visits (`metalift/smt_util.py` 102-110), in order: names of
called functions, and also names of variables, since the code looks at every string in `args`. -/
def Expr.strs : Expr → List String
  | .var n _ => [n]
  | .lit _ => []
  | .node (.call f) _ args => f :: Expr.strss args
  | .node _ _ args => Expr.strss args
def Expr.strss : List Expr → List String
  | [] => []
  | e :: es => Expr.strs e ++ Expr.strss es
end

/-- `get_dependent_fn_names(body, all_fn_names, [])` (`metalift/smt_util.py` 102-110). -/
def dependentFnNames (body : Option Expr) (all : List String) : List String :=
  match body with
  | none => []
  | some b => b.strs.filter (fun s => decide (s ∈ all))

/-- The first loop of `topological_sort` (`metalift/smt_util.py` 121-125): the function declarations. -/
def Item.fns : List Item → List FnDecl
  | [] => []
  | .fn f :: is => f :: Item.fns is
  | .ax _ :: is => Item.fns is

/-- The first loop of `topological_sort` (`metalift/smt_util.py` 121-125): everything else. -/
def Item.axs : List Item → List Expr
  | [] => []
  | .fn _ :: is => Item.axs is
  | .ax a :: is => a :: Item.axs is

/-- The edges `(used function, using function)` (`metalift/smt_util.py` 127-138). -/
def depEdges (fns : List FnDecl) : List (String × String) :=
  fns.flatMap (fun f =>
    ((dependentFnNames f.body (fns.map FnDecl.name)).filter (fun d => decide (f.name ≠ d))).map
      (fun d => (d, f.name)))

/-- `fn_name_to_decl[n]` (`metalift/smt_util.py` 143): the last declaration with that name. -/
def declOf (fns : List FnDecl) (n : String) : Option FnDecl :=
  fns.reverse.find? (fun f => decide (f.name = n))

/-- `topological_sort` (`metalift/smt_util.py` 113-147).  `topo` is `networkx.topological_sort` applied to the graph with
the given edges (`none`: it raises `NetworkXUnfeasible`) and `setOrder` is the unspecified order in which Python iterates
over `set(all_fn_names) - set(ordered_fn_names)`. -/
def topologicalSort (topo : List (String × String) → Option (List String))
    (setOrder : List String → List String) (items : List Item) : Option (List Item) :=
  let fns := Item.fns items
  match topo (depEdges fns) with
  | none => none
  | some ordered =>
    let independent := setOrder (((fns.map FnDecl.name).eraseDups).filter (fun n => decide (n ∉ ordered)))
    match ordered.mapM (declOf fns), independent.mapM (declOf fns) with
    | some ds, some is => some (ds.map Item.fn ++ is.map Item.fn ++ (Item.axs items).map Item.ax)
    | _, _ => none

end Metalift
