import Verif.FnEval
/-
Model of the removal of function parameters for SMT (`metalift/smt_util.py` 11-99, 150-303, 330-455).
-/
namespace Metalift

/-- `is_fn_decl_type` (`metalift/ir.py` 94-98). -/
def Ty.isFn : Ty → Bool
  | .fn _ => true
  | _ => false

/-- `filter_args` (`metalift/smt_util.py` 150-155). -/
def filterArgs (ps : List (String × Ty)) : List (String × Ty) := ps.filter (fun p => !p.2.isFn)

mutual
/-- `filter_fn_args` (`metalift/smt_util.py` 158-168). -/
def filterFnArgs : Expr → Expr
  | .var n t => .var n t
  | .lit l => .lit l
  | .node (.call f) t args => .node (.call f) t (filterFnArgsDrop args)
  | .node op t args => .node op t (filterFnArgsMap args)
/-- The loop dropping function arguments. -/
def filterFnArgsDrop : List Expr → List Expr
  | [] => []
  | a :: as => if a.ty.isFn then filterFnArgsDrop as else filterFnArgs a :: filterFnArgsDrop as
/-- `map_args(filter_fn_args)`. -/
def filterFnArgsMap : List Expr → List Expr
  | [] => []
  | a :: as => filterFnArgs a :: filterFnArgsMap as
end

mutual
/-- `replace_fn_name` (`metalift/smt_util.py` 171-192). -/
def replaceFnName (new old : String) : Expr → Expr
  | .var n t => .var n t
  | .lit l => .lit l
  | .node (.call f) t args => .node (.call (if f = old then new else f)) t (replaceFnNames new old args)
  | .node op t args => .node op t (replaceFnNames new old args)
def replaceFnNames (new old : String) : List Expr → List Expr
  | [] => []
  | a :: as => replaceFnName new old a :: replaceFnNames new old as
end

mutual
/-- `augment_arguments` (`metalift/smt_util.py` 195-226). -/
def augmentArguments (f : String) (new : List Expr) (start : Nat) : Expr → Expr
  | .var n t => .var n t
  | .lit l => .lit l
  | .node (.call g) t args =>
    let as := augmentArgumentss f new start args
    .node (.call g) t (if g = f then as.take start ++ new ++ as.drop start else as)
  | .node op t args => .node op t (augmentArgumentss f new start args)
def augmentArgumentss (f : String) (new : List Expr) (start : Nat) : List Expr → List Expr
  | [] => []
  | a :: as => augmentArguments f new start a :: augmentArgumentss f new start as
end

/-- `is_fn_decl_type(arg.type) and arg.name() == in_call` (`metalift/smt_util.py` 238).  Expressions of function type
are variables. -/
def isFnArg (inCall : String) : Expr → Bool
  | .var n t => t.isFn && decide (n = inCall)
  | _ => false

mutual
/-- `replace_fn_name_with_in_call` (`metalift/smt_util.py` 229-256). -/
def replaceInCall (new old inCall : String) : Expr → Expr
  | .var n t => .var n t
  | .lit l => .lit l
  | .node (.call f) t args =>
    .node (.call (if f = old && args.any (isFnArg inCall) then new else f)) t (replaceInCalls new old inCall args)
  | .node op t args => .node op t (replaceInCalls new old inCall args)
def replaceInCalls (new old inCall : String) : List Expr → List Expr
  | [] => []
  | a :: as => replaceInCall new old inCall a :: replaceInCalls new old inCall as
end

mutual
/-- `filter_body` (`metalift/smt_util.py` 259-303); `none`: raises. -/
def filterBody (new old : String) (inCall : Option String) : Expr → Option Expr
  | .var n t => some (.var n t)
  | .lit l => some (.lit l)
  | .node (.call f) t args =>
    (filterBodyDrop new old inCall args).map (.node (.call (if old = f then new else f)) t)
  | .node .callValue _ [] => none
  | .node .callValue t (_ :: args) =>
    match inCall, filterBodyMap new old inCall args with
    | some g, some as => some (.node (.call g) t as)
    | _, _ => none
  | .node op t args => (filterBodyMap new old inCall args).map (.node op t)
/-- The loop of the `Call` case. -/
def filterBodyDrop (new old : String) (inCall : Option String) : List Expr → Option (List Expr)
  | [] => some []
  | a :: as =>
    if a.ty.isFn then filterBodyDrop new old inCall as
    else (filterBody new old inCall a).bind (fun b => (filterBodyDrop new old inCall as).map (b :: ·))
/-- The loop over all arguments. -/
def filterBodyMap (new old : String) (inCall : Option String) : List Expr → Option (List Expr)
  | [] => some []
  | a :: as => (filterBody new old inCall a).bind (fun b => (filterBodyMap new old inCall as).map (b :: ·))
end

/-- The copy of `t` made in the first round for the function `g` passed to it (`metalift/smt_util.py` 350-378). -/
def specialise (t : FnDecl) (g : String) : Option FnDecl :=
  match t.body with
  | none => none
  | some b =>
    (filterBody (t.name ++ "_" ++ g) t.name (some g) b).map (fun b' =>
      { name := t.name ++ "_" ++ g, ret := t.ret, params := filterArgs t.params, body := some b', recursive := t.recursive })

/-- One caller of a specialised function in the second round (`metalift/smt_util.py` 412-453): `old` was specialised to
`new`. -/
def specialiseCaller (t : FnDecl) (new old : String) : Option FnDecl :=
  match t.body with
  | none => none
  | some b =>
    (filterBody new old none b).bind (fun b1 =>
      (filterBody (t.name ++ "_" ++ new) t.name none b1).map (fun b2 =>
        { name := t.name ++ "_" ++ new, ret := t.ret, params := filterArgs t.params, body := some b2,
          recursive := t.recursive }))

/-- The loop over the target language for one renamed function (`metalift/smt_util.py` 412-453).  `new_fn_name` is
assigned inside the loop (426), so every later caller sees the name made for the caller before it. -/
def callerLoop (old : String) (callers : List String) : String → List FnDecl → Option (List FnDecl)
  | _, [] => some []
  | new, t :: ts =>
    if t.name ∈ callers then
      (specialiseCaller t new old).bind (fun d => (callerLoop old callers (t.name ++ "_" ++ new) ts).map (d :: ·))
    else callerLoop old callers new ts

mutual
/-- Names of the functions called (`get_fn_direct_calls`, `metalift/smt_util.py` 16-28). -/
def Expr.callNames : Expr → List String
  | .var _ _ => []
  | .lit _ => []
  | .node (.call f) _ args => f :: Expr.callNamess args
  | .node _ _ args => Expr.callNamess args
def Expr.callNamess : List Expr → List String
  | [] => []
  | e :: es => Expr.callNames e ++ Expr.callNamess es
end

/-- `get_direct_calls(fns)[f]` (`metalift/smt_util.py` 11-35): the functions other than `f` that call `f`. -/
def directCallers (fns : List FnDecl) (f : String) : List String :=
  (fns.filter (fun d => decide (d.name ≠ f) &&
    (match d.body with
     | none => false
     | some b => decide (f ∈ b.callNames)))).map FnDecl.name

mutual
/-- Number of times `get_fn_direct_in_calls` (`metalift/smt_util.py` 50-80) appends `(fn, in_call)` while visiting an expression, as the
list of the names `fn` it appends.  In the `Call` case the children of every argument are visited once through the loop (65-73)
and all arguments are visited again at the end (76-83). -/
def inCallNames (fn : String) : Expr → List String
  | .var _ _ => []
  | .lit _ => []
  | .node (.call f) _ args =>
    inCallChildren f args ++ inCallNamess (if args.any (fun a => a.ty.isFn) then f else fn) args
  | .node .callValue _ args => fn :: inCallNamess fn args
  | .node _ _ args => inCallNamess fn args
def inCallNamess (fn : String) : List Expr → List String
  | [] => []
  | e :: es => inCallNames fn e ++ inCallNamess fn es
/-- `for arg in expr.arguments(): arg.map_args(...)`. -/
def inCallChildren (f : String) : List Expr → List String
  | [] => []
  | .node _ _ args :: es => inCallNamess f args ++ inCallChildren f es
  | _ :: es => inCallChildren f es
end

/-- `get_direct_in_calls` (`metalift/smt_util.py` 38-99); the sets of `in_calls` are iterated in list order. -/
def directInCalls (fns : List FnDecl) (inCalls : List (String × String)) : List (String × String) :=
  fns.flatMap (fun d =>
    (((inCalls.filter (fun p => decide (p.1 = d.name))).map Prod.snd).eraseDups).flatMap (fun g =>
      match d.body with
      | none => []
      | some b => (inCallNames d.name b).map (fun f => (f, g))))

/-- The function definitions produced by the first round of `toSMT` (`metalift/smt_util.py` 340-378). -/
def firstRound (fns : List FnDecl) (inCalls : List (String × String)) (fnCalls : List String) : Option (List FnDecl) :=
  (fns.filter (fun t => decide (t.name ∈ fnCalls))).foldr (fun t acc =>
    acc.bind (fun rest =>
      (((directInCalls fns inCalls).filter (fun i => decide (i.1 = t.name))).mapM (fun i => specialise t i.2)).map
        (· ++ rest))) (some [])

end Metalift
