import Verif.Ir
/-
Model of the symbolic inputs generated for Rosette (`metalift/rosette_translator.py` 33-139) and of the meaning of the generated Racket
definitions.
-/
namespace Metalift

/-- Types of variables.  Unlike `Ty` this keeps `Matrix[T]` (`metalift/ir.py` 1328) and `Tensor3D[T]` (1546) apart from nested `List`s,
because `gen_var` does. -/
inductive VTy where
  | int
  | bool
  | list (t : VTy)
  | set (t : VTy)
  | matrix (t : VTy)
  | tensor3d (t : VTy)
  | tuple (ts : List VTy)
  | fn (ts : List VTy)

/-- The Racket expressions that occur in the generated definitions. -/
inductive RExp where
  /-- a name -/
  | id (s : String)
  /-- `(list e ...)` -/
  | list (es : List RExp)
  /-- `(take e n)` -/
  | take (e : RExp) (n : String)
  /-- `(sort (remove-duplicates e) <)` -/
  | sortDedup (e : RExp)

/-- The generated definitions: `(define-symbolic n integer?)`, `(define-symbolic n boolean?)`, `(define n e)`. -/
inductive RDecl where
  | symInt (n : String)
  | symBool (n : String)
  | define (n : String) (e : RExp)

/-- The result of `gen_var`: what it appends to `decls` and to `vars_all`. -/
abbrev GenResult := Option (List RDecl × List String)

/-- `for t in tmp: gen_var(Var(t, element_type), ...)` (`metalift/rosette_translator.py` 51-52, 69-70, 89-90). -/
def genAll (g : String → GenResult) : List String → GenResult
  | [] => some ([], [])
  | n :: ns => do
    let (ds, cs) ← g n
    let (ds', cs') ← genAll g ns
    return (ds ++ ds', cs ++ cs')

/-- `[v.args[0] + "_BOUNDEDSET-" + str(i) for i in range(k)]` (47-49, 64-67, 87). -/
def slotNames (n : String) (k : Nat) : List String := (List.range k).map fun i => n ++ "_BOUNDEDSET-" ++ i.repr

/-- `v.args[0] + "_BOUNDEDSET-len"` (44, 61, 85). -/
def lenName (n : String) : String := n ++ "_BOUNDEDSET-len"

/-- `(list {' '.join(tmp[i : i + list_bound])})` (54, 77). -/
def rowExp (tmp : List String) (i b : Nat) : RExp := .list (((tmp.drop i).take b).map .id)

/-- `range(0, stop, step)`; a zero step raises `ValueError`. -/
def pyRange (stop step : Nat) : Option (List Nat) :=
  if step = 0 then none else some ((List.range ((stop + step - 1) / step)).map (· * step))

/-- The three container cases of `gen_var` share: declare the length, declare `k` slots, define the variable. -/
def genContainer (g : String → GenResult) (n : String) (k : Nat) (define : List String → Option RExp) : GenResult := do
  let tmp := slotNames n k
  let (ds, cs) ← genAll g tmp
  let e ← define tmp
  return (.symInt (lenName n) :: (ds ++ [.define n e]), lenName n :: cs)

/-- `gen_var` (`metalift/rosette_translator.py` 33-128), by the type of the variable; `b` is `list_bound`.  For a tuple type
`typing.get_args(Tuple[tuple[...]])` is the single builtin type `tuple[...]`, for which the recursive call raises; for a function type
`gen_var` raises ("Unknown type").  No type has a `name` attribute, so the `Map` case (111-126) is never taken. -/
def genVar (b : Nat) : VTy → String → GenResult
  | .int, n => some ([.symInt n], [n])
  | .bool, n => some ([.symBool n], [n])
  | .matrix t, n => genContainer (genVar b t) n (b * b) fun tmp => do
      let starts ← pyRange (tmp.length - 1) b
      return .take (.list (starts.map fun i => rowExp tmp i b)) (lenName n)
  | .tensor3d t, n => genContainer (genVar b t) n (b * b * b) fun tmp =>
      some (.take (.list ((List.range b).map fun i => .list ((List.range b).map fun j => rowExp tmp (i * b * b + j * b) b))) (lenName n))
  | .list t, n => genContainer (genVar b t) n b fun tmp => some (.take (.list ((tmp.take b).map .id)) (lenName n))
  | .set t, n => genContainer (genVar b t) n b fun tmp => some (.sortDedup (.take (.list ((tmp.take b).map .id)) (lenName n)))
  | .tuple _, _ => none
  | .fn _, _ => none

/-- The loop of `generate_vars` (136-137). -/
def genVars (b : Nat) : List (String × VTy) → GenResult
  | [] => some ([], [])
  | (n, t) :: vs => do
    let (ds, cs) ← genVar b t n
    let (ds', cs') ← genVars b vs
    return (ds ++ ds', cs ++ cs')

/-- `generate_vars` (131-139): the variables, in any order, are sorted by name. -/
def generateVars (vars : List (String × VTy)) (b : Nat) : GenResult :=
  genVars b (vars.mergeSort fun v w => decide (v.1 ≤ w.1))

/-! ### Meaning of the definitions in Racket -/

/-- The defined names. -/
abbrev REnv := String → Option Val

/-- The integer, if it is one. -/
def Val.toInt? : Val → Option Int
  | .int i => some i
  | _ => none

/-- Racket's `sort` with `<`, after `remove-duplicates`: with at least two elements `<` is called and demands numbers. -/
def sortVals (vs : List Val) : Option (List Val) :=
  match vs.eraseDups with
  | [] => some []
  | [v] => some [v]
  | us => (us.mapM Val.toInt?).map fun is => (is.mergeSort (· ≤ ·)).map .int

mutual
/-- Value of an expression; `none` is an error (in Rosette: a path on which the definition fails).  `take` demands a number between zero
and the length. -/
def RExp.eval (env : REnv) : RExp → Option Val
  | .id s => env s
  | .list es => (RExp.evals env es).map .list
  | .take e n => do
    match ← RExp.eval env e, ← env n with
    | .list vs, .int k => if 0 ≤ k ∧ k ≤ vs.length then some (.list (vs.take k.toNat)) else none
    | _, _ => none
  | .sortDedup e => do
    match ← RExp.eval env e with
    | .list vs => (sortVals vs).map .list
    | _ => none
/-- Values of expressions. -/
def RExp.evals (env : REnv) : List RExp → Option (List Val)
  | [] => some []
  | e :: es => do
    let v ← RExp.eval env e
    let vs ← RExp.evals env es
    return v :: vs
end

/-- The name defined. -/
def RDecl.name : RDecl → String
  | .symInt n => n
  | .symBool n => n
  | .define n _ => n

/-- The value given to the name, when the symbolic constants have the values `σ`. -/
def RDecl.value (σ : String → Val) (env : REnv) : RDecl → Option Val
  | .symInt n => match σ n with | .int i => some (.int i) | _ => none
  | .symBool n => match σ n with | .bool i => some (.bool i) | _ => none
  | .define _ e => e.eval env

/-- Run the definitions in order; a second definition of a name is an error. -/
def runDecls (σ : String → Val) : REnv → List RDecl → Option REnv
  | env, [] => some env
  | env, d :: ds =>
    if (env d.name).isSome then none
    else (d.value σ env).bind fun v => runDecls σ (fun m => if m = d.name then some v else env m) ds

end Metalift
