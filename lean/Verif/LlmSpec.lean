import Verif.LlmPy
import Verif.PSmtQuery
import Verif.PListObj
/-
Specification for C55: what is required of a solution, and what it means that IR functions are what the Python functions are.
-/
namespace Metalift
namespace Llm
open Smt (OfTy OfTys)

/-! ### Guards -/

mutual
/-- The names that occur, with their types; a lambda expression has none (see `plain`). -/
def names : Node → List (String × MTy)
  | .name x t => [(x, t)]
  | .call _ args _ _ => namess args
  | .op _ l r => names l ++ names r
  | .unary _ e => names e
  | .list es _ => namess es
  | .cond c a b => names c ++ (names a ++ names b)
  | .compare _ es => namess es
  | .index b i => names b ++ names i
  | .slice b lo hi st => names b ++ (names lo ++ (names hi ++ names st))
  | _ => []
@[inherit_doc names] def namess : List Node → List (String × MTy)
  | [] => []
  | n :: ns => names n ++ namess ns
end

mutual
/-- The functions that are called, also in lambda expressions. -/
def callees : Node → List String
  | .call f args _ _ => f :: calleess args
  | .op _ l r => callees l ++ callees r
  | .unary _ e => callees e
  | .list es _ => calleess es
  | .cond c a b => callees c ++ (callees a ++ callees b)
  | .compare _ es => calleess es
  | .index b i => callees b ++ callees i
  | .slice b lo hi st => callees b ++ (callees lo ++ (callees hi ++ callees st))
  | .lambda _ b _ => callees b
  | _ => []
@[inherit_doc callees] def calleess : List Node → List String
  | [] => []
  | n :: ns => callees n ++ calleess ns
end

mutual
/-- The parameters of lambda expressions. -/
def lamParams : Node → List String
  | .call _ args _ _ => lamParamss args
  | .op _ l r => lamParams l ++ lamParams r
  | .unary _ e => lamParams e
  | .list es _ => lamParamss es
  | .cond c a b => lamParams c ++ (lamParams a ++ lamParams b)
  | .compare _ es => lamParamss es
  | .index b i => lamParams b ++ lamParams i
  | .slice b lo hi st => lamParams b ++ (lamParams lo ++ (lamParams hi ++ lamParams st))
  | .lambda ps b _ => ps ++ lamParams b
  | _ => []
@[inherit_doc lamParams] def lamParamss : List Node → List String
  | [] => []
  | n :: ns => lamParams n ++ lamParamss ns
end

/-- The names are among the parameters and have the types of the parameters. -/
def closedIn (ps : List String) (ts : List MTy) (ns : List (String × MTy)) : Bool :=
  ns.all fun p => decide (((ps.zip ts).lookup p.1).map irTy = some (irTy p.2))

/-- The types of the parameters of a function. -/
def MTy.args : MTy → List MTy
  | .callable _ as => as
  | _ => []

mutual
/-- What the translation keeps: no keywords, no non-empty list displays, no true division, no steps, no `True` and `False`; lambda expressions do not use
variables of the function and do not call their parameters. -/
def plain : Node → Bool
  | .name x _ => decide (x ≠ "True") && decide (x ≠ "False")
  | .call _ args kws _ => plains args && kws.all Option.isNone && decide (kws.length = args.length)
  | .op o l r => decide (o ≠ "/") && plain l && plain r
  | .unary _ e => plain e
  | .list es _ => es.isEmpty
  | .cond c a b => plain c && plain a && plain b
  | .compare _ es => plains es
  | .index b i => plain b && plain i
  | .slice b lo hi st => plain b && plain lo && plain hi && (match st with | .absent => true | _ => false)
  | .lambda ps b t => plain b && closedIn ps t.args (names b) && (callees b).all (fun f => !ps.contains f) && decide ps.Nodup
  | _ => true
@[inherit_doc plain] def plains : List Node → Bool
  | [] => true
  | n :: ns => plain n && plains ns
end

/-! ### What is assumed of the interpretation -/

/-- The value of the IR stands for the value of Python: equal data of the type; for functions, the function returns what the Python function returns. -/
def Rel (I : Interp) (t : Ty) : PV → Val → Prop
  | .v a, v => a = v ∧ OfTy t a
  | .f c, v => ∃ r ts, t = .fn (r :: ts) ∧ ∀ vs, OfTys ts vs → ∀ w, c vs = some w → I.apply v vs = w ∧ OfTy r w
  | .q _, _ => False

/-- The same for arguments; an argument without a type stands for nothing. -/
def Rels (I : Interp) : List (Option Ty) → List PV → List Val → Prop
  | [], [], [] => True
  | some t :: ts, p :: ps, v :: vs => Rel I t p v ∧ Rels I ts ps vs
  | _, _, _ => False

/-- The function means what it means in Python. -/
def AgreesAt (I : Interp) (sigs : FnSigs) (G : Globals) (f : String) : Prop :=
  ∀ s, sigs.lookup f = some s → f ≠ "len" → ∀ ps vs, Rels I s.args ps vs → ∀ w, G.call f ps = some w → I.fn f vs = w ∧ OfTy s.ret w

/-- The functions with signatures mean what they mean in Python. -/
def Agrees (I : Interp) (sigs : FnSigs) (G : Globals) : Prop := ∀ f, AgreesAt I sigs G f

/-- The environment of the body of a function: parameters, and names of functions. -/
def fnEnv (ps : List String) (vs : List Val) : Env := fun x => ((ps.zip vs).lookup x).getD (.fn x)

/-- The interpretation satisfies the equation of the function. -/
def DeclHolds (I : Interp) (d : FnDecl) : Prop :=
  ∀ vs, OfTys (d.params.map Prod.snd) vs → ∀ b, d.body = some b → I.fn d.name vs = eval I (fnEnv (d.params.map Prod.fst) vs) b

/-- The operations that are built in. -/
structure Builtin (I : Interp) : Prop where
  lists : ListPrims I
  idiv : ∀ a b, 0 ≤ a → 0 < b → I.idiv a b = a / b
  imod : ∀ a b, 0 ≤ a → 0 < b → I.imod a b = a % b
  apply : ∀ g vs, I.apply (.fn g) vs = I.fn g vs

/-- The body of the function has the type the function returns. -/
def BodyTyped (d : FnDecl) : Prop := ∀ b, d.body = some b → b.ty = d.ret

/-! ### What is required of a solution -/

/-- The expression a function returns. -/
def bodyExpr : List Stmt → Option Node
  | [.ret e] => some e
  | [.assign [.name _ _] e, .ret (.name _ _)] => some e
  | _ => none

/-- Not a function. -/
def dataTy : MTy → Bool
  | .callable _ _ => false
  | _ => true

/-- What is required of a function of the solution: its expression is `plain`, uses the parameters with their types, and calls no parameter; the
parameters are data; no function that was generated has the name of a parameter; the functions of the solution that it calls have their parameters in
alphabetical order. -/
def okDef (targets : List FuncDef) (decls : List FnDecl) (d : FuncDef) : Bool :=
  match bodyExpr d.body with
  | none => false
  | some e => plain e && closedIn d.params d.args (names e) && (callees e).all (fun f => !d.params.contains f) && decide d.params.Nodup &&
      decide (d.params.length = d.args.length) && d.args.all dataTy && decls.all (fun D => !d.params.contains D.name && !(lamParams e).contains D.name) &&
      targets.all (fun c => !(callees e).contains c.name || decide (c.params.Pairwise (· ≤ ·)))

end Llm
end Metalift
