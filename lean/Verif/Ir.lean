/-
Model of the expression part of `metalift/ir.py`.

The Python class hierarchy below `Expr` is represented by one inductive type.  Types are kept where
Python keeps them; metadata is dropped.  `Let`, `Lambda` and `TupleGet` are not represented: the
last two cannot be constructed (their `map_args`/constructors are broken) and the verification conditions never
contain a `Let`.
-/
namespace Metalift

/-- Types of IR objects: `Int`, `Bool`, `List[T]`, `Set[T]`, `Tuple[...]`, `Fn[...]`
(`metalift/ir.py` 841, 911, 1056, 1602, 1692, 1771).  `Matrix[T]`/`Tensor3D[T]` are nested lists. -/
inductive Ty where
  | int
  | bool
  | list (t : Ty)
  | set (t : Ty)
  | tuple (ts : List Ty)
  | fn (ts : List Ty)

/-- The payload of `Lit` (`metalift/ir.py` 1895): an `int` or a `bool`.  String literals
are not modelled. -/
inductive Lit where
  | int (i : Int)
  | bool (b : Bool)
  deriving DecidableEq, Repr

/-- The classes of composite expressions (`metalift/ir.py` 1931-2589, 2751, 2963). -/
inductive Op where
  | add | sub | mul | div | mod
  | eq | lt | le | gt | ge
  | and | or | not | implies | ite
  | tuple | choose
  | call (f : String)
  | callValue
  deriving DecidableEq, Repr

/-- Expressions: `Var` (`metalift/ir.py` 1852), `Lit` (1895), and all composite classes.
The field `args` is Python's `self.args` (without the function name for `Call`). -/
inductive Expr where
  | var (n : String) (t : Ty)
  | lit (l : Lit)
  | node (op : Op) (t : Ty) (args : List Expr)

/-- Runtime values.  Sets are represented by lists. -/
inductive Val where
  | int (i : Int)
  | bool (b : Bool)
  | list (vs : List Val)
  | tuple (vs : List Val)
  | fn (name : String)

/-! ### Decidable equality (nested inductives: written by hand) -/

mutual
/-- Equality test for `Ty`. -/
def Ty.beq : Ty → Ty → Bool
  | .int, .int => true
  | .bool, .bool => true
  | .list a, .list b => Ty.beq a b
  | .set a, .set b => Ty.beq a b
  | .tuple a, .tuple b => Ty.beqs a b
  | .fn a, .fn b => Ty.beqs a b
  | _, _ => false
/-- Equality test for lists of `Ty`. -/
def Ty.beqs : List Ty → List Ty → Bool
  | [], [] => true
  | a :: as, b :: bs => Ty.beq a b && Ty.beqs as bs
  | _, _ => false
end

mutual
theorem Ty.beq_iff : ∀ a b : Ty, Ty.beq a b = true ↔ a = b
  | .int, b => by cases b <;> simp [Ty.beq]
  | .bool, b => by cases b <;> simp [Ty.beq]
  | .list a, b => by cases b <;> simp [Ty.beq]; exact Ty.beq_iff a _
  | .set a, b => by cases b <;> simp [Ty.beq]; exact Ty.beq_iff a _
  | .tuple a, b => by cases b <;> simp [Ty.beq]; exact Ty.beqs_iff a _
  | .fn a, b => by cases b <;> simp [Ty.beq]; exact Ty.beqs_iff a _
theorem Ty.beqs_iff : ∀ a b : List Ty, Ty.beqs a b = true ↔ a = b
  | [], b => by cases b <;> simp [Ty.beqs]
  | a :: as, b => by
    cases b with
    | nil => simp [Ty.beqs]
    | cons b bs => simp [Ty.beqs, Ty.beq_iff a b, Ty.beqs_iff as bs]
end

instance : DecidableEq Ty := fun a b =>
  if h : Ty.beq a b = true then isTrue ((Ty.beq_iff a b).1 h)
  else isFalse (fun e => h ((Ty.beq_iff a b).2 e))

mutual
/-- Equality test for `Val`. -/
def Val.beq : Val → Val → Bool
  | .int a, .int b => decide (a = b)
  | .bool a, .bool b => decide (a = b)
  | .list a, .list b => Val.beqs a b
  | .tuple a, .tuple b => Val.beqs a b
  | .fn a, .fn b => decide (a = b)
  | _, _ => false
/-- Equality test for lists of `Val`. -/
def Val.beqs : List Val → List Val → Bool
  | [], [] => true
  | a :: as, b :: bs => Val.beq a b && Val.beqs as bs
  | _, _ => false
end

mutual
theorem Val.beq_iff : ∀ a b : Val, Val.beq a b = true ↔ a = b
  | .int a, b => by cases b <;> simp [Val.beq]
  | .bool a, b => by cases b <;> simp [Val.beq]
  | .fn a, b => by cases b <;> simp [Val.beq]
  | .list a, b => by cases b <;> simp [Val.beq]; exact Val.beqs_iff a _
  | .tuple a, b => by cases b <;> simp [Val.beq]; exact Val.beqs_iff a _
theorem Val.beqs_iff : ∀ a b : List Val, Val.beqs a b = true ↔ a = b
  | [], b => by cases b <;> simp [Val.beqs]
  | a :: as, b => by
    cases b with
    | nil => simp [Val.beqs]
    | cons b bs => simp [Val.beqs, Val.beq_iff a b, Val.beqs_iff as bs]
end

instance : DecidableEq Val := fun a b =>
  if h : Val.beq a b = true then isTrue ((Val.beq_iff a b).1 h)
  else isFalse (fun e => h ((Val.beq_iff a b).2 e))

mutual
/-- Equality test for `Expr` including types (Lean equality, not Python's `__eq__`). -/
def Expr.beq : Expr → Expr → Bool
  | .var n t, .var m u => decide (n = m) && decide (t = u)
  | .lit a, .lit b => decide (a = b)
  | .node o t as, .node p u bs => decide (o = p) && decide (t = u) && Expr.beqs as bs
  | _, _ => false
/-- Equality test for lists of `Expr`. -/
def Expr.beqs : List Expr → List Expr → Bool
  | [], [] => true
  | a :: as, b :: bs => Expr.beq a b && Expr.beqs as bs
  | _, _ => false
end

mutual
theorem Expr.beq_iff : ∀ a b : Expr, Expr.beq a b = true ↔ a = b
  | .var n t, b => by cases b <;> simp [Expr.beq]
  | .lit a, b => by cases b <;> simp [Expr.beq]
  | .node o t as, b => by
    cases b <;> simp [Expr.beq, and_assoc]
    rename_i p u bs
    rw [Expr.beqs_iff as bs]; simp
theorem Expr.beqs_iff : ∀ a b : List Expr, Expr.beqs a b = true ↔ a = b
  | [], b => by cases b <;> simp [Expr.beqs]
  | a :: as, b => by
    cases b with
    | nil => simp [Expr.beqs]
    | cons b bs => simp [Expr.beqs, Expr.beq_iff a b, Expr.beqs_iff as bs]
end

instance : DecidableEq Expr := fun a b =>
  if h : Expr.beq a b = true then isTrue ((Expr.beq_iff a b).1 h)
  else isFalse (fun e => h ((Expr.beq_iff a b).2 e))

instance : Inhabited Val := ⟨.int 0⟩
instance : Inhabited Expr := ⟨.lit (.bool true)⟩

/-! ### Induction principle -/

mutual
/-- Structural induction on expressions with the hypothesis for every argument. -/
theorem Expr.ind {P : Expr → Prop} (hv : ∀ n t, P (.var n t)) (hl : ∀ l, P (.lit l))
    (hn : ∀ op t args, (∀ a ∈ args, P a) → P (.node op t args)) : ∀ e, P e
  | .var n t => hv n t
  | .lit l => hl l
  | .node op t args => hn op t args (Expr.inds hv hl hn args)
theorem Expr.inds {P : Expr → Prop} (hv : ∀ n t, P (.var n t)) (hl : ∀ l, P (.lit l))
    (hn : ∀ op t args, (∀ a ∈ args, P a) → P (.node op t args)) : ∀ es : List Expr, ∀ a ∈ es, P a
  | [], _, h => nomatch h
  | e :: es, a, h => by
    rcases List.mem_cons.1 h with h | h
    · exact h ▸ Expr.ind hv hl hn e
    · exact Expr.inds hv hl hn es a h
end

/-- Elementwise relation of two lists of the same length. -/
inductive All2 {α β : Type} (R : α → β → Prop) : List α → List β → Prop where
  | nil : All2 R [] []
  | cons {a b as bs} : R a b → All2 R as bs → All2 R (a :: as) (b :: bs)

theorem All2.imp {α β : Type} {R Q : α → β → Prop} (h : ∀ a b, R a b → Q a b) {as : List α}
    {bs : List β} (hab : All2 R as bs) : All2 Q as bs := by
  induction hab with
  | nil => exact .nil
  | cons h1 _ ih => exact .cons (h _ _ h1) ih

/-! ### Meaning of expressions

This is the reference semantics the properties are stated with.  It is total; on ill-typed
operands it follows Python's coercions (`True` is 1, nonzero is true).  Everything the backends
disagree about or that is user defined (functions, division, the choice made for a `Choose`) is a parameter, so
that theorems hold for every backend. -/

/-- Parameters of the semantics. -/
structure Interp where
  fn : String → List Val → Val
  apply : Val → List Val → Val
  idiv : Int → Int → Int
  imod : Int → Int → Int
  choose : List Val → Val

/-- Integer value (booleans count as 0/1 as in Python). -/
def Val.asInt : Val → Int
  | .int i => i
  | .bool true => 1
  | _ => 0

/-- Truth value as in Python. -/
def Val.asBool : Val → Bool
  | .bool b => b
  | .int i => decide (i ≠ 0)
  | .list vs => !vs.isEmpty
  | .tuple vs => !vs.isEmpty
  | .fn _ => true

@[simp] theorem Val.asBool_bool (b : Bool) : (Val.bool b).asBool = b := rfl
@[simp] theorem Val.asInt_int (i : Int) : (Val.int i).asInt = i := rfl

/-- Elements of a list value. -/
def Val.asList : Val → List Val
  | .list vs => vs
  | _ => []

/-- Value of a literal. -/
def Lit.val : Lit → Val
  | .int i => .int i
  | .bool b => .bool b

/-- Meaning of a composite expression from the values of its arguments. -/
def evalOp (I : Interp) : Op → List Val → Val
  | .add, vs => .int (vs.foldl (fun s v => s + v.asInt) 0)
  | .sub, [a, b] => .int (a.asInt - b.asInt)
  | .mul, vs => .int (vs.foldl (fun s v => s * v.asInt) 1)
  | .div, [a, b] => .int (I.idiv a.asInt b.asInt)
  | .mod, [a, b] => .int (I.imod a.asInt b.asInt)
  | .eq, [a, b] => .bool (decide (a = b))
  | .lt, [a, b] => .bool (decide (a.asInt < b.asInt))
  | .le, [a, b] => .bool (decide (a.asInt ≤ b.asInt))
  | .gt, [a, b] => .bool (decide (a.asInt > b.asInt))
  | .ge, [a, b] => .bool (decide (a.asInt ≥ b.asInt))
  | .and, vs => .bool (vs.all Val.asBool)
  | .or, vs => .bool (vs.any Val.asBool)
  | .not, [a] => .bool (!a.asBool)
  | .implies, [a, b] => .bool (!a.asBool || b.asBool)
  | .ite, [c, a, b] => if c.asBool then a else b
  | .tuple, vs => .tuple vs
  | .choose, vs => I.choose vs
  | .call f, vs => I.fn f vs
  | .callValue, v :: vs => I.apply v vs
  | _, _ => .bool false

/-- Environments. -/
abbrev Env := String → Val

mutual
/-- Meaning of an expression. -/
def eval (I : Interp) (ρ : Env) : Expr → Val
  | .var n _ => ρ n
  | .lit l => l.val
  | .node op _ args => evalOp I op (evals I ρ args)
/-- Meaning of a list of expressions. -/
def evals (I : Interp) (ρ : Env) : List Expr → List Val
  | [] => []
  | e :: es => eval I ρ e :: evals I ρ es
end

theorem evals_eq_map (I : Interp) (ρ : Env) (es : List Expr) : evals I ρ es = es.map (eval I ρ) := by
  induction es with
  | nil => rfl
  | cons e es ih => simp [evals, ih]

/-- Truth of an expression. -/
def holds (I : Interp) (ρ : Env) (e : Expr) : Prop := (eval I ρ e).asBool = true

instance (I : Interp) (ρ : Env) (e : Expr) : Decidable (holds I ρ e) := by
  unfold holds; infer_instance

/-- Truth in every environment. -/
def valid (I : Interp) (e : Expr) : Prop := ∀ ρ, holds I ρ e

/-- Update of an environment. -/
def Env.set (ρ : Env) (n : String) (v : Val) : Env := fun m => if m = n then v else ρ m

/-! ### Constructors used by the code -/

/-- `BoolLit` (`metalift/ir.py` 1927-1928). -/
def boolLit (b : Bool) : Expr := .lit (.bool b)
/-- `IntLit` (`metalift/ir.py` 1923-1924). -/
def intLit (i : Int) : Expr := .lit (.int i)
/-- `And(*args)` (`metalift/ir.py` 2232); the constructor raises on an empty list. -/
def mkAnd (args : List Expr) : Expr := .node .and .bool args
/-- `Or(*args)` (`metalift/ir.py` 2259). -/
def mkOr (args : List Expr) : Expr := .node .or .bool args
/-- `Not(e)` (`metalift/ir.py` 2287). -/
def mkNot (e : Expr) : Expr := .node .not .bool [e]
/-- `Implies(a, b)` (`metalift/ir.py` 2311). -/
def mkImplies (a b : Expr) : Expr := .node .implies .bool [a, b]
/-- `Eq(a, b)` (`metalift/ir.py` 2071). -/
def mkEq (a b : Expr) : Expr := .node .eq .bool [a, b]
/-- `Ite(c, a, b)` (`metalift/ir.py` 2333); its type is the type of the branches (given). -/
def mkIte (t : Ty) (c a b : Expr) : Expr := .node .ite t [c, a, b]
/-- `Call(f, type, *args)` (`metalift/ir.py` 2406). -/
def mkCall (f : String) (t : Ty) (args : List Expr) : Expr := .node (.call f) t args

/-- Type of an expression (`Expr.type`). -/
def Expr.ty : Expr → Ty
  | .var _ t => t
  | .lit (.int _) => .int
  | .lit (.bool _) => .bool
  | .node _ t _ => t

/-! ### `map_args` and traversals -/

/-- `Expr.map_args` (`metalift/ir.py` 113-184).  Python also applies `f` to the name of a `Var`,
to the payload of a `Lit` and to the name of a `Call`; every caller in the code base maps non-expressions to
themselves, so these cases are the identity here.  The constructors recompute the node's
type; the model keeps it. -/
def Expr.mapArgs (f : Expr → Expr) : Expr → Expr
  | .var n t => .var n t
  | .lit l => .lit l
  | .node op t args => .node op t (args.map f)

mutual
/-- Number of occurrences of variable `x` (what `count_variable_uses`, `metalift/ir.py` 493-501,
adds to `into[x]`; the key is present iff the count is positive). -/
def Expr.countVar (x : String) : Expr → Nat
  | .var n _ => if n = x then 1 else 0
  | .lit _ => 0
  | .node _ _ args => Expr.countVars x args
def Expr.countVars (x : String) : List Expr → Nat
  | [] => 0
  | e :: es => Expr.countVar x e + Expr.countVars x es
end

mutual
/-- Names of the variables of an expression, in order of occurrence (keys of the dictionary filled
by `count_variable_uses`, with repetitions). -/
def Expr.vars : Expr → List String
  | .var n _ => [n]
  | .lit _ => []
  | .node _ _ args => Expr.varss args
def Expr.varss : List Expr → List String
  | [] => []
  | e :: es => Expr.vars e ++ Expr.varss es
end

theorem Expr.mem_varss {x : String} {es : List Expr} :
    x ∈ Expr.varss es ↔ ∃ e ∈ es, x ∈ e.vars := by
  induction es with
  | nil => simp [Expr.varss]
  | cons e es ih => simp [Expr.varss, ih]

/-- The meaning depends only on the variables occurring in the expression. -/
theorem eval_congr (I : Interp) {ρ σ : Env} : ∀ e : Expr, (∀ x ∈ e.vars, ρ x = σ x) →
    eval I ρ e = eval I σ e := by
  intro e
  induction e using Expr.ind with
  | hv n t => intro h; simpa [eval] using h n (by simp [Expr.vars])
  | hl l => intro _; rfl
  | hn op t args ih =>
    intro h
    simp only [eval, evals_eq_map]
    congr 1
    apply List.map_congr_left
    intro a ha
    exact ih a ha (fun x hx => h x (Expr.mem_varss.2 ⟨a, ha, hx⟩))

end Metalift
