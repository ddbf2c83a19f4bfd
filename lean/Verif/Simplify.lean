import Verif.Typing
/-
Model of structural equality, hashing, `simplify` and `optimize_useless_equality`
(`metalift/ir.py` 303-332, 473-583).
-/
namespace Metalift

/-! ### `__eq__` and `__hash__` -/

/-- `==` on the payloads of two `Lit`s: Python compares `int` and `bool` numerically. -/
def Lit.pyEq : Lit → Lit → Bool
  | .int a, .int b => decide (a = b)
  | .bool a, .bool b => decide (a = b)
  | .int a, .bool b => decide (a = if b then 1 else 0)
  | .bool a, .int b => decide ((if a then 1 else 0) = b)

mutual
/-- `Expr.__eq__` (`metalift/ir.py` 303-323) and, through `Object.__eq__` (811-814), equality of
objects: same class, same number of arguments, equal arguments; types are not compared. -/
def Expr.pyEq : Expr → Expr → Bool
  | .var n _, .var m _ => decide (n = m)
  | .lit a, .lit b => Lit.pyEq a b
  | .node o _ as, .node p _ bs => decide (o = p) && Expr.pyEqs as bs
  | _, _ => false
/-- The loop over `zip(self.args, other.args)` together with the length test. -/
def Expr.pyEqs : List Expr → List Expr → Bool
  | [], [] => true
  | a :: as, b :: bs => Expr.pyEq a b && Expr.pyEqs as bs
  | _, _ => false
end

/-- `Expr.__hash__` (`metalift/ir.py` 331-332): `sorted` of a dictionary yields its keys, so the
hash of every expression is the hash of `("args", "type")`; `h` stands for Python's `hash` on tuples of strings. -/
def Expr.pyHash (h : List String → Int) (_ : Expr) : Int := h ["args", "type"]

/-! ### `simplify` -/

/-- `arg.args[0] == False` for a `Lit` (`metalift/ir.py` 479); `0 == False` in Python. -/
def Lit.eqFalse : Lit → Bool
  | .int i => decide (i = 0)
  | .bool b => !b

/-- The loop over the arguments of an `And` (`metalift/ir.py` 477-482): `none` when a false literal was
met, otherwise the arguments that are not literals. -/
def andFilter : List Expr → Option (List Expr)
  | [] => some []
  | .lit l :: rest => if l.eqFalse then none else andFilter rest
  | e :: rest => (andFilter rest).map (e :: ·)

/-- The part of `simplify` after the arguments were simplified (`metalift/ir.py` 475-491). -/
def simplifyTop (op : Op) (t : Ty) (args : List Expr) : Expr :=
  match op with
  | .and =>
    match andFilter args with
    | none => boolLit false
    | some [] => boolLit true
    | some [e] => e
    | some es => mkAnd es
  | op => .node op t args

mutual
/-- `Expr.simplify` (`metalift/ir.py` 473-491). -/
def Expr.simplify : Expr → Expr
  | .var n t => .var n t
  | .lit l => .lit l
  | .node op t args => simplifyTop op t (Expr.simplifys args)
def Expr.simplifys : List Expr → List Expr
  | [] => []
  | e :: es => Expr.simplify e :: Expr.simplifys es
end

/-! ### `optimize_useless_equality` -/

/-- Python dictionary from names to expressions, in insertion order. -/
abbrev Dict := List (String × Expr)

/-- One equation in `collectKnowledge` (`metalift/ir.py` 513-517 and 521-525): `none` is the
`KeyError` of `del into[...]`. -/
def learn (x : String) (e : Expr) (into : Dict) (conflicts : List String) :
    Option (Dict × List String) :=
  if (into.lookup x).isSome then some (into.filter (fun p => p.1 != x), x :: conflicts)
  else if x ∈ conflicts then none
  else some (into ++ [(x, e)], conflicts)

/-- The `Eq` case of `collectKnowledge` (`metalift/ir.py` 509-525); `ce` is membership in
`constrained_elsewhere`. -/
def collectEq (ce : String → Bool) (args : List Expr) (st : Dict × List String) :
    Option (Dict × List String) :=
  match args with
  | [.var x t, b] =>
    if ce x = false then learn x b st.1 st.2
    else match b with
      | .var y _ => if ce y = false then learn y (.var x t) st.1 st.2 else some st
      | _ => some st
  | [a, .var y _] => if ce y = false then learn y a st.1 st.2 else some st
  | _ => some st

mutual
/-- `Expr.collectKnowledge` (`metalift/ir.py` 503-531). -/
def Expr.collect (ce : String → Bool) : Expr → Dict × List String → Option (Dict × List String)
  | .var _ _, st => some st
  | .lit _, st => some st
  | .node op _ args, st =>
    match op with
    | .eq => collectEq ce args st
    | .and => Expr.collects ce args st
    | _ => some st
def Expr.collects (ce : String → Bool) : List Expr → Dict × List String → Option (Dict × List String)
  | [], st => some st
  | e :: es, st => (Expr.collect ce e st).bind (Expr.collects ce es)
end

mutual
/-- `Expr.rewrite` (`metalift/ir.py` 533-542): parallel substitution. -/
def Expr.rewrite (m : Dict) : Expr → Expr
  | .var n t => (m.lookup n).getD (.var n t)
  | .lit l => .lit l
  | .node op t args => .node op t (Expr.rewrites m args)
def Expr.rewrites (m : Dict) : List Expr → List Expr
  | [] => []
  | e :: es => Expr.rewrite m e :: Expr.rewrites m es
end

/-- `"useless_equality_%d" % k` (`metalift/ir.py` 548). -/
def uname (k : Nat) : String := "useless_equality_" ++ Nat.repr k

/-- Is the expression a `Var`? -/
def Expr.isVar : Expr → Bool
  | .var _ _ => true
  | _ => false

/-- Occurrence counts: `none` when the key is missing. -/
abbrev Counts := String → Option Nat

/-- `count_variable_uses` into an empty dictionary (`metalift/ir.py` 493-501). -/
def Expr.counts (e : Expr) : Counts := fun x => if x ∈ e.vars then some (e.countVar x) else none

/-- Result of the tests in the `Eq` case. -/
inductive EqDec where
  | fresh
  | true
  | keep
  deriving DecidableEq

/-- The tests of the `Eq` case (`metalift/ir.py` 549-557); `none` is the `KeyError` of
`counts[...]`. -/
def eqDec (c : Counts) (a b : Expr) : Option EqDec :=
  match a, b with
  | .var x _, .var y _ =>
    match c x with
    | none => none
    | some 1 => some .fresh
    | some _ =>
      match c y with
      | none => none
      | some 1 => some .fresh
      | some _ => if x = y then some .true else some .keep
  | .var x _, _ =>
    match c x with
    | none => none
    | some 1 => some .fresh
    | some _ => some .keep
  | _, .var y _ =>
    match c y with
    | none => none
    | some 1 => some .fresh
    | some _ => some .keep
  | _, _ => some .keep

/-- The rewriting done for an implication `p => q` (`metalift/ir.py` 559-577); `none` is a
`KeyError`. -/
def impliesRewrites (c : Counts) (p q : Expr) : Option Dict :=
  let self := mkImplies p q
  if self.vars.all (fun x => (c x).isSome) then
    -- constrained_elsewhere: keys of `counts` whose local count differs from the global one
    let ce : String → Bool := fun x =>
      (c x).isSome && !(decide (x ∈ self.vars) && decide (c x = some (self.countVar x)))
    match p.collect ce ([], []) with
    | none => none
    | some (into, _) =>
      some (into.filter (fun xe => xe.2.isVar || !decide (q.countVar xe.1 > 1)))
  else none

/-- Mapping a state-passing function over arguments from left to right (the `new_vars` set is shared by
all recursive calls; only its size matters). -/
def mapSt (f : Nat → Expr → Option (Expr × Nat)) : Nat → List Expr → Option (List Expr × Nat)
  | n, [] => some ([], n)
  | n, e :: es =>
    match f n e with
    | none => none
    | some (e', n1) =>
      match mapSt f n1 es with
      | none => none
      | some (es', n2) => some (e' :: es', n2)

/-- `Expr.optimize_useless_equality` (`metalift/ir.py` 544-583).  `c` is `counts`, `n` is
`len(new_vars)`; the second component of the result is the new size.  The recursion goes into
rewritten arguments, which may be larger than the original ones, so it is bounded by fuel; `none` means an exception or not
finished within the fuel. -/
def opt (c : Counts) : Nat → Nat → Expr → Option (Expr × Nat)
  | 0, _, _ => none
  | k + 1, n, e =>
    match e with
    | .node .eq t [a, b] =>
      match eqDec c a b with
      | none => none
      | some .fresh => some (.var (uname n) .bool, n + 1)
      | some .true => some (boolLit true, n)
      | some .keep =>
        (mapSt (opt c k) n [a, b]).map (fun r => ((Expr.node .eq t r.1).simplify, r.2))
    | .node .implies t [p, q] =>
      match impliesRewrites c p q with
      | none => none
      | some m =>
        (mapSt (opt c k) n [p.rewrite m, q.rewrite m]).map
          (fun r => ((Expr.node .implies t r.1).simplify, r.2))
    | .node op t args =>
      (mapSt (opt c k) n args).map (fun r => ((Expr.node op t r.1).simplify, r.2))
    | e => some (e, n)

/-- The driver loop (`metalift/synthesize_cvc5.py` 253-269, `metalift/synthesize_rosette.py`
575-588): repeat with fresh counts while the result changes; the text comparison through SMT is modelled
by an arbitrary test `same`.  `rounds` bounds the number of iterations. -/
def optLoop (same : Expr → Expr → Bool) (fuel : Nat) : Nat → Nat → Expr → Option (Expr × Nat)
  | 0, _, _ => none
  | r + 1, n, e =>
    match opt e.counts fuel n e with
    | none => none
    | some (e', n') => if same e' e then some (e', n') else optLoop same fuel r n' e'

end Metalift
