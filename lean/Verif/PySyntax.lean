import Verif.Ir
/-
Python's expression syntax and meaning, as far as the text produced by `to_python` (`metalift/ir.py`) and by the NumPy code generator
(`tests/llvm/tenspiler/codegen/numpy_codegen.py`) uses it.

This file is specification: it follows the Python reference manual (section 6, "Expressions"), not the code of Metalift.
-/
namespace Metalift.Py

/-- Comparison operators. -/
inductive CmpOp where
  | eq | lt | le | gt | ge
  deriving DecidableEq, Repr

/-- Binary arithmetic operators. -/
inductive BinOp where
  | add | sub | mul | floordiv | mod | truediv
  deriving DecidableEq, Repr

/-- Tokens.  Blanks only separate tokens; a negative number is two tokens; `attr s` is a dot followed by a name; `assign` is `=`. -/
inductive Tok where
  | name (s : String)
  | num (n : Nat)
  | tru | fls
  | plus | minus | star | slashslash | percent | slash
  | cmp (o : CmpOp)
  | kand | kor | knot | kif | kelse
  | lpar | rpar | lbr | rbr | comma | colon | assign
  | attr (s : String)
  deriving DecidableEq, Repr

/-- Abstract syntax. `starred` occurs only among the items of a list display, `kwarg` only among the arguments of a call; `colSlice a lo hi` is
`a[:, lo:hi]`. -/
inductive Ast where
  | name (s : String)
  | num (n : Nat)
  | bool (b : Bool)
  | neg (a : Ast)
  | bin (o : BinOp) (a b : Ast)
  | cmp (o : CmpOp) (a b : Ast)
  | and (a b : Ast)
  | or (a b : Ast)
  | not (a : Ast)
  | ite (c a b : Ast)
  | call (f : Ast) (args : List Ast)
  | index (a i : Ast)
  | slice (a : Ast) (lo hi : Option Ast)
  | tuple (as : List Ast)
  | list (items : List Ast)
  | starred (a : Ast)
  | attr (a : Ast) (s : String)
  | kwarg (s : String) (a : Ast)
  | colSlice (a lo hi : Ast)

/-! ### Grammar

A recursive-descent parser with one function per group of rules; levels are the precedence levels of the manual, loosest first:
0 conditional expression, 1 `or`, 2 `and`, 3 `not`, 4 comparisons (chained: `a < b < c` is `a < b and b < c`), 5 `+ -`, 6 `* // / %`, 7 unary
minus, 8 calls, subscripts and attributes.  The first argument is fuel; `Parses` below quantifies it away. -/

mutual
/-- Longest expression of the given precedence level at the front of the input. -/
def pLvl : Nat → Nat → List Tok → Option (Ast × List Tok)
  | 0, _, _ => none
  | f + 1, 0, ts => (pLvl f 1 ts).bind fun (a, ts) =>
      match ts with
      | .kif :: ts => (pLvl f 1 ts).bind fun (c, ts) =>
          match ts with
          | .kelse :: ts => (pLvl f 0 ts).bind fun (b, ts) => some (.ite c a b, ts)
          | _ => none
      | ts => some (a, ts)
  | f + 1, 1, ts => (pLvl f 2 ts).bind fun (a, ts) =>
      match ts with
      | .kor :: ts => (pLvl f 1 ts).bind fun (b, ts) => some (.or a b, ts)
      | ts => some (a, ts)
  | f + 1, 2, ts => (pLvl f 3 ts).bind fun (a, ts) =>
      match ts with
      | .kand :: ts => (pLvl f 2 ts).bind fun (b, ts) => some (.and a b, ts)
      | ts => some (a, ts)
  | f + 1, 3, ts =>
      match ts with
      | .knot :: ts => (pLvl f 3 ts).bind fun (a, ts) => some (.not a, ts)
      | ts => pLvl f 4 ts
  | f + 1, 4, ts => (pLvl f 5 ts).bind fun (a, ts) => pChain f a ts
  | f + 1, 5, ts => (pLvl f 6 ts).bind fun (a, ts) => pSum f a ts
  | f + 1, 6, ts => (pLvl f 7 ts).bind fun (a, ts) => pProd f a ts
  | f + 1, 7, ts =>
      match ts with
      | .minus :: ts => (pLvl f 7 ts).bind fun (a, ts) => some (.neg a, ts)
      | ts => pLvl f 8 ts
  | f + 1, 8, ts => (pAtom f ts).bind fun (a, ts) => pTrail f a ts
  | _ + 1, _ + 9, _ => none
/-- Rest of a chain of comparisons whose first operand is `a`. -/
def pChain : Nat → Ast → List Tok → Option (Ast × List Tok)
  | 0, _, _ => none
  | f + 1, a, ts =>
      match ts with
      | .cmp o :: ts => (pLvl f 5 ts).bind fun (b, ts) =>
          match ts with
          | .cmp o' :: ts' => (pChain f b (.cmp o' :: ts')).bind fun (r, ts) => some (.and (.cmp o a b) r, ts)
          | ts => some (.cmp o a b, ts)
      | ts => some (a, ts)
/-- Rest of a left-associative chain of `+` and `-`. -/
def pSum : Nat → Ast → List Tok → Option (Ast × List Tok)
  | 0, _, _ => none
  | f + 1, a, ts =>
      match ts with
      | .plus :: ts => (pLvl f 6 ts).bind fun (b, ts) => pSum f (.bin .add a b) ts
      | .minus :: ts => (pLvl f 6 ts).bind fun (b, ts) => pSum f (.bin .sub a b) ts
      | ts => some (a, ts)
/-- Rest of a left-associative chain of `*`, `//`, `/` and `%`. -/
def pProd : Nat → Ast → List Tok → Option (Ast × List Tok)
  | 0, _, _ => none
  | f + 1, a, ts =>
      match ts with
      | .star :: ts => (pLvl f 7 ts).bind fun (b, ts) => pProd f (.bin .mul a b) ts
      | .slashslash :: ts => (pLvl f 7 ts).bind fun (b, ts) => pProd f (.bin .floordiv a b) ts
      | .percent :: ts => (pLvl f 7 ts).bind fun (b, ts) => pProd f (.bin .mod a b) ts
      | .slash :: ts => (pLvl f 7 ts).bind fun (b, ts) => pProd f (.bin .truediv a b) ts
      | ts => some (a, ts)
/-- Atoms: names, numbers, `True`, `False`, parenthesised expressions, tuples, list displays. -/
def pAtom : Nat → List Tok → Option (Ast × List Tok)
  | 0, _ => none
  | f + 1, ts =>
      match ts with
      | .name s :: ts => some (.name s, ts)
      | .num n :: ts => some (.num n, ts)
      | .tru :: ts => some (.bool true, ts)
      | .fls :: ts => some (.bool false, ts)
      | .lpar :: .rpar :: ts => some (.tuple [], ts)
      | .lpar :: ts => (pLvl f 0 ts).bind fun (a, ts) =>
          match ts with
          | .rpar :: ts => some (a, ts)
          | .comma :: ts => (pArgs f ts).bind fun (as, ts) => some (.tuple (a :: as), ts)
          | _ => none
      | .lbr :: ts => (pItems f ts).bind fun (as, ts) => some (.list as, ts)
      | _ => none
/-- Calls, subscripts and attributes following `a`. -/
def pTrail : Nat → Ast → List Tok → Option (Ast × List Tok)
  | 0, _, _ => none
  | f + 1, a, ts =>
      match ts with
      | .lpar :: ts => (pArgs f ts).bind fun (as, ts) => pTrail f (.call a as) ts
      | .attr s :: ts => pTrail f (.attr a s) ts
      | .lbr :: .colon :: .comma :: ts => (pLvl f 0 ts).bind fun (l, ts) =>
          match ts with
          | .colon :: ts => (pLvl f 0 ts).bind fun (h, ts) =>
              match ts with
              | .rbr :: ts => pTrail f (.colSlice a l h) ts
              | _ => none
          | _ => none
      | .lbr :: .colon :: ts => (pLvl f 0 ts).bind fun (h, ts) =>
          match ts with
          | .rbr :: ts => pTrail f (.slice a none (some h)) ts
          | _ => none
      | .lbr :: ts => (pLvl f 0 ts).bind fun (i, ts) =>
          match ts with
          | .rbr :: ts => pTrail f (.index a i) ts
          | .colon :: .rbr :: ts => pTrail f (.slice a (some i) none) ts
          | .colon :: ts => (pLvl f 0 ts).bind fun (h, ts) =>
              match ts with
              | .rbr :: ts => pTrail f (.slice a (some i) (some h)) ts
              | _ => none
          | _ => none
      | ts => some (a, ts)
/-- Comma-separated expressions and keyword arguments up to and including `)`. -/
def pArgs : Nat → List Tok → Option (List Ast × List Tok)
  | 0, _ => none
  | f + 1, ts =>
      match ts with
      | .rpar :: ts => some ([], ts)
      | .name s :: .assign :: ts => (pLvl f 0 ts).bind fun (a, ts) =>
          match ts with
          | .rpar :: ts => some ([.kwarg s a], ts)
          | .comma :: ts => (pArgs f ts).bind fun (as, ts) => some (.kwarg s a :: as, ts)
          | _ => none
      | ts => (pLvl f 0 ts).bind fun (a, ts) =>
          match ts with
          | .rpar :: ts => some ([a], ts)
          | .comma :: ts => (pArgs f ts).bind fun (as, ts) => some (a :: as, ts)
          | _ => none
/-- Comma-separated list items, possibly starred, up to and including `]`. -/
def pItems : Nat → List Tok → Option (List Ast × List Tok)
  | 0, _ => none
  | f + 1, ts =>
      match ts with
      | .rbr :: ts => some ([], ts)
      | .star :: ts => (pLvl f 5 ts).bind fun (a, ts) =>
          match ts with
          | .rbr :: ts => some ([.starred a], ts)
          | .comma :: ts => (pItems f ts).bind fun (as, ts) => some (.starred a :: as, ts)
          | _ => none
      | ts => (pLvl f 0 ts).bind fun (a, ts) =>
          match ts with
          | .rbr :: ts => some ([a], ts)
          | .comma :: ts => (pItems f ts).bind fun (as, ts) => some (a :: as, ts)
          | _ => none
end

/-- The whole token list is the expression `a`: the parser, given enough fuel, consumes all of it and answers `a`. -/
def Parses (ts : List Tok) (a : Ast) : Prop := ∃ N, ∀ f, N ≤ f → pLvl f 0 ts = some (a, [])

/-- A token list has at most one parse. -/
theorem Parses.unique {ts : List Tok} {a b : Ast} (ha : Parses ts a) (hb : Parses ts b) : a = b := by
  obtain ⟨N, hN⟩ := ha
  obtain ⟨M, hM⟩ := hb
  have h1 := hN (N + M) (by omega)
  have h2 := hM (N + M) (by omega)
  rw [h1] at h2
  injection h2 with h2
  injection h2

/-! ### Meaning -/

mutual
/-- Python's `==`: `True` equals 1, sequences are compared element by element. -/
def valEq : Val → Val → Bool
  | .int a, .int b => decide (a = b)
  | .int a, .bool b => decide (a = if b then 1 else 0)
  | .bool a, .int b => decide ((if a then 1 else 0) = b)
  | .bool a, .bool b => decide (a = b)
  | .list a, .list b => valEqs a b
  | .tuple a, .tuple b => valEqs a b
  | .fn a, .fn b => decide (a = b)
  | _, _ => false
/-- `==` of two sequences. -/
def valEqs : List Val → List Val → Bool
  | [], [] => true
  | a :: as, b :: bs => valEq a b && valEqs as bs
  | _, _ => false
end

/-- `xs[i]`: negative indices count from the end; `none` is `IndexError`. -/
def index (xs : List Val) (i : Int) : Option Val :=
  if 0 ≤ i then xs[i.toNat]? else if 0 ≤ i + xs.length then xs[(i + xs.length).toNat]? else none

/-- A slice bound, after Python's treatment of negative and large values. -/
def bound (n : Nat) (i : Int) : Nat := if 0 ≤ i then min i.toNat n else (i + n).toNat

/-- `xs[lo:hi]`. -/
def slice (xs : List Val) (lo hi : Option Int) : List Val :=
  let l := match lo with | none => 0 | some i => bound xs.length i
  let h := match hi with | none => xs.length | some i => bound xs.length i
  (xs.take h).drop l

/-- Arithmetic on integers, and `+` on lists; division by zero and other operand types are not given a value. -/
def binOp : BinOp → Val → Val → Option Val
  | .add, .int a, .int b => some (.int (a + b))
  | .add, .list a, .list b => some (.list (a ++ b))
  | .sub, .int a, .int b => some (.int (a - b))
  | .mul, .int a, .int b => some (.int (a * b))
  | .floordiv, .int a, .int b => if b = 0 then none else some (.int (Int.fdiv a b))
  | .mod, .int a, .int b => if b = 0 then none else some (.int (Int.fmod a b))
  | _, _, _ => none

/-- Comparisons: `==` on all values, orderings on integers only. -/
def cmpOp : CmpOp → Val → Val → Option Val
  | .eq, a, b => some (.bool (valEq a b))
  | .lt, .int a, .int b => some (.bool (decide (a < b)))
  | .le, .int a, .int b => some (.bool (decide (a ≤ b)))
  | .gt, .int a, .int b => some (.bool (decide (a > b)))
  | .ge, .int a, .int b => some (.bool (decide (a ≥ b)))
  | _, _, _ => none

/-- The integer in a value. -/
def int? : Val → Option Int
  | .int i => some i
  | _ => none

/-- Where names get their meaning: local variables, and functions of the module; a name that is not a local variable denotes the function. `len`
is the built-in. -/
structure Scope where
  loc : String → Option Val
  glob : String → List Val → Option Val

/-- Application of a function value. -/
def Scope.apply (S : Scope) : Val → List Val → Option Val
  | .fn g, vs =>
    if g = "len" then
      match vs with
      | [.list us] => some (.int us.length)
      | _ => none
    else S.glob g vs
  | _, _ => none

mutual
/-- Value of an expression; `none` means that evaluation raises.  Attributes, keyword arguments and `a[:, lo:hi]` do not occur in the text of
`to_python` and are not given a value. -/
def eval (S : Scope) : Ast → Option Val
  | .name x => some ((S.loc x).getD (.fn x))
  | .num n => some (.int n)
  | .bool b => some (.bool b)
  | .neg a => (eval S a).bind fun v => (int? v).bind fun i => some (.int (-i))
  | .bin o a b => (eval S a).bind fun v => (eval S b).bind fun w => binOp o v w
  | .cmp o a b => (eval S a).bind fun v => (eval S b).bind fun w => cmpOp o v w
  | .and a b => (eval S a).bind fun v => if v.asBool then eval S b else some v
  | .or a b => (eval S a).bind fun v => if v.asBool then some v else eval S b
  | .not a => (eval S a).bind fun v => some (.bool (!v.asBool))
  | .ite c a b => (eval S c).bind fun v => if v.asBool then eval S a else eval S b
  | .call f as => (eval S f).bind fun g => (evals S as).bind fun vs => S.apply g vs
  | .index a i => (eval S a).bind fun v => (eval S i).bind fun w =>
      match v, w with
      | .list vs, .int n => Py.index vs n
      | .tuple vs, .int n => Py.index vs n
      | _, _ => none
  | .slice a lo hi => (eval S a).bind fun v => (evalO S lo).bind fun l => (evalO S hi).bind fun h =>
      match v with
      | .list vs => some (.list (Py.slice vs l h))
      | _ => none
  | .tuple as => (evals S as).bind fun vs => some (.tuple vs)
  | .list as => (evalItems S as).bind fun vs => some (.list vs)
  | .starred _ => none
  | .attr _ _ => none
  | .kwarg _ _ => none
  | .colSlice _ _ _ => none
/-- Values of the arguments of a call or tuple display. -/
def evals (S : Scope) : List Ast → Option (List Val)
  | [] => some []
  | a :: as => (eval S a).bind fun v => (evals S as).bind fun vs => some (v :: vs)
/-- Value of a slice bound. -/
def evalO (S : Scope) : Option Ast → Option (Option Int)
  | none => some none
  | some a => (eval S a).bind fun v => (int? v).bind fun i => some (some i)
/-- Elements of a list display. -/
def evalItems (S : Scope) : List Ast → Option (List Val)
  | [] => some []
  | .starred a :: as => (eval S a).bind fun v => (evalItems S as).bind fun vs =>
      match v with
      | .list us => some (us ++ vs)
      | .tuple us => some (us ++ vs)
      | _ => none
  | a :: as => (eval S a).bind fun v => (evalItems S as).bind fun vs => some (v :: vs)
end

end Metalift.Py
