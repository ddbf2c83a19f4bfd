import Verif.SmtSem
import Verif.SymVars
/-
The part of Racket (with Rosette's library) that occurs in `metalift/utils/utils.rkt`, in the files written by
`metalift/rosette_translator.py` and in Rosette's answers: reading of programs and evaluation on concrete values.  Nothing here models code in
/repo; it is the specification side for C53 and C54.
-/
namespace Metalift
namespace Rkt

/-! ### Reading -/

/-- The rest of the text after the first line (`#lang ...`). -/
def afterLine : List Char → List Char
  | [] => []
  | c :: cs => if c = '\n' then cs else afterLine cs

/-- Brackets are parentheses. -/
def paren (c : Char) : Char := if c = '[' then '(' else if c = ']' then ')' else c

/-- The forms of a module (strings with spaces or parentheses, quotations and `|` are not modelled). -/
def readModule (text : String) : Option (List SExpr) :=
  generateAst (String.ofList (Smt.uncomment false ((afterLine text.toList).map paren)))

/-! ### Values and procedures of the language

Racket lists are `Val.list` (pairs that are not lists are not modelled), numbers are integers. -/

def intArgs (vs : List Val) : Option (List Int) := vs.mapM Val.toInt?

def Val.toBool? : Val → Option Bool
  | .bool b => some b
  | _ => none

def boolArgs (vs : List Val) : Option (List Bool) := vs.mapM Val.toBool?

def Val.toList? : Val → Option (List Val)
  | .list vs => some vs
  | _ => none

/-- The index, if it is at most `n`. -/
def index (n : Nat) (i : Int) : Option Nat := if 0 ≤ i ∧ i ≤ n then some i.toNat else none

/-- Comparisons (only with two arguments). -/
def compare (r : Int → Int → Bool) : List Val → Option Val
  | [.int a, .int b] => some (.bool (r a b))
  | _ => none

/-- `(sort l <)`: with at least two elements `<` is called and demands numbers. -/
def sortLt : List Val → Option (List Val)
  | [] => some []
  | [v] => some [v]
  | vs => (intArgs vs).map fun is => (is.mergeSort (· ≤ ·)).map .int

/-- The procedures of Racket and Rosette that are used.  Rosette's `&&`, `!` and `=>` are procedures: all arguments are evaluated, and they
demand booleans.  `assert` gives up unless its argument is true (its result is not used). -/
def builtin : String → Option (List Val → Option Val)
  | "+" => some fun vs => (intArgs vs).map fun is => .int (is.foldl (· + ·) 0)
  | "*" => some fun vs => (intArgs vs).map fun is => .int (is.foldl (· * ·) 1)
  | "-" => some fun vs =>
    match vs with
    | [.int a] => some (.int (-a))
    | [.int a, .int b] => some (.int (a - b))
    | _ => none
  | "quotient" => some fun vs =>
    match vs with
    | [.int a, .int b] => if b = 0 then none else some (.int (a.tdiv b))
    | _ => none
  | "remainder" => some fun vs =>
    match vs with
    | [.int a, .int b] => if b = 0 then none else some (.int (a.tmod b))
    | _ => none
  | "<" => some (compare fun a b => decide (a < b))
  | "<=" => some (compare fun a b => decide (a ≤ b))
  | ">" => some (compare fun a b => decide (a > b))
  | ">=" => some (compare fun a b => decide (a ≥ b))
  | "=" => some (compare fun a b => decide (a = b))
  | "equal?" => some fun vs =>
    match vs with
    | [a, b] => some (.bool (decide (a = b)))
    | _ => none
  | "!" => some fun vs =>
    match vs with
    | [.bool a] => some (.bool !a)
    | _ => none
  | "&&" => some fun vs => (boolArgs vs).map fun bs => .bool (bs.all id)
  | "=>" => some fun vs =>
    match vs with
    | [.bool a, .bool b] => some (.bool (!a || b))
    | _ => none
  | "assert" => some fun vs =>
    match vs with
    | [v] => if v = .bool false then none else some (.bool true)
    | _ => none
  | "length" => some fun vs =>
    match vs with
    | [.list l] => some (.int l.length)
    | _ => none
  | "list-ref" => some fun vs =>
    match vs with
    | [.list l, .int i] => (index l.length i).bind fun k => l[k]?
    | _ => none
  | "list-tail" => some fun vs =>
    match vs with
    | [.list l, .int i] => (index l.length i).map fun k => .list (l.drop k)
    | _ => none
  | "take" => some fun vs =>
    match vs with
    | [.list l, .int i] => (index l.length i).map fun k => .list (l.take k)
    | _ => none
  | "list-set" => some fun vs =>
    match vs with
    | [.list l, .int i, v] => (index l.length i).bind fun k => if k < l.length then some (.list (l.set k v)) else none
    | _ => none
  | "append" => some fun vs => (vs.mapM Val.toList?).map fun ls => .list ls.flatten
  | "list" => some fun vs => some (.list vs)
  | "cons" => some fun vs =>
    match vs with
    | [v, .list l] => some (.list (v :: l))
    | _ => none
  | "car" => some fun vs =>
    match vs with
    | [.list (v :: _)] => some v
    | _ => none
  | "cdr" => some fun vs =>
    match vs with
    | [.list (_ :: l)] => some (.list l)
    | _ => none
  | "list?" => some fun vs =>
    match vs with
    | [.list _] => some (.bool true)
    | [_] => some (.bool false)
    | _ => none
  | "remove-duplicates" => some fun vs =>
    match vs with
    | [.list l] => some (.list l.eraseDups)
    | _ => none
  | _ => none

/-! ### Definitions of functions -/

/-- `(define (name param ...) body)`, `(define (name param ... . rest) body)`, or the same with `define-bounded`. -/
structure RDef where
  name : String
  params : List String
  rest : Option String := none
  body : SExpr
  bounded : Bool := false

/-- The parameters of a definition: names, and possibly `. rest`. -/
def readParams : List SExpr → Option (List String × Option String)
  | [] => some ([], none)
  | [.atom ".", .atom r] => some ([], some r)
  | .atom p :: ps => (readParams ps).map fun q => (p :: q.1, q.2)
  | _ => none

/-- The definition of a function, if the form is one. -/
def readDef : SExpr → Option RDef
  | .list [.atom k, .list (.atom f :: ps), body] =>
    if k = "define" ∨ k = "define-bounded" then
      (readParams ps).map fun q => ⟨f, q.1, q.2, body, k = "define-bounded"⟩
    else none
  | _ => none

/-- Extension of an environment. -/
def bindAll (σ : REnv) : List (String × Val) → REnv
  | [] => σ
  | (x, v) :: bs => fun y => if y = x then some v else bindAll σ bs y

/-- The environment in which the body is evaluated; the number of arguments must be right. -/
def bindArgs : List String → Option String → List Val → Option (List (String × Val))
  | [], none, [] => some []
  | [], some r, vs => some [(r, .list vs)]
  | p :: ps, r, v :: vs => (bindArgs ps r vs).map ((p, v) :: ·)
  | _, _, _ => none

/-! ### Pattern matching -/

/-- The patterns used: a variable, `(list)`, and `(list a as ...)`. -/
def matchPat : SExpr → Val → Option (List (String × Val))
  | .atom x, v => some [(x, v)]
  | .list [.atom "list"], .list [] => some []
  | .list [.atom "list", .atom a, .atom as, .atom "..."], .list (v :: vs) => some [(a, v), (as, .list vs)]
  | _, _ => none

def matchPats : List SExpr → List Val → Option (List (String × Val))
  | [], [] => some []
  | p :: ps, v :: vs => do
    let bs ← matchPat p v
    let cs ← matchPats ps vs
    some (bs ++ cs)
  | _, _ => none

/-- The first clause that matches. -/
def matchClauses : List SExpr → List Val → Option (List (String × Val) × SExpr)
  | .list [.list ps, body] :: cs, vs =>
    match matchPats ps vs with
    | some bs => some (bs, body)
    | none => matchClauses cs vs
  | _, _ => none

/-! ### Evaluation -/

/-- Procedures imported by a module, by the number of steps and the value of the parameter `fuel`. -/
abbrev Imports := Nat → Nat → String → Option (List Val → Option Val)

/-- A module: its functions, its other definitions and what it imports. -/
structure Module where
  defs : List RDef
  globals : REnv := fun _ => none
  imports : Imports

def Module.find (M : Module) (f : String) : Option RDef := M.defs.find? (fun d => d.name == f)

/-- A name or a literal. -/
def evalAtom (M : Module) (σ : REnv) (s : String) : Option Val :=
  if isNumeric s.toList then some (.int (numeral s.toList))
  else if s.toList.head? = some '-' ∧ isNumeric s.toList.tail then some (.int (-(numeral s.toList.tail)))
  else match σ s with
    | some v => some v
    | none =>
      match M.globals s with
      | some v => some v
      | none => if s = "true" ∨ s = "#t" then some (.bool true) else if s = "false" ∨ s = "#f" then some (.bool false) else none

/-- `or`: the first value that is not false. -/
def evalOr (ev : SExpr → Option Val) : List SExpr → Option Val
  | [] => some (.bool false)
  | e :: es => (ev e).bind fun v => if v = .bool false then evalOr ev es else some v

/-- `ormap`. -/
def evalAny (f : Val → Option Val) : List Val → Option Val
  | [] => some (.bool false)
  | v :: vs => (f v).bind fun w => if w = .bool false then evalAny f vs else some w

/-- Application of a defined function.  `define-bounded` (`metalift/utils/bounded.rkt` 6-11) asserts that there is fuel and evaluates the body
with less. -/
def applyDef (ev : Nat → REnv → SExpr → Option Val) (fu : Nat) (d : RDef) (vs : List Val) : Option Val :=
  (bindArgs d.params d.rest vs).bind fun bs =>
    if d.bounded then
      match fu with
      | 0 => none
      | fu + 1 => ev fu (bindAll (fun _ => none) bs) d.body
    else ev fu (bindAll (fun _ => none) bs) d.body

/-- Value of an expression in a module, with at most `n` nested steps, when the parameter `fuel` has the value `fu` and the local variables
have the values `σ`; `none` is an error, a failed assertion, or too few steps.  A name that is a local variable, a function of the module or
another definition of the module hides the language's own meaning of it; data cannot be applied. -/
def rkEval (M : Module) : Nat → Nat → REnv → SExpr → Option Val
  | _, _, σ, .atom s => evalAtom M σ s
  | n + 1, fu, σ, .list (.atom h :: as) =>
    if (σ h).isSome then none
    else match M.find h with
    | some d => (as.mapM (rkEval M n fu σ)).bind (applyDef (rkEval M n) fu d)
    | none =>
      if (M.globals h).isSome then none
      else if h = "if" then
        match as with
        | [c, a, b] => (rkEval M n fu σ c).bind fun v => if v = .bool false then rkEval M n fu σ b else rkEval M n fu σ a
        | _ => none
      else if h = "or" then evalOr (rkEval M n fu σ) as
      else if h = "match*" then
        match as with
        | .list es :: cs => (es.mapM (rkEval M n fu σ)).bind fun vs =>
            (matchClauses cs vs).bind fun r => rkEval M n fu (bindAll σ r.1) r.2
        | _ => none
      else if h = "ormap" then
        match as with
        | [.list [.atom "lambda", .list [.atom x], body], e] => (rkEval M n fu σ e).bind fun v =>
            match v with
            | .list vs => evalAny (fun w => rkEval M n fu (bindAll σ [(x, w)]) body) vs
            | _ => none
        | _ => none
      else if h = "sort" then
        match as with
        | [e, .atom "<"] => (rkEval M n fu σ e).bind fun v =>
            match v with
            | .list vs => (sortLt vs).map .list
            | _ => none
        | _ => none
      else (as.mapM (rkEval M n fu σ)).bind fun vs => (M.imports n fu h).bind fun p => p vs
  | _, _, _, .list _ => none

/-- What a module offers to those that require it (`(provide (all-defined-out))`), on top of the language. -/
def Module.exports (M : Module) : Imports := fun n fu f =>
  match M.find f with
  | some d => some (applyDef (rkEval M n) fu d)
  | none => builtin f

/-! ### More steps change nothing -/

/-- `b` is more defined than `a`. -/
def Le {α : Type} (a b : Option α) : Prop := ∀ v, a = some v → b = some v

theorem Le.refl {α : Type} (a : Option α) : Le a a := fun _ h => h

theorem Le.bind {α β : Type} {a b : Option α} {f g : α → Option β} (h : Le a b) (hf : ∀ x, Le (f x) (g x)) : Le (a.bind f) (b.bind g) := by
  intro v hv
  obtain ⟨x, hx, hv⟩ := Option.bind_eq_some_iff.1 hv
  exact Option.bind_eq_some_iff.2 ⟨x, h x hx, hf x v hv⟩

theorem Le.mapM {f g : SExpr → Option Val} (h : ∀ e, Le (f e) (g e)) : ∀ es : List SExpr, Le (es.mapM f) (es.mapM g)
  | [] => Le.refl _
  | e :: es => by
    simp only [List.mapM_cons]
    exact Le.bind (h e) (fun v => Le.bind (Le.mapM h es) (fun vs => Le.refl _))

theorem Le.evalOr {f g : SExpr → Option Val} (h : ∀ e, Le (f e) (g e)) : ∀ es : List SExpr, Le (evalOr f es) (evalOr g es)
  | [] => Le.refl _
  | e :: es => by
    refine Le.bind (h e) (fun v => ?_)
    split
    · exact Le.evalOr h es
    · exact Le.refl _

theorem Le.evalAny {f g : Val → Option Val} (h : ∀ e, Le (f e) (g e)) : ∀ es : List Val, Le (evalAny f es) (evalAny g es)
  | [] => Le.refl _
  | e :: es => by
    refine Le.bind (h e) (fun v => ?_)
    split
    · exact Le.evalAny h es
    · exact Le.refl _

/-- Imports that give the same results with more steps. -/
def Imports.Mono (P : Imports) : Prop :=
  ∀ n m fu f, n ≤ m → ∀ p, P n fu f = some p → ∃ q, P m fu f = some q ∧ ∀ vs, Le (p vs) (q vs)

theorem Le.applyDef {f g : Nat → REnv → SExpr → Option Val} (h : ∀ fu σ e, Le (f fu σ e) (g fu σ e)) (fu : Nat) (d : RDef) (vs : List Val) :
    Le (applyDef f fu d vs) (applyDef g fu d vs) := by
  refine Le.bind (Le.refl _) (fun bs => ?_)
  cases d.bounded with
  | true => cases fu with
    | zero => exact Le.refl _
    | succ fu => exact h _ _ _
  | false => exact h _ _ _

theorem rkEval_mono {M : Module} (hM : M.imports.Mono) : ∀ (n m : Nat), n ≤ m → ∀ fu σ e, Le (rkEval M n fu σ e) (rkEval M m fu σ e) := by
  intro n
  induction n with
  | zero =>
    intro m _ fu σ e v hv
    cases e with
    | atom s => cases m <;> exact hv
    | list l => simp [rkEval] at hv
  | succ n ih =>
    intro m hm fu σ e
    obtain ⟨m, rfl⟩ : ∃ k, m = k + 1 := ⟨m - 1, by omega⟩
    have ih' := ih m (by omega)
    match e with
    | .atom s => exact Le.refl _
    | .list [] => exact Le.refl _
    | .list (.list l :: as) => exact Le.refl _
    | .list (.atom h :: as) =>
      simp only [rkEval]
      split
      · exact Le.refl _
      · split
        · exact Le.bind (Le.mapM (ih' fu σ) as) (fun vs => Le.applyDef ih' fu _ vs)
        · split
          · exact Le.refl _
          split
          · split
            · refine Le.bind (ih' _ _ _) (fun v => ?_)
              split
              · exact ih' _ _ _
              · exact ih' _ _ _
            · exact Le.refl _
          split
          · exact Le.evalOr (ih' fu σ) as
          split
          · split
            · refine Le.bind (Le.mapM (ih' fu σ) _) (fun vs => Le.bind (Le.refl _) (fun r => ih' _ _ _))
            · exact Le.refl _
          split
          · split
            · refine Le.bind (ih' _ _ _) (fun v => ?_)
              split
              · exact Le.evalAny (fun w => ih' _ _ _) _
              · exact Le.refl _
            · exact Le.refl _
          split
          · split
            · refine Le.bind (ih' _ _ _) (fun v => ?_)
              exact Le.refl _
            · exact Le.refl _
          · refine Le.bind (Le.mapM (ih' fu σ) as) (fun vs v hv => ?_)
            obtain ⟨p, hp, hv⟩ := Option.bind_eq_some_iff.1 hv
            obtain ⟨q, hq, hpq⟩ := hM n m fu h (by omega) p hp
            exact Option.bind_eq_some_iff.2 ⟨q, hq, hpq vs v hv⟩

theorem builtin_mono : Imports.Mono (fun _ _ f => builtin f) := by
  intro n m fu f _ p hp
  exact ⟨p, hp, fun vs => Le.refl _⟩

theorem exports_mono {M : Module} (hM : M.imports.Mono) : M.exports.Mono := by
  intro n m fu f hnm p hp
  simp only [Module.exports] at hp ⊢
  split at hp
  · next d hd =>
    cases hp
    exact ⟨_, rfl, fun vs => Le.applyDef (fun fu σ e => rkEval_mono hM n m hnm fu σ e) fu d vs⟩
  · next hd =>
    exact ⟨p, hp, fun vs => Le.refl _⟩

end Rkt
end Metalift
