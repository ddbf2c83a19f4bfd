import Verif.RktProg
/-
The meaning of a program file when integers have a fixed number of bits, `(current-bitwidth k)`: symbolic integers are `k` bits wide, and so are all numbers
computed from them (two's complement).  Nothing here models code in /repo; it is the specification side for C54.  Rosette computes with unbounded integers as
long as no symbolic constant is involved; this difference only matters when such numbers have more than `k` bits.
-/
namespace Metalift
namespace Rkt

/-- The integer with the same last `k` bits that a word of `k` bits represents. -/
def wrap (k : Nat) (i : Int) : Int := (i + 2 ^ (k - 1)) % 2 ^ k - 2 ^ (k - 1)

/-- The integers that a word of `k` bits represents. -/
def InBits (k : Nat) (i : Int) : Prop := -(2 ^ (k - 1)) ≤ i ∧ i < 2 ^ (k - 1)

instance (k : Nat) (i : Int) : Decidable (InBits k i) := inferInstanceAs (Decidable (_ ∧ _))

mutual
/-- All numbers in the value. -/
def wrapVal (k : Nat) : Val → Val
  | .int i => .int (wrap k i)
  | .bool b => .bool b
  | .list vs => .list (wrapVals k vs)
  | .tuple vs => .tuple (wrapVals k vs)
  | .fn f => .fn f
def wrapVals (k : Nat) : List Val → List Val
  | [] => []
  | v :: vs => wrapVal k v :: wrapVals k vs
end

mutual
/-- All numbers in the value have `k` bits. -/
def fits (k : Nat) : Val → Bool
  | .int i => decide (InBits k i)
  | .bool _ => true
  | .list vs => fitsAll k vs
  | .tuple vs => fitsAll k vs
  | .fn _ => true
def fitsAll (k : Nat) : List Val → Bool
  | [] => true
  | v :: vs => fits k v && fitsAll k vs
end

/-- Procedures, by name. -/
abbrev Procs := String → Option (List Val → Option Val)

/-- The procedures on words of `k` bits. -/
def builtinBits (k : Nat) : Procs := fun f => (builtin f).map fun p vs => (p (wrapVals k vs)).map (wrapVal k)

/-- The procedures, if no number with more than `k` bits occurs. -/
def builtinFits (k : Nat) : Procs := fun f => (builtin f).map fun p vs => if fitsAll k vs then (p vs).filter (fits k) else none

/-- The library with other procedures of the language. -/
def libWith (B : Procs) : Module := { lib with imports := fun _ _ f => B f }

/-- What a module offers, on top of other procedures of the language. -/
def Module.exportsWith (M : Module) (B : Procs) : Imports := fun n fu f =>
  match M.find f with
  | some d => some (applyDef (rkEval M n) fu d)
  | none => B f

/-- The module that the file defines, with other procedures of the language; compare `runFile`. -/
def runFileWith (B : Procs) (text : List Char) (n : Nat) (σ : String → Val) : Option Module :=
  (readModule (String.ofList text)).bind fun forms =>
    let names := forms.filterMap defined
    if names.Nodup ∧ (∀ x ∈ names, x ∉ imported ∧ x ∉ definingForms) then
      let ds := forms.filterMap readDef
      let imp := (libWith B).exportsWith B
      (runForms ⟨ds, fun _ => none, imp⟩ n σ (fun _ => none) forms).map fun env => ⟨ds, env, imp⟩
    else none

def RunsWith (B : Procs) (text : List Char) (σ : String → Val) (M : Module) : Prop := ∃ n, runFileWith B text n σ = some M

/-- `(verify (assertions))` has no counterexample when integers have `k` bits. -/
def VerifiedBits (k : Nat) (text : List Char) : Prop :=
  (∃ σ M, (∀ x, fits k (σ x) = true) ∧ RunsWith (builtinBits k) text σ M) ∧
    ∀ σ M, (∀ x, fits k (σ x) = true) → RunsWith (builtinBits k) text σ M → Passes M

/-- The number of bits that the form sets, `(current-bitwidth k)`. -/
def readWidth : SExpr → Option Nat
  | .list [.atom "current-bitwidth", .atom k] => if isNumeric k.toList then some (numeral k.toList) else none
  | _ => none

/-- The number of bits that the file sets; `none`: integers are unbounded. -/
def bitwidth (text : List Char) : Option Nat := (readModule (String.ofList text)).bind fun forms => forms.findSome? readWidth

/-- `(verify (assertions))` has no counterexample, with integers as the file demands. -/
def VerifiedAs (text : List Char) : Prop :=
  match bitwidth text with
  | none => Verified text
  | some k => VerifiedBits k text

/-- The variables can have these values, and the asserted condition can be evaluated with them, to true or to false, without a number of more than `k` bits. -/
def Fits (k : Nat) (text : List Char) (vars : List String) (ρ : Env) : Prop :=
  ∃ σ M, (∀ x, fits k (σ x) = true) ∧ RunsWith (builtinFits k) text σ M ∧ (∀ v ∈ vars, M.globals v = some (ρ v)) ∧
    ∃ d x n v, M.find "assertions" = some d ∧ d.body = .list [.atom "assert", x] ∧ rkEval M n 64 (fun _ => none) x = some v

end Rkt
end Metalift
