import Verif.Gemmini
/-
What the C code means: integers are mathematical, except that an assignment to an element of type `elem_t` converts and the library rounds and saturates;
an access outside of an array, a division by zero and anything that is no C has no meaning.
-/
namespace Metalift.Gem
open Metalift

/-- The machine: the value of `LEN`, the conversion to `elem_t`, the rounding of `tiled_resadd_auto`, the initial contents of the static arrays, and what the two
other functions of the library do. -/
structure Mach where
  len : Nat
  conv : Int → Int
  sat : Int → Int
  stat : String → Nat → Nat → Int
  matmul : (Nat → Nat → Int) → (Nat → Nat → Int) → Nat → Nat → Int
  average : (Nat → Nat → Int) → Int → Int

/-- The arrays of `LEN` rows and `LEN` columns and the integers. -/
structure St where
  arr : String → Option (Nat → Nat → Int)
  sc : String → Option Int

/-- Assign an array, or an integer. -/
def St.setArr (σ : St) (x : String) (A : Nat → Nat → Int) : St := { σ with arr := fun y => if y = x then some A else σ.arr y }
@[inherit_doc St.setArr] def St.setSc (σ : St) (x : String) (i : Int) : St := { σ with sc := fun y => if y = x then some i else σ.sc y }

/-- An operator of C: division and remainder truncate. -/
def COp.run : COp → Int → Int → Option Int
  | .add, a, b => some (a + b)
  | .sub, a, b => some (a - b)
  | .mul, a, b => some (a * b)
  | .div, a, b => if b = 0 then none else some (a.tdiv b)
  | .mod, a, b => if b = 0 then none else some (a.tmod b)

/-- The value of an expression.  The value of a floating-point division is truncated. -/
def cval (M : Mach) (σ : St) : CExp → Option Int
  | .name x => if x = "LEN" then some M.len else σ.sc x
  | .num i => some i
  | .bool _ => none
  | .bin o a b => (cval M σ a).bind fun a => (cval M σ b).bind fun b => o.run a b
  | .fdiv a b => (cval M σ a).bind fun a => (cval M σ b).bind fun b => if b = 0 then none else some (a.tdiv b)
  | .at (.name x) i j => (σ.arr x).bind fun A => (cval M σ i).bind fun i => (cval M σ j).bind fun j =>
      if 0 ≤ i ∧ i < M.len ∧ 0 ≤ j ∧ j < M.len then some (A i.toNat j.toNat) else none
  | .at _ _ _ => none
  | .bad => none

/-- The array with one element changed. -/
def put (A : Nat → Nat → Int) (i j : Nat) (v : Int) : Nat → Nat → Int := fun a b => if a = i ∧ b = j then v else A a b

/-- `x[i][j] = e;` with the values of the loop variables `i` and `j`; `τ` is the state with the loop variables. -/
def assign (M : Mach) (σ τ : St) (x : String) (i j : Nat) (e : CExp) : Option St :=
  (σ.arr x).bind fun A => (cval M τ e).bind fun v => if i < M.len ∧ j < M.len then some (σ.setArr x (put A i j (M.conv v))) else none

/-- `for (int v = i; more; v++) body`.  The body accesses an array at `v`, so that there are at most `LEN` rounds. -/
def loop (more : Nat → St → Option Bool) (body : Nat → St → Option St) : Nat → Nat → St → Option St
  | 0, _, _ => none
  | f + 1, i, σ => (more i σ).bind fun b => if b then (body i σ).bind fun σ => loop more body f (i + 1) σ else some σ

/-- `v < n`, where the text `n` is in the scope of the loop variable. -/
def below (M : Mach) (v : String) (n : CExp) (i : Nat) (σ : St) : Option Bool := (cval M (σ.setSc v i) n).map fun n => decide ((i : Int) < n)

/-- A start value: it is an index. -/
def start (M : Mach) (σ : St) (e : CExp) : Option Nat := (cval M σ e).bind fun i => if 0 ≤ i then some i.toNat else none

/-- `tiled_resadd_auto` for arrays with `LEN` columns: the sum of the scaled elements. -/
def resaddArr (M : Mach) (s t : Int) (A B C : Nat → Nat → Int) (r : Int) : Nat → Nat → Int :=
  fun i j => if (i : Int) < r ∧ j < M.len then M.sat (s * A i j + t * B i j) else C i j

/-- The array that is the value of a text. -/
def arrOf (σ : St) : CExp → Option (Nat → Nat → Int)
  | .name x => σ.arr x
  | _ => none

mutual
/-- Execution of a statement. -/
def exec (M : Mach) : Stm → St → Option St
  | .decl x, σ => some (σ.setArr x (M.stat x))
  | .resadd r c s t a b x, σ => do
    let r ← cval M σ r
    let c ← cval M σ c
    let s ← cval M σ s
    let t ← cval M σ t
    let A ← arrOf σ a
    let B ← arrOf σ b
    let C ← σ.arr x
    guard (0 ≤ r ∧ r ≤ M.len ∧ c = M.len)
    return σ.setArr x (resaddArr M s t A B C r)
  | .for1 n x e, σ => loop (below M "i" n) (fun i σ => assign M σ (σ.setSc "i" i) x i 0 e) (M.len + 1) 0 σ
  | .for2 l n l' n' x e, σ => (start M σ l).bind fun l => loop (below M "i" n) (fun i σ =>
      (start M (σ.setSc "i" i) l').bind fun l' => loop (fun j σ => below M "j" n' j (σ.setSc "i" i))
        (fun j σ => assign M σ ((σ.setSc "i" i).setSc "j" j) x i j e) (M.len + 1) l' σ) (M.len + 1) l σ
  | .scale a _, σ => (arrOf σ a).map fun _ => σ
  | .copy a x, σ => match a with
    | .name y => (σ.arr y).bind fun _ => (σ.arr x).map fun A => σ.setArr y A
    | _ => none
  | .matmul a b x, σ => (arrOf σ a).bind fun A => (arrOf σ b).bind fun B => (σ.arr x).map fun _ => σ.setArr x (M.matmul A B)
  | .average a x n, σ => (arrOf σ a).bind fun A => (cval M σ n).bind fun n => (σ.sc x).map fun _ => σ.setSc x (M.average A n)
  | .times x _, σ => (σ.sc x).map fun v => σ.setSc x (M.conv (v * M.len * M.len))
  | .cond c s t, σ => (cval M σ c).bind fun v => if v = 0 then execs M t σ else execs M s σ
  | .bad, _ => none
/-- Execution of a list of statements. -/
def execs (M : Mach) : List Stm → St → Option St
  | [], σ => some σ
  | s :: ss, σ => (exec M s σ).bind (execs M ss)
end

end Metalift.Gem
