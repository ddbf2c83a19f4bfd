import Verif.Gaudi
/-
C77: how Gaudi runs a kernel.

All modelled instructions but `reduce` work lane by lane, so a lane has its own values of the variables; a scalar has the same value in all lanes.  A variable has a type; an
instruction whose operands do not have the type it needs is not accepted (`none`).  The machine is arbitrary except that a type keeps the values in its range (`Mach.Ok`):
what happens to other values (wrap-around or saturation) is left open.  Floating point is not modelled.
-/
namespace Metalift.Gaudi
open Metalift

/-- The values of a type.  Of the two vectors of an `int128` the first is used, which holds the 32 lower bits. -/
def BT.fits : BT → Int → Prop
  | .uchar256, v | .uint8, v => 0 ≤ v ∧ v < 256
  | .uint256, v => 0 ≤ v ∧ v < 4294967296
  | .int64, v | .int128, v | .int32, v => -2147483648 ≤ v ∧ v < 2147483648
  | _, _ => False

/-- What a machine makes of the exact result of an instruction with a result of the type. -/
structure Mach where
  fit : BT → Int → Int
/-- It keeps the values of the type. -/
def Mach.Ok (M : Mach) : Prop := ∀ t v, t.fits v → M.fit t v = v

/-- The variables of a lane with their types and values. -/
abbrev Lane := List (String × BT × Int)

/-- What a lane sees of the parameters: the scalars and the elements of the tensors at its place. -/
structure Seen where
  sc : String → Option Int
  tn : String → Option Int

/-- The names in a right-hand side. -/
def Rhs.names : Rhs → List String
  | .ld x | .nm x | .v1 x | .conv x _ _ => [x]
  | .lit _ => []
  | .vec _ a b | .prim _ a b => [a, b]
  | .sel _ a b x y => [a, b, x, y]
  | .reduce a => [a, "sum"]

/-- The operators. -/
def VOp.run : VOp → Int → Int → Int
  | .add => (· + ·)
  | .sub => (· - ·)
  | .mul => (· * ·)
/-- The operators of C; the quotient is rounded to zero. -/
def COp.run : COp → Int → Int → Int
  | .add => (· + ·)
  | .sub => (· - ·)
  | .mul => (· * ·)
  | .div => Int.tdiv
  | .mod => Int.tmod
/-- The comparisons. -/
def Cmp.run : Cmp → Int → Int → Bool
  | .gt, a, b => decide (a > b)
  | .eq, a, b => decide (a = b)
  | .lt, a, b => decide (a < b)
  | .le, a, b => decide (a ≤ b)
  | .ge, a, b => decide (a ≥ b)

/-- The type of the results of the vector instructions of TPC-C: `v_u8_mul_b` yields `uint256` and `v_i32_mul_b` yields `int128`, whose elements are wider than those of the operands, the others yield the type
of their operands.  Independent of the generator's own table. -/
def insTy (d : DT) (o : VOp) : BT :=
  if o = .mul ∧ d = .u8 then .uint256 else if o = .mul ∧ d = .i32 then .int128 else vecTy d

/-- The exact value of a right-hand side that is assigned to a variable of type `t`; `look` yields the local variables, which hide the parameters. -/
def evalRhs (d : DT) (look : String → Option (BT × Int)) (P : Seen) (t : BT) : Rhs → Option Int
  | .ld x => if t = vecTy d ∧ look x = none then P.tn x else none
  | .nm x =>
    match look x with
    | some (s, v) => if s.prim ∨ s = t then some v else none
    | none => P.sc x
  | .lit (.int i) => some i
  | .lit (.bool _) => none
  | .vec o a b =>
    match look a, look b with
    | some (s, v), some (s', w) => if s = vecTy d ∧ s' = vecTy d ∧ t = insTy d o ∧ d ≠ .f32 then some (o.run v w) else none
    | _, _ => none
  | .prim o a b =>
    match look a, look b with
    | some (s, v), some (s', w) =>
      if s = .uint8 ∧ s' = .uint8 ∧ t = .uint8 ∧ ¬ ((o = .div ∨ o = .mod) ∧ w = 0) then some (o.run v w) else none
    | _, _ => none
  | .v1 a =>
    match look a with
    | some (s, v) => if s = .int128 ∧ t = .int64 then some v else none
    | none => none
  | .conv a s t' =>
    match look a with
    | some (s', v) => if s' = s ∧ t' = t ∧ s = .uint256 ∧ t = .uchar256 then some v else none
    | none => none
  | .sel c a b x y =>
    match look a, look b, look x, look y with
    | some (s, v), some (s', w), some (p, u), some (q, z) =>
      if s = vecTy d ∧ s' = vecTy d ∧ p = vecTy d ∧ q = vecTy d ∧ t = vecTy d ∧ d ≠ .f32 then some (if c.run v w then u else z) else none
    | _, _, _, _ => none
  | .reduce _ => none

/-- An instruction in a lane: a declaration of a new variable, which is not initialised on its own right-hand side. -/
def step (M : Mach) (d : DT) (P : Seen) (l : Lane) (I : Instr) : Option Lane :=
  match I.ty with
  | none => none
  | some t =>
    if I.dest ∈ l.map Prod.fst ∨ I.dest ∈ I.rhs.names then none
    else (evalRhs d (fun x => List.lookup x l) P t I.rhs).map fun v => (I.dest, t, M.fit t v) :: l

/-- A lane runs the body of the loop. -/
def runLane (M : Mach) (d : DT) (P : Seen) : List Instr → Lane → Option Lane
  | [], l => some l
  | I :: is, l => (step M d P l I).bind (runLane M d P is)

/-- The names that the kernel declares before the loops (D 903-911, 925-931, 952-958). -/
def outer : List String := ["index_space_start", "index_space_end", "inputCoord", "outputCoord", "vec_len"]
/-- The counters of the loops (D 914, 934, 960-962). -/
def Shape.counters : Shape → List String
  | .mat => ["i", "j"]
  | _ => ["i"]

/-- Tensors: the elements by coordinates, of which a vector has only the first. -/
abbrev Tensor := Int → Int → Int

/-- What the lane for the element with coordinates `x` and `y` sees: the parameters that no counter hides. -/
def Kernel.seen (K : Kernel) (scal : String → Int) (tens : String → Tensor) (x y : Int) : Seen where
  sc a := if (∃ h ∈ K.header, h.1 = a ∧ h.2 ≠ .tensor) ∧ a ∉ K.shape.counters then some (scal a) else none
  tn a := if (∃ h ∈ K.header, h.1 = a ∧ h.2 = .tensor) ∧ a ∉ K.shape.counters then some (tens a x y) else none

/-- What the lane for an element stores. -/
def Kernel.lane (K : Kernel) (M : Mach) (d : DT) (scal : String → Int) (tens : String → Tensor) (x y : Int) : Option Int :=
  (runLane M d (K.seen scal tens x y) K.body []).bind fun l =>
    if K.rv ∈ l.map Prod.fst ∨ K.rv ∈ K.shape.counters then none
    else (l.lookup K.ret).bind fun p => if p.1 = vecTy d then some p.2 else none

/-- The number of lanes: a vector has 2048 bits.  Independent of the `vec_len` that the generator writes into the kernel. -/
def lanes (d : DT) : Nat := 2048 / match d with | .u8 => 8 | .i32 => 32 | .f32 => 32

/-- The body of the innermost loop for the counters `i` and `j`, for the vector at `i * vec_len`: all lanes run, and their results are stored in the tensor `o`. -/
def Kernel.round (K : Kernel) (M : Mach) (d : DT) (scal : String → Int) (tens : String → Tensor) (i j : Int) (o : Tensor) : Option Tensor :=
  ((List.range (lanes d)).mapM fun (n : Nat) => K.lane M d scal tens (i * vecLen d + n) j).map fun vs =>
    fun x y => if y = j then (if x < i * vecLen d then o x y else (vs[(x - i * vecLen d).toNat]?).getD (o x y)) else o x y

/-- The integers from `a` to before `b`. -/
def span (a b : Int) : List Int := (List.range (b - a).toNat).map fun (n : Nat) => a + (n : Int)

/-- The kernel runs on the index space from `a` to before `b` (in the second dimension from `a'` to before `b'`) with the tensor `o` for the result.  C does not accept two names of
the header that are equal, and a name of the header that is declared again before the loops. -/
def Kernel.run (K : Kernel) (M : Mach) (d : DT) (scal : String → Int) (tens : String → Tensor) (a b a' b' : Int) (o : Tensor) : Option Tensor :=
  if ¬ (K.header.map Prod.fst).Nodup ∨ ∃ x ∈ K.header.map Prod.fst, x ∈ outer then none
  else
    match K.shape with
    | .sum => none
    | .vec => (span a b).foldlM (fun o i => K.round M d scal tens i 0 o) o
    | .mat => (span a b).foldlM (fun o i => (span a' b').foldlM (fun o j => K.round M d scal tens i j o) o) o

end Metalift.Gaudi
