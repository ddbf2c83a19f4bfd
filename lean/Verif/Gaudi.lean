import Verif.Simplify
/-
Model of the generator of TPC-C kernels for Gaudi, `tests/llvm/tenspiler/codegen/gaudi_codegen.py` (`D` below).

The right-hand side of an instruction is modelled by a tree (`Rhs`) from which its text is printed (`Rhs.str`).  `none` is an exception.  Not modelled: the calls of division
(D 656-762), which go through floating point (`gen` yields `none` for them), and the indentation of the texts.
-/
namespace Metalift.Gaudi
open Metalift

/-- `DataType` (`tests/llvm/tenspiler/codegen/utils.py`). -/
inductive DT where
  | u8 | i32 | f32
  deriving DecidableEq, Repr

/-- `fn_dtype` (D 403-410). -/
def DT.str : DT → String
  | .u8 => "u8"
  | .i32 => "i32"
  | .f32 => "f32"

/-- `GaudiBodyType` (D 54-72). -/
inductive BT where
  | uchar256 | float64 | int64 | uint256 | int128 | float256 | uint8 | float | int32
  deriving DecidableEq, Repr

/-- The values of `GaudiBodyType` (D 57-72). -/
def BT.str : BT → String
  | .uchar256 => "uchar256"
  | .float64 => "float64"
  | .int64 => "int64"
  | .uint256 => "uint256"
  | .int128 => "int128"
  | .float256 => "float256"
  | .uint8 => "uint8_t"
  | .float => "float"
  | .int32 => "int32_t"

/-- `GaudiBodyType.is_primitive` (D 74-76): `INT32` is not in the set. -/
def BT.prim : BT → Bool
  | .uint8 | .float => true
  | _ => false

/-- The type of a vector of elements (D 90-95, 875-880). -/
def vecTy : DT → BT
  | .u8 => .uchar256
  | .i32 => .int64
  | .f32 => .float64

/-- `GaudiBodyType.from_ir_and_data_type` (D 78-99). -/
def bodyTy (d : DT) : Ty → Option BT
  | .int => some (match d with | .u8 => .uint8 | .i32 => .int64 | .f32 => .float)
  | .list _ => some (vecTy d)
  | _ => none

/-- `GaudiHeaderType` (D 102-109). -/
inductive HT where
  | tensor | uint8 | float | int32
  deriving DecidableEq, Repr

/-- Its values. -/
def HT.str : HT → String
  | .tensor => "tensor"
  | .uint8 => "uint8_t"
  | .float => "float"
  | .int32 => "int32_t"

/-- `GaudiHeaderType.is_primitive` (D 111-113): `INT32` is not in the set. -/
def HT.prim : HT → Bool
  | .uint8 | .float => true
  | _ => false

/-- `GaudiHeaderType.from_ir_and_data_type` (D 115-132). -/
def headTy (d : DT) : Ty → Option HT
  | .list _ => some .tensor
  | .int => some (match d with | .u8 => .uint8 | .i32 => .int32 | .f32 => .float)
  | _ => none

/-- The operators of vector instructions. -/
inductive VOp where
  | add | sub | mul
  deriving DecidableEq, Repr
/-- Their part of the name of the instruction (D 767-772). -/
def VOp.str : VOp → String
  | .add => "add"
  | .sub => "sub"
  | .mul => "mul"

/-- The operators of C (D 492-501). -/
inductive COp where
  | add | sub | mul | div | mod
  deriving DecidableEq, Repr
/-- Their texts. -/
def COp.str : COp → String
  | .add => "+"
  | .sub => "-"
  | .mul => "*"
  | .div => "/"
  | .mod => "%"

/-- The comparisons of selections (D 556-567). -/
inductive Cmp where
  | gt | eq | lt | le | ge
  deriving DecidableEq, Repr
/-- Their part of the name of the instruction. -/
def Cmp.str : Cmp → String
  | .gt => "grt"
  | .eq => "eq"
  | .lt => "less"
  | .le => "leq"
  | .ge => "geq"

/-- The right-hand sides of instructions. -/
inductive Rhs where
  | ld (x : String)
  | nm (x : String)
  | lit (l : Lit)
  | vec (o : VOp) (a b : String)
  | prim (o : COp) (a b : String)
  | v1 (a : String)
  | conv (a : String) (s t : BT)
  | sel (c : Cmp) (a b x y : String)
  | reduce (a : String)
  deriving DecidableEq, Repr

/-- The switch of a conversion (D 387-395). -/
def switch : BT → BT → String
  | .uint256, .float256 => "SW_LINEAR"
  | .float256, .uchar256 => "SW_RD"
  | _, _ => "0"

/-- `str` of the value of a literal. -/
def litStr : Lit → String
  | .int i => toString i
  | .bool true => "True"
  | .bool false => "False"

/-- The texts of the right-hand sides (D 383, 386, 396-398, 426, 442, 471, 505, 593, 610, 802). -/
def Rhs.str (d : DT) : Rhs → String
  | .ld x => "v_" ++ d.str ++ "_ld_tnsr_b(inputCoord, " ++ x ++ ")"
  | .nm x => x
  | .lit l => litStr l
  | .vec o a b => "v_" ++ d.str ++ "_" ++ o.str ++ "_b(" ++ a ++ ", " ++ b ++ ")"
  | .prim o a b => a ++ " " ++ o.str ++ " " ++ b
  | .v1 a => a ++ ".v1"
  | .conv a s t => "convert_" ++ s.str ++ "_to_" ++ t.str ++ "(" ++ a ++ ", " ++ switch s t ++ ")"
  | .sel c a b x y => "v_" ++ d.str ++ "_sel_" ++ c.str ++ "_" ++ d.str ++ "_b(" ++ a ++ ", " ++ b ++ ", " ++ x ++ ", " ++ y ++ ")"
  | .reduce a => "v_i32_add_b(v_i32_reduce_add(" ++ a ++ "), sum)"

/-- `GaudiInstr` (D 135-139); the instructions without destination or right-hand side belong to divisions. -/
structure Instr where
  dest : String
  ty : Option BT
  rhs : Rhs
  deriving DecidableEq, Repr

/-- `GaudiInstr.instr_str` (D 147-157). -/
def Instr.str (d : DT) (I : Instr) : String :=
  match I.ty with
  | none => I.dest ++ " = " ++ I.rhs.str d ++ ";"
  | some t => t.str ++ " " ++ I.dest ++ " = " ++ I.rhs.str d ++ ";"

/-- The name of a new variable (D 353). -/
def vname (n : Nat) : String := "v" ++ Nat.repr n

/-- The right-hand side of a conversion (D 378-398). -/
def convRhs (a : String) (s t : BT) : Rhs :=
  if s = .int128 ∧ t = .int64 then .v1 a
  else if s.prim then .nm a
  else .conv a s t

/-- `format_gaudi_instr` with a type and without `override_dest_name` and `ignore_dest` (D 339-363), together with `convert_arg` (D 365-398): the instructions that are added, the new
counter and the instruction whose destination holds the value. -/
def fmt (n : Nat) (rhs : Rhs) (ty : BT) (final : Option BT) : Option (List Instr × Nat × Instr) :=
  let i : Instr := ⟨vname n, some ty, rhs⟩
  match final with
  | none => some ([i], n + 1, i)
  | some t =>
    if !ty.prim && t.prim then none
    else if ty = t then some ([i], n + 1, i)
    else
      let c : Instr := ⟨vname (n + 1), some t, convRhs (vname n) ty t⟩
      some ([i, c], n + 2, c)

/-- `var_count` and `var_and_lit_cache` (D 319-322).  The first component of a key is looked up by `Expr.__eq__`. -/
structure S where
  count : Nat
  cache : List ((Expr × BT) × (List Instr × Instr))

/-- The look-up in the cache (D 431). -/
def S.find (s : S) (e : Expr) (t : BT) : Option (List Instr × Instr) :=
  (s.cache.find? fun p => p.1.1.pyEq e && p.1.2 == t).map Prod.snd

/-- The use of the cache for variables and literals (D 430-439, 444-450, 472-478): the counter has moved on already. -/
def viaCache (s : S) (e : Expr) (r : Option (List Instr × Nat × Instr)) : Option (List Instr × Instr × S) :=
  match r with
  | some (l, n, i) =>
    match i.ty with
    | some t =>
      match s.find e t with
      | some (l', i') => some (l', i', ⟨n, s.cache⟩)
      | none => some (l, i, ⟨n, ((e, t), (l, i)) :: s.cache⟩)
    | none => none
  | none => none

/-- `sub in s`. -/
def isIn (sub : List Char) : List Char → Bool
  | [] => sub.isEmpty
  | c :: cs => sub.isPrefixOf (c :: cs) || isIn sub cs

/-- `s.endswith(e)`. -/
def endsWith (s e : String) : Bool := e.toList.reverse.isPrefixOf s.toList.reverse

/-- The groups of names for addition, subtraction and multiplication (D 632-655). -/
def opOf (f : String) : Option VOp :=
  if f ∈ ["matrix_elemwise_add", "vec_elemwise_add", "matrix_scalar_add", "vec_scalar_add", "scalar_matrix_add", "scalar_vec_add"] then some .add
  else if f ∈ ["matrix_elemwise_sub", "vec_elemwise_sub", "matrix_scalar_sub", "vec_scalar_sub", "scalar_matrix_sub", "scalar_vec_sub"] then some .sub
  else if f ∈ ["matrix_elemwise_mul", "vec_elemwise_mul", "matrix_scalar_mul", "vec_scalar_mul", "scalar_matrix_mul", "scalar_vec_mul"] then some .mul
  else none

/-- The test for exchanging the arguments (D 790). -/
def swapped (f : String) : Bool := isIn "scalar".toList f.toList && !("scalar".toList.isPrefixOf f.toList)

/-- The calls whose first argument is taken instead (D 615-629). -/
def slices : List String := ["list_take", "matrix_take", "list_tail", "matrix_tail", "vec_slice", "matrix_row_slice", "matrix_col_slice"]

/-- The type of the result of a vector instruction (D 765-776). -/
def resTy (d : DT) (t : BT) (o : VOp) : BT :=
  match o, d with
  | .mul, .u8 => .uint256
  | .mul, .i32 => .int128
  | _, _ => t

/-- A function of `all_synthesized_fns`: its parameters and its body. -/
structure Fn where
  params : List String
  body : Expr

/-- The comparison at the head of a condition (D 556-567). -/
def cmpOf : Op → Option Cmp
  | .gt => some .gt
  | .eq => some .eq
  | .lt => some .lt
  | .le => some .le
  | .ge => some .ge
  | _ => none

/-- The operator of C for a class (D 492-501). -/
def cop : Op → Option COp
  | .add => some .add
  | .sub => some .sub
  | .mul => some .mul
  | .div => some .div
  | .mod => some .mod
  | _ => none

/-- The suffix of the name of the call that an operator on vectors becomes (D 519-526). -/
def suffix : COp → String
  | .add => "_add"
  | .sub => "_sub"
  | .mul => "_mul"
  | _ => "_div"

/-- `dest_type.is_primitive`; the type of `sum` is `None`, which has no such attribute. -/
def Instr.prim? (i : Instr) : Option Bool := i.ty.map BT.prim

/-- `expr_codegen` (D 324-807) for the functions `fns` and the data type `d`; `ov` is `override_type`, `rep` is `vars_to_replace`.  The first argument bounds the depth of the recursion.

* `Expr.__eq__(cond, Bool(True))` (D 456) compares an `Expr` with an `Object` and yields `NotImplemented`, which counts as true, so the first branch of a conditional is taken
  whatever the condition is.
* Of a sum with more than two summands the first two count (D 479-487).
* A missing `select_two_args` (D 542-546) raises `UnboundLocalError`; otherwise the last one counts. -/
def gen (fns : List (String × Fn)) (d : DT) : Nat → Option BT → List (String × Expr) → S → Expr → Option (List Instr × Instr × S)
  | 0, _, _, _, _ => none
  | n + 1, ov, rep, s, e =>
    match bodyTy d e.ty with
    | none => none
    | some dflt =>
      let final := ov.getD dflt
      match e with
      | .var x t =>
        match rep.lookup x with
        | some e' => gen fns d n ov rep s e'
        | none =>
          match t with
          | .list _ => viaCache s e (fmt s.count (.ld x) dflt (some final))
          | _ => viaCache s e (fmt s.count (.nm x) final none)
      | .lit l => viaCache s e (fmt s.count (.lit l) final none)
      | .node .ite _ [.node (.call f) _ _, a, _] =>
        match fns.lookup f with
        | some _ => gen fns d n ov rep s a
        | none => none
      | .node (.call f) _ args =>
        if endsWith f "matrix_selection_two_args" then
          match (fns.reverse.find? fun p => endsWith p.1 "select_two_args"), args with
          | some (_, ⟨p0 :: p1 :: _, .node .ite _ [.node c _ [c0, c1], a, b]⟩), m0 :: m1 :: _ =>
            match cmpOf c with
            | some cm =>
              let rep' := [(p1, m1), (p0, m0)]
              (gen fns d n (some dflt) rep' s c0).bind fun (l0, i0, s) =>
              (gen fns d n (some dflt) rep' s c1).bind fun (l1, i1, s) =>
              (gen fns d n (some dflt) rep' s a).bind fun (l2, i2, s) =>
              (gen fns d n (some dflt) rep' s b).bind fun (l3, i3, s) =>
              (fmt s.count (.sel cm i0.dest i1.dest i2.dest i3.dest) dflt (some final)).bind fun (l, k, i) =>
              some (l0 ++ l1 ++ l2 ++ l3 ++ l, i, ⟨k, s.cache⟩)
            | none => none
          | _, _ => none
        else if f = "reduce_sum" then
          match args with
          | a :: _ => (gen fns d n none rep s a).bind fun (l, i, s) =>
            if i.ty = some .int64 then
              let r : Instr := ⟨"sum", none, .reduce i.dest⟩
              some (l ++ [r], r, ⟨s.count + 1, s.cache⟩)
            else none
          | [] => none
        else if f ∈ slices then
          match args with
          | a :: _ => gen fns d n ov rep s a
          | [] => none
        else
          match opOf f, args with
          | some o, a :: b :: _ =>
            (gen fns d n (some dflt) rep s a).bind fun (la, ia, s) =>
            (gen fns d n (some dflt) rep s b).bind fun (lb, ib, s) =>
            let (l, x, y) := if swapped f then (lb ++ la, ib, ia) else (la ++ lb, ia, ib)
            (fmt s.count (.vec o x.dest y.dest) (resTy d dflt o) (some final)).bind fun (l', k, i) =>
            some (l ++ l', i, ⟨k, s.cache⟩)
          | _, _ => none
      | .node op _ (a :: b :: _) =>
        match cop op with
        | some o =>
          (gen fns d n none rep s a).bind fun (la, ia, s) =>
          (gen fns d n none rep s b).bind fun (lb, ib, s) =>
          match ia.prim?, ib.prim? with
          | some true, some true =>
            (fmt s.count (.prim o ia.dest ib.dest) dflt (some final)).bind fun (l, k, i) =>
            some (la ++ lb ++ l, i, ⟨k, s.cache⟩)
          | some true, some false => gen fns d n none rep s (.node (.call ("scalar_matrix" ++ suffix o)) (.list (.list .int)) [a, b])
          | some false, some true => gen fns d n none rep s (.node (.call ("matrix_scalar" ++ suffix o)) (.list (.list .int)) [b, a])
          | some false, some false => gen fns d n none rep s (.node (.call ("matrix_elemwise" ++ suffix o)) (.list (.list .int)) [a, b])
          | _, _ => none
        | none => none
      | _ => none

/-- The list without the repetitions of earlier instructions (D 886-890).  `GaudiInstr` compares texts; instructions with the same destination come from the same call of
`format_gaudi_instr`, apart from `sum`. -/
def dedup (seen : List Instr) : List Instr → List Instr
  | [] => []
  | i :: l => if i ∈ seen then dedup seen l else i :: dedup (i :: seen) l

/-- The loops around the body: over vectors, over matrices, or over a vector with `sum` declared before (D 893-975). -/
inductive Shape where
  | vec | mat | sum
  deriving DecidableEq, Repr

/-- A kernel: the names and types in its header, the last of which is the result, the loops, the instructions in the loop, and the variable that is stored. -/
structure Kernel where
  header : List (String × HT)
  rv : String
  shape : Shape
  body : List Instr
  ret : String

/-- `vec_len` (D 859-870). -/
def vecLen : DT → Nat
  | .u8 => 256
  | _ => 64

/-- The type of matrices (`is_matrix_type`, `metalift/ir.py`). -/
def isMat : Ty → Bool
  | .list (.list _) => true
  | _ => false
/-- The type of lists; a matrix is one (`is_list_type`, `metalift/ir.py`). -/
def isList : Ty → Bool
  | .list _ => true
  | _ => false

/-- The call of `reduce_sum` (D 818-820). -/
def isReduce : Expr → Bool
  | .node (.call f) _ _ => f = "reduce_sum"
  | _ => false

/-- The header (D 828-835, 852-857). -/
def header (d : DT) (params : List (String × Ty)) (f : String) (ret : Ty) : Option (List (String × HT)) :=
  (params ++ [(f ++ "_rv", ret)]).mapM fun p => (headTy d p.2).map fun h => (p.1, h)

/-- The kernel of `gaudi_codegen` (D 812-982) for a function `f` with parameters, result type and body. -/
def kernel (fns : List (String × Fn)) (d : DT) (fuel : Nat) (f : String) (params : List (String × Ty)) (ret : Ty) (body : Expr) : Option Kernel :=
  if !isList ret && !isReduce body then none
  else
    (header d params f ret).bind fun h =>
    (gen fns d fuel (if isList ret then some (vecTy d) else none) [] ⟨0, []⟩ body).bind fun (l, i, _) =>
    some ⟨h, f ++ "_rv", if isReduce body then .sum else if isMat ret then .mat else .vec, dedup [] l, i.dest⟩

/-- The numbers passed to `setGcDefsHelper` by the glue code (D 184-194): input tensors and dimensions. -/
def glue (d : DT) (params : List (String × Ty)) (f : String) (ret : Ty) : Option (Nat × Nat) :=
  (header d params f ret).bind fun h =>
    let ts := ((params ++ [(f ++ "_rv", ret)]).zip h).filter fun p => !p.2.2.prim
    match ts with
    | [] => none
    | t :: _ => some (ts.length - 1, if isMat t.1.2 then 2 else 1)

/-- The members of the structure for the scalar parameters (D 264-277), without indentation. -/
def members (d : DT) (params : List (String × Ty)) (f : String) (ret : Ty) : Option String :=
  (header d params f ret).map fun h =>
    "\n".intercalate ((h.filter fun p => p.2.prim).map fun p => p.2.str ++ " " ++ p.1) ++ ";"

end Metalift.Gaudi
