import Verif.LlmParser
/-
Specification for C55: what the Python functions mean (Python's semantics; nothing here models code of the repository).
-/
namespace Metalift
namespace Llm

/-- Values of Python: data, functions on data (values of lambda expressions), and the fractions that `/` yields. -/
inductive PV where
  | v (a : Val)
  | f (c : List Val → Option Val)
  | q (r : Rat)

/-- Local variables. -/
abbrev Locals := String → Option PV

/-- The functions of the module: the names of their parameters and what a call returns (`none`: an exception, or no answer). -/
structure Globals where
  names : String → List String
  call : String → List PV → Option Val

/-- The value of a name. -/
def pyName (G : Globals) (ρ : Locals) (x : String) : Option PV :=
  if x = "True" then some (.v (.bool true))
  else if x = "False" then some (.v (.bool false))
  else (ρ x).orElse fun _ => some (.f fun vs => G.call x (vs.map .v))

/-- A number. -/
def PV.num? : PV → Option Rat
  | .v (.int i) => some i
  | .q r => some r
  | _ => none

/-- The operators on evaluated operands.  With `strict`, division and remainder only of a natural number by a positive one, concatenation only
of lists of integers. -/
def pyBin (strict : Bool) (o : String) : PV → PV → Option PV
  | .v (.int a), .v (.int b) =>
    if o = "+" then some (.v (.int (a + b)))
    else if o = "-" then some (.v (.int (a - b)))
    else if o = "*" then some (.v (.int (a * b)))
    else if b = 0 ∨ (strict = true ∧ ¬ (0 ≤ a ∧ 0 < b)) then none
    else if o = "//" then some (.v (.int (Int.fdiv a b)))
    else if o = "%" then some (.v (.int (Int.fmod a b)))
    else if o = "/" then some (.q ((a : Rat) / b))
    else none
  | .v (.list us), .v (.list vs) =>
    if o = "+" then
      if strict = true ∧ ¬ (us ++ vs).all (fun v => match v with | .int _ => true | _ => false) then none else some (.v (.list (us ++ vs)))
    else none
  | _, _ => none

/-- Comparison of values of the same kind. -/
def pyCmp (o : String) (x y : PV) : Option Bool :=
  match x, y with
  | .v (.bool a), .v (.bool b) => if o = "==" then some (decide (a = b)) else if o = "!=" then some (decide (a ≠ b)) else none
  | .v (.list a), .v (.list b) => if o = "==" then some (decide (a = b)) else if o = "!=" then some (decide (a ≠ b)) else none
  | x, y => do
    let a ← x.num?
    let b ← y.num?
    if o = "==" then some (decide (a = b))
    else if o = "!=" then some (decide (a ≠ b))
    else if o = "<" then some (decide (a < b))
    else if o = "<=" then some (decide (a ≤ b))
    else if o = ">" then some (decide (b < a))
    else if o = ">=" then some (decide (b ≤ a))
    else none

/-- `vs[i]`; a negative index counts from the end (not with `strict`). -/
def pyAt (strict : Bool) (vs : List Val) (i : Int) : Option Val :=
  if 0 ≤ i then vs[i.toNat]?
  else if strict = false ∧ 0 ≤ i + vs.length then vs[(i + vs.length).toNat]?
  else none

/-- A bound of a slice on a list of length `n`. -/
def clamp (n : Nat) (i : Int) : Nat := if i < 0 then (i + n).toNat else min i.toNat n

/-- Every `k`th element, beginning with the first. -/
def everyNth (k : Nat) : List Val → Nat → List Val
  | [], _ => []
  | v :: vs, 0 => v :: everyNth k vs (k - 1)
  | _ :: vs, n + 1 => everyNth k vs n

/-- `vs[lo:hi:step]`; with `strict` the bounds must lie in the list, in order. Only positive steps. -/
def pySlice (strict : Bool) (vs : List Val) (lo hi step : Option Int) : Option (List Val) :=
  let l := lo.getD 0
  let h := hi.getD vs.length
  let k := step.getD 1
  if strict = true ∧ ¬ (0 ≤ l ∧ l ≤ h ∧ h ≤ vs.length) then none
  else if k ≤ 0 then none
  else
    let r := (vs.take (clamp vs.length h)).drop (clamp vs.length l)
    some (if k = 1 then r else everyNth k.toNat r 0)

/-- Binding of parameters. -/
def Locals.bind (ρ : Locals) : List String → List PV → Locals
  | p :: ps, v :: vs => fun x => if x = p then some v else Locals.bind ρ ps vs x
  | _, _ => ρ

/-- The arguments in the order of the parameters: first the positional ones, then those with a keyword. -/
def bindArgs (names : List String) (kws : List (Option String)) (vs : List PV) : Option (List PV) :=
  let pos := ((kws.zip vs).takeWhile (fun p => p.1.isNone)).map Prod.snd
  let kw := ((kws.zip vs).dropWhile (fun p => p.1.isNone))
  if kw.isEmpty then some pos
  else ((names.drop pos.length).mapM fun p => kw.lookup (some p)).map (pos ++ ·)

/-- A value that is data. -/
def PV.data? : PV → Option Val
  | .v a => some a
  | _ => none

def PV.bool? : PV → Option Bool
  | .v (.bool b) => some b
  | _ => none

def PV.int? : PV → Option Int
  | .v (.int i) => some i
  | _ => none

def PV.list? : PV → Option (List Val)
  | .v (.list vs) => some vs
  | _ => none

mutual
/-- The value of an expression; `none` is an exception (or something that this specification leaves open). -/
def pyEval (strict : Bool) (G : Globals) (ρ : Locals) : Node → Option PV
  | .int n => some (.v (.int n))
  | .name x _ => pyName G ρ x
  | .call f args kws _ => do
    let vs ← pyEvals strict G ρ args
    if f = "len" then
      match vs with
      | [a] => (a.list?).map fun l => .v (.int l.length)
      | _ => none
    else
      match ρ f with
      | some (.f c) => ((vs.mapM PV.data?).bind c).map .v
      | some _ => none
      | none => ((bindArgs (G.names f) kws vs).bind (G.call f)).map .v
  | .op o l r =>
    if o = "and" then do
      let a ← (pyEval strict G ρ l).bind PV.bool?
      if a then do
        let b ← (pyEval strict G ρ r).bind PV.bool?
        some (.v (.bool b))
      else some (.v (.bool false))
    else if o = "or" then do
      let a ← (pyEval strict G ρ l).bind PV.bool?
      if a then some (.v (.bool true))
      else do
        let b ← (pyEval strict G ρ r).bind PV.bool?
        some (.v (.bool b))
    else do
      let a ← pyEval strict G ρ l
      let b ← pyEval strict G ρ r
      pyBin strict o a b
  | .unary o e =>
    if o = "-" then do
      let a ← (pyEval strict G ρ e).bind PV.int?
      some (.v (.int (-a)))
    else if o = "not" then do
      let a ← (pyEval strict G ρ e).bind PV.bool?
      some (.v (.bool (!a)))
    else none
  | .list es _ => do
    let vs ← pyEvals strict G ρ es
    let ws ← vs.mapM PV.data?
    some (.v (.list ws))
  | .cond c a b => do
    let c ← (pyEval strict G ρ c).bind PV.bool?
    if c then pyEval strict G ρ a else pyEval strict G ρ b
  | .compare ops es => (pyChain strict G ρ ops es).map fun b => .v (.bool b)
  | .index b i => do
    let vs ← (pyEval strict G ρ b).bind PV.list?
    let j ← (pyEval strict G ρ i).bind PV.int?
    let w ← pyAt strict vs j
    some (.v w)
  | .slice b lo hi step => do
    let vs ← (pyEval strict G ρ b).bind PV.list?
    let l ← pyBound strict G ρ lo
    let h ← pyBound strict G ρ hi
    let k ← pyBound strict G ρ step
    let ws ← pySlice strict vs l h k
    some (.v (.list ws))
  | .lambda ps body _ => some (.f fun vs =>
      if vs.length = ps.length then (pyEval strict G (ρ.bind ps (vs.map .v)) body).bind PV.data? else none)
  | .absent => none
  | .other => none
def pyEvals (strict : Bool) (G : Globals) (ρ : Locals) : List Node → Option (List PV)
  | [] => some []
  | n :: ns => do
    let v ← pyEval strict G ρ n
    let vs ← pyEvals strict G ρ ns
    some (v :: vs)
/-- A chain of comparisons; it stops at the first that is false. -/
def pyChain (strict : Bool) (G : Globals) (ρ : Locals) : List String → List Node → Option Bool
  | [], _ => some true
  | o :: ops, a :: b :: es => do
    let x ← pyEval strict G ρ a
    let y ← pyEval strict G ρ b
    let c ← pyCmp o x y
    if c then pyChain strict G ρ ops (b :: es) else some false
  | _ :: _, _ => none
/-- A bound of a slice, which may be missing. -/
def pyBound (strict : Bool) (G : Globals) (ρ : Locals) : Node → Option (Option Int)
  | .absent => some none
  | n => ((pyEval strict G ρ n).bind PV.int?).map some
end

/-- The result of a sequence of assignments and a return. -/
def pyBlock (strict : Bool) (G : Globals) : Locals → List Stmt → Option PV
  | ρ, .ret e :: _ => pyEval strict G ρ e
  | ρ, .assign [.name x _] e :: ss =>
    if x = "True" ∨ x = "False" then none
    else do
      let v ← pyEval strict G ρ e
      pyBlock strict G (fun y => if y = x then some v else ρ y) ss
  | _, _ => none

/-- The functions `targets` on top of the functions of the target language `G`; at most `k` nested calls of them. -/
def pyModule (strict : Bool) (G : Globals) (targets : List FuncDef) : Nat → Globals
  | 0 => ⟨fun f => ((targets.find? (fun d => decide (d.name = f))).map FuncDef.params).getD (G.names f),
      fun f vs => if targets.any (fun d => decide (d.name = f)) then none else G.call f vs⟩
  | k + 1 => ⟨fun f => ((targets.find? (fun d => decide (d.name = f))).map FuncDef.params).getD (G.names f),
      fun f vs =>
        match targets.find? (fun d => decide (d.name = f)) with
        | some d =>
          if vs.length = d.params.length then
            (pyBlock strict (pyModule strict G targets k) (Locals.bind (fun _ => none) d.params vs) d.body).bind PV.data?
          else none
        | none => G.call f vs⟩

/-! ### Induction on expressions -/

theorem Node.ind {P : Node → Prop} (hint : ∀ n, P (.int n)) (hname : ∀ x t, P (.name x t))
    (hcall : ∀ f args kws t, (∀ a ∈ args, P a) → P (.call f args kws t)) (hop : ∀ o l r, P l → P r → P (.op o l r))
    (hun : ∀ o e, P e → P (.unary o e)) (hlist : ∀ es t, (∀ a ∈ es, P a) → P (.list es t)) (hcond : ∀ c a b, P c → P a → P b → P (.cond c a b))
    (hcmp : ∀ os es, (∀ a ∈ es, P a) → P (.compare os es)) (hidx : ∀ b i, P b → P i → P (.index b i))
    (hsl : ∀ b lo hi st, P b → P lo → P hi → P st → P (.slice b lo hi st)) (hlam : ∀ ps b t, P b → P (.lambda ps b t)) (hab : P .absent)
    (hot : P .other) (n : Node) : P n := by
  have go : ∀ k, ∀ n : Node, sizeOf n ≤ k → P n := by
    intro k
    induction k with
    | zero => intro n hn; cases n <;> simp at hn
    | succ k ih =>
      intro n hn
      cases n with
      | int n => exact hint n
      | name x t => exact hname x t
      | call f args kws t =>
        refine hcall f args kws t fun a ha => ih a ?_
        have := List.sizeOf_lt_of_mem ha
        simp at hn; omega
      | op o l r => simp at hn; exact hop o l r (ih l (by omega)) (ih r (by omega))
      | unary o e => simp at hn; exact hun o e (ih e (by omega))
      | list es t =>
        refine hlist es t fun a ha => ih a ?_
        have := List.sizeOf_lt_of_mem ha
        simp at hn; omega
      | cond c a b => simp at hn; exact hcond c a b (ih c (by omega)) (ih a (by omega)) (ih b (by omega))
      | compare os es =>
        refine hcmp os es fun a ha => ih a ?_
        have := List.sizeOf_lt_of_mem ha
        simp at hn; omega
      | index b i => simp at hn; exact hidx b i (ih b (by omega)) (ih i (by omega))
      | slice b lo hi st =>
        simp at hn
        exact hsl b lo hi st (ih b (by omega)) (ih lo (by omega)) (ih hi (by omega)) (ih st (by omega))
      | lambda ps b t => simp at hn; exact hlam ps b t (ih b (by omega))
      | absent => exact hab
      | other => exact hot
  exact go _ n (Nat.le_refl _)

end Llm
end Metalift
