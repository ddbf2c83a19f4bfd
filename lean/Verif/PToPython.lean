import Verif.PyParse
import Verif.PListObj
/-
C23: the Python text of an expression has the value of the expression.
-/
namespace Metalift

open Py (Tok Ast)

/-! ### Specification -/

/-- The Python scope in which the text is evaluated: the names in `L` are local variables with the values of `ρ`, all other names denote functions;
functions other than `len` return what the interpretation says on the arguments `Q` (on others they may return nothing, or something else), and the
interpretation gives the list primitives their usual meaning. -/
structure Agree (Q : String → List Val → Prop) (L : String → Bool) (I : Interp) (ρ : Env) (S : Py.Scope) : Prop where
  loc : ∀ x, L x = true → S.loc x = some (ρ x)
  nonloc : ∀ x, L x = false → S.loc x = none
  glob : ∀ g vs, g ≠ "len" → Q g vs → S.glob g vs = some (I.fn g vs)
  apply : ∀ g vs, I.apply (.fn g) vs = I.fn g vs
  prims : ListPrims I

mutual
/-- No boolean occurs in the value. -/
def Val.boolFree : Val → Bool
  | .bool _ => false
  | .list vs => Val.boolFrees vs
  | .tuple vs => Val.boolFrees vs
  | _ => true
/-- No boolean occurs in the values. -/
def Val.boolFrees : List Val → Bool
  | [] => true
  | v :: vs => Val.boolFree v && Val.boolFrees vs
end

/-- The two values are of comparable types (IR equality compares values of the same type): two booleans, or values without booleans. -/
def Comparable (a b : Val) : Prop := (∃ x y, a = .bool x ∧ b = .bool y) ∨ (a.boolFree = true ∧ b.boolFree = true)

/-- The arguments are in the domain on which the list primitive is specified (indices in range); the other functions return (`Q`). -/
def CallDefined (Q : String → List Val → Prop) (f : String) (vs : List Val) : Prop :=
  if f ∈ ["list_length", "matrix_length"] then ∃ us, vs = [.list us]
  else if f ∈ ["list_get", "matrix_get"] then ∃ us i, vs = [.list us, .int i] ∧ 0 ≤ i ∧ i < us.length
  else if f ∈ ["list_prepend", "matrix_prepend"] then ∃ v us, vs = [v, .list us] ∧ (f = "matrix_prepend" → v.asList ≠ [])
  else if f ∈ ["list_append", "matrix_append"] then ∃ us v, vs = [.list us, v]
  else if f ∈ ["list_empty", "matrix_empty"] then vs = []
  else if f ∈ ["list_tail", "matrix_tail"] then ∃ us n, vs = [.list us, .int n] ∧ 0 ≤ n ∧ n ≤ us.length
  else if f ∈ ["list_take", "matrix_take"] then ∃ us n, vs = [.list us, .int n] ∧ 0 ≤ n ∧ n ≤ us.length
  else if f ∈ ["vec_slice", "matrix_row_slice"] then ∃ us a b, vs = [.list us, .int a, .int b] ∧ 0 ≤ a ∧ a ≤ b ∧ b ≤ us.length
  else if f ∈ ["vec_slice_with_length", "matrix_row_slice_with_length"] then
    ∃ us a n, vs = [.list us, .int a, .int n] ∧ 0 ≤ a ∧ 0 ≤ n ∧ a + n ≤ us.length
  else Q f vs

/-- The operand values are in the domain of the operator: integers for arithmetic, booleans for negation, no division by zero and, since the
backends differ on division of negative numbers, only divisions on which the interpretation is Python's floor division. -/
def OpDefined (Q : String → List Val → Prop) (I : Interp) : Op → List Val → Prop
  | .add, vs => ∀ v ∈ vs, ∃ i, v = .int i
  | .mul, vs => ∀ v ∈ vs, ∃ i, v = .int i
  | .sub, vs => ∃ i j, vs = [.int i, .int j]
  | .div, vs => ∃ i j, vs = [.int i, .int j] ∧ j ≠ 0 ∧ I.idiv i j = Int.fdiv i j
  | .mod, vs => ∃ i j, vs = [.int i, .int j] ∧ j ≠ 0 ∧ I.imod i j = Int.fmod i j
  | .eq, vs => ∃ a b, vs = [a, b] ∧ Comparable a b
  | .lt, vs => ∃ i j, vs = [.int i, .int j]
  | .le, vs => ∃ i j, vs = [.int i, .int j]
  | .gt, vs => ∃ i j, vs = [.int i, .int j]
  | .ge, vs => ∃ i j, vs = [.int i, .int j]
  | .not, vs => ∃ b, vs = [.bool b]
  | .call f, vs => CallDefined Q f vs
  | .callValue, vs => ∃ g us, vs = .fn g :: us ∧ g ≠ "len" ∧ Q g us
  | _, _ => True

mutual
/-- The expression has a well-defined value: every operator that is evaluated gets operands in its domain.  Conditionals, `And` and `Or`
evaluate only the operands they need. -/
def Defined (Q : String → List Val → Prop) (I : Interp) (ρ : Env) : Expr → Prop
  | .var _ _ => True
  | .lit _ => True
  | .node .ite _ [c, a, b] => Defined Q I ρ c ∧ (∃ t, eval I ρ c = .bool t) ∧ (eval I ρ c = .bool true → Defined Q I ρ a) ∧
      (eval I ρ c = .bool false → Defined Q I ρ b)
  | .node .and _ args => DefinedAnd Q I ρ args
  | .node .or _ args => DefinedOr Q I ρ args
  | .node op _ args => DefinedAll Q I ρ args ∧ OpDefined Q I op (args.map (eval I ρ))
/-- Every expression has a well-defined value. -/
def DefinedAll (Q : String → List Val → Prop) (I : Interp) (ρ : Env) : List Expr → Prop
  | [] => True
  | e :: es => Defined Q I ρ e ∧ DefinedAll Q I ρ es
/-- The conjuncts up to the first false one have well-defined boolean values. -/
def DefinedAnd (Q : String → List Val → Prop) (I : Interp) (ρ : Env) : List Expr → Prop
  | [] => True
  | e :: es => Defined Q I ρ e ∧ (∃ t, eval I ρ e = .bool t) ∧ (eval I ρ e = .bool true → DefinedAnd Q I ρ es)
/-- The disjuncts up to the first true one have well-defined boolean values. -/
def DefinedOr (Q : String → List Val → Prop) (I : Interp) (ρ : Env) : List Expr → Prop
  | [] => True
  | e :: es => Defined Q I ρ e ∧ (∃ t, eval I ρ e = .bool t) ∧ (eval I ρ e = .bool false → DefinedOr Q I ρ es)
end

/-- Python's precedence level of the outermost operator of the text of an expression (numbers as in `Verif.PySyntax`).  Differences, divisions,
remainders and conditionals are printed in parentheses. -/
def Expr.pyLvl : Expr → Nat
  | .var _ _ => 8
  | .lit (.int i) => if i < 0 then 7 else 8
  | .lit (.bool _) => 8
  | .node .or _ [a] => a.pyLvl
  | .node .or _ _ => 1
  | .node .and _ [a] => a.pyLvl
  | .node .and _ _ => 2
  | .node .not _ _ => 3
  | .node .eq _ _ => 4
  | .node .lt _ _ => 4
  | .node .le _ _ => 4
  | .node .gt _ _ => 4
  | .node .ge _ _ => 4
  | .node .add _ [a] => a.pyLvl
  | .node .add _ _ => 5
  | .node .mul _ [a] => a.pyLvl
  | .node .mul _ _ => 6
  | .node _ _ _ => 8

/-- Number and precedence of the arguments of a call. -/
def CallSafe (L : String → Bool) (f : String) (ls : List Nat) : Prop :=
  if f ∈ ["list_length", "matrix_length"] then ∃ a, ls = [a]
  else if f ∈ ["list_get", "matrix_get"] then ∃ i, ls = [8, i]
  else if f ∈ ["list_prepend", "matrix_prepend"] then ∃ a l, ls = [a, l] ∧ 5 ≤ l
  else if f ∈ ["list_append", "matrix_append"] then ∃ l a, ls = [l, a] ∧ 5 ≤ l
  else if f ∈ ["list_empty", "matrix_empty"] then ls = []
  else if f ∈ ["list_tail", "matrix_tail"] then ∃ i, ls = [8, i]
  else if f ∈ ["list_take", "matrix_take"] then ∃ i, ls = [8, i]
  else if f ∈ ["vec_slice", "matrix_row_slice"] then ∃ i j, ls = [8, i, j]
  else if f ∈ ["vec_slice_with_length", "matrix_row_slice_with_length"] then ∃ i n, ls = [8, i, n] ∧ 5 ≤ i ∧ 5 ≤ n
  else f ≠ "len" ∧ L f = false

/-- Every operand's text binds at least as tightly as its position requires (`ls` are the levels of the operands). -/
def OpSafe (L : String → Bool) : Op → List Nat → Prop
  | .or, ls => ls ≠ []
  | .and, ls => ls ≠ [] ∧ (ls.length = 1 ∨ ∀ l ∈ ls, 2 ≤ l)
  | .not, ls => ∃ l, ls = [l] ∧ 3 ≤ l
  | .eq, ls => ∃ l m, ls = [l, m] ∧ 5 ≤ l ∧ 5 ≤ m
  | .lt, ls => ∃ l m, ls = [l, m] ∧ 5 ≤ l ∧ 5 ≤ m
  | .le, ls => ∃ l m, ls = [l, m] ∧ 5 ≤ l ∧ 5 ≤ m
  | .gt, ls => ∃ l m, ls = [l, m] ∧ 5 ≤ l ∧ 5 ≤ m
  | .ge, ls => ∃ l m, ls = [l, m] ∧ 5 ≤ l ∧ 5 ≤ m
  | .add, ls => ls ≠ [] ∧ (ls.length = 1 ∨ ∀ l ∈ ls, 5 ≤ l)
  | .mul, ls => ls ≠ [] ∧ (ls.length = 1 ∨ ∀ l ∈ ls, 6 ≤ l)
  | .sub, ls => ∃ l m, ls = [l, m] ∧ 5 ≤ l ∧ 6 ≤ m
  | .div, ls => ∃ l m, ls = [l, m] ∧ 6 ≤ l ∧ 7 ≤ m
  | .mod, ls => ∃ l m, ls = [l, m] ∧ 6 ≤ l ∧ 7 ≤ m
  | .ite, ls => ls.length = 3
  | .tuple, ls => ls.length ≠ 1
  | .call f, ls => CallSafe L f ls
  | .callValue, ls => ∃ ms, ls = 8 :: ms
  | .implies, _ => False
  | .choose, _ => False

mutual
/-- The text of the expression needs no parentheses that `to_python` does not print, its variables are local variables (`L`) and the functions
it calls are not. -/
def Expr.PySafe (L : String → Bool) : Expr → Prop
  | .var n _ => L n = true
  | .lit _ => True
  | .node op _ args => Expr.PySafes L args ∧ OpSafe L op (args.map Expr.pyLvl)
/-- Every expression is safe. -/
def Expr.PySafes (L : String → Bool) : List Expr → Prop
  | [] => True
  | e :: es => Expr.PySafe L e ∧ Expr.PySafes L es
end

/-! ### Lemmas -/

mutual
theorem valEq_boolFree : ∀ a b : Val, a.boolFree = true → b.boolFree = true → Py.valEq a b = decide (a = b)
  | .int a, b, _, hb => by cases b <;> simp_all [Py.valEq, Val.boolFree]
  | .bool _, _, ha, _ => by simp [Val.boolFree] at ha
  | .fn a, b, _, hb => by cases b <;> simp_all [Py.valEq, Val.boolFree]
  | .list a, b, ha, hb => by
    cases b <;> simp_all [Py.valEq, Val.boolFree]
    exact valEqs_boolFree a _ ha hb
  | .tuple a, b, ha, hb => by
    cases b <;> simp_all [Py.valEq, Val.boolFree]
    exact valEqs_boolFree a _ ha hb
theorem valEqs_boolFree : ∀ a b : List Val, Val.boolFrees a = true → Val.boolFrees b = true → Py.valEqs a b = decide (a = b)
  | [], b, _, _ => by cases b <;> simp [Py.valEqs]
  | a :: as, b, ha, hb => by
    cases b with
    | nil => simp [Py.valEqs]
    | cons b bs =>
      simp only [Val.boolFrees, Bool.and_eq_true] at ha hb
      simp [Py.valEqs, valEq_boolFree a b ha.1 hb.1, valEqs_boolFree as bs ha.2 hb.2]
end

theorem Comparable.valEq {a b : Val} (h : Comparable a b) : Py.valEq a b = decide (a = b) := by
  rcases h with ⟨x, y, rfl, rfl⟩ | ⟨h1, h2⟩
  · simp [Py.valEq]
  · exact valEq_boolFree a b h1 h2

theorem DefinedAll_iff {I : Interp} {ρ : Env} {es : List Expr} : DefinedAll Q I ρ es ↔ ∀ e ∈ es, Defined Q I ρ e := by
  induction es with
  | nil => simp [DefinedAll]
  | cons e es ih => simp [DefinedAll, ih]

theorem Expr.PySafes_iff {L : String → Bool} {es : List Expr} : Expr.PySafes L es ↔ ∀ e ∈ es, e.PySafe L := by
  induction es with
  | nil => simp [Expr.PySafes]
  | cons e es ih => simp [Expr.PySafes, ih]

namespace Py

theorem orAll_cons (a : Ast) {as : List Ast} (h : as ≠ []) : orAll (a :: as) = .or a (orAll as) := by
  cases as with
  | nil => exact absurd rfl h
  | cons b bs => rfl

theorem andAll_cons (a : Ast) {as : List Ast} (h : as ≠ []) : andAll (a :: as) = .and a (andAll as) := by
  cases as with
  | nil => exact absurd rfl h
  | cons b bs => rfl

/-- Value of `x or y`. -/
def orF (x y : Option Val) : Option Val := x.bind fun v => if v.asBool then some v else y
/-- Value of `x and y`. -/
def andF (x y : Option Val) : Option Val := x.bind fun v => if v.asBool then y else some v
/-- Value of `x o y`. -/
def binF (o : BinOp) (x y : Option Val) : Option Val := x.bind fun v => y.bind fun w => binOp o v w

theorem orF_assoc (x y z : Option Val) : orF (orF x y) z = orF x (orF y z) := by
  cases x with
  | none => rfl
  | some v =>
    by_cases h : v.asBool = true
    · simp [orF, h]
    · simp [orF, h]

theorem andF_assoc (x y z : Option Val) : andF (andF x y) z = andF x (andF y z) := by
  cases x with
  | none => rfl
  | some v =>
    by_cases h : v.asBool = true
    · simp [andF, h]
    · simp [andF, h]

theorem binF_assoc {o : BinOp} (ho : o = .add ∨ o = .mul) (x y z : Option Val) : binF o (binF o x y) z = binF o x (binF o y z) := by
  match x, y, z with
  | none, _, _ => rfl
  | some a, none, _ => rfl
  | some a, some b, none => cases h : binOp o a b <;> simp [binF, h]
  | some a, some b, some c =>
    rcases ho with rfl | rfl <;> cases a <;> cases b <;> cases c <;> first
      | rfl
      | exact congrArg (fun i => some (Val.int i)) (Int.add_assoc _ _ _)
      | exact congrArg (fun i => some (Val.int i)) (Int.mul_assoc _ _ _)
      | exact congrArg (fun i => some (Val.list i)) (List.append_assoc _ _ _)

theorem orAll_append (S : Scope) : ∀ xs ys : List Ast, xs ≠ [] → ys ≠ [] →
    eval S (orAll (xs ++ ys)) = orF (eval S (orAll xs)) (eval S (orAll ys))
  | [], _, h, _ => absurd rfl h
  | [a], ys, _, h => by
    rw [List.singleton_append, orAll_cons a h]
    rfl
  | a :: b :: xs, ys, _, h => by
    rw [List.cons_append, orAll_cons a (by simp), orAll_cons a (by simp)]
    show orF (eval S a) (eval S (orAll ((b :: xs) ++ ys))) = orF (orF (eval S a) (eval S (orAll (b :: xs)))) _
    rw [orAll_append S (b :: xs) ys (by simp) h, orF_assoc]

theorem andAll_append (S : Scope) : ∀ xs ys : List Ast, xs ≠ [] → ys ≠ [] →
    eval S (andAll (xs ++ ys)) = andF (eval S (andAll xs)) (eval S (andAll ys))
  | [], _, h, _ => absurd rfl h
  | [a], ys, _, h => by
    rw [List.singleton_append, andAll_cons a h]
    rfl
  | a :: b :: xs, ys, _, h => by
    rw [List.cons_append, andAll_cons a (by simp), andAll_cons a (by simp)]
    show andF (eval S a) (eval S (andAll ((b :: xs) ++ ys))) = andF (andF (eval S a) (eval S (andAll (b :: xs)))) _
    rw [andAll_append S (b :: xs) ys (by simp) h, andF_assoc]

theorem foldl_bin {o : BinOp} (ho : o = .add ∨ o = .mul) (S : Scope) : ∀ (ys : List Ast) (a y : Ast),
    eval S (ys.foldl (.bin o) (.bin o a y)) = binF o (eval S a) (eval S (ys.foldl (.bin o) y))
  | [], _, _ => rfl
  | z :: ys, a, y => by
    rw [List.foldl_cons, List.foldl_cons, foldl_bin ho S ys, foldl_bin ho S ys]
    exact binF_assoc ho _ _ _

theorem binAll_append {o : BinOp} (ho : o = .add ∨ o = .mul) (S : Scope) : ∀ xs ys : List Ast, xs ≠ [] → ys ≠ [] →
    eval S (binAll o (xs ++ ys)) = binF o (eval S (binAll o xs)) (eval S (binAll o ys))
  | [], _, h, _ => absurd rfl h
  | _ :: _, [], _, h => absurd rfl h
  | x :: xs, y :: ys, _, _ => by
    simp only [binAll, List.cons_append, List.foldl_append, List.foldl_cons]
    exact foldl_bin ho S ys _ y

/-- `ts` is a chain of texts joined by `sep`, read as `comb` of the parts. -/
def Chain (sep : Tok) (R : List Tok → Ast → Prop) (comb : List Ast → Ast) (ts : List Tok) (p : Ast) : Prop :=
  ∃ ps as, ps ≠ [] ∧ ts = joinToks sep ps ∧ All2 R ps as ∧ p = comb as

theorem joinToks_append (sep : Tok) : ∀ ps qs : List (List Tok), ps ≠ [] → qs ≠ [] →
    joinToks sep (ps ++ qs) = joinToks sep ps ++ sep :: joinToks sep qs
  | [], _, h, _ => absurd rfl h
  | _ :: _, [], _, h => absurd rfl h
  | [p], q :: qs, _, _ => rfl
  | p :: p' :: ps, q :: qs, _, h => by
    rw [List.cons_append, List.cons_append, joinToks_cons2, ← List.cons_append, joinToks_append sep (p' :: ps) (q :: qs) (by simp) h,
      joinToks_cons2]
    simp

theorem All2.append {α β : Type} {R : α → β → Prop} {as cs : List α} {bs ds : List β} (h : All2 R as bs) (h' : All2 R cs ds) :
    All2 R (as ++ cs) (bs ++ ds) := by
  induction h with
  | nil => exact h'
  | cons h _ ih => exact .cons h ih

theorem All2.ne_nil {α β : Type} {R : α → β → Prop} {as : List α} {bs : List β} (h : All2 R as bs) (hne : as ≠ []) : bs ≠ [] := by
  cases h with
  | nil => exact absurd rfl hne
  | cons _ _ => simp

/-- A chain of chains is a chain. -/
theorem chain_flat {sep : Tok} {R : List Tok → Ast → Prop} {comb : List Ast → Ast} (F : Option Val → Option Val → Option Val)
    (h1 : ∀ a, comb [a] = a)
    (hF : ∀ S xs ys, xs ≠ [] → ys ≠ [] → eval S (comb (xs ++ ys)) = F (eval S (comb xs)) (eval S (comb ys))) :
    ∀ xs : List (List Tok × Ast), xs ≠ [] → (∀ x ∈ xs, Chain sep R comb x.1 x.2) →
      ∃ ps as, ps ≠ [] ∧ joinToks sep (xs.map Prod.fst) = joinToks sep ps ∧ All2 R ps as ∧
        ∀ S, eval S (comb as) = eval S (comb (xs.map Prod.snd))
  | [], h, _ => absurd rfl h
  | [x], _, h => by
    obtain ⟨ps, as, hne, hts, hR, hp⟩ := h x (by simp)
    exact ⟨ps, as, hne, hts, hR, fun S => by rw [List.map_cons, List.map_nil, h1, hp]⟩
  | x :: y :: xs, _, h => by
    obtain ⟨ps, as, hne, hts, hR, hp⟩ := h x (by simp)
    obtain ⟨qs, bs, hne', hts', hR', hp'⟩ := chain_flat F h1 hF (y :: xs) (by simp) (fun z hz => h z (List.mem_cons_of_mem _ hz))
    refine ⟨ps ++ qs, as ++ bs, by simp [hne], ?_, All2.append hR hR', fun S => ?_⟩
    · rw [joinToks_append sep ps qs hne hne', ← hts, ← hts']
      rfl
    · have e : (x :: y :: xs).map Prod.snd = [x.2] ++ (y :: xs).map Prod.snd := rfl
      rw [hF S as bs (All2.ne_nil hR hne) (All2.ne_nil hR' hne'), e, hF S [x.2] _ (by simp) (by simp), hp' S, h1, hp]

end Py

open Py

theorem Expr.pyLvl_le : ∀ e : Expr, 1 ≤ e.pyLvl ∧ e.pyLvl ≤ 8 := by
  intro e
  induction e using Expr.ind with
  | hv n t => simp [Expr.pyLvl]
  | hl l =>
    cases l with
    | int i => simp only [Expr.pyLvl]; split <;> omega
    | bool b => simp [Expr.pyLvl]
  | hn op t args ih =>
    cases op <;> first
      | (simp only [Expr.pyLvl]; omega)
      | (match args with
         | [] => simp [Expr.pyLvl]
         | [a] => simpa [Expr.pyLvl] using ih a (by simp)
         | _ :: _ :: _ => simp [Expr.pyLvl])

/-- What is proved of the text `ts` of an expression `e` and its parse `p`. -/
structure Inv (L : String → Bool) (e : Expr) (ts : List Tok) (p : Ast) : Prop where
  reads : Reads e.pyLvl ts p
  prim : e.pyLvl = 8 → Primary ts p
  or : e.pyLvl = 1 → Chain .kor (Reads 2) orAll ts p
  and : e.pyLvl = 2 → Chain .kand (Reads 3) andAll ts p
  add : e.pyLvl = 5 → Chain .plus (Reads 6) (binAll .add) ts p
  mul : e.pyLvl = 6 → Chain .star (Reads 7) (binAll .mul) ts p
  val : ∀ Q I ρ S, L "len" = false → Agree Q L I ρ S → Defined Q I ρ e → Py.eval S p = some (eval I ρ e)

theorem Inv.at {L : String → Bool} {e : Expr} {ts : List Tok} {p : Ast} (h : Inv L e ts p) {k : Nat} (hk : k ≤ e.pyLvl) : Reads k ts p :=
  h.reads.lift hk (Expr.pyLvl_le e).2

theorem Inv.zero {L : String → Bool} {e : Expr} {ts : List Tok} {p : Ast} (h : Inv L e ts p) : Reads 0 ts p := h.at (Nat.zero_le _)

theorem Chain.single {sep : Tok} {R : List Tok → Ast → Prop} {comb : List Ast → Ast} (h1 : ∀ a, comb [a] = a) {ts : List Tok} {p : Ast}
    (h : R ts p) : Chain sep R comb ts p := ⟨[ts], [p], by simp, rfl, .cons h .nil, (h1 p).symm⟩

theorem Inv.orChain {L : String → Bool} {e : Expr} {ts : List Tok} {p : Ast} (h : Inv L e ts p) : Chain .kor (Reads 2) orAll ts p := by
  by_cases hk : e.pyLvl = 1
  · exact h.or hk
  · exact Chain.single (fun _ => rfl) (h.at (by have := e.pyLvl_le; omega))

theorem Inv.andChain {L : String → Bool} {e : Expr} {ts : List Tok} {p : Ast} (h : Inv L e ts p) (hl : 2 ≤ e.pyLvl) :
    Chain .kand (Reads 3) andAll ts p := by
  by_cases hk : e.pyLvl = 2
  · exact h.and hk
  · exact Chain.single (fun _ => rfl) (h.at (by omega))

theorem Inv.addChain {L : String → Bool} {e : Expr} {ts : List Tok} {p : Ast} (h : Inv L e ts p) (hl : 5 ≤ e.pyLvl) :
    Chain .plus (Reads 6) (binAll .add) ts p := by
  by_cases hk : e.pyLvl = 5
  · exact h.add hk
  · exact Chain.single (fun _ => rfl) (h.at (by omega))

theorem Inv.mulChain {L : String → Bool} {e : Expr} {ts : List Tok} {p : Ast} (h : Inv L e ts p) (hl : 6 ≤ e.pyLvl) :
    Chain .star (Reads 7) (binAll .mul) ts p := by
  by_cases hk : e.pyLvl = 6
  · exact h.mul hk
  · exact Chain.single (fun _ => rfl) (h.at (by omega))

/-- Expressions printed as primaries. -/
theorem Inv.of8 {L : String → Bool} {e : Expr} {ts : List Tok} {p : Ast} (h8 : e.pyLvl = 8) (h : Primary ts p)
    (hv : ∀ Q I ρ S, L "len" = false → Agree Q L I ρ S → Defined Q I ρ e → Py.eval S p = some (eval I ρ e)) : Inv L e ts p where
  reads := h8 ▸ h.reads
  prim := fun _ => h
  or := fun h => by omega
  and := fun h => by omega
  add := fun h => by omega
  mul := fun h => by omega
  val := hv

/-- Negations, comparisons and negative numbers. -/
theorem Inv.ofK {L : String → Bool} {e : Expr} {ts : List Tok} {p : Ast} {k : Nat} (hk : e.pyLvl = k) (hk' : k = 3 ∨ k = 4 ∨ k = 7)
    (h : Reads k ts p)
    (hv : ∀ Q I ρ S, L "len" = false → Agree Q L I ρ S → Defined Q I ρ e → Py.eval S p = some (eval I ρ e)) : Inv L e ts p where
  reads := hk ▸ h
  prim := fun h => by omega
  or := fun h => by omega
  and := fun h => by omega
  add := fun h => by omega
  mul := fun h => by omega
  val := hv

/-- An operator with one argument prints only the argument. -/
theorem Inv.same {L : String → Bool} {e a : Expr} {ts : List Tok} {p : Ast} (h : Inv L a ts p) (hl : e.pyLvl = a.pyLvl)
    (hv : ∀ Q I ρ S, L "len" = false → Agree Q L I ρ S → Defined Q I ρ e → Py.eval S p = some (eval I ρ e)) : Inv L e ts p where
  reads := hl ▸ h.reads
  prim := fun h' => h.prim (hl ▸ h')
  or := fun h' => h.or (hl ▸ h')
  and := fun h' => h.and (hl ▸ h')
  add := fun h' => h.add (hl ▸ h')
  mul := fun h' => h.mul (hl ▸ h')
  val := hv

/-- The texts and parses of a list of expressions. -/
theorem inv_list {L : String → Bool} : ∀ es : List Expr, (∀ e ∈ es, ∃ ts p, e.toPython = some ts ∧ Inv L e ts p) →
    ∃ xs : List (List Tok × Ast), Expr.toPythons es = some (xs.map Prod.fst) ∧ All2 (fun e x => Inv L e x.1 x.2) es xs
  | [], _ => ⟨[], rfl, .nil⟩
  | e :: es, h => by
    obtain ⟨ts, p, ht, hi⟩ := h e (by simp)
    obtain ⟨xs, hx, ha⟩ := inv_list es (fun e' he => h e' (List.mem_cons_of_mem _ he))
    exact ⟨(ts, p) :: xs, by simp [Expr.toPythons, ht, hx], .cons hi ha⟩

theorem all2_mem {α β : Type} {R : α → β → Prop} {as : List α} {bs : List β} (h : All2 R as bs) : ∀ b ∈ bs, ∃ a ∈ as, R a b := by
  induction h with
  | nil => intro b hb; cases hb
  | cons h _ ih =>
    intro b hb
    rcases List.mem_cons.1 hb with rfl | hb
    · exact ⟨_, by simp, h⟩
    · obtain ⟨a, ha, hr⟩ := ih b hb
      exact ⟨a, List.mem_cons_of_mem _ ha, hr⟩

/-- Arguments of a call. -/
theorem args_zero {L : String → Bool} {es : List Expr} {xs : List (List Tok × Ast)} (h : All2 (fun e x => Inv L e x.1 x.2) es xs) :
    All2 (Reads 0) (xs.map Prod.fst) (xs.map Prod.snd) := by
  induction h with
  | nil => exact .nil
  | cons h _ ih => exact .cons h.zero ih

theorem args_val {L : String → Bool} {I : Interp} {ρ : Env} {S : Scope} (hL : L "len" = false) (hA : Agree Q L I ρ S) {es : List Expr}
    {xs : List (List Tok × Ast)} (h : All2 (fun e x => Inv L e x.1 x.2) es xs) (hd : DefinedAll Q I ρ es) :
    Py.evals S (xs.map Prod.snd) = some (es.map (eval I ρ)) := by
  induction h with
  | nil => rfl
  | cons h _ ih =>
    simp only [DefinedAll] at hd
    simp [Py.evals, h.val Q I ρ S hL hA hd.1, ih hd.2]

/-! ### Chains -/

theorem or_val {L : String → Bool} {I : Interp} {ρ : Env} {S : Scope} (hL : L "len" = false) (hA : Agree Q L I ρ S) {es : List Expr}
    {xs : List (List Tok × Ast)} (h : All2 (fun e x => Inv L e x.1 x.2) es xs) (hd : DefinedOr Q I ρ es) (hne : es ≠ []) :
    Py.eval S (orAll (xs.map Prod.snd)) = some (.bool ((es.map (eval I ρ)).any Val.asBool)) := by
  induction h with
  | nil => exact absurd rfl hne
  | cons h hs ih =>
    rename_i e x es xs
    simp only [DefinedOr] at hd
    obtain ⟨hd1, ⟨t, ht⟩, hd2⟩ := hd
    have hx := h.val Q I ρ S hL hA hd1
    cases hs with
    | nil => simp [orAll, hx, ht]
    | cons h' hs' =>
      rw [List.map_cons, orAll_cons _ (by simp)]
      simp only [Py.eval, hx, ht, Option.bind_some, Val.asBool_bool]
      cases t with
      | true => simp [ht]
      | false => exact (ih (hd2 ht) (by simp)).trans (by simp [ht])

theorem and_val {L : String → Bool} {I : Interp} {ρ : Env} {S : Scope} (hL : L "len" = false) (hA : Agree Q L I ρ S) {es : List Expr}
    {xs : List (List Tok × Ast)} (h : All2 (fun e x => Inv L e x.1 x.2) es xs) (hd : DefinedAnd Q I ρ es) (hne : es ≠ []) :
    Py.eval S (andAll (xs.map Prod.snd)) = some (.bool ((es.map (eval I ρ)).all Val.asBool)) := by
  induction h with
  | nil => exact absurd rfl hne
  | cons h hs ih =>
    rename_i e x es xs
    simp only [DefinedAnd] at hd
    obtain ⟨hd1, ⟨t, ht⟩, hd2⟩ := hd
    have hx := h.val Q I ρ S hL hA hd1
    cases hs with
    | nil => simp [andAll, hx, ht]
    | cons h' hs' =>
      rw [List.map_cons, andAll_cons _ (by simp)]
      simp only [Py.eval, hx, ht, Option.bind_some, Val.asBool_bool]
      cases t with
      | false => simp [ht]
      | true => exact (ih (hd2 ht) (by simp)).trans (by simp [ht])

theorem fold_val {o : BinOp} {g : Int → Int → Int} (ho : ∀ i j, binOp o (.int i) (.int j) = some (.int (g i j))) {L : String → Bool}
    {I : Interp} {ρ : Env} {S : Scope} (hL : L "len" = false) (hA : Agree Q L I ρ S) {es : List Expr}
    {xs : List (List Tok × Ast)} (h : All2 (fun e x => Inv L e x.1 x.2) es xs) (hd : DefinedAll Q I ρ es)
    (hi : ∀ v ∈ es.map (eval I ρ), ∃ i, v = .int i) : ∀ (p : Ast) (s : Int), Py.eval S p = some (.int s) →
    Py.eval S ((xs.map Prod.snd).foldl (.bin o) p) = some (.int ((es.map (eval I ρ)).foldl (fun s v => g s v.asInt) s)) := by
  induction h with
  | nil => intro p s hp; exact hp
  | cons h hs ih =>
    rename_i e x es xs
    intro p s hp
    simp only [DefinedAll] at hd
    obtain ⟨i, hi1⟩ := hi _ (List.mem_cons_self ..)
    have hx := h.val Q I ρ S hL hA hd.1
    rw [List.map_cons, List.foldl_cons, List.map_cons, List.foldl_cons]
    refine ih hd.2 (fun v hv => hi v (List.mem_cons_of_mem _ hv)) _ _ ?_
    simp only [Py.eval, hp, hx, Option.bind_some, hi1, ho]
    rfl

theorem bin_val {o : BinOp} {g : Int → Int → Int} {z : Int} (hz : ∀ i, g z i = i)
    (ho : ∀ i j, binOp o (.int i) (.int j) = some (.int (g i j))) {L : String → Bool}
    {I : Interp} {ρ : Env} {S : Scope} (hL : L "len" = false) (hA : Agree Q L I ρ S) {es : List Expr}
    {xs : List (List Tok × Ast)} (h : All2 (fun e x => Inv L e x.1 x.2) es xs) (hne : es ≠ []) (hd : DefinedAll Q I ρ es)
    (hi : ∀ v ∈ es.map (eval I ρ), ∃ i, v = .int i) :
    Py.eval S (binAll o (xs.map Prod.snd)) = some (.int ((es.map (eval I ρ)).foldl (fun s v => g s v.asInt) z)) := by
  cases h with
  | nil => exact absurd rfl hne
  | cons h hs =>
    simp only [DefinedAll] at hd
    obtain ⟨i, hi1⟩ := hi _ (List.mem_cons_self ..)
    have hx := h.val Q I ρ S hL hA hd.1
    rw [List.map_cons, List.map_cons, List.foldl_cons, binAll]
    rw [hi1] at hx
    rw [fold_val ho hL hA hs hd.2 (fun v hv => hi v (List.mem_cons_of_mem _ hv)) _ i hx, hi1]
    simp [hz]

theorem map1 {α β : Type} {f : α → β} {as : List α} {l : β} (h : as.map f = [l]) : ∃ a, as = [a] ∧ f a = l := by
  match as, h with
  | [a], h => exact ⟨a, rfl, by simpa using h⟩

theorem map2 {α β : Type} {f : α → β} {as : List α} {l m : β} (h : as.map f = [l, m]) : ∃ a b, as = [a, b] ∧ f a = l ∧ f b = m := by
  match as, h with
  | [a, b], h => exact ⟨a, b, rfl, by simpa using h⟩

theorem map3 {α β : Type} {f : α → β} {as : List α} {l m n : β} (h : as.map f = [l, m, n]) :
    ∃ a b c, as = [a, b, c] ∧ f a = l ∧ f b = m ∧ f c = n := by
  match as, h with
  | [a, b, c], h => exact ⟨a, b, c, rfl, by simpa using h⟩

theorem fst_single {p : List Tok} {as : List Ast} {R : List Tok → Ast → Prop} (h : All2 R [p] as) : ∃ a, as = [a] ∧ R p a := by
  cases h with
  | cons h h' => cases h'; exact ⟨_, rfl, h⟩

/-- The four chain operators. -/
theorem inv_chain {L : String → Bool} {op : Op} {t : Ty} {a b : Expr} {es : List Expr} {x y : List Tok × Ast} {xs : List (List Tok × Ast)}
    (k : Nat) (sep : Tok) (comb : List Ast → Ast) (F : Option Val → Option Val → Option Val)
    (hop : op = .or ∧ k = 1 ∧ sep = .kor ∧ comb = orAll ∧ F = orF ∨ op = .and ∧ k = 2 ∧ sep = .kand ∧ comb = andAll ∧ F = andF ∨
      op = .add ∧ k = 5 ∧ sep = .plus ∧ comb = binAll .add ∧ F = binF .add ∨
      op = .mul ∧ k = 6 ∧ sep = .star ∧ comb = binAll .mul ∧ F = binF .mul)
    (ha : All2 (fun e x => Inv L e x.1 x.2) (a :: b :: es) (x :: y :: xs)) (hl : ∀ e ∈ a :: b :: es, k ≤ e.pyLvl) :
    ∃ p, Inv L (.node op t (a :: b :: es)) (joinToks sep ((x :: y :: xs).map Prod.fst)) p := by
  have hF : ∀ S xs ys, xs ≠ [] → ys ≠ [] → Py.eval S (comb (xs ++ ys)) = F (Py.eval S (comb xs)) (Py.eval S (comb ys)) := by
    rcases hop with ⟨_, _, _, rfl, rfl⟩ | ⟨_, _, _, rfl, rfl⟩ | ⟨_, _, _, rfl, rfl⟩ | ⟨_, _, _, rfl, rfl⟩
    · exact fun S => orAll_append S
    · exact fun S => andAll_append S
    · exact fun S => binAll_append (Or.inl rfl) S
    · exact fun S => binAll_append (Or.inr rfl) S
  have h1 : ∀ a, comb [a] = a := by
    rcases hop with ⟨_, _, _, rfl, rfl⟩ | ⟨_, _, _, rfl, rfl⟩ | ⟨_, _, _, rfl, rfl⟩ | ⟨_, _, _, rfl, rfl⟩ <;> exact fun _ => rfl
  have hlv : (Expr.node op t (a :: b :: es)).pyLvl = k := by
    rcases hop with ⟨rfl, rfl, _⟩ | ⟨rfl, rfl, _⟩ | ⟨rfl, rfl, _⟩ | ⟨rfl, rfl, _⟩ <;> simp [Expr.pyLvl]
  have hch : ∀ z ∈ x :: y :: xs, Chain sep (Reads (k + 1)) comb z.1 z.2 := by
    intro z hz
    obtain ⟨e, he, hi⟩ := all2_mem ha z hz
    have := hl e he
    rcases hop with ⟨_, rfl, rfl, rfl, _⟩ | ⟨_, rfl, rfl, rfl, _⟩ | ⟨_, rfl, rfl, rfl, _⟩ | ⟨_, rfl, rfl, rfl, _⟩
    · exact hi.orChain
    · exact hi.andChain this
    · exact hi.addChain this
    · exact hi.mulChain this
  obtain ⟨ps, as, hne, hts, hR, hv⟩ := chain_flat F h1 hF (x :: y :: xs) (by simp) hch
  have hreads : Reads k (joinToks sep ps) (comb as) := by
    rcases hop with ⟨_, rfl, rfl, rfl, _⟩ | ⟨_, rfl, rfl, rfl, _⟩ | ⟨_, rfl, rfl, rfl, _⟩ | ⟨_, rfl, rfl, rfl, _⟩
    · exact reads_or ps as hne hR
    · exact reads_and ps as hne hR
    · exact reads_sum hne hR
    · exact reads_prod hne hR
  refine ⟨comb as, ?_⟩
  have hval : ∀ Q I ρ S, L "len" = false → Agree Q L I ρ S → Defined Q I ρ (.node op t (a :: b :: es)) →
      Py.eval S (comb as) = some (eval I ρ (.node op t (a :: b :: es))) := by
    intro Q I ρ S hL hA hd
    rw [hv S]
    simp only [eval, evals_eq_map]
    rcases hop with ⟨rfl, rfl, rfl, rfl, _⟩ | ⟨rfl, rfl, rfl, rfl, _⟩ | ⟨rfl, rfl, rfl, rfl, _⟩ | ⟨rfl, rfl, rfl, rfl, _⟩
    · exact or_val hL hA ha (by simpa [Defined] using hd) (by simp)
    · exact and_val hL hA ha (by simpa [Defined] using hd) (by simp)
    · simp only [Defined] at hd
      exact bin_val (g := fun i j => i + j) (z := 0) (by simp) (fun _ _ => rfl) hL hA ha (by simp) hd.1 hd.2
    · simp only [Defined] at hd
      exact bin_val (g := fun i j => i * j) (z := 1) (by simp) (fun _ _ => rfl) hL hA ha (by simp) hd.1 hd.2
  rw [hts]
  rcases hop with ⟨_, rfl, rfl, rfl, _⟩ | ⟨_, rfl, rfl, rfl, _⟩ | ⟨_, rfl, rfl, rfl, _⟩ | ⟨_, rfl, rfl, rfl, _⟩
  · exact ⟨hlv ▸ hreads, fun h => by omega, fun _ => ⟨ps, as, hne, rfl, hR, rfl⟩, fun h => by omega, fun h => by omega, fun h => by omega, hval⟩
  · exact ⟨hlv ▸ hreads, fun h => by omega, fun h => by omega, fun _ => ⟨ps, as, hne, rfl, hR, rfl⟩, fun h => by omega, fun h => by omega, hval⟩
  · exact ⟨hlv ▸ hreads, fun h => by omega, fun h => by omega, fun h => by omega, fun _ => ⟨ps, as, hne, rfl, hR, rfl⟩, fun h => by omega, hval⟩
  · exact ⟨hlv ▸ hreads, fun h => by omega, fun h => by omega, fun h => by omega, fun h => by omega, fun _ => ⟨ps, as, hne, rfl, hR, rfl⟩, hval⟩

theorem cmp_val {I : Interp} {op : Op} {o : CmpOp}
    (hop : op = .eq ∧ o = .eq ∨ op = .lt ∧ o = .lt ∨ op = .le ∧ o = .le ∨ op = .gt ∧ o = .gt ∨ op = .ge ∧ o = .ge) (v w : Val)
    (h : OpDefined Q I op [v, w]) : cmpOp o v w = some (evalOp I op [v, w]) := by
  rcases hop with ⟨rfl, rfl⟩ | ⟨rfl, rfl⟩ | ⟨rfl, rfl⟩ | ⟨rfl, rfl⟩ | ⟨rfl, rfl⟩
  · obtain ⟨a, b, hv, hc⟩ := h
    simp only [List.cons.injEq, and_true] at hv
    obtain ⟨rfl, rfl⟩ := hv
    simp [cmpOp, hc.valEq, evalOp]
  all_goals
    obtain ⟨i, j, hv⟩ := h
    simp only [List.cons.injEq, and_true] at hv
    obtain ⟨rfl, rfl⟩ := hv
    rfl

theorem arith_val {I : Interp} {op : Op} {o : BinOp}
    (hop : op = .sub ∧ o = .sub ∨ op = .div ∧ o = .floordiv ∨ op = .mod ∧ o = .mod) (v w : Val)
    (h : OpDefined Q I op [v, w]) : binOp o v w = some (evalOp I op [v, w]) := by
  rcases hop with ⟨rfl, rfl⟩ | ⟨rfl, rfl⟩ | ⟨rfl, rfl⟩
  · obtain ⟨i, j, hv⟩ := h
    simp only [List.cons.injEq, and_true] at hv
    obtain ⟨rfl, rfl⟩ := hv
    rfl
  all_goals
    obtain ⟨i, j, hv, hj, he⟩ := h
    simp only [List.cons.injEq, and_true] at hv
    obtain ⟨rfl, rfl⟩ := hv
    simp [binOp, hj, evalOp, he]

/-- Comparisons. -/
theorem inv_cmp {L : String → Bool} {op : Op} {o : CmpOp} {t : Ty} {a b : Expr} {x y : List Tok × Ast}
    (hop : op = .eq ∧ o = .eq ∨ op = .lt ∧ o = .lt ∨ op = .le ∧ o = .le ∨ op = .gt ∧ o = .gt ∨ op = .ge ∧ o = .ge)
    (ha : Inv L a x.1 x.2) (hb : Inv L b y.1 y.2) (hla : 5 ≤ a.pyLvl) (hlb : 5 ≤ b.pyLvl) :
    Inv L (.node op t [a, b]) (x.1 ++ .cmp o :: y.1) (.cmp o x.2 y.2) := by
  refine Inv.ofK (k := 4) ?_ (by omega) (reads_cmp o (ha.at hla) (hb.at hlb)) ?_
  · rcases hop with ⟨rfl, _⟩ | ⟨rfl, _⟩ | ⟨rfl, _⟩ | ⟨rfl, _⟩ | ⟨rfl, _⟩ <;> rfl
  · intro Q I ρ S hL hA hd
    have hd' : DefinedAll Q I ρ [a, b] ∧ OpDefined Q I op [eval I ρ a, eval I ρ b] := by
      rcases hop with ⟨rfl, _⟩ | ⟨rfl, _⟩ | ⟨rfl, _⟩ | ⟨rfl, _⟩ | ⟨rfl, _⟩ <;> simpa only [Defined, List.map_cons, List.map_nil] using hd
    simp only [DefinedAll] at hd'
    simp only [Py.eval, ha.val Q I ρ S hL hA hd'.1.1, hb.val Q I ρ S hL hA hd'.1.2.1, Option.bind_some, eval, evals]
    exact cmp_val hop _ _ hd'.2

/-- Differences, quotients and remainders. -/
theorem inv_arith {L : String → Bool} {op : Op} {o : BinOp} {t : Ty} {a b : Expr} {x y : List Tok × Ast} {ts : List Tok}
    (hop : op = .sub ∧ o = .sub ∨ op = .div ∧ o = .floordiv ∨ op = .mod ∧ o = .mod)
    (ha : Inv L a x.1 x.2) (hb : Inv L b y.1 y.2) (hr : Reads 0 ts (.bin o x.2 y.2)) :
    Inv L (.node op t [a, b]) (.lpar :: (ts ++ [.rpar])) (.bin o x.2 y.2) := by
  refine Inv.of8 ?_ (atom_paren hr).primary ?_
  · rcases hop with ⟨rfl, _⟩ | ⟨rfl, _⟩ | ⟨rfl, _⟩ <;> rfl
  · intro Q I ρ S hL hA hd
    have hd' : DefinedAll Q I ρ [a, b] ∧ OpDefined Q I op [eval I ρ a, eval I ρ b] := by
      rcases hop with ⟨rfl, _⟩ | ⟨rfl, _⟩ | ⟨rfl, _⟩ <;> simpa only [Defined, List.map_cons, List.map_nil] using hd
    simp only [DefinedAll] at hd'
    simp only [Py.eval, ha.val Q I ρ S hL hA hd'.1.1, hb.val Q I ρ S hL hA hd'.1.2.1, Option.bind_some, eval, evals]
    exact arith_val hop _ _ hd'.2

/-- Conditionals. -/
theorem inv_ite {L : String → Bool} {t : Ty} {c a b : Expr} {z x y : List Tok × Ast}
    (hc : Inv L c z.1 z.2) (ha : Inv L a x.1 x.2) (hb : Inv L b y.1 y.2) :
    Inv L (.node .ite t [c, a, b]) (.lpar :: (x.1 ++ .kif :: (z.1 ++ .kelse :: (y.1 ++ [.rpar])))) (.ite z.2 x.2 y.2) := by
  have he : x.1 ++ .kif :: (z.1 ++ .kelse :: (y.1 ++ [.rpar])) = (x.1 ++ .kif :: (z.1 ++ .kelse :: y.1)) ++ [Tok.rpar] := by simp
  rw [he]
  refine Inv.of8 rfl (atom_paren (reads_ite (ha.at (a.pyLvl_le).1) (hc.at (c.pyLvl_le).1) hb.zero)).primary ?_
  intro Q I ρ S hL hA hd
  simp only [Defined] at hd
  obtain ⟨hdc, ⟨v, hv⟩, h1, h2⟩ := hd
  simp only [Py.eval, hc.val Q I ρ S hL hA hdc, Option.bind_some, eval, evals, evalOp, hv]
  cases v with
  | true => exact (ha.val Q I ρ S hL hA (h1 hv))
  | false => exact (hb.val Q I ρ S hL hA (h2 hv))

/-- Negations. -/
theorem inv_not {L : String → Bool} {t : Ty} {a : Expr} {x : List Tok × Ast} (ha : Inv L a x.1 x.2) (hl : 3 ≤ a.pyLvl) :
    Inv L (.node .not t [a]) (.knot :: x.1) (.not x.2) := by
  refine Inv.ofK (k := 3) rfl (by omega) (reads_not (ha.at hl)) ?_
  intro Q I ρ S hL hA hd
  simp only [Defined, DefinedAll] at hd
  simp only [Py.eval, ha.val Q I ρ S hL hA hd.1.1, Option.bind_some, eval, evals, evalOp]

/-- Tuples. -/
theorem inv_tuple {L : String → Bool} {t : Ty} {es : List Expr} {xs : List (List Tok × Ast)} (h : All2 (fun e x => Inv L e x.1 x.2) es xs)
    (hl : es.length ≠ 1) :
    Inv L (.node .tuple t es) (.lpar :: (joinToks .comma (xs.map Prod.fst) ++ [.rpar])) (.tuple (xs.map Prod.snd)) := by
  refine Inv.of8 rfl ?_ ?_
  · have hz := args_zero h
    cases h with
    | nil => exact atom_unit.primary
    | cons h1 hs =>
      cases hs with
      | nil => exact absurd rfl hl
      | cons h2 hs =>
        cases hz with
        | cons hz1 hz2 => exact (atom_tuple hz1 hz2).primary
  · intro Q I ρ S hL hA hd
    simp only [Defined] at hd
    simp only [Py.eval, args_val hL hA h hd.1, Option.bind_some, eval, evals_eq_map, evalOp]

/-- Applications of function values. -/
theorem inv_callValue {L : String → Bool} {t : Ty} {e : Expr} {es : List Expr} {x : List Tok × Ast} {xs : List (List Tok × Ast)}
    (he : Inv L e x.1 x.2) (h : All2 (fun e x => Inv L e x.1 x.2) es xs) (hl : e.pyLvl = 8) :
    Inv L (.node .callValue t (e :: es)) (x.1 ++ .lpar :: (joinToks .comma (xs.map Prod.fst) ++ [.rpar])) (.call x.2 (xs.map Prod.snd)) := by
  refine Inv.of8 rfl ((he.prim hl).trail (trail_call (args_zero h) _)) ?_
  intro Q I ρ S hL hA hd
  simp only [Defined, DefinedAll, OpDefined] at hd
  obtain ⟨⟨hd1, hd2⟩, g, us, hv, hg, hq⟩ := hd
  simp only [List.map_cons, List.cons.injEq] at hv
  simp only [Py.eval, he.val Q I ρ S hL hA hd1, args_val hL hA h hd2, Option.bind_some, eval, evals_eq_map, List.map_cons, evalOp, hv.1]
  rw [← hv.2] at hq
  simp only [Scope.apply, if_neg hg, hA.glob _ _ hg hq, hA.apply]

/-! ### List primitives -/

theorem pySlice_tail (vs : List Val) (n : Int) (h0 : 0 ≤ n) (h1 : n ≤ vs.length) : Py.slice vs (some n) none = vs.drop n.toNat := by
  have : min n.toNat vs.length = n.toNat := by omega
  simp [Py.slice, Py.bound, h0, this]

theorem pySlice_take (vs : List Val) (n : Int) (h0 : 0 ≤ n) (h1 : n ≤ vs.length) : Py.slice vs none (some n) = vs.take n.toNat := by
  have : min n.toNat vs.length = n.toNat := by omega
  simp [Py.slice, Py.bound, h0, this]

theorem pySlice_both (vs : List Val) (a b : Int) (h0 : 0 ≤ a) (h1 : a ≤ b) (h2 : b ≤ vs.length) :
    Py.slice vs (some a) (some b) = (vs.take b.toNat).drop a.toNat := by
  have e1 : min a.toNat vs.length = a.toNat := by omega
  have e2 : min b.toNat vs.length = b.toNat := by omega
  have e3 : 0 ≤ b := by omega
  simp [Py.slice, Py.bound, h0, e1, e2, e3]

theorem pyIndex_in (vs : List Val) (n : Int) (h0 : 0 ≤ n) (h1 : n < vs.length) : ∃ v, vs[n.toNat]? = some v ∧ Py.index vs n = some v := by
  have : n.toNat < vs.length := by omega
  exact ⟨vs[n.toNat], by simp [this], by simp [Py.index, h0, this]⟩

/-- Calls. -/
theorem inv_call {L : String → Bool} {f : String} {t : Ty} {es : List Expr} {xs : List (List Tok × Ast)}
    (h : All2 (fun e x => Inv L e x.1 x.2) es xs) (hs : CallSafe L f (es.map Expr.pyLvl)) :
    ∃ ts p, callToPython f (xs.map Prod.fst) = some ts ∧ Inv L (.node (.call f) t es) ts p := by
  by_cases c1 : f ∈ ["list_length", "matrix_length"]
  · simp only [CallSafe, if_pos c1] at hs
    obtain ⟨l, hs⟩ := hs
    obtain ⟨a, rfl, -⟩ := map1 hs
    cases h with
    | cons ha h =>
    cases h
    rename_i x
    refine ⟨_, .call (.name "len") [x.2], by simp only [callToPython, if_pos c1]; rfl, ?_⟩
    refine Inv.of8 rfl ((atom_name "len").primary.trail (trail_call (ps := [x.1]) (.cons ha.zero .nil) _)) ?_
    intro Q I ρ S hL hA hd
    simp only [Defined, DefinedAll, OpDefined, CallDefined, if_pos c1, List.map_cons, List.map_nil] at hd
    obtain ⟨⟨hd1, -⟩, us, hv⟩ := hd
    simp only [List.cons.injEq, and_true] at hv
    simp only [Py.eval, Py.evals, ha.val Q I ρ S hL hA hd1, hv, Option.bind_some, eval, evals, evalOp, hA.nonloc _ hL, Option.getD_none]
    simp only [Scope.apply, if_true]
    simp only [List.mem_cons, List.not_mem_nil, or_false] at c1
    rcases c1 with rfl | rfl
    · rw [hA.prims.list.len]
    · rw [hA.prims.matrix.len]
  by_cases c2 : f ∈ ["list_get", "matrix_get"]
  · simp only [CallSafe, if_neg c1, if_pos c2] at hs
    obtain ⟨l, hs⟩ := hs
    obtain ⟨a, i, rfl, hla, -⟩ := map2 hs
    cases h with
    | cons ha h =>
    cases h with
    | cons hi h =>
    cases h
    rename_i x y
    refine ⟨_, .index x.2 y.2, by simp only [callToPython, if_neg c1, if_pos c2]; rfl, ?_⟩
    refine Inv.of8 rfl ((ha.prim hla).trail (trail_index hi.zero _)) ?_
    intro Q I ρ S hL hA hd
    simp only [Defined, DefinedAll, OpDefined, CallDefined, if_neg c1, if_pos c2, List.map_cons, List.map_nil] at hd
    obtain ⟨⟨hd1, hd2, -⟩, us, n, hv, h0, h1⟩ := hd
    simp only [List.cons.injEq, and_true] at hv
    obtain ⟨v, hg, hx⟩ := pyIndex_in us n h0 h1
    simp only [Py.eval, ha.val Q I ρ S hL hA hd1, hi.val Q I ρ S hL hA hd2, hv.1, hv.2, Option.bind_some, eval, evals, evalOp, hx]
    simp only [List.mem_cons, List.not_mem_nil, or_false] at c2
    rcases c2 with rfl | rfl
    · rw [hA.prims.list.get us n v h0 hg]
    · rw [hA.prims.matrix.get us n v h0 hg]
  by_cases c3 : f ∈ ["list_prepend", "matrix_prepend"]
  · simp only [CallSafe, if_neg c1, if_neg c2, if_pos c3] at hs
    obtain ⟨_, l, hs, hl⟩ := hs
    obtain ⟨a, i, rfl, -, rfl⟩ := map2 hs
    cases h with
    | cons ha h =>
    cases h with
    | cons hi h =>
    cases h
    rename_i x y
    refine ⟨_, .list [x.2, .starred y.2], by simp only [callToPython, if_neg c1, if_neg c2, if_pos c3]; rfl, ?_⟩
    refine Inv.of8 rfl (atom_prepend ha.zero (hi.at hl)).primary ?_
    intro Q I ρ S hL hA hd
    simp only [Defined, DefinedAll, OpDefined, CallDefined, if_neg c1, if_neg c2, if_pos c3, List.map_cons, List.map_nil] at hd
    obtain ⟨⟨hd1, hd2, -⟩, v, us, hv, hne⟩ := hd
    simp only [List.cons.injEq, and_true] at hv
    have hx := ha.val Q I ρ S hL hA hd1
    have hev : Py.evalItems S [x.2, .starred y.2] = some (v :: us) := by
      generalize x.2 = q at hx ⊢
      cases q <;> first
        | (simp [Py.eval] at hx; done)
        | simp only [Py.evalItems, hx, hi.val Q I ρ S hL hA hd2, hv.1, hv.2, Option.bind_some, List.append_nil]
    simp only [Py.eval, hev, Option.bind_some, eval, evals, evalOp, hv.1, hv.2]
    simp only [List.mem_cons, List.not_mem_nil, or_false] at c3
    rcases c3 with rfl | rfl
    · rw [hA.prims.list.pre v us trivial]
    · rw [hA.prims.matrix.pre v us (hne rfl)]
  by_cases c4 : f ∈ ["list_append", "matrix_append"]
  · simp only [CallSafe, if_neg c1, if_neg c2, if_neg c3, if_pos c4] at hs
    obtain ⟨l, _, hs, hl⟩ := hs
    obtain ⟨a, i, rfl, rfl, -⟩ := map2 hs
    cases h with
    | cons ha h =>
    cases h with
    | cons hi h =>
    cases h
    rename_i x y
    refine ⟨_, .list [.starred x.2, y.2], by simp only [callToPython, if_neg c1, if_neg c2, if_neg c3, if_pos c4]; rfl, ?_⟩
    refine Inv.of8 rfl (atom_append (ha.at hl) hi.zero).primary ?_
    intro Q I ρ S hL hA hd
    simp only [Defined, DefinedAll, OpDefined, CallDefined, if_neg c1, if_neg c2, if_neg c3, if_pos c4, List.map_cons, List.map_nil] at hd
    obtain ⟨⟨hd1, hd2, -⟩, us, v, hv⟩ := hd
    simp only [List.cons.injEq, and_true] at hv
    have hy := hi.val Q I ρ S hL hA hd2
    have hev : Py.evalItems S [.starred x.2, y.2] = some (us ++ [v]) := by
      generalize y.2 = q at hy ⊢
      cases q <;> first
        | (simp [Py.eval] at hy; done)
        | simp only [Py.evalItems, hy, ha.val Q I ρ S hL hA hd1, hv.1, hv.2, Option.bind_some]
    simp only [Py.eval, hev, Option.bind_some, eval, evals, evalOp, hv.1, hv.2]
    simp only [List.mem_cons, List.not_mem_nil, or_false] at c4
    rcases c4 with rfl | rfl
    · rw [hA.prims.list.app us v]
    · rw [hA.prims.matrix.app us v]
  by_cases c5 : f ∈ ["list_empty", "matrix_empty"]
  · simp only [CallSafe, if_neg c1, if_neg c2, if_neg c3, if_neg c4, if_pos c5, List.map_eq_nil_iff] at hs
    subst hs
    cases h
    refine ⟨_, .list [], by simp only [callToPython, if_neg c1, if_neg c2, if_neg c3, if_neg c4, if_pos c5]; rfl, ?_⟩
    refine Inv.of8 rfl atom_nil.primary ?_
    intro Q I ρ S hL hA hd
    simp only [Py.eval, Py.evalItems, Option.bind_some, eval, evals, evalOp]
    simp only [List.mem_cons, List.not_mem_nil, or_false] at c5
    rcases c5 with rfl | rfl
    · rw [hA.prims.list.emp]
    · rw [hA.prims.matrix.emp]
  by_cases c6 : f ∈ ["list_tail", "matrix_tail"]
  · simp only [CallSafe, if_neg c1, if_neg c2, if_neg c3, if_neg c4, if_neg c5, if_pos c6] at hs
    obtain ⟨l, hs⟩ := hs
    obtain ⟨a, i, rfl, hla, -⟩ := map2 hs
    cases h with
    | cons ha h =>
    cases h with
    | cons hi h =>
    cases h
    rename_i x y
    refine ⟨_, .slice x.2 (some y.2) none, by simp only [callToPython, if_neg c1, if_neg c2, if_neg c3, if_neg c4, if_neg c5, if_pos c6]; rfl, ?_⟩
    refine Inv.of8 rfl ((ha.prim hla).trail (trail_tail hi.zero _)) ?_
    intro Q I ρ S hL hA hd
    simp only [Defined, DefinedAll, OpDefined, CallDefined, if_neg c1, if_neg c2, if_neg c3, if_neg c4, if_neg c5, if_pos c6,
      List.map_cons, List.map_nil] at hd
    obtain ⟨⟨hd1, hd2, -⟩, us, n, hv, h0, h1⟩ := hd
    simp only [List.cons.injEq, and_true] at hv
    simp only [Py.eval, Py.evalO, ha.val Q I ρ S hL hA hd1, hi.val Q I ρ S hL hA hd2, hv.1, hv.2, Py.int?, Option.bind_some, eval, evals, evalOp,
      pySlice_tail us n h0 h1]
    simp only [List.mem_cons, List.not_mem_nil, or_false] at c6
    rcases c6 with rfl | rfl
    · rw [hA.prims.list.tail us n h0 h1]
    · rw [hA.prims.matrix.tail us n h0 h1]
  by_cases c7 : f ∈ ["list_take", "matrix_take"]
  · simp only [CallSafe, if_neg c1, if_neg c2, if_neg c3, if_neg c4, if_neg c5, if_neg c6, if_pos c7] at hs
    obtain ⟨l, hs⟩ := hs
    obtain ⟨a, i, rfl, hla, -⟩ := map2 hs
    cases h with
    | cons ha h =>
    cases h with
    | cons hi h =>
    cases h
    rename_i x y
    refine ⟨_, .slice x.2 none (some y.2), by
      simp only [callToPython, if_neg c1, if_neg c2, if_neg c3, if_neg c4, if_neg c5, if_neg c6, if_pos c7]; rfl, ?_⟩
    refine Inv.of8 rfl ((ha.prim hla).trail (trail_take hi.zero _)) ?_
    intro Q I ρ S hL hA hd
    simp only [Defined, DefinedAll, OpDefined, CallDefined, if_neg c1, if_neg c2, if_neg c3, if_neg c4, if_neg c5, if_neg c6, if_pos c7,
      List.map_cons, List.map_nil] at hd
    obtain ⟨⟨hd1, hd2, -⟩, us, n, hv, h0, h1⟩ := hd
    simp only [List.cons.injEq, and_true] at hv
    simp only [Py.eval, Py.evalO, ha.val Q I ρ S hL hA hd1, hi.val Q I ρ S hL hA hd2, hv.1, hv.2, Py.int?, Option.bind_some, eval, evals, evalOp,
      pySlice_take us n h0 h1]
    simp only [List.mem_cons, List.not_mem_nil, or_false] at c7
    rcases c7 with rfl | rfl
    · rw [hA.prims.list.take us n h0 h1]
    · rw [hA.prims.matrix.take us n h0 h1]
  by_cases c8 : f ∈ ["vec_slice", "matrix_row_slice"]
  · simp only [CallSafe, if_neg c1, if_neg c2, if_neg c3, if_neg c4, if_neg c5, if_neg c6, if_neg c7, if_pos c8] at hs
    obtain ⟨_, _, hs⟩ := hs
    obtain ⟨a, i, j, rfl, hla, -⟩ := map3 hs
    cases h with
    | cons ha h =>
    cases h with
    | cons hi h =>
    cases h with
    | cons hj h =>
    cases h
    rename_i x y z
    refine ⟨_, .slice x.2 (some y.2) (some z.2), by
      simp only [callToPython, if_neg c1, if_neg c2, if_neg c3, if_neg c4, if_neg c5, if_neg c6, if_neg c7, if_pos c8]; rfl, ?_⟩
    refine Inv.of8 rfl ((ha.prim hla).trail (trail_slice hi.zero hj.zero _)) ?_
    intro Q I ρ S hL hA hd
    simp only [Defined, DefinedAll, OpDefined, CallDefined, if_neg c1, if_neg c2, if_neg c3, if_neg c4, if_neg c5, if_neg c6, if_neg c7,
      if_pos c8, List.map_cons, List.map_nil] at hd
    obtain ⟨⟨hd1, hd2, hd3, -⟩, us, n, m, hv, h0, h1, h2⟩ := hd
    simp only [List.cons.injEq, and_true] at hv
    simp only [Py.eval, Py.evalO, ha.val Q I ρ S hL hA hd1, hi.val Q I ρ S hL hA hd2, hj.val Q I ρ S hL hA hd3, hv.1, hv.2.1, hv.2.2, Py.int?,
      Option.bind_some, eval, evals, evalOp, pySlice_both us n m h0 h1 h2]
    simp only [List.mem_cons, List.not_mem_nil, or_false] at c8
    rcases c8 with rfl | rfl
    · rw [hA.prims.list.slice us n m h0 h1 h2]
    · rw [hA.prims.matrix.slice us n m h0 h1 h2]
  by_cases c9 : f ∈ ["vec_slice_with_length", "matrix_row_slice_with_length"]
  · simp only [CallSafe, if_neg c1, if_neg c2, if_neg c3, if_neg c4, if_neg c5, if_neg c6, if_neg c7, if_neg c8, if_pos c9] at hs
    obtain ⟨_, _, hs, hl1, hl2⟩ := hs
    obtain ⟨a, i, j, rfl, hla, rfl, rfl⟩ := map3 hs
    cases h with
    | cons ha h =>
    cases h with
    | cons hi h =>
    cases h with
    | cons hj h =>
    cases h
    rename_i x y z
    have hch : ∀ w ∈ [y, z], Chain .plus (Reads 6) (binAll .add) w.1 w.2 := by
      intro w hw
      rcases List.mem_cons.1 hw with rfl | hw
      · exact hi.addChain hl1
      · rcases List.mem_cons.1 hw with rfl | hw
        · exact hj.addChain hl2
        · cases hw
    obtain ⟨ps, as, hne, hts, hR, hv⟩ := chain_flat (binF .add) (fun _ => rfl) (fun S => binAll_append (Or.inl rfl) S) [y, z] (by simp) hch
    have hsum := (reads_sum hne hR).lift (k := 0) (by omega) (by omega)
    have hsum' : Reads 0 (y.1 ++ .plus :: z.1) (binAll .add as) := by
      rw [← hts] at hsum
      exact hsum
    refine ⟨_, .slice x.2 (some y.2) (some (binAll .add as)), by
      simp only [callToPython, if_neg c1, if_neg c2, if_neg c3, if_neg c4, if_neg c5, if_neg c6, if_neg c7, if_neg c8, if_pos c9]; rfl, ?_⟩
    have he : x.1 ++ .lbr :: (y.1 ++ .colon :: (y.1 ++ .plus :: (z.1 ++ [Tok.rbr]))) =
        x.1 ++ (.lbr :: (y.1 ++ .colon :: ((y.1 ++ .plus :: z.1) ++ [.rbr]))) := by simp
    show Inv L _ (x.1 ++ .lbr :: (y.1 ++ .colon :: (y.1 ++ .plus :: (z.1 ++ [Tok.rbr])))) _
    rw [he]
    refine Inv.of8 rfl ((ha.prim hla).trail (trail_slice hi.zero hsum' _)) ?_
    intro Q I ρ S hL hA hd
    simp only [Defined, DefinedAll, OpDefined, CallDefined, if_neg c1, if_neg c2, if_neg c3, if_neg c4, if_neg c5, if_neg c6, if_neg c7,
      if_neg c8, if_pos c9, List.map_cons, List.map_nil] at hd
    obtain ⟨⟨hd1, hd2, hd3, -⟩, us, n, m, hv', h0, h1, h2⟩ := hd
    simp only [List.cons.injEq, and_true] at hv'
    have hi' := hi.val Q I ρ S hL hA hd2
    have hj' := hj.val Q I ρ S hL hA hd3
    rw [hv'.2.1] at hi'
    rw [hv'.2.2] at hj'
    have hs : Py.eval S (binAll .add as) = some (.int (n + m)) := by
      rw [hv S]
      show Py.eval S (.bin .add y.2 z.2) = _
      simp only [Py.eval, hi', hj', Option.bind_some, binOp]
    have hsl : Py.slice us (some n) (some (n + m)) = (us.drop n.toNat).take m.toNat := by
      rw [pySlice_both us n (n + m) h0 (by omega) h2, List.drop_take]
      congr 1
      omega
    simp only [Py.eval, Py.evalO, ha.val Q I ρ S hL hA hd1, hi', hs, hv'.1, hv'.2.1, hv'.2.2, Py.int?,
      Option.bind_some, eval, evals, evalOp, hsl]
    simp only [List.mem_cons, List.not_mem_nil, or_false] at c9
    rcases c9 with rfl | rfl
    · rw [hA.prims.list.sliceLen us n m h0 h1 h2]
    · rw [hA.prims.matrix.sliceLen us n m h0 h1 h2]
  · simp only [CallSafe, if_neg c1, if_neg c2, if_neg c3, if_neg c4, if_neg c5, if_neg c6, if_neg c7, if_neg c8, if_neg c9] at hs
    refine ⟨_, .call (.name f) (xs.map Prod.snd), by
      simp only [callToPython, if_neg c1, if_neg c2, if_neg c3, if_neg c4, if_neg c5, if_neg c6, if_neg c7, if_neg c8, if_neg c9]; rfl, ?_⟩
    refine Inv.of8 rfl ((atom_name f).primary.trail (trail_call (args_zero h) _)) ?_
    intro Q I ρ S hL hA hd
    simp only [Defined, OpDefined, CallDefined, if_neg c1, if_neg c2, if_neg c3, if_neg c4, if_neg c5, if_neg c6, if_neg c7, if_neg c8,
      if_neg c9] at hd
    simp only [Py.eval, hA.nonloc f hs.2, Option.getD_none, Option.bind_some, args_val hL hA h hd.1, Scope.apply, if_neg hs.1,
      hA.glob f _ hs.1 hd.2, eval, evals_eq_map, evalOp]

/-- Every safe expression has a text with the invariant. -/
theorem toPython_inv {L : String → Bool} : ∀ e : Expr, e.PySafe L → ∃ ts p, e.toPython = some ts ∧ Inv L e ts p := by
  intro e
  induction e using Expr.ind with
  | hv n t =>
    intro h
    rw [Expr.PySafe] at h
    refine ⟨[.name n], .name n, by rw [Expr.toPython], Inv.of8 rfl (atom_name n).primary ?_⟩
    intro Q I ρ S hL hA _
    simp [Py.eval, hA.loc n h, eval]
  | hl l =>
    intro _
    cases l with
    | int i =>
      by_cases hi : i < 0
      · refine ⟨[.minus, .num i.natAbs], .neg (.num i.natAbs), by simp [Expr.toPython, Lit.toPython, hi],
          Inv.ofK (k := 7) (by simp [Expr.pyLvl, hi]) (by omega) (reads_neg _) ?_⟩
        intro Q I ρ S hL hA _
        have : -(i.natAbs : Int) = i := by omega
        simp only [Py.eval, Option.bind_some, Py.int?, eval, Lit.val, this]
      · refine ⟨[.num i.natAbs], .num i.natAbs, by simp [Expr.toPython, Lit.toPython, hi],
          Inv.of8 (by simp [Expr.pyLvl, hi]) (atom_num _).primary ?_⟩
        intro Q I ρ S hL hA _
        have : (i.natAbs : Int) = i := by omega
        simp only [Py.eval, eval, Lit.val, this]
    | bool b =>
      cases b with
      | true => exact ⟨[.tru], .bool true, by simp [Expr.toPython, Lit.toPython], Inv.of8 rfl atom_tru.primary (fun _ _ _ _ _ _ _ => rfl)⟩
      | false => exact ⟨[.fls], .bool false, by simp [Expr.toPython, Lit.toPython], Inv.of8 rfl atom_fls.primary (fun _ _ _ _ _ _ _ => rfl)⟩
  | hn op t args ih =>
    intro h
    rw [Expr.PySafe, Expr.PySafes_iff] at h
    obtain ⟨ha, ho⟩ := h
    obtain ⟨xs, hx, hi⟩ := inv_list args (fun e he => ih e he (ha e he))
    have key : ∀ ts p, opToPython op (xs.map Prod.fst) = some ts → Inv L (.node op t args) ts p →
        ∃ ts p, (Expr.node op t args).toPython = some ts ∧ Inv L (.node op t args) ts p := by
      intro ts p h1 h2
      exact ⟨ts, p, by rw [Expr.toPython, hx, Option.bind_some, h1], h2⟩
    cases op with
    | implies => exact absurd ho id
    | choose => exact absurd ho id
    | call f =>
      obtain ⟨ts, p, h1, h2⟩ := inv_call (t := t) hi ho
      exact key ts p h1 h2
    | callValue =>
      obtain ⟨ms, hm⟩ := ho
      cases hi with
      | nil => simp at hm
      | cons h1 h2 => exact key _ _ rfl (inv_callValue h1 h2 (by simpa using (List.cons.inj hm).1))
    | tuple => exact key _ _ rfl (inv_tuple hi (by simpa [OpSafe] using ho))
    | ite =>
      simp only [OpSafe, List.length_map] at ho
      match args, xs, hi, ho with
      | [c, a, b], _, .cons h1 (.cons h2 (.cons h3 .nil)), _ => exact key _ _ rfl (inv_ite h1 h2 h3)
    | not =>
      obtain ⟨l, hl, h3⟩ := ho
      obtain ⟨a, rfl, rfl⟩ := map1 hl
      cases hi with
      | cons h1 h2 => cases h2; exact key _ _ rfl (inv_not h1 h3)
    | eq | lt | le | gt | ge =>
      obtain ⟨l, m, hl, h3, h4⟩ := ho
      obtain ⟨a, b, rfl, rfl, rfl⟩ := map2 hl
      cases hi with
      | cons h1 h2 =>
      cases h2 with
      | cons h2 h5 => cases h5; exact key _ _ rfl (inv_cmp (by simp) h1 h2 h3 h4)
    | sub =>
      obtain ⟨l, m, hl, h3, h4⟩ := ho
      obtain ⟨a, b, rfl, rfl, rfl⟩ := map2 hl
      cases hi with
      | cons h1 h2 =>
      cases h2 with
      | cons h2 h5 =>
        cases h5
        rename_i x y
        obtain ⟨ps, as, hne, hts, hR, hp⟩ := h1.addChain h3
        have hr := (reads_sub ps as hne hR hts hp (h2.at h4)).lift (k := 0) (by omega) (by omega)
        refine key _ (.bin .sub x.2 y.2) rfl ?_
        have := inv_arith (t := t) (Or.inl ⟨rfl, rfl⟩) h1 h2 hr
        simpa using this
    | div | mod =>
      obtain ⟨l, m, hl, h3, h4⟩ := ho
      obtain ⟨a, b, rfl, rfl, rfl⟩ := map2 hl
      cases hi with
      | cons h1 h2 =>
      cases h2 with
      | cons h2 h5 =>
        cases h5
        rename_i x y
        obtain ⟨ps, as, hne, hts, hR, hp⟩ := h1.mulChain h3
        first
          | (have hr := (reads_divmod .slashslash .floordiv (Or.inl ⟨rfl, rfl⟩) ps as hne hR hts hp (h2.at h4)).lift (k := 0) (by omega) (by omega)
             refine key _ (.bin .floordiv x.2 y.2) rfl ?_
             have := inv_arith (t := t) (op := .div) (Or.inr (Or.inl ⟨rfl, rfl⟩)) h1 h2 hr
             simpa using this)
          | (have hr := (reads_divmod .percent .mod (Or.inr ⟨rfl, rfl⟩) ps as hne hR hts hp (h2.at h4)).lift (k := 0) (by omega) (by omega)
             refine key _ (.bin .mod x.2 y.2) rfl ?_
             have := inv_arith (t := t) (op := .mod) (Or.inr (Or.inr ⟨rfl, rfl⟩)) h1 h2 hr
             simpa using this)
    | or =>
      match args, xs, hi, ho with
      | [], _, _, ho => exact absurd rfl ho
      | [a], [x], .cons h1 .nil, _ =>
        refine key _ x.2 rfl (h1.same (by rw [Expr.pyLvl]) ?_)
        intro Q I ρ S hL hA hd
        simp only [Defined, DefinedOr] at hd
        obtain ⟨hd1, ⟨v, hv⟩, -⟩ := hd
        rw [h1.val Q I ρ S hL hA hd1]
        simp [eval, evals, evalOp, hv]
      | a :: b :: es, x :: y :: xs, hi, _ =>
        obtain ⟨p, hp⟩ := inv_chain (t := t) 1 .kor orAll orF (Or.inl ⟨rfl, rfl, rfl, rfl, rfl⟩) hi (fun e _ => e.pyLvl_le.1)
        exact key _ p rfl hp
    | and =>
      match args, xs, hi, ho with
      | [], _, _, ho => exact absurd rfl ho.1
      | [a], [x], .cons h1 .nil, _ =>
        refine key _ x.2 rfl (h1.same (by rw [Expr.pyLvl]) ?_)
        intro Q I ρ S hL hA hd
        simp only [Defined, DefinedAnd] at hd
        obtain ⟨hd1, ⟨v, hv⟩, -⟩ := hd
        rw [h1.val Q I ρ S hL hA hd1]
        simp [eval, evals, evalOp, hv]
      | a :: b :: es, x :: y :: xs, hi, ho =>
        obtain ⟨p, hp⟩ := inv_chain (t := t) 2 .kand andAll andF (Or.inr (Or.inl ⟨rfl, rfl, rfl, rfl, rfl⟩)) hi
          (fun e he => (ho.2.resolve_left (by simp)) _ (List.mem_map_of_mem he))
        exact key _ p rfl hp
    | add =>
      match args, xs, hi, ho with
      | [], _, _, ho => exact absurd rfl ho.1
      | [a], [x], .cons h1 .nil, _ =>
        refine key _ x.2 rfl (h1.same (by rw [Expr.pyLvl]) ?_)
        intro Q I ρ S hL hA hd
        simp only [Defined, DefinedAll, OpDefined] at hd
        obtain ⟨⟨hd1, -⟩, hv⟩ := hd
        obtain ⟨i, hi⟩ := hv (eval I ρ a) (by simp)
        rw [h1.val Q I ρ S hL hA hd1]
        simp [eval, evals, evalOp, hi]
      | a :: b :: es, x :: y :: xs, hi, ho =>
        obtain ⟨p, hp⟩ := inv_chain (t := t) 5 .plus (binAll .add) (binF .add) (Or.inr (Or.inr (Or.inl ⟨rfl, rfl, rfl, rfl, rfl⟩))) hi
          (fun e he => (ho.2.resolve_left (by simp)) _ (List.mem_map_of_mem he))
        exact key _ p rfl hp
    | mul =>
      match args, xs, hi, ho with
      | [], _, _, ho => exact absurd rfl ho.1
      | [a], [x], .cons h1 .nil, _ =>
        refine key _ x.2 rfl (h1.same (by rw [Expr.pyLvl]) ?_)
        intro Q I ρ S hL hA hd
        simp only [Defined, DefinedAll, OpDefined] at hd
        obtain ⟨⟨hd1, -⟩, hv⟩ := hd
        obtain ⟨i, hi⟩ := hv (eval I ρ a) (by simp)
        rw [h1.val Q I ρ S hL hA hd1]
        simp [eval, evals, evalOp, hi]
      | a :: b :: es, x :: y :: xs, hi, ho =>
        obtain ⟨p, hp⟩ := inv_chain (t := t) 6 .star (binAll .mul) (binF .mul) (Or.inr (Or.inr (Or.inr ⟨rfl, rfl, rfl, rfl, rfl⟩))) hi
          (fun e he => (ho.2.resolve_left (by simp)) _ (List.mem_map_of_mem he))
        exact key _ p rfl hp

/-! ### C23 -/

/-- C23, for expressions whose text needs no further parentheses (`Expr.PySafe`): `to_python` succeeds, its text is a Python expression, and
wherever the IR expression has a well-defined value the Python expression has the same value.  The text parses in only one way
(`Py.Parses.unique`).

Missing: expressions that are not `PySafe`, where the text may parse differently (the `_refuted` theorems below), and operations on
values outside the domain `Defined` (negative indices, division of negative numbers), where the backends and Python disagree. -/
theorem C23_to_python_partial (L : String → Bool) (hL : L "len" = false) (e : Expr) (h : e.PySafe L) :
    ∃ ts p, e.toPython = some ts ∧ Py.Parses ts p ∧
      ∀ Q I ρ S, Agree Q L I ρ S → Defined Q I ρ e → Py.eval S p = some (eval I ρ e) := by
  obtain ⟨ts, p, h1, h2⟩ := toPython_inv e h
  exact ⟨ts, p, h1, h2.zero.parses, fun Q I ρ S => h2.val Q I ρ S hL⟩

/-! ### The hypotheses can be met, and are needed -/

/-- The list primitives of Rosette, a given division, and named functions as function values. -/
def pyInterp (d m : Int → Int → Int) : Interp :=
  ⟨rktFn, fun v vs => match v with | .fn g => rktFn g vs | _ => .int 0, d, m, fun vs => vs.headD (.int 0)⟩

theorem pyInterp_prims (d m : Int → Int → Int) : ListPrims (pyInterp d m) where
  list := ⟨rktInterp_prims.list.get, rktInterp_prims.list.tail, rktInterp_prims.list.take, rktInterp_prims.list.slice,
    rktInterp_prims.list.sliceLen, rktInterp_prims.list.len, rktInterp_prims.list.app, rktInterp_prims.list.pre, rktInterp_prims.list.emp⟩
  matrix := ⟨rktInterp_prims.matrix.get, rktInterp_prims.matrix.tail, rktInterp_prims.matrix.take, rktInterp_prims.matrix.slice,
    rktInterp_prims.matrix.sliceLen, rktInterp_prims.matrix.len, rktInterp_prims.matrix.app, rktInterp_prims.matrix.pre,
    rktInterp_prims.matrix.emp⟩
  tensor := ⟨rktInterp_prims.tensor.get, rktInterp_prims.tensor.tail, rktInterp_prims.tensor.take, rktInterp_prims.tensor.slice,
    rktInterp_prims.tensor.sliceLen, rktInterp_prims.tensor.len, rktInterp_prims.tensor.app, rktInterp_prims.tensor.pre,
    rktInterp_prims.tensor.emp⟩
  concat := rktInterp_prims.concat
  eq := rktInterp_prims.eq

/-- Local variables `l`, `x`, `y`, `z`. -/
def pyLocals : String → Bool := fun s => s == "l" || s == "x" || s == "y" || s == "z"
/-- The scope for an interpretation and environment. -/
def pyScope (I : Interp) (ρ : Env) : Py.Scope := ⟨fun s => if pyLocals s then some (ρ s) else none, fun g vs => some (I.fn g vs)⟩

theorem pyAgree (d m : Int → Int → Int) (ρ : Env) : Agree (fun _ _ => True) pyLocals (pyInterp d m) ρ (pyScope (pyInterp d m) ρ) where
  loc := by intro x h; simp [pyScope, h]
  nonloc := by intro x h; simp [pyScope, h]
  glob := fun _ _ _ _ => rfl
  apply := fun _ _ => rfl
  prims := pyInterp_prims d m

/-- An environment for the examples. -/
def pyEnv (l x y z : Val) : Env := fun s => if s = "l" then l else if s = "x" then x else if s = "y" then y else z

/-- `(0 if len(l) < 1 else l[0] * x + f(l[1:]) + -3)`: a body as it occurs in the target languages; also on the empty list, where the other
branch, which would fail, is not evaluated. -/
example : let e : Expr := .node .ite .int [.node .lt .bool [mkCall "list_length" .int [.var "l" (.list .int)], intLit 1], intLit 0,
      .node .add .int [.node .mul .int [mkCall "list_get" .int [.var "l" (.list .int), intLit 0], .var "x" .int],
        .node .add .int [mkCall "f" .int [mkCall "list_tail" (.list .int) [.var "l" (.list .int), intLit 1]], intLit (-3)]]]
    e.PySafe pyLocals ∧ Defined (fun _ _ => True) (pyInterp Int.fdiv Int.fmod) (pyEnv (.list []) (.int 2) (.int 0) (.int 0)) e ∧
      Defined (fun _ _ => True) (pyInterp Int.fdiv Int.fmod) (pyEnv (.list [.int 4, .int 5]) (.int 2) (.int 0) (.int 0)) e ∧
      eval (pyInterp Int.fdiv Int.fmod) (pyEnv (.list [.int 4, .int 5]) (.int 2) (.int 0) (.int 0)) e = .int 6 := by
  refine ⟨?_, ?_, ?_, rfl⟩
  · simp [Expr.PySafe, Expr.PySafes, OpSafe, CallSafe, Expr.pyLvl, mkCall, intLit, pyLocals]
    exact ⟨8, 8, ⟨rfl, rfl⟩, by omega, by omega⟩
  · simp [Defined, DefinedAll, OpDefined, CallDefined, eval, evals, evalOp, pyEnv, mkCall, intLit, Lit.val, pyInterp, rktFn]
  · simp [Defined, DefinedAll, OpDefined, CallDefined, eval, evals, evalOp, pyEnv, mkCall, intLit, Lit.val, pyInterp, rktFn, rktGet, Rkt.listTail]
    exact ⟨⟨_, _, ⟨rfl, rfl⟩, by omega, by simp⟩, ⟨_, _, ⟨rfl, rfl⟩, by omega, by simp⟩⟩

/-- The text of `e` is a Python expression with a different value than `e`, although `e` has a well-defined value. -/
def WrongText (e : Expr) : Prop :=
  ∃ ts p, e.toPython = some ts ∧ Py.Parses ts p ∧ ∃ I ρ S, Agree (fun _ _ => True) pyLocals I ρ S ∧ Defined (fun _ _ => True) I ρ e ∧
  Py.eval S p ≠ some (eval I ρ e)

theorem py_parses_of {ts : List Tok} {p : Ast} (n : Nat) (h : ∀ g, pLvl (g + n) 0 ts = some (p, [])) : Py.Parses ts p := by
  refine ⟨n, fun f hf => ?_⟩
  obtain ⟨g, rfl⟩ : ∃ g, f = g + n := ⟨f - n, by omega⟩
  exact h g

/-- `Mul(Add(x, y), z)` is printed `x + y * z`. -/
theorem C23_product_of_sum_refuted :
    WrongText (.node .mul .int [.node .add .int [.var "x" .int, .var "y" .int], .var "z" .int]) := by
  refine ⟨[.name "x", .plus, .name "y", .star, .name "z"], .bin .add (.name "x") (.bin .mul (.name "y") (.name "z")), rfl,
    py_parses_of 20 (fun g => rfl), pyInterp Int.fdiv Int.fmod, pyEnv (.list []) (.int 1) (.int 1) (.int 2), _, pyAgree _ _ _, ?_, ?_⟩
  · simp [Defined, DefinedAll, OpDefined, eval, evals, evalOp, pyEnv]
  · simp [Py.eval, pyScope, pyLocals, pyEnv, eval, evals, evalOp, binOp]

/-- `Sub(x, Add(y, z))` is printed `(x - y + z)`. -/
theorem C23_difference_of_sum_refuted :
    WrongText (.node .sub .int [.var "x" .int, .node .add .int [.var "y" .int, .var "z" .int]]) := by
  refine ⟨[.lpar, .name "x", .minus, .name "y", .plus, .name "z", .rpar], .bin .add (.bin .sub (.name "x") (.name "y")) (.name "z"), rfl,
    py_parses_of 30 (fun g => rfl), pyInterp Int.fdiv Int.fmod, pyEnv (.list []) (.int 1) (.int 1) (.int 2), _, pyAgree _ _ _, ?_, ?_⟩
  · simp [Defined, DefinedAll, OpDefined, eval, evals, evalOp, pyEnv]
  · simp [Py.eval, pyScope, pyLocals, pyEnv, eval, evals, evalOp, binOp]

/-- `Div(x, Mul(y, z))` is printed `(x // y * z)`. -/
theorem C23_quotient_of_product_refuted :
    WrongText (.node .div .int [.var "x" .int, .node .mul .int [.var "y" .int, .var "z" .int]]) := by
  refine ⟨[.lpar, .name "x", .slashslash, .name "y", .star, .name "z", .rpar],
    .bin .mul (.bin .floordiv (.name "x") (.name "y")) (.name "z"), rfl,
    py_parses_of 30 (fun g => rfl), pyInterp Int.fdiv Int.fmod, pyEnv (.list []) (.int 8) (.int 2) (.int 2), _, pyAgree _ _ _, ?_, ?_⟩
  · simp [Defined, DefinedAll, OpDefined, eval, evals, evalOp, pyEnv, pyInterp]
    exact ⟨8, 4, ⟨rfl, rfl⟩, by omega⟩
  · simp [Py.eval, pyScope, pyLocals, pyEnv, eval, evals, evalOp, binOp, pyInterp]

/-- `Not(And(x, y))` is printed `not x and y`. -/
theorem C23_negated_conjunction_refuted :
    WrongText (.node .not .bool [.node .and .bool [.var "x" .bool, .var "y" .bool]]) := by
  refine ⟨[.knot, .name "x", .kand, .name "y"], .and (.not (.name "x")) (.name "y"), rfl,
    py_parses_of 20 (fun g => rfl), pyInterp Int.fdiv Int.fmod, pyEnv (.list []) (.bool true) (.bool false) (.int 2), _, pyAgree _ _ _, ?_, ?_⟩
  · simp [Defined, DefinedAll, DefinedAnd, OpDefined, eval, evals, evalOp, pyEnv]
  · simp [Py.eval, pyScope, pyLocals, pyEnv, eval, evals, evalOp]

/-- `And(Or(x, y), z)` is printed `x or y and z`. -/
theorem C23_conjunction_of_disjunction_refuted :
    WrongText (.node .and .bool [.node .or .bool [.var "x" .bool, .var "y" .bool], .var "z" .bool]) := by
  refine ⟨[.name "x", .kor, .name "y", .kand, .name "z"], .or (.name "x") (.and (.name "y") (.name "z")), rfl,
    py_parses_of 20 (fun g => rfl), pyInterp Int.fdiv Int.fmod, pyEnv (.list []) (.bool true) (.bool false) (.bool false), _, pyAgree _ _ _, ?_, ?_⟩
  · simp [Defined, DefinedOr, DefinedAnd, eval, evals, evalOp, pyEnv]
  · simp [Py.eval, pyScope, pyLocals, pyEnv, eval, evals, evalOp]

/-- `Eq(Eq(x, y), z)` is printed `x == y == z`, which compares `y` with `z`. -/
theorem C23_nested_equality_refuted :
    WrongText (mkEq (mkEq (.var "x" .bool) (.var "y" .bool)) (.var "z" .bool)) := by
  refine ⟨[.name "x", .cmp .eq, .name "y", .cmp .eq, .name "z"],
    .and (.cmp .eq (.name "x") (.name "y")) (.cmp .eq (.name "y") (.name "z")), rfl,
    py_parses_of 20 (fun g => rfl), pyInterp Int.fdiv Int.fmod, pyEnv (.list []) (.bool false) (.bool false) (.bool true), _, pyAgree _ _ _, ?_, ?_⟩
  · simp [Defined, DefinedAll, OpDefined, Comparable, eval, evals, evalOp, pyEnv, mkEq]
    exact ⟨⟨_, _, ⟨rfl, rfl⟩, Or.inl ⟨Or.inl rfl, Or.inl rfl⟩⟩, ⟨_, _, ⟨rfl, rfl⟩, Or.inl ⟨Or.inr rfl, Or.inr rfl⟩⟩⟩
  · simp [Py.eval, pyScope, pyLocals, pyEnv, eval, evals, evalOp, mkEq, cmpOp, Py.valEq]

/-- `TupleExpr(x)` is printed `(x)`, which is not a tuple. -/
theorem C23_one_tuple_refuted : WrongText (.node .tuple (.tuple [.int]) [.var "x" .int]) := by
  refine ⟨[.lpar, .name "x", .rpar], .name "x", rfl,
    py_parses_of 30 (fun g => rfl), pyInterp Int.fdiv Int.fmod, pyEnv (.list []) (.int 1) (.int 1) (.int 1), _, pyAgree _ _ _, ?_, ?_⟩
  · simp [Defined, DefinedAll, OpDefined]
  · simp [Py.eval, pyScope, pyLocals, pyEnv, eval, evals, evalOp]

/-- `Eq(x, Not(y))` is printed `x == not y`, which is not a Python expression. -/
theorem C23_syntax_error_refuted : ∃ ts, (mkEq (.var "x" .bool) (mkNot (.var "y" .bool))).toPython = some ts ∧ ¬ ∃ p, Py.Parses ts p := by
  refine ⟨[.name "x", .cmp .eq, .knot, .name "y"], rfl, ?_⟩
  rintro ⟨p, N, h⟩
  have h1 := h (N + 20) (by omega)
  have h2 : pLvl (N + 20) 0 [.name "x", .cmp .eq, .knot, .name "y"] = none := rfl
  rw [h2] at h1
  exact nomatch h1

/-- `Implies` has no Python text. -/
theorem C23_implies_refuted (a b : Expr) : (mkImplies a b).toPython = none := by
  simp only [mkImplies, Expr.toPython, Expr.toPythons]
  cases a.toPython <;> cases b.toPython <;> rfl

/-- The domain restriction is needed: with the division of SMT-LIB (Euclidean) `7 div -2` is `-3`, in Python it is `-4`. -/
theorem C23_division_refuted : ∃ ts p, (Expr.node .div .int [.var "x" .int, .var "y" .int]).toPython = some ts ∧ Py.Parses ts p ∧
    ∃ ρ, Py.eval (pyScope (pyInterp Int.ediv Int.emod) ρ) p = some (.int (-4)) ∧
      eval (pyInterp Int.ediv Int.emod) ρ (.node .div .int [.var "x" .int, .var "y" .int]) = .int (-3) := by
  refine ⟨[.lpar, .name "x", .slashslash, .name "y", .rpar], .bin .floordiv (.name "x") (.name "y"), rfl, py_parses_of 30 (fun g => rfl),
    pyEnv (.list []) (.int 7) (.int (-2)) (.int 1), ?_, ?_⟩
  · simp [Py.eval, pyScope, pyLocals, pyEnv, binOp]
  · simp [eval, evals, evalOp, pyEnv, pyInterp]
    decide

/-- The domain restriction is needed: `list_get(l, -1)` is the default value 0 in Rosette, in Python it is the last element. -/
theorem C23_negative_index_refuted : ∃ ts p, (mkCall "list_get" .int [.var "l" (.list .int), intLit (-1)]).toPython = some ts ∧ Py.Parses ts p ∧
    ∃ ρ, Py.eval (pyScope (pyInterp Int.fdiv Int.fmod) ρ) p = some (.int 5) ∧
      eval (pyInterp Int.fdiv Int.fmod) ρ (mkCall "list_get" .int [.var "l" (.list .int), intLit (-1)]) = .int 0 := by
  refine ⟨[.name "l", .lbr, .minus, .num 1, .rbr], .index (.name "l") (.neg (.num 1)), rfl, py_parses_of 30 (fun g => rfl),
    pyEnv (.list [.int 4, .int 5]) (.int 7) (.int (-2)) (.int 1), ?_, ?_⟩
  · simp [Py.eval, pyScope, pyLocals, pyEnv, Py.int?, Py.index]
  · simp [mkCall, intLit, eval, evals, evalOp, pyEnv, pyInterp, rktFn, rktGet, Lit.val]

end Metalift
