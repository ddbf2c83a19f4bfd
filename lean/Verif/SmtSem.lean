import Verif.Rosette
/-
Specification: the meaning of the SMT-LIB scripts that are given to the solver.  Nothing here mentions metalift.

A structure interprets function symbols by functions on values.  Values of sort `Int`, `Bool`, `(MLList s)`, `(TupleN s1 ... sN)`
are integers, booleans, lists and tuples; values of sort `(Set s)` are sets, represented by lists.
-/
namespace Metalift
namespace Smt

/-- A first-order structure: function symbols (constants are functions without arguments) and the value of a division by zero, which SMT-LIB
leaves open. -/
structure Model where
  fn : String → List Val → Val
  div0 : Int → Int
  mod0 : Int → Int

/-- SMT-LIB `div`: the remainder is never negative. -/
def Model.div (M : Model) (a b : Int) : Int := if b = 0 then M.div0 a else Int.ediv a b
/-- SMT-LIB `mod`. -/
def Model.mod (M : Model) (a b : Int) : Int := if b = 0 then M.mod0 a else Int.emod a b

/-- Constructors declared in `metalift/utils/tuples.smt`, with their arities. -/
def tupleCons : List (String × Nat) :=
  [("tuple1", 1), ("tuple2", 2), ("tuple3", 3), ("tuple4", 4), ("tuple5", 5)]

/-- Selectors declared in `metalift/utils/tuples.smt`: arity of the tuple and position. -/
def tupleSels : List (String × Nat × Nat) :=
  [("tuple1_get0", 1, 0),
   ("tuple2_get0", 2, 0), ("tuple2_get1", 2, 1),
   ("tuple3_get0", 3, 0), ("tuple3_get1", 3, 1), ("tuple3_get2", 3, 2),
   ("tuple4_get0", 4, 0), ("tuple4_get1", 4, 1), ("tuple4_get2", 4, 2), ("tuple4_get3", 4, 3),
   ("tuple5_get0", 5, 0), ("tuple5_get1", 5, 1), ("tuple5_get2", 5, 2), ("tuple5_get3", 5, 3), ("tuple5_get4", 5, 4)]

/-- The operators of the core theory and of integer arithmetic. -/
def coreApply (M : Model) : String → List Val → Option Val
  | "+", vs => some (.int (vs.foldr (fun v s => v.asInt + s) 0))
  | "*", vs => some (.int (vs.foldr (fun v s => v.asInt * s) 1))
  | "-", [a] => some (.int (-a.asInt))
  | "-", [a, b] => some (.int (a.asInt - b.asInt))
  | "div", [a, b] => some (.int (M.div a.asInt b.asInt))
  | "mod", [a, b] => some (.int (M.mod a.asInt b.asInt))
  | "=", [a, b] => some (.bool (decide (a = b)))
  | "<", [a, b] => some (.bool (decide (a.asInt < b.asInt)))
  | "<=", [a, b] => some (.bool (decide (a.asInt ≤ b.asInt)))
  | ">", [a, b] => some (.bool (decide (b.asInt < a.asInt)))
  | ">=", [a, b] => some (.bool (decide (b.asInt ≤ a.asInt)))
  | "and", vs => some (.bool (vs.all Val.asBool))
  | "or", vs => some (.bool (vs.any Val.asBool))
  | "=>", [a, b] => some (.bool (!a.asBool || b.asBool))
  | "not", [a] => some (.bool (!a.asBool))
  | "ite", [c, a, b] => some (if c.asBool then a else b)
  | _, _ => none

/-- Names of the operators of the core theory and of integer arithmetic. -/
def coreNames : List String :=
  ["+", "*", "-", "div", "mod", "=", "<", "<=", ">", ">=", "and", "or", "=>", "not", "ite"]

/-- The datatypes: tuples, and `MLList` with constructors `nil` and `cons` and selectors `head` and `tail`
(`metalift/utils/list-axioms.smt` 2-3).  A selector applied to another constructor is left open. -/
def dataApply (h : String) (vs : List Val) : Option Val :=
  match tupleCons.lookup h, tupleSels.lookup h, vs with
  | some n, _, vs => if vs.length = n then some (.tuple vs) else none
  | _, some (n, i), [.tuple ws] => if ws.length = n then ws[i]? else none
  | _, _, [a, .list l] => if h = "cons" then some (.list (a :: l)) else none
  | _, _, [.list (a :: l)] => if h = "head" then some a else if h = "tail" then some (.list l) else none
  | _, _, _ => none

/-- Meaning of an application. -/
def Model.apply (M : Model) (h : String) (vs : List Val) : Val :=
  match coreApply M h vs with
  | some v => v
  | none => match dataApply h vs with
    | some v => v
    | none => M.fn h vs

mutual
/-- Meaning of a term; `σ` gives the values of the bound variables. -/
def val (M : Model) (σ : String → Option Val) : SExpr → Val
  | .atom s =>
    if isNumeric s.toList then .int (numeral s.toList)
    else if s = "true" then .bool true
    else if s = "false" then .bool false
    else match σ s with
      | some v => v
      | none => M.fn s []
  | .list [.atom "as", .atom "set.empty", _] => M.fn "set.empty" []
  | .list [.atom "as", .atom "nil", _] => .list []
  | .list (.atom h :: as) => M.apply h (vals M σ as)
  | .list _ => .bool false
def vals (M : Model) (σ : String → Option Val) : List SExpr → List Val
  | [] => []
  | a :: as => val M σ a :: vals M σ as
end

mutual
/-- The values of a sort.  A set is represented by the increasing list of its elements (sets of integers only). -/
def HasSort : SExpr → Val → Prop
  | .atom "Int", v => ∃ i, v = .int i
  | .atom "Bool", v => ∃ b, v = .bool b
  | .atom "List_T1", v => ∃ i, v = .int i
  | .list [.atom "MLList", s], v => ∃ vs, v = .list vs ∧ ∀ w ∈ vs, HasSort s w
  | .list [.atom "Set", s], v => ∃ vs, v = .list vs ∧ (∀ w ∈ vs, HasSort s w) ∧ vs.Pairwise (fun a b => a.asInt < b.asInt)
  | .list (.atom h :: ss), v => h = "Tuple" ++ ss.length.repr ∧ ∃ vs, v = .tuple vs ∧ HasSorts ss vs
  | _, _ => False
def HasSorts : List SExpr → List Val → Prop
  | [], [] => True
  | s :: ss, v :: vs => HasSort s v ∧ HasSorts ss vs
  | _, _ => False
end

/-- Bound variables `((x s) ...)`. -/
def binders : List SExpr → Option (List (String × SExpr))
  | [] => some []
  | .list [.atom x, s] :: bs => (binders bs).map ((x, s) :: ·)
  | _ => none

/-- Values of bound variables. -/
def bind (xs : List String) (vs : List Val) : String → Option Val := fun n => (xs.zip vs).lookup n

/-- No bound variable. -/
def noVars : String → Option Val := fun _ => none

/-- `f` is a function from the given sorts and its values are those of the term. -/
def Defines (M : Model) (f : String) (ps : List SExpr) (r body : SExpr) : Prop :=
  ∃ bs, binders ps = some bs ∧ ∀ vs, HasSorts (bs.map Prod.snd) vs →
    HasSort r (M.fn f vs) ∧ val M (bind (bs.map Prod.fst) vs) body = M.fn f vs

mutual
/-- Equality of S-expressions. -/
def SExpr.beq : SExpr → SExpr → Bool
  | .atom a, .atom b => a == b
  | .list as, .list bs => SExpr.beqs as bs
  | _, _ => false
/-- Equality of lists of S-expressions. -/
def SExpr.beqs : List SExpr → List SExpr → Bool
  | [], [] => true
  | a :: as, b :: bs => SExpr.beq a b && SExpr.beqs as bs
  | _, _ => false
end

mutual
theorem SExpr.beq_iff : ∀ a b, SExpr.beq a b = true ↔ a = b
  | .atom a, .atom b => by simp [SExpr.beq]
  | .list as, .list bs => by simp [SExpr.beq, SExpr.beqs_iff as bs]
  | .atom a, .list b => by simp [SExpr.beq]
  | .list a, .atom b => by simp [SExpr.beq]
theorem SExpr.beqs_iff : ∀ as bs, SExpr.beqs as bs = true ↔ as = bs
  | [], [] => by simp [SExpr.beqs]
  | a :: as, b :: bs => by simp [SExpr.beqs, SExpr.beq_iff a b, SExpr.beqs_iff as bs]
  | [], _ :: _ => by simp [SExpr.beqs]
  | _ :: _, [] => by simp [SExpr.beqs]
end

instance : DecidableEq SExpr := fun a b => decidable_of_iff _ (SExpr.beq_iff a b)

/-- `(name sort)`. -/
def sel (x s : String) : SExpr := .list [.atom x, .atom s]

/-- Declarations of the datatypes and sorts whose meaning is fixed above (`metalift/utils/tuples.smt`,
`metalift/utils/list-axioms.smt` 2-5). -/
def fixedDecls : List SExpr :=
  let dt (name : String) (ps : List String) (cons : List SExpr) : SExpr := .list [.atom "declare-datatypes",
    .list [.list [.atom name, .atom ps.length.repr]], .list [.list [.atom "par", .list (ps.map .atom), .list cons]]]
  [dt "Tuple1" ["T0"] [.list [.atom "tuple1", sel "tuple1_get0" "T0"]],
   dt "Tuple2" ["T0", "T1"] [.list [.atom "tuple2", sel "tuple2_get0" "T0", sel "tuple2_get1" "T1"]],
   dt "Tuple3" ["T0", "T1", "T2"] [.list [.atom "tuple3", sel "tuple3_get0" "T0", sel "tuple3_get1" "T1", sel "tuple3_get2" "T2"]],
   dt "Tuple4" ["T0", "T1", "T2", "T3"] [.list [.atom "tuple4", sel "tuple4_get0" "T0", sel "tuple4_get1" "T1",
     sel "tuple4_get2" "T2", sel "tuple4_get3" "T3"]],
   dt "Tuple5" ["T0", "T1", "T2", "T3", "T4"] [.list [.atom "tuple5", sel "tuple5_get0" "T0", sel "tuple5_get1" "T1",
     sel "tuple5_get2" "T2", sel "tuple5_get3" "T3", sel "tuple5_get4" "T4"]],
   dt "MLList" ["T"] [.list [.atom "cons", sel "head" "T", .list [.atom "tail", .list [.atom "MLList", .atom "T"]]], .list [.atom "nil"]],
   .list [.atom "define-sort", .atom "List_T1", .list [], .atom "Int"]]

/-- Does the structure satisfy a command?  Unknown commands are satisfied by nothing. -/
def Model.Sat1 (M : Model) : SExpr → Prop
  | .list [.atom "define-fun-rec", .atom f, .list ps, r, body] => Defines M f ps r body
  | .list [.atom "define-fun", .atom f, .list ps, r, body] => Defines M f ps r body
  | .list [.atom "declare-fun", .atom f, .list ss, r] => ∀ vs, HasSorts ss vs → HasSort r (M.fn f vs)
  | .list [.atom "declare-const", .atom x, s] => HasSort s (M.fn x [])
  | .list [.atom "assert", .list [.atom "forall", .list ps, t]] =>
    ∃ bs, binders ps = some bs ∧ ∀ vs, HasSorts (bs.map Prod.snd) vs → val M (bind (bs.map Prod.fst) vs) t = .bool true
  | .list [.atom "assert", t] => val M noVars t = .bool true
  | .list [.atom "check-sat"] => True
  | .list [.atom "get-model"] => True
  | c => c ∈ fixedDecls

/-- The structure satisfies a script. -/
def Model.Sat (M : Model) (cs : List SExpr) : Prop := ∀ c ∈ cs, M.Sat1 c

/-- Removes the comments: from a semicolon to the end of the line.  `c` says that we are in a comment. -/
def uncomment : Bool → List Char → List Char
  | _, [] => []
  | true, c :: cs => if c = '\n' then c :: uncomment false cs else uncomment true cs
  | false, c :: cs => if c = ';' then uncomment true cs else c :: uncomment false cs

/-- The commands of a file with comments. -/
def readFile (text : String) : Option (List SExpr) := generateAst (String.ofList (uncomment false text.toList))

/-- The commands of a script (no comments, quoted symbols or strings). -/
def readScript (text : String) : Option (List SExpr) := generateAst text

/-- The term written as `text`. -/
def readTerm (text : String) : Option SExpr :=
  match generateAst ("(" ++ text ++ ")") with
  | some [.list [t]] => some t
  | _ => none

/-! ### Scripts that the solver accepts -/

/-- Characters of SMT-LIB simple symbols. -/
def symbolChar (c : Char) : Bool :=
  c.isAlphanum || "~!@$%^&*_-+=<>.?/".toList.contains c

/-- Simple symbols: not empty, not starting with a digit. -/
def symbolOk (s : String) : Bool :=
  match s.toList with
  | [] => false
  | c :: cs => symbolChar c && !c.isDigit && cs.all symbolChar

/-- Is the number of arguments right for the operator? -/
def coreArity : String → Nat → Bool
  | "+", n => 2 ≤ n
  | "*", n => 2 ≤ n
  | "-", n => n == 1 || n == 2
  | "div", n => n == 2
  | "mod", n => n == 2
  | "=", n => n == 2
  | "<", n => n == 2
  | "<=", n => n == 2
  | ">", n => n == 2
  | ">=", n => n == 2
  | "and", n => 1 ≤ n
  | "or", n => 1 ≤ n
  | "=>", n => n == 2
  | "not", n => n == 1
  | "ite", n => n == 3
  | _, _ => false

/-- Operators on sets, with the number of arguments. -/
def setOps : List (String × Nat) :=
  [("set.insert", 2), ("set.singleton", 1), ("set.union", 2), ("set.inter", 2), ("set.minus", 2), ("set.subset", 2),
   ("set.member", 2), ("set.card", 1)]

/-- Symbols with a fixed meaning: the number of arguments is right. -/
def builtinArity (h : String) (n : Nat) : Bool :=
  coreArity h n || tupleCons.lookup h == some n || (tupleSels.lookup h).isSome && n == 1 || setOps.lookup h == some n ||
    h == "cons" && n == 2 || h == "head" && n == 1 || h == "tail" && n == 1

mutual
/-- Every symbol of the term is bound (`xs`), declared (`F` gives the number of arguments), or has a fixed meaning.  (Sorts are not
checked.) -/
def termOk (F : String → Option Nat) (xs : List String) : SExpr → Bool
  | .atom s => isNumeric s.toList || symbolOk s && (s == "true" || s == "false" || xs.contains s || F s == some 0)
  | .list [.atom "as", .atom "set.empty", _] => true
  | .list [.atom "as", .atom "nil", _] => true
  | .list (.atom h :: as) =>
    symbolOk h && !xs.contains h && !as.isEmpty && (builtinArity h as.length || F h == some as.length) && termsOk F xs as
  | .list _ => false
def termsOk (F : String → Option Nat) (xs : List String) : List SExpr → Bool
  | [] => true
  | a :: as => termOk F xs a && termsOk F xs as
end

/-- Symbols that cannot be declared. -/
def reserved : List String :=
  coreNames ++ tupleCons.map Prod.fst ++ tupleSels.map Prod.fst ++ setOps.map Prod.fst ++
    ["cons", "head", "tail", "nil", "set.empty", "true", "false", "let", "forall", "exists", "as", "par", "match", "_", "!"]

/-- A symbol that can be declared. -/
def fresh (F : String → Option Nat) (f : String) : Bool := symbolOk f && (F f).isNone && !reserved.contains f

/-- Declaring a symbol. -/
def declare (F : String → Option Nat) (f : String) (n : Nat) : String → Option Nat := fun g => if g = f then some n else F g

/-- Checks one command and returns the symbols known after it; `none`: the command is rejected. -/
def accept1 (F : String → Option Nat) : SExpr → Option (String → Option Nat)
  | .list [.atom "define-fun-rec", .atom f, .list ps, _, body] => do
    let bs ← binders ps
    if fresh F f && termOk (declare F f bs.length) (bs.map Prod.fst) body then some (declare F f bs.length)
    else none
  | .list [.atom "define-fun", .atom f, .list ps, _, body] => do
    let bs ← binders ps
    if fresh F f && termOk F (bs.map Prod.fst) body then some (declare F f bs.length) else none
  | .list [.atom "declare-fun", .atom f, .list ss, _] =>
    if fresh F f then some (declare F f ss.length) else none
  | .list [.atom "declare-const", .atom x, _] => if fresh F x then some (declare F x 0) else none
  | .list [.atom "assert", .list [.atom "forall", .list ps, t]] => do
    let bs ← binders ps
    if !bs.isEmpty && termOk F (bs.map Prod.fst) t then some F else none
  | .list [.atom "assert", t] => if termOk F [] t then some F else none
  | .list [.atom "check-sat"] => some F
  | .list [.atom "get-model"] => some F
  | c => if c ∈ fixedDecls then some F else none

/-- The commands are accepted one after the other. -/
def accepts (F : String → Option Nat) : List SExpr → Bool
  | [] => true
  | c :: cs => match accept1 F c with
    | some F' => accepts F' cs
    | none => false

end Smt
end Metalift
