import Verif.SmtText
import Verif.SmtSem
import Verif.PRosette
/-
C45: the text printed for the SMT solver has the value of the expression.
-/
namespace Metalift
namespace Smt

/-! ### Specification -/

/-- The set operations of the intermediate representation, their names in SMT-LIB, and the number of arguments. -/
def setFns : List (String × String × Nat) :=
  [("set-insert", "set.insert", 2), ("set-singleton", "set.singleton", 1), ("set-union", "set.union", 2),
   ("set-minus", "set.minus", 2), ("set-subset", "set.subset", 2), ("set-member", "set.member", 2)]

/-- Names that are printed as they are. -/
def plain (n : String) : Bool :=
  n != "make-tuple" && n != "tupleGet" && n != "list_eq" && !startsWith n "set-" && !startsWith n "map-"

/-- Names of variables: symbols that are printed as they are and are not literals. -/
def varName (n : String) : Bool := symbolOk n && plain n && n != "true" && n != "false"

/-- Names of functions without a fixed meaning. -/
def fnName (f : String) : Bool := symbolOk f && plain f && !reserved.contains f

/-- The interpretation of the intermediate representation and the structure of the solver give the same meaning to the same
functions.  `C` are the names of the variables that are declared as constants of the solver. -/
structure Agree (C : List String) (I : Interp) (M : Model) : Prop where
  div : ∀ a b, I.idiv a b = M.div a b
  mod : ∀ a b, I.imod a b = M.mod a b
  makeTuple : ∀ vs, I.fn "make-tuple" vs = .tuple vs
  tupleGet : ∀ vs (i : Nat) v, vs[i]? = some v → I.fn "tupleGet" [.tuple vs, .int i] = v
  listEq : ∀ a b, I.fn "list_eq" [a, b] = .bool (decide (a = b))
  ite : ∀ c a b, I.fn "ite" [c, a, b] = if c.asBool then a else b
  setCreate : I.fn "set-create" [] = M.fn "set.empty" []
  set : ∀ p ∈ setFns, I.fn p.1 = M.fn p.2.1
  fn : ∀ f vs, fnName f = true → (vs = [] → f ∉ C) → I.fn f vs = M.fn f vs

/-- The number of components of a tuple, if the expression shows it. -/
def knownArity : Expr → Option Nat
  | .node .tuple _ as => some as.length
  | .node (.call "make-tuple") _ as => some as.length
  | .var _ (.tuple ts) => some ts.length
  | _ => none

/-- The index of a projection is a literal within the bounds of a tuple of at most five components. -/
def projOk : List Expr → Bool
  | [t, .lit (.int i)] => match knownArity t with
    | some n => decide (0 ≤ i ∧ i < n ∧ n ≤ 5)
    | none => false
  | _ => false

/-- Operators and functions applied to the right number of arguments. -/
def opOk : Op → Ty → List Expr → Bool
  | .add, _, as | .mul, _, as => decide (2 ≤ as.length)
  | .sub, _, as | .div, _, as | .mod, _, as | .eq, _, as | .lt, _, as | .le, _, as | .gt, _, as | .ge, _, as
  | .implies, _, as => as.length == 2
  | .and, _, as | .or, _, as => !as.isEmpty
  | .not, _, as => as.length == 1
  | .ite, _, as => as.length == 3
  | .tuple, _, as => decide (1 ≤ as.length ∧ as.length ≤ 5)
  | .call f, t, as =>
    if f = "set-create" then as.isEmpty && (sortText t).isSome
    else if f = "make-tuple" then decide (1 ≤ as.length ∧ as.length ≤ 5)
    else if f = "tupleGet" then projOk as
    else if f = "list_eq" then as.length == 2
    else if f = "ite" then as.length == 3
    else match setFns.lookup f with
      | some p => as.length == p.2
      | none => fnName f
  | .callValue, _, _ => false
  | .choose, _, _ => false

mutual
/-- The expressions covered: names are SMT-LIB symbols, integer literals are not negative, operators have the right number of
arguments, tuples have at most five components. -/
def printable : Expr → Bool
  | .var n _ => varName n
  | .lit (.int i) => decide (0 ≤ i)
  | .lit (.bool _) => true
  | .node op t args => opOk op t args && printables args
def printables : List Expr → Bool
  | [] => true
  | e :: es => printable e && printables es
end

mutual
/-- Occurrences of variables with their types. -/
def occs : Expr → List (String × Ty)
  | .var n t => [(n, t)]
  | .lit _ => []
  | .node _ _ args => occss args
def occss : List Expr → List (String × Ty)
  | [] => []
  | e :: es => occs e ++ occss es
end

mutual
/-- Functions called, with the number of arguments. -/
def calls : Expr → List (String × Nat)
  | .var _ _ => []
  | .lit _ => []
  | .node (.call f) _ args => (f, args.length) :: callss args
  | .node _ _ args => callss args
def callss : List Expr → List (String × Nat)
  | [] => []
  | e :: es => calls e ++ callss es
end

/-- A value of tuple type is a tuple with that number of components. -/
def TupleShape (v : Val) : Ty → Prop
  | .tuple ts => ∃ vs, v = .tuple vs ∧ vs.length = ts.length
  | _ => True

/-- The variables of `e` have in the solver the values given by `ρ`: bound variables through `σ`, the others as constants; no
variable has the name of a function without arguments used in `e`. -/
structure VarsAgree (C : List String) (M : Model) (σ : String → Option Val) (ρ : Env) (e : Expr) : Prop where
  var : ∀ p ∈ occs e, (σ p.1).getD (M.fn p.1 []) = ρ p.1 ∧ TupleShape (ρ p.1) p.2
  const : ∀ p ∈ calls e, p.2 = 0 → σ p.1 = none ∧ p.1 ∉ C

/-! ### Decidable equality of S-expressions -/

/-! ### Names -/

theorem symbolChar_good {c : Char} (h : symbolChar c = true) : (!isDelim c && c != '"' && c != '\'') = true := by
  have : ∀ d : Char, symbolChar d = false → c ≠ d := by
    rintro d hd rfl
    rw [h] at hd
    cases hd
  simp only [isDelim, isSpace, Bool.and_eq_true, Bool.not_eq_true', Bool.or_eq_false_iff, bne_iff_ne, beq_eq_false_iff_ne]
  exact ⟨⟨⟨⟨⟨⟨⟨this _ (by decide), this _ (by decide)⟩, this _ (by decide)⟩, this _ (by decide)⟩, this _ (by decide)⟩,
    this _ (by decide)⟩, this _ (by decide)⟩, this _ (by decide)⟩

theorem symbolOk_good {s : String} (h : symbolOk s = true) : goodAtom s = true := by
  unfold symbolOk at h
  unfold goodAtom
  split at h
  · cases h
  · next c cs hc =>
    rw [hc]
    simp only [Bool.and_eq_true, List.all_eq_true] at h
    simp only [List.isEmpty_cons, Bool.not_false, Bool.true_and, List.all_cons, Bool.and_eq_true, List.all_eq_true]
    refine ⟨by simpa [and_assoc] using symbolChar_good h.1.1, fun d hd => by simpa [and_assoc] using symbolChar_good (h.2 d hd)⟩

theorem symbolOk_not_numeric {s : String} (h : symbolOk s = true) : isNumeric s.toList = false := by
  unfold symbolOk at h
  split at h
  · cases h
  · next c cs hc =>
    rw [hc]
    simp only [Bool.and_eq_true, Bool.not_eq_true'] at h
    simp [isNumeric, h.1.2]

theorem word_plain {n : String} (h : plain n = true) (rest : List Expr) : word false n rest = some n := by
  simp only [plain, Bool.and_eq_true, bne_iff_ne, Bool.not_eq_true'] at h
  obtain ⟨⟨⟨⟨h1, h2⟩, h3⟩, h4⟩, h5⟩ := h
  simp [word, h1, h2, h3, h4, h5]

theorem varName_word {n : String} (h : varName n = true) (rest : List Expr) : word false n rest = some n := by
  simp only [varName, Bool.and_eq_true] at h
  exact word_plain h.1.1.2 rest

/-! ### Layout -/

theorem denotes_paren {ss : List String} {xs : List SExpr} (h : All2 Denotes ss xs) :
    Denotes ("(" ++ joinSp ss ++ ")") (.list xs) := by
  intro rest _
  have h1 : "(".toList = ['('] := by decide
  have h3 : ")".toList = [')'] := by decide
  cases h with
  | nil =>
    have h4 : joinSp [] = "" := rfl
    simp only [h4, String.toList_append, h1, h3, String.toList_empty, List.nil_append, List.cons_append]
    rw [tokens_lpar, tokens_rpar]
    simp [SExpr.flat, SExpr.flats]
  | @cons s x ss xs hs hss =>
    simp only [joinSp, String.toList_append, List.append_assoc, h1, h3, List.cons_append, List.nil_append]
    obtain ⟨b1, b2⟩ := cat_before hss (delim_rpar rest)
    rw [tokens_lpar, hs _ b2, b1, tokens_rpar]
    simp [SExpr.flat, SExpr.flats]

theorem joinSp_cons {s : String} {ss : List String} (h : ss ≠ []) : joinSp (s :: ss) = s ++ " " ++ joinSp ss := by
  match ss, h with
  | t :: ts, _ => simp [joinSp, catAll, String.append_assoc]

theorem denotes_op {h : String} (hh : goodAtom h = true) {ss : List String} {xs : List SExpr} (ha : All2 Denotes ss xs)
    (hne : ss ≠ []) : Denotes (simple h ss) (.list (.atom h :: xs)) := by
  have := denotes_paren (.cons (denotes_atom hh) ha)
  rw [joinSp_cons hne] at this
  have e : simple h ss = "(" ++ (h ++ " " ++ joinSp ss) ++ ")" := by simp [simple, String.append_assoc]
  rw [e]
  exact this

theorem simple_one (h s : String) : simple h [s] = "(" ++ h ++ " " ++ s ++ ")" := by
  simp [simple, joinSp, catAll]

theorem readTerm_eq {s : String} {x : SExpr} (h : Denotes s x) : readTerm s = some x := by
  have hd : Denotes ("(" ++ s ++ ")") (.list [x]) := by
    have := denotes_paren (.cons h .nil)
    simpa [joinSp, catAll] using this
  simp [readTerm, generateAst_list hd]

/-! ### Sorts -/

mutual
/-- The S-expression of a sort. -/
def sortSx : Ty → SExpr
  | .int => .atom "Int"
  | .bool => .atom "Bool"
  | .list t => .list [.atom "MLList", sortSx t]
  | .set t => .list [.atom "Set", sortSx t]
  | .tuple ts => .list (.atom ("Tuple" ++ ts.length.repr) :: sortSxs ts)
  | .fn _ => .list []
def sortSxs : List Ty → List SExpr
  | [] => []
  | t :: ts => sortSx t :: sortSxs ts
end

theorem tuple_repr_good (p : String) (hp : goodAtom p = true) (n : Nat) : goodAtom (p ++ n.repr) = true := by
  simp only [goodAtom, Bool.and_eq_true, List.all_eq_true] at hp
  simp only [goodAtom, String.toList_append, List.all_append, Bool.and_eq_true, List.all_eq_true]
  refine ⟨?_, fun c hc => by simpa using hp.2 c hc, fun c hc => by simpa [and_assoc] using digit_ok (repr_digits _ c hc)⟩
  have := hp.1
  cases hx : p.toList with
  | nil => rw [hx] at this; cases this
  | cons a b => rfl

mutual
theorem sort_denotes : ∀ {t : Ty} {s : String}, sortText t = some s → Denotes s (sortSx t)
  | .int, s, h => by cases h; exact denotes_atom (by decide)
  | .bool, s, h => by cases h; exact denotes_atom (by decide)
  | .list t, s, h => by
    simp only [sortText, Option.map_eq_some_iff] at h
    obtain ⟨r, hr, rfl⟩ := h
    have := denotes_op (h := "MLList") (by decide) (.cons (sort_denotes hr) .nil) (by simp)
    rw [simple_one] at this
    exact this
  | .set t, s, h => by
    simp only [sortText, Option.map_eq_some_iff] at h
    obtain ⟨r, hr, rfl⟩ := h
    have := denotes_op (h := "Set") (by decide) (.cons (sort_denotes hr) .nil) (by simp)
    rw [simple_one] at this
    exact this
  | .tuple [], s, h => by
    cases h
    intro rest _
    have e : ("(Tuple" ++ ([] : List Ty).length.repr ++ " " ++ joinSp [] ++ ")").toList = "(Tuple0 )".toList := by decide +kernel
    rw [e]
    have : tokens [] ("(Tuple0 )".toList ++ rest) = tokens [] ('(' :: ("Tuple0".toList ++ (' ' :: ')' :: rest))) := rfl
    rw [this, tokens_lpar, tokens_name (by decide) (delim_space _), tokens_space, tokens_rpar]
    simp [SExpr.flat, SExpr.flats, sortSx, sortSxs, show "Tuple" ++ (0 : Nat).repr = "Tuple0" from by decide +kernel]
  | .tuple (u :: us), s, h => by
    simp only [sortText, Option.map_eq_some_iff] at h
    obtain ⟨r, hr, rfl⟩ := h
    have h1 := sorts_denote hr
    have hne : r ≠ [] := by
      rintro rfl
      simp [sortTexts, Option.bind_eq_some_iff] at hr
    have := denotes_op (h := "Tuple" ++ (u :: us).length.repr) (tuple_repr_good _ (by decide) _) h1 hne
    have e : "(Tuple" ++ (u :: us).length.repr ++ " " ++ joinSp r ++ ")" = simple ("Tuple" ++ (u :: us).length.repr) r := by
      have e1 : "(Tuple" = "(" ++ "Tuple" := rfl
      rw [e1]
      simp only [simple, String.append_assoc]
    rw [e]
    exact this
  | .fn _, s, h => by cases h
theorem sorts_denote : ∀ {ts : List Ty} {ss : List String}, sortTexts ts = some ss → All2 Denotes ss (sortSxs ts)
  | [], ss, h => by cases h; exact .nil
  | t :: ts, ss, h => by
    simp only [sortTexts, Option.bind_eq_bind, Option.bind_eq_some_iff] at h
    obtain ⟨s, hs, ss', hss, h⟩ := h
    injection h with h
    subst h
    exact .cons (sort_denotes hs) (sorts_denote hss)
end

/-! ### Terms -/

/-- The symbol at the head of the term of a composite expression. -/
def headSym (op : Op) (args : List Expr) : String :=
  match op with
  | .tuple => "tuple" ++ args.length.repr
  | .call f => (word false f args).getD f
  | op => (opName op).getD ""

/-- The arguments of the term of a composite expression. -/
def headArgs (op : Op) (xs : List SExpr) : List SExpr := if op = .call "tupleGet" then xs.dropLast else xs

/-- An application. -/
def app (h : String) (xs : List SExpr) : SExpr := if xs.isEmpty then .atom h else .list (.atom h :: xs)

mutual
/-- The term of an expression. -/
def sx : Expr → SExpr
  | .var n _ => .atom n
  | .lit l => .atom (litText l)
  | .node op t args =>
    if op = .call "set-create" then .list [.atom "as", .atom "set.empty", sortSx t]
    else app (headSym op args) (headArgs op (sxs args))
def sxs : List Expr → List SExpr
  | [] => []
  | e :: es => sx e :: sxs es
end

theorem sxs_eq_map (es : List Expr) : sxs es = es.map sx := by
  induction es with
  | nil => rfl
  | cons e es ih => simp [sxs, ih]

theorem printables_all {es : List Expr} (h : printables es = true) : ∀ e ∈ es, printable e = true := by
  induction es with
  | nil => simp
  | cons a as ih =>
    simp only [printables, Bool.and_eq_true] at h
    intro e he
    rcases List.mem_cons.1 he with rfl | he
    · exact h.1
    · exact ih h.2 e he

theorem callWord_var (n : String) (t : Ty) (as : List Expr) (d : Bool) (h : varName n = true) (hd : (d && as.isEmpty) = false) :
    callWords false d (.var n t :: as) = (callWords false d as).bind (fun ws => some (n :: ws)) := by
  rw [callWords]
  simp [hd, varName_word h]

theorem callWords_texts {es : List Expr} (h : printables es = true) : callWords false false es = exprTexts es := by
  induction es with
  | nil => simp [callWords, exprTexts]
  | cons a as ih =>
    simp only [printables, Bool.and_eq_true] at h
    rw [callWords, exprTexts, ih h.2]
    cases a with
    | var n t => simp [varName_word (by simpa [printable] using h.1), exprText]
    | lit l => simp
    | node op t args => simp

theorem callWords_drop {es : List Expr} (h : printables es = true) : callWords false true es = exprTexts es.dropLast := by
  induction es with
  | nil => simp [callWords, exprTexts]
  | cons a as ih =>
    simp only [printables, Bool.and_eq_true] at h
    cases as with
    | nil => simp [callWords, exprTexts]
    | cons b bs =>
      rw [callWords, List.dropLast_cons_cons, exprTexts, ih h.2]
      cases a with
      | var n t => simp [varName_word (by simpa [printable] using h.1), exprText]
      | lit l => simp
      | node op t args => simp

theorem knownArity_some {e : Expr} {n : Nat} (h : knownArity e = some n) (hp : printable e = true) : tupleArity e = some n := by
  match e with
  | .var m (.tuple ts) =>
    simp only [knownArity, Option.some.injEq] at h
    have : m ≠ "make-tuple" := by
      simp only [printable, varName, plain, Bool.and_eq_true, bne_iff_ne] at hp
      exact hp.1.1.2.1.1.1.1
    simp [tupleArity, this, h]
  | .node .tuple t as => simpa [knownArity, tupleArity] using h
  | .node (.call f) t as =>
    unfold knownArity at h
    split at h
    · next heq => cases heq
    · next heq => injection heq with h1 h2 h3; injection h1 with h1; subst h1; subst h3; simpa [tupleArity] using h
    · next heq => cases heq
    · cases h

/-- The cases of `opOk` for calls. -/
theorem call_cases {f : String} {t : Ty} {as : List Expr} (h : opOk (.call f) t as = true) :
    (f = "set-create" ∧ as = [] ∧ (sortText t).isSome) ∨
    (f = "make-tuple" ∧ 1 ≤ as.length ∧ as.length ≤ 5) ∨
    (f = "tupleGet" ∧ ∃ u i n, as = [u, .lit (.int i)] ∧ knownArity u = some n ∧ 0 ≤ i ∧ i < n ∧ n ≤ 5) ∨
    (f = "list_eq" ∧ as.length = 2) ∨
    (f = "ite" ∧ as.length = 3) ∨
    (∃ p ∈ setFns, f = p.1 ∧ as.length = p.2.2) ∨
    (fnName f = true ∧ setFns.lookup f = none ∧ f ≠ "ite") := by
  simp only [opOk] at h
  split at h
  · next hf => simp at h; exact .inl ⟨hf, h⟩
  split at h
  · next hf => simp at h; exact .inr (.inl ⟨hf, h⟩)
  split at h
  · next hf =>
    refine .inr (.inr (.inl ⟨hf, ?_⟩))
    unfold projOk at h
    split at h
    · next u i =>
      split at h
      · next n hn => simp at h; exact ⟨u, i, n, rfl, hn, h⟩
      · cases h
    · cases h
  split at h
  · next hf => simp at h; exact .inr (.inr (.inr (.inl ⟨hf, h⟩)))
  split at h
  · next hf => simp at h; exact .inr (.inr (.inr (.inr (.inl ⟨hf, h⟩))))
  next hite =>
  split at h
  · next p hp =>
    simp at h
    refine .inr (.inr (.inr (.inr (.inr (.inl ⟨(f, p.1, p.2), ?_, rfl, h⟩)))))
    simp only [setFns, List.lookup_cons, List.lookup_nil] at hp
    repeat' split at hp
    all_goals first | (cases hp; done) | skip
    all_goals (next hb => simp at hb; subst hb; injection hp with hp; subst hp; simp [setFns])
  · next hp => exact .inr (.inr (.inr (.inr (.inr (.inr ⟨h, hp, hite⟩)))))

theorem printable_node {op : Op} {t : Ty} {args : List Expr} (h : printable (.node op t args) = true) :
    opOk op t args = true ∧ printables args = true := by
  simpa [printable] using h

/-! ### The text of an expression -/

theorem goodAtom_append {s t : String} (hs : goodAtom s = true) (ht : goodAtom t = true) : goodAtom (s ++ t) = true := by
  simp only [goodAtom, Bool.and_eq_true, List.all_eq_true] at hs ht
  simp only [goodAtom, String.toList_append, List.all_append, Bool.and_eq_true, List.all_eq_true]
  refine ⟨?_, fun c hc => by simpa using hs.2 c hc, fun c hc => by simpa using ht.2 c hc⟩
  cases hx : s.toList with
  | nil => rw [hx] at hs; cases hs.1
  | cons a b => rfl

theorem fnName_word {f : String} (h : fnName f = true) (rest : List Expr) : word false f rest = some f := by
  simp only [fnName, Bool.and_eq_true] at h
  exact word_plain h.1.2 rest

theorem setFn_word (rest : List Expr) : ∀ p ∈ setFns, word false p.1 rest = some p.2.1 := by
  intro p hp
  simp only [setFns, List.mem_cons, List.not_mem_nil, or_false] at hp
  rcases hp with rfl | rfl | rfl | rfl | rfl | rfl <;> rfl

/-- The word printed for the function of a call. -/
theorem call_word {f : String} {t : Ty} {as : List Expr} (h : opOk (.call f) t as = true) (hp : printables as = true)
    (hc : f ≠ "set-create") : ∃ w, word false f as = some w ∧ goodAtom w = true := by
  rcases call_cases h with ⟨hf, _⟩ | ⟨rfl, _⟩ | ⟨rfl, u, i, n, rfl, hk, h0, _⟩ | ⟨rfl, _⟩ | ⟨rfl, _⟩ | ⟨p, hm, rfl, _⟩ | ⟨hf, _⟩
  · exact absurd hf hc
  · exact ⟨_, by simp [word]; rfl, tuple_repr_good "tuple" (by decide) _⟩
  · simp only [printables, Bool.and_eq_true] at hp
    refine ⟨"tuple" ++ n.repr ++ "_get" ++ litText (.int i), ?_, ?_⟩
    · simp [word, knownArity_some hk hp.1, indexText]
    · exact goodAtom_append (goodAtom_append (tuple_repr_good "tuple" (by decide) _) (by decide)) (lit_good _)
  · exact ⟨_, rfl, by decide⟩
  · exact ⟨_, rfl, by decide⟩
  · exact ⟨_, setFn_word as p hm, by
      simp only [setFns, List.mem_cons, List.not_mem_nil, or_false] at hm
      rcases hm with rfl | rfl | rfl | rfl | rfl | rfl <;> decide⟩
  · refine ⟨f, fnName_word hf as, ?_⟩
    simp only [fnName, Bool.and_eq_true] at hf
    exact symbolOk_good hf.1.1

theorem texts_denote {es : List Expr} (ih : ∀ a ∈ es, ∃ s, exprText a = some s ∧ Denotes s (sx a)) :
    ∃ ss, exprTexts es = some ss ∧ All2 Denotes ss (sxs es) := by
  induction es with
  | nil => exact ⟨[], by simp [exprTexts], .nil⟩
  | cons e es ih2 =>
    obtain ⟨s, hs, hd⟩ := ih e List.mem_cons_self
    obtain ⟨ss, hss, hds⟩ := ih2 (fun a ha => ih a (List.mem_cons_of_mem _ ha))
    exact ⟨s :: ss, by simp [exprTexts, hs, hss], .cons hd hds⟩

theorem all2_nil_left {ss : List String} {xs : List SExpr} (h : All2 Denotes ss xs) (hx : xs ≠ []) : ss ≠ [] := by
  cases h with
  | nil => exact absurd rfl hx
  | cons => simp

theorem denotes_app {h : String} (hh : goodAtom h = true) {ss : List String} {xs : List SExpr} (ha : All2 Denotes ss xs)
    (hx : xs ≠ []) : Denotes (simple h ss) (app h xs) := by
  have : app h xs = .list (.atom h :: xs) := by
    cases xs with
    | nil => exact absurd rfl hx
    | cons => rfl
  rw [this]
  exact denotes_op hh ha (all2_nil_left ha hx)

theorem simple_paren (h : String) {ss : List String} (hs : ss ≠ []) : "(" ++ joinSp (h :: ss) ++ ")" = simple h ss := by
  rw [joinSp_cons hs]
  simp [simple, String.append_assoc]

theorem opText {op : Op} {h : String} (ho : opName op = some h) (t : Ty) (args : List Expr) :
    exprText (.node op t args) = (exprTexts args).map (simple h) := by
  cases op <;> simp [opName] at ho <;> subst ho <;> simp [exprText, opName] <;> cases exprTexts args <;> rfl

theorem opName_good {op : Op} {h : String} (ho : opName op = some h) : goodAtom h = true := by
  cases op <;> simp [opName] at ho <;> subst ho <;> decide

theorem sxs_ne {es : List Expr} (h : es ≠ []) : sxs es ≠ [] := by
  cases es with
  | nil => exact absurd rfl h
  | cons => simp [sxs]

theorem text_denotes (e : Expr) : printable e = true → ∃ s, exprText e = some s ∧ Denotes s (sx e) := by
  induction e using Expr.ind with
  | hv n t =>
    intro h
    simp only [printable, varName, Bool.and_eq_true] at h
    exact ⟨n, by simp [exprText], denotes_atom (symbolOk_good h.1.1.1)⟩
  | hl l => intro _; exact ⟨_, by simp [exprText], denotes_atom (lit_good l)⟩
  | hn op t args ih =>
    intro h
    obtain ⟨hop, hps⟩ := printable_node h
    have ih' : ∀ a ∈ args, ∃ s, exprText a = some s ∧ Denotes s (sx a) := fun a ha => ih a ha (printables_all hps a ha)
    obtain ⟨ss, hss, hds⟩ := texts_denote ih'
    have main : ∀ hd, opName op = some hd → args ≠ [] → ∃ s, exprText (.node op t args) = some s ∧ Denotes s (sx (.node op t args)) := by
      intro hd ho hne
      refine ⟨simple hd ss, by rw [opText ho, hss]; rfl, ?_⟩
      have e1 : sx (.node op t args) = app hd (sxs args) := by
        cases op <;> simp [opName] at ho <;> subst ho <;> simp [sx, headSym, headArgs, opName]
      rw [e1]
      exact denotes_app (opName_good ho) hds (sxs_ne hne)
    cases op with
    | tuple =>
      simp only [opOk, decide_eq_true_eq] at hop
      refine ⟨_, by simp [exprText, hss]; rfl, ?_⟩
      have e1 : sx (.node .tuple t args) = app ("tuple" ++ args.length.repr) (sxs args) := by simp [sx, headSym, headArgs]
      rw [e1]
      exact denotes_app (tuple_repr_good _ (by decide) _) hds (sxs_ne (by rintro rfl; simp at hop))
    | choose => cases hop
    | callValue => cases hop
    | call f =>
      by_cases hc : f = "set-create"
      · subst hc
        simp only [opOk, if_pos, Bool.and_eq_true] at hop
        obtain ⟨s, hs⟩ := Option.isSome_iff_exists.1 hop.2
        refine ⟨"(as set.empty " ++ s ++ ")", by simp [exprText, hs], ?_⟩
        have := denotes_op (h := "as") (by decide) (.cons (denotes_atom (s := "set.empty") (by decide)) (.cons (sort_denotes hs) .nil))
          (by simp)
        have e1 : simple "as" ["set.empty", s] = "(as set.empty " ++ s ++ ")" := by
          have : "(as set.empty " = "(" ++ "as" ++ " " ++ "set.empty" ++ " " := by decide +kernel
          rw [this]
          simp only [simple, joinSp, catAll, List.map_cons, List.map_nil, String.append_assoc, String.append_empty]
        rw [e1] at this
        simpa [sx] using this
      · obtain ⟨w, hw, hg⟩ := call_word hop hps hc
        by_cases hg' : f = "tupleGet"
        · subst hg'
          rcases call_cases hop with ⟨hf, _⟩ | ⟨hf, _⟩ | ⟨_, u, i, n, rfl, hk, h0, _⟩ | ⟨hf, _⟩ | ⟨hf, _⟩ | ⟨p, hm, hf, _⟩ | ⟨hf, _⟩
          · exact absurd hf (by decide)
          · exact absurd hf (by decide)
          · obtain ⟨s, hs, hd⟩ := ih' u (by simp)
            refine ⟨simple w [s], ?_, ?_⟩
            · have : exprText (.node (.call "tupleGet") t [u, .lit (.int i)]) = some ("(" ++ joinSp [w, s] ++ ")") := by
                simp [exprText, hw, callWords_drop hps, exprTexts, hs]
              rw [this, simple_paren w (by simp)]
            · have e1 : sx (.node (.call "tupleGet") t [u, .lit (.int i)]) = app w [sx u] := by
                simp [sx, headSym, headArgs, hw, sxs]
              rw [e1]
              exact denotes_app hg (.cons hd .nil) (by simp)
          · exact absurd hf (by decide)
          · exact absurd hf (by decide)
          · exfalso
            simp only [setFns, List.mem_cons, List.not_mem_nil, or_false] at hm
            rcases hm with rfl | rfl | rfl | rfl | rfl | rfl <;> exact absurd hf (by decide)
          · exact absurd hf (by decide)
        · have e1 : sx (.node (.call f) t args) = app w (sxs args) := by
            simp [sx, headSym, headArgs, hw, hc, hg']
          rw [e1]
          by_cases hne : args = []
          · subst hne
            exact ⟨w, by simp [exprText, hw, hc, hg', callWords], denotes_atom hg⟩
          · refine ⟨simple w ss, ?_, denotes_app hg hds (sxs_ne hne)⟩
            have : exprText (.node (.call f) t args) = some ("(" ++ joinSp (w :: ss) ++ ")") := by
              simp [exprText, hw, hc, hg', callWords_texts hps, hss, hne]
            rw [this, simple_paren w (all2_nil_left hds (sxs_ne hne))]
    | and => exact main _ rfl (by simpa [opOk] using hop)
    | or => exact main _ rfl (by simpa [opOk] using hop)
    | _ => exact main _ rfl (by rintro rfl; simp [opOk] at hop)

/-! ### The value of the term -/

theorem val_app_list (M : Model) (σ : String → Option Val) {h : String} (hh : h ≠ "as") (as : List SExpr) :
    val M σ (.list (.atom h :: as)) = M.apply h (vals M σ as) := by
  unfold val
  split
  · next heq => cases heq
  · next heq => injection heq with h1; injection h1 with h1 h2; injection h1 with h1; exact absurd h1 hh
  · next heq => injection heq with h1; injection h1 with h1 h2; injection h1 with h1; exact absurd h1 hh
  · next heq => injection heq with h1; injection h1 with h1 h2; injection h1 with h1; subst h1; subst h2; rfl
  · next hne heq => injection heq with h1; subst h1; exact absurd rfl (hne _ _)

theorem val_app (M : Model) (σ : String → Option Val) {h : String} (hh : h ≠ "as") {as : List SExpr} (hne : as ≠ []) :
    val M σ (app h as) = M.apply h (vals M σ as) := by
  cases as with
  | nil => exact absurd rfl hne
  | cons a as => exact val_app_list M σ hh _

theorem vals_eq_map (M : Model) (σ : String → Option Val) (xs : List SExpr) : vals M σ xs = xs.map (val M σ) := by
  induction xs with
  | nil => simp [vals]
  | cons x xs ih => simp [vals, ih]

theorem core_none (M : Model) {h : String} (hn : coreNames.contains h = false) (vs : List Val) : coreApply M h vs = none := by
  have : h ∉ coreNames := by simpa using hn
  simp only [coreNames, List.mem_cons, List.not_mem_nil, or_false, not_or] at this
  unfold coreApply
  split <;> simp_all

theorem lookup_none {β : Type} {l : List (String × β)} {h : String} (hn : h ∉ l.map Prod.fst) : l.lookup h = none := by
  induction l with
  | nil => rfl
  | cons p l ih =>
    simp only [List.map_cons, List.mem_cons, not_or] at hn
    have : (h == p.1) = false := by simpa using hn.1
    rw [List.lookup_cons, this]
    exact ih hn.2

theorem apply_other (M : Model) {h : String} (h1 : coreNames.contains h = false) (h2 : tupleCons.lookup h = none)
    (h3 : tupleSels.lookup h = none) (h4 : h ≠ "cons") (h5 : h ≠ "head") (h6 : h ≠ "tail") (vs : List Val) :
    M.apply h vs = M.fn h vs := by
  have : dataApply h vs = none := by
    unfold dataApply
    rw [h2, h3]
    split
    · simp_all
    · simp_all
    · rw [if_neg h4]
    · rw [if_neg h5, if_neg h6]
    · rfl
  simp [Model.apply, core_none M h1, this]

theorem apply_fn (M : Model) {f : String} (hf : fnName f = true) (vs : List Val) : M.apply f vs = M.fn f vs := by
  have hr : f ∉ reserved := by
    simp only [fnName, Bool.and_eq_true, Bool.not_eq_true'] at hf
    simpa using hf.2
  simp only [reserved, List.mem_append, not_or] at hr
  obtain ⟨⟨⟨⟨r1, r2⟩, r3⟩, r4⟩, r5⟩ := hr
  simp only [List.mem_cons, List.not_mem_nil, or_false, not_or] at r5
  exact apply_other M (by simpa using r1) (lookup_none r2) (lookup_none r3) r5.1 r5.2.1 r5.2.2.1 vs

theorem apply_set (M : Model) (vs : List Val) : ∀ p ∈ setFns, M.apply p.2.1 vs = M.fn p.2.1 vs := by
  intro p hp
  simp only [setFns, List.mem_cons, List.not_mem_nil, or_false] at hp
  rcases hp with rfl | rfl | rfl | rfl | rfl | rfl <;>
    exact apply_other M (by decide) (by decide) (by decide) (by decide) (by decide) (by decide) vs

theorem tuple_name (n : Nat) (h : 1 ≤ n ∧ n ≤ 5) : ("tuple" ++ n.repr, n) ∈ tupleCons := by
  obtain ⟨h1, h2⟩ := h
  have : n = 1 ∨ n = 2 ∨ n = 3 ∨ n = 4 ∨ n = 5 := by omega
  rcases this with rfl | rfl | rfl | rfl | rfl <;> decide +kernel

theorem apply_tuple (M : Model) (vs : List Val) (h : 1 ≤ vs.length ∧ vs.length ≤ 5) :
    M.apply ("tuple" ++ vs.length.repr) vs = .tuple vs := by
  have key : ∀ p ∈ tupleCons, vs.length = p.2 → M.apply p.1 vs = .tuple vs := by
    intro p hp hl
    have hc : coreNames.contains p.1 = false := by
      clear hl
      revert p
      decide
    have hk : tupleCons.lookup p.1 = some p.2 := by
      clear hl hc
      revert p
      decide
    simp [Model.apply, core_none M hc, dataApply, hk, hl]
  exact key _ (tuple_name _ h) rfl

theorem apply_proj (M : Model) (vs : List Val) (i : Nat) (h : i < vs.length) (h5 : vs.length ≤ 5) :
    some (M.apply ("tuple" ++ vs.length.repr ++ "_get" ++ i.repr) [.tuple vs]) = vs[i]? := by
  have key : ∀ p ∈ tupleSels, vs.length = p.2.1 → p.2.2 < vs.length → some (M.apply p.1 [.tuple vs]) = vs[p.2.2]? := by
    intro p hp hl hi
    have hc : coreNames.contains p.1 = false := by
      clear hl hi
      revert p
      decide
    have hk : tupleSels.lookup p.1 = some p.2 := by
      clear hl hi
      revert p
      decide
    have hk' : tupleCons.lookup p.1 = none := by
      clear hl hi hk
      revert p
      decide
    obtain ⟨v, hv⟩ : ∃ v, vs[p.2.2]? = some v := ⟨vs[p.2.2], by simp⟩
    simp [Model.apply, core_none M hc, dataApply, hk, hk', hl, hv]
  have mem : ∀ n, n ≤ 5 → ∀ i, i < n → ("tuple" ++ n.repr ++ "_get" ++ i.repr, n, i) ∈ tupleSels := by decide +kernel
  exact key _ (mem _ h5 i h) rfl h

theorem foldr_add (vs : List Val) : ∀ k : Int, vs.foldl (fun s v => s + v.asInt) k = k + vs.foldr (fun v s => v.asInt + s) 0 := by
  induction vs with
  | nil => simp
  | cons v vs ih => intro k; simp only [List.foldl_cons, List.foldr_cons, ih]; omega

theorem foldr_mul (vs : List Val) : ∀ k : Int, vs.foldl (fun s v => s * v.asInt) k = k * vs.foldr (fun v s => v.asInt * s) 1 := by
  induction vs with
  | nil => simp
  | cons v vs ih => intro k; simp only [List.foldl_cons, List.foldr_cons, ih, Int.mul_assoc]

theorem core_op {C : List String} (I : Interp) (M : Model) (hA : Agree C I M) {op : Op} {h : String} (ho : opName op = some h) (t : Ty)
    (args : List Expr) (hop : opOk op t args = true) (vs : List Val) (hl : vs.length = args.length) :
    M.apply h vs = evalOp I op vs := by
  have two : args.length = 2 → ∃ a b, vs = [a, b] := by
    intro h2
    rw [h2] at hl
    match vs, hl with
    | [a, b], _ => exact ⟨a, b, rfl⟩
  have one : args.length = 1 → ∃ a, vs = [a] := by
    intro h2
    rw [h2] at hl
    match vs, hl with
    | [a], _ => exact ⟨a, rfl⟩
  have three : args.length = 3 → ∃ a b c, vs = [a, b, c] := by
    intro h2
    rw [h2] at hl
    match vs, hl with
    | [a, b, c], _ => exact ⟨a, b, c, rfl⟩
  cases op <;> simp [opName] at ho <;> subst ho <;> simp [opOk] at hop
  case add => simp [Model.apply, coreApply, evalOp, foldr_add]
  case mul => simp [Model.apply, coreApply, evalOp, foldr_mul]
  case and => simp [Model.apply, coreApply, evalOp]
  case or => simp [Model.apply, coreApply, evalOp]
  case not => obtain ⟨a, rfl⟩ := one hop; simp [Model.apply, coreApply, evalOp]
  case ite => obtain ⟨a, b, c, rfl⟩ := three hop; simp [Model.apply, coreApply, evalOp]
  all_goals obtain ⟨a, b, rfl⟩ := two hop; simp [Model.apply, coreApply, evalOp, hA.div, hA.mod]

theorem VarsAgree.arg {C : List String} {M : Model} {σ : String → Option Val} {ρ : Env} {op : Op} {t : Ty} {args : List Expr}
    (h : VarsAgree C M σ ρ (.node op t args)) : ∀ a ∈ args, VarsAgree C M σ ρ a := by
  have ho : ∀ (es : List Expr) a, a ∈ es → ∀ p ∈ occs a, p ∈ occss es := by
    intro es
    induction es with
    | nil => simp
    | cons e es ih =>
      intro a ha p hp
      simp only [occss, List.mem_append]
      rcases List.mem_cons.1 ha with rfl | ha
      · exact .inl hp
      · exact .inr (ih a ha p hp)
  have hc : ∀ (es : List Expr) a, a ∈ es → ∀ p ∈ calls a, p ∈ callss es := by
    intro es
    induction es with
    | nil => simp
    | cons e es ih =>
      intro a ha p hp
      simp only [callss, List.mem_append]
      rcases List.mem_cons.1 ha with rfl | ha
      · exact .inl hp
      · exact .inr (ih a ha p hp)
  intro a ha
  refine ⟨fun p hp => h.var p (by simpa [occs] using ho _ _ ha p hp), fun p hp => h.const p ?_⟩
  have := hc _ _ ha p hp
  cases op <;> simp [calls, this]

/-- The value of an expression whose arity is known is a tuple of that size. -/
theorem known_value {C : List String} {I : Interp} {M : Model} (hA : Agree C I M) {σ : String → Option Val} {ρ : Env} {e : Expr} {n : Nat}
    (hk : knownArity e = some n) (hv : VarsAgree C M σ ρ e) : ∃ vs, eval I ρ e = .tuple vs ∧ vs.length = n := by
  unfold knownArity at hk
  split at hk
  · injection hk with hk
    exact ⟨_, by simp [eval, evalOp]; rfl, by simp [evals_eq_map, hk]⟩
  · injection hk with hk
    exact ⟨_, by simp [eval, evalOp, hA.makeTuple]; rfl, by simp [evals_eq_map, hk]⟩
  · next m ts =>
    injection hk with hk
    have := (hv.var (m, .tuple ts) (by simp [occs])).2
    simpa [TupleShape, eval, hk] using this
  · cases hk

theorem fnName_atom (M : Model) (σ : String → Option Val) {f : String} (hf : fnName f = true) (hσ : σ f = none) :
    val M σ (.atom f) = M.fn f [] := by
  simp only [fnName, Bool.and_eq_true, Bool.not_eq_true'] at hf
  have hr : f ∉ reserved := by simpa using hf.2
  have h1 : f ≠ "true" := by rintro rfl; exact hr (by decide)
  have h2 : f ≠ "false" := by rintro rfl; exact hr (by decide)
  simp [val, symbolOk_not_numeric hf.1.1, h1, h2, hσ]

theorem as_reserved : "as" ∈ reserved := by decide

theorem sx_value {C : List String} {I : Interp} {M : Model} (hA : Agree C I M) (σ : String → Option Val) (ρ : Env) (e : Expr) :
    printable e = true → VarsAgree C M σ ρ e → val M σ (sx e) = eval I ρ e := by
  induction e using Expr.ind with
  | hv n t =>
    intro h hv
    simp only [printable, varName, Bool.and_eq_true, bne_iff_ne] at h
    have := (hv.var (n, t) (by simp [occs])).1
    simp only [sx, val, symbolOk_not_numeric h.1.1.1, Bool.false_eq_true, if_false, h.1.2, h.2, eval]
    rw [← this]
    cases σ n <;> rfl
  | hl l =>
    intro h _
    cases l with
    | int i =>
      simp only [printable, decide_eq_true_eq] at h
      simp only [sx, litText, if_neg (Int.not_lt.2 h), val, isNumeric_repr, if_true, numeral_repr, eval, Lit.val]
      congr 1
      omega
    | bool b => cases b <;> rfl
  | hn op t args ih =>
    intro h hv
    obtain ⟨hop, hps⟩ := printable_node h
    have ih' : ∀ a ∈ args, val M σ (sx a) = eval I ρ a := fun a ha => ih a ha (printables_all hps a ha) (hv.arg a ha)
    have hvals : vals M σ (sxs args) = evals I ρ args := by
      rw [vals_eq_map, sxs_eq_map, evals_eq_map, List.map_map]
      exact List.map_congr_left ih'
    have hlen : (evals I ρ args).length = args.length := by simp [evals_eq_map]
    have main : ∀ hd, opName op = some hd → args ≠ [] → val M σ (sx (.node op t args)) = eval I ρ (.node op t args) := by
      intro hd ho hne
      have e1 : sx (.node op t args) = app hd (sxs args) := by
        cases op <;> simp [opName] at ho <;> subst ho <;> simp [sx, headSym, headArgs, opName]
      have e2 : hd ≠ "as" := by cases op <;> simp [opName] at ho <;> subst ho <;> decide
      rw [e1, val_app M σ e2 (sxs_ne hne), hvals, eval]
      exact core_op I M hA ho t args hop _ hlen
    have tup : ∀ k, k = args.length → 1 ≤ k ∧ k ≤ 5 → val M σ (app ("tuple" ++ k.repr) (sxs args)) = .tuple (evals I ρ args) := by
      rintro k rfl hk
      have e2 : "tuple" ++ args.length.repr ≠ "as" := by
        have hm := tuple_name _ hk
        intro heq
        rw [heq] at hm
        simp [tupleCons] at hm
      rw [val_app M σ e2 (sxs_ne (by rintro rfl; simp at hk)), hvals]
      have := apply_tuple M (evals I ρ args) (by rw [hlen]; exact hk)
      rwa [hlen] at this
    cases op with
    | tuple =>
      simp only [opOk, decide_eq_true_eq] at hop
      have e1 : sx (.node .tuple t args) = app ("tuple" ++ args.length.repr) (sxs args) := by simp [sx, headSym, headArgs]
      rw [e1, tup _ rfl hop]
      rfl
    | choose => cases hop
    | callValue => cases hop
    | call f =>
      have gen : ∀ w, word false f args = some w → f ≠ "set-create" → f ≠ "tupleGet" →
          sx (.node (.call f) t args) = app w (sxs args) := by
        intro w hw h1 h2
        simp [sx, headSym, headArgs, hw, h1, h2]
      rcases call_cases hop with ⟨rfl, rfl, _⟩ | ⟨rfl, hk⟩ | ⟨rfl, u, i, n, rfl, hk, h0, h1, h5⟩ | ⟨rfl, h2⟩ | ⟨rfl, h3⟩ |
        ⟨p, hm, rfl, hpl⟩ | ⟨hf, _⟩
      · simp [sx, val, eval, evalOp, evals, hA.setCreate]
      · rw [gen _ (by simp [word]; rfl) (by decide) (by decide), tup _ rfl hk]
        simp [eval, evalOp, hA.makeTuple]
      · simp only [printables, Bool.and_eq_true] at hps
        obtain ⟨vs, hu, hvl⟩ := known_value hA hk (hv.arg u (by simp))
        have hw : word false "tupleGet" [u, .lit (.int i)] = some ("tuple" ++ n.repr ++ "_get" ++ i.natAbs.repr) := by
          simp [word, knownArity_some hk hps.1, indexText, litText, Int.not_lt.2 h0]
        have e1 : sx (.node (.call "tupleGet") t [u, .lit (.int i)]) = app ("tuple" ++ n.repr ++ "_get" ++ i.natAbs.repr) [sx u] := by
          simp [sx, headSym, headArgs, hw, sxs]
        have e2 : "tuple" ++ n.repr ++ "_get" ++ i.natAbs.repr ≠ "as" := by
          intro heq
          have := congrArg String.toList heq
          simp only [String.toList_append, show "tuple".toList = ['t', 'u', 'p', 'l', 'e'] from rfl,
            show "as".toList = ['a', 's'] from rfl, List.cons_append] at this
          injection this with h1 _
          exact absurd h1 (by decide)
        rw [e1, val_app M σ e2 (by simp)]
        simp only [vals, ih' u (by simp), hu]
        have hi : i.natAbs < vs.length := by omega
        have := apply_proj M vs i.natAbs hi (by omega)
        rw [hvl] at this
        have h' := hA.tupleGet vs i.natAbs _ this.symm
        have hi' : ((i.natAbs : Nat) : Int) = i := by omega
        rw [hi'] at h'
        simp [eval, evalOp, evals, hu, Lit.val, h']
      · rw [gen "=" rfl (by decide) (by decide), val_app M σ (by decide) (sxs_ne (by rintro rfl; simp at h2)), hvals, eval]
        rw [h2] at hlen
        match hvs : evals I ρ args, hlen with
        | [a, b], _ => simp [Model.apply, coreApply, evalOp, hA.listEq]
      · rw [gen "ite" rfl (by decide) (by decide), val_app M σ (by decide) (sxs_ne (by rintro rfl; simp at h3)), hvals, eval]
        rw [h3] at hlen
        match hvs : evals I ρ args, hlen with
        | [a, b, c], _ => simp [Model.apply, coreApply, evalOp, hA.ite]
      · have hne : args ≠ [] ∧ p.1 ≠ "set-create" ∧ p.1 ≠ "tupleGet" ∧ p.2.1 ≠ "as" := by
          simp only [setFns, List.mem_cons, List.not_mem_nil, or_false] at hm
          rcases hm with rfl | rfl | rfl | rfl | rfl | rfl <;>
            exact ⟨by rintro rfl; simp at hpl, by decide, by decide, by decide⟩
        rw [gen _ (setFn_word args p hm) hne.2.1 hne.2.2.1, val_app M σ hne.2.2.2 (sxs_ne hne.1), hvals, apply_set M _ p hm]
        simp [eval, evalOp, hA.set p hm]
      · have hf' := hf
        simp only [fnName, Bool.and_eq_true, Bool.not_eq_true'] at hf'
        have hr : f ∉ reserved := by simpa using hf'.2
        have hpl := hf'.1.2
        have hn1 : f ≠ "set-create" := by rintro rfl; exact absurd hpl (by decide)
        have hn2 : f ≠ "tupleGet" := by rintro rfl; exact absurd hpl (by decide)
        have hn3 : f ≠ "as" := by rintro rfl; exact hr as_reserved
        rw [gen f (fnName_word hf args) hn1 hn2]
        by_cases hne : args = []
        · subst hne
          obtain ⟨hσ, hC⟩ := hv.const (f, 0) (by simp [calls]) rfl
          have : app f (sxs []) = .atom f := rfl
          rw [this, fnName_atom M σ hf hσ]
          simp [eval, evalOp, evals, hA.fn f [] hf (fun _ => hC)]
        · rw [val_app M σ hn3 (sxs_ne hne), hvals, apply_fn M hf]
          have hvne : evals I ρ args = [] → f ∉ C := by
            intro h0
            rw [h0] at hlen
            exact absurd (List.length_eq_zero_iff.1 hlen.symm) hne
          simp [eval, evalOp, hA.fn f _ hf hvne]
    | and => exact main _ rfl (by simpa [opOk] using hop)
    | or => exact main _ rfl (by simpa [opOk] using hop)
    | _ => exact main _ rfl (by rintro rfl; simp [opOk] at hop)

/-! ### Acceptance of the term -/

/-- Every symbol of `e` is known: variables are bound (`xs`) or declared constants, called functions without a fixed meaning are
declared with that number of arguments (`F`), and bound variables have no name with a fixed meaning or of a called function. -/
structure Declared (F : String → Option Nat) (xs : List String) (e : Expr) : Prop where
  var : ∀ p ∈ occs e, p.1 ∈ xs ∨ F p.1 = some 0
  fn : ∀ p ∈ calls e, fnName p.1 = true → F p.1 = some p.2 ∧ p.1 ∉ xs

theorem Declared.arg {F : String → Option Nat} {xs : List String} {op : Op} {t : Ty} {args : List Expr}
    (h : Declared F xs (.node op t args)) : ∀ a ∈ args, Declared F xs a := by
  have ho : ∀ (es : List Expr) a, a ∈ es → (∀ p ∈ occs a, p ∈ occss es) ∧ (∀ p ∈ calls a, p ∈ callss es) := by
    intro es
    induction es with
    | nil => simp
    | cons e es ih =>
      intro a ha
      simp only [occss, callss, List.mem_append]
      rcases List.mem_cons.1 ha with rfl | ha
      · exact ⟨fun p hp => .inl hp, fun p hp => .inl hp⟩
      · exact ⟨fun p hp => .inr ((ih a ha).1 p hp), fun p hp => .inr ((ih a ha).2 p hp)⟩
  intro a ha
  refine ⟨fun p hp => h.var p (by simpa [occs] using (ho _ _ ha).1 p hp), fun p hp => h.fn p ?_⟩
  have := (ho _ _ ha).2 p hp
  cases op <;> simp [calls, this]

theorem termOk_app {F : String → Option Nat} {xs : List String} {h : String} {as : List SExpr} (hne : as ≠ []) (ha : h ≠ "as")
    (h1 : symbolOk h = true) (h2 : h ∉ xs) (h3 : builtinArity h as.length = true ∨ F h = some as.length)
    (h4 : termsOk F xs as = true) : termOk F xs (app h as) = true := by
  cases as with
  | nil => exact absurd rfl hne
  | cons a as =>
    have : app h (a :: as) = .list (.atom h :: a :: as) := rfl
    rw [this]
    unfold termOk
    split
    · next heq => cases heq
    · next heq => injection heq with h1; injection h1 with h1 h2; injection h1 with h1; exact absurd h1 ha
    · next heq => injection heq with h1; injection h1 with h1 h2; injection h1 with h1; exact absurd h1 ha
    · next heq =>
      injection heq with e1; injection e1 with e1 e2; injection e1 with e1; subst e1; subst e2
      simp only [List.length_cons] at h3
      rcases h3 with h3 | h3 <;> simp [h1, h2, h3, h4]
    · next hne heq => injection heq with h1; subst h1; exact absurd rfl (hne _ _)

theorem termsOk_all {F : String → Option Nat} {xs : List String} {as : List SExpr} (h : ∀ a ∈ as, termOk F xs a = true) :
    termsOk F xs as = true := by
  induction as with
  | nil => simp [termsOk]
  | cons a as ih => simp [termsOk, h a List.mem_cons_self, ih (fun b hb => h b (List.mem_cons_of_mem _ hb))]

theorem sx_ok {F : String → Option Nat} {xs : List String} (hx : ∀ x ∈ xs, x ∉ reserved) (e : Expr) :
    printable e = true → Declared F xs e → termOk F xs (sx e) = true := by
  have nx : ∀ h, h ∈ reserved → h ∉ xs := fun h h1 h2 => hx h h2 h1
  induction e using Expr.ind with
  | hv n t =>
    intro h hd
    simp only [printable, varName, Bool.and_eq_true, bne_iff_ne] at h
    have := hd.var (n, t) (by simp [occs])
    simp only [sx, termOk, h.1.1.1, Bool.true_and, Bool.or_eq_true, beq_iff_eq, List.contains_iff_mem]
    rcases this with h | h
    · exact .inr (.inl (.inr h))
    · exact .inr (.inr h)
  | hl l =>
    intro h _
    cases l with
    | int i =>
      simp only [printable, decide_eq_true_eq] at h
      simp only [sx, litText, if_neg (Int.not_lt.2 h), termOk, isNumeric_repr, Bool.true_or]
    | bool b =>
      have h1 : symbolOk "true" = true := by decide +kernel
      have h2 : symbolOk "false" = true := by decide +kernel
      cases b <;> simp [sx, litText, termOk, h1, h2]
  | hn op t args ih =>
    intro h hd
    obtain ⟨hop, hps⟩ := printable_node h
    have ih' : ∀ a ∈ args, termOk F xs (sx a) = true := fun a ha => ih a ha (printables_all hps a ha) (hd.arg a ha)
    have hts : termsOk F xs (sxs args) = true := by
      apply termsOk_all
      rw [sxs_eq_map]
      intro a ha
      obtain ⟨e, he, rfl⟩ := List.mem_map.1 ha
      exact ih' e he
    have hlen : (sxs args).length = args.length := by simp [sxs_eq_map]
    have main : ∀ hd, opName op = some hd → args ≠ [] → coreArity hd args.length = true → termOk F xs (sx (.node op t args)) = true := by
      intro hd ho hne hc
      have e1 : sx (.node op t args) = app hd (sxs args) := by
        cases op <;> simp [opName] at ho <;> subst ho <;> simp [sx, headSym, headArgs, opName]
      have e2 : hd ≠ "as" ∧ symbolOk hd = true ∧ hd ∈ reserved := by
        cases op <;> simp [opName] at ho <;> subst ho <;> decide +kernel
      rw [e1]
      exact termOk_app (sxs_ne hne) e2.1 e2.2.1 (nx _ e2.2.2) (.inl (by simp [builtinArity, hlen, hc])) hts
    have tup : ∀ k, k = args.length → 1 ≤ k ∧ k ≤ 5 → termOk F xs (app ("tuple" ++ k.repr) (sxs args)) = true := by
      rintro k rfl hk
      have key : ∀ p ∈ tupleCons, p.1 ≠ "as" ∧ symbolOk p.1 = true ∧ p.1 ∈ reserved ∧ builtinArity p.1 p.2 = true := by decide +kernel
      obtain ⟨k1, k2, k3, k4⟩ := key _ (tuple_name _ hk)
      exact termOk_app (sxs_ne (by rintro rfl; simp at hk)) k1 k2 (nx _ k3) (.inl (by rw [hlen]; exact k4)) hts
    cases op with
    | tuple =>
      simp only [opOk, decide_eq_true_eq] at hop
      have e1 : sx (.node .tuple t args) = app ("tuple" ++ args.length.repr) (sxs args) := by simp [sx, headSym, headArgs]
      rw [e1]
      exact tup _ rfl hop
    | choose => cases hop
    | callValue => cases hop
    | call f =>
      have gen : ∀ w, word false f args = some w → f ≠ "set-create" → f ≠ "tupleGet" →
          sx (.node (.call f) t args) = app w (sxs args) := by
        intro w hw h1 h2
        simp [sx, headSym, headArgs, hw, h1, h2]
      rcases call_cases hop with ⟨rfl, rfl, _⟩ | ⟨rfl, hk⟩ | ⟨rfl, u, i, n, rfl, hk, h0, h1, h5⟩ | ⟨rfl, h2⟩ | ⟨rfl, h3⟩ |
        ⟨p, hm, rfl, hpl⟩ | ⟨hf, _⟩
      · simp [sx, termOk]
      · rw [gen _ (by simp [word]; rfl) (by decide) (by decide)]
        exact tup _ rfl hk
      · simp only [printables, Bool.and_eq_true] at hps
        have hw : word false "tupleGet" [u, .lit (.int i)] = some ("tuple" ++ n.repr ++ "_get" ++ i.natAbs.repr) := by
          simp [word, knownArity_some hk hps.1, indexText, litText, Int.not_lt.2 h0]
        have e1 : sx (.node (.call "tupleGet") t [u, .lit (.int i)]) = app ("tuple" ++ n.repr ++ "_get" ++ i.natAbs.repr) [sx u] := by
          simp [sx, headSym, headArgs, hw, sxs]
        have key : ∀ p ∈ tupleSels, p.1 ≠ "as" ∧ symbolOk p.1 = true ∧ p.1 ∈ reserved ∧ builtinArity p.1 1 = true := by decide +kernel
        have mem : ∀ n, n ≤ 5 → ∀ i, i < n → ("tuple" ++ n.repr ++ "_get" ++ i.repr, n, i) ∈ tupleSels := by decide +kernel
        obtain ⟨k1, k2, k3, k4⟩ := key _ (mem n h5 i.natAbs (by omega))
        rw [e1]
        exact termOk_app (by simp) k1 k2 (nx _ k3) (.inl k4) (by simp [termsOk, ih' u (by simp)])
      · rw [gen "=" rfl (by decide) (by decide)]
        exact termOk_app (sxs_ne (by rintro rfl; simp at h2)) (by decide) (by decide +kernel) (nx _ (by decide))
          (.inl (by rw [hlen, h2]; decide +kernel)) hts
      · rw [gen "ite" rfl (by decide) (by decide)]
        exact termOk_app (sxs_ne (by rintro rfl; simp at h3)) (by decide) (by decide +kernel) (nx _ (by decide))
          (.inl (by rw [hlen, h3]; decide +kernel)) hts
      · have key : ∀ p ∈ setFns, p.1 ≠ "set-create" ∧ p.1 ≠ "tupleGet" ∧ p.2.1 ≠ "as" ∧ p.2.2 ≠ 0 ∧ symbolOk p.2.1 = true ∧
            p.2.1 ∈ reserved ∧ builtinArity p.2.1 p.2.2 = true := by decide +kernel
        obtain ⟨k1, k2, k3, k4, k5, k6, k7⟩ := key p hm
        rw [gen _ (setFn_word args p hm) k1 k2]
        exact termOk_app (sxs_ne (by rintro rfl; exact k4 hpl.symm)) k3 k5 (nx _ k6) (.inl (by rw [hlen, hpl]; exact k7)) hts
      · have hf' := hf
        simp only [fnName, Bool.and_eq_true, Bool.not_eq_true'] at hf'
        have hr : f ∉ reserved := by simpa using hf'.2
        have hpl := hf'.1.2
        have hn1 : f ≠ "set-create" := by rintro rfl; exact absurd hpl (by decide)
        have hn2 : f ≠ "tupleGet" := by rintro rfl; exact absurd hpl (by decide)
        have hn3 : f ≠ "as" := by rintro rfl; exact hr as_reserved
        obtain ⟨d1, d2⟩ := hd.fn (f, args.length) (by simp [calls]) hf
        rw [gen f (fnName_word hf args) hn1 hn2]
        by_cases hne : args = []
        · subst hne
          have : app f (sxs []) = .atom f := rfl
          simp only [List.length_nil] at d1
          rw [this]
          simp [termOk, hf'.1.1, d1]
        · exact termOk_app (sxs_ne hne) hn3 hf'.1.1 d2 (.inr (by rw [hlen]; exact d1)) hts
    | and =>
      have hne : args ≠ [] := by simpa [opOk] using hop
      exact main _ rfl hne (by simpa [coreArity, Nat.one_le_iff_ne_zero] using hne)
    | or =>
      have hne : args ≠ [] := by simpa [opOk] using hop
      exact main _ rfl hne (by simpa [coreArity, Nat.one_le_iff_ne_zero] using hne)
    | add => exact main _ rfl (by rintro rfl; simp [opOk] at hop) (by simpa [opOk, coreArity] using hop)
    | mul => exact main _ rfl (by rintro rfl; simp [opOk] at hop) (by simpa [opOk, coreArity] using hop)
    | _ => exact main _ rfl (by rintro rfl; simp [opOk] at hop) (by simp [opOk] at hop; simp [hop, coreArity])

/-! ### C45 -/

/-- **C45.** The text printed for an expression is one SMT-LIB term, and in every structure that agrees with the interpretation of the
intermediate representation the term has the value of the expression.  Covered are the expressions of `printable`; what happens outside is
shown by the refutations below. -/
theorem C45_smt_text_value_partial (e : Expr) (h : printable e = true) :
    ∃ s t, exprText e = some s ∧ readTerm s = some t ∧
      ∀ (C : List String) (I : Interp) (M : Model) (σ : String → Option Val) (ρ : Env), Agree C I M → VarsAgree C M σ ρ e → val M σ t = eval I ρ e := by
  obtain ⟨s, hs, hd⟩ := text_denotes e h
  exact ⟨s, sx e, hs, readTerm_eq hd, fun _ I M σ ρ hA hv => sx_value hA σ ρ e h hv⟩

/-- **C45.** The solver accepts the term when the functions called and the variables are declared. -/
theorem C45_smt_text_accepted_partial (e : Expr) (h : printable e = true) (F : String → Option Nat) (xs : List String)
    (hx : ∀ x ∈ xs, x ∉ reserved) (hd : Declared F xs e) :
    ∃ s t, exprText e = some s ∧ readTerm s = some t ∧ termOk F xs t = true := by
  obtain ⟨s, hs, hden⟩ := text_denotes e h
  exact ⟨s, sx e, hs, readTerm_eq hden, sx_ok hx e h hd⟩

/-! ### Examples and refutations -/

/-- The interpretation given by a structure. -/
def Model.interp (M : Model) : Interp where
  fn := fun f vs =>
    if f = "make-tuple" then .tuple vs
    else if f = "tupleGet" then match vs with
      | [.tuple ws, .int i] => (ws[i.toNat]?).getD (.int 0)
      | _ => .int 0
    else if f = "list_eq" then match vs with
      | [a, b] => .bool (decide (a = b))
      | _ => .int 0
    else if f = "ite" then match vs with
      | [c, a, b] => if c.asBool then a else b
      | _ => .int 0
    else if f = "set-create" then M.fn "set.empty" vs
    else match setFns.lookup f with
      | some p => M.fn p.1 vs
      | none => M.fn f vs
  apply := fun _ _ => .int 0
  idiv := M.div
  imod := M.mod
  choose := fun _ => .int 0

/-- Every structure agrees with an interpretation. -/
theorem agree_interp (C : List String) (M : Model) : Agree C M.interp M where
  div _ _ := rfl
  mod _ _ := rfl
  makeTuple _ := rfl
  tupleGet vs i v h := by simp [Model.interp, h]
  listEq _ _ := rfl
  ite _ _ _ := rfl
  setCreate := rfl
  set p hp := by
    simp only [setFns, List.mem_cons, List.not_mem_nil, or_false] at hp
    rcases hp with rfl | rfl | rfl | rfl | rfl | rfl <;> rfl
  fn f vs hf _ := by
    have hf' := hf
    simp only [fnName, plain, Bool.and_eq_true, bne_iff_ne, Bool.not_eq_true'] at hf'
    obtain ⟨⟨_, ⟨⟨⟨h1, h2⟩, h3⟩, h4⟩, _⟩, hr⟩ := hf'
    have h5 : f ≠ "ite" := by rintro rfl; exact absurd hr (by decide)
    have hset : ∀ g, startsWith g "set-" = true → f ≠ g := by
      rintro g hg rfl
      rw [hg] at h4
      cases h4
    have h6 : f ≠ "set-create" := hset _ (by decide)
    have h7 : setFns.lookup f = none := by
      apply lookup_none
      intro hm
      simp only [setFns, List.map_cons, List.map_nil, List.mem_cons, List.not_mem_nil, or_false] at hm
      rcases hm with h | h | h | h | h | h <;> exact hset _ (by decide) h
    simp [Model.interp, h1, h2, h3, h5, h6, h7]

/-- The expression `not (f(x, (1, 2)[1], []) > 0 and y[0] = 3 div x)` with a pair `y`. -/
def exC45 : Expr :=
  .node .not .bool [.node .and .bool
    [.node .gt .bool [.node (.call "f") .int [.var "x" .int,
        .node (.call "tupleGet") .int [.node (.call "make-tuple") (.tuple [.int, .int]) [.lit (.int 1), .lit (.int 2)], .lit (.int 1)],
        .node (.call "list_empty") (.list .int) []], .lit (.int 0)],
     .node .eq .bool [.node (.call "tupleGet") .int [.var "y" (.tuple [.int, .int]), .lit (.int 0)],
        .node .div .int [.lit (.int 3), .var "x" .int]]]]

example : printable exC45 = true := by decide +kernel

example : exprText exC45 =
    some "(not (and (> (f x (tuple2_get1 (tuple2 1 2)) list_empty) 0) (= (tuple2_get0 y) (div 3 x))))" := by decide +kernel

/-- A structure. -/
def exModel : Model where
  fn := fun f vs => if f = "f" then (vs.head?).getD (.int 0) else if f = "y" then .tuple [.int 1, .int 7] else .int 2
  div0 := fun _ => 0
  mod0 := fun _ => 0

/-- The values of the variables. -/
def exEnv : Env := fun n => if n = "x" then .int 2 else .tuple [.int 1, .int 7]

example : Agree ["y"] exModel.interp exModel ∧ VarsAgree ["y"] exModel (bind ["x"] [.int 2]) exEnv exC45 :=
  ⟨agree_interp _ _, by
    constructor
    · intro p hp
      simp only [exC45, occs, occss, List.append_nil, List.nil_append, List.cons_append, List.mem_cons, List.not_mem_nil,
        or_false] at hp
      rcases hp with rfl | rfl | rfl
      · exact ⟨by decide +kernel, trivial⟩
      · exact ⟨by decide +kernel, ⟨_, rfl, rfl⟩⟩
      · exact ⟨by decide +kernel, trivial⟩
    · intro p hp h0
      simp only [exC45, calls, callss, List.append_nil, List.nil_append, List.cons_append, List.mem_cons, List.not_mem_nil,
        or_false] at hp
      rcases hp with rfl | rfl | rfl | rfl | rfl <;> first | exact absurd h0 (by decide) | exact ⟨by decide, by decide⟩⟩

example : eval exModel.interp exEnv exC45 = .bool false := by decide +kernel

/-- A structure in which every function is constant. -/
def constModel (v : Val) : Model := ⟨fun _ _ => v, fun _ => 0, fun _ => 0⟩

/-- The literal -5 is printed as the symbol `-5`: the solver rejects it, and its value would be open. -/
theorem C45_negative_literal_refuted :
    exprText (.lit (.int (-5))) = some "-5" ∧ readTerm "-5" = some (.atom "-5") ∧
      (∀ F xs, F "-5" = none → "-5" ∉ xs → termOk F xs (.atom "-5") = false) ∧
      ∀ ρ, val (constModel (.int 0)) noVars (.atom "-5") ≠ eval (constModel (.int 0)).interp ρ (.lit (.int (-5))) := by
  refine ⟨by decide +kernel, by decide +kernel, ?_, ?_⟩
  · intro F xs h1 h2
    have : isNumeric "-5".toList = false := by decide
    simp only [termOk, this, h1, Bool.false_or]
    simp [h2]
  · intro ρ
    have : val (constModel (.int 0)) noVars (.atom "-5") = .int 0 := by decide +kernel
    simp [this, eval, Lit.val]

/-- A tuple of six components is printed with a constructor that no file of definitions declares. -/
theorem C45_large_tuple_refuted :
    ∃ e t, exprText e = some "(tuple6 1 2 3 4 5 6)" ∧ readTerm "(tuple6 1 2 3 4 5 6)" = some t ∧ eval (constModel (.int 0)).interp (fun _ => .int 0) e ≠ val (constModel (.int 0)) noVars t ∧
      ∀ F xs, F "tuple6" = none → termOk F xs t = false := by
  refine ⟨.node .tuple (.tuple []) (([1, 2, 3, 4, 5, 6] : List Int).map (fun i => .lit (.int i))),
    .list (.atom "tuple6" :: ["1", "2", "3", "4", "5", "6"].map .atom), by decide +kernel, by decide +kernel,
    by decide +kernel, ?_⟩
  intro F xs h
  have : builtinArity "tuple6" 6 = false := by decide +kernel
  simp [termOk, h, this]

/-- For a component of the result of a call the size of the tuple is the number of letters `i` in a part of the name of the
function: the selector is the one of another size of tuples. -/
theorem C45_projection_of_call_refuted :
    ∃ (e : Expr) (t : SExpr) (M : Model), exprText e = some "(tuple1_get0 (min_item x))" ∧
      readTerm "(tuple1_get0 (min_item x))" = some t ∧ Agree ["x"] M.interp M ∧
      M.interp.fn "min_item" [.int 3] = .tuple [.int 3, .int 4] ∧
      eval M.interp (fun _ => .int 3) e = .int 3 ∧ val M (bind ["x"] [.int 3]) t ≠ .int 3 := by
  refine ⟨.node (.call "tupleGet") .int [.node (.call "min_item") (.tuple [.int, .int]) [.var "x" .int], .lit (.int 0)],
    .list [.atom "tuple1_get0", .list [.atom "min_item", .atom "x"]],
    ⟨fun f vs => if f = "min_item" then .tuple [.int 3, .int 4] else .int 0, fun _ => 0, fun _ => 0⟩, by decide +kernel, by decide +kernel,
    agree_interp _ _, by decide +kernel, by decide +kernel, by decide +kernel⟩

/-- A component of the result of a function whose name has no underscore cannot be printed. -/
theorem C45_projection_raises_refuted :
    ∃ e, exprText e = none ∧ ∃ I ρ, eval I ρ e = .int 3 ∧ I.fn "divmod" [.int 3] = .tuple [.int 3, .int 4] :=
  ⟨.node (.call "tupleGet") .int [.node (.call "divmod") (.tuple [.int, .int]) [.var "x" .int], .lit (.int 0)], by decide +kernel,
    (Model.mk (fun f vs => if f = "divmod" then .tuple [.int 3, .int 4] else .int 0) (fun _ => 0) (fun _ => 0)).interp, fun _ => .int 3,
    by decide +kernel, by decide +kernel⟩

/-- A variable whose name starts with `set-` is renamed inside a call and nowhere else. -/
theorem C45_variable_renamed_refuted :
    exprText (.node (.call "f") .int [.var "set-up" .int]) = some "(f set.up)" ∧
      exprText (.node .add .int [.var "set-up" .int, .lit (.int 1)]) = some "(+ set-up 1)" := by
  constructor <;> decide +kernel

end Smt
end Metalift
