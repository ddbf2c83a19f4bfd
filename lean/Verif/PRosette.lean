import Verif.Rosette
import Verif.Names
import Verif.FnEval
/-
C20: text printed for Rosette is read back as the same expression.
-/
namespace Metalift

/-! ### Specification -/

/-- Names that survive printing: not empty, no white space, parentheses, or quotes. -/
def goodAtom (s : String) : Bool := !s.toList.isEmpty && s.toList.all (fun c => !isDelim c && c != '"' && c != '\'')

/-- Variable names that cannot be taken for a literal. -/
def goodVar (s : String) : Bool :=
  goodAtom s && !isNumeric s.toList && !(s.toList.head? == some '-' && isNumeric s.toList.tail) && s != "true" && s != "false"

/-- Operators applied to arguments of the right types. -/
def OpOk : Op → Ty → List Ty → Prop
  | .add, t, ts | .mul, t, ts => t = .int ∧ ts ≠ [] ∧ ∀ x ∈ ts, x = .int
  | .sub, t, ts | .div, t, ts | .mod, t, ts => t = .int ∧ ts = [.int, .int]
  | .eq, t, ts => t = .bool ∧ ts.length = 2
  | .lt, t, ts | .le, t, ts | .gt, t, ts | .ge, t, ts => t = .bool ∧ ts = [.int, .int]
  | .and, t, ts | .or, t, ts => t = .bool ∧ ts ≠ [] ∧ ∀ x ∈ ts, x = .bool
  | .not, t, ts => t = .bool ∧ ts = [.bool]
  | .implies, t, ts => t = .bool ∧ ts = [.bool, .bool]
  | .ite, t, ts => ts = [.bool, t, t]
  | .tuple, t, ts => t = .tuple ts
  | _, _, _ => False

/-- Types of the list, matrix, tensor, set and integer primitives that can be read back. -/
inductive PrimSig : String → List Ty → Ty → Prop where
  | list_length {a} : PrimSig "list_length" [.list a] .int
  | matrix_length {a} : PrimSig "matrix_length" [.list (.list a)] .int
  | tensor3d_length {a} : PrimSig "tensor3d_length" [.list (.list (.list a))] .int
  | list_empty : PrimSig "list_empty" [] (.list .int)
  | matrix_empty : PrimSig "matrix_empty" [] (.list (.list .int))
  | tensor3d_empty : PrimSig "tensor3d_empty" [] (.list (.list (.list .int)))
  | matrix_append {a} : PrimSig "matrix_append" [.list (.list a), .list a] (.list (.list a))
  | tensor3d_append {a} : PrimSig "tensor3d_append" [.list (.list (.list a)), .list (.list a)] (.list (.list (.list a)))
  | list_prepend {a} : PrimSig "list_prepend" [a, .list a] (.list a)
  | matrix_prepend {a} : PrimSig "matrix_prepend" [.list a, .list (.list a)] (.list (.list a))
  | tensor3d_prepend {a} : PrimSig "tensor3d_prepend" [.list (.list a), .list (.list (.list a))] (.list (.list (.list a)))
  | list_get {a} : PrimSig "list_get" [.list a, .int] a
  | matrix_get {a} : PrimSig "matrix_get" [.list (.list a), .int] (.list a)
  | tensor3d_get : PrimSig "tensor3d_get" [.list (.list (.list .int)), .int] (.list (.list .int))
  | list_tail {a} : PrimSig "list_tail" [.list a, .int] (.list a)
  | matrix_tail {a} : PrimSig "matrix_tail" [.list (.list a), .int] (.list (.list a))
  | tensor3d_tail {a} : PrimSig "tensor3d_tail" [.list (.list (.list a)), .int] (.list (.list (.list a)))
  | list_concat : PrimSig "list_concat" [.list .int, .list .int] (.list .int)
  | list_concat_bool : PrimSig "list_concat" [.list .bool, .list .bool] (.list .bool)
  | list_take {a} : PrimSig "list_take" [.list a, .int] (.list a)
  | matrix_take {a} : PrimSig "matrix_take" [.list (.list a), .int] (.list (.list a))
  | tensor3d_take {a} : PrimSig "tensor3d_take" [.list (.list (.list a)), .int] (.list (.list (.list a)))
  | vec_slice {a} : PrimSig "vec_slice" [.list a, .int, .int] (.list a)
  | matrix_row_slice {a} : PrimSig "matrix_row_slice" [.list (.list a), .int, .int] (.list (.list a))
  | vec_slice_wl {a} : PrimSig "vec_slice_with_length" [.list a, .int, .int] (.list a)
  | matrix_row_slice_wl {a} : PrimSig "matrix_row_slice_with_length" [.list (.list a), .int, .int] (.list (.list a))
  | matrix_col_slice {a} : PrimSig "matrix_col_slice" [.list (.list a), .int, .int] (.list (.list a))
  | matrix_col_slice_wl {a} : PrimSig "matrix_col_slice_with_length" [.list (.list a), .int, .int] (.list (.list a))
  | matrix_transpose {a} : PrimSig "matrix_transpose" [.list (.list a)] (.list (.list a))
  | integer_sqrt : PrimSig "integer_sqrt" [.int] .int
  | integer_exp : PrimSig "integer_exp" [.int] .int
  | set_create : PrimSig "set-create" [] (.set .int)
  | set_insert {a} : PrimSig "set-insert" [a, .set a] (.set a)
  | set_singleton {a} : PrimSig "set-singleton" [a] (.set a)
  | set_union {a} : PrimSig "set-union" [.set a, .set a] (.set a)
  | set_minus {a} : PrimSig "set-minus" [.set a, .set a] (.set a)
  | set_subset {a} : PrimSig "set-subset" [.set a, .set a] .bool
  | set_member {a} : PrimSig "set-member" [a, .set a] .bool

/-- Symbols with a fixed meaning in Rosette text. -/
def reservedHeads : List String :=
  ["define", "choose"] ++ readOps.map Prod.fst ++ readOpsN.map Prod.fst ++ readCalls.map Prod.fst ++ readFails

/-- Names of user functions that print as themselves and are not taken for something else. -/
def userName (f : String) : Bool :=
  goodAtom f && !reservedHeads.contains f && !(listFns.map Prod.fst).contains f && f != "matrix_transpose" &&
    f != "list_concat" && f != "ite" && !startsWith f "integer"

/-- Well-typed expressions over the given variables and functions. -/
inductive Readable (E : ReadEnv) : Expr → Prop where
  | var {n t} : goodVar n = true → (E.fns n = some t ∨ E.fns n = none ∧ E.vars n = some t) → Readable E (.var n t)
  | lit {l} : Readable E (.lit l)
  | op {op t args} : OpOk op t (args.map Expr.ty) → (∀ a ∈ args, Readable E a) → Readable E (.node op t args)
  | prim {f t args} : PrimSig f (args.map Expr.ty) t → (∀ a ∈ args, Readable E a) →
      Readable E (.node (.call f) t args)
  | listEq {a b} : Readable E a → Readable E b → Readable E (.node (.call "list_eq") .bool [a, b])
  | iteCall {c a b} : c.ty = .bool → a.ty = b.ty → Readable E c → Readable E a → Readable E b →
      Readable E (.node (.call "ite") a.ty [c, a, b])
  | user {f t ts args} : userName f = true → E.fns f = some (.fn (t :: ts)) → (∀ a ∈ args, Readable E a) →
      Readable E (.node (.call f) t args)

/-- The two calls that mean the same as an operator do so. -/
structure StdCalls (I : Interp) : Prop where
  list_eq : ∀ a b, I.fn "list_eq" [a, b] = .bool (decide (a = b))
  ite : ∀ c a b, I.fn "ite" [c, a, b] = if c.asBool then a else b

/-- Text of a definition in Rosette's answer. -/
def definitionText (f : String) (params : List String) (body : String) : String :=
  "(define (" ++ f ++ catAll (params.map (" " ++ ·)) ++ ") " ++ body ++ ")"

/-! ### Tokens -/

/-- The text ends or continues with a separator. -/
def StartsDelim (cs : List Char) : Prop := cs = [] ∨ ∃ c r, cs = c :: r ∧ isDelim c = true

theorem tokens_atom {a : List Char} (ha : ∀ c ∈ a, isDelim c = false) (cur rest : List Char) :
    tokens cur (a ++ rest) = tokens (cur ++ a) rest := by
  induction a generalizing cur with
  | nil => simp
  | cons c a ih =>
    have hc := ha c (by simp)
    simp only [isDelim, Bool.or_eq_false_iff] at hc
    rw [List.cons_append, tokens, hc.1.1, hc.1.2, hc.2]
    simp only [Bool.false_eq_true, if_false]
    rw [ih (fun x hx => ha x (by simp [hx]))]
    simp

theorem tokens_flush {rest : List Char} (h : StartsDelim rest) (cur : List Char) :
    tokens cur rest = flush cur ++ tokens [] rest := by
  rcases h with rfl | ⟨c, r, rfl, hc⟩
  · simp [tokens, flush]
  · simp only [isDelim, Bool.or_eq_true] at hc
    rw [tokens, tokens]
    rcases hc with (hc | hc) | hc
    · simp [hc, flush]
    · by_cases h1 : isSpace c = true
      · simp [h1, flush]
      · simp [h1, hc, flush]
    · by_cases h1 : isSpace c = true
      · simp [h1, flush]
      · by_cases h2 : (c == '(') = true
        · simp [h1, h2, flush]
        · simp [h1, h2, hc, flush]

theorem tokens_space (r : List Char) : tokens [] (' ' :: r) = tokens [] r := by
  rw [tokens]; simp [isSpace, flush]
theorem tokens_lpar (r : List Char) : tokens [] ('(' :: r) = .lpar :: tokens [] r := by
  rw [tokens]; simp [isSpace, flush]
theorem tokens_rpar (r : List Char) : tokens [] (')' :: r) = .rpar :: tokens [] r := by
  rw [tokens]; simp [isSpace, flush]

theorem goodAtom_delim {s : String} (h : goodAtom s = true) : s.toList ≠ [] ∧ ∀ c ∈ s.toList, isDelim c = false := by
  simp only [goodAtom, Bool.and_eq_true, Bool.not_eq_true', List.isEmpty_eq_false_iff, List.all_eq_true] at h
  exact ⟨h.1, fun c hc => (h.2 c hc).1.1⟩

theorem tokens_name {s : String} (h : goodAtom s = true) {rest : List Char} (hr : StartsDelim rest) :
    tokens [] (s.toList ++ rest) = .atom s.toList :: tokens [] rest := by
  obtain ⟨h1, h2⟩ := goodAtom_delim h
  rw [tokens_atom h2, tokens_flush hr]
  simp [flush, h1]

mutual
/-- The tokens of an S-expression. -/
def SExpr.flat : SExpr → List Token
  | .atom s => [.atom s.toList]
  | .list l => .lpar :: (SExpr.flats l ++ [.rpar])
def SExpr.flats : List SExpr → List Token
  | [] => []
  | a :: as => SExpr.flat a ++ SExpr.flats as
end

mutual
theorem parse_flat : ∀ (x : SExpr) (ts : List Token) (cur p : List SExpr) (st : List (List SExpr)),
    parseTokens (x.flat ++ ts) cur (p :: st) = parseTokens ts (x :: cur) (p :: st)
  | .atom s, ts, cur, p, st => by simp [SExpr.flat, parseTokens]
  | .list l, ts, cur, p, st => by
    simp only [SExpr.flat, List.cons_append, List.append_assoc, parseTokens]
    rw [parse_flats l]
    simp [parseTokens]
theorem parse_flats : ∀ (xs : List SExpr) (ts : List Token) (cur p : List SExpr) (st : List (List SExpr)),
    parseTokens (SExpr.flats xs ++ ts) cur (p :: st) = parseTokens ts (xs.reverse ++ cur) (p :: st)
  | [], ts, cur, p, st => by simp [SExpr.flats]
  | x :: xs, ts, cur, p, st => by
    simp only [SExpr.flats, List.append_assoc]
    rw [parse_flat x, parse_flats xs]
    simp
end

/-- The text `s` denotes `x`, whatever separator follows. -/
def Denotes (s : String) (x : SExpr) : Prop :=
  ∀ rest, StartsDelim rest → tokens [] (s.toList ++ rest) = x.flat ++ tokens [] rest

theorem denotes_atom {s : String} (h : goodAtom s = true) : Denotes s (.atom s) := by
  intro rest hr
  rw [tokens_name h hr]
  rfl

theorem generateAst_list {s : String} {xs : List SExpr} (h : Denotes s (.list xs)) : generateAst s = some [.list xs] := by
  have := h [] (.inl rfl)
  simp only [List.append_nil] at this
  rw [generateAst, this]
  simp only [SExpr.flat, List.cons_append, List.append_assoc, parseTokens]
  rw [parse_flats xs]
  simp [parseTokens, tokens, flush]

theorem delim_space (r : List Char) : StartsDelim (' ' :: r) := .inr ⟨_, _, rfl, by decide⟩
theorem delim_rpar (r : List Char) : StartsDelim (')' :: r) := .inr ⟨_, _, rfl, by decide⟩

theorem cat_after {ss : List String} {xs : List SExpr} (h : All2 Denotes ss xs) (rest : List Char) :
    tokens [] ((catAll (ss.map (· ++ " "))).toList ++ rest) = SExpr.flats xs ++ tokens [] rest := by
  induction h with
  | nil => simp [catAll, SExpr.flats]
  | cons h1 _ ih =>
    simp only [List.map_cons, catAll, String.toList_append, List.append_assoc, SExpr.flats]
    have hs : " ".toList = [' '] := by decide
    rw [hs, List.singleton_append, h1 _ (delim_space _), tokens_space, ih]

theorem cat_before {ss : List String} {xs : List SExpr} (h : All2 Denotes ss xs) {rest : List Char} (hr : StartsDelim rest) :
    tokens [] ((catAll (ss.map (" " ++ ·))).toList ++ rest) = SExpr.flats xs ++ tokens [] rest ∧
    StartsDelim ((catAll (ss.map (" " ++ ·))).toList ++ rest) := by
  induction h with
  | nil => simpa [catAll, SExpr.flats] using hr
  | cons h1 _ ih =>
    have hs : " ".toList = [' '] := by decide
    simp only [List.map_cons, catAll, String.toList_append, List.append_assoc, SExpr.flats, hs, List.cons_append, List.nil_append]
    refine ⟨?_, delim_space _⟩
    rw [tokens_space, h1 _ ih.2, ih.1]

theorem denotes_simple {h : String} (hh : goodAtom h = true) {ss : List String} {xs : List SExpr} (ha : All2 Denotes ss xs) :
    Denotes (textSimple h ss) (.list (.atom h :: xs)) := by
  intro rest _
  have h1 : "(".toList = ['('] := by decide
  have h2 : " ".toList = [' '] := by decide
  have h3 : ")".toList = [')'] := by decide
  simp only [textSimple, String.toList_append, List.append_assoc, h1, h3, List.cons_append, List.nil_append]
  rw [tokens_lpar, h2, List.singleton_append, tokens_name hh (delim_space _), tokens_space, cat_after ha, tokens_rpar]
  simp [SExpr.flat, SExpr.flats]

theorem denotes_inv {h : String} (hh : goodAtom h = true) {ss : List String} {xs : List SExpr} (ha : All2 Denotes ss xs) :
    Denotes (textInv h ss) (.list (.atom h :: xs)) := by
  intro rest _
  have h1 : "( ".toList = ['(', ' '] := by decide
  have h2 : " ".toList = [' '] := by decide
  have h3 : ")".toList = [')'] := by decide
  simp only [textInv, String.toList_append, List.append_assoc, h1, h3, List.cons_append, List.nil_append]
  rw [tokens_lpar, tokens_space, h2, List.singleton_append, tokens_name hh (delim_space _), tokens_space, cat_after ha,
    tokens_rpar]
  simp [SExpr.flat, SExpr.flats]

theorem denotes_join {h : String} (hh : goodAtom h = true) {ss : List String} {xs : List SExpr} (ha : All2 Denotes ss xs) :
    Denotes (textJoin h ss) (.list (.atom h :: xs)) := by
  intro rest _
  have h1 : "(".toList = ['('] := by decide
  have h3 : ")".toList = [')'] := by decide
  simp only [textJoin, String.toList_append, List.append_assoc, h1, h3, List.cons_append, List.nil_append]
  obtain ⟨b1, b2⟩ := cat_before ha (delim_rpar rest)
  rw [tokens_lpar, tokens_name hh b2, b1, tokens_rpar]
  simp [SExpr.flat, SExpr.flats]

theorem denotes_node {h : String} (hh : goodAtom h = true) {ss : List String} {xs : List SExpr} (ha : All2 Denotes ss xs)
    (op : Op) : Denotes (nodeText op h ss) (.list (.atom h :: xs)) := by
  unfold nodeText
  split
  · exact denotes_simple hh ha
  · split
    · exact denotes_inv hh ha
    · split
      · exact denotes_simple hh ha
      · exact denotes_join hh ha
  · exact denotes_join hh ha
  · exact denotes_simple hh ha

/-! ### Literals -/

theorem numeral_repr (n : Nat) : numeral n.repr.toList = n := by
  rw [Nat.toList_repr]
  have := Nat.ofDigitChars_ten_toDigits (n := n)
  rw [Nat.ofDigitChars_eq_foldl] at this
  exact this

theorem repr_ne_nil (n : Nat) : n.repr.toList ≠ [] := by
  rw [Nat.toList_repr]
  exact Nat.toDigits_ne_nil

theorem isNumeric_repr (n : Nat) : isNumeric n.repr.toList = true := by
  simp only [isNumeric, Bool.and_eq_true, Bool.not_eq_true', List.isEmpty_eq_false_iff, List.all_eq_true]
  exact ⟨repr_ne_nil n, repr_digits n⟩

theorem digit_ok {c : Char} (h : c.isDigit = true) : (!isDelim c && c != '"' && c != '\'') = true := by
  have : ∀ d : Char, d.isDigit = false → c ≠ d := by
    rintro d hd rfl
    rw [h] at hd
    cases hd
  simp only [isDelim, isSpace, Bool.and_eq_true, Bool.not_eq_true', Bool.or_eq_false_iff, bne_iff_ne, beq_eq_false_iff_ne]
  exact ⟨⟨⟨⟨⟨⟨⟨this _ (by decide), this _ (by decide)⟩, this _ (by decide)⟩, this _ (by decide)⟩, this _ (by decide)⟩,
    this _ (by decide)⟩, this _ (by decide)⟩, this _ (by decide)⟩

theorem lit_good (l : Lit) : goodAtom (litText l) = true := by
  cases l with
  | int i =>
    simp only [litText, goodAtom]
    split
    · simp only [String.toList_append, Bool.and_eq_true, List.all_append, List.all_eq_true]
      refine ⟨by simp, by decide, fun c hc => by simpa [and_assoc] using digit_ok (repr_digits _ c hc)⟩
    · simp only [Bool.and_eq_true, Bool.not_eq_true', List.isEmpty_eq_false_iff, List.all_eq_true]
      exact ⟨repr_ne_nil _, fun c hc => by simpa [and_assoc] using digit_ok (repr_digits _ c hc)⟩
  | bool b => cases b <;> decide

theorem read_lit (E : ReadEnv) (l : Lit) : readAtom E (litText l) = some (.lit l) := by
  cases l with
  | int i =>
    simp only [litText]
    split
    · next hi =>
      have h1 : "-".toList = ['-'] := by decide
      have h2 : isNumeric ('-' :: i.natAbs.repr.toList) = false := by
        simp [isNumeric]
      simp only [readAtom, String.toList_append, h1, List.singleton_append, h2, Bool.false_eq_true, if_false, List.head?_cons,
        List.tail_cons, isNumeric_repr, numeral_repr, and_self, if_true, intLit, Option.some.injEq, Expr.lit.injEq,
        Lit.int.injEq]
      omega
    · next hi =>
      simp only [readAtom, isNumeric_repr, if_true, numeral_repr, intLit, Option.some.injEq, Expr.lit.injEq, Lit.int.injEq]
      omega
  | bool b => cases b <;> rfl

theorem read_var {E : ReadEnv} {n : String} {t : Ty} (hn : goodVar n = true)
    (h : E.fns n = some t ∨ E.fns n = none ∧ E.vars n = some t) : readAtom E n = some (.var n t) := by
  simp only [goodVar, Bool.and_eq_true, Bool.not_eq_true', bne_iff_ne] at hn
  obtain ⟨⟨⟨⟨_, h1⟩, h2⟩, h3⟩, h4⟩ := hn
  unfold readAtom
  rw [if_neg (by simp [h1]), if_neg (by
    rintro ⟨a, b⟩
    rw [a, b] at h2
    cases h2), if_neg h3, if_neg h4]
  rcases h with h | ⟨h, h'⟩
  · rw [h]
  · rw [h, h']; rfl

/-! ### Reading nodes -/

theorem takeArgs_all (es : List Expr) : takeArgs es.length (es.map some) = some es := by
  induction es with
  | nil => rfl
  | cons e es ih => simp [takeArgs, ih]

theorem takeArgs_all' (es : List Expr) : takeArgs (es.map some).length (es.map some) = some es := by
  rw [List.length_map]
  exact takeArgs_all es

/-- What reading a symbol that stands for operator `op` gives. -/
theorem readNode_op {E : ReadEnv} {h : String} {op : Op} (hd : h ≠ "define") (hc : h ≠ "choose")
    (hl : readOps.lookup h = some op) (es : List Expr) : readNode E h (es.map some) = construct op es := by
  rw [readNode, if_neg hd, if_neg hc, hl]
  simp [takeArgs_all]

theorem readNode_opN {E : ReadEnv} {h : String} {op : Op} {n : Nat} (hd : h ≠ "define") (hc : h ≠ "choose")
    (h0 : readOps.lookup h = none) (hl : readOpsN.lookup h = some (op, n)) {es : List Expr} (hn : es.length = n) :
    readNode E h (es.map some) = construct op es := by
  subst hn
  rw [readNode, if_neg hd, if_neg hc, h0, hl]
  simp [takeArgs_all]

theorem readNode_call {E : ReadEnv} {h f : String} {r : RetTy} {n : Nat} (hd : h ≠ "define") (hc : h ≠ "choose")
    (h0 : readOps.lookup h = none) (h1 : readOpsN.lookup h = none) (hl : readCalls.lookup h = some (f, n, r))
    {es : List Expr} (hn : es.length = n) {t : Ty} (ht : r.get (es.map Expr.ty) = some t) :
    readNode E h (es.map some) = some (.node (.call f) t es) := by
  subst hn
  rw [readNode, if_neg hd, if_neg hc, h0, h1, hl]
  simp [takeArgs_all, ht]

theorem readNode_user {E : ReadEnv} {h : String} {t : Ty} {ts : List Ty} (hd : h ≠ "define") (hc : h ≠ "choose")
    (h0 : readOps.lookup h = none) (h1 : readOpsN.lookup h = none) (hl : readCalls.lookup h = none)
    (hf : readFails.contains h = false) (hE : E.fns h = some (.fn (t :: ts))) (es : List Expr) :
    readNode E h (es.map some) = some (.node (.call h) t es) := by
  rw [readNode, if_neg hd, if_neg hc, h0, h1, hl, hf, hE]
  simp [takeArgs_all, Ty.fnRet]

/-! ### Normalised expressions -/

mutual
/-- The expression read back: `list_eq` and `ite` calls become operators. -/
def normRead : Expr → Expr
  | .var n t => .var n t
  | .lit l => .lit l
  | .node (.call "list_eq") t args => .node .eq t (normReads args)
  | .node (.call "ite") t args => .node .ite t (normReads args)
  | .node op t args => .node op t (normReads args)
def normReads : List Expr → List Expr
  | [] => []
  | e :: es => normRead e :: normReads es
end

theorem normReads_eq (es : List Expr) : normReads es = es.map normRead := by
  induction es with
  | nil => rfl
  | cons e es ih => rw [normReads, ih]; rfl

theorem normRead_ty (e : Expr) : (normRead e).ty = e.ty := by
  unfold normRead
  split <;> rfl

theorem normReads_ty (es : List Expr) : (es.map normRead).map Expr.ty = es.map Expr.ty := by
  rw [List.map_map]
  exact List.map_congr_left (fun e _ => normRead_ty e)

/-! ### Heads -/

theorem map_ty_one {args : List Expr} {x : Ty} (h : args.map Expr.ty = [x]) : ∃ a, args = [a] ∧ a.ty = x := by
  match args, h with
  | [a], h => exact ⟨a, rfl, by simpa using h⟩
  | _ :: _ :: _, h => simp at h

theorem map_ty_two {args : List Expr} {x y : Ty} (h : args.map Expr.ty = [x, y]) :
    ∃ a b, args = [a, b] ∧ a.ty = x ∧ b.ty = y := by
  match args, h with
  | [_], h => simp at h
  | [a, b], h => exact ⟨a, b, rfl, by simpa using h⟩
  | _ :: _ :: _ :: _, h => simp at h

theorem map_ty_three {args : List Expr} {x y z : Ty} (h : args.map Expr.ty = [x, y, z]) :
    ∃ a b c, args = [a, b, c] ∧ a.ty = x ∧ b.ty = y ∧ c.ty = z := by
  match args, h with
  | [_], h => simp at h
  | [_, _], h => simp at h
  | [a, b, c], h => exact ⟨a, b, c, rfl, by simpa using h⟩
  | _ :: _ :: _ :: _ :: _, h => simp at h

theorem op_read {op : Op} {t : Ty} {args : List Expr} (h : OpOk op t (args.map Expr.ty)) (E : ReadEnv) :
    ∃ hd, opHead op (args.head?.map Expr.ty) = some hd ∧ goodAtom hd = true ∧
      readNode E hd (args.map some) = some (.node op t args) := by
  cases op with
  | eq =>
    simp only [OpOk, List.length_map] at h
    obtain ⟨rfl, hlen⟩ := h
    match args, hlen with
    | [a, b], _ =>
      by_cases hs : ∃ u, a.ty = .set u
      · obtain ⟨u, hu⟩ := hs
        refine ⟨"set-eq", by simp [opHead, hu], by decide, ?_⟩
        rw [readNode_opN (n := 2) (op := .eq) (by decide) (by decide) (by decide) (by decide) rfl]
        rfl
      · refine ⟨"equal?", ?_, by decide, ?_⟩
        · simp only [List.head?_cons, Option.map_some]
          cases hu : a.ty <;> first | rfl | exact absurd ⟨_, hu⟩ hs
        · rw [readNode_op (op := .eq) (by decide) (by decide) (by decide)]
          rfl
  | add | mul =>
    simp only [OpOk] at h
    obtain ⟨rfl, hne, hall⟩ := h
    match args, hne with
    | a :: as, _ =>
      refine ⟨_, rfl, by decide, ?_⟩
      rw [readNode_op (by decide) (by decide) (by rfl)]
      have hall' : ∀ b ∈ a :: as, b.ty = .int := fun b hb => hall _ (List.mem_map_of_mem hb)
      simp only [construct]
      rw [if_pos]
      simp only [List.all_eq_true, List.mem_map, decide_eq_true_eq]
      rintro t ⟨b, hb, rfl⟩
      rw [hall' b hb, hall' a (by simp)]
  | and | or =>
    simp only [OpOk] at h
    obtain ⟨rfl, hne, hall⟩ := h
    match args, hne with
    | a :: as, _ =>
      refine ⟨_, rfl, by decide, ?_⟩
      rw [readNode_op (by decide) (by decide) (by rfl)]
      have hall' : ∀ b ∈ a :: as, b.ty = .bool := fun b hb => hall _ (List.mem_map_of_mem hb)
      simp only [construct]
      rw [if_pos]
      simp only [List.all_eq_true, List.mem_map, decide_eq_true_eq]
      rintro t ⟨b, hb, rfl⟩
      exact hall' b hb
  | sub | div | mod | lt | le | gt | ge =>
    simp only [OpOk] at h
    obtain ⟨rfl, h⟩ := h
    obtain ⟨a, b, rfl, h1, h2⟩ := map_ty_two h
    refine ⟨_, rfl, by decide, ?_⟩
    rw [readNode_op (by decide) (by decide) (by rfl)]
    simp [construct, h1, h2]
  | implies =>
    simp only [OpOk] at h
    obtain ⟨rfl, h⟩ := h
    obtain ⟨a, b, rfl, h1, h2⟩ := map_ty_two h
    refine ⟨_, rfl, by decide, ?_⟩
    rw [readNode_op (by decide) (by decide) (by rfl)]
    simp [construct, h1, h2]
  | not =>
    simp only [OpOk] at h
    obtain ⟨rfl, h⟩ := h
    obtain ⟨a, rfl, h1⟩ := map_ty_one h
    refine ⟨_, rfl, by decide, ?_⟩
    rw [readNode_opN (n := 1) (by decide) (by decide) (by rfl) (by rfl) rfl]
    simp [construct, h1]
  | ite =>
    simp only [OpOk] at h
    obtain ⟨a, b, c, rfl, h1, h2, h3⟩ := map_ty_three h
    refine ⟨_, rfl, by decide, ?_⟩
    rw [readNode_opN (n := 3) (by decide) (by decide) (by rfl) (by rfl) rfl]
    simp [construct, h1, h2, h3]
  | tuple =>
    simp only [OpOk] at h
    refine ⟨_, rfl, by decide, ?_⟩
    rw [readNode_op (by decide) (by decide) (by rfl)]
    simp only [construct]
    rw [h]
  | choose => exact h.elim
  | call f => exact h.elim
  | callValue => exact h.elim

theorem op_roundtrip {op : Op} {t : Ty} {args : List Expr} (h : OpOk op t (args.map Expr.ty)) (E : ReadEnv) :
    ∃ hd, opHead op (args.head?.map Expr.ty) = some hd ∧ goodAtom hd = true ∧
      readNode E hd ((args.map normRead).map some) = some (.node op t (args.map normRead)) := by
  obtain ⟨hd, h1, h2, h3⟩ := op_read (args := args.map normRead) (by rw [normReads_ty]; exact h) E
  refine ⟨hd, ?_, h2, h3⟩
  rw [← h1, ← List.head?_map, ← List.head?_map, normReads_ty]

theorem prim_head {f : String} {ts : List Ty} {t : Ty} (h : PrimSig f ts t) :
    ∃ hd r, opHead (.call f) ts.head? = some hd ∧ goodAtom hd = true ∧ hd ≠ "define" ∧ hd ≠ "choose" ∧
      readOps.lookup hd = none ∧ readOpsN.lookup hd = none ∧ readCalls.lookup hd = some (f, ts.length, r) ∧
      r.get ts = some t ∧ f ≠ "list_eq" ∧ f ≠ "ite" := by
  cases h <;> exact ⟨_, _, rfl, by decide, by decide, by decide, by rfl, by rfl, by rfl, rfl, by decide, by decide⟩

theorem lookup_none {β : Type} {l : List (String × β)} {k : String} (h : k ∉ l.map Prod.fst) : l.lookup k = none := by
  induction l with
  | nil => rfl
  | cons p l ih =>
    obtain ⟨j, v⟩ := p
    simp only [List.map_cons, List.mem_cons, not_or] at h
    rw [List.lookup_cons]
    have : (k == j) = false := by simpa using h.1
    rw [this]
    exact ih h.2

theorem user_head {f : String} (h : userName f = true) (t1 : Option Ty) : opHead (.call f) t1 = some f := by
  simp only [userName, Bool.and_eq_true, Bool.not_eq_true', bne_iff_ne, List.contains_eq_mem, decide_eq_false_iff_not] at h
  obtain ⟨⟨⟨⟨⟨⟨_, _⟩, hl⟩, h3⟩, h4⟩, h5⟩, h6⟩ := h
  have : opHead (.call f) t1 = callHead f t1 := by
    unfold opHead
    split <;> simp_all
  rw [this]
  unfold callHead
  split
  · rfl
  · split
    · rw [lookup_none hl]
      rfl
    · rw [if_neg (by simp [h6])]

theorem user_not_special {f : String} (h : userName f = true) (t : Ty) (args : List Expr) :
    normRead (.node (.call f) t args) = .node (.call f) t (args.map normRead) := by
  have h1 : f ≠ "list_eq" := by rintro rfl; revert h; decide
  have h2 : f ≠ "ite" := by rintro rfl; revert h; decide
  rw [← normReads_eq, normRead]
  · simp [h1]
  · simp [h2]

theorem node_step {E : ReadEnv} {args : List Expr}
    (ih : ∀ a ∈ args, ∃ s x, rosetteText a = some s ∧ Denotes s x ∧ toExpr E x = some (normRead a)) :
    ∃ ss xs, rosetteTexts args = some ss ∧ All2 Denotes ss xs ∧ toExprs E xs = (args.map normRead).map some := by
  induction args with
  | nil => exact ⟨[], [], rfl, .nil, rfl⟩
  | cons a as ih' =>
    obtain ⟨s, x, h1, h2, h3⟩ := ih a (by simp)
    obtain ⟨ss, xs, g1, g2, g3⟩ := ih' (fun b hb => ih b (by simp [hb]))
    refine ⟨s :: ss, x :: xs, ?_, .cons h2 g2, ?_⟩
    · simp [rosetteTexts, h1, g1]
    · simp [toExprs, h3, g3]

/-- Printing and reading, for every readable expression. -/
theorem readable_roundtrip (E : ReadEnv) (e : Expr) :
    Readable E e → ∃ s x, rosetteText e = some s ∧ Denotes s x ∧ toExpr E x = some (normRead e) := by
  induction e using Expr.ind with
  | hv n t =>
    intro h
    cases h with
    | var hn hE =>
      have hg : goodAtom n = true := by
        simp only [goodVar, Bool.and_eq_true] at hn
        exact hn.1.1.1.1
      exact ⟨n, .atom n, rfl, denotes_atom hg, read_var hn hE⟩
  | hl l => exact fun _ => ⟨litText l, .atom (litText l), rfl, denotes_atom (lit_good l), read_lit E l⟩
  | hn op t args ih =>
    intro h
    have go : ∀ hd, (∀ a ∈ args, Readable E a) → opHead op (args.head?.map Expr.ty) = some hd → goodAtom hd = true →
        readNode E hd ((args.map normRead).map some) = some (normRead (.node op t args)) →
        ∃ s x, rosetteText (.node op t args) = some s ∧ Denotes s x ∧ toExpr E x = some (normRead (.node op t args)) := by
      intro hd hargs h1 h2 h3
      obtain ⟨ss, xs, g1, g2, g3⟩ := node_step (fun a ha => ih a ha (hargs a ha))
      refine ⟨nodeText op hd ss, .list (.atom hd :: xs), ?_, denotes_node h2 g2 op, ?_⟩
      · simp [rosetteText, h1, g1]
      · rw [toExpr, g3, h3]
    cases h with
    | op hop hargs =>
      obtain ⟨hd, h1, h2, h3⟩ := op_roundtrip hop E
      refine go hd hargs h1 h2 (h3.trans ?_)
      cases op <;> first | exact hop.elim | simp [normRead, normReads_eq]
    | @prim f _ _ hp hargs =>
      obtain ⟨hd, r, h1, h2, h3, h4, h5, h6, h7, h8, h9, h10⟩ := prim_head hp
      refine go hd hargs (by rw [← h1, List.head?_map]) h2 ?_
      rw [readNode_call h3 h4 h5 h6 h7 (by simp) (by rw [normReads_ty]; exact h8), ← normReads_eq, normRead]
      · simp [h9]
      · simp [h10]
    | @listEq a b ha hb =>
      refine go "equal?" (by simp [ha, hb]) rfl (by decide) ?_
      rw [readNode_op (op := .eq) (by decide) (by decide) (by rfl)]
      rfl
    | @iteCall c a b hc hab h1 h2 h3 =>
      refine go "if" (by simp [h1, h2, h3]) rfl (by decide) ?_
      rw [readNode_opN (n := 3) (op := .ite) (by decide) (by decide) (by rfl) (by rfl) rfl]
      simp [construct, normRead_ty, hc, hab, normRead, normReads]
    | @user f _ ts _ hu hE hargs =>
      have hg : goodAtom f = true := by
        simp only [userName, Bool.and_eq_true] at hu
        exact hu.1.1.1.1.1.1
      refine go f hargs (user_head hu _) hg ?_
      have hr : f ∉ reservedHeads := by
        simp only [userName, Bool.and_eq_true, Bool.not_eq_true', List.contains_eq_mem, decide_eq_false_iff_not] at hu
        exact hu.1.1.1.1.1.2
      simp only [reservedHeads, List.mem_append, List.mem_cons, List.not_mem_nil, or_false, not_or] at hr
      obtain ⟨⟨⟨⟨⟨r1, r2⟩, r3⟩, r4⟩, r5⟩, r6⟩ := hr
      rw [readNode_user r1 r2 (lookup_none r3) (lookup_none r4) (lookup_none r5) (by simpa using r6) hE, user_not_special hu]

/-- Normalisation does not change the value. -/
theorem normRead_eval {I : Interp} (hI : StdCalls I) (ρ : Env) {E : ReadEnv} (e : Expr) :
    Readable E e → eval I ρ (normRead e) = eval I ρ e := by
  induction e using Expr.ind with
  | hv n t => exact fun _ => rfl
  | hl l => exact fun _ => rfl
  | hn op t args ih =>
    intro h
    have hm : (∀ a ∈ args, Readable E a) → (args.map normRead).map (eval I ρ) = args.map (eval I ρ) := by
      intro ha
      rw [List.map_map]
      exact List.map_congr_left (fun a hm => ih a hm (ha a hm))
    have same : (∀ a ∈ args, Readable E a) → normRead (.node op t args) = .node op t (args.map normRead) →
        eval I ρ (normRead (.node op t args)) = eval I ρ (.node op t args) := by
      intro ha hn
      rw [hn]
      simp only [eval, evals_eq_map]
      rw [hm ha]
    cases h with
    | op hop hargs =>
      refine same hargs ?_
      cases op <;> first | exact hop.elim | simp [normRead, normReads_eq]
    | prim hp hargs =>
      obtain ⟨hd, r, h1, h2, h3, h4, h5, h6, h7, h8, h9, h10⟩ := prim_head hp
      refine same hargs ?_
      rw [← normReads_eq, normRead]
      · simp [h9]
      · simp [h10]
    | @listEq a b ha hb =>
      have := hm (by simp [ha, hb])
      simp only [List.map_cons, List.map_nil, List.cons.injEq, and_true] at this
      simp only [normRead, normReads, eval, evals, evalOp, hI.list_eq]
      rw [this.1, this.2]
    | @iteCall c a b hc hab h1 h2 h3 =>
      have := hm (by simp [h1, h2, h3])
      simp only [List.map_cons, List.map_nil, List.cons.injEq, and_true] at this
      simp only [normRead, normReads, eval, evals, evalOp, hI.ite]
      rw [this.1, this.2.1, this.2.2]
    | user hu hE hargs => exact same hargs (user_not_special hu _ _)

theorem denotes_definition {f : String} {params : List String} {body : String} {x : SExpr} (hf : goodAtom f = true)
    (hp : ∀ p ∈ params, goodAtom p = true) (hb : Denotes body x) :
    Denotes (definitionText f params body) (.list [.atom "define", .list (.atom f :: params.map .atom), x]) := by
  have hps : All2 Denotes params (params.map SExpr.atom) := by
    induction params with
    | nil => exact .nil
    | cons p ps ih => exact .cons (denotes_atom (hp p (by simp))) (ih (fun q hq => hp q (by simp [hq])))
  intro rest _
  have h1 : "(define (".toList = '(' :: ("define".toList ++ [' ', '(']) := by decide
  have h2 : ") ".toList = [')', ' '] := by decide
  have h3 : ")".toList = [')'] := by decide
  simp only [definitionText, String.toList_append, List.append_assoc, h1, h2, h3, List.cons_append, List.nil_append]
  obtain ⟨b1, b2⟩ := cat_before hps (delim_rpar (' ' :: (body.toList ++ ')' :: rest)))
  rw [tokens_lpar, tokens_name (by decide) (delim_space _), tokens_space, tokens_lpar, tokens_name hf b2, b1, tokens_rpar,
    tokens_space, hb _ (delim_rpar rest), tokens_rpar]
  simp [SExpr.flat, SExpr.flats]

/-- Reading a definition is reading its body. -/
theorem readDefinition_denotes {E : ReadEnv} {f : String} {params : List String} {body : String} {x : SExpr}
    (hf : goodAtom f = true) (hp : ∀ p ∈ params, goodAtom p = true) (hb : Denotes body x) :
    readDefinition E (definitionText f params body) = toExpr E x := by
  rw [readDefinition, generateAst_list (denotes_definition hf hp hb)]
  simp [toExpr, toExprs, readNode]

/-- C20: a definition whose body is the text printed for a well-typed expression is read back as an expression with the same
type and, for every interpretation of the functions and every environment, the same value. -/
theorem C20_rosette_roundtrip_partial (E : ReadEnv) (e : Expr) (he : Readable E e) (f : String) (params : List String)
    (hf : goodAtom f = true) (hp : ∀ p ∈ params, goodAtom p = true) :
    ∃ s e', rosetteText e = some s ∧ readDefinition E (definitionText f params s) = some e' ∧ e'.ty = e.ty ∧
      ∀ I, StdCalls I → ∀ ρ, eval I ρ e' = eval I ρ e := by
  obtain ⟨s, x, h1, h2, h3⟩ := readable_roundtrip E e he
  refine ⟨s, normRead e, h1, ?_, normRead_ty e, fun I hI ρ => normRead_eval hI ρ e he⟩
  rw [readDefinition_denotes hf hp h2, h3]

/-! ### Non-vacuity and counterexamples -/

/-- A user function `f : Int → List Int → Int`, variables `x : Int`, `xs : List Int`, `bs : List Bool`, `c : Bool`. -/
def exEnv : ReadEnv where
  fns n := if n = "f" then some (.fn [.int, .int, .list .int]) else if n = "length" then some (.fn [.int, .int])
    else if n = "integer_add" then some (.fn [.int, .int]) else none
  vars n := if n = "x" then some .int else if n = "xs" then some (.list .int) else if n = "bs" then some (.list .bool)
    else if n = "c" then some .bool else if n = "true" then some .bool else none

/-- `f(x + -3, xs[1:]) if xs == [] else list_get(xs, 0) % 2`. -/
def exBody : Expr :=
  .node .ite .int [.node (.call "list_eq") .bool [.var "xs" (.list .int), .node (.call "list_empty") (.list .int) []],
    .node (.call "f") .int [.node .add .int [.var "x" .int, .lit (.int (-3))],
      .node (.call "list_tail") (.list .int) [.var "xs" (.list .int), .lit (.int 1)]],
    .node .mod .int [.node (.call "list_get") .int [.var "xs" (.list .int), .lit (.int 0)], .lit (.int 2)]]

theorem exBody_readable : Readable exEnv exBody := by
  have hxs : Readable exEnv (.var "xs" (.list .int)) := .var (by decide) (.inr ⟨rfl, rfl⟩)
  have hx : Readable exEnv (.var "x" .int) := .var (by decide) (.inr ⟨rfl, rfl⟩)
  refine .op rfl ?_
  simp only [List.mem_cons, List.not_mem_nil, or_false, forall_eq_or_imp, forall_eq]
  refine ⟨.listEq hxs (.prim .list_empty (by simp)), .user (ts := [.int, .list .int]) (by decide) rfl ?_, .op ⟨rfl, rfl⟩ ?_⟩
  · simp only [List.mem_cons, List.not_mem_nil, or_false, forall_eq_or_imp, forall_eq]
    refine ⟨.op ⟨rfl, by simp, by decide⟩ ?_, .prim .list_tail ?_⟩
    · simp only [List.mem_cons, List.not_mem_nil, or_false, forall_eq_or_imp, forall_eq]
      exact ⟨hx, .lit⟩
    · simp only [List.mem_cons, List.not_mem_nil, or_false, forall_eq_or_imp, forall_eq]
      exact ⟨hxs, .lit⟩
  · simp only [List.mem_cons, List.not_mem_nil, or_false, forall_eq_or_imp, forall_eq]
    refine ⟨.prim .list_get ?_, .lit⟩
    simp only [List.mem_cons, List.not_mem_nil, or_false, forall_eq_or_imp, forall_eq]
    exact ⟨hxs, .lit⟩

-- the hypotheses are met by `exBody`
example : ∃ s e', rosetteText exBody = some s ∧ readDefinition exEnv (definitionText "ps" ["x", "xs"] s) = some e' ∧
      e'.ty = exBody.ty ∧ ∀ I, StdCalls I → ∀ ρ, eval I ρ e' = eval I ρ exBody :=
  C20_rosette_roundtrip_partial exEnv exBody exBody_readable _ _ (by decide) (by decide)

/-- C20 fails for `list_append`: the text is printed, and reading it raises an exception. -/
theorem C20_list_append_refuted :
    ∃ s, rosetteText (.node (.call "list_append") (.list .int) [.var "xs" (.list .int), .var "x" .int]) = some s ∧
      ∀ E f params, goodAtom f = true → (∀ p ∈ params, goodAtom p = true) →
        readDefinition E (definitionText f params s) = none := by
  refine ⟨textSimple "list-append" ["xs", "x"], rfl, fun E f params hf hp => ?_⟩
  have hd : Denotes (textSimple "list-append" ["xs", "x"]) (.list [.atom "list-append", .atom "xs", .atom "x"]) :=
    denotes_simple (by decide) (.cons (denotes_atom (by decide)) (.cons (denotes_atom (by decide)) .nil))
  rw [readDefinition_denotes hf hp hd]
  rfl

/-- C20 fails for slices of three-dimensional tensors: printed, but not recognised when reading (unless a function or a non-terminal of
that name exists). -/
theorem C20_tensor_slice_refuted :
    ∃ s, rosetteText (.node (.call "tensor3d_slice") (.list (.list (.list .int)))
        [.var "t" (.list (.list (.list .int))), .var "y" .int, .var "x" .int]) = some s ∧
      ∀ E : ReadEnv, E.fns "tensor3d-slice-noerr" = none → E.choices.lookup "tensor3d-slice-noerr" = none → ∀ f params, goodAtom f = true → (∀ p ∈ params, goodAtom p = true) →
        readDefinition E (definitionText f params s) = none := by
  refine ⟨textSimple "tensor3d-slice-noerr" ["t", "y", "x"], rfl, fun E hE hC f params hf hp => ?_⟩
  have hd : Denotes (textSimple "tensor3d-slice-noerr" ["t", "y", "x"])
      (.list [.atom "tensor3d-slice-noerr", .atom "t", .atom "y", .atom "x"]) :=
    denotes_simple (by decide)
      (.cons (denotes_atom (by decide)) (.cons (denotes_atom (by decide)) (.cons (denotes_atom (by decide)) .nil)))
  rw [readDefinition_denotes hf hp hd]
  have h1 : readOps.lookup "tensor3d-slice-noerr" = none := by rfl
  have h2 : readOpsN.lookup "tensor3d-slice-noerr" = none := by rfl
  have h3 : readCalls.lookup "tensor3d-slice-noerr" = none := by rfl
  simp [toExpr, readNode, h1, h2, h3, hE, readChoice, hC]

/-- C20 fails for a user function called `length`: its calls are read back as calls of the list primitive. -/
theorem C20_function_name_refuted :
    ∃ s e' , rosetteText (.node (.call "length") .int [.var "x" .int]) = some s ∧
      readDefinition exEnv (definitionText "ps" ["x"] s) = some e' ∧
      ∃ I ρ, StdCalls I ∧ eval I ρ e' ≠ eval I ρ (.node (.call "length") .int [.var "x" .int]) := by
  have hd : Denotes (textJoin "length" ["x"]) (.list [.atom "length", .atom "x"]) :=
    denotes_join (by decide) (.cons (denotes_atom (by decide)) .nil)
  refine ⟨textJoin "length" ["x"], .node (.call "list_length") .int [.var "x" .int], rfl, ?_,
    { fn := fun f vs => if f = "list_eq" then (match vs with | [a, b] => .bool (decide (a = b)) | _ => .int 0)
        else if f = "ite" then (match vs with | [c, a, b] => if c.asBool then a else b | _ => .int 0)
        else if f = "length" then .int 1 else .int 0,
      apply := fun _ _ => .int 0, idiv := fun _ _ => 0, imod := fun _ _ => 0, choose := fun _ => .int 0 },
    fun _ => .int 0, ⟨fun a b => rfl, fun c a b => rfl⟩, by decide⟩
  rw [readDefinition_denotes (by decide) (by decide) hd]
  rfl

/-- C20 fails for user functions whose name starts with `integer`: they cannot be printed. -/
theorem C20_integer_prefix_refuted : rosetteText (.node (.call "integer_add") .int [.var "x" .int]) = none := by rfl

/-- C20 fails for empty lists that are not lists of integers: `bs if c else []` is printed, but the empty list is read as a list
of integers and the conditional is rejected. -/
theorem C20_empty_bool_list_refuted :
    ∃ s, rosetteText (.node .ite (.list .bool) [.var "c" .bool, .var "bs" (.list .bool),
        .node (.call "list_empty") (.list .bool) []]) = some s ∧
      readDefinition exEnv (definitionText "ps" ["c", "bs"] s) = none := by
  have hd : Denotes (textSimple "if" ["c", "bs", textSimple "list-empty" []])
      (.list [.atom "if", .atom "c", .atom "bs", .list [.atom "list-empty"]]) :=
    denotes_simple (by decide) (.cons (denotes_atom (by decide)) (.cons (denotes_atom (by decide))
      (.cons (denotes_simple (by decide) .nil) .nil)))
  refine ⟨textSimple "if" ["c", "bs", textSimple "list-empty" []], rfl, ?_⟩
  rw [readDefinition_denotes (by decide) (by decide) hd]
  rfl

/-- C20 fails for a variable called `true`, which is read back as a literal. -/
theorem C20_variable_name_refuted :
    ∃ s e', rosetteText (.var "true" .bool) = some s ∧ exEnv.vars "true" = some .bool ∧
      readDefinition exEnv (definitionText "ps" ["true"] s) = some e' ∧
      ∃ ρ : Env, ρ "true" = .bool false ∧ ∀ I, eval I ρ e' ≠ eval I ρ (.var "true" .bool) := by
  refine ⟨"true", boolLit true, rfl, by rfl, ?_, fun _ => .bool false, rfl, fun I h => by cases h⟩
  rw [readDefinition_denotes (by decide) (by decide) (denotes_atom (by decide))]
  rfl

/-! ### C42: splitting Rosette's answer into definitions -/

/-- One definition in Rosette's answer: a line with the source location and the lines of the definition. -/
structure AnswerBlock where
  location : String
  first : String
  more : List String

/-- The lines of an answer. -/
def answerLines (bs : List AnswerBlock) : List String := bs.flatMap (fun b => b.location :: b.first :: b.more)

/-- The text of a definition: its lines separated by newlines. -/
def AnswerBlock.text (b : AnswerBlock) : String := b.first ++ catAll (b.more.map ("\n" ++ ·))

/-- Locations are paths, `define` occurs in the first line of a definition only, definitions contain no slash, and further lines
are indented. -/
structure AnswerBlock.Ok (b : AnswerBlock) : Prop where
  loc : hasSub "/" b.location = true ∧ hasSub "define" b.location = false
  first : hasSub "define" b.first = true
  more : ∀ l ∈ b.more, hasSub "/" l = false ∧ hasSub "define" l = false ∧ ∃ r, l.toList = ' ' :: r

theorem parseOutput_skip {ls rest : List String} (h : ∀ l ∈ ls, hasSub "define" l = false) :
    parseOutput (ls ++ rest) = parseOutput rest := by
  induction ls with
  | nil => rfl
  | cons l ls ih =>
    rw [List.cons_append, parseOutput, h l (by simp)]
    exact ih (fun x hx => h x (by simp [hx]))

theorem untilSlash_append {ls rest : List String} (h : ∀ l ∈ ls, hasSub "/" l = false)
    (hr : rest = [] ∨ ∃ l r, rest = l :: r ∧ hasSub "/" l = true) : untilSlash (ls ++ rest) = ls := by
  induction ls with
  | nil =>
    rcases hr with rfl | ⟨l, r, rfl, hl⟩
    · rfl
    · simp [untilSlash, hl]
  | cons l ls ih =>
    rw [List.cons_append, untilSlash, h l (by simp)]
    simp only [Bool.false_eq_true, if_false]
    rw [ih (fun x hx => h x (by simp [hx]))]

theorem tokens_newline (cur : List Char) (r : List Char) : tokens cur ('\n' :: ' ' :: r) = tokens cur (' ' :: r) := by
  simp [tokens, isSpace, flush]

theorem tokens_congr {r r' : List Char} (h : ∀ cur, tokens cur r = tokens cur r') (a : List Char) (cur : List Char) :
    tokens cur (a ++ r) = tokens cur (a ++ r') := by
  induction a generalizing cur with
  | nil => exact h cur
  | cons c a ih => simp only [List.cons_append, tokens, ih]

theorem tokens_lines {ls : List String} (h : ∀ l ∈ ls, ∃ r, l.toList = ' ' :: r) (cur : List Char) :
    tokens cur (catAll ls).toList = tokens cur (catAll (ls.map ("\n" ++ ·))).toList := by
  induction ls generalizing cur with
  | nil => rfl
  | cons l ls ih =>
    obtain ⟨r, hr⟩ := h l (by simp)
    have hn : "\n".toList = ['\n'] := by decide
    simp only [List.map_cons, catAll, String.toList_append, hn, List.cons_append, List.nil_append]
    rw [hr, List.cons_append, List.cons_append, tokens_newline, ← List.cons_append, ← List.cons_append]
    exact tokens_congr (fun c => ih (fun x hx => h x (by simp [hx])) c) _ _

/-- C42: every definition in Rosette's answer is found, in order, and reads as its own lines. -/
theorem C42_definitions_found_partial (bs : List AnswerBlock) (h : ∀ b ∈ bs, b.Ok) :
    All2 (fun b s => generateAst s = generateAst b.text) bs (parseOutput (answerLines bs)) := by
  induction bs with
  | nil => exact .nil
  | cons b bs ih =>
    have hb := h b (by simp)
    have hrest : answerLines bs = [] ∨ ∃ l r, answerLines bs = l :: r ∧ hasSub "/" l = true := by
      cases bs with
      | nil => exact .inl rfl
      | cons b' bs' => exact .inr ⟨b'.location, b'.first :: b'.more ++ answerLines bs', rfl, (h b' (by simp)).loc.1⟩
    have e1 : answerLines (b :: bs) = b.location :: b.first :: (b.more ++ answerLines bs) := by
      simp [answerLines]
    rw [e1, parseOutput, hb.loc.2, parseOutput, hb.first]
    simp only [Bool.false_eq_true, if_false, if_true]
    rw [untilSlash_append (fun l hl => (hb.more l hl).1) hrest, parseOutput_skip (fun l hl => (hb.more l hl).2.1)]
    refine .cons ?_ (ih (fun x hx => h x (by simp [hx])))
    simp only [generateAst, AnswerBlock.text, String.toList_append]
    rw [tokens_congr (fun c => tokens_lines (fun l hl => (hb.more l hl).2.2) c)]

-- two definitions, the first one on two lines
example : AnswerBlock.Ok ⟨"/tmp/a.rkt:5:0", "'(define (inv0 x)", [" (<= x 1))"]⟩ ∧
    AnswerBlock.Ok ⟨"/tmp/a.rkt:9:0", "'(define (ps x) x)", []⟩ :=
  ⟨⟨by decide, by decide, fun l hl => by
      rw [List.mem_singleton.mp hl]
      exact ⟨by decide, by decide, "(<= x 1))".toList, by decide⟩⟩, ⟨by decide, by decide, by simp⟩⟩

/-- C42 fails when a line of a definition contains a slash: the rest of the definition is lost. -/
theorem C42_slash_refuted :
    parseOutput (answerLines [⟨"/tmp/a.rkt:5:0", "(define (ps a/b)", [" (f a/b)", " )"]⟩]) = ["(define (ps a/b)"] ∧
    generateAst "(define (ps a/b)" = none := by decide

end Metalift
