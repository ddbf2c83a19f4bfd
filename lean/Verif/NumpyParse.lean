import Verif.NumpySpec
import Verif.PyParse
/-
Lemmas about the parser of Python expressions, for the text of the NumPy code generator.
-/
namespace Metalift.Py

/-- `ts` is read as the argument `a` of a call. -/
def IsArg (ts : List Tok) (a : Ast) : Prop := ∃ N, ∀ f, N ≤ f → ∀ rest,
  pArgs (f + 1) (ts ++ .rpar :: rest) = some ([a], rest) ∧
  pArgs (f + 1) (ts ++ .comma :: rest) = (pArgs f rest).bind fun (as, ts) => some (a :: as, ts)

theorem Reads.isArg {ts : List Tok} {a : Ast} (h : Reads 0 ts a) : IsArg ts a := by
  obtain ⟨N, hN⟩ := id h
  refine ⟨N, fun f hf rest => ⟨?_, ?_⟩⟩
  · rw [pArgs_succ, hN f hf _ (stops_rpar _ _)]
    · rfl
    · exact fun us he' => h.head (stops_rpar _ _) he' (Or.inl rfl)
    · exact fun _ _ => h.no_kwarg (stops_rpar _ _) (by decide)
  · rw [pArgs_succ, hN f hf _ (stops_comma _ _)]
    · rfl
    · exact fun us he' => h.head (stops_comma _ _) he' (Or.inl rfl)
    · exact fun _ _ => h.no_kwarg (stops_comma _ _) (by decide)

/-- `k=0`. -/
theorem isArg_kw (k : String) : IsArg [.name k, .assign, .num 0] (.kwarg k (.num 0)) := by
  refine ⟨20, fun f hf rest => ?_⟩
  obtain ⟨g, rfl⟩ : ∃ g, f = g + 20 := ⟨f - 20, by omega⟩
  exact ⟨rfl, rfl⟩

/-- Arguments of a call. -/
theorem isArgs_reads : ∀ (ps : List (List Tok)) (as : List Ast), All2 IsArg ps as →
    ∃ N, ∀ f, N ≤ f → ∀ rest, pArgs f (joinToks .comma ps ++ .rpar :: rest) = some (as, rest)
  | [], _, .nil => ⟨1, fun f hf rest => by obtain ⟨g, rfl, _⟩ := exists_succ hf; rfl⟩
  | [p], _, .cons (b := a) h .nil => by
    obtain ⟨N, hN⟩ := h
    refine ⟨N + 1, fun f hf rest => ?_⟩
    obtain ⟨g, rfl, hg⟩ := exists_succ hf
    exact (hN g hg rest).1
  | p :: q :: ps, _, .cons (b := a) (bs := as) h hs => by
    obtain ⟨M, hM⟩ := isArgs_reads (q :: ps) as hs
    obtain ⟨N, hN⟩ := h
    refine ⟨N + M + 1, fun f hf rest => ?_⟩
    obtain ⟨g, rfl, hg⟩ := exists_succ hf
    have he : joinToks .comma (p :: q :: ps) ++ .rpar :: rest = p ++ .comma :: (joinToks .comma (q :: ps) ++ .rpar :: rest) := by
      simp [joinToks_cons2]
    rw [he, (hN g (by omega) _).2, hM g (by omega)]
    rfl

/-- A call with keyword arguments. -/
theorem trail_call' {ps : List (List Tok)} {as : List Ast} (h : All2 IsArg ps as) (a : Ast) :
    IsTrail (.lpar :: (joinToks .comma ps ++ [.rpar])) a (.call a as) := by
  obtain ⟨N, hN⟩ := isArgs_reads ps as h
  refine ⟨N, fun f hf rest => ?_⟩
  have he : Tok.lpar :: (joinToks .comma ps ++ [.rpar]) ++ rest = .lpar :: (joinToks .comma ps ++ .rpar :: rest) := by simp
  rw [he, pTrail, hN f hf]
  rfl

/-- `.s`. -/
theorem trail_attr (a : Ast) (s : String) : IsTrail [.attr s] a (.attr a s) := ⟨0, fun f _ rest => by
  show pTrail (f + 1) a (.attr s :: rest) = _
  rw [pTrail]⟩

/-- `[:, i:j]`. -/
theorem trail_cols {ts us : List Tok} {i j : Ast} (h : Reads 0 ts i) (h' : Reads 0 us j) (a : Ast) :
    IsTrail (.lbr :: .colon :: .comma :: (ts ++ .colon :: (us ++ [.rbr]))) a (.colSlice a i j) := by
  obtain ⟨N, hN⟩ := id h
  obtain ⟨M, hM⟩ := id h'
  refine ⟨N + M, fun f hf rest => ?_⟩
  have he : Tok.lbr :: .colon :: .comma :: (ts ++ .colon :: (us ++ [.rbr])) ++ rest =
      .lbr :: .colon :: .comma :: (ts ++ .colon :: (us ++ .rbr :: rest)) := by simp
  rw [he, pTrail, hN f (by omega) _ (stops_colon _ _), Option.bind_some]
  show ((pLvl f 0 (us ++ .rbr :: rest)).bind _) = _
  rw [hM f (by omega) _ (stops_rbr _ _)]
  rfl

/-- `[a, b]`. -/
theorem atom_list2 {p q : List Tok} {a b : Ast} (h : Reads 0 p a) (h' : Reads 0 q b) :
    IsAtom (.lbr :: (joinToks .comma [p, q] ++ [.rbr])) (.list [a, b]) := by
  obtain ⟨N, hN⟩ := id h
  obtain ⟨M, hM⟩ := id h'
  refine ⟨N + M + 3, fun f hf rest => ?_⟩
  obtain ⟨g, rfl⟩ : ∃ g, f = g + 1 + 1 + 1 := ⟨f - 3, by omega⟩
  have he : Tok.lbr :: (joinToks .comma [p, q] ++ [.rbr]) ++ rest = .lbr :: (p ++ .comma :: (q ++ .rbr :: rest)) := by simp [joinToks]
  rw [he, pAtom, pItems_succ, hN _ (by omega) _ (stops_comma _ _), Option.bind_some]
  · show (((pItems (g + 1) (q ++ .rbr :: rest)).bind _).bind _) = _
    rw [pItems_succ, hM _ (by omega) _ (stops_rbr _ _)]
    · rfl
    · exact fun us he' => h'.head (stops_rbr _ _) he' (by simp)
    · exact fun us he' => h'.head (stops_rbr _ _) he' (by simp)
  · exact fun us he' => h.head (stops_comma _ _) he' (by simp)
  · exact fun us he' => h.head (stops_comma _ _) he' (by simp)

end Metalift.Py

namespace Metalift.Np
open Metalift Py

/-- `np.f(..)`. -/
def npAst (f : String) (as : List Ast) : Ast := .call (.attr (.name "np") f) as

theorem npCall_primary {ps : List (List Tok)} {as : List Ast} (f : String) (h : All2 IsArg ps as) : Primary (npCall f ps) (npAst f as) := by
  have := (((atom_name "np").primary).trail (trail_attr _ f)).trail (trail_call' h _)
  exact this

/-- `ts` is the expression `a`, of precedence at least `k`. -/
structure Lv (k : Nat) (ts : List Tok) (a : Ast) : Prop where
  le : k ≤ 8
  reads : Reads k ts a
  primary : k = 8 → Primary ts a

theorem Lv.of {k : Nat} {ts : List Tok} {a : Ast} (hk : k < 8) (h : Reads k ts a) : Lv k ts a := ⟨by omega, h, by omega⟩
theorem Lv.prim {ts : List Tok} {a : Ast} (h : Primary ts a) : Lv 8 ts a := ⟨by omega, h.reads, fun _ => h⟩
theorem Lv.at {k l : Nat} {ts : List Tok} {a : Ast} (h : Lv l ts a) (hk : k ≤ l) : Reads k ts a := h.reads.lift hk h.le
theorem Lv.zero {l : Nat} {ts : List Tok} {a : Ast} (h : Lv l ts a) : Reads 0 ts a := h.at (Nat.zero_le _)
theorem Lv.prim8 {l : Nat} {ts : List Tok} {a : Ast} (h : Lv l ts a) (hl : 8 ≤ l) : Primary ts a :=
  h.primary (Nat.le_antisymm h.le hl)

theorem npCall_lv {ps : List (List Tok)} {as : List Ast} (f : String) (h : All2 IsArg ps as) : Lv 8 (npCall f ps) (npAst f as) :=
  .prim (npCall_primary f h)

theorem paren_lv {ts : List Tok} {a : Ast} (h : Reads 0 ts a) : Reads 8 (.lpar :: (ts ++ [.rpar])) a := (atom_paren h).reads

theorem parenBin_eq (o : Tok) (s t : List Tok) : parenBin o s t = (.lpar :: (s ++ [.rpar])) ++ o :: (.lpar :: (t ++ [.rpar])) := by
  simp [parenBin]

/-- `(a) + (b)`. -/
theorem parenBin_add {s t : List Tok} {a b : Ast} (h : Reads 0 s a) (h' : Reads 0 t b) : Lv 5 (parenBin .plus s t) (.bin .add a b) := by
  refine .of (by omega) ?_
  rw [parenBin_eq]
  exact reads_sum (ps := [_, _]) (as := [a, b]) (by simp) (.cons ((paren_lv h).lift (by omega) (by omega))
    (.cons ((paren_lv h').lift (by omega) (by omega)) .nil))
/-- `(a) - (b)`. -/
theorem parenBin_sub {s t : List Tok} {a b : Ast} (h : Reads 0 s a) (h' : Reads 0 t b) : Lv 5 (parenBin .minus s t) (.bin .sub a b) := by
  refine .of (by omega) ?_
  rw [parenBin_eq]
  exact reads_sub [_] [a] (by simp) (.cons ((paren_lv h).lift (by omega) (by omega)) .nil) rfl rfl ((paren_lv h').lift (by omega) (by omega))
/-- `(a) * (b)`. -/
theorem parenBin_mul {s t : List Tok} {a b : Ast} (h : Reads 0 s a) (h' : Reads 0 t b) : Lv 6 (parenBin .star s t) (.bin .mul a b) := by
  refine .of (by omega) ?_
  rw [parenBin_eq]
  exact reads_prod (ps := [_, _]) (as := [a, b]) (by simp) (.cons ((paren_lv h).lift (by omega) (by omega))
    (.cons ((paren_lv h').lift (by omega) (by omega)) .nil))
/-- `(a) // (b)`. -/
theorem parenBin_div {s t : List Tok} {a b : Ast} (h : Reads 0 s a) (h' : Reads 0 t b) :
    Lv 6 (parenBin .slashslash s t) (.bin .floordiv a b) := by
  refine .of (by omega) ?_
  rw [parenBin_eq]
  exact reads_divmod _ _ (Or.inl ⟨rfl, rfl⟩) [_] [a] (by simp) (.cons ((paren_lv h).lift (by omega) (by omega)) .nil) rfl rfl
    ((paren_lv h').lift (by omega) (by omega))
/-- `(a) % (b)`. -/
theorem parenBin_mod {s t : List Tok} {a b : Ast} (h : Reads 0 s a) (h' : Reads 0 t b) :
    Lv 6 (parenBin .percent s t) (.bin .mod a b) := by
  refine .of (by omega) ?_
  rw [parenBin_eq]
  exact reads_divmod _ _ (Or.inr ⟨rfl, rfl⟩) [_] [a] (by simp) (.cons ((paren_lv h).lift (by omega) (by omega)) .nil) rfl rfl
    ((paren_lv h').lift (by omega) (by omega))
/-- `(a) and (b)`. -/
theorem parenBin_and {s t : List Tok} {a b : Ast} (h : Reads 0 s a) (h' : Reads 0 t b) : Lv 2 (parenBin .kand s t) (.and a b) := by
  refine .of (by omega) ?_
  rw [parenBin_eq]
  exact reads_and [_, _] [a, b] (by simp) (.cons ((paren_lv h).lift (by omega) (by omega))
    (.cons ((paren_lv h').lift (by omega) (by omega)) .nil))
/-- `(a) or (b)`. -/
theorem parenBin_or {s t : List Tok} {a b : Ast} (h : Reads 0 s a) (h' : Reads 0 t b) : Lv 1 (parenBin .kor s t) (.or a b) := by
  refine .of (by omega) ?_
  rw [parenBin_eq]
  exact reads_or [_, _] [a, b] (by simp) (.cons ((paren_lv h).lift (by omega) (by omega))
    (.cons ((paren_lv h').lift (by omega) (by omega)) .nil))

/-- `a + b` without parentheses. -/
theorem plain_add {s t : List Tok} {a b : Ast} (h : Reads 6 s a) (h' : Reads 6 t b) : Reads 5 (s ++ .plus :: t) (.bin .add a b) :=
  reads_sum (ps := [_, _]) (as := [a, b]) (by simp) (.cons h (.cons h' .nil))

/-! ### The text of the functions -/

/-- The token of an operation. -/
def AOp.tok : AOp → Tok
  | .add => .plus | .sub => .minus | .mul => .star | .div => .slashslash
/-- The operator. -/
def AOp.bin : AOp → BinOp
  | .add => .add | .sub => .sub | .mul => .mul | .div => .floordiv

theorem AOp.reads (o : AOp) {s t : List Tok} {a b : Ast} (h : Reads 0 s a) (h' : Reads 0 t b) :
    Lv o.lvl (parenBin o.tok s t) (.bin o.bin a b) := by
  cases o
  · exact parenBin_add h h'
  · exact parenBin_sub h h'
  · exact parenBin_mul h h'
  · exact parenBin_div h h'

/-- The syntax tree of a call. -/
def Fn.ast : Fn → List Ast → Ast
  | .vzip o, [a, b] => .bin o.bin a b
  | .mzip o, [a, b] => .bin o.bin a b
  | .vsc o swap, [a, b] => if swap then .bin o.bin b a else .bin o.bin a b
  | .msc o swap, [a, b] => if swap then .bin o.bin b a else .bin o.bin a b
  | .mvm, as => npAst "matmul" as
  | .get _, [a, b] => .index a b
  | .append _, [a, b] => npAst "concatenate" [.list [a, npAst "expand_dims" [b, .kwarg "axis" (.num 0)]], .kwarg "axis" (.num 0)]
  | .take _, [a, b] => .slice a none (some b)
  | .mtail, [a, b] => .slice a (some b) none
  | .slice _, [a, b, c] => .slice a (some b) (some c)
  | .sliceLen _, [a, b, c] => .slice a (some b) (some (.bin .add b c))
  | .cslice, [a, b, c] => .colSlice a b c
  | .csliceLen, [a, b, c] => .colSlice a b (.bin .add b c)
  | .size, [a] => .attr a "size"
  | .transpose, as => npAst "transpose" as
  | .rmax, as => npAst "max" as
  | .rsum, as => npAst "sum" as
  | .rmul, as => npAst "prod" as
  | .empty mat, _ => npAst "empty" [if mat then .tuple [.num 0, .num 0] else .num 0]
  | _, _ => .bool false

/-- Texts and trees of the arguments, of at least the required precedence. -/
inductive ArgsRead : List (K × Nat) → List (List Tok) → List Ast → Prop where
  | nil : ArgsRead [] [] []
  | cons {k : K} {l m : Nat} {ks : List (K × Nat)} {p : List Tok} {ps : List (List Tok)} {a : Ast} {as : List Ast} :
      Lv m p a → l ≤ m → ArgsRead ks ps as → ArgsRead ((k, l) :: ks) (p :: ps) (a :: as)

theorem mem_of_lookup {α : Type} {f : String} {F : α} : ∀ {l : List (String × α)}, l.lookup f = some F → (f, F) ∈ l
  | [], h => nomatch h
  | (g, G) :: l, h => by
    rw [List.lookup_cons] at h
    by_cases he : f = g
    · subst he
      rw [beq_self_eq_true] at h
      injection h with h
      subst h
      exact List.mem_cons_self ..
    · rw [beq_false_of_ne he] at h
      exact List.mem_cons_of_mem _ (mem_of_lookup h)

/-- The text printed for a call is read as `Fn.ast`. -/
theorem callText_reads {f : String} {F : Fn} (hF : fnTable.lookup f = some F) {ps : List (List Tok)} {as : List Ast}
    (h : ArgsRead F.args ps as) : ∃ ts, callText false f ps = some (some ts) ∧ Lv F.lvl ts (F.ast as) := by
  have hm := mem_of_lookup hF
  clear hF
  simp only [fnTable, List.mem_cons, Prod.mk.injEq, List.not_mem_nil, or_false] at hm
  have bin : ∀ {k k' : K} (o : AOp) {ps as}, ArgsRead [(k, 0), (k', 0)] ps as → ∃ s t a b, ps = [s, t] ∧ as = [a, b] ∧
      Lv o.lvl (parenBin o.tok s t) (.bin o.bin a b) ∧ Lv o.lvl (parenBin o.tok t s) (.bin o.bin b a) := by
    intro k k' o ps as h
    cases h with | cons h1 _ h => cases h with | cons h2 _ h => cases h with | nil =>
      exact ⟨_, _, _, _, rfl, rfl, o.reads h1.zero h2.zero, o.reads h2.zero h1.zero⟩
  have one : ∀ {k : K} {l : Nat} {ps as}, ArgsRead [(k, l)] ps as → ∃ s a m, ps = [s] ∧ as = [a] ∧ Lv m s a ∧ l ≤ m := by
    intro k l ps as h
    cases h with | cons h1 h1' h => cases h with | nil => exact ⟨_, _, _, rfl, rfl, h1, h1'⟩
  have two : ∀ {k k' : K} {l l' : Nat} {ps as}, ArgsRead [(k, l), (k', l')] ps as → ∃ s t a b m m', ps = [s, t] ∧ as = [a, b] ∧
      Lv m s a ∧ l ≤ m ∧ Lv m' t b ∧ l' ≤ m' := by
    intro k k' l l' ps as h
    cases h with | cons h1 h1' h => cases h with | cons h2 h2' h => cases h with | nil =>
      exact ⟨_, _, _, _, _, _, rfl, rfl, h1, h1', h2, h2'⟩
  have three : ∀ {k k' k'' : K} {l l' l'' : Nat} {ps as}, ArgsRead [(k, l), (k', l'), (k'', l'')] ps as → ∃ s t u a b c m m' m'',
      ps = [s, t, u] ∧ as = [a, b, c] ∧ Lv m s a ∧ l ≤ m ∧ Lv m' t b ∧ l' ≤ m' ∧ Lv m'' u c ∧ l'' ≤ m'' := by
    intro k k' k'' l l' l'' ps as h
    cases h with | cons h1 h1' h => cases h with | cons h2 h2' h => cases h with | cons h3 h3' h => cases h with | nil =>
      exact ⟨_, _, _, _, _, _, _, _, _, rfl, rfl, h1, h1', h2, h2', h3, h3'⟩
  have npone : ∀ (g : String) {s a m}, Lv m s a → Lv 8 (npCall g [s]) (npAst g [a]) := fun g s a m h =>
    npCall_lv g (.cons h.zero.isArg .nil)
  have nptwo : ∀ (g : String) {s t a b m m'}, Lv m s a → Lv m' t b → Lv 8 (npCall g [s, t]) (npAst g [a, b]) := fun g s t a b m m' h h' =>
    npCall_lv g (.cons h.zero.isArg (.cons h'.zero.isArg .nil))
  have append : ∀ {s t a b m m'}, Lv m s a → Lv m' t b →
      Lv 8 (npCall "concatenate" [.lbr :: (joinToks .comma [s, npCall "expand_dims" [t, kwZero "axis"]] ++ [.rbr]), kwZero "axis"])
        (npAst "concatenate" [.list [a, npAst "expand_dims" [b, .kwarg "axis" (.num 0)]], .kwarg "axis" (.num 0)]) := by
    intro s t a b m m' h h'
    have he := npCall_lv "expand_dims" (.cons h'.zero.isArg (.cons (isArg_kw "axis") .nil))
    exact npCall_lv "concatenate" (.cons (Reads.isArg ((atom_list2 h.zero he.zero).reads.lift (by omega) (by omega))) (.cons (isArg_kw "axis") .nil))
  have sl : ∀ {s t u a b c m m' m''}, Lv m s a → 8 ≤ m → Lv m' t b → Lv m'' u c →
      Lv 8 (s ++ .lbr :: (t ++ .colon :: (u ++ [.rbr]))) (.slice a (some b) (some c)) := fun h h' h2 h3 =>
    .prim ((h.prim8 h').trail (trail_slice h2.zero h3.zero _))
  have cs : ∀ {s t u a b c m m' m''}, Lv m s a → 8 ≤ m → Lv m' t b → Lv m'' u c →
      Lv 8 (s ++ .lbr :: .colon :: .comma :: (t ++ .colon :: (u ++ [.rbr]))) (.colSlice a b c) := fun h h' h2 h3 =>
    .prim ((h.prim8 h').trail (trail_cols h2.zero h3.zero _))
  have slen : ∀ {s t u a b c m m' m''}, Lv m s a → 8 ≤ m → Lv m' t b → 6 ≤ m' → Lv m'' u c → 6 ≤ m'' →
      Lv 8 (s ++ .lbr :: (t ++ .colon :: (t ++ .plus :: (u ++ [.rbr])))) (.slice a (some b) (some (.bin .add b c))) := by
    intro s t u a b c m m' m'' h h' h2 h2' h3 h3'
    have := trail_slice h2.zero ((plain_add (h2.at h2') (h3.at h3')).lift (Nat.zero_le _) (by omega)) a
    rw [List.append_assoc] at this
    exact .prim ((h.prim8 h').trail this)
  have cslen : ∀ {s t u a b c m m' m''}, Lv m s a → 8 ≤ m → Lv m' t b → 6 ≤ m' → Lv m'' u c → 6 ≤ m'' →
      Lv 8 (s ++ .lbr :: .colon :: .comma :: (t ++ .colon :: (t ++ .plus :: (u ++ [.rbr])))) (.colSlice a b (.bin .add b c)) := by
    intro s t u a b c m m' m'' h h' h2 h2' h3 h3'
    have := trail_cols h2.zero ((plain_add (h2.at h2') (h3.at h3')).lift (Nat.zero_le _) (by omega)) a
    rw [List.append_assoc] at this
    exact .prim ((h.prim8 h').trail this)
  rcases hm with ⟨rfl, rfl⟩ | ⟨rfl, rfl⟩ | ⟨rfl, rfl⟩ | ⟨rfl, rfl⟩ | ⟨rfl, rfl⟩ | ⟨rfl, rfl⟩ | ⟨rfl, rfl⟩ | ⟨rfl, rfl⟩ | ⟨rfl, rfl⟩ | ⟨rfl, rfl⟩ |
    ⟨rfl, rfl⟩ | ⟨rfl, rfl⟩ | ⟨rfl, rfl⟩ | ⟨rfl, rfl⟩ | ⟨rfl, rfl⟩ | ⟨rfl, rfl⟩ | ⟨rfl, rfl⟩ | ⟨rfl, rfl⟩ | ⟨rfl, rfl⟩ | ⟨rfl, rfl⟩ |
    ⟨rfl, rfl⟩ | ⟨rfl, rfl⟩ | ⟨rfl, rfl⟩ | ⟨rfl, rfl⟩ | ⟨rfl, rfl⟩ | ⟨rfl, rfl⟩ | ⟨rfl, rfl⟩ | ⟨rfl, rfl⟩ | ⟨rfl, rfl⟩ | ⟨rfl, rfl⟩ |
    ⟨rfl, rfl⟩ | ⟨rfl, rfl⟩ | ⟨rfl, rfl⟩ | ⟨rfl, rfl⟩ | ⟨rfl, rfl⟩ | ⟨rfl, rfl⟩ | ⟨rfl, rfl⟩ | ⟨rfl, rfl⟩ | ⟨rfl, rfl⟩ | ⟨rfl, rfl⟩ | ⟨rfl, rfl⟩
  iterate 20
    focus
      first
        | obtain ⟨s, t, a, b, rfl, rfl, h1, h2⟩ := bin .add h
          exact ⟨_, rfl, h1⟩
        | obtain ⟨s, t, a, b, rfl, rfl, h1, h2⟩ := bin .sub h
          first | exact ⟨_, rfl, h1⟩ | exact ⟨_, rfl, h2⟩
        | obtain ⟨s, t, a, b, rfl, rfl, h1, h2⟩ := bin .mul h
          exact ⟨_, rfl, h1⟩
        | obtain ⟨s, t, a, b, rfl, rfl, h1, h2⟩ := bin .div h
          first | exact ⟨_, rfl, h1⟩ | exact ⟨_, rfl, h2⟩
  · obtain ⟨s, t, a, b, m, m', rfl, rfl, h1, -, h2, -⟩ := two h
    exact ⟨_, rfl, nptwo _ h1 h2⟩
  iterate 2
    focus
      obtain ⟨s, t, a, b, m, m', rfl, rfl, h1, h1', h2, -⟩ := two h
      exact ⟨_, rfl, .prim ((h1.prim8 h1').trail (trail_index h2.zero _))⟩
  iterate 2
    focus
      obtain ⟨s, t, a, b, m, m', rfl, rfl, h1, h1', h2, -⟩ := two h
      exact ⟨_, rfl, append h1 h2⟩
  iterate 2
    focus
      obtain ⟨s, t, a, b, m, m', rfl, rfl, h1, h1', h2, -⟩ := two h
      exact ⟨_, rfl, .prim ((h1.prim8 h1').trail (trail_take h2.zero _))⟩
  · obtain ⟨s, t, a, b, m, m', rfl, rfl, h1, h1', h2, -⟩ := two h
    exact ⟨_, rfl, .prim ((h1.prim8 h1').trail (trail_tail h2.zero _))⟩
  iterate 2
    focus
      obtain ⟨s, t, u, a, b, c, m, m', m'', rfl, rfl, h1, h1', h2, h2', h3, h3'⟩ := three h
      exact ⟨_, rfl, sl h1 h1' h2 h3⟩
  iterate 2
    focus
      obtain ⟨s, t, u, a, b, c, m, m', m'', rfl, rfl, h1, h1', h2, h2', h3, h3'⟩ := three h
      exact ⟨_, rfl, slen h1 h1' h2 h2' h3 h3'⟩
  · obtain ⟨s, t, u, a, b, c, m, m', m'', rfl, rfl, h1, h1', h2, h2', h3, h3'⟩ := three h
    exact ⟨_, rfl, cs h1 h1' h2 h3⟩
  · obtain ⟨s, t, u, a, b, c, m, m', m'', rfl, rfl, h1, h1', h2, h2', h3, h3'⟩ := three h
    exact ⟨_, rfl, cslen h1 h1' h2 h2' h3 h3'⟩
  · obtain ⟨s, a, m, rfl, rfl, h1, h1'⟩ := one h
    exact ⟨_, rfl, .prim ((h1.prim8 h1').trail (trail_attr _ _))⟩
  iterate 4
    focus
      obtain ⟨s, a, m, rfl, rfl, h1, h1'⟩ := one h
      exact ⟨_, rfl, npone _ h1⟩
  · cases h
    have := (atom_paren (ts := [.num 0]) (a := .num 0) ((atom_num 0).reads.lift (by omega) (by omega)))
    exact ⟨_, rfl, npCall_lv _ (.cons (Reads.isArg (this.reads.lift (by omega) (by omega))) .nil)⟩
  · cases h
    have h0 : Reads 0 [.num 0] (.num 0) := (atom_num 0).reads.lift (by omega) (by omega)
    have := atom_tuple h0 (.cons h0 .nil)
    exact ⟨_, rfl, npCall_lv _ (.cons (Reads.isArg (this.reads.lift (by omega) (by omega))) .nil)⟩

end Metalift.Np
