import Verif.ToPython
/-
Lemmas about the parser of Python expressions.
-/
namespace Metalift.Py

/-- The level at which a token continues an expression in front of it. -/
def Tok.cont : Tok → Option Nat
  | .kif => some 0
  | .kor => some 1
  | .kand => some 2
  | .cmp _ => some 4
  | .plus => some 5
  | .minus => some 5
  | .star => some 6
  | .slashslash => some 6
  | .percent => some 6
  | .slash => some 6
  | .attr _ => some 8
  | .lpar => some 8
  | .lbr => some 8
  | _ => none

/-- The input `rest` does not continue an expression of level `k`. -/
def Stops (k : Nat) : List Tok → Prop
  | [] => True
  | t :: _ => ∀ l, t.cont = some l → l < k

theorem Stops.mono {k l : Nat} (h : k ≤ l) : ∀ {rest}, Stops k rest → Stops l rest
  | [], _ => trivial
  | _ :: _, hs => fun m hm => Nat.lt_of_lt_of_le (hs m hm) h

/-- `ts` is read as the expression `a` of level `k`, whatever follows that does not continue it. -/
def Reads (k : Nat) (ts : List Tok) (a : Ast) : Prop :=
  ∃ N, ∀ f, N ≤ f → ∀ rest, Stops k rest → pLvl f k (ts ++ rest) = some (a, rest)

theorem Reads.parses {ts : List Tok} {a : Ast} (h : Reads 0 ts a) : Parses ts a := by
  obtain ⟨N, h⟩ := h
  exact ⟨N, fun f hf => by simpa using h f hf [] trivial⟩

theorem exists_succ {N f : Nat} (h : N + 1 ≤ f) : ∃ g, f = g + 1 ∧ N ≤ g := ⟨f - 1, by omega, by omega⟩

theorem pChain_stop {f : Nat} {a : Ast} {rest : List Tok} (hr : Stops 4 rest) : pChain (f + 1) a rest = some (a, rest) := by
  match rest, hr with
  | [], _ => rfl
  | t :: rest, hr => cases t <;> first | rfl | exact absurd (hr _ rfl) (by decide)
theorem pSum_stop {f : Nat} {a : Ast} {rest : List Tok} (hr : Stops 5 rest) : pSum (f + 1) a rest = some (a, rest) := by
  match rest, hr with
  | [], _ => rfl
  | t :: rest, hr => cases t <;> first | rfl | exact absurd (hr _ rfl) (by decide)
theorem pProd_stop {f : Nat} {a : Ast} {rest : List Tok} (hr : Stops 6 rest) : pProd (f + 1) a rest = some (a, rest) := by
  match rest, hr with
  | [], _ => rfl
  | t :: rest, hr => cases t <;> first | rfl | exact absurd (hr _ rfl) (by decide)
theorem pTrail_stop {f : Nat} {a : Ast} {rest : List Tok} (hr : Stops 8 rest) : pTrail (f + 1) a rest = some (a, rest) := by
  match rest, hr with
  | [], _ => rfl
  | t :: rest, hr => cases t <;> first | rfl | exact absurd (hr _ rfl) (by decide)

theorem pLvl_3 (f : Nat) (ts : List Tok) : pLvl (f + 1) 3 ts =
    match ts with
    | .knot :: ts => (pLvl f 3 ts).bind fun (a, ts) => some (.not a, ts)
    | ts => pLvl f 4 ts := rfl
theorem pLvl_7 (f : Nat) (ts : List Tok) : pLvl (f + 1) 7 ts =
    match ts with
    | .minus :: ts => (pLvl f 7 ts).bind fun (a, ts) => some (.neg a, ts)
    | ts => pLvl f 8 ts := rfl
theorem pAtom_lpar (f : Nat) (ts : List Tok) (h : ∀ us, ts ≠ .rpar :: us) : pAtom (f + 1) (.lpar :: ts) =
    (pLvl f 0 ts).bind fun (a, ts) =>
          match ts with
          | .rpar :: ts => some (a, ts)
          | .comma :: ts => (pArgs f ts).bind fun (as, ts) => some (.tuple (a :: as), ts)
          | _ => none := by
  match ts, h with
  | [], _ => rfl
  | t :: ts, h => cases t <;> first | rfl | exact absurd rfl (h _)
theorem pTrail_lbr (f : Nat) (a : Ast) (ts : List Tok) (h : ∀ us, ts ≠ .colon :: us) : pTrail (f + 1) a (.lbr :: ts) =
    (pLvl f 0 ts).bind fun (i, ts) =>
          match ts with
          | .rbr :: ts => pTrail f (.index a i) ts
          | .colon :: .rbr :: ts => pTrail f (.slice a (some i) none) ts
          | .colon :: ts => (pLvl f 0 ts).bind fun (h, ts) =>
              match ts with
              | .rbr :: ts => pTrail f (.slice a (some i) (some h)) ts
              | _ => none
          | _ => none := by
  match ts, h with
  | [], _ => rfl
  | t :: ts, h => cases t <;> first | rfl | exact absurd rfl (h _)
theorem pArgs_succ (f : Nat) (ts : List Tok) (h : ∀ us, ts ≠ .rpar :: us) (h' : ∀ s us, ts ≠ .name s :: .assign :: us) : pArgs (f + 1) ts =
    (pLvl f 0 ts).bind fun (a, ts) =>
          match ts with
          | .rpar :: ts => some ([a], ts)
          | .comma :: ts => (pArgs f ts).bind fun (as, ts) => some (a :: as, ts)
          | _ => none := by
  match ts, h, h' with
  | [], _, _ => rfl
  | [t], h, _ => cases t <;> first | rfl | exact absurd rfl (h _)
  | t :: u :: ts, h, h' => cases t <;> first | rfl | exact absurd rfl (h _) | (cases u <;> first | rfl | exact absurd rfl (h' _ _))
theorem pItems_succ (f : Nat) (ts : List Tok) (h : ∀ us, ts ≠ .rbr :: us) (h' : ∀ us, ts ≠ .star :: us) : pItems (f + 1) ts =
    (pLvl f 0 ts).bind fun (a, ts) =>
          match ts with
          | .rbr :: ts => some ([a], ts)
          | .comma :: ts => (pItems f ts).bind fun (as, ts) => some (a :: as, ts)
          | _ => none := by
  match ts, h, h' with
  | [], _, _ => rfl
  | t :: ts, h, h' => cases t <;> first | rfl | exact absurd rfl (h _) | exact absurd rfl (h' _)

/-- An expression of a tighter level is one of the next looser level. -/
theorem Reads.lift1 {k : Nat} (hk : k < 8) {ts : List Tok} {a : Ast} (h : Reads (k + 1) ts a) : Reads k ts a := by
  obtain ⟨N, h⟩ := h
  refine ⟨N + 2, fun f hf rest hr => ?_⟩
  obtain ⟨g, rfl, hg⟩ := exists_succ hf
  obtain ⟨g', rfl, hg'⟩ := exists_succ hg
  have h1 := h (g' + 1) (by omega) rest (hr.mono (Nat.le_succ k))
  match k, hk with
  | 0, _ =>
    rw [pLvl, h1, Option.bind_some]
    match rest, hr with
    | [], _ => rfl
    | t :: rest, hr => cases t <;> first | rfl | exact absurd (hr _ rfl) (by decide)
  | 1, _ =>
    rw [pLvl, h1, Option.bind_some]
    match rest, hr with
    | [], _ => rfl
    | t :: rest, hr => cases t <;> first | rfl | exact absurd (hr _ rfl) (by decide)
  | 2, _ =>
    rw [pLvl, h1, Option.bind_some]
    match rest, hr with
    | [], _ => rfl
    | t :: rest, hr => cases t <;> first | rfl | exact absurd (hr _ rfl) (by decide)
  | 3, _ =>
    rw [pLvl_3]
    split
    · rename_i ts' he
      rw [he] at h1
      exfalso
      match g', h1 with
      | 0, h1 => simp [pLvl] at h1
      | 1, h1 => simp [pLvl] at h1
      | 2, h1 => simp [pLvl] at h1
      | 3, h1 => simp [pLvl] at h1
      | 4, h1 => simp [pLvl, pAtom] at h1
      | g + 5, h1 => simp [pLvl, pAtom] at h1
    · exact h1
  | 4, _ =>
    rw [pLvl, h1, Option.bind_some]
    exact pChain_stop hr
  | 5, _ =>
    rw [pLvl, h1, Option.bind_some]
    exact pSum_stop hr
  | 6, _ =>
    rw [pLvl, h1, Option.bind_some]
    exact pProd_stop hr
  | 7, _ =>
    rw [pLvl_7]
    split
    · rename_i ts' he
      rw [he] at h1
      exfalso
      match g', h1 with
      | 0, h1 => simp [pLvl, pAtom] at h1
      | g + 1, h1 => simp [pLvl, pAtom] at h1
    · exact h1

/-- An expression of a tighter level is one of every looser level. -/
theorem Reads.lift {k l : Nat} (hkl : k ≤ l) (hl : l ≤ 8) {ts : List Tok} {a : Ast} (h : Reads l ts a) : Reads k ts a := by
  obtain ⟨d, rfl⟩ : ∃ d, l = k + d := ⟨l - k, by omega⟩
  clear hkl
  induction d with
  | zero => exact h
  | succ d ih => exact ih (by omega) (Reads.lift1 (by omega) h)

/-! ### Atoms and brackets -/

/-- `ts` is an atom. -/
def IsAtom (ts : List Tok) (a : Ast) : Prop := ∃ N, ∀ f, N ≤ f → ∀ rest, pAtom f (ts ++ rest) = some (a, rest)

/-- `ts` is a trailer turning `a` into `b`. -/
def IsTrail (ts : List Tok) (a b : Ast) : Prop := ∃ N, ∀ f, N ≤ f → ∀ rest, pTrail (f + 1) a (ts ++ rest) = pTrail f b rest

theorem IsAtom.reads {ts : List Tok} {a : Ast} (h : IsAtom ts a) : Reads 8 ts a := by
  obtain ⟨N, h⟩ := h
  refine ⟨N + 2, fun f hf rest hr => ?_⟩
  obtain ⟨g, rfl, hg⟩ := exists_succ hf
  obtain ⟨g', rfl, hg'⟩ := exists_succ hg
  rw [pLvl, h _ (by omega), Option.bind_some]
  exact pTrail_stop hr

/-- What can carry a trailer: an expression of level 8, which is read before the trailers that follow. -/
def Primary (ts : List Tok) (a : Ast) : Prop :=
  ∃ N d, ∀ f, N ≤ f → ∀ rest, pLvl (f + 1 + d) 8 (ts ++ rest) = pTrail f a rest

theorem Primary.reads {ts : List Tok} {a : Ast} (h : Primary ts a) : Reads 8 ts a := by
  obtain ⟨N, d, h⟩ := h
  refine ⟨N + d + 2, fun f hf rest hr => ?_⟩
  obtain ⟨g, rfl⟩ : ∃ g, f = g + 1 + 1 + d := ⟨f - 2 - d, by omega⟩
  rw [h _ (by omega), pTrail_stop hr]

theorem IsAtom.primary {ts : List Tok} {a : Ast} (h : IsAtom ts a) : Primary ts a := by
  obtain ⟨N, h⟩ := h
  exact ⟨N, 0, fun f hf rest => by rw [pLvl, h _ (by omega), Option.bind_some]⟩

theorem Primary.trail {ts us : List Tok} {a b : Ast} (h : Primary ts a) (ht : IsTrail us a b) : Primary (ts ++ us) b := by
  obtain ⟨N, d, h⟩ := h
  obtain ⟨M, ht⟩ := ht
  refine ⟨N + M, d + 1, fun f hf rest => ?_⟩
  have : f + 1 + (d + 1) = f + 1 + 1 + d := by omega
  rw [this, List.append_assoc, h _ (by omega), ht _ (by omega)]

theorem stops_rpar (k : Nat) (rest : List Tok) : Stops k (.rpar :: rest) := fun _ h => nomatch h
theorem stops_rbr (k : Nat) (rest : List Tok) : Stops k (.rbr :: rest) := fun _ h => nomatch h
theorem stops_comma (k : Nat) (rest : List Tok) : Stops k (.comma :: rest) := fun _ h => nomatch h
theorem stops_colon (k : Nat) (rest : List Tok) : Stops k (.colon :: rest) := fun _ h => nomatch h
theorem stops_else (k : Nat) (rest : List Tok) : Stops k (.kelse :: rest) := fun _ h => nomatch h
theorem stops_of {k l : Nat} {t : Tok} (h : t.cont = some l) (hl : l < k) (rest : List Tok) : Stops k (t :: rest) := by
  intro m hm
  rw [h] at hm
  injection hm with hm
  omega

theorem atom_name (s : String) : IsAtom [.name s] (.name s) :=
  ⟨1, fun f hf rest => by obtain ⟨g, rfl, _⟩ := exists_succ hf; rfl⟩
theorem atom_num (n : Nat) : IsAtom [.num n] (.num n) :=
  ⟨1, fun f hf rest => by obtain ⟨g, rfl, _⟩ := exists_succ hf; rfl⟩
theorem atom_tru : IsAtom [.tru] (.bool true) :=
  ⟨1, fun f hf rest => by obtain ⟨g, rfl, _⟩ := exists_succ hf; rfl⟩
theorem atom_fls : IsAtom [.fls] (.bool false) :=
  ⟨1, fun f hf rest => by obtain ⟨g, rfl, _⟩ := exists_succ hf; rfl⟩

/-- No expression begins with a closing bracket, a comma, a colon or a star. -/
theorem pLvl_bad {t : Tok} (ht : t = .rpar ∨ t = .rbr ∨ t = .comma ∨ t = .colon ∨ t = .star) (f k : Nat) (rest : List Tok) :
    pLvl f k (t :: rest) = none := by
  have hA : ∀ f, pAtom f (t :: rest) = none := by
    intro f
    cases f with
    | zero => rfl
    | succ f => rcases ht with rfl | rfl | rfl | rfl | rfl <;> rfl
  have h8 : ∀ f, pLvl f 8 (t :: rest) = none := by
    intro f; cases f with
    | zero => rfl
    | succ f => rw [pLvl, hA]; rfl
  have h7 : ∀ f, pLvl f 7 (t :: rest) = none := by
    intro f; cases f with
    | zero => rfl
    | succ f => rw [pLvl_7]; split <;> simp_all
  have h6 : ∀ f, pLvl f 6 (t :: rest) = none := by
    intro f; cases f with
    | zero => rfl
    | succ f => rw [pLvl, h7]; rfl
  have h5 : ∀ f, pLvl f 5 (t :: rest) = none := by
    intro f; cases f with
    | zero => rfl
    | succ f => rw [pLvl, h6]; rfl
  have h4 : ∀ f, pLvl f 4 (t :: rest) = none := by
    intro f; cases f with
    | zero => rfl
    | succ f => rw [pLvl, h5]; rfl
  have h3 : ∀ f, pLvl f 3 (t :: rest) = none := by
    intro f; cases f with
    | zero => rfl
    | succ f => rw [pLvl_3]; split <;> simp_all
  have h2 : ∀ f, pLvl f 2 (t :: rest) = none := by
    intro f; cases f with
    | zero => rfl
    | succ f => rw [pLvl, h3]; rfl
  have h1 : ∀ f, pLvl f 1 (t :: rest) = none := by
    intro f; cases f with
    | zero => rfl
    | succ f => rw [pLvl, h2]; rfl
  have h0 : ∀ f, pLvl f 0 (t :: rest) = none := by
    intro f; cases f with
    | zero => rfl
    | succ f => rw [pLvl, h1]; rfl
  match k with
  | 0 => exact h0 f
  | 1 => exact h1 f
  | 2 => exact h2 f
  | 3 => exact h3 f
  | 4 => exact h4 f
  | 5 => exact h5 f
  | 6 => exact h6 f
  | 7 => exact h7 f
  | 8 => exact h8 f
  | k + 9 => cases f <;> rfl

/-- The text of an expression, followed by something that stops it, does not begin with such a token. -/
theorem Reads.head {k : Nat} {ts : List Tok} {a : Ast} (h : Reads k ts a) {rest : List Tok} (hr : Stops k rest) {t : Tok}
    {us : List Tok} (he : ts ++ rest = t :: us) : ¬ (t = .rpar ∨ t = .rbr ∨ t = .comma ∨ t = .colon ∨ t = .star) := by
  intro ht
  obtain ⟨N, h⟩ := h
  have := h N (Nat.le_refl _) rest hr
  rw [he, pLvl_bad ht] at this
  exact nomatch this

/-- Nor does it begin with a name and `=`. -/
theorem Reads.no_kwarg {ts : List Tok} {a : Ast} (h : Reads 0 ts a) {t : Tok} {rest : List Tok} (hr : Stops 0 (t :: rest)) (ht : t ≠ .assign)
    {s : String} {us : List Tok} : ts ++ t :: rest ≠ .name s :: .assign :: us := by
  intro he
  obtain ⟨N, h⟩ := h
  obtain ⟨M, hM⟩ := ((atom_name s).reads).lift (Nat.zero_le 8) (Nat.le_refl 8)
  have h1 := h (N + M) (by omega) _ hr
  have h2 := hM (N + M) (by omega) (.assign :: us) (fun _ h => nomatch h)
  rw [he] at h1
  rw [List.singleton_append, h1] at h2
  injection h2 with h2
  injection h2 with _ h2
  injection h2 with h2
  exact ht h2

/-- `(a)`. -/
theorem atom_paren {ts : List Tok} {a : Ast} (h : Reads 0 ts a) : IsAtom (.lpar :: (ts ++ [.rpar])) a := by
  obtain ⟨N, hN⟩ := id h
  refine ⟨N + 1, fun f hf rest => ?_⟩
  obtain ⟨g, rfl, hg⟩ := exists_succ hf
  have he : Tok.lpar :: (ts ++ [.rpar]) ++ rest = .lpar :: (ts ++ .rpar :: rest) := by simp
  rw [he, pAtom_lpar, hN g hg _ (stops_rpar _ _)]
  · rfl
  · exact fun us he' => h.head (stops_rpar _ _) he' (Or.inl rfl)

theorem joinToks_cons2 (sep : Tok) (p q : List Tok) (ps : List (List Tok)) :
    joinToks sep (p :: q :: ps) = p ++ sep :: joinToks sep (q :: ps) := rfl

/-- Comma-separated arguments. -/
theorem args_reads : ∀ (ps : List (List Tok)) (as : List Ast), All2 (Reads 0) ps as →
    ∃ N, ∀ f, N ≤ f → ∀ rest, pArgs f (joinToks .comma ps ++ .rpar :: rest) = some (as, rest)
  | [], _, .nil => ⟨1, fun f hf rest => by obtain ⟨g, rfl, _⟩ := exists_succ hf; rfl⟩
  | [p], _, .cons (b := a) h .nil => by
    obtain ⟨N, hN⟩ := id h
    refine ⟨N + 1, fun f hf rest => ?_⟩
    obtain ⟨g, rfl, hg⟩ := exists_succ hf
    rw [show joinToks .comma [p] = p from rfl, pArgs_succ, hN g hg _ (stops_rpar _ _)]
    · rfl
    · exact fun us he' => h.head (stops_rpar _ _) he' (Or.inl rfl)
    · exact fun _ _ => h.no_kwarg (stops_rpar _ _) (by decide)
  | p :: q :: ps, _, .cons (b := a) (bs := as) h hs => by
    obtain ⟨M, hM⟩ := args_reads (q :: ps) as hs
    obtain ⟨N, hN⟩ := id h
    refine ⟨N + M + 1, fun f hf rest => ?_⟩
    obtain ⟨g, rfl, hg⟩ := exists_succ hf
    have he : joinToks .comma (p :: q :: ps) ++ .rpar :: rest = p ++ .comma :: (joinToks .comma (q :: ps) ++ .rpar :: rest) := by
      simp [joinToks_cons2]
    rw [he, pArgs_succ, hN g (by omega) _ (stops_comma _ _), Option.bind_some]
    · show ((pArgs g (joinToks .comma (q :: ps) ++ .rpar :: rest)).bind _) = _
      rw [hM g (by omega)]
      rfl
    · exact fun us he' => h.head (stops_comma _ _) he' (Or.inl rfl)
    · exact fun _ _ => h.no_kwarg (stops_comma _ _) (by decide)

/-- A call trailer. -/
theorem trail_call {ps : List (List Tok)} {as : List Ast} (h : All2 (Reads 0) ps as) (a : Ast) :
    IsTrail (.lpar :: (joinToks .comma ps ++ [.rpar])) a (.call a as) := by
  obtain ⟨N, hN⟩ := args_reads ps as h
  refine ⟨N, fun f hf rest => ?_⟩
  have he : Tok.lpar :: (joinToks .comma ps ++ [.rpar]) ++ rest = .lpar :: (joinToks .comma ps ++ .rpar :: rest) := by simp
  rw [he, pTrail, hN f hf]
  rfl

/-- A tuple with at least two elements. -/
theorem atom_tuple {p q : List Tok} {ps : List (List Tok)} {a : Ast} {as : List Ast} (h : Reads 0 p a) (hs : All2 (Reads 0) (q :: ps) as) :
    IsAtom (.lpar :: (joinToks .comma (p :: q :: ps) ++ [.rpar])) (.tuple (a :: as)) := by
  obtain ⟨M, hM⟩ := args_reads (q :: ps) as hs
  obtain ⟨N, hN⟩ := id h
  refine ⟨N + M + 1, fun f hf rest => ?_⟩
  obtain ⟨g, rfl, hg⟩ := exists_succ hf
  have he : Tok.lpar :: (joinToks .comma (p :: q :: ps) ++ [.rpar]) ++ rest =
      .lpar :: (p ++ .comma :: (joinToks .comma (q :: ps) ++ .rpar :: rest)) := by simp [joinToks_cons2]
  rw [he, pAtom_lpar, hN g (by omega) _ (stops_comma _ _), Option.bind_some]
  · show ((pArgs g (joinToks .comma (q :: ps) ++ .rpar :: rest)).bind _) = _
    rw [hM g (by omega)]
    rfl
  · exact fun us he' => h.head (stops_comma _ _) he' (Or.inl rfl)

theorem atom_unit : IsAtom [.lpar, .rpar] (.tuple []) :=
  ⟨1, fun f hf rest => by obtain ⟨g, rfl, _⟩ := exists_succ hf; rfl⟩

theorem atom_nil : IsAtom [.lbr, .rbr] (.list []) :=
  ⟨2, fun f hf rest => by
    obtain ⟨g, rfl, hg⟩ := exists_succ hf
    obtain ⟨g, rfl, _⟩ := exists_succ hg
    rfl⟩

/-- `[a, *l]`. -/
theorem atom_prepend {p q : List Tok} {a l : Ast} (h : Reads 0 p a) (hl : Reads 5 q l) :
    IsAtom (.lbr :: (p ++ .comma :: .star :: (q ++ [.rbr]))) (.list [a, .starred l]) := by
  obtain ⟨N, hN⟩ := id h
  obtain ⟨M, hM⟩ := id hl
  refine ⟨N + M + 3, fun f hf rest => ?_⟩
  obtain ⟨g, rfl⟩ : ∃ g, f = g + 1 + 1 + 1 := ⟨f - 3, by omega⟩
  have he : Tok.lbr :: (p ++ .comma :: .star :: (q ++ [.rbr])) ++ rest = .lbr :: (p ++ .comma :: .star :: (q ++ .rbr :: rest)) := by simp
  rw [he, pAtom, pItems_succ, hN _ (by omega) _ (stops_comma _ _), Option.bind_some]
  · show (((pItems (g + 1) (.star :: (q ++ .rbr :: rest))).bind _).bind _) = _
    rw [pItems, hM _ (by omega) _ (stops_rbr _ _)]
    rfl
  · exact fun us he' => h.head (stops_comma _ _) he' (by simp)
  · exact fun us he' => h.head (stops_comma _ _) he' (by simp)

/-- `[*l, a]`. -/
theorem atom_append {p q : List Tok} {a l : Ast} (hl : Reads 5 q l) (h : Reads 0 p a) :
    IsAtom (.lbr :: .star :: (q ++ .comma :: (p ++ [.rbr]))) (.list [.starred l, a]) := by
  obtain ⟨N, hN⟩ := id h
  obtain ⟨M, hM⟩ := id hl
  refine ⟨N + M + 3, fun f hf rest => ?_⟩
  obtain ⟨g, rfl⟩ : ∃ g, f = g + 1 + 1 + 1 := ⟨f - 3, by omega⟩
  have he : Tok.lbr :: .star :: (q ++ .comma :: (p ++ [.rbr])) ++ rest = .lbr :: .star :: (q ++ .comma :: (p ++ .rbr :: rest)) := by simp
  rw [he, pAtom, pItems, hM _ (by omega) _ (stops_comma _ _), Option.bind_some]
  show (((pItems (g + 1) (p ++ .rbr :: rest)).bind _).bind _) = _
  rw [pItems_succ, hN _ (by omega) _ (stops_rbr _ _)]
  · rfl
  · exact fun us he' => h.head (stops_rbr _ _) he' (by simp)
  · exact fun us he' => h.head (stops_rbr _ _) he' (by simp)

/-- `[i]`. -/
theorem trail_index {ts : List Tok} {i : Ast} (h : Reads 0 ts i) (a : Ast) : IsTrail (.lbr :: (ts ++ [.rbr])) a (.index a i) := by
  obtain ⟨N, hN⟩ := id h
  refine ⟨N, fun f hf rest => ?_⟩
  have he : Tok.lbr :: (ts ++ [.rbr]) ++ rest = .lbr :: (ts ++ .rbr :: rest) := by simp
  rw [he, pTrail_lbr, hN f hf _ (stops_rbr _ _)]
  · rfl
  · exact fun us he' => h.head (stops_rbr _ _) he' (by simp)

/-- `[i:]`. -/
theorem trail_tail {ts : List Tok} {i : Ast} (h : Reads 0 ts i) (a : Ast) :
    IsTrail (.lbr :: (ts ++ [.colon, .rbr])) a (.slice a (some i) none) := by
  obtain ⟨N, hN⟩ := id h
  refine ⟨N, fun f hf rest => ?_⟩
  have he : Tok.lbr :: (ts ++ [.colon, .rbr]) ++ rest = .lbr :: (ts ++ .colon :: .rbr :: rest) := by simp
  rw [he, pTrail_lbr, hN f hf _ (stops_colon _ _)]
  · rfl
  · exact fun us he' => h.head (stops_colon _ _) he' (by simp)

/-- `[:i]`. -/
theorem trail_take {ts : List Tok} {i : Ast} (h : Reads 0 ts i) (a : Ast) :
    IsTrail (.lbr :: .colon :: (ts ++ [.rbr])) a (.slice a none (some i)) := by
  obtain ⟨N, hN⟩ := id h
  refine ⟨N, fun f hf rest => ?_⟩
  have he : Tok.lbr :: .colon :: (ts ++ [.rbr]) ++ rest = .lbr :: .colon :: (ts ++ .rbr :: rest) := by simp
  rw [he, pTrail, hN f hf _ (stops_rbr _ _)]
  · rfl
  · exact fun us he' => h.head (stops_rbr _ _) he' (by simp)

/-- `[i:j]`. -/
theorem trail_slice {ts us : List Tok} {i j : Ast} (h : Reads 0 ts i) (h' : Reads 0 us j) (a : Ast) :
    IsTrail (.lbr :: (ts ++ .colon :: (us ++ [.rbr]))) a (.slice a (some i) (some j)) := by
  obtain ⟨N, hN⟩ := id h
  obtain ⟨M, hM⟩ := id h'
  refine ⟨N + M, fun f hf rest => ?_⟩
  have he : Tok.lbr :: (ts ++ .colon :: (us ++ [.rbr])) ++ rest = .lbr :: (ts ++ .colon :: (us ++ .rbr :: rest)) := by simp
  rw [he, pTrail_lbr, hN f (by omega) _ (stops_colon _ _)]
  · simp only [Option.bind_some]
    have h1 := hM f (by omega) (.rbr :: rest) (stops_rbr _ _)
    have h2 : ∀ (t : Tok) (vs : List Tok), us ++ .rbr :: rest = t :: vs → ¬ (t = .rpar ∨ t = .rbr ∨ t = .comma ∨ t = .colon ∨ t = .star) :=
      fun t vs e => h'.head (stops_rbr _ _) e
    generalize us ++ .rbr :: rest = w at h1 h2
    match w, h1, h2 with
    | [], h1, _ => simp only [h1, Option.bind_some]
    | t :: w, h1, h2 =>
      by_cases ht : t = .rbr
      · exact absurd (Or.inr (Or.inl ht)) (h2 _ _ rfl)
      · cases t <;> first | exact absurd rfl ht | simp only [h1, Option.bind_some]
  · exact fun us he' => h.head (stops_colon _ _) he' (by simp)

/-! ### Operators -/

/-- `-n`. -/
theorem reads_neg (n : Nat) : Reads 7 [.minus, .num n] (.neg (.num n)) := by
  obtain ⟨N, hN⟩ := Reads.lift (k := 7) (by omega) (by omega) (atom_num n).reads
  refine ⟨N + 1, fun f hf rest hr => ?_⟩
  obtain ⟨g, rfl, hg⟩ := exists_succ hf
  show pLvl (g + 1) 7 (.minus :: ([.num n] ++ rest)) = _
  rw [pLvl, hN g hg rest hr]
  rfl

/-- `not a`. -/
theorem reads_not {ts : List Tok} {a : Ast} (h : Reads 3 ts a) : Reads 3 (.knot :: ts) (.not a) := by
  obtain ⟨N, hN⟩ := h
  refine ⟨N + 1, fun f hf rest hr => ?_⟩
  obtain ⟨g, rfl, hg⟩ := exists_succ hf
  show pLvl (g + 1) 3 (.knot :: (ts ++ rest)) = _
  rw [pLvl, hN g hg rest hr]
  rfl

/-- `a < b`. -/
theorem reads_cmp {ts us : List Tok} {a b : Ast} (o : CmpOp) (h : Reads 5 ts a) (h' : Reads 5 us b) :
    Reads 4 (ts ++ .cmp o :: us) (.cmp o a b) := by
  obtain ⟨N, hN⟩ := h
  obtain ⟨M, hM⟩ := h'
  refine ⟨N + M + 2, fun f hf rest hr => ?_⟩
  obtain ⟨g, rfl, hg⟩ := exists_succ hf
  obtain ⟨g, rfl, hg⟩ := exists_succ hg
  rw [List.append_assoc, List.cons_append, pLvl, hN _ (by omega) _ (stops_of rfl (by decide) _), Option.bind_some]
  show ((pLvl g 5 (us ++ rest)).bind _) = _
  rw [hM _ (by omega) _ (hr.mono (by omega)), Option.bind_some]
  match rest, hr with
  | [], _ => rfl
  | t :: rest, hr => cases t <;> first | rfl | exact absurd (hr _ rfl) (by decide)

/-- `a if c else b` at level 0. -/
theorem reads_ite {ts us vs : List Tok} {a b c : Ast} (h : Reads 1 ts a) (hc : Reads 1 us c) (h' : Reads 0 vs b) :
    Reads 0 (ts ++ .kif :: (us ++ .kelse :: vs)) (.ite c a b) := by
  obtain ⟨N, hN⟩ := h
  obtain ⟨M, hM⟩ := h'
  obtain ⟨K, hK⟩ := hc
  refine ⟨N + M + K + 1, fun f hf rest hr => ?_⟩
  obtain ⟨g, rfl, hg⟩ := exists_succ hf
  have he : ts ++ .kif :: (us ++ .kelse :: vs) ++ rest = ts ++ .kif :: (us ++ .kelse :: (vs ++ rest)) := by simp
  rw [he, pLvl, hN _ (by omega) _ (stops_of rfl (by decide) _), Option.bind_some]
  show ((pLvl g 1 (us ++ .kelse :: (vs ++ rest))).bind _) = _
  rw [hK _ (by omega) _ (stops_else _ _), Option.bind_some]
  show ((pLvl g 0 (vs ++ rest)).bind _) = _
  rw [hM _ (by omega) _ hr]
  rfl

/-- Right-nested `or`. -/
def orAll : List Ast → Ast
  | [] => .bool false
  | [a] => a
  | a :: as => .or a (orAll as)

/-- Right-nested `and`. -/
def andAll : List Ast → Ast
  | [] => .bool true
  | [a] => a
  | a :: as => .and a (andAll as)

theorem reads_or : ∀ (ps : List (List Tok)) (as : List Ast), ps ≠ [] → All2 (Reads 2) ps as →
    Reads 1 (joinToks .kor ps) (orAll as)
  | [], _, hne, _ => absurd rfl hne
  | [_], _, _, .cons h .nil => h.lift1 (by omega)
  | p :: q :: ps, _, _, .cons (b := a) (bs := as) h hs => by
    obtain ⟨M, hM⟩ := reads_or (q :: ps) as (by simp) hs
    obtain ⟨N, hN⟩ := h
    refine ⟨N + M + 1, fun f hf rest hr => ?_⟩
    obtain ⟨g, rfl, hg⟩ := exists_succ hf
    match as, hs with
    | b :: bs, hs =>
    rw [joinToks_cons2, List.append_assoc, List.cons_append, pLvl, hN _ (by omega) _ (stops_of rfl (by decide) _), Option.bind_some]
    show ((pLvl g 1 (joinToks .kor (q :: ps) ++ rest)).bind _) = _
    rw [hM _ (by omega) _ hr]
    rfl

theorem reads_and : ∀ (ps : List (List Tok)) (as : List Ast), ps ≠ [] → All2 (Reads 3) ps as →
    Reads 2 (joinToks .kand ps) (andAll as)
  | [], _, hne, _ => absurd rfl hne
  | [_], _, _, .cons h .nil => h.lift1 (by omega)
  | p :: q :: ps, _, _, .cons (b := a) (bs := as) h hs => by
    obtain ⟨M, hM⟩ := reads_and (q :: ps) as (by simp) hs
    obtain ⟨N, hN⟩ := h
    refine ⟨N + M + 1, fun f hf rest hr => ?_⟩
    obtain ⟨g, rfl, hg⟩ := exists_succ hf
    match as, hs with
    | b :: bs, hs =>
    rw [joinToks_cons2, List.append_assoc, List.cons_append, pLvl, hN _ (by omega) _ (stops_of rfl (by decide) _), Option.bind_some]
    show ((pLvl g 2 (joinToks .kand (q :: ps) ++ rest)).bind _) = _
    rw [hM _ (by omega) _ hr]
    rfl

/-- Left-nested binary operator. -/
def binAll (o : BinOp) : List Ast → Ast
  | [] => .num 0
  | a :: as => as.foldl (.bin o) a

/-- Texts, each preceded by the separator. -/
def preToks (sep : Tok) : List (List Tok) → List Tok
  | [] => []
  | p :: ps => sep :: (p ++ preToks sep ps)

theorem joinToks_cons (sep : Tok) (p : List Tok) : ∀ ps : List (List Tok), joinToks sep (p :: ps) = p ++ preToks sep ps
  | [] => by simp [joinToks, preToks]
  | q :: ps => by rw [joinToks_cons2, joinToks_cons sep q ps, preToks]

theorem sum_loop : ∀ (ps : List (List Tok)) (as : List Ast), All2 (Reads 6) ps as →
    ∃ N, ∀ f, N ≤ f → ∀ a rest, Stops 5 rest → pSum f a (preToks .plus ps ++ rest) = some (as.foldl (.bin .add) a, rest)
  | [], _, .nil => by
    refine ⟨1, fun f hf a rest hr => ?_⟩
    obtain ⟨g, rfl, _⟩ := exists_succ hf
    exact pSum_stop hr
  | p :: ps, _, .cons (b := b) (bs := bs) h hs => by
    obtain ⟨M, hM⟩ := sum_loop ps bs hs
    obtain ⟨N, hN⟩ := h
    refine ⟨N + M + 1, fun f hf a rest hr => ?_⟩
    obtain ⟨g, rfl, hg⟩ := exists_succ hf
    have hst : Stops 6 (preToks .plus ps ++ rest) := by
      cases ps with
      | nil => exact hr.mono (by omega)
      | cons q ps => exact stops_of rfl (by decide) _
    rw [preToks, List.cons_append, List.append_assoc, pSum, hN _ (by omega) _ hst]
    exact hM _ (by omega) _ _ hr

theorem prod_loop : ∀ (ps : List (List Tok)) (as : List Ast), All2 (Reads 7) ps as →
    ∃ N, ∀ f, N ≤ f → ∀ a rest, Stops 6 rest → pProd f a (preToks .star ps ++ rest) = some (as.foldl (.bin .mul) a, rest)
  | [], _, .nil => by
    refine ⟨1, fun f hf a rest hr => ?_⟩
    obtain ⟨g, rfl, _⟩ := exists_succ hf
    exact pProd_stop hr
  | p :: ps, _, .cons (b := b) (bs := bs) h hs => by
    obtain ⟨M, hM⟩ := prod_loop ps bs hs
    obtain ⟨N, hN⟩ := h
    refine ⟨N + M + 1, fun f hf a rest hr => ?_⟩
    obtain ⟨g, rfl, hg⟩ := exists_succ hf
    have hst : Stops 7 (preToks .star ps ++ rest) := by
      cases ps with
      | nil => exact hr.mono (by omega)
      | cons q ps => exact stops_of rfl (by decide) _
    rw [preToks, List.cons_append, List.append_assoc, pProd, hN _ (by omega) _ hst]
    exact hM _ (by omega) _ _ hr

theorem reads_sum {ps : List (List Tok)} {as : List Ast} (hne : ps ≠ []) (h : All2 (Reads 6) ps as) :
    Reads 5 (joinToks .plus ps) (binAll .add as) := by
  cases h with
  | nil => exact absurd rfl hne
  | cons h hs =>
    obtain ⟨M, hM⟩ := sum_loop _ _ hs
    obtain ⟨N, hN⟩ := h
    refine ⟨N + M + 1, fun f hf rest hr => ?_⟩
    obtain ⟨g, rfl, hg⟩ := exists_succ hf
    rw [joinToks_cons, List.append_assoc, pLvl, hN _ (by omega), Option.bind_some]
    · exact hM _ (by omega) _ _ hr
    · rename_i ps _
      cases ps with
      | nil => exact hr.mono (by omega)
      | cons q ps => exact stops_of rfl (by decide) _

theorem reads_prod {ps : List (List Tok)} {as : List Ast} (hne : ps ≠ []) (h : All2 (Reads 7) ps as) :
    Reads 6 (joinToks .star ps) (binAll .mul as) := by
  cases h with
  | nil => exact absurd rfl hne
  | cons h hs =>
    obtain ⟨M, hM⟩ := prod_loop _ _ hs
    obtain ⟨N, hN⟩ := h
    refine ⟨N + M + 1, fun f hf rest hr => ?_⟩
    obtain ⟨g, rfl, hg⟩ := exists_succ hf
    rw [joinToks_cons, List.append_assoc, pLvl, hN _ (by omega), Option.bind_some]
    · exact hM _ (by omega) _ _ hr
    · rename_i ps _
      cases ps with
      | nil => exact hr.mono (by omega)
      | cons q ps => exact stops_of rfl (by decide) _

/-- `a - b`. -/
theorem reads_sub {ts us : List Tok} {a b : Ast} (ps : List (List Tok)) (as : List Ast) (hne : ps ≠ []) (h : All2 (Reads 6) ps as)
    (hts : ts = joinToks .plus ps) (ha : a = binAll .add as) (h' : Reads 6 us b) :
    Reads 5 (ts ++ .minus :: us) (.bin .sub a b) := by
  subst hts ha
  -- the loop over the summands of `a` ends at `-`, where the loop goes on with `b`
  obtain ⟨M, hM⟩ := h'
  have loop : ∀ (ps : List (List Tok)) (as : List Ast), All2 (Reads 6) ps as → ∃ N, ∀ f, N ≤ f → ∀ a rest, Stops 5 rest →
      pSum f a (preToks .plus ps ++ .minus :: (us ++ rest)) = some (.bin .sub (as.foldl (.bin .add) a) b, rest) := by
    intro ps
    induction ps with
    | nil =>
      intro as hs
      cases hs
      refine ⟨M + 2, fun f hf a rest hr => ?_⟩
      obtain ⟨g, rfl, hg⟩ := exists_succ hf
      obtain ⟨g, rfl, hg⟩ := exists_succ hg
      rw [preToks, List.nil_append, pSum, hM _ (by omega) _ (hr.mono (by omega)), Option.bind_some]
      exact pSum_stop hr
    | cons p ps ih =>
      intro as hs
      cases hs with
      | cons h hs =>
      obtain ⟨K, hK⟩ := ih _ hs
      obtain ⟨N, hN⟩ := h
      refine ⟨N + K + 1, fun f hf a rest hr => ?_⟩
      obtain ⟨g, rfl, hg⟩ := exists_succ hf
      have hst : Stops 6 (preToks .plus ps ++ .minus :: (us ++ rest)) := by
        cases ps with
        | nil => exact stops_of rfl (by decide) _
        | cons q ps => exact stops_of rfl (by decide) _
      rw [preToks, List.cons_append, List.append_assoc, pSum, hN _ (by omega) _ hst]
      exact hK _ (by omega) _ _ hr
  cases h with
  | nil => exact absurd rfl hne
  | cons h hs =>
    obtain ⟨K, hK⟩ := loop _ _ hs
    obtain ⟨N, hN⟩ := h
    refine ⟨N + K + 1, fun f hf rest hr => ?_⟩
    obtain ⟨g, rfl, hg⟩ := exists_succ hf
    rw [joinToks_cons, List.append_assoc, List.append_assoc, List.cons_append, pLvl, hN _ (by omega), Option.bind_some]
    · exact hK _ (by omega) _ _ hr
    · rename_i ps _
      cases ps with
      | nil => exact stops_of rfl (by decide) _
      | cons q ps => exact stops_of rfl (by decide) _

/-- `a // b` and `a % b`. -/
theorem reads_divmod {ts us : List Tok} {a b : Ast} (t : Tok) (o : BinOp) (ht : t = .slashslash ∧ o = .floordiv ∨ t = .percent ∧ o = .mod)
    (ps : List (List Tok)) (as : List Ast) (hne : ps ≠ []) (h : All2 (Reads 7) ps as)
    (hts : ts = joinToks .star ps) (ha : a = binAll .mul as) (h' : Reads 7 us b) :
    Reads 6 (ts ++ t :: us) (.bin o a b) := by
  subst hts ha
  have htc : t.cont = some 6 := by rcases ht with ⟨rfl, rfl⟩ | ⟨rfl, rfl⟩ <;> rfl
  obtain ⟨M, hM⟩ := h'
  have loop : ∀ (ps : List (List Tok)) (as : List Ast), All2 (Reads 7) ps as → ∃ N, ∀ f, N ≤ f → ∀ a rest, Stops 6 rest →
      pProd f a (preToks .star ps ++ t :: (us ++ rest)) = some (.bin o (as.foldl (.bin .mul) a) b, rest) := by
    intro ps
    induction ps with
    | nil =>
      intro as hs
      cases hs
      refine ⟨M + 2, fun f hf a rest hr => ?_⟩
      obtain ⟨g, rfl, hg⟩ := exists_succ hf
      obtain ⟨g, rfl, hg⟩ := exists_succ hg
      rcases ht with ⟨rfl, rfl⟩ | ⟨rfl, rfl⟩ <;>
      · rw [preToks, List.nil_append, pProd, hM _ (by omega) _ (hr.mono (by omega)), Option.bind_some]
        exact pProd_stop hr
    | cons p ps ih =>
      intro as hs
      cases hs with
      | cons h hs =>
      obtain ⟨K, hK⟩ := ih _ hs
      obtain ⟨N, hN⟩ := h
      refine ⟨N + K + 1, fun f hf a rest hr => ?_⟩
      obtain ⟨g, rfl, hg⟩ := exists_succ hf
      have hst : Stops 7 (preToks .star ps ++ t :: (us ++ rest)) := by
        cases ps with
        | nil => exact stops_of htc (by decide) _
        | cons q ps => exact stops_of rfl (by decide) _
      rw [preToks, List.cons_append, List.append_assoc, pProd, hN _ (by omega) _ hst]
      exact hK _ (by omega) _ _ hr
  cases h with
  | nil => exact absurd rfl hne
  | cons h hs =>
    obtain ⟨K, hK⟩ := loop _ _ hs
    obtain ⟨N, hN⟩ := h
    refine ⟨N + K + 1, fun f hf rest hr => ?_⟩
    obtain ⟨g, rfl, hg⟩ := exists_succ hf
    rw [joinToks_cons, List.append_assoc, List.append_assoc, List.cons_append, pLvl, hN _ (by omega), Option.bind_some]
    · exact hK _ (by omega) _ _ hr
    · rename_i ps _
      cases ps with
      | nil => exact stops_of htc (by decide) _
      | cons q ps => exact stops_of rfl (by decide) _

end Metalift.Py
