import Verif.RosetteFile
import Verif.RktProg
import Verif.SmtFilesRead
import Verif.PDriverEnd
import Verif.RktLib
/-
The forms of the file written for Rosette: what `readModule` makes of its text.
-/
namespace Metalift
namespace Rkt
open Smt (joinSp Piece Lead piece_atom piece_nl piece_sp piece_empty)

/-! ### Names -/

/-- Characters that can occur in names. -/
def nameChar (c : Char) : Bool := c.isAlphanum || c == '_' || c == '-' || c == '.' || c == '%' || c == '!' || c == '?'

/-- Names that Racket reads as symbols and that are not the names of literals: a letter or underscore followed by letters, digits and some
punctuation. -/
def rktName (s : String) : Bool :=
  (match s.toList with
   | [] => false
   | c :: _ => c.isAlpha || c == '_') && s.toList.all nameChar && s != "true" && s != "false"

/-- No comments and brackets. -/
def cleanText (cs : List Char) : Bool := cs.all (fun c => c != ';' && c != '[' && c != ']')

theorem nameChar_ne {c d : Char} (h : nameChar c = true) (hd : nameChar d = false) : c ≠ d := by
  rintro rfl
  rw [h] at hd
  cases hd

theorem rktName_chars {s : String} (h : rktName s = true) : s.toList.all nameChar = true := by
  simp only [rktName, Bool.and_eq_true] at h
  exact h.1.1.2

theorem chars_good {cs : List Char} (h : cs.all nameChar = true) : cs.all (fun c => !isDelim c && c != '"' && c != '\'') = true := by
  simp only [List.all_eq_true] at h ⊢
  intro c hc
  have this {d : Char} := nameChar_ne (d := d) (h c hc)
  simp only [isDelim, isSpace, Bool.and_eq_true, Bool.not_eq_true', Bool.or_eq_false_iff, bne_iff_ne, beq_eq_false_iff_ne]
  exact ⟨⟨⟨⟨⟨⟨⟨this (by decide), this (by decide)⟩, this (by decide)⟩, this (by decide)⟩, this (by decide)⟩, this (by decide)⟩,
    this (by decide)⟩, this (by decide)⟩

theorem chars_clean {cs : List Char} (h : cs.all nameChar = true) : cleanText cs = true := by
  simp only [cleanText, List.all_eq_true, Bool.and_eq_true, bne_iff_ne] at h ⊢
  intro c hc
  have this {d : Char} := nameChar_ne (d := d) (h c hc)
  exact ⟨⟨this (by decide), this (by decide)⟩, this (by decide)⟩

theorem rktName_cons {s : String} (h : rktName s = true) : ∃ c cs, s.toList = c :: cs ∧ (c.isAlpha || c == '_') = true := by
  simp only [rktName, Bool.and_eq_true] at h
  have := h.1.1.1
  split at this
  · cases this
  · exact ⟨_, _, by assumption, this⟩

theorem rktName_good {s : String} (h : rktName s = true) : goodAtom s = true := by
  obtain ⟨c, cs, e, _⟩ := rktName_cons h
  have := chars_good (rktName_chars h)
  rw [goodAtom, this, e]
  rfl

theorem rktName_clean {s : String} (h : rktName s = true) : cleanText s.toList = true := chars_clean (rktName_chars h)

theorem alpha_not_digit {c : Char} (h : (c.isAlpha || c == '_') = true) : c.isDigit = false := by
  by_contra hd
  simp only [Bool.not_eq_false] at hd
  simp only [Bool.or_eq_true, beq_iff_eq] at h
  rcases h with h | rfl
  · simp only [Char.isDigit, Char.isAlpha, Char.isUpper, Char.isLower, Bool.and_eq_true, Bool.or_eq_true, decide_eq_true_eq, ge_iff_le,
      UInt32.le_iff_toNat_le] at hd h
    have := hd.1
    have := hd.2
    simp at *
    omega
  · revert hd; decide

theorem rktName_isName {s : String} (h : rktName s = true) : isName s = true := by
  obtain ⟨c, cs, e, hc⟩ := rktName_cons h
  have h1 := alpha_not_digit hc
  have h2 : c ≠ '-' := by
    rintro rfl
    revert hc; decide
  simp [isName, e, isNumeric, h1, h2]

theorem rktName_ne {s : String} (h : rktName s = true) : s ≠ "true" ∧ s ≠ "false" ∧ s ≠ "#t" ∧ s ≠ "#f" ∧ s ≠ "." := by
  obtain ⟨c, cs, e, hc⟩ := rktName_cons h
  simp only [rktName, Bool.and_eq_true, bne_iff_ne] at h
  have key : ∀ d ds, (d.isAlpha || d == '_') = false → s ≠ String.ofList (d :: ds) := by
    rintro d ds hd rfl
    simp at e
    rw [e.1, hc] at hd
    cases hd
  exact ⟨h.1.2, h.2, key '#' ['t'] (by decide), key '#' ['f'] (by decide), key '.' [] (by decide)⟩

/-- A name extended by further characters. -/
theorem rktName_append {s t : String} (h : rktName s = true) (ht : t.toList.all nameChar = true) (h1 : 6 ≤ t.toList.length) :
    rktName (s ++ t) = true := by
  obtain ⟨c, cs, e, hc⟩ := rktName_cons h
  have hch := rktName_chars h
  have hl : 6 ≤ (s ++ t).toList.length := by
    rw [String.toList_append, List.length_append]
    omega
  have key : ∀ u : String, u.toList.length < 6 → s ++ t ≠ u := by
    rintro u hu rfl
    omega
  simp only [rktName, String.toList_append, e, List.cons_append, hc, Bool.true_and, bne_iff_ne, Bool.and_eq_true]
  rw [e] at hch
  refine ⟨⟨?_, key _ (by decide)⟩, key _ (by decide)⟩
  rw [← List.cons_append, List.all_append, hch, ht]
  rfl

theorem digits_nameChar (n : Nat) : n.repr.toList.all nameChar = true := by
  rw [List.all_eq_true]
  intro c hc
  have := repr_digits n c hc
  simp [nameChar, Char.isAlphanum, this]

/-! ### Clean texts -/

theorem clean_append {a b : List Char} : cleanText (a ++ b) = true ↔ cleanText a = true ∧ cleanText b = true := by
  simp [cleanText, List.all_append]

theorem clean_paren {cs : List Char} (h : cleanText cs = true) : cs.map paren = cs ∧ Smt.uncomment false cs = cs := by
  induction cs with
  | nil => exact ⟨rfl, rfl⟩
  | cons c cs ih =>
    simp only [cleanText, List.all_cons, Bool.and_eq_true, bne_iff_ne] at h
    obtain ⟨⟨⟨h1, h2⟩, h3⟩, h4⟩ := h
    obtain ⟨i1, i2⟩ := ih (by simpa [cleanText] using h4)
    constructor
    · rw [List.map_cons, i1]
      simp [paren, h2, h3]
    · rw [Smt.uncomment, if_neg h1, i2]

/-- A text that denotes an S-expression and is clean. -/
structure Good (s : String) (x : SExpr) : Prop where
  denotes : Denotes s x
  clean : cleanText s.toList = true

/-- A clean text that consists of S-expressions. -/
structure GoodPiece (s : String) (xs : List SExpr) : Prop where
  piece : Piece s xs
  clean : cleanText s.toList = true

theorem Good.piece {s : String} {x : SExpr} (h : Good s x) : GoodPiece s [x] := ⟨h.denotes.piece, h.clean⟩

theorem GoodPiece.sp {s t : String} {xs ys : List SExpr} (hs : GoodPiece s xs) (ht : GoodPiece t ys) : GoodPiece (s ++ " " ++ t) (xs ++ ys) :=
  ⟨hs.piece.sp ht.piece, by
    simp only [String.toList_append, clean_append]
    exact ⟨⟨hs.clean, by decide⟩, ht.clean⟩⟩

theorem GoodPiece.nl {s t : String} {xs ys : List SExpr} (hs : GoodPiece s xs) (ht : GoodPiece t ys) : GoodPiece (s ++ "\n" ++ t) (xs ++ ys) :=
  ⟨hs.piece.nl ht.piece, by
    simp only [String.toList_append, clean_append]
    exact ⟨⟨hs.clean, by decide⟩, ht.clean⟩⟩

theorem GoodPiece.paren {s : String} {xs : List SExpr} (h : GoodPiece s xs) : Good ("(" ++ s ++ ")") (.list xs) :=
  ⟨h.piece.paren, by
    simp only [String.toList_append, clean_append]
    exact ⟨⟨by decide, h.clean⟩, by decide⟩⟩

theorem good_empty : GoodPiece "" [] := ⟨piece_empty, rfl⟩

theorem good_atom {s : String} (h : goodAtom s = true) (hc : cleanText s.toList = true) : Good s (.atom s) := ⟨denotes_atom h, hc⟩
theorem good_name {s : String} (h : rktName s = true) : Good s (.atom s) := good_atom (rktName_good h) (rktName_clean h)

theorem good_join {ss : List String} {xs : List SExpr} (h : All2 Good ss xs) : GoodPiece (joinSp ss) xs := by
  cases h with
  | nil => exact good_empty
  | @cons s x ss xs h1 h2 =>
    induction h2 generalizing s x with
    | nil => simpa [joinSp, catAll] using h1.piece
    | @cons t y ts ys ht hts ih =>
      have e : joinSp (s :: t :: ts) = s ++ " " ++ joinSp (t :: ts) := by
        simp [joinSp, catAll, String.append_assoc]
      rw [e]
      exact h1.piece.sp (ih ht)

/-! ### Expressions -/

mutual
/-- The S-expression that an expression is printed as. -/
def rktSx : Expr → Option SExpr
  | .var n _ => some (.atom n)
  | .lit l => some (.atom (litText l))
  | .node op _ args => do
    let h ← opHead op (args.head?.map Expr.ty)
    let xs ← rktSxs args
    some (.list (.atom h :: xs))
def rktSxs : List Expr → Option (List SExpr)
  | [] => some []
  | e :: es => do
    let x ← rktSx e
    let xs ← rktSxs es
    some (x :: xs)
end

theorem clean_node {op : Op} {h : String} {as : List String} (hh : cleanText h.toList = true) (ha : ∀ a ∈ as, cleanText a.toList = true) :
    cleanText (nodeText op h as).toList = true := by
  have h1 : cleanText "(".toList = true := by decide
  have h2 : cleanText " ".toList = true := by decide
  have h3 : cleanText ")".toList = true := by decide
  have h4 : cleanText "( ".toList = true := by decide
  have c1 : cleanText (catAll (as.map (· ++ " "))).toList = true := by
    induction as with
    | nil => rfl
    | cons a as ih =>
      simp only [List.map_cons, catAll, String.toList_append, clean_append]
      exact ⟨⟨ha a (by simp), h2⟩, ih (fun x hx => ha x (by simp [hx]))⟩
  have c2 : cleanText (catAll (as.map (" " ++ ·))).toList = true := by
    induction as with
    | nil => rfl
    | cons a as ih =>
      simp only [List.map_cons, catAll, String.toList_append, clean_append]
      simp only [List.map_cons, catAll, String.toList_append, clean_append] at c1
      exact ⟨⟨h2, ha a (by simp)⟩, ih (fun x hx => ha x (by simp [hx])) c1.2⟩
  have t1 : cleanText (textSimple h as).toList = true := by
    simp only [textSimple, String.toList_append, clean_append]
    exact ⟨⟨⟨⟨h1, hh⟩, h2⟩, c1⟩, h3⟩
  have t2 : cleanText (textInv h as).toList = true := by
    simp only [textInv, String.toList_append, clean_append]
    exact ⟨⟨⟨⟨h4, hh⟩, h2⟩, c1⟩, h3⟩
  have t3 : cleanText (textJoin h as).toList = true := by
    simp only [textJoin, String.toList_append, clean_append]
    exact ⟨⟨⟨h1, hh⟩, c2⟩, h3⟩
  unfold nodeText
  split
  · exact t1
  · split
    · exact t2
    · split
      · exact t1
      · exact t3
  · exact t3
  · exact t1

theorem lit_clean (l : Lit) : cleanText (litText l).toList = true := by
  cases l with
  | int i =>
    simp only [litText]
    split
    · rw [String.toList_append, clean_append]
      exact ⟨by decide, chars_clean (digits_nameChar _)⟩
    · exact chars_clean (digits_nameChar _)
  | bool b => cases b <;> decide

/-- Names that can be printed at the head of an expression. -/
def headOk (h : String) : Bool := goodAtom h && cleanText h.toList

theorem listFns_ok : (listFns.all fun p => headOk p.2) = true := by decide +kernel

theorem callHead_ok {f : String} {t1 : Option Ty} {h : String} (hf : headOk f = true) (hh : callHead f t1 = some h) : headOk h = true := by
  unfold callHead at hh
  split at hh
  · cases hh; exact hf
  split at hh
  · split at hh
    · split at hh
      · cases hh; decide
      · cases hh
    split at hh
    · split at hh
      · cases hh; decide
      · cases hh; decide
      · cases hh
    cases hl : listFns.lookup f with
    | none => rw [hl] at hh; cases hh; exact hf
    | some g =>
      rw [hl] at hh
      cases hh
      have hm : ∃ p ∈ listFns, p.2 = g := by
        have : ∀ l : List (String × String), l.lookup f = some g → ∃ p ∈ l, p.2 = g := by
          intro l
          induction l with
          | nil => intro h; cases h
          | cons q l ih =>
            intro h
            rw [List.lookup_cons] at h
            split at h
            · cases h; exact ⟨q, by simp, rfl⟩
            · obtain ⟨p, hp, e⟩ := ih h
              exact ⟨p, by simp [hp], e⟩
        exact this _ hl
      obtain ⟨p, hp, rfl⟩ := hm
      exact List.all_eq_true.1 listFns_ok p hp
  split at hh
  · split at hh
    · cases hh; decide
    split at hh
    · cases hh; decide
    · cases hh
  · cases hh; exact hf

theorem head_ok {op : Op} {t1 : Option Ty} {h : String} (hf : ∀ f, op = .call f → headOk f = true) (hh : opHead op t1 = some h) :
    headOk h = true := by
  unfold opHead at hh
  split at hh <;> first
    | (cases hh; decide)
    | exact callHead_ok (hf _ rfl) hh
    | cases hh

theorem expr_good {Γ : String → Ty} {sig : Sigs} (hsig : ∀ f ts t, sig f = some (ts, t) → headOk f = true) (e : Expr) :
    e.sorted Γ sig = true → (∀ x ∈ e.vars, rktName x = true) → ∀ s, rosetteText e = some s → ∃ x, rktSx e = some x ∧ Good s x := by
  induction e using Expr.ind with
  | hv n t =>
    intro _ hv s hs
    cases hs
    exact ⟨_, rfl, good_name (hv n (by simp [Expr.vars]))⟩
  | hl l =>
    intro _ _ s hs
    cases hs
    exact ⟨_, rfl, good_atom (lit_good l) (lit_clean l)⟩
  | hn op t args ih =>
    intro hsrt hv s hs
    simp only [Expr.sorted, Bool.and_eq_true, sorteds_iff] at hsrt
    simp only [rosetteText, Option.bind_eq_bind, Option.bind_eq_some_iff, Option.some.injEq] at hs
    obtain ⟨h, hh, as, has, rfl⟩ := hs
    have hargs : ∃ xs, rktSxs args = some xs ∧ All2 Good as xs := by
      have hv' : ∀ a ∈ args, ∀ x ∈ a.vars, rktName x = true := fun a ha x hx => hv x (by
        simp only [Expr.vars]
        exact Expr.mem_varss.2 ⟨a, ha, hx⟩)
      clear hh
      have hs1 := hsrt.1
      clear hsrt hv
      induction args generalizing as with
      | nil => cases has; exact ⟨[], rfl, .nil⟩
      | cons a args ih2 =>
        simp only [rosetteTexts, Option.bind_eq_bind, Option.bind_eq_some_iff, Option.some.injEq] at has
        obtain ⟨s, hs, ss, hss, rfl⟩ := has
        obtain ⟨x, hx, gx⟩ := ih a (by simp) (hs1 a (by simp)) (hv' a (by simp)) s hs
        obtain ⟨xs, hxs, gxs⟩ := ih2 (fun b hb => ih b (by simp [hb])) ss hss (fun b hb => hv' b (by simp [hb])) (fun b hb => hs1 b (by simp [hb]))
        exact ⟨x :: xs, by simp [rktSxs, hx, hxs], .cons gx gxs⟩
    obtain ⟨xs, hxs, gxs⟩ := hargs
    have hok : headOk h = true := by
      refine head_ok (fun f hf => ?_) hh
      subst hf
      have := hsrt.2
      simp only [opSorted, decide_eq_true_eq] at this
      exact hsig _ _ _ this
    simp only [headOk, Bool.and_eq_true] at hok
    refine ⟨_, by simp [rktSx, hh, hxs], denotes_node hok.1 (gxs.imp fun _ _ g => g.denotes) op, clean_node hok.2 ?_⟩
    intro a ha
    have : ∀ {as : List String} {xs : List SExpr}, All2 Good as xs → ∀ a ∈ as, cleanText a.toList = true := by
      intro as xs h
      induction h with
      | nil => intro a ha; cases ha
      | cons h1 _ ih =>
        intro a ha
        rcases List.mem_cons.1 ha with rfl | ha
        · exact h1.clean
        · exact ih a ha
    exact this gxs a ha

/-! ### Definitions of functions -/

/-- The types of the parameters. -/
def paramTypes (ps : List (String × Ty)) : String → Ty := fun x => (ps.lookup x).getD .int

/-- A function that can be printed: it has a body, of the right sorts, about its parameters; the names are symbols and different. -/
def fnOk (sig : Sigs) (d : FnDecl) : Bool :=
  match d.body with
  | none => false
  | some b => b.sorted (paramTypes d.params) sig && b.vars.all (fun x => decide (x ∈ d.params.map Prod.fst)) && (rktName d.name && userName d.name) &&
      d.params.all (fun p => rktName p.1) && decide (d.params.map Prod.fst).Nodup

/-- The form that a function is printed as. -/
def fnForm (d : FnDecl) : Option SExpr := do
  let b ← d.body
  let x ← rktSx b
  some (.list [.atom (if d.recursive then "define-bounded" else "define"), .list (.atom d.name :: d.params.map (fun p => .atom p.1)), x])

theorem names_good {ps : List String} (h : ∀ p ∈ ps, rktName p = true) : All2 Good ps (ps.map .atom) := by
  induction ps with
  | nil => exact .nil
  | cons p ps ih => exact .cons (good_name (h p (by simp))) (ih (fun q hq => h q (by simp [hq])))

theorem fn_good {sig : Sigs} (hsig : ∀ f ts t, sig f = some (ts, t) → headOk f = true) {d : FnDecl} (h : fnOk sig d = true) {s : String}
    (hs : fnText d = some s) : ∃ x, fnForm d = some x ∧ Good s x := by
  simp only [fnText, Option.bind_eq_bind, Option.bind_eq_some_iff, Option.some.injEq] at hs
  obtain ⟨b, hb, t, ht, rfl⟩ := hs
  simp only [fnOk, hb, Bool.and_eq_true, List.all_eq_true, decide_eq_true_eq] at h
  obtain ⟨⟨⟨⟨h1, h2⟩, h3⟩, h4⟩, h5⟩ := h
  have hp : ∀ p ∈ d.params.map Prod.fst, rktName p = true := by
    intro p hp
    obtain ⟨q, hq, rfl⟩ := List.mem_map.1 hp
    exact h4 q hq
  obtain ⟨x, hx, gx⟩ := expr_good hsig b h1 (fun y hy => hp y (h2 y hy)) t ht
  refine ⟨_, by simp [fnForm, hb, hx]; rfl, ?_⟩
  have key : ∀ k, headOk k = true →
      Good ("(" ++ k ++ " (" ++ d.name ++ " " ++ joinSp (d.params.map Prod.fst) ++ ") \n" ++ t ++ ")")
        (.list [.atom k, .list (.atom d.name :: d.params.map (fun p => .atom p.1)), x]) := by
    intro k hk
    simp only [headOk, Bool.and_eq_true] at hk
    have := ((((good_atom hk.1 hk.2).piece.sp ((good_name h3.1).piece.sp (good_join (names_good hp))).paren.piece).sp
      good_empty).nl gx.piece).paren
    have e : "(" ++ k ++ " (" ++ d.name ++ " " ++ joinSp (d.params.map Prod.fst) ++ ") \n" ++ t ++ ")" =
        "(" ++ (k ++ " " ++ ("(" ++ (d.name ++ " " ++ joinSp (d.params.map Prod.fst)) ++ ")") ++ " " ++ "" ++ "\n" ++ t) ++ ")" := by
      rw [show " (" = " " ++ "(" from rfl, show ") \n" = ")" ++ (" " ++ "\n") from by decide +kernel]
      simp only [String.append_assoc, String.empty_append, -String.reduceAppend]
    rw [e]
    rw [List.map_map] at this
    exact this
  cases d.recursive with
  | true => exact key _ (by decide +kernel)
  | false => exact key _ (by decide +kernel)

theorem langs_good {sig : Sigs} (hsig : ∀ f ts t, sig f = some (ts, t) → headOk f = true) : ∀ {lang : List FnDecl} {l : String},
    (∀ d ∈ lang, fnOk sig d = true) → langTexts lang = some l → ∃ xs, lang.mapM fnForm = some xs ∧
      ∀ r ys, GoodPiece r ys → GoodPiece (l ++ r) (xs ++ ys)
  | [], l, _, h => by
    cases h
    exact ⟨[], rfl, fun r ys hr => by simpa using hr⟩
  | d :: lang, l, hd, h => by
    have hok := hd d (by simp)
    have hb : d.body.isNone = false := by
      cases e : d.body with
      | none => simp [fnOk, e] at hok
      | some b => rfl
    simp only [langTexts, hb, Bool.false_eq_true, if_false, Option.bind_eq_bind, Option.bind_eq_some_iff, Option.some.injEq] at h
    obtain ⟨s, hs, r, hr, rfl⟩ := h
    obtain ⟨x, hx, gx⟩ := fn_good hsig hok hs
    obtain ⟨xs, hxs, gxs⟩ := langs_good hsig (fun e he => hd e (by simp [he])) hr
    refine ⟨x :: xs, by simp [List.mapM_cons, hx, hxs], fun r' ys hr' => ?_⟩
    have := (((good_empty.nl good_empty).sp gx.piece).sp good_empty).nl (good_empty.nl (gxs r' ys hr'))
    have e : "\n " ++ s ++ " \n\n" ++ r ++ r' = ((("" ++ "\n" ++ "") ++ " " ++ s) ++ " " ++ "") ++ "\n" ++ ("" ++ "\n" ++ (r ++ r')) := by
      rw [show "\n " = "\n" ++ " " from by decide +kernel, show " \n\n" = " " ++ ("\n" ++ "\n") from by decide +kernel]
      simp only [String.append_assoc, String.empty_append, -String.reduceAppend]
    rw [e]
    simpa using this

theorem cands_good {sig : Sigs} (hsig : ∀ f ts t, sig f = some (ts, t) → headOk f = true) : ∀ {cands : List FnDecl} {l : String},
    (∀ d ∈ cands, fnOk sig d = true) → candTexts cands = some l → ∃ xs, cands.mapM fnForm = some xs ∧
      ∀ r ys, GoodPiece r ys → GoodPiece (l ++ r) (xs ++ ys)
  | [], l, _, h => by
    cases h
    exact ⟨[], rfl, fun r ys hr => by simpa using hr⟩
  | d :: lang, l, hd, h => by
    have hok := hd d (by simp)
    simp only [candTexts, Option.bind_eq_bind, Option.bind_eq_some_iff, Option.some.injEq] at h
    obtain ⟨s, hs, r, hr, rfl⟩ := h
    obtain ⟨x, hx, gx⟩ := fn_good hsig hok hs
    obtain ⟨xs, hxs, gxs⟩ := cands_good hsig (fun e he => hd e (by simp [he])) hr
    refine ⟨x :: xs, by simp [List.mapM_cons, hx, hxs], fun r' ys hr' => ?_⟩
    have := (gx.piece.sp good_empty).nl (good_empty.nl (gxs r' ys hr'))
    have e : s ++ " \n\n" ++ r ++ r' = (s ++ " " ++ "") ++ "\n" ++ ("" ++ "\n" ++ (r ++ r')) := by
      rw [show " \n\n" = " " ++ ("\n" ++ "\n") from by decide +kernel]
      simp only [String.append_assoc, String.empty_append, -String.reduceAppend]
    rw [e]
    simpa using this

/-! ### Declarations of inputs -/

mutual
/-- The S-expression of an expression in a declaration. -/
def rexpSx : RExp → SExpr
  | .id s => .atom s
  | .list es => .list (.atom "list" :: rexpSxs es)
  | .take e n => .list [.atom "take", rexpSx e, .atom n]
  | .sortDedup e => .list [.atom "sort", .list [.atom "remove-duplicates", rexpSx e], .atom "<"]
def rexpSxs : List RExp → List SExpr
  | [] => []
  | e :: es => rexpSx e :: rexpSxs es
end

mutual
/-- The names that occur in it. -/
def rexpNames : RExp → List String
  | .id s => [s]
  | .list es => rexpNamess es
  | .take e n => rexpNames e ++ [n]
  | .sortDedup e => rexpNames e
def rexpNamess : List RExp → List String
  | [] => []
  | e :: es => rexpNames e ++ rexpNamess es
end

/-- The names that occur in a declaration. -/
def rdeclNames : RDecl → List String
  | .symInt n => [n]
  | .symBool n => [n]
  | .define n e => n :: rexpNames e

/-- The form of a declaration. -/
def rdeclSx : RDecl → SExpr
  | .symInt n => .list [.atom "define-symbolic", .atom n, .atom "integer?"]
  | .symBool n => .list [.atom "define-symbolic", .atom n, .atom "boolean?"]
  | .define n e => .list [.atom "define", .atom n, rexpSx e]

theorem lit_atom (s : String) (h : headOk s = true) : GoodPiece s [.atom s] := by
  simp only [headOk, Bool.and_eq_true] at h
  exact (good_atom h.1 h.2).piece

theorem s_list : "(list " = "(" ++ ("list" ++ " ") := by decide +kernel
theorem s_take : "(take " = "(" ++ ("take" ++ " ") := by decide +kernel
theorem s_sort : "(sort (remove-duplicates " = "(" ++ ("sort" ++ (" " ++ ("(" ++ ("remove-duplicates" ++ " ")))) := by decide +kernel
theorem s_lt : ") <)" = ")" ++ (" " ++ ("<" ++ ")")) := by decide +kernel
theorem s_sym : "(define-symbolic " = "(" ++ ("define-symbolic" ++ " ") := by decide +kernel
theorem s_int : " integer?)" = " " ++ ("integer?" ++ ")") := by decide +kernel
theorem s_bool : " boolean?)" = " " ++ ("boolean?" ++ ")") := by decide +kernel
theorem s_define : "(define " = "(" ++ ("define" ++ " ") := by decide +kernel

theorem t_list (s : String) : "(list " ++ s ++ ")" = "(" ++ ("list" ++ " " ++ s) ++ ")" := by
  rw [s_list]; simp only [String.append_assoc, -String.reduceAppend]
theorem t_take (s n : String) : "(take " ++ s ++ " " ++ n ++ ")" = "(" ++ ("take" ++ " " ++ s ++ " " ++ n) ++ ")" := by
  rw [s_take]; simp only [String.append_assoc, -String.reduceAppend]
theorem t_sort (s : String) : "(sort (remove-duplicates " ++ s ++ ") <)" =
    "(" ++ ("sort" ++ " " ++ ("(" ++ ("remove-duplicates" ++ " " ++ s) ++ ")") ++ " " ++ "<") ++ ")" := by
  rw [s_sort, s_lt]; simp only [String.append_assoc, -String.reduceAppend]
theorem t_int (n : String) : "(define-symbolic " ++ n ++ " integer?)" = "(" ++ ("define-symbolic" ++ " " ++ n ++ " " ++ "integer?") ++ ")" := by
  rw [s_sym, s_int]; simp only [String.append_assoc, -String.reduceAppend]
theorem t_bool (n : String) : "(define-symbolic " ++ n ++ " boolean?)" = "(" ++ ("define-symbolic" ++ " " ++ n ++ " " ++ "boolean?") ++ ")" := by
  rw [s_sym, s_bool]; simp only [String.append_assoc, -String.reduceAppend]
theorem t_define (n s : String) : "(define " ++ n ++ " " ++ s ++ ")" = "(" ++ ("define" ++ " " ++ n ++ " " ++ s) ++ ")" := by
  rw [s_define]; simp only [String.append_assoc, -String.reduceAppend]

mutual
theorem rexp_good : ∀ e : RExp, (∀ x ∈ rexpNames e, rktName x = true) → Good (rexpText e) (rexpSx e)
  | .id s, h => good_name (h s (by simp [rexpNames]))
  | .list es, h => by
    have := ((lit_atom "list" (by decide +kernel)).sp (good_join (rexps_good es h))).paren
    rw [show rexpText (.list es) = _ from t_list (joinSp (rexpTexts es))]
    exact this
  | .take e n, h => by
    have h1 := rexp_good e (fun x hx => h x (by simp [rexpNames, hx]))
    have h2 := good_name (h n (by simp [rexpNames]))
    have := (((lit_atom "take" (by decide +kernel)).sp h1.piece).sp h2.piece).paren
    rw [show rexpText (.take e n) = _ from t_take (rexpText e) n]
    exact this
  | .sortDedup e, h => by
    have h1 := rexp_good e h
    have := (((lit_atom "sort" (by decide +kernel)).sp ((lit_atom "remove-duplicates" (by decide +kernel)).sp h1.piece).paren.piece).sp
      (lit_atom "<" (by decide +kernel))).paren
    rw [show rexpText (.sortDedup e) = _ from t_sort (rexpText e)]
    exact this
theorem rexps_good : ∀ es : List RExp, (∀ x ∈ rexpNamess es, rktName x = true) → All2 Good (rexpTexts es) (rexpSxs es)
  | [], _ => .nil
  | e :: es, h => .cons (rexp_good e (fun x hx => h x (by simp [rexpNamess, hx]))) (rexps_good es (fun x hx => h x (by simp [rexpNamess, hx])))
end

theorem rdecl_good (d : RDecl) (h : ∀ x ∈ rdeclNames d, rktName x = true) : Good (rdeclText d) (rdeclSx d) := by
  cases d with
  | symInt n =>
    have := (((lit_atom "define-symbolic" (by decide +kernel)).sp (good_name (h n (by simp [rdeclNames]))).piece).sp
      (lit_atom "integer?" (by decide +kernel))).paren
    rw [show rdeclText (.symInt n) = _ from t_int n]
    exact this
  | symBool n =>
    have := (((lit_atom "define-symbolic" (by decide +kernel)).sp (good_name (h n (by simp [rdeclNames]))).piece).sp
      (lit_atom "boolean?" (by decide +kernel))).paren
    rw [show rdeclText (.symBool n) = _ from t_bool n]
    exact this
  | define n e =>
    have := (((lit_atom "define" (by decide +kernel)).sp (good_name (h n (by simp [rdeclNames]))).piece).sp
      (rexp_good e (fun x hx => h x (by simp [rdeclNames, hx]))).piece).paren
    rw [show rdeclText (.define n e) = _ from t_define n (rexpText e)]
    exact this

theorem lines_good {ss : List String} {xs : List SExpr} (h : All2 Good ss xs) : GoodPiece (joinLines ss) xs := by
  cases h with
  | nil => exact good_empty
  | @cons s x ss xs h1 h2 =>
    induction h2 generalizing s x with
    | nil => simpa [joinLines] using h1.piece
    | @cons t y ts ys ht hts ih => exact h1.piece.nl (ih ht)

theorem rdecls_good {ds : List RDecl} (h : ∀ d ∈ ds, ∀ x ∈ rdeclNames d, rktName x = true) : All2 Good (ds.map rdeclText) (ds.map rdeclSx) := by
  induction ds with
  | nil => exact .nil
  | cons d ds ih => exact .cons (rdecl_good d (h d (by simp))) (ih (fun e he => h e (by simp [he])))

/-! ### The file -/

/-- The forms at the end of the file. -/
def endForms (unbounded : Bool) (v : SExpr) : List SExpr :=
  [.list [.atom "current-bitwidth", .atom (if unbounded then "#f" else "6")],
   .list [.atom "define", .list [.atom "assertions"], .list [.atom "assert", v]],
   .list [.atom "verify", .list [.atom "assertions"]]]

/-- The forms of the header. -/
def headerForms : List SExpr :=
  [.list [.atom "require", .atom "\"./bounded.rkt\""], .list [.atom "require", .atom "\"./utils.rkt\""],
   .list [.atom "require", .atom "rosette/lib/angelic", .atom "rosette/lib/match", .atom "rosette/lib/synthax"],
   .list [.atom "require", .atom "rosette/solver/smt/bitwuzla"],
   .list [.atom "current-solver", .list [.atom "bitwuzla", .atom "#:path",
     .atom "\"/Users/jieq/Desktop/bitwuzla/build/src/main/bitwuzla\"", .atom "#:options", .list [.atom "hash", .atom "':seed", .atom "0"]]]]

set_option maxRecDepth 100000 in
theorem header_read : Smt.readChars ((afterLine fileHeader).map paren) = some headerForms ∧
    ((afterLine fileHeader).map paren).getLast? = some '\n' := by
  decide +kernel

theorem afterLine_append {a b : List Char} (h : '\n' ∈ a) : afterLine (a ++ b) = afterLine a ++ b := by
  induction a with
  | nil => cases h
  | cons c a ih =>
    rw [List.cons_append, afterLine, afterLine]
    split
    · rfl
    · next hc =>
      rcases List.mem_cons.1 h with h | h
      · exact absurd h.symm hc
      · exact ih h

theorem body_good {sig : Sigs} (hsig : ∀ f ts t, sig f = some (ts, t) → headOk f = true) {lang cands : List FnDecl} {ds : List RDecl}
    {unbounded : Bool} {vc : Expr} {Γ : String → Ty} (hl : ∀ d ∈ lang, fnOk sig d = true) (hc : ∀ d ∈ cands, fnOk sig d = true)
    (hd : ∀ d ∈ ds, ∀ x ∈ rdeclNames d, rktName x = true) (hvs : vc.sorted Γ sig = true) (hvv : ∀ x ∈ vc.vars, rktName x = true) {s : String}
    (hs : fileBody lang cands ds unbounded vc = some s) :
    ∃ lx cx v, lang.mapM fnForm = some lx ∧ cands.mapM fnForm = some cx ∧ rktSx vc = some v ∧
      GoodPiece s (lx ++ (cx ++ (ds.map rdeclSx ++ endForms unbounded v))) := by
  simp only [fileBody, Option.bind_eq_bind, Option.bind_eq_some_iff, Option.some.injEq] at hs
  obtain ⟨l, hl', c, hc', v, hv, rfl⟩ := hs
  obtain ⟨lx, hlx, gl⟩ := langs_good hsig hl hl'
  obtain ⟨cx, hcx, gc⟩ := cands_good hsig hc hc'
  obtain ⟨vx, hvx, gv⟩ := expr_good hsig vc hvs hvv v hv
  refine ⟨lx, cx, vx, hlx, hcx, hvx, ?_⟩
  have hg : (lang.filter (fun d => d.body.isNone)).isEmpty = true := by
    rw [List.isEmpty_iff, List.filter_eq_nil_iff]
    intro d hd
    have := hl d hd
    cases e : d.body with
    | none => simp [fnOk, e] at this
    | some b => simp
  rw [hg, if_pos rfl]
  have b1 : GoodPiece (if unbounded then "(current-bitwidth #f)" else "(current-bitwidth 6)")
      [.list [.atom "current-bitwidth", .atom (if unbounded then "#f" else "6")]] := by
    cases unbounded with
    | true =>
      have := ((lit_atom "current-bitwidth" (by decide +kernel)).sp (lit_atom "#f" (by decide +kernel))).paren.piece
      rwa [show "(" ++ ("current-bitwidth" ++ " " ++ "#f") ++ ")" = "(current-bitwidth #f)" from by decide +kernel] at this
    | false =>
      have := ((lit_atom "current-bitwidth" (by decide +kernel)).sp (lit_atom "6" (by decide +kernel))).paren.piece
      rwa [show "(" ++ ("current-bitwidth" ++ " " ++ "6") ++ ")" = "(current-bitwidth 6)" from by decide +kernel] at this
  have b2 := ((((lit_atom "define" (by decide +kernel)).sp (lit_atom "assertions" (by decide +kernel)).paren.piece).nl
    (good_empty.sp ((lit_atom "assert" (by decide +kernel)).sp gv.piece).paren.piece))).paren.piece
  have b3 := (((lit_atom "verify" (by decide +kernel)).sp (lit_atom "assertions" (by decide +kernel)).paren.piece)).paren.piece
  have b4 := (lines_good (rdecls_good hd)).nl (b1.nl (b2.nl (good_empty.nl (b3.nl good_empty))))
  have b5 := gl _ _ (gc _ _ (good_empty.nl b4))
  have e : l ++ c ++ "\n" ++ "" ++ joinLines (ds.map rdeclText) ++ "\n" ++
      (if unbounded then "(current-bitwidth #f)\n" else "(current-bitwidth 6)\n") ++ "(define (assertions)\n (assert " ++ v ++ "))\n" ++ "\n" ++
      "(verify (assertions))\n" =
      l ++ (c ++ ("" ++ "\n" ++ (joinLines (ds.map rdeclText) ++ "\n" ++
        ((if unbounded then "(current-bitwidth #f)" else "(current-bitwidth 6)") ++ "\n" ++
        ("(" ++ ("define" ++ " " ++ ("(" ++ "assertions" ++ ")") ++ "\n" ++ ("" ++ " " ++ ("(" ++ ("assert" ++ " " ++ v) ++ ")"))) ++ ")" ++ "\n" ++
        ("" ++ "\n" ++ ("(" ++ ("verify" ++ " " ++ ("(" ++ "assertions" ++ ")")) ++ ")" ++ "\n" ++ ""))))))) := by
    have e1 : (if unbounded then "(current-bitwidth #f)\n" else "(current-bitwidth 6)\n") =
        (if unbounded then "(current-bitwidth #f)" else "(current-bitwidth 6)") ++ "\n" := by
      cases unbounded <;> decide +kernel
    rw [e1, show "(define (assertions)\n (assert " = "(" ++ ("define" ++ (" " ++ ("(" ++ ("assertions" ++ (")" ++ ("\n" ++ (" " ++ ("(" ++
      ("assert" ++ " "))))))))) from by decide +kernel, show "))\n" = ")" ++ (")" ++ "\n") from by decide +kernel,
      show "(verify (assertions))\n" = "(" ++ ("verify" ++ (" " ++ ("(" ++ ("assertions" ++ (")" ++ (")" ++ "\n")))))) from by decide +kernel]
    simp only [String.append_assoc, String.empty_append, String.append_empty, -String.reduceAppend]
  rw [e]
  simpa [endForms] using b5

theorem all_lists {xs : List SExpr} (h : ∀ x ∈ xs, ∃ l, x = .list l) : ∃ ls : List (List SExpr), xs = ls.map .list := by
  induction xs with
  | nil => exact ⟨[], rfl⟩
  | cons x xs ih =>
    obtain ⟨l, rfl⟩ := h x (by simp)
    obtain ⟨ls, rfl⟩ := ih (fun y hy => h y (by simp [hy]))
    exact ⟨l :: ls, rfl⟩

theorem mapM_forms {ds : List FnDecl} {xs : List SExpr} (h : ds.mapM fnForm = some xs) : ∀ x ∈ xs, ∃ d ∈ ds, fnForm d = some x := by
  induction ds generalizing xs with
  | nil => cases h; intro x hx; cases hx
  | cons d ds ih =>
    simp only [List.mapM_cons, Option.bind_eq_bind, Option.bind_eq_some_iff, Option.pure_def, Option.some.injEq] at h
    obtain ⟨x, hx, ys, hys, rfl⟩ := h
    intro y hy
    rcases List.mem_cons.1 hy with rfl | hy
    · exact ⟨d, by simp, hx⟩
    · obtain ⟨e, he, h⟩ := ih hys y hy
      exact ⟨e, by simp [he], h⟩

theorem fnForm_list {d : FnDecl} {x : SExpr} (h : fnForm d = some x) : ∃ l, x = .list l := by
  simp only [fnForm, Option.bind_eq_bind, Option.bind_eq_some_iff, Option.some.injEq] at h
  obtain ⟨_, _, _, _, rfl⟩ := h
  exact ⟨_, rfl⟩

/-- The forms of the whole file. -/
theorem file_read {sig : Sigs} (hsig : ∀ f ts t, sig f = some (ts, t) → headOk f = true) {lang cands : List FnDecl} {ds : List RDecl}
    {unbounded : Bool} {vc : Expr} {Γ : String → Ty} (hl : ∀ d ∈ lang, fnOk sig d = true) (hc : ∀ d ∈ cands, fnOk sig d = true)
    (hd : ∀ d ∈ ds, ∀ x ∈ rdeclNames d, rktName x = true) (hvs : vc.sorted Γ sig = true) (hvv : ∀ x ∈ vc.vars, rktName x = true) {s : String}
    (hs : fileBody lang cands ds unbounded vc = some s) :
    ∃ lx cx v, lang.mapM fnForm = some lx ∧ cands.mapM fnForm = some cx ∧ rktSx vc = some v ∧
      readModule (String.ofList (fileHeader ++ s.toList)) = some (headerForms ++ (lx ++ (cx ++ (ds.map rdeclSx ++ endForms unbounded v)))) := by
  obtain ⟨lx, cx, v, hlx, hcx, hv, g⟩ := body_good hsig hl hc hd hvs hvv hs
  refine ⟨lx, cx, v, hlx, hcx, hv, ?_⟩
  obtain ⟨ls, hls⟩ := all_lists (xs := lx ++ (cx ++ (ds.map rdeclSx ++ endForms unbounded v))) (by
    intro x hx
    simp only [List.mem_append] at hx
    rcases hx with hx | hx | hx | hx
    · obtain ⟨_, _, h⟩ := mapM_forms hlx x hx
      exact fnForm_list h
    · obtain ⟨_, _, h⟩ := mapM_forms hcx x hx
      exact fnForm_list h
    · obtain ⟨d, _, rfl⟩ := List.mem_map.1 hx
      cases d <;> exact ⟨_, rfl⟩
    · simp only [endForms, List.mem_cons, List.not_mem_nil, or_false] at hx
      rcases hx with rfl | rfl | rfl <;> exact ⟨_, rfl⟩)
  rw [hls] at g ⊢
  obtain ⟨c1, c2⟩ := clean_paren g.clean
  have r1 : Smt.readChars (s.toList.map paren) = some (ls.map .list) := by
    rw [Smt.readChars, c1, c2]
    have := g.piece.read
    rwa [Smt.readScript, generateAst] at this
  have hn : '\n' ∈ fileHeader := by decide +kernel
  have := Smt.readChars_append header_read.2 header_read.1 r1
  rw [readModule, String.toList_ofList, afterLine_append hn, List.map_append, generateAst, String.toList_ofList]
  exact this

end Rkt
end Metalift
