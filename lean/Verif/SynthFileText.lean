import Verif.SynthFile
import Verif.RktSynth
import Verif.RosetteRun
import Verif.PGrammar
/-
The forms of the file written for Rosette for synthesis: what `readModule` makes of its text.
-/
namespace Metalift

/-- The sorts of a node of a sketch: the alternatives of a choose have its type. -/
def opSketch (sig : Sigs) (op : Op) (t : Ty) (ts : List Ty) : Bool :=
  match op with
  | .choose => ts.all fun t' => decide (t' = t)
  | op => opSorted sig op t ts

mutual
/-- An expression with chooses is of the right sorts. -/
def Expr.sketchSorted (Γ : String → Ty) (sig : Sigs) : Expr → Bool
  | .var n t => decide (t = Γ n)
  | .lit _ => true
  | .node op t args => Expr.sketchSorteds Γ sig args && opSketch sig op t (args.map Expr.ty)
def Expr.sketchSorteds (Γ : String → Ty) (sig : Sigs) : List Expr → Bool
  | [] => true
  | e :: es => e.sketchSorted Γ sig && Expr.sketchSorteds Γ sig es
end

theorem sketchSorteds_iff {Γ : String → Ty} {sig : Sigs} {es : List Expr} :
    Expr.sketchSorteds Γ sig es = true ↔ ∀ e ∈ es, e.sketchSorted Γ sig = true := by
  induction es with
  | nil => simp [Expr.sketchSorteds]
  | cons e es ih => simp [Expr.sketchSorteds, ih]

theorem opSketch_ne {sig : Sigs} {op : Op} {t : Ty} {ts : List Ty} (h : op ≠ .choose) : opSketch sig op t ts = opSorted sig op t ts := by
  cases op <;> first | rfl | exact absurd rfl h

theorem all2_map {α β γ δ : Type} {R : α → β → Prop} {S : γ → δ → Prop} {f : α → γ} {g : β → δ} {as : List α} {bs : List β} (h : All2 R as bs)
    (hf : ∀ a b, R a b → S (f a) (g b)) : All2 S (as.map f) (bs.map g) := by
  induction h with
  | nil => exact .nil
  | cons h _ ih => exact .cons (hf _ _ h) ih

theorem all2_mapIdx {α β γ δ : Type} {R : α → β → Prop} {S : γ → δ → Prop} {as : List α} {bs : List β} (h : All2 R as bs) :
    ∀ {f : Nat → α → γ} {g : Nat → β → δ}, (∀ i a b, R a b → S (f i a) (g i b)) → All2 S (as.mapIdx f) (bs.mapIdx g) := by
  induction h with
  | nil => intro _ _ _; exact .nil
  | cons h _ ih =>
    intro f g hf
    rw [List.mapIdx_cons, List.mapIdx_cons]
    exact .cons (hf _ _ _ h) (ih fun i a b => hf (i + 1) a b)

theorem mapM_all2 {α β : Type} {f : α → Option β} {l : List α} {ys : List β} : l.mapM f = some ys ↔ All2 (fun a y => f a = some y) l ys := by
  induction l generalizing ys with
  | nil =>
    simp only [List.mapM_nil, Option.pure_def, Option.some.injEq]
    exact ⟨fun h => h ▸ .nil, fun h => by cases h; rfl⟩
  | cons a l ih =>
    simp only [List.mapM_cons, Option.bind_eq_bind, Option.bind_eq_some_iff, Option.pure_def, Option.some.injEq]
    constructor
    · rintro ⟨y, hy, zs, hz, rfl⟩
      exact .cons hy (ih.1 hz)
    · intro h
      cases h with
      | cons hy hz => exact ⟨_, hy, _, ih.2 hz, rfl⟩

theorem all2_append_left {α β : Type} {R : α → β → Prop} {as as' : List α} {bs : List β} (h : All2 R (as ++ as') bs) :
    ∃ cs cs', bs = cs ++ cs' ∧ All2 R as cs ∧ All2 R as' cs' := by
  induction as generalizing bs with
  | nil => exact ⟨[], bs, rfl, .nil, h⟩
  | cons a as ih =>
    cases h with
    | cons h1 h2 =>
      obtain ⟨cs, cs', rfl, g1, g2⟩ := ih h2
      exact ⟨_ :: cs, cs', rfl, .cons h1 g1, g2⟩

namespace Rkt
open Smt (joinSp Piece piece_empty)

/-! ### Brackets -/

/-- The text with parentheses for brackets. -/
def roundText (s : String) : String := String.ofList (s.toList.map paren)

theorem round_append (s t : String) : roundText (s ++ t) = roundText s ++ roundText t := by
  simp [roundText, String.toList_append, String.ofList_append]

theorem round_clean {s : String} (h : cleanText s.toList = true) : roundText s = s := by
  rw [roundText, (clean_paren h).1, String.ofList_toList]

theorem round_lines (ss : List String) : roundText (joinLines ss) = joinLines (ss.map roundText) := by
  induction ss with
  | nil => decide
  | cons s ss ih =>
    cases ss with
    | nil => rfl
    | cons t ts =>
      rw [joinLines, round_append, round_append, ih, show roundText "\n" = "\n" from by decide]
      · rfl
      · simp

/-- A piece that is an atom of any characters other than delimiters. -/
theorem loose_atom {s : String} (h : s.toList.isEmpty = false) (h' : s.toList.all (fun c => !isDelim c) = true) (hc : cleanText s.toList = true) :
    GoodPiece s [.atom s] := by
  refine ⟨?_, hc⟩
  intro rest hr
  have hd : ∀ c ∈ s.toList, isDelim c = false := by
    intro c hc
    have := List.all_eq_true.1 h' c hc
    simpa using this
  rw [tokens_atom hd, tokens_flush hr, List.nil_append]
  simp only [flush, h, Bool.false_eq_true, if_false, SExpr.flats, SExpr.flat]
  simp

/-! ### Expressions -/

mutual
/-- The S-expression that the right-hand side of a production is printed as: the chooses are calls of non-terminals, of the index in `C`. -/
def holeSx (C : List Expr) : Expr → Option SExpr
  | .var n _ => some (.atom n)
  | .lit l => some (.atom (litText l))
  | .node op t args =>
    if op = .choose then (C.findIdx? fun c => (Expr.node op t args).pyEq c).map fun i => .list [.atom (smtNt i)]
    else do
      let h ← opHead op (args.head?.map Expr.ty)
      let xs ← holeSxs C args
      some (.list (.atom h :: xs))
def holeSxs (C : List Expr) : List Expr → Option (List SExpr)
  | [] => some []
  | e :: es => do
    let x ← holeSx C e
    let xs ← holeSxs C es
    some (x :: xs)
end

theorem holeSxs_iff {C : List Expr} {es : List Expr} {xs : List SExpr} : holeSxs C es = some xs ↔ All2 (fun e x => holeSx C e = some x) es xs := by
  rw [← mapM_all2]
  induction es generalizing xs with
  | nil => simp [holeSxs]
  | cons e es ih =>
    simp only [holeSxs, List.mapM_cons, Option.bind_eq_bind, Option.bind_eq_some_iff, Option.pure_def, Option.some.injEq, ih]

theorem rktSxs_iff {es : List Expr} {xs : List SExpr} : rktSxs es = some xs ↔ All2 (fun e x => rktSx e = some x) es xs := by
  rw [← mapM_all2]
  induction es generalizing xs with
  | nil => simp [rktSxs]
  | cons e es ih =>
    simp only [rktSxs, List.mapM_cons, Option.bind_eq_bind, Option.bind_eq_some_iff, Option.pure_def, Option.some.injEq, ih]

theorem rosetteTexts_iff {es : List Expr} {ss : List String} : rosetteTexts es = some ss ↔ All2 (fun e s => rosetteText e = some s) es ss := by
  rw [← mapM_all2]
  induction es generalizing ss with
  | nil => simp [rosetteTexts]
  | cons e es ih =>
    simp only [rosetteTexts, List.mapM_cons, Option.bind_eq_bind, Option.bind_eq_some_iff, Option.pure_def, Option.some.injEq, ih]

theorem replace_ty (nm : Nat → String) (C : List Expr) (e : Expr) : (replaceExprs nm C e).ty = e.ty := by
  cases e with
  | var n t => rw [replaceExprs]; split <;> rfl
  | lit l => rw [replaceExprs]; split <;> rfl
  | node op t args => rw [replaceExprs]; split <;> rfl

theorem nt_good (i : Nat) : Good (rosetteNt i) (.list [.atom (smtNt i)]) := by
  have hch : (smtNt i).toList.all nameChar = true := by
    rw [smtNt, String.toList_append, List.all_append, digits_nameChar]
    decide
  have hne : (smtNt i).toList.isEmpty = false := by simp [smtNt, String.toList_append]
  have := (good_atom (s := smtNt i) (by rw [goodAtom, chars_good hch, hne]; rfl) (chars_clean hch)).piece.paren
  have e : "(" ++ smtNt i ++ ")" = rosetteNt i := by
    rw [rosetteNt, smtNt, show "(v" = "(" ++ "v" from by decide]
    simp only [String.append_assoc, -String.reduceAppend]
  rwa [e] at this

theorem good_clean_all {as : List String} {xs : List SExpr} (h : All2 Good as xs) : ∀ a ∈ as, cleanText a.toList = true := by
  induction h with
  | nil => intro a ha; cases ha
  | cons h1 _ ih =>
    intro a ha
    rcases List.mem_cons.1 ha with rfl | ha
    · exact h1.clean
    · exact ih a ha

theorem sketch_sub {Γ : String → Ty} {sig : Sigs} {B e : Expr} (h : SubExpr e B) : B.sketchSorted Γ sig = true → e.sketchSorted Γ sig = true := by
  induction h with
  | refl => exact id
  | arg hm _ ih =>
    intro h
    simp only [Expr.sketchSorted, Bool.and_eq_true, sketchSorteds_iff] at h
    exact ih (h.1 _ hm)

theorem vars_sub {B e : Expr} (h : SubExpr e B) : ∀ x ∈ e.vars, x ∈ B.vars := by
  induction h with
  | refl => exact fun x hx => hx
  | arg hm _ ih =>
    intro x hx
    simp only [Expr.vars]
    exact Expr.mem_varss.2 ⟨_, hm, ih x hx⟩

section
variable {Γ : String → Ty} {sig : Sigs} (hsig : ∀ f ts t, sig f = some (ts, t) → headOk f = true) {B : Expr} (hB : NoClash B)
include hsig hB

theorem hole_good (e : Expr) : SubExpr e B → e.sketchSorted Γ sig = true → (∀ x ∈ e.vars, rktName x = true) →
    ∀ s, rosetteText (replaceExprs rosetteNt (commonExprs B) e) = some s → ∃ x, holeSx (commonExprs B) e = some x ∧ Good s x := by
  induction e using Expr.ind with
  | hv n t =>
    intro he _ hv s hs
    rw [replaceExprs, find_other hB he (by simp)] at hs
    cases hs
    exact ⟨_, rfl, good_name (hv n (by simp [Expr.vars]))⟩
  | hl l =>
    intro he _ _ s hs
    rw [replaceExprs, find_other hB he (by simp)] at hs
    cases hs
    exact ⟨_, rfl, good_atom (lit_good l) (lit_clean l)⟩
  | hn op t args ih =>
    intro he hsrt hv s hs
    by_cases ho : op = .choose
    · subst ho
      obtain ⟨i, h1, _⟩ := find_choose hB he
      rw [replaceExprs, h1] at hs
      cases hs
      exact ⟨_, by rw [holeSx, if_pos rfl, h1]; rfl, nt_good i⟩
    simp only [Expr.sketchSorted, Bool.and_eq_true, sketchSorteds_iff, opSketch_ne ho] at hsrt
    rw [replace_node hB he ho] at hs
    simp only [rosetteText, Option.bind_eq_bind, Option.bind_eq_some_iff, Option.some.injEq] at hs
    obtain ⟨h, hh, as, has, rfl⟩ := hs
    have hty : (args.map (replaceExprs rosetteNt (commonExprs B))).head?.map Expr.ty = args.head?.map Expr.ty := by
      cases args with
      | nil => rfl
      | cons a args => simp [replace_ty]
    rw [hty] at hh
    rw [rosetteTexts_iff, All2.map_left] at has
    have hargs : ∃ xs, holeSxs (commonExprs B) args = some xs ∧ All2 Good as xs := by
      simp only [holeSxs_iff]
      have key : ∀ {l : List Expr} {ss : List String}, (∀ a ∈ l, a ∈ args) →
          All2 (fun a s => rosetteText (replaceExprs rosetteNt (commonExprs B) a) = some s) l ss →
          ∃ xs, All2 (fun e x => holeSx (commonExprs B) e = some x) l xs ∧ All2 Good ss xs := by
        intro l ss hl h
        induction h with
        | nil => exact ⟨[], .nil, .nil⟩
        | @cons a s l ss h1 _ ih2 =>
          have ha := hl a (by simp)
          obtain ⟨x, hx, gx⟩ := ih a ha ((SubExpr.arg ha .refl).trans he) (hsrt.1 a ha)
            (fun x hx => hv x (by simp only [Expr.vars]; exact Expr.mem_varss.2 ⟨a, ha, hx⟩)) s h1
          obtain ⟨xs, hxs, gxs⟩ := ih2 (fun b hb => hl b (by simp [hb]))
          exact ⟨x :: xs, .cons hx hxs, .cons gx gxs⟩
      exact key (fun a ha => ha) has
    obtain ⟨xs, hxs, gxs⟩ := hargs
    have hok : headOk h = true := by
      refine head_ok (fun f hf => ?_) hh
      subst hf
      have := hsrt.2
      simp only [opSorted, decide_eq_true_eq] at this
      exact hsig _ _ _ this
    simp only [headOk, Bool.and_eq_true] at hok
    refine ⟨_, by simp [holeSx, ho, hh, hxs], denotes_node hok.1 (gxs.imp fun _ _ g => g.denotes) op, clean_node hok.2 (good_clean_all gxs)⟩

/-- The form of the alternatives of a choose. -/
def altSx (C : List Expr) : Expr → Option SExpr
  | .node _ _ args => (holeSxs C args).map fun xs => .list (.atom "choose" :: xs)
  | _ => none

/-- The text of the alternatives. -/
theorem alternatives_good (hs : B.sketchSorted Γ sig = true) (hv : ∀ x ∈ B.vars, rktName x = true) {c : Expr} (hc : c ∈ commonExprs B) {s : String}
    (ht : alternativesText (replaceExprsTop rosetteNt (commonExprs B) c) = some s) :
    ∃ x, altSx (commonExprs B) c = some x ∧ Good ("(choose " ++ s ++ ")") x := by
  obtain ⟨hsub, t, args, rfl⟩ := (mem_commonExprs hB).1 hc
  rw [replaceExprsTop, replaceExprss_eq, alternativesText] at ht
  obtain ⟨as, has, rfl⟩ := Option.map_eq_some_iff.1 ht
  rw [rosetteTexts_iff, All2.map_left] at has
  have key : ∀ {l : List Expr} {ss : List String}, (∀ a ∈ l, a ∈ args) →
      All2 (fun a s => rosetteText (replaceExprs rosetteNt (commonExprs B) a) = some s) l ss →
      ∃ xs, All2 (fun e x => holeSx (commonExprs B) e = some x) l xs ∧ All2 Good ss xs := by
    intro l ss hl h
    induction h with
    | nil => exact ⟨[], .nil, .nil⟩
    | @cons a s l ss h1 _ ih2 =>
      have ha : SubExpr a B := (SubExpr.arg (hl a (by simp)) .refl).trans hsub
      obtain ⟨x, hx, gx⟩ := hole_good hsig hB a ha (sketch_sub ha hs) (fun x hx => hv x (vars_sub ha x hx)) s h1
      obtain ⟨xs, hxs, gxs⟩ := ih2 (fun b hb => hl b (by simp [hb]))
      exact ⟨x :: xs, .cons hx hxs, .cons gx gxs⟩
  obtain ⟨xs, hxs, gxs⟩ := key (fun a ha => ha) has
  refine ⟨.list (.atom "choose" :: xs), by simp [altSx, holeSxs_iff.2 hxs], ?_⟩
  have := ((lit_atom "choose" (by decide +kernel)).sp (good_join gxs)).paren
  rw [show "(choose " = "(" ++ ("choose" ++ " ") from by decide +kernel]
  simpa only [String.append_assoc, List.singleton_append] using this
end

/-! ### Grammars -/

/-- The grammar that is printed for a function to be synthesized. -/
def grammarOf (s : SynthFn) : Option RGrammar := do
  let x ← holeSx (commonExprs s.body) s.body
  let rs ← (commonExprs s.body).mapM (altSx (commonExprs s.body))
  some ⟨s.name ++ "_gram", s.params.map fun p => .atom p.1, ("rv", .list [.atom "choose", x]) :: rs.mapIdx fun i y => (smtNt i, y)⟩

/-- The form of a grammar. -/
def gramSx (g : RGrammar) : SExpr :=
  .list (.atom "define-grammar" :: .list (.atom g.name :: g.params) :: g.rules.map fun r => .list [.atom r.1, r.2])

theorem read_gramSx (g : RGrammar) : readGrammar (gramSx g) = some g := by
  have : (g.rules.map fun r => (SExpr.list [.atom r.1, r.2])).mapM readRule = some g.rules := by
    rw [mapM_all2, All2.map_left]
    induction g.rules with
    | nil => exact .nil
    | cons r rs ih => exact .cons rfl ih
  simp [gramSx, readGrammar, this]

/-- What is required of a function to be synthesized: its sketch is of the right sorts, about its parameters, and printed without confusion; the
names are symbols and different. -/
structure SketchFn (sig : Sigs) (s : SynthFn) : Prop where
  hsort : s.body.sketchSorted (paramTypes s.params) sig = true
  hclash : NoClash s.body
  hvars : ∀ x ∈ s.body.vars, x ∈ s.params.map Prod.fst
  hname : rktName s.name = true ∧ userName s.name = true
  hparams : ∀ p ∈ s.params, rktName p.1 = true
  hnodup : (s.params.map Prod.fst).Nodup

theorem gram_name {n : String} (h : rktName n = true) : Good (n ++ "_gram") (.atom (n ++ "_gram")) := by
  have hch : (n ++ "_gram").toList.all nameChar = true := by
    rw [String.toList_append, List.all_append, rktName_chars h]
    decide
  have hne : (n ++ "_gram").toList.isEmpty = false := by simp [String.toList_append]
  exact good_atom (by rw [goodAtom, chars_good hch, hne]; rfl) (chars_clean hch)

theorem nt_atom (i : Nat) : GoodPiece (smtNt i) [.atom (smtNt i)] := by
  have hch : (smtNt i).toList.all nameChar = true := by
    rw [smtNt, String.toList_append, List.all_append, digits_nameChar]
    decide
  have hne : (smtNt i).toList.isEmpty = false := by simp [smtNt, String.toList_append]
  exact (good_atom (s := smtNt i) (by rw [goodAtom, chars_good hch, hne]; rfl) (chars_clean hch)).piece

theorem rule_good {i : Nat} {a : String} {x : SExpr} (h : Good ("(choose " ++ a ++ ")") x) :
    Good (roundText (ruleText i a)) (.list [.atom (smtNt i), x]) := by
  have hc := h.clean
  rw [String.toList_append, String.toList_append, clean_append, clean_append] at hc
  have := ((nt_atom i).sp h.piece).paren
  have e : roundText (ruleText i a) = "(" ++ (smtNt i ++ " " ++ ("(choose " ++ a ++ ")")) ++ ")" := by
    rw [ruleText, round_append, round_append, round_append, round_append, round_clean hc.1.2, round_clean (chars_clean (digits_nameChar i)),
      show roundText "[v" = "(" ++ "v" from by decide, show roundText " (choose " = " " ++ "(choose " from by decide +kernel,
      show roundText ")]" = ")" ++ ")" from by decide, smtNt]
    simp only [String.append_assoc]
  rw [e]
  exact this

theorem grammar_good {sig : Sigs} (hsig : ∀ f ts t, sig f = some (ts, t) → headOk f = true) {s : SynthFn} (hs : SketchFn sig s) {t : String}
    (ht : grammarText s = some t) : ∃ g, grammarOf s = some g ∧ Good (roundText t) (gramSx g) := by
  simp only [grammarText, Option.bind_eq_bind, Option.bind_eq_some_iff, Option.some.injEq, synthGrammar] at ht
  obtain ⟨st, hst, rs, hrs, rfl⟩ := ht
  have hnames : ∀ x ∈ s.body.vars, rktName x = true := by
    intro x hx
    obtain ⟨p, hp, rfl⟩ := List.mem_map.1 (hs.hvars x hx)
    exact hs.hparams p hp
  obtain ⟨x, hx, gx⟩ := hole_good hsig hs.hclash s.body .refl hs.hsort hnames st hst
  rw [mapM_all2, All2.map_left] at hrs
  have key : ∀ {l : List Expr} {ss : List String}, (∀ c ∈ l, c ∈ commonExprs s.body) →
      All2 (fun c t => alternativesText (replaceExprsTop rosetteNt (commonExprs s.body) c) = some t) l ss →
      ∃ ys, All2 (fun c y => altSx (commonExprs s.body) c = some y) l ys ∧ All2 (fun t y => Good ("(choose " ++ t ++ ")") y) ss ys := by
    intro l ss hl h
    induction h with
    | nil => exact ⟨[], .nil, .nil⟩
    | @cons c t l ss h1 _ ih2 =>
      obtain ⟨y, hy, gy⟩ := alternatives_good hsig hs.hclash hs.hsort hnames (hl c (by simp)) h1
      obtain ⟨ys, hys, gys⟩ := ih2 (fun b hb => hl b (by simp [hb]))
      exact ⟨y :: ys, .cons hy hys, .cons gy gys⟩
  obtain ⟨ys, hys, gys⟩ := key (fun c hc => hc) hrs
  refine ⟨_, by simp only [grammarOf, hx, mapM_all2.2 hys, Option.bind_eq_bind, Option.bind_some]; rfl, ?_⟩
  have hrules : All2 Good ((rs.mapIdx ruleText).map roundText) ((ys.mapIdx fun i y => (smtNt i, y)).map fun r => .list [.atom r.1, r.2]) := by
    have : All2 (fun r (q : String × SExpr) => Good (roundText r) (.list [.atom q.1, q.2])) (rs.mapIdx ruleText)
        (ys.mapIdx fun i y => (smtNt i, y)) := all2_mapIdx gys (fun i a b hab => rule_good hab)
    exact all2_map this (fun a b h => h)
  have hp : ∀ p ∈ s.params.map Prod.fst, rktName p = true := by
    intro p hp
    obtain ⟨q, hq, rfl⟩ := List.mem_map.1 hp
    exact hs.hparams q hq
  have gp := good_join (names_good hp)
  have b1 := ((gram_name hs.hname.1).piece.sp gp).paren
  have b2 := ((lit_atom "rv" (by decide +kernel)).sp (((lit_atom "choose" (by decide +kernel)).sp gx.piece).paren).piece).paren
  have b3 := (((lit_atom "define-grammar" (by decide +kernel)).sp b1.piece).nl ((good_empty.sp b2.piece).nl
    ((lines_good hrules).nl good_empty))).paren
  have e : roundText ("(define-grammar (" ++ s.name ++ "_gram " ++ joinSp (s.params.map Prod.fst) ++ ")\n " ++
      ("[rv (choose " ++ st ++ ")]\n" ++ joinLines (rs.mapIdx ruleText)) ++ "\n)") =
      "(" ++ ("define-grammar" ++ " " ++ ("(" ++ (s.name ++ "_gram" ++ " " ++ joinSp (s.params.map Prod.fst)) ++ ")") ++ "\n" ++
        ("" ++ " " ++ ("(" ++ ("rv" ++ " " ++ ("(" ++ ("choose" ++ " " ++ st) ++ ")")) ++ ")") ++ "\n" ++
        (joinLines ((rs.mapIdx ruleText).map roundText) ++ "\n" ++ ""))) ++ ")" := by
    simp only [round_append, round_lines, round_clean gp.clean, round_clean gx.clean, round_clean (rktName_clean hs.hname.1)]
    rw [show roundText "(define-grammar (" = "(" ++ ("define-grammar" ++ (" " ++ "(")) from by decide +kernel,
      show roundText "_gram " = "_gram" ++ " " from by decide +kernel, show roundText ")\n " = ")" ++ ("\n" ++ " ") from by decide +kernel,
      show roundText "[rv (choose " = "(" ++ ("rv" ++ (" " ++ ("(" ++ ("choose" ++ " ")))) from by decide +kernel,
      show roundText ")]\n" = ")" ++ (")" ++ "\n") from by decide +kernel, show roundText "\n)" = "\n" ++ ")" from by decide +kernel]
    simp only [String.append_assoc, String.empty_append, -String.reduceAppend]
  rw [e]
  rw [List.map_map] at b3
  simpa [gramSx, Function.comp_def] using b3

theorem grammars_good {sig : Sigs} (hsig : ∀ f ts t, sig f = some (ts, t) → headOk f = true) : ∀ {ss : List SynthFn} {l : String},
    (∀ s ∈ ss, SketchFn sig s) → grammarTexts ss = some l → ∃ gs, All2 (fun s g => grammarOf s = some g) ss gs ∧
      ∀ r ys, GoodPiece (roundText r) ys → GoodPiece (roundText (l ++ r)) (gs.map gramSx ++ ys)
  | [], l, _, h => by
    cases h
    exact ⟨[], .nil, fun r ys hr => by simpa using hr⟩
  | s :: ss, l, hs, h => by
    simp only [grammarTexts, Option.bind_eq_bind, Option.bind_eq_some_iff, Option.some.injEq] at h
    obtain ⟨t, ht, r, hr, rfl⟩ := h
    obtain ⟨g, hg, gg⟩ := grammar_good hsig (hs s (by simp)) ht
    obtain ⟨gs, hgs, ggs⟩ := grammars_good hsig (fun e he => hs e (by simp [he])) hr
    refine ⟨g :: gs, .cons hg hgs, fun r' ys hr' => ?_⟩
    have := (gg.piece.sp good_empty).nl (good_empty.nl (ggs r' ys hr'))
    have e : roundText (t ++ " \n\n" ++ r ++ r') = (roundText t ++ " " ++ "") ++ "\n" ++ ("" ++ "\n" ++ roundText (r ++ r')) := by
      rw [String.append_assoc, round_append, round_append, show roundText " \n\n" = " " ++ ("\n" ++ "\n") from by decide +kernel]
      simp only [String.append_assoc, String.empty_append, -String.reduceAppend]
    rw [e]
    simpa using this

/-! ### Holes -/

/-- The form of the definition of a function to be synthesized. -/
def holeForm (f : String) (ps : List String) : SExpr :=
  .list [.atom "define", .list (.atom f :: ps.map .atom), grammarCall (f ++ "_gram") (ps.map .atom) (.atom "10")]

theorem holes_good : ∀ {fs : List (String × List String)}, (∀ f ∈ fs, rktName f.1 = true ∧ ∀ p ∈ f.2, rktName p = true) →
      ∀ r ys, GoodPiece r ys → GoodPiece (invPsText fs ++ r) (fs.map (fun f => holeForm f.1 f.2) ++ ys)
  | [], _, r, ys, hr => by simpa [invPsText] using hr
  | (f, ps) :: fs, h, r, ys, hr => by
    obtain ⟨h1, h2⟩ := h (f, ps) (by simp)
    have ih := holes_good (fs := fs) (fun g hg => h g (by simp [hg])) r ys hr
    have gp := good_join (names_good h2)
    have b1 := ((good_name h1).piece.sp gp).paren
    have b2 := ((((gram_name h1).piece.sp gp).sp (lit_atom "#:depth" (by decide +kernel))).sp (lit_atom "10" (by decide +kernel))).paren
    have b3 := (((lit_atom "define" (by decide +kernel)).sp b1.piece).sp b2.piece).paren.piece.nl ih
    have e : invPsText ((f, ps) :: fs) ++ r = "(" ++ ("define" ++ " " ++ ("(" ++ (f ++ " " ++ joinSp ps) ++ ")") ++ " " ++
        ("(" ++ (f ++ "_gram" ++ " " ++ joinSp ps ++ " " ++ "#:depth" ++ " " ++ "10") ++ ")")) ++ ")" ++ "\n" ++ (invPsText fs ++ r) := by
      rw [invPsText, show "(define (" = "(" ++ ("define" ++ (" " ++ "(")) from by decide +kernel,
        show ") (" = ")" ++ (" " ++ "(") from by decide +kernel,
        show " #:depth 10))\n" = " " ++ ("#:depth" ++ (" " ++ ("10" ++ (")" ++ (")" ++ "\n"))))) from by decide +kernel]
      simp only [String.append_assoc, -String.reduceAppend]
    rw [e]
    have e2 : List.map (fun f => holeForm f.1 f.2) ((f, ps) :: fs) ++ ys = [holeForm f ps] ++ (List.map (fun f => holeForm f.1 f.2) fs ++ ys) := rfl
    rw [e2]
    simpa [holeForm, grammarCall] using b3

end Rkt
end Metalift
