import Verif.LoopsFile
import Verif.PRosette
/-
C69: reading the file with the loops gives the loops that LLVM printed.
-/
namespace Metalift
namespace Ll

/-! ### What LLVM prints

`LoopBase::print` and the printer of the analysis (llvm/Analysis/LoopInfoImpl.h, not in the repository; compare the `.loops` files below `benchmarks`).
Names of blocks are printed without quotes if they consist of letters, digits, `-`, `$`, `.` and `_`. -/

/-- A block in the list of a loop. -/
structure PBlock where
  name : String
  header : Bool := false
  latch : Bool := false
  exiting : Bool := false

/-- A loop: `depth` is the number of loops around it. -/
structure PLoop where
  depth : Nat
  parallel : Bool := false
  blocks : List PBlock

def PBlock.print (b : PBlock) : List Char :=
  '%' :: b.name.toList ++ ((if b.header then "<header>".toList else []) ++ ((if b.latch then "<latch>".toList else []) ++
    (if b.exiting then "<exiting>".toList else [])))

def printBlocks : List PBlock → List Char
  | [] => []
  | [b] => b.print
  | b :: c :: bs => b.print ++ ',' :: printBlocks (c :: bs)

def PLoop.print (L : PLoop) : List Char :=
  List.replicate (4 * L.depth) ' ' ++ ((if L.parallel then "Parallel ".toList else []) ++ ("Loop at depth ".toList ++ ((L.depth + 1).repr.toList ++
    (" containing: ".toList ++ (printBlocks L.blocks ++ ['\n'])))))

def printFn (f : String × List PLoop) : List Char := analysisOf ++ (f.1.toList ++ "':\n".toList) ++ f.2.flatMap PLoop.print

/-- The file for the functions of a module, each with its loops in the order in which they are printed (a loop comes before the loops in it). -/
def printFile (fs : List (String × List PLoop)) : List Char := fs.flatMap printFn

/-- The record for a loop: its header, the blocks that are not marked, the exiting blocks and the latches. -/
def PLoop.raw (L : PLoop) (h : String) : RawLoop where
  header := h
  body := (L.blocks.filter fun b => !b.header && !b.exiting && !b.latch).map PBlock.name
  exits := (L.blocks.filter PBlock.exiting).map PBlock.name
  latches := (L.blocks.filter PBlock.latch).map PBlock.name

/-- LLVM's rule for names without quotes. -/
def plainName (s : String) : Bool := !s.toList.isEmpty && s.toList.all fun c => c.isAlphanum || c = '-' || c = '$' || c = '.' || c = '_'

/-- Letters, digits and underscores, as in mangled names. -/
def wordName (s : String) : Bool := !s.toList.isEmpty && s.toList.all fun c => c.isAlphanum || c = '_'

/-- Names of functions without white space and quotes. -/
def fnNameOk (s : String) : Bool := !s.toList.isEmpty && s.toList.all fun c => !isSpaceChar c && c != '\''

/-! ### Lines -/

theorem readlines_line : ∀ {l rest : List Char}, '\n' ∉ l → readlines (l ++ '\n' :: rest) = (l ++ ['\n']) :: readlines rest
  | [], rest, _ => by simp [readlines]
  | c :: l, rest, h => by
    have hc : c ≠ '\n' := fun e => h (by simp [e])
    have ih := readlines_line (l := l) (rest := rest) (fun e => h (by simp [e]))
    rw [List.cons_append, readlines, if_neg hc, ih]
    rfl

theorem dropPre_append (p l : List Char) : dropPre p (p ++ l) = some l := by
  induction p with
  | nil => cases l <;> rfl
  | cons c p ih => rw [List.cons_append, dropPre, if_pos rfl, ih]

theorem plain_char {c : Char} (h : (c.isAlphanum || c = '-' || c = '$' || c = '.' || c = '_') = true) (d : Char)
    (hd : (d.isAlphanum || d = '-' || d = '$' || d = '.' || d = '_') = false) : c ≠ d := by
  rintro rfl
  rw [h] at hd
  cases hd

theorem print_chars {b : PBlock} (h : plainName b.name = true) : ∀ c ∈ b.print, c ≠ '\n' ∧ c ≠ ',' ∧ isSpaceChar c = false := by
  intro c hc
  simp only [plainName, Bool.and_eq_true, List.all_eq_true] at h
  simp only [PBlock.print, List.cons_append, List.mem_cons, List.mem_append] at hc
  rcases hc with rfl | hc | hc
  · decide
  · have := plain_char (h.2 c hc)
    refine ⟨this _ (by decide), this _ (by decide), ?_⟩
    simp only [isSpaceChar, Bool.or_eq_false_iff, decide_eq_false_iff_not]
    exact ⟨⟨⟨⟨⟨this _ (by decide), this _ (by decide)⟩, this _ (by decide)⟩, this _ (by decide)⟩, this _ (by decide)⟩, this _ (by decide)⟩
  · have key : ∀ c ∈ "<header>".toList ++ "<latch>".toList ++ "<exiting>".toList, c ≠ '\n' ∧ c ≠ ',' ∧ isSpaceChar c = false := by decide
    refine key c ?_
    simp only [List.mem_append]
    rcases hc with hc | hc | hc
    · split at hc
      · exact .inl (.inl hc)
      · cases hc
    · split at hc
      · exact .inl (.inr hc)
      · cases hc
    · split at hc
      · exact .inr hc
      · cases hc

theorem blocks_chars : ∀ {bs : List PBlock}, (∀ b ∈ bs, plainName b.name = true) → ∀ c ∈ printBlocks bs, c ≠ '\n' ∧ isSpaceChar c = false
  | [], _ => by simp [printBlocks]
  | [b], h => fun c hc => let h := print_chars (h b (by simp)) c hc; ⟨h.1, h.2.2⟩
  | b :: d :: bs, h => by
    intro c hc
    rw [printBlocks, List.mem_append, List.mem_cons] at hc
    rcases hc with hc | rfl | hc
    · let h := print_chars (h b (by simp)) c hc
      exact ⟨h.1, h.2.2⟩
    · decide
    · exact blocks_chars (fun b hb => h b (by simp [hb])) c hc

theorem blocks_ne {bs : List PBlock} (h : bs ≠ []) : ∃ c cs, printBlocks bs = c :: cs := by
  match bs, h with
  | [b], _ => exact ⟨_, _, rfl⟩
  | b :: d :: bs, _ => exact ⟨_, _, rfl⟩

/-! ### The line of a loop -/

/-- A loop as LLVM prints them, with plain names: there is one header. -/
structure PLoop.Ok (L : PLoop) : Prop where
  plain : ∀ b ∈ L.blocks, plainName b.name = true
  header : ∃ h, (L.blocks.filter PBlock.header).map PBlock.name = [h]

theorem PLoop.Ok.ne {L : PLoop} (h : L.Ok) : L.blocks ≠ [] := by
  obtain ⟨n, hn⟩ := h.header
  intro e
  rw [e] at hn
  cases hn

theorem loop_newline {L : PLoop} (h : L.Ok) : ∃ l, L.print = l ++ ['\n'] ∧ '\n' ∉ l := by
  refine ⟨List.replicate (4 * L.depth) ' ' ++ ((if L.parallel then "Parallel ".toList else []) ++ ("Loop at depth ".toList ++ ((L.depth + 1).repr.toList ++
    (" containing: ".toList ++ printBlocks L.blocks)))), by simp only [PLoop.print, List.append_assoc], ?_⟩
  simp only [List.mem_append, not_or]
  refine ⟨?_, ?_, by decide, ?_, by decide, fun hc => (blocks_chars h.plain _ hc).1 rfl⟩
  · rw [List.mem_replicate]
    exact fun h => absurd h.2 (by decide)
  · split <;> decide
  · intro hc
    exact absurd (repr_digits _ _ hc) (by decide)

theorem dropWhile_spaces (n : Nat) (l : List Char) : (List.replicate n ' ' ++ l).dropWhile isSpaceChar = l.dropWhile isSpaceChar := by
  induction n with
  | zero => rfl
  | succ n ih => simpa [List.replicate_succ, isSpaceChar] using ih

theorem strip_loop {L : PLoop} (h : L.Ok) (hp : L.parallel = false) :
    stripL L.print = "Loop at depth ".toList ++ ((L.depth + 1).repr.toList ++ (" containing: ".toList ++ printBlocks L.blocks)) := by
  have hb := blocks_chars h.plain
  obtain ⟨c, cs, hcs⟩ := blocks_ne h.ne
  have hne : (printBlocks L.blocks).reverse ≠ [] := by simp [hcs]
  unfold stripL
  rw [PLoop.print, hp, dropWhile_spaces]
  have e1 : ∀ r : List Char, (("Loop at depth ".toList ++ r).dropWhile isSpaceChar) = "Loop at depth ".toList ++ r := fun r => rfl
  simp only [Bool.false_eq_true, if_false, List.nil_append]
  rw [e1]
  have e2 : ("Loop at depth ".toList ++ ((L.depth + 1).repr.toList ++ (" containing: ".toList ++ (printBlocks L.blocks ++ ['\n'])))).reverse =
      '\n' :: ((printBlocks L.blocks).reverse ++ ("Loop at depth ".toList ++ ((L.depth + 1).repr.toList ++ " containing: ".toList)).reverse) := by
    simp only [List.reverse_append, List.append_assoc, List.reverse_cons, List.reverse_nil, List.nil_append, List.cons_append]
  rw [e2]
  obtain ⟨d, ds, hd⟩ := List.exists_cons_of_ne_nil hne
  have hd' : isSpaceChar d = false := (hb d (by rw [← List.mem_reverse, hd]; simp)).2
  rw [hd, List.cons_append, List.dropWhile_cons, if_pos (by decide), List.dropWhile_cons, hd']
  simp only [Bool.false_eq_true, if_false]
  rw [← List.cons_append, ← hd]
  simp only [List.reverse_append, List.reverse_reverse, List.append_assoc]

theorem takeWhile_all {p : Char → Bool} {l r : List Char} (h : ∀ c ∈ l, p c = true) (hr : ∀ c ∈ r.head?, p c = false) : (l ++ r).takeWhile p = l ∧
    (l ++ r).dropWhile p = r := by
  induction l with
  | nil =>
    cases r with
    | nil => exact ⟨rfl, rfl⟩
    | cons c r => simp [hr c rfl]
  | cons c l ih =>
    have := ih fun c hc => h c (by simp [hc])
    simp [h c (by simp), this]

theorem loopLine_print {L : PLoop} (h : L.Ok) (hp : L.parallel = false) : loopLine (stripL L.print) = some (printBlocks L.blocks) := by
  rw [strip_loop h hp, loopLine, dropPre_append]
  obtain ⟨t1, t2⟩ := takeWhile_all (p := Char.isDigit) (l := (L.depth + 1).repr.toList) (r := " containing: ".toList ++ printBlocks L.blocks)
    (repr_digits _) (by intro c hc; cases hc; rfl)
  simp only [Option.bind_eq_bind, Option.bind_some, t1, t2, dropPre_append]
  have hne : ((L.depth + 1).repr.toList).isEmpty = false := by
    rw [List.isEmpty_eq_false_iff]
    exact repr_ne_nil _
  rw [hne]
  obtain ⟨t3, _⟩ := takeWhile_all (p := fun c => !isSpaceChar c) (l := printBlocks L.blocks) (r := []) (fun c hc => by
    simp [(blocks_chars h.plain c hc).2]) (by simp)
  rw [List.append_nil] at t3
  have hne2 : (printBlocks L.blocks).isEmpty = false := by
    obtain ⟨c, cs, hcs⟩ := blocks_ne h.ne
    rw [hcs]
    rfl
  simp only [Bool.false_eq_true, if_false, t3, hne2]

/-! ### The lines of the file -/

theorem dropPre_iff {p l r : List Char} : dropPre p l = some r ↔ l = p ++ r := by
  constructor
  · intro h
    induction p generalizing l with
    | nil => cases l <;> (simp only [dropPre, Option.some.injEq] at h; exact h)
    | cons c p ih =>
      cases l with
      | nil => cases h
      | cons d l =>
        rw [dropPre] at h
        split at h
        · rename_i e
          subst e
          rw [ih h]
          rfl
        · cases h
  · rintro rfl
    exact dropPre_append p r

theorem matchName_word {p : List Char} (h : ∀ c ∈ p, c ≠ '.' ∧ c ≠ '$') (l : List Char) : matchName p l = dropPre p l := by
  induction p generalizing l with
  | nil => cases l <;> rfl
  | cons c p ih =>
    cases l with
    | nil => rfl
    | cons d l =>
      have hc := h c (by simp)
      rw [matchName, dropPre, ih fun c hc => h c (by simp [hc])]
      simp [hc.1, hc.2]

def fnLine (n : String) : List Char := analysisOf ++ (n.toList ++ "':\n".toList)

theorem word_chars {n : String} (h : wordName n = true) : ∀ c ∈ n.toList, c ≠ '.' ∧ c ≠ '$' ∧ c ≠ '\'' := by
  simp only [wordName, Bool.and_eq_true, List.all_eq_true] at h
  intro c hc
  have := h.2 c hc
  refine ⟨?_, ?_, ?_⟩ <;> (rintro rfl; exact absurd this (by decide))

theorem quote_split {a b r t : List Char} (ha : '\'' ∉ a) (hb : '\'' ∉ b) (h : a ++ '\'' :: r = b ++ '\'' :: t) : a = b := by
  induction a generalizing b with
  | nil =>
    cases b with
    | nil => rfl
    | cons d b =>
      simp only [List.nil_append, List.cons_append, List.cons.injEq] at h
      exact absurd (by rw [h.1]; simp) hb
  | cons c a ih =>
    cases b with
    | nil =>
      simp only [List.nil_append, List.cons_append, List.cons.injEq] at h
      exact absurd (by rw [← h.1]; simp) ha
    | cons d b =>
      simp only [List.cons_append, List.cons.injEq] at h
      rw [h.1, ih (fun hm => ha (by simp [hm])) (fun hm => hb (by simp [hm])) h.2]

theorem isFnLine_fnLine {name n : String} (h : wordName name = true) (hn : fnNameOk n = true) : isFnLine name (fnLine n) = decide (n = name) := by
  have hw := word_chars h
  have hq : '\'' ∉ n.toList := by
    simp only [fnNameOk, Bool.and_eq_true, List.all_eq_true] at hn
    intro hc
    exact absurd (hn.2 _ hc) (by decide)
  unfold isFnLine fnLine
  rw [dropPre_append, Option.bind_some, matchName_word fun c hc => ⟨(hw c hc).1, (hw c hc).2.1⟩]
  by_cases e : n = name
  · subst e
    rw [dropPre_append]
    simp only [decide_true]
    rfl
  · rw [decide_eq_false e, Option.isSome_eq_false_iff, Option.isNone_iff_eq_none]
    cases hr : (dropPre name.toList (n.toList ++ "':\n".toList)).bind (dropPre "':".toList) with
    | none => rfl
    | some r =>
    exfalso
    rw [Option.bind_eq_some_iff] at hr
    obtain ⟨q, h1, h2⟩ := hr
    rw [dropPre_iff] at h1 h2
    subst h2
    have : n.toList = name.toList := quote_split (r := ":\n".toList) (t := ':' :: r) hq (fun hc => (hw _ hc).2.2 rfl) h1
    exact e (String.toList_inj.1 this)

theorem isFnLine_loop {name : String} {L : PLoop} : isFnLine name L.print = false := by
  have : dropPre analysisOf L.print = none := by
    unfold PLoop.print
    cases L.depth with
    | zero => cases L.parallel <;> rfl
    | succ d =>
      rw [show 4 * (d + 1) = (4 * d + 3) + 1 from by omega, List.replicate_succ]
      rfl
  unfold isFnLine
  rw [this]
  rfl

theorem stripL_prefix (c : Char) (l : List Char) (h : isSpaceChar c = false) : stripL (c :: l) <+: c :: l := by
  unfold stripL
  rw [List.dropWhile_cons, h]
  simp only [Bool.false_eq_true, if_false]
  conv => rhs; rw [← List.reverse_reverse (c :: l)]
  exact List.reverse_prefix.2 (List.dropWhile_suffix _)

theorem loopLine_fnLine (n : String) : loopLine (stripL (fnLine n)) = none := by
  obtain ⟨t, ht⟩ : ∃ t, fnLine n = 'P' :: t := ⟨_, rfl⟩
  rw [ht]
  have hp := stripL_prefix 'P' t (by decide)
  cases hs : stripL ('P' :: t) with
  | nil => rfl
  | cons d r =>
    rw [hs] at hp
    obtain ⟨u, hu⟩ := hp
    rw [List.cons_append, List.cons.injEq] at hu
    rw [hu.1]
    rfl

theorem isAnyFnLine_fnLine {n : String} (hn : fnNameOk n = true) : isAnyFnLine (fnLine n) = true := by
  unfold isAnyFnLine fnLine
  rw [dropPre_append, Option.map_some, Option.getD_some]
  simp only [fnNameOk, Bool.and_eq_true, List.all_eq_true, Bool.not_eq_true', List.isEmpty_eq_false_iff] at hn
  obtain ⟨h1, h2⟩ := hn
  generalize n.toList = l at h1 h2
  induction l with
  | nil => exact absurd rfl h1
  | cons c l ih =>
    rw [List.cons_append, endsName, (h2 c (by simp)).1]
    cases l with
    | nil => rfl
    | cons d l =>
      rw [ih (by simp) fun c hc => h2 c (by simp [hc])]
      simp

/-- The lines for a function. -/
def fnLines (f : String × List PLoop) : List (List Char) := fnLine f.1 :: f.2.map PLoop.print

/-- A function as LLVM prints it. -/
structure FnOk (f : String × List PLoop) : Prop where
  name : fnNameOk f.1 = true
  loops : ∀ L ∈ f.2, L.Ok

theorem readlines_loops {Ls : List PLoop} (h : ∀ L ∈ Ls, L.Ok) (rest : List Char) : readlines (Ls.flatMap PLoop.print ++ rest) = Ls.map PLoop.print ++ readlines rest := by
  induction Ls with
  | nil => rfl
  | cons L Ls ih =>
    obtain ⟨l, e, hl⟩ := loop_newline (h L (by simp))
    rw [List.flatMap_cons, List.map_cons, e, List.append_assoc, List.append_assoc, List.singleton_append, readlines_line hl,
      ih fun L hL => h L (by simp [hL])]
    rfl

theorem readlines_file {fs : List (String × List PLoop)} (h : ∀ f ∈ fs, FnOk f) : readlines (printFile fs) = fs.flatMap fnLines := by
  unfold printFile
  induction fs with
  | nil => rfl
  | cons f fs ih =>
    have hf := h f (by simp)
    have hl : '\n' ∉ analysisOf ++ (f.1.toList ++ "':".toList) := by
      simp only [List.mem_append, not_or]
      refine ⟨by decide, fun hc => ?_, by decide⟩
      have := hf.name
      simp only [fnNameOk, Bool.and_eq_true, List.all_eq_true] at this
      exact absurd (this.2 _ hc) (by decide)
    have e : printFn f ++ fs.flatMap printFn = (analysisOf ++ (f.1.toList ++ "':".toList)) ++ '\n' :: (f.2.flatMap PLoop.print ++ fs.flatMap printFn) := by
      simp only [printFn, List.append_assoc]
      rfl
    rw [List.flatMap_cons, e, readlines_line hl, readlines_loops hf.loops, ih fun f hf => h f (by simp [hf]), List.flatMap_cons, fnLines, fnLine]
    simp only [List.append_assoc, List.cons_append]
    rfl

theorem found_skip {name : String} (Ls : List PLoop) (rest : List (List Char)) :
    foundLines name false (Ls.map PLoop.print ++ rest) = foundLines name false rest := by
  induction Ls with
  | nil => rfl
  | cons L Ls ih =>
    rw [List.map_cons, List.cons_append, foundLines, isFnLine_loop]
    simpa using ih

theorem found_take {name : String} {Ls : List PLoop} (h : ∀ L ∈ Ls, L.Ok) (hp : ∀ L ∈ Ls, L.parallel = false) (rest : List (List Char)) :
    foundLines name true (Ls.map PLoop.print ++ rest) = Ls.map (fun L => printBlocks L.blocks) ++ foundLines name true rest := by
  induction Ls with
  | nil => rfl
  | cons L Ls ih =>
    rw [List.map_cons, List.cons_append, foundLines, isFnLine_loop, loopLine_print (h L (by simp)) (hp L (by simp)),
      ih (fun L hL => h L (by simp [hL])) fun L hL => hp L (by simp [hL])]
    rfl

theorem found_other {name : String} (hname : wordName name = true) {fs : List (String × List PLoop)} (h : ∀ f ∈ fs, FnOk f) (hn : ∀ f ∈ fs, f.1 ≠ name)
    (rest : List (List Char)) : foundLines name false (fs.flatMap fnLines ++ rest) = foundLines name false rest := by
  induction fs with
  | nil => rfl
  | cons f fs ih =>
    rw [List.flatMap_cons, fnLines, List.append_assoc, List.cons_append, foundLines, isFnLine_fnLine hname (h f (by simp)).name,
      decide_eq_false (hn f (by simp))]
    simp only [Bool.false_eq_true, if_false]
    rw [found_skip, ih (fun f hf => h f (by simp [hf])) fun f hf => hn f (by simp [hf])]

theorem found_file {name : String} (hname : wordName name = true) {pre post : List (String × List PLoop)} {Ls : List PLoop}
    (h : ∀ f ∈ pre ++ (name, Ls) :: post, FnOk f) (hn : ∀ f ∈ pre ++ post, f.1 ≠ name) (hp : ∀ L ∈ Ls, L.parallel = false) :
    foundLines name false ((pre ++ (name, Ls) :: post).flatMap fnLines) = Ls.map fun L => printBlocks L.blocks := by
  have hf := h (name, Ls) (by simp)
  rw [List.flatMap_append, found_other hname (fun f hf => h f (by simp [hf])) (fun f hf => hn f (by simp [hf])), List.flatMap_cons, fnLines, List.cons_append,
    foundLines, isFnLine_fnLine hname hf.name]
  simp only [decide_true, if_true]
  rw [found_take hf.loops hp]
  have : foundLines name true (post.flatMap fnLines) = [] := by
    cases post with
    | nil => rfl
    | cons g gs =>
      have hg := h g (by simp)
      rw [List.flatMap_cons, fnLines, List.cons_append, foundLines, isFnLine_fnLine hname hg.name, decide_eq_false (hn g (by simp)), loopLine_fnLine,
        isAnyFnLine_fnLine hg.name]
      simp only [Bool.false_eq_true, if_false, if_true]
      have := found_other hname (fs := gs) (fun f hf => h f (by simp [hf])) (fun f hf => hn f (by simp [hf])) []
      rw [List.append_nil] at this
      rw [found_skip, this]
      rfl
  rw [this, List.append_nil]

/-! ### The blocks of a loop -/

/-- What is left of a block without the percent sign. -/
def PBlock.tag (b : PBlock) : List Char :=
  (if b.header then "<header>".toList else []) ++ ((if b.latch then "<latch>".toList else []) ++ (if b.exiting then "<exiting>".toList else []))

theorem bare_print {b : PBlock} (h : plainName b.name = true) : b.print.filter (· ≠ '%') = b.name.toList ++ b.tag := by
  have h1 : b.name.toList.filter (fun c => decide (c ≠ '%')) = b.name.toList := by
    simp only [plainName, Bool.and_eq_true, List.all_eq_true] at h
    exact List.filter_eq_self.2 fun c hc => decide_eq_true (plain_char (h.2 c hc) _ (by decide))
  have h2 : b.tag.filter (fun c => decide (c ≠ '%')) = b.tag := by
    unfold PBlock.tag
    cases b.header <;> cases b.latch <;> cases b.exiting <;> rfl
  rw [PBlock.print, List.cons_append, List.filter_cons, if_neg (by simp), List.filter_append, h1]
  exact congrArg _ h2

theorem splitComma_none {l : List Char} (h : ',' ∉ l) : splitComma l = [l] := by
  induction l with
  | nil => rfl
  | cons c l ih =>
    rw [splitComma, if_neg fun e => h (by simp [e]), ih fun hm => h (by simp [hm])]

theorem splitComma_cons {l r : List Char} (h : ',' ∉ l) : splitComma (l ++ ',' :: r) = l :: splitComma r := by
  induction l with
  | nil => simp [splitComma]
  | cons c l ih =>
    rw [List.cons_append, splitComma, if_neg fun e => h (by simp [e]), ih fun hm => h (by simp [hm])]

theorem split_blocks : ∀ {bs : List PBlock}, bs ≠ [] → (∀ b ∈ bs, plainName b.name = true) →
    splitComma ((printBlocks bs).filter (· ≠ '%')) = bs.map fun b => b.name.toList ++ b.tag
  | [], h, _ => absurd rfl h
  | [b], _, h => by
    rw [printBlocks, bare_print (h b (by simp))]
    refine splitComma_none fun hm => ?_
    rw [← bare_print (h b (by simp)), List.mem_filter] at hm
    exact (print_chars (h b (by simp)) _ hm.1).2.1 rfl
  | b :: c :: bs, _, h => by
    rw [printBlocks, List.filter_append, bare_print (h b (by simp)), List.filter_cons, if_pos (by decide), splitComma_cons fun hm => ?_,
      split_blocks (by simp) fun b hb => h b (by simp [hb])]
    · rfl
    · rw [← bare_print (h b (by simp)), List.mem_filter] at hm
      exact (print_chars (h b (by simp)) _ hm.1).2.1 rfl

theorem plain_angle {n : String} (h : plainName n = true) : '<' ∉ n.toList := by
  simp only [plainName, Bool.and_eq_true, List.all_eq_true] at h
  exact fun hc => plain_char (h.2 _ hc) '<' (by decide) rfl

theorem blockName_print {b : PBlock} (h : plainName b.name = true) : blockName (b.name.toList ++ b.tag) = some b.name := by
  have ha := plain_angle h
  obtain ⟨c, cs, e⟩ : ∃ c cs, b.name.toList = c :: cs := by
    simp only [plainName, Bool.and_eq_true, Bool.not_eq_true', List.isEmpty_eq_false_iff] at h
    exact List.exists_cons_of_ne_nil h.1
  have e1 : (b.name.toList ++ b.tag).dropWhile (· = '<') = b.name.toList ++ b.tag := by
    rw [e, List.cons_append, List.dropWhile_cons, if_neg]
    intro hc
    exact ha (by rw [e, ← of_decide_eq_true hc]; simp)
  have e2 : (b.name.toList ++ b.tag).takeWhile (fun c => decide (c ≠ '<')) = b.name.toList := by
    refine (takeWhile_all (fun c hc => by have : c ≠ '<' := fun e => ha (by rw [← e]; exact hc); simpa using this) ?_).1
    unfold PBlock.tag
    cases b.header <;> cases b.latch <;> cases b.exiting <;> (intro c hc; cases hc <;> rfl)
  unfold blockName
  simp only [e1]
  rw [e2]
  have : b.name.toList.isEmpty = false := by rw [e]; rfl
  simp only [this, Bool.false_eq_true, if_false, String.ofList_toList]

theorem hasSubL_angle {q n t : List Char} (h : '<' ∉ n) : hasSubL ('<' :: q) (n ++ t) = hasSubL ('<' :: q) t := by
  induction n with
  | nil => rfl
  | cons c n ih =>
    have hc : ('<' == c) = false := beq_false_of_ne fun e => h (by rw [e]; simp)
    rw [List.cons_append, hasSubL, ih fun hm => h (by simp [hm]), List.isPrefixOf, hc]
    rfl

theorem hasSubL_append_right {p n t : List Char} (h : hasSubL p t = true) : hasSubL p (n ++ t) = true := by
  induction n with
  | nil => exact h
  | cons c n ih => rw [List.cons_append, hasSubL, ih, Bool.or_true]

/-- A name of a block that is not marked does not contain `latch`. -/
def NoLatch (b : PBlock) : Prop := b.header = false → b.latch = false → b.exiting = false → hasSub "latch" b.name = false

theorem marks {b : PBlock} (h : plainName b.name = true) :
    hasSubL "<header>".toList (b.name.toList ++ b.tag) = b.header ∧ hasSubL "<exiting>".toList (b.name.toList ++ b.tag) = b.exiting ∧
      hasSubL "<latch>".toList (b.name.toList ++ b.tag) = b.latch := by
  have ha := plain_angle h
  refine ⟨(hasSubL_angle (q := "header>".toList) ha).trans ?_, (hasSubL_angle (q := "exiting>".toList) ha).trans ?_, (hasSubL_angle (q := "latch>".toList) ha).trans ?_⟩ <;>
    (unfold PBlock.tag; cases b.header <;> cases b.latch <;> cases b.exiting <;> rfl)

theorem body_mark {b : PBlock} (h : plainName b.name = true) (hl : NoLatch b) :
    (!hasSubL "<header>".toList (b.name.toList ++ b.tag) && !hasSubL "<exiting>".toList (b.name.toList ++ b.tag) &&
      !hasSubL "latch".toList (b.name.toList ++ b.tag)) = (!b.header && !b.exiting && !b.latch) := by
  obtain ⟨h1, h2, _⟩ := marks h
  rw [h1, h2]
  cases hh : b.header with
  | true => rfl
  | false =>
    cases he : b.exiting with
    | true => rfl
    | false =>
      cases hc : b.latch with
      | true =>
        rw [hasSubL_append_right]
        rw [PBlock.tag, hh, he, hc]
        rfl
      | false =>
        have := hl hh hc he
        rw [PBlock.tag, hh, he, hc]
        simp only [Bool.false_eq_true, if_false, List.append_nil]
        rw [show hasSubL "latch".toList b.name.toList = false from this]

theorem mapM_some_map {α β : Type} {f : α → Option β} {g : α → β} {l : List α} (h : ∀ a ∈ l, f a = some (g a)) : l.mapM f = some (l.map g) := by
  induction l with
  | nil => rfl
  | cons a l ih =>
    rw [List.mapM_cons, h a (by simp), ih fun a ha => h a (by simp [ha])]
    rfl

theorem parse_print {L : PLoop} (h : L.Ok) (hl : ∀ b ∈ L.blocks, NoLatch b) {n : String} (hn : (L.blocks.filter PBlock.header).map PBlock.name = [n]) :
    parseLoop (printBlocks L.blocks) = some (L.raw n) := by
  unfold parseLoop
  rw [split_blocks h.ne h.plain]
  have e : (L.blocks.map fun b => b.name.toList ++ b.tag).mapM (fun b => (blockName b).map fun n => (b, n)) =
      some (L.blocks.map fun b => (b.name.toList ++ b.tag, b.name)) := by
    rw [List.mapM_map]
    refine mapM_some_map fun b hb => ?_
    simp only [Function.comp, blockName_print (h.plain b hb), Option.map_some]
  have pick : ∀ (p : List Char → Bool) (q : PBlock → Bool), (∀ b ∈ L.blocks, p (b.name.toList ++ b.tag) = q b) →
      ((L.blocks.map fun b => (b.name.toList ++ b.tag, b.name)).filter fun x => p x.1).map Prod.snd = (L.blocks.filter q).map PBlock.name := by
    intro p q hpq
    rw [List.filter_map, List.map_map]
    have : L.blocks.filter ((fun x : List Char × String => p x.1) ∘ fun b => (b.name.toList ++ b.tag, b.name)) = L.blocks.filter q :=
      List.filter_congr fun b hb => hpq b hb
    rw [this]
    rfl
  simp only [e, Option.bind_eq_bind, Option.bind_some]
  rw [pick _ PBlock.header fun b hb => (marks (h.plain b hb)).1, hn]
  simp only [Option.some.injEq]
  rw [pick _ PBlock.exiting fun b hb => (marks (h.plain b hb)).2.1, pick _ PBlock.latch fun b hb => (marks (h.plain b hb)).2.2,
    pick (fun b => !hasSubL "<header>".toList b && !hasSubL "<exiting>".toList b && !hasSubL "latch".toList b) (fun b => !b.header && !b.exiting && !b.latch)
      fun b hb => body_mark (h.plain b hb) (hl b hb)]
  rfl

/-! ### C69 -/

/-- The records for loops, each with the name of its header. -/
def Read (Ls : List PLoop) (rs : List RawLoop) : Prop :=
  All2 (fun L r => ∃ n, (L.blocks.filter PBlock.header).map PBlock.name = [n] ∧ r = L.raw n) Ls rs

theorem mapM_loops {Ls : List PLoop} (h : ∀ L ∈ Ls, L.Ok) (hl : ∀ L ∈ Ls, ∀ b ∈ L.blocks, NoLatch b) :
    ∃ rs, (Ls.map fun L => printBlocks L.blocks).mapM parseLoop = some rs ∧ Read Ls rs := by
  induction Ls with
  | nil => exact ⟨[], rfl, .nil⟩
  | cons L Ls ih =>
    obtain ⟨rs, e, hr⟩ := ih (fun L hL => h L (by simp [hL])) fun L hL => hl L (by simp [hL])
    obtain ⟨n, hn⟩ := (h L (by simp)).header
    refine ⟨L.raw n :: rs, ?_, .cons ⟨n, hn, rfl⟩ hr⟩
    rw [List.map_cons, List.mapM_cons, parse_print (h L (by simp)) (hl L (by simp)) hn, e]
    rfl

/-- **C69**, partial: for a function whose name consists of letters, digits and underscores, `parse_loops` gives one record for each of its loops, in their
order, with its header, its unmarked blocks, its exiting blocks and its latches; the loops of other functions are left out.  Guards: no loop is printed as
parallel, and no unmarked block has `latch` in its name. -/
theorem C69_loops_partial {name : String} (hname : wordName name = true) {pre post : List (String × List PLoop)} {Ls : List PLoop}
    (h : ∀ f ∈ pre ++ (name, Ls) :: post, FnOk f) (hn : ∀ f ∈ pre ++ post, f.1 ≠ name) (hp : ∀ L ∈ Ls, L.parallel = false)
    (hl : ∀ L ∈ Ls, ∀ b ∈ L.blocks, NoLatch b) :
    ∃ rs, parseLoops (printFile (pre ++ (name, Ls) :: post)) name = some rs ∧ Read Ls rs := by
  unfold parseLoops
  rw [readlines_file h, found_file hname h hn hp]
  exact mapM_loops (h (name, Ls) (by simp)).loops hl

theorem raw_blocks {L : PLoop} {n : String} (hn : (L.blocks.filter PBlock.header).map PBlock.name = [n]) (b : String) :
    b ∈ L.blocks.map PBlock.name ↔ b = (L.raw n).header ∨ b ∈ (L.raw n).body ∨ b ∈ (L.raw n).exits ∨ b ∈ (L.raw n).latches := by
  have hh : b = n ↔ ∃ x ∈ L.blocks, x.header = true ∧ x.name = b := by
    have : b ∈ (L.blocks.filter PBlock.header).map PBlock.name ↔ b = n := by rw [hn]; simp
    rw [← this]
    simp only [List.mem_map, List.mem_filter, and_assoc]
  simp only [PLoop.raw, List.mem_map, List.mem_filter, Bool.and_eq_true, Bool.not_eq_true', hh]
  constructor
  · rintro ⟨x, hx, rfl⟩
    cases e1 : x.header with
    | true => exact .inl ⟨x, hx, e1, rfl⟩
    | false =>
      cases e2 : x.exiting with
      | true => exact .inr (.inr (.inl ⟨x, ⟨hx, e2⟩, rfl⟩))
      | false =>
        cases e3 : x.latch with
        | true => exact .inr (.inr (.inr ⟨x, ⟨hx, e3⟩, rfl⟩))
        | false => exact .inr (.inl ⟨x, ⟨hx, ⟨e1, e2⟩, e3⟩, rfl⟩)
  · rintro (⟨x, hx, _, e⟩ | ⟨x, ⟨hx, _⟩, e⟩ | ⟨x, ⟨hx, _⟩, e⟩ | ⟨x, ⟨hx, _⟩, e⟩) <;> exact ⟨x, hx, e⟩

/-- **C69**, partial: no block is lost.  Every block of a loop is its header or one of the other three kinds in the record, and the record has no other blocks. -/
theorem C69_blocks_partial {name : String} (hname : wordName name = true) {pre post : List (String × List PLoop)} {Ls : List PLoop}
    (h : ∀ f ∈ pre ++ (name, Ls) :: post, FnOk f) (hn : ∀ f ∈ pre ++ post, f.1 ≠ name) (hp : ∀ L ∈ Ls, L.parallel = false)
    (hl : ∀ L ∈ Ls, ∀ b ∈ L.blocks, NoLatch b) :
    ∃ rs, parseLoops (printFile (pre ++ (name, Ls) :: post)) name = some rs ∧
      All2 (fun L r => ∀ b, b ∈ L.blocks.map PBlock.name ↔ b = r.header ∨ b ∈ r.body ∨ b ∈ r.exits ∨ b ∈ r.latches) Ls rs := by
  obtain ⟨rs, e, hr⟩ := C69_loops_partial hname h hn hp hl
  refine ⟨rs, e, ?_⟩
  clear e h hp hl
  induction hr with
  | nil => exact .nil
  | cons hx _ ih =>
    refine .cons ?_ ih
    obtain ⟨n, hn, rfl⟩ := hx
    exact raw_blocks hn

/-! ### Where the guards fail, and an example -/

/-- Two nested loops as in `benchmarks`. -/
def exLoops : List PLoop := [
  { depth := 0, blocks := [{ name := "bb8", header := true, exiting := true }, { name := "bb13" }, { name := "bb15" }, { name := "bb20", exiting := true },
    { name := "bb52" }, { name := "bb55", latch := true }] },
  { depth := 1, blocks := [{ name := "bb15", header := true }, { name := "bb20", exiting := true }, { name := "bb52", latch := true }] }]

def exFile : List (String × List PLoop) := [("main", [{ depth := 0, blocks := [{ name := "bb1", header := true, latch := true, exiting := true }] }]), ("test", exLoops), ("test2", exLoops)]

theorem exFile_ok : ∀ f ∈ exFile, FnOk f := by
  have h1 : ∀ f ∈ exFile, fnNameOk f.1 = true := by decide +kernel
  have h2 : ∀ f ∈ exFile, ∀ L ∈ f.2, ∀ b ∈ L.blocks, plainName b.name = true := by decide +kernel
  have h3 : ∀ f ∈ exFile, ∀ L ∈ f.2, ((L.blocks.filter PBlock.header).map PBlock.name).length = 1 := by decide +kernel
  exact fun f hf => ⟨h1 f hf, fun L hL => ⟨h2 f hf L hL, List.length_eq_one_iff.1 (h3 f hf L hL)⟩⟩

instance (b : PBlock) : Decidable (NoLatch b) := by unfold NoLatch; infer_instance

/-- The guards of C69 hold for a file with three functions. -/
theorem C69_example : ∃ rs, parseLoops (printFile exFile) "test" = some rs ∧ Read exLoops rs :=
  C69_loops_partial (pre := [_]) (post := [_]) (by decide +kernel) exFile_ok (by decide +kernel) (by decide +kernel) (by decide +kernel)

example : parseLoops (printFile exFile) "test" = some [⟨"bb8", ["bb13", "bb15", "bb52"], ["bb8", "bb20"], ["bb55"]⟩, ⟨"bb15", [], ["bb20"], ["bb52"]⟩] := by
  decide +kernel

/-- The first lines of `exFile` are those of a `.loops` file. -/
example : (printFile exFile).take 106 = "Printing analysis 'Natural Loop Information' for function 'main':\nLoop at depth 1 containing: %bb1<header>".toList := by
  decide +kernel

def latchLoop : PLoop := { depth := 0, blocks := [{ name := "loop", header := true, exiting := true }, { name := "prelatch" }, { name := "back", latch := true }] }

/-- **C69** refuted without the guard on names: the test for unmarked blocks looks for `latch` anywhere, so that a block called `prelatch` is in none of the lists
(what it stores is then not havocked). -/
theorem C69_latch_name_refuted : FnOk ("test", [latchLoop]) ∧
    parseLoops (printFile [("test", [latchLoop])]) "test" = some [⟨"loop", [], ["loop"], ["back"]⟩] ∧ "prelatch" ∈ latchLoop.blocks.map PBlock.name := by
  refine ⟨⟨by decide +kernel, ?_⟩, by decide +kernel, by decide +kernel⟩
  intro L hL
  rw [List.mem_singleton] at hL
  subst hL
  exact ⟨by decide +kernel, "loop", by decide +kernel⟩

/-- **C69** refuted for parallel loops: they are left out. -/
theorem C69_parallel_refuted (L : PLoop) (hok : L.Ok) (hp : L.parallel = true) : parseLoops (printFile [("test", [L])]) "test" = some [] := by
  have hline : loopLine (stripL L.print) = none := by
    unfold stripL PLoop.print
    rw [dropWhile_spaces, hp]
    have e : ∀ r : List Char, ("Parallel ".toList ++ r).dropWhile isSpaceChar = 'P' :: ("arallel ".toList ++ r) := fun _ => rfl
    simp only [if_true]
    rw [e]
    generalize "arallel ".toList ++ _ = t
    have hs := stripL_prefix 'P' t (by decide)
    unfold stripL at hs
    rw [List.dropWhile_cons, if_neg (by decide)] at hs
    cases hd : ((List.dropWhile isSpaceChar ('P' :: t).reverse).reverse) with
    | nil => rfl
    | cons d r =>
      rw [hd] at hs
      obtain ⟨u, hu⟩ := hs
      rw [List.cons_append, List.cons.injEq] at hu
      rw [hu.1]
      rfl
  have hany : isAnyFnLine L.print = false := by
    have : dropPre analysisOf L.print = none := by
      unfold PLoop.print
      cases L.depth with
      | zero => rw [hp]; rfl
      | succ d =>
        rw [show 4 * (d + 1) = (4 * d + 3) + 1 from by omega, List.replicate_succ]
        rfl
    unfold isAnyFnLine
    rw [this]
    rfl
  have hf : ∀ f ∈ [("test", [L])], FnOk f := by
    intro f hf
    rw [List.mem_singleton] at hf
    subst hf
    refine ⟨show fnNameOk "test" = true by decide +kernel, ?_⟩
    intro L' hL'
    rw [List.mem_singleton] at hL'
    subst hL'
    exact hok
  unfold parseLoops
  rw [readlines_file hf]
  have e1 : isFnLine "test" (fnLine "test") = true := by decide +kernel
  simp only [List.flatMap_cons, List.flatMap_nil, List.append_nil, fnLines, List.map_cons, List.map_nil, foundLines, e1, if_true, isFnLine_loop, Bool.false_eq_true, if_false,
    hline, hany]
  rfl

def oneLoop (b : String) : PLoop := { depth := 0, blocks := [{ name := b, header := true, latch := true, exiting := true }] }

/-- **C69** refuted for names with a dot: the name is used as a regular expression, so that the loops of `fx1` are added to those of `f.1`. -/
theorem C69_dot_refuted : parseLoops (printFile [("f.1", [oneLoop "a"]), ("fx1", [oneLoop "b"])]) "f.1" = some [⟨"a", [], ["a"], ["a"]⟩, ⟨"b", [], ["b"], ["b"]⟩] := by
  decide +kernel

/-- **C69** refuted for files in which the name of the next function has a space: its loops are added to those of the function. -/
theorem C69_space_refuted : parseLoops (printFile [("f", [oneLoop "a"]), ("operator new", [oneLoop "b"])]) "f" = some [⟨"a", [], ["a"], ["a"]⟩, ⟨"b", [], ["b"], ["b"]⟩] := by
  decide +kernel

end Ll
end Metalift
