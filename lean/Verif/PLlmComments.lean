import Verif.PLlmReply
/-
C73: comments.
-/
namespace Metalift.Llm.Reply
open Metalift.Regex Metalift.Py

/-! ### Specification -/

/-- A line of a program: its code, and its comment, which is empty or begins with `#`. -/
structure Line where
  code : List Char
  comment : List Char

/-- Lines as one expects them: no `#` in the code (not in a text constant either), the comment ends with the line. -/
structure Line.Plain (l : Line) : Prop where
  code : '#' ∉ l.code
  comment : l.comment = [] ∨ ∃ s, l.comment = '#' :: s ∧ '\n' ∉ s

/-- Text of lines. -/
def linesText (ls : List Line) : List Char := ['\n'].intercalate (ls.map fun l => l.code ++ l.comment)

/-- Text without three quotes of a kind, nor with one at its end. -/
structure NoTriple (q : Char) (s : List Char) : Prop where
  inside : ¬ [q, q, q] <:+: s
  last : ∀ t, s ≠ t ++ [q]

/-! ### Comments at the ends of lines -/

theorem matches_lazy_cls {p : Char → Bool} {z rest : List Char} {m : Caps} : Matches (.lazy (.cls p)) z rest m ↔ (∀ c ∈ z, p c = true) ∧ m = [] := by
  constructor
  · intro h
    generalize hr : Re.lazy (.cls p) = r at h
    induction h with
    | lnil => simp
    | lcons hne m1 _ _ ih =>
      injection hr with hr
      subst hr
      obtain ⟨c, hc, rfl, rfl⟩ := matches_cls.1 m1
      obtain ⟨h1, rfl⟩ := ih rfl
      refine ⟨?_, rfl⟩
      intro d hd
      rw [List.singleton_append, List.mem_cons] at hd
      rcases hd with rfl | hd
      · exact hc
      · exact h1 d hd
    | nil => cases hr
    | cons => cases hr
    | cls => cases hr
    | eps => cases hr
    | seq => cases hr
    | left => cases hr
    | right => cases hr
    | grp => cases hr
    | eoi => cases hr
    | eol => cases hr
  · rintro ⟨h, rfl⟩
    induction z with
    | nil => exact .lnil
    | cons c z ih =>
      exact .lcons (x := [c]) (k := []) (l := []) (by simp) (matches_cls.2 ⟨c, h c (by simp), rfl, rfl⟩) (ih fun d hd => h d (by simp [hd]))

/-- The end of a line. -/
def LineEnd (s : List Char) : Prop := s = [] ∨ s.head? = some '\n'

theorem matches_line {z rest : List Char} {m : Caps} : Matches lineCommentRe z rest m ↔ ∃ s, z = '#' :: s ∧ '\n' ∉ s ∧ LineEnd rest ∧ m = [] := by
  unfold lineCommentRe
  simp only [Re.cat]
  constructor
  · intro h
    obtain ⟨x0, y0, k0, l0, rfl, rfl, h0, e0⟩ := matches_seq.1 h
    obtain ⟨x1, y1, k1, l1, rfl, rfl, h1, e1⟩ := matches_seq.1 e0
    obtain ⟨rfl, rfl⟩ := matches_lit.1 h0
    obtain ⟨f1, rfl⟩ := matches_lazy_cls.1 h1
    cases e1 with
    | eol hr => exact ⟨x1, by simp, fun hd => by simpa using f1 _ hd, hr, rfl⟩
  · rintro ⟨s, rfl, h1, h2, rfl⟩
    have h3 : ∀ rest, Matches (.lazy .any) s rest [] := fun rest => matches_lazy_cls.2 ⟨fun d hd => by
      have : d ≠ '\n' := fun he => h1 (he ▸ hd)
      simpa using this, rfl⟩
    have h4 : Matches (.seq (.lazy .any) .eol) (s ++ []) rest ([] ++ []) := .seq (h3 _) (.eol h2)
    have h5 : Matches (.seq (.lit ['#']) (.seq (.lazy .any) .eol)) (['#'] ++ (s ++ [])) rest ([] ++ [] ++ []) := .seq (matches_lit.2 ⟨rfl, rfl⟩) h4
    simpa using h5

theorem line_unique : ∀ {s s' r r' : List Char}, s ++ r = s' ++ r' → '\n' ∉ s → '\n' ∉ s' → LineEnd r → LineEnd r' → s = s' ∧ r = r'
  | [], [], r, r', h, _, _, _, _ => ⟨rfl, h⟩
  | [], c :: s', r, r', h, _, h2, h3, _ => by
    subst h
    rcases h3 with h3 | h3
    · cases h3
    · injection h3 with h3
      exact absurd (by rw [← h3]; simp) h2
  | c :: s, [], r, r', h, h1, _, _, h4 => by
    rw [List.nil_append] at h
    subst h
    rcases h4 with h4 | h4
    · cases h4
    · injection h4 with h4
      exact absurd (by rw [← h4]; simp) h1
  | c :: s, c' :: s', r, r', h, h1, h2, h3, h4 => by
    simp only [List.cons_append, List.cons.injEq] at h
    obtain ⟨h5, h6⟩ := line_unique h.2 (fun hd => h1 (by simp [hd])) (fun hd => h2 (by simp [hd])) h3 h4
    exact ⟨by rw [h.1, h5], h6⟩

theorem line_head {s rest : List Char} (h : '\n' ∉ s) (hr : LineEnd rest) : (lineCommentRe.run ('#' :: (s ++ rest))).head? = some ('#' :: s, rest, []) := by
  have hm := run_complete (matches_line.2 ⟨s, rfl, h, hr, rfl⟩ : Matches lineCommentRe ('#' :: s) rest [])
  rw [List.cons_append] at hm
  cases hq : lineCommentRe.run ('#' :: (s ++ rest)) with
  | nil => rw [hq] at hm; cases hm
  | cons m ms =>
    obtain ⟨e, hM⟩ := run_sound _ m (by rw [hq]; exact List.mem_cons_self)
    obtain ⟨s', hz, h1, h2, h3⟩ := matches_line.1 hM
    rw [hz, List.cons_append] at e
    injection e with _ e
    obtain ⟨rfl, h5⟩ := line_unique e h h1 hr h2
    obtain ⟨m1, m2, m3⟩ := m
    simp only at hz h3 h5
    subst hz h3 h5
    rfl

theorem line_none {c : Char} {s : List Char} (h : c ≠ '#') : lineCommentRe.run (c :: s) = [] := by
  cases hq : lineCommentRe.run (c :: s) with
  | nil => rfl
  | cons m ms =>
    obtain ⟨e, hM⟩ := run_sound _ m (by rw [hq]; exact List.mem_cons_self)
    obtain ⟨s', hz, _⟩ := matches_line.1 hM
    rw [hz, List.cons_append] at e
    injection e with e _
    exact absurd e h

theorem line_nonempty (s : List Char) (m : Res) (h : m ∈ lineCommentRe.run s) : m.1 ≠ [] := by
  obtain ⟨x, hz, _⟩ := matches_line.1 (run_sound s m h).2
  rw [hz]
  simp

/-- The first step of `removeComments`. -/
def dropLine (s : List Char) : List Char := lineCommentRe.sub (fun _ => []) (s.length + 1) s

theorem dropLine_nil : dropLine [] = [] := by decide +kernel

theorem dropLine_cons {c : Char} {s : List Char} (h : c ≠ '#') : dropLine (c :: s) = c :: dropLine s := by
  unfold dropLine
  rw [sub_miss (line_none h)]
  rfl

theorem dropLine_code {s t : List Char} (h : '#' ∉ s) : dropLine (s ++ t) = s ++ dropLine t := by
  induction s with
  | nil => rfl
  | cons c s ih =>
    rw [List.cons_append, dropLine_cons (fun he => h (by rw [he]; simp)), ih fun hd => h (by simp [hd])]
    rfl

theorem dropLine_comment {s rest : List Char} (h : '\n' ∉ s) (hr : LineEnd rest) : dropLine ('#' :: (s ++ rest)) = dropLine rest := by
  unfold dropLine
  rw [sub_hit (line_head h hr), List.nil_append]
  exact sub_fuel line_nonempty _ rest (Nat.le_refl _) _ _ (by simp; omega) (by omega)

theorem dropLine_line {l : Line} (hl : l.Plain) {rest : List Char} (hr : LineEnd rest) : dropLine (l.code ++ l.comment ++ rest) = l.code ++ dropLine rest := by
  rw [List.append_assoc, dropLine_code hl.code]
  rcases hl.comment with h | ⟨s, h, hs⟩
  · rw [h]; rfl
  · rw [h, List.cons_append, dropLine_comment hs hr]

theorem dropLine_lines : ∀ {ls : List Line}, (∀ l ∈ ls, l.Plain) → dropLine (linesText ls) = ['\n'].intercalate (ls.map Line.code)
  | [], _ => dropLine_nil
  | [l], h => by
    have := dropLine_line (h l (by simp)) (rest := []) (.inl rfl)
    rw [dropLine_nil] at this
    simpa [linesText, List.intercalate] using this
  | l :: l' :: ls, h => by
    have ih := dropLine_lines (ls := l' :: ls) fun x hx => h x (by simp [hx])
    have h1 := dropLine_line (h l (by simp)) (rest := '\n' :: linesText (l' :: ls)) (.inr rfl)
    rw [dropLine_cons (by decide), ih] at h1
    simpa [linesText, List.intercalate] using h1

/-! ### Comments in three quotes -/

theorem NoTriple.suffix {q : Char} {x y : List Char} (h : NoTriple q (x ++ y)) : NoTriple q y := by
  constructor
  · intro hi
    exact h.inside (hi.trans (List.suffix_append x y).isInfix)
  · intro t ht
    exact h.last (x ++ t) (by rw [ht, List.append_assoc])

theorem NoTriple.not_prefix {q : Char} {y t : List Char} (h : NoTriple q y) (hne : y ≠ []) : ¬ quotes q <+: y ++ t := by
  intro hp
  obtain ⟨h1, h2⟩ := h
  unfold quotes at *
  match y, hne with
  | [a], _ =>
    obtain ⟨z, hz⟩ := hp
    simp at hz
    exact h2 [] (by rw [← hz.1]; rfl)
  | [a, b], _ =>
    obtain ⟨z, hz⟩ := hp
    simp at hz
    exact h2 [a] (by rw [← hz.2.1]; rfl)
  | a :: b :: c :: y, _ =>
    obtain ⟨z, hz⟩ := hp
    simp at hz
    obtain ⟨rfl, rfl, rfl, _⟩ := hz
    exact h1 ⟨[], y, by simp⟩

/-- The second step of `removeComments`. -/
def dropBlock (s : List Char) : List Char := blockCommentRe.sub (fun _ => []) (s.length + 1) s

theorem removeComments_eq (s : List Char) : removeComments s = dropBlock (dropLine s) := rfl

theorem quoted_none {q : Char} {s : List Char} (h : ¬ quotes q <+: s) : (Re.cat [.lit (quotes q), .lazy .anyAll, .lit (quotes q)]).run s = [] := by
  simp [Re.cat, Re.run, run_lit_none h]

theorem block_none {s : List Char} (h : ¬ quotes '\'' <+: s) (h' : ¬ quotes '"' <+: s) : blockCommentRe.run s = [] := by
  rw [blockCommentRe, Re.run, Re.run, quoted_none h, quoted_none h']
  rfl

theorem dropBlock_cons {c : Char} {s : List Char} (h : ¬ quotes '\'' <+: c :: s) (h' : ¬ quotes '"' <+: c :: s) : dropBlock (c :: s) = c :: dropBlock s := by
  unfold dropBlock
  rw [sub_miss (block_none h h')]
  rfl

theorem dropBlock_none {s : List Char} (h : ¬ quotes '\'' <:+: s) (h' : ¬ quotes '"' <:+: s) : dropBlock s = s := by
  induction s with
  | nil => decide +kernel
  | cons c s ih =>
    rw [dropBlock_cons (fun hp => h hp.isInfix) (fun hp => h' hp.isInfix), ih (fun hp => h (hp.trans (List.suffix_cons c s).isInfix))
      (fun hp => h' (hp.trans (List.suffix_cons c s).isInfix))]

theorem quoted_head {q : Char} {doc rest : List Char} (h : NoTriple q doc) :
    ((Re.cat [.lit (quotes q), .lazy .anyAll, .lit (quotes q)]).run (quotes q ++ (doc ++ (quotes q ++ rest)))).head? =
      some (quotes q ++ (doc ++ quotes q), rest, []) := by
  have h0 : ((Re.seq (.lazy .anyAll) (.lit (quotes q))).run (doc ++ (quotes q ++ rest))).head? = some (doc ++ quotes q, rest, []) := by
    obtain ⟨l, l', h1, h2⟩ := iterLazy_split (s := doc) (t := quotes q ++ rest) (n := (doc ++ (quotes q ++ rest)).length) (by simp)
    rw [Re.run, Re.run, h1, List.flatMap_append, List.flatMap_cons]
    have he : l.flatMap (fun r => ((Re.lit (quotes q)).run r.2.1).map fun p => (r.1 ++ p.1, p.2.1, p.2.2 ++ r.2.2)) = [] := by
      rw [List.flatMap_eq_nil_iff]
      intro r hr
      obtain ⟨x, y, rfl, hy, he⟩ := h2 r hr
      rw [he, run_lit_none (h.suffix.not_prefix hy)]
      rfl
    rw [he, run_lit]
    rfl
  exact seq_head (run_lit (quotes q) (doc ++ (quotes q ++ rest))) h0

theorem block_nonempty (s : List Char) (m : Res) (h : m ∈ blockCommentRe.run s) : m.1 ≠ [] := by
  have hM := (run_sound s m h).2
  unfold blockCommentRe at hM
  obtain ⟨k, _, hM⟩ := matches_grp.1 hM
  rcases matches_alt.1 hM with hM | hM
  all_goals
    simp only [Re.cat] at hM
    obtain ⟨x0, y0, k0, l0, e, _, h0, _⟩ := matches_seq.1 hM
    obtain ⟨rfl, rfl⟩ := matches_lit.1 h0
    rw [e]
    simp [quotes]

theorem dropBlock_doc {q : Char} (hq : q = '\'' ∨ q = '"') {doc rest : List Char} (h : NoTriple q doc) :
    dropBlock (quotes q ++ (doc ++ (quotes q ++ rest))) = dropBlock rest := by
  have hh : ∃ m, (blockCommentRe.run (quotes q ++ (doc ++ (quotes q ++ rest)))).head? = some m ∧ m.2.1 = rest := by
    have h1 := quoted_head (rest := rest) h
    rcases hq with rfl | rfl
    · refine ⟨(quotes '\'' ++ (doc ++ quotes '\''), rest, [(1, quotes '\'' ++ (doc ++ quotes '\''))]), ?_, rfl⟩
      rw [blockCommentRe, Re.run, Re.run, List.head?_map, List.head?_append, h1]
      rfl
    · refine ⟨(quotes '"' ++ (doc ++ quotes '"'), rest, [(1, quotes '"' ++ (doc ++ quotes '"'))]), ?_, rfl⟩
      rw [blockCommentRe, Re.run, Re.run, List.head?_map, List.head?_append, quoted_none, List.head?_nil, h1]
      · rfl
      · rintro ⟨z, hz⟩
        simp [quotes] at hz
  obtain ⟨m, h1, h2⟩ := hh
  unfold dropBlock
  rw [sub_hit h1, List.nil_append, h2]
  refine sub_fuel block_nonempty _ rest (Nat.le_refl _) _ _ ?_ (by omega)
  simp [quotes]
  omega

theorem dropBlock_skip {p t : List Char} (h : ∀ x y, p = x ++ y → y ≠ [] → ¬ quotes '\'' <+: y ++ t ∧ ¬ quotes '"' <+: y ++ t) :
    dropBlock (p ++ t) = p ++ dropBlock t := by
  induction p with
  | nil => rfl
  | cons c p ih =>
    obtain ⟨h1, h2⟩ := h [] (c :: p) rfl (by simp)
    rw [List.cons_append, dropBlock_cons (s := p ++ t) h1 h2, ih fun x y he hy => h (c :: x) y (by rw [he]; rfl) hy]
    rfl

/-- **C73.** For every program whose lines have no `#` outside comments, if the code has no triple quotes, what is left is the code of the lines. -/
theorem C73_comments_partial (ls : List Line) (hl : ∀ l ∈ ls, l.Plain) (h1 : ¬ "'''".toList <:+: ['\n'].intercalate (ls.map Line.code))
    (h2 : ¬ "\"\"\"".toList <:+: ['\n'].intercalate (ls.map Line.code)) : removeComments (linesText ls) = ['\n'].intercalate (ls.map Line.code) := by
  rw [removeComments_eq, dropLine_lines hl]
  exact dropBlock_none h1 h2

/-- **C73.** In every text without `#`, the first text between triple quotes is removed, with the quotes; what stands before it is kept and the rest is treated in
the same way. -/
theorem C73_docstring_partial (q : Char) (hq : q = '\'' ∨ q = '"') (p doc rest : List Char) (hp : NoTriple '\'' p ∧ NoTriple '"' p) (hd : NoTriple q doc)
    (hn : '#' ∉ p ∧ '#' ∉ doc ∧ '#' ∉ rest) :
    removeComments (p ++ ([q, q, q] ++ (doc ++ ([q, q, q] ++ rest)))) = p ++ removeComments rest := by
  have hx : ∀ {s : List Char}, '#' ∉ s → dropLine s = s := fun {s} hs => by
    have := dropLine_code (t := []) hs
    rw [dropLine_nil, List.append_nil] at this
    exact this
  have hall : '#' ∉ p ++ ([q, q, q] ++ (doc ++ ([q, q, q] ++ rest))) := by
    have : '#' ≠ q := by rcases hq with rfl | rfl <;> decide
    simp [hn.1, hn.2.1, hn.2.2, this]
  rw [removeComments_eq, removeComments_eq, hx hall, hx hn.2.2]
  have h1 : dropBlock (p ++ ([q, q, q] ++ (doc ++ ([q, q, q] ++ rest)))) = p ++ dropBlock ([q, q, q] ++ (doc ++ ([q, q, q] ++ rest))) :=
    dropBlock_skip fun x y he hy => ⟨(he ▸ hp.1).suffix.not_prefix hy, (he ▸ hp.2).suffix.not_prefix hy⟩
  rw [h1]
  exact congrArg _ (dropBlock_doc hq hd)

/-! ### An example, and where it fails -/

/-- **C73, example.** -/
theorem C73_comments_example :
    removeComments "def f(x): # the sum\n    # of x\n    return x".toList = "def f(x): \n    \n    return x".toList ∧
    removeComments "def f(x):\n    \"\"\"The sum.\"\"\"\n    return x".toList = "def f(x):\n    \n    return x".toList := by
  constructor
  · have h := C73_comments_partial [⟨"def f(x): ".toList, "# the sum".toList⟩, ⟨"    ".toList, "# of x".toList⟩, ⟨"    return x".toList, []⟩] (by
      intro l hl
      simp only [List.mem_cons, List.not_mem_nil, or_false] at hl
      rcases hl with rfl | rfl | rfl
      · exact ⟨by decide +kernel, .inr ⟨" the sum".toList, by decide +kernel, by decide +kernel⟩⟩
      · exact ⟨by decide +kernel, .inr ⟨" of x".toList, by decide +kernel, by decide +kernel⟩⟩
      · exact ⟨by decide +kernel, .inl rfl⟩) (by decide +kernel) (by decide +kernel)
    exact h
  · have h := C73_docstring_partial '"' (.inr rfl) "def f(x):\n    ".toList "The sum.".toList "\n    return x".toList
      ⟨⟨by decide +kernel, fun t ht => by have := congrArg List.getLast? ht; revert this; simp⟩, ⟨by decide +kernel, fun t ht => by have := congrArg List.getLast? ht; revert this; simp⟩⟩
      ⟨by decide +kernel, fun t ht => by have := congrArg List.getLast? ht; revert this; simp⟩ (by decide +kernel)
    have e : removeComments "\n    return x".toList = "\n    return x".toList := by decide +kernel
    rw [e] at h
    exact h

/-- **C73, refuted in general.** A `#` in a text constant or between triple quotes is taken for a comment: the constant loses its end, the quotes are not closed and
the rest of the program becomes part of them; and a text constant in triple quotes that is a value is removed. -/
theorem C73_comments_refuted :
    removeComments "x = f(\"#\", 1)".toList = "x = f(\"".toList ∧
    removeComments "\"\"\"the # of x\"\"\"\nreturn x".toList = "\"\"\"the \nreturn x".toList ∧
    removeComments "x = \"\"\"a\"\"\"".toList = "x = ".toList := by decide +kernel

end Metalift.Llm.Reply
