import Verif.LlmReply
import Verif.LlmReplySpec
import Verif.PyParse
/-
C73: the program checked for a reply of a language model is the program in the reply.
-/
namespace Metalift.Llm.Reply
open Metalift.Regex Metalift.Py

/-! ### First matches -/

theorem run_lit (s : List Char) : ∀ t, (Re.lit s).run (s ++ t) = [(s, t, [])] := by
  induction s with
  | nil => intro t; rfl
  | cons c s ih =>
    intro t
    simp only [Re.lit, Re.run, List.cons_append, decide_true, if_true, List.flatMap_cons, List.flatMap_nil, ih, List.map_cons, List.map_nil,
      List.append_nil]
    rfl

theorem run_lit_none {s t : List Char} (h : ¬ s <+: t) : (Re.lit s).run t = [] := by
  cases hr : (Re.lit s).run t with
  | nil => rfl
  | cons r rs =>
    obtain ⟨e, m⟩ := run_sound t r (by rw [hr]; simp)
    obtain ⟨h1, _⟩ := matches_lit.1 m
    exact absurd ⟨r.2.1, by rw [← h1, ← e]⟩ h

/-- The first match of a sequence, if the first match of its first part can be continued. -/
theorem seq_head {a b : Re} {s : List Char} {r q : Res} {l : List Res} (ha : a.run s = r :: l) (hb : (b.run r.2.1).head? = some q) :
    ((Re.seq a b).run s).head? = some (r.1 ++ q.1, q.2.1, q.2.2 ++ r.2.2) := by
  simp only [Re.run, ha, List.flatMap_cons]
  cases hq : b.run r.2.1 with
  | nil => rw [hq] at hb; cases hb
  | cons x xs =>
    rw [hq, List.head?_cons] at hb
    injection hb with hb
    subst hb
    rfl

/-- Texts tried by `.*?` before the text `code` that stands before a fence. -/
theorem iterLazy_split {s t : List Char} : ∀ {n : Nat}, s.length ≤ n →
    ∃ l l', iterLazy Re.anyAll.run n (s ++ t) = l ++ (s, t, []) :: l' ∧ ∀ r ∈ l, ∃ x y, s = x ++ y ∧ y ≠ [] ∧ r.2.1 = y ++ t := by
  induction s with
  | nil =>
    intro n _
    cases n with
    | zero => exact ⟨[], [], rfl, by simp⟩
    | succ n => exact ⟨[], _, rfl, by simp⟩
  | cons c s ih =>
    intro n hn
    cases n with
    | zero => simp at hn
    | succ n =>
      obtain ⟨l, l', h1, h2⟩ := ih (n := n) (by simpa using hn)
      refine ⟨([], c :: (s ++ t), []) :: l.map fun q => (c :: q.1, q.2.1, q.2.2), l'.map fun q => (c :: q.1, q.2.1, q.2.2), ?_, ?_⟩
      · simp only [iterLazy, List.cons_append, Re.anyAll, Re.run, if_true, List.flatMap_cons, List.flatMap_nil, List.append_nil, reduceCtorEq, if_false]
        simp only [Re.anyAll, Re.run] at h1
        rw [h1]
        simp
      · intro r hr
        rcases List.mem_cons.1 hr with rfl | hr
        · exact ⟨[], c :: s, rfl, by simp, rfl⟩
        · obtain ⟨q, hq, rfl⟩ := List.mem_map.1 hr
          obtain ⟨x, y, rfl, hy, he⟩ := h2 q hq
          exact ⟨c :: x, y, rfl, hy, he⟩

theorem findAll_hit {r : Re} {s : List Char} {m : Res} (h : (r.run s).head? = some m) (n : Nat) : r.findAll (n + 1) s = m :: r.findAll n m.2.1 := by
  rw [Re.findAll.eq_def]
  simp only [h]

theorem findAll_miss {r : Re} {c : Char} {s : List Char} (h : r.run (c :: s) = []) (n : Nat) : r.findAll (n + 1) (c :: s) = r.findAll n s := by
  rw [Re.findAll.eq_def]
  simp only [h, List.head?_nil]

theorem sub_hit {r : Re} {s : List Char} {m : Res} (h : (r.run s).head? = some m) (f : Caps → List Char) (n : Nat) :
    r.sub f (n + 1) s = f m.2.2 ++ r.sub f n m.2.1 := by
  rw [Re.sub.eq_def]
  simp only [h]

theorem sub_miss {r : Re} {c : Char} {s : List Char} (h : r.run (c :: s) = []) (f : Caps → List Char) (n : Nat) :
    r.sub f (n + 1) (c :: s) = c :: r.sub f n s := by
  rw [Re.sub.eq_def]
  simp only [h, List.head?_nil]

/-! ### Fences -/

theorem fence_eq : fence = "```".toList := by decide

/-- After a text without a fence, the first fence is the one written next. -/
theorem NoFence.suffix {x y : List Char} (h : NoFence (x ++ y)) : NoFence y := by
  constructor
  · intro hi
    exact h.inside (hi.trans (List.suffix_append x y).isInfix)
  · intro t ht
    exact h.last (x ++ t) (by rw [ht, List.append_assoc])

theorem NoFence.not_prefix {y t : List Char} (h : NoFence y) (hne : y ≠ []) : ¬ fence <+: y ++ t := by
  intro hp
  obtain ⟨h1, h2⟩ := h
  rw [← fence_eq] at h1
  unfold fence at *
  match y, hne with
  | [a], _ =>
    obtain ⟨z, hz⟩ := hp
    simp at hz
    exact h2 [] (by rw [← hz.1]; rfl)
  | [a, b], _ =>
    obtain ⟨z, hz⟩ := hp
    simp at hz
    exact h2 [a] (by rw [← hz.2.1]; rfl)
  | a :: b :: c :: y, _ =>
    obtain ⟨z, hz⟩ := hp
    simp at hz
    obtain ⟨rfl, rfl, rfl, _⟩ := hz
    exact h1 ⟨[], y, by simp⟩

/-- The first match of the part of the expression after the language. -/
theorem body_head {code rest : List Char} (h : NoFence code) :
    ((Re.cat [.grp 1 (.lazy .anyAll), .lit fence]).run (code ++ (fence ++ rest))).head? = some (code ++ fence, rest, [(1, code)]) := by
  obtain ⟨l, l', h1, h2⟩ := iterLazy_split (s := code) (t := fence ++ rest) (n := (code ++ (fence ++ rest)).length) (by simp)
  simp only [Re.cat]
  rw [Re.run, Re.run, Re.run, h1, List.map_append, List.flatMap_append, List.map_cons, List.flatMap_cons]
  have he : (l.map fun r : Res => (r.1, r.2.1, (1, r.1) :: r.2.2)).flatMap (fun r => ((Re.lit fence).run r.2.1).map fun q => (r.1 ++ q.1, q.2.1, q.2.2 ++ r.2.2)) = [] := by
    rw [List.flatMap_eq_nil_iff]
    intro r hr
    obtain ⟨q, hq, rfl⟩ := List.mem_map.1 hr
    obtain ⟨x, y, rfl, hy, he⟩ := h2 q hq
    rw [he, run_lit_none (h.suffix.not_prefix hy)]
    rfl
  rw [he, run_lit]
  rfl

/-- The languages are recognised. -/
theorem lang_run {t s : List Char} (h : t ∈ ["".toList, "Python".toList, "python".toList, "assembly".toList, "cpp".toList, "c".toList]) :
    ∃ l, (Re.opt (tagRe tags)).run (t ++ '\n' :: s) = (t, '\n' :: s, []) :: l := by
  simp only [List.mem_cons, List.not_mem_nil, or_false] at h
  rcases h with rfl | rfl | rfl | rfl | rfl | rfl <;>
    exact ⟨_, by simp [Re.opt, tagRe, tags, Re.lit, Re.run]; try rfl⟩

/-- The match at a block. -/
theorem block_head {b : Block} (hb : b.Plain) (rest : List Char) :
    (blockRe.run ("```".toList ++ (b.lang ++ (b.code ++ "```".toList)) ++ rest)).head? =
      some ("```".toList ++ (b.lang ++ (b.code ++ "```".toList)), rest, [(1, b.code)]) := by
  obtain ⟨s, hs⟩ := hb.line
  rw [← fence_eq]
  have h1 := body_head (rest := rest) hb.code
  obtain ⟨l, hl⟩ := lang_run (s := s ++ (fence ++ rest)) hb.lang
  have h2 : (b.lang ++ '\n' :: (s ++ (fence ++ rest))) = b.lang ++ (b.code ++ (fence ++ rest)) := by rw [hs]; rfl
  have h3 : '\n' :: (s ++ (fence ++ rest)) = b.code ++ (fence ++ rest) := by rw [hs]; rfl
  rw [h2, h3] at hl
  have h4 := seq_head hl h1
  have h5 := seq_head (run_lit fence (b.lang ++ (b.code ++ (fence ++ rest)))) h4
  have he : fence ++ (b.lang ++ (b.code ++ fence)) ++ rest = fence ++ (b.lang ++ (b.code ++ (fence ++ rest))) := by simp only [List.append_assoc]
  rw [he]
  exact h5

theorem run_no_fence {s : List Char} (h : ¬ fence <+: s) : blockRe.run s = [] := by
  simp [blockRe, Re.cat, Re.run, run_lit_none h]

/-- Prose is passed over. -/
theorem findAll_skip {p t : List Char} (h : ∀ x y, p = x ++ y → y ≠ [] → ¬ fence <+: y ++ t) :
    ∀ {n : Nat}, blockRe.findAll (p.length + n) (p ++ t) = blockRe.findAll n t := by
  induction p with
  | nil => intro n; simp
  | cons c p ih =>
    intro n
    have hn : (c :: p).length + n = (p.length + n) + 1 := by simp; omega
    rw [hn, List.cons_append, findAll_miss (s := p ++ t) (run_no_fence (h [] (c :: p) rfl (by simp)))]
    exact ih fun x y he hy => h (c :: x) y (by rw [he]; rfl) hy

theorem findAll_last {s : List Char} (h : ¬ "```".toList <:+: s) : ∀ n, blockRe.findAll n s = [] := by
  rw [← fence_eq] at h
  induction s with
  | nil =>
    intro n
    cases n with
    | zero => rfl
    | succ n => rw [Re.findAll, run_no_fence fun hp => h hp.isInfix]; rfl
  | cons c s ih =>
    intro n
    cases n with
    | zero => rfl
    | succ n =>
      rw [findAll_miss (run_no_fence fun hp => h hp.isInfix)]
      exact ih (fun hp => h (hp.trans (List.suffix_cons c s).isInfix)) n

theorem findAll_reply {last : List Char} (hl : ¬ "```".toList <:+: last) : ∀ {bs : List Block}, (∀ b ∈ bs, b.Plain) → ∀ {n : Nat},
    (replyText bs last).length < n → (blockRe.findAll n (replyText bs last)).map (fun m => cap m.2.2 1) = bs.map Block.code
  | [], _, n, _ => by rw [replyText, findAll_last hl]; rfl
  | b :: bs, hb, n, hn => by
    have hp := hb b (by simp)
    have hlen : (replyText (b :: bs) last).length = b.prose.length + (("```".toList ++ (b.lang ++ (b.code ++ "```".toList))) ++ replyText bs last).length := by
      simp [replyText, Block.text]
    have h3 : ("```".toList).length = 3 := by decide
    obtain ⟨k, rfl⟩ : ∃ k, n = b.prose.length + (k + 1) := ⟨n - b.prose.length - 1, by omega⟩
    have he : replyText (b :: bs) last = b.prose ++ (("```".toList ++ (b.lang ++ (b.code ++ "```".toList))) ++ replyText bs last) := by
      simp only [replyText, Block.text, List.append_assoc]
    rw [he, findAll_skip fun x y hxy hy => (hxy ▸ hp.prose).suffix.not_prefix hy, findAll_hit (block_head hp _)]
    simp only [List.map_cons]
    rw [findAll_reply hl (fun c hc => hb c (by simp [hc]))]
    · rfl
    · rw [hlen, List.length_append, List.length_append, h3] at hn
      omega

/-- **C73.** For every reply made of prose and blocks of code, each opened by a fence with no language or one of five languages and a line break, the texts
extracted are the codes of the blocks, all of them, in order. -/
theorem C73_blocks_partial (bs : List Block) (last : List Char) (hb : ∀ b ∈ bs, b.Plain) (hl : ¬ "```".toList <:+: last) :
    extractAll (replyText bs last) = bs.map Block.code :=
  findAll_reply hl hb (Nat.lt_succ_self _)

/-! ### `ite` -/

/-- The text between the parentheses is cut at the first comma, the second comma and the first closing parenthesis after it. -/
theorem matches_ite {z rest : List Char} {m : Caps} (h : Matches iteRe z rest m) : ∃ c w a w' b,
    z = "ite(".toList ++ (c ++ ',' :: (w ++ (a ++ ',' :: (w' ++ (b ++ [')']))))) ∧ ',' ∉ c ∧ (∀ d ∈ w, isSpace d = true) ∧ ',' ∉ a ∧
      (∀ d ∈ w', isSpace d = true) ∧ ')' ∉ b ∧ m = [(3, b), (2, a), (1, c)] := by
  unfold iteRe at h
  simp only [Re.cat] at h
  obtain ⟨x0, y0, k0, l0, rfl, rfl, h0, e0⟩ := matches_seq.1 h
  obtain ⟨x1, y1, k1, l1, rfl, rfl, h1, e1⟩ := matches_seq.1 e0
  obtain ⟨x2, y2, k2, l2, rfl, rfl, h2, e2⟩ := matches_seq.1 e1
  obtain ⟨x3, y3, k3, l3, rfl, rfl, h3, e3⟩ := matches_seq.1 e2
  obtain ⟨x4, y4, k4, l4, rfl, rfl, h4, e4⟩ := matches_seq.1 e3
  obtain ⟨x5, y5, k5, l5, rfl, rfl, h5, e5⟩ := matches_seq.1 e4
  obtain ⟨x6, y6, k6, l6, rfl, rfl, h6, e6⟩ := matches_seq.1 e5
  obtain ⟨x7, y7, k7, l7, rfl, rfl, h7, e7⟩ := matches_seq.1 e6
  obtain ⟨rfl, rfl⟩ := matches_lit.1 h0
  obtain ⟨j1, rfl, g1⟩ := matches_grp.1 h1
  obtain ⟨-, f1, rfl⟩ := matches_plus_cls.1 g1
  obtain ⟨rfl, rfl⟩ := matches_lit.1 h2
  obtain ⟨f3, rfl⟩ := matches_star_cls.1 h3
  obtain ⟨j4, rfl, g4⟩ := matches_grp.1 h4
  obtain ⟨-, f4, rfl⟩ := matches_plus_cls.1 g4
  obtain ⟨rfl, rfl⟩ := matches_lit.1 h5
  obtain ⟨f6, rfl⟩ := matches_star_cls.1 h6
  obtain ⟨j7, rfl, g7⟩ := matches_grp.1 h7
  obtain ⟨-, f7, rfl⟩ := matches_plus_cls.1 g7
  obtain ⟨rfl, rfl⟩ := matches_lit.1 e7
  refine ⟨x1, x3, x4, x6, x7, rfl, fun hd => ?_, f3, fun hd => ?_, f6, fun hd => ?_, rfl⟩
  · simpa using f1 _ hd
  · simpa using f4 _ hd
  · simpa using f7 _ hd

theorem ite_matches {c a b : List Char} (hc : c ≠ []) (hc' : ',' ∉ c) (ha : a ≠ []) (ha' : ',' ∉ a) (hb : b ≠ []) (hb' : ')' ∉ b) (rest : List Char) :
    Matches iteRe ("ite(".toList ++ (c ++ ([','] ++ ([] ++ (a ++ ([','] ++ ([] ++ (b ++ [')'])))))))) rest [(3, b), (2, a), (1, c)] := by
  have hp : ∀ {d : Char} {s : List Char} (n : Nat) (rest : List Char), s ≠ [] → d ∉ s → Matches (.grp n (.plus (notChar d))) s rest [(n, s)] := by
    intro d s n rest hs hd
    refine matches_grp.2 ⟨[], rfl, matches_plus_cls.2 ⟨hs, fun x hx => ?_, rfl⟩⟩
    have : x ≠ d := fun he => hd (he ▸ hx)
    simpa using this
  have hl : ∀ (s rest : List Char), Matches (.lit s) s rest [] := fun s rest => matches_lit.2 ⟨rfl, rfl⟩
  have hw : ∀ rest, Matches (.star (.cls isSpace)) [] rest [] := fun rest => .nil
  exact .seq (k := []) (l := [(3, b), (2, a), (1, c)]) (hl _ _) <| .seq (k := [(1, c)]) (l := [(3, b), (2, a)]) (hp 1 _ hc hc') <|
    .seq (k := []) (l := [(3, b), (2, a)]) (hl _ _) <| .seq (k := []) (l := [(3, b), (2, a)]) (hw _) <|
    .seq (k := [(2, a)]) (l := [(3, b)]) (hp 2 _ ha ha') <| .seq (k := []) (l := [(3, b)]) (hl _ _) <| .seq (k := []) (l := [(3, b)]) (hw _) <|
    .seq (k := [(3, b)]) (l := []) (hp 3 _ hb hb') (hl _ _)

theorem split_unique {d : Char} : ∀ {x x' y y' : List Char}, x ++ d :: y = x' ++ d :: y' → d ∉ x → d ∉ x' → x = x' ∧ y = y'
  | [], [], y, y', h, _, _ => ⟨rfl, by simpa using h⟩
  | [], e :: x', y, y', h, _, h' => by
    simp only [List.nil_append, List.cons_append, List.cons.injEq] at h
    exact absurd (by rw [h.1]; simp) h'
  | e :: x, [], y, y', h, h', _ => by
    simp only [List.nil_append, List.cons_append, List.cons.injEq] at h
    exact absurd (by rw [h.1]; simp) h'
  | e :: x, e' :: x', y, y', h, h1, h2 => by
    simp only [List.cons_append, List.cons.injEq] at h
    obtain ⟨h3, h4⟩ := split_unique h.2 (fun hd => h1 (by simp [hd])) (fun hd => h2 (by simp [hd]))
    exact ⟨by rw [h.1, h3], h4⟩

theorem isSpace_ne {w : List Char} (h : ∀ d ∈ w, isSpace d = true) {e : Char} (he : isSpace e = false) : e ∉ w := fun hd => by
  rw [h e hd] at he
  cases he

theorem strip_left {w s : List Char} (h : ∀ d ∈ w, isSpace d = true) : strip (w ++ s) = strip s := by
  unfold strip
  rw [List.dropWhile_append_of_pos h]

theorem strip_right {w s : List Char} (h : ∀ d ∈ w, isSpace d = true) : strip (s ++ w) = strip s := by
  unfold strip
  rw [List.dropWhile_append]
  have hw : w.dropWhile isSpace = [] := by
    clear s
    induction w with
    | nil => rfl
    | cons d w ih => rw [List.dropWhile_cons_of_pos (h d (by simp)), ih fun x hx => h x (by simp [hx])]
  split
  · rename_i he
    rw [hw, List.isEmpty_iff.1 he]
  · rw [List.reverse_append, List.dropWhile_append_of_pos fun d hd => h d (List.mem_reverse.1 hd)]

/-- The first match at a call of `ite`. -/
theorem ite_head {c a b post : List Char} (hc : c ≠ []) (hc' : ',' ∉ c) (ha : a ≠ []) (ha' : ',' ∉ a) (hb : b ≠ []) (hb' : ')' ∉ b) :
    ∃ m, (iteRe.run ("ite(".toList ++ (c ++ ',' :: (a ++ ',' :: (b ++ ')' :: post))))).head? = some m ∧ m.2.1 = post ∧
      replIte m.2.2 = strip a ++ " if ".toList ++ strip c ++ " else ".toList ++ strip b := by
  have hm := run_complete (ite_matches hc hc' ha ha' hb hb' post)
  have he : "ite(".toList ++ (c ++ ([','] ++ ([] ++ (a ++ ([','] ++ ([] ++ (b ++ [')']))))))) ++ post =
    "ite(".toList ++ (c ++ ',' :: (a ++ ',' :: (b ++ ')' :: post))) := by simp
  rw [he] at hm
  cases hr : iteRe.run ("ite(".toList ++ (c ++ ',' :: (a ++ ',' :: (b ++ ')' :: post)))) with
  | nil => rw [hr] at hm; cases hm
  | cons m ms =>
    refine ⟨m, rfl, ?_⟩
    obtain ⟨e, hM⟩ := run_sound _ m (by rw [hr]; exact List.mem_cons_self)
    obtain ⟨c', w, a', w', b', hz, h1, h2, h3, h4, h5, h6⟩ := matches_ite hM
    rw [hz] at e
    simp only [List.append_assoc, List.cons_append, List.nil_append] at e
    have e0 := List.append_cancel_left e
    obtain ⟨rfl, e1⟩ := split_unique e0 hc' h1
    rw [← List.append_assoc w] at e1
    obtain ⟨rfl, e2⟩ := split_unique e1 ha' (by
      rw [List.mem_append]
      rintro (hd | hd)
      · exact isSpace_ne h2 (by decide) hd
      · exact h3 hd)
    rw [← List.append_assoc w'] at e2
    obtain ⟨rfl, e3⟩ := split_unique e2 hb' (by
      rw [List.mem_append]
      rintro (hd | hd)
      · exact isSpace_ne h4 (by decide) hd
      · exact h5 hd)
    refine ⟨e3.symm, ?_⟩
    rw [h6, strip_left h2, strip_left h4]
    rfl

/-- Fuel. -/
theorem sub_fuel {r : Re} {f : Caps → List Char} (hne : ∀ s m, m ∈ r.run s → m.1 ≠ []) : ∀ (N : Nat) (s : List Char), s.length ≤ N →
    ∀ n k, s.length < n → s.length < k → r.sub f n s = r.sub f k s
  | N, s, hN, 0, _, hn, _ => absurd hn (by omega)
  | N, s, hN, n + 1, 0, _, hk => absurd hk (by omega)
  | N, s, hN, n + 1, k + 1, hn, hk => by
    cases hr : r.run s with
    | nil =>
      cases s with
      | nil =>
        rw [Re.sub.eq_def, Re.sub.eq_def]
        simp only [hr, List.head?_nil]
      | cons c s =>
        rw [sub_miss hr, sub_miss hr]
        cases N with
        | zero => simp at hN
        | succ N =>
          simp only [List.length_cons] at hN hn hk
          rw [sub_fuel hne N s (by omega) n k (by omega) (by omega)]
    | cons m ms =>
      obtain ⟨e, _⟩ := run_sound s m (by rw [hr]; simp)
      have hlen : 0 < m.1.length := List.length_pos_iff.2 (hne s m (by rw [hr]; simp))
      have hs : s.length = m.1.length + m.2.1.length := by rw [e, List.length_append]
      rw [sub_hit (m := m) (by rw [hr]; rfl), sub_hit (m := m) (by rw [hr]; rfl)]
      cases N with
      | zero => omega
      | succ N => rw [sub_fuel hne N m.2.1 (by omega) n k (by omega) (by omega)]

theorem ite_nonempty (s : List Char) (m : Res) (h : m ∈ iteRe.run s) : m.1 ≠ [] := by
  obtain ⟨c, w, a, w', b, hz, _⟩ := matches_ite (run_sound s m h).2
  rw [hz]
  simp

theorem replaceIte_hit {s : List Char} {m : Res} (h : (iteRe.run s).head? = some m) : replaceIte s = replIte m.2.2 ++ replaceIte m.2.1 := by
  have hm : m ∈ iteRe.run s := by
    cases hr : iteRe.run s with
    | nil => rw [hr] at h; cases h
    | cons x xs =>
      rw [hr] at h
      injection h with h
      rw [h]
      simp
  obtain ⟨e, _⟩ := run_sound s m hm
  have hlen : 0 < m.1.length := List.length_pos_iff.2 (ite_nonempty s m hm)
  have hs : s.length = m.1.length + m.2.1.length := by rw [e, List.length_append]
  unfold replaceIte
  rw [sub_hit h, sub_fuel ite_nonempty _ m.2.1 (Nat.le_refl _) s.length (m.2.1.length + 1) (by omega) (by omega)]

theorem run_ite_none {s : List Char} (h : ¬ "ite(".toList <+: s) : iteRe.run s = [] := by
  simp only [iteRe, Re.cat, Re.run.eq_4, run_lit_none h, List.flatMap_nil]

theorem replaceIte_miss {c : Char} {s : List Char} (h : ¬ "ite(".toList <+: c :: s) : replaceIte (c :: s) = c :: replaceIte s := by
  unfold replaceIte
  rw [sub_miss (run_ite_none h)]
  rfl

/-- A text without a call of `ite` is not changed. -/
theorem replaceIte_none {s : List Char} (h : ¬ "ite(".toList <:+: s) : replaceIte s = s := by
  induction s with
  | nil =>
    unfold replaceIte
    rw [Re.sub.eq_def]
    simp [run_ite_none (fun hp => h hp.isInfix)]
  | cons c s ih => rw [replaceIte_miss fun hp => h hp.isInfix, ih fun hp => h (hp.trans (List.suffix_cons c s).isInfix)]

/-- Before the first call nothing is changed. -/
theorem replaceIte_skip {p t : List Char} (h : ¬ "ite(".toList <:+: p) : replaceIte (p ++ ("ite(".toList ++ t)) = p ++ replaceIte ("ite(".toList ++ t) := by
  induction p with
  | nil => rfl
  | cons c p ih =>
    rw [List.cons_append, replaceIte_miss, ih fun hp => h (hp.trans (List.suffix_cons c p).isInfix)]
    · rfl
    · rintro ⟨z, hz⟩
      have h4 : "ite(".toList = ['i', 't', 'e', '('] := by decide
      rw [h4] at hz h
      match p, hz, h with
      | [], hz, _ => simp at hz
      | [x], hz, _ => simp at hz
      | [x, y], hz, _ => simp at hz
      | x :: y :: w :: p, hz, h =>
        simp at hz
        obtain ⟨rfl, rfl, rfl, rfl, _⟩ := hz
        exact h ⟨[], p, rfl⟩

/-- **C73.** In every text, the first call `ite(c, a, b)` whose first two arguments contain no comma and whose third contains no closing parenthesis is
replaced by the conditional expression with the same three parts, the text before it is kept, and the rest is treated in the same way. -/
theorem C73_ite_text_partial (p c a b post : List Char) (hp : ¬ "ite(".toList <:+: p) (hc : c ≠ [] ∧ ',' ∉ c) (ha : a ≠ [] ∧ ',' ∉ a)
    (hb : b ≠ [] ∧ ')' ∉ b) :
    replaceIte (p ++ ("ite(".toList ++ (c ++ ',' :: (a ++ ',' :: (b ++ ')' :: post))))) =
      p ++ (strip a ++ " if ".toList ++ strip c ++ " else ".toList ++ strip b ++ replaceIte post) := by
  obtain ⟨m, h1, h2, h3⟩ := ite_head (post := post) hc.1 hc.2 ha.1 ha.2 hb.1 hb.2
  rw [replaceIte_skip hp, replaceIte_hit h1, h2, h3]

/-! ### Words -/

/-- What can stand after a word: a blank or a token of one character. -/
def Cuts (nl : Bool) (d : Char) : Prop := blank nl d = true ∨ (otherSpace d = false ∧ ∃ t, single d = some t)

theorem word_nil : word [] = some [] := rfl

theorem lexGo_blank {nl : Bool} {d : Char} (h : blank nl d = true) (t : List Char) : lexGo nl [] (d :: t) = lexGo nl [] t := by
  rw [lexGo, if_pos h, word_nil]
  cases lexGo nl [] t <;> rfl

theorem lexGo_single {nl : Bool} {d : Char} {k : Tok} (h : blank nl d = false) (h1 : otherSpace d = false) (h2 : single d = some k) (t : List Char) :
    lexGo nl [] (d :: t) = (lexGo nl [] t).map (k :: ·) := by
  rw [lexGo, h, h1, h2, word_nil]
  cases lexGo nl [] t <;> rfl

theorem lexGo_app {nl : Bool} {d : Char} (hd : Cuts nl d) (t : List Char) : ∀ (s w : List Char) (ts : List Tok), lexGo nl w s = some ts →
    lexGo nl w (s ++ d :: t) = (lexGo nl [] (d :: t)).map (ts ++ ·)
  | [], w, ts, h => by
    rw [lexGo] at h
    rw [List.nil_append]
    rcases hd with hd | ⟨hd, k, hk⟩
    · rw [lexGo_blank hd, lexGo, if_pos hd, h]
      cases lexGo nl [] t <;> rfl
    · cases hb : blank nl d with
      | true =>
        rw [lexGo_blank hb, lexGo, if_pos hb, h]
        cases lexGo nl [] t <;> rfl
      | false =>
        rw [lexGo_single hb hd hk, lexGo, hb, hd, hk, h]
        cases lexGo nl [] t <;> rfl
  | c :: s, w, ts, h => by
    rw [lexGo] at h
    rw [List.cons_append, lexGo]
    split at h
    · rename_i hb
      rw [if_pos hb]
      obtain ⟨t1, h1, h⟩ := Option.bind_eq_some_iff.1 h
      obtain ⟨t2, h2, h⟩ := Option.bind_eq_some_iff.1 h
      injection h with h
      subst h
      rw [h1, lexGo_app hd t s [] t2 h2]
      cases lexGo nl [] (d :: t) <;> simp
    · rename_i hb
      rw [if_neg hb]
      split at h
      · cases h
      · rename_i ho
        rw [if_neg ho]
        cases hk : single c with
        | some k =>
          rw [hk] at h
          simp only at h ⊢
          obtain ⟨t1, h1, h⟩ := Option.bind_eq_some_iff.1 h
          obtain ⟨t2, h2, h⟩ := Option.bind_eq_some_iff.1 h
          injection h with h
          subst h
          rw [h1, lexGo_app hd t s [] t2 h2]
          cases lexGo nl [] (d :: t) <;> simp
        | none =>
          rw [hk] at h
          simp only at h ⊢
          split at h
          · rename_i hw
            rw [if_pos hw, lexGo_app hd t s _ ts h]
          · rename_i hw
            rw [if_neg hw]
            obtain ⟨t1, h1, h⟩ := Option.bind_eq_some_iff.1 h
            obtain ⟨t2, h2, h⟩ := Option.bind_eq_some_iff.1 h
            injection h with h
            subst h
            rw [h1, lexGo_app hd t s _ t2 h2]
            cases lexGo nl [] (d :: t) <;> simp

theorem space_cases {nl : Bool} {c : Char} (h : isSpace c = true) : blank nl c = true ∨ otherSpace c = true := by
  simp only [isSpace, Bool.or_eq_true, decide_eq_true_eq] at h
  rcases h with ((((((((rfl | rfl) | rfl) | rfl) | rfl) | rfl) | rfl) | rfl) | rfl) | rfl <;> revert nl <;> decide

theorem blank_space {nl : Bool} {c : Char} (h : blank nl c = true) : isSpace c = true := by
  simp only [blank, Bool.or_eq_true, Bool.and_eq_true, decide_eq_true_eq] at h
  rcases h with (rfl | rfl) | ⟨-, rfl⟩ <;> decide

theorem lexGo_spaces {nl : Bool} : ∀ {v : List Char}, (∀ d ∈ v, isSpace d = true) → ∀ {w : List Char} {ts : List Tok}, lexGo nl w v = some ts →
    word w = some ts
  | [], _, w, ts, h => h
  | c :: v, hv, w, ts, h => by
    rw [lexGo] at h
    split at h
    · obtain ⟨t1, h1, h⟩ := Option.bind_eq_some_iff.1 h
      obtain ⟨t2, h2, h⟩ := Option.bind_eq_some_iff.1 h
      injection h with h
      have := lexGo_spaces (fun d hd => hv d (by simp [hd])) h2
      rw [word_nil] at this
      injection this with this
      rw [h1, ← h, ← this, List.append_nil]
    · rename_i hb
      rw [if_pos ((space_cases (hv c (by simp))).resolve_left hb)] at h
      cases h

theorem lexGo_trim_left {nl : Bool} {s : List Char} {ts : List Tok} : ∀ {v : List Char}, (∀ d ∈ v, isSpace d = true) → lexGo nl [] (v ++ s) = some ts →
    lexGo nl [] s = some ts
  | [], _, h => h
  | c :: v, hv, h => by
    rcases space_cases (nl := nl) (hv c (by simp)) with hb | ho
    · rw [List.cons_append, lexGo_blank hb] at h
      exact lexGo_trim_left (fun d hd => hv d (by simp [hd])) h
    · by_cases hb : blank nl c = true
      · rw [List.cons_append, lexGo_blank hb] at h
        exact lexGo_trim_left (fun d hd => hv d (by simp [hd])) h
      · rw [List.cons_append, lexGo, if_neg hb, if_pos ho] at h
        cases h

theorem lexGo_trim_right {nl : Bool} {v : List Char} (hv : ∀ d ∈ v, isSpace d = true) : ∀ {s w : List Char} {ts : List Tok}, lexGo nl w (s ++ v) = some ts →
    lexGo nl w s = some ts
  | [], w, ts, h => by
    rw [lexGo]
    exact lexGo_spaces hv h
  | c :: s, w, ts, h => by
    rw [List.cons_append, lexGo] at h
    rw [lexGo]
    split at h
    · rename_i hb
      rw [if_pos hb]
      obtain ⟨t1, h1, h⟩ := Option.bind_eq_some_iff.1 h
      obtain ⟨t2, h2, h⟩ := Option.bind_eq_some_iff.1 h
      rw [h1, lexGo_trim_right hv h2]
      exact h
    · rename_i hb
      rw [if_neg hb]
      split at h
      · cases h
      · rename_i ho
        rw [if_neg ho]
        cases hk : single c with
        | some k =>
          rw [hk] at h
          simp only at h ⊢
          obtain ⟨t1, h1, h⟩ := Option.bind_eq_some_iff.1 h
          obtain ⟨t2, h2, h⟩ := Option.bind_eq_some_iff.1 h
          rw [h1, lexGo_trim_right hv h2]
          exact h
        | none =>
          rw [hk] at h
          simp only at h ⊢
          split at h
          · rename_i hw
            rw [if_pos hw, lexGo_trim_right hv h]
          · rename_i hw
            rw [if_neg hw]
            obtain ⟨t1, h1, h⟩ := Option.bind_eq_some_iff.1 h
            obtain ⟨t2, h2, h⟩ := Option.bind_eq_some_iff.1 h
            rw [h1, lexGo_trim_right hv h2]
            exact h

theorem blank_line {c : Char} (h : c ≠ '\n') : blank true c = blank false c := by simp [blank, h]

theorem lexGo_line : ∀ {s w : List Char}, '\n' ∉ s → lexGo true w s = lexGo false w s
  | [], w, _ => by rw [lexGo, lexGo]
  | c :: s, w, h => by
    have hc : c ≠ '\n' := fun he => h (by rw [he]; simp)
    have hs : '\n' ∉ s := fun he => h (by simp [he])
    rw [lexGo, lexGo, blank_line hc, lexGo_line hs, lexGo_line hs]
    congr 1
    congr 1
    rw [lexGo_line hs]

/-- `strip` removes blanks only. -/
theorem strip_split (s : List Char) : ∃ v w, s = v ++ (strip s ++ w) ∧ (∀ d ∈ v, isSpace d = true) ∧ ∀ d ∈ w, isSpace d = true := by
  refine ⟨s.takeWhile isSpace, ((s.dropWhile isSpace).reverse.takeWhile isSpace).reverse, ?_, fun d hd => (List.all_eq_true.1 List.all_takeWhile) d hd, fun d hd => (List.all_eq_true.1 List.all_takeWhile) d (List.mem_reverse.1 hd)⟩
  unfold strip
  rw [← List.reverse_append, List.takeWhile_append_dropWhile, List.reverse_reverse, List.takeWhile_append_dropWhile]

theorem mem_strip {s : List Char} {d : Char} (h : d ∈ strip s) : d ∈ s := by
  obtain ⟨v, w, e, _⟩ := strip_split s
  rw [e]
  simp [h]

/-- The words of an argument are those of the text put into the conditional expression. -/
theorem lex_strip {s : List Char} {ts : List Tok} (hl : OneLine s) (h : lex true s = some ts) : lex false (strip s) = some ts := by
  obtain ⟨v, w, e, hv, hw⟩ := strip_split s
  have h1 : lexGo true [] (strip s) = some ts := by
    unfold lex at h
    rw [e] at h
    exact lexGo_trim_right hw (lexGo_trim_left hv h)
  unfold lex
  rw [← lexGo_line, h1]
  obtain ⟨x, y, z, rfl, hx, hy, hz⟩ := hl
  rw [strip_left fun d hd => blank_space (hx d hd), strip_right fun d hd => blank_space (hz d hd)]
  exact fun hd => hy (mem_strip hd)

theorem lex_cut {nl : Bool} {d : Char} {s t : List Char} {ts us : List Tok} (hd : Cuts nl d) (h : lex nl s = some ts) (h' : lex nl (d :: t) = some us) :
    lex nl (s ++ d :: t) = some (ts ++ us) := by
  unfold lex at *
  rw [lexGo_app hd t s [] ts h, h']
  rfl

theorem lex_blank {nl : Bool} {t : List Char} {us : List Tok} (h : lex nl t = some us) : lex nl (' ' :: t) = some us := by
  unfold lex at *
  rw [lexGo_blank (by cases nl <;> rfl), h]

theorem lex_single {nl : Bool} {d : Char} {k : Tok} {t : List Char} {us : List Tok} (h : blank nl d = false) (h1 : otherSpace d = false) (h2 : single d = some k)
    (h3 : lex nl t = some us) : lex nl (d :: t) = some (k :: us) := by
  unfold lex at *
  rw [lexGo_single h h1 h2, h3]
  rfl

theorem cuts_blank {nl : Bool} : Cuts nl ' ' := .inl (by cases nl <;> rfl)

/-- No expression is empty. -/
theorem reads_nonempty {k : Nat} {s : List Char} {ts : List Tok} {a : Ast} (h : Reads k ts a) (hs : lex true s = some ts) : s ≠ [] := by
  rintro rfl
  injection hs with hs
  subst hs
  exact h.head (stops_rpar k []) (t := .rpar) rfl (.inl rfl)

/-- **C73.** For every call `ite(c, a, b)` whose arguments are expressions, the first two neither conditional nor with a comma, the third without a closing
parenthesis, none with a line break inside: if the call has a value then the text that replaces it is an expression with that value. -/
theorem C73_ite_partial (S : Scope) (hS : IteScope S) (c a b : List Char) (tc ta tb : List Tok) (C A B : Ast) (v : Val)
    (hc : ',' ∉ c) (ha : ',' ∉ a) (hb : ')' ∉ b) (lc : OneLine c) (la : OneLine a) (lb : OneLine b)
    (xc : lex true c = some tc) (xa : lex true a = some ta) (xb : lex true b = some tb) (rc : Reads 1 tc C) (ra : Reads 1 ta A) (rb : Reads 0 tb B)
    (hv : HasValue true S ("ite(".toList ++ (c ++ ',' :: (a ++ ',' :: (b ++ [')'])))) v) :
    HasValue false S (replaceIte ("ite(".toList ++ (c ++ ',' :: (a ++ ',' :: (b ++ [')']))))) v := by
  have h1 : lex true ("ite(".toList ++ (c ++ ',' :: (a ++ ',' :: (b ++ [')'])))) = some ([.name "ite"] ++ (.lpar :: (tc ++ .comma :: (ta ++ .comma :: (tb ++ [.rpar]))))) := by
    have he : "ite(".toList ++ (c ++ ',' :: (a ++ ',' :: (b ++ [')']))) = ['i', 't', 'e'] ++ '(' :: (c ++ ',' :: (a ++ ',' :: (b ++ [')']))) := by
      rw [show "ite(".toList = ['i', 't', 'e', '('] by decide]
      rfl
    rw [he]
    have hk : Cuts true ',' := .inr ⟨rfl, .comma, rfl⟩
    refine lex_cut (.inr ⟨rfl, .lpar, rfl⟩) (by decide +kernel) (lex_single rfl rfl rfl (lex_cut hk xc (lex_single rfl rfl rfl (lex_cut hk xa
      (lex_single rfl rfl rfl (lex_cut (.inr ⟨rfl, .rpar, rfl⟩) xb rfl))))))
  have p1 : Parses ([.name "ite"] ++ (.lpar :: (tc ++ .comma :: (ta ++ .comma :: (tb ++ [.rpar]))))) (.call (.name "ite") [C, A, B]) := by
    have hp := ((atom_name "ite").primary.trail (trail_call (.cons (rc.lift (by decide) (by decide)) (.cons (ra.lift (by decide) (by decide)) (.cons rb .nil))) (.name "ite"))).reads
    have hp := (hp.lift (k := 0) (by decide) (by decide)).parses
    simpa [joinToks] using hp
  obtain ⟨ts, x, e1, e2, e3⟩ := hv
  rw [h1] at e1
  injection e1 with e1
  subst e1
  obtain rfl := e2.unique p1
  have hr := C73_ite_text_partial [] c a b [] (by decide) ⟨reads_nonempty rc xc, hc⟩ ⟨reads_nonempty ra xa, ha⟩ ⟨reads_nonempty rb xb, hb⟩
  rw [List.nil_append, List.nil_append] at hr
  rw [hr]
  refine ⟨ta ++ .kif :: (tc ++ .kelse :: tb), .ite C A B, ?_, (reads_ite ra rc rb).parses, ?_⟩
  · have he : strip a ++ " if ".toList ++ strip c ++ " else ".toList ++ strip b ++ replaceIte [] =
        strip a ++ ' ' :: (['i', 'f'] ++ ' ' :: (strip c ++ ' ' :: (['e', 'l', 's', 'e'] ++ ' ' :: strip b))) := by
      rw [show " if ".toList = [' ', 'i', 'f', ' '] by decide, show " else ".toList = [' ', 'e', 'l', 's', 'e', ' '] by decide, show replaceIte [] = [] by decide +kernel]
      simp
    rw [he]
    have h5 : lex false (['e', 'l', 's', 'e'] ++ ' ' :: strip b) = some ([.kelse] ++ tb) := lex_cut cuts_blank (by decide +kernel) (lex_blank (lex_strip lb xb))
    have h6 := lex_cut (cuts_blank (nl := false)) (lex_strip lc xc) (lex_blank h5)
    have h7 : lex false (['i', 'f'] ++ ' ' :: _) = some ([.kif] ++ _) := lex_cut cuts_blank (by decide +kernel) (lex_blank h6)
    exact lex_cut (cuts_blank (nl := false)) (lex_strip la xa) (lex_blank h7)
  · simp only [Py.eval, Py.evals, hS.loc, Option.getD_none, Option.bind_some, Option.bind_eq_some_iff, Scope.apply] at e3
    obtain ⟨vs, ⟨vc, hc', ws, ⟨va, ha', us, ⟨vb, hb', h8⟩, h9⟩, h10⟩, e3⟩ := e3
    injection h8 with h8
    injection h9 with h9
    injection h10 with h10
    subst h8 h9 h10
    rw [if_neg (by decide), hS.glob] at e3
    simp only [Py.eval, hc', Option.bind_some]
    cases hb : vc.asBool <;> rw [hb] at e3 <;> simpa [ha', hb'] using e3

/-! ### The program -/

/-- **C73.** For every such reply without `ite(`, the program checked is the codes of all blocks, separated by blank lines. -/
theorem C73_program_partial (bs : List Block) (last : List Char) (hb : ∀ b ∈ bs, b.Plain) (hl : ¬ "```".toList <:+: last)
    (hi : ¬ "ite(".toList <:+: ['\n', '\n'].intercalate (bs.map Block.code)) :
    (solution .gpt (replyText bs last)).bind program = some (['\n', '\n'].intercalate (bs.map Block.code)) := by
  simp only [solution, C73_blocks_partial bs last hb hl, replaceIte_none hi]
  rfl

/-- **C73.** The same for the third service if the reply has one block. -/
theorem C73_one_block_partial (b : Block) (last : List Char) (hb : b.Plain) (hl : ¬ "```".toList <:+: last) (hi : ¬ "ite(".toList <:+: b.code) :
    (solution .gemini (replyText [b] last)).bind program = some b.code := by
  have h := C73_blocks_partial [b] last (by simpa using hb) hl
  simp only [solution, h, List.map_cons, List.map_nil, List.head?_cons, Option.map_some, Option.bind_some, replaceIte_none hi]
  rfl

end Metalift.Llm.Reply
