import Verif.Demangle
/-
C70: a call is read as a call of the function that is called.
-/
namespace Metalift
namespace Ll
open Regex

/-! ### Names of C++ functions

The text that `c++filt` prints for a function: the result type (for instances of templates), the scopes, the name, the arguments of the template, the types of the
parameters, and `const`. -/

structure Sig where
  ret : Option String := none
  scopes : List String := []
  name : String
  targs : Option String := none
  params : String
  isConst : Bool := false

def Sig.outer (s : Sig) : List Char :=
  (match s.ret with | some r => r.toList ++ [' '] | none => []) ++ s.scopes.flatMap fun x => x.toList ++ [':', ':']

def Sig.inst (s : Sig) : List Char := match s.targs with | some t => '<' :: (t.toList ++ ['>']) | none => []

def Sig.text (s : Sig) : List Char :=
  s.outer ++ (s.name.toList ++ (s.inst ++ ('(' :: (s.params.toList ++ (')' :: if s.isConst then " const".toList else [])))))

/-- Names of functions, destructors, and `operator[]`. -/
def NameText (n : List Char) : Prop := ∃ t w b, n = t ++ (w ++ b) ∧ (t = [] ∨ t = ['~']) ∧ w ≠ [] ∧ (∀ c ∈ w, isWord c = true) ∧ (b = [] ∨ b = ['[', ']'])

/-- Neither the scopes nor the parameters have parentheses (function types); an instance of a template has simple arguments and is not in a scope with
template arguments. -/
structure Sig.Ok (s : Sig) : Prop where
  name : NameText s.name.toList
  outer : ∀ c ∈ s.outer, c ≠ '(' ∧ c ≠ '\n'
  params : ∀ c ∈ s.params.toList, c ≠ '(' ∧ c ≠ '\n'
  targs : ∀ t, s.targs = some t → (∀ c ∈ t.toList, c ≠ '(' ∧ c ≠ '\n' ∧ c ≠ ' ' ∧ c ≠ ':') ∧ '<' ∉ s.outer

/-! ### Characters -/

theorem word_ne {c : Char} (h : isWord c = true) {d : Char} (hd : isWord d = false) : c ≠ d := by
  rintro rfl
  rw [h] at hd
  cases hd

theorem name_ne {n : List Char} (h : NameText n) {d : Char} (hd : isWord d = false) (h1 : d ≠ '~') (h2 : d ≠ '[') (h3 : d ≠ ']') : d ∉ n := by
  obtain ⟨t, w, b, rfl, ht, _, hw, hb⟩ := h
  simp only [List.mem_append, not_or]
  refine ⟨?_, fun hc => word_ne (hw d hc) hd rfl, ?_⟩
  · rcases ht with rfl | rfl
    · simp
    · simpa using h1
  · rcases hb with rfl | rfl
    · simp
    · simp [h2, h3]

theorem NameText.ne {n : List Char} (h : NameText n) : n ≠ [] := by
  obtain ⟨t, w, b, rfl, _, hw, _⟩ := h
  simp [hw]

/-- Empty, or with a space or a colon at the end. -/
def EndsScope (x : List Char) : Prop := x = [] ∨ ∃ y c, x = y ++ [c] ∧ (c = ' ' ∨ c = ':')

theorem EndsScope.append {x y : List Char} (hx : EndsScope x) (hy : EndsScope y) : EndsScope (x ++ y) := by
  rcases hy with rfl | ⟨z, c, rfl, hc⟩
  · rwa [List.append_nil]
  · exact .inr ⟨x ++ z, c, by rw [List.append_assoc], hc⟩

theorem getLast_append {x y : List Char} (h : y ≠ []) : (x ++ y).getLast? = y.getLast? := by
  rw [List.getLast?_append]
  cases hy : y.getLast? with
  | none => exact absurd (List.getLast?_eq_none_iff.1 hy) h
  | some c => rfl

theorem EndsScope.suffix {x y : List Char} (h : EndsScope (x ++ y)) (hy : y ≠ []) : ' ' ∈ y ∨ ':' ∈ y := by
  rcases h with h | ⟨z, c, e, hc⟩
  · exact absurd (List.append_eq_nil_iff.1 h).2 hy
  · have : c ∈ y := by
      have hl := congrArg List.getLast? e
      rw [getLast_append hy, List.getLast?_concat] at hl
      exact List.mem_of_getLast? hl
    rcases hc with rfl | rfl
    · exact .inl this
    · exact .inr this

theorem outer_ends (s : Sig) : EndsScope s.outer := by
  unfold Sig.outer
  refine EndsScope.append ?_ ?_
  · cases s.ret with
    | none => exact .inl rfl
    | some r => exact .inr ⟨_, _, rfl, .inl rfl⟩
  · induction s.scopes with
    | nil => exact .inl rfl
    | cons x xs ih =>
      rw [List.flatMap_cons]
      exact EndsScope.append (.inr ⟨x.toList ++ [':'], ':', by simp, .inr rfl⟩) ih

/-- A name is determined by a text that ends in it. -/
theorem name_unique {x y n m : List Char} (hx : EndsScope x) (hy : EndsScope y) (hn : NameText n) (hm : NameText m) (h : x ++ n = y ++ m) : n = m := by
  rcases List.append_eq_append_iff.1 h with ⟨a, rfl, rfl⟩ | ⟨a, rfl, rfl⟩
  · by_cases ha : a = []
    · simp [ha]
    · rcases hy.suffix ha with hc | hc
      · exact absurd (List.mem_append_left m hc) (name_ne hn (by decide) (by decide) (by decide) (by decide))
      · exact absurd (List.mem_append_left m hc) (name_ne hn (by decide) (by decide) (by decide) (by decide))
  · by_cases ha : a = []
    · simp [ha]
    · rcases hx.suffix ha with hc | hc
      · exact absurd (List.mem_append_left n hc) (name_ne hm (by decide) (by decide) (by decide) (by decide))
      · exact absurd (List.mem_append_left n hc) (name_ne hm (by decide) (by decide) (by decide) (by decide))

/-- The only parenthesis splits a text in one way. -/
theorem paren_split {p q u v : List Char} (hp : '(' ∉ p) (hu : '(' ∉ u) (h : p ++ '(' :: u = q ++ '(' :: v) : q = p ∧ v = u := by
  induction p generalizing q with
  | nil =>
    cases q with
    | nil => simpa using h.symm
    | cons d q =>
      simp only [List.nil_append, List.cons_append, List.cons.injEq] at h
      exact absurd (by rw [h.2]; simp) hu
  | cons c p ih =>
    cases q with
    | nil =>
      simp only [List.nil_append, List.cons_append, List.cons.injEq] at h
      exact absurd (by rw [h.1]; simp) hp
    | cons d q =>
      simp only [List.cons_append, List.cons.injEq] at h
      obtain ⟨rfl, rfl⟩ := ih (fun hm => hp (by simp [hm])) h.2
      exact ⟨by rw [h.1], rfl⟩

/-! ### Matches of the two expressions -/

theorem matches_name {z rest : List Char} {m : Caps} (h : Matches nameRe z rest m) : NameText z := by
  simp only [nameRe, Re.cat, matches_seq, matches_opt, matches_lit, matches_plus_cls, matches_grp] at h
  obtain ⟨t, y, k, l, rfl, _, ht, w, b, k2, l2, rfl, _, ⟨h1, h2, _⟩, hb⟩ := h
  refine ⟨t, w, b, rfl, ?_, h1, h2, ?_⟩
  · rcases ht with ⟨h, _⟩ | ⟨h, _⟩ <;> simp [h]
  · rcases hb with ⟨_, _, h, _⟩ | ⟨h, _⟩ <;> simp [h]

theorem name_matches {z : List Char} (h : NameText z) (rest : List Char) : ∃ m, Matches nameRe z rest m := by
  obtain ⟨t, w, b, rfl, ht, h1, h2, hb⟩ := h
  refine ⟨(if b = [] then [] else [(4, b)]) ++ [] ++ [], ?_⟩
  refine matches_seq.2 ⟨t, w ++ b, _, _, rfl, rfl, ?_, matches_seq.2 ⟨w, b, _, _, rfl, rfl, matches_plus_cls.2 ⟨h1, h2, rfl⟩, ?_⟩⟩
  · rw [matches_opt, matches_lit]
    rcases ht with rfl | rfl <;> simp
  · rw [Re.cat, matches_opt, matches_grp]
    rcases hb with rfl | rfl
    · simp
    · left
      exact ⟨[], by simp, matches_lit.2 ⟨rfl, rfl⟩⟩

theorem matches_scopes {z rest : List Char} {m : Caps} (h : Matches (.star (.grp 2 (.cat [.star .any, .lit [':', ':']]))) z rest m) : EndsScope z := by
  generalize hr : Re.star (.grp 2 (.cat [.star .any, .lit [':', ':']])) = r at h
  induction h with
  | nil => exact .inl rfl
  | cons hne m1 _ _ ih =>
    injection hr with hr
    subst hr
    refine EndsScope.append ?_ (ih rfl)
    obtain ⟨k, _, m1⟩ := matches_grp.1 m1
    simp only [Re.cat, matches_seq, matches_lit] at m1
    obtain ⟨a, b, _, _, rfl, _, _, rfl, _⟩ := m1
    exact .inr ⟨a ++ [':'], ':', by simp, .inr rfl⟩
  | lnil => cases hr
  | lcons => cases hr
  | cls => cases hr
  | eps => cases hr
  | seq => cases hr
  | left => cases hr
  | right => cases hr
  | grp => cases hr
  | eoi => cases hr
  | eol => cases hr

/-- The parts of a match of the second expression. -/
theorem matches_qual {z rest : List Char} {m : Caps} (h : Matches qualRe z rest m) :
    ∃ x n t v, z = x ++ (n ++ (t ++ '(' :: v)) ∧ EndsScope x ∧ NameText n ∧ (t = [] ∨ ∃ u, t = '<' :: (u ++ ['>'])) ∧ m.lookup 3 = some n := by
  unfold qualRe at h
  simp only [Re.cat] at h
  obtain ⟨a, y1, k1, l1, rfl, rfl, ha, h⟩ := matches_seq.1 h
  obtain ⟨b, y2, k2, l2, rfl, rfl, hb, h⟩ := matches_seq.1 h
  obtain ⟨n, y3, k3, l3, rfl, rfl, hn, h⟩ := matches_seq.1 h
  obtain ⟨t, y4, k4, l4, rfl, rfl, ht, h⟩ := matches_seq.1 h
  obtain ⟨o, y5, k5, l5, rfl, rfl, ho, h⟩ := matches_seq.1 h
  obtain ⟨q, y6, k6, l6, rfl, rfl, hq, h⟩ := matches_seq.1 h
  obtain ⟨c, y7, k7, l7, rfl, rfl, hc, h⟩ := matches_seq.1 h
  obtain ⟨d, e, k8, l8, rfl, rfl, hd, he⟩ := matches_seq.1 h
  obtain ⟨rfl, rfl, _⟩ := matches_eoi.1 he
  obtain ⟨rfl, rfl⟩ := matches_lit.1 ho
  obtain ⟨rfl, rfl⟩ := matches_lit.1 hc
  obtain ⟨_, rfl⟩ := matches_star_cls.1 hq
  obtain ⟨kn, rfl, hn'⟩ := matches_grp.1 hn
  have ha' : EndsScope a := by
    rcases matches_opt.1 ha with ha | ⟨rfl, _⟩
    · obtain ⟨_, _, ha⟩ := matches_grp.1 ha
      simp only [Re.cat, matches_seq, matches_lit] at ha
      obtain ⟨a, b, _, _, rfl, _, _, rfl, _⟩ := ha
      exact .inr ⟨a, ' ', rfl, .inl rfl⟩
    · exact .inl rfl
  refine ⟨a ++ b, n, t, q ++ ([')'] ++ (d ++ [])), by simp, ha'.append (matches_scopes hb), matches_name hn', ?_, ?_⟩
  · rcases matches_opt.1 ht with ht | ⟨rfl, _⟩
    · obtain ⟨_, _, ht⟩ := matches_grp.1 ht
      simp only [Re.cat, matches_seq, matches_lit] at ht
      obtain ⟨x, y, _, _, rfl, _, ⟨rfl, _⟩, u, v, _, _, rfl, _, _, rfl, _⟩ := ht
      exact .inr ⟨u, rfl⟩
    · exact .inl rfl
  · have e1 : k8 = [] ∨ ∃ x, k8 = [(6, x)] := by
      rcases matches_opt.1 hd with hd | ⟨_, rfl⟩
      · obtain ⟨k, rfl, hd2⟩ := matches_grp.1 hd
        obtain ⟨_, rfl⟩ := matches_lit.1 hd2
        exact .inr ⟨_, rfl⟩
      · exact .inl rfl
    have e2 : k4 = [] ∨ ∃ x, k4 = [(5, x)] := by
      rcases matches_opt.1 ht with ht | ⟨_, rfl⟩
      · obtain ⟨k, rfl, ht2⟩ := matches_grp.1 ht
        simp only [Re.cat, matches_seq, matches_lit, matches_star_cls, Re.any] at ht2
        obtain ⟨x, y, _, _, _, rfl, ⟨_, rfl⟩, u, v, _, _, _, rfl, ⟨_, rfl⟩, _, rfl⟩ := ht2
        exact .inr ⟨_, rfl⟩
      · exact .inl rfl
    rcases e1 with rfl | ⟨x, rfl⟩ <;> rcases e2 with rfl | ⟨y, rfl⟩ <;> simp [List.lookup]

theorem matches_plain {z rest : List Char} {m : Caps} (h : Matches plainRe z rest m) :
    ∃ w o, z = w ++ o ∧ (∀ c ∈ w, isWord c = true) ∧ (o = [] ∨ ∃ v, o = '(' :: v) ∧ m.lookup 1 = some w ∧ (rest = [] ∨ rest = ['\n']) := by
  unfold plainRe at h
  simp only [Re.cat] at h
  obtain ⟨w, y1, k1, l1, rfl, rfl, hw, h⟩ := matches_seq.1 h
  obtain ⟨o, e, k2, l2, rfl, rfl, ho, he⟩ := matches_seq.1 h
  obtain ⟨rfl, rfl, hr⟩ := matches_eoi.1 he
  obtain ⟨k, rfl, hw1⟩ := matches_grp.1 hw
  obtain ⟨_, hw2, rfl⟩ := matches_plus_cls.1 hw1
  refine ⟨w, o, by simp, hw2, ?_, ?_, hr⟩
  · rcases matches_opt.1 ho with ho | ⟨rfl, _⟩
    · obtain ⟨_, _, ho⟩ := matches_grp.1 ho
      simp only [Re.cat, matches_seq, matches_lit] at ho
      obtain ⟨x, y, _, _, rfl, _, ⟨rfl, _⟩, _⟩ := ho
      exact .inr ⟨y, rfl⟩
    · exact .inl rfl
  · rcases matches_opt.1 ho with ho | ⟨_, rfl⟩
    · obtain ⟨k, rfl, ho2⟩ := matches_grp.1 ho
      simp only [Re.cat, matches_seq, matches_lit, matches_star_cls, Re.any] at ho2
      obtain ⟨x, y, _, _, _, rfl, ⟨_, rfl⟩, u, v, _, _, _, rfl, ⟨_, rfl⟩, _, rfl⟩ := ho2
      simp [List.lookup]
    · simp [List.lookup]

/-! ### Signatures -/

/-- The text before the parenthesis. -/
def Sig.head (s : Sig) : List Char := s.outer ++ (s.name.toList ++ s.inst)

theorem Sig.text_head (s : Sig) : s.text = s.head ++ '(' :: (s.params.toList ++ (')' :: if s.isConst then " const".toList else [])) := by
  simp only [Sig.text, Sig.head, List.append_assoc]

theorem Sig.Ok.head {s : Sig} (h : s.Ok) : '(' ∉ s.head := by
  simp only [Sig.head, List.mem_append, not_or]
  refine ⟨fun hc => (h.outer _ hc).1 rfl, name_ne h.name (by decide) (by decide) (by decide) (by decide), ?_⟩
  unfold Sig.inst
  cases ht : s.targs with
  | none => simp
  | some t =>
    simp only [List.mem_cons, List.mem_append, not_or]
    exact ⟨by decide, fun hc => ((h.targs t ht).1 _ hc).1 rfl, by decide, by simp⟩

theorem Sig.Ok.tail {s : Sig} (h : s.Ok) : '(' ∉ s.params.toList ++ (')' :: if s.isConst then " const".toList else []) := by
  simp only [List.mem_append, List.mem_cons, not_or]
  refine ⟨fun hc => (h.params _ hc).1 rfl, by decide, ?_⟩
  split <;> decide

/-- All ways in which the second expression matches give the name. -/
theorem qual_name {s : Sig} (h : s.Ok) {z rest : List Char} {m : Caps} (hz : s.text = z ++ rest) (hm : Matches qualRe z rest m) :
    m.lookup 3 = some s.name.toList := by
  obtain ⟨x, n, t, v, rfl, hx, hn, ht, hl⟩ := matches_qual hm
  rw [hl]
  rw [s.text_head] at hz
  have e : (x ++ (n ++ (t ++ '(' :: v))) ++ rest = (x ++ (n ++ t)) ++ '(' :: (v ++ rest) := by simp
  rw [e] at hz
  obtain ⟨hp, _⟩ := paren_split h.head h.tail hz
  unfold Sig.head at hp
  congr 1
  have hlast : ∀ {y : List Char}, NameText y → '>' ∉ y := fun hy => name_ne hy (by decide) (by decide) (by decide) (by decide)
  have hlt : ∀ {y : List Char}, NameText y → '<' ∉ y := fun hy => name_ne hy (by decide) (by decide) (by decide) (by decide)
  cases hs : s.targs with
  | none =>
    have hi : s.inst = [] := by rw [Sig.inst, hs]
    rw [hi, List.append_nil] at hp
    rcases ht with rfl | ⟨u, rfl⟩
    · rw [List.append_nil] at hp
      exact name_unique hx (outer_ends s) hn h.name hp
    · have hg := congrArg List.getLast? hp
      have e1 : x ++ (n ++ '<' :: (u ++ ['>'])) = (x ++ (n ++ '<' :: u)) ++ ['>'] := by simp
      rw [e1, List.getLast?_concat, getLast_append h.name.ne] at hg
      exact absurd (List.mem_of_getLast? hg.symm) (hlast h.name)
  | some u =>
    obtain ⟨hu, ho⟩ := h.targs u hs
    have hi : s.inst = '<' :: (u.toList ++ ['>']) := by rw [Sig.inst, hs]
    rw [hi] at hp
    rcases ht with rfl | ⟨w, rfl⟩
    · have hg := congrArg List.getLast? hp
      have e1 : s.outer ++ (s.name.toList ++ '<' :: (u.toList ++ ['>'])) = (s.outer ++ (s.name.toList ++ '<' :: u.toList)) ++ ['>'] := by simp
      rw [List.append_nil, e1, List.getLast?_concat, getLast_append hn.ne] at hg
      exact absurd (List.mem_of_getLast? hg) (hlast hn)
    · rw [← List.append_assoc, ← List.append_assoc] at hp
      rcases List.append_eq_append_iff.1 hp with ⟨a, e1, e2⟩ | ⟨a, e1, e2⟩
      · cases a with
        | nil =>
          rw [List.append_nil] at e1
          exact (name_unique (outer_ends s) hx h.name hn e1).symm
        | cons c a =>
          rw [List.cons_append, List.cons.injEq] at e2
          have : '<' ∈ s.outer ++ s.name.toList := by rw [e1, e2.1]; simp
          rcases List.mem_append.1 this with hc | hc
          · exact absurd hc ho
          · exact absurd hc (hlt h.name)
      · cases a with
        | nil =>
          rw [List.append_nil] at e1
          exact name_unique hx (outer_ends s) hn h.name e1
        | cons c a =>
          exfalso
          rw [List.cons_append, List.cons.injEq] at e2
          have hc : c = '<' := e2.1.symm
          subst hc
          have ha : ∀ d ∈ a, d ≠ ' ' ∧ d ≠ ':' := by
            intro d hd
            have : d ∈ u.toList ++ ['>'] := by rw [e2.2]; simp [hd]
            rcases List.mem_append.1 this with hd | hd
            · exact ⟨(hu d hd).2.2.1, (hu d hd).2.2.2⟩
            · rw [List.mem_singleton.1 hd]
              exact ⟨by decide, by decide⟩
          rcases List.append_eq_append_iff.1 e1 with ⟨b, _, f2⟩ | ⟨b, f1, f2⟩
          · exact absurd (by rw [f2]; simp) (hlt hn)
          · have hb : b ≠ [] := by
              rintro rfl
              exact absurd (by rw [List.nil_append] at f2; rw [← f2]; simp) (hlt hn)
            rw [f1] at hx
            have hm : ∀ d ∈ b, d ≠ ' ' ∧ d ≠ ':' := by
              intro d hd
              have : d ∈ '<' :: a := by rw [f2]; simp [hd]
              rcases List.mem_cons.1 this with rfl | hd
              · exact ⟨by decide, by decide⟩
              · exact ha d hd
            rcases hx.suffix hb with hc | hc
            · exact (hm _ hc).1 rfl
            · exact (hm _ hc).2 rfl

/-- The first expression matches only plain names. -/
theorem plain_name {s : Sig} (h : s.Ok) {z rest : List Char} {m : Caps} (hz : s.text = z ++ rest) (hm : Matches plainRe z rest m) :
    m.lookup 1 = some s.name.toList := by
  obtain ⟨w, o, rfl, hw, ho, hl, hr⟩ := matches_plain hm
  rw [hl]
  congr 1
  rw [s.text_head] at hz
  rcases ho with rfl | ⟨v, rfl⟩
  · have : '(' ∈ w ++ [] ++ rest := by rw [← hz]; simp
    rw [List.append_nil, List.mem_append] at this
    rcases this with hc | hc
    · exact absurd (hw _ hc) (by decide)
    · rcases hr with rfl | rfl
      · cases hc
      · exact absurd hc (by decide)
  · have e : w ++ '(' :: v ++ rest = w ++ '(' :: (v ++ rest) := by simp
    rw [e] at hz
    obtain ⟨rfl, _⟩ := paren_split h.head h.tail hz
    have ho : s.outer = [] := by
      cases he : s.outer with
      | nil => rfl
      | cons c cs =>
        have hs := outer_ends s
        rw [← List.nil_append s.outer] at hs
        rcases hs.suffix (by simp [he]) with hc | hc
        · exact absurd (hw ' ' (List.mem_append_left _ hc)) (by decide)
        · exact absurd (hw ':' (List.mem_append_left _ hc)) (by decide)
    have hi : s.inst = [] := by
      cases ht : s.targs with
      | none => rw [Sig.inst, ht]
      | some t => exact absurd (hw '<' (by simp [Sig.head, Sig.inst, ht])) (by decide)
    rw [Sig.head, ho, hi, List.nil_append, List.append_nil]

theorem outer_matches {s : Sig} (h : s.Ok) (rest : List Char) : ∃ a b k l, s.outer = a ++ b ∧
    Matches (Re.opt (.grp 1 (.cat [.star .any, .lit [' ']]))) a (b ++ rest) k ∧ Matches (.star (.grp 2 (.cat [.star .any, .lit [':', ':']]))) b rest l := by
  have hany : ∀ {x : List Char}, (∀ c ∈ x, c ≠ '\n') → ∀ r, Matches (.star .any) x r [] := fun hx r =>
    matches_star_cls.2 ⟨fun c hc => decide_eq_true (hx c hc), rfl⟩
  have hnl : ∀ c ∈ s.outer, c ≠ '\n' := fun c hc => (h.outer c hc).2
  unfold Sig.outer at hnl ⊢
  have hb : ∃ l, Matches (.star (.grp 2 (.cat [.star .any, .lit [':', ':']]))) (s.scopes.flatMap fun x => x.toList ++ [':', ':']) rest l := by
    cases hs : s.scopes.reverse with
    | nil =>
      rw [List.reverse_eq_nil_iff] at hs
      rw [hs]
      exact ⟨[], .nil⟩
    | cons y ys =>
      have e : s.scopes = ys.reverse ++ [y] := by rw [← List.reverse_reverse s.scopes, hs, List.reverse_cons]
      have e2 : s.scopes.flatMap (fun x => x.toList ++ [':', ':']) = (ys.reverse.flatMap (fun x => x.toList ++ [':', ':']) ++ y.toList) ++ [':', ':'] := by
        rw [e, List.flatMap_append, List.flatMap_cons, List.flatMap_nil, List.append_nil, List.append_assoc]
      rw [e2]
      have hx : ∀ c ∈ ys.reverse.flatMap (fun x => x.toList ++ [':', ':']) ++ y.toList, c ≠ '\n' := by
        intro c hc
        refine hnl c (List.mem_append.2 (.inr ?_))
        rw [e2]
        exact List.mem_append.2 (.inl hc)
      have hm : ∀ r : List Char, Matches (.grp 2 (.cat [.star .any, .lit [':', ':']])) ((ys.reverse.flatMap (fun x => x.toList ++ [':', ':']) ++ y.toList) ++ [':', ':']) r
          [(2, (ys.reverse.flatMap (fun x => x.toList ++ [':', ':']) ++ y.toList) ++ [':', ':'])] :=
        fun r => .grp (.seq (k := []) (l := []) (hany hx _) (matches_lit.2 ⟨rfl, rfl⟩))
      have := Matches.cons (y := []) (by simp) (hm _) (.nil (rest := rest))
      rw [List.append_nil] at this
      exact ⟨_, this⟩
  obtain ⟨l, hb⟩ := hb
  cases hr : s.ret with
  | none => exact ⟨[], _, [], l, rfl, matches_opt.2 (.inr ⟨rfl, rfl⟩), hb⟩
  | some r =>
    refine ⟨r.toList ++ [' '], _, _, l, rfl, matches_opt.2 (.inl (.grp (.seq (hany ?_ _) (matches_lit.2 ⟨rfl, rfl⟩)))), hb⟩
    intro c hc
    refine hnl c (List.mem_append.2 (.inl ?_))
    rw [hr]
    simp [hc]

/-- The second expression matches. -/
theorem qual_matches {s : Sig} (h : s.Ok) : ∃ m, Matches qualRe s.text [] m := by
  have hany : ∀ {x : List Char}, (∀ c ∈ x, c ≠ '\n') → ∀ r, Matches (.star .any) x r [] := fun hx r =>
    matches_star_cls.2 ⟨fun c hc => decide_eq_true (hx c hc), rfl⟩
  obtain ⟨a, b, k, l, e, ha, hb⟩ := outer_matches h
    ((s.name.toList ++ (s.inst ++ ('(' :: (s.params.toList ++ (')' :: if s.isConst then " const".toList else []))))) ++ [])
  obtain ⟨kn, hn⟩ := name_matches h.name ((s.inst ++ ('(' :: (s.params.toList ++ (')' :: if s.isConst then " const".toList else [])))) ++ [])
  have ht : ∃ kt, Matches (Re.opt (.grp 5 (.cat [.lit ['<'], .star .any, .lit ['>']]))) s.inst
      (('(' :: (s.params.toList ++ (')' :: if s.isConst then " const".toList else []))) ++ []) kt := by
    unfold Sig.inst
    cases ht : s.targs with
    | none => exact ⟨[], matches_opt.2 (.inr ⟨rfl, rfl⟩)⟩
    | some t =>
      refine ⟨_, matches_opt.2 (.inl (.grp (.seq (x := ['<']) (matches_lit.2 ⟨rfl, rfl⟩) (.seq (hany ?_ _) (matches_lit.2 ⟨rfl, rfl⟩)))))⟩
      exact fun c hc => ((h.targs t ht).1 c hc).2.1
  obtain ⟨kt, ht⟩ := ht
  have hc : ∃ kc, Matches (Re.opt (.grp 6 (.lit " const".toList))) (if s.isConst then " const".toList else []) [] kc := by
    cases s.isConst with
    | true => exact ⟨_, matches_opt.2 (.inl (.grp (matches_lit.2 ⟨rfl, rfl⟩)))⟩
    | false => exact ⟨_, matches_opt.2 (.inr ⟨rfl, rfl⟩)⟩
  obtain ⟨kc, hc⟩ := hc
  have hc2 : Matches (Re.cat [.opt (.grp 6 (.lit " const".toList)), .eoi]) (if s.isConst then " const".toList else []) [] ([] ++ kc) := by
    have := Matches.seq (y := []) hc (matches_eoi.2 ⟨rfl, rfl, .inl rfl⟩)
    rwa [List.append_nil] at this
  have hp := fun c hc => (h.params c hc).2
  have h1 := Matches.seq hb (.seq (.grp (n := 3) hn) (.seq ht (.seq (x := ['(']) (a := .lit ['(']) (matches_lit.2 ⟨rfl, rfl⟩) (.seq (hany hp _)
    (.seq (x := [')']) (a := .lit [')']) (matches_lit.2 ⟨rfl, rfl⟩) hc2)))))
  have h2 := Matches.seq (a := Re.opt (.grp 1 (.cat [.star .any, .lit [' ']]))) (x := a) (k := k) (by rw [List.append_assoc]; exact ha) h1
  rw [← List.append_assoc, ← e] at h2
  exact ⟨_, h2⟩

/-! ### C70 -/

/-- **C70**, partial (guards: `Sig.Ok`).  The name that is read from the text of a function is the name of the function. -/
theorem C70_name_partial {s : Sig} (h : s.Ok) : demangledFnName (String.ofList s.text) = some s.name := by
  have ht : (String.ofList s.text).toList = s.text := String.toList_ofList
  unfold demangledFnName
  cases hp : plainRe.exec (String.ofList s.text) with
  | some k =>
    obtain ⟨x, rest, l, rfl, e, m⟩ := exec_sound hp
    rw [ht] at e
    simp only [group, List.lookup]
    rw [plain_name h e m]
    simp
  | none =>
    obtain ⟨m, hm⟩ := qual_matches h
    obtain ⟨x, rest, k, he, e, m⟩ := exec_some (s := String.ofList s.text) hm (by rw [ht, List.append_nil])
    rw [ht] at e
    simp only [he, group, List.lookup]
    rw [qual_name h e m]
    simp

/-- **C70**, partial: a call instruction is treated according to the name of the function that it calls. -/
theorem C70_call_partial (filt : String → String) (uninterp : List String) {raw text : String} (hraw : raw ≠ "") {s : Sig} (h : s.Ok)
    (hf : filt raw = String.ofList s.text) : (callName filt raw text).map (callKind uninterp) = some (callKind uninterp s.name) := by
  rw [callName, if_neg hraw, hf, C70_name_partial h]
  rfl

theorem takeWhile_append_of {p : Char → Bool} {l r : List Char} (h : ∀ c ∈ l, p c = true) : (l ++ r).takeWhile p = l ++ r.takeWhile p := by
  induction l with
  | nil => rfl
  | cons c l ih => simp [h c (by simp), ih fun d hd => h d (by simp [hd])]

/-- **C70**: if the called operand has no name, the name is taken from its text, as it is (it is not demangled). -/
theorem C70_cast (filt : String → String) {a n b : List Char} (hn : ∀ c ∈ n, c ≠ '@' ∧ c ≠ ' ') (hb : '@' ∉ b) :
    callName filt "" (String.ofList (a ++ '@' :: (n ++ ' ' :: b))) = some (String.ofList n) := by
  rw [callName, if_pos rfl, String.toList_ofList]
  have h1 : afterLast '@' (a ++ '@' :: (n ++ ' ' :: b)) = n ++ ' ' :: b := by
    unfold afterLast
    have e : (a ++ '@' :: (n ++ ' ' :: b)).reverse = (n ++ ' ' :: b).reverse ++ '@' :: a.reverse := by
      rw [List.reverse_append, List.reverse_cons, List.append_assoc, List.singleton_append]
    rw [e, takeWhile_append_of]
    · simp
    · intro c hc
      rw [List.mem_reverse, List.mem_append, List.mem_cons] at hc
      refine decide_eq_true ?_
      rcases hc with hc | rfl | hc
      · exact (hn c hc).1
      · decide
      · rintro rfl
        exact hb hc
  rw [h1, takeWhile_append_of fun c hc => decide_eq_true (hn c hc).2]
  simp

/-! ### Vectors -/

def vecA : List Char := "std::__1::vector<".toList
def vecB : List Char := ", std::__1::allocator<".toList
def vecC : List Char := "> >".toList
def vecD : List Char := " > >".toList

/-- The type of vectors of vectors of … of a type, as `c++filt` prints it. -/
def vecText (t : List Char) : Nat → List Char
  | 0 => vecA ++ (t ++ (vecB ++ (t ++ vecC)))
  | n + 1 => vecA ++ (vecText t n ++ (vecB ++ (vecText t n ++ vecD)))

def vecKindAt : Nat → Option VecKind
  | 0 => some .list
  | 1 => some .matrix
  | 2 => some .tensor3d
  | _ => none

/-- The expression for vectors at a depth. -/
def vecReAt : Nat → Re
  | 0 => vecRe
  | n + 1 => nestRe (vecReAt n)

theorem vecReAt_zero : vecReAt 0 = vecRe := by rw [vecReAt]
theorem vecReAt_succ (n : Nat) : vecReAt (n + 1) = nestRe (vecReAt n) := by rw [vecReAt]

theorem vecRe_eq : vecRe = .seq (.lit vecA) (.seq primRe (.seq (.lit vecB) (.seq primRe (.lit vecC)))) := rfl
theorem nestRe_eq (r : Re) : nestRe r = .seq (.lit vecA) (.seq r (.seq (.lit vecB) (.seq r (.lit vecD)))) := rfl
theorem vecA_eq : ∃ u, vecA = "std".toList ++ ':' :: u := ⟨_, rfl⟩
theorem vecB_eq : ∃ u, vecB = ',' :: u := ⟨_, rfl⟩

attribute [local irreducible] Re.lit vecRe nestRe vecA vecB vecC vecD

theorem vecRe_shape {z rest : List Char} {m : Caps} (h : Matches vecRe z rest m) :
    ∃ p q, p ≠ [] ∧ q ≠ [] ∧ (∀ c ∈ p, c.isAlpha = true) ∧ (∀ c ∈ q, c.isAlpha = true) ∧
      z = vecA ++ (p ++ (vecB ++ (q ++ vecC))) := by
  rw [vecRe_eq] at h
  obtain ⟨a, y1, k1, l1, rfl, rfl, ha, h⟩ := matches_seq.1 h
  obtain ⟨b, y2, k2, l2, rfl, rfl, hb, h⟩ := matches_seq.1 h
  obtain ⟨c, y3, k3, l3, rfl, rfl, hc, h⟩ := matches_seq.1 h
  obtain ⟨d, e, k4, l4, rfl, rfl, hd, he⟩ := matches_seq.1 h
  obtain ⟨rfl, _⟩ := matches_lit.1 ha
  obtain ⟨rfl, _⟩ := matches_lit.1 hc
  obtain ⟨rfl, _⟩ := matches_lit.1 he
  obtain ⟨h1, h2, _⟩ := matches_plus_cls.1 hb
  obtain ⟨h3, h4, _⟩ := matches_plus_cls.1 hd
  exact ⟨b, d, h1, h3, h2, h4, rfl⟩

theorem nestRe_start {r : Re} {z rest : List Char} {m : Caps} (h : Matches (nestRe r) z rest m) :
    ∃ x y k, z = vecA ++ (x ++ y) ∧ Matches r x (y ++ rest) k := by
  rw [nestRe_eq] at h
  obtain ⟨a, y1, k1, l1, rfl, rfl, ha, h⟩ := matches_seq.1 h
  obtain ⟨b, y2, k2, l2, rfl, rfl, hb, h⟩ := matches_seq.1 h
  obtain ⟨rfl, _⟩ := matches_lit.1 ha
  exact ⟨b, y2, k2, rfl, hb⟩

theorem alpha_split {p q u v : List Char} {c d : Char} (hp : ∀ c ∈ p, c.isAlpha = true) (hq : ∀ c ∈ q, c.isAlpha = true) (hc : c.isAlpha = false)
    (hd : d.isAlpha = false) (h : p ++ c :: u = q ++ d :: v) : p = q ∧ c = d ∧ u = v := by
  have e1 := congrArg (List.takeWhile Char.isAlpha) h
  rw [takeWhile_append_of hp, takeWhile_append_of hq, List.takeWhile_cons, List.takeWhile_cons, hc, hd] at e1
  simp only [Bool.false_eq_true, if_false, List.append_nil] at e1
  subst e1
  rw [List.append_cancel_left_eq, List.cons.injEq] at h
  exact ⟨rfl, h⟩

theorem lit_inj {s x y : List Char} (h : s ++ x = s ++ y) : x = y := List.append_cancel_left h

theorem vec_starts (t : List Char) (j : Nat) : ∃ u, vecText t j = "std".toList ++ ':' :: u := by
  obtain ⟨v, hv⟩ := vecA_eq
  cases j <;> (rw [vecText, hv, List.append_assoc, List.cons_append]; exact ⟨_, rfl⟩)

/-- The expression for one depth does not match what is printed for another one. -/
theorem vec_other {t : List Char} (ht : ∀ c ∈ t, c.isAlpha = true) : ∀ {i j : Nat} {z rest more : List Char} {m : Caps},
    Matches (vecReAt i) z rest m → z ++ rest = vecText t j ++ more → i = j
  | 0, 0, _, _, _, _, _, _ => rfl
  | 0, j + 1, z, rest, more, m, h, e => by
    rw [vecReAt_zero] at h
    obtain ⟨p, q, h1, _, h2, _, rfl⟩ := vecRe_shape h
    obtain ⟨u, hu⟩ := vec_starts t j
    obtain ⟨w, hw⟩ := vecB_eq
    rw [vecText] at e
    simp only [List.append_assoc] at e
    have e := lit_inj e
    rw [hu, hw] at e
    have := (alpha_split (c := ',') (d := ':') (q := "std".toList) h2 (by decide) (by decide) (by decide)
      (by simpa only [List.append_assoc, List.cons_append] using e)).2.1
    exact absurd this (by decide)
  | i + 1, 0, z, rest, more, m, h, e => by
    rw [vecReAt_succ] at h
    obtain ⟨x, y, k, rfl, h2⟩ := nestRe_start h
    rw [vecText] at e
    simp only [List.append_assoc] at e
    have e := lit_inj e
    exfalso
    have hx : ∃ u, x = vecA ++ u := by
      cases i with
      | zero =>
        rw [vecReAt_zero] at h2
        obtain ⟨p, q, _, _, _, _, rfl⟩ := vecRe_shape h2
        exact ⟨_, rfl⟩
      | succ i =>
        rw [vecReAt_succ] at h2
        obtain ⟨x, y, k, rfl, _⟩ := nestRe_start h2
        exact ⟨_, rfl⟩
    obtain ⟨u, rfl⟩ := hx
    obtain ⟨v, hv⟩ := vecA_eq
    obtain ⟨w, hw⟩ := vecB_eq
    rw [hv, hw] at e
    have := (alpha_split (c := ':') (d := ',') (p := "std".toList) (q := t) (by decide) ht (by decide) (by decide)
      (by simpa only [List.append_assoc, List.cons_append] using e)).2.1
    exact absurd this (by decide)
  | i + 1, j + 1, z, rest, more, m, h, e => by
    rw [vecReAt_succ] at h
    obtain ⟨x, y, k, rfl, h2⟩ := nestRe_start h
    rw [vecText] at e
    simp only [List.append_assoc] at e
    have e := lit_inj e
    rw [vec_other ht h2 e]

theorem vec_matches {t : List Char} (hne : t ≠ []) (ht : ∀ c ∈ t, c.isAlpha = true) : ∀ (i : Nat) (rest : List Char), ∃ m, Matches (vecReAt i) (vecText t i) rest m
  | 0, rest => by
    refine ⟨[] ++ [] ++ [] ++ [] ++ [], ?_⟩
    rw [vecReAt_zero, vecText]
    rw [vecRe_eq]
    exact .seq (matches_lit.2 ⟨rfl, rfl⟩) (.seq (matches_plus_cls.2 ⟨hne, ht, rfl⟩) (.seq (matches_lit.2 ⟨rfl, rfl⟩) (.seq (matches_plus_cls.2 ⟨hne, ht, rfl⟩)
      (matches_lit.2 ⟨rfl, rfl⟩))))
  | i + 1, rest => by
    obtain ⟨m1, h1⟩ := vec_matches hne ht i ((vecB ++ (vecText t i ++ vecD)) ++ rest)
    obtain ⟨m2, h2⟩ := vec_matches hne ht i (vecD ++ rest)
    refine ⟨[] ++ m2 ++ [] ++ m1 ++ [], ?_⟩
    rw [vecReAt_succ, vecText]
    rw [nestRe_eq]
    exact .seq (matches_lit.2 ⟨rfl, rfl⟩) (.seq h1 (.seq (matches_lit.2 ⟨rfl, rfl⟩) (.seq h2 (matches_lit.2 ⟨rfl, rfl⟩))))

/-- **C70**, partial: for member functions without parameters of vectors (libc++) of a type whose name consists of letters, the kind of the vector is
found; vectors nested four times or more are refused. -/
theorem C70_vector_partial {t : List Char} (hne : t ≠ []) (ht : ∀ c ∈ t, c.isAlpha = true) (depth : Nat) (member : String) (more : List Char) :
    vecKind member (String.ofList (vecText t depth ++ (("::" ++ member ++ "()").toList ++ more))) = vecKindAt depth := by
  have key : ∀ i, memberMatch (vecReAt i) member (String.ofList (vecText t depth ++ (("::" ++ member ++ "()").toList ++ more))) = decide (i = depth) := by
    intro i
    unfold memberMatch
    by_cases hi : i = depth
    · subst hi
      obtain ⟨m, hm⟩ := vec_matches hne ht i (("::" ++ member ++ "()").toList ++ more)
      obtain ⟨x, r, k, he, _, _⟩ := exec_some (s := String.ofList (vecText t i ++ (("::" ++ member ++ "()").toList ++ more))) (.seq hm (matches_lit.2 ⟨rfl, rfl⟩))
        (by rw [String.toList_ofList, List.append_assoc])
      rw [he]
      simp
    · rw [decide_eq_false hi]
      cases he : (Re.seq (vecReAt i) (.lit ("::" ++ member ++ "()").toList)).exec (String.ofList (vecText t depth ++ (("::" ++ member ++ "()").toList ++ more))) with
      | none => rfl
      | some k =>
        exfalso
        obtain ⟨x, r, l, _, e, m⟩ := exec_sound he
        obtain ⟨a, b, _, _, rfl, _, m1, _⟩ := matches_seq.1 m
        rw [String.toList_ofList, List.append_assoc] at e
        exact hi (vec_other ht m1 e.symm)
  unfold vecKind
  have k0 := key 0
  have k1 := key 1
  have k2 := key 2
  rw [vecReAt_succ, vecReAt_succ, vecReAt_zero] at k2
  rw [vecReAt_succ, vecReAt_zero] at k1
  rw [vecReAt_zero] at k0
  rw [k0, k1, k2]
  clear k0 k1 k2 key
  match depth with
  | 0 => rfl
  | 1 => rfl
  | 2 => rfl
  | n + 3 => simp [vecKindAt]

/-! ### Examples, and where the guards fail -/

def pushBackSig : Sig where
  scopes := ["std", "__1", "vector<int, std::__1::allocator<int> >"]
  name := "push_back"
  params := "int const&"

theorem word_name {n : String} (h : n.toList ≠ [] ∧ ∀ c ∈ n.toList, isWord c = true) : NameText n.toList :=
  ⟨[], n.toList, [], by simp, .inl rfl, h.1, h.2, .inl rfl⟩

/-- The guards hold for `std::__1::vector<int, std::__1::allocator<int> >::push_back(int const&)`. -/
theorem C70_example : pushBackSig.Ok ∧ String.ofList pushBackSig.text = "std::__1::vector<int, std::__1::allocator<int> >::push_back(int const&)" :=
  ⟨⟨word_name (by decide +kernel), by decide +kernel, by decide +kernel, fun t h => by cases h⟩, by decide +kernel⟩

def instSig : Sig where
  ret := some "int"
  name := "f"
  targs := some "int"
  params := "int"

example : instSig.Ok ∧ String.ofList instSig.text = "int f<int>(int)" :=
  ⟨⟨word_name (by decide +kernel), by decide +kernel, by decide +kernel, fun t h => by cases h; exact ⟨by decide +kernel, by decide +kernel⟩⟩, by decide +kernel⟩

def indexSig : Sig where
  scopes := ["std", "__1", "vector<int, std::__1::allocator<int> >"]
  name := "operator[]"
  params := "unsigned long"
  isConst := true

example : indexSig.Ok :=
  ⟨⟨[], "operator".toList, "[]".toList, by decide +kernel, .inl rfl, by decide +kernel, by decide +kernel, .inr (by decide +kernel)⟩, by decide +kernel, by decide +kernel,
    fun t h => by cases h⟩

/-- An instance of a template for vectors. -/
def templSig : Sig where
  ret := some "void"
  name := "f"
  targs := some "std::__1::vector<int> "
  params := "int"

/-- **C70** refuted for instances of templates with qualified arguments: a call of `f` is read as a call of the constructor of vectors. -/
theorem C70_template_refuted : String.ofList templSig.text = "void f<std::__1::vector<int> >(int)" ∧ demangledFnName (String.ofList templSig.text) = some "vector" ∧
    callKind [] "vector" = .model "vector" := by
  decide +kernel

/-- **C70** refuted: operators other than `operator[]` are not read (an exception). -/
theorem C70_operator_refuted : demangledFnName "std::__1::operator==(int, int)" = none := by decide +kernel

/-- **C70** refuted: the scopes are dropped, so that any function with the name of a function of the library is taken for it. -/
theorem C70_scope_refuted (filt : String → String) (uninterp : List String) {raw text : String} (hraw : raw ≠ "") {s : Sig} (h : s.Ok) (hn : s.name ∈ fnModels)
    (hf : filt raw = String.ofList s.text) : (callName filt raw text).map (callKind uninterp) = some (.model s.name) := by
  rw [C70_call_partial filt uninterp hraw h hf, callKind, if_pos hn]

example : demangledFnName "Stack::push_back(int)" = some "push_back" ∧ demangledFnName "mymath::integer_exp(int)" = some "integer_exp" := by decide +kernel

/-- **C70** refuted: a call of a function that is neither in the library nor declared as uninterpreted is skipped without an error. -/
theorem C70_skipped_refuted (uninterp : List String) (f : String) (h1 : f ∉ fnModels) (h2 : f ∉ uninterp) (h3 : f ∉ ["integer-sqrt-noerr", "integer-exp-noerr"]) :
    callKind uninterp f = .ignored := by
  rw [callKind, if_neg h1, if_neg (by simp [h2, h3])]

/-- **C70** refuted for other element types and other libraries: the kind of a vector is not found. -/
theorem C70_vector_refuted : vecKind "size" "std::__1::vector<unsigned char, std::__1::allocator<unsigned char> >::size() const" = none ∧
    vecKind "size" "std::vector<int, std::allocator<int> >::size() const" = none := by
  decide +kernel

example : vecKind "size" "std::__1::vector<int, std::__1::allocator<int> >::size() const" = some .list := by decide +kernel

end Ll
end Metalift
