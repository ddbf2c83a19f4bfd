/-
Regular expressions of Python's `re` (specification): the constructs that the code uses, matched by backtracking from the left.

A repetition whose body matches the empty text is not continued; no expression of the code has such a repetition.
-/
namespace Metalift
namespace Regex

inductive Re where
  /-- one character -/
  | cls (p : Char → Bool)
  | eps
  | seq (a b : Re)
  /-- `a|b`: `a` is tried first -/
  | alt (a b : Re)
  /-- `a*`: as many as possible are tried first -/
  | star (a : Re)
  /-- `a*?`: as few as possible are tried first -/
  | lazy (a : Re)
  /-- the group with a number -/
  | grp (n : Nat) (a : Re)
  /-- `$`: the end, or the end before a last newline -/
  | eoi
  /-- `$` with the flag `MULTILINE`: the end of a line -/
  | eol

/-- The texts of groups, the last one first. -/
abbrev Caps := List (Nat × List Char)

/-- A match: the text matched, the rest, the groups. -/
abbrev Res := List Char × List Char × Caps

/-- Repetitions, at most `n`. -/
def iter (f : List Char → List Res) : Nat → List Char → List Res
  | 0, s => [([], s, [])]
  | n + 1, s => ((f s).flatMap fun r => if r.1 = [] then [] else (iter f n r.2.1).map fun q => (r.1 ++ q.1, q.2.1, q.2.2 ++ r.2.2)) ++ [([], s, [])]

/-- Repetitions, at most `n`, the fewest first. -/
def iterLazy (f : List Char → List Res) : Nat → List Char → List Res
  | 0, s => [([], s, [])]
  | n + 1, s => ([], s, []) :: (f s).flatMap fun r => if r.1 = [] then [] else (iterLazy f n r.2.1).map fun q => (r.1 ++ q.1, q.2.1, q.2.2 ++ r.2.2)

/-- All ways to match at the start of a text, in the order in which they are tried. -/
def Re.run : Re → List Char → List Res
  | .cls p, c :: s => if p c then [([c], s, [])] else []
  | .cls _, [] => []
  | .eps, s => [([], s, [])]
  | .seq a b, s => (a.run s).flatMap fun r => (b.run r.2.1).map fun q => (r.1 ++ q.1, q.2.1, q.2.2 ++ r.2.2)
  | .alt a b, s => a.run s ++ b.run s
  | .star a, s => iter a.run s.length s
  | .lazy a, s => iterLazy a.run s.length s
  | .grp n a, s => (a.run s).map fun r => (r.1, r.2.1, (n, r.1) :: r.2.2)
  | .eoi, s => if s = [] ∨ s = ['\n'] then [([], s, [])] else []
  | .eol, s => if s = [] ∨ s.head? = some '\n' then [([], s, [])] else []

/-- `re.match(r, s)`: the groups of the first match; group 0 is the text matched. -/
def Re.exec (r : Re) (s : String) : Option Caps := (r.run s.toList).head?.map fun m => (0, m.1) :: m.2.2

/-- `m.group(n)`. -/
def group (k : Caps) (n : Nat) : Option String := (k.lookup n).map String.ofList

/-! ### Looking for matches from left to right (for expressions that do not match the empty text) -/

/-- The matches that `re.finditer(r, s)` yields. -/
def Re.findAll (r : Re) : Nat → List Char → List Res
  | 0, _ => []
  | n + 1, s => match (r.run s).head? with
    | some m => m :: r.findAll n m.2.1
    | none => match s with
      | [] => []
      | _ :: s => r.findAll n s

/-- `re.sub(r, f, s)`. -/
def Re.sub (r : Re) (f : Caps → List Char) : Nat → List Char → List Char
  | 0, s => s
  | n + 1, s => match (r.run s).head? with
    | some m => f m.2.2 ++ r.sub f n m.2.1
    | none => match s with
      | [] => []
      | c :: s => c :: r.sub f n s

/-! ### Building expressions -/

def Re.plus (a : Re) : Re := .seq a (.star a)
def Re.opt (a : Re) : Re := .alt a .eps
def Re.lit : List Char → Re
  | [] => .eps
  | c :: s => .seq (.cls fun d => decide (d = c)) (.lit s)
def Re.any : Re := .cls fun c => decide (c ≠ '\n')
/-- `.` with the flag `DOTALL`. -/
def Re.anyAll : Re := .cls fun _ => true
def Re.cat : List Re → Re
  | [] => .eps
  | [r] => r
  | r :: s :: rs => .seq r (.cat (s :: rs))

/-! ### What a match is, without the order -/

/-- `Matches r x rest k`: `r` matches the text `x` before `rest`, with groups `k`. -/
inductive Matches : Re → List Char → List Char → Caps → Prop where
  | cls {p c rest} : p c = true → Matches (.cls p) [c] rest []
  | eps {rest} : Matches .eps [] rest []
  | seq {a b x y rest k l} : Matches a x (y ++ rest) k → Matches b y rest l → Matches (.seq a b) (x ++ y) rest (l ++ k)
  | left {a b x rest k} : Matches a x rest k → Matches (.alt a b) x rest k
  | right {a b x rest k} : Matches b x rest k → Matches (.alt a b) x rest k
  | nil {a rest} : Matches (.star a) [] rest []
  | cons {a x y rest k l} : x ≠ [] → Matches a x (y ++ rest) k → Matches (.star a) y rest l → Matches (.star a) (x ++ y) rest (l ++ k)
  | lnil {a rest} : Matches (.lazy a) [] rest []
  | lcons {a x y rest k l} : x ≠ [] → Matches a x (y ++ rest) k → Matches (.lazy a) y rest l → Matches (.lazy a) (x ++ y) rest (l ++ k)
  | grp {n a x rest k} : Matches a x rest k → Matches (.grp n a) x rest ((n, x) :: k)
  | eoi {rest} : rest = [] ∨ rest = ['\n'] → Matches .eoi [] rest []
  | eol {rest} : rest = [] ∨ rest.head? = some '\n' → Matches .eol [] rest []

theorem iter_sound {a : Re} (h : ∀ s r, r ∈ a.run s → s = r.1 ++ r.2.1 ∧ Matches a r.1 r.2.1 r.2.2) :
    ∀ (n : Nat) (s : List Char) (r : Res), r ∈ iter a.run n s → s = r.1 ++ r.2.1 ∧ Matches (.star a) r.1 r.2.1 r.2.2
  | 0, s, r, hr => by
    simp only [iter, List.mem_singleton] at hr
    subst hr
    exact ⟨rfl, .nil⟩
  | n + 1, s, r, hr => by
    simp only [iter, List.mem_append, List.mem_flatMap, List.mem_singleton] at hr
    rcases hr with ⟨q, hq, hr⟩ | rfl
    · split at hr
      · cases hr
      · rename_i hne
        obtain ⟨t, ht, rfl⟩ := List.mem_map.1 hr
        obtain ⟨e1, m1⟩ := h s q hq
        obtain ⟨e2, m2⟩ := iter_sound h n _ t ht
        refine ⟨by rw [e1, e2, List.append_assoc], .cons hne ?_ m2⟩
        rw [← e2]
        exact m1
    · exact ⟨rfl, .nil⟩

theorem iterLazy_sound {a : Re} (h : ∀ s r, r ∈ a.run s → s = r.1 ++ r.2.1 ∧ Matches a r.1 r.2.1 r.2.2) :
    ∀ (n : Nat) (s : List Char) (r : Res), r ∈ iterLazy a.run n s → s = r.1 ++ r.2.1 ∧ Matches (.lazy a) r.1 r.2.1 r.2.2
  | 0, s, r, hr => by
    simp only [iterLazy, List.mem_singleton] at hr
    subst hr
    exact ⟨rfl, .lnil⟩
  | n + 1, s, r, hr => by
    simp only [iterLazy, List.mem_cons, List.mem_flatMap] at hr
    rcases hr with rfl | ⟨q, hq, hr⟩
    · exact ⟨rfl, .lnil⟩
    · split at hr
      · cases hr
      · rename_i hne
        obtain ⟨t, ht, rfl⟩ := List.mem_map.1 hr
        obtain ⟨e1, m1⟩ := h s q hq
        obtain ⟨e2, m2⟩ := iterLazy_sound h n _ t ht
        refine ⟨by rw [e1, e2, List.append_assoc], .lcons hne ?_ m2⟩
        rw [← e2]
        exact m1

theorem run_sound {a : Re} : ∀ (s : List Char) (r : Res), r ∈ a.run s → s = r.1 ++ r.2.1 ∧ Matches a r.1 r.2.1 r.2.2 := by
  induction a with
  | cls p =>
    intro s r hr
    cases s with
    | nil => cases hr
    | cons c s =>
      simp only [Re.run] at hr
      split at hr
      · rw [List.mem_singleton] at hr
        subst hr
        exact ⟨rfl, .cls ‹_›⟩
      · cases hr
  | eps =>
    intro s r hr
    simp only [Re.run, List.mem_singleton] at hr
    subst hr
    exact ⟨rfl, .eps⟩
  | seq a b iha ihb =>
    intro s r hr
    simp only [Re.run, List.mem_flatMap, List.mem_map] at hr
    obtain ⟨q, hq, t, ht, rfl⟩ := hr
    obtain ⟨e1, m1⟩ := iha s q hq
    obtain ⟨e2, m2⟩ := ihb _ t ht
    refine ⟨by rw [e1, e2, List.append_assoc], .seq ?_ m2⟩
    rw [← e2]
    exact m1
  | alt a b iha ihb =>
    intro s r hr
    simp only [Re.run, List.mem_append] at hr
    rcases hr with hr | hr
    · exact ⟨(iha s r hr).1, .left (iha s r hr).2⟩
    · exact ⟨(ihb s r hr).1, .right (ihb s r hr).2⟩
  | star a ih => exact fun s r hr => iter_sound ih _ s r hr
  | lazy a ih => exact fun s r hr => iterLazy_sound ih _ s r hr
  | grp n a ih =>
    intro s r hr
    simp only [Re.run, List.mem_map] at hr
    obtain ⟨q, hq, rfl⟩ := hr
    exact ⟨(ih s q hq).1, .grp (ih s q hq).2⟩
  | eoi =>
    intro s r hr
    simp only [Re.run] at hr
    split at hr
    · rw [List.mem_singleton] at hr
      subst hr
      exact ⟨rfl, .eoi ‹_›⟩
    · cases hr
  | eol =>
    intro s r hr
    simp only [Re.run] at hr
    split at hr
    · rw [List.mem_singleton] at hr
      subst hr
      exact ⟨rfl, .eol ‹_›⟩
    · cases hr

theorem iter_complete {a : Re} {x rest : List Char} {k : Caps} (h : Matches (.star a) x rest k) (ha : ∀ y r l, Matches a y r l → (y, r, l) ∈ a.run (y ++ r)) :
    ∀ n, x.length ≤ n → (x, rest, k) ∈ iter a.run n (x ++ rest) := by
  generalize hr : Re.star a = r at h
  induction h with
  | nil =>
    intro n _
    cases n with
    | zero => simp [iter]
    | succ n => simp [iter]
  | @cons b x y rest k l hne m1 m2 _ ih =>
    injection hr with hr
    subst hr
    intro n hn
    have hx : 0 < x.length := List.length_pos_iff.2 hne
    cases n with
    | zero => rw [List.length_append] at hn; omega
    | succ n =>
      simp only [iter, List.mem_append, List.mem_flatMap]
      left
      refine ⟨(x, y ++ rest, k), by rw [List.append_assoc]; exact ha _ _ _ m1, ?_⟩
      rw [if_neg hne]
      refine List.mem_map.2 ⟨(y, rest, l), ih rfl n ?_, rfl⟩
      rw [List.length_append] at hn
      omega
  | lnil => cases hr
  | lcons => cases hr
  | cls => cases hr
  | eps => cases hr
  | seq => cases hr
  | left => cases hr
  | right => cases hr
  | grp => cases hr
  | eoi => cases hr
  | eol => cases hr

theorem iterLazy_complete {a : Re} {x rest : List Char} {k : Caps} (h : Matches (.lazy a) x rest k) (ha : ∀ y r l, Matches a y r l → (y, r, l) ∈ a.run (y ++ r)) :
    ∀ n, x.length ≤ n → (x, rest, k) ∈ iterLazy a.run n (x ++ rest) := by
  generalize hr : Re.lazy a = r at h
  induction h with
  | lnil =>
    intro n _
    cases n with
    | zero => simp [iterLazy]
    | succ n => simp [iterLazy]
  | @lcons b x y rest k l hne m1 m2 _ ih =>
    injection hr with hr
    subst hr
    intro n hn
    have hx : 0 < x.length := List.length_pos_iff.2 hne
    cases n with
    | zero => rw [List.length_append] at hn; omega
    | succ n =>
      simp only [iterLazy, List.mem_cons, List.mem_flatMap]
      right
      refine ⟨(x, y ++ rest, k), by rw [List.append_assoc]; exact ha _ _ _ m1, ?_⟩
      rw [if_neg hne]
      refine List.mem_map.2 ⟨(y, rest, l), ih rfl n ?_, rfl⟩
      rw [List.length_append] at hn
      omega
  | nil => cases hr
  | cons => cases hr
  | cls => cases hr
  | eps => cases hr
  | seq => cases hr
  | left => cases hr
  | right => cases hr
  | grp => cases hr
  | eoi => cases hr
  | eol => cases hr

theorem run_complete : ∀ {a : Re} {x rest : List Char} {k : Caps}, Matches a x rest k → (x, rest, k) ∈ a.run (x ++ rest) := by
  intro a
  induction a with
  | cls p => intro x rest k h; cases h; rename_i h; simp [Re.run, h]
  | eps => intro x rest k h; cases h; simp [Re.run]
  | seq a b iha ihb =>
    intro x rest k h
    cases h with
    | seq m1 m2 =>
      simp only [Re.run, List.mem_flatMap, List.mem_map]
      exact ⟨_, by rw [List.append_assoc]; exact iha m1, _, ihb m2, rfl⟩
  | alt a b iha ihb =>
    intro x rest k h
    cases h with
    | left m => exact List.mem_append.2 (.inl (iha m))
    | right m => exact List.mem_append.2 (.inr (ihb m))
  | star a ih =>
    intro x rest k h
    exact iter_complete h (fun _ _ _ => ih) _ (by rw [List.length_append]; omega)
  | lazy a ih =>
    intro x rest k h
    exact iterLazy_complete h (fun _ _ _ => ih) _ (by rw [List.length_append]; omega)
  | grp n a ih =>
    intro x rest k h
    cases h with
    | grp m => exact List.mem_map.2 ⟨_, ih m, rfl⟩
  | eoi => intro x rest k h; cases h; rename_i h; simp [Re.run, h]
  | eol => intro x rest k h; cases h; rename_i h; simp [Re.run, h]

/-- If there is a match, `re.match` finds one. -/
theorem exec_some {a : Re} {s : String} {x rest : List Char} {k : Caps} (h : Matches a x rest k) (hs : s.toList = x ++ rest) :
    ∃ x rest k, a.exec s = some ((0, x) :: k) ∧ s.toList = x ++ rest ∧ Matches a x rest k := by
  have hm := run_complete h
  rw [← hs] at hm
  unfold Re.exec
  cases hr : a.run s.toList with
  | nil => rw [hr] at hm; cases hm
  | cons r rs =>
    obtain ⟨e, m⟩ := run_sound s.toList r (by rw [hr]; simp)
    exact ⟨r.1, r.2.1, r.2.2, rfl, e, m⟩

theorem exec_sound {a : Re} {s : String} {k : Caps} (h : a.exec s = some k) : ∃ x rest l, k = (0, x) :: l ∧ s.toList = x ++ rest ∧ Matches a x rest l := by
  unfold Re.exec at h
  cases hr : a.run s.toList with
  | nil => rw [hr] at h; cases h
  | cons r rs =>
    rw [hr] at h
    simp only [List.head?_cons, Option.map_some, Option.some.injEq] at h
    obtain ⟨e, m⟩ := run_sound s.toList r (by rw [hr]; simp)
    exact ⟨r.1, r.2.1, r.2.2, h.symm, e, m⟩

/-! ### Matches of the constructs -/

theorem matches_seq {a b : Re} {z rest : List Char} {m : Caps} : Matches (.seq a b) z rest m ↔
    ∃ x y k l, z = x ++ y ∧ m = l ++ k ∧ Matches a x (y ++ rest) k ∧ Matches b y rest l := by
  constructor
  · intro h
    cases h with
    | seq m1 m2 => exact ⟨_, _, _, _, rfl, rfl, m1, m2⟩
  · rintro ⟨x, y, k, l, rfl, rfl, m1, m2⟩
    exact .seq m1 m2

theorem matches_cls {p : Char → Bool} {z rest : List Char} {m : Caps} : Matches (.cls p) z rest m ↔ ∃ c, p c = true ∧ z = [c] ∧ m = [] := by
  constructor
  · intro h
    cases h with
    | cls h => exact ⟨_, h, rfl, rfl⟩
  · rintro ⟨c, h, rfl, rfl⟩
    exact .cls h

theorem matches_eps {z rest : List Char} {m : Caps} : Matches .eps z rest m ↔ z = [] ∧ m = [] := by
  constructor
  · intro h
    cases h
    exact ⟨rfl, rfl⟩
  · rintro ⟨rfl, rfl⟩
    exact .eps

theorem matches_alt {a b : Re} {z rest : List Char} {m : Caps} : Matches (.alt a b) z rest m ↔ Matches a z rest m ∨ Matches b z rest m := by
  constructor
  · intro h
    cases h with
    | left h => exact .inl h
    | right h => exact .inr h
  · rintro (h | h)
    · exact .left h
    · exact .right h

theorem matches_opt {a : Re} {z rest : List Char} {m : Caps} : Matches a.opt z rest m ↔ Matches a z rest m ∨ (z = [] ∧ m = []) := by
  rw [Re.opt, matches_alt, matches_eps]

theorem matches_grp {n : Nat} {a : Re} {z rest : List Char} {m : Caps} : Matches (.grp n a) z rest m ↔ ∃ k, m = (n, z) :: k ∧ Matches a z rest k := by
  constructor
  · intro h
    cases h with
    | grp h => exact ⟨_, rfl, h⟩
  · rintro ⟨k, rfl, h⟩
    exact .grp h

theorem matches_eoi {z rest : List Char} {m : Caps} : Matches .eoi z rest m ↔ z = [] ∧ m = [] ∧ (rest = [] ∨ rest = ['\n']) := by
  constructor
  · intro h
    cases h with
    | eoi h => exact ⟨rfl, rfl, h⟩
  · rintro ⟨rfl, rfl, h⟩
    exact .eoi h

theorem matches_lit {s z rest : List Char} {m : Caps} : Matches (.lit s) z rest m ↔ z = s ∧ m = [] := by
  induction s generalizing z m with
  | nil => exact matches_eps
  | cons c s ih =>
    rw [Re.lit, matches_seq]
    constructor
    · rintro ⟨x, y, k, l, rfl, rfl, m1, m2⟩
      obtain ⟨d, hd, rfl, rfl⟩ := matches_cls.1 m1
      obtain ⟨rfl, rfl⟩ := ih.1 m2
      rw [of_decide_eq_true hd]
      exact ⟨rfl, rfl⟩
    · rintro ⟨rfl, rfl⟩
      exact ⟨[c], s, [], [], rfl, rfl, matches_cls.2 ⟨c, decide_eq_true rfl, rfl, rfl⟩, ih.2 ⟨rfl, rfl⟩⟩

/-- Repetitions of one character. -/
theorem matches_star_cls {p : Char → Bool} {z rest : List Char} {m : Caps} : Matches (.star (.cls p)) z rest m ↔ (∀ c ∈ z, p c = true) ∧ m = [] := by
  constructor
  · intro h
    generalize hr : Re.star (.cls p) = r at h
    induction h with
    | nil => simp
    | cons hne m1 _ _ ih =>
      injection hr with hr
      subst hr
      obtain ⟨c, hc, rfl, rfl⟩ := matches_cls.1 m1
      obtain ⟨h1, rfl⟩ := ih rfl
      refine ⟨?_, rfl⟩
      intro d hd
      rw [List.singleton_append, List.mem_cons] at hd
      rcases hd with rfl | hd
      · exact hc
      · exact h1 d hd
    | lnil => cases hr
    | lcons => cases hr
    | cls => cases hr
    | eps => cases hr
    | seq => cases hr
    | left => cases hr
    | right => cases hr
    | grp => cases hr
    | eoi => cases hr
    | eol => cases hr
  · rintro ⟨h, rfl⟩
    induction z with
    | nil => exact .nil
    | cons c z ih =>
      exact .cons (x := [c]) (k := []) (l := []) (by simp) (matches_cls.2 ⟨c, h c (by simp), rfl, rfl⟩) (ih fun d hd => h d (by simp [hd]))

theorem matches_plus_cls {p : Char → Bool} {z rest : List Char} {m : Caps} : Matches (Re.plus (.cls p)) z rest m ↔ z ≠ [] ∧ (∀ c ∈ z, p c = true) ∧ m = [] := by
  rw [Re.plus, matches_seq]
  constructor
  · rintro ⟨x, y, k, l, rfl, rfl, m1, m2⟩
    obtain ⟨c, hc, rfl, rfl⟩ := matches_cls.1 m1
    obtain ⟨h1, rfl⟩ := matches_star_cls.1 m2
    refine ⟨by simp, ?_, rfl⟩
    intro d hd
    rw [List.singleton_append, List.mem_cons] at hd
    rcases hd with rfl | hd
    · exact hc
    · exact h1 d hd
  · rintro ⟨hne, h, rfl⟩
    cases z with
    | nil => exact absurd rfl hne
    | cons c z =>
      exact ⟨[c], z, [], [], rfl, rfl, matches_cls.2 ⟨c, h c (by simp), rfl, rfl⟩, matches_star_cls.2 ⟨fun d hd => h d (by simp [hd]), rfl⟩⟩

end Regex
end Metalift
