import Verif.LlmTest
/-
C78: the tests of the solutions of a language model count the inputs on which a solution returns the expected output.
-/
namespace Metalift.Llm.Test

/-! ### Specification -/

/-- The solution returns an object that is equal to the expected output. -/
def Passes {R : Type} (W : World R) (f sol : String) (t : Args × Val) : Prop :=
  ∃ g r, W.exec f sol = some (some g) ∧ (g t.1).1 = some r ∧ W.eq r t.2 = some true

open Classical in
/-- The number of passed tests. -/
noncomputable def score {R : Type} (W : World R) (f : String) (tests : List (Args × Val)) (sol : String) : Nat :=
  tests.countP fun t => decide (Passes W f sol t)

/-- The solution does not change the lists that it gets as arguments. -/
def Keeps {R : Type} (W : World R) (f : String) (tests : List (Args × Val)) (sol : String) : Prop :=
  ∀ g, W.exec f sol = some (some g) → ∀ t ∈ tests, (g t.1).2 = t.1

/-! ### Proofs -/

open Classical in
theorem loop_score {R : Type} (W : World R) (f sol : String) (g : Option (Fun R)) (hg : W.exec f sol = some g) : ∀ tests : List (Args × Val), (loop W g tests).1 = score W f tests sol
  | [] => rfl
  | (a, o) :: ts => by
    have hp : (turn W g a o).1 = true ↔ Passes W f sol (a, o) := by
      cases g with
      | none => simp [turn, Passes, hg]
      | some g =>
        simp only [turn, Passes, hg]
        cases h : (g a).1 with
        | none => simp [h]
        | some r => simp [h]
    simp only [loop, score, List.countP_cons, loop_score W f sol g hg ts]
    by_cases h : Passes W f sol (a, o)
    · rw [if_pos (hp.2 h), if_pos (decide_eq_true h), Nat.add_comm]
    · rw [if_neg (fun x => h (hp.1 x)), if_neg (fun x => h (of_decide_eq_true x)), Nat.add_comm]

theorem loop_keeps {R : Type} (W : World R) (f sol : String) (g : Option (Fun R)) (hg : W.exec f sol = some g) :
    ∀ tests : List (Args × Val), Keeps W f tests sol → (loop W g tests).2 = tests.map Prod.fst
  | [], _ => rfl
  | (a, o) :: ts, hk => by
    have ht : (turn W g a o).2 = a := by
      cases g with
      | none => rfl
      | some g =>
        have := hk g hg (a, o) (List.mem_cons_self ..)
        simp only [turn]
        cases h : (g a).1 <;> exact this
    simp only [loop, List.map_cons, ht, loop_keeps W f sol g hg ts (fun g h t m => hk g h t (List.mem_cons_of_mem _ m))]

theorem runTest_score {R : Type} (W : World R) (f sol : String) (ins : List Args) (outs : List Val) (hm : ∀ m ∈ imports, m ∈ W.modules) (hlen : ins.length = outs.length)
    (hload : W.exec f sol ≠ none) (hk : Keeps W f (ins.zip outs) sol) : runTest W f sol ins outs = some (score W f (ins.zip outs) sol, ins) := by
  obtain ⟨g, hg⟩ := Option.ne_none_iff_exists'.1 hload
  have hl : W.load f sol = some g := by
    rw [World.load, if_pos, hg]
    simpa [List.all_eq_true] using hm
  rw [runTest, hl]
  dsimp only
  rw [if_pos hlen]
  congr 1
  refine Prod.ext (loop_score W f sol g hg _) ?_
  rw [loop_keeps W f sol g hg _ hk, List.map_fst_zip (by omega)]

theorem bump_lookup (k e : String) : ∀ l : List (String × Nat), ((bump k l).lookup e).getD 0 = (l.lookup e).getD 0 + (if k = e then 1 else 0)
  | [] => by
    by_cases h : k = e
    · subst h; simp [bump, List.lookup]
    · have : (e == k) = false := by simpa using fun x => h x.symm
      simp [bump, List.lookup, this, h]
  | (x, n) :: l => by
    rw [bump]
    by_cases hx : x = k
    · subst hx
      rw [if_pos rfl]
      by_cases h : x = e
      · subst h; simp [List.lookup]
      · have : (e == x) = false := by simpa using fun y => h y.symm
        simp [List.lookup, this, h]
    · rw [if_neg hx]
      by_cases h : e = x
      · subst h
        simp [List.lookup, Ne.symm hx]
      · have : (e == x) = false := by simpa using h
        simp [List.lookup, this, bump_lookup k e l]

/-- The report after the solutions of a list, each tested once. -/
noncomputable def addAll {R : Type} (W : World R) (check : String → Option String) (f : String) (tests : List (Args × Val)) (r : Report) : List String → Report
  | [] => r
  | s :: ss => addAll W check f tests (record check r s (score W f tests s)) ss

theorem go_addAll {R : Type} (W : World R) (check : String → Option String) (f : String) (ins : List Args) (outs : List Val) (hm : ∀ m ∈ imports, m ∈ W.modules)
    (hlen : ins.length = outs.length) : ∀ (sols seen : List String) (r : Report), (∀ s ∈ sols, W.exec f s ≠ none) → (∀ s ∈ sols, Keeps W f (ins.zip outs) s) →
      go W check f outs seen ins r sols = some (addAll W check f (ins.zip outs) r (sols.filter fun s => !seen.contains s).eraseDups)
  | [], seen, r, _, _ => rfl
  | s :: ss, seen, r, h1, h2 => by
    have i1 := fun x hx => h1 x (List.mem_cons_of_mem _ hx)
    have i2 := fun x hx => h2 x (List.mem_cons_of_mem _ hx)
    rw [go]
    by_cases hs : s ∈ seen
    · rw [if_pos hs, go_addAll W check f ins outs hm hlen ss seen r i1 i2, List.filter_cons_of_neg (by simp [hs])]
    · rw [if_neg hs, runTest_score W f s ins outs hm hlen (h1 s (List.mem_cons_self ..)) (h2 s (List.mem_cons_self ..))]
      dsimp only
      rw [go_addAll W check f ins outs hm hlen ss (s :: seen) _ i1 i2, List.filter_cons_of_pos (by simp [hs]), List.eraseDups_cons, addAll, List.filter_filter]
      congr 3
      refine List.filter_congr fun x _ => ?_
      by_cases hx : x = s <;> simp [hx]

theorem addAll_passed {R : Type} (W : World R) (check : String → Option String) (f : String) (tests : List (Args × Val)) : ∀ (ss : List String) (r : Report),
    (addAll W check f tests r ss).passed = r.passed ++ (ss.filter fun s => (check s).isNone).map (score W f tests) ∧
    (addAll W check f tests r ss).failed = r.failed ++ (ss.filter fun s => (check s).isSome).map (score W f tests) ∧
    ∀ e, ((addAll W check f tests r ss).errors.lookup e).getD 0 = (r.errors.lookup e).getD 0 + (ss.filter fun s => check s == some e).length
  | [], r => by simp [addAll]
  | s :: ss, r => by
    obtain ⟨h1, h2, h3⟩ := addAll_passed W check f tests ss (record check r s (score W f tests s))
    rw [addAll, h1, h2]
    refine ⟨?_, ?_, fun e => ?_⟩
    · cases h : check s <;> simp [record, h]
    · cases h : check s <;> simp [record, h]
    · rw [h3 e]
      cases h : check s with
      | none => simp [record, h]
      | some k =>
        simp only [record, h, bump_lookup, List.filter_cons]
        by_cases hk : k = e
        · simp [hk]; omega
        · simp [hk]

/-- C78, for solutions that Python can load and that do not change their arguments, with the imported modules there: whatever was tested before, the number that is recorded for a
solution is the number of inputs of the table on which it returns the expected output; every solution is recorded once, in the order of the first occurrences, under `passed_parser`
or `failed_parser` as the parser says; and every message is counted as often as it occurs. -/
theorem C78_report_partial {R : Type} (W : World R) (check : String → Option String) (f : String) (ins : List Args) (outs : List Val) (sols : List String)
    (hm : ∀ m ∈ imports, m ∈ W.modules) (hlen : ins.length = outs.length) (hload : ∀ s ∈ sols, W.exec f s ≠ none) (hk : ∀ s ∈ sols, Keeps W f (ins.zip outs) s) :
    ∃ r, main W check f ins outs sols = some r ∧
      r.passed = (sols.eraseDups.filter fun s => (check s).isNone).map (score W f (ins.zip outs)) ∧
      r.failed = (sols.eraseDups.filter fun s => (check s).isSome).map (score W f (ins.zip outs)) ∧
      ∀ e, (r.errors.lookup e).getD 0 = (sols.eraseDups.filter fun s => check s == some e).length := by
  refine ⟨_, go_addAll W check f ins outs hm hlen sols [] _ hload hk, ?_⟩
  have h := addAll_passed W check f (ins.zip outs) (sols.filter fun s => !([] : List String).contains s).eraseDups ⟨[], [], []⟩
  have h0 : (sols.filter fun s => !([] : List String).contains s) = sols := List.filter_eq_self.2 (by simp)
  rw [h0] at h
  rw [h0]
  simpa using h

/-- C78, whatever the solution does: the result of a run is the number of inputs, as they are in the table then, on which it returns the expected output, and the table keeps its length. -/
theorem C78_run {R : Type} (W : World R) (f sol : String) (ins : List Args) (outs : List Val) (n : Nat) (ins' : List Args) (h : runTest W f sol ins outs = some (n, ins')) :
    n = score W f (ins.zip outs) sol ∧ ins'.length = ins.length := by
  rw [runTest] at h
  split at h
  · exact absurd h (by simp)
  · next g hg =>
    split at h
    · next hlen =>
      have he : W.exec f sol = some g := by
        rw [World.load] at hg
        split at hg
        · exact hg
        · exact absurd hg (by simp)
      have h' := Option.some.inj h
      have hl : ∀ ts : List (Args × Val), (loop W g ts).2.length = ts.length := by
        intro ts
        induction ts with
        | nil => rfl
        | cons t ts ih => simp [loop, ih]
      refine ⟨by rw [← loop_score W f sol g he, h'], ?_⟩
      have := hl (ins.zip outs)
      rw [h'] at this
      simp only [List.length_zip] at this
      omega
    · exact absurd h (by simp)

/-! ### Refutations -/

/-- C78 fails: with the modules of the repository no solution is ever tested, since `llmlift_scripts.python_dsl` does not exist. -/
theorem C78_import_refuted {R : Type} (W : World R) (hW : W.modules = repoModules) (check : String → Option String) (f : String) (ins : List Args) (outs : List Val) (s : String)
    (sols : List String) : main W check f ins outs (s :: sols) = none := by
  have h : W.load f s = none := by
    rw [World.load, hW, if_neg (by decide +kernel)]
  simp [main, go, runTest, h]

/-- C78 fails: no solution is ever recorded as accepted by the parser, since `check_solution` takes no positional arguments. -/
theorem C78_parser_refuted {R : Type} (W : World R) (f : String) (ins : List Args) (outs : List Val) (sols : List String) (r : Report) (h : main W asCalled f ins outs sols = some r) :
    r.passed = [] := by
  have : ∀ (ss seen : List String) (ins : List Args) (q : Report), q.passed = [] → ∀ r, go W asCalled f outs seen ins q ss = some r → r.passed = [] := by
    intro ss
    induction ss with
    | nil => intro _ _ q hq r h; rw [go] at h; cases h; exact hq
    | cons s ss ih =>
      intro seen ins q hq r h
      rw [go] at h
      split at h
      · exact ih _ _ _ hq r h
      · split at h
        · exact absurd h (by simp)
        · refine ih _ _ _ ?_ r h
          exact hq
  exact this sols [] ins _ rfl r h

/-- C78 fails: one solution that Python cannot load is enough to lose the results of all. -/
theorem C78_load_refuted {R : Type} (W : World R) (check : String → Option String) (f : String) (ins : List Args) (outs : List Val) (sols : List String) (s : String) (hs : s ∈ sols)
    (h : W.exec f s = none) : main W check f ins outs sols = none := by
  have hl : W.load f s = none := by rw [World.load, h]; simp
  have : ∀ (ss seen : List String) (ins : List Args) (q : Report), s ∈ ss → s ∉ seen → go W check f outs seen ins q ss = none := by
    intro ss
    induction ss with
    | nil => intro _ _ _ h; cases h
    | cons x ss ih =>
      intro seen ins q hm hn
      rw [go]
      by_cases hx : x = s
      · subst hx
        rw [if_neg hn]
        simp [runTest, hl]
      · have hm' : s ∈ ss := by
          rcases List.mem_cons.1 hm with e | e
          · exact absurd e.symm hx
          · exact e
        split
        · exact ih _ _ _ hm' hn
        · split
          · rfl
          · refine ih _ _ _ hm' ?_
            simp only [List.mem_cons, not_or]
            exact ⟨fun e => hx e.symm, hn⟩
  exact this sols [] ins _ hs (by simp)

/-! ### Examples -/

/-- The integers of a row. -/
def ints : Val → List Int
  | .list l => l.filterMap fun v => match v with | .int i => some i | _ => none
  | _ => []

/-- The rows of a matrix. -/
def rows : Val → List (List Int)
  | .list l => l.map ints
  | _ => []

/-- `ex[i][j + 1] - 5 * (hz[i][j + 1] - hz[i][j])` for all places of a row. -/
def stencil (e h : List Int) : List Int := List.zipWith (fun x d => x - 5 * d) e.tail (List.zipWith (fun a b => a - b) h.tail h)

/-- A right solution for `fdtd_2d_part2`. -/
def good : Fun Val := fun a =>
  match a.lookup "ex", a.lookup "hz" with
  | some e, some h => (some (mat (List.zipWith stencil (rows e) (rows h))), a)
  | _, _ => (none, a)

/-- A solution that always returns `[[1]]`. -/
def one : Fun Val := fun a => (some (mat [[1]]), a)

/-- A solution that begins with `hz.clear()`. -/
def clears : Fun Val := fun a => (some (.list []), a.map fun p => if p.1 = "hz" then (p.1, .list []) else p)

/-- A Python in which `python_dsl` exists, with three solutions. -/
def exW : World Val where
  modules := "llmlift_scripts.python_dsl" :: repoModules
  exec _ s := if s = "good" then some (some good) else if s = "one" then some (some one) else if s = "clears" then some (some clears) else if s = "empty" then some none else none
  eq a b := some (a.eq b)

/-- The hypotheses of `C78_report_partial` for four solutions, one of them twice, and the report: five, one and no tests are passed. -/
theorem C78_example : (∀ m ∈ imports, m ∈ exW.modules) ∧ fdtdIn.length = fdtdOut.length ∧ (∀ s ∈ ["good", "one", "good", "empty"], exW.exec "fdtd_2d_part2" s ≠ none) ∧
    (∀ s ∈ ["good", "one", "good", "empty"], Keeps exW "fdtd_2d_part2" (fdtdIn.zip fdtdOut) s) ∧
    main exW (fun s => if s = "good" then none else some "E") "fdtd_2d_part2" fdtdIn fdtdOut ["good", "one", "good", "empty"] = some ⟨[5], [1, 0], [("E", 2)]⟩ := by
  have hg : ∀ a : Args, (good a).2 = a := by
    intro a
    unfold good
    split <;> rfl
  refine ⟨by decide +kernel, by decide +kernel, ?_, ?_, by decide +kernel⟩
  · intro s hs
    simp only [List.mem_cons, List.not_mem_nil, or_false] at hs
    rcases hs with rfl | rfl | rfl | rfl <;> simp [exW]
  · intro s hs g h t _
    simp only [List.mem_cons, List.not_mem_nil, or_false] at hs
    rcases hs with rfl | rfl | rfl | rfl <;> simp [exW] at h
    · subst h; exact hg _
    · subst h; rfl
    · subst h; exact hg _

/-- C78 fails: after a solution that changes its arguments a right solution passes no test, although it passes all of them when it is tested first. -/
theorem C78_mutation_refuted : main exW asCalled "fdtd_2d_part2" fdtdIn fdtdOut ["good", "clears"] = some ⟨[], [5, 0], [((asCalled "").getD "", 2)]⟩ ∧
    main exW asCalled "fdtd_2d_part2" fdtdIn fdtdOut ["clears", "good"] = some ⟨[], [0, 0], [((asCalled "").getD "", 2)]⟩ := by
  constructor <;> decide +kernel

end Metalift.Llm.Test
