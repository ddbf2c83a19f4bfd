import Verif.PLlmReply
/-
C73: examples and refutations.
-/
namespace Metalift.Llm.Reply
open Metalift.Regex Metalift.Py

/-! ### Examples -/

/-- A reply with two blocks. -/
def exBlocks : List Block :=
  [⟨"Here is `f`:\n\n".toList, "python".toList, "\ndef f(x: int, y: int) -> int:\n    return x + y\n".toList⟩,
    ⟨"\n\nAnd the invariant:\n".toList, "".toList, "\ndef inv(i: int) -> bool:\n    return i <= 2\n".toList⟩]

theorem noFence_of (s : List Char) (h : ¬ "```".toList <:+: s) (h' : s.getLast? ≠ some '`') : NoFence s :=
  ⟨h, fun t ht => h' (by rw [ht]; simp)⟩

theorem exBlocks_plain : ∀ b ∈ exBlocks, b.Plain := by
  intro b hb
  simp only [exBlocks, List.mem_cons, List.not_mem_nil, or_false] at hb
  rcases hb with rfl | rfl
  · exact ⟨noFence_of _ (by decide +kernel) (by decide +kernel), by decide +kernel, ⟨_, rfl⟩, noFence_of _ (by decide +kernel) (by decide +kernel)⟩
  · exact ⟨noFence_of _ (by decide +kernel) (by decide +kernel), by decide +kernel, ⟨_, rfl⟩, noFence_of _ (by decide +kernel) (by decide +kernel)⟩

/-- **C73, example.** A reply with two blocks meets the hypotheses. -/
theorem C73_example : extractAll (replyText exBlocks "\nDone.".toList) = exBlocks.map Block.code ∧
    (solution .gpt (replyText exBlocks "\nDone.".toList)).bind program =
      some "\ndef f(x: int, y: int) -> int:\n    return x + y\n\n\n\ndef inv(i: int) -> bool:\n    return i <= 2\n".toList := by
  refine ⟨C73_blocks_partial _ _ exBlocks_plain (by decide +kernel), ?_⟩
  rw [C73_program_partial _ _ exBlocks_plain (by decide +kernel) (by decide +kernel)]
  decide +kernel

/-- `x` is 2, `y` is 1, and `ite` chooses. -/
def exScope : Scope where
  loc x := if x = "x" then some (.int 2) else if x = "y" then some (.int 1) else none
  glob f vs := if f = "ite" then match vs with
      | [c, a, b] => some (if c.asBool then a else b)
      | _ => none
    else none

theorem exScope_ite : IteScope exScope := ⟨rfl, fun _ _ _ => rfl⟩

theorem parses_of {ts : List Tok} {a : Ast} (n : Nat) (h : ∀ f, pLvl (f + n) 0 ts = some (a, [])) : Parses ts a :=
  ⟨n, fun f hf => by
    obtain ⟨g, rfl⟩ : ∃ g, f = g + n := ⟨f - n, by omega⟩
    exact h g⟩

/-- **C73, example.** `ite(x > y,` with the other arguments on lines of their own. -/
theorem C73_ite_example : HasValue false exScope (replaceIte "ite(x > y,\n   x + 1,\n   y)".toList) (.int 3) := by
  have e : "ite(x > y,\n   x + 1,\n   y)".toList = "ite(".toList ++ ("x > y".toList ++ ',' :: ("\n   x + 1".toList ++ ',' :: ("\n   y".toList ++ [')']))) := by
    decide +kernel
  have rn : ∀ s k, k ≤ 8 → Reads k [.name s] (.name s) := fun s k hk => (atom_name s).reads.lift hk (by decide)
  rw [e]
  refine C73_ite_partial exScope exScope_ite _ _ _ [.name "x", .cmp .gt, .name "y"] [.name "x", .plus, .num 1] [.name "y"]
    (.cmp .gt (.name "x") (.name "y")) (.bin .add (.name "x") (.num 1)) (.name "y") _ (by decide +kernel) (by decide +kernel) (by decide +kernel)
    ⟨[], "x > y".toList, [], by decide +kernel, by decide +kernel, by decide +kernel, by decide +kernel⟩
    ⟨"\n   ".toList, "x + 1".toList, [], by decide +kernel, by decide +kernel, by decide +kernel, by decide +kernel⟩
    ⟨"\n   ".toList, "y".toList, [], by decide +kernel, by decide +kernel, by decide +kernel, by decide +kernel⟩
    (by decide +kernel) (by decide +kernel) (by decide +kernel) ?_ ?_ (rn _ _ (by decide)) ?_
  · exact (reads_cmp .gt (rn "x" 5 (by decide)) (rn "y" 5 (by decide))).lift (by decide) (by decide)
  · refine ⟨20, fun f hf rest hr => ?_⟩
    obtain ⟨g, rfl⟩ : ∃ g, f = g + 20 := ⟨f - 20, by omega⟩
    cases rest with
    | nil => rfl
    | cons t rest => cases t <;> first | rfl | exact absurd (hr _ rfl) (by decide)
  · refine ⟨[.name "ite", .lpar, .name "x", .cmp .gt, .name "y", .comma, .name "x", .plus, .num 1, .comma, .name "y", .rpar],
      .call (.name "ite") [.cmp .gt (.name "x") (.name "y"), .bin .add (.name "x") (.num 1), .name "y"], by decide +kernel, parses_of 30 fun f => rfl, ?_⟩
    rfl

/-! ### Where it fails -/

/-- **C73, refuted in general.** With the first service there is never a program: a list is returned, and the next step raises. -/
theorem C73_list_refuted (reply : List Char) : (solution .claude reply).bind program = none := rfl

/-- **C73, refuted in general.** The third service raises for a reply without a block, and drops every block but the first. -/
theorem C73_first_block_refuted : solution .gemini "return x".toList = none ∧
    (solution .gemini (replyText exBlocks [])).bind program = some "\ndef f(x: int, y: int) -> int:\n    return x + y\n".toList := by decide +kernel

/-- **C73, refuted in general.** A block opened with `c++` keeps `++`, one with `py` keeps `py`, one with `Python3` keeps `3`; code that begins with `c` right
after the fence loses it; and a fence inside a comment ends the block. -/
theorem C73_language_refuted :
    extractAll "```c++\nint x;\n```".toList = ["++\nint x;\n".toList] ∧
    extractAll "```py\nx = 1\n```".toList = ["py\nx = 1\n".toList] ∧
    extractAll "```Python3\nx = 1\n```".toList = ["3\nx = 1\n".toList] ∧
    extractAll "```count(x)```".toList = ["ount(x)".toList] ∧
    extractAll "```\n# see ```f```\nx = 1\n```".toList = ["\n# see ".toList, "\nx = 1\n".toList] := by decide +kernel

/-- **C73, refuted in general.** A call that is part of a larger expression changes its value: the text has the value 3, the text that replaces it 2. -/
theorem C73_operand_refuted : HasValue true exScope "ite(x > y, x, y) + 1".toList (.int 3) ∧
    replaceIte "ite(x > y, x, y) + 1".toList = "x if x > y else y + 1".toList ∧
    HasValue false exScope "x if x > y else y + 1".toList (.int 2) := by
  refine ⟨⟨_, _, by decide +kernel, parses_of (a := .bin .add (.call (.name "ite") [.cmp .gt (.name "x") (.name "y"), .name "x", .name "y"]) (.num 1))
    (ts := [.name "ite", .lpar, .name "x", .cmp .gt, .name "y", .comma, .name "x", .comma, .name "y", .rpar, .plus, .num 1]) 30 fun f => rfl, rfl⟩, by decide +kernel,
    ⟨_, _, by decide +kernel, parses_of (a := .ite (.cmp .gt (.name "x") (.name "y")) (.name "x") (.bin .add (.name "y") (.num 1)))
      (ts := [.name "x", .kif, .name "x", .cmp .gt, .name "y", .kelse, .name "y", .plus, .num 1]) 30 fun f => rfl, rfl⟩⟩

/-- **C73, refuted in general.** A call inside a call: the condition of the inner one becomes part of the condition of the outer one.  The text has the value 0, the
text that replaces it 7. -/
theorem C73_nested_refuted : HasValue true exScope "ite(x < y, ite(x == y, x, 7), 0)".toList (.int 0) ∧
    replaceIte "ite(x < y, ite(x == y, x, 7), 0)".toList = "ite(x == y if x < y else x, 7, 0)".toList ∧
    HasValue false exScope "ite(x == y if x < y else x, 7, 0)".toList (.int 7) := by
  refine ⟨⟨_, _, by decide +kernel, parses_of (a := .call (.name "ite") [.cmp .lt (.name "x") (.name "y"),
      .call (.name "ite") [.cmp .eq (.name "x") (.name "y"), .name "x", .num 7], .num 0])
    (ts := [.name "ite", .lpar, .name "x", .cmp .lt, .name "y", .comma, .name "ite", .lpar, .name "x", .cmp .eq, .name "y", .comma, .name "x", .comma, .num 7, .rpar,
      .comma, .num 0, .rpar]) 40 fun f => rfl, rfl⟩, by decide +kernel,
    ⟨_, _, by decide +kernel, parses_of (a := .call (.name "ite") [.ite (.cmp .lt (.name "x") (.name "y")) (.cmp .eq (.name "x") (.name "y")) (.name "x"), .num 7, .num 0])
      (ts := [.name "ite", .lpar, .name "x", .cmp .eq, .name "y", .kif, .name "x", .cmp .lt, .name "y", .kelse, .name "x", .comma, .num 7, .comma, .num 0, .rpar]) 40
      fun f => rfl, rfl⟩⟩

/-- **C73, refuted in general.** An argument that is a call with two arguments is cut at its comma, one with a closing parenthesis at that parenthesis; a function
whose name ends in `ite` is taken for `ite`; and a line break inside an argument is kept where the parentheses are removed. -/
theorem C73_cut_refuted :
    replaceIte "ite(f(x, y), x, y)".toList = "y) if f(x else x, y".toList ∧
    replaceIte "ite(x, y, f(x) + 1)".toList = "y if x else f(x + 1)".toList ∧
    replaceIte "write(x, y, z)".toList = "wry if x else z".toList ∧
    replaceIte "ite(x and\n y, x, y)".toList = "x if x and\n y else y".toList ∧ lex false "x if x and\n y else y".toList = none := by decide +kernel

end Metalift.Llm.Reply
