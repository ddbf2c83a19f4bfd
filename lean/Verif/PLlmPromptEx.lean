import Verif.PLlmPrompt
/-
C76: examples, and what does not hold.
-/
namespace Metalift.Llm.Prompt
open Smt (OfTys OfTy)

/-! ### The driver of `normal_blend_8` -/

/-- `benchmarks/blend/driver/normal_blend_8_driver.py` 20-24. -/
def blendInfo : LoopInfo := .single ("i", .int) [("base", .list .int), ("active", .list .int), ("opacity", .int)] [("out", .list .int)]

def blendTemplate : List Char := ("\ndef invariant(active: List[int], base: List[int], i: int, opacity: int, out: List[int]) -> bool:\n" ++
  "    return expression over loop index variable i and out == operation over defined functions\n").toList

/-- A state in which every variable has a value; the result is in `agg.result`. -/
def blendSt : Ll.St := { ptr := [("active", .var "active" (.list .int)), ("agg.result", .var "agg.result" (.list .int)), ("base", .var "base" (.list .int)),
  ("i", .var "i" .int), ("opacity", .var "opacity" .int)] }

def blendVisit : Visit := ⟨"normal_blend_8_inv0", [("tmp", .int)], [("i", .int)], blendSt⟩

def blendCall : Expr := mkCall "normal_blend_8_inv0" .bool [.var "active" (.list .int), .var "base" (.list .int), .var "i" .int, .var "opacity" .int,
  .var "agg.result" (.list .int)]

/-- An answer: `return i <= opacity`. -/
def blendBody : Expr := .node .le .bool [.var "i" .int, .var "opacity" .int]

def blendDecl : FnDecl :=
  ⟨"invariant", .bool, [("active", .list .int), ("base", .list .int), ("i", .int), ("opacity", .int), ("out", .list .int)], some blendBody, false⟩

/-- Functions mean a body. -/
def bodyInterp (ps : List String) (b : Expr) : Interp where
  fn := fun _ vs => eval ⟨fun _ _ => .bool false, fun _ _ => .bool false, fun _ _ => 0, fun _ _ => 0, fun _ => .bool false⟩ (fnEnv ps vs) b
  apply := fun _ _ => .bool false
  idiv := fun _ _ => 0
  imod := fun _ _ => 0
  choose := fun _ => .bool false

def blendI : Interp := bodyInterp ["active", "base", "i", "opacity", "out"] blendBody

def blendEnv : Env := fun x => if x = "i" then .int 3 else if x = "opacity" then .int 5 else .list [.int 1]

theorem blend_templates : templates id blendInfo = some [blendTemplate] := by decide +kernel

/-- The hypotheses of `C76_binding_partial` hold for the driver of `normal_blend_8`: the template, the call in the verification condition and an answer. -/
theorem C76_example : templates id blendInfo = some [blendTemplate] ∧ (∀ v ∈ declared blendInfo 0, Ident v.1) ∧
    params blendTemplate = ["active", "base", "i", "opacity", "out"] ∧
    (blendVisit, some blendCall) ∈ visits (driverGrammars id "normal_blend_8" [("out", "agg.result")] blendInfo) [("base", .list .int), ("active", .list .int), ("opacity", .int)] []
      [blendVisit, blendVisit] ∧
    blendDecl.name = asked blendInfo 0 ∧ blendDecl.params.map Prod.fst = params blendTemplate ∧
    DeclHolds blendI (process "normal_blend_8" ("out", .list .int) blendDecl) ∧
    OfTys (blendDecl.params.map Prod.snd) ((params blendTemplate).map (stateEnv blendI blendEnv [("out", "agg.result")] blendSt (params blendTemplate))) ∧
    eval blendI blendEnv blendCall = .bool true := by
  have hp : params blendTemplate = ["active", "base", "i", "opacity", "out"] := by decide +kernel
  refine ⟨blend_templates, ?_, hp, ?_, rfl, hp ▸ rfl, ?_, ?_, by decide +kernel⟩
  · unfold Ident
    decide +kernel
  · exact List.mem_cons_self
  · intro vs _ b hb
    rw [process_asked "normal_blend_8" _ blendDecl blendInfo 0 (by decide) rfl] at hb ⊢
    have : b = blendBody := (Option.some.inj hb).symm
    subst this
    rfl
  · rw [hp]
    have : (["active", "base", "i", "opacity", "out"].map (stateEnv blendI blendEnv [("out", "agg.result")] blendSt ["active", "base", "i", "opacity", "out"])) =
        [.list [.int 1], .list [.int 1], .int 3, .int 5, .list [.int 1]] := by decide +kernel
    rw [this]
    simp [blendDecl, OfTys, OfTy]

/-- `C76_assert_partial` on a program with two statements `return`. -/
theorem C76_assert_example : Plain none [("int f(int returned) { if (returned > 0) ".toList, " returned".toList), (" ".toList, " (1 + 2)".toList)] " }".toList ∧
    withAssert "out == g(x)".toList "int f(int returned) { if (returned > 0) return returned; return (1 + 2); }".toList =
      "int f(int returned) { if (returned > 0) assert out == g(x); assert out == g(x); }".toList := by
  have hno : ∀ (prev : Option Char) (t : List Char), (∀ n ∈ List.range (t.length + 1), "return".toList <+: t.drop n →
      ((t.take n).getLast?.or prev).any isWord = true ∨ (t.drop (n + 6)).head?.any isWord = true) → NoReturn prev t := by
    intro prev t h u v e
    have h1 : t.take u.length = u := by simp [e]
    have h2 : t.drop u.length = "return".toList ++ v := by rw [e, List.append_assoc, List.drop_left]
    have h3 : t.drop (u.length + 6) = v := by rw [← List.drop_drop, h2]; rfl
    have := h u.length (List.mem_range.2 (by rw [e]; simp; omega)) (by rw [h2]; exact ⟨v, rfl⟩)
    rwa [h1, h3] at this
  refine ⟨⟨⟨hno _ _ (by decide +kernel), ?_⟩, ?_, ⟨hno _ _ (by decide +kernel), ?_⟩, ?_, hno _ _ (by decide +kernel)⟩, by decide +kernel⟩
  · intro c hc
    have : c = ' ' := (Option.some.inj (hc.symm.trans (by decide +kernel : _ = some ' ')))
    subst this
    rfl
  · refine ⟨by decide +kernel, by decide +kernel, fun c hc => ?_⟩
    have : c = ' ' := (Option.some.inj (hc.symm.trans (by decide +kernel : _ = some ' ')))
    subst this
    rfl
  · intro c hc
    have : c = ' ' := (Option.some.inj (hc.symm.trans (by decide +kernel : _ = some ' ')))
    subst this
    rfl
  · refine ⟨by decide +kernel, by decide +kernel, fun c hc => ?_⟩
    have : c = ' ' := (Option.some.inj (hc.symm.trans (by decide +kernel : _ = some ' ')))
    subst this
    rfl

/-! ### What does not hold -/

/-- The outer loop of the drivers of the blend functions, e.g. `benchmarks/blend/driver/darken_blend_8_driver.py` 22-36. -/
def darkenInfo : LoopInfo := .double ("row", .int) ("col", .int) [("base", .list (.list .int)), ("active", .list (.list .int))]
  [("base", .list (.list .int)), ("active", .list (.list .int)), ("row", .int)] [("out", .list (.list .int))] [("row_vec", .list .int), ("out", .list (.list .int))]

def darkenSt : Ll.St := { ptr := [("active", .var "active" (.list (.list .int))), ("out", .var "out" (.list (.list .int))), ("base", .var "base" (.list (.list .int))),
  ("row", .var "row" .int)] }

/-- The parameters of `invariant1` in the example of the prompt (`prompts.py` 122), without `col`. -/
def darkenParams : List String := ["row", "base", "active", "out"]

def darkenBody : Expr := mkEq (.var "row" .int) (intLit 1)

/-- The prompt's own example does not list the parameters in the order of the template.  An answer that follows the example is accepted, but its parameters get
the values of other variables: the verification condition says something else than the answer. -/
theorem C76_example_order_refuted : ∃ (ts : List (List Char)) (t : List Char) (e : Expr) (σ : Env), templates id darkenInfo = some ts ∧ ts[0]? = some t ∧
    darkenParams.Perm (params t) ∧ (⟨"darken_blend_8_inv0", [], [], darkenSt⟩, some e) ∈ visits (driverGrammars id "darken_blend_8" [] darkenInfo) [] []
      [⟨"darken_blend_8_inv0", [], [], darkenSt⟩] ∧
    eval (bodyInterp darkenParams darkenBody) (stateEnv (bodyInterp darkenParams darkenBody) σ [] darkenSt darkenParams) darkenBody = .bool true ∧
    eval (bodyInterp darkenParams darkenBody) σ e = .bool false := by
  refine ⟨_, _, _, fun x => if x = "row" then .int 1 else .list [], rfl, rfl, ?_, List.mem_cons_self, by decide +kernel, by decide +kernel⟩
  have : params ((templates id darkenInfo).get!)[0]! = ["active", "base", "out", "row"] := by decide +kernel
  change darkenParams.Perm (params ((templates id darkenInfo).get!)[0]!)
  rw [this]
  decide +kernel

/-- `benchmarks/llama/driver/transformer_part2_driver.py` 21-40. -/
def part2Info : LoopInfo := .double ("i", .int) ("timestep", .int)
  [("token_position", .int), ("head", .int), ("head_size", .int), ("key_cache_layer", .list (.list .int)), ("attention", .list .int)]
  [("token_position", .int), ("head", .int), ("head_size", .int), ("key_cache_layer", .list (.list .int)), ("attention", .list .int)]
  [("xb", .list .int)] [("xb", .list .int), ("curr", .int)]

/-- The template of the inner loop asks for an expression over the counter of the outer loop, which need not be a parameter: in `transformer_part2` it is not. -/
theorem C76_outer_counter_refuted : ∃ ts t, templates id part2Info = some ts ∧ ts[1]? = some t ∧ "over loop index variable `i` and `timestep`".toList <:+: t ∧
    "i" ∉ params t := by
  have h : ∃ ts, templates id part2Info = some ts ∧ ∃ t, ts[1]? = some t ∧ (List.range t.length).any (fun n => "over loop index variable `i` and `timestep`".toList.isPrefixOf (t.drop n)) = true ∧
      "i" ∉ params t := ⟨_, rfl, _, rfl, by decide +kernel, by decide +kernel⟩
  obtain ⟨ts, h1, t, h2, h3, h4⟩ := h
  refine ⟨ts, t, h1, h2, ?_, h4⟩
  obtain ⟨n, -, hn⟩ := List.any_eq_true.1 h3
  exact (List.isPrefixOf_iff_prefix.1 hn).isInfix.trans (List.drop_suffix n t).isInfix

/-- A variable that is read with one type and modified with another one is shown with the first type only. -/
theorem C76_type_refuted : (getInvArgs id (.single ("i", .int) [("x", .int)] [("x", .list .int)]))[0]? = some [("i", .int), ("x", .int)] := by rfl

/-- Without arguments from the driver the invariant gets the modified variables and the arguments of the function, not those of the template. -/
theorem C76_no_arguments_refuted : (visits [] [("base", .list .int)] [] [⟨"f_inv0", [], [("agg.result", .list .int)], { ptr := [("agg.result", .var "agg.result" (.list .int)), ("base", .var "base" (.list .int))] }⟩]).map Prod.snd =
      [some (mkCall "f_inv0" .bool [.var "agg.result" (.list .int), .var "base" (.list .int)])] ∧
    (getInvArgs id (.single ("i", .int) [("base", .list .int)] [("out", .list .int)])).map (List.map Prod.fst) = [["base", "i", "out"]] :=
  ⟨rfl, by decide +kernel⟩

/-- With names in scope the invariant gets more arguments than the template shows. -/
theorem C76_scope_refuted : (visits [("f_inv0", ⟨["tmp"], [("i", .int)]⟩)] [] [] [⟨"f_inv0", [("tmp", .int)], [], { ptr := [("i", .var "i" .int), ("tmp", .var "tmp" .int)] }⟩]).map Prod.snd =
    [some (mkCall "f_inv0" .bool [.var "i" .int, .var "tmp" .int])] := by rfl

/-- A variable that the front end does not know raises an exception (here because the driver did not give the name `agg.result`). -/
theorem C76_unknown_refuted : (visits (driverGrammars id "normal_blend_8" [] blendInfo) [] [] [blendVisit]).map Prod.snd = [none] := by rfl

/-- For two loops the templates are put into the prompt as a Python list of strings: whatever the loops are, there is not one end of a line between the two
definitions or inside them. -/
theorem C76_double_refuted (ord : List V → List V) (o i : V) (ro ri mo mi : List V) (s : List Char) (h : inPrompt ord (.double o i ro ri mo mi) = some s) : '\n' ∉ s := by
  have hr : ∀ t, '\n' ∉ reprStr t := by
    intro t ht
    simp only [reprStr, List.mem_append, List.mem_flatMap] at ht
    rcases ht with (ht | ⟨c, -, hc⟩) | ht
    · exact absurd ht (by decide +kernel)
    · split at hc
      · exact absurd hc (by decide +kernel)
      · rename_i hne
        exact hne (List.mem_singleton.1 hc).symm
    · exact absurd ht (by decide +kernel)
  simp only [inPrompt, Option.bind_eq_bind, Option.bind_eq_some_iff] at h
  obtain ⟨ts, -, h⟩ := h
  have h : "[".toList ++ ", ".toList.intercalate (ts.map reprStr) ++ "]".toList = s := by simpa using h
  subst h
  simp only [List.mem_append, not_or]
  refine ⟨⟨by decide +kernel, fun hm => ?_⟩, by decide +kernel⟩
  rcases mem_intercalate hm with hm | ⟨l, hl, hm⟩
  · exact absurd hm (by decide +kernel)
  · obtain ⟨t, -, rfl⟩ := List.mem_map.1 hl
    exact hr t hm

/-- A statement `return` on two lines stays as it is. -/
theorem C76_lines_refuted : withAssert "out == g(x)".toList "return f(x,\n  y);".toList = "return f(x,\n  y);".toList := by decide +kernel

/-- A semicolon in a literal ends the replaced text. -/
theorem C76_literal_refuted : withAssert "out == g(x)".toList "return f(x, ';');".toList = "assert out == g(x);');".toList := by decide +kernel

/-- The word `return` in a comment is replaced together with the code after it. -/
theorem C76_comment_refuted : withAssert "out == g(x)".toList "/* no return here */ i = 1; return i;".toList = "/* no assert out == g(x); assert out == g(x);".toList := by decide +kernel

end Metalift.Llm.Prompt
