import Verif.Sygus
import Verif.PCvc5
import Verif.PDecode
/-
C63: the functions read from an answer of CVC5.
-/
namespace Metalift

/-- An answer of CVC5: `(sygus-candidate (f term) ...)`. -/
def answerSx (answers : List (String × SExpr)) : SExpr :=
  .list (.atom "sygus-candidate" :: answers.map fun p => .list [.atom p.1, p.2])

/-- The elements of an answer. -/
def answerItems (answers : List (String × SExpr)) : List SExpr :=
  .atom "sygus-candidate" :: answers.map fun p => .list [.atom p.1, p.2]

/-- `d` is the function `s` with the body `t`. -/
structure Reads (lang : List FnDecl) (s : SynthFn) (t : SExpr) (d : FnDecl) : Prop where
  name : d.name = s.name
  params : d.params = s.params
  ret : d.ret = s.body.ty
  recursive : d.recursive = true
  body : ∃ e, d.body = some e ∧ e.ty = s.body.ty ∧
    ∀ I ρ, smtEval I (fun f => decide (f ∈ lang.map (·.name))) ρ t = some (eval I ρ e)

theorem lookup_isSome {lang : List FnDecl} {f : String} :
    ((lang.map fun d => (d.name, d.fnTy)).lookup f).isSome = decide (f ∈ lang.map (·.name)) := by
  induction lang with
  | nil => rfl
  | cons d l ih =>
    simp only [List.map_cons, List.lookup_cons, List.mem_cons]
    by_cases h : f = d.name
    · simp [h]
    · have : (f == d.name) = false := by simpa using h
      rw [this]
      simp [h, ih]

theorem candidateIn_hit {lang : List FnDecl} {s : SynthFn} {t : SExpr} {e : Expr} (h : cvcToExpr (cvcEnv lang s.params) [] t = some e) :
    candidateIn lang s (.list [.atom s.name, t]) =
      some [{ name := s.name, ret := s.body.ty, params := s.params, body := some e, recursive := true }] := by
  simp [candidateIn, nameIn, firstTwo, h]

theorem candidateIn_miss {lang : List FnDecl} {s : SynthFn} {f : String} {t : SExpr} (h : f ≠ s.name) (ht : t ≠ .atom s.name) :
    candidateIn lang s (.list [.atom f, t]) = some [] := by
  have : nameIn s.name (.list [.atom f, t]) = false := by
    cases t with
    | atom u =>
      have : u ≠ s.name := fun h => ht (by rw [h])
      simp [nameIn, h, this]
    | list xs => simp [nameIn, h]
  simp [candidateIn, this]

theorem candidates_none {lang : List FnDecl} {s : SynthFn} {answers : List (String × SExpr)} (h : s.name ∉ answers.map Prod.fst)
    (ha : ∀ p ∈ answers, p.2 ≠ .atom s.name) :
    ((answers.map fun p => SExpr.list [.atom p.1, p.2]).mapM (candidateIn lang s)).map List.flatten = some [] := by
  induction answers with
  | nil => rfl
  | cons p l ih =>
    simp only [List.map_cons, List.mem_cons, not_or] at h
    have ih := ih h.2 fun q hq => ha q (List.mem_cons_of_mem _ hq)
    rw [Option.map_eq_some_iff] at ih
    obtain ⟨y, hy, hf⟩ := ih
    rw [List.map_cons, List.mapM_cons, candidateIn_miss (Ne.symm h.1) (ha p List.mem_cons_self), hy]
    simp [hf]

theorem candidates_one {lang : List FnDecl} {s : SynthFn} {answers : List (String × SExpr)} {t : SExpr} {e : Expr}
    (hn : (answers.map Prod.fst).Nodup) (hm : (s.name, t) ∈ answers)
    (ha : ∀ p ∈ answers, p.2 ≠ .atom s.name) (he : cvcToExpr (cvcEnv lang s.params) [] t = some e) :
    ((answers.map fun p => SExpr.list [.atom p.1, p.2]).mapM (candidateIn lang s)).map List.flatten =
      some [{ name := s.name, ret := s.body.ty, params := s.params, body := some e, recursive := true }] := by
  induction answers with
  | nil => cases hm
  | cons p l ih =>
    simp only [List.map_cons, List.nodup_cons] at hn
    have ha' : ∀ q ∈ l, q.2 ≠ .atom s.name := fun q hq => ha q (List.mem_cons_of_mem _ hq)
    rw [List.map_cons, List.mapM_cons]
    rcases List.mem_cons.1 hm with h | h
    · subst h
      have := candidates_none (lang := lang) hn.1 ha'
      rw [Option.map_eq_some_iff] at this
      obtain ⟨y, hy, hf⟩ := this
      rw [candidateIn_hit he, hy]
      simp [hf]
    · have hne : p.1 ≠ s.name := by
        intro hp
        rw [hp] at hn
        exact hn.1 (List.mem_map.2 ⟨_, h, rfl⟩)
      have := ih hn.2 h ha'
      rw [Option.map_eq_some_iff] at this
      obtain ⟨y, hy, hf⟩ := this
      rw [candidateIn_miss hne (ha p List.mem_cons_self), hy]
      simp [hf]

/-- C63: from an answer with one term for every function to be synthesised, in any order, every function is read once, with its own parameters, result and
term, provided that no name of a function occurs in the word `sygus-candidate` and no term is just the name of a function. -/
theorem C63_candidates_partial (lang : List FnDecl) (synths : List SynthFn) (line : String) (answers : List (String × SExpr))
    (hline : generateAst line = some [answerSx answers]) (hn : (answers.map Prod.fst).Nodup)
    (hR : ∀ d ∈ lang, d.name ∉ smtReserved)
    (hsub : ∀ s ∈ synths, ¬ s.name.toList <:+: "sygus-candidate".toList)
    (hatom : ∀ s ∈ synths, ∀ p ∈ answers, p.2 ≠ .atom s.name)
    (hterm : ∀ s ∈ synths, ∃ t, (s.name, t) ∈ answers ∧ CvcTyped (cvcEnv lang s.params) (cvcEnv lang s.params).vars t s.body.ty) :
    ∃ ds, generateCandidates lang synths line = some ds ∧ All2 (fun s d => ∃ t, (s.name, t) ∈ answers ∧ Reads lang s t d) synths ds := by
  have one : ∀ s ∈ synths, ∃ d, ((answerItems answers).mapM (candidateIn lang s)).map List.flatten = some [d] ∧
      ∃ t, (s.name, t) ∈ answers ∧ Reads lang s t d := by
    intro s hs
    obtain ⟨t, hm, ht⟩ := hterm s hs
    have hfn : ∀ f, ((cvcEnv lang s.params).fns f).isSome = decide (f ∈ lang.map (·.name)) := fun f => lookup_isSome
    obtain ⟨e, h1, h2, h3⟩ := C21_cvc5_reading_partial (cvcEnv lang s.params) (fun f hf => by
      have := hfn f
      have hno : f ∉ lang.map (·.name) := by
        intro hmem
        obtain ⟨d, hd, rfl⟩ := List.mem_map.1 hmem
        exact hR d hd hf
      rw [decide_eq_false hno] at this
      simpa using this) t s.body.ty ht
    refine ⟨{ name := s.name, ret := s.body.ty, params := s.params, body := some e, recursive := true }, ?_, t, hm, ⟨rfl, rfl, rfl, rfl, e, rfl, h2, fun I ρ => ?_⟩⟩
    · have hc := candidates_one (lang := lang) hn hm (hatom s hs) h1
      rw [Option.map_eq_some_iff] at hc
      obtain ⟨y, hy, hf⟩ := hc
      have h0 : candidateIn lang s (.atom "sygus-candidate") = some [] := by
        have : nameIn s.name (.atom "sygus-candidate") = false := by
          rw [← Bool.not_eq_true]
          intro hh
          obtain ⟨a, b, hab⟩ := hasSubL_iff.1 hh
          exact hsub s hs ⟨a, b, by rw [hab, List.append_assoc]⟩
        simp [candidateIn, this]
      simp only [answerItems, List.mapM_cons, h0, hy]
      simp [hf]
    · have hfun : (fun f => decide (f ∈ lang.map (·.name))) = fun f => ((cvcEnv lang s.params).fns f).isSome := funext fun f => (hfn f).symm
      rw [hfun]
      exact h3 I ρ
  have all : ∀ l : List SynthFn, (∀ s ∈ l, s ∈ synths) → ∃ css, l.mapM (fun s => ((answerItems answers).mapM (candidateIn lang s)).map List.flatten) = some css ∧
      All2 (fun s d => ∃ t, (s.name, t) ∈ answers ∧ Reads lang s t d) l css.flatten := by
    intro l hl
    induction l with
    | nil => exact ⟨[], rfl, .nil⟩
    | cons s l ih =>
      obtain ⟨css, h1, h2⟩ := ih fun a ha => hl a (List.mem_cons_of_mem _ ha)
      obtain ⟨d, h3, h4⟩ := one s (hl s List.mem_cons_self)
      exact ⟨[d] :: css, by rw [List.mapM_cons, h3, h1]; rfl, .cons h4 h2⟩
  obtain ⟨css, h1, h2⟩ := all synths fun s hs => hs
  refine ⟨css.flatten, ?_, h2⟩
  simp only [generateCandidates, hline, Option.bind_eq_bind, Option.bind_some, List.head?_cons, answerSx]
  simp only [answerItems] at h1
  rw [h1]
  rfl

/-- The names the drivers give to invariants and postconditions contain an underscore, hence do not occur in `sygus-candidate`. -/
theorem C63_driver_names (n : String) (h : '_' ∈ n.toList) : ¬ n.toList <:+: "sygus-candidate".toList := by
  rintro ⟨a, b, hab⟩
  have : '_' ∈ "sygus-candidate".toList := by rw [← hab]; simp [h]
  exact absurd this (by decide)

/-- Two functions. -/
def exCvcSynths : List SynthFn :=
  [{ name := "f_inv0", params := [("x", .int)], body := .node .choose .bool [boolLit true, .node .gt .bool [.var "x" .int, intLit 0]] },
   { name := "f_ps", params := [("x", .int), ("y", .int)], body := .node .choose .int [.var "x" .int, .node .add .int [.var "x" .int, .var "y" .int]] }]

/-- Their answer, in another order. -/
def exCvcAnswers : List (String × SExpr) :=
  [("f_ps", .list [.atom "+", .atom "x", .atom "y"]), ("f_inv0", .list [.atom ">", .atom "x", .atom "0"])]

example : ∃ ds, generateCandidates [] exCvcSynths "(sygus-candidate (f_ps (+ x y)) (f_inv0 (> x 0)))" = some ds ∧
    All2 (fun s d => ∃ t, (s.name, t) ∈ exCvcAnswers ∧ Reads [] s t d) exCvcSynths ds := by
  have hx : ∀ ps : List (String × Ty), dictGet ps "x" = some .int → CvcTyped (cvcEnv [] ps) (cvcEnv [] ps).vars (.atom "x") .int :=
    fun ps h => .sym (by refine ⟨?_, ?_, ?_⟩ <;> decide) h
  refine C63_candidates_partial [] exCvcSynths _ exCvcAnswers rfl (by decide) (by simp) ?_ ?_ ?_
  · intro s hs
    refine C63_driver_names _ ?_
    simp only [exCvcSynths, List.mem_cons, List.not_mem_nil, or_false] at hs
    rcases hs with rfl | rfl <;> decide
  · intro s hs p hp
    simp only [exCvcAnswers, List.mem_cons, List.not_mem_nil, or_false] at hp
    rcases hp with rfl | rfl <;> simp
  · intro s hs
    simp only [exCvcSynths, List.mem_cons, List.not_mem_nil, or_false] at hs
    rcases hs with rfl | rfl
    · exact ⟨.list [.atom ">", .atom "x", .atom "0"], by simp [exCvcAnswers], .comp (by decide) (hx _ rfl) (.num rfl)⟩
    · exact ⟨.list [.atom "+", .atom "x", .atom "y"], by simp [exCvcAnswers],
        .arith (by decide) (hx _ rfl) (.sym (by refine ⟨?_, ?_, ?_⟩ <;> decide) rfl)⟩

/-- C63 fails for a function whose name occurs in the word `sygus-candidate`: the word itself is taken for its answer, and with a parameter `y` the
function is also read with the body `y`. -/
theorem C63_substring_refuted :
    ∃ (s : SynthFn) (ds : List FnDecl) (d : FnDecl), s.name = "date" ∧
      generateCandidates [] [s] "(sygus-candidate (date (+ y 1)))" = some ds ∧ ds.head? = some d ∧ d.name = "date" ∧ d.body = some (.var "y" .int) :=
  ⟨{ name := "date", params := [("y", .int)], body := .node .choose .int [.node .add .int [.var "y" .int, intLit 1]] }, _, _, rfl, rfl, rfl, rfl, rfl⟩

/-- C63 fails when a term is the name of another function: with the parameter `g` of `f` as the answer for `f`, the answer for `f` is also read as one for `g`. -/
theorem C63_atom_refuted :
    ∃ (f g : SynthFn) (ds : List FnDecl), f.name = "f_ps" ∧ g.name = "g_ps" ∧
      generateCandidates [] [f, g] "(sygus-candidate (f_ps g_ps) (g_ps 1))" = some ds ∧ ds.map (·.name) = ["f_ps", "g_ps", "g_ps"] :=
  ⟨{ name := "f_ps", params := [("g_ps", .int)], body := .var "g_ps" .int }, { name := "g_ps", params := [("g_ps", .int)], body := intLit 1 }, _, rfl, rfl, rfl, rfl⟩

end Metalift
