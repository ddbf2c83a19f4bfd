import Verif.RktSynthBits
import Verif.PSynthFileEx
import Verif.PBits
/-
C61 for integers with a fixed number of bits, the default of `to_rosette`.
-/
namespace Metalift
namespace Rkt
open Smt (OfTy OfTys FnHolds paramEnv)

theorem holeOf_width (s : SynthFn) : readWidth (holeOf s) = none := rfl

theorem queries_width {basename : String} {rounds : Nat} {guesses : List SynthFn} {cs : List String} :
    ∀ x ∈ queriesForms basename rounds guesses cs, readWidth x = none := by
  intro x hx
  rcases List.mem_append.1 hx with hx | hx
  · simp only [queryForms, List.mem_cons, List.not_mem_nil, or_false] at hx
    rcases hx with rfl | rfl | rfl | rfl <;> rfl
  · obtain ⟨i, _, hx⟩ := List.mem_flatMap.1 hx
    simp only [nextForms, printForms, List.mem_cons, List.not_mem_nil, or_false] at hx
    rcases hx with rfl | rfl | rfl | rfl <;> rfl

theorem gramSx_width (g : RGrammar) : readWidth (gramSx g) = none := rfl

/-- **C61**: unless unbounded integers are asked for, the query is about integers of six bits. -/
theorem C61_width {basename : String} {rounds : Nat} {guesses : List SynthFn} {lang : List FnDecl} {synths helpers : List SynthFn} {vars : List (String × VTy)} {b : Nat} {u : Bool} {vc : Expr}
    {text : List Char} (hok : SketchOk lang (synths ++ helpers) vars b vc) (hg : Guessed lang helpers) (hb : fileName basename = true) (hgu : ∀ g ∈ guesses, g ∈ synths ++ helpers)
    (hfile : synthFile basename rounds guesses lang synths helpers vars b u vc = some text) : bitwidth text = if u then none else some 6 := by
  obtain ⟨ds, cs, lx, gs, v, hgen, hnames, hlx, hv, ht1, ht2, hgs, hread⟩ := synth_forms hok hg hb hgu hfile
  rw [bitwidth, hread, Option.bind_some, findSome_append_none, findSome_append_none, findSome_append_none, findSome_append_none, findSome_append_none]
  · cases u with
    | true =>
      rw [List.findSome?_append, List.findSome?_eq_none_iff.2 queries_width]
      rfl
    | false => rfl
  · intro y hy
    obtain ⟨d, _, rfl⟩ := List.mem_map.1 hy
    exact rdeclSx_width d
  · intro y hy
    obtain ⟨d, _, rfl⟩ := List.mem_map.1 hy
    exact holeOf_width d
  · intro y hy
    obtain ⟨d, _, rfl⟩ := List.mem_map.1 hy
    exact gramSx_width d
  · intro y hy
    obtain ⟨_, _, h⟩ := mapM_forms hlx y hy
    exact fnForm_width h
  · intro y hy
    simp only [headerForms, List.mem_cons, List.not_mem_nil, or_false] at hy
    rcases hy with rfl | rfl | rfl | rfl | rfl <;> rfl

attribute [local irreducible] bitwidth

/-- The forms of the verification file are those of the program and a query. -/
theorem program_runsWith (B : Procs) {lx cx : List SExpr} {ds : List RDecl} {u : Bool} {v : SExpr} (σ : String → Val) (M : Module) :
    ProgramRunsWith B (headerForms ++ (lx ++ (cx ++ (ds.map rdeclSx ++ endForms u v)))) σ M ↔ ProgramRunsWith B (progForms lx cx ds u v) σ M := by
  have e : headerForms ++ (lx ++ (cx ++ (ds.map rdeclSx ++ endForms u v))) =
      progForms lx cx ds u v ++ [.list [.atom "verify", .list [.atom "assertions"]]] := by
    simp [progForms, endForms, lastForms]
  unfold ProgramRunsWith runProgramWith
  rw [e]
  simp only [List.filterMap_append, runForms_append]
  have e1 : [SExpr.list [.atom "verify", .list [.atom "assertions"]]].filterMap defined = [] := rfl
  have e2 : [SExpr.list [.atom "verify", .list [.atom "assertions"]]].filterMap readDef = [] := rfl
  have e3 : ∀ M n σ env, runForms M n σ env [SExpr.list [.atom "verify", .list [.atom "assertions"]]] = some env := by
    intro M n σ env
    simp [runForms]
  simp only [e1, e2, e3, List.append_nil, Option.bind_fun_some]

/-! ### Values that do not matter -/

/-- Forms that declare no symbolic constants run alike for all values of them. -/
theorem runForms_const {M : Module} {n : Nat} {σ σ' : String → Val} : ∀ {fs : List SExpr} {env : REnv},
    (∀ f ∈ fs, ∀ x t, f ≠ .list [.atom "define-symbolic", .atom x, t]) → runForms M n σ env fs = runForms M n σ' env fs
  | [], _, _ => rfl
  | f :: fs, env, h => by
    have ih := fun env => runForms_const (M := M) (n := n) (σ := σ) (σ' := σ') (env := env) fun g hg => h g (List.mem_cons_of_mem _ hg)
    unfold runForms
    split
    · exact absurd rfl (h _ List.mem_cons_self _ _)
    · exact absurd rfl (h _ List.mem_cons_self _ _)
    · congr 1
      funext v
      exact ih _
    · exact ih _

theorem runForms_decls {M : Module} {n : Nat} {σ σ' : String → Val} : ∀ {ds : List RDecl} {env : REnv}, (∀ x ∈ symNames ds, σ x = σ' x) →
    runForms M n σ env (ds.map rdeclSx) = runForms M n σ' env (ds.map rdeclSx)
  | [], _, _ => rfl
  | .symInt x :: ds, env, h => by
    have ih := fun env => runForms_decls (M := M) (n := n) (σ := σ) (σ' := σ') (ds := ds) (env := env) fun g hg => h g (List.mem_cons_of_mem _ hg)
    simp only [List.map_cons, rdeclSx, runForms, h x (by simp [symNames])]
    split
    · exact ih _
    · rfl
  | .symBool x :: ds, env, h => by
    have ih := fun env => runForms_decls (M := M) (n := n) (σ := σ) (σ' := σ') (ds := ds) (env := env) fun g hg => h g (List.mem_cons_of_mem _ hg)
    simp only [List.map_cons, rdeclSx, runForms, h x (by simp [symNames])]
    split
    · exact ih _
    · rfl
  | .define x e :: ds, env, h => by
    have ih := fun env => runForms_decls (M := M) (n := n) (σ := σ) (σ' := σ') (ds := ds) (env := env) h
    simp only [List.map_cons, rdeclSx, runForms]
    congr 1
    funext v
    exact ih _

theorem fnForm_const {d : FnDecl} {x : SExpr} (h : fnForm d = some x) (y : String) (t : SExpr) : x ≠ .list [.atom "define-symbolic", .atom y, t] := by
  simp only [fnForm, Option.bind_eq_bind, Option.bind_eq_some_iff, Option.some.injEq] at h
  obtain ⟨_, _, _, _, rfl⟩ := h
  cases d.recursive <;> simp

/-- A program runs alike for all values of names that are no symbolic constants. -/
theorem program_const (B : Procs) {L C : List FnDecl} {lx cx : List SExpr} {ds : List RDecl} {u : Bool} {v : SExpr} (hl : L.mapM fnForm = some lx)
    (hc : C.mapM fnForm = some cx) {σ σ' : String → Val} (h : ∀ x ∈ symNames ds, σ x = σ' x) (M : Module) :
    ProgramRunsWith B (progForms lx cx ds u v) σ M ↔ ProgramRunsWith B (progForms lx cx ds u v) σ' M := by
  unfold ProgramRunsWith runProgramWith
  have e : ∀ N n env, runForms N n σ env (progForms lx cx ds u v) = runForms N n σ' env (progForms lx cx ds u v) := by
    intro N n env
    simp only [progForms, runForms_append]
    have h1 : ∀ env, runForms N n σ env headerForms = runForms N n σ' env headerForms := fun env => runForms_const (by
      intro y hy
      simp only [headerForms, List.mem_cons, List.not_mem_nil, or_false] at hy
      rcases hy with rfl | rfl | rfl | rfl | rfl <;> simp)
    have h2 : ∀ env, runForms N n σ env lx = runForms N n σ' env lx := fun env => runForms_const (by
      intro y hy
      obtain ⟨_, _, h⟩ := mapM_forms hl y hy
      exact fnForm_const h)
    have h3 : ∀ env, runForms N n σ env cx = runForms N n σ' env cx := fun env => runForms_const (by
      intro y hy
      obtain ⟨_, _, h⟩ := mapM_forms hc y hy
      exact fnForm_const h)
    have h4 : ∀ env, runForms N n σ env (lastForms u v) = runForms N n σ' env (lastForms u v) := fun env => runForms_const (by
      intro y hy
      cases u <;> simp [lastForms] at hy <;> rcases hy with rfl | rfl <;> simp)
    simp only [h1, h2, h3, h4, runForms_decls h]
  simp only [e]

/-- The program with resolutions of the sketches can be verified, with six bits, exactly if the verification file says so. -/
theorem program_verified_bits {lang : List FnDecl} {ss : List SynthFn} {vars : List (String × VTy)} {b : Nat} {vc : Expr} (hok : SketchOk lang ss vars b vc)
    {rs : List Expr} (hr : All2 (fun s r => Resolves s.body r) ss rs) {ds : List RDecl} {cs : List String} (hgen : generateVars vars b = some (ds, cs))
    {lx cx : List SExpr} {v : SExpr} (hlx : (withBody lang).mapM fnForm = some lx) (hcx : (chosen ss rs).mapM fnForm = some cx) (hv : rktSx vc = some v)
    (hl : ∃ l, langTexts lang = some l) {u : Bool} :
    ∃ text, verifyFile (withBody lang) (chosen ss rs) vars b u vc = some text ∧
      (∀ B σ M, RunsWith B text σ M ↔ ProgramRunsWith B (progForms lx cx ds u v) σ M) ∧
      (∀ k, ∀ τ : String → Val, (∀ x, fits k (τ x) = true) →
        (((∃ σ M, (∀ x, fits k (σ x) = true) ∧ (∀ x, x ∉ cs → σ x = τ x) ∧ ProgramRunsWith (builtinBits k) (progForms lx cx ds u v) σ M) ∧
        ∀ σ M, (∀ x, fits k (σ x) = true) → (∀ x, x ∉ cs → σ x = τ x) → ProgramRunsWith (builtinBits k) (progForms lx cx ds u v) σ M → Passes M) ↔
          VerifiedBits k text)) := by
  have hp := sketch_problem hok hr
  obtain ⟨text, htext, _, _⟩ := program_verified hok hr hgen hlx hcx hv hl (u := u)
  have hruns : ∀ B σ M, RunsWith B text σ M ↔ ProgramRunsWith B (progForms lx cx ds u v) σ M := by
    intro B σ M
    obtain ⟨ds', cs', lx', cx', v', h0, h1, h2, h3, hread⟩ := file_forms hp htext
    rw [hgen] at h0
    rw [hlx] at h1
    rw [hcx] at h2
    rw [hv] at h3
    cases h0
    cases h1
    cases h2
    cases h3
    rw [runs_programWith B hread, program_runsWith]
  refine ⟨text, htext, hruns, fun k τ hτ => ?_⟩
  obtain ⟨ds', cs', e, hcs, _⟩ := C24_bounded_inputs_partial b vars (fun v hv => ⟨(hok.hvars v hv).1, (hok.hvars v hv).2.2.1⟩) hok.hnodup
  rw [hgen] at e
  cases e
  have hmix : ∀ σ M, ProgramRunsWith (builtinBits k) (progForms lx cx ds u v) σ M ↔
      ProgramRunsWith (builtinBits k) (progForms lx cx ds u v) (fun x => if x ∈ cs then σ x else τ x) M := by
    intro σ M
    exact program_const _ hlx hcx (fun x hx => by rw [← hcs] at hx; simp [hx]) M
  have hfit : ∀ σ : String → Val, (∀ x, fits k (σ x) = true) → ∀ x, fits k (if x ∈ cs then σ x else τ x) = true := by
    intro σ hσ x
    split
    · exact hσ x
    · exact hτ x
  constructor
  · rintro ⟨⟨σ, M, hσ, _, h⟩, hall⟩
    refine ⟨⟨σ, M, hσ, (hruns _ σ M).2 h⟩, fun σ M hσ h => ?_⟩
    exact hall _ M (hfit σ hσ) (fun x hx => by simp [hx]) ((hmix σ M).1 ((hruns _ _ M).1 h))
  · rintro ⟨⟨σ, M, hσ, h⟩, hall⟩
    exact ⟨⟨_, M, hfit σ hσ, fun x hx => by simp [hx], (hmix σ M).1 ((hruns _ σ M).1 h)⟩, fun σ M hσ _ h => hall σ M hσ ((hruns _ σ M).2 h)⟩

/-! ### C61 -/

/-- **C61** for the default of six bits (partial: for problems that satisfy `SketchOk`).  If Rosette is right that a program is a solution of the
synthesis query in the file, with integers as the file demands, then the program defines the functions to be synthesized by resolutions of their
sketches, in which at most ten chooses are nested, and with these definitions the verification condition holds for all values of the variables within the
bound for which it can be computed without a number of more than six bits. -/
theorem C61_six_bits_partial {basename : String} {rounds : Nat} {guesses : List SynthFn} {lang : List FnDecl} {synths helpers : List SynthFn} {vars : List (String × VTy)} {b : Nat} {vc : Expr}
    {text : List Char} (hok : SketchOk lang (synths ++ helpers) vars b vc) (hg : Guessed lang helpers) (hb : fileName basename = true) (hgu : ∀ g ∈ guesses, g ∈ synths ++ helpers)
    (hfile : synthFile basename rounds guesses lang synths helpers vars b false vc = some text) {prog : List SExpr} (h : AnswersAs text prog) :
    ∃ rs, All2 (fun s r => ResolvesIn 10 s.body r) (synths ++ helpers) rs ∧ (∀ d ∈ chosen (synths ++ helpers) rs, Defines prog d) ∧
      ∀ I, LibMeaning I → (∀ d ∈ lang, d.body.isSome = true → FnHolds I d) → (∀ d ∈ chosen (synths ++ helpers) rs, FnHolds I d) →
        ∀ ρ : Env, (∀ v ∈ vars, Shaped b v.2 (ρ v.1)) → FitsProgram 6 prog (vars.map Prod.fst) ρ → holds I ρ vc := by
  have h : AnswersBits 6 text prog := by
    have := C61_width hok hg hb hgu hfile
    simpa only [AnswersAs, this, Bool.false_eq_true, if_false] using h
  obtain ⟨ds, cs, lx, gs, v, hgen, hnames, hlx, hv, hlt, _, hgs, forms, pre, post, hread, hq, hpre, hpost, hcomp⟩ := synth_parts hok hg hb hgu hfile
  obtain ⟨forms', pre', xs, post', hread', hq', hc, hnd, _, τ, hτ⟩ := h
  rw [hread] at hread'
  cases hread'
  rw [hq] at hq'
  cases hq'
  rw [hpre] at hnd
  have hgn : (gs.map RGrammar.name).Nodup := ((List.nodup_append.1 (List.nodup_append.1 hnd).2.1)).1
  obtain ⟨rs, cx, hr, hcx, rfl⟩ := (hcomp prog hgn).1 hc
  have hres : All2 (fun s r => Resolves s.body r) (synths ++ helpers) rs := hr.imp fun _ _ h => h.resolves
  obtain ⟨vt, hvt, hruns, hver⟩ := program_verified_bits hok hres hgen hlx hcx hv hlt (u := false)
  -- the values outside the query can be taken from a run
  have hver : VerifiedBits 6 vt := by
    obtain ⟨⟨σ0, M0, hσ0, hag, hrun⟩, hall⟩ := hτ
    refine (hver 6 σ0 hσ0).1 ⟨⟨σ0, M0, hσ0, fun _ _ => rfl, hrun⟩, fun σ M hσ hx => hall σ M hσ fun x hn => ?_⟩
    rw [hx x hn, hag x hn]
  have hwidth : VerifiedAs vt := by
    have hw := C54_width (sketch_problem hok hres) hvt
    simpa only [VerifiedAs, hw, Bool.false_eq_true, if_false] using hver
  refine ⟨rs, hr, fun d hd => ?_, ?_⟩
  · refine defines_forms hcx (fun d hd => ?_) d hd ?_
    · obtain ⟨s, _, r, _, rfl⟩ := mem_chosen hr hd
      rfl
    · intro x hx
      simp only [progForms, List.mem_append]
      exact .inr (.inr (.inl hx))
  · intro I hI hl hc ρ hρ hfit
    have hp := sketch_problem hok hres
    have key := C54_six_bits_partial hp hvt hwidth hI
    refine key (fun d hd => ?_) ρ hρ ?_
    · rcases List.mem_append.1 hd with hd | hd
      · exact hc d hd
      · have := List.mem_filter.1 hd
        exact hl d this.1 this.2
    · obtain ⟨σ, M, h1, h2, h3⟩ := hfit
      exact ⟨σ, M, h1, (hruns _ _ _).2 h2, h3⟩

/-- The converse: resolutions with which the verification file has no counterexample, with six bits, are a solution of the query. -/
theorem found_bits {basename : String} {rounds : Nat} {guesses : List SynthFn} {lang : List FnDecl} {synths helpers : List SynthFn} {vars : List (String × VTy)} {b : Nat} {vc : Expr}
    {text vt : List Char} (hok : SketchOk lang (synths ++ helpers) vars b vc) (hg : Guessed lang helpers) (hb : fileName basename = true) (hgu : ∀ g ∈ guesses, g ∈ synths ++ helpers)
    (hn : SketchNames rounds lang (synths ++ helpers) vars) (hfile : synthFile basename rounds guesses lang synths helpers vars b false vc = some text) {rs : List Expr}
    (hr : All2 (fun s r => ResolvesIn 10 s.body r) (synths ++ helpers) rs)
    (hvt : verifyFile (withBody lang) (chosen (synths ++ helpers) rs) vars b false vc = some vt) (hver : VerifiedAs vt) :
    ∃ prog, AnswersAs text prog ∧ (∀ d ∈ chosen (synths ++ helpers) rs, Defines prog d) ∧
      ∀ ρ vs, FitsProgram 6 prog vs ρ ↔ Fits 6 vt vs ρ := by
  have hwid := C61_width hok hg hb hgu hfile
  obtain ⟨ds, cs, lx, gs, v, hgen, hnames, hlx, hv, hlt, _, hgs, forms, pre, post, hread, hq, hpre, hpost, hcomp⟩ := synth_parts hok hg hb hgu hfile
  have hres : All2 (fun s r => Resolves s.body r) (synths ++ helpers) rs := hr.imp fun _ _ h => h.resolves
  obtain ⟨cx, hcx⟩ := resolutions_print hok (fun s h => h) hgs hres
  have hp := sketch_problem hok hres
  obtain ⟨hown, hdn, _⟩ := vars_block (fun v hv => ⟨(hok.hvars v hv).1, (hok.hvars v hv).2.2.1⟩) hok.hnodup hgen
  obtain ⟨n1, n2⟩ := synth_names hn hres hown hdn hgs
  obtain ⟨vt', hvt', hruns, hverb⟩ := program_verified_bits hok hres hgen hlx hcx hv hlt (u := false)
  rw [hvt] at hvt'
  cases hvt'
  have hver6 : VerifiedBits 6 vt := by
    have hw := C54_width hp hvt
    simpa only [VerifiedAs, hw, Bool.false_eq_true, if_false] using hver
  have hgn : (gs.map RGrammar.name).Nodup := (List.nodup_append.1 (List.nodup_append.1 n1).2.1).1
  have hdefd : (progForms lx cx ds false v).filterMap defined =
      (withBody lang).map FnDecl.name ++ ((chosen (synths ++ helpers) rs).map FnDecl.name ++ (defNames ds ++ ["assertions"])) := by
    obtain ⟨_, _, _, l3, _⟩ := readDefs_fns (fun d hd => (hp.hfns d (by simp [hd])).1) hlx
    obtain ⟨_, _, _, c3, _⟩ := readDefs_fns (fun d hd => (hp.hfns d (by simp [hd])).1) hcx
    simp only [progForms, List.filterMap_append, header_forms.2.1, l3, c3, (decls_forms ds).2, last_forms, List.nil_append]
  refine ⟨progForms lx cx ds false v, ?_, ?_, ?_⟩
  · simp only [AnswersAs, hwid, Bool.false_eq_true, if_false]
    refine ⟨forms, pre, cs, post, hread, hq, (hcomp _ hgn).2 ⟨rs, cx, hr, hcx, rfl⟩, ?_, ?_, fun _ => .int 0, ?_⟩
    · rw [hpre, hpost, hdefd]
      exact n1
    · rw [hpre, hpost]
      exact n2
    · exact (hverb 6 (fun _ => .int 0) fun _ => rfl).2 hver6
  · intro d hd
    refine defines_forms hcx (fun d hd => ?_) d hd ?_
    · obtain ⟨s, _, r, _, rfl⟩ := mem_chosen hr hd
      rfl
    · intro x hx
      simp only [progForms, List.mem_append]
      exact .inr (.inr (.inl hx))
  · intro ρ vs
    constructor
    · rintro ⟨σ, M, h1, h2, h3⟩
      exact ⟨σ, M, h1, (hruns _ _ _).2 h2, h3⟩
    · rintro ⟨σ, M, h1, h2, h3⟩
      exact ⟨σ, M, h1, (hruns _ _ _).1 h2, h3⟩

/-! ### Examples -/

/-- `p(x)` is `x <= 10` or `x <= 31`. -/
def capFn : SynthFn where
  name := "p"
  params := [("x", .int)]
  body := .node .choose .bool [.node .le .bool [.var "x" .int, .lit (.int 10)], .node .le .bool [.var "x" .int, .lit (.int 31)]]

/-- `p(x)`. -/
def capVc : Expr := .node (.call "p") .bool [.var "x" .int]

theorem capOk : SketchOk [] ([capFn] ++ []) xVars 2 capVc where
  hvars := leProblem.hvars
  hnodup := by decide +kernel
  hlang := by intro d hd; cases hd
  hsketch := by
    intro s hs
    have : s = capFn := by simpa using hs
    subst this
    exact ⟨sketchFn_of (by decide +kernel), by decide +kernel, by decide +kernel, by decide +kernel, by decide +kernel⟩
  hvc := by decide +kernel

theorem capNames : SketchNames 0 [] ([capFn] ++ []) xVars where
  hnames := ⟨by decide +kernel, by decide +kernel, by decide +kernel, by decide +kernel, by decide +kernel⟩
  hgram := by decide +kernel

/-- `x <= 31`, as chosen. -/
def capChosen : Expr := .node .le .bool [.var "x" .int, .lit (.int 31)]

theorem capResolves : All2 (fun s r => ResolvesIn 10 (SynthFn.body s) r) ([capFn] ++ []) [capChosen] :=
  .cons (.choose (List.mem_cons_of_mem _ (List.mem_singleton.2 rfl)) (.node (by simp) (.cons .var (.cons .lit .nil)))) .nil

/-- The module of the program. -/
def capModule (B : Procs) (i : Int) : Module :=
  ⟨[⟨"p", ["x"], none, .list [.atom "<=", .atom "x", .atom "31"], false⟩, assertDef (.list [.atom "p", .atom "x"])],
    extend (fun _ => none) "x" (.int i), (libWith B).exportsWith B⟩

theorem cap_runs {text : List Char} (hfile : verifyFile [] (chosen ([capFn] ++ []) [capChosen]) xVars 2 false capVc = some text) (B : Procs) :
    ∀ σ M, RunsWith B text σ M ↔ ∃ i, σ "x" = .int i ∧ M = capModule B i := by
  have hp := sketch_problem capOk (capResolves.imp fun _ _ h => h.resolves)
  obtain ⟨ds, cs, lx, cx, x, hgen, hlx, hcx, hx, hread⟩ := file_forms hp hfile
  have hds : ds = [.symInt "x"] := by
    simp [generateVars, xVars, genVars, genVar] at hgen
    exact hgen.1.symm
  have hx' : rktSx capVc = some (.list [.atom "p", .atom "x"]) := by rfl
  rw [hx'] at hx
  cases hx
  have hcx' : (chosen ([capFn] ++ []) [capChosen]).mapM fnForm =
      some [.list [.atom "define", .list [.atom "p", .atom "x"], .list [.atom "<=", .atom "x", .atom "31"]]] := by rfl
  rw [hcx'] at hcx
  cases hcx
  have hlx' : (withBody ([] : List FnDecl)).mapM fnForm = some [] := by rfl
  cases hlx
  subst hds
  intro σ M
  have hrun : ∀ n, runFileWith B text n σ = match σ "x" with | .int i => some (capModule B i) | _ => none := by
    intro n
    rw [runFileWith, hread, Option.bind_some]
    generalize hfs : headerForms ++ _ = fs
    have h1 : fs.filterMap defined = ["p", "x", "assertions"] := by subst hfs; rfl
    have h2 : fs.filterMap readDef = [⟨"p", ["x"], none, .list [.atom "<=", .atom "x", .atom "31"], false⟩,
        assertDef (.list [.atom "p", .atom "x"])] := by subst hfs; rfl
    have h3 : ∀ M env, runForms M n σ env fs = match σ "x" with | .int i => some (extend env "x" (.int i)) | _ => none := by
      intro M env
      subst hfs
      simp [headerForms, runForms, rdeclSx, endForms]
      cases σ "x" <;> rfl
    simp only [h1, h2, h3]
    rw [if_pos (by decide +kernel)]
    cases σ "x" <;> rfl
  constructor
  · rintro ⟨n, h⟩
    rw [hrun] at h
    split at h
    · next i hi => exact ⟨i, hi, (Option.some.inj h).symm⟩
    · cases h
  · rintro ⟨i, hi, rfl⟩
    exact ⟨0, by rw [hrun, hi]⟩

/-- What the condition of the program is. -/
theorem cap_value (B : Procs) (i : Int) : rkEval (capModule B i) 2 64 (fun _ => none) (.list [.atom "p", .atom "x"]) =
    (B "<=").bind fun p => p [.int i, .int 31] := by
  rw [rk_call rfl rfl]
  have hx : ∀ (n fu : Nat) (σ : REnv), σ "x" = none → rkEval (capModule B i) n fu σ (.atom "x") = some (.int i) := by
    intro n fu σ h
    rw [rk_atom, evalAtom_name (by decide +kernel), evalName, h]
    rfl
  simp only [List.mapM_cons, List.mapM_nil, Option.pure_def, Option.bind_eq_bind, hx _ _ (fun _ => none) rfl, Option.bind_some, applyDef]
  have hb : bindArgs ["x"] none [.int i] = some [("x", .int i)] := rfl
  simp only [hb, Option.bind_some, Bool.false_eq_true, if_false]
  rw [rk_app (by simp [bindAll]) (by simp [capModule, Module.find, assertDef]) (by simp [capModule, extend]) (by decide)]
  have hlib : lib.find "<=" = none := by decide +kernel
  have hle : (libWith B).find "<=" = none := hlib
  have himp : ∀ n fu, (capModule B i).imports n fu "<=" = B "<=" := by
    intro n fu
    simp only [capModule, Module.exportsWith, hle]
  have hx2 : ∀ n fu, rkEval (capModule B i) n fu (bindAll (fun _ => none) [("x", .int i)]) (.atom "x") = some (.int i) := by
    intro n fu
    rw [rk_atom, evalAtom_name (by decide +kernel), evalName]
    rfl
  have h31 : ∀ n fu σ, rkEval (capModule B i) n fu σ (.atom "31") = some (.int 31) := by
    intro n fu σ
    rw [rk_atom, evalAtom, if_pos (by decide)]
    rfl
  simp only [List.mapM_cons, List.mapM_nil, Option.pure_def, Option.bind_eq_bind, hx2, h31, Option.bind_some, himp]

/-- The file for the chosen definition has no counterexample among the integers of six bits. -/
theorem cap_verified {text : List Char} (hfile : verifyFile [] (chosen ([capFn] ++ []) [capChosen]) xVars 2 false capVc = some text) : VerifiedAs text := by
  have hw := C54_width (sketch_problem capOk (capResolves.imp fun _ _ h => h.resolves)) hfile
  simp only [VerifiedAs, hw, Bool.false_eq_true, if_false]
  have hruns := cap_runs hfile (builtinBits 6)
  refine ⟨⟨fun _ => .int 0, _, fun _ => rfl, (hruns _ _).2 ⟨0, rfl, rfl⟩⟩, ?_⟩
  intro σ M hσ hr
  obtain ⟨i, hi, rfl⟩ := (hruns _ _).1 hr
  have hf := hσ "x"
  rw [hi, fits6] at hf
  refine ⟨4, .bool true, ?_⟩
  have hval : rkEval (capModule (builtinBits 6) i) 2 64 (fun _ => none) (.list [.atom "p", .atom "x"]) = some (.bool true) := by
    rw [cap_value]
    simp only [builtinBits, builtin, Option.map_some, Option.bind_some, wrapVals, wrapVal, compare, wrap6, Option.some.injEq, Val.bool.injEq,
      decide_eq_true_eq]
    omega
  rw [rk_call (d := assertDef (.list [.atom "p", .atom "x"])) rfl rfl]
  simp only [List.mapM_nil, Option.pure_def, Option.bind_some, applyDef, assertDef, bindArgs, Bool.false_eq_true, if_false, bindAll]
  rw [rk_app rfl (by simp [capModule, Module.find, assertDef]) (by simp [capModule, extend]) (by decide)]
  have himp : (capModule (builtinBits 6) i).imports 2 64 "assert" = builtinBits 6 "assert" := by
    have hlib : (libWith (builtinBits 6)).find "assert" = none := assertions_free.2.2.2
    simp only [capModule, Module.exportsWith, hlib]
  simp only [List.mapM_cons, List.mapM_nil, Option.bind_eq_bind, Option.pure_def, Option.bind_some, hval, himp]
  obtain ⟨p, hp, h⟩ := (bits_assert 6).2
  rw [hp, Option.bind_some, h]

/-- The verification file for the chosen definition. -/
theorem cap_file : ∃ vt, verifyFile [] (chosen ([capFn] ++ []) [capChosen]) xVars 2 false capVc = some vt :=
  file_exists false (sketch_problem capOk (capResolves.imp fun _ _ h => h.resolves)) (by decide +kernel)

/-- **C61** for six bits, non-vacuity, and **C61** is false for the default of six bits.  For the sketch `choose(x <= 10, x <= 31)` of `p(x)` and the
condition `p(x)`, `x <= 31` is a solution of the query.  The condition can be computed for all numbers of six bits; with the solution it does not hold for
`x = 32`. -/
theorem C61_six_bits_refuted : ∃ text prog, SketchOk [] ([capFn] ++ []) xVars 2 capVc ∧ synthFile "test" 0 [] [] [capFn] [] xVars 2 false capVc = some text ∧
    AnswersAs text prog ∧ Defines prog (SynthFn.decl capFn (some capChosen)) ∧
    (∀ i : Int, -32 ≤ i → i < 32 → FitsProgram 6 prog (xVars.map Prod.fst) (fun _ => .int i)) ∧
    ∃ ρ : Env, (∀ v ∈ xVars, Shaped 2 v.2 (ρ v.1)) ∧
      ∀ I : Interp, FnHolds I (SynthFn.decl capFn (some capChosen)) → ¬ holds I ρ capVc := by
  obtain ⟨text, h⟩ := synth_exists "test" 0 [] false capOk (by decide +kernel)
  obtain ⟨vt, hvt⟩ := cap_file
  have hg : Guessed [] [] := rfl
  have hver := cap_verified hvt
  have hw : ([] : List FnDecl) = withBody [] := rfl
  rw [hw] at hvt
  obtain ⟨prog, h1, h2, h3⟩ := found_bits capOk hg (by decide +kernel) (by simp) capNames h capResolves hvt hver
  rw [← hw] at hvt
  refine ⟨text, prog, capOk, h, h1, h2 _ (List.mem_singleton.2 rfl), ?_, fun _ => .int 32, ?_, ?_⟩
  · intro i hi hj
    rw [h3]
    refine ⟨fun _ => .int i, _, fun _ => (fits6 i).2 ⟨hi, hj⟩, (cap_runs hvt (builtinFits 6) _ _).2 ⟨i, rfl, rfl⟩, ?_, assertDef (.list [.atom "p", .atom "x"]),
      .list [.atom "p", .atom "x"], 2, .bool true, rfl, rfl, ?_⟩
    · intro v hv
      simp only [xVars, List.map_cons, List.map_nil, List.mem_cons, List.not_mem_nil, or_false] at hv
      subst hv
      rfl
    · rw [cap_value]
      have hf : fitsAll 6 [.int i, .int 31] = true := by
        simp only [fitsAll, Bool.and_eq_true, and_true]
        exact ⟨(fits6 i).2 ⟨hi, hj⟩, (fits6 31).2 (by omega)⟩
      simp only [builtinFits, builtin, Option.map_some, Option.bind_some, hf, if_true, compare]
      rw [decide_eq_true (by omega)]
      rfl
  · intro v hv
    simp only [xVars, List.mem_cons, List.not_mem_nil, or_false] at hv
    subst hv
    exact ⟨32, rfl⟩
  · intro I hI hh
    have := (hI [.int 32] ⟨⟨32, rfl⟩, trivial⟩).2 capChosen rfl
    simp [capChosen, eval, evals, evalOp, Lit.val, Val.asInt, paramEnv, SynthFn.decl, capFn] at this
    simp [holds, capVc, eval, evals, ← this, evalOp] at hh

end Rkt
end Metalift
