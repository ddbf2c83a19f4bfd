import Verif.RktRounds
import Verif.PSynthFileEx
/-
C67: what the answers to the queries of further rounds in the synthesis file are.
-/
namespace Metalift
namespace Rkt
open Smt (OfTy OfTys FnHolds paramEnv)

/-! ### The queries in the file -/

/-- The query of a round. -/
def roundQuery (cs : List String) (guesses : List SynthFn) (i : Nat) : RQuery := ⟨solName i, cs, (List.range i).map (orForm guesses)⟩

theorem readBegin_assumes (es : List SExpr) :
    readBegin (es.map (fun e => .list [.atom "assume", e]) ++ [.list [.atom "assertions"]]) = some es := by
  induction es with
  | nil => rfl
  | cons e es ih =>
    rw [List.map_cons, List.cons_append, readBegin, ih]
    rfl

theorem read_nextForm (cs : List String) (guesses : List SynthFn) (i : Nat) : readNext (nextForm cs guesses i) = some (roundQuery cs guesses i) := by
  have := readBegin_assumes ((List.range i).map (orForm guesses))
  rw [List.map_map] at this
  simp only [nextForm, readNext, atomNames_map, Option.bind_some, readGuarantee, roundQuery]
  rw [show readBegin ((List.range i).map (fun j => SExpr.list [.atom "assume", orForm guesses j]) ++ [.list [.atom "assertions"]]) = _ from this]
  rfl

theorem queries_read (basename : String) (rounds : Nat) (guesses : List SynthFn) (cs : List String) :
    (queriesForms basename rounds guesses cs).filterMap readNext = (List.range (rounds + 1)).map (roundQuery cs guesses) := by
  have h : ∀ l : List Nat, (l.flatMap fun i => nextForms basename cs guesses (i + 1)).filterMap readNext = l.map fun i => roundQuery cs guesses (i + 1) := by
    intro l
    induction l with
    | nil => rfl
    | cons i l ih =>
      rw [List.flatMap_cons, List.filterMap_append, ih, nextForms, List.filterMap_cons, read_nextForm]
      rfl
  have h0 : (queryForms basename cs).filterMap readNext = [roundQuery cs guesses 0] := by
    simp [queryForms, readNext, atomNames_map, readGuarantee, roundQuery, solName]
    rfl
  rw [queriesForms, List.filterMap_append, h, h0, List.range_succ_eq_map, List.map_cons, List.map_map]
  rfl

theorem query_at {cs : List String} {guesses : List SynthFn} {rounds i : Nat} {q : RQuery}
    (h : ((List.range (rounds + 1)).map (roundQuery cs guesses))[i]? = some q) : i ≤ rounds ∧ q = roundQuery cs guesses i := by
  rw [List.getElem?_map, Option.map_eq_some_iff] at h
  obtain ⟨j, hj, rfl⟩ := h
  obtain ⟨hlt, rfl⟩ := List.getElem?_eq_some_iff.1 hj
  rw [List.length_range] at hlt
  simp only [List.getElem_range]
  exact ⟨by omega, trivial⟩

/-- What a solution called `solName j` defines is what the program of round `j` defines. -/
theorem solution_iff {cs : List String} {guesses : List SynthFn} {rounds : Nat} {prev : List (List SExpr)} (hlen : prev.length ≤ rounds + 1) {σ : String → Val} {j : Nat}
    {N : Module} : SolutionRuns ((List.range (rounds + 1)).map (roundQuery cs guesses)) prev σ (solName j) N ↔ ∃ p, prev[j]? = some p ∧ ProgramRuns p σ N := by
  constructor
  · rintro ⟨k, q, p, hq, hn, hp, hr⟩
    obtain ⟨_, rfl⟩ := query_at hq
    rw [solName_inj hn] at hp
    exact ⟨p, hp, hr⟩
  · rintro ⟨p, hp, hr⟩
    have hj : j < prev.length := (List.getElem?_eq_some_iff.1 hp).1
    refine ⟨j, roundQuery cs guesses j, p, ?_, rfl, hp, hr⟩
    rw [List.getElem?_map, List.getElem?_range (by omega)]
    rfl

/-! ### Runs of a program -/

section Runs
variable {lang cands : List FnDecl} {vars : List (String × VTy)} {b : Nat} {vc : Expr} {text : List Char} {u : Bool}

theorem run_globals (hok : ProblemOk lang cands vars b vc) (hfile : verifyFile lang cands vars b u vc = some text) {ds : List RDecl} {cs : List String}
    (hgen : generateVars vars b = some (ds, cs)) {σ : String → Val} {M : Module} (h : Runs text σ M) :
    runDecls σ (fun _ => none) ds = some M.globals := by
  obtain ⟨ds', cs', x, defs, hgen', _, _, hruns, _⟩ := file_module hok hfile
  rw [hgen] at hgen'
  cases hgen'
  obtain ⟨_, env, henv, rfl⟩ := (hruns σ M).1 h
  exact henv

theorem run_unique (hok : ProblemOk lang cands vars b vc) (hfile : verifyFile lang cands vars b u vc = some text) {σ : String → Val} {M M' : Module}
    (h : Runs text σ M) (h' : Runs text σ M') : M = M' := by
  obtain ⟨ds', cs', x, defs, _, _, _, hruns, _⟩ := file_module hok hfile
  obtain ⟨_, env, henv, rfl⟩ := (hruns σ M).1 h
  obtain ⟨_, env', henv', rfl⟩ := (hruns σ M').1 h'
  rw [henv] at henv'
  cases henv'
  rfl

/-- If a program can be run with some values then it can be run with all values for which the declarations can be made. -/
theorem run_again (hok : ProblemOk lang cands vars b vc) (hfile : verifyFile lang cands vars b u vc = some text) {ds : List RDecl} {cs : List String}
    (hgen : generateVars vars b = some (ds, cs)) {σ₀ : String → Val} {M₀ : Module} (h : Runs text σ₀ M₀) {σ : String → Val} {env : REnv}
    (henv : runDecls σ (fun _ => none) ds = some env) : ∃ M, Runs text σ M ∧ M.globals = env := by
  obtain ⟨ds', cs', x, defs, hgen', _, _, hruns, _⟩ := file_module hok hfile
  rw [hgen] at hgen'
  cases hgen'
  exact ⟨_, (hruns σ _).2 ⟨((hruns σ₀ M₀).1 h).1, env, henv, rfl⟩, rfl⟩

theorem run_names (hok : ProblemOk lang cands vars b vc) (hfile : verifyFile lang cands vars b u vc = some text) {σ : String → Val} {M : Module}
    (h : Runs text σ M) : ((cands ++ lang).map FnDecl.name).Nodup := by
  obtain ⟨ds', cs', x, defs, _, _, _, hruns, _⟩ := file_module hok hfile
  have := ((hruns σ M).1 h).1.1
  rw [List.nodup_append, List.nodup_append] at this
  rw [List.map_append, List.nodup_append]
  refine ⟨this.2.1.1, this.1, ?_⟩
  rintro a ha c hc rfl
  exact this.2.2 a hc a (by simp only [List.mem_append]; exact .inl ha) rfl

/-- The variables have these values, within the bound. -/
def ValsOf (vars : List (String × VTy)) (b : Nat) (M : Module) (ρ : Env) : Prop := ∀ v ∈ vars, M.globals v.1 = some (ρ v.1) ∧ Shaped b v.2 (ρ v.1)

theorem run_vals (hok : ProblemOk lang cands vars b vc) (hfile : verifyFile lang cands vars b u vc = some text) {σ : String → Val} {M : Module}
    (h : Runs text σ M) : ∃ ρ : Env, ValsOf vars b M ρ := by
  obtain ⟨ds, cs, e, _, _, _, hsound, _⟩ := C24_bounded_inputs_partial b vars (fun v hv => ⟨(hok.hvars v hv).1, (hok.hvars v hv).2.2.1⟩) hok.hnodup
  have henv := run_globals hok hfile e h
  refine ⟨fun y => (M.globals y).getD (.int 0), fun v hv => ?_⟩
  obtain ⟨w, h1, h2⟩ := hsound σ _ henv v hv
  simp only [h1, Option.getD_some]
  exact ⟨trivial, h2⟩

theorem run_facts (hok : ProblemOk lang cands vars b vc) (hfile : verifyFile lang cands vars b u vc = some text) {σ : String → Val} {M : Module}
    (h : Runs text σ M) {x : SExpr} (hx : rktSx vc = some x) :
    HasFns M (cands ++ lang) ∧ (∀ y w, M.globals y = some w → rktName y = true ∧ ∃ v ∈ vars, Under v.1 y) ∧
      (Passes M ↔ ∃ n v, rkEval M n 64 (fun _ => none) x = some v ∧ v ≠ .bool false) := by
  obtain ⟨ds, cs, x', defs, hgen, hx', hnames, hruns, hmod⟩ := file_module hok hfile
  rw [hx] at hx'
  cases hx'
  obtain ⟨hcond, env, henv, rfl⟩ := (hruns σ M).1 h
  obtain ⟨hM, ha, hassert⟩ := hmod hcond env
  obtain ⟨hown, _, hother⟩ := vars_block (fun v hv => ⟨(hok.hvars v hv).1, (hok.hvars v hv).2.2.1⟩) hok.hnodup hgen
  have hassert' : env "assert" = none := hother σ env henv "assert" (fun h =>
    (hcond.2 "assert" (by simp only [List.mem_append]; exact .inr (.inr (.inl h)))).2 (by decide))
  refine ⟨hM, fun y w hy => ⟨globals_names hnames (by simp) henv y w hy, hown y ?_⟩, passes_iff rfl ha hassert hassert'⟩
  by_contra h
  have := hother σ env henv y h
  simp only [this] at hy
  cases hy

/-- Evaluation of an expression in a run of the program gives its value. -/
theorem run_sound (hok : ProblemOk lang cands vars b vc) (hfile : verifyFile lang cands vars b u vc = some text) {σ : String → Val} {M : Module}
    (h : Runs text σ M) {ρ : Env} (hρ : ValsOf vars b M ρ) {I : Interp} (hI : LibMeaning I) (hfns : ∀ d ∈ cands ++ lang, FnHolds I d) {e : Expr} {x : SExpr}
    (hx : rktSx e = some x) (hes : e.sorted (varTypes vars) (fileSig cands lang) = true) (hea : arithOk e = true)
    (hev : ∀ y ∈ e.vars, y ∈ vars.map Prod.fst) {n : Nat} {w : Val} (hw : rkEval M n 64 (fun _ => none) x = some w) : w = eval I ρ e := by
  obtain ⟨_, _, xv, _, _, hxv, _, _, _⟩ := file_module hok hfile
  obtain ⟨hM, hg, _⟩ := run_facts hok hfile h hxv
  obtain ⟨ρ', hag, hρ'⟩ := run_env (fun v hv => (hok.hvars v hv).1) hok.hnodup (fun v hv => (hρ v hv).2)
  have hsame : eval I ρ e = eval I ρ' e := eval_congr I e (fun y hy => (hag y (hev y hy)).symm)
  rw [hsame]
  exact rk_sound hI hM (fun y w hy => (hg y w hy).1) (fun d hd => ⟨(hok.hfns d hd).1, hfns d hd, (hok.hfns d hd).2.2⟩) n 64 (fun _ => none)
    (varTypes vars) ρ' e x w hx hes hea hρ' (by simp) (by
      intro y hy
      obtain ⟨q, hq, rfl⟩ := List.mem_map.1 (hev y hy)
      refine ⟨(hok.hvars q hq).2.1, fun w hw => ?_⟩
      simp only [evalName, (hρ q hq).1] at hw
      cases hw
      exact (hag _ (hev _ hy)).symm) hw

/-- If the assertions pass then the condition holds. -/
theorem run_holds (hok : ProblemOk lang cands vars b vc) (hfile : verifyFile lang cands vars b u vc = some text) {σ : String → Val} {M : Module}
    (h : Runs text σ M) {ρ : Env} (hρ : ValsOf vars b M ρ) {I : Interp} (hI : LibMeaning I) (hfns : ∀ d ∈ cands ++ lang, FnHolds I d) (hp : Passes M) :
    holds I ρ vc := by
  obtain ⟨_, _, x, _, _, hx, _, _, _⟩ := file_module hok hfile
  obtain ⟨hM, hg, hpass⟩ := run_facts hok hfile h hx
  obtain ⟨n, v, hv, hne⟩ := hpass.1 hp
  have := run_sound hok hfile h hρ hI hfns hx hok.hvc.1 hok.hvc.2.1 hok.hvc.2.2.2 hv
  obtain ⟨ρ', hag, hρ'⟩ := run_env (fun v hv => (hok.hvars v hv).1) hok.hnodup (fun v hv => (hρ v hv).2)
  have hsame : eval I ρ vc = eval I ρ' vc := eval_congr I vc (fun y hy => (hag y (hok.hvc.2.2.2 y hy)).symm)
  have ht := sorted_typed (fileSig_respected hI hfns) hρ' vc hok.hvc.1
  rw [hok.hvc.2.2.1, ← hsame, ← this] at ht
  obtain ⟨bb, rfl⟩ := ht
  cases bb with
  | false => exact absurd rfl hne
  | true =>
    unfold holds
    rw [← this]
    rfl

/-- Expressions that can be computed have a value in a run of the program. -/
theorem run_complete (hok : ProblemOk lang cands vars b vc) (hn : NamesOk lang cands vars) (hfile : verifyFile lang cands vars b u vc = some text)
    {σ : String → Val} {M : Module} (h : Runs text σ M) {ρ : Env} (hρ : ValsOf vars b M ρ) {I : Interp} (hI : LibMeaning I)
    (hfns : ∀ d ∈ cands ++ lang, FnHolds I d) {e : Expr} {x : SExpr}
    (hx : rktSx e = some x) (hes : e.sorted (varTypes vars) (fileSig cands lang) = true) (hea : arithOk e = true)
    (hev : ∀ y ∈ e.vars, y ∈ vars.map Prod.fst)
    (hsafe : ∀ ρ' : Env, (∀ y ∈ vars.map Prod.fst, ρ' y = ρ y) → Safe I (cands ++ lang) 64 ρ' e) :
    ∃ n, rkEval M n 64 (fun _ => none) x = some (eval I ρ e) := by
  obtain ⟨_, _, xv, _, _, hxv, _, _, _⟩ := file_module hok hfile
  obtain ⟨hM, hg, _⟩ := run_facts hok hfile h hxv
  obtain ⟨ρ', hag, hρ'⟩ := run_env (fun v hv => (hok.hvars v hv).1) hok.hnodup (fun v hv => (hρ v hv).2)
  have hsame : eval I ρ e = eval I ρ' e := eval_congr I e (fun y hy => (hag y (hev y hy)).symm)
  rw [hsame]
  obtain ⟨k, hk⟩ := rk_complete hI hM (run_names hok hfile h) (fun y w hy => (hg y w hy).1) (by
      intro y hh
      by_contra hne
      obtain ⟨w, hw⟩ := Option.ne_none_iff_exists'.1 hne
      obtain ⟨_, v, hv, hu⟩ := hg y w hw
      have hvm : v.1 ∈ vars.map Prod.fst := List.mem_map_of_mem hv
      have hnd := hn.hdiff
      rw [List.nodup_append, List.nodup_append] at hnd
      rcases under_new hu with rfl | ⟨h1, h2, _, _, h5⟩
      · rcases hh with hh | hh | hh
        · exact hn.hvis v hv hh
        · exact (hn.hfree v.1 (by simp only [List.mem_append]; exact .inr (.inr hvm))).1 hh
        · rw [List.map_append, List.mem_append] at hh
          rcases hh with hh | hh
          · exact hnd.2.1.2.2 v.1 hh v.1 hvm rfl
          · exact hnd.2.2 v.1 hh v.1 (by simp only [List.mem_append]; exact .inr hvm) rfl
      · rcases hh with hh | hh | hh
        · exact h1 hh
        · exact h2 hh
        · obtain ⟨d, hd, rfl⟩ := List.mem_map.1 hh
          exact hn.hfns d hd h5)
    (fun d hd => ⟨(hok.hfns d hd).1, hfns d hd, (hok.hfns d hd).2.2⟩) hn.hparams (hsafe ρ' hag) (fun _ => none) (varTypes vars) x hx hes hea hρ'
    ⟨by simp, by simp⟩ (by
      intro y hy
      obtain ⟨q, hq, rfl⟩ := List.mem_map.1 (hev y hy)
      refine ⟨(hok.hvars q hq).2.1, ?_⟩
      simp only [evalName, (hρ q hq).1, hag q.1 (hev _ hy)])
  exact ⟨k, hk k (Nat.le_refl _)⟩

end Runs

/-! ### The calls that are compared -/

/-- The call of a function with its own parameters. -/
def guessExpr (g : SynthFn) : Expr := .node (.call g.name) g.body.ty (g.params.map fun p => .var p.1 p.2)

theorem guess_eval (I : Interp) (ρ : Env) (g : SynthFn) : eval I ρ (guessExpr g) = I.fn g.name (g.params.map fun p => ρ p.1) := by
  simp only [guessExpr, eval, evals_eq_map, List.map_map, evalOp]
  congr 1

theorem guess_sx {g : SynthFn} (h : userName g.name = true) : rktSx (guessExpr g) = some (callForm g) := by
  have : rktSxs (g.params.map fun p => .var p.1 p.2) = some ((g.params.map Prod.fst).map .atom) := by
    induction g.params with
    | nil => rfl
    | cons p ps ih => simp [rktSxs, rktSx, ih]
  simp only [guessExpr, rktSx, user_head h, this, Option.bind_eq_bind, Option.bind_some, callForm]

theorem guess_vars (g : SynthFn) : ∀ y ∈ (guessExpr g).vars, ∃ p ∈ g.params, p.1 = y := by
  intro y hy
  rw [guessExpr, Expr.vars, Expr.mem_varss] at hy
  obtain ⟨e, he, hy⟩ := hy
  obtain ⟨p, hp, rfl⟩ := List.mem_map.1 he
  exact ⟨p, hp, (List.mem_singleton.1 hy).symm⟩

theorem guess_arith (g : SynthFn) : arithOk (guessExpr g) = true := by
  simp only [guessExpr, arithOk, Bool.and_true, arithOks_iff]
  intro e he
  obtain ⟨p, _, rfl⟩ := List.mem_map.1 he
  rfl

theorem find_nodup {fns : List FnDecl} (h : (fns.map FnDecl.name).Nodup) {d : FnDecl} (hd : d ∈ fns) : fns.find? (fun e => e.name == d.name) = some d := by
  induction fns with
  | nil => cases hd
  | cons e fns ih =>
    rw [List.map_cons, List.nodup_cons] at h
    rcases List.mem_cons.1 hd with rfl | hd
    · simp
    · have : (e.name == d.name) = false := beq_false_of_ne fun he => h.1 (by rw [he]; exact List.mem_map_of_mem hd)
      rw [List.find?_cons, this]
      exact ih h.2 hd

/-- The parameters of the functions are variables of the problem. -/
def GuessScope (guesses : List SynthFn) (vars : List (String × VTy)) : Prop := ∀ g ∈ guesses, ∀ p ∈ g.params, ∃ v ∈ vars, v.1 = p.1 ∧ v.2.ty = p.2

theorem guess_sorted {lang : List FnDecl} {ss : List SynthFn} {vars : List (String × VTy)} (hn : (vars.map Prod.fst).Nodup) {R : SynthFn → Expr → Prop} {rs : List Expr}
    (hr : All2 R ss rs) (hd : ((chosen ss rs ++ withBody lang).map FnDecl.name).Nodup) {g : SynthFn} (hg : g ∈ ss)
    (hs : ∀ p ∈ g.params, ∃ v ∈ vars, v.1 = p.1 ∧ v.2.ty = p.2) :
    (guessExpr g).sorted (varTypes vars) (fileSig (chosen ss rs) (withBody lang)) = true := by
  simp only [guessExpr, Expr.sorted, Bool.and_eq_true, sorteds_iff]
  constructor
  · intro e he
    obtain ⟨p, hp, rfl⟩ := List.mem_map.1 he
    obtain ⟨v, hv, e1, e2⟩ := hs p hp
    simp only [Expr.sorted, decide_eq_true_eq, varTypes, ← e1, lookup_nodup hn hv]
    exact e2.symm
  · obtain ⟨d, hdm, hd1, hd2, hd3⟩ : ∃ d ∈ chosen ss rs, d.name = g.name ∧ d.params = g.params ∧ d.ret = g.body.ty := by
      clear hd
      induction hr with
      | nil => cases hg
      | @cons s r ss rs _ _ ih =>
        rcases List.mem_cons.1 hg with rfl | hg
        · exact ⟨SynthFn.decl g (some r), List.mem_cons_self, rfl, rfl, rfl⟩
        · obtain ⟨d, h1, h2⟩ := ih hg
          exact ⟨d, List.mem_cons_of_mem _ h1, h2⟩
    have := find_nodup hd (d := d) (by simp only [List.mem_append]; exact .inl hdm)
    rw [hd1] at this
    simp only [opSorted, decide_eq_true_eq, fileSig, langSig, this, Option.map_some, hd2, hd3, List.map_map]
    rfl

/-! ### The programs of the rounds -/

/-- The functions have a meaning of this kind: that of the library, of the definitions of the target language, and of the bodies `rs` of the functions
to be synthesized. -/
structure MeansWith (lang : List FnDecl) (ss : List SynthFn) (rs : List Expr) (I : Interp) : Prop where
  hlib : LibMeaning I
  hlang : ∀ d ∈ lang, d.body.isSome = true → FnHolds I d
  hchosen : ∀ d ∈ chosen ss rs, FnHolds I d

/-- For these values of the variables, one of the functions has different values under the two meanings. -/
def DifferAt (guesses : List SynthFn) (I J : Interp) (ρ : Env) : Prop :=
  ∃ g ∈ guesses, I.fn g.name (g.params.map fun p => ρ p.1) ≠ J.fn g.name (g.params.map fun p => ρ p.1)

theorem MeansWith.fns {lang : List FnDecl} {ss : List SynthFn} {rs : List Expr} {I : Interp} (h : MeansWith lang ss rs I) :
    ∀ d ∈ chosen ss rs ++ withBody lang, FnHolds I d := by
  intro d hd
  rcases List.mem_append.1 hd with hd | hd
  · exact h.hchosen d hd
  · have := List.mem_filter.1 hd
    exact h.hlang d this.1 this.2

/-- A verification file for the program with these bodies. -/
structure ProgFile (lang : List FnDecl) (ss : List SynthFn) (vars : List (String × VTy)) (b : Nat) (u : Bool) (vc : Expr) (rs : List Expr) (prog : List SExpr)
    (vt : List Char) : Prop where
  hres : All2 (fun s r => ResolvesIn 10 s.body r) ss rs
  hdef : ∀ d ∈ chosen ss rs, Defines prog d
  hfile : verifyFile (withBody lang) (chosen ss rs) vars b u vc = some vt
  hruns : ∀ σ M, Runs vt σ M ↔ ProgramRuns prog σ M

theorem ProgFile.problem {lang : List FnDecl} {ss : List SynthFn} {vars : List (String × VTy)} {b : Nat} {u : Bool} {vc : Expr} {rs : List Expr}
    {prog : List SExpr} {vt : List Char} (hok : SketchOk lang ss vars b vc) (h : ProgFile lang ss vars b u vc rs prog vt) :
    ProblemOk (withBody lang) (chosen ss rs) vars b vc := sketch_problem hok (h.hres.imp fun _ _ h => h.resolves)

theorem prog_file {lang : List FnDecl} {ss : List SynthFn} {vars : List (String × VTy)} {b : Nat} {u : Bool} {vc : Expr} (hok : SketchOk lang ss vars b vc)
    {rs : List Expr} (hr : All2 (fun s r => ResolvesIn 10 s.body r) ss rs) {ds : List RDecl} {cs : List String} (hgen : generateVars vars b = some (ds, cs))
    {lx cx : List SExpr} {v : SExpr} (hlx : (withBody lang).mapM fnForm = some lx) (hcx : (chosen ss rs).mapM fnForm = some cx) (hv : rktSx vc = some v)
    (hl : ∃ l, langTexts lang = some l) : ∃ vt, ProgFile lang ss vars b u vc rs (progForms lx cx ds u v) vt := by
  obtain ⟨vt, hvt, hruns, _⟩ := program_verified hok (hr.imp fun _ _ h => h.resolves) hgen hlx hcx hv hl (u := u)
  refine ⟨vt, hr, fun d hd => defines_forms hcx (fun d hd => ?_) d hd ?_, hvt, hruns⟩
  · obtain ⟨s, _, r, _, rfl⟩ := mem_chosen hr hd
    rfl
  · intro x hx
    simp only [progForms, List.mem_append]
    exact .inr (.inr (.inl hx))

/-- What a query of a round demands of a program. -/
def RoundOk (cs : List String) (guesses : List SynthFn) (rounds i : Nat) (prev : List (List SExpr)) (prog : List SExpr) : Prop :=
  ∃ τ : String → Val, (∃ σ M, (∀ x, x ∉ cs → σ x = τ x) ∧ ProgramRuns prog σ M ∧
      Ends M (SolutionRuns ((List.range (rounds + 1)).map (roundQuery cs guesses)) prev σ) ((List.range i).map (orForm guesses)) true) ∧
    ∀ σ M, (∀ x, x ∉ cs → σ x = τ x) → ProgramRuns prog σ M →
      ∃ b, Ends M (SolutionRuns ((List.range (rounds + 1)).map (roundQuery cs guesses)) prev σ) ((List.range i).map (orForm guesses)) b

theorem round_parts {basename : String} {rounds : Nat} {guesses : List SynthFn} {lang : List FnDecl} {synths helpers : List SynthFn}
    {vars : List (String × VTy)} {b : Nat} {u : Bool} {vc : Expr} {text : List Char} (hok : SketchOk lang (synths ++ helpers) vars b vc)
    (hg : Guessed lang helpers) (hb : fileName basename = true) (hgu : ∀ g ∈ guesses, g ∈ synths ++ helpers)
    (hfile : synthFile basename rounds guesses lang synths helpers vars b u vc = some text) :
    ∃ ds cs, generateVars vars b = some (ds, cs) ∧ ∀ i prev prog, AnswersRound text i prev prog → i ≤ rounds ∧ RoundOk cs guesses rounds i prev prog ∧
      ∃ rs vt, ProgFile lang (synths ++ helpers) vars b u vc rs prog vt := by
  obtain ⟨ds, cs, lx, gs, v, hgen, hnames, hlx, hv, hlt, _, hgs, forms, pre, post, hread, hq, hpre, rfl, hcomp⟩ := synth_queries hok hg hb hgu hfile
  refine ⟨ds, cs, hgen, fun i prev prog h => ?_⟩
  obtain ⟨forms', pre', xs, post', q, hread', hq', hc, hnd, _, hqi, hrest⟩ := h
  rw [hread] at hread'
  cases hread'
  rw [hq] at hq'
  cases hq'
  rw [hpre] at hnd
  have hgn : (gs.map RGrammar.name).Nodup := ((List.nodup_append.1 (List.nodup_append.1 hnd).2.1)).1
  obtain ⟨rs, cx, hr, hcx, rfl⟩ := (hcomp prog hgn).1 hc
  rw [queries_read] at hqi hrest
  obtain ⟨hi, rfl⟩ := query_at hqi
  exact ⟨hi, hrest, rs, prog_file hok hr hgen hlx hcx hv hlt⟩

theorem ends_true {M : Module} {S : String → Module → Prop} {es : List SExpr} (h : Ends M S es true) : (∀ e ∈ es, AssumeIs M S e true) ∧ Passes M := by
  generalize hb : true = b at h
  induction h with
  | violated _ => cases hb
  | assumed h1 _ ih =>
    subst hb
    obtain ⟨h2, h3⟩ := ih rfl
    refine ⟨fun e he => ?_, h3⟩
    rcases List.mem_cons.1 he with rfl | he
    · exact h1
    · exact h2 e he
  | passed h => exact ⟨by simp, h⟩

theorem ends_false {M : Module} {S : String → Module → Prop} {es : List SExpr} (h : Ends M S es false) : ∃ e ∈ es, AssumeIs M S e false := by
  generalize hb : false = b at h
  induction h with
  | @violated e es h => exact ⟨e, by simp, h⟩
  | assumed _ _ ih =>
    obtain ⟨e, he, h⟩ := ih hb
    exact ⟨e, by simp [he], h⟩
  | passed _ => cases hb

theorem orForm_assume {M : Module} {S : String → Module → Prop} {guesses : List SynthFn} {j : Nat} {b : Bool} (h : AssumeIs M S (orForm guesses j) b) :
    ∃ bs, All2 (fun g b => DiffersIs M S (differsForm j g) b) guesses bs ∧ b = bs.any id := by
  obtain ⟨es, bs, e, h, rfl⟩ := h
  simp only [orForm, SExpr.list.injEq, List.cons.injEq, true_and] at e
  subst e
  exact ⟨bs, All2.map_left.1 h, rfl⟩

theorem differsForm_is {M : Module} {S : String → Module → Prop} {g : SynthFn} {j : Nat} {b : Bool} (h : DiffersIs M S (differsForm j g) b) :
    ∃ N n v m w, S (solName j) N ∧ rkEval M n 64 (fun _ => none) (callForm g) = some v ∧ rkEval N m 64 (fun _ => none) (callForm g) = some w ∧
      b = decide (v ≠ w) := by
  obtain ⟨c, s, N, n, v, m, w, e, h1, h2, h3, h4⟩ := h
  simp only [differsForm, SExpr.list.injEq, List.cons.injEq, SExpr.atom.injEq, true_and, and_true] at e
  obtain ⟨rfl, _, rfl⟩ := e
  exact ⟨N, n, v, m, w, h1, h2, h3, h4⟩

section Rounds
variable {rounds : Nat} {guesses : List SynthFn} {lang : List FnDecl} {ss : List SynthFn} {vars : List (String × VTy)} {b : Nat} {vc : Expr} {u : Bool}

/-- Whether an assumption holds: whether the functions differ. -/
theorem assume_means (hok : SketchOk lang ss vars b vc) (hgu : ∀ g ∈ guesses, g ∈ ss) (hsc : GuessScope guesses vars)
    {rs rs' : List Expr} {p p' : List SExpr} {vt vt' : List Char} (hp : ProgFile lang ss vars b u vc rs p vt)
    (hp' : ProgFile lang ss vars b u vc rs' p' vt') {cs : List String} {prev : List (List SExpr)} (hlen : prev.length ≤ rounds + 1) {j : Nat} (hj : prev[j]? = some p')
    {σ : String → Val} {M : Module} (hM : ProgramRuns p σ M) {ρ : Env} (hρ : ValsOf vars b M ρ) {bb : Bool}
    (h : AssumeIs M (SolutionRuns ((List.range (rounds + 1)).map (roundQuery cs guesses)) prev σ) (orForm guesses j) bb)
    {I J : Interp} (hI : MeansWith lang ss rs I) (hJ : MeansWith lang ss rs' J) : bb = true ↔ DifferAt guesses I J ρ := by
  obtain ⟨bs, hbs, rfl⟩ := orForm_assume h
  have key : All2 (fun g b => b = decide (I.fn g.name (g.params.map fun p => ρ p.1) ≠ J.fn g.name (g.params.map fun p => ρ p.1))) guesses bs := by
    refine hbs.imp_mem fun g hg bb hb => ?_
    obtain ⟨N, n, v, m, w, hS, hv, hw, rfl⟩ := differsForm_is hb
    obtain ⟨q, hq, hN⟩ := (solution_iff hlen).1 hS
    rw [hj] at hq
    cases hq
    have rM := (hp.hruns σ M).2 hM
    have rN := (hp'.hruns σ N).2 hN
    obtain ⟨ds, cs', hgen, _⟩ := C24_bounded_inputs_partial b vars (fun v hv => ⟨(hok.hvars v hv).1, (hok.hvars v hv).2.2.1⟩) hok.hnodup
    have e1 := run_globals (hp.problem hok) hp.hfile hgen rM
    have e2 := run_globals (hp'.problem hok) hp'.hfile hgen rN
    rw [e1] at e2
    have hρ' : ValsOf vars b N ρ := by
      unfold ValsOf
      rw [← Option.some.inj e2]
      exact hρ
    have hname := (hok.hsketch g (hgu g hg)).1.hname.2
    have hvars : ∀ y ∈ (guessExpr g).vars, y ∈ vars.map Prod.fst := by
      intro y hy
      obtain ⟨p, hp, rfl⟩ := guess_vars g y hy
      obtain ⟨v, hv, e, _⟩ := hsc g hg p hp
      rw [← e]
      exact List.mem_map_of_mem hv
    have h1 := run_sound (hp.problem hok) hp.hfile rM hρ hI.hlib hI.fns (guess_sx hname)
      (guess_sorted hok.hnodup hp.hres (run_names (hp.problem hok) hp.hfile rM) (hgu g hg) (hsc g hg)) (guess_arith g) hvars hv
    have h2 := run_sound (hp'.problem hok) hp'.hfile rN hρ' hJ.hlib hJ.fns (guess_sx hname)
      (guess_sorted hok.hnodup hp'.hres (run_names (hp'.problem hok) hp'.hfile rN) (hgu g hg) (hsc g hg)) (guess_arith g) hvars hw
    rw [h1, h2, guess_eval, guess_eval]
  clear hbs h hgu hsc
  unfold DifferAt
  induction key with
  | nil => simp
  | @cons g b gs bs h1 _ ih =>
    subst h1
    simp only [List.any_cons, id_eq, Bool.or_eq_true, decide_eq_true_eq, ih, List.mem_cons, exists_eq_or_imp]

end Rounds

/-! ### C67 -/

theorem all2_get_right {α β : Type} {R : α → β → Prop} {as : List α} {bs : List β} (h : All2 R as bs) {i : Nat} {c : β} (hb : bs[i]? = some c) :
    ∃ a, as[i]? = some a ∧ R a c := by
  induction h generalizing i with
  | nil => simp at hb
  | @cons a b as bs h1 _ ih =>
    cases i with
    | zero =>
      simp only [List.getElem?_cons_zero, Option.some.injEq] at hb
      subst hb
      exact ⟨a, by simp, h1⟩
    | succ i =>
      simp only [List.getElem?_cons_succ] at hb ⊢
      exact ih hb

theorem all2_exists {α β : Type} {R : α → β → Prop} {as : List α} (h : ∀ a ∈ as, ∃ b, R a b) : ∃ bs, All2 R as bs := by
  induction as with
  | nil => exact ⟨[], .nil⟩
  | cons a as ih =>
    obtain ⟨c, hc⟩ := h a (by simp)
    obtain ⟨bs, hbs⟩ := ih fun x hx => h x (by simp [hx])
    exact ⟨c :: bs, .cons hc hbs⟩

theorem all2_flip {α β : Type} {R : α → β → Prop} {as : List α} {bs : List β} (h : All2 R as bs) : All2 (fun b a => R a b) bs as := by
  induction h with
  | nil => exact .nil
  | cons h _ ih => exact .cons h ih

/-- **C67** (partial: for problems that satisfy `SketchOk` in which the parameters of the functions to be compared are variables, with unbounded integers).
If Rosette is right that `progs` are solutions of the queries of the rounds, then each program defines the functions to be synthesized by resolutions of
their sketches; each is new, since there are values of the variables within the bound for which it differs from every earlier one; and with its
definitions the verification condition holds for the values of the variables within the bound for which it differs from every earlier one. -/
theorem C67_rounds_partial {basename : String} {rounds : Nat} {guesses : List SynthFn} {lang : List FnDecl} {synths helpers : List SynthFn}
    {vars : List (String × VTy)} {b : Nat} {vc : Expr} {text : List Char} (hok : SketchOk lang (synths ++ helpers) vars b vc)
    (hg : Guessed lang helpers) (hb : fileName basename = true) (hgu : ∀ g ∈ guesses, g ∈ synths ++ helpers) (hsc : GuessScope guesses vars)
    (hfile : synthFile basename rounds guesses lang synths helpers vars b true vc = some text) {progs : List (List SExpr)} (h : AnswersRounds text progs) :
    ∃ rss : List (List Expr), All2 (fun prog rs => All2 (fun s r => ResolvesIn 10 s.body r) (synths ++ helpers) rs ∧
        ∀ d ∈ chosen (synths ++ helpers) rs, Defines prog d) progs rss ∧
      ∀ (i : Nat) (rs : List Expr), rss[i]? = some rs →
        (∃ ρ : Env, (∀ v ∈ vars, Shaped b v.2 (ρ v.1)) ∧ ∀ I, MeansWith lang (synths ++ helpers) rs I → ∀ (j : Nat) (rs' : List Expr), j < i → rss[j]? = some rs' →
          ∀ J, MeansWith lang (synths ++ helpers) rs' J → DifferAt guesses I J ρ) ∧
        ∀ ρ : Env, (∀ v ∈ vars, Shaped b v.2 (ρ v.1)) → ∀ I, MeansWith lang (synths ++ helpers) rs I →
          (∀ (j : Nat) (rs' : List Expr), j < i → rss[j]? = some rs' → ∃ J, MeansWith lang (synths ++ helpers) rs' J ∧ DifferAt guesses I J ρ) → holds I ρ vc := by
  obtain ⟨ds, cs, hgen, hparts⟩ := round_parts hok hg hb hgu hfile
  have hall : ∀ prog ∈ progs, ∃ rs, ∃ vt, ProgFile lang (synths ++ helpers) vars b true vc rs prog vt := by
    intro prog hp
    obtain ⟨i, hi⟩ := List.mem_iff_getElem?.1 hp
    exact (hparts i _ prog (h i prog hi)).2.2
  obtain ⟨rss, hrss⟩ := all2_exists hall
  refine ⟨rss, hrss.imp fun _ _ ⟨_, h⟩ => ⟨h.hres, h.hdef⟩, fun i rs hi => ?_⟩
  obtain ⟨prog, hprog, vt, hp⟩ := all2_get_right hrss hi
  obtain ⟨hir, ⟨τ, ⟨σ₀, M₀, hag₀, hrun₀, hends⟩, hall⟩, _⟩ := hparts i _ prog (h i prog hprog)
  have hlen : (progs.take i).length ≤ rounds + 1 := by
    rw [List.length_take]
    omega
  have hprev : ∀ (j : Nat) (rs' : List Expr), j < i → rss[j]? = some rs' → ∃ p' vt', (progs.take i)[j]? = some p' ∧
      ProgFile lang (synths ++ helpers) vars b true vc rs' p' vt' := by
    intro j rs' hji hj
    obtain ⟨p', hp', vt', hpf⟩ := all2_get_right hrss hj
    exact ⟨p', vt', by rw [List.getElem?_take_of_lt hji, hp'], hpf⟩
  have hilt : i < rss.length := (List.getElem?_eq_some_iff.1 hi).1
  constructor
  · obtain ⟨ρ, hρ⟩ := run_vals (hp.problem hok) hp.hfile ((hp.hruns _ _).2 hrun₀)
    refine ⟨ρ, fun v hv => (hρ v hv).2, fun I hI j rs' hji hj J hJ => ?_⟩
    obtain ⟨p', vt', hp', hpf⟩ := hprev j rs' hji hj
    have := (ends_true hends).1 (orForm guesses j) (List.mem_map_of_mem (List.mem_range.2 hji))
    exact (assume_means hok hgu hsc hp hpf hlen hp' hrun₀ hρ this hI hJ).1 rfl
  · intro ρ hρ I hI hdiff
    obtain ⟨ds', cs', e, _, _, hdep, _, hcompl⟩ := C24_bounded_inputs_partial b vars (fun v hv => ⟨(hok.hvars v hv).1, (hok.hvars v hv).2.2.1⟩) hok.hnodup
    rw [hgen] at e
    cases e
    obtain ⟨σ, env, henv, hval⟩ := hcompl ρ hρ
    rw [hdep σ (fun x => if x ∈ cs then σ x else τ x) fun c hc => by simp [hc]] at henv
    obtain ⟨M, hM, rfl⟩ := run_again (hp.problem hok) hp.hfile hgen ((hp.hruns _ _).2 hrun₀) henv
    have hvals : ValsOf vars b M ρ := fun v hv => ⟨hval v hv, hρ v hv⟩
    have hMp := (hp.hruns _ _).1 hM
    obtain ⟨bb, hb⟩ := hall _ M (fun x hx => by simp [hx]) hMp
    cases bb with
    | true => exact run_holds (hp.problem hok) hp.hfile hM hvals hI.hlib hI.fns (ends_true hb).2
    | false =>
      obtain ⟨e, he, ha⟩ := ends_false hb
      obtain ⟨j, hj, rfl⟩ := List.mem_map.1 he
      have hji := List.mem_range.1 hj
      obtain ⟨rs', hrs'⟩ : ∃ rs', rss[j]? = some rs' := ⟨_, List.getElem?_eq_getElem (by omega)⟩
      obtain ⟨p', vt', hp', hpf⟩ := hprev j rs' hji hrs'
      obtain ⟨J, hJ, hd⟩ := hdiff j rs' hji hrs'
      exact absurd ((assume_means hok hgu hsc hp hpf hlen hp' hMp hvals ha hI hJ).2 hd) (by simp)

/-- **C67** (partial: as before).  No two rounds have the same program. -/
theorem C67_distinct_partial {basename : String} {rounds : Nat} {guesses : List SynthFn} {lang : List FnDecl} {synths helpers : List SynthFn}
    {vars : List (String × VTy)} {b : Nat} {vc : Expr} {text : List Char} (hok : SketchOk lang (synths ++ helpers) vars b vc)
    (hg : Guessed lang helpers) (hb : fileName basename = true) (hgu : ∀ g ∈ guesses, g ∈ synths ++ helpers)
    (hfile : synthFile basename rounds guesses lang synths helpers vars b true vc = some text) {progs : List (List SExpr)} (h : AnswersRounds text progs) :
    progs.Nodup := by
  obtain ⟨ds, cs, hgen, hparts⟩ := round_parts hok hg hb hgu hfile
  have key : ∀ (i j : Nat) (p : List SExpr), j < i → progs[i]? = some p → progs[j]? = some p → False := by
    intro i j p hji hi hj
    obtain ⟨hir, ⟨τ, ⟨σ, M, _, hrun, hends⟩, _⟩, rs, vt, hp⟩ := hparts i _ p (h i p hi)
    have hlen : (progs.take i).length ≤ rounds + 1 := by
      rw [List.length_take]
      omega
    obtain ⟨bs, hbs, hany⟩ := orForm_assume ((ends_true hends).1 (orForm guesses j) (List.mem_map_of_mem (List.mem_range.2 hji)))
    have hf : All2 (fun _ b => b = false) guesses bs := by
      refine hbs.imp_mem fun g hg c h1 => ?_
      obtain ⟨N, n, v, m, w, hS, hv, hw, rfl⟩ := differsForm_is h1
      obtain ⟨q, hq, hN⟩ := (solution_iff hlen).1 hS
      rw [List.getElem?_take_of_lt hji, hj] at hq
      cases hq
      have := run_unique (hp.problem hok) hp.hfile ((hp.hruns σ M).2 hrun) ((hp.hruns σ N).2 hN)
      subst this
      obtain ⟨_, _, xv, _, _, hxv, _, _, _⟩ := file_module (hp.problem hok) hp.hfile
      have hmono : M.imports.Mono := by
        rw [(run_facts (hp.problem hok) hp.hfile ((hp.hruns σ M).2 hrun) hxv).1.imports]
        exact exports_mono builtin_mono
      have e1 := rkEval_mono hmono n (max n m) (by omega) 64 (fun _ => none) (callForm g) v hv
      have e2 := rkEval_mono hmono m (max n m) (by omega) 64 (fun _ => none) (callForm g) w hw
      rw [e1] at e2
      simp [Option.some.inj e2]
    have hf : ∀ b ∈ bs, b = false := fun c hc => by
      obtain ⟨k, hk⟩ := List.mem_iff_getElem?.1 hc
      obtain ⟨_, _, e⟩ := all2_get_right hf hk
      exact e
    rw [eq_comm, List.any_eq_true] at hany
    obtain ⟨c, hc, ht⟩ := hany
    rw [hf c hc] at ht
    cases ht
  rw [List.nodup_iff_pairwise_ne, List.pairwise_iff_getElem]
  intro i j hi hj hij e
  exact key j i progs[j] hij (List.getElem?_eq_getElem hj) (by rw [← e]; exact List.getElem?_eq_getElem hi)

/-- **C67**: with no functions to compare there is no second solution. -/
theorem C67_no_functions_partial {basename : String} {rounds : Nat} {lang : List FnDecl} {synths helpers : List SynthFn}
    {vars : List (String × VTy)} {b : Nat} {vc : Expr} {text : List Char} (hok : SketchOk lang (synths ++ helpers) vars b vc)
    (hg : Guessed lang helpers) (hb : fileName basename = true)
    (hfile : synthFile basename rounds [] lang synths helpers vars b true vc = some text) {progs : List (List SExpr)} (h : AnswersRounds text progs) :
    progs.length ≤ 1 := by
  obtain ⟨ds, cs, hgen, hparts⟩ := round_parts hok hg hb (by simp) hfile
  by_contra hlt
  obtain ⟨p, hp⟩ : ∃ p, progs[1]? = some p := ⟨_, List.getElem?_eq_getElem (by omega)⟩
  obtain ⟨_, ⟨τ, ⟨σ, M, _, _, hends⟩, _⟩, _⟩ := hparts 1 _ p (h 1 p hp)
  obtain ⟨bs, hbs, hany⟩ := orForm_assume ((ends_true hends).1 (orForm [] 0) (List.mem_map_of_mem (List.mem_range.2 (by omega))))
  cases hbs
  cases hany

/-- **C67**: the first round asks what a file for a single round asks. -/
theorem C67_first_partial {basename : String} {rounds : Nat} {guesses : List SynthFn} {lang : List FnDecl} {synths helpers : List SynthFn}
    {vars : List (String × VTy)} {b : Nat} {vc : Expr} {text : List Char} (hok : SketchOk lang (synths ++ helpers) vars b vc)
    (hg : Guessed lang helpers) (hb : fileName basename = true) (hgu : ∀ g ∈ guesses, g ∈ synths ++ helpers)
    (hfile : synthFile basename rounds guesses lang synths helpers vars b true vc = some text) (prog : List SExpr) :
    AnswersRounds text [prog] ↔ Answers text prog := by
  obtain ⟨ds, cs, lx, gs, v, hgen, hnames, hlx, hv, hlt, _, hgs, forms, pre, post, hread, hq, hpre, rfl, hcomp⟩ := synth_queries hok hg hb hgu hfile
  have hzero : ((queriesForms basename rounds guesses cs).filterMap readNext)[0]? = some (roundQuery cs guesses 0) := by
    rw [queries_read, List.getElem?_map, List.getElem?_range (by omega)]
    rfl
  have hends : ∀ (M : Module) (S : String → Module → Prop) (bb : Bool), Ends M S (roundQuery cs guesses 0).assumes bb ↔ bb = true ∧ Passes M := by
    intro M S bb
    have : (roundQuery cs guesses 0).assumes = [] := rfl
    rw [this]
    constructor
    · intro h
      cases h with
      | passed h => exact ⟨rfl, h⟩
    · rintro ⟨rfl, h⟩
      exact .passed h
  have hc : (roundQuery cs guesses 0).consts = cs := rfl
  constructor
  · intro h
    obtain ⟨forms', pre', xs, post', q, hread', hq', h1, h2, h3, hqi, τ, ⟨σ, M, h4, h5, h6⟩, h7⟩ := h 0 prog rfl
    rw [hread] at hread'
    cases hread'
    rw [hq] at hq'
    cases hq'
    rw [hzero] at hqi
    cases hqi
    refine ⟨forms, pre, cs, _, hread, hq, h1, h2, h3, τ, ⟨σ, M, h4, h5⟩, fun σ M h8 h9 => ?_⟩
    obtain ⟨bb, h⟩ := h7 σ M h8 h9
    exact ((hends _ _ _).1 h).2
  · rintro ⟨forms', pre', xs, post', hread', hq', h1, h2, h3, τ, ⟨σ, M, h4, h5⟩, h6⟩ i prog' hi
    rw [hread] at hread'
    cases hread'
    rw [hq] at hq'
    cases hq'
    cases i with
    | succ i => simp at hi
    | zero =>
      cases hi
      exact ⟨forms, pre, cs, _, _, hread, hq, h1, h2, h3, hzero, τ, ⟨σ, M, h4, h5, (hends _ _ _).2 ⟨rfl, h6 σ M h4 h5⟩⟩,
        fun σ M h8 h9 => ⟨true, (hends _ _ _).2 ⟨rfl, h6 σ M h8 h9⟩⟩⟩

/-! ### Solutions are found -/

theorem run_start {lang cands : List FnDecl} {vars : List (String × VTy)} {b : Nat} {vc : Expr} {text : List Char} {u : Bool}
    (hok : ProblemOk lang cands vars b vc) (hn : NamesOk lang cands vars) (hfile : verifyFile lang cands vars b u vc = some text) {ds : List RDecl} {cs : List String}
    (hgen : generateVars vars b = some (ds, cs)) {σ : String → Val} {env : REnv}
    (henv : runDecls σ (fun _ => none) ds = some env) : ∃ M, Runs text σ M ∧ M.globals = env := by
  obtain ⟨ds', cs', x, defs, hgen', _, _, hruns, _⟩ := file_module hok hfile
  rw [hgen] at hgen'
  cases hgen'
  obtain ⟨hown, hdn, _⟩ := vars_block (fun v hv => ⟨(hok.hvars v hv).1, (hok.hvars v hv).2.2.1⟩) hok.hnodup hgen
  exact ⟨_, (hruns σ _).2 ⟨names_cond hn hown hdn, env, henv, rfl⟩, rfl⟩

theorem ends_exists {M : Module} {S : String → Module → Prop} {es : List SExpr} (h : ∀ e ∈ es, ∃ b, AssumeIs M S e b)
    (hp : (∀ e ∈ es, AssumeIs M S e true) → Passes M) : ∃ b, Ends M S es b ∧ ((∀ e ∈ es, AssumeIs M S e true) → Ends M S es true) := by
  induction es with
  | nil => exact ⟨true, .passed (hp (by simp)), fun _ => .passed (hp (by simp))⟩
  | cons e es ih =>
    have hall : (∀ e' ∈ e :: es, AssumeIs M S e' true) → Ends M S (e :: es) true := by
      intro ha
      have : ∀ es : List SExpr, (∀ e ∈ es, AssumeIs M S e true) → Ends M S es true := by
        intro es
        induction es with
        | nil => exact fun _ => .passed (hp ha)
        | cons e es ih => exact fun h => .assumed (h e (by simp)) (ih fun x hx => h x (by simp [hx]))
      exact this _ ha
    obtain ⟨b, hb⟩ := h e (by simp)
    cases b with
    | false => exact ⟨false, .violated hb, hall⟩
    | true =>
      obtain ⟨b, h1, _⟩ := ih (fun x hx => h x (by simp [hx])) (fun ha => hp fun x hx => by
        rcases List.mem_cons.1 hx with rfl | hx
        · exact hb
        · exact ha x hx)
      exact ⟨b, .assumed hb h1, hall⟩

theorem differAt_congr {guesses : List SynthFn} {vars : List (String × VTy)} (hsc : GuessScope guesses vars) {I J : Interp} {ρ ρ' : Env}
    (h : ∀ y ∈ vars.map Prod.fst, ρ' y = ρ y) : DifferAt guesses I J ρ' ↔ DifferAt guesses I J ρ := by
  have : ∀ g ∈ guesses, g.params.map (fun p => ρ' p.1) = g.params.map (fun p => ρ p.1) := by
    intro g hg
    refine List.map_congr_left fun p hp => ?_
    obtain ⟨v, hv, e, _⟩ := hsc g hg p hp
    exact h p.1 (by rw [← e]; exact List.mem_map_of_mem hv)
  unfold DifferAt
  constructor
  · rintro ⟨g, hg, h⟩
    rw [this g hg] at h
    exact ⟨g, hg, h⟩
  · rintro ⟨g, hg, h⟩
    rw [← this g hg] at h
    exact ⟨g, hg, h⟩

theorem round_converse {basename : String} {rounds : Nat} {guesses : List SynthFn} {lang : List FnDecl} {synths helpers : List SynthFn}
    {vars : List (String × VTy)} {b : Nat} {vc : Expr} {text : List Char} (hok : SketchOk lang (synths ++ helpers) vars b vc)
    (hg : Guessed lang helpers) (hb : fileName basename = true) (hgu : ∀ g ∈ guesses, g ∈ synths ++ helpers)
    (hn : SketchNames rounds lang (synths ++ helpers) vars)
    (hfile : synthFile basename rounds guesses lang synths helpers vars b true vc = some text) :
    ∃ ds cs, generateVars vars b = some (ds, cs) ∧ ∀ rs, All2 (fun s r => ResolvesIn 10 s.body r) (synths ++ helpers) rs →
      ∃ prog vt, ProgFile lang (synths ++ helpers) vars b true vc rs prog vt ∧
        ∀ i prev, i ≤ rounds → RoundOk cs guesses rounds i prev prog → AnswersRound text i prev prog := by
  obtain ⟨ds, cs, lx, gs, v, hgen, hnames, hlx, hv, hlt, _, hgs, forms, pre, post, hread, hq, hpre, rfl, hcomp⟩ := synth_queries hok hg hb hgu hfile
  refine ⟨ds, cs, hgen, fun rs hr => ?_⟩
  have hres : All2 (fun s r => Resolves s.body r) (synths ++ helpers) rs := hr.imp fun _ _ h => h.resolves
  obtain ⟨cx, hcx⟩ := resolutions_print hok (fun s h => h) hgs hres
  have hp := sketch_problem hok hres
  obtain ⟨hown, hdn, _⟩ := vars_block (fun v hv => ⟨(hok.hvars v hv).1, (hok.hvars v hv).2.2.1⟩) hok.hnodup hgen
  obtain ⟨n1, n2⟩ := synth_names hn hres hown hdn hgs
  have hgn : (gs.map RGrammar.name).Nodup := (List.nodup_append.1 (List.nodup_append.1 n1).2.1).1
  have hdefd : (progForms lx cx ds true v).filterMap defined =
      (withBody lang).map FnDecl.name ++ ((chosen (synths ++ helpers) rs).map FnDecl.name ++ (defNames ds ++ ["assertions"])) := by
    obtain ⟨_, _, _, l3, _⟩ := readDefs_fns (fun d hd => (hp.hfns d (by simp [hd])).1) hlx
    obtain ⟨_, _, _, c3, _⟩ := readDefs_fns (fun d hd => (hp.hfns d (by simp [hd])).1) hcx
    simp only [progForms, List.filterMap_append, header_forms.2.1, l3, c3, (decls_forms ds).2, last_forms, List.nil_append]
  obtain ⟨vt, hpf⟩ := prog_file hok hr hgen hlx hcx hv hlt (u := true)
  refine ⟨_, vt, hpf, fun i prev hi h => ?_⟩
  refine ⟨forms, pre, cs, _, roundQuery cs guesses i, hread, hq, (hcomp _ hgn).2 ⟨rs, cx, hr, hcx, rfl⟩, ?_, ?_, ?_, ?_⟩
  · rw [hpre, queries_defined, hdefd]
    exact n1
  · rw [hpre, queries_defined]
    exact n2
  · rw [queries_read, List.getElem?_map, List.getElem?_range (by omega)]
    rfl
  · rw [queries_read]
    exact h

/-- **C67** (partial: for names that do not clash).  Resolutions of the sketches are solutions of the rounds, in this order, if their calls can be
computed, each differs from all the earlier ones for some values of the variables, and the verification condition can be computed and holds for all such
values: nothing is demanded for other values. -/
theorem C67_found_partial {basename : String} {rounds : Nat} {guesses : List SynthFn} {lang : List FnDecl} {synths helpers : List SynthFn}
    {vars : List (String × VTy)} {b : Nat} {vc : Expr} {text : List Char} (hok : SketchOk lang (synths ++ helpers) vars b vc)
    (hg : Guessed lang helpers) (hb : fileName basename = true) (hgu : ∀ g ∈ guesses, g ∈ synths ++ helpers) (hsc : GuessScope guesses vars)
    (hn : SketchNames rounds lang (synths ++ helpers) vars)
    (hfile : synthFile basename rounds guesses lang synths helpers vars b true vc = some text) {sols : List (List Expr × Interp)}
    (hlen : sols.length ≤ rounds + 1)
    (hr : ∀ r ∈ sols, All2 (fun s r => ResolvesIn 10 s.body r) (synths ++ helpers) r.1 ∧ MeansWith lang (synths ++ helpers) r.1 r.2 ∧
      ∀ ρ : Env, (∀ v ∈ vars, Shaped b v.2 (ρ v.1)) → ∀ g ∈ guesses, Safe r.2 (chosen (synths ++ helpers) r.1 ++ withBody lang) 64 ρ (guessExpr g))
    (hnew : ∀ (i : Nat) (r : List Expr × Interp), sols[i]? = some r → ∃ ρ : Env, (∀ v ∈ vars, Shaped b v.2 (ρ v.1)) ∧
      ∀ (j : Nat) (r' : List Expr × Interp), j < i → sols[j]? = some r' → DifferAt guesses r.2 r'.2 ρ)
    (hholds : ∀ (i : Nat) (r : List Expr × Interp), sols[i]? = some r → ∀ ρ : Env, (∀ v ∈ vars, Shaped b v.2 (ρ v.1)) →
      (∀ (j : Nat) (r' : List Expr × Interp), j < i → sols[j]? = some r' → DifferAt guesses r.2 r'.2 ρ) →
        Safe r.2 (chosen (synths ++ helpers) r.1 ++ withBody lang) 64 ρ vc ∧ holds r.2 ρ vc) :
    ∃ progs, AnswersRounds text progs ∧ All2 (fun prog (r : List Expr × Interp) => ∀ d ∈ chosen (synths ++ helpers) r.1, Defines prog d) progs sols := by
  obtain ⟨ds, cs, hgen, hconv⟩ := round_converse hok hg hb hgu hn hfile
  obtain ⟨progs, hprogs⟩ := all2_exists (as := sols) (R := fun r prog => (∃ vt, ProgFile lang (synths ++ helpers) vars b true vc r.1 prog vt) ∧
    ∀ i prev, i ≤ rounds → RoundOk cs guesses rounds i prev prog → AnswersRound text i prev prog) fun r hm => by
      obtain ⟨prog, vt, h1, h2⟩ := hconv r.1 (hr r hm).1
      exact ⟨prog, ⟨vt, h1⟩, h2⟩
  have hprogs' : All2 (fun prog (r : List Expr × Interp) => ∃ vt, ProgFile lang (synths ++ helpers) vars b true vc r.1 prog vt) progs sols :=
    all2_flip (hprogs.imp fun _ _ h => h.1)
  refine ⟨progs, fun i prog hi => ?_, hprogs'.imp fun _ _ ⟨_, h⟩ => h.hdef⟩
  obtain ⟨r, hri, ⟨vt, hp⟩, hans⟩ := all2_get_right hprogs hi
  have hilt : i < sols.length := (List.getElem?_eq_some_iff.1 hri).1
  have hrm : r ∈ sols := List.mem_of_getElem? hri
  obtain ⟨_, hI, hsafeg⟩ := hr r hrm
  refine hans i _ (by omega) ?_
  have hlen' : (progs.take i).length ≤ rounds + 1 := by
    rw [List.length_take]
    omega
  have hnm := chosen_namesOk hn hp.hres
  obtain ⟨ds', cs', e, _, _, hdep, _, hcompl⟩ := C24_bounded_inputs_partial b vars (fun v hv => ⟨(hok.hvars v hv).1, (hok.hvars v hv).2.2.1⟩) hok.hnodup
  rw [hgen] at e
  cases e
  have hshape : ∀ ρ ρ' : Env, (∀ v ∈ vars, Shaped b v.2 (ρ v.1)) → (∀ y ∈ vars.map Prod.fst, ρ' y = ρ y) → ∀ v ∈ vars, Shaped b v.2 (ρ' v.1) := by
    intro ρ ρ' h1 h2 v hv
    rw [h2 v.1 (List.mem_map_of_mem hv)]
    exact h1 v hv
  have hscope : ∀ g ∈ guesses, ∀ y ∈ (guessExpr g).vars, y ∈ vars.map Prod.fst := by
    intro g hg y hy
    obtain ⟨p, hp, rfl⟩ := guess_vars g y hy
    obtain ⟨v, hv, e, _⟩ := hsc g hg p hp
    rw [← e]
    exact List.mem_map_of_mem hv
  have key : ∀ σ M, ProgramRuns prog σ M → ∀ ρ, ValsOf vars b M ρ →
      ∃ bb, Ends M (SolutionRuns ((List.range (rounds + 1)).map (roundQuery cs guesses)) (progs.take i) σ) ((List.range i).map (orForm guesses)) bb ∧
        ((∀ (j : Nat) (r' : List Expr × Interp), j < i → sols[j]? = some r' → DifferAt guesses r.2 r'.2 ρ) → 
          Ends M (SolutionRuns ((List.range (rounds + 1)).map (roundQuery cs guesses)) (progs.take i) σ) ((List.range i).map (orForm guesses)) true) := by
    intro σ M hM ρ hρ
    have rM := (hp.hruns σ M).2 hM
    have hsh : ∀ v ∈ vars, Shaped b v.2 (ρ v.1) := fun v hv => (hρ v hv).2
    have hone : ∀ (j : Nat), j < i → ∀ r', sols[j]? = some r' → ∃ bb, AssumeIs M (SolutionRuns ((List.range (rounds + 1)).map (roundQuery cs guesses)) (progs.take i) σ)
        (orForm guesses j) bb ∧ (bb = true ↔ DifferAt guesses r.2 r'.2 ρ) := by
      intro j hji r' hj
      obtain ⟨p', hp', vt', hpf⟩ := all2_get_right hprogs' hj
      obtain ⟨_, hJ, hsafe'⟩ := hr r' (List.mem_of_getElem? hj)
      have hp'' : (progs.take i)[j]? = some p' := by rw [List.getElem?_take_of_lt hji, hp']
      obtain ⟨N, rN, hNg⟩ := run_start (hpf.problem hok) (chosen_namesOk hn hpf.hres) hpf.hfile hgen (run_globals (hp.problem hok) hp.hfile hgen rM)
      have hρ' : ValsOf vars b N ρ := by
        unfold ValsOf
        rw [hNg]
        exact hρ
      have : ∀ g ∈ guesses, ∃ bb, DiffersIs M (SolutionRuns ((List.range (rounds + 1)).map (roundQuery cs guesses)) (progs.take i) σ) (differsForm j g) bb := by
        intro g hgm
        have hname := (hok.hsketch g (hgu g hgm)).1.hname.2
        obtain ⟨n, hn1⟩ := run_complete (hp.problem hok) hnm hp.hfile rM hρ hI.hlib hI.fns (guess_sx hname)
          (guess_sorted hok.hnodup hp.hres (run_names (hp.problem hok) hp.hfile rM) (hgu g hgm) (hsc g hgm)) (guess_arith g) (hscope g hgm)
          (fun ρ' h => hsafeg ρ' (hshape ρ ρ' hsh h) g hgm)
        obtain ⟨m, hm1⟩ := run_complete (hpf.problem hok) (chosen_namesOk hn hpf.hres) hpf.hfile rN hρ' hJ.hlib hJ.fns (guess_sx hname)
          (guess_sorted hok.hnodup hpf.hres (run_names (hpf.problem hok) hpf.hfile rN) (hgu g hgm) (hsc g hgm)) (guess_arith g) (hscope g hgm)
          (fun ρ' h => hsafe' ρ' (hshape ρ ρ' hsh h) g hgm)
        exact ⟨_, callForm g, solName j, N, n, _, m, _, rfl, (solution_iff hlen').2 ⟨p', hp'', (hpf.hruns σ N).1 rN⟩, hn1, hm1, rfl⟩
      obtain ⟨bs, hbs⟩ := all2_exists this
      have ha : AssumeIs M (SolutionRuns ((List.range (rounds + 1)).map (roundQuery cs guesses)) (progs.take i) σ) (orForm guesses j) (bs.any id) :=
        ⟨_, bs, rfl, All2.map_left.2 hbs, rfl⟩
      exact ⟨_, ha, assume_means hok hgu hsc hp hpf hlen' hp'' hM hρ ha hI hJ⟩
    have hsome : ∀ j, j < i → ∃ r', sols[j]? = some r' := fun j hj => ⟨_, List.getElem?_eq_getElem (by omega)⟩
    have hex : ∀ e ∈ (List.range i).map (orForm guesses), ∃ bb,
        AssumeIs M (SolutionRuns ((List.range (rounds + 1)).map (roundQuery cs guesses)) (progs.take i) σ) e bb := by
      intro e he
      obtain ⟨j, hj, rfl⟩ := List.mem_map.1 he
      obtain ⟨r', hr'⟩ := hsome j (List.mem_range.1 hj)
      obtain ⟨bb, h, _⟩ := hone j (List.mem_range.1 hj) r' hr'
      exact ⟨bb, h⟩
    obtain ⟨bb, h1, h2⟩ := ends_exists hex (by
      intro hall
      have hd : ∀ (j : Nat) (r' : List Expr × Interp), j < i → sols[j]? = some r' → DifferAt guesses r.2 r'.2 ρ := by
        intro j r' hji hj
        obtain ⟨p', hp', vt', hpf⟩ := all2_get_right hprogs' hj
        have hp'' : (progs.take i)[j]? = some p' := by rw [List.getElem?_take_of_lt hji, hp']
        exact (assume_means hok hgu hsc hp hpf hlen' hp'' hM hρ (hall _ (List.mem_map_of_mem (List.mem_range.2 hji))) hI
          (hr r' (List.mem_of_getElem? hj)).2.1).1 rfl
      obtain ⟨_, _, x, _, _, hx, _, _, _⟩ := file_module (hp.problem hok) hp.hfile
      obtain ⟨_, _, hpass⟩ := run_facts (hp.problem hok) hp.hfile rM hx
      obtain ⟨n, hn1⟩ := run_complete (hp.problem hok) hnm hp.hfile rM hρ hI.hlib hI.fns hx (hp.problem hok).hvc.1 (hp.problem hok).hvc.2.1
        (hp.problem hok).hvc.2.2.2 (fun ρ' h => (hholds i r hri ρ' (hshape ρ ρ' hsh h) fun j r' hji hj => (differAt_congr hsc h).2 (hd j r' hji hj)).1)
      refine hpass.2 ⟨n, _, hn1, fun hf => ?_⟩
      have := (hholds i r hri ρ hsh hd).2
      unfold holds at this
      rw [hf] at this
      cases this)
    refine ⟨bb, h1, fun hd => h2 fun e he => ?_⟩
    obtain ⟨j, hj, rfl⟩ := List.mem_map.1 he
    obtain ⟨r', hr'⟩ := hsome j (List.mem_range.1 hj)
    obtain ⟨bb, h, hiff⟩ := hone j (List.mem_range.1 hj) r' hr'
    rw [← hiff.2 (hd j r' (List.mem_range.1 hj) hr')]
    exact h
  refine ⟨fun _ => .int 0, ?_, ?_⟩
  · obtain ⟨ρ, hρ, hd⟩ := hnew i r hri
    obtain ⟨σ, env, henv, hval⟩ := hcompl ρ hρ
    rw [hdep σ (fun x => if x ∈ cs then σ x else .int 0) fun c hc => by simp [hc]] at henv
    obtain ⟨M, hM, rfl⟩ := run_start (hp.problem hok) hnm hp.hfile hgen henv
    have hvals : ValsOf vars b M ρ := fun v hv => ⟨hval v hv, hρ v hv⟩
    have hMp := (hp.hruns _ _).1 hM
    obtain ⟨_, _, h⟩ := key _ M hMp ρ hvals
    exact ⟨_, M, fun x hx => by simp [hx], hMp, h hd⟩
  · intro σ M _ hM
    obtain ⟨ρ, hρ⟩ := run_vals (hp.problem hok) hp.hfile ((hp.hruns _ _).2 hM)
    obtain ⟨bb, h, _⟩ := key σ M hM ρ hρ
    exact ⟨bb, h⟩

end Rkt
end Metalift
