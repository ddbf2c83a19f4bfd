import Verif.SynthForms
/-
C61: what the answers to the synthesis query written for Rosette are.
-/
namespace Metalift
namespace Rkt
open Smt (OfTy OfTys FnHolds paramEnv)

/-! ### The program before the query -/

/-- The forms of the program with these definitions of the functions to be synthesized. -/
def progForms (lx cx : List SExpr) (ds : List RDecl) (u : Bool) (v : SExpr) : List SExpr :=
  headerForms ++ (lx ++ (cx ++ (ds.map rdeclSx ++ lastForms u v)))

theorem firstQuery_append {pre post : List SExpr} {q : SExpr} {xs : List String} (h : ∀ f ∈ pre, readQuery f = none) (hq : readQuery q = some xs) :
    firstQuery (pre ++ q :: post) = some (pre, xs, q :: post) := by
  induction pre with
  | nil => simp [firstQuery, hq]
  | cons f pre ih =>
    rw [List.cons_append, firstQuery, h f (by simp), ih fun g hg => h g (by simp [hg])]
    rfl

theorem atomNames_map (cs : List String) : atomNames (cs.map .atom) = some cs := by
  induction cs with
  | nil => rfl
  | cons c cs ih => simp [atomNames, ih]

theorem filterMap_none {α β : Type} {f : α → Option β} {l : List α} (h : ∀ a ∈ l, f a = none) : l.filterMap f = [] := by
  induction l with
  | nil => rfl
  | cons a l ih => rw [List.filterMap_cons, h a (by simp)]; exact ih fun b hb => h b (by simp [hb])

theorem filter_all {α : Type} {p : α → Bool} {l : List α} (h : ∀ a ∈ l, p a = true) : l.filter p = l := List.filter_eq_self.2 h

theorem filterMap_grams (gs : List RGrammar) : (gs.map gramSx).filterMap readGrammar = gs := by
  induction gs with
  | nil => rfl
  | cons g gs ih => simp [read_gramSx, ih]

theorem filter_grams (gs : List RGrammar) : (gs.map gramSx).filter (fun f => (readGrammar f).isNone) = [] := by
  induction gs with
  | nil => rfl
  | cons g gs ih => simp [read_gramSx]

theorem all2_append_iff {α β : Type} {R : α → β → Prop} {as as' : List α} {bs : List β} :
    All2 R (as ++ as') bs ↔ ∃ b1 b2, bs = b1 ++ b2 ∧ All2 R as b1 ∧ All2 R as' b2 := by
  constructor
  · intro h
    induction as generalizing bs with
    | nil => exact ⟨[], bs, rfl, .nil, h⟩
    | cons a as ih =>
      cases h with
      | cons h1 h2 =>
        obtain ⟨b1, b2, rfl, h3, h4⟩ := ih h2
        exact ⟨_ :: b1, b2, rfl, .cons h1 h3, h4⟩
  · rintro ⟨b1, b2, rfl, h1, h2⟩
    exact All2.join h1 h2

/-- The forms of the synthesis file. -/
theorem synth_forms {basename : String} {rounds : Nat} {guesses : List SynthFn} {lang : List FnDecl} {synths helpers : List SynthFn} {vars : List (String × VTy)} {b : Nat} {u : Bool} {vc : Expr}
    {text : List Char} (hok : SketchOk lang (synths ++ helpers) vars b vc) (hg : Guessed lang helpers) (hb : fileName basename = true) (hgu : ∀ g ∈ guesses, g ∈ synths ++ helpers)
    (hfile : synthFile basename rounds guesses lang synths helpers vars b u vc = some text) :
    ∃ ds cs lx gs v, generateVars vars b = some (ds, cs) ∧ AllNames ds ∧ (withBody lang).mapM fnForm = some lx ∧ rktSx vc = some v ∧
      (∃ l, langTexts lang = some l) ∧ (∃ t, rosetteText vc = some t) ∧ All2 (fun s g => grammarOf s = some g) (synths ++ helpers) gs ∧
      readModule (String.ofList text) = some (headerForms ++ (lx ++ (gs.map gramSx ++ ((synths ++ helpers).map holeOf ++
        (ds.map rdeclSx ++ (lastForms u v ++ queriesForms basename rounds guesses cs)))))) := by
  simp only [synthFile, Option.bind_eq_bind, Option.bind_eq_some_iff, Option.some.injEq] at hfile
  obtain ⟨⟨ds, cs⟩, hgen, s, hs, rfl⟩ := hfile
  have hnames : AllNames ds := by
    unfold generateVars at hgen
    refine genVars_names b _ ds cs ?_ hgen
    intro v hv
    exact (hok.hvars v ((List.mergeSort_perm vars _).mem_iff.1 hv)).2.1
  have hcs : ∀ c ∈ cs, rktName c = true := by
    obtain ⟨ds', cs', e, e2, _⟩ := C24_bounded_inputs_partial b vars (fun v hv => ⟨(hok.hvars v hv).1, (hok.hvars v hv).2.2.1⟩) hok.hnodup
    rw [hgen] at e
    cases e
    subst e2
    have key : ∀ ds : List RDecl, AllNames ds → ∀ c ∈ symNames ds, rktName c = true := by
      intro ds
      induction ds with
      | nil => intro _ c hc; cases hc
      | cons d ds ih =>
        intro hn c hc
        have ih := ih fun e he => hn e (by simp [he])
        cases d with
        | symInt n =>
          rcases List.mem_cons.1 hc with rfl | hc
          · exact hn (.symInt c) (by simp) c (by simp [rdeclNames])
          · exact ih c hc
        | symBool n =>
          rcases List.mem_cons.1 hc with rfl | hc
          · exact hn (.symBool c) (by simp) c (by simp [rdeclNames])
          · exact ih c hc
        | define n e => exact ih c hc
    exact key ds hnames
  have htexts : (∃ l, langTexts lang = some l) ∧ ∃ t, rosetteText vc = some t := by
    simp only [synthBody, Option.bind_eq_bind, Option.bind_eq_some_iff, Option.some.injEq] at hs
    obtain ⟨l, hl, _, _, t, ht, _⟩ := hs
    exact ⟨⟨l, hl⟩, t, ht⟩
  obtain ⟨lx, gs, v, hlx, hgs, hv, hread⟩ := synth_read (sig := sketchSig lang (synths ++ helpers)) (fun f ts t h => sketchSig_head hok h) hb
    (fun g hg => ⟨(hok.hsketch g (hgu g hg)).1.hname.1, (hok.hsketch g (hgu g hg)).1.hparams⟩)
    (fun d hd => (hok.hlang d hd).1) (fun s h => (hok.hsketch s h).1) hg hnames hcs hok.hvc.1 (fun y hy => by
      obtain ⟨w, hw, rfl⟩ := List.mem_map.1 (hok.hvc.2.2.2 y hy)
      exact (hok.hvars w hw).2.1) hs
  exact ⟨ds, cs, lx, gs, v, hgen, hnames, hlx, hv, htexts.1, htexts.2, hgs, hread⟩

theorem queries_defined (basename : String) (rounds : Nat) (guesses : List SynthFn) (cs : List String) :
    (queriesForms basename rounds guesses cs).filterMap defined = (List.range (rounds + 1)).map solName := by
  have h : ∀ l : List Nat, (l.flatMap fun i => nextForms basename cs guesses (i + 1)).filterMap defined = l.map fun i => solName (i + 1) := by
    intro l
    induction l with
    | nil => rfl
    | cons i l ih =>
      rw [List.flatMap_cons, List.filterMap_append, ih]
      rfl
  rw [queriesForms, List.filterMap_append, h, List.range_succ_eq_map, List.map_cons, List.map_map]
  rfl

/-- The parts of the synthesis file, with the queries. -/
theorem synth_queries {basename : String} {rounds : Nat} {guesses : List SynthFn} {lang : List FnDecl} {synths helpers : List SynthFn} {vars : List (String × VTy)} {b : Nat} {u : Bool} {vc : Expr}
    {text : List Char} (hok : SketchOk lang (synths ++ helpers) vars b vc) (hg : Guessed lang helpers) (hb : fileName basename = true) (hgu : ∀ g ∈ guesses, g ∈ synths ++ helpers)
    (hfile : synthFile basename rounds guesses lang synths helpers vars b u vc = some text) :
    ∃ ds cs lx gs v, generateVars vars b = some (ds, cs) ∧ AllNames ds ∧ (withBody lang).mapM fnForm = some lx ∧ rktSx vc = some v ∧
      (∃ l, langTexts lang = some l) ∧ (∃ t, rosetteText vc = some t) ∧
      All2 (fun s g => grammarOf s = some g) (synths ++ helpers) gs ∧ ∃ forms pre post, readModule (String.ofList text) = some forms ∧
        firstQuery forms = some (pre, cs, post) ∧ pre.filterMap readGrammar = gs ∧ post = queriesForms basename rounds guesses cs ∧
        ∀ prog, (gs.map RGrammar.name).Nodup → (Completes pre prog ↔ ∃ rs cx, All2 (fun s r => ResolvesIn 10 s.body r) (synths ++ helpers) rs ∧
          (chosen (synths ++ helpers) rs).mapM fnForm = some cx ∧ prog = progForms lx cx ds u v) := by
  obtain ⟨ds, cs, lx, gs, v, hgen, hnames, hlx, hv, ht1, ht2, hgs, hread⟩ := synth_forms hok hg hb hgu hfile
  refine ⟨ds, cs, lx, gs, v, hgen, hnames, hlx, hv, ht1, ht2, hgs, _, headerForms ++ (lx ++ (gs.map gramSx ++
    ((synths ++ helpers).map holeOf ++ (ds.map rdeclSx ++ lastForms u v)))), queriesForms basename rounds guesses cs, hread, ?_, ?_, rfl, ?_⟩
  all_goals
    have p1 := plain_header
    have p2 : ∀ x ∈ lx, Plain x := by
      intro x hx
      obtain ⟨d, hd, h⟩ := mapM_forms hlx x hx
      exact plain_fn (hok.hlang d hd).1 h
    have p3 : ∀ x ∈ ds.map rdeclSx, Plain x := by
      intro x hx
      obtain ⟨d, hd, rfl⟩ := List.mem_map.1 hx
      exact plain_decl (hnames d hd)
    have p4 := plain_last u v
    have p5 : ∀ x ∈ (synths ++ helpers).map holeOf, readGrammar x = none ∧ readQuery x = none := by
      intro x hx
      obtain ⟨s, _, rfl⟩ := List.mem_map.1 hx
      exact hole_facts s
  · have := firstQuery_append (pre := headerForms ++ (lx ++ (gs.map gramSx ++ ((synths ++ helpers).map holeOf ++ (ds.map rdeclSx ++ lastForms u v)))))
      (post := (queriesForms basename rounds guesses cs).tail) (q := .list [.atom "define", .atom "sol0", .list [.atom "synthesize", .atom "#:forall",
        .list (.atom "list" :: cs.map .atom), .atom "#:guarantee", .list [.atom "assertions"]]]) (xs := cs) (by
        intro f hf
        simp only [List.mem_append] at hf
        rcases hf with hf | hf | hf | hf | hf | hf
        · exact (p1 f hf).query
        · exact (p2 f hf).query
        · obtain ⟨g, _, rfl⟩ := List.mem_map.1 hf
          exact gram_facts g
        · exact (p5 f hf).2
        · exact (p3 f hf).query
        · exact (p4 f hf).query) (by simp [readQuery, atomNames_map])
    simp only [List.append_assoc] at this ⊢
    exact this
  · simp only [List.filterMap_append, filterMap_none fun x hx => (p1 x hx).grammar, filterMap_none fun x hx => (p2 x hx).grammar, filterMap_grams,
      filterMap_none fun x hx => (p5 x hx).1, filterMap_none fun x hx => (p3 x hx).grammar, filterMap_none fun x hx => (p4 x hx).grammar,
      List.nil_append, List.append_nil]
  · intro prog hn
    have f1 : (headerForms ++ (lx ++ (gs.map gramSx ++ ((synths ++ helpers).map holeOf ++ (ds.map rdeclSx ++ lastForms u v))))).filterMap readGrammar = gs := by
      simp only [List.filterMap_append, filterMap_none fun x hx => (p1 x hx).grammar, filterMap_none fun x hx => (p2 x hx).grammar, filterMap_grams,
        filterMap_none fun x hx => (p5 x hx).1, filterMap_none fun x hx => (p3 x hx).grammar, filterMap_none fun x hx => (p4 x hx).grammar,
        List.nil_append, List.append_nil]
    have f2 : (headerForms ++ (lx ++ (gs.map gramSx ++ ((synths ++ helpers).map holeOf ++ (ds.map rdeclSx ++ lastForms u v))))).filter
        (fun f => (readGrammar f).isNone) = headerForms ++ (lx ++ ((synths ++ helpers).map holeOf ++ (ds.map rdeclSx ++ lastForms u v))) := by
      simp only [List.filter_append, filter_grams, List.nil_append]
      rw [filter_all fun x hx => by rw [(p1 x hx).grammar]; rfl, filter_all fun x hx => by rw [(p2 x hx).grammar]; rfl,
        filter_all fun x hx => by rw [(p5 x hx).1]; rfl, filter_all fun x hx => by rw [(p3 x hx).grammar]; rfl,
        filter_all fun x hx => by rw [(p4 x hx).grammar]; rfl]
    rw [Completes, f1, f2]
    constructor
    · intro h
      obtain ⟨a1, b1, rfl, h1, h⟩ := all2_append_iff.1 h
      obtain ⟨a2, b2, rfl, h2, h⟩ := all2_append_iff.1 h
      obtain ⟨a3, b3, rfl, h3, h⟩ := all2_append_iff.1 h
      obtain ⟨a4, b4, rfl, h4, h5⟩ := all2_append_iff.1 h
      rw [plain_instances p1] at h1
      rw [plain_instances p2] at h2
      rw [plain_instances p3] at h4
      rw [plain_instances p4] at h5
      subst h1 h2 h4 h5
      obtain ⟨rs, hr, hc⟩ := (hole_instances hok hn (fun s h => h) (fun g h => h) hgs).1 h3
      exact ⟨rs, a3, hr, hc, rfl⟩
    · rintro ⟨rs, cx, hr, hc, rfl⟩
      exact ((plain_instances p1).2 rfl).join (((plain_instances p2).2 rfl).join (((hole_instances hok hn (fun s h => h) (fun g h => h) hgs).2
        ⟨rs, hr, hc⟩).join (((plain_instances p3).2 rfl).join ((plain_instances p4).2 rfl))))

/-- The parts of the synthesis file. -/
theorem synth_parts {basename : String} {rounds : Nat} {guesses : List SynthFn} {lang : List FnDecl} {synths helpers : List SynthFn} {vars : List (String × VTy)} {b : Nat} {u : Bool} {vc : Expr}
    {text : List Char} (hok : SketchOk lang (synths ++ helpers) vars b vc) (hg : Guessed lang helpers) (hb : fileName basename = true) (hgu : ∀ g ∈ guesses, g ∈ synths ++ helpers)
    (hfile : synthFile basename rounds guesses lang synths helpers vars b u vc = some text) :
    ∃ ds cs lx gs v, generateVars vars b = some (ds, cs) ∧ AllNames ds ∧ (withBody lang).mapM fnForm = some lx ∧ rktSx vc = some v ∧
      (∃ l, langTexts lang = some l) ∧ (∃ t, rosetteText vc = some t) ∧
      All2 (fun s g => grammarOf s = some g) (synths ++ helpers) gs ∧ ∃ forms pre post, readModule (String.ofList text) = some forms ∧
        firstQuery forms = some (pre, cs, post) ∧ pre.filterMap readGrammar = gs ∧ post.filterMap defined = (List.range (rounds + 1)).map solName ∧
        ∀ prog, (gs.map RGrammar.name).Nodup → (Completes pre prog ↔ ∃ rs cx, All2 (fun s r => ResolvesIn 10 s.body r) (synths ++ helpers) rs ∧
          (chosen (synths ++ helpers) rs).mapM fnForm = some cx ∧ prog = progForms lx cx ds u v) := by
  obtain ⟨ds, cs, lx, gs, v, hgen, hnames, hlx, hv, ht1, ht2, hgs, forms, pre, post, hread, hq, hpre, hpost, hcomp⟩ := synth_queries hok hg hb hgu hfile
  exact ⟨ds, cs, lx, gs, v, hgen, hnames, hlx, hv, ht1, ht2, hgs, forms, pre, post, hread, hq, hpre, by rw [hpost, queries_defined], hcomp⟩

/-! ### Running the program -/

theorem runForms_then {M : Module} {n : Nat} {σ : String → Val} {gs : List SExpr} {k : REnv → Option REnv} (hk : ∀ env, runForms M n σ env gs = k env) :
    ∀ {fs : List SExpr} {env : REnv}, runForms M n σ env (fs ++ gs) = (runForms M n σ env fs).bind k
  | [], env => hk env
  | f :: fs, env => by
    rw [List.cons_append]
    unfold runForms
    split
    · split
      · exact runForms_then hk
      · rfl
    · split
      · exact runForms_then hk
      · rfl
    · rw [Option.bind_assoc]
      congr 1
      funext v
      exact runForms_then hk
    · exact runForms_then hk

theorem runForms_append {M : Module} {n : Nat} {σ : String → Val} {gs fs : List SExpr} {env : REnv} :
    runForms M n σ env (fs ++ gs) = (runForms M n σ env fs).bind fun env' => runForms M n σ env' gs := runForms_then fun _ => rfl

/-- The forms of the verification file are those of the program and a query. -/
theorem program_runs {lx cx : List SExpr} {ds : List RDecl} {u : Bool} {v : SExpr} (σ : String → Val) (M : Module) :
    ProgramRuns (headerForms ++ (lx ++ (cx ++ (ds.map rdeclSx ++ endForms u v)))) σ M ↔ ProgramRuns (progForms lx cx ds u v) σ M := by
  have e : headerForms ++ (lx ++ (cx ++ (ds.map rdeclSx ++ endForms u v))) =
      progForms lx cx ds u v ++ [.list [.atom "verify", .list [.atom "assertions"]]] := by
    simp [progForms, endForms, lastForms]
  unfold ProgramRuns runProgram
  rw [e]
  simp only [List.filterMap_append, runForms_append]
  have e1 : [SExpr.list [.atom "verify", .list [.atom "assertions"]]].filterMap defined = [] := rfl
  have e2 : [SExpr.list [.atom "verify", .list [.atom "assertions"]]].filterMap readDef = [] := rfl
  have e3 : ∀ M n σ env, runForms M n σ env [SExpr.list [.atom "verify", .list [.atom "assertions"]]] = some env := by
    intro M n σ env
    simp [runForms]
  simp only [e1, e2, e3, List.append_nil, Option.bind_fun_some]

theorem prints_text {e : Expr} : ∀ {x : SExpr}, rktSx e = some x → ∃ s, rosetteText e = some s := by
  induction e using Expr.ind with
  | hv n t => intro x _; exact ⟨_, rfl⟩
  | hl l => intro x _; exact ⟨_, rfl⟩
  | hn op t args ih =>
    intro x hx
    simp only [rktSx, Option.bind_eq_bind, Option.bind_eq_some_iff, Option.some.injEq] at hx
    obtain ⟨h, hh, xs, hxs, rfl⟩ := hx
    have : ∃ ss, All2 (fun e s => rosetteText e = some s) args ss := by
      have key : ∀ {l : List Expr} {xs : List SExpr}, (∀ a ∈ l, a ∈ args) → All2 (fun e x => rktSx e = some x) l xs →
          ∃ ss, All2 (fun e s => rosetteText e = some s) l ss := by
        intro l xs hl h
        induction h with
        | nil => exact ⟨[], .nil⟩
        | @cons a x l xs h1 _ ih2 =>
          obtain ⟨s, hs⟩ := ih a (hl a (by simp)) h1
          obtain ⟨ss, hss⟩ := ih2 fun b hb => hl b (by simp [hb])
          exact ⟨s :: ss, .cons hs hss⟩
      exact key (fun a ha => ha) (rktSxs_iff.1 hxs)
    obtain ⟨ss, hss⟩ := this
    exact ⟨nodeText op h ss, by simp only [rosetteText, hh, rosetteTexts_iff.2 hss, Option.bind_eq_bind, Option.bind_some]⟩

theorem cands_text : ∀ {cs : List FnDecl} {cx : List SExpr}, cs.mapM fnForm = some cx → ∃ s, candTexts cs = some s
  | [], _, _ => ⟨_, rfl⟩
  | d :: cs, cx, h => by
    rw [mapM_all2] at h
    cases h with
    | cons h1 h2 =>
      obtain ⟨s, hs⟩ := cands_text (mapM_all2.2 h2)
      simp only [fnForm, Option.bind_eq_bind, Option.bind_eq_some_iff, Option.some.injEq] at h1
      obtain ⟨b, hb, x, hx, _⟩ := h1
      obtain ⟨t, ht⟩ := prints_text hx
      simp [candTexts, fnText, hb, ht, hs]

/-- The program with resolutions of the sketches can be verified exactly if the verification file says so. -/
theorem program_verified {lang : List FnDecl} {ss : List SynthFn} {vars : List (String × VTy)} {b : Nat} {vc : Expr} (hok : SketchOk lang ss vars b vc)
    {rs : List Expr} (hr : All2 (fun s r => Resolves s.body r) ss rs) {ds : List RDecl} {cs : List String} (hgen : generateVars vars b = some (ds, cs))
    {lx cx : List SExpr} {v : SExpr} (hlx : (withBody lang).mapM fnForm = some lx) (hcx : (chosen ss rs).mapM fnForm = some cx) (hv : rktSx vc = some v)
    (hl : ∃ l, langTexts lang = some l) {u : Bool} :
    ∃ text, verifyFile (withBody lang) (chosen ss rs) vars b u vc = some text ∧
      (∀ σ M, Runs text σ M ↔ ProgramRuns (progForms lx cx ds u v) σ M) ∧
      (∀ τ : String → Val, ((∃ σ M, (∀ x, x ∉ cs → σ x = τ x) ∧ ProgramRuns (progForms lx cx ds u v) σ M) ∧
        ∀ σ M, (∀ x, x ∉ cs → σ x = τ x) → ProgramRuns (progForms lx cx ds u v) σ M → Passes M) ↔ Verified text) := by
  have hp := sketch_problem hok hr
  obtain ⟨l, hl⟩ := hl
  obtain ⟨c, hc⟩ := cands_text hcx
  obtain ⟨t, ht⟩ := prints_text hv
  obtain ⟨text, htext⟩ := file_exists u hp (by
    rw [langTexts_filter] at hl
    rw [show langTexts (withBody lang) = some l from hl, hc, ht]
    rfl)
  have hruns : ∀ σ M, Runs text σ M ↔ ProgramRuns (progForms lx cx ds u v) σ M := by
    intro σ M
    have htext' := htext
    simp only [verifyFile, hgen, Option.bind_eq_bind, Option.bind_some, Option.bind_eq_some_iff, Option.some.injEq] at htext'
    obtain ⟨s, hs, rfl⟩ := htext'
    have hnames : AllNames ds := by
      unfold generateVars at hgen
      refine genVars_names b _ ds cs ?_ hgen
      intro v hv
      exact (hok.hvars v ((List.mergeSort_perm vars _).mem_iff.1 hv)).2.1
    obtain ⟨lx', cx', v', h1, h2, h3, hread⟩ := file_read (sig := fileSig (chosen ss rs) (withBody lang))
      (fun f ts t h => fileSig_head (fun d hd => (hp.hfns d hd).1) h)
      (fun d hd => (hp.hfns d (by simp [hd])).1) (fun d hd => (hp.hfns d (by simp [hd])).1) hnames hp.hvc.1
      (fun y hy => by
        obtain ⟨v, hv, rfl⟩ := List.mem_map.1 (hp.hvc.2.2.2 y hy)
        exact (hp.hvars v hv).2.1) hs
    rw [hlx] at h1
    rw [hcx] at h2
    rw [hv] at h3
    cases h1
    cases h2
    cases h3
    rw [runs_program hread, program_runs]
  refine ⟨text, htext, hruns, fun τ => ?_⟩
  obtain ⟨ds', cs', x, defs, hgen', _, _, hfm, _⟩ := file_module hp htext
  rw [hgen] at hgen'
  cases hgen'
  obtain ⟨ds', cs', e, _, _, hdep, _⟩ := C24_bounded_inputs_partial b vars (fun v hv => ⟨(hok.hvars v hv).1, (hok.hvars v hv).2.2.1⟩) hok.hnodup
  rw [hgen] at e
  cases e
  have hmix : ∀ σ M, Runs text σ M → Runs text (fun x => if x ∈ cs then σ x else τ x) M := by
    intro σ M h
    rw [hfm] at h ⊢
    refine ⟨h.1, ?_⟩
    rw [← hdep σ (fun x => if x ∈ cs then σ x else τ x) fun c hc => by simp [hc]]
    exact h.2
  constructor
  · rintro ⟨⟨σ, M, _, h⟩, hall⟩
    refine ⟨⟨σ, M, (hruns σ M).2 h⟩, fun σ M h => ?_⟩
    exact hall _ M (fun x hx => by simp [hx]) ((hruns _ M).1 (hmix σ M h))
  · rintro ⟨⟨σ, M, h⟩, hall⟩
    exact ⟨⟨_, M, fun x hx => by simp [hx], (hruns _ M).1 (hmix σ M h)⟩, fun σ M _ h => hall σ M ((hruns σ M).2 h)⟩

/-! ### C61 -/

/-- The program defines the function by the printed body. -/
def Defines (prog : List SExpr) (d : FnDecl) : Prop :=
  ∃ r x, d.body = some r ∧ rktSx r = some x ∧ .list [.atom "define", .list (.atom d.name :: d.params.map fun p => .atom p.1), x] ∈ prog

theorem defines_forms {cs : List FnDecl} {cx : List SExpr} (h : cs.mapM fnForm = some cx) (hr : ∀ d ∈ cs, d.recursive = false) :
    ∀ d ∈ cs, ∀ {prog : List SExpr}, (∀ x ∈ cx, x ∈ prog) → Defines prog d := by
  intro d hd prog hsub
  obtain ⟨x, hx, h⟩ := all2_left (mapM_all2.1 h) hd
  simp only [fnForm, hr d hd, Option.bind_eq_bind, Option.bind_eq_some_iff, Option.some.injEq] at h
  obtain ⟨r, hb, y, hy, rfl⟩ := h
  exact ⟨r, y, hb, hy, hsub _ hx⟩

/-- **C61** (partial: for problems that satisfy `SketchOk`, with unbounded integers).  If Rosette is right that a program is a solution of the
synthesis query in the file written for a problem, then the program defines the functions to be synthesized by resolutions of their sketches, in
which at most ten chooses are nested, and with these definitions the verification condition holds for all values of the variables within the
bound. -/
theorem C61_solutions_partial {basename : String} {rounds : Nat} {guesses : List SynthFn} {lang : List FnDecl} {synths helpers : List SynthFn} {vars : List (String × VTy)} {b : Nat} {vc : Expr}
    {text : List Char} (hok : SketchOk lang (synths ++ helpers) vars b vc) (hg : Guessed lang helpers) (hb : fileName basename = true) (hgu : ∀ g ∈ guesses, g ∈ synths ++ helpers)
    (hfile : synthFile basename rounds guesses lang synths helpers vars b true vc = some text) {prog : List SExpr} (h : Answers text prog) :
    ∃ rs, All2 (fun s r => ResolvesIn 10 s.body r) (synths ++ helpers) rs ∧ (∀ d ∈ chosen (synths ++ helpers) rs, Defines prog d) ∧
      ∀ I, LibMeaning I → (∀ d ∈ lang, d.body.isSome = true → FnHolds I d) → (∀ d ∈ chosen (synths ++ helpers) rs, FnHolds I d) →
        ∀ ρ : Env, (∀ v ∈ vars, Shaped b v.2 (ρ v.1)) → holds I ρ vc := by
  obtain ⟨ds, cs, lx, gs, v, hgen, hnames, hlx, hv, hlt, _, hgs, forms, pre, post, hread, hq, hpre, hpost, hcomp⟩ := synth_parts hok hg hb hgu hfile
  obtain ⟨forms', pre', xs, post', hread', hq', hc, hnd, _, τ, hτ⟩ := h
  rw [hread] at hread'
  cases hread'
  rw [hq] at hq'
  cases hq'
  rw [hpre] at hnd
  have hgn : (gs.map RGrammar.name).Nodup := ((List.nodup_append.1 (List.nodup_append.1 hnd).2.1)).1
  obtain ⟨rs, cx, hr, hcx, rfl⟩ := (hcomp prog hgn).1 hc
  have hres : All2 (fun s r => Resolves s.body r) (synths ++ helpers) rs := hr.imp fun _ _ h => h.resolves
  obtain ⟨vt, hvt, _, hver⟩ := program_verified hok hres hgen hlx hcx hv hlt (u := true)
  have hver := (hver τ).1 hτ
  refine ⟨rs, hr, fun d hd => ?_, ?_⟩
  · refine defines_forms hcx (fun d hd => ?_) d hd ?_
    · obtain ⟨s, _, r, _, rfl⟩ := mem_chosen hr hd
      rfl
    · intro x hx
      simp only [progForms, List.mem_append]
      exact .inr (.inr (.inl hx))
  · intro I hI hl hc ρ hρ
    refine C54_verified_inputs_partial (sketch_problem hok hres) hvt hver hI (fun d hd => ?_) ρ hρ
    rcases List.mem_append.1 hd with hd | hd
    · exact hc d hd
    · have := List.mem_filter.1 hd
      exact hl d this.1 this.2

/-- The names of the problem are different from each other and from those that the file uses, also those of the grammars and of the query. -/
structure SketchNames (rounds : Nat) (lang : List FnDecl) (ss : List SynthFn) (vars : List (String × VTy)) : Prop where
  hnames : NamesOk (withBody lang) (ss.map fun s => SynthFn.decl s none) vars
  hgram : ∀ x ∈ (withBody lang).map FnDecl.name ++ (ss.map (fun s : SynthFn => s.name) ++ vars.map Prod.fst), (∀ i ≤ rounds, x ≠ solName i) ∧
    ∀ s ∈ ss, x ≠ s.name ++ "_gram"

theorem chosen_names {R : SynthFn → Expr → Prop} {ss : List SynthFn} {rs : List Expr} (h : All2 R ss rs) :
    (chosen ss rs).map FnDecl.name = ss.map (fun s : SynthFn => s.name) ∧ (chosen ss rs).map FnDecl.params = ss.map (fun s : SynthFn => s.params) := by
  induction h with
  | nil => exact ⟨rfl, rfl⟩
  | cons _ _ ih =>
    simp only [chosen, List.zipWith_cons_cons, List.map_cons, SynthFn.decl] at ih ⊢
    rw [ih.1, ih.2]
    exact ⟨rfl, rfl⟩

theorem chosen_namesOk {rounds : Nat} {lang : List FnDecl} {ss : List SynthFn} {vars : List (String × VTy)} (hn : SketchNames rounds lang ss vars) {R : SynthFn → Expr → Prop}
    {rs : List Expr} (h : All2 R ss rs) : NamesOk (withBody lang) (chosen ss rs) vars := by
  have e : (chosen ss rs).map FnDecl.name = (ss.map fun s => SynthFn.decl s none).map FnDecl.name := by
    rw [(chosen_names h).1, List.map_map]
    rfl
  have hmem : ∀ d ∈ chosen ss rs ++ withBody lang, ∃ d' ∈ ss.map (fun s => SynthFn.decl s none) ++ withBody lang, d'.name = d.name ∧ d'.params = d.params := by
    intro d hd
    rcases List.mem_append.1 hd with hd | hd
    · obtain ⟨s, hs, r, _, rfl⟩ := mem_chosen h hd
      exact ⟨SynthFn.decl s none, by simp only [List.mem_append]; exact .inl (List.mem_map_of_mem hs), rfl, rfl⟩
    · exact ⟨d, by simp [hd], rfl, rfl⟩
  refine ⟨?_, ?_, ?_, hn.hnames.hvis, ?_⟩
  · rw [e]
    exact hn.hnames.hdiff
  · rw [e]
    exact hn.hnames.hfree
  · intro d hd
    obtain ⟨d', hd', e1, _⟩ := hmem d hd
    rw [← e1]
    exact hn.hnames.hfns d' hd'
  · intro d hd p hp
    obtain ⟨d', hd', _, e2⟩ := hmem d hd
    rw [← e2] at hp
    rw [List.map_append, e, ← List.map_append]
    exact hn.hnames.hparams d' hd' p hp

theorem resolutions_print {lang : List FnDecl} {ss : List SynthFn} {vars : List (String × VTy)} {b : Nat} {vc : Expr} (hok : SketchOk lang ss vars b vc) :
    ∀ {l : List SynthFn} {gl : List RGrammar} {rs : List Expr}, (∀ s ∈ l, s ∈ ss) → All2 (fun s g => grammarOf s = some g) l gl →
      All2 (fun s r => Resolves s.body r) l rs → ∃ cx, (chosen l rs).mapM fnForm = some cx := by
  intro l gl rs hl hg hr
  induction hr generalizing gl with
  | nil => exact ⟨[], rfl⟩
  | @cons s r l rs h1 _ ih =>
    cases hg with
    | cons g1 g2 =>
      obtain ⟨cx, hcx⟩ := ih (fun t ht => hl t (by simp [ht])) g2
      obtain ⟨h2, _⟩ := hok.hsketch s (hl s (by simp))
      obtain ⟨x, ys, hx, hys, _⟩ := grammarOf_some g1
      obtain ⟨y, hy⟩ := resolution_prints h2.hclash h2.hsort hys s.body .refl x hx r h1
      obtain ⟨z, hz⟩ : ∃ z, fnForm (SynthFn.decl s (some r)) = some z := by
        simp [fnForm, SynthFn.decl, hy]
      exact ⟨z :: cx, mapM_all2.2 (.cons hz (mapM_all2.1 hcx))⟩

theorem grammar_names {ss : List SynthFn} {gs : List RGrammar} (h : All2 (fun s g => grammarOf s = some g) ss gs) :
    gs.map RGrammar.name = ss.map fun s => s.name ++ "_gram" := by
  induction h with
  | nil => rfl
  | cons h1 _ ih =>
    obtain ⟨x, ys, _, _, rfl⟩ := grammarOf_some h1
    rw [List.map_cons, List.map_cons, ih]

theorem no_gram : (("assertions" :: (imported ++ definingForms)).all fun s => !"_gram".toList.isSuffixOf s.toList) = true := by decide +kernel

theorem gram_free {n s : String} (h : s ∈ "assertions" :: (imported ++ definingForms)) : n ++ "_gram" ≠ s := by
  rintro rfl
  have := List.all_eq_true.1 no_gram _ h
  rw [Bool.not_eq_true', String.toList_append] at this
  have h2 : "_gram".toList.isSuffixOf (n.toList ++ "_gram".toList) = true := List.isSuffixOf_iff_suffix.2 (List.suffix_append _ _)
  rw [h2] at this
  cases this

theorem gram_sol (n : String) (i : Nat) : n ++ "_gram" ≠ solName i := by
  intro h
  have h := congrArg (fun s : String => s.toList.getLast?) h
  simp only [String.toList_append, solName_toList] at h
  rw [show "_gram".toList = ['_', 'g', 'r', 'a', 'm'] from rfl] at h
  obtain ⟨c, hc⟩ : ∃ c, i.repr.toList.getLast? = some c := by
    cases e : i.repr.toList with
    | nil => exact absurd e (repr_ne_nil i)
    | cons a l => exact ⟨_, List.getLast?_eq_some_getLast (by simp)⟩
  have hd := repr_digits i c (List.mem_of_getLast? hc)
  have h2 : ('s' :: 'o' :: 'l' :: i.repr.toList).getLast? = some c := by
    rw [show ('s' :: 'o' :: 'l' :: i.repr.toList) = ['s', 'o', 'l'] ++ i.repr.toList from rfl, List.getLast?_append, hc]
    rfl
  rw [h2, List.getLast?_append] at h
  have : c = 'm' := by simpa using h.symm
  subst this
  exact absurd hd (by decide)

theorem no_sol : (("assertions" :: (imported ++ definingForms)).all fun s => !("sol".toList.isPrefixOf s.toList && (s.toList.drop 3).all Char.isDigit)) = true := by
  decide +kernel

theorem sol_free {i : Nat} {s : String} (h : s ∈ "assertions" :: (imported ++ definingForms)) : solName i ≠ s := by
  rintro rfl
  have := List.all_eq_true.1 no_sol _ h
  rw [solName_toList] at this
  have h2 : (List.drop 3 ('s' :: 'o' :: 'l' :: i.repr.toList)).all Char.isDigit = true := List.all_eq_true.2 (repr_digits i)
  rw [h2] at this
  revert this
  simp [List.isPrefixOf]

theorem solName_inj {i j : Nat} (h : solName i = solName j) : i = j := by
  have := congrArg String.toList h
  rw [solName_toList, solName_toList] at this
  simp only [List.cons.injEq, true_and] at this
  have := numeral_repr i ▸ congrArg numeral this
  rwa [numeral_repr] at this

/-- The names of the program, the grammars and the query do not clash. -/
theorem synth_names {rounds : Nat} {lang : List FnDecl} {ss : List SynthFn} {vars : List (String × VTy)} (hn : SketchNames rounds lang ss vars) {R : SynthFn → Expr → Prop}
    {rs : List Expr} (hr : All2 R ss rs) {ds : List RDecl} (hown : ∀ m ∈ defNames ds, ∃ v ∈ vars, Under v.1 m) (hdn : (defNames ds).Nodup)
    {gs : List RGrammar} (hgs : All2 (fun s g => grammarOf s = some g) ss gs) :
    (((withBody lang).map FnDecl.name ++ ((chosen ss rs).map FnDecl.name ++ (defNames ds ++ ["assertions"]))) ++
      (gs.map RGrammar.name ++ (List.range (rounds + 1)).map solName)).Nodup ∧
      ∀ x ∈ gs.map RGrammar.name ++ (List.range (rounds + 1)).map solName, x ∉ imported ∧ x ∉ definingForms := by
  have hcond := names_cond (chosen_namesOk hn hr) hown hdn
  rw [grammar_names hgs]
  have hss : (ss.map fun s : SynthFn => s.name).Nodup := by
    have := hn.hnames.hdiff
    rw [List.nodup_append, List.nodup_append] at this
    have h2 := this.2.1.1
    rwa [List.map_map] at h2
  constructor
  · rw [List.nodup_append]
    refine ⟨hcond.1, ?_, ?_⟩
    · rw [List.nodup_append]
      refine ⟨?_, List.nodup_range.map fun i j h => solName_inj h, ?_⟩
      · have : (ss.map fun s : SynthFn => s.name ++ "_gram") = (ss.map fun s : SynthFn => s.name).map fun n => n ++ "_gram" := by
          rw [List.map_map]
          rfl
        rw [this]
        refine hss.map fun a b e => ?_
        have := congrArg String.toList e
        simp only [String.toList_append] at this
        exact String.toList_inj.1 (List.append_cancel_right this)
      · intro a ha b hb
        obtain ⟨s, _, rfl⟩ := List.mem_map.1 ha
        obtain ⟨i, _, rfl⟩ := List.mem_map.1 hb
        exact gram_sol _ _
    · intro a ha b hb
      have hcase : (a ∈ (withBody lang).map FnDecl.name ++ (ss.map (fun s : SynthFn => s.name) ++ vars.map Prod.fst)) ∨ '-' ∈ a.toList ∨ a = "assertions" := by
        simp only [List.mem_append] at ha ⊢
        rcases ha with ha | ha | ha | ha
        · exact .inl (.inl ha)
        · rw [(chosen_names hr).1] at ha
          exact .inl (.inr (.inl ha))
        · obtain ⟨v, hv, hu⟩ := hown a ha
          rcases under_new hu with rfl | h
          · exact .inl (.inr (.inr (List.mem_map_of_mem hv)))
          · exact .inr (.inl h.2.2.2.2)
        · exact .inr (.inr (List.mem_singleton.1 ha))
      rcases List.mem_append.1 hb with hb | hb
      · obtain ⟨s, hs, rfl⟩ := List.mem_map.1 hb
        rcases hcase with h | h | rfl
        · exact (hn.hgram a h).2 s hs
        · rintro rfl
          have h1 : '-' ∉ s.name.toList := hn.hnames.hfns (SynthFn.decl s none) (by simp only [List.mem_append]; exact .inl (List.mem_map_of_mem hs))
          rw [String.toList_append, List.mem_append] at h
          rcases h with h | h
          · exact h1 h
          · exact absurd h (by decide)
        · exact (gram_free (by simp)).symm
      · obtain ⟨i, hi, rfl⟩ := List.mem_map.1 hb
        rcases hcase with h | h | rfl
        · exact (hn.hgram a h).1 i (by have := List.mem_range.1 hi; omega)
        · rintro rfl
          rw [solName_toList] at h
          simp only [List.mem_cons] at h
          rcases h with h | h | h | h
          · exact absurd h (by decide)
          · exact absurd h (by decide)
          · exact absurd h (by decide)
          · exact absurd (repr_digits i _ h) (by decide)
        · exact (sol_free (by simp)).symm
  · intro x hx
    rcases List.mem_append.1 hx with hx | hx
    · obtain ⟨s, _, rfl⟩ := List.mem_map.1 hx
      exact ⟨fun h => gram_free (n := s.name) (s := s.name ++ "_gram") (by simp [h]) rfl, fun h => gram_free (n := s.name) (s := s.name ++ "_gram") (by simp [h]) rfl⟩
    · obtain ⟨i, _, rfl⟩ := List.mem_map.1 hx
      exact ⟨fun h => sol_free (i := i) (s := solName i) (by simp [h]) rfl, fun h => sol_free (i := i) (s := solName i) (by simp [h]) rfl⟩

theorem last_forms (u : Bool) (v : SExpr) : (lastForms u v).filterMap defined = ["assertions"] := by cases u <;> rfl

/-- **C61**, the other direction (partial: as before, and for problems with suitable names whose condition can be computed within the bound on
recursion, without remainders by zero).  Resolutions of the sketches in which at most ten chooses are nested and with which the verification
condition holds for all values of the variables within the bound are a solution of the query. -/
theorem C61_found_partial {basename : String} {rounds : Nat} {guesses : List SynthFn} {lang : List FnDecl} {synths helpers : List SynthFn} {vars : List (String × VTy)} {b : Nat} {vc : Expr}
    {text : List Char} (hok : SketchOk lang (synths ++ helpers) vars b vc) (hg : Guessed lang helpers) (hb : fileName basename = true) (hgu : ∀ g ∈ guesses, g ∈ synths ++ helpers)
    (hn : SketchNames rounds lang (synths ++ helpers) vars) (hfile : synthFile basename rounds guesses lang synths helpers vars b true vc = some text) {rs : List Expr}
    (hr : All2 (fun s r => ResolvesIn 10 s.body r) (synths ++ helpers) rs) {I : Interp} (hI : LibMeaning I)
    (hl : ∀ d ∈ lang, d.body.isSome = true → FnHolds I d) (hc : ∀ d ∈ chosen (synths ++ helpers) rs, FnHolds I d)
    (hsafe : ∀ ρ : Env, (∀ v ∈ vars, Shaped b v.2 (ρ v.1)) → Safe I (chosen (synths ++ helpers) rs ++ withBody lang) 64 ρ vc)
    (hholds : ∀ ρ : Env, (∀ v ∈ vars, Shaped b v.2 (ρ v.1)) → holds I ρ vc) :
    ∃ prog, Answers text prog ∧ ∀ d ∈ chosen (synths ++ helpers) rs, Defines prog d := by
  obtain ⟨ds, cs, lx, gs, v, hgen, hnames, hlx, hv, hlt, _, hgs, forms, pre, post, hread, hq, hpre, hpost, hcomp⟩ := synth_parts hok hg hb hgu hfile
  have hres : All2 (fun s r => Resolves s.body r) (synths ++ helpers) rs := hr.imp fun _ _ h => h.resolves
  obtain ⟨cx, hcx⟩ := resolutions_print hok (fun s h => h) hgs hres
  have hp := sketch_problem hok hres
  obtain ⟨hown, hdn, _⟩ := vars_block (fun v hv => ⟨(hok.hvars v hv).1, (hok.hvars v hv).2.2.1⟩) hok.hnodup hgen
  obtain ⟨n1, n2⟩ := synth_names hn hres hown hdn hgs
  obtain ⟨vt, hvt, _, hver⟩ := program_verified hok hres hgen hlx hcx hv hlt (u := true)
  have hgn : (gs.map RGrammar.name).Nodup := (List.nodup_append.1 (List.nodup_append.1 n1).2.1).1
  have hdefd : (progForms lx cx ds true v).filterMap defined =
      (withBody lang).map FnDecl.name ++ ((chosen (synths ++ helpers) rs).map FnDecl.name ++ (defNames ds ++ ["assertions"])) := by
    obtain ⟨_, _, _, l3, _⟩ := readDefs_fns (fun d hd => (hp.hfns d (by simp [hd])).1) hlx
    obtain ⟨_, _, _, c3, _⟩ := readDefs_fns (fun d hd => (hp.hfns d (by simp [hd])).1) hcx
    simp only [progForms, List.filterMap_append, header_forms.2.1, l3, c3, (decls_forms ds).2, last_forms, List.nil_append]
  refine ⟨progForms lx cx ds true v, ⟨forms, pre, cs, post, hread, hq, (hcomp _ hgn).2 ⟨rs, cx, hr, hcx, rfl⟩, ?_, ?_, fun _ => .int 0, ?_⟩, ?_⟩
  · rw [hpre, hpost, hdefd]
    exact n1
  · rw [hpre, hpost]
    exact n2
  · refine (hver _).2 ((C54_verified_iff_partial hp (chosen_namesOk hn hres) hvt hI (fun d hd => ?_) hsafe).2 hholds)
    rcases List.mem_append.1 hd with hd | hd
    · exact hc d hd
    · have := List.mem_filter.1 hd
      exact hl d this.1 this.2
  · intro d hd
    refine defines_forms hcx (fun d hd => ?_) d hd ?_
    · obtain ⟨s, _, r, _, rfl⟩ := mem_chosen hr hd
      rfl
    · intro x hx
      simp only [progForms, List.mem_append]
      exact .inr (.inr (.inl hx))

/-- If no sketch nests more than ten chooses then all its resolutions are within the reach of the query. -/
theorem C61_all_resolutions {ss : List SynthFn} (h : ∀ s ∈ ss, chooseDepth s.body ≤ 10) (rs : List Expr) :
    All2 (fun s r => ResolvesIn 10 s.body r) ss rs ↔ All2 (fun s r => Resolves s.body r) ss rs :=
  ⟨fun hr => hr.imp fun _ _ h => h.resolves, fun hr => hr.imp_mem fun s hs _ hres => hres.resolvesIn 10 (h s hs)⟩

end Rkt
end Metalift
