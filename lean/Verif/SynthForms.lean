import Verif.SynthExpand
import Verif.PRosetteFileEx
/-
The programs that the synthesis file stands for are the verification files of the resolutions of the sketches.
-/
namespace Metalift
namespace Rkt
open Smt (OfTy OfTys FnHolds paramEnv)

/-- The function defined by a sketch when its body is `b`. -/
def SynthFn.decl (s : SynthFn) (b : Option Expr) : FnDecl := ⟨s.name, s.body.ty, s.params, b, false⟩

/-- The functions defined by the sketches when their bodies are `rs`. -/
def chosen (ss : List SynthFn) (rs : List Expr) : List FnDecl := List.zipWith (fun s r => SynthFn.decl s (some r)) ss rs

/-- The functions of the target language that have a body. -/
def withBody (lang : List FnDecl) : List FnDecl := lang.filter fun d => d.body.isSome

/-- The signatures of the functions of the file. -/
def sketchSig (lang : List FnDecl) (ss : List SynthFn) : Sigs := fileSig (ss.map fun s => SynthFn.decl s none) (withBody lang)

/-- What is required of the problem (see `ProblemOk`): in addition, the sketches are well typed and none of the names is one of those with a
meaning in grammars. -/
structure SketchOk (lang : List FnDecl) (ss : List SynthFn) (vars : List (String × VTy)) (b : Nat) (vc : Expr) : Prop where
  hvars : ∀ v ∈ vars, v.2.Supported b ∧ rktName v.1 = true ∧ '-' ∉ v.1.toList ∧ v.1 ∉ dataHeads
  hnodup : (vars.map Prod.fst).Nodup
  hlang : ∀ d ∈ withBody lang, fnOk (sketchSig lang ss) d = true ∧ d.name ∉ dataHeads ∧ (∀ b, d.body = some b → arithOk b = true) ∧ ntName d.name = false
  hsketch : ∀ s ∈ ss, SketchFn (sketchSig lang ss) s ∧ s.name ∉ dataHeads ∧ arithOk s.body = true ∧ ntName s.name = false ∧
    ∀ p ∈ s.params, ntName p.1 = false
  hvc : vc.sorted (varTypes vars) (sketchSig lang ss) = true ∧ arithOk vc = true ∧ vc.ty = .bool ∧ ∀ x ∈ vc.vars, x ∈ vars.map Prod.fst

theorem chosen_sig (lang : List FnDecl) {R : SynthFn → Expr → Prop} {ss : List SynthFn} {rs : List Expr} (h : All2 R ss rs) :
    fileSig (chosen ss rs) (withBody lang) = sketchSig lang ss := by
  have key : langSig (chosen ss rs ++ withBody lang) = langSig (ss.map (fun s => SynthFn.decl s none) ++ withBody lang) := by
    funext f
    induction h with
    | nil => rfl
    | @cons s r ss rs _ _ ih =>
      simp only [langSig, chosen, List.zipWith_cons_cons, List.map_cons, List.cons_append, List.find?_cons] at ih ⊢
      by_cases e : s.name = f
      · simp [SynthFn.decl, e]
      · have e' : (s.name == f) = false := beq_false_of_ne e
        simp only [SynthFn.decl, e']
        exact ih
  unfold sketchSig fileSig
  rw [key]

theorem mem_chosen {R : SynthFn → Expr → Prop} {ss : List SynthFn} {rs : List Expr} (h : All2 R ss rs) {d : FnDecl} (hd : d ∈ chosen ss rs) :
    ∃ s ∈ ss, ∃ r, R s r ∧ d = SynthFn.decl s (some r) := by
  induction h with
  | nil => cases hd
  | @cons s r ss rs h1 _ ih =>
    rcases List.mem_cons.1 hd with rfl | hd
    · exact ⟨s, by simp, r, h1, rfl⟩
    · obtain ⟨s, hs, r, h⟩ := ih hd
      exact ⟨s, by simp [hs], r, h⟩

/-- Every choice of resolutions of the sketches makes a problem of verification. -/
theorem sketch_problem {lang : List FnDecl} {ss : List SynthFn} {vars : List (String × VTy)} {b : Nat} {vc : Expr} (hok : SketchOk lang ss vars b vc)
    {rs : List Expr} (hr : All2 (fun s r => Resolves s.body r) ss rs) : ProblemOk (withBody lang) (chosen ss rs) vars b vc where
  hvars := hok.hvars
  hnodup := hok.hnodup
  hvc := by rw [chosen_sig lang hr]; exact hok.hvc
  hfns := by
    intro d hd
    rw [chosen_sig lang hr]
    rcases List.mem_append.1 hd with hd | hd
    · obtain ⟨s, hs, r, hres, rfl⟩ := mem_chosen hr hd
      obtain ⟨h1, h2, h3, _⟩ := hok.hsketch s hs
      refine ⟨?_, h2, fun b hb => ?_⟩
      · simp only [fnOk, SynthFn.decl, Bool.and_eq_true, List.all_eq_true]
        exact ⟨⟨⟨⟨sketch_res_sorted hres h1.hsort, fun x hx => decide_eq_true (h1.hvars x (sketch_res_vars hres x hx))⟩, h1.hname⟩, h1.hparams⟩,
          decide_eq_true h1.hnodup⟩
      · cases hb
        exact sketch_res_arith hres h1.hsort h3
    · exact ⟨(hok.hlang d hd).1, (hok.hlang d hd).2.1, (hok.hlang d hd).2.2.1⟩

theorem prims_nt : (primTable.all fun p => !ntName p.1) = true := by decide +kernel

theorem sketchSig_nt {lang : List FnDecl} {ss : List SynthFn} {vars : List (String × VTy)} {b : Nat} {vc : Expr} (hok : SketchOk lang ss vars b vc)
    {f : String} {ts : List Ty} {t : Ty} (h : sketchSig lang ss f = some (ts, t)) : ntName f = false := by
  rcases fileSig_some h with ⟨d, hd, rfl, _⟩ | hp
  · rcases List.mem_append.1 hd with hd | hd
    · obtain ⟨s, hs, rfl⟩ := List.mem_map.1 hd
      exact (hok.hsketch s hs).2.2.2.1
    · exact (hok.hlang d hd).2.2.2
  · have := List.all_eq_true.1 prims_nt _ (lookup_mem hp)
    simpa using this

theorem sketchSig_head {lang : List FnDecl} {ss : List SynthFn} {vars : List (String × VTy)} {b : Nat} {vc : Expr} (hok : SketchOk lang ss vars b vc)
    {f : String} {ts : List Ty} {t : Ty} (h : sketchSig lang ss f = some (ts, t)) : headOk f = true := by
  rcases fileSig_some h with ⟨d, hd, rfl, _⟩ | hp
  · rcases List.mem_append.1 hd with hd | hd
    · obtain ⟨s, hs, rfl⟩ := List.mem_map.1 hd
      have := (hok.hsketch s hs).1.hname.1
      simp only [headOk, Bool.and_eq_true]
      exact ⟨rktName_good this, rktName_clean this⟩
    · have := (hok.hlang d hd).1
      unfold fnOk at this
      split at this
      · cases this
      · simp only [Bool.and_eq_true] at this
        simp only [headOk, Bool.and_eq_true]
        exact ⟨rktName_good this.1.1.2.1, rktName_clean this.1.1.2.1⟩
  · exact (prim_ok hp).choose_spec.2.1

/-! ### Forms that are not calls of grammars -/

theorem not_depth_lit (l : Lit) : litText l ≠ "#:depth" := by
  intro e
  have := lit_good l
  rw [e] at this
  cases l with
  | int i =>
    have h := congrArg (fun s => s.toList.head?) e
    have hd : ∀ n : Nat, ∃ c cs, n.repr.toList = c :: cs ∧ c.isDigit = true := by
      intro n
      cases h : n.repr.toList with
      | nil => exact absurd h (repr_ne_nil n)
      | cons c cs => exact ⟨c, cs, rfl, repr_digits n c (by simp [h])⟩
    simp only [litText] at h
    split at h
    · rw [String.toList_append, show "-".toList = ['-'] from by decide, show "#:depth".toList.head? = some '#' from by decide] at h
      exact absurd (Option.some.inj h) (by decide)
    · obtain ⟨c, cs, e, hc⟩ := hd i.natAbs
      rw [e] at h
      simp only [List.head?_cons] at h
      have : c = '#' := by
        have h2 : "#:depth".toList.head? = some '#' := by decide
        rw [h2] at h
        exact Option.some.inj h
      subst this
      exact absurd hc (by decide)
  | bool b => cases b <;> exact absurd e (by decide)

theorem not_depth_name {x : String} (h : rktName x = true) : x ≠ "#:depth" := by
  rintro rfl
  exact absurd h (by decide +kernel)

theorem call_depth {g : String} {as : List SExpr} {k : SExpr} {h : SExpr} {xs : List SExpr} (e : SExpr.list (h :: xs) = grammarCall g as k) :
    .atom "#:depth" ∈ xs := by
  simp only [grammarCall, SExpr.list.injEq, List.cons.injEq] at e
  rw [e.2]
  simp

theorem rkt_no_call {e : Expr} {x : SExpr} (hx : rktSx e = some x) (hv : ∀ y ∈ e.vars, rktName y = true) (g : String) (as : List SExpr) (k : SExpr) :
    x ≠ grammarCall g as k := by
  intro he
  cases e with
  | var n t => cases hx; cases he
  | lit l => cases hx; cases he
  | node op t args =>
    simp only [rktSx, Option.bind_eq_bind, Option.bind_eq_some_iff, Option.some.injEq] at hx
    obtain ⟨h, _, xs, hxs, rfl⟩ := hx
    obtain ⟨a, ha, hax⟩ := all2_right (rktSxs_iff.1 hxs) (call_depth he)
    cases a with
    | var n t =>
      simp only [rktSx, Option.some.injEq, SExpr.atom.injEq] at hax
      exact not_depth_name (hv n (by simp only [Expr.vars]; exact Expr.mem_varss.2 ⟨_, ha, by simp [Expr.vars]⟩)) hax
    | lit l =>
      simp only [rktSx, Option.some.injEq, SExpr.atom.injEq] at hax
      exact not_depth_lit l hax
    | node op t args =>
      simp only [rktSx, Option.bind_eq_bind, Option.bind_eq_some_iff, Option.some.injEq] at hax
      obtain ⟨_, _, _, _, h⟩ := hax
      cases h

theorem rexpSxs_mem : ∀ {es : List RExp} {x : SExpr}, x ∈ rexpSxs es → ∃ e ∈ es, x = rexpSx e
  | [], _, h => by cases h
  | e :: es, x, h => by
    rcases List.mem_cons.1 h with rfl | h
    · exact ⟨e, by simp, rfl⟩
    · obtain ⟨e', h1, h2⟩ := rexpSxs_mem h
      exact ⟨e', by simp [h1], h2⟩

theorem rexpNamess_mem : ∀ {es : List RExp} {e : RExp} {x : String}, e ∈ es → x ∈ rexpNames e → x ∈ rexpNamess es
  | e' :: es, e, x, h, hx => by
    simp only [rexpNamess, List.mem_append]
    rcases List.mem_cons.1 h with rfl | h
    · exact .inl hx
    · exact .inr (rexpNamess_mem h hx)

theorem rexp_not_depth {e : RExp} (hn : ∀ x ∈ rexpNames e, rktName x = true) : rexpSx e ≠ .atom "#:depth" := by
  intro h
  cases e with
  | id s =>
    simp only [rexpSx, SExpr.atom.injEq] at h
    exact not_depth_name (hn s (by simp [rexpNames])) h
  | list es => cases h
  | take e n => cases h
  | sortDedup e => cases h

theorem rexp_no_call {e : RExp} (hn : ∀ x ∈ rexpNames e, rktName x = true) (g : String) (as : List SExpr) (k : SExpr) : rexpSx e ≠ grammarCall g as k := by
  intro h
  cases e with
  | id s => cases h
  | list es =>
    obtain ⟨e, he, hx⟩ := rexpSxs_mem (call_depth h)
    exact rexp_not_depth (fun x hx => hn x (by simp only [rexpNames]; exact rexpNamess_mem he hx)) hx.symm
  | take e n =>
    have := call_depth h
    simp only [List.mem_cons, List.not_mem_nil, or_false] at this
    rcases this with h | h
    · exact rexp_not_depth (fun x hx => hn x (by simp [rexpNames, hx])) h.symm
    · simp only [SExpr.atom.injEq] at h
      exact not_depth_name (hn n (by simp [rexpNames])) h.symm
  | sortDedup e =>
    have := call_depth h
    simp only [List.mem_cons, List.not_mem_nil, or_false] at this
    rcases this with h | h
    · cases h
    · simp only [SExpr.atom.injEq] at h
      exact absurd h (by decide)

/-- The form is neither a definition by the call of a grammar, nor a grammar, nor a query. -/
structure Plain (x : SExpr) : Prop where
  call : ∀ f g as k, x ≠ .list [.atom "define", f, grammarCall g as k]
  grammar : readGrammar x = none
  query : readQuery x = none

theorem plain_head {h : String} {xs : List SExpr} (h1 : h ≠ "define") (h2 : h ≠ "define-grammar") : Plain (.list (.atom h :: xs)) where
  call := by
    intro f g as k e
    simp only [SExpr.list.injEq, List.cons.injEq, SExpr.atom.injEq] at e
    exact h1 e.1
  grammar := by
    unfold readGrammar
    split
    · next e =>
      simp only [SExpr.list.injEq, List.cons.injEq, SExpr.atom.injEq] at e
      exact absurd e.1 h2
    · rfl
  query := by
    unfold readQuery
    split
    · next e =>
      simp only [SExpr.list.injEq, List.cons.injEq, SExpr.atom.injEq] at e
      exact absurd e.1 h1
    · rfl

theorem plain_def {f : List SExpr} {x : SExpr} (h : ∀ g as k, x ≠ grammarCall g as k) : Plain (.list [.atom "define", .list f, x]) where
  call := by
    intro f g as k e
    simp only [SExpr.list.injEq, List.cons.injEq, and_true] at e
    exact h g as k e.2.2
  grammar := by simp [readGrammar]
  query := by simp [readQuery]

theorem plain_data {f : String} {x : SExpr} (h : ∀ g as k, x ≠ grammarCall g as k) (hq : ∀ xs, x ≠ .list (.atom "synthesize" :: xs)) :
    Plain (.list [.atom "define", .atom f, x]) where
  call := by
    intro f g as k e
    simp only [SExpr.list.injEq, List.cons.injEq, and_true] at e
    exact h g as k e.2.2
  grammar := by simp [readGrammar]
  query := by
    unfold readQuery
    split
    · next e =>
      simp only [SExpr.list.injEq, List.cons.injEq, and_true] at e
      exact absurd e.2.2 (hq _)
    · rfl

theorem plain_header : ∀ x ∈ headerForms, Plain x := by
  intro x hx
  simp only [headerForms, List.mem_cons, List.not_mem_nil, or_false] at hx
  rcases hx with rfl | rfl | rfl | rfl | rfl <;> exact plain_head (by decide) (by decide)

theorem plain_fn {sig : Sigs} {d : FnDecl} {x : SExpr} (hd : fnOk sig d = true) (hx : fnForm d = some x) : Plain x := by
  simp only [fnForm, Option.bind_eq_bind, Option.bind_eq_some_iff, Option.some.injEq] at hx
  obtain ⟨b, hb, y, hy, rfl⟩ := hx
  simp only [fnOk, hb, Bool.and_eq_true, List.all_eq_true, decide_eq_true_eq] at hd
  split
  · exact plain_head (by decide) (by decide)
  · refine plain_def (rkt_no_call hy fun z hz => ?_)
    obtain ⟨p, hp, rfl⟩ := List.mem_map.1 (hd.1.1.1.2 z hz)
    exact hd.1.2 p hp

theorem plain_decl {d : RDecl} (h : ∀ x ∈ rdeclNames d, rktName x = true) : Plain (rdeclSx d) := by
  cases d with
  | symInt n => exact plain_head (by decide) (by decide)
  | symBool n => exact plain_head (by decide) (by decide)
  | define n e =>
    refine plain_data (rexp_no_call fun x hx => h x (by simp [rdeclNames, hx])) ?_
    intro xs he
    cases e <;> simp [rexpSx] at he

theorem plain_last (u : Bool) (v : SExpr) : ∀ x ∈ lastForms u v, Plain x := by
  intro x hx
  simp only [lastForms, List.mem_cons, List.not_mem_nil, or_false] at hx
  rcases hx with rfl | rfl
  · exact plain_head (by decide) (by decide)
  · refine plain_def ?_
    intro g as k e
    simp only [grammarCall, SExpr.list.injEq, List.cons.injEq] at e
    have := congrArg List.length e.2
    simp at this

theorem plain_instance {gs : List RGrammar} {x y : SExpr} (h : Plain x) : Instance gs x y ↔ y = x := by
  constructor
  · intro hi
    cases hi with
    | hole => exact absurd rfl (h.call _ _ _ _)
    | other => rfl
  · rintro rfl
    exact .other h.call

theorem plain_instances {gs : List RGrammar} {xs ys : List SExpr} (h : ∀ x ∈ xs, Plain x) : All2 (Instance gs) xs ys ↔ ys = xs := by
  induction xs generalizing ys with
  | nil => exact ⟨fun h => by cases h; rfl, fun h => by subst h; exact .nil⟩
  | cons x xs ih =>
    constructor
    · intro ha
      cases ha with
      | cons h1 h2 =>
        rw [(plain_instance (h x (by simp))).1 h1, (ih fun z hz => h z (by simp [hz])).1 h2]
    · rintro rfl
      exact .cons ((plain_instance (h x (by simp))).2 rfl) ((ih fun z hz => h z (by simp [hz])).2 rfl)

/-! ### Holes -/

theorem hole_facts (s : SynthFn) : readGrammar (holeOf s) = none ∧ readQuery (holeOf s) = none := by
  constructor
  · simp [holeOf, holeForm, readGrammar]
  · simp [holeOf, holeForm, readQuery]

theorem gram_facts (g : RGrammar) : readQuery (gramSx g) = none := by
  unfold readQuery gramSx
  split
  · next e =>
    simp only [SExpr.list.injEq, List.cons.injEq, SExpr.atom.injEq] at e
    exact absurd e.1 (by decide)
  · rfl

theorem grammarOf_some {s : SynthFn} {g : RGrammar} (h : grammarOf s = some g) : ∃ x ys, holeSx (commonExprs s.body) s.body = some x ∧
    All2 (fun c y => altSx (commonExprs s.body) c = some y) (commonExprs s.body) ys ∧
    g = ⟨s.name ++ "_gram", s.params.map fun p => .atom p.1, prodsOf x ys⟩ := by
  simp only [grammarOf, Option.bind_eq_bind, Option.bind_eq_some_iff, Option.some.injEq] at h
  obtain ⟨x, hx, ys, hys, rfl⟩ := h
  exact ⟨x, ys, hx, mapM_all2.1 hys, rfl⟩

/-- What a hole stands for: definitions of the function by the printed resolutions of its sketch. -/
theorem hole_instance {lang : List FnDecl} {ss : List SynthFn} {vars : List (String × VTy)} {b : Nat} {vc : Expr} (hok : SketchOk lang ss vars b vc)
    {gs : List RGrammar} (hn : (gs.map RGrammar.name).Nodup) {s : SynthFn} (hs : s ∈ ss) {g : RGrammar} (hg : g ∈ gs) (hgs : grammarOf s = some g)
    {y : SExpr} : Instance gs (holeOf s) y ↔ ∃ r, ResolvesIn 10 s.body r ∧ fnForm (SynthFn.decl s (some r)) = some y := by
  obtain ⟨h1, _, _, _, hp⟩ := hok.hsketch s hs
  obtain ⟨x, ys, hx, hys, rfl⟩ := grammarOf_some hgs
  have hexp : ∀ z, Expand (prodsOf x ys) 10 (.list [.atom "choose", x]) z ↔ ∃ r, ResolvesIn 10 s.body r ∧ rktSx r = some z := by
    intro z
    rw [expand_choose fun r hr => (prods_nt r hr).2, ← hole_expand (start := x) (fun f ts t h => sketchSig_nt hok h) h1.hclash h1.hsort
      (fun v hv => by
        obtain ⟨p, hpm, rfl⟩ := List.mem_map.1 (h1.hvars v hv)
        exact hp p hpm) hys s.body .refl x hx 10 z]
    simp
  have hform : ∀ z, (SExpr.list [.atom "define", .list (.atom s.name :: (s.params.map Prod.fst).map .atom), z]) =
      .list [.atom "define", .list (.atom s.name :: s.params.map fun p => .atom p.1), z] := by
    intro z
    rw [List.map_map]
    rfl
  constructor
  · intro h
    generalize he : holeOf s = w at h
    cases h with
    | @hole f g' v e rest z k hg' hr hz =>
      simp only [holeOf, holeForm, grammarCall, SExpr.list.injEq, List.cons.injEq, SExpr.atom.injEq, and_true, true_and] at he
      obtain ⟨⟨rfl, hps⟩, hname, hlast⟩ := he
      have hg2 : g' = ⟨s.name ++ "_gram", s.params.map fun p => .atom p.1, prodsOf x ys⟩ := by
        exact List.inj_on_of_nodup_map hn hg' hg hname.symm
      subst hg2
      have hk : Nat.repr k = "10" := by
        have := congrArg List.getLast? hlast
        simp at this
        exact this.symm
      have hk : k = 10 := by
        refine smtNt_inj k 10 ?_
        rw [smtNt, smtNt, hk, show Nat.repr 10 = "10" from by decide]
      subst hk
      have hr : ("rv", .list [.atom "choose", x]) = (v, e) := by
        have := congrArg List.head? hr
        simpa [prodsOf] using this
      cases hr
      obtain ⟨r, h2, h3⟩ := (hexp z).1 hz
      refine ⟨r, h2, ?_⟩
      simp [fnForm, SynthFn.decl, h3]
    | other h => exact absurd he.symm (h _ _ _ _)
  · rintro ⟨r, hr, hy⟩
    simp only [fnForm, SynthFn.decl, Option.bind_eq_bind, Option.bind_some, Option.bind_eq_some_iff, Option.some.injEq] at hy
    obtain ⟨z, hz, rfl⟩ := hy
    have := Instance.hole (gs := gs) (f := s.name) (g := ⟨s.name ++ "_gram", s.params.map fun p => .atom p.1, prodsOf x ys⟩) (k := 10) hg rfl
      ((hexp z).2 ⟨r, hr, hz⟩)
    have e : holeOf s = .list [.atom "define", .list (.atom s.name :: s.params.map fun p => .atom p.1),
        grammarCall (s.name ++ "_gram") (s.params.map fun p => .atom p.1) (.atom (Nat.repr 10))] := by
      simp only [holeOf, holeForm, List.map_map]
      rfl
    rw [e]
    exact this

theorem hole_instances {lang : List FnDecl} {ss : List SynthFn} {vars : List (String × VTy)} {b : Nat} {vc : Expr} (hok : SketchOk lang ss vars b vc)
    {gs : List RGrammar} (hn : (gs.map RGrammar.name).Nodup) : ∀ {l : List SynthFn} {gl : List RGrammar}, (∀ s ∈ l, s ∈ ss) → (∀ g ∈ gl, g ∈ gs) →
    All2 (fun s g => grammarOf s = some g) l gl → ∀ {ys : List SExpr}, All2 (Instance gs) (l.map holeOf) ys ↔
      ∃ rs, All2 (fun s r => ResolvesIn 10 s.body r) l rs ∧ (chosen l rs).mapM fnForm = some ys := by
  intro l gl hl hgl h
  induction h with
  | nil =>
    intro ys
    constructor
    · intro h
      cases h
      exact ⟨[], .nil, rfl⟩
    · rintro ⟨rs, h, hy⟩
      cases h
      cases hy
      exact .nil
  | @cons s g l gl h1 _ ih =>
    intro ys
    have hs := fun y => hole_instance (y := y) hok hn (hl s (by simp)) (hgl g (by simp)) h1
    have ih := @ih (fun t ht => hl t (by simp [ht])) (fun t ht => hgl t (by simp [ht]))
    constructor
    · intro h
      cases h with
      | cons k1 k2 =>
        obtain ⟨r, h2, h3⟩ := (hs _).1 k1
        obtain ⟨rs, h4, h5⟩ := ih.1 k2
        refine ⟨r :: rs, .cons h2 h4, ?_⟩
        rw [mapM_all2] at h5 ⊢
        exact .cons h3 h5
    · rintro ⟨rs, h, hy⟩
      cases h with
      | cons h2 h4 =>
        rw [mapM_all2] at hy
        cases hy with
        | cons h3 h5 => exact .cons ((hs _).2 ⟨_, h2, h3⟩) (ih.2 ⟨_, h4, mapM_all2.2 h5⟩)

end Rkt
end Metalift
