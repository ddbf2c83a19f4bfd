import Verif.RosetteModule
import Verif.RosetteComplete
/-
C54: the file that is given to Rosette to verify a candidate says what the verification condition says about all inputs within the bound.
-/
namespace Metalift

/-- The type of a variable. -/
def VTy.ty : VTy → Ty
  | .int => .int
  | .bool => .bool
  | .list t => .list t.ty
  | .set t => .set t.ty
  | .matrix t => .list (.list t.ty)
  | .tensor3d t => .list (.list (.list t.ty))
  | .tuple _ => .tuple []
  | .fn _ => .fn []

namespace Rkt
open Smt (OfTy OfTys FnHolds paramEnv)

/-- The types of the variables of the file. -/
def varTypes (vars : List (String × VTy)) : String → Ty := fun x => ((vars.lookup x).map VTy.ty).getD .int

/-- What is required of the problem: the variables have types that can be generated and ordinary names, other than those of the Racket
functions used in the generated definitions; the functions have ordinary names, are well typed and defined over their parameters; the condition
is a well-typed boolean expression over the variables. -/
structure ProblemOk (lang cands : List FnDecl) (vars : List (String × VTy)) (b : Nat) (vc : Expr) : Prop where
  hvars : ∀ v ∈ vars, v.2.Supported b ∧ rktName v.1 = true ∧ '-' ∉ v.1.toList ∧ v.1 ∉ dataHeads
  hnodup : (vars.map Prod.fst).Nodup
  hfns : ∀ d ∈ cands ++ lang, fnOk (fileSig cands lang) d = true ∧ d.name ∉ dataHeads ∧ ∀ b, d.body = some b → arithOk b = true
  hvc : vc.sorted (varTypes vars) (fileSig cands lang) = true ∧ arithOk vc = true ∧ vc.ty = .bool ∧ ∀ x ∈ vc.vars, x ∈ vars.map Prod.fst

theorem shaped_typed {b : Nat} : ∀ {t : VTy} {v : Val}, t.Supported b → Shaped b t v → OfTy t.ty v
  | .int, _, _, h => h
  | .bool, _, _, h => h
  | .list t, v, ht, h => by
    obtain ⟨vs, rfl, _, h⟩ := h
    exact ⟨vs, rfl, fun w hw => shaped_typed ht (h w hw)⟩
  | .set t, v, ht, h => by
    obtain ⟨is, rfl, _, h⟩ := h
    have : t = .int := ht
    subst this
    refine ⟨_, rfl, ?_, ?_⟩
    · intro w hw
      obtain ⟨i, _, rfl⟩ := List.mem_map.1 hw
      exact ⟨i, rfl⟩
    · rw [List.pairwise_map]
      exact h
  | .matrix t, v, ht, h => by
    obtain ⟨rows, rfl, _, h⟩ := h
    refine ⟨_, rfl, ?_⟩
    intro w hw
    obtain ⟨r, hr, rfl⟩ := List.mem_map.1 hw
    exact ⟨r, rfl, fun x hx => shaped_typed ht.2 ((h r hr).2 x hx)⟩
  | .tensor3d t, v, ht, h => by
    obtain ⟨ms, rfl, _, h⟩ := h
    refine ⟨_, rfl, ?_⟩
    intro w hw
    obtain ⟨m, hm, rfl⟩ := List.mem_map.1 hw
    refine ⟨_, rfl, ?_⟩
    intro u hu
    obtain ⟨r, hr, rfl⟩ := List.mem_map.1 hu
    exact ⟨r, rfl, fun x hx => shaped_typed ht (((h m hm).2 r hr).2 x hx)⟩
  | .tuple _, _, ht, _ => ht.elim
  | .fn _, _, ht, _ => ht.elim

theorem lookup_nodup {α : Type} {l : List (String × α)} (hn : (l.map Prod.fst).Nodup) {p : String × α} (h : p ∈ l) : l.lookup p.1 = some p.2 := by
  induction l with
  | nil => cases h
  | cons q l ih =>
    simp only [List.map_cons, List.nodup_cons] at hn
    obtain ⟨x, a⟩ := q
    rw [List.lookup_cons]
    rcases List.mem_cons.1 h with rfl | h
    · simp
    · have : (p.1 == x) = false := by
        rw [beq_eq_false_iff_ne]
        intro e
        have hm : p.1 ∈ l.map Prod.fst := List.mem_map_of_mem h
        rw [e] at hm
        exact hn.1 hm
      rw [this]
      exact ih hn.2 h

theorem lookup_none' {α : Type} {l : List (String × α)} {x : String} (h : x ∉ l.map Prod.fst) : l.lookup x = none := by
  induction l with
  | nil => rfl
  | cons q l ih =>
    obtain ⟨y, a⟩ := q
    simp only [List.map_cons, List.mem_cons, not_or] at h
    rw [List.lookup_cons, beq_false_of_ne h.1]
    exact ih h.2

theorem fileSig_head {cands lang : List FnDecl} (h : ∀ d ∈ cands ++ lang, fnOk (fileSig cands lang) d = true) {f : String} {ts : List Ty} {t : Ty}
    (hf : fileSig cands lang f = some (ts, t)) : headOk f = true := by
  rcases fileSig_some hf with ⟨d, hd, rfl, _⟩ | hp
  · have := h d hd
    unfold fnOk at this
    split at this
    · cases this
    · simp only [Bool.and_eq_true] at this
      simp only [headOk, Bool.and_eq_true]
      exact ⟨rktName_good this.1.1.2.1, rktName_clean this.1.1.2.1⟩
  · exact (prim_ok hp).choose_spec.2.1

theorem data_heads_free : (dataHeads.all fun s => !s.toList.contains '_') = true := by decide +kernel

theorem under_not_data {x m : String} (hx : x ∉ dataHeads) (h : Under x m) : m ∉ dataHeads := by
  rcases h with rfl | ⟨r, rfl⟩
  · exact hx
  · intro hm
    have := List.all_eq_true.1 data_heads_free _ hm
    simp [String.toList_append] at this

theorem reserved_user {d : FnDecl} {sig : Sigs} (h : fnOk sig d = true) : d.name ∉ reservedHeads := by
  unfold fnOk at h
  split at h
  · cases h
  · simp only [Bool.and_eq_true, userName, Bool.not_eq_true', List.contains_eq_mem, decide_eq_false_iff_not] at h
    exact h.1.1.2.2.1.1.1.1.1.2

theorem assertions_free : "assertions" ∉ reservedHeads ∧ "assertions" ∉ imported ∧ "assertions" ∉ dataHeads ∧ lib.find "assert" = none := by decide +kernel

/-- The names that the file defines are different and free to be defined. -/
def FileCond (lang cands : List FnDecl) (ds : List RDecl) : Prop :=
  (lang.map FnDecl.name ++ (cands.map FnDecl.name ++ (defNames ds ++ ["assertions"]))).Nodup ∧
    ∀ y ∈ lang.map FnDecl.name ++ (cands.map FnDecl.name ++ (defNames ds ++ ["assertions"])), y ∉ imported ∧ y ∉ definingForms

theorem vars_block {vars : List (String × VTy)} {b : Nat} {ds : List RDecl} {cs : List String}
    (hv : ∀ v ∈ vars, v.2.Supported b ∧ '-' ∉ v.1.toList) (hn : (vars.map Prod.fst).Nodup) (hgen : generateVars vars b = some (ds, cs)) :
    (∀ m ∈ defNames ds, ∃ v ∈ vars, Under v.1 m) ∧ (defNames ds).Nodup ∧
      ∀ σ env, runDecls σ (fun _ => none) ds = some env → ∀ m, m ∉ defNames ds → env m = none := by
  have hp := List.mergeSort_perm vars fun v w => decide (v.1 ≤ w.1)
  obtain ⟨ds', cs', e, B⟩ := genVars_block b (vars.mergeSort fun v w => decide (v.1 ≤ w.1))
    (fun v h => hv v (hp.mem_iff.1 h)) ((hp.map _).nodup_iff.2 hn)
  have : some (ds', cs') = some (ds, cs) := by rw [← e, ← hgen]; rfl
  cases this
  refine ⟨?_, B.nodup, fun σ env henv m hm => (B.sound σ _ _ henv).1 m hm⟩
  intro m hm
  obtain ⟨it, hit, hu⟩ := B.owned m hm
  obtain ⟨v, hv, rfl⟩ := List.mem_map.1 hit
  exact ⟨v, hp.mem_iff.1 hv, hu⟩

/-- The modules that runs of the file define. -/
theorem file_module {lang cands : List FnDecl} {vars : List (String × VTy)} {b : Nat} {vc : Expr} {text : List Char} {u : Bool}
    (hok : ProblemOk lang cands vars b vc) (hfile : verifyFile lang cands vars b u vc = some text) :
    ∃ ds cs x defs, generateVars vars b = some (ds, cs) ∧ rktSx vc = some x ∧ AllNames ds ∧
      (∀ σ M, Runs text σ M ↔ FileCond lang cands ds ∧ ∃ env, runDecls σ (fun _ => none) ds = some env ∧ M = ⟨defs, env, lib.exports⟩) ∧
      (FileCond lang cands ds → ∀ env, HasFns ⟨defs, env, lib.exports⟩ (cands ++ lang) ∧
        Module.find ⟨defs, env, lib.exports⟩ "assertions" = some (assertDef x) ∧ Module.find ⟨defs, env, lib.exports⟩ "assert" = none) := by
  simp only [verifyFile, Option.bind_eq_bind, Option.bind_eq_some_iff, Option.some.injEq] at hfile
  obtain ⟨⟨ds, cs⟩, hgen, s, hs, rfl⟩ := hfile
  have hnames : AllNames ds := by
    unfold generateVars at hgen
    refine genVars_names b _ ds cs ?_ hgen
    intro v hv
    exact (hok.hvars v ((List.mergeSort_perm vars _).mem_iff.1 hv)).2.1
  obtain ⟨lx, cx, x, hlx, hcx, hx, hread⟩ := file_read (sig := fileSig cands lang) (fun f ts t h => fileSig_head (fun d hd => (hok.hfns d hd).1) h)
    (fun d hd => (hok.hfns d (by simp [hd])).1) (fun d hd => (hok.hfns d (by simp [hd])).1) hnames hok.hvc.1
    (fun y hy => by
      obtain ⟨v, hv, rfl⟩ := List.mem_map.1 (hok.hvc.2.2.2 y hy)
      exact (hok.hvars v hv).2.1) hs
  obtain ⟨ly, l1, l2, l3, l4, l5⟩ := readDefs_fns (fun d hd => (hok.hfns d (by simp [hd])).1) hlx
  obtain ⟨cy, c1, c2, c3, c4, c5⟩ := readDefs_fns (fun d hd => (hok.hfns d (by simp [hd])).1) hcx
  obtain ⟨d1, d2⟩ := decls_forms ds
  obtain ⟨h1, h2, h3⟩ := header_forms
  obtain ⟨e1, e2, e3⟩ := end_forms u x
  have hdefs : (headerForms ++ (lx ++ (cx ++ (ds.map rdeclSx ++ endForms u x)))).filterMap readDef = ly ++ (cy ++ [assertDef x]) := by
    simp only [List.filterMap_append, h1, l1, c1, d1, e1, List.nil_append]
  have hnm : (headerForms ++ (lx ++ (cx ++ (ds.map rdeclSx ++ endForms u x)))).filterMap defined =
      lang.map FnDecl.name ++ (cands.map FnDecl.name ++ (defNames ds ++ ["assertions"])) := by
    simp only [List.filterMap_append, h2, l3, c3, d2, e2, List.nil_append]
  have hfd : (ly ++ (cy ++ [assertDef x])).map RDef.name = lang.map FnDecl.name ++ (cands.map FnDecl.name ++ ["assertions"]) := by
    simp [l2, c2, assertDef]
  have hfree : ∀ s, s ∉ lang.map FnDecl.name → s ∉ cands.map FnDecl.name → s ≠ "assertions" →
      (⟨ly ++ (cy ++ [assertDef x]), fun _ => none, lib.exports⟩ : Module).find s = none := by
    intro s a1 a2 a3
    exact find_none (by rw [hfd]; simp only [List.mem_append, List.mem_singleton, not_or]; exact ⟨a1, a2, a3⟩)
  have hsys : ∀ s ∈ dataHeads, s ∉ lang.map FnDecl.name ∧ s ∉ cands.map FnDecl.name ∧ s ≠ "assertions" := by
    intro s hs
    refine ⟨?_, ?_, ?_⟩
    · rintro h
      obtain ⟨d, hd, rfl⟩ := List.mem_map.1 h
      exact (hok.hfns d (by simp [hd])).2.1 hs
    · rintro h
      obtain ⟨d, hd, rfl⟩ := List.mem_map.1 h
      exact (hok.hfns d (by simp [hd])).2.1 hs
    · rintro rfl
      exact assertions_free.2.2.1 hs
  obtain ⟨hown, hdn, _⟩ := vars_block (fun v hv => ⟨(hok.hvars v hv).1, (hok.hvars v hv).2.2.1⟩) hok.hnodup hgen
  have hdata : ∀ s ∈ dataHeads, s ∉ defNames ds := by
    intro s hs hm
    obtain ⟨v, hv, hu⟩ := hown s hm
    exact under_not_data (hok.hvars v hv).2.2.2 hu hs
  have hsysf : ∀ s ∈ dataHeads, (⟨ly ++ (cy ++ [assertDef x]), fun _ => none, lib.exports⟩ : Module).find s = none :=
    fun s hs => hfree s (hsys s hs).1 (hsys s hs).2.1 (hsys s hs).2.2
  refine ⟨ds, cs, x, ly ++ (cy ++ [assertDef x]), hgen, hx, hnames, ?_, ?_⟩
  · intro σ M
    constructor
    · rintro ⟨n, hrun⟩
      rw [runFile, hread, Option.bind_some] at hrun
      simp only [hnm] at hrun
      split at hrun
      · next hcond =>
        refine ⟨hcond, ?_⟩
        rw [hdefs, h3, l5, c5] at hrun
        obtain ⟨env, henv, rfl⟩ := Option.map_eq_some_iff.1 hrun
        obtain ⟨env', h1, h2⟩ := decls_back rfl hsysf σ (endForms u x) n env ds (fun _ => none) hnames (fun s hs => ⟨rfl, hdata s hs⟩)
          (fun s _ => rfl) hdn henv
        rw [e3] at h2
        cases h2
        exact ⟨_, h1, rfl⟩
      · cases hrun
    · rintro ⟨hcond, env, henv, rfl⟩
      obtain ⟨k, hk⟩ := decls_run (M := ⟨ly ++ (cy ++ [assertDef x]), fun _ => none, lib.exports⟩) rfl hsysf σ (endForms u x) ds (fun _ => none) env
        hnames (fun s hs => ⟨rfl, hdata s hs⟩) henv
      refine ⟨k, ?_⟩
      rw [runFile, hread, Option.bind_some]
      simp only [hnm]
      rw [if_pos (show _ ∧ _ from hcond), hdefs, h3, l5, c5, hk k (Nat.le_refl _), e3]
      rfl
  intro hcond env
  have hnd : ((ly ++ (cy ++ [assertDef x])).map RDef.name).Nodup := by
    rw [hfd]
    refine hcond.1.sublist ?_
    exact (List.Sublist.refl _).append ((List.Sublist.refl _).append (List.sublist_append_right _ _))
  refine ⟨⟨?_, ?_, rfl⟩, ?_, ?_⟩
  · intro d hd
    rcases List.mem_append.1 hd with hd | hd
    · obtain ⟨b, y, hb, hy, hm⟩ := c4 d hd
      exact ⟨b, y, hb, hy, find_mem hnd (d := fnDef d y) (by simp [hm])⟩
    · obtain ⟨b, y, hb, hy, hm⟩ := l4 d hd
      exact ⟨b, y, hb, hy, find_mem hnd (d := fnDef d y) (by simp [hm])⟩
  · intro s hs
    have key : ∀ d ∈ cands ++ lang, s ≠ d.name := by
      rintro d hd rfl
      rcases hs with hs | hs
      · exact reserved_user (hok.hfns d hd).1 hs
      · refine (hcond.2 d.name ?_).1 hs
        simp only [List.mem_append]
        rcases List.mem_append.1 hd with hd | hd
        · exact .inr (.inl (List.mem_map_of_mem hd))
        · exact .inl (List.mem_map_of_mem hd)
    refine hfree s ?_ ?_ ?_
    · intro h
      obtain ⟨d, hd, e⟩ := List.mem_map.1 h
      exact key d (by simp [hd]) e.symm
    · intro h
      obtain ⟨d, hd, e⟩ := List.mem_map.1 h
      exact key d (by simp [hd]) e.symm
    · rintro rfl
      exact hs.elim assertions_free.1 assertions_free.2.1
  · exact find_mem hnd (d := assertDef x) (by simp)
  · refine hfree "assert" ?_ ?_ (by decide)
    · intro h
      exact (hcond.2 "assert" (by simp only [List.mem_append]; exact .inl h)).2 (by decide)
    · intro h
      exact (hcond.2 "assert" (by simp only [List.mem_append]; exact .inr (.inl h))).2 (by decide)

/-- The names that a run of the declarations defines. -/
theorem globals_names {σ : String → Val} : ∀ {ds : List RDecl} {env env' : REnv}, AllNames ds → (∀ y v, env y = some v → rktName y = true) →
    runDecls σ env ds = some env' → ∀ y v, env' y = some v → rktName y = true
  | [], env, env', _, he, h => by cases h; exact he
  | d :: ds, env, env', hn, he, h => by
    simp only [runDecls] at h
    split at h
    · cases h
    obtain ⟨w, hw, h⟩ := Option.bind_eq_some_iff.1 h
    refine globals_names (fun d hd => hn d (by simp [hd])) ?_ h
    intro y v hy
    split at hy
    · next e =>
      refine hn d (by simp) y ?_
      subst e
      cases d <;> simp [rdeclNames, RDecl.name]
    · exact he y v hy

/-- The assertions pass exactly if the condition evaluates to something other than false. -/
theorem passes_iff {M : Module} {x : SExpr} (hi : M.imports = lib.exports) (ha : M.find "assertions" = some (assertDef x)) (hf : M.find "assert" = none)
    (hg : M.globals "assert" = none) : Passes M ↔ ∃ n v, rkEval M n 64 (fun _ => none) x = some v ∧ v ≠ .bool false := by
  have step : ∀ n, rkEval M (n + 2) 64 (fun _ => none) (.list [.atom "assertions"]) =
      (rkEval M n 64 (fun _ => none) x).bind fun v => if v = .bool false then none else some (.bool true) := by
    intro n
    rw [rk_call rfl ha]
    simp only [List.mapM_nil, Option.pure_def, Option.bind_some, applyDef, assertDef, bindArgs, Bool.false_eq_true, if_false, bindAll]
    rw [rk_app rfl hf hg (by decide), hi]
    simp only [List.mapM_cons, List.mapM_nil, Option.bind_eq_bind, Option.pure_def, Module.exports, assertions_free.2.2.2, builtin, Option.bind_some]
    cases rkEval M n 64 (fun _ => none) x with
    | none => rfl
    | some v =>
      simp
  constructor
  · rintro ⟨n, w, hw⟩
    match n, hw with
    | 0, hw => simp [rkEval] at hw
    | 1, hw =>
      rw [rk_call rfl ha] at hw
      simp [applyDef, assertDef, bindArgs, rkEval] at hw
    | n + 2, hw =>
      rw [step] at hw
      obtain ⟨v, hv, h⟩ := Option.bind_eq_some_iff.1 hw
      refine ⟨n, v, hv, ?_⟩
      rintro rfl
      simp at h
  · rintro ⟨n, v, hv, h⟩
    exact ⟨n + 2, .bool true, by rw [step, hv]; simp [h]⟩

/-- The environment of a run, as an environment of the condition: integers for other names. -/
theorem run_env {vars : List (String × VTy)} {b : Nat} (hs : ∀ v ∈ vars, v.2.Supported b) (hn : (vars.map Prod.fst).Nodup) {ρ : Env}
    (hρ : ∀ v ∈ vars, Shaped b v.2 (ρ v.1)) :
    ∃ ρ' : Env, (∀ y ∈ vars.map Prod.fst, ρ' y = ρ y) ∧ ∀ y, OfTy (varTypes vars y) (ρ' y) := by
  refine ⟨fun y => if y ∈ vars.map Prod.fst then ρ y else .int 0, fun y hy => by simp only [if_pos hy], fun y => ?_⟩
  by_cases hy : y ∈ vars.map Prod.fst
  · obtain ⟨v, hv, rfl⟩ := List.mem_map.1 hy
    simp only [if_pos hy, varTypes, lookup_nodup hn hv]
    exact shaped_typed (hs v hv) (hρ v hv)
  · simp only [if_neg hy, varTypes, lookup_none' hy]
    exact ⟨0, rfl⟩

/-- What evaluation of the condition does in a file without counterexamples. -/
theorem verified_eval {lang cands : List FnDecl} {vars : List (String × VTy)} {b : Nat} {vc : Expr} {text : List Char} {u : Bool}
    (hok : ProblemOk lang cands vars b vc) (hfile : verifyFile lang cands vars b u vc = some text) (hver : Verified text)
    (ρ : Env) (hρ : ∀ v ∈ vars, Shaped b v.2 (ρ v.1)) :
    ∃ M n x v, rktSx vc = some x ∧ rkEval M n 64 (fun _ => none) x = some v ∧ v ≠ .bool false ∧ HasFns M (cands ++ lang) ∧
      (∀ y w, M.globals y = some w → rktName y = true ∧ ∃ v ∈ vars, Under v.1 y) ∧ ∀ v ∈ vars, M.globals v.1 = some (ρ v.1) := by
  obtain ⟨ds, cs, x, defs, hgen, hx, hnames, hruns, hmod⟩ := file_module hok hfile
  obtain ⟨⟨σ₀, M₀, hrun₀⟩, hall⟩ := hver
  obtain ⟨ds', cs', e, _, _, _, _, hcompl⟩ := C24_bounded_inputs_partial b vars (fun v hv => ⟨(hok.hvars v hv).1, (hok.hvars v hv).2.2.1⟩) hok.hnodup
  rw [hgen] at e
  cases e
  obtain ⟨σ, env, henv, hval⟩ := hcompl ρ hρ
  have hcond := ((hruns σ₀ M₀).1 hrun₀).1
  obtain ⟨hM, ha, hassert⟩ := hmod hcond env
  obtain ⟨hown, _, hother⟩ := vars_block (fun v hv => ⟨(hok.hvars v hv).1, (hok.hvars v hv).2.2.1⟩) hok.hnodup hgen
  have hassert' : env "assert" = none := hother σ env henv "assert" (fun h =>
    (hcond.2 "assert" (by simp only [List.mem_append]; exact .inr (.inr (.inl h)))).2 (by decide))
  obtain ⟨n, v, hv, hne⟩ := (passes_iff rfl ha hassert hassert').1 (hall σ _ ((hruns σ _).2 ⟨hcond, env, henv, rfl⟩))
  refine ⟨_, n, x, v, hx, hv, hne, hM, fun y w hy => ⟨globals_names hnames (by simp) henv y w hy, hown y ?_⟩, hval⟩
  by_contra h
  have := hother σ env henv y h
  simp only [this] at hy
  cases hy

/-- **C54** (partial: for problems that satisfy `ProblemOk`, with unbounded integers).  If Rosette is right that the file it is given has no
counterexample, then the verification condition holds for all values of the variables within the bound: under every meaning of the functions that
satisfies the definitions of the target language and of the predicates, and in which the built-in functions are those of the library. -/
theorem C54_verified_inputs_partial {lang cands : List FnDecl} {vars : List (String × VTy)} {b : Nat} {vc : Expr} {text : List Char}
    (hok : ProblemOk lang cands vars b vc) (hfile : verifyFile lang cands vars b true vc = some text) (hver : Verified text)
    {I : Interp} (hI : LibMeaning I) (hfns : ∀ d ∈ cands ++ lang, FnHolds I d) (ρ : Env) (hρ : ∀ v ∈ vars, Shaped b v.2 (ρ v.1)) :
    holds I ρ vc := by
  obtain ⟨M, n, x, v, hx, hv, hne, hM, hg, hval⟩ := verified_eval hok hfile hver ρ hρ
  obtain ⟨ρ', hag, hρ'⟩ := run_env (fun v hv => (hok.hvars v hv).1) hok.hnodup hρ
  have hsame : eval I ρ vc = eval I ρ' vc := eval_congr I vc (fun y hy => (hag y (hok.hvc.2.2.2 y hy)).symm)
  have := rk_sound hI hM (fun y w hy => (hg y w hy).1)
    (fun d hd => ⟨(hok.hfns d hd).1, hfns d hd, (hok.hfns d hd).2.2⟩) n 64 (fun _ => none) (varTypes vars) ρ' vc x v hx hok.hvc.1 hok.hvc.2.1 hρ'
    (by simp) (by
      intro y hy
      obtain ⟨q, hq, rfl⟩ := List.mem_map.1 (hok.hvc.2.2.2 y hy)
      refine ⟨(hok.hvars q hq).2.1, fun w hw => ?_⟩
      simp only [evalName, hval q hq] at hw
      cases hw
      exact (hag _ (hok.hvc.2.2.2 _ hy)).symm) hv
  have ht := sorted_typed (fileSig_respected hI hfns) hρ' vc hok.hvc.1
  rw [hok.hvc.2.2.1, ← this] at ht
  obtain ⟨bb, rfl⟩ := ht
  cases bb with
  | false => exact absurd rfl hne
  | true =>
    unfold holds
    rw [hsame, ← this]
    rfl

/-- The names of the problem are different from each other and from those that the file uses or cannot define again; the functions have names
without hyphens. -/
structure NamesOk (lang cands : List FnDecl) (vars : List (String × VTy)) : Prop where
  hdiff : (lang.map FnDecl.name ++ (cands.map FnDecl.name ++ vars.map Prod.fst)).Nodup
  hfree : ∀ x ∈ lang.map FnDecl.name ++ (cands.map FnDecl.name ++ vars.map Prod.fst), x ∉ imported ∧ x ∉ definingForms ∧ x ≠ "assertions"
  hfns : ∀ d ∈ cands ++ lang, '-' ∉ d.name.toList
  hvis : ∀ v ∈ vars, v.1 ∉ reservedHeads
  hparams : ∀ d ∈ cands ++ lang, ∀ p ∈ d.params, p.1 ∉ reservedHeads ∧ p.1 ∉ imported ∧ p.1 ∉ (cands ++ lang).map FnDecl.name

theorem no_capital : ((reservedHeads ++ (imported ++ ("assertions" :: definingForms))).all fun s => !s.toList.contains 'B') = true := by decide +kernel

theorem under_new {x m : String} (h : Under x m) : m = x ∨ (m ∉ reservedHeads ∧ m ∉ imported ∧ m ∉ definingForms ∧ m ≠ "assertions" ∧ '-' ∈ m.toList) := by
  rcases h with rfl | ⟨r, rfl⟩
  · exact .inl rfl
  · refine .inr ?_
    have hB : 'B' ∈ (x ++ "_BOUNDEDSET-" ++ r).toList := by simp [String.toList_append]
    have key : ∀ s ∈ reservedHeads ++ (imported ++ ("assertions" :: definingForms)), x ++ "_BOUNDEDSET-" ++ r ≠ s := by
      rintro s hs rfl
      have := List.all_eq_true.1 no_capital _ hs
      simp only [Bool.not_eq_true', List.contains_eq_mem, decide_eq_false_iff_not] at this
      exact this hB
    simp only [List.mem_append, List.mem_cons] at key
    exact ⟨fun h => key _ (.inl h) rfl, fun h => key _ (.inr (.inl h)) rfl, fun h => key _ (.inr (.inr (.inr h))) rfl,
      fun h => key _ (.inr (.inr (.inl rfl))) h, by simp [String.toList_append]⟩

theorem names_cond {lang cands : List FnDecl} {vars : List (String × VTy)} {ds : List RDecl} (hn : NamesOk lang cands vars)
    (hown : ∀ m ∈ defNames ds, ∃ v ∈ vars, Under v.1 m) (hdn : (defNames ds).Nodup) : FileCond lang cands ds := by
  have hnd := hn.hdiff
  rw [List.nodup_append, List.nodup_append] at hnd
  have hd : ∀ m ∈ defNames ds, (m ∉ imported ∧ m ∉ definingForms) ∧ m ≠ "assertions" ∧ m ∉ lang.map FnDecl.name ∧ m ∉ cands.map FnDecl.name := by
    intro m hm
    obtain ⟨v, hv, hu⟩ := hown m hm
    have hvm : v.1 ∈ vars.map Prod.fst := List.mem_map_of_mem hv
    rcases under_new hu with rfl | ⟨_, h2, h3, h4, h5⟩
    · obtain ⟨f1, f2, f3⟩ := hn.hfree v.1 (by simp only [List.mem_append]; exact .inr (.inr hvm))
      exact ⟨⟨f1, f2⟩, f3, fun h => hnd.2.2 v.1 h v.1 (by simp only [List.mem_append]; exact .inr hvm) rfl, fun h => hnd.2.1.2.2 v.1 h v.1 hvm rfl⟩
    · refine ⟨⟨h2, h3⟩, h4, ?_, ?_⟩
      · intro h
        obtain ⟨d, hd, rfl⟩ := List.mem_map.1 h
        exact hn.hfns d (by simp [hd]) h5
      · intro h
        obtain ⟨d, hd, rfl⟩ := List.mem_map.1 h
        exact hn.hfns d (by simp [hd]) h5
  constructor
  · rw [List.nodup_append, List.nodup_append, List.nodup_append]
    refine ⟨hnd.1, ⟨hnd.2.1.1, ⟨hdn, by simp, ?_⟩, ?_⟩, ?_⟩
    · intro a ha b hb
      rw [List.mem_singleton.1 hb]
      exact (hd a ha).2.1
    · rintro a ha b hb rfl
      rcases List.mem_append.1 hb with hb | hb
      · exact (hd a hb).2.2.2 ha
      · exact (hn.hfree a (by simp only [List.mem_append]; exact .inr (.inl ha))).2.2 (List.mem_singleton.1 hb)
    · rintro a ha b hb rfl
      rcases List.mem_append.1 hb with hb | hb
      · exact hnd.2.2 a ha a (by simp only [List.mem_append]; exact .inl hb) rfl
      · rcases List.mem_append.1 hb with hb | hb
        · exact (hd a hb).2.2.1 ha
        · exact (hn.hfree a (by simp only [List.mem_append]; exact .inl ha)).2.2 (List.mem_singleton.1 hb)
  · intro y hy
    simp only [List.mem_append] at hy
    rcases hy with hy | hy | hy | hy
    · obtain ⟨f1, f2, _⟩ := hn.hfree y (by simp only [List.mem_append]; exact .inl hy)
      exact ⟨f1, f2⟩
    · obtain ⟨f1, f2, _⟩ := hn.hfree y (by simp only [List.mem_append]; exact .inr (.inl hy))
      exact ⟨f1, f2⟩
    · exact (hd y hy).1
    · rw [List.mem_singleton.1 hy]
      decide +kernel

/-- **C54**, both directions (partial: as before, and for problems with suitable names whose condition can be computed within the bound on
recursion, without remainders by zero).  The file given to Rosette has no counterexample exactly if the verification condition holds for all values
of the variables within the bound. -/
theorem C54_verified_iff_partial {lang cands : List FnDecl} {vars : List (String × VTy)} {b : Nat} {vc : Expr} {text : List Char}
    (hok : ProblemOk lang cands vars b vc) (hn : NamesOk lang cands vars) (hfile : verifyFile lang cands vars b true vc = some text)
    {I : Interp} (hI : LibMeaning I) (hfns : ∀ d ∈ cands ++ lang, FnHolds I d)
    (hsafe : ∀ ρ : Env, (∀ v ∈ vars, Shaped b v.2 (ρ v.1)) → Safe I (cands ++ lang) 64 ρ vc) :
    Verified text ↔ ∀ ρ : Env, (∀ v ∈ vars, Shaped b v.2 (ρ v.1)) → holds I ρ vc := by
  constructor
  · exact fun h ρ hρ => C54_verified_inputs_partial hok hfile h hI hfns ρ hρ
  intro hholds
  obtain ⟨ds, cs, x, defs, hgen, hx, hnames, hruns, hmod⟩ := file_module hok hfile
  obtain ⟨hown, hdn, hother⟩ := vars_block (fun v hv => ⟨(hok.hvars v hv).1, (hok.hvars v hv).2.2.1⟩) hok.hnodup hgen
  have hcond := names_cond hn hown hdn
  obtain ⟨ds', cs', e, _, _, _, hsound, hcompl⟩ :=
    C24_bounded_inputs_partial b vars (fun v hv => ⟨(hok.hvars v hv).1, (hok.hvars v hv).2.2.1⟩) hok.hnodup
  rw [hgen] at e
  cases e
  constructor
  · -- some values of the variables
    have : ∃ ρ : Env, ∀ v ∈ vars, Shaped b v.2 (ρ v.1) := by
      have hinh : ∀ x : String, ∃ w, ∀ v ∈ vars, v.1 = x → Shaped b v.2 w := by
        intro x
        by_cases h : ∃ v ∈ vars, v.1 = x
        · obtain ⟨v, hv, rfl⟩ := h
          obtain ⟨w, hw⟩ := Shaped.inhabited (hok.hvars v hv).1
          refine ⟨w, fun u hu he => ?_⟩
          have h1 := lookup_nodup hok.hnodup hv
          have h2 := lookup_nodup hok.hnodup hu
          rw [he, h1] at h2
          rw [← Option.some.inj h2]
          exact hw
        · exact ⟨.int 0, fun v hv he => absurd ⟨v, hv, he⟩ h⟩
      choose ρ hρ using hinh
      exact ⟨ρ, fun v hv => hρ v.1 v hv rfl⟩
    obtain ⟨ρ, hρ⟩ := this
    obtain ⟨σ, env, henv, _⟩ := hcompl ρ hρ
    exact ⟨σ, _, (hruns σ _).2 ⟨hcond, env, henv, rfl⟩⟩
  · intro σ M hrun
    obtain ⟨_, env, henv, rfl⟩ := (hruns σ M).1 hrun
    obtain ⟨hM, ha, hassert⟩ := hmod hcond env
    have hassert' : env "assert" = none := hother σ env henv "assert" (fun h =>
      (hcond.2 "assert" (by simp only [List.mem_append]; exact .inr (.inr (.inl h)))).2 (by decide))
    refine (passes_iff rfl ha hassert hassert').2 ?_
    let ρ : Env := fun y => (env y).getD (.int 0)
    have hval : ∀ v ∈ vars, env v.1 = some (ρ v.1) ∧ Shaped b v.2 (ρ v.1) := by
      intro v hv
      obtain ⟨w, h1, h2⟩ := hsound σ env henv v hv
      simp only [ρ, h1, Option.getD_some]
      exact ⟨trivial, h2⟩
    obtain ⟨ρ', hag, hρ'⟩ := run_env (fun v hv => (hok.hvars v hv).1) hok.hnodup (fun v hv => (hval v hv).2)
    have hshaped : ∀ v ∈ vars, Shaped b v.2 (ρ' v.1) := by
      intro v hv
      rw [hag v.1 (List.mem_map_of_mem hv)]
      exact (hval v hv).2
    obtain ⟨k, hk⟩ := rk_complete hI hM (by
        have := hn.hdiff
        rw [List.map_append]
        rw [List.nodup_append, List.nodup_append] at this
        rw [List.nodup_append]
        refine ⟨this.2.1.1, this.1, ?_⟩
        rintro a ha b hb rfl
        exact this.2.2 a hb a (by simp only [List.mem_append]; exact .inl ha) rfl) (globals_names hnames (by simp) henv) (by
        intro h hh
        refine hother σ env henv h (fun hm => ?_)
        obtain ⟨v, hv, hu⟩ := hown h hm
        have hvm : v.1 ∈ vars.map Prod.fst := List.mem_map_of_mem hv
        have hnd := hn.hdiff
        rw [List.nodup_append, List.nodup_append] at hnd
        rcases under_new hu with rfl | ⟨h1, h2, _, _, h5⟩
        · rcases hh with hh | hh | hh
          · exact hn.hvis v hv hh
          · exact (hn.hfree v.1 (by simp only [List.mem_append]; exact .inr (.inr hvm))).1 hh
          · rw [List.map_append, List.mem_append] at hh
            rcases hh with hh | hh
            · exact hnd.2.1.2.2 v.1 hh v.1 hvm rfl
            · exact hnd.2.2 v.1 hh v.1 (by simp only [List.mem_append]; exact .inr hvm) rfl
        · rcases hh with hh | hh | hh
          · exact h1 hh
          · exact h2 hh
          · obtain ⟨d, hd, rfl⟩ := List.mem_map.1 hh
            exact hn.hfns d hd h5)
      (fun d hd => ⟨(hok.hfns d hd).1, hfns d hd, (hok.hfns d hd).2.2⟩) hn.hparams (hsafe ρ' hshaped) (fun _ => none) (varTypes vars) x hx hok.hvc.1
      hok.hvc.2.1 hρ' ⟨by simp, by simp⟩ (by
        intro y hy
        have hym := hok.hvc.2.2.2 y hy
        obtain ⟨q, hq, rfl⟩ := List.mem_map.1 hym
        refine ⟨(hok.hvars q hq).2.1, ?_⟩
        simp only [evalName, (hval q hq).1, hag q.1 hym])
    refine ⟨k, _, hk k (Nat.le_refl _), ?_⟩
    have := hholds ρ' hshaped
    intro hf
    unfold holds at this
    rw [hf] at this
    cases this

end Rkt
end Metalift
