import Verif.RktBits
import Verif.PRosetteFileEx
/-
C54 for integers with a fixed number of bits, the default of `verify_synth_result` and `to_rosette`.
-/
namespace Metalift
namespace Rkt
open Smt

/-! ### Numbers that fit -/

theorem wrap_fits {k : Nat} (hk : 0 < k) {i : Int} (h : InBits k i) : wrap k i = i := by
  obtain ⟨k, rfl⟩ : ∃ j, k = j + 1 := ⟨k - 1, by omega⟩
  simp only [InBits, wrap, Nat.add_sub_cancel] at h ⊢
  have : (2 : Int) ^ (k + 1) = 2 * 2 ^ k := by rw [pow_succ]; omega
  rw [this, Int.emod_eq_of_lt] <;> omega

theorem wrap_inBits {k : Nat} (hk : 0 < k) (i : Int) : InBits k (wrap k i) := by
  obtain ⟨k, rfl⟩ : ∃ j, k = j + 1 := ⟨k - 1, by omega⟩
  simp only [InBits, wrap, Nat.add_sub_cancel]
  have h0 : (0 : Int) < 2 ^ k := Int.pow_pos (by decide)
  have : (2 : Int) ^ (k + 1) = 2 * 2 ^ k := by rw [pow_succ]; omega
  rw [this]
  have h1 := Int.emod_nonneg (i + 2 ^ k) (b := 2 * 2 ^ k) (by omega)
  have h2 := Int.emod_lt_of_pos (i + 2 ^ k) (b := 2 * 2 ^ k) (by omega)
  omega

mutual
theorem wrapVal_fits {k : Nat} (hk : 0 < k) : ∀ v, fits k v = true → wrapVal k v = v
  | .int i, h => by
    simp only [fits, decide_eq_true_eq] at h
    simp [wrapVal, wrap_fits hk h]
  | .bool _, _ => rfl
  | .list vs, h => by simp only [fits] at h; simp only [wrapVal, wrapVals_fits hk vs h]
  | .tuple vs, h => by simp only [fits] at h; simp only [wrapVal, wrapVals_fits hk vs h]
  | .fn _, _ => rfl
theorem wrapVals_fits {k : Nat} (hk : 0 < k) : ∀ vs, fitsAll k vs = true → wrapVals k vs = vs
  | [], _ => rfl
  | v :: vs, h => by
    simp only [fitsAll, Bool.and_eq_true] at h
    simp only [wrapVals, wrapVal_fits hk v h.1, wrapVals_fits hk vs h.2]
end

/-! ### Comparing procedures -/

/-- Where the first procedures give a result, the second give the same. -/
def ProcsLe (B C : Procs) : Prop := ∀ f p, B f = some p → ∃ q, C f = some q ∧ ∀ vs, Le (p vs) (q vs)

def ImportsLe (P Q : Imports) : Prop := ∀ n fu f p, P n fu f = some p → ∃ q, Q n fu f = some q ∧ ∀ vs, Le (p vs) (q vs)

theorem fits_le_builtin (k : Nat) : ProcsLe (builtinFits k) builtin := by
  intro f p h
  obtain ⟨q, hq, rfl⟩ := Option.map_eq_some_iff.1 h
  refine ⟨q, hq, fun vs v hv => ?_⟩
  simp only at hv
  split at hv
  · exact (Option.filter_eq_some_iff.1 hv).1
  · cases hv

theorem fits_le_bits {k : Nat} (hk : 0 < k) : ProcsLe (builtinFits k) (builtinBits k) := by
  intro f p h
  obtain ⟨q, hq, rfl⟩ := Option.map_eq_some_iff.1 h
  refine ⟨fun vs => (q (wrapVals k vs)).map (wrapVal k), by simp only [builtinBits, hq, Option.map_some], fun vs v hv => ?_⟩
  simp only at hv
  split at hv
  · next hf =>
    obtain ⟨h1, h2⟩ := Option.filter_eq_some_iff.1 hv
    show Option.map (wrapVal k) (q (wrapVals k vs)) = some v
    rw [wrapVals_fits hk vs hf, h1, Option.map_some, wrapVal_fits hk v h2]
  · cases hv

/-- Two modules that differ in what they import. -/
theorem rkEval_le {defs : List RDef} {env : REnv} {P Q : Imports} (hPQ : ImportsLe P Q) : ∀ n fu σ e,
    Le (rkEval ⟨defs, env, P⟩ n fu σ e) (rkEval ⟨defs, env, Q⟩ n fu σ e) := by
  intro n
  induction n with
  | zero =>
    intro fu σ e v hv
    cases e with
    | atom s => exact hv
    | list l => simp [rkEval] at hv
  | succ n ih =>
    intro fu σ e
    match e with
    | .atom s => exact Le.refl _
    | .list [] => exact Le.refl _
    | .list (.list l :: as) => exact Le.refl _
    | .list (.atom h :: as) =>
      simp only [rkEval]
      split
      · exact Le.refl _
      · have hf : Module.find ⟨defs, env, Q⟩ h = Module.find ⟨defs, env, P⟩ h := rfl
        rw [hf]
        split
        · exact Le.bind (Le.mapM (ih fu σ) as) (fun vs => Le.applyDef ih fu _ vs)
        · split
          · exact Le.refl _
          split
          · split
            · refine Le.bind (ih _ _ _) (fun v => ?_)
              split
              · exact ih _ _ _
              · exact ih _ _ _
            · exact Le.refl _
          split
          · exact Le.evalOr (ih fu σ) as
          split
          · split
            · refine Le.bind (Le.mapM (ih fu σ) _) (fun vs => Le.bind (Le.refl _) (fun r => ih _ _ _))
            · exact Le.refl _
          split
          · split
            · refine Le.bind (ih _ _ _) (fun v => ?_)
              split
              · exact Le.evalAny (fun w => ih _ _ _) _
              · exact Le.refl _
            · exact Le.refl _
          split
          · split
            · refine Le.bind (ih _ _ _) (fun v => ?_)
              exact Le.refl _
            · exact Le.refl _
          · refine Le.bind (Le.mapM (ih fu σ) as) (fun vs v hv => ?_)
            obtain ⟨p, hp, hv⟩ := Option.bind_eq_some_iff.1 hv
            obtain ⟨q, hq, hpq⟩ := hPQ n fu h p hp
            exact Option.bind_eq_some_iff.2 ⟨q, hq, hpq vs v hv⟩

theorem exports_le {B C : Procs} (h : ProcsLe B C) : ImportsLe ((libWith B).exportsWith B) ((libWith C).exportsWith C) := by
  intro n fu f p hp
  simp only [Module.exportsWith] at hp ⊢
  have hf : (libWith C).find f = (libWith B).find f := rfl
  rw [hf]
  split at hp
  · next d hd =>
    cases hp
    refine ⟨_, rfl, fun vs => Le.applyDef (fun fu σ e => ?_) fu d vs⟩
    exact rkEval_le (fun _ _ f p hp => h f p hp) n fu σ e
  · exact h f p hp

theorem forms_le {defs : List RDef} {P Q : Imports} (h : ImportsLe P Q) (n : Nat) (σ : String → Val) : ∀ (fs : List SExpr) (env : REnv),
    Le (runForms ⟨defs, fun _ => none, P⟩ n σ env fs) (runForms ⟨defs, fun _ => none, Q⟩ n σ env fs)
  | [], _ => Le.refl _
  | f :: fs, env => by
    unfold runForms
    split
    · split
      · exact forms_le h n σ fs _
      · exact Le.refl _
    · split
      · exact forms_le h n σ fs _
      · exact Le.refl _
    · exact Le.bind (rkEval_le h _ _ _ _) fun v => forms_le h n σ fs _
    · exact forms_le h n σ fs _

theorem runs_le {B C : Procs} (h : ProcsLe B C) {text : List Char} {σ : String → Val} {M : Module} (hr : RunsWith B text σ M) :
    M.imports = (libWith B).exportsWith B ∧ RunsWith C text σ ⟨M.defs, M.globals, (libWith C).exportsWith C⟩ := by
  obtain ⟨n, hr⟩ := hr
  simp only [runFileWith] at hr
  obtain ⟨forms, hf, hr⟩ := Option.bind_eq_some_iff.1 hr
  split at hr
  · next hc =>
    obtain ⟨env, he, rfl⟩ := Option.map_eq_some_iff.1 hr
    refine ⟨rfl, n, ?_⟩
    simp only [runFileWith, hf, Option.bind_some]
    rw [if_pos hc, forms_le (exports_le h) n σ forms _ env he]
    rfl
  · cases hr

theorem runs_builtin {text : List Char} {σ : String → Val} {M : Module} : RunsWith builtin text σ M ↔ Runs text σ M := Iff.rfl

theorem exportsWith_mono (B : Procs) : ((libWith B).exportsWith B).Mono := by
  intro n m fu f hnm p hp
  simp only [Module.exportsWith] at hp ⊢
  split at hp
  · next d hd =>
    cases hp
    exact ⟨_, rfl, fun vs => Le.applyDef (fun fu σ e => rkEval_mono (fun _ _ _ _ _ p hp => ⟨p, hp, fun _ => Le.refl _⟩) n m hnm fu σ e) fu d vs⟩
  · exact ⟨p, hp, fun vs => Le.refl _⟩

/-! ### The width that the file sets -/

theorem fnForm_width {d : FnDecl} {x : SExpr} (h : fnForm d = some x) : readWidth x = none := by
  simp only [fnForm, Option.bind_eq_bind, Option.bind_eq_some_iff, Option.some.injEq] at h
  obtain ⟨_, _, _, _, rfl⟩ := h
  cases d.recursive <;> rfl

theorem rdeclSx_width (d : RDecl) : readWidth (rdeclSx d) = none := by cases d <;> rfl

theorem findSome_append_none {α β : Type} {f : α → Option β} {xs ys : List α} (h : ∀ x ∈ xs, f x = none) : (xs ++ ys).findSome? f = ys.findSome? f := by
  rw [List.findSome?_append, List.findSome?_eq_none_iff.2 h]
  rfl

/-- The forms of the file. -/
theorem file_forms {lang cands : List FnDecl} {vars : List (String × VTy)} {b : Nat} {vc : Expr} {text : List Char} {u : Bool}
    (hok : ProblemOk lang cands vars b vc) (hfile : verifyFile lang cands vars b u vc = some text) :
    ∃ ds cs lx cx x, generateVars vars b = some (ds, cs) ∧ lang.mapM fnForm = some lx ∧ cands.mapM fnForm = some cx ∧ rktSx vc = some x ∧
      readModule (String.ofList text) = some (headerForms ++ (lx ++ (cx ++ (ds.map rdeclSx ++ endForms u x)))) := by
  simp only [verifyFile, Option.bind_eq_bind, Option.bind_eq_some_iff, Option.some.injEq] at hfile
  obtain ⟨⟨ds, cs⟩, hgen, s, hs, rfl⟩ := hfile
  have hnames : AllNames ds := by
    unfold generateVars at hgen
    refine genVars_names b _ ds cs ?_ hgen
    intro v hv
    exact (hok.hvars v ((List.mergeSort_perm vars _).mem_iff.1 hv)).2.1
  obtain ⟨lx, cx, x, hlx, hcx, hx, hread⟩ := file_read (sig := fileSig cands lang) (fun f ts t h => fileSig_head (fun d hd => (hok.hfns d hd).1) h)
    (fun d hd => (hok.hfns d (by simp [hd])).1) (fun d hd => (hok.hfns d (by simp [hd])).1) hnames hok.hvc.1
    (fun y hy => by
      obtain ⟨v, hv, rfl⟩ := List.mem_map.1 (hok.hvc.2.2.2 y hy)
      exact (hok.hvars v hv).2.1) hs
  exact ⟨ds, cs, lx, cx, x, hgen, hlx, hcx, hx, hread⟩

/-- **C54**: unless unbounded integers are asked for, the file demands integers of six bits. -/
theorem C54_width {lang cands : List FnDecl} {vars : List (String × VTy)} {b : Nat} {vc : Expr} {text : List Char} {u : Bool}
    (hok : ProblemOk lang cands vars b vc) (hfile : verifyFile lang cands vars b u vc = some text) : bitwidth text = if u then none else some 6 := by
  obtain ⟨ds, cs, lx, cx, x, _, hlx, hcx, _, hread⟩ := file_forms hok hfile
  rw [bitwidth, hread, Option.bind_some, findSome_append_none, findSome_append_none, findSome_append_none, findSome_append_none]
  · cases u <;> rfl
  · intro y hy
    obtain ⟨d, _, rfl⟩ := List.mem_map.1 hy
    exact rdeclSx_width d
  · intro y hy
    obtain ⟨_, _, h⟩ := mapM_forms hcx y hy
    exact fnForm_width h
  · intro y hy
    obtain ⟨_, _, h⟩ := mapM_forms hlx y hy
    exact fnForm_width h
  · intro y hy
    simp only [headerForms, List.mem_cons, List.not_mem_nil, or_false] at hy
    rcases hy with rfl | rfl | rfl | rfl | rfl <;> rfl

attribute [local irreducible] bitwidth

/-! ### What a verified file says -/

/-- The assertions pass exactly if the condition evaluates to something other than false; compare `passes_iff`. -/
theorem passes_bits {k : Nat} {M : Module} {x : SExpr} (hi : M.imports = (libWith (builtinBits k)).exportsWith (builtinBits k))
    (ha : M.find "assertions" = some (assertDef x)) (hf : M.find "assert" = none) (hg : M.globals "assert" = none) (hp : Passes M) :
    ∃ n v, rkEval M n 64 (fun _ => none) x = some v ∧ v ≠ .bool false := by
  obtain ⟨n, w, hw⟩ := hp
  match n, hw with
  | 0, hw => simp [rkEval] at hw
  | 1, hw =>
    rw [rk_call rfl ha] at hw
    simp [applyDef, assertDef, bindArgs, rkEval] at hw
  | n + 2, hw =>
    have hlib : (libWith (builtinBits k)).find "assert" = none := assertions_free.2.2.2
    rw [rk_call rfl ha] at hw
    simp only [List.mapM_nil, Option.pure_def, Option.bind_some, applyDef, assertDef, bindArgs, Bool.false_eq_true, if_false, bindAll] at hw
    rw [rk_app rfl hf hg (by decide), hi] at hw
    simp only [List.mapM_cons, List.mapM_nil, Option.bind_eq_bind, Option.pure_def, Module.exportsWith, hlib, builtinBits, builtin, Option.map_some,
      Option.bind_some] at hw
    cases hx : rkEval M n 64 (fun _ => none) x with
    | none => simp [hx] at hw
    | some v =>
      refine ⟨n, v, hx, ?_⟩
      rintro rfl
      simp [hx, wrapVals, wrapVal] at hw

/-- **C54** for the default of six bits (partial: for problems that satisfy `ProblemOk`).  If Rosette is right that the file has no counterexample, with
integers as the file demands, then the verification condition holds for all values of the variables within the bound for which it can be computed without a
number of more than six bits. -/
theorem C54_six_bits_partial {lang cands : List FnDecl} {vars : List (String × VTy)} {b : Nat} {vc : Expr} {text : List Char}
    (hok : ProblemOk lang cands vars b vc) (hfile : verifyFile lang cands vars b false vc = some text) (hver : VerifiedAs text)
    {I : Interp} (hI : LibMeaning I) (hfns : ∀ d ∈ cands ++ lang, FnHolds I d) (ρ : Env) (hρ : ∀ v ∈ vars, Shaped b v.2 (ρ v.1))
    (hfit : Fits 6 text (vars.map Prod.fst) ρ) : holds I ρ vc := by
  have hver6 : VerifiedBits 6 text := by
    have := C54_width hok hfile
    simpa only [VerifiedAs, this, Bool.false_eq_true, if_false] using hver
  obtain ⟨σ, Mc, hσ, hrun, hval, d, x', n, v, hd, hbody, hv⟩ := hfit
  obtain ⟨hic, hrun1⟩ := runs_le (fits_le_builtin 6) hrun
  obtain ⟨_, hrun2⟩ := runs_le (fits_le_bits (k := 6) (by decide)) hrun
  obtain ⟨ds, cs, x, defs, hgen, hx, hnames, hruns, hmod⟩ := file_module hok hfile
  obtain ⟨hcond, env, henv, hM1⟩ := (hruns σ _).1 (runs_builtin.1 hrun1)
  have hdefs : Mc.defs = defs := congrArg Module.defs hM1
  have hglob : Mc.globals = env := congrArg Module.globals hM1
  obtain ⟨hM, ha, hassert⟩ := hmod hcond env
  obtain ⟨hown, _, hother⟩ := vars_block (fun v hv => ⟨(hok.hvars v hv).1, (hok.hvars v hv).2.2.1⟩) hok.hnodup hgen
  have hassert' : env "assert" = none := hother σ env henv "assert" (fun h =>
    (hcond.2 "assert" (by simp only [List.mem_append]; exact .inr (.inr (.inl h)))).2 (by decide))
  obtain ⟨mdefs, menv, mimp⟩ := Mc
  simp only at hdefs hglob hic
  subst hdefs hglob hic
  have hd' : d = assertDef x := by
    have : some d = some (assertDef x) := hd.symm.trans ha
    exact Option.some.inj this
  subst hd'
  have hxx : x' = x := by
    simp only [assertDef, SExpr.list.injEq, List.cons.injEq, and_true, true_and] at hbody
    exact hbody.symm
  subst hxx
  -- with six bits
  obtain ⟨n2, w, hw, hne⟩ := passes_bits (k := 6) (M := ⟨mdefs, menv, (libWith (builtinBits 6)).exportsWith (builtinBits 6)⟩) rfl ha hassert hassert' (hver6.2 σ _ hσ hrun2)
  have hv2 := rkEval_le (exports_le (fits_le_bits (k := 6) (by decide))) n 64 (fun _ => none) x' v hv
  have hwv : w = v := by
    have h1 := rkEval_mono (exportsWith_mono (builtinBits 6)) n (n + n2) (by omega) 64 (fun _ => none) x' v hv2
    have h2 := rkEval_mono (exportsWith_mono (builtinBits 6)) n2 (n + n2) (by omega) 64 (fun _ => none) x' w hw
    rw [h1] at h2
    exact (Option.some.inj h2).symm
  subst hwv
  -- with unbounded integers
  have hv1 : rkEval ⟨mdefs, menv, lib.exports⟩ n 64 (fun _ => none) x' = some w :=
    rkEval_le (exports_le (fits_le_builtin 6)) n 64 (fun _ => none) x' w hv
  have hg : ∀ y w, menv y = some w → rktName y = true ∧ ∃ v ∈ vars, Under v.1 y := by
    intro y w hy
    refine ⟨globals_names hnames (by simp) henv y w hy, hown y ?_⟩
    by_contra h
    have := hother σ menv henv y h
    rw [hy] at this
    cases this
  obtain ⟨ρ', hag, hρ'⟩ := run_env (fun v hv => (hok.hvars v hv).1) hok.hnodup hρ
  have hsame : eval I ρ vc = eval I ρ' vc := eval_congr I vc (fun y hy => (hag y (hok.hvc.2.2.2 y hy)).symm)
  have hval' : ∀ v ∈ vars, menv v.1 = some (ρ v.1) := fun v hv => hval v.1 (List.mem_map_of_mem hv)
  have := rk_sound hI hM (fun y w hy => (hg y w hy).1)
    (fun d hd => ⟨(hok.hfns d hd).1, hfns d hd, (hok.hfns d hd).2.2⟩) n 64 (fun _ => none) (varTypes vars) ρ' vc x' w hx hok.hvc.1 hok.hvc.2.1 hρ'
    (by simp) (by
      intro y hy
      obtain ⟨q, hq, rfl⟩ := List.mem_map.1 (hok.hvc.2.2.2 y hy)
      refine ⟨(hok.hvars q hq).2.1, fun w hw => ?_⟩
      simp only [evalName, hval' q hq] at hw
      cases hw
      exact (hag _ (hok.hvc.2.2.2 _ hy)).symm) hv1
  have ht := sorted_typed (fileSig_respected hI hfns) hρ' vc hok.hvc.1
  rw [hok.hvc.2.2.1, ← this] at ht
  obtain ⟨bb, rfl⟩ := ht
  cases bb with
  | false => exact absurd rfl hne
  | true =>
    unfold holds
    rw [hsame, ← this]
    rfl

/-! ### Examples -/

/-- Problems with one integer and no functions. -/
def xVars : List (String × VTy) := [("x", .int)]

/-- The module of such a problem. -/
def xModule (B : Procs) (x : SExpr) (i : Int) : Module :=
  ⟨[assertDef x], extend (fun _ => none) "x" (.int i), (libWith B).exportsWith B⟩

theorem x_runs {vc : Expr} {text : List Char} {u : Bool} (hok : ProblemOk [] [] xVars 2 vc) (hfile : verifyFile [] [] xVars 2 u vc = some text) (B : Procs) :
    ∃ x, rktSx vc = some x ∧ ∀ σ M, RunsWith B text σ M ↔ ∃ i, σ "x" = .int i ∧ M = xModule B x i := by
  obtain ⟨ds, cs, lx, cx, x, hgen, hlx, hcx, hx, hread⟩ := file_forms hok hfile
  have hds : ds = [.symInt "x"] := by
    simp [generateVars, xVars, genVars, genVar] at hgen
    exact hgen.1.symm
  simp only [List.mapM_nil, Option.pure_def, Option.some.injEq] at hlx hcx
  subst hlx hcx hds
  refine ⟨x, hx, fun σ M => ?_⟩
  have hrun : ∀ n, runFileWith B text n σ = match σ "x" with | .int i => some (xModule B x i) | _ => none := by
    intro n
    rw [runFileWith, hread, Option.bind_some]
    have h1 : (headerForms ++ ([] ++ ([] ++ ([RDecl.symInt "x"].map rdeclSx ++ endForms u x)))).filterMap defined = ["x", "assertions"] := rfl
    have h2 : (headerForms ++ ([] ++ ([] ++ ([RDecl.symInt "x"].map rdeclSx ++ endForms u x)))).filterMap readDef = [assertDef x] := rfl
    simp only [h1, h2]
    rw [if_pos (by decide +kernel)]
    have h3 : ∀ M env, runForms M n σ env (headerForms ++ ([] ++ ([] ++ ([RDecl.symInt "x"].map rdeclSx ++ endForms u x)))) =
        match σ "x" with | .int i => some (extend env "x" (.int i)) | _ => none := by
      intro M env
      simp [headerForms, runForms, rdeclSx, endForms]
      cases σ "x" <;> rfl
    rw [h3]
    cases σ "x" <;> rfl
  constructor
  · rintro ⟨n, h⟩
    rw [hrun] at h
    split at h
    · next i hi => exact ⟨i, hi, (Option.some.inj h).symm⟩
    · cases h
  · rintro ⟨i, hi, rfl⟩
    exact ⟨0, by rw [hrun, hi]⟩

theorem x_app {B : Procs} {x : SExpr} {i : Int} {n fu : Nat} {h : String} {as : List SExpr} (hh : lib.find h = none) (h1 : h ≠ "assertions")
    (h2 : h ≠ "x") (h3 : h ∉ specialForms) : rkEval (xModule B x i) (n + 1) fu (fun _ => none) (.list (.atom h :: as)) =
      (as.mapM (rkEval (xModule B x i) n fu (fun _ => none))).bind fun vs => (B h).bind fun p => p vs := by
  rw [rk_app rfl ?_ ?_ h3]
  · have : (libWith B).find h = none := hh
    simp only [xModule, Module.exportsWith, this]
  · simp [xModule, Module.find, assertDef, Ne.symm h1]
  · simp [xModule, extend, h2]

theorem x_var {B : Procs} {x : SExpr} {i : Int} {n fu : Nat} : rkEval (xModule B x i) n fu (fun _ => none) (.atom "x") = some (.int i) := by
  rw [rk_atom, evalAtom_name (by decide +kernel), evalName]
  rfl

theorem x_num {M : Module} {n fu : Nat} {s : String} {j : Nat} (h : isNumeric s.toList = true) (hj : numeral s.toList = j) :
    rkEval M n fu (fun _ => none) (.atom s) = some (.int j) := by
  rw [rk_atom, evalAtom, if_pos h, hj]

/-- What the file says about each value of `x`. -/
theorem x_passes {B : Procs} {x : SExpr} {i : Int} (hB : ∀ p, B "assert" = some p → ∀ v w, p [v] = some w → v ≠ .bool false)
    (hB' : ∃ p, B "assert" = some p ∧ p [.bool true] = some (.bool true)) :
    (Passes (xModule B x i) → ∃ n v, rkEval (xModule B x i) n 64 (fun _ => none) x = some v ∧ v ≠ .bool false) ∧
    ((∃ n, rkEval (xModule B x i) n 64 (fun _ => none) x = some (.bool true)) → Passes (xModule B x i)) := by
  have step : ∀ n, rkEval (xModule B x i) (n + 2) 64 (fun _ => none) (.list [.atom "assertions"]) =
      (rkEval (xModule B x i) n 64 (fun _ => none) x).bind fun v => (B "assert").bind fun p => p [v] := by
    intro n
    rw [rk_call (d := assertDef x) rfl rfl]
    simp only [List.mapM_nil, Option.pure_def, Option.bind_some, applyDef, assertDef, bindArgs, Bool.false_eq_true, if_false, bindAll]
    rw [x_app assertions_free.2.2.2 (by decide) (by decide) (by decide)]
    simp only [List.mapM_cons, List.mapM_nil, Option.bind_eq_bind, Option.pure_def, Option.bind_some]
    cases rkEval (xModule B x i) n 64 (fun _ => none) x <;> rfl
  constructor
  · rintro ⟨n, w, hw⟩
    match n, hw with
    | 0, hw => simp [rkEval] at hw
    | 1, hw =>
      rw [rk_call (d := assertDef x) rfl rfl] at hw
      simp [applyDef, assertDef, bindArgs, rkEval] at hw
    | n + 2, hw =>
      rw [step] at hw
      obtain ⟨v, hv, h⟩ := Option.bind_eq_some_iff.1 hw
      obtain ⟨p, hp, h⟩ := Option.bind_eq_some_iff.1 h
      exact ⟨n, v, hv, hB p hp v w h⟩
  · rintro ⟨n, hv⟩
    obtain ⟨p, hp, h⟩ := hB'
    exact ⟨n + 2, .bool true, by rw [step, hv, Option.bind_some, hp, Option.bind_some, h]⟩

theorem bits_assert (k : Nat) : (∀ p, builtinBits k "assert" = some p → ∀ v w, p [v] = some w → v ≠ .bool false) ∧
    ∃ p, builtinBits k "assert" = some p ∧ p [.bool true] = some (.bool true) := by
  refine ⟨?_, _, rfl, rfl⟩
  intro p hp v w h
  cases hp
  rintro rfl
  simp [wrapVals, wrapVal] at h

theorem wrap6 (i : Int) : wrap 6 i = (i + 32) % 64 - 32 := rfl

theorem fits6 (i : Int) : fits 6 (.int i) = true ↔ -32 ≤ i ∧ i < 32 := by
  rw [fits, decide_eq_true_eq]
  exact Iff.rfl

/-- `x <= 31`. -/
def leVc : Expr := .node .le .bool [.var "x" .int, .lit (.int 31)]

theorem leProblem : ProblemOk [] [] xVars 2 leVc where
  hvars := by
    intro v hv
    simp only [xVars, List.mem_cons, List.not_mem_nil, or_false] at hv
    subst hv
    exact ⟨trivial, by decide +kernel, by decide +kernel, by decide +kernel⟩
  hnodup := by decide +kernel
  hfns := by simp
  hvc := by decide +kernel

/-- **C54** is false for the default of six bits: Rosette verifies that `x <= 31` for every integer `x`. -/
theorem C54_six_bits_refuted : ∃ text, ProblemOk [] [] xVars 2 leVc ∧ verifyFile [] [] xVars 2 false leVc = some text ∧ VerifiedAs text ∧
    ∃ ρ : Env, (∀ v ∈ xVars, Shaped 2 v.2 (ρ v.1)) ∧ ∀ I : Interp, ¬ holds I ρ leVc := by
  obtain ⟨text, h⟩ := file_exists false leProblem (by decide +kernel)
  refine ⟨text, leProblem, h, ?_, fun _ => .int 32, ?_, ?_⟩
  · simp only [VerifiedAs, C54_width leProblem h, Bool.false_eq_true, if_false]
    obtain ⟨x, hx, hruns⟩ := x_runs leProblem h (builtinBits 6)
    have hx' : rktSx leVc = some (.list [.atom "<=", .atom "x", .atom "31"]) := by rfl
    rw [hx'] at hx
    cases hx
    refine ⟨⟨fun _ => .int 0, _, fun _ => rfl, (hruns _ _).2 ⟨0, rfl, rfl⟩⟩, ?_⟩
    intro σ M hσ hr
    obtain ⟨i, hi, rfl⟩ := (hruns _ _).1 hr
    have hf := hσ "x"
    rw [hi, fits6] at hf
    refine (x_passes (bits_assert 6).1 (bits_assert 6).2).2 ⟨1, ?_⟩
    rw [x_app (by decide +kernel) (by decide) (by decide) (by decide)]
    simp only [List.mapM_cons, List.mapM_nil, Option.bind_eq_bind, Option.pure_def, Option.bind_some, x_var, x_num (s := "31") (j := 31) (by decide) (by decide),
      builtinBits, builtin, Option.map_some, wrapVals, wrapVal, compare, wrap6, Option.some.injEq, Val.bool.injEq, decide_eq_true_eq]
    omega
  · intro v hv
    simp only [xVars, List.mem_cons, List.not_mem_nil, or_false] at hv
    subst hv
    exact ⟨32, rfl⟩
  · intro I
    simp [holds, leVc, eval, evals, evalOp, Lit.val, Val.asInt]

/-- `x <= 20` implies `x < x + 1`. -/
def gdVc : Expr := .node .implies .bool [.node .le .bool [.var "x" .int, .lit (.int 20)],
  .node .lt .bool [.var "x" .int, .node .add .int [.var "x" .int, .lit (.int 1)]]]

theorem gdProblem : ProblemOk [] [] xVars 2 gdVc where
  hvars := leProblem.hvars
  hnodup := by decide +kernel
  hfns := by simp
  hvc := by decide +kernel

/-- **C54** for six bits, non-vacuity: Rosette verifies the example, and it can be computed for all numbers from -32 to 30. -/
theorem C54_six_bits_example : ∃ text, ProblemOk [] [] xVars 2 gdVc ∧ verifyFile [] [] xVars 2 false gdVc = some text ∧ VerifiedAs text ∧
    ∀ i : Int, -32 ≤ i → i ≤ 30 → Fits 6 text (xVars.map Prod.fst) (fun _ => .int i) := by
  obtain ⟨text, h⟩ := file_exists false gdProblem (by decide +kernel)
  have hx' : rktSx gdVc = some (.list [.atom "=>", .list [.atom "<=", .atom "x", .atom "20"],
      .list [.atom "<", .atom "x", .list [.atom "+", .atom "x", .atom "1"]]]) := by rfl
  have hev : ∀ B y i, rkEval (xModule B y i) 3 64 (fun _ => none) (.list [.atom "=>", .list [.atom "<=", .atom "x", .atom "20"],
      .list [.atom "<", .atom "x", .list [.atom "+", .atom "x", .atom "1"]]]) =
      ((B "<=").bind fun p => p [.int i, .int 20]).bind fun a => (((B "+").bind fun p => p [.int i, .int 1]).bind fun c =>
        (B "<").bind fun p => p [.int i, c]).bind fun b => (B "=>").bind fun p => p [a, b] := by
    intro B y i
    rw [x_app (by decide +kernel) (by decide) (by decide) (by decide)]
    simp only [List.mapM_cons, List.mapM_nil, Option.bind_eq_bind, Option.pure_def]
    rw [x_app (by decide +kernel) (by decide) (by decide) (by decide), x_app (by decide +kernel) (by decide) (by decide) (by decide)]
    simp only [List.mapM_cons, List.mapM_nil, Option.bind_eq_bind, Option.pure_def]
    rw [x_app (by decide +kernel) (by decide) (by decide) (by decide)]
    simp only [List.mapM_cons, List.mapM_nil, Option.bind_eq_bind, Option.pure_def, Option.bind_some, x_var,
      x_num (s := "20") (j := 20) (by decide) (by decide), x_num (s := "1") (j := 1) (by decide) (by decide), Option.bind_assoc]
    rfl
  refine ⟨text, gdProblem, h, ?_, ?_⟩
  · simp only [VerifiedAs, C54_width gdProblem h, Bool.false_eq_true, if_false]
    obtain ⟨x, hx, hruns⟩ := x_runs gdProblem h (builtinBits 6)
    rw [hx'] at hx
    cases hx
    refine ⟨⟨fun _ => .int 0, _, fun _ => rfl, (hruns _ _).2 ⟨0, rfl, rfl⟩⟩, ?_⟩
    intro σ M hσ hr
    obtain ⟨i, hi, rfl⟩ := (hruns _ _).1 hr
    have hf := hσ "x"
    rw [hi, fits6] at hf
    refine (x_passes (bits_assert 6).1 (bits_assert 6).2).2 ⟨3, ?_⟩
    rw [hev]
    simp only [builtinBits, builtin, Option.map_some, Option.bind_some, wrapVals, wrapVal, compare, wrap6, intArgs, List.mapM_cons, List.mapM_nil,
      Val.toInt?, Option.bind_eq_bind, Option.pure_def, List.foldl_cons, List.foldl_nil, Option.some.injEq, Val.bool.injEq, Bool.or_eq_true,
      Bool.not_eq_true', decide_eq_false_iff_not, decide_eq_true_eq]
    omega
  · intro i h1 h2
    obtain ⟨x, hx, hruns⟩ := x_runs gdProblem h (builtinFits 6)
    rw [hx'] at hx
    cases hx
    refine ⟨fun _ => .int i, _, fun _ => (fits6 i).2 (by omega), (hruns _ _).2 ⟨i, rfl, rfl⟩, ?_, _, _, 3,
      .bool (!decide (i ≤ 20) || decide (i < i + 1)), rfl, rfl, ?_⟩
    · intro v hv
      simp only [xVars, List.map_cons, List.map_nil, List.mem_cons, List.not_mem_nil, or_false] at hv
      subst hv
      rfl
    · rw [hev]
      have f1 : fits 6 (.int i) = true := (fits6 i).2 (by omega)
      have f2 : fits 6 (.int (i + 1)) = true := (fits6 _).2 (by omega)
      have f3 : fits 6 (.int 20) = true := by decide
      have f4 : fits 6 (.int 1) = true := by decide
      have f5 : ∀ b, fits 6 (.bool b) = true := fun _ => rfl
      simp [builtinFits, builtin, compare, intArgs, Val.toInt?, fitsAll, f1, f2, f3, f4, f5, Option.filter]

/-- `x < x + 1`. -/
def ltVc : Expr := .node .lt .bool [.var "x" .int, .node .add .int [.var "x" .int, .lit (.int 1)]]

theorem ltProblem : ProblemOk [] [] xVars 2 ltVc where
  hvars := leProblem.hvars
  hnodup := by decide +kernel
  hfns := by simp
  hvc := by decide +kernel

/-- **C54** is false for the default of six bits in the other direction, too: `x < x + 1` holds, and Rosette finds a counterexample. -/
theorem C54_overflow_refuted : ∃ text, ProblemOk [] [] xVars 2 ltVc ∧ verifyFile [] [] xVars 2 false ltVc = some text ∧ ¬ VerifiedAs text ∧
    ∀ (ρ : Env) (I : Interp), (∀ v ∈ xVars, Shaped 2 v.2 (ρ v.1)) → holds I ρ ltVc := by
  obtain ⟨text, h⟩ := file_exists false ltProblem (by decide +kernel)
  refine ⟨text, ltProblem, h, ?_, ?_⟩
  · simp only [VerifiedAs, C54_width ltProblem h, Bool.false_eq_true, if_false]
    obtain ⟨x, hx, hruns⟩ := x_runs ltProblem h (builtinBits 6)
    have hx' : rktSx ltVc = some (.list [.atom "<", .atom "x", .list [.atom "+", .atom "x", .atom "1"]]) := by rfl
    rw [hx'] at hx
    cases hx
    intro hver
    obtain ⟨n, v, hv, hne⟩ := (x_passes (bits_assert 6).1 (bits_assert 6).2).1
      (hver.2 (fun _ => .int 31) _ (fun _ => rfl) ((hruns _ _).2 ⟨31, rfl, rfl⟩))
    have : ∀ n v, rkEval (xModule (builtinBits 6) (.list [.atom "<", .atom "x", .list [.atom "+", .atom "x", .atom "1"]]) 31) n 64 (fun _ => none)
        (.list [.atom "<", .atom "x", .list [.atom "+", .atom "x", .atom "1"]]) = some v → v = .bool false := by
      intro n v hv
      match n, hv with
      | 0, hv => simp [rkEval] at hv
      | 1, hv =>
        rw [x_app (by decide +kernel) (by decide) (by decide) (by decide)] at hv
        simp [rkEval] at hv
      | n + 2, hv =>
        rw [x_app (by decide +kernel) (by decide) (by decide) (by decide)] at hv
        simp only [List.mapM_cons, List.mapM_nil, Option.bind_eq_bind, Option.pure_def, Option.bind_some, x_var] at hv
        rw [x_app (by decide +kernel) (by decide) (by decide) (by decide)] at hv
        simp only [List.mapM_cons, List.mapM_nil, Option.bind_eq_bind, Option.pure_def, Option.bind_some, x_var,
          x_num (s := "1") (j := 1) (by decide) (by decide)] at hv
        exact (Option.some.inj hv).symm
    exact hne (this n v hv)
  · intro ρ I hρ
    obtain ⟨i, hi⟩ := hρ ("x", .int) (by simp [xVars])
    simp only at hi
    simp [holds, ltVc, eval, evals, evalOp, Lit.val, Val.asInt, hi]

end Rkt
end Metalift
