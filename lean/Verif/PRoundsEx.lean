import Verif.PRounds
import Verif.PSynthFileEx
/-
C67: a problem whose second round accepts a program that is wrong.
-/
namespace Metalift
namespace Rkt
open Smt (OfTy OfTys FnHolds paramEnv)

/-- `f(x)` is `0` or `x`. -/
def roundFn : SynthFn := ⟨"f", .node .choose .int [.lit (.int 0), .var "x" .int], [("x", .int)]⟩

def roundVars : List (String × VTy) := [("x", .int), ("y", .int)]

/-- If `f(x) == 0` then `f(y) == 0`. -/
def roundVc : Expr := .node .implies .bool [.node .eq .bool [.node (.call "f") .int [.var "x" .int], .lit (.int 0)],
  .node .eq .bool [.node (.call "f") .int [.var "y" .int], .lit (.int 0)]]

theorem roundOk : SketchOk [] ([roundFn] ++ []) roundVars 2 roundVc where
  hvars := by
    intro v hv
    simp only [roundVars, List.mem_cons, List.not_mem_nil, or_false] at hv
    rcases hv with rfl | rfl
    · exact ⟨trivial, by decide +kernel, by decide +kernel, by decide +kernel⟩
    · exact ⟨trivial, by decide +kernel, by decide +kernel, by decide +kernel⟩
  hnodup := by decide +kernel
  hlang := by intro d hd; cases hd
  hsketch := by
    intro s hs
    have : s = roundFn := by simpa using hs
    subst this
    exact ⟨sketchFn_of (by decide +kernel), by decide +kernel, by decide +kernel, by decide +kernel, by decide +kernel⟩
  hvc := by decide +kernel

theorem roundNames : SketchNames 1 [] ([roundFn] ++ []) roundVars where
  hnames := ⟨by decide +kernel, by decide +kernel, by decide +kernel, by decide +kernel, by decide +kernel⟩
  hgram := by decide +kernel

theorem roundScope : GuessScope [roundFn] roundVars := by
  intro g hg p hp
  cases List.mem_singleton.1 hg
  cases List.mem_singleton.1 hp
  exact ⟨("x", .int), by simp [roundVars], rfl, rfl⟩

/-- The meaning in which `f` is the identity. -/
noncomputable def identI : Interp := libInterp fun _ vs => vs.headD (.int 0)

theorem identI_f (v : Val) : identI.fn "f" [v] = v := libInterp_other _ (by decide +kernel) _

theorem ofTys_single {t : Ty} {vs : List Val} (h : OfTys [t] vs) : ∃ v, vs = [v] ∧ OfTy t v := by
  cases vs with
  | nil => exact absurd h (by simp [OfTys])
  | cons v vs =>
    obtain ⟨h1, h2⟩ := h
    cases vs with
    | nil => exact ⟨v, rfl, h1⟩
    | cons _ _ => exact absurd h2 (by simp [OfTys])

theorem identI_holds : FnHolds identI (SynthFn.decl roundFn (some (.var "x" .int))) := by
  intro vs hvs
  obtain ⟨v, rfl, hv⟩ := ofTys_single hvs
  refine ⟨?_, fun b hb => ?_⟩
  · rw [show (SynthFn.decl roundFn (some (.var "x" .int))).name = "f" from rfl, identI_f]
    exact hv
  · cases hb
    rw [show (SynthFn.decl roundFn (some (.var "x" .int))).name = "f" from rfl, identI_f]
    rfl

theorem constI_round : FnHolds (constI 0) (SynthFn.decl roundFn (some (.lit (.int 0)))) := by
  intro vs _
  refine ⟨?_, fun b hb => ?_⟩
  · rw [show (SynthFn.decl roundFn (some (.lit (.int 0)))).name = "f" from rfl, constI_f]
    exact ⟨0, rfl⟩
  · cases hb
    rw [show (SynthFn.decl roundFn (some (.lit (.int 0)))).name = "f" from rfl, constI_f]
    rfl

theorem round_means {r : Expr} {I : Interp} (hI : LibMeaning I) (h : FnHolds I (SynthFn.decl roundFn (some r))) : MeansWith [] ([roundFn] ++ []) [r] I where
  hlib := hI
  hlang := by simp
  hchosen := by
    intro d hd
    cases List.mem_singleton.1 hd
    exact h

theorem round_call {I : Interp} {ρ : Env} {r a : Expr} {t : Ty} (ha : Safe I (chosen ([roundFn] ++ []) [r] ++ withBody []) 64 ρ a)
    (hr : ∀ ρ', Safe I (chosen ([roundFn] ++ []) [r] ++ withBody []) 64 ρ' r) :
    Safe I (chosen ([roundFn] ++ []) [r] ++ withBody []) 64 ρ (.node (.call "f") t [a]) :=
  .fn (d := SynthFn.decl roundFn (some r)) (by simpa using ha) (by simp [chosen]) rfl rfl (hr _)

theorem round_vc_safe {I : Interp} {ρ : Env} {r : Expr} (hr : ∀ ρ', Safe I (chosen ([roundFn] ++ []) [r] ++ withBody []) 64 ρ' r) :
    Safe I (chosen ([roundFn] ++ []) [r] ++ withBody []) 64 ρ roundVc := by
  refine .op (by simp) (by simp) (by simp) (by simp) ?_
  simp only [List.mem_cons, List.not_mem_nil, or_false, forall_eq_or_imp, forall_eq]
  constructor
  · refine .op (by simp) (by simp) (by simp) (by simp) ?_
    simp only [List.mem_cons, List.not_mem_nil, or_false, forall_eq_or_imp, forall_eq]
    exact ⟨round_call .var hr, .lit⟩
  · refine .op (by simp) (by simp) (by simp) (by simp) ?_
    simp only [List.mem_cons, List.not_mem_nil, or_false, forall_eq_or_imp, forall_eq]
    exact ⟨round_call .var hr, .lit⟩

/-- The two programs. -/
noncomputable def roundSols : List (List Expr × Interp) := [([.lit (.int 0)], constI 0), ([.var "x" .int], identI)]

theorem round_mem {r : List Expr × Interp} (h : r ∈ roundSols) : r = ([.lit (.int 0)], constI 0) ∨ r = ([.var "x" .int], identI) := by
  simpa [roundSols] using h

/-- Both bodies for `f` are found, `0` first. -/
theorem round_found : ∃ text progs, synthFile "test" 1 [roundFn] [] [roundFn] [] roundVars 2 true roundVc = some text ∧ AnswersRounds text progs ∧
    All2 (fun prog (r : List Expr × Interp) => ∀ d ∈ chosen ([roundFn] ++ []) r.1, Defines prog d) progs roundSols := by
  obtain ⟨text, h⟩ := synth_exists "test" 1 [roundFn] true roundOk (by decide +kernel)
  suffices hs : ∃ progs, AnswersRounds text progs ∧
      All2 (fun prog (r : List Expr × Interp) => ∀ d ∈ chosen ([roundFn] ++ []) r.1, Defines prog d) progs roundSols by
    obtain ⟨progs, h1, h2⟩ := hs
    exact ⟨text, progs, h, h1, h2⟩
  refine C67_found_partial roundOk rfl (by decide +kernel) (by simp) roundScope roundNames h (sols := roundSols) (by simp [roundSols]) ?_ ?_ ?_
  · intro r hr
    rcases round_mem hr with rfl | rfl
    · refine ⟨.cons (.choose (List.mem_cons_self ..) .lit) .nil, round_means (libInterp_meaning _) constI_round, fun ρ _ g hg => ?_⟩
      cases List.mem_singleton.1 hg
      exact round_call .var fun _ => .lit
    · refine ⟨.cons (.choose (List.mem_cons_of_mem _ (List.mem_singleton.2 rfl)) .var) .nil, round_means (libInterp_meaning _) identI_holds, fun ρ _ g hg => ?_⟩
      cases List.mem_singleton.1 hg
      exact round_call .var fun _ => .var
  · intro i r hi
    refine ⟨fun _ => .int 1, fun v hv => ?_, fun j r' hj hr' => ?_⟩
    · simp only [roundVars, List.mem_cons, List.not_mem_nil, or_false] at hv
      rcases hv with rfl | rfl <;> exact ⟨1, rfl⟩
    · match i, j with
      | 0, _ => omega
      | 1, 0 =>
        cases hi
        cases hr'
        refine ⟨roundFn, by simp, ?_⟩
        simp only [roundFn, List.map_cons, List.map_nil, identI_f, constI_f]
        decide
      | 1, j + 1 => omega
      | i + 2, _ => simp [roundSols] at hi
  · intro i r hi ρ hρ hd
    obtain ⟨x, hx⟩ := hρ ("x", .int) (by simp [roundVars])
    obtain ⟨y, hy⟩ := hρ ("y", .int) (by simp [roundVars])
    simp only at hx hy
    match i with
    | 0 =>
      cases hi
      refine ⟨round_vc_safe fun _ => .lit, ?_⟩
      simp [holds, roundVc, eval, evals, evalOp, constI_f, Lit.val]
    | 1 =>
      cases hi
      refine ⟨round_vc_safe fun _ => .var, ?_⟩
      obtain ⟨g, hg, hne⟩ := hd 0 _ (by omega) rfl
      cases List.mem_singleton.1 hg
      simp only [roundFn, List.map_cons, List.map_nil, identI_f, constI_f, hx] at hne
      simp [holds, roundVc, eval, evals, evalOp, identI_f, Lit.val, hx, hy]
      exact .inl fun h => hne (by rw [h]; rfl)
    | i + 2 => simp [roundSols] at hi

/-- **C67**, what is not covered: programs found in later rounds are only demanded to satisfy the verification condition where they differ from the
earlier ones.  Here the second program is accepted, and with its definition the condition fails for values within the bound. -/
theorem C67_later_refuted : ∃ (vc : Expr) (s : SynthFn) (vars : List (String × VTy)) (text : List Char) (progs : List (List SExpr)) (prog : List SExpr) (r : Expr),
    SketchOk [] ([s] ++ []) vars 2 vc ∧ GuessScope [s] vars ∧ synthFile "test" 1 [s] [] [s] [] vars 2 true vc = some text ∧
    AnswersRounds text progs ∧ progs[1]? = some prog ∧ Resolves s.body r ∧ Defines prog (SynthFn.decl s (some r)) ∧
    ∃ ρ : Env, (∀ v ∈ vars, Shaped 2 v.2 (ρ v.1)) ∧ ∀ I, FnHolds I (SynthFn.decl s (some r)) → ¬ holds I ρ vc := by
  obtain ⟨text, progs, h1, h2, h3⟩ := round_found
  obtain ⟨prog, hp, hd⟩ := all2_get_right h3 (i := 1) (c := ([.var "x" .int], identI)) rfl
  refine ⟨roundVc, roundFn, roundVars, text, progs, prog, .var "x" .int, roundOk, roundScope, h1, h2, hp,
    .choose (List.mem_cons_of_mem _ (List.mem_singleton.2 rfl)) .var, hd _ (by simp [chosen]), fun x => if x = "y" then .int 5 else .int 0, ?_, ?_⟩
  · intro v hv
    simp only [roundVars, List.mem_cons, List.not_mem_nil, or_false] at hv
    rcases hv with rfl | rfl
    · exact ⟨0, by simp⟩
    · exact ⟨5, by simp⟩
  · intro I hI hh
    have key : ∀ k : Int, I.fn "f" [.int k] = .int k := by
      intro k
      have := (hI [.int k] ⟨⟨k, rfl⟩, trivial⟩).2 _ rfl
      exact this.symm
    simp [holds, roundVc, eval, evals, evalOp, key, Lit.val] at hh

/-- **C67**, non-vacuity: a file with two rounds and solutions of both, with which all hypotheses are met. -/
theorem C67_example : ∃ text progs, SketchOk [] ([roundFn] ++ []) roundVars 2 roundVc ∧ GuessScope [roundFn] roundVars ∧
    synthFile "test" 1 [roundFn] [] [roundFn] [] roundVars 2 true roundVc = some text ∧ AnswersRounds text progs ∧ progs.length = 2 := by
  obtain ⟨text, progs, h1, h2, h3⟩ := round_found
  have hl : ∀ {as : List (List SExpr)} {bs : List (List Expr × Interp)} {R : List SExpr → List Expr × Interp → Prop}, All2 R as bs → as.length = bs.length := by
    intro as bs R h
    induction h with
    | nil => rfl
    | cons _ _ ih => simp [ih]
  exact ⟨text, progs, roundOk, roundScope, h1, h2, hl h3⟩

end Rkt
end Metalift
