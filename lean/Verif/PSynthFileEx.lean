import Verif.PSynthFile
/-
C61: a problem to which the theorems apply, and one whose solution is out of reach.
-/
namespace Metalift
namespace Rkt
open Smt (OfTy OfTys FnHolds paramEnv)

theorem noClash_of {e : Expr} (h : (e.subs.all fun a => e.subs.all fun b => !a.pyEq b || decide (a = b)) = true) : NoClash e := by
  intro a b ha hb hab
  simp only [List.all_eq_true] at h
  simpa [hab] using h a ((subExpr_iff _).1 ha) b ((subExpr_iff _).1 hb)

/-- Conditions under which a sketch can be printed, as a computation. -/
def sketchFnB (sig : Sigs) (s : SynthFn) : Bool :=
  s.body.sketchSorted (paramTypes s.params) sig && (s.body.subs.all fun a => s.body.subs.all fun b => !a.pyEq b || decide (a = b)) &&
    s.body.vars.all (fun x => decide (x ∈ s.params.map Prod.fst)) && (rktName s.name && userName s.name) && s.params.all (fun p => rktName p.1) &&
    decide (s.params.map Prod.fst).Nodup

theorem sketchFn_of {sig : Sigs} {s : SynthFn} (h : sketchFnB sig s = true) : SketchFn sig s := by
  simp only [sketchFnB, Bool.and_eq_true, decide_eq_true_eq] at h
  obtain ⟨⟨⟨⟨⟨h1, h2⟩, h3⟩, h4⟩, h5⟩, h6⟩ := h
  refine ⟨h1, noClash_of h2, fun x hx => ?_, h4, fun p hp => List.all_eq_true.1 h5 p hp, h6⟩
  exact of_decide_eq_true (List.all_eq_true.1 h3 x hx)

theorem synth_exists {lang : List FnDecl} {synths helpers : List SynthFn} {vars : List (String × VTy)} {b : Nat} {vc : Expr} (basename : String) (rounds : Nat) (guesses : List SynthFn)
    (u : Bool)
    (hok : SketchOk lang (synths ++ helpers) vars b vc)
    (h : ((langTexts lang).isSome && (grammarTexts (synths ++ helpers)).isSome && (rosetteText vc).isSome) = true) :
    ∃ text, synthFile basename rounds guesses lang synths helpers vars b u vc = some text := by
  obtain ⟨ds, cs, e, _⟩ := C24_bounded_inputs_partial b vars (fun v hv => ⟨(hok.hvars v hv).1, (hok.hvars v hv).2.2.1⟩) hok.hnodup
  simp only [Bool.and_eq_true, Option.isSome_iff_exists] at h
  obtain ⟨⟨⟨l, hl⟩, c, hc⟩, v, hv⟩ := h
  simp [synthFile, synthBody, e, hl, hc, hv]

/-! ### A problem -/

/-- `inv0(s, xs)` is `s <= 0`, `s == 0` or `s == total(xs)`. -/
def exSketch : SynthFn where
  name := "inv0"
  params := [("s", .int), ("xs", .list .int)]
  body := .node .choose .bool [.node .le .bool [.var "s" .int, .lit (.int 0)],
    .node .eq .bool [.var "s" .int, .node .choose .int [.lit (.int 0), .node (.call "total") .int [.var "xs" (.list .int)]]]]

theorem exSketchOk : SketchOk [exTotal] ([exSketch] ++ []) exVars 3 exVc where
  hvars := exProblem.hvars
  hnodup := exProblem.hnodup
  hlang := by
    intro d hd
    have : d = exTotal := by simpa [withBody, List.filter, exTotal] using hd
    subst this
    exact ⟨by decide +kernel, by decide +kernel, fun b hb => by cases hb; decide +kernel, by decide +kernel⟩
  hsketch := by
    intro s hs
    have : s = exSketch := by simpa using hs
    subst this
    exact ⟨sketchFn_of (by decide +kernel), by decide +kernel, by decide +kernel, by decide +kernel, by decide +kernel⟩
  hvc := by decide +kernel

theorem exSketchNames : SketchNames 0 [exTotal] ([exSketch] ++ []) exVars where
  hnames := ⟨by decide +kernel, by decide +kernel, by decide +kernel, by decide +kernel, by decide +kernel⟩
  hgram := by decide +kernel

/-- **C61**, non-vacuity: the query for the example has a solution, the definition with `total`. -/
theorem C61_example : ∃ text prog, synthFile "test" 0 [] [exTotal] [exSketch] [] exVars 3 true exVc = some text ∧ Answers text prog ∧ Defines prog exPred := by
  obtain ⟨text, h⟩ := synth_exists "test" 0 [] true exSketchOk (by decide +kernel)
  have hr : All2 (fun s r => ResolvesIn 10 (SynthFn.body s) r) ([exSketch] ++ [])
      [.node .eq .bool [.var "s" .int, .node (.call "total") .int [.var "xs" (.list .int)]]] := by
    refine .cons (.choose (List.mem_cons_of_mem _ (List.mem_singleton.2 rfl)) (.node (by simp) (.cons .var (.cons ?_ .nil)))) .nil
    exact .choose (List.mem_cons_of_mem _ (List.mem_singleton.2 rfl)) (.node (by simp) (.cons .var .nil))
  have hw : withBody [exTotal] = [exTotal] := rfl
  obtain ⟨prog, h1, h2⟩ := C61_found_partial exSketchOk rfl (by decide +kernel) (by simp) exSketchNames h hr exI_lib
    (fun d hd _ => exFns d (by simp only [List.mem_append]; exact .inr hd))
    (fun d hd => exFns d (by simp only [List.mem_append]; exact .inl hd)) (by rw [hw]; exact exSafe) exHolds
  exact ⟨text, prog, h, h1, h2 exPred (List.mem_singleton.2 rfl)⟩

/-! ### Nested choices -/

/-- `choose(0, 1 + choose(0, 1 + ...))`, `n` times. -/
def tower : Nat → Expr
  | 0 => .lit (.int 0)
  | n + 1 => .node .choose .int [.lit (.int 0), .node .add .int [.lit (.int 1), tower n]]

/-- `1 + (1 + ...)`, `n` times. -/
def ones : Nat → Expr
  | 0 => .lit (.int 0)
  | n + 1 => .node .add .int [.lit (.int 1), ones n]

theorem tower_resolves : ∀ n, Resolves (tower n) (ones n)
  | 0 => .lit
  | n + 1 => .choose (List.mem_cons_of_mem _ (List.mem_singleton.2 rfl)) (.node (by simp) (.cons .lit (.cons (tower_resolves n) .nil)))

theorem tower_bounded : ∀ {n d : Nat} {r : Expr}, ResolvesIn d (tower n) r → ∃ k ≤ d, r = ones k
  | 0, d, r, h => by
    rw [tower] at h
    cases h
    exact ⟨0, Nat.zero_le _, rfl⟩
  | n + 1, d, r, h => by
    rw [tower] at h
    cases h with
    | node ho => exact absurd rfl ho
    | @choose d _ _ a _ hm h =>
      rcases List.mem_cons.1 hm with rfl | hm
      · cases h
        exact ⟨0, Nat.zero_le _, rfl⟩
      · cases List.mem_singleton.1 hm
        cases h with
        | node _ h =>
          cases h with
          | cons h1 h2 =>
            cases h1
            cases h2 with
            | cons h3 h4 =>
              cases h4
              obtain ⟨k, hk, rfl⟩ := tower_bounded h3
              exact ⟨k + 1, by omega, rfl⟩

/-- The function to be synthesized: `f(x)`, one of the numbers up to twelve. -/
def towerFn : SynthFn := ⟨"f", tower 12, [("x", .int)]⟩

/-- `f(x) == 12`. -/
def towerVc : Expr := .node .eq .bool [.node (.call "f") .int [.var "x" .int], .lit (.int 12)]

def towerVars : List (String × VTy) := [("x", .int)]

theorem towerOk : SketchOk [] ([towerFn] ++ []) towerVars 2 towerVc where
  hvars := by
    intro v hv
    rw [towerVars, List.mem_singleton] at hv
    subst hv
    exact ⟨trivial, by decide +kernel, by decide +kernel, by decide +kernel⟩
  hnodup := by decide +kernel
  hlang := by intro d hd; cases hd
  hsketch := by
    intro s hs
    have : s = towerFn := by simpa using hs
    subst this
    exact ⟨sketchFn_of (by decide +kernel), by decide +kernel, by decide +kernel, by decide +kernel, by decide +kernel⟩
  hvc := by decide +kernel

theorem towerNames : SketchNames 0 [] ([towerFn] ++ []) towerVars where
  hnames := ⟨by decide +kernel, by decide +kernel, by decide +kernel, by decide +kernel, by decide +kernel⟩
  hgram := by decide +kernel

theorem ones_value (I : Interp) (ρ : Env) : ∀ n : Nat, eval I ρ (ones n) = .int n
  | 0 => by simp [ones, eval, Lit.val]
  | n + 1 => by
    simp only [ones, eval, evals, evalOp, ones_value I ρ n, Lit.val, List.foldl_cons, List.foldl_nil]
    simp
    omega

/-- The meaning in which `f` is constant. -/
noncomputable def constI (k : Nat) : Interp := libInterp fun _ _ => .int k

theorem constI_f (k : Nat) (vs : List Val) : (constI k).fn "f" vs = .int k := libInterp_other _ (by decide +kernel) _

theorem constI_holds (k : Nat) : FnHolds (constI k) (SynthFn.decl towerFn (some (ones k))) := by
  intro vs _
  refine ⟨?_, fun b hb => ?_⟩
  · rw [show (SynthFn.decl towerFn (some (ones k))).name = "f" from rfl, constI_f]
    exact ⟨k, rfl⟩
  · cases hb
    rw [ones_value, show (SynthFn.decl towerFn (some (ones k))).name = "f" from rfl, constI_f]

/-- **C61**, what is not covered: the file asks for derivations of depth ten.  A sketch with twelve nested chooses has a resolution with which the
verification condition holds, and the query has no solution. -/
theorem C61_depth_refuted : ∃ (vc : Expr) (s : SynthFn) (r : Expr) (vars : List (String × VTy)) (text : List Char),
    SketchOk [] ([s] ++ []) vars 2 vc ∧ SketchNames 0 [] ([s] ++ []) vars ∧ Resolves s.body r ∧
    (∀ I ρ, FnHolds I (SynthFn.decl s (some r)) → (∀ v ∈ vars, Shaped 2 v.2 (ρ v.1)) → holds I ρ vc) ∧
    synthFile "test" 0 [] [] [s] [] vars 2 true vc = some text ∧ ∀ prog, ¬ Answers text prog := by
  obtain ⟨text, h⟩ := synth_exists "test" 0 [] true towerOk (by decide +kernel)
  refine ⟨towerVc, towerFn, ones 12, towerVars, text, towerOk, towerNames, tower_resolves 12, ?_, h, ?_⟩
  · intro I ρ hf hρ
    obtain ⟨x, hx⟩ := hρ ("x", .int) (by simp [towerVars])
    simp only at hx
    have := (hf [.int x] ⟨⟨x, rfl⟩, trivial⟩).2 (ones 12) rfl
    rw [ones_value, show (SynthFn.decl towerFn (some (ones 12))).name = "f" from rfl] at this
    simp only [holds, towerVc, eval, evals, hx, ← this, evalOp, Lit.val]
    simp
  · intro prog hans
    obtain ⟨rs, hr, _, hall⟩ := C61_solutions_partial towerOk rfl (by decide +kernel) (by simp) h hans
    cases hr with
    | cons h1 h2 =>
      cases h2
      obtain ⟨k, hk, rfl⟩ := tower_bounded h1
      have := hall (constI k) (libInterp_meaning _) (by simp) (by
        intro d hd
        rw [show chosen ([towerFn] ++ []) [ones k] = [SynthFn.decl towerFn (some (ones k))] from rfl, List.mem_singleton] at hd
        subst hd
        exact constI_holds k) (fun _ => .int 0) (by
        intro v hv
        rw [towerVars, List.mem_singleton] at hv
        subst hv
        exact ⟨0, rfl⟩)
      simp only [holds, towerVc, eval, evals, evalOp, constI_f, Lit.val] at this
      have h12 : (k : Int) = 12 := by simpa using this
      omega

end Rkt
end Metalift
