import Verif.PLlvmEnd
import Verif.PEndToEndEx
/-
A complete example for C51: the sum of a vector; and what the hypotheses exclude.
-/
namespace Metalift.Ll
open Smt

namespace SumLl
open SumUp

/-- `int f(vector<int> l) { int r = 0, i = 0; while (i < l.size()) { r = r + l[i]; i = i + 1; } return r; }`, with a signed `size()`. -/
def func : Func where
  name := "f"
  args := ["l"]
  sret := none
  retTy := .int
  ty := fun x => if x = "l" then .list .int else if x = "cmp" then .bool else .int
  blocks :=
    [ { name := "entry", insts := [.alloca "r" .int, .alloca "i" .int, .store (.int 0) "r", .store (.int 0) "i"],
        term := .br "cond", succs := ["cond"], preds := [] },
      { name := "cond", insts := [.load false "t0" "i", .call false "n" "list_length" .int [.ptr "l"], .icmp .slt "cmp" (.reg "t0") (.reg "n")],
        term := .cbr (.reg "cmp") "body" "end", succs := ["body", "end"], preds := ["entry"] },
      { name := "body", insts := [.load false "t1" "r", .load false "t2" "i", .call true "ref" "list_get" .int [.ptr "l", .reg "t2"],
          .load false "t3" "ref", .bin .add true "t4" (.reg "t1") (.reg "t3"), .store (.reg "t4") "r",
          .bin .add true "t5" (.reg "t2") (.int 1), .store (.reg "t5") "i"],
        term := .br "cond", succs := [], preds := ["cond"] },
      { name := "end", insts := [.load false "t6" "r"], term := .ret (some (.reg "t6")), succs := [], preds := ["cond"] } ]
  loops := [{ header := "cond", blocks := ["cond", "body"], latches := ["body"], inv := "f_inv0", invArgs := ["l", "i", "r"] }]

def scope : String → Scope := fun b => if b = "entry" then ⟨[], ["l"]⟩ else ⟨[], ["l", "r", "i"]⟩

/-- The verification condition is the one of the Python function. -/
theorem vc_eq : func.vc [] = some SumUp.vc := by decide +kernel

theorem env_ty (L : List Int) (x : String) : OfTy (func.ty x) ((fun x => if x = "cmp" then Val.bool true else SumUp.env L x) x) := by
  simp only [func, SumUp.env]
  by_cases h1 : x = "l"
  · subst h1; exact encL_ofTy L
  · by_cases h2 : x = "cmp"
    · subst h2; exact ⟨true, rfl⟩
    · simp only [if_neg h1, if_neg h2]; exact ⟨0, rfl⟩

/-- The argument and values for the other names. -/
def env (L : List Int) : Env := fun x => if x = "cmp" then .bool true else SumUp.env L x

theorem I_solver : SolverFns I := ⟨I_usual.solver, I_usual.files⟩

theorem cands_hold : ∀ d ∈ cands, FnHolds I d := by
  intro d hd
  simp only [cands, List.mem_cons, List.not_mem_nil, or_false] at hd
  rcases hd with rfl | rfl
  · exact inv_holds
  · exact ps_holds

theorem lang_holds : ∀ d ∈ [exSum], FnHolds I d := by
  intro d hd; simp only [List.mem_singleton] at hd; subst hd; exact sum_holds

/-- All hypotheses of C51 hold for the example: every run of the function on a vector of integers that returns, returns the sum (there is no
division, so that all runs are meant). -/
theorem returns_sum (L : List Int) (v : Val) (hrun : Returns func I (env L) v) : v = .int L.sum := by
  have := (C51_lifted_program_partial kahn kahn_spec id (fun _ => .refl _) func [] scope SumUp.vc (by decide +kernel) (by decide +kernel) vc_eq
    [exSum] [] cands vars queryOk (by decide +kernel) (by decide +kernel) text text_eq unsat psDecl (by simp [cands]) rfl
    [("l", .list .int)] "r" rfl rfl (sum l) ⟨_, .inl rfl⟩ (by decide) I I_solver lang_holds (by simp) cands_hold
    (env L) (env_ty L) (by simp) v (returns_noDiv (by decide +kernel) hrun)).2
  rw [this]
  simp [eval, evals, evalOp, sum, l, mkCall, paramEnv, func, env, SumUp.env, I_sum]

/-- There are such runs. -/
example : Returns func I (env [7, 8]) (.int 15) := run_returns (n := 10) rfl

theorem cands_ok : LlCandsOk ["f"] ["f_inv0", "f_ps"] func [exSum] [] vars SumUp.vc cands where
  query := SumUp.cands_ok.query
  results := SumUp.cands_ok.results
  asked := by decide
  sorted := by decide +kernel
  post := by
    intro d hd hn
    simp only [cands, List.mem_cons, List.not_mem_nil, or_false] at hd
    rcases hd with rfl | rfl
    · exact absurd hn (by decide)
    · exact ⟨[("l", .list .int)], "r", sum l, rfl, rfl, ⟨_, .inl rfl⟩, by decide⟩

/-- `Driver.synthesize` of the LLVM front end ends normally with the version `sum(l)` of the function. -/
theorem driver_returns {asserts : List Expr} (hvc : andObjects asserts = some SumUp.vc) :
    llSynthesize kahn id [] ["f"] ["f_inv0", "f_ps"] asserts [exSum] [] vars driverEnv 1 = some (.returned ([("f", some (sum l))], cands)) := by
  have ht : verifyText kahn id [] [exSum] [] vars SumUp.vc.simplify cands = some text := by
    unfold verifyText
    simp only
    rw [if_pos (by decide +kernel)]
    simp only [parseCands_id, funext (transformDecl_eq []), List.map_nil]
    rw [show SumUp.vc.simplify = SumUp.vc by decide +kernel]
    exact text_eq
  unfold llSynthesize runSynthesis
  rw [hvc]
  simp only [driverEnv, rosetteSynthesize, rosetteLoop, rosetteBody, rosetteVerify, true_or, if_true, ht, verifySynthResult,
    Bool.false_eq_true, if_false, Int.reduceLT]
  rfl

/-- All hypotheses of `C51_driver_partial` hold for the example: what the driver keeps is what the function returns. -/
theorem driver_sum (L : List Int) (v : Val) (hrun : Returns func I (env L) v) : v = .int L.sum := by
  have hvc := vc_eq
  cases hV : func.call [] with
  | none => simp [Func.vc, hV] at hvc
  | some V =>
    have hand : andObjects (func.asserts V) = some SumUp.vc := by
      simpa only [Func.vc, hV, Option.bind_eq_bind, Option.bind_some] using hvc
    obtain ⟨_, _, _, ps, r, _, _, ⟨d, hd, hn, hp⟩, _, h⟩ := C51_driver_partial kahn kahn_spec id (fun _ => .refl _) func [] scope V SumUp.vc
      (by decide +kernel) (by decide +kernel) hV hvc ["f"] ["f_inv0", "f_ps"] plain_f (by decide) [exSum] [] vars [] (by decide +kernel)
      (by decide +kernel) driverEnv driver_right (by rintro _ _ rest c _ hc; cases hc; exact cands_ok) 1 _ _ (driver_returns hand) (sum l) rfl
    have := h I I_solver lang_holds (by simp) cands_hold (env L) (env_ty L) (by simp) v (returns_noDiv (by decide +kernel) hrun)
    have hps : ps = [("l", .list .int)] := by
      simp only [cands, List.mem_cons, List.not_mem_nil, or_false] at hd
      rcases hd with rfl | rfl
      · exact absurd hn (by decide)
      · exact ((List.append_inj' (show [("l", Ty.list .int)] ++ [("r", .int)] = ps ++ [(r, func.retTy)] from hp) rfl).1).symm
    rw [this, hps]
    simp [eval, evals, evalOp, sum, l, mkCall, paramEnv, func, env, SumUp.env, I_sum]

end SumLl

/-! ### What the hypotheses of C51 exclude -/

/-- Everything that C51 assumes about a program, a query and an interpretation, but for the answer of the solver and the run. -/
structure LlSituation (F : Func) (scope : String → Scope) (lang cands : List FnDecl) (vars : List (String × Ty)) (vc : Expr) (text : String)
    (I : Interp) (ρ : Env) : Prop where
  supported : F.supported [] scope = true
  solverOk : F.solverOk = true
  cond : F.vc [] = some vc
  query : QueryOk lang [] cands vars vc
  reserved : ∀ v ∈ vars, v.1 ∉ reserved ∧ v.1 ≠ "list_empty" ∧ v.1 ≠ "matrix_empty"
  types : ∀ v ∈ vars, v.2 = F.ty v.1
  text : queryText kahn id lang [] cands vars vc = some text
  fns : SolverFns I
  lang : ∀ d ∈ lang, FnHolds I d
  cands : ∀ d ∈ cands, FnHolds I d
  args : ∀ x, OfTy (F.ty x) (ρ x)

/-- `int f(int a, int b) { return a / b; }` -/
def divFn : Func where
  name := "f"
  args := ["a", "b"]
  sret := none
  retTy := .int
  ty := fun _ => .int
  blocks := [ { name := "entry", insts := [.bin .sdiv false "q" (.reg "a") (.reg "b")], term := .ret (some (.reg "q")), succs := [], preds := [] } ]
  loops := []

/-- C51 is false with LLVM's own runs: `a / b` is verified against the solver's division, but LLVM rounds differently when the dividend is
negative: here the postcondition `result == a / b` is accepted, and false of `-7 / 2`. -/
theorem C51_negative_dividend_refuted : ∃ F scope lang cands vars vc text I ρ v, LlSituation F scope lang cands vars vc text I ρ ∧
    (∀ fs, readFile filesText = some (fs ++ [c_matrix_transpose]) → ∀ cs, readScript text = some cs → ∀ M : Model, ¬ M.Sat (fs ++ cs)) ∧
    Returns F I ρ v ∧ ¬ F.contract I ρ v := by
  obtain ⟨text, h⟩ := retSituation (pe := .bin .floordiv (.name "a") (.name "b")) (body := .node .eq .bool [vi "r", .node .div .int [vi "a", vi "b"]])
    (e := .node .div .int [vi "a", vi "b"]) (p := fun a b r => decide (r = Int.ediv a b)) (by decide +kernel) (by decide +kernel) rfl
    (by decide +kernel) (by intro a b r; simp [eval, evals, evalOp, vi, paramEnv, List.lookup, retI, usualI]) (by decide +kernel) (-7) 2
  refine ⟨divFn, fun _ => ⟨["a", "b"], []⟩, _, _, _, _, text, _, _, .int (-3),
    ⟨by decide +kernel, by decide +kernel, by decide +kernel, h.query, h.reserved, ?_, h.text, ⟨h.usual.solver, h.usual.files⟩, h.lang, h.cands, h.args⟩,
    retUnsat h ?_, ?_, ?_⟩
  · intro v hv
    exact h.types v hv
  · intro J σ a b ha hb
    exact ⟨_, rfl, by simp [eval, evals, evalOp, vi, paramEnv, List.lookup, ha, hb]⟩
  · exact run_returns (n := 2) rfl
  · unfold Func.contract
    show ¬ ((retI _).fn "f_ps" [.int (-7), .int 2, .int (-3)]).asBool = true
    rw [retI_ps]
    decide

/-- `int f(int a, int b) { return a; }` -/
def firstFn : Func where
  name := "f"
  args := ["a", "b"]
  sret := none
  retTy := .int
  ty := fun _ => .int
  blocks := [ { name := "entry", insts := [], term := .ret (some (.reg "a")), succs := [], preds := [] } ]
  loops := []

/-- The answer for the whole files says nothing: with the definition of `matrix_transpose`, `unsat` is right for every query, also when the
synthesised postcondition (here: the result is 0) is wrong. -/
theorem C51_whole_files_refuted : ∃ F scope lang cands vars vc text I ρ v, LlSituation F scope lang cands vars vc text I ρ ∧
    (∀ fs, readFile filesText = some fs → ∀ cs, readScript text = some cs → ∀ M : Model, ¬ M.Sat (fs ++ cs)) ∧
    @Returns solverOps F I ρ v ∧ ¬ F.contract I ρ v := by
  obtain ⟨text, h⟩ := retSituation (pe := .name "a") (body := .node .eq .bool [vi "r", intLit 0])
    (e := vi "a") (p := fun _ _ r => decide (r = 0)) (by decide +kernel) (by decide +kernel) rfl
    (by decide +kernel) (by intro a b r; simp [eval, evals, evalOp, vi, intLit, Lit.val, paramEnv, List.lookup]) (by decide +kernel) 7 0
  refine ⟨firstFn, fun _ => ⟨["a", "b"], []⟩, _, _, _, _, text, _, _, .int 7,
    ⟨by decide +kernel, by decide +kernel, by decide +kernel, h.query, h.reserved, ?_, h.text, ⟨h.usual.solver, h.usual.files⟩, h.lang, h.cands, h.args⟩,
    ?_, ?_, ?_⟩
  · intro v hv
    exact h.types v hv
  · exact fun fs hfs cs _ M => C27_every_query_unsat_refuted fs cs hfs M
  · exact returns_noDiv (by decide) (run_returns (n := 2) rfl)
  · unfold Func.contract
    show ¬ ((retI _).fn "f_ps" [.int 7, .int 0, .int 7]).asBool = true
    rw [retI_ps]
    decide

end Metalift.Ll
