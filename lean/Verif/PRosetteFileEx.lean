import Verif.PRosetteFile
/-
C54: a problem to which the theorems apply, and problems that are true but not verified.
-/
namespace Metalift
namespace Rkt
open Smt (OfTy OfTys FnHolds paramEnv)

theorem file_exists {lang cands : List FnDecl} {vars : List (String × VTy)} {b : Nat} {vc : Expr} (u : Bool) (hok : ProblemOk lang cands vars b vc)
    (h : ((langTexts lang).isSome && (candTexts cands).isSome && (rosetteText vc).isSome) = true) :
    ∃ text, verifyFile lang cands vars b u vc = some text := by
  obtain ⟨ds, cs, e, _⟩ := C24_bounded_inputs_partial b vars (fun v hv => ⟨(hok.hvars v hv).1, (hok.hvars v hv).2.2.1⟩) hok.hnodup
  simp only [Bool.and_eq_true, Option.isSome_iff_exists] at h
  obtain ⟨⟨⟨l, hl⟩, c, hc⟩, v, hv⟩ := h
  simp [verifyFile, fileBody, e, hl, hc, hv]

/-! ### A problem -/

/-- `total(xs) = 0 if len(xs) == 0 else xs[0] + total(xs[1:])`. -/
def exTotal : FnDecl where
  name := "total"
  ret := .int
  params := [("xs", .list .int)]
  body := some (.node .ite .int [.node .eq .bool [.node (.call "list_length") .int [.var "xs" (.list .int)], .lit (.int 0)], .lit (.int 0),
    .node .add .int [.node (.call "list_get") .int [.var "xs" (.list .int), .lit (.int 0)],
      .node (.call "total") .int [.node (.call "list_tail") (.list .int) [.var "xs" (.list .int), .lit (.int 1)]]]])
  recursive := true

/-- `inv0(s, xs) = (s == total(xs))`. -/
def exPred : FnDecl where
  name := "inv0"
  ret := .bool
  params := [("s", .int), ("xs", .list .int)]
  body := some (.node .eq .bool [.var "s" .int, .node (.call "total") .int [.var "xs" (.list .int)]])

/-- The variables. -/
def exVars : List (String × VTy) := [("r", .int), ("l", .list .int), ("x", .int)]

/-- `inv0(r, l)` implies `inv0(x + r, [x] + l)`. -/
def exVc : Expr := .node .implies .bool [.node (.call "inv0") .bool [.var "r" .int, .var "l" (.list .int)],
  .node (.call "inv0") .bool [.node .add .int [.var "x" .int, .var "r" .int],
    .node (.call "list_prepend") (.list .int) [.var "x" .int, .var "l" (.list .int)]]]

theorem exProblem : ProblemOk [exTotal] [exPred] exVars 3 exVc where
  hvars := by
    intro v hv
    simp only [exVars, List.mem_cons, List.not_mem_nil, or_false] at hv
    rcases hv with rfl | rfl | rfl <;> exact ⟨trivial, by decide +kernel, by decide +kernel, by decide +kernel⟩
  hnodup := by decide +kernel
  hfns := by
    intro d hd
    simp only [List.cons_append, List.nil_append, List.mem_cons, List.not_mem_nil, or_false] at hd
    rcases hd with rfl | rfl
    · exact ⟨by decide +kernel, by decide +kernel, fun b hb => by cases hb; decide +kernel⟩
    · exact ⟨by decide +kernel, by decide +kernel, fun b hb => by cases hb; decide +kernel⟩
  hvc := by decide +kernel

theorem exNames : NamesOk [exTotal] [exPred] exVars where
  hdiff := by decide +kernel
  hfree := by decide +kernel
  hfns := by decide +kernel
  hvis := by decide +kernel
  hparams := by decide +kernel

theorem exFile : ∃ text, verifyFile [exTotal] [exPred] exVars 3 true exVc = some text := file_exists true exProblem (by decide +kernel)

/-- The meaning of the two functions. -/
def exMeaning (f : String) (vs : List Val) : Val :=
  match f, vs with
  | "total", [.list l] => .int (l.map Val.asInt).sum
  | "inv0", [s, .list l] => .bool (decide (s = .int (l.map Val.asInt).sum))
  | _, _ => .int 0

section
variable {I : Interp} (hI : LibMeaning I)
include hI

theorem fn_length {l : List Val} (h : OfTy (.list .int) (.list l)) : I.fn "list_length" [.list l] = .int l.length :=
  hI.lib "list_length" [.list .int] .int "length" (by decide +kernel) (by decide +kernel) _ _ ⟨h, trivial⟩ 0 0 (by
    rw [call_lib, libCall_builtin (by decide +kernel)]
    exact b_length)

theorem fn_get {l : List Val} {i : Int} (h : OfTy (.list .int) (.list l)) : I.fn "list_get" [.list l, .int i] = refV (.int 0) l i :=
  hI.lib "list_get" [.list .int, .int] .int "list-ref-noerr" (by decide +kernel) (by decide +kernel) _ _ ⟨h, ⟨i, rfl⟩, trivial⟩ 6 0 (by
    rw [call_lib]
    exact lib_list_ref (n := 0))

theorem fn_tail {l : List Val} {i : Int} (h : OfTy (.list .int) (.list l)) : I.fn "list_tail" [.list l, .int i] = .list (listTail l i) :=
  hI.lib "list_tail" [.list .int, .int] (.list .int) "list-tail-noerr" (by decide +kernel) (by decide +kernel) _ _ ⟨h, ⟨i, rfl⟩, trivial⟩ 6 0 (by
    rw [call_lib]
    exact lib_list_tail (n := 0))

theorem fn_prepend {l : List Val} {i : Int} (h : OfTy (.list .int) (.list l)) : I.fn "list_prepend" [.int i, .list l] = .list (.int i :: l) :=
  hI.lib "list_prepend" [.int, .list .int] (.list .int) "list-prepend" (by decide +kernel) (by decide +kernel) _ _ ⟨⟨i, rfl⟩, h, trivial⟩ 6 0 (by
    rw [call_lib]
    exact lib_list_prepend (n := 0))
end

/-- The meaning of all functions. -/
noncomputable def exI : Interp := libInterp exMeaning

theorem exI_lib : LibMeaning exI := libInterp_meaning exMeaning

theorem exI_total {l : List Val} : exI.fn "total" [.list l] = .int (l.map Val.asInt).sum :=
  libInterp_other exMeaning (by decide +kernel) _

theorem exI_inv {s : Val} {l : List Val} : exI.fn "inv0" [s, .list l] = .bool (decide (s = .int (l.map Val.asInt).sum)) :=
  libInterp_other exMeaning (by decide +kernel) _

theorem exFns : ∀ d ∈ [exPred] ++ [exTotal], FnHolds exI d := by
  intro d hd
  simp only [List.cons_append, List.nil_append, List.mem_cons, List.not_mem_nil, or_false] at hd
  rcases hd with rfl | rfl
  · rintro vs hvs
    match vs, hvs with
    | [_, _], ⟨⟨s, rfl⟩, ⟨l, rfl, hl⟩, _⟩ =>
      refine ⟨?_, fun b hb => ?_⟩
      · rw [show exPred.name = "inv0" from rfl, exI_inv]
        exact ⟨_, rfl⟩
      · cases hb
        simp only [exPred, eval, evals, paramEnv, List.map_cons, List.map_nil, List.zip_cons_cons, List.zip_nil_left, List.lookup_cons]
        simp [evalOp, exI_total, exI_inv]
  · rintro vs hvs
    match vs, hvs with
    | [_], ⟨⟨l, rfl, hl⟩, _⟩ =>
      have hty : OfTy (.list .int) (.list l) := ⟨l, rfl, hl⟩
      refine ⟨?_, fun b hb => ?_⟩
      · rw [show exTotal.name = "total" from rfl, exI_total]
        exact ⟨_, rfl⟩
      · cases hb
        simp only [exTotal, eval, evals, paramEnv, List.map_cons, List.map_nil, List.zip_cons_cons, List.zip_nil_left, List.lookup_cons]
        simp only [evalOp, beq_self_eq_true, Option.getD_some, fn_length exI_lib hty, fn_get exI_lib hty, fn_tail exI_lib hty, exI_total, Lit.val]
        cases l with
        | nil => simp
        | cons a l =>
          simp [refV, listTail]
          omega

theorem exSafe_total {l : List Val} : ∀ {fu : Nat}, l.length < fu → OfTy (.list .int) (.list l) → ∀ {ρ : Env} {e : Expr},
    eval exI ρ e = .list l → Safe exI ([exPred] ++ [exTotal]) fu ρ e → Safe exI ([exPred] ++ [exTotal]) fu ρ (.node (.call "total") .int [e]) := by
  induction l with
  | nil =>
    intro fu hfu hl ρ e he hs
    obtain ⟨fu, rfl⟩ : ∃ m, fu = m + 1 := ⟨fu - 1, by omega⟩
    refine .fn_rec (d := exTotal) (by simpa using hs) (by simp) rfl rfl ?_
    refine .ite_true ?_ ?_ .lit
    · refine .op (by simp) (by simp) (by simp) (by simp) ?_
      simp only [List.mem_cons, List.not_mem_nil, or_false, forall_eq_or_imp, forall_eq]
      exact ⟨.prim (by simp only [List.mem_cons, List.not_mem_nil, or_false, forall_eq]; exact .var) (by decide) (by decide), .lit⟩
    · simp only [List.map_cons, List.map_nil, he, exTotal, eval, evals, paramEnv, List.zip_cons_cons, List.zip_nil_left, List.lookup_cons, evalOp,
        beq_self_eq_true, Option.getD_some, fn_length exI_lib hl, Lit.val]
      simp
  | cons a l ih =>
    intro fu hfu hl ρ e he hs
    obtain ⟨fu, rfl⟩ : ∃ m, fu = m + 1 := ⟨fu - 1, by omega⟩
    have hl' : OfTy (.list .int) (.list l) := by
      obtain ⟨_, h, hl⟩ := hl
      cases h
      exact ⟨l, rfl, fun w hw => hl w (by simp [hw])⟩
    refine .fn_rec (d := exTotal) (by simpa using hs) (by simp) rfl rfl ?_
    refine .ite_false ?_ ?_ ?_
    · refine .op (by simp) (by simp) (by simp) (by simp) ?_
      simp only [List.mem_cons, List.not_mem_nil, or_false, forall_eq_or_imp, forall_eq]
      exact ⟨.prim (by simp only [List.mem_cons, List.not_mem_nil, or_false, forall_eq]; exact .var) (by decide) (by decide), .lit⟩
    · simp only [List.map_cons, List.map_nil, he, exTotal, eval, evals, paramEnv, List.zip_cons_cons, List.zip_nil_left, List.lookup_cons, evalOp,
        beq_self_eq_true, Option.getD_some, fn_length exI_lib hl, Lit.val]
      simp
      omega
    · refine .op (by simp) (by simp) (by simp) (by simp) ?_
      simp only [List.mem_cons, List.not_mem_nil, or_false, forall_eq_or_imp, forall_eq]
      refine ⟨.prim ?_ (by decide) (by decide), ih (by simpa using hfu) hl' ?_ (.prim ?_ (by decide) (by decide))⟩
      · simp only [List.mem_cons, List.not_mem_nil, or_false, forall_eq_or_imp, forall_eq]
        exact ⟨.var, .lit⟩
      · simp only [List.map_cons, List.map_nil, he, exTotal, eval, evals, paramEnv, List.zip_cons_cons, List.zip_nil_left, List.lookup_cons, evalOp,
          beq_self_eq_true, Option.getD_some, fn_tail exI_lib hl, Lit.val]
        simp [listTail]
      · simp only [List.mem_cons, List.not_mem_nil, or_false, forall_eq_or_imp, forall_eq]
        exact ⟨.var, .lit⟩

theorem exSafe_inv {fu : Nat} {s : Int} {l : List Val} (hl : OfTy (.list .int) (.list l)) (hfu : l.length < fu) {ρ : Env} {e1 e2 : Expr}
    (h1 : eval exI ρ e1 = .int s) (h2 : eval exI ρ e2 = .list l) (s1 : Safe exI ([exPred] ++ [exTotal]) fu ρ e1)
    (s2 : Safe exI ([exPred] ++ [exTotal]) fu ρ e2) : Safe exI ([exPred] ++ [exTotal]) fu ρ (.node (.call "inv0") .bool [e1, e2]) := by
  refine .fn (d := exPred) (by simpa using ⟨s1, s2⟩) (by simp) rfl rfl ?_
  refine .op (by simp) (by simp) (by simp) (by simp) ?_
  simp only [List.mem_cons, List.not_mem_nil, or_false, forall_eq_or_imp, forall_eq]
  refine ⟨.var, exSafe_total hfu hl ?_ .var⟩
  simp [h1, h2, exPred, eval, paramEnv, List.lookup_cons]

theorem exSafe (ρ : Env) (hρ : ∀ v ∈ exVars, Shaped 3 v.2 (ρ v.1)) : Safe exI ([exPred] ++ [exTotal]) 64 ρ exVc := by
  obtain ⟨r, hr⟩ := hρ ("r", .int) (by simp [exVars])
  obtain ⟨x, hx⟩ := hρ ("x", .int) (by simp [exVars])
  obtain ⟨l, hl, hlen, htl⟩ := hρ ("l", .list .int) (by simp [exVars])
  simp only at hr hx hl
  have hty : OfTy (.list .int) (.list l) := ⟨l, rfl, fun w hw => htl w hw⟩
  refine .op (by simp) (by simp) (by simp) (by simp) ?_
  simp only [List.mem_cons, List.not_mem_nil, or_false, forall_eq_or_imp, forall_eq]
  refine ⟨exSafe_inv hty (by omega) (by simpa [eval] using hr) (by simpa [eval] using hl) .var .var, ?_⟩
  refine exSafe_inv (s := x + r) (l := .int x :: l) ?_ (by simp; omega) ?_ ?_ ?_ ?_
  · refine ⟨_, rfl, fun w hw => ?_⟩
    rcases List.mem_cons.1 hw with rfl | hw
    · exact ⟨x, rfl⟩
    · exact htl w hw
  · simp [eval, evals, evalOp, hx, hr]
  · simp [eval, evals, evalOp, hx, hl, fn_prepend exI_lib hty]
  · refine .op (by simp) (by simp) (by simp) (by simp) ?_
    simp only [List.mem_cons, List.not_mem_nil, or_false, forall_eq_or_imp, forall_eq]
    exact ⟨.var, .var⟩
  · refine .prim ?_ (by decide) (by decide)
    simp only [List.mem_cons, List.not_mem_nil, or_false, forall_eq_or_imp, forall_eq]
    exact ⟨.var, .var⟩

theorem exHolds (ρ : Env) (hρ : ∀ v ∈ exVars, Shaped 3 v.2 (ρ v.1)) : holds exI ρ exVc := by
  obtain ⟨r, hr⟩ := hρ ("r", .int) (by simp [exVars])
  obtain ⟨x, hx⟩ := hρ ("x", .int) (by simp [exVars])
  obtain ⟨l, hl, hlen, htl⟩ := hρ ("l", .list .int) (by simp [exVars])
  simp only at hr hx hl
  have hty : OfTy (.list .int) (.list l) := ⟨l, rfl, fun w hw => htl w hw⟩
  simp only [holds, exVc, eval, evals, evalOp, hr, hx, hl, List.foldl_cons, List.foldl_nil, exI_inv, fn_prepend exI_lib hty, Val.asBool]
  simp

/-- **C54**, non-vacuity: Rosette verifies the condition of the example. -/
theorem C54_example : ∃ text, verifyFile [exTotal] [exPred] exVars 3 true exVc = some text ∧ Verified text := by
  obtain ⟨text, h⟩ := exFile
  exact ⟨text, h, (C54_verified_iff_partial exProblem exNames h exI_lib exFns exSafe).2 exHolds⟩

/-! ### Conditions that hold and are not verified -/

theorem heads_visible {M : Module} {fns : List FnDecl} {vars : List (String × VTy)} (hM : HasFns M fns)
    (hg : ∀ y w, M.globals y = some w → rktName y = true ∧ ∃ v ∈ vars, Under v.1 y) {h : String} (hh : h ∈ reservedHeads)
    (hv : h ∉ vars.map Prod.fst) : M.find h = none ∧ M.globals h = none := by
  refine ⟨hM.free h (.inl hh), ?_⟩
  cases e : M.globals h with
  | none => rfl
  | some w =>
    obtain ⟨_, v, hvm, hu⟩ := hg h w e
    rcases under_new hu with rfl | h1
    · exact absurd (List.mem_map_of_mem hvm) hv
    · exact absurd hh h1.1

/-- `y != 0` implies `x % y == x % y`. -/
def exModVc : Expr := .node .implies .bool [.node .not .bool [.node .eq .bool [.var "y" .int, .lit (.int 0)]],
  .node .eq .bool [.node .mod .int [.var "x" .int, .var "y" .int], .node .mod .int [.var "x" .int, .var "y" .int]]]

def exModVars : List (String × VTy) := [("x", .int), ("y", .int)]

theorem exModProblem : ProblemOk [] [] exModVars 2 exModVc where
  hvars := by
    intro v hv
    simp only [exModVars, List.mem_cons, List.not_mem_nil, or_false] at hv
    rcases hv with rfl | rfl <;> exact ⟨trivial, by decide +kernel, by decide +kernel, by decide +kernel⟩
  hnodup := by decide +kernel
  hfns := by simp
  hvc := by decide +kernel

/-- **C54**, what is not covered: arguments of an implication are all evaluated, and the remainder by zero fails.  A condition that holds is
not verified. -/
theorem C54_guarded_remainder_refuted : ∃ lang cands vars b vc text, ProblemOk lang cands vars b vc ∧ NamesOk lang cands vars ∧
    verifyFile lang cands vars b true vc = some text ∧ (∀ (I : Interp) (ρ : Env), holds I ρ vc) ∧ ¬ Verified text := by
  obtain ⟨text, h⟩ := file_exists true exModProblem (by decide +kernel)
  refine ⟨[], [], exModVars, 2, exModVc, text, exModProblem, ⟨by decide +kernel, by decide +kernel, by simp, by decide +kernel, by simp⟩, h, ?_, ?_⟩
  · intro I ρ
    simp [holds, exModVc, eval, evals, evalOp]
  · intro hver
    obtain ⟨M, n, x, v, hx, hv, _, hM, hg, hval⟩ := verified_eval exModProblem h hver (fun _ => .int 0) (by
      intro v hv
      simp only [exModVars, List.mem_cons, List.not_mem_nil, or_false] at hv
      rcases hv with rfl | rfl <;> exact ⟨0, rfl⟩)
    have hx' : rktSx exModVc = some (.list [.atom "=>", .list [.atom "!", .list [.atom "equal?", .atom "y", .atom "0"]],
        .list [.atom "equal?", .list [.atom "remainder", .atom "x", .atom "y"], .list [.atom "remainder", .atom "x", .atom "y"]]]) := by rfl
    rw [hx'] at hx
    cases hx
    have hy : ∀ n, rkEval M n 64 (fun _ => none) (.atom "y") = some (.int 0) := by
      intro n
      rw [rk_atom, evalAtom_name (by decide +kernel), evalName, hval ("y", .int) (by simp [exModVars])]
    have hxv : ∀ n, rkEval M n 64 (fun _ => none) (.atom "x") = some (.int 0) := by
      intro n
      rw [rk_atom, evalAtom_name (by decide +kernel), evalName, hval ("x", .int) (by simp [exModVars])]
    have hmod : ∀ n, rkEval M n 64 (fun _ => none) (.list [.atom "remainder", .atom "x", .atom "y"]) = none := by
      intro n
      cases n with
      | zero => rfl
      | succ n =>
        obtain ⟨f1, f2⟩ := heads_visible hM hg (h := "remainder") (by decide +kernel) (by decide +kernel)
        rw [rk_app rfl f1 f2 (by decide), hM.imports]
        simp [List.mapM_cons, hy, hxv, Module.exports, show lib.find "remainder" = none by decide +kernel, builtin]
    have heq : ∀ n, rkEval M n 64 (fun _ => none) (.list [.atom "equal?", .list [.atom "remainder", .atom "x", .atom "y"],
        .list [.atom "remainder", .atom "x", .atom "y"]]) = none := by
      intro n
      cases n with
      | zero => rfl
      | succ n =>
        obtain ⟨f1, f2⟩ := heads_visible hM hg (h := "equal?") (by decide +kernel) (by decide +kernel)
        rw [rk_app rfl f1 f2 (by decide)]
        simp [List.mapM_cons, hmod]
    cases n with
    | zero => simp [rkEval] at hv
    | succ n =>
      obtain ⟨f1, f2⟩ := heads_visible hM hg (h := "=>") (by decide +kernel) (by decide +kernel)
      rw [rk_app rfl f1 f2 (by decide)] at hv
      simp [List.mapM_cons, heq] at hv

/-- `len(l) == len(l)`, with a variable called `length`. -/
def exLenVc : Expr := .node .eq .bool [.node (.call "list_length") .int [.var "l" (.list .int)], .node (.call "list_length") .int [.var "l" (.list .int)]]

def exLenVars : List (String × VTy) := [("l", .list .int), ("length", .int)]

theorem exLenProblem : ProblemOk [] [] exLenVars 2 exLenVc where
  hvars := by
    intro v hv
    simp only [exLenVars, List.mem_cons, List.not_mem_nil, or_false] at hv
    rcases hv with rfl | rfl <;> exact ⟨trivial, by decide +kernel, by decide +kernel, by decide +kernel⟩
  hnodup := by decide +kernel
  hfns := by simp
  hvc := by decide +kernel

/-- **C54**, what is not covered: a variable of the program that has the name of a Racket function, here `length`, hides the function.  A condition
that holds is not verified. -/
theorem C54_shadowed_refuted : ∃ lang cands vars b vc text, ProblemOk lang cands vars b vc ∧
    verifyFile lang cands vars b true vc = some text ∧ (∀ (I : Interp) (ρ : Env), holds I ρ vc) ∧ ¬ Verified text := by
  obtain ⟨text, h⟩ := file_exists true exLenProblem (by decide +kernel)
  refine ⟨[], [], exLenVars, 2, exLenVc, text, exLenProblem, h, ?_, ?_⟩
  · intro I ρ
    simp [holds, exLenVc, eval, evals, evalOp]
  · intro hver
    obtain ⟨M, n, x, v, hx, hv, _, hM, hg, hval⟩ := verified_eval exLenProblem h hver (fun y => if y = "l" then .list [] else .int 0) (by
      intro v hv
      simp only [exLenVars, List.mem_cons, List.not_mem_nil, or_false] at hv
      rcases hv with rfl | rfl
      · exact ⟨[], rfl, by simp, by simp⟩
      · exact ⟨0, rfl⟩)
    have hx' : rktSx exLenVc = some (.list [.atom "equal?", .list [.atom "length", .atom "l"], .list [.atom "length", .atom "l"]]) := by
      decide +kernel
    rw [hx'] at hx
    cases hx
    have hlen : ∀ n, rkEval M n 64 (fun _ => none) (.list [.atom "length", .atom "l"]) = none := by
      intro n
      cases n with
      | zero => rfl
      | succ n => simp [rkEval, hM.free "length" (.inl (by decide +kernel)), hval ("length", .int) (by simp [exLenVars])]
    cases n with
    | zero => simp [rkEval] at hv
    | succ n =>
      obtain ⟨f1, f2⟩ := heads_visible hM hg (h := "equal?") (by decide +kernel) (by decide +kernel)
      rw [rk_app rfl f1 f2 (by decide)] at hv
      simp [List.mapM_cons, hlen] at hv

/-- `down(k) = 0 if k <= 0 else down(k - 1)`. -/
def exDown : FnDecl where
  name := "down"
  ret := .int
  params := [("k", .int)]
  body := some (.node .ite .int [.node .le .bool [.var "k" .int, .lit (.int 0)], .lit (.int 0),
    .node (.call "down") .int [.node .sub .int [.var "k" .int, .lit (.int 1)]]])
  recursive := true

/-- `down(64) == 0`. -/
def exDownVc : Expr := .node .eq .bool [.node (.call "down") .int [.lit (.int 64)], .lit (.int 0)]

theorem exDownProblem : ProblemOk [exDown] [] [] 2 exDownVc where
  hvars := by simp
  hnodup := by decide +kernel
  hfns := by
    intro d hd
    simp only [List.nil_append, List.mem_cons, List.not_mem_nil, or_false] at hd
    subst hd
    exact ⟨by decide +kernel, by decide +kernel, fun b hb => by cases hb; decide +kernel⟩
  hvc := by decide +kernel

/-- **C54**, what is not covered: recursion is cut off after 64 nested calls, with a failed assertion.  A condition that holds is not verified. -/
theorem C54_recursion_refuted : ∃ lang cands vars b vc text, ProblemOk lang cands vars b vc ∧ NamesOk lang cands vars ∧
    verifyFile lang cands vars b true vc = some text ∧ (∀ (I : Interp) (ρ : Env), (∀ d ∈ cands ++ lang, FnHolds I d) → holds I ρ vc) ∧
    ¬ Verified text := by
  obtain ⟨text, h⟩ := file_exists true exDownProblem (by decide +kernel)
  refine ⟨[exDown], [], [], 2, exDownVc, text, exDownProblem,
    ⟨by decide +kernel, by decide +kernel, by decide +kernel, by simp, by decide +kernel⟩, h, ?_, ?_⟩
  · intro I ρ hI
    have hd := hI exDown (by simp)
    have key : ∀ k : Nat, I.fn "down" [.int k] = .int 0 := by
      intro k
      induction k with
      | zero =>
        have := (hd [.int 0] ⟨⟨0, rfl⟩, trivial⟩).2 _ rfl
        rw [show exDown.name = "down" from rfl] at this
        rw [show ((0 : Nat) : Int) = 0 from rfl, ← this]
        simp [exDown, eval, evals, evalOp, paramEnv, Lit.val]
      | succ k ih =>
        have := (hd [.int (k + 1 : Nat)] ⟨⟨_, rfl⟩, trivial⟩).2 _ rfl
        rw [show exDown.name = "down" from rfl] at this
        rw [← this]
        simp only [exDown, eval, evals, evalOp, paramEnv, List.map_cons, List.map_nil, List.zip_cons_cons, List.zip_nil_left, List.lookup_cons,
          beq_self_eq_true, Option.getD_some, Lit.val, Val.asInt_int, Val.asBool]
        rw [show ((k + 1 : Nat) : Int) - 1 = (k : Nat) by omega, ih]
        exact ite_self _
    have := key 64
    simp only [holds, exDownVc, eval, evals, evalOp, Lit.val]
    rw [show (64 : Int) = ((64 : Nat) : Int) from rfl, this]
    simp
  · intro hver
    obtain ⟨M, n, x, v, hx, hv, _, hM, hg, hval⟩ := verified_eval exDownProblem h hver (fun _ => .int 0) (by simp)
    have hx' : rktSx exDownVc = some (.list [.atom "equal?", .list [.atom "down", .atom "64"], .atom "0"]) := by decide +kernel
    rw [hx'] at hx
    cases hx
    obtain ⟨b, bx, hb, hbx, hfind⟩ := hM.fn exDown (by simp)
    cases hb
    have hbx' : rktSx (.node .ite .int [.node .le .bool [.var "k" .int, .lit (.int 0)], .lit (.int 0),
        .node (.call "down") .int [.node .sub .int [.var "k" .int, .lit (.int 1)]]]) = some (.list [.atom "if", .list [.atom "<=", .atom "k", .atom "0"],
          .atom "0", .list [.atom "down", .list [.atom "-", .atom "k", .atom "1"]]]) := by decide +kernel
    rw [hbx'] at hbx
    cases hbx
    have fr : ∀ h ∈ ["if", "<=", "-", "equal?"], M.find h = none ∧ M.globals h = none := by
      intro h hh
      refine heads_visible hM hg (List.all_eq_true.1 (by decide +kernel : (["if", "<=", "-", "equal?"].all fun h => decide (h ∈ reservedHeads)) = true) h hh
        |> of_decide_eq_true) (by simp)
    have lits : ∀ n fu σ (i : String), isNumeric i.toList = true → rkEval M n fu σ (.atom i) = some (.int (numeral i.toList)) := by
      intro n fu σ i hi
      rw [rk_atom, evalAtom_num hi]
    have key : ∀ (n fu : Nat) (i : Int), (fu : Int) ≤ i → ∀ σ : REnv, σ "down" = none → ∀ a, (∀ n v, rkEval M n fu σ a = some v → v = .int i) →
        rkEval M n fu σ (.list [.atom "down", a]) = none := by
      intro n
      induction n using Nat.strong_induction_on with
      | _ n ih =>
        intro fu i hfi σ hσ a ha
        match n, ih with
        | 0, _ => rfl
        | n + 1, ih =>
          rw [rk_call hσ hfind]
          cases hav : rkEval M n fu σ a with
          | none => simp [List.mapM_cons, hav]
          | some w =>
            rw [ha n w hav] at hav
            simp only [List.mapM_cons, List.mapM_nil, hav, Option.bind_eq_bind, Option.bind_some, Option.pure_def, applyDef, exDown, List.map_cons,
              List.map_nil, bindArgs, Option.map_some, if_true]
            match fu with
            | 0 => rfl
            | fu + 1 =>
              simp only
              match n with
              | 0 => rfl
              | 1 =>
                rw [rk_if (by simp [bindAll]) (fr "if" (by simp)).1 (fr "if" (by simp)).2]
                rfl
              | n + 2 =>
                have hk : ∀ m fu, rkEval M m fu (bindAll (fun _ => none) [("k", .int i)]) (.atom "k") = some (.int i) := by
                  intro m fu
                  rw [rk_atom, evalAtom_name (by decide +kernel), evalName_local (v := .int i) (by simp [bindAll])]
                rw [rk_if (by simp [bindAll]) (fr "if" (by simp)).1 (fr "if" (by simp)).2,
                  rk_app (by simp [bindAll]) (fr "<=" (by simp)).1 (fr "<=" (by simp)).2 (by decide), hM.imports]
                simp only [List.mapM_cons, List.mapM_nil, hk, lits _ _ _ "0" (by decide +kernel), Option.bind_eq_bind, Option.bind_some, Option.pure_def,
                  Module.exports, show lib.find "<=" = none by decide +kernel]
                have hn0 : numeral "0".toList = 0 := by decide +kernel
                have hle : ¬ (i ≤ 0) := by omega
                simp only [builtin, compare, hn0, Option.bind_some]
                rw [show ((0 : Nat) : Int) = 0 from rfl, decide_eq_false hle]
                simp only [if_true]
                refine ih (n + 1) (by omega) fu (i - 1) (by omega) (bindAll (fun _ => none) [("k", .int i)]) (by simp [bindAll]) _ ?_
                intro m w hw
                match m, hw with
                | 0, hw => simp [rkEval] at hw
                | m + 1, hw =>
                  rw [rk_app (by simp [bindAll]) (fr "-" (by simp)).1 (fr "-" (by simp)).2 (by decide), hM.imports] at hw
                  simp only [List.mapM_cons, List.mapM_nil, hk, lits _ _ _ "1" (by decide +kernel), Option.bind_eq_bind, Option.bind_some,
                    Option.pure_def, Module.exports, show lib.find "-" = none by decide +kernel, builtin,
                    show numeral "1".toList = 1 by decide +kernel, Option.some.injEq] at hw
                  exact hw.symm
    cases n with
    | zero => simp [rkEval] at hv
    | succ n =>
      rw [rk_app rfl (fr "equal?" (by simp)).1 (fr "equal?" (by simp)).2 (by decide)] at hv
      simp only [List.mapM_cons] at hv
      rw [key n 64 64 (by omega) _ rfl (.atom "64") (fun m w hw => by
        rw [lits _ _ _ "64" (by decide +kernel), show numeral "64".toList = 64 by decide +kernel] at hw
        exact (Option.some.inj hw).symm)] at hv
      simp at hv

end Rkt
end Metalift
