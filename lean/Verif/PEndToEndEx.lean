import Verif.PEndToEnd
import Verif.PSmtDetermine
import Verif.PDriverEnd
/-
A complete example for C48: the sum of a list.
-/
namespace Metalift
open Smt

namespace SumUp

/-- Types of the variables. -/
def types : String → Ty := fun x => if x = "l" then .list .int else .int

/-- `def f(l): r = 0; i = 0; while i < len(l): r = r + l[i]; i = i + 1; return r` -/
def func : PyFunc where
  name := "f"
  ctx := { types := types, params := ["l"], ps := "f_ps", inv := fun l => "f_inv" ++ toString l }
  retTy := .int
  body := block [.assign "r" (.int 0), .assign "i" (.int 0),
    .loop 0 (pyLt (.name "i") (.len (.name "l")))
      (block [.assign "r" (pyAdd (.name "r") (.index (.name "l") (.name "i"))), .assign "i" (pyAdd (.name "i") (.int 1))]),
    .ret (.name "r")]

def l : Expr := .var "l" (.list .int)
def i : Expr := .var "i" .int
def r : Expr := .var "r" .int
def len (e : Expr) : Expr := mkCall "list_length" .int [e]
def sum (e : Expr) : Expr := mkCall "sum" .int [e]
def inv (a b c : Expr) : Expr := mkCall "f_inv0" .bool [a, b, c]

/-- The verification condition. -/
def vc : Expr :=
  mkAnd [mkAnd [inv l (intLit 0) (intLit 0),
    mkImplies (mkAnd [.node .lt .bool [i, len l], inv l i r])
      (inv l (.node .add .int [i, intLit 1]) (.node .add .int [r, mkCall "list_get" .int [l, i]]))],
    mkImplies (mkAnd [mkNot (.node .lt .bool [i, len l]), inv l i r]) (mkCall "f_ps" .bool [l, r])]

theorem vc_eq : (func.call { postconditions := [] }).bind World.vc = some vc := by rfl

/-- The synthesised invariant: `0 <= i <= len(l)` and `r + sum(l[i:]) == sum(l)`. -/
def invDecl : FnDecl := ⟨"f_inv0", .bool, [("l", .list .int), ("i", .int), ("r", .int)],
  some (mkAnd [.node .le .bool [intLit 0, i], .node .le .bool [i, len l],
    .node .eq .bool [.node .add .int [r, sum (mkCall "list_tail" (.list .int) [l, i])], sum l]]), true⟩

/-- The synthesised postcondition: `r == sum(l)`. -/
def psDecl : FnDecl := ⟨"f_ps", .bool, [("l", .list .int), ("r", .int)], some (.node .eq .bool [r, sum l]), true⟩

def cands : List FnDecl := [invDecl, psDecl]
def vars : List (String × Ty) := [("l", .list .int), ("i", .int), ("r", .int)]

theorem queryOk : QueryOk [exSum] [] cands vars vc where
  langOk := by decide +kernel
  langNames := by decide
  axOk := by simp
  candOk := by decide +kernel
  candNames := by decide
  varsOk := by decide +kernel
  vcOk := by decide +kernel
  langConst := by
    intro d hd b hb
    simp only [List.mem_singleton] at hd
    subst hd
    cases hb
    decide +kernel
  candConst := by
    intro d hd b hb
    simp only [cands, List.mem_cons, List.not_mem_nil, or_false] at hd
    rcases hd with rfl | rfl <;> cases hb <;> decide +kernel
  axConst := by simp
  fnConst := by decide +kernel

/-- The text of the query. -/
def text : String := ((queryText kahn id [exSum] [] cands vars vc)).getD ""

theorem text_eq : queryText kahn id [exSum] [] cands vars vc = some text := by
  have : (queryText kahn id [exSum] [] cands vars vc).isSome = true := by decide +kernel
  obtain ⟨t, ht⟩ := Option.isSome_iff_exists.1 this
  simp [text, ht]

/-- In an interpretation with the usual list functions and the definitions, the condition holds. -/
theorem vc_holds {I : Interp} {M : Model} (hM : ListsUsual M)
    (hf : ∀ f ∈ ["list_length", "list_get", "list_tail"], ∀ vs, vs ≠ [] → I.fn f vs = M.fn f vs)
    (hs : FnHolds I exSum) (hi : FnHolds I invDecl) (hp : FnHolds I psDecl) {ρ : Env} (hρ : ∀ v ∈ vars, OfTy v.2 (ρ v.1)) :
    holds I ρ vc := by
  have hlen : ∀ L, I.fn "list_length" [encL L] = .int L.length := fun L => by rw [hf _ (by decide) _ (by simp), hM.length]
  have hget : ∀ L (k : Nat) v, L[k]? = some v → I.fn "list_get" [encL L, .int k] = .int v :=
    fun L k v h => by rw [hf _ (by decide) _ (by simp), hM.get L k v h]
  have htail : ∀ L n, I.fn "list_tail" [encL L, .int n] = encL (L.drop n.toNat) :=
    fun L n => by rw [hf _ (by decide) _ (by simp), hM.tail]
  have ofL : ∀ L : List Int, OfTy (.list .int) (encL L) := fun L => ⟨_, rfl, by
    intro w hw
    obtain ⟨a, _, rfl⟩ := List.mem_map.1 hw
    exact ⟨a, rfl⟩⟩
  -- the sum
  have hsum : ∀ L : List Int, ∃ s, I.fn "sum" [encL L] = .int s := fun L => (hs [encL L] ⟨ofL L, trivial⟩).1
  let S : List Int → Int := fun L => (hsum L).choose
  have hS : ∀ L, I.fn "sum" [encL L] = .int (S L) := fun L => (hsum L).choose_spec
  have s0 : S [] = 0 := by
    have := (hs [encL []] ⟨ofL [], trivial⟩).2 _ rfl
    simp [eval, evals, evalOp, paramEnv, exSum, hlen, hS, Lit.val] at this
    exact this.symm
  have s1 : ∀ a L, S (a :: L) = a + S L := by
    intro a L
    have := (hs [encL (a :: L)] ⟨ofL _, trivial⟩).2 _ rfl
    have hg := hget (a :: L) 0 a rfl
    have ht := htail (a :: L) 1
    simp only [Int.toNat_one, List.drop_succ_cons, List.drop_zero] at ht
    have hz : ¬ ((L.length : Int) + 1 = 0) := by omega
    simp only [Int.natCast_zero] at hg
    simp [eval, evals, evalOp, paramEnv, exSum, hlen, hS, Lit.val, hz, hg, ht] at this
    exact this.symm
  -- the invariant
  have hinv : ∀ L a b, I.fn "f_inv0" [encL L, .int a, .int b] =
      .bool (decide (0 ≤ a ∧ a ≤ L.length ∧ b + S (L.drop a.toNat) = S L)) := by
    intro L a b
    have := (hi [encL L, .int a, .int b] ⟨ofL _, ⟨_, rfl⟩, ⟨_, rfl⟩, trivial⟩).2 _ rfl
    simp only [invDecl] at this
    rw [← this]
    simp [eval, evals, evalOp, paramEnv, mkAnd, intLit, i, l, r, len, sum, mkCall, hlen, hS, htail, Lit.val, List.lookup]
    congr
  have hps : ∀ L b, I.fn "f_ps" [encL L, .int b] = .bool (decide (b = S L)) := by
    intro L b
    have := (hp [encL L, .int b] ⟨ofL _, ⟨_, rfl⟩, trivial⟩).2 _ rfl
    simp only [psDecl] at this
    rw [← this]
    simp [eval, evals, evalOp, paramEnv, l, r, sum, mkCall, hS, List.lookup]
  obtain ⟨ws, hw, hws⟩ := hρ ("l", .list .int) (by decide)
  obtain ⟨L, hL⟩ := ofTy_ints ⟨ws, rfl, hws⟩
  obtain ⟨a, ha⟩ := hρ ("i", .int) (by decide)
  obtain ⟨b, hb⟩ := hρ ("r", .int) (by decide)
  simp only [hL] at hw
  simp only at ha hb
  have hg : ∀ (h0 : 0 ≤ a) (h1 : a < L.length), I.fn "list_get" [encL L, .int a] = .int (L[a.toNat]'(by omega)) := by
    intro h0 h1
    have := hget L a.toNat _ (List.getElem?_eq_getElem (by omega))
    rwa [Int.toNat_of_nonneg h0] at this
  simp only [holds, vc, mkAnd, mkImplies, mkNot, inv, len, l, i, r, mkCall, intLit, eval, evals, evalOp, hw, ha, hb, hlen, hinv, hps, Lit.val,
    List.all_cons, List.all_nil, Val.asBool_bool, Val.asInt_int, Bool.and_true, Bool.and_eq_true, Bool.or_eq_true, Bool.not_eq_true',
    Bool.and_eq_false_iff, decide_eq_true_eq, decide_eq_false_iff_not, List.foldl_cons, List.foldl_nil, Bool.not_eq_false']
  refine ⟨⟨by simp, ?_⟩, ?_⟩
  · by_cases hlt : a < L.length
    · by_cases h0 : 0 ≤ a ∧ a ≤ L.length ∧ b + S (L.drop a.toNat) = S L
      · right
        rw [hg h0.1 hlt]
        simp only [Val.asInt_int]
        refine ⟨by omega, by omega, ?_⟩
        have hd : L.drop a.toNat = L[a.toNat]'(by omega) :: L.drop (a.toNat + 1) := List.drop_eq_getElem_cons (by omega)
        have := h0.2.2
        rw [hd, s1] at this
        rw [show ((0 : Int) + a + 1).toNat = a.toNat + 1 by omega]
        omega
      · left; right; exact h0
    · left; left; exact decide_eq_false hlt
  · by_cases hlt : a < L.length
    · left; left; exact decide_eq_true hlt
    · by_cases h0 : 0 ≤ a ∧ a ≤ L.length ∧ b + S (L.drop a.toNat) = S L
      · right
        have := h0.2.2
        rw [List.drop_eq_nil_of_le (by omega), s0] at this
        omega
      · left; right; exact h0

/-- No structure satisfies the files and the query. -/
theorem unsat : ∀ fs, readFile filesText = some (fs ++ [c_matrix_transpose]) → ∀ cs, readScript text = some cs →
    ∀ M : Model, ¬ M.Sat (fs ++ cs) := by
  intro fs hfs cs hcs M hM
  have hU := C49_lists_determined fs hfs M (fun c hc => hM c (List.mem_append_left _ hc))
  obtain ⟨I, ρ, hA, hl, _, hc, hv, hn⟩ := C46_sat_counterexample_partial kahn kahn_spec id (fun _ => .refl _) [exSum] [] cands vars vc queryOk
    text text_eq cs hcs M (fun c hc => hM c (List.mem_append_right _ hc))
  refine hn (vc_holds hU (fun f hf vs hvs => hA.fn f vs ?_ (fun h => absurd h hvs)) (hl _ (by simp) (by decide)) (hc _ (by simp [cands]))
    (hc _ (by simp [cands])) (fun v h => (hv v h).2))
  revert f
  decide +kernel

/-- The meaning of the functions of the example. -/
def fns : List (String × (List Val → Val)) := [
  ("sum", fun
    | [v] => .int (decL v).sum
    | _ => .int 0),
  ("f_inv0", fun
    | [v, .int i, .int r] => .bool (decide (0 ≤ i) && (decide (i ≤ (decL v).length) &&
        decide (r + (stdTail (decL v) i).sum = (decL v).sum)))
    | _ => .bool false),
  ("f_ps", fun
    | [v, r] => .bool (decide (r = .int (decL v).sum))
    | _ => .bool false)]

noncomputable def I : Interp := usualI fns

theorem I_usual : Usual I := usualI_usual (by decide)

theorem I_fns {f : String} {g : List Val → Val} (hf : fns.lookup f = some g) (vs : List Val) : I.fn f vs = g vs := by
  simp only [I, usualI, usualFn, hf]

theorem I_table {f : String} {g : List Val → Val} (h : fns.lookup f = none) (hf : usualTable.lookup f = some g) (vs : List Val) : I.fn f vs = g vs := by
  simp only [I, usualI, usualFn, h, hf]

theorem I_file {f : String} (hf : fns.lookup f = none) (hu : usualTable.lookup f = none) (vs : List Val) :
    I.fn f vs = fileFn (stdModel 0) stdInts f vs := by
  simp only [I, usualI, usualFn, hf, hu]

theorem I_sum (L : List Int) : I.fn "sum" [encL L] = .int L.sum := by
  rw [I_fns rfl]
  simp only [decL_encL]

theorem I_length (L : List Int) : I.fn "list_length" [encL L] = .int L.length := by
  rw [I_file rfl rfl]
  simp only [fileFn, fileTable, List.lookup, String.reduceBEq, decL_encL, stdModel, stdSeq]

theorem I_tail (L : List Int) (n : Int) : I.fn "list_tail" [encL L, .int n] = encL (stdTail L n) := by
  rw [I_file rfl rfl]
  simp only [fileFn, fileTable, List.lookup, String.reduceBEq, decL_encL, stdModel, stdSeq]

theorem I_get (L : List Int) (n : Int) : I.fn "list_get" [encL L, .int n] = .int (stdGet 0 L n) := by
  rw [I_table rfl rfl]
  exact stdGet_encL _ _

theorem list_arg {vs : List Val} {ts : List Ty} (h : OfTys (.list .int :: ts) vs) : ∃ L ws, vs = encL L :: ws ∧ OfTys ts ws := by
  cases vs with
  | nil => exact h.elim
  | cons v vs =>
    obtain ⟨ws, rfl, hw⟩ := h.1
    obtain ⟨L, hL⟩ := ofTy_ints ⟨ws, rfl, hw⟩
    exact ⟨L, vs, by rw [hL], h.2⟩

theorem int_arg {vs : List Val} {ts : List Ty} (h : OfTys (.int :: ts) vs) : ∃ i ws, vs = .int i :: ws ∧ OfTys ts ws := by
  cases vs with
  | nil => exact h.elim
  | cons v vs =>
    obtain ⟨i, rfl⟩ := h.1
    exact ⟨i, vs, rfl, h.2⟩

theorem no_arg {vs : List Val} (h : OfTys [] vs) : vs = [] := by
  cases vs with
  | nil => rfl
  | cons => exact h.elim

theorem sum_holds : FnHolds I exSum := by
  intro vs hvs
  obtain ⟨L, ws, rfl, h⟩ := list_arg hvs
  rw [no_arg h]
  refine ⟨⟨_, I_sum L⟩, ?_⟩
  intro b hb
  injection hb with hb
  subst hb
  show _ = I.fn "sum" _
  rw [I_sum]
  cases L with
  | nil => simp [eval, evals, evalOp, paramEnv, exSum, I_length, Lit.val]
  | cons a L =>
    have hz : ¬ ((L.length : Int) + 1 = 0) := by omega
    have ht : stdTail (a :: L) 1 = L := by simp [stdTail, stdTail_nonpos]
    simp [eval, evals, evalOp, paramEnv, exSum, I_length, I_tail, I_get, I_sum, Lit.val, hz, stdGet, ht]

theorem inv_holds : FnHolds I invDecl := by
  intro vs hvs
  obtain ⟨L, ws, rfl, h⟩ := list_arg hvs
  obtain ⟨a, ws, rfl, h1⟩ := int_arg h
  obtain ⟨b, ws, rfl, h2⟩ := int_arg h1
  rw [no_arg h2]
  have e : I.fn "f_inv0" [encL L, .int a, .int b] = .bool (decide (0 ≤ a) && (decide (a ≤ L.length) &&
        decide (b + (stdTail L a).sum = L.sum))) := by
    rw [I_fns rfl]
    simp only [decL_encL]
  refine ⟨⟨_, e⟩, ?_⟩
  intro b hb
  injection hb with hb
  subst hb
  show _ = I.fn "f_inv0" _
  rw [e]
  simp [eval, evals, evalOp, paramEnv, invDecl, mkAnd, intLit, i, l, r, len, sum, mkCall, I_length, I_sum, I_tail, Lit.val, List.lookup]
  congr

theorem ps_holds : FnHolds I psDecl := by
  intro vs hvs
  obtain ⟨L, ws, rfl, h⟩ := list_arg hvs
  obtain ⟨b, ws, rfl, h1⟩ := int_arg h
  rw [no_arg h1]
  have e : I.fn "f_ps" [encL L, .int b] = .bool (decide (Val.int b = .int L.sum)) := by
    rw [I_fns rfl]
    simp only [decL_encL]
  refine ⟨⟨_, e⟩, ?_⟩
  intro b hb
  injection hb with hb
  subst hb
  show _ = I.fn "f_ps" _
  rw [e]
  simp [eval, evals, evalOp, paramEnv, psDecl, l, r, sum, mkCall, I_sum, List.lookup]

/-- The argument and values for the other names. -/
def env (L : List Int) : Env := fun x => if x = "l" then encL L else .int 0

theorem env_typed (L : List Int) (x : String) : OfTy (func.ctx.types x) (env L x) := by
  simp only [func, types, env]
  split
  · exact ⟨_, rfl, by
      intro w hw
      obtain ⟨a, _, rfl⟩ := List.mem_map.1 hw
      exact ⟨a, rfl⟩⟩
  · exact ⟨0, rfl⟩

/-- All hypotheses of C48 hold for the example: every strict run of the function on a list of integers returns the sum. -/
theorem returns_sum (L : List Int) (v : Val) (hrun : @Exec strictOps I (func.argStore (env L)) func.body (.returned v)) : v = .int L.sum := by
  have hvc := vc_eq
  cases hw : func.call { postconditions := [] } with
  | none => rw [hw] at hvc; cases hvc
  | some w =>
    rw [hw] at hvc
    have := (C48_lifted_program_partial kahn kahn_spec id (fun _ => .refl _) func [] w vc (by decide +kernel) (by simp) hw hvc [exSum] [] cands
      vars queryOk (by decide +kernel) (by decide +kernel) (by decide +kernel) text text_eq unsat psDecl (by simp [cands]) rfl
      [("l", .list .int)] "r" rfl rfl (sum l) ⟨_, rfl⟩ (by decide) I I_usual
      (by intro d hd; simp only [List.mem_singleton] at hd; subst hd; exact sum_holds) (by simp)
      (by
        intro d hd
        simp only [cands, List.mem_cons, List.not_mem_nil, or_false] at hd
        rcases hd with rfl | rfl
        · exact inv_holds
        · exact ps_holds)
      (env L) (env_typed L) (by simp) v hrun).2
    rw [this]
    simp [eval, evals, evalOp, sum, l, mkCall, paramEnv, func, env, I_sum]

/-- There are such runs. -/
example : @Exec strictOps I (func.argStore (env [7])) func.body (.returned (.int 7)) := by
  exact @exec_sound strictOps I 10 _ _ _ rfl

/-- An environment in which the first solution file has the candidates and the solver accepts exactly this query. -/
def driverEnv : DriverEnv where
  poll _ := none
  file _ _ := some ("#t", [])
  decode _ := some cands
  cvc _ t := if t = text then .ran 0 "unsat" [] else .ran 0 "sat" []

theorem driver_right : SolverRight driverEnv := by
  intro j t ht
  obtain ⟨code, rest, h, _⟩ := ht
  simp only [driverEnv] at h
  split at h
  · next heq => rw [heq]; exact unsat
  · simp at h

theorem plain_f : ∀ f ∈ ["f"], PlainName f := by
  intro f hf
  simp only [List.mem_singleton] at hf
  subst hf
  refine ⟨by decide, by decide, ?_⟩
  rintro ⟨a, b, h⟩
  have := congrArg List.length h
  simp at this

theorem cands_ok : CandsOk ["f"] func [exSum] [] vars vc cands where
  query := by
    rw [show vc.simplify = vc by decide +kernel]
    exact queryOk
  results := by
    refine ⟨by decide, ?_⟩
    intro d hd
    simp only [cands, List.mem_cons, List.not_mem_nil, or_false] at hd
    rcases hd with rfl | rfl
    · exact ⟨"f", by simp, .inr ⟨0, rfl⟩⟩
    · exact ⟨"f", by simp, .inl rfl⟩
  sorted := by decide +kernel
  post := by
    intro d hd hn
    simp only [cands, List.mem_cons, List.not_mem_nil, or_false] at hd
    rcases hd with rfl | rfl
    · exact absurd hn (by decide)
    · exact ⟨[("l", .list .int)], "r", .bool, sum l, rfl, rfl, rfl, by decide⟩

/-- `Driver.synthesize` ends normally with the version `sum(l)` of the function. -/
theorem driver_returns {w : World} (hvc : w.vc = some vc) :
    pySynthesize kahn id [] ["f"] w.asserts [exSum] [] vars driverEnv 1 = some (.returned [("f", some (sum l))]) := by
  have ht : verifyText kahn id [] [exSum] [] vars vc.simplify cands = some text := by
    unfold verifyText
    simp only
    rw [if_pos (by decide +kernel)]
    simp only [parseCands_id, funext (transformDecl_eq []), List.map_nil]
    rw [show vc.simplify = vc by decide +kernel]
    exact text_eq
  unfold pySynthesize runSynthesis
  rw [show andObjects w.asserts = some vc from hvc]
  simp only [driverEnv, rosetteSynthesize, rosetteLoop, rosetteBody, rosetteVerify, true_or, if_true, ht, verifySynthResult,
    Bool.false_eq_true, if_false, Int.reduceLT]
  rfl

/-- All hypotheses of `C48_driver_partial` hold for the example: what the driver keeps is what the function returns. -/
theorem driver_sum (L : List Int) (v : Val) (hrun : @Exec strictOps I (func.argStore (env L)) func.body (.returned v)) : v = .int L.sum := by
  have hvc := vc_eq
  cases hw : func.call { postconditions := [] } with
  | none => rw [hw] at hvc; cases hvc
  | some w =>
    rw [hw] at hvc
    obtain ⟨_, _, _, c, ps, r, _, hc, ⟨d, hd, hn, hp⟩, _, h⟩ := C48_driver_partial kahn kahn_spec id (fun _ => .refl _) func [] w vc (by decide +kernel) (by simp) hw hvc rfl
      ["f"] plain_f (by decide) [exSum] [] vars [] (by decide +kernel) (by decide +kernel) (by decide +kernel) driverEnv driver_right
      (by rintro _ _ rest c _ hc; cases hc; exact cands_ok) 1 _ (driver_returns hvc) (sum l) rfl
    cases hc
    have := h I I_usual
      (by intro d hd; simp only [List.mem_singleton] at hd; subst hd; exact sum_holds) (by simp)
      (by
        intro d hd
        simp only [cands, List.mem_cons, List.not_mem_nil, or_false] at hd
        rcases hd with rfl | rfl
        · exact inv_holds
        · exact ps_holds)
      (env L) (env_typed L) (by simp) v hrun
    have hps : ps = [("l", .list .int)] := by
      simp only [cands, List.mem_cons, List.not_mem_nil, or_false] at hd
      rcases hd with rfl | rfl
      · exact absurd hn (by decide)
      · exact ((List.append_inj' (show [("l", Ty.list .int)] ++ [("r", .int)] = ps ++ [(r, func.retTy)] from hp) rfl).1).symm
    rw [this, hps]
    simp [eval, evals, evalOp, sum, l, mkCall, paramEnv, func, env, I_sum]

end SumUp

/-! ### What the hypotheses of C48 exclude -/

/-- Everything that C48 assumes about a program, a query and an interpretation, but for the answer of the solver and the run. -/
structure Situation (F : PyFunc) (lang cands : List FnDecl) (vars : List (String × Ty)) (vc : Expr) (text : String) (I : Interp) (ρ : Env) : Prop where
  supported : F.body.supported F.ctx.types F.ctx.params true = true
  cond : (F.call { postconditions := [] }).bind World.vc = some vc
  query : QueryOk lang [] cands vars vc
  reserved : ∀ v ∈ vars, v.1 ∉ reserved ∧ v.1 ≠ "list_empty" ∧ v.1 ≠ "matrix_empty"
  types : ∀ v ∈ vars, v.2 = F.ctx.types v.1
  typed : F.body.typedOk F.ctx.types (langSig lang) F.retTy = true
  text : queryText kahn id lang [] cands vars vc = some text
  usual : Usual I
  lang : ∀ d ∈ lang, FnHolds I d
  cands : ∀ d ∈ cands, FnHolds I d
  args : ∀ x, OfTy (F.ctx.types x) (ρ x)

/-- `def f(a, b): return e` on integers. -/
def retFn (e : PyExpr) : PyFunc where
  name := "f"
  ctx := intCtx "f" ["a", "b"]
  retTy := .int
  body := block [.ret e]

/-- The postcondition with the given body. -/
def retPs (body : Expr) : FnDecl := ⟨"f_ps", .bool, [("a", .int), ("b", .int), ("r", .int)], some body, true⟩

def retVars : List (String × Ty) := [("a", .int), ("b", .int)]

/-- The meaning of a postcondition with the given body. -/
noncomputable def retI (p : Int → Int → Int → Bool) : Interp := usualI [("f_ps", fun
  | [.int a, .int b, .int r] => .bool (p a b r)
  | _ => .bool false)]

theorem retI_ps (p : Int → Int → Int → Bool) (a b r : Int) : (retI p).fn "f_ps" [.int a, .int b, .int r] = .bool (p a b r) := by
  simp only [retI, usualI, usualFn, List.lookup, beq_self_eq_true]

theorem retI_holds {p : Int → Int → Int → Bool} {body : Expr}
    (h : ∀ a b r, eval (retI p) (paramEnv [("a", .int), ("b", .int), ("r", .int)] [.int a, .int b, .int r]) body = .bool (p a b r)) :
    FnHolds (retI p) (retPs body) := by
  intro vs hvs
  obtain ⟨a, ws, rfl, h1⟩ := SumUp.int_arg hvs
  obtain ⟨b, ws, rfl, h2⟩ := SumUp.int_arg h1
  obtain ⟨r, ws, rfl, h3⟩ := SumUp.int_arg h2
  rw [SumUp.no_arg h3]
  refine ⟨⟨_, retI_ps p a b r⟩, ?_⟩
  intro b' hb
  injection hb with hb
  subst hb
  rw [show (retPs body).name = "f_ps" from rfl, retI_ps]
  exact h a b r

/-- The values of the arguments. -/
def retEnv (a b : Int) : Env := fun x => if x = "a" then .int a else if x = "b" then .int b else .int 0

theorem retEnv_typed (a b : Int) (x : String) : OfTy .int (retEnv a b x) := by
  simp only [retEnv]
  split
  · exact ⟨_, rfl⟩
  · split <;> exact ⟨_, rfl⟩

/-- The verification condition when the returned expression is `e`. -/
def retVc (e : Expr) : Expr := mkCall "f_ps" .bool [vi "a", vi "b", e]

/-- The conditions on the query that can be checked by evaluation. -/
def retOk (body e : Expr) : Bool :=
  candOk (retPs body) && noConstCall (retVars.map Prod.fst) body && printable (retVc e) && decide (filterFnArgs (retVc e) = retVc e) &&
    scopedIn retVars (retVc e)

theorem retQuery {body e : Expr} (h : retOk body e = true) : QueryOk [] [] [retPs body] retVars (retVc e) := by
  simp only [retOk, Bool.and_eq_true, decide_eq_true_eq] at h
  exact {
    langOk := by simp
    langNames := by simp
    axOk := by simp
    candOk := by simpa using h.1.1.1.1
    candNames := by simp
    varsOk := by decide +kernel
    vcOk := ⟨h.1.1.2, h.1.2, h.2⟩
    langConst := by simp
    candConst := by
      intro d hd b hb
      simp only [List.mem_singleton] at hd
      subst hd
      cases hb
      exact h.1.1.1.2
    axConst := by simp
    fnConst := by
      intro d hd hp
      simp only [List.nil_append, List.mem_singleton] at hd
      subst hd
      cases hp }

theorem retSituation {pe : PyExpr} {body e : Expr} {p : Int → Int → Int → Bool} (hok : retOk body e = true)
    (hs : (retFn pe).body.supported (retFn pe).ctx.types (retFn pe).ctx.params true = true)
    (hc : ((retFn pe).call { postconditions := [] }).bind World.vc = some (retVc e))
    (ht : (retFn pe).body.typedOk (retFn pe).ctx.types (langSig []) .int = true)
    (hh : ∀ a b r, eval (retI p) (paramEnv [("a", .int), ("b", .int), ("r", .int)] [.int a, .int b, .int r]) body = .bool (p a b r))
    (hsome : (queryText kahn id [] [] [retPs body] retVars (retVc e)).isSome = true) (a b : Int) :
    ∃ text, Situation (retFn pe) [] [retPs body] retVars (retVc e) text (retI p) (retEnv a b) := by
  obtain ⟨text, htext⟩ := Option.isSome_iff_exists.1 hsome
  exact ⟨text, hs, hc, retQuery hok, by decide +kernel, by intro v hv; simp only [retVars, List.mem_cons, List.not_mem_nil, or_false] at hv; rcases hv with rfl | rfl <;> rfl,
    ht, htext, usualI_usual (by intro q hq; simp only [List.mem_singleton] at hq; subst hq; exact (by decide : "f_ps" ∉ usualNames)), by simp, by
      intro d hd
      simp only [List.mem_singleton] at hd
      subst hd
      exact retI_holds hh, retEnv_typed a b⟩

/-- If the returned expression satisfies the postcondition in every interpretation, no structure satisfies the query. -/
theorem retUnsat {pe : PyExpr} {body e : Expr} {I : Interp} {ρ : Env} {text : String}
    (h : Situation (retFn pe) [] [retPs body] retVars (retVc e) text I ρ)
    (hev : ∀ (J : Interp) (σ : Env) (a b : Int), σ "a" = .int a → σ "b" = .int b → ∃ r, eval J σ e = .int r ∧
      eval J (paramEnv [("a", .int), ("b", .int), ("r", .int)] [.int a, .int b, .int r]) body = .bool true) :
    ∀ fs, readFile filesText = some (fs ++ [c_matrix_transpose]) → ∀ cs, readScript text = some cs → ∀ M : Model, ¬ M.Sat (fs ++ cs) := by
  intro fs _ cs hcs M hM
  obtain ⟨J, σ, _, _, _, hc, hv, hn⟩ := C46_sat_counterexample_partial kahn kahn_spec id (fun _ => .refl _) [] [] [retPs body] retVars (retVc e)
    h.query text h.text cs hcs M (fun c hc => hM c (List.mem_append_right _ hc))
  obtain ⟨a, ha⟩ := (hv ("a", .int) (by decide)).2
  obtain ⟨b, hb⟩ := (hv ("b", .int) (by decide)).2
  obtain ⟨r, hr, ht⟩ := hev J σ a b ha hb
  have := (hc (retPs body) (by simp) [.int a, .int b, .int r] ⟨⟨_, rfl⟩, ⟨_, rfl⟩, ⟨_, rfl⟩, trivial⟩).2 body rfl
  rw [show (retPs body).params = [("a", .int), ("b", .int), ("r", .int)] from rfl, ht] at this
  refine hn ?_
  simp only [holds, retVc, mkCall, vi, eval, evals, evalOp, ha, hb, hr]
  exact (congrArg Val.asBool this.symm :)

/-- C48 is false with Python's own runs: `a // b` is verified against the solver's division, but Python rounds differently when the divisor is
negative. -/
theorem C48_negative_divisor_refuted : ∃ F lang cands vars vc text I ρ v, Situation F lang cands vars vc text I ρ ∧
    (∀ fs, readFile filesText = some (fs ++ [c_matrix_transpose]) → ∀ cs, readScript text = some cs → ∀ M : Model, ¬ M.Sat (fs ++ cs)) ∧
    Exec I (F.argStore ρ) F.body (.returned v) ∧ ¬ F.contract I ρ v := by
  obtain ⟨text, h⟩ := retSituation (pe := .bin .floordiv (.name "a") (.name "b")) (body := .node .eq .bool [vi "r", .node .div .int [vi "a", vi "b"]])
    (e := .node .div .int [vi "a", vi "b"]) (p := fun a b r => decide (r = Int.ediv a b)) (by decide +kernel) (by decide +kernel) rfl
    (by decide +kernel) (by intro a b r; simp [eval, evals, evalOp, vi, paramEnv, List.lookup, retI, usualI]) (by decide +kernel) 7 (-2)
  refine ⟨_, _, _, _, _, text, _, _, .int (-4), h, retUnsat h ?_, ?_, ?_⟩
  · intro J σ a b ha hb
    exact ⟨_, rfl, by simp [eval, evals, evalOp, vi, paramEnv, List.lookup, ha, hb]⟩
  · exact .seqRet (.ret rfl)
  · unfold PyFunc.contract
    show ¬ ((retI _).fn "f_ps" [.int 7, .int (-2), .int (-4)]).asBool = true
    rw [retI_ps]
    decide

/-- The answer for the whole files says nothing: with the definition of `matrix_transpose`, `unsat` is right for every query, also when the
synthesised postcondition (here: the result is 0) is wrong. -/
theorem C48_whole_files_refuted : ∃ F lang cands vars vc text I ρ v, Situation F lang cands vars vc text I ρ ∧
    (∀ fs, readFile filesText = some fs → ∀ cs, readScript text = some cs → ∀ M : Model, ¬ M.Sat (fs ++ cs)) ∧
    @Exec strictOps I (F.argStore ρ) F.body (.returned v) ∧ ¬ F.contract I ρ v := by
  obtain ⟨text, h⟩ := retSituation (pe := .name "a") (body := .node .eq .bool [vi "r", intLit 0])
    (e := vi "a") (p := fun _ _ r => decide (r = 0)) (by decide +kernel) (by decide +kernel) rfl
    (by decide +kernel) (by intro a b r; simp [eval, evals, evalOp, vi, intLit, Lit.val, paramEnv, List.lookup]) (by decide +kernel) 7 0
  refine ⟨_, _, _, _, _, text, _, _, .int 7, h, ?_, ?_, ?_⟩
  · exact fun fs hfs cs _ M => C27_every_query_unsat_refuted fs cs hfs M
  · exact @exec_sound strictOps _ 10 _ _ _ rfl
  · unfold PyFunc.contract
    show ¬ ((retI _).fn "f_ps" [.int 7, .int 0, .int 7]).asBool = true
    rw [retI_ps]
    decide

/-- The driver keeps the right side of the synthesised equation without looking at the left side.  If the left side is not the result (here the
postcondition is `a == a`), the expression kept is not what the function computes, although everything is verified. -/
theorem C48_left_side_refuted : ∃ F lang cands vars vc text I ρ v d e, Situation F lang cands vars vc text I ρ ∧
    (∀ fs, readFile filesText = some (fs ++ [c_matrix_transpose]) → ∀ cs, readScript text = some cs → ∀ M : Model, ¬ M.Sat (fs ++ cs)) ∧
    @Exec strictOps I (F.argStore ρ) F.body (.returned v) ∧ d ∈ cands ∧ d.name = F.ctx.ps ∧ synthesizedPart d = some e ∧
    v ≠ eval I (paramEnv (d.params.dropLast) (F.ctx.params.map ρ)) e := by
  obtain ⟨text, h⟩ := retSituation (pe := pyAdd (.name "a") (.name "b")) (body := .node .eq .bool [vi "a", vi "a"])
    (e := .node .add .int [vi "a", vi "b"]) (p := fun _ _ _ => true) (by decide +kernel) (by decide +kernel) rfl
    (by decide +kernel) (by intro a b r; simp [eval, evals, evalOp, vi]) (by decide +kernel) 7 1
  refine ⟨_, _, _, _, _, text, _, _, .int 8, _, vi "a", h, retUnsat h ?_, ?_, List.mem_singleton.2 rfl, rfl, rfl, ?_⟩
  · intro J σ a b ha hb
    exact ⟨_, rfl, by simp [eval, evals, evalOp, vi]⟩
  · exact @exec_sound strictOps _ 10 _ _ _ rfl
  · show Val.int 8 ≠ .int 7
    decide

end Metalift
