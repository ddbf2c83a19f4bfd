import Verif.LlmNames
import Verif.LlmMono
/-
C55: an accepted solution of a language model means in the IR what it means in Python.
-/
namespace Metalift
namespace Llm
open Smt (OfTy OfTys)

/-- C55 (partial: for solutions that satisfy `okDef`; otherwise see the `_refuted` theorems): let a solution be accepted, and let the
interpretation satisfy the equations of the functions made of it and agree with Python on the functions of the target language.  Then there is an IR
function for every function of the solution, with the same parameters; and whenever Python computes the function on some values without leaving the
range of a list, to the result `r`, the IR function applied to the same values (in the order of its own parameters) is `r`. -/
theorem C55_solution_partial {dsl targets : List FuncDef} {n : Nat} {lams : List (FnDecl × String)} {counts : List (String × Nat)} {st : St}
    {dslSigs : FnSigs} (h : checkSolution dsl targets n lams counts = some st) (hdsl : sigsOf dsl = some dslSigs)
    (hn : ((targets ++ dsl).map FuncDef.name).Nodup) (hok : ∀ d ∈ targets, okDef targets st.decls d = true)
    {I : Interp} (hB : Builtin I) (hD : ∀ D ∈ st.decls, DeclHolds I D ∧ BodyTyped D) {G : Globals} (hA : Agrees I dslSigs G) :
    ∀ d ∈ targets, ∃ D ∈ st.decls, D.name = d.name ∧ irTy d.ret = some D.ret ∧ (∃ b, D.body = some b) ∧
      (∀ p t, (p, t) ∈ D.params ↔ (p, some t) ∈ d.params.zip (d.args.map irTy)) ∧
      ∀ k (val : String → Val), (∀ p ∈ D.params, OfTy p.2 (val p.1)) → ∀ r,
        (pyModule true G targets k).call d.name (d.params.map fun p => .v (val p)) = some r →
        I.fn d.name (D.params.map fun p => val p.1) = r ∧ OfTy D.ret r := by
  intro d hd
  unfold checkSolution at h
  split at h
  · simp only [Option.bind_eq_bind, Option.bind_eq_some_iff] at h
    obtain ⟨sigs, hs, hp⟩ := h
    have hl : d.params.length = d.args.length := by
      have := hok d hd
      unfold okDef at this
      split at this
      · cases this
      · simp only [Bool.and_eq_true, decide_eq_true_eq] at this
        exact this.1.1.1.2
    obtain ⟨D, hDof⟩ := declOf hs hn hp hd hl
    refine ⟨D, hDof.mem, hDof.name, hDof.ret, ?_, ?_, ?_⟩
    · obtain ⟨n, b, st1, st2, -, hb, -⟩ := hDof.body
      exact ⟨b, hb⟩
    · obtain ⟨ts, t1, t2, t3⟩ := hDof.params
      intro p t
      rw [t3, (sortParams_perm _).mem_iff]
      have key : ∀ (ps : List String) (ms : List MTy) (ts : List Ty), irTys ms = some ts → ((p, t) ∈ ps.zip ts ↔ (p, some t) ∈ ps.zip (ms.map irTy)) := by
        intro ps
        induction ps with
        | nil => intro ms ts _; simp
        | cons q ps ih =>
          intro ms ts hts
          cases ms with
          | nil => simp only [irTys, Option.some.injEq] at hts; subst hts; simp
          | cons m ms =>
            simp only [irTys, Option.bind_eq_bind, Option.bind_eq_some_iff, Option.some.injEq] at hts
            obtain ⟨t0, ht0, ts', hts', rfl⟩ := hts
            simp only [List.zip_cons_cons, List.map_cons, List.mem_cons, Prod.mk.injEq, ht0, Option.some.injEq]
            rw [ih ms ts' hts']
      exact key _ _ _ t1
    · intro k val hval r hr
      exact module_sound hB hs hdsl hn hp hok hD hA k d hd D hDof val hval r hr
  · cases h

/-- C55: what the evaluation without leaving the range of a list answers is what Python answers, if the functions of the target language
do not depend on exceptions of the functions passed to them. -/
theorem C55_python {G : Globals} (hG : G.Le G) (targets : List FuncDef) (k : Nat) (f : String) (ps : List PV) (r : Val)
    (h : (pyModule true G targets k).call f ps = some r) : (pyModule false G targets k).call f ps = some r :=
  (module_mono hG targets k).call f ps ps r (les_refl ps) h

/-- C55: two lambda expressions share a name only if they are the same function: they have the same parameters, and their bodies have the same
value everywhere.  `lams` and `counts` are the dictionaries of an earlier call, and the statement holds for the next call as well. -/
theorem C55_lambda_names {dsl targets : List FuncDef} {n : Nat} {lams : List (FnDecl × String)} {counts : List (String × Nat)} {st : St}
    (hi : Named lams counts) (h : checkSolution dsl targets n lams counts = some st) :
    Named st.lams st.counts ∧
    ∀ D ∈ st.decls, ∀ E ∈ st.decls, D.name = E.name → (∀ d ∈ targets, d.name ≠ D.name) →
      D.params.map Prod.fst = E.params.map Prod.fst ∧
      ∃ b c, D.body = some b ∧ E.body = some c ∧ ∀ (I : Interp) (ρ : Env), eval I ρ b = eval I ρ c := by
  unfold checkSolution at h
  split at h
  · simp only [Option.bind_eq_bind, Option.bind_eq_some_iff] at h
    obtain ⟨sigs, -, hp⟩ := h
    have inv := parseDefs_names (ts := targets.map FuncDef.name) (fun d hd => List.mem_map.2 ⟨d, hd, rfl⟩) hp ⟨hi, by simp⟩
    refine ⟨inv.named, ?_⟩
    intro D hD E hE hDE hne
    have nt : D.name ∉ targets.map FuncDef.name := by
      intro hm
      obtain ⟨d, hd, he⟩ := List.mem_map.1 hm
      exact hne d hd he
    obtain ⟨p, hp1, hp2, hp3, b, c, hp4, hp5, hp6, hp7⟩ := (inv.decls D hD).resolve_left nt
    obtain ⟨q, hq1, hq2, hq3, b', c', hq4, hq5, hq6, hq7⟩ := (inv.decls E hE).resolve_left (hDE ▸ nt)
    have hpq : p = q := inv.named.apart p hp1 q hq1 (by rw [hp2, hq2, hDE])
    subst hpq
    rw [hp4] at hq4
    cases hq4
    refine ⟨by rw [← hp3, ← hq3], c, c', hp5, hq5, fun I ρ => ?_⟩
    exact onlyInt_eval hp7 hq7 (Expr.pyEq_trans _ _ _ (Expr.pyEq_symm _ _ hp6) hq6)
  · cases h

/-- The dictionaries of the first call fit together. -/
theorem C55_lambda_names_first : Named [] [] := ⟨by simp, by simp, by simp⟩

/-- Computes `checkSolution` on given functions. -/
macro "llm_parse" a:ident b:ident c:ident : tactic => `(tactic| simp [checkSolution, $a:ident, $b:ident, sigsOf, FuncDef.sig, irTy, irTys, parseDefs,
  parseDef, paramVars, parseBlock, parse, parseArgs, parseArg, parseBound, parseClauses, binary, comparison, lenCall, getAt, getSlice, conditional, isObject,
  nestedList, flatList, primitive, Expr.ty, lambdaName, sortParams, insertParam, $c:ident, List.lookup_cons, mkCall, mkAnd, mkEq, mkIte, intLit])

/-- Computes a call of a Python function. -/
local macro "py_run" "[" a:ident,* "]" : tactic => do
  let ls ← a.getElems.mapM fun x => `(Lean.Parser.Tactic.simpLemma| $x:ident)
  `(tactic| simp [pyModule, pyBlock, pyEval, pyEvals, pyChain, pyBound, pyName, pyBin, pyCmp, pySlice, clamp, everyNth, Locals.bind, bindArgs, PV.data?, PV.bool?,
    PV.int?, PV.list?, PV.num?, List.lookup_cons, $ls,*])

/-! ### A concrete case

```
def double(v: List[int]) -> List[int]:
    return vec_map(v, lambda x: x * 2)

def inv(v: List[int], i: int, out: List[int]) -> bool:
    return 0 <= i <= len(v) and out == double(v[:i])
```
-/

/-- `def vec_map(data: List[int], f: Callable[[int], int]) -> List[int]` -/
def exDsl : List FuncDef := [⟨"vec_map", ["data", "f"], .list .int, [.list .int, .callable .int [.int]], []⟩]

def exTargets : List FuncDef :=
  [⟨"double", ["v"], .list .int, [.list .int], [.ret (.call "vec_map" [.name "v" (.list .int), .lambda ["x"] (.op "*" (.name "x" .int) (.int 2))
      (.callable .int [.int])] [none, none] (.list .int))]⟩,
   ⟨"inv", ["v", "i", "out"], .bool, [.list .int, .int, .list .int], [.ret (.op "and"
      (.compare ["<=", "<="] [.int 0, .name "i" .int, .call "len" [.name "v" (.list .int)] [none] .int])
      (.compare ["=="] [.name "out" (.list .int), .call "double" [.slice (.name "v" (.list .int)) .absent (.name "i" .int) .absent] [none]
        (.list .int)]))]⟩]

def exSt : St where
  lams := [(⟨"<lambda>", .int, [("x", .int)], some (.node .mul .int [.var "x" .int, intLit 2]), true⟩, "f_0")]
  counts := [("f", 1)]
  decls := [⟨"f_0", .int, [("x", .int)], some (.node .mul .int [.var "x" .int, intLit 2]), true⟩,
    ⟨"double", .list .int, [("v", .list .int)], some (mkCall "vec_map" (.list .int) [.var "v" (.list .int), .var "f_0" (.fn [.int, .int])]), true⟩,
    ⟨"inv", .bool, [("i", .int), ("out", .list .int), ("v", .list .int)], some (mkAnd [
      mkAnd [.node .le .bool [intLit 0, .var "i" .int], .node .le .bool [.var "i" .int, mkCall "list_length" .int [.var "v" (.list .int)]]],
      mkEq (.var "out" (.list .int)) (mkCall "double" (.list .int) [mkCall "list_take" (.list .int) [.var "v" (.list .int), .var "i" .int]])]), true⟩]
  inCalls := [("vec_map", "f_0")]

theorem exSt_eq : checkSolution exDsl exTargets 2 [] [] = some exSt := by
  llm_parse exDsl exTargets exSt
  rfl

theorem ex_ok : ∀ d ∈ exTargets, okDef exTargets exSt.decls d = true := by decide +kernel

/-- The names of the primitives. -/
def primNames : List String :=
  ["list_get", "list_tail", "list_take", "vec_slice", "vec_slice_with_length", "list_length", "list_append", "list_prepend", "list_empty", "matrix_get",
   "matrix_tail", "matrix_take", "matrix_row_slice", "matrix_row_slice_with_length", "matrix_length", "matrix_append", "matrix_prepend", "matrix_empty",
   "tensor3d_get", "tensor3d_tail", "tensor3d_take", "tensor3d_slice", "tensor3d_slice_with_length", "tensor3d_length", "tensor3d_append",
   "tensor3d_prepend", "tensor3d_empty", "list_concat", "list_eq"]

theorem seqPrims_congr {I J : Interp} {ok : Val → Prop} {a b c d e f g h i : String} (hI : SeqPrims I ok a b c d e f g h i)
    (hs : ∀ x ∈ [a, b, c, d, e, f, g, h, i], J.fn x = I.fn x) : SeqPrims J ok a b c d e f g h i := by
  simp only [List.forall_mem_cons, List.not_mem_nil, false_imp_iff, implies_true, and_true] at hs
  obtain ⟨h1, h2, h3, h4, h5, h6, h7, h8, h9⟩ := hs
  exact ⟨by rw [h1]; exact hI.get, by rw [h2]; exact hI.tail, by rw [h3]; exact hI.take, by rw [h4]; exact hI.slice, by rw [h5]; exact hI.sliceLen,
    by rw [h6]; exact hI.len, by rw [h7]; exact hI.app, by rw [h8]; exact hI.pre, by rw [h9]; exact hI.emp⟩

theorem listPrims_congr {I J : Interp} (hI : ListPrims I) (hs : ∀ x ∈ primNames, J.fn x = I.fn x) : ListPrims J where
  list := seqPrims_congr hI.list fun x hx => hs x (List.mem_of_mem_take (i := 9) hx)
  matrix := seqPrims_congr hI.matrix fun x hx => hs x (List.mem_of_mem_drop (i := 9) (List.mem_of_mem_take (i := 9) hx))
  tensor := seqPrims_congr hI.tensor fun x hx => hs x (List.mem_of_mem_drop (i := 18) (List.mem_of_mem_take (i := 9) hx))
  concat := by rw [hs "list_concat" (by simp [primNames])]; exact hI.concat
  eq := by rw [hs "list_eq" (by simp [primNames])]; exact hI.eq

/-- An interpretation for a solution: the primitives of Rosette and some functions. -/
def exInterp (fs : String → Option (List Val → Val)) : Interp :=
  let fn : String → List Val → Val := fun f vs => match fs f with | some g => g vs | none => rktFn f vs
  ⟨fn, fun v vs => match v with | .fn g => fn g vs | _ => .int 0, fun a b => a / b, fun a b => a % b, fun vs => vs.headD (.int 0)⟩

theorem exInterp_builtin {fs : String → Option (List Val → Val)} (h : ∀ x ∈ primNames, fs x = none) : Builtin (exInterp fs) where
  lists := listPrims_congr rktInterp_prims fun x hx => by
    funext vs
    simp only [exInterp, h x hx, rktInterp]
  idiv := fun _ _ _ _ => rfl
  imod := fun _ _ _ _ => rfl
  apply := fun _ _ => rfl

/-- The doubled list. -/
def exDouble : Val → Val
  | .list us => .list (us.map fun u => .int (u.asInt * 2))
  | _ => .bool false

/-- What the functions of the example return for one argument. -/
def exOne (g : String) (v : Val) : Val :=
  if g = "f_0" then .int (v.asInt * 2)
  else if g = "vec_map" then .bool false
  else if g = "double" then exDouble v
  else if g = "inv" then .bool false
  else rktFn g [v]

/-- `vec_map` -/
def exMap : List Val → Val
  | [.list us, .fn g] => .list (us.map (exOne g))
  | [.list us, _] => .list (us.map fun _ => .int 0)
  | _ => .bool false

/-- The functions of the example. -/
def exFns (f : String) : Option (List Val → Val) :=
  if f = "f_0" then some fun vs => .int ((vs.headD (.int 0)).asInt * 2)
  else if f = "vec_map" then some exMap
  else if f = "double" then some fun vs => exDouble (vs.headD (.int 0))
  else if f = "inv" then some fun vs =>
    match vs with
    | [i, out, v] => .bool ((decide (0 ≤ i.asInt) && decide (i.asInt ≤ (rktFn "list_length" [v]).asInt)) &&
        decide (out = exDouble (rktFn "list_take" [v, i])))
    | _ => .bool false
  else none

/-- `vec_map` in Python. -/
def exG : Globals where
  names := fun f => if f = "vec_map" then ["data", "f"] else []
  call := fun f ps =>
    if f = "vec_map" then
      match ps with
      | [.v (.list us), .f c] => (us.mapM fun u => c [u]).map .list
      | _ => none
    else none

theorem ex_builtin : Builtin (exInterp exFns) := exInterp_builtin (by decide +kernel)

theorem exOne_eq (g : String) (v : Val) : (exInterp exFns).fn g [v] = exOne g v := by
  simp only [exInterp, exFns, exOne]
  split_ifs <;> simp [exMap]

theorem exMap_eq (us : List Val) (v : Val) : exMap [.list us, v] = .list (us.map fun u => (exInterp exFns).apply v [u]) := by
  cases v with
  | fn g => simp only [exMap, exInterp, Val.list.injEq]
            exact List.map_congr_left fun u _ => (exOne_eq g u).symm
  | _ => simp [exMap, exInterp]

theorem mapM_spec {c : Val → Option Val} {f : Val → Val} {P : Val → Prop} : ∀ {us ws : List Val}, us.mapM c = some ws →
    (∀ u ∈ us, ∀ w, c u = some w → f u = w ∧ P w) → us.map f = ws ∧ ∀ w ∈ ws, P w
  | [], ws, h, _ => by simp at h; subst h; simp
  | u :: us, ws, h, hf => by
    simp only [List.mapM_cons, Option.bind_eq_bind, Option.bind_eq_some_iff, Option.pure_def, Option.some.injEq] at h
    obtain ⟨w, hw, ws', hws, rfl⟩ := h
    obtain ⟨h1, h2⟩ := mapM_spec hws fun u hu => hf u (List.mem_cons_of_mem _ hu)
    obtain ⟨h3, h4⟩ := hf u List.mem_cons_self w hw
    simp only [List.map_cons, h1, h3, List.forall_mem_cons, true_and]
    exact ⟨h4, h2⟩

theorem ex_agrees : ∃ sigs, sigsOf exDsl = some sigs ∧ Agrees (exInterp exFns) sigs exG := by
  refine ⟨[("vec_map", ⟨["data", "f"], [some (.list .int), some (.fn [.int, .int])], .list .int⟩)], by simp [sigsOf, exDsl, FuncDef.sig, irTy, irTys], ?_⟩
  intro f s hs _ ps vs hr w hw
  simp only [List.lookup_cons, List.lookup_nil] at hs
  split at hs
  · rename_i hf
    simp only [Option.some.injEq] at hs
    subst hs
    rw [beq_iff_eq] at hf
    subst hf
    simp only [exG, if_pos] at hw
    split at hw
    · rename_i us c
      match vs, hr with
      | [v1, v2], hr =>
        simp only [Rels, Rel] at hr
        obtain ⟨⟨rfl, hus⟩, ⟨r, ts, ht, hc⟩, -⟩ := hr
        simp only [Ty.fn.injEq, List.cons.injEq] at ht
        obtain ⟨rfl, rfl⟩ := ht
        simp only [Option.map_eq_some_iff] at hw
        obtain ⟨ws, hm, rfl⟩ := hw
        have e : (exInterp exFns).fn "vec_map" [.list us, v2] = exMap [.list us, v2] := by simp [exInterp, exFns]
        simp only [OfTy, Val.list.injEq] at hus
        obtain ⟨us', rfl, hus⟩ := hus
        obtain ⟨h1, h2⟩ := mapM_spec (f := fun u => (exInterp exFns).apply v2 [u]) (P := OfTy .int) hm
          fun u hu w hw => hc [u] (by simp only [OfTys, and_true]; exact hus u hu) w hw
        exact ⟨by rw [e, exMap_eq, h1], ws, rfl, h2⟩
    · cases hw
  · cases hs

theorem ofTys1 {t : Ty} {vs : List Val} (h : OfTys [t] vs) : ∃ v, vs = [v] ∧ OfTy t v := by
  match vs, h with
  | [v], h => exact ⟨v, rfl, by simpa [OfTys] using h⟩

theorem ex_decls : ∀ D ∈ exSt.decls, DeclHolds (exInterp exFns) D ∧ BodyTyped D := by
  intro D hD
  simp only [exSt, List.mem_cons, List.not_mem_nil, or_false] at hD
  rcases hD with rfl | rfl | rfl
  · refine ⟨fun vs hvs b hb => ?_, fun b hb => by cases hb; rfl⟩
    obtain ⟨v, rfl, -⟩ := ofTys1 hvs
    cases hb
    simp [exInterp, exFns, eval, evals, evalOp, fnEnv, intLit, Lit.val, Val.asInt]
  · refine ⟨fun vs hvs b hb => ?_, fun b hb => by cases hb; rfl⟩
    obtain ⟨v, rfl, us, rfl, -⟩ := ofTys1 hvs
    cases hb
    simp [exInterp, exFns, eval, evals, evalOp, fnEnv, mkCall, exDouble, exMap, exOne, List.lookup_cons]
  · refine ⟨fun vs hvs b hb => ?_, fun b hb => by cases hb; rfl⟩
    match vs, hvs with
    | [i, out, v], _ =>
      cases hb
      have h0 : (Val.int 0).asInt = 0 := rfl
      simp [exInterp, exFns, eval, evals, evalOp, fnEnv, mkCall, mkAnd, mkEq, intLit, Lit.val, h0, Val.asBool, List.lookup_cons]

/-- The hypotheses of `C55_solution_partial` and `C55_python` are met, and Python computes both functions. -/
example : ∃ sigs, checkSolution exDsl exTargets 2 [] [] = some exSt ∧ sigsOf exDsl = some sigs ∧ ((exTargets ++ exDsl).map FuncDef.name).Nodup ∧
    (∀ d ∈ exTargets, okDef exTargets exSt.decls d = true) ∧ Builtin (exInterp exFns) ∧ Agrees (exInterp exFns) sigs exG ∧
    (∀ D ∈ exSt.decls, DeclHolds (exInterp exFns) D ∧ BodyTyped D) := by
  obtain ⟨sigs, h1, h2⟩ := ex_agrees
  exact ⟨sigs, exSt_eq, h1, by decide +kernel, ex_ok, ex_builtin, h2, ex_decls⟩

theorem ex_le : exG.Le exG := by
  refine ⟨rfl, fun f ps qs w hle h => ?_⟩
  simp only [exG] at h ⊢
  split at h
  · rename_i hf
    rw [if_pos hf]
    split at h
    · rename_i us c
      cases hle with
      | cons a b =>
        cases b with
        | cons b d =>
          cases d
          obtain rfl := PV.le_v a
          obtain ⟨c', rfl, hc⟩ := b
          simp only [Option.map_eq_some_iff] at h ⊢
          obtain ⟨ws, hm, rfl⟩ := h
          refine ⟨ws, ?_, rfl⟩
          clear a
          induction us generalizing ws with
          | nil => exact hm
          | cons u us ih =>
            simp only [List.mapM_cons, Option.bind_eq_bind, Option.bind_eq_some_iff, Option.pure_def, Option.some.injEq] at hm ⊢
            obtain ⟨w, hw, ws', hws, rfl⟩ := hm
            exact ⟨w, hc _ _ hw, ws', ih ws' hws, rfl⟩
    · cases h
  · cases h

example : (pyModule true exG exTargets 2).call "inv" [.v (.list [.int 3, .int 4]), .v (.int 1), .v (.list [.int 6])] = some (.bool true) := by
  py_run [exG, exTargets]
  rw [if_pos (by decide +kernel)]
  rfl

/-! ### Where the translation changes the meaning -/

/-- No functions of a target language. -/
def noFns : Globals := ⟨fun _ => [], fun _ _ => none⟩

/-- The solution is accepted, Python computes the function on some values to the result `r`, some interpretation satisfies the equations, and none that
does has that result. -/
def Wrong (targets : List FuncDef) (n : Nat) (d : FuncDef) (val : String → Val) (r : Val) : Prop :=
  d ∈ targets ∧ ∃ st D, checkSolution [] targets n [] [] = some st ∧ D ∈ st.decls ∧ D.name = d.name ∧ (∀ D ∈ st.decls, BodyTyped D) ∧
    (∃ k, (pyModule false noFns targets k).call d.name (d.params.map fun p => .v (val p)) = some r) ∧
    (∃ I, Builtin I ∧ ∀ D ∈ st.decls, DeclHolds I D) ∧
    ∀ I, Builtin I → (∀ D ∈ st.decls, DeclHolds I D) → I.fn D.name (D.params.map fun p => val p.1) ≠ r

/-- An interpretation for functions that do not call each other in circles. -/
theorem wrong_intro {targets : List FuncDef} {n : Nat} {d : FuncDef} {val : String → Val} {r : Val} (st : St) (D : FnDecl)
    (fs : String → Option (List Val → Val)) (k : Nat) (h0 : d ∈ targets) (h1 : checkSolution [] targets n [] [] = some st) (h2 : D ∈ st.decls)
    (h3 : D.name = d.name) (h4 : ∀ D ∈ st.decls, BodyTyped D)
    (h5 : (pyModule false noFns targets k).call d.name (d.params.map fun p => .v (val p)) = some r)
    (h6 : ∀ x ∈ primNames, fs x = none) (h7 : ∀ D ∈ st.decls, DeclHolds (exInterp fs) D)
    (h8 : ∀ I, Builtin I → (∀ D ∈ st.decls, DeclHolds I D) → I.fn D.name (D.params.map fun p => val p.1) ≠ r) : Wrong targets n d val r :=
  ⟨h0, st, D, h1, h2, h3, h4, ⟨k, h5⟩, ⟨_, exInterp_builtin h6, h7⟩, h8⟩

/-- `def f(a: int) -> List[int]: return [a]` -/
def dspDef : FuncDef := ⟨"f", ["a"], .list .int, [.int], [.ret (.list [.name "a" .int] (.list .int))]⟩

def dspSt : St := ⟨[], [], [⟨"f", .list .int, [("a", .int)], some (mkCall "list_empty" (.list .int) []), true⟩], []⟩

/-- C55 fails for lists with elements: the list becomes the empty list. -/
theorem C55_list_display_refuted : Wrong [dspDef] 1 dspDef (fun _ => .int 1) (.list [.int 1]) := by
  have e : checkSolution [] [dspDef] 1 [] [] = some dspSt := by llm_parse dspDef dspDef dspSt
  refine wrong_intro dspSt _ (fun f => if f = "f" then some fun _ => .list [] else none) 1 (by simp) e (by simp only [dspSt]; exact List.mem_cons_self) rfl
    ?_ (by py_run [noFns, dspDef]) (by decide +kernel) ?_ ?_
  · intro D hD
    simp only [dspSt, List.mem_cons, List.not_mem_nil, or_false] at hD
    subst hD
    intro b hb; cases hb; rfl
  · intro D hD
    simp only [dspSt, List.mem_cons, List.not_mem_nil, or_false] at hD
    subst hD
    intro vs _ b hb
    cases hb
    simp [exInterp, eval, evals, evalOp, mkCall, rktFn]
  · intro I hB hD
    have := hD _ (by simp only [dspSt]; exact List.mem_cons_self) [.int 1] (by simp [OfTys, OfTy]) _ rfl
    simp only [List.map_cons, List.map_nil]
    rw [this]
    simp [eval, evals, evalOp, mkCall, hB.lists.list.emp]

/-- `def g(a: int, b: int) -> int: return a - b` and `def f(a: int, b: int) -> int: return g(b=b, a=a)` -/
def kwG : FuncDef := ⟨"g", ["a", "b"], .int, [.int, .int], [.ret (.op "-" (.name "a" .int) (.name "b" .int))]⟩
@[inherit_doc kwG] def kwF : FuncDef :=
  ⟨"f", ["a", "b"], .int, [.int, .int], [.ret (.call "g" [.name "b" .int, .name "a" .int] [some "b", some "a"] .int)]⟩

def kwSt : St := ⟨[], [], [⟨"g", .int, [("a", .int), ("b", .int)], some (.node .sub .int [.var "a" .int, .var "b" .int]), true⟩,
  ⟨"f", .int, [("a", .int), ("b", .int)], some (mkCall "g" .int [.var "b" .int, .var "a" .int]), true⟩], []⟩

def kwFns (f : String) : Option (List Val → Val) :=
  if f = "g" then some fun vs => match vs with | [a, b] => .int (a.asInt - b.asInt) | _ => .int 0
  else if f = "f" then some fun vs => match vs with | [a, b] => .int (b.asInt - a.asInt) | _ => .int 0
  else none

/-- C55 fails for keyword arguments: they are passed in the order in which they are written. -/
theorem C55_keyword_refuted : Wrong [kwG, kwF] 2 kwF (fun x => if x = "a" then .int 1 else .int 0) (.int 1) := by
  have e : checkSolution [] [kwG, kwF] 2 [] [] = some kwSt := by llm_parse kwG kwF kwSt
  refine wrong_intro kwSt _ kwFns 2 (by simp) e (by simp only [kwSt]; exact List.mem_cons_of_mem _ List.mem_cons_self) rfl
    ?_ (by py_run [noFns, kwG, kwF]) (by decide +kernel) ?_ ?_
  · intro D hD
    simp only [kwSt, List.mem_cons, List.not_mem_nil, or_false] at hD
    rcases hD with rfl | rfl <;> (intro b hb; cases hb; rfl)
  · intro D hD
    simp only [kwSt, List.mem_cons, List.not_mem_nil, or_false] at hD
    rcases hD with rfl | rfl <;>
    · intro vs hvs b hb
      match vs, hvs with
      | [x, y], _ =>
        cases hb
        simp [exInterp, eval, evals, evalOp, mkCall, kwFns, fnEnv, List.lookup_cons]
  · intro I hB hD
    have h1 := hD _ (by simp only [kwSt]; exact List.mem_cons_self) [.int 0, .int 1] (by simp [OfTys, OfTy]) _ rfl
    have h2 := hD _ (by simp only [kwSt]; exact List.mem_cons_of_mem _ List.mem_cons_self) [.int 1, .int 0] (by simp [OfTys, OfTy]) _ rfl
    simp only [List.map_cons, List.map_nil, if_pos, if_neg (show ¬ "b" = "a" by decide)]
    rw [h2]
    simp only [mkCall, eval, evals, evalOp, fnEnv, List.map_cons, List.map_nil, List.zip_cons_cons, List.zip_nil_left, List.lookup_cons] at h1 ⊢
    simp at h1 ⊢
    rw [h1]
    simp

/-- `def g(b: int, a: int) -> int: return b - a` and `def f(x: int) -> int: return g(x, 0)` -/
def srtG : FuncDef := ⟨"g", ["b", "a"], .int, [.int, .int], [.ret (.op "-" (.name "b" .int) (.name "a" .int))]⟩
@[inherit_doc srtG] def srtF : FuncDef := ⟨"f", ["x"], .int, [.int], [.ret (.call "g" [.name "x" .int, .int 0] [none, none] .int)]⟩

def srtSt : St := ⟨[], [], [⟨"g", .int, [("a", .int), ("b", .int)], some (.node .sub .int [.var "b" .int, .var "a" .int]), true⟩,
  ⟨"f", .int, [("x", .int)], some (mkCall "g" .int [.var "x" .int, intLit 0]), true⟩], []⟩

def srtFns (f : String) : Option (List Val → Val) :=
  if f = "g" then some fun vs => match vs with | [a, b] => .int (b.asInt - a.asInt) | _ => .int 0
  else if f = "f" then some fun vs => match vs with | [x] => .int (0 - x.asInt) | _ => .int 0
  else none

/-- C55 fails for calls of functions whose parameters are not in alphabetical order: the parameters are sorted, the arguments are not. -/
theorem C55_sorted_refuted : Wrong [srtG, srtF] 2 srtF (fun _ => .int 1) (.int 1) := by
  have e : checkSolution [] [srtG, srtF] 2 [] [] = some srtSt := by llm_parse srtG srtF srtSt
  refine wrong_intro srtSt _ srtFns 2 (by simp) e (by simp only [srtSt]; exact List.mem_cons_of_mem _ List.mem_cons_self) rfl
    ?_ (by py_run [noFns, srtG, srtF]) (by decide +kernel) ?_ ?_
  · intro D hD
    simp only [srtSt, List.mem_cons, List.not_mem_nil, or_false] at hD
    rcases hD with rfl | rfl <;> (intro b hb; cases hb; rfl)
  · intro D hD
    simp only [srtSt, List.mem_cons, List.not_mem_nil, or_false] at hD
    rcases hD with rfl | rfl
    · intro vs hvs b hb
      match vs, hvs with
      | [x, y], _ =>
        cases hb
        simp [exInterp, eval, evals, evalOp, srtFns, fnEnv, List.lookup_cons]
    · intro vs hvs b hb
      obtain ⟨x, rfl, -⟩ := ofTys1 hvs
      cases hb
      have h0 : (Val.int 0).asInt = 0 := rfl
      simp [exInterp, eval, evals, evalOp, mkCall, srtFns, fnEnv, intLit, Lit.val, h0]
  · intro I hB hD
    have h1 := hD _ (by simp only [srtSt]; exact List.mem_cons_self) [.int 1, .int 0] (by simp [OfTys, OfTy]) _ rfl
    have h2 := hD _ (by simp only [srtSt]; exact List.mem_cons_of_mem _ List.mem_cons_self) [.int 1] (by simp [OfTys, OfTy]) _ rfl
    simp only [List.map_cons, List.map_nil]
    rw [h2]
    simp [mkCall, eval, evals, evalOp, fnEnv, List.lookup_cons, intLit, Lit.val] at h1 ⊢
    rw [h1]
    simp

/-- `def f(v: List[int]) -> List[int]: return v[0:2:2]` -/
def stepDef : FuncDef := ⟨"f", ["v"], .list .int, [.list .int], [.ret (.slice (.name "v" (.list .int)) (.int 0) (.int 2) (.int 2))]⟩

def stepSt : St :=
  ⟨[], [], [⟨"f", .list .int, [("v", .list .int)], some (mkCall "vec_slice" (.list .int) [.var "v" (.list .int), intLit 0, intLit 2]), true⟩], []⟩

/-- C55 fails for slices with a step: the step is dropped. -/
theorem C55_step_refuted : Wrong [stepDef] 1 stepDef (fun _ => .list [.int 1, .int 2]) (.list [.int 1]) := by
  have e : checkSolution [] [stepDef] 1 [] [] = some stepSt := by llm_parse stepDef stepDef stepSt
  refine wrong_intro stepSt _ (fun f => if f = "f" then some fun vs => rktFn "vec_slice" [vs.headD (.int 0), .int 0, .int 2] else none) 1 (by simp) e
    (by simp only [stepSt]; exact List.mem_cons_self) rfl ?_ (by py_run [noFns, stepDef]) (by decide +kernel) ?_ ?_
  · intro D hD
    simp only [stepSt, List.mem_cons, List.not_mem_nil, or_false] at hD
    subst hD
    intro b hb; cases hb; rfl
  · intro D hD
    simp only [stepSt, List.mem_cons, List.not_mem_nil, or_false] at hD
    subst hD
    intro vs hvs b hb
    obtain ⟨x, rfl, -⟩ := ofTys1 hvs
    cases hb
    simp [exInterp, eval, evals, evalOp, mkCall, fnEnv, intLit, Lit.val]
  · intro I hB hD
    have := hD _ (by simp only [stepSt]; exact List.mem_cons_self) [.list [.int 1, .int 2]] (by simp [OfTys, OfTy]) _ rfl
    simp only [List.map_cons, List.map_nil]
    rw [this]
    have h := hB.lists.list.slice [.int 1, .int 2] 0 2 (by decide) (by decide) (by decide)
    simp only [mkCall, eval, evals, evalOp, fnEnv, intLit, Lit.val, List.map_cons, List.map_nil, List.zip_cons_cons, List.zip_nil_left, List.lookup_cons]
    simp only [beq_self_eq_true, Option.getD_some]
    rw [h]
    decide

/-- `def f(a: int) -> bool: return a / 2 > 3` -/
def divDef : FuncDef := ⟨"f", ["a"], .bool, [.int], [.ret (.compare [">"] [.op "/" (.name "a" .int) (.int 2), .int 3])]⟩

def divSt : St := ⟨[], [], [⟨"f", .bool, [("a", .int)], some (.node .gt .bool [.node .div .int [.var "a" .int, intLit 2], intLit 3]), true⟩], []⟩

/-- C55 fails for true division: it becomes the division of integers. -/
theorem C55_division_refuted : Wrong [divDef] 1 divDef (fun _ => .int 7) (.bool true) := by
  have e : checkSolution [] [divDef] 1 [] [] = some divSt := by llm_parse divDef divDef divSt
  refine wrong_intro divSt _ (fun f => if f = "f" then some fun vs => .bool (decide ((vs.headD (.int 0)).asInt / 2 > 3)) else none) 1 (by simp) e
    (by simp only [divSt]; exact List.mem_cons_self) rfl ?_ (by py_run [noFns, divDef]; rw [if_pos (by decide +kernel)]; rfl) (by decide +kernel) ?_ ?_
  · intro D hD
    simp only [divSt, List.mem_cons, List.not_mem_nil, or_false] at hD
    subst hD
    intro b hb; cases hb; rfl
  · intro D hD
    simp only [divSt, List.mem_cons, List.not_mem_nil, or_false] at hD
    subst hD
    intro vs hvs b hb
    obtain ⟨x, rfl, i, rfl⟩ := ofTys1 hvs
    cases hb
    simp [exInterp, eval, evals, evalOp, fnEnv, intLit, Lit.val, Val.asInt]
    exact decide_eq_decide.2 Iff.rfl
  · intro I hB hD
    have := hD _ (by simp only [divSt]; exact List.mem_cons_self) [.int 7] (by simp [OfTys, OfTy]) _ rfl
    simp only [List.map_cons, List.map_nil]
    rw [this]
    simp [eval, evals, evalOp, fnEnv, intLit, Lit.val, Val.asInt, hB.idiv 7 2 (by decide) (by decide)]

/-- `def f(a: int) -> bool: return a == a or True` -/
def trueDef : FuncDef :=
  ⟨"f", ["a"], .bool, [.int], [.ret (.op "or" (.compare ["=="] [.name "a" .int, .name "a" .int]) (.name "True" .bool))]⟩

/-- C55 fails for `True` and `False`: they become variables that nothing declares. -/
theorem C55_true_refuted : ∃ st, checkSolution [] [trueDef] 1 [] [] = some st ∧
    ∃ D ∈ st.decls, ∃ b, D.body = some b ∧ "True" ∈ b.vars ∧ "True" ∉ D.params.map Prod.fst := by
  refine ⟨⟨[], [], [⟨"f", .bool, [("a", .int)], some (mkOr [mkEq (.var "a" .int) (.var "a" .int), .var "True" .bool]), true⟩], []⟩, ?_,
    _, List.mem_cons_self, _, rfl, by simp [Expr.vars, Expr.varss, mkOr, mkEq], by simp⟩
  llm_parse trueDef trueDef trueDef

/-- `def f(v: List[int], c: int) -> List[int]: return vec_map(v, lambda x: x + c)` -/
def capDef : FuncDef := ⟨"f", ["v", "c"], .list .int, [.list .int, .int], [.ret (.call "vec_map" [.name "v" (.list .int),
  .lambda ["x"] (.op "+" (.name "x" .int) (.name "c" .int)) (.callable .int [.int])] [none, none] (.list .int))]⟩

/-- C55 fails for lambda expressions that use a parameter of the function: the function made of them has it as a variable that nothing declares. -/
theorem C55_capture_refuted : ∃ st, checkSolution exDsl [capDef] 1 [] [] = some st ∧
    ∃ D ∈ st.decls, D.name = "f_0" ∧ ∃ b, D.body = some b ∧ "c" ∈ b.vars ∧ "c" ∉ D.params.map Prod.fst := by
  have e : ∃ L, checkSolution exDsl [capDef] 1 [] [] = some L ∧
      L.decls.head? = some ⟨"f_0", .int, [("x", .int)], some (.node .add .int [.var "x" .int, .var "c" .int]), true⟩ := by
    llm_parse exDsl capDef capDef
    rfl
  obtain ⟨L, h1, h2⟩ := e
  exact ⟨L, h1, _, List.mem_of_mem_head? h2, rfl, _, rfl, by simp [Expr.vars, Expr.varss], by simp⟩

end Llm
end Metalift
