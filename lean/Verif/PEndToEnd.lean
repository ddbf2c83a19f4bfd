import Verif.PyTyped
import Verif.PSmtFiles
/-
C48: from the answer of the solver to the runs of the Python function.
-/
namespace Metalift
open Smt

/-! ### Specification -/

/-- The operations of a run that gives up where the operations of the solver differ from Python's: an index must not be negative, and a divisor
must be positive.  (Where such a run has a result, it is the result of the Python program: `exec_strict`.) -/
@[reducible] def strictOps : PyOps where
  index vs i := if 0 ≤ i then vs[i.toNat]? else none
  floordiv a b := if 0 < b then some (a / b) else none
  setAdd := pySetAdd
  setRemove := pySetRemove

/-- The functions of an interpretation, as a structure for the solver. -/
def Interp.asModel (I : Interp) : Model := ⟨I.fn, fun a => I.idiv a 0, fun a => I.imod a 0⟩

/-- The functions that are neither target language nor synthesised have their meaning: those of the solver, those of the files of definitions
(without `matrix_transpose`), and those which the frontend writes. -/
structure Usual (I : Interp) : Prop where
  solver : FixedFns I
  files : ∃ S F, SmtModel.Core S ∧ IntFns.Ok F ∧ Rep I.asModel S F
  frontend : @PyPrims strictOps I

/-- The signatures of the functions of the target language. -/
def langSig (lang : List FnDecl) : Sigs := fun f => (lang.find? (fun d => d.name == f)).map (fun d => (d.params.map Prod.snd, d.ret))

/-- What `Driver.synthesize` (`metalift/frontend/python.py` 890-901) keeps as the synthesised version of the function, for a synthesised
predicate whose name is that of its postcondition: the right side of an equation. -/
def synthesizedPart (d : FnDecl) : Option Expr :=
  match d.body with
  | some (.node .eq _ [_, e]) => some e
  | _ => none

/-! ### Strict runs are runs -/

theorem strict_index {vs : List Val} {i : Int} {v : Val} (h : strictOps.index vs i = some v) : pyIndex vs i = some v := by
  simp only [PyOps.index] at h
  split at h
  · next hi => simp only [pyIndex, if_pos hi, h]
  · cases h

theorem strict_floordiv {a b c : Int} (h : strictOps.floordiv a b = some c) : pyFloordiv a b = some c := by
  simp only [PyOps.floordiv] at h
  split at h
  · next hb =>
    simp only [pyFloordiv, if_neg (show b ≠ 0 by omega)]
    rw [← h, Int.fdiv_eq_ediv_of_nonneg _ (by omega)]
  · cases h

mutual
theorem pyEval_strict {I : Interp} {s : Store} : ∀ (e : PyExpr) {v : Val}, @pyEval strictOps I s e = some v → pyEval I s e = some v
  | .int i, v, h => h
  | .name x, v, h => h
  | .cmp ops [], v, h => by simp [pyEval] at h
  | .cmp ops (e :: es), v, h => by
    simp only [pyEval] at h ⊢
    split at h
    · next a ha =>
      simp only [Option.map_eq_some_iff] at h
      obtain ⟨b, hb, rfl⟩ := h
      simp only [pyEval_strict e ha, pyChain_strict a ops es hb, Option.map_some]
    · cases h
  | .bin op l r, v, h => by
    cases op
    case and =>
      simp only [pyEval] at h ⊢
      split at h
      · next hl => simp only [pyEval_strict l hl]; exact h
      · next hl =>
        split at h
        · next hr => simp only [pyEval_strict l hl, pyEval_strict r hr]; exact h
        · cases h
      · cases h
    case or =>
      simp only [pyEval] at h ⊢
      split at h
      · next hl => simp only [pyEval_strict l hl]; exact h
      · next hl =>
        split at h
        · next hr => simp only [pyEval_strict l hl, pyEval_strict r hr]; exact h
        · cases h
      · cases h
    case floordiv =>
      simp only [pyEval] at h ⊢
      split at h
      · next hl hr =>
        simp only [pyEval_strict l hl, pyEval_strict r hr]
        simp only [BinOp.run, Option.map_eq_some_iff] at h ⊢
        obtain ⟨c, hc, rfl⟩ := h
        exact ⟨c, strict_floordiv hc, rfl⟩
      · cases h
    all_goals
      simp only [pyEval] at h ⊢
      split at h
      · next hl hr => simp only [pyEval_strict l hl, pyEval_strict r hr]; exact h
      · cases h
  | .neg e, v, h => by
    simp only [pyEval] at h ⊢
    split at h
    · next he => simp only [pyEval_strict e he, h]
    · cases h
  | .len e, v, h => by
    simp only [pyEval] at h ⊢
    split at h
    · next he => simp only [pyEval_strict e he, h]
    · cases h
  | .index b i, v, h => by
    simp only [pyEval] at h ⊢
    split at h
    · next hb hi => simp only [pyEval_strict b hb, pyEval_strict i hi]; exact strict_index h
    · cases h
  | .emptyList, v, h => h
  | .call f t args, v, h => by
    simp only [pyEval, Option.map_eq_some_iff] at h ⊢
    obtain ⟨ws, hw, rfl⟩ := h
    exact ⟨ws, pyEvals_strict args hw, rfl⟩
theorem pyChain_strict {I : Interp} {s : Store} (a : Int) : ∀ (ops : List CmpOp) (es : List PyExpr) {b : Bool},
    @pyChain strictOps I s a ops es = some b → pyChain I s a ops es = some b
  | [], [], b, h => h
  | [], _ :: _, b, h => by simp [pyChain] at h
  | _ :: _, [], b, h => by simp [pyChain] at h
  | op :: ops, e :: es, b, h => by
    simp only [pyChain] at h ⊢
    split at h
    · next c hc =>
      simp only [pyEval_strict e hc]
      split at h
      · next ho => exact pyChain_strict c ops es h
      · next ho => exact h
      · cases h
    · cases h
theorem pyEvals_strict {I : Interp} {s : Store} : ∀ (es : List PyExpr) {vs : List Val},
    @pyEvals strictOps I s es = some vs → pyEvals I s es = some vs
  | [], vs, h => h
  | e :: es, vs, h => by
    simp only [pyEvals] at h ⊢
    split at h
    · next v hv =>
      simp only [Option.map_eq_some_iff] at h
      obtain ⟨ws, hw, rfl⟩ := h
      simp only [pyEval_strict e hv, pyEvals_strict es hw, Option.map_some]
    · cases h
end

/-- A run that gives up on negative indices and on divisors that are not positive is a run of the Python program. -/
theorem exec_strict {I : Interp} {s : Store} {st : Stmt} {o : Outcome} (h : @Exec strictOps I s st o) : Exec I s st o := by
  induction h with
  | skip => exact .skip
  | seq _ _ ih1 ih2 => exact .seq ih1 ih2
  | seqRet _ ih => exact .seqRet ih
  | assign h => exact .assign (pyEval_strict _ h)
  | append h1 h2 => exact .append h1 (pyEval_strict _ h2)
  | setAdd h1 h2 => exact .setAdd h1 (pyEval_strict _ h2)
  | setRemove h1 h2 h3 => exact .setRemove h1 (pyEval_strict _ h2) h3
  | ret h => exact .ret (pyEval_strict _ h)
  | iteT h _ ih => exact .iteT (pyEval_strict _ h) ih
  | iteF h _ ih => exact .iteF (pyEval_strict _ h) ih
  | loopF h => exact .loopF (pyEval_strict _ h)
  | loopT h _ _ ih1 ih2 => exact .loopT (pyEval_strict _ h) ih1 ih2
  | loopRet h _ ih => exact .loopRet (pyEval_strict _ h) ih

theorem strict_mem : ∀ (vs : List Val) i v, strictOps.index vs i = some v → v ∈ vs := by
  intro vs i v h
  simp only [PyOps.index] at h
  split at h
  · exact List.mem_of_getElem? h
  · cases h

/-! ### The files of definitions and the constants of the query -/

theorem model_app {I : Interp} {C : List String} {ρ : Env} {f : String} (hf : setName f = none) (v : Val) (vs : List Val) :
    (Interp.model I C ρ).fn f (v :: vs) = I.fn f (v :: vs) := by
  simp [Interp.model, hf]

theorem model_const {I : Interp} {C : List String} {ρ : Env} {f : String} (hf : setName f = none) (hC : f ∉ C) :
    (Interp.model I C ρ).fn f [] = I.fn f [] := by
  simp [Interp.model, hf, hC]

theorem fileFns_noSet : ∀ f ∈ "tail" :: fileFns, setName f = none := by decide +kernel

theorem rep_model {I : Interp} {S : SmtModel} {F : IntFns} (h : Rep I.asModel S F) (C : List String) (ρ : Env)
    (h1 : "list_empty" ∉ C) (h2 : "matrix_empty" ∉ C) : Rep (Interp.model I C ρ) S F where
  exp := fun _ => (model_app (fileFns_noSet _ (by decide)) _ _).trans (h.exp _)
  sqrtHelper := fun _ _ => (model_app (fileFns_noSet _ (by decide)) _ _).trans (h.sqrtHelper _ _)
  sqrt := fun _ => (model_app (fileFns_noSet _ (by decide)) _ _).trans (h.sqrt _)
  selNil := (model_app (fileFns_noSet _ (by decide)) _ _).trans h.selNil
  length := fun _ => (model_app (fileFns_noSet _ (by decide)) _ _).trans (h.length _)
  prepend := fun _ _ => (model_app (fileFns_noSet _ (by decide)) _ _).trans (h.prepend _ _)
  append := fun _ _ => (model_app (fileFns_noSet _ (by decide)) _ _).trans (h.append _ _)
  getHelper := fun _ _ => (model_app (fileFns_noSet _ (by decide)) _ _).trans (h.getHelper _ _)
  get := fun _ _ => (model_app (fileFns_noSet _ (by decide)) _ _).trans (h.get _ _)
  empty := (model_const (fileFns_noSet _ (by decide)) h1).trans h.empty
  tail := fun _ _ => (model_app (fileFns_noSet _ (by decide)) _ _).trans (h.tail _ _)
  take := fun _ _ => (model_app (fileFns_noSet _ (by decide)) _ _).trans (h.take _ _)
  concat := fun _ _ => (model_app (fileFns_noSet _ (by decide)) _ _).trans (h.concat _ _)
  contains := fun _ _ => (model_app (fileFns_noSet _ (by decide)) _ _).trans (h.contains _ _)
  lengthM := fun _ => (model_app (fileFns_noSet _ (by decide)) _ _).trans (h.lengthM _)
  prependM := fun _ _ => (model_app (fileFns_noSet _ (by decide)) _ _).trans (h.prependM _ _)
  appendM := fun _ _ => (model_app (fileFns_noSet _ (by decide)) _ _).trans (h.appendM _ _)
  getHelperM := fun _ _ => (model_app (fileFns_noSet _ (by decide)) _ _).trans (h.getHelperM _ _)
  getM := fun _ _ => (model_app (fileFns_noSet _ (by decide)) _ _).trans (h.getM _ _)
  emptyM := (model_const (fileFns_noSet _ (by decide)) h2).trans h.emptyM
  tailM := fun _ _ => (model_app (fileFns_noSet _ (by decide)) _ _).trans (h.tailM _ _)
  takeM := fun _ _ => (model_app (fileFns_noSet _ (by decide)) _ _).trans (h.takeM _ _)
  slice := fun _ _ _ => (model_app (fileFns_noSet _ (by decide)) _ _).trans (h.slice _ _ _)
  sliceLen := fun _ _ _ => (model_app (fileFns_noSet _ (by decide)) _ _).trans (h.sliceLen _ _ _)
  rowSlice := fun _ _ _ => (model_app (fileFns_noSet _ (by decide)) _ _).trans (h.rowSlice _ _ _)
  rowSliceLen := fun _ _ _ => (model_app (fileFns_noSet _ (by decide)) _ _).trans (h.rowSliceLen _ _ _)
  colSlice := fun _ _ _ => (model_app (fileFns_noSet _ (by decide)) _ _).trans (h.colSlice _ _ _)
  colSliceLen := fun _ _ _ => (model_app (fileFns_noSet _ (by decide)) _ _).trans (h.colSliceLen _ _ _)
  firsts := fun _ => (model_app (fileFns_noSet _ (by decide)) _ _).trans (h.firsts _)
  rests := fun _ => (model_app (fileFns_noSet _ (by decide)) _ _).trans (h.rests _)

/-- Lists of integers are the encodings. -/
theorem ofTy_ints {vs : List Val} (h : OfTy (.list .int) (.list vs)) : ∃ l : List Int, .list vs = encL l := by
  obtain ⟨ws, hw, hi⟩ := h
  injection hw with hw
  subst hw
  induction vs with
  | nil => exact ⟨[], rfl⟩
  | cons v vs ih =>
    obtain ⟨i, rfl⟩ := hi v (by simp)
    obtain ⟨l, hl⟩ := ih (fun w hw => hi w (List.mem_cons_of_mem _ hw))
    refine ⟨i :: l, ?_⟩
    simp only [encL, List.map_cons, Val.list.injEq] at hl ⊢
    rw [hl]

theorem Usual.getInt {I : Interp} (h : Usual I) : GetInt I := by
  intro vs i ht
  obtain ⟨S, F, _, _, hR⟩ := h.files
  obtain ⟨l, hl⟩ := ofTy_ints ht
  rw [hl]
  exact ⟨_, hR.get l i⟩

theorem langSig_respected {lang : List FnDecl} {I : Interp} (h : ∀ d ∈ lang, FnHolds I d) : (langSig lang).Respected I := by
  intro f ts t hf vs hv
  simp only [langSig, Option.map_eq_some_iff] at hf
  obtain ⟨d, hd, he⟩ := hf
  injection he with e1 e2
  subst e1 e2
  have := List.find?_some hd
  simp only [beq_iff_eq] at this
  subst this
  exact (h d (List.mem_of_find?_eq_some hd) vs hv).1

/-! ### C48 -/

/-- The core of C48, for a condition `vc'` given to the solver that implies the verification condition. -/
theorem post_of_query (topo : List (String × String) → Option (List String)) (htopo : TopoSpec topo)
    (setOrder : List String → List String) (hset : ∀ l, (setOrder l).Perm l)
    -- the program and its verification condition
    (F : PyFunc) (pre : List Expr) (w : World) (vc : Expr)
    (hsup : F.body.supported F.ctx.types (F.ctx.params ++ Expr.varss pre) true = true) (hlit : ∀ p ∈ pre, p.OnlyInt)
    (hcall : F.call { postconditions := pre } = some w) (hvc : w.vc = some vc)
    -- the query
    (lang : List FnDecl) (axs : List Ax) (cands : List FnDecl) (vars : List (String × Ty)) (vc' : Expr)
    (hq : QueryOk lang axs cands vars vc')
    (hres : ∀ v ∈ vars, v.1 ∉ reserved ∧ v.1 ≠ "list_empty" ∧ v.1 ≠ "matrix_empty") (hvars : ∀ v ∈ vars, v.2 = F.ctx.types v.1)
    (hty : F.body.typedOk F.ctx.types (langSig lang) F.retTy = true) (text : String)
    (ht : queryText topo setOrder lang axs cands vars vc' = some text)
    -- the answer of the solver
    (hun : ∀ fs, readFile filesText = some (fs ++ [c_matrix_transpose]) → ∀ cs, readScript text = some cs → ∀ M : Model, ¬ M.Sat (fs ++ cs))
    -- meaning of the functions
    (I : Interp) (hI : Usual I) (hl : ∀ d ∈ lang, FnHolds I d) (ha : ∀ a ∈ axs, AxHolds I a) (hc : ∀ d ∈ cands, FnHolds I d)
    (hstep : ∀ ρ', (∀ x, OfTy (F.ctx.types x) (ρ' x)) → holds I ρ' vc' → holds I ρ' vc)
    -- the run
    (ρ : Env) (hT : ∀ x, OfTy (F.ctx.types x) (ρ x)) (hpre : ∀ p ∈ pre, holds I ρ p) (v : Val)
    (hrun : @Exec strictOps I (F.argStore ρ) F.body (.returned v)) : OfTy F.retTy v ∧ F.contract I ρ v := by
  have hS := langSig_respected hl
  refine ⟨?_, ?_⟩
  · refine @exec_typed strictOps F.ctx.types (langSig lang) F.retTy I hS strict_mem _ _ _ hrun hty ?_
    intro x u hu
    simp only [PyFunc.argStore] at hu
    split at hu
    · simp at hu; subst hu; exact hT x
    · cases hu
  · have hvalid : validIn (tyVal F.ctx.types) I vc := by
      intro ρ' hρ'
      obtain ⟨S, Fi, hSc, hFi, hR⟩ := hI.files
      refine hstep ρ' hρ' (C46_unsat_valid_partial topo htopo setOrder hset lang axs cands vars vc' hq (fun v hv => (hres v hv).1) text ht
        (fun M => M.Sat coreCmds) ?_ I hI.solver ρ' ?_ (fun d hd _ => hl d hd) ha hc ?_)
      · intro cs hcs M hM hM'
        refine hun coreCmds (by rw [files_read, fileCmds_eq]) cs hcs M ?_
        intro c hc
        rcases List.mem_append.1 hc with h | h
        · exact hM c h
        · exact hM' c h
      · have hn : ∀ f, (∀ v ∈ vars, v.1 ≠ f) → f ∉ vars.map Prod.fst := by
          intro f hf hm
          obtain ⟨v, hv, rfl⟩ := List.mem_map.1 hm
          exact hf v hv rfl
        exact core_sat (rep_model hR _ _ (hn _ (fun v hv => (hres v hv).2.1)) (hn _ (fun v hv => (hres v hv).2.2))) hSc hFi
      · intro v hv
        rw [hvars v hv]
        exact hρ' v.1
    have hv := vc_asserts_validIn (call_onlyInt hcall hlit) hvc hvalid
    exact (@pyfunc_covered_typed strictOps F (langSig lang) pre w I hI.frontend hI.getInt hS hty hsup hcall hv ρ hT hpre v hrun).psHolds hv

/-- **C48.** If the solver is right that no structure satisfies the definitions (without `matrix_transpose`) and the query of a Python
function, then every strict run that returns satisfies the synthesised postcondition. -/
theorem C48_postcondition_partial (topo : List (String × String) → Option (List String)) (htopo : TopoSpec topo)
    (setOrder : List String → List String) (hset : ∀ l, (setOrder l).Perm l)
    -- the program and its verification condition
    (F : PyFunc) (pre : List Expr) (w : World) (vc : Expr)
    (hsup : F.body.supported F.ctx.types (F.ctx.params ++ Expr.varss pre) true = true) (hlit : ∀ p ∈ pre, p.OnlyInt)
    (hcall : F.call { postconditions := pre } = some w) (hvc : w.vc = some vc)
    -- the query
    (lang : List FnDecl) (axs : List Ax) (cands : List FnDecl) (vars : List (String × Ty)) (hq : QueryOk lang axs cands vars vc)
    (hres : ∀ v ∈ vars, v.1 ∉ reserved ∧ v.1 ≠ "list_empty" ∧ v.1 ≠ "matrix_empty") (hvars : ∀ v ∈ vars, v.2 = F.ctx.types v.1)
    (hty : F.body.typedOk F.ctx.types (langSig lang) F.retTy = true) (text : String)
    (ht : queryText topo setOrder lang axs cands vars vc = some text)
    -- the answer of the solver
    (hun : ∀ fs, readFile filesText = some (fs ++ [c_matrix_transpose]) → ∀ cs, readScript text = some cs → ∀ M : Model, ¬ M.Sat (fs ++ cs))
    -- meaning of the functions
    (I : Interp) (hI : Usual I) (hl : ∀ d ∈ lang, FnHolds I d) (ha : ∀ a ∈ axs, AxHolds I a) (hc : ∀ d ∈ cands, FnHolds I d)
    -- the run
    (ρ : Env) (hT : ∀ x, OfTy (F.ctx.types x) (ρ x)) (hpre : ∀ p ∈ pre, holds I ρ p) (v : Val)
    (hrun : @Exec strictOps I (F.argStore ρ) F.body (.returned v)) : OfTy F.retTy v ∧ F.contract I ρ v := by
  exact post_of_query topo htopo setOrder hset F pre w vc hsup hlit hcall hvc lang axs cands vars vc hq hres hvars hty text ht hun I hI hl ha hc
    (fun _ _ h => h) ρ hT hpre v hrun

theorem ofTys_append {ts : List Ty} {vs : List Val} {t : Ty} {v : Val} (h1 : OfTys ts vs) (h2 : OfTy t v) : OfTys (ts ++ [t]) (vs ++ [v]) := by
  induction ts generalizing vs with
  | nil => cases vs with
    | nil => exact ⟨h2, trivial⟩
    | cons => exact h1.elim
  | cons t ts ih => cases vs with
    | nil => exact h1.elim
    | cons w ws => exact ⟨h1.1, ih h1.2⟩

theorem ofTys_map {Γ : String → Ty} {ρ : Env} (hT : ∀ x, OfTy (Γ x) (ρ x)) (xs : List String) : OfTys (xs.map Γ) (xs.map ρ) := by
  induction xs with
  | nil => exact trivial
  | cons x xs ih => exact ⟨hT x, ih⟩

theorem lookup_zip_append {ns : List String} {vs : List Val} (hl : ns.length = vs.length) {m : String} {u : Val} {n : String} (hn : n ≠ m) :
    ((ns ++ [m]).zip (vs ++ [u])).lookup n = (ns.zip vs).lookup n := by
  induction ns generalizing vs with
  | nil => cases vs with
    | nil => simp [List.lookup, beq_false_of_ne hn]
    | cons => simp at hl
  | cons k ns ih => cases vs with
    | nil => simp at hl
    | cons v vs =>
      simp only [List.cons_append, List.zip_cons_cons, List.lookup]
      split
      · rfl
      · exact ih (by simpa using hl)

theorem lookup_zip_last {ns : List String} {vs : List Val} (hl : ns.length = vs.length) {m : String} {u : Val} (hm : m ∉ ns) :
    ((ns ++ [m]).zip (vs ++ [u])).lookup m = some u := by
  induction ns generalizing vs with
  | nil => cases vs with
    | nil => simp
    | cons => simp at hl
  | cons k ns ih => cases vs with
    | nil => simp at hl
    | cons v vs =>
      simp only [List.mem_cons, not_or] at hm
      simp only [List.cons_append, List.zip_cons_cons, List.lookup, beq_false_of_ne hm.1]
      exact ih (by simpa using hl) hm.2

/-- The postcondition says that the result, its parameter `r`, equals `e`. -/
def Equates (d : FnDecl) (r : String) (rt : Ty) (e : Expr) : Prop :=
  ∃ t, d.body = some (.node .eq t [.var r rt, e]) ∨ d.body = some (.node (.call "list_eq") t [.var r rt, e])

/-- From the postcondition to the value: it is an equation for the result. -/
theorem value_of_post {d : FnDecl} (hok : candOk d = true) {ps : List (String × Ty)} {r : String} {rt : Ty}
    (hparams : d.params = ps ++ [(r, rt)]) {args : List Val} (hps : OfTys (ps.map Prod.snd) args) (hl : (ps.map Prod.fst).length = args.length)
    {e : Expr} (hb : Equates d r rt e) (hr : r ∉ e.vars) {I : Interp} (hF : FixedFns I) (hc : FnHolds I d) {v : Val} (hv : OfTy rt v)
    (hcon : (I.fn d.name (args ++ [v])).asBool = true) : v = eval I (paramEnv ps args) e := by
  have hargs : OfTys (d.params.map Prod.snd) (args ++ [v]) := by
    rw [hparams, List.map_append]
    exact ofTys_append hps hv
  have hnd : (d.params.map Prod.fst).Nodup := by
    have := hok
    simp only [candOk, declOk, paramsOk, Bool.and_eq_true, decide_eq_true_eq] at this
    exact this.1.1.1.1.2.2
  rw [hparams, List.map_append, List.nodup_append] at hnd
  have hrn : r ∉ ps.map Prod.fst := fun h => hnd.2.2 r h r (by simp) rfl
  have hleft : paramEnv d.params (args ++ [v]) r = v := by
    simp only [paramEnv, hparams, List.map_append, List.map_cons, List.map_nil, lookup_zip_last hl hrn, Option.getD_some]
  have hright : eval I (paramEnv d.params (args ++ [v])) e = eval I (paramEnv ps args) e := by
    refine eval_congr I e (fun x hx => ?_)
    have : x ≠ r := fun h => hr (h ▸ hx)
    simp only [paramEnv, hparams, List.map_append, List.map_cons, List.map_nil, lookup_zip_append hl this]
  obtain ⟨t, hb | hb⟩ := hb
  · have hdef := (hc _ hargs).2 _ hb
    rw [← hdef] at hcon
    simpa only [eval, evals, evalOp, Val.asBool_bool, decide_eq_true_eq, hleft, hright] using hcon
  · have hdef := (hc _ hargs).2 _ hb
    rw [← hdef] at hcon
    simpa only [eval, evals, evalOp, hF.listEq, Val.asBool_bool, decide_eq_true_eq, hleft, hright] using hcon

/-- From the contract to the value. -/
theorem value_of_contract {F : PyFunc} {d : FnDecl} (hok : candOk d = true) (hname : d.name = F.ctx.ps) {ps : List (String × Ty)} {r : String}
    (hparams : d.params = ps ++ [(r, F.retTy)]) (hps : ps.map Prod.snd = F.ctx.params.map F.ctx.types) {e : Expr} {t : Ty}
    (hb : d.body = some (.node .eq t [.var r F.retTy, e])) (hr : r ∉ e.vars) {I : Interp} (hF : FixedFns I) (hc : FnHolds I d)
    {ρ : Env} (hT : ∀ x, OfTy (F.ctx.types x) (ρ x)) {v : Val} (hv : OfTy F.retTy v) (hcon : F.contract I ρ v) :
    v = eval I (paramEnv ps (F.ctx.params.map ρ)) e := by
  unfold PyFunc.contract at hcon
  rw [← hname] at hcon
  exact value_of_post hok hparams (by rw [hps]; exact ofTys_map hT _) (by simpa using congrArg List.length hps) ⟨t, .inl hb⟩ hr hF hc hv hcon

/-- **C48 (the lifted program).**  Under the same hypotheses: if the synthesised postcondition says that the result equals `e`, then the function
returns exactly the value of the expression `e` that the driver keeps as its synthesised version, at the arguments. -/
theorem C48_lifted_program_partial (topo : List (String × String) → Option (List String)) (htopo : TopoSpec topo)
    (setOrder : List String → List String) (hset : ∀ l, (setOrder l).Perm l)
    (F : PyFunc) (pre : List Expr) (w : World) (vc : Expr)
    (hsup : F.body.supported F.ctx.types (F.ctx.params ++ Expr.varss pre) true = true) (hlit : ∀ p ∈ pre, p.OnlyInt)
    (hcall : F.call { postconditions := pre } = some w) (hvc : w.vc = some vc)
    (lang : List FnDecl) (axs : List Ax) (cands : List FnDecl) (vars : List (String × Ty)) (hq : QueryOk lang axs cands vars vc)
    (hres : ∀ v ∈ vars, v.1 ∉ reserved ∧ v.1 ≠ "list_empty" ∧ v.1 ≠ "matrix_empty") (hvars : ∀ v ∈ vars, v.2 = F.ctx.types v.1)
    (hty : F.body.typedOk F.ctx.types (langSig lang) F.retTy = true) (text : String)
    (ht : queryText topo setOrder lang axs cands vars vc = some text)
    (hun : ∀ fs, readFile filesText = some (fs ++ [c_matrix_transpose]) → ∀ cs, readScript text = some cs → ∀ M : Model, ¬ M.Sat (fs ++ cs))
    -- the synthesised postcondition: parameters, and an equation for the result that is not about the result itself
    (d : FnDecl) (hd : d ∈ cands) (hname : d.name = F.ctx.ps) (ps : List (String × Ty)) (r : String)
    (hparams : d.params = ps ++ [(r, F.retTy)]) (hps : ps.map Prod.snd = F.ctx.params.map F.ctx.types) (e : Expr)
    (hbody : ∃ t, d.body = some (.node .eq t [.var r F.retTy, e])) (hr : r ∉ e.vars)
    (I : Interp) (hI : Usual I) (hl : ∀ d ∈ lang, FnHolds I d) (ha : ∀ a ∈ axs, AxHolds I a) (hc : ∀ d ∈ cands, FnHolds I d)
    (ρ : Env) (hT : ∀ x, OfTy (F.ctx.types x) (ρ x)) (hpre : ∀ p ∈ pre, holds I ρ p) (v : Val)
    (hrun : @Exec strictOps I (F.argStore ρ) F.body (.returned v)) :
    synthesizedPart d = some e ∧ v = eval I (paramEnv ps (F.ctx.params.map ρ)) e := by
  obtain ⟨t, hb⟩ := hbody
  refine ⟨by simp [synthesizedPart, hb], ?_⟩
  obtain ⟨hv, hcon⟩ := C48_postcondition_partial topo htopo setOrder hset F pre w vc hsup hlit hcall hvc lang axs cands vars hq hres hvars hty
    text ht hun I hI hl ha hc ρ hT hpre v hrun
  exact value_of_contract (hq.candOk d hd) hname hparams hps hb hr hI.solver (hc d hd) hT hv hcon

/-! ### The usual functions -/

/-- The functions other than those of the files. -/
def usualTable : List (String × (List Val → Val)) := [
  ("make-tuple", fun vs => .tuple vs),
  ("tupleGet", fun vs => match vs with
    | [.tuple ws, .int i] => (ws[i.toNat]?).getD (.int 0)
    | _ => .int 0),
  ("list_eq", fun vs => match vs with
    | [a, b] => .bool (decide (a = b))
    | _ => .int 0),
  ("ite", fun vs => match vs with
    | [c, a, b] => if c.asBool then a else b
    | _ => .int 0),
  ("list_get", fun vs => match vs with
    | [.list l, .int i] => stdGet (.int 0) l i
    | _ => .int 0),
  ("list_append", fun vs => match vs with
    | [.list l, v] => .list (l ++ [v])
    | _ => .int 0),
  ("set-singleton", primFn "set-singleton"), ("set-union", primFn "set-union"), ("set-minus", primFn "set-minus")]

/-- All functions: those given, then the ones above, then those of the files. -/
noncomputable def usualFn (fns : List (String × (List Val → Val))) (f : String) (vs : List Val) : Val :=
  match fns.lookup f with
  | some g => g vs
  | none => match usualTable.lookup f with
    | some g => g vs
    | none => fileFn (stdModel 0) stdInts f vs

/-- The interpretation with the usual functions. -/
noncomputable def usualI (fns : List (String × (List Val → Val))) : Interp where
  fn := usualFn fns
  apply := fun _ _ => .int 0
  idiv := Int.ediv
  imod := Int.emod
  choose := fun vs => vs.headD (.int 0)

/-- Names of the usual functions. -/
def usualNames : List String := usualTable.map Prod.fst ++ "tail" :: fileFns

theorem usual_none {fns : List (String × (List Val → Val))} (h : ∀ p ∈ fns, p.1 ∉ usualNames) {f : String} (hf : f ∈ usualNames) :
    fns.lookup f = none := by
  rw [List.lookup_eq_none_iff]
  intro p hp
  have : f ≠ p.1 := fun e => h p hp (e ▸ hf)
  simpa using this

theorem stdGet_encL (l : List Int) (i : Int) : stdGet (.int 0) (l.map Val.int) i = .int (stdGet 0 l i) := by
  induction l generalizing i with
  | nil => rfl
  | cons a l ih => simp only [List.map_cons, stdGet]; split <;> simp [ih]

theorem stdGet_getElem {d : Val} {l : List Val} {i : Int} (hi : 0 ≤ i) {v : Val} (h : l[i.toNat]? = some v) : stdGet d l i = v := by
  induction l generalizing i with
  | nil => simp at h
  | cons a l ih =>
    simp only [stdGet]
    split
    · next h0 => rw [show i.toNat = 0 by omega] at h; simpa using h
    · next h0 =>
      rw [show i.toNat = (i - 1).toNat + 1 by omega] at h
      exact ih (by omega) (by simpa using h)

theorem usualI_usual {fns : List (String × (List Val → Val))} (h : ∀ p ∈ fns, p.1 ∉ usualNames) : Usual (usualI fns) := by
  have e1 : ∀ {f : String}, f ∈ usualNames → ∀ vs, (usualI fns).fn f vs = match usualTable.lookup f with
      | some g => g vs
      | none => fileFn (stdModel 0) stdInts f vs := by
    intro f hf vs
    simp only [usualI, usualFn, usual_none h hf]
  refine ⟨?_, ⟨stdModel 0, stdInts, stdModel_core 0, stdInts_ok, ?_⟩, ?_⟩
  · constructor
    · intro a b _; rfl
    · intro a b _; rfl
    · intro vs; rw [e1 (by decide)]; simp only [usualTable, List.lookup, String.reduceBEq]
    · intro vs i v hv; rw [e1 (by decide)]; simp only [usualTable, List.lookup, String.reduceBEq, Int.toNat_natCast, hv, Option.getD_some]
    · intro a b; rw [e1 (by decide)]; simp only [usualTable, List.lookup, String.reduceBEq]
    · intro c a b; rw [e1 (by decide)]; simp only [usualTable, List.lookup, String.reduceBEq]
  · constructor <;> intros <;> show (usualI fns).fn _ _ = _ <;> rw [e1 (by decide)] <;>
      simp only [usualTable, fileFn, fileTable, List.lookup, String.reduceBEq, decL_encL, decM_encM]
    · simp [encL, stdModel, stdSeq]
    · exact stdGet_encL _ _
  · refine @PyPrims.mk strictOps (usualI fns) ?_ ?_ ?_ ?_ ?_ ?_ ?_
    · intro vs
      rw [e1 (by decide)]
      simp only [usualTable, fileFn, fileTable, List.lookup, String.reduceBEq, decL, stdModel, stdSeq, List.length_map]
    · intro vs i v hv
      rw [e1 (by decide)]
      simp only [usualTable, List.lookup, String.reduceBEq]
      simp only [PyOps.index] at hv
      split at hv
      · next hi => exact stdGet_getElem hi hv
      · cases hv
    · rw [e1 (by decide)]
      simp only [usualTable, fileFn, fileTable, List.lookup, String.reduceBEq, encL, List.map_nil]
    · intro vs v
      rw [e1 (by decide)]
      simp only [usualTable, List.lookup, String.reduceBEq]
    · intro vs v
      rw [e1 (f := "set-singleton") (by decide), e1 (by decide)]
      simp only [usualTable, List.lookup, String.reduceBEq, PyOps.setAdd]
      simp [primFn]
    · intro vs v ws hw
      rw [e1 (f := "set-singleton") (by decide), e1 (by decide)]
      simp only [PyOps.setRemove, pySetRemove] at hw
      split at hw
      · simp only [usualTable, List.lookup, String.reduceBEq]
        simp at hw
        simp [primFn, ← hw]
      · cases hw
    · intro a b c hc
      simp only [PyOps.floordiv] at hc
      split at hc
      · exact Option.some.inj hc
      · cases hc

end Metalift
