import Verif.PEndToEnd
import Verif.PPyDriver
import Verif.PSynthLoop
/-
C48 for the whole of `Driver.synthesize`: from the solution files and the answers of the solver to the runs of the Python function.
-/
namespace Metalift
open Smt

/-! ### Expressions of the right sorts -/

/-- The operation may be applied to arguments of these types, and the result is of type `t`. -/
def opSorted (sig : Sigs) (op : Op) (t : Ty) (ts : List Ty) : Bool :=
  match op with
  | .add | .mul => decide (t = .int)
  | .sub | .div | .mod => decide (t = .int ∧ ts.length = 2)
  | .eq | .lt | .le | .gt | .ge => decide (t = .bool ∧ ts.length = 2)
  | .and | .or => decide (t = .bool ∧ ∀ x ∈ ts, x = .bool)
  | .not => decide (t = .bool ∧ ts = [.bool])
  | .implies => decide (t = .bool ∧ ts = [.bool, .bool])
  | .ite => decide (ts = [.bool, t, t])
  | .call f => decide (sig f = some (ts, t))
  | .tuple | .choose | .callValue => false

mutual
/-- The expression is of the right sorts (as the constructors of `metalift/ir.py` 1905-2420 check), for variables of types `Γ` and functions of
signature `sig`. -/
def Expr.sorted (Γ : String → Ty) (sig : Sigs) : Expr → Bool
  | .var n t => decide (t = Γ n)
  | .lit _ => true
  | .node op t args => Expr.sorteds Γ sig args && opSorted sig op t (args.map Expr.ty)
def Expr.sorteds (Γ : String → Ty) (sig : Sigs) : List Expr → Bool
  | [] => true
  | e :: es => e.sorted Γ sig && Expr.sorteds Γ sig es
end

theorem sorteds_iff {Γ : String → Ty} {sig : Sigs} {es : List Expr} : Expr.sorteds Γ sig es = true ↔ ∀ e ∈ es, e.sorted Γ sig = true := by
  induction es with
  | nil => simp [Expr.sorteds]
  | cons e es ih => simp [Expr.sorteds, ih]

theorem ofTys_evals {I : Interp} {ρ : Env} {es : List Expr} (h : ∀ e ∈ es, OfTy e.ty (eval I ρ e)) : OfTys (es.map Expr.ty) (es.map (eval I ρ)) := by
  induction es with
  | nil => exact trivial
  | cons e es ih => exact ⟨h e (by simp), ih (fun x hx => h x (by simp [hx]))⟩

theorem sorted_typed {Γ : String → Ty} {sig : Sigs} {I : Interp} (hS : sig.Respected I) {ρ : Env} (hρ : ∀ x, OfTy (Γ x) (ρ x)) (e : Expr)
    (h : e.sorted Γ sig = true) : OfTy e.ty (eval I ρ e) := by
  induction e using Expr.ind with
  | hv n t =>
    simp only [Expr.sorted, decide_eq_true_eq] at h
    subst h
    exact hρ n
  | hl l => cases l <;> exact ⟨_, rfl⟩
  | hn op t args ih =>
    simp only [Expr.sorted, Bool.and_eq_true, sorteds_iff] at h
    obtain ⟨ha, ho⟩ := h
    have iha := fun a hm => ih a hm (ha a hm)
    simp only [Expr.ty, eval, evals_eq_map]
    cases op with
    | add | mul => simp only [opSorted, decide_eq_true_eq] at ho; subst ho; exact ⟨_, rfl⟩
    | sub | div | mod | eq | lt | le | gt | ge =>
      simp only [opSorted, decide_eq_true_eq, List.length_map] at ho
      obtain ⟨rfl, hl⟩ := ho
      match args, hl with
      | [a, b], _ => exact ⟨_, rfl⟩
    | and | or => simp only [opSorted, decide_eq_true_eq] at ho; rw [ho.1]; exact ⟨_, rfl⟩
    | not =>
      simp only [opSorted, decide_eq_true_eq] at ho
      obtain ⟨rfl, hl⟩ := ho
      match args, hl with
      | [a], _ => exact ⟨_, rfl⟩
      | [], hl => simp at hl
      | _ :: _ :: _, hl => simp at hl
    | implies =>
      simp only [opSorted, decide_eq_true_eq] at ho
      obtain ⟨rfl, hl⟩ := ho
      match args, hl with
      | [a, b], _ => exact ⟨_, rfl⟩
      | [], hl => simp at hl
      | [_], hl => simp at hl
      | _ :: _ :: _ :: _, hl => simp at hl
    | ite =>
      simp only [opSorted, decide_eq_true_eq] at ho
      match args, ho with
      | [c, a, b], ho =>
        simp only [List.map_cons, List.map_nil, List.cons.injEq, and_true] at ho
        simp only [List.map_cons, List.map_nil, evalOp]
        split
        · exact ho.2.1 ▸ iha a (by simp)
        · exact ho.2.2 ▸ iha b (by simp)
      | [], ho => simp at ho
      | [_], ho => simp at ho
      | [_, _], ho => simp at ho
      | _ :: _ :: _ :: _ :: _, ho => simp at ho
    | call f =>
      simp only [opSorted, decide_eq_true_eq] at ho
      exact hS f _ _ ho _ (ofTys_evals iha)
    | tuple | choose | callValue => simp [opSorted] at ho

/-! ### Simplification keeps the value -/

theorem simplifyTop_sorted {Γ : String → Ty} {sig : Sigs} {op : Op} {t : Ty} {args : List Expr} (h : (Expr.node op t args).sorted Γ sig = true) :
    (simplifyTop op t args).sorted Γ sig = true ∧ (simplifyTop op t args).ty = t := by
  simp only [Expr.sorted, Bool.and_eq_true, sorteds_iff] at h
  obtain ⟨ha, ho⟩ := h
  unfold simplifyTop
  split
  · simp only [opSorted, decide_eq_true_eq] at ho
    obtain ⟨rfl, hb⟩ := ho
    have hty : ∀ a ∈ args, a.ty = .bool := fun a hm => hb _ (List.mem_map_of_mem hm)
    split
    · exact ⟨rfl, rfl⟩
    · exact ⟨rfl, rfl⟩
    · next e hf =>
      have hm := andFilter_sub _ _ hf e (by simp)
      exact ⟨ha e hm, hty e hm⟩
    · next es _ _ hf =>
      have k := andFilter_sub _ _ hf
      refine ⟨?_, rfl⟩
      simp only [mkAnd, Expr.sorted, Bool.and_eq_true, sorteds_iff, opSorted, decide_eq_true_eq]
      refine ⟨fun e he => ha e (k e he), trivial, ?_⟩
      intro x hx
      obtain ⟨a, hm, rfl⟩ := List.mem_map.1 hx
      exact hty a (k a hm)
  · exact ⟨by simp only [Expr.sorted, Bool.and_eq_true, sorteds_iff]; exact ⟨ha, ho⟩, rfl⟩

theorem simplify_sorted {Γ : String → Ty} {sig : Sigs} (e : Expr) (h : e.sorted Γ sig = true) :
    e.simplify.sorted Γ sig = true ∧ e.simplify.ty = e.ty := by
  induction e using Expr.ind with
  | hv n t => exact ⟨h, rfl⟩
  | hl l => exact ⟨h, rfl⟩
  | hn op t args ih =>
    simp only [Expr.sorted, Bool.and_eq_true, sorteds_iff] at h
    simp only [Expr.simplify, Expr.simplifys_eq_map]
    refine simplifyTop_sorted ?_
    have e1 : (args.map Expr.simplify).map Expr.ty = args.map Expr.ty := by
      rw [List.map_map]
      exact List.map_congr_left (fun a ha => (ih a ha (h.1 a ha)).2)
    simp only [Expr.sorted, Bool.and_eq_true, sorteds_iff, e1]
    refine ⟨?_, h.2⟩
    intro x hx
    obtain ⟨a, ha, rfl⟩ := List.mem_map.1 hx
    exact (ih a ha (h.1 a ha)).1

theorem simplify_value {Γ : String → Ty} {sig : Sigs} {I : Interp} (hS : sig.Respected I) {ρ : Env} (hρ : ∀ x, OfTy (Γ x) (ρ x)) (e : Expr)
    (h : e.sorted Γ sig = true) : eval I ρ e.simplify = eval I ρ e := by
  induction e using Expr.ind with
  | hv n t => rfl
  | hl l => rfl
  | hn op t args ih =>
    have h' := h
    simp only [Expr.sorted, Bool.and_eq_true, sorteds_iff] at h
    obtain ⟨ha, ho⟩ := h
    simp only [Expr.simplify, Expr.simplifys_eq_map]
    have e2 : (args.map Expr.simplify).map (eval I ρ) = args.map (eval I ρ) := by
      rw [List.map_map]
      exact List.map_congr_left (fun a hm => ih a hm (ha a hm))
    unfold simplifyTop
    split
    · simp only [opSorted, decide_eq_true_eq] at ho
      obtain ⟨rfl, hb⟩ := ho
      have key := andFilter_eval I ρ (args.map Expr.simplify)
      rw [e2] at key
      simp only [eval, evals_eq_map, evalOp]
      split
      · next hf => rw [hf] at key; simp [boolLit, eval, Lit.val, key]
      · next hf => rw [hf] at key; simp [boolLit, eval, Lit.val, key]
      · next x hf =>
        rw [hf] at key
        obtain ⟨k1, k2⟩ := key
        obtain ⟨a, hm, hx⟩ := List.mem_map.1 (k2 x (by simp))
        have hs := simplify_sorted a (ha a hm)
        have := sorted_typed hS hρ _ hs.1
        rw [hs.2, hb _ (List.mem_map_of_mem hm), hx] at this
        obtain ⟨b, hbv⟩ := this
        rw [k1, hbv]
        simp [hbv]
      · next es _ _ hf =>
        rw [hf] at key
        simp only [mkAnd, eval, evals_eq_map, evalOp, key.1]
    · simp only [eval, evals_eq_map, e2]

/-! ### The expressions given to the verifier -/

theorem parseCands_id (known : List String) (e : Expr) : (parseCands known e).1 = e := by
  have hs : ∀ es : List Expr, (∀ e ∈ es, (parseCands known e).1 = e) → (parseCandss known es).1 = es := by
    intro es
    induction es with
    | nil => intro _; rfl
    | cons x xs ih => intro h; simp only [parseCandss, h x (by simp), ih (fun y hy => h y (by simp [hy]))]
  induction e using Expr.ind with
  | hv n t => rfl
  | hl l => rfl
  | hn op t args ih =>
    unfold parseCands
    simp only [hs args ih]
    split <;> rfl

/-- A function with a body is given to the verifier as a recursive function (`metalift/synthesis_common.py` 211-214). -/
def asRecursive (d : FnDecl) : FnDecl := { d with recursive := d.recursive || d.body.isSome }

theorem transformDecl_eq (known : List String) (d : FnDecl) : transformDecl known d = asRecursive d := by
  obtain ⟨n, t, ps, b, r⟩ := d
  cases b <;> simp [transformDecl, asRecursive, parseCands_id]

theorem langSig_asRecursive (lang : List FnDecl) : langSig (lang.map asRecursive) = langSig lang := by
  funext f
  simp only [langSig, List.find?_map, Option.map_map]
  rfl

theorem verifyText_eq {topo setOrder known lang axs vars vc cands text} (h : verifyText topo setOrder known lang axs vars vc cands = some text) :
    queryText topo setOrder (lang.map asRecursive) axs cands vars vc = some text := by
  unfold verifyText at h
  simp only at h
  split at h
  · simp only [parseCands_id, List.map_id', funext (transformDecl_eq known)] at h
    exact h
  · cases h

/-! ### Specification -/

/-- Signatures of the functions on lists that the front end writes. -/
def listSig : Sigs := fun f =>
  if f = "list_length" then some ([.list .int], .int)
  else if f = "list_get" then some ([.list .int, .int], .int)
  else if f = "list_append" then some ([.list .int, .int], .list .int)
  else if f = "list_empty" then some ([], .list .int)
  else none

/-- Signatures of all functions: candidates, target language, lists. -/
def allSig (cands lang : List FnDecl) : Sigs := fun f => ((langSig (cands ++ lang)) f).orElse (fun _ => listSig f)

/-- What is required of the candidates read from a solution, for the function `F` with verification condition `vc`. -/
structure CandsOk (fs : List String) (F : PyFunc) (lang : List FnDecl) (axs : List Ax) (vars : List (String × Ty)) (vc : Expr) (c : List FnDecl) :
    Prop where
  query : QueryOk (lang.map asRecursive) axs c vars vc.simplify
  results : ResultsFor fs c
  sorted : vc.sorted F.ctx.types (allSig c lang) = true
  /-- the postcondition of `F` is an equation for the result that is not about the result itself (from the grammar) -/
  post : ∀ d ∈ c, d.name = F.ctx.ps → ∃ ps r t e, d.params = ps ++ [(r, F.retTy)] ∧ ps.map Prod.snd = F.ctx.params.map F.ctx.types ∧
    d.body = some (.node .eq t [.var r F.retTy, e]) ∧ r ∉ e.vars

/-- The solver is right when it says `unsat` (about the files without the contradictory definition). -/
def SolverRight (E : DriverEnv) : Prop :=
  ∀ j text, (E.cvc j text).Accepts → ∀ fs, readFile filesText = some (fs ++ [c_matrix_transpose]) → ∀ cs, readScript text = some cs →
    ∀ M : Model, ¬ M.Sat (fs ++ cs)

theorem allSig_respected {c lang : List FnDecl} {I : Interp} (hI : Usual I) (hc : ∀ d ∈ c, FnHolds I d) (hl : ∀ d ∈ lang, FnHolds I d) :
    (allSig c lang).Respected I := by
  intro f ts t hf vs hv
  unfold allSig at hf
  cases hs : langSig (c ++ lang) f with
  | some p =>
    rw [hs] at hf
    cases hf
    exact langSig_respected (lang := c ++ lang) (fun d hd => (List.mem_append.1 hd).elim (hc d) (hl d)) f _ _ hs vs hv
  | none =>
    rw [hs] at hf
    simp only [Option.orElse_none, listSig] at hf
    split at hf
    · next h1 =>
      subst h1; cases hf
      match vs, hv with
      | [v], hv =>
        obtain ⟨ws, rfl, _⟩ := hv.1
        exact ⟨_, @PyPrims.length strictOps I hI.frontend ws⟩
    · split at hf
      · next h1 =>
        subst h1; cases hf
        match vs, hv with
        | [v, i], hv =>
          obtain ⟨⟨ws, rfl, hw⟩, ⟨i, rfl⟩, _⟩ := hv
          exact hI.getInt ws i ⟨ws, rfl, hw⟩
      · split at hf
        · next h1 =>
          subst h1; cases hf
          match vs, hv with
          | [v, x], hv =>
            obtain ⟨⟨ws, rfl, hw⟩, hx, _⟩ := hv
            refine ⟨_, @PyPrims.append strictOps I hI.frontend ws x, ?_⟩
            intro y hy
            rcases List.mem_append.1 hy with hy | hy
            · exact hw y hy
            · simp only [List.mem_singleton] at hy; subst hy; exact hx
        · split at hf
          · next h1 =>
            subst h1; cases hf
            match vs, hv with
            | [], _ => exact ⟨[], @PyPrims.empty strictOps I hI.frontend, by simp⟩
          · cases hf

theorem andThen_returned {α β : Type} {r : α → Option β} {o : SynthOutcome α} {b : β} (h : o.andThen r = .returned b) :
    ∃ c, o = .returned c ∧ r c = some b := by
  cases o with
  | returned c =>
    simp only [SynthOutcome.andThen] at h
    split at h
    · cases h
    · next b' hb => cases h; exact ⟨c, rfl, hb⟩
  | _ => simp [SynthOutcome.andThen] at h

/-- Candidates that are returned were read from a solution file, and the solver accepted the text written for them. -/
theorem runSynthesis_verified {topo : List (String × String) → Option (List String)} {setOrder : List String → List String} {known : List String}
    {asserts : List Expr} {lang : List FnDecl} {axs : List Ax} {vars : List (String × Ty)} {E : DriverEnv} {fuel : Nat} {c : List FnDecl}
    {vc : Expr} (hvc : andObjects asserts = some vc)
    (h : runSynthesis topo setOrder known asserts lang axs vars E fuel = some (.returned c)) :
    ∃ i k rest text j, E.file i k = some ("#t", rest) ∧ E.decode rest = some c ∧ verifyText topo setOrder known lang axs vars vc.simplify c = some text ∧ (E.cvc j text).Accepts := by
  unfold runSynthesis at h
  rw [hvc] at h
  obtain ⟨i, hist, _, _, ⟨rest, hfile, hdec⟩, hver⟩ := C25_returns_verified _ _ _ _ _ h
  rcases hver with hver | hver
  · cases hver
  · simp only at hver
    split at hver
    · obtain ⟨_, _, h, _⟩ := hver; cases h
    · next text htext => exact ⟨i, hist.length, rest, text, _, hfile, hdec, htext, hver⟩

/-- **C48 (the driver).**  When `Driver.synthesize` of the Python front end ends normally and `e` is then the synthesised version of the function,
there were candidates in a solution file such that, for every meaning of the functions that satisfies the target language and these candidates,
every strict run of the function that returns, returns the value of `e` at the arguments. -/
theorem C48_driver_partial (topo : List (String × String) → Option (List String)) (htopo : TopoSpec topo)
    (setOrder : List String → List String) (hset : ∀ l, (setOrder l).Perm l)
    -- the program and its obligations
    (F : PyFunc) (pre : List Expr) (w : World) (vc : Expr)
    (hsup : F.body.supported F.ctx.types (F.ctx.params ++ Expr.varss pre) true = true) (hlit : ∀ p ∈ pre, p.OnlyInt)
    (hcall : F.call { postconditions := pre } = some w) (hvc : w.vc = some vc) (hps : F.ctx.ps = F.name ++ "_ps")
    (fs : List String) (hfs : ∀ f ∈ fs, PlainName f) (hF : F.name ∈ fs)
    -- target language, variables, environment
    (lang : List FnDecl) (axs : List Ax) (vars : List (String × Ty)) (known : List String)
    (hres : ∀ v ∈ vars, v.1 ∉ reserved ∧ v.1 ≠ "list_empty" ∧ v.1 ≠ "matrix_empty") (hvars : ∀ v ∈ vars, v.2 = F.ctx.types v.1)
    (hty : F.body.typedOk F.ctx.types (langSig lang) F.retTy = true)
    (E : DriverEnv) (hsolver : SolverRight E) 
    (hcands : ∀ i j rest c, E.file i j = some ("#t", rest) → E.decode rest = some c → CandsOk fs F lang axs vars vc c)
    -- the call of `synthesize`
    (fuel : Nat) (fns : Fns) (hret : pySynthesize topo setOrder known fs w.asserts lang axs vars E fuel = some (.returned fns))
    (e : Expr) (he : fns.lookup F.name = some (some e)) :
    ∃ i j rest c ps r, E.file i j = some ("#t", rest) ∧ E.decode rest = some c ∧ (∃ d ∈ c, d.name = F.ctx.ps ∧ d.params = ps ++ [(r, F.retTy)]) ∧
      ps.map Prod.snd = F.ctx.params.map F.ctx.types ∧
      ∀ I, Usual I → (∀ d ∈ lang, FnHolds I d) → (∀ a ∈ axs, AxHolds I a) → (∀ d ∈ c, FnHolds I d) →
      ∀ ρ : Env, (∀ x, OfTy (F.ctx.types x) (ρ x)) → (∀ p ∈ pre, holds I ρ p) → ∀ v, @Exec strictOps I (F.argStore ρ) F.body (.returned v) →
        v = eval I (paramEnv ps (F.ctx.params.map ρ)) e := by
  simp only [pySynthesize, Option.map_eq_some_iff] at hret
  obtain ⟨o, ho, hret⟩ := hret
  obtain ⟨c, rfl, hrec⟩ := andThen_returned hret
  obtain ⟨fi, fk, rest, text, j, hfile, hdec, htext, hver⟩ := runSynthesis_verified hvc ho
  have hok := hcands fi fk rest c hfile hdec
  obtain ⟨d, hd, hn, t', l', hb'⟩ := ((C50_own_version_partial fs hfs c hok.results fns hrec).2 F.name hF e).1 he
  obtain ⟨ps, r, t, e', hparams, hpty, hb, hr⟩ := hok.post d hd (hn.trans hps.symm)
  rw [hb] at hb'
  cases hb'
  refine ⟨fi, fk, rest, c, ps, r, hfile, hdec, ⟨d, hd, hn.trans hps.symm, hparams⟩, hpty, ?_⟩
  intro I hI hl ha hc ρ hT hpre v hrun
  have hS := allSig_respected hI hc hl
  obtain ⟨hv, hcon⟩ := post_of_query topo htopo setOrder hset F pre w vc hsup hlit hcall hvc (lang.map asRecursive) axs c vars vc.simplify
    hok.query hres hvars (by rw [langSig_asRecursive]; exact hty) text (verifyText_eq htext) (hsolver _ text hver) I hI
    (by
      intro d hd
      obtain ⟨d0, hd0, rfl⟩ := List.mem_map.1 hd
      exact hl d0 hd0) ha hc
    (by
      intro ρ' hρ' h
      unfold holds at *
      rw [← simplify_value hS hρ' vc hok.sorted]
      exact h) ρ hT hpre v hrun
  exact value_of_contract (hok.query.candOk d hd) (hn.trans hps.symm) hparams hpty hb hr hI.solver (hc d hd) hT hv hcon

end Metalift
