import Verif.PDecode
import Verif.PDriverEnd
import Verif.PLlvmEnd
/-
C48 and C51 from the grammars: what is required of the candidates follows from conditions on the grammars and from C52.
-/
namespace Metalift
open Smt

/-! ### Properties that candidates inherit from their grammars -/

/-- What is allowed in an expression. -/
structure Shape where
  var : String → Ty → Bool
  lit : Lit → Bool
  /-- operation, type, types of the arguments -/
  node : Op → Ty → List Ty → Bool
  /-- choose may occur -/
  choose : Bool

/-- Without choose. -/
def Shape.resolved (S : Shape) : Shape := { S with choose := false }

/-- Every part of the expression is allowed; of a choose, every alternative, and they have its type. -/
inductive Within (S : Shape) : Expr → Prop where
  | var {n t} : S.var n t = true → Within S (.var n t)
  | lit {l} : S.lit l = true → Within S (.lit l)
  | choose {t args} : S.choose = true → (∀ a ∈ args, a.ty = t) → (∀ a ∈ args, Within S a) → Within S (.node .choose t args)
  | node {op t args} : op ≠ .choose → S.node op t (args.map Expr.ty) = true → (∀ a ∈ args, Within S a) → Within S (.node op t args)

/-- Conditionals have branches of their type, and the two calls may become operators. -/
structure Shape.Ok (S : Shape) : Prop where
  ite : ∀ t ts, S.node .ite t ts = true → ∃ c, ts = [c, t, t]
  listEq : ∀ t ts, S.node (.call "list_eq") t ts = true → S.node .eq t ts = true
  iteCall : ∀ t ts, S.node (.call "ite") t ts = true → S.node .ite t ts = true

theorem within_typed {S : Shape} (e : Expr) : Within S e → ChooseTyped e := by
  induction e using Expr.ind with
  | hv n t => intro _ t' as hs; cases hs
  | hl l => intro _ t' as hs; cases hs
  | hn op t args ih =>
    intro h t' as hs
    cases hs with
    | refl =>
      cases h with
      | choose _ h _ => exact h
      | node ho => exact absurd rfl ho
    | arg hb hs =>
      cases h with
      | choose _ _ h => exact ih _ hb (h _ hb) t' as hs
      | node _ _ h => exact ih _ hb (h _ hb) t' as hs

theorem resolves_tys {as rs : List Expr} (h : All2 Resolves as rs) (ht : ∀ a ∈ as, ChooseTyped a) : rs.map Expr.ty = as.map Expr.ty := by
  induction h with
  | nil => rfl
  | cons h1 _ ih =>
    rw [List.map_cons, List.map_cons, resolves_ty _ (ht _ (by simp)) _ h1, ih (fun a ha => ht a (by simp [ha]))]

theorem all2_mem_right {α β : Type} {R : α → β → Prop} {as : List α} {bs : List β} (h : All2 R as bs) {b : β} (hb : b ∈ bs) : ∃ a ∈ as, R a b := by
  induction h with
  | nil => cases hb
  | cons h1 _ ih =>
    rcases List.mem_cons.1 hb with rfl | hb
    · exact ⟨_, by simp, h1⟩
    · obtain ⟨a, ha, hab⟩ := ih hb
      exact ⟨a, by simp [ha], hab⟩

/-- Resolutions inherit. -/
theorem within_resolves {S : Shape} (e : Expr) : Within S e → ∀ r, Resolves e r → Within S.resolved r := by
  induction e using Expr.ind with
  | hv n t => intro h r hr; cases hr; cases h with | var h => exact .var h
  | hl l => intro h r hr; cases hr; cases h with | lit h => exact .lit h
  | hn op t args ih =>
    intro h r hr
    cases hr with
    | choose ha hr =>
      cases h with
      | choose _ _ h => exact ih _ ha (h _ ha) r hr
      | node ho => exact absurd rfl ho
    | node ho hrs =>
      cases h with
      | choose => exact absurd rfl ho
      | node _ h1 h2 =>
        refine .node ho ?_ ?_
        · rw [resolves_tys hrs (fun a ha => within_typed a (h2 a ha))]; exact h1
        · intro r hr
          obtain ⟨a, ha, hab⟩ := all2_mem_right hrs hr
          exact ih a ha (h2 a ha) r hab

/-- What is read inherits. -/
theorem within_readAs {S : Shape} (hS : S.Ok) (r : Expr) : Within S r → ∀ e, ReadAs r e → Within S e := by
  induction r using Expr.ind with
  | hv n t => intro h e he; cases he; exact h
  | hl l => intro h e he; cases he; exact h
  | hn op t args ih =>
    intro h e he
    cases he with
    | @node _ _ _ es hes =>
      cases h with
      | choose hc h0 h =>
        refine .choose hc ?_ ?_
        · intro e he
          obtain ⟨a, ha, hae⟩ := all2_mem_right hes he
          rw [hae.ty]
          exact h0 a ha
        · intro e he
          obtain ⟨a, ha, hae⟩ := all2_mem_right hes he
          exact ih a ha (h a ha) e hae
      | node ho h1 h2 =>
        refine .node ho (by rw [ReadAs.tys hes]; exact h1) ?_
        intro e he
        obtain ⟨a, ha, hae⟩ := all2_mem_right hes he
        exact ih a ha (h2 a ha) e hae
    | listEq p1 p2 =>
      cases h with
      | node ho h1 h2 =>
        refine .node (by simp) ?_ ?_
        · simp only [List.map_cons, List.map_nil, p1.ty, p2.ty]
          exact hS.listEq _ _ h1
        · intro e he
          simp only [List.mem_cons, List.not_mem_nil, or_false] at he
          rcases he with rfl | rfl
          · exact ih _ (by simp) (h2 _ (by simp)) _ p1
          · exact ih _ (by simp) (h2 _ (by simp)) _ p2
    | ite p1 p2 p3 =>
      cases h with
      | node ho h1 h2 =>
        refine .node (by simp) ?_ ?_
        · simp only [List.map_cons, List.map_nil, p1.ty, p2.ty, p3.ty]
          exact hS.iteCall _ _ h1
        · intro e he
          simp only [List.mem_cons, List.not_mem_nil, or_false] at he
          rcases he with rfl | rfl | rfl
          · exact ih _ (by simp) (h2 _ (by simp)) _ p1
          · exact ih _ (by simp) (h2 _ (by simp)) _ p2
          · exact ih _ (by simp) (h2 _ (by simp)) _ p3

/-- Pruned expressions inherit, and keep their type. -/
theorem within_prune {S : Shape} (hS : S.Ok) (D : FnDict) (e : Expr) :
    Within S e → (Within S (pruneIte D e) ∧ (pruneIte D e).ty = e.ty) ∧ (Within S (pruneInner D e) ∧ (pruneInner D e).ty = e.ty) := by
  induction e using Expr.ind with
  | hv n t => intro h; simp only [pruneIte, pruneInner]; exact ⟨⟨h, trivial⟩, h, trivial⟩
  | hl l => intro h; simp only [pruneIte, pruneInner]; exact ⟨⟨h, trivial⟩, h, trivial⟩
  | hn op t args ih =>
    intro h
    have hargs : ∀ a ∈ args, Within S a := by
      cases h with
      | choose _ _ h => exact h
      | node _ _ h => exact h
    have htys : (pruneItes D args).map Expr.ty = args.map Expr.ty := by
      rw [pruneItes_map, List.map_map]
      exact List.map_congr_left (fun a ha => (ih a ha (hargs a ha)).1.2)
    have hinner : Within S (.node op t (pruneItes D args)) := by
      cases h with
      | choose hc h0 h =>
        refine .choose hc ?_ ?_ <;> intro a ha <;> rw [pruneItes_map] at ha <;> obtain ⟨b, hb, rfl⟩ := List.mem_map.1 ha
        · exact (ih b hb (h b hb)).1.2.trans (h0 b hb)
        · exact (ih b hb (h b hb)).1.1
      | node ho h1 h2 =>
        refine .node ho (by rw [htys]; exact h1) ?_
        intro a ha
        rw [pruneItes_map] at ha
        obtain ⟨b, hb, rfl⟩ := List.mem_map.1 ha
        exact (ih b hb (h2 b hb)).1.1
    refine ⟨?_, by rw [pruneInner]; exact ⟨hinner, rfl⟩⟩
    unfold pruneIte
    split
    · next c a b hp =>
      rw [pruneInners_map] at hp
      cases h with
      | node ho h1 h2 =>
        obtain ⟨tc, htt⟩ := hS.ite _ _ h1
        match args, hp, htt, ih, h2 with
        | [c', a', b'], hp, htt, ih, h2 =>
          simp only [List.map_cons, List.map_nil, List.cons.injEq, and_true] at hp htt
          obtain ⟨rfl, rfl, rfl⟩ := hp
          obtain ⟨_, q1, q2⟩ := htt
          have i1 := (ih a' (by simp) (h2 a' (by simp))).2
          have i2 := (ih b' (by simp) (h2 b' (by simp))).2
          split
          · exact ⟨i1.1, i1.2.trans q1⟩
          · exact ⟨i2.1, i2.2.trans q2⟩
          · exact ⟨hinner, rfl⟩
        | [], hp, _, _, _ => simp at hp
        | [_], hp, _, _, _ => simp at hp
        | [_, _], hp, _, _, _ => simp at hp
        | _ :: _ :: _ :: _ :: _, hp, _, _, _ => simp at hp
    · exact ⟨hinner, rfl⟩

/-! ### What the verifier needs -/

/-- Names of functions, numbers of arguments; no projections and no functions as arguments; functions without arguments are not called like one
of the variables in `C`. -/
def nodeShape (C : List String) (op : Op) (t : Ty) (ts : List Ty) : Bool :=
  ts.all (fun x => !x.isFn) &&
  match op with
  | .add | .mul => decide (2 ≤ ts.length)
  | .sub | .div | .mod | .eq | .lt | .le | .gt | .ge | .implies => ts.length == 2
  | .and | .or => !ts.isEmpty
  | .not => ts.length == 1
  | .ite => decide (ts.length = 3 ∧ ts.tail = [t, t])
  | .tuple => decide (1 ≤ ts.length ∧ ts.length ≤ 5)
  | .call f =>
    (!ts.isEmpty || !C.contains f) &&
    (if f = "set-create" then ts.isEmpty && (sortText t).isSome
    else if f = "make-tuple" then decide (1 ≤ ts.length ∧ ts.length ≤ 5)
    else if f = "tupleGet" then false
    else if f = "list_eq" then ts.length == 2
    else if f = "ite" then decide (ts.length = 3 ∧ ts.tail = [t, t])
    else match setFns.lookup f with
      | some p => ts.length == p.2
      | none => fnName f)
  | .callValue => false
  | .choose => false

/-- Bodies of candidates over the parameters `ps`, in a query with constants `C`. -/
def candShape (ps : List (String × Ty)) (C : List String) : Shape where
  var n t := decide ((n, t) ∈ ps) && varName n
  lit l := match l with
    | .int i => decide (0 ≤ i)
    | .bool _ => true
  node := nodeShape (ps.map Prod.fst ++ C)
  choose := true

theorem candShape_ok (ps : List (String × Ty)) (C : List String) : (candShape ps C).resolved.Ok where
  ite := by
    intro t ts h
    simp only [candShape, Shape.resolved, nodeShape, Bool.and_eq_true, decide_eq_true_eq] at h
    match ts, h.2 with
    | [c, a, b], h => simp only [List.tail_cons] at h; exact ⟨c, by rw [h.2]⟩
  listEq := by
    intro t ts h
    simp only [candShape, Shape.resolved, nodeShape, Bool.and_eq_true] at h ⊢
    exact ⟨h.1, by simpa using h.2.2⟩
  iteCall := by
    intro t ts h
    simp only [candShape, Shape.resolved, nodeShape, Bool.and_eq_true] at h ⊢
    refine ⟨h.1, ?_⟩
    simpa using h.2.2

theorem opOk_of_shape {C : List String} {op : Op} {t : Ty} {args : List Expr} (h : nodeShape C op t (args.map Expr.ty) = true) : opOk op t args = true := by
  unfold nodeShape at h
  unfold opOk
  cases op with
  | call f =>
    simp only [List.length_map, Bool.and_eq_true] at h ⊢
    have h := h.2.2
    split
    · next q => rw [if_pos q] at h; simpa using h
    · next q =>
      rw [if_neg q] at h
      split
      · next q => rw [if_pos q] at h; exact h
      · next q =>
        rw [if_neg q] at h
        split
        · next q => rw [if_pos q] at h; cases h
        · next q =>
          rw [if_neg q] at h
          split
          · next q => rw [if_pos q] at h; exact h
          · next q =>
            rw [if_neg q] at h
            split
            · next q => rw [if_pos q] at h; simp only [decide_eq_true_eq] at h; simpa using h.1
            · next q => rw [if_neg q] at h; exact h
  | _ => simp_all

theorem occss_mem {es : List Expr} {p : String × Ty} : p ∈ occss es ↔ ∃ e ∈ es, p ∈ occs e := by
  induction es with
  | nil => simp [occss]
  | cons e es ih => simp [occss, ih]

theorem callss_mem {es : List Expr} {p : String × Nat} : p ∈ callss es ↔ ∃ e ∈ es, p ∈ calls e := by
  induction es with
  | nil => simp [callss]
  | cons e es ih => simp [callss, ih]

theorem printables_all {es : List Expr} : printables es = true ↔ ∀ e ∈ es, printable e = true := by
  induction es with
  | nil => simp [printables]
  | cons e es ih => simp [printables, ih]

/-- Everything the verifier needs of a body. -/
theorem within_body {ps : List (String × Ty)} {C : List String} (e : Expr) : Within (candShape ps C).resolved e →
    printable e = true ∧ filterFnArgs e = e ∧ (∀ p ∈ occs e, p ∈ ps) ∧ (∀ c ∈ calls e, c.2 ≠ 0 ∨ c.1 ∉ ps.map Prod.fst ++ C) := by
  induction e using Expr.ind with
  | hv n t =>
    intro h
    cases h with
    | var h =>
      simp only [candShape, Shape.resolved, Bool.and_eq_true, decide_eq_true_eq] at h
      refine ⟨by rw [printable]; exact h.2, rfl, ?_, by simp [calls]⟩
      intro p hp
      simp only [occs, List.mem_singleton] at hp
      rw [hp]; exact h.1
  | hl l =>
    intro h
    cases h with
    | lit h =>
      refine ⟨?_, rfl, by simp [occs], by simp [calls]⟩
      cases l with
      | int i => simpa [candShape, Shape.resolved, printable] using h
      | bool b => rfl
  | hn op t args ih =>
    intro h
    cases h with
    | choose h => cases h
    | node ho h1 h2 =>
      have ih' := fun a ha => ih a ha (h2 a ha)
      have hfn : ∀ a ∈ args, a.ty.isFn = false := by
        have h1 := h1
        simp only [candShape, Shape.resolved, nodeShape, Bool.and_eq_true, List.all_eq_true, List.mem_map, forall_exists_index, and_imp, forall_apply_eq_imp_iff₂, Bool.not_eq_true'] at h1
        exact h1.1
      refine ⟨?_, ?_, ?_, ?_⟩
      · rw [printable, Bool.and_eq_true, printables_all]
        exact ⟨opOk_of_shape h1, fun a ha => (ih' a ha).1⟩
      · have e1 : ∀ as : List Expr, (∀ a ∈ as, a ∈ args) → filterFnArgsDrop as = as := by
          intro as
          induction as with
          | nil => intro _; rfl
          | cons a as ih2 =>
            intro hm
            rw [filterFnArgsDrop, hfn a (hm a (by simp))]
            simp only [Bool.false_eq_true, if_false]
            rw [(ih' a (hm a (by simp))).2.1, ih2 (fun b hb => hm b (by simp [hb]))]
        have e2 : ∀ as : List Expr, (∀ a ∈ as, a ∈ args) → filterFnArgsMap as = as := by
          intro as
          induction as with
          | nil => intro _; rfl
          | cons a as ih2 =>
            intro hm
            rw [filterFnArgsMap, (ih' a (hm a (by simp))).2.1, ih2 (fun b hb => hm b (by simp [hb]))]
        cases op <;> simp only [filterFnArgs, e1 args (fun _ h => h), e2 args (fun _ h => h)]
      · intro p hp
        rw [occs, occss_mem] at hp
        obtain ⟨a, ha, hp⟩ := hp
        exact (ih' a ha).2.2.1 p hp
      · have hrest : ∀ c ∈ callss args, c.2 ≠ 0 ∨ c.1 ∉ ps.map Prod.fst ++ C := by
          intro c hc
          rw [callss_mem] at hc
          obtain ⟨a, ha, hc⟩ := hc
          exact (ih' a ha).2.2.2 c hc
        intro c hc
        cases op with
        | call f =>
          simp only [calls, List.mem_cons] at hc
          rcases hc with rfl | hc
          · have h1 := h1
            simp only [candShape, Shape.resolved, nodeShape, Bool.and_eq_true, Bool.or_eq_true] at h1
            rcases h1.2.1 with q | q
            · left
              simp only [List.isEmpty_map, Bool.not_eq_true', List.isEmpty_eq_false_iff] at q
              simpa using q
            · right
              simpa using q
          · exact hrest c hc
        | _ => exact hrest c hc

/-! ### Specification: what is required of the grammars -/

/-- What the verifier requires of target language, axioms, variables and verification condition, and of the grammars. -/
structure GrammarsOk (fs : List String) (lang : List FnDecl) (axs : List Ax) (vars : List (String × Ty)) (vc : Expr) (synths : List SynthFn) : Prop where
  langOk : ∀ d ∈ lang.map asRecursive, declOk d = true
  langNames : (lang.map FnDecl.name).Nodup
  axOk : ∀ a ∈ axs, paramsOk a.vars = true ∧ printable a.body = true ∧ scopedIn a.vars a.body = true
  varsOk : paramsOk vars = true
  vcOk : printable vc.simplify = true ∧ filterFnArgs vc.simplify = vc.simplify ∧ scopedIn vars vc.simplify = true
  langConst : ∀ d ∈ lang, ∀ b ∈ d.body, noConstCall (vars.map Prod.fst) b = true
  axConst : ∀ a ∈ axs, noConstCall (vars.map Prod.fst) a.body = true
  fnConst : ∀ d ∈ lang, d.params = [] → d.name ∉ vars.map Prod.fst
  /-- the functions to be synthesised are postconditions and invariants of the functions -/
  names : ∀ s ∈ synths, fnName s.name = true ∧ ∃ f ∈ fs, s.name = f ++ "_ps" ∨ ∃ i : Nat, s.name = f ++ "_inv" ++ i.repr
  params : ∀ s ∈ synths, paramsOk s.params = true ∧ (s.params = [] → s.name ∉ vars.map Prod.fst)
  /-- all alternatives of the grammars can be printed, are about the parameters, and have the type of the choice -/
  bodies : ∀ s ∈ synths, (sortText s.body.ty).isSome = true ∧ Within (candShape s.params (vars.map Prod.fst)) s.body

/-- The postcondition is `result == ...`, with a grammar for the other side that is not about the result. -/
def PostGrammar (ops : List Op) (retTy : Ty) (tys : List Ty) (s : SynthFn) : Prop :=
  ∃ ps r op t G, s.params = ps ++ [(r, retTy)] ∧ ps.map Prod.snd = tys ∧ op ∈ ops ∧ s.body = .node op t [.var r retTy, G] ∧ Within (candShape ps []) G

/-- The functions to be synthesised, as declarations. -/
def synthDecls (synths : List SynthFn) : List FnDecl := synths.map (fun s => s.decl s.body)

/-! ### The candidates of a solution -/

theorem all2_zip_map {α β γ : Type} {R : α → γ → Prop} {as : List α} {bs : List β} {g : α × β → γ} (hl : as.length = bs.length)
    (h : ∀ p ∈ as.zip bs, R p.1 (g p)) : All2 R as ((as.zip bs).map g) := by
  induction as generalizing bs with
  | nil => exact .nil
  | cons a as ih =>
    cases bs with
    | nil => cases hl
    | cons b bs => exact .cons (h (a, b) (by simp)) (ih (by simpa using hl) (fun p hp => h p (by simp [hp])))

theorem all2_zip_mem {α β : Type} {R : α → β → Prop} {as : List α} {bs : List β} (h : All2 R as bs) {p : α × β} (hp : p ∈ as.zip bs) : R p.1 p.2 := by
  induction h with
  | nil => cases hp
  | cons h1 _ ih =>
    rcases List.mem_cons.1 hp with rfl | hp
    · exact h1
    · exact ih hp

theorem all2_trans {α β γ : Type} {R : α → β → Prop} {S : β → γ → Prop} {as : List α} {bs : List β} {cs : List γ} (h : All2 R as bs) (k : All2 S bs cs) :
    All2 (fun a c => ∃ b, R a b ∧ S b c) as cs := by
  induction h generalizing cs with
  | nil => cases k; exact .nil
  | cons h1 _ ih => cases k with | cons k1 k2 => exact .cons ⟨_, h1, k1⟩ (ih k2)

/-- The candidate `d` is a resolution of the grammar of `s`, as it is read, without decided conditionals. -/
def CandidateOf (D : FnDict) (s : SynthFn) (d : FnDecl) : Prop := ∃ r e, Resolves s.body r ∧ ReadAs r e ∧ d = s.decl (pruneIte D e)

theorem decoded_candidates {lang : List FnDecl} {synths : List SynthFn} {A : List SynthAnswer} (h : SolutionOk lang synths A) {c : List FnDecl}
    (hc : decodeSolution lang synths (answerLines (A.map SynthAnswer.block)) = some c) : ∃ D, All2 (CandidateOf D) synths c := by
  obtain ⟨rs, es, h1, h2, h3⟩ := decode_bodies h
  rw [h3] at hc
  cases hc
  refine ⟨bodiesDict synths es, ?_⟩
  have ht := all2_trans h1 h2
  have he : (pruneFnDecls (bodiesDict synths es)).map Prod.snd = (synths.zip es).map (fun p => p.1.decl (pruneIte (bodiesDict synths es) p.2)) := by
    simp only [pruneFnDecls, List.map_map]
    conv_lhs => rw [show ∀ f : String × FnDecl → FnDecl, List.map f (bodiesDict synths es) = List.map (f ∘ fun p => (p.1.name, p.1.decl p.2)) (synths.zip es)
      from fun f => by simp only [bodiesDict, List.map_map]]
    rfl
  rw [he]
  refine all2_zip_map (all2_same_length ht) ?_
  intro p hp
  obtain ⟨r, ⟨q1, _⟩, q2⟩ := all2_zip_mem ht hp
  exact ⟨r, p.2, q1, q2, rfl⟩

theorem candidates_sig {D : FnDict} {synths : List SynthFn} {c : List FnDecl} (h : All2 (CandidateOf D) synths c) :
    c.map (fun d => (d.name, d.ret, d.params)) = (synthDecls synths).map (fun d => (d.name, d.ret, d.params)) := by
  induction h with
  | nil => rfl
  | cons h1 _ ih =>
    obtain ⟨r, e, _, _, rfl⟩ := h1
    simp only [synthDecls, List.map_cons] at ih ⊢
    rw [ih]
    rfl

theorem langSig_sig {c c' : List FnDecl} (lang : List FnDecl)
    (h : c.map (fun d => (d.name, d.ret, d.params)) = c'.map (fun d => (d.name, d.ret, d.params))) : langSig (c ++ lang) = langSig (c' ++ lang) := by
  funext f
  induction c generalizing c' with
  | nil =>
    cases c' with
    | nil => rfl
    | cons => simp at h
  | cons d c ih =>
    cases c' with
    | nil => simp at h
    | cons d' c' =>
      simp only [List.map_cons, List.cons.injEq, Prod.mk.injEq] at h
      have := ih h.2
      simp only [langSig, List.cons_append, List.find?_cons] at this ⊢
      rw [h.1.1]
      split
      · simp [h.1.2.1, h.1.2.2]
      · exact this

theorem within_candidate {D : FnDict} {ps : List (String × Ty)} {C : List String} {G r e : Expr} (hG : Within (candShape ps C) G) (hr : Resolves G r)
    (he : ReadAs r e) : Within (candShape ps C).resolved (pruneIte D e) :=
  (within_prune (candShape_ok ps C) D e (within_readAs (candShape_ok ps C) r (within_resolves G hG r hr) e he)).1.1

theorem scopedIn_of {ps : List (String × Ty)} {C : List String} {e : Expr} (h1 : ∀ p ∈ occs e, p ∈ ps)
    (h2 : ∀ c ∈ calls e, c.2 ≠ 0 ∨ c.1 ∉ ps.map Prod.fst ++ C) : scopedIn ps e = true ∧ noConstCall C e = true := by
  simp only [scopedIn, noConstCall, Bool.and_eq_true, List.all_eq_true, decide_eq_true_eq, Bool.or_eq_true, bne_iff_ne]
  refine ⟨⟨h1, fun c hc => (h2 c hc).imp_right fun h => ?_⟩, fun c hc => (h2 c hc).imp_right fun h => ?_⟩
  · exact fun hm => h (List.mem_append_left _ hm)
  · exact fun hm => h (List.mem_append_right _ hm)

/-- A candidate that belongs to its grammar can be given to the verifier. -/
theorem candidate_ok {D : FnDict} {s : SynthFn} {d : FnDecl} {C : List String} (h : CandidateOf D s d) (hn : fnName s.name = true)
    (hp : paramsOk s.params = true) (hs : (sortText s.body.ty).isSome = true) (hb : Within (candShape s.params C) s.body) :
    candOk d = true ∧ ∀ b ∈ d.body, noConstCall C b = true := by
  obtain ⟨r, e, q1, q2, rfl⟩ := h
  obtain ⟨w1, w2, w3, w4⟩ := within_body _ (within_candidate (D := D) hb q1 q2)
  obtain ⟨v1, v2⟩ := scopedIn_of w3 w4
  refine ⟨?_, ?_⟩
  · simp only [candOk, declOk, SynthFn.decl, Option.all_some, decide_eq_true_eq, Bool.and_eq_true, hn, hp, hs, w1, v1, w2, and_self, Bool.true_or]
  · intro b hb
    cases hb
    exact v2

theorem candidates_query {fs : List String} {lang : List FnDecl} {axs : List Ax} {vars : List (String × Ty)} {vc : Expr} {synths : List SynthFn}
    (hg : GrammarsOk fs lang axs vars vc synths) (hn : (synths.map SynthFn.name).Nodup) {D : FnDict} {c : List FnDecl}
    (h : All2 (CandidateOf D) synths c) : QueryOk (lang.map asRecursive) axs c vars vc.simplify ∧ ResultsFor fs c := by
  have hmem : ∀ d ∈ c, ∃ s ∈ synths, CandidateOf D s d := fun d hd => all2_mem_right h hd
  have hok : ∀ d ∈ c, candOk d = true ∧ ∀ b ∈ d.body, noConstCall (vars.map Prod.fst) b = true := by
    intro d hd
    obtain ⟨s, hs, hsd⟩ := hmem d hd
    exact candidate_ok hsd (hg.names s hs).1 (hg.params s hs).1 (hg.bodies s hs).1 (hg.bodies s hs).2
  have hnames : (c.map FnDecl.name).Nodup := by
    have := congrArg (List.map Prod.fst) (candidates_sig h)
    simp only [List.map_map, synthDecls] at this
    have e : c.map FnDecl.name = synths.map SynthFn.name := this
    rw [e]
    exact hn
  refine ⟨{
    langOk := hg.langOk
    langNames := by rw [List.map_map]; exact hg.langNames
    axOk := hg.axOk
    candOk := fun d hd => (hok d hd).1
    candNames := hnames
    varsOk := hg.varsOk
    vcOk := hg.vcOk
    langConst := ?_
    candConst := fun d hd => (hok d hd).2
    axConst := hg.axConst
    fnConst := ?_ }, hnames, ?_⟩
  · intro d hd
    obtain ⟨d0, hd0, rfl⟩ := List.mem_map.1 hd
    exact hg.langConst d0 hd0
  · intro d hd
    rcases List.mem_append.1 hd with hd | hd
    · obtain ⟨d0, hd0, rfl⟩ := List.mem_map.1 hd
      exact hg.fnConst d0 hd0
    · obtain ⟨s, hs, _, _, _, _, rfl⟩ := hmem d hd
      exact (hg.params s hs).2
  · intro d hd
    obtain ⟨s, hs, _, _, _, _, rfl⟩ := hmem d hd
    exact (hg.names s hs).2

theorem vars_occs (e : Expr) {n : String} (h : n ∈ e.vars) : ∃ t, (n, t) ∈ occs e := by
  induction e using Expr.ind with
  | hv m t => simp only [Expr.vars, List.mem_singleton] at h; exact ⟨t, by simp [occs, h]⟩
  | hl l => simp [Expr.vars] at h
  | hn op t args ih =>
    have : ∃ a ∈ args, n ∈ a.vars := by
      have key : ∀ as : List Expr, n ∈ Expr.varss as → ∃ a ∈ as, n ∈ a.vars := by
        intro as
        induction as with
        | nil => intro h; simp [Expr.varss] at h
        | cons a as ih2 =>
          intro h
          rw [Expr.varss, List.mem_append] at h
          rcases h with h | h
          · exact ⟨a, by simp, h⟩
          · obtain ⟨b, hb, hn⟩ := ih2 h
            exact ⟨b, by simp [hb], hn⟩
      rw [Expr.vars] at h
      exact key _ h
    obtain ⟨a, ha, hn⟩ := this
    obtain ⟨t', ht⟩ := ih a ha hn
    exact ⟨t', by rw [occs, occss_mem]; exact ⟨a, ha, ht⟩⟩

/-- A postcondition that belongs to its grammar is an equation for the result. -/
theorem candidate_post {D : FnDict} {s : SynthFn} {d : FnDecl} {retTy : Ty} {tys : List Ty} {ops : List Op} (hops : ∀ op ∈ ops, op = .eq ∨ op = .call "list_eq")
    (h : CandidateOf D s d) (hp : paramsOk s.params = true) (hs : PostGrammar ops retTy tys s) :
    ∃ ps r t e, d.params = ps ++ [(r, retTy)] ∧ ps.map Prod.snd = tys ∧
      (d.body = some (.node .eq t [.var r retTy, e]) ∨ (.call "list_eq" ∈ ops ∧ d.body = some (.node (.call "list_eq") t [.var r retTy, e]))) ∧ r ∉ e.vars := by
  obtain ⟨ps, r, op, t, G, h1, h2, h3, h4, h5⟩ := hs
  obtain ⟨rr, e, q1, q2, rfl⟩ := h
  rw [h4] at q1
  have hr : r ∉ ps.map Prod.fst := by
    simp only [paramsOk, h1, Bool.and_eq_true, decide_eq_true_eq, List.map_append, List.map_cons, List.map_nil] at hp
    have := (List.nodup_append.1 hp.2).2.2
    intro hm
    exact this r hm r (by simp) rfl
  have hfin : ∀ g g', Resolves G g → ReadAs g g' → r ∉ (pruneIte D g').vars := by
    intro g g' k1 k2 hm
    obtain ⟨t', ht⟩ := vars_occs _ hm
    exact hr (List.mem_map.2 ⟨(r, t'), (within_body _ (within_candidate (D := D) h5 k1 k2)).2.2.1 _ ht, rfl⟩)
  cases q1 with
  | choose => rcases hops _ h3 with h | h <;> cases h
  | node ho hrs =>
    cases hrs with
    | cons k1 hrs =>
      cases hrs with
      | cons k2 hrs =>
        cases hrs
        cases k1
        rename_i g
        cases q2 with
        | node hes =>
          cases hes with
          | cons m1 hes =>
            cases hes with
            | cons m2 hes =>
              cases hes
              cases m1
              rename_i g'
              refine ⟨ps, r, t, pruneIte D g', h1, h2, ?_, hfin g g' k2 m2⟩
              rcases hops _ h3 with rfl | rfl
              · exact .inl (by simp only [SynthFn.decl, pruneIte, pruneItes])
              · exact .inr ⟨h3, by simp only [SynthFn.decl, pruneIte, pruneItes]⟩
        | listEq m1 m2 =>
          cases m1
          rename_i g'
          exact ⟨ps, r, t, pruneIte D g', h1, h2, .inl (by simp only [SynthFn.decl, pruneIte, pruneItes]), hfin g g' k2 m2⟩

/-- What is required of the candidates follows, for the Python front end. -/
theorem candsOk_of_grammars {fs : List String} {F : PyFunc} {lang : List FnDecl} {axs : List Ax} {vars : List (String × Ty)} {vc : Expr}
    {synths : List SynthFn} (hg : GrammarsOk fs lang axs vars vc synths) (hsort : vc.sorted F.ctx.types (allSig (synthDecls synths) lang) = true)
    (hpost : ∀ s ∈ synths, s.name = F.ctx.ps → PostGrammar [.eq] F.retTy (F.ctx.params.map F.ctx.types) s) {A : List SynthAnswer}
    (hA : SolutionOk lang synths A) {c : List FnDecl} (hc : decodeSolution lang synths (answerLines (A.map SynthAnswer.block)) = some c) :
    CandsOk fs F lang axs vars vc c := by
  obtain ⟨D, h⟩ := decoded_candidates hA hc
  obtain ⟨h1, h2⟩ := candidates_query hg hA.synthNames h
  refine ⟨h1, h2, ?_, ?_⟩
  · have : allSig c lang = allSig (synthDecls synths) lang := by
      funext f
      unfold allSig
      rw [langSig_sig lang (candidates_sig h)]
    rw [this]
    exact hsort
  · intro d hd hn
    obtain ⟨s, hs, hsd⟩ := all2_mem_right h hd
    have hsn : s.name = F.ctx.ps := by
      obtain ⟨_, _, _, _, rfl⟩ := hsd
      exact hn
    obtain ⟨ps, r, t, e, q1, q2, q3, q4⟩ := candidate_post (by simp) hsd (hg.params s hs).1 (hpost s hs hsn)
    rcases q3 with q3 | ⟨q3, _⟩
    · exact ⟨ps, r, t, e, q1, q2, q3, q4⟩
    · simp at q3

/-- What is required of the candidates follows, for the LLVM front end. -/
theorem llCandsOk_of_grammars {fs : List String} {F : Ll.Func} {lang : List FnDecl} {axs : List Ax} {vars : List (String × Ty)} {vc : Expr}
    {synths : List SynthFn} (hg : GrammarsOk fs lang axs vars vc synths) (hsort : vc.sorted F.ty (Ll.vecAllSig (synthDecls synths) lang) = true)
    (hpost : ∀ s ∈ synths, s.name = F.name ++ "_ps" → PostGrammar [.eq, .call "list_eq"] F.retTy (F.args.map F.ty) s) {A : List SynthAnswer}
    (hA : SolutionOk lang synths A) {c : List FnDecl} (hc : decodeSolution lang synths (answerLines (A.map SynthAnswer.block)) = some c) :
    Ll.LlCandsOk fs (synths.map SynthFn.name) F lang axs vars vc c := by
  obtain ⟨D, h⟩ := decoded_candidates hA hc
  obtain ⟨h1, h2⟩ := candidates_query hg hA.synthNames h
  refine ⟨h1, h2, ?_, ?_, ?_⟩
  · intro d hd
    obtain ⟨s, hs, _, _, _, _, rfl⟩ := all2_mem_right h hd
    exact List.mem_map_of_mem hs
  · have : Ll.vecAllSig c lang = Ll.vecAllSig (synthDecls synths) lang := by
      funext f
      unfold Ll.vecAllSig
      rw [langSig_sig lang (candidates_sig h)]
    rw [this]
    exact hsort
  · intro d hd hn
    obtain ⟨s, hs, hsd⟩ := all2_mem_right h hd
    have hsn : s.name = F.name ++ "_ps" := by
      obtain ⟨_, _, _, _, rfl⟩ := hsd
      exact hn
    obtain ⟨ps, r, t, e, q1, q2, q3, q4⟩ := candidate_post (by simp) hsd (hg.params s hs).1 (hpost s hs hsn)
    refine ⟨ps, r, e, q1, q2, ⟨t, ?_⟩, q4⟩
    rcases q3 with q3 | ⟨_, q3⟩
    · exact .inl q3
    · exact .inr q3

/-! ### The drivers, from the grammars -/

/-- Solution files are Rosette's answers: when the first line is `#t`, the other lines are answers for the functions to be synthesised. -/
def RosetteAnswers (E : DriverEnv) (lang : List FnDecl) (synths : List SynthFn) : Prop :=
  E.decode = decodeSolution lang synths ∧
  ∀ i j rest, E.file i j = some ("#t", rest) → ∃ A, rest = answerLines (A.map SynthAnswer.block) ∧ SolutionOk lang synths A

/-- **C48 (the driver, from the grammars).**  The function, the target language and the grammars satisfy conditions that do not depend on what
is synthesised; the solution files are answers of Rosette for these grammars; the solver is right when it says `unsat`.  When
`Driver.synthesize` of the Python front end then ends normally and `e` is the synthesised version of the function, there were candidates that
belong to the grammars such that, for every meaning of the functions that satisfies the target language and these candidates, every strict run
of the function that returns, returns the value of `e` at the arguments. -/
theorem C48_from_grammars_partial (topo : List (String × String) → Option (List String)) (htopo : TopoSpec topo)
    (setOrder : List String → List String) (hset : ∀ l, (setOrder l).Perm l)
    -- the program and its obligations
    (F : PyFunc) (pre : List Expr) (w : World) (vc : Expr)
    (hsup : F.body.supported F.ctx.types (F.ctx.params ++ Expr.varss pre) true = true) (hlit : ∀ p ∈ pre, p.OnlyInt)
    (hcall : F.call { postconditions := pre } = some w) (hvc : w.vc = some vc) (hps : F.ctx.ps = F.name ++ "_ps")
    (fs : List String) (hfs : ∀ f ∈ fs, PlainName f) (hF : F.name ∈ fs)
    -- target language, variables, grammars
    (lang : List FnDecl) (axs : List Ax) (vars : List (String × Ty)) (known : List String) (synths : List SynthFn)
    (hres : ∀ v ∈ vars, v.1 ∉ reserved ∧ v.1 ≠ "list_empty" ∧ v.1 ≠ "matrix_empty") (hvars : ∀ v ∈ vars, v.2 = F.ctx.types v.1)
    (hty : F.body.typedOk F.ctx.types (langSig lang) F.retTy = true)
    (hg : GrammarsOk fs lang axs vars vc synths) (hsort : vc.sorted F.ctx.types (allSig (synthDecls synths) lang) = true)
    (hpost : ∀ s ∈ synths, s.name = F.ctx.ps → PostGrammar [.eq] F.retTy (F.ctx.params.map F.ctx.types) s)
    -- Rosette and the solver
    (E : DriverEnv) (hsolver : SolverRight E) (hE : RosetteAnswers E lang synths)
    -- the call of `synthesize`
    (fuel : Nat) (fns : Fns) (hret : pySynthesize topo setOrder known fs w.asserts lang axs vars E fuel = some (.returned fns))
    (e : Expr) (he : fns.lookup F.name = some (some e)) :
    ∃ D c ps r, All2 (CandidateOf D) synths c ∧ (∃ d ∈ c, d.name = F.ctx.ps ∧ d.params = ps ++ [(r, F.retTy)]) ∧
      ps.map Prod.snd = F.ctx.params.map F.ctx.types ∧
      ∀ I, Usual I → (∀ d ∈ lang, FnHolds I d) → (∀ a ∈ axs, AxHolds I a) → (∀ d ∈ c, FnHolds I d) →
      ∀ ρ : Env, (∀ x, OfTy (F.ctx.types x) (ρ x)) → (∀ p ∈ pre, holds I ρ p) → ∀ v, @Exec strictOps I (F.argStore ρ) F.body (.returned v) →
        v = eval I (paramEnv ps (F.ctx.params.map ρ)) e := by
  obtain ⟨i, j, rest, c, ps, r, h1, h2, h3, h4, h5⟩ := C48_driver_partial topo htopo setOrder hset F pre w vc hsup hlit hcall hvc hps fs hfs hF lang
    axs vars known hres hvars hty E hsolver
    (by
      intro i j rest c hf hd
      obtain ⟨A, rfl, hA⟩ := hE.2 i j rest hf
      rw [hE.1] at hd
      exact candsOk_of_grammars hg hsort hpost hA hd) fuel fns hret e he
  obtain ⟨A, rfl, hA⟩ := hE.2 i j rest h1
  rw [hE.1] at h2
  obtain ⟨D, hD⟩ := decoded_candidates hA h2
  exact ⟨D, c, ps, r, hD, h3, h4, h5⟩

/-- **C51 (the driver, from the grammars).**  As C48, for the LLVM front end and the runs of the LLVM function without negative dividends. -/
theorem C51_from_grammars_partial (topo : List (String × String) → Option (List String)) (htopo : TopoSpec topo)
    (setOrder : List String → List String) (hset : ∀ l, (setOrder l).Perm l)
    -- the program and its obligations
    (F : Ll.Func) (posts : List Expr) (scope : String → Ll.Scope) (V : Ll.Visitor) (vc : Expr)
    (hsup : F.supported posts scope = true) (hok : F.solverOk = true) (hcall : F.call posts = some V) (hvc : F.vc posts = some vc)
    (fs : List String) (hfs : ∀ f ∈ fs, PlainName f) (hF : F.name ∈ fs)
    -- target language, variables, grammars
    (lang : List FnDecl) (axs : List Ax) (vars : List (String × Ty)) (known : List String) (synths : List SynthFn)
    (hres : ∀ v ∈ vars, v.1 ∉ reserved ∧ v.1 ≠ "list_empty" ∧ v.1 ≠ "matrix_empty") (hvars : ∀ v ∈ vars, v.2 = F.ty v.1)
    (hg : GrammarsOk fs lang axs vars vc synths) (hsort : vc.sorted F.ty (Ll.vecAllSig (synthDecls synths) lang) = true)
    (hpost : ∀ s ∈ synths, s.name = F.name ++ "_ps" → PostGrammar [.eq, .call "list_eq"] F.retTy (F.args.map F.ty) s)
    -- Rosette and the solver
    (E : DriverEnv) (hsolver : SolverRight E) (hE : RosetteAnswers E lang synths)
    -- the call of `synthesize`
    (fuel : Nat) (fns : Fns) (all : List FnDecl)
    (hret : llSynthesize topo setOrder known fs (synths.map SynthFn.name) (F.asserts V) lang axs vars E fuel = some (.returned (fns, all)))
    (e : Expr) (he : fns.lookup F.name = some (some e)) :
    ∃ D ps r, All2 (CandidateOf D) synths all ∧ (∃ d ∈ all, d.name = F.name ++ "_ps" ∧ d.params = ps ++ [(r, F.retTy)]) ∧
      ps.map Prod.snd = F.args.map F.ty ∧
      ∀ I, Ll.SolverFns I → (∀ d ∈ lang, FnHolds I d) → (∀ a ∈ axs, AxHolds I a) → (∀ d ∈ all, FnHolds I d) →
      ∀ ρ : Env, (∀ x, OfTy (F.ty x) (ρ x)) → (∀ p ∈ posts, holds I ρ p) → ∀ v, @Ll.Returns Ll.solverOps F I ρ v →
        v = eval I (paramEnv ps (F.args.map ρ)) e := by
  obtain ⟨i, j, rest, ps, r, h1, h2, h3, h4, h5⟩ := Ll.C51_driver_partial topo htopo setOrder hset F posts scope V vc hsup hok hcall hvc fs
    (synths.map SynthFn.name) hfs hF lang axs vars known hres hvars E hsolver
    (by
      intro i j rest c hf hd
      obtain ⟨A, rfl, hA⟩ := hE.2 i j rest hf
      rw [hE.1] at hd
      exact llCandsOk_of_grammars hg hsort hpost hA hd) fuel fns all hret e he
  obtain ⟨A, rfl, hA⟩ := hE.2 i j rest h1
  rw [hE.1] at h2
  obtain ⟨D, hD⟩ := decoded_candidates hA h2
  exact ⟨D, ps, r, hD, h3, h4, h5⟩

end Metalift
