import Verif.LlmDissolveSpec
/-
C74: the program verified for `dissolve_blend_8` is the program of the language model.
-/
namespace Metalift.Llm.Dis
open Metalift Metalift.Llm Metalift.Ten

/-! ### The four passes -/

theorem replaceFnNames_map (new old : String) (es : List Expr) : replaceFnNames new old es = es.map (replaceFnName new old) := by
  induction es with
  | nil => rfl
  | cons e es ih => rw [replaceFnNames, ih]; rfl

theorem augmentArgumentss_map (f : String) (new : List Expr) (k : Nat) (es : List Expr) :
    augmentArgumentss f new k es = es.map (augmentArguments f new k) := by
  induction es with
  | nil => rfl
  | cons e es ih => rw [augmentArgumentss, ih]; rfl

/-- The four names of the selections. -/
def selNames : List String :=
  ["matrix_selection_two_args", "selection_two_args", "dissolve_matrix_selection_two_args", "dissolve_selection_two_args"]

theorem rewrite_mat (t : Ty) (a b c : Expr) : rewrite (.node (.call matName) t [a, b, c]) =
    .node (.call dMatName) t [rewrite a, rewrite b, .var "opacity" .int, .var "rand_cons" .int, rewrite c] := by
  simp only [rewrite, replaceFnName, replaceFnNames, augmentArguments, augmentArgumentss]
  rfl

theorem rewrite_sel (t : Ty) (a b c : Expr) : rewrite (.node (.call selName) t [a, b, c]) =
    .node (.call dSelName) t [rewrite a, rewrite b, .var "opacity" .int, .var "rand_cons" .int, rewrite c] := by
  simp only [rewrite, replaceFnName, replaceFnNames, augmentArguments, augmentArgumentss]
  rfl

theorem rewrite_call {f : String} (hf : f ∉ selNames) (t : Ty) (es : List Expr) :
    rewrite (.node (.call f) t es) = .node (.call f) t (es.map rewrite) := by
  simp only [selNames, List.mem_cons, List.not_mem_nil, or_false, not_or] at hf
  obtain ⟨h1, h2, h3, h4⟩ := hf
  have h1 : ¬ f = matName := h1
  have h2 : ¬ f = selName := h2
  have h3 : ¬ f = dMatName := h3
  have h4 : ¬ f = dSelName := h4
  simp only [rewrite, replaceFnName, augmentArguments, h1, h2, h3, h4, if_false, replaceFnNames_map, augmentArgumentss_map, List.map_map]
  rfl

theorem rewrite_node {op : Op} (h : ∀ f, op ≠ .call f) (t : Ty) (es : List Expr) : rewrite (.node op t es) = .node op t (es.map rewrite) := by
  cases op <;> first
    | exact absurd rfl (h _)
    | (simp only [rewrite, replaceFnName, augmentArguments, replaceFnNames_map, augmentArgumentss_map, List.map_map]; rfl)

theorem rewrite_var (n : String) (t : Ty) : rewrite (.var n t) = .var n t := rfl

/-- Expressions without selections stay. -/
theorem rewrite_same : ∀ e : Expr, (∀ f ∈ e.callNames, f ∉ selNames) → rewrite e = e := by
  intro e
  induction e using Expr.ind with
  | hv n t => intro _; rfl
  | hl l => intro _; rfl
  | hn op t args ih =>
    intro h
    have key : (∀ f ∈ Expr.callNamess args, f ∉ selNames) → args.map rewrite = args := by
      intro h
      have : ∀ es : List Expr, (∀ e ∈ es, (∀ f ∈ e.callNames, f ∉ selNames) → rewrite e = e) → (∀ f ∈ Expr.callNamess es, f ∉ selNames) →
          es.map rewrite = es := by
        intro es
        induction es with
        | nil => intro _ _; rfl
        | cons e es ih' =>
          intro H h
          simp only [Expr.callNamess, List.mem_append] at h
          rw [List.map_cons, H e (List.mem_cons_self ..) (fun f hf => h f (.inl hf)),
            ih' (fun e he => H e (List.mem_cons_of_mem _ he)) (fun f hf => h f (.inr hf))]
      exact this args ih h
    by_cases hc : ∃ f, op = .call f
    · obtain ⟨f, rfl⟩ := hc
      simp only [Expr.callNames, List.mem_cons] at h
      rw [rewrite_call (h f (.inl rfl)), key (fun g hg => h g (.inr hg))]
    · have hc : ∀ f, op ≠ .call f := fun f hf => hc ⟨f, hf⟩
      rw [rewrite_node hc, key]
      cases op <;> first | exact absurd rfl (hc _) | exact h

/-! ### Values -/

theorem intOf_some {v : Val} {i : Int} (h : intOf v = some i) : v = .int i := by
  cases v <;> simp [intOf] at h
  rw [h]

theorem mapM_some {α β : Type} {f : α → Option β} {g : β → α} (hf : ∀ a b, f a = some b → a = g b) :
    ∀ (xs : List α) (ys : List β), xs.mapM f = some ys → xs = ys.map g
  | [], ys, h => by simp at h; subst h; rfl
  | x :: xs, ys, h => by
    simp only [List.mapM_cons, Option.pure_def, Option.bind_eq_bind, Option.bind_eq_some_iff, Option.some.injEq] at h
    obtain ⟨b, h1, bs, h2, rfl⟩ := h
    rw [List.map_cons, ← hf _ _ h1, ← mapM_some hf xs bs h2]

theorem vecOf_some {v : Val} {xs : List Int} (h : vecOf v = some xs) : v = vecV xs := by
  cases v <;> simp only [vecOf, reduceCtorEq] at h
  rw [mapM_some (fun _ _ => intOf_some) _ _ h, vecV]

theorem matOf_some {v : Val} {m : List (List Int)} (h : matOf v = some m) : v = matV m := by
  cases v <;> simp only [matOf, reduceCtorEq] at h
  rw [mapM_some (fun _ _ => vecOf_some) _ _ h, matV]

theorem mapM_all {α β : Type} {f : α → Option β} {g : α → β} (hf : ∀ a, f a = some (g a)) (xs : List α) : xs.mapM f = some (xs.map g) := by
  induction xs with
  | nil => rfl
  | cons x xs ih => simp [List.mapM_cons, hf, ih]

theorem map_zip {α β γ : Type} (f : α → β → γ) : ∀ (xs : List α) (ys : List β), (xs.zip ys).map (fun p => f p.1 p.2) = List.zipWith f xs ys
  | [], _ => by simp
  | _ :: _, [] => by simp
  | x :: xs, y :: ys => by simp [map_zip f xs ys]

theorem select_all {f : Int → Int → Option Val} {g : Int → Int → Val} (hf : ∀ a b, f a b = some (g a b)) (xs ys : List Int) :
    select f xs ys = some (.list (zipIf g xs ys)) := by
  unfold select zipIf
  split
  · rw [mapM_all (g := fun p : Int × Int => g p.1 p.2) (fun p => hf p.1 p.2), map_zip g]; rfl
  · rfl

theorem selectMat_all {f : Int → Int → Option Val} {g : Int → Int → Val} (hf : ∀ a b, f a b = some (g a b)) {ms ns : List (List Int)} {v : Val}
    (h : selectMat f ms ns = some v) :
    SameShape ms ns ∧ v = .list (List.zipWith (fun r s => Val.list (List.zipWith g r s)) ms ns) := by
  unfold selectMat at h
  split at h
  · rename_i hs
    obtain ⟨hl, hne⟩ := hs
    rw [mapM_all (g := fun p : List Int × List Int => Val.list (zipIf g p.1 p.2)) (fun p => select_all hf p.1 p.2),
      map_zip (fun a b => Val.list (zipIf g a b))] at h
    have hs : SameShape ms ns := by
      clear h
      induction ms generalizing ns with
      | nil => cases ns with
        | nil => exact .nil
        | cons n ns => simp at hl
      | cons m ms ih => cases ns with
        | nil => simp at hl
        | cons n ns =>
          simp only [List.map_cons, List.cons.injEq] at hl
          simp only [List.mem_cons, not_or] at hne
          exact .cons ⟨fun h => hne.1 h.symm, hl.1⟩ (ih hl.2 hne.2)
    refine ⟨hs, ?_⟩
    simp only [Option.map_some, Option.some.injEq] at h
    rw [← h]
    congr 1
    clear h hl hne
    induction hs with
    | nil => rfl
    | cons h _ ih => rw [List.zipWith_cons_cons, List.zipWith_cons_cons, ih, zipIf, if_pos h.2]
  · cases h

theorem hasPart_append (p s : List Char) : hasPart p (p ++ s) = true := by
  cases h : p ++ s with
  | nil => simp only [List.append_eq_nil_iff] at h; simp [hasPart, h.1]
  | cons c cs => simp [hasPart, ← h]

/-- A lambda expression gets the two additional parameters. -/
theorem extend_lam {d : FnDecl} (h : LamOk d) : extend d = { d with params := d.params ++ extraParams } := by
  obtain ⟨s, hs⟩ := h.named
  rw [extend, if_pos]
  rw [hs, String.toList_append]
  exact hasPart_append _ _

/-- The changed function, called with the two values, is the lambda expression where it stands. -/
theorem lam_apply {I : Interp} {d : FnDecl} (hd : LamOk d) (hI : DeclHolds I (rewriteDecl (extend d))) {ρ : Env} {o r : Int}
    (ho : ρ "opacity" = .int o) (hr : ρ "rand_cons" = .int r) (x y : Int) :
    closure I ρ d x y = some (I.fn d.name [.int x, .int y, .int o, .int r]) := by
  obtain ⟨p, q, b, hp, hb, hpq, hp', hq', hv, hc⟩ := hd.shape
  have h := hI [.int x, .int y, .int o, .int r]
  rw [extend_lam hd] at h
  simp only [rewriteDecl, hp, hb, extraParams, Option.map_some, List.cons_append, List.nil_append, List.map_cons, List.map_nil] at h
  rw [h (by simp [Smt.OfTys, Smt.OfTy]) _ rfl, rewrite_same b hc]
  simp only [closure, hp, hb, Option.some.injEq]
  refine eval_congr I b fun z hz => ?_
  have := hv z hz
  simp only [List.mem_cons, List.not_mem_nil, or_false, not_or] at this hp' hq'
  rcases this with rfl | rfl | rfl | rfl
  · simp [Env.set, fnEnv, hpq]
  · simp [Env.set, fnEnv, List.lookup, beq_false_of_ne (Ne.symm hpq)]
  · simp [Env.set, fnEnv, List.lookup, Ne.symm hp'.1, Ne.symm hq'.1, beq_false_of_ne (Ne.symm hp'.1), beq_false_of_ne (Ne.symm hq'.1), ho]
  · simp [Env.set, fnEnv, List.lookup, Ne.symm hp'.2, Ne.symm hq'.2, beq_false_of_ne (Ne.symm hp'.2), beq_false_of_ne (Ne.symm hq'.2), hr]

theorem find_lam {L : List FnDecl} {g : String} {d : FnDecl} (h : L.find? (fun d => decide (d.name = g)) = some d) : d ∈ L ∧ d.name = g :=
  ⟨List.mem_of_find?_eq_some h, by simpa using List.find?_some h⟩

theorem valuesIn_some {I : Interp} {L : List FnDecl} {ρ : Env} :
    ∀ (es : List Expr) (vs : List Val), valuesIn I L ρ es = some vs → All2 (fun e v => valueIn I L ρ e = some v) es vs
  | [], vs, h => by simp only [valuesIn, Option.some.injEq] at h; subst h; exact .nil
  | e :: es, vs, h => by
    rw [valuesIn] at h
    split at h
    · rename_i v ws h1 h2
      cases h
      exact .cons h1 (valuesIn_some es ws h2)
    · cases h

theorem evalOp_fn (I : Interp) (f : String) (vs : List Val) : evalOp I (.call f) vs = I.fn f vs := by
  simp [evalOp]

/-- C74: with the changed target language and functions, the changed expression has the value that the expression of the solution has in Python, where
lambda expressions use the values of `opacity` and `rand_cons` of the function in which they stand.  Partial: the lambda expressions satisfy `LamOk`, they
are passed to selections only, and the matrices have the same shape and no empty rows; see the refutations below. -/
theorem C74_meaning_partial {I : Interp} {L : List FnDecl} (hI : Defs I L) (hL : ∀ d ∈ L, LamOk d) {ρ : Env} {o r : Int}
    (ho : ρ "opacity" = .int o) (hr : ρ "rand_cons" = .int r) (hf : ∀ d ∈ L, ρ d.name = .fn d.name) :
    ∀ e : Expr, (∀ f ∈ e.callNames, f ∉ ["dissolve_matrix_selection_two_args", "dissolve_selection_two_args"]) →
      ∀ v, valueIn I L ρ e = some v → eval I ρ (rewrite e) = v := by
  intro e
  induction e using Expr.ind with
  | hv n t =>
    intro _ v h
    rw [valueIn] at h
    split at h
    · cases h
    · cases h; rfl
  | hl l => intro _ v h; cases h; rfl
  | hn op t args ih =>
    intro hc v h
    have args_ok : (∀ f ∈ Expr.callNamess args, f ∉ ["dissolve_matrix_selection_two_args", "dissolve_selection_two_args"]) →
        ∀ vs, valuesIn I L ρ args = some vs → evals I ρ (args.map rewrite) = vs := by
      intro hc vs hvs
      have H := valuesIn_some args vs hvs
      clear hvs h
      induction H with
      | nil => rfl
      | cons h _ ih' =>
        simp only [Expr.callNamess, List.mem_append] at hc
        rw [List.map_cons, evals, ih _ (List.mem_cons_self ..) (fun f hf => hc f (.inl hf)) _ h,
          ih' (fun e he => ih e (List.mem_cons_of_mem _ he)) (by cases op <;> simp_all [Expr.callNames]) (fun f hf => hc f (.inr hf))]
    by_cases hcall : ∃ f, op = .call f
    · obtain ⟨f, rfl⟩ := hcall
      have hc1 := hc f (by simp [Expr.callNames])
      have hc2 : ∀ g ∈ Expr.callNamess args, g ∉ ["dissolve_matrix_selection_two_args", "dissolve_selection_two_args"] :=
        fun g hg => hc g (by simp [Expr.callNames, hg])
      have hsel : f ≠ matName → f ≠ selName → f ∉ selNames := by
        intro h1 h2
        simp only [List.mem_cons, List.not_mem_nil, or_false, not_or] at hc1
        simp only [selNames, List.mem_cons, List.not_mem_nil, or_false, not_or]
        exact ⟨h1, h2, hc1.1, hc1.2⟩
      by_cases hsh : ∃ a b g tg, args = [a, b, .var g tg]
      · obtain ⟨a, b, g, tg, rfl⟩ := hsh
        rw [valueIn] at h
        split at h
        · rename_i va vb h1 h2
          simp only [Expr.callNamess, List.mem_append] at hc2
          have e1 := ih a (by simp) (fun f hf => hc2 f (.inl hf)) _ h1
          have e2 := ih b (by simp) (fun f hf => hc2 f (.inr (.inl hf))) _ h2
          have lam : ∀ d, d ∈ L → d.name = g → ∀ x y : Int, closure I ρ d x y = some (I.apply (.fn g) [.int x, .int y, .int o, .int r]) := by
            intro d hd hg x y
            rw [lam_apply (hL d hd) (hI.lams d hd) ho hr, ← hg, hI.apply d hd]
          have vsel := fun xs ys => dissolveSelection_spec hI.prims hI.vec g o r xs ys
          by_cases hm : f = matName
          · subst hm
            simp only [matName, if_true, Option.bind_eq_bind, Option.bind_eq_some_iff] at h
            obtain ⟨d, hd, m, hm, n, hn, hv⟩ := h
            obtain ⟨hd, hg⟩ := find_lam hd
            obtain ⟨hs, rfl⟩ := selectMat_all (lam d hd hg) hv
            rw [rewrite_mat, rewrite_var]
            simp only [eval, evals, evalOp_fn, e1, e2, ho, hr, matOf_some hm, matOf_some hn, ← hg, hf d hd]
            rw [hg]
            exact dissolveMatrixSelection_spec hI.prims g o r vsel hI.mat m n hs
          · by_cases hs : f = selName
            · subst hs
              rw [if_neg (show ¬ selName = "matrix_selection_two_args" from hm)] at h
              simp only [selName, if_true, Option.bind_eq_bind, Option.bind_eq_some_iff] at h
              obtain ⟨d, hd, m, hm, n, hn, hv⟩ := h
              obtain ⟨hd, hg⟩ := find_lam hd
              rw [select_all (lam d hd hg)] at hv
              cases hv
              rw [rewrite_sel, rewrite_var]
              simp only [eval, evals, evalOp_fn, e1, e2, ho, hr, vecOf_some hm, vecOf_some hn, ← hg, hf d hd]
              rw [hg]
              exact vsel m n
            · rw [if_neg (show ¬ f = "matrix_selection_two_args" from hm), if_neg (show ¬ f = "selection_two_args" from hs)] at h
              split at h
              · cases h
              · cases h
                rw [rewrite_call (hsel hm hs)]
                simp only [List.map_cons, List.map_nil, rewrite_var, eval, evals, evalOp_fn, e1, e2]
        · cases h
      · rw [valueIn] at h
        · split at h
          · cases h
          · rename_i hn
            simp only [not_or] at hn
            obtain ⟨vs, h1, rfl⟩ := Option.map_eq_some_iff.1 h
            rw [rewrite_call (hsel hn.1 hn.2), eval, args_ok hc2 vs h1, evalOp_fn]
        · intro a b g tg he
          exact hsh ⟨a, b, g, tg, he⟩
    · have hcall : ∀ f, op ≠ .call f := fun f hf => hcall ⟨f, hf⟩
      have h : (valuesIn I L ρ args).map (evalOp I op) = some v := by
        rw [← h]
        cases op <;> first | exact absurd rfl (hcall _) | (rw [valueIn] <;> simp)
      obtain ⟨vs, h1, rfl⟩ := Option.map_eq_some_iff.1 h
      rw [rewrite_node hcall, eval, args_ok ?_ vs h1]
      cases op <;> first | exact absurd rfl (hcall _) | exact hc

/-! ### The attempts for one summary -/

theorem sameFn_name {d e : FnDecl} (h : sameFn d e = true) : d.name = e.name ∧ d.params.map Prod.fst = e.params.map Prod.fst := by
  simp only [sameFn, Bool.and_eq_true, decide_eq_true_eq] at h
  exact ⟨h.1.1.2, h.1.2⟩

theorem distinct_complete : ∀ (ds seen : List FnDecl), ∀ d ∈ ds, ∃ e ∈ seen ++ distinctFns seen ds, d = e ∨ sameFn d e = true
  | [], _, _, h => by simp at h
  | c :: cs, seen, d, h => by
    rw [distinctFns]
    by_cases hc : isNew seen c = true
    · rw [if_pos hc]
      rcases List.mem_cons.1 h with rfl | h
      · exact ⟨d, by simp, .inl rfl⟩
      · obtain ⟨e, he, h⟩ := distinct_complete cs (seen ++ [c]) d h
        exact ⟨e, by simpa using he, h⟩
    · rw [if_neg hc]
      rcases List.mem_cons.1 h with rfl | h
      · simp only [isNew, Bool.not_eq_true', Bool.not_eq_false, List.any_eq_true] at hc
        obtain ⟨e, he, h⟩ := hc
        exact ⟨e, List.mem_append_left _ he, .inr h⟩
      · exact distinct_complete cs seen d h

theorem distinct_sub : ∀ (ds seen : List FnDecl), ∀ d ∈ distinctFns seen ds, d ∈ ds
  | [], _, _, h => by simp [distinctFns] at h
  | c :: cs, seen, d, h => by
    rw [distinctFns] at h
    split at h
    · rcases List.mem_cons.1 h with rfl | h
      · exact List.mem_cons_self ..
      · exact List.mem_cons_of_mem _ (distinct_sub cs _ d h)
    · exact List.mem_cons_of_mem _ (distinct_sub cs _ d h)

/-- C74: in the first attempt every function of the solution is verified, changed as described, and nothing else is. -/
theorem C74_first_attempt (ps inv : List FnDecl) (invs : List (List FnDecl)) :
    ∃ fns, (attempts ps (inv :: invs)).head? = some fns ∧
      (∀ d ∈ ps ++ inv, ∃ e ∈ ps ++ inv, (d = e ∨ sameFn d e = true) ∧ rewriteDecl (extend e) ∈ fns) ∧
      ∀ f ∈ fns, ∃ d ∈ ps ++ inv, f = rewriteDecl (extend d) ∧ f.name = d.name ∧ f.ret = d.ret ∧ f.recursive = d.recursive ∧
        f.params = d.params ++ (if hasPart "select_two_args_arg".toList d.name.toList then [("opacity", .int), ("rand_cons", .int)] else []) := by
  refine ⟨_, rfl, fun d hd => ?_, fun f hf => ?_⟩
  · obtain ⟨e, he, h⟩ := distinct_complete (ps ++ inv) [] d hd
    exact ⟨e, distinct_sub _ _ _ he, h, List.mem_map.2 ⟨e, he, rfl⟩⟩
  · obtain ⟨d, hd, rfl⟩ := List.mem_map.1 hf
    refine ⟨d, distinct_sub _ _ _ hd, rfl, ?_⟩
    by_cases h : hasPart "select_two_args_arg".toList d.name.toList
    · have h' : extend d = { d with params := d.params ++ extraParams } := if_pos h
      rw [h', if_pos h]
      exact ⟨rfl, rfl, rfl, rfl⟩
    · have h' : extend d = d := if_neg h
      rw [h', if_neg h]
      exact ⟨rfl, rfl, rfl, (List.append_nil _).symm⟩

theorem touched_same : ∀ (ds seen : List FnDecl), (∀ d ∈ ds, extend d = d) → touched seen ds = ds
  | [], _, _ => rfl
  | c :: cs, seen, h => by
    have h1 := h c (List.mem_cons_self ..)
    have h2 : ∀ s, touched s cs = cs := fun s => touched_same cs s fun d hd => h d (List.mem_cons_of_mem _ hd)
    rw [touched, h1, h2, h2, ite_self]

/-- C74: every attempt verifies the summary as it was found, whatever was tried before, if the summary passes no function to a selection.  Partial: see
`C74_second_attempt_refuted`. -/
theorem C74_attempts_partial (ps : List FnDecl) (h : ∀ d ∈ ps, hasPart "select_two_args_arg".toList d.name.toList = false) (invs : List (List FnDecl)) :
    attempts ps invs = invs.map (attemptFns ps) := by
  have ht : touched [] ps = ps := touched_same ps [] fun d hd => by
    rw [extend, if_neg]
    rw [show argName = "select_two_args_arg" from rfl, h d hd]
    exact Bool.false_ne_true
  induction invs with
  | nil => rfl
  | cons i is ih => rw [attempts, ht, ih, List.map_cons]

theorem touched_mem : ∀ (ds seen : List FnDecl), ∀ d ∈ distinctFns seen ds, extend d ∈ touched seen ds
  | [], _, _, h => by simp [distinctFns] at h
  | c :: cs, seen, d, h => by
    rw [distinctFns] at h
    rw [touched]
    split at h
    · rename_i hc
      rw [if_pos hc]
      rcases List.mem_cons.1 h with rfl | h
      · exact List.mem_cons_self ..
      · exact List.mem_cons_of_mem _ (touched_mem cs _ d h)
    · rename_i hc
      rw [if_neg hc]
      exact List.mem_cons_of_mem _ (touched_mem cs _ d h)

/-- C74 fails in the second attempt for every summary that passes a lambda expression to a selection: the function that is verified has the parameter
`opacity` twice, so that the file is not accepted by Racket and the process ends with an exception. -/
theorem C74_second_attempt_refuted (ps inv inv' : List FnDecl) (invs : List (List FnDecl)) (d : FnDecl) (hd : d ∈ ps)
    (hn : hasPart "select_two_args_arg".toList d.name.toList = true) :
    ∃ fns, (attempts ps (inv :: inv' :: invs))[1]? = some fns ∧ ∃ f ∈ fns, f.name = d.name ∧ ¬ (f.params.map Prod.fst).Nodup := by
  refine ⟨_, rfl, ?_⟩
  obtain ⟨e, he, h⟩ := distinct_complete ps [] d hd
  have hname : d.name = e.name := by
    rcases h with rfl | h
    · rfl
    · exact (sameFn_name h).1
  obtain ⟨f, hf, h'⟩ := distinct_complete (touched [] ps ++ inv') [] (extend e) (List.mem_append_left _ (touched_mem ps [] e he))
  have hx : extend e = { e with params := e.params ++ extraParams } := by
    rw [extend, if_pos]
    rw [← hname]; exact hn
  have h2 : f.name = e.name ∧ f.params.map Prod.fst = e.params.map Prod.fst ++ ["opacity", "rand_cons"] := by
    rcases h' with rfl | h'
    · rw [hx]; simp [extraParams]
    · have := sameFn_name h'
      rw [hx] at this
      exact ⟨this.1.symm, by rw [← this.2]; simp [extraParams]⟩
  refine ⟨rewriteDecl (extend f), List.mem_map.2 ⟨f, hf, rfl⟩, ?_, ?_⟩
  · rw [extend]; split <;> simp [rewriteDecl, h2.1, hname]
  · rw [extend, if_pos]
    · simp only [rewriteDecl, List.map_append, h2.2, extraParams, List.map_cons, List.map_nil]
      intro h
      rw [List.nodup_append] at h
      exact h.2.2 "opacity" (by simp) "opacity" (by simp) rfl
    · rw [h2.1, ← hname]; exact hn

/-- C74 fails for lambda expressions that use another variable of the function in which they stand: in the function that is verified the variable is not a
parameter. -/
theorem C74_captured_refuted (ps inv : List FnDecl) (d : FnDecl) (hd : d ∈ distinctFns [] (ps ++ inv)) (b : Expr) (hb : d.body = some b) (x : String)
    (hx : x ∈ b.vars) (hp : x ∉ d.params.map Prod.fst) (h1 : x ≠ "opacity") (h2 : x ≠ "rand_cons") :
    ∃ f ∈ attemptFns ps inv, f.name = d.name ∧ ∃ c, f.body = some c ∧ x ∈ c.vars ∧ x ∉ f.params.map Prod.fst := by
  have hv : ∀ e : Expr, x ∈ e.vars → x ∈ (rewrite e).vars := by
    have hR : ∀ (new old : String) (e : Expr), x ∈ e.vars → x ∈ (replaceFnName new old e).vars := by
      intro new old e
      induction e using Expr.ind with
      | hv n t => exact id
      | hl l => exact id
      | hn op t args ih =>
        intro h
        have : x ∈ Expr.varss (replaceFnNames new old args) := by
          rw [replaceFnNames_map, Expr.mem_varss]
          obtain ⟨e, he, h⟩ := Expr.mem_varss.1 (show x ∈ Expr.varss args from h)
          exact ⟨_, List.mem_map_of_mem he, ih e he h⟩
        cases op <;> exact this
    have hA : ∀ (f : String) (e : Expr), x ∈ e.vars → x ∈ (augmentArguments f extraVars 2 e).vars := by
      intro f e
      induction e using Expr.ind with
      | hv n t => exact id
      | hl l => exact id
      | hn op t args ih =>
        intro h
        have : x ∈ Expr.varss (augmentArgumentss f extraVars 2 args) := by
          rw [augmentArgumentss_map, Expr.mem_varss]
          obtain ⟨e, he, h⟩ := Expr.mem_varss.1 (show x ∈ Expr.varss args from h)
          exact ⟨_, List.mem_map_of_mem he, ih e he h⟩
        cases op
        case call g =>
          simp only [augmentArguments, Expr.vars]
          split
          · obtain ⟨e, he, h⟩ := Expr.mem_varss.1 this
            rw [Expr.mem_varss]
            refine ⟨e, ?_, h⟩
            rw [← List.take_append_drop 2 (augmentArgumentss f extraVars 2 args), List.mem_append] at he
            simp only [List.mem_append]
            tauto
          · exact this
        all_goals exact this
    exact fun e h => hA _ _ (hA _ _ (hR _ _ _ (hR _ _ _ h)))
  refine ⟨rewriteDecl (extend d), List.mem_map.2 ⟨d, hd, rfl⟩, ?_, rewrite b, ?_, hv b hx, ?_⟩
  · rw [extend]; split <;> rfl
  · rw [extend]; split <;> simp [rewriteDecl, hb]
  · rw [extend]; split <;> simp only [rewriteDecl, extraParams, List.map_append, List.mem_append, not_or, List.map_cons, List.map_nil, List.mem_cons,
      List.not_mem_nil, or_false] <;> tauto

/-- C74: the target language of later attempts is that of the first. -/
theorem C74_language {dm ds : FnDecl} (hm : dm.name = "dissolve_matrix_selection_two_args") (hs : ds.name = "dissolve_selection_two_args")
    (dsl : List FnDecl) : replaceDsl dm ds (replaceDsl dm ds dsl) = replaceDsl dm ds dsl := by
  simp only [replaceDsl, List.map_map]
  refine List.map_congr_left fun d _ => ?_
  simp only [Function.comp]
  have a1 : ¬ dm.name = matName := by rw [hm]; decide
  have a2 : ¬ dm.name = selName := by rw [hm]; decide
  have a3 : ¬ ds.name = matName := by rw [hs]; decide
  have a4 : ¬ ds.name = selName := by rw [hs]; decide
  by_cases h1 : d.name = matName
  · simp [h1, a1, a2]
  · by_cases h2 : d.name = selName
    · simp [h2, a3, a4, show ¬ selName = matName by decide]
    · simp [h1, h2]

/-- C74 fails after the run: the list of the caller has lost the two selections, so that a later run in the same process has no selections. -/
theorem C74_language_refuted {dm ds : FnDecl} (hm : dm.name = "dissolve_matrix_selection_two_args") (hs : ds.name = "dissolve_selection_two_args")
    (dsl : List FnDecl) : ∀ d ∈ replaceDsl dm ds dsl, d.name ≠ "matrix_selection_two_args" ∧ d.name ≠ "selection_two_args" := by
  intro d hd
  obtain ⟨c, -, rfl⟩ := List.mem_map.1 hd
  split
  · rw [hm]; decide
  · rename_i h1
    split
    · rw [hs]; decide
    · rename_i h2; exact ⟨h1, h2⟩

end Metalift.Llm.Dis
