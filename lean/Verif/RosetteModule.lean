import Verif.RosetteRun
import Verif.RktProg
import Verif.PSymVars
/-
The module that a verification file defines.
-/
namespace Metalift
namespace Rkt
open Smt (OfTy OfTys FnHolds paramEnv)

/-! ### Names of the generated definitions -/

theorem slot_name {n : String} (h : rktName n = true) {k : Nat} : ∀ m ∈ slotNames n k, rktName m = true := by
  intro m hm
  obtain ⟨i, _, rfl⟩ := List.mem_map.1 hm
  rw [String.append_assoc]
  refine rktName_append h ?_ ?_
  · rw [String.toList_append, List.all_append, digits_nameChar]
    decide
  · rw [String.toList_append, List.length_append]
    have : "_BOUNDEDSET-".toList.length = 12 := by decide
    omega

theorem len_name {n : String} (h : rktName n = true) : rktName (lenName n) = true := by
  unfold lenName
  exact rktName_append h (by decide) (by decide)

theorem namess_map {α : Type} {f : α → RExp} {as : List α} {x : String} (h : x ∈ rexpNamess (as.map f)) : ∃ a ∈ as, x ∈ rexpNames (f a) := by
  induction as with
  | nil => simp [rexpNamess] at h
  | cons a as ih =>
    simp only [List.map_cons, rexpNamess, List.mem_append] at h
    rcases h with h | h
    · exact ⟨a, by simp, h⟩
    · obtain ⟨b, hb, h⟩ := ih h
      exact ⟨b, by simp [hb], h⟩

theorem ids_names {ns : List String} {x : String} (h : x ∈ rexpNamess (ns.map .id)) : x ∈ ns := by
  obtain ⟨a, ha, h⟩ := namess_map h
  simp only [rexpNames, List.mem_singleton] at h
  exact h ▸ ha

theorem row_names {tmp : List String} {i b : Nat} {x : String} (h : x ∈ rexpNames (rowExp tmp i b)) : x ∈ tmp := by
  simp only [rowExp, rexpNames] at h
  exact List.mem_of_mem_drop (List.mem_of_mem_take (ids_names h))

/-- Every name in the declarations is a name. -/
def AllNames (ds : List RDecl) : Prop := ∀ d ∈ ds, ∀ x ∈ rdeclNames d, rktName x = true

theorem AllNames.append {ds ds' : List RDecl} (h : AllNames ds) (h' : AllNames ds') : AllNames (ds ++ ds') := by
  intro d hd
  rcases List.mem_append.1 hd with hd | hd
  · exact h d hd
  · exact h' d hd

theorem genAll_names {g : String → GenResult} (hg : ∀ n ds cs, rktName n = true → g n = some (ds, cs) → AllNames ds) :
    ∀ {ns : List String} {ds cs}, (∀ n ∈ ns, rktName n = true) → genAll g ns = some (ds, cs) → AllNames ds
  | [], ds, cs, _, h => by
    cases h
    intro d hd; cases hd
  | n :: ns, ds, cs, hn, h => by
    simp only [genAll, Option.bind_eq_bind, Option.bind_eq_some_iff, Option.pure_def, Option.some.injEq, Prod.mk.injEq] at h
    obtain ⟨⟨d1, c1⟩, h1, ⟨d2, c2⟩, h2, rfl, rfl⟩ := h
    exact (hg n d1 c1 (hn n (by simp)) h1).append (genAll_names hg (fun m hm => hn m (by simp [hm])) h2)

theorem container_names {g : String → GenResult} (hg : ∀ n ds cs, rktName n = true → g n = some (ds, cs) → AllNames ds) {n : String} {k : Nat}
    {define : List String → Option RExp} (hdef : ∀ e, define (slotNames n k) = some e → ∀ x ∈ rexpNames e, x ∈ slotNames n k ∨ x = lenName n)
    {ds cs} (hn : rktName n = true) (h : genContainer g n k define = some (ds, cs)) : AllNames ds := by
  simp only [genContainer, Option.bind_eq_bind, Option.bind_eq_some_iff, Option.pure_def, Option.some.injEq, Prod.mk.injEq] at h
  obtain ⟨⟨d1, c1⟩, h1, e, he, rfl, rfl⟩ := h
  have a1 := genAll_names hg (fun m hm => slot_name hn m hm) h1
  intro d hd
  rcases List.mem_cons.1 hd with rfl | hd
  · intro x hx
    simp only [rdeclNames, List.mem_singleton] at hx
    exact hx ▸ len_name hn
  rcases List.mem_append.1 hd with hd | hd
  · exact a1 d hd
  · obtain rfl := List.mem_singleton.1 hd
    intro x hx
    simp only [rdeclNames, List.mem_cons] at hx
    rcases hx with rfl | hx
    · exact hn
    · rcases hdef e he x hx with hx | rfl
      · exact slot_name hn x hx
      · exact len_name hn

theorem genVar_names (b : Nat) : ∀ (t : VTy) (n : String) (ds cs), rktName n = true → genVar b t n = some (ds, cs) → AllNames ds
  | .int, n, ds, cs, hn, h => by
    simp only [genVar, Option.some.injEq, Prod.mk.injEq] at h
    obtain ⟨rfl, rfl⟩ := h
    intro d hd x hx
    obtain rfl := List.mem_singleton.1 hd
    simp only [rdeclNames, List.mem_singleton] at hx
    exact hx ▸ hn
  | .bool, n, ds, cs, hn, h => by
    simp only [genVar, Option.some.injEq, Prod.mk.injEq] at h
    obtain ⟨rfl, rfl⟩ := h
    intro d hd x hx
    obtain rfl := List.mem_singleton.1 hd
    simp only [rdeclNames, List.mem_singleton] at hx
    exact hx ▸ hn
  | .list t, n, ds, cs, hn, h => by
    simp only [genVar] at h
    refine container_names (genVar_names b t) ?_ hn h
    intro e he x hx
    simp only [Option.some.injEq] at he
    subst he
    simp only [rexpNames, List.mem_append, List.mem_singleton] at hx
    exact hx.imp_left fun h => List.mem_of_mem_take (ids_names h)
  | .set t, n, ds, cs, hn, h => by
    simp only [genVar] at h
    refine container_names (genVar_names b t) ?_ hn h
    intro e he x hx
    simp only [Option.some.injEq] at he
    subst he
    simp only [rexpNames, List.mem_append, List.mem_singleton] at hx
    exact hx.imp_left fun h => List.mem_of_mem_take (ids_names h)
  | .matrix t, n, ds, cs, hn, h => by
    simp only [genVar] at h
    refine container_names (genVar_names b t) ?_ hn h
    intro e he x hx
    simp only [Option.bind_eq_bind, Option.bind_eq_some_iff, Option.pure_def, Option.some.injEq] at he
    obtain ⟨starts, _, rfl⟩ := he
    simp only [rexpNames, List.mem_append, List.mem_singleton] at hx
    refine hx.imp_left fun h => ?_
    obtain ⟨i, _, h⟩ := namess_map h
    exact row_names h
  | .tensor3d t, n, ds, cs, hn, h => by
    simp only [genVar] at h
    refine container_names (genVar_names b t) ?_ hn h
    intro e he x hx
    simp only [Option.some.injEq] at he
    subst he
    simp only [rexpNames, List.mem_append, List.mem_singleton] at hx
    refine hx.imp_left fun h => ?_
    obtain ⟨i, _, h⟩ := namess_map h
    simp only [rexpNames] at h
    obtain ⟨j, _, h⟩ := namess_map h
    exact row_names h
  | .tuple _, n, ds, cs, _, h => by cases h
  | .fn _, n, ds, cs, _, h => by cases h

theorem genVars_names (b : Nat) : ∀ (vs : List (String × VTy)) (ds cs), (∀ v ∈ vs, rktName v.1 = true) → genVars b vs = some (ds, cs) → AllNames ds
  | [], ds, cs, _, h => by
    cases h
    intro d hd; cases hd
  | (n, t) :: vs, ds, cs, hn, h => by
    simp only [genVars, Option.bind_eq_bind, Option.bind_eq_some_iff, Option.pure_def, Option.some.injEq, Prod.mk.injEq] at h
    obtain ⟨⟨d1, c1⟩, h1, ⟨d2, c2⟩, h2, rfl, rfl⟩ := h
    exact (genVar_names b t n d1 c1 (hn (n, t) (by simp)) h1).append (genVars_names b vs d2 c2 (fun m hm => hn m (by simp [hm])) h2)

/-! ### Evaluation of the definitions -/

/-- Names used in the generated definitions. -/
def dataHeads : List String := ["list", "take", "sort", "remove-duplicates"]

theorem lib_free : lib.find "list" = none ∧ lib.find "take" = none ∧ lib.find "remove-duplicates" = none := by decide +kernel

theorem rk_sort {M : Module} {n fu : Nat} {σ : REnv} {e : SExpr} (h1 : σ "sort" = none) (h2 : M.find "sort" = none)
    (h3 : M.globals "sort" = none) :
    rkEval M (n + 1) fu σ (.list [.atom "sort", e, .atom "<"]) = (rkEval M n fu σ e).bind fun v =>
      match v with
      | .list vs => (sortLt vs).map .list
      | _ => none := by
  simp [rkEval, h1, h2, h3]
  rfl

mutual
theorem rexp_run {M : Module} (hM : M.imports = lib.exports) (hf : ∀ s ∈ dataHeads, M.find s = none ∧ M.globals s = none) (fu : Nat) :
    ∀ (e : RExp) (v : Val), (∀ x ∈ rexpNames e, rktName x = true) → e.eval M.globals = some v →
      ∃ k, ∀ n, k ≤ n → rkEval M n fu (fun _ => none) (rexpSx e) = some v
  | .id s, v, hn, h => by
    refine ⟨0, fun n _ => ?_⟩
    rw [rexpSx, rk_atom, evalAtom_name (rktName_isName (hn s (by simp [rexpNames])))]
    simp only [RExp.eval] at h
    simp [evalName, h]
  | .list es, v, hn, h => by
    simp only [RExp.eval, Option.map_eq_some_iff] at h
    obtain ⟨vs, hvs, rfl⟩ := h
    obtain ⟨k, hk⟩ := rexps_run hM hf fu es vs hn hvs
    refine ⟨k + 1, fun n hn => ?_⟩
    obtain ⟨n, rfl⟩ : ∃ m, n = m + 1 := ⟨n - 1, by omega⟩
    rw [rexpSx, rk_app rfl (hf "list" (by decide)).1 (hf "list" (by decide)).2 (by decide), hk n (by omega), hM]
    simp [Module.exports, lib_free, builtin]
  | .take e x, v, hn, h => by
    simp only [RExp.eval, Option.bind_eq_bind, Option.bind_eq_some_iff] at h
    obtain ⟨w, hw, u, hu, h⟩ := h
    obtain ⟨k, hk⟩ := rexp_run hM hf fu e w (fun x hx => hn x (by simp [rexpNames, hx])) hw
    refine ⟨k + 1, fun n hn' => ?_⟩
    obtain ⟨n, rfl⟩ : ∃ m, n = m + 1 := ⟨n - 1, by omega⟩
    rw [rexpSx, rk_app rfl (hf "take" (by decide)).1 (hf "take" (by decide)).2 (by decide)]
    have hx : rkEval M n fu (fun _ => none) (.atom x) = some u := by
      rw [rk_atom, evalAtom_name (rktName_isName (hn x (by simp [rexpNames])))]
      simp [evalName, hu]
    simp only [List.mapM_cons, List.mapM_nil, hk n (by omega), hx, Option.bind_eq_bind, Option.bind_some, Option.pure_def, hM, Module.exports,
      lib_free, builtin]
    split at h
    · split at h
      · next hc => cases h; simp [index, hc]
      · cases h
    · cases h
  | .sortDedup e, v, hn, h => by
    simp only [RExp.eval, Option.bind_eq_bind, Option.bind_eq_some_iff] at h
    obtain ⟨w, hw, h⟩ := h
    obtain ⟨k, hk⟩ := rexp_run hM hf fu e w hn hw
    refine ⟨k + 2, fun n hn' => ?_⟩
    obtain ⟨n, rfl⟩ : ∃ m, n = m + 2 := ⟨n - 2, by omega⟩
    split at h
    · next vs =>
      have h1 : rkEval M (n + 1) fu (fun _ => none) (.list [.atom "remove-duplicates", rexpSx e]) = some (.list vs.eraseDups) := by
        rw [rk_app rfl (hf "remove-duplicates" (by decide)).1 (hf "remove-duplicates" (by decide)).2 (by decide)]
        simp only [List.mapM_cons, List.mapM_nil, hk n (by omega), Option.bind_eq_bind, Option.bind_some, Option.pure_def, hM, Module.exports,
          lib_free, builtin]
      rw [rexpSx, rk_sort rfl (hf "sort" (by decide)).1 (hf "sort" (by decide)).2, h1, Option.bind_some]
      simp only [sortVals] at h
      rw [← h]
      congr 1
    · cases h
theorem rexps_run {M : Module} (hM : M.imports = lib.exports) (hf : ∀ s ∈ dataHeads, M.find s = none ∧ M.globals s = none) (fu : Nat) :
    ∀ (es : List RExp) (vs : List Val), (∀ x ∈ rexpNamess es, rktName x = true) → RExp.evals M.globals es = some vs →
      ∃ k, ∀ n, k ≤ n → (rexpSxs es).mapM (rkEval M n fu (fun _ => none)) = some vs
  | [], vs, _, h => by
    cases h
    exact ⟨0, fun n _ => rfl⟩
  | e :: es, vs, hn, h => by
    simp only [RExp.evals, Option.bind_eq_bind, Option.bind_eq_some_iff, Option.pure_def, Option.some.injEq] at h
    obtain ⟨v, hv, us, hus, rfl⟩ := h
    obtain ⟨k1, h1⟩ := rexp_run hM hf fu e v (fun x hx => hn x (by simp [rexpNamess, hx])) hv
    obtain ⟨k2, h2⟩ := rexps_run hM hf fu es us (fun x hx => hn x (by simp [rexpNamess, hx])) hus
    refine ⟨k1 + k2, fun n hn => ?_⟩
    simp only [rexpSxs, List.mapM_cons, h1 n (by omega), h2 n (by omega), Option.bind_eq_bind, Option.bind_some, Option.pure_def]
end

/-- The definitions of data made by the file are those of `runDecls`. -/
theorem decls_run {M : Module} (hM : M.imports = lib.exports) (hf : ∀ s ∈ dataHeads, M.find s = none) (σ : String → Val) (rest : List SExpr) :
    ∀ (ds : List RDecl) (env env' : REnv), AllNames ds → (∀ s ∈ dataHeads, env s = none ∧ s ∉ defNames ds) → runDecls σ env ds = some env' →
      ∃ k, ∀ n, k ≤ n → runForms M n σ env (ds.map rdeclSx ++ rest) = runForms M n σ env' rest
  | [], env, env', _, _, h => by
    cases h
    exact ⟨0, fun n _ => rfl⟩
  | d :: ds, env, env', hn, he, h => by
    simp only [runDecls] at h
    split at h
    · cases h
    obtain ⟨v, hv, h⟩ := Option.bind_eq_some_iff.1 h
    obtain ⟨k, hk⟩ := decls_run hM hf σ rest ds _ env' (fun d hd => hn d (by simp [hd])) (fun s hs => by
      have h1 := he s hs
      simp only [defNames, List.map_cons, List.mem_cons, not_or] at h1
      exact ⟨by simp [h1.2.1, h1.1], h1.2.2⟩) h
    cases d with
    | symInt n =>
      refine ⟨k, fun m hm => ?_⟩
      simp only [List.map_cons, rdeclSx, List.cons_append, runForms]
      simp only [RDecl.value] at hv
      split at hv
      · next i hi =>
        cases hv
        rw [hi]
        exact hk m hm
      · cases hv
    | symBool n =>
      refine ⟨k, fun m hm => ?_⟩
      simp only [List.map_cons, rdeclSx, List.cons_append, runForms]
      simp only [RDecl.value] at hv
      split at hv
      · next i hi =>
        cases hv
        rw [hi]
        exact hk m hm
      · cases hv
    | define x e =>
      obtain ⟨k', hk'⟩ := rexp_run (M := { M with globals := env }) hM (fun s hs => ⟨hf s hs, (he s hs).1⟩) 64 e v
        (fun y hy => hn (.define x e) (by simp) y (by simp [rdeclNames, hy])) hv
      refine ⟨k + k', fun m hm => ?_⟩
      simp only [List.map_cons, rdeclSx, List.cons_append, runForms]
      rw [hk' m (by omega)]
      exact hk m (by omega)

theorem name_back {M : Module} {n fu : Nat} {s : String} {v : Val} (hs : rktName s = true) (h : rkEval M n fu (fun _ => none) (.atom s) = some v) :
    M.globals s = some v := by
  rw [rk_atom, evalAtom_name (rktName_isName hs), evalName] at h
  cases e : M.globals s with
  | some w =>
    rw [e] at h
    exact h
  | none =>
    rw [e] at h
    simp only at h
    exfalso
    split at h
    · next h1 =>
      rcases h1 with rfl | rfl
      · exact absurd hs (by decide +kernel)
      · exact absurd hs (by decide +kernel)
    · split at h
      · next h1 =>
        rcases h1 with rfl | rfl
        · exact absurd hs (by decide +kernel)
        · exact absurd hs (by decide +kernel)
      · cases h

mutual
/-- Conversely, what evaluation gives is the value of the expression. -/
theorem rexp_back {M : Module} (hM : M.imports = lib.exports) (hf : ∀ s ∈ dataHeads, M.find s = none ∧ M.globals s = none) (fu : Nat) :
    ∀ (e : RExp) (n : Nat) (v : Val), (∀ x ∈ rexpNames e, rktName x = true) → rkEval M n fu (fun _ => none) (rexpSx e) = some v →
      e.eval M.globals = some v
  | .id s, n, v, hn, h => by
    rw [rexpSx] at h
    exact name_back (hn s (by simp [rexpNames])) h
  | .list es, 0, v, hn, h => by simp [rexpSx, rkEval] at h
  | .list es, n + 1, v, hn, h => by
    rw [rexpSx, rk_app rfl (hf "list" (by decide)).1 (hf "list" (by decide)).2 (by decide), hM] at h
    obtain ⟨vs, hvs, h⟩ := Option.bind_eq_some_iff.1 h
    simp [Module.exports, lib_free, builtin] at h
    simp [RExp.eval, rexps_back hM hf fu es n vs hn hvs, h]
  | .take e x, 0, v, hn, h => by simp [rexpSx, rkEval] at h
  | .take e x, n + 1, v, hn, h => by
    rw [rexpSx, rk_app rfl (hf "take" (by decide)).1 (hf "take" (by decide)).2 (by decide), hM] at h
    obtain ⟨vs, hvs, h⟩ := Option.bind_eq_some_iff.1 h
    simp only [List.mapM_cons, List.mapM_nil, Option.bind_eq_bind, Option.bind_eq_some_iff, Option.pure_def, Option.some.injEq] at hvs
    obtain ⟨w, hw, _, ⟨u, hu, _, rfl, rfl⟩, rfl⟩ := hvs
    have h1 := rexp_back hM hf fu e n w (fun x hx => hn x (by simp [rexpNames, hx])) hw
    have h2 := name_back (hn x (by simp [rexpNames])) hu
    simp only [Module.exports, lib_free, builtin, Option.bind_some] at h
    simp only [RExp.eval, h1, h2, Option.bind_eq_bind, Option.bind_some]
    split at h
    · next l i e =>
      simp only [List.cons.injEq, and_true] at e
      obtain ⟨rfl, rfl⟩ := e
      simp only [index] at h
      by_cases hc : 0 ≤ i ∧ i ≤ l.length
      · simp only [if_pos hc, Option.map_some] at h ⊢
        exact h
      · simp [hc] at h
    · cases h
  | .sortDedup e, 0, v, hn, h => by simp [rexpSx, rkEval] at h
  | .sortDedup e, 1, v, hn, h => by
    rw [rexpSx, rk_sort rfl (hf "sort" (by decide)).1 (hf "sort" (by decide)).2] at h
    simp [rkEval] at h
  | .sortDedup e, n + 2, v, hn, h => by
    rw [rexpSx, rk_sort rfl (hf "sort" (by decide)).1 (hf "sort" (by decide)).2,
      rk_app rfl (hf "remove-duplicates" (by decide)).1 (hf "remove-duplicates" (by decide)).2 (by decide), hM] at h
    simp only [List.mapM_cons, List.mapM_nil, Option.bind_eq_bind, Option.bind_eq_some_iff, Option.pure_def, Option.some.injEq, Module.exports,
      lib_free, builtin, Option.bind_some] at h
    obtain ⟨u, ⟨_, ⟨w, hw, _, rfl, rfl⟩, hu⟩, h⟩ := h
    have h1 := rexp_back hM hf fu e n w hn hw
    simp only [RExp.eval, h1, Option.bind_eq_bind, Option.bind_some]
    cases w with
    | list l =>
      simp at hu
      subst hu
      simp only [sortVals]
      rw [← h]
      congr 1
    | _ => simp at hu
theorem rexps_back {M : Module} (hM : M.imports = lib.exports) (hf : ∀ s ∈ dataHeads, M.find s = none ∧ M.globals s = none) (fu : Nat) :
    ∀ (es : List RExp) (n : Nat) (vs : List Val), (∀ x ∈ rexpNamess es, rktName x = true) →
      (rexpSxs es).mapM (rkEval M n fu (fun _ => none)) = some vs → RExp.evals M.globals es = some vs
  | [], n, vs, _, h => by
    cases h
    rfl
  | e :: es, n, vs, hn, h => by
    simp only [rexpSxs, List.mapM_cons, Option.bind_eq_bind, Option.bind_eq_some_iff, Option.pure_def, Option.some.injEq] at h
    obtain ⟨v, hv, us, hus, rfl⟩ := h
    simp only [RExp.evals, rexp_back hM hf fu e n v (fun x hx => hn x (by simp [rexpNamess, hx])) hv,
      rexps_back hM hf fu es n us (fun x hx => hn x (by simp [rexpNamess, hx])) hus, Option.bind_eq_bind, Option.bind_some, Option.pure_def]
end

theorem decls_back {M : Module} (hM : M.imports = lib.exports) (hf : ∀ s ∈ dataHeads, M.find s = none) (σ : String → Val) (rest : List SExpr) (n : Nat)
    (E : REnv) : ∀ (ds : List RDecl) (env : REnv), AllNames ds → (∀ s ∈ dataHeads, env s = none ∧ s ∉ defNames ds) →
      (∀ s ∈ defNames ds, env s = none) → (defNames ds).Nodup → runForms M n σ env (ds.map rdeclSx ++ rest) = some E →
      ∃ env', runDecls σ env ds = some env' ∧ runForms M n σ env' rest = some E
  | [], env, _, _, _, _, h => ⟨env, rfl, h⟩
  | d :: ds, env, hn, he, hfr, hnd, h => by
    simp only [defNames, List.map_cons, List.nodup_cons] at hnd
    have key : ∀ v, d.value σ env = some v → runForms M n σ (extend env d.name v) (ds.map rdeclSx ++ rest) = some E →
        ∃ env', runDecls σ env (d :: ds) = some env' ∧ runForms M n σ env' rest = some E := by
      intro v hv h
      obtain ⟨env', h1, h2⟩ := decls_back hM hf σ rest n E ds (extend env d.name v) (fun d hd => hn d (by simp [hd])) (fun s hs => by
        have h1 := he s hs
        simp only [defNames, List.map_cons, List.mem_cons, not_or] at h1
        exact ⟨by simp [extend, h1.2.1, h1.1], h1.2.2⟩) (fun s hs => by
        have : s ≠ d.name := by rintro rfl; exact hnd.1 hs
        simp [extend, this]
        exact hfr s (by simp only [defNames, List.map_cons, List.mem_cons]; exact .inr hs)) hnd.2 h
      refine ⟨env', ?_, h2⟩
      rw [runDecls, hfr d.name (by simp [defNames]), hv]
      exact h1
    cases d with
    | symInt x =>
      simp only [List.map_cons, rdeclSx, List.cons_append, runForms] at h
      split at h
      · next i hi => exact key _ (by simp [RDecl.value, hi]) h
      · cases h
    | symBool x =>
      simp only [List.map_cons, rdeclSx, List.cons_append, runForms] at h
      split at h
      · next i hi => exact key _ (by simp [RDecl.value, hi]) h
      · cases h
    | define x e =>
      simp only [List.map_cons, rdeclSx, List.cons_append, runForms] at h
      obtain ⟨v, hv, h⟩ := Option.bind_eq_some_iff.1 h
      exact key v (rexp_back (M := { M with globals := env }) hM (fun s hs => ⟨hf s hs, (he s hs).1⟩) 64 e n v
        (fun y hy => hn (.define x e) (by simp) y (by simp [rdeclNames, hy])) hv) h

/-! ### The module -/

/-- The definition of a function in the file. -/
def fnDef (d : FnDecl) (x : SExpr) : RDef := ⟨d.name, d.params.map Prod.fst, none, x, d.recursive⟩

theorem readParams_names {ps : List String} (h : ∀ p ∈ ps, rktName p = true) : readParams (ps.map .atom) = some (ps, none) := by
  induction ps with
  | nil => rfl
  | cons p ps ih =>
    have hp := (rktName_ne (h p (by simp))).2.2.2.2
    have ih := ih (fun q hq => h q (by simp [hq]))
    rw [List.map_cons]
    unfold readParams
    split
    · next e => simp at e
    · next e => simp at e; exact absurd e.1 hp
    · next e =>
      simp only [List.cons.injEq, SExpr.atom.injEq] at e
      obtain ⟨rfl, rfl⟩ := e
      rw [ih]
      rfl
    · next e1 e2 e3 => exact absurd rfl (e3 p _)

theorem readDef_fn {sig : Sigs} {d : FnDecl} {x : SExpr} (h : fnOk sig d = true) (hx : fnForm d = some x) :
    ∃ b y, d.body = some b ∧ rktSx b = some y ∧ readDef x = some (fnDef d y) ∧ defined x = some d.name ∧
      ∀ M n σ env fs, runForms M n σ env (x :: fs) = runForms M n σ env fs := by
  simp only [fnForm, Option.bind_eq_bind, Option.bind_eq_some_iff, Option.some.injEq] at hx
  obtain ⟨b, hb, y, hy, rfl⟩ := hx
  have hp : readParams (d.params.map fun p => SExpr.atom p.1) = some (d.params.map Prod.fst, none) := by
    simp only [fnOk, hb, Bool.and_eq_true, List.all_eq_true] at h
    have := readParams_names (ps := d.params.map Prod.fst) (by
      intro p hp
      obtain ⟨q, hq, rfl⟩ := List.mem_map.1 hp
      exact h.1.2 q hq)
    rwa [List.map_map] at this
  have hr : readDef (.list [.atom (if d.recursive then "define-bounded" else "define"), .list (.atom d.name :: d.params.map (fun p => .atom p.1)), y]) =
      some (fnDef d y) := by
    simp only [readDef]
    cases hd : d.recursive <;> simp [hp, fnDef, hd]
  refine ⟨b, y, hb, hy, hr, ?_, ?_⟩
  · unfold defined
    split
    · next e => simp at e
    · next e => simp at e
    · rw [hr]; rfl
  · intro M n σ env fs
    cases d.recursive <;> simp [runForms]

/-- The definitions of the functions, when they are read back. -/
theorem readDefs_fns {sig : Sigs} : ∀ {ds : List FnDecl} {xs : List SExpr}, (∀ d ∈ ds, fnOk sig d = true) → ds.mapM fnForm = some xs →
    ∃ ys : List RDef, xs.filterMap readDef = ys ∧ ys.map RDef.name = ds.map FnDecl.name ∧ xs.filterMap defined = ds.map FnDecl.name ∧
      (∀ d ∈ ds, ∃ b y, d.body = some b ∧ rktSx b = some y ∧ fnDef d y ∈ ys) ∧
      ∀ M n σ env fs, runForms M n σ env (xs ++ fs) = runForms M n σ env fs
  | [], xs, _, h => by
    cases h
    exact ⟨[], rfl, rfl, rfl, by simp, fun _ _ _ _ _ => rfl⟩
  | d :: ds, xs, hd, h => by
    simp only [List.mapM_cons, Option.bind_eq_bind, Option.bind_eq_some_iff, Option.pure_def, Option.some.injEq] at h
    obtain ⟨x, hx, xs', hxs, rfl⟩ := h
    obtain ⟨b, y, hb, hy, hr, hn, hrun⟩ := readDef_fn (hd d (by simp)) hx
    obtain ⟨ys, e1, e2, e3, e4, e5⟩ := readDefs_fns (fun d h => hd d (by simp [h])) hxs
    refine ⟨fnDef d y :: ys, ?_, ?_, ?_, ?_, ?_⟩
    · simp [hr, e1]
    · simp [e2, fnDef]
    · simp [hn, e3]
    · intro d' hd'
      rcases List.mem_cons.1 hd' with rfl | hd'
      · exact ⟨b, y, hb, hy, by simp⟩
      · obtain ⟨b, y, h1, h2, h3⟩ := e4 d' hd'
        exact ⟨b, y, h1, h2, by simp [h3]⟩
    · intro M n σ env fs
      rw [List.cons_append, hrun, e5]

theorem decls_forms (ds : List RDecl) : (ds.map rdeclSx).filterMap readDef = [] ∧ (ds.map rdeclSx).filterMap defined = defNames ds := by
  induction ds with
  | nil => exact ⟨rfl, rfl⟩
  | cons d ds ih =>
    have h1 : readDef (rdeclSx d) = none := by cases d <;> rfl
    have h2 : defined (rdeclSx d) = some d.name := by cases d <;> simp [rdeclSx, defined, RDecl.name]
    simp only [List.map_cons, List.filterMap_cons, h1, h2, ih.1, ih.2, defNames, true_and]

theorem header_forms : headerForms.filterMap readDef = [] ∧ headerForms.filterMap defined = [] ∧
    ∀ M n σ env fs, runForms M n σ env (headerForms ++ fs) = runForms M n σ env fs := by
  refine ⟨by decide +kernel, by decide +kernel, fun M n σ env fs => ?_⟩
  simp [headerForms, runForms]

/-- The definition of the assertion. -/
def assertDef (v : SExpr) : RDef := ⟨"assertions", [], none, .list [.atom "assert", v], false⟩

theorem end_forms (u : Bool) (v : SExpr) : (endForms u v).filterMap readDef = [assertDef v] ∧ (endForms u v).filterMap defined = ["assertions"] ∧
    ∀ M n σ env, runForms M n σ env (endForms u v) = some env := by
  refine ⟨?_, ?_, fun M n σ env => ?_⟩
  · cases u <;> rfl
  · cases u <;> rfl
  · simp [endForms, runForms]

theorem find_mem {ds : List RDef} (hn : (ds.map RDef.name).Nodup) {d : RDef} (h : d ∈ ds) : ds.find? (fun e => e.name == d.name) = some d := by
  induction ds with
  | nil => cases h
  | cons e ds ih =>
    simp only [List.map_cons, List.nodup_cons] at hn
    rw [List.find?_cons]
    rcases List.mem_cons.1 h with rfl | h
    · simp
    · have : (e.name == d.name) = false := by
        rw [beq_eq_false_iff_ne]
        intro he
        exact hn.1 (he ▸ List.mem_map_of_mem h)
      rw [this]
      exact ih hn.2 h

theorem find_none {ds : List RDef} {s : String} (h : s ∉ ds.map RDef.name) : ds.find? (fun e => e.name == s) = none := by
  rw [List.find?_eq_none]
  intro d hd e
  exact h (by rw [beq_iff_eq] at e; exact e ▸ List.mem_map_of_mem hd)

end Rkt
end Metalift
