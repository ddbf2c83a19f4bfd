import Verif.TenSelAxioms
import Verif.PTenAxioms
import Verif.PSmtQuery
/-
C32 for the two axioms about selections.
-/
namespace Metalift.Ten.Ax
open Metalift Metalift.Ten

/-- The body of the copy of a selection on vectors. -/
def vecCopyBody (name g : String) (extra : List Obj) : Option Obj := do
  let cur := call g .int ([← first Ten.x, ← first Ten.y] ++ extra)
  let recursed := call name (.list .int) ([← rest Ten.x, ← rest Ten.y] ++ extra)
  let general ← recursed.prepend cur
  pure (ite' (← mismatch Ten.x Ten.y) (listEmpty .int) general)

/-- The body of the copy of a selection on matrices. -/
def matCopyBody (name vec : String) (extra : List Obj) : Option Obj := do
  let cur := call vec (.list .int) ([← first matrixX, ← first matrixY] ++ extra)
  let recursed := call name (.matrix .int) ([← rest matrixX, ← rest matrixY] ++ extra)
  let general ← recursed.prepend cur
  pure (ite' (← mismatch matrixX matrixY) (matrixEmpty .int) general)

theorem sel_ne (g : String) : ¬ ("matrix_selection_two_args" = "selection_two_args" ++ "_" ++ g) := by
  intro h
  have := congrArg (fun s => s.toList.take 1) h
  simp [String.toList_append] at this

theorem dis_ne (g : String) : ¬ ("dissolve_matrix_selection_two_args" = "dissolve_selection_two_args" ++ "_" ++ g) := by
  intro h
  have := congrArg (fun s => s.toList.take 10) h
  simp [String.toList_append] at this

/-- The copy of the selection on matrices, when the copy `n` of the selection on vectors has another name. -/
theorem sel_caller (n : String) (hn : ¬ ("matrix_selection_two_args" = n)) : ∃ b, matCopyBody ("matrix_selection_two_args" ++ "_" ++ n) n [] = some b ∧
    (matrixSelectionFn.bind fun m => specialiseCaller m n "selection_two_args") = some
      ⟨"matrix_selection_two_args" ++ "_" ++ n, .list (.list .int), [("matrix_x", .list (.list .int)), ("matrix_y", .list (.list .int))],
       some b.src, true⟩ := by
  have h : ∀ k, (if "matrix_selection_two_args" = n then "matrix_selection_two_args" ++ "_" ++ n else n) = k →
      ∃ b, matCopyBody ("matrix_selection_two_args" ++ "_" ++ n) k [] = some b ∧
      (matrixSelectionFn.bind fun m => specialiseCaller m n "selection_two_args") = some
        ⟨"matrix_selection_two_args" ++ "_" ++ n, .list (.list .int), [("matrix_x", .list (.list .int)), ("matrix_y", .list (.list .int))],
         some b.src, true⟩ := by
    rintro _ rfl
    exact ⟨_, rfl, rfl⟩
  exact h n (if_neg hn)

theorem copies_sel (g : String) : ∃ b1 b2, vecCopyBody ("selection_two_args" ++ "_" ++ g) g [] = some b1 ∧
    matCopyBody ("matrix_selection_two_args" ++ "_" ++ ("selection_two_args" ++ "_" ++ g)) ("selection_two_args" ++ "_" ++ g) [] = some b2 ∧
    copies selectionFn matrixSelectionFn g = some
      (⟨"selection_two_args" ++ "_" ++ g, .list .int, [("x", .list .int), ("y", .list .int)], some b1.src, true⟩,
       ⟨"matrix_selection_two_args" ++ "_" ++ ("selection_two_args" ++ "_" ++ g), .list (.list .int),
        [("matrix_x", .list (.list .int)), ("matrix_y", .list (.list .int))], some b2.src, true⟩) := by
  obtain ⟨b2, h2, h3⟩ := sel_caller _ (sel_ne g)
  refine ⟨_, b2, rfl, h2, ?_⟩
  have h1 : ∃ t, selectionFn = some t ∧ t.name = "selection_two_args" ∧ specialise t g = some
      ⟨"selection_two_args" ++ "_" ++ g, .list .int, [("x", .list .int), ("y", .list .int)], some (Option.get (vecCopyBody ("selection_two_args" ++ "_" ++ g) g []) rfl).src, true⟩ :=
    ⟨_, rfl, rfl, rfl⟩
  obtain ⟨t, h1, hn, h4⟩ := h1
  obtain ⟨m, h5, h6⟩ := Option.bind_eq_some_iff.1 h3
  simp only [copies, h1, h5, h4, hn, h6, Option.bind_eq_bind, Option.bind_some]
  rfl

/-- The copy of the dissolving selection on matrices. -/
theorem dis_caller (n : String) (hn : ¬ ("dissolve_matrix_selection_two_args" = n)) :
    ∃ b, matCopyBody ("dissolve_matrix_selection_two_args" ++ "_" ++ n) n [Ten.opacity, Ten.randCons] = some b ∧
    (dissolveMatrixSelectionFn.bind fun m => specialiseCaller m n "dissolve_selection_two_args") = some
      ⟨"dissolve_matrix_selection_two_args" ++ "_" ++ n, .list (.list .int), [("matrix_x", .list (.list .int)), ("matrix_y", .list (.list .int)),
        ("opacity", .int), ("rand_cons", .int)], some b.src, true⟩ := by
  have h : ∀ k, (if "dissolve_matrix_selection_two_args" = n then "dissolve_matrix_selection_two_args" ++ "_" ++ n else n) = k →
      ∃ b, matCopyBody ("dissolve_matrix_selection_two_args" ++ "_" ++ n) k [Ten.opacity, Ten.randCons] = some b ∧
      (dissolveMatrixSelectionFn.bind fun m => specialiseCaller m n "dissolve_selection_two_args") = some
        ⟨"dissolve_matrix_selection_two_args" ++ "_" ++ n, .list (.list .int), [("matrix_x", .list (.list .int)), ("matrix_y", .list (.list .int)),
          ("opacity", .int), ("rand_cons", .int)], some b.src, true⟩ := by
    rintro _ rfl
    exact ⟨_, rfl, rfl⟩
  exact h n (if_neg hn)

theorem copies_dis (g : String) : ∃ b1 b2, vecCopyBody ("dissolve_selection_two_args" ++ "_" ++ g) g [Ten.opacity, Ten.randCons] = some b1 ∧
    matCopyBody ("dissolve_matrix_selection_two_args" ++ "_" ++ ("dissolve_selection_two_args" ++ "_" ++ g))
      ("dissolve_selection_two_args" ++ "_" ++ g) [Ten.opacity, Ten.randCons] = some b2 ∧
    copies dissolveSelectionFn dissolveMatrixSelectionFn g = some
      (⟨"dissolve_selection_two_args" ++ "_" ++ g, .list .int, [("x", .list .int), ("y", .list .int), ("opacity", .int), ("rand_cons", .int)],
        some b1.src, true⟩,
       ⟨"dissolve_matrix_selection_two_args" ++ "_" ++ ("dissolve_selection_two_args" ++ "_" ++ g), .list (.list .int),
        [("matrix_x", .list (.list .int)), ("matrix_y", .list (.list .int)), ("opacity", .int), ("rand_cons", .int)], some b2.src, true⟩) := by
  obtain ⟨b2, h2, h3⟩ := dis_caller _ (dis_ne g)
  refine ⟨_, b2, rfl, h2, ?_⟩
  have h1 : ∃ t, dissolveSelectionFn = some t ∧ t.name = "dissolve_selection_two_args" ∧ specialise t g = some
      ⟨"dissolve_selection_two_args" ++ "_" ++ g, .list .int, [("x", .list .int), ("y", .list .int), ("opacity", .int), ("rand_cons", .int)],
       some (Option.get (vecCopyBody ("dissolve_selection_two_args" ++ "_" ++ g) g [Ten.opacity, Ten.randCons]) rfl).src, true⟩ :=
    ⟨_, rfl, rfl, rfl⟩
  obtain ⟨t, h1, hn, h4⟩ := h1
  obtain ⟨m, h5, h6⟩ := Option.bind_eq_some_iff.1 h3
  simp only [copies, h1, h5, h4, hn, h6, Option.bind_eq_bind, Option.bind_some]
  rfl

/-- What the copy of a selection on vectors computes; `es` are the values of the arguments after the two vectors. -/
theorem vecCopy_spec {I : Interp} (P : ListPrims I) {name g : String} {extra : List Obj} {es : List Val} {b : Obj}
    (hb : vecCopyBody name g extra = some b)
    (H : ∀ xs ys, ∃ ρ : Env, ρ "x" = vecV xs ∧ ρ "y" = vecV ys ∧ extra.map (fun o => eval I ρ o.src) = es ∧
      I.fn name ([vecV xs, vecV ys] ++ es) = eval I ρ b.src) (xs ys : List Int) :
    I.fn name ([vecV xs, vecV ys] ++ es) = .list (zipIf (fun a b => I.fn g ([.int a, .int b] ++ es)) xs ys) := by
  have stop : ∀ xs ys, (xs = [] ∨ xs.length ≠ ys.length) → I.fn name ([vecV xs, vecV ys] ++ es) = .list [] := by
    intro xs ys h
    obtain ⟨ρ, hx, hy, he, hfn⟩ := H xs ys
    rw [hfn]
    refine zipBody_stop P (us := xs.map .int) (vs := ys.map .int) (mk := fun o o' => call g .int ([o, o'] ++ extra))
      (rec := fun o o' => call name (.list .int) ([o, o'] ++ extra)) hb rfl hx hy (eval_listEmpty P _) ?_
    simpa using h
  induction xs generalizing ys with
  | nil =>
    rw [stop [] ys (.inl rfl)]
    cases ys <;> rfl
  | cons x0 xs ih =>
    by_cases hlen : (x0 :: xs).length = ys.length
    · cases ys with
      | nil => cases hlen
      | cons y0 ys =>
        have hlen : xs.length = ys.length := by simpa using hlen
        obtain ⟨ρ, hx, hy, he, hfn⟩ := H (x0 :: xs) (y0 :: ys)
        rw [hfn, zipIf_cons _ x0 y0 hlen]
        refine zipBody_step P (u := .int x0) (v := .int y0) (us := xs.map .int) (vs := ys.map .int)
          (mk := fun o o' => call g .int ([o, o'] ++ extra))
          (rec := fun o o' => call name (.list .int) ([o, o'] ++ extra)) hb rfl hx hy (eval_listEmpty P _) rfl rfl
          (by simpa using hlen) (fun _ _ => rfl) (fun _ _ => rfl) ?_ ?_ trivial
        · intro o o' h1 h2
          rw [eval_call]
          simp only [List.map_cons, List.map_append, List.map_nil, h1, h2, he]
        · intro o o' h1 h2
          rw [eval_call]
          simp only [List.map_cons, List.map_append, List.map_nil, h1, h2, he]
          exact ih ys
    · rw [stop _ ys (.inr hlen), zipIf, if_neg hlen]

/-- What the copy of a selection on matrices computes. -/
theorem matCopy_spec {I : Interp} (P : ListPrims I) {name vec : String} {extra : List Obj} {es : List Val} {b : Obj} {k : Int → Int → Val}
    (hv : ∀ xs ys, I.fn vec ([vecV xs, vecV ys] ++ es) = .list (zipIf k xs ys))
    (hb : matCopyBody name vec extra = some b)
    (H : ∀ ms ns, ∃ ρ : Env, ρ "matrix_x" = matV ms ∧ ρ "matrix_y" = matV ns ∧ extra.map (fun o => eval I ρ o.src) = es ∧
      I.fn name ([matV ms, matV ns] ++ es) = eval I ρ b.src) (ms ns : List (List Int)) (hs : SameShape ms ns) :
    I.fn name ([matV ms, matV ns] ++ es) = .list (List.zipWith (fun r s => Val.list (List.zipWith k r s)) ms ns) := by
  induction hs with
  | nil =>
    obtain ⟨ρ, hx, hy, he, hfn⟩ := H [] []
    rw [hfn]
    exact zipBody_stop P (us := []) (vs := []) (mk := fun o o' => call vec (.list .int) ([o, o'] ++ extra))
      (rec := fun o o' => call name (.matrix .int) ([o, o'] ++ extra)) hb rfl hx hy (eval_matrixEmpty P _) (.inl rfl)
  | @cons r s ms ns hrs htl ih =>
    obtain ⟨ρ, hx, hy, he, hfn⟩ := H (r :: ms) (s :: ns)
    rw [hfn]
    refine zipBody_step P (u := vecV r) (v := vecV s) (us := ms.map vecV) (vs := ns.map vecV)
      (w := .list (List.zipWith k r s))
      (mk := fun o o' => call vec (.list .int) ([o, o'] ++ extra))
      (rec := fun o o' => call name (.matrix .int) ([o, o'] ++ extra)) hb rfl hx hy (eval_matrixEmpty P _) rfl rfl
      (by simpa using SameShape.length htl) (fun _ _ => rfl) (fun _ _ => rfl) ?_ ?_ (zipWith_ne' hrs)
    · intro o o' h1 h2
      rw [eval_call]
      simp only [List.map_cons, List.map_append, List.map_nil, h1, h2, he]
      rw [hv, zipIf_eq _ hrs.2]
    · intro o o' h1 h2
      rw [eval_call]
      simp only [List.map_cons, List.map_append, List.map_nil, h1, h2, he]
      exact ih

/-- The axiom in terms of the copies, for positive indices. -/
theorem selAxiom_holds {I : Interp} (P : ListPrims I) {ρ : Env} {f v : String} {extra : List Obj} {es : List Val} {o : Obj} {k : Int → Int → Val}
    (ho : selAxiom f v extra = some o) (he : extra.map (fun o => eval I ρ o.src) = es)
    (hv : ∀ xs ys, I.fn v ([vecV xs, vecV ys] ++ es) = .list (zipIf k xs ys))
    (hf : ∀ ms ns, SameShape ms ns → I.fn f ([matV ms, matV ns] ++ es) =
      .list (List.zipWith (fun r s => Val.list (List.zipWith k r s)) ms ns))
    {ms ns : List (List Int)} {n : Int} (hx : ρ "x" = matV ms) (hy : ρ "y" = matV ns) (hn : ρ "index" = .int n) (hpos : 0 < n)
    (hs : SameShape ms ns) : holds I ρ o.src := by
  have hi : eval I ρ index.src = .int n := hn
  have hp : zipPre x y = some (zipPreObj x y) := rfl
  simp only [selAxiom, Option.bind_eq_bind, Option.bind_eq_some_iff] at ho
  obtain ⟨o1, h1, o2, h2, o3, h3, o4, h4, o5, h5, o6, h6, o7, h7, o8, h8, ho⟩ := ho
  cases hp.symm.trans h8
  have ho : impliesObj (zipPreObj x y) ((call f (.matrix .int) ([o1, o2] ++ extra)).listEq o7) = o := by injection ho
  subst ho
  rw [holds_implies, zipPre_iff P hn (l := x) (r := y) (us := ms.map vecV) (vs := ns.map vecV) hx hy]
  rintro ⟨-, hlt, hlen⟩
  cases hs with
  | nil => simp only [List.map_nil, List.length_nil] at hlt; omega
  | @cons r s ms ns hrs htl =>
    have hle : n ≤ (((r :: ms).map vecV).length : Int) := by omega
    have hle' : n ≤ (((s :: ns).map vecV).length : Int) := by omega
    have hx' : eval I ρ x.src = .list (vecV r :: ms.map vecV) := hx
    have hy' : eval I ρ y.src = .list (vecV s :: ns.map vecV) := hy
    obtain ⟨_, a1, -, e1⟩ := eval_take P hx' hi (by omega) hle
    obtain ⟨_, a2, -, e2⟩ := eval_take P hy' hi (by omega) hle'
    obtain ⟨_, a3, -, e3⟩ := eval_slice P hx' (eval_int I ρ 1) hi (by omega) (by omega) hle
    obtain ⟨_, a4, -, e4⟩ := eval_slice P hy' (eval_int I ρ 1) hi (by omega) (by omega) hle'
    obtain ⟨_, a5, -, e5⟩ := (first_rest P (t := .list .int) rfl hx').1
    obtain ⟨_, a6, -, e6⟩ := (first_rest P (t := .list .int) rfl hy').1
    cases h1.symm.trans a1
    cases h2.symm.trans a2
    cases h3.symm.trans a3
    cases h4.symm.trans a4
    cases h5.symm.trans a5
    cases h6.symm.trans a6
    have hn1 : n.toNat = (n.toNat - 1) + 1 := by omega
    rw [hn1, List.take_succ_cons] at e1 e2
    have e3' : eval I ρ o3.src = matV (ms.take (n.toNat - 1)) := by
      rw [e3, hn1, List.take_succ_cons, matV, List.map_take]; rfl
    have e4' : eval I ρ o4.src = matV (ns.take (n.toNat - 1)) := by
      rw [e4, hn1, List.take_succ_cons, matV, List.map_take]; rfl
    have e1' : eval I ρ o1.src = matV (r :: ms.take (n.toNat - 1)) := by
      rw [e1, matV, List.map_cons, List.map_take]
    have e2' : eval I ρ o2.src = matV (s :: ns.take (n.toNat - 1)) := by
      rw [e2, matV, List.map_cons, List.map_take]
    have ht := SameShape.take htl (n.toNat - 1)
    have er : eval I ρ (call f (.matrix .int) ([o3, o4] ++ extra)).src =
        .list (List.zipWith (fun r s => Val.list (List.zipWith k r s)) (ms.take (n.toNat - 1)) (ns.take (n.toNat - 1))) := by
      rw [eval_call]
      simp only [List.map_cons, List.map_append, List.map_nil, e3', e4', he]
      exact hf _ _ ht
    have ew : eval I ρ (call v (.list .int) ([o5, o6] ++ extra)).src = .list (List.zipWith k r s) := by
      rw [eval_call]
      simp only [List.map_cons, List.map_append, List.map_nil, e5, e6, he]
      rw [hv, zipIf_eq _ hrs.2]
    obtain ⟨_, a7, t7, e7⟩ := eval_prepend P (l := call f (.matrix .int) ([o3, o4] ++ extra))
      (e := call v (.list .int) ([o5, o6] ++ extra)) rfl er ew (zipWith_ne' hrs)
    cases h7.symm.trans a7
    refine (eval_listEq P (l := call f (.matrix .int) ([o1, o2] ++ extra)) t7.symm ?_ e7).mpr rfl
    rw [eval_call]
    simp only [List.map_cons, List.map_append, List.map_nil, e1', e2', he]
    exact hf _ _ (.cons hrs ht)

theorem asserted_sel (c : FnDecl × FnDecl) (hn : ¬ ("matrix_selection_two_args" = c.1.name)) :
    ∃ o o', matSelAxiom = some o ∧ selAxiom c.2.name c.1.name [] = some o' ∧
      asserted "matrix_selection_two_args" "selection_two_args" c o.src = o'.src := by
  have h : ∀ k, (if c.1.name = "matrix_selection_two_args" then c.2.name else c.1.name) = k → ∃ o o', matSelAxiom = some o ∧
      selAxiom c.2.name k [] = some o' ∧ asserted "matrix_selection_two_args" "selection_two_args" c o.src = o'.src := by
    rintro _ rfl
    exact ⟨_, _, rfl, rfl, rfl⟩
  exact h _ (if_neg (fun h => hn h.symm))

theorem asserted_dis (c : FnDecl × FnDecl) (hn : ¬ ("dissolve_matrix_selection_two_args" = c.1.name)) :
    ∃ o o', dissolveMatSelAxiom = some o ∧ selAxiom c.2.name c.1.name [opacityVar, randVar] = some o' ∧
      asserted "dissolve_matrix_selection_two_args" "dissolve_selection_two_args" c o.src = o'.src := by
  have h : ∀ k, (if c.1.name = "dissolve_matrix_selection_two_args" then c.2.name else c.1.name) = k → ∃ o o', dissolveMatSelAxiom = some o ∧
      selAxiom c.2.name k [opacityVar, randVar] = some o' ∧ asserted "dissolve_matrix_selection_two_args" "dissolve_selection_two_args" c o.src = o'.src := by
    rintro _ rfl
    exact ⟨_, _, rfl, rfl, rfl⟩
  exact h _ (if_neg (fun h => hn h.symm))

theorem ofTy_vec (xs : List Int) : Smt.OfTy (.list .int) (vecV xs) :=
  ⟨_, rfl, fun w hw => by obtain ⟨i, -, rfl⟩ := List.mem_map.1 hw; exact ⟨i, rfl⟩⟩

theorem ofTy_mat (ms : List (List Int)) : Smt.OfTy (.list (.list .int)) (matV ms) :=
  ⟨_, rfl, fun w hw => by obtain ⟨i, -, rfl⟩ := List.mem_map.1 hw; exact ofTy_vec i⟩

/-- What the copies compute, when their definitions hold. -/
theorem copies_sel_spec {I : Interp} (P : ListPrims I) (g : String) {c : FnDecl × FnDecl} (hc : copies selectionFn matrixSelectionFn g = some c)
    (h1 : Smt.FnHolds I c.1) (h2 : Smt.FnHolds I c.2) :
    c.1.name = "selection_two_args" ++ "_" ++ g ∧
    (∀ xs ys, I.fn c.1.name ([vecV xs, vecV ys] ++ []) = .list (zipIf (fun a b => I.fn g ([.int a, .int b] ++ [])) xs ys)) ∧
    (∀ ms ns, SameShape ms ns → I.fn c.2.name ([matV ms, matV ns] ++ []) =
      .list (List.zipWith (fun r s => Val.list (List.zipWith (fun a b => I.fn g ([.int a, .int b] ++ [])) r s)) ms ns)) ∧
    (∀ ms ns, ∃ ws, I.fn c.2.name ([matV ms, matV ns] ++ []) = .list ws) := by
  obtain ⟨b1, b2, e1, e2, e3⟩ := copies_sel g
  cases hc.symm.trans e3
  have hv := vecCopy_spec P (es := []) e1 (fun xs ys => ⟨Smt.paramEnv [("x", .list .int), ("y", .list .int)] [vecV xs, vecV ys], rfl, rfl, rfl,
    ((h1 [vecV xs, vecV ys] ⟨ofTy_vec xs, ofTy_vec ys, trivial⟩).2 _ rfl).symm⟩)
  exact ⟨rfl, hv, matCopy_spec P hv e2 (fun ms ns => ⟨Smt.paramEnv [("matrix_x", .list (.list .int)), ("matrix_y", .list (.list .int))]
    [matV ms, matV ns], rfl, rfl, rfl, ((h2 [matV ms, matV ns] ⟨ofTy_mat ms, ofTy_mat ns, trivial⟩).2 _ rfl).symm⟩), fun ms ns => by
    obtain ⟨ws, hws, -⟩ := (h2 [matV ms, matV ns] ⟨ofTy_mat ms, ofTy_mat ns, trivial⟩).1
    exact ⟨ws, hws⟩⟩

@[inherit_doc copies_sel_spec] theorem copies_dis_spec {I : Interp} (P : ListPrims I) (g : String) {c : FnDecl × FnDecl}
    (hc : copies dissolveSelectionFn dissolveMatrixSelectionFn g = some c) (h1 : Smt.FnHolds I c.1) (h2 : Smt.FnHolds I c.2) (p q : Int) :
    c.1.name = "dissolve_selection_two_args" ++ "_" ++ g ∧
    (∀ xs ys, I.fn c.1.name ([vecV xs, vecV ys] ++ [.int p, .int q]) =
      .list (zipIf (fun a b => I.fn g ([.int a, .int b] ++ [.int p, .int q])) xs ys)) ∧
    (∀ ms ns, SameShape ms ns → I.fn c.2.name ([matV ms, matV ns] ++ [.int p, .int q]) =
      .list (List.zipWith (fun r s => Val.list (List.zipWith (fun a b => I.fn g ([.int a, .int b] ++ [.int p, .int q])) r s)) ms ns)) ∧
    (∀ ms ns, ∃ ws, I.fn c.2.name ([matV ms, matV ns] ++ [.int p, .int q]) = .list ws) := by
  obtain ⟨b1, b2, e1, e2, e3⟩ := copies_dis g
  cases hc.symm.trans e3
  have hv := vecCopy_spec P (es := [.int p, .int q]) e1 (fun xs ys => ⟨Smt.paramEnv [("x", .list .int), ("y", .list .int), ("opacity", .int),
    ("rand_cons", .int)] [vecV xs, vecV ys, .int p, .int q], rfl, rfl, rfl,
    ((h1 [vecV xs, vecV ys, .int p, .int q] ⟨ofTy_vec xs, ofTy_vec ys, ⟨p, rfl⟩, ⟨q, rfl⟩, trivial⟩).2 _ rfl).symm⟩)
  exact ⟨rfl, hv, matCopy_spec P hv e2 (fun ms ns => ⟨Smt.paramEnv [("matrix_x", .list (.list .int)), ("matrix_y", .list (.list .int)),
    ("opacity", .int), ("rand_cons", .int)] [matV ms, matV ns, .int p, .int q], rfl, rfl, rfl,
    ((h2 [matV ms, matV ns, .int p, .int q] ⟨ofTy_mat ms, ofTy_mat ns, ⟨p, rfl⟩, ⟨q, rfl⟩, trivial⟩).2 _ rfl).symm⟩), fun ms ns => by
    obtain ⟨ws, hws, -⟩ := (h2 [matV ms, matV ns, .int p, .int q] ⟨ofTy_mat ms, ofTy_mat ns, ⟨p, rfl⟩, ⟨q, rfl⟩, trivial⟩).1
    exact ⟨ws, hws⟩⟩

/-! ### C32 -/

/-- C32 for the two axioms about selections.  For every function `g` passed to the selections, the copies of the selections and the
axioms can be built; and in every interpretation in which the definitions of the copies hold, the axioms, as they are asserted, hold for
matrices of the same shape without empty rows and positive indices.  Partial: for the index 0 they are false, see
`C32_selections_index_zero_refuted`. -/
theorem C32_selections_partial (g : String) :
    (∃ o c, matSelAxiom = some o ∧ copies selectionFn matrixSelectionFn g = some c ∧ ∀ (I : Interp), ListPrims I → Smt.FnHolds I c.1 →
      Smt.FnHolds I c.2 → ∀ (ρ : Env) (ms ns : List (List Int)) (n : Int), ρ "x" = matV ms → ρ "y" = matV ns → ρ "index" = .int n → 0 < n →
      SameShape ms ns → holds I ρ (asserted "matrix_selection_two_args" "selection_two_args" c o.src)) ∧
    (∃ o c, dissolveMatSelAxiom = some o ∧ copies dissolveSelectionFn dissolveMatrixSelectionFn g = some c ∧ ∀ (I : Interp), ListPrims I →
      Smt.FnHolds I c.1 → Smt.FnHolds I c.2 → ∀ (ρ : Env) (ms ns : List (List Int)) (n p q : Int), ρ "x" = matV ms → ρ "y" = matV ns →
      ρ "opacity" = .int p → ρ "rand" = .int q → ρ "index" = .int n → 0 < n → SameShape ms ns →
      holds I ρ (asserted "dissolve_matrix_selection_two_args" "dissolve_selection_two_args" c o.src)) := by
  constructor
  · obtain ⟨c, e3, hc⟩ : ∃ c, copies selectionFn matrixSelectionFn g = some c ∧ c.1.name = "selection_two_args" ++ "_" ++ g := by
      obtain ⟨b1, b2, e1, e2, e3⟩ := copies_sel g
      exact ⟨_, e3, rfl⟩
    obtain ⟨o, o', h1, h2, h3⟩ := asserted_sel c (by rw [hc]; exact sel_ne g)
    refine ⟨o, c, h1, e3, fun I P f1 f2 ρ ms ns n hx hy hn hpos hs => ?_⟩
    obtain ⟨-, hv, hm, -⟩ := copies_sel_spec P g e3 f1 f2
    rw [h3]
    exact selAxiom_holds P h2 rfl hv hm hx hy hn hpos hs
  · obtain ⟨c, e3, hc⟩ : ∃ c, copies dissolveSelectionFn dissolveMatrixSelectionFn g = some c ∧ c.1.name = "dissolve_selection_two_args" ++ "_" ++ g := by
      obtain ⟨b1, b2, e1, e2, e3⟩ := copies_dis g
      exact ⟨_, e3, rfl⟩
    obtain ⟨o, o', h1, h2, h3⟩ := asserted_dis c (by rw [hc]; exact dis_ne g)
    refine ⟨o, c, h1, e3, fun I P f1 f2 ρ ms ns n p q hx hy hp hq hn hpos hs => ?_⟩
    obtain ⟨-, hv, hm, -⟩ := copies_dis_spec P g e3 f1 f2 p q
    rw [h3]
    refine selAxiom_holds P h2 ?_ hv hm hx hy hn hpos hs
    show [ρ "opacity", ρ "rand"] = _
    rw [hp, hq]

/-- C32 is false for the two axioms about selections at the index 0, in every interpretation in which the definitions of the copies hold: the
left side is the empty matrix and the right side is not.  (The extra hypothesis holds in both backends: a slice out of range is still a
matrix.) -/
theorem C32_selections_index_zero_refuted (g : String) (I : Interp) (P : ListPrims I)
    (hs : ∀ (ms : List (List Int)) (p q : Int), ∃ ns, I.fn "matrix_row_slice" [matV ms, .int p, .int q] = matV ns) :
    (∀ o c, matSelAxiom = some o → copies selectionFn matrixSelectionFn g = some c → Smt.FnHolds I c.1 → Smt.FnHolds I c.2 →
      ∃ ρ : Env, ρ "x" = matV [[1]] ∧ ρ "y" = matV [[1]] ∧ ρ "index" = .int 0 ∧
        ¬ holds I ρ (asserted "matrix_selection_two_args" "selection_two_args" c o.src)) ∧
    (∀ o c, dissolveMatSelAxiom = some o → copies dissolveSelectionFn dissolveMatrixSelectionFn g = some c → Smt.FnHolds I c.1 →
      Smt.FnHolds I c.2 → ∃ ρ : Env, ρ "x" = matV [[1]] ∧ ρ "y" = matV [[1]] ∧ ρ "opacity" = .int 0 ∧ ρ "rand" = .int 0 ∧ ρ "index" = .int 0 ∧
        ¬ holds I ρ (asserted "dissolve_matrix_selection_two_args" "dissolve_selection_two_args" c o.src)) := by
  have key : ∀ (f v : String) (extra : List Obj) (es : List Val) (o : Obj) (k : Int → Int → Val) (ρ : Env), selAxiom f v extra = some o →
      extra.map (fun o => eval I ρ o.src) = es → (∀ xs ys, I.fn v ([vecV xs, vecV ys] ++ es) = .list (zipIf k xs ys)) →
      (∀ ms ns, SameShape ms ns → I.fn f ([matV ms, matV ns] ++ es) =
        .list (List.zipWith (fun r s => Val.list (List.zipWith k r s)) ms ns)) →
      (∀ ms ns, ∃ ws, I.fn f ([matV ms, matV ns] ++ es) = .list ws) → ρ "x" = matV [[1]] → ρ "y" = matV [[1]] → ρ "index" = .int 0 →
      ¬ holds I ρ o.src := by
    intro f v extra es o k ρ ho he hv hf hl hx hy hn
    have hi : eval I ρ index.src = .int 0 := hn
    have hp : zipPre x y = some (zipPreObj x y) := rfl
    simp only [selAxiom, Option.bind_eq_bind, Option.bind_eq_some_iff] at ho
    obtain ⟨o1, h1, o2, h2, o3, h3, o4, h4, o5, h5, o6, h6, o7, h7, o8, h8, ho⟩ := ho
    cases hp.symm.trans h8
    have ho : impliesObj (zipPreObj x y) ((call f (.matrix .int) ([o1, o2] ++ extra)).listEq o7) = o := by injection ho
    subst ho
    have hx' : eval I ρ x.src = .list [vecV [1]] := hx
    have hy' : eval I ρ y.src = .list [vecV [1]] := hy
    rw [holds_implies, zipPre_iff P hn (l := x) (r := y) hx' hy']
    intro h
    have h := h ⟨by omega, by simp, rfl⟩
    obtain ⟨_, a1, -, c1⟩ := eval_take P hx' hi (by omega) (by simp)
    obtain ⟨_, a2, -, c2⟩ := eval_take P hy' hi (by omega) (by simp)
    obtain ⟨_, a5, -, c5⟩ := (first_rest P (t := .list .int) rfl hx').1
    obtain ⟨_, a6, -, c6⟩ := (first_rest P (t := .list .int) rfl hy').1
    cases h1.symm.trans a1
    cases h2.symm.trans a2
    cases h5.symm.trans a5
    cases h6.symm.trans a6
    obtain ⟨us, hus⟩ := hs [[1]] 1 0
    have one : ∀ (l u : Obj), l.ty = .matrix .int → eval I ρ l.src = matV [[1]] → oneTo l = some u → eval I ρ u.src = matV us := by
      intro l u ht hl hu
      have : oneTo l = some (call "matrix_row_slice" (.matrix .int) [l, .int 1, index]) := by
        simp only [oneTo, Obj.getitem, ht]
        rfl
      cases this.symm.trans hu
      rw [eval_call]
      simp only [List.map_cons, List.map_nil, hl, hi, eval_int]
      exact hus
    have c3 := one x o3 rfl hx h3
    have c4 := one y o4 rfl hy h4
    obtain ⟨ws, hws⟩ := hl us us
    have er : eval I ρ (call f (.matrix .int) ([o3, o4] ++ extra)).src = .list ws := by
      rw [eval_call]
      simp only [List.map_cons, List.map_append, List.map_nil, c3, c4, he]
      exact hws
    have ew : eval I ρ (call v (.list .int) ([o5, o6] ++ extra)).src = .list [k 1 1] := by
      rw [eval_call]
      simp only [List.map_cons, List.map_append, List.map_nil, c5, c6, he]
      rw [hv]
      rfl
    obtain ⟨_, a7, t7, c7⟩ := eval_prepend P (l := call f (.matrix .int) ([o3, o4] ++ extra))
      (e := call v (.list .int) ([o5, o6] ++ extra)) rfl er ew (by show [k 1 1] ≠ []; simp)
    cases h7.symm.trans a7
    have := (eval_listEq P (l := call f (.matrix .int) ([o1, o2] ++ extra)) (u := .list []) t7.symm (by
      rw [eval_call]
      simp only [List.map_cons, List.map_append, List.map_nil, c1, c2, he]
      exact hf [] [] .nil) c7).mp h
    cases this
  constructor
  · intro o c ho hc f1 f2
    let ρ : Env := fun s => if s = "x" ∨ s = "y" then matV [[1]] else .int 0
    refine ⟨ρ, rfl, rfl, rfl, ?_⟩
    obtain ⟨hname, hv, hm, hlist⟩ := copies_sel_spec P g hc f1 f2
    obtain ⟨o', o'', h1, h2, h3⟩ := asserted_sel c (by rw [hname]; exact sel_ne g)
    cases ho.symm.trans h1
    rw [h3]
    exact key _ _ _ [] _ _ ρ h2 rfl hv hm hlist rfl rfl rfl
  · intro o c ho hc f1 f2
    let ρ : Env := fun s => if s = "x" ∨ s = "y" then matV [[1]] else .int 0
    refine ⟨ρ, rfl, rfl, rfl, rfl, rfl, ?_⟩
    obtain ⟨hname, hv, hm, hlist⟩ := copies_dis_spec P g hc f1 f2 0 0
    obtain ⟨o', o'', h1, h2, h3⟩ := asserted_dis c (by rw [hname]; exact dis_ne g)
    cases ho.symm.trans h1
    rw [h3]
    exact key _ _ _ [.int 0, .int 0] _ _ ρ h2 rfl hv hm hlist rfl rfl rfl

/-! ### The hypotheses are met -/

/-- An interpretation in which the copies for the function `"g"` hold; `"g"` takes the larger of its two first arguments. -/
def selI : Interp :=
  let J := stdInterp false (fun _ _ => .int 0) Int.fdiv
  let g : List Val → Val := fun vs => .int (max (vs.getD 0 (.int 0)).asInt (vs.getD 1 (.int 0)).asInt)
  { J with fn := fun f vs =>
      if f = "g" then g vs
      else if f = "selection_two_args" ++ "_" ++ "g" then onLists (fun us ws _ => .list (zipV List.cons (fun u w => g [u, w]) us ws)) vs
      else if f = "matrix_selection_two_args" ++ "_" ++ ("selection_two_args" ++ "_" ++ "g") then
        onLists (fun us ws _ => .list (zipV List.cons (fun a b => .list (zipV List.cons (fun u w => g [u, w]) a.asList b.asList)) us ws)) vs
      else J.fn f vs }

theorem selI_prims : ListPrims selI where
  list := by
    obtain ⟨h1, h2, h3, h4, h5, h6, h7, h8, h9⟩ := (std_prims false (fun _ _ => .int 0) Int.fdiv).list
    exact ⟨h1, h2, h3, h4, h5, h6, h7, h8, h9⟩
  matrix := by
    obtain ⟨h1, h2, h3, h4, h5, h6, h7, h8, h9⟩ := (std_prims false (fun _ _ => .int 0) Int.fdiv).matrix
    exact ⟨h1, h2, h3, h4, h5, h6, h7, h8, h9⟩
  tensor := by
    obtain ⟨h1, h2, h3, h4, h5, h6, h7, h8, h9⟩ := (std_prims false (fun _ _ => .int 0) Int.fdiv).tensor
    exact ⟨h1, h2, h3, h4, h5, h6, h7, h8, h9⟩
  concat := (std_prims false (fun _ _ => .int 0) Int.fdiv).concat
  eq := (std_prims false (fun _ _ => .int 0) Int.fdiv).eq

theorem zipV_mem {f : Val → Val → Val} : ∀ {us vs : List Val} {w : Val}, w ∈ zipV List.cons f us vs → ∃ u v, w = f u v
  | [], vs, w, h => by
    unfold zipV at h
    split at h <;> simp [zipRows] at h
  | u :: us, [], w, h => by simp [zipV] at h
  | u :: us, v :: vs, w, h => by
    unfold zipV at h
    split at h
    · rename_i hl
      rcases List.mem_cons.1 h with rfl | h
      · exact ⟨_, _, rfl⟩
      · exact zipV_mem (us := us) (vs := vs) (by rw [zipV, if_pos (by simpa using hl)]; exact h)
    · cases h

theorem vec_ofTy {v : Val} (h : Smt.OfTy (.list .int) v) : ∃ xs, v = vecV xs := by
  obtain ⟨vs, rfl, h⟩ := h
  refine ⟨vs.map Val.asInt, ?_⟩
  rw [vecV, List.map_map]
  congr 1
  conv => lhs; rw [← List.map_id vs]
  refine List.map_congr_left fun w hw => ?_
  obtain ⟨i, rfl⟩ := h w hw
  rfl

theorem mat_ofTy {v : Val} (h : Smt.OfTy (.list (.list .int)) v) : ∃ us, v = .list us ∧ ∀ u ∈ us, ∃ xs, u = vecV xs := by
  obtain ⟨vs, rfl, h⟩ := h
  exact ⟨vs, rfl, fun u hu => vec_ofTy (h u hu)⟩

theorem selI_copies (c : FnDecl × FnDecl) (hc : copies selectionFn matrixSelectionFn "g" = some c) :
    Smt.FnHolds selI c.1 ∧ Smt.FnHolds selI c.2 := by
  have P := selI_prims
  obtain ⟨b1, b2, e1, e2, e3⟩ := copies_sel "g"
  cases hc.symm.trans e3
  constructor
  · intro vs hvs
    match vs, hvs with
    | [v1, v2], ⟨h1, h2, _⟩ =>
      obtain ⟨xs, rfl⟩ := vec_ofTy h1
      obtain ⟨ys, rfl⟩ := vec_ofTy h2
      refine ⟨⟨_, rfl, fun w hw => ?_⟩, ?_⟩
      · obtain ⟨u, v, rfl⟩ := zipV_mem hw
        exact ⟨_, rfl⟩
      · rintro b hb
        cases hb
        refine zipBody_eval P (pre := List.cons) (us := xs.map .int) (vs := ys.map .int) (mk := fun o o' => call "g" .int ([o, o'] ++ []))
          (rec := fun o o' => call ("selection_two_args" ++ "_" ++ "g") (.list .int) ([o, o'] ++ [])) e1 rfl rfl rfl (eval_listEmpty P _) rfl rfl
          (fun _ _ => rfl) (fun _ _ => rfl) (fun w ws => by cases w <;> rfl) ?_ ?_
        · intro o o' u v _ _ a1 a2
          rw [eval_call]
          simp only [List.map_cons, List.map_append, List.map_nil, a1, a2]
          rfl
        · intro o o' us' vs' a1 a2
          rw [eval_call]
          simp only [List.map_cons, List.map_append, List.map_nil, a1, a2]
          rfl
  · intro vs hvs
    match vs, hvs with
    | [v1, v2], ⟨h1, h2, _⟩ =>
      obtain ⟨us, rfl, hus⟩ := mat_ofTy h1
      obtain ⟨ws, rfl, hws⟩ := mat_ofTy h2
      refine ⟨⟨_, rfl, fun w hw => ?_⟩, ?_⟩
      · obtain ⟨u, v, rfl⟩ := zipV_mem hw
        refine ⟨_, rfl, fun w hw => ?_⟩
        obtain ⟨u, v, rfl⟩ := zipV_mem hw
        exact ⟨_, rfl⟩
      · rintro b hb
        cases hb
        refine zipBody_eval P (pre := List.cons) (us := us) (vs := ws)
          (mk := fun o o' => call ("selection_two_args" ++ "_" ++ "g") (.list .int) ([o, o'] ++ []))
          (rec := fun o o' => call ("matrix_selection_two_args" ++ "_" ++ ("selection_two_args" ++ "_" ++ "g")) (.matrix .int) ([o, o'] ++ []))
          e2 rfl rfl rfl (eval_matrixEmpty P _) rfl rfl (fun _ _ => rfl) (fun _ _ => rfl) (fun w ws => ?_) ?_ ?_
        · show Val.list (prep false w ws) = _
          rw [prep, if_neg (by simp)]
        · intro o o' u v hu hv a1 a2
          obtain ⟨xs, rfl⟩ := hus u hu
          obtain ⟨ys, rfl⟩ := hws v hv
          rw [eval_call]
          simp only [List.map_cons, List.map_append, List.map_nil, a1, a2]
          rfl
        · intro o o' us' vs' a1 a2
          rw [eval_call]
          simp only [List.map_cons, List.map_append, List.map_nil, a1, a2]
          rfl

/-- The hypotheses of `C32_selections_partial` are met: a matrix with two rows and the index 1. -/
example : ∃ o c, matSelAxiom = some o ∧ copies selectionFn matrixSelectionFn "g" = some c ∧
    c.2.name = "matrix_selection_two_args_selection_two_args_g" ∧
    ∀ ρ : Env, ρ "x" = matV [[1, 5], [2, 0]] → ρ "y" = matV [[3, 4], [7, 7]] → ρ "index" = .int 1 →
      holds selI ρ (asserted "matrix_selection_two_args" "selection_two_args" c o.src) := by
  obtain ⟨o, c, h1, h2, h3⟩ := (C32_selections_partial "g").1
  obtain ⟨f1, f2⟩ := selI_copies c h2
  refine ⟨o, c, h1, h2, ?_, fun ρ hx hy hn => h3 selI selI_prims f1 f2 ρ _ _ 1 hx hy hn (by omega)
    (.cons ⟨by simp, rfl⟩ (.cons ⟨by simp, rfl⟩ .nil))⟩
  obtain ⟨b1, b2, -, -, e3⟩ := copies_sel "g"
  cases h2.symm.trans e3
  rfl

end Metalift.Ten.Ax
