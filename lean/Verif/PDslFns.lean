import Verif.DslFns
import Verif.PSmtDetermine
import Verif.PSmtAccept
import Verif.PGrammar
/-
C60: the functions of the target language that are left out of a verification query are defined by the files, as declared.
-/
namespace Metalift.Ten
open Metalift Smt

/-- Nothing was lost while building the declarations. -/
theorem libraryFns_length : libraryFns.length = 8 := by decide +kernel

/-- The command of the files that corresponds to a declaration. -/
def libraryCmds : List SExpr :=
  [c_integer_exp, c_integer_sqrt_helper, c_integer_sqrt, c_vec_slice, c_matrix_row_slice, c_matrix_col_slice, c_firsts, c_rests]

theorem library_sx : libraryFns.map sxDecl = libraryCmds := by decide +kernel

theorem library_ok : ∀ d ∈ libraryFns, declOk { d with recursive := true } = true ∧ d.params ≠ [] ∧
    ∀ b ∈ d.body, ∀ c ∈ calls b, c.2 = 0 → c.1 = "list_empty" ∨ c.1 = "matrix_empty" := by decide +kernel

theorem sat_recursive (M : Smt.Model) (d : FnDecl) : M.Sat1 (sxDecl { d with recursive := true }) ↔ M.Sat1 (sxDecl d) := by
  obtain ⟨n, r, ps, b, rc⟩ := d
  cases b with
  | none => exact Iff.rfl
  | some b => cases rc <;> simp [sxDecl, Model.Sat1]

theorem library_holds {C : List String} {I : Interp} {M : Smt.Model} (hA : Agree C I M) (h1 : "list_empty" ∉ C) (h2 : "matrix_empty" ∉ C)
    (hM : M.Sat coreCmds) : ∀ d ∈ libraryFns, FnHolds I d := by
  intro d hd
  obtain ⟨hok, hps, hcalls⟩ := library_ok d hd
  have hc : sxDecl d ∈ libraryCmds := by rw [← library_sx]; exact List.mem_map_of_mem hd
  have hcore : sxDecl d ∈ coreCmds := by
    have : ∀ c ∈ libraryCmds, c ∈ coreCmds := by decide +kernel
    exact this _ hc
  have hsat := (sat_recursive M d).2 (hM _ hcore)
  refine (sat_decl hA hok ?_ (fun h => absurd h hps)).1 hsat
  intro b hb
  simp only [noConstCall, List.all_eq_true, Bool.or_eq_true, bne_iff_ne, decide_eq_true_eq]
  intro c hcb
  by_cases h0 : c.2 = 0
  · right
    rcases hcalls b hb c hcb h0 with h | h <;> rw [h]
    · exact h1
    · exact h2
  · exact .inl h0

/-! ### C60 -/

/-- **C60 (the definitions in the files).**  In every structure that satisfies the files of definitions (without the definition of
the transposition), the integer functions, the slices, `firsts` and `rests` are what their declarations in the tensor language
say. -/
theorem C60_library_functions (fs : List SExpr) (hfs : readFile filesText = some (fs ++ [c_matrix_transpose])) (M : Smt.Model)
    (hM : M.Sat fs) : libraryFns.map FnDecl.name = ["integer_exp", "integer_sqrt_helper", "integer_sqrt", "vec_slice",
      "matrix_row_slice", "matrix_col_slice", "firsts", "rests"] ∧ ∀ d ∈ libraryFns, FnHolds M.interp d := by
  refine ⟨by decide +kernel, library_holds (agree_interp [] M) (by simp) (by simp) ?_⟩
  rwa [← files_core hfs]

/-- **C60 (which functions are left out).**  No function that the files define is written again; a function to which no function is passed
is left out only if its name begins with `integer` or the files define a function of this name. -/
theorem C60_left_out_names (dsl : List FnDecl) (d : FnDecl) (hd : d ∈ dsl) :
    (d ∈ libraryFns → d ∉ processForSmt dsl []) ∧
      (d ∉ processForSmt dsl [] → (∀ p ∈ d.params, p.2.isFn = false) →
        "integer".toList <+: d.name.toList ∨ d.name ∈ fileArities.map Prod.fst) := by
  constructor
  · intro hl hp
    have h1 : ∀ d ∈ libraryFns, leftOutName d.name = true := by decide +kernel
    have h2 := (List.mem_filter.1 hp).2
    rw [h1 d hl] at h2
    cases h2
  · intro hp hf
    have h1 : ∀ n ∈ inSmtFiles, n ∈ fileArities.map Prod.fst := by decide +kernel
    have h2 : leftOutFn [] d = false := by
      simp only [leftOutFn, Bool.and_eq_false_iff]
      left
      rw [List.any_eq_false]
      intro p hp'
      simp [hf p hp']
    have h3 : leftOutName d.name = true := by
      by_contra h
      exact hp (List.mem_filter.2 ⟨hd, by simp [h, h2]⟩)
    simp only [leftOutName, Bool.or_eq_true, decide_eq_true_eq, List.isPrefixOf_iff_prefix] at h3
    exact h3.imp id (h1 _)

/-- **C60.**  Suppose that the functions of the target language whose names are left out are the ones declared in the tensor
language (all but the transposition), and that functions are not passed as arguments.  Then a structure satisfies the files (without
the transposition) and the query that is written for the remaining functions exactly if it satisfies the files and *all* functions of
the language hold in it, the axioms and candidates hold, the variables have values of their types and the condition is false:
nothing is lost by leaving functions out. -/
theorem C60_left_out_partial (topo : List (String × String) → Option (List String)) (htopo : TopoSpec topo)
    (setOrder : List String → List String) (hset : ∀ l, (setOrder l).Perm l) (dsl : List FnDecl) (axs : List Ax)
    (cands : List FnDecl) (vars : List (String × Ty)) (vc : Expr)
    (hstd : ∀ d ∈ dsl, leftOutName d.name = true → d ∈ libraryFns) (hfn : ∀ d ∈ dsl, ∀ p ∈ d.params, p.2.isFn = false)
    (hq : QueryOk (processForSmt dsl []) axs cands vars vc)
    (h1 : "list_empty" ∉ vars.map Prod.fst) (h2 : "matrix_empty" ∉ vars.map Prod.fst)
    (text : String) (ht : queryText topo setOrder (processForSmt dsl []) axs cands vars vc = some text) :
    ∃ cs, readScript text = some cs ∧
      ∀ fs, readFile filesText = some (fs ++ [c_matrix_transpose]) → ∀ (I : Interp) (M : Smt.Model), Agree (vars.map Prod.fst) I M →
        (M.Sat (fs ++ cs) ↔
          M.Sat fs ∧ (∀ d ∈ dsl, written d = true → FnHolds I d) ∧ (∀ a ∈ axs, AxHolds I a) ∧ (∀ d ∈ cands, FnHolds I d) ∧
          (∀ v ∈ vars, Smt.OfTy v.2 (M.fn v.1 [])) ∧ (eval I (fun n => M.fn n []) vc).asBool = false) := by
  obtain ⟨cs, hcs, hiff⟩ := C46_query_meaning_partial topo htopo setOrder hset _ axs cands vars vc hq text ht
  refine ⟨cs, hcs, fun fs hfs I M hA => ?_⟩
  have happ : M.Sat (fs ++ cs) ↔ M.Sat fs ∧ M.Sat cs := by simp [Model.Sat, or_imp, forall_and]
  rw [happ, hiff I M hA]
  refine and_congr_right fun hM => and_congr_left fun _ => ⟨fun h d hd hw => ?_, fun h d hd => h d (List.mem_filter.1 hd).1⟩
  by_cases hl : leftOutName d.name = true
  · exact library_holds hA h1 h2 (by rwa [← files_core hfs]) d (hstd d hd hl)
  · refine h d (List.mem_filter.2 ⟨hd, ?_⟩) hw
    have : d.params.any (fun p => p.2.isFn) = false := by
      rw [List.any_eq_false]
      intro p hp
      simp [hfn d hd p hp]
    simp [hl, leftOutFn, this]

theorem mem_callNames {f : String} (e : Expr) : f ∈ e.callNames ↔ ∃ t args, SubExpr (.node (.call f) t args) e := by
  have hs : ∀ es : List Expr, f ∈ Expr.callNamess es ↔ ∃ e ∈ es, f ∈ e.callNames := by
    intro es
    induction es with
    | nil => simp [Expr.callNamess]
    | cons e es ih => simp [Expr.callNamess, ih]
  induction e using Expr.ind with
  | hv n t => exact ⟨fun h => by simp [Expr.callNames] at h, fun ⟨_, _, h⟩ => nomatch h⟩
  | hl l => exact ⟨fun h => by simp [Expr.callNames] at h, fun ⟨_, _, h⟩ => nomatch h⟩
  | hn op t args ih =>
    have hargs : f ∈ Expr.callNamess args ↔ ∃ a ∈ args, ∃ t' as, SubExpr (.node (.call f) t' as) a := by
      rw [hs]
      exact ⟨fun ⟨a, ha, h⟩ => ⟨a, ha, (ih a ha).1 h⟩, fun ⟨a, ha, h⟩ => ⟨a, ha, (ih a ha).2 h⟩⟩
    have hsub : (∃ t' as, SubExpr (.node (.call f) t' as) (.node op t args)) ↔
        op = .call f ∨ ∃ a ∈ args, ∃ t' as, SubExpr (.node (.call f) t' as) a := by
      constructor
      · rintro ⟨t', as, h⟩
        cases h with
        | refl => exact .inl rfl
        | arg ha h => exact .inr ⟨_, ha, t', as, h⟩
      · rintro (rfl | ⟨a, ha, t', as, h⟩)
        · exact ⟨t, args, .refl⟩
        · exact ⟨t', as, .arg ha h⟩
    rw [hsub, ← hargs]
    cases op <;> simp [Expr.callNames, eq_comm]

/-- **C60 (axioms).**  The axioms given to the solver are those of the functions called in the solution, and only these. -/
theorem C60_axioms (table : List (String × List Ax)) (fns : List FnDecl) (a : Ax) :
    a ∈ neededAxioms table fns ↔
      ∃ d ∈ fns, ∃ b, d.body = some b ∧ ∃ f t args, SubExpr (.node (.call f) t args) b ∧ ∃ as, table.lookup f = some as ∧ a ∈ as := by
  simp only [neededAxioms, usedFnNames, List.mem_flatMap, List.mem_eraseDups]
  constructor
  · rintro ⟨f, ⟨d, hd, hf⟩, ha⟩
    cases hb : d.body with
    | none => simp [hb] at hf
    | some b =>
      cases hl : table.lookup f with
      | none => simp [hl] at ha
      | some as =>
        obtain ⟨t, args, h⟩ := (mem_callNames b).1 (by simpa [hb] using hf)
        exact ⟨d, hd, b, hb, f, t, args, h, as, hl, by simpa [hl] using ha⟩
  · rintro ⟨d, hd, b, hb, f, t, args, hf, as, hl, ha⟩
    exact ⟨f, ⟨d, hd, by simpa [hb] using (mem_callNames b).2 ⟨t, args, hf⟩⟩, by simpa [hl] using ha⟩

/-! ### Where it fails -/

/-- A function of the user's language whose name begins with `integer`. -/
def integerDouble : FnDecl := ⟨"integer_double", .int, [("n", .int)], some (.node .add .int [.var "n" .int, .var "n" .int]), true⟩

/-- A function whose name begins with `integer` is left out although the files do not define it: they are satisfied by a structure in
which the function is another one. -/
theorem C60_prefix_refuted : processForSmt [integerDouble] [] = [] ∧
    ∃ fs, readFile filesText = some (fs ++ [c_matrix_transpose]) ∧ ∃ M : Smt.Model, M.Sat fs ∧ ¬ FnHolds M.interp integerDouble := by
  refine ⟨by decide +kernel, coreCmds, by rw [files_read, fileCmds_eq],
    ⟨fileFn (stdModel 0) stdInts, fun _ => 0, fun _ => 0⟩,
    core_sat (rep_of_fn _ _ (fun f _ vs => rfl)) (stdModel_core 0) stdInts_ok, fun h => ?_⟩
  have h1 := (h [.int 1] ⟨⟨1, rfl⟩, trivial⟩).2 _ rfl
  have h2 : (fileFn (stdModel 0) stdInts "integer_double" [.int 1]) = .int 0 := by
    simp only [fileFn, fileTable, List.lookup, String.reduceBEq]
  have h3 : (Smt.Model.interp ⟨fileFn (stdModel 0) stdInts, fun _ => 0, fun _ => 0⟩).fn integerDouble.name [.int 1] = .int 0 := by
    rw [← h2]; rfl
  rw [h3] at h1
  revert h1
  simp [eval, evals, evalOp, paramEnv, integerDouble]

/-- The declarations of the selections (`tenspiler_common.py` 556-563, 614-621). -/
def selectionFns : List FnDecl :=
  [declare true selection.name (.list .int) selection.params selection.body,
   declare true matrixSelection.name (.matrix .int) matrixSelection.params matrixSelection.body].reduceOption

/-- When a solution passes a function to `matrix_selection_two_args`, the function `selection_two_args` that the former calls is left
out, and the files do not define it either. -/
theorem C60_helper_refuted : ∃ d ∈ processForSmt selectionFns [("matrix_selection_two_args", "f")], ∃ b, d.body = some b ∧
    (∃ t args, SubExpr (.node (.call "selection_two_args") t args) b) ∧
    "selection_two_args" ∈ selectionFns.map FnDecl.name ∧
    "selection_two_args" ∉ (processForSmt selectionFns [("matrix_selection_two_args", "f")]).map FnDecl.name ∧
    "selection_two_args" ∉ fileArities.map Prod.fst := by
  have h : ∃ d ∈ processForSmt selectionFns [("matrix_selection_two_args", "f")], ∃ b ∈ d.body, "selection_two_args" ∈ b.callNames := by
    decide +kernel
  obtain ⟨d, hd, b, hb, hf⟩ := h
  exact ⟨d, hd, b, hb, (mem_callNames b).1 hf, by decide +kernel, by decide +kernel, by decide +kernel⟩

/-- The declaration of the transposition, which is left out as well, contradicts the other definitions: no structure that satisfies
these satisfies it. -/
theorem C60_transpose_refuted : ∃ d, matrixTransposeFn = some d ∧ leftOutName d.name = true ∧
    ∀ fs, readFile filesText = some (fs ++ [c_matrix_transpose]) → ∀ M : Smt.Model, M.Sat fs → ¬ FnHolds M.interp d := by
  have h : ∃ d ∈ matrixTransposeFn, leftOutName d.name = true ∧ sxDecl d = c_matrix_transpose ∧ declOk d = true ∧ d.params ≠ [] := by
    decide +kernel
  obtain ⟨d, hd, hl, hs, hok, hp⟩ := h
  refine ⟨d, hd, hl, fun fs hfs M hM hF => ?_⟩
  have := (sat_decl (agree_interp [] M) hok (fun b _ => by simp [noConstCall]) (fun h => absurd h hp)).2 hF
  rw [hs] at this
  refine C27_files_unsatisfiable_refuted _ hfs M ?_
  intro c hc
  rcases List.mem_append.1 hc with hc | hc
  · exact hM c hc
  · rw [List.mem_singleton.1 hc]; exact this

/-- `ite_int` belongs to the tensor language and is not left out, but it cannot be written (it is a function with parameters that was
not declared recursive): no query with the tensor language is ever written. -/
theorem C60_ite_int_refuted (topo : List (String × String) → Option (List String)) (htopo : TopoSpec topo)
    (setOrder : List String → List String) (hset : ∀ l, (setOrder l).Perm l) (dsl : List FnDecl) (hn : (dsl.map FnDecl.name).Nodup)
    (d : FnDecl) (hd : iteIntFn = some d) (hm : d ∈ dsl) (axs : List Ax) (cands : List FnDecl) (vars : List (String × Ty)) (vc : Expr) :
    queryText topo setOrder (processForSmt dsl []) axs cands vars vc = none := by
  have hfacts : ∀ d ∈ iteIntFn, (!leftOutName d.name && !leftOutFn [] d) = true ∧ written d = true ∧ declText d = none := by
    decide +kernel
  obtain ⟨h1, h2, h3⟩ := hfacts d hd
  have hmem : d ∈ processForSmt dsl [] := List.mem_filter.2 ⟨hm, h1⟩
  rw [queryText]
  cases hs : sortFns topo setOrder (processForSmt dsl []) with
  | none => rfl
  | some l =>
    have hperm := sortFns_perm htopo hset (hn.sublist (List.filter_sublist.map _)) hs
    have hml : d ∈ l.filter written := List.mem_filter.2 ⟨hperm.mem_iff.2 hmem, h2⟩
    have : (l.filter written).mapM declText = none := by
      revert hml
      induction l.filter written with
      | nil => simp
      | cons a as ih =>
        intro h
        rw [List.mapM_cons]
        rcases List.mem_cons.1 h with rfl | h
        · simp [h3]
        · rw [ih h]
          cases declText a <;> rfl
    simp [this]

example : ∃ d, iteIntFn = some d := ⟨_, rfl⟩

/-! ### An example -/

/-- A language with `vec_slice`, which is left out, and `reduce_sum`. -/
def exDsl : List FnDecl := [vecSliceFn, declare true reduceSum.name .int reduceSum.params reduceSum.body].reduceOption

/-- `reduce_sum(vec_slice(x, 0, 1)) == 0`. -/
def exGoal : Expr := mkEq (mkCall "reduce_sum" .int [mkCall "vec_slice" (.list .int) [.var "x" (.list .int), intLit 0, intLit 1]]) (intLit 0)

/-- The hypotheses of `C60_left_out_partial` are met by an example in which a function is left out. -/
example : (exDsl.map FnDecl.name = ["vec_slice", "reduce_sum"]) ∧ (processForSmt exDsl []).map FnDecl.name = ["reduce_sum"] ∧
    (∀ d ∈ exDsl, leftOutName d.name = true → d ∈ libraryFns) ∧ (∀ d ∈ exDsl, ∀ p ∈ d.params, p.2.isFn = false) ∧
    QueryOk (processForSmt exDsl []) [] [] [("x", .list .int)] exGoal ∧
    (queryText kahn id (processForSmt exDsl []) [] [] [("x", .list .int)] exGoal).isSome = true := by
  refine ⟨by decide +kernel, by decide +kernel, ?_, by decide +kernel, ?_, by decide +kernel⟩
  · intro d hd hl
    have h2 : ∀ d ∈ exDsl.drop 1, leftOutName d.name = false := by decide +kernel
    have h1 : exDsl.head? = libraryFns[3]? := rfl
    rw [show exDsl = exDsl.head?.toList ++ exDsl.drop 1 from rfl, h1] at hd
    rcases List.mem_append.1 hd with hd | hd
    · exact List.mem_of_getElem? (by simpa using hd)
    · rw [h2 d hd] at hl; cases hl
  constructor <;> decide +kernel

end Metalift.Ten
