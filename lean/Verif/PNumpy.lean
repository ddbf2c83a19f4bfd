import Verif.NumpySound
import Verif.PTenModel
/-
C38: the NumPy program generated for a tensor program computes the value of the program.

The theorem is about the programs accepted by `check` and the inputs for which `Fits` holds; both are defined in
`Verif/NumpySpec.lean`.  The refutations at the end are about programs and inputs left out.
-/
namespace Metalift.Np
open Metalift Py Metalift.Ten

theorem all_int (xs : List Int) : (xs.map Val.int).all isInt = true := by
  rw [List.all_eq_true]
  intro v hv
  obtain ⟨x, _, rfl⟩ := List.mem_map.1 hv
  rfl

theorem npArray_vec {w : Int → Int} {xs : List Int} (h : ∀ x ∈ xs, w x = x) : npArray w (vecV xs) = some (.arr (.a1 (xs.map .int))) := by
  have h1 : npArray w (.list (xs.map .int)) = some (.arr (.a1 ((xs.map Val.int).map fun v => .int (w v.asInt)))) := by
    unfold npArray
    exact if_pos (all_int xs)
  rw [List.map_map] at h1
  refine h1.trans ?_
  congr 3
  refine List.map_congr_left fun x hx => ?_
  show Sc.int (w x) = _
  rw [h x hx]

theorem npArray_mat {w : Int → Int} {m : List (List Int)} {c : Nat} (hm : m ≠ []) (h : ∀ r ∈ m, r.length = c ∧ ∀ x ∈ r, w x = x) :
    npArray w (matV m) = some (.arr (.a2 c (m.map fun r => r.map .int))) := by
  cases m with
  | nil => exact absurd rfl hm
  | cons r m =>
    have hall : ((r :: m).map vecV).all (isRow (r.map Val.int).length) = true := by
      rw [List.all_eq_true]
      intro v hv
      obtain ⟨s, hs, rfl⟩ := List.mem_map.1 hv
      show (decide ((s.map Val.int).length = _) && _) = true
      rw [List.length_map, List.length_map, (h s hs).1, (h r (by simp)).1, decide_eq_true rfl, all_int]
      rfl
    have hmap : (((r :: m).map vecV).map fun v => v.asList.map fun u => Sc.int (w u.asInt)) = (r :: m).map fun r => r.map Sc.int := by
      rw [List.map_map]
      refine List.map_congr_left fun s hs => ?_
      show (s.map Val.int).map _ = _
      rw [List.map_map]
      refine List.map_congr_left fun x hx => ?_
      show Sc.int (w x) = _
      rw [(h s hs).2 x hx]
    show (if (((r :: m).map vecV).all isInt) = true then some (.arr (.a1 (((r :: m).map vecV).map fun v => .int (w v.asInt)))) else if ((r :: m).map vecV).all (isRow (r.map Val.int).length) = true then
      some (NV.arr (Arr.a2 (r.map Val.int).length (((r :: m).map vecV).map fun v => v.asList.map fun u => Sc.int (w u.asInt)))) else none) = _
    rw [if_neg (show ¬ (((r :: m).map vecV).all isInt) = true from fun h => by cases h), if_pos hall, hmap, List.length_map, (h r (by simp)).1]

theorem param_unique {params : List (String × Ty)} (hnd : (params.map Prod.fst).Nodup) {x : String} {t t' : Ty} (h : (x, t) ∈ params) (h' : (x, t') ∈ params) :
    t = t' := by
  induction params with
  | nil => cases h
  | cons p ps ih =>
    rw [List.map_cons, List.nodup_cons] at hnd
    rcases List.mem_cons.1 h with h0 | h1
    · subst h0
      rcases List.mem_cons.1 h' with h' | h'
      · injection h' with _ h'; exact h'.symm
      · exact absurd (List.mem_map.2 ⟨_, h', rfl⟩) hnd.1
    · rcases List.mem_cons.1 h' with h0 | h'
      · subst h0
        exact absurd (List.mem_map.2 ⟨_, h1, rfl⟩) hnd.1
      · exact ih hnd.2 h1 h'

theorem locals_ok {params : List (String × Ty)} (hnd : (params.map Prod.fst).Nodup) (hnp : "np" ∉ params.map Prod.fst) {w : Int → Int} {args : Env}
    (hin : ∀ p ∈ params, InputOk w p.2 (args p.1)) (P : Program) (hP : P.params = params.map Prod.fst)
    (hc : P.converted = (params.filter (fun p => decide (p.2 = .list .int ∨ p.2 = .list (.list .int)))).map Prod.fst) :
    EnvOk params args (P.locals w args) where
  np := by rw [Program.locals, if_neg (by rw [hP]; exact hnp)]
  rep := by
    intro x t k hm hk
    have hx : x ∈ P.params := by rw [hP]; exact List.mem_map.2 ⟨_, hm, rfl⟩
    have hconv : x ∈ P.converted ↔ (t = .list .int ∨ t = .list (.list .int)) := by
      rw [hc, List.mem_map]
      constructor
      · rintro ⟨⟨y, s⟩, hy, rfl⟩
        rw [List.mem_filter, decide_eq_true_eq] at hy
        rw [param_unique hnd hm hy.1]
        exact hy.2
      · intro ht
        exact ⟨(x, t), by rw [List.mem_filter, decide_eq_true_eq]; exact ⟨hm, ht⟩, rfl⟩
    have hi := hin _ hm
    unfold kindOf at hk
    rw [Program.locals, if_pos hx]
    split at hk <;> (try cases hk)
    · obtain ⟨i, hi⟩ := hi
      rw [if_neg (by rw [hconv]; simp)]
      simp only at hi
      rw [hi]
      exact ⟨_, rfl, .int _⟩
    · obtain ⟨i, hi⟩ := hi
      rw [if_neg (by rw [hconv]; simp)]
      simp only at hi
      rw [hi]
      exact ⟨_, rfl, .bool _⟩
    · obtain ⟨xs, hi, hw⟩ := hi
      rw [if_pos (by rw [hconv]; simp)]
      simp only at hi
      rw [hi, npArray_vec hw]
      exact ⟨_, rfl, .vec _⟩
    · obtain ⟨m, c, hi, hne, h1, hw⟩ := hi
      rw [if_pos (by rw [hconv]; simp)]
      simp only at hi
      rw [hi, npArray_mat hne hw]
      exact ⟨_, rfl, .mat c m (fun r hr => (hw r hr).1) (fun _ => h1)⟩

/-- The value the generated program returns is unique. -/
theorem returns_unique {w : Int → Int} {P : Program} {args : Env} {u v : NV} (h : P.Returns w args u) (h' : P.Returns w args v) : u = v := by
  obtain ⟨a, ha, hu⟩ := h
  obtain ⟨b, hb, hv⟩ := h'
  rw [Parses.unique ha hb, hv] at hu
  injection hu with hu
  exact hu.symm

/-- C38: let `body` be the body of the synthesized function with the parameters `params`, built from the functions and operators `check`
accepts.  For all inputs on which the shapes match and nothing overflows (`Fits`), code generation succeeds, and the generated program
returns the NumPy value that represents the value of `body` - and no other. -/
theorem C38_numpy_partial (I : Interp) (hI : NpModel I) (fns : List (String × SynthFn)) (d : DType) (hd : d ≠ .float) (params : List (String × Ty))
    (body : Expr) (i : Info) (hc : check fns params body = some i) (hnd : (params.map Prod.fst).Nodup) (hnp : "np" ∉ params.map Prod.fst)
    (w : Int → Int) (args : Env) (hin : ∀ p ∈ params, InputOk w p.2 (args p.1)) (hf : Fits fns I w args body) :
    ∃ N P v, (∀ n, N ≤ n → codegen fns d n params body = some P) ∧ P.Returns w args v ∧ Rep i.k v (Metalift.eval I args body) ∧
      ∀ v', P.Returns w args v' → v' = v := by
  obtain ⟨N, toks, a, hg, hl, -, hs⟩ := check_good body i hc
  obtain ⟨v, hv, hr⟩ := hs I hI w args (Program.locals w ⟨params.map Prod.fst, _, toks⟩ args) (locals_ok hnd hnp hin _ rfl rfl) hf
  have hret : Program.Returns w ⟨params.map Prod.fst, _, toks⟩ args v := ⟨a, hl.zero.parses, hv⟩
  refine ⟨N, _, v, fun n hn => ?_, hret, hr, fun v' h' => returns_unique h' hret⟩
  rw [codegen, decide_eq_false hd, hg n hn [] (fun _ _ => rfl)]
  rfl

/-! ### The hypotheses can be met -/

/-- The interpretation of `Verif/PTenModel.lean` has the meaning the theorem asks for. -/
theorem std_npModel (drop : Bool) (ap : Val → List Val → Val) : NpModel (stdInterp drop ap (· / ·)) where
  model := std_model _ _ _
  div := fun _ _ _ _ => rfl
  mod := fun a b _ h => Int.fmod_eq_emod_of_nonneg a (by omega)
  choose := fun _ => rfl
  colSlice := by
    intro m a b _ _ _
    show Val.list ((m.map vecV).map fun r => Val.list ((r.asList.take b.toNat).drop a.toNat)) = _
    rw [List.map_map]
    show _ = Val.list ((m.map fun r => (r.take b.toNat).drop a.toNat).map vecV)
    rw [List.map_map]
    refine congrArg Val.list (List.map_congr_left fun r _ => ?_)
    show Val.list (((r.map Val.int).take b.toNat).drop a.toNat) = Val.list _
    rw [List.map_drop, List.map_take]
  colSliceLen := by
    intro m a b _ _ _
    show Val.list ((m.map vecV).map fun r => Val.list ((r.asList.drop a.toNat).take b.toNat)) = _
    rw [List.map_map]
    show _ = Val.list ((m.map fun r => (r.drop a.toNat).take b.toNat).map vecV)
    rw [List.map_map]
    refine congrArg Val.list (List.map_congr_left fun r _ => ?_)
    show Val.list (((r.map Val.int).drop a.toNat).take b.toNat) = Val.list _
    rw [List.map_take, List.map_drop]
  transpose := by
    intro m c hm _ hl
    show Val.list ((List.range ((m.map vecV).headD (.list [])).asList.length).map fun j => Val.list ((m.map vecV).map fun r => r.asList.getD j (.int 0))) = _
    have hc : ((m.map vecV).headD (.list [])).asList.length = c := by
      cases m with
      | nil => exact absurd rfl hm
      | cons r m =>
        show (r.map Val.int).length = c
        rw [List.length_map, hl r (by simp)]
    rw [hc]
    show _ = Val.list (((List.range c).map fun j => m.map fun r => r.getD j 0).map vecV)
    rw [List.map_map]
    refine congrArg Val.list (List.map_congr_left fun j _ => ?_)
    show Val.list ((m.map vecV).map fun r => r.asList.getD j (.int 0)) = Val.list _
    rw [List.map_map, List.map_map]
    refine congrArg Val.list (List.map_congr_left fun r _ => ?_)
    show (r.map Val.int).getD j (.int 0) = .int (r.getD j 0)
    simp [List.getD_eq_getElem?_getD]

/-- `darken_blend`: the smaller of two elements. -/
def exSelect : SynthFn := ⟨[("int_x", .int), ("int_y", .int)],
    .node .ite .int [.node .gt .bool [.var "int_x" .int, .var "int_y" .int], .var "int_y" .int, .var "int_x" .int]⟩
@[inherit_doc exSelect] def exFns : List (String × SynthFn) := [("darken_blend_8_select_two_args", exSelect)]
@[inherit_doc exSelect] def exParams : List (String × Ty) := [("base", .list (.list .int)), ("active", .list (.list .int)), ("k", .int)]
@[inherit_doc exSelect] def exBody : Expr :=
  mkCall "matrix_selection_two_args" (.list (.list .int)) [mkCall "matrix_scalar_add" (.list (.list .int)) [.var "k" .int, .var "base" (.list (.list .int))],
    mkCall "matrix_row_slice" (.list (.list .int)) [.var "active" (.list (.list .int)), intLit 0, intLit 2], .var "select_two_args" .int]
@[inherit_doc exSelect] def exApply : Val → List Val → Val
  | .fn _, [.int a, .int b] => if a > b then .int b else .int a
  | _, _ => .int 0
@[inherit_doc exSelect] def exArgs : Env := fun x =>
  if x = "base" then matV [[1, 9], [5, 5]] else if x = "active" then matV [[7, 3], [0, 100]] else if x = "k" then .int 1 else .fn "select_two_args"

/-- The hypotheses hold for `matrix_selection_two_args(matrix_scalar_add(k, base), active[0:2], select_two_args)`, with `w` the
wrap-around of `uint8`. -/
example : ∃ N P v, (∀ n, N ≤ n → codegen exFns .uint8 n exParams exBody = some P) ∧ P.Returns (· % 256) exArgs v ∧
    Rep .mat v (matV [[2, 3], [0, 6]]) ∧ ∀ v', P.Returns (· % 256) exArgs v' → v' = v := by
  refine C38_numpy_partial (stdInterp true exApply (· / ·)) (std_npModel _ _) exFns .uint8 (by decide) exParams exBody ⟨.mat, .list (.list .int), 8⟩ (by decide +kernel) (by decide) (by decide)
    (· % 256) exArgs ?_ ?_
  · intro p hp
    simp only [exParams, List.mem_cons, List.not_mem_nil, or_false] at hp
    rcases hp with rfl | rfl | rfl
    · exact ⟨[[1, 9], [5, 5]], 2, rfl, by decide, by decide, by decide⟩
    · exact ⟨[[7, 3], [0, 100]], 2, rfl, by decide, by decide, by decide⟩
    · exact ⟨1, rfl⟩
  · simp only [exBody, mkCall, intLit, Fits, FitsAll, and_true, true_and]
    refine ⟨⟨⟨?_, ?_⟩, ?_, ?_⟩, ?_, ?_⟩
    · intro F hF
      have : F = .msc .add false := by
        have h : fnTable.lookup "matrix_scalar_add" = some (.msc .add false) := by decide +kernel
        rw [h] at hF; injection hF with hF; exact hF.symm
      subst this
      refine And.intro (show AOp.add = AOp.div → _ from nofun) fun i hi => ?_
      have hi : i ∈ [2, 10, 6, 6] := hi
      simp only [List.mem_cons, List.not_mem_nil, or_false] at hi
      rcases hi with rfl | rfl | rfl | rfl <;> rfl
    · exact fun h => absurd h (by decide)
    · intro F hF
      have : F = .slice true := by
        have h : fnTable.lookup "matrix_row_slice" = some (.slice true) := by decide +kernel
        rw [h] at hF; injection hF with hF; exact hF.symm
      subst this
      exact ⟨Int.le_refl 0, (by decide : (0 : Int) ≤ 2), (by decide : (2 : Int) ≤ 2)⟩
    · exact fun h => absurd h (by decide)
    · intro F hF
      have h : fnTable.lookup "matrix_selection_two_args" = none := by decide +kernel
      rw [h] at hF; cases hF
    · intro _ m n g h
      have h : [matV [[2, 10], [6, 6]], matV [[7, 3], [0, 100]], Val.fn "select_two_args"] = [matV m, matV n, g] := h
      injection h with h1 h
      injection h with h2 h
      injection h with h3 _
      obtain rfl := matV_inj h1
      obtain rfl := matV_inj h2
      subst h3
      refine ⟨by decide, by decide, exSelect, "int_x", "int_y", "select_two_args", ?_, rfl, rfl, ?_⟩
      · have : String.endsWith "darken_blend_8_select_two_args" "select_two_args" = true := by decide +kernel
        simp [selectFn, exFns, this]
      intro rs hrs ab hab
      have hall : ∀ a b : Int, (stdInterp true exApply (· / ·)).apply (.fn "select_two_args") [.int a, .int b] = Metalift.eval (stdInterp true exApply (· / ·))
          (fun x => if x = "int_x" then .int a else .int b) (.node .ite .int [.node .gt .bool [.var "int_x" .int, .var "int_y" .int], .var "int_y" .int, .var "int_x" .int]) := by
        intro a b
        by_cases hgt : a > b <;> simp [stdInterp, exApply, Metalift.eval, Metalift.evals, evalOp, hgt, Val.asBool, Val.asInt]
      refine ⟨hall _ _, ?_⟩
      refine ⟨⟨trivial, trivial, trivial⟩, ?_⟩
      split <;> exact trivial

/-! ### Programs and inputs left out -/

/-- Code is generated, and the generated program returns `v`. -/
def Computes (w : Int → Int) (fns : List (String × SynthFn)) (params : List (String × Ty)) (body : Expr) (args : Env) (v : NV) : Prop :=
  ∃ N P, (∀ n, N ≤ n → codegen fns .int32 n params body = some P) ∧ P.Returns w args v

/-- Code is generated, and the generated program raises an exception. -/
def Raises (w : Int → Int) (fns : List (String × SynthFn)) (params : List (String × Ty)) (body : Expr) (args : Env) : Prop :=
  ∃ N P a, (∀ n, N ≤ n → codegen fns .int32 n params body = some P) ∧ Parses P.body a ∧ eval w (P.locals w args) a = none

theorem computes_of {w : Int → Int} {fns : List (String × SynthFn)} {params : List (String × Ty)} {body : Expr} {args : Env} {v : NV} {P : Program} {a : Ast} (N M : Nat)
    (hg : ∀ g, codegen fns .int32 (g + N) params body = some P) (hp : ∀ g, pLvl (g + M) 0 P.body = some (a, [])) (he : eval w (P.locals w args) a = some v) :
    Computes w fns params body args v := by
  refine ⟨N, P, fun n hn => ?_, a, ⟨M, fun f hf => ?_⟩, he⟩
  · obtain ⟨g, rfl⟩ : ∃ g, n = g + N := ⟨n - N, by omega⟩
    exact hg g
  · obtain ⟨g, rfl⟩ : ∃ g, f = g + M := ⟨f - M, by omega⟩
    exact hp g

theorem raises_of {w : Int → Int} {fns : List (String × SynthFn)} {params : List (String × Ty)} {body : Expr} {args : Env} {P : Program} {a : Ast} (N M : Nat)
    (hg : ∀ g, codegen fns .int32 (g + N) params body = some P) (hp : ∀ g, pLvl (g + M) 0 P.body = some (a, [])) (he : eval w (P.locals w args) a = none) :
    Raises w fns params body args := by
  refine ⟨N, P, a, fun n hn => ?_, ⟨M, fun f hf => ?_⟩, he⟩
  · obtain ⟨g, rfl⟩ : ∃ g, n = g + N := ⟨n - N, by omega⟩
    exact hg g
  · obtain ⟨g, rfl⟩ : ∃ g, f = g + M := ⟨f - M, by omega⟩
    exact hp g

/-- Parameters and inputs of the programs below. -/
def pX : List (String × Ty) := [("x", .list .int), ("y", .list .int), ("m", .list (.list .int)), ("i", .int), ("j", .int), ("k", .int), ("b", .bool), ("c", .bool)]
@[inherit_doc pX] def aX (x y : List Int) (m : List (List Int)) (i j k : Int) (b c : Bool) : Env := fun z =>
  if z = "x" then vecV x else if z = "y" then vecV y else if z = "m" then matV m else if z = "i" then .int i else if z = "j" then .int j
  else if z = "k" then .int k else if z = "b" then .bool b else .bool c
@[inherit_doc pX] def vX : Expr := .var "x" (.list .int)
@[inherit_doc pX] def vY : Expr := .var "y" (.list .int)
@[inherit_doc pX] def vM : Expr := .var "m" (.list (.list .int))
@[inherit_doc pX] def vI : Expr := .var "i" .int
@[inherit_doc pX] def vJ : Expr := .var "j" .int
@[inherit_doc pX] def vK : Expr := .var "k" .int
@[inherit_doc pX] def vB : Expr := .var "b" .bool
@[inherit_doc pX] def vC : Expr := .var "c" .bool
@[inherit_doc pX] def nI : Interp := stdInterp true (fun _ _ => .int 0) (· / ·)
/-- The inputs are of the kind the theorem asks for. -/
theorem aX_ok {x y : List Int} {m : List (List Int)} {i j k : Int} {b c : Bool} (hm : m ≠ []) (n : Nat) (hn : 1 ≤ n) (h : ∀ r ∈ m, r.length = n) :
    ∀ p ∈ pX, InputOk id p.2 (aX x y m i j k b c p.1) := by
  intro p hp
  simp only [pX, List.mem_cons, List.not_mem_nil, or_false] at hp
  rcases hp with rfl | rfl | rfl | rfl | rfl | rfl | rfl | rfl
  · exact ⟨x, rfl, fun _ _ => rfl⟩
  · exact ⟨y, rfl, fun _ _ => rfl⟩
  · exact ⟨m, n, rfl, hm, hn, fun r hr => ⟨h r hr, fun _ _ => rfl⟩⟩
  · exact ⟨i, rfl⟩
  · exact ⟨j, rfl⟩
  · exact ⟨k, rfl⟩
  · exact ⟨b, rfl⟩
  · exact ⟨c, rfl⟩

/-- `list_tail(x, i)`, the list without its first `i` elements, is printed `x[:i]`, the first `i` elements. -/
theorem C38_list_tail_refuted : Metalift.eval nI (aX [1, 2, 3] [] [[0]] 1 0 0 true true) (mkCall "list_tail" (.list .int) [vX, vI]) = vecV [2, 3] ∧
    Computes id [] pX (mkCall "list_tail" (.list .int) [vX, vI]) (aX [1, 2, 3] [] [[0]] 1 0 0 true true) (.arr (.a1 [.int 1])) :=
  ⟨rfl, computes_of (P := ⟨_, _, [.name "x", .lbr, .colon, .name "i", .rbr]⟩) (a := .slice (.name "x") none (some (.name "i"))) 5 20 (fun _ => rfl) (fun _ => rfl) rfl⟩

/-- `list_prepend(i, x)` is printed `np.concatenate([np.expand_dims(x, axis=0), i], axis=0)`: element and list are swapped, and NumPy raises an exception. -/
theorem C38_list_prepend_refuted : Metalift.eval nI (aX [1, 2, 3] [10, 20, 30] [[1, 2], [3, 4]] 1 5 7 true false) (mkCall "list_prepend" (.list .int) [vI, vX]) = vecV [1, 1, 2, 3] ∧
    Raises id [] pX (mkCall "list_prepend" (.list .int) [vI, vX]) (aX [1, 2, 3] [10, 20, 30] [[1, 2], [3, 4]] 1 5 7 true false) :=
  ⟨rfl, raises_of (P := ⟨_, _, npCall "concatenate" [.lbr :: (joinToks .comma [npCall "expand_dims" [[.name "x"], kwZero "axis"], [.name "i"]] ++ [.rbr]), kwZero "axis"]⟩) (a := npAst "concatenate" [.list [npAst "expand_dims" [.name "x", .kwarg "axis" (.num 0)], .name "i"], .kwarg "axis" (.num 0)]) 12 70 (fun _ => rfl) (fun _ => rfl) rfl⟩

/-- `matrix_length(m)`, the number of rows, is printed `m.size`, the number of elements. -/
theorem C38_matrix_length_refuted : Metalift.eval nI (aX [1, 2, 3] [10, 20, 30] [[1, 2], [3, 4]] 1 5 7 true false) (mkCall "matrix_length" .int [vM]) = .int 2 ∧
    Computes id [] pX (mkCall "matrix_length" .int [vM]) (aX [1, 2, 3] [10, 20, 30] [[1, 2], [3, 4]] 1 5 7 true false) (.arr (.sc (.int 4))) :=
  ⟨rfl, computes_of (P := ⟨_, _, [.name "m", .attr "size"]⟩) (a := .attr (.name "m") "size") 12 30 (fun _ => rfl) (fun _ => rfl) rfl⟩

/-- `list_concat(x, y)` is printed `np.concatenate([x, y], dim=0)`; NumPy's keyword is `axis`, and it raises an exception. -/
theorem C38_list_concat_refuted : Metalift.eval nI (aX [1, 2, 3] [10, 20, 30] [[1, 2], [3, 4]] 1 5 7 true false) (mkCall "list_concat" (.list .int) [vX, vY]) = vecV [1, 2, 3, 10, 20, 30] ∧
    Raises id [] pX (mkCall "list_concat" (.list .int) [vX, vY]) (aX [1, 2, 3] [10, 20, 30] [[1, 2], [3, 4]] 1 5 7 true false) :=
  ⟨rfl, raises_of (P := ⟨_, _, npCall "concatenate" [.lbr :: (joinToks .comma [[.name "x"], [.name "y"]] ++ [.rbr]), kwZero "dim"]⟩) (a := npAst "concatenate" [.list [.name "x", .name "y"], .kwarg "dim" (.num 0)]) 12 70 (fun _ => rfl) (fun _ => rfl) rfl⟩

/-- `list_eq(x, x)`, a truth value, is printed `np.equal(x, x)`, which returns an array of truth values. -/
theorem C38_list_eq_refuted : Metalift.eval nI (aX [1, 2, 3] [10, 20, 30] [[1, 2], [3, 4]] 1 5 7 true false) (mkCall "list_eq" .bool [vX, vX]) = .bool true ∧
    Computes id [] pX (mkCall "list_eq" .bool [vX, vX]) (aX [1, 2, 3] [10, 20, 30] [[1, 2], [3, 4]] 1 5 7 true false) (.arr (.a1 [.bool true, .bool true, .bool true])) :=
  ⟨rfl, computes_of (P := ⟨_, _, npCall "equal" [[.name "x"], [.name "x"]]⟩) (a := npAst "equal" [.name "x", .name "x"]) 12 30 (fun _ => rfl) (fun _ => rfl) rfl⟩

/-- `Not(And(c, c'))` is printed `not (c) and (c')`: `not` binds tighter than `and`. -/
theorem C38_negated_conjunction_refuted : Metalift.eval nI (aX [1, 2, 3] [10, 20, 30] [[1, 2], [3, 4]] 1 5 7 true false) (.node .not .bool [.node .and .bool [vC, vC]]) = .bool true ∧
    Computes id [] pX (.node .not .bool [.node .and .bool [vC, vC]]) (aX [1, 2, 3] [10, 20, 30] [[1, 2], [3, 4]] 1 5 7 true false) (.arr (.sc (.bool false))) :=
  ⟨rfl, computes_of (P := ⟨_, _, .knot :: parenBin .kand [.name "c"] [.name "c"]⟩) (a := .and (.not (.name "c")) (.name "c")) 12 30 (fun _ => rfl) (fun _ => rfl) rfl⟩

/-- `Ite(c, Ite(b, i, j), k)` is printed `i if b else j if c else k`, which Python reads as `i if b else (j if c else k)`. -/
theorem C38_nested_conditional_refuted : Metalift.eval nI (aX [1, 2, 3] [10, 20, 30] [[1, 2], [3, 4]] 1 5 7 true false) (.node .ite .int [vC, .node .ite .int [vB, vI, vJ], vK]) = .int 7 ∧
    Computes id [] pX (.node .ite .int [vC, .node .ite .int [vB, vI, vJ], vK]) (aX [1, 2, 3] [10, 20, 30] [[1, 2], [3, 4]] 1 5 7 true false) (.arr (.sc (.int 1))) :=
  ⟨rfl, computes_of (P := ⟨_, _, [.name "i", .kif, .name "b", .kelse, .name "j", .kif, .name "c", .kelse, .name "k"]⟩) (a := .ite (.name "b") (.name "i") (.ite (.name "c") (.name "j") (.name "k"))) 12 30 (fun _ => rfl) (fun _ => rfl) rfl⟩

/-- `list_get(vec_elemwise_add(x, y), i)` is printed `(x) + (y)[i]`: the subscript binds tighter than `+`. -/
theorem C38_element_of_sum_refuted : Metalift.eval nI (aX [1, 2, 3] [10, 20, 30] [[1, 2], [3, 4]] 1 5 7 true false) (mkCall "list_get" .int [mkCall "vec_elemwise_add" (.list .int) [vX, vY], vI]) = .int 22 ∧
    Computes id [] pX (mkCall "list_get" .int [mkCall "vec_elemwise_add" (.list .int) [vX, vY], vI]) (aX [1, 2, 3] [10, 20, 30] [[1, 2], [3, 4]] 1 5 7 true false) (.arr (.a1 [.int 21, .int 22, .int 23])) :=
  ⟨rfl, computes_of (P := ⟨_, _, parenBin .plus [.name "x"] [.name "y"] ++ [.lbr, .name "i", .rbr]⟩) (a := .bin .add (.name "x") (.index (.name "y") (.name "i"))) 12 30 (fun _ => rfl) (fun _ => rfl) rfl⟩

/-- `Add(i, j, k)` is printed `(i) + (j)`: further summands are dropped. -/
theorem C38_three_summands_refuted : Metalift.eval nI (aX [1, 2, 3] [10, 20, 30] [[1, 2], [3, 4]] 1 5 7 true false) (.node .add .int [vI, vJ, vK]) = .int 13 ∧
    Computes id [] pX (.node .add .int [vI, vJ, vK]) (aX [1, 2, 3] [10, 20, 30] [[1, 2], [3, 4]] 1 5 7 true false) (.arr (.sc (.int 6))) :=
  ⟨rfl, computes_of (P := ⟨_, _, parenBin .plus [.name "i"] [.name "j"]⟩) (a := .bin .add (.name "i") (.name "j")) 12 30 (fun _ => rfl) (fun _ => rfl) rfl⟩

/-- `matrix_append(matrix_empty(), x)` is printed with `np.empty((0, 0))`, to which NumPy cannot append a row that is not empty. -/
theorem C38_append_to_empty_refuted : Metalift.eval nI (aX [1, 2, 3] [10, 20, 30] [[1, 2], [3, 4]] 1 5 7 true false) (mkCall "matrix_append" (.list (.list .int)) [mkCall "matrix_empty" (.list (.list .int)) [], vX]) = matV [[1, 2, 3]] ∧
    Raises id [] pX (mkCall "matrix_append" (.list (.list .int)) [mkCall "matrix_empty" (.list (.list .int)) [], vX]) (aX [1, 2, 3] [10, 20, 30] [[1, 2], [3, 4]] 1 5 7 true false) :=
  ⟨rfl, raises_of (P := ⟨_, _, npCall "concatenate" [.lbr :: (joinToks .comma [npCall "empty" [[.lpar, .num 0, .comma, .num 0, .rpar]], npCall "expand_dims" [[.name "x"], kwZero "axis"]] ++ [.rbr]), kwZero "axis"]⟩) (a := npAst "concatenate" [.list [npAst "empty" [.tuple [.num 0, .num 0]], npAst "expand_dims" [.name "x", .kwarg "axis" (.num 0)]], .kwarg "axis" (.num 0)]) 12 70 (fun _ => rfl) (fun _ => rfl) rfl⟩

/-- Sums of `uint8` elements wrap around. -/
theorem C38_overflow_refuted : Metalift.eval nI (aX [200] [100] [[1]] 0 0 0 true true) (mkCall "vec_elemwise_add" (.list .int) [vX, vY]) = vecV [300] ∧
    Computes (· % 256) [] pX (mkCall "vec_elemwise_add" (.list .int) [vX, vY]) (aX [200] [100] [[1]] 0 0 0 true true) (.arr (.a1 [.int 44])) :=
  ⟨rfl, computes_of (P := ⟨_, _, parenBin .plus [.name "x"] [.name "y"]⟩) (a := .bin .add (.name "x") (.name "y")) 12 30 (fun _ => rfl) (fun _ => rfl) rfl⟩

/-- Division by a negative number: SMT-LIB's `div` rounds `7 / -2` to -3, `//` to -4. -/
theorem C38_negative_divisor_refuted : Metalift.eval nI (aX [] [] [[1]] 7 (-2) 0 true true) (.node .div .int [vI, vJ]) = .int (-3) ∧
    Computes id [] pX (.node .div .int [vI, vJ]) (aX [] [] [[1]] 7 (-2) 0 true true) (.arr (.sc (.int (-4)))) :=
  ⟨rfl, computes_of (P := ⟨_, _, parenBin .slashslash [.name "i"] [.name "j"]⟩) (a := .bin .floordiv (.name "i") (.name "j")) 12 30 (fun _ => rfl) (fun _ => rfl) rfl⟩

/-- There is no code for `matrix_prepend`: the entry is spelled `matrix_prepand`. -/
theorem C38_matrix_prepend_refuted : Metalift.eval nI (aX [1, 2] [] [[3, 4]] 0 0 0 true true) (mkCall "matrix_prepend" (.list (.list .int)) [vX, vM]) = matV [[1, 2], [3, 4]] ∧
    ∀ n, codegen [] .int32 n pX (mkCall "matrix_prepend" (.list (.list .int)) [vX, vM]) = none :=
  ⟨rfl, fun n => match n with
    | 0 => rfl
    | 1 => rfl
    | 2 => rfl
    | 3 => rfl
    | _ + 4 => rfl⟩

/-- A call `f(j)` of a synthesized function is replaced by the body of the function, in which the parameter is not replaced by the
argument. -/
theorem C38_synthesized_call_refuted (I : Interp) (hf : ∀ v : Int, I.fn "f" [.int v] = .int (v + 1)) :
    Metalift.eval I (aX [] [] [[1]] 1 5 0 true true) (mkCall "f" .int [vJ]) = .int 6 ∧
    Computes id [("f", ⟨[("i", .int)], .node .add .int [vI, intLit 1]⟩)] pX (mkCall "f" .int [vJ]) (aX [] [] [[1]] 1 5 0 true true) (.arr (.sc (.int 2))) :=
  ⟨hf 5, computes_of (P := ⟨_, _, parenBin .plus [.name "i"] [.num 1]⟩) (a := .bin .add (.name "i") (.num 1)) 12 30 (fun _ => rfl) (fun _ => rfl) rfl⟩

/-- In the body of a select function, the parameters in the condition of a nested conditional are not replaced: the generated
program uses names that are not bound. -/
theorem C38_nested_select_refuted (b : Expr) (hb : b = .node .ite .int [.node .gt .bool [.var "int_x" .int, .var "int_y" .int],
      .node .ite .int [.node .gt .bool [.var "int_x" .int, intLit 2], intLit 0, .var "int_y" .int], .var "int_x" .int]) :
    Raises id [("select_two_args", ⟨[("int_x", .int), ("int_y", .int)], b⟩)] pX (mkCall "matrix_selection_two_args" (.list (.list .int)) [vM, vM, .var "select_two_args" .int])
      (aX [] [] [[1, 2], [3, 4]] 0 0 0 true true) := by
  subst hb
  have h1 : String.endsWith "matrix_selection_two_args" "matrix_selection_two_args" = true := by decide +kernel
  have h2 : String.endsWith "select_two_args" "select_two_args" = true := by decide +kernel
  exact raises_of (P := ⟨pX.map Prod.fst, ["x", "y", "m"], npCall "where" [npCall "greater" [[.name "m"], [.name "m"]], [.num 0, .kif, .name "int_x", .cmp .gt, .num 2, .kelse, .name "m"], [.name "m"]]⟩)
    (a := npAst "where" [npAst "greater" [.name "m", .name "m"], .ite (.cmp .gt (.name "int_x") (.num 2)) (.num 0) (.name "m"), .name "m"]) 12 40
    (fun g => by simp [codegen, mkCall, gen, gens, h1, h2, selectFn, vM, List.lookup, cmpText, intLit, Lit.toPython, exprTy, pX]) (fun _ => rfl) rfl

end Metalift.Np
