import Verif.HoleSpace
import Verif.PDepthGrammar
import Verif.PTenspiler
import Verif.NumpySelect
import Verif.PTenModel
/-
C66: the search spaces with a hole contain a solution for the programs they were written for.
-/
namespace Metalift.Ten
open Metalift

/-! ### Specification: the programs and their verification conditions -/

/-- The blend programs of `benchmarks/blend/cpp` over two matrices. -/
inductive Bench where
  | multiply | linearBurn | screen | linearDodge | darken | colorBurn | lighten | colorDodge | overlay | dissolve
  deriving DecidableEq

/-- The pixel computed from `base[row][col]` and `active[row][col]` (and `opacity` and `rand_cons`), as written in
`benchmarks/blend/cpp/*_8.cc`; `/` and `%` are the operations of the interpretation. -/
def Bench.pixel (I : Interp) (opac rand : Int) : Bench → Int → Int → Int
  | .multiply, b, a => I.idiv (b * a) 32
  | .linearBurn, b, a => (b + a) - 32
  | .screen, b, a => b + a - I.idiv (b * a) 32
  | .linearDodge, b, a => b + a
  | .darken, b, a => if b > a then a else b
  | .colorBurn, b, a => if a = 0 then 32 else 32 - I.idiv (32 - b) a
  | .lighten, b, a => if b < a then a else b
  | .colorDodge, b, a => if a = 32 then 32 else I.idiv b (32 - a)
  | .overlay, b, _ => if b ≥ 16 then 2 * b + b - I.idiv (2 * b * b) 32 - 32 else I.idiv (2 * b * b) 32
  | .dissolve, b, a => if opac - I.idiv (I.imod rand 100 + 1) 100 ≥ 0 then a else b

/-- The search space made for the program. -/
def Bench.space : Bench → Space
  | .multiply => computationSpace multiplyHole
  | .linearBurn => computationSpace linearBurnHole
  | .screen => computationSpace screenHole
  | .linearDodge => computationSpace linearDodgeHole
  | .darken => selectSpace darkenHole
  | .colorBurn => selectSpace colorBurnHole
  | .lighten => selectSpace lightenHole
  | .colorDodge => selectSpace colorDodgeHole
  | .overlay => selectSpace overlayHole
  | .dissolve => dissolveSpace

/-- The variables of the programs.  The returned matrix is `agg.result`. -/
def outV : Obj := .var "agg.result" (.matrix .int)
@[inherit_doc outV] def colV : Obj := .var "col" .int
@[inherit_doc outV] def pixelV : Obj := .var "pixel" .int
@[inherit_doc outV] def randV : Obj := .var "rand_val" .int
@[inherit_doc outV] def rowV : Obj := .var "row" .int
@[inherit_doc outV] def rowVecV : Obj := .var "row_vec" (.list .int)
@[inherit_doc outV] def baseV : Obj := .var "base" (.matrix .int)
@[inherit_doc outV] def activeV : Obj := .var "active" (.matrix .int)

/-- What the outer and the inner loop write, sorted by name, and what they read. -/
def Bench.writes0 : Bench → List Obj
  | .dissolve => [outV, colV, pixelV, randV, rowV, rowVecV]
  | _ => [outV, colV, pixelV, rowV, rowVecV]
@[inherit_doc Bench.writes0] def Bench.writes1 : Bench → List Obj
  | .dissolve => [colV, pixelV, randV, rowVecV]
  | _ => [colV, pixelV, rowVecV]
@[inherit_doc Bench.writes0] def Bench.reads : Bench → List Obj
  | .dissolve => [baseV, activeV, opacity, randCons]
  | _ => [baseV, activeV]

/-- The variables that the programs change. -/
structure Vars where
  out : List (List Int)
  col : Int
  pixel : Int
  row : Int
  rowVec : List Int

/-- The inputs of a program. -/
structure Input where
  base : List (List Int)
  active : List (List Int)
  opac : Int
  rand : Int

/-- The environment of a state; the name of a function stands for the function. -/
def Input.env (x : Input) (s : Vars) : Env := fun n =>
  if n = "agg.result" then matV s.out else if n = "col" then .int s.col else if n = "pixel" then .int s.pixel
  else if n = "row" then .int s.row else if n = "row_vec" then vecV s.rowVec else if n = "base" then matV x.base
  else if n = "active" then matV x.active else if n = "opacity" then .int x.opac else if n = "rand_cons" then .int x.rand
  else if n = "select_two_args" ∨ n = "dissolve_select_two_args" then .fn n else .int 0

/-- `m[i][j]`, whatever the interpretation makes of it. -/
def read (I : Interp) (m : List (List Int)) (i j : Int) : Int := (I.fn "list_get" [I.fn "matrix_get" [matV m, .int i], .int j]).asInt

/-- The number of columns that the programs use, `base[0].size()`. -/
def Input.width (x : Input) : Int := (x.base.headD []).length

/-- The verification conditions of

    for (row = 0; row < base.size(); row++) {
      row_vec = {};
      for (col = 0; col < base[0].size(); col++) { pixel = f(base[row][col], active[row][col]); row_vec.push_back(pixel); }
      out.push_back(row_vec);
    }

with the invariants `r0` and `r1` and the postcondition `rp`.  The conditions of the inner loop are under the conditions with which it was
entered, as in the conditions that the front end emits: the inner loop changes only `col`, `pixel` and `row_vec`. -/
structure Valid (I : Interp) (x : Input) (f : Int → Int → Int) (r0 r1 rp : Expr) : Prop where
  init : ∀ s, s.out = [] → s.row = 0 → holds I (x.env s) r0
  enter : ∀ s, holds I (x.env s) r0 → s.row < x.base.length → holds I (x.env { s with rowVec := [], col := 0 }) r1
  step : ∀ s c p v, holds I (x.env s) r0 → s.row < x.base.length → holds I (x.env { s with col := c, pixel := p, rowVec := v }) r1 →
    c < x.width → ∀ q, q = f (read I x.base s.row c) (read I x.active s.row c) →
      holds I (x.env { s with col := c + 1, pixel := q, rowVec := v ++ [q] }) r1
  leave : ∀ s c p v, holds I (x.env s) r0 → s.row < x.base.length → holds I (x.env { s with col := c, pixel := p, rowVec := v }) r1 →
    ¬ c < x.width → holds I (x.env { out := s.out ++ [v], col := c, pixel := p, row := s.row + 1, rowVec := v }) r0
  post : ∀ s, holds I (x.env s) r0 → ¬ s.row < x.base.length → holds I (x.env s) rp

/-- Two rectangular matrices of the same size with at least one column. -/
def Rect (x : Input) : Prop :=
  x.base.length = x.active.length ∧ ∃ n, 1 ≤ n ∧ ∀ r, r ∈ x.base ∨ r ∈ x.active → r.length = n

/-- The function `name` of the interpretation has the body `e`. -/
def HasBody (I : Interp) (name : String) (ps : List String) (e : Expr) : Prop :=
  ∀ ρ : Env, (∀ p ∈ ps, ∃ i, ρ p = .int i) → I.fn name (ps.map ρ) = eval I ρ e

/-- Candidates chosen from a search space: the two invariants, the result and the bodies of the functions to be found. -/
structure Candidate where
  inv0 : Expr
  inv1 : Expr
  ps : Expr
  fns : List Expr

/-- The candidate belongs to the search space of the program: every part resolves the choices of its grammar. -/
structure Candidate.InSpace (c : Candidate) (b : Bench) : Prop where
  inv0 : ∃ g, b.space.inv0 b.writes0 b.reads = some g ∧ Resolves g.src c.inv0
  inv1 : ∃ g, b.space.inv1 b.writes1 b.reads [outV, rowV] = some g ∧ Resolves g.src c.inv1
  ps : ∃ g, b.space.ps [outV] b.reads = some g ∧ Resolves g.src c.ps
  fns : All2 (fun s e => ∃ g, s.2.2 = some g ∧ Resolves g.src e) b.space.synths c.fns

/-- The interpretation satisfies the declarations of the target language and the functions found have their bodies. -/
structure Candidate.Interprets (c : Candidate) (b : Bench) (I : Interp) : Prop where
  model : Model I
  fns : All2 (fun s e => HasBody I s.1 s.2.1 e) b.space.synths c.fns
  apply : ∀ s ∈ b.space.synths, ∀ vs, I.apply (.fn s.1) vs = I.fn s.1 vs

/-- The candidate solves the program for the inputs in `P`. -/
def Candidate.Solves (c : Candidate) (b : Bench) (P : Input → Prop) : Prop :=
  ∀ I, c.Interprets b I → ∀ x, P x → Valid I x (b.pixel I x.opac x.rand) c.inv0 c.inv1 c.ps

/-! ### The conditions are sound for the loops -/

/-- The matrix that the program returns. -/
def result (I : Interp) (x : Input) (f : Int → Int → Int) : List (List Int) :=
  (List.range x.base.length).map fun (i : Nat) => (List.range x.width.toNat).map fun (j : Nat) => f (read I x.base i j) (read I x.active i j)

theorem width_nonneg (x : Input) : 0 ≤ x.width := Int.natCast_nonneg _

theorem Valid.row {I : Interp} {x : Input} {f : Int → Int → Int} {r0 r1 rp : Expr} (h : Valid I x f r0 r1 rp) (s : Vars) (i : Nat)
    (hi : s.row = i) (hlt : i < x.base.length) (h0 : holds I (x.env s) r0) : ∀ k : Nat, k ≤ x.width.toNat →
    ∃ p, holds I (x.env { s with col := k, pixel := p, rowVec := (List.range k).map fun (j : Nat) => f (read I x.base i j) (read I x.active i j) }) r1 := by
  have hr : s.row < x.base.length := by omega
  intro k
  induction k with
  | zero => exact fun _ => ⟨s.pixel, h.enter s h0 hr⟩
  | succ k ih =>
    intro hk
    obtain ⟨p, hp⟩ := ih (by omega)
    have := h.step s k p _ h0 hr hp (by have := width_nonneg x; omega) _ rfl
    rw [List.range_succ, List.map_append]
    rw [hi] at this ⊢
    exact ⟨_, this⟩

theorem Valid.rows {I : Interp} {x : Input} {f : Int → Int → Int} {r0 r1 rp : Expr} (h : Valid I x f r0 r1 rp) : ∀ i : Nat,
    i ≤ x.base.length → ∃ s : Vars, s.row = i ∧ holds I (x.env s) r0 ∧
      s.out = (List.range i).map fun (i : Nat) => (List.range x.width.toNat).map fun (j : Nat) => f (read I x.base i j) (read I x.active i j) := by
  intro i
  induction i with
  | zero => exact fun _ => ⟨⟨[], 0, 0, 0, []⟩, rfl, h.init _ rfl rfl, rfl⟩
  | succ i ih =>
    intro hi
    obtain ⟨s, hs, h0, ho⟩ := ih (by omega)
    obtain ⟨p, hp⟩ := h.row s i hs (by omega) h0 _ (Nat.le_refl _)
    have := h.leave s _ p _ h0 (by omega) hp (by have := width_nonneg x; omega)
    refine ⟨_, ?_, this, ?_⟩
    · simp [hs]
    · simp only [ho, List.range_succ, List.map_append, List.map_cons, List.map_nil]

/-- When the conditions hold, the matrix that the loops compute satisfies the postcondition. -/
theorem Valid.sound {I : Interp} {x : Input} {f : Int → Int → Int} {r0 r1 rp : Expr} (h : Valid I x f r0 r1 rp) :
    ∃ s : Vars, s.out = result I x f ∧ holds I (x.env s) rp := by
  obtain ⟨s, hs, h0, ho⟩ := h.rows _ (Nat.le_refl _)
  exact ⟨s, ho, h.post s h0 (by omega)⟩

/-! ### The solutions -/

/-- What a way to fill the hole must give: `tm` and `vm` resolve the right-hand sides built by `tensor` and `vector` from two
resolutions of the operand, and compute `f` element by element. -/
structure Fills (tensor vector : Obj → Option Obj) (tm vm : Expr → Expr → Expr) : Prop where
  mat : ∀ o : Obj, o.ty = .matrix .int → ∃ g, tensor o = some g ∧ g.ty = .matrix .int ∧
    ∀ p q, Resolves o.src p → Resolves o.src q → Resolves g.src (tm p q)
  vec : ∀ o : Obj, o.ty = .list .int → ∃ g, vector o = some g ∧ g.ty = .list .int ∧
    ∀ p q, Resolves o.src p → Resolves o.src q → Resolves g.src (vm p q)

@[inherit_doc Fills] structure Computes2 (I : Interp) (x : Input) (f : Int → Int → Int) (tm vm : Expr → Expr → Expr) : Prop where
  mat : ∀ s p q ms ns, eval I (x.env s) p = matV ms → eval I (x.env s) q = matV ns → SameShape ms ns →
    eval I (x.env s) (tm p q) = matV (List.zipWith (List.zipWith f) ms ns)
  vec : ∀ s p q xs ys, eval I (x.env s) p = vecV xs → eval I (x.env s) q = vecV ys → xs.length = ys.length →
    eval I (x.env s) (vm p q) = vecV (List.zipWith f xs ys)

/-- The parts of a matrix that are processed, with the operand chosen. -/
def pObj (b : Obj) : Obj :=
  ite' outerFirst (call "matrix_take" (.matrix .int) [b, rowV]) (b.colSlice (.int 0) rowV)
@[inherit_doc pObj] def wObj (b : Obj) : Obj :=
  call "matrix_get" (.list .int)
    [(call "matrix_col_slice_with_length" (.matrix .int) [call "matrix_take" (.matrix .int) [b, colV], rowV, .int 1]).transpose, .int 0]
@[inherit_doc pObj] def vObj (b : Obj) : Obj :=
  ite' outerFirst (call "list_take" (.list .int) [call "matrix_get" (.list .int) [b, rowV], colV]) (wObj b)

/-- The solution for a way to fill the hole. -/
def sol0 (tm : Expr → Expr → Expr) : Expr :=
  mkAnd [mkAnd [(rowV.ge (.int 0)).src, (rowV.le baseV.len).src],
    mkCall "list_eq" .bool [outV.src, tm (pObj baseV).src (pObj activeV).src]]
@[inherit_doc sol0] def sol1 (tm vm : Expr → Expr → Expr) : Expr :=
  mkAnd [mkAnd [mkAnd [mkAnd [mkAnd [(rowV.ge (.int 0)).src, (rowV.le baseV.len).src], (colV.ge (.int 0)).src],
    (colV.le (call "matrix_get" (.list .int) [baseV, .int 0]).len).src],
    mkCall "list_eq" .bool [rowVecV.src, vm (vObj baseV).src (vObj activeV).src]],
    mkCall "list_eq" .bool [outV.src, tm (pObj baseV).src (pObj activeV).src]]
@[inherit_doc sol0] def solP (tm : Expr → Expr → Expr) : Expr := mkCall "list_eq" .bool [outV.src, tm baseV.src activeV.src]

/-- The choice of the operand. -/
def opObj : Obj := ⟨.node .choose (OTy.matrix .int).toTy [baseV.src, activeV.src], .matrix .int⟩

theorem chooseObj_op : chooseObj [baseV, activeV] = some opObj := rfl

theorem resolves_call {f : String} {t : OTy} {os ps : List Obj} (h : All2 (fun o p => Resolves o.src p.src) os ps) :
    Resolves (call f t os).src (call f t ps).src := by
  refine .node (by simp) ?_
  induction h with
  | nil => exact .nil
  | cons h _ ih => exact .cons h ih

theorem resolves_ite' {c c' a a' b b' : Obj} (hc : Resolves c.src c'.src) (ha : Resolves a.src a'.src) (hb : Resolves b.src b'.src)
    (ht : a.ty = a'.ty) : Resolves (ite' c a b).src (ite' c' a' b').src := by
  simp only [ite', ht]
  exact .node (by simp) (.cons hc (.cons ha (.cons hb .nil)))

theorem resolves_varObj (n : String) (t : OTy) : Resolves (Obj.var n t).src (Obj.var n t).src := .var
theorem resolves_intObj (i : Int) : Resolves (Obj.int i).src (Obj.int i).src := .lit
theorem resolves_outerFirst : Resolves outerFirst.src outerFirst.src := .node (by simp) .nil

theorem resolves_op {o : Obj} (h : o = baseV ∨ o = activeV) : Resolves opObj.src o.src := by
  rcases h with rfl | rfl
  · exact .choose (List.mem_cons_self ..) .var
  · exact .choose (List.mem_cons_of_mem _ (List.mem_cons_self ..)) .var

theorem resolves_pObj {o p : Obj} (ho : o.ty = .matrix .int) (hp : p.ty = .matrix .int) (h : Resolves o.src p.src) :
    Resolves (pObj o).src (pObj p).src := by
  refine resolves_ite' resolves_outerFirst (resolves_call (.cons h (.cons .var .nil))) ?_ rfl
  simp only [Obj.colSlice, ho, hp]
  exact resolves_call (.cons h (.cons .lit (.cons .var .nil)))

theorem resolves_vObj {o p : Obj} (h : Resolves o.src p.src) : Resolves (vObj o).src (vObj p).src := by
  refine resolves_ite' resolves_outerFirst
    (resolves_call (.cons (resolves_call (.cons h (.cons .var .nil))) (.cons .var .nil))) ?_ rfl
  refine resolves_call (.cons ?_ (.cons .lit .nil))
  exact resolves_call (.cons (resolves_call (.cons (resolves_call (.cons h (.cons .var .nil))) (.cons .var (.cons .lit .nil)))) .nil)

/-- The grammar of the outer part: the choice between the part and its transposed. -/
def outerObj : Obj := ⟨.node .choose (OTy.matrix .int).toTy [(pObj opObj).src, (pObj opObj).transpose.src], .matrix .int⟩

theorem outerPart_op : outerPart opObj rowV = some outerObj := rfl
theorem innerPart_op : innerPart opObj rowV colV = some (vObj opObj) := rfl

theorem resolves_outer {o : Obj} (h : o = baseV ∨ o = activeV) : Resolves outerObj.src (pObj o).src :=
  .choose (List.mem_cons_self ..) (resolves_pObj rfl (by rcases h with rfl | rfl <;> rfl) (resolves_op h))

theorem pyEq_node (o p : Op) (t u : Ty) (as bs : List Expr) :
    (Expr.node o t as).pyEq (.node p u bs) = (decide (o = p) && Expr.pyEqs as bs) := by rw [Expr.pyEq]

theorem pyEqs_var (m n : String) (t u : Ty) (as bs : List Expr) (h : m ≠ n) : Expr.pyEqs (.var m t :: as) (.var n u :: bs) = false := by
  simp [Expr.pyEqs, Expr.pyEq, h]

theorem listEq_eq {l r : Obj} (h : r.ty = l.ty) : l.listEq r = ⟨mkCall "list_eq" .bool [l.src, r.src], .bool⟩ := by
  rw [Obj.listEq, if_pos h.symm]; rfl

theorem andObjs3 (G : Expr) (t : OTy) : andObjs [rowV.ge (.int 0), rowV.le baseV.len, ⟨mkCall "list_eq" .bool [outV.src, G], t⟩] =
    some ⟨mkAnd [mkAnd [(rowV.ge (.int 0)).src, (rowV.le baseV.len).src], mkCall "list_eq" .bool [outV.src, G]], .bool⟩ := by
  simp only [andObjs, andObjects, ObjectSet.init, andExprs, Obj.ge, Obj.le, mkCall, List.map_cons, List.map_nil, List.foldl_cons,
    List.foldl_nil, List.any_nil]
  rfl

theorem andObjs6 (G H : Expr) (t : OTy) : andObjs [rowV.ge (.int 0), rowV.le baseV.len, colV.ge (.int 0),
      colV.le (call "matrix_get" (.list .int) [baseV, .int 0]).len, ⟨mkCall "list_eq" .bool [rowVecV.src, H], t⟩,
      ⟨mkCall "list_eq" .bool [outV.src, G], t⟩] =
    some ⟨mkAnd [mkAnd [mkAnd [mkAnd [mkAnd [(rowV.ge (.int 0)).src, (rowV.le baseV.len).src], (colV.ge (.int 0)).src],
      (colV.le (call "matrix_get" (.list .int) [baseV, .int 0]).len).src], mkCall "list_eq" .bool [rowVecV.src, H]],
      mkCall "list_eq" .bool [outV.src, G]], .bool⟩ := by
  have h1 : ∀ a b, Expr.pyEqs (colV.src :: a) (rowV.src :: b) = false := fun a b => pyEqs_var _ _ _ _ a b (by decide)
  have h2 : ∀ a b, Expr.pyEqs (outV.src :: a) (rowVecV.src :: b) = false := fun a b => pyEqs_var _ _ _ _ a b (by decide)
  simp only [andObjs, andObjects, ObjectSet.init, andExprs, Obj.ge, Obj.le, mkCall, List.map_cons, List.map_nil, List.foldl_cons,
    List.foldl_nil, List.any_nil, List.any_cons, pyEq_node, h1, h2, Bool.and_false, Bool.or_false, Bool.false_eq_true,
    if_false, List.nil_append, List.cons_append, reduceCtorEq, decide_false, Bool.false_and, Option.map_some]

theorem resolves_and {a b a' b' : Expr} (h : Resolves a a') (h' : Resolves b b') : Resolves (mkAnd [a, b]) (mkAnd [a', b']) :=
  .node (by simp) (.cons h (.cons h' .nil))

theorem resolves_cmp {op : Op} (ho : op ≠ .choose) {t : Ty} {a b a' b' : Expr} (h : Resolves a a') (h' : Resolves b b') :
    Resolves (.node op t [a, b]) (.node op t [a', b']) := .node ho (.cons h (.cons h' .nil))

theorem resolves_len (n : String) (t : OTy) : Resolves (Obj.var n t).len.src (Obj.var n t).len.src := .node (by simp) (.cons .var .nil)

theorem Fills.inv0 {tensor vector : Obj → Option Obj} {tm vm : Expr → Expr → Expr} (F : Fills tensor vector tm vm) :
    ∃ g, inv0Body tensor outV rowV baseV activeV = some g ∧ Resolves g.src (sol0 tm) := by
  obtain ⟨G, hG, ht, hr⟩ := F.mat outerObj rfl
  have he : outV.listEq G = ⟨mkCall "list_eq" .bool [outV.src, G.src], .bool⟩ := listEq_eq ht
  refine ⟨_, Eq.trans ?_ (andObjs3 G.src .bool), ?_⟩
  · simp only [inv0Body, chooseObj_op, outerPart_op, hG, Option.bind_eq_bind, Option.bind_some]
    rw [he]
  · refine resolves_and (resolves_and (resolves_cmp (by simp) .var .lit) (resolves_cmp (by simp) .var (resolves_len _ _))) ?_
    exact .node (by simp) (.cons .var (.cons (hr _ _ (resolves_outer (.inl rfl)) (resolves_outer (.inr rfl))) .nil))

theorem Fills.inv1 {tensor vector : Obj → Option Obj} {tm vm : Expr → Expr → Expr} (F : Fills tensor vector tm vm) :
    ∃ g, inv1Body tensor vector colV rowVecV outV rowV baseV activeV = some g ∧ Resolves g.src (sol1 tm vm) := by
  obtain ⟨G, hG, ht, hr⟩ := F.mat outerObj rfl
  obtain ⟨H, hH, ht', hr'⟩ := F.vec (vObj opObj) rfl
  have he : outV.listEq G = ⟨mkCall "list_eq" .bool [outV.src, G.src], .bool⟩ := listEq_eq ht
  have he' : rowVecV.listEq H = ⟨mkCall "list_eq" .bool [rowVecV.src, H.src], .bool⟩ := listEq_eq ht'
  have h0 : baseV.getitem (.at (.int 0)) = some (call "matrix_get" (.list .int) [baseV, .int 0]) := rfl
  refine ⟨_, Eq.trans ?_ (andObjs6 G.src H.src .bool), ?_⟩
  · simp only [inv1Body, chooseObj_op, outerPart_op, innerPart_op, hG, hH, h0, Option.bind_eq_bind, Option.bind_some]
    rw [he, he']
  · refine resolves_and (resolves_and (resolves_and (resolves_and (resolves_and (resolves_cmp (by simp) .var .lit)
      (resolves_cmp (by simp) .var (resolves_len _ _))) (resolves_cmp (by simp) .var .lit)) (resolves_cmp (by simp) .var ?_)) ?_) ?_
    · exact .node (by simp) (.cons (.node (by simp) (.cons .var (.cons .lit .nil))) .nil)
    · exact .node (by simp) (.cons .var (.cons (hr' _ _ (resolves_vObj (resolves_op (.inl rfl))) (resolves_vObj (resolves_op (.inr rfl)))) .nil))
    · exact .node (by simp) (.cons .var (.cons (hr _ _ (resolves_outer (.inl rfl)) (resolves_outer (.inr rfl))) .nil))

theorem Fills.ps {tensor vector : Obj → Option Obj} {tm vm : Expr → Expr → Expr} (F : Fills tensor vector tm vm) :
    ∃ g, psBody tensor outV baseV activeV = some g ∧ Resolves g.src (solP tm) := by
  obtain ⟨G, hG, ht, hr⟩ := F.mat ⟨.node .choose (OTy.matrix .int).toTy [opObj.src, opObj.transpose.src], .matrix .int⟩ rfl
  have he : outV.listEq G = ⟨mkCall "list_eq" .bool [outV.src, G.src], .bool⟩ := listEq_eq ht
  have hc : chooseObj [opObj, opObj.transpose] =
    some ⟨.node .choose (OTy.matrix .int).toTy [opObj.src, opObj.transpose.src], .matrix .int⟩ := rfl
  refine ⟨⟨mkCall "list_eq" .bool [outV.src, G.src], .bool⟩, ?_, ?_⟩
  · simp only [psBody, chooseObj_op, hc, hG, Option.bind_eq_bind, Option.bind_some]
    rw [he]
  · refine .node (by simp) (.cons .var (.cons (hr _ _ ?_ ?_) .nil))
    · exact .choose (List.mem_cons_self ..) (resolves_op (.inl rfl))
    · exact .choose (List.mem_cons_self ..) (resolves_op (.inr rfl))

/-! ### The conditions hold -/

/-- What the conditions of the solution say about lists. -/
def Sem0 (x : Input) (f : Int → Int → Int) (s : Vars) : Prop :=
  0 ≤ s.row ∧ s.row ≤ x.base.length ∧
    s.out = List.zipWith (List.zipWith f) (x.base.take s.row.toNat) (x.active.take s.row.toNat)
@[inherit_doc Sem0] def Sem1 (x : Input) (f : Int → Int → Int) (s : Vars) (b a : List Int) : Prop :=
  0 ≤ s.col ∧ s.col ≤ x.width ∧ s.rowVec = List.zipWith f (b.take s.col.toNat) (a.take s.col.toNat)

theorem Rect.shape {x : Input} (h : Rect x) : SameShape x.base x.active := by
  obtain ⟨hl, n, hn, hr⟩ := h
  obtain ⟨b, a, _, _⟩ := x
  simp only at hl hr ⊢
  induction b generalizing a with
  | nil =>
    cases a with
    | nil => exact .nil
    | cons => cases hl
  | cons r b ih =>
    cases a with
    | nil => cases hl
    | cons q a =>
      refine .cons ⟨?_, ?_⟩ (ih a (by simpa using hl) (fun r h => hr r (by rcases h with h | h <;> simp [h])))
      · have := hr r (by simp); intro h; subst h; simp at this; omega
      · rw [hr r (by simp), hr q (by simp)]

theorem SameShape.take {m n : List (List Int)} (h : SameShape m n) (k : Nat) : SameShape (m.take k) (n.take k) := by
  induction h generalizing k with
  | nil => simp only [List.take_nil]; exact .nil
  | cons h _ ih =>
    cases k with
    | zero => exact .nil
    | succ k => exact .cons h (ih k)

theorem zipWith_take_succ {α β γ : Type} (f : α → β → γ) (xs : List α) (ys : List β) (k : Nat) (x : α) (y : β)
    (hx : xs[k]? = some x) (hy : ys[k]? = some y) :
    List.zipWith f (xs.take (k + 1)) (ys.take (k + 1)) = List.zipWith f (xs.take k) (ys.take k) ++ [f x y] := by
  induction xs generalizing ys k with
  | nil => simp at hx
  | cons a xs ih =>
    cases ys with
    | nil => simp at hy
    | cons b ys =>
      cases k with
      | zero => simp at hx hy; simp [hx, hy]
      | succ k => simpa using ih ys k (by simpa using hx) (by simpa using hy)

section Solution

variable {I : Interp} {x : Input} {f : Int → Int → Int} {tm vm : Expr → Expr → Expr} (P : ListPrims I)
  (hF : I.fn "OUTER_LOOP_INDEX_FIRST" [] = .bool true) (C : Computes2 I x f tm vm) (R : Rect x)

include P hF in
theorem eval_pObj (s : Vars) {o : Obj} {m : List (List Int)} (ho : eval I (x.env s) o.src = matV m) (h0 : 0 ≤ s.row)
    (h1 : s.row ≤ m.length) : eval I (x.env s) (pObj o).src = matV (m.take s.row.toNat) := by
  rw [pObj, eval_ite', outerFirst, eval_call, List.map_nil, hF]
  simp only [Val.asBool, if_true]
  rw [eval_call]
  simp only [List.map_cons, List.map_nil, ho]
  have hr : eval I (x.env s) rowV.src = .int s.row := rfl
  rw [hr]
  exact (P.matrix.take (m.map vecV) s.row h0 (by simpa using h1)).trans (by rw [matV, List.map_take])

include P hF in
theorem eval_vObj (s : Vars) {o : Obj} {m : List (List Int)} {r : List Int} (ho : eval I (x.env s) o.src = matV m) (h0 : 0 ≤ s.row)
    (hr : m[s.row.toNat]? = some r) (h1 : 0 ≤ s.col) (h2 : s.col ≤ r.length) :
    eval I (x.env s) (vObj o).src = vecV (r.take s.col.toNat) := by
  rw [vObj, eval_ite', outerFirst, eval_call, List.map_nil, hF]
  simp only [Val.asBool, if_true]
  rw [eval_call]
  simp only [List.map_cons, List.map_nil, eval_call, ho]
  have hrow : eval I (x.env s) rowV.src = .int s.row := rfl
  have hcol : eval I (x.env s) colV.src = .int s.col := rfl
  rw [hrow, hcol, matV, P.matrix.get (m.map vecV) s.row (vecV r) h0 (by simp [hr])]
  exact (P.list.take (r.map .int) s.col h1 (by simpa using h2)).trans (by rw [vecV, List.map_take])

theorem holds_and (ρ : Env) (a b : Expr) : holds I ρ (mkAnd [a, b]) ↔ holds I ρ a ∧ holds I ρ b := by
  simp [holds, mkAnd, eval, evals_eq_map, evalOp, Val.asBool]

include P in
theorem holds_listEq (ρ : Env) (a b : Expr) : holds I ρ (mkCall "list_eq" .bool [a, b]) ↔ eval I ρ a = eval I ρ b := by
  simp [holds, mkCall, eval, evals_eq_map, evalOp, Val.asBool, P.eq]

theorem holds_ge {ρ : Env} {a b : Obj} {i j : Int} (ha : eval I ρ a.src = .int i) (hb : eval I ρ b.src = .int j) :
    holds I ρ (a.ge b).src ↔ j ≤ i := by
  simp only [holds, Obj.ge, eval, evals_eq_map, evalOp, List.map_cons, List.map_nil, ha, hb]
  exact decide_eq_true_iff

theorem holds_le {ρ : Env} {a b : Obj} {i j : Int} (ha : eval I ρ a.src = .int i) (hb : eval I ρ b.src = .int j) :
    holds I ρ (a.le b).src ↔ i ≤ j := by
  simp only [holds, Obj.le, eval, evals_eq_map, evalOp, List.map_cons, List.map_nil, ha, hb]
  exact decide_eq_true_iff

include P in
theorem holds_row (s : Vars) : holds I (x.env s) (mkAnd [(rowV.ge (.int 0)).src, (rowV.le baseV.len).src]) ↔
    0 ≤ s.row ∧ s.row ≤ x.base.length := by
  have hr : eval I (x.env s) rowV.src = .int s.row := rfl
  have hb : eval I (x.env s) baseV.src = .list (x.base.map vecV) := rfl
  rw [holds_and]
  refine and_congr ?_ ?_
  · exact holds_ge hr rfl
  · rw [holds_le hr (eval_len P hb), List.length_map]

include P hF C R in
theorem holds_sol0 (s : Vars) : holds I (x.env s) (sol0 tm) ↔ Sem0 x f s := by
  rw [sol0, holds_and, holds_row P, Sem0, and_assoc]
  refine and_congr_right fun h0 => and_congr_right fun h1 => ?_
  have hb : eval I (x.env s) baseV.src = matV x.base := rfl
  have ha : eval I (x.env s) activeV.src = matV x.active := rfl
  have ho : eval I (x.env s) outV.src = matV s.out := rfl
  rw [holds_listEq P, ho, C.mat s _ _ _ _ (eval_pObj P hF s hb h0 h1) (eval_pObj P hF s ha h0 (by rw [← R.1]; exact h1)) (R.shape.take _)]
  exact ⟨fun h => Np.matV_inj h, fun h => by rw [h]⟩

include P hF C R in
theorem holds_sol1 (s : Vars) {b a : List Int} (hb : x.base[s.row.toNat]? = some b)
    (ha : x.active[s.row.toNat]? = some a) : holds I (x.env s) (sol1 tm vm) ↔ Sem0 x f s ∧ Sem1 x f s b a := by
  have hbv : eval I (x.env s) baseV.src = matV x.base := rfl
  have hav : eval I (x.env s) activeV.src = matV x.active := rfl
  have ho : eval I (x.env s) outV.src = matV s.out := rfl
  have hv : eval I (x.env s) rowVecV.src = vecV s.rowVec := rfl
  have hc : eval I (x.env s) colV.src = .int s.col := rfl
  have hw : eval I (x.env s) (call "matrix_get" (.list .int) [baseV, .int 0]).len.src = .int x.width := by
    have h0 : ∃ r rs, x.base = r :: rs := by
      cases h : x.base with
      | nil => rw [h] at hb; simp at hb
      | cons r rs => exact ⟨r, rs, rfl⟩
    obtain ⟨r, rs, h0⟩ := h0
    have : eval I (x.env s) (call "matrix_get" (.list .int) [baseV, .int 0]).src = .list (r.map .int) := by
      rw [eval_call]
      simp only [List.map_cons, List.map_nil, hbv]
      exact P.matrix.get (x.base.map vecV) 0 (vecV r) (Int.le_refl _) (by simp [h0])
    rw [eval_len P this, Input.width, h0]
    simp
  obtain ⟨hl, n, hn, hr⟩ := R
  have hbn : b.length = n := hr b (.inl (List.mem_of_getElem? hb))
  have han : a.length = n := hr a (.inr (List.mem_of_getElem? ha))
  have hwn : x.width = n := by
    cases h : x.base with
    | nil => rw [h] at hb; simp at hb
    | cons r rs => rw [Input.width, h]; exact congrArg Int.ofNat (hr r (by simp [h]))
  rw [sol1, holds_and, holds_and, holds_and, holds_and, holds_row P, holds_ge hc rfl, holds_le hc hw, holds_listEq P, holds_listEq P, ho, hv,
    Sem0, Sem1]
  have key : 0 ≤ s.row → s.row ≤ x.base.length → eval I (x.env s) (tm (pObj baseV).src (pObj activeV).src) =
      matV (List.zipWith (List.zipWith f) (x.base.take s.row.toNat) (x.active.take s.row.toNat)) := fun h0 h1 =>
    C.mat s _ _ _ _ (eval_pObj P hF s hbv h0 h1) (eval_pObj P hF s hav h0 (by rw [← hl]; exact h1)) (Rect.shape ⟨hl, n, hn, hr⟩ |>.take _)
  have key' : 0 ≤ s.row → 0 ≤ s.col → s.col ≤ x.width → eval I (x.env s) (vm (vObj baseV).src (vObj activeV).src) =
      vecV (List.zipWith f (b.take s.col.toNat) (a.take s.col.toNat)) := fun h0 h1 h2 =>
    C.vec s _ _ _ _ (eval_vObj P hF s hbv h0 hb h1 (by omega)) (eval_vObj P hF s hav h0 ha h1 (by omega)) (by simp [hbn, han])
  constructor
  · rintro ⟨⟨⟨⟨⟨h0, h1⟩, h2⟩, h3⟩, h4⟩, h5⟩
    rw [key h0 h1] at h5
    rw [key' h0 h2 h3] at h4
    exact ⟨⟨h0, h1, Np.matV_inj h5⟩, h2, h3, Np.vecV_inj h4⟩
  · rintro ⟨⟨h0, h1, h5⟩, h2, h3, h4⟩
    refine ⟨⟨⟨⟨⟨h0, h1⟩, h2⟩, h3⟩, ?_⟩, ?_⟩
    · rw [key' h0 h2 h3, h4]
    · rw [key h0 h1, h5]

include P C R in
theorem holds_solP (s : Vars) : holds I (x.env s) (solP tm) ↔ s.out = List.zipWith (List.zipWith f) x.base x.active := by
  have hb : eval I (x.env s) baseV.src = matV x.base := rfl
  have ha : eval I (x.env s) activeV.src = matV x.active := rfl
  have ho : eval I (x.env s) outV.src = matV s.out := rfl
  rw [solP, holds_listEq P, ho, C.mat s _ _ _ _ hb ha R.shape]
  exact ⟨fun h => Np.matV_inj h, fun h => by rw [h]⟩

include P in
theorem read_eq {m : List (List Int)} {i j : Int} {r : List Int} {v : Int} (hi : 0 ≤ i) (hj : 0 ≤ j) (hr : m[i.toNat]? = some r)
    (hv : r[j.toNat]? = some v) : read I m i j = v := by
  rw [read, matV, P.matrix.get (m.map vecV) i (vecV r) hi (by simp [hr]), vecV, P.list.get (r.map .int) j (.int v) hj (by simp [hv])]
  rfl

include P R in
/-- The conditions hold for candidates that say about lists what `Sem0` and `Sem1` say. -/
theorem valid_of_sem {r0 r1 rp : Expr} (H0 : ∀ s, holds I (x.env s) r0 ↔ Sem0 x f s)
    (H1 : ∀ (s : Vars) {b a : List Int}, x.base[s.row.toNat]? = some b → x.active[s.row.toNat]? = some a →
      (holds I (x.env s) r1 ↔ Sem0 x f s ∧ Sem1 x f s b a))
    (HP : ∀ s : Vars, holds I (x.env s) rp ↔ s.out = List.zipWith (List.zipWith f) x.base x.active) : Valid I x f r0 r1 rp := by
  have hrow : ∀ s : Vars, 0 ≤ s.row → s.row < x.base.length → ∃ b a, x.base[s.row.toNat]? = some b ∧ x.active[s.row.toNat]? = some a ∧
      b.length = x.width.toNat ∧ a.length = x.width.toNat := by
    intro s h0 h1
    obtain ⟨hl, n, hn, hr⟩ := R
    have hlt : s.row.toNat < x.base.length := by omega
    have hlt' : s.row.toNat < x.active.length := by omega
    have hwn : x.width.toNat = n := by
      cases h : x.base with
      | nil => rw [h] at hlt; simp at hlt
      | cons r rs => rw [Input.width, h]; simpa using hr r (by simp [h])
    refine ⟨_, _, List.getElem?_eq_getElem hlt, List.getElem?_eq_getElem hlt', ?_, ?_⟩
    · rw [hwn]; exact hr _ (.inl (List.getElem_mem _))
    · rw [hwn]; exact hr _ (.inr (List.getElem_mem _))
  have hwpos := width_nonneg x
  refine ⟨?_, ?_, ?_, ?_, ?_⟩
  · intro s ho hr
    rw [H0]
    exact ⟨by omega, by omega, by simp [ho, hr]⟩
  · intro s h hlt
    rw [H0] at h
    obtain ⟨b, a, hb, ha, hbl, hal⟩ := hrow s h.1 hlt
    rw [H1 { s with rowVec := [], col := 0 } hb ha]
    exact ⟨h, Int.le_refl _, hwpos, rfl⟩
  · intro s c p v h hlt h1 hc q hq
    rw [H0] at h
    obtain ⟨b, a, hb, ha, hbl, hal⟩ := hrow s h.1 hlt
    rw [H1 { s with col := c, pixel := p, rowVec := v } hb ha] at h1
    rw [H1 { s with col := c + 1, pixel := q, rowVec := v ++ [q] } hb ha]
    obtain ⟨_, h2, h3, h4⟩ := h1
    simp only at h2 h3 h4
    have e1 : b[c.toNat]? = some (b[c.toNat]'(by omega)) := List.getElem?_eq_getElem _
    have e2 : a[c.toNat]? = some (a[c.toNat]'(by omega)) := List.getElem?_eq_getElem _
    refine ⟨h, by simp only; omega, by simp only; omega, ?_⟩
    simp only
    rw [show (c + 1).toNat = c.toNat + 1 by omega, zipWith_take_succ f b a c.toNat _ _ e1 e2, ← h4, hq,
      read_eq P h.1 h2 hb e1, read_eq P h.1 h2 ha e2]
  · intro s c p v h hlt h1 hc
    rw [H0] at h ⊢
    obtain ⟨b, a, hb, ha, hbl, hal⟩ := hrow s h.1 hlt
    rw [H1 { s with col := c, pixel := p, rowVec := v } hb ha] at h1
    obtain ⟨_, h2, h3, h4⟩ := h1
    obtain ⟨h0, _, ho⟩ := h
    simp only at h2 h3 h4
    refine ⟨by simp only; omega, by simp only; omega, ?_⟩
    simp only
    rw [show (s.row + 1).toNat = s.row.toNat + 1 by omega, zipWith_take_succ _ _ _ _ _ _ hb ha, ho, h4,
      List.take_of_length_le (l := b) (by omega), List.take_of_length_le (l := a) (by omega)]
  · intro s h hn
    rw [H0] at h
    rw [HP, h.2.2, List.take_of_length_le (by omega), List.take_of_length_le (by have := R.1; omega)]

include P hF C R in
theorem sol_valid : Valid I x f (sol0 tm) (sol1 tm vm) (solP tm) :=
  valid_of_sem P R (holds_sol0 P hF C R) (fun s {_ _} hb ha => holds_sol1 P hF C R s hb ha) (holds_solP P C R)

end Solution

/-! ### The fillings -/

/-- The operand of a call on a matrix or a vector. -/
def tenCall (mat : Bool) (m v : String) (args : List Expr) : Expr :=
  if mat then mkCall m (OTy.matrix .int).toTy args else mkCall v (OTy.list .int).toTy args

/-- The right-hand side chosen for a program. -/
def Bench.fill (mat : Bool) (p q : Expr) : Bench → Expr
  | .multiply => tenCall mat "matrix_scalar_div" "vec_scalar_div" [intLit 32, tenCall mat "matrix_elemwise_mul" "vec_elemwise_mul" [p, q]]
  | .linearBurn => tenCall mat "matrix_scalar_sub" "vec_scalar_sub" [intLit 32, tenCall mat "matrix_elemwise_add" "vec_elemwise_add" [p, q]]
  | .screen => tenCall mat "matrix_elemwise_sub" "vec_elemwise_sub" [tenCall mat "matrix_elemwise_add" "vec_elemwise_add" [p, q],
      tenCall mat "matrix_scalar_div" "vec_scalar_div" [intLit 32, tenCall mat "matrix_elemwise_mul" "vec_elemwise_mul" [p, q]]]
  | .linearDodge => tenCall mat "matrix_elemwise_add" "vec_elemwise_add" [p, q]
  | .dissolve => tenCall mat "dissolve_matrix_selection_two_args" "dissolve_selection_two_args"
      [p, q, opacity.src, randCons.src, dissolveSelectFn.src]
  | _ => tenCall mat "matrix_selection_two_args" "selection_two_args" [p, q, selectFn.src]

/-- The functions found for a program. -/
def Bench.found : Bench → List Expr
  | .darken => [(ite' (intX.gt intY) intY intX).src, boolLit true]
  | .colorBurn => [(ite' (intY.eq (.int 0)) (.int 32) ((Obj.int 32).sub (((Obj.int 32).sub intX).div intY))).src, boolLit true]
  | .lighten => [(ite' (intX.lt intY) intY intX).src, boolLit true]
  | .colorDodge => [(ite' (intY.eq (.int 32)) (.int 32) (intX.div ((Obj.int 32).sub intY))).src, boolLit true]
  | .overlay => [(ite' (intX.ge (.int 16))
      (((((Obj.int 2).mul intX).add intX).sub ((((Obj.int 2).mul intX).mul intX).div (.int 32))).sub (.int 32))
      ((((Obj.int 2).mul intX).mul intX).div (.int 32))).src, boolLit true]
  | .dissolve => [(ite' ((opacity.sub (((randCons.mod (.int 100)).add (.int 1)).div (.int 100))).ge (.int 0)) intY intX).src, boolLit true]
  | _ => [boolLit true]

/-- The solution of a program. -/
def Bench.solution (b : Bench) : Candidate :=
  ⟨sol0 (fun p q => b.fill true p q), sol1 (fun p q => b.fill true p q) (fun p q => b.fill false p q), solP (fun p q => b.fill true p q),
    b.found⟩

/-- Resolving a concrete grammar. -/
macro "resolve" : tactic => `(tactic| repeat (first
  | exact Resolves.var | exact Resolves.lit | assumption
  | exact All2.nil | refine All2.cons ?_ ?_
  | refine Resolves.node (by simp) ?_))

theorem fills_computation (hole : Obj → Option Obj) (b : Bench)
    (h : (b = .multiply ∧ hole = multiplyHole) ∨ (b = .linearBurn ∧ hole = linearBurnHole) ∨ (b = .screen ∧ hole = screenHole) ∨
      (b = .linearDodge ∧ hole = linearDodgeHole)) : Fills hole hole (fun p q => b.fill true p q) (fun p q => b.fill false p q) := by
  have h32 : Resolves (Expr.node .choose .int [intLit 32]) (intLit 32) := .choose (List.mem_cons_self ..) .lit
  have hc : chooseObj [.int 32] = some ⟨.node .choose .int [intLit 32], .int⟩ := rfl
  constructor
  · intro o ho
    rcases h with ⟨rfl, rfl⟩ | ⟨rfl, rfl⟩ | ⟨rfl, rfl⟩ | ⟨rfl, rfl⟩
    all_goals
      refine ⟨_, by
        simp only [multiplyHole, linearBurnHole, screenHole, linearDodgeHole, hc, Option.bind_eq_bind, Option.bind_some, scalarDiv, scalarSub,
          elemwiseMul, elemwiseAdd, elemwiseSub, dispatch, ho, isMatrixType, OTy.isTensor3d, call, if_true, Bool.false_eq_true, if_false]
        rfl, rfl, ?_⟩
      intro p q hp hq
      simp only [Bench.fill, tenCall, if_true]
      resolve
  · intro o ho
    rcases h with ⟨rfl, rfl⟩ | ⟨rfl, rfl⟩ | ⟨rfl, rfl⟩ | ⟨rfl, rfl⟩
    all_goals
      refine ⟨_, by
        simp only [multiplyHole, linearBurnHole, screenHole, linearDodgeHole, hc, Option.bind_eq_bind, Option.bind_some, scalarDiv, scalarSub,
          elemwiseMul, elemwiseAdd, elemwiseSub, dispatch, ho, isMatrixType, OTy.isTensor3d, call, Bool.false_eq_true, if_false]
        rfl, rfl, ?_⟩
      intro p q hp hq
      simp only [Bench.fill, tenCall, Bool.false_eq_true, if_false]
      resolve

theorem fills_select (b : Bench) (h : ∀ mat p q, b.fill mat p q = Bench.darken.fill mat p q) :
    Fills (fun m => some (call "matrix_selection_two_args" (.matrix .int) [m, m, selectFn]))
      (fun v => some (call "selection_two_args" (.list .int) [v, v, selectFn])) (fun p q => b.fill true p q) (fun p q => b.fill false p q) := by
  simp only [h]
  exact ⟨fun o _ => ⟨_, rfl, rfl, fun p q hp hq => by
      simp only [Bench.fill, tenCall, if_true, call, List.map_cons, List.map_nil]; resolve⟩,
    fun o _ => ⟨_, rfl, rfl, fun p q hp hq => by
      simp only [Bench.fill, tenCall, Bool.false_eq_true, if_false, call, List.map_cons, List.map_nil]; resolve⟩⟩

theorem fills_dissolve :
    Fills (fun m => some (call "dissolve_matrix_selection_two_args" (.matrix .int) [m, m, opacity, randCons, dissolveSelectFn]))
      (fun v => some (call "dissolve_selection_two_args" (.list .int) [v, v, opacity, randCons, dissolveSelectFn]))
      (fun p q => Bench.dissolve.fill true p q) (fun p q => Bench.dissolve.fill false p q) :=
  ⟨fun o _ => ⟨_, rfl, rfl, fun p q hp hq => by
      simp only [Bench.fill, tenCall, if_true, call, List.map_cons, List.map_nil]; resolve⟩,
    fun o _ => ⟨_, rfl, rfl, fun p q hp hq => by
      simp only [Bench.fill, tenCall, Bool.false_eq_true, if_false, call, List.map_cons, List.map_nil]; resolve⟩⟩

/-- Resolving the choices of a concrete grammar, trying the alternatives in order. -/
syntax "resolveAny" : tactic
macro_rules | `(tactic| resolveAny) => `(tactic| first
  | exact Resolves.var | exact Resolves.lit | exact All2.nil
  | (refine All2.cons ?_ ?_ <;> resolveAny)
  | (refine Resolves.node (by simp) ?_; resolveAny)
  | (refine Resolves.choose (List.mem_cons_self ..) ?_; resolveAny)
  | (refine Resolves.choose (List.mem_cons_of_mem _ (List.mem_cons_self ..)) ?_; resolveAny)
  | (refine Resolves.choose (List.mem_cons_of_mem _ (List.mem_cons_of_mem _ (List.mem_cons_self ..))) ?_; resolveAny)
  | (refine Resolves.choose (List.mem_cons_of_mem _ (List.mem_cons_of_mem _ (List.mem_cons_of_mem _ (List.mem_cons_self ..)))) ?_; resolveAny))

theorem resolves_first : ∃ g, noArgBool = some g ∧ Resolves g.src (boolLit true) :=
  ⟨_, rfl, .choose (List.mem_cons_self ..) .lit⟩

theorem found_inSpace (b : Bench) : All2 (fun s e => ∃ g, s.2.2 = some g ∧ Resolves g.src e) b.space.synths b.found := by
  cases b
  case multiply => exact .cons resolves_first .nil
  case linearBurn => exact .cons resolves_first .nil
  case screen => exact .cons resolves_first .nil
  case linearDodge => exact .cons resolves_first .nil
  all_goals
    refine .cons ⟨_, rfl, ?_⟩ (.cons resolves_first .nil)
    simp only [ite', Obj.gt, Obj.lt, Obj.ge, Obj.eq, Obj.sub, Obj.add, Obj.mul, Obj.div, Obj.mod]
    resolveAny

theorem solution_inSpace (b : Bench) : b.solution.InSpace b := by
  have key : ∀ {tensor vector}, Fills tensor vector (fun p q => b.fill true p q) (fun p q => b.fill false p q) →
      b.space.inv0 b.writes0 b.reads = inv0Body tensor outV rowV baseV activeV →
      b.space.inv1 b.writes1 b.reads [outV, rowV] = inv1Body tensor vector colV rowVecV outV rowV baseV activeV →
      b.space.ps [outV] b.reads = psBody tensor outV baseV activeV → b.solution.InSpace b := fun F h0 h1 h2 =>
    ⟨by rw [h0]; exact F.inv0, by rw [h1]; exact F.inv1, by rw [h2]; exact F.ps, found_inSpace b⟩
  cases b
  case multiply => exact key (fills_computation _ _ (.inl ⟨rfl, rfl⟩)) rfl rfl rfl
  case linearBurn => exact key (fills_computation _ _ (.inr (.inl ⟨rfl, rfl⟩))) rfl rfl rfl
  case screen => exact key (fills_computation _ _ (.inr (.inr (.inl ⟨rfl, rfl⟩)))) rfl rfl rfl
  case linearDodge => exact key (fills_computation _ _ (.inr (.inr (.inr ⟨rfl, rfl⟩)))) rfl rfl rfl
  case dissolve => exact key fills_dissolve rfl rfl rfl
  all_goals exact key (fills_select _ fun _ _ _ => rfl) rfl rfl rfl

theorem eval_mkCall (I : Interp) (ρ : Env) (g : String) (t : Ty) (as : List Expr) : eval I ρ (mkCall g t as) = I.fn g (as.map (eval I ρ)) := by
  rw [mkCall, eval, evals_eq_map]; rfl

theorem zipWith_shape {f : Int → Int → Int} {ms ns : List (List Int)} (h : SameShape ms ns) :
    (∀ r ∈ List.zipWith (List.zipWith f) ms ns, r ≠ []) := by
  induction h with
  | nil => simp
  | cons h _ ih =>
    rename_i r s _ _ _
    intro t ht
    simp only [List.zipWith_cons_cons, List.mem_cons] at ht
    rcases ht with rfl | ht
    · obtain ⟨h1, h2⟩ := h
      cases r with
      | nil => simp at h1
      | cons a r => cases s with
        | nil => simp at h2
        | cons b s => simp
    · exact ih t ht

theorem zipWith_zipWith_shape {f g : Int → Int → Int} {ms ns : List (List Int)} (h : SameShape ms ns) :
    SameShape (List.zipWith (List.zipWith f) ms ns) (List.zipWith (List.zipWith g) ms ns) := by
  induction h with
  | nil => exact .nil
  | cons h _ ih =>
    refine .cons ⟨?_, by simp [h.2]⟩ ih
    exact zipWith_shape (f := f) (.cons h .nil) _ (by simp)

theorem zipWith_map_map {f : Int → Int → Int} (g : Int → Int) (ms ns : List (List Int)) :
    (List.zipWith (List.zipWith f) ms ns).map (List.map g) = List.zipWith (List.zipWith fun a b => g (f a b)) ms ns := by
  simp only [List.map_zipWith]

theorem zipWith_both (f g h : Int → Int → Int) (xs ys : List Int) :
    List.zipWith h (List.zipWith f xs ys) (List.zipWith g xs ys) = List.zipWith (fun a b => h (f a b) (g a b)) xs ys := by
  induction xs generalizing ys with
  | nil => rfl
  | cons a xs ih => cases ys with
    | nil => rfl
    | cons b ys => simp [ih]

theorem zipWith_both2 (f g h : Int → Int → Int) (ms ns : List (List Int)) :
    List.zipWith (List.zipWith h) (List.zipWith (List.zipWith f) ms ns) (List.zipWith (List.zipWith g) ms ns) =
      List.zipWith (List.zipWith fun a b => h (f a b) (g a b)) ms ns := by
  induction ms generalizing ns with
  | nil => rfl
  | cons a ms ih => cases ns with
    | nil => rfl
    | cons b ns => simp [ih, zipWith_both]

theorem computes_computation (b : Bench) (hb : b = .multiply ∨ b = .linearBurn ∨ b = .screen ∨ b = .linearDodge) {I : Interp} (M : Model I)
    (x : Input) : Computes2 I x (b.pixel I x.opac x.rand) (fun p q => b.fill true p q) (fun p q => b.fill false p q) := by
  have h32 : ∀ ρ, eval I ρ (intLit 32) = .int 32 := fun _ => rfl
  constructor
  · intro s p q ms ns hp hq hs
    have A := C31_matrices_partial I M ms ns hs
    have D := fun g => C31_scalar_matrices_partial I M 32 (List.zipWith (List.zipWith g) ms ns) (zipWith_shape hs)
    have E := fun f g => C31_matrices_partial I M _ _ (zipWith_zipWith_shape (f := f) (g := g) hs)
    rcases hb with rfl | rfl | rfl | rfl <;>
      simp only [Bench.fill, tenCall, if_true, eval_mkCall, List.map_cons, List.map_nil, hp, hq, h32, A, D, E, zipWith_map_map,
        zipWith_both2] <;> rfl
  · intro s p q xs ys hp hq hs
    have A := C31_vectors I M xs ys 32
    have D := fun g => C31_vectors I M (List.zipWith g xs ys) [] 32
    have E := fun f g => C31_vectors I M (List.zipWith f xs ys) (List.zipWith g xs ys) 0
    rcases hb with rfl | rfl | rfl | rfl <;>
      simp only [Bench.fill, tenCall, Bool.false_eq_true, if_false, eval_mkCall, List.map_cons, List.map_nil, hp, hq, h32, A, D, E,
        zipIf_eq _ hs, List.map_zipWith] <;>
      first | rfl | (rw [zipIf_eq _ (by simp), zipWith_both]; rfl)

theorem zip_map_int (f : Int → Int → Int) (g : Int → Int → Val) (h : ∀ a b, g a b = .int (f a b)) (xs ys : List Int) :
    Val.list (List.zipWith g xs ys) = vecV (List.zipWith f xs ys) := by
  have : g = fun a b => .int (f a b) := by funext a b; exact h a b
  rw [this, vecV, List.map_zipWith]

theorem zip_map_int2 (f : Int → Int → Int) (g : Int → Int → Val) (h : ∀ a b, g a b = .int (f a b)) (ms ns : List (List Int)) :
    Val.list (List.zipWith (fun r s => Val.list (List.zipWith g r s)) ms ns) = matV (List.zipWith (List.zipWith f) ms ns) := by
  rw [matV, List.map_zipWith]
  simp only [zip_map_int f g h]

theorem computes_select (b : Bench) (hb : ∀ mat p q, b.fill mat p q = Bench.darken.fill mat p q) {I : Interp} (M : Model I) (x : Input)
    (f : Int → Int → Int) (hf : ∀ a c, I.apply (.fn "select_two_args") [.int a, .int c] = .int (f a c)) :
    Computes2 I x f (fun p q => b.fill true p q) (fun p q => b.fill false p q) := by
  simp only [hb]
  have hv : ∀ s, eval I (x.env s) selectFn.src = .fn "select_two_args" := fun _ => rfl
  constructor
  · intro s p q ms ns hp hq hs
    simp only [Bench.fill, tenCall, if_true, eval_mkCall, List.map_cons, List.map_nil, hp, hq, hv]
    rw [(C31_matrix_selections_partial I M _ ms ns 0 0 hs).1, zip_map_int2 f _ hf]
  · intro s p q xs ys hp hq hs
    simp only [Bench.fill, tenCall, Bool.false_eq_true, if_false, eval_mkCall, List.map_cons, List.map_nil, hp, hq, hv]
    rw [(C31_functional I M _ xs ys 0 0 true 0 0).2.1, zipIf_eq _ hs, zip_map_int f _ hf]

theorem computes_dissolve {I : Interp} (M : Model I) (x : Input) (f : Int → Int → Int)
    (hf : ∀ a c, I.apply (.fn "dissolve_select_two_args") [.int a, .int c, .int x.opac, .int x.rand] = .int (f a c)) :
    Computes2 I x f (fun p q => Bench.dissolve.fill true p q) (fun p q => Bench.dissolve.fill false p q) := by
  have hv : ∀ s, eval I (x.env s) dissolveSelectFn.src = .fn "dissolve_select_two_args" := fun _ => rfl
  have h1 : ∀ s, eval I (x.env s) opacity.src = .int x.opac := fun _ => rfl
  have h2 : ∀ s, eval I (x.env s) randCons.src = .int x.rand := fun _ => rfl
  constructor
  · intro s p q ms ns hp hq hs
    simp only [Bench.fill, tenCall, if_true, eval_mkCall, List.map_cons, List.map_nil, hp, hq, hv, h1, h2]
    rw [(C31_matrix_selections_partial I M _ ms ns _ _ hs).2, zip_map_int2 f _ hf]
  · intro s p q xs ys hp hq hs
    simp only [Bench.fill, tenCall, Bool.false_eq_true, if_false, eval_mkCall, List.map_cons, List.map_nil, hp, hq, hv, h1, h2]
    rw [(C31_functional I M _ xs ys _ _ true 0 0).2.2.1, zipIf_eq _ hs, zip_map_int f _ hf]

/-- An environment for the parameters. -/
def argEnv (a c o r : Int) : Env := fun n => if n = "int_x" then .int a else if n = "int_y" then .int c else if n = "opacity" then .int o
  else .int r

theorem eval_found {I : Interp} {ρ : Env} {a c o r : Int} (b : Bench) (e : Expr) (he : b.found = [e, boolLit true])
    (hx : ρ "int_x" = .int a) (hy : ρ "int_y" = .int c) (hor : b = .dissolve → ρ "opacity" = .int o ∧ ρ "rand_cons" = .int r) :
    eval I ρ e = .int (b.pixel I o r a c) := by
  replace hx : eval I ρ intX.src = .int a := hx
  replace hy : eval I ρ intY.src = .int c := hy
  have ho : b = .dissolve → eval I ρ opacity.src = .int o := fun h => (hor h).1
  have hr : b = .dissolve → eval I ρ randCons.src = .int r := fun h => (hor h).2
  have hi : ∀ i, eval I ρ (Obj.int i).src = .int i := fun _ => rfl
  cases b <;> simp only [Bench.found, List.cons.injEq, and_false, reduceCtorEq, and_true] at he
  all_goals
    subst he
    rw [eval_ite']
    simp only [Obj.gt, Obj.lt, Obj.ge, Obj.eq, Obj.sub, Obj.add, Obj.mul, Obj.div, Obj.mod, eval, evals_eq_map, evalOp, List.map_cons,
      List.map_nil, hx, hy, hi, ho, hr, Bench.pixel]
    simp [mkEq, eval, evals_eq_map, evalOp, hy, hi]
  all_goals first | (split <;> rfl) | (by_cases h : a < c <;> simp [h])

/-- What the solution computes. -/
theorem solution_computes (b : Bench) {I : Interp} (H : b.solution.Interprets b I) (x : Input) :
    Computes2 I x (b.pixel I x.opac x.rand) (fun p q => b.fill true p q) (fun p q => b.fill false p q) := by
  have two : ∀ e, b.found = [e, boolLit true] → HasBody I "select_two_args" ["int_x", "int_y"] e →
      (∀ vs, I.apply (.fn "select_two_args") vs = I.fn "select_two_args" vs) → ∀ a c, I.apply (.fn "select_two_args") [.int a, .int c] = .int (b.pixel I x.opac x.rand a c) := by
    intro e he hb hap a c
    rw [hap, ← eval_found (ρ := argEnv a c x.opac x.rand) (o := x.opac) (r := x.rand) b e he rfl rfl (fun _ => ⟨rfl, rfl⟩)]
    exact hb (argEnv a c x.opac x.rand) (by intro p hp; simp only [List.mem_cons, List.not_mem_nil, or_false] at hp
                                            rcases hp with rfl | rfl <;> exact ⟨_, rfl⟩)
  have four : ∀ e, b.found = [e, boolLit true] → HasBody I "dissolve_select_two_args" ["int_x", "int_y", "opacity", "rand_cons"] e →
      (∀ vs, I.apply (.fn "dissolve_select_two_args") vs = I.fn "dissolve_select_two_args" vs) → ∀ a c, I.apply (.fn "dissolve_select_two_args") [.int a, .int c, .int x.opac, .int x.rand] =
        .int (b.pixel I x.opac x.rand a c) := by
    intro e he hb hap a c
    rw [hap, ← eval_found (ρ := argEnv a c x.opac x.rand) (o := x.opac) (r := x.rand) b e he rfl rfl (fun _ => ⟨rfl, rfl⟩)]
    exact hb (argEnv a c x.opac x.rand) (by intro p hp; simp only [List.mem_cons, List.not_mem_nil, or_false] at hp
                                            rcases hp with rfl | rfl | rfl | rfl <;> exact ⟨_, rfl⟩)
  have F := H.fns
  have M := H.model
  have A := H.apply
  cases b
  case multiply => exact computes_computation _ (.inl rfl) M x
  case linearBurn => exact computes_computation _ (.inr (.inl rfl)) M x
  case screen => exact computes_computation _ (.inr (.inr (.inl rfl))) M x
  case linearDodge => exact computes_computation _ (.inr (.inr (.inr rfl))) M x
  case dissolve => cases F with | cons h _ => exact computes_dissolve M x _ (four _ rfl h (A _ (List.mem_cons_self ..)))
  all_goals cases F with | cons h _ => exact computes_select _ (fun _ _ _ => rfl) M x _ (two _ rfl h (A _ (List.mem_cons_self ..)))

theorem solution_first (b : Bench) {I : Interp} (H : b.solution.Interprets b I) : I.fn "OUTER_LOOP_INDEX_FIRST" [] = .bool true := by
  have F := H.fns
  have key : ∀ {ps : List String}, ps = [] → HasBody I "OUTER_LOOP_INDEX_FIRST" ps (boolLit true) →
      I.fn "OUTER_LOOP_INDEX_FIRST" [] = .bool true := fun {ps} hp h => by
    subst hp; exact h (fun _ => .int 0) (by simp)
  cases b
  case multiply => cases F with | cons h _ => exact key rfl h
  case linearBurn => cases F with | cons h _ => exact key rfl h
  case screen => cases F with | cons h _ => exact key rfl h
  case linearDodge => cases F with | cons h _ => exact key rfl h
  all_goals cases F with | cons _ F => cases F with | cons h _ => exact key rfl h

theorem solution_solves (b : Bench) : b.solution.Solves b Rect := fun _ H x R =>
  sol_valid H.model.prims (solution_first b H) (solution_computes b H x) R

/-- C66.  For each of the ten programs the search space written for it contains a candidate — the two invariants, the result and the functions to
be found — with which every verification condition holds in every interpretation of the target language, for all rectangular matrices of
the same size.  Partial: for ragged matrices and for matrices with empty rows, which the preconditions of the drivers do not exclude, there is none
(`C66_ragged_refuted`, `C66_empty_rows_refuted`). -/
theorem C66_contains_solution_partial (b : Bench) : ∃ c : Candidate, c.InSpace b ∧ c.Solves b Rect :=
  ⟨b.solution, solution_inSpace b, solution_solves b⟩

/-- C66: with any solution the program returns what the postcondition says. -/
theorem C66_solution_sound_partial (b : Bench) (c : Candidate) (h : c.Solves b Rect) (I : Interp) (H : c.Interprets b I) (x : Input)
    (R : Rect x) : ∃ s : Vars, s.out = result I x (b.pixel I x.opac x.rand) ∧ holds I (x.env s) c.ps :=
  (h I H x R).sound

/-! ### The hypotheses are met, and cannot be weakened to the preconditions of the drivers -/

/-- The interpretation for the programs with only the order of the loops to be found. -/
def orderInterp (drop v : Bool) : Interp := stdInterp drop (fun _ _ => .bool v) Int.fdiv

theorem orderInterp_interprets (drop v : Bool) (c : Candidate) (h : c.fns = [boolLit v]) : c.Interprets .linearDodge (orderInterp drop v) where
  model := std_model drop _ _
  fns := by rw [h]; exact .cons (fun _ _ => rfl) .nil
  apply := by
    intro s hs vs
    simp only [Bench.space, computationSpace, List.mem_cons, List.not_mem_nil, or_false] at hs
    subst hs; rfl

/-- The functions found for a program, as functions. -/
def foundFns (b : Bench) (idiv : Int → Int → Int) : Val → List Val → Val
  | .fn _, [.int a, .int c] => .int (b.pixel ⟨fun _ _ => .int 0, fun _ _ => .int 0, idiv, Int.fmod, fun _ => .int 0⟩ 0 0 a c)
  | .fn _, [.int a, .int c, .int o, .int r] => .int (b.pixel ⟨fun _ _ => .int 0, fun _ _ => .int 0, idiv, Int.fmod, fun _ => .int 0⟩ o r a c)
  | _, _ => .bool true

theorem found_hasBody (b : Bench) (hb : b ≠ .dissolve) (drop : Bool) (idiv : Int → Int → Int) (e : Expr) (he : b.found = [e, boolLit true]) :
    HasBody (stdInterp drop (foundFns b idiv) idiv) "select_two_args" ["int_x", "int_y"] e := by
  intro ρ h
  obtain ⟨a, ha⟩ := h "int_x" (by simp)
  obtain ⟨c, hc⟩ := h "int_y" (by simp)
  rw [eval_found (o := 0) (r := 0) b e he ha hc (fun h => absurd h hb)]
  show foundFns b idiv (.fn "select_two_args") [ρ "int_x", ρ "int_y"] = _
  rw [ha, hc]
  cases b <;> rfl

/-- The solution of each program has interpretations. -/
theorem solution_interprets (b : Bench) (drop : Bool) (idiv : Int → Int → Int) :
    b.solution.Interprets b (stdInterp drop (foundFns b idiv) idiv) where
  model := std_model drop _ _
  fns := by
    have F : HasBody (stdInterp drop (foundFns b idiv) idiv) "OUTER_LOOP_INDEX_FIRST" [] (boolLit true) := fun _ _ => rfl
    cases b
    case multiply => exact .cons F .nil
    case linearBurn => exact .cons F .nil
    case screen => exact .cons F .nil
    case linearDodge => exact .cons F .nil
    case dissolve =>
      refine .cons ?_ (.cons F .nil)
      intro ρ h
      obtain ⟨a, ha⟩ := h "int_x" (by simp)
      obtain ⟨c, hc⟩ := h "int_y" (by simp)
      obtain ⟨o, ho⟩ := h "opacity" (by simp)
      obtain ⟨r, hr⟩ := h "rand_cons" (by simp)
      refine Eq.trans ?_ (eval_found .dissolve _ rfl ha hc (fun _ => ⟨ho, hr⟩)).symm
      show foundFns .dissolve idiv (.fn "dissolve_select_two_args") [ρ "int_x", ρ "int_y", ρ "opacity", ρ "rand_cons"] = _
      rw [ha, hc, ho, hr]
      rfl
    all_goals exact .cons (found_hasBody _ (by decide) drop idiv _ rfl) (.cons F .nil)
  apply := by
    intro s hs vs
    have hs' : s.1 ∈ ["OUTER_LOOP_INDEX_FIRST", "select_two_args", "dissolve_select_two_args"] := by
      cases b <;> simp only [Bench.space, computationSpace, selectSpace, dissolveSpace, List.mem_cons, List.not_mem_nil, or_false] at hs <;>
        (try rcases hs with rfl | rfl) <;> simp [outerFirstSynth]
    obtain ⟨n, ps⟩ := s
    simp only [List.mem_cons, List.not_mem_nil, or_false] at hs'
    rcases hs' with rfl | rfl | rfl <;> rfl

/-- The hypotheses of `C66_solution_sound_partial` are met by every program, for example: -/
example (b : Bench) : ∃ s : Vars, s.out = result (stdInterp true (foundFns b Int.fdiv) Int.fdiv) ⟨[[1, 2, 3], [4, 5, 6]], [[10, 20, 30], [40, 50, 60]], 7, 8⟩
      (b.pixel (stdInterp true (foundFns b Int.fdiv) Int.fdiv) 7 8) ∧
    holds (stdInterp true (foundFns b Int.fdiv) Int.fdiv) (Input.env ⟨[[1, 2, 3], [4, 5, 6]], [[10, 20, 30], [40, 50, 60]], 7, 8⟩ s) b.solution.ps :=
  C66_solution_sound_partial b _ (solution_solves b) _ (solution_interprets b _ _)
    ⟨[[1, 2, 3], [4, 5, 6]], [[10, 20, 30], [40, 50, 60]], 7, 8⟩
    ⟨rfl, 3, by decide, by rintro r (h | h) <;> simp at h <;> rcases h with rfl | rfl <;> rfl⟩

/-- The same for the addition, with the matrix computed: adding two matrices with two rows and three columns. -/
example : ∃ s : Vars, s.out = [[11, 22, 33], [44, 55, 66]] ∧
    holds (orderInterp true true) (Input.env ⟨[[1, 2, 3], [4, 5, 6]], [[10, 20, 30], [40, 50, 60]], 0, 0⟩ s) Bench.linearDodge.solution.ps := by
  have h := C66_solution_sound_partial .linearDodge _ (solution_solves .linearDodge) (orderInterp true true) (orderInterp_interprets _ _ _ rfl)
    ⟨[[1, 2, 3], [4, 5, 6]], [[10, 20, 30], [40, 50, 60]], 0, 0⟩ ⟨rfl, 3, by decide, by rintro r (h | h) <;> simp at h <;> rcases h with rfl | rfl <;> rfl⟩
  exact h

/-- What the drivers assume of the matrices: more than one row, the same number of rows and first rows of the same length. -/
def DriverPre (x : Input) : Prop :=
  1 < x.base.length ∧ x.base.length = x.active.length ∧ (x.base.headD []).length = (x.active.headD []).length

/-- What a choice between leaves and transposed leaves resolves to. -/
theorem resolves_operand {r : Expr}
    (h : Resolves (Expr.node .choose (OTy.matrix .int).toTy [opObj.src, opObj.transpose.src]) r) :
    r ∈ [baseV, activeV, baseV.transpose, activeV.transpose].map Obj.src := by
  have op : ∀ {r}, Resolves opObj.src r → r = baseV.src ∨ r = activeV.src := by
    intro r h
    cases h with
    | node hne _ => simp at hne
    | choose hm h =>
      simp only [List.mem_cons, List.not_mem_nil, or_false] at hm
      rcases hm with rfl | rfl <;> cases h
      · exact .inl rfl
      · exact .inr rfl
  cases h with
  | node hne _ => simp at hne
  | choose hm h =>
    simp only [List.mem_cons, List.not_mem_nil, or_false] at hm
    rcases hm with rfl | rfl
    · rcases op h with rfl | rfl <;> simp
    · cases h with
      | node _ h =>
        cases h with
        | cons h t =>
          cases t
          rcases op h with rfl | rfl
          · exact List.mem_map_of_mem (f := Obj.src) (a := baseV.transpose) (by simp)
          · exact List.mem_map_of_mem (f := Obj.src) (a := activeV.transpose) (by simp)

/-- The results in the search space of the addition. -/
theorem ps_linearDodge {c : Candidate} (h : c.InSpace .linearDodge) : ∃ p q t, c.ps = mkCall "list_eq" .bool [outV.src, mkCall "matrix_elemwise_add" t [p, q]] ∧
    p ∈ [baseV, activeV, baseV.transpose, activeV.transpose].map Obj.src ∧
    q ∈ [baseV, activeV, baseV.transpose, activeV.transpose].map Obj.src := by
  obtain ⟨g, hg, hr⟩ := h.ps
  have hg' : g = ⟨mkCall "list_eq" .bool [outV.src, mkCall "matrix_elemwise_add" (OTy.matrix .int).toTy
      [Expr.node .choose (OTy.matrix .int).toTy [opObj.src, opObj.transpose.src],
       Expr.node .choose (OTy.matrix .int).toTy [opObj.src, opObj.transpose.src]]], .bool⟩ := Option.some.inj (hg.symm.trans rfl)
  subst hg'
  generalize hps : c.ps = ps at hr
  cases hr with
  | node _ h =>
    cases h with
    | cons ho h => cases h with
      | cons ha h =>
        cases h
        cases ho
        cases ha with
        | node _ h => cases h with
          | cons hp h => cases h with
            | cons hq h =>
              cases h
              exact ⟨_, _, _, rfl, resolves_operand hp, resolves_operand hq⟩

theorem fns_linearDodge {c : Candidate} (h : c.InSpace .linearDodge) : ∃ v, c.fns = [boolLit v] := by
  have hf := h.fns
  generalize c.fns = fs at hf
  cases hf with
  | cons h t =>
    cases t
    obtain ⟨g, hg, hr⟩ := h
    have hg' : g = ⟨.node .choose .bool [boolLit true, boolLit false], .bool⟩ := Option.some.inj (hg.symm.trans rfl)
    subst hg'
    cases hr with
    | node hne _ => simp at hne
    | choose hm h =>
      simp only [List.mem_cons, List.not_mem_nil, or_false] at hm
      rcases hm with rfl | rfl <;> cases h
      · exact ⟨true, rfl⟩
      · exact ⟨false, rfl⟩

/-- No candidate computes the sum of `m` with itself when none of the four sums of `m` and its transposed does. -/
theorem no_linearDodge (drop : Bool) (m : List (List Int)) (P : Input → Prop) (hP : P ⟨m, m, 0, 0⟩)
    (hne : ∀ v : Bool, ∀ t ∈ [matV m, (orderInterp drop v).fn "matrix_transpose" [matV m]],
      ∀ u ∈ [matV m, (orderInterp drop v).fn "matrix_transpose" [matV m]],
      matV (result (orderInterp drop v) ⟨m, m, 0, 0⟩ (· + ·)) ≠ (orderInterp drop v).fn "matrix_elemwise_add" [t, u]) :
    ¬ ∃ c : Candidate, c.InSpace .linearDodge ∧ c.Solves .linearDodge P := by
  rintro ⟨c, hc, hs⟩
  obtain ⟨v, hv⟩ := fns_linearDodge hc
  obtain ⟨s, ho, hh⟩ := (hs (orderInterp drop v) (orderInterp_interprets drop v c hv) _ hP).sound
  obtain ⟨p, q, t, hps, hp, hq⟩ := ps_linearDodge hc
  have val : ∀ r ∈ [baseV, activeV, baseV.transpose, activeV.transpose].map Obj.src,
      eval (orderInterp drop v) (Input.env ⟨m, m, 0, 0⟩ s) r ∈ [matV m, (orderInterp drop v).fn "matrix_transpose" [matV m]] := by
    intro r hr
    simp only [List.map_cons, List.map_nil, List.mem_cons, List.not_mem_nil, or_false] at hr
    rcases hr with rfl | rfl | rfl | rfl
    · exact List.mem_cons_self ..
    · exact List.mem_cons_self ..
    · exact List.mem_cons_of_mem _ (List.mem_cons_self ..)
    · exact List.mem_cons_of_mem _ (List.mem_cons_self ..)
  rw [hps, holds_listEq (I := orderInterp drop v) (std_model drop _ _).prims, eval_mkCall] at hh
  refine hne v _ (val p hp) _ (val q hq) ?_
  rw [show eval (orderInterp drop v) (Input.env ⟨m, m, 0, 0⟩ s) outV.src = matV s.out from rfl, ho] at hh
  exact hh

/-- C66 is false for ragged matrices: the preconditions of the drivers compare only the first rows, and with rows of different lengths no
candidate in the search space of `linear_dodge_8` satisfies the conditions, because the program computes as many columns for each row as
the first row has. -/
theorem C66_ragged_refuted : ¬ ∃ c : Candidate, c.InSpace .linearDodge ∧
    c.Solves .linearDodge (fun x => DriverPre x ∧ ∀ r, r ∈ x.base ∨ r ∈ x.active → r ≠ []) := by
  refine no_linearDodge false [[1, 2], [1]] _ ⟨⟨by decide, rfl, rfl⟩, by rintro r (h | h) <;> simp at h <;> rcases h with rfl | rfl <;> simp⟩ ?_
  intro v t ht u hu
  simp only [List.mem_cons, List.not_mem_nil, or_false] at ht hu
  cases v <;> rcases ht with rfl | rfl <;> rcases hu with rfl | rfl <;> decide +kernel

/-- C66 is false for matrices with empty rows: where `matrix_prepend` drops an empty row, as in Rosette (see C28), no candidate gives the two
empty rows that the program computes. -/
theorem C66_empty_rows_refuted : ¬ ∃ c : Candidate, c.InSpace .linearDodge ∧
    c.Solves .linearDodge (fun x => DriverPre x ∧ ∃ n, ∀ r, r ∈ x.base ∨ r ∈ x.active → r.length = n) := by
  refine no_linearDodge true [[], []] _ ⟨⟨by decide, rfl, rfl⟩, 0, by rintro r (h | h) <;> simp at h <;> simp [h]⟩ ?_
  intro v t ht u hu
  simp only [List.mem_cons, List.not_mem_nil, or_false] at ht hu
  cases v <;> rcases ht with rfl | rfl <;> rcases hu with rfl | rfl <;> decide +kernel

end Metalift.Ten
