import Verif.NumpyFns
/-
The body of a select function applied to whole matrices: `np.where` and the comparisons, which work element by element.
-/
namespace Metalift.Np
open Metalift Py Metalift.Ten

theorem zipO_same {α β γ δ : Type} {f : α → β → Option γ} {g : δ → α} {g' : δ → β} {h : δ → γ} (H : ∀ x, f (g x) (g' x) = some (h x)) :
    ∀ xs : List δ, zipO f (xs.map g) (xs.map g') = some (xs.map h)
  | [] => rfl
  | x :: xs => by
    rw [List.map_cons, List.map_cons, zipO, H x, Option.bind_some, zipO_same H xs]
    rfl

/-- The pairs of elements of two matrices. -/
abbrev Grid := List (List (Int × Int))

/-- `v` is the array of the values `F p` for the pairs `p`; or a scalar, when `F` is constant. -/
def Lifted {α : Type} (c : Nat) (L : Grid) (arr : Bool) (v : Arr α) (F : Int × Int → α) : Prop :=
  if arr then v = .a2 c (L.map fun r => r.map F) else ∃ s, v = .sc s ∧ ∀ p, F p = s

theorem lifted_arr {α : Type} (c : Nat) (L : Grid) (F : Int × Int → α) : Lifted c L true (.a2 c (L.map fun r => r.map F)) F := by
  rw [Lifted, if_pos rfl]

theorem Lifted.zip {α β γ : Type} {c : Nat} {L : Grid} {b b' : Bool} {v : Arr α} {v' : Arr β} {F : Int × Int → α} {G : Int × Int → β} {K : Int × Int → γ}
    {f : α → β → Option γ} (h : Lifted c L b v F) (h' : Lifted c L b' v' G) (H : ∀ p, f (F p) (G p) = some (K p)) :
    ∃ u, Arr.zip f v v' = some u ∧ Lifted c L (b || b') u K := by
  cases b <;> cases b'
  · obtain ⟨s, rfl, hs⟩ := h
    obtain ⟨t, rfl, ht⟩ := h'
    refine ⟨.sc (K (0, 0)), ?_, ⟨_, rfl, fun p => ?_⟩⟩
    · show (f s t).map Arr.sc = _
      rw [← hs (0, 0), ← ht (0, 0), H]; rfl
    · have h1 := H p
      have h2 := H (0, 0)
      rw [hs, ht] at h1 h2
      rw [h1] at h2
      injection h2
  · obtain ⟨s, rfl, hs⟩ := h
    subst h'
    refine ⟨.a2 c (L.map fun r => r.map K), ?_, lifted_arr ..⟩
    show (mapO (mapO (f s)) _).map (Arr.a2 c) = _
    rw [mapO_map (h := fun r : List (Int × Int) => r.map K)]
    · rfl
    · exact fun r _ => mapO_map fun p _ => by rw [← hs p, H p]
  · subst h
    obtain ⟨t, rfl, ht⟩ := h'
    refine ⟨.a2 c (L.map fun r => r.map K), ?_, lifted_arr ..⟩
    show (mapO (mapO (fun a => f a t)) _).map (Arr.a2 c) = _
    rw [mapO_map (h := fun r : List (Int × Int) => r.map K)]
    · rfl
    · exact fun r _ => mapO_map fun p _ => by rw [← ht p, H p]
  · subst h
    subst h'
    refine ⟨.a2 c (L.map fun r => r.map K), ?_, lifted_arr ..⟩
    show ((bcols c c).bind fun k => (bcast (bcast f) _ _).map (Arr.a2 k)) = _
    rw [bcols_self, Option.bind_some, bcast_eq (by simp), zipO_same (h := fun r : List (Int × Int) => r.map K)]
    · rfl
    · intro r
      rw [bcast_eq (by simp)]
      exact zipO_same H r

theorem Lifted.map {α β : Type} {c : Nat} {L : Grid} {v : Arr α} {F : Int × Int → α} {K : Int × Int → β}
    {f : α → Option β} (h : Lifted c L true v F) (H : ∀ p, f (F p) = some (K p)) : ∃ u, v.mapO f = some u ∧ Lifted c L true u K := by
  subst h
  refine ⟨.a2 c (L.map fun r => r.map K), ?_, lifted_arr ..⟩
  show (mapO (mapO f) _).map (Arr.a2 c) = _
  rw [mapO_map (h := fun r : List (Int × Int) => r.map K)]
  · rfl
  · exact fun r _ => mapO_map fun p _ => H p

/-- The operators on elements. -/
def scOp (w : Int → Int) : Op → Sc → Sc → Option Sc
  | .add => arith w .add
  | .sub => arith w .sub
  | .mul => arith w .mul
  | .div => arith w .floordiv
  | .mod => arith w .mod
  | .eq => compare .eq
  | .lt => compare .lt
  | .le => compare .le
  | .gt => compare .gt
  | .ge => compare .ge
  | .and => fun s t => some (.bool (s.truth && t.truth))
  | .or => fun s t => some (.bool (s.truth || t.truth))
  | _ => fun _ _ => none

/-- The value of the body of a select function for one pair of elements, as NumPy computes it. -/
def evalS (w : Int → Int) (p : String) (xy : Int × Int) : Expr → Sc
  | .var z _ => if z = p then .int xy.1 else .int xy.2
  | .lit (.int i) => .int i
  | .lit (.bool b) => .bool b
  | .node .not _ [a] => .bool (!(evalS w p xy a).truth)
  | .node o _ [a, b] => (scOp w o (evalS w p xy a) (evalS w p xy b)).getD (.int 0)
  | _ => .int 0

/-- The type `helper` gives to an expression in the body of the select function. -/
def LInfo.ty : LInfo → Ty
  | ⟨false, true⟩ => .list (.list .int)
  | ⟨true, true⟩ => .list .bool
  | ⟨false, false⟩ => .int
  | ⟨true, false⟩ => .bool

/-- Integer or boolean. -/
def Sc.is (b : Bool) (s : Sc) : Prop := if b then ∃ t, s = .bool t else ∃ i, s = .int i

/-- What is shown about an expression in the body: `σ` are the replacements of the parameters. -/
def LGood (fns : List (String × SynthFn)) (σ : List (String × Expr)) (p : String) (am am' : Ast) (e : Expr) (i : LInfo) : Prop :=
  ∃ N toks a l, (∀ n, N ≤ n → gen fns false n σ e = some (toks, i.ty)) ∧ Lv l toks a ∧
    (∀ w xy, (evalS w p xy e).is i.bool) ∧
    ∀ w η c (L : Grid), η "np" = none → eval w η am = some (.arr (.a2 c (L.map fun r => r.map fun x => .int x.1))) →
      eval w η am' = some (.arr (.a2 c (L.map fun r => r.map fun x => .int x.2))) →
      ∃ v, eval w η a = some (.arr v) ∧ Lifted c L i.arr v fun xy => evalS w p xy e

theorem lit_reads (l : Lit) : ∃ a, Lv (match l with | .int i => if i < 0 then 7 else 8 | .bool _ => 8) l.toPython a ∧
    ∀ w η, eval w η a = some (.arr (.sc (match l with | .int i => .int i | .bool b => .bool b))) := by
  cases l with
  | int i =>
    by_cases h : i < 0
    · refine ⟨.neg (.num i.natAbs), ?_, fun w η => ?_⟩
      · simp only [Lit.toPython, if_pos h]
        exact .of (by omega) (reads_neg _)
      · show some (NV.arr (Arr.sc (Sc.int (-(i.natAbs : Int))))) = _
        congr 4
        omega
    · refine ⟨.num i.natAbs, ?_, fun w η => ?_⟩
      · simp only [Lit.toPython, if_neg h]
        exact .prim (atom_num _).primary
      · show some (NV.arr (Arr.sc (Sc.int (i.natAbs : Int)))) = _
        congr 4
        omega
  | bool b =>
    cases b
    · exact ⟨.bool false, .prim atom_fls.primary, fun _ _ => rfl⟩
    · exact ⟨.bool true, .prim atom_tru.primary, fun _ _ => rfl⟩

theorem gens2 {fns : List (String × SynthFn)} {σ : List (String × Expr)} {a b : Expr} {N M : Nat} {x y : List Tok × Ty} (ha : ∀ n, N ≤ n → gen fns false n σ a = some x)
    (hb : ∀ n, M ≤ n → gen fns false n σ b = some y) (n : Nat) (hn : N + M + 2 ≤ n) : gens fns false n σ [a, b] = some [x, y] := by
  obtain ⟨k, rfl⟩ : ∃ k, n = k + 2 := ⟨n - 2, by omega⟩
  rw [gens, ha _ (by omega), Option.bind_some, gens, hb _ (by omega), Option.bind_some, gens]
  rfl

theorem gens1 {fns : List (String × SynthFn)} {σ : List (String × Expr)} {a : Expr} {N : Nat} {x : List Tok × Ty} (ha : ∀ n, N ≤ n → gen fns false n σ a = some x)
    (n : Nat) (hn : N + 1 ≤ n) : gens fns false n σ [a] = some [x] := by
  obtain ⟨k, rfl⟩ : ∃ k, n = k + 1 := ⟨n - 1, by omega⟩
  rw [gens, ha _ (by omega), Option.bind_some, gens]
  rfl

/-- The operators of arithmetic. -/
def arithOps : List Op := [.add, .sub, .mul, .div, .mod]
@[inherit_doc arithOps] def cmpOps : List Op := [.eq, .lt, .le, .gt, .ge]

/-- The token and the operator. -/
def opBin : Op → BinOp
  | .sub => .sub | .mul => .mul | .div => .floordiv | .mod => .mod | _ => .add
@[inherit_doc opBin] def opLvl : Op → Nat
  | .add | .sub => 5
  | _ => 6
@[inherit_doc opBin] def opCmp : Op → CmpOp
  | .lt => .lt | .le => .le | .gt => .gt | .ge => .ge | _ => .eq
@[inherit_doc opBin] def opNp : Op → String
  | .lt => "less" | .le => "less_equal" | .gt => "greater" | .ge => "greater_equal" | _ => "equal"

theorem arithText_ok {o : Op} (ho : o ∈ arithOps) {x y : List Tok} {s t u : Ty} {a b : Ast} {l l' : Nat} (ha : Lv l x a) (hb : Lv l' y b)
    (hu : (s = .int ∧ t = .int ∧ u = .int) ∨ (s ≠ .int ∧ u = s) ∨ (s = .int ∧ t ≠ .int ∧ u = t)) :
    ∃ ts, arithText false o [(x, s), (y, t)] = some (ts, u) ∧ Lv (opLvl o) ts (.bin (opBin o) a b) := by
  simp only [arithOps, List.mem_cons, List.not_mem_nil, or_false] at ho
  have htext : ∀ op : Tok, (o, op) ∈ [(Op.add, Tok.plus), (.sub, .minus), (.mul, .star), (.div, .slashslash), (.mod, .percent)] →
      arithText false o [(x, s), (y, t)] = some (parenBin op x y, u) := by
    intro op hop
    simp only [List.mem_cons, Prod.mk.injEq, List.not_mem_nil, or_false] at hop
    rcases hu with ⟨rfl, rfl, rfl⟩ | ⟨hs, rfl⟩ | ⟨rfl, ht, rfl⟩ <;>
      rcases hop with ⟨rfl, rfl⟩ | ⟨rfl, rfl⟩ | ⟨rfl, rfl⟩ | ⟨rfl, rfl⟩ | ⟨rfl, rfl⟩ <;> simp [arithText, *]
  rcases ho with rfl | rfl | rfl | rfl | rfl
  · exact ⟨_, htext .plus (by simp), parenBin_add ha.zero hb.zero⟩
  · exact ⟨_, htext .minus (by simp), parenBin_sub ha.zero hb.zero⟩
  · exact ⟨_, htext .star (by simp), parenBin_mul ha.zero hb.zero⟩
  · exact ⟨_, htext .slashslash (by simp), parenBin_div ha.zero hb.zero⟩
  · exact ⟨_, htext .percent (by simp), parenBin_mod ha.zero hb.zero⟩

theorem cmpText_np {o : Op} (ho : o ∈ cmpOps) {x y : List Tok} {s t : Ty} {a b : Ast} {l l' : Nat} (ha : Lv l x a) (hb : Lv l' y b)
    (hu : s ≠ .int ∨ t ≠ .int) : ∃ ts, cmpText o [(x, s), (y, t)] = some (ts, .list .bool) ∧ Lv 8 ts (npAst (opNp o) [a, b]) := by
  have hτ : ([(x, s), (y, t)] : List (List Tok × Ty)).all (fun p => decide (p.2 = .int)) = false := by
    rcases hu with h | h <;> simp [h]
  have hl := fun f => npCall_lv f (.cons ha.zero.isArg (.cons hb.zero.isArg .nil))
  simp only [cmpOps, List.mem_cons, List.not_mem_nil, or_false] at ho
  unfold cmpText
  rw [hτ]
  rcases ho with rfl | rfl | rfl | rfl | rfl <;> exact ⟨_, rfl, hl _⟩

theorem cmpText_int {o : Op} (ho : o ∈ cmpOps) {x y : List Tok} {a b : Ast} (ha : Reads 5 x a) (hb : Reads 5 y b) :
    ∃ ts, cmpText o [(x, .int), (y, .int)] = some (ts, .bool) ∧ Lv 4 ts (.cmp (opCmp o) a b) := by
  have hl := fun c => Lv.of (by omega) (reads_cmp c ha hb)
  simp only [cmpOps, List.mem_cons, List.not_mem_nil, or_false] at ho
  rcases ho with rfl | rfl | rfl | rfl | rfl <;> exact ⟨_, rfl, hl _⟩

theorem npFn_cmp {w : Int → Int} {o : Op} (ho : o ∈ cmpOps) (x y : Arr Sc) :
    npFn w (opNp o) [.arr x, .arr y] [] = (Arr.zip (compare (opCmp o)) x y).map .arr := by
  simp only [cmpOps, List.mem_cons, List.not_mem_nil, or_false] at ho
  rcases ho with rfl | rfl | rfl | rfl | rfl <;> rfl

theorem gen_op {fns : List (String × SynthFn)} {σ : List (String × Expr)} {o : Op} {t : Ty} {args : List Expr} {n : Nat}
    (ho : o ∈ arithOps ∨ o ∈ cmpOps ∨ o ∈ [Op.and, .or, .not]) : gen fns false (n + 1) σ (.node o t args) = (gens fns false n σ args).bind fun ps =>
      if o ∈ arithOps then arithText false o ps else if o ∈ cmpOps then cmpText o ps else boolText o ps := by
  simp only [arithOps, cmpOps, List.mem_cons, List.not_mem_nil, or_false] at ho
  rcases ho with (rfl | rfl | rfl | rfl | rfl) | (rfl | rfl | rfl | rfl | rfl) | rfl | rfl | rfl <;>
    (rw [gen] <;> first | rfl | nofun)

theorem boolText_np {o : Op} (ho : o = .and ∨ o = .or) {x y : List Tok} {s t : Ty} {a b : Ast} {l l' : Nat} (ha : Lv l x a) (hb : Lv l' y b)
    (hu : ¬ (s = .int ∨ s = .bool) ∨ ¬ (t = .int ∨ t = .bool)) :
    ∃ ts, boolText o [(x, s), (y, t)] = some (ts, .list .bool) ∧ Lv 8 ts (npAst (if o = .and then "logical_and" else "logical_or") [a, b]) := by
  have hτ : ([(x, s), (y, t)] : List (List Tok × Ty)).all (fun p => decide (p.2 = .int ∨ p.2 = .bool)) = false := by
    rcases hu with h | h <;> simp [not_or.mp h]
  have hl := fun f => npCall_lv f (.cons ha.zero.isArg (.cons hb.zero.isArg .nil))
  unfold boolText
  rw [hτ]
  rcases ho with rfl | rfl <;> exact ⟨_, rfl, hl _⟩

theorem scOp_arith {w : Int → Int} {o : Op} (ho : o ∈ arithOps) {s t : Sc} (hs : s.is false) (ht : t.is false) :
    ∃ i, scOp w o s t = some (.int i) ∧ arith w (opBin o) s t = some (.int i) := by
  obtain ⟨i, rfl⟩ := hs
  obtain ⟨j, rfl⟩ := ht
  simp only [arithOps, List.mem_cons, List.not_mem_nil, or_false] at ho
  rcases ho with rfl | rfl | rfl | rfl | rfl <;> exact ⟨_, rfl, rfl⟩

theorem scOp_cmp {w : Int → Int} {o : Op} (ho : o ∈ cmpOps) (s t : Sc) :
    ∃ i, scOp w o s t = some (.bool i) ∧ compare (opCmp o) s t = some (.bool i) := by
  simp only [cmpOps, List.mem_cons, List.not_mem_nil, or_false] at ho
  rcases ho with rfl | rfl | rfl | rfl | rfl <;> exact ⟨_, rfl, rfl⟩

theorem evalS_node {w : Int → Int} {p : String} {xy : Int × Int} {o : Op} {t : Ty} {a b : Expr} :
    evalS w p xy (.node o t [a, b]) = (scOp w o (evalS w p xy a) (evalS w p xy b)).getD (.int 0) := by
  rw [evalS]

theorem binOp_lifted {w : Int → Int} {o : BinOp} {c : Nat} {L : Grid} {b b' : Bool} {x y : Arr Sc} {F G : Int × Int → Sc} (h : Lifted c L b x F)
    (h' : Lifted c L b' y G) (hb : (b || b') = true) : binOp w o x y = Arr.zip (arith w o) x y := by
  cases b with
  | true =>
    subst h
    cases o <;> rfl
  | false =>
    cases b' with
    | true =>
      subst h'
      cases x <;> cases o <;> rfl
    | false => cases hb

theorem arr_ty {i : LInfo} (h : i.arr = true) : i.ty ≠ .int ∧ ¬ (i.ty = .int ∨ i.ty = .bool) := by
  obtain ⟨b, a⟩ := i
  cases h
  cases b <;> simp [LInfo.ty]

/-- The body of a select function. -/
theorem lgood {fns : List (String × SynthFn)} {p q : String} {m m' : Expr} (hpq : p ≠ q) {N : Nat} {toks toks' : List Tok} {am am' : Ast} {l l' : Nat}
    (hm : ∀ n, N ≤ n → gen fns false n [(q, m'), (p, m)] m = some (toks, .list (.list .int)))
    (hm' : ∀ n, N ≤ n → gen fns false n [(q, m'), (p, m)] m' = some (toks', .list (.list .int)))
    (hl : Lv l toks am) (hl' : Lv l' toks' am') :
    ∀ (e : Expr) (i : LInfo), checkL p q e = some i → LGood fns [(q, m'), (p, m)] p am am' e i := by
  refine Expr.ind ?_ ?_ ?_
  · intro z t i h
    rw [checkL] at h
    by_cases hz : z = p ∨ z = q
    rotate_left
    · rw [if_neg hz] at h; cases h
    rw [if_pos hz] at h
    injection h with h
    subst h
    by_cases hzp : z = p
    · subst hzp
      refine ⟨N + 1, toks, am, l, fun n hn => ?_, hl, fun w xy => ?_, fun w η c L _ h1 h2 => ⟨_, h1, ?_⟩⟩
      · obtain ⟨k, rfl⟩ : ∃ k, n = k + 1 := ⟨n - 1, by omega⟩
        rw [gen]
        have : List.lookup z [(q, m'), (z, m)] = some m := by simp [List.lookup, beq_false_of_ne hpq]
        rw [this]
        exact hm k (by omega)
      · rw [evalS, if_pos rfl]; exact ⟨_, rfl⟩
      · simp only [evalS, if_pos]
        exact lifted_arr ..
    · have hzq : z = q := hz.resolve_left hzp
      subst hzq
      refine ⟨N + 1, toks', am', l', fun n hn => ?_, hl', fun w xy => ?_, fun w η c L _ h1 h2 => ⟨_, h2, ?_⟩⟩
      · obtain ⟨k, rfl⟩ : ∃ k, n = k + 1 := ⟨n - 1, by omega⟩
        rw [gen]
        have : List.lookup z [(z, m'), (p, m)] = some m' := by simp [List.lookup]
        rw [this]
        exact hm' k (by omega)
      · rw [evalS, if_neg hzp]; exact ⟨_, rfl⟩
      · simp only [evalS, if_neg hzp]
        exact lifted_arr ..
  · intro lit i h
    obtain ⟨a, hla, he⟩ := lit_reads lit
    cases lit with
    | int j =>
      rw [checkL] at h
      injection h with h
      subst h
      refine ⟨1, _, a, _, fun n hn => ?_, hla, fun w xy => ⟨j, rfl⟩, fun w η c L _ _ _ => ⟨_, he w η, ⟨_, rfl, fun _ => rfl⟩⟩⟩
      obtain ⟨k, rfl⟩ : ∃ k, n = k + 1 := ⟨n - 1, by omega⟩
      rw [gen]; rfl
    | bool j =>
      rw [checkL] at h
      injection h with h
      subst h
      refine ⟨1, _, a, _, fun n hn => ?_, hla, fun w xy => ⟨j, rfl⟩, fun w η c L _ _ _ => ⟨_, he w η, ⟨_, rfl, fun _ => rfl⟩⟩⟩
      obtain ⟨k, rfl⟩ : ∃ k, n = k + 1 := ⟨n - 1, by omega⟩
      rw [gen]; rfl
  · intro o t args ih i h
    unfold checkL at h
    split at h
    · cases ‹Expr.node o t args = _›
    · cases ‹Expr.node o t args = _›
    · cases ‹Expr.node o t args = _›
    · next o' t' a b heq =>
      injection heq with h1 h2 h3
      subst h1; subst h2; subst h3
      simp only [Option.bind_eq_some_iff] at h
      obtain ⟨i1, hi1, i2, hi2, h⟩ := h
      obtain ⟨N1, x, A, l1, g1, r1, s1, e1⟩ := ih a (by simp) i1 hi1
      obtain ⟨N2, y, B, l2, g2, r2, s2, e2⟩ := ih b (by simp) i2 hi2
      by_cases harr : (i1.arr || i2.arr) = true
      rotate_left
      · rw [if_neg harr] at h; cases h
      rw [if_pos harr] at h
      have hty : i1.arr = true ∨ i2.arr = true := by simpa using harr
      by_cases ho : o ∈ [Op.add, .sub, .mul, .div, .mod]
      · rw [if_pos ho] at h
        by_cases hb : (i1.bool || i2.bool) = true
        · rw [if_pos hb] at h; cases h
        rw [if_neg hb] at h
        injection h with h
        subst h
        have hb1 : i1.bool = false := by cases hh : i1.bool <;> simp_all
        have hb2 : i2.bool = false := by cases hh : i2.bool <;> simp_all
        obtain ⟨ts, ht, hlv⟩ := arithText_ok (o := o) ho (s := i1.ty) (t := i2.ty) (u := .list (.list .int)) r1 r2 (by
          obtain ⟨b1, a1⟩ := i1
          obtain ⟨b2, a2⟩ := i2
          simp only at hb1 hb2 harr
          subst hb1; subst hb2
          cases a1 <;> cases a2 <;> simp [LInfo.ty] at harr ⊢)
        rw [hb1] at s1
        rw [hb2] at s2
        have hK : ∀ w xy, ∃ i, scOp w o (evalS w p xy a) (evalS w p xy b) = some (.int i) ∧
            arith w (opBin o) (evalS w p xy a) (evalS w p xy b) = some (.int i) := fun w xy => scOp_arith ho (s1 w xy) (s2 w xy)
        refine ⟨N1 + N2 + 3, ts, .bin (opBin o) A B, _, fun n hn => ?_, hlv, fun w xy => ?_, fun w η c L hη hm hm' => ?_⟩
        · obtain ⟨k, rfl⟩ : ∃ k, n = k + 1 := ⟨n - 1, by omega⟩
          rw [gen_op (Or.inl ho), gens2 g1 g2 k (by omega), Option.bind_some, if_pos (show o ∈ arithOps from ho)]
          exact ht
        · obtain ⟨i, hi, _⟩ := hK w xy
          rw [evalS_node, hi]
          exact ⟨i, rfl⟩
        · obtain ⟨u, hu, hu'⟩ := e1 w η c L hη hm hm'
          obtain ⟨v, hv, hv'⟩ := e2 w η c L hη hm hm'
          obtain ⟨z, hz, hz'⟩ := hu'.zip (f := arith w (opBin o)) (K := fun xy => evalS w p xy (.node o t [a, b])) hv' (fun xy => by
            obtain ⟨i, hi, hi'⟩ := hK w xy
            rw [hi', evalS_node, hi]; rfl)
          refine ⟨z, eval_bin hu hv ?_, by rw [harr] at hz'; exact hz'⟩
          rw [binOp_lifted hu' hv' harr, hz]
      rw [if_neg ho] at h
      by_cases ho' : o ∈ [Op.eq, .lt, .le, .gt, .ge]
      · rw [if_pos ho'] at h
        by_cases hb : (i1.bool || i2.bool) = true
        · rw [if_pos hb] at h; cases h
        rw [if_neg hb] at h
        injection h with h
        subst h
        obtain ⟨ts, ht, hlv⟩ := cmpText_np (o := o) ho' (s := i1.ty) (t := i2.ty) r1 r2 (hty.imp (fun h => (arr_ty h).1) (fun h => (arr_ty h).1))
        have hK : ∀ w xy, ∃ i, scOp w o (evalS w p xy a) (evalS w p xy b) = some (.bool i) ∧
            compare (opCmp o) (evalS w p xy a) (evalS w p xy b) = some (.bool i) := fun w xy => scOp_cmp ho' _ _
        refine ⟨N1 + N2 + 3, ts, _, _, fun n hn => ?_, hlv, fun w xy => ?_, fun w η c L hη hm hm' => ?_⟩
        · obtain ⟨k, rfl⟩ : ∃ k, n = k + 1 := ⟨n - 1, by omega⟩
          rw [gen_op (Or.inr (Or.inl ho')), gens2 g1 g2 k (by omega), Option.bind_some, if_neg (show o ∉ arithOps from ho),
            if_pos (show o ∈ cmpOps from ho')]
          exact ht
        · obtain ⟨i, hi, _⟩ := hK w xy
          rw [evalS_node, hi]
          exact ⟨i, rfl⟩
        · obtain ⟨u, hu, hu'⟩ := e1 w η c L hη hm hm'
          obtain ⟨v, hv, hv'⟩ := e2 w η c L hη hm hm'
          obtain ⟨z, hz, hz'⟩ := hu'.zip (f := compare (opCmp o)) (K := fun xy => evalS w p xy (.node o t [a, b])) hv' (fun xy => by
            obtain ⟨i, hi, hi'⟩ := hK w xy
            rw [hi', evalS_node, hi]; rfl)
          refine ⟨z, ?_, by rw [harr] at hz'; exact hz'⟩
          rw [eval_np2 hη _ hu hv, npFn_cmp ho', hz]; rfl
      rw [if_neg ho'] at h
      by_cases ho'' : o ∈ [Op.and, .or]
      rotate_left
      · rw [if_neg ho''] at h; cases h
      rw [if_pos ho''] at h
      by_cases hb : (i1.bool && i2.bool) = true
      rotate_left
      · rw [if_neg hb] at h; cases h
      rw [if_pos hb] at h
      injection h with h
      subst h
      have ho3 : o = .and ∨ o = .or := by simpa using ho''
      obtain ⟨ts, ht, hlv⟩ := boolText_np ho3 (s := i1.ty) (t := i2.ty) r1 r2 (hty.imp (fun h => (arr_ty h).2) (fun h => (arr_ty h).2))
      have hgen : ∀ n, N1 + N2 + 3 ≤ n → gen fns false n [(q, m'), (p, m)] (.node o t [a, b]) = some (ts, .list .bool) := fun n hn => by
        obtain ⟨k, rfl⟩ : ∃ k, n = k + 1 := ⟨n - 1, by omega⟩
        rw [gen_op (Or.inr (Or.inr (by rcases ho3 with rfl | rfl <;> simp))), gens2 g1 g2 k (by omega), Option.bind_some,
          if_neg (show o ∉ arithOps from ho), if_neg (show o ∉ cmpOps from ho')]
        exact ht
      rcases ho3 with rfl | rfl
      · refine ⟨_, ts, _, _, hgen, hlv, fun w xy => ?_, fun w η c L hη hm hm' => ?_⟩
        · rw [evalS_node]; exact ⟨_, rfl⟩
        · obtain ⟨u, hu, hu'⟩ := e1 w η c L hη hm hm'
          obtain ⟨v, hv, hv'⟩ := e2 w η c L hη hm hm'
          obtain ⟨z, hz, hz'⟩ := hu'.zip (f := fun (s t : Sc) => some (Sc.bool (s.truth && t.truth)))
            (K := fun xy => evalS w p xy (.node .and t [a, b])) hv' (fun xy => by rw [evalS_node]; rfl)
          refine ⟨z, ?_, by rw [harr] at hz'; exact hz'⟩
          rw [if_pos rfl, eval_np2 hη _ hu hv]
          show (Arr.zip _ _ _).map NV.arr = _
          rw [hz]; rfl
      · refine ⟨_, ts, _, _, hgen, hlv, fun w xy => ?_, fun w η c L hη hm hm' => ?_⟩
        · rw [evalS_node]; exact ⟨_, rfl⟩
        · obtain ⟨u, hu, hu'⟩ := e1 w η c L hη hm hm'
          obtain ⟨v, hv, hv'⟩ := e2 w η c L hη hm hm'
          obtain ⟨z, hz, hz'⟩ := hu'.zip (f := fun (s t : Sc) => some (Sc.bool (s.truth || t.truth)))
            (K := fun xy => evalS w p xy (.node .or t [a, b])) hv' (fun xy => by rw [evalS_node]; rfl)
          refine ⟨z, ?_, by rw [harr] at hz'; exact hz'⟩
          rw [if_neg (by simp), eval_np2 hη _ hu hv]
          show (Arr.zip _ _ _).map NV.arr = _
          rw [hz]; rfl
    · next t' a heq =>
      injection heq with h1 h2 h3
      subst h1; subst h2; subst h3
      simp only [Option.bind_eq_some_iff] at h
      obtain ⟨i1, hi1, h⟩ := h
      obtain ⟨N1, x, A, l1, g1, r1, s1, e1⟩ := ih a (by simp) i1 hi1
      by_cases hb : (i1.bool && i1.arr) = true
      rotate_left
      · rw [if_neg hb] at h; cases h
      rw [if_pos hb] at h
      injection h with h
      subst h
      rw [Bool.and_eq_true] at hb
      have hτ : ([(x, i1.ty)] : List (List Tok × Ty)).all (fun p => decide (p.2 = .int ∨ p.2 = .bool)) = false := by
        simp [(arr_ty hb.2).1]
        intro h
        exact (arr_ty hb.2).2 (Or.inr h)
      refine ⟨N1 + 2, npCall "logical_not" [x], npAst "logical_not" [A], _, fun n hn => ?_, npCall_lv _ (.cons r1.zero.isArg .nil),
        fun w xy => ⟨_, by rw [evalS]⟩, fun w η c L hη hm hm' => ?_⟩
      · obtain ⟨k, rfl⟩ : ∃ k, n = k + 1 := ⟨n - 1, by omega⟩
        rw [gen_op (Or.inr (Or.inr (by simp))), gens1 g1 k (by omega), Option.bind_some, if_neg (by decide), if_neg (by decide)]
        unfold boolText
        rw [hτ]
        rfl
      · obtain ⟨u, hu, hu'⟩ := e1 w η c L hη hm hm'
        rw [hb.2] at hu'
        obtain ⟨z, hz, hz'⟩ := hu'.map (f := fun s => some (Sc.bool (!s.truth))) (K := fun xy => evalS w p xy (.node .not t [a]))
          (fun xy => by rw [evalS])
        refine ⟨z, ?_, hz'⟩
        rw [eval_np1 hη _ hu]
        show (Arr.mapO _ _).map NV.arr = _
        rw [hz]; rfl
    · cases h

/-- Arithmetic on integers. -/
theorem op_int {I : Interp} (hI : NpModel I) {w : Int → Int} {o : Op} (ho : o ∈ arithOps) {x y : Int}
    (hok : opOk w o [.int x, .int y] (evalOp I o [.int x, .int y])) :
    ∃ i, evalOp I o [.int x, .int y] = .int i ∧ binOp w (opBin o) (.sc (.int x)) (.sc (.int y)) = some (.sc (.int i)) ∧
      scOp w o (.int x) (.int y) = some (.int i) := by
  simp only [arithOps, List.mem_cons, List.not_mem_nil, or_false] at ho
  rcases ho with rfl | rfl | rfl | rfl | rfl
  · have h : w (0 + x + y) = 0 + x + y := hok _ (List.mem_cons_self ..)
    rw [Int.zero_add] at h
    refine ⟨x + y, ?_, ?_, ?_⟩
    · show Val.int (0 + x + y) = _
      rw [Int.zero_add]
    · show some (Arr.sc (Sc.int (w (x + y)))) = _
      rw [h]
    · show some (Sc.int (w (x + y))) = _
      rw [h]
  · have h : w (x - y) = x - y := hok _ (List.mem_cons_self ..)
    refine ⟨x - y, rfl, ?_, ?_⟩
    · show some (Arr.sc (Sc.int (w (x - y)))) = _
      rw [h]
    · show some (Sc.int (w (x - y))) = _
      rw [h]
  · have h : w (1 * x * y) = 1 * x * y := hok _ (List.mem_cons_self ..)
    rw [Int.one_mul] at h
    refine ⟨x * y, ?_, ?_, ?_⟩
    · show Val.int (1 * x * y) = _
      rw [Int.one_mul]
    · show some (Arr.sc (Sc.int (w (x * y)))) = _
      rw [h]
    · show some (Sc.int (w (x * y))) = _
      rw [h]
  · obtain ⟨h0, h1, h⟩ := hok
    have h : w (I.idiv x y) = I.idiv x y := h _ (List.mem_cons_self ..)
    have hy : y ≠ 0 := by omega
    have he : (if y = 0 then 0 else Int.fdiv x y) = I.idiv x y := by
      rw [if_neg hy, hI.div x y h0 h1, Int.fdiv_eq_ediv_of_nonneg _ (by omega)]
    have hs : arith w .floordiv (.int x) (.int y) = some (.int (I.idiv x y)) := by
      show some (Sc.int (w (if y = 0 then 0 else Int.fdiv x y))) = _
      rw [he, h]
    refine ⟨I.idiv x y, rfl, ?_, hs⟩
    show binOp w .floordiv _ _ = _
    unfold binOp
    split
    · rename_i heq
      injection heq with heq
      injection heq with heq
      exact absurd heq hy
    · contradiction
    · show (arith w .floordiv (.int x) (.int y)).map Arr.sc = _
      rw [hs]; rfl
  · obtain ⟨h0, h1, h⟩ := hok
    have h : w (I.imod x y) = I.imod x y := h _ (List.mem_cons_self ..)
    have hy : y ≠ 0 := by omega
    have he : (if y = 0 then 0 else Int.fmod x y) = I.imod x y := by
      rw [if_neg hy, hI.mod x y h0 h1, Int.fmod_eq_emod_of_nonneg _ (by omega)]
    have hs : arith w .mod (.int x) (.int y) = some (.int (I.imod x y)) := by
      show some (Sc.int (w (if y = 0 then 0 else Int.fmod x y))) = _
      rw [he, h]
    refine ⟨I.imod x y, rfl, ?_, hs⟩
    show binOp w .mod _ _ = _
    unfold binOp
    split
    · contradiction
    · rename_i heq
      injection heq with heq
      injection heq with heq
      exact absurd heq hy
    · show (arith w .mod (.int x) (.int y)).map Arr.sc = _
      rw [hs]; rfl

/-- Comparisons of integers. -/
theorem op_cmp (I : Interp) (w : Int → Int) {o : Op} (ho : o ∈ cmpOps) (x y : Int) :
    ∃ b, evalOp I o [.int x, .int y] = .bool b ∧ compare (opCmp o) (.int x) (.int y) = some (.bool b) ∧ scOp w o (.int x) (.int y) = some (.bool b) := by
  simp only [cmpOps, List.mem_cons, List.not_mem_nil, or_false] at ho
  rcases ho with rfl | rfl | rfl | rfl | rfl
  · exact ⟨decide (x = y), by simp [evalOp], rfl, rfl⟩
  all_goals exact ⟨_, rfl, rfl, rfl⟩

/-- The value of the IR. -/
def Sc.val : Sc → Val
  | .int i => .int i
  | .bool b => .bool b

theorem Sc.val_int {s : Sc} {i : Int} (h : s.val = .int i) : s = .int i := by cases s <;> cases h; rfl
theorem Sc.val_truth {s : Sc} {b : Bool} (h : s.val = .bool b) : s.truth = b := by cases s <;> cases h; rfl

/-- NumPy computes the value of the body. -/
theorem evalS_ok {I : Interp} (hI : NpModel I) {w : Int → Int} {p q : String} {x y : Int} :
    ∀ (e : Expr) (i : LInfo), checkL p q e = some i → ScalarFits I w (fun z => if z = p then .int x else .int y) e →
      (evalS w p (x, y) e).val = Metalift.eval I (fun z => if z = p then .int x else .int y) e ∧
      if i.bool then ∃ b, Metalift.eval I (fun z => if z = p then .int x else .int y) e = .bool b
      else ∃ j, Metalift.eval I (fun z => if z = p then .int x else .int y) e = .int j := by
  generalize hρ : (fun z => if z = p then Val.int x else Val.int y : Env) = ρ
  refine Expr.ind ?_ ?_ ?_
  · intro z t i h _
    rw [checkL] at h
    by_cases hz : z = p ∨ z = q
    rotate_left
    · rw [if_neg hz] at h; cases h
    rw [if_pos hz] at h
    injection h with h
    subst h
    have he : Metalift.eval I ρ (.var z t) = if z = p then .int x else .int y := by rw [Metalift.eval, ← hρ]
    rw [evalS, he]
    by_cases hzp : z = p
    · rw [if_pos hzp, if_pos hzp]; exact ⟨rfl, _, rfl⟩
    · rw [if_neg hzp, if_neg hzp]; exact ⟨rfl, _, rfl⟩
  · intro l i h _
    cases l <;> (rw [checkL] at h; injection h with h; subst h; exact ⟨rfl, _, rfl⟩)
  · intro o t args ih i h hf
    unfold checkL at h
    split at h
    · cases ‹Expr.node o t args = _›
    · cases ‹Expr.node o t args = _›
    · cases ‹Expr.node o t args = _›
    · next o' t' a b heq =>
      injection heq with h1 h2 h3
      subst h1; subst h2; subst h3
      simp only [Option.bind_eq_some_iff] at h
      obtain ⟨i1, hi1, i2, hi2, h⟩ := h
      by_cases harr : (i1.arr || i2.arr) = true
      rotate_left
      · rw [if_neg harr] at h; cases h
      rw [if_pos harr] at h
      have iha := ih a (by simp) i1 hi1
      have ihb := ih b (by simp) i2 hi2
      rw [evalS_node]
      have hev : Metalift.eval I ρ (.node o t [a, b]) = evalOp I o [Metalift.eval I ρ a, Metalift.eval I ρ b] := rfl
      by_cases ho : o ∈ [Op.add, .sub, .mul, .div, .mod]
      · rw [if_pos ho] at h
        by_cases hb : (i1.bool || i2.bool) = true
        · rw [if_pos hb] at h; cases h
        rw [if_neg hb] at h
        injection h with h
        subst h
        have hb1 : i1.bool = false := by cases hh : i1.bool <;> simp_all
        have hb2 : i2.bool = false := by cases hh : i2.bool <;> simp_all
        rw [hb1] at iha
        rw [hb2] at ihb
        have hf' : ScalarFits I w ρ a ∧ ScalarFits I w ρ b ∧ opOk w o [Metalift.eval I ρ a, Metalift.eval I ρ b] (Metalift.eval I ρ (.node o t [a, b])) := by
          simp only [List.mem_cons, List.not_mem_nil, or_false] at ho
          rcases ho with rfl | rfl | rfl | rfl | rfl <;> exact hf
        obtain ⟨fa, fb, hok⟩ := hf'
        obtain ⟨va, j, ha⟩ := iha fa
        obtain ⟨vb, k, hb⟩ := ihb fb
        rw [ha] at va; rw [hb] at vb
        rw [hev, ha, hb] at hok
        obtain ⟨r, h1, -, h2⟩ := op_int hI ho hok
        rw [Sc.val_int va, Sc.val_int vb, h2, hev, ha, hb, h1]
        exact ⟨rfl, r, rfl⟩
      rw [if_neg ho] at h
      by_cases ho' : o ∈ [Op.eq, .lt, .le, .gt, .ge]
      · rw [if_pos ho'] at h
        by_cases hb : (i1.bool || i2.bool) = true
        · rw [if_pos hb] at h; cases h
        rw [if_neg hb] at h
        injection h with h
        subst h
        have hb1 : i1.bool = false := by cases hh : i1.bool <;> simp_all
        have hb2 : i2.bool = false := by cases hh : i2.bool <;> simp_all
        rw [hb1] at iha
        rw [hb2] at ihb
        have hf' : ScalarFits I w ρ a ∧ ScalarFits I w ρ b ∧ opOk w o [Metalift.eval I ρ a, Metalift.eval I ρ b] (Metalift.eval I ρ (.node o t [a, b])) := by
          simp only [List.mem_cons, List.not_mem_nil, or_false] at ho'
          rcases ho' with rfl | rfl | rfl | rfl | rfl <;> exact hf
        obtain ⟨fa, fb, -⟩ := hf'
        obtain ⟨va, j, ha⟩ := iha fa
        obtain ⟨vb, k, hb⟩ := ihb fb
        rw [ha] at va; rw [hb] at vb
        obtain ⟨r, h1, -, h2⟩ := op_cmp I w ho' j k
        rw [Sc.val_int va, Sc.val_int vb, h2, hev, ha, hb, h1]
        exact ⟨rfl, r, rfl⟩
      rw [if_neg ho'] at h
      by_cases ho'' : o ∈ [Op.and, .or]
      rotate_left
      · rw [if_neg ho''] at h; cases h
      rw [if_pos ho''] at h
      by_cases hb : (i1.bool && i2.bool) = true
      rotate_left
      · rw [if_neg hb] at h; cases h
      rw [if_pos hb] at h
      injection h with h
      subst h
      rw [Bool.and_eq_true] at hb
      rw [hb.1] at iha
      rw [hb.2] at ihb
      have ho3 : o = .and ∨ o = .or := by simpa using ho''
      rcases ho3 with rfl | rfl
      · obtain ⟨fa, fb⟩ : ScalarFits I w ρ a ∧ ((Metalift.eval I ρ a).asBool = true → ScalarFits I w ρ b) := hf
        obtain ⟨va, j, ha⟩ := iha fa
        rw [ha] at va fb
        rw [hev, ha]
        cases j with
        | false =>
          refine ⟨?_, _, rfl⟩
          show Val.bool (Sc.truth _ && Sc.truth _) = Val.bool _
          rw [Sc.val_truth va]; rfl
        | true =>
          obtain ⟨vb, k, hb⟩ := ihb (fb rfl)
          rw [hb] at vb
          rw [hb]
          refine ⟨?_, _, rfl⟩
          show Val.bool (Sc.truth _ && Sc.truth _) = Val.bool _
          rw [Sc.val_truth va, Sc.val_truth vb]
          cases k <;> rfl
      · obtain ⟨fa, fb⟩ : ScalarFits I w ρ a ∧ ((Metalift.eval I ρ a).asBool = false → ScalarFits I w ρ b) := hf
        obtain ⟨va, j, ha⟩ := iha fa
        rw [ha] at va fb
        rw [hev, ha]
        cases j with
        | true =>
          refine ⟨?_, _, rfl⟩
          show Val.bool (Sc.truth _ || Sc.truth _) = Val.bool _
          rw [Sc.val_truth va]; rfl
        | false =>
          obtain ⟨vb, k, hb⟩ := ihb (fb rfl)
          rw [hb] at vb
          rw [hb]
          refine ⟨?_, _, rfl⟩
          show Val.bool (Sc.truth _ || Sc.truth _) = Val.bool _
          rw [Sc.val_truth va, Sc.val_truth vb]
          cases k <;> rfl
    · next t' a heq =>
      injection heq with h1 h2 h3
      subst h1; subst h2; subst h3
      simp only [Option.bind_eq_some_iff] at h
      obtain ⟨i1, hi1, h⟩ := h
      by_cases hb : (i1.bool && i1.arr) = true
      rotate_left
      · rw [if_neg hb] at h; cases h
      rw [if_pos hb] at h
      injection h with h
      subst h
      rw [Bool.and_eq_true] at hb
      obtain ⟨va, h⟩ := ih a (by simp) i1 hi1 hf
      rw [if_pos hb.1] at h
      obtain ⟨j, ha⟩ := h
      rw [ha] at va
      rw [evalS]
      have hev : Metalift.eval I ρ (.node .not t [a]) = evalOp I .not [Metalift.eval I ρ a] := rfl
      rw [hev, ha, Sc.val_truth va]
      exact ⟨rfl, _, rfl⟩
    · cases h

/-- The value of a matrix, from the value of its elements. -/
theorem matrix_of_pairs {f : Int → Int → Val} {k : Int × Int → Int} : ∀ {m n : List (List Int)}, (∀ rs ∈ m.zip n, ∀ ab ∈ rs.1.zip rs.2, f ab.1 ab.2 = .int (k ab)) →
    Val.list (List.zipWith (fun r s => Val.list (List.zipWith f r s)) m n) = matV ((List.zipWith List.zip m n).map fun r => r.map k) := by
  have row : ∀ {r s : List Int}, (∀ ab ∈ r.zip s, f ab.1 ab.2 = .int (k ab)) → List.zipWith f r s = ((r.zip s).map k).map Val.int := by
    intro r
    induction r with
    | nil => intros; rfl
    | cons a r ih =>
      intro s h
      cases s with
      | nil => rfl
      | cons b s =>
        rw [List.zipWith_cons_cons, List.zip_cons_cons, List.map_cons, List.map_cons, h (a, b) (by simp), ih fun ab hab => h ab (by simp [hab])]
  intro m n h
  refine congrArg Val.list ?_
  induction m generalizing n with
  | nil => rfl
  | cons r m ih =>
    cases n with
    | nil => rfl
    | cons s n =>
      rw [List.zipWith_cons_cons, List.zipWith_cons_cons, List.map_cons, List.map_cons, ih fun rs hrs => h rs (by simp [hrs]), row fun ab hab => h (r, s) (by simp) ab hab]
      rfl

theorem zip_fst {α β : Type} : ∀ {r : List α} {s : List β}, r.length = s.length → (r.zip s).map Prod.fst = r
  | [], [], _ => rfl
  | a :: r, b :: s, h => by
    rw [List.zip_cons_cons, List.map_cons, zip_fst (by simpa using h)]
theorem zip_snd {α β : Type} : ∀ {r : List α} {s : List β}, r.length = s.length → (r.zip s).map Prod.snd = s
  | [], [], _ => rfl
  | a :: r, b :: s, h => by
    rw [List.zip_cons_cons, List.map_cons, zip_snd (by simpa using h)]

theorem grid_fst {β : Type} (g : Int → β) : ∀ {m n : List (List Int)}, m.map List.length = n.map List.length →
    ((List.zipWith List.zip m n).map fun r => r.map fun x => g x.1) = m.map fun r => r.map g
  | [], [], _ => rfl
  | r :: m, s :: n, h => by
    simp only [List.map_cons, List.cons.injEq] at h
    rw [List.zipWith_cons_cons, List.map_cons, List.map_cons, grid_fst g h.2]
    congr 1
    conv => rhs; rw [← zip_fst h.1]
    rw [List.map_map]; rfl
theorem grid_snd {β : Type} (g : Int → β) : ∀ {m n : List (List Int)}, m.map List.length = n.map List.length →
    ((List.zipWith List.zip m n).map fun r => r.map fun x => g x.2) = n.map fun r => r.map g
  | [], [], _ => rfl
  | r :: m, s :: n, h => by
    simp only [List.map_cons, List.cons.injEq] at h
    rw [List.zipWith_cons_cons, List.map_cons, List.map_cons, grid_snd g h.2]
    congr 1
    conv => rhs; rw [← zip_snd h.1]
    rw [List.map_map]; rfl

/-- The select function. -/
theorem checkSelect_inv {fns : List (String × SynthFn)} {r : String × String × Expr × Expr × Expr} (h : checkSelect fns = some r) :
    ∃ s t t' ti i j k, selectFn fns = some s ∧ s.params = [(r.1, t), (r.2.1, t')] ∧ s.body = .node .ite ti [r.2.2.1, r.2.2.2.1, r.2.2.2.2] ∧ r.1 ≠ r.2.1 ∧
      checkL r.1 r.2.1 r.2.2.1 = some i ∧ i = ⟨true, true⟩ ∧ checkL r.1 r.2.1 r.2.2.2.1 = some j ∧ j.bool = false ∧
      checkL r.1 r.2.1 r.2.2.2.2 = some k ∧ k.bool = false := by
  unfold checkSelect at h
  rw [Option.bind_eq_some_iff] at h
  obtain ⟨s, hs, h⟩ := h
  split at h
  · next p t q t' ti c a b hp hb =>
    split at h
    · next hc =>
      injection h with h
      subst h
      obtain ⟨h1, h2, h3, h4⟩ := hc
      rw [Option.map_eq_some_iff] at h3 h4
      obtain ⟨j, hj, hj'⟩ := h3
      obtain ⟨k, hk, hk'⟩ := h4
      exact ⟨s, t, t', ti, _, j, k, hs, hp, hb, h1, h2, rfl, hj, hj', hk, hk'⟩
    · cases h
  · cases h

theorem map_inj {α β : Type} {f : α → β} (hf : ∀ x y, f x = f y → x = y) : ∀ {xs ys : List α}, xs.map f = ys.map f → xs = ys
  | [], [], _ => rfl
  | x :: xs, y :: ys, h => by
    rw [List.map_cons, List.map_cons] at h
    injection h with h1 h2
    rw [hf x y h1, map_inj hf h2]
theorem vecV_inj {xs ys : List Int} (h : vecV xs = vecV ys) : xs = ys := by
  injection h with h
  exact map_inj (fun x y h => by injection h) h
theorem matV_inj {m n : List (List Int)} (h : matV m = matV n) : m = n := by
  injection h with h
  exact map_inj (fun x y h => vecV_inj h) h

/-- Selection: `np.where`. -/
theorem select_sound {fns : List (String × SynthFn)} {r : String × String × Expr × Expr × Expr} (hr : checkSelect fns = some r) {m m' : Expr} {N : Nat}
    {toks toks' : List Tok} {am am' : Ast} {l l' : Nat}
    (hm : ∀ n, N ≤ n → gen fns false n [(r.2.1, m'), (r.1, m)] m = some (toks, .list (.list .int)))
    (hm' : ∀ n, N ≤ n → gen fns false n [(r.2.1, m'), (r.1, m)] m' = some (toks', .list (.list .int)))
    (hl : Lv l toks am) (hl' : Lv l' toks' am') (t : Ty) (rest : List Expr) :
    ∃ M ts a, (∀ n, M ≤ n → ∀ σ ps, gens fns false n σ (m :: m' :: rest) = some ps →
        gen fns false (n + 1) σ (.node (.call "matrix_selection_two_args") t (m :: m' :: rest)) = some (ts, t)) ∧ Lv 8 ts a ∧
      ∀ I, NpModel I → ∀ w η, η "np" = none → ∀ ms ns g u u', eval w η am = some u → Rep .mat u (matV ms) → eval w η am' = some u' → Rep .mat u' (matV ns) →
        SelectOk fns I w g ms ns → ∃ v, eval w η a = some v ∧ Rep .mat v (I.fn "matrix_selection_two_args" [matV ms, matV ns, g]) := by
  obtain ⟨p, q, c, a, b⟩ := r
  obtain ⟨s, t1, t2, ti, i, j, k, hs, hp, hb, hpq, hc, rfl, ha, haj, hb', hbk⟩ := checkSelect_inv hr
  simp only at hm hm' hp hb hpq hc ha hb'
  have lg := lgood hpq hm hm' hl hl'
  obtain ⟨N1, x1, A1, l1, g1, r1, s1, e1⟩ := lg c _ hc
  obtain ⟨N2, x2, A2, l2, g2, r2, s2, e2⟩ := lg a _ ha
  obtain ⟨N3, x3, A3, l3, g3, r3, s3, e3⟩ := lg b _ hb'
  refine ⟨N1 + N2 + N3, npCall "where" [x1, x2, x3], npAst "where" [A1, A2, A3], ?_, npCall_lv _ (.cons r1.zero.isArg (.cons r2.zero.isArg (.cons r3.zero.isArg .nil))), ?_⟩
  · intro n hn σ ps hps
    have he : String.endsWith "matrix_selection_two_args" "matrix_selection_two_args" = true := by decide +kernel
    rw [gen, hps, Option.bind_some, if_pos he, hs]
    simp [hb, hp, g1 n (by omega), g2 n (by omega), g3 n (by omega)]
  · intro I hI w η hη ms ns g u u' hu hur hu' hur' hok
    obtain ⟨d, ms', rfl, hme, hm1, hm2⟩ := hur.mat_inv
    obtain ⟨d', ns', rfl, hne, hn1, -⟩ := hur'.mat_inv
    obtain rfl := matV_inj hme
    obtain rfl := matV_inj hne
    obtain ⟨h0, hlen, s', p', q', g', hs', hp', rfl, hall⟩ := hok
    rw [hs] at hs'
    injection hs' with hs'
    subst hs'
    rw [hp] at hp'
    simp only [List.map_cons, List.map_nil, List.cons.injEq, and_true] at hp'
    obtain ⟨rfl, rfl⟩ := hp'
    obtain ⟨hl1, rfl⟩ := rows_of_lens hm1 hn1 h0 hlen
    have hshape := sameShape (hm2 h0) hl1 hm1 hn1
    generalize hL : List.zipWith List.zip ms ns = L
    have hu2 : eval w η am = some (.arr (.a2 d (L.map fun r => r.map fun x => .int x.1))) := by
      rw [hu, ← hL, grid_fst Sc.int hlen]
    have hu3 : eval w η am' = some (.arr (.a2 d (L.map fun r => r.map fun x => .int x.2))) := by
      rw [hu', ← hL, grid_snd Sc.int hlen]
    obtain ⟨v1, hv1, f1⟩ := e1 w η d L hη hu2 hu3
    obtain ⟨v2, hv2, f2⟩ := e2 w η d L hη hu2 hu3
    obtain ⟨v3, hv3, f3⟩ := e3 w η d L hη hu2 hu3
    rw [haj] at s2
    rw [hbk] at s3
    obtain ⟨z, hz, fz⟩ := f2.zip (f := fun (s t : Sc) => some (s, t)) (K := fun xy => (evalS w p xy a, evalS w p xy b)) f3 (fun _ => rfl)
    -- the integer chosen for a pair of elements
    have hk : ∃ k : Int × Int → Int, ∀ xy, (if (evalS w p xy c).truth then evalS w p xy a else evalS w p xy b) = .int (k xy) := by
      have : ∀ xy, ∃ i, (if (evalS w p xy c).truth then evalS w p xy a else evalS w p xy b) = .int i := fun xy => by
        split
        · exact s2 w xy
        · exact s3 w xy
      exact ⟨fun xy => (this xy).choose, fun xy => (this xy).choose_spec⟩
    obtain ⟨k, hk⟩ := hk
    obtain ⟨z', hz', fz'⟩ := f1.zip (f := fun (s : Sc) (t : Sc × Sc) => some (if s.truth then t.1 else t.2)) (K := fun xy => Sc.int (k xy)) fz
      (fun xy => by rw [hk])
    have fz' : z' = .a2 d (L.map fun r => r.map fun xy => Sc.int (k xy)) := fz'
    subst fz'
    refine ⟨.arr (.a2 d ((L.map fun r => r.map k).map fun r => r.map Sc.int)), ?_, ?_⟩
    · rw [eval_np3 hη _ hv1 hv2 hv3]
      show ((Arr.zip _ _ _).bind fun p => (Arr.zip _ _ p).map NV.arr) = _
      rw [hz, Option.bind_some, hz', Option.map_some]
      simp [List.map_map, Function.comp_def]
    · rw [(C31_matrix_selections_partial I hI.model g' ms ns 0 0 hshape).1, matrix_of_pairs (k := k), hL]
      · refine Rep.mat d _ (fun r hr => ?_) (fun _ => hm2 h0)
        obtain ⟨r', hr', rfl⟩ := List.mem_map.1 hr
        rw [List.length_map]
        rw [← hL] at hr'
        obtain ⟨i, hi, rfl⟩ := List.getElem_of_mem hr'
        rw [List.getElem_zipWith, List.length_zip, hm1 _ (List.getElem_mem _), hn1 _ (List.getElem_mem _), Nat.min_self]
      · intro rs hrs ab hab
        obtain ⟨hap, hsf⟩ := hall rs hrs ab hab
        rw [hap, hb]
        rw [hb] at hsf
        obtain ⟨fc, fab⟩ : ScalarFits I w (fun x => if x = p then .int ab.1 else .int ab.2) c ∧
          if (Metalift.eval I (fun x => if x = p then .int ab.1 else .int ab.2) c).asBool then ScalarFits I w (fun x => if x = p then .int ab.1 else .int ab.2) a
          else ScalarFits I w (fun x => if x = p then .int ab.1 else .int ab.2) b := hsf
        obtain ⟨vc, bc, hbc⟩ := evalS_ok hI c _ hc fc
        have hkab := hk ab
        rw [hbc] at vc fab
        rw [Sc.val_truth (s := evalS w p ab c) vc] at hkab
        show evalOp I .ite [Metalift.eval I _ c, Metalift.eval I _ a, Metalift.eval I _ b] = _
        rw [hbc]
        cases bc with
        | true =>
          have hv := (evalS_ok hI a _ ha fab).1
          show Metalift.eval I _ a = _
          rw [← hv]
          have hkab : evalS w p ab a = .int (k ab) := hkab
          show (evalS w p ab a).val = _
          rw [hkab]; rfl
        | false =>
          have hv := (evalS_ok hI b _ hb' fab).1
          show Metalift.eval I _ b = _
          rw [← hv]
          have hkab : evalS w p ab b = .int (k ab) := hkab
          show (evalS w p ab b).val = _
          rw [hkab]; rfl

end Metalift.Np
