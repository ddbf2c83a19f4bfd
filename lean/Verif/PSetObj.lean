import Verif.SetObj
import Verif.PSets
import Verif.RktLib2
import Verif.PSmtQuery
/-
C64: set and tuple objects.
-/
namespace Metalift
namespace SO

/-! ### Specification -/

/-- The functions named in the expressions are the operations of finite sets of integers; `rep v S`: the value `v` is the set `S`. -/
structure SetPrims (I : Interp) (rep : Val → (Int → Prop) → Prop) : Prop where
  unique : ∀ {v w S}, rep v S → rep w S → v = w
  functional : ∀ {v S T}, rep v S → rep v T → ∀ x, S x ↔ T x
  ext : ∀ {v S T}, rep v S → (∀ x, S x ↔ T x) → rep v T
  create : rep (I.fn "set-create" []) (fun _ => False)
  singleton : ∀ i, rep (I.fn "set-singleton" [.int i]) (fun x => x = i)
  insert : ∀ {s S} i, rep s S → rep (I.fn "set-insert" [.int i, s]) (fun x => x = i ∨ S x)
  union : ∀ {s t S T}, rep s S → rep t T → rep (I.fn "set-union" [s, t]) (fun x => S x ∨ T x)
  minus : ∀ {s t S T}, rep s S → rep t T → rep (I.fn "set-minus" [s, t]) (fun x => S x ∧ ¬ T x)

/-- Python programs that compute sets of integers with the methods of set objects; elements are expressions. -/
inductive Prog where
  | var (n : String)
  | empty
  | singleton (e : Expr)
  | add (s : Prog) (e : Expr)
  | remove (s : Prog) (e : Expr)
  | union (s t : Prog)
  | difference (s t : Prog)

/-- The object the program computes. -/
def Prog.run : Prog → Option Obj
  | .var n => some (setVar n .int)
  | .empty => some (setEmpty .int)
  | .singleton e => setSingleton ⟨e, .int⟩
  | .add s e => s.run.bind fun o => setAdd o ⟨e, .int⟩
  | .remove s e => s.run.bind fun o => setRemove o ⟨e, .int⟩
  | .union s t => s.run.bind fun o => t.run.bind fun o' => setUnion o o'
  | .difference s t => s.run.bind fun o => t.run.bind fun o' => setDifference o o'

/-- The set the program stands for: `elem` gives the values of the elements, `σ` the sets of the variables. -/
def Prog.means (elem : Expr → Int) (σ : String → Int → Prop) : Prog → Int → Prop
  | .var n, x => σ n x
  | .empty, _ => False
  | .singleton e, x => x = elem e
  | .add s e, x => s.means elem σ x ∨ x = elem e
  | .remove s e, x => s.means elem σ x ∧ x ≠ elem e
  | .union s t, x => s.means elem σ x ∨ t.means elem σ x
  | .difference s t, x => s.means elem σ x ∧ ¬ t.means elem σ x

/-- The elements of the program. -/
def Prog.elems : Prog → List Expr
  | .var _ | .empty => []
  | .singleton e => [e]
  | .add s e | .remove s e => e :: s.elems
  | .union s t | .difference s t => s.elems ++ t.elems

/-- The variables of the program that stand for sets. -/
def Prog.vars : Prog → List String
  | .var n => [n]
  | .empty | .singleton _ => []
  | .add s _ | .remove s _ => s.vars
  | .union s t | .difference s t => s.vars ++ t.vars

/-! ### Sets -/

theorem tyEq_refl (t : Ty) : tyEq t t = true := by
  have : tyEq t t = decide (t = t) := by
    unfold tyEq
    rw [Bool.eq_iff_iff, decide_eq_true_eq]
    exact Ty.beq_iff ..
  simp [this]

/-- C64: every program on sets of integers computes a set object whose value is the set the program stands for; the object and the
expression it wraps have the type `Set[Int]`. -/
theorem C64_set_programs_partial (I : Interp) (rep : Val → (Int → Prop) → Prop) (hI : SetPrims I rep) (ρ : Env) (elem : Expr → Int)
    (σ : String → Int → Prop) (p : Prog) (hσ : ∀ n ∈ p.vars, rep (ρ n) (σ n)) (he : ∀ e ∈ p.elems, eval I ρ e = .int (elem e)) :
    ∃ o, p.run = some o ∧ o.ty = .set .int ∧ o.src.ty = .set .int ∧ rep (eval I ρ o.src) (p.means elem σ) := by
  have evc : ∀ f t (as : List Expr), eval I ρ (mkCall f t as) = I.fn f (as.map (eval I ρ)) := fun f t as => by
    simp [mkCall, eval, evals_eq_map, evalOp]
  induction p with
  | var n => exact ⟨_, rfl, rfl, rfl, hσ n (by simp [Prog.vars])⟩
  | empty => exact ⟨_, rfl, rfl, rfl, by
    rw [setEmpty, evc]
    exact hI.create⟩
  | singleton e =>
    refine ⟨_, rfl, rfl, rfl, ?_⟩
    simp only [evc, List.map_cons, List.map_nil, he e (by simp [Prog.elems])]
    exact hI.singleton _
  | add s e ih =>
    obtain ⟨o, h1, h2, _, h3⟩ := ih (fun a ha => hσ a (by simp [Prog.vars, ha])) fun a ha => he a (by simp [Prog.elems, ha])
    refine ⟨⟨mkCall "set-insert" (.set .int) [e, o.src], .set .int⟩, by simp only [Prog.run, h1, Option.bind_some, setAdd, h2, containedT, tyEq_refl, if_true], rfl, rfl, ?_⟩
    simp only [evc, List.map_cons, List.map_nil, he e (by simp [Prog.elems])]
    exact hI.ext (hI.insert _ h3) fun x => Or.comm
  | remove s e ih =>
    obtain ⟨o, h1, h2, _, h3⟩ := ih (fun a ha => hσ a (by simp [Prog.vars, ha])) fun a ha => he a (by simp [Prog.elems, ha])
    refine ⟨⟨mkCall "set-minus" (.set .int) [o.src, mkCall "set-singleton" (.set .int) [e]], .set .int⟩, by simp only [Prog.run, h1, Option.bind_some, setRemove, h2, containedT, classOf, tyEq_refl, if_true, setSingleton, Option.map_some], rfl, rfl, ?_⟩
    simp only [evc, List.map_cons, List.map_nil, he e (by simp [Prog.elems])]
    exact hI.minus h3 (hI.singleton _)
  | union s t i1 i2 =>
    obtain ⟨o, h1, h2, _, h3⟩ := i1 (fun a ha => hσ a (by simp [Prog.vars, ha])) fun a ha => he a (by simp [Prog.elems, ha])
    obtain ⟨o', h4, h5, _, h6⟩ := i2 (fun a ha => hσ a (by simp [Prog.vars, ha])) fun a ha => he a (by simp [Prog.elems, ha])
    refine ⟨⟨mkCall "set-union" (.set .int) [o.src, o'.src], .set .int⟩, by simp only [Prog.run, h1, h4, Option.bind_some, setUnion, h2, h5, tyEq_refl, if_true], rfl, rfl, ?_⟩
    simp only [evc, List.map_cons, List.map_nil]
    exact hI.union h3 h6
  | difference s t i1 i2 =>
    obtain ⟨o, h1, h2, _, h3⟩ := i1 (fun a ha => hσ a (by simp [Prog.vars, ha])) fun a ha => he a (by simp [Prog.elems, ha])
    obtain ⟨o', h4, h5, _, h6⟩ := i2 (fun a ha => hσ a (by simp [Prog.vars, ha])) fun a ha => he a (by simp [Prog.elems, ha])
    refine ⟨⟨mkCall "set-minus" (.set .int) [o.src, o'.src], .set .int⟩, by simp only [Prog.run, h1, h4, Option.bind_some, setDifference, h2, h5, tyEq_refl, if_true], rfl, rfl, ?_⟩
    simp only [evc, List.map_cons, List.map_nil]
    exact hI.minus h3 h6

/-- C64: `==` on set objects is equality of sets. -/
theorem C64_set_equality (I : Interp) (rep : Val → (Int → Prop) → Prop) (hI : SetPrims I rep) (ρ : Env) (s t : Obj) (S T : Int → Prop)
    (hs : rep (eval I ρ s.src) S) (ht : rep (eval I ρ t.src) T) : eval I ρ (setEq s t).src = .bool true ↔ ∀ x, S x ↔ T x := by
  simp only [setEq, mkEq, eval, evals, evalOp, Val.bool.injEq, decide_eq_true_eq]
  constructor
  · intro h
    rw [h] at hs
    exact hI.functional hs ht
  · intro h
    exact hI.unique hs (hI.ext ht fun x => (h x).symm)

/-- C64: elements and sets of another type are refused. -/
theorem C64_set_types (s v t : Obj) (c : Ty) (hs : s.ty = .set c) :
    ((setAdd s v).isSome = true ↔ v.ty = c) ∧ ((setUnion s t).isSome = true ↔ t.ty = s.ty) ∧
    ((setDifference s t).isSome = true ↔ t.ty = s.ty) ∧ ((setRemove s v).isSome = true → v.ty = c) := by
  have h : ∀ a b : Ty, tyEq a b = true ↔ a = b := fun a b => Ty.beq_iff ..
  refine ⟨?_, ?_, ?_, ?_⟩
  · simp only [setAdd, hs, containedT]
    rw [← h v.ty c]
    split <;> simp_all
  · simp only [setUnion]
    rw [eq_comm (a := t.ty), ← h s.ty t.ty]
    split <;> simp_all
  · simp only [setDifference]
    rw [eq_comm (a := t.ty), ← h s.ty t.ty]
    split <;> simp_all
  · simp only [setRemove, hs, containedT]
    cases hv : v.ty <;> simp only [classOf] <;> try (intro h; cases h)
    all_goals (split <;> simp_all)

/-- The functions of the Rosette library. -/
def rktI : Interp where
  fn f vs := match f, vs with
    | "set-create", [] => Rkt.setV Rkt.setCreate
    | "set-singleton", [.int i] => Rkt.setV (Rkt.setSingleton i)
    | "set-insert", [.int i, .list s] => Rkt.setV (Rkt.setInsert i (s.map Val.asInt))
    | "set-union", [.list s, .list t] => Rkt.setV (Rkt.setUnion (s.map Val.asInt) (t.map Val.asInt))
    | "set-minus", [.list s, .list t] => Rkt.setV (Rkt.setMinus (s.map Val.asInt) (t.map Val.asInt))
    | _, _ => .int 0
  apply := fun _ _ => .int 0
  idiv := fun a b => a / b
  imod := fun a b => a % b
  choose := fun _ => .int 0

theorem setV_inj {s t : List Int} (h : Rkt.setV s = Rkt.setV t) : s = t := by
  simp only [Rkt.setV, Val.list.injEq] at h
  exact List.map_injective_iff.2 (fun a b h => by simpa using h) h

theorem asInt_map (s : List Int) : (s.map Val.int).map Val.asInt = s := by simp [Val.asInt, Function.comp_def]

/-- A value is a set if it is the sorted list of its elements. -/
def rktRep (v : Val) (S : Int → Prop) : Prop := ∃ s, IsSet s ∧ v = Rkt.setV s ∧ ∀ x, x ∈ s ↔ S x

/-- The functions of the Rosette library are the operations of sets. -/
theorem rktI_sets : SetPrims rktI rktRep where
  unique := by
    rintro v w S ⟨s, hs, rfl, h1⟩ ⟨t, ht, rfl, h2⟩
    rw [isSet_ext hs ht fun x => (h1 x).trans (h2 x).symm]
  functional := by
    rintro v S T ⟨s, hs, rfl, h1⟩ ⟨t, ht, h, h2⟩ x
    cases setV_inj h
    exact (h1 x).symm.trans (h2 x)
  ext := by
    rintro v S T ⟨s, hs, rfl, h1⟩ h
    exact ⟨s, hs, rfl, fun x => (h1 x).trans (h x)⟩
  create := ⟨_, List.Pairwise.nil, rfl, fun x => by simp⟩
  singleton i := ⟨_, (C29_sets [] [] .nil .nil i).2.2.1, rfl, (C29_sets [] [] .nil .nil i).2.2.2.1⟩
  insert := by
    rintro _ S i ⟨s, hs, rfl, h1⟩
    have h := C29_sets s [] hs .nil i
    refine ⟨_, h.2.2.2.2.1, by simp only [rktI, Rkt.setV, asInt_map], fun x => ?_⟩
    rw [h.2.2.2.2.2.1, h1]
  union := by
    rintro _ _ S T ⟨s, hs, rfl, h1⟩ ⟨t, ht, rfl, h2⟩
    have h := C29_sets s t hs ht 0
    refine ⟨_, h.2.2.2.2.2.2.1, by simp only [rktI, Rkt.setV, asInt_map], fun x => ?_⟩
    rw [h.2.2.2.2.2.2.2.1, h1, h2]
  minus := by
    rintro _ _ S T ⟨s, hs, rfl, h1⟩ ⟨t, ht, rfl, h2⟩
    have h := C29_sets s t hs ht 0
    refine ⟨_, h.2.2.2.2.2.2.2.2.1, by simp only [rktI, Rkt.setV, asInt_map], fun x => ?_⟩
    rw [h.2.2.2.2.2.2.2.2.2.1, h1, h2]

/-- A program: `s.union(Set.empty(Int).add(x)).remove(3)`. -/
def exProg : Prog := .remove (.union (.var "s") (.add .empty (.var "x" .int))) (intLit 3)

/-- The hypotheses of the theorem are met by the example: with the functions of the Rosette library, `s = {3, 5}` and `x = 1`, it is `{1, 5}`. -/
example : ∃ o, exProg.run = some o ∧ o.ty = .set .int ∧
    eval rktI (fun n => if n = "x" then .int 1 else Rkt.setV [3, 5]) o.src = Rkt.setV [1, 5] := by
  obtain ⟨o, h1, h2, _, h3⟩ := C64_set_programs_partial rktI rktRep rktI_sets (fun n => if n = "x" then .int 1 else Rkt.setV [3, 5])
    (fun e => match e with | .var _ _ => 1 | _ => 3) (fun _ v => v = 3 ∨ v = 5) exProg
    (by
      intro n hn
      simp only [exProg, Prog.vars, List.mem_append, List.mem_singleton, List.not_mem_nil, or_false] at hn
      subst hn
      exact ⟨[3, 5], by simp [IsSet], by simp, by simp⟩)
    (by
      intro e he
      simp only [exProg, Prog.elems, List.nil_append, List.mem_cons, List.not_mem_nil, or_false] at he
      rcases he with rfl | rfl
      · rfl
      · simp [eval])
  refine ⟨o, h1, h2, rktI_sets.unique h3 ⟨[1, 5], by simp [IsSet], rfl, fun x => ?_⟩⟩
  simp only [exProg, Prog.means, intLit, List.mem_cons, List.not_mem_nil, or_false, false_or]
  omega

/-! ### Membership -/

/-- C64 is false for membership.  In Python `x in s` is true for every set and every object, even for an object of another type.  Called directly, the method
builds a call of a function that the library for Rosette does not define and that the printer for SMT-LIB turns into a symbol SMT-LIB does not have. -/
theorem C64_membership_refuted :
    (∀ (s v : Obj) (c : Ty), s.ty = .set c → pyIn v s = some true) ∧
    (∃ o, setContains (setVar "s" .int) ⟨.var "x" .int, .int⟩ = some o ∧
      o.src = mkCall "set-pointer_varsber" .bool [.var "s" (.set .int), .var "x" .int] ∧
      Smt.exprText o.src = some "(set.pointer_varsber s x)") ∧
    (∀ d ∈ Rkt.utilsDefs, d.name ≠ "set-pointer_varsber") := by
  refine ⟨fun s v c hs => ?_, ⟨_, rfl, rfl, ?_⟩, ?_⟩
  · simp only [pyIn, setContains, hs, containedT]
    split <;> rfl
  · decide +kernel
  · decide +kernel

/-- Removing: the element is compared with the type of the elements by its class, so nothing can be removed from a set of lists. -/
theorem C64_remove_refuted : ∃ s v : Obj, s.ty = .set (.list .int) ∧ v.ty = .list .int ∧ (setAdd s v).isSome = true ∧ setRemove s v = none :=
  ⟨setVar "s" (.list .int), ⟨.var "l" (.list .int), .list .int⟩, rfl, rfl, by decide +kernel, rfl⟩

/-! ### Tuples -/

/-- C64: component `i` of a tuple made from objects is the object with that number, for components of type `Int` and `Bool`. -/
theorem C64_tuples_partial (I : Interp) (hI : Smt.FixedFns I) (ρ : Env) (os : List Obj) (i : Nat) (o : Obj) (ho : os[i]? = some o)
    (hty : o.ty = .int ∨ o.ty = .bool) :
    ∃ c, tupleGetItem (makeTuple os) i = some c ∧ c.ty = o.ty ∧ eval I ρ c.src = eval I ρ o.src := by
  have h1 : pyIndex (os.map Obj.ty) (i : Int) = some o.ty := by simp [pyIndex, ho]
  have h2 : classOf o.ty = some o.ty := by rcases hty with h | h <;> rw [h] <;> rfl
  refine ⟨⟨mkCall "tupleGet" o.ty [(makeTuple os).src, intLit i], o.ty⟩,
    by simp only [tupleGetItem, makeTuple, h1, Option.bind_some, h2, Option.map_some], rfl, ?_⟩
  simp only [makeTuple, mkCall, eval, evals_eq_map, evalOp, intLit, List.map_cons, List.map_nil]
  exact hI.tupleGet _ i _ (by simp [ho])

/-- An interpretation in which tuples have their meaning. -/
def fixedI : Interp where
  fn f vs := match f, vs with
    | "make-tuple", vs => .tuple vs
    | "tupleGet", [.tuple ws, .int i] => (ws[i.toNat]?).getD (.int 0)
    | "list_eq", [a, b] => .bool (decide (a = b))
    | "ite", [c, a, b] => if c.asBool then a else b
    | _, _ => .int 0
  apply := fun _ _ => .int 0
  idiv := Int.ediv
  imod := Int.emod
  choose := fun _ => .int 0

theorem fixedI_fixed : Smt.FixedFns fixedI where
  div _ _ _ := rfl
  mod _ _ _ := rfl
  makeTuple _ := rfl
  tupleGet vs i v h := by simp [fixedI, h]
  listEq _ _ := rfl
  ite _ _ _ := rfl

/-- The hypotheses are met: the second component of `(x, b)`. -/
example : ∃ c, tupleGetItem (makeTuple [⟨.var "x" .int, .int⟩, ⟨.var "b" .bool, .bool⟩]) 1 = some c ∧ c.ty = .bool ∧
    eval fixedI (fun n => if n = "b" then .bool true else .int 7) c.src = .bool true := by
  obtain ⟨c, h1, h2, h3⟩ := C64_tuples_partial fixedI fixedI_fixed (fun n => if n = "b" then .bool true else .int 7)
    [⟨.var "x" .int, .int⟩, ⟨.var "b" .bool, .bool⟩] 1 ⟨.var "b" .bool, .bool⟩ rfl (.inr rfl)
  exact ⟨c, h1, h2, h3⟩

/-- Indices past the end are refused. -/
theorem C64_tuple_bounds (os : List Obj) (i : Int) (h : (os.length : Int) ≤ i ∨ i < - os.length) : tupleGetItem (makeTuple os) i = none := by
  have : pyIndex (os.map Obj.ty) i = none := by
    unfold pyIndex
    split
    · rw [List.getElem?_eq_none]
      simp only [List.length_map]
      omega
    · rw [if_neg]
      simp only [List.length_map]
      omega
  simp [tupleGetItem, makeTuple, this]

/-- C64 is false for negative indices (the last component is announced, but the call says component `-1`, for which SMT-LIB gets a function the
files do not declare), for components that are lists, and for tuples returned by functions: they cannot be indexed at all. -/
theorem C64_tuples_refuted :
    (∃ c, tupleGetItem (makeTuple [⟨.var "a" .int, .int⟩, ⟨.var "b" .int, .int⟩]) (-1) = some c ∧ c.ty = .int ∧
      Smt.exprText c.src = some "(tuple2_get-1 (tuple2 a b))") ∧
    tupleGetItem (makeTuple [⟨.var "a" .int, .int⟩, ⟨.var "l" (.list .int), .list .int⟩]) 1 = none ∧
    (∀ f ts args i, tupleGetItem (callTuple f ts args) i = none) := by
  refine ⟨⟨_, rfl, rfl, ?_⟩, rfl, fun f ts args i => ?_⟩
  · decide +kernel
  · simp only [tupleGetItem, callTuple, pyIndex]
    split
    · rcases h : i.toNat with _ | n <;> simp [classOf]
    · split
      · rcases h : (([Ty.tuple ts].length : Int) + i).toNat with _ | n <;> simp [classOf]
      · rfl

end SO
end Metalift
