import Verif.RosetteFileText
import Verif.PRktLib
/-
Evaluation of printed expressions in Racket agrees with their meaning.
-/
namespace Metalift
namespace Rkt
open Smt (OfTy OfTys FnHolds paramEnv)

/-! ### Specification -/

/-- The functions on lists, matrices, tensors, integers and sets that `to_rosette` translates to functions of the library, with their types
(elements are integers). -/
def primTable : List (String × List Ty × Ty) :=
  let l : Ty := .list .int
  let m : Ty := .list l
  let t : Ty := .list m
  let s : Ty := .set .int
  [("list_length", [l], .int), ("matrix_length", [m], .int), ("tensor3d_length", [t], .int), ("list_empty", [], l), ("matrix_empty", [], m),
   ("tensor3d_empty", [], t), ("list_append", [l, .int], l), ("matrix_append", [m, l], m), ("tensor3d_append", [t, m], t),
   ("list_prepend", [.int, l], l), ("matrix_prepend", [l, m], m), ("tensor3d_prepend", [m, t], t), ("list_get", [l, .int], .int),
   ("matrix_get", [m, .int], l), ("tensor3d_get", [t, .int], m), ("list_tail", [l, .int], l), ("matrix_tail", [m, .int], m),
   ("tensor3d_tail", [t, .int], t), ("list_take", [l, .int], l), ("matrix_take", [m, .int], m), ("tensor3d_take", [t, .int], t),
   ("list_concat", [l, l], l), ("vec_slice", [l, .int, .int], l), ("matrix_row_slice", [m, .int, .int], m),
   ("tensor3d_slice", [t, .int, .int], t), ("vec_slice_with_length", [l, .int, .int], l), ("matrix_row_slice_with_length", [m, .int, .int], m),
   ("tensor3d_slice_with_length", [t, .int, .int], t), ("matrix_col_slice", [m, .int, .int], m),
   ("matrix_col_slice_with_length", [m, .int, .int], m), ("matrix_transpose", [m], m), ("integer_sqrt", [.int], .int),
   ("integer_exp", [.int], .int), ("list_eq", [l, l], .bool), ("set-create", [], s), ("set-insert", [.int, s], s), ("set-singleton", [.int], s),
   ("set-union", [s, s], s), ("set-minus", [s, s], s), ("set-subset", [s, s], .bool), ("set-member", [.int, s], .bool)]

/-- Their signatures. -/
def primSig : Sigs := fun f => primTable.lookup f

/-- The signatures of all functions: those of the target language, the predicates, the library. -/
def fileSig (cands lang : List FnDecl) : Sigs := fun f => ((langSig (cands ++ lang)) f).orElse (fun _ => primSig f)

/-- The meaning given to the functions of the library is what these compute (C53 says what that is); division and remainder are those of
`quotient` and `remainder`, and division by zero gives the dividend. -/
structure LibMeaning (I : Interp) : Prop where
  lib : ∀ f ts t hd, primSig f = some (ts, t) → opHead (.call f) ts.head? = some hd → ∀ vs v, OfTys ts vs → ∀ n fu,
    (moduleOf utilsDefs).call n fu hd vs = some v → I.fn f vs = v
  typed : ∀ f ts t, primSig f = some (ts, t) → ∀ vs, OfTys ts vs → OfTy t (I.fn f vs)
  div : ∀ a b, b ≠ 0 → I.idiv a b = a.tdiv b
  div_zero : ∀ a, I.idiv a 0 = a
  mod : ∀ a b, b ≠ 0 → I.imod a b = a.tmod b

mutual
/-- Arithmetic is done with integers. -/
def arithOk : Expr → Bool
  | .var _ _ => true
  | .lit _ => true
  | .node op _ args => arithOks args && (match op with
    | .add | .sub | .mul | .div | .mod | .lt | .le | .gt | .ge => args.all fun a => decide (a.ty = .int)
    | _ => true)
def arithOks : List Expr → Bool
  | [] => true
  | e :: es => arithOk e && arithOks es
end

theorem arithOks_iff {es : List Expr} : arithOks es = true ↔ ∀ e ∈ es, arithOk e = true := by
  induction es with
  | nil => simp [arithOks]
  | cons e es ih => simp [arithOks, ih]

/-! ### Applications of procedures of the library and of the language -/

theorem b_set_eq {n fu : Nat} {a b : Val} : libCall (n + 6) fu "set-eq" [a, b] = some (.bool (decide (a = b))) := by
  rkt_eval d_set_eq

theorem intArgs_eq {vs : List Val} {is : List Int} (h : intArgs vs = some is) : vs = is.map .int := by
  induction vs generalizing is with
  | nil => cases h; rfl
  | cons v vs ih =>
    simp only [intArgs, List.mapM_cons, Option.bind_eq_bind, Option.bind_eq_some_iff, Option.pure_def, Option.some.injEq] at h
    obtain ⟨i, hi, js, hjs, rfl⟩ := h
    cases v <;> simp [Val.toInt?] at hi
    subst hi
    rw [ih hjs]
    rfl

theorem boolArgs_eq {vs : List Val} {bs : List Bool} (h : boolArgs vs = some bs) : vs = bs.map .bool := by
  induction vs generalizing bs with
  | nil => cases h; rfl
  | cons v vs ih =>
    simp only [boolArgs, List.mapM_cons, Option.bind_eq_bind, Option.bind_eq_some_iff, Option.pure_def, Option.some.injEq] at h
    obtain ⟨i, hi, js, hjs, rfl⟩ := h
    cases v <;> simp [Val.toBool?] at hi
    subst hi
    rw [ih hjs]
    rfl

theorem libCall_builtin {n fu : Nat} {h : String} {vs : List Val} (hf : lib.find h = none) : libCall n fu h vs = (builtin h).bind fun p => p vs := by
  simp only [libCall, Module.exports, hf]

theorem compare_eq {r : Int → Int → Bool} {vs : List Val} {v : Val} (h : compare r vs = some v) :
    ∃ a b, vs = [.int a, .int b] ∧ v = .bool (r a b) := by
  unfold compare at h
  split at h
  · cases h; exact ⟨_, _, rfl, rfl⟩
  · cases h

theorem op_sound {I : Interp} (hI : LibMeaning I) {op : Op} {t1 : Option Ty} {h : String} (hh : opHead op t1 = some h)
    (h1 : op ≠ .or) (h2 : op ≠ .ite) (h3 : ∀ f, op ≠ .call f) (h4 : op ≠ .tuple) {n fu : Nat} {vs : List Val} {v : Val}
    (hl : op = .eq ∨ op = .sub → vs.length = 2) (hd : op = .div → ∃ a b, vs = [.int a, .int b]) (h : libCall n fu h vs = some v) : v = evalOp I op vs := by
  have b : ∀ {h : String}, lib.find h = none → libCall n fu h vs = some v → ((builtin h).bind fun p => p vs) = some v := by
    intro h hf e
    rwa [libCall_builtin hf] at e
  cases op with
  | or => exact absurd rfl h1
  | ite => exact absurd rfl h2
  | tuple => exact absurd rfl h4
  | call f => exact absurd rfl (h3 f)
  | callValue => cases hh
  | choose => cases hh
  | add =>
    cases hh
    have h := b (by decide +kernel) h
    simp only [builtin, Option.bind_some, Option.map_eq_some_iff] at h
    obtain ⟨is, hi, rfl⟩ := h
    rw [intArgs_eq hi]
    simp [evalOp, List.foldl_map]
  | mul =>
    cases hh
    have h := b (by decide +kernel) h
    simp only [builtin, Option.bind_some, Option.map_eq_some_iff] at h
    obtain ⟨is, hi, rfl⟩ := h
    rw [intArgs_eq hi]
    simp [evalOp, List.foldl_map]
  | sub =>
    cases hh
    have h := b (by decide +kernel) h
    simp only [builtin, Option.bind_some] at h
    have hv := hl (.inr rfl)
    split at h
    · simp at hv
    · cases h; rfl
    · cases h
  | div =>
    cases hh
    obtain ⟨x, y, rfl⟩ := hd rfl
    have h := libCall_mono (m := n + 6) (by omega) h
    rw [lib_quotient] at h
    cases h
    simp only [evalOp, Val.asInt_int, quotientNoerr]
    by_cases hy : y = 0
    · subst hy
      simp [hI.div_zero]
    · simp [hy, hI.div x y hy]
  | mod =>
    cases hh
    have h := b (by decide +kernel) h
    simp only [builtin, Option.bind_some] at h
    split at h
    · split at h
      · cases h
      · next hy =>
        cases h
        simp [evalOp, hI.mod _ _ hy]
    · cases h
  | eq =>
    have hv := hl (.inl rfl)
    match vs, hv with
    | [x, y], _ =>
      unfold opHead at hh
      split at hh <;> first
        | contradiction
        | skip
      · cases hh
        have h := libCall_mono (m := n + 6) (by omega) h
        rw [b_set_eq] at h
        cases h
        rfl
      · cases hh
        have h := b (by decide +kernel) h
        cases h
        rfl
  | lt =>
    cases hh
    have h := b (by decide +kernel) h
    obtain ⟨x, y, rfl, rfl⟩ := compare_eq h
    rfl
  | le =>
    cases hh
    have h := b (by decide +kernel) h
    obtain ⟨x, y, rfl, rfl⟩ := compare_eq h
    rfl
  | gt =>
    cases hh
    have h := b (by decide +kernel) h
    obtain ⟨x, y, rfl, rfl⟩ := compare_eq h
    rfl
  | ge =>
    cases hh
    have h := b (by decide +kernel) h
    obtain ⟨x, y, rfl, rfl⟩ := compare_eq h
    rfl
  | and =>
    cases hh
    have h := b (by decide +kernel) h
    simp only [builtin, Option.bind_some, Option.map_eq_some_iff] at h
    obtain ⟨is, hi, rfl⟩ := h
    rw [boolArgs_eq hi]
    simp only [evalOp, List.all_map]
    rfl
  | not =>
    cases hh
    have h := b (by decide +kernel) h
    simp only [builtin, Option.bind_some] at h
    split at h
    · cases h; rfl
    · cases h
  | implies =>
    cases hh
    have h := b (by decide +kernel) h
    simp only [builtin, Option.bind_some] at h
    split at h
    · cases h; rfl
    · cases h

/-! ### Environments -/

theorem bindAll_eq (σ : REnv) (bs : List (String × Val)) (x : String) : bindAll σ bs x = match bs.lookup x with | some v => some v | none => σ x := by
  induction bs with
  | nil => rfl
  | cons b bs ih =>
    obtain ⟨y, v⟩ := b
    rw [bindAll, List.lookup_cons]
    by_cases h : x = y
    · simp [h]
    · simp only [if_neg h, ih, beq_false_of_ne h]

theorem bindArgs_eq {ps : List String} {vs : List Val} {bs : List (String × Val)} (h : bindArgs ps none vs = some bs) :
    bs = ps.zip vs ∧ ps.length = vs.length := by
  induction ps generalizing vs bs with
  | nil =>
    cases vs with
    | nil => cases h; exact ⟨rfl, rfl⟩
    | cons v vs => cases h
  | cons p ps ih =>
    cases vs with
    | nil => cases h
    | cons v vs =>
      simp only [bindArgs, Option.map_eq_some_iff] at h
      obtain ⟨cs, hcs, rfl⟩ := h
      obtain ⟨rfl, e⟩ := ih hcs
      exact ⟨rfl, by simp [e]⟩

theorem zip_lookup {ps : List String} {vs : List Val} (h : ps.length = vs.length) {x : String} (hx : x ∈ ps) : ∃ v, (ps.zip vs).lookup x = some v := by
  induction ps generalizing vs with
  | nil => cases hx
  | cons p ps ih =>
    cases vs with
    | nil => cases h
    | cons v vs =>
      rw [List.zip_cons_cons, List.lookup_cons]
      by_cases e : x = p
      · simp [e]
      · rcases List.mem_cons.1 hx with hx | hx
        · exact absurd hx e
        · simp only [beq_false_of_ne e]
          exact ih (by simpa using h) hx

theorem paramEnv_typed {ps : List (String × Ty)} {vs : List Val} (h : OfTys (ps.map Prod.snd) vs) (x : String) :
    OfTy (paramTypes ps x) (paramEnv ps vs x) := by
  induction ps generalizing vs with
  | nil => exact ⟨0, by simp [paramEnv]⟩
  | cons p ps ih =>
    cases vs with
    | nil => cases h
    | cons v vs =>
      simp only [List.map_cons, OfTys] at h
      have := ih h.2
      obtain ⟨q, t⟩ := p
      simp only [paramTypes, paramEnv, List.map_cons, List.zip_cons_cons, List.lookup_cons] at this ⊢
      by_cases e : x = q
      · simpa [e] using h.1
      · simpa [beq_false_of_ne e] using this

/-! ### The module of the file -/

/-- The module has the functions of the file and hides nothing else that printed expressions use. -/
structure HasFns (M : Module) (fns : List FnDecl) : Prop where
  fn : ∀ d ∈ fns, ∃ b x, d.body = some b ∧ rktSx b = some x ∧ M.find d.name = some ⟨d.name, d.params.map Prod.fst, none, x, d.recursive⟩
  free : ∀ h, h ∈ reservedHeads ∨ h ∈ imported → M.find h = none
  imports : M.imports = lib.exports

theorem prims_ok : (primTable.all fun p => match opHead (.call p.1) p.2.1.head? with
    | some h => headOk p.1 && !specialForms.contains h && (reservedHeads.contains h || imported.contains h)
    | none => false) = true := by decide +kernel

theorem lookup_mem {β : Type} {l : List (String × β)} {k : String} {v : β} (h : l.lookup k = some v) : (k, v) ∈ l := by
  induction l with
  | nil => cases h
  | cons p l ih =>
    obtain ⟨a, b⟩ := p
    rw [List.lookup_cons] at h
    by_cases e : k = a
    · subst e
      simp at h
      simp [h]
    · simp [beq_false_of_ne e] at h
      simp [ih h]

theorem prim_ok {f : String} {ts : List Ty} {t : Ty} (h : primSig f = some (ts, t)) : ∃ hd, opHead (.call f) ts.head? = some hd ∧
    headOk f = true ∧ hd ∉ specialForms ∧ (hd ∈ reservedHeads ∨ hd ∈ imported) := by
  have := List.all_eq_true.1 prims_ok _ (lookup_mem h)
  simp only at this
  split at this
  · next hd e =>
    simp only [Bool.and_eq_true, Bool.not_eq_true', List.contains_eq_mem, decide_eq_false_iff_not, Bool.or_eq_true, decide_eq_true_eq] at this
    exact ⟨hd, e, this.1.1, this.1.2, this.2⟩
  · cases this

theorem langSig_some {fns : List FnDecl} {f : String} {ts : List Ty} {t : Ty} (h : langSig fns f = some (ts, t)) :
    ∃ d ∈ fns, d.name = f ∧ ts = d.params.map Prod.snd ∧ t = d.ret := by
  simp only [langSig, Option.map_eq_some_iff] at h
  obtain ⟨d, hd, e⟩ := h
  cases e
  exact ⟨d, List.mem_of_find?_eq_some hd, by simpa using List.find?_some hd, rfl, rfl⟩

theorem fileSig_some {cands lang : List FnDecl} {f : String} {ts : List Ty} {t : Ty} (h : fileSig cands lang f = some (ts, t)) :
    (∃ d ∈ cands ++ lang, d.name = f ∧ ts = d.params.map Prod.snd ∧ t = d.ret) ∨ primSig f = some (ts, t) := by
  unfold fileSig at h
  cases e : langSig (cands ++ lang) f with
  | none =>
    rw [e] at h
    exact .inr h
  | some p =>
    rw [e] at h
    cases h
    exact .inl (langSig_some e)

theorem fileSig_respected {cands lang : List FnDecl} {I : Interp} (hI : LibMeaning I) (hf : ∀ d ∈ cands ++ lang, FnHolds I d) :
    (fileSig cands lang).Respected I := by
  intro f ts t h vs hvs
  rcases fileSig_some h with ⟨d, hd, rfl, rfl, rfl⟩ | h
  · exact (hf d hd vs hvs).1
  · exact hI.typed f ts t h vs hvs

theorem mapM_values {ev : SExpr → Option Val} {f : Expr → Val} {es : List Expr} {xs : List SExpr} {vs : List Val} (hx : rktSxs es = some xs)
    (h : ∀ e ∈ es, ∀ x v, rktSx e = some x → ev x = some v → v = f e) (hv : xs.mapM ev = some vs) : vs = es.map f := by
  induction es generalizing xs vs with
  | nil =>
    cases hx
    cases hv
    rfl
  | cons e es ih =>
    simp only [rktSxs, Option.bind_eq_bind, Option.bind_eq_some_iff, Option.some.injEq] at hx
    obtain ⟨x, hx, ys, hys, rfl⟩ := hx
    simp only [List.mapM_cons, Option.bind_eq_bind, Option.bind_eq_some_iff, Option.pure_def, Option.some.injEq] at hv
    obtain ⟨v, hv, ws, hws, rfl⟩ := hv
    rw [h e (by simp) x v hx hv, ih hys (fun a ha => h a (by simp [ha])) hws]
    rfl

theorem evalOr_values {ev : SExpr → Option Val} {f : Expr → Val} {es : List Expr} {xs : List SExpr} {v : Val} (hx : rktSxs es = some xs)
    (h : ∀ e ∈ es, ∀ x v, rktSx e = some x → ev x = some v → v = f e) (hb : ∀ e ∈ es, ∃ b, f e = .bool b) (hv : evalOr ev xs = some v) :
    v = .bool ((es.map f).any Val.asBool) := by
  induction es generalizing xs v with
  | nil =>
    cases hx
    cases hv
    rfl
  | cons e es ih =>
    simp only [rktSxs, Option.bind_eq_bind, Option.bind_eq_some_iff, Option.some.injEq] at hx
    obtain ⟨x, hx, ys, hys, rfl⟩ := hx
    simp only [evalOr, Option.bind_eq_some_iff] at hv
    obtain ⟨w, hw, hv⟩ := hv
    have := h e (by simp) x w hx hw
    obtain ⟨b, hb'⟩ := hb e (by simp)
    rw [hb'] at this
    subst this
    cases b with
    | true =>
      simp at hv
      subst hv
      simp [hb']
    | false =>
      simp only [if_true] at hv
      rw [ih hys (fun a ha => h a (by simp [ha])) (fun a ha => hb a (by simp [ha])) hv]
      simp [hb']

theorem op_heads : ∀ op t1 h, opHead op t1 = some h → (∀ f, op ≠ .call f) → h ∈ reservedHeads := by
  intro op t1 h hh hc
  have key : ∀ g ∈ ["+", "-", "*", "quotient-noerr", "remainder", "set-eq", "equal?", "<", "<=", ">", ">=", "&&", "or", "!", "=>", "if", "make-tuple"],
      g ∈ reservedHeads := by decide +kernel
  unfold opHead at hh
  split at hh <;> first
    | (cases hh; exact key _ (by decide +kernel))
    | exact absurd rfl (hc _)
    | cases hh

theorem lit_value {M : Module} {σ : REnv} (l : Lit) {v : Val} (h1 : σ "true" = none ∧ σ "false" = none)
    (h2 : M.globals "true" = none ∧ M.globals "false" = none) (h : evalAtom M σ (litText l) = some v) : v = l.val := by
  cases l with
  | int i =>
    simp only [litText] at h
    split at h
    · next hi =>
      have e1 : ("-" ++ i.natAbs.repr).toList = '-' :: i.natAbs.repr.toList := by
        rw [String.toList_append]
        rfl
      have e2 : isNumeric ('-' :: i.natAbs.repr.toList) = false := by simp [isNumeric]
      simp only [evalAtom, e1, e2, List.head?_cons, List.tail_cons, isNumeric_repr, numeral_repr, Bool.false_eq_true, if_false, and_self, if_true,
        Option.some.injEq] at h
      rw [← h, Lit.val]
      congr 1
      omega
    · next hi =>
      rw [evalAtom_num (isNumeric_repr _), numeral_repr] at h
      cases h
      rw [Lit.val]
      congr 1
      omega
  | bool b =>
    cases b with
    | true =>
      have : evalAtom M σ "true" = some (.bool true) := by
        rw [evalAtom_name (by decide +kernel), evalName, h1.1, h2.1]
        rfl
      rw [show litText (.bool true) = "true" from rfl, this] at h
      cases h
      rfl
    | false =>
      have : evalAtom M σ "false" = some (.bool false) := by
        rw [evalAtom_name (by decide +kernel), evalName, h1.2, h2.2]
        rfl
      rw [show litText (.bool false) = "false" from rfl, this] at h
      cases h
      rfl

theorem true_not_name : rktName "true" = false ∧ rktName "false" = false := by decide +kernel

/-- **Evaluation of a printed expression, if it ends, gives the meaning of the expression.** -/
theorem rk_sound {I : Interp} (hI : LibMeaning I) {M : Module} {cands lang : List FnDecl} (hM : HasFns M (cands ++ lang))
    (hg : ∀ y v, M.globals y = some v → rktName y = true)
    (hok : ∀ d ∈ cands ++ lang, fnOk (fileSig cands lang) d = true ∧ FnHolds I d ∧ ∀ b, d.body = some b → arithOk b = true) :
    ∀ (n fu : Nat) (σ : REnv) (Γ : String → Ty) (ρ : Env) (e : Expr) (x : SExpr) (v : Val), rktSx e = some x →
      e.sorted Γ (fileSig cands lang) = true → arithOk e = true → (∀ y, OfTy (Γ y) (ρ y)) → (∀ y v, σ y = some v → rktName y = true) →
      (∀ y ∈ e.vars, rktName y = true ∧ ∀ w, evalName M σ y = some w → w = ρ y) → rkEval M n fu σ x = some v → v = eval I ρ e := by
  have hR := fileSig_respected hI (fun d hd => (hok d hd).2.1)
  have hatom : ∀ {n fu σ s}, rkEval M n fu σ (.atom s) = evalAtom M σ s := rk_atom M _ _ _ _
  have hlit : ∀ {σ : REnv} (l : Lit) (v : Val), (∀ y v, σ y = some v → rktName y = true) → evalAtom M σ (litText l) = some v → v = l.val := by
    intro σ l v hσ h
    have n1 : ∀ y, rktName y = false → σ y = none := by
      intro y hy
      cases e : σ y with
      | none => rfl
      | some w => rw [hσ y w e] at hy; cases hy
    have n2 : ∀ y, rktName y = false → M.globals y = none := by
      intro y hy
      cases e : M.globals y with
      | none => rfl
      | some w => rw [hg y w e] at hy; cases hy
    exact lit_value l ⟨n1 _ true_not_name.1, n1 _ true_not_name.2⟩ ⟨n2 _ true_not_name.1, n2 _ true_not_name.2⟩ h
  intro n
  induction n with
  | zero =>
    intro fu σ Γ ρ e x v hx hs ha hρ hσ hv h
    cases e with
    | var y t =>
      cases hx
      rw [hatom, evalAtom_name (rktName_isName (hv y (by simp [Expr.vars])).1)] at h
      exact (hv y (by simp [Expr.vars])).2 v h
    | lit l =>
      cases hx
      rw [hatom] at h
      exact hlit l v hσ h
    | node op t args =>
      simp only [rktSx, Option.bind_eq_bind, Option.bind_eq_some_iff, Option.some.injEq] at hx
      obtain ⟨hd, _, xs, _, rfl⟩ := hx
      simp [rkEval] at h
  | succ n ih =>
    intro fu σ Γ ρ e x v hx hs ha hρ hσ hv h
    cases e with
    | var y t =>
      cases hx
      rw [hatom, evalAtom_name (rktName_isName (hv y (by simp [Expr.vars])).1)] at h
      exact (hv y (by simp [Expr.vars])).2 v h
    | lit l =>
      cases hx
      rw [hatom] at h
      exact hlit l v hσ h
    | node op t args =>
      simp only [rktSx, Option.bind_eq_bind, Option.bind_eq_some_iff, Option.some.injEq] at hx
      obtain ⟨hd, hhd, xs, hxs, rfl⟩ := hx
      simp only [Expr.sorted, Bool.and_eq_true, sorteds_iff] at hs
      simp only [arithOk, Bool.and_eq_true, arithOks_iff] at ha
      have iha : ∀ a ∈ args, ∀ x v, rktSx a = some x → rkEval M n fu σ x = some v → v = eval I ρ a := by
        intro a ham x v hx h
        exact ih fu σ Γ ρ a x v hx (hs.1 a ham) (ha.1 a ham) hρ hσ (fun y hy => hv y (by
          simp only [Expr.vars]
          exact Expr.mem_varss.2 ⟨a, ham, hy⟩)) h
      have hty : ∀ a ∈ args, OfTy a.ty (eval I ρ a) := fun a ham => sorted_typed hR hρ a (hs.1 a ham)
      have hvs : ∀ vs, xs.mapM (rkEval M n fu σ) = some vs → vs = args.map (eval I ρ) := fun vs h => mapM_values hxs iha h
      simp only [eval, evals_eq_map]
      simp only [rkEval] at h
      split at h
      · cases h
      by_cases hc : ∃ f, op = .call f
      · obtain ⟨f, rfl⟩ := hc
        have hsf := hs.2
        simp only [opSorted, decide_eq_true_eq] at hsf
        have htys : OfTys (args.map Expr.ty) (args.map (eval I ρ)) := ofTys_evals hty
        rcases fileSig_some hsf with ⟨d, hdm, rfl, hts, rfl⟩ | hp
        · obtain ⟨ho, hh, harith⟩ := hok d hdm
          obtain ⟨b, bx, hb, hbx, hfind⟩ := hM.fn d hdm
          simp only [fnOk, hb, Bool.and_eq_true, List.all_eq_true, decide_eq_true_eq] at ho
          obtain ⟨⟨⟨⟨o1, o2⟩, o3⟩, o4⟩, o5⟩ := ho
          rw [user_head o3.2] at hhd
          cases hhd
          rw [hfind] at h
          simp only [Option.bind_eq_some_iff] at h
          obtain ⟨vs, hvs', h⟩ := h
          have e := hvs vs hvs'
          rw [hts, ← e] at htys
          simp only [applyDef, Option.bind_eq_some_iff] at h
          obtain ⟨bs, hbs, h⟩ := h
          obtain ⟨rfl, hlen⟩ := bindArgs_eq hbs
          have hval := (hh vs htys).2 b hb
          simp only [evalOp]
          rw [← e, ← hval]
          have hbind : ∀ y w, bindAll (fun _ => none) ((d.params.map Prod.fst).zip vs) y = some w → ((d.params.map Prod.fst).zip vs).lookup y = some w := by
            intro y w hy
            rw [bindAll_eq] at hy
            split at hy
            · next u hu => cases hy; exact hu
            · cases hy
          have hbody : ∀ fu', rkEval M n fu' (bindAll (fun _ => none) ((d.params.map Prod.fst).zip vs)) bx = some v →
              v = eval I (paramEnv d.params vs) b := by
            intro fu' h
            refine ih fu' _ (paramTypes d.params) _ b bx v hbx o1 (harith b hb) (paramEnv_typed htys) ?_ ?_ h
            · intro y w hy
              have := (List.of_mem_zip (lookup_mem (hbind y w hy))).1
              obtain ⟨p, hp, rfl⟩ := List.mem_map.1 this
              exact o4 p hp
            · intro y hy
              have hyp := o2 y hy
              obtain ⟨p, hp, e⟩ := List.mem_map.1 hyp
              refine ⟨e ▸ o4 p hp, fun w hw => ?_⟩
              obtain ⟨u, hu⟩ := zip_lookup hlen hyp
              have : bindAll (fun _ => none) ((d.params.map Prod.fst).zip vs) y = some u := by
                rw [bindAll_eq, hu]
              rw [evalName_local this] at hw
              cases hw
              simp [paramEnv, hu]
          split at h
          · split at h
            · cases h
            · exact hbody _ h
          · exact hbody _ h
        · obtain ⟨hd', hhd', _, hspec, hres⟩ := prim_ok hp
          have e : hd' = hd := by
            rw [List.head?_map] at hhd'
            rw [hhd'] at hhd
            exact Option.some.inj hhd
          subst e
          rw [hM.free _ hres] at h
          simp only at h
          split at h
          · cases h
          simp only [specialForms, List.mem_cons, List.not_mem_nil, or_false, not_or] at hspec
          simp only [hspec, if_false, Option.bind_eq_some_iff] at h
          obtain ⟨vs, hvs', p, hp', h⟩ := h
          have e := hvs vs hvs'
          rw [e] at h
          simp only [evalOp]
          refine (hI.lib f _ _ hd' hp hhd' _ v htys n fu ?_).symm
          rw [call_lib, libCall]
          rw [hM.imports] at hp'
          rw [hp']
          exact h
      · have hcf : ∀ f, op ≠ .call f := fun f hf => hc ⟨f, hf⟩
        rw [hM.free _ (.inl (op_heads op _ hd hhd hcf))] at h
        simp only at h
        split at h
        · cases h
        by_cases h_ite : op = .ite
        · subst h_ite
          cases hhd
          have ho := hs.2
          simp only [opSorted, decide_eq_true_eq] at ho
          match args with
          | [] => simp at ho
          | [_] => simp at ho
          | [_, _] => simp at ho
          | _ :: _ :: _ :: _ :: _ => simp at ho
          | [c, a, b] =>
            simp only [rktSxs, Option.bind_eq_bind, Option.bind_eq_some_iff, Option.some.injEq] at hxs
            obtain ⟨cx, hcx, _, ⟨ax, hax, _, ⟨bx, hbx, _, rfl, rfl⟩, rfl⟩, rfl⟩ := hxs
            simp only [if_true, Option.bind_eq_some_iff] at h
            obtain ⟨w, hw, h⟩ := h
            have e := iha c (by simp) cx w hcx hw
            simp only [List.map_cons, List.map_nil, List.cons.injEq, and_true] at ho
            have tc := hty c (by simp)
            rw [ho.1, ← e] at tc
            obtain ⟨bb, rfl⟩ := tc
            simp only [List.map_cons, List.map_nil, evalOp, ← e]
            cases bb with
            | true =>
              simp at h
              simpa using iha a (by simp) ax v hax h
            | false =>
              simp at h
              simpa using iha b (by simp) bx v hbx h
        · by_cases h_or : op = .or
          · subst h_or
            cases hhd
            have ho := hs.2
            simp only [opSorted, decide_eq_true_eq, List.mem_map] at ho
            rw [if_neg (by decide +kernel), if_pos rfl] at h
            refine evalOr_values hxs iha (fun a ham => ?_) h
            have := hty a ham
            rwa [ho.2 a.ty ⟨a, ham, rfl⟩] at this
          · have hnot : op ≠ .tuple := by
              rintro rfl
              have := hs.2
              simp [opSorted] at this
            have hspec : hd ∉ specialForms := by
              unfold opHead at hhd
              split at hhd <;> first
                | (cases hhd; decide +kernel)
                | exact absurd rfl (hcf _)
                | exact absurd rfl h_or
                | exact absurd rfl h_ite
                | cases hhd
            simp only [specialForms, List.mem_cons, List.not_mem_nil, or_false, not_or] at hspec
            simp only [hspec, if_false, Option.bind_eq_some_iff] at h
            obtain ⟨vs, hvs', p, hp', h⟩ := h
            have e := hvs vs hvs'
            rw [← e]
            rw [hM.imports] at hp'
            refine op_sound hI hhd h_or h_ite hcf hnot ?_ ?_ (n := n) (fu := fu) (by rw [libCall, hp']; exact h)
            · intro h2
              have := hs.2
              rcases h2 with rfl | rfl
              · simp only [opSorted, decide_eq_true_eq] at this
                rw [e]
                simpa using this.2
              · simp only [opSorted, decide_eq_true_eq] at this
                rw [e]
                simpa using this.2
            · rintro rfl
              have h1 := hs.2
              simp only [opSorted, decide_eq_true_eq] at h1
              have h2 := ha.2
              simp only [List.all_eq_true, decide_eq_true_eq] at h2
              match args, h1.2 with
              | [a, b], _ =>
                have ta := hty a (by simp)
                have tb := hty b (by simp)
                rw [h2 a (by simp)] at ta
                rw [h2 b (by simp)] at tb
                obtain ⟨i, hi⟩ := ta
                obtain ⟨j, hj⟩ := tb
                exact ⟨i, j, by rw [e]; simp [hi, hj]⟩

end Rkt
end Metalift
