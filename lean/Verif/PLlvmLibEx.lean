import Verif.PLlvmLib
/-
C72: an interpretation with the library functions, examples, and the cases in which the claim fails.
-/
namespace Metalift.Ll.Lib

/-- The integer root. -/
def sqrtI (x : Int) : Int := ((List.range x.toNat).filter fun n => decide ((n + 1) * (n + 1) ≤ x.toNat)).length

/-- An interpretation with all functions of the library; `ps` is a postcondition, given as a parameter. -/
def libI (ps : List Val → Bool) : Interp := { SO.rktI with
  fn := fun f vs =>
    if f = "list_empty" ∨ f = "matrix_empty" ∨ f = "tensor3d_empty" then .list []
    else if f = "list_length" ∨ f = "matrix_length" ∨ f = "tensor3d_length" then .int (vs.headD (.int 0)).asList.length
    else if f = "list_get" ∨ f = "matrix_get" ∨ f = "tensor3d_get" then ((vs.headD (.int 0)).asList[((vs.getD 1 (.int 0)).asInt).toNat]?).getD (.int 0)
    else if f = "list_append" ∨ f = "matrix_append" ∨ f = "tensor3d_append" then .list ((vs.headD (.int 0)).asList ++ [vs.getD 1 (.int 0)])
    else if f = "make-tuple" then .tuple vs
    else if f = "tupleGet" then match vs with
      | [.tuple ws, .int i] => (ws[i.toNat]?).getD (.int 0)
      | _ => .int 0
    else if f = "integer_sqrt" then .int (sqrtI (vs.headD (.int 0)).asInt)
    else if f = "integer_exp" then .int (2 ^ (vs.headD (.int 0)).asInt.toNat)
    else if f = "ps" then .bool (ps vs)
    else SO.rktI.fn f vs }

/-- The hypothesis of the theorems can be met. -/
theorem libI_fns (ps : List Val → Bool) : LibFns (libI ps) sqrtI (fun x => 2 ^ x.toNat) where
  empty f hf := by
    simp only [List.mem_cons, List.not_mem_nil, or_false] at hf
    rcases hf with rfl | rfl | rfl <;> simp [libI]
  length f hf l := by
    simp only [List.mem_cons, List.not_mem_nil, or_false] at hf
    rcases hf with rfl | rfl | rfl <;> simp [libI, Val.asList]
  get f hf l i v hv := by
    simp only [List.mem_cons, List.not_mem_nil, or_false] at hf
    rcases hf with rfl | rfl | rfl <;> simp [libI, Val.asList, Val.asInt, hv]
  append f hf l v := by
    simp only [List.mem_cons, List.not_mem_nil, or_false] at hf
    rcases hf with rfl | rfl | rfl <;> simp [libI, Val.asList]
  sets := by
    have h := SO.rktI_sets
    have e1 : (libI ps).fn "set-create" = SO.rktI.fn "set-create" := by funext vs; simp [libI]
    have e2 : (libI ps).fn "set-singleton" = SO.rktI.fn "set-singleton" := by funext vs; simp [libI]
    have e3 : (libI ps).fn "set-insert" = SO.rktI.fn "set-insert" := by funext vs; simp [libI]
    have e4 : (libI ps).fn "set-union" = SO.rktI.fn "set-union" := by funext vs; simp [libI]
    have e5 : (libI ps).fn "set-minus" = SO.rktI.fn "set-minus" := by funext vs; simp [libI]
    exact ⟨h.unique, h.functional, h.ext, by rw [e1]; exact h.create, by rw [e2]; exact h.singleton, by rw [e3]; exact h.insert, by rw [e4]; exact h.union,
      by rw [e5]; exact h.minus⟩
  tuple vs := by simp [libI]
  tupleGet vs i v hv := by simp [libI, hv]
  sqrt x := by simp [libI, Val.asInt]
  exp x := by simp [libI, Val.asInt]

/-! ### Example: `int f(List xs, int x) { int a = x; List ys = newList(); List zs = listAppend(ys, listLength(xs) + a); return listGet(zs, 0); }` -/

/-- The arguments. -/
def exArgs : List (String × LTy) := [("xs", .base (.list .int)), ("x", .base .int)]

/-- The instructions. -/
def exCode : List LInst :=
  [.alloca "a" "i32", .store (.reg "x") "a", .load false "t" "a", .call false "n" "listLength" none "" [.ptr "xs"], .arith .add "m" (.reg "n") (.reg "t"),
   .call true "ys" "newList" none "" [], .call true "zs" "listAppend" none "" [.ptr "ys", .reg "m"], .call false "w" "listGet" none "" [.ptr "zs", .int 0]]

/-- The names of pointers. -/
def exKind (n : String) : Bool := n ∈ ["xs", "a", "ys", "zs"]

/-- The obligation built by the front end. -/
def exObl : Expr := mkCall "ps" .bool [.var "xs" (.list .int), .var "x" .int,
  mkCall "list_get" .int [mkCall "list_append" (.list .int) [mkCall "list_empty" (.list .int) [],
    .node .add .int [mkCall "list_length" .int [.var "xs" (.list .int)], .var "x" .int]], intLit 0]]

theorem exObl_eq : obligation "ps" exArgs exCode (.reg "w") = some exObl := rfl

theorem ex_exec (ρ : Env) (l : List Val) (x : Int) (h1 : ρ "xs" = .list l) (h2 : ρ "x" = .int x) (hf : fits 32 (l.length + x)) :
    ∃ c, Exec sqrtI (fun x => 2 ^ x.toNat) (start exArgs ρ) exCode c ∧ c.read (.reg "w") = some (.int (l.length + x)) := by
  refine ⟨_, .cons (.alloca _ _ _) (.cons (.store _ _ _ (.int x) (by simp [CSt.read, start, exArgs, LTy.isPointer, h2])) (.cons (.load _ _ _ _ (.int x) (by simp [CSt.store]))
    (.cons (.call _ _ _ _ _ _ _ [.list l] _ ?_ (.listLength l)) (.cons (.arith _ _ _ _ _ l.length x ?_ ?_ hf) (.cons (.call _ _ _ _ _ _ _ [] _ ?_ .newList)
    (.cons (.call _ _ _ _ _ _ _ [.list [], .int (l.length + x)] _ ?_ (.listAppend _ _)) (.cons (.call _ _ _ _ _ _ _ [.list [.int (l.length + x)], .int (0 : Nat)] _ ?_
    (.listGet _ 0 _ rfl)) (.nil _)))))))), ?_⟩ <;>
    simp [readVals, CSt.read, CSt.put, CSt.store, CSt.write, start, exArgs, LTy.isPointer, h1, Arith.value]

theorem ex_kind : ∀ i ∈ exCode, instKind exKind i ∧ i.fn ≠ some "set_contains" := by
  simp [exCode, instKind, exKind, opdKind, LInst.fn]

theorem noStale_append : ∀ (is js : List LInst) (st : HSt), (∀ i ∈ is, i.fn ≠ some "listAppend") →
    (∀ st', run st is = some st' → NoStaleReads st' Stale.none js) → NoStaleReads st Stale.none (is ++ js)
  | [], _, st, _, h => h st rfl
  | i :: is, js, st, hi, h => by
    refine ⟨fun o _ => by cases o <;> simp [Stale.fresh, Stale.none], fun st' hs => ?_⟩
    rw [after_none (hi i (by simp))]
    exact noStale_append is js st' (fun j hj => hi j (by simp [hj])) fun st'' hr => h st'' (by simp [run, hs] at hr ⊢; exact hr)

theorem staleAt_append : ∀ (is js : List LInst) (st st' : HSt), (∀ i ∈ is, i.fn ≠ some "listAppend") → run st is = some st' →
    staleAt st Stale.none (is ++ js) = staleAt st' Stale.none js
  | [], _, st, st', _, h => by simp [run] at h; subst h; rfl
  | i :: is, js, st, st', hi, h => by
    simp only [run, List.foldlM_cons, Option.bind_eq_bind, Option.bind_eq_some_iff] at h
    obtain ⟨st1, h1, h2⟩ := h
    simp only [List.cons_append, staleAt, h1]
    rw [after_none (hi i (by simp))]
    exact staleAt_append is js st1 st' (fun j hj => hi j (by simp [hj])) h2

theorem ex_stale : NoStaleReads (initial exArgs) Stale.none exCode := by
  refine noStale_append (exCode.take 6) (exCode.drop 6) _ (by simp [exCode, LInst.fn]) fun st hs => ?_
  cases hs
  refine ⟨by simp [LInst.uses, Stale.fresh, Stale.none], fun st' hs' => ?_⟩
  cases hs'
  refine ⟨?_, fun _ _ => trivial⟩
  intro o ho
  simp only [LInst.uses] at ho
  simp at ho
  rcases ho with rfl | rfl
  · rintro ⟨-, h⟩
    exact h rfl
  · trivial

/-- The theorem on functions applies to the example for every list and every number for which the sum does not overflow. -/
theorem C72_example (ps : List Val → Bool) (ρ : Env) (l : List Val) (x : Int) (h1 : ρ "xs" = .list l) (h2 : ρ "x" = .int x) (hf : fits 32 (l.length + x)) :
    eval (libI ps) ρ exObl = .bool (ps [.list l, .int x, .int (l.length + x)]) := by
  obtain ⟨c, hx, hv⟩ := ex_exec ρ l x h1 h2 hf
  have hs : staleAt (initial exArgs) Stale.none exCode = _ := staleAt_append (exCode.take 6) (exCode.drop 6) _ _ (by simp [exCode, LInst.fn]) rfl
  have := C72_function_partial (libI ps) sqrtI _ (libI_fns ps) ρ exKind "ps" exArgs exCode (.reg "w") exObl c _ (by simp [exArgs, exKind, LTy.isPointer]) ex_kind exObl_eq hx hv
    ex_stale (by rw [hs]; rintro ⟨-, h⟩; exact h rfl)
    (by
      rw [hs]
      intro j hj h
      have h' : False ∨ j = 5 := h
      have hj' : j < 2 := hj
      rcases h' with h' | h'
      · exact h'
      · omega)
  rw [this]
  simp [exArgs, h1, h2, libI]

/-! ### Cases in which the claim fails -/

/-- `List a = newList(); List b = listAppend(a, 1); return listLength(a);` -/
def sharedCode : List LInst :=
  [.call true "a" "newList" none "" [], .call true "b" "listAppend" none "" [.ptr "a", .int 1], .call false "n" "listLength" none "" [.ptr "a"]]

/-- The function above returns 0; its obligation says that it returns 1, whatever the postcondition. -/
theorem C72_append_variable_refuted : ∃ e, obligation "ps" [] sharedCode (.reg "n") = some e ∧
    (∀ i ∈ sharedCode, instKind (fun n => n ∈ ["a", "b"]) i) ∧
    (∀ ρ, ∃ c, Exec sqrtI (fun x => 2 ^ x.toNat) (start [] ρ) sharedCode c ∧ c.read (.reg "n") = some (.int 0)) ∧
    ∀ (ps : List Val → Bool) ρ, eval (libI ps) ρ e = .bool (ps [.int 1]) := by
  refine ⟨_, rfl, by simp [sharedCode, instKind, opdKind], fun ρ => ⟨_, .cons (.call _ _ _ _ _ _ _ [] _ ?_ .newList)
    (.cons (.call _ _ _ _ _ _ _ [.list [], .int 1] _ ?_ (.listAppend _ _)) (.cons (.call _ _ _ _ _ _ _ [.list []] _ ?_ (.listLength _)) (.nil _))), ?_⟩, ?_⟩
  · simp [readVals]
  · simp [readVals, CSt.read, CSt.put, CSt.store]
  · simp [readVals, CSt.read, CSt.put, CSt.store]
  · simp [CSt.read, CSt.put, CSt.write]
  · intro ps ρ
    show eval (libI ps) ρ (mkCall "ps" .bool [mkCall "list_length" .int [mkCall "list_append" (.list .int) [mkCall "list_empty" (.list .int) [], intLit 1]]]) = _
    simp [eval_mkCall, evals, libI, eval, intLit, Lit.val, Val.asList]

/-- `List ys = listAppend(xs, 1); return listLength(ys);` -/
def argumentCode : List LInst :=
  [.call true "ys" "listAppend" none "" [.ptr "xs", .int 1], .call false "n" "listLength" none "" [.ptr "ys"]]

/-- The postcondition that the result is the length of the argument. -/
def lengthPost : List Val → Bool
  | [.list l, .int n] => decide (n = l.length)
  | _ => false

/-- The function above returns the length of its argument plus one, but the obligation for the postcondition that it returns the length of its argument holds for every
argument: the postcondition is applied to the object of the argument, which has been appended to. -/
theorem C72_append_argument_refuted : ∃ e, obligation "ps" [("xs", .base (.list .int))] argumentCode (.reg "n") = some e ∧
    (∀ i ∈ argumentCode, instKind (fun n => n ∈ ["xs", "ys"]) i) ∧
    ∀ ρ l, ρ "xs" = .list l → holds (libI lengthPost) ρ e ∧
      ∃ c v, Exec sqrtI (fun x => 2 ^ x.toNat) (start [("xs", .base (.list .int))] ρ) argumentCode c ∧ c.read (.reg "n") = some v ∧
        lengthPost [ρ "xs", v] = false := by
  refine ⟨_, rfl, by simp [argumentCode, instKind, opdKind], fun ρ l hl => ⟨?_, _, .int (l ++ [Val.int 1]).length, .cons (.call _ _ _ _ _ _ _ [.list l, .int 1] _ ?_ (.listAppend _ _))
    (.cons (.call _ _ _ _ _ _ _ [.list (l ++ [.int 1])] _ ?_ (.listLength _)) (.nil _)), ?_, ?_⟩⟩
  · show holds _ ρ (mkCall "ps" .bool [mkCall "list_append" (.list .int) [.var "xs" (.list .int), intLit 1],
      mkCall "list_length" .int [mkCall "list_append" (.list .int) [.var "xs" (.list .int), intLit 1]]])
    simp [holds, eval_mkCall, evals, libI, eval, intLit, Lit.val, Val.asList, hl, lengthPost, Val.asBool]
  · simp [readVals, CSt.read, start, LTy.isPointer, hl]
  · simp [readVals, CSt.read, CSt.put, CSt.store]
  · simp [CSt.read, CSt.put, CSt.write]
  · simp [hl, lengthPost]

/-- `return set_contains(s, x);` -/
def containsCode : List LInst := [.call false "b" "set_contains" none "" [.ptr "s", .reg "x"]]

/-- For every state in which the operands are a set and a number, the result of `set_contains` is Python's `True`, and reading the function that returns it raises, while
the function itself returns 1 or 0. -/
theorem C72_contains_refuted :
    (∀ st i j s x, st.ptr "s" = some (.obj i) → st.prim "x" = some (.obj j) → st.heap[i]? = some ⟨s, .set⟩ → st.heap[j]? = some ⟨x, .base .int⟩ →
      ∃ st', run st containsCode = some st' ∧ st'.prim "b" = some .pyTrue) ∧
    obligation "ps" [("s", .set), ("x", .base .int)] containsCode (.reg "b") = none ∧
    (∃ ρ c, Exec sqrtI (fun x => 2 ^ x.toNat) (start [("s", .set), ("x", .base .int)] ρ) containsCode c ∧ c.read (.reg "b") = some (.int 0)) ∧
    ∃ ρ c, Exec sqrtI (fun x => 2 ^ x.toNat) (start [("s", .set), ("x", .base .int)] ρ) containsCode c ∧ c.read (.reg "b") = some (.int 1) := by
  refine ⟨?_, rfl, ?_, ?_⟩
  · intro st i j s x h1 h2 h3 h4
    refine ⟨st.write "b" .pyTrue, ?_, by simp [HSt.write]⟩
    have hin : SO.pyIn (LObj.so ⟨x, .base .int⟩) (LObj.so ⟨s, .set⟩) = some true := rfl
    have hr : st.read2 [.ptr "s", .reg "x"] = some (.obj i, ⟨s, .set⟩, .obj j, ⟨x, .base .int⟩, st) := by
      simp [HSt.read2, HSt.read, h1, h2, HSt.deref, h3, h4]
    have hm : fnModel none "" "set_contains" = some setContains := by simp [fnModel]
    simp [run, containsCode, step, hm, setContains, hr, hin, HSt.put]
  · refine ⟨fun n => if n = "x" then .int 1 else Rkt.setV [3], _, .cons (.call _ _ _ _ _ _ _ [Rkt.setV [3], .int 1] _ ?_
      (.setContains _ (fun y => y ∈ [3]) 1 false ⟨[3], by simp [IsSet], rfl, by simp⟩ (by simp))) (.nil _), ?_⟩
    · simp [readVals, CSt.read, start, LTy.isPointer]
    · simp [CSt.read, CSt.put, CSt.write]
  · refine ⟨fun n => if n = "x" then .int 3 else Rkt.setV [3], _, .cons (.call _ _ _ _ _ _ _ [Rkt.setV [3], .int 3] _ ?_
      (.setContains _ (fun y => y ∈ [3]) 3 true ⟨[3], by simp [IsSet], rfl, by simp⟩ (by simp))) (.nil _), ?_⟩
    · simp [readVals, CSt.read, start, LTy.isPointer]
    · simp [CSt.read, CSt.put, CSt.write]

/-- The type of a `vector<int>`. -/
def vecTy : String := "%\"class.std::__1::vector\""

/-- `vector<int> v; v.push_back(1); return v[0] + 1;` -/
def pushCode : List LInst :=
  [.alloca "v" vecTy, .call false "" "vector" (some 1) vecTy [.ptr "v"], .call false "" "push_back" (some 1) vecTy [.ptr "v", .int 1],
   .call true "p" "operator[]" (some 1) vecTy [.ptr "v", .int 0], .load false "q" "p", .arith .add "r" (.reg "q") (.int 1)]

/-- Reading the function above raises: after `push_back` the vector is a list of lists for the front end and its element a list.  The function returns 2. -/
theorem C72_push_back_type_refuted : obligation "ps" [] pushCode (.reg "r") = none ∧ (∀ i ∈ pushCode, instKind (fun n => n ∈ ["v", "p"]) i) ∧
    ∀ ρ, ∃ c, Exec sqrtI (fun x => 2 ^ x.toNat) (start [] ρ) pushCode c ∧ c.read (.reg "r") = some (.int 2) := by
  refine ⟨rfl, by simp [pushCode, instKind, opdKind], fun ρ => ⟨_, .cons (.alloca _ _ _) (.cons (.vector _ _ _ _ _ _) (.cons (.pushBack _ _ _ _ _ _ _ [] (.int 1) ?_ ?_)
    (.cons (.call _ _ _ _ _ _ _ [.list [.int 1], .int (0 : Nat)] _ ?_ (.index _ 0 _ rfl)) (.cons (.load _ _ _ _ (.int 1) ?_)
    (.cons (.arith _ _ _ _ _ 1 1 ?_ ?_ (by decide)) (.nil _)))))), ?_⟩⟩ <;>
    simp [readVals, CSt.read, CSt.put, CSt.store, CSt.write, Arith.value]

/-- `vector<int> v; v.push_back(1); v.push_back(2); return v.size();` -/
def pushTwiceCode : List LInst :=
  [.alloca "v" vecTy, .call false "" "vector" (some 1) vecTy [.ptr "v"], .call false "" "push_back" (some 1) vecTy [.ptr "v", .int 1],
   .call false "" "push_back" (some 1) vecTy [.ptr "v", .int 2], .call false "n" "size" (some 1) vecTy [.ptr "v"]]

/-- The second `push_back` on a `vector<int>` is read as the function on matrices, applied to a list of numbers and a number. -/
theorem C72_push_back_name_refuted : obligation "ps" [] pushTwiceCode (.reg "n") = some (mkCall "ps" .bool [mkCall "list_length" .int
    [mkCall "matrix_append" (.list (.list .int)) [mkCall "list_append" (.list (.list .int)) [mkCall "list_empty" (.list .int) [], intLit 1], intLit 2]]]) := rfl

/-- A call of `getField` or `setField` raises in every state; variables of type `i64` and of the types of tuples with numbered names cannot be declared. -/
theorem C72_unsupported_refuted (st : HSt) (p : Bool) (r t : String) (d : Option Nat) (as : List Opd) :
    step st (.call p r "getField" d t as) = none ∧ step st (.call p r "setField" d t as) = none ∧ step st (.alloca r "i64") = none ∧
    step st (.alloca r "%struct.tup.2*") = none := by
  have h1 : fnModel d t "getField" = some field := by simp [fnModel]
  have h2 : fnModel d t "setField" = some field := by simp [fnModel]
  have h3 : parseTypeRef "i64" = none := by decide +kernel
  have h4 : parseTypeRef "%struct.tup.2*" = none := by decide +kernel
  simp [step, h1, h2, h3, h4, field]

end Metalift.Ll.Lib
