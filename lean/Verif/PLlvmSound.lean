import Verif.LlvmCheck
/-
C33: soundness of the verification condition generated by the LLVM front end.
-/
namespace Metalift.Ll

theorem obligations_of_vc {F : Func} {posts : List Expr} {V : Visitor} {I : Interp} (hV : F.call posts = some V)
    (hlit : ∀ a ∈ F.asserts V, a.OnlyInt) {vc : Expr} (hvc : F.vc posts = some vc)
    (hv : ∀ ρ, Typed F ρ → holds I ρ vc) : Obligations F V I := by
  intro ρ hρ b hb a ha
  simp only [Func.vc, hV, Option.bind_eq_bind, Option.bind_some] at hvc
  exact (andObjects_iff hlit hvc).1 (hv ρ hρ) a (List.mem_flatMap.2 ⟨b, hb, ha⟩)

/-- C33 (partial): if the verification condition generated for a function is true for all values of the symbolic variables,
under the interpretation `I` of postcondition, invariants and target functions, then every value the
function returns, called with arguments that satisfy the preconditions, satisfies the postcondition.

Guards: `Shape` (all blocks were visited, conditional branches go to blocks of their own, loops are natural, disjoint and
entered by unconditional branches, predecessors of joins have path conditions, no boolean constants) and `Flow` (instructions are translated
exactly, nothing is read before it is written, names of registers and cells differ, the variables havocked by a loop do not occur in the
symbolic state before it, a result returned through an argument is not modified after the last loop that modifies it).
The theorems with suffix `_refuted` below show which of these the front end would have to ensure itself. -/
theorem C33_vc_sound_partial [LlOps] (F : Func) (posts : List Expr) (V : Visitor) (I : Interp) (scope : String → Scope)
    (hV : F.call posts = some V) (hshape : Shape F V) (hflow : Flow F V I scope)
    (hlit : ∀ a ∈ F.asserts V, a.OnlyInt) : VcSound F posts I := by
  intro vc hvc hval ρ v hty hposts hret
  obtain ⟨rank, hr, he⟩ := call_eqns hshape.cfg hV hshape.all
  exact returns_contract ⟨hshape, hr, he⟩ hflow (obligations_of_vc hV hlit hvc hval) hty hposts hret

/-- The same with the guards in computable form: `scope` lists for every block the registers and cells that have a value when the block
is entered. -/
theorem C33_supported_partial [LlOps] (F : Func) (posts : List Expr) (I : Interp) (scope : String → Scope)
    (hok : F.supported posts scope = true) (hex : ∀ b ∈ F.blocks, ∀ i ∈ b.insts, i.exact I) : VcSound F posts I := by
  unfold Func.supported at hok
  split at hok
  · cases hok
  · next V hV =>
    simp only [Bool.and_eq_true, List.all_eq_true, onlyIntB_iff] at hok
    exact C33_vc_sound_partial F posts V I scope hV (Func.shapeB_sound hok.1.1) (Func.flowB_sound hok.1.2 hex) hok.2

/-! ### Examples -/

/-- `int f(int n) { int i = 0; while (i < n) i = i + 1; return i; }` -/
def countTo : Func where
  name := "f"
  args := ["n"]
  sret := none
  retTy := .int
  ty := fun x => if x = "cmp" then .bool else .int
  blocks :=
    [ { name := "entry", insts := [.alloca "n.addr" .int, .alloca "i" .int, .store (.reg "n") "n.addr", .store (.int 0) "i"],
        term := .br "cond", succs := ["cond"], preds := [] },
      { name := "cond", insts := [.load false "t0" "i", .load false "t1" "n.addr", .icmp .slt "cmp" (.reg "t0") (.reg "t1")],
        term := .cbr (.reg "cmp") "body" "end", succs := ["body", "end"], preds := ["entry"] },
      { name := "body", insts := [.load false "t2" "i", .bin .add true "inc" (.reg "t2") (.int 1), .store (.reg "inc") "i"],
        term := .br "cond", succs := [], preds := ["cond"] },
      { name := "end", insts := [.load false "t3" "i"], term := .ret (some (.reg "t3")), succs := [], preds := ["cond"] } ]
  loops := [{ header := "cond", blocks := ["cond", "body"], latches := ["body"], inv := "f_inv0", invArgs := ["i", "n"] }]

def countScope : String → Scope := fun b =>
  if b = "entry" then ⟨["n"], []⟩ else ⟨["n"], ["i", "n.addr"]⟩

/-- Runs a function for a number of blocks. -/
def Func.runFrom (F : Func) (I : Interp) : Nat → LBlk → CSt → Option Val
  | 0, _, _ => none
  | n + 1, b, s => do
    let s' ← execInsts I F.ty s b.insts
    match b.term with
    | .ret (some o) => s'.read o
    | .ret none => s'.cells (← F.sret)
    | t => F.runFrom I n (← F.find (← nextBlock s' t)) s'

def Func.run (F : Func) (I : Interp) (ρ : Env) (n : Nat) : Option Val := do
  F.runFrom I n (← F.blocks.head?) (F.initial ρ)

theorem runFrom_returns {F : Func} {I : Interp} {ρ : Env} {v : Val} : ∀ {n : Nat} {b : LBlk} {s : CSt},
    Reaches F I ρ b s → F.runFrom I n b s = some v → Returns F I ρ v
  | 0, _, _, _, h => by simp [Func.runFrom] at h
  | n + 1, b, s, hr, h => by
    simp only [Func.runFrom, Option.bind_eq_bind, Option.bind_eq_some_iff] at h
    obtain ⟨s', hex, h⟩ := h
    have step : ∀ t, b.term = t → (do F.runFrom I n (← F.find (← nextBlock s' t)) s') = some v → Returns F I ρ v := by
      intro t ht h
      simp only [Option.bind_eq_bind, Option.bind_eq_some_iff] at h
      obtain ⟨m, hm, c, hf, hrun⟩ := h
      obtain ⟨hc, hn⟩ := Cfg.find_mem hf
      exact runFrom_returns (n := n) (.step hr hex (by rw [ht, hn, hm]) hc) hrun
    split at h
    · next o ht => exact ⟨b, s, s', _, hr, hex, ht, h⟩
    · next ht =>
      simp only [Option.bind_eq_some_iff] at h
      obtain ⟨x, hx, h⟩ := h
      exact ⟨b, s, s', _, hr, hex, ht, x, hx, h⟩
    · exact step _ rfl (by simpa only [Option.bind_eq_bind, Option.bind_assoc] using h)

theorem run_returns {F : Func} {I : Interp} {ρ : Env} {v : Val} {n : Nat} (h : F.run I ρ n = some v) :
    Returns F I ρ v := by
  simp only [Func.run, Option.bind_eq_bind, Option.bind_eq_some_iff] at h
  obtain ⟨b, hb, h⟩ := h
  exact runFrom_returns (.start b hb) h

/-- `f_ps(n, r)`: `r = n` if `n` is not negative; `f_inv0(i, n)`: `i <= n` if `n` is not negative. -/
def countI : Interp :=
  { llI with
    fn := fun f vs => match f, vs with
      | "f_ps", [.int n, .int r] => .bool (decide (n < 0 ∨ r = n))
      | "f_inv0", [.int i, .int n] => .bool (decide (n < 0 ∨ i ≤ n))
      | _, _ => .bool false }

/-- The verification condition of `countTo`. -/
def countVc : Expr :=
  let i : Expr := .var "i" .int
  let n : Expr := .var "n" .int
  let lt : Expr := .node .lt .bool [i, n]
  let inv : Expr → Expr := fun e => .node (.call "f_inv0") .bool [e, n]
  .node .and .bool
    [.node .and .bool
      [inv (intLit 0),
       .node .implies .bool [.node .and .bool [lt, inv i], inv (.node .add .int [i, intLit 1])]],
     .node .implies .bool [.node .and .bool [.node .not .bool [lt], inv i], .node (.call "f_ps") .bool [n, i]]]

theorem typed_int {F : Func} {ρ : Env} (h : Typed F ρ) {x : String} (hx : F.ty x = .int) : ∃ i, ρ x = .int i := by
  have := h x
  rw [hx] at this
  cases hv : ρ x <;> rw [hv] at this <;> simp [hasTy] at this
  exact ⟨_, rfl⟩

theorem count_valid (ρ : Env) (h : Typed countTo ρ) : holds countI ρ countVc := by
  obtain ⟨i, hi⟩ := typed_int h (x := "i") rfl
  obtain ⟨n, hn⟩ := typed_int h (x := "n") rfl
  by_cases hlt : i < n <;> simp [holds, countVc, eval, evals, evalOp, hi, hn, countI, intLit, Lit.val, hlt] <;> omega

/-- The hypotheses of C33 are met by `countTo`, whose verification condition is valid: the result is `n` for all `n >= 0`. -/
example (ρ : Env) (v : Val) (hty : Typed countTo ρ) (hret : Returns countTo countI ρ v) :
    (countI.fn "f_ps" [ρ "n", v]).asBool = true :=
  C33_supported_partial countTo [] countI countScope (by decide +kernel) (by
    intro b hb i hi
    simp only [countTo, List.mem_cons, List.not_mem_nil, or_false] at hb
    rcases hb with rfl | rfl | rfl | rfl <;> simp only [List.mem_cons, List.not_mem_nil, or_false] at hi <;>
      rcases hi with rfl | rfl | rfl | rfl <;> simp [Inst.exact])
    countVc (by decide +kernel) (fun ρ h => count_valid ρ h) ρ v hty (by simp) hret

/-- `int f(int a, int b) { int m; if (a > b) m = a; else m = b; while (m < 0) m = m + 1; return m; }`: a join before a loop. -/
def clampMax : Func where
  name := "f"
  args := ["a", "b"]
  sret := none
  retTy := .int
  ty := fun x => if x = "c" ∨ x = "d" then .bool else .int
  blocks :=
    [ { name := "entry", insts := [.alloca "m" .int, .icmp .sgt "c" (.reg "a") (.reg "b")],
        term := .cbr (.reg "c") "then" "else", succs := ["then", "else"], preds := [] },
      { name := "then", insts := [.store (.reg "a") "m"], term := .br "h", succs := ["h"], preds := ["entry"] },
      { name := "else", insts := [.store (.reg "b") "m"], term := .br "h", succs := ["h"], preds := ["entry"] },
      { name := "h", insts := [.load false "t0" "m", .icmp .slt "d" (.reg "t0") (.int 0)],
        term := .cbr (.reg "d") "body" "end", succs := ["body", "end"], preds := ["then", "else"] },
      { name := "body", insts := [.load false "t1" "m", .bin .add true "t2" (.reg "t1") (.int 1), .store (.reg "t2") "m"],
        term := .br "h", succs := [], preds := ["h"] },
      { name := "end", insts := [.load false "t3" "m"], term := .ret (some (.reg "t3")), succs := [], preds := ["h"] } ]
  loops := [{ header := "h", blocks := ["h", "body"], latches := ["body"], inv := "f_inv0", invArgs := ["m", "a", "b"] }]

/-- The guards are met by a function with a join in front of a loop, for every interpretation. -/
example (I : Interp) : VcSound clampMax [] I :=
  C33_supported_partial clampMax [] I
    (fun b => if b = "entry" then ⟨["a", "b"], []⟩ else ⟨["a", "b"], ["m"]⟩) (by decide +kernel) (by
    intro b hb i hi
    simp only [clampMax, List.mem_cons, List.not_mem_nil, or_false] at hb
    rcases hb with rfl | rfl | rfl | rfl | rfl | rfl <;> simp only [List.mem_cons, List.not_mem_nil, or_false] at hi <;>
      rcases hi with rfl | rfl | rfl <;> simp [Inst.exact])

/-! ### What the guards exclude -/

/-- Two loops one after the other that modify the same variable:
`int i = 0; while (i < 1) i++; while (i < 2) i++; return i;` -/
def twoLoops : Func where
  name := "f"
  args := []
  sret := none
  retTy := .int
  ty := fun x => if x = "c" ∨ x = "d" then .bool else .int
  blocks :=
    [ { name := "entry", insts := [.alloca "i" .int, .store (.int 0) "i"], term := .br "h1", succs := ["h1"], preds := [] },
      { name := "h1", insts := [.load false "t0" "i", .icmp .slt "c" (.reg "t0") (.int 1)],
        term := .cbr (.reg "c") "b1" "m", succs := ["b1", "m"], preds := ["entry"] },
      { name := "b1", insts := [.load false "t1" "i", .bin .add true "t2" (.reg "t1") (.int 1), .store (.reg "t2") "i"],
        term := .br "h1", succs := [], preds := ["h1"] },
      { name := "m", insts := [], term := .br "h2", succs := ["h2"], preds := ["h1"] },
      { name := "h2", insts := [.load false "t3" "i", .icmp .slt "d" (.reg "t3") (.int 2)],
        term := .cbr (.reg "d") "b2" "end", succs := ["b2", "end"], preds := ["m"] },
      { name := "b2", insts := [.load false "t4" "i", .bin .add true "t5" (.reg "t4") (.int 1), .store (.reg "t5") "i"],
        term := .br "h2", succs := [], preds := ["h2"] },
      { name := "end", insts := [.load false "t6" "i"], term := .ret (some (.reg "t6")), succs := [], preds := ["h2"] } ]
  loops := [{ header := "h1", blocks := ["h1", "b1"], latches := ["b1"], inv := "f_inv0", invArgs := ["i"] },
            { header := "h2", blocks := ["h2", "b2"], latches := ["b2"], inv := "f_inv1", invArgs := ["i"] }]

/-- Postcondition: the result is 0.  First invariant: `i <= 1`; second invariant: true. -/
def twoI : Interp :=
  { llI with
    fn := fun f vs => match f, vs with
      | "f_ps", [.int r] => .bool (decide (r = 0))
      | "f_inv0", [.int i] => .bool (decide (i ≤ 1))
      | "f_inv1", [.int _] => .bool true
      | _, _ => .bool false }

def seqVc : Expr :=
  let i : Expr := .var "i" .int
  let inc : Expr := .node .add .int [i, intLit 1]
  let c : Expr := .node .lt .bool [i, intLit 1]
  let d : Expr := .node .lt .bool [i, intLit 2]
  let inv0 : Expr → Expr := fun e => .node (.call "f_inv0") .bool [e]
  let inv1 : Expr → Expr := fun e => .node (.call "f_inv1") .bool [e]
  let and_ : Expr → Expr → Expr := fun a b => .node .and .bool [a, b]
  let imp : Expr → Expr → Expr := fun a b => .node .implies .bool [a, b]
  let not_ : Expr → Expr := fun a => .node .not .bool [a]
  and_ (and_ (and_ (and_ (inv0 (intLit 0)) (imp (and_ c (inv0 i)) (inv0 inc)))
    (imp (and_ (not_ c) (inv0 i)) (inv1 i)))
    (imp (and_ (and_ (and_ d (not_ c)) (inv0 i)) (inv1 i)) (inv1 inc)))
    (imp (and_ (and_ (and_ (not_ d) (not_ c)) (inv0 i)) (inv1 i)) (.node (.call "f_ps") .bool [i]))

theorem seq_valid (ρ : Env) (h : Typed twoLoops ρ) : holds twoI ρ seqVc := by
  obtain ⟨i, hi⟩ := typed_int h (x := "i") rfl
  by_cases h1 : i < 1 <;> by_cases h2 : i < 2 <;>
    simp [holds, seqVc, eval, evals, evalOp, hi, twoI, intLit, Lit.val, h1, h2] <;> omega

/-- Decidable consequences of a run: what is needed to refute soundness for a given function. -/
theorem not_sound {F : Func} {posts : List Expr} {I : Interp} {vc : Expr} {ρ : Env} {v : Val} {n : Nat}
    (hvc : F.vc posts = some vc) (hval : ∀ ρ, Typed F ρ → holds I ρ vc) (hty : Typed F ρ)
    (hposts : ∀ p ∈ posts, holds I ρ p) (hrun : F.run I ρ n = some v)
    (hcon : (I.fn (F.name ++ "_ps") (F.args.map ρ ++ [v])).asBool = false) : ¬ VcSound F posts I := by
  intro h
  have := h vc hvc hval ρ v hty hposts (run_returns hrun)
  unfold Func.contract at this
  rw [hcon] at this
  cases this

/-- C33 is false for two loops one after the other that modify the same variable: both havocs use the same symbolic variable,
so the condition under which the first loop was left is still assumed after the second one.  The function returns 2, its
verification condition is valid for the postcondition `result = 0`. -/
theorem C33_sequential_loops_refuted : ¬ VcSound twoLoops [] twoI :=
  not_sound (vc := seqVc) (ρ := fun x => if x = "c" ∨ x = "d" then .bool true else .int 0) (v := .int 2) (n := 10)
    (by decide +kernel) seq_valid (by
      intro x
      by_cases h : x = "c" ∨ x = "d" <;> simp [twoLoops, h, hasTy]) (by simp) (by decide +kernel) (by decide +kernel)

/-- A loop in a loop, modifying the same variable: `int i = 0; while (i < 3) while (i < 5) i++; return i;` -/
def nestedLoops : Func where
  name := "f"
  args := []
  sret := none
  retTy := .int
  ty := fun x => if x = "c" ∨ x = "d" then .bool else .int
  blocks :=
    [ { name := "entry", insts := [.alloca "i" .int, .store (.int 0) "i"], term := .br "h1", succs := ["h1"], preds := [] },
      { name := "h1", insts := [.load false "t0" "i", .icmp .slt "c" (.reg "t0") (.int 3)],
        term := .cbr (.reg "c") "m" "end", succs := ["m", "end"], preds := ["entry"] },
      { name := "m", insts := [], term := .br "h2", succs := ["h2"], preds := ["h1"] },
      { name := "h2", insts := [.load false "t3" "i", .icmp .slt "d" (.reg "t3") (.int 5)],
        term := .cbr (.reg "d") "b2" "e2", succs := ["b2", "e2"], preds := ["m"] },
      { name := "b2", insts := [.load false "t4" "i", .bin .add true "t5" (.reg "t4") (.int 1), .store (.reg "t5") "i"],
        term := .br "h2", succs := [], preds := ["h2"] },
      { name := "e2", insts := [], term := .br "h1", succs := [], preds := ["h2"] },
      { name := "end", insts := [.load false "t6" "i"], term := .ret (some (.reg "t6")), succs := [], preds := ["h1"] } ]
  loops := [{ header := "h1", blocks := ["h1", "m", "h2", "b2", "e2"], latches := ["e2"], inv := "f_inv0", invArgs := ["i"] },
            { header := "h2", blocks := ["h2", "b2"], latches := ["b2"], inv := "f_inv1", invArgs := ["i"] }]

/-- Postcondition: the result is 3.  Invariant of the outer loop: `i <= 3`; of the inner loop: true. -/
def nestedI : Interp :=
  { llI with
    fn := fun f vs => match f, vs with
      | "f_ps", [.int r] => .bool (decide (r = 3))
      | "f_inv0", [.int i] => .bool (decide (i ≤ 3))
      | "f_inv1", [.int _] => .bool true
      | _, _ => .bool false }

def nestedVc : Expr :=
  let i : Expr := .var "i" .int
  let inc : Expr := .node .add .int [i, intLit 1]
  let c : Expr := .node .lt .bool [i, intLit 3]
  let d : Expr := .node .lt .bool [i, intLit 5]
  let inv0 : Expr → Expr := fun e => .node (.call "f_inv0") .bool [e]
  let inv1 : Expr → Expr := fun e => .node (.call "f_inv1") .bool [e]
  let and_ : Expr → Expr → Expr := fun a b => .node .and .bool [a, b]
  let imp : Expr → Expr → Expr := fun a b => .node .implies .bool [a, b]
  let not_ : Expr → Expr := fun a => .node .not .bool [a]
  and_ (and_ (and_ (and_ (inv0 (intLit 0)) (imp (and_ c (inv0 i)) (inv1 i)))
    (imp (and_ (and_ (and_ d c) (inv0 i)) (inv1 i)) (inv1 inc)))
    (imp (and_ (and_ (and_ (not_ d) c) (inv0 i)) (inv1 i)) (inv0 i)))
    (imp (and_ (not_ c) (inv0 i)) (.node (.call "f_ps") .bool [i]))

theorem nested_valid (ρ : Env) (h : Typed nestedLoops ρ) : holds nestedI ρ nestedVc := by
  obtain ⟨i, hi⟩ := typed_int h (x := "i") rfl
  by_cases h1 : i < 3 <;> by_cases h2 : i < 5 <;>
    simp [holds, nestedVc, eval, evals, evalOp, hi, nestedI, intLit, Lit.val, h1, h2] <;> omega

/-- C33 is false for nested loops that modify the same variable: in the inner loop the condition of the outer loop is still
assumed about the havocked variable.  The function returns 5, its verification condition is valid for
the postcondition `result = 3`. -/
theorem C33_nested_loops_refuted : ¬ VcSound nestedLoops [] nestedI :=
  not_sound (vc := nestedVc) (ρ := fun x => if x = "c" ∨ x = "d" then .bool true else .int 0) (v := .int 5) (n := 20)
    (by decide +kernel) nested_valid (by
      intro x
      by_cases h : x = "c" ∨ x = "d" <;> simp [nestedLoops, h, hasTy]) (by simp) (by decide +kernel) (by decide +kernel)

/-- A result returned through an argument and modified after the loop:
`vector<int> r; int i = 0; while (i < 0) r.push_back(0); r.push_back(5); return r;` -/
def lateResult : Func where
  name := "f"
  args := []
  sret := some "r"
  retTy := .list .int
  ty := fun x => if x = "c" then .bool else if x = "r" then .list .int else .int
  blocks :=
    [ { name := "entry", insts := [.alloca "i" .int, .store (.int 0) "i", .vector "r" (.list .int)], term := .br "h",
        succs := ["h"], preds := [] },
      { name := "h", insts := [.load false "t0" "i", .icmp .slt "c" (.reg "t0") (.int 0)],
        term := .cbr (.reg "c") "b" "end", succs := ["b", "end"], preds := ["entry"] },
      { name := "b", insts := [.pushBack "r" (.int 0)], term := .br "h", succs := [], preds := ["h"] },
      { name := "end", insts := [.pushBack "r" (.int 5)], term := .ret none, succs := [], preds := ["h"] } ]
  loops := [{ header := "h", blocks := ["h", "b"], latches := ["b"], inv := "f_inv0", invArgs := ["r"] }]

/-- Postcondition and invariant: the list is empty. -/
def lateI : Interp :=
  { llI with
    fn := fun f vs => match f, vs with
      | "list_empty", [] => .list []
      | "list_append", [.list l, v] => .list (l ++ [v])
      | "f_ps", [.list l] => .bool l.isEmpty
      | "f_inv0", [.list l] => .bool l.isEmpty
      | _, _ => .bool false }

def lateVc : Expr :=
  let r : Expr := .var "r" (.list .int)
  let c : Expr := .node .lt .bool [intLit 0, intLit 0]
  let inv : Expr → Expr := fun e => .node (.call "f_inv0") .bool [e]
  let and_ : Expr → Expr → Expr := fun a b => .node .and .bool [a, b]
  let imp : Expr → Expr → Expr := fun a b => .node .implies .bool [a, b]
  and_ (and_ (inv (.node (.call "list_empty") (.list .int) []))
    (imp (and_ c (inv r)) (inv (.node (.call "list_append") (.list .int) [r, intLit 0]))))
    (imp (and_ (.node .not .bool [c]) (inv r)) (.node (.call "f_ps") .bool [r]))

theorem late_valid (ρ : Env) (h : Typed lateResult ρ) : holds lateI ρ lateVc := by
  have := h "r"
  obtain ⟨l, hl⟩ : ∃ l, ρ "r" = .list l := by
    cases hv : ρ "r" <;> rw [hv] at this <;> simp [lateResult, hasTy] at this
    exact ⟨_, rfl⟩
  simp [holds, lateVc, eval, evals, evalOp, hl, lateI, intLit, Lit.val]

/-- C33 is false for a result returned through an argument and modified after the last loop: the postcondition is stated about the
variable named like the argument, which stands for the content after the loop.  The function returns `[5]`, its
verification condition is valid for the postcondition `result = []`. -/
theorem C33_result_argument_refuted : ¬ VcSound lateResult [] lateI :=
  not_sound (vc := lateVc) (ρ := fun x => if x = "c" then .bool true else if x = "r" then .list [] else .int 0)
    (v := .list [.int 5]) (n := 10) (by decide +kernel) late_valid (by
      intro x
      by_cases h : x = "c" <;> by_cases h' : x = "r" <;> simp [lateResult, h, h', hasTy]) (by simp) (by decide +kernel)
    (by decide +kernel)

/-- A loop with two entries, which LLVM does not report as a loop (`goto` into a loop).  `b` decides whether 1 is returned at once. -/
def irreducible : Func where
  name := "f"
  args := ["b"]
  sret := none
  retTy := .int
  ty := fun x => if x = "b" ∨ x = "c" ∨ x = "d" then .bool else .int
  blocks :=
    [ { name := "entry", insts := [.alloca "i" .int, .store (.int 0) "i"], term := .cbr (.reg "b") "one" "s",
        succs := ["one", "s"], preds := [] },
      { name := "one", insts := [], term := .ret (some (.int 1)), succs := [], preds := ["entry"] },
      { name := "s", insts := [.load false "t0" "i", .icmp .slt "c" (.reg "t0") (.int 0)], term := .cbr (.reg "c") "p" "q",
        succs := ["p", "q"], preds := ["entry"] },
      { name := "p", insts := [], term := .br "l1", succs := ["l1"], preds := ["s"] },
      { name := "q", insts := [], term := .br "l2", succs := ["l2"], preds := ["s"] },
      { name := "l1", insts := [], term := .br "l2", succs := ["l2"], preds := ["p", "x"] },
      { name := "l2", insts := [.load false "t1" "i", .icmp .slt "d" (.reg "t1") (.int 1)], term := .cbr (.reg "d") "x" "end",
        succs := ["x", "end"], preds := ["q", "l1"] },
      { name := "x", insts := [.load false "t2" "i", .bin .add true "t3" (.reg "t2") (.int 1), .store (.reg "t3") "i"],
        term := .br "l1", succs := ["l1"], preds := ["l2"] },
      { name := "end", insts := [], term := .ret (some (.int 2)), succs := [], preds := ["l2"] } ]
  loops := []

/-- Postcondition: the result is 1. -/
def irreducibleI : Interp :=
  { llI with
    fn := fun f vs => match f, vs with
      | "f_ps", [.bool _, .int r] => .bool (decide (r = 1))
      | _, _ => .bool false }

def irreducibleVc : Expr :=
  .node .implies .bool [.var "b" .bool, .node (.call "f_ps") .bool [.var "b" .bool, intLit 1]]

theorem typed_bool {F : Func} {ρ : Env} (h : Typed F ρ) {x : String} (hx : F.ty x = .bool) : ∃ i, ρ x = .bool i := by
  have := h x
  rw [hx] at this
  cases hv : ρ x <;> rw [hv] at this <;> simp [hasTy] at this
  exact ⟨_, rfl⟩

theorem irreducible_valid (ρ : Env) (h : Typed irreducible ρ) : holds irreducibleI ρ irreducibleVc := by
  obtain ⟨b, hb⟩ := typed_bool h (x := "b") rfl
  simp [holds, irreducibleVc, eval, evals, evalOp, hb, irreducibleI, intLit, Lit.val]

/-- Outside the scope of C33, but accepted by the front end without a message: the blocks of a loop with two entries
are never ready and therefore never visited, and their obligations are missing.  The function returns 2 if `b` is false, its verification condition is
valid for the postcondition `result = 1`. -/
theorem C33_irreducible_refuted : ¬ VcSound irreducible [] irreducibleI :=
  not_sound (vc := irreducibleVc) (ρ := fun x => if x = "b" ∨ x = "c" ∨ x = "d" then .bool false else .int 0)
    (v := .int 2) (n := 20) (by decide +kernel) irreducible_valid (by
      intro x
      by_cases h : x = "b" ∨ x = "c" ∨ x = "d" <;> simp [irreducible, h, hasTy]) (by simp) (by decide +kernel)
    (by decide +kernel)

/-- `int f(int x) { if (x > 0) return 1; else return 2; }` -/
def twoReturns : Func where
  name := "f"
  args := ["x"]
  sret := none
  retTy := .int
  ty := fun x => if x = "c" then .bool else .int
  blocks :=
    [ { name := "entry", insts := [.icmp .sgt "c" (.reg "x") (.int 0)], term := .cbr (.reg "c") "a" "b",
        succs := ["a", "b"], preds := [] },
      { name := "a", insts := [], term := .ret (some (.int 1)), succs := [], preds := ["entry"] },
      { name := "b", insts := [], term := .ret (some (.int 2)), succs := [], preds := ["entry"] } ]
  loops := []

/-- `int g(int x) { return 0; }` -/
def zero : Func where
  name := "g"
  args := ["x"]
  sret := none
  retTy := .int
  ty := fun _ => .int
  blocks := [ { name := "entry", insts := [], term := .ret (some (.int 0)), succs := [], preds := [] } ]
  loops := []

/-- Postcondition of `f`: the result is 1 if `x > 0` and 2 otherwise.  Postcondition of `g`: the result is 7. -/
def leakI : Interp :=
  { llI with
    fn := fun f vs => match f, vs with
      | "f_ps", [.int x, .int r] => .bool (decide (r = if x > 0 then 1 else 2))
      | "g_ps", [.int _, .int r] => .bool (decide (r = 7))
      | _, _ => .bool false }

def fVc : Expr :=
  let x : Expr := .var "x" .int
  let c : Expr := .node .gt .bool [x, intLit 0]
  .node .and .bool
    [.node .implies .bool [c, .node (.call "f_ps") .bool [x, intLit 1]],
     .node .implies .bool [.node .not .bool [c], .node (.call "f_ps") .bool [x, intLit 2]]]

def gVc : Expr :=
  let x : Expr := .var "x" .int
  .node .implies .bool
    [.node .and .bool [.node (.call "f_ps") .bool [x, intLit 1], .node (.call "f_ps") .bool [x, intLit 2]],
     .node (.call "g_ps") .bool [x, intLit 0]]

/-- C33 is false for a program with two functions: every `return` of the first one adds its postcondition, without the condition under which
it is reached, to the preconditions of functions analysed later.  Here both verification conditions are valid, the
preconditions of `g` are contradictory, and `g` does not meet its postcondition. -/
theorem C33_leaked_postconditions_refuted :
    ∃ V, twoReturns.call [] = some V ∧
      (∃ vc, twoReturns.vc [] = some vc ∧ ∀ ρ, Typed twoReturns ρ → holds leakI ρ vc) ∧
      (∃ vc, zero.vc V.posts = some vc ∧ ∀ ρ, Typed zero ρ → holds leakI ρ vc) ∧
      ∃ ρ v, Typed zero ρ ∧ Returns zero leakI ρ v ∧ ¬ zero.contract leakI ρ v := by
  have hs : (twoReturns.call []).isSome = true := by decide +kernel
  obtain ⟨V, hV⟩ := Option.isSome_iff_exists.1 hs
  have hg : ((twoReturns.call []).bind fun V => zero.vc V.posts) = some gVc := by decide +kernel
  rw [hV] at hg
  refine ⟨V, hV, ⟨fVc, by decide +kernel, ?_⟩, ⟨gVc, hg, ?_⟩, fun _ => .int 0, .int 0, fun _ => rfl,
    run_returns (n := 2) (by decide +kernel), ?_⟩
  · intro ρ h
    obtain ⟨x, hx⟩ := typed_int h (x := "x") rfl
    by_cases h0 : 0 < x <;> simp [holds, fVc, eval, evals, evalOp, hx, leakI, intLit, Lit.val, h0]
  · intro ρ h
    obtain ⟨x, hx⟩ := typed_int h (x := "x") rfl
    by_cases h0 : 0 < x <;> simp [holds, gVc, eval, evals, evalOp, hx, leakI, intLit, Lit.val, h0]
  · unfold Func.contract
    decide

end Metalift.Ll
