import Verif.Ir
/-
Well-typed expressions: what the constructors in `metalift/ir.py` check.
-/
namespace Metalift

/-- Declared types of variables and return types of functions. -/
structure Sig where
  var : String → Ty
  ret : String → Ty

/-- What matters of a type for the evaluation of `And`/`CallValue`: is it `Bool`, a function type with
a given return type, or something else. -/
inductive Kind where
  | bool
  | fn (ret : Ty)
  | other
  deriving DecidableEq

/-- Kind of a type; the first component of a function type is its return type
(`get_fn_return_type`, `metalift/ir.py` 101-103). -/
def Ty.kind : Ty → Kind
  | .bool => .bool
  | .fn ts => .fn (ts.headD .int)
  | _ => .other

/-- The value `v` may have type `t`: booleans are booleans, function values name functions with
the declared return type. -/
def HasKind (S : Sig) (v : Val) (t : Ty) : Prop :=
  match t.kind with
  | .bool => ∃ b, v = .bool b
  | .fn r => ∃ g, v = .fn g ∧ (S.ret g).kind = r.kind
  | .other => True

/-- Checks made by the constructors: `Add`/`Mul` 1931-2010, `Sub`/`Div`/`Mod` (two arguments),
`Eq` 2071 (the type check is commented out in the source; we require it), comparisons 2108-2229,
`And` 2232, `Or` 2259, `Not` 2287, `Implies` 2311, `Ite` 2333, `TupleExpr` 2751, `Choose` 2963, `Call` 2406,
`CallValue` 2589. -/
def Op.WT (S : Sig) : Op → Ty → List Ty → Prop
  | .add, t, _ => t = .int
  | .mul, t, _ => t = .int
  | .sub, t, ts => t = .int ∧ ts.length = 2
  | .div, t, ts => t = .int ∧ ts.length = 2
  | .mod, t, ts => t = .int ∧ ts.length = 2
  | .eq, t, ts => t = .bool ∧ ts.length = 2 ∧ ∀ x ∈ ts, x = ts.headD .int
  | .lt, t, ts => t = .bool ∧ ts.length = 2
  | .le, t, ts => t = .bool ∧ ts.length = 2
  | .gt, t, ts => t = .bool ∧ ts.length = 2
  | .ge, t, ts => t = .bool ∧ ts.length = 2
  | .and, t, ts => t = .bool ∧ ts ≠ [] ∧ ∀ x ∈ ts, x = .bool
  | .or, t, ts => t = .bool ∧ ts ≠ [] ∧ ∀ x ∈ ts, x = .bool
  | .not, t, ts => t = .bool ∧ ts = [.bool]
  | .implies, t, ts => t = .bool ∧ ts = [.bool, .bool]
  | .ite, t, ts => ts = [.bool, t, t]
  | .tuple, t, ts => t = .tuple ts
  | .choose, t, ts => ts ≠ [] ∧ ∀ x ∈ ts, x = t
  | .call f, t, _ => t.kind = (S.ret f).kind
  | .callValue, t, ts => ∃ us rest, ts = .fn us :: rest ∧ t.kind = (us.headD .int).kind

mutual
/-- Well-typed expressions. -/
def Expr.WT (S : Sig) : Expr → Prop
  | .var n t => t = S.var n
  | .lit _ => True
  | .node op t args => Expr.WTs S args ∧ op.WT S t (args.map Expr.ty)
/-- Well-typed lists of expressions. -/
def Expr.WTs (S : Sig) : List Expr → Prop
  | [] => True
  | e :: es => Expr.WT S e ∧ Expr.WTs S es
end

theorem Expr.WTs_iff {S : Sig} {es : List Expr} : Expr.WTs S es ↔ ∀ e ∈ es, e.WT S := by
  induction es with
  | nil => simp [Expr.WTs]
  | cons e es ih => simp [Expr.WTs, ih]

theorem Expr.WT_node {S : Sig} {op : Op} {t : Ty} {args : List Expr} :
    (Expr.node op t args).WT S ↔ (∀ e ∈ args, e.WT S) ∧ op.WT S t (args.map Expr.ty) := by
  rw [Expr.WT, Expr.WTs_iff]

/-- The interpretation respects the declared types. -/
structure Interp.Ok (S : Sig) (I : Interp) : Prop where
  fn : ∀ f vs, HasKind S (I.fn f vs) (S.ret f)
  apply : ∀ g vs, I.apply (.fn g) vs = I.fn g vs
  choose : ∀ vs, vs ≠ [] → I.choose vs ∈ vs

/-- The environment respects the declared types. -/
def Env.Ok (S : Sig) (ρ : Env) : Prop := ∀ n, HasKind S (ρ n) (S.var n)

theorem HasKind.congr {S : Sig} {v : Val} {t u : Ty} (h : t.kind = u.kind) (hv : HasKind S v t) :
    HasKind S v u := by
  unfold HasKind at *; rw [← h]; exact hv

theorem HasKind.bool {S : Sig} {v : Val} : HasKind S v .bool ↔ ∃ b, v = .bool b := Iff.rfl

/-- A value of type `Bool` is determined by its truth value. -/
theorem HasKind.eq_asBool {S : Sig} {v : Val} (h : HasKind S v .bool) : v = .bool v.asBool := by
  obtain ⟨b, rfl⟩ := h; rfl

/-- Well-typed expressions evaluate to values of their type. -/
theorem eval_kind {S : Sig} {I : Interp} {ρ : Env} (hI : I.Ok S) (hρ : ρ.Ok S) :
    ∀ e : Expr, e.WT S → HasKind S (eval I ρ e) e.ty := by
  intro e
  induction e using Expr.ind with
  | hv n t => intro h; rw [Expr.WT] at h; subst h; exact hρ n
  | hl l => intro _; cases l <;> simp [Expr.ty, eval, Lit.val, HasKind, Ty.kind]
  | hn op t args ih =>
    intro h
    rw [Expr.WT_node] at h
    obtain ⟨ha, ho⟩ := h
    simp only [eval, evals_eq_map, Expr.ty]
    cases op with
    | add => simp only [Op.WT] at ho; subst ho; trivial
    | mul => simp only [Op.WT] at ho; subst ho; trivial
    | sub => simp only [Op.WT] at ho; rw [ho.1]; trivial
    | div => simp only [Op.WT] at ho; rw [ho.1]; trivial
    | mod => simp only [Op.WT] at ho; rw [ho.1]; trivial
    | eq | lt | le | gt | ge | not | implies | and | or =>
      simp only [Op.WT] at ho; rw [ho.1, HasKind.bool]
      first
        | exact ⟨_, rfl⟩
        | (unfold evalOp; split <;> first | exact ⟨_, rfl⟩ | contradiction | simp_all)
    | ite =>
      simp only [Op.WT] at ho
      match args, ho with
      | [], ho => simp at ho
      | [_], ho => simp at ho
      | [_, _], ho => simp at ho
      | _ :: _ :: _ :: _ :: _, ho => simp at ho
      | [c, a, b], ho =>
        simp only [List.map_cons, List.map_nil, List.cons.injEq, and_true] at ho
        simp only [List.map_cons, List.map_nil, evalOp]
        split
        · exact ho.2.1 ▸ ih a (by simp) (ha a (by simp))
        · exact ho.2.2 ▸ ih b (by simp) (ha b (by simp))
    | tuple => simp only [Op.WT] at ho; subst ho; trivial
    | choose =>
      simp only [Op.WT] at ho
      simp only [evalOp]
      have hne : args.map (eval I ρ) ≠ [] := by simpa using ho.1
      obtain ⟨a, ham, hae⟩ := List.mem_map.1 (hI.choose _ hne)
      rw [← hae, ← ho.2 a.ty (List.mem_map_of_mem ham)]
      exact ih a ham (ha a ham)
    | call f => simp only [Op.WT] at ho; exact (hI.fn f _).congr ho.symm
    | callValue =>
      simp only [Op.WT] at ho
      obtain ⟨us, rest, hts, ht⟩ := ho
      match args, hts with
      | a :: as, hts =>
        simp only [List.map_cons, List.cons.injEq] at hts
        have h1 := ih a (by simp) (ha a (by simp))
        rw [hts.1] at h1
        obtain ⟨g, hg, hgr⟩ := h1
        simp only [List.map_cons, evalOp, hg, hI.apply]
        exact ((hI.fn g _).congr hgr).congr ht.symm

end Metalift
