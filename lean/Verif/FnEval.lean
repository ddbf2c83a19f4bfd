import Verif.SmtUtil
/-
Reference semantics for sets of (recursive) function definitions: evaluation with a bound on the depth of calls, so
that "`f` applied to `vs` has value `v`" means "for some depth, evaluation gives `v`".
Nothing here models code in /repo; it is the specification side for C17 and C18.
-/
namespace Metalift

/-- A dictionary of function definitions. -/
abbrev FnDict := List (String × FnDecl)

/-- The environment binding parameters to values. -/
def bindParams (ρ : Env) : List (String × Ty) → List Val → Env
  | (p, _) :: ps, v :: vs => (bindParams ρ ps vs).set p v
  | _, _ => ρ

mutual
/-- Evaluation of an expression where calls are performed by `call`; `Ite` evaluates only the branch chosen. -/
def evalC (I : Interp) (call : String → List Val → Option Val) (ρ : Env) : Expr → Option Val
  | .var n _ => some (ρ n)
  | .lit l => some l.val
  | .node .ite _ [c, a, b] =>
    match evalC I call ρ c with
    | none => none
    | some v => if v.asBool then evalC I call ρ a else evalC I call ρ b
  | .node (.call f) _ args => (evalCs I call ρ args).bind (call f)
  | .node .callValue _ args => (evalCs I call ρ args).bind (fun vs =>
      match vs with
      | .fn g :: ws => call g ws
      | _ => none)
  | .node op _ args => (evalCs I call ρ args).map (evalOp I op)
/-- Evaluation of a list of expressions. -/
def evalCs (I : Interp) (call : String → List Val → Option Val) (ρ : Env) : List Expr → Option (List Val)
  | [] => some []
  | e :: es => (evalC I call ρ e).bind (fun v => (evalCs I call ρ es).map (v :: ·))
end

/-- Calls with at most `n` nested calls of defined functions.  Functions that are not defined, or are defined without a
body, are interpreted by `I`. -/
def callN (I : Interp) (ρ : Env) (D : FnDict) : Nat → String → List Val → Option Val
  | n, f, vs =>
    match (D.lookup f).bind FnDecl.body, (D.lookup f).map FnDecl.params with
    | some b, some ps =>
      match n with
      | 0 => none
      | n + 1 => if ps.length = vs.length then evalC I (callN I ρ D n) (bindParams ρ ps vs) b else none
    | _, _ => some (I.fn f vs)

/-- `f` applied to `vs` has the value `v`. -/
def Computes (I : Interp) (ρ : Env) (D : FnDict) (f : String) (vs : List Val) (v : Val) : Prop :=
  ∃ n, callN I ρ D n f vs = some v

/-- One table of calls is less defined than another. -/
def CallLe (c d : String → List Val → Option Val) : Prop := ∀ f vs v, c f vs = some v → d f vs = some v

theorem evalC_node {I : Interp} {call : String → List Val → Option Val} {ρ : Env} {op : Op} {t : Ty} {args : List Expr}
    (h1 : op ≠ .ite) (h2 : ∀ f, op ≠ .call f) (h3 : op ≠ .callValue) :
    evalC I call ρ (.node op t args) = (evalCs I call ρ args).map (evalOp I op) := by
  cases op <;> first | rfl | (exact absurd rfl h1) | (exact absurd rfl (h2 _)) | (exact absurd rfl h3)

theorem evalC_ite_bad {I : Interp} {call : String → List Val → Option Val} {ρ : Env} {t : Ty} {args : List Expr}
    (h : args.length ≠ 3) : evalC I call ρ (.node .ite t args) = (evalCs I call ρ args).map (evalOp I .ite) := by
  match args, h with
  | [], _ => rfl
  | [_], _ => rfl
  | [_, _], _ => rfl
  | [_, _, _], h => exact absurd rfl h
  | _ :: _ :: _ :: _ :: _, _ => rfl

theorem evalCs_eq {I : Interp} {call : String → List Val → Option Val} {ρ : Env} {es : List Expr} {vs : List Val} :
    evalCs I call ρ es = some vs ↔ All2 (fun e v => evalC I call ρ e = some v) es vs := by
  induction es generalizing vs with
  | nil =>
    simp only [evalCs]
    constructor
    · intro h; cases h; exact .nil
    · intro h; cases h; rfl
  | cons e es ih =>
    simp only [evalCs, Option.bind_eq_some_iff, Option.map_eq_some_iff]
    constructor
    · rintro ⟨v, hv, ws, hws, rfl⟩; exact .cons hv (ih.1 hws)
    · intro h
      cases h with
      | cons h1 h2 => exact ⟨_, h1, _, ih.2 h2, rfl⟩

theorem All2.imp_mem {α β : Type} {R Q : α → β → Prop} {as : List α} {bs : List β} (hab : All2 R as bs)
    (h : ∀ a ∈ as, ∀ b, R a b → Q a b) : All2 Q as bs := by
  induction hab with
  | nil => exact .nil
  | cons h1 _ ih => exact .cons (h _ (by simp) _ h1) (ih (fun a ha => h a (by simp [ha])))

theorem All2.map_left {α β γ : Type} {R : α → β → Prop} {g : γ → α} {as : List γ} {bs : List β} :
    All2 R (as.map g) bs ↔ All2 (fun a b => R (g a) b) as bs := by
  induction as generalizing bs with
  | nil => constructor <;> intro h <;> cases h <;> exact .nil
  | cons a as ih =>
    constructor
    · intro h; cases h with | cons h1 h2 => exact .cons h1 (ih.1 h2)
    · intro h; cases h with | cons h1 h2 => exact .cons h1 (ih.2 h2)

theorem length_three {α : Type} {l : List α} (h : l.length = 3) : ∃ x y z, l = [x, y, z] := by
  match l, h with
  | [x, y, z], _ => exact ⟨x, y, z, rfl⟩

/-- A more defined table of calls gives the same values where values existed. -/
theorem evalC_mono {I : Interp} {c d : String → List Val → Option Val} (hcd : CallLe c d) {ρ : Env} :
    ∀ (e : Expr) (v : Val), evalC I c ρ e = some v → evalC I d ρ e = some v := by
  intro e
  induction e using Expr.ind with
  | hv n t => intro v h; exact h
  | hl l => intro v h; exact h
  | hn op t args ih =>
    have hargs : ∀ vs, evalCs I c ρ args = some vs → evalCs I d ρ args = some vs := by
      intro vs h
      exact evalCs_eq.2 ((evalCs_eq.1 h).imp_mem (fun a ha b hb => ih a ha b hb))
    intro v h
    by_cases h1 : op = .ite
    · subst h1
      by_cases h3 : args.length = 3
      · obtain ⟨x, y, z, rfl⟩ := length_three h3
        simp only [evalC] at h ⊢
        cases hc : evalC I c ρ x with
        | none => simp [hc] at h
        | some w =>
          rw [hc] at h
          rw [ih x (by simp) w hc]
          simp only at h ⊢
          split
          · rename_i hw; rw [if_pos hw] at h; exact ih y (by simp) v h
          · rename_i hw; rw [if_neg hw] at h; exact ih z (by simp) v h
      · rw [evalC_ite_bad h3, Option.map_eq_some_iff] at h ⊢
        obtain ⟨vs, h4, h5⟩ := h
        exact ⟨vs, hargs vs h4, h5⟩
    · by_cases h2 : ∃ f, op = .call f
      · obtain ⟨f, rfl⟩ := h2
        simp only [evalC, Option.bind_eq_some_iff] at h ⊢
        obtain ⟨vs, h4, h5⟩ := h
        exact ⟨vs, hargs vs h4, hcd _ _ _ h5⟩
      · by_cases h3 : op = .callValue
        · subst h3
          simp only [evalC, Option.bind_eq_some_iff] at h ⊢
          obtain ⟨vs, h4, h5⟩ := h
          refine ⟨vs, hargs vs h4, ?_⟩
          split at h5
          · exact hcd _ _ _ h5
          · cases h5
        · rw [evalC_node h1 (fun f hf => h2 ⟨f, hf⟩) h3, Option.map_eq_some_iff] at h ⊢
          obtain ⟨vs, h4, h5⟩ := h
          exact ⟨vs, hargs vs h4, h5⟩

/-- More depth only defines more. -/
theorem callN_succ (I : Interp) (ρ : Env) (D : FnDict) : ∀ n, CallLe (callN I ρ D n) (callN I ρ D (n + 1))
  | 0 => by
    intro f vs v h
    rw [callN] at h ⊢
    split at h
    · cases h
    · exact h
  | n + 1 => by
    intro f vs v h
    rw [callN] at h ⊢
    split at h
    · simp only at h ⊢
      split
      · rename_i hl; rw [if_pos hl] at h
        exact evalC_mono (callN_succ I ρ D n) _ v h
      · rename_i hl; rw [if_neg hl] at h; cases h
    · exact h

theorem callN_le (I : Interp) (ρ : Env) (D : FnDict) {m n : Nat} (h : m ≤ n) : CallLe (callN I ρ D m) (callN I ρ D n) := by
  induction h with
  | refl => intro f vs v h; exact h
  | step _ ih => intro f vs v h; exact callN_succ I ρ D _ f vs v (ih f vs v h)

/-- Values are unique. -/
theorem Computes.unique {I : Interp} {ρ : Env} {D : FnDict} {f : String} {vs : List Val} {v w : Val}
    (h1 : Computes I ρ D f vs v) (h2 : Computes I ρ D f vs w) : v = w := by
  obtain ⟨m, h1⟩ := h1
  obtain ⟨n, h2⟩ := h2
  have a := callN_le I ρ D (Nat.le_max_left m n) _ _ _ h1
  have b := callN_le I ρ D (Nat.le_max_right m n) _ _ _ h2
  exact Option.some.inj (a.symm.trans b)

end Metalift
