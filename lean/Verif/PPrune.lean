import Verif.Prune
/-
C17: `prune_fn_decls` preserves the meaning of every function.
-/
namespace Metalift

theorem pruneItes_map (D : FnDict) (es : List Expr) : pruneItes D es = es.map (pruneIte D) := by
  induction es with
  | nil => rfl
  | cons e es ih => simp [pruneItes, ih]

theorem pruneInners_map (D : FnDict) (es : List Expr) : pruneInners D es = es.map (pruneInner D) := by
  induction es with
  | nil => rfl
  | cons e es ih => simp [pruneInners, ih]

theorem constBool_lit {e : Expr} {b : Bool} (h : constBool e = some b) : ∃ l, e = .lit l ∧ l.val.asBool = b := by
  unfold constBool at h
  cases e with
  | var n t => simp [Expr.pyEq, boolLit] at h
  | node o t as => simp [Expr.pyEq, boolLit] at h
  | lit l =>
    refine ⟨l, rfl, ?_⟩
    simp only [Expr.pyEq, boolLit] at h
    cases l with
    | bool a => cases a <;> cases b <;> simp_all [Lit.pyEq, Lit.val]
    | int i =>
      by_cases h1 : i = 1
      · subst h1; simp [Lit.pyEq] at h; subst h; rfl
      · by_cases h0 : i = 0
        · subst h0; simp [Lit.pyEq] at h; subst h; rfl
        · simp [Lit.pyEq, h1, h0] at h

theorem lookup_prune (D : FnDict) (f : String) : (pruneFnDecls D).lookup f =
    (D.lookup f).map (fun d => { d with body := d.body.map (pruneIte D) }) := by
  have : ∀ E : FnDict, (E.map (fun p => (p.1, { p.2 with body := p.2.body.map (pruneIte D) }))).lookup f =
      (E.lookup f).map (fun d => { d with body := d.body.map (pruneIte D) }) := by
    intro E
    induction E with
    | nil => rfl
    | cons p ps ih =>
      obtain ⟨k, d⟩ := p
      simp only [List.map_cons, List.lookup_cons]
      cases hk : f == k with
      | true => rfl
      | false => exact ih
  exact this D

theorem prune_sound {I : Interp} {D : FnDict} {c d : String → List Val → Option Val} (hcd : CallLe c d)
    (hconst : ∀ f b, ((D.lookup f).bind FnDecl.body).bind constBool = some b → ∀ vs w, d f vs = some w → w.asBool = b)
    {ρ : Env} : ∀ (e : Expr) (v : Val), evalC I c ρ e = some v →
      evalC I d ρ (pruneIte D e) = some v ∧ evalC I d ρ (pruneInner D e) = some v := by
  intro e
  induction e using Expr.ind with
  | hv n t => intro v h; exact ⟨h, h⟩
  | hl l => intro v h; exact ⟨h, h⟩
  | hn op t args ih =>
    intro v h
    have hargs : ∀ vs, evalCs I c ρ args = some vs → evalCs I d ρ (pruneItes D args) = some vs := by
      intro vs h
      rw [pruneItes_map]
      exact evalCs_eq.2 (All2.map_left.2 ((evalCs_eq.1 h).imp_mem (fun a ha b hb => (ih a ha b hb).1)))
    have hin : evalC I d ρ (.node op t (pruneItes D args)) = some v := by
      by_cases h1 : op = .ite
      · subst h1
        by_cases h3 : args.length = 3
        · obtain ⟨x, y, z, rfl⟩ := length_three h3
          simp only [evalC, pruneItes] at h ⊢
          cases hc : evalC I c ρ x with
          | none => simp [hc] at h
          | some w =>
            rw [hc] at h
            rw [(ih x (by simp) w hc).1]
            simp only at h ⊢
            split
            · rename_i hw; rw [if_pos hw] at h; exact (ih y (by simp) v h).1
            · rename_i hw; rw [if_neg hw] at h; exact (ih z (by simp) v h).1
        · rw [evalC_ite_bad h3, Option.map_eq_some_iff] at h
          have h3' : (pruneItes D args).length ≠ 3 := by rw [pruneItes_map]; simpa using h3
          rw [evalC_ite_bad h3', Option.map_eq_some_iff]
          obtain ⟨vs, h4, h5⟩ := h
          exact ⟨vs, hargs vs h4, h5⟩
      · by_cases h2 : ∃ f, op = .call f
        · obtain ⟨f, rfl⟩ := h2
          simp only [evalC, Option.bind_eq_some_iff] at h ⊢
          obtain ⟨vs, h4, h5⟩ := h
          exact ⟨vs, hargs vs h4, hcd _ _ _ h5⟩
        · by_cases h3 : op = .callValue
          · subst h3
            simp only [evalC, Option.bind_eq_some_iff] at h ⊢
            obtain ⟨vs, h4, h5⟩ := h
            refine ⟨vs, hargs vs h4, ?_⟩
            split at h5
            · exact hcd _ _ _ h5
            · cases h5
          · rw [evalC_node h1 (fun f hf => h2 ⟨f, hf⟩) h3, Option.map_eq_some_iff] at h ⊢
            obtain ⟨vs, h4, h5⟩ := h
            exact ⟨vs, hargs vs h4, h5⟩
    refine ⟨?_, by simpa [pruneInner] using hin⟩
    by_cases h1 : op = .ite
    · subst h1
      by_cases h3 : args.length = 3
      · obtain ⟨x, y, z, rfl⟩ := length_three h3
        simp only [pruneIte, pruneInners]
        cases hcc : condConst D (pruneInner D x) with
        | none => exact hin
        | some b =>
          -- the condition evaluates to `b`
          simp only [evalC] at h
          cases hc : evalC I c ρ x with
          | none => simp [hc] at h
          | some w =>
            rw [hc] at h
            have hx := (ih x (by simp) w hc).2
            have hw : w.asBool = b := by
              unfold condConst at hcc
              cases hcb : constBool (pruneInner D x) with
              | some b' =>
                rw [hcb] at hcc
                obtain rfl := Option.some.inj hcc
                obtain ⟨l, hl, hb⟩ := constBool_lit hcb
                rw [hl] at hx
                simp only [evalC, Option.some.injEq] at hx
                rw [← hx]; exact hb
              | none =>
                rw [hcb] at hcc
                simp only at hcc
                split at hcc
                · rename_i f t' as heq
                  rw [heq] at hx
                  simp only [evalC, Option.bind_eq_some_iff] at hx
                  obtain ⟨vs, _, h5⟩ := hx
                  exact hconst _ _ hcc vs w h5
                · cases hcc
            cases b with
            | true => simp only [hw, if_true] at h; exact (ih y (by simp) v h).2
            | false =>
              simp only [hw, Bool.false_eq_true, if_false] at h
              exact (ih z (by simp) v h).2
      · have : pruneIte D (.node .ite t args) = .node .ite t (pruneItes D args) := by
          simp only [pruneIte]
          split
          · rename_i heq
            rw [pruneInners_map] at heq
            have := congrArg List.length heq
            simp at this
            exact absurd this h3
          · rfl
        rw [this]; exact hin
    · have : pruneIte D (.node op t args) = .node op t (pruneItes D args) := by
        simp only [pruneIte]
        split
        · exact absurd rfl h1
        · rfl
      rw [this]; exact hin

/-- C17.  Every value a function had before pruning it has after pruning: same function names, same arguments, for all function
dictionaries (including recursive ones), all interpretations of the functions that are not defined in the dictionary and all
arguments. -/
theorem C17_prune_preserves (I : Interp) (ρ : Env) (D : FnDict) (f : String) (vs : List Val) (v : Val)
    (h : Computes I ρ D f vs v) : Computes I ρ (pruneFnDecls D) f vs v := by
  obtain ⟨n, h⟩ := h
  refine ⟨n, ?_⟩
  have hconst : ∀ n f b, ((D.lookup f).bind FnDecl.body).bind constBool = some b →
      ∀ vs w, callN I ρ (pruneFnDecls D) n f vs = some w → w.asBool = b := by
    intro n f b hb vs w hw
    obtain ⟨e, he, hcb⟩ := Option.bind_eq_some_iff.1 hb
    obtain ⟨d, hd, hde⟩ := Option.bind_eq_some_iff.1 he
    obtain ⟨l, rfl, hl⟩ := constBool_lit hcb
    rw [callN, lookup_prune, hd] at hw
    simp only [Option.map_some, Option.bind_some, hde, pruneIte] at hw
    cases n with
    | zero => simp at hw
    | succ n =>
      simp only at hw
      split at hw
      · simp only [evalC, Option.some.injEq] at hw; rw [← hw]; exact hl
      · cases hw
  have main : ∀ n, CallLe (callN I ρ D n) (callN I ρ (pruneFnDecls D) n) := by
    intro n
    induction n with
    | zero =>
      intro f vs v h
      rw [callN] at h ⊢
      rw [lookup_prune]
      cases hd : D.lookup f with
      | none => simpa [hd] using h
      | some d =>
        cases hb : d.body with
        | none => simpa [hd, hb] using h
        | some b => simp [hd, hb] at h
    | succ n ih =>
      intro f vs v h
      rw [callN] at h ⊢
      rw [lookup_prune]
      cases hd : D.lookup f with
      | none => simpa [hd] using h
      | some d =>
        cases hb : d.body with
        | none => simpa [hd, hb] using h
        | some b =>
          simp only [hd, hb, Option.map_some, Option.bind_some] at h ⊢
          split
          · rename_i hl; rw [if_pos hl] at h
            exact (prune_sound ih (hconst n) b v h).1
          · rename_i hl; rw [if_neg hl] at h; cases h
  exact main n f vs v h

/-- Consequently a pruned function can differ from the original only on arguments on which the original has no value. -/
theorem C17_prune_unique (I : Interp) (ρ : Env) (D : FnDict) (f : String) (vs : List Val) (w : Val)
    (h : Computes I ρ (pruneFnDecls D) f vs w) : ∀ v, Computes I ρ D f vs v → v = w :=
  fun v hv => (C17_prune_preserves I ρ D f vs v hv).unique h

/-- Pruning defines the same functions with the same parameters. -/
theorem C17_prune_signatures (D : FnDict) : (pruneFnDecls D).map (fun p => (p.1, p.2.name, p.2.params, p.2.ret)) =
    D.map (fun p => (p.1, p.2.name, p.2.params, p.2.ret)) := by
  simp [pruneFnDecls, List.map_map, Function.comp_def]

/-- A recursive example: `f x = if true then (if t() then x else f (x-1)) else 0`, `t() = true`. -/
def pruneDemo : FnDict :=
  [ ("f", ⟨"f", .int, [("x", .int)],
      some (mkIte .int (boolLit true)
        (mkIte .int (mkCall "t" .bool []) (.var "x" .int) (mkCall "f" .int [.node .sub .int [.var "x" .int, intLit 1]]))
        (intLit 0)), true⟩),
    ("t", ⟨"t", .bool, [], some (boolLit true), false⟩) ]

/-- It has a value before pruning (the hypothesis of C17 is met), and pruning removes the outer conditional only, as the code
does. -/
example (I : Interp) (ρ : Env) : Computes I ρ pruneDemo "f" [.int 7] (.int 7) :=
  ⟨2, rfl⟩

example : (pruneFnDecls pruneDemo).map (fun p => p.2.body) =
    [some (mkIte .int (mkCall "t" .bool []) (.var "x" .int) (mkCall "f" .int [.node .sub .int [.var "x" .int, intLit 1]])),
     some (boolLit true)] := by
  rfl

end Metalift
