import Verif.LlmParser
import Verif.PySyntax
/-
Python modules that consist of function definitions with annotated parameters and a single `return`: how their text is read, and what the
functions return.

This file is specification: it follows the Python reference manual (sections 2.1, 8.7 and the module `typing`), not the code of Metalift.
-/
namespace Metalift.Py

open Llm (MTy)

/-- Tokens of a module: those of expressions, and those that occur only outside of expressions.  `indent` is the white space at the beginning of
an indented line. -/
inductive DTok where
  | tok (t : Tok)
  | kdef | arrow | kreturn | newline | indent
  deriving DecidableEq, Repr

/-- A function definition. -/
structure PyDef where
  name : String
  params : List (String × MTy)
  ret : MTy
  body : Ast

/-! ### Reading -/

mutual
/-- The type annotation at the front of the input.  The first argument is fuel. -/
def pTy : Nat → List Tok → Option (MTy × List Tok)
  | 0, _ => none
  | k + 1, .name s :: ts =>
    if s = "int" then some (.int, ts)
    else if s = "bool" then some (.bool, ts)
    else if s = "List" then
      match ts with
      | .lbr :: ts => (pTy k ts).bind fun (t, ts) =>
          match ts with
          | .rbr :: ts => some (.list t, ts)
          | _ => none
      | _ => none
    else if s = "Callable" then
      match ts with
      | .lbr :: .lbr :: ts => (pTys k ts).bind fun (as, ts) =>
          match ts with
          | .comma :: ts => (pTy k ts).bind fun (r, ts) =>
              match ts with
              | .rbr :: ts => some (.callable r as, ts)
              | _ => none
          | _ => none
      | _ => none
    else none
  | _ + 1, _ => none
/-- The types up to the closing bracket, which is also read. -/
def pTys : Nat → List Tok → Option (List MTy × List Tok)
  | 0, _ => none
  | _ + 1, .rbr :: ts => some ([], ts)
  | k + 1, ts => (pTy k ts).bind fun (t, ts) =>
      match ts with
      | .rbr :: ts => some ([t], ts)
      | .comma :: ts => (pTys k ts).bind fun (as, ts) => some (t :: as, ts)
      | _ => none
end

/-- The parameters of a function, all of them with annotations. -/
def pParams : Nat → List Tok → Option (List (String × MTy))
  | 0, _ => none
  | _ + 1, [] => some []
  | k + 1, .name x :: .colon :: ts => (pTy k ts).bind fun (t, ts) =>
      match ts with
      | [] => some [(x, t)]
      | .comma :: ts => (pParams k ts).map ((x, t) :: ·)
      | _ => none
  | _ + 1, _ => none

/-- The tokens are the type. -/
def ParsesTy (ts : List Tok) (t : MTy) : Prop := ∃ N, ∀ f, N ≤ f → pTy f ts = some (t, [])

/-- The tokens are the parameters. -/
def ParsesParams (ts : List Tok) (ps : List (String × MTy)) : Prop := ∃ N, ∀ f, N ≤ f → pParams f ts = some ps

/-- The lines of a text. -/
def splitLines : List DTok → List (List DTok)
  | [] => [[]]
  | .newline :: ts => [] :: splitLines ts
  | t :: ts =>
    match splitLines ts with
    | [] => [[t]]
    | l :: ls => (t :: l) :: ls

/-- The line is `def name(params) -> ret:`; the names of the parameters must be different. -/
def IsHeader (l : List DTok) (d : PyDef) : Prop :=
  ∃ ps r : List Tok, l = .kdef :: .tok (.name d.name) :: .tok .lpar :: (ps.map .tok ++ .tok .rpar :: .arrow :: (r.map .tok ++ [.tok .colon])) ∧
    ParsesParams ps d.params ∧ ParsesTy r d.ret ∧ (d.params.map Prod.fst).Nodup

/-- The lines are the definitions: a header and an indented `return`, one after the other. -/
def IsDefs : List (List DTok) → List PyDef → Prop
  | [], [] => True
  | h :: b :: ls, d :: ds => IsHeader h d ∧ (∃ e : List Tok, b = .indent :: .kreturn :: e.map .tok ∧ Parses e d.body) ∧ IsDefs ls ds
  | _, _ => False

/-- The text is a module with these definitions; empty lines do not matter. -/
def IsModule (ts : List DTok) (ds : List PyDef) : Prop := IsDefs ((splitLines ts).filter (fun l => !l.isEmpty)) ds

/-! ### Meaning -/

/-- What a call of a function of the module returns when at most `k` calls may be nested (`none`: an exception, also the one for too many
nested calls).  Of several definitions of a name the last one counts. -/
def pyFn (ds : List PyDef) : Nat → String → List Val → Option Val
  | 0, _, _ => none
  | k + 1, f, vs =>
    match ds.reverse.find? (fun d => decide (d.name = f)) with
    | none => none
    | some d => if vs.length = d.params.length then eval ⟨fun x => ((d.params.map Prod.fst).zip vs).lookup x, pyFn ds k⟩ d.body else none

/-- The function returns the value, given enough room for nested calls. -/
def Runs (ds : List PyDef) (f : String) (vs : List Val) (w : Val) : Prop := ∃ n, ∀ k, n ≤ k → pyFn ds k f vs = some w

/-! ### A text is read in one way -/

theorem ParsesTy.unique {ts : List Tok} {a b : MTy} (ha : ParsesTy ts a) (hb : ParsesTy ts b) : a = b := by
  obtain ⟨N, hN⟩ := ha
  obtain ⟨M, hM⟩ := hb
  have h1 := hN (N + M) (by omega)
  rw [hM (N + M) (by omega)] at h1
  injection h1 with h1
  injection h1 with h1
  exact h1.symm

theorem ParsesParams.unique {ts : List Tok} {a b : List (String × MTy)} (ha : ParsesParams ts a) (hb : ParsesParams ts b) : a = b := by
  obtain ⟨N, hN⟩ := ha
  obtain ⟨M, hM⟩ := hb
  have h1 := hN (N + M) (by omega)
  rw [hM (N + M) (by omega)] at h1
  injection h1 with h1
  exact h1.symm

theorem Runs.unique {ds : List PyDef} {f : String} {vs : List Val} {a b : Val} (ha : Runs ds f vs a) (hb : Runs ds f vs b) : a = b := by
  obtain ⟨N, hN⟩ := ha
  obtain ⟨M, hM⟩ := hb
  have h1 := hN (N + M) (by omega)
  rw [hM (N + M) (by omega)] at h1
  injection h1 with h1
  exact h1.symm

theorem tok_inj {xs ys : List Tok} (h : xs.map DTok.tok = ys.map DTok.tok) : xs = ys := by
  induction xs generalizing ys with
  | nil => cases ys <;> simp at h ⊢
  | cons x xs ih =>
    cases ys with
    | nil => simp at h
    | cons y ys =>
      simp only [List.map_cons, List.cons.injEq, DTok.tok.injEq] at h
      rw [h.1, ih h.2]

/-- Tokens of expressions in front of the first other token are determined. -/
theorem tok_split {xs ys : List Tok} {us vs : List DTok} (hu : ∀ u ∈ us.head?, ∀ t, u ≠ .tok t) (hv : ∀ u ∈ vs.head?, ∀ t, u ≠ .tok t)
    (h : xs.map DTok.tok ++ us = ys.map DTok.tok ++ vs) : xs = ys ∧ us = vs := by
  induction xs generalizing ys with
  | nil =>
    cases ys with
    | nil => exact ⟨rfl, by simpa using h⟩
    | cons y ys =>
      simp only [List.map_nil, List.nil_append, List.map_cons, List.cons_append] at h
      subst h
      exact absurd rfl (hu _ (by simp) y)
  | cons x xs ih =>
    cases ys with
    | nil =>
      simp only [List.map_nil, List.nil_append, List.map_cons, List.cons_append] at h
      subst h
      exact absurd rfl (hv _ (by simp) x)
    | cons y ys =>
      simp only [List.map_cons, List.cons_append, List.cons.injEq, DTok.tok.injEq] at h
      obtain ⟨h1, h2⟩ := ih h.2
      exact ⟨by rw [h.1, h1], h2⟩

theorem IsHeader.unique {l : List DTok} {d e : PyDef} (hd : IsHeader l d) (he : IsHeader l e) :
    d.name = e.name ∧ d.params = e.params ∧ d.ret = e.ret := by
  obtain ⟨ps, r, h1, h2, h3, _⟩ := hd
  obtain ⟨qs, s, k1, k2, k3, _⟩ := he
  rw [h1] at k1
  simp only [List.cons.injEq, DTok.tok.injEq, Tok.name.injEq, true_and] at k1
  obtain ⟨hn, k1⟩ := k1
  have k : (ps ++ [Tok.rpar]).map DTok.tok ++ .arrow :: (r.map .tok ++ [.tok .colon]) =
      (qs ++ [Tok.rpar]).map DTok.tok ++ .arrow :: (s.map .tok ++ [.tok .colon]) := by simpa using k1
  obtain ⟨a1, a2⟩ := tok_split (by simp) (by simp) k
  have b1 : ps = qs := List.append_cancel_right a1
  have b2 : r = s := by
    simp only [List.cons.injEq, true_and] at a2
    exact tok_inj (List.append_cancel_right a2)
  subst b1 b2
  exact ⟨hn, h2.unique k2, h3.unique k3⟩

theorem IsDefs.unique : ∀ {ls : List (List DTok)} {ds es : List PyDef}, IsDefs ls ds → IsDefs ls es → ds = es
  | [], [], [], _, _ => rfl
  | [], [], _ :: _, _, h => absurd h (by simp [IsDefs])
  | [], _ :: _, _, h, _ => absurd h (by simp [IsDefs])
  | [_], [], _, h, _ => absurd h (by simp [IsDefs])
  | [_], _ :: _, _, h, _ => absurd h (by simp [IsDefs])
  | _ :: _ :: _, [], _, h, _ => absurd h (by simp [IsDefs])
  | _ :: _ :: _, _ :: _, [], _, h => absurd h (by simp [IsDefs])
  | _ :: _ :: _, d :: ds, e :: es, hd, he => by
    obtain ⟨h1, ⟨u, h2, h3⟩, h4⟩ := hd
    obtain ⟨k1, ⟨v, k2, k3⟩, k4⟩ := he
    rw [h2] at k2
    simp only [List.cons.injEq, true_and] at k2
    have := tok_inj k2
    subst this
    obtain ⟨n1, n2, n3⟩ := h1.unique k1
    have hb := h3.unique k3
    rw [IsDefs.unique h4 k4]
    cases d
    cases e
    simp only at n1 n2 n3 hb
    rw [n1, n2, n3, hb]

/-- A text is read as at most one module. -/
theorem IsModule.unique {ts : List DTok} {ds es : List PyDef} (hd : IsModule ts ds) (he : IsModule ts es) : ds = es := IsDefs.unique hd he

/-! ### More nested calls -/

/-- Functions that return more often make expressions have a value more often. -/
def Scope.le (S T : Scope) : Prop :=
  S.loc = T.loc ∧ ∀ f vs w, S.glob f vs = some w → T.glob f vs = some w

theorem Scope.le.apply {S T : Scope} (h : S.le T) {g : Val} {vs : List Val} {w : Val}
    (hw : S.apply g vs = some w) : T.apply g vs = some w := by
  cases g <;> simp only [Scope.apply, reduceCtorEq] at hw ⊢
  split at hw
  · rename_i hl
    rw [if_pos hl]
    exact hw
  · rename_i hl
    rw [if_neg hl]
    exact h.2 _ _ _ hw

mutual
theorem eval_mono {S T : Scope} (h : S.le T) : ∀ (a : Ast) {w : Val}, eval S a = some w → eval T a = some w
  | .name x, w, hw => by simpa only [eval, h.1] using hw
  | .num _, w, hw => by simpa only [eval] using hw
  | .bool _, w, hw => by simpa only [eval] using hw
  | .neg a, w, hw => by
    simp only [eval, Option.bind_eq_some_iff] at hw ⊢
    obtain ⟨v, h1, h2⟩ := hw
    exact ⟨v, eval_mono h a h1, h2⟩
  | .bin o a b, w, hw => by
    simp only [eval, Option.bind_eq_some_iff] at hw ⊢
    obtain ⟨v, h1, u, h2, h3⟩ := hw
    exact ⟨v, eval_mono h a h1, u, eval_mono h b h2, h3⟩
  | .cmp o a b, w, hw => by
    simp only [eval, Option.bind_eq_some_iff] at hw ⊢
    obtain ⟨v, h1, u, h2, h3⟩ := hw
    exact ⟨v, eval_mono h a h1, u, eval_mono h b h2, h3⟩
  | .and a b, w, hw => by
    simp only [eval, Option.bind_eq_some_iff] at hw ⊢
    obtain ⟨v, h1, h2⟩ := hw
    refine ⟨v, eval_mono h a h1, ?_⟩
    split at h2 <;> rename_i hc
    · rw [if_pos hc]
      exact eval_mono h b h2
    · rw [if_neg hc]
      exact h2
  | .or a b, w, hw => by
    simp only [eval, Option.bind_eq_some_iff] at hw ⊢
    obtain ⟨v, h1, h2⟩ := hw
    refine ⟨v, eval_mono h a h1, ?_⟩
    split at h2 <;> rename_i hc
    · rw [if_pos hc]
      exact h2
    · rw [if_neg hc]
      exact eval_mono h b h2
  | .not a, w, hw => by
    simp only [eval, Option.bind_eq_some_iff] at hw ⊢
    obtain ⟨v, h1, h2⟩ := hw
    exact ⟨v, eval_mono h a h1, h2⟩
  | .ite c a b, w, hw => by
    simp only [eval, Option.bind_eq_some_iff] at hw ⊢
    obtain ⟨v, h1, h2⟩ := hw
    refine ⟨v, eval_mono h c h1, ?_⟩
    split at h2 <;> rename_i hc
    · rw [if_pos hc]
      exact eval_mono h a h2
    · rw [if_neg hc]
      exact eval_mono h b h2
  | .call f as, w, hw => by
    simp only [eval, Option.bind_eq_some_iff] at hw ⊢
    obtain ⟨v, h1, us, h2, h3⟩ := hw
    exact ⟨v, eval_mono h f h1, us, evals_mono h as h2, h.apply h3⟩
  | .index a i, w, hw => by
    simp only [eval, Option.bind_eq_some_iff] at hw ⊢
    obtain ⟨v, h1, u, h2, h3⟩ := hw
    exact ⟨v, eval_mono h a h1, u, eval_mono h i h2, h3⟩
  | .slice a lo hi, w, hw => by
    simp only [eval, Option.bind_eq_some_iff] at hw ⊢
    obtain ⟨v, h1, u, h2, t, h3, h4⟩ := hw
    exact ⟨v, eval_mono h a h1, u, evalO_mono h lo h2, t, evalO_mono h hi h3, h4⟩
  | .tuple as, w, hw => by
    simp only [eval, Option.bind_eq_some_iff] at hw ⊢
    obtain ⟨v, h1, h2⟩ := hw
    exact ⟨v, evals_mono h as h1, h2⟩
  | .list as, w, hw => by
    simp only [eval, Option.bind_eq_some_iff] at hw ⊢
    obtain ⟨v, h1, h2⟩ := hw
    exact ⟨v, evalItems_mono h as h1, h2⟩
  | .starred _, w, hw => by simp [eval] at hw
  | .attr _ _, w, hw => by simp [eval] at hw
  | .kwarg _ _, w, hw => by simp [eval] at hw
  | .colSlice _ _ _, w, hw => by simp [eval] at hw
theorem evals_mono {S T : Scope} (h : S.le T) : ∀ (as : List Ast) {ws : List Val}, evals S as = some ws → evals T as = some ws
  | [], ws, hw => by simpa only [evals] using hw
  | a :: as, ws, hw => by
    simp only [evals, Option.bind_eq_some_iff] at hw ⊢
    obtain ⟨v, h1, vs, h2, h3⟩ := hw
    exact ⟨v, eval_mono h a h1, vs, evals_mono h as h2, h3⟩
theorem evalO_mono {S T : Scope} (h : S.le T) : ∀ (a : Option Ast) {w : Option Int}, evalO S a = some w → evalO T a = some w
  | none, w, hw => by simpa only [evalO] using hw
  | some a, w, hw => by
    simp only [evalO, Option.bind_eq_some_iff] at hw ⊢
    obtain ⟨v, h1, h2⟩ := hw
    exact ⟨v, eval_mono h a h1, h2⟩
theorem evalItems_mono {S T : Scope} (h : S.le T) : ∀ (as : List Ast) {ws : List Val}, evalItems S as = some ws →
    evalItems T as = some ws
  | [], ws, hw => by simpa only [evalItems] using hw
  | a :: as, ws, hw => by
    cases a
    case starred a =>
      simp only [evalItems, Option.bind_eq_some_iff] at hw ⊢
      obtain ⟨v, h1, vs, h2, h3⟩ := hw
      exact ⟨v, eval_mono h a h1, vs, evalItems_mono h as h2, h3⟩
    all_goals
      simp only [evalItems, Option.bind_eq_some_iff] at hw ⊢
      obtain ⟨v, h1, vs, h2, h3⟩ := hw
      exact ⟨v, eval_mono h _ h1, vs, evalItems_mono h as h2, h3⟩
end

theorem pyFn_succ (ds : List PyDef) : ∀ (k : Nat) {f : String} {vs : List Val} {w : Val}, pyFn ds k f vs = some w →
    pyFn ds (k + 1) f vs = some w
  | 0, _, _, _, h => by simp [pyFn] at h
  | k + 1, f, vs, w, h => by
    rw [pyFn] at h ⊢
    split at h
    · simp at h
    · rename_i d hd
      split at h
      · rename_i hl
        rw [if_pos hl]
        exact eval_mono (S := ⟨_, pyFn ds k⟩) (T := ⟨_, pyFn ds (k + 1)⟩) ⟨rfl, fun _ _ _ => pyFn_succ ds k⟩ _ h
      · simp at h

theorem pyFn_le {ds : List PyDef} {k m : Nat} (hm : k ≤ m) {f : String} {vs : List Val} {w : Val} (h : pyFn ds k f vs = some w) :
    pyFn ds m f vs = some w := by
  induction hm with
  | refl => exact h
  | step _ ih => exact pyFn_succ ds _ ih

/-- A function returns a value as soon as it does so with some room for nested calls. -/
theorem runs_iff {ds : List PyDef} {f : String} {vs : List Val} {w : Val} : Runs ds f vs w ↔ ∃ k, pyFn ds k f vs = some w :=
  ⟨fun ⟨n, h⟩ => ⟨n, h n (Nat.le_refl _)⟩, fun ⟨k, h⟩ => ⟨k, fun _ hm => pyFn_le hm h⟩⟩

end Metalift.Py
