import Verif.DslTensor
import Verif.DslPy
import Verif.PDslText
/-
C65 for the tensor language: the text of its functions is `llmlift_scripts/dsl.py`, and what these functions return.
-/
namespace Metalift.Ten
open Py (Tok Ast PyDef)

/-! ### The text -/

/-- Reads the text of a declaration with the given fuel. -/
def readDef (f : Nat) (d : FnDecl) : Option PyDef :=
  (paramTexts d.params).bind fun ps => d.ret.pyText.bind fun r => d.body.bind fun b => b.toPython.bind fun e =>
    (Py.pParams f (joinToks .comma ps)).bind fun qs => (Py.pTy f r).bind fun (t, r') => (Py.pLvl f 0 e).bind fun (a, e') =>
      match r', e' with
      | [], [] => some ⟨d.name, qs, t, a⟩
      | _, _ => none

theorem isText_of {n : Nat} {d : FnDecl} {D : PyDef} (h : ∀ g, readDef (g + n) d = some D) (hn : (D.params.map Prod.fst).Nodup) : IsText d D := by
  have h0 := h 0
  simp only [readDef, Option.bind_eq_some_iff] at h0
  obtain ⟨ps, hps, r, hr, b, hb, e, he, -⟩ := h0
  have key : ∀ f, n ≤ f → Py.pParams f (joinToks .comma ps) = some D.params ∧ Py.pTy f r = some (D.ret, []) ∧ Py.pLvl f 0 e = some (D.body, []) ∧
      D.name = d.name := by
    intro f hf
    obtain ⟨g, rfl⟩ : ∃ g, f = g + n := ⟨f - n, by omega⟩
    have hg := h g
    simp only [readDef, hps, hr, hb, he, Option.bind_some, Option.bind_eq_some_iff] at hg
    obtain ⟨qs, h1, ⟨t, r'⟩, h2, ⟨a, e'⟩, h3, h4⟩ := hg
    cases r' <;> cases e' <;> simp only [Option.some.injEq, reduceCtorEq] at h4
    subst h4
    exact ⟨h1, h2, h3, rfl⟩
  refine ⟨.kdef :: .tok (.name d.name) :: .tok .lpar :: ((joinToks .comma ps).map .tok ++ .tok .rpar :: .arrow :: (r.map .tok ++ [.tok .colon])), e,
    ?_, by simp, by simp, ⟨_, _, by rw [(key n (Nat.le_refl _)).2.2.2], ⟨n, fun f hf => (key f hf).1⟩, ⟨n, fun f hf => (key f hf).2.1⟩, hn⟩,
    ⟨n, fun f hf => (key f hf).2.2.1⟩⟩
  simp only [FnDecl.pyText, hps, hr, hb, he, Option.bind_eq_bind, Option.bind_some, List.cons_append, List.append_assoc, List.nil_append]

theorem texts_of {n : Nat} : ∀ {ds : List FnDecl} {M : List PyDef}, (∀ g, ds.map (readDef (g + n)) = M.map some) →
    (∀ D ∈ M, (D.params.map Prod.fst).Nodup) → All2 IsText ds M
  | [], [], _, _ => .nil
  | [], _ :: _, h, _ => absurd (h 0) (by simp)
  | _ :: _, [], h, _ => absurd (h 0) (by simp)
  | d :: ds, D :: M, h, hn => .cons (isText_of (n := n) (fun g => (List.cons.inj (h g)).1) (hn D (by simp)))
      (texts_of (n := n) (fun g => (List.cons.inj (h g)).2) (fun E hE => hn E (by simp [hE])))

/-- C65: the text of the tensor language, `TENSPILER_FNS`, is read as the module `llmlift_scripts/dsl.py` and as no other. -/
theorem C65_tensor_text : ∃ ts, dslCode tenspilerFns = some ts ∧ Py.IsModule ts dslModule ∧ ∀ M, Py.IsModule ts M → M = dslModule := by
  obtain ⟨ts, h1, h2⟩ := module_of_texts (texts_of (n := 100) (ds := tenspilerFns) (M := dslModule) (fun _ => rfl) (by decide))
  exact ⟨ts, h1, h2, fun M hM => hM.unique h2⟩

end Metalift.Ten
