import Verif.DslText
import Verif.PToPython
import Verif.LlmSpec
/-
C65: the Python text of the target language that is shown to the language model defines functions that return what the declared functions are.
-/
namespace Metalift

open Py (Tok Ast DTok PyDef)
open Llm (MTy irTy irTys fnEnv)

/-! ### Specification -/

/-- The Python definition has the name and the parameters of the declaration, and the types of the declaration once they are translated back
(`mypy_type_to_ir_type`, C55). -/
def SameSignature (d : FnDecl) (D : PyDef) : Prop :=
  D.name = d.name ∧ D.params.map (fun p => (p.1, irTy p.2)) = d.params.map (fun p => (p.1, some p.2)) ∧ irTy D.ret = some d.ret

/-- The declaration can be printed: it has a body that needs no further parentheses (`Expr.PySafe`, C23) and uses only the parameters, the
parameters have different names, and the types are integers, booleans, lists and functions. -/
structure Printable (d : FnDecl) : Prop where
  body : ∃ b, d.body = some b ∧ b.PySafe (fun x => decide (x ∈ d.params.map Prod.fst))
  nodup : (d.params.map Prod.fst).Nodup
  noLen : "len" ∉ d.params.map Prod.fst
  types : ∀ p ∈ d.params, p.2.pyText.isSome = true
  ret : d.ret.pyText.isSome = true

/-- Arguments of the types: data, or functions given by their names. -/
def ArgOf : Ty → Val → Prop
  | .fn _, v => ∃ g, v = .fn g
  | t, v => Smt.OfTy t v

/-- The interpretation satisfies the equation of the function, for arguments of the declared types. -/
def Equation (I : Interp) (d : FnDecl) : Prop :=
  ∀ vs, All2 ArgOf (d.params.map Prod.snd) vs → ∀ b, d.body = some b → I.fn d.name vs = eval I (fnEnv (d.params.map Prod.fst) vs) b

/-- The interpretation satisfies the equations of the declarations; the list primitives have their meaning, and a function that is given by its name
is the function with that name. -/
structure Means (I : Interp) (ds : List FnDecl) : Prop where
  prims : ListPrims I
  apply : ∀ g vs, I.apply (.fn g) vs = I.fn g vs
  eqns : ∀ d ∈ ds, Equation I d

/-- The declared function terminates on these arguments with at most `n` nested calls, and all operations on the way get operands in their domain
(`Defined`, C23): the conditions decide which calls are made. -/
def Terminates (I : Interp) (ds : List FnDecl) : Nat → String → List Val → Prop
  | 0, _, _ => False
  | n + 1, f, vs => ∃ d ∈ ds, d.name = f ∧ All2 ArgOf (d.params.map Prod.snd) vs ∧
      ∃ b, d.body = some b ∧ Defined (Terminates I ds n) I (fnEnv (d.params.map Prod.fst) vs) b

/-! ### Types -/

mutual
theorem tyText_reads : ∀ (t : Ty) (s : List Tok), t.pyText = some s → (∃ x s', s = .name x :: s') ∧
    ∃ m, irTy m = some t ∧ ∃ N, ∀ f, N ≤ f → ∀ rest, Py.pTy f (s ++ rest) = some (m, rest)
  | .int, s, h => by
    simp only [Ty.pyText, Option.some.injEq] at h
    subst h
    refine ⟨⟨_, _, rfl⟩, .int, rfl, 1, fun f hf rest => ?_⟩
    obtain ⟨g, rfl, _⟩ := Py.exists_succ (N := 0) hf
    rfl
  | .bool, s, h => by
    simp only [Ty.pyText, Option.some.injEq] at h
    subst h
    refine ⟨⟨_, _, rfl⟩, .bool, rfl, 1, fun f hf rest => ?_⟩
    obtain ⟨g, rfl, _⟩ := Py.exists_succ (N := 0) hf
    rfl
  | .list t, s, h => by
    simp only [Ty.pyText, Option.bind_eq_bind, Option.bind_eq_some_iff, Option.some.injEq] at h
    obtain ⟨u, hu, rfl⟩ := h
    obtain ⟨_, m, hm, N, hN⟩ := tyText_reads t u hu
    refine ⟨⟨_, _, rfl⟩, .list m, by simp [irTy, hm], N + 1, fun f hf rest => ?_⟩
    obtain ⟨g, rfl, hg⟩ := Py.exists_succ hf
    simp [Py.pTy, hN g hg]
  | .set _, s, h => by simp [Ty.pyText] at h
  | .tuple _, s, h => by simp [Ty.pyText] at h
  | .fn [], s, h => by simp [Ty.pyText] at h
  | .fn (r :: as), s, h => by
    simp only [Ty.pyText, Option.bind_eq_bind, Option.bind_eq_some_iff, Option.some.injEq] at h
    obtain ⟨u, hu, us, hus, rfl⟩ := h
    obtain ⟨_, m, hm, N, hN⟩ := tyText_reads r u hu
    obtain ⟨ms, hms, M, hM⟩ := tyTexts_reads as us hus
    refine ⟨⟨_, _, rfl⟩, .callable m ms, by simp [irTy, hm, hms], N + M + 1, fun f hf rest => ?_⟩
    obtain ⟨g, rfl, hg⟩ := Py.exists_succ hf
    simp [Py.pTy, hM g (by omega), hN g (by omega)]
theorem tyTexts_reads : ∀ (ts : List Ty) (ss : List (List Tok)), Ty.pyTexts ts = some ss →
    ∃ ms, irTys ms = some ts ∧ ∃ N, ∀ f, N ≤ f → ∀ rest, Py.pTys f (joinToks .comma ss ++ .rbr :: rest) = some (ms, rest)
  | [], ss, h => by
    simp only [Ty.pyTexts, Option.some.injEq] at h
    subst h
    refine ⟨[], rfl, 1, fun f hf rest => ?_⟩
    obtain ⟨g, rfl, _⟩ := Py.exists_succ (N := 0) hf
    rfl
  | t :: ts, ss, h => by
    simp only [Ty.pyTexts, Option.bind_eq_bind, Option.bind_eq_some_iff, Option.some.injEq] at h
    obtain ⟨u, hu, us, hus, rfl⟩ := h
    obtain ⟨⟨x, u', rfl⟩, m, hm, N, hN⟩ := tyText_reads t u hu
    obtain ⟨ms, hms, M, hM⟩ := tyTexts_reads ts us hus
    refine ⟨m :: ms, by simp [irTys, hm, hms], N + M + 1, fun f hf rest => ?_⟩
    obtain ⟨g, rfl, hg⟩ := Py.exists_succ hf
    have h1 := hN g (by omega)
    cases us with
    | nil =>
      have hts : ms = [] := by
        cases ts with
        | nil => cases ms with
          | nil => rfl
          | cons a b => simp [irTys, Option.bind_eq_some_iff] at hms
        | cons a b => simp [Ty.pyTexts, Option.bind_eq_some_iff] at hus
      subst hts
      have h2 := h1 (.rbr :: rest)
      simp only [List.cons_append] at h2
      simp only [joinToks, List.cons_append, Py.pTys, h2, Option.bind_some]
    | cons v vs =>
      have h2 := h1 (.comma :: (joinToks .comma (v :: vs) ++ .rbr :: rest))
      simp only [List.cons_append] at h2
      simp only [joinToks, List.cons_append, List.append_assoc, Py.pTys, h2, Option.bind_some, hM g (by omega)]
end

theorem tyText_parses {t : Ty} {s : List Tok} (h : t.pyText = some s) : ∃ m, irTy m = some t ∧ Py.ParsesTy s m := by
  obtain ⟨_, m, hm, N, hN⟩ := tyText_reads t s h
  exact ⟨m, hm, N, fun f hf => by simpa using hN f hf []⟩

theorem params_parse : ∀ {ps : List (String × Ty)} {ss : List (List Tok)}, paramTexts ps = some ss →
    ∃ qs : List (String × MTy), qs.map (fun p => (p.1, irTy p.2)) = ps.map (fun p => (p.1, some p.2)) ∧ Py.ParsesParams (joinToks .comma ss) qs
  | [], ss, h => by
    simp only [paramTexts, Option.some.injEq] at h
    subst h
    refine ⟨[], rfl, 1, fun f hf => ?_⟩
    obtain ⟨g, rfl, _⟩ := Py.exists_succ (N := 0) hf
    rfl
  | p :: ps, ss, h => by
    simp only [paramTexts, paramText, Option.bind_eq_bind, Option.bind_eq_some_iff, Option.some.injEq, Option.map_eq_some_iff] at h
    obtain ⟨_, ⟨u, hu, rfl⟩, us, hus, rfl⟩ := h
    obtain ⟨_, m, hm, N, hN⟩ := tyText_reads _ u hu
    obtain ⟨qs, hqs, M, hM⟩ := params_parse hus
    refine ⟨(p.1, m) :: qs, by simp [hm, hqs], N + M + 1, fun f hf => ?_⟩
    obtain ⟨g, rfl, hg⟩ := Py.exists_succ hf
    have h1 := hN g (by omega)
    cases us with
    | nil =>
      have hq : qs = [] := by
        cases ps with
        | nil => simpa using hqs
        | cons a b => simp [paramTexts, Option.bind_eq_some_iff] at hus
      subst hq
      have h2 := h1 []
      rw [List.append_nil] at h2
      simp [joinToks, Py.pParams, h2]
    | cons v vs => simp [joinToks, Py.pParams, h1, hM g (by omega)]

theorem paramTexts_some : ∀ {ps : List (String × Ty)}, (∀ p ∈ ps, p.2.pyText.isSome = true) → ∃ ss, paramTexts ps = some ss
  | [], _ => ⟨[], rfl⟩
  | p :: ps, h => by
    obtain ⟨ss, hss⟩ := paramTexts_some (fun q hq => h q (List.mem_cons_of_mem _ hq))
    obtain ⟨t, ht⟩ := Option.isSome_iff_exists.mp (h p (List.mem_cons_self ..))
    exact ⟨(.name p.1 :: .colon :: t) :: ss, by simp only [paramTexts, paramText, ht, hss, Option.map_some, Option.bind_eq_bind, Option.bind_some]⟩

/-! ### Lines -/

theorem splitLines_line : ∀ {l : List DTok}, .newline ∉ l → ∀ rest, Py.splitLines (l ++ .newline :: rest) = l :: Py.splitLines rest
  | [], _, rest => rfl
  | t :: l, h, rest => by
    have ht : t ≠ .newline := fun e => h (by simp [e])
    have ih := splitLines_line (l := l) (fun e => h (List.mem_cons_of_mem _ e)) rest
    cases t <;> first | exact absurd rfl ht | simp [Py.splitLines, ih]

theorem splitLines_end : ∀ {l : List DTok}, .newline ∉ l → Py.splitLines l = [l]
  | [], _ => rfl
  | t :: l, h => by
    have ht : t ≠ .newline := fun e => h (by simp [e])
    have ih := splitLines_end (l := l) (fun e => h (List.mem_cons_of_mem _ e))
    cases t <;> first | exact absurd rfl ht | simp [Py.splitLines, ih]

/-- The text of a declaration: a header, an end of line, and an indented `return`. -/
theorem declText {d : FnDecl} (h : Printable d) : ∃ (hd : List DTok) (ts : List Tok) (D : PyDef) (b : Expr),
    d.pyText = some (hd ++ .newline :: .indent :: .kreturn :: ts.map .tok) ∧ .newline ∉ hd ∧ hd ≠ [] ∧ Py.IsHeader hd D ∧ Py.Parses ts D.body ∧
    SameSignature d D ∧ d.body = some b ∧ ∀ Q I ρ S, Agree Q (fun x => decide (x ∈ d.params.map Prod.fst)) I ρ S → Defined Q I ρ b →
      Py.eval S D.body = some (eval I ρ b) := by
  obtain ⟨⟨b, hb, hsafe⟩, hnd, hlen, htys, hret⟩ := h
  obtain ⟨ss, hss⟩ := paramTexts_some htys
  obtain ⟨r, hr⟩ := Option.isSome_iff_exists.mp hret
  obtain ⟨ts, p, hts, hp, hval⟩ := C23_to_python_partial _ (by simpa using hlen) b hsafe
  obtain ⟨qs, hqs, hpar⟩ := params_parse hss
  obtain ⟨m, hm, hmr⟩ := tyText_parses hr
  refine ⟨.kdef :: .tok (.name d.name) :: .tok .lpar :: ((joinToks .comma ss).map .tok ++ .tok .rpar :: .arrow :: (r.map .tok ++ [.tok .colon])), ts,
    ⟨d.name, qs, m, p⟩, b, ?_, by simp, by simp, ⟨_, _, rfl, hpar, hmr, ?_⟩, hp, ⟨rfl, hqs, hm⟩, hb, hval⟩
  · simp only [FnDecl.pyText, hss, hr, hb, hts, Option.bind_eq_bind, Option.bind_some, List.cons_append, List.append_assoc, List.nil_append]
  · have : qs.map Prod.fst = d.params.map Prod.fst := by
      have := congrArg (List.map Prod.fst) hqs
      simpa [Function.comp_def] using this
    rw [this]
    exact hnd

/-- The definition computes the body of the declaration. -/
def Computes' (d : FnDecl) (D : PyDef) : Prop :=
  ∃ b, d.body = some b ∧ ∀ Q I ρ S, Agree Q (fun x => decide (x ∈ d.params.map Prod.fst)) I ρ S → Defined Q I ρ b →
    Py.eval S D.body = some (eval I ρ b)

/-- The text of the declaration is the definition. -/
def IsText (d : FnDecl) (D : PyDef) : Prop := ∃ (hd : List DTok) (ts : List Tok),
  d.pyText = some (hd ++ .newline :: .indent :: .kreturn :: ts.map .tok) ∧ .newline ∉ hd ∧ hd ≠ [] ∧ Py.IsHeader hd D ∧ Py.Parses ts D.body

theorem module_of_texts : ∀ {ds : List FnDecl} {M : List PyDef}, All2 IsText ds M → ∃ ts : List DTok, dslCode ds = some ts ∧ Py.IsModule ts M
  | _, _, .nil => ⟨[], rfl, by simp [Py.IsModule, Py.splitLines, Py.IsDefs]⟩
  | _, _, .cons (a := d) (b := D) ⟨hd, ts, h1, h2, h3, h4, h5⟩ .nil => by
    refine ⟨_, h1, ?_⟩
    rw [Py.IsModule, splitLines_line h2, splitLines_end (by simp)]
    have : hd.isEmpty = false := by cases hd with | nil => exact absurd rfl h3 | cons => rfl
    simp only [List.filter_cons, this, Bool.not_false, if_true, List.isEmpty_cons, List.filter_nil, Py.IsDefs, and_true]
    exact ⟨h4, ts, rfl, h5⟩
  | _, _, .cons (a := d) (b := D) ⟨hd, ts, h1, h2, h3, h4, h5⟩ (.cons (a := e) (as := ds) (b := E) (bs := M) k ks) => by
    obtain ⟨us, k1, k2⟩ := module_of_texts (.cons k ks)
    refine ⟨(hd ++ .newline :: .indent :: .kreturn :: ts.map .tok) ++ .newline :: .newline :: us,
      by simp only [dslCode, h1, k1, Option.bind_eq_bind, Option.bind_some], ?_⟩
    rw [Py.IsModule]
    simp only [List.append_assoc, List.cons_append]
    have e1 := splitLines_line (l := .indent :: .kreturn :: ts.map .tok) (by simp) (.newline :: us)
    simp only [List.cons_append] at e1
    rw [splitLines_line h2, e1]
    have : hd.isEmpty = false := by cases hd with | nil => exact absurd rfl h3 | cons => rfl
    simp only [Py.splitLines, List.filter_cons, this, Bool.not_false, if_true, List.isEmpty_cons, List.isEmpty_nil, Bool.not_true, Bool.false_eq_true,
      if_false, Py.IsDefs]
    exact ⟨h4, ⟨ts, rfl, h5⟩, k2⟩

theorem dslText : ∀ {ds : List FnDecl}, (∀ d ∈ ds, Printable d) → ∃ M : List PyDef, All2 IsText ds M ∧ All2 (fun d D => SameSignature d D ∧ Computes' d D) ds M
  | [], _ => ⟨[], .nil, .nil⟩
  | d :: ds, h => by
    obtain ⟨hd, ts, D, b, h1, h2, h3, h4, h5, h6, h7, h8⟩ := declText (h d (by simp))
    obtain ⟨M, k1, k2⟩ := dslText (fun x hx => h x (List.mem_cons_of_mem _ hx))
    exact ⟨D :: M, .cons ⟨hd, ts, h1, h2, h3, h4, h5⟩ k1, .cons ⟨h6, b, h7, h8⟩ k2⟩

/-! ### Values -/

theorem ite_mono {c p q r : Prop} [Decidable c] (h : q → r) : (if c then p else q) → (if c then p else r) := by
  split_ifs
  · exact id
  · exact h

theorem callDefined_mono {Q R : String → List Val → Prop} (h : ∀ f vs, Q f vs → R f vs) {f : String} {vs : List Val} :
    CallDefined Q f vs → CallDefined R f vs := by
  unfold CallDefined
  iterate 9 apply ite_mono
  exact h f vs

theorem opDefined_mono {Q R : String → List Val → Prop} (h : ∀ f vs, Q f vs → R f vs) {I : Interp} {op : Op} {vs : List Val}
    (hd : OpDefined Q I op vs) : OpDefined R I op vs := by
  cases op <;> try exact hd
  · exact callDefined_mono h hd
  · obtain ⟨g, us, h1, h2, h3⟩ := hd
    exact ⟨g, us, h1, h2, h _ _ h3⟩

mutual
theorem Defined.mono {Q R : String → List Val → Prop} (h : ∀ f vs, Q f vs → R f vs) {I : Interp} {ρ : Env} :
    ∀ e : Expr, Defined Q I ρ e → Defined R I ρ e
  | .var _ _, _ => by simp [Defined]
  | .lit _, _ => by simp [Defined]
  | .node op t args, hd => by
    by_cases hi : ∃ c a b, op = .ite ∧ args = [c, a, b]
    · obtain ⟨c, a, b, rfl, rfl⟩ := hi
      simp only [Defined] at hd ⊢
      exact ⟨Defined.mono h c hd.1, hd.2.1, fun e => Defined.mono h a (hd.2.2.1 e), fun e => Defined.mono h b (hd.2.2.2 e)⟩
    · by_cases ha : op = .and
      · subst ha
        simp only [Defined] at hd ⊢
        exact DefinedAnd.mono h args hd
      · by_cases ho : op = .or
        · subst ho
          simp only [Defined] at hd ⊢
          exact DefinedOr.mono h args hd
        · have e : ∀ P : String → List Val → Prop, Defined P I ρ (.node op t args) = (DefinedAll P I ρ args ∧ OpDefined P I op (args.map (eval I ρ))) := by
            intro P
            rw [Defined]
            · rintro c a b rfl rfl
              exact hi ⟨_, _, _, rfl, rfl⟩
            · exact ha
            · exact ho
          rw [e] at hd ⊢
          refine ⟨DefinedAll.mono h args hd.1, ?_⟩
          exact opDefined_mono h hd.2
theorem DefinedAll.mono {Q R : String → List Val → Prop} (h : ∀ f vs, Q f vs → R f vs) {I : Interp} {ρ : Env} :
    ∀ es : List Expr, DefinedAll Q I ρ es → DefinedAll R I ρ es
  | [], _ => by simp [DefinedAll]
  | e :: es, hd => by
    simp only [DefinedAll] at hd ⊢
    exact ⟨Defined.mono h e hd.1, DefinedAll.mono h es hd.2⟩
theorem DefinedAnd.mono {Q R : String → List Val → Prop} (h : ∀ f vs, Q f vs → R f vs) {I : Interp} {ρ : Env} :
    ∀ es : List Expr, DefinedAnd Q I ρ es → DefinedAnd R I ρ es
  | [], _ => by simp [DefinedAnd]
  | e :: es, hd => by
    simp only [DefinedAnd] at hd ⊢
    exact ⟨Defined.mono h e hd.1, hd.2.1, fun x => DefinedAnd.mono h es (hd.2.2 x)⟩
theorem DefinedOr.mono {Q R : String → List Val → Prop} (h : ∀ f vs, Q f vs → R f vs) {I : Interp} {ρ : Env} :
    ∀ es : List Expr, DefinedOr Q I ρ es → DefinedOr R I ρ es
  | [], _ => by simp [DefinedOr]
  | e :: es, hd => by
    simp only [DefinedOr] at hd ⊢
    exact ⟨Defined.mono h e hd.1, hd.2.1, fun x => DefinedOr.mono h es (hd.2.2 x)⟩
end

theorem find_all2 {R : FnDecl → PyDef → Prop} : ∀ {ds : List FnDecl} {M : List PyDef}, All2 R ds M → (∀ d D, R d D → D.name = d.name) →
    (ds.map FnDecl.name).Nodup → ∀ {d}, d ∈ ds → ∃ D ∈ M, R d D ∧ (M.map PyDef.name) = ds.map FnDecl.name
  | _, _, .nil, _, _, d, hd => absurd hd (by simp)
  | _, _, .cons (a := a) (b := b) (as := as) (bs := bs) h hs, hR, hn, d, hd => by
    have hmap : ∀ {as : List FnDecl} {bs : List PyDef}, All2 R as bs → bs.map PyDef.name = as.map FnDecl.name := by
      intro as bs h
      induction h with
      | nil => rfl
      | cons h _ ih => simp [hR _ _ h, ih]
    rcases List.mem_cons.mp hd with rfl | hd
    · exact ⟨b, by simp, h, by simp [hR _ _ h, hmap hs]⟩
    · obtain ⟨D, h1, h2, _⟩ := find_all2 hs hR (by simp at hn; exact hn.2) hd
      exact ⟨D, by simp [h1], h2, by simp [hR _ _ h, hmap hs]⟩

theorem find_nodup : ∀ {M : List PyDef} {D : PyDef}, D ∈ M → (M.map PyDef.name).Nodup → M.find? (fun E => decide (E.name = D.name)) = some D
  | [], _, h, _ => absurd h (by simp)
  | E :: M, D, h, hn => by
    simp only [List.map_cons, List.nodup_cons] at hn
    rcases List.mem_cons.mp h with rfl | h
    · simp
    · have : E.name ≠ D.name := fun e => hn.1 (e ▸ List.mem_map_of_mem h)
      simp only [List.find?_cons, this, decide_false]
      exact find_nodup h hn.2

theorem lookup_fnEnv {ps : List String} {vs : List Val} (hl : vs.length = ps.length) {x : String} (hx : x ∈ ps) :
    (ps.zip vs).lookup x = some (fnEnv ps vs x) := by
  have : ∃ v, (ps.zip vs).lookup x = some v := by
    induction ps generalizing vs with
    | nil => exact absurd hx (by simp)
    | cons p ps ih =>
      cases vs with
      | nil => simp at hl
      | cons v vs =>
        by_cases e : x = p
        · exact ⟨v, by simp [e]⟩
        · obtain ⟨w, hw⟩ := ih (vs := vs) (by simpa using hl) (by simpa [e] using hx)
          exact ⟨w, by simp [List.lookup_cons, beq_eq_false_iff_ne.mpr e, hw]⟩
  obtain ⟨v, hv⟩ := this
  simp [fnEnv, hv]

theorem lookup_zip_none : ∀ {ps : List String} {vs : List Val} {x : String}, x ∉ ps → (ps.zip vs).lookup x = none
  | [], _, _, _ => by simp
  | _ :: _, [], _, _ => by simp
  | p :: ps, v :: vs, x, h => by
    simp only [List.mem_cons, not_or] at h
    simp [List.lookup_cons, beq_eq_false_iff_ne.mpr h.1, lookup_zip_none h.2]

theorem All2.length {α β : Type} {R : α → β → Prop} {as : List α} {bs : List β} (h : All2 R as bs) : bs.length = as.length := by
  induction h with
  | nil => rfl
  | cons _ _ ih => simp [ih]

theorem terminates_runs {ds : List FnDecl} {M : List PyDef} (hM : All2 (fun d D => SameSignature d D ∧ Computes' d D) ds M)
    (hn : (ds.map FnDecl.name).Nodup) {I : Interp} (hI : Means I ds) :
    ∀ (n : Nat) (f : String) (vs : List Val), Terminates I ds n f vs → ∀ k, n ≤ k → Py.pyFn M k f vs = some (I.fn f vs)
  | 0, _, _, h, _, _ => h.elim
  | n + 1, f, vs, h, k, hk => by
    obtain ⟨d, hd, rfl, hvs, b, hb, hdef⟩ := h
    obtain ⟨k, rfl, hk⟩ := Py.exists_succ hk
    obtain ⟨D, hD, ⟨⟨hs1, hs2, _⟩, b', hb', hval⟩, hnames⟩ := find_all2 hM (fun d D h => h.1.1) hn hd
    rw [hb] at hb'
    injection hb' with hb'
    subst hb'
    have hps : D.params.map Prod.fst = d.params.map Prod.fst := by
      have := congrArg (List.map Prod.fst) hs2
      simpa [Function.comp_def] using this
    have hlen : vs.length = (d.params.map Prod.fst).length := by
      have := hvs.length
      simpa using this
    have hfind : M.reverse.find? (fun E => decide (E.name = d.name)) = some D := by
      rw [← hs1]
      exact find_nodup (by simpa using hD) (by rw [List.map_reverse, List.nodup_reverse, hnames]; exact hn)
    have hlen' : vs.length = D.params.length := by
      rw [hlen, ← hps, List.length_map]
    simp only [Py.pyFn, hfind, if_pos hlen', hps]
    rw [hI.eqns d hd vs hvs b hb]
    refine hval (fun g us => Py.pyFn M k g us = some (I.fn g us)) I _ _ ⟨?_, ?_, fun g us _ h => h, hI.apply, hI.prims⟩
      (hdef.mono (fun g us hg => terminates_runs hM hn hI n g us hg k (by omega)))
    · intro x hx
      exact lookup_fnEnv hlen (by simpa using hx)
    · intro x hx
      exact lookup_zip_none (by simpa using hx)

/-! ### C65 -/

/-- C65, for declarations that can be printed without further parentheses (`Printable`) and have different names: the text of the target language
is read as one Python module, each function of the module has the name, the parameters and the types of its declaration, and wherever the declared
function terminates inside the domain of its operations (`Terminates`) the Python function returns the value of the declared function.

Missing: bodies that need parentheses that are not printed (`Ten.C65_integer_sqrt_refuted`), types without text (`C65_types_refuted`,
`C65_tensor_type_refuted`), calls outside the domain of the operations (C23). -/
theorem C65_text_partial (ds : List FnDecl) (hp : ∀ d ∈ ds, Printable d) (hn : (ds.map FnDecl.name).Nodup) :
    ∃ ts M, dslCode ds = some ts ∧ Py.IsModule ts M ∧ (∀ M', Py.IsModule ts M' → M' = M) ∧ All2 SameSignature ds M ∧
      ∀ I, Means I ds → ∀ n f vs, Terminates I ds n f vs → Py.Runs M f vs (I.fn f vs) := by
  obtain ⟨M, h0, h3⟩ := dslText hp
  obtain ⟨ts, h1, h2⟩ := module_of_texts h0
  refine ⟨ts, M, h1, h2, fun M' h => h.unique h2, ?_, fun I hI n f vs h => ⟨n, terminates_runs h3 hn hI n f vs h⟩⟩
  clear h0 h1 h2 hn hp
  induction h3 with
  | nil => exact .nil
  | cons h _ ih => exact .cons h.1 ih

theorem dslCode_none {d : FnDecl} (hd : d.pyText = none) : ∀ {ds : List FnDecl}, d ∈ ds → dslCode ds = none
  | [], h => absurd h (by simp)
  | [e], h => by
    cases List.mem_singleton.mp h
    exact hd
  | e :: f :: ds, h => by
    rcases List.mem_cons.mp h with rfl | h
    · simp [dslCode, hd]
    · have := dslCode_none hd h
      simp only [dslCode, this]
      cases e.pyText <;> rfl

theorem paramTexts_none {p : String × Ty} (hp : p.2.pyText = none) : ∀ {ps : List (String × Ty)}, p ∈ ps → paramTexts ps = none
  | [], h => absurd h (by simp)
  | q :: ps, h => by
    rcases List.mem_cons.mp h with rfl | h
    · simp [paramTexts, paramText, hp]
    · simp only [paramTexts, paramTexts_none hp h]
      cases paramText q <;> rfl

/-- C65 is false for sets and tuples and for functions without body (uninterpreted functions): the text of a target language with such a function
raises. -/
theorem C65_types_refuted (ds : List FnDecl) (d : FnDecl) (hd : d ∈ ds)
    (h : d.body = none ∨ (∃ p ∈ d.params, (∃ t, p.2 = .set t) ∨ ∃ ts, p.2 = .tuple ts) ∨ (∃ t, d.ret = .set t) ∨ ∃ ts, d.ret = .tuple ts) :
    dslCode ds = none := by
  refine dslCode_none ?_ hd
  unfold FnDecl.pyText
  rcases h with h | ⟨p, hp, h⟩ | h
  · rw [h]
    cases paramTexts d.params <;> cases d.ret.pyText <;> rfl
  · have : p.2.pyText = none := by
      rcases h with ⟨t, h⟩ | ⟨ts, h⟩ <;> rw [h] <;> simp [Ty.pyText]
    rw [paramTexts_none this hp]
    rfl
  · have : d.ret.pyText = none := by
      rcases h with ⟨t, h⟩ | ⟨ts, h⟩ <;> rw [h] <;> simp [Ty.pyText]
    rw [this]
    cases paramTexts d.params <;> rfl

/-- Such a declaration: `def f(s: Set[int]) -> int`. -/
example : dslCode [⟨"f", .int, [("s", .set .int)], some (intLit 0), false⟩] = none :=
  C65_types_refuted _ _ (List.mem_singleton.mpr rfl) (.inr (.inl ⟨_, List.mem_singleton.mpr rfl, .inl ⟨_, rfl⟩⟩))

/-- C65 is false for three-dimensional tensors: the text of their type is `List[int]`. -/
theorem C65_tensor_type_refuted : ∃ s, (OTy.tensor3d .int).pyText = some s ∧ Py.ParsesTy s (.list .int) ∧
    irTy (.list .int) = some (.list .int) ∧ (OTy.tensor3d .int).toTy = .list (.list (.list .int)) := by
  refine ⟨_, rfl, ⟨3, fun f hf => ?_⟩, rfl, rfl⟩
  obtain ⟨g, rfl⟩ : ∃ g, f = g + 3 := ⟨f - 3, by omega⟩
  rfl

end Metalift
