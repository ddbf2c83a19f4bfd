import Verif.LlmSpec
/-
Proofs for C55: the translation of expressions and functions.
-/
namespace Metalift
namespace Llm
open Smt (OfTy OfTys)

/-! ### Declarations are only added -/

/-- `st'` has the declarations of `st`. -/
def Grows (st st' : St) : Prop := ∀ d ∈ st.decls, d ∈ st'.decls

theorem Grows.refl (st : St) : Grows st st := fun _ h => h
theorem Grows.trans {a b c : St} (h : Grows a b) (h' : Grows b c) : Grows a c := fun d hd => h' d (h d hd)

theorem lambdaName_decls (a : String) (d : FnDecl) (st : St) : (lambdaName a d st).2.decls = st.decls := by
  unfold lambdaName
  split <;> rfl

/-- The cases of `parseArg`. -/
theorem parseArg_cases {sigs : FnSigs} {f a : String} {n : Node} {ty : Option Ty} {st st' : St} {e : Expr} (h : parseArg sigs f n a ty st = some (e, st')) :
    (∃ ps body t r ts b st1 g, n = .lambda ps body t ∧ irTy t = some (.fn (r :: ts)) ∧ parse sigs body st = some (b, st1) ∧
      ty = some (.fn (r :: (ps.zip ts).map Prod.snd)) ∧ e = .var g (.fn (r :: (ps.zip ts).map Prod.snd)) ∧
      st'.decls = st1.decls ++ [{ name := g, ret := r, params := ps.zip ts, body := some b, recursive := true }]) ∨
    (∃ st1, parse sigs n st = some (e, st1) ∧ ty = some e.ty ∧ st'.decls = st1.decls) := by
  cases n with
  | lambda ps body t =>
    simp only [parseArg] at h
    split at h
    · rename_i r ts ht
      simp only [Option.bind_eq_bind, Option.bind_eq_some_iff] at h
      obtain ⟨⟨b, st1⟩, hb, h⟩ := h
      simp only at h
      split at h
      · rename_i hty
        simp only [Option.some.injEq, Prod.mk.injEq] at h
        obtain ⟨rfl, rfl⟩ := h
        exact .inl ⟨ps, body, t, r, ts, b, st1, _, rfl, ht, hb, hty, rfl, by simp [lambdaName_decls]⟩
      · cases h
    · cases h
  | _ =>
    right
    simp only [parseArg, Option.bind_eq_bind, Option.bind_eq_some_iff] at h
    obtain ⟨⟨e1, st1⟩, hp, h⟩ := h
    simp only at h
    split at h
    · rename_i hty
      split at h
      · simp only [Option.some.injEq, Prod.mk.injEq] at h
        obtain ⟨rfl, rfl⟩ := h
        exact ⟨st1, hp, hty, rfl⟩
      · simp only [Option.some.injEq, Prod.mk.injEq] at h
        obtain ⟨rfl, rfl⟩ := h
        exact ⟨st1, hp, hty, rfl⟩
    · cases h

theorem parseArg_grows {sigs : FnSigs} {f a : String} {n : Node} {ty : Option Ty} {st st' : St} {e : Expr} (h : parseArg sigs f n a ty st = some (e, st'))
    (ih : ∀ st e st', parse sigs n st = some (e, st') → Grows st st')
    (ih2 : ∀ ps b t, n = .lambda ps b t → ∀ st e st', parse sigs b st = some (e, st') → Grows st st') : Grows st st' := by
  rcases parseArg_cases h with ⟨ps, body, t, r, ts, b, st1, g, hn, -, hb, -, -, hd⟩ | ⟨st1, hp, -, hd⟩
  · intro d hm
    rw [hd]
    exact List.mem_append_left _ (ih2 ps body t hn _ _ _ hb d hm)
  · intro d hm
    rw [hd]
    exact ih _ _ _ hp d hm

theorem parseBound_cases {sigs : FnSigs} {n : Node} {st st' : St} {o : Option Expr} (h : parseBound sigs n st = some (o, st')) :
    (n = .absent ∧ o = none ∧ st' = st) ∨ (∃ e, o = some e ∧ parse sigs n st = some (e, st') ∧ n ≠ .absent) := by
  cases n with
  | absent => simp only [parseBound, Option.some.injEq, Prod.mk.injEq] at h; exact .inl ⟨rfl, h.1.symm, h.2.symm⟩
  | _ =>
    right
    simp only [parseBound, Option.map_eq_some_iff, Prod.mk.injEq] at h
    obtain ⟨⟨e, st1⟩, hp, rfl, rfl⟩ := h
    exact ⟨e, rfl, hp, by simp⟩

theorem parse_call_cases {sigs : FnSigs} {f : String} {args : List Node} {kws : List (Option String)} {t : MTy} {st st' : St} {e : Expr}
    (h : parse sigs (.call f args kws t) st = some (e, st')) :
    (f = "len" ∧ ∃ a e1, args = [a] ∧ parse sigs a st = some (e1, st') ∧ lenCall e1 = some e) ∨
    (f ≠ "len" ∧ ∃ s es, sigs.lookup f = some s ∧ args.length = s.args.length ∧ parseArgs sigs f args s.names s.args st = some (es, st') ∧
      irTy t = some s.ret ∧ e = mkCall f s.ret es) := by
  have second : ∀ (h : (do
        let s ← sigs.lookup f
        if args.length = s.args.length then
          let (es, st) ← parseArgs sigs f args s.names s.args st
          if irTy t = some s.ret then some (mkCall f s.ret es, st) else none
        else none) = some (e, st')),
      ∃ s es, sigs.lookup f = some s ∧ args.length = s.args.length ∧ parseArgs sigs f args s.names s.args st = some (es, st') ∧
        irTy t = some s.ret ∧ e = mkCall f s.ret es := by
    intro h
    simp only [Option.bind_eq_bind, Option.bind_eq_some_iff] at h
    obtain ⟨s, hs, h⟩ := h
    split at h
    · rename_i hl
      simp only [Option.bind_eq_some_iff] at h
      obtain ⟨⟨es, st1⟩, hp, h⟩ := h
      simp only at h
      split at h
      · rename_i ht
        simp only [Option.some.injEq, Prod.mk.injEq] at h
        obtain ⟨rfl, rfl⟩ := h
        exact ⟨s, es, hs, hl, hp, ht, rfl⟩
      · cases h
    · cases h
  by_cases hf : f = "len"
  · left
    by_cases ha : ∃ a, args = [a]
    · obtain ⟨a, rfl⟩ := ha
      rw [parse, if_pos hf] at h
      simp only [Option.bind_eq_bind, Option.bind_eq_some_iff] at h
      obtain ⟨⟨e1, st1⟩, hp, c, hc, h⟩ := h
      simp only [Option.some.injEq, Prod.mk.injEq] at h
      obtain ⟨rfl, rfl⟩ := h
      exact ⟨hf, a, e1, rfl, hp, hc⟩
    · rw [parse.eq_4 _ _ _ _ _ _ (fun a h => ha ⟨a, h⟩), if_pos hf] at h
      cases h
  · right
    by_cases ha : ∃ a, args = [a]
    · obtain ⟨a, rfl⟩ := ha
      rw [parse, if_neg hf] at h
      exact ⟨hf, second h⟩
    · rw [parse.eq_4 _ _ _ _ _ _ (fun a h => ha ⟨a, h⟩), if_neg hf] at h
      exact ⟨hf, second h⟩

theorem grows (sigs : FnSigs) (n : Node) : (∀ st e st', parse sigs n st = some (e, st') → Grows st st') ∧
    (∀ ps b t, n = .lambda ps b t → ∀ st e st', parse sigs b st = some (e, st') → Grows st st') := by
  induction n using Node.ind with
  | hint n => exact ⟨fun st e st' h => by simp only [parse, Option.some.injEq, Prod.mk.injEq] at h; rw [← h.2]; exact .refl _, by simp⟩
  | hname x t =>
    refine ⟨fun st e st' h => ?_, by simp⟩
    simp only [parse, Option.map_eq_some_iff, Prod.mk.injEq] at h
    obtain ⟨_, _, _, rfl⟩ := h
    exact .refl _
  | hcall f args kws t ih =>
    refine ⟨fun st e st' h => ?_, by simp⟩
    rcases parse_call_cases h with ⟨-, a, e1, rfl, hp, -⟩ | ⟨-, s, es, -, -, hp, -, -⟩
    · exact (ih a (by simp)).1 _ _ _ hp
    · have go : ∀ (args : List Node) (as : List String) (ts : List (Option Ty)) (st : St) (es : List Expr) (st' : St),
          (∀ a ∈ args, (∀ st e st', parse sigs a st = some (e, st') → Grows st st') ∧
            (∀ ps b t, a = .lambda ps b t → ∀ st e st', parse sigs b st = some (e, st') → Grows st st')) →
          parseArgs sigs f args as ts st = some (es, st') → Grows st st' := by
        intro args
        induction args with
        | nil =>
          intro as ts st es st' _ h
          simp only [parseArgs, Option.some.injEq, Prod.mk.injEq] at h
          rw [← h.2]; exact .refl _
        | cons a args ih' =>
          intro as ts st es st' hall h
          cases as with
          | nil => simp [parseArgs] at h
          | cons x as =>
            cases ts with
            | nil => simp [parseArgs] at h
            | cons ty ts =>
              simp only [parseArgs, Option.bind_eq_bind, Option.bind_eq_some_iff] at h
              obtain ⟨⟨e1, st1⟩, h1, ⟨es1, st2⟩, h2, h⟩ := h
              simp only [Option.some.injEq, Prod.mk.injEq] at h
              obtain ⟨-, rfl⟩ := h
              exact (parseArg_grows h1 (hall a (by simp)).1 (hall a (by simp)).2).trans
                (ih' as ts st1 es1 st2 (fun a ha => hall a (by simp [ha])) h2)
      exact go args s.names s.args st es st' ih hp
  | hop o l r il ir =>
    refine ⟨fun st e st' h => ?_, by simp⟩
    simp only [parse, Option.bind_eq_bind, Option.bind_eq_some_iff] at h
    obtain ⟨⟨e1, st1⟩, h1, ⟨e2, st2⟩, h2, c, -, h⟩ := h
    simp only [Option.some.injEq, Prod.mk.injEq] at h
    obtain ⟨-, rfl⟩ := h
    exact (il.1 _ _ _ h1).trans (ir.1 _ _ _ h2)
  | hun o e ie =>
    refine ⟨fun st e st' h => ?_, by simp⟩
    simp only [parse] at h
    split at h
    · simp only [Option.bind_eq_bind, Option.bind_eq_some_iff] at h
      obtain ⟨⟨e1, st1⟩, h1, h⟩ := h
      simp only at h
      split at h
      · simp only [Option.some.injEq, Prod.mk.injEq] at h
        obtain ⟨-, rfl⟩ := h
        exact ie.1 _ _ _ h1
      · cases h
    · cases h
  | hlist es t ih =>
    refine ⟨fun st e st' h => ?_, by simp⟩
    simp only [parse] at h
    split at h
    · simp only [Option.some.injEq, Prod.mk.injEq] at h
      obtain ⟨-, rfl⟩ := h
      exact .refl _
    · cases h
  | hcond c a b ic ia ib =>
    refine ⟨fun st e st' h => ?_, by simp⟩
    simp only [parse, Option.bind_eq_bind, Option.bind_eq_some_iff] at h
    obtain ⟨⟨e1, st1⟩, h1, ⟨e2, st2⟩, h2, ⟨e3, st3⟩, h3, c, -, h⟩ := h
    simp only [Option.some.injEq, Prod.mk.injEq] at h
    obtain ⟨-, rfl⟩ := h
    exact ((ic.1 _ _ _ h1).trans (ia.1 _ _ _ h2)).trans (ib.1 _ _ _ h3)
  | hcmp os es ih =>
    refine ⟨fun st e st' h => ?_, by simp⟩
    simp only [parse, Option.bind_eq_bind, Option.bind_eq_some_iff] at h
    obtain ⟨⟨cs, st1⟩, h1, h⟩ := h
    have go : ∀ (os : List String) (es : List Node) (st : St) (cs : List Expr) (st' : St),
        (∀ a ∈ es, ∀ st e st', parse sigs a st = some (e, st') → Grows st st') → parseClauses sigs os es st = some (cs, st') → Grows st st' := by
      intro os
      induction os with
      | nil =>
        intro es st cs st' _ h
        simp only [parseClauses, Option.some.injEq, Prod.mk.injEq] at h
        rw [← h.2]; exact .refl _
      | cons o os ih' =>
        intro es st cs st' hall h
        cases es with
        | nil => simp [parseClauses] at h
        | cons a es =>
          cases es with
          | nil => simp [parseClauses] at h
          | cons b es =>
            simp only [parseClauses, Option.bind_eq_bind, Option.bind_eq_some_iff] at h
            obtain ⟨⟨e1, st1⟩, h1, ⟨e2, st2⟩, h2, c, -, ⟨cs1, st3⟩, h3, h⟩ := h
            simp only [Option.some.injEq, Prod.mk.injEq] at h
            obtain ⟨-, rfl⟩ := h
            exact ((hall a (by simp) _ _ _ h1).trans (hall b (by simp) _ _ _ h2)).trans
              (ih' (b :: es) st2 cs1 st3 (fun x hx => hall x (List.mem_cons_of_mem _ hx)) h3)
    have hg := go os es st cs st1 (fun a ha => (ih a ha).1) h1
    simp only at h
    split at h
    · simp only [Option.some.injEq, Prod.mk.injEq] at h
      obtain ⟨-, rfl⟩ := h
      exact hg
    · cases h
    · simp only [Option.some.injEq, Prod.mk.injEq] at h
      obtain ⟨-, rfl⟩ := h
      exact hg
  | hidx b i ib ii =>
    refine ⟨fun st e st' h => ?_, by simp⟩
    simp only [parse, Option.bind_eq_bind, Option.bind_eq_some_iff] at h
    obtain ⟨⟨e1, st1⟩, h1, h⟩ := h
    simp only at h
    split at h
    · cases h
    · simp only [Option.bind_eq_some_iff] at h
      obtain ⟨⟨e2, st2⟩, h2, c, -, h⟩ := h
      simp only [Option.some.injEq, Prod.mk.injEq] at h
      obtain ⟨-, rfl⟩ := h
      exact (ib.1 _ _ _ h1).trans (ii.1 _ _ _ h2)
  | hsl b lo hi st ib il ih is =>
    refine ⟨fun st e st' h => ?_, by simp⟩
    simp only [parse, Option.bind_eq_bind, Option.bind_eq_some_iff] at h
    obtain ⟨⟨e1, st1⟩, h1, h⟩ := h
    simp only at h
    split at h
    · cases h
    · simp only [Option.bind_eq_some_iff] at h
      obtain ⟨⟨e2, st2⟩, h2, ⟨e3, st3⟩, h3, c, -, h⟩ := h
      simp only [Option.some.injEq, Prod.mk.injEq] at h
      obtain ⟨-, rfl⟩ := h
      have g2 : Grows st1 st2 := by
        rcases parseBound_cases h2 with ⟨-, -, rfl⟩ | ⟨e, -, hp, -⟩
        · exact .refl _
        · exact il.1 _ _ _ hp
      have g3 : Grows st2 st3 := by
        rcases parseBound_cases h3 with ⟨-, -, rfl⟩ | ⟨e, -, hp, -⟩
        · exact .refl _
        · exact ih.1 _ _ _ hp
      exact ((ib.1 _ _ _ h1).trans g2).trans g3
  | hlam ps b t ib =>
    refine ⟨fun st e st' h => by simp [parse] at h, fun ps' b' t' hn => ?_⟩
    cases hn
    exact ib.1
  | hab => exact ⟨fun st e st' h => by simp [parse] at h, by simp⟩
  | hot => exact ⟨fun st e st' h => by simp [parse] at h, by simp⟩

/-! ### Expressions -/

/-- The conditions on an expression: `stF` has all functions. -/
structure Ctx (I : Interp) (sigs : FnSigs) (G : Globals) (n : Node) (stF : St) (ρ : Locals) (ρ' : Env) : Prop where
  plain : plain n = true
  decls : ∀ d ∈ stF.decls, DeclHolds I d ∧ BodyTyped d ∧ ρ' d.name = .fn d.name ∧ d.name ∉ lamParams n
  callees : ∀ f ∈ callees n, ρ f = none ∧ AgreesAt I sigs G f
  names : ∀ p ∈ names n, ∀ t, irTy p.2 = some t → ∀ pv, pyName G ρ p.1 = some pv → Rel I t pv (ρ' p.1)

theorem Ctx.sub {I : Interp} {sigs : FnSigs} {G : Globals} {n m : Node} {stF : St} {ρ : Locals} {ρ' : Env} (h : Ctx I sigs G n stF ρ ρ') (hp : Llm.plain m = true)
    (hl : ∀ x ∈ lamParams m, x ∈ lamParams n) (hc : ∀ x ∈ Llm.callees m, x ∈ Llm.callees n) (hn : ∀ x ∈ Llm.names m, x ∈ Llm.names n) :
    Ctx I sigs G m stF ρ ρ' :=
  ⟨hp, fun d hd => ⟨(h.decls d hd).1, (h.decls d hd).2.1, (h.decls d hd).2.2.1, fun hm => (h.decls d hd).2.2.2 (hl _ hm)⟩,
    fun f hf => h.callees f (hc f hf), fun p hp => h.names p (hn p hp)⟩

theorem mem_namess {ns : List Node} {n : Node} (h : n ∈ ns) : ∀ x ∈ names n, x ∈ namess ns := by
  induction ns with
  | nil => cases h
  | cons m ns ih =>
    intro x hx
    simp only [namess, List.mem_append]
    rcases List.mem_cons.1 h with rfl | h
    · exact .inl hx
    · exact .inr (ih h x hx)

theorem mem_calleess {ns : List Node} {n : Node} (h : n ∈ ns) : ∀ x ∈ callees n, x ∈ calleess ns := by
  induction ns with
  | nil => cases h
  | cons m ns ih =>
    intro x hx
    simp only [calleess, List.mem_append]
    rcases List.mem_cons.1 h with rfl | h
    · exact .inl hx
    · exact .inr (ih h x hx)

theorem mem_lamParamss {ns : List Node} {n : Node} (h : n ∈ ns) : ∀ x ∈ lamParams n, x ∈ lamParamss ns := by
  induction ns with
  | nil => cases h
  | cons m ns ih =>
    intro x hx
    simp only [lamParamss, List.mem_append]
    rcases List.mem_cons.1 h with rfl | h
    · exact .inl hx
    · exact .inr (ih h x hx)

theorem plains_mem {ns : List Node} (hp : plains ns = true) {n : Node} (h : n ∈ ns) : plain n = true := by
  induction ns with
  | nil => cases h
  | cons m ns ih =>
    simp only [plains, Bool.and_eq_true] at hp
    rcases List.mem_cons.1 h with rfl | h
    · exact hp.1
    · exact ih hp.2 h

theorem mem_namess_iff {ns : List Node} {x : String × MTy} : x ∈ namess ns ↔ ∃ n ∈ ns, x ∈ names n := by
  induction ns with
  | nil => simp [namess]
  | cons m ns ih => simp [namess, ih]

/-- Names of plain expressions are not `True` or `False`. -/
theorem plain_names (n : Node) : plain n = true → ∀ p ∈ names n, p.1 ≠ "True" ∧ p.1 ≠ "False" := by
  induction n using Node.ind with
  | hint n => intro _ p hp; simp [names] at hp
  | hname x t =>
    intro h p hp
    simp only [names, List.mem_singleton] at hp
    subst hp
    simpa [plain] using h
  | hcall f args kws t ih =>
    intro h p hp
    simp only [plain, Bool.and_eq_true] at h
    simp only [names, mem_namess_iff] at hp
    obtain ⟨a, ha, hp⟩ := hp
    exact ih a ha (plains_mem h.1.1 ha) p hp
  | hop o l r il ir =>
    intro h p hp
    simp only [plain, Bool.and_eq_true] at h
    simp only [names, List.mem_append] at hp
    exact hp.elim (il h.1.2 p) (ir h.2 p)
  | hun o e ie => intro h p hp; exact ie (by simpa [plain] using h) p (by simpa [names] using hp)
  | hlist es t ih =>
    intro h p hp
    simp only [plain, List.isEmpty_iff] at h
    subst h
    simp [names, namess] at hp
  | hcond c a b ic ia ib =>
    intro h p hp
    simp only [plain, Bool.and_eq_true] at h
    simp only [names, List.mem_append] at hp
    exact hp.elim (ic h.1.1 p) (fun h' => h'.elim (ia h.1.2 p) (ib h.2 p))
  | hcmp os es ih =>
    intro h p hp
    simp only [plain] at h
    simp only [names, mem_namess_iff] at hp
    obtain ⟨a, ha, hp⟩ := hp
    exact ih a ha (plains_mem h ha) p hp
  | hidx b i ib ii =>
    intro h p hp
    simp only [plain, Bool.and_eq_true] at h
    simp only [names, List.mem_append] at hp
    exact hp.elim (ib h.1 p) (ii h.2 p)
  | hsl b lo hi st ib il ih is =>
    intro h p hp
    simp only [plain, Bool.and_eq_true] at h
    simp only [names, List.mem_append] at hp
    rcases hp with hp | hp | hp | hp
    · exact ib h.1.1.1 p hp
    · exact il h.1.1.2 p hp
    · exact ih h.1.2 p hp
    · cases st <;> simp at h
      simp [names] at hp
  | hlam ps b t ib => intro _ p hp; simp [names] at hp
  | hab => intro _ p hp; simp [names] at hp
  | hot => intro _ p hp; simp [names] at hp

theorem irTy_fn {t : MTy} {r : Ty} {ts : List Ty} (h : irTy t = some (.fn (r :: ts))) : irTys t.args = some ts := by
  cases t with
  | callable mr ms =>
    simp only [irTy, Option.bind_eq_bind, Option.bind_eq_some_iff, Option.some.injEq, Ty.fn.injEq, List.cons.injEq] at h
    obtain ⟨_, _, ts', h, -, rfl⟩ := h
    exact h
  | list t => simp [irTy, Option.map_eq_some_iff] at h
  | _ => simp [irTy] at h

theorem bind_none {ρ : Locals} {x : String} (h : ρ x = none) : ∀ {ps : List String} {vs : List PV}, x ∉ ps → Locals.bind ρ ps vs x = none := by
  intro ps
  induction ps with
  | nil => intro vs _; simpa [Locals.bind] using h
  | cons p ps ih =>
    intro vs hx
    cases vs with
    | nil => simpa [Locals.bind] using h
    | cons v vs =>
      simp only [List.mem_cons, not_or] at hx
      simp only [Locals.bind, if_neg hx.1]
      exact ih hx.2

theorem fnEnv_out {x : String} {ps : List String} {vs : List Val} (h : x ∉ ps) : fnEnv ps vs x = .fn x := by
  have : (ps.zip vs).lookup x = none := by
    rw [List.lookup_eq_none_iff]
    intro p hp
    have := (List.of_mem_zip hp).1
    simp only [ne_eq, bne_iff_ne]
    rintro rfl
    exact h this
  simp [fnEnv, this]

theorem ofTys_length : ∀ {ts : List Ty} {vs : List Val}, OfTys ts vs → vs.length = ts.length
  | [], [], _ => rfl
  | [], _ :: _, h => by simp [OfTys] at h
  | _ :: _, [], h => by simp [OfTys] at h
  | t :: ts, v :: vs, h => by simp only [OfTys] at h; simp [ofTys_length h.2]

/-- Bound parameters have the values and types of the arguments. -/
theorem bound_rel {ρ : Locals} : ∀ (ps : List String) (vs : List Val) (ms : List MTy) (ts : List Ty), irTys ms = some ts →
    OfTys ((ps.zip ts).map Prod.snd) vs → vs.length = ps.length → ∀ x m t, (ps.zip ms).lookup x = some m → irTy m = some t →
    ∃ a, Locals.bind ρ ps (vs.map .v) x = some (.v a) ∧ fnEnv ps vs x = a ∧ OfTy t a := by
  intro ps
  induction ps with
  | nil => intro vs ms ts _ _ _ x m t h; simp at h
  | cons p ps ih =>
    intro vs ms ts hts hvs hl x m t hx hm
    cases ms with
    | nil => simp at hx
    | cons m0 ms =>
      simp only [irTys, Option.bind_eq_bind, Option.bind_eq_some_iff, Option.some.injEq] at hts
      obtain ⟨t0, ht0, ts', hts', rfl⟩ := hts
      cases vs with
      | nil => simp at hl
      | cons v vs =>
        simp only [List.zip_cons_cons, List.map_cons, OfTys] at hvs
        simp only [List.zip_cons_cons, List.lookup_cons] at hx
        by_cases he : x = p
        · subst he
          simp only [beq_self_eq_true, Option.some.injEq] at hx
          subst hx
          rw [ht0] at hm
          cases hm
          exact ⟨v, by simp [Locals.bind], by simp [fnEnv], hvs.1⟩
        · have hb : (x == p) = false := by simpa using he
          rw [hb] at hx
          obtain ⟨a, h1, h2, h3⟩ := ih vs ms ts' hts' hvs.2 (by simpa using hl) x m t hx hm
          refine ⟨a, by simpa [Locals.bind, he] using h1, ?_, h3⟩
          simpa [fnEnv, List.lookup_cons, hb] using h2

theorem zip_fst {α β : Type} : ∀ {as : List α} {bs : List β}, as.length ≤ bs.length → (as.zip bs).map Prod.fst = as
  | [], _, _ => by simp
  | a :: as, [], h => by simp at h
  | a :: as, b :: bs, h => by simp [zip_fst (by simpa using h)]

theorem rel_int {I : Interp} {pv : PV} {v : Val} {t : Ty} (ht : t = .int) (h : Rel I t pv v) : ∃ i, pv = .v (.int i) ∧ v = .int i := by
  subst ht
  cases pv with
  | v a =>
    obtain ⟨rfl, h⟩ := h
    simp only [OfTy] at h
    obtain ⟨i, rfl⟩ := h
    exact ⟨i, rfl, rfl⟩
  | f c => obtain ⟨_, _, h, _⟩ := h; cases h
  | q r => exact h.elim

theorem rel_bool {I : Interp} {pv : PV} {v : Val} {t : Ty} (ht : t = .bool) (h : Rel I t pv v) : ∃ i, pv = .v (.bool i) ∧ v = .bool i := by
  subst ht
  cases pv with
  | v a =>
    obtain ⟨rfl, h⟩ := h
    simp only [OfTy] at h
    obtain ⟨i, rfl⟩ := h
    exact ⟨i, rfl, rfl⟩
  | f c => obtain ⟨_, _, h, _⟩ := h; cases h
  | q r => exact h.elim

theorem rel_list {I : Interp} {pv : PV} {v : Val} {t t' : Ty} (ht : t = .list t') (h : Rel I t pv v) :
    ∃ vs, pv = .v (.list vs) ∧ v = .list vs ∧ ∀ w ∈ vs, OfTy t' w := by
  subst ht
  cases pv with
  | v a =>
    obtain ⟨rfl, h⟩ := h
    simp only [OfTy] at h
    obtain ⟨vs, rfl, h⟩ := h
    exact ⟨vs, rfl, rfl, h⟩
  | f c => obtain ⟨_, _, h, _⟩ := h; cases h
  | q r => exact h.elim

/-- A lambda expression: from its body to the argument. -/
theorem arg_sound {I : Interp} (hB : Builtin I) {sigs : FnSigs} {G : Globals} {stF : St} (n : Node)
    (ih : ∀ st e st' ρ ρ' pv, parse sigs n st = some (e, st') → Grows st' stF → Ctx I sigs G n stF ρ ρ' → pyEval true G ρ n = some pv →
      Rel I e.ty pv (eval I ρ' e))
    (ih2 : ∀ ps b t, n = .lambda ps b t → ∀ st e st' ρ ρ' pv, parse sigs b st = some (e, st') → Grows st' stF → Ctx I sigs G b stF ρ ρ' →
      pyEval true G ρ b = some pv → Rel I e.ty pv (eval I ρ' e))
    {f a : String} {ty : Option Ty} {st st' : St} {e : Expr} {ρ : Locals} {ρ' : Env} {pv : PV}
    (h : parseArg sigs f n a ty st = some (e, st')) (hg : Grows st' stF) (hc : Ctx I sigs G n stF ρ ρ') (hv : pyEval true G ρ n = some pv) :
    ∃ t, ty = some t ∧ Rel I t pv (eval I ρ' e) := by
  rcases parseArg_cases h with ⟨ps, body, t, r, ts, b, st1, g, rfl, ht, hb, hty, rfl, hd⟩ | ⟨st1, hp, hty, hd⟩
  · refine ⟨_, hty, ?_⟩
    have hmem := hg _ (show (⟨g, r, ps.zip ts, some b, true⟩ : FnDecl) ∈ st'.decls by rw [hd]; simp)
    obtain ⟨hH, hT, hN, hL⟩ := hc.decls _ hmem
    simp only [pyEval, Option.some.injEq] at hv
    subst hv
    refine ⟨r, _, rfl, ?_⟩
    intro vs hvs w hw
    dsimp only at hw
    split at hw
    · rename_i hlen
      simp only [Option.bind_eq_some_iff] at hw
      obtain ⟨pv, hpv, hw⟩ := hw
      have hl := ofTys_length hvs
      simp only [List.length_map, List.length_zip] at hl
      have hps : (ps.zip ts).map Prod.fst = ps := zip_fst (by omega)
      have he := hH vs hvs b rfl
      simp only at he hN
      rw [hps] at he
      have hpl := hc.plain
      simp only [plain, Bool.and_eq_true, closedIn, List.all_eq_true, decide_eq_true_eq, Bool.not_eq_true'] at hpl
      obtain ⟨⟨⟨p1, p2⟩, p3⟩, -⟩ := hpl
      have hrel := ih2 ps body t rfl st b st1 (ρ.bind ps (vs.map .v)) (fnEnv ps vs) pv hb
        (fun d hd' => hg d (by rw [hd]; exact List.mem_append_left _ hd')) ⟨p1, ?_, ?_, ?_⟩ hpv
      · simp only [eval, hN, hB.apply]
        rw [he]
        cases pv with
        | v a =>
          simp only [PV.data?, Option.some.injEq] at hw
          subst hw
          have : b.ty = r := hT b rfl
          rw [this] at hrel
          exact ⟨hrel.1.symm, hrel.2⟩
        | f c => simp [PV.data?] at hw
        | q c => simp [PV.data?] at hw
      · intro d hd'
        obtain ⟨q1, q2, q3, q4⟩ := hc.decls d hd'
        simp only [lamParams, List.mem_append, not_or] at q4
        exact ⟨q1, q2, fnEnv_out q4.1, q4.2⟩
      · intro f hf
        have hf' := hc.callees f (by simpa [callees] using hf)
        exact ⟨bind_none hf'.1 (by simpa using p3 f hf), hf'.2⟩
      · intro p hp t' ht' pv' hpv'
        have hcl := p2 p hp
        rw [ht'] at hcl
        simp only [Option.map_eq_some_iff] at hcl
        obtain ⟨m, hm, hmt⟩ := hcl
        obtain ⟨x, h1, h2, h3⟩ := bound_rel (ρ := ρ) ps vs t.args ts (irTy_fn ht) hvs hlen p.1 m t' hm hmt
        obtain ⟨n1, n2⟩ := plain_names body p1 p hp
        simp only [pyName, n1, n2, if_false, h1, Option.orElse_some, Option.some.injEq] at hpv'
        subst hpv'
        exact ⟨h2.symm, h3⟩
    · cases hw
  · exact ⟨e.ty, hty, ih _ _ _ _ _ _ hp (fun d hd' => hg d (by rw [hd]; exact hd')) hc hv⟩

set_option linter.unusedSimpArgs false
/-! ### Operators -/

theorem flatList_inv {t : Ty} (h : flatList t = true) : ∃ t', t = .list t' := by
  cases t <;> simp [flatList] at h
  exact ⟨_, rfl⟩

theorem binary_sound {I : Interp} (hB : Builtin I) {ρ' : Env} {o : String} {l r e : Expr} {p q pv : PV} (ho : o ≠ "/") (h : binary o l r = some e)
    (hl : Rel I l.ty p (eval I ρ' l)) (hr : Rel I r.ty q (eval I ρ' r)) (hv : pyBin true o p q = some pv) : Rel I e.ty pv (eval I ρ' e) := by
  unfold binary at h
  split at h
  · rename_i ht
    obtain ⟨a, rfl, ea⟩ := rel_int ht.1 hl
    obtain ⟨b, rfl, eb⟩ := rel_int ht.2 hr
    simp only [pyBin] at hv
    split at h
    · rename_i h1
      subst h1
      simp only [if_true, Option.some.injEq] at h hv
      subst h hv
      refine ⟨?_, _, rfl⟩
      simp [eval, evals, evalOp, ea, eb, Val.asInt]
    · rename_i h1
      split at h
      · rename_i h2
        subst h2
        rw [if_neg (by decide), if_pos rfl] at hv
        simp only [Option.some.injEq] at h hv
        subst h hv
        refine ⟨?_, _, rfl⟩
        simp [eval, evals, evalOp, ea, eb, Val.asInt]
      · rename_i h2
        split at h
        · rename_i h3
          subst h3
          rw [if_neg (by decide), if_neg (by decide), if_pos rfl] at hv
          simp only [Option.some.injEq] at h hv
          subst h hv
          refine ⟨?_, _, rfl⟩
          simp [eval, evals, evalOp, ea, eb, Val.asInt]
        · rename_i h3
          rw [if_neg h1, if_neg h2, if_neg h3] at hv
          split at hv
          · cases hv
          · rename_i hg
            have hg' : 0 ≤ a ∧ 0 < b := by
              by_contra hn
              exact hg (.inr ⟨trivial, hn⟩)
            split at h
            · rename_i h4
              have h4 : o = "//" := h4.resolve_right ho
              subst h4
              simp only [if_true, Option.some.injEq] at h hv
              subst h hv
              refine ⟨?_, _, rfl⟩
              simp only [eval, evals, evalOp, ea, eb, Val.asInt, hB.idiv a b hg'.1 hg'.2]
              rw [Int.fdiv_eq_ediv_of_nonneg a (le_of_lt hg'.2)]
            · rename_i h4
              split at h
              · rename_i h5
                subst h5
                rw [if_neg (by decide), if_pos rfl] at hv
                simp only [Option.some.injEq] at h hv
                subst h hv
                refine ⟨?_, _, rfl⟩
                simp only [eval, evals, evalOp, ea, eb, Val.asInt, hB.imod a b hg'.1 hg'.2]
                rw [Int.fmod_eq_emod_of_nonneg a (le_of_lt hg'.2)]
              · cases h
  · split at h
    · rename_i ht
      obtain ⟨t1, ht1⟩ := flatList_inv ht.1
      obtain ⟨t2, ht2⟩ := flatList_inv ht.2
      obtain ⟨us, rfl, ea, -⟩ := rel_list ht1 hl
      obtain ⟨vs, rfl, eb, -⟩ := rel_list ht2 hr
      split at h
      · rename_i h1
        subst h1
        simp only [pyBin, if_true, true_and] at hv
        split at hv
        · cases hv
        · rename_i hi
          simp only [Option.some.injEq] at h hv
          subst h hv
          refine ⟨?_, _, rfl, ?_⟩
          · simp only [mkCall, eval, evals, evalOp, ea, eb, hB.lists.concat]
          · intro w hw
            simp only [not_not, List.all_eq_true] at hi
            have := hi w hw
            cases w <;> simp at this
            exact ⟨_, rfl⟩
      · cases h
    · split at h
      · rename_i ht
        obtain ⟨a, rfl, -⟩ := rel_bool ht.1 hl
        simp [pyBin] at hv
      · cases h

theorem comparison_sound {I : Interp} {ρ' : Env} {o : String} {l r e : Expr} {p q : PV} {b : Bool} (h : comparison o l r = some e)
    (hl : Rel I l.ty p (eval I ρ' l)) (hr : Rel I r.ty q (eval I ρ' r)) (hv : pyCmp o p q = some b) : e.ty = .bool ∧ eval I ρ' e = .bool b := by
  have data : ∀ {t : Ty} {p : PV} {v : Val}, Rel I t p v → (∃ c, p = .f c) ∨ p = .v v := by
    intro t p v hp
    cases p with
    | v a => exact .inr (by rw [hp.1])
    | f c => exact .inl ⟨c, rfl⟩
    | q x => exact hp.elim
  have hp : p = .v (eval I ρ' l) := by
    rcases data hl with ⟨c, rfl⟩ | h'
    · simp [pyCmp, PV.num?] at hv
    · exact h'
  have hq : q = .v (eval I ρ' r) := by
    rcases data hr with ⟨c, rfl⟩ | h'
    · subst hp
      generalize eval I ρ' l = v at hv
      cases v <;> simp [pyCmp, PV.num?] at hv
    · exact h'
  unfold comparison at h
  split at h
  · rename_i h1
    subst h1
    split at h
    · simp only [Option.some.injEq] at h
      subst h
      refine ⟨rfl, ?_⟩
      subst hp hq
      simp only [mkEq, eval, evals, evalOp]
      generalize eval I ρ' l = v at hv
      generalize eval I ρ' r = w at hv
      cases v <;> cases w <;> simp [pyCmp, PV.num?] at hv <;> subst hv <;> simp
    · cases h
  · rename_i h1
    split at h
    · rename_i ht
      obtain ⟨x, hx, ex⟩ := rel_int ht.1 hl
      obtain ⟨y, hy, ey⟩ := rel_int ht.2 hr
      subst hx hy
      simp only [pyCmp, PV.num?, Option.bind_eq_bind, Option.bind_some, if_neg h1] at hv
      split at h
      · rename_i h2
        subst h2
        simp at hv h
        subst h hv
        exact ⟨rfl, by simp only [eval, evals, evalOp, ex, ey, Val.asInt, Val.bool.injEq]; exact decide_eq_decide.2 (by simp [Rat.intCast_lt_intCast, Rat.intCast_le_intCast])⟩
      · split at h
        · rename_i h2
          subst h2
          simp at hv h
          subst h hv
          exact ⟨rfl, by simp only [eval, evals, evalOp, ex, ey, Val.asInt, Val.bool.injEq]; exact decide_eq_decide.2 (by simp [Rat.intCast_lt_intCast, Rat.intCast_le_intCast])⟩
        · split at h
          · rename_i h2
            subst h2
            simp at hv h
            subst h hv
            exact ⟨rfl, by simp only [eval, evals, evalOp, ex, ey, Val.asInt, Val.bool.injEq]; exact decide_eq_decide.2 (by simp [Rat.intCast_lt_intCast, Rat.intCast_le_intCast])⟩
          · split at h
            · rename_i h2
              subst h2
              simp at hv h
              subst h hv
              exact ⟨rfl, by simp only [eval, evals, evalOp, ex, ey, Val.asInt, Val.bool.injEq]; exact decide_eq_decide.2 (by simp [Rat.intCast_lt_intCast, Rat.intCast_le_intCast])⟩
            · split at h
              · rename_i h2
                subst h2
                simp at hv h
                subst h
                exact ⟨rfl, by simp [mkNot, mkEq, eval, evals, evalOp, ex, ey, Val.asBool, hv]⟩
              · cases h
    · cases h

theorem getAt_sound {I : Interp} (hB : Builtin I) {ρ' : Env} {b i e : Expr} {vs : List Val} {j : Int} {w : Val} (h : getAt b i = some e)
    (hb : Rel I b.ty (.v (.list vs)) (eval I ρ' b)) (hi : eval I ρ' i = .int j) (hv : pyAt true vs j = some w) : Rel I e.ty (.v w) (eval I ρ' e) := by
  unfold getAt at h
  split at h
  · rename_i t ht
    simp only [Option.some.injEq] at h
    subst h
    obtain ⟨us, h1, eb, hu⟩ := rel_list ht hb
    cases h1
    simp only [pyAt] at hv
    split at hv
    · rename_i h0
      refine ⟨?_, hu w (List.mem_of_getElem? hv)⟩
      simp only [mkCall, eval, evals, evalOp, eb, hi]
      split
      · exact (hB.lists.matrix.get vs j w h0 hv).symm
      · exact (hB.lists.list.get vs j w h0 hv).symm
    · simp at hv
  · cases h

theorem getSlice_sound {I : Interp} (hB : Builtin I) {ρ' : Env} {b e : Expr} {vs ws : List Val} {ol oh : Option Expr} {lo hi : Option Int}
    (h : getSlice b ol oh = some e) (hb : Rel I b.ty (.v (.list vs)) (eval I ρ' b)) (hl : ol.map (eval I ρ') = lo.map Val.int)
    (hh : oh.map (eval I ρ') = hi.map Val.int) (hv : pySlice true vs lo hi none = some ws) : Rel I e.ty (.v (.list ws)) (eval I ρ' e) := by
  simp only [pySlice] at hv
  split at hv
  · cases hv
  · rename_i hg
    simp only [true_and, not_not] at hg
    rw [if_neg (by simp)] at hv
    simp only [Option.getD_none, if_true, Option.some.injEq] at hv
    obtain ⟨g1, g2, g3⟩ := hg
    have c1 : clamp vs.length (lo.getD 0) = (lo.getD 0).toNat := by
      simp only [clamp]; split <;> omega
    have c2 : clamp vs.length (hi.getD vs.length) = (hi.getD vs.length).toNat := by
      simp only [clamp]; split <;> omega
    rw [c1, c2] at hv
    unfold getSlice at h
    split at h
    · rename_i t ht
      obtain ⟨us, h1, eb, hu⟩ := rel_list ht hb
      cases h1
      have hws : ∀ w ∈ ws, OfTy t w := by
        intro w hw
        rw [← hv] at hw
        exact hu w (List.mem_of_mem_take (List.mem_of_mem_drop hw))
      have hty : OfTy b.ty (.list ws) := by rw [ht]; exact ⟨ws, rfl, hws⟩
      split at h
      · rename_i eh
        simp only [Option.some.injEq] at h
        subst h
        cases hi with
        | none => simp at hh
        | some y =>
          cases lo with
          | some _ => simp at hl
          | none =>
            simp only [Option.map_some, Option.some.injEq] at hh
            simp only [Option.getD_some, Option.getD_none, Int.toNat_zero, List.drop_zero] at hv g1 g2 g3
            refine ⟨?_, hty⟩
            simp only [mkCall, eval, evals, evalOp, eb, hh, ← hv]
            split
            · exact (hB.lists.matrix.take vs y (by omega) (by omega)).symm
            · exact (hB.lists.list.take vs y (by omega) (by omega)).symm
      · rename_i el
        simp only [Option.some.injEq] at h
        subst h
        cases lo with
        | none => simp at hl
        | some x =>
          cases hi with
          | some _ => simp at hh
          | none =>
            simp only [Option.map_some, Option.some.injEq] at hl
            simp only [Option.getD_some, Option.getD_none, Int.toNat_natCast, List.take_length] at hv g1 g2 g3
            refine ⟨?_, hty⟩
            simp only [mkCall, eval, evals, evalOp, eb, hl, ← hv]
            split
            · exact (hB.lists.matrix.tail vs x (by omega) (by omega)).symm
            · exact (hB.lists.list.tail vs x (by omega) (by omega)).symm
      · rename_i el eh
        simp only [Option.some.injEq] at h
        subst h
        cases lo with
        | none => simp at hl
        | some x =>
          cases hi with
          | none => simp at hh
          | some y =>
            simp only [Option.map_some, Option.some.injEq] at hl hh
            simp only [Option.getD_some] at hv g1 g2 g3
            refine ⟨?_, hty⟩
            simp only [mkCall, eval, evals, evalOp, eb, hl, hh, ← hv]
            split
            · exact (hB.lists.matrix.slice vs x y (by omega) (by omega) (by omega)).symm
            · exact (hB.lists.list.slice vs x y (by omega) (by omega) (by omega)).symm
      · cases h
    · cases h

theorem obind {α β : Type} {x : Option α} {f : α → Option β} {b : β} : x.bind f = some b ↔ ∃ a, x = some a ∧ f a = some b := Option.bind_eq_some_iff

theorem bindArgs_none (names : List String) : ∀ {kws : List (Option String)} {vs : List PV}, kws.all Option.isNone = true → kws.length = vs.length →
    bindArgs names kws vs = some vs := by
  intro kws vs h hl
  have h1 : ∀ (kws : List (Option String)) (vs : List PV), kws.all Option.isNone = true → kws.length = vs.length →
      (kws.zip vs).takeWhile (fun p => p.1.isNone) = kws.zip vs ∧ (kws.zip vs).dropWhile (fun p => p.1.isNone) = [] ∧ (kws.zip vs).map Prod.snd = vs := by
    intro kws
    induction kws with
    | nil => intro vs _ hl; cases vs <;> simp at hl ⊢
    | cons k ks ih =>
      intro vs h hl
      cases vs with
      | nil => simp at hl
      | cons v vs =>
        simp only [List.all_cons, Bool.and_eq_true] at h
        obtain ⟨i1, i2, i3⟩ := ih vs h.2 (by simpa using hl)
        simp [List.takeWhile_cons, List.dropWhile_cons, h.1, i1, i2, i3]
  obtain ⟨i1, i2, i3⟩ := h1 kws vs h hl
  simp [bindArgs, i1, i2, i3]

theorem pyEvals_length {s : Bool} {G : Globals} {ρ : Locals} : ∀ {ns : List Node} {vs : List PV}, pyEvals s G ρ ns = some vs → vs.length = ns.length := by
  intro ns
  induction ns with
  | nil => intro vs h; simp only [pyEvals, Option.some.injEq] at h; subst h; rfl
  | cons n ns ih =>
    intro vs h
    simp only [pyEvals, Option.bind_eq_bind, Option.bind_eq_some_iff, Option.some.injEq] at h
    obtain ⟨v, -, ws, hw, rfl⟩ := h
    simp [ih hw]

theorem parseArgs_grows (sigs : FnSigs) (f : String) : ∀ (args : List Node) (as : List String) (ts : List (Option Ty)) (st : St) (es : List Expr) (st' : St),
    parseArgs sigs f args as ts st = some (es, st') → Grows st st' := by
  intro args
  induction args with
  | nil =>
    intro as ts st es st' h
    simp only [parseArgs, Option.some.injEq, Prod.mk.injEq] at h
    rw [← h.2]; exact .refl _
  | cons a args ih' =>
    intro as ts st es st' h
    cases as with
    | nil => simp [parseArgs] at h
    | cons x as =>
      cases ts with
      | nil => simp [parseArgs] at h
      | cons ty ts =>
        simp only [parseArgs, Option.bind_eq_bind, Option.bind_eq_some_iff] at h
        obtain ⟨⟨e1, st1⟩, h1, ⟨es1, st2⟩, h2, h⟩ := h
        simp only [Option.some.injEq, Prod.mk.injEq] at h
        obtain ⟨-, rfl⟩ := h
        exact (parseArg_grows h1 (grows sigs a).1 (grows sigs a).2).trans (ih' as ts st1 es1 st2 h2)

theorem parseClauses_grows (sigs : FnSigs) : ∀ (os : List String) (es : List Node) (st : St) (cs : List Expr) (st' : St),
    parseClauses sigs os es st = some (cs, st') → Grows st st' := by
  intro os
  induction os with
  | nil =>
    intro es st cs st' h
    simp only [parseClauses, Option.some.injEq, Prod.mk.injEq] at h
    rw [← h.2]; exact .refl _
  | cons o os ih' =>
    intro es st cs st' h
    cases es with
    | nil => simp [parseClauses] at h
    | cons a es =>
      cases es with
      | nil => simp [parseClauses] at h
      | cons b es =>
        simp only [parseClauses, Option.bind_eq_bind, Option.bind_eq_some_iff] at h
        obtain ⟨⟨e1, st1⟩, h1, ⟨e2, st2⟩, h2, c, -, ⟨cs1, st3⟩, h3, h⟩ := h
        simp only [Option.some.injEq, Prod.mk.injEq] at h
        obtain ⟨-, rfl⟩ := h
        exact (((grows sigs a).1 _ _ _ h1).trans ((grows sigs b).1 _ _ _ h2)).trans (ih' (b :: es) st2 cs1 st3 h3)

theorem parseBound_grows {sigs : FnSigs} {n : Node} {st st' : St} {o : Option Expr} (h : parseBound sigs n st = some (o, st')) : Grows st st' := by
  rcases parseBound_cases h with ⟨-, -, rfl⟩ | ⟨e, -, hp, -⟩
  · exact .refl _
  · exact (grows sigs n).1 _ _ _ hp

theorem pv_bool {o : Option PV} {b : Bool} (h : o.bind PV.bool? = some b) : o = some (.v (.bool b)) := by
  simp only [Option.bind_eq_some_iff] at h
  obtain ⟨p, rfl, h⟩ := h
  cases p with
  | v a => cases a <;> simp [PV.bool?] at h; rw [h]
  | _ => simp [PV.bool?] at h

theorem pv_int {o : Option PV} {i : Int} (h : o.bind PV.int? = some i) : o = some (.v (.int i)) := by
  simp only [Option.bind_eq_some_iff] at h
  obtain ⟨p, rfl, h⟩ := h
  cases p with
  | v a => cases a <;> simp [PV.int?] at h; rw [h]
  | _ => simp [PV.int?] at h

theorem pv_list {o : Option PV} {vs : List Val} (h : o.bind PV.list? = some vs) : o = some (.v (.list vs)) := by
  simp only [Option.bind_eq_some_iff] at h
  obtain ⟨p, rfl, h⟩ := h
  cases p with
  | v a => cases a <;> simp [PV.list?] at h; rw [h]
  | _ => simp [PV.list?] at h

/-- What is proved of an expression. -/
def Sound (I : Interp) (sigs : FnSigs) (G : Globals) (stF : St) (n : Node) : Prop :=
  ∀ st e st' ρ ρ' pv, parse sigs n st = some (e, st') → Grows st' stF → Ctx I sigs G n stF ρ ρ' → pyEval true G ρ n = some pv → Rel I e.ty pv (eval I ρ' e)

theorem bound_sound {I : Interp} {sigs : FnSigs} {G : Globals} {stF : St} {n : Node} (ih : Sound I sigs G stF n) {st st' : St} {o : Option Expr}
    {ρ : Locals} {ρ' : Env} {b : Option Int} (h : parseBound sigs n st = some (o, st')) (hg : Grows st' stF) (hc : Ctx I sigs G n stF ρ ρ')
    (hv : pyBound true G ρ n = some b) : o.map (eval I ρ') = b.map Val.int := by
  rcases parseBound_cases h with ⟨rfl, rfl, -⟩ | ⟨e, rfl, hp, hn⟩
  · simp only [pyBound, Option.some.injEq] at hv
    subst hv; rfl
  · have hv' : ((pyEval true G ρ n).bind PV.int?).map some = some b := by
      cases n <;> first | exact (hn rfl).elim | simpa only [pyBound] using hv
    simp only [Option.map_eq_some_iff] at hv'
    obtain ⟨i, hi, rfl⟩ := hv'
    have := ih _ _ _ _ _ _ hp hg hc (pv_int hi)
    simp only [Option.map_some, this.1]

theorem parse_sound {I : Interp} (hB : Builtin I) {sigs : FnSigs} {G : Globals} {stF : St} (n : Node) :
    Sound I sigs G stF n ∧ (∀ ps b t, n = .lambda ps b t → Sound I sigs G stF b) := by
  induction n using Node.ind with
  | hint n =>
    refine ⟨fun st e st' ρ ρ' pv h hg hc hv => ?_, by simp⟩
    simp only [parse, Option.some.injEq, Prod.mk.injEq, pyEval] at h hv
    obtain ⟨rfl, rfl⟩ := h
    subst hv
    exact ⟨rfl, n, rfl⟩
  | hname x t =>
    refine ⟨fun st e st' ρ ρ' pv h hg hc hv => ?_, by simp⟩
    simp only [parse, Option.map_eq_some_iff, Prod.mk.injEq, pyEval] at h hv
    obtain ⟨t', ht, rfl, rfl⟩ := h
    exact hc.names (x, t) (by simp [names]) t' ht pv hv
  | hcall f args kws t ih =>
    refine ⟨fun st e st' ρ ρ' pv h hg hc hv => ?_, by simp⟩
    have hpl := hc.plain
    simp only [plain, Bool.and_eq_true, decide_eq_true_eq] at hpl
    obtain ⟨⟨p1, p2⟩, p3⟩ := hpl
    have sub : ∀ a ∈ args, Ctx I sigs G a stF ρ ρ' := fun a ha => hc.sub (plains_mem p1 ha) (by simpa [lamParams] using mem_lamParamss ha)
      (fun x hx => by simp only [callees, List.mem_cons]; exact .inr (mem_calleess ha x hx)) (by simpa [names] using mem_namess ha)
    simp only [pyEval, Option.bind_eq_bind, Option.bind_eq_some_iff] at hv
    obtain ⟨vs, hvs, hv⟩ := hv
    rcases parse_call_cases h with ⟨hf, a, e1, rfl, hp, hl⟩ | ⟨hf, s, es, hs, hlen, hp, -, rfl⟩
    · rw [if_pos hf] at hv
      simp only [pyEvals, Option.bind_eq_bind, Option.bind_eq_some_iff, Option.some.injEq] at hvs
      obtain ⟨w, hw, _, rfl, rfl⟩ := hvs
      simp only [Option.map_eq_some_iff] at hv
      obtain ⟨l, hl', rfl⟩ := hv
      have hw' := pv_list (o := some w) (by simpa using hl')
      have hr := (ih a (by simp)).1 _ _ _ _ _ _ hp hg (sub a (by simp)) hw
      cases hw'
      unfold lenCall at hl
      split at hl
      · rename_i t ht
        simp only [Option.some.injEq] at hl
        subst hl
        obtain ⟨us, h1, eb, -⟩ := rel_list ht hr
        cases h1
        refine ⟨?_, _, rfl⟩
        simp only [mkCall, eval, evals, evalOp, eb]
        split
        · exact (hB.lists.matrix.len l).symm
        · exact (hB.lists.list.len l).symm
      · cases hl
    · rw [if_neg hf, (hc.callees f (by simp [callees])).1] at hv
      simp only [Option.map_eq_some_iff] at hv
      obtain ⟨w, hw, rfl⟩ := hv
      rw [bindArgs_none _ p2 (by rw [p3, pyEvals_length hvs]), Option.bind_some] at hw
      have go : ∀ (args : List Node) (as : List String) (ts : List (Option Ty)) (st : St) (es : List Expr) (st' : St) (vs : List PV),
          (∀ a ∈ args, Sound I sigs G stF a ∧ (∀ ps b t, a = .lambda ps b t → Sound I sigs G stF b) ∧ Ctx I sigs G a stF ρ ρ') →
          args.length = ts.length → parseArgs sigs f args as ts st = some (es, st') → Grows st' stF → pyEvals true G ρ args = some vs →
          Rels I ts vs (evals I ρ' es) := by
        intro args
        induction args with
        | nil =>
          intro as ts st es st' vs _ hl h _ hvs
          simp only [parseArgs, Option.some.injEq, Prod.mk.injEq] at h
          simp only [pyEvals, Option.some.injEq] at hvs
          obtain ⟨rfl, rfl⟩ := h
          subst hvs
          cases ts with
          | nil => simp [Rels, evals]
          | cons _ _ => simp at hl
        | cons a args ih' =>
          intro as ts st es st' vs hall hl h hg hvs
          cases as with
          | nil => simp [parseArgs] at h
          | cons x as =>
            cases ts with
            | nil => simp [parseArgs] at h
            | cons ty ts =>
              simp only [parseArgs, Option.bind_eq_bind, Option.bind_eq_some_iff] at h
              obtain ⟨⟨e1, st1⟩, h1, ⟨es1, st2⟩, h2, h⟩ := h
              simp only [Option.some.injEq, Prod.mk.injEq] at h
              obtain ⟨rfl, rfl⟩ := h
              simp only [pyEvals, Option.bind_eq_bind, Option.bind_eq_some_iff, Option.some.injEq] at hvs
              obtain ⟨v, hv, ws, hws, rfl⟩ := hvs
              obtain ⟨a1, a2, a3⟩ := hall a (by simp)
              obtain ⟨t', rfl, hr⟩ := arg_sound hB a a1 a2 h1 ((parseArgs_grows _ _ _ _ _ _ _ _ h2).trans hg) a3 hv
              simp only [Rels, evals]
              exact ⟨hr, ih' as ts st1 es1 st2 ws (fun a ha => hall a (by simp [ha])) (by simpa using hl) h2 hg hws⟩
      have hr := go args s.names s.args st es st' vs (fun a ha => ⟨(ih a ha).1, (ih a ha).2, sub a ha⟩) hlen hp hg hvs
      obtain ⟨q1, q2⟩ := (hc.callees f (by simp [callees])).2 s hs hf vs _ hr w hw
      refine ⟨?_, q2⟩
      simp only [mkCall, eval, evalOp, q1]
  | hop o l r il ir =>
    refine ⟨fun st e st' ρ ρ' pv h hg hc hv => ?_, by simp⟩
    have hpl := hc.plain
    simp only [plain, Bool.and_eq_true, decide_eq_true_eq] at hpl
    obtain ⟨⟨p1, p2⟩, p3⟩ := hpl
    have sl : Ctx I sigs G l stF ρ ρ' := hc.sub p2 (by simp +contextual [lamParams]) (by simp +contextual [callees]) (by simp +contextual [names])
    have sr : Ctx I sigs G r stF ρ ρ' := hc.sub p3 (by simp +contextual [lamParams]) (by simp +contextual [callees]) (by simp +contextual [names])
    simp only [parse, Option.bind_eq_bind, Option.bind_eq_some_iff] at h
    obtain ⟨⟨e1, st1⟩, h1, ⟨e2, st2⟩, h2, c, hb, h⟩ := h
    simp only [Option.some.injEq, Prod.mk.injEq] at h
    obtain ⟨rfl, rfl⟩ := h
    have g1 := ((grows sigs r).1 _ _ _ h2).trans hg
    have bools : o = "and" ∨ o = "or" → (o = "and" → c = mkAnd [e1, e2]) ∧ (o = "or" → c = mkOr [e1, e2]) ∧ e1.ty = .bool ∧ e2.ty = .bool := by
      intro ho
      unfold binary at hb
      rcases ho with rfl | rfl <;> simp at hb
      · exact ⟨fun _ => hb.2.2.2.symm, by simp, hb.2.2.1⟩
      · exact ⟨by simp, fun _ => hb.2.2.2.symm, hb.2.2.1⟩
    simp only [pyEval] at hv
    split at hv
    · rename_i ho
      obtain ⟨b1, -, b3, b4⟩ := bools (.inl ho)
      obtain rfl := b1 ho
      simp only [Option.bind_eq_bind, obind (x := (pyEval true G ρ l).bind PV.bool?)] at hv
      obtain ⟨a, ha, hv⟩ := hv
      have ra := il.1 _ _ _ _ _ _ h1 g1 sl (pv_bool ha)
      split at hv
      · rename_i hat
        subst hat
        simp only [obind (x := (pyEval true G ρ r).bind PV.bool?), Option.some.injEq] at hv
        obtain ⟨b, hb', rfl⟩ := hv
        have rb := ir.1 _ _ _ _ _ _ h2 hg sr (pv_bool hb')
        refine ⟨?_, _, rfl⟩
        simp only [mkAnd, eval, evals, evalOp, ← ra.1, ← rb.1]
        simp [Val.asBool]
      · rename_i hat
        simp only [Option.some.injEq] at hv
        subst hv
        refine ⟨?_, _, rfl⟩
        simp only [mkAnd, eval, evals, evalOp, ← ra.1]
        simp [Val.asBool, hat]
    · split at hv
      · rename_i ho
        obtain ⟨-, b1, b3, b4⟩ := bools (.inr ho)
        obtain rfl := b1 ho
        simp only [Option.bind_eq_bind, obind (x := (pyEval true G ρ l).bind PV.bool?)] at hv
        obtain ⟨a, ha, hv⟩ := hv
        have ra := il.1 _ _ _ _ _ _ h1 g1 sl (pv_bool ha)
        split at hv
        · rename_i hat
          simp only [Option.some.injEq] at hv
          subst hv
          refine ⟨?_, _, rfl⟩
          simp only [mkOr, eval, evals, evalOp, ← ra.1]
          simp [Val.asBool, hat]
        · rename_i hat
          simp only [obind (x := (pyEval true G ρ r).bind PV.bool?), Option.some.injEq] at hv
          obtain ⟨b, hb', rfl⟩ := hv
          have rb := ir.1 _ _ _ _ _ _ h2 hg sr (pv_bool hb')
          refine ⟨?_, _, rfl⟩
          simp only [mkOr, eval, evals, evalOp, ← ra.1, ← rb.1]
          simp [Val.asBool, hat]
      · simp only [Option.bind_eq_bind, Option.bind_eq_some_iff] at hv
        obtain ⟨a, ha, b, hb', hv⟩ := hv
        exact binary_sound hB p1 hb (il.1 _ _ _ _ _ _ h1 g1 sl ha) (ir.1 _ _ _ _ _ _ h2 hg sr hb') hv
  | hun o e ie =>
    refine ⟨fun st e' st' ρ ρ' pv h hg hc hv => ?_, by simp⟩
    have hpl := hc.plain
    simp only [plain] at hpl
    have sl : Ctx I sigs G e stF ρ ρ' := hc.sub hpl (by simp [lamParams]) (by simp [callees]) (by simp [names])
    simp only [parse] at h
    split at h
    · rename_i ho
      subst ho
      simp only [Option.bind_eq_bind, Option.bind_eq_some_iff] at h
      obtain ⟨⟨e1, st1⟩, h1, h⟩ := h
      simp only at h
      split at h
      · simp only [Option.some.injEq, Prod.mk.injEq] at h
        obtain ⟨rfl, rfl⟩ := h
        simp only [pyEval, if_true, Option.bind_eq_bind, obind (x := (pyEval true G ρ e).bind PV.int?), Option.some.injEq] at hv
        obtain ⟨i, hi, rfl⟩ := hv
        have r := ie.1 _ _ _ _ _ _ h1 hg sl (pv_int hi)
        refine ⟨?_, _, rfl⟩
        simp only [eval, evals, evalOp, ← r.1]
        simp [intLit, eval, Lit.val, Val.asInt]
      · cases h
    · cases h
  | hlist es t ih =>
    refine ⟨fun st e st' ρ ρ' pv h hg hc hv => ?_, by simp⟩
    have hpl := hc.plain
    simp only [plain, List.isEmpty_iff] at hpl
    subst hpl
    simp only [parse] at h
    split at h
    · simp only [Option.some.injEq, Prod.mk.injEq] at h
      obtain ⟨rfl, rfl⟩ := h
      simp [pyEval, pyEvals] at hv
      subst hv
      refine ⟨?_, [], rfl, by simp⟩
      simp only [mkCall, eval, evals, evalOp]
      split
      · exact hB.lists.list.emp.symm
      · exact hB.lists.matrix.emp.symm
    · cases h
  | hcond c a b ic ia ib =>
    refine ⟨fun st e st' ρ ρ' pv h hg hc hv => ?_, by simp⟩
    have hpl := hc.plain
    simp only [plain, Bool.and_eq_true] at hpl
    obtain ⟨⟨p1, p2⟩, p3⟩ := hpl
    have s1 : Ctx I sigs G c stF ρ ρ' := hc.sub p1 (by simp +contextual [lamParams]) (by simp +contextual [callees]) (by simp +contextual [names])
    have s2 : Ctx I sigs G a stF ρ ρ' := hc.sub p2 (by simp +contextual [lamParams]) (by simp +contextual [callees]) (by simp +contextual [names])
    have s3 : Ctx I sigs G b stF ρ ρ' := hc.sub p3 (by simp +contextual [lamParams]) (by simp +contextual [callees]) (by simp +contextual [names])
    simp only [parse, Option.bind_eq_bind, Option.bind_eq_some_iff] at h
    obtain ⟨⟨e1, st1⟩, h1, ⟨e2, st2⟩, h2, ⟨e3, st3⟩, h3, d, hd, h⟩ := h
    simp only [Option.some.injEq, Prod.mk.injEq] at h
    obtain ⟨rfl, rfl⟩ := h
    simp only [pyEval, Option.bind_eq_bind, obind (x := (pyEval true G ρ c).bind PV.bool?)] at hv
    obtain ⟨x, hx, hv⟩ := hv
    have rc := ic.1 _ _ _ _ _ _ h1 ((((grows sigs a).1 _ _ _ h2).trans ((grows sigs b).1 _ _ _ h3)).trans hg) s1 (pv_bool hx)
    have hty : d = mkIte e2.ty e1 e2 e3 ∧ e2.ty = e3.ty := by
      unfold conditional at hd
      split at hd
      · rename_i hh
        split at hd
        · cases hd
        · simp only [Option.some.injEq] at hd
          exact ⟨hd.symm, hh.2⟩
      · cases hd
    obtain ⟨rfl, hty⟩ := hty
    have hev : eval I ρ' (mkIte e2.ty e1 e2 e3) = if x then eval I ρ' e2 else eval I ρ' e3 := by
      simp only [mkIte, eval, evals, evalOp, ← rc.1]
      cases x <;> simp [Val.asBool]
    rw [hev]
    split at hv
    · rename_i hxt
      rw [if_pos hxt]
      exact ia.1 _ _ _ _ _ _ h2 (((grows sigs b).1 _ _ _ h3).trans hg) s2 hv
    · rename_i hxt
      rw [if_neg hxt]
      have := ib.1 _ _ _ _ _ _ h3 hg s3 hv
      rw [← hty] at this
      exact this
  | hcmp os es ih =>
    refine ⟨fun st e st' ρ ρ' pv h hg hc hv => ?_, by simp⟩
    have hpl := hc.plain
    simp only [plain] at hpl
    have sub : ∀ a ∈ es, Ctx I sigs G a stF ρ ρ' := fun a ha => hc.sub (plains_mem hpl ha) (by simpa [lamParams] using mem_lamParamss ha)
      (by simpa [callees] using mem_calleess ha) (by simpa [names] using mem_namess ha)
    simp only [parse, Option.bind_eq_bind, Option.bind_eq_some_iff] at h
    obtain ⟨⟨cs, st1⟩, h1, h⟩ := h
    simp only [pyEval, Option.map_eq_some_iff] at hv
    obtain ⟨b, hb, rfl⟩ := hv
    have go : ∀ (os : List String) (es : List Node) (st : St) (cs : List Expr) (st' : St) (b : Bool),
        (∀ a ∈ es, Sound I sigs G stF a ∧ Ctx I sigs G a stF ρ ρ') → parseClauses sigs os es st = some (cs, st') → Grows st' stF →
        pyChain true G ρ os es = some b → (∀ c, cs = [c] → c.ty = .bool ∧ eval I ρ' c = .bool b) ∧ (cs.map (eval I ρ')).all Val.asBool = b := by
      intro os
      induction os with
      | nil =>
        intro es st cs st' b _ h _ hv
        simp only [parseClauses, Option.some.injEq, Prod.mk.injEq] at h
        obtain ⟨rfl, rfl⟩ := h
        simp only [pyChain, Option.some.injEq] at hv
        subst hv
        simp
      | cons o os ih' =>
        intro es st cs st' b hall h hg hv
        cases es with
        | nil => simp [parseClauses] at h
        | cons a es =>
          cases es with
          | nil => simp [parseClauses] at h
          | cons b' es =>
            simp only [parseClauses, Option.bind_eq_bind, Option.bind_eq_some_iff] at h
            obtain ⟨⟨e1, st1⟩, h1, ⟨e2, st2⟩, h2, c, hc', ⟨cs1, st3⟩, h3, h⟩ := h
            simp only [Option.some.injEq, Prod.mk.injEq] at h
            obtain ⟨rfl, rfl⟩ := h
            simp only [pyChain, Option.bind_eq_bind, Option.bind_eq_some_iff] at hv
            obtain ⟨x, hx, y, hy, z, hz, hv⟩ := hv
            have g3 := (parseClauses_grows _ _ _ _ _ _ h3).trans hg
            have r1 := (hall a (by simp)).1 _ _ _ _ _ _ h1 (((grows sigs b').1 _ _ _ h2).trans g3) (hall a (by simp)).2 hx
            have r2 := (hall b' (by simp)).1 _ _ _ _ _ _ h2 g3 (hall b' (by simp)).2 hy
            obtain ⟨k1, k2⟩ := comparison_sound hc' r1 r2 hz
            split at hv
            · rename_i hzt
              subst hzt
              obtain ⟨m1, m2⟩ := ih' (b' :: es) st2 cs1 st3 b (fun x hx => hall x (List.mem_cons_of_mem _ hx)) h3 hg hv
              refine ⟨?_, by simp only [List.map_cons, List.all_cons, k2, m2]; simp [Val.asBool]⟩
              intro c' hc''
              cases hc''
              simp at m2
              subst m2
              exact ⟨k1, k2⟩
            · rename_i hzt
              simp only [Option.some.injEq] at hv
              subst hv
              simp only [Bool.not_eq_true] at hzt
              subst hzt
              refine ⟨?_, by simp only [List.map_cons, List.all_cons, k2]; simp [Val.asBool]⟩
              intro c' hc''
              cases hc''
              exact ⟨k1, k2⟩
    have hgo := fun hg => go os es st cs st1 b (fun a ha => ⟨(ih a ha).1, sub a ha⟩) h1 hg hb
    simp only at h
    split at h
    · simp only [Option.some.injEq, Prod.mk.injEq] at h
      obtain ⟨rfl, rfl⟩ := h
      obtain ⟨k1, k2⟩ := (hgo hg).1 _ rfl
      rw [k1, k2]
      exact ⟨rfl, _, rfl⟩
    · cases h
    · simp only [Option.some.injEq, Prod.mk.injEq] at h
      obtain ⟨rfl, rfl⟩ := h
      refine ⟨?_, _, rfl⟩
      simp only [mkAnd, eval, evals_eq_map, evalOp, (hgo hg).2]
  | hidx b i ib ii =>
    refine ⟨fun st e st' ρ ρ' pv h hg hc hv => ?_, by simp⟩
    have hpl := hc.plain
    simp only [plain, Bool.and_eq_true] at hpl
    have s1 : Ctx I sigs G b stF ρ ρ' := hc.sub hpl.1 (by simp +contextual [lamParams]) (by simp +contextual [callees]) (by simp +contextual [names])
    have s2 : Ctx I sigs G i stF ρ ρ' := hc.sub hpl.2 (by simp +contextual [lamParams]) (by simp +contextual [callees]) (by simp +contextual [names])
    simp only [parse, Option.bind_eq_bind, Option.bind_eq_some_iff] at h
    obtain ⟨⟨e1, st1⟩, h1, h⟩ := h
    simp only at h
    split at h
    · cases h
    · simp only [Option.bind_eq_some_iff] at h
      obtain ⟨⟨e2, st2⟩, h2, c, hc', h⟩ := h
      simp only [Option.some.injEq, Prod.mk.injEq] at h
      obtain ⟨rfl, rfl⟩ := h
      simp only [pyEval, Option.bind_eq_bind, obind (x := (pyEval true G ρ b).bind PV.list?),
        obind (x := (pyEval true G ρ i).bind PV.int?), obind (x := pyAt _ _ _), Option.some.injEq] at hv
      obtain ⟨vs, hvs, j, hj, w, hw, rfl⟩ := hv
      have r1 := ib.1 _ _ _ _ _ _ h1 (((grows sigs i).1 _ _ _ h2).trans hg) s1 (pv_list hvs)
      have r2 := ii.1 _ _ _ _ _ _ h2 hg s2 (pv_int hj)
      exact getAt_sound hB hc' r1 r2.1.symm hw
  | hsl b lo hi sp ib il ih is =>
    refine ⟨fun st e st' ρ ρ' pv h hg hc hv => ?_, by simp⟩
    have hpl := hc.plain
    simp only [plain, Bool.and_eq_true] at hpl
    obtain ⟨⟨⟨p1, p2⟩, p3⟩, p4⟩ := hpl
    have hsp : sp = .absent := by cases sp <;> simp at p4 ⊢
    subst hsp
    have s1 : Ctx I sigs G b stF ρ ρ' := hc.sub p1 (by simp +contextual [lamParams]) (by simp +contextual [callees]) (by simp +contextual [names])
    have s2 : Ctx I sigs G lo stF ρ ρ' := hc.sub p2 (by simp +contextual [lamParams]) (by simp +contextual [callees]) (by simp +contextual [names])
    have s3 : Ctx I sigs G hi stF ρ ρ' := hc.sub p3 (by simp +contextual [lamParams]) (by simp +contextual [callees]) (by simp +contextual [names])
    simp only [parse, Option.bind_eq_bind, Option.bind_eq_some_iff] at h
    obtain ⟨⟨e1, st1⟩, h1, h⟩ := h
    simp only at h
    split at h
    · cases h
    · simp only [Option.bind_eq_some_iff] at h
      obtain ⟨⟨e2, st2⟩, h2, ⟨e3, st3⟩, h3, c, hc', h⟩ := h
      simp only [Option.some.injEq, Prod.mk.injEq] at h
      obtain ⟨rfl, rfl⟩ := h
      simp only [pyEval, Option.bind_eq_bind, obind (x := (pyEval true G ρ b).bind PV.list?),
        obind (x := pyBound _ _ _ _), obind (x := pySlice _ _ _ _ _), Option.some.injEq] at hv
      obtain ⟨vs, hvs, l, hl, u, hu, k, hk, ws, hws, rfl⟩ := hv
      simp only [pyBound, Option.some.injEq] at hk
      subst hk
      have g3 := (parseBound_grows h3).trans hg
      have r1 := ib.1 _ _ _ _ _ _ h1 ((parseBound_grows h2).trans g3) s1 (pv_list hvs)
      exact getSlice_sound hB hc' r1 (bound_sound il.1 h2 g3 s2 hl) (bound_sound ih.1 h3 hg s3 hu) hws
  | hlam ps b t ib =>
    refine ⟨fun st e st' ρ ρ' pv h => by simp [parse] at h, fun ps' b' t' hn => ?_⟩
    cases hn
    exact ib.1
  | hab => exact ⟨fun st e st' ρ ρ' pv h => by simp [parse] at h, by simp⟩
  | hot => exact ⟨fun st e st' ρ ρ' pv h => by simp [parse] at h, by simp⟩

/-! ### Functions -/

theorem parseBlock_expr {sigs : FnSigs} {ss : List Stmt} {st st' : St} {e : Expr} (h : parseBlock sigs ss st = some (e, st')) :
    ∃ n, bodyExpr ss = some n ∧ parse sigs n st = some (e, st') ∧ ∀ s G ρ pv, pyBlock s G ρ ss = some pv → pyEval s G ρ n = some pv := by
  unfold parseBlock at h
  split at h
  · rename_i x _ n y _
    split at h
    · rename_i hxy
      subst hxy
      refine ⟨n, rfl, h, ?_⟩
      intro s G ρ pv hp
      simp only [pyBlock] at hp
      split at hp
      · cases hp
      · rename_i hx
        simp only [not_or] at hx
        simp only [Option.bind_eq_bind, Option.bind_eq_some_iff, pyEval, pyName, hx.1, hx.2, if_false, if_true, Option.orElse_some, Option.some.injEq] at hp
        obtain ⟨v, hv, rfl⟩ := hp
        exact hv
    · cases h
  · rename_i n
    exact ⟨n, rfl, h, fun s G ρ pv hp => by simpa only [pyBlock] using hp⟩
  · cases h

theorem parseDef_cases {sigs : FnSigs} {d : FuncDef} {st st' : St} (h : parseDef sigs d st = some st') :
    ∃ s ps b n st1, sigs.lookup d.name = some s ∧ paramVars d.params s.args = some ps ∧ bodyExpr d.body = some n ∧ parse sigs n st = some (b, st1) ∧
      (∀ s G ρ pv, pyBlock s G ρ d.body = some pv → pyEval s G ρ n = some pv) ∧
      st'.decls = st1.decls ++ [{ name := d.name, ret := s.ret, params := sortParams ps, body := some b, recursive := true }] := by
  simp only [parseDef, Option.bind_eq_bind, Option.bind_eq_some_iff] at h
  obtain ⟨s, hs, ps, hps, ⟨b, st1⟩, hb, h⟩ := h
  simp only [Option.some.injEq] at h
  subst h
  obtain ⟨n, h1, h2, h3⟩ := parseBlock_expr hb
  exact ⟨s, ps, b, n, st1, hs, hps, h1, h2, h3, rfl⟩

theorem parseDef_grows {sigs : FnSigs} {d : FuncDef} {st st' : St} (h : parseDef sigs d st = some st') : Grows st st' := by
  obtain ⟨s, ps, b, n, st1, -, -, -, hp, -, hd⟩ := parseDef_cases h
  intro D hD
  rw [hd]
  exact List.mem_append_left _ ((grows sigs n).1 _ _ _ hp D hD)

theorem parseDefs_grows {sigs : FnSigs} : ∀ {ds : List FuncDef} {st st' : St}, parseDefs sigs ds st = some st' → Grows st st'
  | [], st, st', h => by simp only [parseDefs, Option.some.injEq] at h; subst h; exact .refl _
  | d :: ds, st, st', h => by
    simp only [parseDefs, Option.bind_eq_some_iff] at h
    obtain ⟨st1, h1, h2⟩ := h
    exact (parseDef_grows h1).trans (parseDefs_grows h2)

theorem parseDefs_mem {sigs : FnSigs} : ∀ {ds : List FuncDef} {st st' : St}, parseDefs sigs ds st = some st' → ∀ d ∈ ds, ∃ st0 st1,
    parseDef sigs d st0 = some st1 ∧ Grows st1 st'
  | [], st, st', h => by simp
  | d :: ds, st, st', h => by
    simp only [parseDefs, Option.bind_eq_some_iff] at h
    obtain ⟨st1, h1, h2⟩ := h
    intro d' hd'
    rcases List.mem_cons.1 hd' with rfl | hd'
    · exact ⟨st, st1, h1, parseDefs_grows h2⟩
    · exact parseDefs_mem h2 d' hd'

theorem lookup_append {α β : Type} [BEq α] {a : α} : ∀ {l m : List (α × β)}, (l ++ m).lookup a = (l.lookup a).or (m.lookup a)
  | [], m => by simp
  | (_, _) :: l, m => by
    simp only [List.cons_append, List.lookup_cons]
    split
    · simp
    · exact lookup_append

theorem sigsOf_lookup : ∀ {ds : List FuncDef} {ss : FnSigs}, sigsOf ds = some ss → ∀ f s, ss.lookup f = some s → ∃ d ∈ ds, d.name = f ∧ d.sig = some (f, s)
  | [], ss, h => by simp only [sigsOf, Option.some.injEq] at h; subst h; simp
  | d :: ds, ss, h => by
    simp only [sigsOf, Option.bind_eq_bind, Option.bind_eq_some_iff, Option.some.injEq] at h
    obtain ⟨s, hs, ss', hss, rfl⟩ := h
    intro f t ht
    rw [lookup_append, Option.or_eq_some_iff] at ht
    rcases ht with ht | ⟨-, ht⟩
    · obtain ⟨d', h1, h2⟩ := sigsOf_lookup hss f t ht
      exact ⟨d', List.mem_cons_of_mem _ h1, h2⟩
    · obtain ⟨sn, ss⟩ := s
      simp only [List.lookup_cons, List.lookup_nil] at ht
      split at ht
      · rename_i hf
        simp only [beq_iff_eq] at hf
        have hn : d.name = sn := by
          simp only [FuncDef.sig, Option.map_eq_some_iff] at hs
          obtain ⟨r, -, hs⟩ := hs
          cases hs
          rfl
        cases ht
        subst hf
        exact ⟨d, by simp, hn, hs⟩
      · cases ht

theorem sigsOf_lookup_mem : ∀ {ds : List FuncDef} {ss : FnSigs}, sigsOf ds = some ss → (ds.map FuncDef.name).Nodup → ∀ d ∈ ds, ∃ s,
    ss.lookup d.name = some s ∧ d.sig = some (d.name, s)
  | [], ss, h => by simp
  | d :: ds, ss, h => by
    intro hn d' hd'
    have h0 := h
    simp only [sigsOf, Option.bind_eq_bind, Option.bind_eq_some_iff, Option.some.injEq] at h
    obtain ⟨s, hs, ss', hss, rfl⟩ := h
    simp only [List.map_cons, List.nodup_cons] at hn
    rcases List.mem_cons.1 hd' with rfl | hd'
    · have hname : s.1 = d'.name := by
        simp only [FuncDef.sig, Option.map_eq_some_iff] at hs
        obtain ⟨r, -, rfl⟩ := hs
        rfl
      refine ⟨s.2, ?_, by rw [hs, ← hname]⟩
      have : ss'.lookup d'.name = none := by
        cases hl : ss'.lookup d'.name with
        | none => rfl
        | some t =>
          obtain ⟨x, hx, hxn, -⟩ := sigsOf_lookup hss _ _ hl
          exact (hn.1 (List.mem_map.2 ⟨x, hx, hxn⟩)).elim
      rw [lookup_append, this]
      obtain ⟨sn, ss⟩ := s
      simp only at hname
      simp [List.lookup_cons, hname]
    · obtain ⟨t, ht, hsig⟩ := sigsOf_lookup_mem hss hn.2 d' hd'
      exact ⟨t, by rw [lookup_append, ht]; rfl, hsig⟩

theorem insertParam_perm (p : String × Ty) : ∀ ps, (insertParam p ps).Perm (p :: ps)
  | [] => .refl _
  | q :: qs => by
    simp only [insertParam]
    split
    · exact .refl _
    · exact ((insertParam_perm p qs).cons q).trans (.swap _ _ _)

theorem sortParams_perm : ∀ ps, (sortParams ps).Perm ps
  | [] => .refl _
  | p :: ps => (insertParam_perm p _).trans ((sortParams_perm ps).cons p)

theorem sortParams_sorted : ∀ {ps : List (String × Ty)}, (ps.map Prod.fst).Pairwise (· ≤ ·) → sortParams ps = ps
  | [], _ => rfl
  | p :: ps, h => by
    simp only [List.map_cons, List.pairwise_cons] at h
    rw [sortParams, sortParams_sorted h.2]
    cases ps with
    | nil => rfl
    | cons q qs => rw [insertParam, if_pos (h.1 q.1 (by simp))]

theorem paramVars_zip : ∀ {ps : List String} {ms : List MTy} {qs : List (String × Ty)}, paramVars ps (ms.map irTy) = some qs → ps.length = ms.length →
    ∃ ts, irTys ms = some ts ∧ qs = ps.zip ts ∧ ts.length = ps.length
  | [], [], qs, h, _ => by simp only [paramVars, List.map_nil, Option.some.injEq] at h; exact ⟨[], rfl, by simp [← h], rfl⟩
  | [], _ :: _, qs, h, hl => by simp at hl
  | _ :: _, [], qs, h, hl => by simp at hl
  | p :: ps, m :: ms, qs, h, hl => by
    simp only [List.map_cons, paramVars, Option.bind_eq_bind, Option.bind_eq_some_iff, Option.some.injEq] at h
    obtain ⟨t, ht, r, hr, rfl⟩ := h
    obtain ⟨ts, h1, rfl, h3⟩ := paramVars_zip hr (by simpa using hl)
    exact ⟨t :: ts, by simp [irTys, ht, h1], rfl, by simp [h3]⟩

/-- Values of the parameters by name. -/
theorem fnEnv_val {val : String → Val} {x : String} : ∀ {ps : List String}, x ∈ ps → fnEnv ps (ps.map val) x = val x
  | [], h => by simp at h
  | p :: ps, h => by
    by_cases hx : x = p
    · subst hx; simp [fnEnv]
    · have := fnEnv_val (val := val) (x := x) (ps := ps) (by simpa [hx] using h)
      have hb : (x == p) = false := by simpa using hx
      simpa [fnEnv, List.lookup_cons, hb] using this

theorem bind_val {ρ : Locals} {val : String → PV} {x : String} : ∀ {ps : List String}, x ∈ ps → Locals.bind ρ ps (ps.map val) x = some (val x)
  | [], h => by simp at h
  | p :: ps, h => by
    by_cases hx : x = p
    · subst hx; simp [Locals.bind]
    · have := bind_val (ρ := ρ) (val := val) (x := x) (ps := ps) (by simpa [hx] using h)
      simpa [Locals.bind, hx] using this

theorem ofTys_val {val : String → Val} : ∀ {ps : List (String × Ty)}, (∀ p ∈ ps, OfTy p.2 (val p.1)) →
    OfTys (ps.map Prod.snd) (ps.map (fun p => val p.1))
  | [], _ => by simp [OfTys]
  | p :: ps, h => by
    simp only [List.map_cons, OfTys]
    exact ⟨h p (by simp), ofTys_val fun q hq => h q (by simp [hq])⟩

theorem lookup_zip_mem : ∀ {ps : List String} {ms : List MTy} {ts : List Ty} {x : String} {m : MTy} {t : Ty}, irTys ms = some ts →
    (ps.zip ms).lookup x = some m → irTy m = some t → (x, t) ∈ ps.zip ts
  | [], _, _, _, _, _, _, h, _ => by simp at h
  | _ :: _, [], _, _, _, _, _, h, _ => by simp at h
  | p :: ps, m :: ms, ts, x, m', t, hts, h, hm => by
    simp only [irTys, Option.bind_eq_bind, Option.bind_eq_some_iff, Option.some.injEq] at hts
    obtain ⟨t0, ht0, ts', hts', rfl⟩ := hts
    simp only [List.zip_cons_cons, List.lookup_cons] at h
    split at h
    · rename_i hx
      simp only [beq_iff_eq] at hx
      cases h
      rw [ht0] at hm
      cases hm
      simp [hx]
    · exact List.mem_cons_of_mem _ (lookup_zip_mem hts' h hm)

theorem rels_data {I : Interp} : ∀ {ms : List MTy} {ps : List PV} {vs : List Val}, ms.all dataTy = true → Rels I (ms.map irTy) ps vs →
    ∃ ts, irTys ms = some ts ∧ ps = vs.map .v ∧ OfTys ts vs
  | [], [], [], _, _ => ⟨[], rfl, rfl, by simp [OfTys]⟩
  | [], _ :: _, _, _, h => by simp [Rels] at h
  | [], [], _ :: _, _, h => by simp [Rels] at h
  | m :: ms, [], _, _, h => by cases hm : irTy m <;> simp [Rels, hm] at h
  | m :: ms, _ :: _, [], _, h => by cases hm : irTy m <;> simp [Rels, hm] at h
  | m :: ms, p :: ps, v :: vs, hd, h => by
    simp only [List.all_cons, Bool.and_eq_true] at hd
    simp only [List.map_cons] at h
    cases hm : irTy m with
    | none => simp [Rels, hm] at h
    | some t =>
      simp only [hm, Rels] at h
      obtain ⟨ts, h1, h2, h3⟩ := rels_data hd.2 h.2
      have h4 := h.1
      cases p with
      | v a =>
        obtain ⟨rfl, h5⟩ := h4
        exact ⟨t :: ts, by simp [irTys, hm, h1], by simp [h2], by simp only [OfTys]; exact ⟨h5, h3⟩⟩
      | f c =>
        obtain ⟨r, ts', rfl, -⟩ := h4
        cases m with
        | list t => simp [irTy, Option.map_eq_some_iff] at hm
        | callable _ _ => simp [dataTy] at hd
        | _ => simp [irTy] at hm
      | q c => exact h4.elim

/-- The statement about one function: every call of it in the module with `k` nested calls. -/
def DefSound (I : Interp) (G : Globals) (d : FuncDef) (D : FnDecl) : Prop :=
  ∀ val : String → Val, (∀ p ∈ D.params, OfTy p.2 (val p.1)) → ∀ r, G.call d.name (d.params.map fun p => .v (val p)) = some r →
    I.fn d.name (D.params.map fun p => val p.1) = r ∧ OfTy D.ret r

theorem find_target {targets : List FuncDef} (hn : (targets.map FuncDef.name).Nodup) {d : FuncDef} (hd : d ∈ targets) :
    targets.find? (fun c => decide (c.name = d.name)) = some d := by
  induction targets with
  | nil => cases hd
  | cons c cs ih =>
    simp only [List.map_cons, List.nodup_cons] at hn
    rcases List.mem_cons.1 hd with rfl | hd
    · simp
    · rw [List.find?_cons_of_neg]
      · exact ih hn.2 hd
      · simp only [decide_eq_true_eq]
        intro h
        exact hn.1 (List.mem_map.2 ⟨d, hd, h.symm⟩)

theorem find_other {targets : List FuncDef} {f : String} (h : ∀ d ∈ targets, d.name ≠ f) :
    targets.find? (fun c => decide (c.name = f)) = none := by
  simp only [List.find?_eq_none, decide_eq_true_eq]
  exact h

theorem lookup_zip_self {vs : List Val} : ∀ {ps : List String}, ps.Nodup → vs.length = ps.length →
    ps.map (fun p => ((ps.zip vs).lookup p).getD (.int 0)) = vs := by
  intro ps
  induction ps generalizing vs with
  | nil => intro _ h; cases vs <;> simp at h ⊢
  | cons p ps ih =>
    intro hn hl
    cases vs with
    | nil => simp at hl
    | cons v vs =>
      simp only [List.nodup_cons] at hn
      simp only [List.map_cons, List.zip_cons_cons, List.lookup_cons, beq_self_eq_true, Option.getD_some, List.cons.injEq, true_and]
      refine Eq.trans ?_ (ih hn.2 (by simpa using hl))
      apply List.map_congr_left
      intro x hx
      have hb : (x == p) = false := by
        simp only [beq_eq_false_iff_ne, ne_eq]
        rintro rfl
        exact hn.1 hx
      rw [hb]

/-- The IR function made of a function of the solution. -/
structure DeclOf (sigs : FnSigs) (stF : St) (d : FuncDef) (D : FnDecl) : Prop where
  mem : D ∈ stF.decls
  name : D.name = d.name
  ret : irTy d.ret = some D.ret
  params : ∃ ts, irTys d.args = some ts ∧ ts.length = d.params.length ∧ D.params = sortParams (d.params.zip ts)
  sig : sigs.lookup d.name = some ⟨d.params, d.args.map irTy, D.ret⟩
  body : ∃ n b st st1, bodyExpr d.body = some n ∧ D.body = some b ∧ parse sigs n st = some (b, st1) ∧ Grows st1 stF ∧
    ∀ s G ρ pv, pyBlock s G ρ d.body = some pv → pyEval s G ρ n = some pv

theorem declOf {targets dsl : List FuncDef} {sigs : FnSigs} (hs : sigsOf (targets ++ dsl) = some sigs) (hn : ((targets ++ dsl).map FuncDef.name).Nodup)
    {st stF : St} (h : parseDefs sigs targets st = some stF) {d : FuncDef} (hd : d ∈ targets) (hl : d.params.length = d.args.length) :
    ∃ D, DeclOf sigs stF d D := by
  obtain ⟨st0, st1, hp, hg⟩ := parseDefs_mem h d hd
  obtain ⟨s, ps, b, n, st2, h1, h2, h3, h4, h5, h6⟩ := parseDef_cases hp
  obtain ⟨s', h1', hsig⟩ := sigsOf_lookup_mem hs hn d (List.mem_append_left _ hd)
  rw [h1] at h1'
  cases h1'
  simp only [FuncDef.sig, Option.map_eq_some_iff, Prod.mk.injEq] at hsig
  obtain ⟨r, hr, -, rfl⟩ := hsig
  obtain ⟨ts, t1, t2, t3⟩ := paramVars_zip h2 hl
  subst t2
  refine ⟨_, hg _ (by rw [h6]; exact List.mem_append_right _ (List.mem_singleton.2 rfl)), rfl, hr, ⟨ts, t1, t3, rfl⟩, h1, n, b, st0, st2, h3, rfl, h4, ?_, h5⟩
  intro D hD
  exact hg D (by rw [h6]; exact List.mem_append_left _ hD)

theorem def_sound {I : Interp} (hB : Builtin I) {targets : List FuncDef} {sigs : FnSigs} {G : Globals} {stF : St}
    (hD : ∀ D ∈ stF.decls, DeclHolds I D ∧ BodyTyped D) {d : FuncDef} {D : FnDecl} (hdecl : DeclOf sigs stF d D) (hok : okDef targets stF.decls d = true)
    (hA : ∀ n, bodyExpr d.body = some n → ∀ f ∈ callees n, AgreesAt I sigs G f) {val : String → Val} (hval : ∀ p ∈ D.params, OfTy p.2 (val p.1)) {r : Val}
    (hr : (pyBlock true G (Locals.bind (fun _ => none) d.params (d.params.map fun p => .v (val p))) d.body).bind PV.data? = some r) :
    I.fn d.name (D.params.map fun p => val p.1) = r ∧ OfTy D.ret r := by
  obtain ⟨n, b, st, st1, hn, hb, hp, hg, hblk⟩ := hdecl.body
  obtain ⟨ts, hts, htl, hparams⟩ := hdecl.params
  simp only [okDef, hn, Bool.and_eq_true, decide_eq_true_eq, List.all_eq_true, Bool.not_eq_true', closedIn] at hok
  obtain ⟨⟨⟨⟨⟨⟨⟨o1, o2⟩, o3⟩, o4⟩, o5⟩, o6⟩, o7⟩, o8⟩ := hok
  have hmem : ∀ p, p ∈ D.params ↔ p ∈ d.params.zip ts := by
    intro p
    rw [hparams]
    exact (sortParams_perm _).mem_iff
  simp only [Option.bind_eq_some_iff] at hr
  obtain ⟨pv, hpv, hdata⟩ := hr
  have hin : ∀ x ∈ d.params, x ∈ D.params.map Prod.fst := by
    intro x hx
    have : x ∈ (d.params.zip ts).map Prod.fst := by rw [zip_fst (by omega)]; exact hx
    obtain ⟨p, hp, rfl⟩ := List.mem_map.1 this
    exact List.mem_map.2 ⟨p, (hmem p).2 hp, rfl⟩
  have hout : ∀ x, x ∈ D.params.map Prod.fst → x ∈ d.params := by
    intro x hx
    obtain ⟨p, hp, rfl⟩ := List.mem_map.1 hx
    exact (List.of_mem_zip ((hmem p).1 hp)).1
  have hrel := (parse_sound hB (stF := stF) n).1 _ _ _ (Locals.bind (fun _ => none) d.params (d.params.map fun p => .v (val p)))
    (fnEnv (D.params.map Prod.fst) ((D.params.map Prod.fst).map val)) pv hp hg ⟨o1, ?_, ?_, ?_⟩ (hblk _ _ _ _ hpv)
  · obtain ⟨hH, hT⟩ := hD D hdecl.mem
    have he := hH (D.params.map fun p => val p.1) (ofTys_val hval) b hb
    rw [hdecl.name] at he
    rw [he]
    rw [List.map_map] at hrel
    cases pv with
    | v a =>
      simp only [PV.data?, Option.some.injEq] at hdata
      subst hdata
      rw [hT b hb] at hrel
      exact ⟨hrel.1.symm, hrel.2⟩
    | f c => simp [PV.data?] at hdata
    | q c => simp [PV.data?] at hdata
  · intro D' hD'
    have hh := o7 D' hD'
    simp only [List.contains_eq_mem, decide_eq_false_iff_not] at hh
    exact ⟨(hD D' hD').1, (hD D' hD').2, fnEnv_out fun hx => hh.1 (hout _ hx), hh.2⟩
  · intro f hf
    refine ⟨bind_none rfl ?_, hA n hn f hf⟩
    have := o3 f hf
    simpa using this
  · intro p hp' t ht pv' hpv'
    have hcl := o2 p hp'
    rw [ht] at hcl
    simp only [Option.map_eq_some_iff] at hcl
    obtain ⟨m, hm, hmt⟩ := hcl
    have hz := lookup_zip_mem hts hm hmt
    have hx := (List.of_mem_zip hz).1
    obtain ⟨n1, n2⟩ := plain_names n o1 p hp'
    simp only [pyName, n1, n2, if_false, bind_val (val := fun p => PV.v (val p)) hx, Option.orElse_some, Option.some.injEq] at hpv'
    subst hpv'
    refine ⟨(fnEnv_val (hin _ hx)).symm, hval (p.1, t) ((hmem _).2 hz)⟩

theorem module_call {strict : Bool} {G : Globals} {targets : List FuncDef} (hn : (targets.map FuncDef.name).Nodup) {d : FuncDef} (hd : d ∈ targets)
    {k : Nat} {vs : List PV} {r : Val} (h : (pyModule strict G targets (k + 1)).call d.name vs = some r) :
    vs.length = d.params.length ∧
      (pyBlock strict (pyModule strict G targets k) (Locals.bind (fun _ => none) d.params vs) d.body).bind PV.data? = some r := by
  simp only [pyModule, find_target hn hd] at h
  split at h
  · rename_i hl
    exact ⟨hl, h⟩
  · cases h

theorem module_call_zero {strict : Bool} {G : Globals} {targets : List FuncDef} {d : FuncDef} (hd : d ∈ targets) {vs : List PV} :
    (pyModule strict G targets 0).call d.name vs = none := by
  have : targets.any (fun c => decide (c.name = d.name)) = true := List.any_eq_true.2 ⟨d, hd, by simp⟩
  simp only [pyModule, this, if_true]

theorem module_call_other {strict : Bool} {G : Globals} {targets : List FuncDef} {f : String} (h : ∀ d ∈ targets, d.name ≠ f) {vs : List PV} :
    ∀ k, (pyModule strict G targets k).call f vs = G.call f vs
  | 0 => by
    have : targets.any (fun c => decide (c.name = f)) = false := by
      simp only [List.any_eq_false, decide_eq_true_eq]
      exact h
    simp only [pyModule, this]; rfl
  | k + 1 => by simp [pyModule, find_other h]

theorem module_sound {I : Interp} (hB : Builtin I) {dsl targets : List FuncDef} {sigs dslSigs : FnSigs} {G : Globals} {st stF : St}
    (hs : sigsOf (targets ++ dsl) = some sigs) (hds : sigsOf dsl = some dslSigs) (hn : ((targets ++ dsl).map FuncDef.name).Nodup)
    (h : parseDefs sigs targets st = some stF) (hok : ∀ d ∈ targets, okDef targets stF.decls d = true)
    (hD : ∀ D ∈ stF.decls, DeclHolds I D ∧ BodyTyped D) (hA : Agrees I dslSigs G) (k : Nat) :
    ∀ d ∈ targets, ∀ D, DeclOf sigs stF d D → DefSound I (pyModule true G targets k) d D := by
  have hnt : (targets.map FuncDef.name).Nodup := by
    rw [List.map_append] at hn
    exact (List.nodup_append.1 hn).1
  have hlen : ∀ d ∈ targets, d.params.length = d.args.length ∧ d.args.all dataTy = true ∧ d.params.Nodup ∧
      ∀ n, bodyExpr d.body = some n → ∀ c ∈ targets, c.name ∈ callees n → c.params.Pairwise (· ≤ ·) := by
    intro d hd
    have := hok d hd
    unfold okDef at this
    split at this
    · cases this
    · rename_i e he
      simp only [Bool.and_eq_true, decide_eq_true_eq] at this
      obtain ⟨⟨⟨⟨-, o4⟩, o5⟩, o6⟩, -⟩ := this.1
      refine ⟨o5, o6, o4, ?_⟩
      intro n hn c hc hcn
      rw [he] at hn
      cases hn
      have h8 := List.all_eq_true.1 this.2 c hc
      simpa [hcn] using h8
  induction k with
  | zero =>
    intro d hd D _ val _ r hr
    rw [module_call_zero hd] at hr
    cases hr
  | succ k ih =>
    intro d hd D hdecl val hval r hr
    obtain ⟨-, hr⟩ := module_call hnt hd hr
    refine def_sound hB hD hdecl (hok d hd) ?_ hval hr
    intro n hbe f hf s hs' hlenf ps vs hrels w hw
    by_cases hft : ∃ c ∈ targets, c.name = f
    · obtain ⟨c, hc, rfl⟩ := hft
      obtain ⟨E, hE⟩ := declOf hs hn h hc (hlen c hc).1
      rw [hE.sig] at hs'
      cases hs'
      obtain ⟨ts, t1, rfl, t3⟩ := rels_data (hlen c hc).2.1 hrels
      obtain ⟨ts', u1, u2, u3⟩ := hE.params
      rw [t1] at u1
      cases u1
      have hsorted := (hlen d hd).2.2.2 n hbe c hc hf
      have hzf : (c.params.zip ts).map Prod.fst = c.params := zip_fst (by omega)
      have hzs : (c.params.zip ts).map Prod.snd = ts := List.map_snd_zip (by omega)
      have u4 : E.params = c.params.zip ts := by rw [u3, sortParams_sorted (by rw [hzf]; exact hsorted)]
      have hvl : vs.length = c.params.length := by rw [ofTys_length t3, u2]
      have hself := lookup_zip_self (vs := vs) (hlen c hc).2.2.1 hvl
      have hmapE : (E.params.map fun p => ((c.params.zip vs).lookup p.1).getD (.int 0)) = vs := by
        have hc' := congrArg (List.map fun p => ((c.params.zip vs).lookup p).getD (.int 0)) hzf
        rw [List.map_map, hself] at hc'
        rw [u4]
        exact hc'
      have := ih c hc E hE (fun p => ((c.params.zip vs).lookup p).getD (.int 0)) ?_ w ?_
      · rw [hmapE] at this
        exact this
      · have hty : OfTys (E.params.map Prod.snd) (E.params.map fun p => ((c.params.zip vs).lookup p.1).getD (.int 0)) := by
          rw [hmapE, u4, hzs]; exact t3
        generalize E.params = qs at hty
        generalize (fun p => ((c.params.zip vs).lookup p).getD (.int 0)) = val' at hty
        intro p hp
        induction qs with
        | nil => cases hp
        | cons q qs ih2 =>
          simp only [List.map_cons, OfTys] at hty
          rcases List.mem_cons.1 hp with rfl | hp
          · exact hty.1
          · exact ih2 hty.2 hp
      · have : (c.params.map fun p => PV.v (((c.params.zip vs).lookup p).getD (.int 0))) = vs.map .v := by
          have hc' := congrArg (List.map PV.v) hself
          rw [List.map_map] at hc'
          exact hc'
        rw [this]
        exact hw
    · have hft' : ∀ c ∈ targets, c.name ≠ f := fun c hc hcf => hft ⟨c, hc, hcf⟩
      rw [module_call_other hft'] at hw
      obtain ⟨c, hc, hcn, hsig⟩ := sigsOf_lookup hs f s hs'
      have hcd : c ∈ dsl := (List.mem_append.1 hc).resolve_left fun hx => hft' c hx hcn
      have hnd : (dsl.map FuncDef.name).Nodup := by
        rw [List.map_append] at hn
        exact (List.nodup_append.1 hn).2.1
      obtain ⟨s2, hl2, hsig2⟩ := sigsOf_lookup_mem hds hnd c hcd
      rw [hcn] at hsig2 hl2
      rw [hsig] at hsig2
      cases hsig2
      exact hA f s hl2 hlenf ps vs hrels w hw

end Llm
end Metalift
