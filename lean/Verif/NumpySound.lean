import Verif.NumpySelect
/-
The text generated for an expression reads back as an expression whose value represents the value of the IR.
-/
namespace Metalift.Np
open Metalift Py Metalift.Ten

/-- Types `helper` gives to the values of a kind. -/
def TyOk : K → Ty → Prop
  | .int, τ => τ = .int
  | .bool, τ => τ = .bool ∨ τ = .list .bool
  | .vec, τ => τ = .list .int
  | .mat, τ => τ = .list (.list .int)

theorem tyOk_of_kind {t : Ty} {k : K} (h : kindOf t = some k) : TyOk k t := by
  unfold kindOf at h
  split at h <;> (try cases h)
  · rfl
  · exact Or.inl rfl
  · rfl
  · rfl

/-- The variables of the kernel stand for the parameters. -/
structure EnvOk (params : List (String × Ty)) (ρ : Env) (η : String → Option NV) : Prop where
  np : η "np" = none
  rep : ∀ x t k, (x, t) ∈ params → kindOf t = some k → ∃ v, η x = some v ∧ Rep k v (ρ x)

/-- What is shown about an expression. -/
def Good (fns : List (String × SynthFn)) (params : List (String × Ty)) (e : Expr) (i : Info) : Prop :=
  ∃ N toks a, (∀ n, N ≤ n → ∀ σ : List (String × Expr), (∀ x ∈ names e, σ.lookup x = none) → gen fns false n σ e = some (toks, i.τ)) ∧
    Lv i.lvl toks a ∧ TyOk i.k i.τ ∧
    ∀ I, NpModel I → ∀ w ρ η, EnvOk params ρ η → Fits fns I w ρ e → ∃ v, eval w η a = some v ∧ Rep i.k v (Metalift.eval I ρ e)

theorem goods {fns : List (String × SynthFn)} {params : List (String × Ty)} :
    ∀ (args : List Expr) (is : List Info) (ks : List (K × Nat)), (∀ a ∈ args, ∀ i, check fns params a = some i → Good fns params a i) →
      checks fns params args = some is → argsOk ks is = true →
      ∃ N ps as, (∀ n, N ≤ n → ∀ σ : List (String × Expr), (∀ x ∈ namess args, σ.lookup x = none) → gens fns false n σ args = some ps) ∧
        ArgsRead ks (ps.map Prod.fst) as ∧
        ∀ I, NpModel I → ∀ w ρ η, EnvOk params ρ η → FitsAll fns I w ρ args → ArgsEval w η ks as (Metalift.evals I ρ args)
  | [], is, ks, _, h, hk => by
    rw [checks] at h
    injection h with h
    subst h
    cases ks with
    | cons _ _ => cases hk
    | nil => exact ⟨0, [], [], fun n _ σ _ => by rw [gens], .nil, fun I _ w ρ η _ _ => .nil⟩
  | e :: es, is, ks, ih, h, hk => by
    rw [checks, Option.bind_eq_some_iff] at h
    obtain ⟨i, hi, h⟩ := h
    rw [Option.bind_eq_some_iff] at h
    obtain ⟨is', his, h⟩ := h
    injection h with h
    subst h
    cases ks with
    | nil => cases hk
    | cons kl ks =>
      obtain ⟨k, l⟩ := kl
      rw [argsOk, Bool.and_eq_true, Bool.and_eq_true, decide_eq_true_eq, decide_eq_true_eq] at hk
      obtain ⟨⟨rfl, hl⟩, hk⟩ := hk
      obtain ⟨N, t, a, hg, hlv, -, hs⟩ := ih e (by simp) i hi
      obtain ⟨M, ps, as, hgs, hr, hss⟩ := goods es is' ks (fun a ha => ih a (by simp [ha])) his hk
      refine ⟨N + M + 1, (t, i.τ) :: ps, a :: as, fun n hn σ hσ => ?_, .cons hlv hl hr, fun I hI w ρ η hE hf => ?_⟩
      · obtain ⟨m, rfl⟩ : ∃ m, n = m + 1 := ⟨n - 1, by omega⟩
        rw [gens, hg m (by omega) σ (fun x hx => hσ x (by rw [namess]; simp [hx])), Option.bind_some,
          hgs m (by omega) σ (fun x hx => hσ x (by rw [namess]; simp [hx])), Option.bind_some]
      · rw [FitsAll] at hf
        obtain ⟨v, hv, hrep⟩ := hs I hI w ρ η hE hf.1
        exact .cons hv hrep (hss I hI w ρ η hE hf.2)

/-- The functions of the table are translated by their entry in `translations`. -/
theorem table_names : ∀ p ∈ fnTable, p.1.endsWith "matrix_selection_two_args" = false ∧ p.1 ≠ "map_int_to_int" ∧ p.1 ≠ "vec_map" := by
  decide +kernel

theorem good_call {fns : List (String × SynthFn)} {params : List (String × Ty)} {f : String} {t : Ty} {args : List Expr} {F : Fn} {is : List Info}
    (ih : ∀ a ∈ args, ∀ i, check fns params a = some i → Good fns params a i) (hF : fnTable.lookup f = some F) (h : checks fns params args = some is)
    (hk : argsOk F.args is = true) (ht : kindOf t = some F.res) : Good fns params (.node (.call f) t args) ⟨F.res, t, F.lvl⟩ := by
  obtain ⟨N, ps, as, hg, hr, hs⟩ := goods args is F.args ih h hk
  obtain ⟨ts, htext, hlv⟩ := callText_reads hF hr
  obtain ⟨hn1, hn2, hn3⟩ := table_names _ (mem_of_lookup hF)
  refine ⟨N + 1, ts, F.ast as, fun n hn σ hσ => ?_, hlv, tyOk_of_kind ht, fun I hI w ρ η hE hf => ?_⟩
  · obtain ⟨m, rfl⟩ : ∃ m, n = m + 1 := ⟨n - 1, by omega⟩
    rw [gen, hg m (by omega) σ (fun x hx => hσ x (by rw [names]; exact hx)), Option.bind_some, if_neg (by simp [hn1]), if_neg (by simp [hn2, hn3]), htext]
    rfl
  · rw [Fits] at hf
    have := fn_sound hI hE.np hF (hs I hI w ρ η hE hf.1) (hf.2.1 F hF)
    exact this

theorem lookup2_none {p q x : String} {a b : Expr} (h1 : x ≠ p) (h2 : x ≠ q) : List.lookup x [(q, b), (p, a)] = none := by
  simp [List.lookup, beq_false_of_ne h1, beq_false_of_ne h2]

theorem good_select {fns : List (String × SynthFn)} {params : List (String × Ty)} {m m' : Expr} {t : Ty} {z : String} {tz : Ty} {i j : Info}
    {r : String × String × Expr × Expr × Expr} (hm : Good fns params m i) (hm' : Good fns params m' j) (hr : checkSelect fns = some r)
    (hc : i.k = .mat ∧ j.k = .mat ∧ r.1 ∉ names m ++ names m' ∧ r.2.1 ∉ names m ++ names m' ∧ kindOf t = some .mat) :
    Good fns params (.node (.call "matrix_selection_two_args") t [m, m', .var z tz]) ⟨.mat, t, 8⟩ := by
  obtain ⟨ki, kj, hn1, hn2, ht⟩ := hc
  obtain ⟨N, toks, am, g1, l1, y1, e1⟩ := hm
  obtain ⟨M, toks', am', g2, l2, y2, e2⟩ := hm'
  rw [ki] at y1 e1
  rw [kj] at y2 e2
  have hσ : ∀ x ∈ names m ++ names m', List.lookup x [(r.2.1, m'), (r.1, m)] = none := fun x hx =>
    lookup2_none (fun h => hn1 (h ▸ hx)) (fun h => hn2 (h ▸ hx))
  obtain ⟨L, ts, a, hg, hlv, hs⟩ := select_sound hr (N := N + M)
    (fun n hn => by rw [g1 n (by omega) _ (fun x hx => hσ x (by simp [hx])), show i.τ = _ from y1])
    (fun n hn => by rw [g2 n (by omega) _ (fun x hx => hσ x (by simp [hx])), show j.τ = _ from y2]) l1 l2 t [.var z tz]
  refine ⟨N + M + L + 5, ts, a, fun n hn σ hσ => ?_, hlv, tyOk_of_kind ht, fun I hI w ρ η hE hf => ?_⟩
  · obtain ⟨k, rfl⟩ : ∃ k, n = k + 5 := ⟨n - 5, by omega⟩
    refine hg (k + 4) (by omega) σ [(toks, i.τ), (toks', j.τ), ([.name z], tz)] ?_
    have hz : σ.lookup z = none := hσ z (by simp [names, namess])
    rw [gens, g1 _ (by omega) σ (fun x hx => hσ x (by simp [names, namess, hx])), Option.bind_some, gens,
      g2 _ (by omega) σ (fun x hx => hσ x (by simp [names, namess, hx])), Option.bind_some, gens, gen, hz, gens]
    rfl
  · rw [Fits, FitsAll, FitsAll] at hf
    obtain ⟨⟨f1, f2, -⟩, -, f3⟩ := hf
    obtain ⟨u, hu, ru⟩ := e1 I hI w ρ η hE f1
    obtain ⟨u', hu', ru'⟩ := e2 I hI w ρ η hE f2
    obtain ⟨c, ms, rfl, hms, h1, h2⟩ := ru.mat_inv
    obtain ⟨c', ns, rfl, hns, h1', h2'⟩ := ru'.mat_inv
    have hargs : Metalift.evals I ρ [m, m', .var z tz] = [matV ms, matV ns, ρ z] := by
      simp only [Metalift.evals, Metalift.eval, hms, hns]
    rw [hms] at ru
    rw [hns] at ru'
    obtain ⟨v, hv, rv⟩ := hs I hI w η hE.np ms ns (ρ z) _ _ hu ru hu' ru' (f3 rfl ms ns (ρ z) hargs)
    refine ⟨v, hv, ?_⟩
    rw [Metalift.eval, hargs]
    exact rv

theorem eval_ite {w : Int → Int} {η : String → Option NV} {c a b : Ast} {t : Bool} (h : eval w η c = some (.arr (.sc (.bool t)))) :
    eval w η (.ite c a b) = if t then eval w η a else eval w η b := by
  rw [eval, h]; rfl

theorem good_ite {fns : List (String × SynthFn)} {params : List (String × Ty)} {c a b : Expr} {t : Ty} {i j k : Info}
    (hc : Good fns params c i) (ha : Good fns params a j) (hb : Good fns params b k)
    (h : i.k = .bool ∧ j.k = k.k ∧ j.τ = exprTy a ∧ k.τ = exprTy a ∧ 1 ≤ i.lvl ∧ 1 ≤ j.lvl) : Good fns params (.node .ite t [c, a, b]) ⟨j.k, j.τ, 0⟩ := by
  obtain ⟨hi, hjk, hja, hka, hil, hjl⟩ := h
  obtain ⟨N1, x, A, g1, l1, y1, e1⟩ := hc
  obtain ⟨N2, y, B, g2, l2, y2, e2⟩ := ha
  obtain ⟨N3, z, C, g3, l3, y3, e3⟩ := hb
  have hgen : ∀ n, N1 + N2 + N3 + 1 ≤ n → ∀ σ : List (String × Expr), (∀ v ∈ names (.node .ite t [c, a, b]), σ.lookup v = none) →
      gen fns false n σ (.node .ite t [c, a, b]) = if x = [.tru] then some (y, j.τ) else if x = [.fls] then some (z, j.τ) else
        some (y ++ .kif :: (x ++ .kelse :: z), j.τ) := by
    intro n hn σ hσ
    obtain ⟨m, rfl⟩ : ∃ m, n = m + 1 := ⟨n - 1, by omega⟩
    rw [gen]
    simp only [g1 m (by omega) [] (fun _ _ => rfl), Option.bind_some, g2 m (by omega) σ (fun v hv => hσ v (by simp [names, namess, hv])),
      g3 m (by omega) σ (fun v hv => hσ v (by simp [names, namess, hv])), hja, hka]
  have hfit : ∀ {I : Interp} {w : Int → Int} {ρ : Env}, Fits fns I w ρ (.node .ite t [c, a, b]) →
      Fits fns I w ρ c ∧ if (Metalift.eval I ρ c).asBool then Fits fns I w ρ a else Fits fns I w ρ b := fun {I w ρ} h => by rwa [Fits] at h
  have hval : ∀ (I : Interp) (ρ : Env), Metalift.eval I ρ (.node .ite t [c, a, b]) = if (Metalift.eval I ρ c).asBool then Metalift.eval I ρ a else Metalift.eval I ρ b :=
    fun _ _ => rfl
  rw [hi] at e1
  by_cases hx : x = [.tru]
  · subst hx
    have hA : A = .bool true := Parses.unique l1.zero.parses (Lv.prim atom_tru.primary).zero.parses
    subst hA
    refine ⟨_, y, B, fun n hn σ hσ => by rw [hgen n hn σ hσ, if_pos rfl], .of (Nat.zero_lt_succ 7) l2.zero, y2, fun I hI w ρ η hE hf => ?_⟩
    obtain ⟨fc, fab⟩ := hfit hf
    obtain ⟨v, hv, rv⟩ := e1 I hI w ρ η hE fc
    obtain ⟨b', rfl, hb'⟩ := rv.bool_inv
    injection hv with hv; injection hv with hv; injection hv with hv; injection hv with hv
    subst hv
    rw [hb'] at fab
    rw [hval, hb']
    exact e2 I hI w ρ η hE fab
  by_cases hx' : x = [.fls]
  · subst hx'
    have hA : A = .bool false := Parses.unique l1.zero.parses (Lv.prim atom_fls.primary).zero.parses
    subst hA
    refine ⟨_, z, C, fun n hn σ hσ => by rw [hgen n hn σ hσ, if_neg hx, if_pos rfl], .of (Nat.zero_lt_succ 7) l3.zero, y2, fun I hI w ρ η hE hf => ?_⟩
    obtain ⟨fc, fab⟩ := hfit hf
    obtain ⟨v, hv, rv⟩ := e1 I hI w ρ η hE fc
    obtain ⟨b', rfl, hb'⟩ := rv.bool_inv
    injection hv with hv; injection hv with hv; injection hv with hv; injection hv with hv
    subst hv
    rw [hb'] at fab
    rw [hval, hb']
    simp only [hjk]
    exact e3 I hI w ρ η hE fab
  · refine ⟨_, _, .ite A B C, fun n hn σ hσ => by rw [hgen n hn σ hσ, if_neg hx, if_neg hx'], .of (Nat.zero_lt_succ 7) (reads_ite (l2.at hjl) (l1.at hil) l3.zero), y2,
      fun I hI w ρ η hE hf => ?_⟩
    obtain ⟨fc, fab⟩ := hfit hf
    obtain ⟨v, hv, rv⟩ := e1 I hI w ρ η hE fc
    obtain ⟨b', rfl, hb'⟩ := rv.bool_inv
    rw [hb'] at fab
    rw [hval, hb', eval_ite hv]
    cases b' with
    | true => exact e2 I hI w ρ η hE fab
    | false =>
      simp only [hjk]
      exact e3 I hI w ρ η hE fab

theorem good_not {fns : List (String × SynthFn)} {params : List (String × Ty)} {a : Expr} {t : Ty} {i : Info} {r : Info} (ha : Good fns params a i)
    (h : (if i.k = .bool then (if i.τ = .bool then (if 3 ≤ i.lvl then some ⟨.bool, .bool, 3⟩ else none) else some ⟨.bool, .list .bool, 8⟩) else none) = some r) :
    Good fns params (.node .not t [a]) r := by
  by_cases hk : i.k = .bool
  rotate_left
  · rw [if_neg hk] at h; cases h
  rw [if_pos hk] at h
  obtain ⟨N, x, A, g, l, y, e⟩ := ha
  rw [hk] at y e
  have hgens : ∀ n, N + 1 ≤ n → ∀ σ : List (String × Expr), (∀ v ∈ names (.node .not t [a]), σ.lookup v = none) → gens fns false n σ [a] = some [(x, i.τ)] := by
    intro n hn σ hσ
    exact gens1 (fun m hm => g m hm σ (fun v hv => hσ v (by simp [names, namess, hv]))) n hn
  have hsem : ∀ {B : Ast}, (∀ {w : Int → Int} {η : String → Option NV} {b : Bool}, η "np" = none → eval w η A = some (.arr (.sc (.bool b))) → eval w η B = some (.arr (.sc (.bool !b)))) →
      ∀ I, NpModel I → ∀ w ρ η, EnvOk params ρ η → Fits fns I w ρ (.node .not t [a]) → ∃ v, eval w η B = some v ∧ Rep .bool v (Metalift.eval I ρ (.node .not t [a])) := by
    intro B hB I hI w ρ η hE hf
    simp only [Fits, FitsAll] at hf
    obtain ⟨v, hv, rv⟩ := e I hI w ρ η hE hf.1.1
    obtain ⟨b, rfl, hb⟩ := rv.bool_inv
    refine ⟨_, hB hE.np hv, ?_⟩
    have : Metalift.eval I ρ (.node .not t [a]) = .bool (!b) := by
      show evalOp I .not [Metalift.eval I ρ a] = _
      rw [hb]; rfl
    rw [this]
    exact .bool _
  by_cases hτ : i.τ = .bool
  · rw [if_pos hτ] at h
    by_cases hl : 3 ≤ i.lvl
    rotate_left
    · rw [if_neg hl] at h; cases h
    rw [if_pos hl] at h
    injection h with h
    subst h
    refine ⟨N + 2, .knot :: x, .not A, fun n hn σ hσ => ?_, .of (show 3 < 8 by omega) (reads_not (l.at hl)), Or.inl rfl, hsem fun {w η b} _ hv => ?_⟩
    · obtain ⟨m, rfl⟩ : ∃ m, n = m + 1 := ⟨n - 1, by omega⟩
      rw [gen_op (Or.inr (Or.inr (by simp))), hgens m (by omega) σ hσ, Option.bind_some, if_neg (by decide), if_neg (by decide), hτ]
      rfl
    · rw [eval, hv]; rfl
  · rw [if_neg hτ] at h
    injection h with h
    subst h
    have hτ' : i.τ = .list .bool := (show i.τ = .bool ∨ i.τ = .list .bool from y).resolve_left hτ
    refine ⟨N + 2, npCall "logical_not" [x], npAst "logical_not" [A], fun n hn σ hσ => ?_, npCall_lv _ (.cons l.zero.isArg .nil), Or.inr rfl,
      hsem fun {w η b} hη hv => ?_⟩
    · obtain ⟨m, rfl⟩ : ∃ m, n = m + 1 := ⟨n - 1, by omega⟩
      rw [gen_op (Or.inr (Or.inr (by simp))), hgens m (by omega) σ hσ, Option.bind_some, if_neg (by decide), if_neg (by decide), hτ']
      rfl
    · rw [eval_np1 hη _ hv]; rfl

/-- The conditions of `check` for binary operators. -/
def binCheck (o : Op) (i j : Info) : Option Info :=
  if i.k = .int ∧ j.k = .int then
    if o ∈ [Op.add, .sub] then some ⟨.int, .int, 5⟩
    else if o ∈ [Op.mul, .div, .mod] then some ⟨.int, .int, 6⟩
    else if o ∈ [Op.eq, .lt, .le, .gt, .ge] then (if 5 ≤ i.lvl ∧ 5 ≤ j.lvl then some ⟨.bool, .bool, 4⟩ else none)
    else none
  else if i.k = .bool ∧ j.k = .bool then
    if o = .eq then some ⟨.bool, .list .bool, 8⟩
    else if o = .and then (if i.τ = .bool ∧ j.τ = .bool then some ⟨.bool, .bool, 2⟩ else none)
    else if o = .or then (if i.τ = .bool ∧ j.τ = .bool then some ⟨.bool, .bool, 1⟩ else none)
    else none
  else none

theorem good_bin {fns : List (String × SynthFn)} {params : List (String × Ty)} {a b : Expr} {t : Ty} {o : Op} {i j r : Info}
    (ha : Good fns params a i) (hb : Good fns params b j) (h : binCheck o i j = some r) : Good fns params (.node o t [a, b]) r := by
  obtain ⟨N, x, A, g, l, y, e⟩ := ha
  obtain ⟨M, x', B, g', l', y', e'⟩ := hb
  have hgens : ∀ n, N + M + 2 ≤ n → ∀ σ : List (String × Expr), (∀ v ∈ names (.node o t [a, b]), σ.lookup v = none) →
      gens fns false n σ [a, b] = some [(x, i.τ), (x', j.τ)] := by
    intro n hn σ hσ
    exact gens2 (fun m hm => g m hm σ (fun v hv => hσ v (by simp [names, namess, hv]))) (fun m hm => g' m hm σ (fun v hv => hσ v (by simp [names, namess, hv]))) n hn
  have hev : ∀ (I : Interp) (ρ : Env), Metalift.eval I ρ (.node o t [a, b]) = evalOp I o [Metalift.eval I ρ a, Metalift.eval I ρ b] := fun _ _ => rfl
  unfold binCheck at h
  by_cases hk : i.k = .int ∧ j.k = .int
  · rw [if_pos hk] at h
    rw [hk.1] at y e
    rw [hk.2] at y' e'
    have harith : o ∈ arithOps → Good fns params (.node o t [a, b]) ⟨.int, .int, opLvl o⟩ := by
      intro ho
      obtain ⟨ts, ht, hlv⟩ := arithText_ok (o := o) ho (s := i.τ) (t := j.τ) (u := .int) l l' (Or.inl ⟨y, y', rfl⟩)
      refine ⟨N + M + 3, ts, .bin (opBin o) A B, fun n hn σ hσ => ?_, hlv, rfl, fun I hI w ρ η hE hf => ?_⟩
      · obtain ⟨m, rfl⟩ : ∃ m, n = m + 1 := ⟨n - 1, by omega⟩
        rw [gen_op (Or.inl ho), hgens m (by omega) σ hσ, Option.bind_some, if_pos ho, ht]
      · have hf' : (Fits fns I w ρ a ∧ Fits fns I w ρ b ∧ True) ∧ opOk w o [Metalift.eval I ρ a, Metalift.eval I ρ b] (Metalift.eval I ρ (.node o t [a, b])) := by
          simp only [arithOps, List.mem_cons, List.not_mem_nil, or_false] at ho
          rcases ho with rfl | rfl | rfl | rfl | rfl <;> (simp only [Fits, FitsAll] at hf; exact hf)
        obtain ⟨⟨fa, fb, -⟩, hok⟩ := hf'
        obtain ⟨u, hu, ru⟩ := e I hI w ρ η hE fa
        obtain ⟨v, hv, rv⟩ := e' I hI w ρ η hE fb
        obtain ⟨p, rfl, hp⟩ := ru.int_inv
        obtain ⟨q, rfl, hq⟩ := rv.int_inv
        rw [hev, hp, hq] at hok
        obtain ⟨z, h1, h2, -⟩ := op_int hI ho hok
        refine ⟨_, eval_bin hu hv h2, ?_⟩
        rw [hev, hp, hq, h1]
        exact .int _
    by_cases h1 : o ∈ [Op.add, .sub]
    · rw [if_pos h1] at h
      injection h with h
      subst h
      have : opLvl o = 5 := by
        simp only [List.mem_cons, List.not_mem_nil, or_false] at h1
        rcases h1 with rfl | rfl <;> rfl
      rw [← this]
      exact harith (by simp only [List.mem_cons, List.not_mem_nil, or_false] at h1; rcases h1 with rfl | rfl <;> simp [arithOps])
    rw [if_neg h1] at h
    by_cases h2 : o ∈ [Op.mul, .div, .mod]
    · rw [if_pos h2] at h
      injection h with h
      subst h
      have : opLvl o = 6 := by
        simp only [List.mem_cons, List.not_mem_nil, or_false] at h2
        rcases h2 with rfl | rfl | rfl <;> rfl
      rw [← this]
      exact harith (by simp only [List.mem_cons, List.not_mem_nil, or_false] at h2; rcases h2 with rfl | rfl | rfl <;> simp [arithOps])
    rw [if_neg h2] at h
    by_cases h3 : o ∈ [Op.eq, .lt, .le, .gt, .ge]
    rotate_left
    · rw [if_neg h3] at h; cases h
    rw [if_pos h3] at h
    by_cases h4 : 5 ≤ i.lvl ∧ 5 ≤ j.lvl
    rotate_left
    · rw [if_neg h4] at h; cases h
    rw [if_pos h4] at h
    injection h with h
    subst h
    have h3 : o ∈ cmpOps := h3
    have h3' : o ∉ arithOps := by
      simp only [cmpOps, List.mem_cons, List.not_mem_nil, or_false] at h3
      rcases h3 with rfl | rfl | rfl | rfl | rfl <;> decide
    obtain ⟨ts, ht, hlv⟩ := cmpText_int h3 (l.at h4.1) (l'.at h4.2)
    refine ⟨N + M + 3, ts, .cmp (opCmp o) A B, fun n hn σ hσ => ?_, hlv, Or.inl rfl, fun I hI w ρ η hE hf => ?_⟩
    · obtain ⟨m, rfl⟩ : ∃ m, n = m + 1 := ⟨n - 1, by omega⟩
      rw [gen_op (Or.inr (Or.inl h3)), hgens m (by omega) σ hσ, Option.bind_some, if_neg h3', if_pos h3, show i.τ = .int from y, show j.τ = .int from y', ht]
    · have hf' : (Fits fns I w ρ a ∧ Fits fns I w ρ b ∧ True) := by
        simp only [cmpOps, List.mem_cons, List.not_mem_nil, or_false] at h3
        rcases h3 with rfl | rfl | rfl | rfl | rfl <;> (simp only [Fits, FitsAll] at hf; exact hf.1)
      obtain ⟨fa, fb, -⟩ := hf'
      obtain ⟨u, hu, ru⟩ := e I hI w ρ η hE fa
      obtain ⟨v, hv, rv⟩ := e' I hI w ρ η hE fb
      obtain ⟨p, rfl, hp⟩ := ru.int_inv
      obtain ⟨q, rfl, hq⟩ := rv.int_inv
      obtain ⟨z, h1, h2, -⟩ := op_cmp I w h3 p q
      refine ⟨.arr (.sc (.bool z)), ?_, ?_⟩
      · rw [eval, hu, hv]
        show ((compare (opCmp o) (.int p) (.int q)).map Arr.sc).map NV.arr = _
        rw [h2]; rfl
      · rw [hev, hp, hq, h1]
        exact .bool _
  rw [if_neg hk] at h
  by_cases hk' : i.k = .bool ∧ j.k = .bool
  rotate_left
  · rw [if_neg hk'] at h; cases h
  rw [if_pos hk'] at h
  rw [hk'.1] at y e
  rw [hk'.2] at y' e'
  by_cases h1 : o = .eq
  · subst h1
    rw [if_pos rfl] at h
    injection h with h
    subst h
    obtain ⟨ts, ht, hlv⟩ := cmpText_np (o := .eq) (by decide) (s := i.τ) (t := j.τ) l l' (Or.inl (by
      rcases (show i.τ = .bool ∨ i.τ = .list .bool from y) with h | h <;> rw [h] <;> simp))
    refine ⟨N + M + 3, ts, _, fun n hn σ hσ => ?_, hlv, Or.inr rfl, fun I hI w ρ η hE hf => ?_⟩
    · obtain ⟨m, rfl⟩ : ∃ m, n = m + 1 := ⟨n - 1, by omega⟩
      rw [gen_op (Or.inr (Or.inl (by decide))), hgens m (by omega) σ hσ, Option.bind_some, if_neg (by decide), if_pos (by decide), ht]
    · simp only [Fits, FitsAll] at hf
      obtain ⟨u, hu, ru⟩ := e I hI w ρ η hE hf.1.1
      obtain ⟨v, hv, rv⟩ := e' I hI w ρ η hE hf.1.2.1
      obtain ⟨p, rfl, hp⟩ := ru.bool_inv
      obtain ⟨q, rfl, hq⟩ := rv.bool_inv
      refine ⟨.arr (.sc (.bool (decide (p = q)))), ?_, ?_⟩
      · rw [eval_np2 hE.np _ hu hv]
        cases p <;> cases q <;> rfl
      · have : Metalift.eval I ρ (.node .eq t [a, b]) = .bool (decide (p = q)) := by
          rw [hev, hp, hq]
          cases p <;> cases q <;> rfl
        rw [this]
        exact .bool _
  rw [if_neg h1] at h
  by_cases h2 : o = .and
  · subst h2
    rw [if_pos rfl] at h
    by_cases hτ : i.τ = .bool ∧ j.τ = .bool
    rotate_left
    · rw [if_neg hτ] at h; cases h
    rw [if_pos hτ] at h
    injection h with h
    subst h
    refine ⟨N + M + 3, parenBin .kand x x', .and A B, fun n hn σ hσ => ?_, parenBin_and l.zero l'.zero, Or.inl rfl, fun I hI w ρ η hE hf => ?_⟩
    · obtain ⟨m, rfl⟩ : ∃ m, n = m + 1 := ⟨n - 1, by omega⟩
      rw [gen_op (Or.inr (Or.inr (by simp))), hgens m (by omega) σ hσ, Option.bind_some, if_neg (by decide), if_neg (by decide), hτ.1, hτ.2]
      rfl
    · rw [Fits] at hf
      obtain ⟨fa, fb⟩ := hf
      obtain ⟨u, hu, ru⟩ := e I hI w ρ η hE fa
      obtain ⟨p, rfl, hp⟩ := ru.bool_inv
      rw [hp] at fb
      have hand : eval w η (.and A B) = if p then eval w η B else some (.arr (.sc (.bool p))) := by rw [eval, hu]; rfl
      rw [hand, hev, hp]
      cases p with
      | false => exact ⟨_, rfl, .bool false⟩
      | true =>
        obtain ⟨v, hv, rv⟩ := e' I hI w ρ η hE (fb rfl)
        obtain ⟨q, rfl, hq⟩ := rv.bool_inv
        refine ⟨_, hv, ?_⟩
        rw [hq]
        cases q <;> exact .bool _
  rw [if_neg h2] at h
  by_cases h3 : o = .or
  rotate_left
  · rw [if_neg h3] at h; cases h
  subst h3
  rw [if_pos rfl] at h
  by_cases hτ : i.τ = .bool ∧ j.τ = .bool
  rotate_left
  · rw [if_neg hτ] at h; cases h
  rw [if_pos hτ] at h
  injection h with h
  subst h
  refine ⟨N + M + 3, parenBin .kor x x', .or A B, fun n hn σ hσ => ?_, parenBin_or l.zero l'.zero, Or.inl rfl, fun I hI w ρ η hE hf => ?_⟩
  · obtain ⟨m, rfl⟩ : ∃ m, n = m + 1 := ⟨n - 1, by omega⟩
    rw [gen_op (Or.inr (Or.inr (by simp))), hgens m (by omega) σ hσ, Option.bind_some, if_neg (by decide), if_neg (by decide), hτ.1, hτ.2]
    rfl
  · rw [Fits] at hf
    obtain ⟨fa, fb⟩ := hf
    obtain ⟨u, hu, ru⟩ := e I hI w ρ η hE fa
    obtain ⟨p, rfl, hp⟩ := ru.bool_inv
    rw [hp] at fb
    have hor : eval w η (.or A B) = if p then some (.arr (.sc (.bool p))) else eval w η B := by rw [eval, hu]; rfl
    rw [hor, hev, hp]
    cases p with
    | true => exact ⟨_, rfl, .bool true⟩
    | false =>
      obtain ⟨v, hv, rv⟩ := e' I hI w ρ η hE (fb rfl)
      obtain ⟨q, rfl, hq⟩ := rv.bool_inv
      refine ⟨_, hv, ?_⟩
      rw [hq]
      cases q <;> exact .bool _

/-- Everything `check` accepts is translated well. -/
theorem check_good {fns : List (String × SynthFn)} {params : List (String × Ty)} :
    ∀ (e : Expr) (i : Info), check fns params e = some i → Good fns params e i := by
  refine Expr.ind ?_ ?_ ?_
  · intro x t i h
    rw [check] at h
    by_cases hm : (x, t) ∈ params
    rotate_left
    · rw [if_neg hm] at h; cases h
    rw [if_pos hm, Option.map_eq_some_iff] at h
    obtain ⟨k, hk, rfl⟩ := h
    refine ⟨1, [.name x], .name x, fun n hn σ hσ => ?_, .prim (atom_name _).primary, tyOk_of_kind hk, fun I hI w ρ η hE hf => ?_⟩
    · obtain ⟨m, rfl⟩ : ∃ m, n = m + 1 := ⟨n - 1, by omega⟩
      rw [gen, hσ x (by simp [names])]
    · obtain ⟨v, hv, rv⟩ := hE.rep x t k hm hk
      exact ⟨v, hv, rv⟩
  · intro l i h
    obtain ⟨a, hla, he⟩ := lit_reads l
    cases l with
    | int j =>
      rw [check] at h
      injection h with h
      subst h
      refine ⟨1, _, a, fun n hn σ hσ => ?_, hla, rfl, fun I hI w ρ η hE hf => ⟨_, he w η, .int _⟩⟩
      obtain ⟨k, rfl⟩ : ∃ k, n = k + 1 := ⟨n - 1, by omega⟩
      rw [gen]; rfl
    | bool j =>
      rw [check] at h
      injection h with h
      subst h
      refine ⟨1, _, a, fun n hn σ hσ => ?_, hla, Or.inl rfl, fun I hI w ρ η hE hf => ⟨_, he w η, .bool _⟩⟩
      obtain ⟨k, rfl⟩ : ∃ k, n = k + 1 := ⟨n - 1, by omega⟩
      rw [gen]; rfl
  · intro o t args ih i h
    unfold check at h
    split at h
    · cases ‹Expr.node o t args = _›
    · cases ‹Expr.node o t args = _›
    · cases ‹Expr.node o t args = _›
    · next heq =>
      injection heq with h1 h2 h3
      subst h1; subst h2; subst h3
      simp only [Option.bind_eq_some_iff] at h
      obtain ⟨i1, hi1, i2, hi2, r, hr, h⟩ := h
      split at h
      · next hc =>
        injection h with h
        subst h
        exact good_select (ih _ (by simp) i1 hi1) (ih _ (by simp) i2 hi2) hr hc
      · cases h
    · next heq =>
      injection heq with h1 h2 h3
      subst h1; subst h2; subst h3
      simp only [Option.bind_eq_some_iff] at h
      obtain ⟨F, hF, is, his, h⟩ := h
      split at h
      · next hc =>
        injection h with h
        subst h
        exact good_call ih hF his hc.1 hc.2
      · cases h
    · next a b heq =>
      injection heq with h1 h2 h3
      subst h1; subst h2; subst h3
      obtain ⟨N, x, A, g, l, y, e⟩ := ih a (by simp) i h
      refine ⟨N + 2, x, A, fun n hn σ hσ => ?_, l, y, fun I hI w ρ η hE hf => ?_⟩
      · obtain ⟨k, rfl⟩ : ∃ k, n = k + 2 := ⟨n - 2, by omega⟩
        rw [gen]
        simp only [gen, Option.bind_some, Lit.toPython, if_true]
        exact g _ (by omega) σ (fun v hv => hσ v (by simp [names, namess, hv]))
      · rw [Fits] at hf
        exact e I hI w ρ η hE hf.2
    · next a b heq =>
      injection heq with h1 h2 h3
      subst h1; subst h2; subst h3
      obtain ⟨N, x, A, g, l, y, e⟩ := ih b (by simp) i h
      refine ⟨N + 2, x, A, fun n hn σ hσ => ?_, l, y, fun I hI w ρ η hE hf => ?_⟩
      · obtain ⟨k, rfl⟩ : ∃ k, n = k + 2 := ⟨n - 2, by omega⟩
        rw [gen]
        simp only [gen, Option.bind_some, Lit.toPython]
        exact g _ (by omega) σ (fun v hv => hσ v (by simp [names, namess, hv]))
      · rw [Fits] at hf
        exact e I hI w ρ η hE hf.2
    · next heq =>
      injection heq with h1 h2 h3
      subst h1; subst h2; subst h3
      simp only [Option.bind_eq_some_iff] at h
      obtain ⟨i1, hi1, i2, hi2, i3, hi3, h⟩ := h
      split at h
      · next hc =>
        injection h with h
        subst h
        exact good_ite (ih _ (by simp) i1 hi1) (ih _ (by simp) i2 hi2) (ih _ (by simp) i3 hi3) hc
      · cases h
    · next a heq =>
      injection heq with h1 h2 h3
      subst h1; subst h2; subst h3
      obtain ⟨N, x, A, g, l, y, e⟩ := ih a (by simp) i h
      refine ⟨N + 1, x, A, fun n hn σ hσ => ?_, l, y, fun I hI w ρ η hE hf => ?_⟩
      · obtain ⟨k, rfl⟩ : ∃ k, n = k + 1 := ⟨n - 1, by omega⟩
        rw [gen]
        exact g _ (by omega) σ (fun v hv => hσ v (by simp [names, namess, hv]))
      · simp only [Fits, FitsAll] at hf
        have : Metalift.eval I ρ (.node .choose t [a]) = Metalift.eval I ρ a := hI.choose _
        rw [this]
        exact e I hI w ρ η hE hf.1.1
    · next heq =>
      injection heq with h1 h2 h3
      subst h1; subst h2; subst h3
      simp only [Option.bind_eq_some_iff] at h
      obtain ⟨i1, hi1, h⟩ := h
      exact good_not (ih _ (by simp) i1 hi1) h
    · next heq =>
      injection heq with h1 h2 h3
      subst h1; subst h2; subst h3
      simp only [Option.bind_eq_some_iff] at h
      obtain ⟨i1, hi1, i2, hi2, h⟩ := h
      exact good_bin (ih _ (by simp) i1 hi1) (ih _ (by simp) i2 hi2) h
    · cases h

end Metalift.Np
