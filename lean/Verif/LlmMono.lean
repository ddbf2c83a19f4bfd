import Verif.LlmPy
import Mathlib.Data.List.Forall2
/-
What `strict` evaluation answers, Python answers (used by C55).
-/
namespace Metalift
namespace Llm

/-- The same data, or a function that answers at least as often. -/
def PV.le : PV → PV → Prop
  | .v a, p => p = .v a
  | .q a, p => p = .q a
  | .f c, p => ∃ c', p = .f c' ∧ ∀ vs w, c vs = some w → c' vs = some w

/-- Two evaluations of the functions of a module: the second answers what the first does. -/
structure Globals.Le (G G' : Globals) : Prop where
  names : G.names = G'.names
  call : ∀ f ps qs w, List.Forall₂ PV.le ps qs → G.call f ps = some w → G'.call f qs = some w

/-- The same for local variables. -/
def Locals.Le (ρ ρ' : Locals) : Prop := ∀ x, (ρ x = none ∧ ρ' x = none) ∨ ∃ p q, ρ x = some p ∧ ρ' x = some q ∧ p.le q

theorem PV.le_refl : ∀ p : PV, p.le p
  | .v _ => rfl
  | .q _ => rfl
  | .f c => ⟨c, rfl, fun _ _ h => h⟩

theorem PV.le_v {a : Val} {q : PV} (h : (PV.v a).le q) : q = .v a := h

theorem les_refl : ∀ ps : List PV, List.Forall₂ PV.le ps ps
  | [] => .nil
  | p :: ps => .cons p.le_refl (les_refl ps)

theorem les_data : ∀ {vs : List Val} {qs : List PV}, List.Forall₂ PV.le (vs.map .v) qs → qs = vs.map .v
  | [], qs, h => by cases h; rfl
  | v :: vs, qs, h => by
    cases h with
    | cons h1 h2 => rw [PV.le_v h1, les_data h2]; rfl

theorem Locals.Le.bind {ρ ρ' : Locals} (h : ρ.Le ρ') : ∀ {ps : List String} {vs ws : List PV}, List.Forall₂ PV.le vs ws → (ρ.bind ps vs).Le (ρ'.bind ps ws)
  | [], vs, ws, _ => by
    have : ∀ (r : Locals) us, r.bind [] us = r := by intro r us; cases us <;> rfl
    rw [this, this]; exact h
  | p :: ps, _, _, .nil => h
  | p :: ps, _, _, .cons (l₁ := vs) (l₂ := ws) h1 h2 => by
    intro x
    have ih := Locals.Le.bind h (ps := ps) h2 x
    simp only [Locals.bind]
    by_cases hx : x = p
    · simp only [if_pos hx]
      exact .inr ⟨_, _, rfl, rfl, h1⟩
    · simp only [if_neg hx]
      exact ih

theorem pyBin_mono {o : String} {p q r p' q' : PV} (h : pyBin true o p q = some r) (hp : p.le p') (hq : q.le q') :
    ∃ r', pyBin false o p' q' = some r' ∧ r.le r' := by
  cases p with
  | f c => cases q <;> simp [pyBin] at h
  | q c => cases q <;> simp [pyBin] at h
  | v a =>
    cases q with
    | f c => simp [pyBin] at h
    | q c => simp [pyBin] at h
    | v b =>
      obtain rfl := PV.le_v hp
      obtain rfl := PV.le_v hq
      refine ⟨r, ?_, r.le_refl⟩
      cases a <;> cases b <;> simp only [pyBin, reduceCtorEq] at h ⊢
      · split at h
        · simp_all
        · rename_i h1
          rw [if_neg h1]
          split at h
          · simp_all
          · rename_i h2
            rw [if_neg h2]
            split at h
            · simp_all
            · rename_i h3
              rw [if_neg h3]
              split at h
              · cases h
              · rename_i h4
                simp only [not_or] at h4
                rw [if_neg (by simp [h4.1])]
                exact h
      · split at h
        · rename_i h1
          rw [if_pos h1]
          split at h
          · cases h
          · simpa using h
        · cases h

theorem pyCmp_mono {o : String} {p q p' q' : PV} {b : Bool} (h : pyCmp o p q = some b) (hp : p.le p') (hq : q.le q') : pyCmp o p' q' = some b := by
  cases p with
  | f c => simp [pyCmp, PV.num?] at h
  | v a =>
    obtain rfl := PV.le_v hp
    cases q with
    | f c => cases a <;> simp [pyCmp, PV.num?] at h
    | v c => obtain rfl := PV.le_v hq; exact h
    | q c => have : q' = .q c := hq; subst this; exact h
  | q a =>
    have : p' = .q a := hp
    subst this
    cases q with
    | f c => simp [pyCmp, PV.num?] at h
    | v c => obtain rfl := PV.le_v hq; exact h
    | q c => have : q' = .q c := hq; subst this; exact h

theorem pyAt_mono {vs : List Val} {i : Int} {w : Val} (h : pyAt true vs i = some w) : pyAt false vs i = some w := by
  simp only [pyAt] at h ⊢
  split at h
  · rename_i h0
    rw [if_pos h0]; exact h
  · simp at h

theorem pySlice_mono {vs ws : List Val} {l h k : Option Int} (hs : pySlice true vs l h k = some ws) : pySlice false vs l h k = some ws := by
  simp only [pySlice] at hs ⊢
  split at hs
  · cases hs
  · rw [if_neg (by simp)]; exact hs

theorem mapM_data_mono {vs ws : List PV} {us : List Val} (h : vs.mapM PV.data? = some us) (hl : List.Forall₂ PV.le vs ws) : ws.mapM PV.data? = some us := by
  induction hl generalizing us with
  | nil => exact h
  | @cons p q vs ws hp _ ih =>
    simp only [List.mapM_cons, Option.bind_eq_bind, Option.bind_eq_some_iff, Option.pure_def, Option.some.injEq] at h ⊢
    obtain ⟨a, ha, bs, hb, rfl⟩ := h
    cases p with
    | v x => obtain rfl := PV.le_v hp; exact ⟨a, ha, bs, ih hb, rfl⟩
    | f _ => simp [PV.data?] at ha
    | q _ => simp [PV.data?] at ha

/-- Pairs of a keyword and a value. -/
def KLe (p q : Option String × PV) : Prop := p.1 = q.1 ∧ p.2.le q.2

theorem zip_mono : ∀ {kws : List (Option String)} {vs ws : List PV}, List.Forall₂ PV.le vs ws → List.Forall₂ KLe (kws.zip vs) (kws.zip ws)
  | [], _, _, _ => by simp
  | k :: ks, _, _, .nil => by simp
  | k :: ks, _, _, .cons h1 h2 => .cons ⟨rfl, h1⟩ (zip_mono h2)

theorem takeWhile_mono {l m : List (Option String × PV)} (h : List.Forall₂ KLe l m) :
    List.Forall₂ PV.le ((l.takeWhile (fun p => p.1.isNone)).map Prod.snd) ((m.takeWhile (fun p => p.1.isNone)).map Prod.snd) := by
  induction h with
  | nil => exact .nil
  | cons h1 h2 ih =>
    simp only [List.takeWhile_cons, ← h1.1]
    split
    · exact .cons h1.2 ih
    · exact .nil

theorem dropWhile_mono {l m : List (Option String × PV)} (h : List.Forall₂ KLe l m) :
    List.Forall₂ KLe (l.dropWhile (fun p => p.1.isNone)) (m.dropWhile (fun p => p.1.isNone)) := by
  induction h with
  | nil => exact .nil
  | cons h1 h2 ih =>
    simp only [List.dropWhile_cons, ← h1.1]
    split
    · exact ih
    · exact .cons h1 h2

theorem lookup_mono {l m : List (Option String × PV)} (h : List.Forall₂ KLe l m) {k : Option String} {p : PV} (hl : l.lookup k = some p) :
    ∃ q, m.lookup k = some q ∧ p.le q := by
  induction h with
  | nil => simp at hl
  | @cons a b _ _ h1 h2 ih =>
    obtain ⟨a1, a2⟩ := a
    obtain ⟨b1, b2⟩ := b
    obtain ⟨e1, e2⟩ := h1
    simp only at e1 e2
    subst e1
    simp only [List.lookup_cons] at hl ⊢
    split at hl
    · cases hl
      exact ⟨b2, rfl, e2⟩
    · exact ih hl

theorem lookups_mono {l m : List (Option String × PV)} (h : List.Forall₂ KLe l m) : ∀ {ps : List String} {us : List PV},
    ps.mapM (fun p => l.lookup (some p)) = some us → ∃ us', ps.mapM (fun p => m.lookup (some p)) = some us' ∧ List.Forall₂ PV.le us us'
  | [], us, hu => by simp at hu; subst hu; exact ⟨[], by simp, .nil⟩
  | p :: ps, us, hu => by
    simp only [List.mapM_cons, Option.bind_eq_bind, Option.bind_eq_some_iff, Option.pure_def, Option.some.injEq] at hu
    obtain ⟨a, ha, bs, hb, rfl⟩ := hu
    obtain ⟨a', ha', h1⟩ := lookup_mono h ha
    obtain ⟨bs', hb', h2⟩ := lookups_mono h hb
    exact ⟨a' :: bs', by simp [List.mapM_cons, ha', hb'], .cons h1 h2⟩

theorem bindArgs_mono {names : List String} {kws : List (Option String)} {vs ws us : List PV} (hl : List.Forall₂ PV.le vs ws)
    (h : bindArgs names kws vs = some us) : ∃ us', bindArgs names kws ws = some us' ∧ List.Forall₂ PV.le us us' := by
  have hz := zip_mono (kws := kws) hl
  have ht := takeWhile_mono hz
  have hd := dropWhile_mono hz
  simp only [bindArgs] at h ⊢
  split at h
  · rename_i he
    simp only [Option.some.injEq] at h
    subst h
    rw [if_pos]
    · exact ⟨_, rfl, ht⟩
    · rw [List.isEmpty_iff] at he ⊢
      rw [he] at hd
      exact List.forall₂_nil_left_iff.1 hd
  · rename_i he
    rw [if_neg]
    · simp only [Option.map_eq_some_iff] at h ⊢
      obtain ⟨bs, hb, rfl⟩ := h
      obtain ⟨bs', hb', h2⟩ := lookups_mono hd hb
      refine ⟨_, ⟨bs', ?_, rfl⟩, List.rel_append ht h2⟩
      rw [← ht.length_eq]
      exact hb'
    · rw [List.isEmpty_iff] at he ⊢
      intro he'
      rw [he'] at hd
      generalize (kws.zip vs).dropWhile (fun p => p.1.isNone) = l at hd he
      cases hd
      exact he rfl

theorem pyName_mono {G G' : Globals} (hG : G.Le G') {ρ ρ' : Locals} (hρ : ρ.Le ρ') {x : String} {p : PV} (h : pyName G ρ x = some p) :
    ∃ q, pyName G' ρ' x = some q ∧ p.le q := by
  simp only [pyName] at h ⊢
  split at h
  · cases h; exact ⟨_, if_pos (by assumption), rfl⟩
  · rename_i h1
    rw [if_neg h1]
    split at h
    · cases h; exact ⟨_, if_pos (by assumption), rfl⟩
    · rename_i h2
      rw [if_neg h2]
      rcases hρ x with ⟨e1, e2⟩ | ⟨a, b, e1, e2, hab⟩
      · rw [e1] at h
        rw [e2]
        simp only [Option.orElse_none, Option.some.injEq] at h ⊢
        subst h
        exact ⟨_, rfl, _, rfl, fun vs w hw => hG.call x _ _ w (les_refl _) hw⟩
      · rw [e1] at h
        rw [e2]
        simp only [Option.orElse_some, Option.some.injEq] at h ⊢
        subst h
        exact ⟨b, rfl, hab⟩

/-- What is proved of an expression. -/
def MonoAt (n : Node) : Prop := ∀ {G G' : Globals}, G.Le G' → ∀ {ρ ρ' : Locals}, ρ.Le ρ' → ∀ {p : PV}, pyEval true G ρ n = some p →
  ∃ q, pyEval false G' ρ' n = some q ∧ p.le q

theorem MonoAt.bool {n : Node} (h : MonoAt n) {G G' : Globals} (hG : G.Le G') {ρ ρ' : Locals} (hρ : ρ.Le ρ') {b : Bool}
    (hb : (pyEval true G ρ n).bind PV.bool? = some b) : (pyEval false G' ρ' n).bind PV.bool? = some b := by
  simp only [Option.bind_eq_some_iff] at hb ⊢
  obtain ⟨p, hp, hb⟩ := hb
  obtain ⟨q, hq, hl⟩ := h hG hρ hp
  cases p with
  | v a => obtain rfl := PV.le_v hl; exact ⟨_, hq, hb⟩
  | f c => simp [PV.bool?] at hb
  | q c => simp [PV.bool?] at hb

theorem MonoAt.int {n : Node} (h : MonoAt n) {G G' : Globals} (hG : G.Le G') {ρ ρ' : Locals} (hρ : ρ.Le ρ') {b : Int}
    (hb : (pyEval true G ρ n).bind PV.int? = some b) : (pyEval false G' ρ' n).bind PV.int? = some b := by
  simp only [Option.bind_eq_some_iff] at hb ⊢
  obtain ⟨p, hp, hb⟩ := hb
  obtain ⟨q, hq, hl⟩ := h hG hρ hp
  cases p with
  | v a => obtain rfl := PV.le_v hl; exact ⟨_, hq, hb⟩
  | f c => simp [PV.int?] at hb
  | q c => simp [PV.int?] at hb

theorem MonoAt.list {n : Node} (h : MonoAt n) {G G' : Globals} (hG : G.Le G') {ρ ρ' : Locals} (hρ : ρ.Le ρ') {b : List Val}
    (hb : (pyEval true G ρ n).bind PV.list? = some b) : (pyEval false G' ρ' n).bind PV.list? = some b := by
  simp only [Option.bind_eq_some_iff] at hb ⊢
  obtain ⟨p, hp, hb⟩ := hb
  obtain ⟨q, hq, hl⟩ := h hG hρ hp
  cases p with
  | v a => obtain rfl := PV.le_v hl; exact ⟨_, hq, hb⟩
  | f c => simp [PV.list?] at hb
  | q c => simp [PV.list?] at hb

theorem MonoAt.data {n : Node} (h : MonoAt n) {G G' : Globals} (hG : G.Le G') {ρ ρ' : Locals} (hρ : ρ.Le ρ') {b : Val}
    (hb : (pyEval true G ρ n).bind PV.data? = some b) : (pyEval false G' ρ' n).bind PV.data? = some b := by
  simp only [Option.bind_eq_some_iff] at hb ⊢
  obtain ⟨p, hp, hb⟩ := hb
  obtain ⟨q, hq, hl⟩ := h hG hρ hp
  cases p with
  | v a => obtain rfl := PV.le_v hl; exact ⟨_, hq, hb⟩
  | f c => simp [PV.data?] at hb
  | q c => simp [PV.data?] at hb

theorem MonoAt.bound {n : Node} (h : MonoAt n) {G G' : Globals} (hG : G.Le G') {ρ ρ' : Locals} (hρ : ρ.Le ρ') {b : Option Int}
    (hb : pyBound true G ρ n = some b) : pyBound false G' ρ' n = some b := by
  cases n with
  | absent => simpa only [pyBound] using hb
  | _ =>
    simp only [pyBound, Option.map_eq_some_iff] at hb ⊢
    obtain ⟨i, hi, rfl⟩ := hb
    exact ⟨i, h.int hG hρ hi, rfl⟩

theorem monos {ns : List Node} (h : ∀ n ∈ ns, MonoAt n) {G G' : Globals} (hG : G.Le G') {ρ ρ' : Locals} (hρ : ρ.Le ρ') {vs : List PV}
    (hv : pyEvals true G ρ ns = some vs) : ∃ ws, pyEvals false G' ρ' ns = some ws ∧ List.Forall₂ PV.le vs ws := by
  induction ns generalizing vs with
  | nil =>
    simp only [pyEvals, Option.some.injEq] at hv
    subst hv
    exact ⟨[], by simp only [pyEvals], .nil⟩
  | cons n ns ih =>
    simp only [pyEvals, Option.bind_eq_bind, Option.bind_eq_some_iff, Option.some.injEq] at hv
    obtain ⟨v, h1, us, h2, rfl⟩ := hv
    obtain ⟨q, hq, hl⟩ := h n (by simp) hG hρ h1
    obtain ⟨ws, hws, hls⟩ := ih (fun m hm => h m (by simp [hm])) h2
    exact ⟨q :: ws, by simp [pyEvals, hq, hws], .cons hl hls⟩

theorem chain_mono {G G' : Globals} (hG : G.Le G') {ρ ρ' : Locals} (hρ : ρ.Le ρ') : ∀ {os : List String} {ns : List Node} {b : Bool},
    (∀ n ∈ ns, MonoAt n) → pyChain true G ρ os ns = some b → pyChain false G' ρ' os ns = some b
  | [], _, _, _, hb => by simpa only [pyChain] using hb
  | _ :: _, [], _, _, hb => by simp [pyChain] at hb
  | _ :: _, [_], _, _, hb => by simp [pyChain] at hb
  | o :: os, m :: n :: ns, b, h, hb => by
    simp only [pyChain, Option.bind_eq_bind, Option.bind_eq_some_iff] at hb ⊢
    obtain ⟨x, hx, y, hy, c, hc, hb⟩ := hb
    obtain ⟨x', hx', lx⟩ := h m (by simp) hG hρ hx
    obtain ⟨y', hy', ly⟩ := h n (by simp) hG hρ hy
    refine ⟨x', hx', y', hy', c, pyCmp_mono hc lx ly, ?_⟩
    split at hb
    · rename_i hct
      rw [if_pos hct]
      exact chain_mono hG hρ (fun k hk => h k (List.mem_cons_of_mem _ hk)) hb
    · rename_i hct
      rw [if_neg hct]
      exact hb

theorem obind' {α β : Type} {x : Option α} {f : α → Option β} {b : β} : x.bind f = some b ↔ ∃ a, x = some a ∧ f a = some b := Option.bind_eq_some_iff

theorem pyEval_mono (n : Node) : MonoAt n := by
  induction n using Node.ind with
  | hint n => intro G G' _ ρ ρ' _ p h; exact ⟨p, by simpa only [pyEval] using h, p.le_refl⟩
  | hname x t => intro G G' hG ρ ρ' hρ p h; simp only [pyEval] at h ⊢; exact pyName_mono hG hρ h
  | hcall f args kws t ih =>
    intro G G' hG ρ ρ' hρ p h
    simp only [pyEval, Option.bind_eq_bind, obind' (x := pyEvals true G ρ args)] at h
    obtain ⟨vs, hvs, h⟩ := h
    obtain ⟨ws, hws, hl⟩ := monos ih hG hρ hvs
    simp only [pyEval, Option.bind_eq_bind, hws, Option.bind_some]
    split at h
    · rename_i hf
      rw [if_pos hf]
      cases hl with
      | nil => cases h
      | @cons a b as bs h1 h2 =>
        cases h2 with
        | cons _ _ => cases h
        | nil =>
          simp only [Option.map_eq_some_iff] at h ⊢
          obtain ⟨l, hl, rfl⟩ := h
          cases a with
          | v x => obtain rfl := PV.le_v h1; exact ⟨_, ⟨l, hl, rfl⟩, PV.le_refl _⟩
          | f _ => simp [PV.list?] at hl
          | q _ => simp [PV.list?] at hl
    · rename_i hf
      rw [if_neg hf]
      rcases hρ f with ⟨e1, e2⟩ | ⟨a, b, e1, e2, hab⟩
      · rw [e1] at h
        rw [e2]
        simp only [Option.map_eq_some_iff, Option.bind_eq_some_iff] at h ⊢
        obtain ⟨w, ⟨us, hu, hw⟩, rfl⟩ := h
        obtain ⟨us', hu', hl'⟩ := bindArgs_mono hl hu
        rw [hG.names] at hu'
        exact ⟨_, ⟨w, ⟨us', hu', hG.call f _ _ w hl' hw⟩, rfl⟩, PV.le_refl _⟩
      · rw [e1] at h
        rw [e2]
        cases a with
        | v x => cases h
        | q x => cases h
        | f c =>
          obtain ⟨c', rfl, hc⟩ := hab
          simp only [Option.map_eq_some_iff, Option.bind_eq_some_iff] at h ⊢
          obtain ⟨w, ⟨us, hu, hw⟩, rfl⟩ := h
          exact ⟨_, ⟨w, ⟨us, mapM_data_mono hu hl, hc _ _ hw⟩, rfl⟩, PV.le_refl _⟩
  | hop o l r il ir =>
    intro G G' hG ρ ρ' hρ p h
    simp only [pyEval] at h ⊢
    split at h
    · rename_i ho
      rw [if_pos ho]
      simp only [Option.bind_eq_bind, obind' (x := (pyEval true G ρ l).bind PV.bool?)] at h
      obtain ⟨a, ha, h⟩ := h
      simp only [Option.bind_eq_bind, il.bool hG hρ ha, Option.bind_some]
      split at h
      · rename_i hat
        rw [if_pos hat]
        simp only [obind' (x := (pyEval true G ρ r).bind PV.bool?), Option.some.injEq] at h
        obtain ⟨b, hb, rfl⟩ := h
        simp only [ir.bool hG hρ hb, Option.bind_some]
        exact ⟨_, rfl, PV.le_refl _⟩
      · rename_i hat
        rw [if_neg hat]
        cases h
        exact ⟨_, rfl, PV.le_refl _⟩
    · rename_i ho
      rw [if_neg ho]
      split at h
      · rename_i ho2
        rw [if_pos ho2]
        simp only [Option.bind_eq_bind, obind' (x := (pyEval true G ρ l).bind PV.bool?)] at h
        obtain ⟨a, ha, h⟩ := h
        simp only [Option.bind_eq_bind, il.bool hG hρ ha, Option.bind_some]
        split at h
        · rename_i hat
          rw [if_pos hat]
          cases h
          exact ⟨_, rfl, PV.le_refl _⟩
        · rename_i hat
          rw [if_neg hat]
          simp only [obind' (x := (pyEval true G ρ r).bind PV.bool?), Option.some.injEq] at h
          obtain ⟨b, hb, rfl⟩ := h
          simp only [ir.bool hG hρ hb, Option.bind_some]
          exact ⟨_, rfl, PV.le_refl _⟩
      · rename_i ho2
        rw [if_neg ho2]
        simp only [Option.bind_eq_bind, Option.bind_eq_some_iff] at h
        obtain ⟨a, ha, b, hb, h⟩ := h
        obtain ⟨a', ha', la⟩ := il hG hρ ha
        obtain ⟨b', hb', lb⟩ := ir hG hρ hb
        simp only [Option.bind_eq_bind, ha', hb', Option.bind_some]
        exact pyBin_mono h la lb
  | hun o e ie =>
    intro G G' hG ρ ρ' hρ p h
    simp only [pyEval] at h ⊢
    split at h
    · rename_i ho
      rw [if_pos ho]
      simp only [Option.bind_eq_bind, obind' (x := (pyEval true G ρ e).bind PV.int?), Option.some.injEq] at h
      obtain ⟨a, ha, rfl⟩ := h
      simp only [Option.bind_eq_bind, ie.int hG hρ ha, Option.bind_some]
      exact ⟨_, rfl, PV.le_refl _⟩
    · rename_i ho
      rw [if_neg ho]
      split at h
      · rename_i ho2
        rw [if_pos ho2]
        simp only [Option.bind_eq_bind, obind' (x := (pyEval true G ρ e).bind PV.bool?), Option.some.injEq] at h
        obtain ⟨a, ha, rfl⟩ := h
        simp only [Option.bind_eq_bind, ie.bool hG hρ ha, Option.bind_some]
        exact ⟨_, rfl, PV.le_refl _⟩
      · cases h
  | hlist es t ih =>
    intro G G' hG ρ ρ' hρ p h
    simp only [pyEval, Option.bind_eq_bind, Option.bind_eq_some_iff, Option.some.injEq] at h
    obtain ⟨vs, hvs, us, hu, rfl⟩ := h
    obtain ⟨ws, hws, hl⟩ := monos ih hG hρ hvs
    simp only [pyEval, Option.bind_eq_bind, hws, Option.bind_some, mapM_data_mono hu hl]
    exact ⟨_, rfl, PV.le_refl _⟩
  | hcond c a b ic ia ib =>
    intro G G' hG ρ ρ' hρ p h
    simp only [pyEval, Option.bind_eq_bind, obind' (x := (pyEval true G ρ c).bind PV.bool?)] at h
    obtain ⟨x, hx, h⟩ := h
    simp only [pyEval, Option.bind_eq_bind, ic.bool hG hρ hx, Option.bind_some]
    split at h
    · rename_i hxt
      rw [if_pos hxt]
      exact ia hG hρ h
    · rename_i hxt
      rw [if_neg hxt]
      exact ib hG hρ h
  | hcmp os es ih =>
    intro G G' hG ρ ρ' hρ p h
    simp only [pyEval, Option.map_eq_some_iff] at h ⊢
    obtain ⟨b, hb, rfl⟩ := h
    exact ⟨_, ⟨b, chain_mono hG hρ ih hb, rfl⟩, PV.le_refl _⟩
  | hidx b i ib ii =>
    intro G G' hG ρ ρ' hρ p h
    simp only [pyEval, Option.bind_eq_bind, obind' (x := (pyEval true G ρ b).bind PV.list?), obind' (x := (pyEval true G ρ i).bind PV.int?),
      obind' (x := pyAt _ _ _), Option.some.injEq] at h
    obtain ⟨vs, hvs, j, hj, w, hw, rfl⟩ := h
    simp only [pyEval, Option.bind_eq_bind, ib.list hG hρ hvs, ii.int hG hρ hj, Option.bind_some, pyAt_mono hw]
    exact ⟨_, rfl, PV.le_refl _⟩
  | hsl b lo hi sp ib il ih is =>
    intro G G' hG ρ ρ' hρ p h
    simp only [pyEval, Option.bind_eq_bind, obind' (x := (pyEval true G ρ b).bind PV.list?), obind' (x := pyBound _ _ _ _),
      obind' (x := pySlice _ _ _ _ _), Option.some.injEq] at h
    obtain ⟨vs, hvs, l, hl, u, hu, k, hk, ws, hws, rfl⟩ := h
    simp only [pyEval, Option.bind_eq_bind, ib.list hG hρ hvs, il.bound hG hρ hl, ih.bound hG hρ hu, is.bound hG hρ hk, Option.bind_some,
      pySlice_mono hws]
    exact ⟨_, rfl, PV.le_refl _⟩
  | hlam ps b t ib =>
    intro G G' hG ρ ρ' hρ p h
    simp only [pyEval, Option.some.injEq] at h ⊢
    subst h
    refine ⟨_, rfl, _, rfl, ?_⟩
    intro vs w hw
    dsimp only at hw ⊢
    split at hw
    · rename_i hl
      rw [if_pos hl]
      exact ib.data hG (hρ.bind (les_refl _)) hw
    · cases hw
  | hab => intro G G' _ ρ ρ' _ p h; simp [pyEval] at h
  | hot => intro G G' _ ρ ρ' _ p h; simp [pyEval] at h

theorem pyBlock_mono {G G' : Globals} (hG : G.Le G') : ∀ {ss : List Stmt} {ρ ρ' : Locals} (_ : ρ.Le ρ') {p : PV}, pyBlock true G ρ ss = some p →
    ∃ q, pyBlock false G' ρ' ss = some q ∧ p.le q := by
  intro ss
  induction ss with
  | nil => intro ρ ρ' _ p h; simp [pyBlock] at h
  | cons s ss ih =>
    intro ρ ρ' hρ p h
    unfold pyBlock at h
    split at h
    · rename_i e _ heq
      cases heq
      obtain ⟨q, hq, hl⟩ := pyEval_mono e hG hρ h
      exact ⟨q, by simpa only [pyBlock] using hq, hl⟩
    · rename_i x _ e _ heq
      cases heq
      split at h
      · cases h
      · rename_i hx
        simp only [Option.bind_eq_bind, Option.bind_eq_some_iff] at h
        obtain ⟨v, hv, h⟩ := h
        obtain ⟨q, hq, hl⟩ := pyEval_mono e hG hρ hv
        obtain ⟨q', hq', hl'⟩ := ih (ρ' := fun y => if y = x then some q else ρ' y) (by
          intro y
          by_cases hy : y = x
          · simp only [if_pos hy]; exact .inr ⟨_, _, rfl, rfl, hl⟩
          · simp only [if_neg hy]; exact hρ y) h
        refine ⟨q', ?_, hl'⟩
        simp only [pyBlock, if_neg hx, Option.bind_eq_bind, hq, Option.bind_some]
        exact hq'
    · cases h

/-- What strict evaluation of a module answers, Python answers. -/
theorem module_mono {G : Globals} (hG : G.Le G) (targets : List FuncDef) (k : Nat) : (pyModule true G targets k).Le (pyModule false G targets k) := by
  induction k with
  | zero =>
    refine ⟨by simp only [pyModule], ?_⟩
    intro f ps qs w hl h
    simp only [pyModule] at h ⊢
    split at h
    · cases h
    · rename_i hf
      rw [if_neg hf]
      exact hG.call f ps qs w hl h
  | succ k ih =>
    refine ⟨by simp only [pyModule], ?_⟩
    intro f ps qs w hl h
    rw [pyModule] at h ⊢
    dsimp only at h ⊢
    cases hf : targets.find? (fun d => decide (d.name = f)) with
    | none =>
      rw [hf] at h
      exact hG.call f ps qs w hl h
    | some d =>
      rw [hf] at h
      dsimp only at h ⊢
      rw [← hl.length_eq]
      split at h
      · rename_i hlen
        rw [if_pos hlen]
        simp only [Option.bind_eq_some_iff] at h ⊢
        obtain ⟨p, hp, hd⟩ := h
        have hne : Locals.Le (fun _ => none) (fun _ => none) := fun _ => .inl ⟨rfl, rfl⟩
        obtain ⟨q, hq, hlq⟩ := pyBlock_mono ih (hne.bind hl) hp
        cases p with
        | v a => obtain rfl := PV.le_v hlq; exact ⟨_, hq, hd⟩
        | f _ => simp [PV.data?] at hd
        | q _ => simp [PV.data?] at hd
      · cases h

end Llm
end Metalift
