import Verif.PSmtText
import Verif.PTopo
/-
C46: the query given to the SMT solver is satisfiable exactly when the verification condition has a counterexample.
-/
namespace Metalift
namespace Smt

/-! ### Specification -/

mutual
/-- The values of a type.  A set is represented by the increasing list of its elements. -/
def OfTy : Ty → Val → Prop
  | .int, v => ∃ i, v = .int i
  | .bool, v => ∃ b, v = .bool b
  | .list t, v => ∃ vs, v = .list vs ∧ ∀ w ∈ vs, OfTy t w
  | .set t, v => ∃ vs, v = .list vs ∧ (∀ w ∈ vs, OfTy t w) ∧ vs.Pairwise (fun a b => a.asInt < b.asInt)
  | .tuple ts, v => ∃ vs, v = .tuple vs ∧ OfTys ts vs
  | .fn _, _ => False
def OfTys : List Ty → List Val → Prop
  | [], [] => True
  | t :: ts, v :: vs => OfTy t v ∧ OfTys ts vs
  | _, _ => False
end

/-- The environment in which the parameters have the given values. -/
def paramEnv (ps : List (String × Ty)) (vs : List Val) : Env := fun n => (((ps.map Prod.fst).zip vs).lookup n).getD (.int 0)

/-- The interpretation satisfies the declaration: the function maps arguments of the declared types to the declared type, and to the value of the
body, if there is one. -/
def FnHolds (I : Interp) (d : FnDecl) : Prop :=
  ∀ vs, OfTys (d.params.map Prod.snd) vs →
    OfTy d.ret (I.fn d.name vs) ∧ ∀ b, d.body = some b → eval I (paramEnv d.params vs) b = I.fn d.name vs

/-- The interpretation satisfies the axiom. -/
def AxHolds (I : Interp) (a : Ax) : Prop :=
  ∀ vs, OfTys (a.vars.map Prod.snd) vs → eval I (paramEnv a.vars vs) a.body = .bool true

/-- Parameters: names are symbols and different, types can be printed. -/
def paramsOk (ps : List (String × Ty)) : Bool :=
  ps.all (fun p => varName p.1 && (sortText p.2).isSome) && decide (ps.map Prod.fst).Nodup

/-- Every variable of the expression is one of the given ones and has no name of a function without arguments used there. -/
def scopedIn (ps : List (String × Ty)) (e : Expr) : Bool :=
  (occs e).all (fun p => decide (p ∈ ps)) && (calls e).all (fun c => c.2 != 0 || decide (c.1 ∉ ps.map Prod.fst))

/-- Declarations covered.  A `FnDecl` with a body must have no parameters (otherwise printing raises). -/
def declOk (d : FnDecl) : Bool :=
  fnName d.name && paramsOk d.params && (sortText d.ret).isSome && (d.recursive || d.params.isEmpty || d.body.isNone) &&
    match d.body with
    | none => true
    | some b => printable b && scopedIn d.params b

/-- Candidates covered: as above, and no function is passed as an argument. -/
def candOk (d : FnDecl) : Bool := declOk d && d.body.all (fun b => decide (filterFnArgs b = b))

/-- No function without arguments is called under the name of a constant. -/
def noConstCall (C : List String) (e : Expr) : Bool := (calls e).all (fun c => c.2 != 0 || decide (c.1 ∉ C))

/-- Queries covered. -/
structure QueryOk (lang : List FnDecl) (axs : List Ax) (cands : List FnDecl) (vars : List (String × Ty)) (vc : Expr) : Prop where
  langOk : ∀ d ∈ lang, declOk d = true
  langNames : (lang.map FnDecl.name).Nodup
  axOk : ∀ a ∈ axs, paramsOk a.vars = true ∧ printable a.body = true ∧ scopedIn a.vars a.body = true
  candOk : ∀ d ∈ cands, candOk d = true
  candNames : (cands.map FnDecl.name).Nodup
  varsOk : paramsOk vars = true
  vcOk : printable vc = true ∧ filterFnArgs vc = vc ∧ scopedIn vars vc = true
  /-- names of variables of the query are not names of functions without arguments -/
  langConst : ∀ d ∈ lang, ∀ b ∈ d.body, noConstCall (vars.map Prod.fst) b = true
  candConst : ∀ d ∈ cands, ∀ b ∈ d.body, noConstCall (vars.map Prod.fst) b = true
  axConst : ∀ a ∈ axs, noConstCall (vars.map Prod.fst) a.body = true
  fnConst : ∀ d ∈ lang ++ cands, d.params = [] → d.name ∉ vars.map Prod.fst

/-! ### Sorts and types -/

theorem hasSort_app {h : String} (h1 : h ≠ "MLList") (h2 : h ≠ "Set") (ss : List SExpr) (v : Val) :
    HasSort (.list (.atom h :: ss)) v ↔ h = "Tuple" ++ ss.length.repr ∧ ∃ vs, v = .tuple vs ∧ HasSorts ss vs := by
  unfold HasSort
  split
  · next heq => cases heq
  · next heq => cases heq
  · next heq => cases heq
  · next heq => injection heq with e1; injection e1 with e1 e2; injection e1 with e1; exact absurd e1 h1
  · next heq => injection heq with e1; injection e1 with e1 e2; injection e1 with e1; exact absurd e1 h2
  · next heq => injection heq with e1; injection e1 with e1 e2; injection e1 with e1; subst e1; subst e2; rfl
  · next hne => exact absurd rfl (hne _ _)

theorem tuple_ne (n : Nat) : "Tuple" ++ n.repr ≠ "MLList" ∧ "Tuple" ++ n.repr ≠ "Set" := by
  constructor <;>
  · intro heq
    have := congrArg String.toList heq
    simp only [String.toList_append, show "Tuple".toList = ['T', 'u', 'p', 'l', 'e'] from rfl,
      show "MLList".toList = ['M', 'L', 'L', 'i', 's', 't'] from rfl, show "Set".toList = ['S', 'e', 't'] from rfl,
      List.cons_append] at this
    injection this with h1 _
    exact absurd h1 (by decide)

theorem sortSxs_length (ts : List Ty) : (sortSxs ts).length = ts.length := by
  induction ts with
  | nil => rfl
  | cons t ts ih => simp [sortSxs, ih]

mutual
theorem hasSort_iff : ∀ {t : Ty}, (sortText t).isSome = true → ∀ v, HasSort (sortSx t) v ↔ OfTy t v
  | .int, _, v => by simp [sortSx, HasSort, OfTy]
  | .bool, _, v => by simp [sortSx, HasSort, OfTy]
  | .list t, h, v => by
    have ih := hasSort_iff (t := t) (by simpa [sortText] using h)
    simp [sortSx, HasSort, OfTy, ih]
  | .set t, h, v => by
    have ih := hasSort_iff (t := t) (by simpa [sortText] using h)
    simp [sortSx, HasSort, OfTy, ih]
  | .tuple ts, h, v => by
    have ih := hasSorts_iff (ts := ts) (by simpa [sortText] using h)
    rw [sortSx, hasSort_app (tuple_ne _).1 (tuple_ne _).2]
    simp [OfTy, ih, sortSxs_length]
  | .fn _, h, _ => by cases h
theorem hasSorts_iff : ∀ {ts : List Ty}, (sortTexts ts).isSome = true → ∀ vs, HasSorts (sortSxs ts) vs ↔ OfTys ts vs
  | [], _, [] => by simp [sortSxs, HasSorts, OfTys]
  | [], _, _ :: _ => by simp [sortSxs, HasSorts, OfTys]
  | t :: ts, h, [] => by simp [sortSxs, HasSorts, OfTys]
  | t :: ts, h, v :: vs => by
    obtain ⟨ss, hs⟩ := Option.isSome_iff_exists.1 h
    simp only [sortTexts, Option.bind_eq_bind, Option.bind_eq_some_iff] at hs
    obtain ⟨s, hs, ss', hss, _⟩ := hs
    simp [sortSxs, HasSorts, OfTys, hasSort_iff (t := t) (by simp [hs]), hasSorts_iff (ts := ts) (by simp [hss])]
end

/-! ### Texts of commands -/

/-- A parameter. -/
def sxParam (p : String × Ty) : SExpr := .list [.atom p.1, sortSx p.2]

/-- The command of a declaration. -/
def sxDecl (d : FnDecl) : SExpr :=
  match d.body with
  | none => .list [.atom "declare-fun", .atom d.name, .list (sortSxs (d.params.map Prod.snd)), sortSx d.ret]
  | some b => .list [.atom (if d.recursive then "define-fun-rec" else "define-fun"), .atom d.name, .list (d.params.map sxParam),
      sortSx d.ret, sx b]

/-- The command of an axiom. -/
def sxAx (a : Ax) : SExpr := .list [.atom "assert", .list [.atom "forall", .list (a.vars.map sxParam), sx a.body]]

/-- The command of a constant. -/
def sxConst (v : String × Ty) : SExpr := .list [.atom "declare-const", .atom v.1, sortSx v.2]

theorem delim_nl (r : List Char) : StartsDelim ('\n' :: r) := .inr ⟨_, _, rfl, by decide⟩
theorem delim_lpar (r : List Char) : StartsDelim ('(' :: r) := .inr ⟨_, _, rfl, by decide⟩
theorem tokens_nl (r : List Char) : tokens [] ('\n' :: r) = tokens [] r := by
  rw [tokens]; simp [isSpace, flush]

theorem param_denotes {p : String × Ty} (h : varName p.1 = true) {s : String} (hs : sortText p.2 = some s) :
    paramText p = some ("(" ++ p.1 ++ " " ++ s ++ ")") ∧ Denotes ("(" ++ p.1 ++ " " ++ s ++ ")") (sxParam p) := by
  refine ⟨by simp [paramText, hs], ?_⟩
  have hg : goodAtom p.1 = true := by
    simp only [varName, Bool.and_eq_true] at h
    exact symbolOk_good h.1.1.1
  have := denotes_op hg (.cons (sort_denotes hs) .nil) (by simp)
  rwa [simple_one] at this

theorem mapM_denotes {α : Type} {f : α → Option String} {g : α → SExpr} {l : List α}
    (h : ∀ a ∈ l, ∃ s, f a = some s ∧ Denotes s (g a)) : ∃ ss, l.mapM f = some ss ∧ All2 Denotes ss (l.map g) := by
  induction l with
  | nil => exact ⟨[], rfl, .nil⟩
  | cons a l ih =>
    obtain ⟨s, hs, hd⟩ := h a List.mem_cons_self
    obtain ⟨ss, hss, hds⟩ := ih (fun b hb => h b (List.mem_cons_of_mem _ hb))
    exact ⟨s :: ss, by simp [List.mapM_cons, hs, hss], .cons hd hds⟩

theorem params_denote {ps : List (String × Ty)} (h : paramsOk ps = true) :
    ∃ ss, ps.mapM paramText = some ss ∧ All2 Denotes ss (ps.map sxParam) := by
  apply mapM_denotes
  intro p hp
  simp only [paramsOk, Bool.and_eq_true, List.all_eq_true] at h
  obtain ⟨h1, h2⟩ := h.1 p hp
  obtain ⟨s, hs⟩ := Option.isSome_iff_exists.1 h2
  exact ⟨_, (param_denotes h1 hs).1, (param_denotes h1 hs).2⟩

theorem params_sorts {ps : List (String × Ty)} (h : paramsOk ps = true) : ∃ ss, sortTexts (ps.map Prod.snd) = some ss := by
  simp only [paramsOk, Bool.and_eq_true, List.all_eq_true] at h
  have h1 := h.1
  clear h
  induction ps with
  | nil => exact ⟨[], rfl⟩
  | cons p ps ih =>
    obtain ⟨s, hs⟩ := Option.isSome_iff_exists.1 (h1 p List.mem_cons_self).2
    obtain ⟨ss, hss⟩ := ih (fun q hq => h1 q (List.mem_cons_of_mem _ hq))
    exact ⟨s :: ss, by simp [sortTexts, hs, hss]⟩

/-- A text made of pieces: each piece is a text with its S-expressions. -/
def Piece (s : String) (xs : List SExpr) : Prop :=
  ∀ rest, StartsDelim rest → tokens [] (s.toList ++ rest) = SExpr.flats xs ++ tokens [] rest

/-- A text that can follow a name. -/
def Lead (s : String) : Prop := ∀ rest, StartsDelim rest → StartsDelim (s.toList ++ rest)

theorem flats_append (xs ys : List SExpr) : SExpr.flats (xs ++ ys) = SExpr.flats xs ++ SExpr.flats ys := by
  induction xs with
  | nil => simp [SExpr.flats]
  | cons x xs ih => simp [SExpr.flats, ih]

theorem Piece.append {s t : String} {xs ys : List SExpr} (hs : Piece s xs) (ht : Piece t ys) (hl : Lead t) :
    Piece (s ++ t) (xs ++ ys) := by
  intro rest hr
  rw [String.toList_append, List.append_assoc, hs _ (hl _ hr), ht _ hr, flats_append, List.append_assoc]

theorem Lead.append {s t : String} (hs : Lead s) (ht : Lead t) : Lead (s ++ t) := by
  intro rest hr
  rw [String.toList_append, List.append_assoc]
  exact hs _ (ht _ hr)

theorem _root_.Metalift.Denotes.piece {s : String} {x : SExpr} (h : Denotes s x) : Piece s [x] := by
  intro rest hr
  rw [h _ hr]
  simp [SExpr.flats]

theorem piece_nl : Piece "\n" [] := by
  intro rest _
  have : "\n".toList = ['\n'] := by decide
  rw [this, List.singleton_append, tokens_nl]
  simp [SExpr.flats]

theorem piece_sp : Piece " " [] := by
  intro rest _
  have : " ".toList = [' '] := by decide
  rw [this, List.singleton_append, tokens_space]
  simp [SExpr.flats]

theorem piece_empty : Piece "" [] := by
  intro rest _
  simp [SExpr.flats]

theorem lead_nl : Lead "\n" := by
  intro rest _
  have : "\n".toList = ['\n'] := by decide
  rw [this, List.singleton_append]
  exact delim_nl _

theorem lead_sp : Lead " " := by
  intro rest _
  have : " ".toList = [' '] := by decide
  rw [this, List.singleton_append]
  exact delim_space _

theorem lead_empty : Lead "" := by
  intro rest hr
  simpa using hr

theorem Piece.paren {s : String} {xs : List SExpr} (h : Piece s xs) : Denotes ("(" ++ s ++ ")") (.list xs) := by
  intro rest _
  have h1 : "(".toList = ['('] := by decide
  have h3 : ")".toList = [')'] := by decide
  simp only [String.toList_append, List.append_assoc, h1, h3, List.cons_append, List.nil_append]
  rw [tokens_lpar, h _ (delim_rpar _), tokens_rpar]
  simp [SExpr.flat]

/-- Pieces separated by blanks. -/
theorem Piece.sp {s t : String} {xs ys : List SExpr} (hs : Piece s xs) (ht : Piece t ys) : Piece (s ++ " " ++ t) (xs ++ ys) := by
  rw [String.append_assoc]
  have h2 : Piece (" " ++ t) ([] ++ ys) := by
    intro rest hr
    have : " ".toList = [' '] := by decide
    rw [String.toList_append, List.append_assoc, this, List.singleton_append, tokens_space, ht _ hr]
    simp
  refine hs.append h2 ?_
  intro rest hr
  have : " ".toList = [' '] := by decide
  rw [String.toList_append, List.append_assoc, this, List.singleton_append]
  exact delim_space _

theorem Piece.nl {s t : String} {xs ys : List SExpr} (hs : Piece s xs) (ht : Piece t ys) : Piece (s ++ "\n" ++ t) (xs ++ ys) := by
  rw [String.append_assoc]
  have h2 : Piece ("\n" ++ t) ([] ++ ys) := by
    intro rest hr
    have : "\n".toList = ['\n'] := by decide
    rw [String.toList_append, List.append_assoc, this, List.singleton_append, tokens_nl, ht _ hr]
    simp
  refine hs.append h2 ?_
  intro rest hr
  have : "\n".toList = ['\n'] := by decide
  rw [String.toList_append, List.append_assoc, this, List.singleton_append]
  exact delim_nl _

theorem piece_atom {s : String} (h : goodAtom s = true) : Piece s [.atom s] := (denotes_atom h).piece

theorem fnName_good {f : String} (h : fnName f = true) : goodAtom f = true := by
  simp only [fnName, Bool.and_eq_true] at h
  exact symbolOk_good h.1.1

theorem decl_denotes {d : FnDecl} (h : declOk d = true) : ∃ s, declText d = some s ∧ Denotes s (sxDecl d) := by
  simp only [declOk, Bool.and_eq_true] at h
  obtain ⟨⟨⟨⟨h1, h2⟩, h3⟩, h4⟩, h5⟩ := h
  obtain ⟨r, hr⟩ := Option.isSome_iff_exists.1 h3
  cases hb : d.body with
  | none =>
    obtain ⟨ss, hss⟩ := params_sorts h2
    refine ⟨"(declare-fun " ++ d.name ++ " (" ++ joinSp ss ++ ") " ++ r ++ ")", by simp [declText, hb, hss, hr], ?_⟩
    have := (((piece_atom (s := "declare-fun") (by decide)).sp (piece_atom (fnName_good h1))).sp
      (denotes_paren (sorts_denote hss)).piece |>.sp (sort_denotes hr).piece).paren
    have e : "(declare-fun " ++ d.name ++ " (" ++ joinSp ss ++ ") " ++ r ++ ")" =
        "(" ++ ("declare-fun" ++ " " ++ d.name ++ " " ++ ("(" ++ joinSp ss ++ ")") ++ " " ++ r) ++ ")" := by
      rw [show "(declare-fun " = "(" ++ ("declare-fun" ++ " ") from by decide +kernel, show " (" = " " ++ "(" from rfl, show ") " = ")" ++ " " from rfl]
      simp only [String.append_assoc]
    rw [e, sxDecl, hb]
    exact this
  | some b =>
    rw [hb] at h5
    simp only [Bool.and_eq_true] at h5
    have h4' : d.recursive = true ∨ d.params = [] := by simpa [hb] using h4
    obtain ⟨ps, hps, hpd⟩ := params_denote h2
    obtain ⟨s, hs, hd⟩ := text_denotes b h5.1
    have hc : (d.recursive || d.params.isEmpty) = true := by simpa using h4'
    refine ⟨_, by simp only [declText, hb, hc, if_true, hps, hr, hs]; rfl, ?_⟩
    have key : ∀ k, goodAtom k = true → Denotes ("(" ++ (k ++ " ") ++ d.name ++ " (" ++ joinSp ps ++ ") " ++ r ++ "\n" ++ s ++ ")")
        (.list [.atom k, .atom d.name, .list (d.params.map sxParam), sortSx d.ret, sx b]) := by
      intro k hk
      have := ((((piece_atom hk).sp (piece_atom (fnName_good h1))).sp
        (denotes_paren hpd).piece |>.sp (sort_denotes hr).piece).nl hd.piece).paren
      have e : "(" ++ (k ++ " ") ++ d.name ++ " (" ++ joinSp ps ++ ") " ++ r ++ "\n" ++ s ++ ")" =
          "(" ++ (k ++ " " ++ d.name ++ " " ++ ("(" ++ joinSp ps ++ ")") ++ " " ++ r ++ "\n" ++ s) ++ ")" := by
        rw [show " (" = " " ++ "(" from rfl, show ") " = ")" ++ " " from rfl]
        simp only [String.append_assoc]
      rw [e]
      exact this
    rw [sxDecl, hb]
    cases d.recursive with
    | true => exact key "define-fun-rec" (by decide)
    | false => exact key "define-fun" (by decide)

theorem ax_denotes {a : Ax} (h : paramsOk a.vars = true) (hp : printable a.body = true) :
    ∃ s, axText a = some s ∧ Denotes s (sxAx a) := by
  obtain ⟨ps, hps, hpd⟩ := params_denote h
  obtain ⟨s, hs, hd⟩ := text_denotes a.body hp
  refine ⟨"(assert (forall ( " ++ joinSp ps ++ " ) " ++ s ++ " ))", by simp [axText, hps, hs], ?_⟩
  have pj : Piece (joinSp ps) (a.vars.map sxParam) := by
    intro rest hr
    generalize a.vars.map sxParam = xs at hpd ⊢
    cases hpd with
    | nil => simp [joinSp, SExpr.flats]
    | @cons t x ts xs ht hts =>
      simp only [joinSp, String.toList_append, List.append_assoc]
      obtain ⟨b1, b2⟩ := cat_before hts hr
      rw [ht _ b2, b1]
      simp [SExpr.flats]
  have h1 : Denotes ("(" ++ ("" ++ " " ++ joinSp ps ++ " " ++ "") ++ ")") (.list (a.vars.map sxParam)) := by
    have := ((piece_empty.sp pj).sp piece_empty).paren
    simpa using this
  have h2 : Denotes ("(" ++ ("forall" ++ " " ++ ("(" ++ ("" ++ " " ++ joinSp ps ++ " " ++ "") ++ ")") ++ " " ++ s ++ " " ++ "") ++ ")")
      (.list [.atom "forall", .list (a.vars.map sxParam), sx a.body]) := by
    have := ((((piece_atom (s := "forall") (by decide)).sp h1.piece).sp hd.piece).sp piece_empty).paren
    simpa using this
  have h3 := ((piece_atom (s := "assert") (by decide)).sp h2.piece).paren
  have e : "(assert (forall ( " ++ joinSp ps ++ " ) " ++ s ++ " ))" =
      "(" ++ ("assert" ++ " " ++ ("(" ++ ("forall" ++ " " ++ ("(" ++ ("" ++ " " ++ joinSp ps ++ " " ++ "") ++ ")") ++ " " ++ s ++ " " ++ "") ++ ")")) ++ ")" := by
    rw [show "(assert (forall ( " = "(" ++ ("assert" ++ (" " ++ ("(" ++ ("forall" ++ (" " ++ ("(" ++ " ")))))) from by decide +kernel,
      show " ) " = " " ++ (")" ++ " ") from by decide +kernel, show " ))" = " " ++ (")" ++ ")") from by decide +kernel]
    simp only [String.append_assoc, String.empty_append]
  rw [e]
  exact h3

theorem const_denotes {v : String × Ty} (h : varName v.1 = true) (hs : (sortText v.2).isSome = true) :
    ∃ s, constText v = some s ∧ Denotes s (sxConst v) := by
  obtain ⟨s, hs⟩ := Option.isSome_iff_exists.1 hs
  refine ⟨"(declare-const " ++ v.1 ++ " " ++ s ++ ")", by simp [constText, hs], ?_⟩
  have hg : goodAtom v.1 = true := by
    simp only [varName, Bool.and_eq_true] at h
    exact symbolOk_good h.1.1.1
  have := (((piece_atom (s := "declare-const") (by decide)).sp (piece_atom hg)).sp (sort_denotes hs).piece).paren
  have e : "(declare-const " ++ v.1 ++ " " ++ s ++ ")" = "(" ++ ("declare-const" ++ " " ++ v.1 ++ " " ++ s) ++ ")" := by
    rw [show "(declare-const " = "(" ++ ("declare-const" ++ " ") from by decide +kernel]
    simp only [String.append_assoc]
  rw [e]
  exact this

/-! ### The text of the query -/

theorem lines_piece {ss : List String} {xs : List SExpr} (h : All2 Denotes ss xs) :
    Piece (catAll (ss.map (fun s => "\n" ++ s ++ "\n"))) xs ∧ Lead (catAll (ss.map (fun s => "\n" ++ s ++ "\n"))) := by
  induction h with
  | nil => exact ⟨piece_empty, lead_empty⟩
  | @cons s x ss xs hs _ ih =>
    constructor
    · have h1 := (piece_empty.nl hs.piece).nl piece_empty
      have h2 := h1.append ih.1 ih.2
      simpa [catAll, String.append_assoc] using h2
    · simp only [List.map_cons, catAll]
      rw [String.append_assoc, String.append_assoc]
      intro rest hr
      have : "\n".toList = ['\n'] := by decide
      rw [String.toList_append, this]
      exact delim_nl _

theorem blocks_piece {ss : List String} {xs : List SExpr} (h : All2 Denotes ss xs) : Piece (blocks ss) xs ∧ Lead (blocks ss) := by
  cases h with
  | nil => exact ⟨piece_empty, lead_empty⟩
  | @cons s x ss xs hs hss =>
    have h2 : ∀ {ss : List String} {xs : List SExpr}, All2 Denotes ss xs →
        Piece (catAll (ss.map (fun s => "\n\n" ++ "\n" ++ s ++ "\n"))) xs ∧ Lead (catAll (ss.map (fun s => "\n\n" ++ "\n" ++ s ++ "\n"))) := by
      intro ss xs h
      induction h with
      | nil => exact ⟨piece_empty, lead_empty⟩
      | @cons s x ss xs hs _ ih =>
        have e : ∀ t : String, "\n\n" ++ "\n" ++ s ++ "\n" ++ t = "" ++ "\n" ++ ("" ++ "\n" ++ ("" ++ "\n" ++ s)) ++ "\n" ++ "" ++ t := by
          intro t
          rw [show "\n\n" ++ "\n" = "\n" ++ ("\n" ++ "\n") from by decide +kernel]
          simp only [String.append_assoc, String.empty_append]
        simp only [List.map_cons, catAll]
        rw [e]
        constructor
        · exact ((piece_empty.nl (piece_empty.nl (piece_empty.nl hs.piece))).nl piece_empty).append ih.1 ih.2
        · simp only [String.empty_append, String.append_assoc]
          intro rest hr
          have : "\n".toList = ['\n'] := by decide
          rw [String.toList_append, this]
          exact delim_nl _
    constructor
    · have := ((piece_empty.nl hs.piece).nl piece_empty).append (h2 hss).1 (h2 hss).2
      simpa [blocks, String.append_assoc] using this
    · simp only [blocks, String.append_assoc]
      intro rest hr
      have : "\n".toList = ['\n'] := by decide
      rw [String.toList_append, this]
      exact delim_nl _

theorem joinNl_piece {ss : List String} {xs : List SExpr} (h : All2 Denotes ss xs) : Piece (joinNl ss) xs := by
  cases h with
  | nil => exact piece_empty
  | @cons s x ss xs hs hss =>
    have h2 : ∀ {ss : List String} {xs : List SExpr}, All2 Denotes ss xs →
        Piece (catAll (ss.map ("\n" ++ ·))) xs ∧ Lead (catAll (ss.map ("\n" ++ ·))) := by
      intro ss xs h
      induction h with
      | nil => exact ⟨piece_empty, lead_empty⟩
      | @cons s x ss xs hs _ ih =>
        simp only [List.map_cons, catAll]
        constructor
        · have := (piece_empty.nl hs.piece).append ih.1 ih.2
          simpa [String.append_assoc] using this
        · rw [String.append_assoc]
          intro rest hr
          have : "\n".toList = ['\n'] := by decide
          rw [String.toList_append, this]
          exact delim_nl _
    exact hs.piece.append (h2 hss).1 (h2 hss).2

theorem parse_top (xs : List (List SExpr)) (cur : List SExpr) :
    parseTokens (SExpr.flats (xs.map .list)) cur [] = some (cur.reverse ++ xs.map .list) := by
  have main : ∀ (xs : List (List SExpr)) (cur : List SExpr) (ts : List Token),
      parseTokens (SExpr.flats (xs.map .list) ++ ts) cur [] = parseTokens ts ((xs.map SExpr.list).reverse ++ cur) [] := by
    intro xs
    induction xs with
    | nil => intro cur ts; simp [SExpr.flats]
    | cons x xs ih =>
      intro cur ts
      simp only [List.map_cons, SExpr.flats, SExpr.flat, List.append_assoc, List.cons_append, parseTokens]
      rw [parse_flats x]
      simp only [List.append_nil, List.nil_append, parseTokens, List.reverse_reverse]
      rw [ih]
      simp
  have := main xs cur []
  simp only [List.append_nil] at this
  rw [this]
  simp [parseTokens]

theorem Piece.read {s : String} {xs : List (List SExpr)} (h : Piece s (xs.map .list)) : readScript s = some (xs.map .list) := by
  have := h [] (.inl rfl)
  simp only [List.append_nil, tokens, flush, List.isEmpty_nil, if_true] at this
  rw [readScript, generateAst, this, parse_top]
  simp

theorem fns_map (l : List FnDecl) : Item.fns (l.map Item.fn) = l := by
  induction l with
  | nil => rfl
  | cons a l ih => simp [Item.fns, ih]

theorem fns_perm {l m : List Item} (h : l.Perm m) : (Item.fns l).Perm (Item.fns m) := by
  have e : ∀ l, Item.fns l = l.filterMap (fun i => match i with | .fn f => some f | .ax _ => none) := by
    intro l
    induction l with
    | nil => rfl
    | cons a l ih => cases a <;> simp [Item.fns, ih]
  rw [e, e]
  exact h.filterMap _

theorem sortFns_perm {topo : List (String × String) → Option (List String)} (htopo : TopoSpec topo)
    {setOrder : List String → List String} (hset : ∀ l, (setOrder l).Perm l) {l r : List FnDecl} (hn : (l.map FnDecl.name).Nodup)
    (h : sortFns topo setOrder l = some r) : r.Perm l := by
  simp only [sortFns, Option.map_eq_some_iff] at h
  obtain ⟨is, his, rfl⟩ := h
  have := (C16_topological_sort_partial topo htopo setOrder hset (l.map Item.fn) (by rw [fns_map]; exact hn)).1 is his
  have hp := fns_perm this.1
  rwa [fns_map] at hp

theorem filterCand_eq {d : FnDecl} (h : candOk d = true) : filterCand d = d := by
  simp only [candOk, Bool.and_eq_true] at h
  obtain ⟨h1, h2⟩ := h
  cases d with
  | mk n r ps b rc =>
    cases b with
    | none => rfl
    | some b =>
      simp only [Option.all_some, decide_eq_true_eq] at h2
      simp [filterCand, h2]

/-- The commands of the query. -/
def sxQuery (lang : List FnDecl) (axs : List Ax) (cands : List FnDecl) (vars : List (String × Ty)) (vc : Expr) : List SExpr :=
  (lang.filter written).map sxDecl ++ (axs.map sxAx ++ (cands.map sxDecl ++ (vars.map sxConst ++
    [.list [.atom "assert", sx (mkNot vc)], .list [.atom "check-sat"], .list [.atom "get-model"]])))

theorem sxQuery_lists (lang : List FnDecl) (axs : List Ax) (cands : List FnDecl) (vars : List (String × Ty)) (vc : Expr) :
    ∃ xs : List (List SExpr), sxQuery lang axs cands vars vc = xs.map .list := by
  have h : ∀ l : List SExpr, (∀ x ∈ l, ∃ y, x = SExpr.list y) → ∃ xs : List (List SExpr), l = xs.map .list := by
    intro l
    induction l with
    | nil => intro _; exact ⟨[], rfl⟩
    | cons a l ih =>
      intro h
      obtain ⟨y, rfl⟩ := h a List.mem_cons_self
      obtain ⟨xs, rfl⟩ := ih (fun x hx => h x (List.mem_cons_of_mem _ hx))
      exact ⟨y :: xs, rfl⟩
  apply h
  have hd : ∀ d, ∃ y, sxDecl d = .list y := by
    intro d
    unfold sxDecl
    split <;> exact ⟨_, rfl⟩
  intro x hx
  simp only [sxQuery, List.mem_append, List.mem_map, List.mem_cons, List.not_mem_nil, or_false] at hx
  rcases hx with ⟨d, _, rfl⟩ | ⟨a, _, rfl⟩ | ⟨d, _, rfl⟩ | ⟨v, _, rfl⟩ | rfl | rfl | rfl
  · exact hd d
  · exact ⟨_, rfl⟩
  · exact hd d
  · exact ⟨_, rfl⟩
  · exact ⟨_, rfl⟩
  · exact ⟨_, rfl⟩
  · exact ⟨_, rfl⟩

theorem printable_not {e : Expr} (h : printable e = true) : printable (mkNot e) = true := by
  simp [mkNot, printable, opOk, printables, h]

/-- The text of the query consists of these commands, the functions of each group in some order. -/
theorem query_reads {topo : List (String × String) → Option (List String)} (htopo : TopoSpec topo)
    {setOrder : List String → List String} (hset : ∀ l, (setOrder l).Perm l) {lang : List FnDecl} {axs : List Ax}
    {cands : List FnDecl} {vars : List (String × Ty)} {vc : Expr} (hq : QueryOk lang axs cands vars vc) {text : String}
    (ht : queryText topo setOrder lang axs cands vars vc = some text) :
    ∃ lang' cands', sortFns topo setOrder lang = some lang' ∧ sortFns topo setOrder cands = some cands' ∧
      readScript text = some (sxQuery lang' axs cands' vars vc) := by
  have hc : cands.map filterCand = cands := by
    have : ∀ d ∈ cands, filterCand d = id d := fun d hd => filterCand_eq (hq.candOk d hd)
    rw [List.map_congr_left this, List.map_id]
  simp only [queryText, hc, hq.vcOk.2.1, Option.bind_eq_bind, Option.bind_eq_some_iff] at ht
  obtain ⟨lang', hl, lts, hlts, cands', hcs, ats, hats, cts, hcts, cns, hcns, g, hg, ht⟩ := ht
  injection ht with ht
  refine ⟨lang', cands', hl, hcs, ?_⟩
  have pl := sortFns_perm htopo hset hq.langNames hl
  have pc := sortFns_perm htopo hset hq.candNames hcs
  obtain ⟨a1, ha1, d1⟩ := mapM_denotes (f := declText) (g := sxDecl) (l := lang'.filter written)
    (fun d hd => decl_denotes (hq.langOk d (pl.mem_iff.1 (List.mem_filter.1 hd).1)))
  obtain ⟨a2, ha2, d2⟩ := mapM_denotes (f := axText) (g := sxAx) (l := axs)
    (fun a ha => ax_denotes (hq.axOk a ha).1 (hq.axOk a ha).2.1)
  obtain ⟨a3, ha3, d3⟩ := mapM_denotes (f := declText) (g := sxDecl) (l := cands') (fun d hd => decl_denotes (by
    have := hq.candOk d (pc.mem_iff.1 hd)
    simp only [candOk, Bool.and_eq_true] at this
    exact this.1))
  obtain ⟨a4, ha4, d4⟩ := mapM_denotes (f := constText) (g := sxConst) (l := vars) (fun v hv => by
    have := hq.varsOk
    simp only [paramsOk, Bool.and_eq_true, List.all_eq_true] at this
    exact const_denotes (this.1 v hv).1 (this.1 v hv).2)
  obtain ⟨a5, ha5, d5⟩ := text_denotes (mkNot vc) (printable_not hq.vcOk.1)
  rw [ha1] at hlts; rw [ha2] at hats; rw [ha3] at hcts; rw [ha4] at hcns; rw [ha5] at hg
  injection hlts with e1; injection hats with e2; injection hcts with e3; injection hcns with e4; injection hg with e5
  subst e1; subst e2; subst e3; subst e4; subst e5
  have dg : Denotes ("(" ++ ("assert" ++ " " ++ a5) ++ ")") (.list [.atom "assert", sx (mkNot vc)]) :=
    ((piece_atom (s := "assert") (by decide)).sp d5.piece).paren
  have dcs : Denotes "(check-sat)" (.list [.atom "check-sat"]) := (piece_atom (s := "check-sat") (by decide)).paren
  have dgm : Denotes "(get-model)" (.list [.atom "get-model"]) := (piece_atom (s := "get-model") (by decide)).paren
  -- the end of the text
  have p5 : Piece ("" ++ "\n" ++ joinNl a4 ++ "\n" ++ ("" ++ "\n" ++ ("" ++ "\n" ++ ("" ++ "\n" ++ ("(" ++ ("assert" ++ " " ++ a5) ++ ")" ++ "\n" ++
      ("" ++ "\n" ++ ("(check-sat)" ++ "\n" ++ "(get-model)")))))))
      (vars.map sxConst ++ [.list [.atom "assert", sx (mkNot vc)], .list [.atom "check-sat"], .list [.atom "get-model"]]) := by
    have := (piece_empty.nl (joinNl_piece d4)).nl (piece_empty.nl (piece_empty.nl (piece_empty.nl (dg.piece.nl (piece_empty.nl (dcs.piece.nl dgm.piece))))))
    simpa using this
  have l5 : Lead ("" ++ "\n" ++ joinNl a4 ++ "\n" ++ ("" ++ "\n" ++ ("" ++ "\n" ++ ("" ++ "\n" ++ ("(" ++ ("assert" ++ " " ++ a5) ++ ")" ++ "\n" ++
      ("" ++ "\n" ++ ("(check-sat)" ++ "\n" ++ "(get-model)"))))))) := by
    intro rest hr
    have : "\n".toList = ['\n'] := by decide
    simp only [String.append_assoc, String.empty_append]
    rw [String.toList_append, this]
    exact delim_nl _
  have p3 := (blocks_piece d3).1.append p5 l5
  have l3 := (blocks_piece d3).2.append l5
  have p2 := (blocks_piece d2).1.append p3 l3
  have l2 := (blocks_piece d2).2.append l3
  have p1 := (lines_piece d1).1.append p2 l2
  obtain ⟨xs, hxs⟩ := sxQuery_lists lang' axs cands' vars vc
  have e : text = catAll (a1.map (fun s => "\n" ++ s ++ "\n")) ++ (blocks a2 ++ (blocks a3 ++ ("" ++ "\n" ++ joinNl a4 ++ "\n" ++ ("" ++ "\n" ++ ("" ++ "\n" ++ ("" ++ "\n" ++ ("(" ++ ("assert" ++ " " ++ a5) ++ ")" ++ "\n" ++
      ("" ++ "\n" ++ ("(check-sat)" ++ "\n" ++ "(get-model)"))))))))) := by
    rw [← ht]
    rw [show "(assert " = "(" ++ ("assert" ++ " ") from by decide +kernel, show "\n\n" = "\n" ++ "\n" from by decide +kernel,
      show "(check-sat)\n(get-model)" = "(check-sat)" ++ ("\n" ++ "(get-model)") from by decide +kernel]
    simp only [String.append_assoc, String.empty_append]
  rw [e]
  rw [hxs]
  apply Piece.read
  rw [← hxs]
  exact p1

/-! ### Meaning of the commands -/

theorem binders_params (ps : List (String × Ty)) : binders (ps.map sxParam) = some (ps.map (fun p => (p.1, sortSx p.2))) := by
  induction ps with
  | nil => rfl
  | cons p ps ih => simp [binders, sxParam, ih]

theorem sortSxs_map (ts : List Ty) : sortSxs ts = ts.map sortSx := by
  induction ts with
  | nil => rfl
  | cons t ts ih => simp [sortSxs, ih]

theorem ofTys_length {ts : List Ty} {vs : List Val} (h : OfTys ts vs) : vs.length = ts.length := by
  induction ts generalizing vs with
  | nil => cases vs with
    | nil => rfl
    | cons => simp [OfTys] at h
  | cons t ts ih => cases vs with
    | nil => simp [OfTys] at h
    | cons v vs =>
      simp only [OfTys] at h
      simp [ih h.2]

theorem lookup_typed {ps : List (String × Ty)} {vs : List Val} (h : OfTys (ps.map Prod.snd) vs) (hn : (ps.map Prod.fst).Nodup)
    {p : String × Ty} (hp : p ∈ ps) : ∃ v, ((ps.map Prod.fst).zip vs).lookup p.1 = some v ∧ OfTy p.2 v := by
  induction ps generalizing vs with
  | nil => simp at hp
  | cons q ps ih =>
    cases vs with
    | nil => simp [OfTys] at h
    | cons v vs =>
      simp only [List.map_cons, OfTys] at h
      simp only [List.map_cons, List.nodup_cons] at hn
      rcases List.mem_cons.1 hp with rfl | hp
      · exact ⟨v, by simp, h.1⟩
      · obtain ⟨w, hw, ht⟩ := ih h.2 hn.2 hp
        refine ⟨w, ?_, ht⟩
        have : (p.1 == q.1) = false := by
          have : p.1 ≠ q.1 := fun e => hn.1 (e ▸ List.mem_map_of_mem hp)
          simpa using this
        simp [List.lookup_cons, this, hw]

theorem ofTy_shape {t : Ty} {v : Val} (h : OfTy t v) : TupleShape v t := by
  cases t with
  | tuple ts =>
    simp only [OfTy] at h
    obtain ⟨vs, rfl, h⟩ := h
    exact ⟨vs, rfl, ofTys_length h⟩
  | _ => trivial

theorem lookup_not_mem {ns : List String} {vs : List Val} {n : String} (h : n ∉ ns) : (ns.zip vs).lookup n = none := by
  apply lookup_none
  intro hm
  obtain ⟨p, hp, rfl⟩ := List.mem_map.1 hm
  exact h (List.of_mem_zip hp).1

/-- The values of the parameters. -/
theorem params_agree {C : List String} {M : Model} {ps : List (String × Ty)} {e : Expr} (hn : (ps.map Prod.fst).Nodup)
    (hs : scopedIn ps e = true) (hc : noConstCall C e = true) {vs : List Val} (hv : OfTys (ps.map Prod.snd) vs) :
    VarsAgree C M (bind (ps.map Prod.fst) vs) (paramEnv ps vs) e := by
  simp only [scopedIn, Bool.and_eq_true, List.all_eq_true, decide_eq_true_eq, Bool.or_eq_true, bne_iff_ne] at hs
  simp only [noConstCall, List.all_eq_true, decide_eq_true_eq, Bool.or_eq_true, bne_iff_ne] at hc
  constructor
  · intro p hp
    obtain ⟨v, h1, h2⟩ := lookup_typed hv hn (hs.1 p hp)
    simp only [bind, paramEnv, h1, Option.getD_some]
    exact ⟨trivial, ofTy_shape h2⟩
  · intro p hp h0
    exact ⟨lookup_not_mem ((hs.2 p hp).resolve_left (fun h => h h0)), (hc p hp).resolve_left (fun h => h h0)⟩

theorem paramsOk_nodup {ps : List (String × Ty)} (h : paramsOk ps = true) : (ps.map Prod.fst).Nodup := by
  simp only [paramsOk, Bool.and_eq_true, decide_eq_true_eq] at h
  exact h.2

theorem paramsOk_sorts {ps : List (String × Ty)} (h : paramsOk ps = true) (vs : List Val) :
    HasSorts (sortSxs (ps.map Prod.snd)) vs ↔ OfTys (ps.map Prod.snd) vs := by
  obtain ⟨ss, hss⟩ := params_sorts h
  exact hasSorts_iff (by simp [hss]) vs

theorem map_fst_binders (ps : List (String × Ty)) : (ps.map (fun p => (p.1, sortSx p.2))).map Prod.fst = ps.map Prod.fst := by
  simp [Function.comp_def]

theorem map_snd_binders (ps : List (String × Ty)) :
    (ps.map (fun p => (p.1, sortSx p.2))).map Prod.snd = sortSxs (ps.map Prod.snd) := by
  simp [sortSxs_map, Function.comp_def]

theorem sat_decl {C : List String} {I : Interp} {M : Model} (hA : Agree C I M) {d : FnDecl} (h : declOk d = true)
    (hc : ∀ b ∈ d.body, noConstCall C b = true) (hn : d.params = [] → d.name ∉ C) : M.Sat1 (sxDecl d) ↔ FnHolds I d := by
  simp only [declOk, Bool.and_eq_true] at h
  obtain ⟨⟨⟨⟨h1, h2⟩, h3⟩, h4⟩, h5⟩ := h
  have hfn : ∀ vs, OfTys (d.params.map Prod.snd) vs → I.fn d.name vs = M.fn d.name vs := by
    intro vs hvs
    refine hA.fn _ _ h1 ?_
    rintro rfl
    apply hn
    have := ofTys_length hvs
    simpa using this.symm
  cases hb : d.body with
  | none =>
    simp only [sxDecl, hb, Model.Sat1, FnHolds]
    refine forall_congr' fun vs => ?_
    rw [paramsOk_sorts h2]
    refine forall_congr' fun hvs => ?_
    rw [hasSort_iff h3, hfn vs hvs]
    simp
  | some b =>
    rw [hb] at h5
    simp only [Bool.and_eq_true] at h5
    have key : Defines M d.name (d.params.map sxParam) (sortSx d.ret) (sx b) ↔ FnHolds I d := by
      simp only [Defines, binders_params, FnHolds, hb]
      constructor
      · rintro ⟨bs, hbs, hall⟩ vs hvs
        injection hbs with hbs
        subst hbs
        rw [map_snd_binders, map_fst_binders] at hall
        obtain ⟨r1, r2⟩ := hall vs ((paramsOk_sorts h2 vs).2 hvs)
        rw [hfn vs hvs]
        refine ⟨(hasSort_iff h3 _).1 r1, ?_⟩
        rintro b' ⟨⟩
        rw [← r2]
        exact (sx_value hA _ _ b h5.1 (params_agree (paramsOk_nodup h2) h5.2 (hc b hb) hvs)).symm
      · intro hall
        refine ⟨_, rfl, fun vs hvs => ?_⟩
        rw [map_snd_binders] at hvs
        have hvs' := (paramsOk_sorts h2 vs).1 hvs
        obtain ⟨r1, r2⟩ := hall vs hvs'
        rw [hfn vs hvs'] at r1
        refine ⟨(hasSort_iff h3 _).2 r1, ?_⟩
        rw [map_fst_binders, sx_value hA _ _ b h5.1 (params_agree (paramsOk_nodup h2) h5.2 (hc b hb) hvs'), ← hfn vs hvs']
        exact r2 b rfl
    simp only [sxDecl, hb]
    cases d.recursive <;> simpa [Model.Sat1] using key

theorem sat_ax {C : List String} {I : Interp} {M : Model} (hA : Agree C I M) {a : Ax} (h1 : paramsOk a.vars = true)
    (h2 : printable a.body = true) (h3 : scopedIn a.vars a.body = true) (hc : noConstCall C a.body = true) :
    M.Sat1 (sxAx a) ↔ AxHolds I a := by
  simp only [sxAx, Model.Sat1, binders_params, AxHolds]
  constructor
  · rintro ⟨bs, hbs, hall⟩ vs hvs
    injection hbs with hbs
    subst hbs
    rw [map_snd_binders, map_fst_binders] at hall
    rw [← hall vs ((paramsOk_sorts h1 vs).2 hvs)]
    exact (sx_value hA _ _ _ h2 (params_agree (paramsOk_nodup h1) h3 hc hvs)).symm
  · intro hall
    refine ⟨_, rfl, fun vs hvs => ?_⟩
    rw [map_snd_binders] at hvs
    have hvs' := (paramsOk_sorts h1 vs).1 hvs
    rw [map_fst_binders, sx_value hA _ _ _ h2 (params_agree (paramsOk_nodup h1) h3 hc hvs')]
    exact hall vs hvs'

theorem sat_goal {I : Interp} {M : Model} {vars : List (String × Ty)} (hA : Agree (vars.map Prod.fst) I M) {vc : Expr}
    (h1 : printable vc = true) (h2 : scopedIn vars vc = true) (ht : ∀ v ∈ vars, OfTy v.2 (M.fn v.1 [])) :
    M.Sat1 (.list [.atom "assert", sx (mkNot vc)]) ↔ (eval I (fun n => M.fn n []) vc).asBool = false := by
  simp only [scopedIn, Bool.and_eq_true, List.all_eq_true, decide_eq_true_eq, Bool.or_eq_true, bne_iff_ne] at h2
  have hv : VarsAgree (vars.map Prod.fst) M noVars (fun n => M.fn n []) (mkNot vc) := by
    constructor
    · intro p hp
      have hp' : p ∈ occs vc := by simpa [mkNot, occs, occss] using hp
      exact ⟨rfl, ofTy_shape (ht p (h2.1 p hp'))⟩
    · intro p hp h0
      have hp' : p ∈ calls vc := by simpa [mkNot, calls, callss] using hp
      exact ⟨rfl, (h2.2 p hp').resolve_left (fun h => h h0)⟩
  have hval := sx_value hA noVars (fun n => M.fn n []) (mkNot vc) (printable_not h1) hv
  have e : sx (mkNot vc) = .list [.atom "not", sx vc] := by simp [mkNot, sx, sxs, headSym, headArgs, opName, app]
  have : M.Sat1 (.list [.atom "assert", sx (mkNot vc)]) ↔ val M noVars (sx (mkNot vc)) = .bool true := by
    rw [e]
    simp [Model.Sat1]
  rw [this, hval]
  simp [mkNot, eval, evals, evalOp]

/-! ### C46 -/

/-- **C46.** A structure satisfies the text written for the solver exactly when, in the interpretation that has the same functions, the
declarations of the target language, the axioms and the synthesised functions hold, the variables have values of their types and
the verification condition is false.  The order of the functions is whatever `topological_sort` returns. -/
theorem C46_query_meaning_partial (topo : List (String × String) → Option (List String)) (htopo : TopoSpec topo)
    (setOrder : List String → List String) (hset : ∀ l, (setOrder l).Perm l) (lang : List FnDecl) (axs : List Ax)
    (cands : List FnDecl) (vars : List (String × Ty)) (vc : Expr) (hq : QueryOk lang axs cands vars vc) (text : String)
    (ht : queryText topo setOrder lang axs cands vars vc = some text) :
    ∃ cs, readScript text = some cs ∧ ∀ (I : Interp) (M : Model), Agree (vars.map Prod.fst) I M →
      (M.Sat cs ↔
        (∀ d ∈ lang, written d = true → FnHolds I d) ∧ (∀ a ∈ axs, AxHolds I a) ∧ (∀ d ∈ cands, FnHolds I d) ∧
        (∀ v ∈ vars, OfTy v.2 (M.fn v.1 [])) ∧ (eval I (fun n => M.fn n []) vc).asBool = false) := by
  obtain ⟨lang', cands', hl, hc, hread⟩ := query_reads htopo hset hq ht
  have pl := sortFns_perm htopo hset hq.langNames hl
  have pc := sortFns_perm htopo hset hq.candNames hc
  refine ⟨_, hread, fun I M hA => ?_⟩
  have hsat : M.Sat (sxQuery lang' axs cands' vars vc) ↔
      (∀ d ∈ lang, written d = true → M.Sat1 (sxDecl d)) ∧ (∀ a ∈ axs, M.Sat1 (sxAx a)) ∧ (∀ d ∈ cands, M.Sat1 (sxDecl d)) ∧
      (∀ v ∈ vars, M.Sat1 (sxConst v)) ∧ M.Sat1 (.list [.atom "assert", sx (mkNot vc)]) := by
    have t1 : M.Sat1 (.list [.atom "check-sat"]) := by simp [Model.Sat1]
    have t2 : M.Sat1 (.list [.atom "get-model"]) := by simp [Model.Sat1]
    simp only [Model.Sat, sxQuery, List.forall_mem_append, List.forall_mem_map, List.forall_mem_cons, List.mem_filter, t1, t2, pl.mem_iff, pc.mem_iff]
    simp only [and_imp, List.not_mem_nil, false_imp_iff, implies_true, and_true]
  rw [hsat]
  have hvars := hq.varsOk
  simp only [paramsOk, Bool.and_eq_true, List.all_eq_true] at hvars
  have e1 : (∀ d ∈ lang, written d = true → M.Sat1 (sxDecl d)) ↔ ∀ d ∈ lang, written d = true → FnHolds I d :=
    forall_congr' fun d => forall_congr' fun hd => by
      rw [sat_decl hA (hq.langOk d hd) (hq.langConst d hd) (hq.fnConst d (List.mem_append_left _ hd))]
  have e2 : (∀ a ∈ axs, M.Sat1 (sxAx a)) ↔ ∀ a ∈ axs, AxHolds I a :=
    forall_congr' fun a => forall_congr' fun ha => by
      rw [sat_ax hA (hq.axOk a ha).1 (hq.axOk a ha).2.1 (hq.axOk a ha).2.2 (hq.axConst a ha)]
  have e3 : (∀ d ∈ cands, M.Sat1 (sxDecl d)) ↔ ∀ d ∈ cands, FnHolds I d :=
    forall_congr' fun d => forall_congr' fun hd => by
      have h := hq.candOk d hd
      simp only [candOk, Bool.and_eq_true] at h
      rw [sat_decl hA h.1 (hq.candConst d hd) (hq.fnConst d (List.mem_append_right _ hd))]
  have e4 : (∀ v ∈ vars, M.Sat1 (sxConst v)) ↔ ∀ v ∈ vars, OfTy v.2 (M.fn v.1 []) :=
    forall_congr' fun v => forall_congr' fun hv => by
      simp only [sxConst, Model.Sat1]
      exact hasSort_iff (hvars.1 v hv).2 _
  rw [e1, e2, e3, e4]
  constructor
  · rintro ⟨a, b, c, d, e⟩
    exact ⟨a, b, c, d, (sat_goal hA hq.vcOk.1 hq.vcOk.2.2 d).1 e⟩
  · rintro ⟨a, b, c, d, e⟩
    exact ⟨a, b, c, d, (sat_goal hA hq.vcOk.1 hq.vcOk.2.2 d).2 e⟩

/-- Functions of the intermediate representation with a fixed meaning have it. -/
structure FixedFns (I : Interp) : Prop where
  div : ∀ a b, b ≠ 0 → I.idiv a b = Int.ediv a b
  mod : ∀ a b, b ≠ 0 → I.imod a b = Int.emod a b
  makeTuple : ∀ vs, I.fn "make-tuple" vs = .tuple vs
  tupleGet : ∀ vs (i : Nat) v, vs[i]? = some v → I.fn "tupleGet" [.tuple vs, .int i] = v
  listEq : ∀ a b, I.fn "list_eq" [a, b] = .bool (decide (a = b))
  ite : ∀ c a b, I.fn "ite" [c, a, b] = if c.asBool then a else b

/-- The name in the intermediate representation of an operation on sets. -/
def setName (g : String) : Option String :=
  if g = "set.empty" then some "set-create" else (setFns.find? (fun p => p.2.1 == g)).map Prod.fst

/-- The structure with the functions of an interpretation and the constants of an environment. -/
def Interp.model (I : Interp) (C : List String) (ρ : Env) : Model where
  fn := fun g vs => match setName g with
    | some f => I.fn f vs
    | none => if vs = [] ∧ g ∈ C then ρ g else I.fn g vs
  div0 := fun a => I.idiv a 0
  mod0 := fun a => I.imod a 0

theorem setName_fnName {f : String} (hf : f ∉ reserved) : setName f = none := by
  have h1 : f ≠ "set.empty" := by rintro rfl; exact hf (by decide)
  have : ∀ p ∈ setFns, p.2.1 ≠ f := by
    rintro p hp rfl
    refine hf ?_
    revert p
    decide
  simp only [setName, if_neg h1, Option.map_eq_none_iff, List.find?_eq_none, beq_iff_eq]
  exact this

theorem agree_model {I : Interp} (hI : FixedFns I) (C : List String) (ρ : Env) : Agree C I (Interp.model I C ρ) where
  div a b := by
    by_cases hb : b = 0
    · subst hb; simp [Model.div, Interp.model]
    · simp [Model.div, hb, hI.div a b hb]
  mod a b := by
    by_cases hb : b = 0
    · subst hb; simp [Model.mod, Interp.model]
    · simp [Model.mod, hb, hI.mod a b hb]
  makeTuple := hI.makeTuple
  tupleGet := hI.tupleGet
  listEq := hI.listEq
  ite := hI.ite
  setCreate := rfl
  set p hp := by
    simp only [setFns, List.mem_cons, List.not_mem_nil, or_false] at hp
    rcases hp with rfl | rfl | rfl | rfl | rfl | rfl <;> rfl
  fn f vs hf hC := by
    have hr : f ∉ reserved := by
      simp only [fnName, Bool.and_eq_true, Bool.not_eq_true'] at hf
      simpa using hf.2
    have : ¬ (vs = [] ∧ f ∈ C) := fun h => hC h.1 h.2
    simp [Interp.model, setName_fnName hr, this]

/-- **C46.** If the solver is right that no structure of a class `P` satisfies the text, then the verification condition holds for all
values of the variables of the right types, in every interpretation in which the declarations, axioms and synthesised functions hold and whose
structure is in `P` (for instance: satisfies the files of definitions). -/
theorem C46_unsat_valid_partial (topo : List (String × String) → Option (List String)) (htopo : TopoSpec topo)
    (setOrder : List String → List String) (hset : ∀ l, (setOrder l).Perm l) (lang : List FnDecl) (axs : List Ax)
    (cands : List FnDecl) (vars : List (String × Ty)) (vc : Expr) (hq : QueryOk lang axs cands vars vc)
    (hres : ∀ v ∈ vars, v.1 ∉ reserved) (text : String)
    (ht : queryText topo setOrder lang axs cands vars vc = some text) (P : Model → Prop)
    (hun : ∀ cs, readScript text = some cs → ∀ M, P M → ¬ M.Sat cs)
    (I : Interp) (hI : FixedFns I) (ρ : Env) (hP : P (Interp.model I (vars.map Prod.fst) ρ))
    (hl : ∀ d ∈ lang, written d = true → FnHolds I d) (ha : ∀ a ∈ axs, AxHolds I a) (hc : ∀ d ∈ cands, FnHolds I d)
    (hρ : ∀ v ∈ vars, OfTy v.2 (ρ v.1)) : holds I ρ vc := by
  obtain ⟨cs, hcs, hiff⟩ := C46_query_meaning_partial topo htopo setOrder hset lang axs cands vars vc hq text ht
  have hno := hun cs hcs _ hP
  rw [hiff I _ (agree_model hI _ ρ)] at hno
  have hv : ∀ v ∈ vars, (Interp.model I (vars.map Prod.fst) ρ).fn v.1 [] = ρ v.1 := by
    intro v hv
    simp [Interp.model, setName_fnName (hres v hv), List.mem_map_of_mem hv]
  have hval : eval I (fun n => (Interp.model I (vars.map Prod.fst) ρ).fn n []) vc = eval I ρ vc := by
    have h := hq.vcOk.2.2
    simp only [scopedIn, Bool.and_eq_true, List.all_eq_true, decide_eq_true_eq] at h
    have : ∀ (e : Expr), (∀ p ∈ occs e, p ∈ vars) → eval I (fun n => (Interp.model I (vars.map Prod.fst) ρ).fn n []) e = eval I ρ e := by
      intro e
      induction e using Expr.ind with
      | hv n t => intro h; exact hv _ (h (n, t) (by simp [occs]))
      | hl l => intro _; rfl
      | hn op t args ih =>
        intro h
        have ho : ∀ (es : List Expr), (∀ p ∈ occss es, p ∈ vars) → ∀ a ∈ es, ∀ p ∈ occs a, p ∈ vars := by
          intro es
          induction es with
          | nil => simp
          | cons e es ih =>
            intro h a ha p hp
            simp only [occss, List.mem_append] at h
            rcases List.mem_cons.1 ha with rfl | ha
            · exact h p (.inl hp)
            · exact ih (fun q hq => h q (.inr hq)) a ha p hp
        have : evals I (fun n => (Interp.model I (vars.map Prod.fst) ρ).fn n []) args = evals I ρ args := by
          rw [evals_eq_map, evals_eq_map]
          exact List.map_congr_left (fun a ha => ih a ha (ho args (by simpa [occs] using h) a ha))
        simp [eval, this]
    exact this vc h.1
  by_cases hh : (eval I ρ vc).asBool = true
  · exact hh
  · refine absurd ⟨hl, ha, hc, fun v hv' => by rw [hv v hv']; exact hρ v hv', ?_⟩ hno
    rw [hval]
    simpa using hh

/-- **C46.** A structure that satisfies the text is a counterexample to the verification condition. -/
theorem C46_sat_counterexample_partial (topo : List (String × String) → Option (List String)) (htopo : TopoSpec topo)
    (setOrder : List String → List String) (hset : ∀ l, (setOrder l).Perm l) (lang : List FnDecl) (axs : List Ax)
    (cands : List FnDecl) (vars : List (String × Ty)) (vc : Expr) (hq : QueryOk lang axs cands vars vc) (text : String)
    (ht : queryText topo setOrder lang axs cands vars vc = some text) (cs : List SExpr) (hr : readScript text = some cs)
    (M : Model) (hM : M.Sat cs) :
    ∃ (I : Interp) (ρ : Env), Agree (vars.map Prod.fst) I M ∧ (∀ d ∈ lang, written d = true → FnHolds I d) ∧ (∀ a ∈ axs, AxHolds I a) ∧
      (∀ d ∈ cands, FnHolds I d) ∧ (∀ v ∈ vars, ρ v.1 = M.fn v.1 [] ∧ OfTy v.2 (ρ v.1)) ∧ ¬ holds I ρ vc := by
  obtain ⟨cs', hcs, hiff⟩ := C46_query_meaning_partial topo htopo setOrder hset lang axs cands vars vc hq text ht
  rw [hr] at hcs
  injection hcs with hcs
  subst hcs
  obtain ⟨a, b, c, d, e⟩ := (hiff M.interp M (agree_interp _ M)).1 hM
  exact ⟨M.interp, fun n => M.fn n [], agree_interp _ M, a, b, c, fun v hv => ⟨rfl, d v hv⟩, by simp [holds, e]⟩

end Smt
end Metalift
