import Verif.SynthFileText
/-
The forms of the file written for Rosette for synthesis, part two: the query, and the whole file.
-/
namespace Metalift
namespace Rkt
open Smt (joinSp Piece)

/-! ### White space -/

theorem spaces_tokens {w rest : List Char} (h : ∀ c ∈ w, isSpace c = true) : tokens [] (w ++ rest) = tokens [] rest := by
  induction w with
  | nil => rfl
  | cons c w ih =>
    rw [List.cons_append, tokens, if_pos (h c (by simp)), ih (fun d hd => h d (by simp [hd]))]
    rfl

/-- Pieces separated by white space. -/
theorem GoodPiece.ws {s t : String} {xs ys : List SExpr} (w : String) (hw : (!w.toList.isEmpty && w.toList.all isSpace) = true) (hs : GoodPiece s xs)
    (ht : GoodPiece t ys) : GoodPiece (s ++ w ++ t) (xs ++ ys) := by
  simp only [Bool.and_eq_true, Bool.not_eq_true', List.all_eq_true] at hw
  constructor
  · rw [String.append_assoc]
    have h2 : Piece (w ++ t) ([] ++ ys) := by
      intro rest hr
      rw [String.toList_append, List.append_assoc, spaces_tokens hw.2, ht.piece _ hr]
      simp
    refine hs.piece.append h2 ?_
    intro rest hr
    rw [String.toList_append]
    cases e : w.toList with
    | nil => rw [e] at hw; exact absurd hw.1 (by decide)
    | cons c cs =>
      refine .inr ⟨c, _, rfl, ?_⟩
      have := hw.2 c (by simp [e])
      simp [isDelim, this]
  · simp only [String.toList_append, clean_append]
    refine ⟨⟨hs.clean, ?_⟩, ht.clean⟩
    simp only [cleanText, List.all_eq_true, Bool.and_eq_true, bne_iff_ne]
    intro c hc
    have := hw.2 c hc
    refine ⟨⟨?_, ?_⟩, ?_⟩ <;> rintro rfl <;> exact absurd this (by decide)

/-! ### The query -/

/-- Names of files: no delimiters, brackets or comments. -/
def fileName (s : String) : Bool := s.toList.all fun c => !isDelim c && c != ';' && c != '[' && c != ']'

/-- The forms of the query. -/
def queryForms (basename : String) (cs : List String) : List SExpr :=
  [.list [.atom "define", .atom "sol0", .list [.atom "synthesize", .atom "#:forall", .list (.atom "list" :: cs.map .atom), .atom "#:guarantee",
      .list [.atom "assertions"]]],
   .list [.atom "sat?", .atom "sol0"],
   .list [.atom "with-output-to-file", .atom ("\"synthesisLogs/" ++ basename ++ "_sol0\""), .list [.atom "lambda", .list [],
     .list [.atom "begin", .list [.atom "printf", .list [.atom "~a", .list [.atom "sat?", .atom "sol0"]]], .list [.atom "printf", .atom "\"\\n\""],
       .list [.atom "print-forms", .atom "sol0"]]]],
   .list [.atom "print-forms", .atom "sol0"]]

theorem path_atom {b : String} (h : fileName b = true) :
    GoodPiece ("\"synthesisLogs/" ++ b ++ "_sol0\"") [.atom ("\"synthesisLogs/" ++ b ++ "_sol0\"")] := by
  have h1 : b.toList.all (fun c => !isDelim c) = true ∧ cleanText b.toList = true := by
    simp only [fileName, cleanText, List.all_eq_true, Bool.and_eq_true] at h ⊢
    exact ⟨fun c hc => (h c hc).1.1.1, fun c hc => ⟨⟨(h c hc).1.1.2, (h c hc).1.2⟩, (h c hc).2⟩⟩
  refine loose_atom ?_ ?_ ?_
  · simp [String.toList_append]
  · rw [String.toList_append, String.toList_append, List.all_append, List.all_append, h1.1]
    decide +kernel
  · rw [String.toList_append, String.toList_append, clean_append, clean_append]
    exact ⟨⟨by decide +kernel, h1.2⟩, by decide +kernel⟩

theorem query_A : "\n    (define sol0\n        (synthesize\n            #:forall (list " =
    "\n    " ++ ("(" ++ ("define" ++ (" " ++ ("sol0" ++ ("\n        " ++ ("(" ++ ("synthesize" ++ ("\n            " ++ ("#:forall" ++ (" " ++ ("(" ++ ("list" ++ " ")))))))))))) := by decide +kernel
theorem query_B : ")\n            #:guarantee (assertions)\n        )\n    )\n    (sat? sol0)\n    (with-output-to-file\n        \"synthesisLogs/" =
    ")" ++ ("\n            " ++ ("#:guarantee" ++ (" " ++ ("(" ++ ("assertions" ++ (")" ++ ("\n        " ++ (")" ++ ("\n    " ++ (")" ++ ("\n    " ++ ("(" ++ ("sat?" ++ (" " ++ ("sol0" ++ (")" ++ ("\n    " ++ ("(" ++ ("with-output-to-file" ++ ("\n        " ++ "\"synthesisLogs/")))))))))))))))))))) := by decide +kernel
theorem query_C : "_sol0\"\n        (lambda ()\n            (begin\n                (printf (~a (sat? sol0)))\n                (printf \"\\n\")\n" =
    "_sol0\"" ++ ("\n        " ++ ("(" ++ ("lambda" ++ (" " ++ ("(" ++ (")" ++ ("\n            " ++ ("(" ++ ("begin" ++ ("\n                " ++ ("(" ++ ("printf" ++ (" " ++ ("(" ++ ("~a" ++ (" " ++ ("(" ++ ("sat?" ++ (" " ++ ("sol0" ++ (")" ++ (")" ++ (")" ++ ("\n                " ++ ("(" ++ ("printf" ++ (" " ++ ("\"\\n\"" ++ (")" ++ "\n"))))))))))))))))))))))))))))) := by decide +kernel
theorem query_D : "                (print-forms sol0)\n            )\n        )\n    )\n    (print-forms sol0)\n    " =
    "                " ++ ("(" ++ ("print-forms" ++ (" " ++ ("sol0" ++ (")" ++ ("\n            " ++ (")" ++ ("\n        " ++ (")" ++ ("\n    " ++ (")" ++ ("\n    " ++ ("(" ++ ("print-forms" ++ (" " ++ ("sol0" ++ (")" ++ "\n    "))))))))))))))))) := by decide +kernel

theorem cat_parts {a a' b b' c c' d d' : String} (j n : String) (h1 : a = a') (h2 : b = b') (h3 : c = c') (h4 : d = d') :
    a ++ j ++ b ++ n ++ c ++ d = a' ++ j ++ b' ++ n ++ c' ++ d' := by
  subst h1 h2 h3 h4
  rfl

theorem query_good {basename : String} {cs : List String} (hb : fileName basename = true) (hcs : ∀ c ∈ cs, rktName c = true) :
    GoodPiece (queryText basename cs) (queryForms basename cs) := by
  have a := fun (s : String) (h : headOk s = true) => lit_atom s h
  have gl := ((a "list" (by decide +kernel)).sp (good_join (names_good hcs))).paren.piece
  have q1 := ((((((a "synthesize" (by decide +kernel)).ws "\n            " (by decide +kernel) (a "#:forall" (by decide +kernel))).sp gl).ws
    "\n            " (by decide +kernel) (a "#:guarantee" (by decide +kernel))).sp (a "assertions" (by decide +kernel)).paren.piece).ws "\n        "
    (by decide +kernel) good_empty).paren.piece
  have q2 := ((((a "define" (by decide +kernel)).sp (a "sol0" (by decide +kernel))).ws "\n        " (by decide +kernel) q1).ws "\n    "
    (by decide +kernel) good_empty).paren.piece
  have sat := ((a "sat?" (by decide +kernel)).sp (a "sol0" (by decide +kernel))).paren.piece
  have pf := ((a "print-forms" (by decide +kernel)).sp (a "sol0" (by decide +kernel))).paren.piece
  have p1 := ((a "printf" (by decide +kernel)).sp ((a "~a" (by decide +kernel)).sp sat).paren.piece).paren.piece
  have p2 := ((a "printf" (by decide +kernel)).sp (loose_atom (s := "\"\\n\"") (by decide +kernel) (by decide +kernel)
    (by decide +kernel))).paren.piece
  have bg := (((((a "begin" (by decide +kernel)).ws "\n                " (by decide +kernel) p1).ws "\n                " (by decide +kernel) p2).nl
    (good_empty.ws "                " (by decide +kernel) pf)).ws "\n            " (by decide +kernel) good_empty).paren.piece
  have lm := ((((a "lambda" (by decide +kernel)).sp good_empty.paren.piece).ws "\n            " (by decide +kernel) bg).ws "\n        "
    (by decide +kernel) good_empty).paren.piece
  have wo := ((((a "with-output-to-file" (by decide +kernel)).ws "\n        " (by decide +kernel) (path_atom hb)).ws "\n        " (by decide +kernel)
    lm).ws "\n    " (by decide +kernel) good_empty).paren.piece
  have all := (((((good_empty.ws "\n    " (by decide +kernel) q2).ws "\n    " (by decide +kernel) sat).ws "\n    " (by decide +kernel) wo).ws "\n    "
    (by decide +kernel) pf).ws "\n    " (by decide +kernel) good_empty)
  rw [show queryText basename cs = _ from cat_parts (joinSp cs) basename query_A query_B query_C query_D]
  simp only [String.append_assoc, String.empty_append, String.append_empty, -String.reduceAppend] at all ⊢
  simp only [List.append_nil, List.nil_append, List.cons_append] at all
  exact all

/-! ### The queries of further rounds -/

/-- The name of the solution of a round. -/
def solName (i : Nat) : String := "sol" ++ i.repr

/-- The form of the call of a function with its own parameters. -/
def callForm (g : SynthFn) : SExpr := .list (.atom g.name :: (g.params.map Prod.fst).map .atom)

def differsForm (j : Nat) (g : SynthFn) : SExpr :=
  .list [.atom "!", .list [.atom "eq?", callForm g, .list [.atom "evaluate", callForm g, .atom (solName j)]]]

def orForm (guesses : List SynthFn) (j : Nat) : SExpr := .list (.atom "||" :: guesses.map (differsForm j))

/-- The form of the query of a further round. -/
def nextForm (cs : List String) (guesses : List SynthFn) (i : Nat) : SExpr :=
  .list [.atom "define", .atom (solName i), .list [.atom "synthesize", .atom "#:forall", .list (.atom "list" :: cs.map .atom), .atom "#:guarantee",
    .list (.atom "begin" :: ((List.range i).map (fun j => .list [.atom "assume", orForm guesses j]) ++ [.list [.atom "assertions"]]))]]

/-- The forms that ask for the solution and print it. -/
def printForms (basename : String) (i : Nat) : List SExpr :=
  [.list [.atom "sat?", .atom (solName i)],
   .list [.atom "with-output-to-file", .atom ("\"synthesisLogs/" ++ (basename ++ ("_" ++ (solName i ++ "\"")))), .list [.atom "lambda", .list [],
     .list [.atom "begin", .list [.atom "printf", .list [.atom "~a", .list [.atom "sat?", .atom (solName i)]]], .list [.atom "printf", .atom "\"\\n\""],
       .list [.atom "print-forms", .atom (solName i)]]]],
   .list [.atom "print-forms", .atom (solName i)]]

def nextForms (basename : String) (cs : List String) (guesses : List SynthFn) (i : Nat) : List SExpr := nextForm cs guesses i :: printForms basename i

theorem solName_chars (i : Nat) : (solName i).toList.all nameChar = true := by
  rw [solName, String.toList_append, List.all_append, digits_nameChar]
  decide

theorem solName_toList (i : Nat) : (solName i).toList = 's' :: 'o' :: 'l' :: i.repr.toList := by
  rw [solName, String.toList_append]
  rfl

theorem solName_rkt (i : Nat) : rktName (solName i) = true := by
  have h1 : ∀ s : String, s.toList.head? ≠ some 's' → (solName i != s) = true := by
    intro s hs
    rw [bne_iff_ne]
    rintro rfl
    rw [solName_toList] at hs
    exact hs rfl
  rw [rktName, solName_chars, h1 "true" (by decide), h1 "false" (by decide), solName_toList]
  rfl

theorem sol_atom (i : Nat) : GoodPiece (solName i) [.atom (solName i)] := (good_name (solName_rkt i)).piece

theorem next_path {b : String} (h : fileName b = true) (i : Nat) :
    GoodPiece ("\"synthesisLogs/" ++ (b ++ ("_" ++ (solName i ++ "\"")))) [.atom ("\"synthesisLogs/" ++ (b ++ ("_" ++ (solName i ++ "\""))))] := by
  have h1 : b.toList.all (fun c => !isDelim c) = true ∧ cleanText b.toList = true := by
    simp only [fileName, cleanText, List.all_eq_true, Bool.and_eq_true] at h ⊢
    exact ⟨fun c hc => (h c hc).1.1.1, fun c hc => ⟨⟨(h c hc).1.1.2, (h c hc).1.2⟩, (h c hc).2⟩⟩
  have h2 : (solName i).toList.all (fun c => !isDelim c) = true ∧ cleanText (solName i).toList = true := by
    refine ⟨?_, rktName_clean (solName_rkt i)⟩
    simp only [List.all_eq_true]
    intro c hc
    rw [(goodAtom_delim (rktName_good (solName_rkt i))).2 c hc]
    rfl
  refine loose_atom ?_ ?_ ?_
  · simp [String.toList_append]
  · simp only [String.toList_append, List.all_append, h1.1, h2.1]
    decide +kernel
  · simp only [String.toList_append, clean_append]
    exact ⟨by decide +kernel, h1.2, by decide +kernel, h2.2, by decide +kernel⟩

theorem next_A : "\n        (define sol" =
    "\n        " ++ ("(" ++ ("define" ++ (" " ++ "sol"))) := by decide +kernel
theorem next_B : "\n            (synthesize\n                #:forall (list " =
    "\n            " ++ ("(" ++ ("synthesize" ++ ("\n                " ++ ("#:forall" ++ (" " ++ ("(" ++ ("list" ++ " "))))))) := by decide +kernel
theorem next_C : ")\n                #:guarantee (begin\n                    " =
    ")" ++ ("\n                " ++ ("#:guarantee" ++ (" " ++ ("(" ++ ("begin" ++ "\n                    "))))) := by decide +kernel
theorem next_D : "\n                    (assertions)\n                )\n            )\n        )\n        (sat? sol" =
    "\n                    " ++ ("(" ++ ("assertions" ++ (")" ++ ("\n                " ++ (")" ++ ("\n            " ++ (")" ++ ("\n        " ++ (")" ++ ("\n        " ++ ("(" ++ ("sat?" ++ (" " ++ "sol"))))))))))))) := by decide +kernel
theorem next_E : ")\n        (with-output-to-file\n            \"synthesisLogs/" =
    ")" ++ ("\n        " ++ ("(" ++ ("with-output-to-file" ++ ("\n            " ++ "\"synthesisLogs/")))) := by decide +kernel
theorem next_G : "\"\n            (lambda ()\n                (begin\n                    (printf (~a (sat? sol" =
    "\"" ++ ("\n            " ++ ("(" ++ ("lambda" ++ (" " ++ ("(" ++ (")" ++ ("\n                " ++ ("(" ++ ("begin" ++ ("\n                    " ++ ("(" ++ ("printf" ++ (" " ++ ("(" ++ ("~a" ++ (" " ++ ("(" ++ ("sat?" ++ (" " ++ "sol"))))))))))))))))))) := by decide +kernel
theorem next_H : ")))\n                    (printf \"\\n\")\n                    (print-forms sol" =
    ")" ++ (")" ++ (")" ++ ("\n                    " ++ ("(" ++ ("printf" ++ (" " ++ ("\"\\n\"" ++ (")" ++ ("\n                    " ++ ("(" ++ ("print-forms" ++ (" " ++ "sol")))))))))))) := by decide +kernel
theorem next_J : ")\n                )\n            )\n        )\n        (print-forms sol" =
    ")" ++ ("\n                " ++ (")" ++ ("\n            " ++ (")" ++ ("\n        " ++ (")" ++ ("\n        " ++ ("(" ++ ("print-forms" ++ (" " ++ "sol")))))))))) := by decide +kernel
theorem next_K : ")\n        " =
    ")" ++ "\n        " := by decide +kernel

theorem cat_next {a a' b b' c c' d d' e e' g g' h h' j j' k k' : String} (i f : String) (cs as n : String) (h1 : a = a') (h2 : b = b') (h3 : c = c')
    (h4 : d = d') (h5 : e = e') (h6 : g = g') (h7 : h = h') (h8 : j = j') (h9 : k = k') :
    a ++ i ++ b ++ cs ++ c ++ as ++ d ++ i ++ e ++ n ++ f ++ i ++ g ++ i ++ h ++ i ++ j ++ i ++ k =
      a' ++ i ++ b' ++ cs ++ c' ++ as ++ d' ++ i ++ e' ++ n ++ f ++ i ++ g' ++ i ++ h' ++ i ++ j' ++ i ++ k' := by
  subst h1 h2 h3 h4 h5 h6 h7 h8 h9
  rfl

/-- The functions whose earlier solutions are excluded can be printed. -/
def GuessNames (guesses : List SynthFn) : Prop := ∀ g ∈ guesses, rktName g.name = true ∧ ∀ p ∈ g.params, rktName p.1 = true

theorem call_good {g : SynthFn} (h : rktName g.name = true ∧ ∀ p ∈ g.params, rktName p.1 = true) : GoodPiece (guessCall g) [callForm g] := by
  have := ((good_name h.1).piece.sp (good_join (names_good (ps := g.params.map Prod.fst) (by
    intro p hp
    obtain ⟨q, hq, rfl⟩ := List.mem_map.1 hp
    exact h.2 q hq)))).paren.piece
  simpa only [guessCall, callForm, String.append_assoc, List.singleton_append] using this

theorem differs_good {g : SynthFn} (h : rktName g.name = true ∧ ∀ p ∈ g.params, rktName p.1 = true) (j : Nat) : Good (differsText j g) (differsForm j g) := by
  have a := fun (s : String) (h : headOk s = true) => lit_atom s h
  have e := (((a "evaluate" (by decide +kernel)).sp (call_good h)).sp (sol_atom j)).paren.piece
  have q := (((a "eq?" (by decide +kernel)).sp (call_good h)).sp e).paren.piece
  have n := ((a "!" (by decide +kernel)).sp q).paren
  rw [differsText, show "(! (eq? " = "(" ++ ("!" ++ (" " ++ ("(" ++ ("eq?" ++ " ")))) from by decide +kernel,
    show " (evaluate " = " " ++ ("(" ++ ("evaluate" ++ " ")) from by decide +kernel, show " sol" = " " ++ "sol" from by decide +kernel,
    show ")))" = ")" ++ (")" ++ ")") from by decide +kernel]
  simp only [String.append_assoc, solName, -String.reduceAppend] at n ⊢
  simpa only [differsForm, solName, List.cons_append, List.nil_append] using n

theorem all2_map {α β γ : Type} {R : β → γ → Prop} {f : α → β} {g : α → γ} {l : List α} (h : ∀ a ∈ l, R (f a) (g a)) : All2 R (l.map f) (l.map g) := by
  induction l with
  | nil => exact .nil
  | cons a l ih => exact .cons (h a (by simp)) (ih fun b hb => h b (by simp [hb]))

theorem assume_good {guesses : List SynthFn} (h : GuessNames guesses) (j : Nat) :
    Good (assumeText guesses j) (.list [.atom "assume", orForm guesses j]) := by
  have a := fun (s : String) (h : headOk s = true) => lit_atom s h
  have o := ((a "||" (by decide +kernel)).sp (good_join (all2_map (f := differsText j) (g := differsForm j) fun g hg => differs_good (h g hg) j))).paren.piece
  have n := ((a "assume" (by decide +kernel)).sp o).paren
  rw [assumeText, show "(assume (|| " = "(" ++ ("assume" ++ (" " ++ ("(" ++ ("||" ++ " ")))) from by decide +kernel,
    show "))" = ")" ++ ")" from by decide +kernel]
  simp only [String.append_assoc, -String.reduceAppend] at n ⊢
  simpa only [orForm, List.cons_append, List.nil_append] using n

theorem next_good {basename : String} {cs : List String} {guesses : List SynthFn} (hb : fileName basename = true) (hcs : ∀ c ∈ cs, rktName c = true)
    (hgu : GuessNames guesses) (i : Nat) : GoodPiece (nextQueryText basename cs guesses i) (nextForms basename cs guesses i) := by
  have a := fun (s : String) (h : headOk s = true) => lit_atom s h
  have gl := ((a "list" (by decide +kernel)).sp (good_join (names_good hcs))).paren.piece
  have as := good_join (all2_map (l := List.range i) (f := assumeText guesses) (g := fun j => .list [.atom "assume", orForm guesses j])
    fun j _ => assume_good hgu j)
  have bg := ((((a "begin" (by decide +kernel)).ws "\n                    " (by decide +kernel) as).ws "\n                    " (by decide +kernel)
    (a "assertions" (by decide +kernel)).paren.piece).ws "\n                " (by decide +kernel) good_empty).paren.piece
  have q1 := ((((((a "synthesize" (by decide +kernel)).ws "\n                " (by decide +kernel) (a "#:forall" (by decide +kernel))).sp gl).ws
    "\n                " (by decide +kernel) (a "#:guarantee" (by decide +kernel))).sp bg).ws "\n            " (by decide +kernel) good_empty).paren.piece
  have q2 := ((((a "define" (by decide +kernel)).sp (sol_atom i)).ws "\n            " (by decide +kernel) q1).ws "\n        "
    (by decide +kernel) good_empty).paren.piece
  have sat := ((a "sat?" (by decide +kernel)).sp (sol_atom i)).paren.piece
  have pf := ((a "print-forms" (by decide +kernel)).sp (sol_atom i)).paren.piece
  have p1 := ((a "printf" (by decide +kernel)).sp ((a "~a" (by decide +kernel)).sp sat).paren.piece).paren.piece
  have p2 := ((a "printf" (by decide +kernel)).sp (loose_atom (s := "\"\\n\"") (by decide +kernel) (by decide +kernel)
    (by decide +kernel))).paren.piece
  have bg := (((((a "begin" (by decide +kernel)).ws "\n                    " (by decide +kernel) p1).ws "\n                    " (by decide +kernel) p2).ws
    "\n                    " (by decide +kernel) pf).ws "\n                " (by decide +kernel) good_empty).paren.piece
  have lm := ((((a "lambda" (by decide +kernel)).sp good_empty.paren.piece).ws "\n                " (by decide +kernel) bg).ws "\n            "
    (by decide +kernel) good_empty).paren.piece
  have wo := ((((a "with-output-to-file" (by decide +kernel)).ws "\n            " (by decide +kernel) (next_path hb i)).ws "\n            "
    (by decide +kernel) lm).ws "\n        " (by decide +kernel) good_empty).paren.piece
  have all := (((((good_empty.ws "\n        " (by decide +kernel) q2).ws "\n        " (by decide +kernel) sat).ws "\n        " (by decide +kernel) wo).ws
    "\n        " (by decide +kernel) pf).ws "\n        " (by decide +kernel) good_empty)
  rw [show nextQueryText basename cs guesses i = _ from cat_next i.repr "_sol" (joinSp cs) (joinSp ((List.range i).map (assumeText guesses))) basename
    next_A next_B next_C next_D next_E next_G next_H next_J next_K, show "_sol" = "_" ++ "sol" from by decide +kernel]
  simp only [solName, String.append_assoc, String.empty_append, String.append_empty, -String.reduceAppend] at all ⊢
  simp only [List.append_nil, List.nil_append, List.cons_append] at all
  exact all

/-- The forms of the queries. -/
def queriesForms (basename : String) (rounds : Nat) (guesses : List SynthFn) (cs : List String) : List SExpr :=
  queryForms basename cs ++ (List.range rounds).flatMap fun i => nextForms basename cs guesses (i + 1)

theorem lines_pieces {ss : List String} {xss : List (List SExpr)} (h : All2 GoodPiece ss xss) : GoodPiece (joinLines ss) xss.flatten := by
  induction h with
  | nil => exact good_empty
  | @cons s xs ss xss h1 h2 ih =>
    cases h2 with
    | nil => simpa [joinLines] using h1
    | @cons t ys ss xss h3 h4 =>
      have := h1.nl ih
      simpa [joinLines] using this

theorem queries_good {basename : String} {rounds : Nat} {guesses : List SynthFn} {cs : List String} (hb : fileName basename = true)
    (hcs : ∀ c ∈ cs, rktName c = true) (hgu : GuessNames guesses) :
    GoodPiece (queriesText basename rounds guesses cs) (queriesForms basename rounds guesses cs) := by
  have := lines_pieces (.cons (query_good hb hcs) (all2_map (l := List.range rounds) (f := fun i => nextQueryText basename cs guesses (i + 1))
    (g := fun i => nextForms basename cs guesses (i + 1)) fun i _ => next_good hb hcs hgu (i + 1)))
  rw [queriesText, queriesForms, List.flatMap_def]
  rwa [List.flatten_cons] at this

theorem queries_lists {basename : String} {rounds : Nat} {guesses : List SynthFn} {cs : List String} {x : SExpr}
    (hx : x ∈ queriesForms basename rounds guesses cs) : ∃ xs, x = .list xs := by
  rcases List.mem_append.1 hx with hx | hx
  · simp only [queryForms, List.mem_cons, List.not_mem_nil, or_false] at hx
    rcases hx with rfl | rfl | rfl | rfl <;> exact ⟨_, rfl⟩
  · obtain ⟨i, _, hx⟩ := List.mem_flatMap.1 hx
    simp only [nextForms, printForms, List.mem_cons, List.not_mem_nil, or_false] at hx
    rcases hx with rfl | rfl | rfl | rfl <;> exact ⟨_, rfl⟩

/-! ### The file -/

/-- The forms between the declarations and the query. -/
def lastForms (unbounded : Bool) (v : SExpr) : List SExpr :=
  [.list [.atom "current-bitwidth", .atom (if unbounded then "#f" else "6")],
   .list [.atom "define", .list [.atom "assertions"], .list [.atom "assert", v]]]

/-- The form of the definition of a function to be synthesized. -/
def holeOf (s : SynthFn) : SExpr := holeForm s.name (s.params.map Prod.fst)

theorem langTexts_filter (lang : List FnDecl) : langTexts lang = langTexts (lang.filter fun d => d.body.isSome) := by
  induction lang with
  | nil => rfl
  | cons d lang ih =>
    cases h : d.body with
    | none => simp [langTexts, h, ih]
    | some b => simp [langTexts, h, ih]

/-- The functions of the target language without a body are those that the further grammars are for. -/
def Guessed (lang : List FnDecl) (helpers : List SynthFn) : Prop :=
  (lang.filter fun d => d.body.isNone).map (fun d => (d.name, d.params.map Prod.fst)) = helpers.map fun s => (s.name, s.params.map Prod.fst)

theorem holes_of {sig : Sigs} {ss : List SynthFn} (h : ∀ s ∈ ss, SketchFn sig s) (r : String) (ys : List SExpr) (hr : GoodPiece r ys) :
    GoodPiece (invPsText (ss.map fun s => (s.name, s.params.map Prod.fst)) ++ r) (ss.map holeOf ++ ys) := by
  have := holes_good (fs := ss.map fun s => (s.name, s.params.map Prod.fst)) (by
    intro f hf
    obtain ⟨s, hs, rfl⟩ := List.mem_map.1 hf
    refine ⟨(h s hs).hname.1, fun p hp => ?_⟩
    obtain ⟨q, hq, rfl⟩ := List.mem_map.1 hp
    exact (h s hs).hparams q hq) r ys hr
  rw [List.map_map] at this
  exact this

theorem good_left {l : String} {xs : List SExpr} (h : ∀ r ys, GoodPiece r ys → GoodPiece (l ++ r) (xs ++ ys)) : cleanText l.toList = true := by
  have := (h "" [] good_empty).clean
  rw [String.toList_append, clean_append] at this
  exact this.1

theorem guessed_good {sig : Sigs} {lang : List FnDecl} {helpers : List SynthFn} (hg : Guessed lang helpers) (hs : ∀ s ∈ helpers, SketchFn sig s)
    (r : String) (ys : List SExpr) (hr : GoodPiece r ys) : GoodPiece ((if (lang.filter fun d => d.body.isNone).isEmpty then "" else
      invPsText ((lang.filter fun d => d.body.isNone).map fun d => (d.name, d.params.map Prod.fst)) ++ "\n") ++ r) (helpers.map holeOf ++ ys) := by
  split
  · next he =>
    have : helpers = [] := by
      have := congrArg List.length hg
      rw [List.isEmpty_iff] at he
      simpa [he] using this.symm
    subst this
    simpa using hr
  · rw [hg, String.append_assoc]
    have := holes_of hs _ _ (good_empty.nl hr)
    rw [String.empty_append] at this
    exact this

theorem synth_body_good {sig : Sigs} (hsig : ∀ f ts t, sig f = some (ts, t) → headOk f = true) {basename : String} {rounds : Nat} {guesses : List SynthFn} {lang : List FnDecl}
    {synths helpers : List SynthFn} {ds : List RDecl} {cs : List String} {unbounded : Bool} {vc : Expr} {Γ : String → Ty}
    (hb : fileName basename = true) (hgu : GuessNames guesses) (hl : ∀ d ∈ lang.filter (fun d => d.body.isSome), fnOk sig d = true) (hs : ∀ s ∈ synths ++ helpers, SketchFn sig s)
    (hg : Guessed lang helpers) (hd : ∀ d ∈ ds, ∀ x ∈ rdeclNames d, rktName x = true) (hcs : ∀ c ∈ cs, rktName c = true)
    (hvs : vc.sorted Γ sig = true) (hvv : ∀ x ∈ vc.vars, rktName x = true) {s : String}
    (ht : synthBody basename rounds guesses lang synths helpers ds cs unbounded vc = some s) :
    ∃ lx gs v, (lang.filter fun d => d.body.isSome).mapM fnForm = some lx ∧ All2 (fun s g => grammarOf s = some g) (synths ++ helpers) gs ∧
      rktSx vc = some v ∧ GoodPiece (roundText s) (lx ++ (gs.map gramSx ++ ((synths ++ helpers).map holeOf ++ (ds.map rdeclSx ++
        (lastForms unbounded v ++ queriesForms basename rounds guesses cs))))) := by
  simp only [synthBody, Option.bind_eq_bind, Option.bind_eq_some_iff, Option.some.injEq] at ht
  obtain ⟨l, hl', c, hc', v, hv, rfl⟩ := ht
  rw [langTexts_filter] at hl'
  obtain ⟨lx, hlx, gl⟩ := langs_good hsig hl hl'
  obtain ⟨gs, hgs, gg⟩ := grammars_good hsig hs hc'
  obtain ⟨vx, hvx, gv⟩ := expr_good hsig vc hvs hvv v hv
  refine ⟨lx, gs, vx, hlx, hgs, hvx, ?_⟩
  have b1 : GoodPiece (if unbounded then "(current-bitwidth #f)" else "(current-bitwidth 6)")
      [.list [.atom "current-bitwidth", .atom (if unbounded then "#f" else "6")]] := by
    cases unbounded with
    | true =>
      have := ((lit_atom "current-bitwidth" (by decide +kernel)).sp (lit_atom "#f" (by decide +kernel))).paren.piece
      rwa [show "(" ++ ("current-bitwidth" ++ " " ++ "#f") ++ ")" = "(current-bitwidth #f)" from by decide +kernel] at this
    | false =>
      have := ((lit_atom "current-bitwidth" (by decide +kernel)).sp (lit_atom "6" (by decide +kernel))).paren.piece
      rwa [show "(" ++ ("current-bitwidth" ++ " " ++ "6") ++ ")" = "(current-bitwidth 6)" from by decide +kernel] at this
  have b2 := ((((lit_atom "define" (by decide +kernel)).sp (lit_atom "assertions" (by decide +kernel)).paren.piece).nl
    (good_empty.sp ((lit_atom "assert" (by decide +kernel)).sp gv.piece).paren.piece))).paren.piece
  have b4 := (lines_good (rdecls_good hd)).nl (b1.nl (b2.nl (good_empty.nl ((queries_good (rounds := rounds) hb hcs hgu).nl good_empty))))
  have b5 := guessed_good hg (fun s h => hs s (by simp [h])) _ _ b4
  have b6 := holes_of (ss := synths) (fun s h => hs s (by simp [h])) _ _ (good_empty.nl b5)
  rw [← round_clean b6.clean] at b6
  have b7 := gg _ _ b6
  have b8 := gl _ _ b7
  rw [← round_clean (good_left gl), ← round_append] at b8
  have e1 : (if unbounded then "(current-bitwidth #f)\n" else "(current-bitwidth 6)\n") =
      (if unbounded then "(current-bitwidth #f)" else "(current-bitwidth 6)") ++ "\n" := by
    cases unbounded <;> decide +kernel
  rw [e1, show "(define (assertions)\n (assert " = "(" ++ ("define" ++ (" " ++ ("(" ++ ("assertions" ++ (")" ++ ("\n" ++ (" " ++ ("(" ++
    ("assert" ++ " "))))))))) from by decide +kernel, show "))\n" = ")" ++ (")" ++ "\n") from by decide +kernel]
  simp only [String.append_assoc, String.empty_append, String.append_empty, -String.reduceAppend] at b8 ⊢
  rw [List.map_append]
  simpa only [lastForms, List.append_assoc, List.nil_append, List.append_nil, List.cons_append, List.singleton_append] using b8

/-- The forms of the whole file. -/
theorem synth_read {sig : Sigs} (hsig : ∀ f ts t, sig f = some (ts, t) → headOk f = true) {basename : String} {rounds : Nat} {guesses : List SynthFn} {lang : List FnDecl}
    {synths helpers : List SynthFn} {ds : List RDecl} {cs : List String} {unbounded : Bool} {vc : Expr} {Γ : String → Ty}
    (hb : fileName basename = true) (hgu : GuessNames guesses) (hl : ∀ d ∈ lang.filter (fun d => d.body.isSome), fnOk sig d = true) (hs : ∀ s ∈ synths ++ helpers, SketchFn sig s)
    (hg : Guessed lang helpers) (hd : ∀ d ∈ ds, ∀ x ∈ rdeclNames d, rktName x = true) (hcs : ∀ c ∈ cs, rktName c = true)
    (hvs : vc.sorted Γ sig = true) (hvv : ∀ x ∈ vc.vars, rktName x = true) {s : String}
    (ht : synthBody basename rounds guesses lang synths helpers ds cs unbounded vc = some s) :
    ∃ lx gs v, (lang.filter fun d => d.body.isSome).mapM fnForm = some lx ∧ All2 (fun s g => grammarOf s = some g) (synths ++ helpers) gs ∧
      rktSx vc = some v ∧ readModule (String.ofList (fileHeader ++ s.toList)) = some (headerForms ++ (lx ++ (gs.map gramSx ++
        ((synths ++ helpers).map holeOf ++ (ds.map rdeclSx ++ (lastForms unbounded v ++ queriesForms basename rounds guesses cs)))))) := by
  obtain ⟨lx, gs, v, hlx, hgs, hv, g⟩ := synth_body_good hsig hb hgu hl hs hg hd hcs hvs hvv ht
  refine ⟨lx, gs, v, hlx, hgs, hv, ?_⟩
  obtain ⟨ls, hls⟩ := all_lists (xs := lx ++ (gs.map gramSx ++ ((synths ++ helpers).map holeOf ++ (ds.map rdeclSx ++
      (lastForms unbounded v ++ queriesForms basename rounds guesses cs))))) (by
    intro x hx
    rw [List.mem_append, List.mem_append, List.mem_append, List.mem_append, List.mem_append] at hx
    rcases hx with hx | hx | hx | hx | hx | hx
    · obtain ⟨_, _, h⟩ := mapM_forms hlx x hx
      exact fnForm_list h
    · obtain ⟨d, _, rfl⟩ := List.mem_map.1 hx
      exact ⟨_, rfl⟩
    · obtain ⟨d, _, rfl⟩ := List.mem_map.1 hx
      exact ⟨_, rfl⟩
    · obtain ⟨d, _, rfl⟩ := List.mem_map.1 hx
      cases d <;> exact ⟨_, rfl⟩
    · simp only [lastForms, List.mem_cons, List.not_mem_nil, or_false] at hx
      rcases hx with rfl | rfl <;> exact ⟨_, rfl⟩
    · exact queries_lists hx)
  rw [hls] at g ⊢
  have c2 := (clean_paren g.clean).2
  have e : s.toList.map paren = (roundText s).toList := by simp [roundText]
  have r1 : Smt.readChars (s.toList.map paren) = some (ls.map .list) := by
    rw [Smt.readChars, e, c2]
    have := g.piece.read
    rwa [Smt.readScript, generateAst] at this
  have hn : '\n' ∈ fileHeader := by decide +kernel
  have := Smt.readChars_append header_read.2 header_read.1 r1
  rw [readModule, String.toList_ofList, afterLine_append hn, List.map_append, generateAst, String.toList_ofList]
  exact this

end Rkt
end Metalift
