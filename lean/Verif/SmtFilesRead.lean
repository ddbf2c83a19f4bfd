import Verif.SmtFiles
import Verif.PSmtAccept
/-
The commands of the files of definitions are those of `fileCmds`: reading the text piece by piece.
-/
namespace Metalift
namespace Smt

theorem uncomment_nl (c : Bool) (a b : List Char) :
    uncomment c (a ++ '\n' :: b) = uncomment c (a ++ ['\n']) ++ uncomment false b := by
  induction a generalizing c with
  | nil => cases c <;> simp [uncomment]
  | cons x xs ih =>
    cases c
    · simp only [List.cons_append, uncomment]
      split
      · exact ih true
      · rw [ih false, List.cons_append]
    · simp only [List.cons_append, uncomment]
      split
      · rw [ih false, List.cons_append]
      · exact ih true

theorem uncomment_ends (c : Bool) (a : List Char) : ∃ a', uncomment c (a ++ ['\n']) = a' ++ ['\n'] := by
  induction a generalizing c with
  | nil => exact ⟨[], by cases c <;> simp [uncomment]⟩
  | cons x xs ih =>
    obtain ⟨a1, h1⟩ := ih true
    obtain ⟨a2, h2⟩ := ih false
    cases c
    · simp only [List.cons_append, uncomment]
      split
      · exact ⟨a1, h1⟩
      · exact ⟨x :: a2, by rw [h2]; rfl⟩
    · simp only [List.cons_append, uncomment]
      split
      · exact ⟨x :: a2, by rw [h2]; rfl⟩
      · exact ⟨a1, h1⟩

theorem tokens_split (cur a b : List Char) : tokens cur (a ++ '\n' :: b) = tokens cur (a ++ ['\n']) ++ tokens [] b := by
  induction a generalizing cur with
  | nil => simp [tokens, isSpace, flush]
  | cons x xs ih =>
    simp only [List.cons_append, tokens]
    split
    · rw [ih]; simp
    · split
      · rw [ih]; simp
      · split
        · rw [ih]; simp
        · exact ih _

theorem parse_split (ts us : List Token) :
    (∀ cur r acc, parseTokens ts cur [] = some r → parseTokens (ts ++ us) (cur ++ acc) [] = parseTokens us (r.reverse ++ acc) []) ∧
    (∀ cur st p r acc, parseTokens ts cur (st ++ [p]) = some r →
      parseTokens (ts ++ us) cur (st ++ [p ++ acc]) = parseTokens us (r.reverse ++ acc) []) := by
  induction ts with
  | nil =>
    constructor
    · intro cur r acc h
      simp only [parseTokens, Option.some.injEq] at h
      subst h; simp
    · intro cur st p r acc h
      cases st <;> simp [parseTokens] at h
  | cons t ts ih =>
    obtain ⟨ih1, ih2⟩ := ih
    constructor
    · intro cur r acc h
      cases t with
      | lpar =>
        simp only [parseTokens, List.cons_append] at h ⊢
        exact ih2 [] [] cur r acc h
      | rpar => simp [parseTokens] at h
      | atom a => simp [parseTokens] at h
    · intro cur st p r acc h
      cases t with
      | lpar =>
        simp only [parseTokens, List.cons_append] at h ⊢
        exact ih2 [] (cur :: st) p r acc h
      | rpar =>
        cases st with
        | nil =>
          simp only [List.nil_append, parseTokens, List.cons_append] at h ⊢
          exact ih1 _ r acc h
        | cons q st =>
          simp only [parseTokens, List.cons_append] at h ⊢
          exact ih2 _ st p r acc h
      | atom a =>
        cases st with
        | nil =>
          simp only [List.nil_append, parseTokens, List.cons_append] at h ⊢
          exact ih2 _ [] p r acc h
        | cons q st =>
          simp only [parseTokens, List.cons_append] at h ⊢
          exact ih2 _ (q :: st) p r acc h

theorem parse_acc (us : List Token) : (∀ cur acc r, parseTokens us cur [] = some r → parseTokens us (cur ++ acc) [] = some (acc.reverse ++ r)) := by
  intro cur acc r h
  have := (parse_split us []).1 cur r acc h
  simp only [List.append_nil, parseTokens, List.reverse_append, List.reverse_reverse] at this
  exact this

/-- Reading of characters. -/
def readChars (cs : List Char) : Option (List SExpr) := parseTokens (tokens [] (uncomment false cs)) [] []

/-- Reading a piece that ends with a newline and then the rest. -/
theorem readChars_append {s t : List Char} {xs ys : List SExpr} (hnl : s.getLast? = some '\n') (hs : readChars s = some xs)
    (ht : readChars t = some ys) : readChars (s ++ t) = some (xs ++ ys) := by
  obtain ⟨a, ha⟩ := List.getLast?_eq_some_iff.1 hnl
  simp only [readChars, ha, List.append_assoc, List.singleton_append] at hs ht ⊢
  obtain ⟨a', ha'⟩ := uncomment_ends false a
  rw [uncomment_nl, ha', List.append_assoc, List.singleton_append, tokens_split]
  rw [ha'] at hs
  have := (parse_split _ (tokens [] (uncomment false t))).1 [] xs [] hs
  simp only [List.append_nil] at this
  rw [this]
  have := parse_acc _ [] xs.reverse ys ht
  simpa using this

/-- Reading pieces that end with newlines. -/
theorem readChars_flatten (ps : List (List Char)) (xss : List (List SExpr))
    (h : (ps.map fun p => if p.getLast? = some '\n' then readChars p else none) = xss.map some) :
    readChars ps.flatten = some xss.flatten := by
  induction ps generalizing xss with
  | nil =>
    cases xss with
    | nil => rfl
    | cons x xs => simp at h
  | cons p ps ih =>
    cases xss with
    | nil => simp at h
    | cons x xs =>
      simp only [List.map_cons, List.cons.injEq] at h
      obtain ⟨h1, h2⟩ := h
      split at h1
      · next hn => exact readChars_append hn h1 (ih xs h2)
      · cases h1

set_option maxRecDepth 100000 in
/-- **The files consist of the commands of `fileCmds`.** -/
theorem files_read : readFile filesText = some fileCmds.flatten := by
  have : readFile filesText = readChars (tuplesSmt ++ integerSmt ++ listSmt).flatten := by
    simp only [readFile, generateAst, filesText, String.toList_ofList, readChars]
  rw [this]
  refine readChars_flatten _ _ ?_
  decide +kernel

end Smt
end Metalift
