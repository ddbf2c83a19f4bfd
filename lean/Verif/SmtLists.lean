/-
Model of the theory prepended to verification queries, `metalift/utils/list-axioms.smt`: the symbols it declares, and its assertions
(a `define-fun-rec` asserts its equation).  The datatype `MLList` is interpreted by lists; the selectors applied to `nil` have an
arbitrary value.
-/
namespace Metalift

/-- Interpretation of the symbols declared for lists with elements in `α`. -/
structure SmtSeq (α : Type) where
  headNil : α
  tailNil : List α
  length : List α → Int
  append : List α → α → List α
  get : List α → Int → α
  tail : List α → Int → List α
  take : List α → Int → List α

namespace SmtSeq
variable {α : Type} (S : SmtSeq α)

/-- Selector `head` (`metalift/utils/list-axioms.smt` 2-3). -/
def hd : List α → α
  | [] => S.headNil
  | a :: _ => a

/-- Selector `tail` (`metalift/utils/list-axioms.smt` 2-3). -/
def tl : List α → List α
  | [] => S.tailNil
  | _ :: l => l

/-- The assertions common to lists (`metalift/utils/list-axioms.smt` 11-70) and lists of lists (113-168). -/
structure Axioms : Prop where
  length_nil : S.length [] = 0
  length_cons : ∀ v l, S.length (v :: l) = 1 + S.length l
  length_nonneg : ∀ l, 0 ≤ S.length l
  append_nil : ∀ v, S.append [] v = [v]
  append_cons : ∀ h t v, S.append (h :: t) v = h :: S.append t v
  get_cons : ∀ h t i, if i ≤ 0 then S.get (h :: t) i = h else S.get (h :: t) i = S.get t (i - 1)
  tail_rec : ∀ l n, S.tail l n = if n ≤ 0 then l else S.tail (S.tl l) (n - 1)
  tail_cons : ∀ n h t, if n ≤ 0 then S.tail (h :: t) n = h :: t else S.tail (h :: t) n = S.tail t (n - 1)
  tail_nil : ∀ n, S.tail [] n = []
  tail_all : ∀ n l, n ≥ S.length l → S.tail l n = []
  take_cons : ∀ n h t, if n ≤ 0 then S.take (h :: t) n = [] else S.take (h :: t) n = h :: S.take t (n - 1)
  take_nil : ∀ n, S.take [] n = []
  take_all : ∀ n l, n ≥ S.length l → S.take l n = l
  take_zero : ∀ l, S.take l 0 = []

/-- `vec_slice` (`metalift/utils/list-axioms.smt` 177-178), `matrix_row_slice` (183-184). -/
def slice (l : List α) (start stop : Int) : List α := S.tail (S.take l stop) start

/-- `vec_slice_with_length` (`metalift/utils/list-axioms.smt` 180-181), `matrix_row_slice_with_length` (186-187). -/
def sliceWithLength (l : List α) (start n : Int) : List α := S.slice l start (start + n)

end SmtSeq

/-- Interpretation of all declared symbols: lists, lists of lists, and the functions that mix them. -/
structure SmtModel where
  ints : SmtSeq Int
  rows : SmtSeq (List Int)
  concat : List Int → List Int → List Int
  contains : List Int → Int → Bool
  colSlice : List (List Int) → Int → Int → List (List Int)
  firsts : List (List Int) → List Int
  rests : List (List Int) → List (List Int)
  transpose : List (List Int) → List (List Int)

namespace SmtModel
variable (M : SmtModel)

/-- `list_prepend` and `matrix_prepend` (`metalift/utils/list-axioms.smt` 20, 122). -/
def prepend {α : Type} (v : α) (l : List α) : List α := v :: l

/-- All assertions but the one for `matrix_transpose`. -/
structure Core : Prop where
  ints : M.ints.Axioms
  rows : M.rows.Axioms
  /-- `metalift/utils/list-axioms.smt` 78-81. -/
  concat_rec : ∀ xs ys, M.concat xs ys = if [] = xs then ys else M.ints.hd xs :: M.concat (M.ints.tl xs) ys
  /-- `metalift/utils/list-axioms.smt` 83-88. -/
  contains_rec : ∀ l v, M.contains l v =
    if M.ints.length l = 0 then false else if M.ints.hd l = v then true else M.contains (M.ints.tl l) v
  /-- `metalift/utils/list-axioms.smt` 93-94. -/
  concat_nil : ∀ l, M.concat l [] = l
  /-- `metalift/utils/list-axioms.smt` 98-101. -/
  tail_get : ∀ l i, 0 ≤ i ∧ i < M.ints.length l → M.ints.tail l i = M.ints.get l i :: M.ints.tail l (i + 1)
  /-- `metalift/utils/list-axioms.smt` 104-106. -/
  concat_cons : ∀ xs y ys, M.concat xs (y :: ys) = M.concat (M.ints.append xs y) ys
  /-- `metalift/utils/list-axioms.smt` 189-190. -/
  colSlice_rec : ∀ m s e, M.colSlice m s e = if M.rows.length m < 1 then []
    else prepend (M.ints.slice (M.rows.get m 0) s e) (M.colSlice (M.rows.tail m 1) s e)
  /-- `metalift/utils/list-axioms.smt` 195-196. -/
  firsts_rec : ∀ m, M.firsts m = if M.rows.length m < 1 then []
    else prepend (M.ints.get (M.rows.get m 0) 0) (M.firsts (M.rows.tail m 1))
  /-- `metalift/utils/list-axioms.smt` 198-199. -/
  rests_rec : ∀ m, M.rests m = if M.rows.length m < 1 then []
    else M.colSlice m 1 (M.ints.length (M.rows.get m 0))

/-- All assertions; the last one is `metalift/utils/list-axioms.smt` 201-202. -/
structure Sat : Prop where
  core : M.Core
  transpose_rec : ∀ m, M.transpose m = if M.rows.length m < 1 then []
    else prepend (M.firsts m) (M.transpose (M.rests m))

end SmtModel
end Metalift
