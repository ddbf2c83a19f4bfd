/-
Model of the list and matrix primitives given to Rosette, `metalift/utils/utils.rkt`.
Racket lists of integers are lists of integers, and lists of lists are matrices.
-/
namespace Metalift.Rkt

/-- `list-ref-noerr` (`metalift/utils/utils.rkt` 10-12). -/
def listRef (l : List Int) (i : Int) : Int := if 0 ≤ i ∧ i < l.length then l.getD i.toNat 0 else 0

/-- `matrix-ref-noerr` (`metalift/utils/utils.rkt` 182-184), also `tensor3d-ref-noerr` (294-296) and `list-tuple-ref-noerr` (230-232). -/
def matrixRef {α : Type} (l : List (List α)) (i : Int) : List α := if 0 ≤ i ∧ i < l.length then l.getD i.toNat [] else []

/-- `list-tail-noerr` (`metalift/utils/utils.rkt` 14-16), also `matrix-tail-noerr` (186-188), `list-tuple-tail-noerr` (233-235) and
`tensor3d-tail-noerr` (298-300). -/
def listTail {α : Type} (l : List α) (i : Int) : List α := if 0 ≤ i ∧ i ≤ l.length then l.drop i.toNat else []

/-- `list-append` (`metalift/utils/utils.rkt` 18-19), also `matrix-append` (225-226). -/
def listAppend {α : Type} (l : List α) (i : α) : List α := l ++ [i]

/-- `list-prepend` (`metalift/utils/utils.rkt` 24-25). -/
def listPrepend (i : Int) (l : List Int) : List Int := i :: l

/-- `list-take-noerr` (`metalift/utils/utils.rkt` 27-28), also `matrix-take-noerr` (218-219), `list-tuple-take-noerr` (240-241) and
`tensor3d-take-noerr` (302-303). -/
def listTake {α : Type} (l : List α) (i : Int) : List α :=
  if i ≤ 0 then [] else if 0 ≤ i ∧ i < l.length then l.take i.toNat else l

/-- `vec-slice-noerr` (`metalift/utils/utils.rkt` 30-32), also `matrix-row-slice-noerr` (190-192) and `tensor3d-slice-noerr` (305-307). -/
def slice {α : Type} (l : List α) (start stop : Int) : List α := listTail (listTake l stop) start

/-- `vec-slice-with-length-noerr` (`metalift/utils/utils.rkt` 34-36), also `matrix-row-slice-with-length-noerr` (194-196). -/
def sliceWithLength {α : Type} (l : List α) (start n : Int) : List α := slice l start (start + n)

/-- `list-concat` (`metalift/utils/utils.rkt` 38-39). -/
def listConcat (l1 l2 : List Int) : List Int := l1 ++ l2

/-- `matrix-prepend` (`metalift/utils/utils.rkt` 213-216), also `tensor3d-prepend` (313-316): an empty row is not added
(`(append l i)` with `i` empty). -/
def matrixPrepend {α : Type} (i : List α) (l : List (List α)) : List (List α) := if i.length > 0 then [i] ++ l else l

/-- `matrix-length` (`metalift/utils/utils.rkt` 221). -/
def matrixLength {α : Type} (l : List (List α)) : Int := l.length

/-- `matrix-col-slice-noerr` (`metalift/utils/utils.rkt` 198-207).  The matrix given to the recursive call is
`(matrix-tail-noerr l 1)`, the matrix without its first row, see `colSlice_unfold`. -/
def colSlice (start stop : Int) : List (List Int) → List (List Int)
  | [] => []
  | r :: l => matrixPrepend (slice r start stop) (colSlice start stop l)

theorem colSlice_unfold (m : List (List Int)) (start stop : Int) :
    colSlice start stop m = if matrixLength m < 1 then []
      else matrixPrepend (slice (matrixRef m 0) start stop) (colSlice start stop (listTail m 1)) := by
  cases m with
  | nil => rfl
  | cons r m =>
    have h1 : ¬ matrixLength (r :: m) < 1 := by simp [matrixLength]; omega
    have h2 : matrixRef (r :: m) 0 = r := by simp [matrixRef]
    have h3 : listTail (r :: m) 1 = m := by simp [listTail]; omega
    rw [if_neg h1, h2, h3, colSlice]

/-- `matrix-col-slice-with-length-noerr` (`metalift/utils/utils.rkt` 209-211). -/
def colSliceWithLength (start n : Int) (l : List (List Int)) : List (List Int) := colSlice start (start + n) l

/-- `firsts` (`metalift/utils/utils.rkt` 253-261).  `define-bounded` (`metalift/utils/bounded.rkt` 6-11): the first argument is the
value of the parameter `fuel`; `none` is the failed assertion. -/
def firsts : Nat → List (List Int) → Option (List Int)
  | 0, _ => none
  | n + 1, m => if matrixLength m < 1 then some [] else (firsts n (listTail m 1)).map (listPrepend (listRef (matrixRef m 0) 0))

/-- `rests` (`metalift/utils/utils.rkt` 263-268). -/
def rests (m : List (List Int)) : List (List Int) :=
  if matrixLength m < 1 then [] else colSlice 1 (matrixRef m 0).length m

/-- `matrix-transpose-noerr` (`metalift/utils/utils.rkt` 270-275). -/
def transpose : Nat → List (List Int) → Option (List (List Int))
  | 0, _ => none
  | n + 1, m =>
    if matrixLength m < 1 then some []
    else do
      let f ← firsts n m
      let r ← transpose n (rests m)
      some (matrixPrepend f r)

/-- The fuel of `metalift/utils/bounded.rkt` 4. -/
def fuel : Nat := 64

/-- `quotient-noerr` (`metalift/utils/utils.rkt` 245-247); `quotient` truncates. -/
def quotientNoerr (x y : Int) : Int := x.tdiv (if y = 0 then 1 else y)

/-- `integer-sqrt-noerr` (`metalift/utils/utils.rkt` 277). -/
def integerSqrt (n : Int) : Int := n

/-- `integer-exp-noerr` (`metalift/utils/utils.rkt` 279-285). -/
def integerExp : Nat → Int → Option Int
  | 0, _ => none
  | k + 1, n => if n ≤ 0 then some 1 else (integerExp k (n - 1)).map fun e => (3 * e).tmod 64

/-! ### Sets (sorted lists of integers) -/

/-- `set-union` (`metalift/utils/utils.rkt` 60-70). -/
def setUnion : List Int → List Int → List Int
  | [], bs => bs
  | a :: as, [] => a :: as
  | a :: as, b :: bs =>
    if a = b then setUnion (a :: as) bs
    else if a < b then a :: setUnion as (b :: bs)
    else b :: setUnion (a :: as) bs
termination_by as bs => as.length + bs.length

/-- `set-member` (`metalift/utils/utils.rkt` 72-73). -/
def setMember (v : Int) (s : List Int) : Bool := s.any (fun c => v == c)

/-- `set-singleton` (`metalift/utils/utils.rkt` 51-52). -/
def setSingleton (v : Int) : List Int := [v]

/-- `set-create` (`metalift/utils/utils.rkt` 54-55). -/
def setCreate : List Int := []

/-- `set-insert` (`metalift/utils/utils.rkt` 75-76). -/
def setInsert (v : Int) (s : List Int) : List Int := setUnion (setSingleton v) s

/-- `set-subset` (`metalift/utils/utils.rkt` 78-88). -/
def setSubset : List Int → List Int → Bool
  | [], _ => true
  | _ :: _, [] => false
  | a :: as, b :: bs =>
    if a = b then setSubset as bs
    else if a < b then false
    else setSubset (a :: as) bs

/-- `set-minus` (`metalift/utils/utils.rkt` 90-100). -/
def setMinus : List Int → List Int → List Int
  | [], _ => []
  | a :: as, [] => a :: as
  | a :: as, b :: bs =>
    if a = b then setMinus as bs
    else if a < b then a :: setMinus as (b :: bs)
    else setMinus (a :: as) bs
termination_by as bs => as.length + bs.length

/-- `set-eq` (`metalift/utils/utils.rkt` 57-58). -/
def setEq (s1 s2 : List Int) : Bool := s1 == s2

/-! ### Maps (lists of pairs)

The Racket code reads the first pair with `(matrix-ref-noerr m 0)` and the others with `(list-tail-noerr m 1)`; for a list that is not
empty these are the head and the tail. -/

/-- `map-create` (`metalift/utils/utils.rkt` 104-105). -/
def mapCreate : List (Int × Int) := []

/-- `map-contains` (`metalift/utils/utils.rkt` 121-124): 1 or 0. -/
def mapContains (k : Int) : List (Int × Int) → Int
  | [] => 0
  | p :: m => if p.1 = k then 1 else mapContains k m

/-- `getIdx` (`metalift/utils/utils.rkt` 117-119). -/
def getIdx (k : Int) : List (Int × Int) → Nat
  | [] => 0
  | p :: m => if p.1 = k then 0 else 1 + getIdx k m

/-- `map-insert` (`metalift/utils/utils.rkt` 126-129); `list-set` is `List.set`. -/
def mapInsert (m : List (Int × Int)) (k v : Int) : List (Int × Int) :=
  if mapContains k m = 0 then m ++ [(k, v)] else m.set (getIdx k m) (k, v)

/-- `map-get` (`metalift/utils/utils.rkt` 131-133). -/
def mapGet (k : Int) : List (Int × Int) → Int
  | [] => 0
  | p :: m => if p.1 = k then p.2 else mapGet k m

/-- `map-eq` (`metalift/utils/utils.rkt` 114-115). -/
def mapEq (s1 s2 : List (Int × Int)) : Bool := s1 == s2

end Metalift.Rkt
