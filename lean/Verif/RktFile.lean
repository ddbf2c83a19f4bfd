import Verif.RktSem
/-
The library required by every file given to Rosette, `metalift/utils/utils.rkt`, character by character (cut into pieces after newlines), and
the definitions it consists of (`RktFileRead.lean` proves that these are the definitions).
-/
namespace Metalift
namespace Rkt

/-- The characters of a text, as a list written out. -/
macro "chars!" s:str : term => do
  let cs := (s.getString.toList.map Lean.Syntax.mkCharLit).toArray
  `([$cs,*])

set_option maxRecDepth 100000 in
/-- `metalift/utils/utils.rkt` (the whole file), without the first line. -/
def utilsRkt : List (List Char) := [
chars! "
(require \"./bounded.rkt\")
(require rosette/lib/angelic rosette/lib/match rosette/lib/synthax)

(provide (all-defined-out))

; list functions that have reasonable defaults rather than throwing errors

(define (list-ref-noerr l i)
  (if (&&  (>= i 0) (< i (length l))) (list-ref l i)
      0))

(define (list-tail-noerr l i)
  (if (&& (>= i 0) (<= i (length l))) (list-tail l i)
      (list)))

(define (list-append l i)
  (append l (list i)))

(define (list-empty)
  (list))

(define (list-prepend i l)
  (cons i l))

(define (list-take-noerr l i)
  (if (<= i 0) (list) (if (&& (>= i 0) (< i (length l))) (take l i) l )))

(define (vec-slice-noerr l start end)
  (list-tail-noerr (list-take-noerr l end) start)
)

(define (vec-slice-with-length-noerr l start lst_length)
  (vec-slice-noerr l start (+ start lst_length))
)

(define (list-concat l1 l2)
  (append l1 l2))

; tuple functions

(define (make-tuple e1 . es)
  (cons e1 es))
",
chars! "
(define (tupleGet t i)
  (list-ref-noerr t i))

; set functions

(define (set-singleton v)
  (list v))

(define (set-create)
  (list))

(define (set-eq s1 s2)
  (equal? s1 s2))

(define (set-union as bs)
  (match* (as bs)
    [((list) bs)  bs]
    [(as (list))  as]
    [((list a as ...) (list b bs ...))
     (if (equal? a b)
      (set-union (cons a as) bs)
      (if (< a b)
         (cons a (set-union as (cons b bs)))
         (cons b (set-union (cons a as) bs)))
     )]))

(define (set-member v s1)
  (ormap (lambda (c) (equal? v c)) s1))

(define (set-insert v s1)
  (set-union (set-singleton v) s1))

(define (set-subset s1 s2)
  (match* (s1 s2)
    [((list) bs)  #t]
    [(as (list))  #f]
    [((list a as ...) (list b bs ...))
     (if (equal? a b)
      (set-subset as bs)
      (if (< a b)
         #f
         (set-subset (cons a as) bs))
     )]))

(define (set-minus s1 s2)
  (match* (s1 s2)
    [((list) bs)  (list)]
    [(as (list))  as]
    [((list a as ...) (list b bs ...))
     (if (equal? a b)
      (set-minus as bs)
      (if (< a b)
         (cons a (set-minus as (cons b bs)))
         (set-minus (cons a as) bs))
     )]))
",
chars! "
; map functions

(define (map-create)
  (list))

(define (map-normalize m)
  (match* (m)
    [((list)) (map-create)]
    [((list a as ...))
     (map-insert (map-normalize as) (car a) (cdr a) (lambda (a b) b))
     ]))

(define (map-eq s1 s2)
  (equal? s1 s2))

(define (getIdx m k)
    (if (equal? (length m) 0) 0 (if (equal? (tupleGet (matrix-ref-noerr m 0) 0) k) 0
        (+ 1 (getIdx (list-tail-noerr m 1) k)))))

(define (map-contains m k)
    (if (equal? (length m) 0) 0
        (if (equal? (tupleGet (matrix-ref-noerr m 0) 0) k) 1
            (map-contains (list-tail-noerr m 1) k))))

(define (map-insert m k v)
  (if (equal? (map-contains m k) 0)
    (append m (list (make-tuple k v)))
    (list-set m (getIdx m k) (make-tuple k v))))

(define (map-get m k)
    (if (equal? (length m) 0) 0 (if (equal? (tupleGet (matrix-ref-noerr m 0) 0) k) (tupleGet (matrix-ref-noerr m 0) 1)
        (map-get (list-tail-noerr m 1) k))))
",
chars! "
; (define (map-union as bs value-merge)
;   (match* (as bs)
;     [((list) bs)  bs]
;     [(as (list))  as]
;     [((list a as ...) (list b bs ...))
;      (if (equal? (car a) (car b))
;       (cons (cons (car a) (value-merge (cdr a) (cdr b))) (map-union as bs value-merge))
;       (if (< (car a) (car b))
;          (cons a (map-union as (cons b bs) value-merge))
;          (cons b (map-union (cons a as) bs value-merge)))
;      )]))

; (define (map-get m k default)
;   (match* (m)
;     [((list)) default]
;     [((list a as ...))
;      (if (equal? (car a) k)
;       (cdr a)
;       (map-get as k default)
;      )]))

; (define (map-singleton k v)
;   (list (cons k v)))

;  (define (map-insert m k v value-merge)
;    (map-union (map-singleton k v) m value-merge))

; (define (mapInsert m k v)
;   (if (equal? (mapContains m k) 0)
;     (append m (list (make-tuple k v)))
;     (list-set m (getIdx m k) (make-tuple k v))))
",
chars! "
; (define (map-minus m keys)
;   (match* (m keys)
;     [((list) bs)  (list)]
;     [(as (list))  as]
;     [((list a as ...) (list b bs ...))
;      (if (equal? (car a) b)
;       (map-minus as bs)
;       (if (< (car a) b)
;          (cons a (map-minus as (cons b bs)))
;          (map-minus (cons a as) bs))
;      )]))

; (define (map-values m)
;   (map (lambda (a) (cdr a)) m))

(define (matrix-ref-noerr l i)
  (if (&&  (>= i 0) (< i (length l))) (list-ref l i)
      (list)))

(define (matrix-tail-noerr l i)
  (if (&& (>= i 0) (<= i (length l))) (list-tail l i)
      (list)))

(define (matrix-row-slice-noerr l start end)
  (matrix-tail-noerr (matrix-take-noerr l end) start)
)

(define (matrix-row-slice-with-length-noerr l start lst_length)
  (matrix-row-slice-noerr l start (+ start lst_length))
)

(define (matrix-col-slice-noerr l start end)
  (if
    (< (matrix-length l) 1)
    (list)
    (matrix-prepend
      (vec-slice-noerr (matrix-ref-noerr l 0) start end)
      (matrix-col-slice-noerr (matrix-tail-noerr l 1) start end)
    )
  )
)
",
chars! "
(define (matrix-col-slice-with-length-noerr l start lst_length)
  (matrix-col-slice-noerr l start (+ start lst_length))
)

(define (matrix-prepend i l)
  (if (list? i)
    (if (> (length i ) 0)
    (append (list i) l) (append l i)) (append (list i) l) ))

(define (matrix-take-noerr l i)
  (if (<= i 0) (list) (if (&& (>= i 0) (< i (length l))) (take l i) l )))

(define (matrix-length l) (length l))

(define (matrix-append l i)
(append l (list i)))

(define (matrix-empty)
  (list))

(define (list-tuple-ref-noerr l i)
  (if (&&  (>= i 0) (< i (length l))) (list-ref l i)
      (list)))
(define (list-tuple-tail-noerr l i)
  (if (&& (>= i 0) (<= i (length l))) (list-tail l i)
      (list)))
(define (list-tuple-empty)
(list))
(define (list-tuple-prepend i l)
  (append (list i) l))
(define (list-tuple-take-noerr l i)
  (if (<= i 0) (list) (if (&& (>= i 0) (< i (length l))) (take l i) l )))
(define (list-tuple-append l i)
(append l (list i)))
",
chars! "(define (list-tuple-length l) (length l))

(define (quotient-noerr x y)
  (quotient x (if (equal? y 0) 1 y))
)

; (define (transpose lst)
;   (if (< (length lst) 1) (list) (apply map list lst))
; )

(define-bounded (firsts matrix)
  (if (< (matrix-length matrix) 1)
      (list-empty)
      (list-prepend
        (list-ref-noerr (matrix-ref-noerr matrix 0) 0)
        (firsts (list-tail-noerr matrix 1))
      )
  )
)

(define (rests matrix)
  (if (< (matrix-length matrix) 1)
    (matrix-empty)
    (matrix-col-slice-noerr matrix 1 (length (matrix-ref-noerr matrix 0)))
  )
)

(define-bounded (matrix-transpose-noerr matrix)
  (if (< (matrix-length matrix) 1)
    (matrix-empty)
    (matrix-prepend (firsts matrix) (matrix-transpose-noerr (rests matrix)))
  )
)

(define-bounded (integer-sqrt-noerr n) n)

(define-bounded (integer-exp-noerr n)
  (if
    (<= n 0)
    1
    (remainder (* 3 (integer-exp-noerr (- n 1))) 64)
  )
)
",
chars! "
; 3D tensors
(define (tensor3d-length l) (length l))

(define (tensor3d-empty)
  (list))

(define (tensor3d-ref-noerr l i)
  (if (&&  (>= i 0) (< i (length l))) (list-ref l i)
      (list)))

(define (tensor3d-tail-noerr l i)
  (if (&& (>= i 0) (<= i (length l))) (list-tail l i)
      (list)))

(define (tensor3d-take-noerr l i)
  (if (<= i 0) (list) (if (&& (>= i 0) (< i (length l))) (take l i) l )))

(define (tensor3d-slice-noerr l start end)
  (tensor3d-tail-noerr (tensor3d-take-noerr l end) start)
)

(define (tensor3d-slice-with-length-noerr l start lst_length)
  (tensor3d-slice-noerr l start (+ start lst_length))
)

(define (tensor3d-prepend i l)
  (if (list? i)
    (if (> (length i ) 0)
    (append (list i) l) (append l i)) (append (list i) l) ))

(define (tensor3d-append l i)
(append l (list i)))
"]

/-- `metalift/utils/utils.rkt`. -/
def utilsText : String := String.ofList ((chars! "#lang rosette/safe
") ++ utilsRkt.flatten)

/-! ### The definitions -/

/-- `list-ref-noerr` (`metalift/utils/utils.rkt` 10). -/
def d_list_ref_noerr : RDef := ⟨"list-ref-noerr", ["l", "i"], none,
  .list [.atom "if", .list [.atom "&&", .list [.atom ">=", .atom "i", .atom "0"], .list [.atom "<", .atom "i", .list [.atom "length",
    .atom "l"]]], .list [.atom "list-ref", .atom "l", .atom "i"], .atom "0"], false⟩
/-- `list-tail-noerr` (`metalift/utils/utils.rkt` 14). -/
def d_list_tail_noerr : RDef := ⟨"list-tail-noerr", ["l", "i"], none,
  .list [.atom "if", .list [.atom "&&", .list [.atom ">=", .atom "i", .atom "0"], .list [.atom "<=", .atom "i", .list [.atom "length",
    .atom "l"]]], .list [.atom "list-tail", .atom "l", .atom "i"], .list [.atom "list"]], false⟩
/-- `list-append` (`metalift/utils/utils.rkt` 18). -/
def d_list_append : RDef := ⟨"list-append", ["l", "i"], none,
  .list [.atom "append", .atom "l", .list [.atom "list", .atom "i"]], false⟩
/-- `list-empty` (`metalift/utils/utils.rkt` 21). -/
def d_list_empty : RDef := ⟨"list-empty", [], none,
  .list [.atom "list"], false⟩
/-- `list-prepend` (`metalift/utils/utils.rkt` 24). -/
def d_list_prepend : RDef := ⟨"list-prepend", ["i", "l"], none,
  .list [.atom "cons", .atom "i", .atom "l"], false⟩
/-- `list-take-noerr` (`metalift/utils/utils.rkt` 27). -/
def d_list_take_noerr : RDef := ⟨"list-take-noerr", ["l", "i"], none,
  .list [.atom "if", .list [.atom "<=", .atom "i", .atom "0"], .list [.atom "list"], .list [.atom "if", .list [.atom "&&",
    .list [.atom ">=", .atom "i", .atom "0"], .list [.atom "<", .atom "i", .list [.atom "length", .atom "l"]]], .list [.atom "take",
    .atom "l", .atom "i"], .atom "l"]], false⟩
/-- `vec-slice-noerr` (`metalift/utils/utils.rkt` 30). -/
def d_vec_slice_noerr : RDef := ⟨"vec-slice-noerr", ["l", "start", "end"], none,
  .list [.atom "list-tail-noerr", .list [.atom "list-take-noerr", .atom "l", .atom "end"], .atom "start"], false⟩
/-- `vec-slice-with-length-noerr` (`metalift/utils/utils.rkt` 34). -/
def d_vec_slice_with_length_noerr : RDef := ⟨"vec-slice-with-length-noerr", ["l", "start", "lst_length"], none,
  .list [.atom "vec-slice-noerr", .atom "l", .atom "start", .list [.atom "+", .atom "start", .atom "lst_length"]], false⟩
/-- `list-concat` (`metalift/utils/utils.rkt` 38). -/
def d_list_concat : RDef := ⟨"list-concat", ["l1", "l2"], none,
  .list [.atom "append", .atom "l1", .atom "l2"], false⟩
/-- `make-tuple` (`metalift/utils/utils.rkt` 43). -/
def d_make_tuple : RDef := ⟨"make-tuple", ["e1"], some "es",
  .list [.atom "cons", .atom "e1", .atom "es"], false⟩
/-- `tupleGet` (`metalift/utils/utils.rkt` 46). -/
def d_tupleGet : RDef := ⟨"tupleGet", ["t", "i"], none,
  .list [.atom "list-ref-noerr", .atom "t", .atom "i"], false⟩
/-- `set-singleton` (`metalift/utils/utils.rkt` 51). -/
def d_set_singleton : RDef := ⟨"set-singleton", ["v"], none,
  .list [.atom "list", .atom "v"], false⟩
/-- `set-create` (`metalift/utils/utils.rkt` 54). -/
def d_set_create : RDef := ⟨"set-create", [], none,
  .list [.atom "list"], false⟩
/-- `set-eq` (`metalift/utils/utils.rkt` 57). -/
def d_set_eq : RDef := ⟨"set-eq", ["s1", "s2"], none,
  .list [.atom "equal?", .atom "s1", .atom "s2"], false⟩
/-- `set-union` (`metalift/utils/utils.rkt` 60). -/
def d_set_union : RDef := ⟨"set-union", ["as", "bs"], none,
  .list [.atom "match*", .list [.atom "as", .atom "bs"], .list [.list [.list [.atom "list"], .atom "bs"], .atom "bs"],
    .list [.list [.atom "as", .list [.atom "list"]], .atom "as"], .list [.list [.list [.atom "list", .atom "a", .atom "as", .atom "..."],
    .list [.atom "list", .atom "b", .atom "bs", .atom "..."]], .list [.atom "if", .list [.atom "equal?", .atom "a", .atom "b"],
    .list [.atom "set-union", .list [.atom "cons", .atom "a", .atom "as"], .atom "bs"], .list [.atom "if", .list [.atom "<", .atom "a",
    .atom "b"], .list [.atom "cons", .atom "a", .list [.atom "set-union", .atom "as", .list [.atom "cons", .atom "b", .atom "bs"]]],
    .list [.atom "cons", .atom "b", .list [.atom "set-union", .list [.atom "cons", .atom "a", .atom "as"], .atom "bs"]]]]]], false⟩
/-- `set-member` (`metalift/utils/utils.rkt` 72). -/
def d_set_member : RDef := ⟨"set-member", ["v", "s1"], none,
  .list [.atom "ormap", .list [.atom "lambda", .list [.atom "c"], .list [.atom "equal?", .atom "v", .atom "c"]], .atom "s1"], false⟩
/-- `set-insert` (`metalift/utils/utils.rkt` 75). -/
def d_set_insert : RDef := ⟨"set-insert", ["v", "s1"], none,
  .list [.atom "set-union", .list [.atom "set-singleton", .atom "v"], .atom "s1"], false⟩
/-- `set-subset` (`metalift/utils/utils.rkt` 78). -/
def d_set_subset : RDef := ⟨"set-subset", ["s1", "s2"], none,
  .list [.atom "match*", .list [.atom "s1", .atom "s2"], .list [.list [.list [.atom "list"], .atom "bs"], .atom "#t"],
    .list [.list [.atom "as", .list [.atom "list"]], .atom "#f"], .list [.list [.list [.atom "list", .atom "a", .atom "as", .atom "..."],
    .list [.atom "list", .atom "b", .atom "bs", .atom "..."]], .list [.atom "if", .list [.atom "equal?", .atom "a", .atom "b"],
    .list [.atom "set-subset", .atom "as", .atom "bs"], .list [.atom "if", .list [.atom "<", .atom "a", .atom "b"], .atom "#f",
    .list [.atom "set-subset", .list [.atom "cons", .atom "a", .atom "as"], .atom "bs"]]]]], false⟩
/-- `set-minus` (`metalift/utils/utils.rkt` 90). -/
def d_set_minus : RDef := ⟨"set-minus", ["s1", "s2"], none,
  .list [.atom "match*", .list [.atom "s1", .atom "s2"], .list [.list [.list [.atom "list"], .atom "bs"], .list [.atom "list"]],
    .list [.list [.atom "as", .list [.atom "list"]], .atom "as"], .list [.list [.list [.atom "list", .atom "a", .atom "as", .atom "..."],
    .list [.atom "list", .atom "b", .atom "bs", .atom "..."]], .list [.atom "if", .list [.atom "equal?", .atom "a", .atom "b"],
    .list [.atom "set-minus", .atom "as", .atom "bs"], .list [.atom "if", .list [.atom "<", .atom "a", .atom "b"], .list [.atom "cons",
    .atom "a", .list [.atom "set-minus", .atom "as", .list [.atom "cons", .atom "b", .atom "bs"]]], .list [.atom "set-minus",
    .list [.atom "cons", .atom "a", .atom "as"], .atom "bs"]]]]], false⟩
/-- `map-create` (`metalift/utils/utils.rkt` 104). -/
def d_map_create : RDef := ⟨"map-create", [], none,
  .list [.atom "list"], false⟩
/-- `map-normalize` (`metalift/utils/utils.rkt` 107). -/
def d_map_normalize : RDef := ⟨"map-normalize", ["m"], none,
  .list [.atom "match*", .list [.atom "m"], .list [.list [.list [.atom "list"]], .list [.atom "map-create"]],
    .list [.list [.list [.atom "list", .atom "a", .atom "as", .atom "..."]], .list [.atom "map-insert", .list [.atom "map-normalize",
    .atom "as"], .list [.atom "car", .atom "a"], .list [.atom "cdr", .atom "a"], .list [.atom "lambda", .list [.atom "a", .atom "b"],
    .atom "b"]]]], false⟩
/-- `map-eq` (`metalift/utils/utils.rkt` 114). -/
def d_map_eq : RDef := ⟨"map-eq", ["s1", "s2"], none,
  .list [.atom "equal?", .atom "s1", .atom "s2"], false⟩
/-- `getIdx` (`metalift/utils/utils.rkt` 117). -/
def d_getIdx : RDef := ⟨"getIdx", ["m", "k"], none,
  .list [.atom "if", .list [.atom "equal?", .list [.atom "length", .atom "m"], .atom "0"], .atom "0", .list [.atom "if",
    .list [.atom "equal?", .list [.atom "tupleGet", .list [.atom "matrix-ref-noerr", .atom "m", .atom "0"], .atom "0"], .atom "k"],
    .atom "0", .list [.atom "+", .atom "1", .list [.atom "getIdx", .list [.atom "list-tail-noerr", .atom "m", .atom "1"], .atom "k"]]]], false⟩
/-- `map-contains` (`metalift/utils/utils.rkt` 121). -/
def d_map_contains : RDef := ⟨"map-contains", ["m", "k"], none,
  .list [.atom "if", .list [.atom "equal?", .list [.atom "length", .atom "m"], .atom "0"], .atom "0", .list [.atom "if",
    .list [.atom "equal?", .list [.atom "tupleGet", .list [.atom "matrix-ref-noerr", .atom "m", .atom "0"], .atom "0"], .atom "k"],
    .atom "1", .list [.atom "map-contains", .list [.atom "list-tail-noerr", .atom "m", .atom "1"], .atom "k"]]], false⟩
/-- `map-insert` (`metalift/utils/utils.rkt` 126). -/
def d_map_insert : RDef := ⟨"map-insert", ["m", "k", "v"], none,
  .list [.atom "if", .list [.atom "equal?", .list [.atom "map-contains", .atom "m", .atom "k"], .atom "0"], .list [.atom "append",
    .atom "m", .list [.atom "list", .list [.atom "make-tuple", .atom "k", .atom "v"]]], .list [.atom "list-set", .atom "m",
    .list [.atom "getIdx", .atom "m", .atom "k"], .list [.atom "make-tuple", .atom "k", .atom "v"]]], false⟩
/-- `map-get` (`metalift/utils/utils.rkt` 131). -/
def d_map_get : RDef := ⟨"map-get", ["m", "k"], none,
  .list [.atom "if", .list [.atom "equal?", .list [.atom "length", .atom "m"], .atom "0"], .atom "0", .list [.atom "if",
    .list [.atom "equal?", .list [.atom "tupleGet", .list [.atom "matrix-ref-noerr", .atom "m", .atom "0"], .atom "0"], .atom "k"],
    .list [.atom "tupleGet", .list [.atom "matrix-ref-noerr", .atom "m", .atom "0"], .atom "1"], .list [.atom "map-get",
    .list [.atom "list-tail-noerr", .atom "m", .atom "1"], .atom "k"]]], false⟩
/-- `matrix-ref-noerr` (`metalift/utils/utils.rkt` 182). -/
def d_matrix_ref_noerr : RDef := ⟨"matrix-ref-noerr", ["l", "i"], none,
  .list [.atom "if", .list [.atom "&&", .list [.atom ">=", .atom "i", .atom "0"], .list [.atom "<", .atom "i", .list [.atom "length",
    .atom "l"]]], .list [.atom "list-ref", .atom "l", .atom "i"], .list [.atom "list"]], false⟩
/-- `matrix-tail-noerr` (`metalift/utils/utils.rkt` 186). -/
def d_matrix_tail_noerr : RDef := ⟨"matrix-tail-noerr", ["l", "i"], none,
  .list [.atom "if", .list [.atom "&&", .list [.atom ">=", .atom "i", .atom "0"], .list [.atom "<=", .atom "i", .list [.atom "length",
    .atom "l"]]], .list [.atom "list-tail", .atom "l", .atom "i"], .list [.atom "list"]], false⟩
/-- `matrix-row-slice-noerr` (`metalift/utils/utils.rkt` 190). -/
def d_matrix_row_slice_noerr : RDef := ⟨"matrix-row-slice-noerr", ["l", "start", "end"], none,
  .list [.atom "matrix-tail-noerr", .list [.atom "matrix-take-noerr", .atom "l", .atom "end"], .atom "start"], false⟩
/-- `matrix-row-slice-with-length-noerr` (`metalift/utils/utils.rkt` 194). -/
def d_matrix_row_slice_with_length_noerr : RDef := ⟨"matrix-row-slice-with-length-noerr", ["l", "start", "lst_length"], none,
  .list [.atom "matrix-row-slice-noerr", .atom "l", .atom "start", .list [.atom "+", .atom "start", .atom "lst_length"]], false⟩
/-- `matrix-col-slice-noerr` (`metalift/utils/utils.rkt` 198). -/
def d_matrix_col_slice_noerr : RDef := ⟨"matrix-col-slice-noerr", ["l", "start", "end"], none,
  .list [.atom "if", .list [.atom "<", .list [.atom "matrix-length", .atom "l"], .atom "1"], .list [.atom "list"],
    .list [.atom "matrix-prepend", .list [.atom "vec-slice-noerr", .list [.atom "matrix-ref-noerr", .atom "l", .atom "0"], .atom "start",
    .atom "end"], .list [.atom "matrix-col-slice-noerr", .list [.atom "matrix-tail-noerr", .atom "l", .atom "1"], .atom "start",
    .atom "end"]]], false⟩
/-- `matrix-col-slice-with-length-noerr` (`metalift/utils/utils.rkt` 209). -/
def d_matrix_col_slice_with_length_noerr : RDef := ⟨"matrix-col-slice-with-length-noerr", ["l", "start", "lst_length"], none,
  .list [.atom "matrix-col-slice-noerr", .atom "l", .atom "start", .list [.atom "+", .atom "start", .atom "lst_length"]], false⟩
/-- `matrix-prepend` (`metalift/utils/utils.rkt` 213). -/
def d_matrix_prepend : RDef := ⟨"matrix-prepend", ["i", "l"], none,
  .list [.atom "if", .list [.atom "list?", .atom "i"], .list [.atom "if", .list [.atom ">", .list [.atom "length", .atom "i"], .atom "0"],
    .list [.atom "append", .list [.atom "list", .atom "i"], .atom "l"], .list [.atom "append", .atom "l", .atom "i"]],
    .list [.atom "append", .list [.atom "list", .atom "i"], .atom "l"]], false⟩
/-- `matrix-take-noerr` (`metalift/utils/utils.rkt` 218). -/
def d_matrix_take_noerr : RDef := ⟨"matrix-take-noerr", ["l", "i"], none,
  .list [.atom "if", .list [.atom "<=", .atom "i", .atom "0"], .list [.atom "list"], .list [.atom "if", .list [.atom "&&",
    .list [.atom ">=", .atom "i", .atom "0"], .list [.atom "<", .atom "i", .list [.atom "length", .atom "l"]]], .list [.atom "take",
    .atom "l", .atom "i"], .atom "l"]], false⟩
/-- `matrix-length` (`metalift/utils/utils.rkt` 221). -/
def d_matrix_length : RDef := ⟨"matrix-length", ["l"], none,
  .list [.atom "length", .atom "l"], false⟩
/-- `matrix-append` (`metalift/utils/utils.rkt` 223). -/
def d_matrix_append : RDef := ⟨"matrix-append", ["l", "i"], none,
  .list [.atom "append", .atom "l", .list [.atom "list", .atom "i"]], false⟩
/-- `matrix-empty` (`metalift/utils/utils.rkt` 226). -/
def d_matrix_empty : RDef := ⟨"matrix-empty", [], none,
  .list [.atom "list"], false⟩
/-- `list-tuple-ref-noerr` (`metalift/utils/utils.rkt` 229). -/
def d_list_tuple_ref_noerr : RDef := ⟨"list-tuple-ref-noerr", ["l", "i"], none,
  .list [.atom "if", .list [.atom "&&", .list [.atom ">=", .atom "i", .atom "0"], .list [.atom "<", .atom "i", .list [.atom "length",
    .atom "l"]]], .list [.atom "list-ref", .atom "l", .atom "i"], .list [.atom "list"]], false⟩
/-- `list-tuple-tail-noerr` (`metalift/utils/utils.rkt` 232). -/
def d_list_tuple_tail_noerr : RDef := ⟨"list-tuple-tail-noerr", ["l", "i"], none,
  .list [.atom "if", .list [.atom "&&", .list [.atom ">=", .atom "i", .atom "0"], .list [.atom "<=", .atom "i", .list [.atom "length",
    .atom "l"]]], .list [.atom "list-tail", .atom "l", .atom "i"], .list [.atom "list"]], false⟩
/-- `list-tuple-empty` (`metalift/utils/utils.rkt` 235). -/
def d_list_tuple_empty : RDef := ⟨"list-tuple-empty", [], none,
  .list [.atom "list"], false⟩
/-- `list-tuple-prepend` (`metalift/utils/utils.rkt` 237). -/
def d_list_tuple_prepend : RDef := ⟨"list-tuple-prepend", ["i", "l"], none,
  .list [.atom "append", .list [.atom "list", .atom "i"], .atom "l"], false⟩
/-- `list-tuple-take-noerr` (`metalift/utils/utils.rkt` 239). -/
def d_list_tuple_take_noerr : RDef := ⟨"list-tuple-take-noerr", ["l", "i"], none,
  .list [.atom "if", .list [.atom "<=", .atom "i", .atom "0"], .list [.atom "list"], .list [.atom "if", .list [.atom "&&",
    .list [.atom ">=", .atom "i", .atom "0"], .list [.atom "<", .atom "i", .list [.atom "length", .atom "l"]]], .list [.atom "take",
    .atom "l", .atom "i"], .atom "l"]], false⟩
/-- `list-tuple-append` (`metalift/utils/utils.rkt` 241). -/
def d_list_tuple_append : RDef := ⟨"list-tuple-append", ["l", "i"], none,
  .list [.atom "append", .atom "l", .list [.atom "list", .atom "i"]], false⟩
/-- `list-tuple-length` (`metalift/utils/utils.rkt` 243). -/
def d_list_tuple_length : RDef := ⟨"list-tuple-length", ["l"], none,
  .list [.atom "length", .atom "l"], false⟩
/-- `quotient-noerr` (`metalift/utils/utils.rkt` 245). -/
def d_quotient_noerr : RDef := ⟨"quotient-noerr", ["x", "y"], none,
  .list [.atom "quotient", .atom "x", .list [.atom "if", .list [.atom "equal?", .atom "y", .atom "0"], .atom "1", .atom "y"]], false⟩
/-- `firsts` (`metalift/utils/utils.rkt` 253). -/
def d_firsts : RDef := ⟨"firsts", ["matrix"], none,
  .list [.atom "if", .list [.atom "<", .list [.atom "matrix-length", .atom "matrix"], .atom "1"], .list [.atom "list-empty"],
    .list [.atom "list-prepend", .list [.atom "list-ref-noerr", .list [.atom "matrix-ref-noerr", .atom "matrix", .atom "0"], .atom "0"],
    .list [.atom "firsts", .list [.atom "list-tail-noerr", .atom "matrix", .atom "1"]]]], true⟩
/-- `rests` (`metalift/utils/utils.rkt` 263). -/
def d_rests : RDef := ⟨"rests", ["matrix"], none,
  .list [.atom "if", .list [.atom "<", .list [.atom "matrix-length", .atom "matrix"], .atom "1"], .list [.atom "matrix-empty"],
    .list [.atom "matrix-col-slice-noerr", .atom "matrix", .atom "1", .list [.atom "length", .list [.atom "matrix-ref-noerr",
    .atom "matrix", .atom "0"]]]], false⟩
/-- `matrix-transpose-noerr` (`metalift/utils/utils.rkt` 270). -/
def d_matrix_transpose_noerr : RDef := ⟨"matrix-transpose-noerr", ["matrix"], none,
  .list [.atom "if", .list [.atom "<", .list [.atom "matrix-length", .atom "matrix"], .atom "1"], .list [.atom "matrix-empty"],
    .list [.atom "matrix-prepend", .list [.atom "firsts", .atom "matrix"], .list [.atom "matrix-transpose-noerr", .list [.atom "rests",
    .atom "matrix"]]]], true⟩
/-- `integer-sqrt-noerr` (`metalift/utils/utils.rkt` 277). -/
def d_integer_sqrt_noerr : RDef := ⟨"integer-sqrt-noerr", ["n"], none,
  .atom "n", true⟩
/-- `integer-exp-noerr` (`metalift/utils/utils.rkt` 279). -/
def d_integer_exp_noerr : RDef := ⟨"integer-exp-noerr", ["n"], none,
  .list [.atom "if", .list [.atom "<=", .atom "n", .atom "0"], .atom "1", .list [.atom "remainder", .list [.atom "*", .atom "3",
    .list [.atom "integer-exp-noerr", .list [.atom "-", .atom "n", .atom "1"]]], .atom "64"]], true⟩
/-- `tensor3d-length` (`metalift/utils/utils.rkt` 288). -/
def d_tensor3d_length : RDef := ⟨"tensor3d-length", ["l"], none,
  .list [.atom "length", .atom "l"], false⟩
/-- `tensor3d-empty` (`metalift/utils/utils.rkt` 290). -/
def d_tensor3d_empty : RDef := ⟨"tensor3d-empty", [], none,
  .list [.atom "list"], false⟩
/-- `tensor3d-ref-noerr` (`metalift/utils/utils.rkt` 293). -/
def d_tensor3d_ref_noerr : RDef := ⟨"tensor3d-ref-noerr", ["l", "i"], none,
  .list [.atom "if", .list [.atom "&&", .list [.atom ">=", .atom "i", .atom "0"], .list [.atom "<", .atom "i", .list [.atom "length",
    .atom "l"]]], .list [.atom "list-ref", .atom "l", .atom "i"], .list [.atom "list"]], false⟩
/-- `tensor3d-tail-noerr` (`metalift/utils/utils.rkt` 297). -/
def d_tensor3d_tail_noerr : RDef := ⟨"tensor3d-tail-noerr", ["l", "i"], none,
  .list [.atom "if", .list [.atom "&&", .list [.atom ">=", .atom "i", .atom "0"], .list [.atom "<=", .atom "i", .list [.atom "length",
    .atom "l"]]], .list [.atom "list-tail", .atom "l", .atom "i"], .list [.atom "list"]], false⟩
/-- `tensor3d-take-noerr` (`metalift/utils/utils.rkt` 301). -/
def d_tensor3d_take_noerr : RDef := ⟨"tensor3d-take-noerr", ["l", "i"], none,
  .list [.atom "if", .list [.atom "<=", .atom "i", .atom "0"], .list [.atom "list"], .list [.atom "if", .list [.atom "&&",
    .list [.atom ">=", .atom "i", .atom "0"], .list [.atom "<", .atom "i", .list [.atom "length", .atom "l"]]], .list [.atom "take",
    .atom "l", .atom "i"], .atom "l"]], false⟩
/-- `tensor3d-slice-noerr` (`metalift/utils/utils.rkt` 304). -/
def d_tensor3d_slice_noerr : RDef := ⟨"tensor3d-slice-noerr", ["l", "start", "end"], none,
  .list [.atom "tensor3d-tail-noerr", .list [.atom "tensor3d-take-noerr", .atom "l", .atom "end"], .atom "start"], false⟩
/-- `tensor3d-slice-with-length-noerr` (`metalift/utils/utils.rkt` 308). -/
def d_tensor3d_slice_with_length_noerr : RDef := ⟨"tensor3d-slice-with-length-noerr", ["l", "start", "lst_length"], none,
  .list [.atom "tensor3d-slice-noerr", .atom "l", .atom "start", .list [.atom "+", .atom "start", .atom "lst_length"]], false⟩
/-- `tensor3d-prepend` (`metalift/utils/utils.rkt` 312). -/
def d_tensor3d_prepend : RDef := ⟨"tensor3d-prepend", ["i", "l"], none,
  .list [.atom "if", .list [.atom "list?", .atom "i"], .list [.atom "if", .list [.atom ">", .list [.atom "length", .atom "i"], .atom "0"],
    .list [.atom "append", .list [.atom "list", .atom "i"], .atom "l"], .list [.atom "append", .atom "l", .atom "i"]],
    .list [.atom "append", .list [.atom "list", .atom "i"], .atom "l"]], false⟩
/-- `tensor3d-append` (`metalift/utils/utils.rkt` 317). -/
def d_tensor3d_append : RDef := ⟨"tensor3d-append", ["l", "i"], none,
  .list [.atom "append", .atom "l", .list [.atom "list", .atom "i"]], false⟩

/-- The definition as a form. -/
def RDef.form (d : RDef) : SExpr :=
  .list [.atom (if d.bounded then "define-bounded" else "define"),
    .list (.atom d.name :: (d.params.map .atom ++ (match d.rest with | none => [] | some r => [.atom ".", .atom r]))), d.body]

/-- The definitions of the library. -/
def utilsDefs : List RDef := [
  d_list_ref_noerr, d_list_tail_noerr, d_list_append, d_list_empty, d_list_prepend, d_list_take_noerr, d_vec_slice_noerr,
  d_vec_slice_with_length_noerr, d_list_concat, d_make_tuple, d_tupleGet, d_set_singleton, d_set_create, d_set_eq, d_set_union,
  d_set_member, d_set_insert, d_set_subset, d_set_minus, d_map_create, d_map_normalize, d_map_eq, d_getIdx, d_map_contains, d_map_insert,
  d_map_get, d_matrix_ref_noerr, d_matrix_tail_noerr, d_matrix_row_slice_noerr, d_matrix_row_slice_with_length_noerr,
  d_matrix_col_slice_noerr, d_matrix_col_slice_with_length_noerr, d_matrix_prepend, d_matrix_take_noerr, d_matrix_length, d_matrix_append,
  d_matrix_empty, d_list_tuple_ref_noerr, d_list_tuple_tail_noerr, d_list_tuple_empty, d_list_tuple_prepend, d_list_tuple_take_noerr,
  d_list_tuple_append, d_list_tuple_length, d_quotient_noerr, d_firsts, d_rests, d_matrix_transpose_noerr, d_integer_sqrt_noerr,
  d_integer_exp_noerr, d_tensor3d_length, d_tensor3d_empty, d_tensor3d_ref_noerr, d_tensor3d_tail_noerr, d_tensor3d_take_noerr,
  d_tensor3d_slice_noerr, d_tensor3d_slice_with_length_noerr, d_tensor3d_prepend, d_tensor3d_append]

/-- The forms of the pieces of the library. -/
def utilsForms : List (List SExpr) := [
  [.list [.atom "require", .atom "\"./bounded.rkt\""], .list [.atom "require", .atom "rosette/lib/angelic", .atom "rosette/lib/match",
    .atom "rosette/lib/synthax"], .list [.atom "provide", .list [.atom "all-defined-out"]], d_list_ref_noerr.form, d_list_tail_noerr.form,
    d_list_append.form, d_list_empty.form, d_list_prepend.form, d_list_take_noerr.form, d_vec_slice_noerr.form,
    d_vec_slice_with_length_noerr.form, d_list_concat.form, d_make_tuple.form],
  [d_tupleGet.form, d_set_singleton.form,
    d_set_create.form, d_set_eq.form, d_set_union.form, d_set_member.form, d_set_insert.form, d_set_subset.form,
    d_set_minus.form],
  [d_map_create.form, d_map_normalize.form, d_map_eq.form, d_getIdx.form, d_map_contains.form, d_map_insert.form,
    d_map_get.form],
  [],
  [d_matrix_ref_noerr.form, d_matrix_tail_noerr.form, d_matrix_row_slice_noerr.form,
    d_matrix_row_slice_with_length_noerr.form, d_matrix_col_slice_noerr.form],
  [d_matrix_col_slice_with_length_noerr.form,
    d_matrix_prepend.form, d_matrix_take_noerr.form, d_matrix_length.form, d_matrix_append.form, d_matrix_empty.form,
    d_list_tuple_ref_noerr.form, d_list_tuple_tail_noerr.form, d_list_tuple_empty.form, d_list_tuple_prepend.form,
    d_list_tuple_take_noerr.form, d_list_tuple_append.form],
  [d_list_tuple_length.form, d_quotient_noerr.form, d_firsts.form,
    d_rests.form, d_matrix_transpose_noerr.form, d_integer_sqrt_noerr.form, d_integer_exp_noerr.form],
  [d_tensor3d_length.form,
    d_tensor3d_empty.form, d_tensor3d_ref_noerr.form, d_tensor3d_tail_noerr.form, d_tensor3d_take_noerr.form, d_tensor3d_slice_noerr.form,
    d_tensor3d_slice_with_length_noerr.form, d_tensor3d_prepend.form, d_tensor3d_append.form]]

/-- The library as a module. -/
def lib : Module where
  defs := utilsDefs
  imports := fun _ _ f => builtin f

end Rkt
end Metalift
