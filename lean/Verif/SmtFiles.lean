import Verif.SmtSem
/-
The files of definitions written at the beginning of every verification query (`metalift/smt_util.py` 319-323), character by character (cut
into pieces after newlines), and the commands they consist of (`SmtFilesRead.lean` proves that these are the commands).
-/
namespace Metalift
namespace Smt

/-- The characters of a text, as a list written out. -/
macro "chars%" s:str : term => do
  let cs := (s.getString.toList.map Lean.Syntax.mkCharLit).toArray
  `([$cs,*])

set_option maxRecDepth 100000 in
/-- `metalift/utils/tuples.smt` (the whole file): tuples. -/
def tuplesSmt : List (List Char) := [
chars% "; tuple definitions

(declare-datatypes ((Tuple1 1)) ((par (T0)             ((tuple1 (tuple1_get0 T0))))))
(declare-datatypes ((Tuple2 2)) ((par (T0 T1)          ((tuple2 (tuple2_get0 T0) (tuple2_get1 T1))))))
(declare-datatypes ((Tuple3 3)) ((par (T0 T1 T2)       ((tuple3 (tuple3_get0 T0) (tuple3_get1 T1) (tuple3_get2 T2))))))
(declare-datatypes ((Tuple4 4)) ((par (T0 T1 T2 T3)    ((tuple4 (tuple4_get0 T0) (tuple4_get1 T1) (tuple4_get2 T2) (tuple4_get3 T3))))))
",
chars% "(declare-datatypes ((Tuple5 5)) ((par (T0 T1 T2 T3 T4) ((tuple5 (tuple5_get0 T0) (tuple5_get1 T1) (tuple5_get2 T2) (tuple5_get3 T3) (tuple5_get4 T4))))))
"]

set_option maxRecDepth 100000 in
/-- `metalift/utils/integer-fn-axioms.smt` (the whole file): integer functions. -/
def integerSmt : List (List Char) := [
chars% "; begin integer functions
; TODO: fix
(define-fun-rec integer_exp ((n Int)) Int
(ite (<= n 0) 1 (mod (* (integer_exp (- n 1)) 3) 64)))

(define-fun-rec integer_sqrt_helper ((n Int) (guess Int)) Int
(ite (or (or (= guess 0) (= guess 1)) (> guess 64)) 1 (ite (= guess (div n guess)) guess (integer_sqrt_helper n (div (+ guess (div n guess)) 2)))))

(define-fun integer_sqrt ((n Int)) Int
(integer_sqrt_helper (div n 2) n))
",
chars% "
; end integer functions
"]

set_option maxRecDepth 100000 in
/-- `metalift/utils/list-axioms.smt` (the whole file): lists and matrices. -/
def listSmt : List (List Char) := [
chars% "; list definitions
(declare-datatypes ((MLList 1))
                   ((par (T) ((cons (head T) (tail (MLList T))) (nil)))))

(define-sort List_T1 () Int)


;(define-fun-rec list_length ((l (MLList List_T1))) Int
  ;(ite (= l nil) 0 (+ 1 (list_length (tail l))))
;)
(declare-fun list_length ( (MLList List_T1) ) Int)

(assert (= (list_length (as nil (MLList List_T1))) 0))
",
chars% "(assert (forall ( (val List_T1) (l (MLList List_T1)) )
                (= (list_length (cons val l)) (+ 1 (list_length l)))))
(assert (forall ( (l (MLList List_T1)) )
                (<= 0 (list_length l))))


(define-fun list_prepend ( (val List_T1) (l (MLList List_T1)) ) (MLList List_T1) (cons val l))


(declare-fun list_append ( (MLList List_T1) List_T1 ) (MLList List_T1))
",
chars% "
(assert (forall ( (val List_T1) )
                (= (list_append (as nil (MLList List_T1)) val) (cons val (as nil (MLList List_T1))))))
(assert (forall ( (h List_T1) (t (MLList List_T1)) (val List_T1) )
                (= (list_append (cons h t) val) (cons h (list_append t val)))))


(declare-fun list_get_helper ( (MLList List_T1) Int ) List_T1)
(define-fun list_get ( (l (MLList List_T1)) (i Int) ) List_T1 (list_get_helper l i))
",
chars% "
(assert (forall ( (h List_T1) (t (MLList List_T1)) (i Int) )
                (ite (<= i 0)
                     (= (list_get_helper (cons h t) i) h)
                     (= (list_get_helper (cons h t) i) (list_get_helper t (- i 1))))))


(define-fun list_empty ( ) (MLList List_T1) (as nil (MLList List_T1)))


(define-fun-rec list_tail ((l (MLList List_T1) ) (n Int)) (MLList List_T1)
  (ite (<= n 0)  l (list_tail (tail l) (- n 1))))
",
chars% "

(assert (forall ( (start Int) (h List_T1) (t (MLList List_T1)) )
                (ite (<= start 0)
                     (= (list_tail (cons h t) start) (cons h t))
                     (= (list_tail (cons h t) start) (list_tail t (- start 1))))))
(assert (forall ( (start Int) )
                (= (list_tail (as nil (MLList List_T1)) start) (as nil (MLList List_T1)))))
",
chars% "(assert (forall ( (start Int) (l (MLList List_T1)) )
                (=> (>= start (list_length l))
                    (= (list_tail l start) (as nil (MLList List_T1))))))


(declare-fun list_take ( (MLList List_T1) Int ) (MLList List_T1))

(assert (forall ( (end Int) (h List_T1) (t (MLList List_T1)) )
                (ite (<= end 0)
                     (= (list_take (cons h t) end) (as nil (MLList List_T1)))
                     (= (list_take (cons h t) end) (cons h (list_take t (- end 1)))))))
",
chars% "(assert (forall ( (end Int) )
                (= (list_take (as nil (MLList List_T1)) end) (as nil (MLList List_T1)))))
(assert (forall ( (end Int) (l (MLList List_T1)) )
                (=> (>= end (list_length l))
                    (= (list_take l end) l))))

(assert (forall ( (l (MLList List_T1)) ) (= (list_take l 0) (as nil (MLList List_T1)))))
",
chars% "
;(declare-fun list_concat ( (MLList List_T1) (MLList List_T1) ) (MLList List_T1))
;(assert (forall ((xs (MLList List_T1)) (ys (MLList List_T1)) (x List_T1))
;            (ite (= (as nil (MLList List_T1)) xs)
;                 (= (list_concat xs ys) ys)
;                 (= (list_concat (cons x xs) ys) (cons x (list_concat xs ys))))))

(define-fun-rec list_concat ((xs (MLList List_T1)) (ys (MLList List_T1))) (MLList List_T1)
    (ite (= (as nil (MLList List_T1)) xs)
         ys
         (cons (head xs) (list_concat (tail xs) ys))))
",
chars% "
(define-fun-rec list_contains ((l (MLList List_T1)) (val List_T1)) Bool
  (ite (= (list_length l) 0)
       false
       (ite (= (head l) val)
            true
            (list_contains (tail l) val))))

; list axioms

; l :: nil = l
(assert (forall ( (l (MLList List_T1)) )
                (= (list_concat l (as nil (MLList List_T1))) l)))


; l[i:] = l[i] : l[i+1:]
",
chars% "(assert (forall ( (l (MLList List_T1)) (i Int) (out (MLList List_T1)) )
                (=> (and (>= i 0) (< i (list_length l)))
                    (= (list_tail l i)
                       (cons (list_get l i) (list_tail l (+ i 1)))))))

; xs :: (y : ys) = (xs : y) :: ys
(assert (forall ( (xs (MLList List_T1)) (y List_T1) (ys (MLList List_T1)) )
                (= (list_concat xs (cons y ys))
                   (list_concat (list_append xs y) ys))))
",
chars% "

; end of list definition

; list of lists definition

(declare-fun matrix_length ( (MLList (MLList Int) ) ) Int)
(assert (= (matrix_length (as nil (MLList (MLList Int) ))) 0))
(assert (forall ( (val (MLList Int) ) (l (MLList (MLList Int) )) )
                (= (matrix_length (cons val l)) (+ 1 (matrix_length l)))))
(assert (forall ( (l (MLList (MLList Int) )) )
                (<= 0 (matrix_length l))))
",
chars% "
;end of list length

(define-fun matrix_prepend ( (val (MLList Int) ) (l (MLList (MLList Int) ) )) (MLList (MLList Int) ) (cons val l))
; end of list prepend


(declare-fun matrix_append ( (MLList (MLList Int)  ) (MLList Int) ) (MLList (MLList Int) ))
(assert (forall ( (val (MLList Int)) )
                (= (matrix_append (as nil (MLList (MLList Int))) val) (cons val (as nil (MLList (MLList Int)))))))
",
chars% "(assert (forall ( (h (MLList Int)) (t (MLList (MLList Int))) (val (MLList Int)) )
                (= (matrix_append (cons h t) val) (cons h (matrix_append t val)))))
;end of list append

(declare-fun matrix_get_helper ( (MLList (MLList Int) ) Int ) (MLList Int) )
(define-fun matrix_get ( (l (MLList (MLList Int) )) (i Int) ) (MLList Int) (matrix_get_helper l i))
",
chars% "(assert (forall ( (h (MLList Int) ) (t (MLList (MLList Int) )) (i Int) )
                (ite (<= i 0)
                     (= (matrix_get_helper (cons h t) i) h)
                     (= (matrix_get_helper (cons h t) i) (matrix_get_helper t (- i 1))))))
;end of list get

(define-fun matrix_empty ( ) (MLList (MLList Int)) (as nil (MLList (MLList Int) )))
",
chars% ";end of empty list



(define-fun-rec matrix_tail ((l (MLList (MLList Int) ) ) (n Int)) (MLList (MLList Int) )
  (ite (<= n 0)  l (matrix_tail (tail l) (- n 1))))
(assert (forall ( (start Int) (h (MLList Int) ) (t (MLList (MLList Int) )) )
                (ite (<= start 0)
                     (= (matrix_tail (cons h t) start) (cons h t))
                     (= (matrix_tail (cons h t) start) (matrix_tail t (- start 1))))))
",
chars% "(assert (forall ( (start Int) )
                (= (matrix_tail (as nil (MLList (MLList Int) )) start) (as nil (MLList (MLList Int)) ))))
(assert (forall ( (start Int) (l (MLList (MLList Int) )) )
                (=> (>= start (matrix_length l))
                    (= (matrix_tail l start) (as nil (MLList (MLList Int) ))))))

; end of list tail

(declare-fun matrix_take ( (MLList (MLList Int)) Int ) (MLList (MLList Int)))
",
chars% "
(assert (forall ( (end Int) (h (MLList Int)) (t (MLList (MLList Int))) )
                (ite (<= end 0)
                     (= (matrix_take (cons h t) end) (as nil (MLList (MLList Int))))
                     (= (matrix_take (cons h t) end) (cons h (matrix_take t (- end 1)))))))
(assert (forall ( (end Int) )
                (= (matrix_take (as nil (MLList (MLList Int))) end) (as nil (MLList (MLList Int))))))
",
chars% "(assert (forall ( (end Int) (l (MLList (MLList Int))) )
                (=> (>= end (matrix_length l))
                    (= (matrix_take l end) l))))

(assert (forall ( (l (MLList (MLList Int))) ) (= (matrix_take l 0) (as nil (MLList (MLList Int))))))
; end of list take

; end of list of lists definition

(define-fun vec_slice ((lst (MLList Int)) (start Int) (end Int)) (MLList Int)
(list_tail (list_take lst end) start))
",
chars% "
(define-fun vec_slice_with_length ((lst (MLList Int)) (start Int) (lst_length Int)) (MLList Int)
(vec_slice lst start (+ start lst_length)))

(define-fun matrix_row_slice ((matrix (MLList (MLList Int))) (start Int) (end Int)) (MLList (MLList Int))
(matrix_tail (matrix_take matrix end) start))

(define-fun matrix_row_slice_with_length ((matrix (MLList (MLList Int))) (start Int) (lst_length Int)) (MLList (MLList Int))
(matrix_row_slice matrix start (+ start lst_length)))
",
chars% "
(define-fun-rec matrix_col_slice ((matrix (MLList (MLList Int))) (start Int) (end Int)) (MLList (MLList Int))
(ite (< (matrix_length matrix) 1) matrix_empty (matrix_prepend (vec_slice (matrix_get matrix 0) start end) (matrix_col_slice (matrix_tail matrix 1) start end))))

(define-fun-rec matrix_col_slice_with_length ((matrix (MLList (MLList Int))) (start Int) (lst_length Int)) (MLList (MLList Int))
(matrix_col_slice matrix start (+ start lst_length)))
",
chars% "
(define-fun-rec firsts ((matrix (MLList (MLList Int)))) (MLList Int)
(ite (< (matrix_length matrix) 1) list_empty (list_prepend (list_get (matrix_get matrix 0) 0) (firsts (matrix_tail matrix 1)))))

(define-fun-rec rests ((matrix (MLList (MLList Int)))) (MLList (MLList Int))
(ite (< (matrix_length matrix) 1) matrix_empty (matrix_col_slice matrix 1 (list_length (matrix_get matrix 0)))))
",
chars% "
(define-fun-rec matrix_transpose ((matrix (MLList (MLList Int)))) (MLList (MLList Int))
(ite (< (matrix_length matrix) 1) matrix_empty (matrix_prepend (firsts matrix) (matrix_transpose (rests matrix)))))
"]

/-- What is written before the query (`metalift/smt_util.py` 319-323). -/
def filesText : String := String.ofList (tuplesSmt ++ integerSmt ++ listSmt).flatten

/-! ### The commands -/

/-- A command of the files. -/
def c_data1 : SExpr :=
  .list [.atom "declare-datatypes", .list [.list [.atom "Tuple1", .atom "1"]], .list [.list [.atom "par", .list [.atom "T0"],
    .list [.list [.atom "tuple1", .list [.atom "tuple1_get0", .atom "T0"]]]]]]
/-- A command of the files. -/
def c_data2 : SExpr :=
  .list [.atom "declare-datatypes", .list [.list [.atom "Tuple2", .atom "2"]], .list [.list [.atom "par", .list [.atom "T0",
    .atom "T1"], .list [.list [.atom "tuple2", .list [.atom "tuple2_get0", .atom "T0"], .list [.atom "tuple2_get1",
    .atom "T1"]]]]]]
/-- A command of the files. -/
def c_data3 : SExpr :=
  .list [.atom "declare-datatypes", .list [.list [.atom "Tuple3", .atom "3"]], .list [.list [.atom "par", .list [.atom "T0",
    .atom "T1", .atom "T2"], .list [.list [.atom "tuple3", .list [.atom "tuple3_get0", .atom "T0"], .list [.atom "tuple3_get1",
    .atom "T1"], .list [.atom "tuple3_get2", .atom "T2"]]]]]]
/-- A command of the files. -/
def c_data4 : SExpr :=
  .list [.atom "declare-datatypes", .list [.list [.atom "Tuple4", .atom "4"]], .list [.list [.atom "par", .list [.atom "T0",
    .atom "T1", .atom "T2", .atom "T3"], .list [.list [.atom "tuple4", .list [.atom "tuple4_get0", .atom "T0"],
    .list [.atom "tuple4_get1", .atom "T1"], .list [.atom "tuple4_get2", .atom "T2"], .list [.atom "tuple4_get3", .atom "T3"]]]]]]
/-- A command of the files. -/
def c_data5 : SExpr :=
  .list [.atom "declare-datatypes", .list [.list [.atom "Tuple5", .atom "5"]], .list [.list [.atom "par", .list [.atom "T0",
    .atom "T1", .atom "T2", .atom "T3", .atom "T4"], .list [.list [.atom "tuple5", .list [.atom "tuple5_get0", .atom "T0"],
    .list [.atom "tuple5_get1", .atom "T1"], .list [.atom "tuple5_get2", .atom "T2"], .list [.atom "tuple5_get3", .atom "T3"],
    .list [.atom "tuple5_get4", .atom "T4"]]]]]]
/-- A command of the files. -/
def c_integer_exp : SExpr :=
  .list [.atom "define-fun-rec", .atom "integer_exp", .list [.list [.atom "n", .atom "Int"]], .atom "Int", .list [.atom "ite",
    .list [.atom "<=", .atom "n", .atom "0"], .atom "1", .list [.atom "mod", .list [.atom "*", .list [.atom "integer_exp",
    .list [.atom "-", .atom "n", .atom "1"]], .atom "3"], .atom "64"]]]
/-- A command of the files. -/
def c_integer_sqrt_helper : SExpr :=
  .list [.atom "define-fun-rec", .atom "integer_sqrt_helper", .list [.list [.atom "n", .atom "Int"], .list [.atom "guess",
    .atom "Int"]], .atom "Int", .list [.atom "ite", .list [.atom "or", .list [.atom "or", .list [.atom "=", .atom "guess",
    .atom "0"], .list [.atom "=", .atom "guess", .atom "1"]], .list [.atom ">", .atom "guess", .atom "64"]], .atom "1",
    .list [.atom "ite", .list [.atom "=", .atom "guess", .list [.atom "div", .atom "n", .atom "guess"]], .atom "guess",
    .list [.atom "integer_sqrt_helper", .atom "n", .list [.atom "div", .list [.atom "+", .atom "guess", .list [.atom "div",
    .atom "n", .atom "guess"]], .atom "2"]]]]]
/-- A command of the files. -/
def c_integer_sqrt : SExpr :=
  .list [.atom "define-fun", .atom "integer_sqrt", .list [.list [.atom "n", .atom "Int"]], .atom "Int",
    .list [.atom "integer_sqrt_helper", .list [.atom "div", .atom "n", .atom "2"], .atom "n"]]
/-- A command of the files. -/
def c_data6 : SExpr :=
  .list [.atom "declare-datatypes", .list [.list [.atom "MLList", .atom "1"]], .list [.list [.atom "par", .list [.atom "T"],
    .list [.list [.atom "cons", .list [.atom "head", .atom "T"], .list [.atom "tail", .list [.atom "MLList", .atom "T"]]],
    .list [.atom "nil"]]]]]
/-- A command of the files. -/
def c_List_T1 : SExpr :=
  .list [.atom "define-sort", .atom "List_T1", .list [], .atom "Int"]
/-- A command of the files. -/
def c_list_length : SExpr :=
  .list [.atom "declare-fun", .atom "list_length", .list [.list [.atom "MLList", .atom "List_T1"]], .atom "Int"]
/-- A command of the files. -/
def c_ax_list_length1 : SExpr :=
  .list [.atom "assert", .list [.atom "=", .list [.atom "list_length", .list [.atom "as", .atom "nil", .list [.atom "MLList",
    .atom "List_T1"]]], .atom "0"]]
/-- A command of the files. -/
def c_ax_list_length2 : SExpr :=
  .list [.atom "assert", .list [.atom "forall", .list [.list [.atom "val", .atom "List_T1"], .list [.atom "l",
    .list [.atom "MLList", .atom "List_T1"]]], .list [.atom "=", .list [.atom "list_length", .list [.atom "cons", .atom "val",
    .atom "l"]], .list [.atom "+", .atom "1", .list [.atom "list_length", .atom "l"]]]]]
/-- A command of the files. -/
def c_ax_list_length3 : SExpr :=
  .list [.atom "assert", .list [.atom "forall", .list [.list [.atom "l", .list [.atom "MLList", .atom "List_T1"]]],
    .list [.atom "<=", .atom "0", .list [.atom "list_length", .atom "l"]]]]
/-- A command of the files. -/
def c_list_prepend : SExpr :=
  .list [.atom "define-fun", .atom "list_prepend", .list [.list [.atom "val", .atom "List_T1"], .list [.atom "l",
    .list [.atom "MLList", .atom "List_T1"]]], .list [.atom "MLList", .atom "List_T1"], .list [.atom "cons", .atom "val",
    .atom "l"]]
/-- A command of the files. -/
def c_list_append : SExpr :=
  .list [.atom "declare-fun", .atom "list_append", .list [.list [.atom "MLList", .atom "List_T1"], .atom "List_T1"],
    .list [.atom "MLList", .atom "List_T1"]]
/-- A command of the files. -/
def c_ax_list_append1 : SExpr :=
  .list [.atom "assert", .list [.atom "forall", .list [.list [.atom "val", .atom "List_T1"]], .list [.atom "=",
    .list [.atom "list_append", .list [.atom "as", .atom "nil", .list [.atom "MLList", .atom "List_T1"]], .atom "val"],
    .list [.atom "cons", .atom "val", .list [.atom "as", .atom "nil", .list [.atom "MLList", .atom "List_T1"]]]]]]
/-- A command of the files. -/
def c_ax_list_append2 : SExpr :=
  .list [.atom "assert", .list [.atom "forall", .list [.list [.atom "h", .atom "List_T1"], .list [.atom "t",
    .list [.atom "MLList", .atom "List_T1"]], .list [.atom "val", .atom "List_T1"]], .list [.atom "=",
    .list [.atom "list_append", .list [.atom "cons", .atom "h", .atom "t"], .atom "val"], .list [.atom "cons", .atom "h",
    .list [.atom "list_append", .atom "t", .atom "val"]]]]]
/-- A command of the files. -/
def c_list_get_helper : SExpr :=
  .list [.atom "declare-fun", .atom "list_get_helper", .list [.list [.atom "MLList", .atom "List_T1"], .atom "Int"],
    .atom "List_T1"]
/-- A command of the files. -/
def c_list_get : SExpr :=
  .list [.atom "define-fun", .atom "list_get", .list [.list [.atom "l", .list [.atom "MLList", .atom "List_T1"]],
    .list [.atom "i", .atom "Int"]], .atom "List_T1", .list [.atom "list_get_helper", .atom "l", .atom "i"]]
/-- A command of the files. -/
def c_ax_list_get1 : SExpr :=
  .list [.atom "assert", .list [.atom "forall", .list [.list [.atom "h", .atom "List_T1"], .list [.atom "t",
    .list [.atom "MLList", .atom "List_T1"]], .list [.atom "i", .atom "Int"]], .list [.atom "ite", .list [.atom "<=", .atom "i",
    .atom "0"], .list [.atom "=", .list [.atom "list_get_helper", .list [.atom "cons", .atom "h", .atom "t"], .atom "i"],
    .atom "h"], .list [.atom "=", .list [.atom "list_get_helper", .list [.atom "cons", .atom "h", .atom "t"], .atom "i"],
    .list [.atom "list_get_helper", .atom "t", .list [.atom "-", .atom "i", .atom "1"]]]]]]
/-- A command of the files. -/
def c_list_empty : SExpr :=
  .list [.atom "define-fun", .atom "list_empty", .list [], .list [.atom "MLList", .atom "List_T1"], .list [.atom "as",
    .atom "nil", .list [.atom "MLList", .atom "List_T1"]]]
/-- A command of the files. -/
def c_list_tail : SExpr :=
  .list [.atom "define-fun-rec", .atom "list_tail", .list [.list [.atom "l", .list [.atom "MLList", .atom "List_T1"]],
    .list [.atom "n", .atom "Int"]], .list [.atom "MLList", .atom "List_T1"], .list [.atom "ite", .list [.atom "<=", .atom "n",
    .atom "0"], .atom "l", .list [.atom "list_tail", .list [.atom "tail", .atom "l"], .list [.atom "-", .atom "n", .atom "1"]]]]
/-- A command of the files. -/
def c_ax_list_tail1 : SExpr :=
  .list [.atom "assert", .list [.atom "forall", .list [.list [.atom "start", .atom "Int"], .list [.atom "h", .atom "List_T1"],
    .list [.atom "t", .list [.atom "MLList", .atom "List_T1"]]], .list [.atom "ite", .list [.atom "<=", .atom "start",
    .atom "0"], .list [.atom "=", .list [.atom "list_tail", .list [.atom "cons", .atom "h", .atom "t"], .atom "start"],
    .list [.atom "cons", .atom "h", .atom "t"]], .list [.atom "=", .list [.atom "list_tail", .list [.atom "cons", .atom "h",
    .atom "t"], .atom "start"], .list [.atom "list_tail", .atom "t", .list [.atom "-", .atom "start", .atom "1"]]]]]]
/-- A command of the files. -/
def c_ax_list_tail2 : SExpr :=
  .list [.atom "assert", .list [.atom "forall", .list [.list [.atom "start", .atom "Int"]], .list [.atom "=",
    .list [.atom "list_tail", .list [.atom "as", .atom "nil", .list [.atom "MLList", .atom "List_T1"]], .atom "start"],
    .list [.atom "as", .atom "nil", .list [.atom "MLList", .atom "List_T1"]]]]]
/-- A command of the files. -/
def c_ax_list_tail3 : SExpr :=
  .list [.atom "assert", .list [.atom "forall", .list [.list [.atom "start", .atom "Int"], .list [.atom "l",
    .list [.atom "MLList", .atom "List_T1"]]], .list [.atom "=>", .list [.atom ">=", .atom "start", .list [.atom "list_length",
    .atom "l"]], .list [.atom "=", .list [.atom "list_tail", .atom "l", .atom "start"], .list [.atom "as", .atom "nil",
    .list [.atom "MLList", .atom "List_T1"]]]]]]
/-- A command of the files. -/
def c_list_take : SExpr :=
  .list [.atom "declare-fun", .atom "list_take", .list [.list [.atom "MLList", .atom "List_T1"], .atom "Int"],
    .list [.atom "MLList", .atom "List_T1"]]
/-- A command of the files. -/
def c_ax_list_take1 : SExpr :=
  .list [.atom "assert", .list [.atom "forall", .list [.list [.atom "end", .atom "Int"], .list [.atom "h", .atom "List_T1"],
    .list [.atom "t", .list [.atom "MLList", .atom "List_T1"]]], .list [.atom "ite", .list [.atom "<=", .atom "end", .atom "0"],
    .list [.atom "=", .list [.atom "list_take", .list [.atom "cons", .atom "h", .atom "t"], .atom "end"], .list [.atom "as",
    .atom "nil", .list [.atom "MLList", .atom "List_T1"]]], .list [.atom "=", .list [.atom "list_take", .list [.atom "cons",
    .atom "h", .atom "t"], .atom "end"], .list [.atom "cons", .atom "h", .list [.atom "list_take", .atom "t", .list [.atom "-",
    .atom "end", .atom "1"]]]]]]]
/-- A command of the files. -/
def c_ax_list_take2 : SExpr :=
  .list [.atom "assert", .list [.atom "forall", .list [.list [.atom "end", .atom "Int"]], .list [.atom "=",
    .list [.atom "list_take", .list [.atom "as", .atom "nil", .list [.atom "MLList", .atom "List_T1"]], .atom "end"],
    .list [.atom "as", .atom "nil", .list [.atom "MLList", .atom "List_T1"]]]]]
/-- A command of the files. -/
def c_ax_list_take3 : SExpr :=
  .list [.atom "assert", .list [.atom "forall", .list [.list [.atom "end", .atom "Int"], .list [.atom "l", .list [.atom "MLList",
    .atom "List_T1"]]], .list [.atom "=>", .list [.atom ">=", .atom "end", .list [.atom "list_length", .atom "l"]],
    .list [.atom "=", .list [.atom "list_take", .atom "l", .atom "end"], .atom "l"]]]]
/-- A command of the files. -/
def c_ax_list_take4 : SExpr :=
  .list [.atom "assert", .list [.atom "forall", .list [.list [.atom "l", .list [.atom "MLList", .atom "List_T1"]]],
    .list [.atom "=", .list [.atom "list_take", .atom "l", .atom "0"], .list [.atom "as", .atom "nil", .list [.atom "MLList",
    .atom "List_T1"]]]]]
/-- A command of the files. -/
def c_list_concat : SExpr :=
  .list [.atom "define-fun-rec", .atom "list_concat", .list [.list [.atom "xs", .list [.atom "MLList", .atom "List_T1"]],
    .list [.atom "ys", .list [.atom "MLList", .atom "List_T1"]]], .list [.atom "MLList", .atom "List_T1"], .list [.atom "ite",
    .list [.atom "=", .list [.atom "as", .atom "nil", .list [.atom "MLList", .atom "List_T1"]], .atom "xs"], .atom "ys",
    .list [.atom "cons", .list [.atom "head", .atom "xs"], .list [.atom "list_concat", .list [.atom "tail", .atom "xs"],
    .atom "ys"]]]]
/-- A command of the files. -/
def c_list_contains : SExpr :=
  .list [.atom "define-fun-rec", .atom "list_contains", .list [.list [.atom "l", .list [.atom "MLList", .atom "List_T1"]],
    .list [.atom "val", .atom "List_T1"]], .atom "Bool", .list [.atom "ite", .list [.atom "=", .list [.atom "list_length",
    .atom "l"], .atom "0"], .atom "false", .list [.atom "ite", .list [.atom "=", .list [.atom "head", .atom "l"], .atom "val"],
    .atom "true", .list [.atom "list_contains", .list [.atom "tail", .atom "l"], .atom "val"]]]]
/-- A command of the files. -/
def c_ax_list_contains1 : SExpr :=
  .list [.atom "assert", .list [.atom "forall", .list [.list [.atom "l", .list [.atom "MLList", .atom "List_T1"]]],
    .list [.atom "=", .list [.atom "list_concat", .atom "l", .list [.atom "as", .atom "nil", .list [.atom "MLList",
    .atom "List_T1"]]], .atom "l"]]]
/-- A command of the files. -/
def c_ax_list_contains2 : SExpr :=
  .list [.atom "assert", .list [.atom "forall", .list [.list [.atom "l", .list [.atom "MLList", .atom "List_T1"]],
    .list [.atom "i", .atom "Int"], .list [.atom "out", .list [.atom "MLList", .atom "List_T1"]]], .list [.atom "=>",
    .list [.atom "and", .list [.atom ">=", .atom "i", .atom "0"], .list [.atom "<", .atom "i", .list [.atom "list_length",
    .atom "l"]]], .list [.atom "=", .list [.atom "list_tail", .atom "l", .atom "i"], .list [.atom "cons",
    .list [.atom "list_get", .atom "l", .atom "i"], .list [.atom "list_tail", .atom "l", .list [.atom "+", .atom "i",
    .atom "1"]]]]]]]
/-- A command of the files. -/
def c_ax_list_contains3 : SExpr :=
  .list [.atom "assert", .list [.atom "forall", .list [.list [.atom "xs", .list [.atom "MLList", .atom "List_T1"]],
    .list [.atom "y", .atom "List_T1"], .list [.atom "ys", .list [.atom "MLList", .atom "List_T1"]]], .list [.atom "=",
    .list [.atom "list_concat", .atom "xs", .list [.atom "cons", .atom "y", .atom "ys"]], .list [.atom "list_concat",
    .list [.atom "list_append", .atom "xs", .atom "y"], .atom "ys"]]]]
/-- A command of the files. -/
def c_matrix_length : SExpr :=
  .list [.atom "declare-fun", .atom "matrix_length", .list [.list [.atom "MLList", .list [.atom "MLList", .atom "Int"]]],
    .atom "Int"]
/-- A command of the files. -/
def c_ax_matrix_length1 : SExpr :=
  .list [.atom "assert", .list [.atom "=", .list [.atom "matrix_length", .list [.atom "as", .atom "nil", .list [.atom "MLList",
    .list [.atom "MLList", .atom "Int"]]]], .atom "0"]]
/-- A command of the files. -/
def c_ax_matrix_length2 : SExpr :=
  .list [.atom "assert", .list [.atom "forall", .list [.list [.atom "val", .list [.atom "MLList", .atom "Int"]],
    .list [.atom "l", .list [.atom "MLList", .list [.atom "MLList", .atom "Int"]]]], .list [.atom "=",
    .list [.atom "matrix_length", .list [.atom "cons", .atom "val", .atom "l"]], .list [.atom "+", .atom "1",
    .list [.atom "matrix_length", .atom "l"]]]]]
/-- A command of the files. -/
def c_ax_matrix_length3 : SExpr :=
  .list [.atom "assert", .list [.atom "forall", .list [.list [.atom "l", .list [.atom "MLList", .list [.atom "MLList",
    .atom "Int"]]]], .list [.atom "<=", .atom "0", .list [.atom "matrix_length", .atom "l"]]]]
/-- A command of the files. -/
def c_matrix_prepend : SExpr :=
  .list [.atom "define-fun", .atom "matrix_prepend", .list [.list [.atom "val", .list [.atom "MLList", .atom "Int"]],
    .list [.atom "l", .list [.atom "MLList", .list [.atom "MLList", .atom "Int"]]]], .list [.atom "MLList",
    .list [.atom "MLList", .atom "Int"]], .list [.atom "cons", .atom "val", .atom "l"]]
/-- A command of the files. -/
def c_matrix_append : SExpr :=
  .list [.atom "declare-fun", .atom "matrix_append", .list [.list [.atom "MLList", .list [.atom "MLList", .atom "Int"]],
    .list [.atom "MLList", .atom "Int"]], .list [.atom "MLList", .list [.atom "MLList", .atom "Int"]]]
/-- A command of the files. -/
def c_ax_matrix_append1 : SExpr :=
  .list [.atom "assert", .list [.atom "forall", .list [.list [.atom "val", .list [.atom "MLList", .atom "Int"]]],
    .list [.atom "=", .list [.atom "matrix_append", .list [.atom "as", .atom "nil", .list [.atom "MLList", .list [.atom "MLList",
    .atom "Int"]]], .atom "val"], .list [.atom "cons", .atom "val", .list [.atom "as", .atom "nil", .list [.atom "MLList",
    .list [.atom "MLList", .atom "Int"]]]]]]]
/-- A command of the files. -/
def c_ax_matrix_append2 : SExpr :=
  .list [.atom "assert", .list [.atom "forall", .list [.list [.atom "h", .list [.atom "MLList", .atom "Int"]], .list [.atom "t",
    .list [.atom "MLList", .list [.atom "MLList", .atom "Int"]]], .list [.atom "val", .list [.atom "MLList", .atom "Int"]]],
    .list [.atom "=", .list [.atom "matrix_append", .list [.atom "cons", .atom "h", .atom "t"], .atom "val"],
    .list [.atom "cons", .atom "h", .list [.atom "matrix_append", .atom "t", .atom "val"]]]]]
/-- A command of the files. -/
def c_matrix_get_helper : SExpr :=
  .list [.atom "declare-fun", .atom "matrix_get_helper", .list [.list [.atom "MLList", .list [.atom "MLList", .atom "Int"]],
    .atom "Int"], .list [.atom "MLList", .atom "Int"]]
/-- A command of the files. -/
def c_matrix_get : SExpr :=
  .list [.atom "define-fun", .atom "matrix_get", .list [.list [.atom "l", .list [.atom "MLList", .list [.atom "MLList",
    .atom "Int"]]], .list [.atom "i", .atom "Int"]], .list [.atom "MLList", .atom "Int"], .list [.atom "matrix_get_helper",
    .atom "l", .atom "i"]]
/-- A command of the files. -/
def c_ax_matrix_get1 : SExpr :=
  .list [.atom "assert", .list [.atom "forall", .list [.list [.atom "h", .list [.atom "MLList", .atom "Int"]], .list [.atom "t",
    .list [.atom "MLList", .list [.atom "MLList", .atom "Int"]]], .list [.atom "i", .atom "Int"]], .list [.atom "ite",
    .list [.atom "<=", .atom "i", .atom "0"], .list [.atom "=", .list [.atom "matrix_get_helper", .list [.atom "cons", .atom "h",
    .atom "t"], .atom "i"], .atom "h"], .list [.atom "=", .list [.atom "matrix_get_helper", .list [.atom "cons", .atom "h",
    .atom "t"], .atom "i"], .list [.atom "matrix_get_helper", .atom "t", .list [.atom "-", .atom "i", .atom "1"]]]]]]
/-- A command of the files. -/
def c_matrix_empty : SExpr :=
  .list [.atom "define-fun", .atom "matrix_empty", .list [], .list [.atom "MLList", .list [.atom "MLList", .atom "Int"]],
    .list [.atom "as", .atom "nil", .list [.atom "MLList", .list [.atom "MLList", .atom "Int"]]]]
/-- A command of the files. -/
def c_matrix_tail : SExpr :=
  .list [.atom "define-fun-rec", .atom "matrix_tail", .list [.list [.atom "l", .list [.atom "MLList", .list [.atom "MLList",
    .atom "Int"]]], .list [.atom "n", .atom "Int"]], .list [.atom "MLList", .list [.atom "MLList", .atom "Int"]],
    .list [.atom "ite", .list [.atom "<=", .atom "n", .atom "0"], .atom "l", .list [.atom "matrix_tail", .list [.atom "tail",
    .atom "l"], .list [.atom "-", .atom "n", .atom "1"]]]]
/-- A command of the files. -/
def c_ax_matrix_tail1 : SExpr :=
  .list [.atom "assert", .list [.atom "forall", .list [.list [.atom "start", .atom "Int"], .list [.atom "h",
    .list [.atom "MLList", .atom "Int"]], .list [.atom "t", .list [.atom "MLList", .list [.atom "MLList", .atom "Int"]]]],
    .list [.atom "ite", .list [.atom "<=", .atom "start", .atom "0"], .list [.atom "=", .list [.atom "matrix_tail",
    .list [.atom "cons", .atom "h", .atom "t"], .atom "start"], .list [.atom "cons", .atom "h", .atom "t"]], .list [.atom "=",
    .list [.atom "matrix_tail", .list [.atom "cons", .atom "h", .atom "t"], .atom "start"], .list [.atom "matrix_tail",
    .atom "t", .list [.atom "-", .atom "start", .atom "1"]]]]]]
/-- A command of the files. -/
def c_ax_matrix_tail2 : SExpr :=
  .list [.atom "assert", .list [.atom "forall", .list [.list [.atom "start", .atom "Int"]], .list [.atom "=",
    .list [.atom "matrix_tail", .list [.atom "as", .atom "nil", .list [.atom "MLList", .list [.atom "MLList", .atom "Int"]]],
    .atom "start"], .list [.atom "as", .atom "nil", .list [.atom "MLList", .list [.atom "MLList", .atom "Int"]]]]]]
/-- A command of the files. -/
def c_ax_matrix_tail3 : SExpr :=
  .list [.atom "assert", .list [.atom "forall", .list [.list [.atom "start", .atom "Int"], .list [.atom "l",
    .list [.atom "MLList", .list [.atom "MLList", .atom "Int"]]]], .list [.atom "=>", .list [.atom ">=", .atom "start",
    .list [.atom "matrix_length", .atom "l"]], .list [.atom "=", .list [.atom "matrix_tail", .atom "l", .atom "start"],
    .list [.atom "as", .atom "nil", .list [.atom "MLList", .list [.atom "MLList", .atom "Int"]]]]]]]
/-- A command of the files. -/
def c_matrix_take : SExpr :=
  .list [.atom "declare-fun", .atom "matrix_take", .list [.list [.atom "MLList", .list [.atom "MLList", .atom "Int"]],
    .atom "Int"], .list [.atom "MLList", .list [.atom "MLList", .atom "Int"]]]
/-- A command of the files. -/
def c_ax_matrix_take1 : SExpr :=
  .list [.atom "assert", .list [.atom "forall", .list [.list [.atom "end", .atom "Int"], .list [.atom "h", .list [.atom "MLList",
    .atom "Int"]], .list [.atom "t", .list [.atom "MLList", .list [.atom "MLList", .atom "Int"]]]], .list [.atom "ite",
    .list [.atom "<=", .atom "end", .atom "0"], .list [.atom "=", .list [.atom "matrix_take", .list [.atom "cons", .atom "h",
    .atom "t"], .atom "end"], .list [.atom "as", .atom "nil", .list [.atom "MLList", .list [.atom "MLList", .atom "Int"]]]],
    .list [.atom "=", .list [.atom "matrix_take", .list [.atom "cons", .atom "h", .atom "t"], .atom "end"], .list [.atom "cons",
    .atom "h", .list [.atom "matrix_take", .atom "t", .list [.atom "-", .atom "end", .atom "1"]]]]]]]
/-- A command of the files. -/
def c_ax_matrix_take2 : SExpr :=
  .list [.atom "assert", .list [.atom "forall", .list [.list [.atom "end", .atom "Int"]], .list [.atom "=",
    .list [.atom "matrix_take", .list [.atom "as", .atom "nil", .list [.atom "MLList", .list [.atom "MLList", .atom "Int"]]],
    .atom "end"], .list [.atom "as", .atom "nil", .list [.atom "MLList", .list [.atom "MLList", .atom "Int"]]]]]]
/-- A command of the files. -/
def c_ax_matrix_take3 : SExpr :=
  .list [.atom "assert", .list [.atom "forall", .list [.list [.atom "end", .atom "Int"], .list [.atom "l", .list [.atom "MLList",
    .list [.atom "MLList", .atom "Int"]]]], .list [.atom "=>", .list [.atom ">=", .atom "end", .list [.atom "matrix_length",
    .atom "l"]], .list [.atom "=", .list [.atom "matrix_take", .atom "l", .atom "end"], .atom "l"]]]]
/-- A command of the files. -/
def c_ax_matrix_take4 : SExpr :=
  .list [.atom "assert", .list [.atom "forall", .list [.list [.atom "l", .list [.atom "MLList", .list [.atom "MLList",
    .atom "Int"]]]], .list [.atom "=", .list [.atom "matrix_take", .atom "l", .atom "0"], .list [.atom "as", .atom "nil",
    .list [.atom "MLList", .list [.atom "MLList", .atom "Int"]]]]]]
/-- A command of the files. -/
def c_vec_slice : SExpr :=
  .list [.atom "define-fun", .atom "vec_slice", .list [.list [.atom "lst", .list [.atom "MLList", .atom "Int"]],
    .list [.atom "start", .atom "Int"], .list [.atom "end", .atom "Int"]], .list [.atom "MLList", .atom "Int"],
    .list [.atom "list_tail", .list [.atom "list_take", .atom "lst", .atom "end"], .atom "start"]]
/-- A command of the files. -/
def c_vec_slice_with_length : SExpr :=
  .list [.atom "define-fun", .atom "vec_slice_with_length", .list [.list [.atom "lst", .list [.atom "MLList", .atom "Int"]],
    .list [.atom "start", .atom "Int"], .list [.atom "lst_length", .atom "Int"]], .list [.atom "MLList", .atom "Int"],
    .list [.atom "vec_slice", .atom "lst", .atom "start", .list [.atom "+", .atom "start", .atom "lst_length"]]]
/-- A command of the files. -/
def c_matrix_row_slice : SExpr :=
  .list [.atom "define-fun", .atom "matrix_row_slice", .list [.list [.atom "matrix", .list [.atom "MLList",
    .list [.atom "MLList", .atom "Int"]]], .list [.atom "start", .atom "Int"], .list [.atom "end", .atom "Int"]],
    .list [.atom "MLList", .list [.atom "MLList", .atom "Int"]], .list [.atom "matrix_tail", .list [.atom "matrix_take",
    .atom "matrix", .atom "end"], .atom "start"]]
/-- A command of the files. -/
def c_matrix_row_slice_with_length : SExpr :=
  .list [.atom "define-fun", .atom "matrix_row_slice_with_length", .list [.list [.atom "matrix", .list [.atom "MLList",
    .list [.atom "MLList", .atom "Int"]]], .list [.atom "start", .atom "Int"], .list [.atom "lst_length", .atom "Int"]],
    .list [.atom "MLList", .list [.atom "MLList", .atom "Int"]], .list [.atom "matrix_row_slice", .atom "matrix", .atom "start",
    .list [.atom "+", .atom "start", .atom "lst_length"]]]
/-- A command of the files. -/
def c_matrix_col_slice : SExpr :=
  .list [.atom "define-fun-rec", .atom "matrix_col_slice", .list [.list [.atom "matrix", .list [.atom "MLList",
    .list [.atom "MLList", .atom "Int"]]], .list [.atom "start", .atom "Int"], .list [.atom "end", .atom "Int"]],
    .list [.atom "MLList", .list [.atom "MLList", .atom "Int"]], .list [.atom "ite", .list [.atom "<",
    .list [.atom "matrix_length", .atom "matrix"], .atom "1"], .atom "matrix_empty", .list [.atom "matrix_prepend",
    .list [.atom "vec_slice", .list [.atom "matrix_get", .atom "matrix", .atom "0"], .atom "start", .atom "end"],
    .list [.atom "matrix_col_slice", .list [.atom "matrix_tail", .atom "matrix", .atom "1"], .atom "start", .atom "end"]]]]
/-- A command of the files. -/
def c_matrix_col_slice_with_length : SExpr :=
  .list [.atom "define-fun-rec", .atom "matrix_col_slice_with_length", .list [.list [.atom "matrix", .list [.atom "MLList",
    .list [.atom "MLList", .atom "Int"]]], .list [.atom "start", .atom "Int"], .list [.atom "lst_length", .atom "Int"]],
    .list [.atom "MLList", .list [.atom "MLList", .atom "Int"]], .list [.atom "matrix_col_slice", .atom "matrix", .atom "start",
    .list [.atom "+", .atom "start", .atom "lst_length"]]]
/-- A command of the files. -/
def c_firsts : SExpr :=
  .list [.atom "define-fun-rec", .atom "firsts", .list [.list [.atom "matrix", .list [.atom "MLList", .list [.atom "MLList",
    .atom "Int"]]]], .list [.atom "MLList", .atom "Int"], .list [.atom "ite", .list [.atom "<", .list [.atom "matrix_length",
    .atom "matrix"], .atom "1"], .atom "list_empty", .list [.atom "list_prepend", .list [.atom "list_get",
    .list [.atom "matrix_get", .atom "matrix", .atom "0"], .atom "0"], .list [.atom "firsts", .list [.atom "matrix_tail",
    .atom "matrix", .atom "1"]]]]]
/-- A command of the files. -/
def c_rests : SExpr :=
  .list [.atom "define-fun-rec", .atom "rests", .list [.list [.atom "matrix", .list [.atom "MLList", .list [.atom "MLList",
    .atom "Int"]]]], .list [.atom "MLList", .list [.atom "MLList", .atom "Int"]], .list [.atom "ite", .list [.atom "<",
    .list [.atom "matrix_length", .atom "matrix"], .atom "1"], .atom "matrix_empty", .list [.atom "matrix_col_slice",
    .atom "matrix", .atom "1", .list [.atom "list_length", .list [.atom "matrix_get", .atom "matrix", .atom "0"]]]]]
/-- A command of the files. -/
def c_matrix_transpose : SExpr :=
  .list [.atom "define-fun-rec", .atom "matrix_transpose", .list [.list [.atom "matrix", .list [.atom "MLList",
    .list [.atom "MLList", .atom "Int"]]]], .list [.atom "MLList", .list [.atom "MLList", .atom "Int"]], .list [.atom "ite",
    .list [.atom "<", .list [.atom "matrix_length", .atom "matrix"], .atom "1"], .atom "matrix_empty",
    .list [.atom "matrix_prepend", .list [.atom "firsts", .atom "matrix"], .list [.atom "matrix_transpose", .list [.atom "rests",
    .atom "matrix"]]]]]

/-- The commands, piece by piece. -/
def fileCmds : List (List SExpr) := [
  [c_data1, c_data2, c_data3, c_data4],
  [c_data5],
  [c_integer_exp, c_integer_sqrt_helper, c_integer_sqrt],
  [],
  [c_data6, c_List_T1, c_list_length, c_ax_list_length1],
  [c_ax_list_length2, c_ax_list_length3, c_list_prepend, c_list_append],
  [c_ax_list_append1, c_ax_list_append2, c_list_get_helper, c_list_get],
  [c_ax_list_get1, c_list_empty, c_list_tail],
  [c_ax_list_tail1, c_ax_list_tail2],
  [c_ax_list_tail3, c_list_take, c_ax_list_take1],
  [c_ax_list_take2, c_ax_list_take3, c_ax_list_take4],
  [c_list_concat],
  [c_list_contains, c_ax_list_contains1],
  [c_ax_list_contains2, c_ax_list_contains3],
  [c_matrix_length, c_ax_matrix_length1, c_ax_matrix_length2, c_ax_matrix_length3],
  [c_matrix_prepend, c_matrix_append, c_ax_matrix_append1],
  [c_ax_matrix_append2, c_matrix_get_helper, c_matrix_get],
  [c_ax_matrix_get1, c_matrix_empty],
  [c_matrix_tail, c_ax_matrix_tail1],
  [c_ax_matrix_tail2, c_ax_matrix_tail3, c_matrix_take],
  [c_ax_matrix_take1, c_ax_matrix_take2],
  [c_ax_matrix_take3, c_ax_matrix_take4, c_vec_slice],
  [c_vec_slice_with_length, c_matrix_row_slice, c_matrix_row_slice_with_length],
  [c_matrix_col_slice, c_matrix_col_slice_with_length],
  [c_firsts, c_rests],
  [c_matrix_transpose]]

end Smt
end Metalift
