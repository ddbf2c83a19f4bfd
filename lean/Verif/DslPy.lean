import Verif.PyModule
/-
The functions of `llmlift_scripts/dsl.py`, written by `scripts/mkdsl.py`, which reads the file with Python's own parser.  `a or b or c` is
`.or a (.or b c)`, as in `Verif.PySyntax`.
-/
namespace Metalift.Ten
open Py (PyDef)

/-- `firsts` (`llmlift_scripts/dsl.py` 4-5). -/
def pyFirsts : PyDef where
  name := "firsts"
  params := [("matrix", .list (.list .int))]
  ret := .list .int
  body :=
    .ite (.cmp .lt (.call (.name "len") [.name "matrix"]) (.num 1)) (.list []) (.list [.index (.index (.name "matrix") (.num 0)) (.num 0), .starred
    (.call (.name "firsts") [.slice (.name "matrix") (some (.num 1)) none])])

/-- `integer_exp` (`llmlift_scripts/dsl.py` 8-9). -/
def pyIntegerExp : PyDef where
  name := "integer_exp"
  params := [("n", .int)]
  ret := .int
  body :=
    .ite (.cmp .le (.name "n") (.num 0)) (.num 1) (.bin .mod (.bin .mul (.call (.name "integer_exp") [.bin .sub (.name "n") (.num 1)]) (.num 3))
    (.num 64))

/-- `integer_sqrt` (`llmlift_scripts/dsl.py` 12-13). -/
def pyIntegerSqrt : PyDef where
  name := "integer_sqrt"
  params := [("n", .int)]
  ret := .int
  body :=
    .call (.name "integer_sqrt_helper") [.bin .floordiv (.name "n") (.num 2), .name "n"]

/-- `integer_sqrt_helper` (`llmlift_scripts/dsl.py` 16-25). -/
def pyIntegerSqrtHelper : PyDef where
  name := "integer_sqrt_helper"
  params := [("n", .int), ("guess", .int)]
  ret := .int
  body :=
    .ite (.or (.cmp .eq (.name "guess") (.num 0)) (.or (.cmp .eq (.name "guess") (.num 1)) (.cmp .gt (.name "guess") (.num 64)))) (.num 1) (.ite
    (.cmp .eq (.name "guess") (.bin .floordiv (.name "n") (.name "guess"))) (.name "guess") (.call (.name "integer_sqrt_helper") [.name "n", .bin
    .add (.name "guess") (.bin .floordiv (.bin .floordiv (.name "n") (.name "guess")) (.num 2))]))

/-- `ite_int` (`llmlift_scripts/dsl.py` 28-29). -/
def pyIteInt : PyDef where
  name := "ite_int"
  params := [("cond", .bool), ("int_x", .int), ("int_y", .int)]
  ret := .int
  body :=
    .ite (.name "cond") (.name "int_x") (.name "int_y")

/-- `matrix_col_slice` (`llmlift_scripts/dsl.py` 32-37). -/
def pyMatrixColSlice : PyDef where
  name := "matrix_col_slice"
  params := [("matrix", .list (.list .int)), ("start", .int), ("end", .int)]
  ret := .list (.list .int)
  body :=
    .ite (.cmp .lt (.call (.name "len") [.name "matrix"]) (.num 1)) (.list []) (.list [.slice (.index (.name "matrix") (.num 0)) (some (.name
    "start")) (some (.name "end")), .starred (.call (.name "matrix_col_slice") [.slice (.name "matrix") (some (.num 1)) none, .name "start", .name
    "end"])])

/-- `matrix_elemwise_add` (`llmlift_scripts/dsl.py` 40-50). -/
def pyMatrixElemwiseAdd : PyDef where
  name := "matrix_elemwise_add"
  params := [("matrix_x", .list (.list .int)), ("matrix_y", .list (.list .int))]
  ret := .list (.list .int)
  body :=
    .ite (.or (.cmp .lt (.call (.name "len") [.name "matrix_x"]) (.num 1)) (.not (.cmp .eq (.call (.name "len") [.name "matrix_x"]) (.call (.name
    "len") [.name "matrix_y"])))) (.list []) (.list [.call (.name "vec_elemwise_add") [.index (.name "matrix_x") (.num 0), .index (.name "matrix_y")
    (.num 0)], .starred (.call (.name "matrix_elemwise_add") [.slice (.name "matrix_x") (some (.num 1)) none, .slice (.name "matrix_y") (some (.num
    1)) none])])

/-- `matrix_elemwise_div` (`llmlift_scripts/dsl.py` 53-63). -/
def pyMatrixElemwiseDiv : PyDef where
  name := "matrix_elemwise_div"
  params := [("matrix_x", .list (.list .int)), ("matrix_y", .list (.list .int))]
  ret := .list (.list .int)
  body :=
    .ite (.or (.cmp .lt (.call (.name "len") [.name "matrix_x"]) (.num 1)) (.not (.cmp .eq (.call (.name "len") [.name "matrix_x"]) (.call (.name
    "len") [.name "matrix_y"])))) (.list []) (.list [.call (.name "vec_elemwise_div") [.index (.name "matrix_x") (.num 0), .index (.name "matrix_y")
    (.num 0)], .starred (.call (.name "matrix_elemwise_div") [.slice (.name "matrix_x") (some (.num 1)) none, .slice (.name "matrix_y") (some (.num
    1)) none])])

/-- `matrix_elemwise_mul` (`llmlift_scripts/dsl.py` 66-76). -/
def pyMatrixElemwiseMul : PyDef where
  name := "matrix_elemwise_mul"
  params := [("matrix_x", .list (.list .int)), ("matrix_y", .list (.list .int))]
  ret := .list (.list .int)
  body :=
    .ite (.or (.cmp .lt (.call (.name "len") [.name "matrix_x"]) (.num 1)) (.not (.cmp .eq (.call (.name "len") [.name "matrix_x"]) (.call (.name
    "len") [.name "matrix_y"])))) (.list []) (.list [.call (.name "vec_elemwise_mul") [.index (.name "matrix_x") (.num 0), .index (.name "matrix_y")
    (.num 0)], .starred (.call (.name "matrix_elemwise_mul") [.slice (.name "matrix_x") (some (.num 1)) none, .slice (.name "matrix_y") (some (.num
    1)) none])])

/-- `matrix_elemwise_sub` (`llmlift_scripts/dsl.py` 79-89). -/
def pyMatrixElemwiseSub : PyDef where
  name := "matrix_elemwise_sub"
  params := [("matrix_x", .list (.list .int)), ("matrix_y", .list (.list .int))]
  ret := .list (.list .int)
  body :=
    .ite (.or (.cmp .lt (.call (.name "len") [.name "matrix_x"]) (.num 1)) (.not (.cmp .eq (.call (.name "len") [.name "matrix_x"]) (.call (.name
    "len") [.name "matrix_y"])))) (.list []) (.list [.call (.name "vec_elemwise_sub") [.index (.name "matrix_x") (.num 0), .index (.name "matrix_y")
    (.num 0)], .starred (.call (.name "matrix_elemwise_sub") [.slice (.name "matrix_x") (some (.num 1)) none, .slice (.name "matrix_y") (some (.num
    1)) none])])

/-- `matrix_row_slice` (`llmlift_scripts/dsl.py` 92-93). -/
def pyMatrixRowSlice : PyDef where
  name := "matrix_row_slice"
  params := [("matrix", .list (.list .int)), ("start", .int), ("end", .int)]
  ret := .list (.list .int)
  body :=
    .slice (.slice (.name "matrix") none (some (.name "end"))) (some (.name "start")) none

/-- `matrix_scalar_add` (`llmlift_scripts/dsl.py` 96-101). -/
def pyMatrixScalarAdd : PyDef where
  name := "matrix_scalar_add"
  params := [("a", .int), ("matrix_x", .list (.list .int))]
  ret := .list (.list .int)
  body :=
    .ite (.cmp .lt (.call (.name "len") [.name "matrix_x"]) (.num 1)) (.list []) (.list [.call (.name "vec_scalar_add") [.name "a", .index (.name
    "matrix_x") (.num 0)], .starred (.call (.name "matrix_scalar_add") [.name "a", .slice (.name "matrix_x") (some (.num 1)) none])])

/-- `matrix_scalar_div` (`llmlift_scripts/dsl.py` 104-109). -/
def pyMatrixScalarDiv : PyDef where
  name := "matrix_scalar_div"
  params := [("a", .int), ("matrix_x", .list (.list .int))]
  ret := .list (.list .int)
  body :=
    .ite (.cmp .lt (.call (.name "len") [.name "matrix_x"]) (.num 1)) (.list []) (.list [.call (.name "vec_scalar_div") [.name "a", .index (.name
    "matrix_x") (.num 0)], .starred (.call (.name "matrix_scalar_div") [.name "a", .slice (.name "matrix_x") (some (.num 1)) none])])

/-- `matrix_scalar_mul` (`llmlift_scripts/dsl.py` 112-117). -/
def pyMatrixScalarMul : PyDef where
  name := "matrix_scalar_mul"
  params := [("a", .int), ("matrix_x", .list (.list .int))]
  ret := .list (.list .int)
  body :=
    .ite (.cmp .lt (.call (.name "len") [.name "matrix_x"]) (.num 1)) (.list []) (.list [.call (.name "vec_scalar_mul") [.name "a", .index (.name
    "matrix_x") (.num 0)], .starred (.call (.name "matrix_scalar_mul") [.name "a", .slice (.name "matrix_x") (some (.num 1)) none])])

/-- `matrix_scalar_sub` (`llmlift_scripts/dsl.py` 120-125). -/
def pyMatrixScalarSub : PyDef where
  name := "matrix_scalar_sub"
  params := [("a", .int), ("matrix_x", .list (.list .int))]
  ret := .list (.list .int)
  body :=
    .ite (.cmp .lt (.call (.name "len") [.name "matrix_x"]) (.num 1)) (.list []) (.list [.call (.name "vec_scalar_sub") [.name "a", .index (.name
    "matrix_x") (.num 0)], .starred (.call (.name "matrix_scalar_sub") [.name "a", .slice (.name "matrix_x") (some (.num 1)) none])])

/-- `matrix_selection_two_args` (`llmlift_scripts/dsl.py` 128-140). -/
def pyMatrixSelectionTwoArgs : PyDef where
  name := "matrix_selection_two_args"
  params := [("matrix_x", .list (.list .int)), ("matrix_y", .list (.list .int)), ("select_two_args_arg", .callable .int [.int, .int])]
  ret := .list (.list .int)
  body :=
    .ite (.or (.cmp .lt (.call (.name "len") [.name "matrix_x"]) (.num 1)) (.not (.cmp .eq (.call (.name "len") [.name "matrix_x"]) (.call (.name
    "len") [.name "matrix_y"])))) (.list []) (.list [.call (.name "selection_two_args") [.index (.name "matrix_x") (.num 0), .index (.name
    "matrix_y") (.num 0), .name "select_two_args_arg"], .starred (.call (.name "matrix_selection_two_args") [.slice (.name "matrix_x") (some (.num
    1)) none, .slice (.name "matrix_y") (some (.num 1)) none, .name "select_two_args_arg"])])

/-- `matrix_transpose` (`llmlift_scripts/dsl.py` 143-144). -/
def pyMatrixTranspose : PyDef where
  name := "matrix_transpose"
  params := [("matrix", .list (.list .int))]
  ret := .list (.list .int)
  body :=
    .ite (.cmp .lt (.call (.name "len") [.name "matrix"]) (.num 1)) (.list []) (.list [.call (.name "firsts") [.name "matrix"], .starred (.call
    (.name "matrix_transpose") [.call (.name "rests") [.name "matrix"]])])

/-- `matrix_vec_mul` (`llmlift_scripts/dsl.py` 147-155). -/
def pyMatrixVecMul : PyDef where
  name := "matrix_vec_mul"
  params := [("matrix_x", .list (.list .int)), ("x", .list .int)]
  ret := .list .int
  body :=
    .ite (.or (.cmp .lt (.call (.name "len") [.name "matrix_x"]) (.num 1)) (.or (.cmp .lt (.call (.name "len") [.index (.name "matrix_x") (.num 0)])
    (.num 1)) (.not (.cmp .eq (.call (.name "len") [.index (.name "matrix_x") (.num 0)]) (.call (.name "len") [.name "x"]))))) (.list []) (.list
    [.call (.name "reduce_sum") [.call (.name "vec_elemwise_mul") [.index (.name "matrix_x") (.num 0), .name "x"]], .starred (.call (.name
    "matrix_vec_mul") [.slice (.name "matrix_x") (some (.num 1)) none, .name "x"])])

/-- `reduce_max` (`llmlift_scripts/dsl.py` 158-167). -/
def pyReduceMax : PyDef where
  name := "reduce_max"
  params := [("x", .list .int)]
  ret := .int
  body :=
    .ite (.cmp .lt (.call (.name "len") [.name "x"]) (.num 1)) (.bin .sub (.num 0) (.num 32)) (.ite (.cmp .eq (.call (.name "len") [.name "x"]) (.num
    1)) (.index (.name "x") (.num 0)) (.ite (.cmp .gt (.index (.name "x") (.num 0)) (.call (.name "reduce_max") [.slice (.name "x") (some (.num 1))
    none])) (.index (.name "x") (.num 0)) (.call (.name "reduce_max") [.slice (.name "x") (some (.num 1)) none])))

/-- `reduce_mul` (`llmlift_scripts/dsl.py` 170-171). -/
def pyReduceMul : PyDef where
  name := "reduce_mul"
  params := [("x", .list .int)]
  ret := .int
  body :=
    .ite (.cmp .lt (.call (.name "len") [.name "x"]) (.num 1)) (.num 1) (.bin .mul (.index (.name "x") (.num 0)) (.call (.name "reduce_mul") [.slice
    (.name "x") (some (.num 1)) none]))

/-- `reduce_sum` (`llmlift_scripts/dsl.py` 174-175). -/
def pyReduceSum : PyDef where
  name := "reduce_sum"
  params := [("x", .list .int)]
  ret := .int
  body :=
    .ite (.cmp .lt (.call (.name "len") [.name "x"]) (.num 1)) (.num 0) (.bin .add (.index (.name "x") (.num 0)) (.call (.name "reduce_sum") [.slice
    (.name "x") (some (.num 1)) none]))

/-- `rests` (`llmlift_scripts/dsl.py` 178-179). -/
def pyRests : PyDef where
  name := "rests"
  params := [("matrix", .list (.list .int))]
  ret := .list (.list .int)
  body :=
    .ite (.cmp .lt (.call (.name "len") [.name "matrix"]) (.num 1)) (.list []) (.call (.name "matrix_col_slice") [.name "matrix", .num 1, .call
    (.name "len") [.index (.name "matrix") (.num 0)]])

/-- `scalar_matrix_div` (`llmlift_scripts/dsl.py` 182-187). -/
def pyScalarMatrixDiv : PyDef where
  name := "scalar_matrix_div"
  params := [("a", .int), ("matrix_x", .list (.list .int))]
  ret := .list (.list .int)
  body :=
    .ite (.cmp .lt (.call (.name "len") [.name "matrix_x"]) (.num 1)) (.list []) (.list [.call (.name "scalar_vec_div") [.name "a", .index (.name
    "matrix_x") (.num 0)], .starred (.call (.name "scalar_matrix_div") [.name "a", .slice (.name "matrix_x") (some (.num 1)) none])])

/-- `scalar_matrix_sub` (`llmlift_scripts/dsl.py` 190-195). -/
def pyScalarMatrixSub : PyDef where
  name := "scalar_matrix_sub"
  params := [("a", .int), ("matrix_x", .list (.list .int))]
  ret := .list (.list .int)
  body :=
    .ite (.cmp .lt (.call (.name "len") [.name "matrix_x"]) (.num 1)) (.list []) (.list [.call (.name "scalar_vec_sub") [.name "a", .index (.name
    "matrix_x") (.num 0)], .starred (.call (.name "scalar_matrix_sub") [.name "a", .slice (.name "matrix_x") (some (.num 1)) none])])

/-- `scalar_vec_div` (`llmlift_scripts/dsl.py` 198-199). -/
def pyScalarVecDiv : PyDef where
  name := "scalar_vec_div"
  params := [("a", .int), ("x", .list .int)]
  ret := .list .int
  body :=
    .ite (.cmp .lt (.call (.name "len") [.name "x"]) (.num 1)) (.list []) (.list [.bin .floordiv (.name "a") (.index (.name "x") (.num 0)), .starred
    (.call (.name "scalar_vec_div") [.name "a", .slice (.name "x") (some (.num 1)) none])])

/-- `scalar_vec_sub` (`llmlift_scripts/dsl.py` 202-203). -/
def pyScalarVecSub : PyDef where
  name := "scalar_vec_sub"
  params := [("a", .int), ("x", .list .int)]
  ret := .list .int
  body :=
    .ite (.cmp .lt (.call (.name "len") [.name "x"]) (.num 1)) (.list []) (.list [.bin .sub (.name "a") (.index (.name "x") (.num 0)), .starred
    (.call (.name "scalar_vec_sub") [.name "a", .slice (.name "x") (some (.num 1)) none])])

/-- `selection_two_args` (`llmlift_scripts/dsl.py` 206-216). -/
def pySelectionTwoArgs : PyDef where
  name := "selection_two_args"
  params := [("x", .list .int), ("y", .list .int), ("select_two_args_arg", .callable .int [.int, .int])]
  ret := .list .int
  body :=
    .ite (.or (.cmp .lt (.call (.name "len") [.name "x"]) (.num 1)) (.not (.cmp .eq (.call (.name "len") [.name "x"]) (.call (.name "len") [.name
    "y"])))) (.list []) (.list [.call (.name "select_two_args_arg") [.index (.name "x") (.num 0), .index (.name "y") (.num 0)], .starred (.call
    (.name "selection_two_args") [.slice (.name "x") (some (.num 1)) none, .slice (.name "y") (some (.num 1)) none, .name "select_two_args_arg"])])

/-- `vec_elemwise_add` (`llmlift_scripts/dsl.py` 219-224). -/
def pyVecElemwiseAdd : PyDef where
  name := "vec_elemwise_add"
  params := [("x", .list .int), ("y", .list .int)]
  ret := .list .int
  body :=
    .ite (.or (.cmp .lt (.call (.name "len") [.name "x"]) (.num 1)) (.not (.cmp .eq (.call (.name "len") [.name "x"]) (.call (.name "len") [.name
    "y"])))) (.list []) (.list [.bin .add (.index (.name "x") (.num 0)) (.index (.name "y") (.num 0)), .starred (.call (.name "vec_elemwise_add")
    [.slice (.name "x") (some (.num 1)) none, .slice (.name "y") (some (.num 1)) none])])

/-- `vec_elemwise_div` (`llmlift_scripts/dsl.py` 227-232). -/
def pyVecElemwiseDiv : PyDef where
  name := "vec_elemwise_div"
  params := [("x", .list .int), ("y", .list .int)]
  ret := .list .int
  body :=
    .ite (.or (.cmp .lt (.call (.name "len") [.name "x"]) (.num 1)) (.not (.cmp .eq (.call (.name "len") [.name "x"]) (.call (.name "len") [.name
    "y"])))) (.list []) (.list [.bin .floordiv (.index (.name "x") (.num 0)) (.index (.name "y") (.num 0)), .starred (.call (.name
    "vec_elemwise_div") [.slice (.name "x") (some (.num 1)) none, .slice (.name "y") (some (.num 1)) none])])

/-- `vec_elemwise_mul` (`llmlift_scripts/dsl.py` 235-240). -/
def pyVecElemwiseMul : PyDef where
  name := "vec_elemwise_mul"
  params := [("x", .list .int), ("y", .list .int)]
  ret := .list .int
  body :=
    .ite (.or (.cmp .lt (.call (.name "len") [.name "x"]) (.num 1)) (.not (.cmp .eq (.call (.name "len") [.name "x"]) (.call (.name "len") [.name
    "y"])))) (.list []) (.list [.bin .mul (.index (.name "x") (.num 0)) (.index (.name "y") (.num 0)), .starred (.call (.name "vec_elemwise_mul")
    [.slice (.name "x") (some (.num 1)) none, .slice (.name "y") (some (.num 1)) none])])

/-- `vec_elemwise_sub` (`llmlift_scripts/dsl.py` 243-248). -/
def pyVecElemwiseSub : PyDef where
  name := "vec_elemwise_sub"
  params := [("x", .list .int), ("y", .list .int)]
  ret := .list .int
  body :=
    .ite (.or (.cmp .lt (.call (.name "len") [.name "x"]) (.num 1)) (.not (.cmp .eq (.call (.name "len") [.name "x"]) (.call (.name "len") [.name
    "y"])))) (.list []) (.list [.bin .sub (.index (.name "x") (.num 0)) (.index (.name "y") (.num 0)), .starred (.call (.name "vec_elemwise_sub")
    [.slice (.name "x") (some (.num 1)) none, .slice (.name "y") (some (.num 1)) none])])

/-- `vec_map` (`llmlift_scripts/dsl.py` 251-252). -/
def pyVecMap : PyDef where
  name := "vec_map"
  params := [("x", .list .int), ("map_int_to_int", .callable .int [.int])]
  ret := .list .int
  body :=
    .ite (.cmp .lt (.call (.name "len") [.name "x"]) (.num 1)) (.list []) (.list [.call (.name "map_int_to_int") [.index (.name "x") (.num 0)],
    .starred (.call (.name "vec_map") [.slice (.name "x") (some (.num 1)) none, .name "map_int_to_int"])])

/-- `vec_scalar_add` (`llmlift_scripts/dsl.py` 255-256). -/
def pyVecScalarAdd : PyDef where
  name := "vec_scalar_add"
  params := [("a", .int), ("x", .list .int)]
  ret := .list .int
  body :=
    .ite (.cmp .lt (.call (.name "len") [.name "x"]) (.num 1)) (.list []) (.list [.bin .add (.name "a") (.index (.name "x") (.num 0)), .starred
    (.call (.name "vec_scalar_add") [.name "a", .slice (.name "x") (some (.num 1)) none])])

/-- `vec_scalar_div` (`llmlift_scripts/dsl.py` 259-260). -/
def pyVecScalarDiv : PyDef where
  name := "vec_scalar_div"
  params := [("a", .int), ("x", .list .int)]
  ret := .list .int
  body :=
    .ite (.cmp .lt (.call (.name "len") [.name "x"]) (.num 1)) (.list []) (.list [.bin .floordiv (.index (.name "x") (.num 0)) (.name "a"), .starred
    (.call (.name "vec_scalar_div") [.name "a", .slice (.name "x") (some (.num 1)) none])])

/-- `vec_scalar_mul` (`llmlift_scripts/dsl.py` 263-264). -/
def pyVecScalarMul : PyDef where
  name := "vec_scalar_mul"
  params := [("a", .int), ("x", .list .int)]
  ret := .list .int
  body :=
    .ite (.cmp .lt (.call (.name "len") [.name "x"]) (.num 1)) (.list []) (.list [.bin .mul (.name "a") (.index (.name "x") (.num 0)), .starred
    (.call (.name "vec_scalar_mul") [.name "a", .slice (.name "x") (some (.num 1)) none])])

/-- `vec_scalar_sub` (`llmlift_scripts/dsl.py` 267-268). -/
def pyVecScalarSub : PyDef where
  name := "vec_scalar_sub"
  params := [("a", .int), ("x", .list .int)]
  ret := .list .int
  body :=
    .ite (.cmp .lt (.call (.name "len") [.name "x"]) (.num 1)) (.list []) (.list [.bin .sub (.index (.name "x") (.num 0)) (.name "a"), .starred
    (.call (.name "vec_scalar_sub") [.name "a", .slice (.name "x") (some (.num 1)) none])])

/-- `vec_slice` (`llmlift_scripts/dsl.py` 271-272). -/
def pyVecSlice : PyDef where
  name := "vec_slice"
  params := [("lst", .list .int), ("start", .int), ("end", .int)]
  ret := .list .int
  body :=
    .slice (.slice (.name "lst") none (some (.name "end"))) (some (.name "start")) none

/-- The module. -/
def dslModule : List PyDef :=
  [pyFirsts, pyIntegerExp, pyIntegerSqrt, pyIntegerSqrtHelper, pyIteInt, pyMatrixColSlice, pyMatrixElemwiseAdd, pyMatrixElemwiseDiv,
  pyMatrixElemwiseMul, pyMatrixElemwiseSub, pyMatrixRowSlice, pyMatrixScalarAdd, pyMatrixScalarDiv, pyMatrixScalarMul, pyMatrixScalarSub,
  pyMatrixSelectionTwoArgs, pyMatrixTranspose, pyMatrixVecMul, pyReduceMax, pyReduceMul, pyReduceSum, pyRests, pyScalarMatrixDiv, pyScalarMatrixSub,
  pyScalarVecDiv, pyScalarVecSub, pySelectionTwoArgs, pyVecElemwiseAdd, pyVecElemwiseDiv, pyVecElemwiseMul, pyVecElemwiseSub, pyVecMap,
  pyVecScalarAdd, pyVecScalarDiv, pyVecScalarMul, pyVecScalarSub, pyVecSlice]

end Metalift.Ten
