import Verif.HoleSpace
/-
Model of the general search spaces for matrix programs, which are built from a depth instead of a hole:
`metalift/utils/tenspiler/tenspiler_common.py` 1160-1261 (`get_matrix_computation_general_search_space`), 1363-1483
(`get_matrix_select_general_search_space`), 1753-1887 (`get_dissolve_general_search_space`) and 2099-2102 (`get_map_int_to_int_synth`).
The parameter `relaxed` of the grammars is a parameter of the space; the driver objects, to which only variables are added, are left out.
-/
namespace Metalift.Ten
open Metalift

/-- `get_map_int_to_int_synth()` (2099-2102) with the default bodies. -/
def mapSynth : String × List String × Option Obj :=
  ("map_int_to_int", ["int_x"], chooseObj [callIntegerExp intX, callIntegerSqrt intX])

/-- `matrix[i:i].col_slice(i, i)` (1194, 1223, 1251; 1417, 1446, 1471; 1806, 1835, 1876). -/
def sliced (matrix i : Obj) : Option Obj :=
  (matrix.getitem (.slice (some i) (some i) false)).map fun rows => rows.colSlice i i

/-- `choose(matrix, matrix.transpose())` after the slices (1195, 1224, 1252; 1418, 1447; 1807, 1836). -/
def slicedOrTransposed (matrix i : Obj) : Option Obj :=
  (sliced matrix i).bind fun m => chooseObj [m, m.transpose]

/-- `get_matrix_computation_general_search_space(depth, int_vars, relaxed)` (1160-1261): the variables are taken by position. -/
def generalComputation (depth : Nat) (intVars : List Obj) (relaxed : Bool) : Space where
  inv0
    | [out, _col, _pixel, row, _rowVec], [base, active] => do
      let intVar ← maybeRelaxed (← chooseObj ([.int 0, base.len, row] ++ intVars)) relaxed
      let i ← intBelow intVar depth
      let matrix ← chooseObj [base, active]
      let m ← slicedOrTransposed matrix i
      andObjs [row.ge (← maybeRelaxed (.int 0) relaxed), row.le (← maybeRelaxed base.len relaxed),
        out.listEq (← tensorBelow m intVar none depth)]
    | _, _ => none
  inv1
    | [col, _pixel, rowVec], [base, active], [out, row] => do
      let row0 ← base.getitem (.at (.int 0))
      let intVar ← maybeRelaxed (← chooseObj ([.int 0, base.len, row0.len, row, col] ++ intVars)) relaxed
      let i ← intBelow intVar depth
      let matrix ← chooseObj [base, active]
      let m ← slicedOrTransposed matrix i
      let vec ← m.getitem (.at i)
      andObjs [row.ge (.int 0), row.le base.len, col.ge (.int 0), col.le row0.len,
        rowVec.listEq (← tensorBelow vec intVar (some m) depth), out.listEq (← tensorBelow m intVar none depth)]
    | _, _, _ => none
  ps
    | ret :: _, [base, active] => do
      let matrix ← chooseObj [base, active]
      let row0 ← base.getitem (.at (.int 0))
      let intVar ← maybeRelaxed (← chooseObj ([.int 0, base.len, row0.len] ++ intVars)) relaxed
      let i ← intBelow intVar depth
      let m ← slicedOrTransposed matrix i
      some (ret.listEq (← tensorBelow m intVar none depth))
    | _, _ => none
  synths := [mapSynth]

/-- The common text of the inner invariants for selections (1430-1463, 1831-1863): `tensor` and `vector` build the right-hand sides, `i`
is the index of the slices. -/
def generalInv1 (tensor vector : Obj → Obj) (i col rowVec out row base active row0 : Obj) (relaxed : Bool) : Option Obj := do
  let matrix ← chooseObj [base, active]
  let m ← slicedOrTransposed matrix i
  let vec ← m.getitem (.at i)
  andObjs [row.ge (← maybeRelaxed (.int 0) relaxed), row.le (← maybeRelaxed base.len relaxed),
    col.ge (← maybeRelaxed (.int 0) relaxed), col.le (← maybeRelaxed row0.len relaxed), rowVec.listEq (vector vec), out.listEq (tensor m)]

/-- `get_matrix_select_general_search_space(driver, depth, cons, relaxed)` (1363-1483): the variables are taken by name. -/
def generalSelect (depth : Nat) (cons : List Obj) (relaxed : Bool) : Space where
  inv0 writes reads := do
    let out ← byName writes "agg.result"
    let _col ← byName writes "col"
    let row ← byName writes "row"
    let base ← byName reads "base"
    let active ← byName reads "active"
    let matrix ← chooseObj [base, active]
    let row0 ← base.getitem (.at (.int 0))
    let intVar ← maybeRelaxed (← chooseObj [.int 0, base.len, row0.len, row]) relaxed
    let i ← intBelow intVar depth
    let m ← slicedOrTransposed matrix i
    andObjs [row.ge (← maybeRelaxed (.int 0) relaxed), row.le (← maybeRelaxed base.len relaxed),
      out.listEq (call "matrix_selection_two_args" (.matrix .int) [m, m, selectFn])]
  inv1 writes reads scope := do
    let col ← byName writes "col"
    let rowVec ← byName writes "row_vec"
    let out ← byName scope "agg.result"
    let row ← byName scope "row"
    let base ← byName reads "base"
    let active ← byName reads "active"
    let row0 ← base.getitem (.at (.int 0))
    let intVar ← maybeRelaxed (← chooseObj [.int 0, base.len, row0.len, row, col]) relaxed
    let i ← intBelow intVar depth
    generalInv1 (fun m => call "matrix_selection_two_args" (.matrix .int) [m, m, selectFn])
      (fun v => call "selection_two_args" (.list .int) [v, v, selectFn]) i col rowVec out row base active row0 relaxed
  ps writes reads := do
    let ret ← writes.head?
    let base ← byName reads "base"
    let active ← byName reads "active"
    let row0 ← base.getitem (.at (.int 0))
    let intVar ← maybeRelaxed (← chooseObj [.int 0, base.len, row0.len]) relaxed
    let i ← intBelow intVar depth
    let matrix ← chooseObj [base, active]
    let matrix ← chooseObj [matrix, matrix.transpose]
    let m ← sliced matrix i
    some (ret.listEq (call "matrix_selection_two_args" (.matrix .int) [m, m, selectFn]))
  synths := [("select_two_args", ["int_x", "int_y"], (chooseObj ([intX, intY] ++ cons)).bind fun v => condBelow v depth), mapSynth]

/-- `get_dissolve_general_search_space(driver, depth, relaxed)` (1753-1887). -/
def generalDissolve (depth : Nat) (relaxed : Bool) : Space where
  inv0 writes reads := do
    let out ← byName writes "agg.result"
    let _col ← byName writes "col"
    let row ← byName writes "row"
    let base ← byName reads "base"
    let active ← byName reads "active"
    let op ← byName reads "opacity"
    let rc ← byName reads "rand_cons"
    let matrix ← chooseObj [base, active]
    let i ← maybeRelaxed (← chooseObj [.int 0, base.len, row]) relaxed
    let m ← slicedOrTransposed matrix i
    andObjs [row.ge (← maybeRelaxed (.int 0) relaxed), row.le (← maybeRelaxed base.len relaxed),
      out.listEq (call "dissolve_matrix_selection_two_args" (.matrix .int) [m, m, op, rc, dissolveSelectFn])]
  inv1 writes reads scope := do
    let col ← byName writes "col"
    let rowVec ← byName writes "row_vec"
    let out ← byName scope "agg.result"
    let row ← byName scope "row"
    let base ← byName reads "base"
    let active ← byName reads "active"
    let op ← byName reads "opacity"
    let rc ← byName reads "rand_cons"
    let row0 ← base.getitem (.at (.int 0))
    let i ← maybeRelaxed (← chooseObj [.int 0, base.len, row0.len, row, col]) relaxed
    generalInv1 (fun m => call "dissolve_matrix_selection_two_args" (.matrix .int) [m, m, op, rc, dissolveSelectFn])
      (fun v => call "dissolve_selection_two_args" (.list .int) [v, v, op, rc, dissolveSelectFn]) i col rowVec out row base active row0
      relaxed
  ps writes reads := do
    let ret ← writes.head?
    let base ← byName reads "base"
    let active ← byName reads "active"
    let op ← byName reads "opacity"
    let rc ← byName reads "rand_cons"
    let row0 ← base.getitem (.at (.int 0))
    let i ← maybeRelaxed (← chooseObj [.int 0, base.len, row0.len]) relaxed
    let matrix ← chooseObj [base, active]
    let matrix ← chooseObj [matrix, matrix.transpose]
    let m ← sliced matrix i
    some (ret.listEq (call "dissolve_matrix_selection_two_args" (.matrix .int) [m, m, op, rc, dissolveSelectFn]))
  synths := [("dissolve_select_two_args", ["int_x", "int_y", "opacity", "rand_cons"],
    (chooseObj [intX, intY, opacity, randCons]).bind fun v => intBelow v depth), mapSynth]

end Metalift.Ten
