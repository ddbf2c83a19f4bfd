import Verif.DepthGrammar
/-
Model of the search spaces with a hole for matrix programs: `metalift/utils/tenspiler/tenspiler_common.py` 469-520 (the bodies),
1264-1360 (`get_matrix_computation_holing_search_space`), 1486-1607 (`get_matrix_select_holing_search_space`), 1610-1750
(`get_dissolve_holing_search_space`), 2091-2096 (`get_select_synth_from_hole`) and 2159-2166 (`get_no_arg_bool_fn`).
The parameters `in_scope` and `relaxed` are passed where they are used; the driver objects, to which only variables are added, are left out.
-/
namespace Metalift.Ten
open Metalift

/-! ### The bodies for computations (469-495), for a vector or a matrix -/

/-- `multiply_blend_8_hole_body` (469-471). -/
def multiplyHole (m : Obj) : Option Obj := do
  let cons ← chooseObj [.int 32]
  some (scalarDiv cons (elemwiseMul m m))

/-- `linear_burn_8_hole_body` (474-476). -/
def linearBurnHole (m : Obj) : Option Obj := do
  let cons ← chooseObj [.int 32]
  some (scalarSub cons (elemwiseAdd m m))

/-- `screen_blend_8_hole_body` (479-484). -/
def screenHole (m : Obj) : Option Obj := do
  let cons ← chooseObj [.int 32]
  some (elemwiseSub (elemwiseAdd m m) (scalarDiv cons (elemwiseMul m m)))

/-- `linear_dodge_8_hole_body` (487-488). -/
def linearDodgeHole (m : Obj) : Option Obj := some (elemwiseAdd m m)

/-! ### The bodies for selections (491-520), for an integer -/

/-- `dissolve_blend_8_hole_body` (492-495). -/
def dissolveHole (v : Obj) : Option Obj := do
  let cons ← chooseObj [.int 0, .int 1, .int 100]
  let v ← chooseObj [v, ((v.mod cons).add cons).div cons]
  some (ite' ((v.sub v).ge cons) v v)

/-- `darken_blend_8_hole_body` (498-499). -/
def darkenHole (v : Obj) : Option Obj := some (ite' (v.gt v) v v)

/-- `color_burn_8_hole_body` (502-504). -/
def colorBurnHole (v : Obj) : Option Obj := do
  let cons ← chooseObj [.int 0, .int 32]
  some (ite' (v.eq cons) cons (cons.sub ((cons.sub v).div v)))

/-- `lighten_blend_8_hole_body` (507-508). -/
def lightenHole (v : Obj) : Option Obj := some (ite' (v.lt v) v v)

/-- `color_dodge_8_hole_body` (511-513). -/
def colorDodgeHole (v : Obj) : Option Obj := do
  let cons ← chooseObj [.int 32]
  some (ite' (v.eq cons) cons (v.div (cons.sub v)))

/-- `overlay_blend_8_hole_body` (516-522). Python's `*` and `//` associate to the left. -/
def overlayHole (v : Obj) : Option Obj := do
  let cons ← chooseObj [.int 2, .int 16, .int 32]
  some (ite' (v.ge cons)
    ((((cons.mul v).add v).sub (((cons.mul v).mul v).div cons)).sub cons)
    (((cons.mul v).mul v).div cons))

/-- `get_select_synth_from_hole` (2091-2096): the body of the function to be found for `select_two_args`. -/
def selectSynth (hole : Obj → Option Obj) : Option Obj := do
  let v ← chooseObj [intX, intY]
  hole v

/-- The body of the function to be found for `dissolve_select_two_args` (1618-1626). -/
def dissolveSynth : Option Obj := do
  let v ← chooseObj [intX, intY, opacity, randCons]
  dissolveHole v

/-! ### The three search spaces -/

/-- `is_outer_loop_index_first()`: the call built by `get_no_arg_bool_fn("OUTER_LOOP_INDEX_FIRST")` (1273-1278, 2163-2164). -/
def outerFirst : Obj := call "OUTER_LOOP_INDEX_FIRST" .bool []

/-- The part of the matrix that the outer loop has processed: `matrix = choose(base, active)` (given), the `ite` and the choice of the
transposed matrix (1303-1308, 1326-1331; the same in the other two spaces). -/
def outerPart (matrix row : Obj) : Option Obj := do
  let rows ← matrix.getitem (.slice none (some row) false)
  let m := ite' outerFirst rows (matrix.colSlice (.int 0) row)
  chooseObj [m, m.transpose]

/-- The part of the vector that the inner loop has processed (1332-1336). -/
def innerPart (matrix row col : Obj) : Option Obj := do
  let v ← matrix.getitem (.at row)
  let v ← v.getitem (.slice none (some col) false)
  let cols ← matrix.getitem (.slice none (some col) false)
  let w ← cols.colVec row
  some (ite' outerFirst v w)

/-- The common text of the three `inv0_grammar_fn` (1293-1313, 1516-1542, 1649-1677); `tensor` builds the right-hand side from the
matrix. -/
def inv0Body (tensor : Obj → Option Obj) (out row base active : Obj) : Option Obj := do
  let matrix ← chooseObj [base, active]
  let m ← outerPart matrix row
  andObjs [row.ge (.int 0), row.le base.len, out.listEq (← tensor m)]

/-- The common text of the three `inv1_grammar_fn` (1315-1344, 1544-1587, 1679-1731). -/
def inv1Body (tensor vector : Obj → Option Obj) (col rowVec out row base active : Obj) : Option Obj := do
  let matrix ← chooseObj [base, active]
  let m ← outerPart matrix row
  let v ← innerPart matrix row col
  let row0 ← base.getitem (.at (.int 0))
  andObjs [row.ge (.int 0), row.le base.len, col.ge (.int 0), col.le row0.len, rowVec.listEq (← vector v), out.listEq (← tensor m)]

/-- The common text of the three `ps_grammar_fn` (1346-1356, 1589-1603, 1733-1746). -/
def psBody (tensor : Obj → Option Obj) (ret base active : Obj) : Option Obj := do
  let matrix ← chooseObj [base, active]
  let m ← chooseObj [matrix, matrix.transpose]
  some (ret.listEq (← tensor m))

/-- A search space: the grammars of the outer invariant, of the inner invariant (with the variables in scope) and of the result, and the
functions to be found (`fns_synths`): name, parameters and grammar of the body. -/
structure Space where
  inv0 : List Obj → List Obj → Option Obj
  inv1 : List Obj → List Obj → List Obj → Option Obj
  ps : List Obj → List Obj → Option Obj
  synths : List (String × List String × Option Obj)

/-- `outer_loop_index_first_synth` (2161). -/
def outerFirstSynth : String × List String × Option Obj := ("OUTER_LOOP_INDEX_FIRST", [], noArgBool)

/-- `get_matrix_computation_holing_search_space(hole_body)` (1264-1360): the variables are taken by position. -/
def computationSpace (hole : Obj → Option Obj) : Space where
  inv0
    | [out, _col, _pixel, row, _rowVec], [base, active] => inv0Body hole out row base active
    | _, _ => none
  inv1
    | [col, _pixel, rowVec], [base, active], [out, row] => inv1Body hole hole col rowVec out row base active
    | _, _, _ => none
  ps
    | ret :: _, [base, active] => psBody hole ret base active
    | _, _ => none
  synths := [outerFirstSynth]

/-- `{v.var_name(): v for v in vars}[name]` (1518-1524): the last object with the name; `none` when there is none. -/
def byName (vars : List Obj) (name : String) : Option Obj :=
  vars.reverse.find? (fun o => match o.src with | .var n _ => n == name | _ => false)

/-- The function objects `select_two_args_fn_obj` (525) and `dissolve_select_two_args_fn_obj` (532-534). -/
def selectFn : Obj := .var "select_two_args" (.fn 2)
@[inherit_doc selectFn] def dissolveSelectFn : Obj := .var "dissolve_select_two_args" (.fn 4)

/-- `get_matrix_select_holing_search_space(driver, hole_body)` (1486-1607): the variables are taken by name. -/
def selectSpace (hole : Obj → Option Obj) : Space where
  inv0 writes reads := do
    let out ← byName writes "agg.result"
    let _col ← byName writes "col"
    let row ← byName writes "row"
    let base ← byName reads "base"
    let active ← byName reads "active"
    inv0Body (fun m => some (call "matrix_selection_two_args" (.matrix .int) [m, m, selectFn])) out row base active
  inv1 writes reads scope := do
    let col ← byName writes "col"
    let rowVec ← byName writes "row_vec"
    let out ← byName scope "agg.result"
    let row ← byName scope "row"
    let base ← byName reads "base"
    let active ← byName reads "active"
    inv1Body (fun m => some (call "matrix_selection_two_args" (.matrix .int) [m, m, selectFn]))
      (fun v => some (call "selection_two_args" (.list .int) [v, v, selectFn])) col rowVec out row base active
  ps writes reads := do
    let ret ← writes.head?
    let base ← byName reads "base"
    let active ← byName reads "active"
    psBody (fun m => some (call "matrix_selection_two_args" (.matrix .int) [m, m, selectFn])) ret base active
  synths := [("select_two_args", ["int_x", "int_y"], selectSynth hole), outerFirstSynth]

/-- `get_dissolve_holing_search_space(driver)` (1610-1750). -/
def dissolveSpace : Space where
  inv0 writes reads := do
    let out ← byName writes "agg.result"
    let _col ← byName writes "col"
    let row ← byName writes "row"
    let base ← byName reads "base"
    let active ← byName reads "active"
    let op ← byName reads "opacity"
    let rc ← byName reads "rand_cons"
    inv0Body (fun m => some (call "dissolve_matrix_selection_two_args" (.matrix .int) [m, m, op, rc, dissolveSelectFn])) out row base active
  inv1 writes reads scope := do
    let col ← byName writes "col"
    let rowVec ← byName writes "row_vec"
    let out ← byName scope "agg.result"
    let row ← byName scope "row"
    let base ← byName reads "base"
    let active ← byName reads "active"
    let op ← byName reads "opacity"
    let rc ← byName reads "rand_cons"
    inv1Body (fun m => some (call "dissolve_matrix_selection_two_args" (.matrix .int) [m, m, op, rc, dissolveSelectFn]))
      (fun v => some (call "dissolve_selection_two_args" (.list .int) [v, v, op, rc, dissolveSelectFn])) col rowVec out row base active
  ps writes reads := do
    let ret ← writes.head?
    let base ← byName reads "base"
    let active ← byName reads "active"
    let op ← byName reads "opacity"
    let rc ← byName reads "rand_cons"
    psBody (fun m => some (call "dissolve_matrix_selection_two_args" (.matrix .int) [m, m, op, rc, dissolveSelectFn])) ret base active
  synths := [("dissolve_select_two_args", ["int_x", "int_y", "opacity", "rand_cons"], dissolveSynth), outerFirstSynth]

end Metalift.Ten
