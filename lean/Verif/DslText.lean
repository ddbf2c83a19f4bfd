import Verif.PyModule
import Verif.ToPython
import Verif.ListObj
/-
Model of the Python text of function declarations (`FnDecl.to_python`, `FnDeclRecursive.to_python` in `metalift/ir.py`) and of the text of the target
language that is put into the prompts and into `dsl.py` (`llmlift_scripts/synthesis.py` 371).

As in `Verif.ToPython` the text is modelled as its list of tokens, and names are assumed to be Python identifiers that are not keywords.  What
`check_solution` (`llmlift_scripts/parser.py` 522-532) does to the text before it writes it to `dsl.py` (imports in front, removal of comments,
`dedent`) changes nothing: the text has no comments, no strings, and its first line is not indented.
-/
namespace Metalift

open Py (Tok DTok)

mutual
/-- `to_python_type_str` (`metalift/ir.py`): `Bool` 899-900, `Int` 1044-1045, `List` 1304-1309, `Matrix` 1520-1526, `Fn` 1822-1832; the other classes inherit
the method of `Object` (828-830), which raises.  Matrices have the type of lists of lists here, as in the type that `List.__init__` records. -/
def Ty.pyText : Ty → Option (List Tok)
  | .int => some [.name "int"]
  | .bool => some [.name "bool"]
  | .list t => do
    let s ← t.pyText
    some (.name "List" :: .lbr :: (s ++ [.rbr]))
  | .fn (r :: as) => do
    let r ← r.pyText
    let as ← Ty.pyTexts as
    some (.name "Callable" :: .lbr :: .lbr :: (joinToks .comma as ++ .rbr :: .comma :: (r ++ [.rbr])))
  | _ => none
@[inherit_doc Ty.pyText] def Ty.pyTexts : List Ty → Option (List (List Tok))
  | [] => some []
  | t :: ts => do
    let s ← t.pyText
    let ss ← Ty.pyTexts ts
    some (s :: ss)
end

/-- `to_python_type_str` of the classes of objects: `Tensor3D` (1546) inherits the method of `List` (1304-1309), whose `type_args[0]` is the type of
the numbers, not of the elements of the list. -/
def OTy.pyText : OTy → Option (List Tok)
  | .int => some [.name "int"]
  | .bool => some [.name "bool"]
  | .list t => do
    let s ← t.pyText
    some (.name "List" :: .lbr :: (s ++ [.rbr]))
  | .matrix t => do
    let s ← t.pyText
    some (.name "List" :: .lbr :: .name "List" :: .lbr :: (s ++ [.rbr, .rbr]))
  | .tensor3d t => do
    let s ← t.pyText
    some (.name "List" :: .lbr :: (s ++ [.rbr]))
  | .fn n => (Ty.fn (List.replicate (n + 1) .int)).pyText

/-- One parameter (3101-3105, 3246-3250). -/
def paramText (p : String × Ty) : Option (List Tok) := p.2.pyText.map fun t => .name p.1 :: .colon :: t

/-- `[f(p) for p in ps]`, where `f` may raise. -/
def paramTexts : List (String × Ty) → Option (List (List Tok))
  | [] => some []
  | p :: ps => do
    let t ← paramText p
    let ts ← paramTexts ps
    some (t :: ts)

/-- `FnDeclRecursive.to_python` (`metalift/ir.py` 3100-3112) and `FnDecl.to_python` (3245-3257), which are the same; a declaration without
body raises (`None.to_python()`). -/
def FnDecl.pyText (d : FnDecl) : Option (List DTok) := do
  let ps ← paramTexts d.params
  let r ← d.ret.pyText
  let b ← d.body
  let e ← b.toPython
  some (.kdef :: .tok (.name d.name) :: .tok .lpar :: ((joinToks .comma ps).map .tok ++ .tok .rpar :: .arrow :: (r.map .tok ++ .tok .colon ::
    .newline :: .indent :: .kreturn :: e.map .tok)))

/-- `"\n\n".join(fn.to_python() for fn in dsl_fns)` (`llmlift_scripts/synthesis.py` 371). -/
def dslCode : List FnDecl → Option (List DTok)
  | [] => some []
  | [d] => d.pyText
  | d :: ds => do
    let t ← d.pyText
    let ts ← dslCode ds
    some (t ++ .newline :: .newline :: ts)

end Metalift
