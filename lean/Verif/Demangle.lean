import Verif.PyRegex
/-
Model of how the LLVM front end finds out which function an instruction calls, and which kind of vector a library function works on
(`metalift/frontend/llvm.py` 54-57, 177-290, 475-492, 625-648).

`c++filt` is a function on texts; its result has no white space at the ends (`strip`, 629).
-/
namespace Metalift
namespace Ll
open Regex

/-- `[a-zA-Z0-9_]`. -/
def isWord (c : Char) : Bool := c.isAlphanum || c = '_'

/-- `^([a-zA-Z0-9_]+)(\(.*\))?$` (637). -/
def plainRe : Re := .cat [.grp 1 (.plus (.cls isWord)), .opt (.grp 2 (.cat [.lit ['('], .star .any, .lit [')']])), .eoi]

/-- `~?[a-zA-Z0-9_]+(\[\])?` (642). -/
def nameRe : Re := .cat [.opt (.lit ['~']), .plus (.cls isWord), .opt (.grp 4 (.lit ['[', ']']))]

/-- `^(.* )?(.*::)*(~?[a-zA-Z0-9_]+(\[\])?)(<.*>)?\(.*\)( const)?$` (642). -/
def qualRe : Re :=
  .cat [.opt (.grp 1 (.cat [.star .any, .lit [' ']])), .star (.grp 2 (.cat [.star .any, .lit [':', ':']])), .grp 3 nameRe,
    .opt (.grp 5 (.cat [.lit ['<'], .star .any, .lit ['>']])), .lit ['('], .star .any, .lit [')'], .opt (.grp 6 (.lit " const".toList)), .eoi]

/-- `get_demangled_fn_name` (633-648) after `c++filt`; `none` is the result `None`. -/
def demangledFnName (full : String) : Option String :=
  match plainRe.exec full with
  | some k => group k 1
  | none => match qualRe.exec full with
    | some k => group k 3
    | none => none

/-- The part of a text after the last occurrence of a character: `s.split(c)[-1]`. -/
def afterLast (c : Char) (s : List Char) : List Char := (s.reverse.takeWhile (· ≠ c)).reverse

/-- `get_fn_name_from_call_instruction` (481-492): `raw` is the name of the last operand, `text` its text; `none` is an exception. -/
def callName (filt : String → String) (raw text : String) : Option String :=
  if raw = "" then some (String.ofList ((afterLast '@' text.toList).takeWhile (· ≠ ' '))) else demangledFnName (filt raw)

/-- The keys of `fn_models` (385-409). -/
def fnModels : List String :=
  ["newList", "listLength", "listAppend", "listGet", "vector", "size", "push_back", "operator[]", "getField", "setField", "set_create", "set_add", "set_remove",
    "set_contains", "MakeTuple", "tupleGet", "integer_sqrt", "integer_exp"]

/-- What `visit_call_instruction` does with a name (1456-1487). -/
inductive CallKind where
  | model (f : String)
  | uninterpreted (f : String)
  /-- the instruction is skipped -/
  | ignored
deriving DecidableEq, Repr

/-- The choice in `visit_call_instruction` (1456, 1477-1480). -/
def callKind (uninterp : List String) (f : String) : CallKind :=
  if f ∈ fnModels then .model f
  else if f ∈ uninterp ∨ f ∈ ["integer-sqrt-noerr", "integer-exp-noerr"] then .uninterpreted f
  else .ignored

/-! ### Vectors -/

/-- `PRIMITIVE_TYPE_REGEX` (54). -/
def primRe : Re := .plus (.cls Char.isAlpha)

/-- `PRIMITIVE_VECTOR_TYPE_REGEX` (55), without the numbers of groups, which are not used. -/
def vecRe : Re := .cat [.lit "std::__1::vector<".toList, primRe, .lit ", std::__1::allocator<".toList, primRe, .lit "> >".toList]

/-- `NESTED_VECTOR_TYPE_REGEX` (56) and `DOUBLE_NESTED_VECTOR_TYPE_REGEX` (57). -/
def nestRe (r : Re) : Re := .cat [.lit "std::__1::vector<".toList, r, .lit ", std::__1::allocator<".toList, r, .lit " > >".toList]

/-- The kinds of vectors. -/
inductive VecKind where
  | list | matrix | tensor3d
deriving DecidableEq, Repr

/-- A test `re.match(rf"{r}::member\(\)", full)`. -/
def memberMatch (r : Re) (member full : String) : Bool := ((Re.seq r (.lit ("::" ++ member ++ "()").toList)).exec full).isSome

/-- The kind of vector from the full name of a member function (184-204, 248-271); `none` is an exception. -/
def vecKind (member full : String) : Option VecKind :=
  if memberMatch vecRe member full then some .list
  else if memberMatch (nestRe vecRe) member full then some .matrix
  else if memberMatch (nestRe (nestRe vecRe)) member full then some .tensor3d
  else none

end Ll
end Metalift
