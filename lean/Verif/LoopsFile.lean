import Verif.SynthLoop
/-
Model of `parse_loops` (`metalift/frontend/llvm.py` 495-552), which reads the loops of a function from what LLVM's loop analysis printed.
(`parseLoops` in `metalift/analysis.py` 106-161 is the same up to the header, which it keeps as a list.)

Simplifications: white space and digits are ASCII; in the name of the function, which is used as a regular expression, `.` stands for any
character and `$` matches nothing (it only matches at the end); names with other characters that are special in regular expressions are not covered.
-/
namespace Metalift
namespace Ll

/-- `RawLoopInfo` (`metalift/frontend/llvm.py` 415-423). -/
structure RawLoop where
  header : String
  body : List String
  exits : List String
  latches : List String
deriving DecidableEq, Repr

/-- `f.readlines()`. -/
def readlines : List Char → List (List Char)
  | [] => []
  | c :: cs =>
    if c = '\n' then ['\n'] :: readlines cs
    else match readlines cs with
      | [] => [[c]]
      | l :: ls => (c :: l) :: ls

/-- The rest after a prefix. -/
def dropPre : List Char → List Char → Option (List Char)
  | [], l => some l
  | _ :: _, [] => none
  | c :: cs, d :: ds => if c = d then dropPre cs ds else none

/-- `l.strip()`. -/
def stripL (l : List Char) : List Char := ((l.dropWhile isSpaceChar).reverse.dropWhile isSpaceChar).reverse

/-- The text before the name of a function (501). -/
def analysisOf : List Char := "Printing analysis 'Natural Loop Information' for function '".toList

/-- The rest after a match of the name, taken as a regular expression (502). -/
def matchName : List Char → List Char → Option (List Char)
  | [], l => some l
  | _ :: _, [] => none
  | c :: cs, d :: ds => if (c = '.' ∧ d ≠ '\n') ∨ (c = d ∧ c ≠ '$') then matchName cs ds else none

/-- The line starts the part for the function (500-504). -/
def isFnLine (name : String) (l : List Char) : Bool :=
  (((dropPre analysisOf l).bind (matchName name.toList)).bind (dropPre "':".toList)).isSome

/-- `\S+':` matches. -/
def endsName : List Char → Bool
  | [] => false
  | c :: cs => !isSpaceChar c && ("':".toList.isPrefixOf cs || endsName cs)

/-- The line starts the part for some function (511-514). -/
def isAnyFnLine (l : List Char) : Bool := ((dropPre analysisOf l).map endsName).getD false

/-- `re.match("Loop at depth \d+ containing: (\S+)", l)` and its group (507-509). -/
def loopLine (l : List Char) : Option (List Char) := do
  let r ← dropPre "Loop at depth ".toList l
  if (r.takeWhile Char.isDigit).isEmpty then none
  else
    let r ← dropPre " containing: ".toList (r.dropWhile Char.isDigit)
    let w := r.takeWhile fun c => !isSpaceChar c
    if w.isEmpty then none else some w

/-- The loop over the lines (497-515), from a state of `found`. -/
def foundLines (name : String) : Bool → List (List Char) → List (List Char)
  | _, [] => []
  | found, l :: ls =>
    if isFnLine name l then foundLines name true ls
    else if found then
      match loopLine (stripL l) with
      | some m => m :: foundLines name true ls
      | none => if isAnyFnLine l then foundLines name false ls else foundLines name true ls
    else foundLines name false ls

/-- `m.split(",")`. -/
def splitComma : List Char → List (List Char)
  | [] => [[]]
  | c :: cs =>
    if c = ',' then [] :: splitComma cs
    else match splitComma cs with
      | [] => [[c]]
      | l :: ls => (c :: l) :: ls

/-- `re.search("([^<]+)", b).group(0)` (526); `none` is an exception. -/
def blockName (b : List Char) : Option String :=
  let r := (b.dropWhile (· = '<')).takeWhile (· ≠ '<')
  if r.isEmpty then none else some (String.ofList r)

/-- The loop over the blocks and the record made of them (518-545); `none` is an exception.  The test for blocks of the body looks for `latch` without
the angle brackets (534). -/
def parseLoop (m : List Char) : Option RawLoop := do
  let blks := splitComma (m.filter (· ≠ '%'))
  let names ← blks.mapM fun b => (blockName b).map fun n => (b, n)
  let pick (p : List Char → Bool) := (names.filter fun x => p x.1).map Prod.snd
  let headers := pick (hasSubL "<header>".toList)
  match headers with
  | [h] => some {
      header := h
      body := pick fun b => !hasSubL "<header>".toList b && !hasSubL "<exiting>".toList b && !hasSubL "latch".toList b
      exits := pick (hasSubL "<exiting>".toList)
      latches := pick (hasSubL "<latch>".toList) }
  | _ => none

/-- `parse_loops` (`metalift/frontend/llvm.py` 495-552); `none` is an exception. -/
def parseLoops (text : List Char) (name : String) : Option (List RawLoop) := (foundLines name false (readlines text)).mapM parseLoop

end Ll
end Metalift
