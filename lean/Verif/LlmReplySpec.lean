import Verif.PySyntax
/-
What a reply of a language model contains (specification), and the words of a line of Python.
-/
namespace Metalift.Llm.Reply
open Metalift.Py

/-! ### Replies in Markdown -/

/-- A block of code after some prose: the prose, the language named after the opening fence, the code with the line break before it. -/
structure Block where
  prose : List Char
  lang : List Char
  code : List Char

/-- The block as it is written. -/
def Block.text (b : Block) : List Char := b.prose ++ ("```".toList ++ (b.lang ++ (b.code ++ "```".toList)))

/-- A reply: blocks of code, and prose at the end. -/
def replyText : List Block → List Char → List Char
  | [], last => last
  | b :: bs, last => b.text ++ replyText bs last

/-- A text in which no fence stands, nor begins at its end. -/
structure NoFence (s : List Char) : Prop where
  inside : ¬ "```".toList <:+: s
  last : ∀ t, s ≠ t ++ ['`']

/-- A block as one expects it. -/
structure Block.Plain (b : Block) : Prop where
  prose : NoFence b.prose
  lang : b.lang ∈ ["".toList, "Python".toList, "python".toList, "assembly".toList, "cpp".toList, "c".toList]
  line : ∃ s, b.code = '\n' :: s
  code : NoFence b.code

/-! ### Words of a line of Python -/

/-- Letters, digits and `_`. -/
def identChar (c : Char) : Bool := c.isAlphanum || decide (c = '_')

/-- Characters that are tokens by themselves. -/
def single (c : Char) : Option Tok :=
  if c = '(' then some .lpar else if c = ')' then some .rpar else if c = '[' then some .lbr else if c = ']' then some .rbr
  else if c = ',' then some .comma else if c = ':' then some .colon else if c = '+' then some .plus else if c = '-' then some .minus
  else if c = '*' then some .star else if c = '%' then some .percent else none

/-- Value of decimal digits. -/
def decimal (w : List Char) : Nat := w.foldl (fun n c => 10 * n + (c.toNat - '0'.toNat)) 0

/-- The token that a word is: a keyword, a number, a name, or one of the operators of one or two characters. -/
def word (w : List Char) : Option (List Tok) :=
  if w = [] then some []
  else if w = ['i', 'f'] then some [.kif] else if w = ['e', 'l', 's', 'e'] then some [.kelse]
  else if w = ['a', 'n', 'd'] then some [.kand] else if w = ['o', 'r'] then some [.kor] else if w = ['n', 'o', 't'] then some [.knot]
  else if w = ['T', 'r', 'u', 'e'] then some [.tru] else if w = ['F', 'a', 'l', 's', 'e'] then some [.fls]
  else if w = ['<'] then some [.cmp .lt] else if w = ['<', '='] then some [.cmp .le] else if w = ['>'] then some [.cmp .gt]
  else if w = ['>', '='] then some [.cmp .ge] else if w = ['=', '='] then some [.cmp .eq] else if w = ['='] then some [.assign]
  else if w = ['/'] then some [.slash] else if w = ['/', '/'] then some [.slashslash]
  else if w.all identChar then
    if w.all Char.isDigit then some [.num (decimal w)]
    else if (w.headD ' ').isDigit then none
    else some [.name (String.ofList w)]
  else none

/-- Blanks between words; a line break is one only between parentheses. -/
def blank (nl : Bool) (c : Char) : Bool := decide (c = ' ') || decide (c = '\t') || (nl && decide (c = '\n'))

/-- White space that is not accepted: other line breaks, and characters that Python does not allow between words. -/
def otherSpace (c : Char) : Bool := ['\n', '\r', '\x0b', '\x0c', '\x1c', '\x1d', '\x1e', '\x1f'].contains c

/-- Tokens of a text, after the characters `w` of an unfinished word. -/
def lexGo (nl : Bool) : List Char → List Char → Option (List Tok)
  | w, [] => word w
  | w, c :: s =>
    if blank nl c then (word w).bind fun ts => (lexGo nl [] s).bind fun us => some (ts ++ us)
    else if otherSpace c then none
    else match single c with
      | some t => (word w).bind fun ts => (lexGo nl [] s).bind fun us => some (ts ++ t :: us)
      | none =>
        if w = [] ∨ identChar (w.headD ' ') = identChar c then lexGo nl (w ++ [c]) s
        else (word w).bind fun ts => (lexGo nl [c] s).bind fun us => some (ts ++ us)

/-- Tokens of a text. -/
def lex (nl : Bool) (s : List Char) : Option (List Tok) := lexGo nl [] s

/-- The text is an expression with value `v`. -/
def HasValue (nl : Bool) (S : Scope) (s : List Char) (v : Val) : Prop := ∃ ts a, lex nl s = some ts ∧ Parses ts a ∧ Py.eval S a = some v

/-- The text has line breaks only before its first and after its last word. -/
def OneLine (s : List Char) : Prop := ∃ x y z, s = x ++ (y ++ z) ∧ (∀ c ∈ x, blank true c = true) ∧ '\n' ∉ y ∧ ∀ c ∈ z, blank true c = true

/-- In this scope the function `ite` chooses between its second and third arguments by its first. -/
structure IteScope (S : Scope) : Prop where
  loc : S.loc "ite" = none
  glob : ∀ c a b, S.glob "ite" [c, a, b] = some (if c.asBool then a else b)

end Metalift.Llm.Reply
