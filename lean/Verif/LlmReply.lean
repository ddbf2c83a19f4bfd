import Verif.PyRegex
/-
Model of how the program is taken from the reply of a language model: `llmlift_scripts/utils.py` 25-46 and `llmlift_scripts/synthesis.py` 573-637.
Texts are lists of characters.
-/
namespace Metalift.Llm.Reply
open Metalift.Regex

/-- `\s` of Python's `re`, and the characters that `str.strip` removes, for ASCII texts. -/
def isSpace (c : Char) : Bool :=
  decide (c = ' ') || decide (c = '\n') || decide (c = '\t') || decide (c = '\r') || decide (c = '\x0b') || decide (c = '\x0c') ||
    decide (c = '\x1c') || decide (c = '\x1d') || decide (c = '\x1e') || decide (c = '\x1f')

/-- `s.strip()`. -/
def strip (s : List Char) : List Char := ((s.dropWhile isSpace).reverse.dropWhile isSpace).reverse

/-- Three backticks. -/
def fence : List Char := ['`', '`', '`']

/-- The names of languages, in the order of the expression (utils.py 30). -/
def tags : List (List Char) :=
  ["Python".toList, "python".toList, "assembly".toList, "cpp".toList, "c".toList, "c++".toList]

/-- `(?:Python|python|assembly|cpp|c|c\+\+)`. -/
def tagRe : List (List Char) → Re
  | [] => .cls fun _ => false
  | [t] => .lit t
  | t :: u :: ts => .alt (.lit t) (tagRe (u :: ts))

/-- The expression of `extract_all_python_functions` (utils.py 29-31). -/
def blockRe : Re := .cat [.lit fence, .opt (tagRe tags), .grp 1 (.lazy .anyAll), .lit fence]

/-- Text of a group, empty if the group did not take part. -/
def cap (k : Caps) (n : Nat) : List Char := (k.lookup n).getD []

/-- `extract_all_python_functions` (utils.py 25-33). -/
def extractAll (s : List Char) : List (List Char) := (blockRe.findAll (s.length + 1) s).map fun m => cap m.2.2 1

/-- A character other than `d`. -/
def notChar (d : Char) : Re := .cls fun c => decide (c ≠ d)

/-- The expression of `replace_ite` (utils.py 45). -/
def iteRe : Re := .cat [.lit "ite(".toList, .grp 1 (.plus (notChar ',')), .lit [','], .star (.cls isSpace), .grp 2 (.plus (notChar ',')), .lit [','],
  .star (.cls isSpace), .grp 3 (.plus (notChar ')')), .lit [')']]

/-- `repl_func` (utils.py 39-43). -/
def replIte (k : Caps) : List Char := strip (cap k 2) ++ " if ".toList ++ strip (cap k 1) ++ " else ".toList ++ strip (cap k 3)

/-- `replace_ite` (utils.py 36-46). -/
def replaceIte (s : List Char) : List Char := iteRe.sub replIte (s.length + 1) s

/-- `#.*?$` with `MULTILINE` (`llmlift_scripts/parser.py` 201). -/
def lineCommentRe : Re := .cat [.lit ['#'], .lazy .any, .eol]

/-- Three quotes. -/
def quotes (q : Char) : List Char := [q, q, q]

/-- `('''[\s\S]*?'''|"""[\s\S]*?""")` (parser.py 204). -/
def blockCommentRe : Re := .grp 1 (.alt (.cat [.lit (quotes '\''), .lazy .anyAll, .lit (quotes '\'')]) (.cat [.lit (quotes '"'), .lazy .anyAll, .lit (quotes '"')]))

/-- `remove_comments` (parser.py 199-216). -/
def removeComments (s : List Char) : List Char :=
  let t := lineCommentRe.sub (fun _ => []) (s.length + 1) s
  blockCommentRe.sub (fun _ => []) (t.length + 1) t

/-- What the services return, and what the next step gets: a text, or a list of texts. -/
inductive Sol where
  | text (s : List Char)
  | list (ss : List (List Char))

/-- The three services (synthesis.py 62-65). -/
inductive Service where
  | claude | gpt | gemini
  deriving DecidableEq

/-- The end of `get_solution_from_claude` (582-583), `get_solution_from_gpt` (596-598) and `get_solution_from_gemini` (625-627), given the text of the reply; indexing an
empty list raises. -/
def solution : Service → List Char → Option Sol
  | .claude, reply => some (.list ((extractAll reply).map replaceIte))
  | .gpt, reply => some (.text (replaceIte (['\n', '\n'].intercalate (extractAll reply))))
  | .gemini, reply => (extractAll reply).head?.map fun s => .text (replaceIte s)

/-- The program that `check_solution` (`llmlift_scripts/parser.py` 534-536) works on; `dedent` raises for a list. -/
def program : Sol → Option (List Char)
  | .text s => some s
  | .list _ => none

end Metalift.Llm.Reply
