import Verif.Cvc5
/-
Model of the two synthesis loops (`metalift/synthesize_rosette.py` 544-805, `metalift/synthesize_cvc5.py` 231-348), of the call of the
verifier (`metalift/synthesis_common.py` 152-298) and of the synthesis queries (`metalift/rosette_translator.py` 142-236).

Everything outside the Python process is an oracle: when the solver process ends and with which code, which solution files exist at
which time and with which content, what the verifier prints.  Reading a candidate from the text of a solution (parsing, building the
declarations, pruning) is a function given from outside that may raise; its parts are modelled in `Rosette.lean`, `Cvc5.lean`, `Prune.lean`.
-/
namespace Metalift

/-- What happens when the verifier is called for a candidate (`metalift/synthesis_common.py` 152-298 with `use_rosette=False`). -/
inductive CvcRun where
  /-- building the query raises `CVC5UnsupportedException` -/
  | unsupported
  /-- another exception -/
  | raises
  /-- CVC5 ends with this return code and standard output `first :: rest`, split at newlines (`str.split` never returns an empty list) -/
  | ran (code : Int) (first : String) (rest : List String)

/-- `verify_synth_result` without Rosette (281-298): `none` is an exception. -/
def verifySynthResult : CvcRun → Option String
  | .unsupported => none
  | .raises => none
  | .ran code first _ => if code < 0 then some "SAT/UNKNOWN" else some first

/-- The world a run of the Rosette loop sees; `i` counts the iterations of the `while` loop. -/
structure RosetteWorld (α : Type) where
  /-- `proc_synthesis.poll()` -/
  poll : Nat → Option Int
  /-- in iteration `i`, the content of file `{basename}_sol{j}` split at newlines (first line, other lines), `none` if there is no such file -/
  file : Nat → Nat → Option (String × List String)
  /-- the run of the verifier for the candidate read from solution `j` -/
  verify : Nat → α → CvcRun
  /-- `parse_output`, `to_expr`, ..., `prune_fn_decls` (660-709); `none` is an exception -/
  decode : List String → Option α

/-- How the call ends. -/
inductive SynthOutcome (α : Type) where
  | returned (c : α)
  | synthesisFailed
  | verificationFailed
  /-- any other exception -/
  | exception
  /-- the code behind the loop (`metalift/synthesize_rosette.py` 797-805) is reached -/
  | afterLoop

/-- One iteration: the call ends, or the next iteration starts with `last_processed_sol_idx + 1` as given. -/
inductive SynthStep (α : Type) where
  | done (o : SynthOutcome α)
  | next (idx : Nat)

/-- `result_verify` (715-755): without verification it is `"unsat"`; after `CVC5UnsupportedException` the second call raises, because
`verify_synth_result` calls `to_rosette` with three arguments missing (`metalift/synthesis_common.py` 172-184). -/
def rosetteVerify {α : Type} (w : RosetteWorld α) (noVerify : Bool) (idx : Nat) (c : α) : Option String :=
  if noVerify then some "unsat" else verifySynthResult (w.verify idx c)

/-- The body of the loop (629-793) in iteration `i` with `last_processed_sol_idx + 1 = idx`. -/
def rosetteBody {α : Type} (w : RosetteWorld α) (noVerify : Bool) (rounds i idx : Nat) : SynthStep α :=
  match w.file i idx with
  | none => .next idx
  | some (first, rest) =>
    if first = "#t" then
      match w.decode rest with
      | none => .done .exception
      | some c =>
        match rosetteVerify w noVerify idx c with
        | none => .done .exception
        | some r =>
          if r = "unsat" then .done (.returned c)
          else if idx = rounds then .done .verificationFailed
          else .next (idx + 1)
    else .done .synthesisFailed

/-- The loop (626-793), for at most `fuel` iterations: `none` means it has not ended by then. -/
def rosetteLoop {α : Type} (w : RosetteWorld α) (noVerify : Bool) (rounds : Nat) : Nat → Nat → Nat → Option (SynthOutcome α)
  | 0, _, _ => none
  | fuel + 1, i, idx =>
    if w.poll i = none ∨ idx < rounds + 1 then
      match rosetteBody w noVerify rounds i idx with
      | .done o => some o
      | .next idx' => rosetteLoop w noVerify rounds fuel (i + 1) idx'
    else some .afterLoop

/-- `synthesize` (`metalift/synthesize_rosette.py` 544-805), from the start of the solver process. -/
def rosetteSynthesize {α : Type} (w : RosetteWorld α) (noVerify : Bool) (rounds fuel : Nat) : Option (SynthOutcome α) :=
  rosetteLoop w noVerify rounds fuel 0 0

/-! ### CVC5 -/

/-- The world a run of the CVC5 loop sees; `i` counts the lines read. -/
structure Cvc5World (α : Type) where
  /-- the `i`-th call of `readline`; at the end of the output it returns the empty string -/
  line : Nat → String
  /-- `proc.poll()` after the `i`-th line -/
  poll : Nat → Option Int
  /-- the run of the verifier -/
  verify : α → CvcRun
  /-- `generateCandidates` (77-102); `none` is an exception -/
  decode : String → Option α

/-- White space removed by `str.strip()` (ASCII). -/
def isSpaceChar (c : Char) : Bool := c = ' ' || c = '\n' || c = '\t' || c = '\r' || c = '\x0b' || c = '\x0c'

/-- `s.strip()`. -/
def strip (s : String) : List Char := ((s.toList.dropWhile isSpaceChar).reverse.dropWhile isSpaceChar).reverse

/-- The loop (`metalift/synthesize_cvc5.py` 297-344); `cur` is the candidate read last.  Verifying before there is one raises
`UnboundLocalError`. -/
def cvc5Loop {α : Type} (w : Cvc5World α) : Nat → Nat → Option α → Option (SynthOutcome α)
  | 0, _, _ => none
  | fuel + 1, i, cur =>
    let line := w.line i
    if hasSub "fail" line then some .synthesisFailed
    else if hasSub "sygus-candidate" line then
      match w.decode line with
      | none => some .exception
      | some c => cvc5Loop w fuel (i + 1) (some c)
    else if strip line = ['('] then
      match cur with
      | none => some .exception
      | some c =>
        match verifySynthResult (w.verify c) with
        | none => some .exception
        | some r => if r = "unsat" then some (.returned c) else some .verificationFailed
    else
      match w.poll i with
      | none => cvc5Loop w fuel (i + 1) cur
      | some code => if code > 0 then some .synthesisFailed else cvc5Loop w fuel (i + 1) cur

/-- `synthesize` (`metalift/synthesize_cvc5.py` 231-348), from the start of the solver process. -/
def cvc5Synthesize {α : Type} (w : Cvc5World α) (fuel : Nat) : Option (SynthOutcome α) := cvc5Loop w fuel 0 none

/-! ### The synthesis queries -/

/-- One `(define sol... (synthesize ...))`: `assumes` lists, for every `(assume (|| ...))`, the pairs `(g, j)` of its disjuncts
`(! (eq? (g args) (evaluate (g args) sol_j)))`. -/
structure SynthQuery (γ : Type) where
  file : String
  assumes : List (List (γ × Nat))

/-- The name of the file of a solution: `{basename}_sol{i}`. -/
def solFile (basename : String) (i : Nat) : String := basename ++ "_sol" ++ i.repr

/-- `generate_synth` (`metalift/rosette_translator.py` 142-236).  With functions to exclude there is one query, with result in `{basename}_sol`
(its constraints are not modelled: they put a `define` form into an expression, which Racket rejects). -/
def generateSynth {γ : Type} (basename : String) (rounds : Nat) (guesses : List γ) (exclude : Bool) : List (SynthQuery γ) :=
  if exclude then [⟨basename ++ "_sol", []⟩]
  else ⟨basename ++ "_sol0", []⟩ :: (List.range' 1 rounds).map fun i =>
    ⟨solFile basename i, (List.range i).map fun prev => guesses.map fun g => (g, prev)⟩

end Metalift
