import Verif.SynthLoop
/-
Model of the loop that the Tenspiler benchmarks are run with (`tests/llvm/tenspiler/utils/synthesis_utils.py`).
-/
namespace Metalift

/-- What a benchmark meets: for each list bound, with the strict grammar (`false`) and the relaxed one (`true`), the world of the call of
`driver.synthesize`; `generate` is what follows a successful call (`get_actual_ps_fn_decl`, `numpy_codegen`, writing the file,
`tests/llvm/tenspiler/utils/synthesis_utils.py` 74-86), `none` is an exception. -/
structure BenchWorld (α β : Type) where
  synth : Nat → Bool → RosetteWorld α
  generate : α → Option β

/-- How a run ends. -/
inductive BenchOutcome (α β : Type) where
  /-- the code `code` was generated for the candidate `c` -/
  | wrote (c : α) (code : β)
  | synthesisFailed
  | verificationFailed
  /-- any other exception -/
  | exception

/-- The code after the `try` statement (`tests/llvm/tenspiler/utils/synthesis_utils.py` 74-86) if the call in it returned, and what reaches the
caller if it raised. -/
def benchFinish {α β : Type} (generate : α → Option β) : SynthOutcome α → BenchOutcome α β
  | .returned c => match generate c with | some code => .wrote c code | none => .exception
  | .synthesisFailed => .synthesisFailed
  | .verificationFailed => .verificationFailed
  | .exception => .exception
  | .afterLoop => .exception

/-- `run_synthesis_with_bound` (`tests/llvm/tenspiler/utils/synthesis_utils.py` 37-84), where each call of the synthesizer runs for at most `fuel`
iterations.  The second call does not pass `no_verify`, whose default is `False` (`metalift/synthesize_rosette.py` 554). -/
def runWithBound {α β : Type} (w : BenchWorld α β) (bound rounds : Nat) (hasRelaxed noVerify : Bool) (fuel : Nat) : Option (BenchOutcome α β) :=
  match rosetteSynthesize (w.synth bound false) noVerify rounds fuel with
  | none => none
  | some .synthesisFailed =>
    if hasRelaxed then (rosetteSynthesize (w.synth bound true) false rounds fuel).map (benchFinish w.generate)
    else some .synthesisFailed
  | some o => some (benchFinish w.generate o)

/-- `run_synthesis_algorithm` (`tests/llvm/tenspiler/utils/synthesis_utils.py` 110-138): at most `n` bounds. -/
def runAlgorithm {α β : Type} (w : BenchWorld α β) (rounds : Nat) (hasRelaxed noVerify : Bool) (fuel : Nat) : Nat → Nat → Option (BenchOutcome α β)
  | 0, _ => none
  | n + 1, bound =>
    match runWithBound w bound rounds hasRelaxed noVerify fuel with
    | some .verificationFailed => runAlgorithm w rounds hasRelaxed noVerify fuel n (bound + 1)
    | o => o

/-- The defaults of the arguments (`tests/llvm/tenspiler/utils/synthesis_utils.py` 115-119). -/
def defaultRounds : Nat := 10
def defaultBound : Nat := 2
def defaultNoVerify : Bool := true

end Metalift
