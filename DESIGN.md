# Formal model of metalift in Lean 4 - design

The subject is metalift at the pinned commit in `/repo` (Python, plus the Racket and SMT-LIB support files and one LLVM pass).
Nothing is executed: the model is written from the source text.

1. [Layout and conventions](#layout-and-conventions)
2. [Trusted base](#trusted-base)
3. [What is modelled, and what is not](#what-is-modelled-and-what-is-not)
4. [Plan per property](#plan-per-property)
5. [Testing the theorems](#testing-the-theorems)
6. [Axioms per theorem](#axioms-per-theorem)

## Layout and conventions

`lean/Verif/*.lean`.  For each area there is a *model* file (definitions citing file and lines of `/repo`), where needed a
*specification* file that does not depend on the model, *lemma* files, and a *property* file whose name starts with `P`.
A property file contains only the specification that is small enough to be stated there, the property theorems, refutations and the
examples that show that the hypotheses can be met.

Names:

* `Cxx_name` proves property Cxx, or the part of it the doc comment names, without restriction.
* `Cxx_name_partial` proves it under a guard.  The doc comment and the table below say what is missing.
* `Cxx_name_refuted` proves that the code as written violates the unrestricted statement, with a concrete witness.

Where the unrestricted property is false of the code, the property stays in `properties.jsonl` as a user would expect it, and is
reported as `partial` in `MANIFEST.json`: a guarded theorem plus refutations that show why the guard is there.

Modelling style: total functions that follow the Python function branch by branch.  An exception is `none` (or an error value where the
kind of exception matters).  Mutation is state passing.  Anything the Python process does not compute itself (solvers,
files, the order of iteration over a `set`, networkx) is a parameter about which only documented facts are assumed.

Fuel (a bound on recursion depth in a definition) appears in four places and is never a bound on what a theorem covers:
evaluation of recursive definitions (`FnEval`: "has value v" means "for some fuel"), parsers (`Parses` is the relation
"some fuel suffices", and it is proved unique), the step-bounded interpreter of LLVM functions (a run is any number of steps), and
Rosette's own list library, where fuel is part of the program (`utils.rkt` bounds recursion by 64; see C43).

## Trusted base

* Lean 4.33.0's kernel.  The axioms a theorem may depend on are `propext`, `Classical.choice` and `Quot.sound`; section 6 lists
  them theorem by theorem.  No `sorry`, `admit`, `native_decide`, `bv_decide`, no axioms of our own.
* The reading of the source recorded in the comments of the model: the model is faithful where the comment says nothing else.
* The specifications: the meaning of the constructs outside metalift that the properties talk about.
  - Python's expression and statement semantics (`PyFrontend.pyEval`, `Exec`; `PySyntax` for precedence and evaluation of text).
  - NumPy (`NumpySem`): arrays of one or two dimensions with integer or boolean elements.
  - LLVM (`LlvmSem`): the instructions the front end accepts, on 32-bit integers without aliasing.
  - SMT-LIB's meaning of the list preamble: datatypes interpreted by lists, `define-fun-rec` by its equation.
  - Racket's meaning of the forms and procedures used in `utils.rkt` (`RktSem`), and Rosette's `synthesize` (`∃ holes ∀ inputs`, assumptions restrict the inputs).
* Documented behaviour of libraries that appear as parameters: `networkx.topological_sort` (`TopoSpec`: a permutation in
  order if there is one, an exception otherwise), pyparsing's nested-expression tokenizer, `subprocess`.

## What is modelled, and what is not

| source | modelled in | not modelled |
|---|---|---|
| `metalift/ir.py` expressions, types, `map_args`, `simplify`, `optimize_useless_equality`, equality and hash | `Ir`, `Typing`, `Simplify` | `Let`, `Lambda`, `TupleGet` construction (their constructors or `map_args` raise), metadata, `Object` overloads other than those below |
| `ir.py` grammars (`findCommonExprs`, `replaceExprs`, `Synth`) | `Grammar` | the text layout of the grammar |
| `ir.py` printers `to_rosette`, `to_python` | `Rosette`, `ToPython`, `DslText` (function declarations) | `codegen` of user classes |
| `ir.py` object layer (`Int`, `List`, `Matrix`, `Tensor3D`, `Set`, `Tuple`) | `ListObj`, `Tenspiler`, `SetObj` | printing of object types beyond `Typing` |
| `frontend/python.py` | `PyFrontend`, `PyTracker` | mypy's parser and type inference (the AST is given), printing |
| `frontend/llvm.py`, `analysis.py` (`setupBlocks`, `VariableTracker`) | `Llvm`, `LlvmCfg`, `VarTracker`, `LoopsFile`, `Demangle`, `LlvmLib` | llvmlite, what `opt` and `c++filt` print (specifications in `PLoopsFile`, `PDemangle`), PHI nodes, the struct and `std::` container calls other than vectors and the listed set/tuple calls |
| `llvm-pass/addEmptyBlocks` | `LlvmCfg` | LLVM's own data structures |
| `frontend/utils.py`, `vc_util.py` | `VcUtil` | - |
| `smt_util.py` | `SmtUtil`, `SmtSpec`, `SmtText`, `Sygus` | predicates and functions as arguments in the text (`preds`, `in_calls`) |
| `toSMT` methods of `ir.py`, `utils/tuples.smt` | `SmtText` (printer), `SmtSem` (meaning of SMT-LIB scripts) | sorts are not checked when a term is accepted; arrays and maps |
| `synthesis_common.py` | `Prune`, `SynthLoop`, `PyDriver` (`parse_candidates`, the text `verify_synth_result` writes) | running CVC5; lambdas in candidates |
| `Driver` of `frontend/python.py` and `frontend/llvm.py` | `PyDriver` | parsing of the source file, printing |
| `rosette_translator.py` | `SymVars`, `SynthLoop`, `RosetteFile` (verification mode), `SynthFile` (synthesis mode) | the variant of `generate_synth` with `fn_defs_to_exclude` |
| `synthesize_rosette.py`, `synthesize_cvc5.py` | `Rosette`, `Cvc5`, `Sygus`, `SynthLoop` | the solvers (arbitrary environments) |
| `utils/utils.rkt`, `utils/bounded.rkt`, `utils/list-axioms.smt` | `RktFile` (text), `RktLists`, `SmtLists`, `PSets`, `PIntFns` | Racket's `error` text; the text of `bounded.rkt` (the macro is part of `RktSem`) |
| `utils/tenspiler/tenspiler_common.py`, `axioms.py` | `Tenspiler`, `TenAxioms`, `TenSelAxioms`, `DepthGrammar`, `HoleSpace`, `GeneralSpace` | the search spaces of the benchmarks other than those with a hole and the general ones for matrices, put together from the modelled pieces |
| `llmlift_scripts/parser.py` | `LlmParser` | mypy (the typed syntax tree is given); equality of lambda expressions that contain the object of a unary minus or of a list concatenation |
| `llmlift_scripts/synthesis.py`, `utils.py` | `LlmLoop`, `LlmReply`, `LlmDissolve`, `DslFns`, `DslText` (the text of the target language), `DslTensor` (`utils/tenspiler/constants.py`) | the rest of the prompts, the text of the files (the same translators as in C46 and C54), order of a `set` |
| `vc.py`, `models.py`, `analysis.analyze` | - | all: for every block `VC.makeVar` is called with the type `Bool`, tests `isinstance` of a class and raises, so `analyze` never returns |
| `tests/llvm/tenspiler/utils/synthesis_utils.py` | `TenLoop` | file names, timing, printing; the search spaces that are passed in |
| `tests/llvm/tenspiler/codegen/numpy_codegen.py` | `NumpyGen`, `NumpyParse` | floating point |
| `llmlift_scripts/prompts.py`, `llmlift_scripts/utils.py` (arguments, templates, assertions) | `LlmPrompt` | the constant text of the prompts |
| `tests/llvm/tenspiler/codegen/gemmini_codegen.py` | `Gemmini` | the text of the glue function, apart from its element types; floating point; the library functions other than `tiled_resadd_auto` |
| `tests/llvm/tenspiler/codegen/gaudi_codegen.py` | `Gaudi` | division calls, indentation, the glue code apart from its numbers and the parameter structure |
| `llmlift_scripts/verification_with_testing/openai_test_cases.py` | `LlmTest` | reading the file, printed messages |
| `llmlift_scripts/correct_sols.py`, `llmlift_scripts/dsl.py`, `benchmarks/blend/cpp/*.cc`, `tests/llvm/tenspiler/{softmax,rmsnorm}_part*.cc`, `benchmarks/llama/cpp/matmul.cc`, `transformer/transformer_part{3,4}.cc` | `CorrectSols`, `LlamaSols`, `LlamaInv`, `BlendInv` | overflow |
| the other back ends of that directory | none | `pytorch_codegen.py`, `tensorflow_codegen.py` and `mlx_codegen.py` use `Matrix` without importing it, so they raise `NameError` for every function with a parameter |

## Plan per property

For each property: what is modelled, how it is specified, how it is proved, and what is missing.

### Python front end

**C01** *(partial)*  `VCVisitor`, `State`, `MetaliftFunc.__call__`.  Spec: a big-step semantics of the statement language (`Exec`) that does
not mention the generator.  Proof: by induction on executions the symbolic state and path condition describe the concrete state, for a
suitable assignment of the loop symbols; every obligation then applies to the run (`PySound`).  Guard `Stmt.supported`: returns in tail
position, loops that are straight-line and do not modify a symbol already in use, no chained comparisons, no list or set merged after an
`if`.  Each exclusion is needed (C02, C03, C05, C06 refutations).

**C02** *(partial)*  same model.  Refuted: the membership test before adding an obligation uses `==` on objects, which builds an
expression that is always truthy, so only the first obligation of this kind is kept.

**C03** *(partial)*  loop havoc.  Refuted: a havocked variable is called like the variable, so facts about its earlier values stay in force.
Proved for loops that modify no symbol in use.

**C04** *(proved)*  `RWVarsVisitor`; induction on executions.

**C05** *(partial)*  expression visitor; induction on expressions.  Chained comparison keeps its last link only (refuted).

**C06** *(partial)*  merge in `visit_if_stmt`; case analysis for `Int`/`Bool`.  Lists and sets keep the value of the first branch (refuted).

**C07** *(partial)*  `State.__init__`'s mutable default arguments as one heap cell shared by all calls.  Refuted for assumptions,
proved for obligations.

**C08** *(partial)*  argument order at the call site (result first) and at `return` (result last).  Refuted; equal for no arguments.

**C09** *(proved)*  `PredicateTracker.invariant`; permutation and sortedness lemmas over histories of requests.

### Expressions

**C10** *(partial)*  `and_objects`/`or_objects`; fold lemmas.  Refuted only through `1 == True`.

**C11** *(proved)*  `ObjectSet`; refinement of histories to a list specification.

**C12** *(partial)*  `Expr.__eq__`, `__hash__`; structural induction.  Equivalence, congruence and hash are unrestricted; "equal implies
same value" is false for `Lit(1)` and `Lit(True)`.

**C13** *(proved)*  `simplify`; structural induction.

**C14** *(partial)*  `optimize_useless_equality` and its driver loop.  Refuted in negative positions.

**C15** *(partial)*  `VariableTracker`; invariants over histories.  Refuted for names ending in digits and for direct requests;
`all()` is complete without restriction.

### Function declarations

**C16** *(partial)*  `topological_sort`, `get_all_called_fns`; graph lemmas for an arbitrary `networkx` meeting its documentation.
Refuted for duplicate names and for variables called like functions.

**C17** *(proved)*  `prune_fn_decls`; simulation between evaluations in both dictionaries.  Evaluation is strict in the arguments of
calls and lazy in conditionals.

**C18** *(partial)*  the rounds of `augment_arguments`/specialisation in `smt_util.py`; simulation.  Refuted for two function parameters,
two callers, and a parameter applied twice.

**C19, C41** *(partial)*  `findCommonExprs`, `replaceExprs`, `Synth`, `chooseArbitrarily`.  Spec: the language of a choose expression, and
derivations of a grammar.  Both inclusions by induction.  Refuted: merging by `==` (`1 == True`), capture of argument names, nested choices
of arbitrary solutions.

### Text exchanged with solvers and with Python

**C20, C42** *(partial)*  `to_rosette` to S-expressions, `generate_ast` and `to_expr` back; induction on expressions.  C42: extraction of
definitions from the text of the answer, line by line.  (Choices that Rosette leaves in its answer: C52.)  Refuted: `list_append`, tensor
slices, names that clash.

**C21** *(partial)*  `toExpr`.  Spec: the meaning of SMT terms with `let`.  Refuted for parallel `let` and n-ary operators.

**C22** *(partial)*  Div and Mod in the three readings.  The guard is exact: the theorem is an equivalence.

**C23** *(partial)*  `to_python` as a token printer; Python's precedence grammar as a parser (`PySyntax`).  Proof: the text of a `PySafe`
expression parses to the expected tree, uniquely.  Eleven refutations, mostly missing parentheses.

**C24** *(partial)*  `gen_var`: the generated Racket definitions and their meaning.  Proof by induction on types; bijection between constants
and shapes.  Names must not contain `-`.  Refuted: list bound one for matrices; tuples.

**C45** *(partial)*  `toSMT` of expressions as text.  Spec: `SmtSem` reads the text as S-expressions and gives terms a meaning in first-order
structures; it does not mention metalift.  `Agree` says that an interpretation and a structure have the same functions.  Proof: induction on
the expression, for the text, the value and the acceptance.  Refuted: negative literals, tuples of more than five components, components of the
result of a call, variables named `set-...`.

**C46** *(partial)*  `toSMT` of `smt_util.py` for verification: the whole text after the files of definitions.  Spec: `Model.Sat` (a structure
satisfies a script), and on the other side `FnHolds`, `AxHolds`, `OfTy`.  Proof: the text is read back command by command (`query_reads`), each
command is satisfied exactly when its declaration holds (`sat_decl`, `sat_ax`, `sat_goal`, from C45), the order does not matter (C16).
Guard `QueryOk`.

**C47** *(partial)*  the same text; `accepts` runs through the commands with the set of known symbols.  Proof: induction over the commands with
C16 (functions come after those they call).  Guard `Complete`.  `PSmtFiles` adds the files of definitions: started without any symbol, the
solver accepts them followed by the query.

**C48** *(partial)*  the chain from the solver's answer to the Python program: C01 (verification condition), C46 (meaning of the query), C27/C49
(files of definitions).  `PyTyped` types the runs (`Stmt.typedOk`), because the solver's functions are only right on values of the declared
types.  The Python semantics takes its primitive operations from a class `PyOps`; `strictOps` gives up at negative indices and divisors that are
not positive, where the solver's operations differ from Python's.  `synthesizedPart` is what `Driver.synthesize` keeps.  Instance: `SumUp`
(a loop with an invariant over every list).  Refuted: Python's own division by a negative number, the whole files, an equation whose left side
is not the result.  `C48_driver_partial` is the same from the outside: `Driver.synthesize` (`pySynthesize`, with the loop of C25 and the text of
`verify_synth_result`) ends normally, the solver is right whenever it says `unsat`; then every run returns the value of the stored version.
The driver verifies `vc.simplify()`; `sorted` is the guard under which `simplify` keeps the value (C13 for the typed part).
`C48_from_grammars_partial` puts C52 in front: the hypotheses are about function, target language and grammars only (`GrammarsOk`,
`PostGrammar`), the solution files are answers of Rosette (`RosetteAnswers`); the candidates inherit what the verifier needs from the grammars
(`Within`, kept by choosing, by reading and by pruning).

**C49** *(proved, for the files without `matrix_transpose`)*  the functions of the files are determined by the files: induction over lists, from
the text of the files (`readFile filesText`).  Beyond the bounds `list_get` may have any value (`C49_get_beyond_any`).

### Synthesis loops

**C25, C26** *(partial)*  loops as state machines over an arbitrary world: at which time which file has which content, when the process
ends, what the verifier prints.  Invariants over traces.  "What is returned is verified" is unrestricted; termination is refuted
(no solution file; solver that ends silently).

**C36** *(partial)*  `generate_synth` for round i, with the assumed meaning of `synthesize` under `assume`.  No repetition is
unrestricted; "forbids nothing else" is refuted.

**C50** *(partial)*  `Driver.synthesize` of both front ends, `get_actual_ps_fn_decl`; the regular expression as a function on characters
(`psGroup`: greedy with backtracking).  Spec: `VersionOf` (the declaration called `f_ps` is an equation with this right side).  Guard
`PlainName`: word characters, no `_ps` inside.  Refuted without the guard.

**C52** *(partial)*  from the lines of a solution to the candidates (`decodeSolution`: `parse_output`, recognising the functions, `to_expr` with
the tables of types, variables and choices, arbitrary choices, `prune_fn_decls`).  Spec: `Shows` says how Rosette may show a resolution (chooses
replaced, non-terminals left where there is no choice); `Resolves` (C19) is membership in the grammar; `Computes` (C17) are the values.  Proof:
induction on the choose expression, C42 for the text, C41 for functions that are not printed, C17 for pruning.  Guards: `SolutionOk`.  Refuted:
nested productions (one level of `replace_choices`), a function called like a non-terminal.

### Libraries of the solvers

**C27** *(partial)*  every assertion of `list-axioms.smt` as a field of a structure.  Refuted: the equation of `matrix_transpose` is
contradictory on matrices with an empty row.  Without it a model is given.  `SmtFiles` holds the three files of definitions character by
character; the same two facts are proved about that text, read with the specification `SmtSem` (`PSmtFiles`): no structure satisfies it, hence
none satisfies any query, while all commands but `matrix_transpose` are satisfied by the usual functions (`core_sat`).

**C28, C43** *(partial)*  `utils.rkt` against any model of the assertions; induction on lists.  Guards are index ranges, each shown necessary.

**C29** *(proved)*, **C30, C44** *(partial)*  sets, maps, `integer_exp`, `integer_sqrt`.

**C53** *(partial)*  `RktFile` holds `utils.rkt` character by character; `RktSem` is a specification of the part of Racket it uses (reader,
`define`, `define-bounded` with its fuel, `if`, `or`, `match*`, `ormap`, the list procedures), evaluation with a bound on nested steps that is
proved irrelevant (`rkEval_mono`).  `utils_read` reads the text into the definitions, `RktLib` and `RktLib2` evaluate every definition (induction
on lists, sets, maps, fuel), also in terms of the functions of `RktLists`, which are thereby checked against the text.  Spec: `LibSpec`, one line
per group of functions.  Not total: fuel (transposition of 63 rows fails), `map-normalize`.

**C54** *(partial)*  `RosetteFile` is the text `to_rosette` writes in verification mode, `RktProg` says what running such a file defines for given
values of the symbolic constants and when `(verify (assertions))` has no counterexample (`Verified`).  `RosetteFileText` reads the text back into
forms, `RosetteModule` matches the declarations with C24's, `RosetteRun.rk_sound` and `RosetteComplete.rk_complete` relate evaluation of printed
expressions to `eval`, and `RosettePrims` shows that a meaning of the library functions exists.  Restrictions: `ProblemOk` (ordinary names, sorts),
`unbounded_ints`; conversely `NamesOk` and `Safe`.  Refuted beyond them: a guarded remainder by zero, a variable called `length`, 65 nested calls.
Without `unbounded_ints` (the default) the file sets `(current-bitwidth 6)` (`C54_width`).  `RktBits` is the specification for words of `k` bits: every
procedure of the language works on wrapped numbers (Rosette's folding of constants is not modelled, it only matters for constants that do not fit).
`C54_six_bits_partial`: a verified file says that the condition holds for all values with which it can be computed within six bits (`Fits`), because checked
arithmetic is less defined than both wrapped and unbounded arithmetic.  `C54_six_bits_refuted` and `C54_overflow_refuted`: beyond that both directions fail.

**C61** *(partial)*  `SynthFile` is the text `to_rosette` writes in synthesis mode, with the queries of all rounds; C61 is about the first query.  `RktSynth` is the specification: grammars, the
forms derived from them (`Expand`), the programs a file with holes may stand for (`Completes`), and the solutions of `(synthesize #:forall ..
#:guarantee ..)` (`Answers`).  It assumes that `#:depth k` allows `k` replacements of non-terminals in a row; nothing but the refutation
depends on the exact number.  `SynthFileText` and `SynthFileRead` read the text back into forms, `SynthExpand` shows that derived forms are
printed resolutions (induction over the sketch), `SynthForms` that the programs are, up to the final query, verification files of resolutions, so
that C54 applies.  Restrictions: those of C54, `SketchOk` (well-typed sketches, no parameter or function called like a production).  Refuted: a
sketch with twelve nested chooses, whose resolution is out of reach.  For the default of six bits (`RktSynthBits`, `PSynthBits`): `C61_width`, the file
asks for six bits; `C61_six_bits_partial`, a solution satisfies the condition for all values with which it can be computed within six bits;
`C61_six_bits_refuted`, for other values it need not.

**C62** *(partial)*  `Sygus` models `Synth.toSMT` and `toSMT` in synthesis mode; `SygusSem` is the specification: `synth-fun` commands, their well-formedness
and the terms a grammar generates.  `C62_grammar_partial`: the text of a command reads back as a well-formed command whose grammar generates exactly the
texts of the resolutions of the sketch (for printable sketches, C45, whose variables and parameters are not called like non-terminals, with the guard of C19).
`C62_query_refuted`: the whole query is never written, `filter_fn_args` raises for every function to be synthesised.

**C63** *(partial)*  `generateCandidates` and `extractFuns`; the terms have the meaning of C21.  The guards are needed because `name in a` is a test for a
substring when `a` is the first word of the answer, and finds the name at any place when `a` is a pair.

**C64** *(partial)*  `SetObj` models the methods of `Set` and `Tuple`.  Spec (`PSetObj`): a small language of set programs with its denotation, and `SetPrims`,
what the primitive set functions mean; the functions of the Rosette library (C29) are shown to satisfy it.  By induction on programs.  Refuted: membership
(`in` is always true, `__contains__` calls a function that does not exist), removal from sets of lists, negative tuple indices, components that are lists,
and indexing of tuples returned by functions.

**C31** *(partial)*  the function declarations of `tenspiler_common.py` in any interpretation satisfying their definitions (`Ten.Model`; one is
constructed).  Spec: textbook list functions.  Restrictions: matrices without empty rows.

**C32** *(partial)*  the axioms of `axioms.py`.  Refuted at index 0 for *every* axiom of the first kind: asserting one of them makes every
query unsatisfiable.  Proved for positive indices.  The two axioms about selections call functions that take a function without passing one;
they are proved (and refuted at index 0) as they are asserted, after `toSMT` renamed the calls to the copies made for the function passed.

**C37** *(partial)*  object methods of lists: the expression built is evaluated in any interpretation that satisfies `ListPrims`.

### Solutions of language models

**C55** *(partial)*  `LlmParser` is the parser of `llmlift_scripts/parser.py`.  Spec: `LlmPy` gives Python's meaning of the modules (values,
closures, keyword arguments, slices with clamping, fractions; calls nested to any depth), `LlmSpec` says when an IR interpretation satisfies the
functions made of a module.  Proof: induction on expressions (`LlmSound.parse_sound`) with a relation between Python values and IR
values that covers functions passed as arguments, then induction on the depth of calls.  `strict` evaluation answers only where the run stays inside
the range of lists and divides natural numbers by positive ones; `LlmMono` proves that its answers are Python's.  Missing: runs that use negative
indices, clamped slices or division of negative numbers (the list primitives leave these open).  The guard `okDef` excludes what the parser gets wrong; each
item has a refutation: list displays with elements become the empty list, keyword arguments are taken in order of writing, slice steps are dropped,
`/` becomes integer division, parameters are sorted by name while calls keep the order of the declaration, `True` and captured
variables become undeclared variables.  Names of lambda expressions (`C55_lambda_names`): invariant on the two dictionaries, for any sequence of calls.

**C56** *(partial)*  `LlmLoop` is `run_llm_synthesis_algorithm` with an arbitrary `World` (language model, mypy, solver; answers may depend on the
whole history).  Spec: the trace of requests and solver runs, and `Checked` (the last events of a trace).  Proof: invariants of the two loops
(`InvRun`, `PsRun`), by induction on the attempts left.  `verify_benchmark_smt` returns `True` whatever CVC5 prints, `VerificationMethod.NONE` reads an
unbound variable, Claude's answers are lists, a summary with another name raises `StopIteration` (refuted).  The predicates given to the solver mean what the
Python functions compute: by C55 and the equations of the renamed functions.

**C57** *(partial)*  `checkCached`: `get_dsl_func_defs` is cached although `dsl.py` is rewritten for each call.  Proved for histories with one target
language, by induction on the history; refuted for two.

### Search spaces of the tensor language

**C58** *(partial)*  `DepthGrammar.lean` models the functions that build the expressions of a bounded depth, object by object (`intLevels`, `symInt`, `tensorLevels`,
`symTensor`); the dictionary of levels is a list.  The specification is an inductive type of arithmetic expressions `AExp` (and `TExp` for tensors) with its
depth; the language of a grammar is `Resolves` of C19.  `C58_int_exact` and `C58_int_expressions` hold at every depth, by induction over the levels;
`C58_conditionals` follows.  For tensors `C58_tensor_expressions_partial` covers depths up to two; at depth three and more the function raises
(`C58_tensor_deep_refuted`: the attribute `is_nested` does not exist), and `C58_tensor_deep_product_refuted` shows what would be missing if it did.

**C59** *(proved)*  The specification runs the four kinds of loops step by step (`Loop.Runs`).  `C59_loop_bounds` proves both directions.

**C60** *(partial)*  `DslFns.lean` models which functions and axioms are given to the checkers of solutions of language models, and the declarations that are
left out.  Their commands are those of the files, literally (`library_sx`), so that in every structure satisfying the files the declarations hold
(`C60_library_functions`); with C46 the query for the remaining functions means what the query for all of them would (`C60_left_out_partial`).
`C60_axioms` is complete.  Refuted: other functions with the prefix `integer`, helpers of functions with function parameters, the declared
transposition, and `ite_int`, because of which no query with the tensor language can be written.

### Text of the target language

**C65** *(partial)*  `DslText` models `FnDecl.to_python` and the text of a target language, `DslTensor` the list of functions of the tensor language.  Spec
(`PyModule`): modules of function definitions, how their text is read and what their functions return (calls nested to any depth), after the Python manual.
`C65_text_partial`: for declarations whose text needs no further parentheses, wherever a declared function terminates the Python function returns its value
(by induction on the nesting of calls, with C23).  For the tensor language the text is proved to be read as `llmlift_scripts/dsl.py`, whose syntax tree
`DslPy.lean` is written by `scripts/mkdsl.py` with Python's own parser: a check of the model against the file that the project keeps.  What the
functions of the file return is proved for all vectors and matrices, by induction on the lists, and compared with the declarations through C31.
Refuted: `matrix_transpose` never returns, `integer_sqrt` never returns for 2 to 64 (a sum loses its parentheses), types without text.

### Rounds in the synthesis file

**C67** *(partial)*  `SynthFile` writes the queries of all rounds.  `RktRounds` is the specification: a query reads as a name, quantified constants and
assumptions; an assumption says that a call of some function has another value than in an earlier solution (`evaluate`), with the same values of the
symbolic constants; a program is a solution if some values satisfy the assumptions, and for all values an assumption is violated or the assertions pass
(this is Rosette's documented meaning of `synthesize` with assumptions).  `C67_rounds_partial`: solutions are resolutions of the sketches, each differs
from all earlier ones for some values, and the condition holds wherever it does; by identifying each program with a verification file (C61) and
evaluating the calls with the soundness of C54.  `C67_distinct_partial`, `C67_no_functions_partial`, `C67_first_partial`: no program twice; without
functions to compare at most one solution (the Python front end passes none); the first round is C61.  `C67_found_partial`: the converse,
with completeness.  Restrictions: unbounded integers, `SketchOk`, and parameters of compared functions are declared variables (`GuessScope`; otherwise the
call mentions an unbound identifier).  `C67_later_refuted`: a later solution need not satisfy the condition for all values within the bound.

**C68** *(partial)*  `TenLoop` models `run_synthesis_with_bound` and `run_synthesis_algorithm` over the world of C25 for each bound and grammar.
`C68_outcome`: how a run ends and why, by induction over the bounds, each explained by `C25_failures`.  `C68_verified_partial`, `C68_relaxed_verified`,
`C68_first_outcome`: code is written for accepted programs (if verification is not switched off; always for the relaxed grammar); the outcome is that of the
first bound at which verification does not fail.  `C68_default_refuted`: the default is `no_verify=True`, so code is written for rejected programs.
`C68_endless_refuted`: if verification fails at all bounds there is no end.

**C69** *(partial)*  `LoopsFile` models `parse_loops` on the characters of the file, with its regular expressions.  `PLoopsFile` specifies what LLVM prints for
a list of functions with loops.  `C69_loops_partial`, `C69_blocks_partial`: reading what was printed gives the loops, and no block is lost, by
induction over functions, loops, blocks and characters.  `C69_latch_name_refuted`: an unmarked block with `latch` in its name is lost.
`C69_parallel_refuted`: all parallel loops are lost.  `C69_dot_refuted`, `C69_space_refuted`: loops of other functions are included if the name has a
dot, or the next function's name has a space.

**C70** *(partial)*  `PyRegex` is a specification of Python's regular expressions: all matches in the order of backtracking (`Re.run`), and a relation
(`Matches`) that it is proved sound and complete for.  `Demangle` models the expressions and functions of the front end, over any `c++filt`.  Spec (`Sig`): the parts of the
text of a C++ function.  `C70_name_partial`, `C70_call_partial`: every match of the expressions gives the name (the only parenthesis and the last space or colon before it
fix the split), and there is a match.  `C70_vector_partial`: the kind of vector, by induction on the nesting.  `C70_cast`: calls through a cast.  Refuted:
`C70_template_refuted`, `C70_operator_refuted`, `C70_scope_refuted`, `C70_skipped_refuted`, `C70_vector_refuted`.

### Search spaces with a hole

**C66** *(partial)*  `HoleSpace` models the bodies of the holes, the three functions that make a search space from a body, and their grammars.  Spec (in
`PHoleSpace`): the ten programs by the pixel that they compute (read off `benchmarks/blend/cpp`), the verification conditions of their two nested loops
(`Valid`), membership of a candidate in a grammar (`Resolves`, from C19), interpretations in which the functions found have their bodies.
`C66_contains_solution_partial`: a candidate is exhibited for each program, with the order of the loops `true` and no transposition; its membership is
proved by resolving the choices, its conditions with C31 and two loop invariants.  `C66_solution_sound_partial`: by induction on the rows and columns, the
result computed by the loops satisfies the result of any solution.  Refuted: with the preconditions of the drivers alone (first rows of the same length)
*no* candidate works, by inverting membership and evaluating the program on one ragged matrix and on one with empty rows.  Remark: the inner
invariant of the grammar bounds the row by `row <= len` only; it suffices because the conditions of the inner loop keep the condition
of the outer loop.  The verification conditions are stated by the loops' meaning, not produced by the model of the LLVM front end (whose nested
loops are refuted in C33).

**C71** *(partial)*  `GeneralSpace` models the three functions that make a search space for matrix programs from a depth.  Spec (in `PGeneralSpace`): the pixel as an
expression of two pixels and constants (`Px`, `Ar`) or a conditional of such expressions (`Cond`), with its depth, constants and value; the conditions are those of C66
(`Valid`); the interpretation must satisfy the declarations (C31) and `ColPrims`, what the backends agree on about `matrix_col_slice`.
`C71_computation_partial`, `C71_select_partial`, `C71_dissolve_partial`: the slices needed are in the grammar of indices, the right-hand side is in the grammar of C58 up to the
order of operands, which changes no value; the conditions follow from two loop invariants as in C66.  `C71_solution_sound_partial`.  Refuted:
`C71_computation_deep_refuted`; `C71_computation_wide_refuted`, `C71_dissolve_wide_refuted` (for images with one row, the value of every right-hand side of an outer
invariant becomes constant when the number of columns grows).

### LLVM front end

**C72** *(partial)*  `LlvmLib` models the functions the front end knows (`fn_models`) on straight-line code, with the identity of objects: variables hold references into a
heap and methods change objects in place (`Llvm` has values instead, and gives the result of `push_back` the type of the vector; both are simplifications there that hold for
the programs C33 is about).  Spec: `LlvmLibSpec`, a machine on values with one rule for each library function (`LibVal`), undefined memory after `alloca`, no overflow, and the
meaning of the functions named in expressions (`LibFns`).  `PLlvmLib`: a simulation in which a register or cell is exempt from the moment its object is appended to under
another name (`Stale`) until it is written again.  `C72_library_partial`, `C72_function_partial`, `C72_function_no_append_partial`; the guard is that no exempt variable is read
and no argument object is appended to.  `PLlvmLibEx`: the functions of `LibFns` exist, an example for all lists, and the refutations `C72_append_variable_refuted`,
`C72_append_argument_refuted` (a false postcondition gets a valid obligation), `C72_contains_refuted`, `C72_push_back_type_refuted`, `C72_push_back_name_refuted`,
`C72_unsupported_refuted`.  Not modelled: results returned through a pointer argument (`sret`), several blocks (C33), struct fields.

**C73** *(partial)*  `LlmReply` models the way from a reply to the program that is checked: the regular expressions are those of the code, in the syntax of `PyRegex` (with
backtracking, in the order of Python's `re`).  Spec `LlmReplySpec`: a reply is prose and blocks (`replyText`), a lexer for one line of Python on top of the grammar and the
meaning of `PySyntax` (`HasValue`).  `C73_blocks_partial` (by the first match of a lazy repetition), `C73_program_partial`, `C73_one_block_partial`, `C73_ite_text_partial` (every
match cuts at the same commas), `C73_ite_partial` (the value of the call is the value of the text that replaces it), `C73_comments_partial`, `C73_docstring_partial`.  Refuted:
`C73_list_refuted`, `C73_first_block_refuted`, `C73_language_refuted`, `C73_operand_refuted`, `C73_nested_refuted`, `C73_cut_refuted`, `C73_comments_refuted`.  Not modelled:
`dedent` (it changes only white space for code that begins at the left margin), the services themselves.

**C74** *(partial)*  `LlmDissolve` models the changes for `dissolve_blend_8` (four passes over every function, `set_arguments` on the functions passed as arguments, the lists of
functions passed as arguments, the target language), over all attempts for one summary; declarations are objects that are changed in place (`touched`).  Spec `LlmDissolveSpec`:
the value of the solution in Python (`valueIn`), where a selection calls a closure that sees `opacity` and `rand_cons` of the function in which it stands; it does not mention the
rewritten names.  `C74_meaning_partial` (induction on expressions; the two selections of the changed target language by induction on vectors and matrices from their definitions),
`C74_invariant_partial`, `C74_summary_partial`, `C74_first_attempt`, `C74_attempts_partial`, `C74_in_calls_partial`, `C74_language`; a concrete solution satisfies all hypotheses
(`C74_example`).  Refuted: `C74_second_attempt_refuted`, `C74_captured_refuted`, `C74_in_calls_refuted`, `C74_language_refuted`.  The order of a `set` is that of the list in the
model; declarations of invariants are new objects in every attempt, as in the code.

**C75** *(partial)*  `Gemmini` models the generator: the text of an expression or statement is the syntax tree that C gives it, so that missing parentheses matter; the dictionary of
dimensions and the counter of temporary variables are threaded.  `GemminiSem` gives the statements a meaning (integers, arrays of `LEN` rows and columns, conversion to
`elem_t`, undefined behaviour).  Spec `GemminiSpec`: tensor expressions and their IR, arguments, range.  `C75_kernel_partial`: induction on the expression, with loop
invariants for the generated loops and the invariant that a subexpression changes no variable but its own target and later temporaries.  A concrete program satisfies the hypotheses
(`C75_example`).  Refuted: `C75_scale_refuted`, `C75_multiple_refuted`, `C75_scalar_add_refuted`, `C75_sum_refuted`, `C75_capture_refuted`, `C75_variable_refuted`, `C75_exception_refuted`,
`C75_rows_refuted`, `C75_range_refuted`, `C75_glue_refuted`.  Trusted: the reading of `tiled_resadd_auto` as the rounded sum of the scaled arrays.

**C76** *(partial)*  `LlmPrompt` models the arguments of invariants in the prompts (`get_inv_args`, with an arbitrary order of the set), the templates as text, the
arguments of the call in the verification condition (`PredicateTracker.invariant`, `Predicate.call`, any history of visits) and `re.sub` on the source program.
Spec in `PLlmPrompt`: the declared variables, a reader for the parameters of a template, the environment of a program point, programs as pieces between `return` statements.
`C76_arguments`, `C76_order`: sorted lists without repetitions and with the same elements are equal.  `C76_template`: the reader finds the names.
`C76_binding_partial`: invariant of the predicate table over all visits.  `C76_assert_partial`: induction on the pieces.  Refuted: `C76_example_order_refuted`, `C76_outer_counter_refuted`,
`C76_type_refuted`, `C76_no_arguments_refuted`, `C76_scope_refuted`, `C76_unknown_refuted`, `C76_double_refuted`, `C76_lines_refuted`, `C76_literal_refuted`,
`C76_comment_refuted`.  Not modelled: the constant text of the prompts, `dedent` of the whole prompt, word characters outside ASCII.

**C77** *(partial)*  `Gaudi` models the generator of TPC-C kernels instruction by instruction: types, the counter of variables, the cache of loads and literals, conversions, the removal of
repeated instructions, the loops, and from the glue code the numbers of tensors and dimensions and the structure of parameters.  `GaudiSem` says how a kernel runs: every lane has its own
variables, C's scoping decides what a name means, instructions need operands of the right type, and a machine is any that keeps values in the range of a type.  `GaudiSpec` gives the programs,
the tensors as values of the IR, and the guards.
`C77_kernel_partial`: induction on programs with the invariant that every variable in the list of instructions is declared once, before its uses, and holds the value of the expression it was
made for; that the cache refers to such variables only; and that removing repetitions keeps this.  `C77_parts_partial`: induction on the parts.  `C77_glue_partial`: induction on parameters.
`C77_selection_partial`: the kernel of a selection on two tensors, where both branches are computed and one is taken: numbers in the other may be out of range.
`C77_example`, `C77_text_example`, `C77_selection_example`: a program with cached loads and conversions; the absolute difference.  Refuted: `C77_condition_refuted`, `C77_capture_refuted`, `C77_slice_refuted`, `C77_summands_refuted`,
`C77_sum_refuted`, `C77_recursion_refuted`, `C77_unsupported_refuted`, `C77_range_refuted`, `C77_glue_refuted`, `C77_struct_refuted`.
Trusted: the reading of the TPC instructions; that `.v1` of a product of 32-bit integers holds the low 32 bits of all lanes; that loads and stores beyond the tensor do no harm, as the hardware
documentation says.  `Expr.__eq__` of an expression and an object is taken to be true, since it returns `NotImplemented`.  Not modelled: division, floating point, indentation.

**C78** *(partial)*  `LlmTest` models the script that runs the tests of generated programs: the imports, the tables, whose lists are shared by all programs, the exceptions that are caught and
those that are not, the set of programs seen, and the report.  What Python does with a program is a parameter (`World`).  Spec in `PLlmTest`: the tests that a program passes, programs
that keep their arguments.  `C78_run`: induction on the tests.  `C78_report_partial`: induction on the programs with the invariant that the table of inputs is unchanged.  `C78_example`: four programs
for `fdtd_2d_part2`.  Refuted: `C78_import_refuted` (a module that does not exist), `C78_parser_refuted` (positional arguments for keyword-only parameters), `C78_load_refuted`,
`C78_mutation_refuted`.  Not modelled: programs that do not terminate or change global objects, reading the file.

**C79** *(partial)*  `CorrectSols` models the stored solutions of the blending benchmarks with the functions of `dsl.py` as Python runs them (a division by zero is an exception, arguments of a
function are evaluated first) and the C++ programs (loops with `push_back`; division by zero and indices out of range are undefined).  Integers are unbounded.  Spec in `PCorrectSols`: matrices of the same
shape, a condition at all places.  Proof: all operations act place by place (`zz`), by induction on rows and columns; the loops by induction on the index.
`C79_exact`, `C79_normal`: six benchmarks on all inputs.  `C79_multiply_partial`, `C79_screen_partial`, `C79_color_burn_partial`, `C79_color_dodge_partial`, `C79_dissolve_partial`,
`C79_overlay_partial`: under guards.  `C79_example`.  Refuted: `C79_overlay_refuted` (boundary 128 instead of 16), `C79_zero_refuted` (`ite_int` evaluates the division),
`C79_negative_refuted` (rounding), `C79_screen_invariant_refuted`.  `LlamaSols` models the solutions of the Llama benchmarks in the same way; `integer_exp` and `integer_sqrt` are parameters, since
the C++ files only have placeholders for them.  `C79_llama_exact`: five benchmarks for all vectors and all bounds from 0 (the maximum: from 1) to the length.  `C79_softmax4_partial`, `C79_rmsnorm2_partial`,
`C79_transformer3_partial`, `C79_matmul_partial`: under guards.  `C79_llama_exp`: with the `integer_exp` of `dsl.py`.  `C79_llama_example`.  Refuted: `C79_llama_refuted` (empty prefix, negative bound, no columns, no elements, rounding).
Invariants: `LlamaInv` and `BlendInv` model the stored invariants and one iteration of the loops.  Spec `Proves` and `NestedProves`: the invariant holds first, every iteration keeps it from every state in which it
holds, and it gives the stored solution in the end.  `C79_invariants_hold`: then the invariant holds whenever the loop is reached, and the loop ends with the solution.  `C79_blend_invariants`, `C79_normal_invariants`, `C79_llama_invariants`, `C79_rmsnorm1_invariant`: on all inputs; `C79_multiply_invariants_partial`,
`C79_color_burn_invariants_partial`, `C79_color_dodge_invariants_partial`, `C79_dissolve_invariants_partial`, `C79_overlay_invariants_partial`, `C79_softmax1_invariant_partial`,
`C79_softmax4_invariant_partial`, `C79_rmsnorm2_invariant_partial`, `C79_transformer3_invariant_partial`, `C79_matmul_invariants_partial`: under the guards of the solutions (softmax 1: numbers from -32).
`C79_llama_invariant_example`, `C79_blend_invariant_example`.  Refuted: `C79_softmax1_invariant_refuted` (not inductive if a number is below -32; false before the loop for negative bounds),
`C79_overlay_invariant_refuted`.  `C79_screen_invariants_partial`: the stored inner invariant of screen proves the benchmark together with an outer invariant that slices
all matrices; the stored outer one does not (`C79_screen_invariant_refuted`).

**C33** *(partial)*  `VCVisitor`, `State`, block loop.  Spec: `LlvmSem` (a machine with registers and typed memory cells).  Proof: equations
satisfied by the states of the visited blocks (`LlvmEqn`), simulation of every run of any length (`LlvmSim`).  Guards `Shape` and `Flow`,
with a decision procedure (`LlvmCheck`) so that they can be evaluated for a function.  Simplifications of the model: no PHI nodes; each
name has one type; `i8` is a Boolean as in the front end; cells that are not written have a default value; the argument list of
invariants is a parameter of the loop record.

Vectors: `size`, `operator[]`, `push_back` and the constructor do in `LlvmSem` what the C++ standard says; the instruction is translated exactly if the
backend's function of the chosen name computes the same (`Inst.exact`).  `push_back` on vectors of vectors is not modelled.

**C51** *(partial)*  the chain from the solver's answer to the LLVM function: C33, C46, C27/C49, and for the driver C25, C50.  The machine
semantics takes division from a class `LlOps`; `solverOps` gives up on negative dividends, where SMT-LIB's division differs from LLVM's
(`returns_noDiv`: without divisions all runs are meant).  `Func.solverOk` is the decidable guard on instructions and types.  Instance: `SumLl`,
also through `Driver.synthesize` and from the grammars (`C51_from_grammars_partial`, as for C48).  Refuted: negative dividends, the whole files.

**C34, C35** *(partial)*  `merge_states`, one instruction.  **C39** *(proved)*, **C40** *(partial)*  block graph and empty-block pass;
paths as lists of choices.

### Code generation

**C38** *(partial)*  NumPy generator.  Text is a list of Python tokens, read with the parser of C23; NumPy semantics in `NumpySem`.  Guards:
`check` (decidable, on the expression) and `Fits` (shapes match, indices in range, no overflow).  Fifteen refutations.



## Testing the theorems

`scripts/seed.py` takes a list of edits to the model, applies each to a scratch copy of the last commit, rebuilds everything that depends on
the edited file and logs which theorems fail to `seeded/LOG.jsonl`.  An edit that breaks a property and leaves its theorems standing
means that a theorem is too weak; what was tightened then is recorded in the log (`tightened`).

## Axioms per theorem

Generated by `scripts/axioms.py` with `#print axioms`.

**Classical.choice, Quot.sound, propext**: `C01_python_vc_sound_partial`, `C02_return_in_both_branches_refuted`, `C02_return_in_loop_refuted`, `C02_returns_covered_partial`, `C03_loop_over_parameter_refuted`, `C03_loop_state_partial`, `C03_nested_loops_refuted`, `C03_two_loops_refuted`, `C05_translation_partial`, `C06_if_merge_partial`, `C06_list_merge_refuted`, `C07_obligations_kept_partial`, `C07_second_call_refuted`, `C08_call_site_partial`, `C08_call_site_refuted`, `C09_distinct_names`, `C09_invariant_args`, `C09_order_independent`, `C09_same_node_same_predicate`, `C10_and_objects_partial`, `C10_or_objects_partial`, `C11_contains`, `C11_no_duplicates`, `C11_order`, `C12_equivalence`, `C13_simplify`, `C14_optimize_loop_partial`, `C14_optimize_partial`, `C14_optimize_refuted`, `C15_all_complete`, `C15_names_distinct_partial`, `C16_duplicate_names_refuted`, `C16_topological_sort_partial`, `C16_variable_name_refuted`, `C17_prune_preserves`, `C17_prune_unique`, `C18_call_sites_partial`, `C18_caller_partial`, `C18_copy_partial`, `C19_argument_name_refuted`, `C19_grammar_language_partial`, `C19_merged_choices_refuted`, `C20_empty_bool_list_refuted`, `C20_function_name_refuted`, `C20_integer_prefix_refuted`, `C20_list_append_refuted`, `C20_rosette_roundtrip_partial`, `C20_tensor_slice_refuted`, `C20_variable_name_refuted`, `C21_cvc5_reading_partial`, `C21_cvc5_value_partial`, `C21_let_bindings_refuted`, `C21_nary_refuted`, `C22_division_partial`, `C23_conjunction_of_disjunction_refuted`, `C23_difference_of_sum_refuted`, `C23_division_refuted`, `C23_negated_conjunction_refuted`, `C23_negative_index_refuted`, `C23_nested_equality_refuted`, `C23_one_tuple_refuted`, `C23_product_of_sum_refuted`, `C23_quotient_of_product_refuted`, `C23_to_python_partial`, `C24_bounded_inputs_partial`, `C24_matrix_bound_one_refuted`, `C24_tuple_refuted`, `C25_ends_partial`, `C25_excluded_functions_refuted`, `C25_partial_file_refuted`, `C26_failures`, `C26_name_with_fail_refuted`, `C26_returns_verified`, `C26_solver_ends_refuted`, `C27_everything_follows_refuted`, `C27_preamble_inconsistent_refuted`, `C27_without_transpose_partial`, `C28_empty_row_refuted`, `C28_get_beyond_refuted`, `C28_lists_partial`, `C28_matrices_partial`, `C30_histories`, `C30_maps_partial`, `C37_list_operations_partial`, `C37_not_equal_refuted`, `C42_definitions_found_partial`, `C42_slash_refuted`, `C48_driver_partial`, `C48_from_grammars_partial`, `C48_left_side_refuted`, `C48_lifted_program_partial`, `C48_negative_divisor_refuted`, `C48_postcondition_partial`, `C48_whole_files_refuted`, `C50_actual_ps_partial`, `C50_actual_ps_second_refuted`, `C50_key_error_refuted`, `C50_llvm_own_version_partial`, `C50_llvm_silent_refuted`, `C50_other_function_refuted`, `C50_own_version_partial`, `C50_raises_partial`, `C51_from_grammars_partial`, `C52_candidates_partial`, `C52_nested_choices_refuted`, `C52_nonterminal_name_refuted`, `C63_atom_refuted`, `C63_candidates_partial`, `C63_driver_names`, `C63_substring_refuted`, `C65_text_partial`, `C68_example`, `C68_outcome`, `C68_relaxed_verified`, `C68_verified_partial`, `Gaudi.C77_capture_refuted`, `Gaudi.C77_condition_refuted`, `Gaudi.C77_example`, `Gaudi.C77_kernel_partial`, `Gaudi.C77_parts_partial`, `Gaudi.C77_range_refuted`, `Gaudi.C77_recursion_refuted`, `Gaudi.C77_selection_example`, `Gaudi.C77_selection_partial`, `Gaudi.C77_slice_refuted`, `Gaudi.C77_sum_refuted`, `Gaudi.C77_summands_refuted`, `Gaudi.C77_text_example`, `Gaudi.C77_unsupported_refuted`, `Gem.C75_capture_refuted`, `Gem.C75_example`, `Gem.C75_kernel_partial`, `Gem.C75_multiple_refuted`, `Gem.C75_rows_refuted`, `Gem.C75_scalar_add_refuted`, `Gem.C75_scale_refuted`, `Gem.C75_sum_refuted`, `Gem.C75_variable_refuted`, `Ll.C33_result_argument_refuted`, `Ll.C33_supported_partial`, `Ll.C33_vc_sound_partial`, `Ll.C34_merge_partial`, `Ll.C34_precondition_partial`, `Ll.C35_instruction_partial`, `Ll.C39_one_predecessor`, `Ll.C39_paths`, `Ll.C40_edges`, `Ll.C40_edges_are_jumps`, `Ll.C40_setup_blocks`, `Ll.C51_driver_partial`, `Ll.C51_lifted_program_partial`, `Ll.C51_negative_dividend_refuted`, `Ll.C51_no_division_partial`, `Ll.C51_postcondition_partial`, `Ll.C51_whole_files_refuted`, `Ll.C69_blocks_partial`, `Ll.C69_dot_refuted`, `Ll.C69_example`, `Ll.C69_latch_name_refuted`, `Ll.C69_loops_partial`, `Ll.C69_parallel_refuted`, `Ll.C69_space_refuted`, `Ll.C70_call_partial`, `Ll.C70_cast`, `Ll.C70_example`, `Ll.C70_name_partial`, `Ll.C70_operator_refuted`, `Ll.C70_scope_refuted`, `Ll.C70_template_refuted`, `Ll.C70_vector_partial`, `Ll.C70_vector_refuted`, `Ll.Lib.C72_append_argument_refuted`, `Ll.Lib.C72_append_variable_refuted`, `Ll.Lib.C72_contains_refuted`, `Ll.Lib.C72_example`, `Ll.Lib.C72_function_no_append_partial`, `Ll.Lib.C72_function_partial`, `Ll.Lib.C72_library_partial`, `Ll.Lib.C72_push_back_name_refuted`, `Ll.Lib.C72_push_back_type_refuted`, `Ll.Lib.C72_unsupported_refuted`, `Llm.C55_capture_refuted`, `Llm.C55_division_refuted`, `Llm.C55_keyword_refuted`, `Llm.C55_lambda_names`, `Llm.C55_list_display_refuted`, `Llm.C55_python`, `Llm.C55_solution_partial`, `Llm.C55_sorted_refuted`, `Llm.C55_step_refuted`, `Llm.C55_true_refuted`, `Llm.C56_feedback`, `Llm.C56_invariant_partial`, `Llm.C56_limits`, `Llm.C56_list_answers_refuted`, `Llm.C56_no_verification_refuted`, `Llm.C56_not_missed`, `Llm.C56_other_name_refuted`, `Llm.C56_rosette`, `Llm.C56_sat_refuted`, `Llm.C56_smt_any_answer_refuted`, `Llm.C56_smt_partial`, `Llm.C56_summary_partial`, `Llm.C57_other_language_refuted`, `Llm.C57_same_language_partial`, `Llm.Dis.C74_attempts_partial`, `Llm.Dis.C74_captured_refuted`, `Llm.Dis.C74_example`, `Llm.Dis.C74_first_attempt`, `Llm.Dis.C74_in_calls_refuted`, `Llm.Dis.C74_invariant_partial`, `Llm.Dis.C74_meaning_partial`, `Llm.Dis.C74_second_attempt_refuted`, `Llm.Dis.C74_summary_partial`, `Llm.Prompt.C76_arguments`, `Llm.Prompt.C76_assert_example`, `Llm.Prompt.C76_assert_partial`, `Llm.Prompt.C76_binding_partial`, `Llm.Prompt.C76_comment_refuted`, `Llm.Prompt.C76_double_refuted`, `Llm.Prompt.C76_example`, `Llm.Prompt.C76_example_order_refuted`, `Llm.Prompt.C76_lines_refuted`, `Llm.Prompt.C76_literal_refuted`, `Llm.Prompt.C76_no_arguments_refuted`, `Llm.Prompt.C76_order`, `Llm.Prompt.C76_outer_counter_refuted`, `Llm.Prompt.C76_scope_refuted`, `Llm.Prompt.C76_template`, `Llm.Prompt.C76_type_refuted`, `Llm.Prompt.C76_unknown_refuted`, `Llm.Reply.C73_blocks_partial`, `Llm.Reply.C73_comments_example`, `Llm.Reply.C73_comments_partial`, `Llm.Reply.C73_comments_refuted`, `Llm.Reply.C73_cut_refuted`, `Llm.Reply.C73_example`, `Llm.Reply.C73_first_block_refuted`, `Llm.Reply.C73_ite_example`, `Llm.Reply.C73_ite_partial`, `Llm.Reply.C73_ite_text_partial`, `Llm.Reply.C73_language_refuted`, `Llm.Reply.C73_list_refuted`, `Llm.Reply.C73_nested_refuted`, `Llm.Reply.C73_one_block_partial`, `Llm.Reply.C73_operand_refuted`, `Llm.Reply.C73_program_partial`, `Llm.Test.C78_example`, `Llm.Test.C78_report_partial`, `Llm.Test.C78_run`, `Np.C38_append_to_empty_refuted`, `Np.C38_element_of_sum_refuted`, `Np.C38_list_concat_refuted`, `Np.C38_list_eq_refuted`, `Np.C38_list_prepend_refuted`, `Np.C38_list_tail_refuted`, `Np.C38_matrix_length_refuted`, `Np.C38_matrix_prepend_refuted`, `Np.C38_negated_conjunction_refuted`, `Np.C38_negative_divisor_refuted`, `Np.C38_nested_conditional_refuted`, `Np.C38_nested_select_refuted`, `Np.C38_numpy_partial`, `Np.C38_overflow_refuted`, `Np.C38_synthesized_call_refuted`, `Np.C38_three_summands_refuted`, `Rkt.C53_library`, `Rkt.C53_map_insert_arity_refuted`, `Rkt.C53_nonvacuous`, `Rkt.C53_transpose_fuel_refuted`, `Rkt.C54_example`, `Rkt.C54_guarded_remainder_refuted`, `Rkt.C54_overflow_refuted`, `Rkt.C54_recursion_refuted`, `Rkt.C54_shadowed_refuted`, `Rkt.C54_six_bits_example`, `Rkt.C54_six_bits_partial`, `Rkt.C54_six_bits_refuted`, `Rkt.C54_verified_iff_partial`, `Rkt.C54_verified_inputs_partial`, `Rkt.C54_width`, `Rkt.C61_depth_refuted`, `Rkt.C61_example`, `Rkt.C61_found_partial`, `Rkt.C61_six_bits_partial`, `Rkt.C61_six_bits_refuted`, `Rkt.C61_solutions_partial`, `Rkt.C61_width`, `Rkt.C67_distinct_partial`, `Rkt.C67_example`, `Rkt.C67_first_partial`, `Rkt.C67_found_partial`, `Rkt.C67_later_refuted`, `Rkt.C67_no_functions_partial`, `Rkt.C67_rounds_partial`, `SO.C64_membership_refuted`, `SO.C64_tuples_refuted`, `Smt.C27_every_query_unsat_refuted`, `Smt.C27_files_satisfiable_partial`, `Smt.C27_files_unsatisfiable_refuted`, `Smt.C45_large_tuple_refuted`, `Smt.C45_negative_literal_refuted`, `Smt.C45_projection_of_call_refuted`, `Smt.C45_projection_raises_refuted`, `Smt.C45_smt_text_accepted_partial`, `Smt.C45_smt_text_value_partial`, `Smt.C45_variable_renamed_refuted`, `Smt.C46_fn_decl_raises_refuted`, `Smt.C46_query_meaning_partial`, `Smt.C46_query_written_partial`, `Smt.C46_sat_counterexample_partial`, `Smt.C46_unsat_valid_partial`, `Smt.C47_axiom_about_candidate_refuted`, `Smt.C47_axiom_without_variables_refuted`, `Smt.C47_files_and_query_accepted_partial`, `Smt.C47_negative_literal_refuted`, `Smt.C47_query_accepted_partial`, `Smt.C47_uninterpreted_function_refuted`, `Smt.C49_get_beyond_any`, `Smt.C49_integer_exp_determined`, `Smt.C49_lists_determined`, `Smt.C49_matrices_determined`, `Smt.C62_grammar_partial`, `Smt.C62_query_refuted`, `Sols.C79_blend_invariants`, `Sols.C79_color_burn_invariants_partial`, `Sols.C79_color_burn_partial`, `Sols.C79_color_dodge_invariants_partial`, `Sols.C79_color_dodge_partial`, `Sols.C79_dissolve_invariants_partial`, `Sols.C79_dissolve_partial`, `Sols.C79_exact`, `Sols.C79_llama_exact`, `Sols.C79_llama_exp`, `Sols.C79_llama_invariants`, `Sols.C79_matmul_invariants_partial`, `Sols.C79_matmul_partial`, `Sols.C79_multiply_invariants_partial`, `Sols.C79_multiply_partial`, `Sols.C79_normal`, `Sols.C79_normal_invariants`, `Sols.C79_overlay_invariants_partial`, `Sols.C79_overlay_partial`, `Sols.C79_rmsnorm1_invariant`, `Sols.C79_rmsnorm2_invariant_partial`, `Sols.C79_rmsnorm2_partial`, `Sols.C79_screen_invariant_refuted`, `Sols.C79_screen_invariants_partial`, `Sols.C79_screen_partial`, `Sols.C79_transformer3_invariant_partial`, `Sols.C79_transformer3_partial`, `Sols.C79_zero_refuted`, `Ten.Ax.C32_index_zero_refuted`, `Ten.Ax.C32_matrices_partial`, `Ten.Ax.C32_matrix_vec_mul_partial`, `Ten.Ax.C32_matrix_vec_mul_refuted`, `Ten.Ax.C32_selections_index_zero_refuted`, `Ten.Ax.C32_selections_partial`, `Ten.Ax.C32_vectors_partial`, `Ten.C31_empty_rows_refuted`, `Ten.C31_functional`, `Ten.C31_integer_sqrt_16_refuted`, `Ten.C31_matrices_mismatch`, `Ten.C31_matrices_partial`, `Ten.C31_matrix_selections_partial`, `Ten.C31_matrix_vec_mul`, `Ten.C31_scalar_matrices_partial`, `Ten.C31_tensors_partial`, `Ten.C31_vectors`, `Ten.C37_matrix_arithmetic_partial`, `Ten.C37_vector_arithmetic`, `Ten.C58_conditionals`, `Ten.C58_int_exact`, `Ten.C58_int_expressions`, `Ten.C58_tensor_expressions_partial`, `Ten.C59_loop_bounds`, `Ten.C60_helper_refuted`, `Ten.C60_ite_int_refuted`, `Ten.C60_left_out_names`, `Ten.C60_left_out_partial`, `Ten.C60_library_functions`, `Ten.C60_prefix_refuted`, `Ten.C60_transpose_refuted`, `Ten.C65_integer_sqrt_refuted`, `Ten.C65_tensor_declared_partial`, `Ten.C65_tensor_functional`, `Ten.C65_tensor_integer_exp`, `Ten.C65_tensor_matrices`, `Ten.C65_tensor_matrix_vec_mul`, `Ten.C65_tensor_reductions`, `Ten.C65_tensor_slices`, `Ten.C65_tensor_text`, `Ten.C65_tensor_vectors`, `Ten.C65_transpose_refuted`, `Ten.C66_contains_solution_partial`, `Ten.C66_empty_rows_refuted`, `Ten.C66_ragged_refuted`, `Ten.C71_computation_partial`, `Ten.C71_computation_wide_refuted`, `Ten.C71_dissolve_partial`, `Ten.C71_dissolve_wide_refuted`, `Ten.C71_select_partial`.

**Quot.sound, propext**: `C13_simplified`, `C23_syntax_error_refuted`, `C25_failures`, `C25_no_solution_file_refuted`, `C25_returns_verified`, `C28_negative_get_refuted`, `C28_negative_tail_refuted`, `C29_sets`, `C29_sortedness_needed`, `C30_map_eq_refuted`, `C36_different_inputs_refuted`, `C36_files`, `C36_invalid_solution_refuted`, `C36_no_functions_refuted`, `C36_no_repetition`, `C36_nothing_else_partial`, `C41_arbitrary_choice_partial`, `C43_fuel_refuted`, `C43_transpose_rosette`, `C44_integer_exp_partial`, `C65_tensor_type_refuted`, `C65_types_refuted`, `C68_default_refuted`, `C68_endless_refuted`, `C68_first_outcome`, `Gaudi.C77_glue_partial`, `Gem.C75_range_refuted`, `Ll.C33_irreducible_refuted`, `Ll.C33_leaked_postconditions_refuted`, `Ll.C33_nested_loops_refuted`, `Ll.C33_sequential_loops_refuted`, `Ll.C34_single`, `Ll.C39_instructions`, `Llm.C55_lambda_names_first`, `Llm.Dis.C74_in_calls_partial`, `Llm.Dis.C74_language`, `Llm.Dis.C74_language_refuted`, `Llm.Reply.C73_docstring_partial`, `Llm.Test.C78_load_refuted`, `Rkt.C61_all_resolutions`, `SO.C64_set_programs_partial`, `SO.C64_set_types`, `SO.C64_tuple_bounds`, `Sols.C79_example`, `Sols.C79_overlay_refuted`, `Sols.C79_softmax1_invariant_partial`, `Sols.C79_softmax1_invariant_refuted`, `Sols.C79_softmax4_invariant_partial`, `Sols.C79_softmax4_partial`, `Ten.Ax.C32_reduce_max_partial`, `Ten.Ax.C32_reduce_max_refuted`, `Ten.Ax.C32_reduce_sum_partial`, `Ten.C31_integer_exp`, `Ten.C31_integer_sqrt_refuted`, `Ten.C31_reductions`, `Ten.C58_relaxed`, `Ten.C58_tensor_deep_product_refuted`, `Ten.C58_tensor_deep_refuted`, `Ten.C59_loop_index`, `Ten.C60_axioms`, `Ten.C66_solution_sound_partial`, `Ten.C71_computation_deep_refuted`, `Ten.C71_solution_sound_partial`.

**none**: `C22_negative_refuted`, `C22_zero_refuted`, `Ll.C40_unnamed_blocks_refuted`, `Ll.C40_unreachable_refuted`, `Sols.C79_invariants_hold`.

**propext**: `C04_writes_cover`, `C05_chained_comparison_refuted`, `C10_and_objects_refuted`, `C12_congruence`, `C12_same_value_partial`, `C12_same_value_refuted`, `C15_direct_clash_refuted`, `C15_index_clash_refuted`, `C17_prune_signatures`, `C18_applied_twice_refuted`, `C18_two_callers_refuted`, `C18_two_function_parameters_refuted`, `C23_implies_refuted`, `C37_prepend_empty_row_refuted`, `C37_type_checked`, `C41_nested_choice_refuted`, `C44_integer_sqrt_refuted`, `Gaudi.C77_glue_refuted`, `Gaudi.C77_struct_refuted`, `Gem.C75_exception_refuted`, `Gem.C75_glue_refuted`, `Ll.C34_empty_precondition_refuted`, `Ll.C35_conversion_refuted`, `Ll.C35_division_nonneg`, `Ll.C35_sdiv_refuted`, `Ll.C35_unsigned_refuted`, `Ll.C35_wraparound_refuted`, `Ll.C70_skipped_refuted`, `Llm.Test.C78_import_refuted`, `Llm.Test.C78_mutation_refuted`, `Llm.Test.C78_parser_refuted`, `SO.C64_remove_refuted`, `SO.C64_set_equality`, `SO.C64_tuples_partial`, `Sols.C79_blend_invariant_example`, `Sols.C79_llama_example`, `Sols.C79_llama_invariant_example`, `Sols.C79_llama_refuted`, `Sols.C79_negative_refuted`, `Sols.C79_overlay_invariant_refuted`.
