{"id": "C01", "title": "Python frontend: an accepted verification condition implies the postcondition", "statement": "When a Python function is analysed and called through the Driver, and the conjunction of all obligations it emits is valid for some interpretation of the synthesized invariants and postcondition, then every terminating run of the function on arguments satisfying the preconditions returns a value r for which ps(args, r) holds.", "quantifier": "all programs of the supported statement language (assignment, if/else, while, return, nested arbitrarily), all interpretations of the predicates, all inputs, all terminating executions", "why_tests_cant": "the set of programs, loop iteration counts and candidate predicates is unbounded; a test only samples one program with one candidate", "anchors": ["metalift/frontend/python.py:VCVisitor.visit_assignment_stmt", "metalift/frontend/python.py:VCVisitor.visit_if_stmt", "metalift/frontend/python.py:VCVisitor.visit_while_stmt", "metalift/frontend/python.py:VCVisitor.visit_return_stmt", "metalift/frontend/python.py:Driver.synthesize"]}
{"id": "C02", "title": "Python frontend: no return path loses its obligation", "statement": "For every return statement that can be reached in some run, an obligation 'path condition implies ps(args, returned value)' is part of the verification condition handed to the synthesizer (in particular for returns in both branches of an if and for returns inside a loop body).", "quantifier": "all programs with early returns in branches and loops, all inputs", "why_tests_cant": "which obligations survive merging depends on the shape of the program; tests use at most two returns", "anchors": ["metalift/frontend/python.py:VCVisitor.visit_if_stmt", "metalift/frontend/python.py:VCVisitor.visit_while_stmt", "metalift/frontend/python.py:VCVisitor.visit_return_stmt"]}
{"id": "C03", "title": "Python frontend: loops are over-approximated by fresh symbols", "statement": "After a loop, the symbolic state describes every concrete state that can leave the loop: the symbols standing for modified variables are not constrained by anything assumed before the loop about other symbols of the same name (two loops over the same variable, loops that modify a parameter).", "quantifier": "all programs with several loops or loops over parameters, all iteration counts", "why_tests_cant": "a clash shows up only as a verification condition that is too easy to prove, i.e. as a wrong result accepted", "anchors": ["metalift/frontend/python.py:VCVisitor.visit_while_stmt", "metalift/frontend/python.py:RWVarsVisitor"]}
{"id": "C04", "title": "Python frontend: read/write analysis covers every assignment", "statement": "Every variable whose value differs between the entry and the exit of one execution of a statement is in the write set computed for that statement; variables outside the write set are unchanged.", "quantifier": "all statements of the language, all stores, all terminating executions", "why_tests_cant": "needs every nesting of statements and every execution", "anchors": ["metalift/frontend/python.py:RWVarsVisitor"]}
{"id": "C05", "title": "Python frontend: symbolic expression translation is faithful", "statement": "Translating a supported Python expression gives an IR expression that evaluates, in every concrete store described by the symbolic state, to the value Python computes; in particular a chained comparison a < b < c means a < b and b < c.", "quantifier": "all expressions, all symbolic states, all concrete stores", "why_tests_cant": "unbounded expressions and stores", "anchors": ["metalift/frontend/python.py:VCVisitor.visit_op_expr", "metalift/frontend/python.py:VCVisitor.visit_comparison_expr", "metalift/frontend/python.py:VCVisitor.visit_unary_expr"]}
{"id": "C06", "title": "Python frontend: variables merged after an if/else have the value of the branch taken", "statement": "After an if/else the symbolic value of every variable in scope evaluates to the value the variable has after the branch that is taken, for every type of variable (int, bool, list, set).", "quantifier": "all conditions, all pairs of branch states, all stores", "why_tests_cant": "depends on all condition outcomes and value types", "anchors": ["metalift/frontend/python.py:VCVisitor.visit_if_stmt", "metalift/ir.py:Int.__ne__", "metalift/ir.py:List.__eq__", "metalift/ir.py:Set.__eq__"]}
{"id": "C07", "title": "Python frontend: analyses are independent", "statement": "The obligations generated for one call of an analysed function depend only on that function and that call: assumptions and obligations of earlier calls or other functions are not added to or removed from it.", "quantifier": "all sequences of calls of analysed functions", "why_tests_cant": "depends on the whole history of calls made through the driver in the process", "anchors": ["metalift/frontend/python.py:State.__init__", "metalift/frontend/python.py:MetaliftFunc.__call__"]}
{"id": "C08", "title": "Python frontend: what a call site assumes is what the callee proves", "statement": "After calling an analysed function, the fact assumed about its result is the same predicate instance, with arguments in the same positions, as the one required to hold at the callee's return statements.", "quantifier": "all argument lists and results", "why_tests_cant": "positional mix-ups are invisible when arguments and result happen to be interchangeable", "anchors": ["metalift/frontend/python.py:MetaliftFunc.__call__", "metalift/frontend/python.py:VCVisitor.visit_return_stmt", "metalift/frontend/python.py:PredicateTracker.postcondition"]}
{"id": "C09", "title": "Invariant arguments cover the scope in a deterministic order", "statement": "The argument list of a loop invariant is the function arguments in order followed by all other in-scope variables, each exactly once, sorted by name, independent of the order in which the scope was collected; a second request with the same name returns the first predicate.", "quantifier": "all argument lists and scopes", "why_tests_cant": "dictionary/set orderings vary, all scopes must be considered", "anchors": ["metalift/frontend/python.py:PredicateTracker.invariant", "metalift/frontend/llvm.py:PredicateTracker.invariant", "metalift/frontend/utils.py:ObjectSet"]}
{"id": "C10", "title": "and_objects / or_objects denote conjunction / disjunction", "statement": "For every non-empty list of booleans, and_objects (or_objects) returns an expression that is true exactly when all (some) of them are true, duplicates notwithstanding; on the empty list they raise.", "quantifier": "all lists of boolean objects, all valuations", "why_tests_cant": "lists are unbounded and duplicate elimination uses object equality", "anchors": ["metalift/vc_util.py:and_objects", "metalift/vc_util.py:or_objects"]}
{"id": "C11", "title": "ObjectSet behaves as an insertion-ordered set", "statement": "After any sequence of operations an ObjectSet contains an object iff it was added, lists elements without duplicates in order of first insertion, and difference and union behave as on sets.", "quantifier": "all sequences of operations, all elements", "why_tests_cant": "unbounded histories", "anchors": ["metalift/frontend/utils.py:ObjectSet"]}
{"id": "C12", "title": "Structural expression equality is a congruence consistent with hashing", "statement": "Equality of IR expressions is reflexive, symmetric and transitive, equal expressions have equal hashes, and equal expressions denote the same value in every environment.", "quantifier": "all expressions, all environments", "why_tests_cant": "all pairs and triples of expressions", "anchors": ["metalift/ir.py:Expr.__eq__", "metalift/ir.py:Expr.__hash__"]}
{"id": "C13", "title": "simplify preserves meaning", "statement": "Simplifying an expression never changes its value in any environment.", "quantifier": "all expressions, all environments", "why_tests_cant": "unbounded expressions", "anchors": ["metalift/ir.py:Expr.simplify"]}
{"id": "C14", "title": "optimize_useless_equality never makes an invalid condition valid", "statement": "If the optimized verification condition holds for all values of its variables (including the new ones introduced), then the original one holds for all values of its variables.", "quantifier": "all expressions, all environments", "why_tests_cant": "soundness of a rewriting must hold for every formula and position", "anchors": ["metalift/ir.py:Expr.optimize_useless_equality", "metalift/ir.py:Expr.collectKnowledge", "metalift/ir.py:Expr.rewrite", "metalift/ir.py:Expr.count_variable_uses"]}
{"id": "C15", "title": "VariableTracker never hands out the same name for two variables", "statement": "In any sequence of group() and variable() calls on one tracker, different calls return variables with different names.", "quantifier": "all call sequences, all requested names", "why_tests_cant": "unbounded call histories, names chosen by the user", "anchors": ["metalift/analysis.py:VariableTracker", "metalift/analysis.py:VariableGroup", "metalift/analysis.py:format_with_index"]}
{"id": "C16", "title": "topological_sort emits every definition once, after what it calls", "statement": "For every list of function definitions whose call graph is acyclic apart from self-recursion, the sorted list is a permutation of the input in which each function comes after all functions it calls and axioms come last; otherwise it raises.", "quantifier": "all lists of function declarations and axioms", "why_tests_cant": "all call graphs of any size", "anchors": ["metalift/smt_util.py:topological_sort", "metalift/smt_util.py:get_direct_calls", "metalift/smt_util.py:get_dependent_fn_names"]}
{"id": "C17", "title": "prune_fn_decls preserves the meaning of every function", "statement": "Pruning conditionals with constant conditions does not change the value of any function on any argument.", "quantifier": "all sets of functions, all arguments", "why_tests_cant": "all bodies and arguments", "anchors": ["metalift/synthesis_common.py:prune_fn_decls"]}
{"id": "C18", "title": "Higher-order functions are specialised without changing meaning", "statement": "The SMT output replaces a function taking a function parameter by first-order copies specialised to the function passed; every specialised copy computes what the original computes when applied to that function.", "quantifier": "all functions with function parameters, all arguments", "why_tests_cant": "all bodies and recursion depths", "anchors": ["metalift/smt_util.py:filter_body", "metalift/smt_util.py:filter_fn_args", "metalift/smt_util.py:augment_arguments", "metalift/smt_util.py:replace_fn_name", "metalift/smt_util.py:toSMT"]}
{"id": "C19", "title": "Grammars emitted for synthesis generate exactly the language of the user's choose expression", "statement": "The grammar printed for a function to synthesize (one production per shared choose node plus a start production) derives exactly the expressions obtained from the user's expression by resolving every choose to one of its alternatives.", "quantifier": "all grammar expressions, all derivable expressions", "why_tests_cant": "languages are exponentially large or infinite in number", "anchors": ["metalift/ir.py:Synth.to_rosette", "metalift/ir.py:Synth.toSMT", "metalift/ir.py:Expr.findCommonExprs", "metalift/ir.py:Expr.replaceExprs", "metalift/ir.py:Expr.chooseArbitrarily"]}
{"id": "C20", "title": "Rosette text printed for an expression is read back as the same expression", "statement": "For every expression without choose, parsing the S-expression printed for Rosette gives back an expression with the same value in every environment.", "quantifier": "all choose-free expressions of the supported operators, all environments", "why_tests_cant": "unbounded expressions", "anchors": ["metalift/ir.py:Expr.toRosetteSimple", "metalift/ir.py:Call.to_rosette", "metalift/synthesize_rosette.py:to_expr"]}
{"id": "C21", "title": "CVC5 candidates are read back with the meaning they were printed with", "statement": "For every S-expression CVC5 can print in the supported fragment (including let bindings and unary minus), the parsed expression has the value of the S-expression in every environment.", "quantifier": "all S-expressions, all environments", "why_tests_cant": "unbounded nesting, let scoping", "anchors": ["metalift/synthesize_cvc5.py:toExpr", "metalift/synthesize_cvc5.py:flatten"]}
{"id": "C22", "title": "Division and remainder mean the same to the synthesizer, the verifier and the generated Python", "statement": "For all operands, the value of Div and Mod under the Rosette, SMT and Python renderings coincide.", "quantifier": "all pairs of integers", "why_tests_cant": "sign combinations and zero over an infinite domain", "anchors": ["metalift/ir.py:Div", "metalift/ir.py:Mod", "metalift/utils/utils.rkt:quotient-noerr"]}
{"id": "C23", "title": "Generated Python text has the value of the expression", "statement": "Parsing the Python text produced for an expression with Python's precedence rules gives an expression with the same value in every environment.", "quantifier": "all expressions, all environments", "why_tests_cant": "precedence errors depend on nesting", "anchors": ["metalift/ir.py:Expr.to_python", "tests/python/utils/utils.py:codegen"]}
{"id": "C24", "title": "Bounded symbolic inputs have the requested shape and nothing is left unquantified", "statement": "For every variable type and list bound, the symbolic value generated for Rosette is a container of exactly the bounded shape, and every symbolic constant it mentions is in the list of quantified constants.", "quantifier": "all types (nested lists), all bounds >= 1", "why_tests_cant": "all bounds and nesting depths", "anchors": ["metalift/rosette_translator.py:gen_var", "metalift/rosette_translator.py:generate_vars"]}
{"id": "C25", "title": "Rosette synthesis loop returns only verified candidates", "statement": "The synthesis loop returns a candidate only if the verifier answered unsat for that very candidate (or verification was switched off); it examines candidates in order without skipping, and otherwise ends with SynthesisFailed or VerificationFailed.", "quantifier": "all behaviours of the solver processes (outputs, crashes, timing) and all numbers of rounds", "why_tests_cant": "interleavings of two processes and the file system", "anchors": ["metalift/synthesize_rosette.py:synthesize", "metalift/synthesis_common.py:verify_synth_result"]}
{"id": "C26", "title": "CVC5 synthesis loop returns only verified candidates", "statement": "The CVC5 loop returns only on unsat and raises otherwise.", "quantifier": "all solver outputs, all sequences of candidates", "why_tests_cant": "unbounded number of candidates and interleavings", "anchors": ["metalift/synthesize_cvc5.py:synthesize"]}
{"id": "C27", "title": "The SMT preamble is consistent", "statement": "The list theory that is prepended to every verification query has a model, so that 'unsat' is never due to the preamble itself.", "quantifier": "all interpretations of the declared functions", "why_tests_cant": "non-existence/existence of models over an infinite domain", "anchors": ["metalift/utils/list-axioms.smt"]}
{"id": "C28", "title": "List primitives mean the same to Rosette and to the SMT verifier", "statement": "For arguments in range, each list/matrix primitive returns the same value in Rosette's definition and in every interpretation satisfying the SMT axioms.", "quantifier": "all lists, all indices", "why_tests_cant": "infinite domains; recursion", "anchors": ["metalift/utils/utils.rkt", "metalift/utils/list-axioms.smt"]}
{"id": "C29", "title": "Rosette sets implement finite sets", "statement": "On strictly sorted lists, insert, union, difference, subset, membership and equality implement the mathematical set operations and keep lists strictly sorted.", "quantifier": "all sorted integer lists", "why_tests_cant": "unbounded sets", "anchors": ["metalift/utils/utils.rkt:set-union", "metalift/utils/utils.rkt:set-minus", "metalift/utils/utils.rkt:set-subset", "metalift/utils/utils.rkt:set-insert"]}
{"id": "C30", "title": "Rosette maps implement finite maps", "statement": "Looking up a key after an insert gives the inserted value for that key and the old value for others, map-contains tells presence, and maps with the same content are equal.", "quantifier": "all sequences of insertions, all keys", "why_tests_cant": "unbounded histories", "anchors": ["metalift/utils/utils.rkt:map-insert", "metalift/utils/utils.rkt:map-get", "metalift/utils/utils.rkt:map-eq"]}
{"id": "C31", "title": "Tensor DSL functions compute their textbook meaning", "statement": "Each function of the tensor target language (element-wise and scalar arithmetic, reductions, matrix-vector product, map, selection) computes the usual mathematical function on all lists of matching size, and the documented default otherwise.", "quantifier": "all lists/matrices of all sizes", "why_tests_cant": "recursion over unbounded lists", "anchors": ["metalift/utils/tenspiler/tenspiler_common.py:elemwise_body", "metalift/utils/tenspiler/tenspiler_common.py:scalar_body", "metalift/utils/tenspiler/tenspiler_common.py:reduce_sum_body", "metalift/utils/tenspiler/tenspiler_common.py:matrix_vec_mul_body"]}
{"id": "C32", "title": "Tensor axioms are theorems of the functions they describe", "statement": "Each axiom supplied to the verifier for a tensor function holds for all its variables, given the function's definition.", "quantifier": "all lists, matrices, scalars and indices", "why_tests_cant": "an axiom that fails at one corner makes every query trivially unsat", "anchors": ["metalift/utils/tenspiler/axioms.py"]}
{"id": "C33", "title": "LLVM frontend: an accepted verification condition implies the postcondition", "statement": "For every LLVM function with reducible loops, if the conjunction of generated obligations is valid for some invariants and postcondition, every terminating run from arguments satisfying the preconditions returns a value satisfying the postcondition.", "quantifier": "all control-flow graphs, all executions", "why_tests_cant": "unbounded graphs and executions", "anchors": ["metalift/frontend/llvm.py:VCVisitor.visit_llvm_block", "metalift/frontend/llvm.py:VCVisitor.merge_states", "metalift/frontend/llvm.py:VCVisitor.visit_ret_instruction"]}
{"id": "C34", "title": "LLVM frontend: merging predecessor states keeps the value of the path taken", "statement": "At a join block the merged value of each variable evaluates to the value it has in the predecessor actually left, for every path condition assignment in which exactly one predecessor condition holds.", "quantifier": "any number of predecessors, all values and conditions", "why_tests_cant": "all combinations of path conditions", "anchors": ["metalift/frontend/llvm.py:VCVisitor.merge_states"]}
{"id": "C35", "title": "LLVM instructions are translated to their meaning", "statement": "Each supported instruction's symbolic result evaluates to the value LLVM defines for it (for values without overflow), including comparisons and signed division.", "quantifier": "all operand values", "why_tests_cant": "infinite operand domains", "anchors": ["metalift/frontend/llvm.py:VCVisitor.visit_icmp_instruction", "metalift/frontend/llvm.py:VCVisitor.visit_div_instruction", "metalift/frontend/llvm.py:VCVisitor.visit_rem_instruction"]}
{"id": "C36", "title": "Each synthesis round excludes earlier answers", "statement": "The constraint added for round i makes it impossible that round i repeats a solution of an earlier round, and forbids nothing else.", "quantifier": "all numbers of rounds, all solutions", "why_tests_cant": "unbounded rounds", "anchors": ["metalift/rosette_translator.py:generate_synth"]}
{"id": "C37", "title": "List indexing and slicing of IR lists follow Python", "statement": "l[i], l[a:b], l[:b], l[a:], len, append, prepend and + on IR lists denote the corresponding Python list operations for in-range non-negative indices; vector arithmetic helpers pass operands in the right order.", "quantifier": "all lists, all in-range indices, all scalars", "why_tests_cant": "all sizes and index combinations", "anchors": ["metalift/ir.py:List.__getitem__", "metalift/ir.py:List.append", "metalift/ir.py:List.prepend", "metalift/ir.py:List.add", "metalift/ir.py:List.sub"]}
{"id": "C38", "title": "NumPy code generation keeps the meaning of tensor expressions", "statement": "The NumPy expression generated for a synthesized tensor program computes the same value as the program under NumPy semantics.", "quantifier": "all tensor expressions, all inputs of matching shape", "why_tests_cant": "all nestings", "anchors": ["tests/llvm/tenspiler/codegen/numpy_codegen.py"]}
{"id": "C39", "title": "Empty-block pass gives every conditional edge its own block and keeps executions", "statement": "After the pass, each successor of a conditional branch has exactly one predecessor, and every path of the original graph corresponds to exactly one path of the new graph.", "quantifier": "all control-flow graphs", "why_tests_cant": "all graph shapes", "anchors": ["llvm-pass/addEmptyBlocks/AddEmptyBlocks.cpp"]}
{"id": "C40", "title": "Block graph construction is faithful", "statement": "setupBlocks records block B as predecessor of C exactly when B's terminator can jump to C, and successors are the converse relation.", "quantifier": "all lists of blocks", "why_tests_cant": "all graph shapes", "anchors": ["metalift/analysis.py:setupBlocks"]}
{"id": "C41", "title": "Arbitrary choices come from the grammar", "statement": "When Rosette returns no definition for a function, the definition used instead is one of the expressions of that function's grammar and contains no unresolved choice.", "quantifier": "all grammar expressions, however chooses are nested", "why_tests_cant": "Tests use one grammar each; nesting depth and sharing are unbounded.", "anchors": ["metalift/ir.py:Expr.chooseArbitrarily", "metalift/ir.py:Choose.chooseArbitrarily", "metalift/synthesize_rosette.py:synthesize"]}
{"id": "C42", "title": "Every definition in Rosette's answer is found and read whole", "statement": "For every answer of Rosette made of definitions preceded by their source locations, the text of each definition is extracted, in order, and parses as the definition does, even when it spans several lines.", "quantifier": "all numbers of definitions, all numbers of lines per definition", "why_tests_cant": "Answers have unboundedly many definitions and lines; tests exercise a few recorded answers.", "anchors": ["metalift/synthesize_rosette.py:parse_output", "metalift/synthesize_rosette.py:generate_ast"]}
{"id": "C43", "title": "Rosette transposes matrices", "statement": "For every rectangular matrix, matrix_transpose as run by Rosette returns the matrix whose rows are the columns of the argument.", "quantifier": "all rectangular matrices of all sizes", "why_tests_cant": "infinitely many sizes; the recursion is bounded by fuel", "anchors": ["metalift/utils/utils.rkt:matrix-transpose-noerr", "metalift/utils/utils.rkt:firsts", "metalift/utils/utils.rkt:rests", "metalift/utils/bounded.rkt"]}
{"id": "C44", "title": "Integer helper functions mean the same to Rosette and to the verifier", "statement": "integer_exp and integer_sqrt have the same value when run by Rosette as in every interpretation that satisfies the SMT definitions.", "quantifier": "all integers, all interpretations", "why_tests_cant": "unbounded recursion over all integers", "anchors": ["metalift/utils/utils.rkt:integer-exp-noerr", "metalift/utils/utils.rkt:integer-sqrt-noerr", "metalift/utils/integer-fn-axioms.smt"]}
{"id": "C45", "title": "The SMT-LIB text of an expression has the value of the expression", "statement": "The text that toSMT returns for an expression is exactly one SMT-LIB term; in every structure that gives the same meaning to the functions, the term has the value that the expression has in the intermediate representation, and the solver accepts it when the variables and functions used are declared.", "quantifier": "all expressions of any depth, all interpretations, all values of the variables", "why_tests_cant": "expressions nest arbitrarily; names, literals and tuple sizes that are printed wrongly are found only by looking at all of them", "anchors": ["metalift/ir.py:Call.toSMT", "metalift/ir.py:Expr.toSMTSimple", "metalift/ir.py:Lit.toSMT", "metalift/ir.py:Var.toSMT", "metalift/ir.py:TupleExpr.toSMT", "metalift/ir.py:toSMT methods of the operator classes", "metalift/utils/tuples.smt"]}
{"id": "C46", "title": "The verification query is satisfiable exactly when the verification condition has a counterexample", "statement": "A structure satisfies the SMT-LIB text written to verify candidates if and only if, in the interpretation with the same functions, the target-language declarations, axioms and synthesised definitions hold, the variables have values of their types, and the verification condition is false; hence an unsat answer means that the condition holds for all values of the variables, and a model is a counterexample.", "quantifier": "all target languages, axioms, candidate definitions, verification conditions and variables; all structures; all orders returned by topological_sort and set iteration", "why_tests_cant": "ranges over all structures of the solver and all queries; a dropped or weakened definition makes a wrong candidate verify only for particular inputs", "anchors": ["metalift/smt_util.py:toSMT", "metalift/smt_util.py:topological_sort", "metalift/smt_util.py:filter_fn_args", "metalift/ir.py:FnDeclRecursive.toSMT", "metalift/ir.py:FnDecl.toSMT", "metalift/ir.py:Axiom.toSMT", "metalift/synthesis_common.py:verify_synth_result"]}
{"id": "C47", "title": "The verification query is accepted by the solver", "statement": "In the SMT-LIB text written to verify candidates every function and variable is declared before it is used, nothing is declared twice, and functions are applied to the declared number of arguments, whenever the functions called are in the target language, among the candidates or in the files of definitions.", "quantifier": "all target languages, axioms, candidates, verification conditions and variables, all admissible orders", "why_tests_cant": "the order of declarations depends on the whole call graph and on unspecified iteration orders", "anchors": ["metalift/smt_util.py:toSMT", "metalift/smt_util.py:topological_sort", "metalift/ir.py:FnDecl.toSMT", "metalift/ir.py:Axiom.toSMT"]}
{"id": "C48", "title": "A verified lifting is right about the Python function", "statement": "When synthesis is verified (the solver says that the query is unsatisfiable), every run of the Python function that returns satisfies the synthesised postcondition; and if the postcondition is an equation for the result, the expression kept as the synthesised version has, at the arguments, the value that the function returns.", "quantifier": "all functions of the supported subset, all arguments and runs, all target languages, invariants and postconditions", "why_tests_cant": "it ranges over all inputs of the lifted program and all candidates; it composes the frontend, the printing of the query, the files of definitions and the solver's answer", "anchors": ["metalift/frontend/python.py:Driver.synthesize", "metalift/frontend/python.py:MetaliftFunc.__call__", "metalift/smt_util.py:toSMT", "metalift/synthesis_common.py:verify_synth_result"]}
{"id": "C49", "title": "The definition files leave no freedom to the solver", "statement": "In every structure that satisfies the files of definitions given to the solver, the functions on lists and matrices (length, append, prepend, get within bounds, tail, take, concat, contains, slices) and integer_exp are the usual ones, so a counterexample never comes from an unintended reading of a list function.", "quantifier": "all structures satisfying the files, all lists, matrices and integers", "why_tests_cant": "a test tries one solver on a few lists; the claim is about all structures the axioms admit and all lengths", "anchors": ["metalift/utils/list-axioms.smt", "metalift/utils/integer-fn-axioms.smt", "metalift/smt_util.py:toSMT"]}
{"id": "C50", "title": "Each function gets the result synthesized for it", "statement": "After Driver.synthesize returns, the synthesized version of every registered function is the right-hand side of the equation that was synthesized as the postcondition of that function, never that of another function or of an invariant; a function whose postcondition was not synthesized has no synthesized version; a postcondition that is not an equation raises. get_actual_ps_fn_decl returns the function computing the result, with the parameters of the source function.", "quantifier": "all sets of function names, all lists of synthesized declarations (postconditions and invariants, in any order), all bodies", "why_tests_cant": "the assignment goes through a regular expression on names; a test tries one driver with one function, the claim is about every combination of names and results", "anchors": ["metalift/frontend/python.py:Driver.synthesize", "metalift/frontend/llvm.py:Driver.synthesize", "metalift/frontend/llvm.py:Driver.get_actual_ps_fn_decl", "metalift/synthesis_common.py:parse_candidates"]}
{"id": "C51", "title": "A verified lifting is right about the LLVM function", "statement": "If Driver.synthesize of the LLVM front end returns and stores a synthesized version for a function, then whenever the compiled function returns, called with arguments that satisfy the preconditions, it returns the value of the stored expression at these arguments.", "quantifier": "all functions and control-flow graphs accepted by the front end, all arguments of the declared types, all runs of any length, all target languages and synthesized candidates, all meanings of the functions that satisfy their definitions", "why_tests_cant": "the claim connects the symbolic execution, the text of the query, the files of definitions, the solver's answer and the unbounded runs of the function; tests run one benchmark with small inputs", "anchors": ["metalift/frontend/llvm.py:Driver.synthesize", "metalift/frontend/llvm.py:MetaliftFunc.__call__", "metalift/synthesize_rosette.py:synthesize", "metalift/synthesis_common.py:verify_synth_result", "metalift/smt_util.py:toSMT"]}
{"id": "C52", "title": "Candidates read from a Rosette solution are the choices Rosette made", "statement": "When Rosette writes a solution, the candidates that are built from its text have the names, parameters and types of the functions to be synthesised; each candidate is an element of its grammar, namely the one with the choices Rosette made (or, for functions Rosette does not print because no choice had to be made, the only one); and the candidates compute the values that the functions with these choices compute.", "quantifier": "all grammars, all choices, all sets of functions to be synthesised, all layouts of the answer (lines, quotes, non-terminals left where there is no choice), all arguments", "why_tests_cant": "a test fixes one grammar and one answer; which non-terminals are left in the answer, how it is broken into lines and which functions are omitted depends on the solver, and the reader must be right for each of them", "anchors": ["metalift/synthesize_rosette.py: parse_output, generate_ast, to_expr, replace_choices, synthesize (660-709)", "metalift/ir.py: Synth.write_choices_to, Choose, chooseArbitrarily", "metalift/synthesis_common.py: prune_fn_decls, generate_types"]}
{"id": "C53", "title": "The Rosette library computes the operations its functions are named after", "statement": "Every function of the Rosette library file, called by a synthesis problem on arguments of the shape it is meant for, evaluates without error to the list, matrix, tensor, tuple, set, map or integer operation it is named after: elements, tails, prefixes and slices with the stated defaults out of range, appending and prepending, columns, transposition, set algebra on sorted lists, insertion and lookup in maps, division with divisor 0 read as 1, powers of three modulo 64. Functions defined with define-bounded do so whenever the remaining fuel covers the nesting.", "quantifier": "all library functions except map-normalize, all lists, matrices, sorted sets, maps and integers of any size, all amounts of fuel that cover the nested bounded calls", "why_tests_cant": "The library is used inside symbolic evaluation on lists and matrices of any size; a test evaluates it on a few values, and an error of a boundary (index equal to the length, empty row, negative start) only shows as a wrong or missing synthesis result.", "anchors": ["metalift/utils/utils.rkt", "metalift/utils/bounded.rkt"]}
{"id": "C54", "title": "The file given to Rosette for verification says what the verification condition says", "statement": "When a candidate is verified with Rosette, the written file has no counterexample only if the verification condition holds for every value of the variables within the list bound, under every meaning of the target-language functions and predicates that satisfies their definitions; and if the names in the problem do not collide with those the file uses, and the condition can be computed without remainders by zero and with at most 64 nested recursive calls, then also conversely.", "quantifier": "all target languages, predicates, variables of supported types, list bounds, verification conditions and values of the variables", "why_tests_cant": "The claim is about every value of the symbolic constants and every program text that the translator can print; a test would run one file with one solver.", "anchors": ["metalift/rosette_translator.py:to_rosette", "metalift/rosette_translator.py:generate_vars", "metalift/ir.py:Expr.to_rosette", "metalift/ir.py:FnDecl.to_rosette", "metalift/ir.py:FnDeclRecursive.to_rosette", "metalift/utils/utils.rkt", "metalift/utils/bounded.rkt", "metalift/synthesis_common.py:verify_synth_result"]}
{"id": "C55", "title": "Solutions of a language model keep their meaning", "statement": "When Python functions written by a language model are accepted and turned into IR functions, there is an IR function for each of them, with the same parameters and result type, and it computes on all arguments what the Python function computes. Two lambda expressions are given the same name only if they are the same function.", "quantifier": "all target languages, all modules of Python functions that the parser accepts (any number of functions, any nesting, recursion), all arguments, all earlier calls that share the dictionaries of lambda names", "why_tests_cant": "The solutions are arbitrary programs written by a model; a test parses one of them and compares one value, while a wrong translation makes the verifier accept or reject another program than the one shown to the user.", "anchors": ["llmlift_scripts/parser.py: check_solution, mypy_node_to_ir, mypy_parse, mypy_type_to_ir_type", "llmlift_scripts/synthesis.py: replace_in_calls", "metalift/ir.py: List.__getitem__, ite, call, Expr.__eq__"]}
{"id": "C56", "title": "A language model's solution is reported only after the verifier accepted it", "statement": "When the lifting algorithm with a language model ends by reporting a summary, its last step was a run of the verifier on exactly the predicates made of this summary and of the last proposed invariants, and the verifier accepted. These predicates say what the proposed Python functions compute. The language model and the verifier are asked at most as often as the limits allow, every request shows all earlier failed attempts, an accepted solution is never passed over, and 'no solution found' is raised only when all attempts failed.", "quantifier": "all language models and verifiers (any answers, depending on the whole history, including exceptions), all benchmarks, limits and verification methods", "why_tests_cant": "The answers of a language model and of a solver are not determined; a test fixes one conversation, while the claim is about every sequence of answers, exit codes and parser failures.", "anchors": ["llmlift_scripts/synthesis.py: run_llm_synthesis_algorithm, verify_benchmark_rosette, verify_benchmark_smt, process_synthesized_fn_decls, process_ps_fn_decl, get_solution_from_llm"]}
{"id": "C57", "title": "Checking a solution does not depend on earlier calls", "statement": "Whether a proposed solution is accepted by the parser, and what it is translated to, depends only on the solution and on the target language it is checked against, not on solutions checked before in the same process.", "quantifier": "all sequences of calls with any target languages and solutions", "why_tests_cant": "A test process makes one call, or several with one target language; the dependence shows only in histories that mix target languages.", "anchors": ["llmlift_scripts/parser.py: check_solution, mypy_parse, get_dsl_func_defs"]}
{"id": "C58", "title": "Search spaces of bounded depth contain exactly the expressions of that depth", "statement": "For every depth, the search space built from an integer (or a choice among integers) contains only arithmetic expressions (+, -, *, //, integer square root, exponential) of at most that depth over it, all well typed, and for every such expression one that has the same value in every state; the conditionals over it are exactly the comparisons and selections of such expressions; the search space built from a vector or matrix contains exactly the elementwise, scalar, mapped and matrix-vector expressions of at most that depth.", "quantifier": "every depth, every integer and tensor variable or choice, every expression over them, every state and interpretation", "why_tests_cant": "The number of expressions grows doubly exponentially with the depth; a missing combination shows only as a solution that is never found.", "anchors": ["metalift/utils/tenspiler/tenspiler_common.py:get_int_expr_eq_or_below_depth", "metalift/utils/tenspiler/tenspiler_common.py:get_matrix_or_vec_expr_eq_or_below_depth", "metalift/utils/tenspiler/tenspiler_common.py:get_cond_expr_eq_or_below_depth", "metalift/ir.py:choose"]}
{"id": "C59", "title": "Synthesized loop bounds are exactly the ranges of counting loops", "statement": "For each of the four kinds of counting loops (counting up with < or <=, counting down with > or >=) the bounds that can be synthesized include a lower and an exclusive upper bound between which lie exactly the counter values for which the loop body runs, whatever the ends of the loop are, also when the loop does not run at all; and every pair of bounds that can be synthesized is the range of one of these loops.", "quantifier": "every kind of loop, every choice in the bounds, all integer values of both ends", "why_tests_cant": "Off-by-one errors at the ends depend on the kind of loop and on the values of the ends, which are unbounded.", "anchors": ["metalift/utils/tenspiler/tenspiler_common.py:get_lower_bound_fn_body", "metalift/utils/tenspiler/tenspiler_common.py:get_upper_bound_fn_body", "metalift/utils/tenspiler/tenspiler_common.py:get_no_arg_bool_fn", "metalift/utils/tenspiler/tenspiler_common.py:get_loop_index_fn"]}
{"id": "C60", "title": "Functions left out of a verification query are defined there as declared", "statement": "When the solution of a language model is verified with the SMT solver, every target-language function that is left out of the query is defined by the files given to the solver, with the meaning its declaration gives it, so that the query with the files is satisfied by exactly the structures in which all functions of the target language hold and the verification condition is false; every function called by a written function is written or defined in the files; and the axioms given to the solver are exactly those of the functions the solution calls.", "quantifier": "all target languages, solutions, axiom tables, and all structures that satisfy the files", "why_tests_cant": "the files and the declarations are two texts of the same functions; that they agree on all lists and matrices, in every structure the solver may consider, cannot be tested by examples", "anchors": ["llmlift_scripts/synthesis.py: process_dsl_fns_for_smt, verify_benchmark_smt", "metalift/synthesis_common.py: get_used_fn_names", "metalift/utils/tenspiler/tenspiler_common.py: vec_slice_fn_decl, matrix_row_slice_fn_decl, matrix_col_slice_fn_decl, firsts_fn_decl, rests_fn_decl, matrix_transpose_fn_decl, integer_exp_fn_decl, integer_sqrt_fn_decl, ite_int", "metalift/utils/list-axioms.smt", "metalift/utils/integer-fn-axioms.smt"]}
{"id": "C61", "title": "The file given to Rosette for synthesis asks for resolutions of the sketches that make the condition hold", "statement": "When functions are synthesized with Rosette, every solution of the query in the written file defines each function to be synthesized, including target-language functions declared without a body, by a resolution of its sketch, and with these definitions the verification condition holds for every value of the variables within the list bound, under every meaning of the functions that satisfies their definitions; conversely, every choice of resolutions with which the condition holds for all these values is a solution of the query.", "quantifier": "all target languages, sketches, variables of supported types, list bounds, verification conditions, solutions of the query and resolutions of the sketches", "why_tests_cant": "The claim is about every program that the printed grammars derive and every value of the quantified constants; a test would look at one answer of one solver to one file.", "anchors": ["metalift/rosette_translator.py:to_rosette", "metalift/rosette_translator.py:generate_synth", "metalift/rosette_translator.py:generate_inv_ps", "metalift/ir.py:Synth.to_rosette", "metalift/ir.py:Expr.findCommonExprs", "metalift/ir.py:Expr.replaceExprs", "metalift/frontend/python.py:Driver.synthesize", "metalift/frontend/llvm.py:Driver.synthesize"]}
{"id": "C62", "title": "The synthesis query for CVC5 states the sketch of each function as a grammar with exactly its resolutions", "statement": "When functions are synthesized with CVC5, a query is written, and in it each function to be synthesized is a synth-fun command with the function's name, parameters and result sort whose grammar generates exactly the terms that print the resolutions of the function's sketch (every choice replaced by one of its alternatives).", "quantifier": "all functions to be synthesized with printable sketches, all terms of the grammar, all target languages, axioms and conditions", "why_tests_cant": "The languages of grammars are exponentially large, and the claim must hold for every sketch a user can write.", "anchors": ["metalift/ir.py:Synth.toSMT", "metalift/ir.py:Choose.toSMT", "metalift/smt_util.py:toSMT", "metalift/smt_util.py:filter_fn_args", "metalift/smt_util.py:topological_sort", "metalift/synthesize_cvc5.py:synthesize"]}
{"id": "C63", "title": "Every function is read once, with its own term, from an answer of CVC5", "statement": "From an answer of CVC5 that gives one term for each function to be synthesized, in any order, every function is read exactly once, with its own parameters and result type and a body that has the value of the term given for this function, for all meanings of the target-language functions and all values of the parameters.", "quantifier": "all target languages, lists of functions to be synthesized, answers in the supported fragment, interpretations and environments", "why_tests_cant": "Names and terms are arbitrary; wrong readings only show for particular names or orders.", "anchors": ["metalift/synthesize_cvc5.py:generateCandidates", "metalift/synthesize_cvc5.py:extractFuns", "metalift/synthesize_cvc5.py:generateAST", "metalift/synthesize_cvc5.py:toExpr"]}
{"id": "C64", "title": "Set and tuple objects compute the operations they are named after", "statement": "Every Python program that builds sets with empty, singleton, add, remove, union and difference yields an object of the set type whose value is the set the program stands for; equality of set objects is equality of sets; `in` is membership; elements and sets of another type are refused with an error. Component i of a tuple made from objects is the i-th object, and indices out of range are refused.", "quantifier": "all programs over set objects of any length, all values of elements and variables, all tuples and indices, all meanings of the primitive functions that satisfy the laws of finite sets", "why_tests_cant": "Programs, sets and indices are unbounded; a swapped or misspelt primitive shows only when the expression is evaluated by a solver, not when it is built.", "anchors": ["metalift/ir.py:Set", "metalift/ir.py:Tuple", "metalift/ir.py:make_tuple", "metalift/ir.py:create_object"]}
{"id": "C65", "title": "The Python text of the target language computes the declared functions", "statement": "The text of a target language that is shown to the language model and written to dsl.py is a Python module that has, for each function of the target language, one function with its name, parameters and types, and each Python function returns on all arguments of these types the value the declared function has. For the tensor language these are the textbook functions on vectors and matrices.", "quantifier": "all target languages, all functions of the tensor language, all arguments (vectors and matrices of any size), all interpretations satisfying the declarations", "why_tests_cant": "The functions are recursive over lists of any length; a missing parenthesis or a wrong end of the recursion shows only on some arguments, and target languages are written by users.", "anchors": ["metalift/ir.py:FnDecl.to_python", "metalift/ir.py:FnDeclRecursive.to_python", "metalift/ir.py:to_python_type_str", "llmlift_scripts/synthesis.py:dsl_code", "llmlift_scripts/dsl.py", "metalift/utils/tenspiler/constants.py:TENSPILER_FNS"]}
{"id": "C66", "title": "The search spaces with a hole contain a solution for their programs", "statement": "For each blend program over two matrices that has a body for the hole (multiply, linear burn, screen, linear dodge, darken, colour burn, lighten, colour dodge, overlay, dissolve), the search space that the library builds from this body contains two loop invariants, a result and bodies of the functions to be found with which all verification conditions of the program hold, so that synthesis can succeed; and with any solution the program returns what the result says.", "quantifier": "all ten programs, all matrices, all opacities and random numbers, all states of the loops, all interpretations of the target language that satisfy its declarations, all meanings of division", "why_tests_cant": "Whether a grammar with nested choices contains a candidate whose conditions hold for matrices of every size is a statement over all candidates and all inputs; a run of the solver checks only small matrices, and a search that finds nothing says nothing about the cause.", "anchors": ["metalift/utils/tenspiler/tenspiler_common.py:get_matrix_computation_holing_search_space", "metalift/utils/tenspiler/tenspiler_common.py:get_matrix_select_holing_search_space", "metalift/utils/tenspiler/tenspiler_common.py:get_dissolve_holing_search_space", "metalift/utils/tenspiler/tenspiler_common.py:get_select_synth_from_hole", "metalift/utils/tenspiler/tenspiler_common.py:multiply_blend_8_hole_body"]}
{"id": "C67", "title": "Further rounds give new programs that satisfy the conditions", "statement": "When several rounds of synthesis are asked for, every program that the solver returns in a round defines the functions by candidates of their sketches, differs from the programs of all earlier rounds in the value of some function to be found, and satisfies the verification condition for all inputs within the bound.", "quantifier": "all problems, all sketches, all numbers of rounds, all sequences of programs that the solver may return, all inputs within the bound", "why_tests_cant": "The claim is about every program a solver may return for the generated text, and about all inputs; a run of the solver shows one sequence of programs, and whether a later program is right cannot be seen from the inputs on which it was compared.", "anchors": ["metalift/rosette_translator.py:generate_synth", "metalift/rosette_translator.py:to_rosette", "metalift/synthesize_rosette.py:synthesize"]}
{"id": "C68", "title": "The benchmark driver writes code only for verified programs", "statement": "A run of the tensor benchmark driver tries list bounds one after the other from the first one on and moves to the next bound exactly when verification failed at the current one; it writes code only for a program that the synthesizer found at the current bound with the strict grammar, or with the relaxed grammar if the strict one has no solution, and that the verifier accepted; it reports that synthesis failed only if all grammars were found to have no solution; and it ends.", "quantifier": "all sequences of answers of the solver and the verifier, all first bounds, numbers of rounds, and settings of the options", "why_tests_cant": "The outcome depends on the whole sequence of answers of two external solvers over an unbounded loop; a test fixes one sequence.", "anchors": ["tests/llvm/tenspiler/utils/synthesis_utils.py:run_synthesis_with_bound", "tests/llvm/tenspiler/utils/synthesis_utils.py:run_synthesis_algorithm"]}
{"id": "C69", "title": "The loops of a function are read from LLVM's output", "statement": "From the file in which LLVM printed the loops of all functions of a module, the front end gets for a function exactly its loops, in their order, each with its header, its exiting blocks, its latches and its remaining blocks; no block of a loop is lost, and loops of other functions are not included.", "quantifier": "all modules: any functions with any number of loops at any depths, with any blocks in them, and all functions asked for", "why_tests_cant": "A lost block means that the variables it changes keep their old values in the conditions, so that wrong programs are accepted; which names and orders of functions lead to this cannot be seen from example files.", "anchors": ["metalift/frontend/llvm.py:parse_loops", "metalift/analysis.py:parseLoops"]}
{"id": "C70", "title": "A call instruction is read as a call of the function that it calls", "statement": "For every call instruction whose operand has a mangled name, the front end finds the name of the called function, whatever its scopes, template arguments, parameters and qualifiers are, and treats the call as one of this function; functions it does not know are refused. From a member function of a vector it finds how deeply the vector is nested.", "quantifier": "all functions (any scopes, names, template arguments, parameter types), all mangled names, all depths of nesting", "why_tests_cant": "The name is found by backtracking over regular expressions in a text whose parts are arbitrary; examples cannot show that no other split of the text is found first.", "anchors": ["metalift/frontend/llvm.py:get_demangled_fn_name", "metalift/frontend/llvm.py:get_fn_name_from_call_instruction", "metalift/frontend/llvm.py:visit_call_instruction", "metalift/frontend/llvm.py:new_vector", "metalift/frontend/llvm.py:vector_length"]}
{"id": "C71", "title": "The general search spaces contain a solution for every program of their form", "statement": "For every depth and every program that computes the pixels of a new image from the pixels of two images of the same size by an expression of at most that depth (over the given constants), or by a conditional of such expressions, the search space generated for that depth contains invariants, a result and functions with which all verification conditions of the program's two nested loops hold, for all images.", "quantifier": "all depths, all lists of constants, all expressions or conditionals up to the depth, relaxed or not, all interpretations of the target language, all pairs of images", "why_tests_cant": "The space and the set of programs are infinite, and solvability is a statement that for each program some element of the space makes the conditions hold for every image; a test can only look at single programs with bounded images.", "anchors": ["metalift/utils/tenspiler/tenspiler_common.py:get_matrix_computation_general_search_space", "metalift/utils/tenspiler/tenspiler_common.py:get_matrix_select_general_search_space", "metalift/utils/tenspiler/tenspiler_common.py:get_dissolve_general_search_space", "metalift/utils/tenspiler/tenspiler_common.py:get_map_int_to_int_synth"]}
{"id": "C72", "title": "Calls of library functions in compiled code are read with the meaning of the called function", "statement": "For every function in compiled (LLVM) form with one block that uses the list, vector, set and tuple libraries, the obligation the front end builds says, for all values of the arguments, that the postcondition holds for the arguments as they were passed and for the value the function returns; every register and cell read on the way stands for the value it has at run time, also when several variables share a list.", "quantifier": "all sequences of loads, stores, conversions, integer instructions and library calls, all argument lists, all values of the arguments, all interpretations in which the target functions have their meaning", "why_tests_cant": "Programs and values are unbounded, and the faults depend on which variables share an object of the front end at the time of a later call; a test sees single programs.", "anchors": ["metalift/frontend/llvm.py:fn_models", "metalift/frontend/llvm.py:list_append", "metalift/frontend/llvm.py:vector_append", "metalift/frontend/llvm.py:set_contains", "metalift/frontend/llvm.py:State", "metalift/frontend/llvm.py:VCVisitor.visit_call_instruction", "metalift/frontend/llvm.py:VCVisitor.visit_ret_instruction", "metalift/ir.py:parse_type_ref_to_obj"]}
{"id": "C73", "title": "The program checked for a reply of a language model is the program in the reply", "statement": "For every reply of any of the three services, the program that is parsed and checked is the code of the blocks in the reply, all of them in their order, without the language name after the fence and without comments, and with every call ite(c, a, b) replaced by a conditional expression that has the same value in its place.", "quantifier": "all replies: any number of blocks of code, any prose around them, any text of the code and of its comments, all arguments of ite and all values of the variables in them", "why_tests_cant": "Replies are arbitrary texts produced by a model; which text the regular expressions cut out depends on every character before and after, and on nesting of unbounded depth.", "anchors": ["llmlift_scripts/utils.py:extract_all_python_functions", "llmlift_scripts/utils.py:replace_ite", "llmlift_scripts/parser.py:remove_comments", "llmlift_scripts/parser.py:check_solution", "llmlift_scripts/synthesis.py:get_solution_from_claude", "llmlift_scripts/synthesis.py:get_solution_from_gpt", "llmlift_scripts/synthesis.py:get_solution_from_gemini"]}
{"id": "C74", "title": "The program verified for dissolve_blend_8 is the program of the language model", "statement": "For the benchmark dissolve_blend_8, whose lambda expressions may use the inputs opacity and rand_cons of the function they stand in, the driver rewrites the solution before it verifies it. In every attempt the rewritten summary holds exactly of the value that the function of the solution returns in Python, every rewritten invariant has the value of the function of the solution, every function of the solution is verified, the lists of functions passed as arguments and the target language name the functions that are called, and nothing is left behind for later attempts or runs.", "quantifier": "all solutions: all expressions with selections at any depth, all lambda expressions, any number of attempts and of invariants in each, all matrices, vectors and integers", "why_tests_cant": "The rewriting is applied to arbitrary programs written by a model, and what is wrong with it only shows in the second or a later attempt and in solutions of an unusual shape.", "anchors": ["llmlift_scripts/synthesis.py:run_llm_synthesis_algorithm", "metalift/ir.py:FnDeclRecursive.set_arguments", "metalift/smt_util.py:replace_fn_name", "metalift/smt_util.py:augment_arguments", "metalift/utils/tenspiler/tenspiler_common.py:dissolve_matrix_selection_two_args_fn_decl", "metalift/utils/tenspiler/tenspiler_common.py:dissolve_selection_two_args_fn_decl"]}
{"id": "C75", "title": "The kernel generated for Gemmini computes the program", "statement": "For every verified tensor program the generator for the Gemmini accelerator returns C code; the kernel in it, called with arrays that contain the arguments, runs to the end without undefined behaviour, leaves the value of the program in the array out whatever this and the static arrays contained before, and changes none of its arguments; the function around it passes arrays of the element type that the kernel expects.", "quantifier": "all tensor programs at any depth, all signatures, all data types, all array sizes, all arguments, all earlier contents of the arrays", "why_tests_cant": "The generated text depends on the nesting of the program, the names of the parameters and the place of a conditional; whether it computes the program has to be known for all programs and all contents of the arrays, and the accelerator is not available to tests.", "anchors": ["tests/llvm/tenspiler/codegen/gemmini_codegen.py:gemmini_codegen", "tests/llvm/tenspiler/codegen/gemmini_codegen.py:translations", "tests/llvm/tenspiler/codegen/gemmini_codegen.py:gemmini_type_helper", "tests/llvm/tenspiler/codegen/gemmini_codegen.py:c_argument_convert_helper"]}
{"id": "C76", "title": "The invariant a language model is asked for is the one the verification condition calls", "statement": "The prompt for loop invariants shows a template for every loop whose parameters are exactly the variables of the loop, whatever order Python lists a set in. An answer that defines the function under the name and with the parameters of the template is, at every point of the verification condition, called with the values the program's variables have there, parameter by parameter. The program shown in the prompt is the source program in which every return statement is replaced by the assertion that the summary holds, and nothing else is changed.", "quantifier": "all loop descriptions with one or two loops, all orders of sets, all renamings of variables, all histories of program points and states, all answers, all source programs", "why_tests_cant": "Arguments are matched by position only; a test sees one benchmark with one set order, while a wrong order silently verifies another invariant. The replacement of return statements works on text and has to be right for every source program.", "anchors": ["llmlift_scripts/utils.py:get_inv_args", "llmlift_scripts/utils.py:replace_args", "llmlift_scripts/prompts.py:generate_invariant_template", "llmlift_scripts/prompts.py:get_inv_prompt", "metalift/frontend/llvm.py:PredicateTracker.invariant", "metalift/frontend/llvm.py:Predicate.call"]}
{"id": "C77", "title": "The Gaudi kernel of a tensor program computes the program", "statement": "For a summary on vectors or matrices, the kernel that the Gaudi code generator prints, called on parts of the index space that together cover the result, leaves the value of the summary in the result tensor, whatever the order of the parts and whatever the tensor contained before, and changes nothing outside the parts. The glue code declares the number of input tensors and dimensions of the summary.", "quantifier": "all summaries of any depth, all parameter names, all sizes and contents of tensors, all integers, all ways to divide the index space into parts, all machines that keep the values in the range of a type", "why_tests_cant": "The generator invents variables, reuses earlier loads through a cache and inserts conversions depending on types; a wrong reuse or conversion shows only for some nesting and some data, and the repository has no way to run a kernel.", "anchors": ["tests/llvm/tenspiler/codegen/gaudi_codegen.py:gaudi_codegen", "tests/llvm/tenspiler/codegen/gaudi_codegen.py:expr_codegen", "tests/llvm/tenspiler/codegen/gaudi_codegen.py:get_glue_code_cpp", "tests/llvm/tenspiler/codegen/gaudi_codegen.py:get_glue_code_hpp"]}
{"id": "C78", "title": "The tests of a language model's program count its right results", "statement": "The test script records for every different program of the list, once and in order, the number of inputs of the table on which it returns the expected output, whatever programs were tested before it; it records it among the programs that the parser accepts exactly if the parser accepts it, and counts how often each error of the parser occurs. A program that cannot be run does not affect the others.", "quantifier": "all lists of programs with repetitions, all behaviours of the programs (results, exceptions, changes of their arguments), all tables of inputs and expected outputs, all parsers", "why_tests_cant": "The tables are shared by all programs of a list, so a result depends on the history of earlier programs; no finite set of programs shows that none of them can influence a later one.", "anchors": ["llmlift_scripts/verification_with_testing/openai_test_cases.py:run_test", "llmlift_scripts/verification_with_testing/openai_test_cases.py:inputs_mapping", "llmlift_scripts/verification_with_testing/openai_test_cases.py:num_passed_test_cases", "llmlift_scripts/parser.py:check_solution"]}
{"id": "C79", "title": "The stored solutions of the benchmarks compute the benchmarks", "statement": "For every benchmark with a stored correct solution, the solution, run as a Python program with the functions of the target language, returns the same value as the C++ program of the benchmark, on all inputs of matching sizes on which the C++ program is defined, and its loop invariants hold whenever the loop is reached.", "quantifier": "all sizes and contents of vectors and matrices, all integer parameters", "why_tests_cant": "A wrong boundary, a division that rounds differently or an argument that is evaluated too early shows only for some elements; the test tables have few small matrices with positive elements.", "anchors": ["llmlift_scripts/correct_sols.py:correct_sols", "llmlift_scripts/dsl.py", "benchmarks/blend/cpp/overlay_blend_8.cc", "benchmarks/blend/cpp/color_burn_8.cc", "benchmarks/blend/cpp/multiply_blend_8.cc"]}
