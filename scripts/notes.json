{
 "C01": "proved for Stmt.supported bodies (tail returns, straight-line loops over symbols not in use, no chained comparison, no list/set merge); outside, false: see C02, C03, C05, C06, C07",
 "C02": "proved for supported bodies; refuted: second return and returns in loops lose their obligation",
 "C03": "refuted (parameter loop, two loops, nested loops); proved for loops that modify no symbol in use",
 "C04": "all statements, all executions",
 "C05": "proved without chained comparisons; a < b < c refuted",
 "C06": "proved for int and bool; refuted for lists (first branch is kept)",
 "C07": "obligations are never lost (proved); assumptions leak into later calls (refuted)",
 "C08": "refuted for functions with parameters (result first at the call, last at the return); equal for no parameters",
 "C09": "coverage, order, caching and distinct names, over all histories",
 "C10": "full statement refuted (1 == True makes x==1 and x==True duplicates); proved when equal members agree on literal types",
 "C11": "all histories of operations",
 "C12": "equivalence, congruence and hashing proved in full; 'equal implies same value' refuted for int/bool literals, proved otherwise",
 "C13": "value, type and free variables preserved for every well-typed expression",
 "C14": "refuted for implications in negative positions; proved (one pass and the driver loop) for positive positions",
 "C15": "refuted for names ending in digits and direct requests; proved otherwise; all() complete without restriction",
 "C16": "proved for distinct function names, any networkx meeting its documentation; refuted for duplicate names and for variables named like functions",
 "C17": "all dictionaries incl. recursive ones, all arguments",
 "C18": "proved for one function parameter (both rounds, and call sites); refuted for two parameters, two callers, parameter applied twice",
 "C19": "both inclusions, under the guard that equal-looking subexpressions are equal and no variable is named like a non-terminal; both guards shown necessary",
 "C20": "proved for well-typed expressions without the listed operations/names; each exclusion refuted",
 "C21": "proved for single-binding lets and binary operators; both restrictions shown necessary",
 "C22": "exact condition for agreement proved as an equivalence; general statement refuted",
 "C23": "proved for PySafe expressions on the Defined domain; eleven refutations (missing parentheses, negative indices, ...)",
 "C24": "proved for supported types and names without '-'; refuted for matrices with bound one and for tuples",
 "C25": "returned candidates are verified, order and failures: without restriction; termination needs all solution files (refuted otherwise)",
 "C26": "returned candidates are verified and failures: without restriction; refuted: the loop may never end, candidates mentioning 'fail' are skipped",
 "C27": "refuted, about the text of the files themselves: the definition of matrix_transpose makes the preamble unsatisfiable, so every query is; all other commands are satisfied by the usual functions",
 "C28": "proved for arguments in range; each restriction shown necessary",
 "C29": "proved in full for strictly sorted lists (C29_sets); C29_sortedness_needed shows that the restriction in the statement is needed",
 "C30": "lookup, presence and histories proved; equality of maps with the same content refuted",
 "C31": "vectors, reductions, matrix-vector product, map, selection proved; matrices without empty rows; integer_sqrt refuted",
 "C32": "refuted at index 0 (every axiom of the first kind makes every query unsat); proved for positive indices, including the two selection axioms after toSMT renamed their calls to the copies",
 "C33": "proved for natural disjoint loops under the decidable guards Shape and Flow; refuted: sequential and nested loops over one variable, sret result, irreducible loops, leaked postconditions",
 "C34": "proved when every predecessor has a precondition; refuted otherwise",
 "C35": "proved for Inst.exact; refuted: sdiv of negative numbers, unsigned comparison, wraparound, integer conversion",
 "C36": "no repetition proved in full; 'forbids nothing else' refuted, proved when one input separates",
 "C37": "all operations proved for in-range indices, prepend only for non-empty rows; != and prepend of an empty row refuted",
 "C38": "proved for expressions accepted by check on inputs with Fits (shapes, ranges, no overflow); fifteen refutations",
 "C39": "one predecessor, path bijection, instructions unchanged; all functions",
 "C40": "proved for functions whose blocks end in br/ret and have names; both restrictions refuted",
 "C41": "proved for alternatives without further choose; refuted for nested ones",
 "C42": "proved for answers without '/' outside locations; refuted otherwise",
 "C43": "proved up to the fuel of 64 built into utils.rkt; refuted beyond",
 "C44": "integer_exp proved up to Rosette's fuel; integer_sqrt refuted",
 "C45": "proved for expressions accepted by printable (symbols, non-negative literals, arities, tuples up to five components); each exclusion refuted",
 "C46": "equivalence proved for queries with QueryOk (printable expressions, parameters scoped, no functions as arguments); FnDecl with parameters raises (refuted)",
 "C47": "proved when every called function is declared and has a body or is recursive (Complete); uninterpreted functions, negative literals, axioms without variables or about candidates refuted",
 "C48": "proved for supported, well-typed functions, runs with non-negative indices and positive divisors, and the files without matrix_transpose, from the solver's answer, from Driver.synthesize, and from the grammars and Rosette's answer; each exclusion refuted (negative divisor, whole files, left side that is not the result)",
 "C49": "proved for all structures satisfying the files without matrix_transpose; outside the bounds list_get is free (C49_get_beyond_any)",
 "C50": "proved for function names without '_ps' inside; refuted for others (a result stored with another function, KeyError), for the LLVM driver an ill-shaped postcondition is skipped silently, get_actual_ps_fn_decl with two functions",
 "C51": "proved for functions that meet the guards of C33, runs without negative dividends, and the files without matrix_transpose, from the solver's answer, from Driver.synthesize, and from the grammars and Rosette's answer; refuted: negative dividend, whole files",
 "C52": "proved for answers and grammars satisfying SolutionOk (shallow productions without a choice, no function called like a non-terminal); both guards refuted otherwise",
 "C53": "proved about the text of the file for all library functions on arguments of their shapes with enough fuel; refuted: transposition of 63 rows runs out of fuel, map-normalize calls map-insert with the wrong number of arguments",
 "C54": "proved in both directions for problems with ordinary, non-colliding names whose condition is computed without remainders by zero and within 64 nested recursive calls (the first direction needs no bound on recursion); refuted: guarded remainder by zero, a variable named length, recursion deeper than the fuel. For the default of six-bit integers: proved for values with which the condition can be computed within six bits; refuted beyond (x <= 31 is verified, x < x + 1 is not)",
 "C55": "proved for solutions that satisfy okDef (no keyword arguments, non-empty list displays, true division, slice steps, True/False, captured variables; called solution functions have parameters in alphabetical order) and for runs that stay inside the range of lists; names of lambda expressions proved without guard; each excluded form has a refutation",
 "C56": "proved for Rosette, and the limits, the feedback and exhaustion for every method; refuted for CVC5 (any answer counts as accepted), without verification, for answers that are lists, and for summaries with another function name; the meaning of the predicates is proved where C55 applies",
 "C57": "proved if the target language is always the same; refuted otherwise (the signatures of the first target language are cached)",
 "C58": "proved for integers and conditionals at every depth, and for tensors up to depth two; refuted for tensors at depth three and more, where building the search space raises (is_nested does not exist), and where, with that repaired, an additional matrix would remove every expression without a product",
 "C59": "proved for every kind of counting loop and every choice, for flags and ends without a choice inside",
 "C60": "proved for languages in which the left-out names are the functions of the tensor language other than the transposition and no function is passed as an argument; axioms proved without guard; refuted: any other function named integer... is dropped, selection_two_args is dropped although matrix_selection_two_args calls it, the declared transposition contradicts the other definitions, and no query with the tensor language is written at all, because ite_int cannot be printed",
 "C61": "proved in both directions for well-typed sketches with ordinary names (not those of productions), unbounded integers and, conversely, conditions that can be computed within the bounds of C54; refuted: resolutions with more than ten nested chooses are never found, because the depth of derivations is fixed in the file; for the default of six-bit integers the first direction is proved for the values with which the condition can be computed within six bits, and refuted for others",
 "C62": "the text of every command is proved to state the resolutions of the sketch, for printable sketches whose names are not those of non-terminals; refuted for queries: with a function to be synthesised no query is ever written, because filter_fn_args raises for it",
 "C63": "proved for names that do not occur in the word sygus-candidate (all names of the drivers, which contain an underscore) and terms that are not just the name of a function; refuted without each of these guards",
 "C64": "proved for programs on sets of integers and for components of type Int and Bool; refuted: membership in sets, removal from sets of lists, negative tuple indices, components that are lists, and indexing of tuples returned by functions",
 "C65": "proved for all declarations whose text needs no further parentheses, and for the functions of the tensor language one by one (except matrix_transpose and integer_sqrt, refuted: they never return); matrices of the same shape without empty rows when compared with the declarations; set and tuple types and functions without body raise, three-dimensional tensors are printed as lists of integers",
 "C66": "proved for all rectangular matrices of the same size with at least one column; refuted for what the drivers assume (only the first rows are compared): with rows of different lengths, and with empty rows where Rosette's matrix-prepend drops them, no candidate of the search space satisfies the conditions",
 "C67": "proved with unbounded integers for problems where the text reads back (SketchOk) and the parameters of compared functions are declared variables; refuted that a program found in a later round satisfies the condition for all values within the bound (the query assumes that it differs from earlier solutions, so it is only checked where it does)",
 "C68": "proved how a run ends for all answers; that the verifier accepted is proved when verification is not switched off, and refuted with the default arguments (no_verify=True; the call with the relaxed grammar ignores the option); refuted that a run ends (if verification fails at all bounds)",
 "C69": "proved for functions whose names consist of letters, digits and underscores, if no loop is printed as parallel, no unmarked block has 'latch' in its name and no function name has white space or quotes; refuted without each of these guards",
 "C70": "proved for names without parentheses in scopes and parameters whose template arguments are not qualified, and for vectors of libc++ over one-word types; refuted: instances of templates with qualified arguments are read as other functions, operators are not read, scopes are dropped (Stack::push_back is taken for the vector's), unknown functions are skipped silently, vectors of unsigned char or of libstdc++ are refused",
 "C71": "selections: proved for every depth, all constants and all rectangular images with a column. Computations: proved up to depth two for square images; refuted beyond (from depth three the space cannot be built; for images with more columns than rows no candidate solves any program, because the outer invariant has no access to the number of columns). Dissolve: proved for every depth for square images, refuted for wide ones in the same way",
 "C72": "proved for every program of one block whose reads are not of variables whose list object was appended to under another name; without listAppend there is no condition on sharing. Refuted: listAppend changes the object shared by all variables, including the argument to which the postcondition is applied (a wrong postcondition is verified); set_contains yields Python's True and the function cannot be read; after push_back a vector<int> has the type of a list of lists, so that using its elements raises or the function on matrices is called; getField, setField, i64 and tuples with numbered struct names always raise",
 "C73": "proved: the blocks of every reply whose fences stand alone, with no language or one of five, are extracted exactly; the program of the second service is their code (of the third if there is one block) when there is no ite( in it; a call of ite with arguments without commas and parentheses is replaced by an expression with the same value; comments at the ends of lines and the first text in triple quotes are removed and nothing else. Refuted: the first service returns a list and no answer of it can ever be checked; the third raises without a block and drops all but the first; c++, py, Python3 leave part of the language name in the code; ite as an operand, nested, with calls as arguments or over several lines changes the value or the syntax; functions whose names end in ite are rewritten; # in a text constant or documentation cuts the program",
 "C74": "proved: for solutions whose lambda expressions have two integer parameters, use besides them opacity and rand_cons only and are passed to the selections only, the rewritten summary says of every value exactly that it is the value of the function of the solution in Python, and the rewritten invariants have the value of the function; in the first attempt every function is verified, rewritten, and nothing else; with a summary that passes no function, in every attempt; the two lists of functions passed as arguments are those of the rewritten calls; the target language is the same in later attempts. Refuted: the second attempt for a summary that passes a lambda expression gives its function the parameters opacity and rand_cons twice; a lambda expression that uses another variable of its function gets a free variable; a function named select_two_args_arg is renamed in the list of arguments and nowhere else; the target language of the caller has lost its selections after the run. Domain of the proof: matrices of the same shape without empty rows (as in C31)",
 "C75": "proved: for vectors and for matrices, for programs built at any depth from parameters by element-wise addition, subtraction and multiplication, subtraction of an integer expression that is no sum, subtraction from an integer expression, transposition, conditionals on a boolean parameter and linear combinations of two vectors, with all tensor values in the range of elem_t: code is generated, runs without undefined behaviour, leaves the value of the program in out and changes no argument, whatever out and the static arrays contain before. Refuted: multiplication with an integer (copies out over the argument), addition of an integer (not C), subtraction of a sum (wrong sign), a parameter named i, a program or branch that is a variable (no assignment), comparisons, division, matrix_length and integer-valued calls as arguments (exceptions), row slices (not moved to the first row), values outside elem_t, and the element types in the glue function. Not covered by the proof: slices, matrix_vec_mul, reduce_sum and element-wise division, whose library functions or floating-point rounding are not modelled",
 "C76": "proved: for every description of one or two loops and every order of sets, the arguments of an invariant are its variables, each once, sorted by name (C76_arguments, C76_order); the template shows the asked name and these parameters (C76_template); for drivers that pass the arguments of get_inv_args with no further names in scope, the call at every point of every history of visits means the body of the answer with the values of the program's variables (C76_binding_partial); every return statement on one line without semicolon in its expression becomes the assertion and nothing else changes (C76_assert_partial). Refuted: the example in the prompt lists parameters in another order than the template, and answers are matched by position; the template of an inner loop asks for an expression over the outer counter, which need not be a parameter (transformer_part2); a variable declared with two types is shown with the first; without arguments from the driver, or with names in scope, the call has other arguments; a name unknown to the front end raises; the templates of two loops are shown as the repr of a Python list on one line; return statements on two lines, with a semicolon in a literal, and the word return in a comment.",
 "C77": "proved: for bytes and 32-bit integers, programs of any depth from element-wise sums, differences and products, and the same with integer expressions, the kernel writes the value of the program at every covered place inside the tensor and nothing elsewhere (C77_kernel_partial), so calls on parts that cover the tensor, in any order, leave the value in it (C77_parts_partial); the same for a selection on two tensors by a function with a comparison and two branches (C77_selection_partial); all this provided that all intermediate values are in the range of the data type and no parameter has a name the kernel uses; the glue code declares the right numbers unless an integer parameter comes with 32-bit integers (C77_glue_partial). Fails for conditionals (always the first branch), captured names, slices (ignored), sums of more than two integers, reduce_sum, selections on matrices named like the parameters of the selecting function (endless recursion), functions the generator does not know, values out of range, the glue code with 32-bit integer parameters, and the parameter structure with two members. Missing: division, floating point, selections inside other operations.",
 "C78": "proved: the result of a run is the number of inputs, as they are in the table then, on which the program returns the expected output, whatever the program does (C78_run); for programs that can be loaded and keep their arguments the report has the right number for every different program, once, whatever was tested before, and the right counts of errors (C78_report_partial). Fails: the module imported before every program does not exist, so nothing is tested; the parser is called with positional arguments for keyword-only parameters, so no program is recorded as accepted; one program that cannot be loaded ends the script; a program that changes its arguments changes the tests of later programs. Missing: programs that change global objects.",
 "C79": "proved: on all matrices of the same shape the stored solutions of darken, lighten, linear burn and linear dodge, and on all vectors of the same length those of the two normal blends, return what the C++ programs return (C79_exact, C79_normal); multiply and screen without negative products, color burn for positive active and base up to 32, color dodge for active below 32 and base from 0, dissolve for random numbers from 0, overlay where base is below 16 or at least 128 (C79_..._partial). Fails: overlay compares with 128 instead of 16 and is wrong for every element from 16 to 127; color burn and color dodge divide by zero where the C++ program takes the other branch; divisions of negative numbers round differently; the stored outer invariant of screen requires an empty output between the first and the last row. Llama: the solutions of softmax 1-3, rmsnorm 1 and transformer 4 are right for all vectors and bounds from 0 (softmax 1: from 1) to the length (C79_llama_exact); softmax 4 for positive sums and no negative numbers, rmsnorm 2 for non-empty vectors, transformer 3 for non-negative exponentials, as integer_exp of the target language has (C79_llama_exp), matmul for non-empty rows. Fails: softmax 1 returns -32 for the bound 0, negative bounds count from the end, matmul returns [] for matrices without columns, rmsnorm 2 raises on empty vectors (C79_llama_refuted). Invariants: inductive, and imply the solutions, on all inputs (C79_blend_invariants, C79_normal_invariants, C79_llama_invariants, C79_rmsnorm1_invariant) or under the guards of the solutions (C79_..._invariants_partial); that of softmax 1 is not inductive below -32, that of overlay not from 16 to 127. The inner invariant of screen works with a repaired outer one (C79_screen_invariants_partial)."
}