{
 "claims": [
  {
   "property": "C01",
   "status": "partial",
   "theorems": [
    "Metalift.C01_python_vc_sound_partial"
   ],
   "note": "proved for Stmt.supported bodies (tail returns, straight-line loops over symbols not in use, no chained comparison, no list/set merge); outside, false: see C02, C03, C05, C06, C07"
  },
  {
   "property": "C02",
   "status": "partial",
   "theorems": [
    "Metalift.C02_returns_covered_partial",
    "Metalift.C02_return_in_both_branches_refuted",
    "Metalift.C02_return_in_loop_refuted"
   ],
   "note": "proved for supported bodies; refuted: second return and returns in loops lose their obligation"
  },
  {
   "property": "C03",
   "status": "partial",
   "theorems": [
    "Metalift.C03_loop_over_parameter_refuted",
    "Metalift.C03_two_loops_refuted",
    "Metalift.C03_nested_loops_refuted",
    "Metalift.C03_loop_state_partial"
   ],
   "note": "refuted (parameter loop, two loops, nested loops); proved for loops that modify no symbol in use"
  },
  {
   "property": "C04",
   "status": "proved",
   "theorems": [
    "Metalift.C04_writes_cover"
   ],
   "note": "all statements, all executions"
  },
  {
   "property": "C05",
   "status": "partial",
   "theorems": [
    "Metalift.C05_translation_partial",
    "Metalift.C05_chained_comparison_refuted"
   ],
   "note": "proved without chained comparisons; a < b < c refuted"
  },
  {
   "property": "C06",
   "status": "partial",
   "theorems": [
    "Metalift.C06_list_merge_refuted",
    "Metalift.C06_if_merge_partial"
   ],
   "note": "proved for int and bool; refuted for lists (first branch is kept)"
  },
  {
   "property": "C07",
   "status": "partial",
   "theorems": [
    "Metalift.C07_obligations_kept_partial",
    "Metalift.C07_second_call_refuted"
   ],
   "note": "obligations are never lost (proved); assumptions leak into later calls (refuted)"
  },
  {
   "property": "C08",
   "status": "partial",
   "theorems": [
    "Metalift.C08_call_site_partial",
    "Metalift.C08_call_site_refuted"
   ],
   "note": "refuted for functions with parameters (result first at the call, last at the return); equal for no parameters"
  },
  {
   "property": "C09",
   "status": "proved",
   "theorems": [
    "Metalift.C09_invariant_args",
    "Metalift.C09_order_independent",
    "Metalift.C09_same_node_same_predicate",
    "Metalift.C09_distinct_names"
   ],
   "note": "coverage, order, caching and distinct names, over all histories"
  },
  {
   "property": "C10",
   "status": "partial",
   "theorems": [
    "Metalift.C10_and_objects_partial",
    "Metalift.C10_or_objects_partial",
    "Metalift.C10_and_objects_refuted"
   ],
   "note": "full statement refuted (1 == True makes x==1 and x==True duplicates); proved when equal members agree on literal types"
  },
  {
   "property": "C11",
   "status": "proved",
   "theorems": [
    "Metalift.C11_contains",
    "Metalift.C11_no_duplicates",
    "Metalift.C11_order"
   ],
   "note": "all histories of operations"
  },
  {
   "property": "C12",
   "status": "partial",
   "theorems": [
    "Metalift.C12_equivalence",
    "Metalift.C12_congruence",
    "Metalift.C12_same_value_partial",
    "Metalift.C12_same_value_refuted"
   ],
   "note": "equivalence, congruence and hashing proved in full; 'equal implies same value' refuted for int/bool literals, proved otherwise"
  },
  {
   "property": "C13",
   "status": "proved",
   "theorems": [
    "Metalift.C13_simplify",
    "Metalift.C13_simplified"
   ],
   "note": "value, type and free variables preserved for every well-typed expression"
  },
  {
   "property": "C14",
   "status": "partial",
   "theorems": [
    "Metalift.C14_optimize_partial",
    "Metalift.C14_optimize_loop_partial",
    "Metalift.C14_optimize_refuted"
   ],
   "note": "refuted for implications in negative positions; proved (one pass and the driver loop) for positive positions"
  },
  {
   "property": "C15",
   "status": "partial",
   "theorems": [
    "Metalift.C15_names_distinct_partial",
    "Metalift.C15_index_clash_refuted",
    "Metalift.C15_direct_clash_refuted",
    "Metalift.C15_all_complete"
   ],
   "note": "refuted for names ending in digits and direct requests; proved otherwise; all() complete without restriction"
  },
  {
   "property": "C16",
   "status": "partial",
   "theorems": [
    "Metalift.C16_topological_sort_partial",
    "Metalift.C16_duplicate_names_refuted",
    "Metalift.C16_variable_name_refuted"
   ],
   "note": "proved for distinct function names, any networkx meeting its documentation; refuted for duplicate names and for variables named like functions"
  },
  {
   "property": "C17",
   "status": "proved",
   "theorems": [
    "Metalift.C17_prune_preserves",
    "Metalift.C17_prune_unique",
    "Metalift.C17_prune_signatures"
   ],
   "note": "all dictionaries incl. recursive ones, all arguments"
  },
  {
   "property": "C18",
   "status": "partial",
   "theorems": [
    "Metalift.C18_copy_partial",
    "Metalift.C18_caller_partial",
    "Metalift.C18_call_sites_partial",
    "Metalift.C18_two_function_parameters_refuted",
    "Metalift.C18_two_callers_refuted",
    "Metalift.C18_applied_twice_refuted"
   ],
   "note": "proved for one function parameter (both rounds, and call sites); refuted for two parameters, two callers, parameter applied twice"
  },
  {
   "property": "C19",
   "status": "partial",
   "theorems": [
    "Metalift.C19_grammar_language_partial",
    "Metalift.C19_merged_choices_refuted",
    "Metalift.C19_argument_name_refuted"
   ],
   "note": "both inclusions, under the guard that equal-looking subexpressions are equal and no variable is named like a non-terminal; both guards shown necessary"
  },
  {
   "property": "C20",
   "status": "partial",
   "theorems": [
    "Metalift.C20_rosette_roundtrip_partial",
    "Metalift.C20_list_append_refuted",
    "Metalift.C20_tensor_slice_refuted",
    "Metalift.C20_function_name_refuted",
    "Metalift.C20_integer_prefix_refuted",
    "Metalift.C20_empty_bool_list_refuted",
    "Metalift.C20_variable_name_refuted"
   ],
   "note": "proved for well-typed expressions without the listed operations/names; each exclusion refuted"
  },
  {
   "property": "C21",
   "status": "partial",
   "theorems": [
    "Metalift.C21_cvc5_reading_partial",
    "Metalift.C21_cvc5_value_partial",
    "Metalift.C21_let_bindings_refuted",
    "Metalift.C21_nary_refuted"
   ],
   "note": "proved for single-binding lets and binary operators; both restrictions shown necessary"
  },
  {
   "property": "C22",
   "status": "partial",
   "theorems": [
    "Metalift.C22_division_partial",
    "Metalift.C22_negative_refuted",
    "Metalift.C22_zero_refuted"
   ],
   "note": "exact condition for agreement proved as an equivalence; general statement refuted"
  },
  {
   "property": "C23",
   "status": "partial",
   "theorems": [
    "Metalift.C23_to_python_partial",
    "Metalift.C23_product_of_sum_refuted",
    "Metalift.C23_difference_of_sum_refuted",
    "Metalift.C23_quotient_of_product_refuted",
    "Metalift.C23_negated_conjunction_refuted",
    "Metalift.C23_conjunction_of_disjunction_refuted",
    "Metalift.C23_nested_equality_refuted",
    "Metalift.C23_one_tuple_refuted",
    "Metalift.C23_syntax_error_refuted",
    "Metalift.C23_implies_refuted",
    "Metalift.C23_division_refuted",
    "Metalift.C23_negative_index_refuted"
   ],
   "note": "proved for PySafe expressions on the Defined domain; eleven refutations (missing parentheses, negative indices, ...)"
  },
  {
   "property": "C24",
   "status": "partial",
   "theorems": [
    "Metalift.C24_bounded_inputs_partial",
    "Metalift.C24_matrix_bound_one_refuted",
    "Metalift.C24_tuple_refuted"
   ],
   "note": "proved for supported types and names without '-'; refuted for matrices with bound one and for tuples"
  },
  {
   "property": "C25",
   "status": "partial",
   "theorems": [
    "Metalift.C25_returns_verified",
    "Metalift.C25_failures",
    "Metalift.C25_ends_partial",
    "Metalift.C25_no_solution_file_refuted",
    "Metalift.C25_excluded_functions_refuted",
    "Metalift.C25_partial_file_refuted"
   ],
   "note": "returned candidates are verified, order and failures: without restriction; termination needs all solution files (refuted otherwise)"
  },
  {
   "property": "C26",
   "status": "partial",
   "theorems": [
    "Metalift.C26_returns_verified",
    "Metalift.C26_failures",
    "Metalift.C26_solver_ends_refuted",
    "Metalift.C26_name_with_fail_refuted"
   ],
   "note": "returned candidates are verified and failures: without restriction; refuted: the loop may never end, candidates mentioning 'fail' are skipped"
  },
  {
   "property": "C27",
   "status": "partial",
   "theorems": [
    "Metalift.C27_without_transpose_partial",
    "Metalift.C27_preamble_inconsistent_refuted",
    "Metalift.C27_everything_follows_refuted",
    "Metalift.Smt.C27_files_satisfiable_partial",
    "Metalift.Smt.C27_files_unsatisfiable_refuted",
    "Metalift.Smt.C27_every_query_unsat_refuted"
   ],
   "note": "refuted, about the text of the files themselves: the definition of matrix_transpose makes the preamble unsatisfiable, so every query is; all other commands are satisfied by the usual functions"
  },
  {
   "property": "C28",
   "status": "partial",
   "theorems": [
    "Metalift.C28_lists_partial",
    "Metalift.C28_matrices_partial",
    "Metalift.C28_negative_tail_refuted",
    "Metalift.C28_negative_get_refuted",
    "Metalift.C28_empty_row_refuted",
    "Metalift.C28_get_beyond_refuted"
   ],
   "note": "proved for arguments in range; each restriction shown necessary"
  },
  {
   "property": "C29",
   "status": "proved",
   "theorems": [
    "Metalift.C29_sets",
    "Metalift.C29_sortedness_needed"
   ],
   "note": "proved in full for strictly sorted lists (C29_sets); C29_sortedness_needed shows that the restriction in the statement is needed"
  },
  {
   "property": "C30",
   "status": "partial",
   "theorems": [
    "Metalift.C30_maps_partial",
    "Metalift.C30_histories",
    "Metalift.C30_map_eq_refuted"
   ],
   "note": "lookup, presence and histories proved; equality of maps with the same content refuted"
  },
  {
   "property": "C31",
   "status": "partial",
   "theorems": [
    "Metalift.Ten.C31_empty_rows_refuted",
    "Metalift.Ten.C31_integer_exp",
    "Metalift.Ten.C31_integer_sqrt_refuted",
    "Metalift.Ten.C31_integer_sqrt_16_refuted",
    "Metalift.Ten.C31_vectors",
    "Metalift.Ten.C31_matrices_partial",
    "Metalift.Ten.C31_matrices_mismatch",
    "Metalift.Ten.C31_scalar_matrices_partial",
    "Metalift.Ten.C31_tensors_partial",
    "Metalift.Ten.C31_reductions",
    "Metalift.Ten.C31_matrix_vec_mul",
    "Metalift.Ten.C31_functional",
    "Metalift.Ten.C31_matrix_selections_partial"
   ],
   "note": "vectors, reductions, matrix-vector product, map, selection proved; matrices without empty rows; integer_sqrt refuted"
  },
  {
   "property": "C32",
   "status": "partial",
   "theorems": [
    "Metalift.Ten.Ax.C32_vectors_partial",
    "Metalift.Ten.Ax.C32_matrices_partial",
    "Metalift.Ten.Ax.C32_matrix_vec_mul_partial",
    "Metalift.Ten.Ax.C32_reduce_sum_partial",
    "Metalift.Ten.Ax.C32_reduce_max_partial",
    "Metalift.Ten.Ax.C32_index_zero_refuted",
    "Metalift.Ten.Ax.C32_reduce_max_refuted",
    "Metalift.Ten.Ax.C32_matrix_vec_mul_refuted",
    "Metalift.Ten.Ax.C32_selections_partial",
    "Metalift.Ten.Ax.C32_selections_index_zero_refuted"
   ],
   "note": "refuted at index 0 (every axiom of the first kind makes every query unsat); proved for positive indices, including the two selection axioms after toSMT renamed their calls to the copies"
  },
  {
   "property": "C33",
   "status": "partial",
   "theorems": [
    "Metalift.Ll.C33_vc_sound_partial",
    "Metalift.Ll.C33_supported_partial",
    "Metalift.Ll.C33_sequential_loops_refuted",
    "Metalift.Ll.C33_nested_loops_refuted",
    "Metalift.Ll.C33_result_argument_refuted",
    "Metalift.Ll.C33_irreducible_refuted",
    "Metalift.Ll.C33_leaked_postconditions_refuted"
   ],
   "note": "proved for natural disjoint loops under the decidable guards Shape and Flow; refuted: sequential and nested loops over one variable, sret result, irreducible loops, leaked postconditions"
  },
  {
   "property": "C34",
   "status": "partial",
   "theorems": [
    "Metalift.Ll.C34_merge_partial",
    "Metalift.Ll.C34_precondition_partial",
    "Metalift.Ll.C34_single",
    "Metalift.Ll.C34_empty_precondition_refuted"
   ],
   "note": "proved when every predecessor has a precondition; refuted otherwise"
  },
  {
   "property": "C35",
   "status": "partial",
   "theorems": [
    "Metalift.Ll.C35_instruction_partial",
    "Metalift.Ll.C35_division_nonneg",
    "Metalift.Ll.C35_sdiv_refuted",
    "Metalift.Ll.C35_unsigned_refuted",
    "Metalift.Ll.C35_wraparound_refuted",
    "Metalift.Ll.C35_conversion_refuted"
   ],
   "note": "proved for Inst.exact; refuted: sdiv of negative numbers, unsigned comparison, wraparound, integer conversion"
  },
  {
   "property": "C36",
   "status": "partial",
   "theorems": [
    "Metalift.C36_files",
    "Metalift.C36_no_repetition",
    "Metalift.C36_nothing_else_partial",
    "Metalift.C36_different_inputs_refuted",
    "Metalift.C36_invalid_solution_refuted",
    "Metalift.C36_no_functions_refuted"
   ],
   "note": "no repetition proved in full; 'forbids nothing else' refuted, proved when one input separates"
  },
  {
   "property": "C37",
   "status": "partial",
   "theorems": [
    "Metalift.Ten.C37_vector_arithmetic",
    "Metalift.Ten.C37_matrix_arithmetic_partial",
    "Metalift.C37_list_operations_partial",
    "Metalift.C37_not_equal_refuted",
    "Metalift.C37_prepend_empty_row_refuted",
    "Metalift.C37_type_checked"
   ],
   "note": "all operations proved for in-range indices, prepend only for non-empty rows; != and prepend of an empty row refuted"
  },
  {
   "property": "C38",
   "status": "partial",
   "theorems": [
    "Metalift.Np.C38_numpy_partial",
    "Metalift.Np.C38_list_tail_refuted",
    "Metalift.Np.C38_list_prepend_refuted",
    "Metalift.Np.C38_matrix_length_refuted",
    "Metalift.Np.C38_list_concat_refuted",
    "Metalift.Np.C38_list_eq_refuted",
    "Metalift.Np.C38_negated_conjunction_refuted",
    "Metalift.Np.C38_nested_conditional_refuted",
    "Metalift.Np.C38_element_of_sum_refuted",
    "Metalift.Np.C38_three_summands_refuted",
    "Metalift.Np.C38_append_to_empty_refuted",
    "Metalift.Np.C38_overflow_refuted",
    "Metalift.Np.C38_negative_divisor_refuted",
    "Metalift.Np.C38_matrix_prepend_refuted",
    "Metalift.Np.C38_synthesized_call_refuted",
    "Metalift.Np.C38_nested_select_refuted"
   ],
   "note": "proved for expressions accepted by check on inputs with Fits (shapes, ranges, no overflow); fifteen refutations"
  },
  {
   "property": "C39",
   "status": "proved",
   "theorems": [
    "Metalift.Ll.C39_one_predecessor",
    "Metalift.Ll.C39_paths",
    "Metalift.Ll.C39_instructions"
   ],
   "note": "one predecessor, path bijection, instructions unchanged; all functions"
  },
  {
   "property": "C40",
   "status": "partial",
   "theorems": [
    "Metalift.Ll.C40_setup_blocks",
    "Metalift.Ll.C40_edges",
    "Metalift.Ll.C40_unreachable_refuted",
    "Metalift.Ll.C40_unnamed_blocks_refuted",
    "Metalift.Ll.C40_edges_are_jumps"
   ],
   "note": "proved for functions whose blocks end in br/ret and have names; both restrictions refuted"
  },
  {
   "property": "C41",
   "status": "partial",
   "theorems": [
    "Metalift.C41_arbitrary_choice_partial",
    "Metalift.C41_nested_choice_refuted"
   ],
   "note": "proved for alternatives without further choose; refuted for nested ones"
  },
  {
   "property": "C42",
   "status": "partial",
   "theorems": [
    "Metalift.C42_definitions_found_partial",
    "Metalift.C42_slash_refuted"
   ],
   "note": "proved for answers without '/' outside locations; refuted otherwise"
  },
  {
   "property": "C43",
   "status": "partial",
   "theorems": [
    "Metalift.C43_transpose_rosette",
    "Metalift.C43_fuel_refuted"
   ],
   "note": "proved up to the fuel of 64 built into utils.rkt; refuted beyond"
  },
  {
   "property": "C44",
   "status": "partial",
   "theorems": [
    "Metalift.C44_integer_exp_partial",
    "Metalift.C44_integer_sqrt_refuted"
   ],
   "note": "integer_exp proved up to Rosette's fuel; integer_sqrt refuted"
  },
  {
   "property": "C45",
   "status": "partial",
   "theorems": [
    "Metalift.Smt.C45_smt_text_value_partial",
    "Metalift.Smt.C45_smt_text_accepted_partial",
    "Metalift.Smt.C45_negative_literal_refuted",
    "Metalift.Smt.C45_large_tuple_refuted",
    "Metalift.Smt.C45_projection_of_call_refuted",
    "Metalift.Smt.C45_projection_raises_refuted",
    "Metalift.Smt.C45_variable_renamed_refuted"
   ],
   "note": "proved for expressions accepted by printable (symbols, non-negative literals, arities, tuples up to five components); each exclusion refuted"
  },
  {
   "property": "C46",
   "status": "partial",
   "theorems": [
    "Metalift.Smt.C46_query_written_partial",
    "Metalift.Smt.C46_fn_decl_raises_refuted",
    "Metalift.Smt.C46_query_meaning_partial",
    "Metalift.Smt.C46_unsat_valid_partial",
    "Metalift.Smt.C46_sat_counterexample_partial"
   ],
   "note": "equivalence proved for queries with QueryOk (printable expressions, parameters scoped, no functions as arguments); FnDecl with parameters raises (refuted)"
  },
  {
   "property": "C47",
   "status": "partial",
   "theorems": [
    "Metalift.Smt.C47_query_accepted_partial",
    "Metalift.Smt.C47_uninterpreted_function_refuted",
    "Metalift.Smt.C47_negative_literal_refuted",
    "Metalift.Smt.C47_axiom_without_variables_refuted",
    "Metalift.Smt.C47_axiom_about_candidate_refuted",
    "Metalift.Smt.C47_files_and_query_accepted_partial"
   ],
   "note": "proved when every called function is declared and has a body or is recursive (Complete); uninterpreted functions, negative literals, axioms without variables or about candidates refuted"
  },
  {
   "property": "C48",
   "status": "partial",
   "theorems": [
    "Metalift.C48_driver_partial",
    "Metalift.C48_from_grammars_partial",
    "Metalift.C48_postcondition_partial",
    "Metalift.C48_lifted_program_partial",
    "Metalift.C48_negative_divisor_refuted",
    "Metalift.C48_whole_files_refuted",
    "Metalift.C48_left_side_refuted"
   ],
   "note": "proved for supported, well-typed functions, runs with non-negative indices and positive divisors, and the files without matrix_transpose, from the solver's answer, from Driver.synthesize, and from the grammars and Rosette's answer; each exclusion refuted (negative divisor, whole files, left side that is not the result)"
  },
  {
   "property": "C49",
   "status": "proved",
   "theorems": [
    "Metalift.Smt.C49_lists_determined",
    "Metalift.Smt.C49_matrices_determined",
    "Metalift.Smt.C49_integer_exp_determined",
    "Metalift.Smt.C49_get_beyond_any"
   ],
   "note": "proved for all structures satisfying the files without matrix_transpose; outside the bounds list_get is free (C49_get_beyond_any)"
  },
  {
   "property": "C50",
   "status": "partial",
   "theorems": [
    "Metalift.C50_own_version_partial",
    "Metalift.C50_raises_partial",
    "Metalift.C50_other_function_refuted",
    "Metalift.C50_key_error_refuted",
    "Metalift.C50_llvm_own_version_partial",
    "Metalift.C50_llvm_silent_refuted",
    "Metalift.C50_actual_ps_partial",
    "Metalift.C50_actual_ps_second_refuted"
   ],
   "note": "proved for function names without '_ps' inside; refuted for others (a result stored with another function, KeyError), for the LLVM driver an ill-shaped postcondition is skipped silently, get_actual_ps_fn_decl with two functions"
  },
  {
   "property": "C51",
   "status": "partial",
   "theorems": [
    "Metalift.C51_from_grammars_partial",
    "Metalift.Ll.C51_postcondition_partial",
    "Metalift.Ll.C51_no_division_partial",
    "Metalift.Ll.C51_lifted_program_partial",
    "Metalift.Ll.C51_driver_partial",
    "Metalift.Ll.C51_negative_dividend_refuted",
    "Metalift.Ll.C51_whole_files_refuted"
   ],
   "note": "proved for functions that meet the guards of C33, runs without negative dividends, and the files without matrix_transpose, from the solver's answer, from Driver.synthesize, and from the grammars and Rosette's answer; refuted: negative dividend, whole files"
  },
  {
   "property": "C52",
   "status": "partial",
   "theorems": [
    "Metalift.C52_candidates_partial",
    "Metalift.C52_nested_choices_refuted",
    "Metalift.C52_nonterminal_name_refuted"
   ],
   "note": "proved for answers and grammars satisfying SolutionOk (shallow productions without a choice, no function called like a non-terminal); both guards refuted otherwise"
  },
  {
   "property": "C53",
   "status": "partial",
   "theorems": [
    "Metalift.Rkt.C53_library",
    "Metalift.Rkt.C53_transpose_fuel_refuted",
    "Metalift.Rkt.C53_map_insert_arity_refuted",
    "Metalift.Rkt.C53_nonvacuous"
   ],
   "note": "proved about the text of the file for all library functions on arguments of their shapes with enough fuel; refuted: transposition of 63 rows runs out of fuel, map-normalize calls map-insert with the wrong number of arguments"
  },
  {
   "property": "C54",
   "status": "partial",
   "theorems": [
    "Metalift.Rkt.C54_width",
    "Metalift.Rkt.C54_six_bits_partial",
    "Metalift.Rkt.C54_six_bits_refuted",
    "Metalift.Rkt.C54_six_bits_example",
    "Metalift.Rkt.C54_overflow_refuted",
    "Metalift.Rkt.C54_verified_inputs_partial",
    "Metalift.Rkt.C54_verified_iff_partial",
    "Metalift.Rkt.C54_example",
    "Metalift.Rkt.C54_guarded_remainder_refuted",
    "Metalift.Rkt.C54_shadowed_refuted",
    "Metalift.Rkt.C54_recursion_refuted"
   ],
   "note": "proved in both directions for problems with ordinary, non-colliding names whose condition is computed without remainders by zero and within 64 nested recursive calls (the first direction needs no bound on recursion); refuted: guarded remainder by zero, a variable named length, recursion deeper than the fuel. For the default of six-bit integers: proved for values with which the condition can be computed within six bits; refuted beyond (x <= 31 is verified, x < x + 1 is not)"
  },
  {
   "property": "C55",
   "status": "partial",
   "theorems": [
    "Metalift.Llm.C55_solution_partial",
    "Metalift.Llm.C55_python",
    "Metalift.Llm.C55_lambda_names",
    "Metalift.Llm.C55_lambda_names_first",
    "Metalift.Llm.C55_list_display_refuted",
    "Metalift.Llm.C55_keyword_refuted",
    "Metalift.Llm.C55_sorted_refuted",
    "Metalift.Llm.C55_step_refuted",
    "Metalift.Llm.C55_division_refuted",
    "Metalift.Llm.C55_true_refuted",
    "Metalift.Llm.C55_capture_refuted"
   ],
   "note": "proved for solutions that satisfy okDef (no keyword arguments, non-empty list displays, true division, slice steps, True/False, captured variables; called solution functions have parameters in alphabetical order) and for runs that stay inside the range of lists; names of lambda expressions proved without guard; each excluded form has a refutation"
  },
  {
   "property": "C56",
   "status": "partial",
   "theorems": [
    "Metalift.Llm.C56_rosette",
    "Metalift.Llm.C56_smt_partial",
    "Metalift.Llm.C56_limits",
    "Metalift.Llm.C56_feedback",
    "Metalift.Llm.C56_not_missed",
    "Metalift.Llm.C56_summary_partial",
    "Metalift.Llm.C56_invariant_partial",
    "Metalift.Llm.C56_smt_any_answer_refuted",
    "Metalift.Llm.C56_no_verification_refuted",
    "Metalift.Llm.C56_list_answers_refuted",
    "Metalift.Llm.C56_sat_refuted",
    "Metalift.Llm.C56_other_name_refuted"
   ],
   "note": "proved for Rosette, and the limits, the feedback and exhaustion for every method; refuted for CVC5 (any answer counts as accepted), without verification, for answers that are lists, and for summaries with another function name; the meaning of the predicates is proved where C55 applies"
  },
  {
   "property": "C57",
   "status": "partial",
   "theorems": [
    "Metalift.Llm.C57_same_language_partial",
    "Metalift.Llm.C57_other_language_refuted"
   ],
   "note": "proved if the target language is always the same; refuted otherwise (the signatures of the first target language are cached)"
  },
  {
   "property": "C58",
   "status": "partial",
   "theorems": [
    "Metalift.Ten.C58_int_exact",
    "Metalift.Ten.C58_int_expressions",
    "Metalift.Ten.C58_conditionals",
    "Metalift.Ten.C58_relaxed",
    "Metalift.Ten.C58_tensor_expressions_partial",
    "Metalift.Ten.C58_tensor_deep_refuted",
    "Metalift.Ten.C58_tensor_deep_product_refuted"
   ],
   "note": "proved for integers and conditionals at every depth, and for tensors up to depth two; refuted for tensors at depth three and more, where building the search space raises (is_nested does not exist), and where, with that repaired, an additional matrix would remove every expression without a product"
  },
  {
   "property": "C59",
   "status": "proved",
   "theorems": [
    "Metalift.Ten.C59_loop_bounds",
    "Metalift.Ten.C59_loop_index"
   ],
   "note": "proved for every kind of counting loop and every choice, for flags and ends without a choice inside"
  },
  {
   "property": "C60",
   "status": "partial",
   "theorems": [
    "Metalift.Ten.C60_library_functions",
    "Metalift.Ten.C60_left_out_names",
    "Metalift.Ten.C60_left_out_partial",
    "Metalift.Ten.C60_axioms",
    "Metalift.Ten.C60_prefix_refuted",
    "Metalift.Ten.C60_helper_refuted",
    "Metalift.Ten.C60_transpose_refuted",
    "Metalift.Ten.C60_ite_int_refuted"
   ],
   "note": "proved for languages in which the left-out names are the functions of the tensor language other than the transposition and no function is passed as an argument; axioms proved without guard; refuted: any other function named integer... is dropped, selection_two_args is dropped although matrix_selection_two_args calls it, the declared transposition contradicts the other definitions, and no query with the tensor language is written at all, because ite_int cannot be printed"
  },
  {
   "property": "C61",
   "status": "partial",
   "theorems": [
    "Metalift.Rkt.C61_width",
    "Metalift.Rkt.C61_six_bits_partial",
    "Metalift.Rkt.C61_six_bits_refuted",
    "Metalift.Rkt.C61_solutions_partial",
    "Metalift.Rkt.C61_found_partial",
    "Metalift.Rkt.C61_all_resolutions",
    "Metalift.Rkt.C61_example",
    "Metalift.Rkt.C61_depth_refuted"
   ],
   "note": "proved in both directions for well-typed sketches with ordinary names (not those of productions), unbounded integers and, conversely, conditions that can be computed within the bounds of C54; refuted: resolutions with more than ten nested chooses are never found, because the depth of derivations is fixed in the file; for the default of six-bit integers the first direction is proved for the values with which the condition can be computed within six bits, and refuted for others"
  },
  {
   "property": "C62",
   "status": "partial",
   "theorems": [
    "Metalift.Smt.C62_grammar_partial",
    "Metalift.Smt.C62_query_refuted"
   ],
   "note": "the text of every command is proved to state the resolutions of the sketch, for printable sketches whose names are not those of non-terminals; refuted for queries: with a function to be synthesised no query is ever written, because filter_fn_args raises for it"
  },
  {
   "property": "C63",
   "status": "partial",
   "theorems": [
    "Metalift.C63_candidates_partial",
    "Metalift.C63_driver_names",
    "Metalift.C63_substring_refuted",
    "Metalift.C63_atom_refuted"
   ],
   "note": "proved for names that do not occur in the word sygus-candidate (all names of the drivers, which contain an underscore) and terms that are not just the name of a function; refuted without each of these guards"
  },
  {
   "property": "C64",
   "status": "partial",
   "theorems": [
    "Metalift.SO.C64_set_programs_partial",
    "Metalift.SO.C64_set_equality",
    "Metalift.SO.C64_set_types",
    "Metalift.SO.C64_membership_refuted",
    "Metalift.SO.C64_remove_refuted",
    "Metalift.SO.C64_tuples_partial",
    "Metalift.SO.C64_tuple_bounds",
    "Metalift.SO.C64_tuples_refuted"
   ],
   "note": "proved for programs on sets of integers and for components of type Int and Bool; refuted: membership in sets, removal from sets of lists, negative tuple indices, components that are lists, and indexing of tuples returned by functions"
  },
  {
   "property": "C65",
   "status": "partial",
   "theorems": [
    "Metalift.Ten.C65_tensor_text",
    "Metalift.C65_text_partial",
    "Metalift.C65_types_refuted",
    "Metalift.C65_tensor_type_refuted",
    "Metalift.Ten.C65_tensor_vectors",
    "Metalift.Ten.C65_tensor_matrices",
    "Metalift.Ten.C65_tensor_reductions",
    "Metalift.Ten.C65_tensor_matrix_vec_mul",
    "Metalift.Ten.C65_tensor_functional",
    "Metalift.Ten.C65_tensor_slices",
    "Metalift.Ten.C65_tensor_integer_exp",
    "Metalift.Ten.C65_tensor_declared_partial",
    "Metalift.Ten.C65_transpose_refuted",
    "Metalift.Ten.C65_integer_sqrt_refuted"
   ],
   "note": "proved for all declarations whose text needs no further parentheses, and for the functions of the tensor language one by one (except matrix_transpose and integer_sqrt, refuted: they never return); matrices of the same shape without empty rows when compared with the declarations; set and tuple types and functions without body raise, three-dimensional tensors are printed as lists of integers"
  },
  {
   "property": "C66",
   "status": "partial",
   "theorems": [
    "Metalift.Ten.C66_contains_solution_partial",
    "Metalift.Ten.C66_solution_sound_partial",
    "Metalift.Ten.C66_ragged_refuted",
    "Metalift.Ten.C66_empty_rows_refuted"
   ],
   "note": "proved for all rectangular matrices of the same size with at least one column; refuted for what the drivers assume (only the first rows are compared): with rows of different lengths, and with empty rows where Rosette's matrix-prepend drops them, no candidate of the search space satisfies the conditions"
  },
  {
   "property": "C67",
   "status": "partial",
   "theorems": [
    "Metalift.Rkt.C67_rounds_partial",
    "Metalift.Rkt.C67_distinct_partial",
    "Metalift.Rkt.C67_no_functions_partial",
    "Metalift.Rkt.C67_first_partial",
    "Metalift.Rkt.C67_found_partial",
    "Metalift.Rkt.C67_later_refuted",
    "Metalift.Rkt.C67_example"
   ],
   "note": "proved with unbounded integers for problems where the text reads back (SketchOk) and the parameters of compared functions are declared variables; refuted that a program found in a later round satisfies the condition for all values within the bound (the query assumes that it differs from earlier solutions, so it is only checked where it does)"
  },
  {
   "property": "C68",
   "status": "partial",
   "theorems": [
    "Metalift.C68_outcome",
    "Metalift.C68_verified_partial",
    "Metalift.C68_relaxed_verified",
    "Metalift.C68_default_refuted",
    "Metalift.C68_endless_refuted",
    "Metalift.C68_first_outcome",
    "Metalift.C68_example"
   ],
   "note": "proved how a run ends for all answers; that the verifier accepted is proved when verification is not switched off, and refuted with the default arguments (no_verify=True; the call with the relaxed grammar ignores the option); refuted that a run ends (if verification fails at all bounds)"
  },
  {
   "property": "C69",
   "status": "partial",
   "theorems": [
    "Metalift.Ll.C69_loops_partial",
    "Metalift.Ll.C69_blocks_partial",
    "Metalift.Ll.C69_example",
    "Metalift.Ll.C69_latch_name_refuted",
    "Metalift.Ll.C69_parallel_refuted",
    "Metalift.Ll.C69_dot_refuted",
    "Metalift.Ll.C69_space_refuted"
   ],
   "note": "proved for functions whose names consist of letters, digits and underscores, if no loop is printed as parallel, no unmarked block has 'latch' in its name and no function name has white space or quotes; refuted without each of these guards"
  },
  {
   "property": "C70",
   "status": "partial",
   "theorems": [
    "Metalift.Ll.C70_name_partial",
    "Metalift.Ll.C70_call_partial",
    "Metalift.Ll.C70_cast",
    "Metalift.Ll.C70_vector_partial",
    "Metalift.Ll.C70_example",
    "Metalift.Ll.C70_template_refuted",
    "Metalift.Ll.C70_operator_refuted",
    "Metalift.Ll.C70_scope_refuted",
    "Metalift.Ll.C70_skipped_refuted",
    "Metalift.Ll.C70_vector_refuted"
   ],
   "note": "proved for names without parentheses in scopes and parameters whose template arguments are not qualified, and for vectors of libc++ over one-word types; refuted: instances of templates with qualified arguments are read as other functions, operators are not read, scopes are dropped (Stack::push_back is taken for the vector's), unknown functions are skipped silently, vectors of unsigned char or of libstdc++ are refused"
  },
  {
   "property": "C71",
   "status": "partial",
   "theorems": [
    "Metalift.Ten.C71_computation_partial",
    "Metalift.Ten.C71_computation_deep_refuted",
    "Metalift.Ten.C71_select_partial",
    "Metalift.Ten.C71_dissolve_partial",
    "Metalift.Ten.C71_computation_wide_refuted",
    "Metalift.Ten.C71_dissolve_wide_refuted",
    "Metalift.Ten.C71_solution_sound_partial"
   ],
   "note": "selections: proved for every depth, all constants and all rectangular images with a column. Computations: proved up to depth two for square images; refuted beyond (from depth three the space cannot be built; for images with more columns than rows no candidate solves any program, because the outer invariant has no access to the number of columns). Dissolve: proved for every depth for square images, refuted for wide ones in the same way"
  },
  {
   "property": "C72",
   "status": "partial",
   "theorems": [
    "Metalift.Ll.Lib.C72_library_partial",
    "Metalift.Ll.Lib.C72_function_partial",
    "Metalift.Ll.Lib.C72_function_no_append_partial",
    "Metalift.Ll.Lib.C72_example",
    "Metalift.Ll.Lib.C72_append_variable_refuted",
    "Metalift.Ll.Lib.C72_append_argument_refuted",
    "Metalift.Ll.Lib.C72_contains_refuted",
    "Metalift.Ll.Lib.C72_push_back_type_refuted",
    "Metalift.Ll.Lib.C72_push_back_name_refuted",
    "Metalift.Ll.Lib.C72_unsupported_refuted"
   ],
   "note": "proved for every program of one block whose reads are not of variables whose list object was appended to under another name; without listAppend there is no condition on sharing. Refuted: listAppend changes the object shared by all variables, including the argument to which the postcondition is applied (a wrong postcondition is verified); set_contains yields Python's True and the function cannot be read; after push_back a vector<int> has the type of a list of lists, so that using its elements raises or the function on matrices is called; getField, setField, i64 and tuples with numbered struct names always raise"
  },
  {
   "property": "C73",
   "status": "partial",
   "theorems": [
    "Metalift.Llm.Reply.C73_comments_partial",
    "Metalift.Llm.Reply.C73_docstring_partial",
    "Metalift.Llm.Reply.C73_comments_example",
    "Metalift.Llm.Reply.C73_comments_refuted",
    "Metalift.Llm.Reply.C73_blocks_partial",
    "Metalift.Llm.Reply.C73_ite_text_partial",
    "Metalift.Llm.Reply.C73_ite_partial",
    "Metalift.Llm.Reply.C73_program_partial",
    "Metalift.Llm.Reply.C73_one_block_partial",
    "Metalift.Llm.Reply.C73_example",
    "Metalift.Llm.Reply.C73_ite_example",
    "Metalift.Llm.Reply.C73_list_refuted",
    "Metalift.Llm.Reply.C73_first_block_refuted",
    "Metalift.Llm.Reply.C73_language_refuted",
    "Metalift.Llm.Reply.C73_operand_refuted",
    "Metalift.Llm.Reply.C73_nested_refuted",
    "Metalift.Llm.Reply.C73_cut_refuted"
   ],
   "note": "proved: the blocks of every reply whose fences stand alone, with no language or one of five, are extracted exactly; the program of the second service is their code (of the third if there is one block) when there is no ite( in it; a call of ite with arguments without commas and parentheses is replaced by an expression with the same value; comments at the ends of lines and the first text in triple quotes are removed and nothing else. Refuted: the first service returns a list and no answer of it can ever be checked; the third raises without a block and drops all but the first; c++, py, Python3 leave part of the language name in the code; ite as an operand, nested, with calls as arguments or over several lines changes the value or the syntax; functions whose names end in ite are rewritten; # in a text constant or documentation cuts the program"
  },
  {
   "property": "C74",
   "status": "partial",
   "theorems": [
    "Metalift.Llm.Dis.C74_meaning_partial",
    "Metalift.Llm.Dis.C74_first_attempt",
    "Metalift.Llm.Dis.C74_attempts_partial",
    "Metalift.Llm.Dis.C74_second_attempt_refuted",
    "Metalift.Llm.Dis.C74_captured_refuted",
    "Metalift.Llm.Dis.C74_language",
    "Metalift.Llm.Dis.C74_language_refuted",
    "Metalift.Llm.Dis.C74_invariant_partial",
    "Metalift.Llm.Dis.C74_summary_partial",
    "Metalift.Llm.Dis.C74_in_calls_partial",
    "Metalift.Llm.Dis.C74_in_calls_refuted",
    "Metalift.Llm.Dis.C74_example"
   ],
   "note": "proved: for solutions whose lambda expressions have two integer parameters, use besides them opacity and rand_cons only and are passed to the selections only, the rewritten summary says of every value exactly that it is the value of the function of the solution in Python, and the rewritten invariants have the value of the function; in the first attempt every function is verified, rewritten, and nothing else; with a summary that passes no function, in every attempt; the two lists of functions passed as arguments are those of the rewritten calls; the target language is the same in later attempts. Refuted: the second attempt for a summary that passes a lambda expression gives its function the parameters opacity and rand_cons twice; a lambda expression that uses another variable of its function gets a free variable; a function named select_two_args_arg is renamed in the list of arguments and nowhere else; the target language of the caller has lost its selections after the run. Domain of the proof: matrices of the same shape without empty rows (as in C31)"
  },
  {
   "property": "C75",
   "status": "partial",
   "theorems": [
    "Metalift.Gem.C75_kernel_partial",
    "Metalift.Gem.C75_example",
    "Metalift.Gem.C75_scale_refuted",
    "Metalift.Gem.C75_multiple_refuted",
    "Metalift.Gem.C75_scalar_add_refuted",
    "Metalift.Gem.C75_sum_refuted",
    "Metalift.Gem.C75_capture_refuted",
    "Metalift.Gem.C75_variable_refuted",
    "Metalift.Gem.C75_exception_refuted",
    "Metalift.Gem.C75_rows_refuted",
    "Metalift.Gem.C75_range_refuted",
    "Metalift.Gem.C75_glue_refuted"
   ],
   "note": "proved: for vectors and for matrices, for programs built at any depth from parameters by element-wise addition, subtraction and multiplication, subtraction of an integer expression that is no sum, subtraction from an integer expression, transposition, conditionals on a boolean parameter and linear combinations of two vectors, with all tensor values in the range of elem_t: code is generated, runs without undefined behaviour, leaves the value of the program in out and changes no argument, whatever out and the static arrays contain before. Refuted: multiplication with an integer (copies out over the argument), addition of an integer (not C), subtraction of a sum (wrong sign), a parameter named i, a program or branch that is a variable (no assignment), comparisons, division, matrix_length and integer-valued calls as arguments (exceptions), row slices (not moved to the first row), values outside elem_t, and the element types in the glue function. Not covered by the proof: slices, matrix_vec_mul, reduce_sum and element-wise division, whose library functions or floating-point rounding are not modelled"
  },
  {
   "property": "C76",
   "status": "partial",
   "theorems": [
    "Metalift.Llm.Prompt.C76_arguments",
    "Metalift.Llm.Prompt.C76_order",
    "Metalift.Llm.Prompt.C76_template",
    "Metalift.Llm.Prompt.C76_binding_partial",
    "Metalift.Llm.Prompt.C76_assert_partial",
    "Metalift.Llm.Prompt.C76_example",
    "Metalift.Llm.Prompt.C76_assert_example",
    "Metalift.Llm.Prompt.C76_example_order_refuted",
    "Metalift.Llm.Prompt.C76_outer_counter_refuted",
    "Metalift.Llm.Prompt.C76_type_refuted",
    "Metalift.Llm.Prompt.C76_no_arguments_refuted",
    "Metalift.Llm.Prompt.C76_scope_refuted",
    "Metalift.Llm.Prompt.C76_unknown_refuted",
    "Metalift.Llm.Prompt.C76_double_refuted",
    "Metalift.Llm.Prompt.C76_lines_refuted",
    "Metalift.Llm.Prompt.C76_literal_refuted",
    "Metalift.Llm.Prompt.C76_comment_refuted"
   ],
   "note": "proved: for every description of one or two loops and every order of sets, the arguments of an invariant are its variables, each once, sorted by name (C76_arguments, C76_order); the template shows the asked name and these parameters (C76_template); for drivers that pass the arguments of get_inv_args with no further names in scope, the call at every point of every history of visits means the body of the answer with the values of the program's variables (C76_binding_partial); every return statement on one line without semicolon in its expression becomes the assertion and nothing else changes (C76_assert_partial). Refuted: the example in the prompt lists parameters in another order than the template, and answers are matched by position; the template of an inner loop asks for an expression over the outer counter, which need not be a parameter (transformer_part2); a variable declared with two types is shown with the first; without arguments from the driver, or with names in scope, the call has other arguments; a name unknown to the front end raises; the templates of two loops are shown as the repr of a Python list on one line; return statements on two lines, with a semicolon in a literal, and the word return in a comment."
  },
  {
   "property": "C77",
   "status": "partial",
   "theorems": [
    "Metalift.Gaudi.C77_kernel_partial",
    "Metalift.Gaudi.C77_parts_partial",
    "Metalift.Gaudi.C77_glue_partial",
    "Metalift.Gaudi.C77_example",
    "Metalift.Gaudi.C77_text_example",
    "Metalift.Gaudi.C77_condition_refuted",
    "Metalift.Gaudi.C77_capture_refuted",
    "Metalift.Gaudi.C77_slice_refuted",
    "Metalift.Gaudi.C77_summands_refuted",
    "Metalift.Gaudi.C77_sum_refuted",
    "Metalift.Gaudi.C77_recursion_refuted",
    "Metalift.Gaudi.C77_unsupported_refuted",
    "Metalift.Gaudi.C77_range_refuted",
    "Metalift.Gaudi.C77_glue_refuted",
    "Metalift.Gaudi.C77_struct_refuted",
    "Metalift.Gaudi.C77_selection_partial",
    "Metalift.Gaudi.C77_selection_example"
   ],
   "note": "proved: for bytes and 32-bit integers, programs of any depth from element-wise sums, differences and products, and the same with integer expressions, the kernel writes the value of the program at every covered place inside the tensor and nothing elsewhere (C77_kernel_partial), so calls on parts that cover the tensor, in any order, leave the value in it (C77_parts_partial); the same for a selection on two tensors by a function with a comparison and two branches (C77_selection_partial); all this provided that all intermediate values are in the range of the data type and no parameter has a name the kernel uses; the glue code declares the right numbers unless an integer parameter comes with 32-bit integers (C77_glue_partial). Fails for conditionals (always the first branch), captured names, slices (ignored), sums of more than two integers, reduce_sum, selections on matrices named like the parameters of the selecting function (endless recursion), functions the generator does not know, values out of range, the glue code with 32-bit integer parameters, and the parameter structure with two members. Missing: division, floating point, selections inside other operations."
  },
  {
   "property": "C78",
   "status": "partial",
   "theorems": [
    "Metalift.Llm.Test.C78_report_partial",
    "Metalift.Llm.Test.C78_run",
    "Metalift.Llm.Test.C78_import_refuted",
    "Metalift.Llm.Test.C78_parser_refuted",
    "Metalift.Llm.Test.C78_load_refuted",
    "Metalift.Llm.Test.C78_example",
    "Metalift.Llm.Test.C78_mutation_refuted"
   ],
   "note": "proved: the result of a run is the number of inputs, as they are in the table then, on which the program returns the expected output, whatever the program does (C78_run); for programs that can be loaded and keep their arguments the report has the right number for every different program, once, whatever was tested before, and the right counts of errors (C78_report_partial). Fails: the module imported before every program does not exist, so nothing is tested; the parser is called with positional arguments for keyword-only parameters, so no program is recorded as accepted; one program that cannot be loaded ends the script; a program that changes its arguments changes the tests of later programs. Missing: programs that change global objects."
  },
  {
   "property": "C79",
   "status": "partial",
   "theorems": [
    "Metalift.Sols.C79_blend_invariants",
    "Metalift.Sols.C79_multiply_invariants_partial",
    "Metalift.Sols.C79_color_burn_invariants_partial",
    "Metalift.Sols.C79_dissolve_invariants_partial",
    "Metalift.Sols.C79_screen_invariants_partial",
    "Metalift.Sols.C79_overlay_invariants_partial",
    "Metalift.Sols.C79_color_dodge_invariants_partial",
    "Metalift.Sols.C79_normal_invariants",
    "Metalift.Sols.C79_overlay_invariant_refuted",
    "Metalift.Sols.C79_blend_invariant_example",
    "Metalift.Sols.C79_exact",
    "Metalift.Sols.C79_normal",
    "Metalift.Sols.C79_multiply_partial",
    "Metalift.Sols.C79_screen_partial",
    "Metalift.Sols.C79_color_burn_partial",
    "Metalift.Sols.C79_color_dodge_partial",
    "Metalift.Sols.C79_dissolve_partial",
    "Metalift.Sols.C79_overlay_partial",
    "Metalift.Sols.C79_overlay_refuted",
    "Metalift.Sols.C79_zero_refuted",
    "Metalift.Sols.C79_negative_refuted",
    "Metalift.Sols.C79_screen_invariant_refuted",
    "Metalift.Sols.C79_example",
    "Metalift.Sols.C79_invariants_hold",
    "Metalift.Sols.C79_llama_invariants",
    "Metalift.Sols.C79_rmsnorm1_invariant",
    "Metalift.Sols.C79_softmax1_invariant_partial",
    "Metalift.Sols.C79_softmax4_invariant_partial",
    "Metalift.Sols.C79_transformer3_invariant_partial",
    "Metalift.Sols.C79_rmsnorm2_invariant_partial",
    "Metalift.Sols.C79_matmul_invariants_partial",
    "Metalift.Sols.C79_softmax1_invariant_refuted",
    "Metalift.Sols.C79_llama_invariant_example",
    "Metalift.Sols.C79_llama_exact",
    "Metalift.Sols.C79_softmax4_partial",
    "Metalift.Sols.C79_rmsnorm2_partial",
    "Metalift.Sols.C79_transformer3_partial",
    "Metalift.Sols.C79_llama_exp",
    "Metalift.Sols.C79_matmul_partial",
    "Metalift.Sols.C79_llama_refuted",
    "Metalift.Sols.C79_llama_example"
   ],
   "note": "proved: on all matrices of the same shape the stored solutions of darken, lighten, linear burn and linear dodge, and on all vectors of the same length those of the two normal blends, return what the C++ programs return (C79_exact, C79_normal); multiply and screen without negative products, color burn for positive active and base up to 32, color dodge for active below 32 and base from 0, dissolve for random numbers from 0, overlay where base is below 16 or at least 128 (C79_..._partial). Fails: overlay compares with 128 instead of 16 and is wrong for every element from 16 to 127; color burn and color dodge divide by zero where the C++ program takes the other branch; divisions of negative numbers round differently; the stored outer invariant of screen requires an empty output between the first and the last row. Llama: the solutions of softmax 1-3, rmsnorm 1 and transformer 4 are right for all vectors and bounds from 0 (softmax 1: from 1) to the length (C79_llama_exact); softmax 4 for positive sums and no negative numbers, rmsnorm 2 for non-empty vectors, transformer 3 for non-negative exponentials, as integer_exp of the target language has (C79_llama_exp), matmul for non-empty rows. Fails: softmax 1 returns -32 for the bound 0, negative bounds count from the end, matmul returns [] for matrices without columns, rmsnorm 2 raises on empty vectors (C79_llama_refuted). Invariants: inductive, and imply the solutions, on all inputs (C79_blend_invariants, C79_normal_invariants, C79_llama_invariants, C79_rmsnorm1_invariant) or under the guards of the solutions (C79_..._invariants_partial); that of softmax 1 is not inductive below -32, that of overlay not from 16 to 127. The inner invariant of screen works with a repaired outer one (C79_screen_invariants_partial)."
  }
 ]
}