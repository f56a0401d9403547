{"claims": [
{"property": "C01", "status": "proved", "theorems": ["Props.C01_get_relation", "Props.C01_antisymmetric", "Props.C01_self", "Props.C01_transitive_cv", "Props.C01_transitive"], "note": ""},
{"property": "C02", "status": "proved", "theorems": ["Props.C02_matrix_entry", "Props.C02_matrix_eq_relation", "Props.C02_loop_eq_vectorised", "Props.C02_loop_constrained"], "note": ""},
{"property": "C03", "status": "proved", "theorems": ["Props.C03_fast_sort_matrix", "Props.C03_fast_sort", "Props.C03_first_front", "Props.C03_rank_structure", "Props.C03_fronts_unique", "Props.C03_any_matrix"], "note": ""},
{"property": "C04", "status": "proved", "theorems": ["Props.C04_ens_sequential", "Props.C04_presort_exists", "Props.C04_agrees_with_fast"], "note": ""},
{"property": "C05", "status": "proved", "theorems": ["Props.C05_ens_binary"], "note": ""},
{"property": "C06", "status": "partial", "theorems": ["Props.C06_biobj_partial", "Props.C06_biobj_refuted_dominated_member", "Props.C06_biobj_refuted_duplicate"], "note": "The full statement is false of the unchanged code (witnesses proved); the partial theorem covers inputs without ties in an objective."},
{"property": "C07", "status": "proved", "theorems": ["Props.C07_find_epsilon", "Props.C07_find_exact", "Props.C07_find_nonempty", "Props.C07_find_against", "Props.C07_epsilon_empty_refuted"], "note": "With epsilon > 0 the answer may be empty (proved by witness), so non-emptiness is claimed for epsilon = 0 only."},
{"property": "C08", "status": "proved", "theorems": ["Props.C08_dda_fast", "Props.C08_dda_efficient", "Props.C08_dda_invalid", "Props.C08_dda_no_objectives_diverges"], "note": "For at least one point and one objective; the zero-objective 'fast' strategy diverges (proved)."},
{"property": "C09", "status": "partial", "theorems": ["Props.C09_tree_partial", "Props.C09_tree_refuted_duplicates"], "note": "False of the unchanged code for duplicate rows (witness proved); partial: no duplicate rows."},
{"property": "C10", "status": "partial", "theorems": ["Props.C10_rank_from_fronts", "Props.C10_native", "Props.C10_epsilon_no_effect", "Props.C10_dominator", "Props.C10_first", "Props.C10_with_rank", "Props.C10_dominator_n_fronts_refuted", "Props.C10_any_dominator"], "note": "Everything is proved except that n_fronts is ignored when a custom dominator is used (refuted by witness). moocore's pareto_rank enters by its contract."},
{"property": "C11", "status": "proved", "theorems": ["Props.C11_rank_and_crowding", "Props.C11_nsga2"], "note": "For every crowding metric, random stream and tie-breaking."},
{"property": "C12", "status": "proved", "theorems": ["Props.C12_split", "Props.C12_feasibility_first", "Props.C12_unconstrained", "Props.C12_nsga2_operator", "Props.C12_return_indices"], "note": ""},
{"property": "C13", "status": "proved", "theorems": ["Props.C13_nonneg", "Props.C13_extremes", "Props.C13_boundary", "Props.C13_formula", "Props.C13_small_front"], "note": ""},
{"property": "C14", "status": "proved", "theorems": ["Props.C14_default_elimination", "Props.C14_default_elimination_covers", "Props.C14_default_elimination_cover_refuted", "Props.C14_elementwise_elimination", "Props.C14_elementwise_representatives", "Props.C14_hash_elimination", "Props.C14_no_elimination", "Props.C14_return_indices"], "note": "Default, element-wise, hash and no elimination for arbitrary tests/others; covering by survivors holds for transitive tests and is refuted for positive tolerances."},
{"property": "C15", "status": "proved", "theorems": ["Props.C15_infill_bounded", "Props.C15_infill_complete", "Props.C15_infill_duplicate_free"], "note": "Arbitrary mating/repair; n_max_iterations=0 still runs one round."},
{"property": "C16", "status": "proved", "theorems": ["Props.C16_counts", "Props.C16_skips_evaluated", "Props.C16_complete", "Props.C16_values", "Props.C16_evaluated_at_most_once", "Props.C16_failed_call"], "note": "Heap of individuals with aliasing; includes failure of the problem or of the value assignment."},
{"property": "C17", "status": "proved", "theorems": ["Props.C17_forced", "Props.C17_forced_forever", "Props.C17_progress_nonneg", "Props.C17_negative_rejected", "Props.C17_tree", "Props.C17_limit_exact", "Props.C17_limit_latches", "Props.C17_limit_special", "Props.C17_time"], "note": "Arbitrary trees of any/all/robust over arbitrary primitive criteria."},
{"property": "C18", "status": "proved", "theorems": ["Props.C18_run_finalizes_once", "Props.C18_run_terminated", "Props.C18_n_gen_steps", "Props.C18_n_gen_run", "Props.C18_n_gen_zero_raises", "Props.C18_n_eval_run"], "note": "Arbitrary hooks; the generation-count theorems need that _advance completes a generation."},
{"property": "C19", "status": "proved", "theorems": ["Props.C19_cv_zero_iff_satisfied", "Props.C19_cv_monotone", "Props.C19_default_feasible"], "note": "Powers are natural numbers; the aggregation is the sum (the default) for the theorems."},
{"property": "C20", "status": "partial", "theorems": ["Props.C20_stale_refuted", "Props.C20_no_cache_current", "Props.C20_invalidated_partial"], "note": "The code violates the full property with caching on (refuted); proved without caching for all access sequences, and with caching for reads after an invalidation."},
{"property": "C21", "status": "proved", "theorems": ["Props.C21_empty", "Props.C21_multi_objective", "Props.C21_single_objective", "Props.C21_no_feasible", "Props.C10_contract_satisfiable"], "note": "moocore's pareto_rank is a parameter with a contract, shown satisfiable."},
{"property": "C22", "status": "partial", "theorems": ["Props.C22_size_limit", "Props.C22_single_objective_best", "Props.C22_multi_objective_consistent", "Props.C22_multi_objective_unbounded", "Props.C22_add_raises_iff", "Props.C22_zero_size_refuted", "Props.C22_unbounded_constructor_raises"], "note": "Proved for max_size>=1 and truncate_size>=1 (or none); max_size=0 means no limit in the code (refuted), MultiObjectiveArchive(max_size=None) raises."},
{"property": "C23", "status": "proved", "theorems": ["Props.C23_is_better", "Props.C23_accept_iff", "Props.C23_accept_unconstrained", "Props.C23_sizes", "Props.C23_monotone_history", "Props.C23_keeps_duplicate_free"], "note": "Objects in the offspring must be distinct for the exact acceptance condition."},
{"property": "C24", "status": "partial", "theorems": ["Props.C24_bounds_check", "Props.C24_clamp", "Props.C24_set_to_bounds", "Props.C24_periodic_partial", "Props.C24_bounce_back_partial", "Props.C24_fixed_variable_refuted", "Props.C24_random_init", "Props.C24_de_repairs", "Props.C24_inverse_penalty", "Props.C24_repair_operator"], "note": "Clamping, random re-initialisation, DE repairs, inverse penalty proved for all inputs. Periodic and bounce-back proved for xl<xu; for xl=xu the code computes x mod 0 = NaN (C24_fixed_variable_refuted). The random draw inside inverse_penalty is an argument."},
{"property": "C25", "status": "proved", "theorems": ["Props.C25_ox", "Props.C25_ox_length", "Props.C25_inversion", "Props.C25_erx"], "note": "erx also: terminates in len(a) rounds, no KeyError, every step uses a parental edge unless none is left."},
{"property": "C26", "status": "proved", "theorems": ["Props.C26_crossover_mask", "Props.C26_point_crossover", "Props.C26_uniform", "Props.C26_hux", "Props.C26_at_least_once", "Props.C26_binomial", "Props.C26_exponential", "Props.C26_conserves"], "note": "One mating at a time (rows are independent in the code); random draws are universally quantified arguments."},
{"property": "C27", "status": "proved", "theorems": ["Props.C27_permutation", "Props.C27_pr_zero", "Props.C27_pr_one"], "note": ""},
{"property": "C28", "status": "proved", "theorems": ["Props.C28_compare", "Props.C28_nsga2", "Props.C28_nsga2_symm", "Props.C28_ga", "Props.C28_others", "Props.C28_participants", "Props.C28_nothing_to_select", "Props.C28_tournament", "Props.C28_pressure", "Props.C28_random"], "note": "All tournament comparisons (NSGA-II, GA, NSGA-III, U-NSGA-III, SMS-EMOA, C-TAEA, SPEA2), TournamentSelection and RandomSelection, for all random permutations and coins. Which generator is used is not modelled beyond naming a second coin where the code forgets to pass random_state (nsga3.py:36-43, unsga3.py:36-43)."},
{"property": "C29", "status": "partial", "theorems": ["Props.C29_das_dennis", "Props.C29_das_dennis_zero", "Props.C29_factory", "Props.C29_iterator", "Props.C29_iterator_zero"], "note": "Das-Dennis recursion, factory (lexsort, scaling) and incremental iterator yield exactly the C(M+p-1,p) grid points on the simplex; for n_partitions = 0 the iterator yields nothing and never ends (C29_iterator_zero), so the iterator part of the claim is false there."},
{"property": "C30", "status": "proved", "theorems": ["Props.C30_closest", "Props.C30_degenerate", "Props.C30_factory"], "note": ""},
{"property": "C31", "status": "partial", "theorems": ["Props.C31_roundtrip_partial", "Props.C31_rejects", "Props.C31_forward", "Props.C31_forward_one_sided_partial", "Props.C31_documented_range", "Props.C31_int_array_truncates", "Props.C31_int_bounds_refuted", "Props.C31_denormalize", "Props.C31_normalize_estimated", "Props.C31_simple_bounds_fixed", "Props.C31_simple_roundtrip_partial", "Props.C31_simple_estimated", "Props.C31_simple_degenerate_lost"], "note": "Round trips, ranges and monotonicity proved for float arrays with every pattern of missing/equal bounds. Refuted as stated: integer data arrays are truncated, one-sided integer bounds fill the other side with a cast NaN, SimpleZeroToOneNormalization loses values different from the bound when xl=xu."},
{"property": "C32", "status": "proved", "theorems": ["Props.C32_weighted_sum_mono", "Props.C32_weighted_sum_strict", "Props.C32_weighted_sum_pareto", "Props.C32_tchebicheff_mono", "Props.C32_tchebicheff_needs_utopian", "Props.C32_tchebicheff_value", "Props.C32_asf_mono", "Props.C32_asf_value", "Props.C32_aasf_mono", "Props.C32_aasf_strict", "Props.C32_many_to_many", "Props.C32_vectors", "Props.C32_auto", "Props.C32_utopian", "Props.C32_pbi_pythagoras", "Props.C32_pbi_on_ray", "Props.C32_pbi_not_monotone"], "note": "All scalarisations and the shape dispatch of Decomposition.do; PBI is shown not to be monotone (it is not claimed to be)."},
{"property": "C33", "status": "proved", "theorems": ["Props.C33_window_holds_last", "Props.C33_unbounded", "Props.C33_is_full"], "note": ""},
{"property": "C34", "status": "proved", "theorems": ["Props.C34_niching", "Props.C34_niching_too_few", "Props.C34_niche_of", "Props.C34_survival", "Props.C34_survival_fair", "Props.C34_opt_outside_population"], "note": "For every shuffle; survival of NSGA-III on top of niching. Also shows that the reported optimum may lie outside the surviving population."},
{"property": "C35", "status": "proved", "theorems": ["Props.C35_set", "Props.C35_set_get", "Props.C35_set_mismatch", "Props.C35_interleaving", "Props.C35_new", "Props.C35_new_mismatch", "Props.C35_merge", "Props.C35_merge_raises", "Props.C35_merge_array"], "note": "Heap model, so shared individuals are covered: the value at the last occurrence wins. numpy dtype conversion of get is not modelled."},
{"property": "C36", "status": "proved", "theorems": ["Props.C36_flatten", "Props.C36_roundtrip", "Props.C36_roundtrip_params", "Props.C36_hierarchical", "Props.C36_get_params", "Props.C36_set_params", "Props.C36_limits"], "note": "Trees of any depth; keys are strings. C36_limits shows what happens outside the hypotheses (empty groups vanish, dotted names are split, a key that is also a group is lost). set_params only without shared variables."},
{"property": "C37", "status": "proved", "theorems": ["Props.C37_index", "Props.C37_unique", "Props.C37_wheel", "Props.C37_all_equal_first"], "note": "If all values are equal and smaller is better the first index is always taken (C37_all_equal_first)."},
{"property": "C38", "status": "proved", "theorems": ["Props.C38_quicksort", "Props.C38_numpy", "Props.C38_unknown_order"], "note": ""},
{"property": "C39", "status": "partial", "theorems": ["Props.C39_find_duplicates", "Props.C39_get_duplicates_index_error", "Props.C39_get_duplicates_refuted", "Props.C39_get_duplicates_partial"], "note": "find_duplicates fully proved; get_duplicates raises IndexError exactly when the two last sorted rows are equal (refuted as stated), correct otherwise."},
{"property": "C40", "status": "partial", "theorems": ["Props.C40_rand", "Props.C40_best", "Props.C40_current", "Props.C40_can_recover", "Props.C40_never_returns", "Props.C40_wrong_size", "Props.C40_rank_sort", "Props.C40_ranked", "Props.C40_rank_sort_even", "Props.C40_fast_fill_first", "Props.C40_de_rand_duplicate", "Props.C40_de_best_duplicate", "Props.C40_de_rand_shape", "Props.C40_de_rand_partial", "Props.C40_de_best_target", "Props.C40_de_target_duplicate"], "note": "Distinctness proved for DES rand and ranked for every random stream (partial correctness; every state can finish in one round if the population is large enough; never returns if it is too small). In best/current-to-* the fixed columns repeat by design (described exactly). Refuted for the DE algorithm itself: fast_fill_random mixes up row indices after a repeated draw, and does not check the best column."},
{"property": "C41", "status": "partial", "theorems": ["Props.C41_to_replacement_refuted", "Props.C41_to_replacement_partial"], "note": "False of the unchanged code (witness); proved for a single pair."},
{"property": "C42", "status": "partial", "theorems": ["Props.C42_fmin_refuted", "Props.C42_fmin_partial"], "note": "Refuted for non-positive values; holds for positive target and value."},
{"property": "C43", "status": "proved", "theorems": ["Props.C43_robust_window", "Props.C43_delta_update", "Props.C43_robust_needs_period"], "note": ""},
{"property": "C44", "status": "partial", "theorems": ["Props.C44_until_feasible", "Props.C44_until_feasible_first", "Props.C44_until_feasible_refuted"], "note": "Progress reaches 1 exactly when feasible; refuted: it raises when the violation exceeds the remembered one."},
{"property": "C45", "status": "partial", "theorems": ["Props.C45_parameter_less_order", "Props.C45_small_fmax_refuted"], "note": "Proved for every fmax that bounds the values; refuted otherwise."},
{"property": "C46", "status": "proved", "theorems": ["Props.C46_rounding"], "note": "exact arithmetic; np.around is round-half-even."},
{"property": "C47", "status": "partial", "theorems": ["Props.C47_uncrossed_parents", "Props.C47_crossover", "Props.C47_no_cross", "Props.C47_mutation_inplace", "Props.C47_mutation_copy", "Props.C47_mating", "Props.C47_nox_corrupts"], "note": "Proved for Crossover.do and Mutation.do; the statement is refuted for NoCrossover, which returns the parent objects that the mutation then changes in place (C47_nox_corrupts)."},
{"property": "C48", "status": "proved", "theorems": ["Props.C48_in_bounds", "Props.C48_unchanged", "Props.C48_crossed", "Props.C48_spread", "Props.C48_position_not_kept", "Props.C48_operator"], "note": "Over the reals. C48_position_not_kept records that, without exchange, the first child is always the lower one."},
{"property": "C49", "status": "proved", "theorems": ["Props.C49_pm", "Props.C49_quantile"], "note": "Over the reals."},
{"property": "C50", "status": "partial", "theorems": ["Props.C50_differential", "Props.C50_factor", "Props.C50_dex_in_bounds", "Props.C50_dex_first_donor", "Props.C50_dex_user_F_dropped", "Props.C50_dex_settings_ignored", "Props.C50_de_in_bounds"], "note": "Bounds, inheritance and differential proved. The clause on the settings is false of the code: DEX ignores jitter and dither and drops F when a donor is redrawn (C50_dex_settings_ignored, C50_dex_user_F_dropped)."},
{"property": "C51", "status": "proved", "theorems": ["Props.C51_sum", "Props.C51_kraemer", "Props.C51_layers"], "note": ""},
{"property": "C52", "status": "partial", "theorems": ["Props.C52_length_partial", "Props.C52_first_partial", "Props.C52_duplicates"], "note": "False of the code for more than one round (C52_duplicates): the list of unselected points is rebuilt from positions (reference_direction.py:453). Proved: length, and one step."},
{"property": "C53", "status": "proved", "theorems": ["Props.C53_objective_ideal", "Props.C53_extreme_points", "Props.C53_nadir_value", "Props.C53_hyperplane"], "note": "The linear solver is an arbitrary function returning nothing, numbers or NaN."},
{"property": "C54", "status": "partial", "theorems": ["Props.C54_gauss", "Props.C54_bitflip", "Props.C54_bitflip_int_refuted"], "note": "Proved for Gaussian mutation and boolean arrays; false for integer 0/1 arrays (C54_bitflip_int_refuted)."},
{"property": "C55", "status": "partial", "theorems": ["Props.C55_shape", "Props.C55_documented", "Props.C55_gradient_shapes", "Props.C55_elementwise", "Props.C55_elementwise_returns", "Props.C55_batch", "Props.C55_single", "Props.C55_vectorized", "Props.C55_mismatch", "Props.C55_transposed_accepted", "Props.C55_partial_accepted"], "note": "All clauses proved except that wrong values always raise: only the number of entries is checked, so transposed arrays and values set for some points only can be accepted (two witnesses). Runners enter by their contract (results in order)."},
{"property": "C56", "status": "partial", "theorems": ["Props.C56_penalty", "Props.C56_penalty_raises", "Props.C56_objective", "Props.C56_objective_only", "Props.C56_bounds", "Props.C56_remove_bounds_raises", "Props.C56_epsilon", "Props.C56_at_rest", "Props.C56_in_use", "Props.C56_exception_leaves_tolerance"], "note": "Proved; false: ConstraintsFromBounds(remove_bonds=True) always raises, an exception inside a step leaves the adapted tolerance in force, the penalty wrapper works for one objective only and needs G and H in the dictionary."},
{"property": "C57", "status": "proved", "theorems": ["Props.C57_float", "Props.C57_integer", "Props.C57_permutation", "Props.C57_lhs_unit", "Props.C57_lhs", "Props.C57_choice", "Props.C57_binary"], "note": "numpy's argsort, integers and permutation enter by their contracts."},
{"property": "C58", "status": "proved", "theorems": ["Props.C58_groups", "Props.C58_offspring", "Props.C58_domains", "Props.C58_sampling", "Props.C58_equal"], "note": "Crossover and mutation of a type enter as a function on the sub-vectors."},
{"property": "C59", "status": "partial", "theorems": ["Props.C59_accepts", "Props.C59_value", "Props.C59_proper_units", "Props.C59_nonneg", "Props.C59_zero_iff", "Props.C59_igdplus_compliant", "Props.C59_gdplus_compliant", "Props.C59_add_solutions", "Props.C59_order", "Props.C59_plus_le", "Props.C59_unit_free", "Props.C59_gd_igd_not_compliant", "Props.C59_empty_perfect"], "note": "All clauses proved for non-empty sets (moocore's igd and igd_plus enter by contract; norm_by_dist needs ideal < nadir). An empty set is reported as perfect (C59_empty_perfect), GD and IGD do not respect domination (C59_gd_igd_not_compliant)."},
{"property": "C60", "status": "proved", "theorems": ["Props.C60_value", "Props.C60_one_raises", "Props.C60_nonneg", "Props.C60_zero_iff", "Props.C60_order", "Props.C60_shift"], "note": "For zero_to_one=False; a single solution raises."},
{"property": "C61", "status": "proved", "theorems": ["Props.C61_norm_direction", "Props.C61_nonneg", "Props.C61_compliant", "Props.C61_add_solutions", "Props.C61_dominated_irrelevant", "Props.C61_order", "Props.C61_beyond_ref", "Props.C61_strict", "Props.C61_single", "Props.C61_ref_point", "Props.C61_bounds", "Props.C61_unit_free", "Props.C61_approx_consistent", "Props.C61_approx_solutions"], "note": "moocore.hypervolume enters by its contract (Lebesgue measure of the dominated region); everything about the pymoo wrapper is proved."},
{"property": "C62", "status": "partial", "theorems": ["Props.C62_accepts", "Props.C62_nonpos_iff", "Props.C62_compliant", "Props.C62_shift", "Props.C62_empty_refuted"], "note": "Proved for non-empty sets from the contract of moocore.epsilon_additive; an empty set gets 0 (refuted)."},
{"property": "C63", "status": "partial", "theorems": ["Props.C63_weights", "Props.C63_extreme", "Props.C63_choice", "Props.C63_empty", "Props.C63_constant_objective_refuted"], "note": "Proved when every objective has a range; for a constant objective the code computes nan and returns the first solution whatever the preference (refuted)."},
{"property": "C64", "status": "proved", "theorems": ["Props.C64_find2d", "Props.C64_tradeoff", "Props.C64_outliers"], "note": "Neighbour lists of the kd-tree are arbitrary parameters."},
{"property": "C65", "status": "proved", "theorems": ["Props.C65_neighbors", "Props.C65_neighbors_equal_directions", "Props.C65_parents", "Props.C65_replace", "Props.C65_next", "Props.C65_run", "Props.C65_generation", "Props.C65_monotone", "Props.C65_initial_ideal", "Props.C65_parallel", "Props.C65_dominating_enters", "Props.C65_loses_best"], "note": "At least two objectives (for one objective Decomposition.do compares all pairs). The Loopwise generator protocol is modelled as a state machine. C65_loses_best records that there is no elitism."},
{"property": "C66", "status": "partial", "theorems": ["Props.C66_constant", "Props.C66_initial", "Props.C66_step", "Props.C66_run", "Props.C66_converges", "Props.C66_loses_best_refuted", "Props.C66_quadratic_middle_refuted", "Props.C66_quadratic_refuted", "Props.C66_quadratic_side_refuted", "Props.C66_quadratic_step"], "note": "Golden section: proved for unimodal functions. The quadratic interpolation search leaves its bracket and the bounds (refuted)."},
{"property": "C67", "status": "partial", "theorems": ["Props.C67_zoom", "Props.C67_result_partial", "Props.C67_armijo_refuted", "Props.C67_never_ends_refuted", "Props.C67_unevaluated_refuted"], "note": "Curvature and decrease hold for every evaluated result; sufficient decrease can fail for doubled steps, the zoom loop is unbounded and an unevaluated individual can be returned (refuted)."},
{"property": "C68", "status": "proved", "theorems": ["Props.C68_survival", "Props.C68_rank", "Props.C68_best_of_all", "Props.C68_elitist", "Props.C68_random_search"], "note": ""},
{"property": "C69", "status": "proved", "theorems": ["Props.C69_optimum", "Props.C69_population_forgets", "Props.C69_sizes", "Props.C69_parents", "Props.C69_sigma", "Props.C69_variation", "Props.C69_repair"], "note": "feasible means smallest possible violation (as in C19 without epsilon)."},
{"property": "C70", "status": "partial", "theorems": ["Props.C70_max_alpha", "Props.C70_max_alpha_reached", "Props.C70_max_alpha_on_bound_refuted", "Props.C70_params", "Props.C70_move", "Props.C70_step", "Props.C70_run_partial", "Props.C70_simplex", "Props.C70_first_step_refuted", "Props.C70_one_variable_collapse_refuted"], "note": "Holds from any sorted simplex. The first simplex is not sorted by the code, so its best vertex can be lost in the first iteration (refuted). Termination of the restarts is not modelled."},
{"property": "C71", "status": "proved", "theorems": ["Props.C71_explore", "Props.C71_explore_failed", "Props.C71_step_axis", "Props.C71_next", "Props.C71_direction", "Props.C71_run"], "note": "Individuals are identified with their design vectors; the permutation drawn is an input."},
{"property": "C72", "status": "partial", "theorems": ["Props.C72_de", "Props.C72_de_frozen_refuted", "Props.C72_optimum", "Props.C72_de_optimum", "Props.C72_swarm", "Props.C72_local_best", "Props.C72_topology", "Props.C72_eppso"], "note": "Elitism and histories are proved in full. Partial because with n_offsprings < pop_size the individuals from index n_offsprings on are never targets (C72_de_frozen_refuted), contrary to the documented uniform choice."},
{"property": "C73", "status": "partial", "theorems": ["Props.C73_equation", "Props.C73_move", "Props.C73_eppso", "Props.C73_strategy", "Props.C73_coeffs", "Props.C73_sum_refuted", "Props.C73_inertia", "Props.C73_max_velocity"], "note": "All but the bound 4 on c1 + c2, which the code violates (C73_sum_refuted): the rescaling of c2 uses the c1 already rescaled."},
{"property": "C74", "status": "partial", "theorems": ["Props.C74_rounds", "Props.C74_greedy", "Props.C74_complete", "Props.C74_niches", "Props.C74_stale_niche_refuted", "Props.C74_too_many", "Props.C74_survival", "Props.C74_elitist", "Props.C74_select_by_clearing", "Props.C74_tournament"], "note": "Everything is proved for all inputs except the niche number: C74_niches needs individuals that carry no iter == 1 attribute of an earlier generation; C74_stale_niche_refuted shows that the code assigns a stale niche otherwise."},
{"property": "C75", "status": "proved", "theorems": ["Props.C75_survival", "Props.C75_bounds", "Props.C75_default_bounds", "Props.C75_steady_state", "Props.C75_constrained", "Props.C75_advance_bounds"], "note": "moocore's hv_contributions enters by its contract (loss of hypervolume when a point is deleted); the steady-state theorem uses the Lebesgue measure."},
{"property": "C76", "status": "proved", "theorems": ["Props.C76_raw", "Props.C76_nondominated", "Props.C76_compatible", "Props.C76_survival", "Props.C76_density", "Props.C76_constrained"], "note": "Distances are any non-negative numbers, so both the raw and the normalised variant are covered; numpy's argsort enters by its contract."},
{"property": "C77", "status": "partial", "theorems": ["Props.C77_selection", "Props.C77_ideal", "Props.C77_acute", "Props.C77_apd_mono", "Props.C77_schedule", "Props.C77_survival", "Props.C77_unit", "Props.C77_gamma", "Props.C77_single_vector", "Props.C77_adapt", "Props.C77_optimum", "Props.C77_infeasible_refuted", "Props.C77_distance", "Props.C77_angle", "Props.C77_raises", "Props.C77_adapt_times", "Props.C77_adapt_zero"], "note": "Proved except feasibility first: C77_infeasible_refuted shows infeasible individuals kept, and reported as optimum, while feasible ones are dropped."},
{"property": "C78", "status": "partial", "theorems": ["Props.C78_survival", "Props.C78_constrained", "Props.C78_blind_refuted"], "note": "Proved except the cut by score of a splitting front that is not the first: C78_blind_refuted shows that the code ignores all scores there."},
{"property": "C79", "status": "partial", "theorems": ["Props.C79_result", "Props.C79_values_partial", "Props.C79_values_refuted"], "note": "X, F, CV, G, H agree with opt unless the algorithm's optimum has several infeasible individuals and the least infeasible is asked for (C79_values_refuted)."},
{"property": "C80", "status": "partial", "theorems": ["Props.C80_sphere", "Props.C80_rastrigin", "Props.C80_ackley", "Props.C80_griewank", "Props.C80_zakharov", "Props.C80_rosenbrock", "Props.C80_himmelblau_partial", "Props.C80_himmelblau_refuted", "Props.C80_vessel_refuted", "Props.C80_schwefel_refuted", "Props.C80_schwefel_partial", "Props.C80_formulas", "Props.C80_rosenbrock_formula", "Props.C80_himmelblau_near"], "note": "Proved for sphere, Rastrigin (A >= 0), Ackley, Griewank, Zakharov and Rosenbrock (two or more variables); refuted for Himmelblau (rounded optima; the part that holds is proved), pressure vessel and Schwefel (optimal up to 0.00002 per variable, C80_schwefel_partial)."},
{"property": "C81", "status": "partial", "theorems": ["Props.C81_linspace", "Props.C81_zdt1_curve", "Props.C81_zdt1", "Props.C81_zdt2_curve", "Props.C81_zdt2", "Props.C81_zdt3_curve", "Props.C81_zdt3_partial", "Props.C81_zdt3_refuted", "Props.C81_zdt4_curve", "Props.C81_zdt4", "Props.C81_zdt5_curve", "Props.C81_zdt5_norm_curve", "Props.C81_zdt5", "Props.C81_zdt5_refuted", "Props.C81_zdt6_curve", "Props.C81_zdt6"], "note": "Proved for ZDT1, 2, 4, 6 and for ZDT5 over the relaxed cube; ZDT3's rounded region ends contain dominated points (C81_zdt3_refuted), ZDT5's front has unattainable points over binary variables (C81_zdt5_refuted)."},
{"property": "C82", "status": "partial", "theorems": ["Props.C82_dtlz1_simplex", "Props.C82_dtlz1", "Props.C82_generic_sphere", "Props.C82_dtlz2_sphere", "Props.C82_dtlz3_sphere", "Props.C82_dtlz4_sphere", "Props.C82_sphere_fronts", "Props.C82_inverted", "Props.C82_inverted_refuted", "Props.C82_scaled", "Props.C82_convex", "Props.C82_dtlz5", "Props.C82_dtlz6", "Props.C82_dtlz5_refuted", "Props.C82_dtlz7_graph", "Props.C82_dtlz7_partial", "Props.C82_dtlz7_refuted"], "note": "Proved for DTLZ1-6, the front of the inverted problem as a set, scaling and convexification; refuted for the call on InvertedDTLZ1, which raises, for the completeness of the curve of DTLZ5 with four objectives, and for DTLZ7, whose returned front contains dominated points."},
{"property": "C83", "status": "partial", "theorems": ["Props.C83_c1dtlz1", "Props.C83_c1dtlz3", "Props.C83_c1dtlz3_default", "Props.C83_c2_constraint", "Props.C83_c2dtlz2", "Props.C83_c2dtlz2_front", "Props.C83_c3dtlz1_refuted", "Props.C83_c3dtlz4", "Props.C83_c3dtlz4_front"], "note": "Proved for C1DTLZ1, C1DTLZ3, C2DTLZ2 and C3DTLZ4 (with four or more distance variables); refuted for C3DTLZ1: every returned point is infeasible."},
{"property": "C84", "status": "partial", "theorems": ["Props.C84_bnh_curve", "Props.C84_bnh", "Props.C84_srn_partial", "Props.C84_srn_feasible", "Props.C84_srn_refuted", "Props.C84_srn_incomplete_refuted", "Props.C84_omni_arc", "Props.C84_omni", "Props.C84_sympart_partial", "Props.C84_sympart_refuted", "Props.C84_srn_line", "Props.C84_omni_front"], "note": "Proved for BNH and the omni-test; SRN: the feasible returned points are Pareto-optimal, but the last one is infeasible and a part of the front is missing; SYM-PART: proved for h_dist > 4 length, refuted for length 3."},
{"property": "C85", "status": "partial", "theorems": ["Props.C85_archive", "Props.C85_fill", "Props.C85_exact", "Props.C85_trim", "Props.C85_balanced", "Props.C85_ideal", "Props.C85_fitness_nonneg", "Props.C85_feasible_opt_refuted", "Props.C85_best_survives_refuted"], "note": "The positive statements are proved in full for any pareto_rank and argsort that meet their contracts; two expected properties (feasible optima, survival of a best individual) are refuted by concrete populations."},
{"property": "C86", "status": "partial", "theorems": ["Props.C86_archive", "Props.C86_terminates", "Props.C86_terminates_refuted"], "note": "Proved for every number of passes; termination holds exactly under the stated condition and fails otherwise (hang for a population smaller than the set of reference directions)."},
{"property": "C87", "status": "proved", "theorems": ["Props.C87_compare", "Props.C87_archives", "Props.C87_shares"], "note": ""},
{"property": "C88", "status": "partial", "theorems": ["Props.C88_ranking", "Props.C88_select", "Props.C88_nearest_survives", "Props.C88_survival", "Props.C88_rnsga2", "Props.C88_distance", "Props.C88_half", "Props.C88_reference_points_refuted", "Props.C88_bounds"], "note": "The reference point set is not fixed when extreme_points_as_reference_points is set (refuted). The random order among equal rankings is left open (any order of the sort is covered)."},
{"property": "C89", "status": "proved", "theorems": ["Props.C89_projection", "Props.C89_simplex", "Props.C89_count", "Props.C89_cluster"], "note": "Over the reals. The survival itself is NSGA-III's (C29, C30)."},
{"property": "C90", "status": "partial", "theorems": ["Props.C90_order_kept", "Props.C90_first", "Props.C90_by_objective", "Props.C90_feasible_order_refuted", "Props.C90_survival", "Props.C90_optimum", "Props.C90_optimum_sorted", "Props.C90_best_evaluated_refuted", "Props.C90_isres_parents", "Props.C90_isres_offspring"], "note": "The optimum being best of all evaluated individuals is refuted for 0 < PF < 1 (C90_best_evaluated_refuted), proved for a plain sort. Permutation and sorting for probability 0 and 1 are C27."},
{"property": "C91", "status": "partial", "theorems": ["Props.C91_prune", "Props.C91_selection", "Props.C91_gap_before", "Props.C91_gap_after", "Props.C91_mnn_metric", "Props.C91_extremes", "Props.C91_pcd", "Props.C91_mnn", "Props.C91_constant_objective_refuted", "Props.C91_nonneg", "Props.C91_count", "Props.C91_duplicates"], "note": "The claim about constant objectives is refuted for mnn and 2nn. Crowding entropy and the *_fast variants are C155."},
{"property": "C92", "status": "partial", "theorems": ["Props.C92_every", "Props.C92_nth", "Props.C92_bound", "Props.C92_zero", "Props.C92_single", "Props.C92_callback", "Props.C92_collection_refuted"], "note": "members of a CallbackCollection are never initialised or notified (refuted); the IGD values of the multi-objective recorder are those of C60"},
{"property": "C93", "status": "partial", "theorems": ["Props.C93_time", "Props.C93_steps", "Props.C93_front", "Props.C93_frozen", "Props.C93_set_time_refuted"], "note": "false once the time is set explicitly: the cached front is stale"},
{"property": "C94", "status": "partial", "theorems": ["Props.C94_static", "Props.C94_static_size", "Props.C94_static_elementwise_refuted", "Props.C94_functional", "Props.C94_multi_to_single_partial", "Props.C94_multi_to_single_refuted", "Props.C94_multi_to_single_none", "Props.C94_decompose", "Props.C94_zero_to_one_refuted"], "note": "StaticProblem raises for elementwise problems, MultiToSingleObjective gives a wrong shape for one point, ZeroToOne normalises instead of denormalising (all refuted with exact conditions)"},
{"property": "C95", "status": "proved", "theorems": ["Props.C95_binomial"], "note": ""},
{"property": "C96", "status": "partial", "theorems": ["Props.C96_step", "Props.C96_tiling", "Props.C96_points", "Props.C96_growth", "Props.C96_compact", "Props.C96_truncation_refuted", "Props.C96_truncated", "Props.C96_selection", "Props.C96_progress", "Props.C96_shrinks", "Props.C96_dense"], "note": "selection, density and coverage hold without the limits n_max_candidates and n_max_archive; beyond n_max_archive coverage is lost (refuted), beyond n_max_candidates the code selects by objective value only; distinctness and bounds hold in all cases"},
{"property": "C97", "status": "partial", "theorems": ["Props.C97_survival", "Props.C97_elites_are_ga", "Props.C97_elites_best_of_all", "Props.C97_distinct_values", "Props.C97_feasible_lost_refuted", "Props.C97_custom", "Props.C97_custom_keeps_duplicates_refuted", "Props.C97_selection", "Props.C97_offspring", "Props.C97_multi", "Props.C97_multi_feasible_lost_refuted", "Props.C97_generation"], "note": "Proved without duplicate elimination and for unconstrained problems; refuted for constrained problems with eliminate_duplicates=True (a feasible individual is removed in favour of an infeasible one with equal F), for constrained multi-objective problems, and a duplicate elimination object can leave duplicates."},
{"property": "C98", "status": "partial", "theorems": ["Props.C98_replacement", "Props.C98_optimum", "Props.C98_progress", "Props.C98_no_evaluations_refuted", "Props.C98_family_zero_refuted", "Props.C98_parents_refuted"], "note": "Optimality and replacement proved for family_size >= 1; n_offsprings > pop_size never evaluates anything, family_size = 0 loses the best, and the best individual can be mated with itself (refuted)."},
{"property": "C99", "status": "proved", "theorems": ["Props.C99_orthogonal", "Props.C99_perpendicular", "Props.C99_child", "Props.C99_collinear", "Props.C99_identical", "Props.C99_bounds"], "note": "Real arithmetic."},
{"property": "C100", "status": "proved", "theorems": ["Props.C100_survival", "Props.C100_pool", "Props.C100_generation", "Props.C100_run", "Props.C100_factor", "Props.C100_trial", "Props.C100_pairing"], "note": "Rank-and-crowding survival with any crowding metric; GDE3 pool, generation and whole run; NSDE trial vectors with all four repairs and the default DES selection. Floats are exact numbers; moocore's pareto_rank is assumed to return Pareto ranks."},
{"property": "C101", "status": "partial", "theorems": ["Props.C101_tournament", "Props.C101_update", "Props.C101_optimum", "Props.C101_complete", "Props.C101_pbest_step", "Props.C101_pbest", "Props.C101_wasted", "Props.C101_flight", "Props.C101_leader", "Props.C101_duplicates_refuted", "Props.C101_infeasible_refuted", "Props.C101_dominated_refuted"], "note": "Everything claimed is proved for all runs; duplicates, constraints and optimality after a truncation are refuted by witnesses. Floats are exact numbers."},
{"property": "C102", "status": "proved", "theorems": ["Props.C102_population", "Props.C102_run", "Props.C102_complete", "Props.C102_optimum", "Props.C102_nsga2", "Props.C102_nsga3", "Props.C102_spea2", "Props.C102_smsemoa", "Props.C102_agemoea", "Props.C102_deteriorates_refuted"], "note": "Generation loop for any elitist survival, and the five survivals shown elitist; the limit of the claim is a witness. Floats are exact numbers; moocore's pareto_rank and hypervolume contributions are assumed correct."},
{"property": "C103", "status": "proved", "theorems": ["Props.C103_truncation", "Props.C103_run", "Props.C103_complete", "Props.C103_winner", "Props.C103_flight", "Props.C103_initial"], "note": "Polynomial mutation and repair of the offspring are C24/C45; the angle is an argument. Floats are exact numbers."},
{"property": "C104", "status": "partial", "theorems": ["Props.C104_detection", "Props.C104_stored", "Props.C104_static", "Props.C104_evaluations", "Props.C104_no_samples_refuted", "Props.C104_stale_refuted", "Props.C104_version_b_refuted"], "note": "Claims about detected changes and static problems proved; consistency after an undetected change and the two settings that raise are refuted by witnesses."},
{"property": "C105", "status": "proved", "theorems": ["Props.C105_valid", "Props.C105_earliest", "Props.C105_makespan", "Props.C105_critical_path", "Props.C105_reversal", "Props.C105_lower_bounds", "Props.C105_bounds_refuted"], "note": "The statement is proved in full. Additional finding: the bounds declared for the variables are those of machine numbers (xu = number of machines): C105_bounds_refuted."},
{"property": "C106", "status": "proved", "theorems": ["Props.C106_value", "Props.C106_rotation", "Props.C106_reverse", "Props.C106_inversion", "Props.C106_detour", "Props.C106_lower_bound", "Props.C106_euclidean", "Props.C106_bounds_refuted"], "note": "The statement is proved in full. Additional finding: the declared upper bound n_cities is not a city and evaluating it raises: C106_bounds_refuted."},
{"property": "C107", "status": "proved", "theorems": ["Props.C107_values", "Props.C107_rows", "Props.C107_optimum", "Props.C107_monotone", "Props.C107_random", "Props.C107_random_capacity", "Props.C107_multi_values", "Props.C107_multi_refuted"], "note": "The statement (about Knapsack) is proved in full. Additional finding: MultiObjectiveKnapsack declares one objective but returns two, so every evaluation raises: C107_multi_refuted."},
{"property": "C108", "status": "partial", "theorems": ["Props.C108_total", "Props.C108_limits", "Props.C108_not_before", "Props.C108_stagnation", "Props.C108_single_delta", "Props.C108_multi_delta", "Props.C108_units", "Props.C108_variables_delta", "Props.C108_infeasible", "Props.C108_integer_refuted", "Props.C108_renormalization_refuted"], "note": "All clauses are proved except the last, which the code violates: for integer variables the normalised values are truncated to integers, so for every period a run whose variable and objective change (and improve) in every generation is ended after period+1 generations (C108_integer_refuted). MultiObjectiveSpaceTerminationWithRenormalization raises at its first update (C108_renormalization_refuted). The moocore IGD is characterised by the contract of C59."},
{"property": "C109", "status": "partial", "theorems": ["Props.C109_same_values", "Props.C109_attribution", "Props.C109_progress", "Props.C109_once", "Props.C109_chunks", "Props.C109_evaluate", "Props.C109_copy_looped", "Props.C109_excluded", "Props.C109_unordered_refuted", "Props.C109_copy_refuted", "Props.C109_history_refuted"], "note": "Proved for every schedule of the pool. Partial because the code violates the rest: the unordered joblib option misattributes values, copies of a problem with a starmap or dask runner cannot evaluate, joblib and ray runners make save_history raise (each refuted with a witness)."},
{"property": "C110", "status": "partial", "theorems": ["Props.C110_no_side_effects", "Props.C110_result", "Props.C110_repeatable", "Props.C110_stops", "Props.C110_checkpoint", "Props.C110_independent", "Props.C110_shared_terminated", "Props.C110_ignored_refuted", "Props.C110_finished_refuted", "Props.C110_shared_refuted"], "note": "Partial because the code ignores the termination, problem and seed when the algorithm is already set up, and with copy_termination=False a used termination object makes the next call raise (both refuted)."},
{"property": "C111", "status": "partial", "theorems": ["Props.C111_evaluated", "Props.C111_repaired", "Props.C111_domain", "Props.C111_duplicates", "Props.C111_size", "Props.C111_not_reevaluated", "Props.C111_size_refuted", "Props.C111_in_place_refuted"], "note": "Partial because n_samples is ignored for arrays and populations and a user's population is repaired in place (refuted with witnesses)."},
{"property": "C112", "status": "partial", "theorems": ["Props.C112_rows", "Props.C112_domain", "Props.C112_offspring", "Props.C112_attached", "Props.C112_attached_iff", "Props.C112_direct", "Props.C112_age", "Props.C112_seed", "Props.C112_attached_refuted", "Props.C112_seed_refuted"], "note": "Proved: completeness, domains over all generations, attribution for DE and EPPSO. Partial because ParameterControlMating repeats parameters in another order than the crossover returns the offspring (right exactly if one offspring per mating or one mating: C112_attached_iff, C112_attached_refuted), and DE and ParameterControlMating draw parameters from an unseeded generator (C112_seed_refuted)."},
{"property": "C113", "status": "partial", "theorems": ["Props.C113_value", "Props.C113_mean", "Props.C113_no_side_effects", "Props.C113_independent", "Props.C113_seeded", "Props.C113_parameters", "Props.C113_infeasible_refuted"], "note": "All clauses proved for evaluations that return; partial because an evaluation raises as soon as one run ends without a feasible solution (C113_infeasible_refuted)."},
{"property": "C114", "status": "partial", "theorems": ["Props.C114_loose_matrix", "Props.C114_loose_order", "Props.C114_delta_zero", "Props.C114_space", "Props.C114_space_value", "Props.C114_crowding_bounds", "Props.C114_combination", "Props.C114_survival", "Props.C114_extremes", "Props.C114_optimum", "Props.C114_optimum_refuted", "Props.C114_extremes_variable_refuted", "Props.C114_extremes_single_refuted", "Props.C114_average_refuted", "Props.C114_distance", "Props.C114_pairs", "Props.C114_selection_refuted", "Props.C114_selection"], "note": "All stated properties are proved for every population and random stream; partial because the code violates parts of the documented behaviour, shown by the refutations."},
{"property": "C115", "status": "partial", "theorems": ["Props.C115_survival", "Props.C115_unconstrained", "Props.C115_seed_refuted"], "note": "Selection proved for every population; reproducibility with a seed is refuted: randomized_argsort is called without random_state."},
{"property": "C116", "status": "partial", "theorems": ["Props.C116_dense", "Props.C116_pairwise", "Props.C116_order", "Props.C116_loop", "Props.C116_first_fit", "Props.C116_second_partial", "Props.C116_tau", "Props.C116_fit", "Props.C116_fit_strict", "Props.C116_linear_monotone", "Props.C116_poly_monotone_partial", "Props.C116_poly_factors", "Props.C116_no_preference", "Props.C116_matrix", "Props.C116_sort_partial", "Props.C116_typed_ranks_refuted", "Props.C116_second_refuted", "Props.C116_refit_refuted", "Props.C116_ties_refuted", "Props.C116_backtrack_refuted", "Props.C116_indifferent_refuted", "Props.C116_zero_refuted", "Props.C116_many_ties_refuted", "Props.C116_order_refuted", "Props.C116_hangs_refuted", "Props.C116_typed_ranks", "Props.C116_poly_offset", "Props.C116_reset", "Props.C116_nothing_to_compare"], "note": "The questions, the constraints of the fit and the monotone case of the selection are proved; the parts the code violates are refuted with witnesses."},
{"property": "C117", "status": "partial", "theorems": ["Props.C117_df1_curve", "Props.C117_df1", "Props.C117_df2_curve", "Props.C117_df2", "Props.C117_df3_curve", "Props.C117_df3", "Props.C117_df4_curve", "Props.C117_df4_iff", "Props.C117_df4_refuted", "Props.C117_df5_curve", "Props.C117_df5", "Props.C117_df6_curve", "Props.C117_df6", "Props.C117_df7_curve", "Props.C117_df7", "Props.C117_df8_curve", "Props.C117_df8", "Props.C117_df9_curve", "Props.C117_df9_partial", "Props.C117_df9_kept", "Props.C117_df9_refuted", "Props.C117_grid", "Props.C117_df10_surface", "Props.C117_df10", "Props.C117_df11_surface", "Props.C117_df11", "Props.C117_df12_refuted", "Props.C117_df13_surface_partial", "Props.C117_df13_partial", "Props.C117_df14_surface", "Props.C117_df14"], "note": "DF12 front, DF13 with waves and exactness of the DF9 grid are not covered; DF4, DF9, DF12 violate the statement (refuted with witnesses)"},
{"property": "C118", "status": "partial", "theorems": ["Props.C118_kmeans", "Props.C118_reduction", "Props.C118_kmeans_refuted", "Props.C118_reduction_refuted", "Props.C118_edges", "Props.C118_few_points_refuted", "Props.C118_construction", "Props.C118_construction_total", "Props.C118_layers", "Props.C118_layer_norm", "Props.C118_genetic", "Props.C118_reference_points", "Props.C118_plane_one", "Props.C118_plane_zero", "Props.C118_terminates", "Props.C118_project", "Props.C118_nearest", "Props.C118_nearest_refuted", "Props.C118_gradient", "Props.C118_adam_step", "Props.C118_energy", "Props.C118_energy_total", "Props.C118_direction", "Props.C118_movement", "Props.C118_stop", "Props.C118_construction_gradient", "Props.C118_construction_stop"], "note": "proved over the reals; totality up to 27 (energy) and 13 (construction) objectives; violated: nearest point below the plane, duplicate selections, fewer points than objectives"},
{"property": "C119", "status": "partial", "theorems": ["Props.C119_rows", "Props.C119_lattice", "Props.C119_corners", "Props.C119_check", "Props.C119_factory_partial", "Props.C119_one_point_refuted", "Props.C119_one_objective"], "note": "exact lattice and search; violated for one point"},
{"property": "C120", "status": "partial", "theorems": ["Props.C120_relation", "Props.C120_relation_epsilon", "Props.C120_find", "Props.C120_fast", "Props.C120_efficient", "Props.C120_efficient_fronts", "Props.C120_dominance_degree", "Props.C120_epsilon_diverges_refuted"], "note": "Agreement proved without restriction, except fast_non_dominated_sort with a positive tolerance: the relation can be cyclic and the compiled loop then does not end (refuted with a witness). Arithmetic over an ordered ring instead of doubles."},
{"property": "C121", "status": "partial", "theorems": ["Props.C121_best_order_partial", "Props.C121_best_order_ties_refuted", "Props.C121_fast_best_order_partial", "Props.C121_fast_best_order_ties_refuted"], "note": "Proved without ties (best_order_sort: under a weaker condition on dominators); with ties the claim is false, witnesses given."},
{"property": "C122", "status": "partial", "theorems": ["Props.C122_pcd_partial", "Props.C122_ties_refuted", "Props.C122_extremes_refuted", "Props.C122_divisor"], "note": "Proved if no two solutions agree in an objective and no extreme solution has to be removed; otherwise the routine indexes outside its vectors, witnesses given."},
{"property": "C123", "status": "partial", "theorems": ["Props.C123_mnn_partial", "Props.C123_2nn_partial", "Props.C123_equal_distances_refuted", "Props.C123_2nn_few_refuted"], "note": "Proved if distances from a non-extreme solution differ; with equal distances a neighbour is entered twice, witness given; calc_2nn fails for two solutions."},
{"property": "C124", "status": "partial", "theorems": ["Props.C124_perpendicular", "Props.C124_perpendicular_laws", "Props.C124_perpendicular_compiled", "Props.C124_weights", "Props.C124_pbi_compiled", "Props.C124_niches", "Props.C124_niches_units", "Props.C124_ranking_compiled", "Props.C124_ranking_outcomes", "Props.C124_load", "Props.C124_load_refused", "Props.C124_load_refuted", "Props.C124_ranking_seed_refuted"], "note": "Proved over the reals for directions that are not zero. Refuted: the tree-based sorting cannot be loaded in compiled mode, fast_best_order_sort is a stub in Python mode, the loader's mode is ignored by load_function, and the same seed gives different stochastic rankings in the two modes."},
{"property": "C125", "status": "partial", "theorems": ["Props.C125_cell_width", "Props.C125_cell_text", "Props.C125_integers", "Props.C125_integers_refuted", "Props.C125_numbers", "Props.C125_numbers_refuted", "Props.C125_aligned", "Props.C125_single", "Props.C125_progress"], "note": "Refuted in two places: integers that do not fit are cut off on the right and read as another number (n_gen from 10^6, n_eval from 10^8), and negative numbers with a three-digit exponent are printed with another exponent; the rest is proved. The rounding done by the float formatting itself is not modelled."},
{"property": "C126", "status": "partial", "theorems": ["Props.C126_limit", "Props.C126_quadratic", "Props.C126_cubic", "Props.C126_absolute_refuted", "Props.C126_dictionary", "Props.C126_plain_refuted", "Props.C126_autograd", "Props.C126_autograd_const", "Props.C126_elementwise", "Props.C126_batch_sum", "Props.C126_jax", "Props.C126_library", "Props.C126_library_refuted"], "note": "Refuted in three places: functions that are real for complex arguments (abs) have gradient zero; a complex-step problem cannot be evaluated unless the gradients of all values it sets are asked for (KeyError); an evaluation that raises leaves the differentiation library active. The rest is proved; the backward passes of autograd and JAX are taken as documented."},
{"property": "C127", "status": "partial", "theorems": ["Props.C127_line", "Props.C127_corners", "Props.C127_normalisation", "Props.C127_hyperplane", "Props.C127_scores", "Props.C127_positive", "Props.C127_exchanged_refuted", "Props.C127_exponent", "Props.C127_minkowski", "Props.C127_triangle_refuted", "Props.C127_project", "Props.C127_exponent2", "Props.C127_pairs", "Props.C127_origin_refuted", "Props.C127_newton"], "note": "Refuted: rows and columns of the distance matrix are exchanged with respect to the rule stated in the code, so that distances are divided by the norms of the selected points and another point is taken; the triangle inequality fails for exponents below one; AGE-MOEA-II divides by zero on a front whose points have equal objectives. The convergence of the search for the exponent is not proved (its fixed points are)."},
{"property": "C128", "status": "partial", "theorems": ["Props.C128_swap_refuted", "Props.C128_grid", "Props.C128_grid_refuted", "Props.C128_closest", "Props.C128_integer", "Props.C128_boolean_refuted", "Props.C128_evaluate_refuted", "Props.C128_distances", "Props.C128_fixed_refuted", "Props.C128_intersect", "Props.C128_powerset", "Props.C128_wfg_corners", "Props.C128_time", "Props.C128_days_refuted", "Props.C128_defaults", "Props.C128_where", "Props.C128_unique", "Props.C128_prefix", "Props.C128_cache", "Props.C128_arguments_refuted"], "note": "Proved for the vector, list and dictionary helpers and for cached calls without arguments; refuted: swap of matrix rows, grids with a matrix, booleans, evaluate_if_not_done_yet, distances with a fixed variable, days in a time, cached calls with other arguments."},
{"property": "C129", "status": "partial", "theorems": ["Props.C129_history", "Props.C129_lengths", "Props.C129_movement", "Props.C129_points", "Props.C129_range_refuted", "Props.C129_hv_refuted"], "note": "Proved for IGD and sets with a positive range in every objective; refuted for degenerate ranges (C129_range_refuted) and for the hypervolume (C129_hv_refuted). Floats are reals: adding 1e-16 is a change; the plots are not modelled."},
{"property": "C130", "status": "partial", "theorems": ["Props.C130_distance", "Props.C130_mw1", "Props.C130_mw2", "Props.C130_line_fronts", "Props.C130_caller_refuted", "Props.C130_mw3", "Props.C130_mw3_front", "Props.C130_mw3_refuted", "Props.C130_mw4", "Props.C130_mw8", "Props.C130_mw8_front", "Props.C130_mw6", "Props.C130_mw6_front", "Props.C130_mw6_polar", "Props.C130_mw12_loop", "Props.C130_mw12_corner", "Props.C130_mw12_ends", "Props.C130_mw12_refuted", "Props.C130_mw14", "Props.C130_mw14_refuted"], "note": "Proved for MW1, 2, 4, 6, 8; for MW3 the exact front is characterised but the returned points overstep it (refuted theorem). Asking for the front of MW1-3 and 6 overwrites the caller's array (refuted theorem). MW12: what the scaling loop returns is characterised; its first default point violates the first constraint (refuted theorem); the front itself is not characterised. MW5, 7, 9, 10, 11 are in C169. MW14: its front is that of the surface without the constraint (proved), but no point is returned unless there are three objectives (refuted theorem). MW13 is in C169."},
{"property": "C131", "status": "partial", "theorems": ["Props.C131_dc2", "Props.C131_dc1", "Props.C131_dc3", "Props.C131_front_refuted"], "note": "The fronts are characterised exactly for all six problems. That pareto_front() returns them holds for DC2 only: DC1 and DC3 inherit the front of the unconstrained problem, which contains points no feasible solution attains (refuted theorem)."},
{"property": "C132", "status": "partial", "theorems": ["Props.C132_g9", "Props.C132_g10", "Props.C132_g15_refuted", "Props.C132_g15_partial", "Props.C132_g15_near", "Props.C132_g4_partial", "Props.C132_g1", "Props.C132_g3", "Props.C132_g6", "Props.C132_g7", "Props.C132_g11", "Props.C132_g12_feasible", "Props.C132_g12", "Props.C132_g23", "Props.C132_g24_partial", "Props.C132_shapes", "Props.C132_g18_bound", "Props.C132_g18_attained", "Props.C132_g18_refuted", "Props.C132_g18_partial", "Props.C132_g19_partial", "Props.C132_g14_refuted", "Props.C132_g14_partial", "Props.C132_g13_refuted", "Props.C132_g13_partial", "Props.C132_shapes_more", "Props.C132_g8_bound", "Props.C132_g8", "Props.C132_g5_bound", "Props.C132_g5_partial", "Props.C132_g20_infeasible", "Props.C132_g20_refuted", "Props.C132_shapes_rest", "Props.C132_g21_optimum", "Props.C132_g21_refuted", "Props.C132_g21_violation", "Props.C132_shapes_g21", "Props.C132_g16_refuted", "Props.C132_g2_partial", "Props.C132_g22_feasible", "Props.C132_g22_refuted", "Props.C132_g2_objective"], "note": "G1, G3, G6, G11, G12, G23 exactly; G7, G8, G9, G10 up to at most 1e-5; G4, G19, G24 up to 1e-5 with solutions that violate a constraint by less than 1e-12 over the reals; G5 up to 1e-3 (of 5126) with equations satisfied up to 1e-5; refuted (with what holds instead) for G13, G14, G15 (equality constraints missed), G18 (a better feasible solution exists) G20 (no solution at all is feasible) and G21 (equality constraints missed; the exact optimum is proved instead). G2: the documented solutions are feasible (their optimality is not proved). G16: the documented solution violates two constraints and a feasible one is better (refuted theorem). G22: the feasible solutions are characterised as a family with three parameters, the documented one misses an equality (refuted theorem); the optimum is not determined. G17 is not modelled."},
{"property": "C133", "status": "partial", "theorems": ["Props.C133_sphere_sets", "Props.C133_sphere_fronts", "Props.C133_wfg9_front", "Props.C133_wfg1", "Props.C133_range", "Props.C133_range_even", "Props.C133_wfg2_partial", "Props.C133_wfg3", "Props.C133_wfg3_refuted", "Props.C133_pareto_set", "Props.C133_pareto_set_wfg3", "Props.C133_pareto_front", "Props.C133_pareto_front_wfg3", "Props.C133_default_points_refuted", "Props.C133_wfg2_refuted", "Props.C133_init", "Props.C133_init_refuted", "Props.C133_correct_nearest", "Props.C133_wfg1_weights"], "note": "WFG2: only that Pareto-optimal solutions are completions (C133_wfg2_partial); that the completions are Pareto-optimal is false (C133_wfg2_refuted), as is completeness for WFG3 (C133_wfg3_refuted). The default of 500 points makes pareto_set() raise for nine positions or more (C133_default_points_refuted); the constructor accepts parameters without distance variables (C133_init_refuted)."},
{"property": "C134", "status": "partial", "theorems": ["Props.C134_infeasible", "Props.C134_terminates", "Props.C134_feasible_range", "Props.C134_zero_sound", "Props.C134_pareto_kkt", "Props.C134_zero_complete", "Props.C134_feasible_above_one_refuted", "Props.C134_unconstrained_refuted", "Props.C134_ideal_refuted"], "note": "Proved for problems with inequality constraints. Refuted: without them every call raises (C134_unconstrained_refuted), with many constraints a feasible solution can get a value above one (C134_feasible_above_one_refuted), and every call lowers the caller's or the problem's cached ideal point (C134_ideal_refuted)."},
{"property": "C135", "status": "partial", "theorems": ["Props.C135_filter", "Props.C135_translated", "Props.C135_translated_worse", "Props.C135_translated_nonempty", "Props.C135_front", "Props.C135_value", "Props.C135_rhv_le", "Props.C135_weights_refuted", "Props.C135_delta_refuted"], "note": "Proved for the default weights. Refuted: weights for two or more objectives make the constructor raise (C135_weights_refuted); delta is ignored for the Pareto front, whose regions always have the width 0.2 (C135_delta_refuted)."},
{"property": "C136", "status": "partial", "theorems": ["Props.C136_reaches", "Props.C136_first_never", "Props.C136_first_equal", "Props.C136_never_terminates", "Props.C136_refuted"], "note": "Proved when the first value has not reached the threshold. Refuted otherwise: the first update always reports 0 (C136_first_never) or raises when the value equals the threshold (C136_first_equal), the criterion never terminates while all values are better than the threshold (C136_never_terminates), and it raises when the indicator then improves (C136_refuted)."},
{"property": "C137", "status": "partial", "theorems": ["Props.C137_closest", "Props.C137_condense", "Props.C137_archive", "Props.C137_useful", "Props.C137_size", "Props.C137_response", "Props.C137_generation", "Props.C137_small_refuted", "Props.C137_random_refuted", "Props.C137_shared_refuted", "Props.C137_stale_refuted", "Props.C137_given_own"], "note": "Proved for 1 <= c_size <= pop_size. Refuted: a population smaller than c_size makes every response raise (C137_small_refuted); random solutions come from the unit cube clipped to the bounds (C137_random_refuted); algorithms created without ps share one archive (C137_shared_refuted); superseded optima stay archived (C137_stale_refuted)."},
{"property": "C138", "status": "proved", "theorems": ["Props.C138_concave", "Props.C138_root", "Props.C138_disconnected", "Props.C138_plane", "Props.C138_sphere", "Props.C138_difficulty", "Props.C138_ellipses", "Props.C138_balls", "Props.C138_factors"], "note": "Difficulties with a third factor (ellipses or spheres cut out of the objective space) are outside the statement; the downloaded Pareto front files are not modelled."},
{"property": "C139", "status": "partial", "theorems": ["Props.C139_ctp1_curves", "Props.C139_ctp1", "Props.C139_constraint", "Props.C139_on_curve", "Props.C139_curve_infeasible", "Props.C139_corner_refuted", "Props.C139_ctp7_exists", "Props.C139_published"], "note": "CTP1 exact for every number of variables; the inequalities of CTP2-8 exact except where the code yields NaN (C139_constraint). Refuted: at (0, ..., 0) CTP2-5 hold with equality but the code computes 0/0 and calls the point infeasible, so no point of the curve is feasible there (C139_corner_refuted, C139_curve_infeasible). The fronts of CTP2-6 and CTP8 off the curve are not characterised."},
{"property": "C140", "status": "partial", "theorems": ["Props.C140_serial_refuted", "Props.C140_run", "Props.C140_optimum", "Props.C140_values_refuted", "Props.C140_copy_refuted", "Props.C140_bounds", "Props.C140_fixed_refuted", "Props.C140_restarts", "Props.C140_bipop_terminates", "Props.C140_bipop"], "note": "Proved: refinement of the ask-and-tell loop, optimum, bounds, restart and BIPOP schedules with termination. Refuted: parallelize=False never ends (C140_serial_refuted); a copy stops silently after one generation (C140_copy_refuted); objective values of infeasible solutions are overwritten (C140_values_refuted); a variable with equal bounds is not fixed (C140_fixed_refuted)."},
{"property": "C141", "status": "partial", "theorems": ["Props.C141_iteration", "Props.C141_empty_refuted", "Props.C141_exponential_refuted", "Props.C141_steps", "Props.C141_line_partial", "Props.C141_line_refuted"], "note": "Proved: the generator protocol (C141_iteration) and what step() of exponential search does (C141_steps). Refuted: a generator that yields nothing runs twice per iteration (C141_empty_refuted); ExponentialSearch never calls step() and evaluates only its start (C141_exponential_refuted); the line search problem clips to the bounds of the step length instead of those of the problem (C141_line_refuted)."},
{"property": "C142", "status": "partial", "theorems": ["Props.C142_crossover", "Props.C142_mutation", "Props.C142_run", "Props.C142_cut", "Props.C142_untyped_refuted", "Props.C142_unrepaired_refuted", "Props.C142_fractional_refuted", "Props.C142_repairs"], "note": "Proved for integer bounds and operators with vtype=float and RoundingRepair (C142_run). Refuted for the neighbouring settings: without vtype=float the values are cut off before the repair (C142_untyped_refuted), without the repair mutation yields fractional values (C142_unrepaired_refuted), with bounds that are not integers rounding leaves them (C142_fractional_refuted)."},
{"property": "C143", "status": "proved", "theorems": ["Props.C143_distance", "Props.C143_pareto_set", "Props.C143_front", "Props.C143_rows", "Props.C143_zcat4", "Props.C143_range", "Props.C143_ends", "Props.C143_phases", "Props.C143_region", "Props.C143_degenerate", "Props.C143_regions"], "note": "Over exact reals; subnormal cut-off of z-values (zcat.py:854-856) left out. For level 6 with more than 10^50 variables nothing is claimed (the distance function can then be negative). Reference front files not modelled, only the choice of rows."},
{"property": "C144", "status": "proved", "theorems": ["Props.C144_front", "Props.C144_returned", "Props.C144_ends"], "note": "exact real arithmetic; the feasible set is the one the constraints describe"},
{"property": "C145", "status": "proved", "theorems": ["Props.C145_fda4", "Props.C145_fda5", "Props.C145_dmop2", "Props.C145_fda2", "Props.C145_dimp2", "Props.C145_dimp2_start_refuted", "Props.C145_he2"], "note": "exact real arithmetic; HE7 and HE9 are not included, HE2 for exponents of at least one (stated so)"},
{"property": "C146", "status": "partial", "theorems": ["Props.C146_rows", "Props.C146_dmop3_refuted", "Props.C146_misc_refuted", "Props.C146_misc_dmop2_shape_refuted", "Props.C146_misc_dmop2_mixed_refuted", "Props.C146_misc_dmop2_front_refuted", "Props.C146_misc_dmop2_front", "Props.C146_misc_column_refuted"], "note": "holds for the classes of cec2015.py except dMOP3; refuted for dMOP3 and for every class of misc.py (negation theorems with witnesses)"},
{"property": "C147", "status": "partial", "theorems": ["Props.C147_own_range", "Props.C147_given_bounds", "Props.C147_integer_data", "Props.C147_integer_refuted", "Props.C147_pcp", "Props.C147_stale_refuted", "Props.C147_radviz", "Props.C147_radviz_refuted", "Props.C147_star", "Props.C147_star_refuted", "Props.C147_radar", "Props.C147_radar_refuted", "Props.C147_petal"], "note": "Proved: own range, given bounds, one scale for all axes, Radviz (weights, disc, scaling, anchors), star coordinates (fibres), radar (with each objective normalised, or lower bounds 0), petals. Refuted: arrays of integers are drawn at the ends of the axes only; the scale of the first drawing is kept; Radviz leaves the circle for negative values; star coordinates draw the best and the worst corner in the centre; a radar plot with bounds (1, 2) and normalize_each_objective=False draws all solutions at the same place."},
{"property": "C148", "status": "partial", "theorems": ["Props.C148_heatmap", "Props.C148_direction", "Props.C148_false_refuted", "Props.C148_redraw_refuted", "Props.C148_short_list_refuted", "Props.C148_dimensions", "Props.C148_scatter", "Props.C148_scatter_refuted"], "note": "Proved: rows are a permutation, labels follow, lexicographic and stable order, direction of the order, drawing method on the first drawing, dimension check. Refuted: solution_labels=False raises; the second drawing permutes the labels again; a list shorter than the number of objectives is ignored; the second drawing of a scatter plot forgets mode / plot_type. By default (reverse=True) the ordering objective descends."},
{"property": "C149", "status": "partial", "theorems": ["Props.C149_admissible", "Props.C149_equality_refuted", "Props.C149_bounds", "Props.C149_cobyla_refuted", "Props.C149_result", "Props.C149_evaluations", "Props.C149_budget_refuted", "Props.C149_no_worse", "Props.C149_keeps_best_refuted", "Props.C149_support"], "note": "Proved: start at the best sampled point, result = SciPy's answer, exact number of evaluations, restrictions for problems without equality constraints, when the wrappers raise, not worse than the sample if SciPy's answer is not worse than its start. Refuted: SciPy is called twice with the same start, so that the budget is exceeded; equality constraints are not handed over; COBYLA cannot be used with bounds; a worse answer replaces the best sampled point. SciPy itself is not modelled."},
{"property": "C150", "status": "partial", "theorems": ["Props.C150_inertia", "Props.C150_bound", "Props.C150_attained", "Props.C150_set_refuted", "Props.C150_set_partial", "Props.C150_deflection", "Props.C150_stress"], "note": "Proved: the documented value is a lower bound over all feasible designs, attained up to 1e-4 by a feasible design within 1e-4 of the documented one; inertia never zero; when the deflection constraint matters. Refuted: the documented design itself breaks the stress constraint (by 2.5e-6 relative), so it is infeasible."},
{"property": "C151", "status": "partial", "theorems": ["Props.C151_osy", "Props.C151_carside", "Props.C151_wrm", "Props.C151_wrm_feasible", "Props.C151_kursawe", "Props.C151_tnk", "Props.C151_tnk_feasible", "Props.C151_welded_beam", "Props.C151_welded_feasible", "Props.C151_clutch_row", "Props.C151_clutch_refuted"], "note": "Proved for seven problems. Clutch violates it: it declares 19 constraints and sets 8, so Problem.evaluate raises for every non-empty set of solutions (C151_clutch_refuted); each row itself is well defined with 8 constraints (C151_clutch_row)."},
{"property": "C152", "status": "partial", "theorems": ["Props.C152_integrity", "Props.C152_result", "Props.C152_cleanup", "Props.C152_recovery", "Props.C152_shared_refuted", "Props.C152_leftover_refuted", "Props.C152_folder"], "note": "Proved under the stated contracts of mkstemp, os.replace and urlopen. Two expectations fail: in a folder shared by several users (PYMOO_DATA_DIR) the downloaded file is readable by its owner only, so others get an exception (C152_shared_refuted); a stopped or interrupted download leaves its .part file for ever (C152_leftover_refuted)."},
{"property": "C153", "status": "partial", "theorems": ["Props.C153_average", "Props.C153_energy", "Props.C153_closest", "Props.C153_variance_partial", "Props.C153_variance_refuted", "Props.C153_variance_mod", "Props.C153_neighbours", "Props.C153_igd", "Props.C153_igd_refuted", "Props.C153_random", "Props.C153_random_refuted", "Props.C153_gram_schmidt", "Props.C153_projection"], "note": "the code violates the full statement: closest_point_variance cuts distances above 1 (C153_variance_refuted), iterative_igd with n_partitions=0 never ends (C153_igd_refuted), RandomSamplingAndMap raises for n_points = n_dim (C153_random_refuted). triangulation / simplex_edge_difference (qhull) are not modelled."},
{"property": "C154", "status": "proved", "theorems": ["Props.C154_reference", "Props.C154_table", "Props.C154_reference_unique"], "note": "indicator values are parameters (their own properties are C59-C61, C108); formatting of cells is C125"},
{"property": "C155", "status": "partial", "theorems": ["Props.C155_formula", "Props.C155_infinite", "Props.C155_bound", "Props.C155_affine", "Props.C155_fast", "Props.C155_fast_distance", "Props.C155_fast_agrees", "Props.C155_2nn_refuted"], "note": "The claim about calc_2nn_fast is refuted: it is calc_mnn_fast. All the rest is proved. Logarithms and divisions are exact (real numbers)."},
{"property": "C156", "status": "partial", "theorems": ["Props.C156_variables", "Props.C156_run", "Props.C156_in_turn", "Props.C156_ask_twice_refuted", "Props.C156_constraints_refuted"], "note": "Proved: domains, runs of any length, sessions in which each tell precedes the next ask. Refuted: asking for a second point before telling the first records the value under the wrong trial; constraints are not told to the study. Optuna is an oracle that keeps its contract."},
{"property": "C157", "status": "partial", "theorems": ["Props.C157_records", "Props.C157_value", "Props.C157_fresh", "Props.C157_constraints", "Props.C157_set_time_refuted"], "note": "Proved for all histories in which the time is not set explicitly. Refuted otherwise: setting problem.time keeps the cached front, so the next record measures the distance to the old front. moocore's igd enters by its contract (as in C59)."},
{"property": "C158", "status": "partial", "theorems": ["Props.C158_optimum", "Props.C158_rank_and_crowding", "Props.C158_agemoea", "Props.C158_adaptive_refuted"], "note": "C158_optimum for every survival meeting RanksOk; C158_rank_and_crowding and C158_agemoea show that the two survivals of the package do. C158_adaptive_refuted: when the constraint tolerance shrinks during the run (AdaptiveEpsilonConstraintHandling) individuals ranked while they counted as feasible keep rank 0, and the reported optimum contains infeasible solutions."},
{"property": "C159", "status": "partial", "theorems": ["Props.C159_real", "Props.C159_permutation", "Props.C159_rank_and_crowding", "Props.C159_run", "Props.C159_history", "Props.C159_nocrossover_refuted", "Props.C159_result"], "note": "C159_run, C159_history for all operators except NoCrossover; C159_real and C159_permutation for the operators of the package, C159_rank_and_crowding for the survival of NSGA-II. C159_nocrossover_refuted: with NoCrossover the parents themselves are mutated in place and keep their old values."},
{"property": "C160", "status": "partial", "theorems": ["Props.C160_optimum", "Props.C160_survival", "Props.C160_outside_refuted"], "note": "All parts but the last sentence proved for every run (C160_optimum, with C160_survival: the survival by reference directions meets its conditions). The last sentence is false: C160_outside_refuted gives a run in which a reported solution does not survive."},
{"property": "C161", "status": "partial", "theorems": ["Props.C161_visible", "Props.C161_run", "Props.C161_single_best", "Props.C161_returned_refuted"], "note": "Proved for the result of run and minimize (C161_run, C161_single_best), with an exact description of what is visible when (C161_visible). The last sentence is false: result() is called before the infills are added (C161_returned_refuted), so the result returned by tell, callbacks and history lack the solutions of the current call."},
{"property": "C162", "status": "partial", "theorems": ["Props.C162_ga_family", "Props.C162_default_seed", "Props.C162_nsga3_pair", "Props.C162_niche_pair", "Props.C162_nsga3_tournaments", "Props.C162_nsga3_run_partial", "Props.C162_nsga3_run_refuted", "Props.C162_pattern_partial", "Props.C162_pattern_refuted", "Props.C162_gauss_partial", "Props.C162_gauss_refuted", "Props.C162_archive", "Props.C162_de_control", "Props.C162_model", "Props.C162_pattern_model", "Props.C162_gauss_probability"], "note": "Proved for runs of any length of the GA family whose comparison passes random_state on (GA, NSGA-II, SMS-EMOA, SPEA2; the tournament of C-TAEA) with operators that use the generator they are given. Violated, with exact conditions, by NSGA-III and U-NSGA-III (a tie of two compared infeasible solutions), the niche GA, pattern search (more than one variable), Gaussian mutation (a value outside the bounds), archives with max_size, and differential evolution with parameter control. Not modelled here: DE, PSO, CMA-ES and the other algorithms' own draws."},
{"property": "C163", "status": "partial", "theorems": ["Props.C163_same_run", "Props.C163_n_eval_frozen_refuted", "Props.C163_n_gen_run", "Props.C163_n_eval_never_ends_refuted", "Props.C163_optimum_default", "Props.C163_evaluations_spent", "Props.C163_tolerance_n_gen", "Props.C163_tolerance_n_eval_refuted", "Props.C163_evaluator", "Props.C163_evaluator_population", "Props.C163_evaluator_individual_refuted", "Props.C163_loopwise_refuted", "Props.C163_setup_skipped_refuted", "Props.C163_phases", "Props.C163_evaluator_run"], "note": "Proved: with a termination that does not read n_eval, for algorithms without a _setup of their own that complete a generation per _advance, the wrapped run is the plain run if the configuration does not matter; n_gen runs end after N generations, with the exact tolerance per generation; default tolerance for the optimum; the evaluator's values. Violated: n_eval stays 0, so a run with an evaluation budget never ends and the tolerance never shrinks; the wrapped algorithm's _setup is skipped; the False of loop-wise algorithms is lost; evaluating an individual raises."},
{"property": "C164", "status": "partial", "theorems": ["Props.C164_offspring", "Props.C164_origin_refuted", "Props.C164_move", "Props.C164_best_move", "Props.C164_trap", "Props.C164_trap_scaled", "Props.C164_converged", "Props.C164_damping", "Props.C164_damping_refuted", "Props.C164_small_refuted", "Props.C164_large_refuted"], "note": "Proved: number of offspring, bounds of every finite coordinate, the exact condition for NaN, the move in closed form in all branches, the damping factor up to max_iteration. Violated: NaN coordinates (always for a best individual at the origin), a factor growing with the fifth power of the run length beyond max_iteration, exceptions for initial populations whose size is not pop_size."},
{"property": "C165", "status": "partial", "theorems": ["Props.C165_de", "Props.C165_pso", "Props.C165_pm_ok", "Props.C165_sampling_ok", "Props.C165_velocity_ok", "Props.C165_more_offspring_refuted", "Props.C165_personal_best_refuted", "Props.C165_de_trial", "Props.C165_pso_move", "Props.C165_pso_perturbed"], "note": "Everything but the last sentence is proved (C165_de, C165_pso). The last sentence is false: a point another particle has as personal best is not recorded (C165_personal_best_refuted), and more offspring than members raise (C165_more_offspring_refuted)."},
{"property": "C166", "status": "partial", "theorems": ["Props.C166_part", "Props.C166_stops", "Props.C166_single", "Props.C166_progress_nonneg", "Props.C166_large_tolerance_refuted", "Props.C166_symmetric_refuted"], "note": "Proved for tolerances from 0 to 1 (C166_stops); refuted for larger ones (a tolerance more than one above the spread does not stop the search); equal objective values alone stop it, also far from an optimum (C166_symmetric_refuted). Over the reals, finite objective values."},
{"property": "C167", "status": "partial", "theorems": ["Props.C167_same_partial", "Props.C167_df1_differs", "Props.C167_objectives_refuted", "Props.C167_bounds_partial", "Props.C167_bounds_refuted", "Props.C167_front_partial", "Props.C167_front_refuted", "Props.C167_own_front_refuted", "Props.C167_agree_partial"], "note": "Proved: objectives of DF5, 6, 7, 9, 11, 14; bounds of DF1, 2, 3, 7, 11; fronts of DF1-8 (DF4 as long as the curve fits into the bounds, DF7 for t > -1), 10 and 14. Refuted: objectives of the other eight problems, bounds of the other nine, fronts of DF9, 11, 12, 13; the bundled DF1 contradicts its own front. Over the reals; np.power of a negative base (nan) is not modelled."},
{"property": "C168", "status": "proved", "theorems": ["Props.C168_state", "Props.C168_range", "Props.C168_front", "Props.C168_conv", "Props.C168_conf"], "note": "Over the reals and for t >= 0. Closed forms for DB1-3 and DB7-8 (while the environment is 0 the front of DB7 and DB8 is one point, C168_conf); for DB4-6 and DB9-12 the front is characterised as the non-dominated points of the position surface."},
{"property": "C169", "status": "proved", "theorems": ["Props.C169_mw9", "Props.C169_mw10", "Props.C169_mw11", "Props.C169_mw5", "Props.C169_mw7", "Props.C169_mw13"], "note": "Over the reals; n_var >= 3 for MW5 and MW9, >= 2 for the others. The sampled fronts the code downloads are data on a server and not modelled; the theorems say what they have to contain."}
]}
