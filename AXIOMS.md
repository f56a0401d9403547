# Axioms of every theorem in MANIFEST.json

Output of `#print axioms`, regenerated after each milestone. P = `propext`, C = `Classical.choice`, Q = `Quot.sound`; no other axiom occurs.

| theorem | axioms |
|---|---|
| Props.C01_get_relation | P C Q |
| Props.C01_antisymmetric | P C Q |
| Props.C01_self | P C Q |
| Props.C01_transitive_cv | P C Q |
| Props.C01_transitive | P C Q |
| Props.C02_matrix_entry | P C Q |
| Props.C02_matrix_eq_relation | P C Q |
| Props.C02_loop_eq_vectorised | P C Q |
| Props.C02_loop_constrained | P C Q |
| Props.C03_fast_sort_matrix | P C Q |
| Props.C03_fast_sort | P C Q |
| Props.C03_first_front | P C Q |
| Props.C03_rank_structure | P C Q |
| Props.C03_fronts_unique | P C Q |
| Props.C03_any_matrix | P C Q |
| Props.C04_ens_sequential | P C Q |
| Props.C04_presort_exists | P C Q |
| Props.C04_agrees_with_fast | P C Q |
| Props.C05_ens_binary | P C Q |
| Props.C06_biobj_partial | P C Q |
| Props.C06_biobj_refuted_dominated_member | P C Q |
| Props.C06_biobj_refuted_duplicate | P C Q |
| Props.C07_find_epsilon | P C Q |
| Props.C07_find_exact | P C Q |
| Props.C07_find_nonempty | P C Q |
| Props.C07_find_against | P C Q |
| Props.C07_epsilon_empty_refuted | P |
| Props.C08_dda_fast | P C Q |
| Props.C08_dda_efficient | P C Q |
| Props.C08_dda_invalid | P C Q |
| Props.C08_dda_no_objectives_diverges | P C Q |
| Props.C09_tree_partial | P C Q |
| Props.C09_tree_refuted_duplicates | P C Q |
| Props.C10_rank_from_fronts | P C Q |
| Props.C10_native | P C Q |
| Props.C10_epsilon_no_effect | P C Q |
| Props.C10_dominator | P C Q |
| Props.C10_first | P C Q |
| Props.C10_with_rank | P C Q |
| Props.C10_dominator_n_fronts_refuted | P |
| Props.C10_any_dominator | P C Q |
| Props.C11_rank_and_crowding | P C Q |
| Props.C11_nsga2 | P C Q |
| Props.C12_split | P |
| Props.C12_feasibility_first | P Q |
| Props.C12_unconstrained | P |
| Props.C12_nsga2_operator | P C Q |
| Props.C12_return_indices | P C Q |
| Props.C13_nonneg | P C Q |
| Props.C13_extremes | P C Q |
| Props.C13_boundary | P C Q |
| Props.C13_formula | P C Q |
| Props.C13_small_front | P Q |
| Props.C14_default_elimination | P C Q |
| Props.C14_default_elimination_covers | P C Q |
| Props.C14_default_elimination_cover_refuted | P Q |
| Props.C14_elementwise_elimination | P C Q |
| Props.C14_elementwise_representatives | P C Q |
| Props.C14_hash_elimination | P C Q |
| Props.C14_no_elimination | P Q |
| Props.C14_return_indices | P C Q |
| Props.C15_infill_bounded | P C Q |
| Props.C15_infill_complete | P C Q |
| Props.C15_infill_duplicate_free | P C Q |
| Props.C16_counts | P Q |
| Props.C16_skips_evaluated | P C Q |
| Props.C16_complete | P C Q |
| Props.C16_values | P C Q |
| Props.C16_evaluated_at_most_once | P C Q |
| Props.C16_failed_call | P Q |
| Props.C17_forced | P Q |
| Props.C17_forced_forever | P Q |
| Props.C17_progress_nonneg | P Q |
| Props.C17_negative_rejected | P Q |
| Props.C17_tree | P C Q |
| Props.C17_limit_exact | P C Q |
| Props.C17_limit_latches | P C Q |
| Props.C17_limit_special | P Q |
| Props.C17_time | P C Q |
| Props.C18_run_finalizes_once | P Q |
| Props.C18_run_terminated | P Q |
| Props.C18_n_gen_steps | P C Q |
| Props.C18_n_gen_run | P C Q |
| Props.C18_n_gen_zero_raises | P Q |
| Props.C18_n_eval_run | P C Q |
| Props.C19_cv_zero_iff_satisfied | P C Q |
| Props.C19_cv_monotone | P C Q |
| Props.C19_default_feasible | P C Q |
| Props.C20_stale_refuted | P C Q |
| Props.C20_no_cache_current | P C Q |
| Props.C20_invalidated_partial | P C Q |
| Props.C21_empty | P |
| Props.C21_multi_objective | P C Q |
| Props.C21_single_objective | P Q |
| Props.C21_no_feasible | P C Q |
| Props.C10_contract_satisfiable | P C Q |
| Props.C22_size_limit | P C Q |
| Props.C22_single_objective_best | P C Q |
| Props.C22_multi_objective_consistent | P C Q |
| Props.C22_multi_objective_unbounded | P C Q |
| Props.C22_add_raises_iff | P C Q |
| Props.C22_zero_size_refuted | P |
| Props.C22_unbounded_constructor_raises | none |
| Props.C23_is_better | P C Q |
| Props.C23_accept_iff | P C Q |
| Props.C23_accept_unconstrained | P C Q |
| Props.C23_sizes | P |
| Props.C23_monotone_history | P C Q |
| Props.C23_keeps_duplicate_free | P C Q |
| Props.C24_bounds_check | P C Q |
| Props.C24_clamp | P Q |
| Props.C24_set_to_bounds | P Q |
| Props.C24_periodic_partial | P C Q |
| Props.C24_bounce_back_partial | P C Q |
| Props.C24_fixed_variable_refuted | P Q |
| Props.C24_random_init | P C Q |
| Props.C24_de_repairs | P C Q |
| Props.C24_inverse_penalty | P Q |
| Props.C24_repair_operator | P C Q |
| Props.C25_ox | P C Q |
| Props.C25_ox_length | P |
| Props.C25_inversion | P Q |
| Props.C25_erx | P C Q |
| Props.C26_crossover_mask | P |
| Props.C26_point_crossover | P C Q |
| Props.C26_uniform | P |
| Props.C26_hux | P C Q |
| Props.C26_at_least_once | P Q |
| Props.C26_binomial | P Q |
| Props.C26_exponential | P C Q |
| Props.C26_conserves | P C Q |
| Props.C27_permutation | P Q |
| Props.C27_pr_zero | P C Q |
| Props.C27_pr_one | P C Q |
| Props.C28_compare | P |
| Props.C28_nsga2 | P C Q |
| Props.C28_nsga2_symm | P C Q |
| Props.C28_ga | P Q |
| Props.C28_others | P C Q |
| Props.C28_participants | P C Q |
| Props.C28_nothing_to_select | P Q |
| Props.C28_tournament | P C Q |
| Props.C28_pressure | P C Q |
| Props.C28_random | P C Q |
| Props.C29_das_dennis | P C Q |
| Props.C29_das_dennis_zero | P C Q |
| Props.C29_factory | P C Q |
| Props.C29_iterator | P C Q |
| Props.C29_iterator_zero | P C Q |
| Props.C30_closest | P C Q |
| Props.C30_degenerate | P Q |
| Props.C30_factory | P C Q |
| Props.C31_roundtrip_partial | P C Q |
| Props.C31_rejects | P C Q |
| Props.C31_forward | P C Q |
| Props.C31_forward_one_sided_partial | P C Q |
| Props.C31_documented_range | P C Q |
| Props.C31_int_array_truncates | P C Q |
| Props.C31_int_bounds_refuted | P C Q |
| Props.C31_denormalize | P C Q |
| Props.C31_normalize_estimated | P C Q |
| Props.C31_simple_bounds_fixed | P C Q |
| Props.C31_simple_roundtrip_partial | P C Q |
| Props.C31_simple_estimated | P C Q |
| Props.C31_simple_degenerate_lost | P C Q |
| Props.C32_weighted_sum_mono | P C Q |
| Props.C32_weighted_sum_strict | P C Q |
| Props.C32_weighted_sum_pareto | P C Q |
| Props.C32_tchebicheff_mono | P C Q |
| Props.C32_tchebicheff_needs_utopian | P C Q |
| Props.C32_tchebicheff_value | P C Q |
| Props.C32_asf_mono | P C Q |
| Props.C32_asf_value | P C Q |
| Props.C32_aasf_mono | P C Q |
| Props.C32_aasf_strict | P C Q |
| Props.C32_many_to_many | P C Q |
| Props.C32_vectors | P Q |
| Props.C32_auto | P C Q |
| Props.C32_utopian | P Q |
| Props.C32_pbi_pythagoras | P C Q |
| Props.C32_pbi_on_ray | P C Q |
| Props.C32_pbi_not_monotone | P C Q |
| Props.C33_window_holds_last | P Q |
| Props.C33_unbounded | P |
| Props.C33_is_full | P C Q |
| Props.C34_niching | P C Q |
| Props.C34_niching_too_few | P C Q |
| Props.C34_niche_of | P C Q |
| Props.C34_survival | P C Q |
| Props.C34_survival_fair | P C Q |
| Props.C34_opt_outside_population | P C Q |
| Props.C35_set | P C Q |
| Props.C35_set_get | P C Q |
| Props.C35_set_mismatch | P |
| Props.C35_interleaving | P Q |
| Props.C35_new | P C Q |
| Props.C35_new_mismatch | P C Q |
| Props.C35_merge | P |
| Props.C35_merge_raises | P |
| Props.C35_merge_array | P C Q |
| Props.C36_flatten | P Q |
| Props.C36_roundtrip | P C Q |
| Props.C36_roundtrip_params | P C Q |
| Props.C36_hierarchical | P C Q |
| Props.C36_get_params | P C Q |
| Props.C36_set_params | P Q |
| Props.C36_limits | P |
| Props.C37_index | P C Q |
| Props.C37_unique | P C Q |
| Props.C37_wheel | P C Q |
| Props.C37_all_equal_first | P C Q |
| Props.C38_quicksort | P C Q |
| Props.C38_numpy | P C Q |
| Props.C38_unknown_order | P |
| Props.C39_find_duplicates | P Q |
| Props.C39_get_duplicates_index_error | P C Q |
| Props.C39_get_duplicates_refuted | P C Q |
| Props.C39_get_duplicates_partial | P C Q |
| Props.C40_rand | P Q |
| Props.C40_best | P Q |
| Props.C40_current | P Q |
| Props.C40_can_recover | P C Q |
| Props.C40_never_returns | P Q |
| Props.C40_wrong_size | P Q |
| Props.C40_rank_sort | P C Q |
| Props.C40_ranked | P C Q |
| Props.C40_rank_sort_even | P |
| Props.C40_fast_fill_first | P Q |
| Props.C40_de_rand_duplicate | P Q |
| Props.C40_de_best_duplicate | P Q |
| Props.C40_de_rand_shape | P Q |
| Props.C40_de_rand_partial | P C Q |
| Props.C40_de_best_target | P Q |
| Props.C40_de_target_duplicate | P Q |
| Props.C41_to_replacement_refuted | P C Q |
| Props.C41_to_replacement_partial | P C Q |
| Props.C42_fmin_refuted | P C Q |
| Props.C42_fmin_partial | P C Q |
| Props.C43_robust_window | P Q |
| Props.C43_delta_update | P C Q |
| Props.C43_robust_needs_period | P C Q |
| Props.C44_until_feasible | P C Q |
| Props.C44_until_feasible_first | P C Q |
| Props.C44_until_feasible_refuted | P C Q |
| Props.C45_parameter_less_order | P C Q |
| Props.C45_small_fmax_refuted | P |
| Props.C46_rounding | P C Q |
| Props.C47_uncrossed_parents | P C Q |
| Props.C47_crossover | P C Q |
| Props.C47_no_cross | P Q |
| Props.C47_mutation_inplace | P Q |
| Props.C47_mutation_copy | P C Q |
| Props.C47_mating | P C Q |
| Props.C47_nox_corrupts | P |
| Props.C48_in_bounds | P C Q |
| Props.C48_unchanged | P C Q |
| Props.C48_crossed | P C Q |
| Props.C48_spread | P C Q |
| Props.C48_position_not_kept | P C Q |
| Props.C48_operator | P C Q |
| Props.C49_pm | P C Q |
| Props.C49_quantile | P C Q |
| Props.C50_differential | P Q |
| Props.C50_factor | P C Q |
| Props.C50_dex_in_bounds | P C Q |
| Props.C50_dex_first_donor | P C Q |
| Props.C50_dex_user_F_dropped | P C Q |
| Props.C50_dex_settings_ignored | P C Q |
| Props.C50_de_in_bounds | P C Q |
| Props.C51_sum | P C Q |
| Props.C51_kraemer | P C Q |
| Props.C51_layers | P C Q |
| Props.C52_length_partial | P Q |
| Props.C52_first_partial | P C Q |
| Props.C52_duplicates | P C Q |
| Props.C53_objective_ideal | P C Q |
| Props.C53_extreme_points | P C Q |
| Props.C53_nadir_value | P C Q |
| Props.C53_hyperplane | P C Q |
| Props.C54_gauss | P C Q |
| Props.C54_bitflip | P Q |
| Props.C54_bitflip_int_refuted | P |
| Props.C55_shape | P C Q |
| Props.C55_documented | P C Q |
| Props.C55_gradient_shapes | P C Q |
| Props.C55_elementwise | P C Q |
| Props.C55_elementwise_returns | P C Q |
| Props.C55_batch | P C Q |
| Props.C55_single | P C Q |
| Props.C55_vectorized | P C Q |
| Props.C55_mismatch | P C Q |
| Props.C55_transposed_accepted | P |
| Props.C55_partial_accepted | P |
| Props.C56_penalty | P C Q |
| Props.C56_penalty_raises | P C Q |
| Props.C56_objective | P C Q |
| Props.C56_objective_only | P C Q |
| Props.C56_bounds | P C Q |
| Props.C56_remove_bounds_raises | P Q |
| Props.C56_epsilon | P C Q |
| Props.C56_at_rest | P Q |
| Props.C56_in_use | P Q |
| Props.C56_exception_leaves_tolerance | P C Q |
| Props.C57_float | P C Q |
| Props.C57_integer | P Q |
| Props.C57_permutation | P C Q |
| Props.C57_lhs_unit | P C Q |
| Props.C57_lhs | P C Q |
| Props.C57_choice | P |
| Props.C57_binary | P C Q |
| Props.C58_groups | P C Q |
| Props.C58_offspring | P C Q |
| Props.C58_domains | P C Q |
| Props.C58_sampling | P Q |
| Props.C58_equal | P Q |
| Props.C59_accepts | P C Q |
| Props.C59_value | P C Q |
| Props.C59_proper_units | P C Q |
| Props.C59_nonneg | P C Q |
| Props.C59_zero_iff | P C Q |
| Props.C59_igdplus_compliant | P C Q |
| Props.C59_gdplus_compliant | P C Q |
| Props.C59_add_solutions | P C Q |
| Props.C59_order | P C Q |
| Props.C59_plus_le | P C Q |
| Props.C59_unit_free | P C Q |
| Props.C59_gd_igd_not_compliant | P C Q |
| Props.C59_empty_perfect | P C Q |
| Props.C60_value | P C Q |
| Props.C60_one_raises | P C Q |
| Props.C60_nonneg | P C Q |
| Props.C60_zero_iff | P C Q |
| Props.C60_order | P C Q |
| Props.C60_shift | P C Q |
| Props.C61_norm_direction | P C Q |
| Props.C61_nonneg | P C Q |
| Props.C61_compliant | P C Q |
| Props.C61_add_solutions | P C Q |
| Props.C61_dominated_irrelevant | P C Q |
| Props.C61_order | P C Q |
| Props.C61_beyond_ref | P C Q |
| Props.C61_strict | P C Q |
| Props.C61_single | P C Q |
| Props.C61_ref_point | P C Q |
| Props.C61_bounds | P C Q |
| Props.C61_unit_free | P C Q |
| Props.C61_approx_consistent | P C Q |
| Props.C61_approx_solutions | P C Q |
| Props.C62_accepts | P C Q |
| Props.C62_nonpos_iff | P C Q |
| Props.C62_compliant | P C Q |
| Props.C62_shift | P C Q |
| Props.C62_empty_refuted | P C Q |
| Props.C63_weights | P C Q |
| Props.C63_extreme | P C Q |
| Props.C63_choice | P C Q |
| Props.C63_empty | P C Q |
| Props.C63_constant_objective_refuted | P C Q |
| Props.C64_find2d | P C Q |
| Props.C64_tradeoff | P C Q |
| Props.C64_outliers | P C Q |
| Props.C65_neighbors | P C Q |
| Props.C65_neighbors_equal_directions | P C Q |
| Props.C65_parents | P C Q |
| Props.C65_replace | P C Q |
| Props.C65_next | P C Q |
| Props.C65_run | P C Q |
| Props.C65_generation | P C Q |
| Props.C65_monotone | P C Q |
| Props.C65_initial_ideal | P Q |
| Props.C65_parallel | P C Q |
| Props.C65_dominating_enters | P C Q |
| Props.C65_loses_best | P C Q |
| Props.C66_constant | P C Q |
| Props.C66_initial | P C Q |
| Props.C66_step | P C Q |
| Props.C66_run | P C Q |
| Props.C66_converges | P C Q |
| Props.C66_loses_best_refuted | P C Q |
| Props.C66_quadratic_middle_refuted | P C Q |
| Props.C66_quadratic_refuted | P C Q |
| Props.C66_quadratic_side_refuted | P C Q |
| Props.C66_quadratic_step | P C Q |
| Props.C67_zoom | P C Q |
| Props.C67_result_partial | P C Q |
| Props.C67_armijo_refuted | P C Q |
| Props.C67_never_ends_refuted | P C Q |
| Props.C67_unevaluated_refuted | P C Q |
| Props.C68_survival | P C Q |
| Props.C68_rank | P C Q |
| Props.C68_best_of_all | P C Q |
| Props.C68_elitist | P C Q |
| Props.C68_random_search | P C Q |
| Props.C69_optimum | P C Q |
| Props.C69_population_forgets | P |
| Props.C69_sizes | P C Q |
| Props.C69_parents | P Q |
| Props.C69_sigma | P C Q |
| Props.C69_variation | P Q |
| Props.C69_repair | P Q |
| Props.C70_max_alpha | P C Q |
| Props.C70_max_alpha_reached | P C Q |
| Props.C70_max_alpha_on_bound_refuted | P C Q |
| Props.C70_params | P C Q |
| Props.C70_move | P C Q |
| Props.C70_step | P C Q |
| Props.C70_run_partial | P C Q |
| Props.C70_simplex | P C Q |
| Props.C70_first_step_refuted | P C Q |
| Props.C70_one_variable_collapse_refuted | P C Q |
| Props.C71_explore | P C Q |
| Props.C71_explore_failed | P C Q |
| Props.C71_step_axis | P Q |
| Props.C71_next | P C Q |
| Props.C71_direction | P C Q |
| Props.C71_run | P C Q |
| Props.C72_de | P C Q |
| Props.C72_de_frozen_refuted | P Q |
| Props.C72_optimum | P C Q |
| Props.C72_de_optimum | P C Q |
| Props.C72_swarm | P C Q |
| Props.C72_local_best | P C Q |
| Props.C72_topology | P C Q |
| Props.C72_eppso | P C Q |
| Props.C73_equation | P C Q |
| Props.C73_move | P C Q |
| Props.C73_eppso | P C Q |
| Props.C73_strategy | P C Q |
| Props.C73_coeffs | P C Q |
| Props.C73_sum_refuted | P C Q |
| Props.C73_inertia | P C Q |
| Props.C73_max_velocity | P C Q |
| Props.C74_rounds | P C Q |
| Props.C74_greedy | P C Q |
| Props.C74_complete | P C Q |
| Props.C74_niches | P C Q |
| Props.C74_stale_niche_refuted | P Q |
| Props.C74_too_many | P C Q |
| Props.C74_survival | P C Q |
| Props.C74_elitist | P C Q |
| Props.C74_select_by_clearing | P C Q |
| Props.C74_tournament | P Q |
| Props.C75_survival | P C Q |
| Props.C75_bounds | P Q |
| Props.C75_default_bounds | P Q |
| Props.C75_steady_state | P C Q |
| Props.C75_constrained | P C Q |
| Props.C75_advance_bounds | P C Q |
| Props.C76_raw | P C Q |
| Props.C76_nondominated | P C Q |
| Props.C76_compatible | P C Q |
| Props.C76_survival | P C Q |
| Props.C76_density | P C Q |
| Props.C76_constrained | P C Q |
| Props.C77_selection | P Q |
| Props.C77_ideal | P C Q |
| Props.C77_acute | P C Q |
| Props.C77_apd_mono | P C Q |
| Props.C77_schedule | P C Q |
| Props.C77_survival | P C Q |
| Props.C77_unit | P C Q |
| Props.C77_gamma | P C Q |
| Props.C77_single_vector | P C Q |
| Props.C77_adapt | P C Q |
| Props.C77_optimum | P Q |
| Props.C77_infeasible_refuted | P |
| Props.C77_distance | P C Q |
| Props.C77_angle | P C Q |
| Props.C77_raises | P C Q |
| Props.C77_adapt_times | P C Q |
| Props.C77_adapt_zero | P |
| Props.C78_survival | P C Q |
| Props.C78_constrained | P C Q |
| Props.C78_blind_refuted | P C Q |
| Props.C79_result | P C Q |
| Props.C79_values_partial | P C Q |
| Props.C79_values_refuted | P |
| Props.C80_sphere | P C Q |
| Props.C80_rastrigin | P C Q |
| Props.C80_ackley | P C Q |
| Props.C80_griewank | P C Q |
| Props.C80_zakharov | P C Q |
| Props.C80_rosenbrock | P C Q |
| Props.C80_himmelblau_partial | P C Q |
| Props.C80_himmelblau_refuted | P C Q |
| Props.C80_vessel_refuted | P C Q |
| Props.C80_schwefel_refuted | P C Q |
| Props.C80_schwefel_partial | P C Q |
| Props.C80_formulas | P C Q |
| Props.C80_rosenbrock_formula | P C Q |
| Props.C80_himmelblau_near | P C Q |
| Props.C81_linspace | P C Q |
| Props.C81_zdt1_curve | P C Q |
| Props.C81_zdt1 | P C Q |
| Props.C81_zdt2_curve | P C Q |
| Props.C81_zdt2 | P C Q |
| Props.C81_zdt3_curve | P C Q |
| Props.C81_zdt3_partial | P C Q |
| Props.C81_zdt3_refuted | P C Q |
| Props.C81_zdt4_curve | P C Q |
| Props.C81_zdt4 | P C Q |
| Props.C81_zdt5_curve | P C Q |
| Props.C81_zdt5_norm_curve | P C Q |
| Props.C81_zdt5 | P C Q |
| Props.C81_zdt5_refuted | P C Q |
| Props.C81_zdt6_curve | P C Q |
| Props.C81_zdt6 | P C Q |
| Props.C82_dtlz1_simplex | P C Q |
| Props.C82_dtlz1 | P C Q |
| Props.C82_generic_sphere | P C Q |
| Props.C82_dtlz2_sphere | P C Q |
| Props.C82_dtlz3_sphere | P C Q |
| Props.C82_dtlz4_sphere | P C Q |
| Props.C82_sphere_fronts | P C Q |
| Props.C82_inverted | P C Q |
| Props.C82_inverted_refuted | P C Q |
| Props.C82_scaled | P C Q |
| Props.C82_convex | P C Q |
| Props.C82_dtlz5 | P C Q |
| Props.C82_dtlz6 | P C Q |
| Props.C82_dtlz5_refuted | P C Q |
| Props.C82_dtlz7_graph | P C Q |
| Props.C82_dtlz7_partial | P C Q |
| Props.C82_dtlz7_refuted | P C Q |
| Props.C83_c1dtlz1 | P C Q |
| Props.C83_c1dtlz3 | P C Q |
| Props.C83_c1dtlz3_default | P C Q |
| Props.C83_c2_constraint | P C Q |
| Props.C83_c2dtlz2 | P C Q |
| Props.C83_c2dtlz2_front | P C Q |
| Props.C83_c3dtlz1_refuted | P C Q |
| Props.C83_c3dtlz4 | P C Q |
| Props.C83_c3dtlz4_front | P C Q |
| Props.C84_bnh_curve | P C Q |
| Props.C84_bnh | P C Q |
| Props.C84_srn_partial | P C Q |
| Props.C84_srn_feasible | P C Q |
| Props.C84_srn_refuted | P C Q |
| Props.C84_srn_incomplete_refuted | P C Q |
| Props.C84_omni_arc | P C Q |
| Props.C84_omni | P C Q |
| Props.C84_sympart_partial | P C Q |
| Props.C84_sympart_refuted | P C Q |
| Props.C84_srn_line | P C Q |
| Props.C84_omni_front | P C Q |
| Props.C85_archive | P C Q |
| Props.C85_fill | P C Q |
| Props.C85_exact | P C Q |
| Props.C85_trim | P C Q |
| Props.C85_balanced | P C Q |
| Props.C85_ideal | P C Q |
| Props.C85_fitness_nonneg | P C Q |
| Props.C85_feasible_opt_refuted | P C Q |
| Props.C85_best_survives_refuted | P C Q |
| Props.C86_archive | P C Q |
| Props.C86_terminates | P C Q |
| Props.C86_terminates_refuted | P C Q |
| Props.C87_compare | P Q |
| Props.C87_archives | P C Q |
| Props.C87_shares | P C Q |
| Props.C88_ranking | P Q |
| Props.C88_select | P C Q |
| Props.C88_nearest_survives | P C Q |
| Props.C88_survival | P C Q |
| Props.C88_rnsga2 | P C Q |
| Props.C88_distance | P C Q |
| Props.C88_half | P C Q |
| Props.C88_reference_points_refuted | P Q |
| Props.C88_bounds | P C Q |
| Props.C89_projection | P C Q |
| Props.C89_simplex | P C Q |
| Props.C89_count | P C Q |
| Props.C89_cluster | P C Q |
| Props.C90_order_kept | P Q |
| Props.C90_first | P C Q |
| Props.C90_by_objective | P C Q |
| Props.C90_feasible_order_refuted | P |
| Props.C90_survival | P Q |
| Props.C90_optimum | P C Q |
| Props.C90_optimum_sorted | P C Q |
| Props.C90_best_evaluated_refuted | P |
| Props.C90_isres_parents | P C Q |
| Props.C90_isres_offspring | P C Q |
| Props.C91_prune | P C Q |
| Props.C91_selection | P C Q |
| Props.C91_gap_before | P C Q |
| Props.C91_gap_after | P C Q |
| Props.C91_mnn_metric | P C Q |
| Props.C91_extremes | P Q |
| Props.C91_pcd | P C Q |
| Props.C91_mnn | P C Q |
| Props.C91_constant_objective_refuted | P C Q |
| Props.C91_nonneg | P C Q |
| Props.C91_count | P Q |
| Props.C91_duplicates | P C Q |
| Props.C92_every | P |
| Props.C92_nth | P C Q |
| Props.C92_bound | P C Q |
| Props.C92_zero | P |
| Props.C92_single | P C Q |
| Props.C92_callback | P Q |
| Props.C92_collection_refuted | P Q |
| Props.C93_time | P C Q |
| Props.C93_steps | P C Q |
| Props.C93_front | P C Q |
| Props.C93_frozen | P C Q |
| Props.C93_set_time_refuted | P C Q |
| Props.C94_static | P C Q |
| Props.C94_static_size | P C Q |
| Props.C94_static_elementwise_refuted | P C Q |
| Props.C94_functional | P C Q |
| Props.C94_multi_to_single_partial | P C Q |
| Props.C94_multi_to_single_refuted | P C Q |
| Props.C94_multi_to_single_none | P Q |
| Props.C94_decompose | P Q |
| Props.C94_zero_to_one_refuted | P C Q |
| Props.C95_binomial | P C Q |
| Props.C96_step | P C Q |
| Props.C96_tiling | P C Q |
| Props.C96_points | P C Q |
| Props.C96_growth | P C Q |
| Props.C96_compact | P C Q |
| Props.C96_truncation_refuted | P C Q |
| Props.C96_truncated | P C Q |
| Props.C96_selection | P C Q |
| Props.C96_progress | P C Q |
| Props.C96_shrinks | P C Q |
| Props.C96_dense | P C Q |
| Props.C97_survival | P C Q |
| Props.C97_elites_are_ga | P C Q |
| Props.C97_elites_best_of_all | P C Q |
| Props.C97_distinct_values | P C Q |
| Props.C97_feasible_lost_refuted | P Q |
| Props.C97_custom | P C Q |
| Props.C97_custom_keeps_duplicates_refuted | P Q |
| Props.C97_selection | P C Q |
| Props.C97_offspring | P Q |
| Props.C97_multi | P C Q |
| Props.C97_multi_feasible_lost_refuted | P C Q |
| Props.C97_generation | P C Q |
| Props.C98_replacement | P C Q |
| Props.C98_optimum | P C Q |
| Props.C98_progress | P Q |
| Props.C98_no_evaluations_refuted | P Q |
| Props.C98_family_zero_refuted | P C Q |
| Props.C98_parents_refuted | P Q |
| Props.C99_orthogonal | P C Q |
| Props.C99_perpendicular | P C Q |
| Props.C99_child | P C Q |
| Props.C99_collinear | P C Q |
| Props.C99_identical | P C Q |
| Props.C99_bounds | P C Q |
| Props.C100_survival | P C Q |
| Props.C100_pool | P C Q |
| Props.C100_generation | P C Q |
| Props.C100_run | P C Q |
| Props.C100_factor | P C Q |
| Props.C100_trial | P C Q |
| Props.C100_pairing | P Q |
| Props.C101_tournament | P C Q |
| Props.C101_update | P C Q |
| Props.C101_optimum | P C Q |
| Props.C101_complete | P C Q |
| Props.C101_pbest_step | P Q |
| Props.C101_pbest | P Q |
| Props.C101_wasted | P |
| Props.C101_flight | P C Q |
| Props.C101_leader | P C Q |
| Props.C101_duplicates_refuted | P C Q |
| Props.C101_infeasible_refuted | P C Q |
| Props.C101_dominated_refuted | P C Q |
| Props.C102_population | P C Q |
| Props.C102_run | P C Q |
| Props.C102_complete | P C Q |
| Props.C102_optimum | P C Q |
| Props.C102_nsga2 | P C Q |
| Props.C102_nsga3 | P C Q |
| Props.C102_spea2 | P C Q |
| Props.C102_smsemoa | P C Q |
| Props.C102_agemoea | P C Q |
| Props.C102_deteriorates_refuted | P C Q |
| Props.C103_truncation | P C Q |
| Props.C103_run | P C Q |
| Props.C103_complete | P C Q |
| Props.C103_winner | P Q |
| Props.C103_flight | P C Q |
| Props.C103_initial | P C Q |
| Props.C104_detection | P C Q |
| Props.C104_stored | P C Q |
| Props.C104_static | P C Q |
| Props.C104_evaluations | P C Q |
| Props.C104_no_samples_refuted | P C Q |
| Props.C104_stale_refuted | P C Q |
| Props.C104_version_b_refuted | P C Q |
| Props.C105_valid | P C Q |
| Props.C105_earliest | P C Q |
| Props.C105_makespan | P C Q |
| Props.C105_critical_path | P C Q |
| Props.C105_reversal | P C Q |
| Props.C105_lower_bounds | P C Q |
| Props.C105_bounds_refuted | P C Q |
| Props.C106_value | P C Q |
| Props.C106_rotation | P C Q |
| Props.C106_reverse | P C Q |
| Props.C106_inversion | P C Q |
| Props.C106_detour | P C Q |
| Props.C106_lower_bound | P C Q |
| Props.C106_euclidean | P C Q |
| Props.C106_bounds_refuted | P C Q |
| Props.C107_values | P C Q |
| Props.C107_rows | P C Q |
| Props.C107_optimum | P C Q |
| Props.C107_monotone | P C Q |
| Props.C107_random | P C Q |
| Props.C107_random_capacity | P C Q |
| Props.C107_multi_values | P C Q |
| Props.C107_multi_refuted | P Q |
| Props.C108_total | P C Q |
| Props.C108_limits | P C Q |
| Props.C108_not_before | P C Q |
| Props.C108_stagnation | P C Q |
| Props.C108_single_delta | P C Q |
| Props.C108_multi_delta | P C Q |
| Props.C108_units | P C Q |
| Props.C108_variables_delta | P C Q |
| Props.C108_infeasible | P C Q |
| Props.C108_integer_refuted | P C Q |
| Props.C108_renormalization_refuted | P C Q |
| Props.C109_same_values | P C Q |
| Props.C109_attribution | P Q |
| Props.C109_progress | P C Q |
| Props.C109_once | P Q |
| Props.C109_chunks | P C Q |
| Props.C109_evaluate | P C Q |
| Props.C109_copy_looped | P |
| Props.C109_excluded | P Q |
| Props.C109_unordered_refuted | P C Q |
| Props.C109_copy_refuted | P |
| Props.C109_history_refuted | none |
| Props.C110_no_side_effects | P Q |
| Props.C110_result | P Q |
| Props.C110_repeatable | P Q |
| Props.C110_stops | P Q |
| Props.C110_checkpoint | P Q |
| Props.C110_independent | P C Q |
| Props.C110_shared_terminated | P Q |
| Props.C110_ignored_refuted | P Q |
| Props.C110_finished_refuted | P Q |
| Props.C110_shared_refuted | P Q |
| Props.C111_evaluated | P Q |
| Props.C111_repaired | P Q |
| Props.C111_domain | P Q |
| Props.C111_duplicates | P C Q |
| Props.C111_size | P Q |
| Props.C111_not_reevaluated | P C Q |
| Props.C111_size_refuted | P |
| Props.C111_in_place_refuted | P |
| Props.C112_rows | P C Q |
| Props.C112_domain | P C Q |
| Props.C112_offspring | P C Q |
| Props.C112_attached | P C Q |
| Props.C112_attached_iff | P C Q |
| Props.C112_direct | P Q |
| Props.C112_age | P Q |
| Props.C112_seed | none |
| Props.C112_attached_refuted | P C Q |
| Props.C112_seed_refuted | none |
| Props.C113_value | P C Q |
| Props.C113_mean | P C Q |
| Props.C113_no_side_effects | P C Q |
| Props.C113_independent | P C Q |
| Props.C113_seeded | P C Q |
| Props.C113_parameters | P C Q |
| Props.C113_infeasible_refuted | P Q |
| Props.C114_loose_matrix | P C Q |
| Props.C114_loose_order | P Q |
| Props.C114_delta_zero | P C Q |
| Props.C114_space | P C Q |
| Props.C114_space_value | P C Q |
| Props.C114_crowding_bounds | P C Q |
| Props.C114_combination | P Q |
| Props.C114_survival | P C Q |
| Props.C114_extremes | P C Q |
| Props.C114_optimum | P C Q |
| Props.C114_optimum_refuted | P C Q |
| Props.C114_extremes_variable_refuted | P C Q |
| Props.C114_extremes_single_refuted | P C Q |
| Props.C114_average_refuted | P C Q |
| Props.C114_distance | P C Q |
| Props.C114_pairs | P C Q |
| Props.C114_selection_refuted | P C Q |
| Props.C114_selection | P C Q |
| Props.C115_survival | P C Q |
| Props.C115_unconstrained | P Q |
| Props.C115_seed_refuted | P C Q |
| Props.C116_dense | P C Q |
| Props.C116_pairwise | P C Q |
| Props.C116_order | P C Q |
| Props.C116_loop | P C Q |
| Props.C116_first_fit | P Q |
| Props.C116_second_partial | P Q |
| Props.C116_tau | P |
| Props.C116_fit | P C Q |
| Props.C116_fit_strict | P C Q |
| Props.C116_linear_monotone | P C Q |
| Props.C116_poly_monotone_partial | P C Q |
| Props.C116_poly_factors | P C Q |
| Props.C116_no_preference | P Q |
| Props.C116_matrix | P C Q |
| Props.C116_sort_partial | P C Q |
| Props.C116_typed_ranks_refuted | none |
| Props.C116_second_refuted | P Q |
| Props.C116_refit_refuted | P |
| Props.C116_ties_refuted | P |
| Props.C116_backtrack_refuted | P Q |
| Props.C116_indifferent_refuted | P Q |
| Props.C116_zero_refuted | P C Q |
| Props.C116_many_ties_refuted | P C Q |
| Props.C116_order_refuted | P C Q |
| Props.C116_hangs_refuted | P C Q |
| Props.C116_typed_ranks | P Q |
| Props.C116_poly_offset | P C Q |
| Props.C116_reset | P |
| Props.C116_nothing_to_compare | P Q |
| Props.C117_df1_curve | P C Q |
| Props.C117_df1 | P C Q |
| Props.C117_df2_curve | P C Q |
| Props.C117_df2 | P C Q |
| Props.C117_df3_curve | P C Q |
| Props.C117_df3 | P C Q |
| Props.C117_df4_curve | P C Q |
| Props.C117_df4_iff | P C Q |
| Props.C117_df4_refuted | P C Q |
| Props.C117_df5_curve | P C Q |
| Props.C117_df5 | P C Q |
| Props.C117_df6_curve | P C Q |
| Props.C117_df6 | P C Q |
| Props.C117_df7_curve | P C Q |
| Props.C117_df7 | P C Q |
| Props.C117_df8_curve | P C Q |
| Props.C117_df8 | P C Q |
| Props.C117_df9_curve | P C Q |
| Props.C117_df9_partial | P C Q |
| Props.C117_df9_kept | P C Q |
| Props.C117_df9_refuted | P C Q |
| Props.C117_grid | P C Q |
| Props.C117_df10_surface | P C Q |
| Props.C117_df10 | P C Q |
| Props.C117_df11_surface | P C Q |
| Props.C117_df11 | P C Q |
| Props.C117_df12_refuted | P C Q |
| Props.C117_df13_surface_partial | P C Q |
| Props.C117_df13_partial | P C Q |
| Props.C117_df14_surface | P C Q |
| Props.C117_df14 | P C Q |
| Props.C118_kmeans | P C Q |
| Props.C118_reduction | P C Q |
| Props.C118_kmeans_refuted | P C Q |
| Props.C118_reduction_refuted | P C Q |
| Props.C118_edges | P C Q |
| Props.C118_few_points_refuted | P C Q |
| Props.C118_construction | P C Q |
| Props.C118_construction_total | P C Q |
| Props.C118_layers | P C Q |
| Props.C118_layer_norm | P C Q |
| Props.C118_genetic | P C Q |
| Props.C118_reference_points | P C Q |
| Props.C118_plane_one | P C Q |
| Props.C118_plane_zero | P C Q |
| Props.C118_terminates | P C Q |
| Props.C118_project | P C Q |
| Props.C118_nearest | P C Q |
| Props.C118_nearest_refuted | P C Q |
| Props.C118_gradient | P C Q |
| Props.C118_adam_step | P C Q |
| Props.C118_energy | P C Q |
| Props.C118_energy_total | P C Q |
| Props.C118_direction | P C Q |
| Props.C118_movement | P C Q |
| Props.C118_stop | P C Q |
| Props.C118_construction_gradient | P C Q |
| Props.C118_construction_stop | P C Q |
| Props.C119_rows | P C Q |
| Props.C119_lattice | P C Q |
| Props.C119_corners | P C Q |
| Props.C119_check | P C Q |
| Props.C119_factory_partial | P C Q |
| Props.C119_one_point_refuted | P C Q |
| Props.C119_one_objective | P C Q |
| Props.C120_relation | P C Q |
| Props.C120_relation_epsilon | P C Q |
| Props.C120_find | P C Q |
| Props.C120_fast | P C Q |
| Props.C120_efficient | P Q |
| Props.C120_efficient_fronts | P C Q |
| Props.C120_dominance_degree | P C Q |
| Props.C120_epsilon_diverges_refuted | P C Q |
| Props.C121_best_order_partial | P C Q |
| Props.C121_best_order_ties_refuted | P Q |
| Props.C121_fast_best_order_partial | P C Q |
| Props.C121_fast_best_order_ties_refuted | P C Q |
| Props.C122_pcd_partial | P C Q |
| Props.C122_ties_refuted | P C Q |
| Props.C122_extremes_refuted | P C Q |
| Props.C122_divisor | P C Q |
| Props.C123_mnn_partial | P C Q |
| Props.C123_2nn_partial | P C Q |
| Props.C123_equal_distances_refuted | P C Q |
| Props.C123_2nn_few_refuted | P C Q |
| Props.C124_perpendicular | P C Q |
| Props.C124_perpendicular_laws | P C Q |
| Props.C124_perpendicular_compiled | P C Q |
| Props.C124_weights | P C Q |
| Props.C124_pbi_compiled | P C Q |
| Props.C124_niches | P C Q |
| Props.C124_niches_units | P C Q |
| Props.C124_ranking_compiled | P C Q |
| Props.C124_ranking_outcomes | P C Q |
| Props.C124_load | P C Q |
| Props.C124_load_refused | P Q |
| Props.C124_load_refuted | P C Q |
| Props.C124_ranking_seed_refuted | P |
| Props.C125_cell_width | P C Q |
| Props.C125_cell_text | P C Q |
| Props.C125_integers | P C Q |
| Props.C125_integers_refuted | P C Q |
| Props.C125_numbers | P C Q |
| Props.C125_numbers_refuted | P C Q |
| Props.C125_aligned | P C Q |
| Props.C125_single | P C Q |
| Props.C125_progress | P C Q |
| Props.C126_limit | P C Q |
| Props.C126_quadratic | P C Q |
| Props.C126_cubic | P C Q |
| Props.C126_absolute_refuted | P C Q |
| Props.C126_dictionary | P C Q |
| Props.C126_plain_refuted | P C Q |
| Props.C126_autograd | P C Q |
| Props.C126_autograd_const | P C Q |
| Props.C126_elementwise | P C Q |
| Props.C126_batch_sum | P C Q |
| Props.C126_jax | P C Q |
| Props.C126_library | P Q |
| Props.C126_library_refuted | none |
| Props.C127_line | P C Q |
| Props.C127_corners | P C Q |
| Props.C127_normalisation | P C Q |
| Props.C127_hyperplane | P C Q |
| Props.C127_scores | P C Q |
| Props.C127_positive | P C Q |
| Props.C127_exchanged_refuted | P C Q |
| Props.C127_exponent | P C Q |
| Props.C127_minkowski | P C Q |
| Props.C127_triangle_refuted | P C Q |
| Props.C127_project | P C Q |
| Props.C127_exponent2 | P C Q |
| Props.C127_pairs | P C Q |
| Props.C127_origin_refuted | P C Q |
| Props.C127_newton | P C Q |
| Props.C128_swap_refuted | P Q |
| Props.C128_grid | P Q |
| Props.C128_grid_refuted | P Q |
| Props.C128_closest | P C Q |
| Props.C128_integer | P C Q |
| Props.C128_boolean_refuted | P C Q |
| Props.C128_evaluate_refuted | P Q |
| Props.C128_distances | P C Q |
| Props.C128_fixed_refuted | P C Q |
| Props.C128_intersect | P Q |
| Props.C128_powerset | P C Q |
| Props.C128_wfg_corners | P C Q |
| Props.C128_time | P C Q |
| Props.C128_days_refuted | none |
| Props.C128_defaults | P Q |
| Props.C128_where | P C Q |
| Props.C128_unique | P C Q |
| Props.C128_prefix | P Q |
| Props.C128_cache | P Q |
| Props.C128_arguments_refuted | P Q |
| Props.C129_history | P C Q |
| Props.C129_lengths | P C Q |
| Props.C129_movement | P C Q |
| Props.C129_points | P C Q |
| Props.C129_range_refuted | P C Q |
| Props.C129_hv_refuted | P C Q |
| Props.C130_distance | P C Q |
| Props.C130_mw1 | P C Q |
| Props.C130_mw2 | P C Q |
| Props.C130_line_fronts | P C Q |
| Props.C130_caller_refuted | P C Q |
| Props.C130_mw3 | P C Q |
| Props.C130_mw3_front | P C Q |
| Props.C130_mw3_refuted | P C Q |
| Props.C130_mw4 | P C Q |
| Props.C130_mw8 | P C Q |
| Props.C130_mw8_front | P C Q |
| Props.C130_mw6 | P C Q |
| Props.C130_mw6_front | P C Q |
| Props.C130_mw6_polar | P C Q |
| Props.C130_mw12_loop | P C Q |
| Props.C130_mw12_corner | P C Q |
| Props.C130_mw12_ends | P C Q |
| Props.C130_mw12_refuted | P C Q |
| Props.C130_mw14 | P C Q |
| Props.C130_mw14_refuted | P C Q |
| Props.C131_dc2 | P C Q |
| Props.C131_dc1 | P C Q |
| Props.C131_dc3 | P C Q |
| Props.C131_front_refuted | P C Q |
| Props.C132_g9 | P C Q |
| Props.C132_g10 | P C Q |
| Props.C132_g15_refuted | P C Q |
| Props.C132_g15_partial | P C Q |
| Props.C132_g15_near | P C Q |
| Props.C132_g4_partial | P C Q |
| Props.C132_g1 | P C Q |
| Props.C132_g3 | P C Q |
| Props.C132_g6 | P C Q |
| Props.C132_g7 | P C Q |
| Props.C132_g11 | P C Q |
| Props.C132_g12_feasible | P C Q |
| Props.C132_g12 | P C Q |
| Props.C132_g23 | P C Q |
| Props.C132_g24_partial | P C Q |
| Props.C132_shapes | P C Q |
| Props.C132_g18_bound | P C Q |
| Props.C132_g18_attained | P C Q |
| Props.C132_g18_refuted | P C Q |
| Props.C132_g18_partial | P C Q |
| Props.C132_g19_partial | P C Q |
| Props.C132_g14_refuted | P C Q |
| Props.C132_g14_partial | P C Q |
| Props.C132_g13_refuted | P C Q |
| Props.C132_g13_partial | P C Q |
| Props.C132_shapes_more | P C Q |
| Props.C132_g8_bound | P C Q |
| Props.C132_g8 | P C Q |
| Props.C132_g5_bound | P C Q |
| Props.C132_g5_partial | P C Q |
| Props.C132_g20_infeasible | P C Q |
| Props.C132_g20_refuted | P C Q |
| Props.C132_shapes_rest | P C Q |
| Props.C132_g21_optimum | P C Q |
| Props.C132_g21_refuted | P C Q |
| Props.C132_g21_violation | P C Q |
| Props.C132_shapes_g21 | P C Q |
| Props.C132_g16_refuted | P C Q |
| Props.C132_g2_partial | P C Q |
| Props.C132_g22_feasible | P C Q |
| Props.C132_g22_refuted | P C Q |
| Props.C132_g2_objective | P C Q |
| Props.C133_sphere_sets | P C Q |
| Props.C133_sphere_fronts | P C Q |
| Props.C133_wfg9_front | P C Q |
| Props.C133_wfg1 | P C Q |
| Props.C133_range | P C Q |
| Props.C133_range_even | P C Q |
| Props.C133_wfg2_partial | P C Q |
| Props.C133_wfg3 | P C Q |
| Props.C133_wfg3_refuted | P C Q |
| Props.C133_pareto_set | P C Q |
| Props.C133_pareto_set_wfg3 | P C Q |
| Props.C133_pareto_front | P C Q |
| Props.C133_pareto_front_wfg3 | P C Q |
| Props.C133_default_points_refuted | P C Q |
| Props.C133_wfg2_refuted | P C Q |
| Props.C133_init | P C Q |
| Props.C133_init_refuted | none |
| Props.C133_correct_nearest | P C Q |
| Props.C133_wfg1_weights | P C Q |
| Props.C134_infeasible | P C Q |
| Props.C134_terminates | P C Q |
| Props.C134_feasible_range | P C Q |
| Props.C134_zero_sound | P C Q |
| Props.C134_pareto_kkt | P C Q |
| Props.C134_zero_complete | P C Q |
| Props.C134_feasible_above_one_refuted | P C Q |
| Props.C134_unconstrained_refuted | P C Q |
| Props.C134_ideal_refuted | P C Q |
| Props.C135_filter | P C Q |
| Props.C135_translated | P C Q |
| Props.C135_translated_worse | P C Q |
| Props.C135_translated_nonempty | P C Q |
| Props.C135_front | P C Q |
| Props.C135_value | P C Q |
| Props.C135_rhv_le | P C Q |
| Props.C135_weights_refuted | P C Q |
| Props.C135_delta_refuted | P C Q |
| Props.C136_reaches | P C Q |
| Props.C136_first_never | P C Q |
| Props.C136_first_equal | P Q |
| Props.C136_never_terminates | P C Q |
| Props.C136_refuted | P C Q |
| Props.C137_closest | P C Q |
| Props.C137_condense | P C Q |
| Props.C137_archive | P C Q |
| Props.C137_useful | P C Q |
| Props.C137_size | P Q |
| Props.C137_response | P C Q |
| Props.C137_generation | P C Q |
| Props.C137_small_refuted | P C Q |
| Props.C137_random_refuted | P C Q |
| Props.C137_shared_refuted | P Q |
| Props.C137_stale_refuted | P C Q |
| Props.C137_given_own | P Q |
| Props.C138_concave | P C Q |
| Props.C138_root | P C Q |
| Props.C138_disconnected | P C Q |
| Props.C138_plane | P C Q |
| Props.C138_sphere | P C Q |
| Props.C138_difficulty | P C Q |
| Props.C138_ellipses | P C Q |
| Props.C138_balls | P C Q |
| Props.C138_factors | P C Q |
| Props.C139_ctp1_curves | P C Q |
| Props.C139_ctp1 | P C Q |
| Props.C139_constraint | P C Q |
| Props.C139_on_curve | P C Q |
| Props.C139_curve_infeasible | P C Q |
| Props.C139_corner_refuted | P C Q |
| Props.C139_ctp7_exists | P C Q |
| Props.C139_published | P C Q |
| Props.C140_serial_refuted | P C Q |
| Props.C140_run | P C Q |
| Props.C140_optimum | P Q |
| Props.C140_values_refuted | P |
| Props.C140_copy_refuted | P C Q |
| Props.C140_bounds | P C Q |
| Props.C140_fixed_refuted | P C Q |
| Props.C140_restarts | P C Q |
| Props.C140_bipop_terminates | P C Q |
| Props.C140_bipop | P C Q |
| Props.C141_iteration | P C Q |
| Props.C141_empty_refuted | P Q |
| Props.C141_exponential_refuted | P Q |
| Props.C141_steps | P C Q |
| Props.C141_line_partial | P Q |
| Props.C141_line_refuted | P C Q |
| Props.C142_crossover | P C Q |
| Props.C142_mutation | P C Q |
| Props.C142_run | P C Q |
| Props.C142_cut | P C Q |
| Props.C142_untyped_refuted | P C Q |
| Props.C142_unrepaired_refuted | P C Q |
| Props.C142_fractional_refuted | P C Q |
| Props.C142_repairs | P C Q |
| Props.C143_distance | P C Q |
| Props.C143_pareto_set | P C Q |
| Props.C143_front | P C Q |
| Props.C143_rows | P C Q |
| Props.C143_zcat4 | P C Q |
| Props.C143_range | P C Q |
| Props.C143_ends | P C Q |
| Props.C143_phases | P C Q |
| Props.C143_region | P C Q |
| Props.C143_degenerate | P C Q |
| Props.C143_regions | P C Q |
| Props.C144_front | P C Q |
| Props.C144_returned | P C Q |
| Props.C144_ends | P C Q |
| Props.C145_fda4 | P C Q |
| Props.C145_fda5 | P C Q |
| Props.C145_dmop2 | P C Q |
| Props.C145_fda2 | P C Q |
| Props.C145_dimp2 | P C Q |
| Props.C145_dimp2_start_refuted | P C Q |
| Props.C145_he2 | P C Q |
| Props.C146_rows | P C Q |
| Props.C146_dmop3_refuted | P C Q |
| Props.C146_misc_refuted | P C Q |
| Props.C146_misc_dmop2_shape_refuted | P C Q |
| Props.C146_misc_dmop2_mixed_refuted | P C Q |
| Props.C146_misc_dmop2_front_refuted | P C Q |
| Props.C146_misc_dmop2_front | P C Q |
| Props.C146_misc_column_refuted | P C Q |
| Props.C147_own_range | P C Q |
| Props.C147_given_bounds | P C Q |
| Props.C147_integer_data | P C Q |
| Props.C147_integer_refuted | P C Q |
| Props.C147_pcp | P C Q |
| Props.C147_stale_refuted | P C Q |
| Props.C147_radviz | P C Q |
| Props.C147_radviz_refuted | P C Q |
| Props.C147_star | P C Q |
| Props.C147_star_refuted | P C Q |
| Props.C147_radar | P C Q |
| Props.C147_radar_refuted | P C Q |
| Props.C147_petal | P C Q |
| Props.C148_heatmap | P C Q |
| Props.C148_direction | P C Q |
| Props.C148_false_refuted | P C Q |
| Props.C148_redraw_refuted | P C Q |
| Props.C148_short_list_refuted | P C Q |
| Props.C148_dimensions | P C Q |
| Props.C148_scatter | P C Q |
| Props.C148_scatter_refuted | P C Q |
| Props.C149_admissible | P C Q |
| Props.C149_equality_refuted | P C Q |
| Props.C149_bounds | P C Q |
| Props.C149_cobyla_refuted | P C Q |
| Props.C149_result | P C Q |
| Props.C149_evaluations | P C Q |
| Props.C149_budget_refuted | P C Q |
| Props.C149_no_worse | P C Q |
| Props.C149_keeps_best_refuted | P C Q |
| Props.C149_support | P |
| Props.C150_inertia | P C Q |
| Props.C150_bound | P C Q |
| Props.C150_attained | P C Q |
| Props.C150_set_refuted | P C Q |
| Props.C150_set_partial | P C Q |
| Props.C150_deflection | P C Q |
| Props.C150_stress | P C Q |
| Props.C151_osy | P C Q |
| Props.C151_carside | P C Q |
| Props.C151_wrm | P C Q |
| Props.C151_wrm_feasible | P C Q |
| Props.C151_kursawe | P C Q |
| Props.C151_tnk | P C Q |
| Props.C151_tnk_feasible | P C Q |
| Props.C151_welded_beam | P C Q |
| Props.C151_welded_feasible | P C Q |
| Props.C151_clutch_row | P C Q |
| Props.C151_clutch_refuted | P C Q |
| Props.C152_integrity | P Q |
| Props.C152_result | P Q |
| Props.C152_cleanup | P Q |
| Props.C152_recovery | P C Q |
| Props.C152_shared_refuted | P C Q |
| Props.C152_leftover_refuted | P C Q |
| Props.C152_folder | P |
| Props.C153_average | P C Q |
| Props.C153_energy | P C Q |
| Props.C153_closest | P C Q |
| Props.C153_variance_partial | P C Q |
| Props.C153_variance_refuted | P C Q |
| Props.C153_variance_mod | P C Q |
| Props.C153_neighbours | P C Q |
| Props.C153_igd | P C Q |
| Props.C153_igd_refuted | P C Q |
| Props.C153_random | P C Q |
| Props.C153_random_refuted | P C Q |
| Props.C153_gram_schmidt | P C Q |
| Props.C153_projection | P C Q |
| Props.C154_reference | P C Q |
| Props.C154_table | P C Q |
| Props.C154_reference_unique | P C Q |
| Props.C155_formula | P C Q |
| Props.C155_infinite | P C Q |
| Props.C155_bound | P C Q |
| Props.C155_affine | P C Q |
| Props.C155_fast | P C Q |
| Props.C155_fast_distance | P C Q |
| Props.C155_fast_agrees | P C Q |
| Props.C155_2nn_refuted | P C Q |
| Props.C156_variables | P Q |
| Props.C156_run | P C Q |
| Props.C156_in_turn | P C Q |
| Props.C156_ask_twice_refuted | P C Q |
| Props.C156_constraints_refuted | P C Q |
| Props.C157_records | P C Q |
| Props.C157_value | P C Q |
| Props.C157_fresh | P C Q |
| Props.C157_constraints | P C Q |
| Props.C157_set_time_refuted | P C Q |
| Props.C158_optimum | P C Q |
| Props.C158_rank_and_crowding | P C Q |
| Props.C158_agemoea | P C Q |
| Props.C158_adaptive_refuted | P C Q |
| Props.C159_real | P C Q |
| Props.C159_permutation | P C Q |
| Props.C159_rank_and_crowding | P Q |
| Props.C159_run | P C Q |
| Props.C159_history | P C Q |
| Props.C159_nocrossover_refuted | P |
| Props.C159_result | P C Q |
| Props.C160_optimum | P C Q |
| Props.C160_survival | P C Q |
| Props.C160_outside_refuted | P C Q |
| Props.C161_visible | P Q |
| Props.C161_run | P C Q |
| Props.C161_single_best | P C Q |
| Props.C161_returned_refuted | P |
| Props.C162_ga_family | P C Q |
| Props.C162_default_seed | none |
| Props.C162_nsga3_pair | P C Q |
| Props.C162_niche_pair | P C Q |
| Props.C162_nsga3_tournaments | P C Q |
| Props.C162_nsga3_run_partial | P C Q |
| Props.C162_nsga3_run_refuted | P C Q |
| Props.C162_pattern_partial | P C Q |
| Props.C162_pattern_refuted | P C Q |
| Props.C162_gauss_partial | P C Q |
| Props.C162_gauss_refuted | P C Q |
| Props.C162_archive | P Q |
| Props.C162_de_control | none |
| Props.C162_model | P C Q |
| Props.C162_pattern_model | P C Q |
| Props.C162_gauss_probability | P C Q |
| Props.C163_same_run | P Q |
| Props.C163_n_eval_frozen_refuted | P Q |
| Props.C163_n_gen_run | P C Q |
| Props.C163_n_eval_never_ends_refuted | P C Q |
| Props.C163_optimum_default | P Q |
| Props.C163_evaluations_spent | P Q |
| Props.C163_tolerance_n_gen | P C Q |
| Props.C163_tolerance_n_eval_refuted | P C Q |
| Props.C163_evaluator | P Q |
| Props.C163_evaluator_population | P Q |
| Props.C163_evaluator_individual_refuted | P Q |
| Props.C163_loopwise_refuted | P C Q |
| Props.C163_setup_skipped_refuted | P C Q |
| Props.C163_phases | P Q |
| Props.C163_evaluator_run | P Q |
| Props.C164_offspring | P C Q |
| Props.C164_origin_refuted | P C Q |
| Props.C164_move | P C Q |
| Props.C164_best_move | P C Q |
| Props.C164_trap | P C Q |
| Props.C164_trap_scaled | P C Q |
| Props.C164_converged | P C Q |
| Props.C164_damping | P C Q |
| Props.C164_damping_refuted | P C Q |
| Props.C164_small_refuted | P C Q |
| Props.C164_large_refuted | P C Q |
| Props.C165_de | P C Q |
| Props.C165_pso | P C Q |
| Props.C165_pm_ok | P C Q |
| Props.C165_sampling_ok | P C Q |
| Props.C165_velocity_ok | P C Q |
| Props.C165_more_offspring_refuted | P C Q |
| Props.C165_personal_best_refuted | P C Q |
| Props.C165_de_trial | P C Q |
| Props.C165_pso_move | P C Q |
| Props.C165_pso_perturbed | P C Q |
| Props.C166_part | P C Q |
| Props.C166_stops | P C Q |
| Props.C166_single | P C Q |
| Props.C166_progress_nonneg | P C Q |
| Props.C166_large_tolerance_refuted | P C Q |
| Props.C166_symmetric_refuted | P C Q |
| Props.C167_same_partial | P C Q |
| Props.C167_df1_differs | P C Q |
| Props.C167_objectives_refuted | P C Q |
| Props.C167_bounds_partial | P C Q |
| Props.C167_bounds_refuted | P C Q |
| Props.C167_front_partial | P C Q |
| Props.C167_front_refuted | P C Q |
| Props.C167_own_front_refuted | P C Q |
| Props.C167_agree_partial | P C Q |
| Props.C168_state | P C Q |
| Props.C168_range | P C Q |
| Props.C168_front | P C Q |
| Props.C168_conv | P C Q |
| Props.C168_conf | P C Q |
| Props.C169_mw9 | P C Q |
| Props.C169_mw10 | P C Q |
| Props.C169_mw11 | P C Q |
| Props.C169_mw5 | P C Q |
| Props.C169_mw7 | P C Q |
| Props.C169_mw13 | P C Q |
