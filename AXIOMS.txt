Axioms used by each property theorem (collectAxioms, generated by tools/axioms.py).
  551 theorems: Classical.choice, Quot.sound, propext
  37 theorems: Quot.sound, propext
  17 theorems: propext
  2 theorems: (none)

Verif.Copula.C38_accepted : Classical.choice, Quot.sound, propext
Verif.Copula.C38_any_function : Classical.choice, Quot.sound, propext
Verif.Copula.C38_marginals : Classical.choice, Quot.sound, propext
Verif.Copula.C38_total : Classical.choice, Quot.sound, propext
Verif.Copula.C39_le_one : Classical.choice, Quot.sound, propext
Verif.Copula.C39_nonneg : Classical.choice, Quot.sound, propext
Verif.Copula.C82_accepted : Classical.choice, Quot.sound, propext
Verif.Copula.C82_exchanged : Classical.choice, Quot.sound, propext
Verif.Copula.C82_independent : Classical.choice, Quot.sound, propext
Verif.Copula.C82_marginals : Classical.choice, Quot.sound, propext
Verif.Copula.C82_negligible : Classical.choice, Quot.sound, propext
Verif.Copula.C82_nonneg : Classical.choice, Quot.sound, propext
Verif.Copula.C82_total : Classical.choice, Quot.sound, propext
Verif.Fit.C02_fixed_unchanged : Classical.choice, Quot.sound, propext
Verif.Fit.C02_fixed_unchanged_history : Classical.choice, Quot.sound, propext
Verif.Fit.C07_broyden_atomic_partial : Quot.sound, propext
Verif.Fit.C07_broyden_counterexample : Classical.choice, Quot.sound, propext
Verif.Fit.C07_newton_atomic : propext
Verif.Fit.C08_needs_eval_consistency_counterexample : Classical.choice, Quot.sound, propext
Verif.Fit.C08_newton_never_decreases_partial : Quot.sound, propext
Verif.Fit.C09_broyden_outcomes : Classical.choice, Quot.sound, propext
Verif.Fit.C09_budget : Quot.sound, propext
Verif.Fit.C09_newton_outcomes : Classical.choice, Quot.sound, propext
Verif.Fit.C09_returns_true_only_converged : Quot.sound, propext
Verif.Fit.C10_broyden_flag_partial : Quot.sound, propext
Verif.Fit.C10_newton_concrete_counterexample : Classical.choice, Quot.sound, propext
Verif.Fit.C10_newton_flag_counterexample : propext
Verif.Fit.C10_stale_flag_counterexample : Classical.choice, Quot.sound, propext
Verif.Fit.C11_broyden_concrete_counterexample : Classical.choice, Quot.sound, propext
Verif.Fit.C11_broyden_verbose_counterexample : Quot.sound, propext
Verif.Fit.C11_newton_verbosity_partial : Quot.sound, propext
Verif.Fit.C12_no_free_edge : Quot.sound, propext
Verif.Fit.C12_step_cut : Quot.sound, propext
Verif.Fit.C12_step_slice : Quot.sound, propext
Verif.Fit.C59_newton_hessian_partial : Quot.sound, propext
Verif.Fit.C59_newton_hessian_stale_counterexample : Classical.choice, Quot.sound, propext
Verif.Flat.C13_newton_step_residual : Classical.choice, Quot.sound, propext
Verif.Flat.C13_residual_never_grows : Classical.choice, Quot.sound, propext
Verif.Flat.C14_broyden_secant : Classical.choice, Quot.sound, propext
Verif.Flat.C15_flat_grad_layout : Classical.choice, Quot.sound, propext
Verif.Flat.C16_flat_hess_bordered_partial : Classical.choice, Quot.sound, propext
Verif.Flat.C16_repeated_parameter_counterexample : Classical.choice, Quot.sound, propext
Verif.Flat.C17_decreasing_map_counterexample : Classical.choice, Quot.sound, propext
Verif.Flat.C17_flat_grad_any_order_partial : Classical.choice, Quot.sound, propext
Verif.Flat.C18_fixed_entries_counterexample : Classical.choice, Quot.sound, propext
Verif.Flat.C18_information_criteria_partial : Classical.choice, Quot.sound, propext
Verif.Flat.C18_regularisation_counterexample : Classical.choice, Quot.sound, propext
Verif.Func.C23_arith_derivatives : Classical.choice, Quot.sound, propext
Verif.Func.C23_arith_value : Classical.choice, Quot.sound, propext
Verif.Func.C23_coefficients : Classical.choice, Quot.sound, propext
Verif.Func.C23_flat : Classical.choice, Quot.sound, propext
Verif.Func.C24_add_affine_unit_weight : Classical.choice, Quot.sound, propext
Verif.Func.C24_add_correct_iff : Classical.choice, Quot.sound, propext
Verif.Func.C24_add_exact : Classical.choice, Quot.sound, propext
Verif.Func.C24_adds_partial : Classical.choice, Quot.sound, propext
Verif.Func.C24_nested_sum_counterexample : Classical.choice, Quot.sound, propext
Verif.Func.C24_weighted_offset_counterexample : Classical.choice, Quot.sound, propext
Verif.Func.C25_eval_agrees_partial : Classical.choice, Quot.sound, propext
Verif.Func.C25_sum_eval_misses_offset : Classical.choice, Quot.sound, propext
Verif.Func.C25_sum_with_offset_counterexample : Classical.choice, Quot.sound, propext
Verif.Func.C26_composite_derivatives_partial : Classical.choice, Quot.sound, propext
Verif.Func.C26_partial_derivatives_partial : Classical.choice, Quot.sound, propext
Verif.Func.C27_decreasing_map_counterexample : Classical.choice, Quot.sound, propext
Verif.Func.C27_eval_increasing_partial : Classical.choice, Quot.sound, propext
Verif.Func.C27_eval_raises_on_decreasing_map : Classical.choice, Quot.sound, propext
Verif.Func.C27_listed_gradient_partial : Classical.choice, Quot.sound, propext
Verif.Func.C27_listed_hessian_partial : Classical.choice, Quot.sound, propext
Verif.Func.C27_repeated_index_counterexample : Classical.choice, Quot.sound, propext
Verif.Func.C27_unlisted_zero : Classical.choice, Quot.sound, propext
Verif.Func.C28_bad_map_raises : Classical.choice, Quot.sound, propext
Verif.Func.C28_product_adds : Classical.choice, Quot.sound, propext
Verif.Func.C28_product_flat : Classical.choice, Quot.sound, propext
Verif.Func.C29_ArcTan : Classical.choice, Quot.sound, propext
Verif.Func.C29_Constant : Classical.choice, Quot.sound, propext
Verif.Func.C29_Exp : Classical.choice, Quot.sound, propext
Verif.Func.C29_Linear : Classical.choice, Quot.sound, propext
Verif.Func.C29_Log : Classical.choice, Quot.sound, propext
Verif.Func.C29_Logistic : Classical.choice, Quot.sound, propext
Verif.Func.C29_Quadratic : Classical.choice, Quot.sound, propext
Verif.Func.C29_Scalar : Classical.choice, Quot.sound, propext
Verif.Func.C29_Sigmoid : Classical.choice, Quot.sound, propext
Verif.Func.C29_Vector : Classical.choice, Quot.sound, propext
Verif.Func.C29_X : Classical.choice, Quot.sound, propext
Verif.Func.C30_negbin_atom : Classical.choice, Quot.sound, propext
Verif.Func.C30_negbin_composed : Classical.choice, Quot.sound, propext
Verif.Func.C30_negbin_grad : Classical.choice, Quot.sound, propext
Verif.Func.C30_negbin_hess : Classical.choice, Quot.sound, propext
Verif.Func.C30_negbin_values : Classical.choice, Quot.sound, propext
Verif.Func.C30_poisson_atom : Classical.choice, Quot.sound, propext
Verif.Func.C30_poisson_eval : Classical.choice, Quot.sound, propext
Verif.Func.C30_poisson_grad : Classical.choice, Quot.sound, propext
Verif.Func.C30_poisson_hess : Classical.choice, Quot.sound, propext
Verif.Func.C30_poisson_lengths : Classical.choice, Quot.sound, propext
Verif.Func.C30_poisson_values : Classical.choice, Quot.sound, propext
Verif.Func.C31_game_grad : Classical.choice, Quot.sound, propext
Verif.Func.C31_game_hess : Classical.choice, Quot.sound, propext
Verif.Func.C31_set_clip_counterexample : Classical.choice, Quot.sound, propext
Verif.Func.C31_set_grad_p_partial : Classical.choice, Quot.sound, propext
Verif.Func.C31_set_grad_t_partial : Classical.choice, Quot.sound, propext
Verif.Func.C31_set_hess_pp : Classical.choice, Quot.sound, propext
Verif.Func.C31_set_hess_tp : Classical.choice, Quot.sound, propext
Verif.Func.C31_set_hess_tt : Classical.choice, Quot.sound, propext
Verif.Func.C31_tiebreak_grad : Classical.choice, Quot.sound, propext
Verif.Func.C31_tiebreak_hess : Classical.choice, Quot.sound, propext
Verif.Func.C32_game_nonneg : Classical.choice, Quot.sound, propext
Verif.Func.C32_game_total : Classical.choice, Quot.sound, propext
Verif.Func.C32_set_nonneg : Classical.choice, Quot.sound, propext
Verif.Func.C32_set_total : Classical.choice, Quot.sound, propext
Verif.Func.C32_tiebreak_nonneg : Classical.choice, Quot.sound, propext
Verif.Func.C32_tiebreak_total : Classical.choice, Quot.sound, propext
Verif.Func.C33_elementwise_partial : Classical.choice, Quot.sound, propext
Verif.Func.C33_rotated_cell : Classical.choice, Quot.sound, propext
Verif.Func.C33_symmetric_partial : Classical.choice, Quot.sound, propext
Verif.Func.C33_two_axes_counterexample : Classical.choice, Quot.sound, propext
Verif.Like.C19_finite : Classical.choice, Quot.sound, propext
Verif.Like.C19_logistic : Classical.choice, Quot.sound, propext
Verif.Like.C19_negativeBinomial : Classical.choice, Quot.sound, propext
Verif.Like.C19_normalizedFinite : Classical.choice, Quot.sound, propext
Verif.Like.C19_poisson : Classical.choice, Quot.sound, propext
Verif.Like.C19_zeroInflatedPoisson : Classical.choice, Quot.sound, propext
Verif.Like.C20_finite : Classical.choice, Quot.sound, propext
Verif.Like.C20_logistic : Classical.choice, Quot.sound, propext
Verif.Like.C20_negativeBinomial : Classical.choice, Quot.sound, propext
Verif.Like.C20_normalizedFinite : Classical.choice, Quot.sound, propext
Verif.Like.C20_poisson : Classical.choice, Quot.sound, propext
Verif.Like.C20_zeroInflatedPoisson : Classical.choice, Quot.sound, propext
Verif.Like.C21_logistic_concave : Classical.choice, Quot.sound, propext
Verif.Like.C21_negativeBinomial_concave : Classical.choice, Quot.sound, propext
Verif.Like.C21_poisson_concave : Classical.choice, Quot.sound, propext
Verif.Like.C21_zeroInflatedPoisson_concave : Classical.choice, Quot.sound, propext
Verif.Like.C22_finite_normalized : Classical.choice, Quot.sound, propext
Verif.Like.C22_finite_scale_invariant : Classical.choice, Quot.sound, propext
Verif.Markov.C34_accepted_iff : Classical.choice, Quot.sound, propext
Verif.Markov.C34_markovMatrix_distribution : Classical.choice, Quot.sound, propext
Verif.Markov.C34_markovVector_distribution : Classical.choice, Quot.sound, propext
Verif.Markov.C35_frames : Classical.choice, Quot.sound, propext
Verif.Markov.C35_matrix_is_walk : Classical.choice, Quot.sound, propext
Verif.Markov.C35_matrix_sweep_is_one_step : Classical.choice, Quot.sound, propext
Verif.Markov.C35_vector_is_walk : Classical.choice, Quot.sound, propext
Verif.Markov.C35_vector_sweep_is_one_step : Classical.choice, Quot.sound, propext
Verif.Markov.C36_eval_value : Quot.sound, propext
Verif.Markov.C36_matrix_atom_partial : Classical.choice, Quot.sound, propext
Verif.Markov.C36_matrix_curve_partial : Classical.choice, Quot.sound, propext
Verif.Markov.C36_matrix_grad_and_diagonal : Classical.choice, Quot.sound, propext
Verif.Markov.C36_matrix_mixed_counterexample : Classical.choice, Quot.sound, propext
Verif.Markov.C36_matrix_mixed_iff : Classical.choice, Quot.sound, propext
Verif.Markov.C36_matrix_repaired : Classical.choice, Quot.sound, propext
Verif.Markov.C36_vector_atom : Classical.choice, Quot.sound, propext
Verif.Markov.C36_vector_curve : Classical.choice, Quot.sound, propext
Verif.Markov.C37_custom_conditions_counterexample : Classical.choice, Quot.sound, propext
Verif.Markov.C37_default_grad : Classical.choice, Quot.sound, propext
Verif.Markov.C37_default_three_sums : Classical.choice, Quot.sound, propext
Verif.Markov.C37_default_total : Classical.choice, Quot.sound, propext
Verif.Markov.C37_grad_layout : propext
Verif.Markov.C37_grad_layout_rotated : Classical.choice, Quot.sound, propext
Verif.Markov.C37_partition_partial : Classical.choice, Quot.sound, propext
Verif.Memory.C84_data_frozen : Classical.choice, Quot.sound, propext
Verif.Memory.C84_example_careful : Classical.choice, Quot.sound, propext
Verif.Memory.C84_example_rejected : Classical.choice, Quot.sound, propext
Verif.Memory.C84_fit : Classical.choice, Quot.sound, propext
Verif.Memory.C84_get_params_read_only : Classical.choice, Quot.sound, propext
Verif.Memory.C84_mask_counterexample : Classical.choice, Quot.sound, propext
Verif.Memory.C84_methods_do_not_write : Classical.choice, Quot.sound, propext
Verif.Memory.C84_result_mask_counterexample : Classical.choice, Quot.sound, propext
Verif.Memory.C84_reused_mask_counterexample : Classical.choice, Quot.sound, propext
Verif.Memory.C84_state : Classical.choice, Quot.sound, propext
Verif.Memory.C84_values_frozen : Classical.choice, Quot.sound, propext
Verif.Memory.C84_view_counterexample : Classical.choice, Quot.sound, propext
Verif.Params.C01_flatten_rebuild : Classical.choice, Quot.sound, propext
Verif.Params.C01_rebuild_flatten : Classical.choice, Quot.sound, propext
Verif.Params.C01_short_vector_rejected : Classical.choice, Quot.sound, propext
Verif.Params.C03_layout : Classical.choice, Quot.sound, propext
Verif.Params.C04_blocks : Classical.choice, Quot.sound, propext
Verif.Params.C05_std_error_counterexample : propext
Verif.Params.C05_std_error_partial : Classical.choice, Quot.sound, propext
Verif.Params.C06_append_partial : propext
Verif.Params.C06_history_partial : propext
Verif.Params.C06_list_fixed_counterexample : propext
Verif.Params.C06_list_values_counterexample : propext
Verif.Params.C06_rejected_unchanged_partial : propext
Verif.Prep.C45_axes : Classical.choice, Quot.sound, propext
Verif.Prep.C45_cells : Classical.choice, Quot.sound, propext
Verif.Prep.C45_count : Classical.choice, Quot.sound, propext
Verif.Prep.C45_plain : Classical.choice, Quot.sound, propext
Verif.Prep.C45_total : Classical.choice, Quot.sound, propext
Verif.Prep.C46_cells_partial : Classical.choice, Quot.sound, propext
Verif.Prep.C46_name_clash_counterexample : Classical.choice, Quot.sound, propext
Verif.Prep.C47_last_columns : Classical.choice, Quot.sound, propext
Verif.Prep.C47_one_hot_partial : Classical.choice, Quot.sound, propext
Verif.Prep.C47_overflow_counterexample : Classical.choice, Quot.sound, propext
Verif.Prep.C47_size_one : Quot.sound, propext
Verif.Prep.C81_counterexample_first : Classical.choice, Quot.sound, propext
Verif.Prep.C81_dataframe_order : Classical.choice, Quot.sound, propext
Verif.Prep.C81_plain_order : Classical.choice, Quot.sound, propext
Verif.Prep.C81_repeated : Classical.choice, Quot.sound, propext
Verif.Prep.C81_series_order : Classical.choice, Quot.sound, propext
Verif.Prep.C81_split : Classical.choice, Quot.sound, propext
Verif.Prep.C81_transformations : Classical.choice, Quot.sound, propext
Verif.Protocol.C73_default_eval : propext
Verif.Protocol.C73_example : propext
Verif.Protocol.C73_grad_list : Quot.sound, propext
Verif.Protocol.C73_hess_one_index : propext
Verif.Protocol.C73_hess_triangle : Quot.sound, propext
Verif.Protocol.C73_library : Quot.sound, propext
Verif.Protocol.C73_list_is_not_one_parameter : propext
Verif.Protocol.C73_no_call : propext
Verif.Protocol.C73_not_inherited : propext
Verif.Protocol.C73_null_func : Quot.sound, propext
Verif.Protocol.C73_null_method : (none)
Verif.Protocol.C73_passed_on : propext
Verif.Protocol.C73_same_parameters : propext
Verif.Protocol.C73_stored_eval_not_wrapped : (none)
Verif.Skellam.C40_cdf_bounds : Classical.choice, Quot.sound, propext
Verif.Skellam.C40_poisson_cdf : Classical.choice, Quot.sound, propext
Verif.Skellam.C40_poisson_mid_cdf : Classical.choice, Quot.sound, propext
Verif.Skellam.C40_poisson_vector : Classical.choice, Quot.sound, propext
Verif.Skellam.C41_cdf_call : Classical.choice, Quot.sound, propext
Verif.Skellam.C41_complement : Classical.choice, Quot.sound, propext
Verif.Skellam.C41_complement_call : Classical.choice, Quot.sound, propext
Verif.Skellam.C41_derivatives : Classical.choice, Quot.sound, propext
Verif.Skellam.C41_exchanged : Classical.choice, Quot.sound, propext
Verif.Skellam.C41_pair_call : Classical.choice, Quot.sound, propext
Verif.Skellam.C41_sign_counterexample : Classical.choice, Quot.sound, propext
Verif.Skellam.C41_tables_partial : Classical.choice, Quot.sound, propext
Verif.Skellam.C41_values : Classical.choice, Quot.sound, propext
Verif.Skellam.C42_invalid_target_counterexample : Classical.choice, Quot.sound, propext
Verif.Skellam.C42_results : Classical.choice, Quot.sound, propext
Verif.Skellam.C42_returns_root_partial : Classical.choice, Quot.sound, propext
Verif.Skellam.C42_terminates : Classical.choice, Quot.sound, propext
Verif.Skellam.C43_invalid_targets : Classical.choice, Quot.sound, propext
Verif.Skellam.C43_returns_root : Classical.choice, Quot.sound, propext
Verif.Skellam.C43_terminates : Classical.choice, Quot.sound, propext
Verif.Skellam.C44_diverges_counterexample : Classical.choice, Quot.sound, propext
Verif.Skellam.C44_invalid_target : Classical.choice, Quot.sound, propext
Verif.Skellam.C44_returns_root_partial : Classical.choice, Quot.sound, propext
Verif.Skellam.C44_root_exists : Classical.choice, Quot.sound, propext
Verif.Tens.C33_test_set_hess_counterexample : Classical.choice, Quot.sound, propext
Verif.Tens.C33_test_set_partial : Classical.choice, Quot.sound, propext
Verif.Tens.C34_markovMatrix_positive : Classical.choice, Quot.sound, propext
Verif.Tens.C34_markovVector_positive : Classical.choice, Quot.sound, propext
Verif.Tens.C48_needs_diagonal_storage : Quot.sound, propext
Verif.Tens.C48_toarray : Classical.choice, Quot.sound, propext
Verif.Tens.C48_unmapped : Quot.sound, propext
Verif.Tens.C49_neg : Classical.choice, Quot.sound, propext
Verif.Tens.C49_raises_iff : Classical.choice, Quot.sound, propext
Verif.Tens.C49_rdiv_counterexample : Classical.choice, Quot.sound, propext
Verif.Tens.C49_scalar_partial : Classical.choice, Quot.sound, propext
Verif.Tens.C50_add_sub_partial : Classical.choice, Quot.sound, propext
Verif.Tens.C50_add_sub_storage : Classical.choice, Quot.sound, propext
Verif.Tens.C50_add_sub_succeeds : Classical.choice, Quot.sound, propext
Verif.Tens.C50_commutative_partial : Classical.choice, Quot.sound, propext
Verif.Tens.C50_scalar_left_counterexample : Classical.choice, Quot.sound, propext
Verif.Tens.C50_toarray_partial : Classical.choice, Quot.sound, propext
Verif.Tens.C51_commutative_partial : Classical.choice, Quot.sound, propext
Verif.Tens.C51_cross_raises : Classical.choice, Quot.sound, propext
Verif.Tens.C51_gradients_ok : Quot.sound, propext
Verif.Tens.C51_length_counterexample : Classical.choice, Quot.sound, propext
Verif.Tens.C51_mul_div_partial : Classical.choice, Quot.sound, propext
Verif.Tens.C51_mul_div_storage : Classical.choice, Quot.sound, propext
Verif.Tens.C51_mul_div_succeeds : Classical.choice, Quot.sound, propext
Verif.Tens.C51_same_maps_ok : Quot.sound, propext
Verif.Tens.C51_take_diag_counterexample : Classical.choice, Quot.sound, propext
Verif.Tens.C51_toarray_partial : Classical.choice, Quot.sound, propext
Verif.Tens.C51_value_tensor_ok : Quot.sound, propext
Verif.Tens.C51_y_map_counterexample : Classical.choice, Quot.sound, propext
Verif.Tens.C52_transpose_counterexample : Classical.choice, Quot.sound, propext
Verif.Tens.C52_transpose_partial : Classical.choice, Quot.sound, propext
Verif.Tens.C52_transpose_twice_partial : Classical.choice, Quot.sound, propext
Verif.Tens.C53_expand_dim : Classical.choice, Quot.sound, propext
Verif.Tens.C53_expand_values : Classical.choice, Quot.sound, propext
Verif.Tens.C53_raises_iff : Classical.choice, Quot.sound, propext
Verif.Tens.C54_flip : Classical.choice, Quot.sound, propext
Verif.Tens.C54_flip_twice : Classical.choice, Quot.sound, propext
Verif.Tens.C54_refuses_mapped : Quot.sound, propext
Verif.Tens.C55_remaining_map_counterexample : Classical.choice, Quot.sound, propext
Verif.Tens.C55_repeated_axis_raises : Classical.choice, Quot.sound, propext
Verif.Tens.C55_same_axis_counterexample : Classical.choice, Quot.sound, propext
Verif.Tens.C55_sum_all_partial : Classical.choice, Quot.sound, propext
Verif.Tens.C55_sum_axes_partial : Classical.choice, Quot.sound, propext
Verif.Tens.C55_sum_dim : Classical.choice, Quot.sound, propext
Verif.Tens.C55_sum_nothing_drops_dim : Classical.choice, Quot.sound, propext
Verif.Tens.C56_dot_left_map_raises : Classical.choice, Quot.sound, propext
Verif.Tens.C56_dot_left_partial : Classical.choice, Quot.sound, propext
Verif.Tens.C56_dot_left_transposed_partial : Classical.choice, Quot.sound, propext
Verif.Tens.C56_dot_matrix_partial : Classical.choice, Quot.sound, propext
Verif.Tens.C56_dot_refused : Classical.choice, Quot.sound, propext
Verif.Tens.C56_dot_right_asserts : Classical.choice, Quot.sound, propext
Verif.Tens.C56_dot_right_map_raises : Classical.choice, Quot.sound, propext
Verif.Tens.C56_dot_right_partial : Classical.choice, Quot.sound, propext
Verif.Tens.C56_dot_right_zero : Classical.choice, Quot.sound, propext
Verif.Tens.C56_dot_vector_partial : Classical.choice, Quot.sound, propext
Verif.Tens.C56_dot_zero : Classical.choice, Quot.sound, propext
Verif.Tens.C56_same_axis_counterexample : Classical.choice, Quot.sound, propext
Verif.Tens.C56_unmapped_axis_counterexample : Classical.choice, Quot.sound, propext
Verif.Tens.C56_unmapped_y_counterexample : Classical.choice, Quot.sound, propext
Verif.Tens.C57_add_sub_partial : Classical.choice, Quot.sound, propext
Verif.Tens.C57_add_sub_storage : Classical.choice, Quot.sound, propext
Verif.Tens.C57_add_sub_succeeds : Classical.choice, Quot.sound, propext
Verif.Tens.C57_array_finding : Classical.choice, Quot.sound, propext
Verif.Tens.C57_division_raises : Quot.sound, propext
Verif.Tens.C57_expressions : Classical.choice, Quot.sound, propext
Verif.Tens.C57_generic_add_sub : Classical.choice, Quot.sound, propext
Verif.Tens.C57_generic_mul_partial : Classical.choice, Quot.sound, propext
Verif.Tens.C57_mul_div_partial : Classical.choice, Quot.sound, propext
Verif.Tens.C57_mul_div_value : Classical.choice, Quot.sound, propext
Verif.Tens.C57_neg : Quot.sound, propext
Verif.Tens.C57_tensor_generic_partial : Classical.choice, Quot.sound, propext
Verif.Tens.C58_broadcast_diagonal_counterexample : Classical.choice, Quot.sound, propext
Verif.Tens.C58_layout_counterexample : Classical.choice, Quot.sound, propext
Verif.Tens.C58_sum_all_partial : Classical.choice, Quot.sound, propext
Verif.Tens.C58_sum_axis_zero : Classical.choice, Quot.sound, propext
Verif.Tens.C58_sum_dim : Classical.choice, Quot.sound, propext
Verif.Tens.C58_sum_list_keeps_axes : Classical.choice, Quot.sound, propext
Verif.Tens.C58_sum_missing_axis_counterexample : Classical.choice, Quot.sound, propext
Verif.Tens.C58_sum_raises : Classical.choice, Quot.sound, propext
Verif.Tens.C58_sum_raises_example : Classical.choice, Quot.sound, propext
Verif.Tens.C58_toarray_partial : Classical.choice, Quot.sound, propext
Verif.Tens.C60_drop_dim : Classical.choice, Quot.sound, propext
Verif.Tens.C60_drop_dim_toarray : Quot.sound, propext
Verif.Tens.C61_drop_dim : Classical.choice, Quot.sound, propext
Verif.Tens.C61_drop_dim_counterexample : Classical.choice, Quot.sound, propext
Verif.Tens.C61_expand_dim : Classical.choice, Quot.sound, propext
Verif.Tens.C61_expand_values : Classical.choice, Quot.sound, propext
Verif.Tens.C61_flip : Classical.choice, Quot.sound, propext
Verif.Tens.C61_flip_refuses_mapped : Quot.sound, propext
Verif.Tens.C61_transpose_partial : Classical.choice, Quot.sound, propext
Verif.Tens.C62_grad_diagonal : Classical.choice, Quot.sound, propext
Verif.Tens.C62_grad_raises_iff : Quot.sound, propext
Verif.Tens.C62_grad_tensor : Quot.sound, propext
Verif.Tens.C62_hess_tensor : Quot.sound, propext
Verif.Tens.C62_map_out_of_range : Quot.sound, propext
Verif.Tens.C63_finite_derivatives_partial : Classical.choice, Quot.sound, propext
Verif.Tens.C63_finite_grad : Classical.choice, Quot.sound, propext
Verif.Tens.C63_finite_grad_broadcast : Classical.choice, Quot.sound, propext
Verif.Tens.C63_finite_hess : Classical.choice, Quot.sound, propext
Verif.Tens.C63_finite_like : Classical.choice, Quot.sound, propext
Verif.Tens.C63_finite_like_broadcast : Classical.choice, Quot.sound, propext
Verif.Tens.C63_logistic_derivatives : Classical.choice, Quot.sound, propext
Verif.Tens.C63_logistic_grad : Classical.choice, Quot.sound, propext
Verif.Tens.C63_logistic_hess : Classical.choice, Quot.sound, propext
Verif.Tens.C63_logistic_like : Classical.choice, Quot.sound, propext
Verif.Tens.C63_negativeBinomial_derivatives : Classical.choice, Quot.sound, propext
Verif.Tens.C63_negativeBinomial_grad : Classical.choice, Quot.sound, propext
Verif.Tens.C63_negativeBinomial_hess : Classical.choice, Quot.sound, propext
Verif.Tens.C63_negativeBinomial_like : Classical.choice, Quot.sound, propext
Verif.Tens.C63_normalizedFinite_derivatives : Classical.choice, Quot.sound, propext
Verif.Tens.C63_normalizedFinite_grad : Classical.choice, Quot.sound, propext
Verif.Tens.C63_normalizedFinite_hess : Classical.choice, Quot.sound, propext
Verif.Tens.C63_normalizedFinite_like : Classical.choice, Quot.sound, propext
Verif.Tens.C63_poisson_derivatives : Classical.choice, Quot.sound, propext
Verif.Tens.C63_poisson_grad : Classical.choice, Quot.sound, propext
Verif.Tens.C63_poisson_hess : Classical.choice, Quot.sound, propext
Verif.Tens.C63_poisson_like : Classical.choice, Quot.sound, propext
Verif.Tens.C63_zeroInflatedPoisson_derivatives : Classical.choice, Quot.sound, propext
Verif.Tens.C63_zeroInflatedPoisson_grad : Classical.choice, Quot.sound, propext
Verif.Tens.C63_zeroInflatedPoisson_hess : Classical.choice, Quot.sound, propext
Verif.Tens.C63_zeroInflatedPoisson_like : Classical.choice, Quot.sound, propext
Verif.Tens.C64_ArcTan : Classical.choice, Quot.sound, propext
Verif.Tens.C64_Constant : Classical.choice, Quot.sound, propext
Verif.Tens.C64_Exp : Classical.choice, Quot.sound, propext
Verif.Tens.C64_Log : Classical.choice, Quot.sound, propext
Verif.Tens.C64_LogNegativeBinomial : Classical.choice, Quot.sound, propext
Verif.Tens.C64_Logistic : Classical.choice, Quot.sound, propext
Verif.Tens.C64_Poisson : Classical.choice, Quot.sound, propext
Verif.Tens.C64_Scalar : Classical.choice, Quot.sound, propext
Verif.Tens.C64_Vector : Classical.choice, Quot.sound, propext
Verif.Tens.C64_X : Classical.choice, Quot.sound, propext
Verif.Tens.C64_add_affine_sum : Classical.choice, Quot.sound, propext
Verif.Tens.C64_add_sum : Classical.choice, Quot.sound, propext
Verif.Tens.C64_affine : Classical.choice, Quot.sound, propext
Verif.Tens.C64_collapse_broadcast_counterexample : Classical.choice, Quot.sound, propext
Verif.Tens.C64_collapse_partial : Classical.choice, Quot.sound, propext
Verif.Tens.C64_example_centered : Classical.choice, Quot.sound, propext
Verif.Tens.C64_example_normalizedFinite : Classical.choice, Quot.sound, propext
Verif.Tens.C64_example_poisson : Classical.choice, Quot.sound, propext
Verif.Tens.C64_fit_finite : Classical.choice, Quot.sound, propext
Verif.Tens.C64_fit_logistic : Classical.choice, Quot.sound, propext
Verif.Tens.C64_fit_negativeBinomial : Classical.choice, Quot.sound, propext
Verif.Tens.C64_fit_normalizedFinite : Classical.choice, Quot.sound, propext
Verif.Tens.C64_fit_poisson : Classical.choice, Quot.sound, propext
Verif.Tens.C64_fit_zeroInflatedPoisson : Classical.choice, Quot.sound, propext
Verif.Tens.C64_flip_call_partial : Classical.choice, Quot.sound, propext
Verif.Tens.C64_flip_counterexample : Classical.choice, Quot.sound, propext
Verif.Tens.C64_flip_eval_counterexample : Classical.choice, Quot.sound, propext
Verif.Tens.C64_flip_grad : Classical.choice, Quot.sound, propext
Verif.Tens.C64_sum_partial : Classical.choice, Quot.sound, propext
Verif.Tens.C64_swallowed_error_counterexample : Classical.choice, Quot.sound, propext
Verif.Tens.C64_wrap_partial : Classical.choice, Quot.sound, propext
Verif.Tens.C65_ArcTan : Classical.choice, Quot.sound, propext
Verif.Tens.C65_CollapseMatrix_acts_partial : Classical.choice, Quot.sound, propext
Verif.Tens.C65_CollapseMatrix_partial : Classical.choice, Quot.sound, propext
Verif.Tens.C65_Collapse_partial : Classical.choice, Quot.sound, propext
Verif.Tens.C65_Exp : Classical.choice, Quot.sound, propext
Verif.Tens.C65_Game_partial : Classical.choice, Quot.sound, propext
Verif.Tens.C65_Log : Classical.choice, Quot.sound, propext
Verif.Tens.C65_LogNegativeBinomial : Classical.choice, Quot.sound, propext
Verif.Tens.C65_Logistic : Classical.choice, Quot.sound, propext
Verif.Tens.C65_MarkovMatrix_partial : Classical.choice, Quot.sound, propext
Verif.Tens.C65_MarkovVector : Classical.choice, Quot.sound, propext
Verif.Tens.C65_NegativeBinomial : Classical.choice, Quot.sound, propext
Verif.Tens.C65_Poisson : Classical.choice, Quot.sound, propext
Verif.Tens.C65_Set_partial : Classical.choice, Quot.sound, propext
Verif.Tens.C65_TieBreak_partial : Classical.choice, Quot.sound, propext
Verif.Tens.C65_compose_acts_partial : Classical.choice, Quot.sound, propext
Verif.Tens.C65_compose_partial : Classical.choice, Quot.sound, propext
Verif.Tens.C65_equal_features : Classical.choice, Quot.sound, propext
Verif.Tens.C65_example_finite : Classical.choice, Quot.sound, propext
Verif.Tens.C65_example_kullback_leibler : Classical.choice, Quot.sound, propext
Verif.Tens.C65_example_markov_kullback_leibler : Classical.choice, Quot.sound, propext
Verif.Tens.C65_example_markov_matrix : Classical.choice, Quot.sound, propext
Verif.Tens.C65_example_markov_vector : Classical.choice, Quot.sound, propext
Verif.Tens.C65_example_negativeBinomial : Classical.choice, Quot.sound, propext
Verif.Tens.C65_example_poisson_sum : Classical.choice, Quot.sound, propext
Verif.Tens.C65_example_set_finite : Classical.choice, Quot.sound, propext
Verif.Tens.C65_example_set_normalized : Classical.choice, Quot.sound, propext
Verif.Tens.C65_linear_outer_counterexample : Classical.choice, Quot.sound, propext
Verif.Tens.C65_matrix_parameter_counterexample : Classical.choice, Quot.sound, propext
Verif.Tens.C65_separate_counterexample : Classical.choice, Quot.sound, propext
Verif.Tens.C65_set_chain_partial : Classical.choice, Quot.sound, propext
Verif.Tens.C65_three_features_counterexample : Classical.choice, Quot.sound, propext
Verif.Tens.C65_vector_counterexample : Classical.choice, Quot.sound, propext
Verif.Tens.C66_example_matrix : Classical.choice, Quot.sound, propext
Verif.Tens.C66_example_poisson3 : Classical.choice, Quot.sound, propext
Verif.Tens.C66_product : Classical.choice, Quot.sound, propext
Verif.Tens.C67_affine_constraint : Classical.choice, Quot.sound, propext
Verif.Tens.C67_affine_penalty : Classical.choice, Quot.sound, propext
Verif.Tens.C67_collapse_broadcast_counterexample : Classical.choice, Quot.sound, propext
Verif.Tens.C67_collapse_constraint : Classical.choice, Quot.sound, propext
Verif.Tens.C67_collapse_penalty : Classical.choice, Quot.sound, propext
Verif.Tens.C67_decreasing_counterexample : Classical.choice, Quot.sound, propext
Verif.Tens.C67_example_exponentials : Classical.choice, Quot.sound, propext
Verif.Tens.C67_example_poisson_sum : Classical.choice, Quot.sound, propext
Verif.Tens.C67_flat : Classical.choice, Quot.sound, propext
Verif.Tens.C67_flat_partial : Classical.choice, Quot.sound, propext
Verif.Tens.C67_linear : Classical.choice, Quot.sound, propext
Verif.Tens.C67_linear_penalty_counterexample : Classical.choice, Quot.sound, propext
Verif.Tens.C67_linear_value : Classical.choice, Quot.sound, propext
Verif.Tens.C67_quadratic : Classical.choice, Quot.sound, propext
Verif.Tens.C67_quadratic_constraint : Classical.choice, Quot.sound, propext
Verif.Tens.C67_quadratic_strength : Classical.choice, Quot.sound, propext
Verif.Tens.C67_repeated_counterexample : Classical.choice, Quot.sound, propext
Verif.Tens.C67_scalar_constraint : Classical.choice, Quot.sound, propext
Verif.Tens.C67_shifted_scalar_counterexample : Classical.choice, Quot.sound, propext
Verif.Tens.C67_unused_penalty_counterexample : Classical.choice, Quot.sound, propext
Verif.Tens.C67_whole_finite : Classical.choice, Quot.sound, propext
Verif.Tens.C67_whole_logistic : Classical.choice, Quot.sound, propext
Verif.Tens.C67_whole_negativeBinomial : Classical.choice, Quot.sound, propext
Verif.Tens.C67_whole_normalizedFinite : Classical.choice, Quot.sound, propext
Verif.Tens.C67_whole_poisson : Classical.choice, Quot.sound, propext
Verif.Tens.C67_whole_zeroInflatedPoisson : Classical.choice, Quot.sound, propext
Verif.Tens.C68_affine_constraints : Classical.choice, Quot.sound, propext
Verif.Tens.C68_constraints : Classical.choice, Quot.sound, propext
Verif.Tens.C68_decreasing_counterexample : Classical.choice, Quot.sound, propext
Verif.Tens.C68_example : Classical.choice, Quot.sound, propext
Verif.Tens.C68_example_centered : Classical.choice, Quot.sound, propext
Verif.Tens.C68_example_finite : Classical.choice, Quot.sound, propext
Verif.Tens.C68_example_finiteNegativeBinomial : Classical.choice, Quot.sound, propext
Verif.Tens.C68_example_fit : Classical.choice, Quot.sound, propext
Verif.Tens.C68_example_kullback_leibler : Classical.choice, Quot.sound, propext
Verif.Tens.C68_example_logistic : Classical.choice, Quot.sound, propext
Verif.Tens.C68_example_logistic_cross : Classical.choice, Quot.sound, propext
Verif.Tens.C68_example_markov_kullback_leibler : Classical.choice, Quot.sound, propext
Verif.Tens.C68_example_markov_matrix : Classical.choice, Quot.sound, propext
Verif.Tens.C68_example_markov_vector : Classical.choice, Quot.sound, propext
Verif.Tens.C68_example_negativeBinomial : Classical.choice, Quot.sound, propext
Verif.Tens.C68_example_poisson : Classical.choice, Quot.sound, propext
Verif.Tens.C68_example_poisson2 : Classical.choice, Quot.sound, propext
Verif.Tens.C68_example_poisson3 : Classical.choice, Quot.sound, propext
Verif.Tens.C68_example_poisson_matrix : Classical.choice, Quot.sound, propext
Verif.Tens.C68_example_poisson_reg : Classical.choice, Quot.sound, propext
Verif.Tens.C68_example_set : Classical.choice, Quot.sound, propext
Verif.Tens.C68_example_unused : Classical.choice, Quot.sound, propext
Verif.Tens.C68_example_value : Classical.choice, Quot.sound, propext
Verif.Tens.C68_example_zeroInflatedPoisson : Classical.choice, Quot.sound, propext
Verif.Tens.C68_kept_only : Classical.choice, Quot.sound, propext
Verif.Tens.C68_linear_value_affine : Classical.choice, Quot.sound, propext
Verif.Tens.C68_never_decreases : Classical.choice, Quot.sound, propext
Verif.Tens.C68_newton_step : Classical.choice, Quot.sound, propext
Verif.Tens.C68_objective : Classical.choice, Quot.sound, propext
Verif.Tens.C68_optimum_kept : Classical.choice, Quot.sound, propext
Verif.Tens.C68_outcomes : Classical.choice, Quot.sound, propext
Verif.Tens.C68_solver_finite : Classical.choice, Quot.sound, propext
Verif.Tens.C68_solver_logistic : Classical.choice, Quot.sound, propext
Verif.Tens.C68_solver_negativeBinomial : Classical.choice, Quot.sound, propext
Verif.Tens.C68_solver_normalizedFinite : Classical.choice, Quot.sound, propext
Verif.Tens.C68_solver_poisson : Classical.choice, Quot.sound, propext
Verif.Tens.C68_solver_zeroInflatedPoisson : Classical.choice, Quot.sound, propext
Verif.Tens.C68_step_zero_iff : Classical.choice, Quot.sound, propext
Verif.Tens.C68_unused_finite : Classical.choice, Quot.sound, propext
Verif.Tens.C68_unused_logistic : Classical.choice, Quot.sound, propext
Verif.Tens.C68_unused_negativeBinomial : Classical.choice, Quot.sound, propext
Verif.Tens.C68_unused_normalizedFinite : Classical.choice, Quot.sound, propext
Verif.Tens.C68_unused_poisson : Classical.choice, Quot.sound, propext
Verif.Tens.C68_unused_zeroInflatedPoisson : Classical.choice, Quot.sound, propext
Verif.Tens.C69_after_fit : Classical.choice, Quot.sound, propext
Verif.Tens.C69_criteria : Classical.choice, Quot.sound, propext
Verif.Tens.C69_example_smooth : Classical.choice, Quot.sound, propext
Verif.Tens.C69_smooth : Classical.choice, Quot.sound, propext
Verif.Tens.C69_smooth_finite : Classical.choice, Quot.sound, propext
Verif.Tens.C69_smooth_logistic : Classical.choice, Quot.sound, propext
Verif.Tens.C69_smooth_negativeBinomial : Classical.choice, Quot.sound, propext
Verif.Tens.C69_smooth_normalizedFinite : Classical.choice, Quot.sound, propext
Verif.Tens.C69_smooth_poisson : Classical.choice, Quot.sound, propext
Verif.Tens.C69_smooth_zeroInflatedPoisson : Classical.choice, Quot.sound, propext
Verif.Tens.C69_step_exists : Classical.choice, Quot.sound, propext
Verif.Tens.C69_symmetric : Classical.choice, Quot.sound, propext
Verif.Tens.C70_errors : Classical.choice, Quot.sound, propext
Verif.Tens.C70_example_fit : Classical.choice, Quot.sound, propext
Verif.Tens.C70_example_logistic : Classical.choice, Quot.sound, propext
Verif.Tens.C70_example_negativeBinomial : Classical.choice, Quot.sound, propext
Verif.Tens.C70_example_poisson : Classical.choice, Quot.sound, propext
Verif.Tens.C70_example_poisson_reg : Classical.choice, Quot.sound, propext
Verif.Tens.C70_global_maximum : Classical.choice, Quot.sound, propext
Verif.Tens.C70_logistic : Classical.choice, Quot.sound, propext
Verif.Tens.C70_negativeBinomial : Classical.choice, Quot.sound, propext
Verif.Tens.C70_never_singular : Classical.choice, Quot.sound, propext
Verif.Tens.C70_poisson : Classical.choice, Quot.sound, propext
Verif.Tens.C70_zeroInflatedPoisson : Classical.choice, Quot.sound, propext
Verif.Tens.C71_concave_maximum_kept : Classical.choice, Quot.sound, propext
Verif.Tens.C71_decreases_counterexample : Classical.choice, Quot.sound, propext
Verif.Tens.C71_example : Classical.choice, Quot.sound, propext
Verif.Tens.C71_example_broyden : Classical.choice, Quot.sound, propext
Verif.Tens.C71_first_step : Classical.choice, Quot.sound, propext
Verif.Tens.C71_optimum_kept : Classical.choice, Quot.sound, propext
Verif.Tens.C71_reuse : Classical.choice, Quot.sound, propext
Verif.Tens.C71_run : Classical.choice, Quot.sound, propext
Verif.Tens.C71_stored_hessian_counterexample : Classical.choice, Quot.sound, propext
Verif.Tens.C72_add_sub : Classical.choice, Quot.sound, propext
Verif.Tens.C72_extremum_array : Quot.sound, propext
Verif.Tens.C72_extremum_number : Quot.sound, propext
Verif.Tens.C72_extremum_recursion : Quot.sound, propext
Verif.Tens.C72_left : Classical.choice, Quot.sound, propext
Verif.Tens.C72_mul_values : Classical.choice, Quot.sound, propext
Verif.Tens.C72_np_left : Classical.choice, Quot.sound, propext
Verif.Tens.C72_np_left_counterexample : Classical.choice, Quot.sound, propext
Verif.Tens.C72_np_right : Quot.sound, propext
Verif.Tens.C72_pow : Classical.choice, Quot.sound, propext
Verif.Tens.C72_pow_zero_counterexample : Classical.choice, Quot.sound, propext
Verif.Tens.C72_right : Classical.choice, Quot.sound, propext
Verif.Tens.C72_unary : Quot.sound, propext
Verif.Tens.C72_unary_refused : Quot.sound, propext
Verif.Tens.C74_example : Classical.choice, Quot.sound, propext
Verif.Tens.C74_failed_fit_counterexample : Classical.choice, Quot.sound, propext
Verif.Tens.C74_fit : Classical.choice, Quot.sound, propext
Verif.Tens.C74_get_params : Classical.choice, Quot.sound, propext
Verif.Tens.C74_history : Classical.choice, Quot.sound, propext
Verif.Tens.C74_problem : Classical.choice, Quot.sound, propext
Verif.Tens.C74_refits : Classical.choice, Quot.sound, propext
Verif.Tens.C75_aggregate : Classical.choice, Quot.sound, propext
Verif.Tens.C75_dataframe : Classical.choice, Quot.sound, propext
Verif.Tens.C75_example : Classical.choice, Quot.sound, propext
Verif.Tens.C75_observations : Classical.choice, Quot.sound, propext
Verif.Tens.C75_probabilities : Classical.choice, Quot.sound, propext
Verif.Tens.C75_series : Classical.choice, Quot.sound, propext
Verif.Tens.C75_weighted_series : Classical.choice, Quot.sound, propext
Verif.Tens.C76_concave : Classical.choice, Quot.sound, propext
Verif.Tens.C76_estimate : Classical.choice, Quot.sound, propext
Verif.Tens.C76_example : Classical.choice, Quot.sound, propext
Verif.Tens.C76_never_singular : Classical.choice, Quot.sound, propext
Verif.Tens.C77_before : Classical.choice, Quot.sound, propext
Verif.Tens.C77_compare : Classical.choice, Quot.sound, propext
Verif.Tens.C77_constant : Classical.choice, Quot.sound, propext
Verif.Tens.C77_criteria : Classical.choice, Quot.sound, propext
Verif.Tens.C77_errors : Classical.choice, Quot.sound, propext
Verif.Tens.C77_raised : Classical.choice, Quot.sound, propext
Verif.Tens.C77_test_program : Classical.choice, Quot.sound, propext
Verif.Tens.C78_converges : Classical.choice, Quot.sound, propext
Verif.Tens.C78_ends : Classical.choice, Quot.sound, propext
Verif.Tens.C78_example_ends : Classical.choice, Quot.sound, propext
Verif.Tens.C78_example_infeasible : Classical.choice, Quot.sound, propext
Verif.Tens.C78_example_plain : Classical.choice, Quot.sound, propext
Verif.Tens.C78_far_start : Classical.choice, Quot.sound, propext
Verif.Tens.C78_infeasible : Classical.choice, Quot.sound, propext
Verif.Tens.C78_regular : Classical.choice, Quot.sound, propext
Verif.Tens.C78_steps : Classical.choice, Quot.sound, propext
Verif.Tens.C79_errors : Classical.choice, Quot.sound, propext
Verif.Tens.C79_example_expressions : Classical.choice, Quot.sound, propext
Verif.Tens.C79_example_transposed : Classical.choice, Quot.sound, propext
Verif.Tens.C79_fit : Classical.choice, Quot.sound, propext
Verif.Tens.C80_errors : Classical.choice, Quot.sound, propext
Verif.Tens.C80_example_logistic : Classical.choice, Quot.sound, propext
Verif.Tens.C80_example_poisson : Classical.choice, Quot.sound, propext
Verif.Tens.C80_example_repeated : Classical.choice, Quot.sound, propext
Verif.Tens.C80_finite : Classical.choice, Quot.sound, propext
Verif.Tens.C80_fit : Classical.choice, Quot.sound, propext
Verif.Tens.C80_logistic : Classical.choice, Quot.sound, propext
Verif.Tens.C80_negativeBinomial : Classical.choice, Quot.sound, propext
Verif.Tens.C80_normalizedFinite : Classical.choice, Quot.sound, propext
Verif.Tens.C80_path : Classical.choice, Quot.sound, propext
Verif.Tens.C80_poisson : Classical.choice, Quot.sound, propext
Verif.Tens.C80_repeated_rows : Classical.choice, Quot.sound, propext
Verif.Tens.C80_session : Classical.choice, Quot.sound, propext
Verif.Tens.C80_zeroInflatedPoisson : Classical.choice, Quot.sound, propext
Verif.Tens.C83_errors : Classical.choice, Quot.sound, propext
Verif.Tens.C83_example_logistic : Classical.choice, Quot.sound, propext
Verif.Tens.C83_example_poisson : Classical.choice, Quot.sound, propext
Verif.Tens.C83_example_start : Classical.choice, Quot.sound, propext
Verif.Tens.C83_fit : Classical.choice, Quot.sound, propext
Verif.Tens.C85_errors : Classical.choice, Quot.sound, propext
Verif.Tens.C85_example_poisson : Classical.choice, Quot.sound, propext
Verif.Tens.C85_fit : Classical.choice, Quot.sound, propext
Verif.Tens.C86_example : Classical.choice, Quot.sound, propext
Verif.Tens.C86_example_poisson : Classical.choice, Quot.sound, propext
Verif.Tens.C86_logistic : Classical.choice, Quot.sound, propext
Verif.Tens.C86_mean : Classical.choice, Quot.sound, propext
Verif.Tens.C86_poisson : Classical.choice, Quot.sound, propext
Verif.Tens.C86_score : Classical.choice, Quot.sound, propext
