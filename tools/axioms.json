{
"Laplax.Props.C01_flatten_unflatten": [
"Classical.choice",
"Quot.sound",
"propext"
],
"Laplax.Props.C01_unflatten_flatten": [
"Classical.choice",
"Quot.sound",
"propext"
],
"Laplax.Props.C01_wrong_length_raises": [
"Classical.choice",
"Quot.sound",
"propext"
],
"Laplax.Props.C02_full_flatten": [
"Quot.sound",
"propext"
],
"Laplax.Props.C03_partial_roundtrip": [
"Classical.choice",
"Quot.sound",
"propext"
],
"Laplax.Props.C03_partial_roundtrip_inv": [
"Classical.choice",
"Quot.sound",
"propext"
],
"Laplax.Props.C03_unravel_any_axis": [
"Classical.choice",
"Quot.sound",
"propext"
],
"Laplax.Props.C03_unravel_rows": [
"Classical.choice",
"Quot.sound",
"propext"
],
"Laplax.Props.C03_unravel_scalar_raises": [
"propext"
],
"Laplax.Props.C04_flatten_function": [
"Classical.choice",
"Quot.sound",
"propext"
],
"Laplax.Props.C04_last_argument_negative": [
"Quot.sound",
"propext"
],
"Laplax.Props.C04_wrap_factory": [
"Quot.sound",
"propext"
],
"Laplax.Props.C04_wrap_function": [
"Quot.sound",
"propext"
],
"Laplax.Props.C04_wrap_function_out_of_range": [
"Quot.sound",
"propext"
],
"Laplax.Props.C04_wrap_twice": [
"Quot.sound",
"propext"
],
"Laplax.Props.C05_constants": [
"Quot.sound",
"propext"
],
"Laplax.Props.C05_structure_mismatch_raises": [
"Quot.sound",
"propext"
],
"Laplax.Props.C05_tree_arithmetic": [
"Classical.choice",
"Quot.sound",
"propext"
],
"Laplax.Props.C06_basis_vector": [
"Classical.choice",
"Quot.sound",
"propext"
],
"Laplax.Props.C06_negative_index": [
"Classical.choice",
"Quot.sound",
"propext"
],
"Laplax.Props.C06_tree_vec_get": [
"Quot.sound",
"propext"
],
"Laplax.Props.C06_tree_vec_get_clamps": [
"Quot.sound",
"propext"
],
"Laplax.Props.C07_eye_like_agree": [
"Classical.choice",
"Quot.sound",
"propext"
],
"Laplax.Props.C07_eye_like_no_leaves": [
"Quot.sound",
"propext"
],
"Laplax.Props.C07_eye_like_slices": [
"Classical.choice",
"Quot.sound",
"propext"
],
"Laplax.Props.C08_to_dense_int_columns": [
"Classical.choice",
"Quot.sound",
"propext"
],
"Laplax.Props.C08_to_dense_int_tree_valued": [
"Classical.choice",
"Quot.sound",
"propext"
],
"Laplax.Props.C08_to_dense_linear": [
"Classical.choice",
"Quot.sound",
"propext"
],
"Laplax.Props.C08_to_dense_none_raises": [
"Quot.sound",
"propext"
],
"Laplax.Props.C08_to_dense_tree_columns": [
"Classical.choice",
"Quot.sound",
"propext"
],
"Laplax.Props.C08_to_dense_tree_valued": [
"Classical.choice",
"Quot.sound",
"propext"
],
"Laplax.Props.C09_diagonal_eq_diag_of_dense": [
"Classical.choice",
"Quot.sound",
"propext"
],
"Laplax.Props.C09_diagonal_int": [
"Quot.sound",
"propext"
],
"Laplax.Props.C09_diagonal_no_layout": [
"propext"
],
"Laplax.Props.C09_diagonal_tree": [
"Classical.choice",
"Quot.sound",
"propext"
],
"Laplax.Props.C10_axis_out_of_range": [
"Quot.sound",
"propext"
],
"Laplax.Props.C10_axis_zero": [
"Classical.choice",
"Quot.sound",
"propext"
],
"Laplax.Props.C10_online_mean_scalar": [
"Quot.sound",
"propext"
],
"Laplax.Props.C10_partition_invariance": [
"Quot.sound",
"propext"
],
"Laplax.Props.C10_pytree": [
"Classical.choice",
"Quot.sound",
"propext"
],
"Laplax.Props.C10_reduce_add": [
"Quot.sound",
"propext"
],
"Laplax.Props.C10_reduce_add_partition": [
"Quot.sound",
"propext"
],
"Laplax.Props.C10_reduce_concat": [
"Quot.sound",
"propext"
],
"Laplax.Props.C10_reduce_concat_axis": [
"Classical.choice",
"Quot.sound",
"propext"
],
"Laplax.Props.C10_reduce_online_mean": [
"Quot.sound",
"propext"
],
"Laplax.Props.C10_reduce_sum": [
"Quot.sound",
"propext"
],
"Laplax.Props.C10_reduce_sum_axis": [
"Classical.choice",
"Quot.sound",
"propext"
],
"Laplax.Props.C11_empty_raises": [
"Quot.sound"
],
"Laplax.Props.C11_entry_points_visit_in_order": [
"propext"
],
"Laplax.Props.C11_error_propagates": [
"Quot.sound",
"propext"
],
"Laplax.Props.C11_second_pass": [],
"Laplax.Props.C11_visits_in_order": [
"propext"
],
"Laplax.Props.C12_call_is_summed_operator": [
"Classical.choice",
"Quot.sound",
"propext"
],
"Laplax.Props.C12_default_reduce_collapses": [
"Quot.sound",
"propext"
],
"Laplax.Props.C12_diagonal": [
"Classical.choice",
"Quot.sound",
"propext"
],
"Laplax.Props.C12_to_dense": [
"Classical.choice",
"Quot.sound",
"propext"
],
"Laplax.Props.C12_wrap": [],
"Laplax.Props.C13_beyond_the_list": [
"Classical.choice",
"Quot.sound",
"propext"
],
"Laplax.Props.C13_errors": [
"Quot.sound",
"propext"
],
"Laplax.Props.C13_precompute": [
"Quot.sound",
"propext"
],
"Laplax.Props.C14_binary_cross_entropy": [
"Classical.choice",
"Quot.sound",
"propext"
],
"Laplax.Props.C14_cross_entropy": [
"Classical.choice",
"Quot.sound",
"propext"
],
"Laplax.Props.C14_cross_entropy_soft_targets": [
"Classical.choice",
"Quot.sound",
"propext"
],
"Laplax.Props.C14_custom": [
"Classical.choice",
"Quot.sound",
"propext"
],
"Laplax.Props.C14_mse": [
"Classical.choice",
"Quot.sound",
"propext"
],
"Laplax.Props.C14_named_loss_psd": [
"Classical.choice",
"Quot.sound",
"propext"
],
"Laplax.Props.C15_create_ggn_mv_psd": [
"Classical.choice",
"Quot.sound",
"propext"
],
"Laplax.Props.C15_ggn_additive": [
"Classical.choice",
"Quot.sound",
"propext"
],
"Laplax.Props.C15_ggn_formula": [
"Classical.choice",
"Quot.sound",
"propext"
],
"Laplax.Props.C15_ggn_formula_no_vmap": [
"Classical.choice",
"Quot.sound",
"propext"
],
"Laplax.Props.C15_ggn_permutation": [
"Classical.choice",
"Quot.sound",
"propext"
],
"Laplax.Props.C15_ggn_psd": [
"Classical.choice",
"Quot.sound",
"propext"
],
"Laplax.Props.C16_binary_cross_entropy": [
"Classical.choice",
"Quot.sound",
"propext"
],
"Laplax.Props.C16_cross_entropy": [
"Classical.choice",
"Quot.sound",
"propext"
],
"Laplax.Props.C16_mse": [
"Classical.choice",
"Quot.sound",
"propext"
],
"Laplax.Props.C17_create_ggn_mv": [
"Classical.choice",
"Quot.sound",
"propext"
],
"Laplax.Props.C17_loss_dispatch": [
"Classical.choice",
"Quot.sound",
"propext"
],
"Laplax.Props.C18_combined_values": [
"Classical.choice",
"Quot.sound",
"propext"
],
"Laplax.Props.C18_hessian_mv": [
"Classical.choice",
"Quot.sound",
"propext"
],
"Laplax.Props.C18_mse_order_and_batches": [
"Classical.choice",
"Quot.sound",
"propext"
],
"Laplax.Props.C18_samplewise_order_and_batches": [
"Classical.choice",
"Quot.sound",
"propext"
],
"Laplax.Props.C18_unsupported_losses": [
"Classical.choice",
"Quot.sound",
"propext"
],
"Laplax.Props.C19_full_posterior": [
"Classical.choice",
"Quot.sound",
"propext"
],
"Laplax.Props.C19_full_posterior_psd": [
"Classical.choice",
"Quot.sound",
"propext"
],
"Laplax.Props.C19_prior_prec_required": [
"Classical.choice",
"Quot.sound",
"propext"
],
"Laplax.Props.C19_triangular_solver": [
"Classical.choice",
"Quot.sound",
"propext"
],
"Laplax.Props.C20_diagonal_eq_full": [
"Classical.choice",
"Quot.sound",
"propext"
],
"Laplax.Props.C20_diagonal_is_posterior": [
"Classical.choice",
"Quot.sound",
"propext"
],
"Laplax.Props.C20_diagonal_posterior": [
"Classical.choice",
"Quot.sound",
"propext"
],
"Laplax.Props.C21_low_rank_eq_full": [
"Classical.choice",
"Quot.sound",
"propext"
],
"Laplax.Props.C21_low_rank_posterior": [
"Classical.choice",
"Quot.sound",
"propext"
],
"Laplax.Props.C21_low_rank_square": [
"Classical.choice",
"Quot.sound",
"propext"
],
"Laplax.Props.C22_full_diagonal": [
"Classical.choice",
"Quot.sound",
"propext"
],
"Laplax.Props.C22_low_rank_iff": [
"Classical.choice",
"Quot.sound",
"propext"
],
"Laplax.Props.C22_low_rank_ignores_loss_scaling": [
"Classical.choice",
"Quot.sound",
"propext"
],
"Laplax.Props.C22_same_posterior_partial": [
"Classical.choice",
"Quot.sound",
"propext"
],
"Laplax.Props.C23_breakdown_duplicates": [
"Classical.choice",
"Quot.sound",
"propext"
],
"Laplax.Props.C23_breakdown_identity": [
"Classical.choice",
"Quot.sound",
"propext"
],
"Laplax.Props.C23_eigh_exists": [
"Classical.choice",
"Quot.sound",
"propext"
],
"Laplax.Props.C23_first_vector": [
"Classical.choice",
"Quot.sound",
"propext"
],
"Laplax.Props.C23_full_rank_exact": [
"Classical.choice",
"Quot.sound",
"propext"
],
"Laplax.Props.C23_krylov": [
"Classical.choice",
"Quot.sound",
"propext"
],
"Laplax.Props.C23_lanczos_posterior_eq_full": [
"Classical.choice",
"Quot.sound",
"propext"
],
"Laplax.Props.C23_low_rank_terms": [
"Classical.choice",
"Quot.sound",
"propext"
],
"Laplax.Props.C23_no_reorthogonalisation_fails": [
"Classical.choice",
"Quot.sound",
"propext"
],
"Laplax.Props.C23_orthonormal": [
"Classical.choice",
"Quot.sound",
"propext"
],
"Laplax.Props.C23_rank_exceeds_dimension": [
"Classical.choice",
"Quot.sound",
"propext"
],
"Laplax.Props.C23_recurrence": [
"Classical.choice",
"Quot.sound",
"propext"
],
"Laplax.Props.C23_tridiagonal": [
"Classical.choice",
"Quot.sound",
"propext"
],
"Laplax.Props.C24_always_restored_if_matching": [],
"Laplax.Props.C24_callable_needs_layout": [],
"Laplax.Props.C24_default_dtypes": [
"Quot.sound",
"propext"
],
"Laplax.Props.C24_flag_after_exception": [],
"Laplax.Props.C24_restored_on_return_partial": [],
"Laplax.Props.C24_violated": [
"Quot.sound",
"propext"
],
"Laplax.Props.C25_lowrank_outcome": [
"Classical.choice",
"Quot.sound",
"propext"
],
"Laplax.Props.C25_rank_partial": [
"Classical.choice",
"Quot.sound",
"propext"
],
"Laplax.Props.C25_violated": [
"Classical.choice",
"Quot.sound",
"propext"
],
"Laplax.Props.C26_create_posterior_diagonal": [
"Classical.choice",
"Quot.sound",
"propext"
],
"Laplax.Props.C26_create_posterior_full": [
"Classical.choice",
"Quot.sound",
"propext"
],
"Laplax.Props.C26_create_posterior_low_rank": [
"Classical.choice",
"Quot.sound",
"propext"
],
"Laplax.Props.C26_default_loss_scaling": [
"Classical.choice",
"Quot.sound",
"propext"
],
"Laplax.Props.C26_flat_products": [
"Classical.choice",
"Quot.sound",
"propext"
],
"Laplax.Props.C26_full_needs_pytree_layout": [
"Classical.choice",
"Quot.sound",
"propext"
],
"Laplax.Props.C26_pytree_products": [
"Classical.choice",
"Quot.sound",
"propext"
],
"Laplax.Props.C27_after_failure": [
"Classical.choice",
"Quot.sound",
"propext"
],
"Laplax.Props.C27_builtin_methods": [
"propext"
],
"Laplax.Props.C27_builtins_unchanged": [
"propext"
],
"Laplax.Props.C27_calibration_registry": [
"propext"
],
"Laplax.Props.C27_consistent_histories": [
"Quot.sound",
"propext"
],
"Laplax.Props.C27_failing_registration_partial": [
"Classical.choice",
"Quot.sound",
"propext"
],
"Laplax.Props.C27_failing_registration_violated": [
"Classical.choice",
"Quot.sound",
"propext"
],
"Laplax.Props.C27_succeeds_iff": [
"Classical.choice",
"Quot.sound",
"propext"
],
"Laplax.Props.C27_success": [
"Quot.sound",
"propext"
],
"Laplax.Props.C28_errors": [
"Quot.sound",
"propext"
],
"Laplax.Props.C28_exception_at_candidate": [
"Classical.choice",
"Quot.sound",
"propext"
],
"Laplax.Props.C28_failures_lose": [
"Classical.choice",
"Quot.sound",
"propext"
],
"Laplax.Props.C28_grid_search": [
"Classical.choice",
"Quot.sound",
"propext"
],
"Laplax.Props.C28_optimize_prior_prec_range": [
"Classical.choice",
"Quot.sound",
"propext"
],
"Laplax.Props.C28_raises_only_if": [
"Classical.choice",
"Quot.sound",
"propext"
],
"Laplax.Props.C28_unlimited": [
"Classical.choice",
"Quot.sound",
"propext"
],
"Laplax.Props.C29_at_most_succ_partial": [
"Classical.choice",
"Quot.sound",
"propext"
],
"Laplax.Props.C29_truncates": [
"Classical.choice",
"Quot.sound",
"propext"
],
"Laplax.Props.C29_violated": [
"Classical.choice",
"Quot.sound",
"propext"
],
"Laplax.Props.C30_bin_metrics": [
"Classical.choice",
"Quot.sound",
"propext"
],
"Laplax.Props.C30_bin_of_confidence": [
"Classical.choice",
"Quot.sound",
"propext"
],
"Laplax.Props.C30_bins_partition": [
"Classical.choice",
"Quot.sound",
"propext"
],
"Laplax.Props.C30_ece_bounds_overall_gap": [
"Classical.choice",
"Quot.sound",
"propext"
],
"Laplax.Props.C30_ece_value": [
"Classical.choice",
"Quot.sound",
"propext"
],
"Laplax.Props.C30_mce_value": [
"Classical.choice",
"Quot.sound",
"propext"
],
"Laplax.Props.C30_out_of_range_clipped": [
"Classical.choice",
"Quot.sound",
"propext"
],
"Laplax.Props.C30_proportions": [
"Classical.choice",
"Quot.sound",
"propext"
],
"Laplax.Props.C30_range": [
"Classical.choice",
"Quot.sound",
"propext"
],
"Laplax.Props.C30_zero_bins": [
"Classical.choice",
"Quot.sound",
"propext"
],
"Laplax.Props.C31_all_classes": [
"Classical.choice",
"Quot.sound",
"propext"
],
"Laplax.Props.C31_all_negative": [
"Classical.choice",
"Quot.sound",
"propext"
],
"Laplax.Props.C31_any_top_k": [
"Classical.choice",
"Quot.sound",
"propext"
],
"Laplax.Props.C31_correctness": [
"Classical.choice",
"Quot.sound",
"propext"
],
"Laplax.Props.C31_empty_top_k": [
"Classical.choice",
"Quot.sound",
"propext"
],
"Laplax.Props.C31_monotone": [
"Classical.choice",
"Quot.sound",
"propext"
],
"Laplax.Props.C31_negative_k": [
"Classical.choice",
"Quot.sound",
"propext"
],
"Laplax.Props.C31_one_hot_targets": [
"Classical.choice",
"Quot.sound",
"propext"
],
"Laplax.Props.C31_range": [
"Classical.choice",
"Quot.sound",
"propext"
],
"Laplax.Props.C31_top1_is_mean_correctness": [
"Classical.choice",
"Quot.sound",
"propext"
],
"Laplax.Props.C31_value": [
"Classical.choice",
"Quot.sound",
"propext"
],
"Laplax.Props.C31_zero_classes": [
"Classical.choice",
"Quot.sound",
"propext"
],
"Laplax.Props.C31_zero_classes_labels": [
"Classical.choice",
"Quot.sound",
"propext"
],
"Laplax.Props.C32_brier_disagrees": [
"Classical.choice",
"Quot.sound",
"propext"
],
"Laplax.Props.C32_brier_orientation": [
"Classical.choice",
"Quot.sound",
"propext"
],
"Laplax.Props.C32_brier_value_partial": [
"Classical.choice",
"Quot.sound",
"propext"
],
"Laplax.Props.C32_chi_squared": [
"Classical.choice",
"Quot.sound",
"propext"
],
"Laplax.Props.C32_cross_entropy_nonneg": [
"Classical.choice",
"Quot.sound",
"propext"
],
"Laplax.Props.C32_cross_entropy_one_hot": [
"Classical.choice",
"Quot.sound",
"propext"
],
"Laplax.Props.C32_crps": [
"Classical.choice",
"Quot.sound",
"propext"
],
"Laplax.Props.C32_gibbs": [
"Classical.choice",
"Quot.sound",
"propext"
],
"Laplax.Props.C32_nll": [
"Classical.choice",
"Quot.sound",
"propext"
],
"Laplax.Props.C32_rmse": [
"Classical.choice",
"Quot.sound",
"propext"
],
"Laplax.Props.C32_shape_mismatch": [
"Classical.choice",
"Quot.sound",
"propext"
],
"Laplax.Props.C33_bridge_columns_not_probabilities": [
"Classical.choice",
"Quot.sound",
"propext"
],
"Laplax.Props.C33_bridge_one_dimensional_raises": [
"Classical.choice",
"Quot.sound",
"propext"
],
"Laplax.Props.C33_bridge_spec_isProb": [
"Classical.choice",
"Quot.sound",
"propext"
],
"Laplax.Props.C33_bridge_total_mass_partial": [
"Classical.choice",
"Quot.sound",
"propext"
],
"Laplax.Props.C33_bridge_wrong_class_count": [
"Classical.choice",
"Quot.sound",
"propext"
],
"Laplax.Props.C33_mean_field_0": [
"Classical.choice",
"Quot.sound",
"propext"
],
"Laplax.Props.C33_mean_field_0_temperature": [
"Classical.choice",
"Quot.sound",
"propext"
],
"Laplax.Props.C33_mean_field_1": [
"Classical.choice",
"Quot.sound",
"propext"
],
"Laplax.Props.C33_mean_field_1_normalised_iff": [
"Classical.choice",
"Quot.sound",
"propext"
],
"Laplax.Props.C33_mean_field_1_not_normalised": [
"Classical.choice",
"Quot.sound",
"propext"
],
"Laplax.Props.C33_mean_field_1_sums_to_one_partial": [
"Classical.choice",
"Quot.sound",
"propext"
],
"Laplax.Props.C33_mean_field_2": [
"Classical.choice",
"Quot.sound",
"propext"
],
"Laplax.Props.C33_mean_field_2_normalised_iff": [
"Classical.choice",
"Quot.sound",
"propext"
],
"Laplax.Props.C33_mean_field_2_not_normalised": [
"Classical.choice",
"Quot.sound",
"propext"
],
"Laplax.Props.C33_mean_field_2_sums_to_one_partial": [
"Classical.choice",
"Quot.sound",
"propext"
],
"Laplax.Props.C33_mean_field_2_well_defined": [
"Classical.choice",
"Quot.sound",
"propext"
],
"Laplax.Props.C34_default_loss_scaling": [
"Classical.choice",
"Quot.sound",
"propext"
],
"Laplax.Props.C34_diagonal": [
"Classical.choice",
"Quot.sound",
"propext"
],
"Laplax.Props.C34_full": [
"Classical.choice",
"Quot.sound",
"propext"
],
"Laplax.Props.C34_full_eq_diagonal": [
"Classical.choice",
"Quot.sound",
"propext"
],
"Laplax.Props.C34_joint": [
"Classical.choice",
"Quot.sound",
"propext"
],
"Laplax.Props.C34_joint_ignores_sigma_squared": [
"Classical.choice",
"Quot.sound",
"propext"
],
"Laplax.Props.C34_low_rank_error": [
"Classical.choice",
"Quot.sound",
"propext"
],
"Laplax.Props.C34_low_rank_partial": [
"Classical.choice",
"Quot.sound",
"propext"
],
"Laplax.Props.C34_low_rank_wrong": [
"Classical.choice",
"Quot.sound",
"propext"
],
"Laplax.Props.C35_full_laplace_predictive": [
"Classical.choice",
"Quot.sound",
"propext"
],
"Laplax.Props.C35_laplace_bridge_raises": [
"Classical.choice",
"Quot.sound",
"propext"
],
"Laplax.Props.C35_linearized_predictive": [
"Classical.choice",
"Quot.sound",
"propext"
],
"Laplax.Props.C35_matrix_outputs_raise": [
"Classical.choice",
"Quot.sound",
"propext"
],
"Laplax.Props.C35_predictive_covariance_psd": [
"Classical.choice",
"Quot.sound",
"propext"
],
"Laplax.Props.C35_setup_required": [
"Classical.choice",
"Quot.sound",
"propext"
],
"Laplax.Props.C36_order_independent_partial": [
"Classical.choice",
"Quot.sound",
"propext"
],
"Laplax.Props.C36_sample_covariance_psd": [
"Classical.choice",
"Quot.sound",
"propext"
],
"Laplax.Props.C36_sampled_predictive": [
"Classical.choice",
"Quot.sound",
"propext"
],
"Laplax.Props.C36_special_needs_variance": [
"Classical.choice",
"Quot.sound",
"propext"
],
"Laplax.Props.C36_special_predictives": [
"Classical.choice",
"Quot.sound",
"propext"
],
"Laplax.Props.C36_variance_depends_on_order": [
"Classical.choice",
"Quot.sound",
"propext"
],
"Laplax.Props.C36_zero_samples_raise": [
"Classical.choice",
"Quot.sound",
"propext"
],
"Laplax.Props.C37_dense_kernel": [
"Classical.choice",
"Quot.sound",
"propext"
],
"Laplax.Props.C37_dense_needs_layout": [
"Classical.choice",
"Quot.sound",
"propext"
],
"Laplax.Props.C37_kernel_products": [
"Classical.choice",
"Quot.sound",
"propext"
],
"Laplax.Props.C37_num_samples_raises": [
"Classical.choice",
"Quot.sound",
"propext"
],
"Laplax.Props.C38_apply_fns": [
"Quot.sound",
"propext"
],
"Laplax.Props.C38_apply_fns_aux_alias": [
"Classical.choice",
"Quot.sound",
"propext"
],
"Laplax.Props.C38_apply_fns_errors": [
"Quot.sound",
"propext"
],
"Laplax.Props.C38_duplicate_keyword": [
"Quot.sound",
"propext"
],
"Laplax.Props.C38_finalize_append": [],
"Laplax.Props.C38_transfer_entry": [
"Classical.choice",
"Quot.sound",
"propext"
],
"Laplax.Props.C38_transfer_entry_errors": [
"Classical.choice",
"Quot.sound",
"propext"
],
"Laplax.Props.C39_dataset_reduces_all": [
"Quot.sound",
"propext"
],
"Laplax.Props.C39_edge_cases": [],
"Laplax.Props.C39_generator_reduces_all": [
"Classical.choice",
"Quot.sound",
"propext"
],
"Laplax.Props.C39_list_mutation_violated": [
"Quot.sound",
"propext"
],
"Laplax.Props.C39_list_unchanged_partial": [],
"Laplax.Props.C40_any_case_spelling": [
"Classical.choice",
"Quot.sound",
"propext"
],
"Laplax.Props.C40_convert_to_enum": [
"Quot.sound",
"propext"
],
"Laplax.Props.C40_documented_values": [],
"Laplax.Props.C40_str_to_bool": [
"Classical.choice",
"Quot.sound",
"propext"
],
"Laplax.Props.C41_evaluation_partial": [
"propext"
],
"Laplax.Props.C41_evaluation_violated": [
"propext"
],
"Laplax.Props.C41_ggn_one_shot_rejected": [
"Quot.sound",
"propext"
],
"Laplax.Props.C41_ggn_reiterable_uses_all": [
"Quot.sound",
"propext"
],
"Laplax.Props.C41_laplace_one_shot_rejected": [
"Quot.sound",
"propext"
],
"Laplax.Props.C42_functional_scaling": [
"Classical.choice",
"Quot.sound",
"propext"
],
"Laplax.Props.C42_laplace_correct_iff": [
"Classical.choice",
"Quot.sound",
"propext"
],
"Laplax.Props.C42_laplace_factor_partial": [
"Classical.choice",
"Quot.sound",
"propext"
],
"Laplax.Props.C42_laplace_factor_violated": [
"Classical.choice",
"Quot.sound",
"propext"
],
"Laplax.Props.C42_laplace_replicated_data": [
"Classical.choice",
"Quot.sound",
"propext"
],
"Laplax.Props.C42_laplace_shuffled_batch": [
"Classical.choice",
"Quot.sound",
"propext"
],
"Laplax.Props.C42_laplace_witness": [
"Classical.choice",
"Quot.sound",
"propext"
],
"Laplax.Props.C42_replication_invariant": [
"Classical.choice",
"Quot.sound",
"propext"
],
"Laplax.Props.C42_resampled_batch_unbiased": [
"Classical.choice",
"Quot.sound",
"propext"
],
"Laplax.Props.C42_shuffled_batch_unbiased": [
"Classical.choice",
"Quot.sound",
"propext"
],
"Laplax.Props.C43_array_rejected": [
"Quot.sound",
"propext"
],
"Laplax.Props.C43_list_pair_partial": [
"Quot.sound",
"propext"
],
"Laplax.Props.C43_list_pair_violated": [
"propext"
],
"Laplax.Props.C43_mapping_is_one_batch": [
"Quot.sound",
"propext"
],
"Laplax.Props.C43_rejected": [
"Quot.sound",
"propext"
],
"Laplax.Props.C43_tuple_is_one_batch": [
"propext"
],
"Laplax.Props.C44_custom": [
"Classical.choice",
"Quot.sound",
"propext"
],
"Laplax.Props.C44_get_pred_act": [
"Classical.choice",
"Quot.sound",
"propext"
],
"Laplax.Props.C44_invalid_names": [
"Quot.sound",
"propext"
],
"Laplax.Props.C44_linear": [
"propext"
],
"Laplax.Props.C44_nonlinear_partial": [
"propext"
],
"Laplax.Props.C44_nonlinear_pred_act_violated": [
"propext"
],
"Laplax.Props.C45_model_required_for_every_objective": [
"propext"
],
"Laplax.Props.C45_objective_names": [
"propext"
],
"Laplax.Props.C45_objective_table": [
"propext"
],
"Laplax.Props.C46_resolve_metrics": [
"Classical.choice",
"Quot.sound",
"propext"
],
"Laplax.Props.C47_batching_independent": [
"Classical.choice",
"Quot.sound",
"propext"
],
"Laplax.Props.C47_custom_loss": [
"Classical.choice",
"Quot.sound",
"propext"
],
"Laplax.Props.C47_laplace_curvature": [
"Classical.choice",
"Quot.sound",
"propext"
],
"Laplax.Props.C47_linearized_predictive": [
"Classical.choice",
"Quot.sound",
"propext"
],
"Laplax.Props.C47_linearized_predictive_full": [
"Classical.choice",
"Quot.sound",
"propext"
],
"Laplax.Props.C47_posterior": [
"Classical.choice",
"Quot.sound",
"propext"
],
"Laplax.Props.C47_rejected_calls": [
"Classical.choice",
"Quot.sound",
"propext"
],
"Laplax.Props.C48_extend_basis": [
"Classical.choice",
"Quot.sound",
"propext"
],
"Laplax.Props.C48_kernels_exist": [
"Classical.choice",
"Quot.sound",
"propext"
],
"Laplax.Props.C48_low_rank_terms": [
"Classical.choice",
"Quot.sound",
"propext"
],
"Laplax.Props.C48_monotone_and_bounded": [
"Classical.choice",
"Quot.sound",
"propext"
],
"Laplax.Props.C48_orthonormalize": [
"Classical.choice",
"Quot.sound",
"propext"
],
"Laplax.Props.C48_project_out": [
"Classical.choice",
"Quot.sound",
"propext"
],
"Laplax.Props.C48_ritz_pairs": [
"Classical.choice",
"Quot.sound",
"propext"
],
"Laplax.Props.C48_stopping": [
"Classical.choice",
"Quot.sound",
"propext"
],
"Laplax.Props.C48_zero_column_loses_direction": [
"Classical.choice",
"Quot.sound",
"propext"
],
"Laplax.Props.C49_callable_needs_layout": [
"Classical.choice",
"Quot.sound",
"propext"
],
"Laplax.Props.C49_defaults": [
"Classical.choice",
"Quot.sound",
"propext"
],
"Laplax.Props.C49_form_independent": [
"Classical.choice",
"Quot.sound",
"propext"
],
"Laplax.Props.C49_get_matvec": [
"Classical.choice",
"Quot.sound",
"propext"
],
"Laplax.Props.C49_lanczos": [
"Classical.choice",
"Quot.sound",
"propext"
],
"Laplax.Props.C49_lanczos_result": [
"Classical.choice",
"Quot.sound",
"propext"
],
"Laplax.Props.C49_laplace_lanczos": [
"Classical.choice",
"Quot.sound",
"propext"
],
"Laplax.Props.C49_lobpcg": [
"Classical.choice",
"Quot.sound",
"propext"
],
"Laplax.Props.C49_methods": [
"Classical.choice",
"Quot.sound",
"propext"
],
"Laplax.Props.C49_operator_exception": [
"Classical.choice",
"Quot.sound",
"propext"
],
"Laplax.Props.C50_index_beyond_samples": [
"Classical.choice",
"Quot.sound",
"propext"
],
"Laplax.Props.C50_precompute_keyword_raises": [
"Classical.choice",
"Quot.sound",
"propext"
],
"Laplax.Props.C50_predictive_sample_law": [
"Classical.choice",
"Quot.sound",
"propext"
],
"Laplax.Props.C50_weight_sample_law": [
"Classical.choice",
"Quot.sound",
"propext"
],
"Laplax.Props.C50_weight_samples": [
"Classical.choice",
"Quot.sound",
"propext"
],
"Laplax.Props.C51_laplace_bridge_raises": [
"Classical.choice",
"Quot.sound",
"propext"
],
"Laplax.Props.C51_linear_predictive": [
"Classical.choice",
"Quot.sound",
"propext"
],
"Laplax.Props.C51_nonlinear_needs_samples": [
"Classical.choice",
"Quot.sound",
"propext"
],
"Laplax.Props.C51_nonlinear_predictive": [
"Classical.choice",
"Quot.sound",
"propext"
],
"Laplax.Props.C52_chi_squared": [
"Classical.choice",
"Quot.sound",
"propext"
],
"Laplax.Props.C52_cross_entropy_evidence_raises": [
"Classical.choice",
"Quot.sound",
"propext"
],
"Laplax.Props.C52_ece": [
"Classical.choice",
"Quot.sound",
"propext"
],
"Laplax.Props.C52_ece_nonlinear_raises": [
"Classical.choice",
"Quot.sound",
"propext"
],
"Laplax.Props.C52_marginal_likelihood": [
"Classical.choice",
"Quot.sound",
"propext"
],
"Laplax.Props.C52_max_iterations_ignored": [
"Classical.choice",
"Quot.sound",
"propext"
],
"Laplax.Props.C52_methods": [
"Classical.choice",
"Quot.sound",
"propext"
],
"Laplax.Props.C52_nll": [
"Classical.choice",
"Quot.sound",
"propext"
],
"Laplax.Props.C52_nll_classification": [
"Classical.choice",
"Quot.sound",
"propext"
],
"Laplax.Props.C52_nll_nonlinear": [
"Classical.choice",
"Quot.sound",
"propext"
],
"Laplax.Props.C52_one_hot_labels_silent": [
"Classical.choice",
"Quot.sound",
"propext"
],
"Laplax.Props.C52_range": [
"Classical.choice",
"Quot.sound",
"propext"
],
"Laplax.Props.C52_shape_mismatch_silent": [
"Classical.choice",
"Quot.sound",
"propext"
],
"Laplax.Props.C52_unreadable_batch": [
"Classical.choice",
"Quot.sound",
"propext"
],
"Laplax.Props.C52_without_patience": [
"Classical.choice",
"Quot.sound",
"propext"
],
"Laplax.Props.C53_batching": [
"Classical.choice",
"Quot.sound",
"propext"
],
"Laplax.Props.C53_classification_raises": [
"Classical.choice",
"Quot.sound",
"propext"
],
"Laplax.Props.C53_loader_ignores_reduce": [
"Classical.choice",
"Quot.sound",
"propext"
],
"Laplax.Props.C53_one_hot_point_broadcasts": [
"Classical.choice",
"Quot.sound",
"propext"
],
"Laplax.Props.C53_one_shot_drops_first": [
"Classical.choice",
"Quot.sound",
"propext"
],
"Laplax.Props.C53_reduce": [
"Classical.choice",
"Quot.sound",
"propext"
],
"Laplax.Props.C53_regression": [
"Classical.choice",
"Quot.sound",
"propext"
],
"Laplax.Props.C53_regression_nonlinear": [
"Classical.choice",
"Quot.sound",
"propext"
],
"Laplax.Props.C53_same_points": [
"Classical.choice",
"Quot.sound",
"propext"
],
"Laplax.Props.C54_classification_workflow_raises": [
"Classical.choice",
"Quot.sound",
"propext"
],
"Laplax.Props.C54_data_layout_independent": [
"Classical.choice",
"Quot.sound",
"propext"
],
"Laplax.Props.C54_evidence_workflow": [
"Classical.choice",
"Quot.sound",
"propext"
],
"Laplax.Props.C54_lanczos_workflow": [
"Classical.choice",
"Quot.sound",
"propext"
],
"Laplax.Props.C54_lobpcg_workflow": [
"Classical.choice",
"Quot.sound",
"propext"
],
"Laplax.Props.C54_regression_workflow": [
"Classical.choice",
"Quot.sound",
"propext"
],
"Laplax.Props.C54_sampled_workflow": [
"Classical.choice",
"Quot.sound",
"propext"
],
"Laplax.Props.C54_training_layout_independent": [
"Classical.choice",
"Quot.sound",
"propext"
],
"Laplax.Props.C55_allclose": [
"Classical.choice",
"Quot.sound",
"propext"
],
"Laplax.Props.C55_allclose_order": [
"Classical.choice",
"Quot.sound",
"propext"
],
"Laplax.Props.C55_axes_leaves": [
"Classical.choice",
"Quot.sound",
"propext"
],
"Laplax.Props.C55_covariance_keywords": [
"Classical.choice",
"Quot.sound",
"propext"
],
"Laplax.Props.C55_covariance_rejects": [
"Classical.choice",
"Quot.sound",
"propext"
],
"Laplax.Props.C55_ensemble_covariance": [
"Classical.choice",
"Quot.sound",
"propext"
],
"Laplax.Props.C55_ensemble_statistics": [
"Classical.choice",
"Quot.sound",
"propext"
],
"Laplax.Props.C55_hessian_product_iff": [
"Classical.choice",
"Quot.sound",
"propext"
],
"Laplax.Props.C55_invert_raises": [
"Classical.choice",
"Quot.sound",
"propext"
],
"Laplax.Props.C55_scalar_leaf_raises": [
"Classical.choice",
"Quot.sound",
"propext"
],
"Laplax.Props.C55_slice": [
"Classical.choice",
"Quot.sound",
"propext"
],
"Laplax.Props.C55_slice_bounds": [
"Classical.choice",
"Quot.sound",
"propext"
],
"Laplax.Props.C55_sqrt": [
"Classical.choice",
"Quot.sound",
"propext"
],
"Laplax.Props.C55_statistics_all": [
"Classical.choice",
"Quot.sound",
"propext"
],
"Laplax.Props.C55_statistics_axes": [
"Classical.choice",
"Quot.sound",
"propext"
],
"Laplax.Props.C55_statistics_axes_raises": [
"Classical.choice",
"Quot.sound",
"propext"
],
"Laplax.Props.C55_statistics_axis": [
"Classical.choice",
"Quot.sound",
"propext"
],
"Laplax.Props.C55_statistics_axis_raises": [
"Classical.choice",
"Quot.sound",
"propext"
],
"Laplax.Props.C55_statistics_axis_zero": [
"Classical.choice",
"Quot.sound",
"propext"
],
"Laplax.Props.C55_statistics_every_axis": [
"Classical.choice",
"Quot.sound",
"propext"
],
"Laplax.Props.C55_statistics_one_axis": [
"Classical.choice",
"Quot.sound",
"propext"
],
"Laplax.Props.C55_tree_matvec": [
"Classical.choice",
"Quot.sound",
"propext"
],
"Laplax.Props.C55_tree_matvec_leaves": [
"Classical.choice",
"Quot.sound",
"propext"
],
"Laplax.Props.C55_tree_partialmatvec": [
"Classical.choice",
"Quot.sound",
"propext"
],
"Laplax.Props.C55_tree_partialmatvec_raises": [
"Classical.choice",
"Quot.sound",
"propext"
],
"Laplax.Props.C55_unreadable_leaves": [
"Classical.choice",
"Quot.sound",
"propext"
],
"Laplax.Props.C56_collects_all": [
"Classical.choice",
"Quot.sound",
"propext"
],
"Laplax.Props.C56_errors": [
"Classical.choice",
"Quot.sound",
"propext"
],
"Laplax.Props.C56_linear_predictive": [
"Classical.choice",
"Quot.sound",
"propext"
],
"Laplax.Props.C57_broadcast": [
"Classical.choice",
"Quot.sound",
"propext"
],
"Laplax.Props.C57_chi_squared_all_pairs": [
"Classical.choice",
"Quot.sound",
"propext"
],
"Laplax.Props.C57_chi_squared_calibration": [
"Classical.choice",
"Quot.sound",
"propext"
],
"Laplax.Props.C57_class_labels_evidence": [
"Classical.choice",
"Quot.sound",
"propext"
],
"Laplax.Props.C57_equal_shapes": [
"Classical.choice",
"Quot.sound",
"propext"
],
"Laplax.Props.C57_evaluation_raises": [
"Classical.choice",
"Quot.sound",
"propext"
],
"Laplax.Props.C57_evidence_calibration": [
"Classical.choice",
"Quot.sound",
"propext"
],
"Laplax.Props.C57_evidence_incompatible": [
"Classical.choice",
"Quot.sound",
"propext"
],
"Laplax.Props.C57_keyword_metrics": [
"Classical.choice",
"Quot.sound",
"propext"
],
"Laplax.Props.C57_rejections": [
"Classical.choice",
"Quot.sound",
"propext"
],
"Laplax.Props.C57_rmse_all_pairs": [
"Classical.choice",
"Quot.sound",
"propext"
],
"Laplax.Props.C57_rmse_of_perfect_predictions": [
"Classical.choice",
"Quot.sound",
"propext"
],
"Laplax.Props.C57_tree_add_sub": [
"Classical.choice",
"Quot.sound",
"propext"
],
"Laplax.Props.C57_unknown_loss_silent": [
"Classical.choice",
"Quot.sound",
"propext"
],
"Laplax.Props.C58_cross_entropy_one_output": [
"Classical.choice",
"Quot.sound",
"propext"
],
"Laplax.Props.C58_cross_entropy_raises": [
"Classical.choice",
"Quot.sound",
"propext"
],
"Laplax.Props.C58_default_options": [
"Classical.choice",
"Quot.sound",
"propext"
],
"Laplax.Props.C58_hessian": [
"Classical.choice",
"Quot.sound",
"propext"
],
"Laplax.Props.C58_mean_loss": [
"Classical.choice",
"Quot.sound",
"propext"
],
"Laplax.Props.C58_options_do_not_matter_partial": [
"Classical.choice",
"Quot.sound",
"propext"
],
"Laplax.Props.C59_full_and_diagonal_ignore_keywords": [
"Classical.choice",
"Quot.sound",
"propext"
],
"Laplax.Props.C59_lanczos_needs_key": [
"Classical.choice",
"Quot.sound",
"propext"
],
"Laplax.Props.C59_lobpcg_posterior": [
"Classical.choice",
"Quot.sound",
"propext"
],
"Laplax.Props.C59_low_rank_keywords": [
"Classical.choice",
"Quot.sound",
"propext"
],
"Laplax.Props.C59_method_overrides_type": [
"Classical.choice",
"Quot.sound",
"propext"
],
"Laplax.Props.C59_reserved_keywords": [
"Classical.choice",
"Quot.sound",
"propext"
],
"Laplax.Props.C60_array_type_on_low_rank": [
"Classical.choice",
"Quot.sound",
"propext"
],
"Laplax.Props.C60_batched_model_fails": [
"Classical.choice",
"Quot.sound",
"propext"
],
"Laplax.Props.C60_cross_entropy_raises": [
"Classical.choice",
"Quot.sound",
"propext"
],
"Laplax.Props.C60_default_per_sample": [
"Classical.choice",
"Quot.sound",
"propext"
],
"Laplax.Props.C60_diagonal_type_on_full": [
"Classical.choice",
"Quot.sound",
"propext"
],
"Laplax.Props.C60_evidence_partial": [
"Classical.choice",
"Quot.sound",
"propext"
],
"Laplax.Props.C60_full_type_on_diagonal": [
"Classical.choice",
"Quot.sound",
"propext"
],
"Laplax.Props.C60_low_rank_score": [
"Classical.choice",
"Quot.sound",
"propext"
],
"Laplax.Props.C60_low_rank_type_silent": [
"Classical.choice",
"Quot.sound",
"propext"
],
"Laplax.Props.C60_other_objectives": [
"Classical.choice",
"Quot.sound",
"propext"
],
"Laplax.Props.C60_registered_method": [
"Classical.choice",
"Quot.sound",
"propext"
],
"Laplax.Props.C60_spelling_raises": [
"Classical.choice",
"Quot.sound",
"propext"
],
"Laplax.Props.C60_unknown_loss_silent": [
"Classical.choice",
"Quot.sound",
"propext"
],
"Laplax.Props.C61_calibration_score": [
"Classical.choice",
"Quot.sound",
"propext"
],
"Laplax.Props.C61_evidence_exact_iff": [
"Classical.choice",
"Quot.sound",
"propext"
],
"Laplax.Props.C61_evidence_partial": [
"Classical.choice",
"Quot.sound",
"propext"
],
"Laplax.Props.C61_posterior_exact": [
"Classical.choice",
"Quot.sound",
"propext"
],
"Laplax.Props.C61_predictive_exact": [
"Classical.choice",
"Quot.sound",
"propext"
],
"Laplax.Props.C62_larger_curvature": [
"Classical.choice",
"Quot.sound",
"propext"
],
"Laplax.Props.C62_low_rank": [
"Classical.choice",
"Quot.sound",
"propext"
],
"Laplax.Props.C62_more_data": [
"Classical.choice",
"Quot.sound",
"propext"
],
"Laplax.Props.C62_prior_arguments": [
"Classical.choice",
"Quot.sound",
"propext"
],
"Laplax.Props.C63_evidence_parameter_layout": [
"Classical.choice",
"Quot.sound",
"propext"
],
"Laplax.Props.C63_evidence_workflow_parameter_layout": [
"Classical.choice",
"Quot.sound",
"propext"
],
"Laplax.Props.C63_parameter_layout": [
"Classical.choice",
"Quot.sound",
"propext"
],
"Laplax.Props.C63_targets_ignored": [
"Classical.choice",
"Quot.sound",
"propext"
],
"Laplax.Props.C63_workflow_parameter_layout": [
"Classical.choice",
"Quot.sound",
"propext"
],
"Laplax.Props.C64_breakdown_posterior": [
"Classical.choice",
"Quot.sound",
"propext"
],
"Laplax.Props.C64_laplace_negative_variance": [
"Classical.choice",
"Quot.sound",
"propext"
],
"Laplax.Props.C64_one_parameter": [
"Classical.choice",
"Quot.sound",
"propext"
],
"Laplax.Props.C64_one_parameter_predictive": [
"Classical.choice",
"Quot.sound",
"propext"
],
"Laplax.Props.C64_positive_semidefinite_iff": [
"Classical.choice",
"Quot.sound",
"propext"
],
"Laplax.Props.C64_rank_exceeds_parameters": [
"Classical.choice",
"Quot.sound",
"propext"
],
"Laplax.Props.C64_without_breakdown_partial": [
"Classical.choice",
"Quot.sound",
"propext"
],
"Laplax.Props.C65_array_operations": [
"Classical.choice",
"Quot.sound",
"propext"
],
"Laplax.Props.C65_batch_validation": [
"Classical.choice",
"Quot.sound",
"propext"
],
"Laplax.Props.C65_calibration_method": [
"Classical.choice",
"Quot.sound",
"propext"
],
"Laplax.Props.C65_create_ggn_mv": [
"Classical.choice",
"Quot.sound",
"propext"
],
"Laplax.Props.C65_gaussian_metrics": [
"Classical.choice",
"Quot.sound",
"propext"
],
"Laplax.Props.C65_ggn_api_shape_test": [
"Quot.sound",
"propext"
],
"Laplax.Props.C65_hessian": [
"Classical.choice",
"Quot.sound",
"propext"
],
"Laplax.Props.C65_lanczos_needs_key": [
"propext"
],
"Laplax.Props.C65_layout_required": [
"Classical.choice",
"Quot.sound",
"propext"
],
"Laplax.Props.C65_loss_hessian": [
"Classical.choice",
"Quot.sound",
"propext"
],
"Laplax.Props.C65_metric_plumbing": [
"Quot.sound",
"propext"
],
"Laplax.Props.C65_process_batches": [
"propext"
],
"Laplax.Props.C65_pytree_where_array_expected": [
"Classical.choice",
"Quot.sound",
"propext"
],
"Laplax.Props.C65_register": [
"Classical.choice",
"Quot.sound",
"propext"
],
"Laplax.Props.C65_resolve_metrics": [
"Classical.choice",
"Quot.sound",
"propext"
],
"Laplax.Props.C65_setup_pushforward": [
"Classical.choice",
"Quot.sound",
"propext"
],
"Laplax.Props.C65_to_dense_partial": [
"Classical.choice",
"Quot.sound",
"propext"
],
"Laplax.Props.C65_unvalidated_data": [
"propext"
],
"Laplax.Props.C66_affine_model": [
"Classical.choice",
"Quot.sound",
"propext"
],
"Laplax.Props.C66_linearized_probabilities": [
"Classical.choice",
"Quot.sound",
"propext"
],
"Laplax.Props.C66_mean_concentrates": [
"Classical.choice",
"Quot.sound",
"propext"
],
"Laplax.Props.C66_probabilities_concentrate": [
"Classical.choice",
"Quot.sound",
"propext"
],
"Laplax.Props.C66_sampled_mean_and_covariance": [
"Classical.choice",
"Quot.sound",
"propext"
],
"Laplax.Props.C66_sampled_probabilities": [
"Classical.choice",
"Quot.sound",
"propext"
],
"Laplax.Props.C66_sampled_variance": [
"Classical.choice",
"Quot.sound",
"propext"
],
"Laplax.Props.C67_class_probabilities": [
"Classical.choice",
"Quot.sound",
"propext"
],
"Laplax.Props.C67_linearized_predictive": [
"Classical.choice",
"Quot.sound",
"propext"
],
"Laplax.Props.C67_named_predictive": [
"Classical.choice",
"Quot.sound",
"propext"
],
"Laplax.Props.C67_same_posterior": [
"Classical.choice",
"Quot.sound",
"propext"
],
"Laplax.Props.C67_sampled_predictive": [
"Classical.choice",
"Quot.sound",
"propext"
],
"Laplax.Props.C67_scores": [
"Classical.choice",
"Quot.sound",
"propext"
],
"Laplax.Props.C67_ties_depend_on_labels": [
"Classical.choice",
"Quot.sound",
"propext"
],
"Laplax.Props.C68_linearized_probabilities": [
"Classical.choice",
"Quot.sound",
"propext"
],
"Laplax.Props.C68_mean_field_0_iff": [
"Classical.choice",
"Quot.sound",
"propext"
],
"Laplax.Props.C68_mean_field_1_partial": [
"Classical.choice",
"Quot.sound",
"propext"
],
"Laplax.Props.C68_mean_field_violated": [
"Classical.choice",
"Quot.sound",
"propext"
],
"Laplax.Props.C68_same_posterior": [
"Classical.choice",
"Quot.sound",
"propext"
],
"Laplax.Props.C68_sampled_probabilities": [
"Classical.choice",
"Quot.sound",
"propext"
],
"Laplax.Props.C69_chi_squared": [
"Classical.choice",
"Quot.sound",
"propext"
],
"Laplax.Props.C69_ece": [
"Classical.choice",
"Quot.sound",
"propext"
],
"Laplax.Props.C69_evidence": [
"Classical.choice",
"Quot.sound",
"propext"
],
"Laplax.Props.C69_nll": [
"Classical.choice",
"Quot.sound",
"propext"
],
"Laplax.Props.C69_nll_classification": [
"Classical.choice",
"Quot.sound",
"propext"
],
"Laplax.Props.C69_test_data": [
"Classical.choice",
"Quot.sound",
"propext"
],
"Laplax.Props.C69_workflow": [
"Classical.choice",
"Quot.sound",
"propext"
],
"Laplax.Props.C70_evidence": [
"Classical.choice",
"Quot.sound",
"propext"
],
"Laplax.Props.C70_evidence_workflow": [
"Classical.choice",
"Quot.sound",
"propext"
],
"Laplax.Props.C70_posterior": [
"Classical.choice",
"Quot.sound",
"propext"
],
"Laplax.Props.C70_predictive": [
"Classical.choice",
"Quot.sound",
"propext"
],
"Laplax.Props.C70_workflow": [
"Classical.choice",
"Quot.sound",
"propext"
],
"Laplax.Props.C71_evidence": [
"Classical.choice",
"Quot.sound",
"propext"
],
"Laplax.Props.C71_no_order_of_predictive_variances": [
"Classical.choice",
"Quot.sound",
"propext"
],
"Laplax.Props.C71_weight_variances": [
"Classical.choice",
"Quot.sound",
"propext"
],
"Laplax.Props.C72_accuracy": [
"Classical.choice",
"Quot.sound",
"propext"
],
"Laplax.Props.C72_brier": [
"Classical.choice",
"Quot.sound",
"propext"
],
"Laplax.Props.C72_crps": [
"Classical.choice",
"Quot.sound",
"propext"
],
"Laplax.Props.C72_nll": [
"Classical.choice",
"Quot.sound",
"propext"
],
"Laplax.Props.C72_squared_errors": [
"Classical.choice",
"Quot.sound",
"propext"
],
"Laplax.Props.C73_fixed_noise": [
"Classical.choice",
"Quot.sound",
"propext"
],
"Laplax.Props.C73_linearized_predictive": [
"Classical.choice",
"Quot.sound",
"propext"
],
"Laplax.Props.C73_same_posterior": [
"Classical.choice",
"Quot.sound",
"propext"
],
"Laplax.Props.C73_sampled_predictive": [
"Classical.choice",
"Quot.sound",
"propext"
],
"Laplax.Props.C73_scores": [
"Classical.choice",
"Quot.sound",
"propext"
],
"Laplax.Props.C73_workflow": [
"Classical.choice",
"Quot.sound",
"propext"
],
"Laplax.Props.C74_kernel": [
"Classical.choice",
"Quot.sound",
"propext"
],
"Laplax.Props.C74_predictive": [
"Classical.choice",
"Quot.sound",
"propext"
],
"Laplax.Props.C74_regression_kernel": [
"Classical.choice",
"Quot.sound",
"propext"
],
"Laplax.Props.C74_trained_regression": [
"Classical.choice",
"Quot.sound",
"propext"
],
"Laplax.Props.C75_probabilities": [
"Classical.choice",
"Quot.sound",
"propext"
],
"Laplax.Props.C75_sampled": [
"Classical.choice",
"Quot.sound",
"propext"
],
"Laplax.Props.C75_strong_prior": [
"Classical.choice",
"Quot.sound",
"propext"
],
"Laplax.Props.C75_weak_prior": [
"Classical.choice",
"Quot.sound",
"propext"
],
"Laplax.Props.C76_chi_squared_fine_grid": [
"Classical.choice",
"Quot.sound",
"propext"
],
"Laplax.Props.C76_evidence_fine_grid": [
"Classical.choice",
"Quot.sound",
"propext"
],
"Laplax.Props.C76_evidence_patience": [
"Classical.choice",
"Quot.sound",
"propext"
],
"Laplax.Props.C76_nll_fine_grid": [
"Classical.choice",
"Quot.sound",
"propext"
],
"Laplax.Props.C76_nll_patience": [
"Classical.choice",
"Quot.sound",
"propext"
],
"Laplax.Props.C76_patience_can_miss": [
"Classical.choice",
"Quot.sound",
"propext"
],
"Laplax.Props.C76_patience_single_valley": [
"Classical.choice",
"Quot.sound",
"propext"
],
"Laplax.Props.C77_accuracy_documented": [
"Classical.choice",
"Quot.sound",
"propext"
],
"Laplax.Props.C77_accuracy_errors": [
"Classical.choice",
"Quot.sound",
"propext"
],
"Laplax.Props.C77_accuracy_more_axes": [
"Classical.choice",
"Quot.sound",
"propext"
],
"Laplax.Props.C77_accuracy_more_axes_errors": [
"Classical.choice",
"Quot.sound",
"propext"
],
"Laplax.Props.C77_accuracy_one_label": [
"Classical.choice",
"Quot.sound",
"propext"
],
"Laplax.Props.C77_accuracy_three_axes": [
"Classical.choice",
"Quot.sound",
"propext"
],
"Laplax.Props.C77_brier_column_labels": [
"Classical.choice",
"Quot.sound",
"propext"
],
"Laplax.Props.C77_brier_documented": [
"Classical.choice",
"Quot.sound",
"propext"
],
"Laplax.Props.C77_brier_one_point": [
"Classical.choice",
"Quot.sound",
"propext"
],
"Laplax.Props.C77_brier_scalar_label": [
"Classical.choice",
"Quot.sound",
"propext"
],
"Laplax.Props.C77_column_labels": [
"Classical.choice",
"Quot.sound",
"propext"
],
"Laplax.Props.C77_confidence": [
"Classical.choice",
"Quot.sound",
"propext"
],
"Laplax.Props.C77_correctness": [
"Classical.choice",
"Quot.sound",
"propext"
],
"Laplax.Props.C77_correctness_documented": [
"Classical.choice",
"Quot.sound",
"propext"
],
"Laplax.Props.C77_correctness_errors": [
"Classical.choice",
"Quot.sound",
"propext"
],
"Laplax.Props.C77_cross_entropy": [
"Classical.choice",
"Quot.sound",
"propext"
],
"Laplax.Props.C77_cross_entropy_broadcast": [
"Classical.choice",
"Quot.sound",
"propext"
],
"Laplax.Props.C77_cross_entropy_errors": [
"Classical.choice",
"Quot.sound",
"propext"
],
"Laplax.Props.C77_ece_column_labels": [
"Classical.choice",
"Quot.sound",
"propext"
],
"Laplax.Props.C78_laplace_bridge": [
"Classical.choice",
"Quot.sound",
"propext"
],
"Laplax.Props.C78_laplace_bridge_values": [
"Classical.choice",
"Quot.sound",
"propext"
],
"Laplax.Props.C78_linearized_average": [
"Classical.choice",
"Quot.sound",
"propext"
],
"Laplax.Props.C78_linearized_special": [
"Classical.choice",
"Quot.sound",
"propext"
],
"Laplax.Props.C78_mean_field_0": [
"Classical.choice",
"Quot.sound",
"propext"
],
"Laplax.Props.C78_mean_field_1": [
"Classical.choice",
"Quot.sound",
"propext"
],
"Laplax.Props.C78_sampled_average": [
"Classical.choice",
"Quot.sound",
"propext"
],
"Laplax.Props.C78_sampled_special": [
"Classical.choice",
"Quot.sound",
"propext"
],
"Laplax.Props.C78_scalar_outputs": [
"Classical.choice",
"Quot.sound",
"propext"
],
"Laplax.Props.C78_what_sums_to_one": [
"Classical.choice",
"Quot.sound",
"propext"
],
"Laplax.Props.C79_evidence": [
"Classical.choice",
"Quot.sound",
"propext"
],
"Laplax.Props.C79_lanczos": [
"Classical.choice",
"Quot.sound",
"propext"
],
"Laplax.Props.C79_more_eigenpairs": [
"Classical.choice",
"Quot.sound",
"propext"
],
"Laplax.Props.C79_predictive_variances": [
"Classical.choice",
"Quot.sound",
"propext"
],
"Laplax.Props.C79_ritz_pairs_overconfident": [
"Classical.choice",
"Quot.sound",
"propext"
],
"Laplax.Props.C79_weight_variances": [
"Classical.choice",
"Quot.sound",
"propext"
],
"Laplax.Props.C80_label_noise": [
"Classical.choice",
"Quot.sound",
"propext"
],
"Laplax.Props.C80_more_bins_can_hide_errors": [
"Classical.choice",
"Quot.sound",
"propext"
],
"Laplax.Props.C80_order_and_duplicates": [
"Classical.choice",
"Quot.sound",
"propext"
],
"Laplax.Props.C80_pooling": [
"Classical.choice",
"Quot.sound",
"propext"
],
"Laplax.Props.C80_refinement": [
"Classical.choice",
"Quot.sound",
"propext"
],
"Laplax.Props.C81_average_variance": [
"Classical.choice",
"Quot.sound",
"propext"
],
"Laplax.Props.C82_conditioning": [
"Classical.choice",
"Quot.sound",
"propext"
],
"Laplax.Props.C82_influence": [
"Classical.choice",
"Quot.sound",
"propext"
],
"Laplax.Props.C82_observed_binary": [
"Classical.choice",
"Quot.sound",
"propext"
],
"Laplax.Props.C82_observed_regression": [
"Classical.choice",
"Quot.sound",
"propext"
],
"Laplax.Props.C83_continuous_in_input": [
"Classical.choice",
"Quot.sound",
"propext"
],
"Laplax.Props.C83_continuous_in_parameters": [
"Classical.choice",
"Quot.sound",
"propext"
],
"Laplax.Props.C83_curvature_error": [
"Classical.choice",
"Quot.sound",
"propext"
],
"Laplax.Props.C84_diagonal_depends": [
"Classical.choice",
"Quot.sound",
"propext"
],
"Laplax.Props.C84_evidence": [
"Classical.choice",
"Quot.sound",
"propext"
],
"Laplax.Props.C84_only_similarities": [
"Classical.choice",
"Quot.sound",
"propext"
],
"Laplax.Props.C84_posterior": [
"Classical.choice",
"Quot.sound",
"propext"
],
"Laplax.Props.C84_predictive": [
"Classical.choice",
"Quot.sound",
"propext"
],
"Laplax.Props.C84_workflow": [
"Classical.choice",
"Quot.sound",
"propext"
]
}