{
 "claims": [
  {
   "property": "C01",
   "status": "proved",
   "theorems": [
    "Laplax.Props.C01_unflatten_flatten",
    "Laplax.Props.C01_flatten_unflatten",
    "Laplax.Props.C01_wrong_length_raises"
   ],
   "note": "Proved in full. Modelled: `create_pytree_flattener`, `cumsum`, `full_flatten` (util/flatten.py) in `Model/Flatten.lean`; pytrees and arrays in `Model/Base.lean`. Method: mutual induction on pytrees; the split points of `cumsum` are handled by an induction over leaf sizes with an offset (`Lib/TreeLemmas*`)."
  },
  {
   "property": "C02",
   "status": "proved",
   "theorems": [
    "Laplax.Props.C02_full_flatten"
   ],
   "note": "Proved in full. Modelled: `full_flatten`, `get_size`. Method: case split on the list of leaves, lengths by induction."
  },
  {
   "property": "C03",
   "status": "proved",
   "theorems": [
    "Laplax.Props.C03_partial_roundtrip",
    "Laplax.Props.C03_partial_roundtrip_inv",
    "Laplax.Props.C03_unravel_rows",
    "Laplax.Props.C03_unravel_any_axis",
    "Laplax.Props.C03_unravel_scalar_raises"
   ],
   "note": "Proved in full. Modelled: `create_partial_pytree_flattener`, `unravel_array_into_pytree` for an arbitrary axis (`Model/Flatten.lean`). Method: list-chunk lemmas; the general-axis theorem is stated through multi-indices of the array."
  },
  {
   "property": "C04",
   "status": "proved",
   "theorems": [
    "Laplax.Props.C04_wrap_function",
    "Laplax.Props.C04_last_argument_negative",
    "Laplax.Props.C04_wrap_function_out_of_range",
    "Laplax.Props.C04_wrap_twice",
    "Laplax.Props.C04_wrap_factory",
    "Laplax.Props.C04_flatten_function"
   ],
   "note": "Negative positions other than -1 are normalised as in python; position -1 is characterised separately (C04_last_argument_negative): the other arguments are then passed twice."
  },
  {
   "property": "C05",
   "status": "proved",
   "theorems": [
    "Laplax.Props.C05_tree_arithmetic",
    "Laplax.Props.C05_constants",
    "Laplax.Props.C05_structure_mismatch_raises"
   ],
   "note": "Proved in full. Modelled: `add, sub, neg, mul, zeros_like, ones_like` on pytrees (`Model/TreeOps.lean`). Method: induction on pytrees; entries of the result as a list operation on entries."
  },
  {
   "property": "C06",
   "status": "proved",
   "theorems": [
    "Laplax.Props.C06_basis_vector",
    "Laplax.Props.C06_negative_index",
    "Laplax.Props.C06_tree_vec_get",
    "Laplax.Props.C06_tree_vec_get_clamps"
   ],
   "note": "Proved in full. Modelled: `basis_vector_from_index`, `tree_vec_get`, `jnp.searchsorted`. Method: prefix-sum induction over the leaves including zero-size leaves."
  },
  {
   "property": "C07",
   "status": "proved",
   "theorems": [
    "Laplax.Props.C07_eye_like_agree",
    "Laplax.Props.C07_eye_like_slices",
    "Laplax.Props.C07_eye_like_no_leaves"
   ],
   "note": "Proved in full. Modelled: `eye_like`, `eye_like_with_basis_vector`, `tree_slice`. Method: slices of the stacked identity against C06."
  },
  {
   "property": "C08",
   "status": "proved",
   "theorems": [
    "Laplax.Props.C08_to_dense_int_columns",
    "Laplax.Props.C08_to_dense_tree_columns",
    "Laplax.Props.C08_to_dense_linear",
    "Laplax.Props.C08_to_dense_none_raises",
    "Laplax.Props.C08_to_dense_tree_valued",
    "Laplax.Props.C08_to_dense_int_tree_valued"
   ],
   "note": "Proved in full. Modelled: `to_dense` with int and pytree layouts, `lax.map` with batch sizes (`Model/Mv.lean`). Method: columns by evaluation; linear extension over the standard basis."
  },
  {
   "property": "C09",
   "status": "proved",
   "theorems": [
    "Laplax.Props.C09_diagonal_int",
    "Laplax.Props.C09_diagonal_tree",
    "Laplax.Props.C09_diagonal_eq_diag_of_dense",
    "Laplax.Props.C09_diagonal_no_layout"
   ],
   "note": "Proved in full. Modelled: `diagonal` for arrays and callables. Method: entrywise against C08."
  },
  {
   "property": "C10",
   "status": "proved",
   "theorems": [
    "Laplax.Props.C10_reduce_sum",
    "Laplax.Props.C10_reduce_concat",
    "Laplax.Props.C10_reduce_online_mean",
    "Laplax.Props.C10_partition_invariance",
    "Laplax.Props.C10_reduce_add",
    "Laplax.Props.C10_reduce_add_partition",
    "Laplax.Props.C10_pytree",
    "Laplax.Props.C10_online_mean_scalar",
    "Laplax.Props.C10_reduce_sum_axis",
    "Laplax.Props.C10_reduce_concat_axis",
    "Laplax.Props.C10_axis_out_of_range",
    "Laplax.Props.C10_axis_zero"
   ],
   "note": "All four reductions on per-sample results (arrays with a leading sample axis, and pytrees of them; reduce_sum and reduce_concat also for samples stacked along any other axis). C10_online_mean_scalar records what reduce_online_mean does to scalar per-batch results, which have no sample axis: it averages over batches."
  },
  {
   "property": "C11",
   "status": "proved",
   "theorems": [
    "Laplax.Props.C11_empty_raises",
    "Laplax.Props.C11_visits_in_order",
    "Laplax.Props.C11_entry_points_visit_in_order",
    "Laplax.Props.C11_error_propagates",
    "Laplax.Props.C11_second_pass"
   ],
   "note": "Proved in full. Modelled: the four entry points and `DataLoaderMV`; a call log makes the visiting order observable. Method: induction on batches."
  },
  {
   "property": "C12",
   "status": "proved",
   "theorems": [
    "Laplax.Props.C12_call_is_summed_operator",
    "Laplax.Props.C12_to_dense",
    "Laplax.Props.C12_diagonal",
    "Laplax.Props.C12_wrap",
    "Laplax.Props.C12_default_reduce_collapses"
   ],
   "note": "Proved in full. Modelled: `DataLoaderMV` (`__call__`, `lower_func`, `input_transform`, `wrap_func`), the `to_dense`/`diagonal` registrations. Method: additivity of the fold; linearity for wrapped functions."
  },
  {
   "property": "C13",
   "status": "proved",
   "theorems": [
    "Laplax.Props.C13_precompute",
    "Laplax.Props.C13_beyond_the_list",
    "Laplax.Props.C13_errors"
   ],
   "note": "Proved in full. Modelled: `precompute_list`. Method: case split on the flag, `lax.map` = map."
  },
  {
   "property": "C14",
   "status": "proved",
   "theorems": [
    "Laplax.Props.C14_cross_entropy",
    "Laplax.Props.C14_cross_entropy_soft_targets",
    "Laplax.Props.C14_binary_cross_entropy",
    "Laplax.Props.C14_mse",
    "Laplax.Props.C14_custom",
    "Laplax.Props.C14_named_loss_psd"
   ],
   "note": "Proved in full. Modelled: the loss-Hessian products of curv/ggn.py in `Model/Loss.lean`; spec: second Fréchet derivative of the textbook loss. Method: `HasFDerivAt` computations; Cauchy–Schwarz for positive semidefiniteness."
  },
  {
   "property": "C15",
   "status": "proved",
   "theorems": [
    "Laplax.Props.C15_ggn_formula",
    "Laplax.Props.C15_ggn_formula_no_vmap",
    "Laplax.Props.C15_ggn_psd",
    "Laplax.Props.C15_create_ggn_mv_psd",
    "Laplax.Props.C15_ggn_permutation",
    "Laplax.Props.C15_ggn_additive"
   ],
   "note": "Proved in full. Modelled: `create_ggn_mv_without_data`, `create_ggn_mv` with `jax.linearize/linear_transpose/vmap` as Fréchet derivative, transpose, sum (`Model/Ggn.lean`). Method: linear algebra over `Matrix`; `Finset.sum` over permutations and `Fin.append`."
  },
  {
   "property": "C16",
   "status": "proved",
   "theorems": [
    "Laplax.Props.C16_cross_entropy",
    "Laplax.Props.C16_binary_cross_entropy",
    "Laplax.Props.C16_mse"
   ],
   "note": "Proved in full. Modelled: GGN and Hessian of the same loss for affine models. Method: chain rule for second derivatives."
  },
  {
   "property": "C17",
   "status": "proved",
   "theorems": [
    "Laplax.Props.C17_create_ggn_mv",
    "Laplax.Props.C17_loss_dispatch"
   ],
   "note": "Proved in full. Modelled: `create_loss_hessian_mv`, `create_ggn_mv` dispatch. Method: complete case analysis."
  },
  {
   "property": "C18",
   "status": "proved",
   "theorems": [
    "Laplax.Props.C18_hessian_mv",
    "Laplax.Props.C18_mse_order_and_batches",
    "Laplax.Props.C18_samplewise_order_and_batches",
    "Laplax.Props.C18_unsupported_losses",
    "Laplax.Props.C18_combined_values"
   ],
   "note": "Squared error and custom C^2 losses. C18_unsupported_losses proves that the remaining named losses are rejected (ValueError for binary cross-entropy and NONE; TypeError when the cross-entropy product is evaluated), C18_combined_values what is differentiated."
  },
  {
   "property": "C19",
   "status": "proved",
   "theorems": [
    "Laplax.Props.C19_full_posterior",
    "Laplax.Props.C19_full_posterior_psd",
    "Laplax.Props.C19_prior_prec_required",
    "Laplax.Props.C19_triangular_solver"
   ],
   "note": "Proved in full. Modelled: `full_prec_to_scale` with a Cholesky recursion and triangular solve written out in `Model/LinAlg.lean`, posterior state and products (`Model/Posterior.lean`). Method: Cholesky existence and correctness proved by block recursion; S Sᵀ = P⁻¹."
  },
  {
   "property": "C20",
   "status": "proved",
   "theorems": [
    "Laplax.Props.C20_diagonal_posterior",
    "Laplax.Props.C20_diagonal_is_posterior",
    "Laplax.Props.C20_diagonal_eq_full"
   ],
   "note": "Proved in full. Modelled: diagonal precision/scale/products. Method: entrywise."
  },
  {
   "property": "C21",
   "status": "proved",
   "theorems": [
    "Laplax.Props.C21_low_rank_posterior",
    "Laplax.Props.C21_low_rank_square",
    "Laplax.Props.C21_low_rank_eq_full"
   ],
   "note": "Proved in full. Modelled: low-rank precision, scale and covariance products. Method: orthonormal U: Woodbury-type identities by matrix algebra."
  },
  {
   "property": "C22",
   "status": "partial",
   "theorems": [
    "Laplax.Props.C22_same_posterior_partial",
    "Laplax.Props.C22_full_diagonal",
    "Laplax.Props.C22_low_rank_ignores_loss_scaling",
    "Laplax.Props.C22_low_rank_iff"
   ],
   "note": "Partial because the code violates the property: low_rank_curvature_to_precision divides only the prior by loss_scaling_factor. C22_same_posterior_partial proves agreement of all three for loss_scaling_factor = 1, C22_full_diagonal agreement of FULL and DIAGONAL for every factor, C22_low_rank_iff the exact condition for the low-rank kind (factor 1 or vanishing scaled curvature), C22_low_rank_ignores_loss_scaling a witness."
  },
  {
   "property": "C23",
   "status": "proved",
   "theorems": [
    "Laplax.Props.C23_orthonormal",
    "Laplax.Props.C23_first_vector",
    "Laplax.Props.C23_recurrence",
    "Laplax.Props.C23_tridiagonal",
    "Laplax.Props.C23_krylov",
    "Laplax.Props.C23_eigh_exists",
    "Laplax.Props.C23_low_rank_terms",
    "Laplax.Props.C23_full_rank_exact",
    "Laplax.Props.C23_breakdown_duplicates",
    "Laplax.Props.C23_breakdown_identity",
    "Laplax.Props.C23_no_reorthogonalisation_fails",
    "Laplax.Props.C23_rank_exceeds_dimension",
    "Laplax.Props.C23_lanczos_posterior_eq_full"
   ],
   "note": "Proved in full. Modelled: `lanczos_process`/`lanczos_iterations`, `compute_eigendecomposition`, `lanczos_lowrank` terms (`Model/Lanczos.lean`); `eigh` is a parameter with a specification whose satisfiability is proved. Method: loop invariant (orthonormal columns, three-term recurrence, Krylov span); witnesses for breakdown."
  },
  {
   "property": "C24",
   "status": "partial",
   "theorems": [
    "Laplax.Props.C24_restored_on_return_partial",
    "Laplax.Props.C24_flag_after_exception",
    "Laplax.Props.C24_always_restored_if_matching",
    "Laplax.Props.C24_violated",
    "Laplax.Props.C24_callable_needs_layout",
    "Laplax.Props.C24_default_dtypes"
   ],
   "note": "Partial because the code violates the property: the flag is not restored when the computation raises. C24_restored_on_return_partial proves the clause about normal returns; C24_flag_after_exception gives the exact value after an exception; C24_violated a witness."
  },
  {
   "property": "C25",
   "status": "partial",
   "theorems": [
    "Laplax.Props.C25_rank_partial",
    "Laplax.Props.C25_lowrank_outcome",
    "Laplax.Props.C25_violated"
   ],
   "note": "Partial because the code violates the property for size = 5*rank and size <= 5. C25_lowrank_outcome is the exact characterisation of when the solver's requirement is met."
  },
  {
   "property": "C26",
   "status": "proved",
   "theorems": [
    "Laplax.Props.C26_pytree_products",
    "Laplax.Props.C26_flat_products",
    "Laplax.Props.C26_create_posterior_full",
    "Laplax.Props.C26_create_posterior_diagonal",
    "Laplax.Props.C26_create_posterior_low_rank",
    "Laplax.Props.C26_full_needs_pytree_layout",
    "Laplax.Props.C26_default_loss_scaling"
   ],
   "note": "Pytree layouts for all methods, integer layouts for DIAGONAL and low rank. C26_full_needs_pytree_layout: FULL with an integer layout raises AttributeError."
  },
  {
   "property": "C27",
   "status": "partial",
   "theorems": [
    "Laplax.Props.C27_success",
    "Laplax.Props.C27_consistent_histories",
    "Laplax.Props.C27_builtin_methods",
    "Laplax.Props.C27_succeeds_iff",
    "Laplax.Props.C27_builtins_unchanged",
    "Laplax.Props.C27_failing_registration_partial",
    "Laplax.Props.C27_failing_registration_violated",
    "Laplax.Props.C27_calibration_registry",
    "Laplax.Props.C27_after_failure"
   ],
   "note": "Partial because the last clause is violated: a registration with an unknown default fails with KeyError after having written some tables (C27_failing_registration_violated). All other clauses are proved for every history. C27_after_failure gives the exact tables after a failing call."
  },
  {
   "property": "C28",
   "status": "proved",
   "theorems": [
    "Laplax.Props.C28_grid_search",
    "Laplax.Props.C28_unlimited",
    "Laplax.Props.C28_errors",
    "Laplax.Props.C28_failures_lose",
    "Laplax.Props.C28_optimize_prior_prec_range",
    "Laplax.Props.C28_exception_at_candidate",
    "Laplax.Props.C28_raises_only_if"
   ],
   "note": "Proved in full. Modelled: `grid_search`, `optimize_prior_prec` (`Model/Calibrate.lean`) with objectives that may return NaN or raise. Method: loop invariant: best-so-far is the first minimiser of the evaluated prefix."
  },
  {
   "property": "C29",
   "status": "partial",
   "theorems": [
    "Laplax.Props.C29_at_most_succ_partial",
    "Laplax.Props.C29_violated",
    "Laplax.Props.C29_truncates"
   ],
   "note": "Partial because the code evaluates m + 1 candidates (C29_violated); C29_at_most_succ_partial proves that bound. C29_truncates: max_iterations = m is exactly offering the first m + 1 candidates, for every objective, patience and exception."
  },
  {
   "property": "C30",
   "status": "proved",
   "theorems": [
    "Laplax.Props.C30_bin_of_confidence",
    "Laplax.Props.C30_bins_partition",
    "Laplax.Props.C30_out_of_range_clipped",
    "Laplax.Props.C30_bin_metrics",
    "Laplax.Props.C30_proportions",
    "Laplax.Props.C30_ece_value",
    "Laplax.Props.C30_mce_value",
    "Laplax.Props.C30_range",
    "Laplax.Props.C30_ece_bounds_overall_gap",
    "Laplax.Props.C30_zero_bins"
   ],
   "note": "Proved in full. Modelled: binning, `calculate_bin_metrics`, ECE, MCE (`Model/Metrics.lean`). Method: finite sums; spec in `Spec/Metrics.lean` by intervals."
  },
  {
   "property": "C31",
   "status": "proved",
   "theorems": [
    "Laplax.Props.C31_value",
    "Laplax.Props.C31_range",
    "Laplax.Props.C31_monotone",
    "Laplax.Props.C31_all_classes",
    "Laplax.Props.C31_correctness",
    "Laplax.Props.C31_top1_is_mean_correctness",
    "Laplax.Props.C31_one_hot_targets",
    "Laplax.Props.C31_empty_top_k",
    "Laplax.Props.C31_negative_k",
    "Laplax.Props.C31_any_top_k",
    "Laplax.Props.C31_all_negative",
    "Laplax.Props.C31_zero_classes",
    "Laplax.Props.C31_zero_classes_labels"
   ],
   "note": "Proved in full. Modelled: `accuracy`, `correctness`, `lax.top_k` with its tie-breaking. Method: counting ranks."
  },
  {
   "property": "C32",
   "status": "partial",
   "theorems": [
    "Laplax.Props.C32_cross_entropy_nonneg",
    "Laplax.Props.C32_gibbs",
    "Laplax.Props.C32_cross_entropy_one_hot",
    "Laplax.Props.C32_brier_value_partial",
    "Laplax.Props.C32_brier_disagrees",
    "Laplax.Props.C32_brier_orientation",
    "Laplax.Props.C32_rmse",
    "Laplax.Props.C32_chi_squared",
    "Laplax.Props.C32_nll",
    "Laplax.Props.C32_crps",
    "Laplax.Props.C32_shape_mismatch"
   ],
   "note": "Partial only in the Brier clause: multiclass_brier returns minus the Brier score divided by the number of classes (C32_brier_value_partial is the exact value, C32_brier_disagrees the disagreement). All other clauses are proved in full, CRPS against its integral definition."
  },
  {
   "property": "C33",
   "status": "partial",
   "theorems": [
    "Laplax.Props.C33_mean_field_1_normalised_iff",
    "Laplax.Props.C33_mean_field_2_normalised_iff",
    "Laplax.Props.C33_mean_field_0",
    "Laplax.Props.C33_mean_field_0_temperature",
    "Laplax.Props.C33_mean_field_1",
    "Laplax.Props.C33_mean_field_1_sums_to_one_partial",
    "Laplax.Props.C33_mean_field_1_not_normalised",
    "Laplax.Props.C33_mean_field_2",
    "Laplax.Props.C33_mean_field_2_well_defined",
    "Laplax.Props.C33_mean_field_2_sums_to_one_partial",
    "Laplax.Props.C33_mean_field_2_not_normalised",
    "Laplax.Props.C33_bridge_one_dimensional_raises",
    "Laplax.Props.C33_bridge_total_mass_partial",
    "Laplax.Props.C33_bridge_columns_not_probabilities",
    "Laplax.Props.C33_bridge_spec_isProb",
    "Laplax.Props.C33_bridge_wrong_class_count"
   ],
   "note": "Partial because with three or more classes mean_field_1 sums to one for every mean exactly when all variances agree, and mean_field_2 exactly when all pairwise difference variances agree (both proved as iff), and because the Laplace bridge raises on vectors and normalises over the whole array on matrices (negations proved). mean_field_0 is proved in full."
  },
  {
   "property": "C34",
   "status": "partial",
   "theorems": [
    "Laplax.Props.C34_joint",
    "Laplax.Props.C34_joint_ignores_sigma_squared",
    "Laplax.Props.C34_default_loss_scaling",
    "Laplax.Props.C34_full",
    "Laplax.Props.C34_diagonal",
    "Laplax.Props.C34_full_eq_diagonal",
    "Laplax.Props.C34_low_rank_partial",
    "Laplax.Props.C34_low_rank_error",
    "Laplax.Props.C34_low_rank_wrong"
   ],
   "note": "Partial in the low-rank clause: the low-rank log determinant is right only for scalar part 1 (C34_low_rank_partial; C34_low_rank_error is the exact error for every scalar part and, at full rank, the exact condition; C34_low_rank_wrong a witness); also joint_log_likelihood reads the key 'sigma', so sigma_squared is ignored (C34_joint_ignores_sigma_squared)."
  },
  {
   "property": "C35",
   "status": "proved",
   "theorems": [
    "Laplax.Props.C35_linearized_predictive",
    "Laplax.Props.C35_predictive_covariance_psd",
    "Laplax.Props.C35_full_laplace_predictive",
    "Laplax.Props.C35_setup_required",
    "Laplax.Props.C35_matrix_outputs_raise",
    "Laplax.Props.C35_laplace_bridge_raises"
   ],
   "note": "Scalar and vector outputs; C35_matrix_outputs_raise and C35_laplace_bridge_raises prove the two failure modes found."
  },
  {
   "property": "C36",
   "status": "partial",
   "theorems": [
    "Laplax.Props.C36_special_predictives",
    "Laplax.Props.C36_sampled_predictive",
    "Laplax.Props.C36_order_independent_partial",
    "Laplax.Props.C36_variance_depends_on_order",
    "Laplax.Props.C36_sample_covariance_psd",
    "Laplax.Props.C36_zero_samples_raise",
    "Laplax.Props.C36_special_needs_variance"
   ],
   "note": "Partial because pred_var and pred_std use ddof 0 or 1 depending on whether pred_cov / pred_var were requested before. C36_sampled_predictive is the exact value for every history of requests; C36_order_independent_partial proves independence for the histories that request covariance before variance before standard deviation; C36_variance_depends_on_order the violation."
  },
  {
   "property": "C37",
   "status": "proved",
   "theorems": [
    "Laplax.Props.C37_kernel_products",
    "Laplax.Props.C37_dense_kernel",
    "Laplax.Props.C37_dense_needs_layout",
    "Laplax.Props.C37_num_samples_raises"
   ],
   "note": "Proved in full. Modelled: `set_posterior_gp_kernel`, `kernel_mv`. Method: Gram matrix = A C Aᵀ."
  },
  {
   "property": "C38",
   "status": "proved",
   "theorems": [
    "Laplax.Props.C38_finalize_append",
    "Laplax.Props.C38_apply_fns",
    "Laplax.Props.C38_apply_fns_errors",
    "Laplax.Props.C38_apply_fns_aux_alias",
    "Laplax.Props.C38_duplicate_keyword",
    "Laplax.Props.C38_transfer_entry",
    "Laplax.Props.C38_transfer_entry_errors"
   ],
   "note": "Proved in full. Modelled: `finalize_fns`, `apply_fns`, `transfer_entry` (`Model/EvalUtils.lean`) on dictionaries. Method: induction over the function list."
  },
  {
   "property": "C39",
   "status": "partial",
   "theorems": [
    "Laplax.Props.C39_list_unchanged_partial",
    "Laplax.Props.C39_list_mutation_violated",
    "Laplax.Props.C39_generator_reduces_all",
    "Laplax.Props.C39_dataset_reduces_all",
    "Laplax.Props.C39_edge_cases"
   ],
   "note": "Partial because evaluate_metrics_on_dataset wraps the entries of the caller's list in place (C39_list_mutation_violated)."
  },
  {
   "property": "C40",
   "status": "proved",
   "theorems": [
    "Laplax.Props.C40_convert_to_enum",
    "Laplax.Props.C40_documented_values",
    "Laplax.Props.C40_any_case_spelling",
    "Laplax.Props.C40_str_to_bool"
   ],
   "note": "Proved in full. Modelled: `_convert_to_enum`, `str_to_bool` (`Model/Api.lean`). Method: complete case analysis; `lower` is a parameter with its specification."
  },
  {
   "property": "C41",
   "status": "partial",
   "theorems": [
    "Laplax.Props.C41_laplace_one_shot_rejected",
    "Laplax.Props.C41_ggn_one_shot_rejected",
    "Laplax.Props.C41_ggn_reiterable_uses_all",
    "Laplax.Props.C41_evaluation_partial",
    "Laplax.Props.C41_evaluation_violated"
   ],
   "note": "Partial because evaluation drops the first batch of a one-shot iterator (C41_evaluation_violated). laplace/GGN reject one-shot iterators (proved)."
  },
  {
   "property": "C42",
   "status": "partial",
   "theorems": [
    "Laplax.Props.C42_functional_scaling",
    "Laplax.Props.C42_replication_invariant",
    "Laplax.Props.C42_laplace_factor_partial",
    "Laplax.Props.C42_laplace_factor_violated",
    "Laplax.Props.C42_laplace_witness",
    "Laplax.Props.C42_laplace_correct_iff",
    "Laplax.Props.C42_laplace_replicated_data",
    "Laplax.Props.C42_shuffled_batch_unbiased",
    "Laplax.Props.C42_resampled_batch_unbiased",
    "Laplax.Props.C42_laplace_shuffled_batch"
   ],
   "note": "Partial because laplace passes the inverse factor num_curv/num_total (C42_laplace_factor_violated, C42_laplace_witness). C42_laplace_correct_iff shows, end to end, that it returns the property's curvature exactly when the two counts are equal or the curvature sum is zero; C42_laplace_replicated_data that replicating the data k times multiplies it by k^2 instead of leaving it unchanged. The functional interface is proved in full."
  },
  {
   "property": "C43",
   "status": "partial",
   "theorems": [
    "Laplax.Props.C43_tuple_is_one_batch",
    "Laplax.Props.C43_mapping_is_one_batch",
    "Laplax.Props.C43_rejected",
    "Laplax.Props.C43_array_rejected",
    "Laplax.Props.C43_list_pair_partial",
    "Laplax.Props.C43_list_pair_violated"
   ],
   "note": "Partial because a two-element list is accepted by validation but not treated as one batch (C43_list_pair_violated)."
  },
  {
   "property": "C44",
   "status": "partial",
   "theorems": [
    "Laplax.Props.C44_linear",
    "Laplax.Props.C44_nonlinear_partial",
    "Laplax.Props.C44_nonlinear_pred_act_violated",
    "Laplax.Props.C44_custom",
    "Laplax.Props.C44_invalid_names",
    "Laplax.Props.C44_get_pred_act"
   ],
   "note": "Partial because the nonlinear pushforward with a classification predictive never publishes pred_act (C44_nonlinear_pred_act_violated)."
  },
  {
   "property": "C45",
   "status": "proved",
   "theorems": [
    "Laplax.Props.C45_objective_table",
    "Laplax.Props.C45_objective_names",
    "Laplax.Props.C45_model_required_for_every_objective"
   ],
   "note": "Proved in full. Modelled: `_build_calibration_objective`. Method: complete decision table."
  },
  {
   "property": "C46",
   "status": "proved",
   "theorems": [
    "Laplax.Props.C46_resolve_metrics"
   ],
   "note": "Proved in full. Modelled: `_resolve_metrics`. Method: complete decision table."
  },
  {
   "property": "C47",
   "status": "proved",
   "theorems": [
    "Laplax.Props.C47_laplace_curvature",
    "Laplax.Props.C47_rejected_calls",
    "Laplax.Props.C47_batching_independent",
    "Laplax.Props.C47_posterior",
    "Laplax.Props.C47_linearized_predictive_full",
    "Laplax.Props.C47_linearized_predictive",
    "Laplax.Props.C47_custom_loss"
   ],
   "note": "Proved in full. Modelled: `laplace` end to end (`Model/Laplace.lean`): data routing, GGN product on pytrees, curvature estimation, posterior, linearised predictive. Method: composition of C10–C12, C15, C19–C23, C26, C35."
  },
  {
   "property": "C48",
   "status": "proved",
   "theorems": [
    "Laplax.Props.C48_kernels_exist",
    "Laplax.Props.C48_orthonormalize",
    "Laplax.Props.C48_extend_basis",
    "Laplax.Props.C48_project_out",
    "Laplax.Props.C48_ritz_pairs",
    "Laplax.Props.C48_stopping",
    "Laplax.Props.C48_monotone_and_bounded",
    "Laplax.Props.C48_low_rank_terms",
    "Laplax.Props.C48_zero_column_loses_direction"
   ],
   "note": "For every kernel triple satisfying the specification of eigh/qr/svd in Spec/Lobpcg (C48_kernels_exist: such kernels exist). C48_zero_column_loses_direction is a finding about the keep mask of _svqb."
  },
  {
   "property": "C49",
   "status": "proved",
   "theorems": [
    "Laplax.Props.C49_get_matvec",
    "Laplax.Props.C49_callable_needs_layout",
    "Laplax.Props.C49_methods",
    "Laplax.Props.C49_form_independent",
    "Laplax.Props.C49_lanczos",
    "Laplax.Props.C49_lobpcg",
    "Laplax.Props.C49_defaults",
    "Laplax.Props.C49_operator_exception",
    "Laplax.Props.C49_lanczos_result",
    "Laplax.Props.C49_laplace_lanczos"
   ],
   "note": "Proved in full. Modelled: the complete drivers on python operators that may raise (`Model/LowRank.lean`); algorithms as adaptive sequences of products. Method: the same algorithm tree is run on each operator form; induction over it."
  },
  {
   "property": "C50",
   "status": "proved",
   "theorems": [
    "Laplax.Props.C50_weight_samples",
    "Laplax.Props.C50_precompute_keyword_raises",
    "Laplax.Props.C50_index_beyond_samples",
    "Laplax.Props.C50_weight_sample_law",
    "Laplax.Props.C50_predictive_sample_law"
   ],
   "note": "Proved in full. Modelled: `set_get_weight_sample`, `normal_like`, `lin_samples`; the PRNG is an arbitrary family of generators indexed by a probability space. Method: C13, C26, C35 and characteristic functions of affine images of standard normal vectors (`Lib/GaussianAffine`)."
  },
  {
   "property": "C51",
   "status": "proved",
   "theorems": [
    "Laplax.Props.C51_linear_predictive",
    "Laplax.Props.C51_nonlinear_predictive",
    "Laplax.Props.C51_laplace_bridge_raises",
    "Laplax.Props.C51_nonlinear_needs_samples"
   ],
   "note": "Proved in full. Modelled: `_setup_pushforward` and the setters it selects (`Model/ApiPredictive`), on top of the pushforward steps of C35/C36. Method: Footprint lemmas: each step writes only its own keys (`Lib/ApiPredictiveLemmas`), then C35, C36, C26 per key."
  },
  {
   "property": "C52",
   "status": "proved",
   "theorems": [
    "Laplax.Props.C52_nll",
    "Laplax.Props.C52_chi_squared",
    "Laplax.Props.C52_nll_classification",
    "Laplax.Props.C52_ece",
    "Laplax.Props.C52_marginal_likelihood",
    "Laplax.Props.C52_without_patience",
    "Laplax.Props.C52_range",
    "Laplax.Props.C52_shape_mismatch_silent",
    "Laplax.Props.C52_one_hot_labels_silent",
    "Laplax.Props.C52_cross_entropy_evidence_raises",
    "Laplax.Props.C52_nll_nonlinear",
    "Laplax.Props.C52_ece_nonlinear_raises",
    "Laplax.Props.C52_unreadable_batch",
    "Laplax.Props.C52_max_iterations_ignored",
    "Laplax.Props.C52_methods"
   ],
   "note": "Proved in full. Modelled: `calibration`, the objectives and `evaluate_for_given_prior_arguments` (`Model/ApiCalibration`) on top of the grid search of C28, the predictives of C51, the metrics of C32/C30 and the evidence of C34. Method: Per-point predictions stacked key by key (`Lib/ApiCalibrationLemmas`); the metric of the stack is rewritten into sums over points and entries; the grid search theorem C28 gives the choice."
  },
  {
   "property": "C53",
   "status": "proved",
   "theorems": [
    "Laplax.Props.C53_batching",
    "Laplax.Props.C53_same_points",
    "Laplax.Props.C53_reduce",
    "Laplax.Props.C53_one_shot_drops_first",
    "Laplax.Props.C53_loader_ignores_reduce",
    "Laplax.Props.C53_regression",
    "Laplax.Props.C53_regression_nonlinear",
    "Laplax.Props.C53_classification_raises",
    "Laplax.Props.C53_one_hot_point_broadcasts"
   ],
   "note": "The default classification metrics raise TypeError on all data (C53_classification_raises), a finding outside the statement; user-defined metric lists are covered by C53_batching for arbitrary step functions."
  },
  {
   "property": "C54",
   "status": "proved",
   "theorems": [
    "Laplax.Props.C54_regression_workflow",
    "Laplax.Props.C54_evidence_workflow",
    "Laplax.Props.C54_classification_workflow_raises",
    "Laplax.Props.C54_data_layout_independent",
    "Laplax.Props.C54_lanczos_workflow",
    "Laplax.Props.C54_lobpcg_workflow",
    "Laplax.Props.C54_sampled_workflow",
    "Laplax.Props.C54_training_layout_independent"
   ],
   "note": "Low-rank estimates are covered under the condition that the algorithm returned orthonormal columns and non-negative values (C23/C48 give that condition)."
  },
  {
   "property": "C55",
   "status": "proved",
   "theorems": [
    "Laplax.Props.C55_statistics_axes",
    "Laplax.Props.C55_axes_leaves",
    "Laplax.Props.C55_statistics_axes_raises",
    "Laplax.Props.C55_statistics_one_axis",
    "Laplax.Props.C55_statistics_every_axis",
    "Laplax.Props.C55_statistics_axis",
    "Laplax.Props.C55_statistics_all",
    "Laplax.Props.C55_statistics_axis_raises",
    "Laplax.Props.C55_statistics_axis_zero",
    "Laplax.Props.C55_covariance_keywords",
    "Laplax.Props.C55_unreadable_leaves",
    "Laplax.Props.C55_slice_bounds",
    "Laplax.Props.C55_ensemble_statistics",
    "Laplax.Props.C55_scalar_leaf_raises",
    "Laplax.Props.C55_ensemble_covariance",
    "Laplax.Props.C55_covariance_rejects",
    "Laplax.Props.C55_slice",
    "Laplax.Props.C55_sqrt",
    "Laplax.Props.C55_invert_raises",
    "Laplax.Props.C55_tree_matvec",
    "Laplax.Props.C55_hessian_product_iff",
    "Laplax.Props.C55_tree_matvec_leaves",
    "Laplax.Props.C55_tree_partialmatvec",
    "Laplax.Props.C55_tree_partialmatvec_raises",
    "Laplax.Props.C55_allclose",
    "Laplax.Props.C55_allclose_order"
   ],
   "note": "Proved in full. Modelled: the functions of `util/tree.py` on floating-point leaves (`Model/TreeStats`, `Model/TreeAxis`): statistics along any axis or over all entries with `ddof` and `keepdims`, `cov` with all its keywords, slices with any python bounds; reshapes and products as external array functions with their errors. Method: column statistics of concatenated leaves are the concatenated statistics (induction over the leaves); block products by induction over the blocks; the exact condition for Hessian trees uses a single unit entry as counterexample for every pair of leaves with at least two entries each. Along other axes: row-major index arithmetic; slices: the clamped bounds select exactly the positions between the bounds (induction over the list)."
  },
  {
   "property": "C56",
   "status": "proved",
   "theorems": [
    "Laplax.Props.C56_collects_all",
    "Laplax.Props.C56_errors",
    "Laplax.Props.C56_linear_predictive"
   ],
   "note": "Proved in full. Modelled: `evaluate_on_dataset` with its batch-size keywords, `lax.map` with remainder batches and key-wise stacking (`Model/EvalDataset`). Method: chunked map = map; the stacked dictionary key by key; composition with C51."
  },
  {
   "property": "C57",
   "status": "proved",
   "theorems": [
    "Laplax.Props.C57_broadcast",
    "Laplax.Props.C57_tree_add_sub",
    "Laplax.Props.C57_equal_shapes",
    "Laplax.Props.C57_rmse_all_pairs",
    "Laplax.Props.C57_rmse_of_perfect_predictions",
    "Laplax.Props.C57_chi_squared_all_pairs",
    "Laplax.Props.C57_rejections",
    "Laplax.Props.C57_keyword_metrics",
    "Laplax.Props.C57_chi_squared_calibration",
    "Laplax.Props.C57_evidence_calibration",
    "Laplax.Props.C57_evaluation_raises",
    "Laplax.Props.C57_evidence_incompatible",
    "Laplax.Props.C57_class_labels_evidence",
    "Laplax.Props.C57_unknown_loss_silent"
   ],
   "note": "Proved in full. Modelled: numpy broadcasting of row-major arrays (`Model/Broadcast`), used by `Arr.zipWith` (pytree add/sub), `estimateRmseArr`, `chiSquaredArr`, `mseLossArr`, the keyword metrics, the chi-squared and evidence objectives. Method: entries of `bcTo` by multi-index (induction over the axes); column/row special cases as double sums; composition with C51-C53. Evidence on unequal shapes: the loss raises inside the objective (`mll_incompatible`), and all-infinite scores select the first grid point."
  },
  {
   "property": "C58",
   "status": "partial",
   "theorems": [
    "Laplax.Props.C58_default_options",
    "Laplax.Props.C58_options_do_not_matter_partial",
    "Laplax.Props.C58_hessian",
    "Laplax.Props.C58_cross_entropy_raises",
    "Laplax.Props.C58_mean_loss",
    "Laplax.Props.C58_cross_entropy_one_output"
   ],
   "note": "Partial: proved for curv_mv_jit and all losses, and for vmap_over_data=False with mse, binary_cross_entropy, none and callables that sum over the samples (mean losses: C58_mean_loss). The claim is false for the built-in cross_entropy with vmap_over_data=False: two or more classes raise TypeError (C58_cross_entropy_raises), one output gives a wrong, indefinite curvature (C58_cross_entropy_one_output)."
  },
  {
   "property": "C59",
   "status": "proved",
   "theorems": [
    "Laplax.Props.C59_low_rank_keywords",
    "Laplax.Props.C59_full_and_diagonal_ignore_keywords",
    "Laplax.Props.C59_reserved_keywords",
    "Laplax.Props.C59_lanczos_needs_key",
    "Laplax.Props.C59_method_overrides_type",
    "Laplax.Props.C59_lobpcg_posterior"
   ],
   "note": "Proved in full. Modelled: `laplaceKw` (`Model/LaplaceKwargs`): the keyword arguments as the record of driver keywords, `low_rank_method` and the names of all other keywords; `kindOfKwargs` and `lowRankKind` are the dispatch of `estimate_curvature` and `create_low_rank_curvature`. Method: `laplaceWith_matrix` reduces the call to an adaptive algorithm on the matrix num_curv/num_total · Σ Jᵀ H J; both that and `create_low_rank_curvature` (C49) run the same algorithm; the LOBPCG posterior then follows from C48 and `posterior_of_estimate`."
  },
  {
   "property": "C60",
   "status": "partial",
   "theorems": [
    "Laplax.Props.C60_evidence_partial",
    "Laplax.Props.C60_other_objectives",
    "Laplax.Props.C60_default_per_sample",
    "Laplax.Props.C60_registered_method",
    "Laplax.Props.C60_cross_entropy_raises",
    "Laplax.Props.C60_unknown_loss_silent",
    "Laplax.Props.C60_low_rank_score",
    "Laplax.Props.C60_spelling_raises",
    "Laplax.Props.C60_low_rank_type_silent",
    "Laplax.Props.C60_array_type_on_low_rank",
    "Laplax.Props.C60_full_type_on_diagonal",
    "Laplax.Props.C60_diagonal_type_on_full",
    "Laplax.Props.C60_batched_model_fails"
   ],
   "note": "Partial: proved for dense and diagonal positive semidefinite estimates with the type as a member or exact value, both values of vmap_over_data, all targets shaped like the outputs, and for the other objectives without restriction. The code violates the rest: other spellings that laplace accepts raise KeyError, a low-rank type with another estimate silently returns the smallest grid precision, 'full' with a diagonal estimate and 'diagonal' with a dense one silently use wrong determinants, low-rank estimates use another formula, a ValueError of a batched model is swallowed - each with its exact outcome as a theorem."
  },
  {
   "property": "C61",
   "status": "partial",
   "theorems": [
    "Laplax.Props.C61_posterior_exact",
    "Laplax.Props.C61_predictive_exact",
    "Laplax.Props.C61_evidence_exact_iff",
    "Laplax.Props.C61_evidence_partial",
    "Laplax.Props.C61_calibration_score"
   ],
   "note": "Posterior and predictive are proved in full. The evidence is partial because the code weights the likelihood with 1/(2 sigma) but the curvature with sigma_squared: marginal_log_likelihood is exact exactly when 2*sigma*sigma_squared = 1 or the curvature vanishes, and strictly too small with the defaults (C61_evidence_exact_iff, C61_calibration_score)."
  },
  {
   "property": "C62",
   "status": "proved",
   "theorems": [
    "Laplax.Props.C62_prior_arguments",
    "Laplax.Props.C62_larger_curvature",
    "Laplax.Props.C62_low_rank",
    "Laplax.Props.C62_more_data"
   ],
   "note": "Proved in full. Modelled: no new code: `laplace`, `setPosteriorFn`, `setPushforward` and the selection by name as before; `Spec/Uncertainty` says what a predictive reports. Method: C51 gives the reported variances as the diagonal of J P⁻¹ Jᵀ; inversion reverses the Loewner order (`inv_antitone`, by completing the square); the precisions differ by multiples of the curvature and the identity, by the GGN of the extra samples, or by (I-UUᵀ)G(I-UUᵀ) for dropped eigenpairs."
  },
  {
   "property": "C63",
   "status": "proved",
   "theorems": [
    "Laplax.Props.C63_targets_ignored",
    "Laplax.Props.C63_parameter_layout",
    "Laplax.Props.C63_workflow_parameter_layout",
    "Laplax.Props.C63_evidence_parameter_layout",
    "Laplax.Props.C63_evidence_workflow_parameter_layout"
   ],
   "note": "Proved in full. Modelled: no new code; `Spec.rearranged` is the model that reads its parameters from permuted positions. Method: the Hessian products of the named losses do not use the target; the Jacobian of a rearranged model is a column permutation (chain rule with a linear equivalence), so curvature, precision and its inverse are permuted in the same way and J P⁻¹ Jᵀ is unchanged; the choice of a grid search is unique (`chosen_unique`)."
  },
  {
   "property": "C64",
   "status": "partial",
   "theorems": [
    "Laplax.Props.C64_breakdown_posterior",
    "Laplax.Props.C64_positive_semidefinite_iff",
    "Laplax.Props.C64_without_breakdown_partial",
    "Laplax.Props.C64_rank_exceeds_parameters",
    "Laplax.Props.C64_one_parameter",
    "Laplax.Props.C64_laplace_negative_variance",
    "Laplax.Props.C64_one_parameter_predictive"
   ],
   "note": "Partial because the code violates it: proved without breakdown; after a breakdown the exact covariance, the exact condition for positive semidefiniteness (C64_positive_semidefinite_iff) and, through laplace with default keywords, a negative variance (C64_laplace_negative_variance) are proved."
  },
  {
   "property": "C65",
   "status": "partial",
   "theorems": [
    "Laplax.Props.C65_loss_hessian",
    "Laplax.Props.C65_create_ggn_mv",
    "Laplax.Props.C65_hessian",
    "Laplax.Props.C65_layout_required",
    "Laplax.Props.C65_lanczos_needs_key",
    "Laplax.Props.C65_process_batches",
    "Laplax.Props.C65_array_operations",
    "Laplax.Props.C65_pytree_where_array_expected",
    "Laplax.Props.C65_register",
    "Laplax.Props.C65_metric_plumbing",
    "Laplax.Props.C65_gaussian_metrics",
    "Laplax.Props.C65_batch_validation",
    "Laplax.Props.C65_unvalidated_data",
    "Laplax.Props.C65_ggn_api_shape_test",
    "Laplax.Props.C65_setup_pushforward",
    "Laplax.Props.C65_resolve_metrics",
    "Laplax.Props.C65_calibration_method",
    "Laplax.Props.C65_to_dense_partial"
   ],
   "note": "Exact conditions proved for every modelled check with a Raises section. Partial because the full claim is false for to_dense (ValueError instead of TypeError for None, C65_to_dense_partial); also the ValueError documented by set_posterior_fn is unreachable (isinstance(_, PyTree) always holds), the TypeErrors of lin_setup and apply_fns concern objects of the wrong python type, which the typed model cannot represent."
  },
  {
   "property": "C66",
   "status": "proved",
   "theorems": [
    "Laplax.Props.C66_mean_concentrates",
    "Laplax.Props.C66_probabilities_concentrate",
    "Laplax.Props.C66_sampled_mean_and_covariance",
    "Laplax.Props.C66_sampled_variance",
    "Laplax.Props.C66_sampled_probabilities",
    "Laplax.Props.C66_linearized_probabilities",
    "Laplax.Props.C66_affine_model"
   ],
   "note": "Real numbers and an idealised PRNG: the draws of different samples are assumed to be independent standard normal vectors; JAX's generator is deterministic. The moments of the outputs are assumed for pred_mean/pred_cov/pred_var and hold automatically for mc_pred_act and for affine models."
  },
  {
   "property": "C67",
   "status": "proved",
   "theorems": [
    "Laplax.Props.C67_same_posterior",
    "Laplax.Props.C67_class_probabilities",
    "Laplax.Props.C67_linearized_predictive",
    "Laplax.Props.C67_sampled_predictive",
    "Laplax.Props.C67_named_predictive",
    "Laplax.Props.C67_scores",
    "Laplax.Props.C67_ties_depend_on_labels"
   ],
   "note": "Proved in full. Modelled: nothing new: laplace, the pushforwards, the predictives and the metrics with the model `relabelled net π`. Method: the Jacobian of the relabelled model is the Jacobian with permuted rows (no differentiability needed); the Hessian products of the named losses commute with permutations, so the GGN products and by C47 the whole result of laplace agree; C35/C36/C51 give every key as a function of output, Jacobian, posterior and the (same) draws, and these functions commute with permutations; the scores by C31 and sums over classes."
  },
  {
   "property": "C68",
   "status": "partial",
   "theorems": [
    "Laplax.Props.C68_same_posterior",
    "Laplax.Props.C68_linearized_probabilities",
    "Laplax.Props.C68_mean_field_1_partial",
    "Laplax.Props.C68_sampled_probabilities",
    "Laplax.Props.C68_mean_field_0_iff",
    "Laplax.Props.C68_mean_field_violated"
   ],
   "note": "Proved for the posterior, mc_bridge, mean_field_2 and the sampled predictive. Partial because the code violates the claim for mean_field_0 and mean_field_1 (C68_mean_field_violated); proved there: mean_field_1 for numbers that do not depend on the parameters (C68_mean_field_1_partial), mean_field_0 exactly if all variances are equal (C68_mean_field_0_iff). Differentiability of model and added function at the parameters is assumed (as autodiff does)."
  },
  {
   "property": "C69",
   "status": "proved",
   "theorems": [
    "Laplax.Props.C69_nll",
    "Laplax.Props.C69_chi_squared",
    "Laplax.Props.C69_nll_classification",
    "Laplax.Props.C69_ece",
    "Laplax.Props.C69_evidence",
    "Laplax.Props.C69_test_data",
    "Laplax.Props.C69_workflow"
   ],
   "note": "Proved in full. Modelled: nothing new: calibration, evaluation and workflow on two data objects; `EachTimes m π` in Spec/Order says that the list π names every point m times. Method: C52 gives for each objective the score function and the search; the scores are averages over the batch, hence functions of the empirical distribution (sum over the fibres of π; for ECE per bin), and the search is determined by the scores; the negative log evidence is L/2 plus a term without data, and shifting all scores changes no comparison; C53 and C54 for the rest."
  },
  {
   "property": "C70",
   "status": "proved",
   "theorems": [
    "Laplax.Props.C70_posterior",
    "Laplax.Props.C70_predictive",
    "Laplax.Props.C70_evidence",
    "Laplax.Props.C70_workflow",
    "Laplax.Props.C70_evidence_workflow"
   ],
   "note": "Proved in full. Modelled: nothing new: laplace, posterior, predictive and evidence of two models; `reading net ι` in Spec/Unused is the model that reads its p parameters at the positions ι of a longer vector. Method: the Jacobian of the larger model is J E with the 0/1 matrix E of ι (also where the model is not differentiable), so its curvature is Eᵀ G E and its precision P' satisfies P' Eᵀ = Eᵀ P; inverting gives the covariance, det(1 + AB) = det(1 + BA) the determinant; C34, C47, C54 carry this to the API."
  },
  {
   "property": "C71",
   "status": "proved",
   "theorems": [
    "Laplax.Props.C71_weight_variances",
    "Laplax.Props.C71_evidence",
    "Laplax.Props.C71_no_order_of_predictive_variances"
   ],
   "note": "Proved in full. Modelled: nothing new: laplace with two curvature types on the same data. Method: 1/P_ii ≤ (P⁻¹)_ii from 2 u·v − u·P u ≤ v·P⁻¹ v; the prior bound from the antitone inverse; Hadamard's inequality det P ≤ ∏ P_ii (proved from log λ ≤ λ − 1 for the normalised matrix) for the evidence; an explicit linear model for the missing order of predictive variances."
  },
  {
   "property": "C72",
   "status": "proved",
   "theorems": [
    "Laplax.Props.C72_nll",
    "Laplax.Props.C72_squared_errors",
    "Laplax.Props.C72_brier",
    "Laplax.Props.C72_accuracy",
    "Laplax.Props.C72_crps"
   ],
   "note": "Proved in full. Modelled: nothing new: the metrics of C31/C32 applied to random targets (measurable functions on a probability space). Method: E(Y-m)^2 = Var + bias^2; log x <= x-1 with equality only at 1 (log score); Fubini and E crps(F,Y) = int (F-G)^2 + int G(1-G), continuity and injectivity of normal distribution functions (CRPS); E sum (q_k - 1[Y=k])^2 = sum (q_k-p_k)^2 + const (Brier); an exchange argument on the k best classes (accuracy)."
  },
  {
   "property": "C73",
   "status": "proved",
   "theorems": [
    "Laplax.Props.C73_scores",
    "Laplax.Props.C73_same_posterior",
    "Laplax.Props.C73_linearized_predictive",
    "Laplax.Props.C73_workflow",
    "Laplax.Props.C73_fixed_noise",
    "Laplax.Props.C73_sampled_predictive"
   ],
   "note": "Proved in full. Modelled: nothing new: laplace, the pushforwards and the metrics on the converted model (spec: inUnits, converted). Method: the Jacobian of u*f+b is u*J, the squared-error curvature u^2*G; sigma/u^2 * u^2 G = sigma G gives the same precision entry by entry, hence literally the same posterior; the expected entries of C35/C36/C51 are converted key by key; scores by rewriting their defining sums."
  },
  {
   "property": "C74",
   "status": "proved",
   "theorems": [
    "Laplax.Props.C74_kernel",
    "Laplax.Props.C74_regression_kernel",
    "Laplax.Props.C74_predictive",
    "Laplax.Props.C74_trained_regression"
   ],
   "note": "Proved in full. Modelled: nothing new: laplace with FULL curvature, set_posterior_gp_kernel and the linearised pushforward (spec: tangentKernel, gpCov, gpMean, gpCovLoss). Method: stack the training Jacobians; the curvature is Jᵀ W J, and the push-through (Woodbury) identity moves the inverse from parameter space to data space; the trained mean from the stationarity of the energy."
  },
  {
   "property": "C75",
   "status": "proved",
   "theorems": [
    "Laplax.Props.C75_strong_prior",
    "Laplax.Props.C75_weak_prior",
    "Laplax.Props.C75_probabilities",
    "Laplax.Props.C75_sampled"
   ],
   "note": "Proved in full. Modelled: nothing new: the predictives of C51 as functions of the prior arguments (spec: Reports, ReportsAt). Method: variational bounds for v (C+τ)⁻¹ v from quad_inv_le; a vector orthogonal to the kernel of a symmetric matrix lies in its range (duality); squeeze; continuity of the matrix inverse through the adjugate; the factor R with R Rᵀ = (C+τ)⁻¹ vanishes entrywise."
  },
  {
   "property": "C76",
   "status": "proved",
   "theorems": [
    "Laplax.Props.C76_patience_single_valley",
    "Laplax.Props.C76_patience_can_miss",
    "Laplax.Props.C76_nll_fine_grid",
    "Laplax.Props.C76_chi_squared_fine_grid",
    "Laplax.Props.C76_evidence_fine_grid",
    "Laplax.Props.C76_nll_patience",
    "Laplax.Props.C76_evidence_patience"
   ],
   "note": "Proved in full. Modelled: nothing new: grid_search (C28) and calibration (C52) (spec: SingleValley, WithinOfBest). Method: after the stop a further minimum would contradict the single valley; explicit scores 0, 1, ..., k, -1 for the counterexample; uniform continuity of τ ↦ score on the compact interval of exponents for the fine grids."
  },
  {
   "property": "C77",
   "status": "proved",
   "theorems": [
    "Laplax.Props.C77_accuracy_more_axes",
    "Laplax.Props.C77_accuracy_three_axes",
    "Laplax.Props.C77_accuracy_more_axes_errors",
    "Laplax.Props.C77_ece_column_labels",
    "Laplax.Props.C77_correctness",
    "Laplax.Props.C77_correctness_documented",
    "Laplax.Props.C77_column_labels",
    "Laplax.Props.C77_accuracy_documented",
    "Laplax.Props.C77_accuracy_one_label",
    "Laplax.Props.C77_accuracy_errors",
    "Laplax.Props.C77_cross_entropy",
    "Laplax.Props.C77_cross_entropy_broadcast",
    "Laplax.Props.C77_cross_entropy_errors",
    "Laplax.Props.C77_brier_documented",
    "Laplax.Props.C77_brier_one_point",
    "Laplax.Props.C77_brier_column_labels",
    "Laplax.Props.C77_brier_scalar_label",
    "Laplax.Props.C77_correctness_errors",
    "Laplax.Props.C77_confidence"
   ],
   "note": "Proved in full. Modelled: Model/MetricsArr: correctness, accuracy, cross_entropy, multiclass_brier on arrays of any shape with numpy broadcasting (spec: tableArr, vectorArr, columnArr, ScoresAt, hitsOf); the ECE objective with 2-D targets of any width. Accuracy with more than two axes (gridArr, gridHits). The two confidence functions of the default classification metrics. Method: entries of a reduction along the last axis by row-major positions; the broadcasting lemmas of C57 entry by entry; top_k ranks as a permutation of the classes for the documented accuracy and for the number of hits; row-wise expansion of the Brier score; argmax over one entry is 0; entries of transposed data counted column by column (induction on the axes)."
  },
  {
   "property": "C78",
   "status": "proved",
   "theorems": [
    "Laplax.Props.C78_mean_field_0",
    "Laplax.Props.C78_mean_field_1",
    "Laplax.Props.C78_laplace_bridge",
    "Laplax.Props.C78_laplace_bridge_values",
    "Laplax.Props.C78_scalar_outputs",
    "Laplax.Props.C78_linearized_average",
    "Laplax.Props.C78_linearized_special",
    "Laplax.Props.C78_sampled_average",
    "Laplax.Props.C78_sampled_special",
    "Laplax.Props.C78_what_sums_to_one"
   ],
   "note": "Proved in full. Modelled: Model/Predictives (meanField0Arr, meanField1Arr, meanField2Arr, laplaceBridgeArr), Model/Pushforward (meanSoftmaxAxis1, specialPredAct) on row-major arrays of any shape; spec vocabulary Spec/PredictivesArr (AlongFirst, ScoresAt, meanField0Of, meanField1Of). Method: row-major positions split at the first and the last axis (blocks); the runs of the linearised and sampled pushforward up to the requested function (lin_run, nonlin_prefix), then that function; broadcasting lemmas of C57 for mean_field_2 on several axes."
  },
  {
   "property": "C79",
   "status": "proved",
   "theorems": [
    "Laplax.Props.C79_predictive_variances",
    "Laplax.Props.C79_weight_variances",
    "Laplax.Props.C79_more_eigenpairs",
    "Laplax.Props.C79_evidence",
    "Laplax.Props.C79_lanczos",
    "Laplax.Props.C79_ritz_pairs_overconfident"
   ],
   "note": "Proved in full. Modelled: the whole of laplace with the full and the low-rank kinds (Model/Laplace, Model/LowRank, Model/Lanczos), the linearised predictive and marginalLogLikelihood; spec vocabulary Spec/LowRankError (RestAtMost, KeepsMore) and EigenpairsOf. Method: the vector splits into its part in the kept space, where both covariances agree, and the rest, where the low-rank covariance is 1/tau and the full one at least 1/(tau + sigma_squared delta) (quad_inv_le); determinants through det(1 + M) >= 1; a two-parameter example where rank-1 Lanczos reports 4/3 against 2."
  },
  {
   "property": "C80",
   "status": "proved",
   "theorems": [
    "Laplax.Props.C80_refinement",
    "Laplax.Props.C80_more_bins_can_hide_errors",
    "Laplax.Props.C80_label_noise",
    "Laplax.Props.C80_pooling",
    "Laplax.Props.C80_order_and_duplicates"
   ],
   "note": "Proved in full. Modelled: the calibration errors of Model/Metrics (C30). Method: n times the error is a sum over bins of absolute values of sums of (correctness - confidence) (ece_sum); the bin of a confidence among m*nb bins divided by m is its bin among nb bins; triangle inequalities."
  },
  {
   "property": "C81",
   "status": "proved",
   "theorems": [
    "Laplax.Props.C81_average_variance"
   ],
   "note": "Proved in full. Modelled: laplace and set_posterior_fn followed by the linearised pushforward (C47, C67). Method: averaging over permutations gives a multiple at most 1 of the full curvature (perm_average); the quadratic form of the inverse is convex and antitone (quad_inv_average)."
  },
  {
   "property": "C82",
   "status": "proved",
   "theorems": [
    "Laplax.Props.C82_conditioning",
    "Laplax.Props.C82_influence",
    "Laplax.Props.C82_observed_regression",
    "Laplax.Props.C82_observed_binary"
   ],
   "note": "Proved in full. Modelled: nothing new: laplace, set_posterior_gp_kernel and the linearised predictive (C47, C37, C51); spec gpCovLoss, lossHessians (C74), Reports (C62). Method: the two precisions differ by the curvature of the additional points; the Woodbury identity for a general precision; variational form of the quadratic form of the inverse; a direction observed with weight a has variance below 1/a."
  },
  {
   "property": "C83",
   "status": "proved",
   "theorems": [
    "Laplax.Props.C83_curvature_error",
    "Laplax.Props.C83_continuous_in_parameters",
    "Laplax.Props.C83_continuous_in_input"
   ],
   "note": "Proved in full. Modelled: nothing new: laplace, set_posterior_fn and the linearised predictive (C47, C51). Method: |P^-1 v| <= |v|/tau and the variational bound of C82 in both directions; continuity of the Jacobian, of the loss Hessian products and of the matrix inverse at positive definite matrices."
  },
  {
   "property": "C84",
   "status": "proved",
   "theorems": [
    "Laplax.Props.C84_predictive",
    "Laplax.Props.C84_posterior",
    "Laplax.Props.C84_only_similarities",
    "Laplax.Props.C84_evidence",
    "Laplax.Props.C84_workflow",
    "Laplax.Props.C84_diagonal_depends"
   ],
   "note": "Proved in full. Modelled: nothing new: laplace, set_posterior_fn, the linearised predictive, marginal_log_likelihood and the workflow (C47, C51, C34, C54). Method: the Jacobian in the coordinates v is J A, so the curvature is A^T G A and the precision for c tau is A^T P A; its inverse is A^-1 P^-1 A^-T. Converse by polarisation. The diagonal case is computed for one model."
  }
 ]
}