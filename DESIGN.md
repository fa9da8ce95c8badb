# A Lean 4 model of laplax

Source: `/repo` (python, read as text only; never executed). Proof assistant: Lean 4.33.0 with Mathlib.

## 1. Shape of the development

* `lean/Verif/Model/*.lean` – the model, function by function; each definition cites the `/repo` file and lines it models and says
  where it simplifies. Definitions marked "External" model a JAX / python function laplax calls.
* `lean/Verif/Spec/*.lean` – small stand-alone specifications: what the English property talks about, in mathematical terms.
* `lean/Verif/Props/*.lean` – the theorems (`Cxx_…`), with an `example` beside them showing that the hypotheses can be met.
* `lean/Verif/Lib/*.lean` – auxiliary lemmas only.
* `properties.jsonl`, `MANIFEST.json` – the properties and which theorems prove them (generated by `tools/`).
* `seeded/LOG.jsonl` – the wrong programs tried against the theorems.

Conventions

* A python call that may raise returns `Except Err α`; theorems about success give the value, theorems about errors the exception class.
  `Err.unmodelled` marks inputs on which real code does something the model does not describe (e.g. broadcasting of unequal shapes);
  no theorem claims anything about such inputs.
* Arrays are a shape and a row-major list of entries (`Arr`), pytrees an inductive type (`Tree`) whose node tag stands for container type and
  keys. `entries t` is the list of all numbers of a pytree in flattening order, `SameLayout` equality up to the numbers.
* Vectors in linear algebra are `Fin n → ℝ`, matrices `Matrix (Fin m) (Fin n) ℝ`. **Exact real arithmetic replaces floating point**; dtype
  casts are identities. Lean's `x / 0 = 0` and `√x = 0` for `x < 0` differ from JAX's inf/NaN: the theorems exclude these cases by hypotheses, or say
  explicitly that the case is excluded.
* `jax.jvp`, `jax.vjp`, `jax.grad`, `jax.linearize` are the Fréchet derivative and its transpose (the semantics JAX documents for differentiable
  functions), not JAX's tracing. At points of non-differentiability `fderiv = 0`, where JAX would return some sub-gradient: theorems about derivatives assume
  differentiability.
* `jax.lax.map` and `jax.vmap`, with any batch size, are `map`; `jax.jit` is the identity.
* Randomness: a PRNG is an arbitrary family of functions (`split`, `normal`); theorems quantify over all of them. Only C50 assumes a distribution.
* Loops are structural recursion; the dispatch tables, the `jax_enable_x64` flag, consumed iterators and the caller's metric list are explicit state.
* Linear algebra kernels (`eigh`, `qr`, `svd`) are parameters constrained by a specification; existence of kernels meeting it is proved. Cholesky
  factorisation and the triangular solve are written out and proved correct.
* Indices: reading a JAX array clamps an index out of range, writing drops it, negative indices count from the end (`jaxGet`, `jaxSet`);
  reading from an empty axis is not modelled.

## 2. Trusted base

* Lean's kernel and the axioms `propext`, `Classical.choice`, `Quot.sound`; nothing else (section 4). No axioms of our own, no compiled evaluation.
* The hand translation from python to `Verif/Model` (the tie to the code is the line citation on every definition).
* The assumed behaviour of external calls: the definitions marked "External" in `Verif/Model`, and the conventions above.
* Modelled modules: `util/flatten.py`, `util/tree.py`, `util/mv.py`,
  `util/ops.py`, `util/loader.py`, `curv/ggn.py`, `curv/hessian.py`, `curv/utils.py`, `curv/full.py`, `curv/diagonal.py`, `curv/low_rank.py`, `curv/lanczos.py`,
  `curv/lobpcg.py` (the non-jitted solver; for `A_jit=True` laplax calls JAX's own), `curv/cov.py`, `eval/metrics.py`, `eval/predictives.py`,
  `eval/likelihood.py`, `eval/calibrate.py`, `eval/utils.py`, `eval/pushforward.py`, `register.py`, `enums.py`, `api.py` (`GGN`, `laplace`, `calibration`,
  `evaluation` and their helpers).
* Not modelled: floating-point rounding, dtypes, JIT/tracing, device placement, statistical quality of the PRNG, performance, logging/`tqdm`,
  plotting, `examples/`, `docs/`; see the section "Not modelled" at the end for functions left out.

## 3. Property by property

### C01 Parameter flattening round-trips

Status: **proved**. Theorems in `Props/Tree.lean`.

*Modelled:* `create_pytree_flattener`, `cumsum`, `full_flatten` (util/flatten.py) in `Model/Flatten.lean`; pytrees and arrays in `Model/Base.lean`.

*Proof:* mutual induction on pytrees; the split points of `cumsum` are handled by an induction over leaf sizes with an offset (`Lib/TreeLemmas*`).

Theorems: `C01_unflatten_flatten`, `C01_flatten_unflatten`, `C01_wrong_length_raises`.

### C02 Flattening an empty pytree is an error

Status: **proved**. Theorems in `Props/Tree.lean`.

*Modelled:* `full_flatten`, `get_size`.

*Proof:* case split on the list of leaves, lengths by induction.

Theorems: `C02_full_flatten`.

### C03 Partial flattening and axis unravelling are row-wise unflattening

Status: **proved**. Theorems in `Props/Tree.lean`, `Props/Unravel.lean`.

*Modelled:* `create_partial_pytree_flattener`, `unravel_array_into_pytree` for an arbitrary axis (`Model/Flatten.lean`).

*Proof:* list-chunk lemmas; the general-axis theorem is stated through multi-indices of the array.

Theorems: `C03_partial_roundtrip`, `C03_partial_roundtrip_inv`, `C03_unravel_rows`, `C03_unravel_any_axis`, `C03_unravel_scalar_raises`.

### C04 wrap_function is conjugation

Status: **proved**. Theorems in `Props/Tree.lean`.

*Modelled:* `wrap_function`, `wrap_factory`, `flatten_function` on argument lists, with python slicing and indexing at any integer position.

*Proof:* rewriting of `take`/`drop`; the statement uses `List.set`.

*Note:* Negative positions other than -1 are normalised as in python; position -1 is characterised separately (C04_last_argument_negative): the other arguments are then passed twice.

Theorems: `C04_wrap_function`, `C04_last_argument_negative`, `C04_wrap_function_out_of_range`, `C04_wrap_twice`, `C04_wrap_factory`, `C04_flatten_function`.

### C05 Tree arithmetic is vector arithmetic

Status: **proved**. Theorems in `Props/Tree.lean`.

*Modelled:* `add, sub, neg, mul, zeros_like, ones_like` on pytrees (`Model/TreeOps.lean`).

*Proof:* induction on pytrees; entries of the result as a list operation on entries.

Theorems: `C05_tree_arithmetic`, `C05_constants`, `C05_structure_mismatch_raises`.

### C06 basis_vector_from_index(i, tree) is the i-th unit vector

Status: **proved**. Theorems in `Props/Tree.lean`.

*Modelled:* `basis_vector_from_index`, `tree_vec_get`, `jnp.searchsorted`.

*Proof:* prefix-sum induction over the leaves including zero-size leaves.

Theorems: `C06_basis_vector`, `C06_negative_index`, `C06_tree_vec_get`, `C06_tree_vec_get_clamps`.

### C07 eye_like stacks the unit vectors

Status: **proved**. Theorems in `Props/Tree.lean`.

*Modelled:* `eye_like`, `eye_like_with_basis_vector`, `tree_slice`.

*Proof:* slices of the stacked identity against C06.

Theorems: `C07_eye_like_agree`, `C07_eye_like_slices`, `C07_eye_like_no_leaves`.

### C08 to_dense recovers the matrix of a linear map

Status: **proved**. Theorems in `Props/Mv.lean`, `Props/ToDenseTree.lean`.

*Modelled:* `to_dense` with int and pytree layouts, `lax.map` with batch sizes (`Model/Mv.lean`).

*Proof:* columns by evaluation; linear extension over the standard basis.

Theorems: `C08_to_dense_int_columns`, `C08_to_dense_tree_columns`, `C08_to_dense_linear`, `C08_to_dense_none_raises`, `C08_to_dense_tree_valued`, `C08_to_dense_int_tree_valued`.

### C09 diagonal(mv) is the diagonal of to_dense(mv)

Status: **proved**. Theorems in `Props/Mv.lean`.

*Modelled:* `diagonal` for arrays and callables.

*Proof:* entrywise against C08.

Theorems: `C09_diagonal_int`, `C09_diagonal_tree`, `C09_diagonal_eq_diag_of_dense`, `C09_diagonal_no_layout`.

### C10 Batch partition invariance of data-loader reductions

Status: **proved**. Theorems in `Props/Loader.lean`, `Props/LoaderAxis.lean`.

*Modelled:* `process_batches`, `execute_with_data_loader`, the four reducers (`Model/Loader.lean`), a reducer state being a python value. `Model/LoaderAxis.lean`: `reduce_sum` and `reduce_concat` along any axis, positive or negative.

*Proof:* induction on the list of batches with the invariant 'state = value on the concatenation so far'.

*Note:* All four reductions on per-sample results (arrays with a leading sample axis, and pytrees of them; reduce_sum and reduce_concat also for samples stacked along any other axis). C10_online_mean_scalar records what reduce_online_mean does to scalar per-batch results, which have no sample axis: it averages over batches.

Theorems: `C10_reduce_sum`, `C10_reduce_concat`, `C10_reduce_online_mean`, `C10_partition_invariance`, `C10_reduce_add`, `C10_reduce_add_partition`, `C10_pytree`, `C10_online_mean_scalar`, `C10_reduce_sum_axis`, `C10_reduce_concat_axis`, `C10_axis_out_of_range`, `C10_axis_zero`.

### C11 An empty data loader raises

Status: **proved**. Theorems in `Props/Loader.lean`.

*Modelled:* the four entry points and `DataLoaderMV`; a call log makes the visiting order observable.

*Proof:* induction on batches.

Theorems: `C11_empty_raises`, `C11_visits_in_order`, `C11_entry_points_visit_in_order`, `C11_error_propagates`, `C11_second_pass`.

### C12 DataLoaderMV behaves as the summed operator

Status: **proved**. Theorems in `Props/Loader.lean`.

*Modelled:* `DataLoaderMV` (`__call__`, `lower_func`, `input_transform`, `wrap_func`), the `to_dense`/`diagonal` registrations.

*Proof:* additivity of the fold; linearity for wrapped functions.

Theorems: `C12_call_is_summed_operator`, `C12_to_dense`, `C12_diagonal`, `C12_wrap`, `C12_default_reduce_collapses`.

### C13 precompute_list only changes when work happens

Status: **proved**. Theorems in `Props/Mv.lean`.

*Modelled:* `precompute_list`.

*Proof:* case split on the flag, `lax.map` = map.

Theorems: `C13_precompute`, `C13_beyond_the_list`, `C13_errors`.

### C14 Loss Hessian products are the true second derivatives

Status: **proved**. Theorems in `Props/Loss.lean`.

*Modelled:* the loss-Hessian products of curv/ggn.py in `Model/Loss.lean`; spec: second Fréchet derivative of the textbook loss.

*Proof:* `HasFDerivAt` computations; Cauchy–Schwarz for positive semidefiniteness.

Theorems: `C14_cross_entropy`, `C14_cross_entropy_soft_targets`, `C14_binary_cross_entropy`, `C14_mse`, `C14_custom`, `C14_named_loss_psd`.

### C15 The GGN product is a symmetric positive semidefinite linear operator

Status: **proved**. Theorems in `Props/Ggn.lean`.

*Modelled:* `create_ggn_mv_without_data`, `create_ggn_mv` with `jax.linearize/linear_transpose/vmap` as Fréchet derivative, transpose, sum (`Model/Ggn.lean`).

*Proof:* linear algebra over `Matrix`; `Finset.sum` over permutations and `Fin.append`.

Theorems: `C15_ggn_formula`, `C15_ggn_formula_no_vmap`, `C15_ggn_psd`, `C15_create_ggn_mv_psd`, `C15_ggn_permutation`, `C15_ggn_additive`.

### C16 GGN equals the Hessian for models affine in the parameters

Status: **proved**. Theorems in `Props/Ggn.lean`.

*Modelled:* GGN and Hessian of the same loss for affine models.

*Proof:* chain rule for second derivatives.

Theorems: `C16_cross_entropy`, `C16_binary_cross_entropy`, `C16_mse`.

### C17 Loss dispatch is total and rejects inconsistent requests

Status: **proved**. Theorems in `Props/Ggn.lean`, `Props/Loss.lean`.

*Modelled:* `create_loss_hessian_mv`, `create_ggn_mv` dispatch.

*Proof:* complete case analysis.

Theorems: `C17_create_ggn_mv`, `C17_loss_dispatch`.

### C18 The Hessian product is the derivative of the gradient

Status: **proved**. Theorems in `Props/Ggn.lean`.

*Modelled:* `hvp`, `concatenate_model_and_loss_fn`, `create_hessian_mv`.

*Proof:* symmetry of second derivatives of C² functions; sums.

*Note:* Squared error and custom C^2 losses. C18_unsupported_losses proves that the remaining named losses are rejected (ValueError for binary cross-entropy and NONE; TypeError when the cross-entropy product is evaluated), C18_combined_values what is differentiated.

Theorems: `C18_hessian_mv`, `C18_mse_order_and_batches`, `C18_samplewise_order_and_batches`, `C18_unsupported_losses`, `C18_combined_values`.

### C19 Full posterior: covariance is the inverse of the precision

Status: **proved**. Theorems in `Props/Posterior.lean`, `Props/TriangularSolve.lean`.

*Modelled:* `full_prec_to_scale` with a Cholesky recursion and triangular solve written out in `Model/LinAlg.lean`, posterior state and products (`Model/Posterior.lean`).

*Proof:* Cholesky existence and correctness proved by block recursion; S Sᵀ = P⁻¹.

Theorems: `C19_full_posterior`, `C19_full_posterior_psd`, `C19_prior_prec_required`, `C19_triangular_solver`.

### C20 Diagonal posterior: covariance is the inverse of the precision

Status: **proved**. Theorems in `Props/Posterior.lean`.

*Modelled:* diagonal precision/scale/products.

*Proof:* entrywise.

Theorems: `C20_diagonal_posterior`, `C20_diagonal_is_posterior`, `C20_diagonal_eq_full`.

### C21 Low-rank posterior: covariance is the inverse of the precision

Status: **proved**. Theorems in `Props/Posterior.lean`.

*Modelled:* low-rank precision, scale and covariance products.

*Proof:* orthonormal U: Woodbury-type identities by matrix algebra.

Theorems: `C21_low_rank_posterior`, `C21_low_rank_square`, `C21_low_rank_eq_full`.

### C22 All approximations interpret the prior arguments the same way

Status: **partial**. Theorems in `Props/Posterior.lean`.

*Modelled:* the three `*_curvature_to_precision` functions.

*Proof:* from C19–C21; numerical witness for the violation.

*Note:* Partial because the code violates the property: low_rank_curvature_to_precision divides only the prior by loss_scaling_factor. C22_same_posterior_partial proves agreement of all three for loss_scaling_factor = 1, C22_full_diagonal agreement of FULL and DIAGONAL for every factor, C22_low_rank_iff the exact condition for the low-rank kind (factor 1 or vanishing scaled curvature), C22_low_rank_ignores_loss_scaling a witness.

Theorems: `C22_same_posterior_partial`, `C22_full_diagonal`, `C22_low_rank_ignores_loss_scaling`, `C22_low_rank_iff`.

### C23 Lanczos produces an orthonormal Krylov basis

Status: **proved**. Theorems in `Props/Lanczos.lean`.

*Modelled:* `lanczos_process`/`lanczos_iterations`, `compute_eigendecomposition`, `lanczos_lowrank` terms (`Model/Lanczos.lean`); `eigh` is a parameter with a specification whose satisfiability is proved.

*Proof:* loop invariant (orthonormal columns, three-term recurrence, Krylov span); witnesses for breakdown.

Theorems: `C23_orthonormal`, `C23_first_vector`, `C23_recurrence`, `C23_tridiagonal`, `C23_krylov`, `C23_eigh_exists`, `C23_low_rank_terms`, `C23_full_rank_exact`, `C23_breakdown_duplicates`, `C23_breakdown_identity`, `C23_no_reorthogonalisation_fails`, `C23_rank_exceeds_dimension`, `C23_lanczos_posterior_eq_full`.

### C24 Global JAX precision flag is restored

Status: **partial**. Theorems in `Props/LowRankDrivers.lean`.

*Modelled:* the drivers as programs over a state with the `jax_enable_x64` flag (`Model/LowRankDrivers.lean`).

*Proof:* symbolic execution of every outcome.

*Note:* Partial because the code violates the property: the flag is not restored when the computation raises. C24_restored_on_return_partial proves the clause about normal returns; C24_flag_after_exception gives the exact value after an exception; C24_violated a witness.

Theorems: `C24_restored_on_return_partial`, `C24_flag_after_exception`, `C24_always_restored_if_matching`, `C24_violated`, `C24_callable_needs_layout`, `C24_default_dtypes`.

### C25 LOBPCG rank adjustment always yields an admissible problem

Status: **partial**. Theorems in `Props/LowRankDrivers.lean`.

*Modelled:* the rank adjustment and `_check_inputs`.

*Proof:* `omega`.

*Note:* Partial because the code violates the property for size = 5*rank and size <= 5. C25_lowrank_outcome is the exact characterisation of when the solver's requirement is met.

Theorems: `C25_rank_partial`, `C25_lowrank_outcome`, `C25_violated`.

### C26 Posterior functions act on pytrees exactly as on flat vectors

Status: **proved**. Theorems in `Props/Cov.lean`.

*Modelled:* `estimate_curvature`, `set_posterior_fn`, `create_posterior_fn`.

*Proof:* composition of C01, C08/C09, C19–C21.

*Note:* Pytree layouts for all methods, integer layouts for DIAGONAL and low rank. C26_full_needs_pytree_layout: FULL with an integer layout raises AttributeError.

Theorems: `C26_pytree_products`, `C26_flat_products`, `C26_create_posterior_full`, `C26_create_posterior_diagonal`, `C26_create_posterior_low_rank`, `C26_full_needs_pytree_layout`, `C26_default_loss_scaling`.

### C27 Method tables stay consistent under registration

Status: **partial**. Theorems in `Props/Register.lean`.

*Modelled:* the six dispatch tables as state and `register_curvature_method` (`Model/Register.lean`), the calibration registry.

*Proof:* invariant over all histories of registrations.

*Note:* Partial because the last clause is violated: a registration with an unknown default fails with KeyError after having written some tables (C27_failing_registration_violated). All other clauses are proved for every history. C27_after_failure gives the exact tables after a failing call.

Theorems: `C27_success`, `C27_consistent_histories`, `C27_builtin_methods`, `C27_succeeds_iff`, `C27_builtins_unchanged`, `C27_failing_registration_partial`, `C27_failing_registration_violated`, `C27_calibration_registry`, `C27_after_failure`.

### C28 grid_search returns the best evaluated candidate

Status: **proved**. Theorems in `Props/Calibrate.lean`, `Props/CalibrateErrors.lean`.

*Modelled:* `grid_search`, `optimize_prior_prec` (`Model/Calibrate.lean`) with objectives that may return NaN or raise.

*Proof:* loop invariant: best-so-far is the first minimiser of the evaluated prefix.

Theorems: `C28_grid_search`, `C28_unlimited`, `C28_errors`, `C28_failures_lose`, `C28_optimize_prior_prec_range`, `C28_exception_at_candidate`, `C28_raises_only_if`.

### C29 grid_search respects max_iterations

Status: **partial**. Theorems in `Props/Calibrate.lean`.

*Modelled:* same.

*Proof:* counting evaluated candidates.

*Note:* Partial because the code evaluates m + 1 candidates (C29_violated); C29_at_most_succ_partial proves that bound. C29_truncates: max_iterations = m is exactly offering the first m + 1 candidates, for every objective, patience and exception.

Theorems: `C29_at_most_succ_partial`, `C29_violated`, `C29_truncates`.

### C30 Calibration errors are well-defined averages

Status: **proved**. Theorems in `Props/Calibration.lean`.

*Modelled:* binning, `calculate_bin_metrics`, ECE, MCE (`Model/Metrics.lean`).

*Proof:* finite sums; spec in `Spec/Metrics.lean` by intervals.

Theorems: `C30_bin_of_confidence`, `C30_bins_partition`, `C30_out_of_range_clipped`, `C30_bin_metrics`, `C30_proportions`, `C30_ece_value`, `C30_mce_value`, `C30_range`, `C30_ece_bounds_overall_gap`, `C30_zero_bins`.

### C31 Accuracy is a percentage monotone in k

Status: **proved**. Theorems in `Props/Accuracy.lean`.

*Modelled:* `accuracy`, `correctness`, `lax.top_k` with its tie-breaking.

*Proof:* counting ranks.

Theorems: `C31_value`, `C31_range`, `C31_monotone`, `C31_all_classes`, `C31_correctness`, `C31_top1_is_mean_correctness`, `C31_one_hot_targets`, `C31_empty_top_k`, `C31_negative_k`, `C31_any_top_k`, `C31_all_negative`, `C31_zero_classes`, `C31_zero_classes_labels`.

### C32 Scoring rules have their defining values

Status: **partial**. Theorems in `Props/Scores.lean`.

*Modelled:* the scoring rules; CRPS against its integral definition, NLL against Mathlib's Gaussian density.

*Proof:* calculus (`Lib/NormalLemmas`), Gibbs inequality.

*Note:* Partial only in the Brier clause: multiclass_brier returns minus the Brier score divided by the number of classes (C32_brier_value_partial is the exact value, C32_brier_disagrees the disagreement). All other clauses are proved in full, CRPS against its integral definition.

Theorems: `C32_cross_entropy_nonneg`, `C32_gibbs`, `C32_cross_entropy_one_hot`, `C32_brier_value_partial`, `C32_brier_disagrees`, `C32_brier_orientation`, `C32_rmse`, `C32_chi_squared`, `C32_nll`, `C32_crps`, `C32_shape_mismatch`.

### C33 Classification predictives are probability vectors

Status: **partial**. Theorems in `Props/MeanFieldIff.lean`, `Props/Predictives.lean`.

*Modelled:* eval/predictives.py in `Model/Predictives.lean`.

*Proof:* finite sums; witnesses for the unnormalised cases; the exact normalisation criterion for mean_field_1/2 by sending all but three means to minus infinity and an algebraic identity for the remaining three classes.

*Note:* Partial because with three or more classes mean_field_1 sums to one for every mean exactly when all variances agree, and mean_field_2 exactly when all pairwise difference variances agree (both proved as iff), and because the Laplace bridge raises on vectors and normalises over the whole array on matrices (negations proved). mean_field_0 is proved in full.

Theorems: `C33_mean_field_1_normalised_iff`, `C33_mean_field_2_normalised_iff`, `C33_mean_field_0`, `C33_mean_field_0_temperature`, `C33_mean_field_1`, `C33_mean_field_1_sums_to_one_partial`, `C33_mean_field_1_not_normalised`, `C33_mean_field_2`, `C33_mean_field_2_well_defined`, `C33_mean_field_2_sums_to_one_partial`, `C33_mean_field_2_not_normalised`, `C33_bridge_one_dimensional_raises`, `C33_bridge_total_mass_partial`, `C33_bridge_columns_not_probabilities`, `C33_bridge_spec_isProb`, `C33_bridge_wrong_class_count`.

### C34 Marginal log-likelihood is the Laplace evidence

Status: **partial**. Theorems in `Props/Likelihood.lean`.

*Modelled:* `Model/Likelihood.lean`: joint likelihood, log determinants, `marginal_log_likelihood`.

*Proof:* determinant identities (matrix determinant lemma).

*Note:* Partial in the low-rank clause: the low-rank log determinant is right only for scalar part 1 (C34_low_rank_partial; C34_low_rank_error is the exact error for every scalar part and, at full rank, the exact condition; C34_low_rank_wrong a witness); also joint_log_likelihood reads the key 'sigma', so sigma_squared is ignored (C34_joint_ignores_sigma_squared).

Theorems: `C34_joint`, `C34_joint_ignores_sigma_squared`, `C34_default_loss_scaling`, `C34_full`, `C34_diagonal`, `C34_full_eq_diagonal`, `C34_low_rank_partial`, `C34_low_rank_error`, `C34_low_rank_wrong`.

### C35 Linearised predictive covariance is J Sigma J^T

Status: **proved**. Theorems in `Props/Pushforward.lean`.

*Modelled:* eval/pushforward.py in `Model/Pushforward.lean`: distribution state, all linearised functions, `set_lin_pushforward`.

*Proof:* one invariant ('every key holds its expected value') kept by every function, hence for every list of functions.

*Note:* Scalar and vector outputs; C35_matrix_outputs_raise and C35_laplace_bridge_raises prove the two failure modes found.

Theorems: `C35_linearized_predictive`, `C35_predictive_covariance_psd`, `C35_full_laplace_predictive`, `C35_setup_required`, `C35_matrix_outputs_raise`, `C35_laplace_bridge_raises`.

### C36 Sample-based predictive statistics are order independent

Status: **partial**. Theorems in `Props/NonlinSpecial.lean`, `Props/PushforwardNonlin.lean`.

*Modelled:* the sampled functions and `set_nonlin_pushforward`.

*Proof:* same invariant with the request history deciding `ddof`.

*Note:* Partial because pred_var and pred_std use ddof 0 or 1 depending on whether pred_cov / pred_var were requested before. C36_sampled_predictive is the exact value for every history of requests; C36_order_independent_partial proves independence for the histories that request covariance before variance before standard deviation; C36_variance_depends_on_order the violation.

Theorems: `C36_special_predictives`, `C36_sampled_predictive`, `C36_order_independent_partial`, `C36_variance_depends_on_order`, `C36_sample_covariance_psd`, `C36_zero_samples_raise`, `C36_special_needs_variance`.

### C37 The posterior GP kernel is a valid symmetric kernel

Status: **proved**. Theorems in `Props/GpKernel.lean`.

*Modelled:* `set_posterior_gp_kernel`, `kernel_mv`.

*Proof:* Gram matrix = A C Aᵀ.

Theorems: `C37_kernel_products`, `C37_dense_kernel`, `C37_dense_needs_layout`, `C37_num_samples_raises`.

### C38 apply_fns / transfer_entry / finalize_fns compose as documented

Status: **proved**. Theorems in `Props/EvalUtils.lean`.

*Modelled:* `finalize_fns`, `apply_fns`, `transfer_entry` (`Model/EvalUtils.lean`) on dictionaries.

*Proof:* induction over the function list.

Theorems: `C38_finalize_append`, `C38_apply_fns`, `C38_apply_fns_errors`, `C38_apply_fns_aux_alias`, `C38_duplicate_keyword`, `C38_transfer_entry`, `C38_transfer_entry_errors`.

### C39 Dataset-level metrics do not alter caller data

Status: **partial**. Theorems in `Props/EvalUtils.lean`.

*Modelled:* the metric evaluation functions with the caller's list as mutable state.

*Proof:* induction over batches; witness.

*Note:* Partial because evaluate_metrics_on_dataset wraps the entries of the caller's list in place (C39_list_mutation_violated).

Theorems: `C39_list_unchanged_partial`, `C39_list_mutation_violated`, `C39_generator_reduces_all`, `C39_dataset_reduces_all`, `C39_edge_cases`.

### C40 Enum conversion accepts exactly the documented spellings

Status: **proved**. Theorems in `Props/Api.lean`.

*Modelled:* `_convert_to_enum`, `str_to_bool` (`Model/Api.lean`).

*Proof:* complete case analysis; `lower` is a parameter with its specification.

Theorems: `C40_convert_to_enum`, `C40_documented_values`, `C40_any_case_spelling`, `C40_str_to_bool`.

### C41 One-shot data iterators are either fully used or rejected

Status: **partial**. Theorems in `Props/Api.lean`.

*Modelled:* python iterables (re-iterable, one-shot with consumed state) and the API's loader wrappers.

*Proof:* symbolic execution with iterator state.

*Note:* Partial because evaluation drops the first batch of a one-shot iterator (C41_evaluation_violated). laplace/GGN reject one-shot iterators (proved).

Theorems: `C41_laplace_one_shot_rejected`, `C41_ggn_one_shot_rejected`, `C41_ggn_reiterable_uses_all`, `C41_evaluation_partial`, `C41_evaluation_violated`.

### C42 Curvature scaling compensates for sub-sampling

Status: **partial**. Theorems in `Props/Ggn.lean`, `Props/LaplaceScaling.lean`, `Props/Subsampling.lean`.

*Modelled:* factors in `create_ggn_mv` and `laplace`.

*Proof:* arithmetic; witness.

*Note:* Partial because laplace passes the inverse factor num_curv/num_total (C42_laplace_factor_violated, C42_laplace_witness). C42_laplace_correct_iff shows, end to end, that it returns the property's curvature exactly when the two counts are equal or the curvature sum is zero; C42_laplace_replicated_data that replicating the data k times multiplies it by k^2 instead of leaving it unchanged. The functional interface is proved in full.

Theorems: `C42_functional_scaling`, `C42_replication_invariant`, `C42_laplace_factor_partial`, `C42_laplace_factor_violated`, `C42_laplace_witness`, `C42_laplace_correct_iff`, `C42_laplace_replicated_data`, `C42_shuffled_batch_unbiased`, `C42_resampled_batch_unbiased`, `C42_laplace_shuffled_batch`.

### C43 Single batches and loaders are interpreted consistently

Status: **partial**. Theorems in `Props/Api.lean`.

*Modelled:* `_maybe_wrap_loader_or_batch`, `_validate_and_get_transform`.

*Proof:* case analysis over data objects.

*Note:* Partial because a two-element list is accepted by validation but not treated as one batch (C43_list_pair_violated).

Theorems: `C43_tuple_is_one_batch`, `C43_mapping_is_one_batch`, `C43_rejected`, `C43_array_rejected`, `C43_list_pair_partial`, `C43_list_pair_violated`.

### C44 Pushforward selection delivers what the predictive type promises

Status: **partial**. Theorems in `Props/Api.lean`.

*Modelled:* `_setup_pushforward` and `get_pred_act`.

*Proof:* complete decision table.

*Note:* Partial because the nonlinear pushforward with a classification predictive never publishes pred_act (C44_nonlinear_pred_act_violated).

Theorems: `C44_linear`, `C44_nonlinear_partial`, `C44_nonlinear_pred_act_violated`, `C44_custom`, `C44_invalid_names`, `C44_get_pred_act`.

### C45 Calibration objective selection follows its documented requirements

Status: **proved**. Theorems in `Props/Api.lean`.

*Modelled:* `_build_calibration_objective`.

*Proof:* complete decision table.

Theorems: `C45_objective_table`, `C45_objective_names`, `C45_model_required_for_every_objective`.

### C46 Metric selection never yields an empty list

Status: **proved**. Theorems in `Props/Api.lean`.

*Modelled:* `_resolve_metrics`.

*Proof:* complete decision table.

Theorems: `C46_resolve_metrics`.

### C47 laplace end to end: data to posterior to predictive

Status: **proved**. Theorems in `Props/Laplace.lean`, `Props/LaplaceLoss.lean`.

*Modelled:* `laplace` end to end (`Model/Laplace.lean`): data routing, GGN product on pytrees, curvature estimation, posterior, linearised predictive.

*Proof:* composition of C10–C12, C15, C19–C23, C26, C35.

Theorems: `C47_laplace_curvature`, `C47_rejected_calls`, `C47_batching_independent`, `C47_posterior`, `C47_linearized_predictive_full`, `C47_linearized_predictive`, `C47_custom_loss`.

### C48 The block eigensolver returns orthonormal Ritz pairs that only improve

Status: **proved**. Theorems in `Props/Lobpcg.lean`.

*Modelled:* the numerics of curv/lobpcg.py (`Model/Lobpcg.lean`) with `eigh`, `qr`, `svd` as parameters satisfying a specification.

*Proof:* loop invariant (orthonormal X, P, R blocks), Rayleigh–Ritz, Cauchy interlacing for monotonicity and bounds.

*Note:* For every kernel triple satisfying the specification of eigh/qr/svd in Spec/Lobpcg (C48_kernels_exist: such kernels exist). C48_zero_column_loses_direction is a finding about the keep mask of _svqb.

Theorems: `C48_kernels_exist`, `C48_orthonormalize`, `C48_extend_basis`, `C48_project_out`, `C48_ritz_pairs`, `C48_stopping`, `C48_monotone_and_bounded`, `C48_low_rank_terms`, `C48_zero_column_loses_direction`.

### C49 Low-rank curvature does not depend on how the operator is passed

Status: **proved**. Theorems in `Props/LowRank.lean`.

*Modelled:* the complete drivers on python operators that may raise (`Model/LowRank.lean`); algorithms as adaptive sequences of products.

*Proof:* the same algorithm tree is run on each operator form; induction over it.

Theorems: `C49_get_matvec`, `C49_callable_needs_layout`, `C49_methods`, `C49_form_independent`, `C49_lanczos`, `C49_lobpcg`, `C49_defaults`, `C49_operator_exception`, `C49_lanczos_result`, `C49_laplace_lanczos`.

### C50 Samples follow the Gaussian the predictive reports

Status: **proved**. Theorems in `Props/WeightSamples.lean`.

*Modelled:* `set_get_weight_sample`, `normal_like`, `lin_samples`; the PRNG is an arbitrary family of generators indexed by a probability space.

*Proof:* C13, C26, C35 and characteristic functions of affine images of standard normal vectors (`Lib/GaussianAffine`).

Theorems: `C50_weight_samples`, `C50_precompute_keyword_raises`, `C50_index_beyond_samples`, `C50_weight_sample_law`, `C50_predictive_sample_law`.

### C51 The predictive selected by name is the one the posterior defines

Status: **proved**. Theorems in `Props/ApiPredictive.lean`.

*Modelled:* `_setup_pushforward` and the setters it selects (`Model/ApiPredictive`), on top of the pushforward steps of C35/C36.

*Proof:* Footprint lemmas: each step writes only its own keys (`Lib/ApiPredictiveLemmas`), then C35, C36, C26 per key.

Theorems: `C51_linear_predictive`, `C51_nonlinear_predictive`, `C51_laplace_bridge_raises`, `C51_nonlinear_needs_samples`.

### C52 Calibration returns the grid precision with the best score

Status: **proved**. Theorems in `Props/ApiCalibration.lean`.

*Modelled:* `calibration`, the objectives and `evaluate_for_given_prior_arguments` (`Model/ApiCalibration`) on top of the grid search of C28, the predictives of C51, the metrics of C32/C30 and the evidence of C34.

*Proof:* Per-point predictions stacked key by key (`Lib/ApiCalibrationLemmas`); the metric of the stack is rewritten into sums over points and entries; the grid search theorem C28 gives the choice.

Theorems: `C52_nll`, `C52_chi_squared`, `C52_nll_classification`, `C52_ece`, `C52_marginal_likelihood`, `C52_without_patience`, `C52_range`, `C52_shape_mismatch_silent`, `C52_one_hot_labels_silent`, `C52_cross_entropy_evidence_raises`, `C52_nll_nonlinear`, `C52_ece_nonlinear_raises`, `C52_unreadable_batch`, `C52_max_iterations_ignored`, `C52_methods`.

### C53 Evaluation scores every data point, however the data are batched

Status: **proved**. Theorems in `Props/ApiEvaluation.lean`.

*Modelled:* `evaluation`, `_resolve_metrics` with both default metric lists, and the dataset/generator evaluators on data points (`Model/ApiEvaluation`), on top of the step machinery of C38/C39, the predictives of C51 and the metrics of C32.

*Proof:* Induction over points and batches: results with equal keys and shapes stack and concatenate to the list over all points (`Lib/ApiEvaluationLemmas`); C51 and C32 give the values.

*Note:* The default classification metrics raise TypeError on all data (C53_classification_raises), a finding outside the statement; user-defined metric lists are covered by C53_batching for arbitrary step functions.

Theorems: `C53_batching`, `C53_same_points`, `C53_reduce`, `C53_one_shot_drops_first`, `C53_loader_ignores_reduce`, `C53_regression`, `C53_regression_nonlinear`, `C53_classification_raises`, `C53_one_hot_point_broadcasts`.

### C54 The workflow laplace, calibration, evaluation computes the Laplace approximation of the data

Status: **proved**. Theorems in `Props/Workflow.lean`, `Props/WorkflowLowRank.lean`, `Props/WorkflowSampled.lean`.

*Modelled:* the three entry points called in sequence (`Model/Workflow`); nothing new is modelled.

*Proof:* C47 provides the estimate and posterior function, which meet the hypotheses of C52 and C53; the results are composed. `C54_classification_workflow_raises` is a finding about the classification workflow. `C54_sampled_workflow` composes the nonlinear pushforward results; `C54_training_layout_independent` rewrites the whole call with C47.

*Note:* Low-rank estimates are covered under the condition that the algorithm returned orthonormal columns and non-negative values (C23/C48 give that condition).

Theorems: `C54_regression_workflow`, `C54_evidence_workflow`, `C54_classification_workflow_raises`, `C54_data_layout_independent`, `C54_lanczos_workflow`, `C54_lobpcg_workflow`, `C54_sampled_workflow`, `C54_training_layout_independent`.

### C55 Pytree statistics, slices, block products and comparison

Status: **proved**. Theorems in `Props/TreeAxes.lean`, `Props/TreeAxesSingle.lean`, `Props/TreeAxis.lean`, `Props/TreeStats.lean`.

*Modelled:* the functions of `util/tree.py` on floating-point leaves (`Model/TreeStats`, `Model/TreeAxis`): statistics along any axis or over all entries with `ddof` and `keepdims`, `cov` with all its keywords, slices with any python bounds; reshapes and products as external array functions with their errors.

*Proof:* column statistics of concatenated leaves are the concatenated statistics (induction over the leaves); block products by induction over the blocks; the exact condition for Hessian trees uses a single unit entry as counterexample for every pair of leaves with at least two entries each. Along other axes: row-major index arithmetic; slices: the clamped bounds select exactly the positions between the bounds (induction over the list).

Theorems: `C55_statistics_axes`, `C55_axes_leaves`, `C55_statistics_axes_raises`, `C55_statistics_one_axis`, `C55_statistics_every_axis`, `C55_statistics_axis`, `C55_statistics_all`, `C55_statistics_axis_raises`, `C55_statistics_axis_zero`, `C55_covariance_keywords`, `C55_unreadable_leaves`, `C55_slice_bounds`, `C55_ensemble_statistics`, `C55_scalar_leaf_raises`, `C55_ensemble_covariance`, `C55_covariance_rejects`, `C55_slice`, `C55_sqrt`, `C55_invert_raises`, `C55_tree_matvec`, `C55_hessian_product_iff`, `C55_tree_matvec_leaves`, `C55_tree_partialmatvec`, `C55_tree_partialmatvec_raises`, `C55_allclose`, `C55_allclose_order`.

### C56 evaluate_on_dataset collects the predictions of every point

Status: **proved**. Theorems in `Props/EvalDataset.lean`.

*Modelled:* `evaluate_on_dataset` with its batch-size keywords, `lax.map` with remainder batches and key-wise stacking (`Model/EvalDataset`).

*Proof:* chunked map = map; the stacked dictionary key by key; composition with C51.

Theorems: `C56_collects_all`, `C56_errors`, `C56_linear_predictive`.

### C57 Unequal shapes: what is rejected and what is computed

Status: **proved**. Theorems in `Props/Broadcast.lean`, `Props/BroadcastEvidence.lean`.

*Modelled:* numpy broadcasting of row-major arrays (`Model/Broadcast`), used by `Arr.zipWith` (pytree add/sub), `estimateRmseArr`, `chiSquaredArr`, `mseLossArr`, the keyword metrics, the chi-squared and evidence objectives.

*Proof:* entries of `bcTo` by multi-index (induction over the axes); column/row special cases as double sums; composition with C51-C53. Evidence on unequal shapes: the loss raises inside the objective (`mll_incompatible`), and all-infinite scores select the first grid point.

Theorems: `C57_broadcast`, `C57_tree_add_sub`, `C57_equal_shapes`, `C57_rmse_all_pairs`, `C57_rmse_of_perfect_predictions`, `C57_chi_squared_all_pairs`, `C57_rejections`, `C57_keyword_metrics`, `C57_chi_squared_calibration`, `C57_evidence_calibration`, `C57_evaluation_raises`, `C57_evidence_incompatible`, `C57_class_labels_evidence`, `C57_unknown_loss_silent`.

### C58 The options of laplace change how the model is called, not the result

Status: **partial**. Theorems in `Props/LaplaceOptions.lean`.

*Modelled:* `laplaceWith` (`Model/LaplaceOptions`): both values of `vmap_over_data` and `curv_mv_jit`; the loss Hessian products on 2-D arrays; the Hessian product of a batched model.

*Proof:* a jitted loader product is a single product of the summed operator; a sum of C² losses has a block-diagonal Hessian (`hvp2_sum`), so both calling conventions give the same linear map per batch; then `laplaceWith_generic`.

*Note:* Partial: proved for curv_mv_jit and all losses, and for vmap_over_data=False with mse, binary_cross_entropy, none and callables that sum over the samples (mean losses: C58_mean_loss). The claim is false for the built-in cross_entropy with vmap_over_data=False: two or more classes raise TypeError (C58_cross_entropy_raises), one output gives a wrong, indefinite curvature (C58_cross_entropy_one_output).

Theorems: `C58_default_options`, `C58_options_do_not_matter_partial`, `C58_hessian`, `C58_cross_entropy_raises`, `C58_mean_loss`, `C58_cross_entropy_one_output`.

### C59 Keyword arguments of laplace reach the selected estimation, and only it

Status: **proved**. Theorems in `Props/LaplaceKwargs.lean`.

*Modelled:* `laplaceKw` (`Model/LaplaceKwargs`): the keyword arguments as the record of driver keywords, `low_rank_method` and the names of all other keywords; `kindOfKwargs` and `lowRankKind` are the dispatch of `estimate_curvature` and `create_low_rank_curvature`.

*Proof:* `laplaceWith_matrix` reduces the call to an adaptive algorithm on the matrix num_curv/num_total · Σ Jᵀ H J; both that and `create_low_rank_curvature` (C49) run the same algorithm; the LOBPCG posterior then follows from C48 and `posterior_of_estimate`.

Theorems: `C59_low_rank_keywords`, `C59_full_and_diagonal_ignore_keywords`, `C59_reserved_keywords`, `C59_lanczos_needs_key`, `C59_method_overrides_type`, `C59_lobpcg_posterior`.

### C60 Evidence calibration uses the curvature type and the model it is given

Status: **partial**. Theorems in `Props/CalibrationArgs.lean`.

*Modelled:* `calibrationWith` (`Model/CalibrationArgs`): `calibration` with both arguments; `logDetBy` is the pair of table look-ups for every combination of type and estimate, including numpy broadcasting of a vector as a matrix; `batchLossFn` is the loss on the whole batch with the model called per sample or once.

*Proof:* the loss of the batch is the same number for both calling conventions (`batchLossFn_ok`); the objective is then the score with the log determinant of the tables (`mllObjectiveWith_ok`), and the grid-search lemma of C52 applies. `det(τI + 1dᵀ)` by the matrix determinant lemma.

*Note:* Partial: proved for dense and diagonal positive semidefinite estimates with the type as a member or exact value, both values of vmap_over_data, all targets shaped like the outputs, and for the other objectives without restriction. The code violates the rest: other spellings that laplace accepts raise KeyError, a low-rank type with another estimate silently returns the smallest grid precision, 'full' with a diagonal estimate and 'diagonal' with a dense one silently use wrong determinants, low-rank estimates use another formula, a ValueError of a batched model is swallowed - each with its exact outcome as a theorem.

Theorems: `C60_evidence_partial`, `C60_other_objectives`, `C60_default_per_sample`, `C60_registered_method`, `C60_cross_entropy_raises`, `C60_unknown_loss_silent`, `C60_low_rank_score`, `C60_spelling_raises`, `C60_low_rank_type_silent`, `C60_array_type_on_low_rank`, `C60_full_type_on_diagonal`, `C60_diagonal_type_on_full`, `C60_batched_model_fails`.

### C61 For linear models with squared error the Laplace approximation is exact

Status: **partial**. Theorems in `Props/Exact.lean`.

*Modelled:* no new code: `laplace`, `linPushforward`, `marginalLogLikelihood` as before. The specification (`Spec/Exact`) is Bayesian linear regression: the energy (weighted squared errors plus the prior term), the law with density proportional to exp(-energy), the joint density and its integral.

*Proof:* the squared error of an affine model is an exact quadratic whose Hessian is the GGN (`totalError_expand`); at a minimiser the linear part vanishes (`linear_part_zero`). The normalised density follows from the Gaussian integral of C34, the law by identifying the density of μ + R y for standard normal y (`Lib/GaussianDensity`: product densities, linear change of variables) and Mathlib's multivariate Gaussian. The evidence: det(aG + τI) is strictly increasing in a unless G = 0 (eigenvalues), so the two log determinants agree only if the two weights do.

*Note:* Posterior and predictive are proved in full. The evidence is partial because the code weights the likelihood with 1/(2 sigma) but the curvature with sigma_squared: marginal_log_likelihood is exact exactly when 2*sigma*sigma_squared = 1 or the curvature vanishes, and strictly too small with the defaults (C61_evidence_exact_iff, C61_calibration_score).

Theorems: `C61_posterior_exact`, `C61_predictive_exact`, `C61_evidence_exact_iff`, `C61_evidence_partial`, `C61_calibration_score`.

### C62 More prior precision and more data never increase the reported uncertainty

Status: **proved**. Theorems in `Props/Uncertainty.lean`.

*Modelled:* no new code: `laplace`, `setPosteriorFn`, `setPushforward` and the selection by name as before; `Spec/Uncertainty` says what a predictive reports.

*Proof:* C51 gives the reported variances as the diagonal of J P⁻¹ Jᵀ; inversion reverses the Loewner order (`inv_antitone`, by completing the square); the precisions differ by multiples of the curvature and the identity, by the GGN of the extra samples, or by (I-UUᵀ)G(I-UUᵀ) for dropped eigenpairs.

Theorems: `C62_prior_arguments`, `C62_larger_curvature`, `C62_low_rank`, `C62_more_data`.

### C63 Target values and the arrangement of the parameters do not matter

Status: **proved**. Theorems in `Props/Invariance.lean`, `Props/InvarianceEvidence.lean`.

*Modelled:* no new code; `Spec.rearranged` is the model that reads its parameters from permuted positions.

*Proof:* the Hessian products of the named losses do not use the target; the Jacobian of a rearranged model is a column permutation (chain rule with a linear equivalence), so curvature, precision and its inverse are permuted in the same way and J P⁻¹ Jᵀ is unchanged; the choice of a grid search is unique (`chosen_unique`).

Theorems: `C63_targets_ignored`, `C63_parameter_layout`, `C63_workflow_parameter_layout`, `C63_evidence_parameter_layout`, `C63_evidence_workflow_parameter_layout`.

### C64 The posterior of a Lanczos estimate is the Gaussian for the curvature compressed to the Krylov space

Status: **partial**. Theorems in `Props/LanczosPosterior.lean`, `Props/LanczosPredictive.lean`.

*Modelled:* nothing new: `Model/Lanczos`, `Model/Posterior`, `Model/LaplaceKwargs`.

*Proof:* uniqueness of the functional calculus of a symmetric matrix (two spectral decompositions overlap only on equal eigenvalues) applied to the tridiagonal matrix, which after the first breakdown is block diagonal; Cauchy-Schwarz in the metric of the precision for the exact condition of positive semidefiniteness.

*Note:* Partial because the code violates it: proved without breakdown; after a breakdown the exact covariance, the exact condition for positive semidefiniteness (C64_positive_semidefinite_iff) and, through laplace with default keywords, a negative variance (C64_laplace_negative_variance) are proved.

Theorems: `C64_breakdown_posterior`, `C64_positive_semidefinite_iff`, `C64_without_breakdown_partial`, `C64_rank_exceeds_parameters`, `C64_one_parameter`, `C64_laplace_negative_variance`, `C64_one_parameter_predictive`.

### C65 Every documented exception is raised, with the documented class, exactly in the documented situation

Status: **partial**. Theorems in `Props/DocumentedErrors.lean`.

*Modelled:* nothing new: the argument checks of the existing models.

*Proof:* case analysis over all forms of the arguments; induction over the list of batches (`process_batches`) and over the slots (`register_curvature_method`).

*Note:* Exact conditions proved for every modelled check with a Raises section. Partial because the full claim is false for to_dense (ValueError instead of TypeError for None, C65_to_dense_partial); also the ValueError documented by set_posterior_fn is unreachable (isinstance(_, PyTree) always holds), the TypeErrors of lin_setup and apply_fns concern objects of the wrong python type, which the typed model cannot represent.

Theorems: `C65_loss_hessian`, `C65_create_ggn_mv`, `C65_hessian`, `C65_layout_required`, `C65_lanczos_needs_key`, `C65_process_batches`, `C65_array_operations`, `C65_pytree_where_array_expected`, `C65_register`, `C65_metric_plumbing`, `C65_gaussian_metrics`, `C65_batch_validation`, `C65_unvalidated_data`, `C65_ggn_api_shape_test`, `C65_setup_pushforward`, `C65_resolve_metrics`, `C65_calibration_method`, `C65_to_dense_partial`.

### C66 Sampled predictive statistics are unbiased estimates of the output distribution under the posterior

Status: **proved**. Theorems in `Props/SampleConvergence.lean`, `Props/SampleEstimates.lean`.

*Modelled:* nothing new: the sampled and linearised pushforward of C35/C36 with a random `Prng`.

*Proof:* the law of each weight sample is the posterior (C50); moments of the empirical mean and of the empirical covariance of pairwise uncorrelated samples (`Lib/SampleMoments.lean`); change of variables for expectations and covariances; boundedness of the softmax gives its moments without an assumption on the model; for affine models the law of the outputs is Gaussian with covariance `M P⁻¹ Mᵀ`. Concentration (Chebyshev) with the variance of the average.

*Note:* Real numbers and an idealised PRNG: the draws of different samples are assumed to be independent standard normal vectors; JAX's generator is deterministic. The moments of the outputs are assumed for pred_mean/pred_cov/pred_var and hold automatically for mc_pred_act and for affine models.

Theorems: `C66_mean_concentrates`, `C66_probabilities_concentrate`, `C66_sampled_mean_and_covariance`, `C66_sampled_variance`, `C66_sampled_probabilities`, `C66_linearized_probabilities`, `C66_affine_model`.

### C67 Relabelling the classes permutes the predictions and changes no score

Status: **proved**. Theorems in `Props/Relabel.lean`.

*Modelled:* nothing new: laplace, the pushforwards, the predictives and the metrics with the model `relabelled net π`.

*Proof:* the Jacobian of the relabelled model is the Jacobian with permuted rows (no differentiability needed); the Hessian products of the named losses commute with permutations, so the GGN products and by C47 the whole result of laplace agree; C35/C36/C51 give every key as a function of output, Jacobian, posterior and the (same) draws, and these functions commute with permutations; the scores by C31 and sums over classes.

Theorems: `C67_same_posterior`, `C67_class_probabilities`, `C67_linearized_predictive`, `C67_sampled_predictive`, `C67_named_predictive`, `C67_scores`, `C67_ties_depend_on_labels`.

### C68 Class probabilities depend only on differences of logits

Status: **partial**. Theorems in `Props/LogitShift.lean`.

*Modelled:* nothing new: laplace and the pushforwards with the model `shifted net t`.

*Proof:* J changes by `1 ∇tᵀ`; softmax is shift invariant, `H_ce 1 = 0` and `1ᵀ H_ce = 0`, so the GGN products agree; samples change by a common number per sample; `V_ii + V_jj - 2 V_ij` depends only on differences of Jacobian rows; explicit two-class counterexamples for mean_field_0 and mean_field_1.

*Note:* Proved for the posterior, mc_bridge, mean_field_2 and the sampled predictive. Partial because the code violates the claim for mean_field_0 and mean_field_1 (C68_mean_field_violated); proved there: mean_field_1 for numbers that do not depend on the parameters (C68_mean_field_1_partial), mean_field_0 exactly if all variances are equal (C68_mean_field_0_iff). Differentiability of model and added function at the parameters is assumed (as autodiff does).

Theorems: `C68_same_posterior`, `C68_linearized_probabilities`, `C68_mean_field_1_partial`, `C68_sampled_probabilities`, `C68_mean_field_0_iff`, `C68_mean_field_violated`.

### C69 The order of the data does not matter, and evidence calibration does not use the calibration data

Status: **proved**. Theorems in `Props/DataOrder.lean`.

*Modelled:* nothing new: calibration, evaluation and workflow on two data objects; `EachTimes m π` in Spec/Order says that the list π names every point m times.

*Proof:* C52 gives for each objective the score function and the search; the scores are averages over the batch, hence functions of the empirical distribution (sum over the fibres of π; for ECE per bin), and the search is determined by the scores; the negative log evidence is L/2 plus a term without data, and shifting all scores changes no comparison; C53 and C54 for the rest.

Theorems: `C69_nll`, `C69_chi_squared`, `C69_nll_classification`, `C69_ece`, `C69_evidence`, `C69_test_data`, `C69_workflow`.

### C70 Parameters the model does not use keep their prior and change no prediction

Status: **proved**. Theorems in `Props/UnusedParams.lean`, `Props/UnusedWorkflow.lean`.

*Modelled:* nothing new: laplace, posterior, predictive and evidence of two models; `reading net ι` in Spec/Unused is the model that reads its p parameters at the positions ι of a longer vector.

*Proof:* the Jacobian of the larger model is J E with the 0/1 matrix E of ι (also where the model is not differentiable), so its curvature is Eᵀ G E and its precision P' satisfies P' Eᵀ = Eᵀ P; inverting gives the covariance, det(1 + AB) = det(1 + BA) the determinant; C34, C47, C54 carry this to the API.

Theorems: `C70_posterior`, `C70_predictive`, `C70_evidence`, `C70_workflow`, `C70_evidence_workflow`.

### C71 The diagonal approximation never overstates a weight variance or the evidence

Status: **proved**. Theorems in `Props/DiagonalVsFull.lean`.

*Modelled:* nothing new: laplace with two curvature types on the same data.

*Proof:* 1/P_ii ≤ (P⁻¹)_ii from 2 u·v − u·P u ≤ v·P⁻¹ v; the prior bound from the antitone inverse; Hadamard's inequality det P ≤ ∏ P_ii (proved from log λ ≤ λ − 1 for the normalised matrix) for the evidence; an explicit linear model for the missing order of predictive variances.

Theorems: `C71_weight_variances`, `C71_evidence`, `C71_no_order_of_predictive_variances`.

### C72 The scores are proper: on average the true predictive distribution scores best

Status: **proved**. Theorems in `Props/ProperScores.lean`.

*Modelled:* nothing new: the metrics of C31/C32 applied to random targets (measurable functions on a probability space).

*Proof:* E(Y-m)^2 = Var + bias^2; log x <= x-1 with equality only at 1 (log score); Fubini and E crps(F,Y) = int (F-G)^2 + int G(1-G), continuity and injectivity of normal distribution functions (CRPS); E sum (q_k - 1[Y=k])^2 = sum (q_k-p_k)^2 + const (Brier); an exchange argument on the k best classes (accuracy).

Theorems: `C72_nll`, `C72_squared_errors`, `C72_brier`, `C72_accuracy`, `C72_crps`.

### C73 Changing the units of the outputs converts the predictions and the scores

Status: **proved**. Theorems in `Props/Units.lean`.

*Modelled:* nothing new: laplace, the pushforwards and the metrics on the converted model (spec: inUnits, converted).

*Proof:* the Jacobian of u*f+b is u*J, the squared-error curvature u^2*G; sigma/u^2 * u^2 G = sigma G gives the same precision entry by entry, hence literally the same posterior; the expected entries of C35/C36/C51 are converted key by key; scores by rewriting their defining sums.

Theorems: `C73_scores`, `C73_same_posterior`, `C73_linearized_predictive`, `C73_workflow`, `C73_fixed_noise`, `C73_sampled_predictive`.

### C74 The Laplace posterior is Gaussian process regression with the tangent kernel

Status: **proved**. Theorems in `Props/FunctionSpace.lean`.

*Modelled:* nothing new: laplace with FULL curvature, set_posterior_gp_kernel and the linearised pushforward (spec: tangentKernel, gpCov, gpMean, gpCovLoss).

*Proof:* stack the training Jacobians; the curvature is Jᵀ W J, and the push-through (Woodbury) identity moves the inverse from parameter space to data space; the trained mean from the stationarity of the energy.

Theorems: `C74_kernel`, `C74_regression_kernel`, `C74_predictive`, `C74_trained_regression`.

### C75 Strong and weak priors: the limits of the predictive in the prior precision

Status: **proved**. Theorems in `Props/PriorLimits.lean`.

*Modelled:* nothing new: the predictives of C51 as functions of the prior arguments (spec: Reports, ReportsAt).

*Proof:* variational bounds for v (C+τ)⁻¹ v from quad_inv_le; a vector orthogonal to the kernel of a symmetric matrix lies in its range (duality); squeeze; continuity of the matrix inverse through the adjugate; the factor R with R Rᵀ = (C+τ)⁻¹ vanishes entrywise.

Theorems: `C75_strong_prior`, `C75_weak_prior`, `C75_probabilities`, `C75_sampled`.

### C76 How good the calibrated prior precision is

Status: **proved**. Theorems in `Props/SearchQuality.lean`.

*Modelled:* nothing new: grid_search (C28) and calibration (C52) (spec: SingleValley, WithinOfBest).

*Proof:* after the stop a further minimum would contradict the single valley; explicit scores 0, 1, ..., k, -1 for the counterexample; uniform continuity of τ ↦ score on the compact interval of exponents for the fine grids.

Theorems: `C76_patience_single_valley`, `C76_patience_can_miss`, `C76_nll_fine_grid`, `C76_chi_squared_fine_grid`, `C76_evidence_fine_grid`, `C76_nll_patience`, `C76_evidence_patience`.

### C77 Classification metrics on arrays of every shape

Status: **proved**. Theorems in `Props/AccuracyAxes.lean`, `Props/ApiCalibration.lean`, `Props/MetricsArr.lean`.

*Modelled:* Model/MetricsArr: correctness, accuracy, cross_entropy, multiclass_brier on arrays of any shape with numpy broadcasting (spec: tableArr, vectorArr, columnArr, ScoresAt, hitsOf); the ECE objective with 2-D targets of any width. Accuracy with more than two axes (gridArr, gridHits). The two confidence functions of the default classification metrics.

*Proof:* entries of a reduction along the last axis by row-major positions; the broadcasting lemmas of C57 entry by entry; top_k ranks as a permutation of the classes for the documented accuracy and for the number of hits; row-wise expansion of the Brier score; argmax over one entry is 0; entries of transposed data counted column by column (induction on the axes).

Theorems: `C77_accuracy_more_axes`, `C77_accuracy_three_axes`, `C77_accuracy_more_axes_errors`, `C77_ece_column_labels`, `C77_correctness`, `C77_correctness_documented`, `C77_column_labels`, `C77_accuracy_documented`, `C77_accuracy_one_label`, `C77_accuracy_errors`, `C77_cross_entropy`, `C77_cross_entropy_broadcast`, `C77_cross_entropy_errors`, `C77_brier_documented`, `C77_brier_one_point`, `C77_brier_column_labels`, `C77_brier_scalar_label`, `C77_correctness_errors`, `C77_confidence`.

### C78 Class probabilities of outputs with any number of axes

Status: **proved**. Theorems in `Props/PredictivesArr.lean`.

*Modelled:* Model/Predictives (meanField0Arr, meanField1Arr, meanField2Arr, laplaceBridgeArr), Model/Pushforward (meanSoftmaxAxis1, specialPredAct) on row-major arrays of any shape; spec vocabulary Spec/PredictivesArr (AlongFirst, ScoresAt, meanField0Of, meanField1Of).

*Proof:* row-major positions split at the first and the last axis (blocks); the runs of the linearised and sampled pushforward up to the requested function (lin_run, nonlin_prefix), then that function; broadcasting lemmas of C57 for mean_field_2 on several axes.

Theorems: `C78_mean_field_0`, `C78_mean_field_1`, `C78_laplace_bridge`, `C78_laplace_bridge_values`, `C78_scalar_outputs`, `C78_linearized_average`, `C78_linearized_special`, `C78_sampled_average`, `C78_sampled_special`, `C78_what_sums_to_one`.

### C79 How far a low-rank posterior is from the full one

Status: **proved**. Theorems in `Props/LowRankError.lean`.

*Modelled:* the whole of laplace with the full and the low-rank kinds (Model/Laplace, Model/LowRank, Model/Lanczos), the linearised predictive and marginalLogLikelihood; spec vocabulary Spec/LowRankError (RestAtMost, KeepsMore) and EigenpairsOf.

*Proof:* the vector splits into its part in the kept space, where both covariances agree, and the rest, where the low-rank covariance is 1/tau and the full one at least 1/(tau + sigma_squared delta) (quad_inv_le); determinants through det(1 + M) >= 1; a two-parameter example where rank-1 Lanczos reports 4/3 against 2.

Theorems: `C79_predictive_variances`, `C79_weight_variances`, `C79_more_eigenpairs`, `C79_evidence`, `C79_lanczos`, `C79_ritz_pairs_overconfident`.

### C80 The calibration errors under refinement, label noise and pooling

Status: **proved**. Theorems in `Props/CalibrationBins.lean`.

*Modelled:* the calibration errors of Model/Metrics (C30).

*Proof:* n times the error is a sum over bins of absolute values of sums of (correctness - confidence) (ece_sum); the bin of a confidence among m*nb bins divided by m is its bin among nb bins; triangle inequalities.

Theorems: `C80_refinement`, `C80_more_bins_can_hide_errors`, `C80_label_noise`, `C80_pooling`, `C80_order_and_duplicates`.

### C81 Fitting on a random part of the data never looks more certain on average

Status: **proved**. Theorems in `Props/SubsampledUncertainty.lean`.

*Modelled:* laplace and set_posterior_fn followed by the linearised pushforward (C47, C67).

*Proof:* averaging over permutations gives a multiple at most 1 of the full curvature (perm_average); the quadratic form of the inverse is convex and antitone (quad_inv_average).

Theorems: `C81_average_variance`.

### C82 What one more data point does to the reported uncertainty

Status: **proved**. Theorems in `Props/DataInfluence.lean`.

*Modelled:* nothing new: laplace, set_posterior_gp_kernel and the linearised predictive (C47, C37, C51); spec gpCovLoss, lossHessians (C74), Reports (C62).

*Proof:* the two precisions differ by the curvature of the additional points; the Woodbury identity for a general precision; variational form of the quadratic form of the inverse; a direction observed with weight a has variance below 1/a.

Theorems: `C82_conditioning`, `C82_influence`, `C82_observed_regression`, `C82_observed_binary`.

### C83 Small changes of the curvature, the parameters or the input change the report little

Status: **proved**. Theorems in `Props/Stability.lean`.

*Modelled:* nothing new: laplace, set_posterior_fn and the linearised predictive (C47, C51).

*Proof:* |P^-1 v| <= |v|/tau and the variational bound of C82 in both directions; continuity of the Jacobian, of the loss Hessian products and of the matrix inverse at positive definite matrices.

Theorems: `C83_curvature_error`, `C83_continuous_in_parameters`, `C83_continuous_in_input`.

### C84 Other coordinates for the parameters change only the scale of the prior

Status: **proved**. Theorems in `Props/Coordinates.lean`, `Props/CoordinatesWorkflow.lean`.

*Modelled:* nothing new: laplace, set_posterior_fn, the linearised predictive, marginal_log_likelihood and the workflow (C47, C51, C34, C54).

*Proof:* the Jacobian in the coordinates v is J A, so the curvature is A^T G A and the precision for c tau is A^T P A; its inverse is A^-1 P^-1 A^-T. Converse by polarisation. The diagonal case is computed for one model.

Theorems: `C84_predictive`, `C84_posterior`, `C84_only_similarities`, `C84_evidence`, `C84_workflow`, `C84_diagonal_depends`.

## 4. Axioms each theorem depends on

From `#print axioms` (tools/gen_axioms.py, raw data in tools/axioms.json). Only Lean's three standard axioms occur.

* no axioms: C11_second_pass, C12_wrap, C24_restored_on_return_partial, C24_flag_after_exception, C24_always_restored_if_matching, C24_callable_needs_layout, C38_finalize_append, C39_list_unchanged_partial, C39_edge_cases, C40_documented_values.
* `Quot.sound`: C11_empty_raises.
* `propext`: C03_unravel_scalar_raises, C09_diagonal_no_layout, C11_visits_in_order, C11_entry_points_visit_in_order, C27_builtin_methods, C27_builtins_unchanged, C27_calibration_registry, C41_evaluation_partial, C41_evaluation_violated, C43_tuple_is_one_batch, C43_list_pair_violated, C44_linear, C44_nonlinear_partial, C44_nonlinear_pred_act_violated, C45_objective_table, C45_objective_names, C45_model_required_for_every_objective, C65_lanczos_needs_key, C65_process_batches, C65_unvalidated_data.
* `Quot.sound`, `propext`: C02_full_flatten, C04_wrap_function, C04_last_argument_negative, C04_wrap_function_out_of_range, C04_wrap_twice, C04_wrap_factory, C05_constants, C05_structure_mismatch_raises, C06_tree_vec_get, C06_tree_vec_get_clamps, C07_eye_like_no_leaves, C08_to_dense_none_raises, C09_diagonal_int, C10_reduce_sum, C10_reduce_concat, C10_reduce_online_mean, C10_partition_invariance, C10_reduce_add, C10_reduce_add_partition, C10_online_mean_scalar, C10_axis_out_of_range, C11_error_propagates, C12_default_reduce_collapses, C13_precompute, C13_errors, C24_violated, C24_default_dtypes, C27_success, C27_consistent_histories, C28_errors, C38_apply_fns, C38_apply_fns_errors, C38_duplicate_keyword, C39_list_mutation_violated, C39_dataset_reduces_all, C40_convert_to_enum, C41_laplace_one_shot_rejected, C41_ggn_one_shot_rejected, C41_ggn_reiterable_uses_all, C43_mapping_is_one_batch, C43_rejected, C43_array_rejected, C43_list_pair_partial, C44_invalid_names, C65_metric_plumbing, C65_ggn_api_shape_test.
* `Classical.choice`, `Quot.sound`, `propext`: C01_unflatten_flatten, C01_flatten_unflatten, C01_wrong_length_raises, C03_partial_roundtrip, C03_partial_roundtrip_inv, C03_unravel_rows, C03_unravel_any_axis, C04_flatten_function, C05_tree_arithmetic, C06_basis_vector, C06_negative_index, C07_eye_like_agree, C07_eye_like_slices, C08_to_dense_int_columns, C08_to_dense_tree_columns, C08_to_dense_linear, C08_to_dense_tree_valued, C08_to_dense_int_tree_valued, C09_diagonal_tree, C09_diagonal_eq_diag_of_dense, C10_pytree, C10_reduce_sum_axis, C10_reduce_concat_axis, C10_axis_zero, C12_call_is_summed_operator, C12_to_dense, C12_diagonal, C13_beyond_the_list, C14_cross_entropy, C14_cross_entropy_soft_targets, C14_binary_cross_entropy, C14_mse, C14_custom, C14_named_loss_psd, C15_ggn_formula, C15_ggn_formula_no_vmap, C15_ggn_psd, C15_create_ggn_mv_psd, C15_ggn_permutation, C15_ggn_additive, C16_cross_entropy, C16_binary_cross_entropy, C16_mse, C17_create_ggn_mv, C17_loss_dispatch, C18_hessian_mv, C18_mse_order_and_batches, C18_samplewise_order_and_batches, C18_unsupported_losses, C18_combined_values, C19_full_posterior, C19_full_posterior_psd, C19_prior_prec_required, C19_triangular_solver, C20_diagonal_posterior, C20_diagonal_is_posterior, C20_diagonal_eq_full, C21_low_rank_posterior, C21_low_rank_square, C21_low_rank_eq_full, C22_same_posterior_partial, C22_full_diagonal, C22_low_rank_ignores_loss_scaling, C22_low_rank_iff, C23_orthonormal, C23_first_vector, C23_recurrence, C23_tridiagonal, C23_krylov, C23_eigh_exists, C23_low_rank_terms, C23_full_rank_exact, C23_breakdown_duplicates, C23_breakdown_identity, C23_no_reorthogonalisation_fails, C23_rank_exceeds_dimension, C23_lanczos_posterior_eq_full, C25_rank_partial, C25_lowrank_outcome, C25_violated, C26_pytree_products, C26_flat_products, C26_create_posterior_full, C26_create_posterior_diagonal, C26_create_posterior_low_rank, C26_full_needs_pytree_layout, C26_default_loss_scaling, C27_succeeds_iff, C27_failing_registration_partial, C27_failing_registration_violated, C27_after_failure, C28_grid_search, C28_unlimited, C28_failures_lose, C28_optimize_prior_prec_range, C28_exception_at_candidate, C28_raises_only_if, C29_at_most_succ_partial, C29_violated, C29_truncates, C30_bin_of_confidence, C30_bins_partition, C30_out_of_range_clipped, C30_bin_metrics, C30_proportions, C30_ece_value, C30_mce_value, C30_range, C30_ece_bounds_overall_gap, C30_zero_bins, C31_value, C31_range, C31_monotone, C31_all_classes, C31_correctness, C31_top1_is_mean_correctness, C31_one_hot_targets, C31_empty_top_k, C31_negative_k, C31_any_top_k, C31_all_negative, C31_zero_classes, C31_zero_classes_labels, C32_cross_entropy_nonneg, C32_gibbs, C32_cross_entropy_one_hot, C32_brier_value_partial, C32_brier_disagrees, C32_brier_orientation, C32_rmse, C32_chi_squared, C32_nll, C32_crps, C32_shape_mismatch, C33_mean_field_1_normalised_iff, C33_mean_field_2_normalised_iff, C33_mean_field_0, C33_mean_field_0_temperature, C33_mean_field_1, C33_mean_field_1_sums_to_one_partial, C33_mean_field_1_not_normalised, C33_mean_field_2, C33_mean_field_2_well_defined, C33_mean_field_2_sums_to_one_partial, C33_mean_field_2_not_normalised, C33_bridge_one_dimensional_raises, C33_bridge_total_mass_partial, C33_bridge_columns_not_probabilities, C33_bridge_spec_isProb, C33_bridge_wrong_class_count, C34_joint, C34_joint_ignores_sigma_squared, C34_default_loss_scaling, C34_full, C34_diagonal, C34_full_eq_diagonal, C34_low_rank_partial, C34_low_rank_error, C34_low_rank_wrong, C35_linearized_predictive, C35_predictive_covariance_psd, C35_full_laplace_predictive, C35_setup_required, C35_matrix_outputs_raise, C35_laplace_bridge_raises, C36_special_predictives, C36_sampled_predictive, C36_order_independent_partial, C36_variance_depends_on_order, C36_sample_covariance_psd, C36_zero_samples_raise, C36_special_needs_variance, C37_kernel_products, C37_dense_kernel, C37_dense_needs_layout, C37_num_samples_raises, C38_apply_fns_aux_alias, C38_transfer_entry, C38_transfer_entry_errors, C39_generator_reduces_all, C40_any_case_spelling, C40_str_to_bool, C42_functional_scaling, C42_replication_invariant, C42_laplace_factor_partial, C42_laplace_factor_violated, C42_laplace_witness, C42_laplace_correct_iff, C42_laplace_replicated_data, C42_shuffled_batch_unbiased, C42_resampled_batch_unbiased, C42_laplace_shuffled_batch, C44_custom, C44_get_pred_act, C46_resolve_metrics, C47_laplace_curvature, C47_rejected_calls, C47_batching_independent, C47_posterior, C47_linearized_predictive_full, C47_linearized_predictive, C47_custom_loss, C48_kernels_exist, C48_orthonormalize, C48_extend_basis, C48_project_out, C48_ritz_pairs, C48_stopping, C48_monotone_and_bounded, C48_low_rank_terms, C48_zero_column_loses_direction, C49_get_matvec, C49_callable_needs_layout, C49_methods, C49_form_independent, C49_lanczos, C49_lobpcg, C49_defaults, C49_operator_exception, C49_lanczos_result, C49_laplace_lanczos, C50_weight_samples, C50_precompute_keyword_raises, C50_index_beyond_samples, C50_weight_sample_law, C50_predictive_sample_law, C51_linear_predictive, C51_nonlinear_predictive, C51_laplace_bridge_raises, C51_nonlinear_needs_samples, C52_nll, C52_chi_squared, C52_nll_classification, C52_ece, C52_marginal_likelihood, C52_without_patience, C52_range, C52_shape_mismatch_silent, C52_one_hot_labels_silent, C52_cross_entropy_evidence_raises, C52_nll_nonlinear, C52_ece_nonlinear_raises, C52_unreadable_batch, C52_max_iterations_ignored, C52_methods, C53_batching, C53_same_points, C53_reduce, C53_one_shot_drops_first, C53_loader_ignores_reduce, C53_regression, C53_regression_nonlinear, C53_classification_raises, C53_one_hot_point_broadcasts, C54_regression_workflow, C54_evidence_workflow, C54_classification_workflow_raises, C54_data_layout_independent, C54_lanczos_workflow, C54_lobpcg_workflow, C54_sampled_workflow, C54_training_layout_independent, C55_statistics_axes, C55_axes_leaves, C55_statistics_axes_raises, C55_statistics_one_axis, C55_statistics_every_axis, C55_statistics_axis, C55_statistics_all, C55_statistics_axis_raises, C55_statistics_axis_zero, C55_covariance_keywords, C55_unreadable_leaves, C55_slice_bounds, C55_ensemble_statistics, C55_scalar_leaf_raises, C55_ensemble_covariance, C55_covariance_rejects, C55_slice, C55_sqrt, C55_invert_raises, C55_tree_matvec, C55_hessian_product_iff, C55_tree_matvec_leaves, C55_tree_partialmatvec, C55_tree_partialmatvec_raises, C55_allclose, C55_allclose_order, C56_collects_all, C56_errors, C56_linear_predictive, C57_broadcast, C57_tree_add_sub, C57_equal_shapes, C57_rmse_all_pairs, C57_rmse_of_perfect_predictions, C57_chi_squared_all_pairs, C57_rejections, C57_keyword_metrics, C57_chi_squared_calibration, C57_evidence_calibration, C57_evaluation_raises, C57_evidence_incompatible, C57_class_labels_evidence, C57_unknown_loss_silent, C58_default_options, C58_options_do_not_matter_partial, C58_hessian, C58_cross_entropy_raises, C58_mean_loss, C58_cross_entropy_one_output, C59_low_rank_keywords, C59_full_and_diagonal_ignore_keywords, C59_reserved_keywords, C59_lanczos_needs_key, C59_method_overrides_type, C59_lobpcg_posterior, C60_evidence_partial, C60_other_objectives, C60_default_per_sample, C60_registered_method, C60_cross_entropy_raises, C60_unknown_loss_silent, C60_low_rank_score, C60_spelling_raises, C60_low_rank_type_silent, C60_array_type_on_low_rank, C60_full_type_on_diagonal, C60_diagonal_type_on_full, C60_batched_model_fails, C61_posterior_exact, C61_predictive_exact, C61_evidence_exact_iff, C61_evidence_partial, C61_calibration_score, C62_prior_arguments, C62_larger_curvature, C62_low_rank, C62_more_data, C63_targets_ignored, C63_parameter_layout, C63_workflow_parameter_layout, C63_evidence_parameter_layout, C63_evidence_workflow_parameter_layout, C64_breakdown_posterior, C64_positive_semidefinite_iff, C64_without_breakdown_partial, C64_rank_exceeds_parameters, C64_one_parameter, C64_laplace_negative_variance, C64_one_parameter_predictive, C65_loss_hessian, C65_create_ggn_mv, C65_hessian, C65_layout_required, C65_array_operations, C65_pytree_where_array_expected, C65_register, C65_gaussian_metrics, C65_batch_validation, C65_setup_pushforward, C65_resolve_metrics, C65_calibration_method, C65_to_dense_partial, C66_mean_concentrates, C66_probabilities_concentrate, C66_sampled_mean_and_covariance, C66_sampled_variance, C66_sampled_probabilities, C66_linearized_probabilities, C66_affine_model, C67_same_posterior, C67_class_probabilities, C67_linearized_predictive, C67_sampled_predictive, C67_named_predictive, C67_scores, C67_ties_depend_on_labels, C68_same_posterior, C68_linearized_probabilities, C68_mean_field_1_partial, C68_sampled_probabilities, C68_mean_field_0_iff, C68_mean_field_violated, C69_nll, C69_chi_squared, C69_nll_classification, C69_ece, C69_evidence, C69_test_data, C69_workflow, C70_posterior, C70_predictive, C70_evidence, C70_workflow, C70_evidence_workflow, C71_weight_variances, C71_evidence, C71_no_order_of_predictive_variances, C72_nll, C72_squared_errors, C72_brier, C72_accuracy, C72_crps, C73_scores, C73_same_posterior, C73_linearized_predictive, C73_workflow, C73_fixed_noise, C73_sampled_predictive, C74_kernel, C74_regression_kernel, C74_predictive, C74_trained_regression, C75_strong_prior, C75_weak_prior, C75_probabilities, C75_sampled, C76_patience_single_valley, C76_patience_can_miss, C76_nll_fine_grid, C76_chi_squared_fine_grid, C76_evidence_fine_grid, C76_nll_patience, C76_evidence_patience, C77_accuracy_more_axes, C77_accuracy_three_axes, C77_accuracy_more_axes_errors, C77_ece_column_labels, C77_correctness, C77_correctness_documented, C77_column_labels, C77_accuracy_documented, C77_accuracy_one_label, C77_accuracy_errors, C77_cross_entropy, C77_cross_entropy_broadcast, C77_cross_entropy_errors, C77_brier_documented, C77_brier_one_point, C77_brier_column_labels, C77_brier_scalar_label, C77_correctness_errors, C77_confidence, C78_mean_field_0, C78_mean_field_1, C78_laplace_bridge, C78_laplace_bridge_values, C78_scalar_outputs, C78_linearized_average, C78_linearized_special, C78_sampled_average, C78_sampled_special, C78_what_sums_to_one, C79_predictive_variances, C79_weight_variances, C79_more_eigenpairs, C79_evidence, C79_lanczos, C79_ritz_pairs_overconfident, C80_refinement, C80_more_bins_can_hide_errors, C80_label_noise, C80_pooling, C80_order_and_duplicates, C81_average_variance, C82_conditioning, C82_influence, C82_observed_regression, C82_observed_binary, C83_curvature_error, C83_continuous_in_parameters, C83_continuous_in_input, C84_predictive, C84_posterior, C84_only_similarities, C84_evidence, C84_workflow, C84_diagonal_depends.

## 5. Findings: where the code does not do what the property says

Each is a theorem about the model (name in parentheses) unless marked *reading only*.

* `laplace` uses the factor num_curv/num_total, the inverse of what `create_ggn_mv` uses (`C42_laplace_factor_violated`, `C42_laplace_witness`); it is
  right exactly when the counts agree or the curvature is zero (`C42_laplace_correct_iff`), and replicating the data k times multiplies it by k² (`C42_laplace_replicated_data`).
* `low_rank_curvature_to_precision` divides only the prior by `loss_scaling_factor` and drops the estimate's scalar (`C22_low_rank_ignores_loss_scaling`).
* Lanczos: after a breakdown vectors are duplicated; with `full_reorthogonalize=False` the previous vector is never subtracted; a rank beyond the dimension always
  breaks down (`C23_breakdown_duplicates`, `C23_no_reorthogonalisation_fails`, `C23_rank_exceeds_dimension`).
  The reported posterior is then wrong: its covariance is positive semidefinite iff `(rank-1-k) sigma^2 alpha_k <= tau/s` (`C64_positive_semidefinite_iff`), so
  `laplace(curv_type="lanczos")` with the default rank on a small model reports negative variances (`C64_laplace_negative_variance`, `C64_one_parameter`).
* `jax_enable_x64` is not restored when an exception is raised (`C24_violated`).
* LOBPCG rank adjustment fails for size = 5·rank and sizes ≤ 5 (`C25_violated`); `_svqb`'s keep mask mixes eigenvalue indices with column indices and loses a usable
  column (`C48_zero_column_loses_direction`, inherited from JAX).
* `register_curvature_method` with an unknown default leaves the tables half written (`C27_failing_registration_violated`).
* `grid_search` evaluates `max_iterations + 1` candidates (`C29_violated`).
* `wrap_function` with `argnums=-1` passes all arguments again behind the replaced last one, because `args[argnums + 1 :]` is then `args[0:]`
  (`C04_last_argument_negative`).
* `accuracy` with a negative k slices from the end (`C31_negative_k`, `C31_any_top_k`).
* `multiclass_brier` returns minus the Brier score divided by the number of classes (`C32_brier_disagrees`).
* `mean_field_1/2` do not sum to one for three or more classes (for all means exactly when the variances, respectively the pairwise difference variances, are equal: `C33_mean_field_1_normalised_iff`, `C33_mean_field_2_normalised_iff`); `laplace_bridge` raises on vectors, uses `shape[1]` as the number of classes, and normalises over the
  whole array (`C33_*`, `C35_laplace_bridge_raises`).
* `mean_field_0` and `mean_field_1` probabilities change when the same number is added to all logits (`C68_mean_field_violated`, `C68_mean_field_0_iff`).
* `low_rank` marginal likelihood has a wrong log determinant unless the scalar part is 1; `joint_log_likelihood` reads `"sigma"` (`C34_low_rank_wrong`,
  `C34_joint_ignores_sigma_squared`).
* `marginal_log_likelihood` weights the loss with 1/(2·sigma) but its Hessian in the precision with sigma_squared: with the defaults the precision is the Hessian of
  *twice* the negative log likelihood, and even for linear regression the evidence is strictly too small; it is exact iff 2·sigma·sigma_squared = 1 or the curvature
  vanishes (`C61_evidence_exact_iff`, `C61_calibration_score`).
* Outputs with two or more axes: `pred_cov` then `pred_var` raises `ValueError` (`C35_matrix_outputs_raise`).
* Sampled predictive: variance normalisation depends on the order of requests; only the first five samples feed `samples` and `mc_pred_act`; the special predictives
  need `pred_var` to have been requested, and `mean_field_2` with one output raises `ValueError` (`C36_*`, `C36_special_predictives`). In expectation
  `pred_var` without `pred_cov` is only (S-1)/S of the variance (`C66_sampled_variance`), and the Monte Carlo error of `mc_pred_act` stops decreasing at five samples
  (`C66_sampled_probabilities`).
* `evaluate_metrics_on_dataset` changes the caller's list (`C39_list_mutation_violated`).
* `evaluation` drops the first batch of a one-shot iterator (`C41_evaluation_violated`).
* A list `[x, y]` passes validation but is not treated as one batch (`C43_list_pair_violated`).
* Nonlinear classification predictives never publish `pred_act` (`C44_nonlinear_pred_act_violated`).
* Every calibration objective demands `model_fn` and `curv_type`, even those that use neither (`C45_model_required_for_every_objective`).
* `concatenate_model_and_loss_fn`: cross-entropy is elementwise (gradient raises), BCE and NONE are rejected (`C18_unsupported_losses`).
* `to_dense(mv, None)` always raises, and `ValueError` instead of the documented `TypeError` (`C08_to_dense_none_raises`, `C65_to_dense_partial`); `diagonal` of a
  `DataLoaderMV` takes no keywords, so `diagonal(mv, layout, mv_jittable=…)` is a `TypeError` there (*reading only*, util/loader.py:365-372); `DataLoaderMV`'s default reduction is the mean over *entries* and collapses products
  (`C12_default_reduce_collapses`); `set_get_weight_sample` raises on a `precompute` keyword (`C50_precompute_keyword_raises`);
  `create_full_curvature` raises for an integer layout (`C26_full_needs_pytree_layout`); the GP kernel raises for an array `output_layout` with several entries
  (`C37_dense_needs_layout`), and raises `TypeError` when `num_samples` is among its keywords, because it is also passed on explicitly (`C37_num_samples_raises`).
* Calibration: targets whose shape differs from the outputs' (or one-hot labels with the classification NLL) make every candidate raise `ValueError`, which counts as
  infinite, so the smallest precision of the grid is returned without any error (`C52_shape_mismatch_silent`, `C52_one_hot_labels_silent`); the evidence objective with
  the built-in `cross_entropy` raises (`C52_cross_entropy_evidence_raises`); ECE with the nonlinear pushforward raises `TypeError` (`C52_ece_nonlinear_raises`); loaders
  are rejected as calibration data (`C52_methods`, C43); any `ValueError` while the batch is read counts as an infinite score (`C52_unreadable_batch`); `"NONE"` in upper
  case selects the NONE predictive but the classification objectives (`NoPredictive` in `Spec/ApiCalibration`).
* Evaluation: the default classification metrics raise `TypeError` on all data (`C53_classification_raises`: the last metric takes no `**kwargs`); for a loader the
  `reduce` argument is ignored (`C53_loader_ignores_reduce`); `correctness` compares a point's class with every entry of a one-hot target
  (`C53_one_hot_point_broadcasts`); hence the tutorials' classification workflow ends in `TypeError` after successful calibration (`C54_classification_workflow_raises`).
* **`tree_matvec` is wrong on Hessian pytrees with two leaves of two or more entries each** (C55_hessian_product_iff): the off-diagonal block
  `H[i][j]` is re-read in the shape `(size_j, size_i)` instead of being transposed.  `invert` raises on every float pytree (C55_invert_raises).
* `basis_vector_from_index` with a negative index counts from the end of the *first leaf* (`C06_negative_index`), whereas `tree_vec_get` counts from the
  end of the tree; a precomputed getter returns the last item for every index beyond the list (`C13_beyond_the_list`).
* No shape check in RMSE, chi-squared and the `mse` loss: with outputs `(n, 1)` and targets `(n,)` all pairs of prediction and target are compared, in the scores
  (`C57_rmse_of_perfect_predictions`, `C57_chi_squared_all_pairs`) and silently in calibration (`C57_chi_squared_calibration`, `C57_evidence_calibration`).
* Evidence calibration of a classifier with class labels and `"cross_entropy"` returns the smallest precision of the grid without any error, unless the batch has as many
  points as classes (then `ValueError`); the same happens for every loss the evidence does not know, such as `"binary_cross_entropy"` (`C57_class_labels_evidence`,
  `C57_evidence_incompatible`, `C57_unknown_loss_silent`).
* No shape check in the classification metrics either: labels as a column `(n, 1)` are ignored by `correctness`, `accuracy` and the ECE calibration (every sample counts as
  class 0: `C77_column_labels`, `C77_ece_column_labels`) and act as weights in `multiclass_brier` (`C77_brier_column_labels`; likewise a scalar class for one prediction, `C77_brier_scalar_label`); one label for many predictions gives accuracies above
  100 (`C77_accuracy_one_label`); with predictions `(n, m, …, c)` ranks are cut at the second axis and hits of all inner positions are divided by `n`
  (`C77_accuracy_more_axes`, `C77_accuracy_three_axes`); `multiclass_brier` of a single point and its one-hot vector does not depend on the class (`C77_brier_one_point`).
* `laplace`'s enum conversion rejects registered custom methods (`C47_rejected_calls`); the calibration API ignores `max_iterations`
  (`C52_max_iterations_ignored`).
* `loss_fn="cross_entropy"` with `vmap_over_data=False` raises `TypeError` for two or more classes (`prob.reshape(1, -1) @ jv` flattens the batch) and computes an
  indefinite curvature for one output (`C58_cross_entropy_raises`, `C58_cross_entropy_one_output`).
* `laplace(curv_type="lanczos")` without a key raises `ValueError` (`C59_lanczos_needs_key`); `low_rank_method` in the keyword arguments silently replaces the requested
  curvature type (`C59_method_overrides_type`); keywords that FULL and DIAGONAL do not know (also misspelled ones) are ignored (`C59_full_and_diagonal_ignore_keywords`).
* Evidence calibration reads its tables with `curv_type` as given: spellings that `laplace` accepts (`"FULL"`) raise `KeyError` (`C60_spelling_raises`); `"lanczos"`
  with a dense or diagonal estimate silently returns the smallest precision of the grid (`C60_low_rank_type_silent`); `"full"` with a diagonal estimate `d` silently uses
  `τ^(p-1)(τ + Σd)` as the determinant (`C60_full_type_on_diagonal`); `"diagonal"` with a dense estimate sums the logarithms of all `p²` entries (`C60_diagonal_type_on_full`);
  a `ValueError` raised by the model is swallowed (`C60_batched_model_fails`); with `vmap_over_data=False` the built-in cross-entropy raises (`C60_cross_entropy_raises`).
* Calibration by evidence never looks at the calibration data: the training loss at the (fixed) parameters is a constant in the prior precision, so any two batches
  give the same choice (`C69_evidence`).  Correct as mathematics, but the `data` argument only decides whether an exception is raised.
* Calibration varies the prior precision with `sigma_squared = 1` fixed, so its result depends on the units of the targets: for a model whose outputs are multiplied by `u`,
  the precision `u²τ` gives the *same* numbers as predictive variances that `τ` gives for the original model, not `u²` times as large ones (`C73_fixed_noise`).
* `chi_squared` alone rewards doubt: it averages (variance + squared bias)/predicted variance, which has no minimum (`C72_squared_errors`); `chi_squared_zero` is what calibration uses.
* Class probabilities of outputs with several axes: `mean_field_0` works along the last axis, `mc_pred_act` and `mean_field_1` along the first (`C78_linearized_average`,
  `C78_linearized_special`, `C78_sampled_average`, `C78_sampled_special`), so with a leading axis of length one the latter are 1 for every class (`C78_what_sums_to_one`);
  `mean_field_2` on sampled outputs `(1, b)` is `1/b` for every class whatever the model (`C78_sampled_special`).
* A low-rank posterior is conservative only for exact eigenpairs (`C79_predictive_variances`, `C79_lanczos`): the Ritz pairs of an early-stopped Lanczos run can report
  *smaller* variances than the full curvature, so truncation can cause overconfidence (`C79_ritz_pairs_overconfident`: 4/3 instead of 2).
* The expected calibration error depends on the number of bins without any order between numbers that do not divide each other (`C80_more_bins_can_hide_errors`), and averaging
  it over batches overestimates it (`C80_pooling`).
* *Reading only:* the docstring of `grid_search` gives `patience` the default 5, the code None; `calculate_bin_metrics` on a boolean `correctness` would accumulate
  booleans (the documented 0/1 floats are fine).
* *Reading only:* `full_prec_to_scale`'s transpose is a no-op and cancels with `trans="T"` (the result is correct, C19).

## 6. Not modelled

* `util/tree.py`: the keywords `dtype`, `out`, `where`, weights of `mean, std, var, cov`; integer leaves.
* `api.py`: `jit` arguments (compilation only); user-defined metric lists are arbitrary step functions.
* The dtype keywords of `laplace`'s `**curv_kwargs` (C24 covers the flag); JAX's own `lobpcg_standard` is an arbitrary algorithm in C49.
* broadcasting in custom losses; reading from an empty axis; tracing-time shape errors other than those cited.
* JAX's `_check_inputs` evaluates one extra product with zeros; not modelled (no observable effect).
