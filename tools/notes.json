{
 "C10": {
  "note": "All four reductions on per-sample results (arrays with a leading sample axis, and pytrees of them; reduce_sum and reduce_concat also for samples stacked along any other axis). C10_online_mean_scalar records what reduce_online_mean does to scalar per-batch results, which have no sample axis: it averages over batches."
 },
 "C18": {
  "note": "Squared error and custom C^2 losses. C18_unsupported_losses proves that the remaining named losses are rejected (ValueError for binary cross-entropy and NONE; TypeError when the cross-entropy product is evaluated), C18_combined_values what is differentiated."
 },
 "C22": {
  "note": "Partial because the code violates the property: low_rank_curvature_to_precision divides only the prior by loss_scaling_factor. C22_same_posterior_partial proves agreement of all three for loss_scaling_factor = 1, C22_full_diagonal agreement of FULL and DIAGONAL for every factor, C22_low_rank_iff the exact condition for the low-rank kind (factor 1 or vanishing scaled curvature), C22_low_rank_ignores_loss_scaling a witness."
 },
 "C24": {
  "note": "Partial because the code violates the property: the flag is not restored when the computation raises. C24_restored_on_return_partial proves the clause about normal returns; C24_flag_after_exception gives the exact value after an exception; C24_violated a witness."
 },
 "C25": {
  "note": "Partial because the code violates the property for size = 5*rank and size <= 5. C25_lowrank_outcome is the exact characterisation of when the solver's requirement is met."
 },
 "C26": {
  "note": "Pytree layouts for all methods, integer layouts for DIAGONAL and low rank. C26_full_needs_pytree_layout: FULL with an integer layout raises AttributeError."
 },
 "C27": {
  "note": "Partial because the last clause is violated: a registration with an unknown default fails with KeyError after having written some tables (C27_failing_registration_violated). All other clauses are proved for every history. C27_after_failure gives the exact tables after a failing call."
 },
 "C29": {
  "note": "Partial because the code evaluates m + 1 candidates (C29_violated); C29_at_most_succ_partial proves that bound. C29_truncates: max_iterations = m is exactly offering the first m + 1 candidates, for every objective, patience and exception."
 },
 "C32": {
  "note": "Partial only in the Brier clause: multiclass_brier returns minus the Brier score divided by the number of classes (C32_brier_value_partial is the exact value, C32_brier_disagrees the disagreement). All other clauses are proved in full, CRPS against its integral definition."
 },
 "C33": {
  "note": "Partial because with three or more classes mean_field_1 sums to one for every mean exactly when all variances agree, and mean_field_2 exactly when all pairwise difference variances agree (both proved as iff), and because the Laplace bridge raises on vectors and normalises over the whole array on matrices (negations proved). mean_field_0 is proved in full."
 },
 "C34": {
  "note": "Partial in the low-rank clause: the low-rank log determinant is right only for scalar part 1 (C34_low_rank_partial; C34_low_rank_error is the exact error for every scalar part and, at full rank, the exact condition; C34_low_rank_wrong a witness); also joint_log_likelihood reads the key 'sigma', so sigma_squared is ignored (C34_joint_ignores_sigma_squared)."
 },
 "C35": {
  "note": "Scalar and vector outputs; C35_matrix_outputs_raise and C35_laplace_bridge_raises prove the two failure modes found."
 },
 "C36": {
  "note": "Partial because pred_var and pred_std use ddof 0 or 1 depending on whether pred_cov / pred_var were requested before. C36_sampled_predictive is the exact value for every history of requests; C36_order_independent_partial proves independence for the histories that request covariance before variance before standard deviation; C36_variance_depends_on_order the violation."
 },
 "C39": {
  "note": "Partial because evaluate_metrics_on_dataset wraps the entries of the caller's list in place (C39_list_mutation_violated)."
 },
 "C41": {
  "note": "Partial because evaluation drops the first batch of a one-shot iterator (C41_evaluation_violated). laplace/GGN reject one-shot iterators (proved)."
 },
 "C42": {
  "note": "Partial because laplace passes the inverse factor num_curv/num_total (C42_laplace_factor_violated, C42_laplace_witness). C42_laplace_correct_iff shows, end to end, that it returns the property's curvature exactly when the two counts are equal or the curvature sum is zero; C42_laplace_replicated_data that replicating the data k times multiplies it by k^2 instead of leaving it unchanged. The functional interface is proved in full."
 },
 "C43": {
  "note": "Partial because a two-element list is accepted by validation but not treated as one batch (C43_list_pair_violated)."
 },
 "C44": {
  "note": "Partial because the nonlinear pushforward with a classification predictive never publishes pred_act (C44_nonlinear_pred_act_violated)."
 },
 "C48": {
  "note": "For every kernel triple satisfying the specification of eigh/qr/svd in Spec/Lobpcg (C48_kernels_exist: such kernels exist). C48_zero_column_loses_direction is a finding about the keep mask of _svqb."
 },
 "C53": {
  "note": "The default classification metrics raise TypeError on all data (C53_classification_raises), a finding outside the statement; user-defined metric lists are covered by C53_batching for arbitrary step functions."
 },
 "C54": {
  "note": "Low-rank estimates are covered under the condition that the algorithm returned orthonormal columns and non-negative values (C23/C48 give that condition)."
 },
 "C04": {
  "note": "Negative positions other than -1 are normalised as in python; position -1 is characterised separately (C04_last_argument_negative): the other arguments are then passed twice."
 },
 "C58": {
  "note": "Partial: proved for curv_mv_jit and all losses, and for vmap_over_data=False with mse, binary_cross_entropy, none and callables that sum over the samples (mean losses: C58_mean_loss). The claim is false for the built-in cross_entropy with vmap_over_data=False: two or more classes raise TypeError (C58_cross_entropy_raises), one output gives a wrong, indefinite curvature (C58_cross_entropy_one_output)."
 },
 "C60": {
  "note": "Partial: proved for dense and diagonal positive semidefinite estimates with the type as a member or exact value, both values of vmap_over_data, all targets shaped like the outputs, and for the other objectives without restriction. The code violates the rest: other spellings that laplace accepts raise KeyError, a low-rank type with another estimate silently returns the smallest grid precision, 'full' with a diagonal estimate and 'diagonal' with a dense one silently use wrong determinants, low-rank estimates use another formula, a ValueError of a batched model is swallowed - each with its exact outcome as a theorem."
 },
 "C61": {
  "note": "Posterior and predictive are proved in full. The evidence is partial because the code weights the likelihood with 1/(2 sigma) but the curvature with sigma_squared: marginal_log_likelihood is exact exactly when 2*sigma*sigma_squared = 1 or the curvature vanishes, and strictly too small with the defaults (C61_evidence_exact_iff, C61_calibration_score)."
 },
 "C64": {
  "note": "Partial because the code violates it: proved without breakdown; after a breakdown the exact covariance, the exact condition for positive semidefiniteness (C64_positive_semidefinite_iff) and, through laplace with default keywords, a negative variance (C64_laplace_negative_variance) are proved."
 },
 "C65": {
  "note": "Exact conditions proved for every modelled check with a Raises section. Partial because the full claim is false for to_dense (ValueError instead of TypeError for None, C65_to_dense_partial); also the ValueError documented by set_posterior_fn is unreachable (isinstance(_, PyTree) always holds), the TypeErrors of lin_setup and apply_fns concern objects of the wrong python type, which the typed model cannot represent."
 },
 "C66": {
  "note": "Real numbers and an idealised PRNG: the draws of different samples are assumed to be independent standard normal vectors; JAX's generator is deterministic. The moments of the outputs are assumed for pred_mean/pred_cov/pred_var and hold automatically for mc_pred_act and for affine models."
 },
 "C68": {
  "note": "Proved for the posterior, mc_bridge, mean_field_2 and the sampled predictive. Partial because the code violates the claim for mean_field_0 and mean_field_1 (C68_mean_field_violated); proved there: mean_field_1 for numbers that do not depend on the parameters (C68_mean_field_1_partial), mean_field_0 exactly if all variances are equal (C68_mean_field_0_iff). Differentiability of model and added function at the parameters is assumed (as autodiff does)."
 }
}