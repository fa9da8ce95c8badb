## 5. Findings: where the code does not do what the property says

Each is a theorem about the model (name in parentheses) unless marked *reading only*.

* `laplace` uses the factor num_curv/num_total, the inverse of what `create_ggn_mv` uses (`C42_laplace_factor_violated`, `C42_laplace_witness`); it is
  right exactly when the counts agree or the curvature is zero (`C42_laplace_correct_iff`), and replicating the data k times multiplies it by k² (`C42_laplace_replicated_data`).
* `low_rank_curvature_to_precision` divides only the prior by `loss_scaling_factor` and drops the estimate's scalar (`C22_low_rank_ignores_loss_scaling`).
* Lanczos: after a breakdown vectors are duplicated; with `full_reorthogonalize=False` the previous vector is never subtracted; a rank beyond the dimension always
  breaks down (`C23_breakdown_duplicates`, `C23_no_reorthogonalisation_fails`, `C23_rank_exceeds_dimension`).
  The reported posterior is then wrong: its covariance is positive semidefinite iff `(rank-1-k) sigma^2 alpha_k <= tau/s` (`C64_positive_semidefinite_iff`), so
  `laplace(curv_type="lanczos")` with the default rank on a small model reports negative variances (`C64_laplace_negative_variance`, `C64_one_parameter`).
* `jax_enable_x64` is not restored when an exception is raised (`C24_violated`).
* LOBPCG rank adjustment fails for size = 5·rank and sizes ≤ 5 (`C25_violated`); `_svqb`'s keep mask mixes eigenvalue indices with column indices and loses a usable
  column (`C48_zero_column_loses_direction`, inherited from JAX).
* `register_curvature_method` with an unknown default leaves the tables half written (`C27_failing_registration_violated`).
* `grid_search` evaluates `max_iterations + 1` candidates (`C29_violated`).
* `wrap_function` with `argnums=-1` passes all arguments again behind the replaced last one, because `args[argnums + 1 :]` is then `args[0:]`
  (`C04_last_argument_negative`).
* `accuracy` with a negative k slices from the end (`C31_negative_k`, `C31_any_top_k`).
* `multiclass_brier` returns minus the Brier score divided by the number of classes (`C32_brier_disagrees`).
* `mean_field_1/2` do not sum to one for three or more classes (for all means exactly when the variances, respectively the pairwise difference variances, are equal: `C33_mean_field_1_normalised_iff`, `C33_mean_field_2_normalised_iff`); `laplace_bridge` raises on vectors, uses `shape[1]` as the number of classes, and normalises over the
  whole array (`C33_*`, `C35_laplace_bridge_raises`).
* `mean_field_0` and `mean_field_1` probabilities change when the same number is added to all logits (`C68_mean_field_violated`, `C68_mean_field_0_iff`).
* `low_rank` marginal likelihood has a wrong log determinant unless the scalar part is 1; `joint_log_likelihood` reads `"sigma"` (`C34_low_rank_wrong`,
  `C34_joint_ignores_sigma_squared`).
* `marginal_log_likelihood` weights the loss with 1/(2·sigma) but its Hessian in the precision with sigma_squared: with the defaults the precision is the Hessian of
  *twice* the negative log likelihood, and even for linear regression the evidence is strictly too small; it is exact iff 2·sigma·sigma_squared = 1 or the curvature
  vanishes (`C61_evidence_exact_iff`, `C61_calibration_score`).
* Outputs with two or more axes: `pred_cov` then `pred_var` raises `ValueError` (`C35_matrix_outputs_raise`).
* Sampled predictive: variance normalisation depends on the order of requests; only the first five samples feed `samples` and `mc_pred_act`; the special predictives
  need `pred_var` to have been requested, and `mean_field_2` with one output raises `ValueError` (`C36_*`, `C36_special_predictives`). In expectation
  `pred_var` without `pred_cov` is only (S-1)/S of the variance (`C66_sampled_variance`), and the Monte Carlo error of `mc_pred_act` stops decreasing at five samples
  (`C66_sampled_probabilities`).
* `evaluate_metrics_on_dataset` changes the caller's list (`C39_list_mutation_violated`).
* `evaluation` drops the first batch of a one-shot iterator (`C41_evaluation_violated`).
* A list `[x, y]` passes validation but is not treated as one batch (`C43_list_pair_violated`).
* Nonlinear classification predictives never publish `pred_act` (`C44_nonlinear_pred_act_violated`).
* Every calibration objective demands `model_fn` and `curv_type`, even those that use neither (`C45_model_required_for_every_objective`).
* `concatenate_model_and_loss_fn`: cross-entropy is elementwise (gradient raises), BCE and NONE are rejected (`C18_unsupported_losses`).
* `to_dense(mv, None)` always raises, and `ValueError` instead of the documented `TypeError` (`C08_to_dense_none_raises`, `C65_to_dense_partial`); `diagonal` of a
  `DataLoaderMV` takes no keywords, so `diagonal(mv, layout, mv_jittable=…)` is a `TypeError` there (*reading only*, util/loader.py:365-372); `DataLoaderMV`'s default reduction is the mean over *entries* and collapses products
  (`C12_default_reduce_collapses`); `set_get_weight_sample` raises on a `precompute` keyword (`C50_precompute_keyword_raises`);
  `create_full_curvature` raises for an integer layout (`C26_full_needs_pytree_layout`); the GP kernel raises for an array `output_layout` with several entries
  (`C37_dense_needs_layout`), and raises `TypeError` when `num_samples` is among its keywords, because it is also passed on explicitly (`C37_num_samples_raises`).
* Calibration: targets whose shape differs from the outputs' (or one-hot labels with the classification NLL) make every candidate raise `ValueError`, which counts as
  infinite, so the smallest precision of the grid is returned without any error (`C52_shape_mismatch_silent`, `C52_one_hot_labels_silent`); the evidence objective with
  the built-in `cross_entropy` raises (`C52_cross_entropy_evidence_raises`); ECE with the nonlinear pushforward raises `TypeError` (`C52_ece_nonlinear_raises`); loaders
  are rejected as calibration data (`C52_methods`, C43); any `ValueError` while the batch is read counts as an infinite score (`C52_unreadable_batch`); `"NONE"` in upper
  case selects the NONE predictive but the classification objectives (`NoPredictive` in `Spec/ApiCalibration`).
* Evaluation: the default classification metrics raise `TypeError` on all data (`C53_classification_raises`: the last metric takes no `**kwargs`); for a loader the
  `reduce` argument is ignored (`C53_loader_ignores_reduce`); `correctness` compares a point's class with every entry of a one-hot target
  (`C53_one_hot_point_broadcasts`); hence the tutorials' classification workflow ends in `TypeError` after successful calibration (`C54_classification_workflow_raises`).
* **`tree_matvec` is wrong on Hessian pytrees with two leaves of two or more entries each** (C55_hessian_product_iff): the off-diagonal block
  `H[i][j]` is re-read in the shape `(size_j, size_i)` instead of being transposed.  `invert` raises on every float pytree (C55_invert_raises).
* `basis_vector_from_index` with a negative index counts from the end of the *first leaf* (`C06_negative_index`), whereas `tree_vec_get` counts from the
  end of the tree; a precomputed getter returns the last item for every index beyond the list (`C13_beyond_the_list`).
* No shape check in RMSE, chi-squared and the `mse` loss: with outputs `(n, 1)` and targets `(n,)` all pairs of prediction and target are compared, in the scores
  (`C57_rmse_of_perfect_predictions`, `C57_chi_squared_all_pairs`) and silently in calibration (`C57_chi_squared_calibration`, `C57_evidence_calibration`).
* Evidence calibration of a classifier with class labels and `"cross_entropy"` returns the smallest precision of the grid without any error, unless the batch has as many
  points as classes (then `ValueError`); the same happens for every loss the evidence does not know, such as `"binary_cross_entropy"` (`C57_class_labels_evidence`,
  `C57_evidence_incompatible`, `C57_unknown_loss_silent`).
* No shape check in the classification metrics either: labels as a column `(n, 1)` are ignored by `correctness`, `accuracy` and the ECE calibration (every sample counts as
  class 0: `C77_column_labels`, `C77_ece_column_labels`) and act as weights in `multiclass_brier` (`C77_brier_column_labels`; likewise a scalar class for one prediction, `C77_brier_scalar_label`); one label for many predictions gives accuracies above
  100 (`C77_accuracy_one_label`); with predictions `(n, m, …, c)` ranks are cut at the second axis and hits of all inner positions are divided by `n`
  (`C77_accuracy_more_axes`, `C77_accuracy_three_axes`); `multiclass_brier` of a single point and its one-hot vector does not depend on the class (`C77_brier_one_point`).
* `laplace`'s enum conversion rejects registered custom methods (`C47_rejected_calls`); the calibration API ignores `max_iterations`
  (`C52_max_iterations_ignored`).
* `loss_fn="cross_entropy"` with `vmap_over_data=False` raises `TypeError` for two or more classes (`prob.reshape(1, -1) @ jv` flattens the batch) and computes an
  indefinite curvature for one output (`C58_cross_entropy_raises`, `C58_cross_entropy_one_output`).
* `laplace(curv_type="lanczos")` without a key raises `ValueError` (`C59_lanczos_needs_key`); `low_rank_method` in the keyword arguments silently replaces the requested
  curvature type (`C59_method_overrides_type`); keywords that FULL and DIAGONAL do not know (also misspelled ones) are ignored (`C59_full_and_diagonal_ignore_keywords`).
* Evidence calibration reads its tables with `curv_type` as given: spellings that `laplace` accepts (`"FULL"`) raise `KeyError` (`C60_spelling_raises`); `"lanczos"`
  with a dense or diagonal estimate silently returns the smallest precision of the grid (`C60_low_rank_type_silent`); `"full"` with a diagonal estimate `d` silently uses
  `τ^(p-1)(τ + Σd)` as the determinant (`C60_full_type_on_diagonal`); `"diagonal"` with a dense estimate sums the logarithms of all `p²` entries (`C60_diagonal_type_on_full`);
  a `ValueError` raised by the model is swallowed (`C60_batched_model_fails`); with `vmap_over_data=False` the built-in cross-entropy raises (`C60_cross_entropy_raises`).
* Calibration by evidence never looks at the calibration data: the training loss at the (fixed) parameters is a constant in the prior precision, so any two batches
  give the same choice (`C69_evidence`).  Correct as mathematics, but the `data` argument only decides whether an exception is raised.
* Calibration varies the prior precision with `sigma_squared = 1` fixed, so its result depends on the units of the targets: for a model whose outputs are multiplied by `u`,
  the precision `u²τ` gives the *same* numbers as predictive variances that `τ` gives for the original model, not `u²` times as large ones (`C73_fixed_noise`).
* `chi_squared` alone rewards doubt: it averages (variance + squared bias)/predicted variance, which has no minimum (`C72_squared_errors`); `chi_squared_zero` is what calibration uses.
* Class probabilities of outputs with several axes: `mean_field_0` works along the last axis, `mc_pred_act` and `mean_field_1` along the first (`C78_linearized_average`,
  `C78_linearized_special`, `C78_sampled_average`, `C78_sampled_special`), so with a leading axis of length one the latter are 1 for every class (`C78_what_sums_to_one`);
  `mean_field_2` on sampled outputs `(1, b)` is `1/b` for every class whatever the model (`C78_sampled_special`).
* A low-rank posterior is conservative only for exact eigenpairs (`C79_predictive_variances`, `C79_lanczos`): the Ritz pairs of an early-stopped Lanczos run can report
  *smaller* variances than the full curvature, so truncation can cause overconfidence (`C79_ritz_pairs_overconfident`: 4/3 instead of 2).
* The expected calibration error depends on the number of bins without any order between numbers that do not divide each other (`C80_more_bins_can_hide_errors`), and averaging
  it over batches overestimates it (`C80_pooling`).
* *Reading only:* the docstring of `grid_search` gives `patience` the default 5, the code None; `calculate_bin_metrics` on a boolean `correctness` would accumulate
  booleans (the documented 0/1 floats are fine).
* *Reading only:* `full_prec_to_scale`'s transpose is a no-op and cancels with `trans="T"` (the result is correct, C19).

## 6. Not modelled

* `util/tree.py`: the keywords `dtype`, `out`, `where`, weights of `mean, std, var, cov`; integer leaves.
* `api.py`: `jit` arguments (compilation only); user-defined metric lists are arbitrary step functions.
* The dtype keywords of `laplace`'s `**curv_kwargs` (C24 covers the flag); JAX's own `lobpcg_standard` is an arbitrary algorithm in C49.
* broadcasting in custom losses; reading from an empty axis; tracing-time shape errors other than those cited.
* JAX's `_check_inputs` evaluates one extra product with zeros; not modelled (no observable effect).
