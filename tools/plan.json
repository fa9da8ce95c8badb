{
 "C01": {
  "model": "`create_pytree_flattener`, `cumsum`, `full_flatten` (util/flatten.py) in `Model/Flatten.lean`; pytrees and arrays in `Model/Base.lean`.",
  "proof": "mutual induction on pytrees; the split points of `cumsum` are handled by an induction over leaf sizes with an offset (`Lib/TreeLemmas*`)."
 },
 "C02": {
  "model": "`full_flatten`, `get_size`.",
  "proof": "case split on the list of leaves, lengths by induction."
 },
 "C03": {
  "model": "`create_partial_pytree_flattener`, `unravel_array_into_pytree` for an arbitrary axis (`Model/Flatten.lean`).",
  "proof": "list-chunk lemmas; the general-axis theorem is stated through multi-indices of the array."
 },
 "C04": {
  "model": "`wrap_function`, `wrap_factory`, `flatten_function` on argument lists, with python slicing and indexing at any integer position.",
  "proof": "rewriting of `take`/`drop`; the statement uses `List.set`."
 },
 "C05": {
  "model": "`add, sub, neg, mul, zeros_like, ones_like` on pytrees (`Model/TreeOps.lean`).",
  "proof": "induction on pytrees; entries of the result as a list operation on entries."
 },
 "C06": {
  "model": "`basis_vector_from_index`, `tree_vec_get`, `jnp.searchsorted`.",
  "proof": "prefix-sum induction over the leaves including zero-size leaves."
 },
 "C07": {
  "model": "`eye_like`, `eye_like_with_basis_vector`, `tree_slice`.",
  "proof": "slices of the stacked identity against C06."
 },
 "C08": {
  "model": "`to_dense` with int and pytree layouts, `lax.map` with batch sizes (`Model/Mv.lean`).",
  "proof": "columns by evaluation; linear extension over the standard basis."
 },
 "C09": {
  "model": "`diagonal` for arrays and callables.",
  "proof": "entrywise against C08."
 },
 "C10": {
  "model": "`process_batches`, `execute_with_data_loader`, the four reducers (`Model/Loader.lean`), a reducer state being a python value. `Model/LoaderAxis.lean`: `reduce_sum` and `reduce_concat` along any axis, positive or negative.",
  "proof": "induction on the list of batches with the invariant 'state = value on the concatenation so far'."
 },
 "C11": {
  "model": "the four entry points and `DataLoaderMV`; a call log makes the visiting order observable.",
  "proof": "induction on batches."
 },
 "C12": {
  "model": "`DataLoaderMV` (`__call__`, `lower_func`, `input_transform`, `wrap_func`), the `to_dense`/`diagonal` registrations.",
  "proof": "additivity of the fold; linearity for wrapped functions."
 },
 "C13": {
  "model": "`precompute_list`.",
  "proof": "case split on the flag, `lax.map` = map."
 },
 "C14": {
  "model": "the loss-Hessian products of curv/ggn.py in `Model/Loss.lean`; spec: second Fréchet derivative of the textbook loss.",
  "proof": "`HasFDerivAt` computations; Cauchy–Schwarz for positive semidefiniteness."
 },
 "C15": {
  "model": "`create_ggn_mv_without_data`, `create_ggn_mv` with `jax.linearize/linear_transpose/vmap` as Fréchet derivative, transpose, sum (`Model/Ggn.lean`).",
  "proof": "linear algebra over `Matrix`; `Finset.sum` over permutations and `Fin.append`."
 },
 "C16": {
  "model": "GGN and Hessian of the same loss for affine models.",
  "proof": "chain rule for second derivatives."
 },
 "C17": {
  "model": "`create_loss_hessian_mv`, `create_ggn_mv` dispatch.",
  "proof": "complete case analysis."
 },
 "C18": {
  "model": "`hvp`, `concatenate_model_and_loss_fn`, `create_hessian_mv`.",
  "proof": "symmetry of second derivatives of C² functions; sums."
 },
 "C19": {
  "model": "`full_prec_to_scale` with a Cholesky recursion and triangular solve written out in `Model/LinAlg.lean`, posterior state and products (`Model/Posterior.lean`).",
  "proof": "Cholesky existence and correctness proved by block recursion; S Sᵀ = P⁻¹."
 },
 "C20": {
  "model": "diagonal precision/scale/products.",
  "proof": "entrywise."
 },
 "C21": {
  "model": "low-rank precision, scale and covariance products.",
  "proof": "orthonormal U: Woodbury-type identities by matrix algebra."
 },
 "C22": {
  "model": "the three `*_curvature_to_precision` functions.",
  "proof": "from C19–C21; numerical witness for the violation."
 },
 "C23": {
  "model": "`lanczos_process`/`lanczos_iterations`, `compute_eigendecomposition`, `lanczos_lowrank` terms (`Model/Lanczos.lean`); `eigh` is a parameter with a specification whose satisfiability is proved.",
  "proof": "loop invariant (orthonormal columns, three-term recurrence, Krylov span); witnesses for breakdown."
 },
 "C24": {
  "model": "the drivers as programs over a state with the `jax_enable_x64` flag (`Model/LowRankDrivers.lean`).",
  "proof": "symbolic execution of every outcome."
 },
 "C25": {
  "model": "the rank adjustment and `_check_inputs`.",
  "proof": "`omega`."
 },
 "C26": {
  "model": "`estimate_curvature`, `set_posterior_fn`, `create_posterior_fn`.",
  "proof": "composition of C01, C08/C09, C19–C21."
 },
 "C27": {
  "model": "the six dispatch tables as state and `register_curvature_method` (`Model/Register.lean`), the calibration registry.",
  "proof": "invariant over all histories of registrations."
 },
 "C28": {
  "model": "`grid_search`, `optimize_prior_prec` (`Model/Calibrate.lean`) with objectives that may return NaN or raise.",
  "proof": "loop invariant: best-so-far is the first minimiser of the evaluated prefix."
 },
 "C29": {
  "model": "same.",
  "proof": "counting evaluated candidates."
 },
 "C30": {
  "model": "binning, `calculate_bin_metrics`, ECE, MCE (`Model/Metrics.lean`).",
  "proof": "finite sums; spec in `Spec/Metrics.lean` by intervals."
 },
 "C31": {
  "model": "`accuracy`, `correctness`, `lax.top_k` with its tie-breaking.",
  "proof": "counting ranks."
 },
 "C32": {
  "model": "the scoring rules; CRPS against its integral definition, NLL against Mathlib's Gaussian density.",
  "proof": "calculus (`Lib/NormalLemmas`), Gibbs inequality."
 },
 "C33": {
  "model": "eval/predictives.py in `Model/Predictives.lean`.",
  "proof": "finite sums; witnesses for the unnormalised cases; the exact normalisation criterion for mean_field_1/2 by sending all but three means to minus infinity and an algebraic identity for the remaining three classes."
 },
 "C34": {
  "model": "`Model/Likelihood.lean`: joint likelihood, log determinants, `marginal_log_likelihood`.",
  "proof": "determinant identities (matrix determinant lemma)."
 },
 "C35": {
  "model": "eval/pushforward.py in `Model/Pushforward.lean`: distribution state, all linearised functions, `set_lin_pushforward`.",
  "proof": "one invariant ('every key holds its expected value') kept by every function, hence for every list of functions."
 },
 "C36": {
  "model": "the sampled functions and `set_nonlin_pushforward`.",
  "proof": "same invariant with the request history deciding `ddof`."
 },
 "C37": {
  "model": "`set_posterior_gp_kernel`, `kernel_mv`.",
  "proof": "Gram matrix = A C Aᵀ."
 },
 "C38": {
  "model": "`finalize_fns`, `apply_fns`, `transfer_entry` (`Model/EvalUtils.lean`) on dictionaries.",
  "proof": "induction over the function list."
 },
 "C39": {
  "model": "the metric evaluation functions with the caller's list as mutable state.",
  "proof": "induction over batches; witness."
 },
 "C40": {
  "model": "`_convert_to_enum`, `str_to_bool` (`Model/Api.lean`).",
  "proof": "complete case analysis; `lower` is a parameter with its specification."
 },
 "C41": {
  "model": "python iterables (re-iterable, one-shot with consumed state) and the API's loader wrappers.",
  "proof": "symbolic execution with iterator state."
 },
 "C42": {
  "model": "factors in `create_ggn_mv` and `laplace`.",
  "proof": "arithmetic; witness."
 },
 "C43": {
  "model": "`_maybe_wrap_loader_or_batch`, `_validate_and_get_transform`.",
  "proof": "case analysis over data objects."
 },
 "C44": {
  "model": "`_setup_pushforward` and `get_pred_act`.",
  "proof": "complete decision table."
 },
 "C45": {
  "model": "`_build_calibration_objective`.",
  "proof": "complete decision table."
 },
 "C46": {
  "model": "`_resolve_metrics`.",
  "proof": "complete decision table."
 },
 "C47": {
  "model": "`laplace` end to end (`Model/Laplace.lean`): data routing, GGN product on pytrees, curvature estimation, posterior, linearised predictive.",
  "proof": "composition of C10–C12, C15, C19–C23, C26, C35."
 },
 "C48": {
  "model": "the numerics of curv/lobpcg.py (`Model/Lobpcg.lean`) with `eigh`, `qr`, `svd` as parameters satisfying a specification.",
  "proof": "loop invariant (orthonormal X, P, R blocks), Rayleigh–Ritz, Cauchy interlacing for monotonicity and bounds."
 },
 "C49": {
  "model": "the complete drivers on python operators that may raise (`Model/LowRank.lean`); algorithms as adaptive sequences of products.",
  "proof": "the same algorithm tree is run on each operator form; induction over it."
 },
 "C50": {
  "model": "`set_get_weight_sample`, `normal_like`, `lin_samples`; the PRNG is an arbitrary family of generators indexed by a probability space.",
  "proof": "C13, C26, C35 and characteristic functions of affine images of standard normal vectors (`Lib/GaussianAffine`)."
 },
 "C51": {
  "model": "`_setup_pushforward` and the setters it selects (`Model/ApiPredictive`), on top of the pushforward steps of C35/C36.",
  "proof": "Footprint lemmas: each step writes only its own keys (`Lib/ApiPredictiveLemmas`), then C35, C36, C26 per key."
 },
 "C52": {
  "model": "`calibration`, the objectives and `evaluate_for_given_prior_arguments` (`Model/ApiCalibration`) on top of the grid search of C28, the predictives of C51, the metrics of C32/C30 and the evidence of C34.",
  "proof": "Per-point predictions stacked key by key (`Lib/ApiCalibrationLemmas`); the metric of the stack is rewritten into sums over points and entries; the grid search theorem C28 gives the choice."
 },
 "C53": {
  "model": "`evaluation`, `_resolve_metrics` with both default metric lists, and the dataset/generator evaluators on data points (`Model/ApiEvaluation`), on top of the step machinery of C38/C39, the predictives of C51 and the metrics of C32.",
  "proof": "Induction over points and batches: results with equal keys and shapes stack and concatenate to the list over all points (`Lib/ApiEvaluationLemmas`); C51 and C32 give the values."
 },
 "C54": {
  "model": "the three entry points called in sequence (`Model/Workflow`); nothing new is modelled.",
  "proof": "C47 provides the estimate and posterior function, which meet the hypotheses of C52 and C53; the results are composed. `C54_classification_workflow_raises` is a finding about the classification workflow. `C54_sampled_workflow` composes the nonlinear pushforward results; `C54_training_layout_independent` rewrites the whole call with C47."
 },
 "C55": {
  "model": "the functions of `util/tree.py` on floating-point leaves (`Model/TreeStats`, `Model/TreeAxis`): statistics along any axis or over all entries with `ddof` and `keepdims`, `cov` with all its keywords, slices with any python bounds; reshapes and products as external array functions with their errors.",
  "proof": "column statistics of concatenated leaves are the concatenated statistics (induction over the leaves); block products by induction over the blocks; the exact condition for Hessian trees uses a single unit entry as counterexample for every pair of leaves with at least two entries each. Along other axes: row-major index arithmetic; slices: the clamped bounds select exactly the positions between the bounds (induction over the list)."
 },
 "C56": {
  "model": "`evaluate_on_dataset` with its batch-size keywords, `lax.map` with remainder batches and key-wise stacking (`Model/EvalDataset`).",
  "proof": "chunked map = map; the stacked dictionary key by key; composition with C51."
 },
 "C57": {
  "model": "numpy broadcasting of row-major arrays (`Model/Broadcast`), used by `Arr.zipWith` (pytree add/sub), `estimateRmseArr`, `chiSquaredArr`, `mseLossArr`, the keyword metrics, the chi-squared and evidence objectives.",
  "proof": "entries of `bcTo` by multi-index (induction over the axes); column/row special cases as double sums; composition with C51-C53. Evidence on unequal shapes: the loss raises inside the objective (`mll_incompatible`), and all-infinite scores select the first grid point."
 },
 "C58": {
  "model": "`laplaceWith` (`Model/LaplaceOptions`): both values of `vmap_over_data` and `curv_mv_jit`; the loss Hessian products on 2-D arrays; the Hessian product of a batched model.",
  "proof": "a jitted loader product is a single product of the summed operator; a sum of C² losses has a block-diagonal Hessian (`hvp2_sum`), so both calling conventions give the same linear map per batch; then `laplaceWith_generic`."
 },
 "C59": {
  "model": "`laplaceKw` (`Model/LaplaceKwargs`): the keyword arguments as the record of driver keywords, `low_rank_method` and the names of all other keywords; `kindOfKwargs` and `lowRankKind` are the dispatch of `estimate_curvature` and `create_low_rank_curvature`.",
  "proof": "`laplaceWith_matrix` reduces the call to an adaptive algorithm on the matrix num_curv/num_total · Σ Jᵀ H J; both that and `create_low_rank_curvature` (C49) run the same algorithm; the LOBPCG posterior then follows from C48 and `posterior_of_estimate`."
 },
 "C60": {
  "model": "`calibrationWith` (`Model/CalibrationArgs`): `calibration` with both arguments; `logDetBy` is the pair of table look-ups for every combination of type and estimate, including numpy broadcasting of a vector as a matrix; `batchLossFn` is the loss on the whole batch with the model called per sample or once.",
  "proof": "the loss of the batch is the same number for both calling conventions (`batchLossFn_ok`); the objective is then the score with the log determinant of the tables (`mllObjectiveWith_ok`), and the grid-search lemma of C52 applies. `det(τI + 1dᵀ)` by the matrix determinant lemma."
 },
 "C61": {
  "model": "no new code: `laplace`, `linPushforward`, `marginalLogLikelihood` as before. The specification (`Spec/Exact`) is Bayesian linear regression: the energy (weighted squared errors plus the prior term), the law with density proportional to exp(-energy), the joint density and its integral.",
  "proof": "the squared error of an affine model is an exact quadratic whose Hessian is the GGN (`totalError_expand`); at a minimiser the linear part vanishes (`linear_part_zero`). The normalised density follows from the Gaussian integral of C34, the law by identifying the density of μ + R y for standard normal y (`Lib/GaussianDensity`: product densities, linear change of variables) and Mathlib's multivariate Gaussian. The evidence: det(aG + τI) is strictly increasing in a unless G = 0 (eigenvalues), so the two log determinants agree only if the two weights do."
 },
 "C62": {
  "model": "no new code: `laplace`, `setPosteriorFn`, `setPushforward` and the selection by name as before; `Spec/Uncertainty` says what a predictive reports.",
  "proof": "C51 gives the reported variances as the diagonal of J P⁻¹ Jᵀ; inversion reverses the Loewner order (`inv_antitone`, by completing the square); the precisions differ by multiples of the curvature and the identity, by the GGN of the extra samples, or by (I-UUᵀ)G(I-UUᵀ) for dropped eigenpairs."
 },
 "C63": {
  "model": "no new code; `Spec.rearranged` is the model that reads its parameters from permuted positions.",
  "proof": "the Hessian products of the named losses do not use the target; the Jacobian of a rearranged model is a column permutation (chain rule with a linear equivalence), so curvature, precision and its inverse are permuted in the same way and J P⁻¹ Jᵀ is unchanged; the choice of a grid search is unique (`chosen_unique`)."
 },
 "C64": {
  "model": "nothing new: `Model/Lanczos`, `Model/Posterior`, `Model/LaplaceKwargs`.",
  "proof": "uniqueness of the functional calculus of a symmetric matrix (two spectral decompositions overlap only on equal eigenvalues) applied to the tridiagonal matrix, which after the first breakdown is block diagonal; Cauchy-Schwarz in the metric of the precision for the exact condition of positive semidefiniteness."
 },
 "C65": {
  "model": "nothing new: the argument checks of the existing models.",
  "proof": "case analysis over all forms of the arguments; induction over the list of batches (`process_batches`) and over the slots (`register_curvature_method`)."
 },
 "C66": {
  "model": "nothing new: the sampled and linearised pushforward of C35/C36 with a random `Prng`.",
  "proof": "the law of each weight sample is the posterior (C50); moments of the empirical mean and of the empirical covariance of pairwise uncorrelated samples (`Lib/SampleMoments.lean`); change of variables for expectations and covariances; boundedness of the softmax gives its moments without an assumption on the model; for affine models the law of the outputs is Gaussian with covariance `M P⁻¹ Mᵀ`. Concentration (Chebyshev) with the variance of the average."
 },
 "C67": {
  "model": "nothing new: laplace, the pushforwards, the predictives and the metrics with the model `relabelled net π`.",
  "proof": "the Jacobian of the relabelled model is the Jacobian with permuted rows (no differentiability needed); the Hessian products of the named losses commute with permutations, so the GGN products and by C47 the whole result of laplace agree; C35/C36/C51 give every key as a function of output, Jacobian, posterior and the (same) draws, and these functions commute with permutations; the scores by C31 and sums over classes."
 },
 "C68": {
  "model": "nothing new: laplace and the pushforwards with the model `shifted net t`.",
  "proof": "J changes by `1 ∇tᵀ`; softmax is shift invariant, `H_ce 1 = 0` and `1ᵀ H_ce = 0`, so the GGN products agree; samples change by a common number per sample; `V_ii + V_jj - 2 V_ij` depends only on differences of Jacobian rows; explicit two-class counterexamples for mean_field_0 and mean_field_1."
 },
 "C69": {
  "model": "nothing new: calibration, evaluation and workflow on two data objects; `EachTimes m π` in Spec/Order says that the list π names every point m times.",
  "proof": "C52 gives for each objective the score function and the search; the scores are averages over the batch, hence functions of the empirical distribution (sum over the fibres of π; for ECE per bin), and the search is determined by the scores; the negative log evidence is L/2 plus a term without data, and shifting all scores changes no comparison; C53 and C54 for the rest."
 },
 "C70": {
  "model": "nothing new: laplace, posterior, predictive and evidence of two models; `reading net ι` in Spec/Unused is the model that reads its p parameters at the positions ι of a longer vector.",
  "proof": "the Jacobian of the larger model is J E with the 0/1 matrix E of ι (also where the model is not differentiable), so its curvature is Eᵀ G E and its precision P' satisfies P' Eᵀ = Eᵀ P; inverting gives the covariance, det(1 + AB) = det(1 + BA) the determinant; C34, C47, C54 carry this to the API."
 },
 "C71": {
  "model": "nothing new: laplace with two curvature types on the same data.",
  "proof": "1/P_ii ≤ (P⁻¹)_ii from 2 u·v − u·P u ≤ v·P⁻¹ v; the prior bound from the antitone inverse; Hadamard's inequality det P ≤ ∏ P_ii (proved from log λ ≤ λ − 1 for the normalised matrix) for the evidence; an explicit linear model for the missing order of predictive variances."
 },
 "C72": {
  "model": "nothing new: the metrics of C31/C32 applied to random targets (measurable functions on a probability space).",
  "proof": "E(Y-m)^2 = Var + bias^2; log x <= x-1 with equality only at 1 (log score); Fubini and E crps(F,Y) = int (F-G)^2 + int G(1-G), continuity and injectivity of normal distribution functions (CRPS); E sum (q_k - 1[Y=k])^2 = sum (q_k-p_k)^2 + const (Brier); an exchange argument on the k best classes (accuracy)."
 },
 "C73": {
  "model": "nothing new: laplace, the pushforwards and the metrics on the converted model (spec: inUnits, converted).",
  "proof": "the Jacobian of u*f+b is u*J, the squared-error curvature u^2*G; sigma/u^2 * u^2 G = sigma G gives the same precision entry by entry, hence literally the same posterior; the expected entries of C35/C36/C51 are converted key by key; scores by rewriting their defining sums."
 },
 "C74": {
  "model": "nothing new: laplace with FULL curvature, set_posterior_gp_kernel and the linearised pushforward (spec: tangentKernel, gpCov, gpMean, gpCovLoss).",
  "proof": "stack the training Jacobians; the curvature is Jᵀ W J, and the push-through (Woodbury) identity moves the inverse from parameter space to data space; the trained mean from the stationarity of the energy."
 },
 "C75": {
  "model": "nothing new: the predictives of C51 as functions of the prior arguments (spec: Reports, ReportsAt).",
  "proof": "variational bounds for v (C+τ)⁻¹ v from quad_inv_le; a vector orthogonal to the kernel of a symmetric matrix lies in its range (duality); squeeze; continuity of the matrix inverse through the adjugate; the factor R with R Rᵀ = (C+τ)⁻¹ vanishes entrywise."
 },
 "C76": {
  "model": "nothing new: grid_search (C28) and calibration (C52) (spec: SingleValley, WithinOfBest).",
  "proof": "after the stop a further minimum would contradict the single valley; explicit scores 0, 1, ..., k, -1 for the counterexample; uniform continuity of τ ↦ score on the compact interval of exponents for the fine grids."
 },
 "C77": {
  "model": "Model/MetricsArr: correctness, accuracy, cross_entropy, multiclass_brier on arrays of any shape with numpy broadcasting (spec: tableArr, vectorArr, columnArr, ScoresAt, hitsOf); the ECE objective with 2-D targets of any width. Accuracy with more than two axes (gridArr, gridHits). The two confidence functions of the default classification metrics.",
  "proof": "entries of a reduction along the last axis by row-major positions; the broadcasting lemmas of C57 entry by entry; top_k ranks as a permutation of the classes for the documented accuracy and for the number of hits; row-wise expansion of the Brier score; argmax over one entry is 0; entries of transposed data counted column by column (induction on the axes)."
 },
 "C78": {
  "model": "Model/Predictives (meanField0Arr, meanField1Arr, meanField2Arr, laplaceBridgeArr), Model/Pushforward (meanSoftmaxAxis1, specialPredAct) on row-major arrays of any shape; spec vocabulary Spec/PredictivesArr (AlongFirst, ScoresAt, meanField0Of, meanField1Of).",
  "proof": "row-major positions split at the first and the last axis (blocks); the runs of the linearised and sampled pushforward up to the requested function (lin_run, nonlin_prefix), then that function; broadcasting lemmas of C57 for mean_field_2 on several axes."
 },
 "C79": {
  "model": "the whole of laplace with the full and the low-rank kinds (Model/Laplace, Model/LowRank, Model/Lanczos), the linearised predictive and marginalLogLikelihood; spec vocabulary Spec/LowRankError (RestAtMost, KeepsMore) and EigenpairsOf.",
  "proof": "the vector splits into its part in the kept space, where both covariances agree, and the rest, where the low-rank covariance is 1/tau and the full one at least 1/(tau + sigma_squared delta) (quad_inv_le); determinants through det(1 + M) >= 1; a two-parameter example where rank-1 Lanczos reports 4/3 against 2."
 },
 "C80": {
  "model": "the calibration errors of Model/Metrics (C30).",
  "proof": "n times the error is a sum over bins of absolute values of sums of (correctness - confidence) (ece_sum); the bin of a confidence among m*nb bins divided by m is its bin among nb bins; triangle inequalities."
 },
 "C81": {
  "model": "laplace and set_posterior_fn followed by the linearised pushforward (C47, C67).",
  "proof": "averaging over permutations gives a multiple at most 1 of the full curvature (perm_average); the quadratic form of the inverse is convex and antitone (quad_inv_average)."
 },
 "C82": {
  "model": "nothing new: laplace, set_posterior_gp_kernel and the linearised predictive (C47, C37, C51); spec gpCovLoss, lossHessians (C74), Reports (C62).",
  "proof": "the two precisions differ by the curvature of the additional points; the Woodbury identity for a general precision; variational form of the quadratic form of the inverse; a direction observed with weight a has variance below 1/a."
 },
 "C83": {
  "model": "nothing new: laplace, set_posterior_fn and the linearised predictive (C47, C51).",
  "proof": "|P^-1 v| <= |v|/tau and the variational bound of C82 in both directions; continuity of the Jacobian, of the loss Hessian products and of the matrix inverse at positive definite matrices."
 },
 "C84": {
  "model": "nothing new: laplace, set_posterior_fn, the linearised predictive, marginal_log_likelihood and the workflow (C47, C51, C34, C54).",
  "proof": "the Jacobian in the coordinates v is J A, so the curvature is A^T G A and the precision for c tau is A^T P A; its inverse is A^-1 P^-1 A^-T. Converse by polarisation. The diagonal case is computed for one model."
 }
}