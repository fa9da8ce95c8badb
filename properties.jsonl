{"id": "C01", "title": "Parameter flattening round-trips", "statement": "For the pair (flatten, unflatten) = create_pytree_flattener(tree): unflatten(flatten(t)) == t for every pytree t with the layout of `tree`, flatten(unflatten(v)) == v for every vector v of length get_size(tree), and unflatten raises (never returns a wrongly shaped tree) for every vector of any other length.", "quantifier": "every pytree structure (any nesting, any number of leaves >= 1, any leaf shapes including zero-size and scalar leaves), every leaf content and every vector", "why_tests_cant": "Structures and shapes are unbounded; a wrong cumulative boundary only shows for particular size patterns such as zero-size leaves or single-leaf trees.", "anchors": ["laplax/util/flatten.py:create_pytree_flattener", "laplax/util/flatten.py:full_flatten", "laplax/util/flatten.py:cumsum"]}
{"id": "C02", "title": "Flattening an empty pytree is an error", "statement": "full_flatten raises for a pytree without leaves and unflatten of a leafless layout raises for every vector; for every pytree with at least one leaf full_flatten succeeds and returns exactly the leaves' entries in tree order, so its length is get_size.", "quantifier": "every pytree, with or without leaves", "why_tests_cant": "Tests use a handful of hand-written trees.", "anchors": ["laplax/util/flatten.py:full_flatten", "laplax/util/tree.py:get_size"]}
{"id": "C03", "title": "Partial flattening and axis unravelling are row-wise unflattening", "statement": "create_partial_pytree_flattener's unflatten/flatten are mutually inverse on trees whose leaves share a last dimension R, and unravel_array_into_pytree(tree, 1, M) is the tree whose i-th slice along the leading axis is unflatten(M[i]).", "quantifier": "every pytree layout, every number of rows/columns and every matrix", "why_tests_cant": "Row-major index arithmetic is only exercised on a few shapes by tests.", "anchors": ["laplax/util/flatten.py:create_partial_pytree_flattener", "laplax/util/flatten.py:unravel_array_into_pytree"]}
{"id": "C04", "title": "wrap_function is conjugation", "statement": "wrap_function(fn, g, h, argnums=k) called with args equals h(fn(args with the k-th replaced by g(args[k]))), a missing g or h acts as the identity, all other arguments are passed unchanged, negative positions count from the end, wrapping twice composes, and wrap_factory applies the same to every produced function. (Exception in the code, stated exactly: position -1 passes the whole argument tuple once more behind the replaced last argument.)", "quantifier": "every function, every input/output transformation, every argument tuple and every position k in range, negative ones included (and an IndexError when out of range)", "why_tests_cant": "Quantifies over functions.", "anchors": ["laplax/util/flatten.py:wrap_function", "laplax/util/flatten.py:wrap_factory", "laplax/util/flatten.py:flatten_function"]}
{"id": "C05", "title": "Tree arithmetic is vector arithmetic", "statement": "add, sub, neg, mul, zeros_like, ones_like on pytrees of the same layout preserve the layout and correspond exactly to vector operations on the flattened pytrees; combining trees of different structure raises.", "quantifier": "every pair of pytrees with equal layout, every scalar; every pair with different structure for the error", "why_tests_cant": "Unbounded structures and values.", "anchors": ["laplax/util/tree.py:add", "laplax/util/tree.py:sub", "laplax/util/tree.py:neg", "laplax/util/tree.py:mul"]}
{"id": "C06", "title": "basis_vector_from_index(i, tree) is the i-th unit vector", "statement": "For every index 0 <= i < get_size(tree), basis_vector_from_index(i, tree) has the layout of tree and flattens to the i-th standard basis vector (also in the presence of zero-size leaves); for i >= get_size(tree) it is the zero tree. A negative index -m gives the unit vector m places before the end of the first leaf (zero tree if that leaf is shorter). tree_vec_get(tree, i) is the i-th entry of the flattened tree, counted from the end for negative i and clamped to the ends.", "quantifier": "every pytree layout and every integer index", "why_tests_cant": "The searchsorted/cumsum boundary arithmetic has corner cases at each leaf boundary and at zero-size leaves.", "anchors": ["laplax/util/tree.py:basis_vector_from_index", "laplax/util/tree.py:tree_vec_get"]}
{"id": "C07", "title": "eye_like stacks the unit vectors", "statement": "Slice i of eye_like(tree) along the leading axis equals basis_vector_from_index(i, tree), i.e. eye_like and eye_like_with_basis_vector agree.", "quantifier": "every pytree layout with at least one leaf, every i below its size", "why_tests_cant": "Two different index computations must agree for every layout.", "anchors": ["laplax/util/tree.py:eye_like", "laplax/util/tree.py:eye_like_with_basis_vector"]}
{"id": "C08", "title": "to_dense recovers the matrix of a linear map", "statement": "For a linear matrix-vector product mv and integer layout n (or a pytree layout via unflatten), to_dense(mv, layout) is the matrix M with M @ v == mv(v) for every v; batch size options do not change the result. For any mv (linear or not) column j of the result is mv(e_j). If mv returns pytrees, the result is the pytree in which a leaf of shape (d_1,...,d_r) becomes the array of shape (d_r,...,d_1,n) holding the columns along its last axis.", "quantifier": "every linear map between finite dimensional spaces, every vector, every batch size", "why_tests_cant": "Quantifies over all linear maps and vectors.", "anchors": ["laplax/util/mv.py:to_dense"]}
{"id": "C09", "title": "diagonal(mv) is the diagonal of to_dense(mv)", "statement": "For every square mv and every layout (int or pytree), diagonal(mv, layout) equals the diagonal of to_dense(mv, layout); for a dense array it is the array's diagonal; for a callable without a layout it raises TypeError; batch size options do not change the result.", "quantifier": "every mv, every layout, every batch size", "why_tests_cant": "Quantifies over all functions and layouts.", "anchors": ["laplax/util/mv.py:diagonal", "laplax/util/mv.py:to_dense"]}
{"id": "C10", "title": "Batch partition invariance of data-loader reductions", "statement": "execute_with_data_loader / process_batches with reduce_sum, reduce_add, reduce_concat or reduce_online_mean gives the same value as one evaluation on the concatenation of all batches, for any way of cutting the data into non-empty batches (unequal sizes included); reduce_online_mean is the mean over samples, not the mean of batch means. reduce_sum and reduce_concat do so along whichever axis the samples are stacked, and raise ValueError for an axis the results do not have.", "quantifier": "every data sequence, every partition into batches, every per-sample function", "why_tests_cant": "All partitions of all data sets; averaging bugs appear only for unequal batch sizes.", "anchors": ["laplax/util/loader.py:process_batches", "laplax/util/loader.py:reduce_sum", "laplax/util/loader.py:reduce_add", "laplax/util/loader.py:reduce_concat", "laplax/util/loader.py:reduce_online_mean"]}
{"id": "C11", "title": "An empty data loader raises", "statement": "process_batches, execute_with_data_loader, wrap_function_with_data_loader, DataLoaderMV.__call__, to_dense and diagonal of a DataLoaderMV raise ValueError on a loader that yields no batch; otherwise every batch is visited exactly once and in order.", "quantifier": "every function, transform, reduction and loader content", "why_tests_cant": "Quantifies over all callables and loader contents.", "anchors": ["laplax/util/loader.py:process_batches", "laplax/util/loader.py:DataLoaderMV"]}
{"id": "C12", "title": "DataLoaderMV behaves as the summed operator", "statement": "With an additive reduction, a DataLoaderMV over a non-empty loader equals, as a function of the vector, the sum over batches of the per-batch mv; to_dense and diagonal of it equal to_dense and diagonal of that summed map; wrapping it with linear input/output functions gives a DataLoaderMV equal to the wrapped summed map and leaves the original object unchanged.", "quantifier": "every loader content, per-batch mv, vector and linear transformations", "why_tests_cant": "Quantifies over operators and batchings; the lowered path applies output transforms per batch while __call__ applies them once.", "anchors": ["laplax/util/loader.py:DataLoaderMV", "laplax/util/mv.py:to_dense", "laplax/util/mv.py:diagonal"]}
{"id": "C13", "title": "precompute_list only changes when work happens", "statement": "For every index i in range, precompute_list(f, items, precompute=True)(i) equals f(items[i]); with items = range(n) the precomputed and direct variants agree on every i < n. Beyond the list the precomputed getter returns the last item's value. If f raises on some item, the precomputed variant raises at construction with the first such error, the direct variant only when called.", "quantifier": "every function, list and index", "why_tests_cant": "Quantifies over functions.", "anchors": ["laplax/util/ops.py:precompute_list"]}
{"id": "C14", "title": "Loss Hessian products are the true second derivatives", "statement": "The built-in loss Hessian products are exact: for the softmax cross-entropy they equal the second derivative of logsumexp(z) - z[y], for binary cross-entropy that of log(1+exp z) - y z, for mean-squared error that of sum((z-y)^2), at every prediction; they are linear, symmetric and positive semidefinite; the target does not influence them.", "quantifier": "every number of classes, logit vector, label and direction", "why_tests_cant": "Continuous domain.", "anchors": ["laplax/curv/ggn.py:_binary_cross_entropy_hessian_mv", "laplax/curv/ggn.py:_cross_entropy_hessian_mv", "laplax/curv/ggn.py:_mse_hessian_mv", "laplax/curv/ggn.py:create_loss_hessian_mv"]}
{"id": "C15", "title": "The GGN product is a symmetric positive semidefinite linear operator", "statement": "For every model (differentiable at the parameters), data batch and built-in loss and every factor >= 0, the GGN matrix-vector product is linear, self-adjoint and positive semidefinite, equals factor * sum_i J_i^T H_i J_i v, and is invariant under permutation of the data and additive over batches.", "quantifier": "every differentiable model, parameters, data set (any order, any size), vector and non-negative factor", "why_tests_cant": "Continuous domain and all data orders.", "anchors": ["laplax/curv/ggn.py:create_ggn_mv_without_data", "laplax/curv/ggn.py:create_ggn_mv"]}
{"id": "C16", "title": "GGN equals the Hessian for models affine in the parameters", "statement": "If the model output is an affine function of the parameters, the GGN product equals the Hessian product of the total loss, for each built-in loss.", "quantifier": "every affine model, data set, loss among MSE/CE/BCE and direction", "why_tests_cant": "Continuous domain; relates two independently implemented curvature paths.", "anchors": ["laplax/curv/ggn.py:create_ggn_mv_without_data", "laplax/curv/hessian.py:create_hessian_mv_without_data", "laplax/curv/hessian.py:hvp"]}
{"id": "C17", "title": "Loss dispatch is total and rejects inconsistent requests", "statement": "create_loss_hessian_mv returns the corresponding product for every known loss, the identity for LossFn.NONE, raises ValueError for None and for unknown names; create_ggn_mv raises exactly when both or neither of loss_fn and loss_hessian_mv are given.", "quantifier": "every loss argument (enum member, any string, None, callable)", "why_tests_cant": "All strings.", "anchors": ["laplax/curv/ggn.py:create_loss_hessian_mv", "laplax/curv/ggn.py:create_ggn_mv"]}
{"id": "C18", "title": "The Hessian product is the derivative of the gradient", "statement": "create_hessian_mv's product equals (total/curv) * sum over data of the second derivative of the loss applied to the direction: linear, symmetric for twice continuously differentiable losses, additive over batches and permutation invariant.", "quantifier": "squared error and every custom C^2 objective (pytree-level or per-sample), point, direction and data list; the remaining named losses are rejected", "why_tests_cant": "Continuous domain.", "anchors": ["laplax/curv/hessian.py:hvp", "laplax/curv/hessian.py:create_hessian_mv_without_data", "laplax/curv/hessian.py:create_hessian_mv"]}
{"id": "C19", "title": "Full posterior: covariance is the inverse of the precision", "statement": "For the FULL approximation, whenever the precision (sigma_squared*C + prior_prec*I)/loss_scaling is positive definite - in particular for every PSD curvature and positive prior precision - the posterior scale S satisfies S S^T = precision^{-1}, the covariance product is the inverse of the precision, and it is symmetric positive definite.", "quantifier": "every dimension, every symmetric PSD curvature, every positive prior precision / sigma_squared / loss scaling", "why_tests_cant": "Continuous domain and unbounded dimension; the implementation goes through a flipped Cholesky factor and a triangular solve whose correctness is not visible pointwise.", "anchors": ["laplax/curv/full.py:full_curvature_to_precision", "laplax/curv/full.py:full_prec_to_scale", "laplax/curv/full.py:full_prec_to_posterior_state", "laplax/curv/full.py:full_posterior_state_to_scale", "laplax/curv/full.py:full_posterior_state_to_cov"]}
{"id": "C20", "title": "Diagonal posterior: covariance is the inverse of the precision", "statement": "For the DIAGONAL approximation with a PSD curvature and positive prior precision the covariance product is entrywise 1/(precision), scale∘scale = covariance, and it coincides with the FULL posterior whenever the curvature is a diagonal matrix.", "quantifier": "every dimension, every curvature, every positive prior precision / sigma_squared / loss scaling", "why_tests_cant": "Continuous domain and unbounded dimension.", "anchors": ["laplax/curv/diagonal.py:create_diagonal_curvature", "laplax/curv/diagonal.py:diagonal_curvature_to_precision", "laplax/curv/diagonal.py:diagonal_prec_to_posterior_state"]}
{"id": "C21", "title": "Low-rank posterior: covariance is the inverse of the precision", "statement": "For the low-rank approximations with orthonormal U, S >= 0 and positive prior precision, scale∘scale = covariance, covariance∘precision = identity (Woodbury), both symmetric positive definite; with U S U^T equal to the curvature it coincides with the FULL posterior.", "quantifier": "every dimension and rank, every orthonormal U, non-negative S, positive prior arguments", "why_tests_cant": "Continuous domain; the identity only holds when U^T U = I.", "anchors": ["laplax/curv/low_rank.py:low_rank_curvature_to_precision", "laplax/curv/low_rank.py:low_rank_prec_to_posterior_state", "laplax/curv/low_rank.py:low_rank_square", "laplax/curv/low_rank.py:create_low_rank_mv"]}
{"id": "C22", "title": "All approximations interpret the prior arguments the same way", "statement": "With the same curvature and the same prior_prec, sigma_squared and loss_scaling_factor, FULL, DIAGONAL and LOW-RANK produce the same posterior covariance whenever their curvature estimates represent the same matrix.", "quantifier": "every curvature representable by the approximations, every prior argument", "why_tests_cant": "Relational property across implementations; false for loss_scaling_factor != 1 in the low-rank path.", "anchors": ["laplax/curv/full.py:full_curvature_to_precision", "laplax/curv/diagonal.py:diagonal_curvature_to_precision", "laplax/curv/low_rank.py:low_rank_curvature_to_precision"]}
{"id": "C23", "title": "Lanczos produces an orthonormal Krylov basis", "statement": "Until breakdown, lanczos_iterations with full reorthogonalisation returns pairwise orthonormal vectors spanning the Krylov space and satisfying the three-term recurrence A V = V T + beta v e^T with T the returned tridiagonal matrix; the low-rank factors returned are therefore an orthonormal U, and U S U^T equals the compression of A to the Krylov space.", "quantifier": "every symmetric operator, start vector, number of iterations", "why_tests_cant": "Unbounded dimension/iterations; breakdown handling only matters on measure-zero inputs.", "anchors": ["laplax/curv/lanczos.py:lanczos_iterations", "laplax/curv/lanczos.py:construct_tridiagonal_matrix", "laplax/curv/lanczos.py:lanczos_lowrank"]}
{"id": "C24", "title": "Global JAX precision flag is restored", "statement": "After lanczos_lowrank or lobpcg_lowrank returns, or raises, the process-wide jax_enable_x64 flag has the value it had before the call.", "quantifier": "every initial flag value, every request (dtype, key/start vector combination), every outcome including every point where an exception can be raised", "why_tests_cant": "Crash points inside library calls are not reachable from unit tests.", "anchors": ["laplax/curv/lanczos.py:lanczos_lowrank", "laplax/curv/lobpcg.py:lobpcg_lowrank"]}
{"id": "C25", "title": "LOBPCG rank adjustment always yields an admissible problem", "statement": "For every problem size and requested rank, the rank passed to the eigen-solver is at least 1, at most the requested one, and satisfies the solver's requirement 5*rank < size.", "quantifier": "every size and rank", "why_tests_cant": "Boundary cases size = 5*rank and tiny sizes.", "anchors": ["laplax/curv/lobpcg.py:lobpcg_lowrank"]}
{"id": "C26", "title": "Posterior functions act on pytrees exactly as on flat vectors", "statement": "For every curvature method, the cov_mv and scale_mv returned by create_posterior_fn satisfy flatten(cov_mv(state)(t)) = Cov * flatten(t) with Cov the flat covariance, preserve the parameter layout, and rank/state reported are those of the method.", "quantifier": "every pytree layout, curvature estimate, prior arguments and tree (with an integer layout: DIAGONAL and the low-rank methods; FULL raises)", "why_tests_cant": "Unbounded structures; composition of many components.", "anchors": ["laplax/curv/cov.py:set_posterior_fn", "laplax/curv/cov.py:create_posterior_fn", "laplax/curv/cov.py:estimate_curvature"]}
{"id": "C27", "title": "Method tables stay consistent under registration", "statement": "After any sequence of successful register_curvature_method calls the six dispatch tables have the same set of methods, every built-in method keeps its behaviour unless explicitly re-registered, and a newly registered method with a default falls back to the default's function wherever no function was given; a failing registration leaves all tables unchanged.", "quantifier": "every history of registrations (any names, any defaults, any subset of functions)", "why_tests_cant": "All histories.", "anchors": ["laplax/register.py:register_curvature_method", "laplax/register.py:register_calibration_method", "laplax/curv/cov.py:CURVATURE_METHODS"]}
{"id": "C28", "title": "grid_search returns the best evaluated candidate", "statement": "grid_search returns an element of the interval, namely the first one attaining the minimum objective among all evaluated candidates, where NaN results and ValueErrors count as +infinity; with patience and max_iterations unset it is the first global minimiser; with patience p it stops right after the first p-fold run of consecutive increases. Any other exception of the objective propagates exactly if the search has not stopped before reaching that candidate, and nothing else (apart from an empty interval) raises.", "quantifier": "every interval, objective (including failing and NaN ones), patience and iteration limit", "why_tests_cant": "All objective sequences.", "anchors": ["laplax/eval/calibrate.py:grid_search", "laplax/eval/calibrate.py:evaluate_for_given_prior_arguments", "laplax/eval/calibrate.py:optimize_prior_prec"]}
{"id": "C29", "title": "grid_search respects max_iterations", "statement": "With max_iterations = m at most m candidates are evaluated.", "quantifier": "every interval, objective and m", "why_tests_cant": "All lengths; off-by-one.", "anchors": ["laplax/eval/calibrate.py:grid_search"]}
{"id": "C30", "title": "Calibration errors are well-defined averages", "statement": "For confidences in (0,1], every sample falls in exactly one of the bins, bin proportions sum to 1, ECE is the proportion-weighted mean of |accuracy - confidence| gaps, lies in [0,1], and ECE <= MCE <= 1.", "quantifier": "every number of samples and bins, every confidence and correctness vector", "why_tests_cant": "All real inputs, bin-edge values.", "anchors": ["laplax/eval/metrics.py:calculate_bin_metrics", "laplax/eval/metrics.py:calibration_error", "laplax/eval/metrics.py:expected_calibration_error", "laplax/eval/metrics.py:maximum_calibration_error"]}
{"id": "C31", "title": "Accuracy is a percentage monotone in k", "statement": "accuracy returns one value in [0,100] per requested k, non-decreasing in k, equal to 100 for k >= number of classes, and top-1 accuracy is 100 * mean of correctness.", "quantifier": "every batch, number of classes, list of k and prediction matrix (negative k count from the end of the ranked classes; an empty or entirely negative list raises)", "why_tests_cant": "All inputs.", "anchors": ["laplax/eval/metrics.py:accuracy", "laplax/eval/metrics.py:correctness"]}
{"id": "C32", "title": "Scoring rules have their defining values", "statement": "cross_entropy of probability vectors is non-negative and minimised at the target (Gibbs); estimate_rmse is the root of the mean squared error and is 0 exactly for perfect predictions; chi_squared is the average squared normalised error; nll_gaussian is the average negative log normal density; crps_gaussian is the average closed-form CRPS and is non-negative; the multiclass Brier score is the mean squared distance between prediction and one-hot target.", "quantifier": "every batch size, prediction, positive predictive standard deviation and target", "why_tests_cant": "Continuous domain.", "anchors": ["laplax/eval/metrics.py:cross_entropy", "laplax/eval/metrics.py:multiclass_brier", "laplax/eval/metrics.py:chi_squared", "laplax/eval/metrics.py:estimate_rmse", "laplax/eval/metrics.py:crps_gaussian", "laplax/eval/metrics.py:nll_gaussian"]}
{"id": "C33", "title": "Classification predictives are probability vectors", "statement": "laplace_bridge's dirichlet mean, mean_field_0, mean_field_1 and mean_field_2 return non-negative entries that sum to 1 and reduce to softmax of the mean when the predictive variance is zero (mean-field variants).", "quantifier": "every number of classes >= 1, mean vector and admissible covariance", "why_tests_cant": "Continuous domain.", "anchors": ["laplax/eval/predictives.py"]}
{"id": "C34", "title": "Marginal log-likelihood is the Laplace evidence", "statement": "marginal_log_likelihood equals joint_log_likelihood - 1/2 log det(H/(2*pi)) with H the posterior precision, for full, diagonal and low-rank curvature; the three agree whenever they represent the same curvature.", "quantifier": "every dimension, PSD curvature and positive prior precision", "why_tests_cant": "Continuous domain.", "anchors": ["laplax/eval/likelihood.py:marginal_log_likelihood", "laplax/eval/likelihood.py:joint_log_likelihood", "laplax/eval/likelihood.py:full_marginal_log_likelihood"]}
{"id": "C35", "title": "Linearised predictive covariance is J Sigma J^T", "statement": "set_lin_pushforward's pred_cov is J Sigma J^T (symmetric positive semidefinite), pred_var its diagonal, pred_std the root of pred_var whether or not earlier results are reused, pred_mean the MAP prediction; samples are f(map) + J S eps with S the posterior scale. A function requested before lin_setup raises KeyError.", "quantifier": "every model with scalar or vector outputs, input, posterior state, order and subset of requested functions (for outputs with more axes: everything except the dense covariance)", "why_tests_cant": "Continuous domain, all orders of the pushforward function list.", "anchors": ["laplax/eval/pushforward.py:set_lin_pushforward", "laplax/eval/pushforward.py:lin_pred_cov", "laplax/eval/pushforward.py:lin_pred_var", "laplax/eval/pushforward.py:lin_pred_std", "laplax/eval/pushforward.py:set_output_mv"]}
{"id": "C36", "title": "Sample-based predictive statistics are order independent", "statement": "For the nonlinear pushforward the returned pred_mean, pred_var, pred_std, pred_cov are statistics of the same sample ensemble of size num_samples and do not depend on the order or subset of requested functions; pred_var is the diagonal of pred_cov.", "quantifier": "every model, posterior, num_samples and list of functions", "why_tests_cant": "All lists; the variance normalisation differs between code paths.", "anchors": ["laplax/eval/pushforward.py:nonlin_pred_var", "laplax/eval/pushforward.py:nonlin_pred_cov", "laplax/eval/pushforward.py:set_nonlin_pushforward"]}
{"id": "C37", "title": "The posterior GP kernel is a valid symmetric kernel", "statement": "The kernel returned by set_posterior_gp_kernel satisfies k(x1,x2) = k(x2,x1)^T, every Gram matrix is positive semidefinite and k(x,x) equals the linearised predictive covariance.", "quantifier": "every model, posterior and finite set of inputs", "why_tests_cant": "Continuous domain, all finite sets.", "anchors": ["laplax/eval/pushforward.py:set_posterior_gp_kernel"]}
{"id": "C38", "title": "apply_fns / transfer_entry / finalize_fns compose as documented", "statement": "finalize_fns folds the functions left to right over (results, aux), so later functions see all earlier results; apply_fns stores each function's value under its name and leaves every other key untouched; transfer_entry copies exactly the requested entries and raises when absent.", "quantifier": "every list of functions, key mapping and dictionary", "why_tests_cant": "All histories of functions.", "anchors": ["laplax/eval/utils.py:finalize_fns", "laplax/eval/utils.py:apply_fns", "laplax/eval/utils.py:transfer_entry"]}
{"id": "C39", "title": "Dataset-level metrics do not alter caller data", "statement": "evaluate_metrics_on_dataset does not modify the metrics list passed by the caller, and evaluate_metrics_on_generator over any non-empty generator returns for every metric the reduction of all per-batch values.", "quantifier": "every metric list, data set and reduction; every number of repeated calls", "why_tests_cant": "Needs all call histories (aliasing).", "anchors": ["laplax/eval/utils.py:evaluate_metrics_on_dataset", "laplax/eval/utils.py:evaluate_metrics_on_generator"]}
{"id": "C40", "title": "Enum conversion accepts exactly the documented spellings", "statement": "_convert_to_enum (through the public API arguments) returns the member for a member or for any-case spelling of its value, returns the string itself only when str_default is set and raises ValueError otherwise; str_to_bool accepts exactly 'True' and 'False'.", "quantifier": "every string", "why_tests_cant": "All strings.", "anchors": ["laplax/api.py:_convert_to_enum", "laplax/util/ops.py:str_to_bool"]}
{"id": "C41", "title": "One-shot data iterators are either fully used or rejected", "statement": "Passing a one-shot iterator as data to laplace/evaluation either uses every batch or raises; it never silently computes from a part of the data.", "quantifier": "every iterator content", "why_tests_cant": "All loader contents, hidden iterator state.", "anchors": ["laplax/api.py:GGN", "laplax/api.py:laplace", "laplax/api.py:evaluation", "laplax/api.py:_maybe_wrap_loader_or_batch"]}
{"id": "C42", "title": "Curvature scaling compensates for sub-sampling", "statement": "When the curvature is estimated on num_curv of num_total samples the effective curvature is (num_total/num_curv) times the sum over the curvature samples, so that replicating the data set leaves the result unchanged, in both the functional interface (create_ggn_mv) and the high-level API (laplace).", "quantifier": "every num_curv, num_total > 0, data", "why_tests_cant": "Relational across sizes.", "anchors": ["laplax/curv/ggn.py:create_ggn_mv", "laplax/api.py:laplace"]}
{"id": "C43", "title": "Single batches and loaders are interpreted consistently", "statement": "A (input, target) pair or a mapping passed as data is treated as one batch with those inputs and targets, whatever its container type accepted by validation; anything else is rejected with an error.", "quantifier": "every container kind and content", "why_tests_cant": "All container kinds.", "anchors": ["laplax/api.py:_validate_and_get_transform", "laplax/api.py:_maybe_wrap_loader_or_batch"]}
{"id": "C44", "title": "Pushforward selection delivers what the predictive type promises", "statement": "The API's pushforward setup accepts exactly the known pushforward/predictive combinations, uses non-empty custom functions unchanged, and whenever a classification predictive is selected the class probabilities are computed and published under 'pred_act' (special predictive taking precedence), leaving all other results untouched.", "quantifier": "every pushforward/predictive argument and custom function list", "why_tests_cant": "Must hold for every argument value and every content of the results dictionary.", "anchors": ["laplax/api.py:_setup_pushforward", "laplax/api.py:get_pred_act"]}
{"id": "C45", "title": "Calibration objective selection follows its documented requirements", "statement": "calibration builds the objective asked for and raises ValueError exactly for unknown names, missing required arguments, chi-squared with classification and ECE with regression.", "quantifier": "every objective name and combination of missing arguments", "why_tests_cant": "Complete decision table.", "anchors": ["laplax/api.py:_build_calibration_objective"]}
{"id": "C46", "title": "Metric selection never yields an empty list", "statement": "The metrics argument resolves to the given callable(s) or to the default list of its name (any capitalisation), never to an empty list; everything else raises ValueError.", "quantifier": "every metrics argument", "why_tests_cant": "All argument values.", "anchors": ["laplax/api.py:_resolve_metrics"]}
{"id": "C47", "title": "laplace end to end: data to posterior to predictive", "statement": "laplace(model_fn, params, data, loss_fn, curv_type, num_curv_samples, num_total_samples) returns the curvature estimate of the requested kind (the dense matrix, its diagonal, or the low-rank terms of the algorithm run with products by that matrix) of N_curv/N_total times the sum over all samples of J^T H J, and a posterior function for exactly that estimate: with prior precision tau and noise sigma^2 its covariance product on parameter pytrees is the inverse of (sigma^2 G + tau I)/s, its scale product a square root of it, and the linearised predictive built from it has mean f(x, theta) and covariance J_x P^-1 J_x^T. The result depends only on the multiset of samples, not on batching, batch order, or whether batches are pairs or mappings.", "quantifier": "all differentiable models, parameter pytrees, named losses, curvature kinds, low-rank algorithms (adaptive sequences of products), sample sets, batchings into a re-iterable loader or a single batch, priors, test inputs", "why_tests_cant": "quantifies over models, data sets of any size and all their batchings; unit tests fix one network and one data set", "anchors": ["laplax/api.py: laplace, GGN, _maybe_wrap_loader_or_batch", "laplax/curv/ggn.py: create_ggn_mv_without_data", "laplax/curv/cov.py: estimate_curvature, set_posterior_fn", "laplax/util/loader.py: DataLoaderMV", "laplax/eval/pushforward.py: set_lin_pushforward"]}
{"id": "C48", "title": "The block eigensolver returns orthonormal Ritz pairs that only improve", "statement": "lobpcg_standard(A, X, m, tol) for a symmetric operator A, given as a matrix or a product function: it stops after at most m iterations and earlier only when the tolerance test holds for every requested pair; as long as no search direction is dropped as numerically dependent, the returned vectors are orthonormal, U^T A U is diagonal with the returned values in descending order, the values never decrease from one iteration to the next and never exceed the corresponding largest eigenvalues of A.", "quantifier": "every symmetric operator, starting block, tolerance, iteration limit, number of vectors, and every correct eigh / QR / SVD kernel", "why_tests_cant": "continuous input space and iterations of any length; a test only sees one run on one matrix", "anchors": ["laplax/curv/lobpcg.py:lobpcg_standard", "laplax/curv/lobpcg.py:_svqb", "laplax/curv/lobpcg.py:_extend_basis", "laplax/curv/lobpcg.py:_project_out", "laplax/curv/lobpcg.py:_rayleigh_ritz_orth"]}
{"id": "C49", "title": "Low-rank curvature does not depend on how the operator is passed", "statement": "create_low_rank_curvature (and lanczos_lowrank / lobpcg_lowrank / get_matvec under it) gives the same outcome for a matrix, a callable on flat vectors with the dimension as layout, and a callable on pytrees with a pytree layout, whenever they are the same linear map; a callable without layout is a TypeError, an unknown method a KeyError, Lanczos without key and start vector a ValueError, and an exception raised by the operator is passed on. The start vector b takes precedence over the key. Used inside laplace, the resulting predictive covariance is J ((tau/s) I + sigma^2 Pi G Pi)^-1 J^T with Pi the projection on the Krylov space.", "quantifier": "every matrix, operator form, layout, method name, keyword arguments and (for the last claim) model, data set, batching, prior and test input", "why_tests_cant": "all matrices of all dimensions and all pytree layouts; comparing three code paths on one matrix says nothing about the others", "anchors": ["laplax/curv/low_rank.py:create_low_rank_curvature", "laplax/curv/utils.py:get_matvec", "laplax/curv/lanczos.py:lanczos_lowrank", "laplax/curv/lobpcg.py:lobpcg_lowrank", "laplax/api.py:laplace"]}
{"id": "C50", "title": "Samples follow the Gaussian the predictive reports", "statement": "The i-th weight sample is mean + S eps_i, a pytree like the parameters, with eps_i drawn from the i-th split key, whatever precomputation flag and batch size are used. When the generator's draws are independent standard normal numbers, every weight sample is distributed as N(params, P^-1) with P the posterior precision, and every linearised predictive sample as N(pred_mean, pred_cov) for the pred_mean and pred_cov of the same call. Indices beyond the number of samples return the last sample.", "quantifier": "every generator, key, parameter pytree, posterior (full, diagonal, low-rank), number of samples, precomputation setting, model, input", "why_tests_cant": "a statement about probability distributions; a test can only compare finitely many draws with a tolerance", "anchors": ["laplax/eval/pushforward.py:set_get_weight_sample", "laplax/eval/pushforward.py:lin_samples", "laplax/util/tree.py:normal_like", "laplax/util/ops.py:precompute_list"]}
{"id": "C51", "title": "The predictive selected by name is the one the posterior defines", "statement": "The predictive that calibration and evaluation build from pushforward_type and predictive_type (enum members or strings, any case) holds exactly the documented keys. LINEAR: map and pred_mean are the model output f(x, theta), pred_var and pred_std the diagonal of J P^-1 J^T and its square root; MC_BRIDGE adds the samples and their mean softmax, MEAN_FIELD_0/1/2 the mean-field probabilities of the same mean and covariance, each repeated under pred_act. NONLINEAR: mean and standard deviation over the sampled networks and for MC_BRIDGE the softmax mean over the first five of them. LAPLACE_BRIDGE always raises, and the nonlinear predictive with zero samples raises.", "quantifier": "every model, parameter pytree, curvature estimate, prior, number of samples, key, generator, test input, and every spelling of the two names", "why_tests_cant": "a statement about all networks, posteriors and inputs through the composition of name lookup, weight sampling and the chosen steps; tests check one network", "anchors": ["laplax/api.py: _setup_pushforward, DEFAULT functions tables", "laplax/eval/pushforward.py: set_lin_pushforward, set_nonlin_pushforward, special_pred_act, get_pred_act"]}
{"id": "C52", "title": "Calibration returns the grid precision with the best score", "statement": "calibration(...) with method grid_search on one batch (pair or mapping) and a linearised or sampled predictive: the candidates are grid_size (default 50) precisions with logarithms equally spaced from log_prior_prec_min to log_prior_prec_max (defaults -3 and 3), tried in ascending order; the returned precision is the first best of those tried, all of them when no patience is given, and the returned setter builds the predictive of C51. The score is, for the NLL objective, the mean negative log density of the targets (one-hot encoded labels for classification) under the predictive means and variances at that precision; for CHI_SQUARED the distance of the mean squared standardised residual from 1; for ECE the expected calibration error over 15 bins; for MARGINAL_LOG_LIKELIHOOD minus the Laplace log evidence. Registered methods are called with the objective and the batch, unknown ones raise ValueError.", "quantifier": "every model, parameter pytree, curvature estimate, batch of any size, grid limits and size, patience, spelling of the names, generator and key", "why_tests_cant": "the score is a function of all models and all data; a test runs one network on one batch and compares with a recorded number", "anchors": ["laplax/api.py: calibration, _build_calibration_objective, _make_*_objective", "laplax/eval/calibrate.py: evaluate_for_given_prior_arguments, optimize_prior_prec, grid_search", "laplax/eval/metrics.py: nll_gaussian, chi_squared_zero, expected_calibration_error", "laplax/eval/likelihood.py: marginal_log_likelihood"]}
{"id": "C53", "title": "Evaluation scores every data point, however the data are batched", "statement": "evaluation(...) returns, for every metric name, an array with one value per data point in the order of the data; a pair, a mapping or a re-iterable loader with any batch sizes holding the same points give the same result. With the default regression metrics the result has exactly the keys rmse, chi^2, nll and crps, and the values are the root mean squared error, mean squared standardised residual, mean negative log density and mean CRPS of the target under independent normals with the mean and standard deviation of the predictive (linearised: f(x, theta) and the diagonal of J P^-1 J^T for the given prior arguments; sampled: mean and standard deviation over the sampled networks). The predictive is returned along with the metrics.", "quantifier": "every model, parameter pytree, curvature estimate, prior arguments, data set, batch split, reduction, spelling of the names, generator and key", "why_tests_cant": "all data sets and all ways to cut them into batches; a test compares one network on one or two batches", "anchors": ["laplax/api.py: evaluation, _resolve_metrics", "laplax/eval/utils.py: evaluate_metrics_on_generator, evaluate_metrics_on_dataset, transfer_entry, apply_fns, finalize_fns", "laplax/eval/metrics.py: estimate_rmse, chi_squared, nll_gaussian, crps_gaussian, correctness"]}
{"id": "C54", "title": "The workflow laplace, calibration, evaluation computes the Laplace approximation of the data", "statement": "Passing the posterior function and curvature estimate of laplace(train) to calibration(batch) and the calibrated prior to evaluation(test) (linearised predictive): the calibrated prior precision q is the first best grid point for the chosen objective (NLL or evidence) of the fitted model, and every metric is, per test point, the score under N(f(x, theta), diag J P^-1 J^T) with P = q I + curvature estimate of num_curv/num_total * sum J^T H J over the training samples. With the sampled predictive the same holds with the normal distributions of the networks f(x, theta + R_q eps_j), the draws eps_j shared by calibration and evaluation, provided their spread is positive. Reordering the training samples or cutting training and test data into batches differently changes nothing (training data: whatever is called downstream, result or exception).", "quantifier": "every model, parameter pytree, training, calibration and test data set, batching, curvature kind, grid, generator and key, and spelling of the names", "why_tests_cant": "the composition of three entry points over all data sets and batchings; integration tests run one toy network", "anchors": ["laplax/api.py: laplace, calibration, evaluation"]}
{"id": "C55", "title": "Pytree statistics, slices, block products and comparison", "statement": "mean/var/std(tree, axis=0) of a stacked ensemble of pytrees is a pytree of the members' layout with the entrywise average, population variance and standard deviation of the members; with any axis (or None), ddof and keepdims they hold the statistics of the entries along that axis, position by position, and raise on a leaf without that axis; with a tuple of axes they hold the statistics of all entries along the named axes at every position of the others, and raise if an axis is missing or named twice (one axis in a tuple is that axis, all of them are axis=None); cov(tree, rowvar, bias, ddof) holds each leaf's covariance with normalisation S - ddof; tree_slice is the stack of the members from a up to b, negative bounds counted from the end, with python's clamping; sqrt acts entrywise. tree_matvec of blocks listed column by column is the block matrix-vector product in the layout of the vector; on a jax.hessian pytree it is the Hessian-vector product for all Hessians exactly if of any two different leaves at least one is a single number; surplus leaves are ignored and missing ones raise. tree_partialmatvec contracts every leaf's last axis with the vector. allclose is true exactly if all pairs of entries are within numpy's tolerances, and raises on different structures; invert raises on float trees.", "quantifier": "every pytree structure, leaf shapes, ensemble size, slice bounds, block sizes and real entries", "why_tests_cant": "the claims range over all pytree structures, leaf sizes and entries; a test checks one tree", "anchors": ["laplax/util/tree.py: sqrt, invert, mean, std, var, cov, tree_matvec, tree_partialmatvec, tree_slice, allclose"]}
{"id": "C56", "title": "evaluate_on_dataset collects the predictions of every point", "statement": "evaluate_on_dataset(pred_fn, data) returns under every key of the predictive the stack of its values at all data points in the order of the data, under target the targets of the data (even if the predictive returns such a key), and no other key; the two batch-size keywords do not change the result (zero raises ZeroDivisionError). An exception of the predictive at some point is the exception of the call. With the linearised predictive the entries are f(x, theta) and the diagonal of J P^-1 J^T and its square root at all points.", "quantifier": "every data set, predictive, batch size, model, posterior", "why_tests_cant": "all data sets and batch sizes; a test compares one data set", "anchors": ["laplax/eval/utils.py: evaluate_on_dataset"]}
{"id": "C57", "title": "Unequal shapes: what is rejected and what is computed", "statement": "Where laplax combines arrays without a shape check (pytree add and sub, estimate_rmse, chi_squared, the mse training loss), unequal shapes follow numpy broadcasting exactly: the call succeeds if and only if the shapes, aligned on the right, agree or have length one on every axis, every entry combines the entries at the trailing multi-index, and otherwise TypeError (equally many axes) or ValueError is raised; equal shapes give the documented entrywise result. nll_gaussian and crps_gaussian raise ValueError for all unequal shapes. Consequences for predictions (n, 1) and targets (n,): RMSE and chi-squared are averages over all pairs of prediction and target, so perfect predictions have RMSE sqrt(2) times the standard deviation of the targets; calibration by chi-squared or by evidence silently uses all pairs; evaluation with the default regression metrics raises ValueError. Evidence calibration whose targets do not broadcast (class labels for a classifier with the built-in cross-entropy), or whose loss is unknown to it, optimises nothing: it returns the smallest precision of the grid when the targets have another number of axes, and raises otherwise.", "quantifier": "every pair of shapes and all entries; every pytree structure; every model, posterior, batch and grid for the calibration and evaluation statements", "why_tests_cant": "all shapes and all data; a test shows single shape pairs, and the silent cases return plausible numbers", "anchors": ["laplax/util/tree.py: add, sub", "laplax/eval/metrics.py: estimate_rmse, chi_squared, nll_gaussian, crps_gaussian, DEFAULT_REGRESSION_METRICS", "laplax/curv/utils.py: concatenate_model_and_loss_fn", "laplax/api.py: calibration, evaluation"]}
{"id": "C58", "title": "The options of laplace change how the model is called, not the result", "statement": "For every model, parameter pytree, loss, curvature kind and batching, laplace(..., curv_mv_jit=True) returns the same curvature estimate and posterior function (or raises the same exception) as with curv_mv_jit=False; and laplace(..., vmap_over_data=False), for a model that maps a whole batch of inputs to one output row per sample, returns the same as vmap_over_data=True with the per-sample model, for every supported loss. The Hessian product for a batched model is the one of the per-sample model. A batched loss that returns the mean over the batch scales the curvature by one over the batch size.", "quantifier": "every option value, model, parameter pytree, loss, curvature kind, batching and data set", "why_tests_cant": "all models, batchings and losses; the tests only run the default options on one toy model", "anchors": ["laplax/api.py: laplace, GGN", "laplax/curv/ggn.py: create_ggn_mv_without_data, create_loss_hessian_mv", "laplax/curv/hessian.py: create_hessian_mv", "laplax/curv/utils.py: concatenate_model_and_loss_fn"]}
{"id": "C59", "title": "Keyword arguments of laplace reach the selected estimation, and only it", "statement": "For every model, loss, data set and batching, laplace(..., curv_type=LANCZOS or LOBPCG, **curv_kwargs) returns exactly what create_low_rank_curvature returns, with the same keyword arguments (rank, key, b, tol, mv_jit, full_reorthogonalize) and the method named by low_rank_method (default: that of curv_type), for the scaled GGN matrix of the data, with the same exceptions; for FULL and DIAGONAL the keyword arguments change nothing. The keywords mv, layout, A and curv_estimate, which laplace passes itself, make the call raise instead of changing the result; LANCZOS without key and b raises ValueError. With LOBPCG and mv_jit=False the posterior is the Gaussian with precision (tau/s) I + sigma^2 Pr G Pr, Pr the projection on the computed block.", "quantifier": "every model, parameter pytree, loss, data set, batching, curvature type and keyword arguments", "why_tests_cant": "all models, data and keyword combinations; the tests call laplace with two fixed sets of keywords on one toy model", "anchors": ["laplax/api.py: laplace", "laplax/curv/cov.py: estimate_curvature, CURVATURE_METHODS", "laplax/curv/low_rank.py: create_low_rank_curvature", "laplax/curv/lanczos.py: lanczos_lowrank", "laplax/curv/lobpcg.py: lobpcg_lowrank"]}
{"id": "C60", "title": "Evidence calibration uses the curvature type and the model it is given", "statement": "For every model, parameter pytree, posterior, batch and grid: calibration(..., calibration_objective=MARGINAL_LOG_LIKELIHOOD, curv_type=t) with any t (not None) that laplace accepts for the estimate chooses the prior precision by the evidence of that estimate; a t that does not fit the estimate raises an exception; vmap_over_data=False with a model that maps the batch to the stacked outputs chooses the same as vmap_over_data=True with the per-sample model, and an exception of the model is passed on. The other objectives (NLL, chi-squared, ECE) do not depend on curv_type or vmap_over_data, for any calibration method.", "quantifier": "every curvature type argument (members, strings, other objects), estimate, model, batch, loss, grid, patience", "why_tests_cant": "all combinations of type, estimate and data; the silent cases return a plausible number from the grid", "anchors": ["laplax/api.py: calibration, _make_mll_objective", "laplax/eval/likelihood.py: marginal_log_likelihood, CURVATURE_MARGINAL_LOG_LIKELIHOOD", "laplax/curv/cov.py: CURVATURE_PRECISION_METHODS", "laplax/curv/utils.py: concatenate_model_and_loss_fn"]}
{"id": "C61", "title": "For linear models with squared error the Laplace approximation is exact", "statement": "For every model affine in its parameters, every data set and batching, loss mse: if the parameters minimise the training objective that the prior arguments describe, then laplace (FULL, all data) followed by posterior_fn gives the exact Bayesian posterior (its density, mean and covariance), the linearised pushforward reports mean and covariance of the exact posterior predictive distribution of the outputs, and marginal_log_likelihood is the logarithm of the exact evidence, the integral of the joint density.", "quantifier": "every affine model, parameter pytree, data set, batching, prior precision, noise and loss scaling", "why_tests_cant": "equality of densities and integrals over a continuum of parameters, for every model and data set; tests compare single linear regressions with closed formulas", "anchors": ["laplax/api.py: laplace", "laplax/curv/cov.py: set_posterior_fn, create_posterior_fn", "laplax/eval/pushforward.py: set_lin_pushforward", "laplax/eval/likelihood.py: marginal_log_likelihood, joint_log_likelihood"]}
{"id": "C62", "title": "More prior precision and more data never increase the reported uncertainty", "statement": "The variances and standard deviations reported by the linearised predictive never grow when prior_prec or sigma_squared grows, when laplace (FULL or DIAGONAL, same scaling) is fitted on additional samples, or when the curvature estimate grows as a quadratic form; they are non-negative and never exceed the prior's ||J_k||^2/prior_prec; the mean is unaffected. A low-rank posterior made of exact eigenpairs reports variances between those of the full posterior and those of the prior, and the same ones if it keeps all eigenpairs.", "quantifier": "every model, parameter pytree, data set, extra samples, batching, prior arguments, predictive type and input", "why_tests_cant": "an inequality between functions of arbitrary models and data sets; tests compare a few numbers", "anchors": ["laplax/api.py: laplace", "laplax/curv/cov.py: set_posterior_fn", "laplax/eval/pushforward.py: set_lin_pushforward"]}
{"id": "C63", "title": "Target values and the arrangement of the parameters do not matter", "statement": "With a named loss, laplace returns the same curvature estimate and posterior function for all target values of the same inputs. Storing the parameters in another pytree (other keys, nesting, order, shapes), with the model reading them from there, leaves the means and variances of the linearised predictive unchanged, and the whole workflow laplace, calibration by NLL, evaluation returns the same prior precision and metrics (FULL and DIAGONAL curvature).", "quantifier": "every model, permutation of the parameters, pytree layouts, data set, batching, targets, prior arguments and inputs", "why_tests_cant": "quantifies over all layouts and permutations; tests use one pytree per model", "anchors": ["laplax/api.py: laplace, calibration, evaluation", "laplax/curv/ggn.py: create_ggn_mv", "laplax/util/flatten.py: create_pytree_flattener"]}
{"id": "C64", "title": "The posterior of a Lanczos estimate is the Gaussian for the curvature compressed to the Krylov space", "statement": "With the Lanczos low-rank factors of a positive semidefinite curvature A (prior precision tau, loss scaling s, sigma_squared), the posterior's covariance product is the inverse of (tau/s) I + sigma^2 P A P, P the orthogonal projector on the Krylov space of the start vector - for every rank; in particular every direction has non-negative variance and more iterations than the space has dimensions change nothing. VIOLATED after a breakdown (always for more iterations than parameters, so with the default rank 20 for every model with fewer than 20 parameters): the covariance is that inverse minus (rank-1-k)(1/q - 1/(q + sigma^2 alpha_k)) v_k v_k^T (q = tau/s, k the first breakdown), positive semidefinite exactly if (rank-1-k) sigma^2 alpha_k <= q.", "quantifier": "every positive semidefinite curvature, start vector, tolerance, rank, prior, and for laplace every model, data set, batching and named loss", "why_tests_cant": "the claim is about all curvatures and ranks; the tests use ranks below the number of parameters", "anchors": ["laplax/curv/lanczos.py: lanczos_iterations, lanczos_lowrank", "laplax/curv/low_rank.py: low_rank_prec_to_posterior_state, low_rank_posterior_state_to_cov", "laplax/api.py: laplace"]}
{"id": "C65", "title": "Every documented exception is raised, with the documented class, exactly in the documented situation", "statement": "For every function whose docstring has a Raises section: the listed exception class is raised in the listed situation, whatever the remaining arguments, and for the argument checks of create_loss_hessian_mv, create_ggn_mv, create_hessian_mv, get_matvec, process_batches, register_curvature_method, transfer_entry, nll_gaussian, crps_gaussian, _validate_and_get_transform, _setup_pushforward and _resolve_metrics nothing else is refused. VIOLATED: to_dense documents TypeError for a layout that is neither an integer nor a pytree, but raises ValueError for None.", "quantifier": "every argument of these functions: loss names and callables, sample counts, layouts, loaders, registrations, shapes, enum spellings, data objects", "why_tests_cant": "an 'exactly if' over all argument values; tests try one bad value per check", "anchors": ["laplax/curv/ggn.py: create_loss_hessian_mv, create_ggn_mv", "laplax/curv/hessian.py: create_hessian_mv", "laplax/curv/utils.py: concatenate_model_and_loss_fn, get_matvec", "laplax/util/mv.py: diagonal, to_dense", "laplax/util/loader.py: process_batches, reduce_sum", "laplax/curv/lanczos.py: lanczos_lowrank", "laplax/register.py: register_curvature_method", "laplax/eval/utils.py: transfer_entry, apply_fns, evaluate_metrics_on_dataset", "laplax/eval/metrics.py: nll_gaussian, crps_gaussian", "laplax/api.py: _validate_and_get_transform, _setup_pushforward, _resolve_metrics, GGN, calibration"]}
{"id": "C66", "title": "Sampled predictive statistics are unbiased estimates of the output distribution under the posterior", "statement": "Over the randomness of the PRNG (independent standard normal draws for the S weight samples): the pred_mean and pred_cov of the sampled predictive have as expectation the mean and covariance of the model outputs under the weight posterior N(mean, precision^-1), and pred_mean fluctuates with that covariance divided by S. pred_var has the expected value Var when requested after pred_cov and (S-1)/S*Var without it. mc_pred_act has as expectation the posterior mean of the softmax probabilities, with the covariance of these divided by the number of averaged samples: S for the linearised predictive, but only min(5, S) for the sampled one. For models affine in the parameters the expected pred_mean and pred_cov of the sampled predictive are exactly those of the linearised predictive. An entry of pred_mean is off by delta or more with probability at most its posterior variance over S*delta^2, and a class probability of mc_bridge with probability at most 1/(4*S*delta^2) whatever the model.", "quantifier": "every model with square-integrable outputs (every measurable model for the probabilities), posterior, input, number of samples, key, batching option and random generator", "why_tests_cant": "a statement about a probability distribution over all PRNG outputs; a test sees one seed and can only compare with a tolerance", "anchors": ["laplax/eval/pushforward.py: set_get_weight_sample, nonlin_setup, nonlin_pred_mean, nonlin_pred_cov, nonlin_pred_var, nonlin_mc_pred_act, lin_mc_pred_act, set_nonlin_pushforward, set_lin_pushforward", "laplax/util/tree.py: randn_like"]}
{"id": "C67", "title": "Relabelling the classes permutes the predictions and changes no score", "statement": "Permuting the output entries (classes) of the model, with a named loss: laplace returns the same curvature estimate and posterior function, for every curvature type and whatever happens to the targets; the linearised predictive (every list of its functions, and the ones selected by name) and the sampled predictive hold under every key the permuted value: means, variances, standard deviations and class probabilities permuted, the covariance in rows and columns, each sample permuted. mean_field_0/1/2 and laplace_bridge as functions are equivariant. Brier score and cross-entropies, the correctness of predictions with a unique largest class and the top-k accuracies of predictions without ties do not change; with ties correctness depends on the labelling.", "quantifier": "every model, permutation, data set, batching, named loss, curvature type, posterior, prior arguments, PRNG, list of pushforward functions and input", "why_tests_cant": "quantifies over all permutations and models; tests use one labelling", "anchors": ["laplax/api.py: laplace, _setup_pushforward", "laplax/curv/ggn.py: create_loss_hessian_mv, create_ggn_mv", "laplax/eval/pushforward.py: set_lin_pushforward, set_nonlin_pushforward", "laplax/eval/predictives.py: laplace_bridge, mean_field_0_predictive, mean_field_1_predictive, mean_field_2_predictive", "laplax/eval/metrics.py: correctness, accuracy, multiclass_brier, cross_entropy"]}
{"id": "C68", "title": "Class probabilities depend only on differences of logits", "statement": "Adding the same number to all logits of the model (any differentiable function of input and parameters) changes nothing for a classifier: with the cross-entropy loss laplace returns the same curvature estimate and posterior function, and the class probabilities of the linearised predictive and of the sampled predictive stay the same. VIOLATED by mean_field_0 (already for constants, unless all variances are equal) and by mean_field_1 (for functions of the parameters; constants are harmless).", "quantifier": "every model, added function, data set, batching, curvature type, prior arguments, PRNG and input", "why_tests_cant": "an invariance under an infinite-dimensional family of model changes; tests use fixed models", "anchors": ["laplax/api.py: laplace, _setup_pushforward", "laplax/curv/ggn.py: _cross_entropy_hessian_mv, create_ggn_mv", "laplax/eval/pushforward.py: lin_mc_pred_act, lin_special_pred_act, nonlin_mc_pred_act", "laplax/eval/predictives.py: mean_field_0_predictive, mean_field_1_predictive, mean_field_2_predictive"]}
{"id": "C69", "title": "The order of the data does not matter, and evidence calibration does not use the calibration data", "statement": "Reordering the calibration batch, or replacing it by any number of copies of it, changes nothing that calibration returns (prior precision, predictive, tried candidates), for the objectives nll (regression and classification), chi_squared and ece, with every predictive type; for ece the labels may be integers in one batch and one-hot in the other. For the marginal likelihood objective with a dense or diagonal estimate and a scalar loss the result is the same for all calibration data: inputs, targets, number of points and loss have no influence. Evaluation on points picked from the test data in any order, any number of times and in any batches returns the picked metric values and the same predictive (equal averages if all are picked equally often), and the whole workflow laplace, NLL calibration, evaluation on reordered data returns the same prior and predictive.", "quantifier": "every model, estimate, batch, reordering, number of copies, grid, patience, selection of test points and batching", "why_tests_cant": "all permutations of all data sets; tests fix one order, and a dependence on the order (for example through a strided reshape or an argmin over positions) shows only on unlucky data", "anchors": ["laplax/api.py: calibration, evaluation, laplace", "laplax/eval/calibrate.py: optimize_prior_prec, grid_search, evaluate_for_given_prior_arguments", "laplax/eval/metrics.py: nll_gaussian, chi_squared_zero, expected_calibration_error", "laplax/eval/likelihood.py: marginal_log_likelihood"]}
{"id": "C70", "title": "Parameters the model does not use keep their prior and change no prediction", "statement": "For a model that ignores some entries of its parameter pytree, laplace with FULL or DIAGONAL curvature gives, for every prior precision tau, noise and loss scaling s, a posterior in which every unused parameter is uncorrelated with all others and has its prior variance s/tau, and in which the used parameters have the covariance they have without the unused ones. The linearised predictive reports the same means and variances with and without them, the workflow laplace, NLL calibration, evaluation returns the same prior and the same metrics, and marginal_log_likelihood changes only by -tau/2 times their squared norm and 1/2 log s for each, so that with unused parameters equal to zero evidence calibration chooses the same prior.", "quantifier": "every model, every injective placement of the used parameters among more parameters, all parameter values, data, prior arguments, loss scalings and inputs", "why_tests_cant": "all architectures with frozen or dead parameters; a test fixes one pytree, and an error such as a wrong prior term for zero-curvature directions shows only with such parameters", "anchors": ["laplax/api.py: laplace, calibration, evaluation", "laplax/curv/cov.py: set_posterior_fn", "laplax/curv/full.py", "laplax/curv/diagonal.py", "laplax/eval/likelihood.py: marginal_log_likelihood", "laplax/eval/pushforward.py: set_lin_pushforward"]}
{"id": "C71", "title": "The diagonal approximation never overstates a weight variance or the evidence", "statement": "For the same model, data, loss and prior arguments, laplace with DIAGONAL curvature gives every parameter a marginal posterior variance that is positive and at most the one of FULL curvature, which is at most the prior variance s/tau; parameters are uncorrelated under it; and its marginal_log_likelihood is at most the one of FULL. The variances of the linearised predictions have no such order: there are inputs where the diagonal one is larger and inputs where it is smaller.", "quantifier": "every model, data set, parameter vector, prior precision, noise, loss scaling and loss value", "why_tests_cant": "an inequality between two approximations for all inputs; tests compare each approximation with its own formula on a few examples", "anchors": ["laplax/api.py: laplace", "laplax/curv/full.py", "laplax/curv/diagonal.py", "laplax/curv/cov.py: set_posterior_fn", "laplax/eval/likelihood.py: marginal_log_likelihood"]}
{"id": "C72", "title": "The scores are proper: on average the true predictive distribution scores best", "statement": "Let the targets be random. On average over the targets, nll_gaussian (scaled or summed) is smallest exactly for the prediction with the true means and standard deviations, for all targets with finite second moments; crps_gaussian likewise for normal targets; rmse squared is the mean of variance plus squared bias, smallest exactly for the true means; chi_squared averages (variance + squared bias)/predicted variance and 1 for the truth; multiclass_brier (negated, larger is better) is largest exactly for the true label probabilities; top-k accuracy is largest for the true label probabilities, for every k. None of the calls raises.", "quantifier": "every joint distribution of the targets or labels (no independence assumed), every prediction, batch shape and number of classes", "why_tests_cant": "a statement about expectations under every distribution and a minimum over all predictions; tests evaluate a few numbers", "anchors": ["laplax/eval/metrics.py: nll_gaussian, crps_gaussian, chi_squared, estimate_rmse, multiclass_brier, accuracy"]}
{"id": "C73", "title": "Changing the units of the outputs converts the predictions and the scores", "statement": "For a regression with squared-error loss and FULL or DIAGONAL curvature: replacing the model output y by u*y+b (u > 0), the targets along with it, and sigma_squared by sigma_squared/u^2 leaves the posterior function of laplace unchanged and converts the predictions: means and samples like outputs, standard deviations by u, variances and covariances by u^2, linearised or sampled. rmse and CRPS are multiplied by u, chi_squared is unchanged, the negative log density grows by log u per entry. With sigma_squared unchanged and the prior precision multiplied by u^2 the reported variances do not change at all.", "quantifier": "every model, data set, factor u > 0, offset b, prior arguments, PRNG, list of pushforward functions and input", "why_tests_cant": "an equivariance under a continuous family of conversions for all models; tests use one scale", "anchors": ["laplax/api.py: laplace", "laplax/curv/ggn.py: _mse_hessian_mv, create_ggn_mv", "laplax/curv/full.py", "laplax/curv/diagonal.py", "laplax/eval/pushforward.py: set_lin_pushforward, set_nonlin_pushforward", "laplax/eval/metrics.py: estimate_rmse, chi_squared, nll_gaussian, crps_gaussian"]}
{"id": "C74", "title": "The Laplace posterior is Gaussian process regression with the tangent kernel", "statement": "After laplace with FULL curvature, set_posterior_gp_kernel(dense=True) returns, for every two inputs, the posterior covariance of the Gaussian process with kernel J(x)J(x')^T s/tau (J the Jacobian of the model in its parameters, tau the prior precision, s the loss scaling) conditioned on the training inputs: k(x,x') - k(x,X)(I + W k(X,X))^-1 W k(X,x') with W the loss Hessians at the training points; for mse this is the textbook formula k(x,x') - k(x,X)(k(X,X) + nu I)^-1 k(X,x') with noise variance nu = s*num_total/(2*sigma_squared*num_curv). The linearised predictive reports the model output as mean and this covariance in every statistic. For a model affine in its parameters, trained with mse and the prior of the prior arguments, the reported mean is also the textbook posterior mean of that Gaussian process.", "quantifier": "every model, data set, data layout, named loss, prior precision, noise, loss scaling and pair of inputs", "why_tests_cant": "an identity between an inverse in parameter space and an inverse in data space for all models and data; tests compare with one dense formula on one example", "anchors": ["laplax/api.py: laplace", "laplax/curv/full.py", "laplax/curv/cov.py: set_posterior_fn", "laplax/eval/pushforward.py: set_posterior_gp_kernel, set_lin_pushforward", "laplax/curv/ggn.py: create_ggn_mv"]}
{"id": "C75", "title": "Strong and weak priors: the limits of the predictive in the prior precision", "statement": "As a function of the prior precision tau > 0 the linearised predictive reports a constant mean and variances that are continuous, tend to 0 as tau grows and are then asymptotically those of the prior alone (tau*V_k -> |J_k|^2). As tau tends to 0 the variance of an output converges if every parameter direction with zero curvature leaves the output unchanged to first order - to z^T C z for any solution z of C z = J_k, hence J C^-1 J^T for an invertible curvature C - and otherwise grows without bound. As tau grows the class probabilities of mc_bridge and of the three mean-field types tend to the softmax of the network output, and for models continuous in the parameters so do those of the sampled predictive, whose mean tends to the network output and whose standard deviations tend to 0.", "quantifier": "every model, positive semidefinite curvature estimate of any type, noise weight, input, key and number of samples", "why_tests_cant": "limits over a continuous parameter; a test evaluates finitely many prior precisions", "anchors": ["laplax/api.py: _setup_pushforward, calibration, evaluation", "laplax/curv/cov.py: set_posterior_fn", "laplax/eval/pushforward.py: set_lin_pushforward, set_nonlin_pushforward", "laplax/eval/predictives.py"]}
{"id": "C76", "title": "How good the calibrated prior precision is", "statement": "grid_search with a patience of at least 1 returns the same candidate as without patience (the first best of all) whenever the scores fall and then rise; for every patience there are scores with two valleys where it stops early and returns a candidate that is not the best. Because the NLL, chi-squared and evidence scores are continuous in the prior precision, calibration without patience comes, for every tolerance, within that tolerance of the best score over all prior precisions between 10^min and 10^max (not only the grid points) once the grid is fine enough.", "quantifier": "every candidate list, objective and patience; every model, estimate, data set, interval of exponents and tolerance", "why_tests_cant": "a statement about all objectives and about a continuum of precisions; tests search one grid", "anchors": ["laplax/eval/calibrate.py: grid_search, optimize_prior_prec", "laplax/api.py: calibration"]}
{"id": "C77", "title": "Classification metrics on arrays of every shape", "statement": "correctness, accuracy, cross_entropy and multiclass_brier combine predictions and targets by numpy broadcasting without any shape check. correctness(pred, target) for predictions (*sh, c) and a target that is not 2-D succeeds exactly when the target's shape broadcasts against sh, and says at every position whether the first best class there is the label there; otherwise it raises. cross_entropy along any axis gives -sum p log q (0 log 0 = 0) per position of the other axes and raises for shapes that do not broadcast or axes out of range. accuracy and multiclass_brier on the documented shapes are C31 and C32. On other shapes they run and mean something else: integer labels as a column (n, 1) are ignored (correctness, and with it calibration by ECE, treats every sample as class 0); one label for n predictions gives 100 times the number of hits, more than 100 percent; with predictions (n, m, ..., c) accuracy cuts every rank k to the length m of the second axis, counts the hits of every inner position and divides by n, so it may exceed 100 percent and top-c may miss; multiclass_brier of one point and its one-hot vector does not depend on the class; column labels act as weights in multiclass_brier, and so does the class given as a single number with one prediction.", "quantifier": "every shape of predictions and targets, number of classes, ranks k, axis, real scores and labels", "why_tests_cant": "all combinations of shapes and all values; tests use one matching pair", "anchors": ["laplax/eval/metrics.py: correctness, accuracy, cross_entropy, multiclass_brier", "laplax/api.py: calibration"]}
{"id": "C78", "title": "Class probabilities of outputs with any number of axes", "statement": "For a model whose output has any number of axes, the class probabilities are computed position by position, along a fixed axis: mean_field_0 along the last axis, mean_field_1 and mc_pred_act (the averaged softmax of the samples) along the first output axis, in the linearised and the sampled predictive; each is a function of the reported pred_mean and pred_var (or of the samples) at that position only, and mean_field_0 and mc_pred_act are positive and sum to one along their axis. The axes disagree, so for outputs of shape (1, k) mc_pred_act and mean_field_1 are one for every class. mean_field_2 raises ValueError for linearised predictives with two or more output axes; sampled, it raises for (a, b) with a, b >= 2, returns 1/b for every class and every model on (1, b), and a table of shape (a, a) on (a, 1). The Laplace bridge on means and positive variances with two or more axes gives positive entries whose whole array sums to one. For single-number outputs all of them raise.", "quantifier": "every model and output shape, posterior, sample count, PRNG, input, list of functions requested before, mean and variance arrays", "why_tests_cant": "all shapes and positions; the tests use one vector of classes", "anchors": ["laplax/eval/predictives.py: laplace_bridge, mean_field_0_predictive, mean_field_1_predictive, mean_field_2_predictive", "laplax/eval/pushforward.py: lin_mc_pred_act, nonlin_mc_pred_act, special_pred_act"]}
{"id": "C79", "title": "How far a low-rank posterior is from the full one", "statement": "Fit the same model, data and loss with the full curvature and with a low-rank estimate that keeps exact eigenpairs of it (for example Lanczos on an invariant Krylov space), leaving out curvature of at most delta. Then the linearised predictives report the same mean at every input; the low-rank variances are at least the full ones and exceed them by at most (1/tau - 1/(tau + sigma_squared delta)) times the squared norm of the Jacobian row; the same holds for the weight variance in every direction, which is also at most the prior's; keeping more eigenpairs never increases a reported variance; and at prior precision 1 the marginal log-likelihood of the low-rank fit is at least that of the full fit. Ritz pairs that are not eigenpairs give no such guarantee: a Lanczos fit of rank 1 can report smaller variances than the full fit.", "quantifier": "every model, parameter tree, data set in any batching, named loss, low-rank driver returning eigenpairs, bound delta, prior arguments, input and direction", "why_tests_cant": "an inequality for all curvatures, ranks and inputs; tests compare a few entries up to a tolerance", "anchors": ["laplax/curv/lanczos.py: lanczos_lowrank", "laplax/curv/cov.py: low_rank_curvature_to_precision, low_rank_prec_to_cov", "laplax/api.py: laplace", "laplax/eval/pushforward.py: lin_pred_var", "laplax/eval/likelihood.py: marginal_log_likelihood"]}
{"id": "C80", "title": "The calibration errors under refinement, label noise and pooling", "statement": "For confidences in [0,1]: splitting every bin into the same number of bins never decreases the expected or the maximum calibration error, and with any number of bins the expected one is at most the mean absolute difference of correctness and confidence; changing the correctness of k of n samples changes the expected calibration error by at most k/n; the error of two data sets together is at most the average of their errors weighted by size, so averaging over batches never reports a smaller error; neither error depends on the order of the samples or on listing each of them equally often. For numbers of bins that do not divide each other there is no order: two samples that are as miscalibrated as can be have error 3/5 with two bins and 0 with three.", "quantifier": "every number of samples and bins, refinement factor, confidence and correctness vectors, permutation or equal duplication", "why_tests_cant": "inequalities between evaluations on all data sets; tests evaluate single arrays", "anchors": ["laplax/eval/metrics.py: calculate_bin_metrics, calibration_error, expected_calibration_error, maximum_calibration_error"]}
{"id": "C81", "title": "Fitting on a random part of the data never looks more certain on average", "statement": "Fit a Laplace approximation with dense or diagonal curvature on the first B of N data points in a uniformly random order, with any num_curv_samples and num_total_samples whose quotient is at most N/B. Then at every input and output the mean over all orders of the variance that the linearised predictive reports is at least the variance that the fit on all N points reports; the reported means agree.", "quantifier": "every network differentiable at the weights, built-in loss, data set, batch size, sample counts within the bound, prior arguments, input and output", "why_tests_cant": "an average over all N! orders of the data for every model and data set; a test sees a few batches", "anchors": ["laplax/api.py: laplace", "laplax/curv/ggn.py: create_ggn_mv", "laplax/eval/pushforward.py: set_lin_pushforward, lin_pred_mean, lin_pred_var"]}
{"id": "C82", "title": "What one more data point does to the reported uncertainty", "statement": "After laplace with FULL curvature: fitting on additional data points conditions the posterior Gaussian process that set_posterior_gp_kernel reports without them on exactly these points, k(x,x') - k(x,X)(I + W k(X,X))^-1 W k(X,x') with k the kernel reported before, X the additional inputs and W their loss Hessians; the variance of an output decreases by at most sigma_squared*num_curv/num_total times the squared reported covariances with the additional outputs (weighted by the loss Hessian), and not at all if these covariances are zero. At an input that occurs m times in the data every reported variance is below the noise variance num_total/(2*sigma_squared*num_curv) divided by m for mse, and below num_total/(sigma_squared*num_curv*q(1-q)) divided by m for binary cross-entropy with predicted probability q, whatever the prior precision.", "quantifier": "every model differentiable at the data, data set, additional points, named loss (bounds: mse and binary cross-entropy), prior arguments, loss scaling, pair of inputs and output", "why_tests_cant": "relates two fits on arbitrary data sets to a kernel reported by a third function; tests look at single fits", "anchors": ["laplax/api.py: laplace", "laplax/eval/pushforward.py: set_posterior_gp_kernel, lin_pred_var", "laplax/curv/ggn.py: create_ggn_mv, create_loss_hessian_mv", "laplax/curv/cov.py: set_posterior_fn"]}
{"id": "C83", "title": "Small changes of the curvature, the parameters or the input change the report little", "statement": "Two positive semidefinite curvature estimates of any kinds whose quadratic forms differ by at most eps on unit vectors lead to the same reported mean and to reported linearised variances that differ by at most sigma_squared*eps*||J_k||^2/prior_prec^2. For a model continuously differentiable in its parameters, a named loss and FULL or DIAGONAL curvature, the mean and the variances reported after laplace at the parameters theta are continuous functions of theta; they are continuous in the query input whenever the output and its Jacobian are.", "quantifier": "every pair of estimates, model, parameters, data set, loss, prior arguments and input", "why_tests_cant": "a bound for all perturbations and a limit statement; a test perturbs one value", "anchors": ["laplax/api.py: laplace", "laplax/curv/cov.py: set_posterior_fn", "laplax/curv/ggn.py: create_ggn_mv, create_loss_hessian_mv", "laplax/eval/pushforward.py: lin_pred_mean, lin_pred_var"]}
{"id": "C84", "title": "Other coordinates for the parameters change only the scale of the prior", "statement": "If the stored parameters are v with w = A v, where A A^T = c (rotation, reflection and change of scale), then with dense curvature on the same data the linearised predictive for prior_prec c*tau reports what the original one reports for tau, the weight covariance is the original one written in the new coordinates, the marginal likelihood is the same number, and fit-calibrate-evaluate with the grid moved by log10 c selects c times the prior precision and reports the same metrics. For a model whose outputs see all directions no other linear change of coordinates has this property for any new prior precision. With DIAGONAL curvature it fails: a model and a rotation with scaling exist for which the reported variance becomes larger.", "quantifier": "every model, data set, loss, similarity A, prior precision, sigma_squared, noise, loss scaling, input and grid", "why_tests_cant": "an equality of two whole runs for all models and coordinates, and an impossibility for all other coordinates", "anchors": ["laplax/api.py: laplace, calibration, evaluation, marginal likelihood objective", "laplax/curv/cov.py: set_posterior_fn", "laplax/eval/likelihood.py: marginal_log_likelihood", "laplax/eval/pushforward.py: lin_pred_mean, lin_pred_var"]}
