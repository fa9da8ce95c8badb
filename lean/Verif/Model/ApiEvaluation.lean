import Verif.Model.ApiCalibration
import Verif.Model.MetricsArr

/-! # Model of `evaluation` (laplax/api.py:490-550, 869-977) with the default metrics (laplax/eval/metrics.py:475-493)

Real arithmetic.  Metrics are evaluated data point by data point (`lax.map` over a batch, `vmap` over the batches of a loader), so
their arguments have no batch axis here. -/

namespace Laplax
open scoped BigOperators

variable {X K A : Type} {p : ℕ}

/-! ### The default metrics on one data point -/

/-- A number as array without axes.  (external) -/
def scalarArr (r : ℝ) : Arr ℝ := ⟨[], [r]⟩

/-- `estimate_rmse(**kwargs)` (eval/metrics.py:350-368); the second case is numpy broadcasting. -/
noncomputable def rmseKw : KwFn (Arr ℝ) := fun d => do
  let m ← kwArg d "pred_mean"
  let t ← kwArg d "target"
  if m.shape = t.shape then
    return scalarArr (estimateRmse (fun i : Fin (shapeSize m.shape) => m.data.getD i.val 0) (fun i => t.data.getD i.val 0))
  else do
    let r ← estimateRmseArr m t
    return scalarArr r

/-- `chi_squared(**kwargs)` (eval/metrics.py:299-331); the second case is numpy broadcasting. -/
noncomputable def chi2Kw : KwFn (Arr ℝ) := fun d => do
  let m ← kwArg d "pred_mean"
  let s ← kwArg d "pred_std"
  let t ← kwArg d "target"
  if m.shape = s.shape ∧ s.shape = t.shape then
    return scalarArr (chiSquared (fun i : Fin (shapeSize m.shape) => m.data.getD i.val 0) (fun i => s.data.getD i.val 0)
      (fun i => t.data.getD i.val 0))
  else do
    let r ← chiSquaredArr m s t
    return scalarArr r

/-- `nll_gaussian(**kwargs)` (eval/metrics.py:420-472). -/
noncomputable def nllKw : KwFn (Arr ℝ) := fun d => do
  let m ← kwArg d "pred_mean"
  let s ← kwArg d "pred_std"
  let t ← kwArg d "target"
  let r ← nllGaussian m.toNd s.toNd t.toNd
  return scalarArr r

/-- `crps_gaussian(**kwargs)` (eval/metrics.py:371-417). -/
noncomputable def crpsKw : KwFn (Arr ℝ) := fun d => do
  let m ← kwArg d "pred_mean"
  let s ← kwArg d "pred_std"
  let t ← kwArg d "target"
  let r ← crpsGaussian m.toNd s.toNd t.toNd
  return scalarArr r

/-- `DEFAULT_REGRESSION_METRICS` (eval/metrics.py:481-493). -/
noncomputable def defaultRegressionMetrics : List (StepFn (Arr ℝ)) :=
  [applyFns [(rmseKw, "estimate_rmse"), (chi2Kw, "chi_squared"), (nllKw, "nll_gaussian"), (crpsKw, "crps_gaussian")]
    (some ["rmse", "chi^2", "nll", "crps"]) "results"
    [("pred_mean", "pred_mean"), ("pred_std", "pred_std"), ("target", "target")]]

/-- A python function without `**kwargs`: unexpected keyword arguments raise `TypeError`.  (python calls, api.py:531-535) -/
def strictKw (params : List String) (f : KwFn (Arr ℝ)) : KwFn (Arr ℝ) := fun d =>
  if d.keys.any (fun k => !params.contains k) then .error .typeError else f d

/-- `lambda map, **kwargs: jnp.max(jax.nn.softmax(map, axis=-1), axis=-1)` (api.py:515-516). -/
noncomputable def confidenceMapKw : KwFn (Arr ℝ) := fun d => do
  let m ← kwArg d "map"
  reduceLast (fun z => maxNum (softmax z)) m

/-- `lambda pred_act, **kwargs: jnp.max(pred_act, axis=-1)` (api.py:517-518). -/
noncomputable def confidencePredKw : KwFn (Arr ℝ) := fun d => do
  let m ← kwArg d "pred_act"
  reduceLast maxNum m

/-- `correctness(pred, target) * 1` (api.py:519-522, eval/metrics.py:48-72) on one data point: arrays without the batch axis. -/
noncomputable def correctnessKw (key : String) : KwFn (Arr ℝ) := fun d => do
  let m ← kwArg d key
  let t ← kwArg d "target"
  let r ← correctnessArr m t
  return ⟨r.shape, r.data.map fun x => if x then 1 else 0⟩

/-- `lambda pred_mean, pred_std, target: nll_gaussian(...)` (api.py:531-535). -/
noncomputable def nllOneHotKw : KwFn (Arr ℝ) :=
  strictKw ["pred_mean", "pred_std", "target"] fun d => do
    let r ← nllClassificationMetric d
    return scalarArr r

/-- The default classification metrics of `_resolve_metrics` (api.py:513-538). -/
noncomputable def defaultClassificationMetrics : List (StepFn (Arr ℝ)) :=
  [applyFns [(confidenceMapKw, "<lambda>"), (confidencePredKw, "<lambda>"), (correctnessKw "map", "<lambda>"),
      (correctnessKw "pred_mean", "<lambda>")]
    (some ["confidences_map", "confidences_pred", "correctness_map", "correctness_pred"]) "results" [],
   applyFns [(nllOneHotKw, "<lambda>")] (some ["nll_gaussian"]) "results" []]

/-! ### Batches -/

/-- External: `jnp.concatenate(arrays)` along the leading axis: `ValueError` for an empty list or a scalar, `TypeError` for
different trailing shapes. -/
def concatAll : List (Arr ℝ) → Except Err (Arr ℝ)
  | [] => .error .valueError
  | a :: as => as.foldlM concatAxis0 a

/-- `jax.vmap(evaluate_data)` on one batch of a loader (eval/utils.py:344-351): one result per data point, stacked key by key. -/
def evaluateBatch (predFn : X → Except Err (Dict (Arr ℝ))) (metrics : List (StepFn (Arr ℝ))) (kwargs : Dict (Arr ℝ))
    (pts : List (X × Arr ℝ)) : Except Err (Dict (Arr ℝ)) := do
  let rs ← mapE (evaluatePoint predFn metrics kwargs) pts
  stackDicts rs

/-- `evaluate_metrics_on_generator` with `vmap_over_data=True` (eval/utils.py:289-367) on a non-empty list of batches or none. -/
def evaluateOnBatches {D : Type} (predFn : X → Except Err (Dict (Arr ℝ))) (metrics : List (StepFn (Arr ℝ)))
    (transform : D → Except Err (List (X × Arr ℝ))) (reduce : List (Arr ℝ) → Except Err (Arr ℝ)) (kwargs : Dict (Arr ℝ))
    (batches : List D) : Except Err (Dict (Arr ℝ)) := do
  let rs ← mapE (fun b => do
    let pts ← transform b
    evaluateBatch predFn metrics kwargs pts) batches
  match rs with
  | [] => .ok []
  | r :: _ => reduceMetrics reduce rs r.keys

/-- The metrics of `evaluation` (api.py:947-975) for a given predictive and list of metrics; `tt` is the python value `True` of the
stray keyword `has_batch=True` (api.py:965). -/
def evaluationMetrics (rows : A → Except Err (List A)) (points : PyObj A → PyObj A → Except Err (List (X × Arr ℝ)))
    (predFn : X → Except Err (Dict (Arr ℝ))) (metrics : List (StepFn (Arr ℝ))) (reduce : Arr ℝ → Except Err (Arr ℝ)) (tt : Arr ℝ)
    (data : PyObj A) : Except Err (Dict (Arr ℝ)) :=
  if data.isDataLoader then do
    let (b, data') ← data.next rows
    let tr ← b.validateAndGetTransform rows
    let bs ← (data'.iterAll rows).1
    evaluateOnBatches predFn metrics (fun b => do
      let d ← tr b
      batchPoints points d) concatAll [("has_batch", tt)] bs
  else do
    let tr ← data.validateAndGetTransform rows
    let d ← tr data
    let pts ← batchPoints points d
    (evaluateMetricsOnDataset predFn pts (some metrics) none (fun vs => do
      let s ← stackOf vs
      reduce s) []).1

/-- `evaluation` (api.py:869-977); `predictive_jit` only controls compilation.  Returns the metrics and the predictive.
Simplification: exceptions of `posterior_fn` appear when the predictive is called, not when it is built. -/
noncomputable def evaluation (lower : String → String) (rows : A → Except Err (List A))
    (points : PyObj A → PyObj A → Except Err (List (X × Arr ℝ))) (a : PredictiveArgs X K p) (prior : PriorArgs) (data : PyObj A)
    (metrics : MetricsArg (StepFn (Arr ℝ))) (predictive pushforward : EnumArg) (fns : Option (List PfName))
    (reduce : Arr ℝ → Except Err (Arr ℝ)) (tt : Arr ℝ) :
    Except Err (Dict (Arr ℝ) × (X → Except Err (Dict (Arr ℝ)))) := do
  let ms ← resolveMetrics lower defaultRegressionMetrics defaultClassificationMetrics metrics
  let pf ← setupPushforward lower pushforward predictive fns
  let probPredictive := setPushforward a pf.1 pf.2 prior
  let results ← evaluationMetrics rows points probPredictive ms reduce tt data
  return (results, probPredictive)

end Laplax
