import Verif.Model.ApiPredictive
import Verif.Model.Calibrate
import Verif.Model.Likelihood
import Verif.Model.Metrics
import Verif.Model.Ggn
import Verif.Model.Broadcast

/-! # Model of `calibration` (laplax/api.py:294-487, 709-866) and `evaluate_for_given_prior_arguments`
(laplax/eval/calibrate.py:26-66)

Real arithmetic.  Integer arrays (class labels) are real arrays with integer entries. -/

namespace Laplax
open scoped BigOperators

variable {X K A : Type} {p : ℕ}

/-! ### Objectives -/

/-- External: `jax.lax.map` stacks the result dictionaries of the data points key by key (the keys are those of the first; the
shapes of no data point at all come from tracing, not modelled). -/
def stackDicts : List (Dict (Arr ℝ)) → Except Err (Dict (Arr ℝ))
  | [] => .error .unmodelled
  | d :: ds => mapE (fun k => do
      let vs ← mapE (fun d => Dict.getE d k) (d :: ds)
      let s ← stackOf vs
      return (k, s)) d.keys

/-- `evaluate_for_given_prior_arguments` (eval/calibrate.py:26-66). -/
def evaluateForGivenPriorArguments (data : List (X × Arr ℝ)) (setProbPredictive : PriorArgs → X → Except Err (Dict (Arr ℝ)))
    (metric : Dict (Arr ℝ) → Except Err ℝ) (prior : PriorArgs) : Except Err ℝ := do
  let rs ← mapE (fun dp : X × Arr ℝ => do
    let r ← setProbPredictive prior dp.1
    return r.set "target" dp.2) data
  let d ← stackDicts rs
  metric d

/-- A required keyword argument of a metric; `TypeError` if missing.  (python keyword calls, eval/calibrate.py:56-65) -/
def kwArg (d : Dict (Arr ℝ)) (k : String) : Except Err (Arr ℝ) :=
  match d.get? k with
  | some v => .ok v
  | none => .error .typeError

/-- An array as shape and entries.  (external: reading an array) -/
def Arr.toNd (a : Arr ℝ) : NdArr := ⟨a.shape, fun i => a.data.getD i.val 0⟩

/-- External: `jax.nn.one_hot(a, num_classes=c)`: a new trailing axis. -/
noncomputable def oneHotArr (c : ℕ) (a : Arr ℝ) : Arr ℝ :=
  ⟨a.shape ++ [c], a.data.flatMap (fun x => List.ofFn (fun k : Fin c => if x = (k.val : ℝ) then (1 : ℝ) else 0))⟩

/-- External: `a.shape[-1]`. -/
def lastDim (a : Arr ℝ) : Except Err ℕ :=
  match a.shape.getLast? with
  | some c => .ok c
  | none => .error .indexError

/-- `nll_gaussian(**predictions)` (eval/metrics.py:420-472). -/
noncomputable def nllMetric (d : Dict (Arr ℝ)) : Except Err ℝ := do
  let m ← kwArg d "pred_mean"
  let s ← kwArg d "pred_std"
  let t ← kwArg d "target"
  nllGaussian m.toNd s.toNd t.toNd

/-- `nll_gaussian_classification(**predictions)` (api.py:294-299). -/
noncomputable def nllClassificationMetric (d : Dict (Arr ℝ)) : Except Err ℝ := do
  let m ← kwArg d "pred_mean"
  let s ← kwArg d "pred_std"
  let t ← kwArg d "target"
  let c ← lastDim m
  nllGaussian m.toNd s.toNd (oneHotArr c t).toNd

/-- External: `jnp.mean(a)` of all entries. -/
noncomputable def meanArr (a : Arr ℝ) : ℝ := a.data.sum / (a.data.length : ℝ)

/-- `chi_squared(pred_mean, pred_std, target)` (eval/metrics.py:330-331) on arrays of any shapes:
`jnp.mean(jnp.power(pred_mean - target, 2) / jnp.power(pred_std, 2))` with numpy broadcasting. -/
noncomputable def chiSquaredArr (m s t : Arr ℝ) : Except Err ℝ := do
  let d ← Arr.bcast2 (fun x y => x - y) m t
  let v ← Arr.bcast2 (fun x y => x ^ 2 / y ^ 2) d s
  return meanArr v

/-- `estimate_rmse(pred_mean, target)` (eval/metrics.py:368) on arrays of any shapes, with numpy broadcasting. -/
noncomputable def estimateRmseArr (m t : Arr ℝ) : Except Err ℝ := do
  let d ← Arr.bcast2 (fun x y => (x - y) ^ 2) m t
  return Real.sqrt (meanArr d)

/-- `chi_squared_zero(**predictions)` (eval/metrics.py:334-347); the second case is numpy broadcasting. -/
noncomputable def chi2Metric (d : Dict (Arr ℝ)) : Except Err ℝ := do
  let m ← kwArg d "pred_mean"
  let s ← kwArg d "pred_std"
  let t ← kwArg d "target"
  if m.shape = s.shape ∧ s.shape = t.shape then
    return chiSquaredZero (fun i : Fin (shapeSize m.shape) => m.data.getD i.val 0) (fun i => s.data.getD i.val 0)
      (fun i => t.data.getD i.val 0)
  else do
    let c ← chiSquaredArr m s t
    return |c - 1|

/-- The rows of a 2-D array.  (external) -/
def rowsOf (a : Arr ℝ) (n c : ℕ) : Fin n → Vec c := fun i k => a.data.getD (i.val * c + k.val) 0

/-- An entry of a target array as a class label (`-1`, which is no class, if it is not an integer: the comparison with an
integer class index is then false).  (the comparison at eval/metrics.py:72) -/
noncomputable def asLabel (x : ℝ) : ℤ := if (⌊x⌋ : ℝ) = x then ⌊x⌋ else -1

/-- The stacked targets as an argument of `correctness` (eval/metrics.py:69): 1-D labels or 2-D rows; rows with another number of columns than
the predictions are reduced to labels by `argmax` like the others (a column of labels becomes a vector of zeros). -/
noncomputable def asTarget (n c : ℕ) (t : Arr ℝ) : Except Err (Target n c) :=
  if t.shape = [n] then .ok (.labels fun i => asLabel (t.data.getD i.val 0))
  else if t.shape = [n, c] then .ok (.rows (rowsOf t n c))
  else match t.shape with
    | [n', m] =>
      if n' ≠ n then .error .unmodelled
      else if m = 0 then .error .valueError
      else .ok (.labels fun i => ((jnpArgmax (rowsOf t n m i)).map fun k => (k.val : ℤ)).getD 0)
    | _ => .error .unmodelled

/-- External: `jnp.max(a, axis=-1)` of a 2-D array. -/
noncomputable def rowMax (n c : ℕ) (z : Fin n → Vec c) : Except Err (Vec n) :=
  if h : 0 < c then .ok (fun i => Finset.univ.sup' ⟨⟨0, h⟩, Finset.mem_univ _⟩ (z i)) else .error .valueError

/-- The metric `ece` of `_make_ece_objective` (api.py:357-367): 15 bins, confidences from `pred_act`, correctness from `map`. -/
noncomputable def eceMetric (d : Dict (Arr ℝ)) : Except Err ℝ := do
  let m ← kwArg d "map"
  let a ← kwArg d "pred_act"
  let t ← kwArg d "target"
  match m.shape, a.shape with
  | [n, c], [n', c'] =>
    if n = n' then do
      let conf ← rowMax n c' (rowsOf a n c')
      let tg ← asTarget n c t
      let corr ← correctness (rowsOf m n c) tg
      expectedCalibrationError conf (fun i => if corr i then 1 else 0) 15
    else .error .unmodelled
  | _, _ => .error .unmodelled

/-- The target of one data point for the training loss, when it has the shape of the output.  (curv/utils.py:160-199) -/
def lossTarget (sh : List ℕ) (t : Arr ℝ) : Except Err (Vec (shapeSize sh)) :=
  if t.shape = sh then asVec (shapeSize sh) (.leaf t) else .error .unmodelled

/-- What an objective call gives the grid search: a number, or an exception.  (eval/calibrate.py:99-107) -/
def toObjRes : Except Err ℝ → ObjRes (WithTop ℝ)
  | .ok r => .num r
  | .error e => .raises e

/-- `jnp.sum((model_fn(input, params) - target) ** 2)` (curv/utils.py:171-178) on arrays of any shapes, with numpy broadcasting. -/
noncomputable def mseLossArr (m t : Arr ℝ) : Except Err ℝ := do
  let d ← Arr.bcast2 (fun x y => (x - y) ^ 2) m t
  return d.data.sum

/-- `log_sigmoid_cross_entropy(model_fn(input, params), target)` (curv/utils.py:123-125, 180-187) on arrays of any shapes, with numpy
broadcasting: an array. -/
noncomputable def ceLossArr (m t : Arr ℝ) : Except Err (Arr ℝ) := Arr.bcast2 logSigmoidCrossEntropy m t

/-- The outputs of the model for the inputs of the batch, stacked (`jax.vmap` in curv/utils.py:168-169), and the stacked targets. -/
def stackedOutputs (net : Net X p) (data : List (X × Arr ℝ)) (t : PyTree ℝ) : Except Err (Arr ℝ × Arr ℝ) := do
  let ms ← mapE (fun dp : X × Arr ℝ => net.call dp.1 t) data
  let m ← stackOf ms
  let y ← stackOf (data.map (·.2))
  return (m, y)

/-- `_make_mll_objective` (api.py:377-411) when the targets do not have the shape of the outputs (curv/utils.py:168-199: the stacked
outputs and the stacked targets broadcast).  With `"cross_entropy"` the objective returns an array (a single entry: not modelled).
Callables: not modelled here. -/
noncomputable def mllBroadcast (net : Net X p) (params : PyTree ℝ) (loss : (B : ℕ) → HessLossArg B (shapeSize net.shape))
    (e : CurvEstimate p) (data : List (X × Arr ℝ)) (prior : PriorArgs) : ObjRes (WithTop ℝ) :=
  match loss data.length with
  | .name s =>
    if s = "mse" then toObjRes (do
        let l ← marginalLogLikelihood e { toPriorArgs := prior, sigma := none } (.ok fun t => do
          let my ← stackedOutputs net data t
          mseLossArr my.1 my.2) params
        return -l)
    else if s = "cross_entropy" then
      match (do let my ← stackedOutputs net data params; ceLossArr my.1 my.2) with
      | .error err => .raises err
      | .ok d => if 1 < d.data.length then .array else .raises .unmodelled
    else .raises .valueError
  | .callable _ => .raises .unmodelled
  | .other => .raises .valueError

/-- `_make_mll_objective` (api.py:377-411): `-marginal_log_likelihood(...)`.  A loss that returns one value per output entry makes
the objective return an array (a single entry: not modelled). -/
noncomputable def mllObjective (net : Net X p) (params : PyTree ℝ) (loss : (B : ℕ) → HessLossArg B (shapeSize net.shape))
    (e : CurvEstimate p) (data : List (X × Arr ℝ)) (prior : PriorArgs) : ObjRes (WithTop ℝ) :=
  match mapE (fun dp : X × Arr ℝ => do
      let t ← lossTarget net.shape dp.2
      return (dp.1, t)) data with
  | .error _ => mllBroadcast net params loss e data prior
  | .ok pts =>
    match concatenateModelAndLossFn net.fn (loss pts.length) with
    | .error err => .raises err
    | .ok (.array _) => if 1 < pts.length * shapeSize net.shape then .array else .raises .unmodelled
    | .ok (.scalar f) => toObjRes (do
        let l ← marginalLogLikelihood e { toPriorArgs := prior, sigma := none } (.ok fun t => do
          let θ ← asParams p t
          return f (fun i : Fin pts.length => pts[i]) θ) params
        return -l)

/-- The objective functions of api.py:302-411 on the data points of the calibration batch. -/
noncomputable def objectiveFn (a : PredictiveArgs X K p) (setProbPredictive : PriorArgs → X → Except Err (Dict (Arr ℝ)))
    (loss : (B : ℕ) → HessLossArg B (shapeSize a.net.shape)) (e : CurvEstimate p) :
    Objective → List (X × Arr ℝ) → PriorArgs → ObjRes (WithTop ℝ)
  | .nll cls, data, prior =>
      toObjRes (evaluateForGivenPriorArguments data setProbPredictive (if cls then nllClassificationMetric else nllMetric) prior)
  | .chi2, data, prior => toObjRes (evaluateForGivenPriorArguments data setProbPredictive chi2Metric prior)
  | .ece, data, prior => toObjRes (evaluateForGivenPriorArguments data setProbPredictive eceMetric prior)
  | .mll, data, prior => mllObjective a.net a.params loss e data prior

/-! ### `calibration` -/

/-- `predictive_type != Predictive.NONE` (api.py:778): `StrEnum` members compare like their values. -/
def isClassification : EnumArg → Bool
  | .member v => v != "none"
  | .str s => s != "none"
  | .other => true

/-- The keyword arguments of `calibration` (api.py:816-822): the first four are read for the grid search; `max_iterations`, which
`grid_search` understands, stands for the keywords that are accepted and not passed on (842-848). -/
structure GridKwargs where
  logPriorPrecMin : Option ℝ := none
  logPriorPrecMax : Option ℝ := none
  gridSize : Option ℕ := none
  patience : Option Int := none
  maxIterations : Option Int := none

/-- A registered calibration method: it gets the objective (a function of prior arguments and batch) and the batch
(api.py:852-862). -/
abbrev CalMethod (D R : Type) := (PriorArgs → D → ObjRes R) → D → Except Err PriorArgs

/-- The points of the calibration batch for the objectives: `jax.lax.map` over `data["input"]`, `data["target"]`; `points` is the
external unstacking of the leading axes.  (eval/calibrate.py:53-65) -/
def batchPoints (points : PyObj A → PyObj A → Except Err (List (X × Arr ℝ))) (d : PyObj A) : Except Err (List (X × Arr ℝ)) := do
  let x ← d.field "input"
  let y ← d.field "target"
  points x y

/-- An objective on the transformed batch; exceptions while reading it are raised inside the objective.  (api.py:836-837) -/
def onBatch (points : PyObj A → PyObj A → Except Err (List (X × Arr ℝ))) (f : List (X × Arr ℝ) → PriorArgs → ObjRes (WithTop ℝ))
    (prior : PriorArgs) (d : PyObj A) : ObjRes (WithTop ℝ) :=
  match batchPoints points d with
  | .ok pts => f pts prior
  | .error e => .raises e

/-- `calibration` (api.py:709-866); `jit` only controls compilation.  `options` is `calibration_options` without the built-in
`grid_search` (which re-registering could replace; not modelled).  The arguments `curv_estimate`, `model_fn`, `params`,
`curv_type` are given (not `None`).  Returns the prior arguments, the predictive setter and, for the grid search, the list of
prior precisions tried. -/
noncomputable def calibration (lower : String → String) (rows : A → Except Err (List A))
    (points : PyObj A → PyObj A → Except Err (List (X × Arr ℝ))) (a : PredictiveArgs X K p) (data : PyObj A)
    (loss : (B : ℕ) → HessLossArg B (shapeSize a.net.shape)) (e : CurvEstimate p) (predictive pushforward : EnumArg)
    (fns : Option (List PfName)) (objective method : EnumArg) (options : Dict (CalMethod (PyObj A) (WithTop ℝ))) (kw : GridKwargs) :
    Except Err (PriorArgs × (PriorArgs → X → Except Err (Dict (Arr ℝ))) × List ℝ) := do
  let pf ← setupPushforward lower pushforward predictive fns
  let setProbPredictive := setPushforward a pf.1 pf.2
  let o ← buildCalibrationObjective lower objective false false false false false (isClassification predictive)
  let objectiveFn := onBatch points (objectiveFn a setProbPredictive loss e o)
  let m ← convertToEnum lower calibrationMethodValues true method
  if m = .member "grid_search" then do
    let tr ← data.validateAndGetTransform rows
    let d ← tr data
    let (priorPrec, tried) ← optimizePriorPrec (fun q => objectiveFn ⟨some q, none⟩ d) (kw.logPriorPrecMin.getD (-3))
      (kw.logPriorPrecMax.getD 3) (kw.gridSize.getD 50) kw.patience none
    return (⟨some priorPrec, none⟩, setProbPredictive, tried)
  else match m with
    | .str s => match options.get? s with
      | some f => do
        let tr ← data.validateAndGetTransform rows
        let d ← tr data
        let r ← f objectiveFn d
        return (r, setProbPredictive, [])
      | none => .error .valueError
    | _ => .error .valueError

end Laplax
