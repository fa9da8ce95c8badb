import Verif.Model.ApiCalibration

/-! # The arguments `curv_type` and `vmap_over_data` of `calibration` (laplax/api.py:709-866)

`Verif.Model.ApiCalibration` models `calibration` with `vmap_over_data=True` and a `curv_type` that belongs to the estimate.  Here the
same function takes both arguments. -/

namespace Laplax
open scoped BigOperators

variable {X K A : Type} {p : ℕ}

/-- The key with which the tables are read: `CurvApprox` members hash and compare like their values; other (hashable) objects are in
no table.  There is no conversion to the enum here, unlike in `laplace`.  (eval/likelihood.py:303, 309) -/
def curvKey : EnumArg → Option String
  | .member v => some v
  | .str s => some s
  | .other => none

/-- `CURVATURE_PRECISION_METHODS[curv_type](curv_estimate, …)` (eval/likelihood.py:303-307, curv/full.py:60-83,
curv/diagonal.py:40-66, curv/low_rank.py:120-148) followed by the log determinant of
`CURVATURE_MARGINAL_LOG_LIKELIHOOD[curv_type]` (eval/likelihood.py:128, 182, 237-240), for any combination of type and estimate.
* A dense formula on a vector `d`: `d + prior_prec * eye` broadcasts to the matrix with all rows `d`, plus the prior.
* A diagonal formula on a matrix: the logarithms of all its entries are added up (entries that are not positive: `nan`/`inf`, not
  modelled).
* Arithmetic on a `LowRankTerms` object raises `TypeError`; unpacking an array as low-rank terms raises `ValueError`. -/
noncomputable def logDetBy (curvType : EnumArg) (e : CurvEstimate p) (a : PriorArgs) : Except Err ℝ :=
  match curvKey curvType with
  | none => .error .keyError
  | some key =>
    if key = "full" then
      match e with
      | .full C => do
        let prec ← fullCurvatureToPrecision C a 1
        return Real.log |prec.det|
      | .diagonal d => do
        let prec ← fullCurvatureToPrecision (Matrix.of fun _ j => d j) a 1
        return Real.log |prec.det|
      | .lowRank _ => do
        let _ ← a.getPriorPrec
        .error .typeError
    else if key = "diagonal" then
      match e with
      | .full C => do
        let prec ← mapE (fun i => diagonalCurvatureToPrecision (C i) a 1) (List.ofFn fun i : Fin p => i)
        if ∀ row ∈ prec, ∀ j, 0 < row j then return (prec.map fun row => ∑ j, Real.log (row j)).sum else .error .unmodelled
      | .diagonal d => do
        let prec ← diagonalCurvatureToPrecision d a 1
        return ∑ i, Real.log (prec i)
      | .lowRank _ => do
        let _ ← a.getPriorPrec
        .error .typeError
    else if key = "lanczos" ∨ key = "lobpcg" then
      match e with
      | .lowRank (r := r) t => do
        let prec ← lowRankCurvatureToPrecision t a 1
        return (r : ℝ) * Real.log prec.scalar + ∑ k, Real.log (1 + prec.scalar * prec.S k)
      | _ => do
        let _ ← a.getPriorPrec
        .error .valueError
    else .error .keyError

/-- `marginal_log_likelihood` (eval/likelihood.py:259-317) for any `curv_type`; `fullFn` is the closure of
`concatenate_model_and_loss_fn`. -/
noncomputable def mllBy (curvType : EnumArg) (e : CurvEstimate p) (a : MllArgs) (fullFn : PyTree ℝ → Except Err ℝ)
    (params : PyTree ℝ) : Except Err ℝ := do
  let logDet ← logDetBy curvType e a.toPriorArgs
  let ll ← jointLogLikelihood fullFn a params
  return lmlOf ll logDet (getSize params)

/-- What `concatenate_model_and_loss_fn` (curv/utils.py:128-199) computes on the calibration batch: a number (`inl`) or an array of
which only the number of entries matters (`inr`). -/
abbrev BatchLossFn := (PyTree ℝ → Except Err ℝ) ⊕ (PyTree ℝ → Except Err ℕ)

/-- `concatenate_model_and_loss_fn` (curv/utils.py:128-199) on a whole batch, given how the stacked outputs are obtained.  Callables
get outputs and targets of shape `(B, *output)`; other shapes are not modelled. -/
noncomputable def batchLossFn (sh : List ℕ) (loss : (B : ℕ) → HessLossArg B (shapeSize sh)) (data : List (X × Arr ℝ))
    (outputs : PyTree ℝ → Except Err (Arr ℝ)) : Except Err BatchLossFn :=
  match loss data.length with
  | .name s =>
    if s = "mse" then .ok (.inl fun t => do
        let m ← outputs t
        let y ← stackOf (data.map (·.2))
        mseLossArr m y)
    else if s = "cross_entropy" then .ok (.inr fun t => do
        let m ← outputs t
        let y ← stackOf (data.map (·.2))
        let l ← ceLossArr m y
        return l.data.length)
    else .error .valueError
  | .callable ℓ => .ok (.inl fun t => do
      let m ← outputs t
      let y ← stackOf (data.map (·.2))
      if m.shape = data.length :: sh ∧ y.shape = data.length :: sh then
        return ℓ (rowsOf m data.length (shapeSize sh)) (rowsOf y data.length (shapeSize sh))
      else .error .unmodelled)
  | .other => .error .valueError

/-- The stacked outputs: `jax.vmap(model_fn)(input, params)` or `model_fn(input, params)` on the stacked inputs (curv/utils.py:168-169).
`bnet` is the model called once on all inputs of the batch. -/
def batchOutputs (vmapOverData : Bool) (net : Net X p) (bnet : List X → PyTree ℝ → Except Err (Arr ℝ)) (data : List (X × Arr ℝ))
    (t : PyTree ℝ) : Except Err (Arr ℝ) :=
  match vmapOverData with
  | true => do
    let ms ← mapE (fun dp : X × Arr ℝ => net.call dp.1 t) data
    stackOf ms
  | false => bnet (data.map (·.1)) t

/-- `_make_mll_objective` (api.py:377-411) for any `curv_type` and both values of `vmap_over_data`; the loss function is built first
(eval/likelihood.py:297-301), then the tables are read.  An array with one entry is not modelled. -/
noncomputable def mllObjectiveWith (curvType : EnumArg) (vmapOverData : Bool) (net : Net X p)
    (bnet : List X → PyTree ℝ → Except Err (Arr ℝ)) (params : PyTree ℝ) (loss : (B : ℕ) → HessLossArg B (shapeSize net.shape))
    (e : CurvEstimate p) (data : List (X × Arr ℝ)) (prior : PriorArgs) : ObjRes (WithTop ℝ) :=
  match batchLossFn net.shape loss data (batchOutputs vmapOverData net bnet data) with
  | .error err => .raises err
  | .ok (.inl f) => toObjRes (do
      let l ← mllBy curvType e { toPriorArgs := prior, sigma := none } f params
      return -l)
  | .ok (.inr f) =>
    match logDetBy curvType e prior, f params with
    | .error err, _ => .raises err
    | .ok _, .error err => .raises err
    | .ok _, .ok n => if 1 < n then .array else .raises .unmodelled

/-- The arguments of `calibration` that concern the evidence only (api.py:718, 725). -/
structure CalibrationOptions where
  curvType : EnumArg
  vmapOverData : Bool := true

/-- The objective functions of api.py:302-411; all but the marginal likelihood ignore `curv_type` and `vmap_over_data`. -/
noncomputable def objectiveFnWith (opts : CalibrationOptions) (bnet : List X → PyTree ℝ → Except Err (Arr ℝ))
    (a : PredictiveArgs X K p) (setProbPredictive : PriorArgs → X → Except Err (Dict (Arr ℝ)))
    (loss : (B : ℕ) → HessLossArg B (shapeSize a.net.shape)) (e : CurvEstimate p) :
    Objective → List (X × Arr ℝ) → PriorArgs → ObjRes (WithTop ℝ)
  | .nll cls, data, prior =>
      toObjRes (evaluateForGivenPriorArguments data setProbPredictive (if cls then nllClassificationMetric else nllMetric) prior)
  | .chi2, data, prior => toObjRes (evaluateForGivenPriorArguments data setProbPredictive chi2Metric prior)
  | .ece, data, prior => toObjRes (evaluateForGivenPriorArguments data setProbPredictive eceMetric prior)
  | .mll, data, prior => mllObjectiveWith opts.curvType opts.vmapOverData a.net bnet a.params loss e data prior

/-- `calibration` (api.py:709-866) with its arguments `curv_type` and `vmap_over_data`.  `bnet` is the model called on all inputs of a
batch. -/
noncomputable def calibrationWith (opts : CalibrationOptions) (bnet : List X → PyTree ℝ → Except Err (Arr ℝ))
    (lower : String → String) (rows : A → Except Err (List A))
    (points : PyObj A → PyObj A → Except Err (List (X × Arr ℝ))) (a : PredictiveArgs X K p) (data : PyObj A)
    (loss : (B : ℕ) → HessLossArg B (shapeSize a.net.shape)) (e : CurvEstimate p) (predictive pushforward : EnumArg)
    (fns : Option (List PfName)) (objective method : EnumArg) (options : Dict (CalMethod (PyObj A) (WithTop ℝ))) (kw : GridKwargs) :
    Except Err (PriorArgs × (PriorArgs → X → Except Err (Dict (Arr ℝ))) × List ℝ) := do
  let pf ← setupPushforward lower pushforward predictive fns
  let setProbPredictive := setPushforward a pf.1 pf.2
  let o ← buildCalibrationObjective lower objective false false false false false (isClassification predictive)
  let objectiveFn := onBatch points (objectiveFnWith opts bnet a setProbPredictive loss e o)
  let m ← convertToEnum lower calibrationMethodValues true method
  if m = .member "grid_search" then do
    let tr ← data.validateAndGetTransform rows
    let d ← tr data
    let (priorPrec, tried) ← optimizePriorPrec (fun q => objectiveFn ⟨some q, none⟩ d) (kw.logPriorPrecMin.getD (-3))
      (kw.logPriorPrecMax.getD 3) (kw.gridSize.getD 50) kw.patience none
    return (⟨some priorPrec, none⟩, setProbPredictive, tried)
  else match m with
    | .str s => match options.get? s with
      | some f => do
        let tr ← data.validateAndGetTransform rows
        let d ← tr data
        let r ← f objectiveFn d
        return (r, setProbPredictive, [])
      | none => .error .valueError
    | _ => .error .valueError

end Laplax
