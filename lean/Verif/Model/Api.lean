import Verif.Model.Loader
import Verif.Model.EvalUtils

/-! # Model of `laplax/api.py` (argument handling and data routing)

Numerical work is delegated to parameters (`mv`, `predFn`, curvature algorithms); what is modelled is which batches they
see, in which order, and which requests are rejected. -/

namespace Laplax

/-- An argument of enum type as passed by a user: a member of the expected `StrEnum` class (given by its value), a string
(possibly a member of another `StrEnum`, which is a `str` too), or any object without `.lower`.
(the argument of api.py:192-218) -/
inductive EnumArg where
  | member (value : String)
  | str (s : String)
  | other
  deriving DecidableEq, Repr

/-- `_convert_to_enum` (api.py:192-218).  `values` are the values of the enum class, `lower` is python's `str.lower`
(external).  A returned string that is not a member is `EnumArg.str`. -/
def convertToEnum (lower : String → String) (values : List String) (strDefault : Bool) : EnumArg → Except Err EnumArg
  | .member v => .ok (.member v)
  | .str s => if lower s ∈ values then .ok (.member (lower s)) else if strDefault then .ok (.str s) else .error .valueError
  | .other => .error .attributeError

/-- enums.py:13-17 -/
def curvApproxValues : List String := ["full", "diagonal", "lanczos", "lobpcg"]
/-- enums.py:35-41 -/
def calibrationObjectiveValues : List String := ["nll", "chi_squared", "marginal_log_likelihood", "ece"]
/-- enums.py:44-47 -/
def calibrationMethodValues : List String := ["grid_search"]
/-- enums.py:50-54 -/
def pushforwardValues : List String := ["linear", "nonlinear"]
/-- enums.py:57-65 -/
def predictiveValues : List String :=
  ["mc_bridge", "laplace_bridge", "mean_field_0", "mean_field_1", "mean_field_2", "none"]
/-- enums.py:68-72 -/
def defaultMetricsValues : List String := ["classification", "regression"]
/-- `_SPECIAL_PREDICTIVES` (api.py:94-99) -/
def specialPredictives : List String := ["laplace_bridge", "mean_field_0", "mean_field_1", "mean_field_2"]

/-! ### Data objects -/

/-- Python objects a user may pass as `data`.  `iter` is any other iterable: a re-iterable container/DataLoader or a
one-shot iterator (see `Loader`); `other` is a non-iterable object. -/
inductive PyObj (A : Type) where
  | arr (a : A)
  | tup (xs : List (PyObj A))
  | lst (xs : List (PyObj A))
  | dct (kvs : List (String × PyObj A))
  | iter (l : Loader (PyObj A))
  | other

namespace PyObj
variable {A : Type}

/-- `isinstance(data, Iterable)`; arrays define `__iter__`.  (api.py:150-151) -/
def isIterable : PyObj A → Bool
  | other => false
  | _ => true

/-- `_is_data_loader` (api.py:150-151). -/
def isDataLoader (d : PyObj A) : Bool :=
  d.isIterable && (match d with
    | tup _ | lst _ | dct _ => false
    | _ => true)

/-- A full `for batch in data` loop: the batches seen and the object afterwards.  `rows` iterates an array along its
leading axis (raises for 0-d arrays).  A pass that is aborted by an exception is given the same final state.
(the loops util/loader.py:191-204, eval/utils.py:354) -/
def iterAll (rows : A → Except Err (List A)) : PyObj A → Except Err (List (PyObj A)) × PyObj A
  | arr a => ((do return (← rows a).map arr), arr a)
  | tup xs => (.ok xs, tup xs)
  | lst xs => (.ok xs, lst xs)
  | dct kvs => (.ok (kvs.map fun _ => other), dct kvs)
  | iter l => (.ok l.pending, iter l.exhausted)
  | other => (.error .typeError, other)

/-- `next(iter(data))`: the first element and the object afterwards.  (api.py:173, 957) -/
def next (rows : A → Except Err (List A)) : PyObj A → Except Err (PyObj A × PyObj A)
  | iter l => do
    let (b, l') ← l.peek
    return (b, iter l')
  | d => do
    let bs ← (d.iterAll rows).1
    match bs with
    | [] => .error .stopIteration
    | b :: _ => return (b, d)

/-- `d[k]` with a string key.  (api.py:140-144, util/loader.py:21-39) -/
def field (k : String) : PyObj A → Except Err (PyObj A)
  | dct kvs => Dict.getE kvs k
  | _ => .error .typeError

/-- `d[i]` with an integer index.  (util/loader.py:21-39) -/
def index (rows : A → Except Err (List A)) (i : Nat) : PyObj A → Except Err (PyObj A)
  | tup xs | lst xs => match xs[i]? with
    | some x => .ok x
    | none => .error .indexError
  | arr a => do
    let rs ← rows a
    match rs[i]? with
    | some x => .ok (arr x)
    | none => .error .indexError
  | dct _ => .error .keyError
  | _ => .error .typeError

/-- `input_target_split` (util/loader.py:21-33). -/
def inputTargetSplit (rows : A → Except Err (List A)) (b : PyObj A) : Except Err (PyObj A) := do
  let x ← b.index rows 0
  let y ← b.index rows 1
  return dct [("input", x), ("target", y)]

/-- `_validate_and_get_transform` (api.py:122-147). -/
def validateAndGetTransform (rows : A → Except Err (List A)) (b : PyObj A) :
    Except Err (PyObj A → Except Err (PyObj A)) :=
  match b with
  | tup xs | lst xs => if xs.length ≠ 2 then .error .valueError else .ok (inputTargetSplit rows)
  | dct kvs => if ¬ Dict.mem kvs "input" ∨ ¬ Dict.mem kvs "target" then .error .valueError else .ok (fun d => .ok d)
  | _ => .error .valueError

end PyObj

/-- The matrix-vector product returned by `_maybe_wrap_loader_or_batch`: `partial(mv_fn, data=…)` or a `DataLoaderMV`.
(api.py:154-189) -/
inductive Bound (A : Type) where
  | single (data : PyObj A)
  | stream (transform : PyObj A → Except Err (PyObj A))

section Laplace
variable {A V W S : Type}

/-- `_maybe_wrap_loader_or_batch` (api.py:154-189): the bound product and the data object afterwards (`next(iter(data))`
advances a one-shot iterator).  `loader_kwargs["reduce"]` is never set by the API, so the reduction is `reduce_add`. -/
def maybeWrap (rows : A → Except Err (List A)) (data : PyObj A) (transform : Option (PyObj A → Except Err (PyObj A))) :
    Except Err (Bound A × PyObj A) := do
  let (tr, data') ← match transform with
    | some tr => .ok (tr, data)
    | none =>
      if data.isDataLoader then do
        let (b, data') ← data.next rows
        let tr ← b.validateAndGetTransform rows
        pure (tr, data')
      else do
        let tr ← data.validateAndGetTransform rows
        pure (tr, data)
  match data' with
  | .tup _ | .dct _ => do
    let d ← tr data'
    return (.single d, data')
  | _ => return (.stream tr, data')

/-- The product on one (transformed) batch: reads `data["input"]`, `data["target"]` (curv/ggn.py:254-262). -/
def mvOnBatch (mv : V → PyObj A → PyObj A → Except Err W) (d : PyObj A) (v : V) : Except Err W := do
  let x ← d.field "input"
  let y ← d.field "target"
  mv v x y

/-- One use of the bound product: `g` is what is done with the per-batch product (`fun m => m v` for a call,
`to_dense`/`diagonal` for `lower_func`); over a stream the per-batch results are reduced (util/loader.py:305-352).
Second component: the data object afterwards. -/
def Bound.pass (rows : A → Except Err (List A)) (mv : V → PyObj A → PyObj A → Except Err W)
    (reduce : W → Option S → Except Err (W × S)) (g : (V → Except Err W) → Except Err W) :
    Bound A → PyObj A → Except Err W × PyObj A
  | .single d, data => (g (mvOnBatch mv d), data)
  | .stream tr, data =>
    let (bs, data') := data.iterAll rows
    ((do
      let bs ← bs
      processBatches (fun b => do
        let d ← tr b
        g (mvOnBatch mv d)) reduce bs), data')

/-- `GGN` (api.py:558-611) after the construction of the per-batch product `mv`: wraps, evaluates once at the parameters
and compares shapes. -/
def ggnApi (rows : A → Except Err (List A)) (mv : V → PyObj A → PyObj A → Except Err W)
    (reduce : W → Option S → Except Err (W × S)) (shapesMatch : W → Except Err Bool) (params : V) (data : PyObj A)
    (transform : Option (PyObj A → Except Err (PyObj A))) : Except Err (Bound A × PyObj A) := do
  let (b, data1) ← maybeWrap rows data transform
  let (r, data2) := b.pass rows mv reduce (fun m => m params) data1
  let test ← r
  if ← shapesMatch test then return (b, data2) else .error .valueError

/-- A curvature estimation algorithm: finitely many uses of the product, each of which may depend on earlier results,
then a result.  (`estimate_curvature`, api.py:691-696, for any method.) -/
inductive CurvAlg (V W R : Type) where
  | done (r : Except Err R)
  | pass (g : (V → Except Err W) → Except Err W) (k : W → CurvAlg V W R)

/-- Run a curvature algorithm on a bound product.  (api.py:658-690, applying the product of api.py:154-189) -/
def CurvAlg.run {R : Type} (rows : A → Except Err (List A)) (mv : V → PyObj A → PyObj A → Except Err W)
    (reduce : W → Option S → Except Err (W × S)) (b : Bound A) : CurvAlg V W R → PyObj A → Except Err R
  | .done r, _ => r
  | .pass g k, data =>
    let (r, data') := b.pass rows mv reduce g data
    match r with
    | .error e => .error e
    | .ok w => (k w).run rows mv reduce b data'

/-- `laplace` (api.py:614-706) up to the curvature estimate: enum conversion, scaling factor
`num_curv_samples / num_total_samples` (668; `ZeroDivisionError` for 0 total samples), GGN, curvature estimation. -/
def laplaceCurv {R K : Type} [Div K] [NatCast K] (lower : String → String) (rows : A → Except Err (List A))
    (mv : K → V → PyObj A → PyObj A → Except Err W) (reduce : W → Option S → Except Err (W × S))
    (shapesMatch : W → Except Err Bool) (params : V) (data : PyObj A) (curvType : EnumArg) (numCurv numTotal : Nat)
    (alg : EnumArg → CurvAlg V W R) : Except Err R := do
  let ct ← convertToEnum lower curvApproxValues false curvType
  if numTotal = 0 then .error .zeroDivisionError else do
  let factor : K := (numCurv : K) / (numTotal : K)
  let (b, data') ← ggnApi rows (mv factor) reduce shapesMatch params data none
  (alg ct).run rows (mv factor) reduce b data'

end Laplace

section Evaluation
variable {A X V W : Type}

/-- The data handling of `calibration` (api.py:826, 853): one batch, `(input, target)` as the objective sees it. -/
def calibrationBatch (rows : A → Except Err (List A)) (data : PyObj A) : Except Err (PyObj A × PyObj A) := do
  let tr ← data.validateAndGetTransform rows
  let d ← tr data
  return (← d.field "input", ← d.field "target")

/-- The data handling of `evaluation` (api.py:947-975).  `points x y` is the list of data points `lax.map` iterates over,
`batch x y` the batch handed to the (vmapped) predictive; `tt` is the python value `True` of the stray keyword
`has_batch=True` (api.py:965). -/
def evaluationData (rows : A → Except Err (List A)) (predFn : X → Except Err (Dict V)) (metrics : List (StepFn V))
    (points : PyObj A → PyObj A → Except Err (List (X × V))) (batch : PyObj A → PyObj A → Except Err (X × V))
    (concatenate reduce : List V → Except Err W) (tt : V) (data : PyObj A) : Except Err (Dict W) := do
  if data.isDataLoader then do
    let (b, data') ← data.next rows
    let tr ← b.validateAndGetTransform rows
    let bs ← (data'.iterAll rows).1
    (evaluateMetricsOnGenerator predFn bs (fun b => do
      let d ← tr b
      batch (← d.field "input") (← d.field "target")) (some metrics) none concatenate [("has_batch", tt)]).1
  else do
    let tr ← data.validateAndGetTransform rows
    let d ← tr data
    let ps ← points (← d.field "input") (← d.field "target")
    (evaluateMetricsOnDataset predFn ps (some metrics) none reduce []).1

end Evaluation

/-! ### Dispatch tables -/

/-- Pushforward steps selected by `_setup_pushforward`.  (api.py:234-291) -/
inductive PfName where
  | linSetup | linPredMean | linPredStd | linMcPredAct | linSpecialPredAct (special : String)
  | nonlinSetup | nonlinPredMean | nonlinPredStd | nonlinMcPredAct
  | getPredAct | custom (n : Nat)
  deriving DecidableEq, Repr

/-- Which pushforward constructor is returned.  (api.py:234-291) -/
inductive PfKind where
  | lin | nonlin
  deriving DecidableEq, Repr

/-- `_setup_pushforward` (api.py:234-291). -/
def setupPushforward (lower : String → String) (pushforward predictive : EnumArg) (fns : Option (List PfName)) :
    Except Err (PfKind × List PfName) := do
  let pf ← convertToEnum lower pushforwardValues false pushforward
  let pr ← convertToEnum lower predictiveValues false predictive
  let fns := fns.getD []
  if pf = .member "linear" then
    if fns.isEmpty then
      let base := [PfName.linSetup, .linPredMean, .linPredStd]
      if pr = .member "mc_bridge" then return (.lin, base ++ [.linMcPredAct, .getPredAct])
      else match pr with
        | .member p =>
          if p ∈ specialPredictives then return (.lin, base ++ [.linSpecialPredAct p, .getPredAct])
          else if p ≠ "none" then .error .valueError
          else return (.lin, base)
        | _ => .error .valueError
    else return (.lin, fns)
  else if pf = .member "nonlinear" then
    if fns.isEmpty then
      let base := [PfName.nonlinSetup, .nonlinPredMean, .nonlinPredStd]
      if pr = .member "mc_bridge" then return (.nonlin, base ++ [.nonlinMcPredAct])
      else match pr with
        | .member p => if p ∈ specialPredictives then .error .valueError else return (.nonlin, base)
        | _ => return (.nonlin, base)
    else return (.nonlin, fns)
  else .error .valueError

/-- `get_pred_act` (api.py:221-231); generic in the auxiliary data and the keyword arguments, which it does not read. -/
def getPredAct {V A K : Type} (results : Dict V) (aux : A) (_kwargs : K) : Except Err (Dict V × A) :=
  let r1 := match results.get? "mc_pred_act" with
    | some v => results.set "pred_act" v
    | none => results
  let r2 := match r1.get? "special_pred_act" with
    | some v => r1.set "pred_act" v
    | none => r1
  .ok (r2, aux)

/-- Which calibration objective `_build_calibration_objective` builds.  (api.py:412-487) -/
inductive Objective where
  | nll (isClassification : Bool) | chi2 | mll | ece
  deriving DecidableEq, Repr

/-- `_build_calibration_objective` (api.py:412-487): decision logic.  The booleans say whether the corresponding
argument is `None`. -/
def buildCalibrationObjective (lower : String → String) (objective : EnumArg)
    (curvEstimateNone modelFnNone paramsNone curvTypeNone vmapNone isClassification : Bool) : Except Err Objective := do
  let o ← convertToEnum lower calibrationObjectiveValues false objective
  if o = .member "marginal_log_likelihood" ∧
      (curvEstimateNone || modelFnNone || paramsNone || curvTypeNone || vmapNone) then .error .valueError
  else if modelFnNone || curvTypeNone then .error .valueError
  else if isClassification ∧ o = .member "chi_squared" then .error .valueError
  else if ¬ isClassification ∧ o = .member "ece" then .error .valueError
  else if o = .member "nll" then return .nll isClassification
  else if o = .member "chi_squared" then return .chi2
  else if o = .member "marginal_log_likelihood" then return .mll
  else if o = .member "ece" then return .ece
  else .error .valueError

/-- A `metrics` argument.  (the `metrics` argument of api.py:490-555) -/
inductive MetricsArg (F : Type) where
  | enum (e : EnumArg)
  | callable (f : F)
  | list (fs : List F)
  | other

/-- `_resolve_metrics` (api.py:490-550).  A `DefaultMetrics` member is a `str`, so it goes through `_convert_to_enum`
too (line 507-508).  (`EnumArg.other` is not representable by the guard `isinstance(metrics, str)`; it falls through to
the final `ValueError`.) -/
def resolveMetrics {F : Type} (lower : String → String) (regression classification : List F) :
    MetricsArg F → Except Err (List F)
  | .enum .other => .error .valueError
  | .enum e => do
    let m ← convertToEnum lower defaultMetricsValues false e
    if m = .member "regression" then return regression
    else if m = .member "classification" then return classification
    else .error .valueError
  | .callable f => .ok [f]
  | .list [] => .error .valueError
  | .list fs => .ok fs
  | .other => .error .valueError

end Laplax
