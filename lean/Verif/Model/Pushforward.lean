import Verif.Model.Posterior
import Verif.Model.Predictives
import Verif.Model.EvalUtils
import Mathlib.Analysis.Calculus.FDeriv.Pi

/-! # Model of `laplax/eval/pushforward.py`

Parameters are arbitrary pytrees, outputs arrays of arbitrary shape (`Arr ℝ`), results the dictionary `Dict (Arr ℝ)` of the
code.  Real arithmetic: `x / 0 = 0` where JAX gives inf/NaN (sample covariance of a single sample). -/

namespace Laplax
open scoped BigOperators

variable {X K : Type} {p : ℕ}

/-! ### External array functions -/

/-- External: all entries of a parameter pytree in flattening order as a vector (JAX functions of a pytree of parameters are
functions of its entries); a pytree with the wrong number of entries makes the model raise. -/
def asParams (p : ℕ) (t : PyTree ℝ) : Except Err (Vec p) :=
  if h : ((t.leaves.map Arr.data).flatten).length = p then
    .ok (fun i => ((t.leaves.map Arr.data).flatten)[i.val]'(by omega))
  else .error .typeError

/-- An array of the given shape with the given entries.  (external: array construction in eval/pushforward.py) -/
def outArr (sh : List ℕ) (y : Vec (shapeSize sh)) : Arr ℝ := ⟨sh, List.ofFn y⟩

/-- External: the `j`-th column of an array of shape `(S, …)` viewed as a matrix with `S` rows of `size` entries. -/
def colAxis0 (a : Arr ℝ) (S size j : ℕ) : List ℝ := (List.range S).map (fun i => a.data.getD (i * size + j) 0)

/-- External: mean of a list of numbers. -/
noncomputable def listMean (xs : List ℝ) : ℝ := xs.sum / (xs.length : ℝ)

/-- External: `Σ (x - mean x)(y - mean y) / (n - ddof)`. -/
noncomputable def listCov (xs ys : List ℝ) (ddof : ℝ) : ℝ :=
  (List.zipWith (fun x y => (x - listMean xs) * (y - listMean ys)) xs ys).sum / ((xs.length : ℝ) - ddof)

/-- External: `jnp.mean(a, axis=0)`. -/
noncomputable def meanAxis0 (a : Arr ℝ) : Except Err (Arr ℝ) :=
  match a.shape with
  | [] => .error .valueError
  | S :: sh => .ok ⟨sh, (List.range (shapeSize sh)).map (fun j => listMean (colAxis0 a S (shapeSize sh) j))⟩

/-- External: `jnp.var(a, axis=0)` (`ddof = 0`). -/
noncomputable def varAxis0 (a : Arr ℝ) : Except Err (Arr ℝ) :=
  match a.shape with
  | [] => .error .valueError
  | S :: sh => .ok ⟨sh, (List.range (shapeSize sh)).map (fun j =>
      listCov (colAxis0 a S (shapeSize sh) j) (colAxis0 a S (shapeSize sh) j) 0)⟩

/-- External: `jnp.std(a, axis=0)` (`ddof = 0`). -/
noncomputable def stdAxis0 (a : Arr ℝ) : Except Err (Arr ℝ) := do
  let v ← varAxis0 a
  return v.map1 Real.sqrt

/-- External: `jnp.cov(a.reshape(a.shape[0], -1), rowvar=False)` (`ddof = 1`); a single variable gives a 0-D array. -/
noncomputable def covAxis0 (a : Arr ℝ) : Except Err (Arr ℝ) :=
  match a.shape with
  | [] => .error .indexError
  | S :: sh =>
    let n := shapeSize sh
    let m := ((List.range n).map (fun j => (List.range n).map (fun k => listCov (colAxis0 a S n j) (colAxis0 a S n k) 1))).flatten
    .ok (if n = 1 then ⟨[], m⟩ else ⟨[n, n], m⟩)

/-- External: `jnp.mean(jax.nn.softmax(a, axis=1), axis=0)`: the softmax is taken along the first axis behind the sample axis; `ValueError` if there is
none. -/
noncomputable def meanSoftmaxAxis1 (a : Arr ℝ) : Except Err (Arr ℝ) :=
  match a.shape with
  | S :: c :: rest => .ok ⟨c :: rest, (List.ofFn fun k : Fin c => List.ofFn fun r : Fin (shapeSize rest) =>
      listMean ((List.range S).map fun i =>
        softmax (fun j : Fin c => a.data.getD ((i * c + j.val) * shapeSize rest + r.val) 0) k)).flatten⟩
  | _ => .error .valueError

/-- External: `jnp.diag(v)`, flattened: 1-D gives the diagonal matrix, 2-D the diagonal, anything else `ValueError`. -/
def jnpDiag (v : Arr ℝ) : Except Err (List ℝ) :=
  match v.shape with
  | [n] => .ok ((List.range n).map (fun i => (List.range n).map (fun j => if i = j then v.data.getD i 0 else 0))).flatten
  | [m, n] => diagonal (.dense (chunks n m v.data)) .none
  | _ => .error .valueError

/-- A function of arrays as a function of one-leaf pytrees.  (types.py:23: an array is a one-leaf pytree) -/
def onLeaf (f : Arr ℝ → Except Err (Arr ℝ)) (t : PyTree ℝ) : Except Err (PyTree ℝ) :=
  match t with
  | .leaf a => do
    let r ← f a
    return .leaf r
  | .node _ _ => .error .typeError

/-- The array of a one-leaf pytree.  (types.py:23) -/
def asArr : PyTree ℝ → Except Err (Arr ℝ)
  | .leaf a => .ok a
  | .node _ _ => .error .unmodelled

/-! ### Models and derivative products -/

/-- A user model: outputs of a fixed shape, a function of the input and the parameter entries. -/
structure Net (X : Type) (p : ℕ) where
  shape : List ℕ
  fn : X → Vec p → Vec (shapeSize shape)

/-- `model_fn(input=x, params=t)`. -/
def Net.call (net : Net X p) (x : X) (t : PyTree ℝ) : Except Err (Arr ℝ) := do
  let θ ← asParams p t
  return outArr net.shape (net.fn x θ)

/-- External PRNG: `jax.random.key(0)`, `jax.random.split`, `jax.random.normal`. -/
structure Prng (K : Type) where
  key0 : K
  split : K → ℕ → List K
  normal : K → List ℕ → Arr ℝ

/-- The keyword arguments read by the pushforward functions (a key that is absent and one that is present with value `None` are
not distinguished).  (the `**kwargs` of eval/pushforward.py:221-776) -/
structure PfKwargs (K : Type) where
  key : Option K := none
  numSamples : Option ℕ := none
  setGetWeightSamplePrecompute : Option Bool := none
  precompute : Option Bool := none
  precomputeListBatchSize : Option ℕ := none
  linSamplesBatchSize : Option ℕ := none
  nonlinSetupBatchSize : Option ℕ := none
  weightBatchSize : Option ℕ := none
  specialPredType : Option String := none
  useCorrection : Option Bool := none

/-- The dictionary built by `get_dist_state` (eval/pushforward.py:176-213). `vjp` returns the first component of the tuple. -/
structure DistState (X : Type) (p : ℕ) where
  posterior : Posterior p
  numSamples : ℕ
  vjp : Option (X → Arr ℝ → Except Err (PyTree ℝ))
  jvp : Option (X → PyTree ℝ → Except Err (Arr ℝ))
  getWeightSamples : Option (ℕ → Except Err (PyTree ℝ))

/-- `d[key]` for an optional entry.  (python `dict`) -/
def entryE {A : Type} : Option A → Except Err A
  | some a => .ok a
  | none => .error .keyError

/-- `set_get_weight_sample` (eval/pushforward.py:47-89).  `precompute` is passed twice to `precompute_list` when the caller's
keyword arguments contain it. -/
def setGetWeightSample (rng : Prng K) (key : Option K) (mean : PyTree ℝ) (scaleMv : PyTree ℝ → Except Err (PyTree ℝ))
    (numSamples : ℕ) (kw : PfKwargs K) : Except Err (ℕ → Except Err (PyTree ℝ)) :=
  let keys := rng.split (key.getD rng.key0) numSamples
  let getWeightSample : ℕ → Except Err (PyTree ℝ) := fun idx => do
    let k ← jaxGet keys idx
    normalLike rng.split rng.normal k mean scaleMv
  if kw.precompute.isSome then .error .typeError
  else precomputeList getWeightSample (List.range numSamples) (kw.setGetWeightSamplePrecompute <|> kw.precompute)
    kw.precomputeListBatchSize

/-- `pf_jvp` (eval/pushforward.py:183-188); `jax.jvp` is the directional derivative. -/
noncomputable def pfJvp (net : Net X p) (mean : PyTree ℝ) (x : X) (vector : PyTree ℝ) : Except Err (Arr ℝ) := do
  let θ ← asParams p mean
  let v ← asParams p vector
  return outArr net.shape (fderiv ℝ (net.fn x) θ v)

/-- `pf_vjp` (eval/pushforward.py:190-194): `vjp_fun(vector.reshape(out.shape))[0]`, a pytree like the parameters. -/
noncomputable def pfVjp (net : Net X p) (mean : PyTree ℝ) (x : X) (vector : Arr ℝ) : Except Err (PyTree ℝ) := do
  let θ ← asParams p mean
  let w ← reshape vector.data net.shape
  let w ← asParams (shapeSize net.shape) (.leaf w)
  unflattenLike mean (List.ofFn (fun j => ∑ k, fderiv ℝ (net.fn x) θ (Pi.single j 1) k * w k))

/-- One-argument call of a python callable. -/
def call1 (g : List (PyTree ℝ) → Except Err (PyTree ℝ)) (t : PyTree ℝ) : Except Err (PyTree ℝ) := g [t]

/-- The `get_weight_samples` entry of `get_dist_state` (eval/pushforward.py:197-211): absent for `num_samples = 0`; the samples are
centred at zero if linearized and at the parameters otherwise. -/
def weightSampleEntry (rng : Prng K) (mean : PyTree ℝ) (post : Posterior p) (linearized : Bool) (numSamples : ℕ) (key : Option K)
    (kw : PfKwargs K) : Except Err (Option (ℕ → Except Err (PyTree ℝ))) :=
  if numSamples > 0 then do
    let weightSampleMean ← weightSampleMean linearized mean
    let scaleMv ← post.scaleMv post.state
    let g ← setGetWeightSample rng key weightSampleMean (call1 scaleMv) numSamples kw
    return some g
  else .ok none
where
  /-- `util.tree.zeros_like(mean_params) if linearized else mean_params` (eval/pushforward.py:198-200). -/
  weightSampleMean (linearized : Bool) (mean : PyTree ℝ) : Except Err (PyTree ℝ) :=
    if linearized then zerosLike mean else .ok mean

/-- `get_dist_state` (eval/pushforward.py:145-213). -/
noncomputable def getDistState (rng : Prng K) (mean : PyTree ℝ) (net : Net X p) (post : Posterior p) (linearized : Bool)
    (numSamples : ℕ) (key : Option K) (kw : PfKwargs K) : Except Err (DistState X p) := do
  let gws ← weightSampleEntry rng mean post linearized numSamples key kw
  return {
    posterior := post
    numSamples := numSamples
    vjp := if linearized then some (pfVjp net mean) else none
    jvp := if linearized then some (pfJvp net mean) else none
    getWeightSamples := gws }

/-! ### Steps -/

/-- The `aux` dictionary (eval/pushforward.py:810): `model_fn`, `mean_params` and the entries the setup functions add. -/
structure PfAux (X : Type) where
  modelFn : X → PyTree ℝ → Except Err (Arr ℝ)
  meanParams : PyTree ℝ
  predEnsemble : Option (Arr ℝ) := none
  covMv : Option (Arr ℝ → Except Err (Arr ℝ)) := none
  jacMv : Option (PyTree ℝ → Except Err (Arr ℝ)) := none

/-- The keyword arguments every step receives (eval/pushforward.py:814-821). -/
structure PfCtx (X K : Type) (p : ℕ) where
  input : X
  distState : DistState X p
  kw : PfKwargs K

/-- A pushforward function `fn(results, aux, **kwargs)`.  (eval/pushforward.py:221-776) -/
abbrev PfStep (X K : Type) (p : ℕ) := Dict (Arr ℝ) → PfAux X → PfCtx X K p → Except Err (Dict (Arr ℝ) × PfAux X)

/-- `if "key" not in results: results, aux = step(results, aux, **kwargs)`.
(eval/pushforward.py:105, 116, 127, 438, 600, 633, 659, 691, 754) -/
def ensureKey (key : String) (step : PfStep X K p) : PfStep X K p := fun results aux ctx =>
  if results.mem key then .ok (results, aux) else step results aux ctx

/-- External: stack equally shaped arrays along a new leading axis (none at all: the shape comes from tracing, not modelled). -/
def stackOf : List (Arr ℝ) → Except Err (Arr ℝ)
  | [] => .error .unmodelled
  | y :: ys => .ok (stackArr y.shape (y :: ys))

/-- External: `jax.lax.map(f, jnp.arange(n), batch_size=b)` for array-valued `f`, stacked. -/
def laxMapArr (batch : Option ℕ) (f : ℕ → Except Err (Arr ℝ)) (n : ℕ) : Except Err (Arr ℝ) := do
  let ys ← laxMap batch f (List.range n)
  stackOf ys

/-- `nonlin_setup` (eval/pushforward.py:221-258).  `lax.map` traces its function even for zero samples, so a missing
`get_weight_samples` raises in every case. -/
def nonlinSetup : PfStep X K p := fun results aux ctx => do
  let get ← entryE ctx.distState.getWeightSamples
  let ens ← laxMapArr (ctx.kw.nonlinSetupBatchSize <|> ctx.kw.weightBatchSize)
    (fun idx => do
      let w ← get idx
      aux.modelFn ctx.input w) ctx.distState.numSamples
  return (results, { aux with predEnsemble := some ens })

/-- `nonlin_pred_mean` (eval/pushforward.py:261-281). -/
noncomputable def nonlinPredMean : PfStep X K p := fun results aux _ => do
  let ens ← entryE aux.predEnsemble
  let m ← meanAxis0 ens
  return (results.set "pred_mean" m, aux)

/-- `nonlin_pred_cov` (eval/pushforward.py:284-306). -/
noncomputable def nonlinPredCov : PfStep X K p := fun results aux _ => do
  let ens ← entryE aux.predEnsemble
  let c ← covAxis0 ens
  return (results.set "pred_cov" c, aux)

/-- `jnp.diagonal(pred_cov) if pred_cov.ndim >= 2 else jnp.reshape(pred_cov, (-1,))` (eval/pushforward.py:329-333). -/
def nonlinDiag (c : Arr ℝ) : Except Err (List ℝ) :=
  match c.shape with
  | [] => .ok c.data
  | [_] => .ok c.data
  | [m, n] => diagonal (.dense (chunks n m c.data)) .none
  | _ => .error .unmodelled

/-- `nonlin_pred_var` (eval/pushforward.py:309-339). -/
noncomputable def nonlinPredVar : PfStep X K p := fun results aux _ =>
  match results.get? "pred_cov" with
  | some c => do
    let d ← nonlinDiag c
    let ens ← entryE aux.predEnsemble
    let v ← reshape d (ens.shape.drop 1)
    return (results.set "pred_var" v, aux)
  | none => do
    let ens ← entryE aux.predEnsemble
    let v ← varAxis0 ens
    return (results.set "pred_var" v, aux)

/-- `nonlin_pred_std` (eval/pushforward.py:342-365). -/
noncomputable def nonlinPredStd : PfStep X K p := fun results aux _ =>
  match results.get? "pred_var" with
  | some v => .ok (results.set "pred_std" (v.map1 Real.sqrt), aux)
  | none => do
    let ens ← entryE aux.predEnsemble
    let s ← stdAxis0 ens
    return (results.set "pred_std" s, aux)

/-- `nonlin_samples` (eval/pushforward.py:368-391): `num_samples: int = 5`. -/
def nonlinSamples : PfStep X K p := fun results aux ctx => do
  let ens ← entryE aux.predEnsemble
  let s ← Arr.slice 0 (ctx.kw.numSamples.getD 5) ens
  return (results.set "samples" s, aux)

/-- `nonlin_mc_pred_act` (eval/pushforward.py:421-445). -/
noncomputable def nonlinMcPredAct : PfStep X K p := fun results aux ctx => do
  let (results, aux) ← ensureKey "samples" nonlinSamples results aux ctx
  let s ← results.getE "samples"
  let m ← meanSoftmaxAxis1 s
  return (results.set "mc_pred_act" m, aux)

/-- `set_output_mv` (eval/pushforward.py:462-496), then stored by `lin_setup` (499-550). The two `isinstance` checks on the
products cannot fail here (typed). -/
def linSetup : PfStep X K p := fun results aux ctx => do
  let jvp ← entryE ctx.distState.jvp
  let vjp ← entryE ctx.distState.vjp
  let post := ctx.distState.posterior
  let covMv ← post.covMv post.state
  let outputCovMv : Arr ℝ → Except Err (Arr ℝ) := fun vec => do
    let u ← vjp ctx.input vec
    let w ← covMv [u]
    jvp ctx.input w
  return (results, { aux with covMv := some outputCovMv, jacMv := some (jvp ctx.input) })

/-- `lin_pred_mean` (eval/pushforward.py:553-577). -/
def linPredMean : PfStep X K p := fun results aux _ => do
  let m ← results.getE "map"
  return (results.set "pred_mean" m, aux)

/-- The call `util.mv.diagonal(cov, layout=size)` in `lin_pred_var` (eval/pushforward.py:605-609): `cov` is the dense `pred_cov` if
present, the output covariance product otherwise. -/
noncomputable def linDiag (cov : Option (Arr ℝ)) (covMv : Arr ℝ → Except Err (Arr ℝ)) (size : ℕ) : Except Err (List ℝ) :=
  match cov with
  | some c => jnpDiag c
  | none => diagonal (.callable (onLeaf covMv)) (.int size)

/-- `lin_pred_var` (eval/pushforward.py:580-612); `aux["cov_mv"]` is evaluated even when `pred_cov` is present. -/
noncomputable def linPredVar : PfStep X K p := fun results aux ctx => do
  let covMv ← entryE aux.covMv
  let cov := results.get? "pred_cov"
  let (results, aux) ← ensureKey "pred_mean" linPredMean results aux ctx
  let predMean ← results.getE "pred_mean"
  let d ← linDiag cov covMv (shapeSize predMean.shape)
  let v ← reshape d predMean.shape
  return (results.set "pred_var" v, aux)

/-- `lin_pred_std` (eval/pushforward.py:615-638). -/
noncomputable def linPredStd : PfStep X K p := fun results aux ctx => do
  let (results, aux) ← ensureKey "pred_var" linPredVar results aux ctx
  let v ← results.getE "pred_var"
  return (results.set "pred_std" (v.map1 Real.sqrt), aux)

/-- `lin_pred_cov` (eval/pushforward.py:641-666). -/
noncomputable def linPredCov : PfStep X K p := fun results aux ctx => do
  let (results, aux) ← ensureKey "pred_mean" linPredMean results aux ctx
  let predMean ← results.getE "pred_mean"
  let covMv ← entryE aux.covMv
  let c ← toDense (onLeaf covMv) (.tree (.leaf predMean))
  let c ← asArr c
  return (results.set "pred_cov" c, aux)

/-- `lin_samples` (eval/pushforward.py:669-707). -/
def linSamples : PfStep X K p := fun results aux ctx => do
  let (results, aux) ← ensureKey "pred_mean" linPredMean results aux ctx
  let jacMv ← entryE aux.jacMv
  let get ← entryE ctx.distState.getWeightSamples
  let predMean ← results.getE "pred_mean"
  let s ← laxMapArr (ctx.kw.linSamplesBatchSize <|> ctx.kw.weightBatchSize)
    (fun i => do
      let w ← get i
      let j ← jacMv w
      Arr.zipWith (· + ·) predMean j) ctx.distState.numSamples
  return (results.set "samples" s, aux)

/-- `lin_mc_pred_act` (eval/pushforward.py:737-761). -/
noncomputable def linMcPredAct : PfStep X K p := fun results aux ctx => do
  let (results, aux) ← ensureKey "samples" linSamples results aux ctx
  let s ← results.getE "samples"
  let m ← meanSoftmaxAxis1 s
  return (results.set "mc_pred_act" m, aux)

/-- The `var_pred_dict` entries (eval/pushforward.py:98-102, 122-124). -/
noncomputable def varPredFn (useCorrection : Bool) (kind : String) : Option (Arr ℝ → Arr ℝ → Except Err (Arr ℝ)) :=
  if kind = "laplace_bridge" then some fun m v => laplaceBridgeArr m v useCorrection
  else if kind = "mean_field_0" then some meanField0Arr
  else if kind = "mean_field_1" then some meanField1Arr
  else none

/-- The `cov_pred_dict` entry (eval/pushforward.py:103, 126). -/
noncomputable def covPredFn (kind : String) (m c : Arr ℝ) : Except Err (Arr ℝ) :=
  if kind = "mean_field_2" then meanField2Arr m c else .error .keyError

/-- `special_pred_act` (eval/pushforward.py:92-137); the variance fallback is `lin_pred_var` even when not linearized.  For an
unknown type `cov_pred_dict[...]` raises before anything is computed. -/
noncomputable def specialPredAct (linearized : Bool) : PfStep X K p := fun results aux ctx => do
  let (results, aux) ← ensureKey "pred_mean" (if linearized then linPredMean else nonlinPredMean) results aux ctx
  let predMean ← results.getE "pred_mean"
  let kind := ctx.kw.specialPredType.getD "mean_field_0"
  match varPredFn (ctx.kw.useCorrection.getD true) kind with
  | some f => do
    let (results, aux) ← ensureKey "pred_var" linPredVar results aux ctx
    let predVar ← results.getE "pred_var"
    let pred ← f predMean predVar
    return (results.set "special_pred_act" pred, aux)
  | none =>
    if kind = "mean_field_2" then do
      let (results, aux) ← ensureKey "pred_cov" (if linearized then linPredCov else nonlinPredCov) results aux ctx
      let predCov ← results.getE "pred_cov"
      let pred ← covPredFn kind predMean predCov
      return (results.set "special_pred_act" pred, aux)
    else .error .keyError

/-- The linearized pushforward functions of the module.  (eval/pushforward.py:499-776) -/
inductive LinFn where
  | setup | predMean | predVar | predStd | predCov | samples | mcPredAct | specialPredAct
  deriving DecidableEq, Repr

/-- The function a name stands for.  (eval/pushforward.py:499-776) -/
noncomputable def LinFn.step : LinFn → PfStep X K p
  | .setup => linSetup
  | .predMean => linPredMean
  | .predVar => linPredVar
  | .predStd => linPredStd
  | .predCov => linPredCov
  | .samples => linSamples
  | .mcPredAct => linMcPredAct
  | .specialPredAct => Laplax.specialPredAct true

/-- `DEFAULT_LIN_FINALIZE_FNS` (eval/pushforward.py:764-771). -/
def defaultLinFns : List LinFn := [.setup, .predMean, .predCov, .predVar, .predStd, .samples]

/-- The ensemble pushforward functions of the module.  (eval/pushforward.py:221-455) -/
inductive NonlinFn where
  | setup | predMean | predCov | predVar | predStd | samples | mcPredAct | specialPredAct
  deriving DecidableEq, Repr

/-- The function a name stands for.  (eval/pushforward.py:221-455) -/
noncomputable def NonlinFn.step : NonlinFn → PfStep X K p
  | .setup => nonlinSetup
  | .predMean => nonlinPredMean
  | .predCov => nonlinPredCov
  | .predVar => nonlinPredVar
  | .predStd => nonlinPredStd
  | .samples => nonlinSamples
  | .mcPredAct => nonlinMcPredAct
  | .specialPredAct => Laplax.specialPredAct false

/-- `DEFAULT_NONLIN_FINALIZE_FNS` (eval/pushforward.py:448-455). -/
def defaultNonlinFns : List NonlinFn := [.setup, .predMean, .predCov, .predVar, .predStd, .samples]

/-! ### Entry points -/

/-- `set_prob_predictive(...)(input)` (eval/pushforward.py:779-823). -/
noncomputable def probPredictive (net : Net X p) (mean : PyTree ℝ) (dist : DistState X p) (fns : List (PfStep X K p)) (kw : PfKwargs K)
    (x : X) : Except Err (Dict (Arr ℝ)) := do
  let predMap ← net.call x mean
  finalizeFns fns [("map", predMap)] { modelFn := net.call, meanParams := mean } { input := x, distState := dist, kw := kw }

/-- `set_nonlin_pushforward(...)(input)` (eval/pushforward.py:826-885): `num_samples` and `key` are named parameters, hence not
in the keyword arguments of the pushforward functions. -/
noncomputable def nonlinPushforward (rng : Prng K) (net : Net X p) (mean : PyTree ℝ) (posteriorFn : PriorArgs → ℝ → Except Err (Posterior p))
    (prior : PriorArgs) (key : Option K) (lsf : ℝ) (fns : List (PfStep X K p)) (numSamples : ℕ) (kw : PfKwargs K) (x : X) :
    Except Err (Dict (Arr ℝ)) := do
  let post ← posteriorFn prior lsf
  let kw := { kw with numSamples := none, key := none }
  let dist ← getDistState rng mean net post false numSamples key kw
  probPredictive net mean dist fns kw x

/-- `set_lin_pushforward(...)(input)` (eval/pushforward.py:888-943): `num_samples` and `key` come from the keyword arguments. -/
noncomputable def linPushforward (rng : Prng K) (net : Net X p) (mean : PyTree ℝ) (posteriorFn : PriorArgs → ℝ → Except Err (Posterior p))
    (prior : PriorArgs) (lsf : ℝ) (fns : List (PfStep X K p)) (kw : PfKwargs K) (x : X) : Except Err (Dict (Arr ℝ)) := do
  let post ← posteriorFn prior lsf
  let dist ← getDistState rng mean net post true (kw.numSamples.getD 0) kw.key kw
  probPredictive net mean dist fns kw x

/-- `kernel_mv` (eval/pushforward.py:995-1001). -/
def kernelMv (vec : Arr ℝ) (x1 x2 : X) (dist : DistState X p) : Except Err (Arr ℝ) := do
  let covMv ← dist.posterior.covMv dist.posterior.state
  let jvp ← entryE dist.jvp
  let vjp ← entryE dist.vjp
  let u ← vjp x2 vec
  let w ← covMv [u]
  jvp x1 w

/-- External: python truthiness of the `output_layout` argument; an array with several entries raises. -/
noncomputable def layoutTruthy : Layout ℝ → Except Err Bool
  | .none => .ok false
  | .int n => .ok (n != 0)
  | .tree (.leaf a) => match a.data with
    | [x] => .ok (by classical exact decide (x ≠ 0))
    | _ => .error .valueError
  | .tree (.node _ ks) => .ok (!ks.isEmpty)

/-- What `set_posterior_gp_kernel` returns first: the product or the dense kernel function.
(eval/pushforward.py:946-1013) -/
inductive GpKernel (X : Type) (p : ℕ) where
  | mv (k : Arr ℝ → X → X → DistState X p → Except Err (Arr ℝ))
  | dense (k : X → X → Except Err (PyTree ℝ))

/-- `set_posterior_gp_kernel` (eval/pushforward.py:946-1013); a `num_samples` among the keyword arguments would be passed twice to
`get_dist_state`. -/
noncomputable def setPosteriorGpKernel (rng : Prng K) (net : Net X p) (mean : PyTree ℝ) (posteriorFn : PriorArgs → ℝ → Except Err (Posterior p))
    (prior : PriorArgs) (lsf : ℝ) (dense : Bool) (outputLayout : Layout ℝ) (kw : PfKwargs K) :
    Except Err (GpKernel X p × DistState X p) := do
  let post ← posteriorFn prior lsf
  if kw.numSamples.isSome then .error .typeError else do
  let dist ← getDistState rng mean net post true 0 kw.key kw
  if dense then do
    let ok ← layoutTruthy outputLayout
    if ok then
      return (.dense (fun x1 x2 => toDense (onLeaf (fun v => kernelMv v x1 x2 dist)) outputLayout), dist)
    else .error .valueError
  else return (.mv kernelMv, dist)

end Laplax
