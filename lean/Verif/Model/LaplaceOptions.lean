import Verif.Model.Laplace

/-! # The options of `laplace` (laplax/api.py:614-706): `vmap_over_data` and `curv_mv_jit`

`Verif.Model.Laplace` models `laplace` with the default options.  Here the same function takes both options.

With `vmap_over_data=False` the model is called once on the whole batch, `model_fn(input=data["input"], params=p)`
(curv/ggn.py:254-257), and the loss Hessian product gets its whole output, a 2-D array of shape `(B, c)`. -/

namespace Laplax
open scoped BigOperators

variable {p c : ℕ} {A X Y : Type}

/-- A `loss_fn` argument when both calling conventions matter: a python callable `loss_fn(pred, target)` accepts one sample
(`single`) and a whole batch (`batch`, any number of rows).  (the `loss_fn` argument of curv/ggn.py:117-202) -/
inductive LossObj (c : ℕ) (Y YB : Type) where
  | none
  | name (s : String)
  | callable (single : Vec c → Y → ℝ) (batch : (B : ℕ) → (Fin B → Vec c) → YB → ℝ)
  | other

/-- The argument as `jax.vmap` uses it: sample by sample (curv/ggn.py:249-250). -/
def LossObj.perSample {YB : Type} : LossObj c Y YB → LossArg c Y
  | .none => .none
  | .name s => .name s
  | .callable ℓ _ => .callable ℓ
  | .other => .other

/-- External: `jax.grad(func)(z)` for a function of a 2-D array: all partial derivatives. -/
noncomputable def jaxGrad2 {B : ℕ} (f : (Fin B → Vec c) → ℝ) (z : Fin B → Vec c) : Fin B → Vec c :=
  fun i k => fderiv ℝ f z (Pi.single i (Pi.single k 1))

/-- `hvp` (curv/hessian.py:24-43) for a function of a 2-D array. -/
noncomputable def hvp2 {B : ℕ} (f : (Fin B → Vec c) → ℝ) (z v : Fin B → Vec c) : Fin B → Vec c := fderiv ℝ (jaxGrad2 f) z v

/-- `_cross_entropy_hessian_mv` (curv/ggn.py:56-87) on arrays of shape `(B, c)`: the softmax runs over the last axis, but
`prob.reshape(1, -1) @ jv` multiplies a `(1, B·c)` array with a `(B, c)` array, which raises `TypeError` unless `B·c = B`; the
`(1, c)` result is then broadcast against `prob`. -/
noncomputable def ceHessianMvBatch {B : ℕ} (jv pred : Fin B → Vec c) : Except Err (Fin B → Vec c) :=
  let prob : Fin B → Vec c := fun i => softmax (pred i)
  if h : B * c = B then
    let flat : Fin B → ℝ := fun m => prob (finProdFinEquiv.symm (Fin.cast h.symm m)).1 (finProdFinEquiv.symm (Fin.cast h.symm m)).2
    let row : Vec c := fun k => ∑ m, flat m * jv m k
    .ok fun i k => prob i k * jv i k - prob i k * row k
  else .error .typeError

/-- `create_loss_hessian_mv` (curv/ggn.py:117-197) used without `jax.vmap` on arrays of shape `(B, c)`:
`_binary_cross_entropy_hessian_mv` (24-53), `_mse_hessian_mv` (90-114) and the identity act entry by entry. -/
noncomputable def createLossHessianMvBatch {YB : Type} : LossObj c Y YB →
    Except Err ((B : ℕ) → (Fin B → Vec c) → (Fin B → Vec c) → YB → Except Err (Fin B → Vec c))
  | .none => .error .valueError
  | .name s =>
    if s = "binary_cross_entropy" then .ok (fun _ jv pred _ => .ok fun i => bceHessianMv (jv i) (pred i))
    else if s = "cross_entropy" then .ok (fun _ jv pred _ => ceHessianMvBatch jv pred)
    else if s = "mse" then .ok (fun _ jv _ _ => .ok fun i => mseHessianMv (jv i))
    else if s = "none" then .ok (fun _ jv _ _ => .ok jv)
    else .error .valueError
  | .callable _ ℓ => .ok (fun B jv pred target => .ok (hvp2 (fun z => ℓ B z target) pred jv))
  | .other => .error .valueError

/-- `ggn_mv` (curv/ggn.py:252-269) with `vmap_over_data = False` on a batch whose forward pass is `f`. -/
noncomputable def ggnMvBatch {YB : Type} {B : ℕ} (f : Vec p → Fin B → Vec c) (θ : Vec p)
    (lossHess : (Fin B → Vec c) → (Fin B → Vec c) → YB → Except Err (Fin B → Vec c)) (factor : ℝ) (vec : Vec p) (y : YB) :
    Except Err (Vec p) := do
  let z := f θ
  let jvp := fderiv ℝ f θ
  let HJv ← lossHess (jvp vec) z y
  let arr := linTranspose jvp HJv
  return fun j => factor * arr j

/-- `ggn_mv` (curv/ggn.py:252-269) with `vmap_over_data = False` on parameter pytrees.  `bmodel x` is the forward pass on
the inputs `x` of a batch, as a function of the parameters. -/
noncomputable def ggnTreeMvNoVmap (bmodel : PyObj A → Except Err (Σ B : ℕ, Vec p → Fin B → Vec c)) (params : PyTree ℝ)
    (H : (B : ℕ) → (Fin B → Vec c) → (Fin B → Vec c) → PyObj A → Except Err (Fin B → Vec c)) (factor : ℝ) (vec : PyTree ℝ)
    (x y : PyObj A) : Except Err (PyTree ℝ) := do
  let θ ← asParams p params
  let v ← asParams p vec
  let f ← bmodel x
  let r ← ggnMvBatch f.2 θ (H f.1) factor v y
  unflattenLike params (List.ofFn r)

/-- One use of `jax.jit(ggn_mv)` (api.py:682-683).  Jitting a `DataLoaderMV` gives a plain function that runs over the whole
loader in every call, so `to_dense`/`diagonal` are no longer lowered batch by batch (util/loader.py:355-372).  (JAX caches the
trace; the loader is re-iterable whenever the product succeeds at all, see C41, so every call sees the same batches.) -/
def Bound.passJit {V W S : Type} (rows : A → Except Err (List A)) (mv : V → PyObj A → PyObj A → Except Err W)
    (reduce : W → Option S → Except Err (W × S)) (g : (V → Except Err W) → Except Err W) :
    Bound A → PyObj A → Except Err W × PyObj A
  | .single d, data => (g (mvOnBatch mv d), data)
  | .stream tr, data => (g (fun v => ((Bound.stream tr).pass rows mv reduce (fun m => m v) data).1), (data.iterAll rows).2)

/-- Run a curvature algorithm on the jitted product.  (api.py:682-696) -/
def CurvAlg.runJit {V W S R : Type} (rows : A → Except Err (List A)) (mv : V → PyObj A → PyObj A → Except Err W)
    (reduce : W → Option S → Except Err (W × S)) (b : Bound A) : CurvAlg V W R → PyObj A → Except Err R
  | .done r, _ => r
  | .pass g k, data =>
    let (r, data') := b.passJit rows mv reduce g data
    match r with
    | .error e => .error e
    | .ok w => (k w).runJit rows mv reduce b data'

/-- The options of `laplace` (api.py:622-624). -/
structure LaplaceOptions where
  vmapOverData : Bool := true
  curvMvJit : Bool := false

/-- `create_ggn_mv_without_data` (curv/ggn.py:205-271) as called by `GGN` (api.py:588-594), on pytrees, for both values of
`vmap_over_data`. -/
noncomputable def ggnTreeProduct (vmapOverData : Bool) (points : PyObj A → PyObj A → Except Err (List (X × Y)))
    (model : X → Vec p → Vec c) (bmodel : PyObj A → Except Err (Σ B : ℕ, Vec p → Fin B → Vec c)) (params : PyTree ℝ)
    (lossFn : LossObj c Y (PyObj A)) (factor : ℝ) :
    Except Err (PyTree ℝ → PyObj A → PyObj A → Except Err (PyTree ℝ)) :=
  match vmapOverData with
  | true => do
    let H ← createLossHessianMv lossFn.perSample
    return ggnTreeMv points model params H factor
  | false => do
    let H ← createLossHessianMvBatch lossFn
    return ggnTreeMvNoVmap bmodel params H factor

/-- `laplace` (api.py:614-706) with its options.  The model is given in both calling conventions: `model` on one sample, `bmodel`
on a batch. -/
noncomputable def laplaceWith (opts : LaplaceOptions) (lower : String → String) (rows : A → Except Err (List A))
    (points : PyObj A → PyObj A → Except Err (List (X × Y))) (model : X → Vec p → Vec c)
    (bmodel : PyObj A → Except Err (Σ B : ℕ, Vec p → Fin B → Vec c)) (params : PyTree ℝ) (data : PyObj A)
    (lossFn : LossObj c Y (PyObj A)) (curvType : EnumArg) (kind : EnumArg → LaplaceKind p) (numCurv numTotal : ℕ) :
    Except Err ((PriorArgs → ℝ → Except Err (Posterior p)) × CurvEstimate p) := do
  let ct ← convertToEnum lower curvApproxValues false curvType
  if numTotal = 0 then .error .zeroDivisionError else do
  let mv ← ggnTreeProduct opts.vmapOverData points model bmodel params lossFn ((numCurv : ℝ) / (numTotal : ℝ))
  let (b, data') ← ggnApi rows mv (liftReduce reduceAdd) (shapesMatchParams params) params data none
  let e ← match opts.curvMvJit with
    | false => (curvAlgOf params (kind ct)).run rows mv (liftReduce reduceAdd) b data'
    | true => (curvAlgOf params (kind ct)).runJit rows mv (liftReduce reduceAdd) b data'
  return (fun a s => setPosteriorFn e (.tree params) a s, e)

/-! ### The Hessian product with `vmap_over_data=False` -/

/-- `concatenate_model_and_loss_fn` (curv/utils.py:128-199) with `vmap_over_data = False`: `f` is the forward pass of the model on
the stacked inputs, `y` the stacked targets. -/
noncomputable def concatenateModelAndLossFnBatch {B : ℕ} (f : Vec p → Fin B → Vec c) (y : Fin B → Vec c) :
    HessLossArg B c → Except Err ((Vec p → ℝ) ⊕ (Vec p → Fin B → Vec c))
  | .name s =>
    if s = "mse" then .ok (.inl fun θ => ∑ i, ∑ k, (f θ i k - y i k) ^ 2)
    else if s = "cross_entropy" then .ok (.inr fun θ i k => logSigmoidCrossEntropy (f θ i k) (y i k))
    else .error .valueError
  | .callable ℓ => .ok (.inl fun θ => ℓ (f θ) y)
  | .other => .error .valueError

/-- `create_hessian_mv` (curv/hessian.py:108-183) with `vmap_over_data = False`. -/
noncomputable def createHessianMvBatch {B : ℕ} (f : Vec p → Fin B → Vec c) (θ : Vec p) (y : Fin B → Vec c) (lossFn : HessLossArg B c)
    (numCurv numTotal : Option ℕ) : Except Err (Vec p → Except Err (Vec p)) := do
  let factor ← curvScalingFactor B numCurv numTotal
  let g ← concatenateModelAndLossFnBatch f y lossFn
  return fun vec => match g with
    | .inl g => .ok (fun j => factor * hvp g θ vec j)
    | .inr _ => .error .typeError

end Laplax
