import Verif.Model.Loss
import Mathlib.Analysis.Calculus.FDeriv.Pi

/-! # GGN and Hessian products (`laplax/curv/ggn.py:205-359`, `laplax/curv/hessian.py:46-183`,
`laplax/curv/utils.py:128-199`)

Parameters are a flat vector `Vec p` (pytrees of parameters are flattened; see the models of `util/flatten.py`), model
outputs a vector `Vec c`.  A batch is a finite family of `(input, target)` pairs. -/

namespace Laplax
open scoped BigOperators

variable {p c B : ℕ} {X Y : Type}

/-- `fwd` (curv/ggn.py:254-257), `vmap_over_data = True`: `jax.vmap(lambda x: model_fn(input=x, params=p))(data["input"])`. -/
def fwd (model : X → Vec p → Vec c) (data : Fin B → X × Y) (θ : Vec p) : Fin B → Vec c :=
  fun i => model (data i).1 θ

/-- External: `jax.linear_transpose(jvp, vec)(w)[0]` of a linear map into stacked outputs: entry `j` is the pairing of
`w` with the image of the `j`-th unit vector. -/
noncomputable def linTranspose (L : Vec p →L[ℝ] (Fin B → Vec c)) (w : Fin B → Vec c) : Vec p :=
  fun j => ∑ i, ∑ k, L (Pi.single j 1) i k * w i k

/-- `ggn_mv` inside `create_ggn_mv_without_data` (curv/ggn.py:252-269), `vmap_over_data = True`.  `jax.linearize` is the
value and the Fréchet derivative of the stacked forward pass; the loss Hessian product is vmapped over the batch. -/
noncomputable def ggnMvWithoutData (model : X → Vec p → Vec c) (θ : Vec p) (lossHess : Vec c → Vec c → Y → Vec c)
    (factor : ℝ) (vec : Vec p) (data : Fin B → X × Y) : Vec p :=
  let z := fwd model data θ
  let jvp := fderiv ℝ (fwd model data) θ
  let HJv : Fin B → Vec c := fun i => lossHess (jvp vec i) (z i) (data i).2
  let arr := linTranspose jvp HJv
  fun j => factor * arr j

/-- `ggn_mv` with `vmap_over_data = False` (curv/ggn.py:252-269): the model is evaluated on `data["input"]` as a whole and
the loss Hessian product gets its whole output.  Only 1-D outputs are modelled (an unbatched sample). -/
noncomputable def ggnMvNoVmap (model : X → Vec p → Vec c) (θ : Vec p) (lossHess : Vec c → Vec c → Y → Vec c)
    (factor : ℝ) (vec : Vec p) (data : X × Y) : Vec p :=
  let z := model data.1 θ
  let jvp := fderiv ℝ (model data.1) θ
  let HJv := lossHess (jvp vec) z data.2
  fun j => factor * ∑ k, jvp (Pi.single j 1) k * HJv k

/-- `create_ggn_mv_without_data` (curv/ggn.py:205-271): `loss_hessian_mv or create_loss_hessian_mv(loss_fn)`. -/
noncomputable def createGgnMvWithoutData (model : X → Vec p → Vec c) (θ : Vec p) (lossFn : LossArg c Y) (factor : ℝ)
    (lossHess : Option (Vec c → Vec c → Y → Vec c)) : Except Err (Vec p → (Fin B → X × Y) → Vec p) := do
  let H ← match lossHess with
    | some H => .ok H
    | none => createLossHessianMv lossFn
  return ggnMvWithoutData model θ H factor

/-- `curv_scaling_factor` (curv/ggn.py:339-345, curv/hessian.py:163-169): defaults and the python division. -/
noncomputable def curvScalingFactor (batch : ℕ) (numCurv numTotal : Option ℕ) : Except Err ℝ :=
  let m := numCurv.getD batch
  let N := numTotal.getD m
  if m = 0 then .error .zeroDivisionError else .ok ((N : ℝ) / (m : ℝ))

/-- `create_ggn_mv` (curv/ggn.py:274-359). -/
noncomputable def createGgnMv (model : X → Vec p → Vec c) (θ : Vec p) (data : Fin B → X × Y) (lossFn : LossArg c Y)
    (numCurv numTotal : Option ℕ) (lossHess : Option (Vec c → Vec c → Y → Vec c)) : Except Err (Vec p → Vec p) :=
  match lossFn, lossHess with
  | .none, none => .error .valueError
  | .none, some H => do
    let f ← curvScalingFactor B numCurv numTotal
    let mv ← createGgnMvWithoutData model θ .none f (some H)
    return fun vec => mv vec data
  | _, some _ => .error .valueError
  | l, none => do
    let f ← curvScalingFactor B numCurv numTotal
    let mv ← createGgnMvWithoutData model θ l f none
    return fun vec => mv vec data

/-! ### Hessian -/

/-- The `loss_fn` argument of the Hessian product: the callable acts on the *stacked* predictions and targets.
(the `loss_fn` argument of curv/hessian.py:46-105) -/
inductive HessLossArg (B c : ℕ) where
  | name (s : String)
  | callable (ℓ : (Fin B → Vec c) → (Fin B → Vec c) → ℝ)
  | other

/-- The combined function returned by `concatenate_model_and_loss_fn`: a scalar function of the parameters, or one with
array output (which `jax.grad` rejects). -/
inductive Combined (B c p : ℕ) (X : Type) where
  | scalar (f : (Fin B → X × Vec c) → Vec p → ℝ)
  | array (f : (Fin B → X × Vec c) → Vec p → (Fin B → Vec c))

/-- `concatenate_model_and_loss_fn` (curv/utils.py:128-199) with `vmap_over_data = True`. -/
noncomputable def concatenateModelAndLossFn (model : X → Vec p → Vec c) : HessLossArg B c → Except Err (Combined B c p X)
  | .name s =>
    if s = "mse" then
      .ok (.scalar fun data θ => ∑ i, ∑ k, (fwd model data θ i k - (data i).2 k) ^ 2)
    else if s = "cross_entropy" then
      .ok (.array fun data θ i k => logSigmoidCrossEntropy (fwd model data θ i k) ((data i).2 k))
    else .error .valueError
  | .callable ℓ => .ok (.scalar fun data θ => ℓ (fwd model data θ) (fun i => (data i).2))
  | .other => .error .valueError

/-- `_hessian_mv` inside `create_hessian_mv_without_data` (curv/hessian.py:94-103); `jax.grad` of an array-valued
function raises `TypeError`. -/
noncomputable def hessianMvWithoutData (θ : Vec p) (factor : ℝ) (f : Combined B c p X) (vec : Vec p)
    (data : Fin B → X × Vec c) : Except Err (Vec p) :=
  match f with
  | .scalar f => .ok (fun j => factor * hvp (f data) θ vec j)
  | .array _ => .error .typeError

/-- `create_hessian_mv` (curv/hessian.py:108-183). -/
noncomputable def createHessianMv (model : X → Vec p → Vec c) (θ : Vec p) (data : Fin B → X × Vec c)
    (lossFn : HessLossArg B c) (numCurv numTotal : Option ℕ) : Except Err (Vec p → Except Err (Vec p)) := do
  let factor ← curvScalingFactor B numCurv numTotal
  let f ← concatenateModelAndLossFn model lossFn
  return fun vec => hessianMvWithoutData θ factor f vec data

end Laplax
