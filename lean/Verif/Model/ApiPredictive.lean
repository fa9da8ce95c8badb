import Verif.Model.Api
import Verif.Model.Pushforward

/-! # The predictive built by `calibration` and `evaluation` (laplax/api.py:234-291, 780-795, 920-945)

`Verif.Model.Api.setupPushforward` selects names; here the names get the functions of `Verif.Model.Pushforward` and the selected
constructor is applied. -/

namespace Laplax

variable {X K : Type} {p : ℕ}

/-- The function a selected name stands for (api.py:256-286); `partial(lin_special_pred_act, special_pred_type=s)` supplies the
type unless the keyword arguments of the call do.  `custom` gives the user's own functions. -/
noncomputable def PfName.step (custom : ℕ → PfStep X K p) : PfName → PfStep X K p
  | .linSetup => Laplax.linSetup
  | .linPredMean => Laplax.linPredMean
  | .linPredStd => Laplax.linPredStd
  | .linMcPredAct => Laplax.linMcPredAct
  | .linSpecialPredAct s => fun results aux ctx =>
      specialPredAct true results aux { ctx with kw := { ctx.kw with specialPredType := ctx.kw.specialPredType.or (some s) } }
  | .nonlinSetup => Laplax.nonlinSetup
  | .nonlinPredMean => Laplax.nonlinPredMean
  | .nonlinPredStd => Laplax.nonlinPredStd
  | .nonlinMcPredAct => Laplax.nonlinMcPredAct
  | .getPredAct => Laplax.getPredAct
  | .custom n => custom n

/-- What `calibration` and `evaluation` need besides the data: model, parameters, posterior, random numbers. -/
structure PredictiveArgs (X K : Type) (p : ℕ) where
  rng : Prng K
  net : Net X p
  params : PyTree ℝ
  posteriorFn : PriorArgs → ℝ → Except Err (Posterior p)
  custom : ℕ → PfStep X K p
  key : K
  numSamples : ℕ

/-- `set_pushforward(prior_arguments=…, model_fn=…, mean_params=…, posterior_fn=…, pushforward_fns=…, key=…, num_samples=…)`
followed by a call on one input (api.py:786-795, 932-941): the loss scaling factor keeps its default 1. -/
noncomputable def setPushforward (a : PredictiveArgs X K p) (kind : PfKind) (fns : List PfName) (prior : PriorArgs) (x : X) :
    Except Err (Dict (Arr ℝ)) :=
  match kind with
  | .lin => linPushforward a.rng a.net a.params a.posteriorFn prior 1 (fns.map (PfName.step a.custom))
      { key := some a.key, numSamples := some a.numSamples } x
  | .nonlin => nonlinPushforward a.rng a.net a.params a.posteriorFn prior (some a.key) 1 (fns.map (PfName.step a.custom))
      a.numSamples {} x

end Laplax
