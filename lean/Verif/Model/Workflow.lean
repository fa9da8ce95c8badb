import Verif.Model.ApiEvaluation
import Verif.Model.Laplace

/-! # The documented use of the high-level API: `laplace`, then `calibration`, then `evaluation`

This is the program a user writes (README.md, docs/tutorials, tests/test_api); each call is the modelled function, and the only thing
added here is that results of one call are arguments of the next. -/

namespace Laplax

variable {X Y K A : Type} {p : ℕ}

/-- `posterior_fn, curv_est = laplace(...)`; `prior_args, _ = calibration(posterior_fn=posterior_fn, curv_estimate=curv_est, ...)`;
`metrics, predictive = evaluation(posterior_fn=posterior_fn, arguments=prior_args, ...)` (laplax/api.py:614-977). -/
noncomputable def workflow (lower : String → String) (rows : A → Except Err (List A)) (rng : Prng K) (net : Net X p) (params : PyTree ℝ)
    (custom : ℕ → PfStep X K p) (key : K) (numSamples : ℕ)
    (trainPoints : PyObj A → PyObj A → Except Err (List (X × Y))) (trainData : PyObj A) (loss : LossArg (shapeSize net.shape) Y)
    (curvType : EnumArg) (kind : EnumArg → LaplaceKind p) (numCurv numTotal : ℕ)
    (points : PyObj A → PyObj A → Except Err (List (X × Arr ℝ))) (calData : PyObj A)
    (calLoss : (B : ℕ) → HessLossArg B (shapeSize net.shape)) (predictive pushforward objective method : EnumArg)
    (options : Dict (CalMethod (PyObj A) (WithTop ℝ))) (kw : GridKwargs)
    (testData : PyObj A) (metrics : MetricsArg (StepFn (Arr ℝ))) (reduce : Arr ℝ → Except Err (Arr ℝ)) (tt : Arr ℝ) :
    Except Err (PriorArgs × Dict (Arr ℝ) × (X → Except Err (Dict (Arr ℝ)))) := do
  let (posteriorFn, est) ← laplace lower rows trainPoints net.fn params trainData loss curvType kind numCurv numTotal
  let a : PredictiveArgs X K p := ⟨rng, net, params, posteriorFn, custom, key, numSamples⟩
  let (prior, _, _) ← calibration lower rows points a calData calLoss est predictive pushforward none objective method options kw
  let (results, pred) ← evaluation lower rows points a prior testData metrics predictive pushforward none reduce tt
  return (prior, results, pred)

end Laplax
