import Verif.Model.Posterior
import Verif.Model.Flatten
import Verif.Model.TreeOps
import Mathlib.Analysis.SpecialFunctions.Log.Basic
import Mathlib.Analysis.SpecialFunctions.Trigonometric.Basic

/-! # Marginal log-likelihood (`laplax/eval/likelihood.py`)

Real arithmetic.  `full_fn` (the closure returned by `concatenate_model_and_loss_fn`, modelled in `Verif.Model.Ggn`) is a
parameter already applied to `data["input"]`, `data["target"]`. -/

namespace Laplax
open scoped BigOperators Matrix

variable {p r : ℕ}

/-- The `prior_arguments` dictionary as read by `eval/likelihood.py`: besides `prior_prec` and `sigma_squared` also the key
`sigma` (eval/likelihood.py:81). -/
structure MllArgs extends PriorArgs where
  sigma : Option ℝ

/-- `joint_log_likelihood` (eval/likelihood.py:39-89). -/
noncomputable def jointLogLikelihood (fullFn : PyTree ℝ → Except Err ℝ) (a : MllArgs) (params : PyTree ℝ) : Except Err ℝ := do
  let flat ← fullFlatten params
  let squareNorm := (flat.map (· ^ 2)).sum
  let priorPrec ← a.toPriorArgs.getPriorPrec
  let logPrior1 := -0.5 * priorPrec * squareNorm
  let logPrior2 := -0.5 * (getSize params : ℝ) * (Real.log (2 * Real.pi) - Real.log priorPrec)
  let logPrior := logPrior1 + logPrior2
  let sigma := a.sigma.getD 1
  let loss ← fullFn params
  return -(1 / (2 * sigma)) * loss + logPrior

/-- The common tail of the three marginal log-likelihoods (eval/likelihood.py:129-135, 183-189, 242-248). -/
noncomputable def lmlOf (logLikelihood logDetH : ℝ) (paramCount : ℕ) : ℝ :=
  let evidence := -0.5 * (paramCount : ℝ) * Real.log (2 * Real.pi) + 0.5 * logDetH
  logLikelihood - evidence

/-- `full_marginal_log_likelihood` (eval/likelihood.py:92-135); `jnp.linalg.slogdet(A)[1] = log|det A|`. -/
noncomputable def fullMarginalLogLikelihood (prec : Matrix (Fin p) (Fin p) ℝ) (a : MllArgs) (fullFn : PyTree ℝ → Except Err ℝ)
    (params : PyTree ℝ) : Except Err ℝ := do
  let ll ← jointLogLikelihood fullFn a params
  return lmlOf ll (Real.log |prec.det|) (getSize params)

/-- `diagonal_marginal_log_likelihood` (eval/likelihood.py:138-189). -/
noncomputable def diagonalMarginalLogLikelihood (prec : Vec p) (a : MllArgs) (fullFn : PyTree ℝ → Except Err ℝ)
    (params : PyTree ℝ) : Except Err ℝ := do
  let ll ← jointLogLikelihood fullFn a params
  return lmlOf ll (∑ i, Real.log (prec i)) (getSize params)

/-- `low_rank_marginal_log_likelihood` (eval/likelihood.py:192-248). -/
noncomputable def lowRankMarginalLogLikelihood (prec : LowRankTerms p r) (a : MllArgs) (fullFn : PyTree ℝ → Except Err ℝ)
    (params : PyTree ℝ) : Except Err ℝ := do
  let ll ← jointLogLikelihood fullFn a params
  let logDet := (r : ℝ) * Real.log prec.scalar + ∑ k, Real.log (1 + prec.scalar * prec.S k)
  return lmlOf ll logDet (getSize params)

/-- `marginal_log_likelihood` (eval/likelihood.py:259-317) with the tables `CURVATURE_PRECISION_METHODS` (curv/cov.py:60-65) and
`CURVATURE_MARGINAL_LOG_LIKELIHOOD` (eval/likelihood.py:251-256); the kind of the estimate stands for `curv_type`, and `fullFn`
is the outcome of `concatenate_model_and_loss_fn`. -/
noncomputable def marginalLogLikelihood (e : CurvEstimate p) (a : MllArgs) (fullFn : Except Err (PyTree ℝ → Except Err ℝ))
    (params : PyTree ℝ) (lsf : ℝ := 1) : Except Err ℝ := do
  let fullFn ← fullFn
  match e with
  | .full C => do
    let prec ← fullCurvatureToPrecision C a.toPriorArgs lsf
    fullMarginalLogLikelihood prec a fullFn params
  | .diagonal d => do
    let prec ← diagonalCurvatureToPrecision d a.toPriorArgs lsf
    diagonalMarginalLogLikelihood prec a fullFn params
  | .lowRank t => do
    let prec ← lowRankCurvatureToPrecision t a.toPriorArgs lsf
    lowRankMarginalLogLikelihood prec a fullFn params

end Laplax
