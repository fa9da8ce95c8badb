import Verif.Spec.ApiCalibration
import Verif.Spec.Broadcast

/-! # Specification of an evaluation run -/

namespace Laplax.Spec
open Laplax
open scoped BigOperators Matrix

variable {X A : Type} {p c : ℕ}

/-- The data points `pts` are those of `data` in order: of its one batch, or of the batches of a re-iterable loader, none of which
is empty. -/
def PointsAre (points : PyObj A → PyObj A → Except Err (List (X × Arr ℝ))) (data : PyObj A) (pts : List (X × Arr ℝ)) : Prop :=
  ∃ (ps : List (PyObj A × PyObj A)) (decode : PyObj A × PyObj A → List (X × Arr ℝ)), DataOf data ps ∧
    (∀ xy ∈ ps, points xy.1 xy.2 = .ok (decode xy) ∧ decode xy ≠ []) ∧ pts = ps.flatMap decode

/-- The names of the regression scores. -/
def regNames : List String := ["rmse", "chi^2", "nll", "crps"]

/-- The regression scores of one data point with `c` output entries: root mean squared error, mean squared standardised residual,
mean negative log density and mean continuous ranked probability score of the target entries under `N(m_k, s_k²)`. -/
noncomputable def regScore (m s y : Fin c → ℝ) (name : String) : ℝ :=
  if name = "rmse" then Real.sqrt ((∑ k, (y k - m k) ^ 2) / c)
  else if name = "chi^2" then (∑ k, ((y k - m k) / s k) ^ 2) / c
  else if name = "nll" then (∑ k, negLogDensity (m k) (s k) (y k)) / c
  else (∑ k, crps (m k) (s k) (y k)) / c

/-- The covariance `J_x P⁻¹ J_xᵀ` at `x`. -/
noncomputable def covAt (f : X → (Fin p → ℝ) → (Fin c → ℝ)) (θ : Fin p → ℝ) (P : Matrix (Fin p) (Fin p) ℝ) (x : X) :
    Matrix (Fin c) (Fin c) ℝ :=
  jacobian (f x) θ * P⁻¹ * (jacobian (f x) θ)ᵀ

/-- `g` is the linearised predictive of type `pr` for the posterior precision `P`, with the samples drawn from `eps` by the factor `R`
of the posterior covariance. -/
def LinearPredictiveAt {K : Type} (a : PredictiveArgs X K p) (θ : Fin p → ℝ) (pr : String) (eps : Fin a.numSamples → Fin p → ℝ)
    (R P : Matrix (Fin p) (Fin p) ℝ) (g : X → Except Err (Dict (Arr ℝ))) : Prop :=
  R * Rᵀ = P⁻¹ ∧ ∀ x, ∃ r, g x = .ok r ∧
    ∀ key, r.get? key = apiExpected a.net.shape (a.net.fn x θ) (covAt a.net.fn θ P x)
      (fun i => a.net.fn x θ + jacobian (a.net.fn x) θ *ᵥ (R *ᵥ eps i)) pr key

/-- `g` is the sampled predictive of type `pr` for the posterior precision `P`. -/
def SampledPredictiveAt {K : Type} (a : PredictiveArgs X K p) (θ : Fin p → ℝ) (pr : String) (eps : Fin a.numSamples → Fin p → ℝ)
    (R P : Matrix (Fin p) (Fin p) ℝ) (g : X → Except Err (Dict (Arr ℝ))) : Prop :=
  R * Rᵀ = P⁻¹ ∧ ∀ x, ∃ r, g x = .ok r ∧
    ∀ key, r.get? key = apiNonlinExpected a.net.shape (a.net.fn x θ) (fun i => a.net.fn x (θ + R *ᵥ eps i)) pr key

/-- The targets `t` fit the classes predicted by outputs of shape `sh ++ [c]`: the class indices (after `argmax` of a 2-D target) broadcast
against `sh`. -/
def TargetFits (sh : List ℕ) (t : Arr ℝ) : Prop :=
  t.WF ∧ (t.shape.length ≠ 2 → Compatible sh t.shape) ∧ (∀ n m, t.shape = [n, m] → 0 < m ∧ Compatible sh [n])

end Laplax.Spec
