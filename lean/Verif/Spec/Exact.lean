import Verif.Spec.Likelihood
import Verif.Spec.Loss

/-! # Specification of Bayesian linear regression -/

namespace Laplax.Spec
open scoped BigOperators Matrix

variable {p c : ℕ} {X : Type}

/-- The model is affine in its parameters. -/
def AffineModel (f : X → (Fin p → ℝ) → (Fin c → ℝ)) : Prop :=
  ∃ (A : X → Matrix (Fin c) (Fin p) ℝ) (b : X → Fin c → ℝ), ∀ x θ, f x θ = A x *ᵥ θ + b x

/-- The sum of squared errors over the samples. -/
noncomputable def totalError (f : X → (Fin p → ℝ) → (Fin c → ℝ)) (samples : List (X × (Fin c → ℝ))) (θ : Fin p → ℝ) : ℝ :=
  (samples.map fun s => ∑ k, (f s.1 θ k - s.2 k) ^ 2).sum

/-- Minus the logarithm of the unnormalised posterior density of `θ`: squared errors with weight `w` (Gaussian noise of variance `1/(2w)`)
and the prior `N(0, τ⁻¹ I)`. -/
noncomputable def energy (f : X → (Fin p → ℝ) → (Fin c → ℝ)) (samples : List (X × (Fin c → ℝ))) (w τ : ℝ) (θ : Fin p → ℝ) : ℝ :=
  w * totalError f samples θ + τ / 2 * ∑ i, θ i ^ 2

/-- The logarithm of `p(D, θ)` for the likelihood `exp(-(squared errors)/(2σ))` and the prior `N(0, τ⁻¹ I)`. -/
noncomputable def logJoint (f : X → (Fin p → ℝ) → (Fin c → ℝ)) (samples : List (X × (Fin c → ℝ))) (σ τ : ℝ) (θ : Fin p → ℝ) : ℝ :=
  -(totalError f samples θ / (2 * σ)) + logPrior τ (List.ofFn θ)

/-- The density of `N(μ, P⁻¹)`. -/
noncomputable def gaussianDensity (P : Matrix (Fin p) (Fin p) ℝ) (μ θ : Fin p → ℝ) : ℝ :=
  Real.sqrt ((2 * Real.pi)⁻¹ • P).det * Real.exp (-(1 / 2) * ((θ - μ) ⬝ᵥ P *ᵥ (θ - μ)))

/-- The probability measure with density proportional to `exp(-E)`. -/
noncomputable def gibbsLaw (E : (Fin p → ℝ) → ℝ) : MeasureTheory.Measure (Fin p → ℝ) :=
  MeasureTheory.volume.withDensity fun θ => ENNReal.ofReal (Real.exp (-E θ) / ∫ θ', Real.exp (-E θ'))

end Laplax.Spec
