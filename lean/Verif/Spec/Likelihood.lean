import Mathlib.Probability.Distributions.Gaussian.Real
import Mathlib.LinearAlgebra.Matrix.PosDef
import Mathlib.MeasureTheory.Constructions.Pi

/-! # Specification of the Laplace evidence -/

namespace Laplax.Spec
open scoped Matrix

variable {p : ℕ}

/-- Log density of the isotropic Gaussian prior `N(0, τ⁻¹ I)` at the parameters `θ`. -/
noncomputable def logPrior (τ : ℝ) (θ : List ℝ) : ℝ :=
  (θ.map fun x => Real.log (ProbabilityTheory.gaussianPDFReal 0 (Real.toNNReal τ⁻¹) x)).sum

/-- `log p(D, θ*) - ½ log det (H / 2π)`. -/
noncomputable def logEvidence (joint : ℝ) (H : Matrix (Fin p) (Fin p) ℝ) : ℝ :=
  joint - 1 / 2 * Real.log ((2 * Real.pi)⁻¹ • H).det

/-- The Laplace approximation of the evidence: the joint density at the mode times the integral of the Gaussian with precision
`H` around it. -/
noncomputable def laplaceIntegral (joint : ℝ) (H : Matrix (Fin p) (Fin p) ℝ) (θstar : Fin p → ℝ) : ℝ :=
  ∫ θ : Fin p → ℝ, Real.exp (joint - 1 / 2 * ((θ - θstar) ⬝ᵥ H *ᵥ (θ - θstar)))

end Laplax.Spec
