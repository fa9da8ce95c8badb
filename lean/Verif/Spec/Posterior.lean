import Mathlib.LinearAlgebra.Matrix.PosDef
import Mathlib.Analysis.SpecialFunctions.Pow.Real

/-! # Specification of a Laplace posterior -/

namespace Laplax.Spec
open scoped Matrix

variable {p : ℕ}

/-- The posterior precision `(σ² C + τ I) / s` for curvature `C`, prior precision `τ`, noise `σ²`, loss scaling `s`. -/
noncomputable def precision (C : Matrix (Fin p) (Fin p) ℝ) (τ σ2 s : ℝ) : Matrix (Fin p) (Fin p) ℝ :=
  s⁻¹ • (σ2 • C + τ • (1 : Matrix (Fin p) (Fin p) ℝ))

/-- `cov` and `scale` are the covariance and scale products of a Gaussian with precision `P`: they are linear maps given
by `P⁻¹` and by a factor `S` with `S Sᵀ = P⁻¹`; `P⁻¹` is a genuine (two-sided) inverse and positive definite. -/
def IsPosterior (P : Matrix (Fin p) (Fin p) ℝ) (cov scale : (Fin p → ℝ) → (Fin p → ℝ)) : Prop :=
  P * P⁻¹ = 1 ∧ (P⁻¹).PosDef ∧ (∀ v, cov v = P⁻¹ *ᵥ v) ∧
    ∃ S : Matrix (Fin p) (Fin p) ℝ, (∀ v, scale v = S *ᵥ v) ∧ S * Sᵀ = P⁻¹

end Laplax.Spec
