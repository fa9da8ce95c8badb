import Mathlib.Analysis.Calculus.FDeriv.Basic
import Mathlib.LinearAlgebra.Matrix.ToLin

/-! # Specification of Jacobians and the Gauss–Newton sum -/

namespace Laplax.Spec
open scoped BigOperators Matrix

/-- The Jacobian matrix `J k j = ∂f_k/∂θ_j` of `f` at `θ`. -/
noncomputable def jacobian {p c : ℕ} (f : (Fin p → ℝ) → (Fin c → ℝ)) (θ : Fin p → ℝ) : Matrix (Fin c) (Fin p) ℝ :=
  Matrix.of fun k j => fderiv ℝ f θ (Pi.single j 1) k

/-- `Σ_i J_iᵀ H_i J_i v` for Jacobians `J_i` and loss Hessian products `H_i`. -/
noncomputable def ggnSum {p c B : ℕ} (J : Fin B → Matrix (Fin c) (Fin p) ℝ) (H : Fin B → (Fin c → ℝ) → (Fin c → ℝ))
    (v : Fin p → ℝ) : Fin p → ℝ := ∑ i, (J i)ᵀ *ᵥ H i (J i *ᵥ v)

end Laplax.Spec
