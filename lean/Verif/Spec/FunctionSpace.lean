import Verif.Spec.Predictive
import Verif.Spec.Laplace
import Verif.Spec.Exact

/-! # Specification of Gaussian process regression (what C74 is about)

`k` is a matrix-valued covariance function: `k x x'` is the `c × c` matrix of covariances between the outputs at `x` and at `x'`. -/

namespace Laplax.Spec
open scoped BigOperators Matrix

variable {X Y : Type} {p c n : ℕ}

/-- The covariance function of the linearised model `θ' ↦ f(x, θ) + J(x) (θ' - θ)` under the prior `N(·, τ⁻¹ I)`: the (empirical) neural
tangent kernel divided by `τ`. -/
noncomputable def tangentKernel (f : X → (Fin p → ℝ) → (Fin c → ℝ)) (θ : Fin p → ℝ) (τ : ℝ) (x x' : X) : Matrix (Fin c) (Fin c) ℝ :=
  τ⁻¹ • (jacobian (f x) θ * (jacobian (f x') θ)ᵀ)

/-- `k(x, X)`: the covariances of the outputs at `x` with all training outputs. -/
def crossCov (k : X → X → Matrix (Fin c) (Fin c) ℝ) (xs : Fin n → X) (x : X) : Matrix (Fin c) (Fin n × Fin c) ℝ :=
  Matrix.of fun a b => k x (xs b.1) a b.2

/-- The textbook posterior covariance of a Gaussian process with covariance function `k` observed at `xs` with independent Gaussian noise of
variance `ν`: `k(x, x') - k(x, X) (k(X, X) + ν I)⁻¹ k(X, x')`. -/
noncomputable def gpCov (k : X → X → Matrix (Fin c) (Fin c) ℝ) (xs : Fin n → X) (ν : ℝ) (x x' : X) : Matrix (Fin c) (Fin c) ℝ :=
  k x x' - crossCov k xs x * (gram k xs + ν • 1)⁻¹ * (crossCov k xs x')ᵀ

/-- The textbook posterior mean of the same process with prior mean `b` and observations `y`: `b(x) + k(x, X) (k(X, X) + ν I)⁻¹ (y - b(X))`. -/
noncomputable def gpMean (k : X → X → Matrix (Fin c) (Fin c) ℝ) (xs : Fin n → X) (ν : ℝ) (b : X → Fin c → ℝ) (ys : Fin n → Fin c → ℝ)
    (x : X) : Fin c → ℝ :=
  b x + (crossCov k xs x * (gram k xs + ν • 1)⁻¹) *ᵥ fun i => ys i.1 i.2 - b (xs i.1) i.2

/-- The posterior covariance for a (not necessarily Gaussian) likelihood with negative log-likelihood Hessian `W` at the training outputs, as in
Gaussian process classification by the Laplace method: `k(x, x') - k(x, X) (I + W k(X, X))⁻¹ W k(X, x')`.  For `W = ν⁻¹ I` this is `gpCov`. -/
noncomputable def gpCovLoss (k : X → X → Matrix (Fin c) (Fin c) ℝ) (xs : Fin n → X) (W : Matrix (Fin n × Fin c) (Fin n × Fin c) ℝ)
    (x x' : X) : Matrix (Fin c) (Fin c) ℝ :=
  k x x' - crossCov k xs x * ((1 + W * gram k xs)⁻¹ * W) * (crossCov k xs x')ᵀ

/-- The block-diagonal matrix of the loss Hessians at the training points, times `w`. -/
noncomputable def lossHessians (f : X → (Fin p → ℝ) → (Fin c → ℝ)) (θ : Fin p → ℝ)
    (H : (Fin c → ℝ) → (Fin c → ℝ) → Y → (Fin c → ℝ)) (w : ℝ) (s : Fin n → X × Y) : Matrix (Fin n × Fin c) (Fin n × Fin c) ℝ :=
  Matrix.of fun a b => if a.1 = b.1 then w * H (Pi.single b.2 1) (f (s a.1).1 θ) (s a.1).2 a.2 else 0

end Laplax.Spec
