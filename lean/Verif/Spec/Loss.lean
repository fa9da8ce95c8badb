import Mathlib.Analysis.SpecialFunctions.Log.Deriv
import Mathlib.Analysis.SpecialFunctions.ExpDeriv

/-! # Textbook loss functions (specification)

Independent of the code: negative log-likelihoods of the categorical, Bernoulli and (unscaled) Gaussian models. -/

namespace Laplax.Spec
open scoped BigOperators

/-- Softmax cross-entropy with class label `y`: `log Σ_j exp z_j - z_y`. -/
noncomputable def crossEntropy {n : ℕ} (y : Fin n) (z : Fin n → ℝ) : ℝ := Real.log (∑ j, Real.exp (z j)) - z y

/-- Softmax cross-entropy with a target distribution / one-hot vector: `(Σ y_k) · log Σ_j exp z_j - Σ_k y_k z_k`. -/
noncomputable def crossEntropySoft {n : ℕ} (y z : Fin n → ℝ) : ℝ :=
  (∑ k, y k) * Real.log (∑ j, Real.exp (z j)) - ∑ k, y k * z k

/-- Binary cross-entropy summed over outputs: `log(1 + exp z) - y z`. -/
noncomputable def binaryCrossEntropy {n : ℕ} (y z : Fin n → ℝ) : ℝ :=
  ∑ k, (Real.log (1 + Real.exp (z k)) - y k * z k)

/-- Squared error `Σ (z - y)²`. -/
def squaredError {n : ℕ} (y z : Fin n → ℝ) : ℝ := ∑ k, (z k - y k) ^ 2

/-- The second derivative of `f` at `z` in direction `v`, as a vector: entry `k` is the derivative in direction `v` of
the partial derivative `∂f/∂z_k`. -/
def IsHessianProduct {n : ℕ} (f : (Fin n → ℝ) → ℝ) (z v h : Fin n → ℝ) : Prop :=
  ∃ g : (Fin n → ℝ) → (Fin n → ℝ),
    (∀ x k, HasDerivAt (fun t : ℝ => f (x + t • Pi.single k 1)) (g x k) 0) ∧
    ∀ k, HasDerivAt (fun t : ℝ => g (z + t • v) k) (h k) 0

end Laplax.Spec
