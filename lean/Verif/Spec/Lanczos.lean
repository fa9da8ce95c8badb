import Mathlib.LinearAlgebra.Matrix.NonsingularInverse
import Mathlib.LinearAlgebra.Span.Defs
import Mathlib.Data.Real.Basic

/-! # Specification vocabulary for Krylov methods -/

namespace Laplax.Spec
open scoped Matrix

/-- What is assumed of `jnp.linalg.eigh`: for a symmetric input, orthonormal eigenvectors (columns of `Q`) with their
eigenvalues, in any order. -/
def IsEigh {k : ℕ} (eigh : Matrix (Fin k) (Fin k) ℝ → (Fin k → ℝ) × Matrix (Fin k) (Fin k) ℝ) : Prop :=
  ∀ T, Tᵀ = T → (eigh T).2ᵀ * (eigh T).2 = 1 ∧ 
    T = (eigh T).2 * Matrix.diagonal (eigh T).1 * (eigh T).2ᵀ

/-- The Krylov space spanned by `b, A b, …, A^(k-1) b`. -/
def krylov {n : ℕ} (A : Matrix (Fin n) (Fin n) ℝ) (b : Fin n → ℝ) (k : ℕ) : Submodule ℝ (Fin n → ℝ) :=
  Submodule.span ℝ {x | ∃ i < k, x = (A ^ i) *ᵥ b}

end Laplax.Spec
