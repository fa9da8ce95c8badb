import Mathlib.LinearAlgebra.Matrix.NonsingularInverse
import Mathlib.Analysis.Real.Sqrt

/-! # Specification vocabulary for the block eigensolver -/

namespace Laplax.Spec
open scoped Matrix

/-- The columns of `U` are orthonormal. -/
def OrthonormalCols {n k : ℕ} (U : Matrix (Fin n) (Fin k) ℝ) : Prop := Uᵀ * U = 1

/-- Different columns of `U` are orthogonal, and every column is zero or has length one. -/
def ZeroOrOrthonormalCols {n k : ℕ} (U : Matrix (Fin n) (Fin k) ℝ) : Prop :=
  (∀ i j, i ≠ j → (Uᵀ * U) i j = 0) ∧ ∀ j, (∀ i, U i j = 0) ∨ (Uᵀ * U) j j = 1

/-- `(w, V)` is an eigendecomposition of `M` with orthonormal eigenvectors and ascending eigenvalues. -/
def IsAscendingEigh {r : ℕ} (M : Matrix (Fin r) (Fin r) ℝ) (e : (Fin r → ℝ) × Matrix (Fin r) (Fin r) ℝ) : Prop :=
  e.2ᵀ * e.2 = 1 ∧ M = e.2 * Matrix.diagonal e.1 * e.2ᵀ ∧ Monotone e.1

/-- `(u, s, vt)` is a singular value decomposition of the square matrix `M`. -/
def IsSvd {r : ℕ} (M : Matrix (Fin r) (Fin r) ℝ)
    (e : Matrix (Fin r) (Fin r) ℝ × (Fin r → ℝ) × Matrix (Fin r) (Fin r) ℝ) : Prop :=
  e.1ᵀ * e.1 = 1 ∧ e.2.2ᵀ * e.2.2 = 1 ∧ (∀ j, 0 ≤ e.2.1 j) ∧ M = e.1 * Matrix.diagonal e.2.1 * e.2.2

/-- Euclidean length of column `j`. -/
noncomputable def colLength {n k : ℕ} (U : Matrix (Fin n) (Fin k) ℝ) (j : Fin k) : ℝ := Real.sqrt (∑ i, U i j ^ 2)

end Laplax.Spec
