import Verif.Spec.Uncertainty

/-! # Specification for C79: what a truncation of the curvature leaves out -/

namespace Laplax.Spec
open Laplax
open scoped Matrix

variable {p : ℕ}

/-- Orthogonally to the kept directions the curvature is at most `δ`: `wᵀ G w ≤ δ ‖w‖²` for every `w` with `Uᵀ w = 0`.  For the eigenpairs of the
largest eigenvalues, `δ` can be the largest eigenvalue that is not kept. -/
def RestAtMost {r : ℕ} (G : Matrix (Fin p) (Fin p) ℝ) (t : LowRankTerms p r) (δ : ℝ) : Prop :=
  ∀ w : Fin p → ℝ, t.Uᵀ *ᵥ w = 0 → w ⬝ᵥ G *ᵥ w ≤ δ * (w ⬝ᵥ w)

/-- `t'` keeps every pair that `t` keeps. -/
def KeepsMore {r r' : ℕ} (t : LowRankTerms p r) (t' : LowRankTerms p r') : Prop :=
  ∃ e : Fin r → Fin r', Function.Injective e ∧ ∀ k, (∀ i, t'.U i (e k) = t.U i k) ∧ t'.S (e k) = t.S k

end Laplax.Spec
