import Verif.Spec.ApiEvaluation
import Verif.Spec.Laplace

/-! # Specification of the whole workflow -/

namespace Laplax.Spec
open Laplax
open scoped Matrix

variable {p : ℕ}

/-- `est` is the estimate the kind of curvature gives for the matrix `G`: `G` itself, its diagonal, or what the low-rank algorithm
returned when run with `G`, provided this is orthonormal columns and non-negative values. -/
def EstimateFrom (G : Matrix (Fin p) (Fin p) ℝ) (kind : LaplaceKind p) (est : CurvEstimate p) : Prop :=
  kind = .full ∧ est = .full G ∨ kind = .diagonal ∧ est = .diagonal (fun i => G i i) ∨
    ∃ (r : ℕ) (alg : MvAlg p r) (t : LowRankTerms p r), kind = .lowRank r alg ∧ runAlg G alg = .ok t ∧ est = .lowRank t ∧
      t.Uᵀ * t.U = 1 ∧ ∀ k, 0 ≤ t.S k

end Laplax.Spec
