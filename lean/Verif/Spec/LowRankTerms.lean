import Verif.Model.Posterior

/-! # The matrix denoted by low-rank terms -/

namespace Laplax.Spec
open Laplax
open scoped BigOperators Matrix

variable {p r : ℕ}

/-- The matrix `c I + U diag(S) Uᵀ` denoted by low-rank terms. -/
def lowRankMatrix (t : LowRankTerms p r) : Matrix (Fin p) (Fin p) ℝ :=
  t.scalar • (1 : Matrix (Fin p) (Fin p) ℝ) + t.U * Matrix.diagonal t.S * t.Uᵀ

end Laplax.Spec
