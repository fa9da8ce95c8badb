import Verif.Model.Lobpcg
import Verif.Spec.Lobpcg

/-! # Specification vocabulary for runs of the block eigensolver -/

namespace Laplax.Spec
open Laplax
open scoped BigOperators Matrix

variable {n k : ℕ}

/-- What is assumed of the kernels. -/
structure GoodKernels (K : Kernels) : Prop where
  eigh : ∀ {r : ℕ} (M : Mat r r), Mᵀ = M → IsAscendingEigh M (K.eigh M)
  qr : ∀ {a b : ℕ} (M : Mat a b), b ≤ a → OrthonormalCols (K.qr M)
  svd : ∀ {r : ℕ} (M : Mat r r), IsSvd M (K.svd M)

/-- The loop variables after `i` iterations. -/
noncomputable def lobpcgIter [NeZero k] (K : Kernels) (eps : ℝ) (A : Mat n n) (tol : ℝ) (X0 : Mat n k) (i : ℕ) : LobpcgState n k :=
  (lobpcgStep K eps (fun v => A *ᵥ v) tol)^[i] (lobpcgInit K eps (fun v => A *ᵥ v) X0)

/-- The residual block, projected against the current block and the previous direction block (`R` in `[X, P, R]`). -/
noncomputable def searchBlock [NeZero k] (K : Kernels) (eps : ℝ) (s : LobpcgState n k) : Mat n k :=
  projectOut K eps (hcat s.X s.P) s.R

end Laplax.Spec
