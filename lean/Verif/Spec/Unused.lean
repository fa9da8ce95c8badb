import Verif.Spec.Uncertainty

/-! # Models that use only some of their parameters -/

namespace Laplax.Spec
open scoped BigOperators

variable {p q : ℕ} {X : Type}

/-- The model with `q` parameters that reads the `p` parameters of `net` at the positions `ι` and ignores all others. -/
def reading (net : Net X p) (ι : Fin p → Fin q) : Net X q := ⟨net.shape, fun x w => net.fn x (w ∘ ι)⟩

/-- Position `j` holds a parameter the model does not use. -/
def Unused (ι : Fin p → Fin q) (j : Fin q) : Prop := ∀ i, ι i ≠ j

/-- The squared norm of the unused parameters. -/
noncomputable def unusedNorm2 (ι : Fin p → Fin q) (w : Fin q → ℝ) : ℝ := by
  classical exact ∑ j, if Unused ι j then w j ^ 2 else 0

/-- The same curvature type for both models, dense or diagonal. -/
def SameKind (k : LaplaceKind p) (k' : LaplaceKind q) : Prop := k = .full ∧ k' = .full ∨ k = .diagonal ∧ k' = .diagonal

end Laplax.Spec
