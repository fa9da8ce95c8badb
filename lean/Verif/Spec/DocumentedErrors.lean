import Verif.Model.Loss

/-! # Specification vocabulary for documented exceptions -/

namespace Laplax.Spec
open Laplax

/-- A loss the GGN documents as supported: one of the four names, or a callable. -/
def SupportedLoss {n : ℕ} {Y : Type} : LossArg n Y → Prop
  | .none => False
  | .name s => s = "binary_cross_entropy" ∨ s = "cross_entropy" ∨ s = "mse" ∨ s = "none"
  | .callable _ => True
  | .other => False

end Laplax.Spec
