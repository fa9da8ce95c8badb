import Verif.Spec.ApiCalibration
import Verif.Spec.Workflow

/-! # What C62 and C63 are about: the uncertainty the linearised predictive reports -/

namespace Laplax.Spec
open Laplax
open scoped BigOperators Matrix
variable {X K : Type} {p : ℕ}

/-- The predictive selected by the names `pushforward` and `predictive` for the prior arguments `prior` reports at the input `x` the mean
`m` and the variances `V` (and their roots as standard deviations). -/
def Reports (lower : String → String) (pushforward predictive : EnumArg) (a : PredictiveArgs X K p) (prior : PriorArgs) (x : X)
    (m V : Fin (shapeSize a.net.shape) → ℝ) : Prop :=
  ∃ kind fns r, setupPushforward lower pushforward predictive none = .ok (kind, fns) ∧ setPushforward a kind fns prior x = .ok r ∧
    r.get? "pred_mean" = some (arrOf a.net.shape m) ∧ r.get? "pred_var" = some (arrOf a.net.shape V) ∧
    r.get? "pred_std" = some (arrOf a.net.shape fun k => Real.sqrt (V k))

/-- The curvature matrix an estimate stands for. -/
noncomputable def curvOf : CurvEstimate p → Matrix (Fin p) (Fin p) ℝ
  | .full G => G
  | .diagonal d => Matrix.diagonal d
  | .lowRank t => t.U * Matrix.diagonal t.S * t.Uᵀ

/-- `U diag(S) Uᵀ` keeps some eigenpairs of `G`: the columns of `U` are orthonormal eigenvectors with the eigenvalues `S`. -/
def EigenpairsOf {r : ℕ} (G : Matrix (Fin p) (Fin p) ℝ) (t : LowRankTerms p r) : Prop :=
  t.Uᵀ * t.U = 1 ∧ G * t.U = t.U * Matrix.diagonal t.S

/-- The same model reading its parameters from other positions: the parameter with the flat index `j` of the original model is the one with
the flat index `π⁻¹ j` here (a renaming of dictionary keys, another nesting, transposed storage, …). -/
def rearranged (net : Net X p) (π : Equiv.Perm (Fin p)) : Net X p := ⟨net.shape, fun x v => net.fn x (v ∘ π.symm)⟩

end Laplax.Spec
