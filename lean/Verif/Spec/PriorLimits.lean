import Verif.Spec.Uncertainty

/-! # Specification for C75: what a predictive reports as a function of the prior precision -/

namespace Laplax.Spec
open Laplax
variable {X K : Type} {p : ℕ}

/-- The predictive selected by the names `pushforward` and `predictive` for the prior arguments `prior` reports at the input `x` the entries
`v` under the key `key`. -/
def ReportsAt (lower : String → String) (pushforward predictive : EnumArg) (a : PredictiveArgs X K p) (prior : PriorArgs) (x : X) (key : String)
    (v : Fin (shapeSize a.net.shape) → ℝ) : Prop :=
  ∃ kind fns r, setupPushforward lower pushforward predictive none = .ok (kind, fns) ∧ setPushforward a kind fns prior x = .ok r ∧
    r.get? key = some (arrOf a.net.shape v)

end Laplax.Spec
