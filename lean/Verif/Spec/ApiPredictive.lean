import Verif.Spec.Predictive
import Verif.Model.ApiPredictive

/-! # Specification of the predictive selected by name -/

namespace Laplax.Spec
open Laplax
open scoped BigOperators Matrix

/-- What each key of the default linearised predictive of the given type holds (no other key is present): mean `f`, variances
`V_ii`, standard deviations; for `mc_bridge` the samples `s` and their mean softmax, also under `pred_act`; for a mean-field type the
mean-field probabilities, also under `pred_act` (and the covariance for `mean_field_2`). -/
noncomputable def apiExpected {S c : ℕ} (sh : List ℕ) (f : Fin c → ℝ) (V : Matrix (Fin c) (Fin c) ℝ) (s : Fin S → Fin c → ℝ)
    (predictive key : String) : Option (Arr ℝ) :=
  if key = "map" ∨ key = "pred_mean" then some (arrOf sh f)
  else if key = "pred_var" then some (arrOf sh fun i => V i i)
  else if key = "pred_std" then some (arrOf sh fun i => Real.sqrt (V i i))
  else if predictive = "none" then none
  else if predictive = "mc_bridge" then
    if key = "samples" then some (ensArr sh s)
    else if key = "mc_pred_act" ∨ key = "pred_act" then some (arrOf sh (ensSoftmax s)) else none
  else if key = "pred_cov" ∧ predictive = "mean_field_2" then some (denseArr V)
  else if key = "special_pred_act" ∨ key = "pred_act" then some (arrOf sh (specialOf predictive f V))
  else none

/-- Which predictive types the linearised predictive supports for outputs of shape `sh` and `S` samples: `none` always; the
class probabilities need a 1-D output, and samples for `mc_bridge`. -/
def ApiUsable (sh : List ℕ) (S : ℕ) (predictive : String) : Prop :=
  predictive = "none" ∨ (predictive = "mc_bridge" ∧ sh.length = 1 ∧ 0 < S) ∨
    (predictive ∈ ["mean_field_0", "mean_field_1", "mean_field_2"] ∧ sh.length = 1 ∧ 0 < shapeSize sh)

/-- What each key of the default sampled predictive holds: model output, mean and standard deviation (`ddof = 0`) of the ensemble
`s`, and for `mc_bridge` the first five members and the mean of their softmax. -/
noncomputable def apiNonlinExpected {S c : ℕ} (sh : List ℕ) (f : Fin c → ℝ) (s : Fin S → Fin c → ℝ) (predictive key : String) :
    Option (Arr ℝ) :=
  if key = "map" then some (arrOf sh f)
  else if key = "pred_mean" then some (arrOf sh (ensMean s))
  else if key = "pred_std" then some (arrOf sh fun j => Real.sqrt (ensCov s 0 j j))
  else if predictive = "mc_bridge" ∧ key = "samples" then some (ensArr sh (ensTake 5 s))
  else if predictive = "mc_bridge" ∧ key = "mc_pred_act" then some (arrOf sh (ensSoftmax (ensTake 5 s)))
  else none

end Laplax.Spec
