import Verif.Model.Api

/-! # Specification vocabulary for the API arguments -/

namespace Laplax.Spec
open Laplax

variable {A : Type}

/-- The documented values of the enum classes converted by the API (`CurvApprox`, `CalibrationObjective`,
`CalibrationMethod`, `Pushforward`, `Predictive`, `DefaultMetrics`). -/
def apiEnums : List (List String) :=
  [["full", "diagonal", "lanczos", "lobpcg"], ["nll", "chi_squared", "marginal_log_likelihood", "ece"], ["grid_search"],
    ["linear", "nonlinear"], ["mc_bridge", "laplace_bridge", "mean_field_0", "mean_field_1", "mean_field_2", "none"],
    ["classification", "regression"]]

/-- What the API accepts as a single batch (without looking at the loader case). -/
def IsBatch : PyObj A → Prop
  | .tup xs => xs.length = 2
  | .lst xs => xs.length = 2
  | .dct kvs => Dict.get? kvs "input" ≠ none ∧ Dict.get? kvs "target" ≠ none
  | _ => False

/-- Results keys of the default steps that matter for classification: which step stores a class probability under
`"mc_pred_act"` / `"special_pred_act"` (eval/pushforward.py:135, 441, 757). -/
def storesProb : PfName → Bool
  | .linMcPredAct | .nonlinMcPredAct | .linSpecialPredAct _ => true
  | _ => false

end Laplax.Spec
