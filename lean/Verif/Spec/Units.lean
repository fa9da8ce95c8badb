import Verif.Spec.Uncertainty

/-! # Specification of a change of the units of the outputs -/

namespace Laplax.Spec
open Laplax

variable {X : Type} {p : ℕ}

/-- The same model with its outputs in other units: `y` becomes `u * y + b` (degrees Celsius to Fahrenheit: `u = 9/5`, `b = 32`). -/
def inUnits (net : Net X p) (u b : ℝ) : Net X p := ⟨net.shape, fun x v k => u * net.fn x v k + b⟩

/-- Conversion of an entry of a prediction: outputs are converted like the model output, standard deviations by the factor only, variances
and covariances by its square. -/
noncomputable def converted (u b : ℝ) (key : String) (a : Arr ℝ) : Arr ℝ :=
  ⟨a.shape, a.data.map fun y =>
    if key ∈ ["map", "pred_mean", "samples"] then u * y + b else if key = "pred_std" then u * y else u ^ 2 * y⟩

end Laplax.Spec
