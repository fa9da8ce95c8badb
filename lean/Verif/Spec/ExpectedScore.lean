import Verif.Model.Metrics
import Mathlib.MeasureTheory.Integral.Bochner.Basic

/-! # Scores on average over random data (independent of the code's formulas) -/

namespace Laplax.Spec
open Laplax MeasureTheory

/-- The score computed from the random data never raises, and its average over the data is `e`. -/
def ExpectedScore {Ω : Type} [MeasurableSpace Ω] (P : Measure Ω) (score : Ω → Except Err ℝ) (e : ℝ) : Prop :=
  ∃ val : Ω → ℝ, (∀ ω, score ω = .ok (val ω)) ∧ Integrable val P ∧ ∫ ω, val ω ∂P = e

end Laplax.Spec
