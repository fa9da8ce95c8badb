import Mathlib.Probability.Distributions.Gaussian.Multivariate
import Mathlib.Probability.Independence.Basic
import Verif.Spec.Predictive

/-! # Specification: moments of the model outputs under the Gaussian posterior -/

namespace Laplax.Spec
open Laplax
open MeasureTheory ProbabilityTheory WithLp
open scoped BigOperators Matrix

variable {p c : ℕ}

/-- The draws of the weight samples are standard normal vectors, independent of each other. -/
structure IndependentNormal {Ω : Type} [MeasurableSpace Ω] (μ : Measure Ω) {S : ℕ} (eps : Ω → Fin S → Vec p) : Prop where
  meas : ∀ i, AEMeasurable (fun ω => eps ω i) μ
  law : ∀ i, μ.map (fun ω => eps ω i) = Measure.pi fun _ => gaussianReal 0 1
  indep : ∀ i l, i ≠ l → IndepFun (fun ω => eps ω i) (fun ω => eps ω l) μ

/-- The posterior over the weights: the Gaussian with mean `θ` and precision `P`. -/
noncomputable def weightLaw (θ : Vec p) (P : Matrix (Fin p) (Fin p) ℝ) : Measure (EuclideanSpace ℝ (Fin p)) :=
  multivariateGaussian (toLp 2 θ) P⁻¹

/-- The expectation of the `j`-th entry of `g` under the posterior. -/
noncomputable def expectOut (θ : Vec p) (P : Matrix (Fin p) (Fin p) ℝ) (g : Vec p → Vec c) (j : Fin c) : ℝ :=
  ∫ z, g (ofLp z) j ∂(weightLaw θ P)

/-- The covariance of the `j`-th and `k`-th entry of `g` under the posterior. -/
noncomputable def covOut (θ : Vec p) (P : Matrix (Fin p) (Fin p) ℝ) (g : Vec p → Vec c) (j k : Fin c) : ℝ :=
  ∫ z, (g (ofLp z) j - expectOut θ P g j) * (g (ofLp z) k - expectOut θ P g k) ∂(weightLaw θ P)

/-- The outputs of `g` have second moments under the posterior. -/
def SquareIntegrable (θ : Vec p) (P : Matrix (Fin p) (Fin p) ℝ) (g : Vec p → Vec c) : Prop :=
  Measurable g ∧ ∀ j, Integrable (fun z => g (ofLp z) j ^ 2) (weightLaw θ P)

end Laplax.Spec
