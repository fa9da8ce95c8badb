import Verif.Model.Loss
import Mathlib.Probability.Distributions.Gaussian.Real
import Mathlib.Probability.CDF
import Mathlib.Analysis.SpecialFunctions.Trigonometric.Basic

/-! # What the evaluation metrics are supposed to be (independent of the code's formulas) -/

namespace Laplax.Spec
open Laplax
open scoped BigOperators

/-- `x` lies in the `b`-th of `nb` equal bins of `[0,1]`: `b/nb ≤ x < (b+1)/nb`, the last bin closed at 1. -/
def InBin (nb b : ℕ) (x : ℝ) : Prop :=
  (b : ℝ) / nb ≤ x ∧ (x < ((b : ℝ) + 1) / nb ∨ (b + 1 = nb ∧ x ≤ 1))

/-- The samples whose confidence falls in bin `b`. -/
noncomputable def bin {n : ℕ} (nb : ℕ) (conf : Vec n) (b : ℕ) : Finset (Fin n) :=
  by classical exact Finset.univ.filter (fun i => InBin nb b (conf i))

/-- Average of `v` over a set of samples. -/
noncomputable def avg {n : ℕ} (B : Finset (Fin n)) (v : Vec n) : ℝ := (∑ i ∈ B, v i) / B.card

/-- Gap between accuracy and confidence in bin `b`. -/
noncomputable def gap {n : ℕ} (nb : ℕ) (conf corr : Vec n) (b : ℕ) : ℝ :=
  |avg (bin nb conf b) corr - avg (bin nb conf b) conf|

/-- Expected calibration error. -/
noncomputable def ece {n : ℕ} (nb : ℕ) (conf corr : Vec n) : ℝ :=
  ∑ b ∈ Finset.range nb, ((bin nb conf b).card : ℝ) / n * gap nb conf corr b

/-- Class `y` is among the `k` best of the scores `z`: fewer than `k` classes are ranked before it (higher score, or equal
score and smaller index). -/
def AmongTop {c : ℕ} (z : Vec c) (k : ℕ) (y : Fin c) : Prop :=
  by classical exact (Finset.univ.filter (fun j => z y < z j ∨ (z j = z y ∧ j < y))).card < k

/-- Probability vectors. -/
def IsProb {c : ℕ} (p : Vec c) : Prop := (∀ k, 0 ≤ p k) ∧ ∑ k, p k = 1

/-- The (multiclass) Brier score: mean over samples of the squared distance between prediction and one-hot target. -/
noncomputable def brier {n c : ℕ} (prob : Fin n → Vec c) (y : Fin n → Fin c) : ℝ :=
  (∑ i, ∑ k, (prob i k - if k = y i then 1 else 0) ^ 2) / n

/-- Continuous ranked probability score of the normal distribution with mean `μ` and standard deviation `σ` at `y`:
`∫ (F(x) - 1[y ≤ x])² dx` with `F` its distribution function. -/
noncomputable def crps (μ σ y : ℝ) : ℝ :=
  ∫ x, (ProbabilityTheory.cdf (ProbabilityTheory.gaussianReal μ (Real.toNNReal (σ ^ 2))) x - (if y ≤ x then 1 else 0)) ^ 2

/-- Negative log density of the normal distribution with mean `μ` and standard deviation `σ` at `y`. -/
noncomputable def negLogDensity (μ σ y : ℝ) : ℝ :=
  -Real.log (ProbabilityTheory.gaussianPDFReal μ (Real.toNNReal (σ ^ 2)) y)

section
variable {c : ℕ}

/-- The Laplace bridge predictive for a `C`-class Gaussian with mean `μ` and variances `v` (Hobbhahn et al.): Dirichlet
parameters `(1 - 2/C + e^{μ_k}/C² Σ_j e^{-μ_j}) / v_k`, normalised. -/
noncomputable def bridgeSpec (mean var : Vec c) : Vec c :=
  let α : Vec c := fun k => (1 - 2 / (c : ℝ) + Real.exp (mean k) * (∑ j, Real.exp (-mean j)) / (c : ℝ) ^ 2) / var k
  fun k => α k / ∑ j, α j

end

end Laplax.Spec
