import Verif.Spec.Calibrate
import Verif.Spec.Metrics
import Verif.Spec.Accuracy
import Verif.Spec.Likelihood
import Verif.Spec.Laplace
import Verif.Spec.ApiPredictive

/-! # Specification of a calibration run -/

namespace Laplax.Spec
open Laplax
open scoped BigOperators Matrix

/-- `n` prior precisions whose decimal logarithms are equally spaced from `lo` to `hi`. -/
noncomputable def precGrid (lo hi : ℝ) (n : ℕ) : List ℝ :=
  List.ofFn fun i : Fin n => (10 : ℝ) ^ (lo + (i.val : ℝ) * ((hi - lo) / ((n : ℝ) - 1)))

/-- `q` is the choice of a search through the candidates `xs` with score `s` (smaller is better) and the given patience: the first
`n ≥ 1` candidates are tried, where `n` is the first count at which the stopping rule fires, and `q` is the first best of them. -/
def ChosenBy (xs : List ℝ) (s : ℝ → WithTop ℝ) (patience : Option Int) (q : ℝ) (tried : List ℝ) : Prop :=
  ∃ n i : ℕ, i < n ∧ n ≤ xs.length ∧ MustStop (fun j => s (xs.getD j 0)) xs.length patience none n ∧
    (∀ m, 1 ≤ m → m < n → ¬ MustStop (fun j => s (xs.getD j 0)) xs.length patience none m) ∧
    IsFirstMin (fun j => s (xs.getD j 0)) n i ∧ xs[i]? = some q ∧ tried = xs.take n

/-- Without patience: everything is tried and `q` is the first best candidate of all. -/
def BestOf (xs : List ℝ) (s : ℝ → WithTop ℝ) (q : ℝ) : Prop :=
  q ∈ xs ∧ (∀ x ∈ xs, s q ≤ s x) ∧ ∃ i : ℕ, xs[i]? = some q ∧ ∀ (j : ℕ) (x : ℝ), j < i → xs[j]? = some x → s q < s x

/-- The caller gave `Predictive.NONE` or the exact string `"none"`; only then does `calibration` treat the problem as regression. -/
def NoPredictive (predictive : EnumArg) : Prop := predictive = .member "none" ∨ predictive = .str "none"

variable {X : Type} {p c N : ℕ}

/-- The covariance `J_x P⁻¹ J_xᵀ` of the linearised predictive at `x`, with `P` the precision for the prior precision `τ`. -/
noncomputable def predCovAt (f : X → (Fin p → ℝ) → (Fin c → ℝ)) (θ : Fin p → ℝ) (est : CurvEstimate p) (τ : ℝ) (x : X) :
    Matrix (Fin c) (Fin c) ℝ :=
  jacobian (f x) θ * (targetPrecision τ 1 1 est)⁻¹ * (jacobian (f x) θ)ᵀ

/-- Mean negative log density of the target entries under the predictive normal distributions of the output entries. -/
noncomputable def nllScore (f : X → (Fin p → ℝ) → (Fin c → ℝ)) (θ : Fin p → ℝ) (est : CurvEstimate p) (xs : Fin N → X)
    (ys : Fin N → Fin c → ℝ) (τ : ℝ) : ℝ :=
  (∑ i, ∑ k, negLogDensity (f (xs i) θ k) (Real.sqrt (predCovAt f θ est τ (xs i) k k)) (ys i k)) / ((N : ℝ) * c)

/-- Distance of the mean squared standardised residual from 1. -/
noncomputable def chi2Score (f : X → (Fin p → ℝ) → (Fin c → ℝ)) (θ : Fin p → ℝ) (est : CurvEstimate p) (xs : Fin N → X)
    (ys : Fin N → Fin c → ℝ) (τ : ℝ) : ℝ :=
  |(∑ i, ∑ k, (ys i k - f (xs i) θ k) ^ 2 / predCovAt f θ est τ (xs i) k k) / ((N : ℝ) * c) - 1|

/-- The largest entry of a vector. -/
noncomputable def maxEntry (z : Fin c → ℝ) : ℝ := ⨆ k, z k

/-- The class probabilities of the predictive of type `pr` with mean `f`, covariance `V` and samples `s`. -/
noncomputable def classProbs {S : ℕ} (pr : String) (f : Fin c → ℝ) (V : Matrix (Fin c) (Fin c) ℝ) (s : Fin S → Fin c → ℝ) : Fin c → ℝ :=
  if pr = "mc_bridge" then ensSoftmax s else specialOf pr f V

/-- The training loss of the batch at the parameters: the sum of squared errors for the name `mse`, the user's function otherwise. -/
def BatchLoss (f : X → (Fin p → ℝ) → (Fin c → ℝ)) (θ : Fin p → ℝ) (loss : HessLossArg N c) (xs : Fin N → X) (ys : Fin N → Fin c → ℝ)
    (L : ℝ) : Prop :=
  loss = .name "mse" ∧ L = ∑ i, ∑ k, (f (xs i) θ k - ys i k) ^ 2 ∨ ∃ ℓ, loss = .callable ℓ ∧ L = ℓ (fun i => f (xs i) θ) ys

/-- Negative log evidence of the Laplace approximation: likelihood `exp(-L/2)`, prior `N(0, τ⁻¹ I)`, posterior precision at `τ`. -/
noncomputable def mllScore (θ : Fin p → ℝ) (est : CurvEstimate p) (L τ : ℝ) : ℝ :=
  -logEvidence (-(L / 2) + logPrior τ (List.ofFn θ)) (targetPrecision τ 1 1 est)

/-- The score of the sampled predictive: mean negative log density under the ensemble's means and standard deviations. -/
noncomputable def ensNllScore {S : ℕ} (s : Fin N → Fin S → Fin c → ℝ) (ys : Fin N → Fin c → ℝ) : ℝ :=
  (∑ i, ∑ k, negLogDensity (ensMean (s i) k) (Real.sqrt (ensCov (s i) 0 k k)) (ys i k)) / ((N : ℝ) * c)

/-- `g` is the sampled predictive of type `pr` for the prior precision `τ`. -/
def SampledPredictive {K : Type} (a : PredictiveArgs X K p) (θ : Fin p → ℝ) (est : CurvEstimate p) (pr : String)
    (eps : Fin a.numSamples → Fin p → ℝ) (R : Matrix (Fin p) (Fin p) ℝ) (τ : ℝ) (g : X → Except Err (Dict (Arr ℝ))) : Prop :=
  R * Rᵀ = (targetPrecision τ 1 1 est)⁻¹ ∧ ∀ x, ∃ r, g x = .ok r ∧
    ∀ key, r.get? key = apiNonlinExpected a.net.shape (a.net.fn x θ) (fun i => a.net.fn x (θ + R *ᵥ eps i)) pr key

/-- The setting of an API call with the linearised predictive of type `pr`: any accepted spelling of the two names, a positive
semidefinite curvature estimate whose posterior function is passed on, and parameters with the entries `θ`. -/
structure ApiLinear {K : Type} (lower : String → String) (pushforward predictive : EnumArg) (pr : String) (a : PredictiveArgs X K p)
    (θ : Fin p → ℝ) (est : CurvEstimate p) : Prop where
  pushforward : convertToEnum lower pushforwardValues false pushforward = .ok (.member "linear")
  predictive : convertToEnum lower predictiveValues false predictive = .ok (.member pr)
  rng : RngOk a.rng
  nonempty : 0 < p
  wf : WFTree a.params
  params : entries a.params = List.ofFn θ
  psd : EstimatePsd est
  posterior : a.posteriorFn = fun prior s => setPosteriorFn est (.tree a.params) prior s
  usable : ApiUsable a.net.shape a.numSamples pr

/-- The setting of an API call with the sampled (nonlinear) predictive. -/
structure ApiNonlinear {K : Type} (lower : String → String) (pushforward predictive : EnumArg) (pr : String) (a : PredictiveArgs X K p)
    (θ : Fin p → ℝ) (est : CurvEstimate p) : Prop where
  pushforward : convertToEnum lower pushforwardValues false pushforward = .ok (.member "nonlinear")
  predictive : convertToEnum lower predictiveValues false predictive = .ok (.member pr)
  rng : RngOk a.rng
  nonempty : 0 < p
  wf : WFTree a.params
  params : entries a.params = List.ofFn θ
  psd : EstimatePsd est
  posterior : a.posteriorFn = fun prior s => setPosteriorFn est (.tree a.params) prior s
  samples : 0 < a.numSamples
  usable : pr = "none" ∨ pr = "mc_bridge" ∧ a.net.shape.length = 1

/-- `data` is one batch (a pair or a mapping) holding the inputs `xs` and the targets `ts`. -/
def BatchIs {A : Type} (points : PyObj A → PyObj A → Except Err (List (X × Arr ℝ))) (data : PyObj A) (xs : Fin N → X)
    (ts : Fin N → Arr ℝ) : Prop :=
  ∃ xy, BatchOf data xy ∧ points xy.1 xy.2 = .ok (List.ofFn fun i => (xs i, ts i))

/-- `g` is the linearised predictive of type `pr` for the prior precision `τ`, with the samples drawn from `eps` by the factor `R` of
the posterior covariance. -/
def LinearPredictive {K : Type} (a : PredictiveArgs X K p) (θ : Fin p → ℝ) (est : CurvEstimate p) (pr : String)
    (eps : Fin a.numSamples → Fin p → ℝ) (R : Matrix (Fin p) (Fin p) ℝ) (τ : ℝ) (g : X → Except Err (Dict (Arr ℝ))) : Prop :=
  R * Rᵀ = (targetPrecision τ 1 1 est)⁻¹ ∧ ∀ x, ∃ r, g x = .ok r ∧
    ∀ key, r.get? key = apiExpected a.net.shape (a.net.fn x θ) (predCovAt a.net.fn θ est τ x)
      (fun i => a.net.fn x θ + jacobian (a.net.fn x) θ *ᵥ (R *ᵥ eps i)) pr key

/-- A class label as an integer array without axes. -/
def labelArr (y : Fin c) : Arr ℝ := ⟨[], [(y.val : ℝ)]⟩

open Classical in
/-- Expected calibration error over 15 bins: confidence is the largest class probability, a point counts as correct when its label
is the class at which the network output is (first) maximal. -/
noncomputable def eceScore (out probs : Fin N → Fin c → ℝ) (labels : Fin N → Fin c) : ℝ :=
  ece 15 (fun i => maxEntry (probs i)) (fun i => if IsFirstMax (out i) (labels i) then 1 else 0)

end Laplax.Spec
