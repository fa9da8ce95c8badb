import Verif.Lib.SampleMoments
import Verif.Lib.GaussianAffine
import Verif.Spec.SampleEstimates
import Verif.Props.PushforwardNonlin
import Verif.Props.WeightSamples
import Verif.Props.Exact

/-! # C66: sampled predictive statistics are unbiased estimates of the output distribution under the posterior -/

namespace Laplax.Props
open Laplax Laplax.Spec
open MeasureTheory ProbabilityTheory WithLp
open scoped BigOperators Matrix

variable {X K : Type} {p c : ℕ}

section
variable {Ω : Type} [MeasurableSpace Ω] {μ : Measure Ω} [IsProbabilityMeasure μ] {S : ℕ} {eps : Ω → Fin S → Vec p}

theorem weights_law (hN : IndependentNormal μ eps) {θ : Vec p} {P R : Matrix (Fin p) (Fin p) ℝ} (hR : R * Rᵀ = P⁻¹) (i : Fin S) :
    μ.map (fun ω => toLp 2 (θ + R *ᵥ eps ω i)) = weightLaw θ P := by
  rw [weightLaw, ← hR, ← map_affine_stdNormal, ← hN.law i,
    AEMeasurable.map_map_of_aemeasurable (measurable_affine θ R).aemeasurable (hN.meas i)]
  rfl

theorem weights_meas (hN : IndependentNormal μ eps) (θ : Vec p) (R : Matrix (Fin p) (Fin p) ℝ) (i : Fin S) :
    AEMeasurable (fun ω => toLp 2 (θ + R *ᵥ eps ω i)) μ :=
  (measurable_affine θ R).comp_aemeasurable (hN.meas i)

theorem coord_meas {g : Vec p → Vec c} (hg : Measurable g) (j : Fin c) :
    Measurable (fun z : EuclideanSpace ℝ (Fin p) => g (ofLp z) j) :=
  (measurable_pi_apply j).comp (hg.comp (WithLp.measurable_ofLp 2 (Fin p → ℝ)))

/-- First moments of a function of the weight samples. -/
theorem sample_integral (hN : IndependentNormal μ eps) {θ : Vec p} {P R : Matrix (Fin p) (Fin p) ℝ} (hR : R * Rᵀ = P⁻¹)
    {g : Vec p → Vec c} (hg : Measurable g) (i : Fin S) (j : Fin c) :
    ∫ ω, g (θ + R *ᵥ eps ω i) j ∂μ = expectOut θ P g j := by
  rw [expectOut, ← weights_law hN hR i, integral_map (weights_meas hN θ R i) (coord_meas hg j).aestronglyMeasurable]

theorem sample_memLp (hN : IndependentNormal μ eps) {θ : Vec p} {P R : Matrix (Fin p) (Fin p) ℝ} (hR : R * Rᵀ = P⁻¹)
    {g : Vec p → Vec c} (hg : SquareIntegrable θ P g) (i : Fin S) (j : Fin c) :
    MemLp (fun ω => g (θ + R *ᵥ eps ω i) j) 2 μ := by
  have h1 : MemLp (fun z : EuclideanSpace ℝ (Fin p) => g (ofLp z) j) 2 (weightLaw θ P) :=
    (memLp_two_iff_integrable_sq (coord_meas hg.1 j).aestronglyMeasurable).2 (hg.2 j)
  rw [← weights_law hN hR i, memLp_map_measure_iff (coord_meas hg.1 j).aestronglyMeasurable (weights_meas hN θ R i)] at h1
  exact h1

theorem sample_cov (hN : IndependentNormal μ eps) {θ : Vec p} {P R : Matrix (Fin p) (Fin p) ℝ} (hR : R * Rᵀ = P⁻¹)
    {g : Vec p → Vec c} (hg : Measurable g) (i : Fin S) (j k : Fin c) :
    cov[fun ω => g (θ + R *ᵥ eps ω i) j, fun ω => g (θ + R *ᵥ eps ω i) k; μ] = covOut θ P g j k := by
  have : covOut θ P g j k = cov[fun z => g (ofLp z) j, fun z => g (ofLp z) k; weightLaw θ P] := rfl
  rw [this, ← weights_law hN hR i, covariance_map_fun (coord_meas hg j).aestronglyMeasurable (coord_meas hg k).aestronglyMeasurable
    (weights_meas hN θ R i)]

theorem sample_cross (hN : IndependentNormal μ eps) {θ : Vec p} {P R : Matrix (Fin p) (Fin p) ℝ} (hR : R * Rᵀ = P⁻¹)
    {g : Vec p → Vec c} (hg : SquareIntegrable θ P g) (i l : Fin S) (hil : i ≠ l) (j k : Fin c) :
    cov[fun ω => g (θ + R *ᵥ eps ω i) j, fun ω => g (θ + R *ᵥ eps ω l) k; μ] = 0 := by
  have hm : ∀ j, Measurable (fun e : Vec p => g (θ + R *ᵥ e) j) := fun j => (coord_meas hg.1 j).comp (measurable_affine θ R)
  exact ((hN.indep i l hil).comp (hm j) (hm k)).covariance_eq_zero (sample_memLp hN hR hg i j) (sample_memLp hN hR hg l k)

/-- Averages of softmax probabilities have second moments. -/
theorem softmax_squareIntegrable (θ : Vec p) (P : Matrix (Fin p) (Fin p) ℝ) {g : Vec p → Vec c} (hg : Measurable g) :
    SquareIntegrable θ P (fun w => softmaxOf (g w)) := by
  have hm : Measurable (fun w => softmaxOf (g w)) := by
    refine measurable_pi_lambda _ fun j => ?_
    have hj : ∀ j, Measurable fun w => g w j := fun j => (measurable_pi_apply j).comp hg
    simp only [softmaxOf]
    exact (Real.measurable_exp.comp (hj j)).div (Finset.measurable_sum _ fun l _ => Real.measurable_exp.comp (hj l))
  have : IsProbabilityMeasure (weightLaw θ P) := by rw [weightLaw]; infer_instance
  refine ⟨hm, fun j => ?_⟩
  refine Integrable.of_bound ((coord_meas hm j).pow_const 2).aestronglyMeasurable 1 (ae_of_all _ fun z => ?_)
  have h0 : ∀ l, 0 < Real.exp (g (ofLp z) l) := fun l => Real.exp_pos _
  have h1 : Real.exp (g (ofLp z) j) ≤ ∑ l, Real.exp (g (ofLp z) l) := Finset.single_le_sum (fun l _ => (h0 l).le) (Finset.mem_univ j)
  have hs : softmaxOf (g (ofLp z)) j ≤ 1 := by
    rw [softmaxOf, div_le_one (lt_of_lt_of_le (h0 j) h1)]; exact h1
  have hp : 0 ≤ softmaxOf (g (ofLp z)) j := div_nonneg (h0 j).le ((h0 j).le.trans h1)
  rw [Real.norm_of_nonneg (by positivity)]
  exact pow_le_one₀ hp hs

end

/-- Draws are determined by the PRNG. -/
theorem draws_unique {rng : Prng K} {key : Option K} {mean : PyTree ℝ} {S : ℕ} {eps eps' : Fin S → Vec p}
    (h : Draws rng key mean eps) (h' : Draws rng key mean eps') : eps = eps' := by
  funext i
  obtain ⟨k, t, a1, a2, a3⟩ := h i
  obtain ⟨k', t', b1, b2, b3⟩ := h' i
  rw [a1] at b1; cases b1
  rw [a2] at b2; cases b2
  exact List.ofFn_injective (a3.symm.trans b3)

/-- The sampled predictive with known draws. -/
theorem sampled_run (rng : Prng K) (hrng : RngOk rng) (net : Net X p) (mean : PyTree ℝ)
    (hwf : WFTree mean) (θ : Vec p) (hθ : entries mean = List.ofFn θ)
    (posteriorFn : PriorArgs → ℝ → Except Err (Posterior p)) (prior : PriorArgs) (lsf : ℝ) (post : Posterior p)
    (hpost : posteriorFn prior lsf = .ok post) (scale : List (PyTree ℝ) → Except Err (PyTree ℝ))
    (hscale : post.scaleMv post.state = .ok scale)
    (R : Matrix (Fin p) (Fin p) ℝ) (hR : ActsOnTrees mean scale (fun v => R *ᵥ v)) (key : Option K) (S : ℕ) (hS : 0 < S)
    (kw : PfKwargs K) (hkw : kw.precompute = none) (hb1 : kw.precomputeListBatchSize ≠ some 0)
    (hb2 : kw.nonlinSetupBatchSize ≠ some 0) (hb3 : kw.weightBatchSize ≠ some 0) (eps : Fin S → Vec p)
    (hd : Draws rng key mean eps) (x : X) (fns : List NonlinFn) (hu : ∀ fn ∈ fns, NonlinUsable net.shape fn)
    (hS2 : .predCov ∈ fns → 2 ≤ S) :
    ∃ r, nonlinPushforward rng net mean posteriorFn prior key lsf ((NonlinFn.setup :: fns).map NonlinFn.step) S kw x = .ok r ∧
      ∀ k, r.get? k = nonlinExpected net.shape (net.fn x θ) (fun i => net.fn x (θ + R *ᵥ eps i)) fns k := by
  obtain ⟨eps', hd', h⟩ := C36_sampled_predictive rng hrng net mean hwf θ hθ posteriorFn prior lsf post hpost scale hscale R hR key S
    hS kw hkw hb1 hb2 hb3
  rw [draws_unique hd hd']
  exact h x fns hu hS2

/-- **C66 (mean and covariance of the sampled predictive).** Let the PRNG be random such that the draws of the `S ≥ 2` weight samples
are independent standard normal vectors, and let the outputs of the model have second moments under the posterior `N(θ, P⁻¹)`.
Then the `pred_mean` the sampled predictive reports has, over the randomness of the PRNG, the expectation `E[f(x, w)]`,
`w ~ N(θ, P⁻¹)`, and the covariance `Cov[f(x, w)] / S`, and the `pred_cov` it reports has the expectation `Cov[f(x, w)]`. -/
theorem C66_sampled_mean_and_covariance {Ω : Type} [MeasurableSpace Ω] (μ : Measure Ω) [IsProbabilityMeasure μ]
    (rng : Ω → Prng K) (hr : ∀ ω, RngOk (rng ω))
    (net : Net X p) (mean : PyTree ℝ) (hwf : WFTree mean) (θ : Vec p) (hθ : entries mean = List.ofFn θ)
    (posteriorFn : PriorArgs → ℝ → Except Err (Posterior p)) (prior : PriorArgs) (lsf : ℝ) (post : Posterior p)
    (hpost : posteriorFn prior lsf = .ok post) (scale : List (PyTree ℝ) → Except Err (PyTree ℝ))
    (hscale : post.scaleMv post.state = .ok scale) (P : Matrix (Fin p) (Fin p) ℝ) (fc fs : Vec p → Vec p)
    (hP : IsPosterior P fc fs) (hs : ActsOnTrees mean scale fs) (key : Option K) (S : ℕ) (hS : 2 ≤ S)
    (kw : PfKwargs K) (hkw : kw.precompute = none) (hb1 : kw.precomputeListBatchSize ≠ some 0)
    (hb2 : kw.nonlinSetupBatchSize ≠ some 0) (hb3 : kw.weightBatchSize ≠ some 0)
    (eps : Ω → Fin S → Vec p) (hd : ∀ ω, Draws (rng ω) key mean (eps ω)) (hN : IndependentNormal μ eps) (x : X)
    (hL : SquareIntegrable θ P (net.fn x)) :
    ∃ (m : Ω → Vec (shapeSize net.shape)) (C : Ω → Matrix (Fin (shapeSize net.shape)) (Fin (shapeSize net.shape)) ℝ),
      (∀ ω, ∃ r, nonlinPushforward (rng ω) net mean posteriorFn prior key lsf
          ([NonlinFn.setup, .predMean, .predCov].map NonlinFn.step) S kw x = .ok r ∧
        r.get? "pred_mean" = some (arrOf net.shape (m ω)) ∧ r.get? "pred_cov" = some (covArrOf (C ω))) ∧
      (∀ j, ∫ ω, m ω j ∂μ = expectOut θ P (net.fn x) j) ∧
      (∀ j k, ∫ ω, C ω j k ∂μ = covOut θ P (net.fn x) j k) ∧
      (∀ j k, ∫ ω, (m ω j - expectOut θ P (net.fn x) j) * (m ω k - expectOut θ P (net.fn x) k) ∂μ =
        covOut θ P (net.fn x) j k / S) := by
  obtain ⟨_, _, _, R, hR1, hR2⟩ := hP
  have hS' : 0 < S := by omega
  let Y : Ω → Fin S → Vec (shapeSize net.shape) := fun ω i => net.fn x (θ + R *ᵥ eps ω i)
  have hm : ∀ i j, ∫ ω, Y ω i j ∂μ = expectOut θ P (net.fn x) j := fun i j => sample_integral hN hR2 hL.1 i j
  have hmem : ∀ i j, MemLp (fun ω => Y ω i j) 2 μ := fun i j => sample_memLp hN hR2 hL i j
  have hV : ∀ i j k, cov[fun ω => Y ω i j, fun ω => Y ω i k; μ] = covOut θ P (net.fn x) j k :=
    fun i j k => sample_cov hN hR2 hL.1 i j k
  have h0 : ∀ i l, i ≠ l → ∀ j k, cov[fun ω => Y ω i j, fun ω => Y ω l k; μ] = 0 :=
    fun i l hil j k => sample_cross hN hR2 hL i l hil j k
  have hmean := integral_ensMean hS' (fun i j => (hmem i j).integrable (by norm_num)) hm
  refine ⟨fun ω => ensMean (Y ω), fun ω => ensCov (Y ω) 1, fun ω => ?_, hmean, fun j k => ?_, fun j k => ?_⟩
  · obtain ⟨r, hr1, hr2⟩ := sampled_run (rng ω) (hr ω) net mean hwf θ hθ posteriorFn prior lsf post hpost scale hscale R
      (fun u y a b => by have := hs u y a b; rwa [hR1] at this) key S hS' kw hkw hb1 hb2 hb3 (eps ω) (hd ω) x
      [.predMean, .predCov] (by simp [NonlinUsable]) (fun _ => hS)
    refine ⟨r, hr1, ?_, ?_⟩
    · rw [hr2]; simp [nonlinExpected]; rfl
    · rw [hr2]; simp [nonlinExpected, ddofs, statReq, Ddofs.next]; rfl
  · rw [integral_ensCov hS' hmem hm hV h0 1 j k]
    have : (S : ℝ) - 1 ≠ 0 := by
      have : (2 : ℝ) ≤ S := by exact_mod_cast hS
      linarith
    field_simp
  · rw [← cov_ensMean hS' hmem hV h0 j k, covariance, hmean, hmean]

/-- **C66 (variance of the sampled predictive).** The `pred_var` requested after `pred_cov` has the expectation `Var[f(x, w)_j]`; the
one requested without it has the expectation `(S-1)/S · Var[f(x, w)_j]` — it underestimates the variance by the factor `(S-1)/S`. -/
theorem C66_sampled_variance {Ω : Type} [MeasurableSpace Ω] (μ : Measure Ω) [IsProbabilityMeasure μ]
    (rng : Ω → Prng K) (hr : ∀ ω, RngOk (rng ω))
    (net : Net X p) (mean : PyTree ℝ) (hwf : WFTree mean) (θ : Vec p) (hθ : entries mean = List.ofFn θ)
    (posteriorFn : PriorArgs → ℝ → Except Err (Posterior p)) (prior : PriorArgs) (lsf : ℝ) (post : Posterior p)
    (hpost : posteriorFn prior lsf = .ok post) (scale : List (PyTree ℝ) → Except Err (PyTree ℝ))
    (hscale : post.scaleMv post.state = .ok scale) (P : Matrix (Fin p) (Fin p) ℝ) (fc fs : Vec p → Vec p)
    (hP : IsPosterior P fc fs) (hs : ActsOnTrees mean scale fs) (key : Option K) (S : ℕ) (hS : 0 < S)
    (kw : PfKwargs K) (hkw : kw.precompute = none) (hb1 : kw.precomputeListBatchSize ≠ some 0)
    (hb2 : kw.nonlinSetupBatchSize ≠ some 0) (hb3 : kw.weightBatchSize ≠ some 0)
    (eps : Ω → Fin S → Vec p) (hd : ∀ ω, Draws (rng ω) key mean (eps ω)) (hN : IndependentNormal μ eps) (x : X)
    (hL : SquareIntegrable θ P (net.fn x)) :
    (2 ≤ S → ∃ v : Ω → Vec (shapeSize net.shape),
      (∀ ω, ∃ r, nonlinPushforward (rng ω) net mean posteriorFn prior key lsf
          ([NonlinFn.setup, .predCov, .predVar].map NonlinFn.step) S kw x = .ok r ∧
        r.get? "pred_var" = some (arrOf net.shape (v ω))) ∧
      ∀ j, ∫ ω, v ω j ∂μ = covOut θ P (net.fn x) j j) ∧
    ∃ v : Ω → Vec (shapeSize net.shape),
      (∀ ω, ∃ r, nonlinPushforward (rng ω) net mean posteriorFn prior key lsf
          ([NonlinFn.setup, .predVar].map NonlinFn.step) S kw x = .ok r ∧
        r.get? "pred_var" = some (arrOf net.shape (v ω))) ∧
      ∀ j, ∫ ω, v ω j ∂μ = ((S : ℝ) - 1) / S * covOut θ P (net.fn x) j j := by
  obtain ⟨_, _, _, R, hR1, hR2⟩ := hP
  let Y : Ω → Fin S → Vec (shapeSize net.shape) := fun ω i => net.fn x (θ + R *ᵥ eps ω i)
  have hm : ∀ i j, ∫ ω, Y ω i j ∂μ = expectOut θ P (net.fn x) j := fun i j => sample_integral hN hR2 hL.1 i j
  have hmem : ∀ i j, MemLp (fun ω => Y ω i j) 2 μ := fun i j => sample_memLp hN hR2 hL i j
  have hV : ∀ i j k, cov[fun ω => Y ω i j, fun ω => Y ω i k; μ] = covOut θ P (net.fn x) j k :=
    fun i j k => sample_cov hN hR2 hL.1 i j k
  have h0 : ∀ i l, i ≠ l → ∀ j k, cov[fun ω => Y ω i j, fun ω => Y ω l k; μ] = 0 :=
    fun i l hil j k => sample_cross hN hR2 hL i l hil j k
  have hrun := fun (ω : Ω) => sampled_run (rng ω) (hr ω) net mean hwf θ hθ posteriorFn prior lsf post hpost scale hscale R
      (fun u y a b => by have := hs u y a b; rwa [hR1] at this) key S hS kw hkw hb1 hb2 hb3 (eps ω) (hd ω) x
  refine ⟨fun hS2 => ⟨fun ω j => ensCov (Y ω) 1 j j, fun ω => ?_, fun j => ?_⟩, fun ω j => ensCov (Y ω) 0 j j, fun ω => ?_, fun j => ?_⟩
  · obtain ⟨r, hr1, hr2⟩ := hrun ω [.predCov, .predVar] (by simp [NonlinUsable]) (fun _ => hS2)
    refine ⟨r, hr1, ?_⟩
    rw [hr2]; simp [nonlinExpected, ddofs, statReq, Ddofs.next]; rfl
  · rw [integral_ensCov hS hmem hm hV h0 1 j j]
    have : (S : ℝ) - 1 ≠ 0 := by
      have : (2 : ℝ) ≤ S := by exact_mod_cast hS2
      linarith
    field_simp
  · obtain ⟨r, hr1, hr2⟩ := hrun ω [.predVar] (by simp [NonlinUsable]) (by simp)
    refine ⟨r, hr1, ?_⟩
    rw [hr2]; simp [nonlinExpected, ddofs, statReq, Ddofs.next]; rfl
  · rw [integral_ensCov hS hmem hm hV h0 0 j j, sub_zero]

/-- **C66 (probabilities of the sampled predictive).** The `mc_pred_act` of the sampled predictive — for every measurable model, no
moment assumption — has the expectation `E[softmax(f(x, w))]` under the posterior, and the covariance `Cov[softmax(f(x, w))] / min(5, S)`:
it averages at most five samples, so its error does not decrease beyond five of them. -/
theorem C66_sampled_probabilities {Ω : Type} [MeasurableSpace Ω] (μ : Measure Ω) [IsProbabilityMeasure μ]
    (rng : Ω → Prng K) (hr : ∀ ω, RngOk (rng ω))
    (net : Net X p) (mean : PyTree ℝ) (hwf : WFTree mean) (θ : Vec p) (hθ : entries mean = List.ofFn θ)
    (posteriorFn : PriorArgs → ℝ → Except Err (Posterior p)) (prior : PriorArgs) (lsf : ℝ) (post : Posterior p)
    (hpost : posteriorFn prior lsf = .ok post) (scale : List (PyTree ℝ) → Except Err (PyTree ℝ))
    (hscale : post.scaleMv post.state = .ok scale) (P : Matrix (Fin p) (Fin p) ℝ) (fc fs : Vec p → Vec p)
    (hP : IsPosterior P fc fs) (hs : ActsOnTrees mean scale fs) (key : Option K) (S : ℕ) (hS : 0 < S)
    (kw : PfKwargs K) (hkw : kw.precompute = none) (hb1 : kw.precomputeListBatchSize ≠ some 0)
    (hb2 : kw.nonlinSetupBatchSize ≠ some 0) (hb3 : kw.weightBatchSize ≠ some 0) (hsh : net.shape.length = 1)
    (eps : Ω → Fin S → Vec p) (hd : ∀ ω, Draws (rng ω) key mean (eps ω)) (hN : IndependentNormal μ eps) (x : X)
    (hg : Measurable (net.fn x)) :
    ∃ q : Ω → Vec (shapeSize net.shape),
      (∀ ω, ∃ r, nonlinPushforward (rng ω) net mean posteriorFn prior key lsf
          ([NonlinFn.setup, .mcPredAct].map NonlinFn.step) S kw x = .ok r ∧
        r.get? "mc_pred_act" = some (arrOf net.shape (q ω))) ∧
      (∀ k, ∫ ω, q ω k ∂μ = expectOut θ P (fun w => softmaxOf (net.fn x w)) k) ∧
      ∀ j k, ∫ ω, (q ω j - expectOut θ P (fun w => softmaxOf (net.fn x w)) j) * (q ω k - expectOut θ P (fun w => softmaxOf (net.fn x w)) k) ∂μ =
        covOut θ P (fun w => softmaxOf (net.fn x w)) j k / (min 5 S : ℕ) := by
  obtain ⟨_, _, _, R, hR1, hR2⟩ := hP
  have hL := softmax_squareIntegrable θ P hg
  let Y : Ω → Fin (min 5 S) → Vec (shapeSize net.shape) := fun ω i => softmaxOf (net.fn x (θ + R *ᵥ eps ω ⟨i.val, by omega⟩))
  have hm : ∀ i j, ∫ ω, Y ω i j ∂μ = expectOut θ P (fun w => softmaxOf (net.fn x w)) j :=
    fun i j => sample_integral hN hR2 hL.1 ⟨i.val, by omega⟩ j
  have hmem : ∀ i j, MemLp (fun ω => Y ω i j) 2 μ := fun i j => sample_memLp hN hR2 hL ⟨i.val, by omega⟩ j
  have hV : ∀ i j k, cov[fun ω => Y ω i j, fun ω => Y ω i k; μ] = covOut θ P (fun w => softmaxOf (net.fn x w)) j k :=
    fun i j k => sample_cov hN hR2 hL.1 ⟨i.val, by omega⟩ j k
  have h0 : ∀ i l, i ≠ l → ∀ j k, cov[fun ω => Y ω i j, fun ω => Y ω l k; μ] = 0 :=
    fun i l hil j k => sample_cross hN hR2 hL ⟨i.val, by omega⟩ ⟨l.val, by omega⟩ (fun h => hil (Fin.ext (by simpa using h))) j k
  have hS' : 0 < min 5 S := by omega
  have hmean := integral_ensMean hS' (fun i j => (hmem i j).integrable (by norm_num)) hm
  refine ⟨fun ω => ensMean (Y ω), fun ω => ?_, hmean, fun j k => ?_⟩
  · obtain ⟨r, hr1, hr2⟩ := sampled_run (rng ω) (hr ω) net mean hwf θ hθ posteriorFn prior lsf post hpost scale hscale R
      (fun u y a b => by have := hs u y a b; rwa [hR1] at this) key S hS kw hkw hb1 hb2 hb3 (eps ω) (hd ω) x
      [.mcPredAct] (by simp [NonlinUsable, hsh]) (by simp)
    refine ⟨r, hr1, ?_⟩
    rw [hr2]; simp [nonlinExpected]; rfl
  · rw [← cov_ensMean hS' hmem hV h0 j k, covariance, hmean, hmean]

/-- **C66 (probabilities of the linearised predictive).** The `mc_pred_act` of the linearised predictive has the expectation
`E[softmax(f(x, θ) + J (w - θ))]`, `w ~ N(θ, P⁻¹)`, and the covariance of that softmax divided by the number of samples `S`. -/
theorem C66_linearized_probabilities {Ω : Type} [MeasurableSpace Ω] (μ : Measure Ω) [IsProbabilityMeasure μ]
    (rng : Ω → Prng K) (hr : ∀ ω, RngOk (rng ω))
    (net : Net X p) (mean : PyTree ℝ) (hp : 0 < p) (hwf : WFTree mean) (θ : Vec p) (hθ : entries mean = List.ofFn θ)
    (posteriorFn : PriorArgs → ℝ → Except Err (Posterior p)) (prior : PriorArgs) (lsf : ℝ) (post : Posterior p)
    (hpost : posteriorFn prior lsf = .ok post) (cov scale : List (PyTree ℝ) → Except Err (PyTree ℝ))
    (hcov : post.covMv post.state = .ok cov) (hscale : post.scaleMv post.state = .ok scale)
    (P : Matrix (Fin p) (Fin p) ℝ) (fc fs : Vec p → Vec p) (hP : IsPosterior P fc fs)
    (hc : ActsOnTrees mean cov fc) (hs : ActsOnTrees mean scale fs) (kw : PfKwargs K) (S : ℕ) (hS : kw.numSamples = some S)
    (hS0 : 0 < S) (hkw : kw.precompute = none) (hb1 : kw.precomputeListBatchSize ≠ some 0)
    (hb2 : kw.linSamplesBatchSize ≠ some 0) (hb3 : kw.weightBatchSize ≠ some 0) (hsh : net.shape.length = 1)
    (eps : Ω → Fin S → Vec p) (hd : ∀ ω, Draws (rng ω) kw.key mean (eps ω)) (hN : IndependentNormal μ eps) (x : X)
    (g : Vec p → Vec (shapeSize net.shape))
    (hg : g = fun w => softmaxOf (net.fn x θ + jacobian (net.fn x) θ *ᵥ (w - θ))) :
    ∃ q : Ω → Vec (shapeSize net.shape),
      (∀ ω, ∃ r, linPushforward (rng ω) net mean posteriorFn prior lsf
          ([LinFn.setup, .mcPredAct].map LinFn.step) kw x = .ok r ∧
        r.get? "mc_pred_act" = some (arrOf net.shape (q ω))) ∧
      (∀ k, ∫ ω, q ω k ∂μ = expectOut θ P g k) ∧
      ∀ j k, ∫ ω, (q ω j - expectOut θ P g j) * (q ω k - expectOut θ P g k) ∂μ = covOut θ P g j k / S := by
  subst hg
  obtain ⟨_, _, hfc, R, hR1, hR2⟩ := hP
  generalize hJ : jacobian (net.fn x) θ = J
  have hmeas : Measurable fun w : Vec p => net.fn x θ + J *ᵥ (w - θ) := by
    refine measurable_pi_iff.2 fun i => ?_
    simp only [Pi.add_apply, Matrix.mulVec, dotProduct, Pi.sub_apply]
    fun_prop
  have hL := softmax_squareIntegrable θ P hmeas
  let Y : Ω → Fin S → Vec (shapeSize net.shape) := fun ω i => softmaxOf (net.fn x θ + J *ᵥ (θ + R *ᵥ eps ω i - θ))
  have hm : ∀ i j, ∫ ω, Y ω i j ∂μ = expectOut θ P (fun w => softmaxOf (net.fn x θ + J *ᵥ (w - θ))) j :=
    fun i j => sample_integral hN hR2 hL.1 i j
  have hmem : ∀ i j, MemLp (fun ω => Y ω i j) 2 μ := fun i j => sample_memLp hN hR2 hL i j
  have hV : ∀ i j k, cov[fun ω => Y ω i j, fun ω => Y ω i k; μ] =
      covOut θ P (fun w => softmaxOf (net.fn x θ + J *ᵥ (w - θ))) j k := fun i j k => sample_cov hN hR2 hL.1 i j k
  have h0 : ∀ i l, i ≠ l → ∀ j k, cov[fun ω => Y ω i j, fun ω => Y ω l k; μ] = 0 :=
    fun i l hil j k => sample_cross hN hR2 hL i l hil j k
  have hmean := integral_ensMean hS0 (fun i j => (hmem i j).integrable (by norm_num)) hm
  refine ⟨fun ω => ensMean (Y ω), fun ω => ?_, hmean, fun j k => ?_⟩
  · obtain ⟨r, eps', hd', hrun, hval, hmem⟩ := C35_linearized_predictive (rng ω) (hr ω) net mean hp hwf θ hθ posteriorFn prior lsf post
      hpost cov scale hcov hscale P⁻¹ R (fun u y a b => by have := hc u y a b; rwa [hfc] at this)
      (fun u y a b => by have := hs u y a b; rwa [hR1] at this) kw hkw hb1 hb2 hb3 [.mcPredAct]
      (by simp [LinUsable, hsh, hS, hS0]) x
    refine ⟨r, hrun, ?_⟩
    obtain ⟨v, hv⟩ := Option.isSome_iff_exists.1 (hmem .mcPredAct (by simp))
    have hv2 := hval _ v hv
    simp only [linKey] at hv
    rw [hv, ← hv2]
    clear hv hv2 hmem hval hrun
    revert eps' hd'
    rw [show kw.numSamples.getD 0 = S by rw [hS]; rfl]
    intro eps' hd'
    rw [draws_unique hd' (hd ω), hJ]
    simp only [linExpected, linKey, Y, add_sub_cancel_left]
    rfl
  · rw [← cov_ensMean hS0 hmem hV h0 j k, covariance, hmean, hmean]

/-! ### Models affine in the parameters -/

/-- Under the posterior, the outputs of an affine model have mean `f(x, θ)` and covariance `M P⁻¹ Mᵀ`. -/
theorem affine_moments (θ : Vec p) (P R : Matrix (Fin p) (Fin p) ℝ) (hR : R * Rᵀ = P⁻¹) (g : Vec p → Vec c)
    (M : Matrix (Fin c) (Fin p) ℝ) (b : Vec c) (h : ∀ w, g w = M *ᵥ w + b) :
    SquareIntegrable θ P g ∧ (∀ j, expectOut θ P g j = g θ j) ∧ ∀ j k, covOut θ P g j k = (M * P⁻¹ * Mᵀ) j k := by
  have hlaw : (weightLaw θ P).map (fun z => toLp 2 (g (ofLp z))) = multivariateGaussian (toLp 2 (g θ)) ((M * R) * (M * R)ᵀ) := by
    rw [weightLaw, ← hR, ← map_affine_stdNormal, ← map_affine_stdNormal, Measure.map_map _ (measurable_affine θ R)]
    · congr 1
      funext e
      simp only [Function.comp, h, Matrix.mulVec_add, Matrix.mulVec_mulVec]
      congr 1
      abel
    · have : (fun z : EuclideanSpace ℝ (Fin p) => toLp 2 (g (ofLp z))) = fun z => toLp 2 (b + M *ᵥ ofLp z) := by
        funext z; rw [h, add_comm]
      rw [this]
      exact (measurable_affine b M).comp (WithLp.measurable_ofLp 2 (Fin p → ℝ))
  have hgm : Measurable g := by
    have : g = fun w => M *ᵥ w + b := funext h
    rw [this]
    refine measurable_pi_iff.2 fun i => ?_
    simp only [Pi.add_apply, Matrix.mulVec, dotProduct]
    fun_prop
  have hgm' : Measurable (fun z : EuclideanSpace ℝ (Fin p) => toLp 2 (g (ofLp z))) :=
    (by fun_prop : Measurable (toLp 2 : (Fin c → ℝ) → EuclideanSpace ℝ (Fin c))).comp (hgm.comp (WithLp.measurable_ofLp 2 (Fin p → ℝ)))
  have hev : ∀ j, Measurable (fun y : EuclideanSpace ℝ (Fin c) => ofLp y j) := fun j =>
    (measurable_pi_apply j).comp (WithLp.measurable_ofLp 2 (Fin c → ℝ))
  have hid : MemLp id 2 (multivariateGaussian (toLp 2 (g θ)) ((M * R) * (M * R)ᵀ)) := IsGaussian.memLp_two_id
  have hcoord : ∀ j, MemLp (fun y : EuclideanSpace ℝ (Fin c) => ofLp y j) 2
      (multivariateGaussian (toLp 2 (g θ)) ((M * R) * (M * R)ᵀ)) := fun j =>
    (EuclideanSpace.proj (𝕜 := ℝ) j).comp_memLp' hid
  have hVV : (M * R) * (M * R)ᵀ = M * P⁻¹ * Mᵀ := by
    rw [← hR, Matrix.transpose_mul]; simp only [Matrix.mul_assoc]
  have hmean : ∀ j, expectOut θ P g j = g θ j := by
    intro j
    have h1 : expectOut θ P g j = ∫ y, ofLp y j ∂(multivariateGaussian (toLp 2 (g θ)) ((M * R) * (M * R)ᵀ)) := by
      rw [← hlaw, integral_map hgm'.aemeasurable (hev j).aestronglyMeasurable, expectOut]
    have h2 := (EuclideanSpace.proj (𝕜 := ℝ) j : EuclideanSpace ℝ (Fin c) →L[ℝ] ℝ).integral_comp_comm
      (φ := id) (hid.integrable (by norm_num))
    rw [h1]
    simp only [id, integral_id_multivariateGaussian] at h2
    exact h2
  refine ⟨⟨hgm, fun j => ?_⟩, hmean, fun j k => ?_⟩
  · have := hcoord j
    rw [← hlaw, memLp_map_measure_iff (hev j).aestronglyMeasurable hgm'.aemeasurable] at this
    exact this.integrable_sq
  · rw [← hVV, ← covariance_eval_multivariateGaussian (μ := toLp 2 (g θ)) (posSemidef_mul_transpose (M * R)) j k, ← hlaw,
      covariance_map_fun (hev j).aestronglyMeasurable (hev k).aestronglyMeasurable hgm'.aemeasurable]
    rfl

/-- **C66 (models affine in the parameters).** If the output is affine in the parameters, `f(x, w) = M w + b`, the `pred_mean` and
`pred_cov` of the sampled predictive are, in expectation, exactly those of the linearised predictive: `f(x, θ)` and `M P⁻¹ Mᵀ`. -/
theorem C66_affine_model {Ω : Type} [MeasurableSpace Ω] (μ : Measure Ω) [IsProbabilityMeasure μ]
    (rng : Ω → Prng K) (hr : ∀ ω, RngOk (rng ω))
    (net : Net X p) (mean : PyTree ℝ) (hp : 0 < p) (hwf : WFTree mean) (θ : Vec p) (hθ : entries mean = List.ofFn θ)
    (posteriorFn : PriorArgs → ℝ → Except Err (Posterior p)) (prior : PriorArgs) (lsf : ℝ) (post : Posterior p)
    (hpost : posteriorFn prior lsf = .ok post) (cov scale : List (PyTree ℝ) → Except Err (PyTree ℝ))
    (hcov : post.covMv post.state = .ok cov) (hscale : post.scaleMv post.state = .ok scale)
    (P : Matrix (Fin p) (Fin p) ℝ) (fc fs : Vec p → Vec p) (hP : IsPosterior P fc fs)
    (hc : ActsOnTrees mean cov fc) (hs : ActsOnTrees mean scale fs) (key : Option K) (S : ℕ) (hS : 2 ≤ S)
    (kw : PfKwargs K) (hkw : kw.precompute = none) (hb1 : kw.precomputeListBatchSize ≠ some 0)
    (hb2 : kw.nonlinSetupBatchSize ≠ some 0) (hb3 : kw.weightBatchSize ≠ some 0) (hb4 : kw.linSamplesBatchSize ≠ some 0)
    (eps : Ω → Fin S → Vec p) (hd : ∀ ω, Draws (rng ω) key mean (eps ω)) (hN : IndependentNormal μ eps) (x : X)
    (c : ℕ) (hc0 : 0 < c) (hsh : net.shape = [c]) (M : Matrix (Fin (shapeSize net.shape)) (Fin p) ℝ) (b : Vec (shapeSize net.shape))
    (haff : ∀ w, net.fn x w = M *ᵥ w + b) :
    ∃ (m : Ω → Vec (shapeSize net.shape)) (C : Ω → Matrix (Fin (shapeSize net.shape)) (Fin (shapeSize net.shape)) ℝ)
      (m' : Vec (shapeSize net.shape)) (C' : Matrix (Fin (shapeSize net.shape)) (Fin (shapeSize net.shape)) ℝ),
      (∀ ω, ∃ r, nonlinPushforward (rng ω) net mean posteriorFn prior key lsf
          ([NonlinFn.setup, .predMean, .predCov].map NonlinFn.step) S kw x = .ok r ∧
        r.get? "pred_mean" = some (arrOf net.shape (m ω)) ∧ r.get? "pred_cov" = some (covArrOf (C ω))) ∧
      (∀ ω, ∃ r, linPushforward (rng ω) net mean posteriorFn prior lsf
          ([LinFn.setup, .predMean, .predCov].map LinFn.step) kw x = .ok r ∧
        r.get? "pred_mean" = some (arrOf net.shape m') ∧ r.get? "pred_cov" = some (denseArr C')) ∧
      (∀ j, ∫ ω, m ω j ∂μ = m' j) ∧ ∀ j k, ∫ ω, C ω j k ∂μ = C' j k := by
  have hP' := hP
  obtain ⟨_, _, hfc, R, hR1, hR2⟩ := hP'
  obtain ⟨hL, hm, hV⟩ := affine_moments θ P R hR2 (net.fn x) M b haff
  obtain ⟨m, C, hrun, h1, h2, _⟩ := C66_sampled_mean_and_covariance μ rng hr net mean hwf θ hθ posteriorFn prior lsf post hpost scale
    hscale P fc fs hP hs key S hS kw hkw hb1 hb2 hb3 eps hd hN x hL
  refine ⟨m, C, net.fn x θ, M * P⁻¹ * Mᵀ, hrun, fun ω => ?_, fun j => by rw [h1, hm], fun j k => by rw [h2, hV]⟩
  obtain ⟨r, eps', hd', hrun, hval, hmem⟩ := C35_linearized_predictive (rng ω) (hr ω) net mean hp hwf θ hθ posteriorFn prior lsf post
      hpost cov scale hcov hscale P⁻¹ R (fun u y a b => by have := hc u y a b; rwa [hfc] at this)
      (fun u y a b => by have := hs u y a b; rwa [hR1] at this) kw hkw hb1 hb4 hb3 [.predMean, .predCov]
      (by simp [LinUsable, hsh, shapeSize, hc0]) x
  have hJ : jacobian (net.fn x) θ = M := (jacobian_affine M b (net.fn x) haff θ).2
  rw [hJ] at hval
  refine ⟨r, hrun, ?_, ?_⟩
  · obtain ⟨v, hv⟩ := Option.isSome_iff_exists.1 (hmem .predMean (by simp))
    have := hval _ v hv
    simp only [linKey] at hv
    rw [hv, ← this]
    simp [linExpected, linKey]
  · obtain ⟨v, hv⟩ := Option.isSome_iff_exists.1 (hmem .predCov (by simp))
    have := hval _ v hv
    simp only [linKey] at hv
    rw [hv, ← this]
    simp only [linExpected, linKey]
    have hne : ¬ net.shape = [] := by rw [hsh]; simp
    have hl : net.shape.length = 1 := by rw [hsh]; rfl
    simp only [if_neg (show ¬ ("pred_cov" = "map") by decide), if_neg (show ¬ ("pred_cov" = "pred_mean") by decide), if_true]
    rw [if_neg hne, if_pos hl]

/-! ### Non-vacuity -/

/-- A random PRNG whose keys are the paths of splits: the draw with key `[i, l]` is the entry `(i, l)` of `ω`. -/
noncomputable def pathRng (ω : Fin 2 → Fin 2 → ℝ) : Prng (List ℕ) :=
  ⟨[], fun k n => (List.range n).map fun i => k ++ [i],
    fun k sh => ⟨sh, List.replicate (shapeSize sh) (match k with | [i, l] => ω (Fin.ofNat 2 i) (Fin.ofNat 2 l) | _ => 0)⟩⟩

/-- The law of two independent standard normal vectors. -/
noncomputable def pathLaw : Measure (Fin 2 → Fin 2 → ℝ) := Measure.pi fun _ : Fin 2 => Measure.pi fun _ : Fin 2 => gaussianReal 0 1

theorem pathRng_ok (ω : Fin 2 → Fin 2 → ℝ) : RngOk (pathRng ω) := ⟨by simp [pathRng], by simp [pathRng], by simp [pathRng, Arr.WF]⟩

theorem path_draws (ω : Fin 2 → Fin 2 → ℝ) : Draws (pathRng ω) none testMean (S := 2) ω := by
  intro i
  refine ⟨[i.val], .node "dict(a,b)" [.leaf ⟨[], [ω i 0]⟩, .leaf ⟨[1], [ω i 1]⟩], ?_, ?_, ?_⟩
  · fin_cases i <;> simp [pathRng]
  · fin_cases i <;> rfl
  · fin_cases i <;> simp [entries, Tree.leaves, Tree.leavesL, List.ofFn_succ]

theorem path_normal : IndependentNormal pathLaw (S := 2) (fun ω : Fin 2 → Fin 2 → ℝ => ω) where
  meas i := (measurable_pi_apply i).aemeasurable
  law i := (measurePreserving_eval (fun _ : Fin 2 => Measure.pi fun _ : Fin 2 => gaussianReal 0 1) i).map_eq
  indep _ _ hil := (iIndepFun_pi (μ := fun _ : Fin 2 => Measure.pi fun _ : Fin 2 => gaussianReal 0 1)
    (X := fun _ => id) (fun _ => aemeasurable_id)).indepFun hil

instance : IsProbabilityMeasure pathLaw := by rw [pathLaw]; infer_instance

/-- A bounded model that is not affine in its parameters, `f(x, (a, b)) = (sin (x a), cos b)`. -/
noncomputable def waveNet : Net ℝ 2 := ⟨[2], fun x θ => (fun i : Fin 2 => if i = 0 then Real.sin (x * θ 0) else Real.cos (θ 1))⟩

theorem wave_integrable (θ : Vec 2) (P : Matrix (Fin 2) (Fin 2) ℝ) (x : ℝ) : SquareIntegrable θ P (waveNet.fn x) := by
  have hm : Measurable (waveNet.fn x) := by
    refine measurable_pi_lambda _ fun i => ?_
    by_cases h : i = (0 : Fin 2)
    · rw [show (fun θ : Vec 2 => waveNet.fn x θ i) = fun θ => Real.sin (x * θ 0) from funext fun θ => if_pos h]; fun_prop
    · rw [show (fun θ : Vec 2 => waveNet.fn x θ i) = fun θ => Real.cos (θ 1) from funext fun θ => if_neg h]; fun_prop
  have : IsProbabilityMeasure (weightLaw θ P) := by rw [weightLaw]; infer_instance
  refine ⟨hm, fun j => Integrable.of_bound ((coord_meas hm j).pow_const 2).aestronglyMeasurable 1 (ae_of_all _ fun z => ?_)⟩
  rw [Real.norm_of_nonneg (by positivity)]
  by_cases h : j = (0 : Fin 2)
  · simp only [waveNet, h, if_true]; exact Real.sin_sq_le_one _
  · have : waveNet.fn x (ofLp z) j = Real.cos (z 1) := if_neg h
    rw [this]; exact Real.cos_sq_le_one _

/-- All hypotheses are met: two samples of `(sin (x a), cos b)` with a full posterior of precision `G + 1`, `G = [[2,2],[2,2]]`. -/
example : ∃ P : Matrix (Fin 2) (Fin 2) ℝ, P = precision !![2, 2; 2, 2] 1 1 1 ∧ ∀ x : ℝ,
    ∃ (m : (Fin 2 → Fin 2 → ℝ) → Vec 2) (C : (Fin 2 → Fin 2 → ℝ) → Matrix (Fin 2) (Fin 2) ℝ),
      (∀ ω, ∃ r, nonlinPushforward (pathRng ω) waveNet testMean (fun a s => createPosteriorFn .full testMv (.tree testMean) a s)
          ⟨some 1, none⟩ none 1 ([NonlinFn.setup, .predMean, .predCov].map NonlinFn.step) 2 {} x = .ok r ∧
        r.get? "pred_mean" = some (arrOf [2] (m ω)) ∧ r.get? "pred_cov" = some (covArrOf (C ω))) ∧
      (∀ j, ∫ ω, m ω j ∂pathLaw = expectOut ![3, 5] P (waveNet.fn x) j) ∧
      (∀ j k, ∫ ω, C ω j k ∂pathLaw = covOut ![3, 5] P (waveNet.fn x) j k) := by
  refine ⟨_, rfl, fun x => ?_⟩
  obtain ⟨post, cov, scale, h1, h2, h3, fc, fs, hpost, hact⟩ :=
    C26_create_posterior_full (p := 2) testMean (by simp [testMean, numEntries, Tree.leaves, Tree.leavesL]) (by norm_num) testMv
      !![2, 2; 2, 2] testMv_ok test_psd ⟨some 1, none⟩ 1 rfl (by norm_num) (by norm_num) 1 (by norm_num)
  obtain ⟨m, C, a1, a2, a3, _⟩ := C66_sampled_mean_and_covariance pathLaw pathRng pathRng_ok waveNet testMean testMean_wf ![3, 5]
    (by simp [testMean, entries, Tree.leaves, Tree.leavesL]) (fun a s => createPosteriorFn .full testMv (.tree testMean) a s)
    ⟨some 1, none⟩ 1 post h1 scale h3 _ fc fs hpost (fun u y hu hy => (hact u y hu hy).2)
    none 2 le_rfl {} rfl (by simp) (by simp) (by simp) (fun ω => ω) path_draws path_normal x (wave_integrable _ _ x)
  exact ⟨m, C, a1, a2, a3⟩

end Laplax.Props
