import Verif.Props.SampleEstimates
import Mathlib.Probability.Moments.Variance

/-! # C66 (continued): how far a sampled statistic is from the posterior expectation -/

namespace Laplax.Props
open Laplax Laplax.Spec
open MeasureTheory ProbabilityTheory WithLp
open scoped BigOperators Matrix

variable {X K : Type} {p c : ℕ}

section
variable {Ω : Type} [MeasurableSpace Ω] {μ : Measure Ω} [IsProbabilityMeasure μ] {S : ℕ} {eps : Ω → Fin S → Vec p}

/-- Chebyshev's inequality for the average of a function of the weight samples. -/
theorem average_concentrates (hN : IndependentNormal μ eps) {θ : Vec p} {P R : Matrix (Fin p) (Fin p) ℝ} (hR : R * Rᵀ = P⁻¹)
    {g : Vec p → Vec c} (hg : SquareIntegrable θ P g) (hS : 0 < S) (j : Fin c) {δ : ℝ} (hδ : 0 < δ) :
    μ {ω | δ ≤ |ensMean (fun i => g (θ + R *ᵥ eps ω i)) j - expectOut θ P g j|} ≤ ENNReal.ofReal (covOut θ P g j j / (S * δ ^ 2)) := by
  have hmem : ∀ i j, MemLp (fun ω => g (θ + R *ᵥ eps ω i) j) 2 μ := fun i j => sample_memLp hN hR hg i j
  have hmean : ∫ ω, ensMean (fun i => g (θ + R *ᵥ eps ω i)) j ∂μ = expectOut θ P g j :=
    integral_ensMean (Y := fun ω i => g (θ + R *ᵥ eps ω i)) hS (fun i j => (hmem i j).integrable (by norm_num))
      (fun i j => sample_integral hN hR hg.1 i j) j
  have hcov : cov[fun ω => ensMean (fun i => g (θ + R *ᵥ eps ω i)) j, fun ω => ensMean (fun i => g (θ + R *ᵥ eps ω i)) j; μ] =
      covOut θ P g j j / S :=
    cov_ensMean (Y := fun ω i => g (θ + R *ᵥ eps ω i)) hS hmem (fun i j k => sample_cov hN hR hg.1 i j k)
      (fun i l hil j k => sample_cross hN hR hg i l hil j k) j j
  have hL : MemLp (fun ω => ensMean (fun i => g (θ + R *ᵥ eps ω i)) j) 2 μ := by
    have h1 : MemLp (fun ω => ∑ i, g (θ + R *ᵥ eps ω i) j) 2 μ := memLp_finset_sum _ fun i _ => hmem i j
    have h2 := h1.const_mul ((S : ℝ)⁻¹)
    refine h2.congr_norm ?_ (ae_of_all _ fun ω => ?_)
    · simp only [ensMean, div_eq_inv_mul]; exact h2.aestronglyMeasurable
    · simp only [ensMean, div_eq_inv_mul]
  have := meas_ge_le_variance_div_sq hL hδ
  rw [hmean, ← covariance_self hL.aemeasurable, hcov, div_div] at this
  exact this

end

/-- **C66 (the sampled mean converges).** For every model whose outputs have second moments under the posterior, every number of samples `S` and
every tolerance `δ`: the probability that an entry of the `pred_mean` the sampled predictive reports differs from the posterior expectation by
`δ` or more is at most `Var[f(x, w)_j] / (S δ²)`; in particular it tends to 0 as `num_samples` grows. -/
theorem C66_mean_concentrates {Ω : Type} [MeasurableSpace Ω] (μ : Measure Ω) [IsProbabilityMeasure μ]
    (rng : Ω → Prng K) (hr : ∀ ω, RngOk (rng ω))
    (net : Net X p) (mean : PyTree ℝ) (hwf : WFTree mean) (θ : Vec p) (hθ : entries mean = List.ofFn θ)
    (posteriorFn : PriorArgs → ℝ → Except Err (Posterior p)) (prior : PriorArgs) (lsf : ℝ) (post : Posterior p)
    (hpost : posteriorFn prior lsf = .ok post) (scale : List (PyTree ℝ) → Except Err (PyTree ℝ))
    (hscale : post.scaleMv post.state = .ok scale) (P : Matrix (Fin p) (Fin p) ℝ) (fc fs : Vec p → Vec p)
    (hP : IsPosterior P fc fs) (hs : ActsOnTrees mean scale fs) (key : Option K) (S : ℕ) (hS : 0 < S)
    (kw : PfKwargs K) (hkw : kw.precompute = none) (hb1 : kw.precomputeListBatchSize ≠ some 0)
    (hb2 : kw.nonlinSetupBatchSize ≠ some 0) (hb3 : kw.weightBatchSize ≠ some 0)
    (eps : Ω → Fin S → Vec p) (hd : ∀ ω, Draws (rng ω) key mean (eps ω)) (hN : IndependentNormal μ eps) (x : X)
    (hL : SquareIntegrable θ P (net.fn x)) :
    ∃ m : Ω → Vec (shapeSize net.shape),
      (∀ ω, ∃ r, nonlinPushforward (rng ω) net mean posteriorFn prior key lsf ([NonlinFn.setup, .predMean].map NonlinFn.step) S kw x = .ok r ∧
        r.get? "pred_mean" = some (arrOf net.shape (m ω))) ∧
      ∀ j (δ : ℝ), 0 < δ → μ {ω | δ ≤ |m ω j - expectOut θ P (net.fn x) j|} ≤ ENNReal.ofReal (covOut θ P (net.fn x) j j / (S * δ ^ 2)) := by
  obtain ⟨_, _, _, R, hR1, hR2⟩ := hP
  refine ⟨fun ω => ensMean fun i => net.fn x (θ + R *ᵥ eps ω i), fun ω => ?_, fun j δ hδ => average_concentrates hN hR2 hL hS j hδ⟩
  obtain ⟨r, hr1, hr2⟩ := sampled_run (rng ω) (hr ω) net mean hwf θ hθ posteriorFn prior lsf post hpost scale hscale R
      (fun u y a b => by have := hs u y a b; rwa [hR1] at this) key S hS kw hkw hb1 hb2 hb3 (eps ω) (hd ω) x
      [.predMean] (by simp [NonlinUsable]) (by simp)
  exact ⟨r, hr1, by rw [hr2]; simp [nonlinExpected]⟩

/-- A probability has variance at most `1/4`. -/
theorem softmax_variance (θ : Vec p) (P : Matrix (Fin p) (Fin p) ℝ) {g : Vec p → Vec c} (hg : Measurable g) (k : Fin c) :
    covOut θ P (fun w => softmaxOf (g w)) k k ≤ 1 / 4 := by
  have : IsProbabilityMeasure (weightLaw θ P) := by rw [weightLaw]; infer_instance
  have hL := softmax_squareIntegrable θ P hg
  have hm := (coord_meas hL.1 k).aemeasurable (μ := weightLaw θ P)
  have hb : ∀ z : EuclideanSpace ℝ (Fin p), softmaxOf (g (ofLp z)) k ∈ Set.Icc (0 : ℝ) 1 := by
    intro z
    have h0 : ∀ l, 0 < Real.exp (g (ofLp z) l) := fun l => Real.exp_pos _
    have h1 : Real.exp (g (ofLp z) k) ≤ ∑ l, Real.exp (g (ofLp z) l) := Finset.single_le_sum (fun l _ => (h0 l).le) (Finset.mem_univ k)
    exact ⟨div_nonneg (h0 k).le ((h0 k).le.trans h1), by rw [softmaxOf, div_le_one (lt_of_lt_of_le (h0 k) h1)]; exact h1⟩
  have h := variance_le_sq_of_bounded (ae_of_all (weightLaw θ P) hb) hm
  have e : covOut θ P (fun w => softmaxOf (g w)) k k = Var[fun z => softmaxOf (g (ofLp z)) k; weightLaw θ P] := by
    rw [← covariance_self hm]; rfl
  rw [e]
  refine h.trans (by norm_num)

/-- **C66 (the class probabilities of `mc_bridge` converge).** For every model, every number of samples `S` and tolerance `δ`: the probability that an
entry of the `mc_pred_act` of the linearised predictive differs from the expected softmax of the linearised model under the posterior by `δ` or
more is at most `1 / (4 S δ²)` — a bound that depends neither on the model nor on the posterior. -/
theorem C66_probabilities_concentrate {Ω : Type} [MeasurableSpace Ω] (μ : Measure Ω) [IsProbabilityMeasure μ]
    (rng : Ω → Prng K) (hr : ∀ ω, RngOk (rng ω))
    (net : Net X p) (mean : PyTree ℝ) (hp : 0 < p) (hwf : WFTree mean) (θ : Vec p) (hθ : entries mean = List.ofFn θ)
    (posteriorFn : PriorArgs → ℝ → Except Err (Posterior p)) (prior : PriorArgs) (lsf : ℝ) (post : Posterior p)
    (hpost : posteriorFn prior lsf = .ok post) (cov scale : List (PyTree ℝ) → Except Err (PyTree ℝ))
    (hcov : post.covMv post.state = .ok cov) (hscale : post.scaleMv post.state = .ok scale)
    (P : Matrix (Fin p) (Fin p) ℝ) (fc fs : Vec p → Vec p) (hP : IsPosterior P fc fs)
    (hc : ActsOnTrees mean cov fc) (hs : ActsOnTrees mean scale fs) (kw : PfKwargs K) (S : ℕ) (hS : kw.numSamples = some S)
    (hS0 : 0 < S) (hkw : kw.precompute = none) (hb1 : kw.precomputeListBatchSize ≠ some 0)
    (hb2 : kw.linSamplesBatchSize ≠ some 0) (hb3 : kw.weightBatchSize ≠ some 0) (hsh : net.shape.length = 1)
    (eps : Ω → Fin S → Vec p) (hd : ∀ ω, Draws (rng ω) kw.key mean (eps ω)) (hN : IndependentNormal μ eps) (x : X) :
    ∃ q : Ω → Vec (shapeSize net.shape),
      (∀ ω, ∃ r, linPushforward (rng ω) net mean posteriorFn prior lsf ([LinFn.setup, .mcPredAct].map LinFn.step) kw x = .ok r ∧
        r.get? "mc_pred_act" = some (arrOf net.shape (q ω))) ∧
      ∀ k (δ : ℝ), 0 < δ →
        μ {ω | δ ≤ |q ω k - expectOut θ P (fun w => softmaxOf (net.fn x θ + jacobian (net.fn x) θ *ᵥ (w - θ))) k|} ≤
          ENNReal.ofReal (1 / (4 * S * δ ^ 2)) := by
  obtain ⟨_, _, hfc, R, hR1, hR2⟩ := hP
  generalize hJ : jacobian (net.fn x) θ = J
  have hmeas : Measurable fun w : Vec p => net.fn x θ + J *ᵥ (w - θ) := by
    refine measurable_pi_iff.2 fun i => ?_
    simp only [Pi.add_apply, Matrix.mulVec, dotProduct, Pi.sub_apply]
    fun_prop
  refine ⟨fun ω => ensMean fun i => softmaxOf (net.fn x θ + J *ᵥ (θ + R *ᵥ eps ω i - θ)), fun ω => ?_, fun k δ hδ => ?_⟩
  · obtain ⟨r, eps', hd', hrun, hval, hmem⟩ := C35_linearized_predictive (rng ω) (hr ω) net mean hp hwf θ hθ posteriorFn prior lsf post
      hpost cov scale hcov hscale P⁻¹ R (fun u y a b => by have := hc u y a b; rwa [hfc] at this)
      (fun u y a b => by have := hs u y a b; rwa [hR1] at this) kw hkw hb1 hb2 hb3 [.mcPredAct]
      (by simp [LinUsable, hsh, hS, hS0]) x
    refine ⟨r, hrun, ?_⟩
    obtain ⟨v, hv⟩ := Option.isSome_iff_exists.1 (hmem .mcPredAct (by simp))
    have hv2 := hval _ v hv
    simp only [linKey] at hv
    rw [hv, ← hv2]
    clear hv hv2 hmem hval hrun
    revert eps' hd'
    rw [show kw.numSamples.getD 0 = S by rw [hS]; rfl]
    intro eps' hd'
    rw [draws_unique hd' (hd ω), hJ]
    simp only [linExpected, linKey, add_sub_cancel_left]
    rfl
  · refine (average_concentrates (g := fun w => softmaxOf (net.fn x θ + J *ᵥ (w - θ))) hN hR2 (softmax_squareIntegrable θ P hmeas) hS0 k hδ).trans
      (ENNReal.ofReal_le_ofReal ?_)
    have hS' : (0 : ℝ) < S := by exact_mod_cast hS0
    calc _ ≤ 1 / 4 / (S * δ ^ 2) := div_le_div_of_nonneg_right (softmax_variance θ P hmeas k) (by positivity)
      _ = _ := by field_simp

/-- Non-vacuity: two samples of `(sin (x a), cos b)`, a bounded model that is not affine in its parameters. -/
example : ∃ P : Matrix (Fin 2) (Fin 2) ℝ, P = precision !![2, 2; 2, 2] 1 1 1 ∧ ∀ x : ℝ, ∃ m : (Fin 2 → Fin 2 → ℝ) → Vec 2,
    (∀ ω, ∃ r, nonlinPushforward (pathRng ω) waveNet testMean (fun a s => createPosteriorFn .full testMv (.tree testMean) a s)
        ⟨some 1, none⟩ none 1 ([NonlinFn.setup, .predMean].map NonlinFn.step) 2 {} x = .ok r ∧
      r.get? "pred_mean" = some (arrOf [2] (m ω))) ∧
    ∀ j (δ : ℝ), 0 < δ → pathLaw {ω | δ ≤ |m ω j - expectOut ![3, 5] P (waveNet.fn x) j|} ≤
      ENNReal.ofReal (covOut ![3, 5] P (waveNet.fn x) j j / ((2 : ℕ) * δ ^ 2)) := by
  refine ⟨_, rfl, fun x => ?_⟩
  obtain ⟨post, cov, scale, h1, h2, h3, fc, fs, hpost, hact⟩ :=
    C26_create_posterior_full (p := 2) testMean (by simp [testMean, numEntries, Tree.leaves, Tree.leavesL]) (by norm_num) testMv
      !![2, 2; 2, 2] testMv_ok test_psd ⟨some 1, none⟩ 1 rfl (by norm_num) (by norm_num) 1 (by norm_num)
  exact C66_mean_concentrates pathLaw pathRng pathRng_ok waveNet testMean testMean_wf ![3, 5]
    (by simp [testMean, entries, Tree.leaves, Tree.leavesL]) (fun a s => createPosteriorFn .full testMv (.tree testMean) a s) ⟨some 1, none⟩ 1 post h1 scale h3
    _ fc fs hpost (fun u y a b => (hact u y a b).2) none 2 (by norm_num) {} rfl (by simp) (by simp) (by simp) (fun ω => ω) path_draws path_normal x
    (wave_integrable _ _ x)

end Laplax.Props
