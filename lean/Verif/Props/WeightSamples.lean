import Verif.Props.Pushforward
import Verif.Lib.GaussianAffine

/-! # C50: weight samples and predictive samples follow the Gaussians the predictive reports -/

namespace Laplax.Props
open Laplax Laplax.Spec
open MeasureTheory ProbabilityTheory WithLp
open scoped BigOperators Matrix

variable {X K : Type} {p : ℕ}

/-- **C50 (weight samples).** `set_get_weight_sample(key, mean, scale_mv, S, ...)` with a scale product acting on parameter pytrees
as `f`: its `i`-th sample is a pytree of the layout of the parameters with the entries `mean + f(eps_i)`, `eps_i` drawn with the
`i`-th of the `S` keys split from `key` — whatever the precomputation flag and batch size. -/
theorem C50_weight_samples (rng : Prng K) (hr : RngOk rng) (key : Option K) (mean : PyTree ℝ) (hwf : WFTree mean) (θ : Vec p)
    (hθ : entries mean = List.ofFn θ) (scale : List (PyTree ℝ) → Except Err (PyTree ℝ)) (f : Vec p → Vec p)
    (hs : ActsOnTrees mean scale f) (S : ℕ) :
    ∃ eps : Fin S → Vec p, Draws rng key mean eps ∧
      ∀ kw : PfKwargs K, kw.precompute = none → kw.precomputeListBatchSize ≠ some 0 →
        ∃ g, setGetWeightSample rng key mean (call1 scale) S kw = .ok g ∧
          ∀ i : Fin S, ∃ w, g i.val = .ok w ∧ SameLayout w mean ∧ entries w = List.ofFn (θ + f (eps i)) := by
  have hsz : numEntries mean = p := by rw [← length_entries hwf, hθ, List.length_ofFn]
  obtain ⟨_, eps, _, hd, _⟩ := weight_samples rng hr key mean mean (SameLayout.refl _) hwf hsz θ hθ scale f hs S {} rfl (by simp)
  refine ⟨eps, hd, fun kw h1 h2 => ?_⟩
  obtain ⟨g, eps', hg, hd', hw⟩ := weight_samples rng hr key mean mean (SameLayout.refl _) hwf hsz θ hθ scale f hs S kw h1 h2
  have he : eps' = eps := by
    funext i
    obtain ⟨k, t, a1, a2, a3⟩ := hd i
    obtain ⟨k', t', b1, b2, b3⟩ := hd' i
    rw [a1] at b1; cases b1
    rw [a2] at b2; cases b2
    exact List.ofFn_injective (b3.symm.trans a3)
  subst he
  refine ⟨g, hg, fun i => ?_⟩
  obtain ⟨w, c1, c2, _, c4⟩ := hw i
  exact ⟨w, c1, c2, c4⟩

/-- **C50 (finding).** A `precompute` keyword reaches `precompute_list` twice and is a `TypeError`, for any value of it. -/
theorem C50_precompute_keyword_raises (rng : Prng K) (key : Option K) (mean : PyTree ℝ)
    (scaleMv : PyTree ℝ → Except Err (PyTree ℝ)) (S : ℕ) (kw : PfKwargs K) (b : Bool) (h : kw.precompute = some b) :
    setGetWeightSample rng key mean scaleMv S kw = .error .typeError := by
  simp [setGetWeightSample, h]

theorem jaxGet_beyond {B : Type} (xs : List B) (i : ℕ) (hne : 0 < xs.length) (h : xs.length ≤ i) :
    jaxGet xs (i : Int) = jaxGet xs ((xs.length - 1 : ℕ) : Int) := by
  have h1 : ¬ ((i : Int) < 0) := by omega
  have h2 : ¬ (((xs.length - 1 : ℕ) : Int) < 0) := by omega
  have h3 : min (i : Int).toNat (xs.length - 1) = min ((xs.length - 1 : ℕ) : Int).toNat (xs.length - 1) := by omega
  simp only [jaxGet, h1, h2, if_false, h3]

/-- **C50 (indices beyond the number of samples).** Asking for a sample beyond the requested number does not raise and draws nothing
new: it returns the last sample again, with and without precomputation. -/
theorem C50_index_beyond_samples (rng : Prng K) (hr : RngOk rng) (key : Option K) (mean : PyTree ℝ)
    (scaleMv : PyTree ℝ → Except Err (PyTree ℝ)) (S : ℕ) (hS : 0 < S) (kw : PfKwargs K) (hb : kw.precomputeListBatchSize ≠ some 0)
    (g : ℕ → Except Err (PyTree ℝ)) (hg : setGetWeightSample rng key mean scaleMv S kw = .ok g) (i : ℕ) (hi : S ≤ i) :
    g i = g (S - 1) := by
  have hlen : (rng.split (key.getD rng.key0) S).length = S := hr.split _ _
  unfold setGetWeightSample at hg
  dsimp only at hg
  split at hg
  · cases hg
  · unfold precomputeList at hg
    split at hg
    · rw [bind_ok_iff] at hg
      obtain ⟨pre, h1, h2⟩ := hg
      rw [laxMap_eq _ hb, mapE_ok_iff] at h1
      have hl : pre.length = S := by rw [← h1.length_eq]; simp
      cases h2
      have := jaxGet_beyond pre i (by omega) (by omega)
      rw [hl] at this
      exact this
    · cases hg
      have := jaxGet_beyond (rng.split (key.getD rng.key0) S) i (by omega) (by omega)
      rw [hlen] at this
      dsimp only
      rw [this]

/-- **C50 (law of the weight samples).** Let the PRNG be random such that the draws have independent standard normal entries. For a
posterior with precision `P` (`scale` a scale product with `S Sᵀ = P⁻¹`) every weight sample is distributed as the Gaussian with
mean the parameters and covariance `P⁻¹`. -/
theorem C50_weight_sample_law {Ω : Type} [MeasurableSpace Ω] (μ : Measure Ω) (rng : Ω → Prng K) (hr : ∀ ω, RngOk (rng ω))
    (key : Option K) (mean : PyTree ℝ) (hwf : WFTree mean) (θ : Vec p) (hθ : entries mean = List.ofFn θ)
    (scale : List (PyTree ℝ) → Except Err (PyTree ℝ)) (P : Matrix (Fin p) (Fin p) ℝ) (fc fs : Vec p → Vec p)
    (hP : IsPosterior P fc fs) (hs : ActsOnTrees mean scale fs) (S : ℕ) (kw : PfKwargs K) (h1 : kw.precompute = none)
    (h2 : kw.precomputeListBatchSize ≠ some 0) (eps : Ω → Fin S → Vec p) (hd : ∀ ω, Draws (rng ω) key mean (eps ω)) (i : Fin S)
    (hmeas : AEMeasurable (fun ω => eps ω i) μ) (hlaw : μ.map (fun ω => eps ω i) = Measure.pi fun _ => gaussianReal 0 1) :
    ∃ W : Ω → Vec p,
      (∀ ω, ∃ g w, setGetWeightSample (rng ω) key mean (call1 scale) S kw = .ok g ∧ g i.val = .ok w ∧ SameLayout w mean ∧
        entries w = List.ofFn (W ω)) ∧
      μ.map (fun ω => toLp 2 (W ω)) = multivariateGaussian (toLp 2 θ) P⁻¹ := by
  obtain ⟨_, _, _, R, hR1, hR2⟩ := hP
  refine ⟨fun ω => θ + R *ᵥ eps ω i, fun ω => ?_, ?_⟩
  · obtain ⟨eps', hd', hw⟩ := C50_weight_samples (rng ω) (hr ω) key mean hwf θ hθ scale fs hs S
    obtain ⟨g, hg, hg'⟩ := hw kw h1 h2
    obtain ⟨w, a1, a2, a3⟩ := hg' i
    have he : eps' i = eps ω i := by
      obtain ⟨k, t, a1, a2, a3⟩ := hd ω i
      obtain ⟨k', t', b1, b2, b3⟩ := hd' i
      rw [a1] at b1; cases b1
      rw [a2] at b2; cases b2
      exact List.ofFn_injective (b3.symm.trans a3)
    exact ⟨g, w, hg, a1, a2, by rw [a3, he, hR1]⟩
  · rw [← hR2, ← map_affine_stdNormal, ← hlaw, AEMeasurable.map_map_of_aemeasurable _ hmeas]
    · rfl
    · exact (measurable_affine θ R).aemeasurable

/-- **C50 (law of the predictive samples).** Under the same assumptions on the PRNG, the entries of each linearised predictive sample
(the `i`-th row of `results["samples"]`) are distributed as the Gaussian with mean `f(x, θ)` and covariance `J P⁻¹ Jᵀ`: exactly the
`pred_mean` and `pred_cov` of the same call. -/
theorem C50_predictive_sample_law {Ω : Type} [MeasurableSpace Ω] (μ : Measure Ω) (rng : Ω → Prng K) (hr : ∀ ω, RngOk (rng ω))
    (net : Net X p) (mean : PyTree ℝ) (hp : 0 < p) (hwf : WFTree mean) (θ : Vec p) (hθ : entries mean = List.ofFn θ)
    (posteriorFn : PriorArgs → ℝ → Except Err (Posterior p)) (prior : PriorArgs) (lsf : ℝ) (post : Posterior p)
    (hpost : posteriorFn prior lsf = .ok post) (cov scale : List (PyTree ℝ) → Except Err (PyTree ℝ))
    (hcov : post.covMv post.state = .ok cov) (hscale : post.scaleMv post.state = .ok scale)
    (P : Matrix (Fin p) (Fin p) ℝ) (fc fs : Vec p → Vec p) (hP : IsPosterior P fc fs)
    (hc : ActsOnTrees mean cov fc) (hs : ActsOnTrees mean scale fs) (kw : PfKwargs K) (S : ℕ) (hS : kw.numSamples = some S)
    (hkw : kw.precompute = none) (hb1 : kw.precomputeListBatchSize ≠ some 0)
    (hb2 : kw.linSamplesBatchSize ≠ some 0) (hb3 : kw.weightBatchSize ≠ some 0)
    (hsh : net.shape.length ≤ 1) (hpos : 0 < shapeSize net.shape)
    (eps : Ω → Fin S → Vec p) (hd : ∀ ω, Draws (rng ω) kw.key mean (eps ω)) (i : Fin S)
    (hmeas : AEMeasurable (fun ω => eps ω i) μ) (hlaw : μ.map (fun ω => eps ω i) = Measure.pi fun _ => gaussianReal 0 1) (x : X) :
    ∃ (Y : Ω → Fin S → Vec (shapeSize net.shape)) (m : Vec (shapeSize net.shape)) (V : Matrix _ _ ℝ),
      (∀ ω, ∃ r, linPushforward (rng ω) net mean posteriorFn prior lsf
          ([LinFn.setup, .predMean, .predCov, .samples].map LinFn.step) kw x = .ok r ∧
        r.get? "samples" = some (ensArr net.shape (Y ω)) ∧ r.get? "pred_mean" = some (arrOf net.shape m) ∧
        ∃ v, r.get? "pred_cov" = some v ∧ v.data = (denseArr V).data) ∧
      m = net.fn x θ ∧ V = jacobian (net.fn x) θ * P⁻¹ * (jacobian (net.fn x) θ)ᵀ ∧
      μ.map (fun ω => toLp 2 (Y ω i)) = multivariateGaussian (toLp 2 m) V := by
  obtain ⟨_, _, hfc, R, hR1, hR2⟩ := hP
  set J := jacobian (net.fn x) θ with hJ
  have hSpos : 0 < S := i.pos
  refine ⟨fun ω i => net.fn x θ + J *ᵥ (R *ᵥ eps ω i), net.fn x θ, J * P⁻¹ * Jᵀ, fun ω => ?_, rfl, rfl, ?_⟩
  · obtain ⟨r, eps', hd', hrun, hval, hmem⟩ := C35_linearized_predictive (rng ω) (hr ω) net mean hp hwf θ hθ posteriorFn prior lsf post
      hpost cov scale hcov hscale P⁻¹ R (fun u y a b => by have := hc u y a b; rwa [hfc] at this)
      (fun u y a b => by have := hs u y a b; rwa [hR1] at this) kw hkw hb1 hb2 hb3 [.predMean, .predCov, .samples]
      (by simp [LinUsable, hsh, hpos, hS, hSpos]) x
    have hget : ∀ fn ∈ [LinFn.predMean, .predCov, .samples], ∃ v, r.get? (linKey fn) = some v := fun fn h =>
      Option.isSome_iff_exists.1 (hmem fn h)
    refine ⟨r, hrun, ?_, ?_, ?_⟩
    · obtain ⟨v, hv⟩ := hget .samples (by simp)
      have := hval _ v hv
      simp only [linKey] at hv
      rw [hv, ← this]
      clear hv this hmem hget hval hrun
      revert eps' hd'
      rw [show kw.numSamples.getD 0 = S by rw [hS]; rfl]
      intro eps' hd'
      simp only [linExpected, linKey]
      have he : ∀ i, eps' i = eps ω i := by
        intro i
        obtain ⟨k, t, a1, a2, a3⟩ := hd ω i
        obtain ⟨k', t', b1, b2, b3⟩ := hd' i
        rw [a1] at b1; cases b1
        rw [a2] at b2; cases b2
        exact List.ofFn_injective (b3.symm.trans a3)
      simp [he, hJ]
    · obtain ⟨v, hv⟩ := hget .predMean (by simp)
      have := hval _ v hv
      simp only [linKey] at hv
      rw [hv, ← this]
      simp [linExpected, linKey]
    · obtain ⟨v, hv⟩ := hget .predCov (by simp)
      refine ⟨v, hv, ?_⟩
      have := hval _ v hv
      simp only [linExpected, linKey] at this
      have hone : ∀ (n : ℕ) (_ : n = 1) (M : Matrix (Fin n) (Fin n) ℝ), (List.ofFn fun i => M i i) = (denseArr M).data := by
        rintro _ rfl M; simp [denseArr]
      rw [if_neg (by decide), if_neg (by decide), if_pos trivial] at this
      by_cases h0 : net.shape = []
      · rw [if_pos h0, Option.some.injEq] at this
        rw [← this]
        exact hone _ (by rw [h0]; rfl) _
      · have : some (denseArr (J * P⁻¹ * Jᵀ)) = some v := by
          rw [if_neg h0, if_pos (by have := List.length_pos_iff.2 h0; omega)] at this
          exact this
        rw [← Option.some.inj this]
  · have hV : J * P⁻¹ * Jᵀ = (J * R) * (J * R)ᵀ := by
      rw [← hR2, Matrix.transpose_mul]; simp only [Matrix.mul_assoc]
    rw [hV, ← map_affine_stdNormal, ← hlaw, AEMeasurable.map_map_of_aemeasurable _ hmeas]
    · simp only [← Matrix.mulVec_mulVec]; rfl
    · exact (measurable_affine _ (J * R)).aemeasurable

/-! ### Non-vacuity -/

/-- A random PRNG: the draw of the `k`-th leaf is the `k`-th coordinate of `ω`. -/
noncomputable def randomRng (ω : Fin 2 → ℝ) : Prng ℕ :=
  ⟨0, fun _ n => List.range n, fun k sh => ⟨sh, List.replicate (shapeSize sh) (if k = 0 then ω 0 else ω 1)⟩⟩

/-- The hypotheses on the PRNG are met with `Ω = ℝ²` under the standard normal distribution, parameters `{a: 3, b: [5]}` and one sample. -/
example : (∀ ω, RngOk (randomRng ω)) ∧ (∀ ω, Draws (randomRng ω) none testMean (fun _ : Fin 1 => ω)) ∧
    (Measure.pi (fun _ : Fin 2 => gaussianReal 0 1)).map (fun ω : Fin 2 → ℝ => ω) = Measure.pi fun _ => gaussianReal 0 1 := by
  refine ⟨fun ω => ⟨by simp [randomRng], by simp [randomRng], by simp [randomRng, Arr.WF]⟩, fun ω i => ?_, Measure.map_id⟩
  refine ⟨0, .node "dict(a,b)" [.leaf ⟨[], [ω 0]⟩, .leaf ⟨[1], [ω 1]⟩], ?_, ?_, ?_⟩
  · simp [randomRng]
  · rfl
  · simp [entries, Tree.leaves, Tree.leavesL, List.ofFn_succ]

end Laplax.Props
