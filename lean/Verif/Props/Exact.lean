import Verif.Spec.Exact
import Verif.Spec.ApiCalibration
import Verif.Props.LaplaceScaling
import Verif.Props.Likelihood
import Verif.Props.Lanczos
import Verif.Lib.GaussianDensity

/-! # C61: for models affine in the parameters and squared errors, the Laplace approximation is exact -/

namespace Laplax.Props
open Laplax Spec
open scoped BigOperators Matrix

variable {p c : ℕ} {A X Y Key : Type}

/-- A quadratic function that is minimal at 0 has no linear part. -/
theorem linear_part_zero {g q : ℝ} (h : ∀ t : ℝ, 0 ≤ t * g + t ^ 2 * q) : g = 0 := by
  by_contra hg
  by_cases hq : q ≤ 0
  · have h1 := h 1
    have h2 := h (-1)
    have : q = 0 := by nlinarith
    subst this
    have : g = 0 := by nlinarith
    exact hg this
  · push Not at hq
    have := h (-g / (2 * q))
    have e : -g / (2 * q) * g + (-g / (2 * q)) ^ 2 * q = -(g ^ 2 / (4 * q)) := by
      field_simp; ring
    rw [e] at this
    have : 0 < g ^ 2 / (4 * q) := by positivity
    linarith

/-- The Jacobian of an affine map. -/
theorem jacobian_affine (M : Matrix (Fin c) (Fin p) ℝ) (b : Vec c) (f : Vec p → Vec c) (h : ∀ θ, f θ = M *ᵥ θ + b) (θ : Vec p) :
    DifferentiableAt ℝ f θ ∧ jacobian f θ = M := by
  have hf : f = fun θ => (Matrix.toLin' M).toContinuousLinearMap θ + b := by
    funext θ; rw [h]; rfl
  have hd : HasFDerivAt f (Matrix.toLin' M).toContinuousLinearMap θ := by
    rw [hf]; exact ((Matrix.toLin' M).toContinuousLinearMap.hasFDerivAt).add_const b
  refine ⟨hd.differentiableAt, ?_⟩
  ext i j
  simp only [jacobian, hd.fderiv]
  simp

/-- The squared error of an affine model around any point. -/
theorem totalError_expand {f : X → Vec p → Vec c} (hf : AffineModel f) (samples : List (X × Vec c)) (θ : Vec p) :
    ∃ g : Vec p → ℝ, (∀ (t : ℝ) d, g (t • d) = t * g d) ∧ ∀ d, totalError f samples (θ + d) =
      totalError f samples θ + g d + 1 / 2 * (d ⬝ᵥ ggnSamples f θ (fun jv _ _ => mseHessianMv jv) samples d) := by
  obtain ⟨M, b, h⟩ := hf
  have hj : ∀ x, jacobian (f x) θ = M x := fun x => (jacobian_affine (M x) (b x) (f x) (h x) θ).2
  refine ⟨fun d => (samples.map fun s => ∑ k, 2 * (f s.1 θ k - s.2 k) * (M s.1 *ᵥ d) k).sum, ?_, ?_⟩
  · intro t d
    dsimp only
    rw [← List.sum_map_mul_left]
    congr 1
    refine List.map_congr_left fun s _ => ?_
    rw [Finset.mul_sum]
    refine Finset.sum_congr rfl fun k _ => ?_
    rw [Matrix.mulVec_smul, Pi.smul_apply, smul_eq_mul]; ring
  · intro d
    induction samples with
    | nil => simp [totalError, ggnSamples]
    | cons s ss ih =>
      simp only [totalError, ggnSamples, List.map_cons, List.sum_cons, dotProduct_add] at ih ⊢
      rw [ih, hj]
      have hs : ∑ k, (f s.1 (θ + d) k - s.2 k) ^ 2 = ∑ k, (f s.1 θ k - s.2 k) ^ 2 + ∑ k, 2 * (f s.1 θ k - s.2 k) * (M s.1 *ᵥ d) k +
          1 / 2 * (d ⬝ᵥ (M s.1)ᵀ *ᵥ mseHessianMv (M s.1 *ᵥ d)) := by
        have e1 : d ⬝ᵥ (M s.1)ᵀ *ᵥ mseHessianMv (M s.1 *ᵥ d) = ∑ k, 2 * (M s.1 *ᵥ d) k ^ 2 := by
          rw [Matrix.dotProduct_mulVec, Matrix.vecMul_transpose, dotProduct]
          refine Finset.sum_congr rfl fun k _ => ?_
          simp only [mseHessianMv]
          ring
        rw [e1, Finset.mul_sum, ← Finset.sum_add_distrib, ← Finset.sum_add_distrib]
        refine Finset.sum_congr rfl fun k _ => ?_
        rw [h, h, Matrix.mulVec_add]
        simp only [Pi.add_apply]
        ring
      rw [hs]
      ring

/-- Around its minimum the energy of an affine model is exactly quadratic. -/
theorem energy_expand {f : X → Vec p → Vec c} (hf : AffineModel f) (samples : List (X × Vec c)) (w τ : ℝ) (θ : Vec p)
    (hmin : ∀ θ', energy f samples w τ θ ≤ energy f samples w τ θ') (G : Mat p p)
    (hG : ∀ v, G *ᵥ v = ggnSamples f θ (fun jv _ _ => mseHessianMv jv) samples v) (θ' : Vec p) :
    energy f samples w τ θ' = energy f samples w τ θ +
      1 / 2 * ((θ' - θ) ⬝ᵥ (w • G + τ • (1 : Mat p p)) *ᵥ (θ' - θ)) := by
  obtain ⟨g, g1, g2⟩ := totalError_expand hf samples θ
  have key : ∀ d, energy f samples w τ (θ + d) = energy f samples w τ θ + (w * g d + τ * (θ ⬝ᵥ d)) +
      1 / 2 * (d ⬝ᵥ (w • G + τ • (1 : Mat p p)) *ᵥ d) := by
    intro d
    have e1 : ∑ i, (θ + d) i ^ 2 = ∑ i, θ i ^ 2 + 2 * (θ ⬝ᵥ d) + d ⬝ᵥ d := by
      rw [dotProduct, dotProduct, Finset.mul_sum, ← Finset.sum_add_distrib, ← Finset.sum_add_distrib]
      exact Finset.sum_congr rfl fun i _ => by rw [Pi.add_apply]; ring
    have e2 : d ⬝ᵥ (w • G + τ • (1 : Mat p p)) *ᵥ d = w * (d ⬝ᵥ ggnSamples f θ (fun jv _ _ => mseHessianMv jv) samples d) + τ * (d ⬝ᵥ d) := by
      rw [Matrix.add_mulVec, Matrix.smul_mulVec, Matrix.smul_mulVec, Matrix.one_mulVec, hG, dotProduct_add, dotProduct_smul, dotProduct_smul,
        smul_eq_mul, smul_eq_mul]
    rw [energy, energy, g2, e1, e2]
    ring
  have hlin : ∀ d, w * g d + τ * (θ ⬝ᵥ d) = 0 := by
    intro d
    refine linear_part_zero (q := 1 / 2 * (d ⬝ᵥ (w • G + τ • (1 : Mat p p)) *ᵥ d)) fun t => ?_
    have h1 := hmin (θ + t • d)
    rw [key, g1, dotProduct_smul, Matrix.mulVec_smul, smul_dotProduct, dotProduct_smul, smul_eq_mul, smul_eq_mul, smul_eq_mul] at h1
    nlinarith [h1]
  have := key (θ' - θ)
  rw [hlin, add_sub_cancel] at this
  rw [this, add_zero]

/-- The Gaussian integral. -/
theorem exp_quadratic_integral (P : Mat p p) (hP : P.PosDef) (e : ℝ) (θ : Vec p) :
    ∫ θ' : Vec p, Real.exp (e - 1 / 2 * ((θ' - θ) ⬝ᵥ P *ᵥ (θ' - θ))) = Real.exp e * (Real.sqrt ((2 * Real.pi)⁻¹ • P).det)⁻¹ := by
  have hd : 0 < ((2 * Real.pi)⁻¹ • P).det := by
    rw [Matrix.det_smul]; have := hP.det_pos; positivity
  have h1 := laplaceIntegral_eq e P hP θ
  have hpos : 0 < laplaceIntegral e P θ := by
    have h0 : 0 ≤ laplaceIntegral e P θ := MeasureTheory.integral_nonneg fun _ => (Real.exp_pos _).le
    rcases h0.lt_or_eq with h0 | h0
    · exact h0
    · exfalso
      -- shift the constant: the logarithm of zero does not depend on it
      have h2 := laplaceIntegral_eq (e + 1) P hP θ
      have h3 : laplaceIntegral (e + 1) P θ = Real.exp 1 * laplaceIntegral e P θ := by
        unfold laplaceIntegral
        rw [← MeasureTheory.integral_const_mul]
        refine MeasureTheory.integral_congr_ae (Filter.Eventually.of_forall fun x => ?_)
        simp only
        rw [← Real.exp_add]; congr 1; ring
      rw [h3, ← h0, mul_zero] at h2
      rw [← h0] at h1
      unfold logEvidence at h1 h2
      linarith
  have h2 : laplaceIntegral e P θ = Real.exp (logEvidence e P) := by rw [← h1, Real.exp_log hpos]
  have h3 : ∫ θ' : Vec p, Real.exp (e - 1 / 2 * ((θ' - θ) ⬝ᵥ P *ᵥ (θ' - θ))) = laplaceIntegral e P θ := rfl
  rw [h3, h2, logEvidence, Real.exp_sub]
  rw [show (1 : ℝ) / 2 * Real.log ((2 * Real.pi)⁻¹ • P).det = Real.log (Real.sqrt ((2 * Real.pi)⁻¹ • P).det) by
    rw [Real.log_sqrt hd.le]; ring, Real.exp_log (Real.sqrt_pos.mpr hd), div_eq_mul_inv]

/-- The normalised density of a quadratic energy. -/
theorem density_of_energy (E : Vec p → ℝ) (P : Mat p p) (hP : P.PosDef) (θ : Vec p)
    (h : ∀ θ', E θ' = E θ + 1 / 2 * ((θ' - θ) ⬝ᵥ P *ᵥ (θ' - θ))) (θ' : Vec p) :
    Real.exp (-E θ') / ∫ θ'', Real.exp (-E θ'') = gaussianDensity P θ θ' := by
  have hd : 0 < ((2 * Real.pi)⁻¹ • P).det := by
    rw [Matrix.det_smul]; have := hP.det_pos; positivity
  have h1 : ∀ θ'', -E θ'' = -E θ - 1 / 2 * ((θ'' - θ) ⬝ᵥ P *ᵥ (θ'' - θ)) := fun θ'' => by rw [h]; ring
  have h2 : ∫ θ'', Real.exp (-E θ'') = Real.exp (-E θ) * (Real.sqrt ((2 * Real.pi)⁻¹ • P).det)⁻¹ := by
    rw [← exp_quadratic_integral P hP (-E θ) θ]
    exact MeasureTheory.integral_congr_ae (Filter.Eventually.of_forall fun x => by simp only; rw [h1])
  rw [h2, h1, Real.exp_sub, gaussianDensity]
  have hs : Real.sqrt ((2 * Real.pi)⁻¹ • P).det ≠ 0 := (Real.sqrt_pos.mpr hd).ne'
  rw [show -(1 / 2) * ((θ' - θ) ⬝ᵥ P *ᵥ (θ' - θ)) = -(1 / 2 * ((θ' - θ) ⬝ᵥ P *ᵥ (θ' - θ))) by ring, Real.exp_neg]
  have he : Real.exp (-E θ) ≠ 0 := (Real.exp_pos _).ne'
  generalize Real.sqrt ((2 * Real.pi)⁻¹ • P).det = r at hs ⊢
  field_simp
  rw [← Real.exp_add, add_neg_cancel, Real.exp_zero]

/-- The determinant of `a G + τ I` grows strictly with `a` unless `G = 0`. -/
theorem det_strict {G : Mat p p} (hG : G.PosSemidef) {τ a b : ℝ} (hτ : 0 < τ) (ha : 0 ≤ a) (hab : a < b) (h0 : G ≠ 0) :
    (a • G + τ • (1 : Mat p p)).det < (b • G + τ • (1 : Mat p p)).det := by
  obtain ⟨eigh, he⟩ := C23_eigh_exists p
  have hsym : Gᵀ = G := by
    have := hG.1
    rwa [Matrix.IsHermitian, Matrix.conjTranspose_eq_transpose_of_trivial] at this
  obtain ⟨hU, hGD⟩ := he G hsym
  generalize (eigh G).1 = D at hGD
  generalize (eigh G).2 = U at hU hGD
  have hU' : U * Uᵀ = 1 := mul_eq_one_comm.mp hU
  have hD : ∀ k, 0 ≤ D k := by
    intro k
    have h1 := hG.dotProduct_mulVec_nonneg (U *ᵥ Pi.single k 1)
    have h2 : G *ᵥ (U *ᵥ Pi.single k 1) = U *ᵥ (D k • Pi.single k 1) := by
      rw [hGD, Matrix.mulVec_mulVec, Matrix.mul_assoc, hU, Matrix.mul_one, ← Matrix.mulVec_mulVec]
      congr 1
      ext i
      rw [Matrix.mulVec_diagonal, Pi.smul_apply, smul_eq_mul]
      by_cases hi : i = k
      · rw [hi]
      · simp [hi]
    rw [h2] at h1
    simp only [star_trivial] at h1
    rw [Matrix.dotProduct_mulVec, ← Matrix.mulVec_transpose, Matrix.mulVec_mulVec, hU, Matrix.one_mulVec] at h1
    simpa using h1
  have hdet : ∀ t : ℝ, (t • G + τ • (1 : Mat p p)).det = ∏ k, (t * D k + τ) := by
    intro t
    have : t • G + τ • (1 : Mat p p) = U * Matrix.diagonal (fun k => t * D k + τ) * Uᵀ := by
      have e : Matrix.diagonal (fun k => t * D k + τ) = t • Matrix.diagonal D + τ • (1 : Mat p p) := by
        ext i j
        by_cases hij : i = j
        · subst hij; simp
        · simp [hij]
      rw [e, Matrix.mul_add, Matrix.add_mul, Matrix.mul_smul, Matrix.smul_mul, ← hGD, Matrix.mul_smul, Matrix.smul_mul, Matrix.mul_one, hU']
    rw [this, Matrix.det_mul, Matrix.det_mul, mul_comm U.det, mul_assoc, ← Matrix.det_mul, hU', Matrix.det_one, mul_one, Matrix.det_diagonal]
  obtain ⟨k, hk⟩ : ∃ k, D k ≠ 0 := by
    by_contra hcon
    push Not at hcon
    apply h0
    rw [hGD, show Matrix.diagonal D = 0 by rw [show D = 0 from funext hcon]; exact Matrix.diagonal_zero]
    simp
  rw [hdet, hdet]
  refine Finset.prod_lt_prod (fun i _ => ?_) (fun i _ => ?_) ⟨k, Finset.mem_univ _, ?_⟩
  · have := hD i; positivity
  · have := mul_le_mul_of_nonneg_right hab.le (hD i); linarith
  · have := mul_lt_mul_of_pos_right hab (lt_of_le_of_ne (hD k) (Ne.symm hk)); linarith

/-- **C61 (the posterior is exact).** For a model affine in its parameters and the loss `mse`, fitted by `laplace` with curvature type FULL
on the whole data set: if the parameters minimise `σ²·Σ‖f(x, θ) - y‖² + τ/2 ‖θ‖²` (the training objective that the prior arguments
describe), then the exact posterior density `exp(-energy/s)/∫ exp(-energy/s)` is the Gaussian with the parameters as mean and the returned
products as covariance and square root of the covariance. -/
theorem C61_posterior_exact (lower : String → String) (rows : A → Except Err (List A))
    (points : PyObj A → PyObj A → Except Err (List (X × Vec c))) (model : X → Vec p → Vec c) (hf : AffineModel model) (params : PyTree ℝ)
    (θ : Vec p) (data : PyObj A) (samples : List (X × Vec c)) (H : Vec c → Vec c → Vec c → Vec c) (curvType ct : EnumArg)
    (h : LaplaceCall lower points model params θ data samples "mse" H curvType ct)
    (kind : EnumArg → LaplaceKind p) (hk : kind ct = .full) (n : ℕ) (hn : n ≠ 0) :
    ∃ posteriorFn est, laplace lower rows points model params data (.name "mse") curvType kind n n = .ok (posteriorFn, est) ∧
      ∀ (a : PriorArgs) (τ : ℝ), a.priorPrec = some τ → 0 < τ → 0 ≤ a.sigmaSquared.getD 1 → ∀ s : ℝ, 0 < s →
        (∀ θ', energy model samples (a.sigmaSquared.getD 1) τ θ ≤ energy model samples (a.sigmaSquared.getD 1) τ θ') →
        ∃ post cov scale, posteriorFn a s = .ok post ∧ post.covMv post.state = .ok cov ∧ post.scaleMv post.state = .ok scale ∧
          ∃ P R : Matrix (Fin p) (Fin p) ℝ, P * P⁻¹ = 1 ∧ R * Rᵀ = P⁻¹ ∧
            ActsOnTrees params cov (fun v => P⁻¹ *ᵥ v) ∧ ActsOnTrees params scale (fun v => R *ᵥ v) ∧
            ∀ θ', Real.exp (-(energy model samples (a.sigmaSquared.getD 1) τ θ' / s)) /
                ∫ θ'', Real.exp (-(energy model samples (a.sigmaSquared.getD 1) τ θ'' / s)) = gaussianDensity P θ θ' := by
  obtain ⟨G, h1, h2⟩ := C47_posterior lower rows points model params θ data samples "mse" H curvType ct h kind n n hn
  obtain ⟨posteriorFn, k1, k2⟩ := h2 (.full G) (Or.inl ⟨hk, rfl⟩)
  have hH : H = fun jv _ _ => mseHessianMv jv := by
    have := h.hH
    have e : createLossHessianMv (.name "mse" : LossArg c (Vec c)) = .ok (fun jv _ _ => mseHessianMv jv) := rfl
    rw [e, Except.ok.injEq] at this
    exact this.symm
  subst hH
  have hn' : ((n : ℝ) / n) = 1 := div_self (by exact_mod_cast hn)
  have hG : ∀ v, G *ᵥ v = ggnSamples model θ (fun jv _ _ => mseHessianMv jv) samples v := fun v => by rw [h1, hn', one_smul]
  refine ⟨posteriorFn, _, k1, fun a τ hτ hτ0 hσ s hs hmin => ?_⟩
  obtain ⟨post, cov, scale, p1, p2, p3, R, ⟨e1, e2, e3, S, e4, e5⟩, p5, p6⟩ := k2 a τ hτ hτ0 hσ s hs
  have hRS : R = S := by
    apply Matrix.toLin'.injective
    apply LinearMap.ext; intro v
    rw [Matrix.toLin'_apply, Matrix.toLin'_apply]; exact e4 v
  refine ⟨post, cov, scale, p1, p2, p3, _, R, e1, by rw [hRS]; exact e5, p5, p6, fun θ' => ?_⟩
  have hP : (targetPrecision τ (a.sigmaSquared.getD 1) s (.full G)).PosDef := by
    have := e2.inv
    rwa [Matrix.nonsing_inv_nonsing_inv _ ((Matrix.isUnit_iff_isUnit_det _).mp (IsUnit.of_mul_eq_one _ e1))] at this
  refine density_of_energy (fun θ' => energy model samples (a.sigmaSquared.getD 1) τ θ' / s) _ hP θ (fun θ'' => ?_) θ'
  rw [energy_expand hf samples _ τ θ hmin G hG θ'']
  simp only [targetPrecision, precision]
  rw [Matrix.smul_mulVec, dotProduct_smul, smul_eq_mul]
  ring

/-- The law of an affine function of the parameters under a quadratic energy. -/
theorem gibbsLaw_affine (E : Vec p → ℝ) (P R : Mat p p) (hP : P.PosDef) (hR : R * Rᵀ = P⁻¹) (θ : Vec p)
    (h : ∀ θ', E θ' = E θ + 1 / 2 * ((θ' - θ) ⬝ᵥ P *ᵥ (θ' - θ))) {q : ℕ} (M : Matrix (Fin q) (Fin p) ℝ) (b : Vec q) :
    (gibbsLaw E).map (fun θ' => WithLp.toLp 2 (M *ᵥ θ' + b)) =
      ProbabilityTheory.multivariateGaussian (WithLp.toLp 2 (M *ᵥ θ + b)) (M * P⁻¹ * Mᵀ) := by
  have h1 : gibbsLaw E = (MeasureTheory.Measure.pi fun _ : Fin p => ProbabilityTheory.gaussianReal 0 1).map (fun y => θ + R *ᵥ y) := by
    rw [map_affine_density θ P R hP hR, gibbsLaw]
    congr 1
    funext θ'
    rw [density_of_energy E P hP θ h θ', gaussianDensity]
  have hm2 : Measurable (fun y : Fin p → ℝ => θ + R *ᵥ y) := by
    refine measurable_pi_iff.2 fun i => ?_
    simp only [Pi.add_apply, Matrix.mulVec, dotProduct]
    fun_prop
  have hm1 : Measurable (fun θ' : Fin p → ℝ => WithLp.toLp 2 (M *ᵥ θ' + b)) := by
    have := measurable_affine b M
    simpa only [add_comm] using this
  rw [h1, MeasureTheory.Measure.map_map hm1 hm2]
  have h2 : ((fun θ' : Fin p → ℝ => WithLp.toLp 2 (M *ᵥ θ' + b)) ∘ fun y => θ + R *ᵥ y) =
      fun e => WithLp.toLp 2 ((M *ᵥ θ + b) + (M * R) *ᵥ e) := by
    funext y
    simp only [Function.comp, Matrix.mulVec_add, Matrix.mulVec_mulVec]
    congr 1
    abel
  rw [h2, map_affine_stdNormal, ← hR, Matrix.transpose_mul]
  congr 1
  simp only [Matrix.mul_assoc]

/-- **C61 (the predictive is exact).** Under the same hypotheses the linearised pushforward reports, at every input, the mean and the
covariance of the *exact* posterior predictive distribution of the model output: the law of `f(x, θ')` when `θ'` has the density
proportional to `exp(-energy/s)`. -/
theorem C61_predictive_exact {K : Type} (lower : String → String) (rows : A → Except Err (List A)) (net : Net X p) (hf : AffineModel net.fn)
    (points : PyObj A → PyObj A → Except Err (List (X × Vec (shapeSize net.shape)))) (params : PyTree ℝ) (θ : Vec p)
    (data : PyObj A) (samples : List (X × Vec (shapeSize net.shape)))
    (H : Vec (shapeSize net.shape) → Vec (shapeSize net.shape) → Vec (shapeSize net.shape) → Vec (shapeSize net.shape))
    (curvType ct : EnumArg) (h : LaplaceCall lower points net.fn params θ data samples "mse" H curvType ct)
    (kind : EnumArg → LaplaceKind p) (hk : kind ct = .full) (n : ℕ) (hn : n ≠ 0)
    (prior : PriorArgs) (τ : ℝ) (hτ : prior.priorPrec = some τ) (hτ0 : 0 < τ) (hσ : 0 ≤ prior.sigmaSquared.getD 1) (s : ℝ) (hs : 0 < s)
    (hmin : ∀ θ', energy net.fn samples (prior.sigmaSquared.getD 1) τ θ ≤ energy net.fn samples (prior.sigmaSquared.getD 1) τ θ')
    (rng : Prng K) (hrng : RngOk rng) (kw : PfKwargs K) (hkw : kw.precompute = none) (hb1 : kw.precomputeListBatchSize ≠ some 0)
    (hb2 : kw.linSamplesBatchSize ≠ some 0) (hb3 : kw.weightBatchSize ≠ some 0) (fns : List LinFn)
    (hu : ∀ fn ∈ fns, LinUsable net.shape (kw.numSamples.getD 0) (kw.specialPredType.getD "mean_field_0") fn) :
    ∃ (posteriorFn : PriorArgs → ℝ → Except Err (Posterior p)) (est : CurvEstimate p),
      laplace lower rows points net.fn params data (.name "mse") curvType kind n n = .ok (posteriorFn, est) ∧
      ∀ x : X, ∃ (r : Dict (Arr ℝ)) (m : Vec (shapeSize net.shape)) (V : Mat (shapeSize net.shape) (shapeSize net.shape))
          (draws : Fin (kw.numSamples.getD 0) → Vec (shapeSize net.shape)),
        (gibbsLaw fun θ' => energy net.fn samples (prior.sigmaSquared.getD 1) τ θ' / s).map (fun θ' => WithLp.toLp 2 (net.fn x θ')) =
          ProbabilityTheory.multivariateGaussian (WithLp.toLp 2 m) V ∧
        linPushforward rng net params posteriorFn prior s ((LinFn.setup :: fns).map LinFn.step) kw x = .ok r ∧
        (∀ key v, r.get? key = some v →
          linExpected net.shape m V draws (specialOf (kw.specialPredType.getD "mean_field_0") m V) key = some v) ∧
        ∀ fn ∈ fns, (r.get? (linKey fn)).isSome := by
  obtain ⟨G, P, R, posteriorFn, g1, g2, g3, g4, g5, g6⟩ := C47_linearized_predictive_full lower rows net points params θ data samples "mse" H
    curvType ct h kind hk n n hn prior τ hτ hτ0 hσ s hs rng hrng kw hkw hb1 hb2 hb3 fns hu
  have hH : H = fun jv _ _ => mseHessianMv jv := by
    have := h.hH
    have e : createLossHessianMv (.name "mse" : LossArg (shapeSize net.shape) (Vec (shapeSize net.shape))) =
      .ok (fun jv _ _ => mseHessianMv jv) := rfl
    rw [e, Except.ok.injEq] at this
    exact this.symm
  subst hH
  have hn' : ((n : ℝ) / n) = 1 := div_self (by exact_mod_cast hn)
  have hG : ∀ v, G *ᵥ v = ggnSamples net.fn θ (fun jv _ _ => mseHessianMv jv) samples v := fun v => by rw [g1, hn', one_smul]
  have hpsd : G.PosSemidef := by
    obtain ⟨G', k1, k2, -⟩ := C47_laplace_curvature lower rows points net.fn params θ data samples "mse" _ curvType ct h kind n n hn
    have : G = G' := by
      apply Matrix.toLin'.injective
      apply LinearMap.ext
      intro v
      rw [Matrix.toLin'_apply, Matrix.toLin'_apply, g1, k2]
    rw [this]; exact k1
  have hP : P.PosDef := by rw [g2]; exact precision_posDef hpsd hτ0 hσ hs
  refine ⟨posteriorFn, _, g5, fun x => ?_⟩
  obtain ⟨r, eps, -, k2, k3, k4⟩ := g6 x
  refine ⟨r, _, _, _, ?_, k2, k3, k4⟩
  obtain ⟨M, b, hM⟩ := id hf
  have hj := (jacobian_affine (M x) (b x) (net.fn x) (hM x) θ).2
  have := gibbsLaw_affine (fun θ' => energy net.fn samples (prior.sigmaSquared.getD 1) τ θ' / s) P R hP g4 θ (fun θ'' => by
    rw [energy_expand hf samples _ τ θ hmin G hG θ'', g2, Matrix.smul_mulVec, dotProduct_smul, smul_eq_mul]
    ring) (M x) (b x)
  rw [hj]
  simpa only [← hM] using this

/-- The joint density around its maximum. -/
theorem logJoint_expand {f : X → Vec p → Vec c} (hf : AffineModel f) (samples : List (X × Vec c)) (σ τ : ℝ) (hτ : 0 < τ) (θ : Vec p)
    (hmax : ∀ θ', logJoint f samples σ τ θ' ≤ logJoint f samples σ τ θ) (G : Mat p p)
    (hG : ∀ v, G *ᵥ v = ggnSamples f θ (fun jv _ _ => mseHessianMv jv) samples v) (θ' : Vec p) :
    logJoint f samples σ τ θ' = logJoint f samples σ τ θ -
      1 / 2 * ((θ' - θ) ⬝ᵥ ((1 / (2 * σ)) • G + τ • (1 : Mat p p)) *ᵥ (θ' - θ)) := by
  have key : ∃ C : ℝ, ∀ θ', logJoint f samples σ τ θ' = C - energy f samples (1 / (2 * σ)) τ θ' := by
    refine ⟨-0.5 * (p : ℝ) * (Real.log (2 * Real.pi) - Real.log τ), fun θ' => ?_⟩
    rw [logJoint, energy, logPrior_eq τ hτ, List.length_ofFn, List.map_ofFn, List.sum_ofFn]
    simp only [Function.comp]
    ring
  obtain ⟨C, hC⟩ := key
  rw [hC, hC, energy_expand hf samples _ τ θ (fun θ'' => by have := hmax θ''; rw [hC, hC] at this; linarith) G hG θ']
  ring

/-- The evidence of a quadratic joint density, with another precision. -/
theorem evidence_compare {G : Mat p p} (hG : G.PosSemidef) {τ a b : ℝ} (hτ : 0 < τ) (ha : 0 ≤ a) (hb : 0 ≤ b) (J : Vec p → ℝ) (θ : Vec p)
    (hJ : ∀ θ', J θ' = J θ - 1 / 2 * ((θ' - θ) ⬝ᵥ (a • G + τ • (1 : Mat p p)) *ᵥ (θ' - θ))) :
    (logEvidence (J θ) (b • G + τ • (1 : Mat p p)) = Real.log (∫ θ', Real.exp (J θ')) ↔ a = b ∨ G = 0) ∧
    (a < b → G ≠ 0 → logEvidence (J θ) (b • G + τ • (1 : Mat p p)) < Real.log (∫ θ', Real.exp (J θ'))) ∧
    (b < a → G ≠ 0 → Real.log (∫ θ', Real.exp (J θ')) < logEvidence (J θ) (b • G + τ • (1 : Mat p p))) := by
  have hpd : ∀ t : ℝ, 0 ≤ t → (t • G + τ • (1 : Mat p p)).PosDef := by
    intro t ht
    have := precision_posDef (s := 1) hG hτ ht one_pos
    simpa [precision] using this
  have hint : Real.log (∫ θ', Real.exp (J θ')) = logEvidence (J θ) (a • G + τ • (1 : Mat p p)) := by
    rw [← laplaceIntegral_eq _ _ (hpd a ha) θ, laplaceIntegral]
    congr 1
    exact MeasureTheory.integral_congr_ae (Filter.Eventually.of_forall fun x => by simp only; rw [hJ])
  have hlt : ∀ u v : ℝ, 0 ≤ u → 0 ≤ v → u < v → G ≠ 0 →
      logEvidence (J θ) (v • G + τ • (1 : Mat p p)) < logEvidence (J θ) (u • G + τ • (1 : Mat p p)) := by
    intro u v hu hv huv h0
    have h1 := det_strict hG hτ hu huv h0
    have h2 : ((2 * Real.pi)⁻¹ • (u • G + τ • (1 : Mat p p))).det < ((2 * Real.pi)⁻¹ • (v • G + τ • (1 : Mat p p))).det := by
      rw [Matrix.det_smul, Matrix.det_smul]
      exact mul_lt_mul_of_pos_left h1 (by positivity)
    have h3 : 0 < ((2 * Real.pi)⁻¹ • (u • G + τ • (1 : Mat p p))).det := by
      rw [Matrix.det_smul]; have := (hpd u hu).det_pos; positivity
    have := Real.log_lt_log h3 h2
    unfold logEvidence
    linarith
  rw [hint]
  refine ⟨⟨fun he => ?_, ?_⟩, fun hab h0 => hlt a b ha hb hab h0, fun hab h0 => hlt b a hb ha hab h0⟩
  · by_contra hcon
    push Not at hcon
    rcases lt_or_gt_of_ne hcon.1 with h1 | h1
    · exact absurd he (hlt a b ha hb h1 hcon.2).ne
    · exact absurd he.symm (hlt b a hb ha h1 hcon.2).ne
  · rintro (rfl | rfl)
    · rfl
    · simp

/-- **C61 (finding: the evidence is exact only for `2·sigma·sigma_squared = 1`).** For a model affine in its parameters the evidence
`p(D) = ∫ p(D, θ) dθ` is a Gaussian integral, which the Laplace approximation gets right.  `marginal_log_likelihood` with the curvature
that `laplace` returns, at the maximiser of the joint density it reports, equals `log p(D)` exactly when `2·sigma·sigma_squared = 1` or
the curvature vanishes: the likelihood is weighted with `1/(2·sigma)`, the curvature in the precision with `sigma_squared`.  When
`2·sigma·sigma_squared > 1`, in particular with the defaults `1` and `1`, it is strictly too small. -/
theorem C61_evidence_exact_iff (lower : String → String) (rows : A → Except Err (List A))
    (points : PyObj A → PyObj A → Except Err (List (X × Vec c))) (model : X → Vec p → Vec c) (hf : AffineModel model) (params : PyTree ℝ)
    (θ : Vec p) (data : PyObj A) (samples : List (X × Vec c)) (H : Vec c → Vec c → Vec c → Vec c) (curvType ct : EnumArg)
    (h : LaplaceCall lower points model params θ data samples "mse" H curvType ct)
    (kind : EnumArg → LaplaceKind p) (hk : kind ct = .full) (n : ℕ) (hn : n ≠ 0)
    (fullFn : PyTree ℝ → Except Err ℝ) (hl : fullFn params = .ok (totalError model samples θ)) :
    ∃ posteriorFn G, laplace lower rows points model params data (.name "mse") curvType kind n n = .ok (posteriorFn, .full G) ∧
      ∀ (a : MllArgs) (τ : ℝ), a.priorPrec = some τ → 0 < τ → 0 < a.sigma.getD 1 → 0 ≤ a.sigmaSquared.getD 1 →
        (∀ θ', logJoint model samples (a.sigma.getD 1) τ θ' ≤ logJoint model samples (a.sigma.getD 1) τ θ) →
        ∃ lml, marginalLogLikelihood (.full G) a (.ok fullFn) params = .ok lml ∧
          (lml = Real.log (∫ θ', Real.exp (logJoint model samples (a.sigma.getD 1) τ θ')) ↔
            2 * a.sigma.getD 1 * a.sigmaSquared.getD 1 = 1 ∨ G = 0) ∧
          (1 < 2 * a.sigma.getD 1 * a.sigmaSquared.getD 1 → G ≠ 0 →
            lml < Real.log (∫ θ', Real.exp (logJoint model samples (a.sigma.getD 1) τ θ'))) ∧
          (2 * a.sigma.getD 1 * a.sigmaSquared.getD 1 < 1 → G ≠ 0 →
            Real.log (∫ θ', Real.exp (logJoint model samples (a.sigma.getD 1) τ θ')) < lml) := by
  obtain ⟨G, h0, h1, h2⟩ := C47_laplace_curvature lower rows points model params θ data samples "mse" H curvType ct h kind n n hn
  have hH : H = fun jv _ _ => mseHessianMv jv := by
    have := h.hH
    have e : createLossHessianMv (.name "mse" : LossArg c (Vec c)) = .ok (fun jv _ _ => mseHessianMv jv) := rfl
    rw [e, Except.ok.injEq] at this
    exact this.symm
  subst hH
  have hn' : ((n : ℝ) / n) = 1 := div_self (by exact_mod_cast hn)
  have hG : ∀ v, G *ᵥ v = ggnSamples model θ (fun jv _ _ => mseHessianMv jv) samples v := fun v => by rw [h1, hn', one_smul]
  refine ⟨_, G, by rw [h2, hk]; rfl, fun a τ hτ hτ0 hσ hσ2 hmax => ?_⟩
  have hne : params.leaves ≠ [] := leaves_ne_of_entries h.hp h.hθ
  have hsz : getSize params = p := by
    rw [← ((C02_full_flatten params).2 hne).2 h.hwf, h.hθ, List.length_ofFn]
  obtain ⟨joint, lml, j1, j2, j3, -⟩ := C34_full G h0 a fullFn params h.hwf hne hsz τ hτ hτ0 hσ2 1 one_pos _ hl
  have hj : joint = logJoint model samples (a.sigma.getD 1) τ θ := by
    rw [C34_joint fullFn a params h.hwf hne τ hτ hτ0 _ hl, Except.ok.injEq] at j1
    rw [← j1, h.hθ, logJoint]
  have hexp := fun θ' => logJoint_expand hf samples (a.sigma.getD 1) τ hτ0 θ hmax G hG θ'
  obtain ⟨c1, c2, c3⟩ := evidence_compare (a := 1 / (2 * a.sigma.getD 1)) (b := a.sigmaSquared.getD 1) h0 hτ0 (by positivity) hσ2
    (logJoint model samples (a.sigma.getD 1) τ) θ hexp
  have hP : precision G τ (a.sigmaSquared.getD 1) 1 = a.sigmaSquared.getD 1 • G + τ • (1 : Mat p p) := by simp [precision]
  rw [hj, hP] at j3
  subst j3
  have h2σ : 0 < 2 * a.sigma.getD 1 := by positivity
  refine ⟨_, j2, ?_, fun hgt => c2 ?_, fun hlt => c3 ?_⟩
  · rw [c1, div_eq_iff h2σ.ne', mul_comm (a.sigmaSquared.getD 1), eq_comm (a := (1 : ℝ))]
  · rw [div_lt_iff₀ h2σ, mul_comm (a.sigmaSquared.getD 1)]; exact hgt
  · rw [lt_div_iff₀ h2σ, mul_comm (a.sigmaSquared.getD 1)]; exact hlt

/-- **C61 (evidence, partial).** With `2·sigma·sigma_squared = 1` the marginal log-likelihood is the exact log evidence.  Missing: all other
values, where it is wrong unless the curvature vanishes (`C61_evidence_exact_iff`). -/
theorem C61_evidence_partial (lower : String → String) (rows : A → Except Err (List A))
    (points : PyObj A → PyObj A → Except Err (List (X × Vec c))) (model : X → Vec p → Vec c) (hf : AffineModel model) (params : PyTree ℝ)
    (θ : Vec p) (data : PyObj A) (samples : List (X × Vec c)) (H : Vec c → Vec c → Vec c → Vec c) (curvType ct : EnumArg)
    (h : LaplaceCall lower points model params θ data samples "mse" H curvType ct)
    (kind : EnumArg → LaplaceKind p) (hk : kind ct = .full) (n : ℕ) (hn : n ≠ 0)
    (fullFn : PyTree ℝ → Except Err ℝ) (hl : fullFn params = .ok (totalError model samples θ))
    (a : MllArgs) (τ : ℝ) (hτ : a.priorPrec = some τ) (hτ0 : 0 < τ) (hσ : 0 < a.sigma.getD 1)
    (h2 : 2 * a.sigma.getD 1 * a.sigmaSquared.getD 1 = 1)
    (hmax : ∀ θ', logJoint model samples (a.sigma.getD 1) τ θ' ≤ logJoint model samples (a.sigma.getD 1) τ θ) :
    ∃ posteriorFn est, laplace lower rows points model params data (.name "mse") curvType kind n n = .ok (posteriorFn, est) ∧
      marginalLogLikelihood est a (.ok fullFn) params =
        .ok (Real.log (∫ θ', Real.exp (logJoint model samples (a.sigma.getD 1) τ θ'))) := by
  obtain ⟨f, G, k1, k2⟩ := C61_evidence_exact_iff lower rows points model hf params θ data samples H curvType ct h kind hk n hn fullFn hl
  have hσ2 : 0 ≤ a.sigmaSquared.getD 1 := by
    by_contra hneg
    push Not at hneg
    nlinarith
  obtain ⟨lml, m1, m2, -⟩ := k2 a τ hτ hτ0 hσ hσ2 hmax
  exact ⟨f, _, k1, by rw [m1, m2.2 (Or.inl h2)]⟩

/-- **C61 (finding, calibration).** The score that evidence calibration gives to the prior precision `τ` (`C52_marginal_likelihood`,
`C54_evidence_workflow`) is strictly larger than minus the log evidence for which the parameters are optimal, unless the curvature
vanishes. -/
theorem C61_calibration_score {f : X → Vec p → Vec c} (hf : AffineModel f) (samples : List (X × Vec c)) (τ : ℝ) (hτ : 0 < τ) (θ : Vec p)
    (hmax : ∀ θ', logJoint f samples 1 τ θ' ≤ logJoint f samples 1 τ θ) (G : Mat p p) (hpsd : G.PosSemidef)
    (hG : ∀ v, G *ᵥ v = ggnSamples f θ (fun jv _ _ => mseHessianMv jv) samples v) (h0 : G ≠ 0) :
    -Real.log (∫ θ', Real.exp (logJoint f samples 1 τ θ')) < mllScore θ (.full G) (totalError f samples θ) τ := by
  have hexp := fun θ' => logJoint_expand hf samples 1 τ hτ θ hmax G hG θ'
  obtain ⟨-, c2, -⟩ := evidence_compare (a := 1 / (2 * 1)) (b := 1) hpsd hτ (by norm_num) zero_le_one (logJoint f samples 1 τ) θ hexp
  have := c2 (by norm_num) h0
  simp only [mllScore, targetPrecision, precision, inv_one, one_smul]
  simp only [logJoint, mul_one, one_smul] at this ⊢
  linarith

/-- All hypotheses are met by one-parameter regression on two batches: `θ = 1` minimises `(θ - 2)² + (2θ - 2)² + θ²` (prior precision 2)
and maximises the joint density with prior precision 1, and the curvature does not vanish. -/
example : ∃ (points : PyObj (List ℝ) → PyObj (List ℝ) → Except Err (List (ℝ × Vec 1))) (model : ℝ → Vec 1 → Vec 1) (params : PyTree ℝ)
    (θ : Vec 1) (data : PyObj (List ℝ)) (samples : List (ℝ × Vec 1)) (H : Vec 1 → Vec 1 → Vec 1 → Vec 1),
    AffineModel model ∧ LaplaceCall (fun s => s) points model params θ data samples "mse" H (.str "full") (.member "full") ∧
    (∀ θ', energy model samples 1 2 θ ≤ energy model samples 1 2 θ') ∧
    (∀ θ', logJoint model samples 1 1 θ' ≤ logJoint model samples 1 1 θ) ∧ ggnSamples model θ H samples 1 ≠ 0 := by
  let points : PyObj (List ℝ) → PyObj (List ℝ) → Except Err (List (ℝ × Vec 1)) := fun x y => match x, y with
    | .arr xs, .arr ys => .ok (List.zipWith (fun a b => (a, fun _ => b)) xs ys)
    | _, _ => .error .typeError
  let decode : PyObj (List ℝ) × PyObj (List ℝ) → List (ℝ × Vec 1) := fun xy => match xy.1, xy.2 with
    | .arr xs, .arr ys => List.zipWith (fun a b => (a, fun _ => b)) xs ys
    | _, _ => []
  let model : ℝ → Vec 1 → Vec 1 := fun x t _ => x * t 0
  have haff : AffineModel model := by
    refine ⟨fun x => Matrix.of fun _ _ => x, fun _ => 0, fun x θ => ?_⟩
    funext i
    simp [model, Matrix.mulVec, dotProduct]
  have hjac : ∀ x θ, DifferentiableAt ℝ (model x) θ ∧ jacobian (model x) θ = Matrix.of fun _ _ => x := fun x θ =>
    jacobian_affine (Matrix.of fun _ _ => x) 0 (model x) (fun θ => by funext i; simp [model, Matrix.mulVec, dotProduct]) θ
  have hE : ∀ w τ (θ : Vec 1), energy model [(1, fun _ => 2), (2, fun _ => 2)] w τ θ =
      w * ((θ 0 - 2) ^ 2 + (2 * θ 0 - 2) ^ 2) + τ / 2 * θ 0 ^ 2 := by
    intro w τ θ
    simp [energy, totalError, model]
  refine ⟨points, model, .leaf ⟨[1], [1]⟩, fun _ => 1, .iter (.reiterable [.tup [.arr [1], .arr [2]], .tup [.arr [2], .arr [2]]]),
    [(1, fun _ => 2), (2, fun _ => 2)], fun jv _ _ => mseHessianMv jv, haff, ?_, ?_, ?_, ?_⟩
  · refine ⟨by norm_num, ?_, by simp [entries, Tree.leaves], ?_, fun s _ => (hjac _ _).1, rfl, rfl⟩
    · intro a ha
      simp [Tree.leaves] at ha
      subst ha; rfl
    · refine ⟨[(.arr [1], .arr [2]), (.arr [2], .arr [2])], decode, DataOf.pairs [(.arr [1], .arr [2]), (.arr [2], .arr [2])] (by simp), ?_, rfl⟩
      intro xy hxy; simp at hxy; rcases hxy with rfl | rfl <;> rfl
  · intro θ'
    rw [hE, hE]
    nlinarith [sq_nonneg (θ' 0 - 1)]
  · intro θ'
    have h1 : ∀ θ : Vec 1, logJoint model [(1, fun _ => 2), (2, fun _ => 2)] 1 1 θ =
        -(((θ 0 - 2) ^ 2 + (2 * θ 0 - 2) ^ 2) / 2) + -0.5 * θ 0 ^ 2 + -0.5 * (Real.log (2 * Real.pi) - Real.log 1) := by
      intro θ
      rw [logJoint, logPrior_eq 1 one_pos]
      simp [totalError, model]
      ring
    rw [h1, h1]
    nlinarith [sq_nonneg (θ' 0 - 1)]
  · intro h0
    have := congrFun h0 0
    simp [ggnSamples, hjac, mseHessianMv, Matrix.mulVec, dotProduct, Matrix.transpose_apply] at this
    norm_num at this

end Laplax.Props
