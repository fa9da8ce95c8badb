import Verif.Model.Metrics
import Mathlib.Probability.Distributions.Gaussian.Real
import Mathlib.Probability.CDF
import Mathlib.MeasureTheory.Integral.IntegralEqImproper
import Mathlib.MeasureTheory.Measure.Lebesgue.Integral
import Mathlib.Analysis.SpecialFunctions.Gaussian.GaussianIntegral
import Mathlib.Analysis.Calculus.Deriv.Pow
import Mathlib.Analysis.Calculus.Deriv.Inv

/-! # The standard normal density and distribution function, and the Gaussian CRPS integral -/

namespace Laplax
open MeasureTheory ProbabilityTheory Filter Topology Set

theorem normPdf_eq (z : ℝ) : normPdf z = gaussianPDFReal 0 1 z := by
  simp [normPdf, gaussianPDFReal]

theorem normPdf_eq' : normPdf = gaussianPDFReal 0 1 := funext normPdf_eq

theorem normPdf_pos (z : ℝ) : 0 < normPdf z := by unfold normPdf; positivity

theorem normPdf_neg (z : ℝ) : normPdf (-z) = normPdf z := by simp [normPdf]

theorem normPdf_integrable : Integrable normPdf := by rw [normPdf_eq']; exact integrable_gaussianPDFReal 0 1

theorem normPdf_continuous : Continuous normPdf := by unfold normPdf; fun_prop

theorem normPdf_deriv (z : ℝ) : HasDerivAt normPdf (-z * normPdf z) z := by
  have h1 : HasDerivAt (fun z : ℝ => -(z ^ 2) / 2) (-z) z := by
    have := (((hasDerivAt_id z).pow 2).neg).div_const 2
    refine this.congr_deriv ?_
    simp only [id]; push_cast; ring
  have := (h1.exp).const_mul (Real.sqrt (2 * Real.pi))⁻¹
  refine this.congr_deriv ?_
  unfold normPdf; ring

theorem normPdf_tendsto_atBot : Tendsto normPdf atBot (𝓝 0) := by
  have h : Tendsto (fun z : ℝ => -(z ^ 2) / 2) atBot atBot := by
    have h1 : Tendsto (fun z : ℝ => z ^ 2) atBot atTop := by
      have : (fun z : ℝ => z ^ 2) = fun z => z * z := by funext z; ring
      rw [this]; exact tendsto_id.atBot_mul_atBot₀ tendsto_id
    exact (tendsto_neg_atTop_atBot.comp h1).atBot_div_const (by norm_num)
  have := (Real.tendsto_exp_atBot.comp h).const_mul (Real.sqrt (2 * Real.pi))⁻¹
  rw [mul_zero] at this
  exact this

theorem normCdf_eq_cdf (z : ℝ) : normCdf z = cdf (gaussianReal 0 1) z := by
  rw [cdf_eq_real, Measure.real, gaussianReal_apply_eq_integral 0 one_ne_zero, ENNReal.toReal_ofReal, ← normPdf_eq', normCdf]
  exact setIntegral_nonneg measurableSet_Iic fun x _ => gaussianPDFReal_nonneg 0 1 x

theorem normCdf_nonneg (z : ℝ) : 0 ≤ normCdf z := by rw [normCdf_eq_cdf]; exact cdf_nonneg _ _

theorem normCdf_le_one (z : ℝ) : normCdf z ≤ 1 := by rw [normCdf_eq_cdf]; exact cdf_le_one _ _

theorem normCdf_tendsto_atBot : Tendsto normCdf atBot (𝓝 0) := by
  have : normCdf = fun z => cdf (gaussianReal 0 1) z := funext normCdf_eq_cdf
  rw [this]; exact tendsto_cdf_atBot _

theorem normCdf_deriv (z : ℝ) : HasDerivAt normCdf (normPdf z) z := by
  have h : ∀ x, normCdf x = normCdf 0 + ∫ t in (0 : ℝ)..x, normPdf t := by
    intro x
    rw [← intervalIntegral.integral_Iic_sub_Iic normPdf_integrable.integrableOn normPdf_integrable.integrableOn]
    unfold normCdf; ring
  have h2 : normCdf = fun x => normCdf 0 + ∫ t in (0 : ℝ)..x, normPdf t := funext h
  rw [h2]
  exact (normPdf_continuous.integral_hasStrictDerivAt 0 z).hasDerivAt.const_add _

theorem normCdf_continuous : Continuous normCdf :=
  continuous_iff_continuousAt.2 fun z => (normCdf_deriv z).continuousAt

theorem normCdf_neg (z : ℝ) : normCdf (-z) = 1 - normCdf z := by
  have h1 : ∫ t in Iic (-z), normPdf t = ∫ t in Ioi z, normPdf t := by
    rw [← integral_comp_neg_Ioi]
    simp only [normPdf_neg]
  have h2 : (∫ t in Iic z, normPdf t) + ∫ t in Ioi z, normPdf t = 1 := by
    have := integral_add_compl (measurableSet_Iic (a := z)) normPdf_integrable
    rw [compl_Iic] at this
    rw [this, normPdf_eq', integral_gaussianPDFReal_eq_one 0 one_ne_zero]
  unfold normCdf
  rw [h1]
  linarith

/-- Mills' bound, lower tail. -/
theorem normCdf_mills (z : ℝ) : -z * normCdf z ≤ normPdf z := by
  have hint : Integrable (fun t : ℝ => -t * normPdf t) := by
    have := (integrable_mul_exp_neg_mul_sq (b := 1 / 2) (by norm_num)).const_mul (-(Real.sqrt (2 * Real.pi))⁻¹)
    refine this.congr (Eventually.of_forall fun t => ?_)
    simp only [normPdf]
    rw [show -(1 / 2 : ℝ) * t ^ 2 = -(t ^ 2) / 2 by ring]
    ring
  have h1 : ∫ t in Iic z, -t * normPdf t = normPdf z - 0 :=
    integral_Iic_of_hasDerivAt_of_tendsto' (fun x _ => normPdf_deriv x) hint.integrableOn normPdf_tendsto_atBot
  have h2 : -z * normCdf z = ∫ t in Iic z, -z * normPdf t := by
    rw [normCdf, integral_const_mul]
  rw [h2, ← sub_zero (normPdf z), ← h1]
  refine setIntegral_mono_on (normPdf_integrable.const_mul _).integrableOn hint.integrableOn measurableSet_Iic fun t ht => ?_
  have : t ≤ z := ht
  have := normPdf_pos t
  nlinarith

/-- Antiderivative of the squared distribution function. -/
noncomputable def crpsF (z : ℝ) : ℝ :=
  z * normCdf z ^ 2 + 2 * normPdf z * normCdf z - normCdf (Real.sqrt 2 * z) / Real.sqrt Real.pi

theorem crpsF_deriv (z : ℝ) : HasDerivAt crpsF (normCdf z ^ 2) z := by
  have h1 := (hasDerivAt_id z).mul ((normCdf_deriv z).pow 2)
  have h2 := ((normPdf_deriv z).const_mul 2).mul (normCdf_deriv z)
  have hin : HasDerivAt (fun x : ℝ => Real.sqrt 2 * x) (Real.sqrt 2) z := by
    simpa using (hasDerivAt_id z).const_mul (Real.sqrt 2)
  have h3 := ((normCdf_deriv (Real.sqrt 2 * z)).comp z hin).div_const (Real.sqrt Real.pi)
  have := (h1.add h2).sub h3
  refine this.congr_deriv ?_
  have e1 : normPdf (Real.sqrt 2 * z) * Real.sqrt 2 / Real.sqrt Real.pi = 2 * normPdf z ^ 2 := by
    have hp : Real.sqrt Real.pi ≠ 0 := by positivity
    have h2 : Real.sqrt 2 ≠ 0 := by positivity
    have hpp : Real.sqrt Real.pi ^ 2 = Real.pi := Real.sq_sqrt Real.pi_pos.le
    have h22 : Real.sqrt 2 ^ 2 = 2 := Real.sq_sqrt (by norm_num)
    have hexp : Real.exp (-(z ^ 2) / 2) ^ 2 = Real.exp (-(z ^ 2)) := by
      rw [← Real.exp_nat_mul]; congr 1; push_cast; ring
    simp only [normPdf, mul_pow, h22, inv_pow, hexp, Real.sqrt_mul (by norm_num : (0 : ℝ) ≤ 2)]
    rw [show -(2 * z ^ 2) / 2 = -(z ^ 2) by ring]
    field_simp
  rw [e1]
  simp only [Pi.pow_apply, id]
  push_cast
  ring

theorem crpsF_tendsto_atBot : Tendsto crpsF atBot (𝓝 0) := by
  have hp := normPdf_tendsto_atBot
  have hc := normCdf_tendsto_atBot
  have h1 : Tendsto (fun z => z * normCdf z ^ 2) atBot (𝓝 0) := by
    have hle : ∀ᶠ z in atBot, |z * normCdf z ^ 2| ≤ normPdf z := by
      filter_upwards [Iic_mem_atBot (0 : ℝ)] with z hz
      have hz' : z ≤ 0 := hz
      have hm := normCdf_mills z
      have h0 := normCdf_nonneg z
      have h1 := normCdf_le_one z
      rw [abs_of_nonpos (by nlinarith [sq_nonneg (normCdf z)])]
      have hp0 := (normPdf_pos z).le
      calc -(z * normCdf z ^ 2) = (-z * normCdf z) * normCdf z := by ring
        _ ≤ normPdf z * normCdf z := mul_le_mul_of_nonneg_right hm h0
        _ ≤ normPdf z := mul_le_of_le_one_right hp0 h1
    exact squeeze_zero_norm' (by simpa using hle) hp
  have h2 : Tendsto (fun z => 2 * normPdf z * normCdf z) atBot (𝓝 0) := by
    simpa using (hp.const_mul 2).mul hc
  have h3 : Tendsto (fun z => normCdf (Real.sqrt 2 * z) / Real.sqrt Real.pi) atBot (𝓝 0) := by
    have : Tendsto (fun z : ℝ => Real.sqrt 2 * z) atBot atBot := tendsto_id.const_mul_atBot (by positivity)
    simpa using (hc.comp this).div_const (Real.sqrt Real.pi)
  have := (h1.add h2).sub h3
  rw [add_zero, sub_zero] at this
  exact this

theorem crps_upper (z : ℝ) : IntegrableOn (fun u => normCdf (-u) ^ 2) (Ioi z) ∧ ∫ u in Ioi z, normCdf (-u) ^ 2 = crpsF (-z) := by
  have hd : ∀ x ∈ Ici z, HasDerivAt (fun u => -crpsF (-u)) (normCdf (-x) ^ 2) x := by
    intro x _
    have := ((crpsF_deriv (-x)).comp x (hasDerivAt_neg x)).neg
    refine this.congr_deriv ?_
    ring
  have ht : Tendsto (fun u => -crpsF (-u)) atTop (𝓝 0) := by
    have := (crpsF_tendsto_atBot.comp tendsto_neg_atTop_atBot).neg
    simpa using this
  refine ⟨integrableOn_Ioi_deriv_of_nonneg' hd (fun x _ => sq_nonneg _) ht, ?_⟩
  rw [integral_Ioi_of_hasDerivAt_of_nonneg' hd (fun x _ => sq_nonneg _) ht]
  ring

theorem crps_lower (z : ℝ) : ∫ u in Iic z, normCdf u ^ 2 = crpsF z := by
  have := integral_comp_neg_Ioi (-z) (fun u => normCdf u ^ 2)
  rw [neg_neg] at this
  rw [← this, (crps_upper (-z)).2, neg_neg]

theorem crps_lower_int (z : ℝ) : IntegrableOn (fun u => normCdf u ^ 2) (Iic z) := by
  have h := (crps_upper (-z)).1
  rw [← integrableOn_Ici_iff_integrableOn_Ioi] at h
  have h2 := h.comp_neg
  simpa using h2

/-- The standardised CRPS integral. -/
theorem crps_standard (z : ℝ) :
    ∫ u, (normCdf u - (if z ≤ u then 1 else 0)) ^ 2 =
      z * (2 * normCdf z - 1) + 2 * normPdf z - 1 / Real.sqrt Real.pi := by
  set f : ℝ → ℝ := fun u => (normCdf u - (if z ≤ u then 1 else 0)) ^ 2 with hf
  have hIic : EqOn f (fun u => normCdf u ^ 2) (Iio z) := by
    intro u hu
    have hu' : u < z := hu
    simp [hf, not_le.2 hu']
  have hIoi : EqOn f (fun u => normCdf (-u) ^ 2) (Ioi z) := by
    intro u hu
    have hu' : z ≤ u := le_of_lt hu
    simp only [hf, if_pos hu', normCdf_neg]
    ring
  have i1 : IntegrableOn f (Iic z) := by
    rw [integrableOn_Iic_iff_integrableOn_Iio]
    refine IntegrableOn.congr_fun ?_ hIic.symm measurableSet_Iio
    exact (crps_lower_int z).mono_set Iio_subset_Iic_self
  have i2 : IntegrableOn f (Ioi z) := (crps_upper z).1.congr_fun hIoi.symm measurableSet_Ioi
  have hint : Integrable f := by
    rw [← integrableOn_univ, ← Iic_union_Ioi (a := z)]
    exact i1.union i2
  rw [← integral_add_compl (measurableSet_Iic (a := z)) hint, compl_Iic, integral_Iic_eq_integral_Iio,
    setIntegral_congr_fun measurableSet_Iio hIic, ← integral_Iic_eq_integral_Iio,
    setIntegral_congr_fun measurableSet_Ioi hIoi, crps_lower, (crps_upper z).2]
  simp only [crpsF, normCdf_neg, normPdf_neg, mul_neg]
  ring

/-- The standardised CRPS integrand is integrable. -/
theorem crps_standard_integrable (z : ℝ) : Integrable fun u => (normCdf u - (if z ≤ u then (1 : ℝ) else 0)) ^ 2 := by
  set f : ℝ → ℝ := fun u => (normCdf u - (if z ≤ u then 1 else 0)) ^ 2 with hf
  have hIic : EqOn f (fun u => normCdf u ^ 2) (Iio z) := by
    intro u hu
    have hu' : u < z := hu
    simp [hf, not_le.2 hu']
  have hIoi : EqOn f (fun u => normCdf (-u) ^ 2) (Ioi z) := by
    intro u hu
    have hu' : z ≤ u := le_of_lt hu
    simp only [hf, if_pos hu', normCdf_neg]
    ring
  have i1 : IntegrableOn f (Iic z) := by
    rw [integrableOn_Iic_iff_integrableOn_Iio]
    refine IntegrableOn.congr_fun ?_ hIic.symm measurableSet_Iio
    exact (crps_lower_int z).mono_set Iio_subset_Iic_self
  have i2 : IntegrableOn f (Ioi z) := (crps_upper z).1.congr_fun hIoi.symm measurableSet_Ioi
  rw [← integrableOn_univ, ← Iic_union_Ioi (a := z)]
  exact i1.union i2

/-- The distribution function of a normal distribution, by standardising. -/
theorem gaussian_cdf (μ σ : ℝ) (hσ : 0 < σ) (x : ℝ) :
    cdf (gaussianReal μ (Real.toNNReal (σ ^ 2))) x = normCdf ((x - μ) / σ) := by
  rw [normCdf_eq_cdf, cdf_eq_real, cdf_eq_real, Measure.real, Measure.real]
  congr 1
  have hmap : gaussianReal μ (Real.toNNReal (σ ^ 2)) = (gaussianReal 0 1).map (fun t => σ * t + μ) := by
    have h1 : (gaussianReal 0 1).map (σ * ·) = gaussianReal (σ * 0) (Real.toNNReal (σ ^ 2) * 1) := by
      rw [gaussianReal_map_const_mul σ, Real.toNNReal_of_nonneg (sq_nonneg σ)]
    have h2 : (gaussianReal 0 (Real.toNNReal (σ ^ 2))).map (· + μ) = gaussianReal (0 + μ) _ := gaussianReal_map_add_const μ
    rw [zero_add] at h2
    rw [mul_zero, mul_one] at h1
    rw [← h2, ← h1, Measure.map_map (by fun_prop) (by fun_prop)]
    rfl
  rw [hmap, Measure.map_apply (by fun_prop) measurableSet_Iic]
  congr 1
  ext t
  simp only [mem_preimage, mem_Iic]
  rw [le_div_iff₀ hσ]
  constructor <;> intro h <;> linarith

/-- The CRPS integrand as a shifted and scaled standard one. -/
theorem crps_integrand (μ σ y : ℝ) (hσ : 0 < σ) :
    (fun x => (cdf (gaussianReal μ (Real.toNNReal (σ ^ 2))) x - (if y ≤ x then (1 : ℝ) else 0)) ^ 2)
      = fun x => (fun u => (normCdf (u / σ) - (if (y - μ) / σ ≤ u / σ then (1 : ℝ) else 0)) ^ 2) (x - μ) := by
  funext x
  simp only [gaussian_cdf μ σ hσ]
  have : ((y - μ) / σ ≤ (x - μ) / σ) ↔ y ≤ x := by
    rw [div_le_div_iff_of_pos_right hσ]; constructor <;> intro h <;> linarith
  simp only [this]

/-- The CRPS integrand of `N(μ, σ²)` at `y` is integrable. -/
theorem crps_gaussian_integrable (μ σ y : ℝ) (hσ : 0 < σ) :
    Integrable fun x => (cdf (gaussianReal μ (Real.toNNReal (σ ^ 2))) x - (if y ≤ x then (1 : ℝ) else 0)) ^ 2 := by
  rw [crps_integrand μ σ y hσ]
  exact ((crps_standard_integrable ((y - μ) / σ)).comp_div hσ.ne').comp_sub_right μ

/-- The CRPS of `N(μ, σ²)` at `y`, by its definition as an integral, in closed form. -/
theorem crps_gaussian_integral (μ σ y : ℝ) (hσ : 0 < σ) :
    ∫ x, (cdf (gaussianReal μ (Real.toNNReal (σ ^ 2))) x - (if y ≤ x then 1 else 0)) ^ 2 = crpsTerm μ σ y := by
  rw [crps_integrand μ σ y hσ, integral_sub_right_eq_self (μ := volume)
    (fun u => (normCdf (u / σ) - (if (y - μ) / σ ≤ u / σ then (1 : ℝ) else 0)) ^ 2) μ]
  have := Measure.integral_comp_div (fun u => (normCdf u - (if (y - μ) / σ ≤ u then (1 : ℝ) else 0)) ^ 2) σ
  rw [this, crps_standard, abs_of_pos hσ, smul_eq_mul]
  simp only [crpsTerm]
  ring

end Laplax
