import Verif.Lib.GaussianAffine
import Mathlib.MeasureTheory.Integral.Pi
import Mathlib.MeasureTheory.Measure.Lebesgue.Basic
import Mathlib.LinearAlgebra.Matrix.PosDef

/-! # The density of a multivariate Gaussian -/

namespace Laplax
open MeasureTheory ProbabilityTheory Matrix WithLp
open scoped BigOperators ENNReal

variable {p : ℕ}

/-- The standard normal density on `ℝ^p`. -/
theorem pi_gaussian_density : (Measure.pi fun _ : Fin p => gaussianReal 0 1) =
    volume.withDensity fun y : Fin p → ℝ => ENNReal.ofReal (∏ i, gaussianPDFReal 0 1 (y i)) := by
  refine Measure.pi_eq fun s hs => ?_
  have hint : Integrable (fun y : Fin p → ℝ => ∏ i, gaussianPDFReal 0 1 (y i)) volume :=
    Integrable.fintype_prod (fun _ => integrable_gaussianPDFReal 0 1)
  rw [withDensity_apply _ (MeasurableSet.univ_pi hs), ← ofReal_integral_eq_lintegral_ofReal hint.restrict
    (Filter.Eventually.of_forall fun y => Finset.prod_nonneg fun i _ => gaussianPDFReal_nonneg 0 1 _)]
  rw [show (volume : Measure (Fin p → ℝ)) = Measure.pi fun _ => volume from rfl, Measure.restrict_pi_pi,
    integral_fintype_prod_eq_prod (f := fun _ x => gaussianPDFReal 0 1 x),
    ENNReal.ofReal_prod_of_nonneg fun i _ => integral_nonneg fun x => gaussianPDFReal_nonneg 0 1 x]
  exact Finset.prod_congr rfl fun i _ => (gaussianReal_apply_eq_integral 0 one_ne_zero (s i)).symm

/-- The law of `μ + R y` with standard normal `y` has the density `√det(P/2π) exp(-½ (z-μ)ᵀ P (z-μ))` for `R Rᵀ = P⁻¹`. -/
theorem map_affine_density (μ : Fin p → ℝ) (P R : Matrix (Fin p) (Fin p) ℝ) (hP : P.PosDef) (hR : R * Rᵀ = P⁻¹) :
    (Measure.pi fun _ : Fin p => gaussianReal 0 1).map (fun y => μ + R *ᵥ y) =
      volume.withDensity fun z => ENNReal.ofReal (Real.sqrt ((2 * Real.pi)⁻¹ • P).det * Real.exp (-(1 / 2) * ((z - μ) ⬝ᵥ P *ᵥ (z - μ)))) := by
  have hPdet : 0 < P.det := hP.det_pos
  have hu : IsUnit P.det := hPdet.ne'.isUnit
  have hdetR : R.det ^ 2 = P.det⁻¹ := by
    have := congrArg Matrix.det hR
    rw [Matrix.det_mul, Matrix.det_transpose, Matrix.det_nonsing_inv, Ring.inverse_eq_inv'] at this
    rw [← this]; ring
  have hR0 : R.det ≠ 0 := by
    intro h
    rw [h] at hdetR
    have : 0 < P.det⁻¹ := inv_pos.mpr hPdet
    norm_num at hdetR
    linarith
  have hRu : IsUnit R.det := hR0.isUnit
  have hquad : ∀ y : Fin p → ℝ, (R *ᵥ y) ⬝ᵥ P *ᵥ (R *ᵥ y) = y ⬝ᵥ y := by
    intro y
    have h1 : Rᵀ * P * R = 1 := by
      have h2 : P = (Rᵀ)⁻¹ * R⁻¹ := by
        rw [← Matrix.mul_inv_rev, hR, Matrix.nonsing_inv_nonsing_inv _ hu]
      rw [h2, ← Matrix.mul_assoc, Matrix.mul_nonsing_inv _ (by rwa [Matrix.det_transpose]), Matrix.one_mul, Matrix.nonsing_inv_mul _ hRu]
    rw [Matrix.mulVec_mulVec, ← Matrix.vecMul_transpose, ← Matrix.dotProduct_mulVec, Matrix.mulVec_mulVec, ← Matrix.mul_assoc, h1, Matrix.one_mulVec]
  obtain ⟨d, hd⟩ : ∃ d : (Fin p → ℝ) → ℝ≥0∞, d = fun z => ENNReal.ofReal (Real.sqrt ((2 * Real.pi)⁻¹ • P).det *
      Real.exp (-(1 / 2) * ((z - μ) ⬝ᵥ P *ᵥ (z - μ)))) := ⟨_, rfl⟩
  have hdm : Measurable d := by
    rw [hd]
    simp only [dotProduct, Matrix.mulVec, Pi.sub_apply]
    fun_prop
  have hlin : Measurable (fun y : Fin p → ℝ => R *ᵥ y) := by
    refine measurable_pi_iff.2 fun i => ?_
    simp only [Matrix.mulVec, dotProduct]
    fun_prop
  have haff : Measurable (fun y : Fin p → ℝ => μ + R *ᵥ y) := hlin.const_add μ
  -- the density of `y` in terms of the density of `z`
  have hdens : ∀ y : Fin p → ℝ, ENNReal.ofReal (∏ i, gaussianPDFReal 0 1 (y i)) = ENNReal.ofReal |R.det| * d (μ + R *ᵥ y) := by
    intro y
    rw [hd, ← ENNReal.ofReal_mul (abs_nonneg _)]
    congr 1
    simp only [add_sub_cancel_left, hquad]
    have h1 : ∏ i, gaussianPDFReal 0 1 (y i) = (Real.sqrt (2 * Real.pi))⁻¹ ^ p * Real.exp (-(1 / 2) * (y ⬝ᵥ y)) := by
      simp only [gaussianPDFReal_def, sub_zero, NNReal.coe_one, mul_one]
      rw [Finset.prod_mul_distrib, Finset.prod_const, Finset.card_univ, Fintype.card_fin, ← Real.exp_sum, dotProduct, Finset.mul_sum]
      congr 2
      exact Finset.sum_congr rfl fun i _ => by ring
    have h2 : |R.det| * Real.sqrt ((2 * Real.pi)⁻¹ • P).det = (Real.sqrt (2 * Real.pi))⁻¹ ^ p := by
      have h3 : |R.det| = Real.sqrt (P.det⁻¹) := by rw [← hdetR, Real.sqrt_sq_eq_abs]
      rw [h3, ← Real.sqrt_mul (inv_pos.mpr hPdet).le, Matrix.det_smul, Fintype.card_fin, mul_comm ((2 * Real.pi)⁻¹ ^ p), ← mul_assoc,
        inv_mul_cancel₀ hPdet.ne', one_mul, ← Real.sqrt_inv]
      rw [Real.sqrt_eq_iff_eq_sq (by positivity) (by positivity), ← pow_mul, mul_comm p 2, pow_mul, Real.sq_sqrt (by positivity)]
    rw [h1, ← h2]
    ring
  rw [← hd]
  refine Measure.ext fun B hB => ?_
  rw [Measure.map_apply haff hB, pi_gaussian_density, withDensity_apply _ (haff hB), withDensity_apply _ hB,
    ← lintegral_indicator (haff hB), ← lintegral_indicator hB]
  have h1 : ∀ y, ((fun y => μ + R *ᵥ y) ⁻¹' B).indicator (fun y : Fin p → ℝ => ENNReal.ofReal (∏ i, gaussianPDFReal 0 1 (y i))) y =
      ENNReal.ofReal |R.det| * B.indicator d (μ + R *ᵥ y) := by
    intro y
    by_cases hy : μ + R *ᵥ y ∈ B
    · rw [Set.indicator_of_mem (by exact hy), Set.indicator_of_mem hy, hdens]
    · rw [Set.indicator_of_notMem (by exact hy), Set.indicator_of_notMem hy, mul_zero]
  simp only [h1]
  have hBm : Measurable (B.indicator d) := hdm.indicator hB
  rw [lintegral_const_mul (f := fun y => B.indicator d (μ + R *ᵥ y)) _ (by exact hBm.comp haff)]
  have h2 : ∫⁻ y : Fin p → ℝ, B.indicator d (μ + R *ᵥ y) = ∫⁻ z, B.indicator d (μ + z) ∂(Measure.map (Matrix.toLin' R) volume) := by
    rw [lintegral_map (f := fun z => B.indicator d (μ + z)) (by exact hBm.comp (measurable_const_add μ)) (by exact hlin)]
    rfl
  rw [h2, Real.map_matrix_volume_pi_eq_smul_volume_pi hR0, lintegral_smul_measure, lintegral_add_left_eq_self (μ := volume) (B.indicator d) μ,
    smul_eq_mul, ← mul_assoc, ← ENNReal.ofReal_mul (abs_nonneg _), abs_inv, mul_inv_cancel₀ (abs_ne_zero.mpr hR0), ENNReal.ofReal_one, one_mul]

end Laplax
