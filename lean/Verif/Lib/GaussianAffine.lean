import Mathlib.Probability.Distributions.Gaussian.Multivariate

/-! # Affine images of standard normal vectors -/

namespace Laplax.Props
open MeasureTheory ProbabilityTheory WithLp Complex
open scoped Matrix RealInnerProductSpace

variable {p q : ℕ}

theorem posSemidef_mul_transpose (A : Matrix (Fin q) (Fin p) ℝ) : (A * Aᵀ).PosSemidef := by
  have := Matrix.posSemidef_self_mul_conjTranspose A
  rwa [Matrix.conjTranspose_eq_transpose_of_trivial] at this

theorem measurable_affine (b : Fin q → ℝ) (A : Matrix (Fin q) (Fin p) ℝ) : Measurable (fun e : Fin p → ℝ => toLp 2 (b + A *ᵥ e)) := by
  have h : Measurable (fun e : Fin p → ℝ => b + A *ᵥ e) := by
    refine measurable_pi_iff.2 fun i => ?_
    simp only [Pi.add_apply, Matrix.mulVec, dotProduct]
    fun_prop
  exact (by fun_prop : Measurable (toLp 2 : (Fin q → ℝ) → EuclideanSpace ℝ (Fin q))).comp h

/-- `b + A e` with independent standard normal entries of `e` is Gaussian with mean `b` and covariance `A Aᵀ`. -/
theorem map_affine_stdNormal (b : Fin q → ℝ) (A : Matrix (Fin q) (Fin p) ℝ) :
    (Measure.pi (fun _ : Fin p => gaussianReal 0 1)).map (fun e => toLp 2 (b + A *ᵥ e)) =
      multivariateGaussian (toLp 2 b) (A * Aᵀ) := by
  have hm := measurable_affine b A
  haveI : IsProbabilityMeasure ((Measure.pi (fun _ : Fin p => gaussianReal 0 1)).map (fun e => toLp 2 (b + A *ᵥ e))) :=
    Measure.isProbabilityMeasure_map hm.aemeasurable
  apply Measure.ext_of_charFun
  ext t
  rw [charFun_multivariateGaussian (posSemidef_mul_transpose A), charFun_apply, integral_map hm.aemeasurable (by fun_prop)]
  have hinner : ∀ e : Fin p → ℝ, (⟪toLp 2 (b + A *ᵥ e), t⟫ : ℝ) = ⟪t, toLp 2 b⟫ + ⟪toLp 2 e, toLp 2 (Aᵀ *ᵥ ofLp t)⟫ := by
    intro e
    rw [toLp_add, inner_add_left, real_inner_comm]
    congr 1
    simp only [EuclideanSpace.inner_eq_star_dotProduct, star_trivial]
    rw [Matrix.dotProduct_mulVec, Matrix.mulVec_transpose]
  simp only [hinner, ofReal_add, add_mul, Complex.exp_add]
  rw [integral_const_mul]
  have hc : ∫ e : Fin p → ℝ, cexp ((⟪toLp 2 e, toLp 2 (Aᵀ *ᵥ ofLp t)⟫ : ℝ) * I) ∂(Measure.pi fun _ => gaussianReal 0 1) =
      charFun (stdGaussian (EuclideanSpace ℝ (Fin p))) (toLp 2 (Aᵀ *ᵥ ofLp t)) := by
    rw [← map_pi_eq_stdGaussian, charFun_apply, integral_map (by fun_prop) (by fun_prop)]
  rw [hc, charFun_stdGaussian, ← Complex.exp_add]
  congr 1
  rw [sub_eq_add_neg]
  congr 1
  rw [← ofReal_pow, EuclideanSpace.real_norm_sq_eq]
  have : (∑ i, (Aᵀ *ᵥ ofLp t) i ^ 2) = ofLp t ⬝ᵥ (A * Aᵀ) *ᵥ ofLp t := by
    rw [← Matrix.mulVec_mulVec, Matrix.dotProduct_mulVec, ← Matrix.mulVec_transpose, dotProduct]
    exact Finset.sum_congr rfl fun i _ => by ring
  rw [this, neg_div]

end Laplax.Props
