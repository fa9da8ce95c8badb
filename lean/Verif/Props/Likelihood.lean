import Verif.Model.Likelihood
import Verif.Spec.Likelihood
import Verif.Spec.Tree
import Verif.Props.Posterior
import Verif.Props.Tree
import Mathlib.Analysis.SpecialFunctions.Gaussian.GaussianIntegral
import Mathlib.MeasureTheory.Integral.Pi
import Mathlib.MeasureTheory.Measure.Lebesgue.Basic
import Mathlib.LinearAlgebra.Matrix.SchurComplement

/-! # C34: the marginal log-likelihood is the Laplace evidence -/

namespace Laplax.Props
open Laplax Laplax.Spec
open scoped BigOperators Matrix

variable {p r : ℕ}

theorem logPrior_eq (τ : ℝ) (hτ : 0 < τ) (θ : List ℝ) :
    logPrior τ θ = -0.5 * τ * (θ.map (· ^ 2)).sum + -0.5 * (θ.length : ℝ) * (Real.log (2 * Real.pi) - Real.log τ) := by
  induction θ with
  | nil => simp [logPrior]
  | cons x xs ih =>
    have hx : Real.log (ProbabilityTheory.gaussianPDFReal 0 (Real.toNNReal τ⁻¹) x)
        = -0.5 * τ * x ^ 2 + -0.5 * (Real.log (2 * Real.pi) - Real.log τ) := by
      unfold ProbabilityTheory.gaussianPDFReal
      have hv : ((Real.toNNReal τ⁻¹ : NNReal) : ℝ) = τ⁻¹ := Real.coe_toNNReal _ (by positivity)
      rw [hv]
      have hpos : 0 < 2 * Real.pi * τ⁻¹ := by positivity
      rw [Real.log_mul (by positivity) (Real.exp_ne_zero _), Real.log_exp, Real.log_inv, Real.log_sqrt hpos.le,
        Real.log_mul (by positivity) (by positivity), Real.log_inv]
      field_simp
      ring
    have : logPrior τ (x :: xs) = Real.log (ProbabilityTheory.gaussianPDFReal 0 (Real.toNNReal τ⁻¹) x) + logPrior τ xs := by
      simp [logPrior]
    rw [this, hx, ih]
    simp only [List.map_cons, List.sum_cons, List.length_cons]
    push_cast
    ring

/-- C34: `joint_log_likelihood` is `-loss/(2·sigma)` plus the log density of the Gaussian prior `N(0, prior_prec⁻¹ I)` at the
parameters. -/
theorem C34_joint (fullFn : PyTree ℝ → Except Err ℝ) (a : MllArgs) (params : PyTree ℝ) (hw : WFTree params) (hne : params.leaves ≠ [])
    (τ : ℝ) (hτ : a.priorPrec = some τ) (hτ0 : 0 < τ) (loss : ℝ) (hl : fullFn params = .ok loss) :
    jointLogLikelihood fullFn a params = .ok (-(loss / (2 * a.sigma.getD 1)) + logPrior τ (entries params)) := by
  have hlen : (entries params).length = getSize params := ((C02_full_flatten params).2 hne).2 hw
  simp only [jointLogLikelihood, fullFlatten_eq hne, ok_bind, PriorArgs.getPriorPrec, hτ, hl]
  rw [logPrior_eq τ hτ0, hlen]
  congr 1
  ring

/-- C34: the noise level is read from the key `sigma`, not from `sigma_squared`, which the curvature-to-precision functions use:
changing `sigma_squared` leaves the joint log-likelihood unchanged. -/
theorem C34_joint_ignores_sigma_squared (fullFn : PyTree ℝ → Except Err ℝ) (pp sg : Option ℝ) (s2 s2' : Option ℝ) (params : PyTree ℝ) :
    jointLogLikelihood fullFn ⟨⟨pp, s2⟩, sg⟩ params = jointLogLikelihood fullFn ⟨⟨pp, s2'⟩, sg⟩ params := rfl

/-- **C34 (default loss scaling).** The evidence requested without a loss scaling factor is the one of factor 1. -/
theorem C34_default_loss_scaling (e : CurvEstimate p) (a : MllArgs) (fullFn : Except Err (PyTree ℝ → Except Err ℝ)) (params : PyTree ℝ) :
    marginalLogLikelihood e a fullFn params = marginalLogLikelihood e a fullFn params 1 := rfl

theorem lmlOf_eq (joint : ℝ) (H : Matrix (Fin p) (Fin p) ℝ) (hH : 0 < H.det) :
    lmlOf joint (Real.log H.det) p = logEvidence joint H := by
  unfold lmlOf logEvidence
  have h2 : (0 : ℝ) < 2 * Real.pi := by positivity
  rw [Matrix.det_smul, Fintype.card_fin, Real.log_mul (by positivity) hH.ne', Real.log_pow, Real.log_inv]
  ring

/-- The Laplace evidence formula is the log of the Laplace-approximated evidence integral. -/
theorem laplaceIntegral_eq (joint : ℝ) (H : Matrix (Fin p) (Fin p) ℝ) (hH : H.PosDef) (θstar : Fin p → ℝ) :
    Real.log (laplaceIntegral joint H θstar) = logEvidence joint H := by
  obtain ⟨_, hdiag, hLL⟩ := choleskyLower_spec H hH
  set L := choleskyLower H with hL
  have hH' : H = L * Lᵀ := by
    ext i j; rw [Matrix.mul_apply, ← hLL i j]; rfl
  have hdetH : 0 < H.det := hH.det_pos
  have hdet2 : H.det = Lᵀ.det ^ 2 := by rw [hH', Matrix.det_mul, Matrix.det_transpose]; ring
  have hdetL : Lᵀ.det ≠ 0 := by
    intro h; rw [hdet2, h] at hdetH; norm_num at hdetH
  have h2pi : (0 : ℝ) < 2 * Real.pi := by positivity
  -- the standard Gaussian integral
  have hstd : ∫ y : Fin p → ℝ, Real.exp (-(1 / 2) * (y ⬝ᵥ y)) = (Real.sqrt (2 * Real.pi)) ^ p := by
    have h1 : (fun y : Fin p → ℝ => Real.exp (-(1 / 2) * (y ⬝ᵥ y))) = fun y => ∏ i, Real.exp (-(1 / 2) * y i ^ 2) := by
      funext y
      rw [← Real.exp_sum, dotProduct, Finset.mul_sum]
      congr 1
      exact Finset.sum_congr rfl fun i _ => by ring
    have h2 := MeasureTheory.integral_fintype_prod_volume_eq_pow (𝕜 := ℝ) (ι := Fin p) (fun x : ℝ => Real.exp (-(1 / 2) * x ^ 2))
    rw [h1]
    refine Eq.trans h2 ?_
    rw [integral_gaussian, Fintype.card_fin]
    congr 2
    ring
  -- change of variables
  have hcv : ∫ x : Fin p → ℝ, Real.exp (-(1 / 2) * (Lᵀ *ᵥ x ⬝ᵥ Lᵀ *ᵥ x)) = |Lᵀ.det|⁻¹ * (Real.sqrt (2 * Real.pi)) ^ p := by
    have hmap := Real.map_matrix_volume_pi_eq_smul_volume_pi hdetL
    have hmeas : Measurable (Matrix.toLin' Lᵀ) := (LinearMap.continuous_of_finiteDimensional _).measurable
    have h3 : ∫ y, Real.exp (-(1 / 2) * (y ⬝ᵥ y)) ∂(MeasureTheory.Measure.map (Matrix.toLin' Lᵀ) MeasureTheory.volume)
        = ∫ x : Fin p → ℝ, Real.exp (-(1 / 2) * (Lᵀ *ᵥ x ⬝ᵥ Lᵀ *ᵥ x)) := by
      rw [MeasureTheory.integral_map hmeas.aemeasurable]
      · rfl
      · apply Continuous.aestronglyMeasurable
        simp only [dotProduct]
        fun_prop
    rw [← h3, hmap, MeasureTheory.integral_smul_measure, hstd, ENNReal.toReal_ofReal (abs_nonneg _), smul_eq_mul, abs_inv]
  have hint : laplaceIntegral joint H θstar = Real.exp joint * (|Lᵀ.det|⁻¹ * (Real.sqrt (2 * Real.pi)) ^ p) := by
    unfold laplaceIntegral
    rw [← hcv, ← MeasureTheory.integral_const_mul]
    rw [MeasureTheory.integral_sub_right_eq_self (μ := MeasureTheory.volume)
      (fun x : Fin p → ℝ => Real.exp (joint - 1 / 2 * (x ⬝ᵥ H *ᵥ x))) θstar]
    refine MeasureTheory.integral_congr_ae (Filter.Eventually.of_forall fun x => ?_)
    simp only
    rw [← Real.exp_add]
    congr 1
    have : x ⬝ᵥ H *ᵥ x = Lᵀ *ᵥ x ⬝ᵥ Lᵀ *ᵥ x := by
      rw [hH', ← Matrix.mulVec_mulVec, Matrix.dotProduct_mulVec, ← Matrix.mulVec_transpose]
    rw [this]; ring
  rw [hint, Real.log_mul (Real.exp_ne_zero _) (by positivity), Real.log_exp, Real.log_mul (by positivity) (by positivity),
    Real.log_inv, Real.log_abs, Real.log_pow, Real.log_sqrt h2pi.le, ← lmlOf_eq joint H hdetH, hdet2, Real.log_pow]
  unfold lmlOf
  push_cast
  ring

/-- C34 (FULL): the marginal log-likelihood of a positive semidefinite curvature is `joint - ½ log det(H/2π)` with `H` the
posterior precision, i.e. the logarithm of the Laplace-approximated evidence integral. -/
theorem C34_full (C : Matrix (Fin p) (Fin p) ℝ) (hC : C.PosSemidef) (a : MllArgs) (fullFn : PyTree ℝ → Except Err ℝ)
    (params : PyTree ℝ) (hw : WFTree params) (hne : params.leaves ≠ []) (hp : getSize params = p)
    (τ : ℝ) (hτ : a.priorPrec = some τ) (hτ0 : 0 < τ) (hσ : 0 ≤ a.sigmaSquared.getD 1) (s : ℝ) (hs : 0 < s)
    (loss : ℝ) (hl : fullFn params = .ok loss) :
    ∃ joint lml, jointLogLikelihood fullFn a params = .ok joint ∧
      marginalLogLikelihood (.full C) a (.ok fullFn) params s = .ok lml ∧
      lml = logEvidence joint (precision C τ (a.sigmaSquared.getD 1) s) ∧
      ∀ θstar, lml = Real.log (laplaceIntegral joint (precision C τ (a.sigmaSquared.getD 1) s) θstar) := by
  have hJ := C34_joint fullFn a params hw hne τ hτ hτ0 loss hl
  have hpd := precision_posDef hC hτ0 hσ hs
  refine ⟨_, _, hJ, ?_, rfl, fun θ => (laplaceIntegral_eq _ _ hpd θ).symm⟩
  simp only [marginalLogLikelihood, ok_bind, fullPrec_eq C a.toPriorArgs hτ s, fullMarginalLogLikelihood, hJ, hp,
    abs_of_pos hpd.det_pos]
  rw [← lmlOf_eq _ _ hpd.det_pos]
  rfl

/-- C34 (DIAGONAL): likewise for a diagonal curvature with non-negative entries. -/
theorem C34_diagonal (d : Vec p) (hd : ∀ i, 0 ≤ d i) (a : MllArgs) (fullFn : PyTree ℝ → Except Err ℝ)
    (params : PyTree ℝ) (hw : WFTree params) (hne : params.leaves ≠ []) (hp : getSize params = p)
    (τ : ℝ) (hτ : a.priorPrec = some τ) (hτ0 : 0 < τ) (hσ : 0 ≤ a.sigmaSquared.getD 1) (s : ℝ) (hs : 0 < s)
    (loss : ℝ) (hl : fullFn params = .ok loss) :
    ∃ joint lml, jointLogLikelihood fullFn a params = .ok joint ∧
      marginalLogLikelihood (.diagonal d) a (.ok fullFn) params s = .ok lml ∧
      lml = logEvidence joint (precision (Matrix.diagonal d) τ (a.sigmaSquared.getD 1) s) ∧
      ∀ θstar, lml = Real.log (laplaceIntegral joint (precision (Matrix.diagonal d) τ (a.sigmaSquared.getD 1) s) θstar) := by
  have hJ := C34_joint fullFn a params hw hne τ hτ hτ0 loss hl
  have hpd := precision_posDef (Matrix.PosSemidef.diagonal hd) hτ0 hσ hs
  refine ⟨_, _, hJ, ?_, rfl, fun θ => (laplaceIntegral_eq _ _ hpd θ).symm⟩
  have hP : precision (Matrix.diagonal d) τ (a.sigmaSquared.getD 1) s
      = Matrix.diagonal (fun i => (a.sigmaSquared.getD 1 * d i + τ) / s) := by
    ext i j
    rw [precision_apply]
    by_cases hij : i = j
    · subst hij; simp
    · simp [hij]
  have hlog : ∑ i, Real.log ((a.sigmaSquared.getD 1 * d i + τ * 1) / s)
      = Real.log (precision (Matrix.diagonal d) τ (a.sigmaSquared.getD 1) s).det := by
    rw [hP, Matrix.det_diagonal, Real.log_prod]
    · simp
    · intro i _
      have := hd i
      positivity
  simp only [marginalLogLikelihood, ok_bind, diagonalCurvatureToPrecision, PriorArgs.getPriorPrec, hτ, diagonalMarginalLogLikelihood,
    hJ, hp, PriorArgs.getSigmaSquared]
  rw [← lmlOf_eq _ _ hpd.det_pos, ← hlog]
  rfl

/-- C34: FULL and DIAGONAL agree on a diagonal curvature. -/
theorem C34_full_eq_diagonal (d : Vec p) (hd : ∀ i, 0 ≤ d i) (a : MllArgs) (fullFn : PyTree ℝ → Except Err ℝ)
    (params : PyTree ℝ) (hw : WFTree params) (hne : params.leaves ≠ []) (hp : getSize params = p)
    (τ : ℝ) (hτ : a.priorPrec = some τ) (hτ0 : 0 < τ) (hσ : 0 ≤ a.sigmaSquared.getD 1) (s : ℝ) (hs : 0 < s)
    (loss : ℝ) (hl : fullFn params = .ok loss) :
    ∃ lml, marginalLogLikelihood (.full (Matrix.diagonal d)) a (.ok fullFn) params s = .ok lml ∧
      marginalLogLikelihood (.diagonal d) a (.ok fullFn) params s = .ok lml := by
  obtain ⟨j, l, h1, h2, h3, -⟩ := C34_full _ (Matrix.PosSemidef.diagonal hd) a fullFn params hw hne hp τ hτ hτ0 hσ s hs loss hl
  obtain ⟨j', l', h1', h2', h3', -⟩ := C34_diagonal d hd a fullFn params hw hne hp τ hτ hτ0 hσ s hs loss hl
  rw [h1, Except.ok.injEq] at h1'
  subst h1'
  exact ⟨l, h2, by rw [h2', h3', h3]⟩

/-- The determinant of a low-rank-plus-scalar matrix. -/
theorem lowRank_det (t : LowRankTerms p r) (hU : t.Uᵀ * t.U = 1) (hc : t.scalar ≠ 0) :
    (lowRankMatrix t).det = t.scalar ^ p * ∏ k, (1 + t.S k / t.scalar) := by
  have h1 : lowRankMatrix t = t.scalar • (1 + t.U * ((t.scalar⁻¹ • Matrix.diagonal t.S) * t.Uᵀ)) := by
    unfold lowRankMatrix
    rw [smul_add, Matrix.smul_mul, Matrix.mul_smul, smul_smul, mul_inv_cancel₀ hc, one_smul, Matrix.mul_assoc]
  have h2 : (1 : Matrix (Fin r) (Fin r) ℝ) + t.scalar⁻¹ • Matrix.diagonal t.S
      = Matrix.diagonal (fun k => 1 + t.S k / t.scalar) := by
    rw [← Matrix.diagonal_one, ← Matrix.diagonal_smul, Matrix.diagonal_add]
    congr 1; funext k; simp [div_eq_inv_mul]
  rw [h1, Matrix.det_smul, Fintype.card_fin, Matrix.det_one_add_mul_comm, Matrix.mul_assoc, hU, Matrix.mul_one, h2,
    Matrix.det_diagonal]

/-- C34 (low rank, partial): the low-rank marginal log-likelihood is the Laplace evidence *when the precision's scalar part
`prior_prec / loss_scaling_factor` is 1*.  Missing: for any other scalar the code's log-determinant
`R log c + Σ log(1 + c S)` is not `log det(c I + U S Uᵀ) = P log c + Σ log(1 + S/c)`, see `C34_low_rank_wrong`. -/
theorem C34_low_rank_partial (t : LowRankTerms p r) (hU : t.Uᵀ * t.U = 1) (hS : ∀ k, 0 ≤ t.S k) (a : MllArgs)
    (fullFn : PyTree ℝ → Except Err ℝ)
    (params : PyTree ℝ) (hw : WFTree params) (hne : params.leaves ≠ []) (hp : getSize params = p)
    (τ : ℝ) (hτ : a.priorPrec = some τ) (hτ0 : 0 < τ) (hσ : 0 ≤ a.sigmaSquared.getD 1) (s : ℝ) (h1 : τ / s = 1)
    (loss : ℝ) (hl : fullFn params = .ok loss) :
    ∃ joint lml, jointLogLikelihood fullFn a params = .ok joint ∧
      marginalLogLikelihood (.lowRank t) a (.ok fullFn) params s = .ok lml ∧
      lml = logEvidence joint ((τ / s) • (1 : Matrix (Fin p) (Fin p) ℝ) +
        a.sigmaSquared.getD 1 • (t.U * Matrix.diagonal t.S * t.Uᵀ)) := by
  have hJ := C34_joint fullFn a params hw hne τ hτ hτ0 loss hl
  set t' : LowRankTerms p r := ⟨t.U, fun k => a.sigmaSquared.getD 1 * t.S k, τ / s⟩ with ht'
  have hS' : ∀ k, 0 ≤ t'.S k := fun k => mul_nonneg hσ (hS k)
  have hc1 : t'.scalar = 1 := h1
  have hM : lowRankMatrix t' = (τ / s) • (1 : Matrix (Fin p) (Fin p) ℝ) +
        a.sigmaSquared.getD 1 • (t.U * Matrix.diagonal t.S * t.Uᵀ) := by
    unfold lowRankMatrix
    rw [ht']
    simp only
    congr 1
    have : Matrix.diagonal (fun k => a.sigmaSquared.getD 1 * t.S k) = a.sigmaSquared.getD 1 • Matrix.diagonal t.S := by
      rw [← Matrix.diagonal_smul]; rfl
    rw [this, Matrix.mul_smul, Matrix.smul_mul]
  have hdet : (lowRankMatrix t').det = ∏ k, (1 + t'.S k) := by
    rw [lowRank_det t' hU (by rw [hc1]; norm_num), hc1]; simp
  have hpos : 0 < (lowRankMatrix t').det := by
    rw [hdet]; exact Finset.prod_pos fun k _ => by have := hS' k; linarith
  refine ⟨_, _, hJ, ?_, rfl⟩
  rw [← hM, ← lmlOf_eq _ _ hpos, hdet, Real.log_prod fun k _ => by have := hS' k; positivity]
  simp only [marginalLogLikelihood, ok_bind, lowRankCurvatureToPrecision, PriorArgs.getPriorPrec, hτ, lowRankMarginalLogLikelihood,
    hJ, hp, PriorArgs.getSigmaSquared]
  have hlog : (r : ℝ) * Real.log (τ / s) + ∑ k, Real.log (1 + τ / s * (a.sigmaSquared.getD 1 * t.S k))
      = ∑ k, Real.log (1 + t'.S k) := by
    rw [h1]; simp [ht']
  rw [← hlog]
  rfl

/-- C34 (low rank, the exact error): for every scalar part `c = prior_prec / loss_scaling_factor` the code's value differs from the Laplace
evidence of the precision `c I + sigma_squared U S Uᵀ` by `½ ((P - R) log c + Σ (log(1 + σ² S / c) - log(1 + c σ² S)))`; with as many
eigenvectors as parameters it is right if and only if `c = 1` or the scaled curvature vanishes. -/
theorem C34_low_rank_error (t : LowRankTerms p r) (hU : t.Uᵀ * t.U = 1) (hS : ∀ k, 0 ≤ t.S k) (a : MllArgs)
    (fullFn : PyTree ℝ → Except Err ℝ)
    (params : PyTree ℝ) (hw : WFTree params) (hne : params.leaves ≠ []) (hp : getSize params = p)
    (τ : ℝ) (hτ : a.priorPrec = some τ) (hτ0 : 0 < τ) (hσ : 0 ≤ a.sigmaSquared.getD 1) (s : ℝ) (hs : 0 < s)
    (loss : ℝ) (hl : fullFn params = .ok loss) :
    ∃ joint lml, jointLogLikelihood fullFn a params = .ok joint ∧
      marginalLogLikelihood (.lowRank t) a (.ok fullFn) params s = .ok lml ∧
      lml - logEvidence joint ((τ / s) • (1 : Matrix (Fin p) (Fin p) ℝ) + a.sigmaSquared.getD 1 • (t.U * Matrix.diagonal t.S * t.Uᵀ)) =
        1 / 2 * (((p : ℝ) - r) * Real.log (τ / s) +
          ∑ k, (Real.log (1 + a.sigmaSquared.getD 1 * t.S k / (τ / s)) - Real.log (1 + τ / s * (a.sigmaSquared.getD 1 * t.S k)))) ∧
      (r = p → (lml = logEvidence joint ((τ / s) • (1 : Matrix (Fin p) (Fin p) ℝ) +
          a.sigmaSquared.getD 1 • (t.U * Matrix.diagonal t.S * t.Uᵀ)) ↔ τ / s = 1 ∨ ∀ k, a.sigmaSquared.getD 1 * t.S k = 0)) := by
  have hJ := C34_joint fullFn a params hw hne τ hτ hτ0 loss hl
  have hc : 0 < τ / s := by positivity
  obtain ⟨g, hg⟩ : ∃ g : Fin r → ℝ, g = fun k => a.sigmaSquared.getD 1 * t.S k := ⟨_, rfl⟩
  have hg0 : ∀ k, 0 ≤ g k := fun k => by rw [hg]; exact mul_nonneg hσ (hS k)
  obtain ⟨t', ht'⟩ : ∃ t' : LowRankTerms p r, t' = ⟨t.U, g, τ / s⟩ := ⟨_, rfl⟩
  have hM : lowRankMatrix t' = (τ / s) • (1 : Matrix (Fin p) (Fin p) ℝ) +
        a.sigmaSquared.getD 1 • (t.U * Matrix.diagonal t.S * t.Uᵀ) := by
    unfold lowRankMatrix
    rw [ht']
    simp only
    congr 1
    have : Matrix.diagonal g = a.sigmaSquared.getD 1 • Matrix.diagonal t.S := by
      rw [← Matrix.diagonal_smul, hg]; rfl
    rw [this, Matrix.mul_smul, Matrix.smul_mul]
  have hdet : (lowRankMatrix t').det = (τ / s) ^ p * ∏ k, (1 + g k / (τ / s)) := by
    rw [lowRank_det t' (by rw [ht']; exact hU) (by rw [ht']; exact hc.ne'), ht']
  have hpos : 0 < (lowRankMatrix t').det := by
    rw [hdet]; exact mul_pos (pow_pos hc _) (Finset.prod_pos fun k _ => by have := hg0 k; positivity)
  have hlogdet : Real.log (lowRankMatrix t').det = p * Real.log (τ / s) + ∑ k, Real.log (1 + g k / (τ / s)) := by
    rw [hdet, Real.log_mul (pow_pos hc _).ne' (Finset.prod_pos fun k _ => by have := hg0 k; positivity).ne', Real.log_pow,
      Real.log_prod fun k _ => by have := hg0 k; positivity]
  obtain ⟨joint, hjoint⟩ : ∃ j, j = -(loss / (2 * a.sigma.getD 1)) + logPrior τ (entries params) := ⟨_, rfl⟩
  rw [← hjoint] at hJ
  have hval : marginalLogLikelihood (.lowRank t) a (.ok fullFn) params s =
      .ok (lmlOf joint ((r : ℝ) * Real.log (τ / s) + ∑ k, Real.log (1 + τ / s * g k)) p) := by
    simp only [marginalLogLikelihood, ok_bind, lowRankCurvatureToPrecision, PriorArgs.getPriorPrec, hτ, lowRankMarginalLogLikelihood,
      hJ, hp, PriorArgs.getSigmaSquared, hg]
    rfl
  have herr : lmlOf joint ((r : ℝ) * Real.log (τ / s) + ∑ k, Real.log (1 + τ / s * g k)) p - logEvidence joint (lowRankMatrix t') =
      1 / 2 * (((p : ℝ) - r) * Real.log (τ / s) + ∑ k, (Real.log (1 + g k / (τ / s)) - Real.log (1 + τ / s * g k))) := by
    rw [← lmlOf_eq _ _ hpos, hlogdet, Finset.sum_sub_distrib]
    unfold lmlOf
    ring
  refine ⟨joint, _, hJ, hval, ?_, ?_⟩
  · rw [← hM, herr, hg]
  · intro hrp
    have hrp' : (p : ℝ) - r = 0 := by rw [hrp, sub_self]
    rw [← hM, ← sub_eq_zero, herr, hrp', zero_mul, zero_add]
    have hgk : (∀ k, a.sigmaSquared.getD 1 * t.S k = 0) ↔ ∀ k, g k = 0 := by rw [hg]
    rw [hgk]
    have hlt : ∀ x y : ℝ, 0 < x → 0 ≤ y → (1 < x → 0 < y → Real.log (1 + y / x) < Real.log (1 + x * y)) ∧
        (x < 1 → 0 < y → Real.log (1 + x * y) < Real.log (1 + y / x)) := by
      intro x y hx hy
      refine ⟨fun h1 hy' => Real.log_lt_log (by positivity) ?_, fun h1 hy' => Real.log_lt_log (by positivity) ?_⟩
      · have : y / x < x * y := by rw [div_lt_iff₀ hx]; nlinarith [mul_pos hx hy', mul_pos (sub_pos.2 h1) hy', mul_pos (mul_pos hx hy') (sub_pos.2 h1)]
        linarith
      · have : x * y < y / x := by rw [lt_div_iff₀ hx]; nlinarith [mul_pos hx hy', mul_pos (sub_pos.2 h1) hy', mul_pos (mul_pos hx hy') (sub_pos.2 h1)]
        linarith
    constructor
    · intro h
      have h0 : ∑ k, (Real.log (1 + g k / (τ / s)) - Real.log (1 + τ / s * g k)) = 0 := by linarith
      rcases lt_trichotomy (τ / s) 1 with h1 | h1 | h1
      · right
        have hn : ∀ k ∈ Finset.univ, 0 ≤ Real.log (1 + g k / (τ / s)) - Real.log (1 + τ / s * g k) := by
          intro k _
          rcases (hg0 k).eq_or_lt with e | e
          · rw [← e]; simp
          · have := (hlt _ _ hc (hg0 k)).2 h1 e; linarith
        intro k
        have hk := (Finset.sum_eq_zero_iff_of_nonneg hn).1 h0 k (Finset.mem_univ k)
        by_contra hne
        have := (hlt _ _ hc (hg0 k)).2 h1 (lt_of_le_of_ne (hg0 k) (Ne.symm hne))
        linarith
      · exact Or.inl h1
      · right
        have hn : ∀ k ∈ Finset.univ, Real.log (1 + g k / (τ / s)) - Real.log (1 + τ / s * g k) ≤ 0 := by
          intro k _
          rcases (hg0 k).eq_or_lt with e | e
          · rw [← e]; simp
          · have := (hlt _ _ hc (hg0 k)).1 h1 e; linarith
        intro k
        have hk := (Finset.sum_eq_zero_iff_of_nonpos hn).1 h0 k (Finset.mem_univ k)
        by_contra hne
        have := (hlt _ _ hc (hg0 k)).1 h1 (lt_of_le_of_ne (hg0 k) (Ne.symm hne))
        linarith
    · rintro (h | h)
      · rw [h]; simp
      · simp [h]

/-- C34 fails for low-rank curvature: with one parameter, curvature 1 and prior precision 2 the FULL marginal log-likelihood uses
`log det H = log 3`, the low-rank one `log 2 + log 3`; the two "marginal likelihoods" of the same curvature differ. -/
theorem C34_low_rank_wrong (fullFn : PyTree ℝ → Except Err ℝ) (x loss : ℝ) (hl : fullFn (flatLeaf [x]) = .ok loss) :
    ∃ l1 l2, marginalLogLikelihood (p := 1) (.full 1) ⟨⟨some 2, none⟩, none⟩ (.ok fullFn) (flatLeaf [x]) = .ok l1 ∧
      marginalLogLikelihood (p := 1) (.lowRank (r := 1) ⟨1, fun _ => 1, 0⟩) ⟨⟨some 2, none⟩, none⟩ (.ok fullFn) (flatLeaf [x]) = .ok l2 ∧
      l1 - l2 = 1 / 2 * Real.log 2 := by
  have hw : WFTree (flatLeaf [x]) := by
    simp [WFTree, flatLeaf, Tree.leaves, Arr.WF, shapeSize]
  have hne : (flatLeaf [x] : PyTree ℝ).leaves ≠ [] := by simp [flatLeaf, Tree.leaves]
  have hsz : getSize (flatLeaf [x] : PyTree ℝ) = 1 := by simp [getSize, flatLeaf, Tree.leaves, shapeSize]
  have hJ := C34_joint fullFn ⟨⟨some 2, none⟩, none⟩ (flatLeaf [x]) hw hne 2 rfl (by norm_num) loss hl
  set J : ℝ := -(loss / (2 * (⟨⟨some 2, none⟩, none⟩ : MllArgs).sigma.getD 1)) + logPrior 2 (entries (flatLeaf [x])) with hJdef
  refine ⟨lmlOf J (Real.log |Matrix.det (fun i j : Fin 1 => ((1 : ℝ) * (1 : Matrix (Fin 1) (Fin 1) ℝ) i j + 2 * (if i = j then 1 else 0)) / 1)|) 1,
    lmlOf J ((1 : ℕ) * Real.log (2 / 1) + ∑ _k : Fin 1, Real.log (1 + 2 / 1 * (1 * 1))) 1, ?_, ?_, ?_⟩
  · simp only [marginalLogLikelihood, ok_bind, fullCurvatureToPrecision, PriorArgs.getPriorPrec, fullMarginalLogLikelihood, hJ, hsz]
    rfl
  · simp only [marginalLogLikelihood, ok_bind, lowRankCurvatureToPrecision, PriorArgs.getPriorPrec, lowRankMarginalLogLikelihood, hJ, hsz]
    rfl
  · have hd : Matrix.det (fun i j : Fin 1 => ((1 : ℝ) * (1 : Matrix (Fin 1) (Fin 1) ℝ) i j + 2 * (if i = j then 1 else 0)) / 1) = 3 := by
      refine (Matrix.det_unique (n := Fin 1) _).trans ?_
      norm_num
    rw [hd]
    simp only [lmlOf, Finset.univ_unique, Finset.sum_singleton]
    norm_num
    ring

/-- Non-vacuity: a two-parameter tree and a genuinely positive semidefinite curvature. -/
example : ∃ params : PyTree ℝ, WFTree params ∧ params.leaves ≠ [] ∧ getSize params = 2 ∧
    (!![1, 1; 1, 1] : Matrix (Fin 2) (Fin 2) ℝ).PosSemidef := by
  refine ⟨.node "dict" [.leaf ⟨[1], [1]⟩, .leaf ⟨[], [3]⟩], ?_, ?_, ?_, ?_⟩
  · simp [WFTree, Tree.leaves, Tree.leavesL, Arr.WF, shapeSize]
  · simp [Tree.leaves, Tree.leavesL]
  · simp [getSize, Tree.leaves, Tree.leavesL, shapeSize]
  · have h := Matrix.posSemidef_conjTranspose_mul_self (!![1, 1] : Matrix (Fin 1) (Fin 2) ℝ)
    have e : (!![1, 1] : Matrix (Fin 1) (Fin 2) ℝ)ᴴ * (!![1, 1] : Matrix (Fin 1) (Fin 2) ℝ) = !![1, 1; 1, 1] := by
      ext i j; fin_cases i <;> fin_cases j <;> simp [Matrix.mul_apply]
    rwa [e] at h

end Laplax.Props
