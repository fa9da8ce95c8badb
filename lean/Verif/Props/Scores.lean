import Verif.Lib.NormalLemmas
import Verif.Spec.Metrics
import Mathlib.Algebra.BigOperators.Field
import Mathlib.Analysis.SpecialFunctions.Log.Basic

/-! # C32: scoring rules -/

namespace Laplax.Props
open Laplax Laplax.Spec
open scoped BigOperators

variable {n c : ℕ}

/-! ## Cross entropy -/

/-- C32: cross-entropy of probability vectors is non-negative. -/
theorem C32_cross_entropy_nonneg (p q : Vec c) (hp : IsProb p) (hq : IsProb q) (h : ∀ k, p k ≠ 0 → 0 < q k) :
    0 ≤ crossEntropyMetric p q := by
  unfold crossEntropyMetric
  rw [neg_nonneg]
  refine Finset.sum_nonpos fun k _ => ?_
  unfold xlogy
  split_ifs with h0
  · rfl
  · have hq1 : q k ≤ 1 := by rw [← hq.2]; exact Finset.single_le_sum (fun j _ => hq.1 j) (Finset.mem_univ k)
    exact mul_nonpos_of_nonneg_of_nonpos (hp.1 k) (Real.log_nonpos (h k h0).le hq1)

theorem gibbs_term (p q : ℝ) (hp : 0 ≤ p) (hq : 0 ≤ q) (h : p ≠ 0 → 0 < q) :
    xlogy p q - xlogy p p ≤ q - p ∧ (xlogy p q - xlogy p p = q - p → p = q) := by
  unfold xlogy
  by_cases h0 : p = 0
  · subst h0
    simp only [if_true, sub_zero]
    exact ⟨hq, fun e => e⟩
  · have hp' : 0 < p := lt_of_le_of_ne hp (Ne.symm h0)
    have hq' := h h0
    simp only [if_neg h0]
    have e : p * Real.log q - p * Real.log p = p * Real.log (q / p) := by rw [Real.log_div hq'.ne' h0]; ring
    have e2 : q - p = p * (q / p - 1) := by field_simp
    rw [e, e2]
    refine ⟨mul_le_mul_of_nonneg_left (Real.log_le_sub_one_of_pos (by positivity)) hp, fun heq => ?_⟩
    by_contra hne
    have hne' : q / p ≠ 1 := by rw [Ne, div_eq_one_iff_eq h0]; exact fun e => hne e.symm
    have := Real.log_lt_sub_one_of_pos (div_pos hq' hp') hne'
    have := mul_lt_mul_of_pos_left this hp'
    linarith

/-- C32 (Gibbs): among probability vectors the cross-entropy against `p` is minimised at `q = p`, and only there. -/
theorem C32_gibbs (p q : Vec c) (hp : IsProb p) (hq : IsProb q) (h : ∀ k, p k ≠ 0 → 0 < q k) :
    crossEntropyMetric p p ≤ crossEntropyMetric p q ∧ (crossEntropyMetric p q = crossEntropyMetric p p → q = p) := by
  have hsum : ∑ k, (q k - p k) = 0 := by rw [Finset.sum_sub_distrib, hp.2, hq.2, sub_self]
  have hterm := fun k => gibbs_term (p k) (q k) (hp.1 k) (hq.1 k) (h k)
  have hdiff : crossEntropyMetric p p - crossEntropyMetric p q = ∑ k, (xlogy (p k) (q k) - xlogy (p k) (p k)) := by
    unfold crossEntropyMetric; rw [Finset.sum_sub_distrib]; ring
  have hle : ∑ k, (xlogy (p k) (q k) - xlogy (p k) (p k)) ≤ ∑ k, (q k - p k) := Finset.sum_le_sum fun k _ => (hterm k).1
  refine ⟨by linarith, fun heq => ?_⟩
  have h0 : ∑ k, (xlogy (p k) (q k) - xlogy (p k) (p k)) = ∑ k, (q k - p k) := by linarith
  rw [Finset.sum_eq_sum_iff_of_le (fun k _ => (hterm k).1)] at h0
  funext k
  exact ((hterm k).2 (h0 k (Finset.mem_univ k))).symm

/-- Cross-entropy with a one-hot target is the negative log probability of the label. -/
theorem C32_cross_entropy_one_hot (y : Fin c) (q : Vec c) :
    crossEntropyMetric (oneHot (y.val : ℤ)) q = -Real.log (q y) := by
  unfold crossEntropyMetric
  congr 1
  rw [Finset.sum_eq_single y]
  · simp [oneHot, xlogy]
  · intro k _ hk
    have : ((k.val : ℤ)) ≠ (y.val : ℤ) := fun e => hk (Fin.ext (by exact_mod_cast e))
    simp [oneHot, xlogy, this]
  · simp

/-- Non-vacuity: two different probability vectors. -/
example : ∃ p q : Vec 2, IsProb p ∧ IsProb q ∧ (∀ k, p k ≠ 0 → 0 < q k) ∧ crossEntropyMetric p p < crossEntropyMetric p q := by
  have hp : IsProb (![1, 0] : Vec 2) := ⟨by intro k; fin_cases k <;> simp, by simp⟩
  have hq : IsProb (![1/2, 1/2] : Vec 2) := ⟨by intro k; fin_cases k <;> norm_num, by simp; norm_num⟩
  have h : ∀ k, (![1, 0] : Vec 2) k ≠ 0 → 0 < (![1/2, 1/2] : Vec 2) k := by intro k _; fin_cases k <;> norm_num
  refine ⟨_, _, hp, hq, h, lt_of_le_of_ne (C32_gibbs _ _ hp hq h).1 fun e => ?_⟩
  have := congrFun ((C32_gibbs _ _ hp hq h).2 e.symm) 0
  norm_num at this

/-! ## Brier score -/

theorem brier_row (p : Vec c) (y : Fin c) :
    ∑ k, oneHot (c := c) (y.val : ℤ) k * (1 - 2 * p k + ∑ j, p j ^ 2) = ∑ k, (p k - if k = y then 1 else 0) ^ 2 := by
  rw [Finset.sum_eq_single y]
  · have h : ∀ k, (p k - if k = y then (1 : ℝ) else 0) ^ 2 = p k ^ 2 + (if k = y then 1 - 2 * p k else 0) := by
      intro k; split_ifs <;> ring
    simp only [h, Finset.sum_add_distrib, Finset.sum_ite_eq', Finset.mem_univ, if_true]
    simp [oneHot]; ring
  · intro k _ hk
    have : ((k.val : ℤ)) ≠ (y.val : ℤ) := fun e => hk (Fin.ext (by exact_mod_cast e))
    simp [oneHot, this]
  · simp

/-- C32 (partial; what the code computes): `multiclass_brier` is the mean squared distance to the one-hot target, *negated and
divided by the number of classes*. Missing: the English claim "equals the Brier score", i.e. `multiclassBrier prob y = brier prob y`;
it is false of this code, see `C32_brier_disagrees`. -/
theorem C32_brier_value_partial (prob : Fin n → Vec c) (y : Fin n → Fin c) :
    multiclassBrier prob (.labels fun i => ((y i).val : ℤ)) = -(brier prob y) / c ∧
    multiclassBrier prob (.rows fun i => oneHot ((y i).val : ℤ)) = -(brier prob y) / c := by
  have key : ∑ i, ∑ k, oneHot (c := c) ((y i).val : ℤ) k * (1 - 2 * prob i k + ∑ j, prob i j ^ 2)
      = ∑ i, ∑ k, (prob i k - if k = y i then 1 else 0) ^ 2 := Finset.sum_congr rfl fun i _ => brier_row _ _
  constructor <;>
  · simp only [multiclassBrier, brier]
    rw [key]
    rw [neg_div, div_div]
    ring

/-- C32 fails for the Brier score as documented ("mean squared difference"): on one sample with two classes predicted
`(1/2, 1/2)` the mean squared distance is `1/2`, the code returns `-1/4`. -/
theorem C32_brier_disagrees : brier (n := 1) (fun _ => ![1/2, 1/2]) (fun _ => 0) = 1/2 ∧
    multiclassBrier (n := 1) (c := 2) (fun _ => ![1/2, 1/2]) (.labels fun _ => 0) = -1/4 := by
  have h1 : brier (n := 1) (fun _ => ![1/2, 1/2]) (fun _ => 0) = 1/2 := by
    simp [brier]; norm_num
  refine ⟨h1, ?_⟩
  have := (C32_brier_value_partial (n := 1) (c := 2) (fun _ => ![1/2, 1/2]) (fun _ => 0)).1
  simp only [Fin.val_zero, Nat.cast_zero] at this
  rw [this, h1]; norm_num

/-- C32 (consequence): a better prediction has a *larger* `multiclass_brier`; a perfect one scores 0, every other is negative. -/
theorem C32_brier_orientation (hn : 0 < n) (prob : Fin n → Vec c) (y : Fin n → Fin c) :
    multiclassBrier prob (.labels fun i => ((y i).val : ℤ)) ≤ 0 ∧
    (multiclassBrier prob (.labels fun i => ((y i).val : ℤ)) = 0 ↔ ∀ i k, prob i k = if k = y i then 1 else 0) := by
  have hc : 0 < c := (y ⟨0, hn⟩).pos
  have hc' : (0 : ℝ) < c := by exact_mod_cast hc
  have hn' : (0 : ℝ) < n := by exact_mod_cast hn
  rw [(C32_brier_value_partial prob y).1]
  have h0 : 0 ≤ brier prob y := div_nonneg (Finset.sum_nonneg fun i _ => Finset.sum_nonneg fun k _ => sq_nonneg _) hn'.le
  refine ⟨div_nonpos_of_nonpos_of_nonneg (by linarith) hc'.le, ?_⟩
  rw [div_eq_zero_iff, or_iff_left hc'.ne', neg_eq_zero, brier, div_eq_zero_iff, or_iff_left hn'.ne',
    Finset.sum_eq_zero_iff_of_nonneg fun i _ => Finset.sum_nonneg fun k _ => sq_nonneg _]
  constructor
  · intro h i k
    have := h i (Finset.mem_univ i)
    rw [Finset.sum_eq_zero_iff_of_nonneg fun k _ => sq_nonneg _] at this
    have := this k (Finset.mem_univ k)
    have := pow_eq_zero_iff (n := 2) (by norm_num) |>.1 this
    linarith
  · intro h i _
    refine Finset.sum_eq_zero fun k _ => ?_
    rw [h i k, sub_self]; norm_num

/-! ## Regression -/

/-- C32: the squared RMSE is the mean squared error, and RMSE is 0 exactly for perfect predictions. -/
theorem C32_rmse (hn : 0 < n) (mean target : Vec n) :
    0 ≤ estimateRmse mean target ∧ estimateRmse mean target ^ 2 = (∑ i, (target i - mean i) ^ 2) / n ∧
    (estimateRmse mean target = 0 ↔ mean = target) := by
  have hn' : (0 : ℝ) < n := by exact_mod_cast hn
  have h0 : 0 ≤ jnpMean (fun i => (mean i - target i) ^ 2) :=
    div_nonneg (Finset.sum_nonneg fun i _ => sq_nonneg _) hn'.le
  have hm : jnpMean (fun i => (mean i - target i) ^ 2) = (∑ i, (target i - mean i) ^ 2) / n := by
    unfold jnpMean; congr 1; exact Finset.sum_congr rfl fun i _ => by ring
  refine ⟨Real.sqrt_nonneg _, ?_, ?_⟩
  · rw [estimateRmse, Real.sq_sqrt h0, hm]
  · rw [estimateRmse, Real.sqrt_eq_zero h0, hm, div_eq_zero_iff, or_iff_left hn'.ne',
      Finset.sum_eq_zero_iff_of_nonneg fun i _ => sq_nonneg _]
    constructor
    · intro h
      funext i
      have := pow_eq_zero_iff (n := 2) (by norm_num) |>.1 (h i (Finset.mem_univ i))
      linarith
    · rintro rfl i _
      simp

/-- C32: `chi_squared` is the mean (or sum) of the squared standardised errors; it is 1 in the mean when every error equals its
predicted standard deviation, in which case `chi_squared_zero` is 0. -/
theorem C32_chi_squared (hn : 0 < n) (mean std target : Vec n) (hs : ∀ i, 0 < std i) :
    chiSquared mean std target true = (∑ i, ((target i - mean i) / std i) ^ 2) / n ∧
    chiSquared mean std target false = ∑ i, ((target i - mean i) / std i) ^ 2 ∧
    0 ≤ chiSquared mean std target true ∧
    ((∀ i, |target i - mean i| = std i) → chiSquaredZero mean std target = 0) := by
  have hn' : (0 : ℝ) < n := by exact_mod_cast hn
  have e : ∀ i, (mean i - target i) ^ 2 / std i ^ 2 = ((target i - mean i) / std i) ^ 2 := by
    intro i; rw [div_pow]; ring
  have e1 : chiSquared mean std target true = (∑ i, ((target i - mean i) / std i) ^ 2) / n := by
    simp [chiSquared, jnpMean, e]
  refine ⟨e1, by simp [chiSquared, e], ?_, fun h => ?_⟩
  · rw [e1]; exact div_nonneg (Finset.sum_nonneg fun i _ => sq_nonneg _) hn'.le
  · unfold chiSquaredZero
    rw [e1]
    have : ∀ i, ((target i - mean i) / std i) ^ 2 = 1 := by
      intro i
      rw [div_pow, ← sq_abs, h i, div_self (pow_ne_zero _ (hs i).ne')]
    simp [this, hn'.ne']

theorem logpdf_eq (μ σ y : ℝ) (hσ : 0 < σ) : -normLogpdf (μ - y) σ = negLogDensity μ σ y := by
  unfold normLogpdf negLogDensity ProbabilityTheory.gaussianPDFReal
  have hv : ((Real.toNNReal (σ ^ 2) : NNReal) : ℝ) = σ ^ 2 := Real.coe_toNNReal _ (sq_nonneg σ)
  rw [hv]
  have hpos : 0 < 2 * Real.pi * σ ^ 2 := by positivity
  rw [Real.log_mul (by positivity) (Real.exp_ne_zero _), Real.log_exp, Real.log_inv, Real.log_sqrt hpos.le]
  field_simp
  ring

/-- C32: `nll_gaussian` is the mean (or, unscaled, the sum) of the negative log normal densities of the targets. -/
theorem C32_nll (sh : List ℕ) (mean std target : Fin (shapeSize sh) → ℝ) (hs : ∀ i, 0 < std i) :
    nllGaussian ⟨sh, mean⟩ ⟨sh, std⟩ ⟨sh, target⟩ true
      = .ok ((∑ i, negLogDensity (mean i) (std i) (target i)) / (shapeSize sh : ℝ)) ∧
    nllGaussian ⟨sh, mean⟩ ⟨sh, std⟩ ⟨sh, target⟩ false = .ok (∑ i, negLogDensity (mean i) (std i) (target i)) := by
  have e : (-1 : ℝ) * ∑ i, normLogpdf (mean i - target i) (std i) = ∑ i, negLogDensity (mean i) (std i) (target i) := by
    rw [neg_one_mul, ← Finset.sum_neg_distrib]
    exact Finset.sum_congr rfl fun i _ => logpdf_eq _ _ _ (hs i)
  constructor
  · simp only [nllGaussian, and_self, dif_pos, if_true]
    rw [e]
  · simp only [nllGaussian, and_self, dif_pos, Bool.false_eq_true, if_false]
    rw [e]

/-- C32: `crps_gaussian` is the mean (or sum) of the continuous ranked probability scores of the normal predictives, as defined
by the integral `∫ (F(x) - 1[y ≤ x])² dx`; in particular it is non-negative. -/
theorem C32_crps (sh : List ℕ) (mean std target : Fin (shapeSize sh) → ℝ) (hs : ∀ i, 0 < std i) :
    crpsGaussian ⟨sh, mean⟩ ⟨sh, std⟩ ⟨sh, target⟩ true
      = .ok ((∑ i, crps (mean i) (std i) (target i)) / (shapeSize sh : ℝ)) ∧
    crpsGaussian ⟨sh, mean⟩ ⟨sh, std⟩ ⟨sh, target⟩ false = .ok (∑ i, crps (mean i) (std i) (target i)) ∧
    0 ≤ (∑ i, crps (mean i) (std i) (target i)) / (shapeSize sh : ℝ) := by
  have e : ∑ i, crpsTerm (mean i) (std i) (target i) = ∑ i, crps (mean i) (std i) (target i) :=
    Finset.sum_congr rfl fun i _ => (crps_gaussian_integral _ _ _ (hs i)).symm
  refine ⟨?_, ?_, ?_⟩
  · simp only [crpsGaussian, and_self, dif_pos, if_true]
    rw [e]
  · simp only [crpsGaussian, and_self, dif_pos, Bool.false_eq_true, if_false]
    rw [e]
  · exact div_nonneg (Finset.sum_nonneg fun i _ => MeasureTheory.integral_nonneg fun x => sq_nonneg _) (by positivity)

/-- C32: mismatching shapes raise `ValueError` instead of broadcasting, in both scores. -/
theorem C32_shape_mismatch (mean std target : NdArr) (scaled : Bool)
    (h : ¬ (mean.shape = std.shape ∧ std.shape = target.shape)) :
    nllGaussian mean std target scaled = .error .valueError ∧ crpsGaussian mean std target scaled = .error .valueError := by
  simp [nllGaussian, crpsGaussian, h]

/-- Non-vacuity: a `2 × 1` batch. -/
example : ∃ r, crpsGaussian ⟨[2, 1], fun _ => 0⟩ ⟨[2, 1], fun _ => 2⟩ ⟨[2, 1], fun _ => 1⟩ = .ok r ∧ 0 ≤ r := by
  obtain ⟨h1, -, h2⟩ := C32_crps [2, 1] (fun _ => 0) (fun _ => 2) (fun _ => 1) (fun _ => by norm_num)
  exact ⟨_, h1, h2⟩

end Laplax.Props
