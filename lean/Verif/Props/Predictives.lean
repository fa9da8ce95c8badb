import Verif.Model.Predictives
import Verif.Spec.Metrics
import Verif.Lib.LossLemmas
import Mathlib.Algebra.BigOperators.Field
import Mathlib.LinearAlgebra.Matrix.PosDef
import Mathlib.Algebra.Order.Star.Real

/-! # C33: classification predictives -/

namespace Laplax.Props
open Laplax Laplax.Spec
open scoped BigOperators

variable {c : ℕ}

theorem lambda0_pos : 0 < lambda0 := by unfold lambda0; positivity

theorem softmax_isProb (hc : 0 < c) (z : Vec c) : IsProb (softmax z) ∧ ∀ k, 0 < softmax z k := by
  have hne : (Finset.univ : Finset (Fin c)).Nonempty := ⟨⟨0, hc⟩, Finset.mem_univ _⟩
  have hS : 0 < ∑ j, Real.exp (z j) := Finset.sum_pos (fun _ _ => Real.exp_pos _) hne
  have hp : ∀ k, 0 < softmax z k := fun k => div_pos (Real.exp_pos _) hS
  refine ⟨⟨fun k => (hp k).le, ?_⟩, hp⟩
  unfold softmax
  rw [← Finset.sum_div, div_self hS.ne']

/-- C33: the mean-field-0 predictive is a probability vector with positive entries, and is the softmax of the mean when the
predictive variance vanishes. -/
theorem C33_mean_field_0 (hc : 0 < c) (mean var : Vec c) :
    IsProb (meanField0 mean var) ∧ (∀ k, 0 < meanField0 mean var k) ∧ meanField0 mean 0 = softmax mean := by
  refine ⟨(softmax_isProb hc _).1, (softmax_isProb hc _).2, ?_⟩
  unfold meanField0; simp

/-- C33: non-negative variances pull the mean-field-0 predictive towards uniform: a constant variance rescales the logits by
`1/√(1 + π/8·v) ≤ 1`. -/
theorem C33_mean_field_0_temperature (mean : Vec c) (v : ℝ) (hv : 0 ≤ v) :
    ∃ t, 0 < t ∧ t ≤ 1 ∧ meanField0 mean (fun _ => v) = softmax (fun k => t * mean k) := by
  have h1 : 1 ≤ Real.sqrt (1 + lambda0 * v) := by
    rw [Real.one_le_sqrt]; nlinarith [lambda0_pos]
  refine ⟨1 / Real.sqrt (1 + lambda0 * v), by positivity, by rw [div_le_one (by linarith)]; exact h1, ?_⟩
  unfold meanField0
  congr 1; funext k; ring

theorem sum_exp_pos (hc : 0 < c) (f : Vec c) : 0 < ∑ j, Real.exp (f j) :=
  Finset.sum_pos (fun _ _ => Real.exp_pos _) ⟨⟨0, hc⟩, Finset.mem_univ _⟩

theorem inv_sum_exp_sub (z : Vec c) (i : Fin c) : 1 / ∑ j, Real.exp (z j - z i) = softmax z i := by
  unfold softmax
  simp only [Real.exp_sub, ← Finset.sum_div]
  rw [one_div_div]

/-- C33: every entry of the mean-field-1 predictive lies in `(0, 1]`; with zero variance it is the softmax of the mean (hence a
probability vector). -/
theorem C33_mean_field_1 (mean var : Vec c) :
    (∀ k, 0 < meanField1 mean var k ∧ meanField1 mean var k ≤ 1) ∧ meanField1 mean 0 = softmax mean := by
  refine ⟨fun k => ?_, ?_⟩
  · have hS := sum_exp_pos k.pos (fun j => (mean j - mean k) / Real.sqrt (1 + lambda0 * (var k + var j)))
    have h1 : 1 ≤ ∑ j, Real.exp ((mean j - mean k) / Real.sqrt (1 + lambda0 * (var k + var j))) := by
      have := Finset.single_le_sum (s := Finset.univ)
        (f := fun j => Real.exp ((mean j - mean k) / Real.sqrt (1 + lambda0 * (var k + var j))))
        (fun j _ => (Real.exp_pos _).le) (Finset.mem_univ k)
      simpa using this
    exact ⟨by unfold meanField1; positivity, by unfold meanField1; rw [div_le_one hS]; exact h1⟩
  · funext k
    rw [← inv_sum_exp_sub]
    simp [meanField1]

/-- C33 (partial): with equal variances, or with at most two classes, the mean-field-1 predictive sums to one.  Missing: it does
*not* for three or more classes with unequal variances, see `C33_mean_field_1_not_normalised`. -/
theorem C33_mean_field_1_sums_to_one_partial (hc : 0 < c) (mean var : Vec c) (h : (∀ i j, var i = var j) ∨ c ≤ 2) :
    ∑ k, meanField1 mean var k = 1 := by
  by_cases hconst : ∀ i j, var i = var j
  · have : meanField1 mean var = softmax (fun k => mean k / Real.sqrt (1 + lambda0 * (2 * var ⟨0, hc⟩))) := by
      funext k
      rw [← inv_sum_exp_sub]
      unfold meanField1
      congr 1
      refine Finset.sum_congr rfl fun j _ => ?_
      rw [hconst k ⟨0, hc⟩, hconst j ⟨0, hc⟩, ← sub_div]
      congr 3; ring_nf
    rw [this]; exact (softmax_isProb hc _).1.2
  · have hc2 : c ≤ 2 := h.resolve_left hconst
    obtain rfl | rfl : c = 1 ∨ c = 2 := by omega
    · exact absurd (fun i j => by rw [Subsingleton.elim i j]) hconst
    · set s := Real.sqrt (1 + lambda0 * (var 0 + var 1)) with hs
      have hs' : Real.sqrt (1 + lambda0 * (var 1 + var 0)) = s := by rw [hs, add_comm (var 1)]
      simp only [Fin.sum_univ_two, meanField1, sub_self, zero_div, Real.exp_zero, hs']
      rw [← hs]
      have e : (mean 0 - mean 1) / s = -((mean 1 - mean 0) / s) := by ring
      rw [e, Real.exp_neg]
      have := Real.exp_pos ((mean 1 - mean 0) / s)
      field_simp

/-- C33 fails for mean-field-1 with three classes: for means `(0, 0, log 4)` and variances `(24/π, 0, 0)` the entries do not
sum to one. -/
theorem C33_mean_field_1_not_normalised :
    ∑ k, meanField1 ![0, 0, Real.log 4] ![24 / Real.pi, 0, 0] k ≠ 1 := by
  have hpi : Real.pi ≠ 0 := Real.pi_ne_zero
  have e4 : lambda0 * (24 / Real.pi) = 3 := by unfold lambda0; field_simp; norm_num
  have s4 : Real.sqrt 4 = 2 := by rw [show (4 : ℝ) = 2 ^ 2 by norm_num]; exact Real.sqrt_sq (by norm_num)
  have h1 : Real.exp (Real.log 4 / 2) = 2 := by
    have : Real.log 4 = 2 * Real.log 2 := by
      rw [show (4 : ℝ) = 2 ^ 2 by norm_num, Real.log_pow]; norm_num
    rw [this, mul_div_cancel_left₀ _ (by norm_num), Real.exp_log (by norm_num)]
  have h2 : Real.exp (Real.log 4) = 4 := Real.exp_log (by norm_num)
  have h3 : Real.exp (-Real.log 4 / 2) = 1 / 2 := by rw [neg_div, Real.exp_neg, h1]; norm_num
  have h4 : Real.exp (-Real.log 4) = 1 / 4 := by rw [Real.exp_neg, h2]; norm_num
  have n4 : (1 : ℝ) + 3 = 4 := by norm_num
  simp only [Fin.sum_univ_three, meanField1]
  simp [e4, n4, s4, h1, h2, h3, h4]
  norm_num

/-- C33: the entries of the mean-field-2 predictive lie in `(0, 1]`; with zero covariance it is the softmax of the mean. -/
theorem C33_mean_field_2 (mean : Vec c) (cov : Matrix (Fin c) (Fin c) ℝ) :
    (∀ k, 0 < meanField2 mean cov k ∧ meanField2 mean cov k ≤ 1) ∧ meanField2 mean 0 = softmax mean := by
  refine ⟨fun k => ?_, ?_⟩
  · have hS := sum_exp_pos k.pos (fun j => (mean j - mean k) / Real.sqrt (1 + lambda0 * (cov k k + cov j j - 2 * cov k j)))
    have h1 : 1 ≤ ∑ j, Real.exp ((mean j - mean k) / Real.sqrt (1 + lambda0 * (cov k k + cov j j - 2 * cov k j))) := by
      have := Finset.single_le_sum (s := Finset.univ)
        (f := fun j => Real.exp ((mean j - mean k) / Real.sqrt (1 + lambda0 * (cov k k + cov j j - 2 * cov k j))))
        (fun j _ => (Real.exp_pos _).le) (Finset.mem_univ k)
      simpa using this
    exact ⟨by unfold meanField2; positivity, by unfold meanField2; rw [div_le_one hS]; exact h1⟩
  · funext k
    rw [← inv_sum_exp_sub]
    simp [meanField2]

/-- C33: for a positive semidefinite covariance the scaling `1 + λ₀(Σᵢᵢ + Σⱼⱼ - 2Σᵢⱼ)` under the square root is at least one, so
`mean_field_2` never divides by zero. -/
theorem C33_mean_field_2_well_defined (cov : Matrix (Fin c) (Fin c) ℝ) (h : cov.PosSemidef) (i j : Fin c) :
    1 ≤ Real.sqrt (1 + lambda0 * (cov i i + cov j j - 2 * cov i j)) := by
  have hq := h.dotProduct_mulVec_nonneg (Pi.single i 1 - Pi.single j 1)
  have hsym : cov j i = cov i j := by
    have := h.isHermitian.apply i j
    simpa using this
  simp only [star_trivial, Matrix.mulVec_sub, sub_dotProduct, dotProduct_sub, single_one_dotProduct,
    Matrix.mulVec_single_one, Matrix.col_apply] at hq
  rw [Real.one_le_sqrt]
  have : 0 ≤ cov i i + cov j j - 2 * cov i j := by linarith
  nlinarith [lambda0_pos]

/-- C33 (partial): for symmetric covariances and at most two classes, or whenever all pairwise differences have the same variance,
mean-field-2 sums to one.  Missing: it does not in general, see `C33_mean_field_2_not_normalised`. -/
theorem C33_mean_field_2_sums_to_one_partial (hc : 0 < c) (mean : Vec c) (cov : Matrix (Fin c) (Fin c) ℝ) (hsym : cov.transpose = cov)
    (h : (∃ v, ∀ i j, i ≠ j → cov i i + cov j j - 2 * cov i j = v) ∨ c ≤ 2) :
    ∑ k, meanField2 mean cov k = 1 := by
  have h' : ∃ v, ∀ i j, i ≠ j → cov i i + cov j j - 2 * cov i j = v := by
    rcases h with h | h
    · exact h
    · obtain rfl | rfl : c = 1 ∨ c = 2 := by omega
      · exact ⟨0, fun i j hij => absurd (Subsingleton.elim i j) hij⟩
      · refine ⟨cov 0 0 + cov 1 1 - 2 * cov 0 1, fun i j hij => ?_⟩
        have h10 : cov 1 0 = cov 0 1 := by
          have := congrFun (congrFun hsym 0) 1
          rwa [Matrix.transpose_apply] at this
        fin_cases i <;> fin_cases j <;> simp [h10] at hij ⊢
        ring
  obtain ⟨v, hv⟩ := h'
  have : meanField2 mean cov = softmax (fun k => mean k / Real.sqrt (1 + lambda0 * v)) := by
    funext k
    rw [← inv_sum_exp_sub]
    unfold meanField2
    congr 1
    refine Finset.sum_congr rfl fun j _ => ?_
    by_cases hkj : k = j
    · subst hkj; simp
    · rw [hv k j hkj, sub_div]
  rw [this]; exact (softmax_isProb hc _).1.2

/-- C33 fails for mean-field-2 with three classes: for means `(0, 0, log 4)` and the (positive semidefinite, diagonal) covariance
`diag(24/π, 0, 0)` the entries do not sum to one. -/
theorem C33_mean_field_2_not_normalised :
    (Matrix.diagonal ![24 / Real.pi, 0, 0]).PosSemidef ∧
    ∑ k, meanField2 ![0, 0, Real.log 4] (Matrix.diagonal ![24 / Real.pi, 0, 0]) k ≠ 1 := by
  constructor
  · rw [Matrix.posSemidef_diagonal_iff]
    intro i
    have := Real.pi_pos
    fin_cases i <;> simp
    positivity
  · have : meanField2 ![0, 0, Real.log 4] (Matrix.diagonal ![24 / Real.pi, 0, 0])
        = meanField1 ![0, 0, Real.log 4] ![24 / Real.pi, 0, 0] := by
      funext i
      unfold meanField2 meanField1
      congr 1
      refine Finset.sum_congr rfl fun j _ => ?_
      by_cases hij : i = j
      · subst hij; simp
      · simp [Matrix.diagonal_apply_ne _ hij]
    rw [this]
    exact C33_mean_field_1_not_normalised

/-! ## Laplace bridge -/

/-- C33 fails for the Laplace bridge on a single prediction: `mean.shape[1]` raises for every 1-D mean, which is what the
pushforward passes. -/
theorem C33_bridge_one_dimensional_raises (mean : Vec c) (var : Arr ℝ) (uc : Bool) :
    laplaceBridgeArr ⟨[c], List.ofFn mean⟩ var uc = .error .indexError := rfl

/-- The bridge with `num_classes = N ≥ 2`: positive entries, total mass one. -/
theorem bridge_blocks_mass {m N : ℕ} (hc : 0 < c) (hm : 0 < m) (hN : 2 ≤ N) (mean var : Fin c → Fin m → ℝ) (hv : ∀ k s, 0 < var k s) (uc : Bool) :
    (∀ k s, 0 < laplaceBridgeBlocks N mean var uc k s) ∧ ∑ k, ∑ s, laplaceBridgeBlocks N mean var uc k s = 1 := by
  have hm' : (2 : ℝ) ≤ N := by exact_mod_cast hN
  have hnec : (Finset.univ : Finset (Fin c)).Nonempty := ⟨⟨0, hc⟩, Finset.mem_univ _⟩
  have hnem : (Finset.univ : Finset (Fin m)).Nonempty := ⟨⟨0, hm⟩, Finset.mem_univ _⟩
  have hcc : ∀ s, 0 < (∑ k, var k s) / Real.sqrt ((N : ℝ) / 2) := fun s =>
    div_pos (Finset.sum_pos (fun k _ => hv k s) hnec) (Real.sqrt_pos.2 (by linarith))
  have hgen : ∀ (μ v : Fin c → Fin m → ℝ), (∀ k s, 0 < v k s) →
      (∀ k s, 0 < dirichletPredictive (fun k s => (1 - 2 / (N : ℝ) + Real.exp (μ k s) * (∑ k, Real.exp (-μ k s)) / (N : ℝ) ^ 2) / v k s) k s) ∧
      ∑ k, ∑ s, dirichletPredictive (fun k s => (1 - 2 / (N : ℝ) + Real.exp (μ k s) * (∑ k, Real.exp (-μ k s)) / (N : ℝ) ^ 2) / v k s) k s = 1 := by
    intro μ v hv'
    have hα : ∀ k s, 0 < (1 - 2 / (N : ℝ) + Real.exp (μ k s) * (∑ k, Real.exp (-μ k s)) / (N : ℝ) ^ 2) / v k s := by
      intro k s
      refine div_pos ?_ (hv' k s)
      have h1 : 0 ≤ 1 - 2 / (N : ℝ) := by rw [sub_nonneg, div_le_one (by linarith)]; exact hm'
      have h2 : 0 < Real.exp (μ k s) * (∑ k, Real.exp (-μ k s)) / (N : ℝ) ^ 2 :=
        div_pos (mul_pos (Real.exp_pos _) (Finset.sum_pos (fun _ _ => Real.exp_pos _) hnec)) (by positivity)
      linarith
    have hS : 0 < ∑ k', ∑ s', (1 - 2 / (N : ℝ) + Real.exp (μ k' s') * (∑ k, Real.exp (-μ k s')) / (N : ℝ) ^ 2) / v k' s' :=
      Finset.sum_pos (fun k _ => Finset.sum_pos (fun s _ => hα k s) hnem) hnec
    refine ⟨fun k s => div_pos (hα k s) hS, ?_⟩
    unfold dirichletPredictive
    simp only [← Finset.sum_div]
    exact div_self hS.ne'
  cases uc
  · exact hgen mean var hv
  · exact hgen (fun k s => mean k s / Real.sqrt ((∑ k, var k s) / Real.sqrt ((N : ℝ) / 2)))
      (fun k s => var k s / ((∑ k, var k s) / Real.sqrt ((N : ℝ) / 2))) (fun k s => div_pos (hv k s) (hcc s))

/-- C33 (partial, 2-D input `[C, m]` with `m ≥ 2`): all entries are positive and the *whole array* sums to one. -/
theorem C33_bridge_total_mass_partial {m : ℕ} (hc : 0 < c) (hm : 2 ≤ m) (mean var : Fin c → Fin m → ℝ) (hv : ∀ k s, 0 < var k s) (uc : Bool) :
    (∀ k s, 0 < laplaceBridgeMat mean var uc k s) ∧ ∑ k, ∑ s, laplaceBridgeMat mean var uc k s = 1 :=
  bridge_blocks_mass hc (by omega) hm mean var hv uc

/-- C33 (consequence): so with two or more columns no single column is a probability vector. -/
theorem C33_bridge_columns_not_probabilities {m : ℕ} (hc : 0 < c) (hm : 2 ≤ m) (mean var : Fin c → Fin m → ℝ)
    (hv : ∀ k s, 0 < var k s) (uc : Bool) (s : Fin m) : ∑ k, laplaceBridgeMat mean var uc k s < 1 := by
  obtain ⟨h1, h2⟩ := C33_bridge_total_mass_partial hc hm mean var hv uc
  rw [Finset.sum_comm] at h2
  rw [← h2]
  have hnec : (Finset.univ : Finset (Fin c)).Nonempty := ⟨⟨0, hc⟩, Finset.mem_univ _⟩
  obtain ⟨s', hs'⟩ : ∃ s' : Fin m, s' ≠ s := by
    by_contra hcon
    push Not at hcon
    have e1 := hcon ⟨0, by omega⟩
    have e2 := hcon ⟨1, by omega⟩
    rw [← e2] at e1
    simp at e1
  refine Finset.single_lt_sum hs' (Finset.mem_univ s) (Finset.mem_univ s') ?_ (fun t _ _ => (Finset.sum_pos (fun k _ => h1 k t) hnec).le)
  exact Finset.sum_pos (fun k _ => h1 k s') hnec

/-- C33: with `C ≥ 1` classes and positive variances the intended bridge is a probability vector (for `C ≥ 2`), … -/
theorem C33_bridge_spec_isProb (hc : 2 ≤ c) (mean var : Vec c) (hv : ∀ k, 0 < var k) : IsProb (bridgeSpec mean var) := by
  have hc' : (2 : ℝ) ≤ c := by exact_mod_cast hc
  have hnec : (Finset.univ : Finset (Fin c)).Nonempty := ⟨⟨0, by omega⟩, Finset.mem_univ _⟩
  have hα : ∀ k, 0 < (1 - 2 / (c : ℝ) + Real.exp (mean k) * (∑ j, Real.exp (-mean j)) / (c : ℝ) ^ 2) / var k := by
    intro k
    refine div_pos ?_ (hv k)
    have h1 : 0 ≤ 1 - 2 / (c : ℝ) := by rw [sub_nonneg, div_le_one (by linarith)]; exact hc'
    have h2 : 0 < Real.exp (mean k) * (∑ j, Real.exp (-mean j)) / (c : ℝ) ^ 2 :=
      div_pos (mul_pos (Real.exp_pos _) (Finset.sum_pos (fun _ _ => Real.exp_pos _) hnec)) (by positivity)
    linarith
  have hS := Finset.sum_pos (fun k _ => hα k) hnec
  refine ⟨fun k => (div_pos (hα k) hS).le, ?_⟩
  unfold bridgeSpec
  simp only [← Finset.sum_div]
  exact div_self hS.ne'

/-- … but `laplace_bridge` on a `[C, 1]` array uses `num_classes = 1` instead of `C` and returns something else: for means
`(0, log 2)` and unit variances `(1/5, 4/5)` instead of `(1/3, 2/3)`. -/
theorem C33_bridge_wrong_class_count :
    bridgeSpec ![0, Real.log 2] ![1, 1] = ![1/3, 2/3] ∧
    laplaceBridgeMat (c := 2) (m := 1) (fun k _ => ![0, Real.log 2] k) (fun _ _ => 1) false = fun k _ => ![1/5, 4/5] k := by
  have e1 : Real.exp (Real.log 2) = 2 := Real.exp_log (by norm_num)
  have e2 : Real.exp (-Real.log 2) = 1 / 2 := by rw [Real.exp_neg, e1]; norm_num
  constructor
  · funext k
    fin_cases k <;> simp [bridgeSpec, e1, e2] <;> norm_num
  · funext k s
    fin_cases k <;> simp [laplaceBridgeMat, laplaceBridgeBlocks, dirichletPredictive, e1, e2] <;> norm_num

/-- Non-vacuity: three classes with a genuine covariance. -/
example : IsProb (meanField0 (c := 3) ![0, 1, 2] ![1, 2, 3]) := (C33_mean_field_0 (by norm_num) _ _).1

end Laplax.Props
