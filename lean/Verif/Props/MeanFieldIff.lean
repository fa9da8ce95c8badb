import Verif.Props.Predictives
import Mathlib.Analysis.SpecialFunctions.Exp
import Mathlib.Topology.Algebra.Order.Field

/-! # C33: exactly when the pairwise mean-field predictives are probability vectors -/

namespace Laplax.Props
open Laplax Laplax.Spec
open scoped BigOperators Topology
open Filter

variable {c : ℕ}

/-- The algebra behind the characterisation: two tied classes and a third one. -/
private theorem three_classes {u w : ℝ} (hu : 0 < u) (hw : 0 < w)
    (h : 1 / (1 + (1 + u)) + (1 / (1 + (1 + w)) + 1 / (u⁻¹ + (w⁻¹ + 1))) = 1) : u = w := by
  field_simp at h
  have : (u - w) ^ 2 = 0 := by nlinarith
  have := pow_eq_zero_iff (two_ne_zero) |>.mp this
  linarith

/-- If the pairwise predictive with symmetric positive scales sums to one for every mean, then the scales of any two classes
against a third one agree. -/
theorem pairwise_scales_eq (s : Fin c → Fin c → ℝ) (hpos : ∀ i j, 0 < s i j) (hsym : ∀ i j, s i j = s j i)
    (h : ∀ m : Vec c, ∑ k, 1 / ∑ j, Real.exp ((m j - m k) / s k j) = 1)
    (a b d : Fin c) (hab : a ≠ b) (had : a ≠ d) (hbd : b ≠ d) : s a d = s b d := by
  classical
  have hS : ∃ S : Finset (Fin c), S = {a, b, d} := ⟨_, rfl⟩
  obtain ⟨S, hS⟩ := hS
  have hμ : ∃ μ : Vec c, μ = fun j => if j = d then -1 else 0 := ⟨_, rfl⟩
  obtain ⟨μ, hμ⟩ := hμ
  have ha : a ∈ S := by simp [hS]
  -- every other class is sent to minus infinity
  have hin : ∀ k ∈ S, ∀ j, Tendsto (fun T : ℝ => Real.exp (((if j ∈ S then μ j else -T) - μ k) / s k j)) atTop
      (𝓝 (if j ∈ S then Real.exp ((μ j - μ k) / s k j) else 0)) := by
    intro k _ j
    by_cases hj : j ∈ S
    · simp only [hj, if_true]; exact tendsto_const_nhds
    · simp only [hj, if_false]
      refine Real.tendsto_exp_atBot.comp ?_
      refine Tendsto.atBot_div_const (hpos k j) ?_
      exact tendsto_atBot_add_const_right _ _ tendsto_neg_atTop_atBot
  have hden : ∀ k ∈ S, 0 < ∑ j, (if j ∈ S then Real.exp ((μ j - μ k) / s k j) else 0) := by
    intro k hk
    refine Finset.sum_pos' (fun j _ => by split_ifs <;> positivity) ⟨k, Finset.mem_univ _, ?_⟩
    simp only [hk, if_true]; positivity
  have hlim : ∀ k, Tendsto (fun T : ℝ => 1 / ∑ j, Real.exp (((if j ∈ S then μ j else -T) - (if k ∈ S then μ k else -T)) / s k j))
      atTop (𝓝 (if k ∈ S then 1 / ∑ j, (if j ∈ S then Real.exp ((μ j - μ k) / s k j) else 0) else 0)) := by
    intro k
    by_cases hk : k ∈ S
    · simp only [hk, if_true]
      exact Tendsto.div tendsto_const_nhds (tendsto_finset_sum _ fun j _ => hin k hk j) (hden k hk).ne'
    · simp only [hk, if_false, one_div]
      refine Tendsto.inv_tendsto_atTop ?_
      refine tendsto_atTop_mono' atTop (f₁ := fun T : ℝ => Real.exp ((μ a + T) / s k a)) ?_ ?_
      · refine Eventually.of_forall fun T => ?_
        have := Finset.single_le_sum (s := Finset.univ)
          (f := fun j => Real.exp (((if j ∈ S then μ j else -T) - -T) / s k j))
          (fun j _ => (Real.exp_pos _).le) (Finset.mem_univ a)
        simpa only [ha, if_true, sub_neg_eq_add] using this
      · refine Real.tendsto_exp_atTop.comp ?_
        refine Tendsto.atTop_div_const (hpos k a) ?_
        exact tendsto_atTop_add_const_left _ _ tendsto_id
  have hsum := tendsto_finset_sum Finset.univ fun k _ => hlim k
  have hone : (∑ k, (if k ∈ S then 1 / ∑ j, (if j ∈ S then Real.exp ((μ j - μ k) / s k j) else 0) else 0)) = 1 := by
    refine tendsto_nhds_unique hsum ?_
    refine tendsto_const_nhds.congr fun T => ?_
    exact (h fun j => if j ∈ S then μ j else -T).symm
  simp only [Finset.sum_ite_mem, Finset.univ_inter] at hone
  have hna : a ∉ ({b, d} : Finset (Fin c)) := by simp [hab, had]
  have hnb : b ∉ ({d} : Finset (Fin c)) := by simp [hbd]
  subst hS hμ
  simp only [Finset.sum_insert hna, Finset.sum_insert hnb, Finset.sum_singleton, if_neg had, if_neg hbd, if_true, sub_self, zero_div,
    Real.exp_zero, sub_zero, zero_sub, neg_neg, neg_zero] at hone
  have e1 : Real.exp (1 / s d a) = (Real.exp (-1 / s a d))⁻¹ := by
    rw [← Real.exp_neg, hsym d a]; congr 1; ring
  have e2 : Real.exp (1 / s d b) = (Real.exp (-1 / s b d))⁻¹ := by
    rw [← Real.exp_neg, hsym d b]; congr 1; ring
  rw [e1, e2] at hone
  have := Real.exp_injective (three_classes (Real.exp_pos _) (Real.exp_pos _) hone)
  have h1 := (hpos a d).ne'
  have h2 := (hpos b d).ne'
  field_simp at this
  linarith

/-- C33: with three or more classes (and non-negative predictive variances) the mean-field-1 predictive sums to one for every
mean **exactly when** all classes have the same predictive variance. -/
theorem C33_mean_field_1_normalised_iff (hc : 3 ≤ c) (var : Vec c) (hv : ∀ k, 0 ≤ var k) :
    (∀ mean, ∑ k, meanField1 mean var k = 1) ↔ ∀ i j, var i = var j := by
  refine ⟨fun h i j => ?_, fun h mean => C33_mean_field_1_sums_to_one_partial (by omega) mean var (Or.inl h)⟩
  by_cases hij : i = j
  · rw [hij]
  obtain ⟨d, hd⟩ : ∃ d : Fin c, d ∉ ({i, j} : Finset (Fin c)) := by
    by_contra hcon
    push Not at hcon
    have := Finset.card_le_card (s := (Finset.univ : Finset (Fin c))) (t := {i, j}) (fun x _ => hcon x)
    have h2 := Finset.card_le_two (a := i) (b := j)
    simp at this
    omega
  simp only [Finset.mem_insert, Finset.mem_singleton, not_or] at hd
  have hl := lambda0_pos
  have hp : ∀ i j, 0 < 1 + lambda0 * (var i + var j) := fun i j => by
    have := hv i; have := hv j; positivity
  have := pairwise_scales_eq (fun i j => Real.sqrt (1 + lambda0 * (var i + var j))) (fun i j => Real.sqrt_pos.mpr (hp i j))
    (fun i j => by simp only [add_comm (var i)]) h i j d hij (Ne.symm hd.1) (Ne.symm hd.2)
  have := (Real.sqrt_inj (hp i d).le (hp j d).le).mp this
  have : lambda0 * (var i - var j) = 0 := by linarith
  rcases mul_eq_zero.mp this with h | h
  · exact absurd h hl.ne'
  · linarith

/-- C33: with three or more classes and a positive semidefinite predictive covariance the mean-field-2 predictive sums to one for
every mean **exactly when** the difference of any two classes has the same variance. -/
theorem C33_mean_field_2_normalised_iff (hc : 3 ≤ c) (cov : Matrix (Fin c) (Fin c) ℝ) (hC : cov.PosSemidef) :
    (∀ mean, ∑ k, meanField2 mean cov k = 1) ↔ ∃ v, ∀ i j, i ≠ j → cov i i + cov j j - 2 * cov i j = v := by
  have hs : ∀ i j, cov i j = cov j i := fun i j => by simpa using hC.isHermitian.apply j i
  have hsym : cov.transpose = cov := by ext i j; rw [Matrix.transpose_apply, hs]
  refine ⟨fun h => ?_, fun h mean => C33_mean_field_2_sums_to_one_partial (by omega) mean cov hsym (Or.inl h)⟩
  have hl := lambda0_pos
  have hp : ∀ i j, 0 < 1 + lambda0 * (cov i i + cov j j - 2 * cov i j) := fun i j => by
    have := C33_mean_field_2_well_defined cov hC i j
    exact Real.sqrt_pos.mp (by linarith)
  have hD : ∀ a b d : Fin c, a ≠ b → a ≠ d → b ≠ d →
      cov a a + cov d d - 2 * cov a d = cov b b + cov d d - 2 * cov b d := by
    intro a b d hab had hbd
    have := pairwise_scales_eq (fun i j => Real.sqrt (1 + lambda0 * (cov i i + cov j j - 2 * cov i j)))
      (fun i j => Real.sqrt_pos.mpr (hp i j)) (fun i j => by simp only [hs i j, add_comm (cov i i)]) h a b d hab had hbd
    have := (Real.sqrt_inj (hp a d).le (hp b d).le).mp this
    have : lambda0 * ((cov a a + cov d d - 2 * cov a d) - (cov b b + cov d d - 2 * cov b d)) = 0 := by linarith
    rcases mul_eq_zero.mp this with h | h
    · exact absurd h hl.ne'
    · linarith
  have hD' : ∀ a b d : Fin c, a ≠ d → b ≠ d → cov a a + cov d d - 2 * cov a d = cov b b + cov d d - 2 * cov b d := by
    intro a b d had hbd
    by_cases hab : a = b
    · rw [hab]
    · exact hD a b d hab had hbd
  have flip : ∀ i j, cov i i + cov j j - 2 * cov i j = cov j j + cov i i - 2 * cov j i := fun i j => by rw [hs i j]; ring
  refine ⟨cov ⟨0, by omega⟩ ⟨0, by omega⟩ + cov ⟨1, by omega⟩ ⟨1, by omega⟩ - 2 * cov ⟨0, by omega⟩ ⟨1, by omega⟩, fun i j hij => ?_⟩
  have h01 : (⟨0, by omega⟩ : Fin c) ≠ ⟨1, by omega⟩ := by simp
  by_cases hj : j = ⟨0, by omega⟩
  · subst hj
    exact (hD' i ⟨1, by omega⟩ _ hij h01.symm).trans (flip _ _)
  · exact (hD' i ⟨0, by omega⟩ j hij (Ne.symm hj)).trans ((flip _ _).trans ((hD' j ⟨1, by omega⟩ _ hj h01.symm).trans (flip _ _)))

/-- Beside the characterisations: a covariance that is *not* a multiple of the identity for which mean-field-2 still is a
probability vector for every mean, since all differences have variance two. -/
example (t : ℝ) (ht : 0 ≤ t) : (Matrix.of fun i j : Fin 3 => (if i = j then (1 : ℝ) else 0) + t).PosSemidef ∧
    ∀ mean, ∑ k, meanField2 mean (Matrix.of fun i j : Fin 3 => (if i = j then (1 : ℝ) else 0) + t) k = 1 := by
  have hC : (Matrix.of fun i j : Fin 3 => (if i = j then (1 : ℝ) else 0) + t).PosSemidef := by
    have : (Matrix.of fun i j : Fin 3 => (if i = j then (1 : ℝ) else 0) + t)
        = 1 + t • Matrix.vecMulVec (fun _ : Fin 3 => (1 : ℝ)) (star fun _ : Fin 3 => (1 : ℝ)) := by
      ext i j; simp [Matrix.one_apply, Matrix.vecMulVec_apply]
    rw [this]
    exact Matrix.PosSemidef.one.add ((Matrix.posSemidef_vecMulVec_self_star _).smul ht)
  refine ⟨hC, (C33_mean_field_2_normalised_iff (by norm_num) _ hC).mpr ⟨2, fun i j hij => ?_⟩⟩
  simp [hij]; ring

end Laplax.Props
