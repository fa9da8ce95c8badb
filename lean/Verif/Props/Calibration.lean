import Verif.Model.Metrics
import Verif.Spec.Metrics
import Mathlib.Data.Rat.Floor
import Mathlib.Data.Real.Archimedean
import Mathlib.Algebra.Order.Floor.Semiring
import Mathlib.Algebra.BigOperators.Field

/-! # C30: expected and maximum calibration error -/

namespace Laplax.Props
open Laplax Laplax.Spec
open scoped BigOperators

theorem digitize_linspace (nb : ℕ) (hnb : 0 < nb) (x : ℝ) (hx : 0 ≤ x) :
    digitize (linspace01 nb) x = min (⌊x * nb⌋₊ + 1) (nb + 1) := by
  have hnb' : (0 : ℝ) < nb := by exact_mod_cast hnb
  have key : ∀ i : Fin (nb + 1), linspace01 nb i ≤ x ↔ i.val < ⌊x * nb⌋₊ + 1 := by
    intro i
    rw [Nat.lt_succ_iff, Nat.le_floor_iff (by positivity), linspace01, div_le_iff₀ hnb']
  unfold digitize
  simp only [key]
  rw [Fin.card_filter_val_lt]
  exact min_comm _ _

theorem digitize_neg (nb : ℕ) (x : ℝ) (hx : x < 0) : digitize (linspace01 nb) x = 0 := by
  unfold digitize
  rw [Finset.card_eq_zero, Finset.filter_eq_empty_iff]
  intro i _ h
  have : (0 : ℝ) ≤ linspace01 nb i := by unfold linspace01; positivity
  linarith

theorem binIndex_eq (nb : ℕ) (hnb : 0 < nb) (x : ℝ) (hx : 0 ≤ x) :
    binIndex nb x = ((min ⌊x * nb⌋₊ (nb - 1) : ℕ) : ℤ) := by
  unfold binIndex clip
  rw [digitize_linspace nb hnb x hx]
  omega

/-- C30: for a confidence in `[0,1]` the bin index selects exactly the bin interval containing it. -/
theorem C30_bin_of_confidence (nb : ℕ) (hnb : 0 < nb) (x : ℝ) (h0 : 0 ≤ x) (h1 : x ≤ 1) (b : ℕ) :
    binIndex nb x = b ↔ b < nb ∧ InBin nb b x := by
  have hnb' : (0 : ℝ) < nb := by exact_mod_cast hnb
  rw [binIndex_eq nb hnb x h0]
  have hfl : ⌊x * nb⌋₊ ≤ nb := by
    apply Nat.floor_le_of_le
    nlinarith
  have e1 : ∀ m : ℕ, (m : ℝ) / nb ≤ x ↔ m ≤ ⌊x * nb⌋₊ := by
    intro m; rw [Nat.le_floor_iff (by positivity), div_le_iff₀ hnb']
  have e2 : x < ((b : ℝ) + 1) / nb ↔ ⌊x * nb⌋₊ < b + 1 := by
    have := e1 (b + 1)
    push_cast at this
    rw [← not_le, this, not_le]
  unfold InBin
  rw [e1, e2]
  constructor
  · intro h
    have h' : min ⌊x * ↑nb⌋₊ (nb - 1) = b := by exact_mod_cast h
    refine ⟨by omega, by omega, ?_⟩
    by_cases hb : ⌊x * (nb:ℝ)⌋₊ < b + 1
    · exact Or.inl hb
    · exact Or.inr ⟨by omega, h1⟩
  · rintro ⟨hb, h2, h3 | ⟨h3, _⟩⟩ <;> norm_cast <;> omega

/-- C30: the bins partition `[0,1]`: every confidence is in exactly one. -/
theorem C30_bins_partition (nb : ℕ) (hnb : 0 < nb) (x : ℝ) (h0 : 0 ≤ x) (h1 : x ≤ 1) :
    ∃! b, b < nb ∧ InBin nb b x := by
  refine ⟨min ⌊x * nb⌋₊ (nb - 1), (C30_bin_of_confidence nb hnb x h0 h1 _).1 (binIndex_eq nb hnb x h0), ?_⟩
  intro b hb
  have := (C30_bin_of_confidence nb hnb x h0 h1 b).2 hb
  rw [binIndex_eq nb hnb x h0] at this
  exact_mod_cast this.symm

/-- C30: confidences outside `[0,1]` are not lost: they are counted in the first or the last bin. -/
theorem C30_out_of_range_clipped (nb : ℕ) (hnb : 0 < nb) (x : ℝ) :
    (x < 0 → binIndex nb x = 0) ∧ (1 ≤ x → binIndex nb x = (nb : ℤ) - 1) := by
  have hnb' : (0 : ℝ) < nb := by exact_mod_cast hnb
  refine ⟨fun h => ?_, fun h => ?_⟩
  · unfold binIndex clip; rw [digitize_neg nb x h]; omega
  · rw [binIndex_eq nb hnb x (by linarith)]
    have : nb ≤ ⌊x * nb⌋₊ := Nat.le_floor (by nlinarith)
    omega

section
variable {n nb : ℕ} (conf corr : Vec n)

theorem scatter_eq (hnb : 0 < nb) (hc : ∀ i, 0 ≤ conf i ∧ conf i ≤ 1) (v : Vec n) (b : Fin nb) :
    scatterAdd (nb := nb) (fun i => binIndex nb (conf i)) v b = ∑ i ∈ bin nb conf b, v i := by
  unfold scatterAdd bin
  rw [Finset.sum_filter]
  refine Finset.sum_congr rfl fun i _ => ?_
  have := C30_bin_of_confidence nb hnb (conf i) (hc i).1 (hc i).2 b
  have h2 : binIndex nb (conf i) = (b.val : ℤ) ↔ InBin nb b (conf i) := this.trans (and_iff_right b.isLt)
  by_cases h : InBin nb b (conf i)
  · rw [if_pos (h2.2 h), if_pos h]
  · rw [if_neg (fun h' => h (h2.1 h')), if_neg h]

theorem scatter_one (hnb : 0 < nb) (hc : ∀ i, 0 ≤ conf i ∧ conf i ≤ 1) (b : Fin nb) :
    scatterAdd (nb := nb) (fun i => binIndex nb (conf i)) (fun _ => 1) b = ((bin nb conf b).card : ℝ) := by
  rw [scatter_eq conf hnb hc]; simp

theorem bin_card_sum (hnb : 0 < nb) (hc : ∀ i, 0 ≤ conf i ∧ conf i ≤ 1) :
    ∑ b : Fin nb, ((bin nb conf b).card : ℝ) = n := by
  have h : ∑ b : Fin nb, scatterAdd (nb := nb) (fun i => binIndex nb (conf i)) (fun _ => (1 : ℝ)) b = n := by
    unfold scatterAdd
    rw [Finset.sum_comm]
    have : ∀ i : Fin n, ∑ b : Fin nb, (if binIndex nb (conf i) = (b.val : ℤ) then (1 : ℝ) else 0) = 1 := by
      intro i
      rw [binIndex_eq nb hnb _ (hc i).1]
      rw [Finset.sum_eq_single ⟨min ⌊conf i * nb⌋₊ (nb - 1), by omega⟩]
      · simp
      · intro b _ hb
        rw [if_neg]
        intro h
        exact hb (Fin.ext (by simp only; exact_mod_cast h.symm))
      · simp
    simp [this]
  rw [← h]
  exact Finset.sum_congr rfl fun b _ => (scatter_one conf hnb hc b).symm

/-- C30: `calculate_bin_metrics` returns, per bin, the share of the samples, their mean confidence and their mean correctness
(0 for empty bins). -/
theorem C30_bin_metrics (hnb : 0 < nb) (hc : ∀ i, 0 ≤ conf i ∧ conf i ≤ 1) (b : Fin nb) :
    (calculateBinMetrics nb conf corr).1 b = ((bin nb conf b).card : ℝ) / n ∧
    (calculateBinMetrics nb conf corr).2.1 b = avg (bin nb conf b) conf ∧
    (calculateBinMetrics nb conf corr).2.2 b = avg (bin nb conf b) corr := by
  simp only [calculateBinMetrics, scatter_one conf hnb hc, bin_card_sum conf hnb hc, scatter_eq conf hnb hc, avg]
  refine ⟨trivial, ?_, ?_⟩ <;>
  · split_ifs with h
    · rfl
    · have : (bin nb conf b).card = 0 := by
        have : ¬ 0 < (bin nb conf b).card := by exact_mod_cast h
        omega
      simp [this]

/-- C30: proportions are non-negative and sum to one. -/
theorem C30_proportions (hn : 0 < n) (hnb : 0 < nb) (hc : ∀ i, 0 ≤ conf i ∧ conf i ≤ 1) :
    (∀ b, 0 ≤ (calculateBinMetrics nb conf corr).1 b) ∧ ∑ b, (calculateBinMetrics nb conf corr).1 b = 1 := by
  have hn' : (n : ℝ) ≠ 0 := by positivity
  refine ⟨fun b => ?_, ?_⟩
  · rw [(C30_bin_metrics conf corr hnb hc b).1]; positivity
  · rw [Finset.sum_congr rfl fun b _ => (C30_bin_metrics conf corr hnb hc b).1, ← Finset.sum_div,
      bin_card_sum conf hnb hc, div_self hn']

/-- C30: the expected calibration error is the proportion-weighted mean gap. -/
theorem C30_ece_value (hnb : 0 < nb) (hc : ∀ i, 0 ≤ conf i ∧ conf i ≤ 1) :
    expectedCalibrationError conf corr nb = .ok (ece nb conf corr) := by
  unfold expectedCalibrationError calibrationError
  simp only [ece]
  rw [Finset.sum_range]
  congr 1
  refine Finset.sum_congr rfl fun b _ => ?_
  obtain ⟨h1, h2, h3⟩ := C30_bin_metrics conf corr hnb hc b
  rw [h1, h2, h3, gap]

/-- C30: the maximum calibration error is the largest gap over the non-empty bins. -/
theorem C30_mce_value (hn : 0 < n) (hnb : 0 < nb) (hc : ∀ i, 0 ≤ conf i ∧ conf i ≤ 1) :
    ∃ m, maximumCalibrationError conf corr nb = .ok m ∧
      IsGreatest {g | ∃ b < nb, (bin nb conf b).Nonempty ∧ g = gap nb conf corr b} m := by
  unfold maximumCalibrationError calibrationError arrMax
  simp only [hnb, dif_pos]
  set f : Vec nb := fun b => |(calculateBinMetrics nb conf corr).2.2 b - (calculateBinMetrics nb conf corr).2.1 b| with hf
  have hfb : ∀ b : Fin nb, f b = gap nb conf corr b := by
    intro b
    obtain ⟨h1, h2, h3⟩ := C30_bin_metrics conf corr hnb hc b
    simp only [hf, h2, h3, gap]
  refine ⟨_, rfl, ?_, ?_⟩
  · obtain ⟨b, -, hb⟩ := Finset.exists_mem_eq_sup' (s := Finset.univ) ⟨⟨0, hnb⟩, Finset.mem_univ _⟩ f
    by_cases hne : (bin nb conf b).Nonempty
    · exact ⟨b, b.isLt, hne, by rw [hb, hfb]⟩
    · have hz : f b = 0 := by
        rw [hfb, gap, Finset.not_nonempty_iff_eq_empty.1 hne]; simp [avg]
      obtain ⟨b', hb', hin⟩ := (C30_bins_partition nb hnb (conf ⟨0, hn⟩) (hc _).1 (hc _).2).exists
      have hne' : (bin nb conf b').Nonempty := ⟨⟨0, hn⟩, by simp [bin, hin]⟩
      refine ⟨b', hb', hne', le_antisymm ?_ ?_⟩
      · rw [hb, hz]; exact abs_nonneg _
      · rw [← hfb ⟨b', hb'⟩]; exact Finset.le_sup' f (Finset.mem_univ _)
  · rintro g ⟨b, hb, -, rfl⟩
    rw [← hfb ⟨b, hb⟩]
    exact Finset.le_sup' f (Finset.mem_univ _)

theorem avg_mem (B : Finset (Fin n)) (v : Vec n) (hv : ∀ i, 0 ≤ v i ∧ v i ≤ 1) : 0 ≤ avg B v ∧ avg B v ≤ 1 := by
  unfold avg
  refine ⟨div_nonneg (Finset.sum_nonneg fun i _ => (hv i).1) (by positivity), ?_⟩
  apply div_le_one_of_le₀ _ (by positivity)
  calc ∑ i ∈ B, v i ≤ ∑ i ∈ B, (1 : ℝ) := Finset.sum_le_sum fun i _ => (hv i).2
    _ = B.card := by simp

/-- C30: `0 ≤ ECE ≤ MCE ≤ 1` for confidences and correctness in `[0,1]`. -/
theorem C30_range (hn : 0 < n) (hnb : 0 < nb) (hc : ∀ i, 0 ≤ conf i ∧ conf i ≤ 1) (hr : ∀ i, 0 ≤ corr i ∧ corr i ≤ 1) :
    ∃ e m, expectedCalibrationError conf corr nb = .ok e ∧ maximumCalibrationError conf corr nb = .ok m ∧
      0 ≤ e ∧ e ≤ m ∧ m ≤ 1 := by
  obtain ⟨m, hm, ⟨b0, -, -, hb0⟩, hmax⟩ := C30_mce_value conf corr hn hnb hc
  refine ⟨_, m, C30_ece_value conf corr hnb hc, hm, ?_, ?_, ?_⟩
  · exact Finset.sum_nonneg fun b _ => mul_nonneg (by positivity) (abs_nonneg _)
  · have hn' : (0 : ℝ) < n := by exact_mod_cast hn
    have h1 : ∀ b ∈ Finset.range nb, ((bin nb conf b).card : ℝ) / n * gap nb conf corr b ≤ ((bin nb conf b).card : ℝ) / n * m := by
      intro b hb
      by_cases hne : (bin nb conf b).Nonempty
      · exact mul_le_mul_of_nonneg_left (hmax ⟨b, Finset.mem_range.1 hb, hne, rfl⟩) (by positivity)
      · rw [Finset.not_nonempty_iff_eq_empty.1 hne]; simp
    refine (Finset.sum_le_sum h1).trans ?_
    rw [← Finset.sum_mul, ← Finset.sum_div, Finset.sum_range, bin_card_sum conf hnb hc, div_self hn'.ne', one_mul]
  · rw [hb0, gap, abs_le]
    have := avg_mem (bin nb conf b0) corr hr
    have := avg_mem (bin nb conf b0) conf hc
    constructor <;> linarith

/-- C30: the expected calibration error bounds the overall gap between accuracy and mean confidence, so a zero ECE means the
model is calibrated on average. -/
theorem C30_ece_bounds_overall_gap (hn : 0 < n) (hnb : 0 < nb) (hc : ∀ i, 0 ≤ conf i ∧ conf i ≤ 1) :
    ∃ e, expectedCalibrationError conf corr nb = .ok e ∧ |(∑ i, corr i) / n - (∑ i, conf i) / n| ≤ e := by
  refine ⟨_, C30_ece_value conf corr hnb hc, ?_⟩
  have hn' : (0 : ℝ) < n := by exact_mod_cast hn
  have hsum : ∀ v : Vec n, ∑ i, v i = ∑ b ∈ Finset.range nb, ∑ i ∈ bin nb conf b, v i := by
    intro v
    rw [Finset.sum_range]
    rw [← Finset.sum_congr rfl fun b _ => scatter_eq conf hnb hc v b]
    unfold scatterAdd
    rw [Finset.sum_comm]
    refine Finset.sum_congr rfl fun i _ => ?_
    simp only [binIndex_eq nb hnb _ (hc i).1]
    rw [Finset.sum_eq_single ⟨min ⌊conf i * nb⌋₊ (nb - 1), by omega⟩]
    · simp
    · intro b _ hb
      rw [if_neg]
      intro h
      exact hb (Fin.ext (by simp only; exact_mod_cast h.symm))
    · simp
  have hb : ∀ b ∈ Finset.range nb, |(∑ i ∈ bin nb conf b, corr i) / n - (∑ i ∈ bin nb conf b, conf i) / n|
      = ((bin nb conf b).card : ℝ) / n * gap nb conf corr b := by
    intro b _
    by_cases hz : ((bin nb conf b).card : ℝ) = 0
    · have : bin nb conf b = ∅ := Finset.card_eq_zero.1 (by exact_mod_cast hz)
      simp [this]
    · have hpos : (0 : ℝ) ≤ ((bin nb conf b).card : ℝ) / n := by positivity
      rw [gap, avg, avg, ← abs_of_nonneg hpos, ← abs_mul]
      congr 1
      field_simp
  rw [hsum corr, hsum conf, Finset.sum_div, Finset.sum_div, ← Finset.sum_sub_distrib, ece]
  exact (Finset.abs_sum_le_sum_abs _ _).trans (Finset.sum_le_sum fun b hb' => (hb b hb').le)

end

/-- C30: the MCE of zero bins raises (empty maximum). -/
theorem C30_zero_bins {n : ℕ} (conf corr : Vec n) : maximumCalibrationError conf corr 0 = .error .valueError := by
  simp [maximumCalibrationError, calibrationError, arrMax]

/-- Non-vacuity: three samples (one on a bin edge, one at confidence 1) and two bins. -/
example : ∃ e, expectedCalibrationError (n := 3) ![1/4, 1/2, 1] ![1, 0, 1] 2 = .ok e ∧ 0 ≤ e := by
  have hc : ∀ i, (0 : ℝ) ≤ (![1/4, 1/2, 1] : Vec 3) i ∧ (![1/4, 1/2, 1] : Vec 3) i ≤ 1 := by
    intro i; fin_cases i <;> norm_num
  have hr : ∀ i, (0 : ℝ) ≤ (![1, 0, 1] : Vec 3) i ∧ (![1, 0, 1] : Vec 3) i ≤ 1 := by
    intro i; fin_cases i <;> norm_num
  obtain ⟨e, m, h1, -, h2, -⟩ := C30_range (nb := 2) _ _ (by norm_num) (by norm_num) hc hr
  exact ⟨e, h1, h2⟩

end Laplax.Props
