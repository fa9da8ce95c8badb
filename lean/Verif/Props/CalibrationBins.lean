import Verif.Props.Calibration
import Verif.Props.DataOrder
import Mathlib.Algebra.Order.Floor.Semifield

/-! # C80: the calibration errors under refinement, label noise and pooling of data sets -/

namespace Laplax.Props
open Laplax Laplax.Spec
open scoped BigOperators

variable {n nb : ℕ}

/-- The number of the bin. -/
noncomputable def binNat (nb : ℕ) (x : ℝ) : ℕ := min ⌊x * nb⌋₊ (nb - 1)

theorem binNat_lt (hnb : 0 < nb) (x : ℝ) : binNat nb x < nb := by unfold binNat; omega

theorem mem_bin (hnb : 0 < nb) {conf : Vec n} (hc : ∀ i, 0 ≤ conf i ∧ conf i ≤ 1) {b : ℕ} (hb : b < nb) (i : Fin n) :
    i ∈ bin nb conf b ↔ binNat nb (conf i) = b := by
  have := C30_bin_of_confidence nb hnb (conf i) (hc i).1 (hc i).2 b
  rw [binIndex_eq nb hnb _ (hc i).1] at this
  simp only [bin, Finset.mem_filter, Finset.mem_univ, true_and]
  rw [and_iff_right hb] at this
  rw [← this, binNat]
  norm_cast

/-- The error as a sum of absolute values of sums. -/
theorem ece_sum (conf corr : Vec n) :
    ece nb conf corr = (∑ b ∈ Finset.range nb, |∑ i ∈ bin nb conf b, (corr i - conf i)|) / n := by
  rw [ece, Finset.sum_div]
  refine Finset.sum_congr rfl fun b _ => ?_
  by_cases hz : ((bin nb conf b).card : ℝ) = 0
  · have : bin nb conf b = ∅ := Finset.card_eq_zero.1 (by exact_mod_cast hz)
    simp [this]
  · have hpos : (0 : ℝ) < (bin nb conf b).card := lt_of_le_of_ne (by positivity) (Ne.symm hz)
    rw [gap, avg, avg, ← sub_div, abs_div, abs_of_pos hpos, Finset.sum_sub_distrib]
    field_simp

theorem gap_sum (conf corr : Vec n) (b : ℕ) :
    gap nb conf corr b * (bin nb conf b).card = |∑ i ∈ bin nb conf b, (corr i - conf i)| := by
  by_cases hz : ((bin nb conf b).card : ℝ) = 0
  · have : bin nb conf b = ∅ := Finset.card_eq_zero.1 (by exact_mod_cast hz)
    simp [this]
  · have hpos : (0 : ℝ) < (bin nb conf b).card := lt_of_le_of_ne (by positivity) (Ne.symm hz)
    rw [gap, avg, avg, ← sub_div, abs_div, abs_of_pos hpos, Finset.sum_sub_distrib]
    field_simp

theorem binNat_mul (m : ℕ) (hm : 0 < m) (hnb : 0 < nb) {x : ℝ} (h0 : 0 ≤ x) : binNat nb x = binNat (m * nb) x / m := by
  have hm' : (m : ℝ) ≠ 0 := by exact_mod_cast hm.ne'
  have h1 : ⌊x * nb⌋₊ = ⌊x * (m * nb : ℕ)⌋₊ / m := by
    rw [← Nat.floor_div_natCast]
    congr 1
    push_cast
    field_simp
  have h2 : (m * nb - 1) / m = nb - 1 := by
    obtain ⟨k, rfl⟩ : ∃ k, nb = k + 1 := ⟨nb - 1, by omega⟩
    rw [show m * (k + 1) - 1 = (m - 1) + m * k by rw [Nat.mul_add, Nat.mul_one]; omega, Nat.add_mul_div_left _ _ hm,
      Nat.div_eq_of_lt (by omega)]
    omega
  have hmono : Monotone fun a : ℕ => a / m := fun a b h => Nat.div_le_div_right h
  rw [binNat, binNat, h1, ← h2]
  exact (hmono.map_min).symm

/-- A coarse bin is the union of its fine bins. -/
theorem coarse_sum (m : ℕ) (hm : 0 < m) (hnb : 0 < nb) {conf : Vec n} (hc : ∀ i, 0 ≤ conf i ∧ conf i ≤ 1) {b : ℕ} (hb : b < nb) (d : Vec n) :
    ∑ i ∈ bin nb conf b, d i = ∑ b' ∈ Finset.range (m * nb), if b' / m = b then ∑ i ∈ bin (m * nb) conf b', d i else 0 := by
  have hN : 0 < m * nb := Nat.mul_pos hm hnb
  have e1 : ∑ i ∈ bin nb conf b, d i = ∑ i, if binNat nb (conf i) = b then d i else 0 := by
    rw [← Finset.sum_filter]
    congr 1
    ext i
    rw [mem_bin hnb hc hb]; simp
  have e2 : ∀ b' ∈ Finset.range (m * nb), (if b' / m = b then ∑ i ∈ bin (m * nb) conf b', d i else 0) =
      ∑ i, if binNat (m * nb) (conf i) = b' then (if b' / m = b then d i else 0) else 0 := by
    intro b' hb'
    have : ∑ i ∈ bin (m * nb) conf b', d i = ∑ i, if binNat (m * nb) (conf i) = b' then d i else 0 := by
      rw [← Finset.sum_filter]
      congr 1
      ext i
      rw [mem_bin hN hc (Finset.mem_range.1 hb')]; simp
    by_cases h : b' / m = b
    · simp only [if_pos h, this]
    · simp only [if_neg h, ite_self, Finset.sum_const_zero]
  rw [e1, Finset.sum_congr rfl e2, Finset.sum_comm]
  refine Finset.sum_congr rfl fun i _ => ?_
  rw [Finset.sum_ite_eq, if_pos (Finset.mem_range.2 (binNat_lt hN _)), binNat_mul m hm hnb (hc i).1]

/-- **C80 (refinement).** Splitting every bin into `m` equal bins never decreases the expected or the maximum calibration error, and with any number of
bins the expected calibration error is at most the mean absolute difference of correctness and confidence. -/
theorem C80_refinement (m : ℕ) (hm : 0 < m) (hn : 0 < n) (hnb : 0 < nb) (conf corr : Vec n) (hc : ∀ i, 0 ≤ conf i ∧ conf i ≤ 1) :
    ∃ e e' M M', expectedCalibrationError conf corr nb = .ok e ∧ expectedCalibrationError conf corr (m * nb) = .ok e' ∧
      maximumCalibrationError conf corr nb = .ok M ∧ maximumCalibrationError conf corr (m * nb) = .ok M' ∧
      e ≤ e' ∧ M ≤ M' ∧ e' ≤ (∑ i, |corr i - conf i|) / n := by
  have hN : 0 < m * nb := Nat.mul_pos hm hnb
  have hn' : (0 : ℝ) < n := by exact_mod_cast hn
  obtain ⟨M, hM, ⟨b0, hb0, hne0, hM0⟩, -⟩ := C30_mce_value conf corr hn hnb hc
  obtain ⟨M', hM', -, hmax⟩ := C30_mce_value conf corr hn hN hc
  refine ⟨_, _, M, M', C30_ece_value conf corr hnb hc, C30_ece_value conf corr hN hc, hM, hM', ?_, ?_, ?_⟩
  · rw [ece_sum, ece_sum]
    refine div_le_div_of_nonneg_right ?_ hn'.le
    have h1 : ∀ b ∈ Finset.range nb, |∑ i ∈ bin nb conf b, (corr i - conf i)| ≤
        ∑ b' ∈ Finset.range (m * nb), if b' / m = b then |∑ i ∈ bin (m * nb) conf b', (corr i - conf i)| else 0 := by
      intro b hb
      rw [coarse_sum m hm hnb hc (Finset.mem_range.1 hb)]
      refine (Finset.abs_sum_le_sum_abs _ _).trans (Finset.sum_le_sum fun b' _ => ?_)
      split_ifs
      · exact le_rfl
      · simp
    refine (Finset.sum_le_sum h1).trans ?_
    rw [Finset.sum_comm]
    refine Finset.sum_le_sum fun b' _ => ?_
    rw [Finset.sum_ite_eq]
    split_ifs
    · exact le_rfl
    · exact abs_nonneg _
  · have hpos : (0 : ℝ) < (bin nb conf b0).card := by exact_mod_cast hne0.card_pos
    rw [hM0, ← mul_le_mul_iff_left₀ hpos, gap_sum, coarse_sum m hm hnb hc hb0]
    have hcard : ((bin nb conf b0).card : ℝ) =
        ∑ b' ∈ Finset.range (m * nb), if b' / m = b0 then ((bin (m * nb) conf b').card : ℝ) else 0 := by
      have := coarse_sum m hm hnb hc hb0 fun _ => 1
      simpa using this
    rw [hcard, Finset.mul_sum]
    refine (Finset.abs_sum_le_sum_abs _ _).trans (Finset.sum_le_sum fun b' hb' => ?_)
    split_ifs
    · rw [← gap_sum]
      by_cases hne : (bin (m * nb) conf b').Nonempty
      · exact mul_le_mul_of_nonneg_right (hmax ⟨b', Finset.mem_range.1 hb', hne, rfl⟩) (by positivity)
      · rw [Finset.not_nonempty_iff_eq_empty.1 hne]; simp
    · simp
  · rw [ece_sum]
    refine div_le_div_of_nonneg_right ?_ hn'.le
    have h1 : ∀ b ∈ Finset.range (m * nb), |∑ i ∈ bin (m * nb) conf b, (corr i - conf i)| ≤
        ∑ i, if binNat (m * nb) (conf i) = b then |corr i - conf i| else 0 := by
      intro b hb
      refine (Finset.abs_sum_le_sum_abs _ _).trans_eq ?_
      rw [← Finset.sum_filter]
      congr 1
      ext i
      rw [mem_bin hN hc (Finset.mem_range.1 hb)]; simp
    refine (Finset.sum_le_sum h1).trans ?_
    rw [Finset.sum_comm]
    refine Finset.sum_le_sum fun i _ => ?_
    rw [Finset.sum_ite_eq, if_pos (Finset.mem_range.2 (binNat_lt hN _))]

/-- **C80 (other numbers of bins).** Without divisibility there is no order: two samples that are as miscalibrated as can be (confident where wrong, doubtful
where right) have expected calibration error 3/5 with two bins and 0 with three. -/
theorem C80_more_bins_can_hide_errors :
    expectedCalibrationError (n := 2) ![2/5, 3/5] ![1, 0] 2 = .ok (3/5) ∧ expectedCalibrationError (n := 2) ![2/5, 3/5] ![1, 0] 3 = .ok 0 := by
  have hc : ∀ i, (0 : ℝ) ≤ (![2/5, 3/5] : Vec 2) i ∧ (![2/5, 3/5] : Vec 2) i ≤ 1 := by
    intro i; fin_cases i <;> norm_num
  have hs : ∀ {k : ℕ} (hk : 0 < k) (b : ℕ), b < k → ∑ i ∈ bin k (![2/5, 3/5] : Vec 2) b, ((![1, 0] : Vec 2) i - (![2/5, 3/5] : Vec 2) i) =
      (if binNat k (2/5) = b then 3/5 else 0) + if binNat k (3/5) = b then -(3/5) else 0 := by
    intro k hk b hb
    have : bin k (![2/5, 3/5] : Vec 2) b = Finset.univ.filter fun i => binNat k ((![2/5, 3/5] : Vec 2) i) = b := by
      ext i; rw [mem_bin hk hc hb]; simp
    rw [this, Finset.sum_filter, Fin.sum_univ_two]
    simp
    norm_num
  have f1 : ⌊(2/5 : ℝ) * (2 : ℕ)⌋₊ = 0 := by rw [Nat.floor_eq_iff (by norm_num)]; norm_num
  have f2 : ⌊(3/5 : ℝ) * (2 : ℕ)⌋₊ = 1 := by rw [Nat.floor_eq_iff (by norm_num)]; norm_num
  have f3 : ⌊(2/5 : ℝ) * (3 : ℕ)⌋₊ = 1 := by rw [Nat.floor_eq_iff (by norm_num)]; norm_num
  have f4 : ⌊(3/5 : ℝ) * (3 : ℕ)⌋₊ = 1 := by rw [Nat.floor_eq_iff (by norm_num)]; norm_num
  have b1 : binNat 2 (2/5) = 0 := by rw [binNat, f1]; rfl
  have b2 : binNat 2 (3/5) = 1 := by rw [binNat, f2]; rfl
  have b3 : binNat 3 (2/5) = 1 := by rw [binNat, f3]; rfl
  have b4 : binNat 3 (3/5) = 1 := by rw [binNat, f4]; rfl
  constructor
  · rw [C30_ece_value _ _ (by norm_num) hc, ece_sum]
    simp only [Finset.sum_range_succ, Finset.sum_range_zero, hs (k := 2) (by norm_num) 0 (by norm_num), hs (k := 2) (by norm_num) 1 (by norm_num), b1, b2]
    norm_num [abs_of_pos]
  · rw [C30_ece_value _ _ (by norm_num) hc, ece_sum]
    simp only [Finset.sum_range_succ, Finset.sum_range_zero, hs (k := 3) (by norm_num) 0 (by norm_num), hs (k := 3) (by norm_num) 1 (by norm_num), hs (k := 3) (by norm_num) 2 (by norm_num), b3, b4]
    norm_num

/-- **C80 (label noise).** Changing the correctness of some samples changes the expected calibration error by at most the mean absolute change, so `k` wrong
labels among `n` change it by at most `k/n`. -/
theorem C80_label_noise (hn : 0 < n) (hnb : 0 < nb) (conf corr corr' : Vec n) (hc : ∀ i, 0 ≤ conf i ∧ conf i ≤ 1) :
    ∃ e e', expectedCalibrationError conf corr nb = .ok e ∧ expectedCalibrationError conf corr' nb = .ok e' ∧
      |e - e'| ≤ (∑ i, |corr i - corr' i|) / n ∧
      ((∀ i, corr i = 0 ∨ corr i = 1) → (∀ i, corr' i = 0 ∨ corr' i = 1) →
        |e - e'| ≤ ((Finset.univ.filter fun i => corr i ≠ corr' i).card : ℝ) / n) := by
  have hn' : (0 : ℝ) < n := by exact_mod_cast hn
  have key : |ece nb conf corr - ece nb conf corr'| ≤ (∑ i, |corr i - corr' i|) / n := by
    rw [ece_sum, ece_sum, ← sub_div, abs_div, abs_of_pos hn', ← Finset.sum_sub_distrib]
    refine div_le_div_of_nonneg_right ?_ hn'.le
    refine (Finset.abs_sum_le_sum_abs _ _).trans ?_
    have h1 : ∀ b ∈ Finset.range nb, |(|∑ i ∈ bin nb conf b, (corr i - conf i)| - |∑ i ∈ bin nb conf b, (corr' i - conf i)|)| ≤
        ∑ i, if binNat nb (conf i) = b then |corr i - corr' i| else 0 := by
      intro b hb
      refine (abs_abs_sub_abs_le_abs_sub _ _).trans ?_
      rw [← Finset.sum_sub_distrib]
      refine (Finset.abs_sum_le_sum_abs _ _).trans_eq ?_
      rw [← Finset.sum_filter]
      have : bin nb conf b = Finset.univ.filter fun i => binNat nb (conf i) = b := by
        ext i; rw [mem_bin hnb hc (Finset.mem_range.1 hb)]; simp
      rw [this]
      exact Finset.sum_congr rfl fun i _ => by rw [sub_sub_sub_cancel_right]
    refine (Finset.sum_le_sum h1).trans ?_
    rw [Finset.sum_comm]
    refine Finset.sum_le_sum fun i _ => ?_
    rw [Finset.sum_ite_eq, if_pos (Finset.mem_range.2 (binNat_lt hnb _))]
  refine ⟨_, _, C30_ece_value conf corr hnb hc, C30_ece_value conf corr' hnb hc, key, fun h h' => key.trans (le_of_eq ?_)⟩
  congr 1
  rw [Finset.card_filter]
  push_cast
  refine Finset.sum_congr rfl fun i _ => ?_
  rcases h i with e | e <;> rcases h' i with e' | e' <;> rw [e, e'] <;> norm_num

/-- **C80 (pooling).** The expected calibration error of two data sets together is at most the average of their errors weighted by their sizes: evaluating in
batches and averaging never reports a smaller error than evaluating all points at once. -/
theorem C80_pooling {n' : ℕ} (hn : 0 < n) (hn' : 0 < n') (hnb : 0 < nb) (conf corr : Vec n) (conf' corr' : Vec n')
    (hc : ∀ i, 0 ≤ conf i ∧ conf i ≤ 1) (hc' : ∀ i, 0 ≤ conf' i ∧ conf' i ≤ 1) :
    ∃ e e' e'', expectedCalibrationError conf corr nb = .ok e ∧ expectedCalibrationError conf' corr' nb = .ok e' ∧
      expectedCalibrationError (n := n + n') (Fin.append conf conf') (Fin.append corr corr') nb = .ok e'' ∧
      ((n : ℝ) + n') * e'' ≤ n * e + n' * e' := by
  have hcc : ∀ i, 0 ≤ Fin.append conf conf' i ∧ Fin.append conf conf' i ≤ 1 := by
    intro i
    induction i using Fin.addCases with
    | left i => rw [Fin.append_left]; exact hc i
    | right i => rw [Fin.append_right]; exact hc' i
  have p1 : (0 : ℝ) < n := by exact_mod_cast hn
  have p2 : (0 : ℝ) < n' := by exact_mod_cast hn'
  refine ⟨_, _, _, C30_ece_value conf corr hnb hc, C30_ece_value conf' corr' hnb hc', C30_ece_value _ _ hnb hcc, ?_⟩
  rw [ece_sum, ece_sum, ece_sum, mul_div_cancel₀ _ p1.ne', mul_div_cancel₀ _ p2.ne', Nat.cast_add, mul_div_cancel₀ _ (by positivity),
    ← Finset.sum_add_distrib]
  refine Finset.sum_le_sum fun b hb => ?_
  have e : ∑ i ∈ bin nb (Fin.append conf conf') b, (Fin.append corr corr' i - Fin.append conf conf' i) =
      ∑ i ∈ bin nb conf b, (corr i - conf i) + ∑ i ∈ bin nb conf' b, (corr' i - conf' i) := by
    simp only [bin, Finset.sum_filter]
    rw [Fin.sum_univ_add]
    congr 1
    · exact Finset.sum_congr rfl fun i _ => by rw [Fin.append_left, Fin.append_left]
    · exact Finset.sum_congr rfl fun i _ => by rw [Fin.append_right, Fin.append_right]
  rw [e]
  exact abs_add_le _ _

/-- **C80 (order and duplicates).** Listing the samples in another order, or each of them equally often, changes neither error. -/
theorem C80_order_and_duplicates {m n' : ℕ} {π : Fin n' → Fin n} (h : EachTimes m π) (hm : 0 < m) (hn : 0 < n) (hnb : 0 < nb) (conf corr : Vec n)
    (hc : ∀ i, 0 ≤ conf i ∧ conf i ≤ 1) :
    (∃ e, expectedCalibrationError conf corr nb = .ok e ∧ expectedCalibrationError (fun j => conf (π j)) (fun j => corr (π j)) nb = .ok e) ∧
    ∃ M, maximumCalibrationError conf corr nb = .ok M ∧ maximumCalibrationError (fun j => conf (π j)) (fun j => corr (π j)) nb = .ok M := by
  have hc' : ∀ j, 0 ≤ conf (π j) ∧ conf (π j) ≤ 1 := fun j => hc _
  refine ⟨⟨_, C30_ece_value conf corr hnb hc, ?_⟩, ?_⟩
  · rw [C30_ece_value _ _ hnb hc']
    exact congrArg _ (ece_eachTimes h hm nb conf corr)
  · obtain ⟨M, a1, a2⟩ := C30_mce_value conf corr hn hnb hc
    obtain ⟨M', b1, b2⟩ := C30_mce_value (fun j => conf (π j)) (fun j => corr (π j)) (pos_eachTimes h hm hn) hnb hc'
    have hm' : (m : ℝ) ≠ 0 := by exact_mod_cast hm.ne'
    have hs : ∀ (b : ℕ) (v : Vec n), ∑ j ∈ bin nb (fun j => conf (π j)) b, v (π j) = m * ∑ i ∈ bin nb conf b, v i := by
      intro b v
      simp only [bin, Finset.sum_filter]
      exact sum_eachTimes h fun i => by classical exact if InBin nb b (conf i) then v i else 0
    have hcard : ∀ b, ((bin nb (fun j => conf (π j)) b).card : ℝ) = m * (bin nb conf b).card := by
      intro b
      have := hs b fun _ => 1
      simpa using this
    have ha : ∀ (b : ℕ) (v : Vec n), avg (bin nb (fun j => conf (π j)) b) (fun j => v (π j)) = avg (bin nb conf b) v := by
      intro b v
      simp only [avg]
      rw [hs, hcard, mul_div_mul_left _ _ hm']
    have hne : ∀ b, (bin nb (fun j => conf (π j)) b).Nonempty ↔ (bin nb conf b).Nonempty := by
      intro b
      rw [← Finset.card_pos, ← Finset.card_pos, ← Nat.cast_pos (α := ℝ), hcard, ← Nat.cast_pos (α := ℝ) (n := (bin nb conf b).card)]
      exact mul_pos_iff_of_pos_left (by exact_mod_cast hm)
    have e : {g | ∃ b < nb, (bin nb (fun j => conf (π j)) b).Nonempty ∧ g = gap nb (fun j => conf (π j)) (fun j => corr (π j)) b} =
        {g | ∃ b < nb, (bin nb conf b).Nonempty ∧ g = gap nb conf corr b} := by
      ext g
      simp only [Set.mem_setOf_eq, hne, gap, ha]
    rw [e] at b2
    exact ⟨M, a1, by rw [b1, b2.unique a2]⟩

/-! ### Non-vacuity -/

example : ∃ e e', expectedCalibrationError (n := 3) ![1/4, 1/2, 1] ![1, 0, 1] 5 = .ok e ∧ expectedCalibrationError (n := 3) ![1/4, 1/2, 1] ![1, 0, 1] 15 = .ok e' ∧ e ≤ e' := by
  have hc : ∀ i, (0 : ℝ) ≤ (![1/4, 1/2, 1] : Vec 3) i ∧ (![1/4, 1/2, 1] : Vec 3) i ≤ 1 := by
    intro i; fin_cases i <;> norm_num
  obtain ⟨e, e', M, M', h1, h2, -, -, h3, -, -⟩ := C80_refinement (nb := 5) 3 (by norm_num) (by norm_num) (by norm_num) ![1/4, 1/2, 1] ![1, 0, 1] hc
  exact ⟨e, e', h1, h2, h3⟩

end Laplax.Props
