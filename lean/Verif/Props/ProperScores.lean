import Verif.Props.Scores
import Verif.Props.Accuracy
import Verif.Spec.ExpectedScore
import Mathlib.Probability.Moments.Variance
import Mathlib.Probability.Distributions.Gaussian.Real
import Mathlib.MeasureTheory.Integral.Prod

/-! # C72: on average over random targets the scores are best for the true predictive distribution -/

namespace Laplax.Props
open Laplax Laplax.Spec MeasureTheory ProbabilityTheory
open scoped BigOperators

variable {Ω : Type} [MeasurableSpace Ω] {P : Measure Ω} [IsProbabilityMeasure P] {n c : ℕ}

/-- Second moment about any point. -/
theorem second_moment {Y : Ω → ℝ} (hY : MemLp Y 2 P) (m : ℝ) :
    Integrable (fun ω => (Y ω - m) ^ 2) P ∧ ∫ ω, (Y ω - m) ^ 2 ∂P = Var[Y; P] + (P[Y] - m) ^ 2 := by
  have h1 : MemLp (fun ω => Y ω - m) 2 P := hY.sub (memLp_const m)
  refine ⟨h1.integrable_sq, ?_⟩
  have hi : Integrable Y P := hY.integrable (by norm_num)
  have h2 := variance_eq_sub h1
  have h3 : Var[fun ω => Y ω - m; P] = Var[Y; P] := variance_sub_const hY.aestronglyMeasurable m
  have h4 : ∫ ω, (Y ω - m) ∂P = P[Y] - m := by rw [integral_sub hi (integrable_const m)]; simp
  rw [h3, h4] at h2
  have h5 : ∫ ω, (Y ω - m) ^ 2 ∂P = P[(fun ω => Y ω - m) ^ 2] := rfl
  rw [h5]; linarith

/-- The mean negative log density. -/
theorem mean_negLogDensity {Y : Ω → ℝ} (hY : MemLp Y 2 P) (m s : ℝ) (hs : 0 < s) :
    Integrable (fun ω => negLogDensity m s (Y ω)) P ∧
    ∫ ω, negLogDensity m s (Y ω) ∂P = (Real.log (2 * Real.pi * s ^ 2) + (Var[Y; P] + (P[Y] - m) ^ 2) / s ^ 2) / 2 := by
  have e : (fun ω => negLogDensity m s (Y ω)) =
      fun ω => Real.log (2 * Real.pi * s ^ 2) / 2 + (Y ω - m) ^ 2 * (1 / (2 * s ^ 2)) := by
    funext ω
    rw [← logpdf_eq m s (Y ω) hs, normLogpdf]
    field_simp
    ring
  obtain ⟨h1, h2⟩ := second_moment hY m
  have h3 : Integrable (fun ω => (Y ω - m) ^ 2 * (1 / (2 * s ^ 2))) P := h1.mul_const _
  rw [e]
  refine ⟨(integrable_const _).add h3, ?_⟩
  rw [integral_add (integrable_const _) h3, integral_mul_const, h2]
  simp only [integral_const, probReal_univ, one_smul]
  field_simp

/-- One coordinate of the propriety of the log score. -/
theorem log_score_proper (μ v m s : ℝ) (hv : 0 < v) (hs : 0 < s) :
    (Real.log (2 * Real.pi * Real.sqrt v ^ 2) + (v + (μ - μ) ^ 2) / Real.sqrt v ^ 2) / 2 ≤
      (Real.log (2 * Real.pi * s ^ 2) + (v + (μ - m) ^ 2) / s ^ 2) / 2 ∧
    ((Real.log (2 * Real.pi * Real.sqrt v ^ 2) + (v + (μ - μ) ^ 2) / Real.sqrt v ^ 2) / 2 =
      (Real.log (2 * Real.pi * s ^ 2) + (v + (μ - m) ^ 2) / s ^ 2) / 2 ↔ m = μ ∧ s = Real.sqrt v) := by
  have hs2 : 0 < s ^ 2 := by positivity
  rw [Real.sq_sqrt hv.le, sub_self, Real.log_mul (by positivity) hv.ne', Real.log_mul (by positivity) hs2.ne']
  have hr : 0 < v / s ^ 2 := by positivity
  have hlog : Real.log v = Real.log (v / s ^ 2) + Real.log (s ^ 2) := by
    rw [Real.log_div hv.ne' hs2.ne']; ring
  have hsplit : (v + (μ - m) ^ 2) / s ^ 2 = v / s ^ 2 + (μ - m) ^ 2 / s ^ 2 := by rw [add_div]
  have hone : (v + 0 ^ 2) / v = 1 := by field_simp; ring
  rw [hlog, hsplit, hone]
  have h1 : Real.log (v / s ^ 2) ≤ v / s ^ 2 - 1 := Real.log_le_sub_one_of_pos hr
  have h2 : 0 ≤ (μ - m) ^ 2 / s ^ 2 := by positivity
  refine ⟨by linarith, fun h => ?_, ?_⟩
  · have h3 : (μ - m) ^ 2 / s ^ 2 = 0 := by linarith
    have h4 : Real.log (v / s ^ 2) = v / s ^ 2 - 1 := by linarith
    have h5 : v / s ^ 2 = 1 := by
      by_contra hne
      have := Real.log_lt_sub_one_of_pos hr hne
      linarith
    rw [div_eq_one_iff_eq hs2.ne'] at h5
    rw [div_eq_zero_iff, or_iff_left hs2.ne'] at h3
    have h6 := pow_eq_zero_iff (n := 2) (by norm_num) |>.1 h3
    exact ⟨by linarith, by rw [h5, Real.sqrt_sq hs.le]⟩
  · rintro ⟨rfl, rfl⟩
    rw [Real.sq_sqrt hv.le, div_self hv.ne']
    simp

/-- **C72 (log score).** The targets are random, with finite second moments and positive variances. On average, `nll_gaussian`
(scaled or not) is smallest exactly for the prediction whose means and standard deviations are those of the targets. -/
theorem C72_nll (sh : List ℕ) (T : Fin (shapeSize sh) → Ω → ℝ) (hT : ∀ i, MemLp (T i) 2 P) (hv : ∀ i, 0 < Var[T i; P])
    (hn : 0 < shapeSize sh) (mean std : Fin (shapeSize sh) → ℝ) (hs : ∀ i, 0 < std i) (scaled : Bool) :
    ∃ best e,
      ExpectedScore P (fun ω => nllGaussian ⟨sh, fun i => P[T i]⟩ ⟨sh, fun i => Real.sqrt (Var[T i; P])⟩ ⟨sh, fun i => T i ω⟩
        scaled) best ∧
      ExpectedScore P (fun ω => nllGaussian ⟨sh, mean⟩ ⟨sh, std⟩ ⟨sh, fun i => T i ω⟩ scaled) e ∧
      best ≤ e ∧ (best = e ↔ ∀ i, mean i = P[T i] ∧ std i = Real.sqrt (Var[T i; P])) := by
  have key : ∀ (m s : Fin (shapeSize sh) → ℝ), (∀ i, 0 < s i) →
      ExpectedScore P (fun ω => nllGaussian ⟨sh, m⟩ ⟨sh, s⟩ ⟨sh, fun i => T i ω⟩ scaled)
        ((∑ i, (Real.log (2 * Real.pi * s i ^ 2) + (Var[T i; P] + (P[T i] - m i) ^ 2) / s i ^ 2) / 2) /
          (if scaled then (shapeSize sh : ℝ) else 1)) := by
    intro m s hs
    have hint : Integrable (fun ω => ∑ i, negLogDensity (m i) (s i) (T i ω)) P :=
      integrable_finsetSum _ fun i _ => (mean_negLogDensity (hT i) (m i) (s i) (hs i)).1
    refine ⟨fun ω => (∑ i, negLogDensity (m i) (s i) (T i ω)) / (if scaled then (shapeSize sh : ℝ) else 1), fun ω => ?_,
      hint.div_const _, ?_⟩
    · cases scaled
      · simpa using (C32_nll sh m s (fun i => T i ω) hs).2
      · simpa using (C32_nll sh m s (fun i => T i ω) hs).1
    · rw [integral_div, integral_finsetSum _ fun i _ => (mean_negLogDensity (hT i) (m i) (s i) (hs i)).1]
      congr 1
      exact Finset.sum_congr rfl fun i _ => (mean_negLogDensity (hT i) (m i) (s i) (hs i)).2
  refine ⟨_, _, key _ _ fun i => Real.sqrt_pos.2 (hv i), key mean std hs, ?_, ?_⟩
  · refine div_le_div_of_nonneg_right (Finset.sum_le_sum fun i _ =>
      (log_score_proper _ _ (mean i) (std i) (hv i) (hs i)).1) ?_
    split <;> positivity
  · have hd : (if scaled = true then (shapeSize sh : ℝ) else 1) ≠ 0 := by
      have : (shapeSize sh : ℝ) ≠ 0 := by positivity
      split <;> simp_all
    rw [div_left_inj' hd, Finset.sum_eq_sum_iff_of_le fun i _ => (log_score_proper _ _ (mean i) (std i) (hv i) (hs i)).1]
    exact ⟨fun h i => (log_score_proper _ _ (mean i) (std i) (hv i) (hs i)).2.1 (h i (Finset.mem_univ i)),
      fun h i _ => (log_score_proper _ _ (mean i) (std i) (hv i) (hs i)).2.2 (h i)⟩

/-- **C72 (squared errors).** On average `rmse²` is the mean of variance plus squared bias, and `chi_squared` the mean of
(variance + squared bias) / predicted variance. So the mean squared error is smallest exactly for the true means, and `chi_squared`
averages 1 for the true means and standard deviations. -/
theorem C72_squared_errors (hn : 0 < n) (T : Fin n → Ω → ℝ) (hT : ∀ i, MemLp (T i) 2 P) (mean : Vec n) :
    ExpectedScore P (fun ω => .ok (estimateRmse mean (fun i => T i ω) ^ 2)) ((∑ i, (Var[T i; P] + (P[T i] - mean i) ^ 2)) / n) ∧
    (∑ i, (Var[T i; P] + (P[T i] - P[T i]) ^ 2)) / (n : ℝ) ≤ (∑ i, (Var[T i; P] + (P[T i] - mean i) ^ 2)) / n ∧
    ((∑ i, (Var[T i; P] + (P[T i] - P[T i]) ^ 2)) / (n : ℝ) = (∑ i, (Var[T i; P] + (P[T i] - mean i) ^ 2)) / n ↔
      ∀ i, mean i = P[T i]) ∧
    (∀ std : Vec n, (∀ i, 0 < std i) →
      ExpectedScore P (fun ω => .ok (chiSquared mean std fun i => T i ω))
        ((∑ i, (Var[T i; P] + (P[T i] - mean i) ^ 2) / std i ^ 2) / n)) ∧
    ((∀ i, 0 < Var[T i; P]) →
      ExpectedScore P (fun ω => .ok (chiSquared (fun i => P[T i]) (fun i => Real.sqrt (Var[T i; P])) fun i => T i ω)) 1) := by
  have hn' : (n : ℝ) ≠ 0 := by positivity
  have chi : ∀ m s : Vec n, (∀ i, 0 < s i) → ExpectedScore P (fun ω => .ok (chiSquared m s fun i => T i ω))
        ((∑ i, (Var[T i; P] + (P[T i] - m i) ^ 2) / s i ^ 2) / n) := by
    intro m s hs
    refine ⟨_, fun ω => congrArg Except.ok (C32_chi_squared hn m s (fun i => T i ω) hs).1, ?_, ?_⟩
    · refine (integrable_finsetSum _ fun i _ => ?_).div_const _
      simp only [div_pow]
      exact (second_moment (hT i) (m i)).1.div_const _
    · rw [integral_div, integral_finsetSum]
      · congr 1
        refine Finset.sum_congr rfl fun i _ => ?_
        simp only [div_pow]
        rw [integral_div, (second_moment (hT i) (m i)).2]
      · intro i _
        simp only [div_pow]
        exact (second_moment (hT i) (m i)).1.div_const _
  refine ⟨⟨_, fun ω => congrArg Except.ok (C32_rmse hn mean (fun i => T i ω)).2.1, ?_, ?_⟩, ?_, ?_, chi mean, fun hv => ?_⟩
  · exact (integrable_finsetSum _ fun i _ => (second_moment (hT i) (mean i)).1).div_const _
  · rw [integral_div, integral_finsetSum _ fun i _ => (second_moment (hT i) (mean i)).1]
    congr 1
    exact Finset.sum_congr rfl fun i _ => (second_moment (hT i) (mean i)).2
  · refine div_le_div_of_nonneg_right (Finset.sum_le_sum fun i _ => ?_) (by positivity)
    rw [sub_self]
    nlinarith [sq_nonneg (P[T i] - mean i)]
  · rw [div_left_inj' hn', Finset.sum_eq_sum_iff_of_le fun i _ => by rw [sub_self]; nlinarith [sq_nonneg (P[T i] - mean i)]]
    constructor
    · intro h i
      have := h i (Finset.mem_univ i)
      rw [sub_self] at this
      have h2 : (P[T i] - mean i) ^ 2 = 0 := by nlinarith
      have := pow_eq_zero_iff (n := 2) (by norm_num) |>.1 h2
      linarith
    · intro h i _
      rw [h i]
  · have h := chi (fun i => P[T i]) (fun i => Real.sqrt (Var[T i; P])) fun i => Real.sqrt_pos.2 (hv i)
    have e : (∑ i, (Var[T i; P] + (P[T i] - P[T i]) ^ 2) / Real.sqrt (Var[T i; P]) ^ 2) / (n : ℝ) = 1 := by
      have : ∀ i, (Var[T i; P] + (P[T i] - P[T i]) ^ 2) / Real.sqrt (Var[T i; P]) ^ 2 = 1 := by
        intro i
        rw [Real.sq_sqrt (hv i).le, sub_self]
        have := (hv i).ne'
        field_simp
        ring
      simp only [this]
      simp [hn']
    rw [e] at h
    exact h

/-! ## Random labels -/

/-- Probability of an event of the label as the mean of its indicator. -/
theorem mean_label {Y : Ω → Fin c} (hY : Measurable Y) (f : Fin c → ℝ) :
    Integrable (fun ω => f (Y ω)) P ∧ ∫ ω, f (Y ω) ∂P = ∑ k, P.real (Y ⁻¹' {k}) * f k := by
  have e : (fun ω => f (Y ω)) = fun ω => ∑ k, (Y ⁻¹' {k}).indicator (fun _ => f k) ω := by
    funext ω
    rw [Finset.sum_eq_single (Y ω)]
    · simp
    · intro k _ hk
      simp [Set.indicator, Ne.symm hk]
    · simp
  have hm : ∀ k, MeasurableSet (Y ⁻¹' {k}) := fun k => hY (measurableSet_singleton k)
  have hi : ∀ k, Integrable ((Y ⁻¹' {k}).indicator fun _ => f k) P := fun k => (integrable_const _).indicator (hm k)
  rw [e]
  refine ⟨integrable_finsetSum _ fun k _ => hi k, ?_⟩
  rw [integral_finsetSum _ fun k _ => hi k]
  refine Finset.sum_congr rfl fun k _ => ?_
  rw [integral_indicator (hm k), integral_const, smul_eq_mul]
  simp

theorem label_total {Y : Ω → Fin c} (hY : Measurable Y) : ∑ k, P.real (Y ⁻¹' {k}) = 1 := by
  have := (mean_label (P := P) hY fun _ => 1).2
  simp only [integral_const, probReal_univ, smul_eq_mul, mul_one] at this
  linarith

/-- Mean squared distance of `q` to the random one-hot vector. -/
theorem mean_brier_row {Y : Ω → Fin c} (hY : Measurable Y) (q : Vec c) :
    Integrable (fun ω => ∑ k, (q k - if k = Y ω then 1 else 0) ^ 2) P ∧
    ∫ ω, ∑ k, (q k - if k = Y ω then 1 else 0) ^ 2 ∂P =
      ∑ k, (q k - P.real (Y ⁻¹' {k})) ^ 2 + ∑ k, P.real (Y ⁻¹' {k}) * (1 - P.real (Y ⁻¹' {k})) := by
  obtain ⟨h1, h2⟩ := mean_label (P := P) hY fun y => ∑ k, (q k - if k = y then 1 else 0) ^ 2
  refine ⟨h1, h2.trans ?_⟩
  have e : ∀ y : Fin c, ∑ k, (q k - if k = y then (1 : ℝ) else 0) ^ 2 = ∑ k, q k ^ 2 - 2 * q y + 1 := by
    intro y
    have : ∀ k, (q k - if k = y then (1 : ℝ) else 0) ^ 2 = q k ^ 2 - (if k = y then 2 * q k else 0) + if k = y then 1 else 0 := by
      intro k; split <;> ring
    simp only [this, Finset.sum_add_distrib, Finset.sum_sub_distrib, Finset.sum_ite_eq', Finset.mem_univ, if_true]
  simp only [e]
  have ht := label_total (P := P) hY
  have : ∑ y, P.real (Y ⁻¹' {y}) * (∑ k, q k ^ 2 - 2 * q y + 1)
      = (∑ y, P.real (Y ⁻¹' {y})) * (∑ k, q k ^ 2 + 1) - ∑ y, P.real (Y ⁻¹' {y}) * (2 * q y) := by
    rw [Finset.sum_mul, ← Finset.sum_sub_distrib]
    exact Finset.sum_congr rfl fun y _ => by ring
  rw [this, ht, ← Finset.sum_add_distrib]
  have : ∀ k, (q k - P.real (Y ⁻¹' {k})) ^ 2 + P.real (Y ⁻¹' {k}) * (1 - P.real (Y ⁻¹' {k}))
      = q k ^ 2 - P.real (Y ⁻¹' {k}) * (2 * q k) + P.real (Y ⁻¹' {k}) := fun k => by ring
  simp only [this, Finset.sum_add_distrib, Finset.sum_sub_distrib, ht]
  ring

/-- **C72 (Brier score).** The labels are random. On average `multiclass_brier` – which is negated, so larger is better – is
largest exactly for the predictions that give every label its true probability. -/
theorem C72_brier (hn : 0 < n) (Y : Fin n → Ω → Fin c) (hY : ∀ i, Measurable (Y i)) (prob : Fin n → Vec c) :
    ∃ best e,
      ExpectedScore P (fun ω => .ok (multiclassBrier (fun i k => P.real (Y i ⁻¹' {k})) (.labels fun i => ((Y i ω).val : ℤ)))) best ∧
      ExpectedScore P (fun ω => .ok (multiclassBrier prob (.labels fun i => ((Y i ω).val : ℤ)))) e ∧
      e ≤ best ∧ (e = best ↔ ∀ i k, prob i k = P.real (Y i ⁻¹' {k})) := by
  have hne : Nonempty Ω := P.nonempty_of_neZero
  have hc : 0 < c := (Y ⟨0, hn⟩ hne.some).pos
  have hc' : (0 : ℝ) < c := by exact_mod_cast hc
  have hn' : (0 : ℝ) < n := by exact_mod_cast hn
  have key : ∀ q : Fin n → Vec c,
      ExpectedScore P (fun ω => .ok (multiclassBrier q (.labels fun i => ((Y i ω).val : ℤ))))
        (-((∑ i, (∑ k, (q i k - P.real (Y i ⁻¹' {k})) ^ 2 +
          ∑ k, P.real (Y i ⁻¹' {k}) * (1 - P.real (Y i ⁻¹' {k})))) / n) / c) := by
    intro q
    refine ⟨_, fun ω => congrArg Except.ok (C32_brier_value_partial q (fun i => Y i ω)).1, ?_, ?_⟩
    · exact ((integrable_finsetSum _ fun i _ => (mean_brier_row (hY i) (q i)).1).div_const _).neg.div_const _
    · simp only [brier]
      rw [integral_div, integral_neg, integral_div, integral_finsetSum _ fun i _ => (mean_brier_row (hY i) (q i)).1]
      congr 3
      exact Finset.sum_congr rfl fun i _ => (mean_brier_row (hY i) (q i)).2
  refine ⟨_, _, key _, key prob, ?_, ?_⟩
  · refine div_le_div_of_nonneg_right (neg_le_neg (div_le_div_of_nonneg_right (Finset.sum_le_sum fun i _ => ?_) hn'.le)) hc'.le
    simp only [sub_self, ne_eq, OfNat.ofNat_ne_zero, not_false_eq_true, zero_pow, Finset.sum_const_zero]
    have : 0 ≤ ∑ k, (prob i k - P.real (Y i ⁻¹' {k})) ^ 2 := Finset.sum_nonneg fun k _ => sq_nonneg _
    linarith
  · rw [div_left_inj' hc'.ne', neg_inj, div_left_inj' hn'.ne', eq_comm, Finset.sum_eq_sum_iff_of_le fun i _ => by
      simp only [sub_self, ne_eq, OfNat.ofNat_ne_zero, not_false_eq_true, zero_pow, Finset.sum_const_zero]
      have : 0 ≤ ∑ k, (prob i k - P.real (Y i ⁻¹' {k})) ^ 2 := Finset.sum_nonneg fun k _ => sq_nonneg _
      linarith]
    constructor
    · intro h i k
      have h1 := h i (Finset.mem_univ i)
      simp only [sub_self, ne_eq, OfNat.ofNat_ne_zero, not_false_eq_true, zero_pow, Finset.sum_const_zero, zero_add] at h1
      have h2 : ∑ k, (prob i k - P.real (Y i ⁻¹' {k})) ^ 2 = 0 := by linarith
      rw [Finset.sum_eq_zero_iff_of_nonneg fun k _ => sq_nonneg _] at h2
      have := pow_eq_zero_iff (n := 2) (by norm_num) |>.1 (h2 k (Finset.mem_univ k))
      linarith
    · intro h i _
      simp only [h]

/-! ## Accuracy -/

/-- The `k` best classes. -/
noncomputable def topSet (z : Vec c) (k : ℕ) : Finset (Fin c) := ((ranking z).take k).toFinset

theorem mem_topSet (z : Vec c) (k : ℕ) (y : Fin c) : y ∈ topSet z k ↔ AmongTop z k y := by
  rw [topSet, List.mem_toFinset, mem_take_ranking]

theorem card_topSet (z : Vec c) (k : ℕ) : (topSet z k).card = min k c := by
  rw [topSet, List.toFinset_card_of_nodup ((ranking_nodup z).sublist (List.take_sublist _ _)), List.length_take, ranking_length]

/-- The `k` classes with the largest weights have the largest total weight among all sets of as many classes. -/
theorem topSet_total (p : Vec c) (k : ℕ) (S : Finset (Fin c)) (hS : S.card = min k c) : ∑ j ∈ S, p j ≤ ∑ j ∈ topSet p k, p j := by
  classical
  have hcard : (topSet p k \ S).card = (S \ topSet p k).card := by
    have h1 := Finset.card_sdiff_add_card_inter (topSet p k) S
    have h2 := Finset.card_sdiff_add_card_inter S (topSet p k)
    rw [Finset.inter_comm] at h2
    rw [card_topSet] at h1
    omega
  have hle : ∀ a ∈ topSet p k \ S, ∀ b ∈ S \ topSet p k, p b ≤ p a := by
    intro a ha b hb
    rw [Finset.mem_sdiff, mem_topSet] at ha hb
    by_contra hlt
    rw [not_le] at hlt
    refine hb.2 (lt_of_le_of_lt (Finset.card_le_card ?_) ha.1)
    intro j hj
    simp only [Finset.mem_filter, Finset.mem_univ, true_and] at hj ⊢
    rcases hj with hj | ⟨hj, -⟩
    · exact Or.inl (hlt.trans hj)
    · exact Or.inl (hj ▸ hlt)
  have hcore : ∑ j ∈ S \ topSet p k, p j ≤ ∑ j ∈ topSet p k \ S, p j := by
    rcases (topSet p k \ S).eq_empty_or_nonempty with h0 | h0
    · have h1 : S \ topSet p k = ∅ := by rw [← Finset.card_eq_zero, ← hcard, h0, Finset.card_empty]
      rw [h0, h1]
    · obtain ⟨a, ha, hmin⟩ := Finset.exists_min_image _ p h0
      calc ∑ j ∈ S \ topSet p k, p j ≤ (S \ topSet p k).card • p a := Finset.sum_le_card_nsmul _ _ _ fun b hb => hle a ha b hb
        _ = (topSet p k \ S).card • p a := by rw [hcard]
        _ ≤ ∑ j ∈ topSet p k \ S, p j := Finset.card_nsmul_le_sum _ _ _ hmin
  have h1 := Finset.sum_inter_add_sum_sdiff S (topSet p k) p
  have h2 := Finset.sum_inter_add_sum_sdiff (topSet p k) S p
  rw [Finset.inter_comm] at h2
  linarith

/-- **C72 (accuracy).** The labels are random. For every `k`, top-`k` accuracy is on average largest for the predictions that give
every label its true probability. (Not only for them: accuracy depends on the ranking alone.) -/
theorem C72_accuracy (Y : Fin n → Ω → Fin c) (hY : ∀ i, Measurable (Y i)) (prob : Fin n → Vec c) (k : ℕ) :
    ∃ best e,
      ExpectedScore P (fun ω => (accuracy (fun i k => P.real (Y i ⁻¹' {k})) (.labels fun i => ((Y i ω).val : ℤ)) [(k : ℤ)]).map
        (·.headD 0)) best ∧
      ExpectedScore P (fun ω => (accuracy prob (.labels fun i => ((Y i ω).val : ℤ)) [(k : ℤ)]).map (·.headD 0)) e ∧
      e ≤ best := by
  classical
  have key : ∀ q : Fin n → Vec c,
      ExpectedScore P (fun ω => (accuracy q (.labels fun i => ((Y i ω).val : ℤ)) [(k : ℤ)]).map (·.headD 0))
        ((∑ i, ∑ l ∈ topSet (q i) k, P.real (Y i ⁻¹' {l})) * 100 / n) := by
    intro q
    have hm := fun i => mean_label (P := P) (hY i) fun l => if l ∈ topSet (q i) k then 1 else 0
    refine ⟨fun ω => (∑ i, if Y i ω ∈ topSet (q i) k then (1 : ℝ) else 0) * 100 / n, fun ω => ?_, ?_, ?_⟩
    · have h := C31_value q (.labels fun i => ((Y i ω).val : ℤ)) (fun i => ((Y i ω).val : ℤ)) rfl [k] (by simp)
      simp only [List.map_cons, List.map_nil] at h
      show (accuracy q _ _).map _ = _
      rw [h]
      have e : ((hits q (fun i => ((Y i ω).val : ℤ)) k).card : ℝ) = ∑ i, if Y i ω ∈ topSet (q i) k then (1 : ℝ) else 0 := by
        rw [Finset.sum_ite, Finset.sum_const_zero, add_zero, Finset.sum_const, nsmul_eq_mul, mul_one, hits]
        congr 2
        ext i
        simp only [Finset.mem_filter, Finset.mem_univ, true_and, mem_topSet]
        constructor
        · rintro ⟨l, hl, h⟩
          have : l = Y i ω := Fin.ext (by exact_mod_cast hl)
          exact this ▸ h
        · intro h
          exact ⟨_, rfl, h⟩
      rw [e]
      rfl
    · exact ((integrable_finsetSum _ fun i _ => (hm i).1).mul_const _).div_const _
    · rw [integral_div, integral_mul_const, integral_finsetSum _ fun i _ => (hm i).1]
      congr 2
      refine Finset.sum_congr rfl fun i _ => (hm i).2.trans ?_
      simp only [mul_ite, mul_one, mul_zero, Finset.sum_ite_mem, Finset.univ_inter]
  refine ⟨_, _, key _, key prob, ?_⟩
  refine div_le_div_of_nonneg_right (mul_le_mul_of_nonneg_right (Finset.sum_le_sum fun i _ => ?_) (by norm_num)) (by positivity)
  exact topSet_total (fun l => P.real (Y i ⁻¹' {l})) k _ (card_topSet _ _)

/-! ## CRPS -/

theorem crpsTerm_continuous (m s : ℝ) : Continuous fun y => crpsTerm m s y := by
  unfold crpsTerm
  have h1 := normPdf_continuous
  have h2 := normCdf_continuous
  fun_prop

theorem crpsTerm_bound (m s y : ℝ) (hs : 0 < s) : |crpsTerm m s y| ≤ (|m| + s * (1 / Real.sqrt Real.pi + 2 * (Real.sqrt (2 * Real.pi))⁻¹)) + |y| := by
  have hpdf : ∀ z, normPdf z ≤ (Real.sqrt (2 * Real.pi))⁻¹ := by
    intro z
    unfold normPdf
    have : Real.exp (-(z ^ 2) / 2) ≤ 1 := Real.exp_le_one_iff.2 (by nlinarith [sq_nonneg z])
    exact mul_le_of_le_one_right (by positivity) this
  have hz : s * |(y - m) / s| = |y - m| := by rw [abs_div, abs_of_pos hs]; field_simp
  have h1 : |2 * normCdf ((y - m) / s) - 1| ≤ 1 := by
    rw [abs_le]
    constructor <;> linarith [normCdf_nonneg ((y - m) / s), normCdf_le_one ((y - m) / s)]
  have h2 : |(y - m) / s * (2 * normCdf ((y - m) / s) - 1)| ≤ |(y - m) / s| := by
    rw [abs_mul]; exact mul_le_of_le_one_right (abs_nonneg _) h1
  have h3 : |1 / Real.sqrt Real.pi - 2 * normPdf ((y - m) / s) - (y - m) / s * (2 * normCdf ((y - m) / s) - 1)| ≤
      1 / Real.sqrt Real.pi + 2 * (Real.sqrt (2 * Real.pi))⁻¹ + |(y - m) / s| := by
    have hp := normPdf_pos ((y - m) / s)
    have hq := hpdf ((y - m) / s)
    have hpi : 0 ≤ 1 / Real.sqrt Real.pi := by positivity
    rw [abs_le] at h2 ⊢
    constructor <;> linarith [h2.1, h2.2]
  have h4 : |y - m| ≤ |y| + |m| := abs_sub _ _
  unfold crpsTerm
  simp only [neg_mul, one_mul]
  rw [abs_neg, abs_mul, abs_of_pos hs]
  calc _ ≤ s * (1 / Real.sqrt Real.pi + 2 * (Real.sqrt (2 * Real.pi))⁻¹ + |(y - m) / s|) := by gcongr
    _ = s * (1 / Real.sqrt Real.pi + 2 * (Real.sqrt (2 * Real.pi))⁻¹) + |y - m| := by rw [mul_add, hz]
    _ ≤ _ := by linarith

/-- The mean CRPS as the distance of the distribution functions, plus a term that does not depend on the prediction. -/
theorem mean_crps {Y : Ω → ℝ} (hY : Measurable Y) (hi : Integrable Y P) (m s : ℝ) (hs : 0 < s) :
    Integrable (fun ω => crps m s (Y ω)) P ∧
    Integrable (fun x => (cdf (gaussianReal m (Real.toNNReal (s ^ 2))) x - cdf (P.map Y) x) ^ 2 +
      cdf (P.map Y) x * (1 - cdf (P.map Y) x)) ∧
    ∫ ω, crps m s (Y ω) ∂P = ∫ x, (cdf (gaussianReal m (Real.toNNReal (s ^ 2))) x - cdf (P.map Y) x) ^ 2 +
      cdf (P.map Y) x * (1 - cdf (P.map Y) x) := by
  have hpm : IsProbabilityMeasure (P.map Y) := Measure.isProbabilityMeasure_map hY.aemeasurable
  have hcrps : ∀ y, crps m s y = crpsTerm m s y := fun y => crps_gaussian_integral m s y hs
  have hI : Integrable (fun ω => crps m s (Y ω)) P := by
    simp only [hcrps]
    refine Integrable.mono' ((integrable_const (|m| + s * (1 / Real.sqrt Real.pi + 2 * (Real.sqrt (2 * Real.pi))⁻¹))).add hi.abs)
      ((crpsTerm_continuous m s).measurable.comp hY).aestronglyMeasurable (.of_forall fun ω => ?_)
    exact crpsTerm_bound m s (Y ω) hs
  set F : ℝ → ℝ := fun x => cdf (gaussianReal m (Real.toNNReal (s ^ 2))) x with hF
  have hFm : Measurable F := (monotone_cdf _).measurable
  let φ : Ω × ℝ → ℝ := fun p => (F p.2 - if Y p.1 ≤ p.2 then 1 else 0) ^ 2
  have hφm : Measurable φ := by
    refine ((hFm.comp measurable_snd).sub (Measurable.ite ?_ measurable_const measurable_const)).pow_const 2
    exact measurableSet_le (hY.comp measurable_fst) measurable_snd
  have hφ : Integrable φ (P.prod volume) := by
    rw [integrable_prod_iff hφm.aestronglyMeasurable]
    refine ⟨.of_forall fun ω => crps_gaussian_integrable m s (Y ω) hs, ?_⟩
    have : (fun ω => ∫ x, ‖φ (ω, x)‖) = fun ω => crps m s (Y ω) := by
      funext ω
      exact integral_congr_ae (.of_forall fun x => by simp only [φ, Real.norm_eq_abs]; exact abs_of_nonneg (sq_nonneg _))
    rw [this]
    exact hI
  have hG : ∀ x, ∫ ω, φ (ω, x) ∂P = (F x - cdf (P.map Y) x) ^ 2 + cdf (P.map Y) x * (1 - cdf (P.map Y) x) := by
    intro x
    have hset : MeasurableSet {ω | Y ω ≤ x} := measurableSet_le hY measurable_const
    have e : (fun ω => φ (ω, x)) = fun ω => F x ^ 2 + (1 - 2 * F x) * ({ω | Y ω ≤ x}.indicator (fun _ => (1 : ℝ)) ω) := by
      funext ω
      simp only [φ, Set.indicator, Set.mem_ofPred_eq]
      split <;> ring
    have hc : ∫ ω, {ω | Y ω ≤ x}.indicator (fun _ => (1 : ℝ)) ω ∂P = cdf (P.map Y) x := by
      rw [integral_indicator hset, integral_const, smul_eq_mul, mul_one, cdf_eq_real, Measure.real, Measure.real,
        Measure.restrict_apply_univ, Measure.map_apply hY measurableSet_Iic]
      rfl
    rw [e, integral_add (integrable_const _) (((integrable_const _).indicator hset).const_mul _), integral_const_mul, hc]
    simp only [integral_const, probReal_univ, smul_eq_mul, one_mul]
    ring
  refine ⟨hI, ?_, ?_⟩
  · have := hφ.integral_prod_right
    simp only [hG] at this
    exact this
  · have h1 := integral_prod φ hφ
    have h2 := integral_prod_symm φ hφ
    simp only [hG] at h2
    rw [← h2, h1]
    rfl

/-- **C72 (CRPS).** The targets are random and normal. On average `crps_gaussian` (scaled or not) is smallest exactly for the
prediction whose means and standard deviations are those of the targets. -/
theorem C72_crps (sh : List ℕ) (T : Fin (shapeSize sh) → Ω → ℝ) (hm : ∀ i, Measurable (T i)) (loc scale : Fin (shapeSize sh) → ℝ)
    (hpos : ∀ i, 0 < scale i) (hT : ∀ i, P.map (T i) = gaussianReal (loc i) (Real.toNNReal (scale i ^ 2)))
    (hn : 0 < shapeSize sh) (mean std : Fin (shapeSize sh) → ℝ) (hs : ∀ i, 0 < std i) (scaled : Bool) :
    ∃ best e,
      ExpectedScore P (fun ω => crpsGaussian ⟨sh, loc⟩ ⟨sh, scale⟩ ⟨sh, fun i => T i ω⟩ scaled) best ∧
      ExpectedScore P (fun ω => crpsGaussian ⟨sh, mean⟩ ⟨sh, std⟩ ⟨sh, fun i => T i ω⟩ scaled) e ∧
      best ≤ e ∧ (best = e ↔ ∀ i, mean i = loc i ∧ std i = scale i) := by
  have hi : ∀ i, Integrable (T i) P := by
    intro i
    have h : Integrable (id : ℝ → ℝ) (P.map (T i)) := by
      rw [hT i]; exact (memLp_id_gaussianReal 1).integrable le_rfl
    exact (integrable_map_measure aestronglyMeasurable_id (hm i).aemeasurable).1 h
  have key : ∀ (m s : Fin (shapeSize sh) → ℝ), (∀ i, 0 < s i) →
      ExpectedScore P (fun ω => crpsGaussian ⟨sh, m⟩ ⟨sh, s⟩ ⟨sh, fun i => T i ω⟩ scaled)
        ((∑ i, ∫ ω, crps (m i) (s i) (T i ω) ∂P) / (if scaled then (shapeSize sh : ℝ) else 1)) := by
    intro m s hs
    refine ⟨fun ω => (∑ i, crps (m i) (s i) (T i ω)) / (if scaled then (shapeSize sh : ℝ) else 1), fun ω => ?_, ?_, ?_⟩
    · cases scaled
      · simpa using (C32_crps sh m s (fun i => T i ω) hs).2.1
      · simpa using (C32_crps sh m s (fun i => T i ω) hs).1
    · exact (integrable_finsetSum _ fun i _ => (mean_crps (hm i) (hi i) (m i) (s i) (hs i)).1).div_const _
    · rw [integral_div, integral_finsetSum _ fun i _ => (mean_crps (hm i) (hi i) (m i) (s i) (hs i)).1]
  have one : ∀ i, ∫ ω, crps (loc i) (scale i) (T i ω) ∂P ≤ ∫ ω, crps (mean i) (std i) (T i ω) ∂P ∧
      (∫ ω, crps (loc i) (scale i) (T i ω) ∂P = ∫ ω, crps (mean i) (std i) (T i ω) ∂P ↔ mean i = loc i ∧ std i = scale i) := by
    intro i
    obtain ⟨-, a2, a3⟩ := mean_crps (hm i) (hi i) (loc i) (scale i) (hpos i)
    obtain ⟨-, b2, b3⟩ := mean_crps (hm i) (hi i) (mean i) (std i) (hs i)
    rw [hT i] at a2 a3 b2 b3
    simp only [sub_self, ne_eq, OfNat.ofNat_ne_zero, not_false_eq_true, zero_pow, zero_add] at a2 a3
    obtain ⟨d, hd⟩ : ∃ d : ℝ → ℝ, d = fun x => (cdf (gaussianReal (mean i) (Real.toNNReal (std i ^ 2))) x -
      cdf (gaussianReal (loc i) (Real.toNNReal (scale i ^ 2))) x) ^ 2 := ⟨_, rfl⟩
    have hdi : Integrable d := by
      have := b2.sub a2
      rw [hd]
      refine this.congr (.of_forall fun x => ?_)
      simp
    have hsplit : ∫ ω, crps (mean i) (std i) (T i ω) ∂P = (∫ x, d x) + ∫ ω, crps (loc i) (scale i) (T i ω) ∂P := by
      rw [b3, a3, ← integral_add hdi a2, hd]
    have hd0 : ∀ x, 0 ≤ d x := fun x => by rw [hd]; exact sq_nonneg _
    have hnn : 0 ≤ ∫ x, d x := integral_nonneg hd0
    refine ⟨by linarith, fun h => ?_, ?_⟩
    · have h0 : ∫ x, d x = 0 := by linarith
      rw [integral_eq_zero_iff_of_nonneg hd0 hdi] at h0
      have hcont : Continuous d := by
        rw [hd]
        have e : ∀ (a b : ℝ), 0 < b → Continuous fun x => cdf (gaussianReal a (Real.toNNReal (b ^ 2))) x := by
          intro a b hb
          have : (fun x => cdf (gaussianReal a (Real.toNNReal (b ^ 2))) x) = fun x => normCdf ((x - a) / b) :=
            funext (gaussian_cdf a b hb)
          rw [this]
          exact normCdf_continuous.comp (by fun_prop)
        exact ((e _ _ (hs i)).sub (e _ _ (hpos i))).pow 2
      have hz : d = 0 := (hcont.ae_eq_iff_eq volume continuous_zero).1 h0
      have hcdf : cdf (gaussianReal (mean i) (Real.toNNReal (std i ^ 2))) = cdf (gaussianReal (loc i) (Real.toNNReal (scale i ^ 2))) := by
        ext x
        have h1 := congrFun hz x
        rw [hd] at h1
        have := pow_eq_zero_iff (n := 2) (by norm_num) |>.1 h1
        linarith
      have hμ := (Measure.cdf_eq_iff _ _).1 hcdf
      have e1 : mean i = loc i := by
        have := congrArg (fun ν : Measure ℝ => ∫ x, x ∂ν) hμ
        simpa [integral_id_gaussianReal] using this
      have e2 : std i ^ 2 = scale i ^ 2 := by
        have := congrArg (fun ν : Measure ℝ => Var[fun x => x; ν]) hμ
        simpa [variance_fun_id_gaussianReal, Real.coe_toNNReal _ (sq_nonneg _)] using this
      exact ⟨e1, (sq_eq_sq₀ (hs i).le (hpos i).le).1 e2⟩
    · rintro ⟨h1, h2⟩
      rw [h1, h2]
  refine ⟨_, _, key loc scale hpos, key mean std hs, ?_, ?_⟩
  · refine div_le_div_of_nonneg_right (Finset.sum_le_sum fun i _ => (one i).1) ?_
    split <;> positivity
  · have hd : (if scaled = true then (shapeSize sh : ℝ) else 1) ≠ 0 := by
      have : (shapeSize sh : ℝ) ≠ 0 := by positivity
      split <;> simp_all
    rw [div_left_inj' hd, Finset.sum_eq_sum_iff_of_le fun i _ => (one i).1]
    exact ⟨fun h i => (one i).2.1 (h i (Finset.mem_univ i)), fun h i _ => (one i).2.2 (h i)⟩

/-! ## The hypotheses are met -/

/-- Two normal targets with mean 1 and variance 4; predicting mean 0 and standard deviation 1 has a strictly larger expected
`nll_gaussian` and `crps_gaussian` than predicting the truth. -/
example : ∃ (T : Fin (shapeSize [2]) → ℝ → ℝ) (b e b' e' : ℝ),
    ExpectedScore (gaussianReal 1 4) (fun ω => nllGaussian ⟨[2], fun _ => 1⟩ ⟨[2], fun _ => 2⟩ ⟨[2], fun i => T i ω⟩) b ∧
    ExpectedScore (gaussianReal 1 4) (fun ω => nllGaussian ⟨[2], fun _ => 0⟩ ⟨[2], fun _ => 1⟩ ⟨[2], fun i => T i ω⟩) e ∧ b < e ∧
    ExpectedScore (gaussianReal 1 4) (fun ω => crpsGaussian ⟨[2], fun _ => 1⟩ ⟨[2], fun _ => 2⟩ ⟨[2], fun i => T i ω⟩) b' ∧
    ExpectedScore (gaussianReal 1 4) (fun ω => crpsGaussian ⟨[2], fun _ => 0⟩ ⟨[2], fun _ => 1⟩ ⟨[2], fun i => T i ω⟩) e' ∧ b' < e' := by
  have hT : MemLp (fun ω : ℝ => ω) 2 (gaussianReal 1 4) := memLp_id_gaussianReal 2
  have hv : Var[fun ω : ℝ => ω; gaussianReal 1 4] = 4 := by rw [variance_fun_id_gaussianReal]; norm_num
  have hm : ∫ ω, ω ∂(gaussianReal 1 4) = (1 : ℝ) := integral_id_gaussianReal
  have hsq : Real.sqrt 4 = 2 := by rw [show (4 : ℝ) = 2 ^ 2 by norm_num]; exact Real.sqrt_sq (by norm_num)
  have h2 : (2 : ℝ) ^ 2 = 4 := by norm_num
  obtain ⟨b, e, h1, h3, h4, h5⟩ := C72_nll (P := gaussianReal 1 4) [2] (fun _ ω => ω) (fun _ => hT)
    (fun _ => by rw [hv]; norm_num) (by decide) (fun _ => 0) (fun _ => 1) (fun _ => one_pos) true
  obtain ⟨b', e', h1', h3', h4', h5'⟩ := C72_crps (P := gaussianReal 1 4) [2] (fun _ ω => ω) (fun _ => measurable_id)
    (fun _ => 1) (fun _ => 2) (fun _ => two_pos)
    (fun _ => by
      have : Real.toNNReal ((2 : ℝ) ^ 2) = 4 := by rw [h2]; simp
      rw [this]; exact Measure.map_id)
    (by decide) (fun _ => 0) (fun _ => 1) (fun _ => one_pos) true
  simp only [hm, hv, hsq] at h1 h5
  refine ⟨fun _ ω => ω, b, e, b', e', h1, h3, lt_of_le_of_ne h4 fun h => ?_, h1', h3', lt_of_le_of_ne h4' fun h => ?_⟩
  · exact absurd ((h5.1 h) ⟨0, by decide⟩).1 (by norm_num)
  · exact absurd ((h5'.1 h) ⟨0, by decide⟩).1 (by norm_num)

/-- A random label (the sign of a normal variable): predicting the non-probabilities `(3, -2)` scores strictly worse than the truth. -/
example : ∃ (Y : Fin 1 → ℝ → Fin 2) (best e : ℝ), (∀ i, Measurable (Y i)) ∧
    ExpectedScore (gaussianReal 0 1) (fun ω => .ok (multiclassBrier (fun i k => (gaussianReal 0 1).real (Y i ⁻¹' {k}))
      (.labels fun i => ((Y i ω).val : ℤ)))) best ∧
    ExpectedScore (gaussianReal 0 1) (fun ω => .ok (multiclassBrier (fun _ => ![3, -2]) (.labels fun i => ((Y i ω).val : ℤ)))) e ∧
    e < best := by
  have hY : ∀ i : Fin 1, Measurable ((fun _ ω => if ω ≤ 0 then 0 else 1 : Fin 1 → ℝ → Fin 2) i) := fun i =>
    Measurable.ite measurableSet_Iic measurable_const measurable_const
  obtain ⟨b, e, h1, h2, h3, h4⟩ := C72_brier (P := gaussianReal 0 1) one_pos
    (fun _ ω => if ω ≤ 0 then 0 else 1) hY (fun _ => ![3, -2])
  refine ⟨_, b, e, hY, h1, h2, lt_of_le_of_ne h3 fun h => ?_⟩
  have h5 := (h4.1 h) 0 0
  have h6 : (gaussianReal 0 1).real ((fun ω : ℝ => if ω ≤ 0 then (0 : Fin 2) else 1) ⁻¹' {0}) ≤ 1 := measureReal_le_one
  have h7 : (![3, -2] : Vec 2) 0 = 3 := rfl
  rw [h7] at h5
  linarith

end Laplax.Props
