import Mathlib.Probability.Moments.Covariance
import Mathlib.Tactic.FieldSimp
import Mathlib.Tactic.Ring
import Mathlib.Algebra.BigOperators.Field
import Verif.Spec.Pushforward

/-! # Moments of the empirical mean and covariance of uncorrelated samples -/

namespace Laplax
open MeasureTheory ProbabilityTheory Laplax.Spec
open scoped BigOperators

/-- The centred cross products of two finite families. -/
theorem sum_centred {S : ℕ} (hS : 0 < S) (a b : Fin S → ℝ) :
    ∑ i, (a i - (∑ l, a l) / S) * (b i - (∑ l, b l) / S) = ∑ i, a i * b i - (∑ i, a i) * (∑ i, b i) / S := by
  have hS' : (S : ℝ) ≠ 0 := by positivity
  have : ∀ i, (a i - (∑ l, a l) / S) * (b i - (∑ l, b l) / S) =
      a i * b i - a i * ((∑ l, b l) / S) - (∑ l, a l) / S * b i + (∑ l, a l) / S * ((∑ l, b l) / S) := fun i => by ring
  simp only [this, Finset.sum_add_distrib, Finset.sum_sub_distrib, ← Finset.sum_mul, ← Finset.mul_sum, Finset.sum_const,
    Finset.card_univ, Fintype.card_fin, nsmul_eq_mul]
  field_simp
  ring

section
variable {Ω : Type} [MeasurableSpace Ω] {μ : Measure Ω} [IsProbabilityMeasure μ] {S c : ℕ} {Y : Ω → Fin S → Fin c → ℝ}
  {m : Fin c → ℝ} {V : Fin c → Fin c → ℝ}

/-- The expectation of the empirical mean. -/
theorem integral_ensMean (hS : 0 < S) (hL : ∀ i j, Integrable (fun ω => Y ω i j) μ) (hm : ∀ i j, ∫ ω, Y ω i j ∂μ = m j) (j : Fin c) :
    ∫ ω, ensMean (Y ω) j ∂μ = m j := by
  have hS' : (S : ℝ) ≠ 0 := by positivity
  simp only [ensMean]
  rw [integral_div, integral_finsetSum _ (fun i _ => hL i j)]
  simp [hm]
  field_simp

/-- The covariance of the sums. -/
theorem cov_sum (hL : ∀ i j, MemLp (fun ω => Y ω i j) 2 μ) (hV : ∀ i j k, cov[fun ω => Y ω i j, fun ω => Y ω i k; μ] = V j k)
    (h0 : ∀ i l, i ≠ l → ∀ j k, cov[fun ω => Y ω i j, fun ω => Y ω l k; μ] = 0) (j k : Fin c) :
    cov[fun ω => ∑ i, Y ω i j, fun ω => ∑ i, Y ω i k; μ] = S * V j k := by
  rw [covariance_fun_sum_fun_sum (fun i => hL i j) (fun i => hL i k)]
  have : ∀ i : Fin S, ∑ l, cov[fun ω => Y ω i j, fun ω => Y ω l k; μ] = V j k := by
    intro i
    rw [Finset.sum_eq_single i (fun l _ hl => h0 i l hl.symm j k) (by simp), hV]
  simp [this]

/-- The covariance of the empirical mean. -/
theorem cov_ensMean (hS : 0 < S) (hL : ∀ i j, MemLp (fun ω => Y ω i j) 2 μ)
    (hV : ∀ i j k, cov[fun ω => Y ω i j, fun ω => Y ω i k; μ] = V j k)
    (h0 : ∀ i l, i ≠ l → ∀ j k, cov[fun ω => Y ω i j, fun ω => Y ω l k; μ] = 0) (j k : Fin c) :
    cov[fun ω => ensMean (Y ω) j, fun ω => ensMean (Y ω) k; μ] = V j k / S := by
  have hS' : (S : ℝ) ≠ 0 := by positivity
  simp only [ensMean]
  rw [covariance_fun_div_left, covariance_fun_div_right, cov_sum hL hV h0]
  field_simp

/-- The expectation of the empirical covariance. -/
theorem integral_ensCov (hS : 0 < S) (hL : ∀ i j, MemLp (fun ω => Y ω i j) 2 μ) (hm : ∀ i j, ∫ ω, Y ω i j ∂μ = m j)
    (hV : ∀ i j k, cov[fun ω => Y ω i j, fun ω => Y ω i k; μ] = V j k)
    (h0 : ∀ i l, i ≠ l → ∀ j k, cov[fun ω => Y ω i j, fun ω => Y ω l k; μ] = 0) (d : ℝ) (j k : Fin c) :
    ∫ ω, ensCov (Y ω) d j k ∂μ = ((S : ℝ) - 1) / (S - d) * V j k := by
  have hS' : (S : ℝ) ≠ 0 := by positivity
  have hs : ∀ j, MemLp (fun ω => ∑ i, Y ω i j) 2 μ := fun j => memLp_finset_sum _ (fun i _ => hL i j)
  have i1 : ∀ i, Integrable (fun ω => Y ω i j * Y ω i k) μ := fun i => (hL i j).integrable_mul (hL i k)
  have i2 : Integrable (fun ω => (∑ i, Y ω i j) * (∑ i, Y ω i k)) μ := (hs j).integrable_mul (hs k)
  have e1 : ∀ i, ∫ ω, Y ω i j * Y ω i k ∂μ = V j k + m j * m k := by
    intro i
    have := covariance_eq_sub (hL i j) (hL i k)
    rw [hV, hm, hm] at this
    simp only [Pi.mul_apply] at this
    linarith
  have em : ∀ j, ∫ ω, ∑ i, Y ω i j ∂μ = S * m j := by
    intro j
    rw [integral_finsetSum _ (fun i _ => (hL i j).integrable (by norm_num))]
    simp [hm]
  have e2 : ∫ ω, (∑ i, Y ω i j) * (∑ i, Y ω i k) ∂μ = S * V j k + (S * m j) * (S * m k) := by
    have := covariance_eq_sub (hs j) (hs k)
    rw [cov_sum hL hV h0, em, em] at this
    simp only [Pi.mul_apply] at this
    linarith
  have hpt : ∀ ω, ensCov (Y ω) d j k = (∑ i, Y ω i j * Y ω i k - (∑ i, Y ω i j) * (∑ i, Y ω i k) / S) / (S - d) := by
    intro ω
    simp only [ensCov, ensMean, Matrix.of_apply]
    rw [sum_centred hS (fun i => Y ω i j) (fun i => Y ω i k)]
  simp only [hpt]
  rw [integral_div, integral_sub (integrable_finsetSum _ fun i _ => i1 i) (i2.div_const _), integral_finsetSum _ (fun i _ => i1 i),
    integral_div, e2]
  simp only [e1, Finset.sum_const, Finset.card_univ, Fintype.card_fin, nsmul_eq_mul]
  rw [div_mul_eq_mul_div]
  congr 1
  field_simp
  ring
end

end Laplax
