import Verif.Spec.LowRankTerms
import Verif.Model.Posterior
import Verif.Lib.LinAlgLemmas
import Verif.Spec.Posterior
import Verif.Lib.TreeLemmas
import Mathlib.Tactic.NormNum
import Mathlib.Algebra.Order.Star.Real

/-! # C19–C22: posteriors of the three approximations -/

namespace Laplax.Props
open Laplax Laplax.Spec
open scoped Matrix BigOperators

variable {p r : ℕ}

theorem precision_apply (C : Matrix (Fin p) (Fin p) ℝ) (τ σ2 s : ℝ) (i j : Fin p) :
    precision C τ σ2 s i j = (σ2 * C i j + τ * (if i = j then 1 else 0)) / s := by
  simp [precision, Matrix.one_apply]; ring

/-- A positive semidefinite curvature, a positive prior precision, `σ² ≥ 0` and a positive loss scaling give a positive
definite precision. -/
theorem precision_posDef {C : Matrix (Fin p) (Fin p) ℝ} (hC : C.PosSemidef) {τ σ2 s : ℝ} (hτ : 0 < τ) (hσ : 0 ≤ σ2)
    (hs : 0 < s) : (precision C τ σ2 s).PosDef := by
  unfold precision
  apply Matrix.PosDef.smul _ (inv_pos.2 hs)
  exact Matrix.PosDef.posSemidef_add (hC.smul hσ) (Matrix.PosDef.one.smul hτ)

theorem fullPrec_eq (C : Matrix (Fin p) (Fin p) ℝ) (a : PriorArgs) {τ : ℝ} (hτ : a.priorPrec = some τ) (s : ℝ) :
    fullCurvatureToPrecision C a s = .ok (precision C τ (a.sigmaSquared.getD 1) s) := by
  simp only [fullCurvatureToPrecision, PriorArgs.getPriorPrec, hτ, ok_bind]
  congr 1; funext i j; rw [precision_apply]; rfl

theorem fullScale_spec {P : Matrix (Fin p) (Fin p) ℝ} (hP : P.PosDef) :
    fullPrecToScale P * (fullPrecToScale P)ᵀ = P⁻¹ ∧ IsLower (fullPrecToScale P) := by
  obtain ⟨h1, h2, h3⟩ := flipCholesky_spec hP
  set A := flip2 (jnpCholesky (flip2 P)) with hA
  have htr : transposeAxes A (-2, -1) = A := by simp [transposeAxes]
  have hdef : ∀ i j, fullPrecToScale P i j = forwardSubst Aᵀ (fun k => if k = j then 1 else 0) i := by
    intro i j
    simp only [fullPrecToScale, ← hA, htr, solveTriangularMat, solveTriangular]
    rfl
  have hsolve : Aᵀ * fullPrecToScale P = 1 := by
    ext i j
    have := congrFun (forwardSubst_spec Aᵀ (fun k => if k = j then (1 : ℝ) else 0)
      (fun i j h => h1 j i h) (fun i => (h2 i).ne')) i
    rw [Matrix.mulVec, dotProduct] at this
    rw [Matrix.mul_apply, Matrix.one_apply]
    simpa only [hdef] using this
  set S := fullPrecToScale P with hS
  constructor
  · symm
    apply Matrix.inv_eq_left_inv
    have hT : Sᵀ * A = 1 := by
      have := congrArg Matrix.transpose hsolve
      simpa [Matrix.transpose_mul] using this
    have h' : S * Aᵀ = 1 := mul_eq_one_comm.1 hsolve
    calc S * Sᵀ * P = S * Sᵀ * (A * Aᵀ) := by rw [h3]
      _ = S * (Sᵀ * A) * Aᵀ := by simp only [Matrix.mul_assoc]
      _ = 1 := by rw [hT, Matrix.mul_one, h']
  · intro i j hij
    rw [hdef]
    refine forwardSubst_zero_prefix _ _ j.val ?_ i hij
    intro k hk
    rw [if_neg]; intro h; rw [h] at hk; exact lt_irrefl _ hk

theorem posDef_mul_inv {P : Matrix (Fin p) (Fin p) ℝ} (hP : P.PosDef) : P * P⁻¹ = 1 :=
  Matrix.mul_nonsing_inv _ ((Matrix.isUnit_iff_isUnit_det _).1 hP.isUnit)

/-- C19: whenever the precision is positive definite, the FULL posterior is the Gaussian with that precision, and its
scale factor is lower triangular. -/
theorem C19_full_posterior (C : Matrix (Fin p) (Fin p) ℝ) (a : PriorArgs) (τ : ℝ) (hτ : a.priorPrec = some τ) (s : ℝ)
    (hpd : (precision C τ (a.sigmaSquared.getD 1) s).PosDef) :
    ∃ st, posteriorState (.full C) a s = .ok st ∧
      IsPosterior (precision C τ (a.sigmaSquared.getD 1) s) (covMvOfState st) (scaleMvOfState st) ∧
      ∃ S : Matrix (Fin p) (Fin p) ℝ, (∀ v, scaleMvOfState st v = S *ᵥ v) ∧ ∀ i j, i < j → S i j = 0 := by
  set P := precision C τ (a.sigmaSquared.getD 1) s with hP
  obtain ⟨h1, h2⟩ := fullScale_spec hpd
  refine ⟨.full (fullPrecToScale P), ?_, ⟨posDef_mul_inv hpd, hpd.inv, ?_, fullPrecToScale P, fun v => rfl, h1⟩,
    fullPrecToScale P, fun v => rfl, h2⟩
  · simp only [posteriorState, fullPrec_eq C a hτ, ok_bind]; rfl
  · intro v; simp only [covMvOfState, fullCovMv, h1]

/-- C19, the case users rely on: positive semidefinite curvature, positive prior precision. -/
theorem C19_full_posterior_psd (C : Matrix (Fin p) (Fin p) ℝ) (hC : C.PosSemidef) (a : PriorArgs) (τ : ℝ)
    (hτ : a.priorPrec = some τ) (hτ0 : 0 < τ) (hσ : ∀ t, a.sigmaSquared = some t → 0 ≤ t) (s : ℝ) (hs : 0 < s) :
    ∃ st, posteriorState (.full C) a s = .ok st ∧
      IsPosterior (precision C τ (a.sigmaSquared.getD 1) s) (covMvOfState st) (scaleMvOfState st) := by
  have hσ' : 0 ≤ a.sigmaSquared.getD 1 := by
    cases h : a.sigmaSquared with
    | none => simp
    | some t => simpa using hσ t h
  obtain ⟨st, h1, h2, _⟩ := C19_full_posterior C a τ hτ s (precision_posDef hC hτ0 hσ' hs)
  exact ⟨st, h1, h2⟩

/-- C19: without a prior precision every approximation raises `KeyError`. -/
theorem C19_prior_prec_required (e : CurvEstimate p) (a : PriorArgs) (h : a.priorPrec = none) (s : ℝ) :
    posteriorState e a s = .error .keyError := by
  cases e <;> simp only [posteriorState, fullCurvatureToPrecision, diagonalCurvatureToPrecision,
    lowRankCurvatureToPrecision, PriorArgs.getPriorPrec, h] <;> rfl

/-- Non-vacuity: a non-diagonal positive semidefinite curvature. -/
example : (!![2, 2; 2, 2] : Matrix (Fin 2) (Fin 2) ℝ).PosSemidef ∧
    (!![2, 2; 2, 2] : Matrix (Fin 2) (Fin 2) ℝ) 0 1 ≠ 0 := by
  refine ⟨?_, by norm_num⟩
  have : (!![2, 2; 2, 2] : Matrix (Fin 2) (Fin 2) ℝ) = (!![1, 1; 1, 1])ᴴ * !![1, 1; 1, 1] := by
    ext i j; fin_cases i <;> fin_cases j <;> norm_num [Matrix.mul_apply, Fin.sum_univ_two, Matrix.conjTranspose_apply]
  rw [this]; exact Matrix.posSemidef_conjTranspose_mul_self _

/-! ## C20 -/

/-- C20: the DIAGONAL posterior with a positive precision is entrywise `1/precision`; scale twice is the covariance. -/
theorem C20_diagonal_posterior (d : Vec p) (a : PriorArgs) (τ : ℝ) (hτ : a.priorPrec = some τ) (s : ℝ)
    (hpd : ∀ i, 0 < (a.sigmaSquared.getD 1 * d i + τ) / s) :
    ∃ st, posteriorState (.diagonal d) a s = .ok st ∧
      (∀ v i, covMvOfState st v i = v i / ((a.sigmaSquared.getD 1 * d i + τ) / s)) ∧
      (∀ v, scaleMvOfState st (scaleMvOfState st v) = covMvOfState st v) ∧
      (∀ v i, 0 < v i → 0 < scaleMvOfState st v i) := by
  refine ⟨_, by simp only [posteriorState, diagonalCurvatureToPrecision, PriorArgs.getPriorPrec, hτ, ok_bind]; rfl, ?_, ?_, ?_⟩
  · intro v i
    have := hpd i
    simp only [diagonalPrecToPosteriorState, covMvOfState, diagonalCovMv, diagonalScale, PriorArgs.getSigmaSquared, mul_one]
    rw [Real.sq_sqrt (by positivity)]; ring
  · intro v; funext i
    simp only [diagonalPrecToPosteriorState, scaleMvOfState, covMvOfState, diagonalCovMv, diagonalScaleMv]; ring
  · intro v i hv
    have := hpd i
    simp only [diagonalPrecToPosteriorState, scaleMvOfState, diagonalScaleMv, diagonalScale, PriorArgs.getSigmaSquared,
      mul_one]
    have : 0 < Real.sqrt (1 / ((a.sigmaSquared.getD 1 * d i + τ) / s)) := Real.sqrt_pos.2 (by positivity)
    positivity

/-- The posterior products of a diagonal estimate are those of a Gaussian with the diagonal precision matrix. -/
theorem C20_diagonal_is_posterior (d : Vec p) (a : PriorArgs) (τ : ℝ) (hτ : a.priorPrec = some τ) (s : ℝ)
    (hpd : ∀ i, 0 < (a.sigmaSquared.getD 1 * d i + τ) / s) :
    ∃ st, posteriorState (.diagonal d) a s = .ok st ∧
      IsPosterior (precision (Matrix.diagonal d) τ (a.sigmaSquared.getD 1) s) (covMvOfState st) (scaleMvOfState st) := by
  set q : Vec p := fun i => (a.sigmaSquared.getD 1 * d i + τ) / s with hq
  have hP : precision (Matrix.diagonal d) τ (a.sigmaSquared.getD 1) s = Matrix.diagonal q := by
    ext i j
    rw [precision_apply]
    by_cases h : i = j
    · subst h; simp [hq]
    · simp [h]
  have hpd' : (Matrix.diagonal q).PosDef := Matrix.PosDef.diagonal hpd
  have hinv : (Matrix.diagonal q)⁻¹ = Matrix.diagonal (fun i => 1 / q i) := by
    apply Matrix.inv_eq_left_inv
    rw [Matrix.diagonal_mul_diagonal, ← Matrix.diagonal_one]
    congr 1; funext i; exact one_div_mul_cancel (hpd i).ne'
  refine ⟨.diagonal (diagonalScale q), ?_, ?_⟩
  · simp only [posteriorState, diagonalCurvatureToPrecision, PriorArgs.getPriorPrec, hτ, ok_bind, mul_one]; rfl
  · rw [hP]
    refine ⟨posDef_mul_inv hpd', hpd'.inv, ?_, Matrix.diagonal (diagonalScale q), ?_, ?_⟩
    · intro v; funext i
      have := hpd i
      rw [hinv, Matrix.mulVec_diagonal]
      simp only [covMvOfState, diagonalCovMv, diagonalScale]
      rw [Real.sq_sqrt (by simp only [hq]; positivity)]
    · intro v; funext i
      rw [Matrix.mulVec_diagonal]; rfl
    · rw [hinv, Matrix.diagonal_transpose, Matrix.diagonal_mul_diagonal]
      congr 1; funext i
      have := hpd i
      simp only [diagonalScale]
      exact Real.mul_self_sqrt (by simp only [hq]; positivity)

/-- C20: DIAGONAL and FULL agree whenever the curvature is a diagonal matrix. -/
theorem C20_diagonal_eq_full (d : Vec p) (hd : ∀ i, 0 ≤ d i) (a : PriorArgs) (τ : ℝ) (hτ : a.priorPrec = some τ)
    (hτ0 : 0 < τ) (hσ : 0 ≤ a.sigmaSquared.getD 1) (s : ℝ) (hs : 0 < s) :
    ∃ st st', posteriorState (.diagonal d) a s = .ok st ∧ posteriorState (.full (Matrix.diagonal d)) a s = .ok st' ∧
      ∀ v, covMvOfState st v = covMvOfState st' v := by
  obtain ⟨st, h1, h2⟩ := C20_diagonal_is_posterior d a τ hτ s (fun i => by have := hd i; positivity)
  obtain ⟨st', h1', h2', _⟩ := C19_full_posterior (Matrix.diagonal d) a τ hτ s
    (precision_posDef (Matrix.PosSemidef.diagonal hd) hτ0 hσ hs)
  exact ⟨st, st', h1, h1', fun v => by rw [h2.2.2.1, h2'.2.2.1]⟩

/-! ## C21 -/

theorem createLowRankMv_eq (t : LowRankTerms p r) (v : Vec p) : createLowRankMv t v = lowRankMatrix t *ᵥ v := by
  funext i
  have : (fun k => t.S k * (t.Uᵀ *ᵥ v) k) = Matrix.diagonal t.S *ᵥ (t.Uᵀ *ᵥ v) := by
    funext k; rw [Matrix.mulVec_diagonal]
  simp only [createLowRankMv, this, lowRankMatrix, Matrix.add_mulVec, Matrix.smul_mulVec, Matrix.one_mulVec,
    Matrix.mulVec_mulVec, Matrix.mul_assoc]
  rfl

theorem lowRank_mul (U : Matrix (Fin p) (Fin r) ℝ) (hU : Uᵀ * U = 1) (S T : Vec r) (c e : ℝ) :
    lowRankMatrix ⟨U, S, c⟩ * lowRankMatrix ⟨U, T, e⟩ =
      lowRankMatrix ⟨U, fun k => c * T k + e * S k + S k * T k, c * e⟩ := by
  have key : U * Matrix.diagonal S * Uᵀ * (U * Matrix.diagonal T * Uᵀ) =
      U * Matrix.diagonal (fun k => S k * T k) * Uᵀ := by
    calc U * Matrix.diagonal S * Uᵀ * (U * Matrix.diagonal T * Uᵀ)
        = U * Matrix.diagonal S * (Uᵀ * U) * Matrix.diagonal T * Uᵀ := by simp only [Matrix.mul_assoc]
      _ = _ := by rw [hU, Matrix.mul_one, Matrix.mul_assoc U, Matrix.diagonal_mul_diagonal]
  have hd : Matrix.diagonal (fun k => c * T k + e * S k + S k * T k) =
      c • Matrix.diagonal T + e • Matrix.diagonal S + Matrix.diagonal (fun k => S k * T k) := by
    ext i j; by_cases h : i = j
    · subst h; simp
    · simp [h]
  simp only [lowRankMatrix, hd, Matrix.mul_add, Matrix.add_mul, key, Matrix.smul_mul, Matrix.mul_smul, Matrix.one_mul,
    Matrix.mul_one]
  rw [smul_add, smul_smul, mul_comm e c]
  abel

/-- The matrix of low-rank terms with positive spectrum is positive definite (no orthonormality needed for `S ≥ 0`). -/
theorem lowRank_posDef (t : LowRankTerms p r) (hS : ∀ k, 0 ≤ t.S k) (hc : 0 < t.scalar) : (lowRankMatrix t).PosDef := by
  have h1 : (t.U * Matrix.diagonal t.S * t.Uᵀ).PosSemidef := by
    have := (Matrix.PosSemidef.diagonal hS).mul_mul_conjTranspose_same t.U
    simpa using this
  exact Matrix.PosDef.add_posSemidef (Matrix.PosDef.one.smul hc) h1

theorem lowRankMatrix_symm (t : LowRankTerms p r) : (lowRankMatrix t)ᵀ = lowRankMatrix t := by
  simp [lowRankMatrix, Matrix.transpose_mul, Matrix.mul_assoc]

/-- C21: with orthonormal `U`, `S ≥ 0`, `prior_prec > 0`, the low-rank posterior is the Gaussian with precision
`(τ/s) I + σ² U diag(S) Uᵀ`; the scale product applied twice is the covariance product. The estimate's own `scalar` is
ignored. -/
theorem C21_low_rank_posterior (t : LowRankTerms p r) (hU : t.Uᵀ * t.U = 1) (hS : ∀ k, 0 ≤ t.S k) (a : PriorArgs)
    (τ : ℝ) (hτ : a.priorPrec = some τ) (hτ0 : 0 < τ) (hσ : 0 ≤ a.sigmaSquared.getD 1) (s : ℝ) (hs : 0 < s) :
    ∃ st, posteriorState (.lowRank t) a s = .ok st ∧
      IsPosterior ((τ / s) • (1 : Matrix (Fin p) (Fin p) ℝ) +
        a.sigmaSquared.getD 1 • (t.U * Matrix.diagonal t.S * t.Uᵀ)) (covMvOfState st) (scaleMvOfState st) ∧
      ∀ v, scaleMvOfState st (scaleMvOfState st v) = covMvOfState st v := by
  set σ2 := a.sigmaSquared.getD 1 with hσ2
  set q : LowRankTerms p r := { U := t.U, S := fun k => σ2 * t.S k, scalar := τ / s } with hq
  have hc : 0 < τ / s := by positivity
  have hQ : (τ / s) • (1 : Matrix (Fin p) (Fin p) ℝ) + σ2 • (t.U * Matrix.diagonal t.S * t.Uᵀ) = lowRankMatrix q := by
    have : Matrix.diagonal (fun k => σ2 * t.S k) = σ2 • Matrix.diagonal t.S := by
      ext i j; by_cases h : i = j
      · subst h; simp
      · simp [h]
    simp only [lowRankMatrix, hq, this, Matrix.mul_smul, Matrix.smul_mul]
  have hqS : ∀ k, 0 ≤ q.S k := fun k => mul_nonneg hσ (hS k)
  have hpd : (lowRankMatrix q).PosDef := lowRank_posDef q hqS hc
  set w := lowRankScale q with hw
  have hwU : w.U = t.U := rfl
  have hws : w.scalar ^ 2 = 1 / (τ / s) := by
    simp only [hw, lowRankScale, hq]; rw [div_pow, one_pow, Real.sq_sqrt hc.le]
  have hwS : ∀ k, (w.S k + w.scalar) ^ 2 = 1 / (q.S k + τ / s) := by
    intro k
    have hpos : 0 < q.S k + τ / s := by have := hqS k; positivity
    have : w.S k + w.scalar = 1 / Real.sqrt (q.S k + τ / s) := by simp only [hw, lowRankScale, hq]; ring
    rw [this, div_pow, one_pow, Real.sq_sqrt hpos.le]
  have hsq : lowRankMatrix w * lowRankMatrix w = lowRankMatrix (lowRankSquare w) := by
    have := lowRank_mul w.U (by rw [hwU]; exact hU) w.S w.S w.scalar w.scalar
    refine this.trans ?_
    unfold lowRankSquare
    congr 2
    · funext k; ring
    · ring
  have hinv : lowRankMatrix (lowRankSquare w) * lowRankMatrix q = 1 := by
    have := lowRank_mul t.U hU (lowRankSquare w).S q.S (lowRankSquare w).scalar q.scalar
    refine this.trans ?_
    have h1 : (lowRankSquare w).scalar * q.scalar = 1 := by
      change w.scalar ^ 2 * (τ / s) = 1
      rw [hws]; exact one_div_mul_cancel hc.ne'
    have h2 : (fun k => (lowRankSquare w).scalar * q.S k + q.scalar * (lowRankSquare w).S k +
        (lowRankSquare w).S k * q.S k) = 0 := by
      funext k
      have hpos : 0 < q.S k + τ / s := by have := hqS k; positivity
      change w.scalar ^ 2 * q.S k + (τ / s) * ((w.S k + w.scalar) ^ 2 - w.scalar ^ 2) +
        ((w.S k + w.scalar) ^ 2 - w.scalar ^ 2) * q.S k = 0
      rw [hws, hwS]
      have e1 : 1 / (q.S k + τ / s) * (q.S k + τ / s) = 1 := one_div_mul_cancel hpos.ne'
      have e2 : 1 / (τ / s) * (τ / s) = 1 := one_div_mul_cancel hc.ne'
      linear_combination e1 - e2
    simp only [lowRankMatrix, h1, h2, one_smul]
    simp
  have hcov : (lowRankMatrix q)⁻¹ = lowRankMatrix (lowRankSquare w) := Matrix.inv_eq_left_inv hinv
  refine ⟨.lowRank w, ?_, ?_, ?_⟩
  · simp only [posteriorState, lowRankCurvatureToPrecision, PriorArgs.getPriorPrec, hτ, ok_bind]; rfl
  · rw [hQ]
    refine ⟨posDef_mul_inv hpd, hpd.inv, ?_, lowRankMatrix w, ?_, ?_⟩
    · intro v; rw [hcov]; exact createLowRankMv_eq _ v
    · intro v; exact createLowRankMv_eq _ v
    · rw [lowRankMatrix_symm, hsq, hcov]
  · intro v
    change createLowRankMv w (createLowRankMv w v) = createLowRankMv (lowRankSquare w) v
    rw [createLowRankMv_eq, createLowRankMv_eq, createLowRankMv_eq, Matrix.mulVec_mulVec, hsq]

/-- C21: `low_rank_square` squares the operator (orthonormal `U`, any spectrum). -/
theorem C21_low_rank_square (t : LowRankTerms p r) (hU : t.Uᵀ * t.U = 1) (v : Vec p) :
    createLowRankMv (lowRankSquare t) v = createLowRankMv t (createLowRankMv t v) := by
  rw [createLowRankMv_eq, createLowRankMv_eq, createLowRankMv_eq, Matrix.mulVec_mulVec]
  congr 1
  refine Eq.trans ?_ (lowRank_mul t.U hU t.S t.S t.scalar t.scalar).symm
  unfold lowRankSquare
  congr 2
  · funext k; ring
  · ring

/-- C21: with `U diag(S) Uᵀ` equal to the curvature and no loss scaling, low-rank and FULL have the same covariance. -/
theorem C21_low_rank_eq_full (C : Matrix (Fin p) (Fin p) ℝ) (t : LowRankTerms p r) (hU : t.Uᵀ * t.U = 1)
    (hS : ∀ k, 0 ≤ t.S k) (hC : C = t.U * Matrix.diagonal t.S * t.Uᵀ) (a : PriorArgs)
    (τ : ℝ) (hτ : a.priorPrec = some τ) (hτ0 : 0 < τ) (hσ : 0 ≤ a.sigmaSquared.getD 1) :
    ∃ st st', posteriorState (.lowRank t) a 1 = .ok st ∧ posteriorState (.full C) a 1 = .ok st' ∧
      ∀ v, covMvOfState st v = covMvOfState st' v := by
  obtain ⟨st, h1, h2, _⟩ := C21_low_rank_posterior t hU hS a τ hτ hτ0 hσ 1 one_pos
  have hpsd : C.PosSemidef := by
    have := (Matrix.PosSemidef.diagonal hS).mul_mul_conjTranspose_same t.U
    rw [hC]; simpa using this
  obtain ⟨st', h1', h2', _⟩ := C19_full_posterior C a τ hτ 1 (precision_posDef hpsd hτ0 hσ one_pos)
  refine ⟨st, st', h1, h1', fun v => ?_⟩
  rw [h2.2.2.1, h2'.2.2.1]
  congr 2
  rw [← hC, precision, inv_one, one_smul, div_one, add_comm]

/-- Non-vacuity: orthonormal factors that are not a coordinate subspace. -/
example : ∃ t : LowRankTerms 2 1, t.Uᵀ * t.U = 1 ∧ (∀ k, 0 ≤ t.S k) ∧ (t.U * Matrix.diagonal t.S * t.Uᵀ) 0 1 ≠ 0 := by
  refine ⟨⟨!![3/5; 4/5], ![25], 0⟩, ?_, ?_, ?_⟩
  · ext i j; fin_cases i; fin_cases j; norm_num [Matrix.mul_apply, Fin.sum_univ_two]
  · intro k; fin_cases k; norm_num
  · norm_num [Matrix.mul_apply, Matrix.diagonal, Matrix.vecHead]

/-! ## C22 -/

/-- C22, proved part: with `loss_scaling_factor = 1` all three approximations give the same covariance whenever their
estimates denote the same positive semidefinite matrix.  Missing: other loss scaling factors for the low-rank kinds,
where the claim is false (next theorem). -/
theorem C22_same_posterior_partial (C : Matrix (Fin p) (Fin p) ℝ) (d : Vec p) (hd : ∀ i, 0 ≤ d i)
    (hC : C = Matrix.diagonal d) (t : LowRankTerms p r) (hU : t.Uᵀ * t.U = 1) (hS : ∀ k, 0 ≤ t.S k)
    (hC' : C = t.U * Matrix.diagonal t.S * t.Uᵀ) (a : PriorArgs) (τ : ℝ) (hτ : a.priorPrec = some τ) (hτ0 : 0 < τ)
    (hσ : 0 ≤ a.sigmaSquared.getD 1) :
    ∃ sf sd sl, posteriorState (.full C) a = .ok sf ∧ posteriorState (.diagonal d) a = .ok sd ∧
      posteriorState (.lowRank t) a = .ok sl ∧
      ∀ v, covMvOfState sf v = covMvOfState sd v ∧ covMvOfState sf v = covMvOfState sl v := by
  obtain ⟨sd, sf, h1, h2, h3⟩ := C20_diagonal_eq_full d hd a τ hτ hτ0 hσ 1 one_pos
  obtain ⟨sl, sf', g1, g2, g3⟩ := C21_low_rank_eq_full C t hU hS hC' a τ hτ hτ0 hσ
  rw [← hC, g2] at h2
  obtain rfl : sf' = sf := by injection h2
  exact ⟨sf', sd, sl, g2, h1, g1, fun v => ⟨(h3 v).symm, (g3 v).symm⟩⟩

/-- C22, FULL and DIAGONAL agree for every positive loss scaling factor. -/
theorem C22_full_diagonal (d : Vec p) (hd : ∀ i, 0 ≤ d i) (a : PriorArgs) (τ : ℝ) (hτ : a.priorPrec = some τ)
    (hτ0 : 0 < τ) (hσ : 0 ≤ a.sigmaSquared.getD 1) (s : ℝ) (hs : 0 < s) :
    ∃ sf sd, posteriorState (.full (Matrix.diagonal d)) a s = .ok sf ∧ posteriorState (.diagonal d) a s = .ok sd ∧
      ∀ v, covMvOfState sf v = covMvOfState sd v := by
  obtain ⟨sd, sf, h1, h2, h3⟩ := C20_diagonal_eq_full d hd a τ hτ hτ0 hσ s hs
  exact ⟨sf, sd, h2, h1, fun v => (h3 v).symm⟩

/-- C22 is false of the code for every loss scaling factor `s ≠ 1`: the low-rank precision divides only the prior
precision by `s`, so already for the `1 × 1` curvature `[1]` the low-rank and the FULL covariance differ. -/
theorem C22_low_rank_ignores_loss_scaling (s : ℝ) (hs : 0 < s) (hs1 : s ≠ 1) (a : PriorArgs) (τ : ℝ)
    (hτ : a.priorPrec = some τ) (hτ0 : 0 < τ) (hσ : a.sigmaSquared = none) :
    ∃ (t : LowRankTerms 1 1) (C : Matrix (Fin 1) (Fin 1) ℝ) (st st' : PosteriorState 1),
      t.Uᵀ * t.U = 1 ∧ (∀ k, 0 ≤ t.S k) ∧ C = t.U * Matrix.diagonal t.S * t.Uᵀ ∧
      posteriorState (.lowRank t) a s = .ok st ∧ posteriorState (.full C) a s = .ok st' ∧
      covMvOfState st ≠ covMvOfState st' := by
  have hσ1 : a.sigmaSquared.getD 1 = 1 := by simp [hσ]
  have hC : (1 : Matrix (Fin 1) (Fin 1) ℝ) = 1 * Matrix.diagonal (fun _ => 1) * (1 : Matrix (Fin 1) (Fin 1) ℝ)ᵀ := by
    simp
  set t : LowRankTerms 1 1 := ⟨1, fun _ => 1, 0⟩
  obtain ⟨st, h1, h2, _⟩ := C21_low_rank_posterior t (by simp [t]) (fun _ => zero_le_one) a τ hτ hτ0
    (by rw [hσ1]; norm_num) s hs
  obtain ⟨st', h1', h2', _⟩ := C19_full_posterior (1 : Matrix (Fin 1) (Fin 1) ℝ) a τ hτ s
    (precision_posDef Matrix.PosSemidef.one hτ0 (by rw [hσ1]; norm_num) hs)
  refine ⟨t, 1, st, st', by simp [t], fun _ => zero_le_one, hC, h1, h1', fun h => ?_⟩
  have e1 := h2.1
  have e2 := h2'.1
  have e3 := (congrFun h (fun _ => 1))
  rw [h2.2.2.1, h2'.2.2.1] at e3
  have e4 := congrFun e3 0
  have e1' := congrFun (congrFun e1 0) 0
  have e2' := congrFun (congrFun e2 0) 0
  simp only [Matrix.mulVec, dotProduct, Finset.univ_unique, Fin.default_eq_zero, Finset.sum_singleton, mul_one] at e4
  simp only [Matrix.mul_apply, Finset.univ_unique, Fin.default_eq_zero, Finset.sum_singleton, Matrix.one_apply_eq] at e1' e2'
  rw [precision_apply] at e2'
  rw [e4] at e1'
  simp only [hσ1, t, Matrix.add_apply, Matrix.smul_apply, Matrix.one_mul, Matrix.transpose_one, Matrix.mul_one,
    Matrix.one_apply_eq, Matrix.diagonal_apply_eq, smul_eq_mul, mul_one, if_true, one_mul] at e1' e2'
  set x := (precision (1 : Matrix (Fin 1) (Fin 1) ℝ) τ 1 s)⁻¹ 0 0
  have hx : x ≠ 0 := by intro h; rw [h, mul_zero] at e2'; exact zero_ne_one e2'
  have := mul_right_cancel₀ hx (e1'.trans e2'.symm)
  field_simp at this
  apply hs1; linarith

/-- C22, the exact condition: for a curvature estimate that both kinds represent, the low-rank and the FULL covariance agree if and only
if the loss scaling factor is 1 or the scaled curvature vanishes. -/
theorem C22_low_rank_iff (C : Matrix (Fin p) (Fin p) ℝ) (t : LowRankTerms p r) (hU : t.Uᵀ * t.U = 1) (hS : ∀ k, 0 ≤ t.S k)
    (hC : C = t.U * Matrix.diagonal t.S * t.Uᵀ) (a : PriorArgs) (τ : ℝ) (hτ : a.priorPrec = some τ) (hτ0 : 0 < τ)
    (hσ : 0 ≤ a.sigmaSquared.getD 1) (s : ℝ) (hs : 0 < s) :
    ∃ sl sf, posteriorState (.lowRank t) a s = .ok sl ∧ posteriorState (.full C) a s = .ok sf ∧
      ((∀ v, covMvOfState sl v = covMvOfState sf v) ↔ s = 1 ∨ a.sigmaSquared.getD 1 • C = 0) := by
  have hCp : C.PosSemidef := by
    rw [hC]
    have := (Matrix.PosSemidef.diagonal hS).mul_mul_conjTranspose_same t.U
    rwa [Matrix.conjTranspose_eq_transpose_of_trivial] at this
  obtain ⟨sl, h1, h2, _⟩ := C21_low_rank_posterior t hU hS a τ hτ hτ0 hσ s hs
  obtain ⟨sf, h1', h2', _⟩ := C19_full_posterior C a τ hτ s (precision_posDef hCp hτ0 hσ hs)
  refine ⟨sl, sf, h1, h1', ?_⟩
  rw [← hC] at h2
  have hprec : precision C τ (a.sigmaSquared.getD 1) s = (τ / s) • (1 : Matrix (Fin p) (Fin p) ℝ) + s⁻¹ • (a.sigmaSquared.getD 1 • C) := by
    unfold precision
    rw [smul_add, smul_smul, smul_smul, add_comm, div_eq_inv_mul]
  constructor
  · intro h
    have hinv : ((τ / s) • (1 : Matrix (Fin p) (Fin p) ℝ) + a.sigmaSquared.getD 1 • C)⁻¹ = (precision C τ (a.sigmaSquared.getD 1) s)⁻¹ := by
      apply Matrix.ext_iff_mulVec.2
      intro v
      rw [← h2.2.2.1 v, ← h2'.2.2.1 v]; exact h v
    have e1 := h2.1
    rw [hinv] at e1
    have e3 : (τ / s) • (1 : Matrix (Fin p) (Fin p) ℝ) + a.sigmaSquared.getD 1 • C = precision C τ (a.sigmaSquared.getD 1) s := by
      have hr := mul_eq_one_comm.1 h2'.1
      calc _ = ((τ / s) • (1 : Matrix (Fin p) (Fin p) ℝ) + a.sigmaSquared.getD 1 • C) *
            ((precision C τ (a.sigmaSquared.getD 1) s)⁻¹ * precision C τ (a.sigmaSquared.getD 1) s) := by rw [hr, Matrix.mul_one]
        _ = _ := by rw [← Matrix.mul_assoc, e1, Matrix.one_mul]
    rw [hprec] at e3
    have e4 : a.sigmaSquared.getD 1 • C = s⁻¹ • (a.sigmaSquared.getD 1 • C) := add_left_cancel e3
    by_cases h1s : s = 1
    · exact Or.inl h1s
    · right
      have : (1 - s⁻¹) • (a.sigmaSquared.getD 1 • C) = 0 := by rw [sub_smul, one_smul, ← e4, sub_self]
      rcases smul_eq_zero.1 this with h | h
      · exfalso; apply h1s
        have : s⁻¹ = 1 := by linarith
        rwa [inv_eq_one] at this
      · exact h
  · intro h v
    rw [h2.2.2.1, h2'.2.2.1, hprec]
    rcases h with h | h
    · rw [h, inv_one, one_smul]
    · rw [h, smul_zero]

end Laplax.Props
