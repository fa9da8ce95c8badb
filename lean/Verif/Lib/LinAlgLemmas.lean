import Verif.Model.LinAlg
import Mathlib.LinearAlgebra.Matrix.PosDef
import Mathlib.Algebra.BigOperators.Fin
import Mathlib.Tactic.FieldSimp
import Mathlib.Tactic.LinearCombination

/-! # Correctness of the textbook Cholesky factorisation and triangular solves -/

namespace Laplax
open scoped BigOperators Matrix

variable {n : ℕ}

/-- Lower triangular. -/
def IsLower (L : Matrix (Fin n) (Fin n) ℝ) : Prop := ∀ i j, i < j → L i j = 0

theorem quad_pos {A : Matrix (Fin n) (Fin n) ℝ} (hA : A.PosDef) (x : Vec n) (hx : x ≠ 0) :
    0 < ∑ i, ∑ j, x i * A i j * x j := by
  have := hA.dotProduct_mulVec_pos hx
  simpa [dotProduct, Matrix.mulVec, Finset.mul_sum, mul_assoc] using this

theorem posDef_of_quad {A : Matrix (Fin n) (Fin n) ℝ} (hs : ∀ i j, A i j = A j i)
    (h : ∀ x : Vec n, x ≠ 0 → 0 < ∑ i, ∑ j, x i * A i j * x j) : A.PosDef := by
  apply Matrix.PosDef.of_dotProduct_mulVec_pos
  · ext i j; simp [hs i j]
  · intro x hx
    have := h x hx
    simpa [dotProduct, Matrix.mulVec, Finset.mul_sum, mul_assoc] using this

theorem posDef_symm {A : Matrix (Fin n) (Fin n) ℝ} (hA : A.PosDef) (i j : Fin n) : A i j = A j i := by
  have := congrFun (congrFun hA.isHermitian j) i
  simpa using this

theorem choleskyLower_spec : ∀ {n : ℕ} (A : Matrix (Fin n) (Fin n) ℝ), A.PosDef →
    IsLower (choleskyLower A) ∧ (∀ i, 0 < choleskyLower A i i) ∧
      ∀ i j, ∑ k, choleskyLower A i k * choleskyLower A j k = A i j
  | 0, A, _ => ⟨fun i => i.elim0, fun i => i.elim0, fun i => i.elim0⟩
  | n + 1, A, hA => by
    have hs := posDef_symm hA
    have ha : 0 < A 0 0 := by
      have := quad_pos hA (Pi.single 0 1) (by
        intro h; have := congrFun h 0; simp at this)
      simpa [Pi.single_apply] using this
    set d := Real.sqrt (A 0 0) with hd
    have hdpos : 0 < d := Real.sqrt_pos.2 ha
    have hdd : d * d = A 0 0 := Real.mul_self_sqrt ha.le
    set l : Fin n → ℝ := fun i => A i.succ 0 / d with hl
    have hld : ∀ i, l i * d = A i.succ 0 := fun i => by simp only [hl]; field_simp
    set S : Matrix (Fin n) (Fin n) ℝ := fun i j => A i.succ j.succ - l i * l j with hS
    have hSpd : S.PosDef := by
      apply posDef_of_quad
      · intro i j; simp only [hS, hs i.succ j.succ]; ring
      · intro x hx
        set q : ℝ := ∑ i, l i * x i with hq
        set y : Vec (n + 1) := Fin.cons (-(q / d)) x with hy
        have hy0 : y ≠ 0 := by
          intro h; apply hx; funext i
          have := congrFun h i.succ; simpa [hy] using this
        have hpos := quad_pos hA y hy0
        have e1 : ∑ i, ∑ j, y i * A i j * y j =
            (q / d) ^ 2 * A 0 0 - 2 * (q / d) * (∑ i, A i.succ 0 * x i) + ∑ i, ∑ j, x i * A i.succ j.succ * x j := by
          rw [Fin.sum_univ_succ]
          simp only [Fin.sum_univ_succ, hy, Fin.cons_zero, Fin.cons_succ, hs 0]
          rw [Finset.sum_add_distrib, Finset.mul_sum]
          have h1 : ∀ i : Fin n, -(q / d) * A i.succ 0 * x i = -(q / d * (A i.succ 0 * x i)) := fun i => by ring
          have h2 : ∀ i : Fin n, x i * A i.succ 0 * -(q / d) = -(q / d * (A i.succ 0 * x i)) := fun i => by ring
          have h3 : ∀ i : Fin n, 2 * (q / d) * (A i.succ 0 * x i) = 2 * (q / d * (A i.succ 0 * x i)) := fun i => by ring
          simp only [h1, h2, h3, Finset.sum_neg_distrib, ← Finset.mul_sum]
          ring
        have e2 : ∑ i, A i.succ 0 * x i = d * q := by
          rw [hq, Finset.mul_sum]; refine Finset.sum_congr rfl fun i _ => ?_
          rw [← hld i]; ring
        have e3 : ∑ i, ∑ j, x i * S i j * x j = (∑ i, ∑ j, x i * A i.succ j.succ * x j) - q ^ 2 := by
          have : q ^ 2 = ∑ i, ∑ j, x i * (l i * l j) * x j := by
            rw [pow_two, hq, Finset.sum_mul_sum]
            refine Finset.sum_congr rfl fun i _ => Finset.sum_congr rfl fun j _ => by ring
          rw [this, ← Finset.sum_sub_distrib]
          refine Finset.sum_congr rfl fun i _ => ?_
          rw [← Finset.sum_sub_distrib]
          refine Finset.sum_congr rfl fun j _ => ?_
          simp only [hS]; ring
        rw [e3]
        rw [e1, e2, ← hdd] at hpos
        have : (q / d) ^ 2 * (d * d) - 2 * (q / d) * (d * q) = -q ^ 2 := by field_simp; ring
        linarith
    obtain ⟨ihL, ihd, ihm⟩ := choleskyLower_spec S hSpd
    have h00 : choleskyLower A 0 0 = d := rfl
    have h0s : ∀ j : Fin n, choleskyLower A 0 j.succ = 0 := fun j => rfl
    have hs0 : ∀ i : Fin n, choleskyLower A i.succ 0 = l i := fun i => rfl
    have hss : ∀ i j : Fin n, choleskyLower A i.succ j.succ = choleskyLower S i j := fun i j => rfl
    refine ⟨?_, ?_, ?_⟩
    · intro i j hij
      refine Fin.cases ?_ (fun j' => ?_) j hij
      · intro h; exact absurd h (Fin.not_lt_zero i)
      · refine Fin.cases ?_ (fun i' => ?_) i
        · intro _; exact h0s j'
        · intro h; rw [hss]; exact ihL i' j' (Fin.succ_lt_succ_iff.1 h)
    · intro i
      refine Fin.cases ?_ (fun i' => ?_) i
      · rw [h00]; exact hdpos
      · rw [hss]; exact ihd i'
    · intro i j
      rw [Fin.sum_univ_succ]
      refine Fin.cases ?_ (fun i' => ?_) i
      · refine Fin.cases ?_ (fun j' => ?_) j
        · simp [h00, h0s, hdd]
        · simp only [h00, h0s, hs0, zero_mul, Finset.sum_const_zero, add_zero]
          rw [hs 0, ← hld]; ring
      · refine Fin.cases ?_ (fun j' => ?_) j
        · simp only [h00, h0s, hs0, mul_zero, Finset.sum_const_zero, add_zero]
          rw [← hld]
        · simp only [hs0, hss, ihm]; simp only [hS]; ring

theorem jnpCholesky_eq {A : Matrix (Fin n) (Fin n) ℝ} (hA : A.PosDef) : jnpCholesky A = choleskyLower A := by
  unfold jnpCholesky; congr 1; funext i j; rw [posDef_symm hA j i]; ring

theorem forwardSubst_spec : ∀ {n : ℕ} (M : Matrix (Fin n) (Fin n) ℝ) (b : Vec n), IsLower M → (∀ i, M i i ≠ 0) →
    M *ᵥ forwardSubst M b = b
  | 0, _, _, _, _ => funext fun i => i.elim0
  | n + 1, M, b, hL, hd => by
    set x0 := b 0 / M 0 0
    set M' : Matrix (Fin n) (Fin n) ℝ := fun i j => M i.succ j.succ with hM'
    have ih := forwardSubst_spec M' (fun i => b i.succ - M i.succ 0 * x0)
      (fun i j h => hL _ _ (Fin.succ_lt_succ_iff.2 h)) (fun i => hd _)
    funext i
    rw [Matrix.mulVec, dotProduct, Fin.sum_univ_succ]
    have e0 : forwardSubst M b 0 = x0 := rfl
    have es : ∀ j : Fin n, forwardSubst M b j.succ = forwardSubst M' (fun i => b i.succ - M i.succ 0 * x0) j :=
      fun j => rfl
    rw [e0]; simp only [es]
    refine Fin.cases ?_ (fun i' => ?_) i
    · have : ∀ j : Fin n, M 0 j.succ = 0 := fun j => hL _ _ (Fin.succ_pos j)
      simp only [this, zero_mul, Finset.sum_const_zero, add_zero]
      have := hd 0
      simp only [x0]; field_simp
    · have h := congrFun ih i'
      rw [Matrix.mulVec, dotProduct] at h
      simp only [hM'] at h ⊢
      rw [h]; ring

theorem sum_rev {f : Fin n → ℝ} : ∑ k : Fin n, f k.rev = ∑ k, f k :=
  Equiv.sum_comp Fin.revPerm f

end Laplax

namespace Laplax
open scoped BigOperators Matrix

variable {n : ℕ}

theorem forwardSubst_zero_prefix : ∀ {n : ℕ} (M : Matrix (Fin n) (Fin n) ℝ) (b : Vec n) (k : ℕ),
    (∀ i : Fin n, i.val < k → b i = 0) → ∀ i : Fin n, i.val < k → forwardSubst M b i = 0
  | 0, _, _, _, _ => fun i => i.elim0
  | n + 1, M, b, k, hb => by
    intro i hi
    have hb0 : b 0 = 0 := hb 0 (Nat.lt_of_le_of_lt (Nat.zero_le _) hi)
    refine Fin.cases ?_ (fun i' => ?_) i hi
    · intro _; change b 0 / M 0 0 = 0; rw [hb0, zero_div]
    · intro h
      refine forwardSubst_zero_prefix _ _ (k - 1) ?_ i' ?_
      · intro j hj
        rw [hb j.succ (by simp; omega), hb0]; simp
      · simp at h; omega

theorem flip2_posDef {A : Matrix (Fin n) (Fin n) ℝ} (hA : A.PosDef) : (flip2 A).PosDef := by
  apply posDef_of_quad
  · intro i j; exact posDef_symm hA _ _
  · intro x hx
    have := quad_pos hA (fun i => x i.rev) (by
      intro h; apply hx; funext i; have := congrFun h i.rev; simpa using this)
    have e : ∑ i, ∑ j, x i.rev * A i j * x j.rev = ∑ i, ∑ j, x i * flip2 A i j * x j := by
      rw [← sum_rev]
      refine Finset.sum_congr rfl fun i _ => ?_
      rw [← sum_rev]
      refine Finset.sum_congr rfl fun j _ => ?_
      simp [flip2]
    rwa [e] at this

/-- The upper factor `A = flip (cholesky (flip P))`: upper triangular, positive diagonal, `A Aᵀ = P`. -/
theorem flipCholesky_spec {P : Matrix (Fin n) (Fin n) ℝ} (hP : P.PosDef) :
    let A := flip2 (jnpCholesky (flip2 P))
    (∀ i j, j < i → A i j = 0) ∧ (∀ i, 0 < A i i) ∧ A * Aᵀ = P := by
  intro A
  have hF := flip2_posDef hP
  obtain ⟨h1, h2, h3⟩ := choleskyLower_spec _ hF
  have hA : ∀ i j, A i j = choleskyLower (flip2 P) i.rev j.rev := fun i j => by
    simp only [A, jnpCholesky_eq hF]; rfl
  refine ⟨fun i j h => ?_, fun i => ?_, ?_⟩
  · rw [hA]; exact h1 _ _ (Fin.rev_lt_rev.2 h)
  · rw [hA]; exact h2 _
  · ext i j
    rw [Matrix.mul_apply]
    simp only [Matrix.transpose_apply, hA]
    rw [sum_rev (f := fun k => choleskyLower (flip2 P) i.rev k * choleskyLower (flip2 P) j.rev k), h3]
    simp [flip2]

end Laplax
