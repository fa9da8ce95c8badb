import Verif.Props.Posterior

/-! # C19: the triangular solver the scale factor is computed with -/

namespace Laplax.Props
open Laplax Spec
open scoped BigOperators Matrix

variable {n : ℕ}

theorem forwardSubst_reads : ∀ {n : ℕ} (M N : Matrix (Fin n) (Fin n) ℝ) (b : Vec n), (∀ i j, j ≤ i → M i j = N i j) →
    forwardSubst M b = forwardSubst N b
  | 0, _, _, _, _ => rfl
  | n + 1, M, N, b, h => by
    have e0 : M 0 0 = N 0 0 := h 0 0 le_rfl
    have e1 : ∀ i : Fin n, M i.succ 0 = N i.succ 0 := fun i => h _ _ (Fin.zero_le _)
    funext i
    refine Fin.cases ?_ (fun i' => ?_) i
    · show b 0 / M 0 0 = b 0 / N 0 0
      rw [e0]
    · show forwardSubst (fun i j => M i.succ j.succ) (fun i => b i.succ - M i.succ 0 * (b 0 / M 0 0)) i' =
        forwardSubst (fun i j => N i.succ j.succ) (fun i => b i.succ - N i.succ 0 * (b 0 / N 0 0)) i'
      rw [e0]
      simp only [e1]
      exact congrFun (forwardSubst_reads _ _ _ fun i j hij => h _ _ (Fin.succ_le_succ_iff.2 hij)) i'

theorem backSubst_spec (M : Matrix (Fin n) (Fin n) ℝ) (b : Vec n) (hM : ∀ i j, j < i → M i j = 0) (hd : ∀ i, M i i ≠ 0) : M *ᵥ backSubst M b = b := by
  have h := forwardSubst_spec (flip2 M) (fun k => b k.rev) (fun i j hij => hM _ _ (Fin.rev_lt_rev.2 hij)) (fun i => hd i.rev)
  funext i
  have hi := congrFun h i.rev
  simp only [Matrix.mulVec, dotProduct, flip2, Fin.rev_rev] at hi
  rw [Matrix.mulVec, dotProduct, ← hi]
  refine (Equiv.sum_comp Fin.revPerm fun j => M i j * backSubst M b j).symm.trans (Finset.sum_congr rfl fun j _ => ?_)
  simp [backSubst]

/-- The part of a matrix that `solve_triangular` reads. -/
def triangle (lower : Bool) (A : Matrix (Fin n) (Fin n) ℝ) : Matrix (Fin n) (Fin n) ℝ :=
  Matrix.of fun i j => if (if lower then j ≤ i else i ≤ j) then A i j else 0

/-- **C19 (triangular solver).** For every matrix with a nonzero diagonal, right-hand side and flags, the modelled `solve_triangular(A, b, trans, lower)` solves
the system of the selected triangle of `A`, transposed for `trans="T"`, whatever the other triangle contains. -/
theorem C19_triangular_solver (A : Matrix (Fin n) (Fin n) ℝ) (b : Vec n) (hd : ∀ i, A i i ≠ 0) (trans lower : Bool) :
    (if trans then (triangle lower A)ᵀ else triangle lower A) *ᵥ solveTriangular A b trans lower = b := by
  have hdiag : ∀ i, triangle lower A i i ≠ 0 := by
    intro i; cases lower <;> simpa [triangle] using hd i
  have back : ∀ M N : Matrix (Fin n) (Fin n) ℝ, (∀ i j, i ≤ j → M i j = N i j) → backSubst M b = backSubst N b := by
    intro M N h
    funext i
    exact congrFun (forwardSubst_reads _ _ _ fun i j hij => h _ _ (Fin.rev_le_rev.2 hij)) i.rev
  cases trans <;> cases lower
  · have e : solveTriangular A b false false = backSubst (triangle false A) b := back _ _ fun i j hij => by simp [triangle, hij]
    rw [e]
    exact backSubst_spec _ _ (fun i j hij => by simp [triangle, not_le.2 hij]) hdiag
  · have e : solveTriangular A b false true = forwardSubst (triangle true A) b := forwardSubst_reads _ _ _ fun i j hij => by simp [triangle, hij]
    rw [e]
    exact forwardSubst_spec _ _ (fun i j hij => by simp [triangle, not_le.2 hij]) hdiag
  · have e : solveTriangular A b true false = forwardSubst (triangle false A)ᵀ b := forwardSubst_reads _ _ _ fun i j hij => by simp [triangle, hij]
    rw [e]
    exact forwardSubst_spec _ _ (fun i j hij => by simp [triangle, not_le.2 hij]) hdiag
  · have e : solveTriangular A b true true = backSubst (triangle true A)ᵀ b := back _ _ fun i j hij => by simp [triangle, hij]
    rw [e]
    exact backSubst_spec _ _ (fun i j hij => by simp [triangle, not_le.2 hij]) hdiag

example : (triangle true !![2, 7; 1, 4])ᵀ *ᵥ solveTriangular !![2, 7; 1, 4] ![3, 5] true true = ![3, 5] :=
  C19_triangular_solver !![2, 7; 1, 4] ![3, 5] (fun i => by fin_cases i <;> norm_num) true true

end Laplax.Props
