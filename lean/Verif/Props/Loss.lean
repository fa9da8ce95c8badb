import Verif.Lib.LossLemmas
import Mathlib.LinearAlgebra.Matrix.DotProduct
import Mathlib.Data.Matrix.Mul
import Mathlib.Algebra.Order.Chebyshev

/-! # C14: the built-in loss Hessian products are the true second derivatives; C17: loss dispatch -/

namespace Laplax.Props
open Laplax
open scoped BigOperators

variable {n : ℕ}

theorem ce_grad (y : Fin n) (x : Vec n) :
    HasFDerivAt (Spec.crossEntropy y) (form (softmax x - Pi.single y 1)) x := by
  have h := (hasFDerivAt_logSumExp x y).sub (hasFDerivAt_apply (𝕜 := ℝ) y x)
  refine h.congr_fderiv (ContinuousLinearMap.ext fun v => ?_)
  rw [sub_apply, form_apply, form_apply, ContinuousLinearMap.proj_apply]
  simp only [Pi.sub_apply, sub_mul, Finset.sum_sub_distrib]
  congr 1
  rw [Finset.sum_eq_single y] <;> simp +contextual [Pi.single_apply]

theorem ceSoft_grad (y : Vec n) (i : Fin n) (x : Vec n) :
    HasFDerivAt (Spec.crossEntropySoft y) (form ((∑ k, y k) • softmax x - y)) x := by
  have h1 := (hasFDerivAt_logSumExp x i).const_mul (∑ k, y k)
  have h2 : HasFDerivAt (fun z : Vec n => ∑ k, y k * z k) (form y) x := by
    refine hasFDerivAt_separable (φ := fun k t => y k * t) (φ' := y) fun k => ?_
    simpa using (hasDerivAt_id (x k)).const_mul (y k)
  refine (h1.sub h2).congr_fderiv (ContinuousLinearMap.ext fun v => ?_)
  rw [sub_apply, smul_apply, form_apply, form_apply, form_apply]
  simp only [Pi.sub_apply, Pi.smul_apply, smul_eq_mul, sub_mul, Finset.sum_sub_distrib, Finset.mul_sum, mul_assoc]

/-- **C14 (softmax cross-entropy).** For every number of classes, label, logits `z` and direction `v`, the code's
product is the second derivative of `log Σ exp z_j - z_y` at `z` applied to `v`, both in the elementary sense of iterated
one-dimensional derivatives and in the sense of the code's own automatic-differentiation product `hvp`. -/
theorem C14_cross_entropy (y : Fin n) (z v : Vec n) :
    Spec.IsHessianProduct (Spec.crossEntropy y) z v (ceHessianMv v z) ∧
    hvp (Spec.crossEntropy y) z v = ceHessianMv v z := by
  have := isHessianProduct_of (f := Spec.crossEntropy y) (g := fun x => softmax x - Pi.single y 1)
    (G := softmaxDeriv z) (z := z) (ce_grad y) ((hasFDerivAt_softmax z).sub_const _) v
  rw [softmaxDeriv_apply] at this
  exact this.symm

/-- **C14 (softmax cross-entropy with probability targets).** The same with a target vector `y` summing to one (one-hot or
soft labels). -/
theorem C14_cross_entropy_soft_targets (y : Vec n) (hy : ∑ k, y k = 1) (z v : Vec n) :
    Spec.IsHessianProduct (Spec.crossEntropySoft y) z v (ceHessianMv v z) ∧
    hvp (Spec.crossEntropySoft y) z v = ceHessianMv v z := by
  have hn : Nonempty (Fin n) := by
    by_contra h
    rw [not_nonempty_iff] at h
    simp at hy
  obtain ⟨i⟩ := hn
  have := isHessianProduct_of (f := Spec.crossEntropySoft y) (g := fun x => (∑ k, y k) • softmax x - y)
    (G := softmaxDeriv z) (z := z) (ceSoft_grad y i) (by rw [hy]; simpa using (hasFDerivAt_softmax z).sub_const y) v
  rw [softmaxDeriv_apply] at this
  exact this.symm

theorem bce_grad (y x : Vec n) : HasFDerivAt (Spec.binaryCrossEntropy y) (form (fun k => sigmoid (x k) - y k)) x := by
  refine hasFDerivAt_separable (φ := fun k t => Real.log (1 + Real.exp t) - y k * t) fun k => ?_
  exact ((hasDerivAt_softplus (x k)).fun_sub ((hasDerivAt_id' (x k)).const_mul (y k))).congr_deriv (by simp)

/-- **C14 (binary cross-entropy).** For every output vector and targets. -/
theorem C14_binary_cross_entropy (y z v : Vec n) :
    Spec.IsHessianProduct (Spec.binaryCrossEntropy y) z v (bceHessianMv v z) ∧
    hvp (Spec.binaryCrossEntropy y) z v = bceHessianMv v z := by
  have h := isHessianProduct_of (f := Spec.binaryCrossEntropy y) (z := z) (bce_grad y)
    (hasFDerivAt_pointwise (ψ := fun k t => sigmoid t - y k) (ψ' := fun k => sigmoid (z k) * (1 - sigmoid (z k)))
      fun k => (hasDerivAt_sigmoid (z k)).sub_const _) v
  have e : (ContinuousLinearMap.pi fun k => (sigmoid (z k) * (1 - sigmoid (z k))) •
      (ContinuousLinearMap.proj (R := ℝ) k : Vec n →L[ℝ] ℝ)) v = bceHessianMv v z := rfl
  rw [e] at h
  exact h.symm

theorem mse_grad (y x : Vec n) : HasFDerivAt (Spec.squaredError y) (form (fun k => 2 * (x k - y k))) x := by
  refine hasFDerivAt_separable (φ := fun k t => (t - y k) ^ 2) fun k => ?_
  exact (((hasDerivAt_id' (x k)).sub_const (y k)).fun_pow 2).congr_deriv (by simp)

/-- **C14 (squared error).** -/
theorem C14_mse (y z v : Vec n) :
    Spec.IsHessianProduct (Spec.squaredError y) z v (mseHessianMv v) ∧
    hvp (Spec.squaredError y) z v = mseHessianMv v := by
  have h := isHessianProduct_of (f := Spec.squaredError y) (z := z) (mse_grad y)
    (hasFDerivAt_pointwise (ψ := fun k t => 2 * (t - y k)) (ψ' := fun _ => 2)
      fun k => by simpa using ((hasDerivAt_id (z k)).sub_const (y k)).const_mul 2) v
  have e : (ContinuousLinearMap.pi fun k => (2 : ℝ) •
      (ContinuousLinearMap.proj (R := ℝ) k : Vec n →L[ℝ] ℝ)) v = mseHessianMv v := rfl
  rw [e] at h
  exact h.symm

/-- **C14 (custom losses).** For a user-supplied loss that is twice continuously differentiable in the prediction, the
product used is its second derivative. -/
theorem C14_custom {Y : Type} (ℓ : Vec n → Y → ℝ) (t : Y) (hℓ : ContDiff ℝ 2 (fun p => ℓ p t)) :
    ∃ H, createLossHessianMv (.callable ℓ) = .ok H ∧ ∀ z v, Spec.IsHessianProduct (fun p => ℓ p t) z v (H v z t) :=
  ⟨_, rfl, fun z v => hvp_isHessianProduct hℓ z v⟩

open Matrix in
/-- **C14 (symmetric positive semidefinite).** Every product returned for a named loss is linear in the direction,
symmetric and positive semidefinite at every prediction, and does not depend on the target. -/
theorem C14_named_loss_psd {Y : Type} (s : String) (H : Vec n → Vec n → Y → Vec n)
    (h : createLossHessianMv (.name s) = .ok H) (z : Vec n) (t : Y) :
    (∀ (a b : ℝ) (u v : Vec n), H (a • u + b • v) z t = a • H u z t + b • H v z t) ∧
    (∀ u v : Vec n, u ⬝ᵥ H v z t = H u z t ⬝ᵥ v) ∧ (∀ v : Vec n, 0 ≤ v ⬝ᵥ H v z t) ∧
    (∀ (t' : Y) (v : Vec n), H v z t' = H v z t) := by
  simp only [createLossHessianMv] at h
  split at h
  · obtain rfl := Except.ok.inj h
    refine ⟨fun a b u v => ?_, fun u v => ?_, fun v => ?_, fun _ _ => rfl⟩
    · funext k; simp only [bceHessianMv, Pi.add_apply, Pi.smul_apply, smul_eq_mul]; ring
    · simp only [dotProduct, bceHessianMv]; exact Finset.sum_congr rfl fun k _ => by ring
    · simp only [dotProduct, bceHessianMv]
      refine Finset.sum_nonneg fun k _ => ?_
      have := mul_pos (sigmoid_pos (z k)) (one_sub_sigmoid_pos (z k))
      nlinarith [sq_nonneg (v k), mul_nonneg this.le (sq_nonneg (v k))]
  · split at h
    · obtain rfl := Except.ok.inj h
      refine ⟨fun a b u v => ?_, fun u v => ?_, fun v => ?_, fun _ _ => rfl⟩
      · funext k
        simp only [ceHessianMv, Pi.add_apply, Pi.smul_apply, smul_eq_mul, mul_add, Finset.sum_add_distrib]
        have e : ∀ (c : ℝ) (w : Vec n), ∑ j, softmax z j * (c * w j) = c * ∑ j, softmax z j * w j := by
          intro c w; rw [Finset.mul_sum]; exact Finset.sum_congr rfl fun j _ => by ring
        rw [e, e]; ring
      · simp only [dotProduct, ceHessianMv, mul_sub, sub_mul, Finset.sum_sub_distrib]
        congr 1
        · exact Finset.sum_congr rfl fun k _ => by ring
        · have e1 : ∑ k, u k * (softmax z k * ∑ j, softmax z j * v j) = (∑ k, softmax z k * u k) * ∑ j, softmax z j * v j := by
            rw [Finset.sum_mul]; exact Finset.sum_congr rfl fun k _ => by ring
          have e2 : ∑ k, (softmax z k * ∑ j, softmax z j * u j) * v k = (∑ k, softmax z k * u k) * ∑ j, softmax z j * v j := by
            rw [Finset.mul_sum]; exact Finset.sum_congr rfl fun k _ => by ring
          rw [e1, e2]
      · rcases isEmpty_or_nonempty (Fin n) with hn | ⟨⟨i⟩⟩
        · simp [dotProduct]
        · have hsum := softmax_sum z i
          set m := ∑ j, softmax z j * v j with hm
          have key : v ⬝ᵥ ceHessianMv v z = ∑ k, softmax z k * (v k - m) ^ 2 := by
            have : ∑ k, softmax z k * (v k - m) ^ 2 =
                ∑ k, (softmax z k * v k * v k - 2 * m * (softmax z k * v k) + m ^ 2 * softmax z k) :=
              Finset.sum_congr rfl fun k _ => by ring
            rw [this, Finset.sum_add_distrib, Finset.sum_sub_distrib, ← Finset.mul_sum, ← Finset.mul_sum, hsum, ← hm]
            have : v ⬝ᵥ ceHessianMv v z = ∑ k, (softmax z k * v k * v k - m * (softmax z k * v k)) := by
              simp only [dotProduct, ceHessianMv, ← hm]; exact Finset.sum_congr rfl fun k _ => by ring
            rw [this, Finset.sum_sub_distrib, ← Finset.mul_sum, ← hm]; ring
          rw [key]
          exact Finset.sum_nonneg fun k _ => mul_nonneg (softmax_pos z k).le (sq_nonneg _)
    · split at h
      · obtain rfl := Except.ok.inj h
        refine ⟨fun a b u v => ?_, fun u v => ?_, fun v => ?_, fun _ _ => rfl⟩
        · funext k; simp only [mseHessianMv, Pi.add_apply, Pi.smul_apply, smul_eq_mul]; ring
        · simp only [dotProduct, mseHessianMv]; exact Finset.sum_congr rfl fun k _ => by ring
        · simp only [dotProduct, mseHessianMv]
          exact Finset.sum_nonneg fun k _ => by nlinarith [sq_nonneg (v k)]
      · split at h
        · obtain rfl := Except.ok.inj h
          refine ⟨fun a b u v => rfl, fun u v => rfl, fun v => ?_, fun _ _ => rfl⟩
          simp only [dotProduct]
          exact Finset.sum_nonneg fun k _ => mul_self_nonneg _
        · cases h

/-- The hypothesis of `C14_named_loss_psd` is met. -/
example : ∃ H, createLossHessianMv (n := 3) (Y := Fin 3) (.name "cross_entropy") = .ok H := ⟨_, rfl⟩
example : ∑ k, (![0.25, 0.75] : Vec 2) k = 1 := by norm_num [Fin.sum_univ_two]

/-! ## C17 -/

/-- **C17 (loss dispatch).** `create_loss_hessian_mv` returns a product exactly for the four known names and for callables;
`None`, other strings and other objects raise `ValueError`; `NONE` is the identity. -/
theorem C17_loss_dispatch {Y : Type} (l : LossArg n Y) :
    ((∃ H, createLossHessianMv l = .ok H) ↔
      (∃ ℓ, l = .callable ℓ) ∨ ∃ s ∈ ["mse", "cross_entropy", "binary_cross_entropy", "none"], l = .name s) ∧
    (∀ e, createLossHessianMv l = .error e → e = .valueError) ∧
    (l = .name "mse" → createLossHessianMv l = .ok (fun jv _ _ => fun k => 2 * jv k)) ∧
    (l = .name "none" → createLossHessianMv l = .ok (fun jv _ _ => jv)) ∧
    (l = .name "cross_entropy" → createLossHessianMv l = .ok (fun jv pred _ => fun k =>
      softmax pred k * jv k - softmax pred k * ∑ j, softmax pred j * jv j)) ∧
    (l = .name "binary_cross_entropy" → createLossHessianMv l = .ok (fun jv pred _ => fun k =>
      sigmoid (pred k) * (1 - sigmoid (pred k)) * jv k)) := by
  refine ⟨?_, ?_, ?_, ?_, ?_, ?_⟩
  · cases l with
    | none => simp [createLossHessianMv]
    | other => simp [createLossHessianMv]
    | callable ℓ => simp [createLossHessianMv]
    | name s =>
      simp only [createLossHessianMv]
      split <;> rename_i h1
      · simp [h1]
      split <;> rename_i h2
      · simp [h2]
      split <;> rename_i h3
      · simp [h3]
      split <;> rename_i h4
      · simp [h4]
      · simp [h1, h2, h3, h4]
  · intro e he
    cases l with
    | none => cases he; rfl
    | other => cases he; rfl
    | callable ℓ => cases he
    | name s =>
      simp only [createLossHessianMv] at he
      split at he; · cases he
      split at he; · cases he
      split at he; · cases he
      split at he; · cases he
      cases he; rfl
  all_goals rintro rfl; rfl

end Laplax.Props
