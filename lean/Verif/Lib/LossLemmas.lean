import Verif.Model.Loss
import Verif.Spec.Loss
import Mathlib.Analysis.Calculus.Deriv.Comp
import Mathlib.Analysis.Calculus.Deriv.Prod
import Mathlib.Analysis.Calculus.Deriv.Inv
import Mathlib.Algebra.BigOperators.Field
import Mathlib.Analysis.Calculus.Deriv.Mul
import Mathlib.Analysis.Calculus.Deriv.Add
import Mathlib.Analysis.Calculus.FDeriv.Mul
import Mathlib.Analysis.Calculus.ContDiff.Basic
import Mathlib.Tactic.FieldSimp
import Mathlib.Tactic.Ring
import Mathlib.Tactic.Positivity
import Mathlib.Tactic.Linarith

namespace Laplax
open scoped BigOperators

/-- The linear form `v ↦ Σ w_k v_k`. -/
noncomputable def form {n : ℕ} (w : Vec n) : Vec n →L[ℝ] ℝ := ∑ k, w k • ContinuousLinearMap.proj (R := ℝ) k

theorem form_apply {n : ℕ} (w v : Vec n) : form w v = ∑ k, w k * v k := by
  simp [form]

theorem form_single {n : ℕ} (w : Vec n) (k : Fin n) : form w (Pi.single k 1) = w k := by
  rw [form_apply, Finset.sum_eq_single k] <;> simp +contextual [Pi.single_apply]

theorem jaxGrad_eq {n : ℕ} {f : Vec n → ℝ} {z g : Vec n} (h : HasFDerivAt f (form g) z) : jaxGrad f z = g := by
  funext k; simp only [jaxGrad, h.fderiv, form_single]

theorem hasFDerivAt_form {n : ℕ} {f : Vec n → ℝ} {z : Vec n} (h : DifferentiableAt ℝ f z) :
    HasFDerivAt f (form (jaxGrad f z)) z := by
  convert h.hasFDerivAt using 1
  ext v
  rw [form_apply]
  conv_rhs => rw [show v = ∑ k, v k • (Pi.single k 1 : Vec n) by
    funext j; simp [Finset.sum_apply, Pi.single_apply]]
  rw [map_sum]
  refine Finset.sum_congr rfl fun k _ => ?_
  rw [map_smul, smul_eq_mul, mul_comm]; rfl

/-- A line through `x` in direction `v` has derivative `v`. -/
theorem hasDerivAt_line {n : ℕ} (x v : Vec n) : HasDerivAt (fun t : ℝ => x + t • v) v 0 := by
  have := ((hasDerivAt_id (0:ℝ)).smul_const v).const_add x
  simpa using this

theorem isHessianProduct_of {n : ℕ} {f : Vec n → ℝ} {g : Vec n → Vec n} {G : Vec n →L[ℝ] Vec n} {z : Vec n}
    (h1 : ∀ x, HasFDerivAt f (form (g x)) x) (h2 : HasFDerivAt g G z) (v : Vec n) :
    hvp f z v = G v ∧ Spec.IsHessianProduct f z v (G v) := by
  have hg : jaxGrad f = g := funext fun x => jaxGrad_eq (h1 x)
  refine ⟨by simp only [hvp, hg, h2.fderiv], g, ?_, ?_⟩
  · intro x k
    have h := h1 x
    have h' : HasFDerivAt f (form (g x)) (x + (0:ℝ) • (Pi.single k 1 : Vec n)) := by simpa using h
    have := h'.comp_hasDerivAt (0:ℝ) (hasDerivAt_line x (Pi.single k 1))
    rwa [form_single] at this
  · intro k
    have h' : HasFDerivAt g G (z + (0:ℝ) • v) := by simpa using h2
    have := h'.comp_hasDerivAt (0:ℝ) (hasDerivAt_line z v)
    exact (hasDerivAt_pi.1 this) k

/-- For twice continuously differentiable functions the modelled `hvp` is the Hessian product. -/
theorem hvp_isHessianProduct {n : ℕ} {f : Vec n → ℝ} (hf : ContDiff ℝ 2 f) (z v : Vec n) :
    Spec.IsHessianProduct f z v (hvp f z v) := by
  have hd : Differentiable ℝ f := hf.differentiable (by norm_num)
  have hg : Differentiable ℝ (jaxGrad f) := by
    have h1 : ContDiff ℝ 1 (fderiv ℝ f) := hf.fderiv_right (by norm_num)
    rw [differentiable_pi]
    intro k
    exact (h1.differentiable (by norm_num)).clm_apply (differentiable_const _)
  have := isHessianProduct_of (f := f) (g := jaxGrad f) (G := fderiv ℝ (jaxGrad f) z) (z := z)
    (fun x => hasFDerivAt_form (hd x)) (hg z).hasFDerivAt v
  exact this.2

/-! ### log-sum-exp and softmax -/

theorem sumExp_pos {n : ℕ} (z : Vec n) (k : Fin n) : 0 < ∑ j, Real.exp (z j) :=
  Finset.sum_pos (fun _ _ => Real.exp_pos _) ⟨k, Finset.mem_univ k⟩

theorem softmax_pos {n : ℕ} (z : Vec n) (k : Fin n) : 0 < softmax z k := div_pos (Real.exp_pos _) (sumExp_pos z k)

theorem softmax_sum {n : ℕ} (z : Vec n) (k : Fin n) : ∑ j, softmax z j = 1 := by
  unfold softmax
  rw [← Finset.sum_div, div_self (sumExp_pos z k).ne']

theorem hasFDerivAt_exp_apply {n : ℕ} (z : Vec n) (k : Fin n) :
    HasFDerivAt (fun z : Vec n => Real.exp (z k)) (Real.exp (z k) • ContinuousLinearMap.proj (R := ℝ) k) z :=
  (hasFDerivAt_apply (𝕜 := ℝ) k z).exp

theorem hasFDerivAt_logSumExp {n : ℕ} (z : Vec n) (y : Fin n) :
    HasFDerivAt (fun z : Vec n => Real.log (∑ j, Real.exp (z j))) (form (softmax z)) z := by
  have hs : HasFDerivAt (fun z : Vec n => ∑ j, Real.exp (z j))
      (∑ j, Real.exp (z j) • ContinuousLinearMap.proj (R := ℝ) j) z :=
    HasFDerivAt.fun_sum fun j _ => hasFDerivAt_exp_apply z j
  have := hs.log (sumExp_pos z y).ne'
  refine this.congr_fderiv (ContinuousLinearMap.ext fun v => ?_)
  rw [form_apply]
  simp only [softmax, smul_apply, sum_apply,
    ContinuousLinearMap.proj_apply, smul_eq_mul, Finset.mul_sum]
  refine Finset.sum_congr rfl fun j _ => ?_
  rw [div_eq_inv_mul, mul_assoc]

theorem softmax_eq_exp {n : ℕ} (z : Vec n) (k : Fin n) :
    softmax z k = Real.exp (z k - Real.log (∑ j, Real.exp (z j))) := by
  rw [Real.exp_sub, Real.exp_log (sumExp_pos z k)]; rfl

/-- The derivative of the softmax in direction `v` is the cross-entropy Hessian product. -/
noncomputable def softmaxDeriv {n : ℕ} (z : Vec n) : Vec n →L[ℝ] Vec n :=
  ContinuousLinearMap.pi fun k => softmax z k • (ContinuousLinearMap.proj (R := ℝ) k - form (softmax z))

theorem softmaxDeriv_apply {n : ℕ} (z v : Vec n) : softmaxDeriv z v = ceHessianMv v z := by
  funext k
  simp only [softmaxDeriv, ContinuousLinearMap.pi_apply, smul_apply, sub_apply,
    ContinuousLinearMap.proj_apply, form_apply, smul_eq_mul, ceHessianMv, mul_sub]

theorem hasFDerivAt_softmax {n : ℕ} (z : Vec n) : HasFDerivAt (softmax (n := n)) (softmaxDeriv z) z := by
  rw [hasFDerivAt_pi']
  intro k
  have h : HasFDerivAt (fun z : Vec n => z k - Real.log (∑ j, Real.exp (z j)))
      (ContinuousLinearMap.proj (R := ℝ) k - form (softmax z)) z :=
    (hasFDerivAt_apply (𝕜 := ℝ) k z).sub (hasFDerivAt_logSumExp z k)
  have h2 := h.exp
  have : (fun z : Vec n => softmax z k) = fun z => Real.exp (z k - Real.log (∑ j, Real.exp (z j))) :=
    funext fun z => softmax_eq_exp z k
  show HasFDerivAt (fun z : Vec n => softmax z k) _ z
  rw [this]
  refine h2.congr_fderiv ?_
  rw [← softmax_eq_exp z k]
  rfl

/-! ### sigmoid -/

theorem one_add_exp_pos (x : ℝ) : 0 < 1 + Real.exp x := by positivity

theorem sigmoid_eq (x : ℝ) : sigmoid x = Real.exp x / (1 + Real.exp x) := by
  unfold sigmoid
  have h1 := one_add_exp_pos x
  have h2 := one_add_exp_pos (-x)
  rw [div_eq_div_iff h2.ne' h1.ne', one_mul, mul_add, mul_one, ← Real.exp_add]
  simp [add_comm]

theorem one_sub_sigmoid (x : ℝ) : 1 - sigmoid x = 1 / (1 + Real.exp x) := by
  rw [sigmoid_eq]; have := one_add_exp_pos x; field_simp; ring

theorem sigmoid_pos (x : ℝ) : 0 < sigmoid x := div_pos one_pos (one_add_exp_pos _)
theorem one_sub_sigmoid_pos (x : ℝ) : 0 < 1 - sigmoid x := by
  rw [one_sub_sigmoid]; exact div_pos one_pos (one_add_exp_pos _)

theorem hasDerivAt_softplus (x : ℝ) : HasDerivAt (fun x => Real.log (1 + Real.exp x)) (sigmoid x) x := by
  have := ((Real.hasDerivAt_exp x).const_add 1).log (one_add_exp_pos x).ne'
  rwa [← sigmoid_eq] at this

theorem hasDerivAt_sigmoid (x : ℝ) : HasDerivAt sigmoid (sigmoid x * (1 - sigmoid x)) x := by
  have h := (Real.hasDerivAt_exp x).div ((Real.hasDerivAt_exp x).const_add 1) (one_add_exp_pos x).ne'
  have he : sigmoid = fun x => Real.exp x / (1 + Real.exp x) := funext sigmoid_eq
  rw [he]
  refine h.congr_deriv ?_
  have := one_add_exp_pos x
  show _ = Real.exp x / (1 + Real.exp x) * (1 - Real.exp x / (1 + Real.exp x))
  rw [← sigmoid_eq, one_sub_sigmoid, sigmoid_eq, div_mul_div_comm]
  congr 1 <;> ring

/-- A separable function `Σ φ_k(z_k)`. -/
theorem hasFDerivAt_separable {n : ℕ} {φ : Fin n → ℝ → ℝ} {φ' : Fin n → ℝ} {z : Vec n}
    (h : ∀ k, HasDerivAt (φ k) (φ' k) (z k)) : HasFDerivAt (fun z : Vec n => ∑ k, φ k (z k)) (form φ') z := by
  refine HasFDerivAt.fun_sum fun k _ => ?_
  exact (h k).comp_hasFDerivAt z (hasFDerivAt_apply (𝕜 := ℝ) k z)

/-- A pointwise map `z ↦ (ψ_k(z_k))_k`. -/
theorem hasFDerivAt_pointwise {n : ℕ} {ψ : Fin n → ℝ → ℝ} {ψ' : Fin n → ℝ} {z : Vec n}
    (h : ∀ k, HasDerivAt (ψ k) (ψ' k) (z k)) :
    HasFDerivAt (fun (z : Vec n) k => ψ k (z k))
      (ContinuousLinearMap.pi fun k => ψ' k • (ContinuousLinearMap.proj (R := ℝ) k : Vec n →L[ℝ] ℝ)) z := by
  rw [hasFDerivAt_pi']
  intro k
  exact (h k).comp_hasFDerivAt z (hasFDerivAt_apply (𝕜 := ℝ) k z)

end Laplax
