import Verif.Spec.FunctionSpace
import Verif.Props.GpKernel
import Verif.Props.Exact
import Verif.Props.Uncertainty
import Mathlib.LinearAlgebra.Matrix.SchurComplement

/-! # C74: the Laplace posterior is Gaussian process regression with the tangent kernel -/

namespace Laplax.Props
open Laplax Laplax.Spec
open scoped BigOperators Matrix

variable {A X Y K : Type} {p c n : ℕ}

/-- The stacked Jacobians of the training points. -/
noncomputable def stackJac (f : X → Vec p → Vec c) (θ : Vec p) (xs : Fin n → X) : Matrix (Fin n × Fin c) (Fin p) ℝ :=
  Matrix.of fun a j => jacobian (f (xs a.1)) θ a.2 j

theorem gram_tangent (f : X → Vec p → Vec c) (θ : Vec p) (τ : ℝ) (xs : Fin n → X) :
    gram (tangentKernel f θ τ) xs = τ⁻¹ • (stackJac f θ xs * (stackJac f θ xs)ᵀ) := by
  ext a b
  simp [gram, tangentKernel, stackJac, Matrix.mul_apply]

theorem cross_tangent (f : X → Vec p → Vec c) (θ : Vec p) (τ : ℝ) (xs : Fin n → X) (x : X) :
    crossCov (tangentKernel f θ τ) xs x = τ⁻¹ • (jacobian (f x) θ * (stackJac f θ xs)ᵀ) := by
  ext a b
  simp [crossCov, tangentKernel, stackJac, Matrix.mul_apply]

theorem push_through {ι : Type} [Fintype ι] [DecidableEq ι] (J : Matrix ι (Fin p) ℝ) (W : Matrix ι ι ℝ) {τ : ℝ} (hτ : 0 < τ)
    (hP : (Jᵀ * W * J + τ • (1 : Matrix (Fin p) (Fin p) ℝ)).PosDef) :
    IsUnit (1 + W * (τ⁻¹ • (J * Jᵀ))).det := by
  have e : 1 + W * (τ⁻¹ • (J * Jᵀ)) = 1 + (τ⁻¹ • (W * J)) * Jᵀ := by
    rw [Matrix.mul_smul, Matrix.smul_mul, Matrix.mul_assoc]
  have e2 : 1 + Jᵀ * (τ⁻¹ • (W * J)) = τ⁻¹ • (Jᵀ * W * J + τ • (1 : Matrix (Fin p) (Fin p) ℝ)) := by
    rw [smul_add, smul_smul, inv_mul_cancel₀ hτ.ne', one_smul, Matrix.mul_smul, ← Matrix.mul_assoc, add_comm]
  rw [e, Matrix.det_one_add_mul_comm, e2]
  exact (hP.smul (inv_pos.2 hτ)).det_pos.ne'.isUnit

theorem woodbury {ι : Type} [Fintype ι] [DecidableEq ι] (J : Matrix ι (Fin p) ℝ) (W : Matrix ι ι ℝ) {τ : ℝ} (hτ : 0 < τ)
    (hP : (Jᵀ * W * J + τ • (1 : Matrix (Fin p) (Fin p) ℝ)).PosDef) :
    (Jᵀ * W * J + τ • (1 : Matrix (Fin p) (Fin p) ℝ))⁻¹ =
      τ⁻¹ • 1 - (τ⁻¹ • Jᵀ) * ((1 + W * (τ⁻¹ • (J * Jᵀ)))⁻¹ * W) * (τ⁻¹ • J) := by
  have hu := push_through J W hτ hP
  obtain ⟨M, hM⟩ : ∃ M, M = 1 + W * (τ⁻¹ • (J * Jᵀ)) := ⟨_, rfl⟩
  rw [← hM] at hu ⊢
  have hMi : M * M⁻¹ = 1 := Matrix.mul_nonsing_inv _ hu
  refine Matrix.inv_eq_right_inv ?_
  have e1 : (Jᵀ * W * J + τ • (1 : Matrix (Fin p) (Fin p) ℝ)) * (τ⁻¹ • Jᵀ) = Jᵀ * M := by
    rw [hM, Matrix.add_mul, Matrix.smul_mul, Matrix.one_mul, smul_smul, mul_inv_cancel₀ hτ.ne', one_smul, Matrix.mul_add, Matrix.mul_one,
      Matrix.mul_smul, Matrix.mul_smul, Matrix.mul_smul, add_comm]
    simp only [Matrix.mul_assoc]
  have e2 : (Jᵀ * W * J + τ • (1 : Matrix (Fin p) (Fin p) ℝ)) * (τ⁻¹ • 1) = 1 + Jᵀ * W * (τ⁻¹ • J) := by
    rw [Matrix.mul_smul, Matrix.mul_one, smul_add, smul_smul, inv_mul_cancel₀ hτ.ne', one_smul, Matrix.mul_smul, add_comm]
  have e3 : Jᵀ * M * (M⁻¹ * W) = Jᵀ * W := by rw [Matrix.mul_assoc, ← Matrix.mul_assoc M, hMi, Matrix.one_mul]
  rw [Matrix.mul_sub, e2, ← Matrix.mul_assoc, ← Matrix.mul_assoc, e1, e3]
  exact add_sub_cancel_right _ _

/-- The covariance of the linearised model in function space. -/
theorem function_space (f : X → Vec p → Vec c) (θ : Vec p) (xs : Fin n → X) (W : Matrix (Fin n × Fin c) (Fin n × Fin c) ℝ) {τ : ℝ} (hτ : 0 < τ)
    (hP : ((stackJac f θ xs)ᵀ * W * stackJac f θ xs + τ • (1 : Matrix (Fin p) (Fin p) ℝ)).PosDef) (x x' : X) :
    jacobian (f x) θ * ((stackJac f θ xs)ᵀ * W * stackJac f θ xs + τ • (1 : Matrix (Fin p) (Fin p) ℝ))⁻¹ * (jacobian (f x') θ)ᵀ =
      gpCovLoss (tangentKernel f θ τ) xs W x x' := by
  rw [woodbury _ W hτ hP, gpCovLoss, gram_tangent, cross_tangent, cross_tangent, Matrix.mul_sub, Matrix.sub_mul, tangentKernel]
  congr 1
  · rw [Matrix.mul_smul, Matrix.mul_one, Matrix.smul_mul]
  · simp only [Matrix.transpose_smul, Matrix.transpose_mul, Matrix.transpose_transpose, Matrix.mul_smul, Matrix.smul_mul, Matrix.mul_assoc]

theorem gpCovLoss_gaussian (k : X → X → Matrix (Fin c) (Fin c) ℝ) (hk : IsKernel k) (xs : Fin n → X) {ν : ℝ} (hν : 0 < ν) (x x' : X) :
    gpCovLoss k xs (ν⁻¹ • 1) x x' = gpCov k xs ν x x' := by
  rw [gpCovLoss, gpCov]
  congr 3
  have hpd : (gram k xs + ν • 1).PosDef := by
    rw [add_comm]; exact (Matrix.PosDef.one.smul hν).add_posSemidef (hk.psd _ xs)
  have e : (1 : Matrix (Fin n × Fin c) (Fin n × Fin c) ℝ) + ν⁻¹ • (1 : Matrix (Fin n × Fin c) (Fin n × Fin c) ℝ) * gram k xs =
      ν⁻¹ • (gram k xs + ν • 1) := by
    rw [smul_add, smul_smul, inv_mul_cancel₀ hν.ne', one_smul, Matrix.smul_mul, Matrix.one_mul, add_comm]
  rw [e, Matrix.mul_smul, Matrix.mul_one]
  have hu : IsUnit (gram k xs + ν • 1).det := hpd.det_pos.ne'.isUnit
  have : (ν⁻¹ • (gram k xs + ν • (1 : Matrix (Fin n × Fin c) (Fin n × Fin c) ℝ)))⁻¹ = ν • (gram k xs + ν • 1)⁻¹ := by
    refine Matrix.inv_eq_right_inv ?_
    rw [Matrix.smul_mul, Matrix.mul_smul, smul_smul, inv_mul_cancel₀ hν.ne', one_smul, Matrix.mul_nonsing_inv _ hu]
  rw [this, smul_smul, inv_mul_cancel₀ hν.ne', one_smul]

theorem tangent_isKernel (f : X → Vec p → Vec c) (θ : Vec p) {τ : ℝ} (hτ : 0 < τ) : IsKernel (tangentKernel f θ τ) := by
  have := isKernel_of_posterior (fun x => jacobian (f x) θ) (τ⁻¹ • (1 : Matrix (Fin p) (Fin p) ℝ)) (Matrix.PosSemidef.one.smul (inv_pos.2 hτ).le)
  convert this using 3
  rw [Matrix.mul_smul, Matrix.mul_one, Matrix.smul_mul]; rfl

/-- The curvature matrix in terms of the stacked Jacobians. -/
theorem curvature_stacked {f : X → Vec p → Vec c} {θ : Vec p} {H : Vec c → Vec c → Y → Vec c} (hH : GoodLossHess H) (w : ℝ)
    (samples : List (X × Y)) {G : Matrix (Fin p) (Fin p) ℝ} (hG : ∀ v, G *ᵥ v = w • ggnSamples f θ H samples v) :
    G = (stackJac f θ fun i => (samples.get i).1)ᵀ * lossHessians f θ H w samples.get * stackJac f θ fun i => (samples.get i).1 := by
  apply Matrix.toLin'.injective
  apply LinearMap.ext; intro v
  rw [Matrix.toLin'_apply, Matrix.toLin'_apply, hG, ← Matrix.mulVec_mulVec, ← Matrix.mulVec_mulVec]
  have hs : ggnSamples f θ H samples v = ∑ i : Fin samples.length,
      (jacobian (f (samples.get i).1) θ)ᵀ *ᵥ H (jacobian (f (samples.get i).1) θ *ᵥ v) (f (samples.get i).1 θ) (samples.get i).2 := by
    rw [ggnSamples, ← List.sum_ofFn]
    congr 1
    conv_lhs => rw [← List.ofFn_get samples, List.map_ofFn]
    rfl
  have hlin : ∀ (z : Vec c) (t : Y) (u : Vec c) (a : Fin c), H u z t a = ∑ b, H (Pi.single b 1) z t a * u b := by
    intro z t u a
    let L : Vec c →ₗ[ℝ] Vec c :=
      { toFun := fun u => H u z t
        map_add' := fun u v => by simpa using hH.lin z t 1 1 u v
        map_smul' := fun r u => by simpa using hH.lin z t r 0 u 0 }
    have := congrFun (LinearMap.pi_apply_eq_sum_univ L u) a
    rw [Finset.sum_apply] at this
    refine this.trans (Finset.sum_congr rfl fun b _ => ?_)
    simp only [Pi.smul_apply, smul_eq_mul]
    rw [mul_comm]
    have e : (fun j => if b = j then (1 : ℝ) else 0) = Pi.single b 1 := by funext j; simp [Pi.single_apply, eq_comm]
    rw [e]; rfl
  rw [hs]
  funext j
  have h1 : ∀ i a, (stackJac f θ (fun i => (samples.get i).1) *ᵥ v) (i, a) = (jacobian (f (samples.get i).1) θ *ᵥ v) a := fun i a => rfl
  have h2 : ∀ i a, (lossHessians f θ H w samples.get *ᵥ (stackJac f θ (fun i => (samples.get i).1) *ᵥ v)) (i, a) =
      w * H (jacobian (f (samples.get i).1) θ *ᵥ v) (f (samples.get i).1 θ) (samples.get i).2 a := by
    intro i a
    rw [hlin, Matrix.mulVec, dotProduct, Fintype.sum_prod_type, Finset.sum_eq_single i, Finset.mul_sum]
    · refine Finset.sum_congr rfl fun b _ => ?_
      rw [h1]; simp only [lossHessians, Matrix.of_apply, if_true]; ring
    · intro i' _ hi
      refine Finset.sum_eq_zero fun b _ => ?_
      simp [lossHessians, Ne.symm hi]
    · simp
  rw [Matrix.mulVec, dotProduct, Fintype.sum_prod_type, Pi.smul_apply, Finset.sum_apply, smul_eq_mul, Finset.mul_sum]
  refine Finset.sum_congr rfl fun i _ => ?_
  rw [Matrix.mulVec, dotProduct, Finset.mul_sum]
  refine Finset.sum_congr rfl fun a _ => ?_
  rw [h2]
  simp only [Matrix.transpose_apply, stackJac, Matrix.of_apply]
  ring

theorem lossHessians_mse (f : X → Vec p → Vec c) (θ : Vec p) (w : ℝ) (s : Fin n → X × Y) :
    lossHessians f θ (fun jv _ _ => mseHessianMv jv) w s = (2 * w) • 1 := by
  ext a b
  simp only [lossHessians, Matrix.of_apply, mseHessianMv, Matrix.smul_apply, smul_eq_mul, Matrix.one_apply]
  by_cases h : a.1 = b.1
  · by_cases h2 : a.2 = b.2
    · rw [if_pos h, if_pos (Prod.ext h h2), h2, Pi.single_eq_same]; ring
    · rw [if_pos h, if_neg (fun e => h2 (congrArg Prod.snd e)), Pi.single_eq_of_ne h2]; ring
  · rw [if_neg h, if_neg (fun e => h (congrArg Prod.fst e))]; ring

/-- The covariance of the posterior of a full estimate in function space. -/
theorem posterior_function_space {f : X → Vec p → Vec c} {θ : Vec p} {H : Vec c → Vec c → Y → Vec c} (hH : GoodLossHess H) (w : ℝ)
    (samples : List (X × Y)) {G : Matrix (Fin p) (Fin p) ℝ} (hpsd : G.PosSemidef) (hG : ∀ v, G *ᵥ v = w • ggnSamples f θ H samples v)
    {τ σ s : ℝ} (hτ : 0 < τ) (hσ : 0 ≤ σ) (hs : 0 < s) (x x' : X) :
    jacobian (f x) θ * (precision G τ σ s)⁻¹ * (jacobian (f x') θ)ᵀ =
      gpCovLoss (tangentKernel f θ (τ / s)) (fun i => (samples.get i).1) (lossHessians f θ H (σ * w / s) samples.get) x x' := by
  have hG' : ∀ v, ((σ / s) • G) *ᵥ v = (σ * w / s) • ggnSamples f θ H samples v := fun v => by
    rw [Matrix.smul_mulVec, hG, smul_smul]; congr 1; ring
  have e := curvature_stacked hH (σ * w / s) samples hG'
  have e2 : precision G τ σ s = (stackJac f θ fun i => (samples.get i).1)ᵀ * lossHessians f θ H (σ * w / s) samples.get *
      (stackJac f θ fun i => (samples.get i).1) + (τ / s) • 1 := by
    rw [← e, precision, smul_add, smul_smul, smul_smul]
    congr 2 <;> ring
  have hpd : (precision G τ σ s).PosDef := by
    rw [precision]
    refine Matrix.PosDef.smul ?_ (inv_pos.2 hs)
    rw [add_comm]
    exact (Matrix.PosDef.one.smul hτ).add_posSemidef (hpsd.smul hσ)
  rw [e2] at hpd ⊢
  exact function_space f θ _ _ (div_pos hτ hs) hpd x x'

theorem posterior_regression {f : X → Vec p → Vec c} {θ : Vec p} {w : ℝ} (hw : 0 < w) {samples : List (X × Y)} {τ : ℝ} (hτ : 0 < τ) (x x' : X) :
    gpCovLoss (tangentKernel f θ τ) (fun i => (samples.get i).1) (lossHessians f θ (fun jv _ (_ : Y) => mseHessianMv jv) w samples.get) x x' =
      gpCov (tangentKernel f θ τ) (fun i => (samples.get i).1) (1 / (2 * w)) x x' := by
  rw [lossHessians_mse, ← gpCovLoss_gaussian _ (tangent_isKernel f θ hτ) _ (by positivity)]
  congr 2
  rw [one_div, inv_inv]

theorem mse_hessian' {H : Vec c → Vec c → Y → Vec c} (h : createLossHessianMv (.name "mse") = .ok H) :
    H = fun jv _ _ => mseHessianMv jv := by
  have e : createLossHessianMv (.name "mse" : LossArg c Y) = .ok (fun jv _ _ => mseHessianMv jv) := rfl
  rw [e, Except.ok.injEq] at h
  exact h.symm

/-- The parameters of a trained affine model. -/
theorem stationary {f : X → Vec p → Vec c} {M : X → Matrix (Fin c) (Fin p) ℝ} {b : X → Vec c} (hf : ∀ x θ, f x θ = M x *ᵥ θ + b x)
    (samples : List (X × Vec c)) (w τ : ℝ) (θ : Vec p)
    (hmin : ∀ θ', energy f samples w τ θ ≤ energy f samples w τ θ') (d : Vec p) :
    2 * w * ∑ i : Fin samples.length, (f (samples.get i).1 θ - (samples.get i).2) ⬝ᵥ (M (samples.get i).1 *ᵥ d) + τ * (θ ⬝ᵥ d) = 0 := by
  have hsum : ∀ θ', totalError f samples θ' = ∑ i : Fin samples.length, ∑ k, (f (samples.get i).1 θ' k - (samples.get i).2 k) ^ 2 := by
    intro θ'
    rw [totalError, ← List.sum_ofFn]
    congr 1
    conv_lhs => rw [← List.ofFn_get samples, List.map_ofFn]
    rfl
  refine linear_part_zero (q := w * ∑ i : Fin samples.length, (M (samples.get i).1 *ᵥ d) ⬝ᵥ (M (samples.get i).1 *ᵥ d) + τ / 2 * (d ⬝ᵥ d)) fun t => ?_
  have h1 := hmin (θ + t • d)
  have e1 : totalError f samples (θ + t • d) = totalError f samples θ +
      t * (2 * ∑ i : Fin samples.length, (f (samples.get i).1 θ - (samples.get i).2) ⬝ᵥ (M (samples.get i).1 *ᵥ d)) +
      t ^ 2 * ∑ i : Fin samples.length, (M (samples.get i).1 *ᵥ d) ⬝ᵥ (M (samples.get i).1 *ᵥ d) := by
    rw [hsum, hsum, Finset.mul_sum, Finset.mul_sum, Finset.mul_sum, ← Finset.sum_add_distrib, ← Finset.sum_add_distrib]
    refine Finset.sum_congr rfl fun i _ => ?_
    rw [dotProduct, dotProduct, Finset.mul_sum, Finset.mul_sum, Finset.mul_sum, ← Finset.sum_add_distrib, ← Finset.sum_add_distrib]
    refine Finset.sum_congr rfl fun k _ => ?_
    rw [hf, hf, Matrix.mulVec_add, Matrix.mulVec_smul]
    simp only [Pi.add_apply, Pi.sub_apply, Pi.smul_apply, smul_eq_mul]
    ring
  have e2 : ∑ i, (θ + t • d) i ^ 2 = ∑ i, θ i ^ 2 + t * (2 * (θ ⬝ᵥ d)) + t ^ 2 * (d ⬝ᵥ d) := by
    rw [dotProduct, dotProduct, Finset.mul_sum, Finset.mul_sum, Finset.mul_sum, ← Finset.sum_add_distrib, ← Finset.sum_add_distrib]
    exact Finset.sum_congr rfl fun i _ => by simp only [Pi.add_apply, Pi.smul_apply, smul_eq_mul]; ring
  rw [energy, energy, e1, e2] at h1
  nlinarith [h1]

theorem trained_mean {f : X → Vec p → Vec c} (hf : AffineModel f) (samples : List (X × Vec c)) {w τ : ℝ} (hw : 0 < w) (hτ : 0 < τ) (θ : Vec p)
    (hmin : ∀ θ', energy f samples w τ θ ≤ energy f samples w τ θ') (x : X) :
    f x θ = gpMean (tangentKernel f θ τ) (fun i => (samples.get i).1) (1 / (2 * w)) (fun x => f x 0) (fun i => (samples.get i).2) x := by
  obtain ⟨M, b, h⟩ := hf
  have hj : ∀ x, jacobian (f x) θ = M x := fun x => (jacobian_affine (M x) (b x) (f x) (h x) θ).2
  have hb : ∀ x, f x 0 = b x := fun x => by rw [h, Matrix.mulVec_zero, zero_add]
  obtain ⟨J, hJ⟩ : ∃ J, J = stackJac f θ fun i => (samples.get i).1 := ⟨_, rfl⟩
  let r : Fin samples.length × Fin c → ℝ := fun a => (samples.get a.1).2 a.2 - f (samples.get a.1).1 θ a.2
  let y : Fin samples.length × Fin c → ℝ := fun a => (samples.get a.1).2 a.2 - b (samples.get a.1).1 a.2
  have hJa : ∀ v i k, (J *ᵥ v) (i, k) = (M (samples.get i).1 *ᵥ v) k := by
    intro v i k; rw [hJ, Matrix.mulVec, Matrix.mulVec, dotProduct, dotProduct]
    exact Finset.sum_congr rfl fun j _ => by simp only [stackJac, Matrix.of_apply, hj]
  have hr : r = y - J *ᵥ θ := by
    funext a
    obtain ⟨i, k⟩ := a
    show (samples.get i).2 k - f (samples.get i).1 θ k = ((samples.get i).2 k - b (samples.get i).1 k) - (J *ᵥ θ) (i, k)
    rw [hJa, h]; simp only [Pi.add_apply]; ring
  have hθ : τ • θ = (2 * w) • (Jᵀ *ᵥ r) := by
    refine dotProduct_eq _ _ fun d => ?_
    have hst := stationary h samples w τ θ hmin d
    have e : (Jᵀ *ᵥ r) ⬝ᵥ d = - ∑ i : Fin samples.length, (f (samples.get i).1 θ - (samples.get i).2) ⬝ᵥ (M (samples.get i).1 *ᵥ d) := by
      rw [Matrix.mulVec_transpose, ← Matrix.dotProduct_mulVec, dotProduct, Fintype.sum_prod_type, ← Finset.sum_neg_distrib]
      refine Finset.sum_congr rfl fun i _ => ?_
      rw [dotProduct, ← Finset.sum_neg_distrib]
      refine Finset.sum_congr rfl fun k _ => ?_
      rw [hJa]; simp only [r, Pi.sub_apply]; ring
    rw [smul_dotProduct, smul_dotProduct, e, smul_eq_mul, smul_eq_mul]
    linarith
  have hK : gram (tangentKernel f θ τ) (fun i => (samples.get i).1) = τ⁻¹ • (J * Jᵀ) := by rw [gram_tangent, hJ]
  have hθ' : θ = (2 * w) • (τ⁻¹ • (Jᵀ *ᵥ r)) := by
    have := congrArg (fun v => τ⁻¹ • v) hθ
    simp only [smul_smul, inv_mul_cancel₀ hτ.ne', one_smul] at this
    rw [smul_smul, mul_comm (2 * w), ← this]
  have hpd : (gram (tangentKernel f θ τ) (fun i => (samples.get i).1) + (1 / (2 * w)) • 1).PosDef := by
    rw [add_comm]
    exact (Matrix.PosDef.one.smul (by positivity)).add_posSemidef ((tangent_isKernel f θ hτ).psd _ _)
  have hsys : (gram (tangentKernel f θ τ) (fun i => (samples.get i).1) + (1 / (2 * w)) • 1) *ᵥ ((2 * w) • r) = y := by
    rw [Matrix.add_mulVec, Matrix.smul_mulVec, Matrix.one_mulVec, smul_smul, one_div, inv_mul_cancel₀ (by positivity), one_smul, hK]
    have : (τ⁻¹ • (J * Jᵀ)) *ᵥ ((2 * w) • r) = J *ᵥ θ := by
      conv_rhs => rw [hθ']
      rw [Matrix.smul_mulVec, Matrix.mulVec_smul, ← Matrix.mulVec_mulVec, Matrix.mulVec_smul, Matrix.mulVec_smul, smul_comm]
    rw [this, hr]; abel
  have hsol : (gram (tangentKernel f θ τ) (fun i => (samples.get i).1) + (1 / (2 * w)) • 1)⁻¹ *ᵥ y = (2 * w) • r := by
    rw [← hsys, Matrix.mulVec_mulVec, Matrix.nonsing_inv_mul _ hpd.det_pos.ne'.isUnit, Matrix.one_mulVec]
  have hy : (fun i : Fin samples.length × Fin c => (samples.get i.1).2 i.2 - f (samples.get i.1).1 0 i.2) = y := by
    funext i; simp only [hb, y]
  rw [gpMean, hy, ← Matrix.mulVec_mulVec, hsol, cross_tangent, ← hJ, hb, h]
  conv_lhs => rw [hθ']
  rw [hj, Matrix.smul_mulVec, Matrix.mulVec_smul, Matrix.mulVec_smul, Matrix.mulVec_smul, ← Matrix.mulVec_mulVec, add_comm, smul_comm]

section
variable (lower : String → String) (rows : A → Except Err (List A)) (points : PyObj A → PyObj A → Except Err (List (X × Y)))
  (net : Net X p) (params : PyTree ℝ) (θ : Vec p) (data : PyObj A) (samples : List (X × Y))
  (H : Vec (shapeSize net.shape) → Vec (shapeSize net.shape) → Y → Vec (shapeSize net.shape)) (curvType ct : EnumArg)
  (kind : EnumArg → LaplaceKind p) (hk : kind ct = .full) (numCurv numTotal : ℕ) (hN : numTotal ≠ 0)
  (prior : PriorArgs) (τ : ℝ) (hτ : prior.priorPrec = some τ) (hτ0 : 0 < τ) (s : ℝ) (hs : 0 < s)
  (rng : Prng K) (hrng : RngOk rng)
include hk hN hτ hτ0 hs hrng

/-- **C74 (kernel, every loss).** For every model, data set, layout of the data and named loss: after `laplace` with curvature type FULL, the
matrix that `set_posterior_gp_kernel(dense=True)` returns for two inputs is the posterior covariance `k(x, x') - k(x, X) (I + W k(X, X))⁻¹ W k(X, x')`
of the Gaussian process with the tangent kernel `k(x, x') = J(x) J(x')ᵀ s/τ`, where `W` is block diagonal with the loss Hessians at the training
points times `σ²·num_curv/(num_total·s)` (`s` the loss scaling factor). -/
theorem C74_kernel (loss : String) (h : LaplaceCall lower points net.fn params θ data samples loss H curvType ct)
    (hσ : 0 ≤ prior.sigmaSquared.getD 1) (hdim : net.shape.length = 1) (hpos : 0 < shapeSize net.shape)
    (kg : PfKwargs K) (hns : kg.numSamples = none) :
    ∃ posteriorFn est g dist, laplace lower rows points net.fn params data (.name loss) curvType kind numCurv numTotal = .ok (posteriorFn, est) ∧
      setPosteriorGpKernel rng net params posteriorFn prior s true (.int (shapeSize net.shape)) kg = .ok (.dense g, dist) ∧
      ∀ x x', g x x' = .ok (.leaf (denseArr (gpCovLoss (tangentKernel net.fn θ (τ / s)) (fun i => (samples.get i).1)
        (lossHessians net.fn θ H (prior.sigmaSquared.getD 1 * (numCurv / numTotal) / s) samples.get) x x'))) := by
  obtain ⟨G, g1, g2, g3⟩ := C47_laplace_curvature lower rows points net.fn params θ data samples loss H curvType ct h kind numCurv numTotal hN
  have hsz : numEntries params = p := by rw [← length_entries h.hwf, h.hθ, List.length_ofFn]
  obtain ⟨post, cov, scale, e1, e2, e3, R, ⟨-, k2, -, S, e4, e5⟩, e7, e8⟩ :=
    posterior_of_estimate params hsz h.hp (.full G) g1 prior τ hτ hτ0 hσ s hs
  obtain ⟨g, dist, k, f1, f2, f3, -, -⟩ := C37_dense_kernel rng hrng net params h.hp h.hwf θ h.hθ
    (fun q s => setPosteriorFn (.full G) (.tree params) q s) prior s post e1 cov scale e2 e3 _ R e7 e8 k2.posSemidef hdim hpos kg hns {}
    rfl (by simp) (by simp) (by simp)
  refine ⟨fun q s => setPosteriorFn (.full G) (.tree params) q s, .full G, g, dist, by rw [g3, hk]; rfl, f1, fun x x' => ?_⟩
  rw [f2, f3]
  exact congrArg (fun V => (Except.ok (.leaf (denseArr V)) : Except Err (PyTree ℝ)))
    (posterior_function_space (goodLossHess_named loss H h.hH) _ samples g1 g2 hτ0 hσ hs x x')

/-- **C74 (kernel, squared error).** For the loss `mse` this is the textbook posterior covariance of Gaussian process regression with the kernel
`J(x) J(x')ᵀ s/τ` and noise variance `s·num_total/(2 σ² num_curv)`. -/
theorem C74_regression_kernel (h : LaplaceCall lower points net.fn params θ data samples "mse" H curvType ct)
    (hσ : 0 < prior.sigmaSquared.getD 1) (hn : numCurv ≠ 0) (hdim : net.shape.length = 1) (hpos : 0 < shapeSize net.shape)
    (kg : PfKwargs K) (hns : kg.numSamples = none) :
    ∃ posteriorFn est g dist, laplace lower rows points net.fn params data (.name "mse") curvType kind numCurv numTotal = .ok (posteriorFn, est) ∧
      setPosteriorGpKernel rng net params posteriorFn prior s true (.int (shapeSize net.shape)) kg = .ok (.dense g, dist) ∧
      ∀ x x', g x x' = .ok (.leaf (denseArr (gpCov (tangentKernel net.fn θ (τ / s)) (fun i => (samples.get i).1)
        (s * numTotal / (2 * prior.sigmaSquared.getD 1 * numCurv)) x x'))) := by
  obtain ⟨posteriorFn, est, g, dist, h1, h2, h3⟩ := C74_kernel lower rows points net params θ data samples H curvType ct kind hk numCurv numTotal hN
    prior τ hτ hτ0 s hs rng hrng "mse" h hσ.le hdim hpos kg hns
  refine ⟨posteriorFn, est, g, dist, h1, h2, fun x x' => ?_⟩
  rw [h3]
  have hn0 : (0 : ℝ) < numCurv := by exact_mod_cast Nat.pos_of_ne_zero hn
  have hN0 : (0 : ℝ) < numTotal := by exact_mod_cast Nat.pos_of_ne_zero hN
  have hw : 0 < prior.sigmaSquared.getD 1 * ((numCurv : ℝ) / numTotal) / s := by positivity
  have hHm := mse_hessian' h.hH
  subst hHm
  refine congrArg (fun V => (Except.ok (.leaf (denseArr V)) : Except Err (PyTree ℝ))) ((posterior_regression hw (div_pos hτ0 hs) x x').trans ?_)
  congr 1
  field_simp

/-- **C74 (predictive, every loss).** The linearised predictive after `laplace` with curvature type FULL reports the model output as mean and the
posterior covariance of the same Gaussian process, in every statistic it computes. -/
theorem C74_predictive (loss : String) (h : LaplaceCall lower points net.fn params θ data samples loss H curvType ct)
    (hσ : 0 ≤ prior.sigmaSquared.getD 1) (kw : PfKwargs K) (hkw : kw.precompute = none) (hb1 : kw.precomputeListBatchSize ≠ some 0)
    (hb2 : kw.linSamplesBatchSize ≠ some 0) (hb3 : kw.weightBatchSize ≠ some 0) (fns : List LinFn)
    (hu : ∀ fn ∈ fns, LinUsable net.shape (kw.numSamples.getD 0) (kw.specialPredType.getD "mean_field_0") fn) :
    ∃ posteriorFn est, laplace lower rows points net.fn params data (.name loss) curvType kind numCurv numTotal = .ok (posteriorFn, est) ∧
      ∀ x : X, ∃ (r : Dict (Arr ℝ)) (V : Mat (shapeSize net.shape) (shapeSize net.shape)) (draws : Fin (kw.numSamples.getD 0) → Vec (shapeSize net.shape)),
        V = gpCovLoss (tangentKernel net.fn θ (τ / s)) (fun i => (samples.get i).1)
          (lossHessians net.fn θ H (prior.sigmaSquared.getD 1 * (numCurv / numTotal) / s) samples.get) x x ∧
        linPushforward rng net params posteriorFn prior s ((LinFn.setup :: fns).map LinFn.step) kw x = .ok r ∧
        (∀ key v, r.get? key = some v →
          linExpected net.shape (net.fn x θ) V draws (specialOf (kw.specialPredType.getD "mean_field_0") (net.fn x θ) V) key = some v) ∧
        ∀ fn ∈ fns, (r.get? (linKey fn)).isSome := by
  obtain ⟨G, P, R, posteriorFn, g1, g2, g3, g4, g5, g6⟩ := C47_linearized_predictive_full lower rows net points params θ data samples loss H
    curvType ct h kind hk numCurv numTotal hN prior τ hτ hτ0 hσ s hs rng hrng kw hkw hb1 hb2 hb3 fns hu
  have hpsd : G.PosSemidef := by
    have hgood := goodLossHess_named loss H h.hH
    have : G = ggnMatrix net.fn θ H hgood ((numCurv : ℝ) / numTotal) samples := by
      apply Matrix.toLin'.injective
      apply LinearMap.ext; intro v
      rw [Matrix.toLin'_apply, Matrix.toLin'_apply, g1, ggnMatrix_mulVec]
    rw [this]
    exact ggnMatrix_posSemidef net.fn θ H hgood _ (by positivity) samples h.hd
  refine ⟨posteriorFn, _, g5, fun x => ?_⟩
  obtain ⟨r, eps, -, h1, h2, h3⟩ := g6 x
  have e := posterior_function_space (goodLossHess_named loss H h.hH) ((numCurv : ℝ) / numTotal) samples hpsd g1 hτ0 hσ hs x x
  rw [show precision G τ (prior.sigmaSquared.getD 1) s = P from g2.symm] at e
  exact ⟨r, _, _, e, h1, h2, h3⟩

end

/-- **C74 (trained linear regression).** For a model affine in its parameters, trained with `mse` and the prior that the prior arguments describe
(the parameters minimise `σ²·Σ‖f(x, θ) - y‖² + τ/2 ‖θ‖²`), `laplace` with curvature type FULL on the whole data set followed by the linearised
predictive is Gaussian process regression: the reported mean is the textbook posterior mean with prior mean `f(·, 0)`, kernel `J(x) J(x')ᵀ/τ` and
noise variance `1/(2σ²)`, and every statistic is computed from the textbook posterior covariance. -/
theorem C74_trained_regression (lower : String → String) (rows : A → Except Err (List A)) (net : Net X p) (hf : AffineModel net.fn)
    (points : PyObj A → PyObj A → Except Err (List (X × Vec (shapeSize net.shape)))) (params : PyTree ℝ) (θ : Vec p)
    (data : PyObj A) (samples : List (X × Vec (shapeSize net.shape)))
    (H : Vec (shapeSize net.shape) → Vec (shapeSize net.shape) → Vec (shapeSize net.shape) → Vec (shapeSize net.shape))
    (curvType ct : EnumArg) (h : LaplaceCall lower points net.fn params θ data samples "mse" H curvType ct)
    (kind : EnumArg → LaplaceKind p) (hk : kind ct = .full) (m : ℕ) (hm : m ≠ 0)
    (prior : PriorArgs) (τ : ℝ) (hτ : prior.priorPrec = some τ) (hτ0 : 0 < τ) (hσ : 0 < prior.sigmaSquared.getD 1)
    (hmin : ∀ θ', energy net.fn samples (prior.sigmaSquared.getD 1) τ θ ≤ energy net.fn samples (prior.sigmaSquared.getD 1) τ θ')
    (rng : Prng K) (hrng : RngOk rng) (kw : PfKwargs K) (hkw : kw.precompute = none) (hb1 : kw.precomputeListBatchSize ≠ some 0)
    (hb2 : kw.linSamplesBatchSize ≠ some 0) (hb3 : kw.weightBatchSize ≠ some 0) (fns : List LinFn)
    (hu : ∀ fn ∈ fns, LinUsable net.shape (kw.numSamples.getD 0) (kw.specialPredType.getD "mean_field_0") fn) :
    ∃ posteriorFn est, laplace lower rows points net.fn params data (.name "mse") curvType kind m m = .ok (posteriorFn, est) ∧
      ∀ x : X, ∃ (r : Dict (Arr ℝ)) (μ : Vec (shapeSize net.shape)) (V : Mat (shapeSize net.shape) (shapeSize net.shape))
          (draws : Fin (kw.numSamples.getD 0) → Vec (shapeSize net.shape)),
        μ = gpMean (tangentKernel net.fn θ τ) (fun i => (samples.get i).1) (1 / (2 * prior.sigmaSquared.getD 1)) (fun x => net.fn x 0)
          (fun i => (samples.get i).2) x ∧
        V = gpCov (tangentKernel net.fn θ τ) (fun i => (samples.get i).1) (1 / (2 * prior.sigmaSquared.getD 1)) x x ∧
        linPushforward rng net params posteriorFn prior 1 ((LinFn.setup :: fns).map LinFn.step) kw x = .ok r ∧
        (∀ key v, r.get? key = some v →
          linExpected net.shape μ V draws (specialOf (kw.specialPredType.getD "mean_field_0") μ V) key = some v) ∧
        ∀ fn ∈ fns, (r.get? (linKey fn)).isSome := by
  obtain ⟨posteriorFn, est, h1, h2⟩ := C74_predictive lower rows points net params θ data samples H curvType ct kind hk m m hm prior τ hτ hτ0 1
    one_pos rng hrng "mse" h hσ.le kw hkw hb1 hb2 hb3 fns hu
  refine ⟨posteriorFn, est, h1, fun x => ?_⟩
  obtain ⟨r, V, draws, e, e1, e2, e3⟩ := h2 x
  have hm' : ((m : ℝ) / m) = 1 := div_self (by exact_mod_cast hm)
  have hHm := mse_hessian' h.hH
  subst hHm
  rw [hm', mul_one, div_one, div_one, posterior_regression hσ hτ0] at e
  exact ⟨r, net.fn x θ, V, draws, trained_mean hf samples hσ hτ0 θ hmin x, e, e1, e2, e3⟩

/-! ### Non-vacuity -/

/-- Noise 1/2 and prior precision 1 for the two-parameter network fitted to three inputs. -/
example : ∃ posteriorFn est g dist,
    laplace (fun s => if s = "Linear" then "linear" else s) (fun _ => .error .valueError) testTrainPoints testNet.fn testMean
      (.iter (.reiterable [.tup [.arr [1, 2], .arr [4, 5, 6, 7]], .tup [.arr [3], .arr [8, 9]]])) (.name "mse") (.str "full") (fun _ => .full) 1 1 =
        .ok (posteriorFn, est) ∧
    setPosteriorGpKernel testRng testNet testMean posteriorFn ⟨some 1, none⟩ 1 true (.int 2) {} = .ok (.dense g, dist) ∧
    ∀ x x', g x x' = .ok (.leaf (denseArr (gpCov (tangentKernel testNet.fn ![3, 5] (1 / 1))
      (fun i : Fin 3 => ([((1 : ℝ), ()), (2, ()), (3, ())].get i).1) (1 * (1 : ℕ) / (2 * 1 * (1 : ℕ))) x x'))) :=
  C74_regression_kernel (fun s => if s = "Linear" then "linear" else s) (fun _ => .error .valueError) testTrainPoints testNet testMean ![3, 5] _
    [(1, ()), (2, ()), (3, ())] _ _ _ (fun _ => .full) rfl 1 1 (by norm_num) ⟨some 1, none⟩ 1 rfl one_pos 1 one_pos testRng testRng_ok test_train
    (by norm_num) (by norm_num) rfl (by simp [testNet, shapeSize]) {} rfl

/-- A trained regression: the model `x θ`, the observations `(1, 2)` and `(2, 2)`, `σ² = 1/2` and `τ = 1`, minimised at `θ = 1`. -/
def trainedFn : ℝ → Vec 1 → Vec 1 := fun x t _ => x * t 0

/-- The model as a network with one output. -/
def trainedNet : Net ℝ 1 := ⟨[1], trainedFn⟩

theorem trained_affine : AffineModel trainedFn := by
  refine ⟨fun x => Matrix.of fun _ _ => x, fun _ => 0, fun x θ => ?_⟩
  funext i
  simp [trainedFn, Matrix.mulVec, dotProduct]

theorem trained_energy (w τ : ℝ) (θ : Vec 1) : energy trainedFn [(1, fun _ => 2), (2, fun _ => 2)] w τ θ =
    w * ((θ 0 - 2) ^ 2 + (2 * θ 0 - 2) ^ 2) + τ / 2 * θ 0 ^ 2 := by
  simp [energy, totalError, trainedFn]

theorem trained_min (θ' : Vec 1) : energy trainedFn [(1, fun _ => 2), (2, fun _ => 2)] 1 2 (fun _ => 1) ≤
    energy trainedFn [(1, fun _ => 2), (2, fun _ => 2)] 1 2 θ' := by
  rw [trained_energy, trained_energy]
  nlinarith [sq_nonneg (θ' 0 - 1)]

/-- The batches of the example as arrays of samples. -/
def trainedPoints (x y : PyObj (List ℝ)) : Except Err (List (ℝ × Vec 1)) :=
  match x, y with
  | .arr xs, .arr ys => .ok (List.zipWith (fun a b => (a, fun _ => b)) xs ys)
  | _, _ => .error .typeError

theorem trained_call : LaplaceCall (fun s => s) trainedPoints trainedFn (.leaf ⟨[1], [1]⟩) (fun _ => 1)
    (.iter (.reiterable [.tup [.arr [1], .arr [2]], .tup [.arr [2], .arr [2]]])) [(1, fun _ => 2), (2, fun _ => 2)] "mse"
    (fun jv _ _ => mseHessianMv jv) (.str "full") (.member "full") := by
  refine ⟨by norm_num, ?_, by simp [entries, Tree.leaves], ?_, fun s _ => ?_, rfl, rfl⟩
  · intro a ha
    simp [Tree.leaves] at ha
    subst ha; rfl
  · refine ⟨[(.arr [1], .arr [2]), (.arr [2], .arr [2])], fun xy => (trainedPoints xy.1 xy.2).toOption.getD [],
      DataOf.pairs [(.arr [1], .arr [2]), (.arr [2], .arr [2])] (by simp), ?_, rfl⟩
    intro xy hxy; simp at hxy; rcases hxy with rfl | rfl <;> rfl
  · obtain ⟨M, b, h⟩ := trained_affine
    exact (jacobian_affine (M _) (b _) _ (h _) _).1

example : ∃ posteriorFn est,
    laplace (fun s => s) (fun _ => .error .valueError) trainedPoints trainedFn (.leaf ⟨[1], [1]⟩)
      (.iter (.reiterable [.tup [.arr [1], .arr [2]], .tup [.arr [2], .arr [2]]])) (.name "mse") (.str "full") (fun _ => .full) 2 2 =
        .ok (posteriorFn, est) ∧
    ∀ x : ℝ, ∃ (r : Dict (Arr ℝ)) (μ : Vec 1) (V : Mat 1 1) (draws : Fin 0 → Vec 1),
      μ = gpMean (tangentKernel trainedFn (fun _ => 1) 2) (fun i => ([((1 : ℝ), fun _ => 2), (2, fun _ => 2)] : List (ℝ × Vec 1)).get i |>.1)
        (1 / (2 * 1)) (fun x => trainedFn x 0) (fun i => ([((1 : ℝ), fun _ => 2), (2, fun _ => 2)] : List (ℝ × Vec 1)).get i |>.2) x ∧
      V = gpCov (tangentKernel trainedFn (fun _ => 1) 2) (fun i => ([((1 : ℝ), fun _ => 2), (2, fun _ => 2)] : List (ℝ × Vec 1)).get i |>.1)
        (1 / (2 * 1)) x x ∧
      linPushforward testRng trainedNet (.leaf ⟨[1], [1]⟩) posteriorFn ⟨some 2, none⟩ 1 ([LinFn.setup, .predMean, .predCov].map LinFn.step) {} x = .ok r ∧
      (∀ key v, r.get? key = some v → linExpected [1] μ V draws (specialOf "mean_field_0" μ V) key = some v) ∧
      ∀ fn ∈ [LinFn.predMean, .predCov], (r.get? (linKey fn)).isSome :=
  C74_trained_regression (fun s => s) (fun _ => .error .valueError) trainedNet trained_affine trainedPoints (.leaf ⟨[1], [1]⟩) (fun _ => 1) _
    [(1, fun _ => 2), (2, fun _ => 2)] _ _ _ trained_call (fun _ => .full) rfl 2 (by norm_num) ⟨some 2, none⟩ 2 rfl two_pos one_pos trained_min
    testRng testRng_ok {} rfl (by simp) (by simp) (by simp) [.predMean, .predCov] (by simp [LinUsable, trainedNet, shapeSize])

end Laplax.Props
