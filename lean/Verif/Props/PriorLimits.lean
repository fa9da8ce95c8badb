import Verif.Spec.PriorLimits
import Verif.Props.Uncertainty
import Verif.Props.LogitShift
import Mathlib.Topology.Instances.Matrix
import Mathlib.LinearAlgebra.Dual.Lemmas
import Mathlib.Topology.Algebra.Order.LiminfLimsup
import Mathlib.Analysis.SpecialFunctions.Pow.Real

/-! # C75: strong and weak priors — the limits of the predictive in the prior precision -/

namespace Laplax.Props
open Laplax Spec Filter Topology
open scoped BigOperators Matrix

variable {p c : ℕ} {X K : Type}

/-- A vector orthogonal to the kernel of a symmetric matrix is in its range. -/
theorem range_of_kernel {C : Matrix (Fin p) (Fin p) ℝ} (hC : Cᵀ = C) (v : Vec p) (h : ∀ u, C *ᵥ u = 0 → v ⬝ᵥ u = 0) :
    ∃ z, C *ᵥ z = v := by
  let φ : Module.Dual ℝ (Vec p) := { toFun := fun u => v ⬝ᵥ u, map_add' := by intros; simp, map_smul' := by intros; simp }
  have hφ : φ ∈ LinearMap.range (Matrix.toLin' C).dualMap := by
    rw [LinearMap.range_dualMap_eq_dualAnnihilator_ker, Submodule.mem_dualAnnihilator]
    intro u hu
    exact h u (by simpa using hu)
  obtain ⟨g, hg⟩ := hφ
  refine ⟨fun i => g (Pi.single i 1), ?_⟩
  have hgz : ∀ w : Vec p, g w = (fun i => g (Pi.single i 1)) ⬝ᵥ w := by
    intro w
    conv_lhs => rw [← Finset.univ_sum_single w, map_sum]
    rw [dotProduct]
    refine Finset.sum_congr rfl fun i _ => ?_
    have : (Pi.single i (w i) : Vec p) = w i • Pi.single i 1 := by
      rw [← Pi.single_smul, smul_eq_mul, mul_one]
    rw [this, map_smul, smul_eq_mul, mul_comm]
  funext j
  have e := LinearMap.congr_fun hg (Pi.single j 1)
  rw [LinearMap.dualMap_apply, hgz, Matrix.toLin'_apply, Matrix.dotProduct_mulVec, ← Matrix.mulVec_transpose, hC] at e
  have e1 : (C *ᵥ fun i => g (Pi.single i 1)) ⬝ᵥ Pi.single j 1 = (C *ᵥ fun i => g (Pi.single i 1)) j := by simp
  rw [e1] at e
  rw [e]
  show v ⬝ᵥ Pi.single j 1 = v j
  simp

theorem reg_posDef {C : Matrix (Fin p) (Fin p) ℝ} (hC : C.PosSemidef) {τ : ℝ} (hτ : 0 < τ) : (C + τ • 1).PosDef :=
  Matrix.PosDef.posSemidef_add hC (Matrix.PosDef.one.smul hτ)

theorem inv_smul_one {τ : ℝ} (hτ : 0 < τ) : (τ • (1 : Matrix (Fin p) (Fin p) ℝ))⁻¹ = τ⁻¹ • 1 :=
  Matrix.inv_eq_right_inv (by rw [Matrix.smul_mul, Matrix.mul_smul, smul_smul, mul_inv_cancel₀ hτ.ne', one_smul, Matrix.one_mul])

/-- The regularised quadratic form is at most the one of the prior. -/
theorem reg_le {C : Matrix (Fin p) (Fin p) ℝ} (hC : C.PosSemidef) {τ : ℝ} (hτ : 0 < τ) (v : Vec p) :
    v ⬝ᵥ (C + τ • 1)⁻¹ *ᵥ v ≤ (v ⬝ᵥ v) / τ := by
  have := inv_antitone (Matrix.PosDef.one.smul hτ) (reg_posDef hC hτ) (by rw [add_sub_cancel_right]; exact hC) v
  rwa [inv_smul_one hτ, Matrix.smul_mulVec, Matrix.one_mulVec, dotProduct_smul, smul_eq_mul, inv_mul_eq_div] at this

theorem reg_nonneg {C : Matrix (Fin p) (Fin p) ℝ} (hC : C.PosSemidef) {τ : ℝ} (hτ : 0 < τ) (v : Vec p) :
    0 ≤ v ⬝ᵥ (C + τ • 1)⁻¹ *ᵥ v := by
  simpa using (reg_posDef hC hτ).inv.posSemidef.dotProduct_mulVec_nonneg v

theorem reg_continuousOn {C : Matrix (Fin p) (Fin p) ℝ} (hC : C.PosSemidef) :
    ContinuousOn (fun τ : ℝ => (C + τ • 1)⁻¹) (Set.Ioi 0) := by
  have h : ∀ τ : ℝ, (C + τ • 1)⁻¹ = (C + τ • 1).det⁻¹ • (C + τ • 1).adjugate := fun τ => by
    rw [Matrix.inv_def, Ring.inverse_eq_inv']
  have hc : Continuous fun τ : ℝ => C + τ • (1 : Matrix (Fin p) (Fin p) ℝ) := by fun_prop
  refine ContinuousOn.congr ?_ fun τ _ => h τ
  exact ContinuousOn.smul (hc.matrix_det.continuousOn.inv₀ fun τ hτ => (reg_posDef hC hτ).det_pos.ne')
    hc.matrix_adjugate.continuousOn

theorem quad_continuousOn {M : ℝ → Matrix (Fin p) (Fin p) ℝ} {s : Set ℝ} (h : ContinuousOn M s) (v w : Vec p) :
    ContinuousOn (fun τ => v ⬝ᵥ M τ *ᵥ w) s := by
  have : Continuous fun M : Matrix (Fin p) (Fin p) ℝ => v ⬝ᵥ M *ᵥ w := by
    simp only [dotProduct, Matrix.mulVec]; fun_prop
  exact this.comp_continuousOn h

/-- Strong prior: the regularised quadratic form tends to 0. -/
theorem reg_atTop {C : Matrix (Fin p) (Fin p) ℝ} (hC : C.PosSemidef) (v : Vec p) :
    Tendsto (fun τ : ℝ => v ⬝ᵥ (C + τ • 1)⁻¹ *ᵥ v) atTop (𝓝 0) := by
  refine tendsto_of_tendsto_of_tendsto_of_le_of_le' tendsto_const_nhds (tendsto_const_nhds.div_atTop tendsto_id : Tendsto (fun τ : ℝ => (v ⬝ᵥ v) / τ) atTop (𝓝 0)) ?_ ?_
  · filter_upwards [eventually_gt_atTop 0] with τ hτ using reg_nonneg hC hτ v
  · filter_upwards [eventually_gt_atTop 0] with τ hτ using reg_le hC hτ v

/-- … and it is asymptotically the one of the prior. -/
theorem reg_atTop_scaled {C : Matrix (Fin p) (Fin p) ℝ} (hC : C.PosSemidef) (v : Vec p) :
    Tendsto (fun τ : ℝ => τ * (v ⬝ᵥ (C + τ • 1)⁻¹ *ᵥ v)) atTop (𝓝 (v ⬝ᵥ v)) := by
  have h0 : Tendsto (fun τ : ℝ => v ⬝ᵥ v - (v ⬝ᵥ C *ᵥ v) / τ) atTop (𝓝 (v ⬝ᵥ v)) := by
    simpa using tendsto_const_nhds.sub ((tendsto_const_nhds (x := v ⬝ᵥ C *ᵥ v)).div_atTop tendsto_id)
  refine tendsto_of_tendsto_of_tendsto_of_le_of_le' h0 tendsto_const_nhds ?_ ?_
  · filter_upwards [eventually_gt_atTop 0] with τ hτ
    have := quad_inv_le (reg_posDef hC hτ) (τ⁻¹ • v) v
    simp only [smul_dotProduct, Matrix.mulVec_smul, dotProduct_smul, Matrix.add_mulVec, Matrix.smul_mulVec, Matrix.one_mulVec,
      dotProduct_add, smul_eq_mul] at this
    have h2 := mul_le_mul_of_nonneg_left this hτ.le
    refine le_trans (le_of_eq ?_) h2
    field_simp
    ring
  · filter_upwards [eventually_gt_atTop 0] with τ hτ
    have := mul_le_mul_of_nonneg_left (reg_le hC hτ v) hτ.le
    rwa [mul_div_cancel₀ _ hτ.ne'] at this

/-- Weak prior, determined direction: the regularised quadratic form tends to the one of a solution. -/
theorem reg_zero {C : Matrix (Fin p) (Fin p) ℝ} (hC : C.PosSemidef) (z : Vec p) :
    Tendsto (fun τ : ℝ => (C *ᵥ z) ⬝ᵥ (C + τ • 1)⁻¹ *ᵥ (C *ᵥ z)) (𝓝[>] 0) (𝓝 (z ⬝ᵥ C *ᵥ z)) := by
  have hs : Cᵀ = C := by rw [← Matrix.conjTranspose_eq_transpose_of_trivial]; exact hC.isHermitian.eq
  have h0 : Tendsto (fun τ : ℝ => z ⬝ᵥ C *ᵥ z - τ * (z ⬝ᵥ z)) (𝓝[>] 0) (𝓝 (z ⬝ᵥ C *ᵥ z)) := by
    have : Tendsto (fun τ : ℝ => z ⬝ᵥ C *ᵥ z - τ * (z ⬝ᵥ z)) (𝓝 0) (𝓝 (z ⬝ᵥ C *ᵥ z - 0 * (z ⬝ᵥ z))) :=
      tendsto_const_nhds.sub (tendsto_id.mul_const _)
    simpa using this.mono_left nhdsWithin_le_nhds
  refine tendsto_of_tendsto_of_tendsto_of_le_of_le' h0 tendsto_const_nhds ?_ ?_
  · filter_upwards [self_mem_nhdsWithin] with τ hτ
    have := quad_inv_le (reg_posDef hC hτ) z (C *ᵥ z)
    simp only [Matrix.add_mulVec, Matrix.smul_mulVec, Matrix.one_mulVec, dotProduct_add, dotProduct_smul, smul_eq_mul] at this
    linarith
  · filter_upwards [self_mem_nhdsWithin] with τ hτ
    have hτ' : (0 : ℝ) < τ := hτ
    have hdet : IsUnit (C + τ • 1).det := (Matrix.isUnit_iff_isUnit_det _).1 (reg_posDef hC hτ').isUnit
    have e1 : (C + τ • 1)⁻¹ *ᵥ (C *ᵥ z) = z - τ • ((C + τ • 1)⁻¹ *ᵥ z) := by
      have : C *ᵥ z = (C + τ • 1) *ᵥ z - τ • z := by
        rw [Matrix.add_mulVec, Matrix.smul_mulVec, Matrix.one_mulVec, add_sub_cancel_right]
      rw [this, Matrix.mulVec_sub, Matrix.mulVec_mulVec, Matrix.nonsing_inv_mul _ hdet, Matrix.one_mulVec, Matrix.mulVec_smul]
    have e2 : (C *ᵥ z) ⬝ᵥ ((C + τ • 1)⁻¹ *ᵥ z) = z ⬝ᵥ z - τ * (z ⬝ᵥ (C + τ • 1)⁻¹ *ᵥ z) := by
      have hsi : ((C + τ • 1)⁻¹)ᵀ = (C + τ • 1)⁻¹ := by
        rw [Matrix.transpose_nonsing_inv, Matrix.transpose_add, hs, Matrix.transpose_smul, Matrix.transpose_one]
      rw [Matrix.dotProduct_mulVec, ← Matrix.mulVec_transpose, hsi, e1, sub_dotProduct, smul_dotProduct, smul_eq_mul,
        dotProduct_comm ((C + τ • 1)⁻¹ *ᵥ z)]
    rw [e1, dotProduct_sub, dotProduct_smul, smul_eq_mul, e2, dotProduct_comm (C *ᵥ z) z]
    have h3 := mul_le_mul_of_nonneg_left (reg_le hC hτ' z) hτ'.le
    rw [mul_div_cancel₀ _ hτ'.ne'] at h3
    have : 0 ≤ τ * (z ⬝ᵥ z - τ * (z ⬝ᵥ (C + τ • 1)⁻¹ *ᵥ z)) := mul_nonneg hτ'.le (by linarith)
    linarith

/-- Weak prior, undetermined direction: the regularised quadratic form grows without bound. -/
theorem reg_unbounded {C : Matrix (Fin p) (Fin p) ℝ} (hC : C.PosSemidef) (v u : Vec p) (hu : C *ᵥ u = 0) (hv : v ⬝ᵥ u ≠ 0) :
    Tendsto (fun τ : ℝ => v ⬝ᵥ (C + τ • 1)⁻¹ *ᵥ v) (𝓝[>] 0) atTop := by
  have huu : 0 < u ⬝ᵥ u := by
    rcases (show (0 : ℝ) ≤ u ⬝ᵥ u from Finset.sum_nonneg fun i _ => mul_self_nonneg _).lt_or_eq with h | h
    · exact h
    · exact absurd (by rw [dotProduct_self_eq_zero.1 h.symm, dotProduct_zero]) hv
  have h1 : Tendsto (fun τ : ℝ => (v ⬝ᵥ u) ^ 2 / (u ⬝ᵥ u) * τ⁻¹) (𝓝[>] 0) atTop :=
    tendsto_inv_nhdsGT_zero.const_mul_atTop (by positivity)
  refine tendsto_atTop_mono' _ ?_ h1
  filter_upwards [self_mem_nhdsWithin] with τ hτ
  have hτ' : (0 : ℝ) < τ := hτ
  have := quad_inv_le (reg_posDef hC hτ') (((v ⬝ᵥ u) / (τ * (u ⬝ᵥ u))) • u) v
  simp only [smul_dotProduct, Matrix.mulVec_smul, dotProduct_smul, Matrix.add_mulVec, Matrix.smul_mulVec, Matrix.one_mulVec,
    dotProduct_add, smul_eq_mul, hu, dotProduct_zero, dotProduct_comm u v] at this
  refine le_trans (le_of_eq ?_) this
  field_simp
  ring

section
variable {lower : String → String} {pushforward predictive : EnumArg} {pr : String} {a : PredictiveArgs X K p} {θ : Vec p} {est : CurvEstimate p}

theorem reports_reg (h : ApiLinear lower pushforward predictive pr a θ est) (σ : Option ℝ) (hσ : 0 ≤ σ.getD 1) {τ : ℝ} (hτ : 0 < τ) (x : X) :
    Reports lower pushforward predictive a ⟨some τ, σ⟩ x (a.net.fn x θ)
      fun k => jacobian (a.net.fn x) θ k ⬝ᵥ (σ.getD 1 • curvOf est + τ • 1)⁻¹ *ᵥ jacobian (a.net.fn x) θ k := by
  have := reports h ⟨some τ, σ⟩ rfl hτ hσ x
  simpa only [covAt_diag, targetPrecision_eq] using this

/-- **C75 (strong prior).** For every model, estimate, weight `sigma_squared` and input, as a function of the prior precision `τ > 0` the
linearised predictive reports a constant mean and variances that are continuous in `τ`, tend to 0 as `τ → ∞`, and are asymptotically those of
the prior alone: `τ · V_k(τ) → ‖J_k‖²`. -/
theorem C75_strong_prior (h : ApiLinear lower pushforward predictive pr a θ est) (σ : Option ℝ) (hσ : 0 ≤ σ.getD 1) (x : X) :
    ∃ V : ℝ → Vec (shapeSize a.net.shape),
      (∀ τ, 0 < τ → Reports lower pushforward predictive a ⟨some τ, σ⟩ x (a.net.fn x θ) (V τ)) ∧
      ∀ k, ContinuousOn (fun τ => V τ k) (Set.Ioi 0) ∧ Tendsto (fun τ => V τ k) atTop (𝓝 0) ∧
        Tendsto (fun τ => τ * V τ k) atTop (𝓝 (∑ j, jacobian (a.net.fn x) θ k j ^ 2)) := by
  have hC : (σ.getD 1 • curvOf est).PosSemidef := (curvOf_posSemidef h.psd).smul hσ
  refine ⟨_, fun τ hτ => reports_reg h σ hσ hτ x, fun k => ⟨quad_continuousOn (reg_continuousOn hC) _ _, reg_atTop hC _, ?_⟩⟩
  have e : ∑ j, jacobian (a.net.fn x) θ k j ^ 2 = jacobian (a.net.fn x) θ k ⬝ᵥ jacobian (a.net.fn x) θ k :=
    Finset.sum_congr rfl fun j _ => sq _
  rw [e]
  exact reg_atTop_scaled hC _

/-- **C75 (weak prior).** Let `C` be the curvature that enters the posterior (`sigma_squared` times the estimate).  As the prior precision tends
to 0, the variance reported for output `k` either converges or grows without bound, and which of the two happens depends on one thing only: whether
every direction of parameter space that the data leave undetermined (`C u = 0`) leaves the output unchanged to first order (`(J u)_k = 0`).  If so
there is a solution `z` of `C z = J_k` and the limit is `zᵀ C z`, for every solution; in particular it is `J_k C⁻¹ J_kᵀ` when `C` is invertible. -/
theorem C75_weak_prior (h : ApiLinear lower pushforward predictive pr a θ est) (σ : Option ℝ) (hσ : 0 ≤ σ.getD 1) (x : X) :
    ∃ V : ℝ → Vec (shapeSize a.net.shape),
      (∀ τ, 0 < τ → Reports lower pushforward predictive a ⟨some τ, σ⟩ x (a.net.fn x θ) (V τ)) ∧
      ∀ (k) (C : Matrix (Fin p) (Fin p) ℝ), C = σ.getD 1 • curvOf est →
        ((∀ u, C *ᵥ u = 0 → (jacobian (a.net.fn x) θ *ᵥ u) k = 0) → (∃ z, C *ᵥ z = jacobian (a.net.fn x) θ k) ∧
          ∀ z, C *ᵥ z = jacobian (a.net.fn x) θ k → Tendsto (fun τ => V τ k) (𝓝[>] 0) (𝓝 (z ⬝ᵥ C *ᵥ z))) ∧
        ((∃ u, C *ᵥ u = 0 ∧ (jacobian (a.net.fn x) θ *ᵥ u) k ≠ 0) → Tendsto (fun τ => V τ k) (𝓝[>] 0) atTop) ∧
        (C.PosDef → Tendsto (fun τ => V τ k) (𝓝[>] 0)
          (𝓝 ((jacobian (a.net.fn x) θ * C⁻¹ * (jacobian (a.net.fn x) θ)ᵀ) k k))) := by
  refine ⟨_, fun τ hτ => reports_reg h σ hσ hτ x, fun k C hCe => ?_⟩
  subst hCe
  have hC : (σ.getD 1 • curvOf est).PosSemidef := (curvOf_posSemidef h.psd).smul hσ
  have hs : (σ.getD 1 • curvOf est)ᵀ = σ.getD 1 • curvOf est := by
    rw [← Matrix.conjTranspose_eq_transpose_of_trivial]; exact hC.isHermitian.eq
  have key : ∀ z, (σ.getD 1 • curvOf est) *ᵥ z = jacobian (a.net.fn x) θ k →
      Tendsto (fun τ : ℝ => jacobian (a.net.fn x) θ k ⬝ᵥ (σ.getD 1 • curvOf est + τ • 1)⁻¹ *ᵥ jacobian (a.net.fn x) θ k) (𝓝[>] 0)
        (𝓝 (z ⬝ᵥ (σ.getD 1 • curvOf est) *ᵥ z)) := by
    intro z hz
    rw [← hz]
    exact reg_zero hC z
  refine ⟨fun hk => ⟨range_of_kernel hs _ hk, key⟩, fun ⟨u, hu, hne⟩ => reg_unbounded hC _ u hu hne, fun hpd => ?_⟩
  have hdet : IsUnit (σ.getD 1 • curvOf est).det := (Matrix.isUnit_iff_isUnit_det _).1 hpd.isUnit
  have hz : (σ.getD 1 • curvOf est) *ᵥ ((σ.getD 1 • curvOf est)⁻¹ *ᵥ jacobian (a.net.fn x) θ k) = jacobian (a.net.fn x) θ k := by
    rw [Matrix.mulVec_mulVec, Matrix.mul_nonsing_inv _ hdet, Matrix.one_mulVec]
  have := key _ hz
  rw [hz, dotProduct_comm] at this
  rw [Matrix.mul_assoc, Matrix.mul_apply]
  exact this

/-! ### Class probabilities and the sampled predictive under a strong prior -/

theorem reg_entry {C : Matrix (Fin p) (Fin p) ℝ} (hC : C.PosSemidef) (i j : Fin p) :
    Tendsto (fun τ : ℝ => (C + τ • (1 : Matrix (Fin p) (Fin p) ℝ))⁻¹ i j) atTop (𝓝 0) := by
  have h : ∀ i, Tendsto (fun τ : ℝ => (C + τ • (1 : Matrix (Fin p) (Fin p) ℝ))⁻¹ i i) atTop (𝓝 0) := fun i => by
    have := reg_atTop hC (Pi.single i 1)
    simpa using this
  have h2 := (reg_atTop hC (Pi.single i 1 + Pi.single j 1)).sub ((h i).add (h j))
  have h3 : Tendsto (fun τ : ℝ => (2 : ℝ)⁻¹ * ((Pi.single i 1 + Pi.single j 1 : Vec p) ⬝ᵥ (C + τ • (1 : Matrix (Fin p) (Fin p) ℝ))⁻¹ *ᵥ
      (Pi.single i 1 + Pi.single j 1) - ((C + τ • (1 : Matrix (Fin p) (Fin p) ℝ))⁻¹ i i + (C + τ • (1 : Matrix (Fin p) (Fin p) ℝ))⁻¹ j j)))
      atTop (𝓝 0) := by simpa using h2.const_mul (2 : ℝ)⁻¹
  refine h3.congr' ?_
  filter_upwards [eventually_gt_atTop 0] with τ hτ
  have hsym : (C + τ • (1 : Matrix (Fin p) (Fin p) ℝ))⁻¹ j i = (C + τ • (1 : Matrix (Fin p) (Fin p) ℝ))⁻¹ i j := by
    have := (reg_posDef hC hτ).inv.isHermitian
    rw [Matrix.IsHermitian, Matrix.conjTranspose_eq_transpose_of_trivial] at this
    exact congrFun (congrFun this i) j
  simp only [Matrix.mulVec_add, add_dotProduct, dotProduct_add]
  simp [hsym]
  ring

theorem reg_cov {C : Matrix (Fin p) (Fin p) ℝ} (hC : C.PosSemidef) (J : Matrix (Fin c) (Fin p) ℝ) :
    Tendsto (fun τ : ℝ => J * (C + τ • (1 : Matrix (Fin p) (Fin p) ℝ))⁻¹ * Jᵀ) atTop (𝓝 0) := by
  have h : Tendsto (fun τ : ℝ => (C + τ • (1 : Matrix (Fin p) (Fin p) ℝ))⁻¹) atTop (𝓝 0) :=
    tendsto_pi_nhds.2 fun i => tendsto_pi_nhds.2 fun j => reg_entry hC i j
  have hc : Continuous fun M : Matrix (Fin p) (Fin p) ℝ => J * M * Jᵀ := by fun_prop
  have := (hc.tendsto 0).comp h
  simpa [Function.comp_def] using this

/-- The mean-field probabilities without uncertainty are the softmax of the outputs. -/
theorem special_tendsto (pr : String) (f : Vec c) {V : ℝ → Matrix (Fin c) (Fin c) ℝ} (hV : Tendsto V atTop (𝓝 0)) (k : Fin c) :
    Tendsto (fun τ => specialOf pr f (V τ) k) atTop (𝓝 (softmaxOf f k)) := by
  have hc : 0 < c := k.pos
  have hsum : ∀ g : Fin c → ℝ, (∑ j, Real.exp (g j)) ≠ 0 := fun g =>
    (Finset.sum_pos (fun j _ => Real.exp_pos _) ⟨k, Finset.mem_univ k⟩).ne'
  have hVe : ∀ i j, Tendsto (fun τ => V τ i j) atTop (𝓝 0) := fun i j => (tendsto_pi_nhds.1 (tendsto_pi_nhds.1 hV i)) j
  have hfrac : ∀ {d : ℝ → ℝ} (b : ℝ), Tendsto d atTop (𝓝 0) → Tendsto (fun τ => b / Real.sqrt (1 + Real.pi / 8 * d τ)) atTop (𝓝 b) := by
    intro d b hd
    have : Tendsto (fun τ => b / Real.sqrt (1 + Real.pi / 8 * d τ)) atTop (𝓝 (b / Real.sqrt (1 + Real.pi / 8 * 0))) :=
      tendsto_const_nhds.div (Real.continuous_sqrt.continuousAt.tendsto.comp (tendsto_const_nhds.add (hd.const_mul _))) (by simp)
    simpa using this
  have hsm : ∀ k, 1 / ∑ j, Real.exp (f j - f k) = softmaxOf f k := by
    intro k
    rw [softmaxOf, div_eq_div_iff (hsum _) (hsum _), one_mul, Finset.mul_sum]
    refine Finset.sum_congr rfl fun j _ => ?_
    rw [← Real.exp_add]; congr 1; ring
  unfold specialOf
  split_ifs with h0 h1
  · have hz : ∀ j, Tendsto (fun τ => f j / Real.sqrt (1 + Real.pi / 8 * V τ j j)) atTop (𝓝 (f j)) := fun j => hfrac _ (hVe j j)
    simp only [softmaxOf]
    exact (Real.continuous_exp.continuousAt.tendsto.comp (hz k)).div
      (tendsto_finsetSum _ fun j _ => Real.continuous_exp.continuousAt.tendsto.comp (hz j)) (hsum _)
  · rw [← hsm]
    refine tendsto_const_nhds.div (tendsto_finsetSum _ fun j _ => Real.continuous_exp.continuousAt.tendsto.comp (hfrac _ ?_)) (hsum _)
    simpa using (hVe k k).add (hVe j j)
  · rw [← hsm]
    refine tendsto_const_nhds.div (tendsto_finsetSum _ fun j _ => Real.continuous_exp.continuousAt.tendsto.comp (hfrac _ ?_)) (hsum _)
    simpa using ((hVe k k).add (hVe j j)).sub ((hVe k j).const_mul 2)

/-- The factor of the covariance vanishes with it. -/
theorem factor_tendsto {C : Matrix (Fin p) (Fin p) ℝ} (hC : C.PosSemidef) {R : ℝ → Matrix (Fin p) (Fin p) ℝ}
    (hR : ∀ τ, 0 < τ → R τ * (R τ)ᵀ = (C + τ • (1 : Matrix (Fin p) (Fin p) ℝ))⁻¹) : Tendsto R atTop (𝓝 0) := by
  refine tendsto_pi_nhds.2 fun i => tendsto_pi_nhds.2 fun j => ?_
  have h1 : Tendsto (fun τ : ℝ => Real.sqrt ((C + τ • (1 : Matrix (Fin p) (Fin p) ℝ))⁻¹ i i)) atTop (𝓝 0) := by
    simpa [Function.comp_def] using Real.continuous_sqrt.continuousAt.tendsto.comp (reg_entry hC i i)
  refine squeeze_zero_norm' ?_ h1
  filter_upwards [eventually_gt_atTop 0] with τ hτ
  rw [Real.norm_eq_abs, ← hR τ hτ, Matrix.mul_apply]
  refine Real.le_sqrt_of_sq_le ?_
  rw [sq_abs]
  have : ∀ l, R τ i l * (R τ)ᵀ l i = R τ i l ^ 2 := fun l => by rw [Matrix.transpose_apply]; ring
  simp only [this]
  exact Finset.single_le_sum (f := fun l => R τ i l ^ 2) (fun l _ => sq_nonneg _) (Finset.mem_univ j)

theorem softmax_continuous (k : Fin c) : Continuous fun z : Vec c => softmaxOf z k := by
  have hsum : ∀ g : Fin c → ℝ, (∑ j, Real.exp (g j)) ≠ 0 := fun g =>
    (Finset.sum_pos (fun j _ => Real.exp_pos _) ⟨k, Finset.mem_univ k⟩).ne'
  unfold softmaxOf
  exact Continuous.div (by fun_prop) (by fun_prop) fun z => hsum z

theorem ensSoftmax_tendsto {S : ℕ} (hS : 0 < S) {s : ℝ → Fin S → Vec c} {f : Vec c} (hs : ∀ i, Tendsto (fun τ => s τ i) atTop (𝓝 f))
    (k : Fin c) : Tendsto (fun τ => ensSoftmax (s τ) k) atTop (𝓝 (softmaxOf f k)) := by
  have h1 : Tendsto (fun τ => ensSoftmax (s τ) k) atTop (𝓝 ((∑ _i : Fin S, softmaxOf f k) / S)) :=
    (tendsto_finsetSum _ fun i _ => ((softmax_continuous k).tendsto f).comp (hs i)).div_const _
  have : (S : ℝ) ≠ 0 := by exact_mod_cast hS.ne'
  simpa [mul_div_cancel_left₀ _ this] using h1

/-- **C75 (class probabilities under a strong prior).** For every classification type of the linearised predictive (`mc_bridge` and the three
mean-field types), every model, estimate and input: as the prior precision grows, the reported class probabilities tend to the softmax of the
network output — the prediction of the network without uncertainty. -/
theorem C75_probabilities (h : ApiLinear lower pushforward predictive pr a θ est) (hpr : pr ≠ "none") (σ : Option ℝ) (hσ : 0 ≤ σ.getD 1) (x : X) :
    ∃ q : ℝ → Vec (shapeSize a.net.shape), (∀ τ, 0 < τ → ReportsAt lower pushforward predictive a ⟨some τ, σ⟩ x "pred_act" (q τ)) ∧
      ∀ k, Tendsto (fun τ => q τ k) atTop (𝓝 (softmaxOf (a.net.fn x θ) k)) := by
  have hC : (σ.getD 1 • curvOf est).PosSemidef := (curvOf_posSemidef h.psd).smul hσ
  obtain ⟨fns, eps, h1, -, h3⟩ := C51_linear_predictive lower pushforward predictive pr h.pushforward h.predictive a h.rng h.nonempty
    h.wf θ h.params est h.psd h.posterior h.usable
  have h4 : ∀ τ : ℝ, ∃ R : Matrix (Fin p) (Fin p) ℝ, 0 < τ → R * Rᵀ = (σ.getD 1 • curvOf est + τ • 1)⁻¹ ∧
      ∃ r, setPushforward a .lin fns ⟨some τ, σ⟩ x = .ok r ∧ ∀ key, r.get? key = apiExpected a.net.shape (a.net.fn x θ)
        (jacobian (a.net.fn x) θ * (σ.getD 1 • curvOf est + τ • 1)⁻¹ * (jacobian (a.net.fn x) θ)ᵀ)
        (fun i => a.net.fn x θ + jacobian (a.net.fn x) θ *ᵥ (R *ᵥ eps i)) pr key := by
    intro τ
    by_cases hτ : 0 < τ
    · obtain ⟨P, R, hP, -, e2, e3⟩ := h3 ⟨some τ, σ⟩ τ rfl hτ hσ
      rw [targetPrecision_eq] at hP
      subst hP
      exact ⟨R, fun _ => ⟨e2, e3 x⟩⟩
    · exact ⟨0, fun h => absurd h hτ⟩
  choose R hR using h4
  rcases h.usable with rfl | ⟨rfl, -, hS⟩ | ⟨hm, -⟩
  · exact absurd rfl hpr
  · refine ⟨fun τ => ensSoftmax fun i => a.net.fn x θ + jacobian (a.net.fn x) θ *ᵥ (R τ *ᵥ eps i), fun τ hτ => ?_, fun k =>
      ensSoftmax_tendsto hS (fun i => ?_) k⟩
    · obtain ⟨-, r, hr, hk⟩ := hR τ hτ
      exact ⟨.lin, fns, r, h1, hr, by rw [hk, act_mc]⟩
    · have hc : Continuous fun M : Matrix (Fin p) (Fin p) ℝ => a.net.fn x θ + jacobian (a.net.fn x) θ *ᵥ (M *ᵥ eps i) :=
        continuous_const.add (continuous_const.matrix_mulVec (continuous_id.matrix_mulVec continuous_const))
      have := (hc.tendsto 0).comp (factor_tendsto hC fun τ hτ => (hR τ hτ).1)
      simpa [Function.comp_def] using this
  · refine ⟨fun τ => specialOf pr (a.net.fn x θ) (jacobian (a.net.fn x) θ * (σ.getD 1 • curvOf est + τ • 1)⁻¹ * (jacobian (a.net.fn x) θ)ᵀ),
      fun τ hτ => ?_, fun k => special_tendsto pr _ (reg_cov hC _) k⟩
    obtain ⟨-, r, hr, hk⟩ := hR τ hτ
    exact ⟨.lin, fns, r, h1, hr, by rw [hk, act_special _ _ _ _ hm]⟩

/-- **C75 (sampled predictive under a strong prior).** For every model that is continuous in its parameters at `θ`, as the prior precision grows the
mean reported by the sampled predictive tends to the network output and the standard deviations tend to 0 (for the same PRNG key); for `mc_bridge`
the class probabilities tend to the softmax of the network output. -/
theorem C75_sampled (h : ApiNonlinear lower pushforward predictive pr a θ est) (σ : Option ℝ) (hσ : 0 ≤ σ.getD 1) (x : X)
    (hf : ContinuousAt (a.net.fn x) θ) :
    ∃ m s q : ℝ → Vec (shapeSize a.net.shape), (∀ τ, 0 < τ → ReportsAt lower pushforward predictive a ⟨some τ, σ⟩ x "pred_mean" (m τ) ∧
        ReportsAt lower pushforward predictive a ⟨some τ, σ⟩ x "pred_std" (s τ) ∧
        (pr = "mc_bridge" → ReportsAt lower pushforward predictive a ⟨some τ, σ⟩ x "mc_pred_act" (q τ))) ∧
      ∀ k, Tendsto (fun τ => m τ k) atTop (𝓝 (a.net.fn x θ k)) ∧ Tendsto (fun τ => s τ k) atTop (𝓝 0) ∧
        Tendsto (fun τ => q τ k) atTop (𝓝 (softmaxOf (a.net.fn x θ) k)) := by
  have hC : (σ.getD 1 • curvOf est).PosSemidef := (curvOf_posSemidef h.psd).smul hσ
  obtain ⟨fns, eps, h1, -, h3⟩ := C51_nonlinear_predictive lower pushforward predictive pr h.pushforward h.predictive a h.rng h.nonempty
    h.wf θ h.params est h.psd h.posterior h.samples h.usable
  have h4 : ∀ τ : ℝ, ∃ R : Matrix (Fin p) (Fin p) ℝ, 0 < τ → R * Rᵀ = (σ.getD 1 • curvOf est + τ • 1)⁻¹ ∧
      ∃ r, setPushforward a .nonlin fns ⟨some τ, σ⟩ x = .ok r ∧ ∀ key, r.get? key = apiNonlinExpected a.net.shape (a.net.fn x θ)
        (fun i => a.net.fn x (θ + R *ᵥ eps i)) pr key := by
    intro τ
    by_cases hτ : 0 < τ
    · obtain ⟨P, R, hP, -, e2, e3⟩ := h3 ⟨some τ, σ⟩ τ rfl hτ hσ
      rw [targetPrecision_eq] at hP
      subst hP
      exact ⟨R, fun _ => ⟨e2, e3 x⟩⟩
    · exact ⟨0, fun h => absurd h hτ⟩
  choose R hR using h4
  have hS : (a.numSamples : ℝ) ≠ 0 := by exact_mod_cast h.samples.ne'
  have hlim : ∀ i, Tendsto (fun τ => a.net.fn x (θ + R τ *ᵥ eps i)) atTop (𝓝 (a.net.fn x θ)) := fun i => by
    have hc : Continuous fun M : Matrix (Fin p) (Fin p) ℝ => θ + M *ᵥ eps i :=
      continuous_const.add (continuous_id.matrix_mulVec continuous_const)
    have h5 := (hc.tendsto 0).comp (factor_tendsto hC fun τ hτ => (hR τ hτ).1)
    simp only [Matrix.zero_mulVec, add_zero] at h5
    exact hf.tendsto.comp h5
  have hmean : ∀ k, Tendsto (fun τ => ensMean (fun i => a.net.fn x (θ + R τ *ᵥ eps i)) k) atTop (𝓝 (a.net.fn x θ k)) := fun k => by
    have h6 : Tendsto (fun τ => ensMean (fun i => a.net.fn x (θ + R τ *ᵥ eps i)) k) atTop
        (𝓝 ((∑ _i : Fin a.numSamples, a.net.fn x θ k) / a.numSamples)) :=
      (tendsto_finsetSum _ fun i _ => tendsto_pi_nhds.1 (hlim i) k).div_const _
    simpa [mul_div_cancel_left₀ _ hS] using h6
  refine ⟨fun τ => ensMean fun i => a.net.fn x (θ + R τ *ᵥ eps i),
    fun τ k => Real.sqrt (ensCov (fun i => a.net.fn x (θ + R τ *ᵥ eps i)) 0 k k),
    fun τ => ensSoftmax (ensTake 5 fun i => a.net.fn x (θ + R τ *ᵥ eps i)), fun τ hτ => ?_, fun k => ⟨hmean k, ?_, ?_⟩⟩
  · obtain ⟨-, r, hr, hk⟩ := hR τ hτ
    refine ⟨⟨.nonlin, fns, r, h1, hr, by rw [hk]; simp [apiNonlinExpected]⟩, ⟨.nonlin, fns, r, h1, hr, by rw [hk]; simp [apiNonlinExpected]⟩, ?_⟩
    intro hmc
    exact ⟨.nonlin, fns, r, h1, hr, by rw [hk]; simp [apiNonlinExpected, hmc]⟩
  · have h7 : Tendsto (fun τ => ensCov (fun i => a.net.fn x (θ + R τ *ᵥ eps i)) 0 k k) atTop
        (𝓝 ((∑ _i : Fin a.numSamples, (a.net.fn x θ k - a.net.fn x θ k) * (a.net.fn x θ k - a.net.fn x θ k)) / (a.numSamples - 0))) :=
      (tendsto_finsetSum _ fun i _ => ((tendsto_pi_nhds.1 (hlim i) k).sub (hmean k)).mul
        ((tendsto_pi_nhds.1 (hlim i) k).sub (hmean k))).div_const _
    have := Real.continuous_sqrt.continuousAt.tendsto.comp h7
    simpa [Function.comp_def] using this
  · exact ensSoftmax_tendsto (s := fun τ => ensTake 5 fun i => a.net.fn x (θ + R τ *ᵥ eps i)) (lt_min (by norm_num) h.samples)
      (fun i => hlim _) k

end

/-! ### Non-vacuity: both kinds of directions occur in one example -/

/-- The network of the running example as a plain function. -/
noncomputable def testOut (x : ℝ) : Vec 2 → Vec 2 := fun θ i => if i = 0 then θ 0 * θ 1 else x * θ 0

theorem test_jacobian (x : ℝ) : jacobian (testOut x) ![3, 5] = Matrix.of ![![5, 3], ![x, 0]] := by
  have h0 : HasFDerivAt (fun v : Vec 2 => v 0) (ContinuousLinearMap.proj 0 : Vec 2 →L[ℝ] ℝ) ![3, 5] := hasFDerivAt_apply 0 _
  have h1 : HasFDerivAt (fun v : Vec 2 => v 1) (ContinuousLinearMap.proj 1 : Vec 2 →L[ℝ] ℝ) ![3, 5] := hasFDerivAt_apply 1 _
  have hd : HasFDerivAt (testOut x) (ContinuousLinearMap.pi ![(3 : ℝ) • (ContinuousLinearMap.proj 1 : Vec 2 →L[ℝ] ℝ) +
      (5 : ℝ) • ContinuousLinearMap.proj 0, x • (ContinuousLinearMap.proj 0 : Vec 2 →L[ℝ] ℝ)]) ![3, 5] := by
    rw [hasFDerivAt_pi']
    intro i
    fin_cases i
    · exact (h0.mul h1).congr_fderiv (by ext v; simp)
    · exact (h0.const_mul x).congr_fderiv (by ext v; simp)
  funext k j
  show fderiv ℝ (testOut x) ![3, 5] (Pi.single j 1) k = _
  rw [hd.fderiv]
  fin_cases k
  · show (3 : ℝ) * (Pi.single j 1 : Vec 2) 1 + 5 * (Pi.single j 1 : Vec 2) 0 = _
    fin_cases j <;> simp
  · show x * (Pi.single j 1 : Vec 2) 0 = _
    fin_cases j <;> simp

/-- In the running example (curvature `[[2, 2], [2, 2]]`) the direction `(1, -1)` is undetermined and changes the first output: its reported
variance grows without bound as the prior gets weak, and vanishes as the prior gets strong. -/
example : ∃ V : ℝ → Vec 2, (∀ τ, 0 < τ → Reports (fun s => if s = "Linear" then "linear" else s) (.str "Linear") (.member "none") testArgs
      ⟨some τ, none⟩ (1 : ℝ) (testNet.fn 1 ![3, 5]) (V τ)) ∧
    Tendsto (fun τ => V τ 0) (𝓝[>] 0) atTop := by
  obtain ⟨V, h1, h2⟩ := C75_weak_prior test_apiLinear none (by norm_num) (1 : ℝ)
  refine ⟨V, h1, (h2 (0 : Fin 2) _ rfl).2.1 ⟨![1, -1], ?_, ?_⟩⟩
  · funext i; fin_cases i <;> simp [curvOf, Matrix.mulVec, dotProduct, Fin.sum_univ_two]
  · have e : (jacobian (testOut 1) ![3, 5] *ᵥ ![1, -1]) 0 = 2 := by
      rw [test_jacobian]; simp [Matrix.mulVec, dotProduct, Fin.sum_univ_two]; norm_num
    show (jacobian (testOut 1) ![3, 5] *ᵥ ![1, -1]) 0 ≠ 0
    rw [e]; norm_num

/-- The same call with the curvature `diag(2, 4)`. -/
theorem test_apiDiag : ApiLinear (fun s => s) (.str "linear") (.member "none") "none"
    ({ testArgs with posteriorFn := fun a s => setPosteriorFn (.diagonal ![2, 4]) (.tree testMean) a s } : PredictiveArgs ℝ Unit 2) ![3, 5]
    (.diagonal ![2, 4]) where
  pushforward := rfl
  predictive := rfl
  rng := testRng_ok
  nonempty := by norm_num
  wf := testMean_wf
  params := test_apiLinear.params
  psd := by intro i; fin_cases i <;> simp
  posterior := rfl
  usable := Or.inl rfl

/-- With the curvature `diag(2, 4)` the variance of the first output, whose gradient is `(5, 3)`, tends to `25/2 + 9/4`. -/
example : ∃ V : ℝ → Vec 2, (∀ τ, 0 < τ → Reports (fun s => s) (.str "linear") (.member "none")
      ({ testArgs with posteriorFn := fun a s => setPosteriorFn (.diagonal ![2, 4]) (.tree testMean) a s } : PredictiveArgs ℝ Unit 2)
      ⟨some τ, none⟩ (1 : ℝ) (testNet.fn 1 ![3, 5]) (V τ)) ∧
    Tendsto (fun τ => V τ 0) (𝓝[>] 0) (𝓝 (25 / 2 + 9 / 4)) := by
  obtain ⟨V, h1, h2⟩ := C75_weak_prior test_apiDiag none (by norm_num) (1 : ℝ)
  refine ⟨V, h1, ?_⟩
  have hC : ((none : Option ℝ).getD 1 • curvOf (.diagonal ![2, 4]) : Matrix (Fin 2) (Fin 2) ℝ) = Matrix.diagonal ![2, 4] := by simp [curvOf]
  have h3 := ((h2 (0 : Fin 2) _ rfl).1 (fun u hu => ?_)).2 ![5 / 2, 3 / 4] ?_
  · rw [hC] at h3
    convert h3 using 2
    simp [Matrix.mulVec_diagonal, dotProduct, Fin.sum_univ_two]; norm_num
  · rw [hC] at hu
    have : u = 0 := by
      funext i
      have := congrFun hu i
      rw [Matrix.mulVec_diagonal] at this
      fin_cases i <;> simpa using this
    rw [this, Matrix.mulVec_zero]; rfl
  · rw [hC]
    have e : jacobian (testOut 1) ![3, 5] 0 = ![5, 3] := by rw [test_jacobian]; rfl
    refine Eq.trans ?_ e.symm
    funext i
    rw [Matrix.mulVec_diagonal]
    fin_cases i <;> norm_num

/-- The hypotheses of the theorem on class probabilities are met by the `mc_bridge` example. -/
example : ∃ q : ℝ → Vec 2, (∀ τ, 0 < τ → ReportsAt (fun s => s) (.str "linear") (.str "mc_bridge") testArgs ⟨some τ, none⟩ (1 : ℝ) "pred_act" (q τ)) ∧
    ∀ k, Tendsto (fun τ => q τ k) atTop (𝓝 (softmaxOf (testNet.fn 1 ![3, 5]) k)) :=
  C75_probabilities test_apiClass (by decide) none (by norm_num) (1 : ℝ)

/-- … and those of the theorem on the sampled predictive. -/
example : ∃ m s q : ℝ → Vec 2, (∀ τ, 0 < τ → ReportsAt (fun s => s) (.str "nonlinear") (.str "mc_bridge") testArgs ⟨some τ, none⟩ (1 : ℝ) "pred_mean" (m τ) ∧
        ReportsAt (fun s => s) (.str "nonlinear") (.str "mc_bridge") testArgs ⟨some τ, none⟩ (1 : ℝ) "pred_std" (s τ) ∧
        ("mc_bridge" = "mc_bridge" → ReportsAt (fun s => s) (.str "nonlinear") (.str "mc_bridge") testArgs ⟨some τ, none⟩ (1 : ℝ) "mc_pred_act" (q τ))) ∧
      ∀ k, Tendsto (fun τ => m τ k) atTop (𝓝 (testNet.fn 1 ![3, 5] k)) ∧ Tendsto (fun τ => s τ k) atTop (𝓝 0) ∧
        Tendsto (fun τ => q τ k) atTop (𝓝 (softmaxOf (testNet.fn 1 ![3, 5]) k)) := by
  refine C75_sampled (est := .full !![2, 2; 2, 2]) (θ := ![3, 5])
    ⟨rfl, rfl, testRng_ok, by norm_num, testMean_wf, test_apiLinear.params, test_psd, rfl, by simp [testArgs], Or.inr ⟨rfl, rfl⟩⟩ none
    (by norm_num) (1 : ℝ) ?_
  have : Continuous fun θ : Vec 2 => (fun i : Fin 2 => if i = 0 then θ 0 * θ 1 else 1 * θ 0) := by
    refine continuous_pi fun i => ?_
    split_ifs <;> fun_prop
  exact this.continuousAt

end Laplax.Props
