import Verif.Spec.GgnCalls
import Verif.Model.Ggn
import Verif.Spec.Ggn
import Verif.Props.Loss
import Verif.Props.Api
import Mathlib.Analysis.Calculus.FDeriv.Symmetric
import Mathlib.Algebra.BigOperators.Fin

/-! # C15, C16, C17, C18, C42: GGN and Hessian products -/

namespace Laplax.Props
open Laplax Laplax.Spec
open scoped BigOperators Matrix

variable {p c B : ℕ} {X Y : Type}

/-! ## Lemmas -/

theorem fderiv_fwd (model : X → Vec p → Vec c) (data : Fin B → X × Y) (θ : Vec p)
    (hd : ∀ i, DifferentiableAt ℝ (model (data i).1) θ) (v : Vec p) (i : Fin B) :
    fderiv ℝ (fwd model data) θ v i = fderiv ℝ (model (data i).1) θ v := by
  have : fderiv ℝ (fwd model data) θ = ContinuousLinearMap.pi fun i => fderiv ℝ (model (data i).1) θ :=
    fderiv_pi hd
  rw [this]; rfl

theorem jacobian_mulVec (f : Vec p → Vec c) (θ v : Vec p) : Spec.jacobian f θ *ᵥ v = fderiv ℝ f θ v := by
  conv_rhs => rw [show v = ∑ j, v j • (Pi.single j 1 : Vec p) by
    funext j; simp [Finset.sum_apply, Pi.single_apply]]
  rw [map_sum]
  funext k
  simp only [Matrix.mulVec, dotProduct, Spec.jacobian, Matrix.of_apply, Finset.sum_apply, map_smul, Pi.smul_apply,
    smul_eq_mul]
  exact Finset.sum_congr rfl fun j _ => mul_comm _ _

theorem jacobian_transpose_mulVec (f : Vec p → Vec c) (θ : Vec p) (w : Vec c) (j : Fin p) :
    ((Spec.jacobian f θ)ᵀ *ᵥ w) j = ∑ k, fderiv ℝ f θ (Pi.single j 1) k * w k := rfl

theorem goodLossHess_named (s : String) (H : Vec c → Vec c → Y → Vec c) (h : createLossHessianMv (.name s) = .ok H) :
    GoodLossHess H :=
  ⟨fun z t => (C14_named_loss_psd s H h z t).1, fun z t => (C14_named_loss_psd s H h z t).2.1,
    fun z t => (C14_named_loss_psd s H h z t).2.2.1⟩

/-! ## C15 -/

/-- **C15 (formula).** For every model differentiable at the parameters, every batch, loss Hessian product, factor and
vector, the GGN product is `factor · Σ_i J_iᵀ H_i J_i v`, with `J_i` the Jacobian of the model on input `i` and `H_i` the
loss Hessian product at prediction `i` and target `i`. -/
theorem C15_ggn_formula (model : X → Vec p → Vec c) (θ : Vec p) (H : Vec c → Vec c → Y → Vec c) (factor : ℝ)
    (data : Fin B → X × Y) (hd : ∀ i, DifferentiableAt ℝ (model (data i).1) θ) (v : Vec p) :
    ggnMvWithoutData model θ H factor v data =
      factor • Spec.ggnSum (fun i => Spec.jacobian (model (data i).1) θ)
        (fun i u => H u (model (data i).1 θ) (data i).2) v := by
  funext j
  simp only [ggnMvWithoutData, linTranspose, Spec.ggnSum, Pi.smul_apply, Finset.sum_apply, smul_eq_mul,
    jacobian_transpose_mulVec, jacobian_mulVec, fderiv_fwd model data θ hd, fwd]

/-- **C15 (formula, `vmap_over_data=False`).** A single unbatched sample. -/
theorem C15_ggn_formula_no_vmap (model : X → Vec p → Vec c) (θ : Vec p) (H : Vec c → Vec c → Y → Vec c) (factor : ℝ)
    (data : X × Y) (v : Vec p) :
    ggnMvNoVmap model θ H factor v data =
      factor • ((Spec.jacobian (model data.1) θ)ᵀ *ᵥ H (Spec.jacobian (model data.1) θ *ᵥ v) (model data.1 θ) data.2) := by
  funext j
  simp only [ggnMvNoVmap, Pi.smul_apply, smul_eq_mul, jacobian_transpose_mulVec, jacobian_mulVec]

theorem dot_ggn (model : X → Vec p → Vec c) (θ : Vec p) (H : Vec c → Vec c → Y → Vec c) (factor : ℝ)
    (data : Fin B → X × Y) (hd : ∀ i, DifferentiableAt ℝ (model (data i).1) θ) (u v : Vec p) :
    u ⬝ᵥ ggnMvWithoutData model θ H factor v data =
      factor * ∑ i, (Spec.jacobian (model (data i).1) θ *ᵥ u) ⬝ᵥ
        H (Spec.jacobian (model (data i).1) θ *ᵥ v) (model (data i).1 θ) (data i).2 := by
  rw [C15_ggn_formula model θ H factor data hd, dotProduct_smul, smul_eq_mul]
  congr 1
  simp only [Spec.ggnSum, dotProduct_sum]
  refine Finset.sum_congr rfl fun i _ => ?_
  rw [Matrix.mulVec_transpose, dotProduct_comm, ← Matrix.dotProduct_mulVec, dotProduct_comm]

/-- **C15 (linear, self-adjoint, positive semidefinite).** For every named loss, model, batch and factor `≥ 0`, the GGN
product is a symmetric positive semidefinite linear operator.  (`NONE`, the identity loss Hessian, is included.) -/
theorem C15_ggn_psd (model : X → Vec p → Vec c) (θ : Vec p) (H : Vec c → Vec c → Y → Vec c) (hH : GoodLossHess H)
    (factor : ℝ) (data : Fin B → X × Y) (hd : ∀ i, DifferentiableAt ℝ (model (data i).1) θ) :
    (∀ (a b : ℝ) (u v : Vec p), ggnMvWithoutData model θ H factor (a • u + b • v) data =
      a • ggnMvWithoutData model θ H factor u data + b • ggnMvWithoutData model θ H factor v data) ∧
    (∀ u v : Vec p, u ⬝ᵥ ggnMvWithoutData model θ H factor v data = ggnMvWithoutData model θ H factor u data ⬝ᵥ v) ∧
    (0 ≤ factor → ∀ v : Vec p, 0 ≤ v ⬝ᵥ ggnMvWithoutData model θ H factor v data) := by
  refine ⟨fun a b u v => ?_, fun u v => ?_, fun hf v => ?_⟩
  · simp only [C15_ggn_formula model θ H factor data hd, Spec.ggnSum, Matrix.mulVec_add, Matrix.mulVec_smul, hH.lin,
      Finset.sum_add_distrib, smul_add, ← Finset.smul_sum, smul_comm factor]
  · rw [dot_ggn model θ H factor data hd, dotProduct_comm _ v, dot_ggn model θ H factor data hd]
    congr 1
    refine Finset.sum_congr rfl fun i _ => ?_
    rw [hH.symm, dotProduct_comm]
  · rw [dot_ggn model θ H factor data hd]
    exact mul_nonneg hf (Finset.sum_nonneg fun i _ => hH.psd _ _ _)

/-- **C15 (end to end).** Whatever `create_ggn_mv` returns for a known loss name is a symmetric positive semidefinite linear
operator, for every choice of sample counts. -/
theorem C15_create_ggn_mv_psd (model : X → Vec p → Vec c) (θ : Vec p) (data : Fin B → X × Y) (s : String)
    (numCurv numTotal : Option ℕ) (mv : Vec p → Vec p) (hd : ∀ i, DifferentiableAt ℝ (model (data i).1) θ)
    (h : createGgnMv model θ data (.name s) numCurv numTotal none = .ok mv) :
    (∀ (a b : ℝ) (u v : Vec p), mv (a • u + b • v) = a • mv u + b • mv v) ∧
    (∀ u v : Vec p, u ⬝ᵥ mv v = mv u ⬝ᵥ v) ∧ (∀ v : Vec p, 0 ≤ v ⬝ᵥ mv v) := by
  simp only [createGgnMv] at h
  obtain ⟨f, hf, h⟩ := (bind_ok_iff _ _ _).1 h
  obtain ⟨mv', hmv', h⟩ := (bind_ok_iff _ _ _).1 h
  simp only [createGgnMvWithoutData] at hmv'
  obtain ⟨H, hH, hmv'⟩ := (bind_ok_iff _ _ _).1 hmv'
  cases hmv'; cases h
  have hf0 : 0 ≤ f := by
    simp only [curvScalingFactor] at hf
    split at hf
    · cases hf
    · cases hf; positivity
  have := C15_ggn_psd model θ H (goodLossHess_named s H hH) f data hd
  exact ⟨this.1, this.2.1, this.2.2 hf0⟩

/-- **C15 (order of the data).** The product does not depend on the order of the samples. -/
theorem C15_ggn_permutation (model : X → Vec p → Vec c) (θ : Vec p) (H : Vec c → Vec c → Y → Vec c) (factor : ℝ)
    (data : Fin B → X × Y) (hd : ∀ i, DifferentiableAt ℝ (model (data i).1) θ) (σ : Equiv.Perm (Fin B)) (v : Vec p) :
    ggnMvWithoutData model θ H factor v (data ∘ σ) = ggnMvWithoutData model θ H factor v data := by
  rw [C15_ggn_formula model θ H factor data hd, C15_ggn_formula model θ H factor (data ∘ σ) (fun i => hd (σ i))]
  congr 1
  exact Equiv.sum_comp σ fun i => (Spec.jacobian (model (data i).1) θ)ᵀ *ᵥ
    H (Spec.jacobian (model (data i).1) θ *ᵥ v) (model (data i).1 θ) (data i).2

/-- **C15 (additive over batches).** Concatenating two batches adds the products. -/
theorem C15_ggn_additive {B' : ℕ} (model : X → Vec p → Vec c) (θ : Vec p) (H : Vec c → Vec c → Y → Vec c) (factor : ℝ)
    (d1 : Fin B → X × Y) (d2 : Fin B' → X × Y) (hd1 : ∀ i, DifferentiableAt ℝ (model (d1 i).1) θ)
    (hd2 : ∀ i, DifferentiableAt ℝ (model (d2 i).1) θ) (v : Vec p) :
    ggnMvWithoutData model θ H factor v (Fin.append d1 d2) =
      ggnMvWithoutData model θ H factor v d1 + ggnMvWithoutData model θ H factor v d2 := by
  have hd : ∀ i, DifferentiableAt ℝ (model (Fin.append d1 d2 i).1) θ := by
    intro i
    refine Fin.addCases (fun i => ?_) (fun i => ?_) i
    · rw [Fin.append_left]; exact hd1 i
    · rw [Fin.append_right]; exact hd2 i
  rw [C15_ggn_formula model θ H factor _ hd, C15_ggn_formula model θ H factor _ hd1, C15_ggn_formula model θ H factor _ hd2,
    ← smul_add]
  congr 1
  simp only [Spec.ggnSum, Fin.sum_univ_add, Fin.append_left, Fin.append_right]

/-- Hypotheses are met: a nonlinear differentiable model with the cross-entropy loss. -/
example : (∀ i : Fin 2, DifferentiableAt ℝ ((fun (x : ℝ) (θ : Vec 2) (k : Fin 3) => Real.exp (x * θ 0) * θ 1) ((![1, 2] : Fin 2 → ℝ) i))
    (fun _ => 1)) ∧ ∃ H, createLossHessianMv (n := 3) (Y := Fin 3) (.name "cross_entropy") = .ok H ∧ GoodLossHess H := by
  refine ⟨fun i => ?_, _, rfl, goodLossHess_named "cross_entropy" _ rfl⟩
  rw [differentiableAt_pi]
  intro k
  fun_prop

/-! ## C17 -/

/-- **C17 (`create_ggn_mv`).** Exactly one of `loss_fn` and `loss_hessian_mv` must be given, otherwise `ValueError`; given
one, construction succeeds exactly when the loss is known and the number of curvature samples is not zero (default: the
batch size). -/
theorem C17_create_ggn_mv (model : X → Vec p → Vec c) (θ : Vec p) (data : Fin B → X × Y) (l : LossArg c Y)
    (numCurv numTotal : Option ℕ) (H : Option (Vec c → Vec c → Y → Vec c)) :
    ((l = .none ↔ H = none) → createGgnMv model θ data l numCurv numTotal H = .error .valueError) ∧
    (¬ (l = .none ↔ H = none) → ((∃ mv, createGgnMv model θ data l numCurv numTotal H = .ok mv) ↔
      numCurv.getD B ≠ 0 ∧ (H = none → ∃ H', createLossHessianMv l = .ok H'))) := by
  have hf : ∀ m N : Option ℕ, (m.getD B = 0 ∧ curvScalingFactor B m N = .error .zeroDivisionError) ∨
      (m.getD B ≠ 0 ∧ ∃ f, curvScalingFactor B m N = .ok f) := by
    intro m N
    by_cases h : m.getD B = 0
    · exact .inl ⟨h, by simp [curvScalingFactor, h]⟩
    · exact .inr ⟨h, by simp [curvScalingFactor, h]⟩
  have main : ∀ (l : LossArg c Y) (H : Option (Vec c → Vec c → Y → Vec c)),
      (∃ mv : Vec p → Vec p, (do
        let f ← curvScalingFactor B numCurv numTotal
        let mv ← createGgnMvWithoutData model θ l f H
        return fun vec => mv vec data : Except Err (Vec p → Vec p)) = .ok mv) ↔
      numCurv.getD B ≠ 0 ∧ (H = none → ∃ H', createLossHessianMv l = .ok H') := by
    intro l H
    rcases hf numCurv numTotal with ⟨h0, he⟩ | ⟨h0, f, he⟩
    · rw [he]; simp [h0, error_bind]
    · rw [he]
      simp only [ok_bind, createGgnMvWithoutData, h0, ne_eq, not_false_eq_true, true_and]
      cases H with
      | some H => simp [ok_bind, pure, Except.pure]
      | none =>
        cases hl : createLossHessianMv l with
        | error e => simp [error_bind]
        | ok H' => simp [ok_bind, pure, Except.pure]
  cases l with
  | none =>
    cases H with
    | none => exact ⟨fun _ => rfl, fun h => absurd (by simp) h⟩
    | some H => exact ⟨fun h => by simp at h, fun _ => main _ _⟩
  | name s =>
    cases H with
    | none => exact ⟨fun h => by simp at h, fun _ => main _ _⟩
    | some H => exact ⟨fun _ => rfl, fun h => absurd (by simp) h⟩
  | callable ℓ =>
    cases H with
    | none => exact ⟨fun h => by simp at h, fun _ => main _ _⟩
    | some H => exact ⟨fun _ => rfl, fun h => absurd (by simp) h⟩
  | other =>
    cases H with
    | none => exact ⟨fun h => by simp at h, fun _ => main _ _⟩
    | some H => exact ⟨fun _ => rfl, fun h => absurd (by simp) h⟩

/-! ## C16 -/

/-- A loss `ℓ` whose gradient is `g` everywhere and whose Hessian product at every point is `H`. -/
structure TwiceDiff (ℓ : Vec c → ℝ) (g : Vec c → Vec c) (H : Vec c → Vec c → Vec c) : Prop where
  grad : ∀ z, HasFDerivAt ℓ (form (g z)) z
  hess : ∀ z, ∃ G : Vec c →L[ℝ] Vec c, HasFDerivAt g G z ∧ ∀ v, G v = H v z

theorem affine_hessian (A : Fin B → Vec p →L[ℝ] Vec c) (b : Fin B → Vec c) (ℓ : Fin B → Vec c → ℝ)
    (g : Fin B → Vec c → Vec c) (H : Fin B → Vec c → Vec c → Vec c) (h : ∀ i, TwiceDiff (ℓ i) (g i) (H i)) (θ v : Vec p) :
    let L : Vec p → ℝ := fun θ => ∑ i, ℓ i (A i θ + b i)
    let R : Vec p := fun j => ∑ i, ∑ k, A i (Pi.single j 1) k * H i (A i v) (A i θ + b i) k
    hvp L θ v = R ∧ Spec.IsHessianProduct L θ v R := by
  intro L R
  have haff : ∀ (i : Fin B) (θ : Vec p), HasFDerivAt (fun θ => A i θ + b i) (A i) θ := fun i θ => (A i).hasFDerivAt.add_const (b i)
  have hL : ∀ θ, HasFDerivAt L (form fun j => ∑ i, ∑ k, A i (Pi.single j 1) k * g i (A i θ + b i) k) θ := by
    intro θ
    have h1 : HasFDerivAt L (∑ i, (form (g i (A i θ + b i))).comp (A i)) θ :=
      HasFDerivAt.fun_sum fun i _ => ((h i).grad (A i θ + b i)).comp θ (haff i θ)
    refine h1.congr_fderiv (ContinuousLinearMap.ext fun u => ?_)
    symm
    rw [form_apply, sum_apply]
    simp only [ContinuousLinearMap.comp_apply, form_apply, Finset.sum_mul]
    rw [Finset.sum_comm]
    refine Finset.sum_congr rfl fun i _ => ?_
    rw [Finset.sum_comm]
    refine Finset.sum_congr rfl fun k _ => ?_
    have : A i u k = ∑ j, u j * A i (Pi.single j 1) k := by
      conv_lhs => rw [show u = ∑ j, u j • (Pi.single j 1 : Vec p) by
        funext j; simp [Finset.sum_apply, Pi.single_apply]]
      rw [map_sum, Finset.sum_apply]
      exact Finset.sum_congr rfl fun j _ => by rw [map_smul, Pi.smul_apply, smul_eq_mul]
    rw [this, Finset.mul_sum]
    exact Finset.sum_congr rfl fun j _ => by ring
  choose G hG hGv using fun i => (h i).hess (A i θ + b i)
  have hg : HasFDerivAt (fun θ j => ∑ i, ∑ k, A i (Pi.single j 1) k * g i (A i θ + b i) k)
      (ContinuousLinearMap.pi fun j => ∑ i, ∑ k, A i (Pi.single j 1) k •
        ((ContinuousLinearMap.proj (R := ℝ) k : Vec c →L[ℝ] ℝ).comp ((G i).comp (A i)))) θ := by
    rw [hasFDerivAt_pi']
    intro j
    refine HasFDerivAt.fun_sum fun i _ => HasFDerivAt.fun_sum fun k _ => ?_
    have hc : HasFDerivAt (fun θ => g i (A i θ + b i)) ((G i).comp (A i)) θ := (hG i).comp θ (haff i θ)
    exact ((hasFDerivAt_pi'.1 hc) k).const_mul _
  have := isHessianProduct_of hL hg v
  have e : (ContinuousLinearMap.pi fun j => ∑ i, ∑ k, A i (Pi.single j 1) k •
        ((ContinuousLinearMap.proj (R := ℝ) k : Vec c →L[ℝ] ℝ).comp ((G i).comp (A i)))) v = R := by
    funext j
    simp only [ContinuousLinearMap.pi_apply, sum_apply, smul_apply, ContinuousLinearMap.comp_apply,
      ContinuousLinearMap.proj_apply, smul_eq_mul, hGv, R]
  rw [e] at this
  exact this

theorem twiceDiff_ce (y : Fin c) : TwiceDiff (Spec.crossEntropy y) (fun x => softmax x - Pi.single y 1) ceHessianMv :=
  ⟨ce_grad y, fun z => ⟨softmaxDeriv z, (hasFDerivAt_softmax z).sub_const _, softmaxDeriv_apply z⟩⟩

theorem twiceDiff_bce (y : Vec c) : TwiceDiff (Spec.binaryCrossEntropy y) (fun x k => sigmoid (x k) - y k) bceHessianMv :=
  ⟨bce_grad y, fun z => ⟨_, hasFDerivAt_pointwise (ψ := fun k t => sigmoid t - y k)
    (ψ' := fun k => sigmoid (z k) * (1 - sigmoid (z k))) fun k => (hasDerivAt_sigmoid (z k)).sub_const _, fun _ => rfl⟩⟩

theorem twiceDiff_mse (y : Vec c) :
    TwiceDiff (Spec.squaredError y) (fun x k => 2 * (x k - y k)) (fun v _ => mseHessianMv v) :=
  ⟨mse_grad y, fun z => ⟨_, hasFDerivAt_pointwise (ψ := fun k t => 2 * (t - y k)) (ψ' := fun _ => 2)
    fun k => by simpa using ((hasDerivAt_id (z k)).sub_const (y k)).const_mul 2, fun _ => rfl⟩⟩

/-- The common part of C16: a model that is affine in its parameters and a loss with the given second derivative. -/
theorem affine_ggn (A : X → Vec p →L[ℝ] Vec c) (b : X → Vec c) (θ : Vec p) (data : Fin B → X × Y)
    (ℓ : Y → Vec c → ℝ) (g : Y → Vec c → Vec c) (H : Vec c → Vec c → Y → Vec c)
    (h : ∀ t, TwiceDiff (ℓ t) (g t) (fun v z => H v z t)) (v : Vec p) :
    let L : Vec p → ℝ := fun θ => ∑ i, ℓ (data i).2 (A (data i).1 θ + b (data i).1)
    hvp L θ v = ggnMvWithoutData (fun x θ => A x θ + b x) θ H 1 v data ∧
    Spec.IsHessianProduct L θ v (ggnMvWithoutData (fun x θ => A x θ + b x) θ H 1 v data) := by
  intro L
  have hA : ∀ x θ, HasFDerivAt (fun θ => A x θ + b x) (A x) θ := fun x θ => (A x).hasFDerivAt.add_const (b x)
  have h1 := affine_hessian (fun i => A (data i).1) (fun i => b (data i).1) (fun i => ℓ (data i).2)
    (fun i => g (data i).2) (fun i v z => H v z (data i).2) (fun i => h (data i).2) θ v
  have e : ggnMvWithoutData (fun x θ => A x θ + b x) θ H 1 v data =
      fun j => ∑ i, ∑ k, A (data i).1 (Pi.single j 1) k * H (A (data i).1 v) (A (data i).1 θ + b (data i).1) (data i).2 k := by
    rw [C15_ggn_formula _ _ _ _ _ (fun i => (hA _ θ).differentiableAt), one_smul]
    funext j
    simp only [Spec.ggnSum, Finset.sum_apply, jacobian_transpose_mulVec, jacobian_mulVec, (hA _ θ).fderiv]
  rw [e]; exact h1

/-- **C16 (cross-entropy).** For a model affine in its parameters, the GGN product (factor 1) is the Hessian product of the
total softmax cross-entropy, for every data set, parameter and direction. -/
theorem C16_cross_entropy (A : X → Vec p →L[ℝ] Vec c) (b : X → Vec c) (θ v : Vec p) (data : Fin B → X × Fin c) :
    Spec.IsHessianProduct (fun θ => ∑ i, Spec.crossEntropy (data i).2 (A (data i).1 θ + b (data i).1)) θ v
      (ggnMvWithoutData (fun x θ => A x θ + b x) θ (fun jv z _ => ceHessianMv jv z) 1 v data) ∧
    hvp (fun θ => ∑ i, Spec.crossEntropy (data i).2 (A (data i).1 θ + b (data i).1)) θ v =
      ggnMvWithoutData (fun x θ => A x θ + b x) θ (fun jv z _ => ceHessianMv jv z) 1 v data :=
  (affine_ggn A b θ data Spec.crossEntropy (fun y x => softmax x - Pi.single y 1) _ (fun y => twiceDiff_ce y) v).symm

/-- **C16 (binary cross-entropy).** -/
theorem C16_binary_cross_entropy (A : X → Vec p →L[ℝ] Vec c) (b : X → Vec c) (θ v : Vec p) (data : Fin B → X × Vec c) :
    Spec.IsHessianProduct (fun θ => ∑ i, Spec.binaryCrossEntropy (data i).2 (A (data i).1 θ + b (data i).1)) θ v
      (ggnMvWithoutData (fun x θ => A x θ + b x) θ (fun jv z _ => bceHessianMv jv z) 1 v data) ∧
    hvp (fun θ => ∑ i, Spec.binaryCrossEntropy (data i).2 (A (data i).1 θ + b (data i).1)) θ v =
      ggnMvWithoutData (fun x θ => A x θ + b x) θ (fun jv z _ => bceHessianMv jv z) 1 v data :=
  (affine_ggn A b θ data Spec.binaryCrossEntropy (fun y x k => sigmoid (x k) - y k) _ (fun y => twiceDiff_bce y) v).symm

/-- **C16 (squared error, between the two public products).** For a model affine in its parameters, `create_ggn_mv` and
`create_hessian_mv` with `loss_fn="mse"` give the same product for the same sample counts, and it is `N/m` times the Hessian
product of the total squared error. -/
theorem C16_mse (A : X → Vec p →L[ℝ] Vec c) (b : X → Vec c) (θ v : Vec p) (data : Fin B → X × Vec c)
    (numCurv numTotal : Option ℕ) (gmv : Vec p → Vec p) (hmv : Vec p → Except Err (Vec p))
    (hg : createGgnMv (fun x θ => A x θ + b x) θ data (.name "mse") numCurv numTotal none = .ok gmv)
    (hh : createHessianMv (fun x θ => A x θ + b x) θ data (.name "mse") numCurv numTotal = .ok hmv) :
    hmv v = .ok (gmv v) ∧
    ∃ f h, curvScalingFactor B numCurv numTotal = .ok f ∧ gmv v = f • h ∧
      Spec.IsHessianProduct (fun θ => ∑ i, Spec.squaredError (data i).2 (A (data i).1 θ + b (data i).1)) θ v h := by
  have key := affine_ggn A b θ data Spec.squaredError (fun y x k => 2 * (x k - y k)) (fun jv _ _ => mseHessianMv jv)
    (fun y => twiceDiff_mse y) v
  simp only at key
  simp only [createGgnMv] at hg
  obtain ⟨f, hf, hg⟩ := (bind_ok_iff _ _ _).1 hg
  obtain ⟨mv', hmv', hg⟩ := (bind_ok_iff _ _ _).1 hg
  simp only [createGgnMvWithoutData, createLossHessianMv] at hmv'
  cases hmv'; cases hg
  simp only [createHessianMv, hf, ok_bind] at hh
  cases hh
  have hfac : ggnMvWithoutData (fun x θ => A x θ + b x) θ (fun jv _ _ => mseHessianMv jv) f v data =
      f • ggnMvWithoutData (fun x θ => A x θ + b x) θ (fun jv _ _ => mseHessianMv jv) 1 v data := by
    funext j; simp only [ggnMvWithoutData, one_mul, Pi.smul_apply, smul_eq_mul]
  refine ⟨?_, f, _, hf, hfac, key.2⟩
  show Except.ok _ = Except.ok _
  congr 1
  have hfac' := hfac
  rw [← key.1] at hfac'
  exact hfac'.symm

example : ∃ gmv hmv, createGgnMv (fun (x : ℝ) (θ : Vec 1) => (x • ContinuousLinearMap.id ℝ (Vec 1)) θ + 0) 0
      (![(1, 0), (2, 1)] : Fin 2 → ℝ × Vec 1) (.name "mse") none (some 10) none = .ok gmv ∧
    createHessianMv (fun (x : ℝ) (θ : Vec 1) => (x • ContinuousLinearMap.id ℝ (Vec 1)) θ + 0) 0
      (![(1, 0), (2, 1)] : Fin 2 → ℝ × Vec 1) (.name "mse") none (some 10) = .ok hmv := ⟨_, _, rfl, rfl⟩

/-! ## C18 -/

/-- `hvp` is linear in the direction. -/
theorem hvp_linear {n : ℕ} (f : Vec n → ℝ) (z : Vec n) (a b : ℝ) (u v : Vec n) :
    hvp f z (a • u + b • v) = a • hvp f z u + b • hvp f z v := by
  simp only [hvp, map_add, map_smul]

/-- Entry `k` of the `hvp` is the second derivative in the directions `v` and `e_k`. -/
theorem hvp_apply {n : ℕ} {f : Vec n → ℝ} (hf : ContDiff ℝ 2 f) (z v : Vec n) (k : Fin n) :
    hvp f z v k = fderiv ℝ (fderiv ℝ f) z v (Pi.single k 1) := by
  have h1 : ContDiff ℝ 1 (fderiv ℝ f) := hf.fderiv_right (by norm_num)
  have hd : DifferentiableAt ℝ (fderiv ℝ f) z := (h1.differentiable (by norm_num)) z
  have hk : ∀ k : Fin n, DifferentiableAt ℝ (fun z => jaxGrad f z k) z := fun k =>
    hd.clm_apply (differentiableAt_const _)
  have : fderiv ℝ (jaxGrad f) z = ContinuousLinearMap.pi fun k => fderiv ℝ (fun z => jaxGrad f z k) z := fderiv_pi hk
  simp only [hvp, this, ContinuousLinearMap.pi_apply]
  have e : fderiv ℝ (fun z => fderiv ℝ f z (Pi.single k 1)) z =
      (ContinuousLinearMap.apply ℝ ℝ (Pi.single k 1 : Vec n)).comp (fderiv ℝ (fderiv ℝ f) z) := by
    have hh := ((ContinuousLinearMap.apply ℝ ℝ (Pi.single k 1 : Vec n)).hasFDerivAt).comp z hd.hasFDerivAt
    exact hh.fderiv
  show fderiv ℝ (fun z => fderiv ℝ f z (Pi.single k 1)) z v = _
  rw [e]; rfl

theorem hvp_dot {n : ℕ} {f : Vec n → ℝ} (hf : ContDiff ℝ 2 f) (z u v : Vec n) :
    u ⬝ᵥ hvp f z v = fderiv ℝ (fderiv ℝ f) z v u := by
  conv_rhs => rw [show u = ∑ j, u j • (Pi.single j 1 : Vec n) by
    funext j; simp [Finset.sum_apply, Pi.single_apply]]
  rw [map_sum]
  simp only [dotProduct, map_smul, smul_eq_mul, hvp_apply hf]

theorem hvp_symm {n : ℕ} {f : Vec n → ℝ} (hf : ContDiff ℝ 2 f) (z u v : Vec n) : u ⬝ᵥ hvp f z v = hvp f z u ⬝ᵥ v := by
  rw [hvp_dot hf, dotProduct_comm, hvp_dot hf]
  have : IsSymmSndFDerivAt ℝ f z := hf.contDiffAt.isSymmSndFDerivAt (by simp)
  exact this v u

theorem hvp_add {n : ℕ} {f g : Vec n → ℝ} (hf : ContDiff ℝ 2 f) (hg : ContDiff ℝ 2 g) (z v : Vec n) :
    hvp (fun x => f x + g x) z v = hvp f z v + hvp g z v := by
  have hgrad : jaxGrad (fun x => f x + g x) = fun x => jaxGrad f x + jaxGrad g x := by
    funext x k
    simp only [jaxGrad, Pi.add_apply]
    rw [fderiv_fun_add (hf.differentiable (by norm_num) x) (hg.differentiable (by norm_num) x), add_apply]
  have hdg : ∀ {f : Vec n → ℝ}, ContDiff ℝ 2 f → Differentiable ℝ (jaxGrad f) := by
    intro f hf
    have h1 : ContDiff ℝ 1 (fderiv ℝ f) := hf.fderiv_right (by norm_num)
    rw [differentiable_pi]
    exact fun k => (h1.differentiable (by norm_num)).clm_apply (differentiable_const _)
  simp only [hvp, hgrad]
  rw [fderiv_fun_add (hdg hf z) (hdg hg z), add_apply]

/-- **C18.** Whenever `create_hessian_mv` returns a product that can be evaluated (squared error, or a custom loss on the
stacked predictions) and the total loss is twice continuously differentiable in the parameters, the product is `N/m` times the
second derivative of the total loss, linear and symmetric. -/
theorem C18_hessian_mv (model : X → Vec p → Vec c) (θ : Vec p) (data : Fin B → X × Vec c) (l : HessLossArg B c)
    (hl : l = .name "mse" ∨ ∃ ℓ, l = .callable ℓ) (numCurv numTotal : Option ℕ) (hm : numCurv.getD B ≠ 0)
    (hC : ContDiff ℝ 2 (totalLoss model data l)) :
    ∃ mv : Vec p → Vec p, createHessianMv model θ data l numCurv numTotal = .ok (fun v => .ok (mv v)) ∧
      (∀ v, ∃ h, mv v = ((numTotal.getD (numCurv.getD B) : ℝ) / (numCurv.getD B : ℝ)) • h ∧
        Spec.IsHessianProduct (totalLoss model data l) θ v h) ∧
      (∀ (a b : ℝ) (u v : Vec p), mv (a • u + b • v) = a • mv u + b • mv v) ∧
      (∀ u v : Vec p, u ⬝ᵥ mv v = mv u ⬝ᵥ v) := by
  have hf : curvScalingFactor B numCurv numTotal =
      .ok ((numTotal.getD (numCurv.getD B) : ℝ) / (numCurv.getD B : ℝ)) := by simp [curvScalingFactor, hm]
  set f := ((numTotal.getD (numCurv.getD B) : ℝ) / (numCurv.getD B : ℝ)) with hfdef
  refine ⟨fun v => f • hvp (totalLoss model data l) θ v, ?_, ?_, ?_, ?_⟩
  · simp only [createHessianMv, hf, ok_bind]
    rcases hl with rfl | ⟨ℓ, rfl⟩ <;> rfl
  · exact fun v => ⟨_, rfl, hvp_isHessianProduct hC θ v⟩
  · intro a b u v
    simp only [hvp_linear, smul_add, smul_comm f]
  · intro u v
    simp only [dotProduct_smul, smul_dotProduct, hvp_symm hC]

/-- **C18 (order and batching, squared error).** Permuting the data does not change the product; on concatenated data (with
the same factor) the products add up. -/
theorem C18_mse_order_and_batches {B' : ℕ} (model : X → Vec p → Vec c) (θ : Vec p) (data : Fin B → X × Vec c)
    (d2 : Fin B' → X × Vec c) (factor : ℝ) (σ : Equiv.Perm (Fin B)) (v : Vec p)
    (h1 : ContDiff ℝ 2 (totalLoss model data (.name "mse"))) (h2 : ContDiff ℝ 2 (totalLoss model d2 (.name "mse"))) :
    ∃ (f : Combined B c p X) (f2 : Combined B' c p X) (f12 : Combined (B + B') c p X) (a b : Vec p),
      concatenateModelAndLossFn model (.name "mse") = .ok f ∧ concatenateModelAndLossFn model (.name "mse") = .ok f2 ∧
      concatenateModelAndLossFn model (.name "mse") = .ok f12 ∧
      hessianMvWithoutData θ factor f v data = .ok a ∧ hessianMvWithoutData θ factor f2 v d2 = .ok b ∧
      hessianMvWithoutData θ factor f v (data ∘ σ) = .ok a ∧
      hessianMvWithoutData θ factor f12 v (Fin.append data d2) = .ok (a + b) := by
  refine ⟨_, _, _, _, _, rfl, rfl, rfl, rfl, rfl, ?_, ?_⟩
  · show Except.ok _ = Except.ok _
    congr 2
    funext j
    congr 2
    funext θ
    exact Equiv.sum_comp σ fun i => ∑ k, (model (data i).1 θ k - (data i).2 k) ^ 2
  · show Except.ok _ = Except.ok _
    congr 1
    have e : (fun θ => ∑ i, ∑ k, (fwd model (Fin.append data d2) θ i k - (Fin.append data d2 i).2 k) ^ 2) =
        fun θ => totalLoss model data (.name "mse") θ + totalLoss model d2 (.name "mse") θ := by
      funext θ
      simp only [totalLoss, Spec.squaredError, fwd, Fin.sum_univ_add, Fin.append_left, Fin.append_right]
    show (fun j => factor * hvp (fun θ => ∑ i, ∑ k, (fwd model (Fin.append data d2) θ i k - (Fin.append data d2 i).2 k) ^ 2) θ v j) = _
    rw [e, hvp_add h1 h2]
    funext j
    simp only [Pi.add_apply, mul_add]
    rfl

/-- **C18 (order and batching, custom losses).** For a custom loss that is a sum over the samples of a per-sample loss `ℓ₁`
(on batches of every size), permuting the data does not change the product, and on concatenated data (with the same factor) the
products add up. -/
theorem C18_samplewise_order_and_batches {B' : ℕ} (model : X → Vec p → Vec c) (θ : Vec p) (data : Fin B → X × Vec c)
    (d2 : Fin B' → X × Vec c) (factor : ℝ) (σ : Equiv.Perm (Fin B)) (v : Vec p)
    (ℓ : (n : ℕ) → (Fin n → Vec c) → (Fin n → Vec c) → ℝ) (ℓ₁ : Vec c → Vec c → ℝ)
    (hℓ : ∀ n preds tgts, ℓ n preds tgts = ∑ i, ℓ₁ (preds i) (tgts i))
    (h1 : ContDiff ℝ 2 (totalLoss model data (.callable (ℓ B))))
    (h2 : ContDiff ℝ 2 (totalLoss model d2 (.callable (ℓ B')))) :
    ∃ (f : Combined B c p X) (f2 : Combined B' c p X) (f12 : Combined (B + B') c p X) (a b : Vec p),
      concatenateModelAndLossFn model (.callable (ℓ B)) = .ok f ∧ concatenateModelAndLossFn model (.callable (ℓ B')) = .ok f2 ∧
      concatenateModelAndLossFn model (.callable (ℓ (B + B'))) = .ok f12 ∧
      hessianMvWithoutData θ factor f v data = .ok a ∧ hessianMvWithoutData θ factor f2 v d2 = .ok b ∧
      hessianMvWithoutData θ factor f v (data ∘ σ) = .ok a ∧
      hessianMvWithoutData θ factor f12 v (Fin.append data d2) = .ok (a + b) := by
  refine ⟨_, _, _, _, _, rfl, rfl, rfl, rfl, rfl, ?_, ?_⟩
  · show Except.ok _ = Except.ok _
    congr 2
    funext j
    congr 2
    funext θ
    simp only [hℓ]
    exact Equiv.sum_comp σ fun i => ℓ₁ (model (data i).1 θ) (data i).2
  · show Except.ok _ = Except.ok _
    congr 1
    have e : (fun θ => ℓ (B + B') (fwd model (Fin.append data d2) θ) (fun i => (Fin.append data d2 i).2)) =
        fun θ => totalLoss model data (.callable (ℓ B)) θ + totalLoss model d2 (.callable (ℓ B')) θ := by
      funext θ
      simp only [totalLoss, fwd, hℓ, Fin.sum_univ_add, Fin.append_left, Fin.append_right]
    show (fun j => factor * hvp (fun θ => ℓ (B + B') (fwd model (Fin.append data d2) θ)
      (fun i => (Fin.append data d2 i).2)) θ v j) = _
    rw [e, hvp_add h1 h2]
    funext j
    simp only [Pi.add_apply, mul_add]
    rfl

/-- The hypotheses of `C18_samplewise_order_and_batches` are met by a non-linear model with a quartic loss. -/
example : ∃ (ℓ : (n : ℕ) → (Fin n → Vec 1) → (Fin n → Vec 1) → ℝ) (ℓ₁ : Vec 1 → Vec 1 → ℝ),
    (∀ n preds tgts, ℓ n preds tgts = ∑ i, ℓ₁ (preds i) (tgts i)) ∧
    ContDiff ℝ 2 (totalLoss (B := 2) (fun (x : ℝ) (θ : Vec 1) => fun _ : Fin 1 => Real.exp (x * θ 0)) ![(2, 0), (1, 1)]
      (.callable (ℓ 2))) := by
  refine ⟨fun n P T => ∑ i, (P i 0 - T i 0) ^ 4, fun a b => (a 0 - b 0) ^ 4, fun _ _ _ => rfl, ?_⟩
  unfold totalLoss
  fun_prop

/-- **C18 (finding: rejected losses).** Although documented, the binary cross-entropy and `NONE` losses are rejected with
`ValueError` when the Hessian product is created, and for `cross_entropy` the created product raises `TypeError` whenever it
is evaluated (its combined function is not scalar). -/
theorem C18_unsupported_losses (model : X → Vec p → Vec c) (θ : Vec p) (data : Fin B → X × Vec c)
    (numCurv numTotal : Option ℕ) (hm : numCurv.getD B ≠ 0) :
    createHessianMv model θ data (.name "binary_cross_entropy") numCurv numTotal = .error .valueError ∧
    createHessianMv model θ data (.name "none") numCurv numTotal = .error .valueError ∧
    ∃ mv, createHessianMv model θ data (.name "cross_entropy") numCurv numTotal = .ok mv ∧ ∀ v, mv v = .error .typeError := by
  have hf : ∃ f, curvScalingFactor B numCurv numTotal = .ok f := by simp [curvScalingFactor, hm]
  obtain ⟨f, hf⟩ := hf
  refine ⟨?_, ?_, ?_⟩
  · simp only [createHessianMv, hf, ok_bind]; rfl
  · simp only [createHessianMv, hf, ok_bind]; rfl
  · simp only [createHessianMv, hf, ok_bind]; exact ⟨_, rfl, fun v => rfl⟩

/-- **C18 (values).** The combined function that the Hessian differentiates: for `mse` the summed squared error over the samples; for
`cross_entropy` the array of `-y log σ(z) - (1 - y) log(1 - σ(z))` over all samples and outputs (`q = σ(z)` the logistic function), not a
scalar — which is why its gradient raises. -/
theorem C18_combined_values (model : X → Vec p → Vec c) :
    (concatenateModelAndLossFn (B := B) model (.name "mse") =
      .ok (.scalar fun data θ => ∑ i, ∑ k, (model (data i).1 θ k - (data i).2 k) ^ 2)) ∧
    (concatenateModelAndLossFn (B := B) model (.name "cross_entropy") =
      .ok (.array fun data θ i k =>
        let q : ℝ := Real.exp (model (data i).1 θ k) / (Real.exp (model (data i).1 θ k) + 1);
        -(data i).2 k * Real.log q - (1 - (data i).2 k) * Real.log (1 - q))) := by
  have hs : ∀ z : ℝ, sigmoid z = Real.exp z / (Real.exp z + 1) := by
    intro z
    have := Real.exp_pos z
    rw [sigmoid, Real.exp_neg]; field_simp
  have hn : ∀ z : ℝ, sigmoid (-z) = 1 - Real.exp z / (Real.exp z + 1) := by
    intro z
    have := Real.exp_pos z
    rw [sigmoid, neg_neg]; field_simp; ring
  constructor
  · simp [concatenateModelAndLossFn, fwd]
  · rw [concatenateModelAndLossFn, if_neg (by decide), if_pos rfl]
    congr 2
    funext data θ i k
    simp only [logSigmoidCrossEntropy, logSigmoid, hn]; simp only [hs, fwd]

example : ContDiff ℝ 2 (totalLoss (B := 1) (fun (x : ℝ) (θ : Vec 1) => fun _ : Fin 1 => Real.exp (x * θ 0)) (fun _ => (2, 0)) (.name "mse")) := by
  unfold totalLoss Spec.squaredError
  fun_prop

/-! ## C42 -/

/-- **C42 (functional interface).** `create_ggn_mv` scales the sum over the curvature samples by
`num_total_samples / num_curv_samples`, where the defaults are the batch size and `num_curv_samples`. -/
theorem C42_functional_scaling (model : X → Vec p → Vec c) (θ : Vec p) (data : Fin B → X × Y) (s : String)
    (H : Vec c → Vec c → Y → Vec c) (hH : createLossHessianMv (.name s) = .ok H) (numCurv numTotal : Option ℕ)
    (hm : numCurv.getD B ≠ 0) (hd : ∀ i, DifferentiableAt ℝ (model (data i).1) θ) :
    ∃ mv, createGgnMv model θ data (.name s) numCurv numTotal none = .ok mv ∧ ∀ v,
      mv v = ((numTotal.getD (numCurv.getD B) : ℝ) / (numCurv.getD B : ℝ)) •
        Spec.ggnSum (fun i => Spec.jacobian (model (data i).1) θ) (fun i u => H u (model (data i).1 θ) (data i).2) v := by
  have hf : curvScalingFactor B numCurv numTotal =
      .ok ((numTotal.getD (numCurv.getD B) : ℝ) / (numCurv.getD B : ℝ)) := by simp [curvScalingFactor, hm]
  refine ⟨fun v => ggnMvWithoutData model θ H _ v data, ?_, fun v => C15_ggn_formula model θ H _ data hd v⟩
  simp only [createGgnMv, hf, ok_bind, createGgnMvWithoutData, hH]
  rfl

/-- **C42 (replication, functional interface).** Replicating the curvature data `k ≥ 1` times leaves the result unchanged when
the number of total samples is fixed. -/
theorem C42_replication_invariant (model : X → Vec p → Vec c) (θ : Vec p) (data : Fin B → X × Y) (s : String)
    (hs : ∃ H : Vec c → Vec c → Y → Vec c, createLossHessianMv (.name s) = .ok H) (k N : ℕ) (hk : k ≠ 0) (hB : B ≠ 0)
    (hd : ∀ i, DifferentiableAt ℝ (model (data i).1) θ) :
    createGgnMv model θ (fun i : Fin (k * B) => data (finProdFinEquiv.symm i).2) (.name s) none (some N) none =
      createGgnMv model θ data (.name s) none (some N) none := by
  obtain ⟨H, hH⟩ := hs
  obtain ⟨mv1, h1, f1⟩ := C42_functional_scaling model θ (fun i : Fin (k * B) => data (finProdFinEquiv.symm i).2) s H hH
    none (some N) (by simp [hk, hB]) (fun i => hd _)
  obtain ⟨mv2, h2, f2⟩ := C42_functional_scaling model θ data s H hH none (some N) (by simpa using hB) hd
  rw [h1, h2]
  congr 1
  funext v
  rw [f1, f2]
  have e : Spec.ggnSum (fun i : Fin (k * B) => Spec.jacobian (model (data (finProdFinEquiv.symm i).2).1) θ)
      (fun i u => H u (model (data (finProdFinEquiv.symm i).2).1 θ) (data (finProdFinEquiv.symm i).2).2) v =
      (k : ℝ) • Spec.ggnSum (fun i => Spec.jacobian (model (data i).1) θ) (fun i u => H u (model (data i).1 θ) (data i).2) v := by
    simp only [Spec.ggnSum]
    rw [← Equiv.sum_comp finProdFinEquiv]
    simp only [Equiv.symm_apply_apply]
    rw [Fintype.sum_prod_type]
    simp [Finset.sum_const, Finset.card_univ, ← Nat.cast_smul_eq_nsmul ℝ]
  rw [e, smul_smul]
  congr 1
  have hk' : (k : ℝ) ≠ 0 := Nat.cast_ne_zero.2 hk
  have hB' : (B : ℝ) ≠ 0 := Nat.cast_ne_zero.2 hB
  simp only [Option.getD_some, Option.getD_none, Nat.cast_mul]
  field_simp

/-- **C42 (`laplace`; what holds).** On a single batch, the product handed to the curvature estimation is the per-batch
product with factor `num_curv_samples / num_total_samples`.  (Missing: the factor should be the reciprocal, as in
`create_ggn_mv`; see the negation below.  The two agree when the counts are equal, in particular for the defaults.) -/
theorem C42_laplace_factor_partial {A V W S R : Type} (lower : String → String) (rows : A → Except Err (List A))
    (mv : ℝ → V → PyObj A → PyObj A → Except Err W) (reduce : W → Option S → Except Err (W × S))
    (params : V) (x y : PyObj A) (m : String) (numCurv numTotal : ℕ) (hN : numTotal ≠ 0) (alg : EnumArg → CurvAlg V W R)
    (w : W) (hw : mv ((numCurv : ℝ) / numTotal) params x y = .ok w) :
    laplaceCurv lower rows mv reduce (fun _ => .ok true) params (.tup [x, y]) (.member m) numCurv numTotal alg =
      (alg (.member m)).run rows (mv ((numCurv : ℝ) / numTotal)) reduce (.single (.dct [("input", x), ("target", y)]))
        (.tup [x, y]) ∧
    (numCurv = numTotal → ∀ f, curvScalingFactor numCurv (some numCurv) (some numTotal) = .ok f →
      (numCurv : ℝ) / numTotal = f) := by
  refine ⟨?_, ?_⟩
  · have hw' : mvOnBatch (mv ((numCurv : ℝ) / numTotal)) (.dct [("input", x), ("target", y)]) params = .ok w := hw
    have hm : maybeWrap rows (.tup [x, y]) none = .ok (.single (.dct [("input", x), ("target", y)]), .tup [x, y]) := rfl
    simp only [laplaceCurv, convertToEnum, ok_bind, if_neg hN, ggnApi, hm, Bound.pass, hw', if_true, pure, Except.pure]
  · rintro rfl f hf
    simp only [curvScalingFactor, Option.getD_some, if_neg hN] at hf
    cases hf; rfl

/-- **C42 (negation).** The factor used by `laplace` differs from the one of `create_ggn_mv` for all differing positive
sample counts: estimating on `m` of `N ≠ m` samples, `laplace` scales by `m/N` instead of `N/m`. -/
theorem C42_laplace_factor_violated (m N : ℕ) (hm : m ≠ 0) (hN : N ≠ 0) (hne : m ≠ N) (f : ℝ)
    (hf : curvScalingFactor m (some m) (some N) = .ok f) : (m : ℝ) / (N : ℝ) ≠ f := by
  simp only [curvScalingFactor, Option.getD_some, if_neg hm] at hf
  cases hf
  have hm' : (0 : ℝ) < m := Nat.cast_pos.2 (Nat.pos_of_ne_zero hm)
  have hN' : (0 : ℝ) < N := Nat.cast_pos.2 (Nat.pos_of_ne_zero hN)
  intro h
  rw [div_eq_div_iff hN'.ne' hm'.ne'] at h
  have : (m : ℝ) = N := by nlinarith
  exact hne (by exact_mod_cast this)

/-- A concrete run: the curvature of a linear scalar model on one sample out of ten is `1/10` of the sample's product through
`laplace` and 10 times the sample's product through `create_ggn_mv`. -/
theorem C42_laplace_witness :
    laplaceCurv (K := ℝ) (fun s => s) (fun _ : Unit => .error .typeError)
      (fun (factor : ℝ) (v : ℝ) (_ _ : PyObj Unit) => .ok (factor * (2 * v))) (fun w (_ : Option Unit) => .ok (w, ()))
      (fun _ => .ok true) 1 (.tup [.other, .other]) (.member "full") 1 10
      (fun _ => .pass (fun m => m 1) (fun w => .done (.ok w))) = .ok ((1 : ℝ) / 10 * 2) ∧
    ∃ mv, createGgnMv (fun (_ : Unit) (θ : Vec 1) => θ) (fun _ => 1) (fun _ : Fin 1 => ((), (0 : Vec 1))) (.name "mse") (some 1)
      (some 10) none = .ok mv ∧ mv (fun _ => 1) = fun _ => 10 * 2 := by
  refine ⟨?_, ?_⟩
  · simp [laplaceCurv, convertToEnum, ok_bind, ggnApi, maybeWrap, PyObj.isDataLoader, PyObj.isIterable,
      PyObj.validateAndGetTransform, PyObj.inputTargetSplit, PyObj.index, Bound.pass, mvOnBatch, PyObj.field, Dict.getE,
      Dict.get?, pure, Except.pure, CurvAlg.run]
  · refine ⟨_, rfl, ?_⟩
    have hd : ∀ i : Fin 1, DifferentiableAt ℝ ((fun (_ : Unit) (θ : Vec 1) => θ) ((fun _ : Fin 1 => ((), (0 : Vec 1))) i).1) (fun _ => 1) :=
      fun i => differentiableAt_id
    rw [C15_ggn_formula _ _ _ _ _ hd]
    have hJ : Spec.jacobian (fun θ : Vec 1 => θ) (fun _ => 1) = 1 := by
      ext i j
      have : fderiv ℝ (fun θ : Vec 1 => θ) (fun _ => (1:ℝ)) = ContinuousLinearMap.id ℝ _ := fderiv_fun_id
      simp [Spec.jacobian, Matrix.of_apply, this, Pi.single_apply, Matrix.one_apply]
    funext j
    simp [Spec.ggnSum, hJ, mseHessianMv]

end Laplax.Props
