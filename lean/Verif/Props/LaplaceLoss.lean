import Verif.Props.LaplaceOptions
import Mathlib.Analysis.Convex.Deriv
import Mathlib.Analysis.Calculus.Deriv.Slope
import Mathlib.Analysis.Convex.Mul

/-! # C47 for user-supplied loss functions -/

namespace Laplax.Props
open Spec
open scoped BigOperators Matrix

variable {p c : ℕ} {A X Y : Type}

/-- The Hessian product of a convex function is positive semidefinite. -/
theorem hvp_nonneg_of_convex {n : ℕ} {f : Vec n → ℝ} (hf : ContDiff ℝ 2 f) (hc : ConvexOn ℝ Set.univ f) (z v : Vec n) :
    0 ≤ v ⬝ᵥ hvp f z v := by
  have hline : ∀ t : ℝ, HasDerivAt (fun t : ℝ => z + t • v) v t := by
    intro t
    simpa using ((hasDerivAt_id t).smul_const v).const_add z
  have hg : ∀ t : ℝ, HasDerivAt (fun t : ℝ => f (z + t • v)) (fderiv ℝ f (z + t • v) v) t := fun t =>
    (((hf.differentiable (by norm_num)) (z + t • v)).hasFDerivAt).comp_hasDerivAt t (hline t)
  have hconv : ConvexOn ℝ Set.univ (fun t : ℝ => f (z + t • v)) := by
    refine ⟨convex_univ, fun x _ y _ a b ha hb hab => ?_⟩
    have := hc.2 (Set.mem_univ (z + x • v)) (Set.mem_univ (z + y • v)) ha hb hab
    have e : z + (a • x + b • y) • v = a • (z + x • v) + b • (z + y • v) := by
      have : z = (a + b) • z := by rw [hab, one_smul]
      conv_lhs => rw [this]
      simp only [smul_eq_mul]
      module
    simpa only [e] using this
  have hmono : Monotone (fun t : ℝ => fderiv ℝ f (z + t • v) v) := by
    have h := hconv.monotoneOn_deriv (fun t _ => (hg t).differentiableAt)
    intro x y hxy
    have := h (Set.mem_univ x) (Set.mem_univ y) hxy
    rwa [(hg x).deriv, (hg y).deriv] at this
  have h1 : ContDiff ℝ 1 (fderiv ℝ f) := hf.fderiv_right (by norm_num)
  have hd2 : HasDerivAt (fun t : ℝ => fderiv ℝ f (z + t • v) v) (fderiv ℝ (fderiv ℝ f) z v v) 0 := by
    have hz : HasFDerivAt (fderiv ℝ f) (fderiv ℝ (fderiv ℝ f) z) (z + (0 : ℝ) • v) := by
      rw [zero_smul, add_zero]
      exact ((h1.differentiable (by norm_num)) z).hasFDerivAt
    have := hz.comp_hasDerivAt (0 : ℝ) (hline 0)
    simpa using this.clm_apply (hasDerivAt_const (0 : ℝ) v)
  rw [hvp_dot hf, ← hd2.deriv]
  exact hmono.deriv_nonneg

theorem ggnLin_formula (model : X → Vec p → Vec c) (θ : Vec p) (H : Vec c → Vec c → Y → Vec c)
    (hH : ∀ (z : Vec c) (t : Y) (a b : ℝ) (u v : Vec c), H (a • u + b • v) z t = a • H u z t + b • H v z t) (factor : ℝ)
    (ss : List (X × Y)) (hd : ∀ s ∈ ss, DifferentiableAt ℝ (model s.1) θ) (v : Vec p) :
    ggnLin model θ H hH factor ss v = factor • ggnSamples model θ H ss v := by
  refine (C15_ggn_formula model θ H factor (fun i : Fin ss.length => ss[i]) (fun i => hd _ (List.getElem_mem i.isLt)) v).trans ?_
  congr 1
  simp only [ggnSum, ggnSamples]
  rw [← List.ofFn_getElem (xs := ss.map _), List.sum_ofFn]
  simp only [List.getElem_map]
  exact (Fintype.sum_equiv (finCongr (List.length_map _)) _ _ (fun i => rfl)).symm

theorem ggnSamples_append (model : X → Vec p → Vec c) (θ : Vec p) (H : Vec c → Vec c → Y → Vec c) (ss ss' : List (X × Y)) (v : Vec p) :
    ggnSamples model θ H (ss ++ ss') v = ggnSamples model θ H ss v + ggnSamples model θ H ss' v := by
  simp only [ggnSamples, List.map_append, List.sum_append]

theorem sum_ggnLin (model : X → Vec p → Vec c) (θ : Vec p) (H : Vec c → Vec c → Y → Vec c)
    (hH : ∀ (z : Vec c) (t : Y) (a b : ℝ) (u v : Vec c), H (a • u + b • v) z t = a • H u z t + b • H v z t) (factor : ℝ)
    (decode : PyObj A × PyObj A → List (X × Y)) (ps : List (PyObj A × PyObj A))
    (hd : ∀ s ∈ ps.flatMap decode, DifferentiableAt ℝ (model s.1) θ) (v : Vec p) :
    (ps.map fun xy => ggnLin model θ H hH factor (decode xy)).sum v = factor • ggnSamples model θ H (ps.flatMap decode) v := by
  induction ps with
  | nil => simp [ggnSamples]
  | cons a ps ih =>
    simp only [List.map_cons, List.sum_cons, LinearMap.add_apply, List.flatMap_cons, ggnSamples_append, smul_add]
    rw [ih (fun s hs => hd s (by simp only [List.flatMap_cons, List.mem_append]; exact Or.inr hs)),
      ggnLin_formula model θ H hH factor (decode a) (fun s hs => hd s (by simp only [List.flatMap_cons, List.mem_append]; exact Or.inl hs))]

theorem ggnSamples_dot (model : X → Vec p → Vec c) (θ : Vec p) (H : Vec c → Vec c → Y → Vec c) (ss : List (X × Y)) (u v : Vec p) :
    u ⬝ᵥ ggnSamples model θ H ss v =
      (ss.map fun s => (jacobian (model s.1) θ *ᵥ u) ⬝ᵥ H (jacobian (model s.1) θ *ᵥ v) (model s.1 θ) s.2).sum := by
  induction ss with
  | nil => simp [ggnSamples]
  | cons s ss ih =>
    have : ggnSamples model θ H (s :: ss) v =
        (jacobian (model s.1) θ)ᵀ *ᵥ H (jacobian (model s.1) θ *ᵥ v) (model s.1 θ) s.2 + ggnSamples model θ H ss v := rfl
    rw [this, dotProduct_add, ih, List.map_cons, List.sum_cons, Matrix.dotProduct_mulVec, Matrix.vecMul_transpose]

/-- **C47 (custom losses).** A user-supplied loss `ℓ(prediction, target)` that is twice continuously differentiable in the
prediction: `laplace` returns the estimate of its kind for the symmetric matrix `num_curv/num_total · Σ_samples Jᵀ (∇²ℓ) J`, on
data batched in any way, and this matrix is positive semidefinite whenever the loss is convex in the prediction. -/
theorem C47_custom_loss (lower : String → String) (rows : A → Except Err (List A))
    (points : PyObj A → PyObj A → Except Err (List (X × Y))) (model : X → Vec p → Vec c) (params : PyTree ℝ) (θ : Vec p)
    (data : PyObj A) (ps : List (PyObj A × PyObj A)) (decode : PyObj A × PyObj A → List (X × Y))
    (h : ReadableData points params θ data ps decode) (hd : ∀ s ∈ ps.flatMap decode, DifferentiableAt ℝ (model s.1) θ)
    (ℓ : Vec c → Y → ℝ) (hℓ : ∀ s ∈ ps.flatMap decode, ContDiff ℝ 2 fun z => ℓ z s.2) (curvType ct : EnumArg)
    (hct : convertToEnum lower curvApproxValues false curvType = .ok ct)
    (kind : EnumArg → LaplaceKind p) (numCurv numTotal : ℕ) (hN : numTotal ≠ 0) :
    ∃ (G : Matrix (Fin p) (Fin p) ℝ) (H : Vec c → Vec c → Y → Vec c), G.IsHermitian ∧
      (∀ s ∈ ps.flatMap decode, ∀ z v, IsHessianProduct (fun q => ℓ q s.2) z v (H v z s.2)) ∧
      (∀ v, G *ᵥ v = ((numCurv : ℝ) / numTotal) • ggnSamples model θ H (ps.flatMap decode) v) ∧
      ((∀ s ∈ ps.flatMap decode, ConvexOn ℝ Set.univ fun z => ℓ z s.2) → G.PosSemidef) ∧
      laplace lower rows points model params data (.callable ℓ) curvType kind numCurv numTotal =
        (estimateOf G (kind ct)).map (fun est => (fun a s => setPosteriorFn est (.tree params) a s, est)) := by
  have hsz : numEntries params = p := by rw [← length_entries h.hwf, h.hθ, List.length_ofFn]
  obtain ⟨H, hHd⟩ : ∃ H : Vec c → Vec c → Y → Vec c, H = fun jv z t => hvp (fun x => ℓ x t) z jv := ⟨_, rfl⟩
  have hH : createLossHessianMv (LossArg.callable ℓ : LossArg c Y) = .ok H := by rw [hHd]; rfl
  obtain ⟨factor, hfac⟩ : ∃ factor : ℝ, factor = (numCurv : ℝ) / numTotal := ⟨_, rfl⟩
  let f : PyObj A × PyObj A → Vec p →ₗ[ℝ] Vec p := fun xy => ggnLin model θ H (lossHess_lin hH) factor (decode xy)
  have hmv : ∀ xy ∈ ps, ∀ x t, IsTree params x t →
      ∃ w, ggnTreeMv points model params H factor t xy.1 xy.2 = .ok w ∧ IsTree params (f xy x) w := fun xy hxy x t ht =>
    ggnTreeMv_lin points model params h.hp hsz θ h.hθ H (lossHess_lin hH) factor _ _ _ (h.hdec xy hxy) x t ht
  let bmodel : PyObj A → Except Err (Σ B : ℕ, Vec p → Fin B → Vec c) := fun _ => .error .typeError
  let lo : LossObj c Y (PyObj A) := .callable ℓ (fun _ _ _ => 0)
  have hlap := laplaceWith_generic {} lower rows points model bmodel params h.hp h.hwf θ h.hθ data ps h.hdata lo curvType ct hct kind
      numCurv numTotal hN (ggnTreeMv points model params H factor) (by
        rw [← hfac]; simp only [ggnTreeProduct, lo, LossObj.perSample, hH, ok_bind]; rfl) f hmv
  rw [C58_default_options] at hlap
  have hG : ∀ v, LinearMap.toMatrix' (ps.map f).sum *ᵥ v = factor • ggnSamples model θ H (ps.flatMap decode) v := by
    intro v
    rw [← Matrix.toLin'_apply, Matrix.toLin'_toMatrix']
    exact sum_ggnLin model θ H (lossHess_lin hH) factor decode ps hd v
  have hdot : ∀ u v, u ⬝ᵥ LinearMap.toMatrix' (ps.map f).sum *ᵥ v = factor *
      ((ps.flatMap decode).map fun s => (jacobian (model s.1) θ *ᵥ u) ⬝ᵥ H (jacobian (model s.1) θ *ᵥ v) (model s.1 θ) s.2).sum := by
    intro u v
    rw [hG, dotProduct_smul, ggnSamples_dot, smul_eq_mul]
  have hherm : (LinearMap.toMatrix' (ps.map f).sum).IsHermitian := by
    have hs : ∀ u v, u ⬝ᵥ LinearMap.toMatrix' (ps.map f).sum *ᵥ v = v ⬝ᵥ LinearMap.toMatrix' (ps.map f).sum *ᵥ u := by
      intro u v
      rw [hdot, hdot]
      congr 2
      refine List.map_congr_left fun s hs => ?_
      rw [hHd]
      simp only
      rw [hvp_symm (hℓ s hs), dotProduct_comm]
    ext i j
    have := hs (Pi.single i 1) (Pi.single j 1)
    simpa [Matrix.conjTranspose_apply] using this.symm
  refine ⟨_, H, hherm, ?_, by rw [← hfac]; exact hG, fun hconv => ?_, hlap⟩
  · intro s hs z v
    rw [hHd]
    exact hvp_isHessianProduct (hℓ s hs) z v
  · refine Matrix.PosSemidef.of_dotProduct_mulVec_nonneg hherm fun x => ?_
    have : (0 : ℝ) ≤ x ⬝ᵥ LinearMap.toMatrix' (ps.map f).sum *ᵥ x := by
      rw [hdot]
      refine mul_nonneg (by rw [hfac]; positivity) (List.sum_nonneg ?_)
      intro r hr
      obtain ⟨s, hs, rfl⟩ := List.mem_map.1 hr
      rw [hHd]
      exact hvp_nonneg_of_convex (hℓ s hs) (hconv s hs) _ _
    simpa using this

/-- The hypotheses are met by the fourth power of the error, which is smooth and convex. -/
example : ∀ t : ℝ, (ContDiff ℝ 2 fun z : Vec 1 => wLoss z t) ∧ ConvexOn ℝ Set.univ fun z : Vec 1 => wLoss z t := by
  intro t
  refine ⟨wLoss_smooth 0 t, ?_⟩
  have h4 : ConvexOn ℝ Set.univ fun x : ℝ => x ^ 4 := Even.convexOn_pow (by decide)
  refine ⟨convex_univ, fun x _ y _ a b ha hb hab => ?_⟩
  have := h4.2 (Set.mem_univ (x 0 - t)) (Set.mem_univ (y 0 - t)) ha hb hab
  have e : (a • x + b • y) 0 - t = a • (x 0 - t) + b • (y 0 - t) := by
    simp only [Pi.add_apply, Pi.smul_apply, smul_eq_mul]
    linear_combination t * hab
  simpa only [wLoss, e] using this

end Laplax.Props
