import Verif.Props.Relabel

/-! # C68: class probabilities depend only on differences of logits -/

namespace Laplax.Props
open Laplax Spec
open scoped BigOperators Matrix

variable {p c : ℕ} {A X Y K : Type}

theorem softmax_shift (z : Vec c) (t : ℝ) : softmax (fun k => z k + t) = softmax z := by
  funext k
  simp only [softmax, Real.exp_add, ← Finset.sum_mul]
  exact mul_div_mul_right _ _ (Real.exp_ne_zero t)

theorem softmaxOf_shift (z : Vec c) (t : ℝ) : softmaxOf (fun k => z k + t) = softmaxOf z := softmax_shift z t

theorem softmax_total (hc : 0 < c) (z : Vec c) : ∑ k, softmax z k = 1 := by
  simp only [softmax]
  rw [← Finset.sum_div, div_self]
  have : Nonempty (Fin c) := ⟨⟨0, hc⟩⟩
  exact (Finset.sum_pos (fun j _ => Real.exp_pos (z j)) Finset.univ_nonempty).ne'

theorem ceHess_shift (jv pred : Vec c) (a t : ℝ) : ceHessianMv (fun k => jv k + a) (fun k => pred k + t) = ceHessianMv jv pred := by
  rcases Nat.eq_zero_or_pos c with rfl | hc
  · exact Subsingleton.elim _ _
  funext k
  simp only [ceHessianMv, softmax_shift, mul_add, Finset.sum_add_distrib, ← Finset.sum_mul, softmax_total hc]
  ring

theorem ceHess_total (jv pred : Vec c) : ∑ k, ceHessianMv jv pred k = 0 := by
  rcases Nat.eq_zero_or_pos c with rfl | hc
  · simp
  simp only [ceHessianMv, Finset.sum_sub_distrib, ← Finset.sum_mul, softmax_total hc]
  ring

theorem jacobian_shifted {f : Vec p → Vec c} {t : Vec p → ℝ} {θ : Vec p} (hf : DifferentiableAt ℝ f θ) (ht : DifferentiableAt ℝ t θ) :
    jacobian (fun v k => f v k + t v) θ = jacobian f θ + Matrix.of fun _ j => fderiv ℝ t θ (Pi.single j 1) := by
  have h : HasFDerivAt (fun v k => f v k + t v) (ContinuousLinearMap.pi fun k => (ContinuousLinearMap.proj k).comp (fderiv ℝ f θ) + fderiv ℝ t θ) θ := by
    rw [hasFDerivAt_pi]
    intro k
    exact (((ContinuousLinearMap.proj (R := ℝ) (φ := fun _ : Fin c => ℝ) k).hasFDerivAt).comp θ hf.hasFDerivAt).add ht.hasFDerivAt
  ext i j
  simp only [jacobian, Matrix.of_apply, Matrix.add_apply, h.fderiv]
  rfl

theorem shifted_mulVec (J : Matrix (Fin c) (Fin p) ℝ) (g u : Vec p) :
    (J + Matrix.of fun _ j => g j) *ᵥ u = fun k => (J *ᵥ u) k + g ⬝ᵥ u := by
  rw [Matrix.add_mulVec]; rfl

theorem shifted_transpose_mulVec (J : Matrix (Fin c) (Fin p) ℝ) (g : Vec p) (w : Vec c) (hw : ∑ k, w k = 0) :
    (J + Matrix.of fun _ j => g j)ᵀ *ᵥ w = Jᵀ *ᵥ w := by
  rw [Matrix.transpose_add, Matrix.add_mulVec]
  have : (Matrix.of fun (_ : Fin c) j => g j)ᵀ *ᵥ w = 0 := by
    funext j
    simp only [Matrix.mulVec, dotProduct, Matrix.transpose_apply, Matrix.of_apply, ← Finset.mul_sum, hw, mul_zero, Pi.zero_apply]
  rw [this, add_zero]

theorem ggn_shifted (f : X → Vec p → Vec c) (t : X → Vec p → ℝ) (θ : Vec p) (ss : List (X × Y))
    (hf : ∀ s ∈ ss, DifferentiableAt ℝ (f s.1) θ) (ht : ∀ s ∈ ss, DifferentiableAt ℝ (t s.1) θ) (v : Vec p) :
    ggnSamples (fun x w k => f x w k + t x w) θ (fun jv z (_ : Y) => ceHessianMv jv z) ss v =
      ggnSamples f θ (fun jv z (_ : Y) => ceHessianMv jv z) ss v := by
  simp only [ggnSamples]
  congr 1
  refine List.map_congr_left fun s hs => ?_
  rw [jacobian_shifted (hf s hs) (ht s hs), shifted_mulVec _ (fun j => fderiv ℝ (t s.1) θ (Pi.single j 1)), ceHess_shift,
    shifted_transpose_mulVec _ (fun j => fderiv ℝ (t s.1) θ (Pi.single j 1)) _ (ceHess_total _ _)]

/-- **C68 (posterior).** With the cross-entropy loss, adding any differentiable function of input and parameters to all logits of the model
changes neither the curvature estimate nor the posterior function `laplace` returns, whatever the curvature type. -/
theorem C68_same_posterior (lower : String → String) (rows : A → Except Err (List A))
    (points : PyObj A → PyObj A → Except Err (List (X × Y))) (net : Net X p) (t : X → Vec p → ℝ)
    (params : PyTree ℝ) (θ : Vec p) (data : PyObj A) (samples : List (X × Y))
    (H : Vec (shapeSize net.shape) → Vec (shapeSize net.shape) → Y → Vec (shapeSize net.shape)) (curvType ct : EnumArg)
    (h : LaplaceCall lower points net.fn params θ data samples "cross_entropy" H curvType ct)
    (ht : ∀ s ∈ samples, DifferentiableAt ℝ (t s.1) θ)
    (kind : EnumArg → LaplaceKind p) (numCurv numTotal : ℕ) (hN : numTotal ≠ 0) :
    laplace lower rows points (shifted net t).fn params data (.name "cross_entropy") curvType kind numCurv numTotal =
      laplace lower rows points net.fn params data (.name "cross_entropy") curvType kind numCurv numTotal := by
  have hd : ∀ s ∈ samples, DifferentiableAt ℝ ((shifted net t).fn s.1) θ := by
    intro s hs
    have h1 := h.hd s hs
    have h2 := ht s hs
    rw [differentiableAt_pi] at h1 ⊢
    exact fun k => (h1 k).add h2
  have h' : LaplaceCall lower points (shifted net t).fn params θ data samples "cross_entropy" H curvType ct :=
    ⟨h.hp, h.hwf, h.hθ, h.hdata, hd, h.hH, h.hct⟩
  obtain ⟨G, -, h2, h3⟩ := C47_laplace_curvature lower rows points net.fn params θ data samples "cross_entropy" H curvType ct h kind numCurv numTotal hN
  obtain ⟨G', -, h2', h3'⟩ := C47_laplace_curvature lower rows points (shifted net t).fn params θ data samples "cross_entropy" H curvType ct h' kind
    numCurv numTotal hN
  have hH : H = fun jv z _ => ceHessianMv jv z := by
    have := h.hH
    simp only [createLossHessianMv, if_neg (show ¬ ("cross_entropy" = "binary_cross_entropy") by decide), if_true] at this
    exact (Except.ok.inj this).symm
  subst hH
  have : G' = G := by
    apply Matrix.toLin'.injective
    apply LinearMap.ext; intro v
    rw [Matrix.toLin'_apply, Matrix.toLin'_apply, h2]
    exact (h2' v).trans (congrArg (((numCurv : ℝ) / numTotal) • ·) (ggn_shifted net.fn t θ samples h.hd ht v))
  rw [h3', h3, this]

theorem ensSoftmax_shift {S : ℕ} (s : Fin S → Vec c) (a : Fin S → ℝ) : ensSoftmax (fun i k => s i k + a i) = ensSoftmax s := by
  funext k
  simp only [ensSoftmax, softmaxOf_shift]

theorem cov_differences {J : Matrix (Fin c) (Fin p) ℝ} {C : Matrix (Fin p) (Fin p) ℝ} (hC : Cᵀ = C) (i j : Fin c) :
    (J * C * Jᵀ) i i + (J * C * Jᵀ) j j - 2 * (J * C * Jᵀ) i j = (J i - J j) ⬝ᵥ (C *ᵥ (J i - J j)) := by
  have e : ∀ a b, (J * C * Jᵀ) a b = J a ⬝ᵥ (C *ᵥ J b) := by
    intro a b
    rw [Matrix.mul_assoc, Matrix.mul_apply, dotProduct]
    rfl
  have hs : J j ⬝ᵥ (C *ᵥ J i) = J i ⬝ᵥ (C *ᵥ J j) := by
    rw [Matrix.dotProduct_mulVec, ← Matrix.mulVec_transpose, hC, dotProduct_comm]
  rw [e, e, e, Matrix.mulVec_sub, sub_dotProduct, dotProduct_sub, dotProduct_sub, hs]
  ring

theorem meanField2_shift {f : Vec c} {J : Matrix (Fin c) (Fin p) ℝ} {C : Matrix (Fin p) (Fin p) ℝ} (hC : Cᵀ = C) (g : Vec p) (a : ℝ) :
    specialOf "mean_field_2" (fun k => f k + a) ((J + Matrix.of fun _ j => g j) * C * (J + Matrix.of fun _ j => g j)ᵀ) =
      specialOf "mean_field_2" f (J * C * Jᵀ) := by
  simp only [specialOf, if_neg (show ¬ ("mean_field_2" = "mean_field_0") by decide), if_neg (show ¬ ("mean_field_2" = "mean_field_1") by decide)]
  funext i
  simp only [cov_differences hC]
  congr 1
  refine Finset.sum_congr rfl fun j _ => ?_
  have : (J + Matrix.of fun (_ : Fin c) j => g j) i - (J + Matrix.of fun (_ : Fin c) j => g j) j = J i - J j := by
    funext l; simp [Matrix.add_apply]
  rw [this]
  congr 2
  ring

theorem act_mc {S : ℕ} (sh : List ℕ) (f : Vec c) (V : Matrix (Fin c) (Fin c) ℝ) (s : Fin S → Vec c) :
    apiExpected sh f V s "mc_bridge" "pred_act" = some (arrOf sh (ensSoftmax s)) := by simp [apiExpected]

theorem act_special {S : ℕ} (sh : List ℕ) (f : Vec c) (V : Matrix (Fin c) (Fin c) ℝ) (s : Fin S → Vec c) {pr : String}
    (h : pr ∈ ["mean_field_0", "mean_field_1", "mean_field_2"]) :
    apiExpected sh f V s pr "pred_act" = some (arrOf sh (specialOf pr f V)) := by
  simp at h
  rcases h with rfl | rfl | rfl <;> simp [apiExpected]

section
variable (lower : String → String) (pushforward predictive : EnumArg) (pr : String) (rng : Prng K) (net : Net X p)
    (params : PyTree ℝ) (posteriorFn : PriorArgs → ℝ → Except Err (Posterior p)) (custom : ℕ → PfStep X K p) (key : K) (S : ℕ)
    (t : X → Vec p → ℝ) (θ : Vec p) (est : CurvEstimate p)

/-- The selected predictive for model and shifted model. -/
theorem shifted_run (h : ApiLinear lower pushforward predictive pr ⟨rng, net, params, posteriorFn, custom, key, S⟩ θ est)
    (prior : PriorArgs) (τ : ℝ) (hτ : prior.priorPrec = some τ) (hτ0 : 0 < τ) (hσ : 0 ≤ prior.sigmaSquared.getD 1) (x : X)
    (hf : DifferentiableAt ℝ (net.fn x) θ) (ht : DifferentiableAt ℝ (t x) θ) :
    ∃ (C R : Matrix (Fin p) (Fin p) ℝ) (eps : Fin S → Vec p) (fns : List PfName) (r r' : Dict (Arr ℝ)),
      (Cᵀ = C ∧ C = (targetPrecision τ (prior.sigmaSquared.getD 1) 1 est)⁻¹) ∧
      setupPushforward lower pushforward predictive none = .ok (.lin, fns) ∧
      setPushforward ⟨rng, net, params, posteriorFn, custom, key, S⟩ .lin fns prior x = .ok r ∧
      setPushforward ⟨rng, shifted net t, params, posteriorFn, custom, key, S⟩ .lin fns prior x = .ok r' ∧
      (∀ k, r.get? k = apiExpected net.shape (net.fn x θ) (jacobian (net.fn x) θ * C * (jacobian (net.fn x) θ)ᵀ)
        (fun i => net.fn x θ + jacobian (net.fn x) θ *ᵥ (R *ᵥ eps i)) pr k) ∧
      ∃ g : Vec p, (∀ k, r'.get? k = apiExpected net.shape (fun k => net.fn x θ k + t x θ)
        ((jacobian (net.fn x) θ + Matrix.of fun _ j => g j) * C * (jacobian (net.fn x) θ + Matrix.of fun _ j => g j)ᵀ)
        (fun i k => (net.fn x θ + jacobian (net.fn x) θ *ᵥ (R *ᵥ eps i)) k + (t x θ + g ⬝ᵥ (R *ᵥ eps i))) pr k) ∧
        g = fun j => fderiv ℝ (t x) θ (Pi.single j 1) := by
  have hsz : numEntries params = p := by
    have := length_entries h.wf
    rw [h.params, List.length_ofFn] at this
    exact this.symm
  have hmem : pr ∈ ["mc_bridge", "laplace_bridge", "mean_field_0", "mean_field_1", "mean_field_2", "none"] := by
    rcases h.usable with rfl | ⟨rfl, -⟩ | ⟨h, -⟩
    · simp
    · simp
    · simp at h; rcases h with rfl | rfl | rfl <;> simp
  obtain ⟨eps, heps⟩ := draws_exist rng h.rng (some key) params hsz S
  obtain ⟨post, cov, scale, k1, k2, k3, R, k4, k5, k6⟩ := posterior_of_estimate params hsz h.nonempty est h.psd prior τ hτ hτ0 hσ 1 one_pos
  have hp : posteriorFn prior 1 = .ok post := by
    have := h.posterior
    simp only at this
    rw [this]; exact k1
  obtain ⟨r, g1, g2⟩ := api_linear_run ⟨rng, net, params, posteriorFn, custom, key, S⟩ h.rng h.nonempty h.wf θ h.params prior post
    hp cov scale k2 k3 _ R k5 k6 pr h.usable eps heps x
  obtain ⟨r', g1', g2'⟩ := api_linear_run ⟨rng, shifted net t, params, posteriorFn, custom, key, S⟩ h.rng h.nonempty h.wf θ h.params prior
    post hp cov scale k2 k3 _ R k5 k6 pr h.usable eps heps x
  have hpd := (targetPrecision_posDef h.psd hτ0 hσ).inv.isHermitian
  rw [Matrix.IsHermitian, Matrix.conjTranspose_eq_transpose_of_trivial] at hpd
  refine ⟨_, R, eps, apiNames pr, r, r', ⟨hpd, rfl⟩, ?_, g1, g1', g2, _, fun k => ?_, rfl⟩
  · rw [setupPushforward_members lower _ _ _ _ none h.pushforward h.predictive, C44_linear lower pr hmem]; rfl
  rw [g2']
  dsimp only
  have hj : jacobian ((shifted net t).fn x) θ = jacobian (net.fn x) θ + Matrix.of fun _ j => fderiv ℝ (t x) θ (Pi.single j 1) :=
    jacobian_shifted hf ht
  rw [hj]
  congr 1
  funext i k
  have := congrFun (shifted_mulVec (jacobian (net.fn x) θ) (fun j => fderiv ℝ (t x) θ (Pi.single j 1)) (R *ᵥ eps i)) k
  rw [Pi.add_apply]
  refine Eq.trans (congrArg _ this) ?_
  exact add_add_add_comm _ _ _ _

/-- **C68 (linearised predictive).** The class probabilities of the linearised predictive with the types `mc_bridge` and `mean_field_2` do
not change when a differentiable function of input and parameters is added to all logits, for equal posterior, prior arguments, random
key and input. -/
theorem C68_linearized_probabilities
    (h : ApiLinear lower pushforward predictive pr ⟨rng, net, params, posteriorFn, custom, key, S⟩ θ est)
    (hpr : pr = "mc_bridge" ∨ pr = "mean_field_2")
    (prior : PriorArgs) (τ : ℝ) (hτ : prior.priorPrec = some τ) (hτ0 : 0 < τ) (hσ : 0 ≤ prior.sigmaSquared.getD 1) (x : X)
    (hf : DifferentiableAt ℝ (net.fn x) θ) (ht : DifferentiableAt ℝ (t x) θ) :
    ∃ fns r r' probs, setupPushforward lower pushforward predictive none = .ok (.lin, fns) ∧
      setPushforward ⟨rng, net, params, posteriorFn, custom, key, S⟩ .lin fns prior x = .ok r ∧
      setPushforward ⟨rng, shifted net t, params, posteriorFn, custom, key, S⟩ .lin fns prior x = .ok r' ∧
      r.get? "pred_act" = some probs ∧ r'.get? "pred_act" = some probs := by
  obtain ⟨C, R, eps, fns, r, r', ⟨hC, -⟩, e1, e2, e3, e4, g, e5, -⟩ := shifted_run lower pushforward predictive pr rng net params posteriorFn custom
    key S t θ est h prior τ hτ hτ0 hσ x hf ht
  rcases hpr with rfl | rfl
  · refine ⟨fns, r, r', arrOf net.shape (ensSoftmax fun i => net.fn x θ + jacobian (net.fn x) θ *ᵥ (R *ᵥ eps i)), e1, e2, e3, ?_, ?_⟩
    · rw [e4, act_mc]
    · rw [e5, act_mc, ensSoftmax_shift]
  · refine ⟨fns, r, r', arrOf net.shape (specialOf "mean_field_2" (net.fn x θ) (jacobian (net.fn x) θ * C * (jacobian (net.fn x) θ)ᵀ)),
      e1, e2, e3, ?_, ?_⟩
    · rw [e4, act_special _ _ _ _ (by simp)]
    · rw [e5, act_special _ _ _ _ (by simp), meanField2_shift hC]

/-- **C68 (mean_field_1, partial).** With the type `mean_field_1` the probabilities do not change if the added number does not depend on the
parameters.  Missing: an added function of the parameters, which changes the probabilities (`C68_mean_field_violated`). -/
theorem C68_mean_field_1_partial
    (h : ApiLinear lower pushforward predictive "mean_field_1" ⟨rng, net, params, posteriorFn, custom, key, S⟩ θ est)
    (prior : PriorArgs) (τ : ℝ) (hτ : prior.priorPrec = some τ) (hτ0 : 0 < τ) (hσ : 0 ≤ prior.sigmaSquared.getD 1) (x : X)
    (hf : DifferentiableAt ℝ (net.fn x) θ) (t₀ : X → ℝ) :
    ∃ fns r r' probs, setupPushforward lower pushforward predictive none = .ok (.lin, fns) ∧
      setPushforward ⟨rng, net, params, posteriorFn, custom, key, S⟩ .lin fns prior x = .ok r ∧
      setPushforward ⟨rng, shifted net fun x _ => t₀ x, params, posteriorFn, custom, key, S⟩ .lin fns prior x = .ok r' ∧
      r.get? "pred_act" = some probs ∧ r'.get? "pred_act" = some probs := by
  obtain ⟨C, R, eps, fns, r, r', ⟨hC, -⟩, e1, e2, e3, e4, g, e5, hg⟩ := shifted_run lower pushforward predictive "mean_field_1" rng net params
    posteriorFn custom key S (fun x _ => t₀ x) θ est h prior τ hτ hτ0 hσ x hf (differentiableAt_const _)
  have hg0 : g = 0 := by rw [hg]; funext j; simp
  refine ⟨fns, r, r', arrOf net.shape (specialOf "mean_field_1" (net.fn x θ) (jacobian (net.fn x) θ * C * (jacobian (net.fn x) θ)ᵀ)),
    e1, e2, e3, by rw [e4, act_special _ _ _ _ (by simp)], ?_⟩
  rw [e5, act_special _ _ _ _ (by simp)]
  have hz : (Matrix.of fun (_ : Fin (shapeSize net.shape)) (j : Fin p) => g j) = 0 := by rw [hg0]; rfl
  rw [hz, add_zero]
  simp [specialOf]

end

/-- **C68 (sampled predictive).** The class probabilities `mc_pred_act` of the sampled predictive do not change when any function of input
and parameters is added to all logits. -/
theorem C68_sampled_probabilities (rng : Prng K) (hrng : RngOk rng) (net : Net X p) (t : X → Vec p → ℝ)
    (mean : PyTree ℝ) (hwf : WFTree mean) (θ : Vec p) (hθ : entries mean = List.ofFn θ)
    (posteriorFn : PriorArgs → ℝ → Except Err (Posterior p)) (prior : PriorArgs) (lsf : ℝ) (post : Posterior p)
    (hpost : posteriorFn prior lsf = .ok post) (scale : List (PyTree ℝ) → Except Err (PyTree ℝ))
    (hscale : post.scaleMv post.state = .ok scale)
    (R : Matrix (Fin p) (Fin p) ℝ) (hR : ActsOnTrees mean scale (fun v => R *ᵥ v)) (key : Option K) (S : ℕ) (hS : 0 < S)
    (kw : PfKwargs K) (hkw : kw.precompute = none) (hb1 : kw.precomputeListBatchSize ≠ some 0)
    (hb2 : kw.nonlinSetupBatchSize ≠ some 0) (hb3 : kw.weightBatchSize ≠ some 0) (x : X) (fns : List NonlinFn)
    (hu : ∀ fn ∈ fns, NonlinUsable net.shape fn) (hc : .predCov ∈ fns → 2 ≤ S) (hmc : .mcPredAct ∈ fns) :
    ∃ r r' probs,
      nonlinPushforward rng net mean posteriorFn prior key lsf ((NonlinFn.setup :: fns).map NonlinFn.step) S kw x = .ok r ∧
      nonlinPushforward rng (shifted net t) mean posteriorFn prior key lsf ((NonlinFn.setup :: fns).map NonlinFn.step) S kw x = .ok r' ∧
      r.get? "mc_pred_act" = some probs ∧ r'.get? "mc_pred_act" = some probs := by
  obtain ⟨eps, d1, h⟩ := C36_sampled_predictive rng hrng net mean hwf θ hθ posteriorFn prior lsf post hpost scale hscale R hR key S hS kw
    hkw hb1 hb2 hb3
  obtain ⟨eps', d1', h'⟩ := C36_sampled_predictive rng hrng (shifted net t) mean hwf θ hθ posteriorFn prior lsf post hpost scale hscale R
    hR key S hS kw hkw hb1 hb2 hb3
  obtain rfl : eps' = eps := draws_unique d1' d1
  obtain ⟨r, h1, h2⟩ := h x fns hu hc
  obtain ⟨r', h1', h2'⟩ := h' x fns hu hc
  have hact : ∀ (f : Vec (shapeSize net.shape)) (e : Fin S → Vec (shapeSize net.shape)),
      nonlinExpected net.shape f e fns "mc_pred_act" = some (arrOf net.shape (ensSoftmax (ensTake 5 e))) := by
    intro f e; simp [nonlinExpected, hmc]
  refine ⟨r, r', arrOf net.shape (ensSoftmax (ensTake 5 fun i => net.fn x (θ + R *ᵥ eps' i))), h1, h1', by rw [h2, hact], ?_⟩
  rw [h2']
  refine (hact _ _).trans ?_
  exact congrArg (fun v => some (arrOf net.shape v)) (ensSoftmax_shift (ensTake 5 fun i => net.fn x (θ + R *ᵥ eps' i))
    fun i => t x (θ + R *ᵥ eps' ⟨i.val, by omega⟩))

/-- **C68 (mean_field_0, exactly when).** For `mean_field_0` adding a constant to all logits leaves the probabilities alone, for all logits
and constants, exactly if all the variances are equal. -/
theorem C68_mean_field_0_iff (var : Vec c) (hv : ∀ k, 0 ≤ var k) :
    (∀ (mean : Vec c) (t : ℝ), meanField0 (fun k => mean k + t) var = meanField0 mean var) ↔ ∀ i j, var i = var j := by
  have hl : 0 < lambda0 := by unfold lambda0; positivity
  have hpos : ∀ k, 0 < 1 + lambda0 * var k := fun k => by have := mul_nonneg hl.le (hv k); linarith
  constructor
  · intro h i j
    have h1 := h 0 1
    have hc : Nonempty (Fin c) := ⟨i⟩
    have hZ : ∀ z : Vec c, (∑ k, Real.exp (z k)) ≠ 0 := fun z => (Finset.sum_pos (fun k _ => Real.exp_pos _) Finset.univ_nonempty).ne'
    have key : ∀ k, Real.exp ((0 + 1) / Real.sqrt (1 + lambda0 * var k)) =
        (∑ l, Real.exp ((0 + 1) / Real.sqrt (1 + lambda0 * var l))) / ∑ l : Fin c, Real.exp (0 / Real.sqrt (1 + lambda0 * var l)) := by
      intro k
      have := congrFun h1 k
      simp only [meanField0, softmax, Pi.zero_apply] at this
      rw [div_eq_div_iff (hZ _) (hZ _)] at this
      rw [eq_div_iff (hZ _)]
      simpa using this
    have e := (key i).trans (key j).symm
    rw [Real.exp_eq_exp] at e
    have e2 : Real.sqrt (1 + lambda0 * var i) = Real.sqrt (1 + lambda0 * var j) := by
      simpa using e
    rw [Real.sqrt_inj (hpos i).le (hpos j).le] at e2
    have : lambda0 * var i = lambda0 * var j := by linarith
    exact mul_left_cancel₀ hl.ne' this
  · intro h mean t
    rcases Nat.eq_zero_or_pos c with rfl | hc
    · exact Subsingleton.elim _ _
    unfold meanField0
    have : (fun k => (mean k + t) / Real.sqrt (1 + lambda0 * var k)) =
        fun k => mean k / Real.sqrt (1 + lambda0 * var k) + t / Real.sqrt (1 + lambda0 * var ⟨0, hc⟩) := by
      funext k
      rw [h k ⟨0, hc⟩, add_div]
    rw [this, softmax_shift]

/-! ### Counterexamples and non-vacuity -/

/-- A model with the logits `θ₀` and `0`. -/
def logitNet : Net ℝ 2 := ⟨[2], fun _ θ k => if k.val = 0 then θ 0 else 0⟩

theorem logitNet_deriv (x : ℝ) (θ : Vec 2) :
    HasFDerivAt (logitNet.fn x) (ContinuousLinearMap.pi fun k : Fin (shapeSize logitNet.shape) => if k.val = 0 then (ContinuousLinearMap.proj 0 : Vec 2 →L[ℝ] ℝ) else 0) θ := by
  rw [hasFDerivAt_pi]
  intro k
  by_cases h : k.val = 0
  · simp only [logitNet, h, if_true]
    exact (ContinuousLinearMap.proj (R := ℝ) (φ := fun _ : Fin 2 => ℝ) 0).hasFDerivAt
  · simp only [logitNet, h, if_false]
    exact hasFDerivAt_const _ _

theorem logitNet_jacobian (x : ℝ) (θ : Vec 2) : jacobian (logitNet.fn x) θ = (!![1, 0; 0, 0] : Matrix (Fin 2) (Fin 2) ℝ) := by
  ext i j
  simp only [jacobian, Matrix.of_apply, (logitNet_deriv x θ).fderiv, ContinuousLinearMap.pi_apply]
  have hi : i = (0 : Fin 2) ∨ i = (1 : Fin 2) := by
    have : i.val < 2 := i.isLt
    rcases i with ⟨i, hi⟩
    have : i = 0 ∨ i = 1 := by simp only at this; omega
    rcases this with rfl | rfl
    · left; rfl
    · right; rfl
  rcases hi with rfl | rfl <;> fin_cases j <;> simp

/-- The posterior function of a zero curvature. -/
noncomputable def logitPosterior : PriorArgs → ℝ → Except Err (Posterior 2) := fun a s => setPosteriorFn (.full 0) (.tree testMean) a s

theorem logit_api (pr : String) (hpr : pr ∈ ["mean_field_0", "mean_field_1", "mean_field_2"]) :
    ApiLinear (fun s => s) (.str "linear") (.member pr) pr (⟨testRng, logitNet, testMean, logitPosterior, fun _ _ _ _ => .error .typeError, (), 3⟩ :
      PredictiveArgs ℝ Unit 2) ![3, 5] (.full 0) :=
  ⟨rfl, rfl, testRng_ok, by norm_num, testMean_wf, by simp [testMean, entries, Tree.leaves, Tree.leavesL], Matrix.PosSemidef.zero, rfl,
    Or.inr (Or.inr ⟨hpr, rfl, by decide⟩)⟩

theorem logit_precision : (targetPrecision 1 1 1 (.full (0 : Matrix (Fin 2) (Fin 2) ℝ)))⁻¹ = 1 := by
  rw [targetPrecision_eq]; simp [curvOf]

theorem pair_prob {f g : Vec 2} {V W : Matrix (Fin 2) (Fin 2) ℝ} {pr : String} (h : arrOf [2] (specialOf pr f V) = arrOf [2] (specialOf pr g W)) :
    specialOf pr f V 0 = specialOf pr g W 0 := by
  have := congrArg Arr.data h
  exact congrFun (List.ofFn_injective this) 0

theorem pair_mf0 {f g : Vec 2} {V W : Matrix (Fin 2) (Fin 2) ℝ} (h : specialOf "mean_field_0" f V 0 = specialOf "mean_field_0" g W 0) :
    f 1 / Real.sqrt (1 + Real.pi / 8 * V 1 1) - f 0 / Real.sqrt (1 + Real.pi / 8 * V 0 0) =
      g 1 / Real.sqrt (1 + Real.pi / 8 * W 1 1) - g 0 / Real.sqrt (1 + Real.pi / 8 * W 0 0) := by
  simp only [specialOf, if_true, softmaxOf, Fin.sum_univ_two] at h
  have p : ∀ x y : ℝ, 0 < Real.exp x + Real.exp y := fun x y => add_pos (Real.exp_pos _) (Real.exp_pos _)
  rw [div_eq_div_iff (p _ _).ne' (p _ _).ne', mul_add, mul_add, mul_comm (Real.exp (f 0 / _)) (Real.exp (g 0 / _)), add_right_inj,
    ← Real.exp_add, ← Real.exp_add, Real.exp_eq_exp] at h
  linarith

theorem pair_mf1 {f g : Vec 2} {V W : Matrix (Fin 2) (Fin 2) ℝ} (h : specialOf "mean_field_1" f V 0 = specialOf "mean_field_1" g W 0) :
    (f 1 - f 0) / Real.sqrt (1 + Real.pi / 8 * (V 0 0 + V 1 1)) = (g 1 - g 0) / Real.sqrt (1 + Real.pi / 8 * (W 0 0 + W 1 1)) := by
  simp only [specialOf, if_neg (show ¬ ("mean_field_1" = "mean_field_0") by decide), if_true, Fin.sum_univ_two, sub_self, zero_div, Real.exp_zero] at h
  have p : ∀ x : ℝ, 0 < 1 + Real.exp x := fun x => by have := Real.exp_pos x; linarith
  rw [div_eq_div_iff (p _).ne' (p _).ne', one_mul, one_mul, add_right_inj, Real.exp_eq_exp] at h
  exact h.symm

theorem two_cases (k : Fin 2) : k = 0 ∨ k = 1 := by fin_cases k <;> simp

theorem logit_values : logitNet.fn 0 ![3, 5] = (![3, 0] : Vec 2) ∧
    (∀ t : ℝ, (fun k => logitNet.fn 0 ![3, 5] k + t) = (![3 + t, t] : Vec 2)) ∧
    (!![1, 0; 0, 0] : Matrix (Fin 2) (Fin 2) ℝ) * 1 * (!![1, 0; 0, 0])ᵀ = !![1, 0; 0, 0] ∧
    ((!![1, 0; 0, 0] : Matrix (Fin 2) (Fin 2) ℝ) + Matrix.of fun _ j => (0 : Vec 2) j) * 1 *
      ((!![1, 0; 0, 0] : Matrix (Fin 2) (Fin 2) ℝ) + Matrix.of fun _ j => (0 : Vec 2) j)ᵀ = !![1, 0; 0, 0] ∧
    ((!![1, 0; 0, 0] : Matrix (Fin 2) (Fin 2) ℝ) + Matrix.of fun _ j => (![1, 0] : Vec 2) j) * 1 *
      ((!![1, 0; 0, 0] : Matrix (Fin 2) (Fin 2) ℝ) + Matrix.of fun _ j => (![1, 0] : Vec 2) j)ᵀ = !![4, 2; 2, 1] := by
  refine ⟨?_, fun t => ?_, ?_, ?_, ?_⟩
  · funext k
    show (if k.val = 0 then (![3, 5] : Vec 2) 0 else 0) = _
    have : k = (0 : Fin 2) ∨ k = (1 : Fin 2) := two_cases k
    rcases this with rfl | rfl <;> simp
  · funext k
    show (if k.val = 0 then (![3, 5] : Vec 2) 0 else 0) + t = _
    have : k = (0 : Fin 2) ∨ k = (1 : Fin 2) := two_cases k
    rcases this with rfl | rfl <;> simp
  · ext i j
    fin_cases i <;> fin_cases j <;> norm_num [Matrix.mul_apply, Fin.sum_univ_two]
  · have : (!![1, 0; 0, 0] : Matrix (Fin 2) (Fin 2) ℝ) + Matrix.of (fun _ j => (0 : Vec 2) j) = !![1, 0; 0, 0] := by
      ext i j
      rw [Matrix.add_apply, Matrix.of_apply]; simp
    rw [this]
    ext i j
    fin_cases i <;> fin_cases j <;> norm_num [Matrix.mul_apply, Fin.sum_univ_two]
  · have : (!![1, 0; 0, 0] : Matrix (Fin 2) (Fin 2) ℝ) + Matrix.of (fun _ j => (![1, 0] : Vec 2) j) = !![2, 0; 1, 0] := by
      ext i j
      rw [Matrix.add_apply, Matrix.of_apply]
      fin_cases i <;> fin_cases j <;> norm_num
    rw [this]
    ext i j
    fin_cases i <;> fin_cases j <;> norm_num [Matrix.mul_apply, Fin.sum_univ_two]

/-- **C68 (violated by mean_field_0 and mean_field_1).** A two-class model with the logits `(θ₀, 0)`: adding 1 to both logits changes the
class probabilities reported with `mean_field_0`, and adding `θ₀` to both logits changes those reported with `mean_field_1`. -/
theorem C68_mean_field_violated :
    (∃ fns r r', setupPushforward (fun s => s) (.str "linear") (.member "mean_field_0") none = .ok (.lin, fns) ∧
      setPushforward (⟨testRng, logitNet, testMean, logitPosterior, fun _ _ _ _ => .error .typeError, (), 3⟩ : PredictiveArgs ℝ Unit 2)
        .lin fns ⟨some 1, none⟩ 0 = .ok r ∧
      setPushforward (⟨testRng, shifted logitNet fun _ _ => 1, testMean, logitPosterior, fun _ _ _ _ => .error .typeError, (), 3⟩ : PredictiveArgs ℝ Unit 2)
        .lin fns ⟨some 1, none⟩ 0 = .ok r' ∧
      (r.get? "pred_act").isSome ∧ r.get? "pred_act" ≠ r'.get? "pred_act") ∧
    (∃ fns r r', setupPushforward (fun s => s) (.str "linear") (.member "mean_field_1") none = .ok (.lin, fns) ∧
      setPushforward (⟨testRng, logitNet, testMean, logitPosterior, fun _ _ _ _ => .error .typeError, (), 3⟩ : PredictiveArgs ℝ Unit 2)
        .lin fns ⟨some 1, none⟩ 0 = .ok r ∧
      setPushforward (⟨testRng, shifted logitNet fun _ θ => θ 0, testMean, logitPosterior, fun _ _ _ _ => .error .typeError, (), 3⟩ : PredictiveArgs ℝ Unit 2)
        .lin fns ⟨some 1, none⟩ 0 = .ok r' ∧
      (r.get? "pred_act").isSome ∧ r.get? "pred_act" ≠ r'.get? "pred_act") := by
  have hπ := Real.pi_pos
  have h8 : 0 < Real.pi / 8 := by positivity
  constructor
  · obtain ⟨C, R, eps, fns, r, r', ⟨-, hC⟩, e1, e2, e3, e4, g, e5, hg⟩ := shifted_run (fun s => s) (.str "linear") (.member "mean_field_0")
      "mean_field_0" testRng logitNet testMean logitPosterior _ () 3 (fun _ _ => 1) ![3, 5] (.full 0) (logit_api _ (by simp)) ⟨some 1, none⟩ 1 rfl
      one_pos (by norm_num) (0 : ℝ) (logitNet_deriv 0 _).differentiableAt (differentiableAt_const _)
    have hg0 : g = 0 := by rw [hg]; funext j; simp
    have hC1 : C = 1 := hC.trans logit_precision
    refine ⟨fns, r, r', e1, e2, e3, by rw [e4, act_special _ _ _ _ (by simp)]; rfl, fun he => ?_⟩
    rw [e4, e5, act_special _ _ _ _ (by simp), act_special _ _ _ _ (by simp), logitNet_jacobian, hC1, hg0, Option.some.injEq] at he
    obtain ⟨v1, v2, v3, v4, -⟩ := logit_values
    have h0 := pair_mf0 (f := ![3, 0]) (g := ![3 + 1, 1]) (V := !![1, 0; 0, 0]) (W := !![1, 0; 0, 0]) (pair_prob
      ((congrArg₂ (fun f V => arrOf [2] (specialOf "mean_field_0" f V)) v1 v3).symm.trans
        (he.trans (congrArg₂ (fun f V => arrOf [2] (specialOf "mean_field_0" f V)) (v2 1) v4))))
    have q1 : (1 : ℝ) < Real.sqrt (1 + Real.pi / 8) := by
      rw [Real.lt_sqrt zero_le_one]; linarith
    have q2 : 1 / Real.sqrt (1 + Real.pi / 8) < 1 := by rw [div_lt_one (by linarith)]; exact q1
    simp [add_div] at h0 q2
    linarith
  · obtain ⟨C, R, eps, fns, r, r', ⟨-, hC⟩, e1, e2, e3, e4, g, e5, hg⟩ := shifted_run (fun s => s) (.str "linear") (.member "mean_field_1")
      "mean_field_1" testRng logitNet testMean logitPosterior (fun _ _ _ _ => .error .typeError) () 3 (fun _ θ => θ 0) ![3, 5] (.full 0)
      (logit_api _ (by simp)) ⟨some 1, none⟩ 1 rfl one_pos (by norm_num) (0 : ℝ) (logitNet_deriv 0 _).differentiableAt (differentiableAt_apply _ _)
    have hg0 : g = ![1, 0] := by
      rw [hg]; funext j
      have : fderiv ℝ (fun θ : Vec 2 => θ 0) ![3, 5] = ContinuousLinearMap.proj 0 :=
        (ContinuousLinearMap.proj (R := ℝ) (φ := fun _ : Fin 2 => ℝ) 0).hasFDerivAt.fderiv
      rw [this]
      fin_cases j <;> simp
    have hC1 : C = 1 := hC.trans logit_precision
    refine ⟨fns, r, r', e1, e2, e3, by rw [e4, act_special _ _ _ _ (by simp)]; rfl, fun he => ?_⟩
    rw [e4, e5, act_special _ _ _ _ (by simp), act_special _ _ _ _ (by simp), logitNet_jacobian, hC1, hg0, Option.some.injEq] at he
    obtain ⟨v1, v2, v3, -, v5⟩ := logit_values
    have h0 := pair_mf1 (f := ![3, 0]) (g := ![3 + 3, 3]) (V := !![1, 0; 0, 0]) (W := !![4, 2; 2, 1]) (pair_prob
      ((congrArg₂ (fun f V => arrOf [2] (specialOf "mean_field_1" f V)) v1 v3).symm.trans
        (he.trans (congrArg₂ (fun f V => arrOf [2] (specialOf "mean_field_1" f V)) (v2 3) v5))))
    have q1 : Real.sqrt (1 + Real.pi / 8) < Real.sqrt (1 + Real.pi / 8 * (4 + 1)) := by
      apply Real.sqrt_lt_sqrt <;> nlinarith
    have q0 : 0 < Real.sqrt (1 + Real.pi / 8) := by positivity
    simp at h0
    rw [div_eq_div_iff q0.ne' (q0.trans q1).ne'] at h0
    linarith

example : laplace (fun s => s) (fun _ => .error .valueError) testPairs (shifted testNet fun x v => x * v 1).fn testMean
      (.tup [.arr [1, 2], .arr [0, 1]]) (.name "cross_entropy") (.str "full") (fun _ => .full) 1 1 =
    laplace (fun s => s) (fun _ => .error .valueError) testPairs testNet.fn testMean (.tup [.arr [1, 2], .arr [0, 1]]) (.name "cross_entropy")
      (.str "full") (fun _ => .full) 1 1 :=
  C68_same_posterior (fun s => s) _ testPairs testNet (fun x v => x * v 1) testMean ![3, 5] _ [(1, 0), (2, 1)] _ _ _
    (test_relabelled [0, 1] _ rfl (Equiv.refl _)) (fun s _ => by fun_prop) _ 1 1 one_ne_zero

example (x : ℝ) : ∃ fns r r' probs, setupPushforward (fun s => s) (.str "linear") (.member "mean_field_2") none = .ok (.lin, fns) ∧
    setPushforward (⟨testRng, logitNet, testMean, logitPosterior, fun _ _ _ _ => .error .typeError, (), 3⟩ : PredictiveArgs ℝ Unit 2)
      .lin fns ⟨some 1, none⟩ x = .ok r ∧
    setPushforward (⟨testRng, shifted logitNet fun x v => v 0 * v 1 + x, testMean, logitPosterior, fun _ _ _ _ => .error .typeError, (), 3⟩ :
      PredictiveArgs ℝ Unit 2) .lin fns ⟨some 1, none⟩ x = .ok r' ∧
    r.get? "pred_act" = some probs ∧ r'.get? "pred_act" = some probs :=
  C68_linearized_probabilities (fun s => s) (.str "linear") (.member "mean_field_2") "mean_field_2" testRng logitNet testMean logitPosterior _ () 3
    (fun x v => v 0 * v 1 + x) ![3, 5] (.full 0) (logit_api _ (by simp)) (Or.inr rfl) ⟨some 1, none⟩ 1 rfl one_pos (by norm_num) x
    (logitNet_deriv x _).differentiableAt (by fun_prop)

end Laplax.Props
