import Verif.Props.FunctionSpace
import Verif.Props.Subsampling

/-! # C82: what one more data point does to the reported uncertainty -/

namespace Laplax.Props
open Laplax Laplax.Spec
open scoped BigOperators Matrix

variable {A X Y K : Type} {p c n : ℕ}

/-- The Woodbury identity for a general precision. -/
theorem woodbury_update {ι : Type} [Fintype ι] [DecidableEq ι] (J : Matrix ι (Fin p) ℝ) (W : Matrix ι ι ℝ) {P : Matrix (Fin p) (Fin p) ℝ}
    (hP : P.PosDef) (hQ : (Jᵀ * W * J + P).PosDef) :
    (Jᵀ * W * J + P)⁻¹ = P⁻¹ - P⁻¹ * Jᵀ * ((1 + W * (J * P⁻¹ * Jᵀ))⁻¹ * W) * (J * P⁻¹) := by
  have hPu : IsUnit P.det := hP.det_pos.ne'.isUnit
  have hPP : P * P⁻¹ = 1 := Matrix.mul_nonsing_inv _ hPu
  have hPP' : P⁻¹ * P = 1 := Matrix.nonsing_inv_mul _ hPu
  have hu : IsUnit (1 + W * (J * P⁻¹ * Jᵀ)).det := by
    have e : 1 + W * (J * P⁻¹ * Jᵀ) = 1 + (W * J * P⁻¹) * Jᵀ := by simp only [Matrix.mul_assoc]
    have e2 : 1 + Jᵀ * (W * J * P⁻¹) = (Jᵀ * W * J + P) * P⁻¹ := by
      rw [Matrix.add_mul, hPP, add_comm]; simp only [Matrix.mul_assoc]
    rw [e, Matrix.det_one_add_mul_comm, e2, Matrix.det_mul]
    exact (mul_ne_zero hQ.det_pos.ne' hP.inv.det_pos.ne').isUnit
  obtain ⟨M, hM⟩ : ∃ M, M = 1 + W * (J * P⁻¹ * Jᵀ) := ⟨_, rfl⟩
  rw [← hM] at hu ⊢
  have hMi : M * M⁻¹ = 1 := Matrix.mul_nonsing_inv _ hu
  refine Matrix.inv_eq_right_inv ?_
  have e1 : (Jᵀ * W * J + P) * (P⁻¹ * Jᵀ) = Jᵀ * M := by
    rw [hM, Matrix.add_mul, ← Matrix.mul_assoc P, hPP, Matrix.one_mul, Matrix.mul_add, Matrix.mul_one, add_comm]
    simp only [Matrix.mul_assoc]
  have e3 : Jᵀ * M * (M⁻¹ * W) = Jᵀ * W := by rw [Matrix.mul_assoc, ← Matrix.mul_assoc M, hMi, Matrix.one_mul]
  have e4 : (Jᵀ * W * J + P) * (P⁻¹ * Jᵀ * (M⁻¹ * W) * (J * P⁻¹)) = Jᵀ * W * J * P⁻¹ := by
    rw [← Matrix.mul_assoc, ← Matrix.mul_assoc _ (P⁻¹ * Jᵀ), e1, e3]; simp only [Matrix.mul_assoc]
  rw [Matrix.mul_sub, e4, Matrix.add_mul, hPP, add_sub_cancel_left]

/-- Conditioning the process with kernel `J P⁻¹ Jᵀ`. -/
theorem condition_update (f : X → Vec p → Vec c) (θ : Vec p) (xs : Fin n → X) (W : Matrix (Fin n × Fin c) (Fin n × Fin c) ℝ)
    {P : Matrix (Fin p) (Fin p) ℝ} (hP : P.PosDef) (hQ : ((stackJac f θ xs)ᵀ * W * stackJac f θ xs + P).PosDef) (x x' : X) :
    jacobian (f x) θ * ((stackJac f θ xs)ᵀ * W * stackJac f θ xs + P)⁻¹ * (jacobian (f x') θ)ᵀ =
      gpCovLoss (fun x x' => jacobian (f x) θ * P⁻¹ * (jacobian (f x') θ)ᵀ) xs W x x' := by
  have hg : gram (fun x x' => jacobian (f x) θ * P⁻¹ * (jacobian (f x') θ)ᵀ) xs = stackJac f θ xs * P⁻¹ * (stackJac f θ xs)ᵀ := by
    ext a b
    simp [gram, stackJac, Matrix.mul_apply]
  have hc : ∀ x, crossCov (fun x x' => jacobian (f x) θ * P⁻¹ * (jacobian (f x') θ)ᵀ) xs x = jacobian (f x) θ * P⁻¹ * (stackJac f θ xs)ᵀ := by
    intro x
    ext a b
    simp [crossCov, stackJac, Matrix.mul_apply]
  have hsym : (P⁻¹)ᵀ = P⁻¹ := by
    rw [← Matrix.conjTranspose_eq_transpose_of_trivial]; exact hP.inv.isHermitian.eq
  rw [woodbury_update _ W hP hQ, gpCovLoss, hg, hc, hc, Matrix.mul_sub, Matrix.sub_mul]
  congr 1
  rw [Matrix.transpose_mul, Matrix.transpose_mul, Matrix.transpose_transpose, hsym]
  simp only [Matrix.mul_assoc]

/-- The precision of the fit on more data. -/
theorem precision_append {f : X → Vec p → Vec c} {θ : Vec p} {H : Vec c → Vec c → Y → Vec c} (hH : GoodLossHess H) {w : ℝ}
    {samples extra samples' : List (X × Y)} (hperm : samples'.Perm (samples ++ extra)) {G G' : Matrix (Fin p) (Fin p) ℝ}
    (hG : ∀ v, G *ᵥ v = w • ggnSamples f θ H samples v) (hG' : ∀ v, G' *ᵥ v = w • ggnSamples f θ H samples' v) (τ σ s : ℝ) :
    precision G' τ σ s = (stackJac f θ fun i => (extra.get i).1)ᵀ * lossHessians f θ H (σ * w / s) extra.get * (stackJac f θ fun i => (extra.get i).1) +
      precision G τ σ s := by
  have hD : ∀ v, ((σ / s) • (G' - G)) *ᵥ v = (σ * w / s) • ggnSamples f θ H extra v := fun v => by
    rw [Matrix.smul_mulVec, Matrix.sub_mulVec, hG, hG', show ggnSamples f θ H samples' v = ggnSamples f θ H (samples ++ extra) v from (hperm.map _).sum_eq,
      ggnSamples, ggnSamples, ggnSamples, List.map_append, List.sum_append, smul_add, add_sub_cancel_left, smul_smul]
    congr 1; ring
  rw [← curvature_stacked hH (σ * w / s) extra hD, precision, precision, smul_add, smul_add, smul_smul, smul_smul, smul_smul, smul_sub, ← add_assoc, div_eq_inv_mul,
    sub_add_cancel]

theorem ggn_quad (f : X → Vec p → Vec c) (θ : Vec p) (H : Vec c → Vec c → Y → Vec c) (l : List (X × Y)) (u : Vec p) :
    u ⬝ᵥ ggnSamples f θ H l u = (l.map fun e => (jacobian (f e.1) θ *ᵥ u) ⬝ᵥ H (jacobian (f e.1) θ *ᵥ u) (f e.1 θ) e.2).sum := by
  induction l with
  | nil => simp [ggnSamples]
  | cons e l ih =>
    rw [ggnSamples] at ih ⊢
    rw [List.map_cons, List.sum_cons, dotProduct_add, ih, List.map_cons, List.sum_cons, Matrix.mulVec_transpose, dotProduct_comm u, ← Matrix.dotProduct_mulVec,
      dotProduct_comm]

/-- The decrease of the variance through a larger curvature. -/
theorem variance_decrease {P D : Matrix (Fin p) (Fin p) ℝ} (hP : P.PosDef) (hQ : (P + D).PosDef) (v : Vec p) :
    v ⬝ᵥ P⁻¹ *ᵥ v ≤ v ⬝ᵥ (P + D)⁻¹ *ᵥ v + (P⁻¹ *ᵥ v) ⬝ᵥ D *ᵥ (P⁻¹ *ᵥ v) := by
  have h1 : P *ᵥ (P⁻¹ *ᵥ v) = v := by
    rw [Matrix.mulVec_mulVec, Matrix.mul_nonsing_inv _ hP.det_pos.ne'.isUnit, Matrix.one_mulVec]
  have h2 := quad_inv_le hQ (P⁻¹ *ᵥ v) v
  rw [Matrix.add_mulVec, dotProduct_add, h1] at h2
  have h3 : (P⁻¹ *ᵥ v) ⬝ᵥ v = v ⬝ᵥ P⁻¹ *ᵥ v := dotProduct_comm _ _
  rw [h3] at h2
  linarith

/-- A direction that is well observed has a small variance. -/
theorem observed_variance {P : Matrix (Fin p) (Fin p) ℝ} (hP : P.PosDef) (v : Vec p) {a : ℝ} (ha : 0 < a) {τ : ℝ} (hτ : 0 < τ)
    (hobs : ∀ u : Vec p, a * (u ⬝ᵥ v) ^ 2 + τ * (u ⬝ᵥ u) ≤ u ⬝ᵥ P *ᵥ u) : v ⬝ᵥ P⁻¹ *ᵥ v < 1 / a := by
  have h1 : P *ᵥ (P⁻¹ *ᵥ v) = v := by
    rw [Matrix.mulVec_mulVec, Matrix.mul_nonsing_inv _ hP.det_pos.ne'.isUnit, Matrix.one_mulVec]
  have h2 := hobs (P⁻¹ *ᵥ v)
  obtain ⟨u, hu⟩ : ∃ u, u = P⁻¹ *ᵥ v := ⟨_, rfl⟩
  have h3 : v ⬝ᵥ u = u ⬝ᵥ v := dotProduct_comm _ _
  rw [h1, ← hu] at h2
  rw [← hu, h3]
  obtain ⟨q, hq⟩ : ∃ q, q = u ⬝ᵥ v := ⟨_, rfl⟩
  rw [← hq] at h2 ⊢
  have huu : 0 ≤ u ⬝ᵥ u := by rw [dotProduct]; exact Finset.sum_nonneg fun i _ => mul_self_nonneg _
  rcases huu.eq_or_lt with h0 | h0
  · have : u = 0 := dotProduct_self_eq_zero.1 h0.symm
    rw [hq, this, zero_dotProduct]
    positivity
  · have h4 : a * q ^ 2 < q := by have := mul_pos hτ h0; linarith
    have hq0 : 0 < q := by nlinarith [sq_nonneg q]
    rw [lt_div_iff₀ ha]
    nlinarith

section
variable (lower : String → String) (rows : A → Except Err (List A)) (points : PyObj A → PyObj A → Except Err (List (X × Y)))
  (net : Net X p) (params : PyTree ℝ) (θ : Vec p) (data data' : PyObj A) (samples extra samples' : List (X × Y))
  (hperm : samples'.Perm (samples ++ extra))
  (H : Vec (shapeSize net.shape) → Vec (shapeSize net.shape) → Y → Vec (shapeSize net.shape)) (curvType ct : EnumArg)
  (kind : EnumArg → LaplaceKind p) (hk : kind ct = .full) (numCurv numTotal : ℕ) (hN : numTotal ≠ 0)

include hperm hk hN

/-- **C82 (conditioning).** For every model, named loss and data: the dense GP kernel of the fit (curvature type FULL) on additional points is the kernel
of the fit without them, conditioned on the additional points: `k(x, x') - k(x, X) (I + W k(X, X))⁻¹ W k(X, x')`, where `k` is the kernel that
`set_posterior_gp_kernel` returns for the fit without them, `X` are only the additional inputs and `W` only their loss Hessians.  What was fitted
before enters through `k` alone. -/
theorem C82_conditioning (loss : String) (h : LaplaceCall lower points net.fn params θ data samples loss H curvType ct)
    (h' : LaplaceCall lower points net.fn params θ data' samples' loss H curvType ct)
    (prior : PriorArgs) (τ : ℝ) (hτ : prior.priorPrec = some τ) (hτ0 : 0 < τ) (hσ : 0 ≤ prior.sigmaSquared.getD 1) (s : ℝ) (hs : 0 < s)
    (rng : Prng K) (hrng : RngOk rng) (hdim : net.shape.length = 1) (hpos : 0 < shapeSize net.shape)
    (kg : PfKwargs K) (hns : kg.numSamples = none) :
    ∃ posteriorFn est g dist posteriorFn' est' g' dist', ∃ k : X → X → Matrix (Fin (shapeSize net.shape)) (Fin (shapeSize net.shape)) ℝ,
      laplace lower rows points net.fn params data (.name loss) curvType kind numCurv numTotal = .ok (posteriorFn, est) ∧
      laplace lower rows points net.fn params data' (.name loss) curvType kind numCurv numTotal = .ok (posteriorFn', est') ∧
      setPosteriorGpKernel rng net params posteriorFn prior s true (.int (shapeSize net.shape)) kg = .ok (.dense g, dist) ∧
      setPosteriorGpKernel rng net params posteriorFn' prior s true (.int (shapeSize net.shape)) kg = .ok (.dense g', dist') ∧
      ∀ x x', g x x' = .ok (.leaf (denseArr (k x x'))) ∧
        g' x x' = .ok (.leaf (denseArr (gpCovLoss k (fun i => (extra.get i).1)
          (lossHessians net.fn θ H (prior.sigmaSquared.getD 1 * (numCurv / numTotal) / s) extra.get) x x'))) := by
  obtain ⟨G, g1, g2, g3⟩ := C47_laplace_curvature lower rows points net.fn params θ data samples loss H curvType ct h kind numCurv numTotal hN
  obtain ⟨G', g1', g2', g3'⟩ := C47_laplace_curvature lower rows points net.fn params θ data' samples' loss H curvType ct h' kind numCurv numTotal hN
  have hsz : numEntries params = p := by rw [← length_entries h.hwf, h.hθ, List.length_ofFn]
  obtain ⟨post, cov, scale, e1, e2, e3, R, ⟨-, k2, -, S, e4, e5⟩, e7, e8⟩ :=
    posterior_of_estimate params hsz h.hp (.full G) g1 prior τ hτ hτ0 hσ s hs
  obtain ⟨g, dist, k, f1, f2, f3, -, -⟩ := C37_dense_kernel rng hrng net params h.hp h.hwf θ h.hθ
    (fun q s => setPosteriorFn (.full G) (.tree params) q s) prior s post e1 cov scale e2 e3 _ R e7 e8 k2.posSemidef hdim hpos kg hns {}
    rfl (by simp) (by simp) (by simp)
  obtain ⟨post', cov', scale', e1', e2', e3', R', ⟨-, k2', -, S', e4', e5'⟩, e7', e8'⟩ :=
    posterior_of_estimate params hsz h.hp (.full G') g1' prior τ hτ hτ0 hσ s hs
  obtain ⟨g', dist', k', f1', f2', f3', -, -⟩ := C37_dense_kernel rng hrng net params h.hp h.hwf θ h.hθ
    (fun q s => setPosteriorFn (.full G') (.tree params) q s) prior s post' e1' cov' scale' e2' e3' _ R' e7' e8' k2'.posSemidef hdim hpos kg hns {}
    rfl (by simp) (by simp) (by simp)
  refine ⟨fun q s => setPosteriorFn (.full G) (.tree params) q s, .full G, g, dist, fun q s => setPosteriorFn (.full G') (.tree params) q s, .full G', g', dist', k,
    by rw [g3, hk]; rfl, by rw [g3', hk]; rfl, f1, f1', fun x x' => ⟨f2 x x', ?_⟩⟩
  have hpd : ∀ {M : Matrix (Fin p) (Fin p) ℝ}, M.PosSemidef → (precision M τ (prior.sigmaSquared.getD 1) s).PosDef := fun hM => by
    rw [precision]
    refine Matrix.PosDef.smul ?_ (inv_pos.2 hs)
    rw [add_comm]
    exact (Matrix.PosDef.one.smul hτ0).add_posSemidef (hM.smul hσ)
  have hkk : k = fun x x' => jacobian (net.fn x) θ * (precision G τ (prior.sigmaSquared.getD 1) s)⁻¹ * (jacobian (net.fn x') θ)ᵀ := by
    funext x x'; exact f3 x x'
  have hap := precision_append (goodLossHess_named loss H h.hH) hperm g2 g2' τ (prior.sigmaSquared.getD 1) s
  rw [f2', f3', hkk]
  refine congrArg (fun V => (Except.ok (.leaf (denseArr V)) : Except Err (PyTree ℝ))) ?_
  show jacobian (net.fn x) θ * (precision G' τ (prior.sigmaSquared.getD 1) s)⁻¹ * _ = _
  have hpd' := hpd g1'
  rw [hap] at hpd' ⊢
  exact condition_update net.fn θ _ _ (hpd g1) hpd' x x'

/-- **C82 (influence).** For every model, named loss and data: compared with the fit (curvature type FULL) without them, additional data points never
increase a variance that the linearised predictive reports, and decrease the variance of output `i` at `x` by at most `σ²·num_curv/num_total` times the
sum over the additional points of `qᵀ H q`, where `q` is the row of covariances between the output `i` at `x` and the outputs at the additional point, as
`set_posterior_gp_kernel` reports them without it, and `H` the loss Hessian there.  Points uncorrelated with the output leave its variance as it is. -/
theorem C82_influence (loss : String) (h : LaplaceCall lower points net.fn params θ data samples loss H curvType ct)
    (h' : LaplaceCall lower points net.fn params θ data' samples' loss H curvType ct)
    (prior : PriorArgs) (τ : ℝ) (hτ : prior.priorPrec = some τ) (hτ0 : 0 < τ) (hσ : 0 ≤ prior.sigmaSquared.getD 1)
    (pushforward predictive : EnumArg) (pr : String)
    (hpf : convertToEnum lower pushforwardValues false pushforward = .ok (.member "linear"))
    (hpr : convertToEnum lower predictiveValues false predictive = .ok (.member pr))
    (rng : Prng K) (hrng : RngOk rng) (custom : ℕ → PfStep X K p) (key : K) (S : ℕ) (hu : ApiUsable net.shape S pr)
    (hdim : net.shape.length = 1) (hpos : 0 < shapeSize net.shape) (kg : PfKwargs K) (hns : kg.numSamples = none) :
    ∃ posteriorFn est posteriorFn' est' g dist, ∃ k : X → X → Matrix (Fin (shapeSize net.shape)) (Fin (shapeSize net.shape)) ℝ,
      laplace lower rows points net.fn params data (.name loss) curvType kind numCurv numTotal = .ok (posteriorFn, est) ∧
      laplace lower rows points net.fn params data' (.name loss) curvType kind numCurv numTotal = .ok (posteriorFn', est') ∧
      setPosteriorGpKernel rng net params posteriorFn prior 1 true (.int (shapeSize net.shape)) kg = .ok (.dense g, dist) ∧
      (∀ x x', g x x' = .ok (.leaf (denseArr (k x x')))) ∧
      ∀ x, ∃ m V V',
        Reports lower pushforward predictive ⟨rng, net, params, posteriorFn, custom, key, S⟩ prior x m V ∧
        Reports lower pushforward predictive ⟨rng, net, params, posteriorFn', custom, key, S⟩ prior x m V' ∧
        ∀ i, V' i ≤ V i ∧
          V i ≤ V' i + prior.sigmaSquared.getD 1 * ((numCurv : ℝ) / numTotal) *
            (extra.map fun e => k x e.1 i ⬝ᵥ H (k x e.1 i) (net.fn e.1 θ) e.2).sum ∧
          ((∀ e ∈ extra, ∀ j, k x e.1 i j = 0) → V' i = V i) := by
  obtain ⟨G, g1, g2, g3⟩ := C47_laplace_curvature lower rows points net.fn params θ data samples loss H curvType ct h kind numCurv numTotal hN
  obtain ⟨G', g1', g2', g3'⟩ := C47_laplace_curvature lower rows points net.fn params θ data' samples' loss H curvType ct h' kind numCurv numTotal hN
  have hgood := goodLossHess_named loss H h.hH
  have hsz : numEntries params = p := by rw [← length_entries h.hwf, h.hθ, List.length_ofFn]
  obtain ⟨post, cov, scale, e1, e2, e3, R, ⟨-, k2, -, S', e4, e5⟩, e7, e8⟩ :=
    posterior_of_estimate params hsz h.hp (.full G) g1 prior τ hτ hτ0 hσ 1 one_pos
  obtain ⟨g, dist, k, f1, f2, f3, -, -⟩ := C37_dense_kernel rng hrng net params h.hp h.hwf θ h.hθ
    (fun q s => setPosteriorFn (.full G) (.tree params) q s) prior 1 post e1 cov scale e2 e3 _ R e7 e8 k2.posSemidef hdim hpos kg hns {}
    rfl (by simp) (by simp) (by simp)
  have hle : (G' - G).PosSemidef := by
    refine curvature_le (extra := extra) h (fun s hs => h'.hd s (hperm.mem_iff.2 (by simp [hs]))) ((numCurv : ℝ) / numTotal)
      (by positivity) G G' g2 fun v => ?_
    rw [g2', show ggnSamples net.fn θ H samples' v = ggnSamples net.fn θ H (samples ++ extra) v from (hperm.map _).sum_eq]
  refine ⟨fun q s => setPosteriorFn (.full G) (.tree params) q s, .full G, fun q s => setPosteriorFn (.full G') (.tree params) q s, .full G', g, dist, k,
    by rw [g3, hk]; rfl, by rw [g3', hk]; rfl, f1, f2, fun x => ?_⟩
  have r1 := reports (a := (⟨rng, net, params, fun q s => setPosteriorFn (.full G) (.tree params) q s, custom, key, S⟩ : PredictiveArgs X K p))
    (⟨hpf, hpr, hrng, h.hp, h.hwf, h.hθ, g1, rfl, hu⟩ : ApiLinear lower pushforward predictive pr _ θ (.full G)) prior hτ hτ0 hσ x
  have r2 := reports (a := (⟨rng, net, params, fun q s => setPosteriorFn (.full G') (.tree params) q s, custom, key, S⟩ : PredictiveArgs X K p))
    (⟨hpf, hpr, hrng, h.hp, h.hwf, h.hθ, g1', rfl, hu⟩ : ApiLinear lower pushforward predictive pr _ θ (.full G')) prior hτ hτ0 hσ x
  refine ⟨_, _, _, r1, r2, fun i => ?_⟩
  have hpd := targetPrecision_posDef (est := .full G) g1 hτ0 hσ
  have hpd' := targetPrecision_posDef (est := .full G') g1' hτ0 hσ
  have hQ : targetPrecision τ (prior.sigmaSquared.getD 1) 1 (.full G') =
      targetPrecision τ (prior.sigmaSquared.getD 1) 1 (.full G) + prior.sigmaSquared.getD 1 • (G' - G) := by
    rw [targetPrecision_eq, targetPrecision_eq, smul_sub]; simp only [curvOf]; abel
  have hsym : ((targetPrecision τ (prior.sigmaSquared.getD 1) 1 (.full G))⁻¹)ᵀ = (targetPrecision τ (prior.sigmaSquared.getD 1) 1 (.full G))⁻¹ := by
    rw [← Matrix.conjTranspose_eq_transpose_of_trivial]; exact hpd.inv.isHermitian.eq
  have hrow : ∀ e : X × Y, jacobian (net.fn e.1) θ *ᵥ ((targetPrecision τ (prior.sigmaSquared.getD 1) 1 (.full G))⁻¹ *ᵥ jacobian (net.fn x) θ i) = k x e.1 i := by
    intro e
    have hk1 : k x e.1 = (k e.1 x)ᵀ := by
      rw [f3, f3, Matrix.transpose_mul, Matrix.transpose_mul, Matrix.transpose_transpose, Matrix.mul_assoc]
      congr 2
      exact hsym.symm
    rw [hk1, f3, Matrix.mulVec_mulVec]
    rfl
  have hlow : covAt net.fn θ (targetPrecision τ (prior.sigmaSquared.getD 1) 1 (.full G')) x i i ≤
      covAt net.fn θ (targetPrecision τ (prior.sigmaSquared.getD 1) 1 (.full G)) x i i := by
    rw [covAt_diag, covAt_diag]
    refine inv_antitone hpd hpd' ?_ _
    rw [hQ, add_sub_cancel_left]
    exact hle.smul hσ
  have hup : covAt net.fn θ (targetPrecision τ (prior.sigmaSquared.getD 1) 1 (.full G)) x i i ≤
      covAt net.fn θ (targetPrecision τ (prior.sigmaSquared.getD 1) 1 (.full G')) x i i +
        prior.sigmaSquared.getD 1 * ((numCurv : ℝ) / numTotal) * (extra.map fun e => k x e.1 i ⬝ᵥ H (k x e.1 i) (net.fn e.1 θ) e.2).sum := by
    rw [covAt_diag, covAt_diag]
    have := variance_decrease hpd (hQ ▸ hpd') (jacobian (net.fn x) θ i)
    rw [← hQ] at this
    refine this.trans_eq ?_
    congr 1
    have hD : ∀ v, (G' - G) *ᵥ v = ((numCurv : ℝ) / numTotal) • ggnSamples net.fn θ H extra v := fun v => by
      rw [Matrix.sub_mulVec, g2, g2', show ggnSamples net.fn θ H samples' v = ggnSamples net.fn θ H (samples ++ extra) v from (hperm.map _).sum_eq,
        ggnSamples, ggnSamples, ggnSamples, List.map_append, List.sum_append, smul_add, add_sub_cancel_left]
    rw [Matrix.smul_mulVec, hD, dotProduct_smul, dotProduct_smul, ggn_quad, smul_eq_mul, smul_eq_mul, mul_assoc]
    simp only [hrow]
  refine ⟨hlow, hup, fun h0 => le_antisymm hlow ?_⟩
  refine hup.trans_eq ?_
  have : (extra.map fun e => k x e.1 i ⬝ᵥ H (k x e.1 i) (net.fn e.1 θ) e.2).sum = 0 := by
    refine List.sum_eq_zero fun a ha => ?_
    obtain ⟨e, he, rfl⟩ := List.mem_map.1 ha
    have : k x e.1 i = 0 := funext fun j => h0 e he j
    rw [this, zero_dotProduct]
  rw [this, mul_zero, add_zero]

end

section
variable (lower : String → String) (rows : A → Except Err (List A)) (points : PyObj A → PyObj A → Except Err (List (X × Y)))
  (net : Net X p) (params : PyTree ℝ) (θ : Vec p) (data : PyObj A) (samples rest : List (X × Y)) (x : X) (ys : List Y) (hys : ys ≠ [])
  (hobs : samples.Perm ((ys.map fun y => (x, y)) ++ rest))
  (H : Vec (shapeSize net.shape) → Vec (shapeSize net.shape) → Y → Vec (shapeSize net.shape)) (curvType ct : EnumArg)
  (kind : EnumArg → LaplaceKind p) (hk : kind ct = .full) (numCurv numTotal : ℕ) (hC : numCurv ≠ 0) (hN : numTotal ≠ 0)
  (prior : PriorArgs) (τ : ℝ) (hτ : prior.priorPrec = some τ) (hτ0 : 0 < τ) (hσ : 0 < prior.sigmaSquared.getD 1)
  (pushforward predictive : EnumArg) (pr : String)
  (hpf : convertToEnum lower pushforwardValues false pushforward = .ok (.member "linear"))
  (hpr : convertToEnum lower predictiveValues false predictive = .ok (.member pr))
  (rng : Prng K) (hrng : RngOk rng) (custom : ℕ → PfStep X K p) (key : K) (S : ℕ) (hu : ApiUsable net.shape S pr)
include hys hobs hk hC hN hτ hτ0 hσ hpf hpr hrng hu

theorem observed_report (loss : String) (h : LaplaceCall lower points net.fn params θ data samples loss H curvType ct)
    (b : Fin (shapeSize net.shape) → ℝ) (hb : ∀ i, 0 < b i) (hH : ∀ y i z, b i * z i ^ 2 ≤ z ⬝ᵥ H z (net.fn x θ) y) :
    ∃ posteriorFn est, laplace lower rows points net.fn params data (.name loss) curvType kind numCurv numTotal = .ok (posteriorFn, est) ∧
      ∃ m V, Reports lower pushforward predictive ⟨rng, net, params, posteriorFn, custom, key, S⟩ prior x m V ∧
        ∀ i, V i < numTotal / (prior.sigmaSquared.getD 1 * numCurv * ys.length * b i) := by
  obtain ⟨G, g1, g2, g3⟩ := C47_laplace_curvature lower rows points net.fn params θ data samples loss H curvType ct h kind numCurv numTotal hN
  have r1 := reports (a := (⟨rng, net, params, fun q s => setPosteriorFn (.full G) (.tree params) q s, custom, key, S⟩ : PredictiveArgs X K p))
    (⟨hpf, hpr, hrng, h.hp, h.hwf, h.hθ, g1, rfl, hu⟩ : ApiLinear lower pushforward predictive pr _ θ (.full G)) prior hτ hτ0 hσ.le x
  refine ⟨fun q s => setPosteriorFn (.full G) (.tree params) q s, .full G, by rw [g3, hk]; rfl, _, _, r1, fun i => ?_⟩
  have hgood := goodLossHess_named loss H h.hH
  have hC0 : (0 : ℝ) < numCurv := by exact_mod_cast Nat.pos_of_ne_zero hC
  have hN0 : (0 : ℝ) < numTotal := by exact_mod_cast Nat.pos_of_ne_zero hN
  have hl0 : (0 : ℝ) < ys.length := by exact_mod_cast List.length_pos_of_ne_nil hys
  have hpd := targetPrecision_posDef (est := .full G) g1 hτ0 hσ.le
  have hbi := hb i
  show covAt net.fn θ _ x i i < _
  rw [covAt_diag]
  have := observed_variance hpd (jacobian (net.fn x) θ i)
    (a := prior.sigmaSquared.getD 1 * ((numCurv : ℝ) / numTotal * (ys.length * b i))) (by positivity) hτ0 fun u => ?_
  · refine this.trans_eq ?_
    field_simp
  · rw [targetPrecision_eq]
    simp only [curvOf]
    rw [Matrix.add_mulVec, Matrix.smul_mulVec, Matrix.smul_mulVec, Matrix.one_mulVec, dotProduct_add, dotProduct_smul, dotProduct_smul, smul_eq_mul, smul_eq_mul, g2,
      dotProduct_smul, smul_eq_mul, ggn_quad]
    have hsum : ys.length * b i * (u ⬝ᵥ jacobian (net.fn x) θ i) ^ 2 ≤
        (samples.map fun e => (jacobian (net.fn e.1) θ *ᵥ u) ⬝ᵥ H (jacobian (net.fn e.1) θ *ᵥ u) (net.fn e.1 θ) e.2).sum := by
      rw [(hobs.map _).sum_eq, List.map_append, List.sum_append, List.map_map]
      have h1 : (0 : ℝ) ≤ (rest.map fun e => (jacobian (net.fn e.1) θ *ᵥ u) ⬝ᵥ H (jacobian (net.fn e.1) θ *ᵥ u) (net.fn e.1 θ) e.2).sum := by
        refine List.sum_nonneg fun a ha => ?_
        obtain ⟨e, -, rfl⟩ := List.mem_map.1 ha
        exact hgood.psd _ _ _
      have h2 : (ys.length : ℝ) * (b i * (u ⬝ᵥ jacobian (net.fn x) θ i) ^ 2) ≤
          (ys.map ((fun e : X × Y => (jacobian (net.fn e.1) θ *ᵥ u) ⬝ᵥ H (jacobian (net.fn e.1) θ *ᵥ u) (net.fn e.1 θ) e.2) ∘ fun y => (x, y))).sum := by
        have := List.card_nsmul_le_sum (ys.map ((fun e : X × Y => (jacobian (net.fn e.1) θ *ᵥ u) ⬝ᵥ H (jacobian (net.fn e.1) θ *ᵥ u) (net.fn e.1 θ) e.2) ∘ fun y => (x, y)))
          (b i * (u ⬝ᵥ jacobian (net.fn x) θ i) ^ 2) fun a ha => ?_
        · rwa [List.length_map, nsmul_eq_mul] at this
        · obtain ⟨y, -, rfl⟩ := List.mem_map.1 ha
          refine le_trans (le_of_eq ?_) (hH y i (jacobian (net.fn x) θ *ᵥ u))
          rw [dotProduct_comm]; rfl
      rw [mul_assoc]
      linarith
    have h3 := mul_le_mul_of_nonneg_left hsum (by positivity : (0 : ℝ) ≤ prior.sigmaSquared.getD 1 * ((numCurv : ℝ) / numTotal))
    calc _ = prior.sigmaSquared.getD 1 * ((numCurv : ℝ) / numTotal) * (ys.length * b i * (u ⬝ᵥ jacobian (net.fn x) θ i) ^ 2) + τ * (u ⬝ᵥ u) := by ring
      _ ≤ _ := by rw [← mul_assoc]; linarith

/-- **C82 (training inputs, squared error).** For every model and data set: at an input that occurs `m ≥ 1` times in the data of the fit (loss `mse`,
curvature type FULL), every variance that the linearised predictive reports is below the noise variance `num_total/(2 σ² num_curv)` of a single observation
divided by `m`, whatever the prior precision. -/
theorem C82_observed_regression (h : LaplaceCall lower points net.fn params θ data samples "mse" H curvType ct) :
    ∃ posteriorFn est, laplace lower rows points net.fn params data (.name "mse") curvType kind numCurv numTotal = .ok (posteriorFn, est) ∧
      ∃ m V, Reports lower pushforward predictive ⟨rng, net, params, posteriorFn, custom, key, S⟩ prior x m V ∧
        ∀ i, V i < (numTotal / (2 * prior.sigmaSquared.getD 1 * numCurv)) / ys.length := by
  have hHm := mse_hessian' h.hH
  obtain ⟨posteriorFn, est, h1, m, V, h2, h3⟩ := observed_report lower rows points net params θ data samples rest x ys hys hobs H curvType ct kind hk numCurv numTotal
    hC hN prior τ hτ hτ0 hσ pushforward predictive pr hpf hpr rng hrng custom key S hu "mse" h (fun _ => 2) (fun _ => two_pos) (by
      intro y i z
      rw [hHm, dotProduct]
      refine le_trans (le_of_eq ?_) (Finset.single_le_sum (f := fun j => z j * mseHessianMv z j) (fun j _ => ?_) (Finset.mem_univ i))
      · simp only [mseHessianMv]; ring
      · simp only [mseHessianMv]; nlinarith [sq_nonneg (z j)])
  refine ⟨posteriorFn, est, h1, m, V, h2, fun i => (h3 i).trans_eq ?_⟩
  rw [div_div]
  congr 1; ring

/-- **C82 (training inputs, binary cross-entropy).** The same for the loss `binary_cross_entropy`: every reported logit variance at an input that occurs `m`
times is below `num_total/(σ² num_curv q (1 - q))/m`, where `q` is the predicted probability of that output. -/
theorem C82_observed_binary (h : LaplaceCall lower points net.fn params θ data samples "binary_cross_entropy" H curvType ct) :
    ∃ posteriorFn est, laplace lower rows points net.fn params data (.name "binary_cross_entropy") curvType kind numCurv numTotal = .ok (posteriorFn, est) ∧
      ∃ m V, Reports lower pushforward predictive ⟨rng, net, params, posteriorFn, custom, key, S⟩ prior x m V ∧
        ∀ i, V i < (numTotal / (prior.sigmaSquared.getD 1 * numCurv * (sigmoid (net.fn x θ i) * (1 - sigmoid (net.fn x θ i))))) / ys.length := by
  have hHm : H = fun jv pred _ => bceHessianMv jv pred := by
    have e : createLossHessianMv (.name "binary_cross_entropy" : LossArg (shapeSize net.shape) Y) = .ok (fun jv pred _ => bceHessianMv jv pred) := rfl
    have := h.hH
    rw [e, Except.ok.injEq] at this
    exact this.symm
  have hs : ∀ t : ℝ, 0 < sigmoid t * (1 - sigmoid t) := by
    intro t
    have := Real.exp_pos (-t)
    rw [sigmoid]
    refine mul_pos (by positivity) ?_
    rw [sub_pos, div_lt_one (by positivity)]
    linarith
  obtain ⟨posteriorFn, est, h1, m, V, h2, h3⟩ := observed_report lower rows points net params θ data samples rest x ys hys hobs H curvType ct kind hk numCurv numTotal
    hC hN prior τ hτ hτ0 hσ pushforward predictive pr hpf hpr rng hrng custom key S hu "binary_cross_entropy" h
    (fun i => sigmoid (net.fn x θ i) * (1 - sigmoid (net.fn x θ i))) (fun i => hs _) (by
      intro y i z
      rw [hHm, dotProduct]
      refine le_trans (le_of_eq ?_) (Finset.single_le_sum (f := fun j => z j * bceHessianMv z (net.fn x θ) j) (fun j _ => ?_) (Finset.mem_univ i))
      · simp only [bceHessianMv]; ring
      · simp only [bceHessianMv]
        have := mul_nonneg (hs (net.fn x θ j)).le (sq_nonneg (z j))
        nlinarith)
  refine ⟨posteriorFn, est, h1, m, V, h2, fun i => (h3 i).trans_eq ?_⟩
  rw [div_div]
  congr 1; ring

end

/-! ### Non-vacuity -/

/-- Two points, then a third one. -/
example : ∃ posteriorFn est posteriorFn' est' g dist, ∃ k : ℝ → ℝ → Matrix (Fin (shapeSize testNet.shape)) (Fin (shapeSize testNet.shape)) ℝ,
    laplace (fun s => s) (fun _ => .error .valueError) testPairs testNet.fn testMean (.tup [.arr [1, 2], .arr [4, 5]]) (.name "mse") (.str "full")
      (fun _ => .full) 1 1 = .ok (posteriorFn, est) ∧
    laplace (fun s => s) (fun _ => .error .valueError) testPairs testNet.fn testMean (.tup [.arr [3, 1, 2], .arr [6, 4, 5]]) (.name "mse") (.str "full")
      (fun _ => .full) 1 1 = .ok (posteriorFn', est') ∧
    setPosteriorGpKernel testRng testNet testMean posteriorFn ⟨some 1, none⟩ 1 true (.int (shapeSize testNet.shape)) {} = .ok (.dense g, dist) ∧
    (∀ x x', g x x' = .ok (.leaf (denseArr (k x x')))) ∧
    ∀ x, ∃ m V V',
      Reports (fun s => s) (.str "linear") (.member "none") ⟨testRng, testNet, testMean, posteriorFn, fun _ _ _ _ => .error .typeError, (), 3⟩ ⟨some 1, none⟩ x m V ∧
      Reports (fun s => s) (.str "linear") (.member "none") ⟨testRng, testNet, testMean, posteriorFn', fun _ _ _ _ => .error .typeError, (), 3⟩ ⟨some 1, none⟩ x m V' ∧
      ∀ i, V' i ≤ V i ∧ V i ≤ V' i + 1 * (((1 : ℕ) : ℝ) / (1 : ℕ)) * ([((3 : ℝ), (6 : ℝ))].map fun e => k x e.1 i ⬝ᵥ mseHessianMv (k x e.1 i)).sum ∧
        ((∀ e ∈ [((3 : ℝ), (6 : ℝ))], ∀ j, k x e.1 i j = 0) → V' i = V i) :=
  C82_influence (fun s => s) (fun _ => .error .valueError) testPairs testNet testMean ![3, 5] _ _ [(1, 4), (2, 5)] [(3, 6)] _
    (by simpa using (List.perm_append_comm (l₁ := [((3 : ℝ), (6 : ℝ))]) (l₂ := [(1, 4), (2, 5)])))
    (fun jv _ _ => mseHessianMv jv) _ _ (fun _ => .full) rfl 1 1 one_ne_zero "mse" (test_lists [1, 2] [4, 5]) (test_lists [3, 1, 2] [6, 4, 5])
    ⟨some 1, none⟩ 1 rfl one_pos (by norm_num) (.str "linear") (.member "none") "none" rfl rfl testRng testRng_ok _ () 3 (Or.inl rfl)
    rfl (by simp [testNet, shapeSize]) {} rfl

/-- The input 1 observed twice. -/
example : ∃ posteriorFn est,
    laplace (fun s => s) (fun _ => .error .valueError) testPairs testNet.fn testMean (.tup [.arr [1, 1, 2], .arr [4, 5, 6]]) (.name "mse") (.str "full")
      (fun _ => .full) 1 1 = .ok (posteriorFn, est) ∧
    ∃ m V, Reports (fun s => s) (.str "linear") (.member "none") ⟨testRng, testNet, testMean, posteriorFn, fun _ _ _ _ => .error .typeError, (), 3⟩
        ⟨some 1, none⟩ 1 m V ∧
      ∀ i, V i < (((1 : ℕ) : ℝ) / (2 * 1 * (1 : ℕ))) / ([(4 : ℝ), 5].length : ℕ) :=
  C82_observed_regression (fun s => s) (fun _ => .error .valueError) testPairs testNet testMean ![3, 5] _ _ [(2, 6)] 1 [4, 5] (by simp)
    (List.Perm.refl _) _ _ _ (fun _ => .full) rfl 1 1 one_ne_zero one_ne_zero ⟨some 1, none⟩ 1 rfl one_pos (by norm_num) (.str "linear") (.member "none") "none" rfl rfl
    testRng testRng_ok _ () 3 (Or.inl rfl) (test_lists [1, 1, 2] [4, 5, 6])

theorem test_binary (xs ys : List ℝ) : LaplaceCall (fun s => s) testPairs testNet.fn testMean ![3, 5] (.tup [.arr xs, .arr ys]) (xs.zip ys)
    "binary_cross_entropy" (fun jv pred _ => bceHessianMv jv pred) (.str "full") (.member "full") :=
  ⟨(test_lists xs ys).hp, (test_lists xs ys).hwf, (test_lists xs ys).hθ, (test_lists xs ys).hdata, (test_lists xs ys).hd, rfl, (test_lists xs ys).hct⟩

example : ∃ posteriorFn est,
    laplace (fun s => s) (fun _ => .error .valueError) testPairs testNet.fn testMean (.tup [.arr [1, 1, 2], .arr [0, 1, 1]]) (.name "binary_cross_entropy")
      (.str "full") (fun _ => .full) 1 1 = .ok (posteriorFn, est) ∧
    ∃ m V, Reports (fun s => s) (.str "linear") (.member "none") ⟨testRng, testNet, testMean, posteriorFn, fun _ _ _ _ => .error .typeError, (), 3⟩
        ⟨some 1, none⟩ 1 m V ∧
      ∀ i, V i < (((1 : ℕ) : ℝ) / (1 * (1 : ℕ) * (sigmoid (testNet.fn 1 ![3, 5] i) * (1 - sigmoid (testNet.fn 1 ![3, 5] i))))) / ([(0 : ℝ), 1].length : ℕ) :=
  C82_observed_binary (fun s => s) (fun _ => .error .valueError) testPairs testNet testMean ![3, 5] _ _ [(2, 1)] 1 [0, 1] (by simp)
    (List.Perm.refl _) _ _ _ (fun _ => .full) rfl 1 1 one_ne_zero one_ne_zero ⟨some 1, none⟩ 1 rfl one_pos (by norm_num) (.str "linear") (.member "none") "none" rfl rfl
    testRng testRng_ok _ () 3 (Or.inl rfl) (test_binary [1, 1, 2] [0, 1, 1])

/-- Conditioning a binary classifier on one more point, loss scaling 2. -/
example : ∃ posteriorFn est g dist posteriorFn' est' g' dist', ∃ k : ℝ → ℝ → Matrix (Fin (shapeSize testNet.shape)) (Fin (shapeSize testNet.shape)) ℝ,
    laplace (fun s => s) (fun _ => .error .valueError) testPairs testNet.fn testMean (.tup [.arr [1, 2], .arr [0, 1]]) (.name "binary_cross_entropy") (.str "full")
      (fun _ => .full) 1 1 = .ok (posteriorFn, est) ∧
    laplace (fun s => s) (fun _ => .error .valueError) testPairs testNet.fn testMean (.tup [.arr [1, 2, 3], .arr [0, 1, 1]]) (.name "binary_cross_entropy") (.str "full")
      (fun _ => .full) 1 1 = .ok (posteriorFn', est') ∧
    setPosteriorGpKernel testRng testNet testMean posteriorFn ⟨some 1, none⟩ 2 true (.int (shapeSize testNet.shape)) {} = .ok (.dense g, dist) ∧
    setPosteriorGpKernel testRng testNet testMean posteriorFn' ⟨some 1, none⟩ 2 true (.int (shapeSize testNet.shape)) {} = .ok (.dense g', dist') ∧
    ∀ x x', g x x' = .ok (.leaf (denseArr (k x x'))) ∧ g' x x' = .ok (.leaf (denseArr (gpCovLoss k (fun i => ([((3 : ℝ), (1 : ℝ))].get i).1)
      (lossHessians testNet.fn ![3, 5] (fun jv pred _ => bceHessianMv jv pred) (1 * ((1 : ℕ) / (1 : ℕ)) / 2) [((3 : ℝ), (1 : ℝ))].get) x x'))) :=
  C82_conditioning (fun s => s) (fun _ => .error .valueError) testPairs testNet testMean ![3, 5] _ _ [(1, 0), (2, 1)] [(3, 1)] _ (List.Perm.refl _)
    _ _ _ (fun _ => .full) rfl 1 1 one_ne_zero "binary_cross_entropy" (test_binary [1, 2] [0, 1]) (test_binary [1, 2, 3] [0, 1, 1])
    ⟨some 1, none⟩ 1 rfl one_pos (by norm_num) 2 two_pos testRng testRng_ok rfl (by simp [testNet, shapeSize]) {} rfl

end Laplax.Props
