import Verif.Spec.Uncertainty
import Verif.Props.Workflow

/-! # C62: more prior precision and more data never increase the reported uncertainty -/

namespace Laplax.Props
open Laplax Spec
open scoped BigOperators Matrix

variable {p c : ℕ} {A X Y K : Type}

theorem quad_inv_le {P : Matrix (Fin p) (Fin p) ℝ} (hP : P.PosDef) (u v : Vec p) :
    2 * (u ⬝ᵥ v) - u ⬝ᵥ P *ᵥ u ≤ v ⬝ᵥ P⁻¹ *ᵥ v := by
  have hdet : IsUnit P.det := (Matrix.isUnit_iff_isUnit_det P).1 hP.isUnit
  have h1 : P *ᵥ (P⁻¹ *ᵥ v) = v := by rw [Matrix.mulVec_mulVec, Matrix.mul_nonsing_inv _ hdet, Matrix.one_mulVec]
  have hsym : Pᵀ = P := by rw [← Matrix.conjTranspose_eq_transpose_of_trivial]; exact hP.isHermitian.eq
  have h2 := hP.posSemidef.dotProduct_mulVec_nonneg (u - P⁻¹ *ᵥ v)
  simp only [star_trivial, Matrix.mulVec_sub, h1, dotProduct_sub, sub_dotProduct] at h2
  have h3 : (P⁻¹ *ᵥ v) ⬝ᵥ P *ᵥ u = u ⬝ᵥ v := by
    rw [Matrix.dotProduct_mulVec, ← Matrix.mulVec_transpose, hsym, h1, dotProduct_comm]
  have h4 : (P⁻¹ *ᵥ v) ⬝ᵥ v = v ⬝ᵥ P⁻¹ *ᵥ v := dotProduct_comm _ _
  rw [h3, h4] at h2
  linarith

/-- Inversion reverses the order of positive definite matrices. -/
theorem inv_antitone {P Q : Matrix (Fin p) (Fin p) ℝ} (hP : P.PosDef) (hQ : Q.PosDef) (h : (Q - P).PosSemidef) (v : Vec p) :
    v ⬝ᵥ Q⁻¹ *ᵥ v ≤ v ⬝ᵥ P⁻¹ *ᵥ v := by
  have hdet : IsUnit Q.det := (Matrix.isUnit_iff_isUnit_det Q).1 hQ.isUnit
  have h1 : Q *ᵥ (Q⁻¹ *ᵥ v) = v := by rw [Matrix.mulVec_mulVec, Matrix.mul_nonsing_inv _ hdet, Matrix.one_mulVec]
  have h2 := quad_inv_le hP (Q⁻¹ *ᵥ v) v
  have h3 := h.dotProduct_mulVec_nonneg (Q⁻¹ *ᵥ v)
  simp only [star_trivial, Matrix.sub_mulVec, h1, dotProduct_sub] at h3
  have h4 : (Q⁻¹ *ᵥ v) ⬝ᵥ v = v ⬝ᵥ Q⁻¹ *ᵥ v := dotProduct_comm _ _
  rw [h4] at h2 h3
  linarith

theorem covAt_diag (f : X → Vec p → Vec c) (θ : Vec p) (P : Matrix (Fin p) (Fin p) ℝ) (x : X) (k : Fin c) :
    covAt f θ P x k k = jacobian (f x) θ k ⬝ᵥ P⁻¹ *ᵥ jacobian (f x) θ k := by
  rw [covAt, Matrix.mul_assoc, Matrix.mul_apply, dotProduct]
  rfl

theorem targetPrecision_eq (est : CurvEstimate p) (τ σ : ℝ) : targetPrecision τ σ 1 est = σ • curvOf est + τ • 1 := by
  cases est with
  | full G => simp [targetPrecision, precision, curvOf]
  | diagonal d => simp [targetPrecision, precision, curvOf]
  | lowRank t => simp [targetPrecision, curvOf, add_comm]

theorem curvOf_posSemidef {est : CurvEstimate p} (he : EstimatePsd est) : (curvOf est).PosSemidef := by
  cases est with
  | full G => exact he
  | diagonal d => exact Matrix.PosSemidef.diagonal he
  | lowRank t =>
    have : (Matrix.diagonal t.S).PosSemidef := Matrix.PosSemidef.diagonal he.2
    simpa [curvOf, Matrix.conjTranspose_eq_transpose_of_trivial] using this.mul_mul_conjTranspose_same t.U

theorem targetPrecision_posDef {est : CurvEstimate p} (he : EstimatePsd est) {τ σ : ℝ} (hτ : 0 < τ) (hσ : 0 ≤ σ) :
    (targetPrecision τ σ 1 est).PosDef := by
  rw [targetPrecision_eq]
  exact Matrix.PosDef.posSemidef_add ((curvOf_posSemidef he).smul hσ) (Matrix.PosDef.one.smul hτ)

/-- What the selected linearised predictive reports. -/
theorem reports {lower : String → String} {pushforward predictive : EnumArg} {pr : String} {a : PredictiveArgs X K p}
    {θ : Vec p} {est : CurvEstimate p} (h : ApiLinear lower pushforward predictive pr a θ est) (prior : PriorArgs) {τ : ℝ}
    (hτ : prior.priorPrec = some τ) (hτ0 : 0 < τ) (hσ : 0 ≤ prior.sigmaSquared.getD 1) (x : X) :
    Reports lower pushforward predictive a prior x (a.net.fn x θ)
      fun k => covAt a.net.fn θ (targetPrecision τ (prior.sigmaSquared.getD 1) 1 est) x k k := by
  obtain ⟨fns, eps, h1, -, h3⟩ := C51_linear_predictive lower pushforward predictive pr h.pushforward h.predictive a h.rng h.nonempty
    h.wf θ h.params est h.psd h.posterior h.usable
  obtain ⟨P, R, rfl, -, -, e3⟩ := h3 prior τ hτ hτ0 hσ
  obtain ⟨r, hr, hk⟩ := e3 x
  exact ⟨.lin, fns, r, h1, hr, by rw [hk]; simp [apiExpected], by rw [hk]; simp [apiExpected, covAt],
    by rw [hk]; simp [apiExpected, covAt]⟩

theorem var_le {f : X → Vec p → Vec c} {θ : Vec p} {P Q : Matrix (Fin p) (Fin p) ℝ} (hP : P.PosDef) (hQ : Q.PosDef)
    (h : (Q - P).PosSemidef) (x : X) (k : Fin c) : covAt f θ Q x k k ≤ covAt f θ P x k k := by
  rw [covAt_diag, covAt_diag]; exact inv_antitone hP hQ h _

theorem var_nonneg {f : X → Vec p → Vec c} {θ : Vec p} {P : Matrix (Fin p) (Fin p) ℝ} (hP : P.PosDef) (x : X) (k : Fin c) :
    0 ≤ covAt f θ P x k k := by
  rw [covAt_diag]; simpa using hP.inv.posSemidef.dotProduct_mulVec_nonneg (jacobian (f x) θ k)

theorem var_prior {f : X → Vec p → Vec c} {θ : Vec p} {τ : ℝ} (hτ : 0 < τ) (x : X) (k : Fin c) :
    covAt f θ (τ • (1 : Matrix (Fin p) (Fin p) ℝ)) x k k = (∑ j, jacobian (f x) θ k j ^ 2) / τ := by
  have : (τ • (1 : Matrix (Fin p) (Fin p) ℝ))⁻¹ = τ⁻¹ • 1 :=
    Matrix.inv_eq_right_inv (by rw [Matrix.smul_mul, Matrix.mul_smul, smul_smul, mul_inv_cancel₀ hτ.ne', one_smul, Matrix.one_mul])
  rw [covAt_diag, this, Matrix.smul_mulVec, Matrix.one_mulVec, dotProduct_smul, smul_eq_mul, dotProduct, div_eq_inv_mul]
  congr 1
  exact Finset.sum_congr rfl fun j _ => (sq _).symm

/-- **C62 (prior and noise arguments).** For every model, parameters, curvature estimate and input, the linearised predictive reports a
mean that does not depend on the prior arguments and non-negative variances that never grow when the prior precision or the weight
`sigma_squared` of the curvature grows, and that never exceed the variances `‖J_k‖²/τ` under the prior alone. -/
theorem C62_prior_arguments {lower : String → String} {pushforward predictive : EnumArg} {pr : String} {a : PredictiveArgs X K p}
    {θ : Vec p} {est : CurvEstimate p} (h : ApiLinear lower pushforward predictive pr a θ est) (prior prior' : PriorArgs) {τ τ' : ℝ}
    (hτ : prior.priorPrec = some τ) (hτ' : prior'.priorPrec = some τ') (hτ0 : 0 < τ) (hle : τ ≤ τ')
    (hσ : 0 ≤ prior.sigmaSquared.getD 1) (hσ' : prior.sigmaSquared.getD 1 ≤ prior'.sigmaSquared.getD 1) (x : X) :
    ∃ m V V', Reports lower pushforward predictive a prior x m V ∧ Reports lower pushforward predictive a prior' x m V' ∧
      ∀ k, 0 ≤ V' k ∧ V' k ≤ V k ∧ V k ≤ (∑ j, jacobian (a.net.fn x) θ k j ^ 2) / τ := by
  have hP := targetPrecision_posDef h.psd hτ0 hσ
  have hP' := targetPrecision_posDef h.psd (hτ0.trans_le hle) (hσ.trans hσ')
  refine ⟨_, _, _, reports h prior hτ hτ0 hσ x, reports h prior' hτ' (hτ0.trans_le hle) (hσ.trans hσ') x, fun k =>
    ⟨var_nonneg hP' x k, var_le hP hP' ?_ x k, ?_⟩⟩
  · have e : targetPrecision τ' (prior'.sigmaSquared.getD 1) 1 est - targetPrecision τ (prior.sigmaSquared.getD 1) 1 est =
        (prior'.sigmaSquared.getD 1 - prior.sigmaSquared.getD 1) • curvOf est + (τ' - τ) • 1 := by
      rw [targetPrecision_eq, targetPrecision_eq, sub_smul, sub_smul]; abel
    rw [e]
    exact ((curvOf_posSemidef h.psd).smul (sub_nonneg.2 hσ')).add (Matrix.PosSemidef.one.smul (sub_nonneg.2 hle))
  · rw [← var_prior hτ0]
    refine var_le (Matrix.PosDef.one.smul hτ0) hP ?_ x k
    rw [targetPrecision_eq, add_sub_cancel_right]
    exact (curvOf_posSemidef h.psd).smul hσ

/-- **C62 (curvature).** Of two positive semidefinite curvature estimates of the same model, the one that is larger (as a quadratic form)
reports the smaller variances. -/
theorem C62_larger_curvature {lower : String → String} {pushforward predictive : EnumArg} {pr : String} {a : PredictiveArgs X K p}
    {θ : Vec p} {est est' : CurvEstimate p} (h : ApiLinear lower pushforward predictive pr a θ est) (he' : EstimatePsd est')
    (hle : (curvOf est' - curvOf est).PosSemidef) (prior : PriorArgs) {τ : ℝ}
    (hτ : prior.priorPrec = some τ) (hτ0 : 0 < τ) (hσ : 0 ≤ prior.sigmaSquared.getD 1) (x : X) :
    ∃ m V V', Reports lower pushforward predictive a prior x m V ∧
      Reports lower pushforward predictive { a with posteriorFn := fun q s => setPosteriorFn est' (.tree a.params) q s } prior x m V' ∧
      ∀ k, V' k ≤ V k := by
  have h' : ApiLinear lower pushforward predictive pr
      ({ a with posteriorFn := fun q s => setPosteriorFn est' (.tree a.params) q s } : PredictiveArgs X K p) θ est' :=
    ⟨h.pushforward, h.predictive, h.rng, h.nonempty, h.wf, h.params, he', rfl, h.usable⟩
  refine ⟨_, _, _, reports h prior hτ hτ0 hσ x, reports h' prior hτ hτ0 hσ x, fun k =>
    var_le (targetPrecision_posDef h.psd hτ0 hσ) (targetPrecision_posDef he' hτ0 hσ) ?_ x k⟩
  rw [targetPrecision_eq, targetPrecision_eq, add_sub_add_right_eq_sub, ← smul_sub]
  exact hle.smul hσ

theorem eigenpairs_le {r : ℕ} {G : Matrix (Fin p) (Fin p) ℝ} (hG : G.PosSemidef) {t : LowRankTerms p r} (ht : EigenpairsOf G t) :
    (∀ k, 0 ≤ t.S k) ∧ (G - t.U * Matrix.diagonal t.S * t.Uᵀ).PosSemidef := by
  obtain ⟨h1, h2⟩ := ht
  have hsym : Gᵀ = G := by rw [← Matrix.conjTranspose_eq_transpose_of_trivial]; exact hG.isHermitian.eq
  have h3 : t.Uᵀ * G = Matrix.diagonal t.S * t.Uᵀ := by
    have := congrArg Matrix.transpose h2
    rwa [Matrix.transpose_mul, Matrix.transpose_mul, hsym, Matrix.diagonal_transpose] at this
  constructor
  · intro k
    have := (hG.conjTranspose_mul_mul_same t.U).diag_nonneg (i := k)
    rwa [Matrix.conjTranspose_eq_transpose_of_trivial, h3, Matrix.mul_assoc, h1, Matrix.mul_one, Matrix.diagonal_apply_eq] at this
  · have e : G - t.U * Matrix.diagonal t.S * t.Uᵀ = (1 - t.U * t.Uᵀ) * G * (1 - t.U * t.Uᵀ)ᴴ := by
      have e1 : (1 - t.U * t.Uᵀ) * G = G - t.U * Matrix.diagonal t.S * t.Uᵀ := by
        rw [Matrix.sub_mul, Matrix.one_mul, Matrix.mul_assoc t.U t.Uᵀ, h3, ← Matrix.mul_assoc]
      have e2 : G * (t.U * t.Uᵀ) = t.U * Matrix.diagonal t.S * t.Uᵀ := by rw [← Matrix.mul_assoc, h2]
      have e3 : t.U * Matrix.diagonal t.S * t.Uᵀ * (t.U * t.Uᵀ) = t.U * Matrix.diagonal t.S * t.Uᵀ := by
        rw [Matrix.mul_assoc (t.U * Matrix.diagonal t.S), ← Matrix.mul_assoc t.Uᵀ t.U, h1, Matrix.one_mul]
      rw [e1, Matrix.conjTranspose_eq_transpose_of_trivial, Matrix.transpose_sub, Matrix.transpose_one, Matrix.transpose_mul,
        Matrix.transpose_transpose, Matrix.mul_sub, Matrix.mul_one, Matrix.sub_mul, e2, e3, sub_self, sub_zero]
    rw [e]
    exact hG.mul_mul_conjTranspose_same _

/-- **C62 (low rank).** A low-rank posterior that keeps exact eigenpairs of the curvature never reports smaller variances than the full
posterior and never larger ones than the prior; keeping all eigenpairs gives exactly the report of the full posterior. -/
theorem C62_low_rank {lower : String → String} {pushforward predictive : EnumArg} {pr : String} {a : PredictiveArgs X K p}
    {θ : Vec p} {G : Matrix (Fin p) (Fin p) ℝ} (h : ApiLinear lower pushforward predictive pr a θ (.full G)) {r : ℕ}
    (t : LowRankTerms p r) (ht : EigenpairsOf G t) (prior : PriorArgs) {τ : ℝ}
    (hτ : prior.priorPrec = some τ) (hτ0 : 0 < τ) (hσ : 0 ≤ prior.sigmaSquared.getD 1) (x : X) :
    ∃ m V V', Reports lower pushforward predictive a prior x m V ∧
      Reports lower pushforward predictive { a with posteriorFn := fun q s => setPosteriorFn (.lowRank t) (.tree a.params) q s } prior x m V' ∧
      (∀ k, V k ≤ V' k ∧ V' k ≤ (∑ j, jacobian (a.net.fn x) θ k j ^ 2) / τ) ∧ (r = p → V' = V) := by
  obtain ⟨hS, hle⟩ := eigenpairs_le h.psd ht
  have h' : ApiLinear lower pushforward predictive pr
      ({ a with posteriorFn := fun q s => setPosteriorFn (.lowRank t) (.tree a.params) q s } : PredictiveArgs X K p) θ (.lowRank t) :=
    ⟨h.pushforward, h.predictive, h.rng, h.nonempty, h.wf, h.params, ⟨ht.1, hS⟩, rfl, h.usable⟩
  have hP := targetPrecision_posDef h.psd hτ0 hσ
  have hP' := targetPrecision_posDef h'.psd hτ0 hσ
  refine ⟨_, _, _, reports h prior hτ hτ0 hσ x, reports h' prior hτ hτ0 hσ x, fun k => ⟨var_le hP' hP ?_ x k, ?_⟩, ?_⟩
  · rw [targetPrecision_eq, targetPrecision_eq, add_sub_add_right_eq_sub, ← smul_sub]
    exact hle.smul hσ
  · rw [← var_prior hτ0]
    refine var_le (Matrix.PosDef.one.smul hτ0) hP' ?_ x k
    rw [targetPrecision_eq, add_sub_cancel_right]
    exact (curvOf_posSemidef h'.psd).smul hσ
  · rintro rfl
    have hU : t.U * t.Uᵀ = 1 := mul_eq_one_comm.1 ht.1
    have e : t.U * Matrix.diagonal t.S * t.Uᵀ = G := by rw [← ht.2, Matrix.mul_assoc, hU, Matrix.mul_one]
    funext k
    rw [targetPrecision_eq, targetPrecision_eq]
    simp only [curvOf, e]

/-- The curvature of two data sets, one containing the other. -/
theorem curvature_le {lower : String → String} {points : PyObj A → PyObj A → Except Err (List (X × Y))}
    {model : X → Vec p → Vec c} {params : PyTree ℝ} {θ : Vec p} {data : PyObj A} {samples extra : List (X × Y)} {loss : String}
    {H : Vec c → Vec c → Y → Vec c} {curvType ct : EnumArg} (h : LaplaceCall lower points model params θ data samples loss H curvType ct)
    (hd : ∀ s ∈ extra, DifferentiableAt ℝ (model s.1) θ) (f : ℝ) (hf : 0 ≤ f) (G G' : Matrix (Fin p) (Fin p) ℝ)
    (hG : ∀ v, G *ᵥ v = f • ggnSamples model θ H samples v) (hG' : ∀ v, G' *ᵥ v = f • ggnSamples model θ H (samples ++ extra) v) :
    (G' - G).PosSemidef := by
  have hgood := goodLossHess_named loss H h.hH
  have : G' - G = ggnMatrix model θ H hgood f extra := by
    apply Matrix.toLin'.injective
    apply LinearMap.ext; intro v
    rw [Matrix.toLin'_apply, Matrix.toLin'_apply, Matrix.sub_mulVec, hG, hG', ggnMatrix_mulVec, ← smul_sub]
    congr 1
    simp [ggnSamples]
  rw [this]
  exact ggnMatrix_posSemidef model θ H hgood f hf extra hd

/-- **C62 (more data).** Fitting with `laplace` on additional samples (with the same scaling `num_curv_samples/num_total_samples`; dense or
diagonal curvature; any batching and order) never increases a variance that the linearised predictive reports. -/
theorem C62_more_data (lower : String → String) (rows : A → Except Err (List A)) (points : PyObj A → PyObj A → Except Err (List (X × Y)))
    (net : Net X p) (params : PyTree ℝ) (θ : Vec p) (data data' : PyObj A) (samples extra samples' : List (X × Y))
    (hperm : samples'.Perm (samples ++ extra)) (loss : String) (H : Vec (shapeSize net.shape) → Vec (shapeSize net.shape) → Y → Vec (shapeSize net.shape))
    (curvType ct : EnumArg) (h : LaplaceCall lower points net.fn params θ data samples loss H curvType ct)
    (h' : LaplaceCall lower points net.fn params θ data' samples' loss H curvType ct)
    (kind : EnumArg → LaplaceKind p) (hk : kind ct = .full ∨ kind ct = .diagonal) (numCurv numTotal : ℕ) (hN : numTotal ≠ 0)
    (pushforward predictive : EnumArg) (pr : String)
    (hpf : convertToEnum lower pushforwardValues false pushforward = .ok (.member "linear"))
    (hpr : convertToEnum lower predictiveValues false predictive = .ok (.member pr))
    (rng : Prng K) (hrng : RngOk rng) (custom : ℕ → PfStep X K p) (key : K) (S : ℕ) (hu : ApiUsable net.shape S pr) :
    ∃ posteriorFn est posteriorFn' est',
      laplace lower rows points net.fn params data (.name loss) curvType kind numCurv numTotal = .ok (posteriorFn, est) ∧
      laplace lower rows points net.fn params data' (.name loss) curvType kind numCurv numTotal = .ok (posteriorFn', est') ∧
      ∀ (prior : PriorArgs) (τ : ℝ), prior.priorPrec = some τ → 0 < τ → 0 ≤ prior.sigmaSquared.getD 1 → ∀ x, ∃ m V V',
        Reports lower pushforward predictive ⟨rng, net, params, posteriorFn, custom, key, S⟩ prior x m V ∧
        Reports lower pushforward predictive ⟨rng, net, params, posteriorFn', custom, key, S⟩ prior x m V' ∧ ∀ k, V' k ≤ V k := by
  obtain ⟨G, g1, g2, g3⟩ := C47_laplace_curvature lower rows points net.fn params θ data samples loss H curvType ct h kind numCurv numTotal hN
  obtain ⟨G', g1', g2', g3'⟩ := C47_laplace_curvature lower rows points net.fn params θ data' samples' loss H curvType ct h' kind numCurv numTotal hN
  have hle : (G' - G).PosSemidef := by
    refine curvature_le (extra := extra) h (fun s hs => h'.hd s (hperm.mem_iff.2 (by simp [hs]))) ((numCurv : ℝ) / numTotal)
      (by positivity) G G' g2 fun v => ?_
    rw [g2', show ggnSamples net.fn θ H samples' v = ggnSamples net.fn θ H (samples ++ extra) v from (hperm.map _).sum_eq]
  have key : ∃ est est', estimateOf G (kind ct) = .ok est ∧ estimateOf G' (kind ct) = .ok est' ∧ EstimatePsd est ∧ EstimatePsd est' ∧
      (curvOf est' - curvOf est).PosSemidef := by
    rcases hk with e | e
    · exact ⟨.full G, .full G', by rw [e]; rfl, by rw [e]; rfl, g1, g1', hle⟩
    · refine ⟨.diagonal fun i => G i i, .diagonal fun i => G' i i, by rw [e]; rfl, by rw [e]; rfl, posSemidef_diag_nonneg g1, posSemidef_diag_nonneg g1', ?_⟩
      simp only [curvOf, Matrix.diagonal_sub]
      exact Matrix.PosSemidef.diagonal fun i => posSemidef_diag_nonneg hle i
  obtain ⟨est, est', k1, k2, k3, k4, k5⟩ := key
  refine ⟨_, est, _, est', by rw [g3, k1]; rfl, by rw [g3', k2]; rfl, fun prior τ hτ hτ0 hσ x => ?_⟩
  exact C62_larger_curvature (a := ⟨rng, net, params, fun q s => setPosteriorFn est (.tree params) q s, custom, key, S⟩) (θ := θ)
    ⟨hpf, hpr, hrng, h.hp, h.hwf, h.hθ, k3, rfl, hu⟩ k4 k5 prior hτ hτ0 hσ x

/-! ### Non-vacuity -/

example : ∃ m V V', Reports (fun s => if s = "Linear" then "linear" else s) (.str "Linear") (.member "none") testArgs ⟨some 1, none⟩ 2 m V ∧
    Reports (fun s => if s = "Linear" then "linear" else s) (.str "Linear") (.member "none") testArgs ⟨some 4, some 2⟩ 2 m V' ∧
    ∀ k, 0 ≤ V' k ∧ V' k ≤ V k ∧ V k ≤ (∑ j, jacobian (testArgs.net.fn 2) ![3, 5] k j ^ 2) / 1 :=
  C62_prior_arguments test_apiLinear ⟨some 1, none⟩ ⟨some 4, some 2⟩ rfl rfl one_pos (by norm_num) (by norm_num) (by norm_num) 2

/-- One of the two eigenpairs of `!![2, 2; 2, 2]`. -/
noncomputable def testPair : LowRankTerms 2 1 := ⟨Matrix.of fun _ _ => 1 / Real.sqrt 2, fun _ => 4, 1⟩

theorem test_eigenpair : EigenpairsOf !![2, 2; 2, 2] testPair := by
  have h2 : Real.sqrt 2 * Real.sqrt 2 = 2 := Real.mul_self_sqrt (by norm_num)
  have h0 : Real.sqrt 2 ≠ 0 := by positivity
  constructor
  · ext i j
    fin_cases i; fin_cases j
    simp [testPair, Matrix.mul_apply, Fin.sum_univ_two]
    field_simp
    nlinarith
  · ext i j
    fin_cases j
    fin_cases i <;> simp [testPair, Matrix.mul_apply, Fin.sum_univ_two] <;> ring

example : ∃ m V V', Reports (fun s => if s = "Linear" then "linear" else s) (.str "Linear") (.member "none") testArgs ⟨some 1, none⟩ 2 m V ∧
    Reports (fun s => if s = "Linear" then "linear" else s) (.str "Linear") (.member "none")
      { testArgs with posteriorFn := fun q s => setPosteriorFn (.lowRank testPair) (.tree testArgs.params) q s } ⟨some 1, none⟩ 2 m V' ∧
    (∀ k, V k ≤ V' k ∧ V' k ≤ (∑ j, jacobian (testArgs.net.fn 2) ![3, 5] k j ^ 2) / 1) ∧ (1 = 2 → V' = V) :=
  C62_low_rank test_apiLinear _ test_eigenpair ⟨some 1, none⟩ rfl one_pos (by norm_num) 2

/-- A second fit with one more sample, in one batch and in another order. -/
theorem test_train_more : LaplaceCall (fun s => if s = "Linear" then "linear" else s) testTrainPoints testNet.fn testMean ![3, 5]
    (.tup [.arr [4, 1, 2, 3], .arr []]) [(4, ()), (1, ()), (2, ()), (3, ())] "mse"
    (fun jv _ _ => mseHessianMv jv) (.str "full") (.member "full") := by
  refine ⟨by norm_num, testMean_wf, by simp [testMean, entries, Tree.leaves, Tree.leavesL], ?_, fun s _ => testNet_differentiable _ _, rfl, rfl⟩
  refine ⟨[(.arr [4, 1, 2, 3], .arr [])], fun xy => (testTrainPoints xy.1 xy.2).toOption.getD [],
    DataOf.single _ _ (BatchOf.pair _ _), ?_, rfl⟩
  intro xy hxy; simp at hxy; subst hxy; rfl

example : ∃ posteriorFn est posteriorFn' est',
    laplace (fun s => if s = "Linear" then "linear" else s) (fun _ => .error .valueError) testTrainPoints testNet.fn testMean
      (.iter (.reiterable [.tup [.arr [1, 2], .arr [4, 5, 6, 7]], .tup [.arr [3], .arr [8, 9]]])) (.name "mse") (.str "full") (fun _ => .full) 1 1 =
        .ok (posteriorFn, est) ∧
    laplace (fun s => if s = "Linear" then "linear" else s) (fun _ => .error .valueError) testTrainPoints testNet.fn testMean
      (.tup [.arr [4, 1, 2, 3], .arr []]) (.name "mse") (.str "full") (fun _ => .full) 1 1 = .ok (posteriorFn', est') ∧
    ∃ m V V', Reports (fun s => if s = "Linear" then "linear" else s) (.str "Linear") (.member "none")
        ⟨testRng, testNet, testMean, posteriorFn, fun _ _ _ _ => .error .typeError, (), 3⟩ ⟨some 1, none⟩ 2 m V ∧
      Reports (fun s => if s = "Linear" then "linear" else s) (.str "Linear") (.member "none")
        ⟨testRng, testNet, testMean, posteriorFn', fun _ _ _ _ => .error .typeError, (), 3⟩ ⟨some 1, none⟩ 2 m V' ∧ ∀ k, V' k ≤ V k := by
  obtain ⟨f, e, f', e', h1, h2, h3⟩ := C62_more_data (fun s => if s = "Linear" then "linear" else s) (fun _ => .error .valueError) testTrainPoints
    testNet testMean ![3, 5] _ _ [(1, ()), (2, ()), (3, ())] [(4, ())] _
    (List.perm_append_comm (l₁ := [((4 : ℝ), ())]) (l₂ := [(1, ()), (2, ()), (3, ())])) "mse" _ _ _
    test_train test_train_more (fun _ => .full) (Or.inl rfl) 1 1 (by norm_num) (.str "Linear") (.member "none") "none" rfl rfl testRng testRng_ok
    (fun _ _ _ _ => .error .typeError) () 3 (Or.inl rfl)
  exact ⟨f, e, f', e', h1, h2, h3 ⟨some 1, none⟩ 1 rfl one_pos (by norm_num) 2⟩

end Laplax.Props
