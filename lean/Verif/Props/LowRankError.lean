import Verif.Props.Uncertainty
import Verif.Props.DiagonalVsFull
import Verif.Props.WorkflowLowRank
import Verif.Spec.LowRankError

/-! # C79: how far a low-rank posterior is from the full one -/

namespace Laplax.Props
open Laplax Spec
open scoped BigOperators Matrix

variable {p c : ℕ} {A X Y K : Type}

/-- The truncated covariance against the full one, as quadratic forms. -/
theorem truncation_gap {r : ℕ} {G : Matrix (Fin p) (Fin p) ℝ} (hG : G.PosSemidef) {t : LowRankTerms p r} (ht : EigenpairsOf G t) {δ τ σ : ℝ}
    (hδ0 : 0 ≤ δ) (hδ : RestAtMost G t δ) (hτ : 0 < τ) (hσ : 0 ≤ σ) (v : Vec p) :
    v ⬝ᵥ (targetPrecision τ σ 1 (.lowRank t))⁻¹ *ᵥ v ≤
      v ⬝ᵥ (targetPrecision τ σ 1 (.full G))⁻¹ *ᵥ v + (1 / τ - 1 / (τ + σ * δ)) * (v ⬝ᵥ v) := by
  obtain ⟨hS, hle⟩ := eigenpairs_le hG ht
  have hP := targetPrecision_posDef (est := .full G) hG hτ hσ
  have hQ := targetPrecision_posDef (est := .lowRank t) ⟨ht.1, hS⟩ hτ hσ
  obtain ⟨P, hPe⟩ : ∃ P, P = targetPrecision τ σ 1 (.full G) := ⟨_, rfl⟩
  obtain ⟨Q, hQe⟩ : ∃ Q, Q = targetPrecision τ σ 1 (.lowRank t) := ⟨_, rfl⟩
  rw [← hPe] at hP ⊢
  rw [← hQe] at hQ ⊢
  have hP1 : P = σ • G + τ • 1 := by rw [hPe, targetPrecision_eq]; rfl
  have hQ1 : Q = σ • (t.U * Matrix.diagonal t.S * t.Uᵀ) + τ • 1 := by rw [hQe, targetPrecision_eq]; rfl
  obtain ⟨h1, h2⟩ := ht
  have hpos : ∀ k, 0 < τ + σ * t.S k := fun k => by have := mul_nonneg hσ (hS k); linarith
  have ha : 0 < τ + σ * δ := by have := mul_nonneg hσ hδ0; linarith
  -- the kept part
  let D : Matrix (Fin r) (Fin r) ℝ := Matrix.diagonal fun k => (τ + σ * t.S k)⁻¹
  have hPU : P * t.U = t.U * Matrix.diagonal fun k => τ + σ * t.S k := by
    rw [hP1, Matrix.add_mul, Matrix.smul_mul, Matrix.smul_mul, h2, Matrix.one_mul]
    ext i k
    simp
    ring
  have hQU : Q * t.U = t.U * Matrix.diagonal fun k => τ + σ * t.S k := by
    rw [hQ1, Matrix.add_mul, Matrix.smul_mul, Matrix.smul_mul, Matrix.mul_assoc, h1, Matrix.mul_one, Matrix.one_mul]
    ext i k
    simp
    ring
  have hDD : (Matrix.diagonal fun k => τ + σ * t.S k) * D = 1 := by
    rw [Matrix.diagonal_mul_diagonal, ← Matrix.diagonal_one]
    congr 1; funext k; exact mul_inv_cancel₀ (hpos k).ne'
  obtain ⟨z, hz⟩ : ∃ z, z = t.U *ᵥ (D *ᵥ (t.Uᵀ *ᵥ v)) := ⟨_, rfl⟩
  obtain ⟨u, hu⟩ : ∃ u, u = t.U *ᵥ (t.Uᵀ *ᵥ v) := ⟨_, rfl⟩
  obtain ⟨w, hw⟩ : ∃ w, w = v - u := ⟨_, rfl⟩
  have hPz : P *ᵥ z = u := by
    rw [hz, hu, Matrix.mulVec_mulVec, hPU, Matrix.mulVec_mulVec, Matrix.mul_assoc, hDD, Matrix.mul_one]
  have hQz : Q *ᵥ z = u := by
    rw [hz, hu, Matrix.mulVec_mulVec, hQU, Matrix.mulVec_mulVec, Matrix.mul_assoc, hDD, Matrix.mul_one]
  have hUw : t.Uᵀ *ᵥ w = 0 := by
    rw [hw, hu, Matrix.mulVec_sub, Matrix.mulVec_mulVec, h1, Matrix.one_mulVec, sub_self]
  have hUdot : ∀ y : Vec r, (t.U *ᵥ y) ⬝ᵥ w = 0 := fun y => by
    rw [dotProduct_comm, Matrix.dotProduct_mulVec, ← Matrix.mulVec_transpose, hUw, zero_dotProduct]
  have huw : u ⬝ᵥ w = 0 := by rw [hu]; exact hUdot _
  have hzw : z ⬝ᵥ w = 0 := by rw [hz]; exact hUdot _
  have hv : v = u + w := by rw [hw]; abel
  have hvw : v ⬝ᵥ w = w ⬝ᵥ w := by conv_lhs => rw [hv, add_dotProduct, huw, zero_add]
  have hvv : v ⬝ᵥ v = u ⬝ᵥ u + w ⬝ᵥ w := by
    conv_lhs => rw [hv, dotProduct_add, add_dotProduct, add_dotProduct, huw, dotProduct_comm w u, huw]
    ring
  have hQw : Q *ᵥ w = τ • w := by
    rw [hQ1, Matrix.add_mulVec, Matrix.smul_mulVec, Matrix.smul_mulVec, Matrix.one_mulVec, ← Matrix.mulVec_mulVec, hUw, Matrix.mulVec_zero,
      smul_zero, zero_add]
  have hPd : IsUnit P.det := (Matrix.isUnit_iff_isUnit_det P).1 hP.isUnit
  have hQd : IsUnit Q.det := (Matrix.isUnit_iff_isUnit_det Q).1 hQ.isUnit
  have hQinv : Q⁻¹ *ᵥ v = z + τ⁻¹ • w := by
    have e : Q *ᵥ (z + τ⁻¹ • w) = v := by
      rw [Matrix.mulVec_add, hQz, Matrix.mulVec_smul, hQw, smul_smul, inv_mul_cancel₀ hτ.ne', one_smul, ← hv]
    rw [← e, Matrix.mulVec_mulVec, Matrix.nonsing_inv_mul _ hQd, Matrix.one_mulVec]
  have hPinv : P⁻¹ *ᵥ v = z + P⁻¹ *ᵥ w := by
    have e : P *ᵥ (z + P⁻¹ *ᵥ w) = v := by
      rw [Matrix.mulVec_add, hPz, Matrix.mulVec_mulVec, Matrix.mul_nonsing_inv _ hPd, Matrix.one_mulVec, ← hv]
    conv_lhs => rw [← e, Matrix.mulVec_mulVec, Matrix.nonsing_inv_mul _ hPd, Matrix.one_mulVec]
  have hPsym : Pᵀ = P := by rw [← Matrix.conjTranspose_eq_transpose_of_trivial]; exact hP.isHermitian.eq
  have hcross : u ⬝ᵥ P⁻¹ *ᵥ w = 0 := by
    rw [← hPz, ← hzw, dotProduct_comm (P *ᵥ z), Matrix.dotProduct_mulVec, ← Matrix.mulVec_transpose, hPsym, Matrix.mulVec_mulVec,
      Matrix.mul_nonsing_inv _ hPd, Matrix.one_mulVec, dotProduct_comm]
  have hww : (w ⬝ᵥ w) / (τ + σ * δ) ≤ w ⬝ᵥ P⁻¹ *ᵥ w := by
    have hq := quad_inv_le hP ((τ + σ * δ)⁻¹ • w) w
    have hr : w ⬝ᵥ P *ᵥ w ≤ (τ + σ * δ) * (w ⬝ᵥ w) := by
      rw [hP1, Matrix.add_mulVec, Matrix.smul_mulVec, Matrix.smul_mulVec, Matrix.one_mulVec, dotProduct_add, dotProduct_smul, dotProduct_smul,
        smul_eq_mul, smul_eq_mul]
      have := mul_le_mul_of_nonneg_left (hδ w hUw) hσ
      linarith
    simp only [smul_dotProduct, Matrix.mulVec_smul, dotProduct_smul, smul_eq_mul] at hq
    have h5 : (τ + σ * δ)⁻¹ * ((τ + σ * δ)⁻¹ * (w ⬝ᵥ P *ᵥ w)) ≤ (τ + σ * δ)⁻¹ * ((τ + σ * δ)⁻¹ * ((τ + σ * δ) * (w ⬝ᵥ w))) :=
      mul_le_mul_of_nonneg_left (mul_le_mul_of_nonneg_left hr (inv_pos.2 ha).le) (inv_pos.2 ha).le
    rw [← mul_assoc (τ + σ * δ)⁻¹ (τ + σ * δ), inv_mul_cancel₀ ha.ne', one_mul] at h5
    rw [div_eq_inv_mul]
    linarith
  have hgap : 0 ≤ 1 / τ - 1 / (τ + σ * δ) := by
    rw [sub_nonneg]
    exact one_div_le_one_div_of_le hτ (by have := mul_nonneg hσ hδ0; linarith)
  have huu : 0 ≤ u ⬝ᵥ u := by simpa using dotProduct_star_self_nonneg u
  have hlast : v ⬝ᵥ P⁻¹ *ᵥ w = w ⬝ᵥ P⁻¹ *ᵥ w := by conv_lhs => rw [hv, add_dotProduct, hcross, zero_add]
  rw [hQinv, hPinv, dotProduct_add, dotProduct_add, dotProduct_smul, hvw, hlast, hvv, smul_eq_mul]
  have := mul_nonneg hgap huu
  have e : (1 / τ - 1 / (τ + σ * δ)) * (u ⬝ᵥ u + w ⬝ᵥ w) =
    (1 / τ - 1 / (τ + σ * δ)) * (u ⬝ᵥ u) + (τ⁻¹ * (w ⬝ᵥ w) - (w ⬝ᵥ w) / (τ + σ * δ)) := by
    field_simp
  rw [e]
  linarith

/-- Keeping more eigenpairs keeps more curvature. -/
theorem keeps_more_le {r r' : ℕ} {t : LowRankTerms p r} {t' : LowRankTerms p r'} (hS' : ∀ k, 0 ≤ t'.S k) (h : KeepsMore t t') :
    (curvOf (.lowRank t') - curvOf (.lowRank t)).PosSemidef := by
  obtain ⟨e, he, hk⟩ := h
  have hent : ∀ {m : ℕ} (q : LowRankTerms p m) (i j : Fin p), (q.U * Matrix.diagonal q.S * q.Uᵀ) i j = ∑ k, q.U i k * q.S k * q.U j k := by
    intro m q i j
    rw [Matrix.mul_apply]
    exact Finset.sum_congr rfl fun k _ => by rw [Matrix.mul_diagonal, Matrix.transpose_apply]
  let d : Fin r' → ℝ := fun k => if k ∈ Finset.univ.image e then 0 else t'.S k
  have hd : ∀ k, 0 ≤ d k := fun k => by
    by_cases hk : k ∈ Finset.univ.image e
    · simp only [d, if_pos hk]; exact le_rfl
    · simp only [d, if_neg hk]; exact hS' k
  have e1 : curvOf (.lowRank t') - curvOf (.lowRank t) = t'.U * Matrix.diagonal d * t'.Uᴴ := by
    ext i j
    rw [Matrix.conjTranspose_eq_transpose_of_trivial, Matrix.sub_apply]
    simp only [curvOf]
    rw [hent t', hent t, show (t'.U * Matrix.diagonal d * t'.Uᵀ) i j = ∑ k, t'.U i k * d k * t'.U j k from hent ⟨t'.U, d, 0⟩ i j, sub_eq_iff_eq_add]
    have e2 : ∑ k, t.U i k * t.S k * t.U j k = ∑ k ∈ Finset.univ.image e, t'.U i k * t'.S k * t'.U j k := by
      rw [Finset.sum_image fun a _ b _ hab => he hab]
      exact Finset.sum_congr rfl fun k _ => by rw [(hk k).1, (hk k).1, (hk k).2]
    have e3 : ∑ k ∈ Finset.univ.image e, t'.U i k * t'.S k * t'.U j k =
        ∑ k, if k ∈ Finset.univ.image e then t'.U i k * t'.S k * t'.U j k else 0 := by
      rw [Finset.sum_ite_mem, Finset.univ_inter]
    rw [e2, e3, ← Finset.sum_add_distrib]
    refine Finset.sum_congr rfl fun k _ => ?_
    by_cases hk : k ∈ Finset.univ.image e
    · simp only [d, if_pos hk]; ring
    · simp only [d, if_neg hk]; ring
  rw [e1]
  exact (Matrix.PosSemidef.diagonal hd).mul_mul_conjTranspose_same _

/-- `1 + M` has determinant at least one. -/
theorem one_le_det_one_add {M : Matrix (Fin p) (Fin p) ℝ} (hM : M.PosSemidef) : 1 ≤ (1 + M).det := by
  have hpd : (1 + M).PosDef := Matrix.PosDef.one.add_posSemidef hM
  rw [hpd.isHermitian.det_eq_prod_eigenvalues]
  simp only [RCLike.ofReal_real_eq_id, id]
  have key : ∀ i, 1 ≤ hpd.isHermitian.eigenvalues i := fun i => by
    have hn : (hpd.isHermitian.eigenvectorBasis i).ofLp ⬝ᵥ (hpd.isHermitian.eigenvectorBasis i).ofLp = 1 := by
      have h := hpd.isHermitian.eigenvectorBasis.orthonormal.1 i
      have h2 := EuclideanSpace.real_norm_sq_eq (hpd.isHermitian.eigenvectorBasis i)
      rw [h, one_pow] at h2
      rw [dotProduct, h2]
      exact Finset.sum_congr rfl fun j _ => (sq _).symm
    rw [hpd.isHermitian.eigenvalues_eq i]
    simp only [star_trivial, Matrix.add_mulVec, Matrix.one_mulVec, dotProduct_add, hn, RCLike.re_to_real]
    have := hM.dotProduct_mulVec_nonneg (hpd.isHermitian.eigenvectorBasis i).ofLp
    simp only [star_trivial] at this
    linarith
  calc (1 : ℝ) = ∏ _i : Fin p, (1 : ℝ) := by simp
    _ ≤ _ := Finset.prod_le_prod (fun _ _ => zero_le_one) fun i _ => key i

/-- The determinant of the full precision is at least the truncated one. -/
theorem truncation_det {r : ℕ} {G : Matrix (Fin p) (Fin p) ℝ} (hG : G.PosSemidef) {t : LowRankTerms p r} (ht : EigenpairsOf G t) {τ σ : ℝ}
    (hτ : 0 < τ) (hσ : 0 ≤ σ) : (targetPrecision τ σ 1 (.lowRank t)).det ≤ (targetPrecision τ σ 1 (.full G)).det := by
  obtain ⟨hS, hle⟩ := eigenpairs_le hG ht
  have hQ := targetPrecision_posDef (est := .lowRank t) ⟨ht.1, hS⟩ hτ hσ
  obtain ⟨h1, h2⟩ := ht
  have hsym : Gᵀ = G := by rw [← Matrix.conjTranspose_eq_transpose_of_trivial]; exact hG.isHermitian.eq
  have h3 : t.Uᵀ * G = Matrix.diagonal t.S * t.Uᵀ := by
    have := congrArg Matrix.transpose h2
    rwa [Matrix.transpose_mul, Matrix.transpose_mul, hsym, Matrix.diagonal_transpose] at this
  obtain ⟨R, hR⟩ : ∃ R, R = G - t.U * Matrix.diagonal t.S * t.Uᵀ := ⟨_, rfl⟩
  rw [← hR] at hle
  have hUR : t.Uᵀ * R = 0 := by
    rw [hR, Matrix.mul_sub, h3, ← Matrix.mul_assoc, ← Matrix.mul_assoc, h1, Matrix.one_mul, sub_self]
  have e : targetPrecision τ σ 1 (.full G) = targetPrecision τ σ 1 (.lowRank t) * (1 + (σ * τ⁻¹) • R) := by
    rw [targetPrecision_eq, targetPrecision_eq, Matrix.mul_add, Matrix.mul_one, Matrix.add_mul]
    simp only [curvOf]
    have e0 : t.U * Matrix.diagonal t.S * t.Uᵀ * R = 0 := by rw [Matrix.mul_assoc, hUR, Matrix.mul_zero]
    rw [Matrix.mul_smul, Matrix.smul_mul, e0, smul_zero, smul_zero, zero_add, Matrix.smul_mul, Matrix.one_mul, smul_smul,
      show τ * (σ * τ⁻¹) = σ by field_simp, hR, smul_sub]
    abel
  rw [e, Matrix.det_mul]
  exact le_mul_of_one_le_right hQ.det_pos.le (one_le_det_one_add (hle.smul (mul_nonneg hσ (inv_pos.2 hτ).le)))

section
variable (lower : String → String) (rows : A → Except Err (List A)) (points : PyObj A → PyObj A → Except Err (List (X × Y)))
  (net : Net X p) (params : PyTree ℝ) (θ : Vec p) (data : PyObj A) (samples : List (X × Y)) (loss : String)
  (H : Vec (shapeSize net.shape) → Vec (shapeSize net.shape) → Y → Vec (shapeSize net.shape)) (full fullE low lowE more moreE : EnumArg)
  (kind : EnumArg → LaplaceKind p) (numCurv numTotal : ℕ)

theorem curvature_unique {G G' : Matrix (Fin p) (Fin p) ℝ} {f : Vec p → Vec p} (h : ∀ v, G *ᵥ v = f v) (h' : ∀ v, G' *ᵥ v = f v) : G' = G := by
  apply Matrix.toLin'.injective
  apply LinearMap.ext; intro v
  rw [Matrix.toLin'_apply, Matrix.toLin'_apply, h, h']

/-- **C79 (predictive variances).** Fit the same model, data and loss with the full curvature `G` and with a low-rank estimate that keeps exact
eigenpairs of `G` and leaves out curvature of at most `δ`.  At every input both linearised predictives report the same mean, the low-rank
variances are never smaller than the full ones, and never larger by more than `(1/τ - 1/(τ + σ² δ)) ‖J_k‖²`. -/
theorem C79_predictive_variances (h : LaplaceCall lower points net.fn params θ data samples loss H full fullE)
    (h' : LaplaceCall lower points net.fn params θ data samples loss H low lowE) {r : ℕ} (alg : MvAlg p r) (t : LowRankTerms p r)
    (hk : kind fullE = .full) (hk' : kind lowE = .lowRank r alg) (hN : numTotal ≠ 0)
    (G : Matrix (Fin p) (Fin p) ℝ) (hG : ∀ v, G *ᵥ v = ((numCurv : ℝ) / numTotal) • ggnSamples net.fn θ H samples v)
    (hrun : runAlg G alg = .ok t) (ht : EigenpairsOf G t) {δ : ℝ} (hδ0 : 0 ≤ δ) (hδ : RestAtMost G t δ)
    (pushforward predictive : EnumArg) (pr : String)
    (hpf : convertToEnum lower pushforwardValues false pushforward = .ok (.member "linear"))
    (hpr : convertToEnum lower predictiveValues false predictive = .ok (.member pr))
    (rng : Prng K) (hrng : RngOk rng) (custom : ℕ → PfStep X K p) (key : K) (S : ℕ) (hu : ApiUsable net.shape S pr) :
    ∃ posteriorFn est posteriorFn' est',
      laplace lower rows points net.fn params data (.name loss) full kind numCurv numTotal = .ok (posteriorFn, est) ∧
      laplace lower rows points net.fn params data (.name loss) low kind numCurv numTotal = .ok (posteriorFn', est') ∧
      ∀ (prior : PriorArgs) (τ : ℝ), prior.priorPrec = some τ → 0 < τ → 0 ≤ prior.sigmaSquared.getD 1 → ∀ x, ∃ m V V',
        Reports lower pushforward predictive ⟨rng, net, params, posteriorFn, custom, key, S⟩ prior x m V ∧
        Reports lower pushforward predictive ⟨rng, net, params, posteriorFn', custom, key, S⟩ prior x m V' ∧
        ∀ k, V k ≤ V' k ∧
          V' k ≤ V k + (1 / τ - 1 / (τ + prior.sigmaSquared.getD 1 * δ)) * ∑ j, jacobian (net.fn x) θ k j ^ 2 := by
  obtain ⟨G1, g1, g2, g3⟩ := C47_laplace_curvature lower rows points net.fn params θ data samples loss H full fullE h kind numCurv numTotal hN
  obtain ⟨G2, g1', g2', g3'⟩ := C47_laplace_curvature lower rows points net.fn params θ data samples loss H low lowE h' kind numCurv numTotal hN
  obtain rfl := curvature_unique hG g2
  obtain rfl := curvature_unique hG g2'
  obtain ⟨hS, hle⟩ := eigenpairs_le g1 ht
  refine ⟨_, .full G2, _, .lowRank t, by rw [g3, hk]; rfl, by rw [g3', hk', estimateOf, hrun]; rfl, fun prior τ hτ hτ0 hσ x => ?_⟩
  have a1 : ApiLinear lower pushforward predictive pr
      (⟨rng, net, params, fun q s => setPosteriorFn (.full G2) (.tree params) q s, custom, key, S⟩ : PredictiveArgs X K p) θ (.full G2) :=
    ⟨hpf, hpr, hrng, h.hp, h.hwf, h.hθ, g1, rfl, hu⟩
  have a2 : ApiLinear lower pushforward predictive pr
      (⟨rng, net, params, fun q s => setPosteriorFn (.lowRank t) (.tree params) q s, custom, key, S⟩ : PredictiveArgs X K p) θ (.lowRank t) :=
    ⟨hpf, hpr, hrng, h.hp, h.hwf, h.hθ, ⟨ht.1, hS⟩, rfl, hu⟩
  refine ⟨_, _, _, reports a1 prior hτ hτ0 hσ x, reports a2 prior hτ hτ0 hσ x, fun k => ⟨var_le (targetPrecision_posDef a2.psd hτ0 hσ)
    (targetPrecision_posDef a1.psd hτ0 hσ) ?_ x k, ?_⟩⟩
  · rw [targetPrecision_eq, targetPrecision_eq, add_sub_add_right_eq_sub, ← smul_sub]
    exact hle.smul hσ
  · have := truncation_gap g1 ht hδ0 hδ hτ0 hσ (jacobian (net.fn x) θ k)
    rw [← covAt_diag, ← covAt_diag] at this
    refine this.trans_eq ?_
    congr 2
    rw [dotProduct]
    exact Finset.sum_congr rfl fun j _ => (sq _).symm

/-- **C79 (weights).** In the same setting, without loss scaling: in every direction of the weights the low-rank posterior has at least the variance of
the full one, at most the prior variance, and the excess is at most `(1/τ - 1/(τ + σ² δ)) ‖v‖²`. -/
theorem C79_weight_variances (h : LaplaceCall lower points net.fn params θ data samples loss H full fullE)
    (h' : LaplaceCall lower points net.fn params θ data samples loss H low lowE) {r : ℕ} (alg : MvAlg p r) (t : LowRankTerms p r)
    (hk : kind fullE = .full) (hk' : kind lowE = .lowRank r alg) (hN : numTotal ≠ 0)
    (G : Matrix (Fin p) (Fin p) ℝ) (hG : ∀ v, G *ᵥ v = ((numCurv : ℝ) / numTotal) • ggnSamples net.fn θ H samples v)
    (hrun : runAlg G alg = .ok t) (ht : EigenpairsOf G t) {δ : ℝ} (hδ0 : 0 ≤ δ) (hδ : RestAtMost G t δ) :
    ∃ posteriorFn est posteriorFn' est',
      laplace lower rows points net.fn params data (.name loss) full kind numCurv numTotal = .ok (posteriorFn, est) ∧
      laplace lower rows points net.fn params data (.name loss) low kind numCurv numTotal = .ok (posteriorFn', est') ∧
      ∀ (a : PriorArgs) (τ : ℝ), a.priorPrec = some τ → 0 < τ → 0 ≤ a.sigmaSquared.getD 1 →
        ∃ (post post' : Posterior p) (cov cov' : List (PyTree ℝ) → Except Err (PyTree ℝ)) (C C' : Matrix (Fin p) (Fin p) ℝ),
          posteriorFn a 1 = .ok post ∧ post.covMv post.state = .ok cov ∧ ActsOnTrees params cov (fun v => C *ᵥ v) ∧
          posteriorFn' a 1 = .ok post' ∧ post'.covMv post'.state = .ok cov' ∧ ActsOnTrees params cov' (fun v => C' *ᵥ v) ∧
          ∀ v, v ⬝ᵥ C *ᵥ v ≤ v ⬝ᵥ C' *ᵥ v ∧ v ⬝ᵥ C' *ᵥ v ≤ (v ⬝ᵥ v) / τ ∧
            v ⬝ᵥ C' *ᵥ v ≤ v ⬝ᵥ C *ᵥ v + (1 / τ - 1 / (τ + a.sigmaSquared.getD 1 * δ)) * (v ⬝ᵥ v) := by
  obtain ⟨G1, g1, g2, g3⟩ := C47_laplace_curvature lower rows points net.fn params θ data samples loss H full fullE h kind numCurv numTotal hN
  obtain ⟨G2, g1', g2', g3'⟩ := C47_laplace_curvature lower rows points net.fn params θ data samples loss H low lowE h' kind numCurv numTotal hN
  obtain rfl := curvature_unique hG g2
  obtain rfl := curvature_unique hG g2'
  obtain ⟨hS, hle⟩ := eigenpairs_le g1 ht
  have hsz : numEntries params = p := by rw [← length_entries h.hwf, h.hθ, List.length_ofFn]
  refine ⟨_, .full G2, _, .lowRank t, by rw [g3, hk]; rfl, by rw [g3', hk', estimateOf, hrun]; rfl, fun a τ hτ hτ0 hσ => ?_⟩
  have hpsd' : EstimatePsd (.lowRank t) := ⟨ht.1, hS⟩
  obtain ⟨post, cov, scale, a1, a2, -, R, -, a3, -⟩ := posterior_of_estimate params hsz h.hp (.full G2) g1 a τ hτ hτ0 hσ 1 one_pos
  obtain ⟨post', cov', scale', b1, b2, -, R', -, b3, -⟩ := posterior_of_estimate params hsz h.hp (.lowRank t) hpsd' a τ hτ hτ0 hσ 1 one_pos
  have hP := targetPrecision_posDef (est := .full G2) g1 hτ0 hσ
  have hQ := targetPrecision_posDef (est := .lowRank t) hpsd' hτ0 hσ
  refine ⟨post, post', cov, cov', _, _, a1, a2, a3, b1, b2, b3, fun v => ⟨inv_antitone hQ hP ?_ v, ?_, truncation_gap g1 ht hδ0 hδ hτ0 hσ v⟩⟩
  · rw [targetPrecision_eq, targetPrecision_eq, add_sub_add_right_eq_sub, ← smul_sub]
    exact hle.smul hσ
  · have := inv_antitone (Matrix.PosDef.one.smul hτ0) hQ (by
      rw [targetPrecision_eq, add_sub_cancel_right]
      exact (curvOf_posSemidef hpsd').smul hσ) v
    refine this.trans_eq ?_
    have e : (τ • (1 : Matrix (Fin p) (Fin p) ℝ))⁻¹ = τ⁻¹ • 1 :=
      Matrix.inv_eq_right_inv (by rw [Matrix.smul_mul, Matrix.mul_smul, smul_smul, mul_inv_cancel₀ hτ0.ne', one_smul, Matrix.one_mul])
    rw [e, Matrix.smul_mulVec, Matrix.one_mulVec, dotProduct_smul, smul_eq_mul, div_eq_inv_mul]

/-- **C79 (more eigenpairs).** Of two low-rank fits that keep exact eigenpairs of the curvature, the one that keeps more of them never reports a larger
variance. -/
theorem C79_more_eigenpairs (h : LaplaceCall lower points net.fn params θ data samples loss H low lowE)
    (h' : LaplaceCall lower points net.fn params θ data samples loss H more moreE) {r r' : ℕ} (alg : MvAlg p r) (alg' : MvAlg p r')
    (t : LowRankTerms p r) (t' : LowRankTerms p r')
    (hk : kind lowE = .lowRank r alg) (hk' : kind moreE = .lowRank r' alg') (hN : numTotal ≠ 0)
    (G : Matrix (Fin p) (Fin p) ℝ) (hG : ∀ v, G *ᵥ v = ((numCurv : ℝ) / numTotal) • ggnSamples net.fn θ H samples v)
    (hrun : runAlg G alg = .ok t) (hrun' : runAlg G alg' = .ok t') (ht : EigenpairsOf G t) (ht' : EigenpairsOf G t') (hmore : KeepsMore t t')
    (pushforward predictive : EnumArg) (pr : String)
    (hpf : convertToEnum lower pushforwardValues false pushforward = .ok (.member "linear"))
    (hpr : convertToEnum lower predictiveValues false predictive = .ok (.member pr))
    (rng : Prng K) (hrng : RngOk rng) (custom : ℕ → PfStep X K p) (key : K) (S : ℕ) (hu : ApiUsable net.shape S pr) :
    ∃ posteriorFn est posteriorFn' est',
      laplace lower rows points net.fn params data (.name loss) low kind numCurv numTotal = .ok (posteriorFn, est) ∧
      laplace lower rows points net.fn params data (.name loss) more kind numCurv numTotal = .ok (posteriorFn', est') ∧
      ∀ (prior : PriorArgs) (τ : ℝ), prior.priorPrec = some τ → 0 < τ → 0 ≤ prior.sigmaSquared.getD 1 → ∀ x, ∃ m V V',
        Reports lower pushforward predictive ⟨rng, net, params, posteriorFn, custom, key, S⟩ prior x m V ∧
        Reports lower pushforward predictive ⟨rng, net, params, posteriorFn', custom, key, S⟩ prior x m V' ∧ ∀ k, V' k ≤ V k := by
  obtain ⟨G1, g1, g2, g3⟩ := C47_laplace_curvature lower rows points net.fn params θ data samples loss H low lowE h kind numCurv numTotal hN
  obtain ⟨G2, g1', g2', g3'⟩ := C47_laplace_curvature lower rows points net.fn params θ data samples loss H more moreE h' kind numCurv numTotal hN
  obtain rfl := curvature_unique hG g2
  obtain rfl := curvature_unique hG g2'
  have hS := (eigenpairs_le g1 ht).1
  have hS' := (eigenpairs_le g1 ht').1
  have q1 : EstimatePsd (.lowRank t) := ⟨ht.1, hS⟩
  have q2 : EstimatePsd (.lowRank t') := ⟨ht'.1, hS'⟩
  refine ⟨_, .lowRank t, _, .lowRank t', by rw [g3, hk, estimateOf, hrun]; rfl, by rw [g3', hk', estimateOf, hrun']; rfl,
    fun prior τ hτ hτ0 hσ x => ?_⟩
  exact C62_larger_curvature (a := ⟨rng, net, params, fun q s => setPosteriorFn (.lowRank t) (.tree params) q s, custom, key, S⟩) (θ := θ)
    ⟨hpf, hpr, hrng, h.hp, h.hwf, h.hθ, q1, rfl, hu⟩ q2 (keeps_more_le hS' hmore) prior hτ hτ0 hσ x

/-- **C79 (evidence).** In the same setting, at the prior precision 1 (for other prior precisions the low-rank marginal likelihood is wrong, see C34), the
marginal log-likelihood of the low-rank fit is at least that of the full fit. -/
theorem C79_evidence (h : LaplaceCall lower points net.fn params θ data samples loss H full fullE)
    (h' : LaplaceCall lower points net.fn params θ data samples loss H low lowE) {r : ℕ} (alg : MvAlg p r) (t : LowRankTerms p r)
    (hk : kind fullE = .full) (hk' : kind lowE = .lowRank r alg) (hN : numTotal ≠ 0)
    (G : Matrix (Fin p) (Fin p) ℝ) (hG : ∀ v, G *ᵥ v = ((numCurv : ℝ) / numTotal) • ggnSamples net.fn θ H samples v)
    (hrun : runAlg G alg = .ok t) (ht : EigenpairsOf G t)
    (fullFn : PyTree ℝ → Except Err ℝ) (L : ℝ) (hl : fullFn params = .ok L) :
    ∃ posteriorFn est posteriorFn' est',
      laplace lower rows points net.fn params data (.name loss) full kind numCurv numTotal = .ok (posteriorFn, est) ∧
      laplace lower rows points net.fn params data (.name loss) low kind numCurv numTotal = .ok (posteriorFn', est') ∧
      ∀ (a : MllArgs), a.priorPrec = some 1 → 0 ≤ a.sigmaSquared.getD 1 →
        ∃ lml lml', marginalLogLikelihood est a (.ok fullFn) params = .ok lml ∧
          marginalLogLikelihood est' a (.ok fullFn) params = .ok lml' ∧ lml ≤ lml' := by
  obtain ⟨G1, g1, g2, g3⟩ := C47_laplace_curvature lower rows points net.fn params θ data samples loss H full fullE h kind numCurv numTotal hN
  obtain ⟨G2, g1', g2', g3'⟩ := C47_laplace_curvature lower rows points net.fn params θ data samples loss H low lowE h' kind numCurv numTotal hN
  obtain rfl := curvature_unique hG g2
  obtain rfl := curvature_unique hG g2'
  obtain ⟨hS, hle⟩ := eigenpairs_le g1 ht
  have hsz : numEntries params = p := by rw [← length_entries h.hwf, h.hθ, List.length_ofFn]
  have hne : params.leaves ≠ [] := by
    intro h0
    have := congrArg List.length h.hθ
    have hp := h.hp
    simp [entries, h0] at this; omega
  have hgs : getSize params = p := by rw [← hsz]; exact (((C02_full_flatten params).2 hne).2 h.hwf).symm.trans (length_entries h.hwf)
  refine ⟨_, .full G2, _, .lowRank t, by rw [g3, hk]; rfl, by rw [g3', hk', estimateOf, hrun]; rfl, fun a hτ hσ => ?_⟩
  obtain ⟨j, lml, k1, k2, k3, -⟩ := C34_full G2 g1 a fullFn params h.hwf hne hgs 1 hτ one_pos hσ 1 one_pos L hl
  obtain ⟨j', lml', k1', k2', k3'⟩ := C34_low_rank_partial t ht.1 hS a fullFn params h.hwf hne hgs 1 hτ one_pos hσ 1 (by norm_num) L hl
  refine ⟨lml, lml', k2, k2', ?_⟩
  have hj : j' = j := Except.ok.inj (k1'.symm.trans k1)
  have hpd := targetPrecision_posDef (show EstimatePsd (.lowRank t) from ⟨ht.1, hS⟩) one_pos hσ
  have hdet := truncation_det g1 ht one_pos hσ
  simp only [targetPrecision] at hpd hdet
  rw [k3, k3', hj, logEvidence, logEvidence, Matrix.det_smul, Matrix.det_smul]
  have hpi : (0 : ℝ) < (2 * Real.pi)⁻¹ ^ Fintype.card (Fin p) := by positivity
  have := Real.log_le_log (mul_pos hpi hpd.det_pos) (mul_le_mul_of_nonneg_left hdet hpi.le)
  linarith

/-- Lanczos on an invariant Krylov space returns exact eigenpairs. -/
theorem lanczos_eigenpairs {G : Mat p p} (hGs : Gᵀ = G) (b : Vec p) (hb : b ≠ 0) (tol : ℝ) {r : ℕ} (eigh : Mat r r → Vec r × Mat r r) (hE : IsEigh eigh)
    (hβ : ∀ j, j + 1 < r → (lanczosIterations (fun v => G *ᵥ v) b r tol true).beta j ≠ 0) (hinv : ∀ x ∈ krylov G b r, G *ᵥ x ∈ krylov G b r) :
    EigenpairsOf G (lanczosLowrankTerms r eigh (fun v => G *ᵥ v) b tol true) ∧
      ∀ w, (lanczosLowrankTerms r eigh (fun v => G *ᵥ v) b tol true).Uᵀ *ᵥ w = 0 → ∀ x ∈ krylov G b r, x ⬝ᵥ w = 0 := by
  obtain ⟨t1, t2, t3, t4, P, p1, p2, p3, p4, p5, p6⟩ := C23_low_rank_terms G hGs b hb tol r eigh hE hβ _ rfl
  obtain ⟨t, ht⟩ : ∃ t, t = lanczosLowrankTerms r eigh (fun v => G *ᵥ v) b tol true := ⟨_, rfl⟩
  rw [← ht] at t1 t2 p1 p6 ⊢
  have hcol : ∀ k, (fun i => t.U i k) = P *ᵥ fun i => t.U i k := fun k => by
    have : P * t.U = t.U := by rw [p1, Matrix.mul_assoc, t1, Matrix.mul_one]
    funext i
    exact (congrFun (congrFun this i) k).symm
  have hfix : P * (G * t.U) = G * t.U := by
    ext i k
    have h1 : (fun i => t.U i k) ∈ krylov G b r := by rw [hcol]; exact p4 _
    exact congrFun (p5 _ (hinv _ h1)) i
  refine ⟨⟨t1, ?_⟩, fun w hw x hx => ?_⟩
  · rw [← hfix, p1, Matrix.mul_assoc, ← Matrix.mul_assoc t.Uᵀ, t2]
  · rw [← p5 x hx, p1, ← Matrix.mulVec_mulVec, dotProduct_comm, Matrix.dotProduct_mulVec, ← Matrix.mulVec_transpose, hw, zero_dotProduct]

/-- **C79 (Lanczos).** The bounds of `C79_predictive_variances` for the Lanczos estimate of rank `r`: if the process does not break down early, the Krylov
space of the start vector is invariant under the curvature `G`, and orthogonally to it the curvature is at most `δ`. -/
theorem C79_lanczos (h : LaplaceCall lower points net.fn params θ data samples loss H full fullE)
    (h' : LaplaceCall lower points net.fn params θ data samples loss H low lowE) {r : ℕ} (eigh : Mat r r → Vec r × Mat r r) (hE : IsEigh eigh)
    (b : Vec p) (hb : b ≠ 0) (tol : ℝ)
    (hk : kind fullE = .full) (hk' : kind lowE = .lowRank r (lanczosAlg r eigh b tol true)) (hN : numTotal ≠ 0)
    (G : Matrix (Fin p) (Fin p) ℝ) (hG : ∀ v, G *ᵥ v = ((numCurv : ℝ) / numTotal) • ggnSamples net.fn θ H samples v)
    (hβ : ∀ j, j + 1 < r → (lanczosIterations (fun v => G *ᵥ v) b r tol true).beta j ≠ 0) (hinv : ∀ x ∈ krylov G b r, G *ᵥ x ∈ krylov G b r)
    {δ : ℝ} (hδ0 : 0 ≤ δ) (hδ : ∀ w : Vec p, (∀ x ∈ krylov G b r, x ⬝ᵥ w = 0) → w ⬝ᵥ G *ᵥ w ≤ δ * (w ⬝ᵥ w))
    (pushforward predictive : EnumArg) (pr : String)
    (hpf : convertToEnum lower pushforwardValues false pushforward = .ok (.member "linear"))
    (hpr : convertToEnum lower predictiveValues false predictive = .ok (.member pr))
    (rng : Prng K) (hrng : RngOk rng) (custom : ℕ → PfStep X K p) (key : K) (S : ℕ) (hu : ApiUsable net.shape S pr) :
    ∃ posteriorFn est posteriorFn' est',
      laplace lower rows points net.fn params data (.name loss) full kind numCurv numTotal = .ok (posteriorFn, est) ∧
      laplace lower rows points net.fn params data (.name loss) low kind numCurv numTotal = .ok (posteriorFn', est') ∧
      ∀ (prior : PriorArgs) (τ : ℝ), prior.priorPrec = some τ → 0 < τ → 0 ≤ prior.sigmaSquared.getD 1 → ∀ x, ∃ m V V',
        Reports lower pushforward predictive ⟨rng, net, params, posteriorFn, custom, key, S⟩ prior x m V ∧
        Reports lower pushforward predictive ⟨rng, net, params, posteriorFn', custom, key, S⟩ prior x m V' ∧
        ∀ k, V k ≤ V' k ∧
          V' k ≤ V k + (1 / τ - 1 / (τ + prior.sigmaSquared.getD 1 * δ)) * ∑ j, jacobian (net.fn x) θ k j ^ 2 := by
  obtain ⟨G1, g1, g2, -⟩ := C47_laplace_curvature lower rows points net.fn params θ data samples loss H full fullE h kind numCurv numTotal hN
  obtain rfl := curvature_unique hG g2
  have hGs : G1ᵀ = G1 := by rw [← Matrix.conjTranspose_eq_transpose_of_trivial]; exact g1.isHermitian.eq
  obtain ⟨e1, e2⟩ := lanczos_eigenpairs hGs b hb tol eigh hE hβ hinv
  exact C79_predictive_variances lower rows points net params θ data samples loss H full fullE low lowE kind numCurv numTotal h h' _ _ hk hk' hN G1 hG
    (lanczosAlg_run G1 r eigh b tol true) e1 hδ0 (fun w hw => hδ w (e2 w hw)) pushforward predictive pr hpf hpr rng hrng custom key S hu

end

/-! ### Ritz pairs that are not eigenpairs -/

/-- The GGN of the two-feature model at one point with features `(1, 1)`. -/
theorem feature_ggn (v : Vec 2) : !![2, 2; 2, 2] *ᵥ v =
    (((1 : ℕ) : ℝ) / ((1 : ℕ) : ℝ)) • ggnSamples featureNet.fn ![3, 5] (fun jv _ (_ : Unit) => mseHessianMv jv) [((1, 1), ())] v := by
  have e : ggnSamples featureNet.fn ![3, 5] (fun jv _ (_ : Unit) => mseHessianMv jv) [((1, 1), ())] v =
      (featureRow (1, 1))ᵀ *ᵥ mseHessianMv (featureRow (1, 1) *ᵥ v) + 0 := by
    rw [← (featureNet_jacobian (1, 1) ![3, 5]).2]; rfl
  rw [e]
  funext k
  fin_cases k <;>
    simp [featureRow, mseHessianMv, Matrix.mulVec, dotProduct, Fin.sum_univ_two] <;> ring

theorem krylov_one {n : ℕ} (A : Matrix (Fin n) (Fin n) ℝ) (b x : Fin n → ℝ) : x ∈ krylov A b 1 ↔ ∃ a : ℝ, x = a • b := by
  have : {x | ∃ i < 1, x = (A ^ i) *ᵥ b} = {b} := by
    ext y
    constructor
    · rintro ⟨i, hi, rfl⟩
      obtain rfl : i = 0 := by omega
      simp
    · rintro rfl
      exact ⟨0, one_pos, by simp⟩
  rw [krylov, this, Submodule.mem_span_singleton]
  exact ⟨fun ⟨a, h⟩ => ⟨a, h.symm⟩, fun ⟨a, h⟩ => ⟨a, h.symm⟩⟩

/-- The kinds of the example: the full curvature, and Lanczos of rank 1 from the start vector `b`. -/
noncomputable def featureKind (eigh : Mat 1 1 → Vec 1 × Mat 1 1) (b : Vec 2) : EnumArg → LaplaceKind 2 := fun e =>
  if e = .member "full" then .full else .lowRank 1 (lanczosAlg 1 eigh b 0 true)

/-- **C79 (Ritz pairs).** The order needs exact eigenpairs: a Lanczos estimate of rank 1, whose Krylov space is not invariant, can report a *smaller*
variance than the full curvature of the same data, so a low-rank posterior can be overconfident. -/
theorem C79_ritz_pairs_overconfident (eigh : Mat 1 1 → Vec 1 × Mat 1 1) (hE : IsEigh eigh) :
    ∃ posteriorFn est posteriorFn' est',
      laplace (fun s => s) (fun _ => .error .valueError) (fun _ _ : PyObj Unit => .ok [(((1 : ℝ), (1 : ℝ)), ())]) featureNet.fn testMean
        (.tup [.arr (), .arr ()]) (.name "mse") (.str "full") (featureKind eigh ![1, 0]) 1 1 = .ok (posteriorFn, est) ∧
      laplace (fun s => s) (fun _ => .error .valueError) (fun _ _ : PyObj Unit => .ok [(((1 : ℝ), (1 : ℝ)), ())]) featureNet.fn testMean
        (.tup [.arr (), .arr ()]) (.name "mse") (.str "lanczos") (featureKind eigh ![1, 0]) 1 1 = .ok (posteriorFn', est') ∧
      ∃ m V V', Reports (fun s => s) (.str "linear") (.member "none") ⟨testRng, featureNet, testMean, posteriorFn, fun _ _ _ _ => .error .typeError, (), 3⟩
          ⟨some 1, none⟩ (1, -1) m V ∧
        Reports (fun s => s) (.str "linear") (.member "none") ⟨testRng, featureNet, testMean, posteriorFn', fun _ _ _ _ => .error .typeError, (), 3⟩
          ⟨some 1, none⟩ (1, -1) m V' ∧ ∀ k, V k = 2 ∧ V' k = 4 / 3 := by
  have hf := feature_train (.str "full") (.member "full") rfl
  have hd := feature_train (.str "lanczos") (.member "lanczos") rfl
  obtain ⟨G, g1, g2, g3⟩ := C47_laplace_curvature (fun s => s) (fun _ => .error .valueError) (fun _ _ : PyObj Unit => .ok [(((1 : ℝ), (1 : ℝ)), ())])
    featureNet.fn testMean ![3, 5] _ _ "mse" _ _ _ hf (featureKind eigh ![1, 0]) 1 1 one_ne_zero
  obtain ⟨G', g1', g2', g3'⟩ := C47_laplace_curvature (fun s => s) (fun _ => .error .valueError) (fun _ _ : PyObj Unit => .ok [(((1 : ℝ), (1 : ℝ)), ())])
    featureNet.fn testMean ![3, 5] _ _ "mse" _ _ _ hd (featureKind eigh ![1, 0]) 1 1 one_ne_zero
  obtain rfl := curvature_unique feature_ggn g2
  obtain rfl := curvature_unique feature_ggn g2'
  obtain ⟨A, hA⟩ : ∃ A : Mat 2 2, A = !![2, 2; 2, 2] := ⟨_, rfl⟩
  rw [← hA] at g1 g3 g3'
  have hAs : Aᵀ = A := by rw [hA]; ext i j; fin_cases i <;> fin_cases j <;> rfl
  have hb : (![1, 0] : Vec 2) ≠ 0 := fun h => one_ne_zero (congrFun h 0)
  obtain ⟨t1, t2, t3, t4, P, p1, p2, p3, p4, p5, p6⟩ := C23_low_rank_terms A hAs ![1, 0] hb 0 1 eigh hE (fun j hj => absurd hj (by omega)) _ rfl
  obtain ⟨t, ht⟩ : ∃ t, t = lanczosLowrankTerms 1 eigh (fun v => A *ᵥ v) ![1, 0] 0 true := ⟨_, rfl⟩
  rw [← ht] at t1 t2 t4 p1 p6
  have hP : P = !![1, 0; 0, 0] := by
    have h0 : P *ᵥ ![1, 0] = ![1, 0] := p5 _ ((krylov_one _ _ _).2 ⟨1, by simp⟩)
    obtain ⟨a, ha⟩ := (krylov_one _ _ _).1 (p4 ![0, 1])
    have e00 := congrFun h0 0
    have e10 := congrFun h0 1
    have e11 := congrFun ha 1
    have e01 : P 0 1 = P 1 0 := congrFun (congrFun p2 1) 0
    simp [Matrix.mulVec, dotProduct, Fin.sum_univ_two] at e00 e10 e11
    ext i j
    fin_cases i <;> fin_cases j <;> simp [e00, e10, e11, e01]
  have hT : t.U * Matrix.diagonal t.S * t.Uᵀ = !![2, 0; 0, 0] := by
    rw [p6, hP, hA]
    ext i j
    fin_cases i <;> fin_cases j <;> simp [Matrix.mul_apply, Fin.sum_univ_two]
  have q1 : (targetPrecision 1 1 1 (.full A : CurvEstimate 2))⁻¹ = !![3/5, -2/5; -2/5, 3/5] := by
    apply Matrix.inv_eq_right_inv
    show precision _ _ _ _ * _ = _
    rw [hA]
    ext i j
    fin_cases i <;> fin_cases j <;> simp [precision, Matrix.mul_apply, Fin.sum_univ_two] <;> norm_num
  have q2 : (targetPrecision 1 1 1 (.lowRank t))⁻¹ = !![1/3, 0; 0, 1] := by
    apply Matrix.inv_eq_right_inv
    simp only [targetPrecision, hT]
    ext i j
    fin_cases i <;> fin_cases j <;> simp [Matrix.mul_apply, Fin.sum_univ_two] <;> norm_num
  have hps : EstimatePsd (.lowRank t) := ⟨t1, t4 g1⟩
  have r1 := reports (a := ⟨testRng, featureNet, testMean, fun q s => setPosteriorFn (.full A) (.tree testMean) q s,
      fun _ _ _ _ => .error .typeError, (), 3⟩)
    (⟨rfl, rfl, testRng_ok, hf.hp, hf.hwf, hf.hθ, g1, rfl, Or.inl rfl⟩ : ApiLinear (fun s => s) (.str "linear") (.member "none") "none" _ ![3, 5]
      (.full A)) ⟨some 1, none⟩ (τ := 1) rfl one_pos (by norm_num) (1, -1)
  have r2 := reports (a := ⟨testRng, featureNet, testMean, fun q s => setPosteriorFn (.lowRank t) (.tree testMean) q s,
      fun _ _ _ _ => .error .typeError, (), 3⟩)
    (⟨rfl, rfl, testRng_ok, hf.hp, hf.hwf, hf.hθ, hps, rfl, Or.inl rfl⟩ : ApiLinear (fun s => s) (.str "linear") (.member "none") "none" _ ![3, 5]
      (.lowRank t)) ⟨some 1, none⟩ (τ := 1) rfl one_pos (by norm_num) (1, -1)
  refine ⟨_, .full A, _, .lowRank t, g3, ?_, _, _, _, r1, r2, fun k => ⟨?_, ?_⟩⟩
  · rw [g3', show featureKind eigh ![1, 0] (.member "lanczos") = .lowRank 1 (lanczosAlg 1 eigh ![1, 0] 0 true) from rfl, estimateOf, lanczosAlg_run, ht]
    rfl
  · refine (feature_cov (1, -1) _ _ _ _ _ q1 k).trans ?_
    norm_num
  · refine (feature_cov (1, -1) _ _ _ _ _ q2 k).trans ?_
    norm_num

/-! ### Non-vacuity -/

/-- Lanczos of rank 1 from the start vector `(1, -1)`: the Krylov space is the kernel of the curvature, and what is left out is at most 4. -/
theorem feature_lanczos_rest : (∀ x ∈ krylov !![2, 2; 2, 2] ![1, -1] 1, !![2, 2; 2, 2] *ᵥ x ∈ krylov (!![2, 2; 2, 2] : Mat 2 2) ![1, -1] 1) ∧
    ∀ w : Vec 2, (∀ x ∈ krylov (!![2, 2; 2, 2] : Mat 2 2) ![1, -1] 1, x ⬝ᵥ w = 0) → w ⬝ᵥ !![2, 2; 2, 2] *ᵥ w ≤ 4 * (w ⬝ᵥ w) := by
  constructor
  · intro x hx
    obtain ⟨a, rfl⟩ := (krylov_one _ _ _).1 hx
    refine (krylov_one _ _ _).2 ⟨0, ?_⟩
    funext k
    fin_cases k <;> simp [Matrix.mulVec, dotProduct, Fin.sum_univ_two]
  · intro w _
    simp [Matrix.mulVec, dotProduct, Fin.sum_univ_two]
    nlinarith [sq_nonneg (w 0 - w 1)]

example (eigh : Mat 1 1 → Vec 1 × Mat 1 1) (hE : IsEigh eigh) : ∃ posteriorFn est posteriorFn' est',
    laplace (fun s => s) (fun _ => .error .valueError) (fun _ _ : PyObj Unit => .ok [(((1 : ℝ), (1 : ℝ)), ())]) featureNet.fn testMean
      (.tup [.arr (), .arr ()]) (.name "mse") (.str "full") (featureKind eigh ![1, -1]) 1 1 = .ok (posteriorFn, est) ∧
    laplace (fun s => s) (fun _ => .error .valueError) (fun _ _ : PyObj Unit => .ok [(((1 : ℝ), (1 : ℝ)), ())]) featureNet.fn testMean
      (.tup [.arr (), .arr ()]) (.name "mse") (.str "lanczos") (featureKind eigh ![1, -1]) 1 1 = .ok (posteriorFn', est') ∧
    ∀ x, ∃ m V V', Reports (fun s => s) (.str "linear") (.member "none") ⟨testRng, featureNet, testMean, posteriorFn, fun _ _ _ _ => .error .typeError, (), 3⟩
          ⟨some 1, none⟩ x m V ∧
        Reports (fun s => s) (.str "linear") (.member "none") ⟨testRng, featureNet, testMean, posteriorFn', fun _ _ _ _ => .error .typeError, (), 3⟩
          ⟨some 1, none⟩ x m V' ∧ ∀ k, V k ≤ V' k ∧ V' k ≤ V k + (1 / 1 - 1 / (1 + 1 * 4)) * ∑ j, jacobian (featureNet.fn x) ![3, 5] k j ^ 2 := by
  obtain ⟨f, e, f', e', h1, h2, h3⟩ := C79_lanczos (fun s => s) (fun _ => .error .valueError) (fun _ _ : PyObj Unit => .ok [(((1 : ℝ), (1 : ℝ)), ())])
    featureNet testMean ![3, 5] _ _ "mse" _ (.str "full") (.member "full") (.str "lanczos") (.member "lanczos") (featureKind eigh ![1, -1]) 1 1
    (feature_train _ _ rfl) (feature_train _ _ rfl) eigh hE ![1, -1] (fun h => one_ne_zero (congrFun h 0)) 0 rfl rfl one_ne_zero !![2, 2; 2, 2] feature_ggn
    (fun j hj => absurd hj (by omega)) feature_lanczos_rest.1 (δ := 4) (by norm_num) feature_lanczos_rest.2 (.str "linear") (.member "none") "none" rfl rfl testRng testRng_ok
    (fun _ _ _ _ => .error .typeError) () 3 (Or.inl rfl)
  exact ⟨f, e, f', e', h1, h2, fun x => h3 ⟨some 1, none⟩ 1 rfl one_pos (by norm_num) x⟩

/-- A function that solves the eigenvalue problem exists. -/
example : ∃ eigh : Mat 1 1 → Vec 1 × Mat 1 1, IsEigh eigh := C23_eigh_exists 1

/-- Keeping one more pair: the constant driver that returns the first eigenpair against the one that returns both. -/
example : KeepsMore (p := 2) (⟨Matrix.of fun i _ => ![1, 0] i, ![7], 0⟩ : LowRankTerms 2 1) (⟨!![0, 1; 1, 0], ![3, 7], 0⟩ : LowRankTerms 2 2) ∧
    EigenpairsOf (!![7, 0; 0, 3] : Mat 2 2) (⟨Matrix.of fun i _ => ![1, 0] i, ![7], 0⟩ : LowRankTerms 2 1) ∧
    EigenpairsOf (!![7, 0; 0, 3] : Mat 2 2) (⟨!![0, 1; 1, 0], ![3, 7], 0⟩ : LowRankTerms 2 2) ∧
    RestAtMost (!![7, 0; 0, 3] : Mat 2 2) (⟨Matrix.of fun i _ => ![1, 0] i, ![7], 0⟩ : LowRankTerms 2 1) 3 := by
  refine ⟨⟨fun _ => 1, fun a b _ => Subsingleton.elim a b, fun k => ⟨fun i => ?_, ?_⟩⟩, ⟨?_, ?_⟩, ⟨?_, ?_⟩, fun w hw => ?_⟩
  · fin_cases i <;> simp
  · fin_cases k; simp
  · ext i j; fin_cases i; fin_cases j; simp [Matrix.mul_apply, Fin.sum_univ_two]
  · ext i j; fin_cases i <;> fin_cases j <;> simp [Matrix.mul_apply, Fin.sum_univ_two]
  · ext i j; fin_cases i <;> fin_cases j <;> simp [Matrix.mul_apply, Fin.sum_univ_two]
  · ext i j; fin_cases i <;> fin_cases j <;> simp [Matrix.mul_apply, Fin.sum_univ_two]
  · have h0 := congrFun hw 0
    simp [Matrix.mulVec, dotProduct, Fin.sum_univ_two] at h0
    simp [Matrix.mulVec, dotProduct, Fin.sum_univ_two, h0]
    nlinarith

end Laplax.Props
