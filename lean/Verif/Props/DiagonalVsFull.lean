import Verif.Props.Uncertainty
import Verif.Props.Invariance

/-! # C71: the diagonal approximation against the full one -/

namespace Laplax.Props
open Laplax Spec
open scoped BigOperators Matrix

variable {p c : ℕ} {A X Y K : Type}

/-- A diagonal entry of the inverse is at least the inverse of the diagonal entry. -/
theorem inv_diag_ge {P : Matrix (Fin p) (Fin p) ℝ} (hP : P.PosDef) (i : Fin p) : 1 / P i i ≤ P⁻¹ i i := by
  have hpos : 0 < P i i := by
    have := hP.dotProduct_mulVec_pos (x := Pi.single i 1) (by simp)
    simpa using this
  have h := quad_inv_le hP (Pi.single i (1 / P i i)) (Pi.single i 1)
  have e1 : (Pi.single i (1 / P i i) : Vec p) ⬝ᵥ Pi.single i 1 = 1 / P i i := by simp
  have e2 : (Pi.single i (1 / P i i) : Vec p) ⬝ᵥ P *ᵥ Pi.single i (1 / P i i) = 1 / P i i := by
    simp
    field_simp
  have e3 : (Pi.single i 1 : Vec p) ⬝ᵥ P⁻¹ *ᵥ Pi.single i 1 = P⁻¹ i i := by simp
  rw [e1, e2, e3] at h
  linarith

/-- Hadamard's inequality. -/
theorem det_le_prod_diag {P : Matrix (Fin p) (Fin p) ℝ} (hP : P.PosDef) : P.det ≤ ∏ i, P i i := by
  have hpos : ∀ i, 0 < P i i := fun i => by
    have := hP.dotProduct_mulVec_pos (x := Pi.single i 1) (by simp)
    simpa using this
  let d : Vec p := fun i => (Real.sqrt (P i i))⁻¹
  have hd : ∀ i, 0 < d i := fun i => inv_pos.2 (Real.sqrt_pos.2 (hpos i))
  have hdd : ∀ i, d i * P i i * d i = 1 := fun i => by
    have h := Real.mul_self_sqrt (hpos i).le
    have h0 := (Real.sqrt_pos.2 (hpos i)).ne'
    simp only [d]
    field_simp
    nlinarith
  let M : Matrix (Fin p) (Fin p) ℝ := Matrix.diagonal d * P * Matrix.diagonal d
  have hM : M.PosDef := by
    have : Function.Injective (Matrix.diagonal d).mulVec := by
      intro u v h
      funext i
      have := congrFun h i
      simp only [Matrix.mulVec_diagonal] at this
      exact mul_left_cancel₀ (hd i).ne' this
    have := hP.conjTranspose_mul_mul_same this
    simpa [M, Matrix.conjTranspose_eq_transpose_of_trivial] using this
  have htr : M.trace = p := by
    simp only [Matrix.trace, Matrix.diag, M, Matrix.diagonal_mul, Matrix.mul_diagonal, hdd]
    simp
  have hlog : Real.log M.det ≤ 0 := by
    rw [hM.isHermitian.det_eq_prod_eigenvalues]
    simp only [RCLike.ofReal_real_eq_id, id]
    rw [Real.log_prod (fun i _ => (hM.eigenvalues_pos i).ne')]
    have h1 : ∑ i, Real.log (hM.isHermitian.eigenvalues i) ≤ ∑ i, (hM.isHermitian.eigenvalues i - 1) :=
      Finset.sum_le_sum fun i _ => Real.log_le_sub_one_of_pos (hM.eigenvalues_pos i)
    have h2 := hM.isHermitian.trace_eq_sum_eigenvalues
    simp only [RCLike.ofReal_real_eq_id, id] at h2
    rw [Finset.sum_sub_distrib, ← h2, htr] at h1
    simpa using h1
  have hdet : M.det ≤ 1 := by
    have := Real.exp_le_exp.2 hlog
    rwa [Real.exp_log hM.det_pos, Real.exp_zero] at this
  have e : M.det * ∏ i, P i i = P.det := by
    have hp2 : (∏ i, d i) * (∏ i, P i i) * ∏ i, d i = 1 := by
      rw [← Finset.prod_mul_distrib, ← Finset.prod_mul_distrib]
      simp [hdd]
    simp only [M, Matrix.det_mul, Matrix.det_diagonal]
    linear_combination P.det * hp2
  rw [← e]
  exact mul_le_of_le_one_left (Finset.prod_nonneg fun i _ => (hpos i).le) hdet

theorem diag_precision (G : Matrix (Fin p) (Fin p) ℝ) (τ σ s : ℝ) :
    precision (Matrix.diagonal fun i => G i i) τ σ s = Matrix.diagonal fun i => precision G τ σ s i i := by
  ext i j
  by_cases h : i = j
  · subst h; simp [precision]
  · simp [precision, h]

section
variable (lower : String → String) (rows : A → Except Err (List A)) (points : PyObj A → PyObj A → Except Err (List (X × Y)))
  (model : X → Vec p → Vec c) (params : PyTree ℝ) (θ : Vec p) (data : PyObj A) (samples : List (X × Y)) (loss : String)
  (H : Vec c → Vec c → Y → Vec c) (full fullE diag diagE : EnumArg) (kind : EnumArg → LaplaceKind p) (numCurv numTotal : ℕ)

/-- **C71 (weight variances).** For the same model, data and prior arguments, the marginal posterior variance of every parameter under the
diagonal approximation is at most its marginal variance under the full one, and both are at most the prior variance `s/τ`; parameters are
uncorrelated under the diagonal one. -/
theorem C71_weight_variances (h : LaplaceCall lower points model params θ data samples loss H full fullE)
    (h' : LaplaceCall lower points model params θ data samples loss H diag diagE)
    (hk : kind fullE = .full) (hk' : kind diagE = .diagonal) (hN : numTotal ≠ 0) :
    ∃ posteriorFn est posteriorFn' est',
      laplace lower rows points model params data (.name loss) full kind numCurv numTotal = .ok (posteriorFn, est) ∧
      laplace lower rows points model params data (.name loss) diag kind numCurv numTotal = .ok (posteriorFn', est') ∧
      ∀ (a : PriorArgs) (τ : ℝ), a.priorPrec = some τ → 0 < τ → 0 ≤ a.sigmaSquared.getD 1 → ∀ s : ℝ, 0 < s →
        ∃ (post post' : Posterior p) (cov cov' : List (PyTree ℝ) → Except Err (PyTree ℝ)) (C C' : Matrix (Fin p) (Fin p) ℝ),
          posteriorFn a s = .ok post ∧ post.covMv post.state = .ok cov ∧ ActsOnTrees params cov (fun v => C *ᵥ v) ∧
          posteriorFn' a s = .ok post' ∧ post'.covMv post'.state = .ok cov' ∧ ActsOnTrees params cov' (fun v => C' *ᵥ v) ∧
          (∀ i, 0 < C' i i ∧ C' i i ≤ C i i ∧ C i i ≤ s / τ) ∧ ∀ i j, i ≠ j → C' i j = 0 := by
  obtain ⟨G, g1, g2, g3⟩ := C47_laplace_curvature lower rows points model params θ data samples loss H full fullE h kind numCurv numTotal hN
  obtain ⟨G', g1', g2', g3'⟩ := C47_laplace_curvature lower rows points model params θ data samples loss H diag diagE h' kind numCurv numTotal hN
  have hG : G' = G := by
    apply Matrix.toLin'.injective
    apply LinearMap.ext; intro v
    rw [Matrix.toLin'_apply, Matrix.toLin'_apply, g2, g2']
  subst hG
  have hsz : numEntries params = p := by rw [← length_entries h.hwf, h.hθ, List.length_ofFn]
  refine ⟨_, .full G', _, .diagonal fun i => G' i i, by rw [g3, hk]; rfl, by rw [g3', hk']; rfl, fun a τ hτ hτ0 hσ s hs => ?_⟩
  obtain ⟨post, cov, scale, a1, a2, -, R, -, a3, -⟩ := posterior_of_estimate params hsz h.hp (.full G') g1 a τ hτ hτ0 hσ s hs
  obtain ⟨post', cov', scale', b1, b2, -, R', -, b3, -⟩ := posterior_of_estimate params hsz h.hp (.diagonal fun i => G' i i) (posSemidef_diag_nonneg g1)
    a τ hτ hτ0 hσ s hs
  refine ⟨post, post', cov, cov', _, _, a1, a2, a3, b1, b2, b3, ?_⟩
  have hpd := precision_posDef g1 hτ0 hσ hs
  have hpos : ∀ i, 0 < precision G' τ (a.sigmaSquared.getD 1) s i i := fun i => by
    have := hpd.dotProduct_mulVec_pos (x := Pi.single i 1) (by simp)
    simpa using this
  have hinv : (targetPrecision τ (a.sigmaSquared.getD 1) s (.diagonal fun i => G' i i))⁻¹ =
      Matrix.diagonal fun i => 1 / precision G' τ (a.sigmaSquared.getD 1) s i i := by
    show (precision (Matrix.diagonal fun i => G' i i) τ (a.sigmaSquared.getD 1) s)⁻¹ = _
    rw [diag_precision]
    apply Matrix.inv_eq_right_inv
    rw [Matrix.diagonal_mul_diagonal, ← Matrix.diagonal_one]
    congr 1
    funext i
    rw [mul_one_div, div_self (hpos i).ne']
  rw [hinv, show targetPrecision τ (a.sigmaSquared.getD 1) s (.full G') = precision G' τ (a.sigmaSquared.getD 1) s from rfl]
  refine ⟨fun i => ⟨by simpa using hpos i, by simpa using inv_diag_ge hpd i, ?_⟩, fun i j hij => by simp [hij]⟩
  have hq : (s⁻¹ • τ • (1 : Matrix (Fin p) (Fin p) ℝ)).PosDef := (Matrix.PosDef.one.smul hτ0).smul (inv_pos.2 hs)
  have hle := inv_antitone hq hpd (by
    have : precision G' τ (a.sigmaSquared.getD 1) s - s⁻¹ • τ • (1 : Matrix (Fin p) (Fin p) ℝ) = s⁻¹ • (a.sigmaSquared.getD 1) • G' := by
      rw [precision, smul_add, add_sub_cancel_right]
    rw [this]
    exact (g1.smul hσ).smul (inv_pos.2 hs).le) (Pi.single i 1)
  have e : (s⁻¹ • τ • (1 : Matrix (Fin p) (Fin p) ℝ))⁻¹ = (s / τ) • 1 := by
    apply Matrix.inv_eq_right_inv
    rw [smul_smul, Matrix.smul_mul, Matrix.one_mul, smul_smul, show s⁻¹ * τ * (s / τ) = 1 by field_simp, one_smul]
  rw [e] at hle
  simpa using hle

/-- **C71 (evidence).** For the same model, data, loss value and prior arguments, the marginal log-likelihood under the diagonal approximation is
at most the one under the full curvature. -/
theorem C71_evidence (h : LaplaceCall lower points model params θ data samples loss H full fullE)
    (h' : LaplaceCall lower points model params θ data samples loss H diag diagE)
    (hk : kind fullE = .full) (hk' : kind diagE = .diagonal) (hN : numTotal ≠ 0)
    (fullFn : PyTree ℝ → Except Err ℝ) (L : ℝ) (hl : fullFn params = .ok L) :
    ∃ posteriorFn est posteriorFn' est',
      laplace lower rows points model params data (.name loss) full kind numCurv numTotal = .ok (posteriorFn, est) ∧
      laplace lower rows points model params data (.name loss) diag kind numCurv numTotal = .ok (posteriorFn', est') ∧
      ∀ (a : MllArgs) (τ : ℝ), a.priorPrec = some τ → 0 < τ → 0 ≤ a.sigmaSquared.getD 1 → ∀ s : ℝ, 0 < s →
        ∃ lml lml', marginalLogLikelihood est a (.ok fullFn) params s = .ok lml ∧
          marginalLogLikelihood est' a (.ok fullFn) params s = .ok lml' ∧ lml' ≤ lml := by
  obtain ⟨G, g1, g2, g3⟩ := C47_laplace_curvature lower rows points model params θ data samples loss H full fullE h kind numCurv numTotal hN
  obtain ⟨G', g1', g2', g3'⟩ := C47_laplace_curvature lower rows points model params θ data samples loss H diag diagE h' kind numCurv numTotal hN
  have hG : G' = G := by
    apply Matrix.toLin'.injective
    apply LinearMap.ext; intro v
    rw [Matrix.toLin'_apply, Matrix.toLin'_apply, g2, g2']
  subst hG
  have hsz : numEntries params = p := by rw [← length_entries h.hwf, h.hθ, List.length_ofFn]
  have hne : params.leaves ≠ [] := by
    intro h0
    have := congrArg List.length h.hθ
    have hp := h.hp
    simp [entries, h0] at this; omega
  have hgs : getSize params = p := by rw [← hsz]; exact (((C02_full_flatten params).2 hne).2 h.hwf).symm.trans (length_entries h.hwf)
  refine ⟨_, .full G', _, .diagonal fun i => G' i i, by rw [g3, hk]; rfl, by rw [g3', hk']; rfl, fun a τ hτ hτ0 hσ s hs => ?_⟩
  obtain ⟨j, lml, k1, k2, k3, -⟩ := C34_full G' g1 a fullFn params h.hwf hne hgs τ hτ hτ0 hσ s hs L hl
  obtain ⟨j', lml', k1', k2', k3', -⟩ := C34_diagonal (fun i => G' i i) (posSemidef_diag_nonneg g1) a fullFn params h.hwf hne hgs τ hτ hτ0 hσ s hs L hl
  refine ⟨lml, lml', k2, k2', ?_⟩
  have hj : j' = j := Except.ok.inj (k1'.symm.trans k1)
  have hpd := precision_posDef g1 hτ0 hσ hs
  rw [k3, k3', hj, logEvidence, logEvidence, diag_precision, Matrix.det_smul, Matrix.det_smul, Matrix.det_diagonal]
  have hpi : (0 : ℝ) < (2 * Real.pi)⁻¹ ^ Fintype.card (Fin p) := by positivity
  have := Real.log_le_log (mul_pos hpi hpd.det_pos) (mul_le_mul_of_nonneg_left (det_le_prod_diag hpd) hpi.le)
  linarith

end

/-! ### The predictive variances have no order -/

/-- A linear model with two features, `f(x, θ) = x₁ θ₁ + x₂ θ₂`. -/
def featureFn (x : ℝ × ℝ) (θ : Vec 2) : Vec 1 := fun _ => x.1 * θ 0 + x.2 * θ 1

/-- The model as a network with output shape `(1,)`. -/
def featureNet : Net (ℝ × ℝ) 2 := ⟨[1], featureFn⟩

/-- Its Jacobian. -/
def featureRow (x : ℝ × ℝ) : Matrix (Fin 1) (Fin 2) ℝ := Matrix.of fun _ => ![x.1, x.2]

theorem featureNet_jacobian (x : ℝ × ℝ) (θ : Vec 2) :
    DifferentiableAt ℝ (featureFn x) θ ∧ jacobian (featureFn x) θ = featureRow x := by
  have h : featureFn x = fun t => featureRow x *ᵥ t := by
    funext t k
    simp [featureFn, featureRow, Matrix.mulVec, dotProduct, Fin.sum_univ_succ]
  have h' : HasFDerivAt (featureFn x) (LinearMap.toContinuousLinearMap (Matrix.toLin' (featureRow x))) θ := by
    rw [h]
    exact (LinearMap.toContinuousLinearMap (Matrix.toLin' (featureRow x))).hasFDerivAt
  refine ⟨h'.differentiableAt, ?_⟩
  ext k j
  simp [jacobian, h'.fderiv]

theorem feature_cov (x : ℝ × ℝ) (θ : Vec 2) (P : Matrix (Fin 2) (Fin 2) ℝ) (a b d : ℝ) (h : P⁻¹ = !![a, b; b, d]) (k : Fin 1) :
    covAt featureFn θ P x k k = a * x.1 ^ 2 + 2 * b * x.1 * x.2 + d * x.2 ^ 2 := by
  rw [covAt, (featureNet_jacobian x θ).2, h]
  simp [featureRow, Matrix.mul_apply, Fin.sum_univ_two]
  ring

/-- One training point with features `(1, 1)`. -/
theorem feature_train (curvType ct : EnumArg) (hct : convertToEnum (fun s => s) curvApproxValues false curvType = .ok ct) :
    LaplaceCall (fun s => s) (fun _ _ : PyObj Unit => .ok [(((1 : ℝ), (1 : ℝ)), ())]) featureNet.fn testMean ![3, 5] (.tup [.arr (), .arr ()])
      [((1, 1), ())] "mse" (fun jv _ _ => mseHessianMv jv) curvType ct := by
  refine ⟨by norm_num, testMean_wf, by simp [testMean, entries, Tree.leaves, Tree.leavesL], ?_, fun s _ => (featureNet_jacobian _ _).1, rfl, hct⟩
  exact ⟨[(.arr (), .arr ())], fun _ => [((1, 1), ())], DataOf.single _ _ (BatchOf.pair _ _), fun _ _ => rfl, rfl⟩

/-- **C71 (no order of the predictive variances).** Although the weight variances are ordered, the variances of the predictions are not: for a
linear model fitted to one point, the diagonal approximation reports a larger variance than the full one at the training input and a smaller
one at an input orthogonal to it. -/
theorem C71_no_order_of_predictive_variances :
    ∃ posteriorFn est posteriorFn' est',
      laplace (fun s => s) (fun _ => .error .valueError) (fun _ _ : PyObj Unit => .ok [(((1 : ℝ), (1 : ℝ)), ())]) featureNet.fn testMean
        (.tup [.arr (), .arr ()]) (.name "mse") (.str "full") (fun e => if e = .member "full" then .full else .diagonal) 1 1 = .ok (posteriorFn, est) ∧
      laplace (fun s => s) (fun _ => .error .valueError) (fun _ _ : PyObj Unit => .ok [(((1 : ℝ), (1 : ℝ)), ())]) featureNet.fn testMean
        (.tup [.arr (), .arr ()]) (.name "mse") (.str "diagonal") (fun e => if e = .member "full" then .full else .diagonal) 1 1 = .ok (posteriorFn', est') ∧
      (∃ m V V', Reports (fun s => s) (.str "linear") (.member "none") ⟨testRng, featureNet, testMean, posteriorFn, fun _ _ _ _ => .error .typeError, (), 3⟩
          ⟨some 1, none⟩ (1, 1) m V ∧
        Reports (fun s => s) (.str "linear") (.member "none") ⟨testRng, featureNet, testMean, posteriorFn', fun _ _ _ _ => .error .typeError, (), 3⟩
          ⟨some 1, none⟩ (1, 1) m V' ∧ ∀ k, V k < V' k) ∧
      ∃ m V V', Reports (fun s => s) (.str "linear") (.member "none") ⟨testRng, featureNet, testMean, posteriorFn, fun _ _ _ _ => .error .typeError, (), 3⟩
          ⟨some 1, none⟩ (1, -1) m V ∧
        Reports (fun s => s) (.str "linear") (.member "none") ⟨testRng, featureNet, testMean, posteriorFn', fun _ _ _ _ => .error .typeError, (), 3⟩
          ⟨some 1, none⟩ (1, -1) m V' ∧ ∀ k, V' k < V k := by
  have hf := feature_train (.str "full") (.member "full") rfl
  have hd := feature_train (.str "diagonal") (.member "diagonal") rfl
  obtain ⟨G, g1, g2, g3⟩ := C47_laplace_curvature (fun s => s) (fun _ => .error .valueError) (fun _ _ : PyObj Unit => .ok [(((1 : ℝ), (1 : ℝ)), ())])
    featureNet.fn testMean ![3, 5] _ _ "mse" _ _ _ hf (fun e => if e = .member "full" then .full else .diagonal) 1 1 one_ne_zero
  obtain ⟨G', g1', g2', g3'⟩ := C47_laplace_curvature (fun s => s) (fun _ => .error .valueError) (fun _ _ : PyObj Unit => .ok [(((1 : ℝ), (1 : ℝ)), ())])
    featureNet.fn testMean ![3, 5] _ _ "mse" _ _ _ hd (fun e => if e = .member "full" then .full else .diagonal) 1 1 one_ne_zero
  have hG : ∀ M : Matrix (Fin 2) (Fin 2) ℝ, (∀ v, M *ᵥ v = (((1 : ℕ) : ℝ) / ((1 : ℕ) : ℝ)) • ggnSamples featureNet.fn ![3, 5] (fun jv _ (_ : Unit) => mseHessianMv jv)
      [((1, 1), ())] v) → M = !![2, 2; 2, 2] := by
    intro M hM
    apply Matrix.toLin'.injective
    apply LinearMap.ext; intro v
    rw [Matrix.toLin'_apply, Matrix.toLin'_apply, hM]
    have e : ggnSamples featureNet.fn ![3, 5] (fun jv _ (_ : Unit) => mseHessianMv jv) [((1, 1), ())] v =
        (featureRow (1, 1))ᵀ *ᵥ mseHessianMv (featureRow (1, 1) *ᵥ v) + 0 := by
      rw [← (featureNet_jacobian (1, 1) ![3, 5]).2]; rfl
    rw [e]
    funext k
    fin_cases k <;>
      simp [featureRow, mseHessianMv, Matrix.mulVec, dotProduct, Fin.sum_univ_two] <;> ring
  obtain rfl := hG G g2
  obtain rfl := hG G' g2'
  have p1 : (targetPrecision 1 1 1 (.full !![2, 2; 2, 2] : CurvEstimate 2))⁻¹ = !![3/5, -2/5; -2/5, 3/5] := by
    apply Matrix.inv_eq_right_inv
    show precision _ _ _ _ * _ = _
    ext i j
    fin_cases i <;> fin_cases j <;> simp [precision, Matrix.mul_apply, Fin.sum_univ_two] <;> norm_num
  have p2 : (targetPrecision 1 1 1 (.diagonal fun i => (!![2, 2; 2, 2] : Matrix (Fin 2) (Fin 2) ℝ) i i))⁻¹ = !![1/3, 0; 0, 1/3] := by
    apply Matrix.inv_eq_right_inv
    show precision _ _ _ _ * _ = _
    ext i j
    fin_cases i <;> fin_cases j <;> simp [precision, Matrix.mul_apply, Fin.sum_univ_two] <;> norm_num
  have r1 := fun x => reports (a := ⟨testRng, featureNet, testMean, fun q s => setPosteriorFn (.full !![2, 2; 2, 2]) (.tree testMean) q s,
      fun _ _ _ _ => .error .typeError, (), 3⟩)
    (⟨rfl, rfl, testRng_ok, hf.hp, hf.hwf, hf.hθ, g1, rfl, Or.inl rfl⟩ : ApiLinear (fun s => s) (.str "linear") (.member "none") "none" _ ![3, 5]
      (.full !![2, 2; 2, 2])) ⟨some 1, none⟩ (τ := 1) rfl one_pos (by norm_num) x
  have r2 := fun x => reports (a := ⟨testRng, featureNet, testMean, fun q s => setPosteriorFn (.diagonal fun i => (!![2, 2; 2, 2] : Matrix (Fin 2) (Fin 2) ℝ) i i)
      (.tree testMean) q s, fun _ _ _ _ => .error .typeError, (), 3⟩)
    (⟨rfl, rfl, testRng_ok, hf.hp, hf.hwf, hf.hθ, posSemidef_diag_nonneg g1, rfl, Or.inl rfl⟩ :
      ApiLinear (fun s => s) (.str "linear") (.member "none") "none" _ ![3, 5]
        (.diagonal fun i => (!![2, 2; 2, 2] : Matrix (Fin 2) (Fin 2) ℝ) i i))
    ⟨some 1, none⟩ (τ := 1) rfl one_pos (by norm_num) x
  refine ⟨_, .full !![2, 2; 2, 2], _, .diagonal fun i => (!![2, 2; 2, 2] : Matrix (Fin 2) (Fin 2) ℝ) i i, g3, g3',
    ⟨_, _, _, r1 (1, 1), r2 (1, 1), fun k => ?_⟩, ⟨_, _, _, r1 (1, -1), r2 (1, -1), fun k => ?_⟩⟩
  · refine lt_of_eq_of_lt (feature_cov (1, 1) _ _ _ _ _ p1 k) (lt_of_lt_of_eq ?_ (feature_cov (1, 1) _ _ _ _ _ p2 k).symm)
    norm_num
  · refine lt_of_eq_of_lt (feature_cov (1, -1) _ _ _ _ _ p2 k) (lt_of_lt_of_eq ?_ (feature_cov (1, -1) _ _ _ _ _ p1 k).symm)
    norm_num

/-! ### Non-vacuity -/

/-- Both approximations for the example network: ordered variances, and an ordered evidence. -/
example : ∃ posteriorFn est posteriorFn' est',
    laplace (fun s => s) (fun _ => .error .valueError) (fun _ _ : PyObj Unit => .ok [(((1 : ℝ), (1 : ℝ)), ())]) featureNet.fn testMean
      (.tup [.arr (), .arr ()]) (.name "mse") (.str "full") (fun e => if e = .member "full" then .full else .diagonal) 1 1 = .ok (posteriorFn, est) ∧
    laplace (fun s => s) (fun _ => .error .valueError) (fun _ _ : PyObj Unit => .ok [(((1 : ℝ), (1 : ℝ)), ())]) featureNet.fn testMean
      (.tup [.arr (), .arr ()]) (.name "mse") (.str "diagonal") (fun e => if e = .member "full" then .full else .diagonal) 1 1 = .ok (posteriorFn', est') ∧
    ∃ lml lml', marginalLogLikelihood est ⟨⟨some 2, none⟩, none⟩ (.ok fun _ => .ok 7) testMean = .ok lml ∧
      marginalLogLikelihood est' ⟨⟨some 2, none⟩, none⟩ (.ok fun _ => .ok 7) testMean = .ok lml' ∧ lml' ≤ lml := by
  obtain ⟨pf, est, pf', est', h1, h2, h3⟩ := C71_evidence (fun s => s) (fun _ => .error .valueError)
    (fun _ _ : PyObj Unit => .ok [(((1 : ℝ), (1 : ℝ)), ())]) featureNet.fn testMean ![3, 5] _ _ "mse" _ (.str "full") (.member "full") (.str "diagonal")
    (.member "diagonal") (fun e => if e = .member "full" then .full else .diagonal) 1 1 (feature_train _ _ rfl) (feature_train _ _ rfl) rfl rfl one_ne_zero
    (fun _ => .ok 7) 7 rfl
  exact ⟨pf, est, pf', est', h1, h2, h3 ⟨⟨some 2, none⟩, none⟩ 2 rfl (by norm_num) (by norm_num) 1 one_pos⟩

example : ∃ posteriorFn est posteriorFn' est',
    laplace (fun s => s) (fun _ => .error .valueError) (fun _ _ : PyObj Unit => .ok [(((1 : ℝ), (1 : ℝ)), ())]) featureNet.fn testMean
      (.tup [.arr (), .arr ()]) (.name "mse") (.str "full") (fun e => if e = .member "full" then .full else .diagonal) 1 1 = .ok (posteriorFn, est) ∧
    laplace (fun s => s) (fun _ => .error .valueError) (fun _ _ : PyObj Unit => .ok [(((1 : ℝ), (1 : ℝ)), ())]) featureNet.fn testMean
      (.tup [.arr (), .arr ()]) (.name "mse") (.str "diagonal") (fun e => if e = .member "full" then .full else .diagonal) 1 1 = .ok (posteriorFn', est') := by
  obtain ⟨pf, est, pf', est', h1, h2, -⟩ := C71_weight_variances (fun s => s) (fun _ => .error .valueError)
    (fun _ _ : PyObj Unit => .ok [(((1 : ℝ), (1 : ℝ)), ())]) featureNet.fn testMean ![3, 5] _ _ "mse" _ (.str "full") (.member "full") (.str "diagonal")
    (.member "diagonal") (fun e => if e = .member "full" then .full else .diagonal) 1 1 (feature_train _ _ rfl) (feature_train _ _ rfl) rfl rfl one_ne_zero
  exact ⟨pf, est, pf', est', h1, h2⟩

end Laplax.Props
