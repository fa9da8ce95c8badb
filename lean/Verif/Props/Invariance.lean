import Verif.Props.Uncertainty

/-! # C63: what does not matter: target values (named losses) and the arrangement of the parameters -/

namespace Laplax.Props
open Laplax Spec
open scoped BigOperators Matrix

variable {p c : ℕ} {A X Y K : Type}

/-- The Hessian products of the named losses do not look at the target. -/
theorem named_ignores_target {loss : String} {H : Vec c → Vec c → Y → Vec c} (h : createLossHessianMv (.name loss) = .ok H) :
    ∃ H0 : Vec c → Vec c → Vec c, H = fun jv pred _ => H0 jv pred := by
  simp only [createLossHessianMv] at h
  split at h
  · exact ⟨_, (Except.ok.inj h).symm⟩
  split at h
  · exact ⟨_, (Except.ok.inj h).symm⟩
  split at h
  · exact ⟨fun jv _ => mseHessianMv jv, (Except.ok.inj h).symm⟩
  split at h
  · exact ⟨fun jv _ => jv, (Except.ok.inj h).symm⟩
  · cases h

/-- **C63 (targets).** With a named loss, `laplace` gives the same curvature estimate and posterior function for data with the same inputs
(in any order and batching), whatever the target values are: the named losses have second derivatives that do not depend on the target. -/
theorem C63_targets_ignored (lower : String → String) (rows : A → Except Err (List A))
    (points : PyObj A → PyObj A → Except Err (List (X × Y))) (model : X → Vec p → Vec c) (params : PyTree ℝ) (θ : Vec p)
    (data data' : PyObj A) (samples samples' : List (X × Y)) (hperm : (samples.map Prod.fst).Perm (samples'.map Prod.fst)) (loss : String)
    (H : Vec c → Vec c → Y → Vec c) (curvType ct : EnumArg)
    (h : LaplaceCall lower points model params θ data samples loss H curvType ct)
    (h' : LaplaceCall lower points model params θ data' samples' loss H curvType ct)
    (kind : EnumArg → LaplaceKind p) (numCurv numTotal : ℕ) (hN : numTotal ≠ 0) :
    laplace lower rows points model params data (.name loss) curvType kind numCurv numTotal =
      laplace lower rows points model params data' (.name loss) curvType kind numCurv numTotal := by
  obtain ⟨G, -, h2, h3⟩ := C47_laplace_curvature lower rows points model params θ data samples loss H curvType ct h kind numCurv numTotal hN
  obtain ⟨G', -, h2', h3'⟩ := C47_laplace_curvature lower rows points model params θ data' samples' loss H curvType ct h' kind numCurv numTotal hN
  obtain ⟨H0, hH0⟩ := named_ignores_target h.hH
  have hs : ∀ ss v, ggnSamples model θ H ss v =
      ((ss.map Prod.fst).map fun x => (jacobian (model x) θ)ᵀ *ᵥ H0 (jacobian (model x) θ *ᵥ v) (model x θ)).sum := by
    intro ss v
    rw [ggnSamples, List.map_map, hH0]; rfl
  have : G = G' := by
    apply Matrix.toLin'.injective
    apply LinearMap.ext; intro v
    rw [Matrix.toLin'_apply, Matrix.toLin'_apply, h2, h2', hs, hs, (hperm.map _).sum_eq]
  rw [h3, h3', this]

/-! ### Arrangement of the parameters -/

theorem jacobian_rearranged (f : Vec p → Vec c) (π : Equiv.Perm (Fin p)) (θ : Vec p) :
    jacobian (fun v => f (v ∘ π.symm)) (θ ∘ π) = (jacobian f θ).submatrix id π := by
  let e : Vec p ≃L[ℝ] Vec p := ContinuousLinearEquiv.piCongrLeft ℝ (fun _ => ℝ) π
  have he : ∀ v, e v = v ∘ π.symm := by
    intro v; funext k
    show (Equiv.piCongrLeft (fun _ => ℝ) π) v k = _
    rw [Equiv.piCongrLeft_apply, eq_rec_constant]
    rfl
  have hf : (fun v => f (v ∘ π.symm)) = f ∘ e := by funext v; rw [Function.comp, he]
  ext i j
  simp only [jacobian, Matrix.of_apply, Matrix.submatrix_apply, id]
  rw [hf, e.comp_right_fderiv]
  have h1 : e (θ ∘ π) = θ := by rw [he]; funext k; simp
  have h2 : e (Pi.single j 1) = Pi.single (π j) 1 := by
    rw [he]; funext k
    by_cases hk : k = π j
    · subst hk; simp
    · have : π.symm k ≠ j := fun h => hk (by rw [← h]; simp)
      simp [hk, this]
  rw [h1]
  show (fderiv ℝ f θ) (e (Pi.single j 1)) i = _
  rw [h2]

theorem mulVec_rearranged (J : Matrix (Fin c) (Fin p) ℝ) (π : Equiv.Perm (Fin p)) (v : Vec p) :
    J.submatrix id π *ᵥ v = J *ᵥ (v ∘ π.symm) := by
  funext i
  simp only [Matrix.mulVec, dotProduct, Matrix.submatrix_apply, id]
  rw [← Equiv.sum_comp π (fun x => J i x * (v ∘ π.symm) x)]
  simp

theorem ggn_rearranged (f : X → Vec p → Vec c) (π : Equiv.Perm (Fin p)) (θ : Vec p) (H : Vec c → Vec c → Y → Vec c) (ss : List (X × Y))
    (v : Vec p) : ggnSamples (fun x w => f x (w ∘ π.symm)) (θ ∘ π) H ss v = ggnSamples f θ H ss (v ∘ π.symm) ∘ π := by
  have hθ : (θ ∘ π) ∘ π.symm = θ := by funext k; simp
  induction ss with
  | nil => simp [ggnSamples]
  | cons s ss ih =>
    simp only [ggnSamples, List.map_cons, List.sum_cons] at ih ⊢
    rw [ih, jacobian_rearranged (f s.1) π θ, mulVec_rearranged, hθ]
    funext j
    rfl

theorem matrix_rearranged {f : X → Vec p → Vec c} {π : Equiv.Perm (Fin p)} {θ : Vec p} {H : Vec c → Vec c → Y → Vec c} {ss : List (X × Y)}
    {r : ℝ} {G G' : Matrix (Fin p) (Fin p) ℝ} (h : ∀ v, G *ᵥ v = r • ggnSamples f θ H ss v)
    (h' : ∀ v, G' *ᵥ v = r • ggnSamples (fun x w => f x (w ∘ π.symm)) (θ ∘ π) H ss v) : G' = G.submatrix π π := by
  apply Matrix.toLin'.injective
  apply LinearMap.ext; intro v
  rw [Matrix.toLin'_apply, Matrix.toLin'_apply, h', ggn_rearranged]
  have : G.submatrix π π *ᵥ v = (G.submatrix id π *ᵥ v) ∘ π := rfl
  rw [this, mulVec_rearranged, h]
  rfl

/-- The estimate with rearranged parameters. -/
theorem precision_rearranged {π : Equiv.Perm (Fin p)} {est est' : CurvEstimate p} (h : curvOf est' = (curvOf est).submatrix π π) (τ σ : ℝ) :
    targetPrecision τ σ 1 est' = (targetPrecision τ σ 1 est).submatrix π π := by
  rw [targetPrecision_eq, targetPrecision_eq, h]
  ext i j
  by_cases hij : i = j
  · subst hij; simp
  · have : π i ≠ π j := fun e => hij (π.injective e)
    simp [hij, this]

theorem covAt_rearranged (f : X → Vec p → Vec c) (π : Equiv.Perm (Fin p)) (θ : Vec p) (P : Matrix (Fin p) (Fin p) ℝ) (x : X) :
    covAt (fun x w => f x (w ∘ π.symm)) (θ ∘ π) (P.submatrix π π) x = covAt f θ P x := by
  rw [covAt, covAt, jacobian_rearranged (f x) π θ, Matrix.inv_submatrix_equiv, Matrix.transpose_submatrix, Matrix.submatrix_mul_equiv,
    Matrix.submatrix_mul_equiv]
  rfl

/-- The estimates `laplace` makes for the two arrangements. -/
theorem laplace_rearranged (lower : String → String) (rows : A → Except Err (List A)) (points : PyObj A → PyObj A → Except Err (List (X × Y)))
    (net : Net X p) (π : Equiv.Perm (Fin p)) (params params' : PyTree ℝ) (θ : Vec p) (data : PyObj A) (samples : List (X × Y)) (loss : String)
    (H : Vec (shapeSize net.shape) → Vec (shapeSize net.shape) → Y → Vec (shapeSize net.shape)) (curvType ct : EnumArg)
    (h : LaplaceCall lower points net.fn params θ data samples loss H curvType ct)
    (h' : LaplaceCall lower points (rearranged net π).fn params' (θ ∘ π) data samples loss H curvType ct)
    (kind : EnumArg → LaplaceKind p) (hk : kind ct = .full ∨ kind ct = .diagonal) (numCurv numTotal : ℕ) (hN : numTotal ≠ 0) :
    ∃ est est', laplace lower rows points net.fn params data (.name loss) curvType kind numCurv numTotal =
        .ok (fun a s => setPosteriorFn est (.tree params) a s, est) ∧
      laplace lower rows points (rearranged net π).fn params' data (.name loss) curvType kind numCurv numTotal =
        .ok (fun a s => setPosteriorFn est' (.tree params') a s, est') ∧
      EstimatePsd est ∧ EstimatePsd est' ∧ curvOf est' = (curvOf est).submatrix π π := by
  obtain ⟨G, g1, g2, g3⟩ := C47_laplace_curvature lower rows points net.fn params θ data samples loss H curvType ct h kind numCurv numTotal hN
  obtain ⟨G', g1', g2', g3'⟩ := C47_laplace_curvature lower rows points (rearranged net π).fn params' (θ ∘ π) data samples loss H curvType ct h'
    kind numCurv numTotal hN
  have hG : G' = G.submatrix π π := matrix_rearranged g2 g2'
  subst hG
  rcases hk with e | e
  · exact ⟨.full G, .full (G.submatrix π π), by rw [g3, e]; rfl, by rw [g3', e]; rfl, g1, g1', rfl⟩
  · refine ⟨.diagonal fun i => G i i, .diagonal fun i => G (π i) (π i), by rw [g3, e]; rfl, by rw [g3', e]; rfl, posSemidef_diag_nonneg g1,
      posSemidef_diag_nonneg g1', ?_⟩
    simp only [curvOf]
    ext i j
    by_cases hij : i = j
    · subst hij; simp
    · have : π i ≠ π j := fun e => hij (π.injective e)
      simp [hij, this]

/-- **C63 (arrangement of the parameters).** Storing the parameters in another pytree — other key names, nesting, order or shapes — together
with the model that reads them from there, and fitting the same data (dense or diagonal curvature), gives a linearised predictive that
reports the same means and variances for all prior arguments and inputs. -/
theorem C63_parameter_layout (lower : String → String) (rows : A → Except Err (List A)) (points : PyObj A → PyObj A → Except Err (List (X × Y)))
    (net : Net X p) (π : Equiv.Perm (Fin p)) (params params' : PyTree ℝ) (θ : Vec p) (data : PyObj A) (samples : List (X × Y)) (loss : String)
    (H : Vec (shapeSize net.shape) → Vec (shapeSize net.shape) → Y → Vec (shapeSize net.shape)) (curvType ct : EnumArg)
    (h : LaplaceCall lower points net.fn params θ data samples loss H curvType ct)
    (h' : LaplaceCall lower points (rearranged net π).fn params' (θ ∘ π) data samples loss H curvType ct)
    (kind : EnumArg → LaplaceKind p) (hk : kind ct = .full ∨ kind ct = .diagonal) (numCurv numTotal : ℕ) (hN : numTotal ≠ 0)
    (pushforward predictive : EnumArg) (pr : String)
    (hpf : convertToEnum lower pushforwardValues false pushforward = .ok (.member "linear"))
    (hpr : convertToEnum lower predictiveValues false predictive = .ok (.member pr))
    (rng : Prng K) (hrng : RngOk rng) (custom : ℕ → PfStep X K p) (key : K) (S : ℕ) (hu : ApiUsable net.shape S pr) :
    ∃ posteriorFn est posteriorFn' est',
      laplace lower rows points net.fn params data (.name loss) curvType kind numCurv numTotal = .ok (posteriorFn, est) ∧
      laplace lower rows points (rearranged net π).fn params' data (.name loss) curvType kind numCurv numTotal = .ok (posteriorFn', est') ∧
      ∀ (prior : PriorArgs) (τ : ℝ), prior.priorPrec = some τ → 0 < τ → 0 ≤ prior.sigmaSquared.getD 1 → ∀ x, ∃ m V,
        Reports lower pushforward predictive ⟨rng, net, params, posteriorFn, custom, key, S⟩ prior x m V ∧
        Reports lower pushforward predictive ⟨rng, rearranged net π, params', posteriorFn', custom, key, S⟩ prior x m V := by
  obtain ⟨est, est', e1, e2, e3, e4, e5⟩ := laplace_rearranged lower rows points net π params params' θ data samples loss H curvType ct h h' kind hk
    numCurv numTotal hN
  refine ⟨_, est, _, est', e1, e2, fun prior τ hτ hτ0 hσ x => ?_⟩
  have r1 := reports (a := ⟨rng, net, params, fun q s => setPosteriorFn est (.tree params) q s, custom, key, S⟩)
    (⟨hpf, hpr, hrng, h.hp, h.hwf, h.hθ, e3, rfl, hu⟩ : ApiLinear lower pushforward predictive pr _ θ est) prior hτ hτ0 hσ x
  have r2 := reports (a := ⟨rng, rearranged net π, params', fun q s => setPosteriorFn est' (.tree params') q s, custom, key, S⟩)
    (⟨hpf, hpr, hrng, h.hp, h'.hwf, h'.hθ, e4, rfl, hu⟩ : ApiLinear lower pushforward predictive pr _ (θ ∘ π) est') prior hτ hτ0 hσ x
  refine ⟨_, _, r1, ?_⟩
  have hm : (rearranged net π).fn x (θ ∘ π) = net.fn x θ := by
    show net.fn x ((θ ∘ π) ∘ π.symm) = _
    congr 1; funext k; simp
  rw [precision_rearranged e5] at r2
  have hv := covAt_rearranged net.fn π θ (targetPrecision τ (prior.sigmaSquared.getD 1) 1 est) x
  simp only [rearranged] at r2 hm
  rw [hv, hm] at r2
  exact r2

/-- A search has one choice. -/
theorem chosen_unique {xs : List ℝ} {s : ℝ → WithTop ℝ} {patience : Option Int} {q q' : ℝ} {tried tried' : List ℝ}
    (h : ChosenBy xs s patience q tried) (h' : ChosenBy xs s patience q' tried') : q = q' ∧ tried = tried' := by
  obtain ⟨n, i, a1, -, a3, a4, a5, a6, a7⟩ := h
  obtain ⟨n', i', b1, -, b3, b4, b5, b6, b7⟩ := h'
  have hn : n = n' := by
    rcases lt_trichotomy n n' with hlt | rfl | hlt
    · exact absurd a3 (b4 n (by omega) hlt)
    · rfl
    · exact absurd b3 (a4 n' (by omega) hlt)
  subst hn
  have hi : i = i' := by
    rcases lt_trichotomy i i' with hlt | rfl | hlt
    · exact absurd (b5.2.2 i hlt) (not_lt.2 (a5.2.1 i' b1))
    · rfl
    · exact absurd (a5.2.2 i' hlt) (not_lt.2 (b5.2.1 i a1))
  subst hi
  exact ⟨Option.some.inj (a6.symm.trans b6), by rw [a7, b7]⟩

theorem curvOf_estimateFrom {π : Equiv.Perm (Fin p)} (G : Matrix (Fin p) (Fin p) ℝ) {kind : LaplaceKind p} (hk : kind = .full ∨ kind = .diagonal) :
    ∃ est est', EstimateFrom G kind est ∧ EstimateFrom (G.submatrix π π) kind est' ∧ curvOf est' = (curvOf est).submatrix π π := by
  rcases hk with rfl | rfl
  · exact ⟨.full G, .full _, Or.inl ⟨rfl, rfl⟩, Or.inl ⟨rfl, rfl⟩, rfl⟩
  · refine ⟨.diagonal fun i => G i i, .diagonal fun i => G (π i) (π i), Or.inr (Or.inl ⟨rfl, rfl⟩), Or.inr (Or.inl ⟨rfl, rfl⟩), ?_⟩
    simp only [curvOf]
    ext i j
    by_cases hij : i = j
    · subst hij; simp
    · have : π i ≠ π j := fun e => hij (π.injective e)
      simp [hij, this]

section
variable (lower : String → String) (rows : A → Except Err (List A)) (rng : Prng K) (net : Net X p) (π : Equiv.Perm (Fin p))
  (params params' : PyTree ℝ) (θ : Vec p)
  (custom : ℕ → PfStep X K p) (key : K) (numSamples : ℕ)
  (trainPoints : PyObj A → PyObj A → Except Err (List (X × Y))) (trainData : PyObj A) (samples : List (X × Y)) (loss : String)
  (H : Vec (shapeSize net.shape) → Vec (shapeSize net.shape) → Y → Vec (shapeSize net.shape))
  (curvType ct : EnumArg) (kind : EnumArg → LaplaceKind p) (numCurv numTotal : ℕ)
  (points : PyObj A → PyObj A → Except Err (List (X × Arr ℝ))) (calData : PyObj A)
  (calLoss : (B : ℕ) → HessLossArg B (shapeSize net.shape)) (predictive pushforward objective method metrics : EnumArg)
  (options : Dict (CalMethod (PyObj A) (WithTop ℝ))) (kw : GridKwargs) (testData : PyObj A) (tt : Arr ℝ)

/-- **C63 (arrangement of the parameters, whole workflow).** Fitting, calibrating by NLL and evaluating with the default regression metrics:
another arrangement of the parameters leads to the same calibrated prior and to the same metrics. -/
theorem C63_workflow_parameter_layout (htrain : LaplaceCall lower trainPoints net.fn params θ trainData samples loss H curvType ct)
    (htrain' : LaplaceCall lower trainPoints (rearranged net π).fn params' (θ ∘ π) trainData samples loss H curvType ct)
    (hN : numTotal ≠ 0) (hrng : RngOk rng) (hpf : convertToEnum lower pushforwardValues false pushforward = .ok (.member "linear"))
    (hpr : convertToEnum lower predictiveValues false predictive = .ok (.member "none")) (hcls : NoPredictive predictive)
    (ho : convertToEnum lower calibrationObjectiveValues false objective = .ok (.member "nll"))
    (hm : convertToEnum lower calibrationMethodValues true method = .ok (.member "grid_search")) (hn : 0 < kw.gridSize.getD 50)
    (hmet : convertToEnum lower defaultMetricsValues false metrics = .ok (.member "regression")) (hc : 0 < shapeSize net.shape)
    {M : ℕ} (hM : 0 < M) (cx : Fin M → X) (cy : Fin M → Vec (shapeSize net.shape))
    (hcal : BatchIs points calData cx fun i => arrOf net.shape (cy i)) (hJc : ∀ i k, ∃ j, jacobian (net.fn (cx i)) θ k j ≠ 0)
    {N : ℕ} (xs : Fin N → X) (ys : Fin N → Vec (shapeSize net.shape))
    (htest : PointsAre points testData (List.ofFn fun i => (xs i, arrOf net.shape (ys i))))
    (hJ : ∀ i k, ∃ j, jacobian (net.fn (xs i)) θ k j ≠ 0) (hk : kind ct = .full ∨ kind ct = .diagonal) :
    ∃ prior scores g g',
      workflow lower rows rng net params custom key numSamples trainPoints trainData (.name loss) curvType kind numCurv numTotal points
        calData calLoss predictive pushforward objective method options kw testData (.enum metrics) .ok tt = .ok (prior, scores, g) ∧
      workflow lower rows rng (rearranged net π) params' custom key numSamples trainPoints trainData (.name loss) curvType kind numCurv numTotal
        points calData calLoss predictive pushforward objective method options kw testData (.enum metrics) .ok tt = .ok (prior, scores, g') := by
  have hj : ∀ x (k : Fin (shapeSize net.shape)), (∃ j, jacobian (net.fn x) θ k j ≠ 0) → ∃ j, jacobian ((rearranged net π).fn x) (θ ∘ π) k j ≠ 0 := by
    rintro x k ⟨j, h⟩
    refine ⟨π.symm j, ?_⟩
    rw [show jacobian ((rearranged net π).fn x) (θ ∘ π) = (jacobian (net.fn x) θ).submatrix id π from jacobian_rearranged (net.fn x) π θ]
    simpa using h
  obtain ⟨G, -, g2, w⟩ := C54_regression_workflow lower rows rng net params θ custom key numSamples trainPoints trainData samples loss H curvType ct
    kind numCurv numTotal points calData calLoss predictive pushforward objective method metrics options kw testData tt htrain hN hrng hpf hpr hcls ho
    hm hn hmet hc hM cx cy hcal hJc xs ys htest hJ
  obtain ⟨G', -, g2', w'⟩ := C54_regression_workflow lower rows rng (rearranged net π) params' (θ ∘ π) custom key numSamples trainPoints trainData
    samples loss H curvType ct kind numCurv numTotal points calData calLoss predictive pushforward objective method metrics options kw testData tt
    htrain' hN hrng hpf hpr hcls ho hm hn hmet hc hM cx cy hcal (fun i k => hj _ k (hJc i k)) xs ys htest (fun i k => hj _ k (hJ i k))
  have hG : G' = G.submatrix π π := matrix_rearranged g2 g2'
  subst hG
  obtain ⟨est, est', e1, e2, e3⟩ := curvOf_estimateFrom (π := π) G hk
  obtain ⟨q, tried, g, -, k2, k3⟩ := w est e1
  obtain ⟨q', tried', g', -, k2', k3'⟩ := w' est' e2
  have hmean : ∀ x, (rearranged net π).fn x (θ ∘ π) = net.fn x θ := by
    intro x
    show net.fn x ((θ ∘ π) ∘ π.symm) = _
    congr 1; funext k; simp
  have hcov : ∀ τ x, covAt (rearranged net π).fn (θ ∘ π) (targetPrecision τ 1 1 est') x = covAt net.fn θ (targetPrecision τ 1 1 est) x := by
    intro τ x
    rw [precision_rearranged e3]
    exact covAt_rearranged net.fn π θ _ x
  have hs : (fun τ => ((nllScore (rearranged net π).fn (θ ∘ π) est' cx cy τ : ℝ) : WithTop ℝ)) = fun τ => ((nllScore net.fn θ est cx cy τ : ℝ) : WithTop ℝ) := by
    funext τ
    congr 1
    simp only [nllScore, hmean]
    have : ∀ x, predCovAt (rearranged net π).fn (θ ∘ π) est' τ x = predCovAt net.fn θ est τ x := hcov τ
    simp only [this]
    rfl
  rw [hs] at k2'
  obtain ⟨rfl, -⟩ := chosen_unique k2 k2'
  refine ⟨_, _, g, g', k3, ?_⟩
  rw [k3']
  simp only [hmean, hcov]
  rfl

end

/-! ### Non-vacuity -/

/-- Inputs and targets read as numbers. -/
def testPairs : PyObj (List ℝ) → PyObj (List ℝ) → Except Err (List (ℝ × ℝ))
  | .arr xs, .arr ys => .ok (xs.zip ys)
  | _, _ => .error .valueError

theorem test_targets (ys : List ℝ) (y : List (ℝ × ℝ)) (hy : [1, 2].zip ys = y) :
    LaplaceCall (fun s => s) testPairs testNet.fn testMean ![3, 5] (.tup [.arr [1, 2], .arr ys]) y "mse"
    (fun jv _ _ => mseHessianMv jv) (.str "full") (.member "full") := by
  refine ⟨by norm_num, testMean_wf, by simp [testMean, entries, Tree.leaves, Tree.leavesL], ?_, fun s _ => testNet_differentiable _ _, rfl, rfl⟩
  refine ⟨[(.arr [1, 2], .arr ys)], fun xy => (testPairs xy.1 xy.2).toOption.getD [],
    DataOf.single _ _ (BatchOf.pair _ _), ?_, by subst hy; simp [testPairs, Except.toOption]⟩
  intro xy hxy; simp at hxy; subst hxy; rfl

example : laplace (fun s => s) (fun _ => .error .valueError) testPairs testNet.fn testMean (.tup [.arr [1, 2], .arr [7, 8]]) (.name "mse")
      (.str "full") (fun _ => .full) 1 1 =
    laplace (fun s => s) (fun _ => .error .valueError) testPairs testNet.fn testMean (.tup [.arr [1, 2], .arr [-3, 100]]) (.name "mse")
      (.str "full") (fun _ => .full) 1 1 :=
  C63_targets_ignored (fun s => s) _ testPairs testNet.fn testMean ![3, 5] _ _ [(1, 7), (2, 8)] [(1, -3), (2, 100)] (by simp) "mse" _ _ _
    (test_targets [7, 8] _ rfl) (test_targets [-3, 100] _ rfl) _ 1 1 one_ne_zero

/-- The parameters of the example in the other order and with other shapes: `{a: [[5]], z: 3}`. -/
def testMean' : PyTree ℝ := .node "dict(a,z)" [.leaf ⟨[1, 1], [5]⟩, .leaf ⟨[], [3]⟩]

theorem test_train' : LaplaceCall (fun s => if s = "Linear" then "linear" else s) testTrainPoints (rearranged testNet (Equiv.swap 0 1)).fn testMean'
    (![3, 5] ∘ Equiv.swap 0 1)
    (.iter (.reiterable [.tup [.arr [1, 2], .arr [4, 5, 6, 7]], .tup [.arr [3], .arr [8, 9]]])) [(1, ()), (2, ()), (3, ())] "mse"
    (fun jv _ _ => mseHessianMv jv) (.str "full") (.member "full") := by
  refine ⟨by norm_num, ?_, ?_, test_train.hdata, ?_, rfl, rfl⟩
  · intro a ha
    simp [testMean', Tree.leaves, Tree.leavesL] at ha
    rcases ha with rfl | rfl <;> rfl
  · simp [testMean', entries, Tree.leaves, Tree.leavesL]
  · intro s _
    have h1 := testNet_differentiable s.1 ((![3, 5] ∘ Equiv.swap (0 : Fin 2) 1) ∘ (Equiv.swap (0 : Fin 2) 1).symm)
    refine DifferentiableAt.comp (g := testNet.fn s.1) (f := fun v : Vec 2 => v ∘ (Equiv.swap (0 : Fin 2) 1).symm) _ h1 ?_
    rw [differentiableAt_pi]
    intro k
    show DifferentiableAt ℝ (fun v : Vec 2 => v ((Equiv.swap (0 : Fin 2) 1).symm k)) _
    fun_prop

example : ∃ prior scores g g',
    workflow (fun s => if s = "Linear" then "linear" else s) (fun _ => .error .valueError) testRng testNet testMean
      (fun _ _ _ _ => .error .typeError) () 3 testTrainPoints
      (.iter (.reiterable [.tup [.arr [1, 2], .arr [4, 5, 6, 7]], .tup [.arr [3], .arr [8, 9]]])) (.name "mse") (.str "full")
      (fun _ => .full) 3 3 testEvalPoints (.tup [.arr [1, 2], .arr [4, 5, 6, 7]]) (fun _ => .name "mse") (.member "none") (.str "Linear")
      (.str "nll") (.str "grid_search") [] {} testLoader (.enum (.str "regression")) .ok ⟨[], [1]⟩ = .ok (prior, scores, g) ∧
    workflow (fun s => if s = "Linear" then "linear" else s) (fun _ => .error .valueError) testRng (rearranged testNet (Equiv.swap 0 1)) testMean'
      (fun _ _ _ _ => .error .typeError) () 3 testTrainPoints
      (.iter (.reiterable [.tup [.arr [1, 2], .arr [4, 5, 6, 7]], .tup [.arr [3], .arr [8, 9]]])) (.name "mse") (.str "full")
      (fun _ => .full) 3 3 testEvalPoints (.tup [.arr [1, 2], .arr [4, 5, 6, 7]]) (fun _ => .name "mse") (.member "none") (.str "Linear")
      (.str "nll") (.str "grid_search") [] {} testLoader (.enum (.str "regression")) .ok ⟨[], [1]⟩ = .ok (prior, scores, g') :=
  C63_workflow_parameter_layout (fun s => if s = "Linear" then "linear" else s) (fun _ => .error .valueError) testRng testNet (Equiv.swap 0 1)
    testMean testMean' ![3, 5] (fun _ _ _ _ => .error .typeError) () 3 testTrainPoints _ _ "mse" _ (.str "full") (.member "full") (fun _ => .full) 3 3
    testEvalPoints (.tup [.arr [1, 2], .arr [4, 5, 6, 7]]) (fun _ => .name "mse") (.member "none") (.str "Linear") (.str "nll") (.str "grid_search")
    (.str "regression") [] {} testLoader ⟨[], [1]⟩ test_train test_train' (by norm_num) testRng_ok rfl rfl (Or.inl rfl) rfl rfl (by decide) rfl
    (by decide) (M := 2) (by norm_num) ![1, 2] (![![4, 5], ![6, 7]] : Fin 2 → Fin 2 → ℝ)
    ⟨_, BatchOf.pair _ _, by simp [testEvalPoints, arrOf, testNet, List.ofFn_succ]; exact ⟨rfl, rfl⟩⟩
    (fun i k => by apply test_gradient; fin_cases i <;> simp)
    ![1, 2, 3] (![![4, 5], ![6, 7], ![8, 9]] : Fin 3 → Fin 2 → ℝ) test_points
    (fun i k => by apply test_gradient; fin_cases i <;> simp) (Or.inl rfl)

end Laplax.Props
