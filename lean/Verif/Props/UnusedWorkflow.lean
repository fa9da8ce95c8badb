import Verif.Props.UnusedParams

/-! # C70: parameters that the model does not use — whole workflows and witnesses -/

namespace Laplax.Props
open Laplax Spec
open scoped BigOperators Matrix

variable {p q c : ℕ} {A X Y K : Type} {ι : Fin p → Fin q}

section
variable (lower : String → String) (rows : A → Except Err (List A)) (rng : Prng K) (net : Net X p)
  (params params' : PyTree ℝ) (w : Vec q)
  (custom : ℕ → PfStep X K p) (custom' : ℕ → PfStep X K q) (key : K) (numSamples : ℕ)
  (trainPoints : PyObj A → PyObj A → Except Err (List (X × Y))) (trainData : PyObj A) (samples : List (X × Y)) (loss : String)
  (H : Vec (shapeSize net.shape) → Vec (shapeSize net.shape) → Y → Vec (shapeSize net.shape))
  (curvType ct : EnumArg) (kind : EnumArg → LaplaceKind p) (kind' : EnumArg → LaplaceKind q) (numCurv numTotal : ℕ)
  (points : PyObj A → PyObj A → Except Err (List (X × Arr ℝ))) (calData : PyObj A)
  (calLoss : (B : ℕ) → HessLossArg B (shapeSize net.shape)) (predictive pushforward objective method metrics : EnumArg)
  (options : Dict (CalMethod (PyObj A) (WithTop ℝ))) (kw : GridKwargs) (testData : PyObj A) (tt : Arr ℝ)

theorem gradient_reading (hι : Function.Injective ι) (x : X) (k : Fin (shapeSize net.shape)) (h : ∃ j, jacobian (net.fn x) (w ∘ ι) k j ≠ 0) :
    ∃ j, jacobian ((reading net ι).fn x) w k j ≠ 0 := by
  obtain ⟨j, h⟩ := h
  refine ⟨ι j, ?_⟩
  rw [show jacobian ((reading net ι).fn x) w = jacobian (net.fn x) (w ∘ ι) * readMat ι from jacobian_reading (net.fn x) hι w, Matrix.mul_apply,
    Finset.sum_eq_single j]
  · simpa [readMat] using h
  · intro b _ hb
    have : ι j ≠ ι b := fun e => hb (hι e).symm
    simp [readMat, this]
  · simp

theorem chosen_pos {a b : ℝ} {n : ℕ} {s : ℝ → WithTop ℝ} {pat : Option Int} {τ : ℝ} {tried : List ℝ} (h : ChosenBy (precGrid a b n) s pat τ tried) :
    0 < τ := by
  obtain ⟨n, i, _, _, _, _, _, h6, _⟩ := h
  exact precGrid_pos (List.mem_of_getElem? h6)

/-- **C70 (whole workflow).** Fitting, calibrating by NLL and evaluating with the default regression metrics: parameters that the model
does not use change neither the calibrated prior nor any metric. -/
theorem C70_workflow (hι : Function.Injective ι)
    (htrain : LaplaceCall lower trainPoints net.fn params (w ∘ ι) trainData samples loss H curvType ct)
    (htrain' : LaplaceCall lower trainPoints (reading net ι).fn params' w trainData samples loss H curvType ct)
    (hN : numTotal ≠ 0) (hrng : RngOk rng) (hpf : convertToEnum lower pushforwardValues false pushforward = .ok (.member "linear"))
    (hpr : convertToEnum lower predictiveValues false predictive = .ok (.member "none")) (hcls : NoPredictive predictive)
    (ho : convertToEnum lower calibrationObjectiveValues false objective = .ok (.member "nll"))
    (hm : convertToEnum lower calibrationMethodValues true method = .ok (.member "grid_search")) (hn : 0 < kw.gridSize.getD 50)
    (hmet : convertToEnum lower defaultMetricsValues false metrics = .ok (.member "regression")) (hc : 0 < shapeSize net.shape)
    {M : ℕ} (hM : 0 < M) (cx : Fin M → X) (cy : Fin M → Vec (shapeSize net.shape))
    (hcal : BatchIs points calData cx fun i => arrOf net.shape (cy i)) (hJc : ∀ i k, ∃ j, jacobian (net.fn (cx i)) (w ∘ ι) k j ≠ 0)
    {N : ℕ} (xs : Fin N → X) (ys : Fin N → Vec (shapeSize net.shape))
    (htest : PointsAre points testData (List.ofFn fun i => (xs i, arrOf net.shape (ys i))))
    (hJ : ∀ i k, ∃ j, jacobian (net.fn (xs i)) (w ∘ ι) k j ≠ 0) (hk : SameKind (kind ct) (kind' ct)) :
    ∃ prior scores g g',
      workflow lower rows rng net params custom key numSamples trainPoints trainData (.name loss) curvType kind numCurv numTotal points
        calData calLoss predictive pushforward objective method options kw testData (.enum metrics) .ok tt = .ok (prior, scores, g) ∧
      workflow lower rows rng (reading net ι) params' custom' key numSamples trainPoints trainData (.name loss) curvType kind' numCurv numTotal
        points calData calLoss predictive pushforward objective method options kw testData (.enum metrics) .ok tt = .ok (prior, scores, g') := by
  obtain ⟨G, gp, g2, h1⟩ := C54_regression_workflow lower rows rng net params (w ∘ ι) custom key numSamples trainPoints trainData samples loss H curvType ct
    kind numCurv numTotal points calData calLoss predictive pushforward objective method metrics options kw testData tt htrain hN hrng hpf hpr hcls ho
    hm hn hmet hc hM cx cy hcal hJc xs ys htest hJ
  obtain ⟨G', gp', g2', h1'⟩ := C54_regression_workflow lower rows rng (reading net ι) params' w custom' key numSamples trainPoints trainData
    samples loss H curvType ct kind' numCurv numTotal points calData calLoss predictive pushforward objective method metrics options kw testData tt
    htrain' hN hrng hpf hpr hcls ho hm hn hmet hc hM cx cy hcal (fun i k => gradient_reading net w hι _ k (hJc i k)) xs ys htest
    (fun i k => gradient_reading net w hι _ k (hJ i k))
  have hG : G' = (readMat ι)ᵀ * G * readMat ι := matrix_reading hι g2 g2'
  subst hG
  obtain ⟨est, est', e1, e2, e5, e6, e7, -, -⟩ := estimate_reading hι G hk
  have e3 : EstimatePsd est := by
    rcases e1 with ⟨-, rfl⟩ | ⟨-, rfl⟩ | ⟨r, a, t, -, -, rfl, -⟩
    · exact gp
    · exact posSemidef_diag_nonneg gp
    · exact absurd rfl (e6 _ t)
  have e4 : EstimatePsd est' := by
    rcases e2 with ⟨-, rfl⟩ | ⟨-, rfl⟩ | ⟨r, a, t, -, -, rfl, -⟩
    · exact gp'
    · exact posSemidef_diag_nonneg gp'
    · exact absurd rfl (e7 _ t)
  obtain ⟨τ, tried, g, -, k2, k3⟩ := h1 est e1
  obtain ⟨τ', tried', g', -, k2', k3'⟩ := h1' est' e2
  have hcov : ∀ t, 0 < t → ∀ x, covAt (reading net ι).fn w (targetPrecision t 1 1 est') x = covAt net.fn (w ∘ ι) (targetPrecision t 1 1 est) x :=
    fun t ht x => targetCov_reading net.fn hι w e3 e4 e5 e6 e7 ht zero_le_one one_pos x
  have k4 := chosen_congr (s' := fun t => ((nllScore net.fn (w ∘ ι) est cx cy t : ℝ) : WithTop ℝ)) k2' (fun t ht => by
    congr 1
    simp only [nllScore]
    have : ∀ x, predCovAt (reading net ι).fn w est' t x = predCovAt net.fn (w ∘ ι) est t x := hcov t (precGrid_pos ht)
    simp only [this]
    rfl)
  obtain ⟨rfl, -⟩ := chosen_unique k2 k4
  refine ⟨_, _, g, g', k3, ?_⟩
  rw [k3']
  simp only [hcov τ (chosen_pos k2)]
  rfl

/-- **C70 (workflow with evidence calibration).** If the unused parameters are zero, calibrating by the marginal likelihood chooses the same
prior and the evaluation reports the same metrics as for the model without them. -/
theorem C70_evidence_workflow (hι : Function.Injective ι) (hzero : ∀ j, Unused ι j → w j = 0)
    (htrain : LaplaceCall lower trainPoints net.fn params (w ∘ ι) trainData samples loss H curvType ct)
    (htrain' : LaplaceCall lower trainPoints (reading net ι).fn params' w trainData samples loss H curvType ct)
    (hN : numTotal ≠ 0) (hrng : RngOk rng) (hpf : convertToEnum lower pushforwardValues false pushforward = .ok (.member "linear"))
    (hpr : convertToEnum lower predictiveValues false predictive = .ok (.member "none"))
    (ho : convertToEnum lower calibrationObjectiveValues false objective = .ok (.member "marginal_log_likelihood"))
    (hm : convertToEnum lower calibrationMethodValues true method = .ok (.member "grid_search")) (hn : 0 < kw.gridSize.getD 50)
    (hmet : convertToEnum lower defaultMetricsValues false metrics = .ok (.member "regression")) (hc : 0 < shapeSize net.shape)
    {M : ℕ} (cx : Fin M → X) (cy : Fin M → Vec (shapeSize net.shape))
    (hcal : BatchIs points calData cx fun i => arrOf net.shape (cy i)) (L : ℝ) (hL : BatchLoss net.fn (w ∘ ι) (calLoss M) cx cy L)
    {N : ℕ} (xs : Fin N → X) (ys : Fin N → Vec (shapeSize net.shape))
    (htest : PointsAre points testData (List.ofFn fun i => (xs i, arrOf net.shape (ys i))))
    (hJ : ∀ i k, ∃ j, jacobian (net.fn (xs i)) (w ∘ ι) k j ≠ 0) (hk : SameKind (kind ct) (kind' ct)) :
    ∃ prior scores g g',
      workflow lower rows rng net params custom key numSamples trainPoints trainData (.name loss) curvType kind numCurv numTotal points
        calData calLoss predictive pushforward objective method options kw testData (.enum metrics) .ok tt = .ok (prior, scores, g) ∧
      workflow lower rows rng (reading net ι) params' custom' key numSamples trainPoints trainData (.name loss) curvType kind' numCurv numTotal
        points calData calLoss predictive pushforward objective method options kw testData (.enum metrics) .ok tt = .ok (prior, scores, g') := by
  have hk1 : kind ct = .full ∨ kind ct = .diagonal := hk.imp And.left And.left
  have hk2 : kind' ct = .full ∨ kind' ct = .diagonal := hk.imp And.right And.right
  obtain ⟨G, gp, g2, est, e1, τ, tried, g, -, k2, k3⟩ := C54_evidence_workflow lower rows rng net params (w ∘ ι) custom key numSamples trainPoints trainData
    samples loss H curvType ct kind numCurv numTotal points calData calLoss predictive pushforward objective method metrics options kw testData tt htrain hN
    hrng hpf hpr ho hm hn hmet hc cx cy hcal L hL xs ys htest hJ hk1
  obtain ⟨G', gp', g2', est', e2, τ', tried', g', -, k2', k3'⟩ := C54_evidence_workflow lower rows rng (reading net ι) params' w custom' key numSamples
    trainPoints trainData samples loss H curvType ct kind' numCurv numTotal points calData calLoss predictive pushforward objective method metrics options kw
    testData tt htrain' hN hrng hpf hpr ho hm hn hmet hc cx cy hcal L hL xs ys htest (fun i k => gradient_reading net w hι _ k (hJ i k)) hk2
  have hG : G' = (readMat ι)ᵀ * G * readMat ι := matrix_reading hι g2 g2'
  subst hG
  obtain ⟨f1, f2, -, -, e5, e6, e7, u1, u2⟩ := estimate_reading hι G hk
  obtain rfl := u1 _ e1
  obtain rfl := u2 _ e2
  have e3 : EstimatePsd est := by
    rcases e1 with ⟨-, rfl⟩ | ⟨-, rfl⟩ | ⟨r, a, t, -, -, rfl, -⟩
    · exact gp
    · exact posSemidef_diag_nonneg gp
    · exact absurd rfl (e6 _ t)
  have e4 : EstimatePsd est' := by
    rcases e2 with ⟨-, rfl⟩ | ⟨-, rfl⟩ | ⟨r, a, t, -, -, rfl, -⟩
    · exact gp'
    · exact posSemidef_diag_nonneg gp'
    · exact absurd rfl (e7 _ t)
  have hz : unusedNorm2 ι w = 0 := by
    classical
    rw [unusedNorm2]
    refine Finset.sum_eq_zero fun j _ => ?_
    by_cases hj : Unused ι j
    · rw [if_pos hj, hzero j hj]; norm_num
    · rw [if_neg hj]
  have hcov : ∀ t, 0 < t → ∀ x, covAt (reading net ι).fn w (targetPrecision t 1 1 est') x = covAt net.fn (w ∘ ι) (targetPrecision t 1 1 est) x :=
    fun t ht x => targetCov_reading net.fn hι w e3 e4 e5 e6 e7 ht zero_le_one one_pos x
  have k4 := chosen_congr (s' := fun t => ((mllScore (w ∘ ι) est L t : ℝ) : WithTop ℝ)) k2' (fun t ht => by
    congr 1
    have ht0 := precGrid_pos ht
    have hd := (dense_posDef e3 e6 ht0 zero_le_one one_pos).det_pos
    rw [mllScore, mllScore]
    rw [targetPrecision_dense est e6] at hd ⊢
    rw [targetPrecision_dense est' e7, e5, logEvidence_reading hι _ w (curvOf est) ht0 one_pos hd, hz, Real.log_one]
    ring)
  obtain ⟨rfl, -⟩ := chosen_unique k2 k4
  refine ⟨_, _, g, g', k3, ?_⟩
  rw [k3']
  simp only [hcov τ (chosen_pos k2)]
  rfl

end

/-! ### Non-vacuity -/

/-- The parameters of the example behind an unused one: `{a: w, b: 3, c: [5]}`. -/
def testMeanMore (w : ℝ) : PyTree ℝ := .node "dict(a,b,c)" [.leaf ⟨[], [w]⟩, .leaf ⟨[], [3]⟩, .leaf ⟨[1], [5]⟩]

/-- The two used positions among three. -/
def testUsed : Fin 2 → Fin 3 := Fin.succ

theorem testUsed_inj : Function.Injective testUsed := Fin.succ_injective 2

theorem testUsed_zero : Unused testUsed 0 := fun i => Fin.succ_ne_zero i

theorem testUsed_only (j : Fin 3) (h : Unused testUsed j) : j = 0 := by
  by_contra h0
  obtain ⟨i, rfl⟩ := Fin.exists_succ_eq.2 h0
  exact h i rfl

theorem test_train_used (w : ℝ) : LaplaceCall (fun s => if s = "Linear" then "linear" else s) testTrainPoints testNet.fn testMean (![w, 3, 5] ∘ testUsed)
    (.iter (.reiterable [.tup [.arr [1, 2], .arr [4, 5, 6, 7]], .tup [.arr [3], .arr [8, 9]]])) [(1, ()), (2, ()), (3, ())] "mse"
    (fun jv _ _ => mseHessianMv jv) (.str "full") (.member "full") := test_train

theorem test_train_unused (w : ℝ) : LaplaceCall (fun s => if s = "Linear" then "linear" else s) testTrainPoints (reading testNet testUsed).fn
    (testMeanMore w) ![w, 3, 5]
    (.iter (.reiterable [.tup [.arr [1, 2], .arr [4, 5, 6, 7]], .tup [.arr [3], .arr [8, 9]]])) [(1, ()), (2, ()), (3, ())] "mse"
    (fun jv _ _ => mseHessianMv jv) (.str "full") (.member "full") := by
  refine ⟨by norm_num, ?_, ?_, test_train.hdata, ?_, rfl, rfl⟩
  · intro a ha
    simp [testMeanMore, Tree.leaves, Tree.leavesL] at ha
    rcases ha with rfl | rfl | rfl <;> rfl
  · simp [testMeanMore, entries, Tree.leaves, Tree.leavesL]
  · intro s _
    have h1 := testNet_differentiable s.1 (![w, 3, 5] ∘ testUsed)
    refine DifferentiableAt.comp (g := testNet.fn s.1) (f := fun v : Vec 3 => v ∘ testUsed) _ h1 ?_
    rw [differentiableAt_pi]
    intro k
    show DifferentiableAt ℝ (fun v : Vec 3 => v (testUsed k)) _
    fun_prop

/-- An unused parameter with value 7 keeps its prior variance `1/2`. -/
example : ∃ posteriorFn est, laplace (fun s => if s = "Linear" then "linear" else s) (fun _ => .error .valueError) testTrainPoints
      (reading testNet testUsed).fn (testMeanMore 7)
      (.iter (.reiterable [.tup [.arr [1, 2], .arr [4, 5, 6, 7]], .tup [.arr [3], .arr [8, 9]]])) (.name "mse") (.str "full") (fun _ => .full) 3 3 =
      .ok (posteriorFn, est) ∧
    ∃ (post : Posterior 3) (cov : List (PyTree ℝ) → Except Err (PyTree ℝ)) (C : Matrix (Fin 3) (Fin 3) ℝ),
      posteriorFn ⟨some 2, none⟩ 1 = .ok post ∧ post.covMv post.state = .ok cov ∧
      ActsOnTrees (testMeanMore 7) cov (fun v => C *ᵥ v) ∧ C 0 0 = 1 / 2 := by
  obtain ⟨pf, est, pf', est', h1, h2, h3⟩ := C70_posterior (fun s => if s = "Linear" then "linear" else s) (fun _ => .error .valueError)
    testTrainPoints testNet testUsed_inj testMean (testMeanMore 7) ![7, 3, 5] _ _ "mse" _ _ _ (test_train_used 7) (test_train_unused 7)
    (fun _ => .full) (fun _ => .full) (Or.inl ⟨rfl, rfl⟩) 3 3 (by norm_num)
  obtain ⟨_, post', _, cov', _, C', -, -, -, b1, b2, b3, -, b4⟩ := h3 ⟨some 2, none⟩ 2 rfl (by norm_num) (by norm_num) 1 one_pos
  exact ⟨pf', est', h2, post', cov', C', b1, b2, b3, (b4 0 testUsed_zero).1⟩

/-- The evidence of the model with the unused parameter 7 is smaller by `2/2·49`. -/
example : ∃ posteriorFn est posteriorFn' est',
    laplace (fun s => if s = "Linear" then "linear" else s) (fun _ => .error .valueError) testTrainPoints testNet.fn testMean
      (.iter (.reiterable [.tup [.arr [1, 2], .arr [4, 5, 6, 7]], .tup [.arr [3], .arr [8, 9]]])) (.name "mse") (.str "full") (fun _ => .full) 3 3 =
      .ok (posteriorFn, est) ∧
    laplace (fun s => if s = "Linear" then "linear" else s) (fun _ => .error .valueError) testTrainPoints (reading testNet testUsed).fn (testMeanMore 7)
      (.iter (.reiterable [.tup [.arr [1, 2], .arr [4, 5, 6, 7]], .tup [.arr [3], .arr [8, 9]]])) (.name "mse") (.str "full") (fun _ => .full) 3 3 =
      .ok (posteriorFn', est') ∧
    ∃ lml, marginalLogLikelihood est ⟨⟨some 2, none⟩, none⟩ (.ok fun _ => .ok 7) testMean = .ok lml ∧
      marginalLogLikelihood est' ⟨⟨some 2, none⟩, none⟩ (.ok fun _ => .ok 7) (testMeanMore 7) = .ok (lml - 49) := by
  obtain ⟨pf, est, pf', est', h1, h2, h3⟩ := C70_evidence (fun s => if s = "Linear" then "linear" else s) (fun _ => .error .valueError)
    testTrainPoints testNet testUsed_inj testMean (testMeanMore 7) ![7, 3, 5] _ _ "mse" _ _ _ (test_train_used 7) (test_train_unused 7)
    (fun _ => .full) (fun _ => .full) (Or.inl ⟨rfl, rfl⟩) 3 3 (by norm_num) (fun _ => .ok 7) (fun _ => .ok 7) 7 rfl rfl
  obtain ⟨lml, h4, h5⟩ := h3 ⟨⟨some 2, none⟩, none⟩ 2 rfl (by norm_num) (by norm_num) 1 one_pos
  refine ⟨pf, est, pf', est', h1, h2, lml, h4, h5.trans ?_⟩
  have : unusedNorm2 testUsed (![7, 3, 5] : Vec 3) = 49 := by
    classical
    rw [unusedNorm2, Fin.sum_univ_three, if_pos testUsed_zero, if_neg, if_neg]
    · norm_num
    · exact fun h => by have := testUsed_only _ h; revert this; decide
    · exact fun h => by have := testUsed_only _ h; revert this; decide
  rw [this, Real.log_one]
  norm_num

/-- The workflow with NLL calibration with and without the unused parameter. -/
example : ∃ prior scores g g',
    workflow (fun s => if s = "Linear" then "linear" else s) (fun _ => .error .valueError) testRng testNet testMean
      (fun _ _ _ _ => .error .typeError) () 3 testTrainPoints
      (.iter (.reiterable [.tup [.arr [1, 2], .arr [4, 5, 6, 7]], .tup [.arr [3], .arr [8, 9]]])) (.name "mse") (.str "full")
      (fun _ => .full) 3 3 testEvalPoints (.tup [.arr [1, 2], .arr [4, 5, 6, 7]]) (fun _ => .name "mse") (.member "none") (.str "Linear")
      (.str "nll") (.str "grid_search") [] {} testLoader (.enum (.str "regression")) .ok ⟨[], [1]⟩ = .ok (prior, scores, g) ∧
    workflow (fun s => if s = "Linear" then "linear" else s) (fun _ => .error .valueError) testRng (reading testNet testUsed) (testMeanMore 7)
      (fun _ _ _ _ => .error .typeError) () 3 testTrainPoints
      (.iter (.reiterable [.tup [.arr [1, 2], .arr [4, 5, 6, 7]], .tup [.arr [3], .arr [8, 9]]])) (.name "mse") (.str "full")
      (fun _ => .full) 3 3 testEvalPoints (.tup [.arr [1, 2], .arr [4, 5, 6, 7]]) (fun _ => .name "mse") (.member "none") (.str "Linear")
      (.str "nll") (.str "grid_search") [] {} testLoader (.enum (.str "regression")) .ok ⟨[], [1]⟩ = .ok (prior, scores, g') :=
  C70_workflow (fun s => if s = "Linear" then "linear" else s) (fun _ => .error .valueError) testRng testNet
    testMean (testMeanMore 7) ![7, 3, 5] (fun _ _ _ _ => .error .typeError) (fun _ _ _ _ => .error .typeError) () 3 testTrainPoints _ _ "mse" _ (.str "full")
    (.member "full") (fun _ => .full) (fun _ => .full) 3 3
    testEvalPoints (.tup [.arr [1, 2], .arr [4, 5, 6, 7]]) (fun _ => .name "mse") (.member "none") (.str "Linear") (.str "nll") (.str "grid_search")
    (.str "regression") [] {} testLoader ⟨[], [1]⟩ testUsed_inj (test_train_used 7) (test_train_unused 7) (by norm_num) testRng_ok rfl rfl (Or.inl rfl) rfl
    rfl (by decide) rfl
    (by decide) (M := 2) (by norm_num) ![1, 2] (![![4, 5], ![6, 7]] : Fin 2 → Fin 2 → ℝ)
    ⟨_, BatchOf.pair _ _, by simp [testEvalPoints, arrOf, testNet, List.ofFn_succ]; exact ⟨rfl, rfl⟩⟩
    (fun i k => by apply test_gradient; fin_cases i <;> simp)
    ![1, 2, 3] (![![4, 5], ![6, 7], ![8, 9]] : Fin 3 → Fin 2 → ℝ) test_points
    (fun i k => by apply test_gradient; fin_cases i <;> simp) (Or.inl ⟨rfl, rfl⟩)

/-- The workflow with evidence calibration with and without an unused parameter that is zero. -/
example : ∃ prior scores g g',
    workflow (fun s => if s = "Linear" then "linear" else s) (fun _ => .error .valueError) testRng testNet testMean
      (fun _ _ _ _ => .error .typeError) () 3 testTrainPoints
      (.iter (.reiterable [.tup [.arr [1, 2], .arr [4, 5, 6, 7]], .tup [.arr [3], .arr [8, 9]]])) (.name "mse") (.str "full")
      (fun _ => .full) 3 3 testEvalPoints (.tup [.arr [1, 2], .arr [4, 5, 6, 7]]) (fun _ => .name "mse") (.member "none") (.str "Linear")
      (.str "marginal_log_likelihood") (.str "grid_search") [] {} testLoader (.enum (.str "regression")) .ok ⟨[], [1]⟩ = .ok (prior, scores, g) ∧
    workflow (fun s => if s = "Linear" then "linear" else s) (fun _ => .error .valueError) testRng (reading testNet testUsed) (testMeanMore 0)
      (fun _ _ _ _ => .error .typeError) () 3 testTrainPoints
      (.iter (.reiterable [.tup [.arr [1, 2], .arr [4, 5, 6, 7]], .tup [.arr [3], .arr [8, 9]]])) (.name "mse") (.str "full")
      (fun _ => .full) 3 3 testEvalPoints (.tup [.arr [1, 2], .arr [4, 5, 6, 7]]) (fun _ => .name "mse") (.member "none") (.str "Linear")
      (.str "marginal_log_likelihood") (.str "grid_search") [] {} testLoader (.enum (.str "regression")) .ok ⟨[], [1]⟩ = .ok (prior, scores, g') :=
  C70_evidence_workflow (fun s => if s = "Linear" then "linear" else s) (fun _ => .error .valueError) testRng testNet
    testMean (testMeanMore 0) ![0, 3, 5] (fun _ _ _ _ => .error .typeError) (fun _ _ _ _ => .error .typeError) () 3 testTrainPoints _ _ "mse" _ (.str "full")
    (.member "full") (fun _ => .full) (fun _ => .full) 3 3
    testEvalPoints (.tup [.arr [1, 2], .arr [4, 5, 6, 7]]) (fun _ => .name "mse") (.member "none") (.str "Linear") (.str "marginal_log_likelihood")
    (.str "grid_search") (.str "regression") [] {} testLoader ⟨[], [1]⟩ testUsed_inj (fun j hj => by rw [testUsed_only j hj]; rfl) (test_train_used 0)
    (test_train_unused 0) (by norm_num) testRng_ok rfl rfl rfl rfl (by decide) rfl
    (by decide) (M := 2) ![1, 2] (![![4, 5], ![6, 7]] : Fin 2 → Fin 2 → ℝ)
    ⟨_, BatchOf.pair _ _, by simp [testEvalPoints, arrOf, testNet, List.ofFn_succ]; exact ⟨rfl, rfl⟩⟩ _ (Or.inl ⟨rfl, rfl⟩)
    ![1, 2, 3] (![![4, 5], ![6, 7], ![8, 9]] : Fin 3 → Fin 2 → ℝ) test_points
    (fun i k => by apply test_gradient; fin_cases i <;> simp) (Or.inl ⟨rfl, rfl⟩)

end Laplax.Props
