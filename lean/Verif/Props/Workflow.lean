import Verif.Model.Workflow
import Verif.Spec.Workflow
import Verif.Props.ApiEvaluation
import Verif.Props.Laplace

/-! # C54: `laplace`, `calibration` and `evaluation` in sequence -/

namespace Laplax.Props
open Laplax Laplax.Spec
open scoped BigOperators Matrix

variable {X Y K A : Type} {p : ℕ}

section
variable (lower : String → String) (rows : A → Except Err (List A)) (rng : Prng K) (net : Net X p) (params : PyTree ℝ) (θ : Vec p)
  (custom : ℕ → PfStep X K p) (key : K) (numSamples : ℕ)
  (trainPoints : PyObj A → PyObj A → Except Err (List (X × Y))) (trainData : PyObj A) (samples : List (X × Y)) (loss : String)
  (H : Vec (shapeSize net.shape) → Vec (shapeSize net.shape) → Y → Vec (shapeSize net.shape))
  (curvType ct : EnumArg) (kind : EnumArg → LaplaceKind p) (numCurv numTotal : ℕ)
  (points : PyObj A → PyObj A → Except Err (List (X × Arr ℝ))) (calData : PyObj A)
  (calLoss : (B : ℕ) → HessLossArg B (shapeSize net.shape)) (predictive pushforward objective method metrics : EnumArg)
  (options : Dict (CalMethod (PyObj A) (WithTop ℝ))) (kw : GridKwargs) (testData : PyObj A) (tt : Arr ℝ)

/-- The curvature estimate and the setting of the following calls. -/
theorem laplace_then (htrain : LaplaceCall lower trainPoints net.fn params θ trainData samples loss H curvType ct) (hN : numTotal ≠ 0) :
    ∃ G : Matrix (Fin p) (Fin p) ℝ, G.PosSemidef ∧
      (∀ v, G *ᵥ v = ((numCurv : ℝ) / numTotal) • ggnSamples net.fn θ H samples v) ∧
      ∀ est, EstimateFrom G (kind ct) est → EstimatePsd est ∧
        laplace lower rows trainPoints net.fn params trainData (.name loss) curvType kind numCurv numTotal =
          .ok (fun a s => setPosteriorFn est (.tree params) a s, est) := by
  obtain ⟨G, h1, h2, h3⟩ := C47_laplace_curvature lower rows trainPoints net.fn params θ trainData samples loss H curvType ct htrain kind
    numCurv numTotal hN
  refine ⟨G, h1, h2, fun est hest => ⟨?_, ?_⟩⟩
  · rcases hest with ⟨hk, rfl⟩ | ⟨hk, rfl⟩ | ⟨r, alg, t, hk, hr, rfl, h5⟩
    · exact h1
    · exact posSemidef_diag_nonneg h1
    · exact h5
  · rw [h3]
    rcases hest with ⟨hk, rfl⟩ | ⟨hk, rfl⟩ | ⟨r, alg, t, hk, hr, rfl, -⟩
    · rw [hk]; rfl
    · rw [hk]; rfl
    · rw [hk]; simp only [estimateOf, hr]; rfl

/-- **C54 (regression workflow).** Fit with `laplace` on training data (one batch or a re-iterable loader), calibrate with the NLL
objective on one batch, evaluate with the default regression metrics on test data (one batch or a re-iterable loader), all with the
linearised predictive.  For every model, every data sets and every kind of curvature estimate: the calibrated prior precision `q` is the
first best of the tried grid points under the mean negative log density, and the metrics are the scores, per test point, under
`N(f(x, θ), diag J_x P⁻¹ J_xᵀ)` with `P` the posterior precision `q I + curvature`, where the curvature estimate is that of
`num_curv/num_total · Σ Jᵀ H J` over the training data. -/
theorem C54_regression_workflow (htrain : LaplaceCall lower trainPoints net.fn params θ trainData samples loss H curvType ct)
    (hN : numTotal ≠ 0) (hrng : RngOk rng) (hpf : convertToEnum lower pushforwardValues false pushforward = .ok (.member "linear"))
    (hpr : convertToEnum lower predictiveValues false predictive = .ok (.member "none")) (hcls : NoPredictive predictive)
    (ho : convertToEnum lower calibrationObjectiveValues false objective = .ok (.member "nll"))
    (hm : convertToEnum lower calibrationMethodValues true method = .ok (.member "grid_search")) (hn : 0 < kw.gridSize.getD 50)
    (hmet : convertToEnum lower defaultMetricsValues false metrics = .ok (.member "regression")) (hc : 0 < shapeSize net.shape)
    {M : ℕ} (hM : 0 < M) (cx : Fin M → X) (cy : Fin M → Vec (shapeSize net.shape))
    (hcal : BatchIs points calData cx fun i => arrOf net.shape (cy i)) (hJc : ∀ i k, ∃ j, jacobian (net.fn (cx i)) θ k j ≠ 0)
    {N : ℕ} (xs : Fin N → X) (ys : Fin N → Vec (shapeSize net.shape))
    (htest : PointsAre points testData (List.ofFn fun i => (xs i, arrOf net.shape (ys i))))
    (hJ : ∀ i k, ∃ j, jacobian (net.fn (xs i)) θ k j ≠ 0) :
    ∃ G : Matrix (Fin p) (Fin p) ℝ, G.PosSemidef ∧
      (∀ v, G *ᵥ v = ((numCurv : ℝ) / numTotal) • ggnSamples net.fn θ H samples v) ∧
      ∀ est, EstimateFrom G (kind ct) est → ∃ (q : ℝ) (tried : List ℝ) (g : X → Except Err (Dict (Arr ℝ))), 0 < q ∧
        ChosenBy (precGrid (kw.logPriorPrecMin.getD (-3)) (kw.logPriorPrecMax.getD 3) (kw.gridSize.getD 50))
          (fun τ => (nllScore net.fn θ est cx cy τ : ℝ)) kw.patience q tried ∧
        workflow lower rows rng net params custom key numSamples trainPoints trainData (.name loss) curvType kind numCurv numTotal points
            calData calLoss predictive pushforward objective method options kw testData (.enum metrics) .ok tt =
          .ok (⟨some q, none⟩, regNames.map fun k => (k, ⟨[N], List.ofFn fun i => regScore (net.fn (xs i) θ)
            (fun k => Real.sqrt (covAt net.fn θ (targetPrecision q 1 1 est) (xs i) k k)) (ys i) k⟩), g) := by
  obtain ⟨G, h1, h2, h3⟩ := laplace_then lower rows net params θ trainPoints trainData samples loss H curvType ct kind numCurv numTotal htrain hN
  refine ⟨G, h1, h2, fun est hest => ?_⟩
  obtain ⟨hpsd, hlap⟩ := h3 est hest
  have hapi : ApiLinear lower pushforward predictive "none"
      (⟨rng, net, params, fun a s => setPosteriorFn est (.tree params) a s, custom, key, numSamples⟩ : PredictiveArgs X K p) θ est :=
    ⟨hpf, hpr, hrng, htrain.hp, htrain.hwf, htrain.hθ, hpsd, rfl, Or.inl rfl⟩
  obtain ⟨q, tried, set, eps, R, c1, c2, c3, -, -⟩ := C52_nll lower rows points pushforward predictive objective method "none"
    (⟨rng, net, params, fun a s => setPosteriorFn est (.tree params) a s, custom, key, numSamples⟩ : PredictiveArgs X K p) θ est est
    calData calLoss options kw cx hapi hcls ho hm hn hM cy hcal hJc
  obtain ⟨g, eps', R', e1, -, -⟩ := C53_regression lower rows points pushforward predictive metrics "none"
    (⟨rng, net, params, fun a s => setPosteriorFn est (.tree params) a s, custom, key, numSamples⟩ : PredictiveArgs X K p) θ est
    ⟨some q, none⟩ testData tt xs q hapi hmet rfl c2 (by norm_num) hc ys htest hJ
  refine ⟨q, tried, g, c2, c3, ?_⟩
  simp only [workflow, hlap, ok_bind]
  rw [c1, ok_bind]
  simp only []
  rw [e1]
  rfl

/-- **C54 (calibration by evidence).** As before, with the marginal-likelihood objective and a dense or diagonal curvature: the chosen
precision is the first best of the tried grid points under minus the Laplace log evidence of the fitted model. -/
theorem C54_evidence_workflow (htrain : LaplaceCall lower trainPoints net.fn params θ trainData samples loss H curvType ct)
    (hN : numTotal ≠ 0) (hrng : RngOk rng) (hpf : convertToEnum lower pushforwardValues false pushforward = .ok (.member "linear"))
    (hpr : convertToEnum lower predictiveValues false predictive = .ok (.member "none"))
    (ho : convertToEnum lower calibrationObjectiveValues false objective = .ok (.member "marginal_log_likelihood"))
    (hm : convertToEnum lower calibrationMethodValues true method = .ok (.member "grid_search")) (hn : 0 < kw.gridSize.getD 50)
    (hmet : convertToEnum lower defaultMetricsValues false metrics = .ok (.member "regression")) (hc : 0 < shapeSize net.shape)
    {M : ℕ} (cx : Fin M → X) (cy : Fin M → Vec (shapeSize net.shape))
    (hcal : BatchIs points calData cx fun i => arrOf net.shape (cy i)) (L : ℝ) (hL : BatchLoss net.fn θ (calLoss M) cx cy L)
    {N : ℕ} (xs : Fin N → X) (ys : Fin N → Vec (shapeSize net.shape))
    (htest : PointsAre points testData (List.ofFn fun i => (xs i, arrOf net.shape (ys i))))
    (hJ : ∀ i k, ∃ j, jacobian (net.fn (xs i)) θ k j ≠ 0) (hk : kind ct = .full ∨ kind ct = .diagonal) :
    ∃ G : Matrix (Fin p) (Fin p) ℝ, G.PosSemidef ∧
      (∀ v, G *ᵥ v = ((numCurv : ℝ) / numTotal) • ggnSamples net.fn θ H samples v) ∧
      ∃ est, EstimateFrom G (kind ct) est ∧ ∃ (q : ℝ) (tried : List ℝ) (g : X → Except Err (Dict (Arr ℝ))), 0 < q ∧
        ChosenBy (precGrid (kw.logPriorPrecMin.getD (-3)) (kw.logPriorPrecMax.getD 3) (kw.gridSize.getD 50))
          (fun τ => (mllScore θ est L τ : ℝ)) kw.patience q tried ∧
        workflow lower rows rng net params custom key numSamples trainPoints trainData (.name loss) curvType kind numCurv numTotal points
            calData calLoss predictive pushforward objective method options kw testData (.enum metrics) .ok tt =
          .ok (⟨some q, none⟩, regNames.map fun k => (k, ⟨[N], List.ofFn fun i => regScore (net.fn (xs i) θ)
            (fun k => Real.sqrt (covAt net.fn θ (targetPrecision q 1 1 est) (xs i) k k)) (ys i) k⟩), g) := by
  obtain ⟨G, h1, h2, h3⟩ := laplace_then lower rows net params θ trainPoints trainData samples loss H curvType ct kind numCurv numTotal htrain hN
  obtain ⟨est, hest, hnl⟩ : ∃ est, EstimateFrom G (kind ct) est ∧ ∀ r (t : LowRankTerms p r), est ≠ .lowRank t := by
    rcases hk with hk | hk
    · exact ⟨_, Or.inl ⟨hk, rfl⟩, by simp⟩
    · exact ⟨_, Or.inr (Or.inl ⟨hk, rfl⟩), by simp⟩
  refine ⟨G, h1, h2, est, hest, ?_⟩
  obtain ⟨hpsd, hlap⟩ := h3 est hest
  have hapi : ApiLinear lower pushforward predictive "none"
      (⟨rng, net, params, fun a s => setPosteriorFn est (.tree params) a s, custom, key, numSamples⟩ : PredictiveArgs X K p) θ est :=
    ⟨hpf, hpr, hrng, htrain.hp, htrain.hwf, htrain.hθ, hpsd, rfl, Or.inl rfl⟩
  obtain ⟨q, tried, set, eps, R, c1, c2, c3, -, -⟩ := C52_marginal_likelihood lower rows points pushforward predictive objective method "none"
    (⟨rng, net, params, fun a s => setPosteriorFn est (.tree params) a s, custom, key, numSamples⟩ : PredictiveArgs X K p) θ est est
    calData calLoss options kw cx hapi ho hm hn hpsd hnl cy hcal L hL
  obtain ⟨g, eps', R', e1, -, -⟩ := C53_regression lower rows points pushforward predictive metrics "none"
    (⟨rng, net, params, fun a s => setPosteriorFn est (.tree params) a s, custom, key, numSamples⟩ : PredictiveArgs X K p) θ est
    ⟨some q, none⟩ testData tt xs q hapi hmet rfl c2 (by norm_num) hc ys htest hJ
  refine ⟨q, tried, g, c2, c3, ?_⟩
  simp only [workflow, hlap, ok_bind]
  rw [c1, ok_bind]
  simp only []
  rw [e1]
  rfl

/-- **C54 (finding: the classification workflow).** The workflow of the tutorials with ECE calibration on integer or one-hot labels
and the default classification metrics always ends in a `TypeError`, for every model with 1-D output, all data and every kind of
curvature estimate, although fitting and calibration succeed. -/
theorem C54_classification_workflow_raises (htrain : LaplaceCall lower trainPoints net.fn params θ trainData samples loss H curvType ct)
    (hN : numTotal ≠ 0) (hrng : RngOk rng) (hpf : convertToEnum lower pushforwardValues false pushforward = .ok (.member "linear"))
    (pr : String) (hpr : convertToEnum lower predictiveValues false predictive = .ok (.member pr)) (hne : pr ≠ "none")
    (hus : ApiUsable net.shape numSamples pr) (hcls : ¬ NoPredictive predictive)
    (ho : convertToEnum lower calibrationObjectiveValues false objective = .ok (.member "ece"))
    (hm : convertToEnum lower calibrationMethodValues true method = .ok (.member "grid_search")) (hn : 0 < kw.gridSize.getD 50)
    (hmet : convertToEnum lower defaultMetricsValues false metrics = .ok (.member "classification"))
    {M : ℕ} (hM : 0 < M) (cx : Fin M → X) (labels : Fin M → Fin (shapeSize net.shape))
    (hcal : BatchIs points calData cx (fun i => labelArr (labels i)) ∨
      BatchIs points calData cx fun i => arrOf net.shape fun k => if k = labels i then 1 else 0)
    (pts : List (X × Arr ℝ)) (htest : PointsAre points testData pts) (ht : ∀ pt ∈ pts, pt.2.WF ∧ pt.2.shape.length ≤ 1)
    (reduce : Arr ℝ → Except Err (Arr ℝ)) :
    ∃ G : Matrix (Fin p) (Fin p) ℝ, G.PosSemidef ∧
      (∀ v, G *ᵥ v = ((numCurv : ℝ) / numTotal) • ggnSamples net.fn θ H samples v) ∧
      ∀ est, EstimateFrom G (kind ct) est →
        workflow lower rows rng net params custom key numSamples trainPoints trainData (.name loss) curvType kind numCurv numTotal points
            calData calLoss predictive pushforward objective method options kw testData (.enum metrics) reduce tt = .error .typeError := by
  obtain ⟨G, h1, h2, h3⟩ := laplace_then lower rows net params θ trainPoints trainData samples loss H curvType ct kind numCurv numTotal htrain hN
  refine ⟨G, h1, h2, fun est hest => ?_⟩
  obtain ⟨hpsd, hlap⟩ := h3 est hest
  have hapi : ApiLinear lower pushforward predictive pr
      (⟨rng, net, params, fun a s => setPosteriorFn est (.tree params) a s, custom, key, numSamples⟩ : PredictiveArgs X K p) θ est :=
    ⟨hpf, hpr, hrng, htrain.hp, htrain.hwf, htrain.hθ, hpsd, rfl, hus⟩
  obtain ⟨q, tried, set, eps, R, c1, c2, -⟩ := C52_ece lower rows points pushforward predictive objective method pr
    (⟨rng, net, params, fun a s => setPosteriorFn est (.tree params) a s, custom, key, numSamples⟩ : PredictiveArgs X K p) θ est est
    calData calLoss options kw cx hapi hne ho hm hn hcls hM labels hcal
  have hsh : net.shape.length = 1 := by
    rcases hus with h | ⟨_, h, _⟩ | ⟨_, h, _⟩
    · exact absurd h hne
    · exact h
    · exact h
  have e1 := C53_classification_raises lower rows points pushforward predictive metrics pr
    (⟨rng, net, params, fun a s => setPosteriorFn est (.tree params) a s, custom, key, numSamples⟩ : PredictiveArgs X K p) θ est
    ⟨some q, none⟩ testData tt q (Or.inl hapi) hmet rfl c2 (by norm_num) pts htest reduce
  have e1 := e1.2 [] (shapeSize net.shape) (labels ⟨0, hM⟩).pos (oneDim hsh) fun pt hpt =>
    ⟨(ht pt hpt).1, fun _ k => Or.inr (Or.inl (by simp [axisFromRight])), fun n m h => absurd (ht pt hpt).2 (by simp [h])⟩
  simp only [workflow, hlap, ok_bind]
  rw [c1, ok_bind]
  simp only []
  rw [e1]
  rfl

/-- The predictive returned by `evaluation` does not depend on the data. -/
theorem evaluation_predictive_eq (a : PredictiveArgs X K p) (prior : PriorArgs) (data data' : PyObj A) (ms : MetricsArg (StepFn (Arr ℝ)))
    (fns : Option (List PfName)) (reduce : Arr ℝ → Except Err (Arr ℝ)) {r r' : Dict (Arr ℝ)} {g g' : X → Except Err (Dict (Arr ℝ))}
    (h : evaluation lower rows points a prior data ms predictive pushforward fns reduce tt = .ok (r, g))
    (h' : evaluation lower rows points a prior data' ms predictive pushforward fns reduce tt = .ok (r', g')) : g = g' := by
  simp only [evaluation, bind_ok_iff] at h h'
  obtain ⟨m, h1, pf, h2, u, h3, h4⟩ := h
  obtain ⟨m', h1', pf', h2', u', h3', h4'⟩ := h'
  cases h2.symm.trans h2'
  cases h4
  cases h4'
  rfl

/-- **C54 (layout of the data does not matter).** Reordering the training samples and cutting training and test data into batches
differently (one batch or a loader, pairs or mappings) leaves the outcome of the regression workflow unchanged: the same calibrated
prior, the same metrics and the same predictive. -/
theorem C54_data_layout_independent (trainData' testData' : PyObj A) (samples' : List (X × Y)) (hperm : samples.Perm samples')
    (htrain : LaplaceCall lower trainPoints net.fn params θ trainData samples loss H curvType ct)
    (htrain' : LaplaceCall lower trainPoints net.fn params θ trainData' samples' loss H curvType ct)
    (hN : numTotal ≠ 0) (hrng : RngOk rng) (hpf : convertToEnum lower pushforwardValues false pushforward = .ok (.member "linear"))
    (hpr : convertToEnum lower predictiveValues false predictive = .ok (.member "none")) (hcls : NoPredictive predictive)
    (ho : convertToEnum lower calibrationObjectiveValues false objective = .ok (.member "nll"))
    (hm : convertToEnum lower calibrationMethodValues true method = .ok (.member "grid_search")) (hn : 0 < kw.gridSize.getD 50)
    (hmet : convertToEnum lower defaultMetricsValues false metrics = .ok (.member "regression")) (hc : 0 < shapeSize net.shape)
    {M : ℕ} (hM : 0 < M) (cx : Fin M → X) (cy : Fin M → Vec (shapeSize net.shape))
    (hcal : BatchIs points calData cx fun i => arrOf net.shape (cy i)) (hJc : ∀ i k, ∃ j, jacobian (net.fn (cx i)) θ k j ≠ 0)
    {N : ℕ} (xs : Fin N → X) (ys : Fin N → Vec (shapeSize net.shape))
    (htest : PointsAre points testData (List.ofFn fun i => (xs i, arrOf net.shape (ys i))))
    (htest' : PointsAre points testData' (List.ofFn fun i => (xs i, arrOf net.shape (ys i))))
    (hJ : ∀ i k, ∃ j, jacobian (net.fn (xs i)) θ k j ≠ 0) (hk : kind ct = .full ∨ kind ct = .diagonal) :
    workflow lower rows rng net params custom key numSamples trainPoints trainData (.name loss) curvType kind numCurv numTotal points
        calData calLoss predictive pushforward objective method options kw testData (.enum metrics) .ok tt =
      workflow lower rows rng net params custom key numSamples trainPoints trainData' (.name loss) curvType kind numCurv numTotal points
        calData calLoss predictive pushforward objective method options kw testData' (.enum metrics) .ok tt := by
  have hl := C47_batching_independent lower rows trainPoints net.fn params θ trainData trainData' samples samples' hperm loss H curvType ct
    htrain htrain' kind numCurv numTotal hN
  obtain ⟨G, h1, h2, h3⟩ := laplace_then lower rows net params θ trainPoints trainData samples loss H curvType ct kind numCurv numTotal htrain hN
  obtain ⟨est, hest⟩ : ∃ est, EstimateFrom G (kind ct) est := by
    rcases hk with hk | hk
    · exact ⟨_, Or.inl ⟨hk, rfl⟩⟩
    · exact ⟨_, Or.inr (Or.inl ⟨hk, rfl⟩)⟩
  obtain ⟨hpsd, hlap⟩ := h3 est hest
  have hapi : ApiLinear lower pushforward predictive "none"
      (⟨rng, net, params, fun a s => setPosteriorFn est (.tree params) a s, custom, key, numSamples⟩ : PredictiveArgs X K p) θ est :=
    ⟨hpf, hpr, hrng, htrain.hp, htrain.hwf, htrain.hθ, hpsd, rfl, Or.inl rfl⟩
  obtain ⟨q, tried, set, eps, R, c1, c2, c3, -, -⟩ := C52_nll lower rows points pushforward predictive objective method "none"
    (⟨rng, net, params, fun a s => setPosteriorFn est (.tree params) a s, custom, key, numSamples⟩ : PredictiveArgs X K p) θ est est
    calData calLoss options kw cx hapi hcls ho hm hn hM cy hcal hJc
  obtain ⟨g, _, _, e1, -, -⟩ := C53_regression lower rows points pushforward predictive metrics "none"
    (⟨rng, net, params, fun a s => setPosteriorFn est (.tree params) a s, custom, key, numSamples⟩ : PredictiveArgs X K p) θ est
    ⟨some q, none⟩ testData tt xs q hapi hmet rfl c2 (by norm_num) hc ys htest hJ
  obtain ⟨g', _, _, e1', -, -⟩ := C53_regression lower rows points pushforward predictive metrics "none"
    (⟨rng, net, params, fun a s => setPosteriorFn est (.tree params) a s, custom, key, numSamples⟩ : PredictiveArgs X K p) θ est
    ⟨some q, none⟩ testData' tt xs q hapi hmet rfl c2 (by norm_num) hc ys htest' hJ
  have hg := evaluation_predictive_eq lower rows points predictive pushforward tt _ _ _ _ _ _ _ e1 e1'
  subst hg
  simp only [workflow, ← hl, hlap, ok_bind]
  rw [c1, ok_bind, ok_bind]
  simp only []
  rw [e1, e1']

end

/-! ### Non-vacuity -/

theorem testNet_differentiable (x : ℝ) (θ : Vec 2) : DifferentiableAt ℝ (testNet.fn x) θ := by
  rw [differentiableAt_pi]
  intro k
  fin_cases k
  · show DifferentiableAt ℝ (fun v : Vec 2 => v 0 * v 1) θ
    fun_prop
  · show DifferentiableAt ℝ (fun v : Vec 2 => x * v 0) θ
    fun_prop

/-- Training data: a loader of two batches, read as inputs only (the MSE Hessian does not use the targets). -/
def testTrainPoints : PyObj (List ℝ) → PyObj (List ℝ) → Except Err (List (ℝ × Unit))
  | .arr xs, _ => .ok (xs.map fun r => (r, ()))
  | _, _ => .error .valueError

theorem test_train : LaplaceCall (fun s => if s = "Linear" then "linear" else s) testTrainPoints testNet.fn testMean ![3, 5]
    (.iter (.reiterable [.tup [.arr [1, 2], .arr [4, 5, 6, 7]], .tup [.arr [3], .arr [8, 9]]])) [(1, ()), (2, ()), (3, ())] "mse"
    (fun jv _ _ => mseHessianMv jv) (.str "full") (.member "full") := by
  refine ⟨by norm_num, testMean_wf, by simp [testMean, entries, Tree.leaves, Tree.leavesL], ?_, fun s _ => testNet_differentiable _ _, rfl, rfl⟩
  refine ⟨[(.arr [1, 2], .arr [4, 5, 6, 7]), (.arr [3], .arr [8, 9])], fun xy => (testTrainPoints xy.1 xy.2).toOption.getD [],
    DataOf.pairs [(.arr [1, 2], .arr [4, 5, 6, 7]), (.arr [3], .arr [8, 9])] (by simp), ?_, rfl⟩
  intro xy hxy; simp at hxy; rcases hxy with rfl | rfl <;> rfl

/-- All hypotheses of the regression workflow theorem are met: training and test loaders, a calibration pair, three training points. -/
example : ∃ (q : ℝ) (metrics : Dict (Arr ℝ)) (g : ℝ → Except Err (Dict (Arr ℝ))), 0 < q ∧
    workflow (fun s => if s = "Linear" then "linear" else s) (fun _ => .error .valueError) testRng testNet testMean
      (fun _ _ _ _ => .error .typeError) () 3 testTrainPoints
      (.iter (.reiterable [.tup [.arr [1, 2], .arr [4, 5, 6, 7]], .tup [.arr [3], .arr [8, 9]]])) (.name "mse") (.str "full")
      (fun _ => .full) 3 3 testEvalPoints (.tup [.arr [1, 2], .arr [4, 5, 6, 7]]) (fun _ => .name "mse") (.member "none") (.str "Linear")
      (.str "nll") (.str "grid_search") [] {} testLoader (.enum (.str "regression")) .ok ⟨[], [1]⟩ = .ok (⟨some q, none⟩, metrics, g) := by
  obtain ⟨G, -, -, h⟩ := C54_regression_workflow (fun s => if s = "Linear" then "linear" else s) (fun _ => .error .valueError) testRng testNet testMean
    ![3, 5] (fun _ _ _ _ => .error .typeError) () 3 testTrainPoints _ _ "mse" _ (.str "full") (.member "full") (fun _ => .full) 3 3 testEvalPoints
    (.tup [.arr [1, 2], .arr [4, 5, 6, 7]]) (fun _ => .name "mse") (.member "none") (.str "Linear") (.str "nll") (.str "grid_search")
    (.str "regression") [] {} testLoader ⟨[], [1]⟩ test_train (by norm_num) testRng_ok rfl rfl (Or.inl rfl) rfl rfl (by decide) rfl (by decide)
    (M := 2) (by norm_num) ![1, 2] (![![4, 5], ![6, 7]] : Fin 2 → Fin 2 → ℝ)
    ⟨_, BatchOf.pair _ _, by simp [testEvalPoints, arrOf, testNet, List.ofFn_succ]; exact ⟨rfl, rfl⟩⟩
    (fun i k => by apply test_gradient; fin_cases i <;> simp)
    ![1, 2, 3] (![![4, 5], ![6, 7], ![8, 9]] : Fin 3 → Fin 2 → ℝ) test_points
    (fun i k => by apply test_gradient; fin_cases i <;> simp)
  obtain ⟨q, tried, g, h1, -, h2⟩ := h (.full G) (Or.inl ⟨rfl, rfl⟩)
  exact ⟨q, _, g, h1, h2⟩

end Laplax.Props
