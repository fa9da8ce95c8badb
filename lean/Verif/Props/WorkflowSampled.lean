import Verif.Props.Workflow
import Verif.Props.Uncertainty

/-! # C54: the workflow with the sampled predictive, and independence of the layout of the training data for every downstream call -/

namespace Laplax.Props
open Laplax Laplax.Spec
open scoped BigOperators Matrix

variable {X Y K A : Type} {p : ℕ}

/-- The predictive `calibration` returns is the selected one. -/
theorem calibration_predictive (lower : String → String) (rows : A → Except Err (List A))
    (points : PyObj A → PyObj A → Except Err (List (X × Arr ℝ))) {a : PredictiveArgs X K p} (data : PyObj A)
    (loss : (B : ℕ) → HessLossArg B (shapeSize a.net.shape)) {e : CurvEstimate p} (predictive pushforward objective method : EnumArg)
    (options : Dict (CalMethod (PyObj A) (WithTop ℝ))) (kw : GridKwargs) {k : PfKind} {fns : List PfName} {prior : PriorArgs}
    {set : PriorArgs → X → Except Err (Dict (Arr ℝ))} {tried : List ℝ}
    (h : setupPushforward lower pushforward predictive none = .ok (k, fns))
    (hc : calibration lower rows points a data loss e predictive pushforward none objective method options kw = .ok (prior, set, tried)) :
    set = setPushforward a k fns := by
  simp only [calibration, h, ok_bind] at hc
  obtain ⟨o, -, hc⟩ := (bind_ok_iff _ _ _).1 hc
  obtain ⟨m, -, hc⟩ := (bind_ok_iff _ _ _).1 hc
  split at hc
  · obtain ⟨tr, -, hc⟩ := (bind_ok_iff _ _ _).1 hc
    obtain ⟨d, -, hc⟩ := (bind_ok_iff _ _ _).1 hc
    obtain ⟨r, -, hc⟩ := (bind_ok_iff _ _ _).1 hc
    cases hc; rfl
  · split at hc
    · split at hc
      · obtain ⟨tr, -, hc⟩ := (bind_ok_iff _ _ _).1 hc
        obtain ⟨d, -, hc⟩ := (bind_ok_iff _ _ _).1 hc
        obtain ⟨r, -, hc⟩ := (bind_ok_iff _ _ _).1 hc
        cases hc; rfl
      · cases hc
    · cases hc

/-- Calibration and evaluation with the sampled predictive use the same networks. -/
theorem sampled_calibrate_evaluate (lower : String → String) (rows : A → Except Err (List A))
    (points : PyObj A → PyObj A → Except Err (List (X × Arr ℝ))) (pushforward predictive objective method metrics : EnumArg)
    (a : PredictiveArgs X K p) (θ : Vec p) (est e : CurvEstimate p) (calData : PyObj A)
    (loss : (B : ℕ) → HessLossArg B (shapeSize a.net.shape)) (options : Dict (CalMethod (PyObj A) (WithTop ℝ))) (kw : GridKwargs)
    (testData : PyObj A) (tt : Arr ℝ) (h : ApiNonlinear lower pushforward predictive "none" a θ est) (hcls : NoPredictive predictive)
    (ho : convertToEnum lower calibrationObjectiveValues false objective = .ok (.member "nll"))
    (hm : convertToEnum lower calibrationMethodValues true method = .ok (.member "grid_search")) (hn : 0 < kw.gridSize.getD 50)
    (hmet : convertToEnum lower defaultMetricsValues false metrics = .ok (.member "regression"))
    {M : ℕ} (hM : 0 < M) (cx : Fin M → X) (cy : Fin M → Vec (shapeSize a.net.shape))
    (hcal : BatchIs points calData cx fun i => arrOf a.net.shape (cy i))
    {N : ℕ} (xs : Fin N → X) (ys : Fin N → Vec (shapeSize a.net.shape))
    (htest : PointsAre points testData (List.ofFn fun i => (xs i, arrOf a.net.shape (ys i)))) :
    ∃ (eps : Fin a.numSamples → Vec p) (R : ℝ → Matrix (Fin p) (Fin p) ℝ),
        Draws a.rng (some a.key) a.params eps ∧ (∀ τ, 0 < τ → R τ * (R τ)ᵀ = (targetPrecision τ 1 1 est)⁻¹) ∧
        ((∀ τ, 0 < τ → ∀ i k, 0 < ensCov (fun j => a.net.fn (cx i) (θ + R τ *ᵥ eps j)) 0 k k) →
         (∀ τ, 0 < τ → ∀ i k, 0 < ensCov (fun j => a.net.fn (xs i) (θ + R τ *ᵥ eps j)) 0 k k) →
          ∃ (q : ℝ) (tried : List ℝ) (set : PriorArgs → X → Except Err (Dict (Arr ℝ))), 0 < q ∧
            ChosenBy (precGrid (kw.logPriorPrecMin.getD (-3)) (kw.logPriorPrecMax.getD 3) (kw.gridSize.getD 50))
              (fun τ => (ensNllScore (fun i j => a.net.fn (cx i) (θ + R τ *ᵥ eps j)) cy : ℝ)) kw.patience q tried ∧
            calibration lower rows points a calData loss e predictive pushforward none objective method options kw =
              .ok (⟨some q, none⟩, set, tried) ∧
            SampledPredictive a θ est "none" eps (R q) q (set ⟨some q, none⟩) ∧
            evaluation lower rows points a ⟨some q, none⟩ testData (.enum metrics) predictive pushforward none .ok tt =
              .ok (regNames.map fun k => (k, ⟨[N], List.ofFn fun i =>
                regScore (ensMean fun j => a.net.fn (xs i) (θ + R q *ᵥ eps j))
                  (fun k => Real.sqrt (ensCov (fun j => a.net.fn (xs i) (θ + R q *ᵥ eps j)) 0 k k)) (ys i) k⟩), set ⟨some q, none⟩)) := by
  obtain ⟨eps, R, set, d1, d2, d3⟩ := C52_nll_nonlinear lower rows points pushforward predictive objective method "none" a θ est e
    calData loss options kw cx h hcls ho hm hn hM cy hcal
  refine ⟨eps, R, d1, fun τ hτ => (d2 τ hτ).1, fun hposc hpost => ?_⟩
  obtain ⟨q, tried, c1, c2, c3⟩ := d3 hposc
  obtain ⟨fns, eps', R', f1, f2, f3⟩ := api_nonlinear h
  have hset := calibration_predictive lower rows points calData loss predictive pushforward objective method options kw f1 c1
  have hres : resolveMetrics lower defaultRegressionMetrics defaultClassificationMetrics (.enum metrics) = .ok defaultRegressionMetrics := by
    cases metrics with
    | other => simp [convertToEnum] at hmet
    | member v => simp only [resolveMetrics, hmet, ok_bind]; rfl
    | str v => simp only [resolveMetrics, hmet, ok_bind]; rfl
  have hq := d2 q c2
  refine ⟨q, tried, set, c2, c3, c1, hq, ?_⟩
  rw [hset] at hq ⊢
  have hev := regression_metrics rows points (setPushforward a .nonlin fns ⟨some q, none⟩) tt testData a.net.shape xs ys htest
    (fun x => ensMean fun j => a.net.fn x (θ + R q *ᵥ eps j))
    (fun x k => Real.sqrt (ensCov (fun j => a.net.fn x (θ + R q *ᵥ eps j)) 0 k k))
    (fun i k => Real.sqrt_pos.2 (hpost q c2 i k)) (fun x => by
      obtain ⟨r, r1, r2⟩ := hq.2 x
      exact ⟨r, r1, by rw [r2]; simp [apiNonlinExpected], by rw [r2]; simp [apiNonlinExpected]⟩)
  simp only [evaluation, hres, f1, ok_bind]
  rw [hev]
  rfl

section
variable (lower : String → String) (rows : A → Except Err (List A)) (rng : Prng K) (net : Net X p) (params : PyTree ℝ) (θ : Vec p)
  (custom : ℕ → PfStep X K p) (key : K) (numSamples : ℕ)
  (trainPoints : PyObj A → PyObj A → Except Err (List (X × Y))) (trainData : PyObj A) (samples : List (X × Y)) (loss : String)
  (H : Vec (shapeSize net.shape) → Vec (shapeSize net.shape) → Y → Vec (shapeSize net.shape))
  (curvType ct : EnumArg) (kind : EnumArg → LaplaceKind p) (numCurv numTotal : ℕ)
  (points : PyObj A → PyObj A → Except Err (List (X × Arr ℝ))) (calData : PyObj A)
  (calLoss : (B : ℕ) → HessLossArg B (shapeSize net.shape)) (predictive pushforward objective method metrics : EnumArg)
  (options : Dict (CalMethod (PyObj A) (WithTop ℝ))) (kw : GridKwargs) (testData : PyObj A) (tt : Arr ℝ)

/-- **C54 (regression workflow, sampled predictive).** The same with the nonlinear pushforward: the same draws `ε_j` are used throughout; with
`R_τ R_τᵀ` the posterior covariance for prior precision `τ`, the calibrated precision `q` is the first best of the tried grid points under the
mean negative log density of the calibration targets given the networks `f(x, θ + R_τ ε_j)`, and the metrics are the scores of the test targets under
the normal distributions with the mean and standard deviation of the networks `f(x, θ + R_q ε_j)` — as long as these standard deviations are
positive.  The returned predictive `g` is the sampled predictive for `q`. -/
theorem C54_sampled_workflow (htrain : LaplaceCall lower trainPoints net.fn params θ trainData samples loss H curvType ct)
    (hN : numTotal ≠ 0) (hrng : RngOk rng) (hS : 0 < numSamples)
    (hpf : convertToEnum lower pushforwardValues false pushforward = .ok (.member "nonlinear"))
    (hpr : convertToEnum lower predictiveValues false predictive = .ok (.member "none")) (hcls : NoPredictive predictive)
    (ho : convertToEnum lower calibrationObjectiveValues false objective = .ok (.member "nll"))
    (hm : convertToEnum lower calibrationMethodValues true method = .ok (.member "grid_search")) (hn : 0 < kw.gridSize.getD 50)
    (hmet : convertToEnum lower defaultMetricsValues false metrics = .ok (.member "regression")) (_hc : 0 < shapeSize net.shape)
    {M : ℕ} (hM : 0 < M) (cx : Fin M → X) (cy : Fin M → Vec (shapeSize net.shape))
    (hcal : BatchIs points calData cx fun i => arrOf net.shape (cy i))
    {N : ℕ} (xs : Fin N → X) (ys : Fin N → Vec (shapeSize net.shape))
    (htest : PointsAre points testData (List.ofFn fun i => (xs i, arrOf net.shape (ys i)))) :
    ∃ G : Matrix (Fin p) (Fin p) ℝ, G.PosSemidef ∧
      (∀ v, G *ᵥ v = ((numCurv : ℝ) / numTotal) • ggnSamples net.fn θ H samples v) ∧
      ∀ est, EstimateFrom G (kind ct) est → ∃ (eps : Fin numSamples → Vec p) (R : ℝ → Matrix (Fin p) (Fin p) ℝ),
        Draws rng (some key) params eps ∧ (∀ τ, 0 < τ → R τ * (R τ)ᵀ = (targetPrecision τ 1 1 est)⁻¹) ∧
        ((∀ τ, 0 < τ → ∀ i k, 0 < ensCov (fun j => net.fn (cx i) (θ + R τ *ᵥ eps j)) 0 k k) →
         (∀ τ, 0 < τ → ∀ i k, 0 < ensCov (fun j => net.fn (xs i) (θ + R τ *ᵥ eps j)) 0 k k) →
          ∃ (q : ℝ) (tried : List ℝ) (g : X → Except Err (Dict (Arr ℝ))), 0 < q ∧
            ChosenBy (precGrid (kw.logPriorPrecMin.getD (-3)) (kw.logPriorPrecMax.getD 3) (kw.gridSize.getD 50))
              (fun τ => (ensNllScore (fun i j => net.fn (cx i) (θ + R τ *ᵥ eps j)) cy : ℝ)) kw.patience q tried ∧
            (∀ x, ∃ r, g x = .ok r ∧ ∀ key, r.get? key =
              apiNonlinExpected net.shape (net.fn x θ) (fun j => net.fn x (θ + R q *ᵥ eps j)) "none" key) ∧
            workflow lower rows rng net params custom key numSamples trainPoints trainData (.name loss) curvType kind numCurv numTotal points
                calData calLoss predictive pushforward objective method options kw testData (.enum metrics) .ok tt =
              .ok (⟨some q, none⟩, regNames.map fun k => (k, ⟨[N], List.ofFn fun i =>
                regScore (ensMean fun j => net.fn (xs i) (θ + R q *ᵥ eps j))
                  (fun k => Real.sqrt (ensCov (fun j => net.fn (xs i) (θ + R q *ᵥ eps j)) 0 k k)) (ys i) k⟩), g)) := by
  obtain ⟨G, h1, h2, h3⟩ := laplace_then lower rows net params θ trainPoints trainData samples loss H curvType ct kind numCurv numTotal htrain hN
  refine ⟨G, h1, h2, fun est hest => ?_⟩
  obtain ⟨hpsd, hlap⟩ := h3 est hest
  have hapi : ApiNonlinear lower pushforward predictive "none"
      (⟨rng, net, params, fun a s => setPosteriorFn est (.tree params) a s, custom, key, numSamples⟩ : PredictiveArgs X K p) θ est :=
    ⟨hpf, hpr, hrng, htrain.hp, htrain.hwf, htrain.hθ, hpsd, rfl, hS, Or.inl rfl⟩
  obtain ⟨eps, R, d1, d2, d3⟩ := sampled_calibrate_evaluate lower rows points pushforward predictive objective method metrics
    (⟨rng, net, params, fun a s => setPosteriorFn est (.tree params) a s, custom, key, numSamples⟩ : PredictiveArgs X K p) θ est est
    calData calLoss options kw testData tt hapi hcls ho hm hn hmet hM cx cy hcal xs ys htest
  refine ⟨eps, R, d1, d2, fun hposc hpost => ?_⟩
  obtain ⟨q, tried, set, c2, c3, c1, c4, e1⟩ := d3 hposc hpost
  refine ⟨q, tried, set ⟨some q, none⟩, c2, c3, c4.2, ?_⟩
  simp only [workflow, hlap, ok_bind]
  rw [c1, ok_bind]
  simp only []
  rw [e1]
  rfl

/-- **C54 (layout of the training data, every downstream call).** Reordering the training samples or cutting them into batches differently leaves the
outcome of the whole workflow unchanged — result or exception, whatever the kind of curvature estimate, pushforward, predictive, objective, method,
metrics and reduction. -/
theorem C54_training_layout_independent (trainData' : PyObj A) (samples' : List (X × Y)) (hperm : samples.Perm samples')
    (htrain : LaplaceCall lower trainPoints net.fn params θ trainData samples loss H curvType ct)
    (htrain' : LaplaceCall lower trainPoints net.fn params θ trainData' samples' loss H curvType ct) (hN : numTotal ≠ 0)
    (ms : MetricsArg (StepFn (Arr ℝ))) (reduce : Arr ℝ → Except Err (Arr ℝ)) :
    workflow lower rows rng net params custom key numSamples trainPoints trainData (.name loss) curvType kind numCurv numTotal points
        calData calLoss predictive pushforward objective method options kw testData ms reduce tt =
      workflow lower rows rng net params custom key numSamples trainPoints trainData' (.name loss) curvType kind numCurv numTotal points
        calData calLoss predictive pushforward objective method options kw testData ms reduce tt := by
  have hl := C47_batching_independent lower rows trainPoints net.fn params θ trainData trainData' samples samples' hperm loss H curvType ct
    htrain htrain' kind numCurv numTotal hN
  simp only [workflow, hl]

end

/-! ### Non-vacuity -/

/-- A generator with different draws for different keys. -/
noncomputable def countRng : Prng ℕ := ⟨0, fun k n => (List.range n).map (k + ·), fun k sh => ⟨sh, List.replicate (shapeSize sh) (k : ℝ)⟩⟩

theorem countRng_ok : RngOk countRng := ⟨by simp [countRng], by simp [countRng], by simp [countRng, Arr.WF]⟩

/-- `f(x, w) = x w`. -/
def slopeNet : Net ℝ 1 := ⟨[1], fun x θ _ => x * θ 0⟩

def slopeParams : PyTree ℝ := .node "dict(w)" [.leaf ⟨[1], [2]⟩]

def slopePoints : PyObj (List ℝ) → PyObj (List ℝ) → Except Err (List (ℝ × Arr ℝ))
  | .arr xs, .arr ys => .ok ((xs.zip ys).map fun r => (r.1, ⟨[1], [r.2]⟩))
  | _, _ => .error .valueError

theorem slope_draws {eps : Fin 2 → Vec 1} (h : Draws countRng (some 0) slopeParams eps) : eps 0 0 = 0 ∧ eps 1 0 = 1 := by
  constructor
  · obtain ⟨k, t, h1, h2, h3⟩ := h 0
    simp [countRng, List.range_succ] at h1
    subst h1
    simp [countRng, randnLike, slopeParams, Tree.leaves, Tree.leavesL, zipStrict, mapE, ok_bind] at h2
    have e : Tree.unflatten (Tree.treedef (.node "dict(w)" [.leaf ⟨[1], [2]⟩] : PyTree ℝ)) [(⟨[1], [0]⟩ : Arr ℝ)] = .ok t := by simpa [shapeSize] using h2
    obtain ⟨-, e2⟩ := (Tree.unflatten_ok_iff _ _ _).1 e
    simp [entries, e2] at h3
    exact h3.symm
  · obtain ⟨k, t, h1, h2, h3⟩ := h 1
    simp [countRng, List.range_succ] at h1
    subst h1
    simp [countRng, randnLike, slopeParams, Tree.leaves, Tree.leavesL, zipStrict, mapE, ok_bind] at h2
    have e : Tree.unflatten (Tree.treedef (.node "dict(w)" [.leaf ⟨[1], [2]⟩] : PyTree ℝ)) [(⟨[1], [1]⟩ : Arr ℝ)] = .ok t := by simpa [shapeSize] using h2
    obtain ⟨-, e2⟩ := (Tree.unflatten_ok_iff _ _ _).1 e
    simp [entries, e2] at h3
    exact h3.symm

theorem slope_spread {eps : Fin 2 → Vec 1} (h : Draws countRng (some 0) slopeParams eps) {R P : Matrix (Fin 1) (Fin 1) ℝ} (hR : R * Rᵀ = P⁻¹)
    (hP : P.PosDef) (x : ℝ) (hx : x ≠ 0) (k : Fin (shapeSize slopeNet.shape)) :
    0 < ensCov (fun j => slopeNet.fn x ((fun _ => 2 : Vec 1) + R *ᵥ eps j)) 0 k k := by
  obtain ⟨h0, h1⟩ := slope_draws h
  have hr : R 0 0 ≠ 0 := by
    intro hz
    have : (R * Rᵀ) 0 0 = 0 := by rw [Matrix.mul_apply]; simp [hz]
    rw [hR] at this
    have hpos := hP.inv.diag_pos (i := 0)
    rw [this] at hpos; exact lt_irrefl _ hpos
  simp only [ensCov, ensMean, Matrix.of_apply, slopeNet, Fin.sum_univ_two, Pi.add_apply, Matrix.mulVec, dotProduct,
    Finset.univ_unique, Fin.default_eq_zero, Finset.sum_singleton, h0, h1]
  have : 0 < x ^ 2 * R 0 0 ^ 2 := by positivity
  show 0 < (((_ : ℝ) * _ + _ * _) / _)
  norm_num
  nlinarith

theorem slope_train : LaplaceCall (fun s => s) testTrainPoints slopeNet.fn slopeParams (fun _ => 2)
    (.tup [.arr [1, 2, 3], .arr [2, 4, 7]]) [(1, ()), (2, ()), (3, ())] "mse" (fun jv _ _ => mseHessianMv jv) (.str "diagonal")
    (.member "diagonal") := by
  refine ⟨by norm_num, ?_, by simp [slopeParams, entries, Tree.leaves, Tree.leavesL], ?_, ?_, rfl, rfl⟩
  · intro a ha
    simp only [slopeParams, Tree.leaves, Tree.leavesL, List.append_nil, List.mem_singleton] at ha
    subst ha; rfl
  · refine ⟨[(.arr [1, 2, 3], .arr [2, 4, 7])], fun xy => (testTrainPoints xy.1 xy.2).toOption.getD [], DataOf.single _ _ (BatchOf.pair _ _), ?_, rfl⟩
    intro xy hxy; simp at hxy; subst hxy; rfl
  · intro s _
    rw [differentiableAt_pi]
    intro k
    show DifferentiableAt ℝ (fun v : Vec 1 => s.1 * v 0) _
    fun_prop

/-- Two sampled networks, a diagonal curvature estimate, three training, two calibration and two test points: all hypotheses are met. -/
example : ∃ (q : ℝ) (metrics : Dict (Arr ℝ)) (g : ℝ → Except Err (Dict (Arr ℝ))), 0 < q ∧
    workflow (fun s => s) (fun _ => .error .valueError) countRng slopeNet slopeParams (fun _ _ _ _ => .error .typeError) 0 2 testTrainPoints
      (.tup [.arr [1, 2, 3], .arr [2, 4, 7]]) (.name "mse") (.str "diagonal") (fun _ => .diagonal) 3 3 slopePoints
      (.tup [.arr [1, 2], .arr [2, 5]]) (fun _ => .name "mse") (.member "none") (.str "nonlinear") (.str "nll") (.str "grid_search") [] {}
      (.tup [.arr [1, 3], .arr [2, 5]]) (.enum (.str "regression")) .ok ⟨[], [1]⟩ = .ok (⟨some q, none⟩, metrics, g) := by
  obtain ⟨G, hG, -, h⟩ := C54_sampled_workflow (fun s => s) (fun _ => .error .valueError) countRng slopeNet slopeParams (fun _ => 2)
    (fun _ _ _ _ => .error .typeError) 0 2 testTrainPoints _ _ "mse" _ (.str "diagonal") (.member "diagonal") (fun _ => .diagonal) 3 3 slopePoints
    (.tup [.arr [1, 2], .arr [2, 5]]) (fun _ => .name "mse") (.member "none") (.str "nonlinear") (.str "nll") (.str "grid_search")
    (.str "regression") [] {} (.tup [.arr [1, 3], .arr [2, 5]]) ⟨[], [1]⟩ slope_train (by norm_num) countRng_ok (by norm_num) rfl rfl (Or.inl rfl)
    rfl rfl (by decide) rfl (by decide) (M := 2) (by norm_num) ![1, 2] (fun i _ => (![2, 5] : Fin 2 → ℝ) i)
    ⟨_, BatchOf.pair _ _, by simp [slopePoints, arrOf, slopeNet, shapeSize, List.ofFn_succ]⟩
    (N := 2) ![1, 3] (fun i _ => (![2, 5] : Fin 2 → ℝ) i)
    ⟨[(.arr [1, 3], .arr [2, 5])], fun xy => (slopePoints xy.1 xy.2).toOption.getD [], DataOf.single _ _ (BatchOf.pair _ _),
      by intro xy hxy; simp at hxy; subst hxy; exact ⟨rfl, by simp [slopePoints, Except.toOption]⟩,
      by simp [slopePoints, arrOf, slopeNet, shapeSize, List.ofFn_succ, Except.toOption]⟩
  have hpsd : EstimatePsd (.diagonal (fun i => G i i) : CurvEstimate 1) := posSemidef_diag_nonneg hG
  obtain ⟨eps, R, d1, d2, d3⟩ := h (.diagonal fun i => G i i) (Or.inr (Or.inl ⟨rfl, rfl⟩))
  have hpos : ∀ x : ℝ, x ≠ 0 → ∀ τ, 0 < τ → ∀ k, 0 < ensCov (fun j => slopeNet.fn x ((fun _ => 2 : Vec 1) + R τ *ᵥ eps j)) 0 k k :=
    fun x hx τ hτ k => slope_spread d1 (d2 τ hτ) (targetPrecision_posDef hpsd hτ (by norm_num)) x hx k
  obtain ⟨q, tried, g, h1, -, -, h2⟩ := d3 (fun τ hτ i k => hpos _ (by fin_cases i <;> simp) τ hτ k)
    (fun τ hτ i k => hpos _ (by fin_cases i <;> simp) τ hτ k)
  exact ⟨q, _, g, h1, h2⟩

end Laplax.Props
