import Verif.Lib.ApiEvaluationLemmas
import Verif.Lib.BroadcastLemmas
import Verif.Props.ApiCalibration

/-! # C53: evaluation end to end -/

namespace Laplax.Props
open Laplax Laplax.Spec
open scoped BigOperators Matrix

variable {X K A : Type} {p : ℕ}

theorem toNd_arrOf (sh : List ℕ) (m : Vec (shapeSize sh)) : (arrOf sh m).toNd = ⟨sh, m⟩ := by
  unfold arrOf Arr.toNd
  congr 1
  funext i
  simp [List.getD_eq_getElem?_getD]

/-- The default regression metrics of one data point. -/
theorem regression_point (sh : List ℕ) (pred : X → Except Err (Dict (Arr ℝ))) (x : X) (r : Dict (Arr ℝ)) (hx : pred x = .ok r)
    (m s y : Vec (shapeSize sh)) (hm : r.get? "pred_mean" = some (arrOf sh m)) (hs : r.get? "pred_std" = some (arrOf sh s))
    (hpos : ∀ k, 0 < s k) (tt : Arr ℝ) (kw : Dict (Arr ℝ)) (hkw : kw ∈ [[], [("has_batch", tt)]]) :
    evaluatePoint pred defaultRegressionMetrics kw (x, arrOf sh y) = .ok (regNames.map fun k => (k, ⟨[], [regScore m s y k]⟩)) := by
  have g1 : (r.set "target" (arrOf sh y)).get? "pred_mean" = some (arrOf sh m) := by rw [Dict.get?_set, if_neg (by decide), hm]
  have g2 : (r.set "target" (arrOf sh y)).get? "pred_std" = some (arrOf sh s) := by rw [Dict.get?_set, if_neg (by decide), hs]
  have g3 : (r.set "target" (arrOf sh y)).get? "target" = some (arrOf sh y) := by rw [Dict.get?_set, if_pos rfl]
  have hpairs : resolvePairs [] (r.set "target" (arrOf sh y)) [("pred_mean", "pred_mean"), ("pred_std", "pred_std"), ("target", "target")] =
      .ok (some [("pred_mean", arrOf sh m), ("pred_std", arrOf sh s), ("target", arrOf sh y)]) := by
    simp only [resolvePairs, lookupPairs, Dict.get?, g1, g2, g3]
    rfl
  obtain ⟨d, hd⟩ : ∃ d : Dict (Arr ℝ), d = [("pred_mean", arrOf sh m), ("pred_std", arrOf sh s), ("target", arrOf sh y)] := ⟨_, rfl⟩
  have hany : kw.keys.any (fun k => d.mem k) = false := by
    rw [hd]
    rcases List.mem_cons.1 hkw with rfl | h
    · rfl
    · rw [List.mem_singleton.1 h]; rfl
  have a1 : kwArg (d ++ kw) "pred_mean" = .ok (arrOf sh m) := by rw [hd]; rfl
  have a2 : kwArg (d ++ kw) "pred_std" = .ok (arrOf sh s) := by rw [hd]; rfl
  have a3 : kwArg (d ++ kw) "target" = .ok (arrOf sh y) := by rw [hd]; rfl
  have v : ∀ (w : Vec (shapeSize sh)), (fun i : Fin (shapeSize (arrOf sh m).shape) => (arrOf sh w).data.getD i.val 0) = w := by
    intro w; funext i
    show (List.ofFn w).getD i.val 0 = w i
    have hi : i.val < shapeSize sh := i.isLt
    simp [List.getD_eq_getElem?_getD, hi]
    rfl
  have e1 : callKw rmseKw d kw = .ok ⟨[], [regScore m s y "rmse"]⟩ := by
    simp only [callKw, hany, Bool.false_eq_true, if_false, rmseKw, a1, a3, ok_bind]
    rw [if_pos (show (arrOf sh m).shape = (arrOf sh y).shape from rfl), v, v]
    simp only [estimateRmse, jnpMean, regScore, if_true, scalarArr]
    refine congrArg (fun q => Except.ok (⟨[], [Real.sqrt q]⟩ : Arr ℝ)) ?_
    refine congrArg (· / _) (Finset.sum_congr rfl fun k _ => ?_)
    ring
  have e2 : callKw chi2Kw d kw = .ok ⟨[], [regScore m s y "chi^2"]⟩ := by
    simp only [callKw, hany, Bool.false_eq_true, if_false, chi2Kw, a1, a2, a3, ok_bind]
    rw [if_pos ⟨rfl, rfl⟩, v, v, v]
    simp only [chiSquared, jnpMean, if_true, scalarArr]
    refine congrArg (fun q => Except.ok (⟨[], [q]⟩ : Arr ℝ)) ?_
    simp only [regScore, show ("chi^2" = "rmse") = False from by simp, if_false, if_true]
    refine congrArg (· / _) (Finset.sum_congr rfl fun k _ => ?_)
    rw [div_pow]; ring
  have e3 : callKw nllKw d kw = .ok ⟨[], [regScore m s y "nll"]⟩ := by
    simp only [callKw, hany, Bool.false_eq_true, if_false, nllKw, a1, a2, a3, ok_bind, toNd_arrOf]
    rw [(C32_nll sh m s y hpos).1]
    simp [regScore, ok_bind, scalarArr, pure, Except.pure]
  have e4 : callKw crpsKw d kw = .ok ⟨[], [regScore m s y "crps"]⟩ := by
    simp only [callKw, hany, Bool.false_eq_true, if_false, crpsKw, a1, a2, a3, ok_bind, toNd_arrOf]
    rw [(C32_crps sh m s y hpos).1]
    simp [regScore, ok_bind, scalarArr, pure, Except.pure]
  simp only [evaluatePoint, hx, ok_bind, finalizeFns, defaultRegressionMetrics, finalizeLoop, applyFns, hpairs, resolveNames,
    List.length_cons, List.length_nil, ne_eq, not_true_eq_false, if_false, List.map_cons, List.map_nil, List.zip_cons_cons, List.zip_nil_right,
    applyLoop, Option.getD_some, if_true, ← hd, e1, e2, e3, e4]
  rfl

/-! ### Batching -/

/-- **C53 (batching).** If the metrics yield, for every data point and with or without the loader's extra keyword, the same keys
with the same shapes (in JAX shapes are static), then `evaluation`'s metrics hold for every key the values of all data points in order:
whether the points come as one batch (pair or mapping) or from a re-iterable loader, and however they are split into batches. -/
theorem C53_batching (rows : A → Except Err (List A)) (points : PyObj A → PyObj A → Except Err (List (X × Arr ℝ)))
    (predFn : X → Except Err (Dict (Arr ℝ))) (ms : List (StepFn (Arr ℝ))) (tt : Arr ℝ) (data : PyObj A) (pts : List (X × Arr ℝ))
    (hd : PointsAre points data pts) (ks : List String) (sh : String → List ℕ) (dat : X × Arr ℝ → String → List ℝ)
    (h : ∀ kw ∈ [[], [("has_batch", tt)]], ∀ pt ∈ pts, evaluatePoint predFn ms kw pt = .ok (ks.map fun k => (k, ⟨sh k, dat pt k⟩))) :
    evaluationMetrics rows points predFn ms .ok tt data = .ok (ks.map fun k => (k, ⟨pts.length :: sh k, (pts.map (dat · k)).flatten⟩)) :=
  evaluationMetrics_ok rows points predFn ms tt data pts hd ks sh dat h

/-- **C53 (batching does not matter).** Two data sets with the same points give the same metrics. -/
theorem C53_same_points (rows : A → Except Err (List A)) (points : PyObj A → PyObj A → Except Err (List (X × Arr ℝ)))
    (predFn : X → Except Err (Dict (Arr ℝ))) (ms : List (StepFn (Arr ℝ))) (tt : Arr ℝ) (data data' : PyObj A) (pts : List (X × Arr ℝ))
    (hd : PointsAre points data pts) (hd' : PointsAre points data' pts) (ks : List String) (sh : String → List ℕ)
    (dat : X × Arr ℝ → String → List ℝ)
    (h : ∀ kw ∈ [[], [("has_batch", tt)]], ∀ pt ∈ pts, evaluatePoint predFn ms kw pt = .ok (ks.map fun k => (k, ⟨sh k, dat pt k⟩))) :
    evaluationMetrics rows points predFn ms .ok tt data = evaluationMetrics rows points predFn ms .ok tt data' := by
  rw [C53_batching rows points predFn ms tt data pts hd ks sh dat h, C53_batching rows points predFn ms tt data' pts hd' ks sh dat h]

/-- **C53 (`reduce`).** For one batch (pair or mapping), `reduce` is applied to each metric's array of values over the data points. -/
theorem C53_reduce (rows : A → Except Err (List A)) (points : PyObj A → PyObj A → Except Err (List (X × Arr ℝ)))
    (predFn : X → Except Err (Dict (Arr ℝ))) (ms : List (StepFn (Arr ℝ))) (tt : Arr ℝ) (data : PyObj A) {xy : PyObj A × PyObj A}
    (hb : BatchOf data xy) (pts : List (X × Arr ℝ)) (hp : points xy.1 xy.2 = .ok pts) (hne : pts ≠ []) (ks : List String)
    (sh : String → List ℕ) (dat : X × Arr ℝ → String → List ℝ) (reduce : Arr ℝ → Except Err (Arr ℝ)) (v : String → Arr ℝ)
    (h : ∀ pt ∈ pts, evaluatePoint predFn ms [] pt = .ok (ks.map fun k => (k, ⟨sh k, dat pt k⟩)))
    (hr : ∀ k ∈ ks, reduce ⟨pts.length :: sh k, (pts.map (dat · k)).flatten⟩ = .ok (v k)) :
    evaluationMetrics rows points predFn ms reduce tt data = .ok (ks.map fun k => (k, v k)) := by
  obtain ⟨tr, d, t1, t2, t3⟩ := batch_points hb rows points _ hp
  have hl : data.isDataLoader = false := by cases hb <;> rfl
  simp only [evaluationMetrics, hl, Bool.false_eq_true, if_false, t1, t2, t3, ok_bind]
  simp only [evaluateMetricsOnDataset, initMetrics]
  rw [mapE_of_forall _ _ _ h, ok_bind]
  cases hc : pts with
  | nil => exact absurd hc hne
  | cons b0 bs0 =>
    simp only [List.map_cons, keys_mapKeys]
    rw [← List.map_cons (f := fun pt => ks.map fun k => (k, (⟨sh k, dat pt k⟩ : Arr ℝ))), ← hc]
    refine Laplax.reduceMetrics_ok _ _ _ _ fun k hk => ⟨pts.map fun pt => ⟨sh k, dat pt k⟩, ?_, ?_⟩
    · rw [mapE_ok_iff, List.forall₂_map_left_iff, List.forall₂_map_right_iff, List.forall₂_same]
      intro b _
      exact get?_mapKeys _ hk
    · rw [stackOf_map _ _ _ hne]; exact hr k hk

/-- **C53 (one-shot iterators).** A one-shot iterator gives the metrics of the re-iterable loader without the first batch. -/
theorem C53_one_shot_drops_first (rows : A → Except Err (List A)) (points : PyObj A → PyObj A → Except Err (List (X × Arr ℝ)))
    (predFn : X → Except Err (Dict (Arr ℝ))) (ms : List (StepFn (Arr ℝ))) (reduce : Arr ℝ → Except Err (Arr ℝ)) (tt : Arr ℝ)
    (p0 p1 : PyObj A × PyObj A) (ps : List (PyObj A × PyObj A)) :
    evaluationMetrics rows points predFn ms reduce tt (.iter (.oneShot ((p0 :: p1 :: ps).map fun xy => .tup [xy.1, xy.2]))) =
      evaluationMetrics rows points predFn ms reduce tt (.iter (.reiterable ((p1 :: ps).map fun xy => .tup [xy.1, xy.2]))) ∧
    evaluationMetrics rows points predFn ms reduce tt (.iter (.oneShot [.tup [p0.1, p0.2]])) = .ok [] := ⟨rfl, rfl⟩

/-- **C53 (finding: `reduce` and loaders).** For a loader the `reduce` argument has no effect. -/
theorem C53_loader_ignores_reduce (rows : A → Except Err (List A)) (points : PyObj A → PyObj A → Except Err (List (X × Arr ℝ)))
    (predFn : X → Except Err (Dict (Arr ℝ))) (ms : List (StepFn (Arr ℝ))) (reduce reduce' : Arr ℝ → Except Err (Arr ℝ)) (tt : Arr ℝ)
    (l : Loader (PyObj A)) :
    evaluationMetrics rows points predFn ms reduce tt (.iter l) = evaluationMetrics rows points predFn ms reduce' tt (.iter l) := rfl

/-! ### Regression -/

theorem flatten_singletons {n : ℕ} (g : Fin n → ℝ) : (List.ofFn fun i => [g i]).flatten = List.ofFn g := by
  show (List.ofFn ((fun x => [x]) ∘ g)).flatten = _
  rw [← List.map_ofFn]
  induction List.ofFn g with
  | nil => rfl
  | cons a l ih => simpa using ih

/-- The regression metrics of data whose points all have positive predictive standard deviations. -/
theorem regression_metrics (rows : A → Except Err (List A)) (points : PyObj A → PyObj A → Except Err (List (X × Arr ℝ)))
    (predFn : X → Except Err (Dict (Arr ℝ))) (tt : Arr ℝ) (data : PyObj A) (sh : List ℕ) {N : ℕ} (xs : Fin N → X)
    (ys : Fin N → Vec (shapeSize sh)) (hd : PointsAre points data (List.ofFn fun i => (xs i, arrOf sh (ys i))))
    (m s : X → Vec (shapeSize sh)) (hpos : ∀ i k, 0 < s (xs i) k)
    (h : ∀ x, ∃ r, predFn x = .ok r ∧ r.get? "pred_mean" = some (arrOf sh (m x)) ∧ r.get? "pred_std" = some (arrOf sh (s x))) :
    evaluationMetrics rows points predFn defaultRegressionMetrics .ok tt data =
      .ok (regNames.map fun k => (k, ⟨[N], List.ofFn fun i => regScore (m (xs i)) (s (xs i)) (ys i) k⟩)) := by
  have key := C53_batching rows points predFn defaultRegressionMetrics tt data _ hd regNames (fun _ => [])
    (fun pt k => [regScore (m pt.1) (s pt.1) (fun j : Fin (shapeSize sh) => pt.2.data.getD j.val 0) k]) (fun kw hkw pt hpt => by
      obtain ⟨i, rfl⟩ := (List.mem_ofFn' _ _).1 hpt
      obtain ⟨r, h1, h2, h3⟩ := h (xs i)
      rw [regression_point sh predFn (xs i) r h1 _ _ (ys i) h2 h3 (hpos i) tt kw hkw]
      have : (fun j : Fin (shapeSize sh) => (arrOf sh (ys i)).data.getD j.val 0) = ys i := by
        funext j; simp [arrOf, List.getD_eq_getElem?_getD]
      simp only [this])
  rw [key]
  have : ∀ i, (fun j : Fin (shapeSize sh) => (arrOf sh (ys i)).data.getD j.val 0) = ys i := by
    intro i; funext j; simp [arrOf, List.getD_eq_getElem?_getD]
  simp only [List.length_ofFn, List.map_ofFn, Function.comp_def, this, flatten_singletons]

theorem posDef_inv {est : CurvEstimate p} (he : EstimatePsd est) (params : PyTree ℝ) (hsz : numEntries params = p)
    (hp : 0 < p) {τ σ2 : ℝ} (hτ : 0 < τ) (hσ : 0 ≤ σ2) : ((targetPrecision τ σ2 1 est)⁻¹).PosDef := by
  obtain ⟨post, cov, scale, -, -, -, R, k4, -, -⟩ := posterior_of_estimate params hsz hp est he ⟨some τ, some σ2⟩ τ rfl hτ (by simpa using hσ) 1 one_pos
  exact k4.2.1

theorem covAt_pos {c : ℕ} {f : X → Vec p → Vec c} {θ : Vec p} {P : Matrix (Fin p) (Fin p) ℝ} (hP : (P⁻¹).PosDef) (x : X) (k : Fin c)
    (hJ : ∃ j, jacobian (f x) θ k j ≠ 0) : 0 < covAt f θ P x k k := by
  have hne : (fun j => jacobian (f x) θ k j) ≠ 0 := by
    obtain ⟨j, hj⟩ := hJ
    intro e; exact hj (congrFun e j)
  have := quad_pos hP _ hne
  convert this using 1
  simp only [covAt, Matrix.mul_apply, Matrix.transpose_apply, Finset.sum_mul]
  rw [Finset.sum_comm]

section
variable (lower : String → String) (rows : A → Except Err (List A)) (points : PyObj A → PyObj A → Except Err (List (X × Arr ℝ)))
  (pushforward predictive metrics : EnumArg) (pr : String) (a : PredictiveArgs X K p) (θ : Vec p) (est : CurvEstimate p)
  (prior : PriorArgs) (data : PyObj A) (tt : Arr ℝ) {N : ℕ} (xs : Fin N → X) (τ : ℝ)

/-- **C53 (regression, linearised predictive).** `evaluation` with the default regression metrics returns exactly `rmse`, `chi^2`, `nll`
and `crps`, each with one value per data point in the order of the data: the scores of the target under the normal distributions with
mean `f(x, θ)` and variances the diagonal of `J_x P⁻¹ J_xᵀ`, with `P` the posterior precision of the given prior arguments; together
with the predictive.  The data may be one batch or a re-iterable loader with any batch sizes. -/
theorem C53_regression (h : ApiLinear lower pushforward predictive pr a θ est)
    (hmet : convertToEnum lower defaultMetricsValues false metrics = .ok (.member "regression"))
    (hτ : prior.priorPrec = some τ) (hτ0 : 0 < τ) (hσ : 0 ≤ prior.sigmaSquared.getD 1) (_hc : 0 < shapeSize a.net.shape)
    (ys : Fin N → Vec (shapeSize a.net.shape)) (hd : PointsAre points data (List.ofFn fun i => (xs i, arrOf a.net.shape (ys i))))
    (hJ : ∀ i k, ∃ j, jacobian (a.net.fn (xs i)) θ k j ≠ 0) :
    ∃ (g : X → Except Err (Dict (Arr ℝ))) (eps : Fin a.numSamples → Vec p) (R : Matrix (Fin p) (Fin p) ℝ),
      evaluation lower rows points a prior data (.enum metrics) predictive pushforward none .ok tt =
        .ok (regNames.map fun k => (k, ⟨[N], List.ofFn fun i => regScore (a.net.fn (xs i) θ)
          (fun k => Real.sqrt (covAt a.net.fn θ (targetPrecision τ (prior.sigmaSquared.getD 1) 1 est) (xs i) k k)) (ys i) k⟩), g) ∧
      Draws a.rng (some a.key) a.params eps ∧
      LinearPredictiveAt a θ pr eps R (targetPrecision τ (prior.sigmaSquared.getD 1) 1 est) g := by
  obtain ⟨fns, eps, h1, h2, h3⟩ := C51_linear_predictive lower pushforward predictive pr h.pushforward h.predictive a h.rng h.nonempty
    h.wf θ h.params est h.psd h.posterior h.usable
  obtain ⟨P, R, rfl, e1, e2, e3⟩ := h3 prior τ hτ hτ0 hσ
  have hsz : numEntries a.params = p := by rw [← length_entries h.wf, h.params, List.length_ofFn]
  have hpd := posDef_inv h.psd a.params hsz h.nonempty hτ0 hσ
  refine ⟨_, eps, R, ?_, h2, e2, e3⟩
  have hm : resolveMetrics lower defaultRegressionMetrics defaultClassificationMetrics (.enum metrics) = .ok defaultRegressionMetrics := by
    cases metrics with
    | other => simp [convertToEnum] at hmet
    | member v => simp only [resolveMetrics, hmet, ok_bind]; rfl
    | str v => simp only [resolveMetrics, hmet, ok_bind]; rfl
  simp only [evaluation, hm, h1, ok_bind]
  rw [regression_metrics rows points _ tt data a.net.shape xs ys hd (fun x => a.net.fn x θ)
    (fun x k => Real.sqrt (covAt a.net.fn θ (targetPrecision τ (prior.sigmaSquared.getD 1) 1 est) x k k))
    (fun i k => Real.sqrt_pos.2 (covAt_pos hpd (xs i) k (hJ i k))) (fun x => by
      obtain ⟨r, r1, r2⟩ := e3 x
      exact ⟨r, r1, by rw [r2]; simp [apiExpected], by rw [r2]; simp [apiExpected, covAt]⟩)]
  rfl

/-- **C53 (regression, sampled predictive).** With the nonlinear pushforward the scores are those of the mean and the standard
deviation of the sampled networks, as long as these standard deviations are positive. -/
theorem C53_regression_nonlinear (h : ApiNonlinear lower pushforward predictive pr a θ est)
    (hmet : convertToEnum lower defaultMetricsValues false metrics = .ok (.member "regression"))
    (hτ : prior.priorPrec = some τ) (hτ0 : 0 < τ) (hσ : 0 ≤ prior.sigmaSquared.getD 1) (_hc : 0 < shapeSize a.net.shape)
    (ys : Fin N → Vec (shapeSize a.net.shape)) (hd : PointsAre points data (List.ofFn fun i => (xs i, arrOf a.net.shape (ys i)))) :
    ∃ (g : X → Except Err (Dict (Arr ℝ))) (eps : Fin a.numSamples → Vec p) (R : Matrix (Fin p) (Fin p) ℝ),
      Draws a.rng (some a.key) a.params eps ∧
      SampledPredictiveAt a θ pr eps R (targetPrecision τ (prior.sigmaSquared.getD 1) 1 est) g ∧
      ((∀ i k, 0 < ensCov (fun j => a.net.fn (xs i) (θ + R *ᵥ eps j)) 0 k k) →
        evaluation lower rows points a prior data (.enum metrics) predictive pushforward none .ok tt =
          .ok (regNames.map fun k => (k, ⟨[N], List.ofFn fun i => regScore (ensMean fun j => a.net.fn (xs i) (θ + R *ᵥ eps j))
            (fun k => Real.sqrt (ensCov (fun j => a.net.fn (xs i) (θ + R *ᵥ eps j)) 0 k k)) (ys i) k⟩), g)) := by
  obtain ⟨fns, eps, h1, h2, h3⟩ := C51_nonlinear_predictive lower pushforward predictive pr h.pushforward h.predictive a h.rng h.nonempty
    h.wf θ h.params est h.psd h.posterior h.samples h.usable
  obtain ⟨P, R, rfl, e1, e2, e3⟩ := h3 prior τ hτ hτ0 hσ
  refine ⟨_, eps, R, h2, ⟨e2, e3⟩, fun hpos => ?_⟩
  have hm : resolveMetrics lower defaultRegressionMetrics defaultClassificationMetrics (.enum metrics) = .ok defaultRegressionMetrics := by
    cases metrics with
    | other => simp [convertToEnum] at hmet
    | member v => simp only [resolveMetrics, hmet, ok_bind]; rfl
    | str v => simp only [resolveMetrics, hmet, ok_bind]; rfl
  simp only [evaluation, hm, h1, ok_bind]
  rw [regression_metrics rows points _ tt data a.net.shape xs ys hd (fun x => ensMean fun j => a.net.fn x (θ + R *ᵥ eps j))
    (fun x k => Real.sqrt (ensCov (fun j => a.net.fn x (θ + R *ᵥ eps j)) 0 k k))
    (fun i k => Real.sqrt_pos.2 (hpos i k)) (fun x => by
      obtain ⟨r, r1, r2⟩ := e3 x
      exact ⟨r, r1, by rw [r2]; simp [apiNonlinExpected], by rw [r2]; simp [apiNonlinExpected]⟩)]
  rfl

/-! ### Classification -/

theorem mapE_first_error {B C : Type} (f : B → Except Err C) (x : B) (xs : List B) (e : Err) (h : f x = .error e) :
    mapE f (x :: xs) = .error e := by
  simp only [mapE, h]; rfl

/-- If the metrics raise for every data point, `evaluation` raises. -/
theorem evaluationMetrics_error (predFn : X → Except Err (Dict (Arr ℝ))) (ms : List (StepFn (Arr ℝ)))
    (reduce : Arr ℝ → Except Err (Arr ℝ)) (pts : List (X × Arr ℝ)) (hd : PointsAre points data pts) (e : Err)
    (h : ∀ kw ∈ [[], [("has_batch", tt)]], ∀ pt ∈ pts, evaluatePoint predFn ms kw pt = .error e) :
    evaluationMetrics rows points predFn ms reduce tt data = .error e := by
  obtain ⟨ps, decode, hdata, hdec, rfl⟩ := hd
  have hbatch : ∀ xy ∈ ps, evaluateBatch predFn ms [("has_batch", tt)] (decode xy) = .error e := by
    intro xy hxy
    cases hc : decode xy with
    | nil => exact absurd hc (hdec xy hxy).2
    | cons pt l =>
      rw [evaluateBatch, mapE_first_error _ _ _ e (h _ (by simp) pt (List.mem_flatMap.2 ⟨xy, hxy, by simp [hc]⟩))]; rfl
  cases hdata with
  | single _ xy hb =>
    obtain ⟨tr, d, t1, t2, t3⟩ := batch_points hb rows points _ (hdec xy (by simp)).1
    have hl : data.isDataLoader = false := by cases hb <;> rfl
    simp only [evaluationMetrics, hl, Bool.false_eq_true, if_false, t1, t2, t3, ok_bind, evaluateMetricsOnDataset, initMetrics]
    cases hc : decode xy with
    | nil => exact absurd hc (hdec xy (by simp)).2
    | cons pt l => rw [mapE_first_error _ _ _ e (h _ (by simp) pt (by simp [hc]))]; rfl
  | pairs _ hne =>
    cases ps with
    | nil => exact absurd rfl hne
    | cons p0 ps =>
      have e1 : evaluationMetrics rows points predFn ms reduce tt (.iter (.reiterable ((p0 :: ps).map fun xy => .tup [xy.1, xy.2]))) =
        evaluateOnBatches predFn ms (fun b => do let d ← PyObj.inputTargetSplit rows b; batchPoints points d) concatAll
          [("has_batch", tt)] ((p0 :: ps).map fun xy => .tup [xy.1, xy.2]) := rfl
      rw [e1, evaluateOnBatches, List.map_cons, mapE_first_error _ _ _ e]
      · rfl
      · have : (do let d ← PyObj.inputTargetSplit rows (.tup [p0.1, p0.2]); batchPoints points d) = .ok (decode p0) := (hdec p0 (by simp)).1
        rw [this]
        exact hbatch p0 (by simp)
  | mappings ds _ hne hb =>
    cases hb with
    | nil => exact absurd rfl hne
    | @cons d0 p0 ds' ps' hd hb' =>
      have hval : PyObj.validateAndGetTransform rows (.dct d0) = .ok (fun d => .ok d) := by
        simp [PyObj.validateAndGetTransform, Dict.mem, hd.1, hd.2]
      have e1 : evaluationMetrics rows points predFn ms reduce tt (.iter (.reiterable ((d0 :: ds').map PyObj.dct))) =
          evaluateOnBatches predFn ms (fun b => do let d ← (.ok b : Except Err (PyObj A)); batchPoints points d) concatAll
            [("has_batch", tt)] ((d0 :: ds').map PyObj.dct) := by
        simp only [evaluationMetrics, PyObj.isDataLoader, PyObj.isIterable, Bool.and_self, if_true, PyObj.next, Loader.peek, List.map_cons, ok_bind, hval,
          pure, Except.pure, PyObj.iterAll, Loader.pending]
      rw [e1, evaluateOnBatches, List.map_cons, mapE_first_error _ _ _ e]
      · rfl
      · have : batchPoints points (.dct d0) = .ok (decode p0) := by
          simp only [batchPoints, PyObj.field, Dict.getE, hd.1, hd.2, ok_bind]; exact (hdec p0 (by simp)).1
        simp only [ok_bind, this]
        exact hbatch p0 (by simp)

theorem reduceLast_ok (f : {c : ℕ} → Vec c → ℝ) {b : Arr ℝ} {sh : List ℕ} {c : ℕ} (h : b.shape = sh ++ [c]) (hc : 0 < c) :
    reduceLast f b = .ok ⟨sh, (List.range (shapeSize sh)).map fun i => f fun k : Fin c => b.data.getD (i * c + k.val) 0⟩ := by
  simp only [reduceLast, h, List.getLast?_append, List.getLast?_singleton, Option.some_or, if_neg hc.ne', List.dropLast_concat]

theorem argmax_some {c : ℕ} (hc : 0 < c) (z : Vec c) : ∃ k, jnpArgmax z = some k := by
  classical
  unfold jnpArgmax
  obtain ⟨k, -, hk⟩ := Finset.exists_max_image Finset.univ z ⟨⟨0, hc⟩, Finset.mem_univ _⟩
  rw [← Option.isSome_iff_exists, List.find?_isSome]
  exact ⟨k, List.mem_finRange k, by simpa using fun j => hk j (Finset.mem_univ j)⟩

theorem reduceLast_wf (f : {c : ℕ} → Vec c → ℝ) {b : Arr ℝ} {sh : List ℕ} {c : ℕ} (h : b.shape = sh ++ [c]) (hc : 0 < c) :
    ∃ r, reduceLast f b = .ok r ∧ r.WF ∧ r.shape = sh :=
  ⟨_, reduceLast_ok f h hc, by simp [Arr.WF], rfl⟩

theorem correctnessArr_ok {b t : Arr ℝ} {sh : List ℕ} {c : ℕ} (h : b.shape = sh ++ [c]) (hc : 0 < c) (ht : TargetFits sh t) :
    ∃ r, correctnessArr b t = .ok r := by
  obtain ⟨p, p1, p2, p3⟩ := reduceLast_wf argmaxNum h hc
  obtain ⟨y, y1, y2, y3⟩ : ∃ y, targetArr t = .ok y ∧ y.WF ∧ Compatible sh y.shape := by
    unfold targetArr
    by_cases h2 : t.shape.length = 2
    · obtain ⟨n, m, hnm⟩ := List.length_eq_two.1 h2
      obtain ⟨hm, hcomp⟩ := ht.2.2 n m hnm
      obtain ⟨y, y1, y2, y3⟩ := reduceLast_wf argmaxNum (b := t) (sh := [n]) (c := m) (by simpa using hnm) hm
      exact ⟨y, by rw [if_pos h2]; exact y1, y2, by rw [y3]; exact hcomp⟩
    · exact ⟨t, by rw [if_neg h2], ht.1, ht.2.1 h2⟩
  obtain ⟨r, hr, -⟩ := bcast2_ok (fun x y : ℝ => decide (x = y)) p y p2 y2 (by rw [p3]; exact y3)
  exact ⟨r, by simp only [correctnessArr, argmaxLast, p1, ok_bind, y1, hr]⟩

/-- The default classification metrics raise for every data point; `TypeError` unless the shapes of the output or of the target stop an
earlier metric. -/
theorem classification_point (pred : X → Except Err (Dict (Arr ℝ))) (x : X) (r : Dict (Arr ℝ)) (hx : pred x = .ok r)
    (bm bp : Arr ℝ) (hm : r.get? "map" = some bm) (hp : r.get? "pred_mean" = some bp) (t : Arr ℝ) (kw : Dict (Arr ℝ))
    (hkw : kw ∈ [[], [("has_batch", tt)]]) :
    ∃ e, evaluatePoint pred defaultClassificationMetrics kw (x, t) = .error e ∧
      (∀ (sh : List ℕ) (c : ℕ), 0 < c → bm.shape = sh ++ [c] → bp.shape = sh ++ [c] →
        (∀ ba, r.get? "pred_act" = some ba → ba.shape = sh ++ [c]) → TargetFits sh t → e = .typeError) := by
  obtain ⟨aux, haux⟩ : ∃ aux, aux = r.set "target" t := ⟨_, rfl⟩
  have g : ∀ k, k ≠ "target" → aux.get? k = r.get? k := by
    intro k hk; rw [haux, Dict.get?_set, if_neg (Ne.symm hk)]
  have gt : aux.get? "target" = some t := by rw [haux, Dict.get?_set, if_pos rfl]
  have hkey : "map" ∈ aux.keys := (Dict.mem_keys_iff _ _).2 ⟨bm, by rw [g _ (by decide), hm]⟩
  have hres : resolvePairs (V := Arr ℝ) [] aux [] = .ok none := rfl
  simp only [evaluatePoint, hx, ok_bind, finalizeFns, defaultClassificationMetrics, finalizeLoop, ← haux, applyFns, resolvePairs, resolveNames,
    List.length_cons, List.length_nil, ne_eq, not_true_eq_false, if_false, List.map_cons, List.map_nil, List.zip_cons_cons, List.zip_nil_right,
    applyLoop, Option.getD_none, if_true]
  by_cases hany : kw.keys.any (fun k => aux.mem k) = true
  · simp only [callKw, hany, if_true]; exact ⟨_, rfl, fun _ _ _ _ _ _ _ => rfl⟩
  have hcall : ∀ f : KwFn (Arr ℝ), callKw f aux kw = f (aux ++ kw) := fun f => by simp only [callKw]; rw [if_neg hany]
  have hkw' : ∀ k, k ≠ "has_batch" → kw.get? k = none := by
    intro k hk
    rcases List.mem_cons.1 hkw with rfl | h
    · rfl
    · rw [List.mem_singleton.1 h]; simp [Dict.get?, Ne.symm hk]
  have ga : ∀ k, k ≠ "has_batch" → (aux ++ kw).get? k = aux.get? k := by
    intro k hk; rw [Dict.get?_append, hkw' k hk, Option.or_none]
  have a1 : kwArg (aux ++ kw) "map" = .ok bm := by rw [kwArg, ga _ (by decide), g _ (by decide), hm]
  have a2 : kwArg (aux ++ kw) "pred_mean" = .ok bp := by rw [kwArg, ga _ (by decide), g _ (by decide), hp]
  have a3 : kwArg (aux ++ kw) "target" = .ok t := by rw [kwArg, ga _ (by decide), gt]
  simp only [hcall]
  have hcorr : ∀ (key : String) (b : Arr ℝ), kwArg (aux ++ kw) key = .ok b → ∀ (sh : List ℕ) (c : ℕ), 0 < c → b.shape = sh ++ [c] →
      TargetFits sh t → ∃ v, correctnessKw key (aux ++ kw) = .ok v := by
    intro key b hb sh c hc hbc hft
    obtain ⟨v, hv⟩ := correctnessArr_ok hbc hc hft
    exact ⟨_, by simp only [correctnessKw, hb, a3, ok_bind, hv]; rfl⟩
  cases f1 : confidenceMapKw (aux ++ kw) with
  | error e =>
    refine ⟨e, rfl, fun sh c hc h1 _ _ _ => ?_⟩
    obtain ⟨v, hv, -⟩ := reduceLast_wf (fun z => maxNum (softmax z)) h1 hc
    simp only [confidenceMapKw, a1, ok_bind, hv] at f1
    cases f1
  | ok v1 =>
  rw [ok_bind]
  cases f2 : confidencePredKw (aux ++ kw) with
  | error e =>
    refine ⟨e, rfl, fun sh c hc _ _ h3 _ => ?_⟩
    cases ha : r.get? "pred_act" with
    | none =>
      have a4 : kwArg (aux ++ kw) "pred_act" = .error .typeError := by rw [kwArg, ga _ (by decide), g _ (by decide), ha]
      simp only [confidencePredKw, a4, error_bind] at f2
      cases f2; rfl
    | some ba =>
      have a4 : kwArg (aux ++ kw) "pred_act" = .ok ba := by rw [kwArg, ga _ (by decide), g _ (by decide), ha]
      obtain ⟨v, hv, -⟩ := reduceLast_wf maxNum (h3 ba ha) hc
      simp only [confidencePredKw, a4, ok_bind, hv] at f2
      cases f2
  | ok v2 =>
  rw [ok_bind]
  cases f3 : correctnessKw "map" (aux ++ kw) with
  | error e =>
    refine ⟨e, rfl, fun sh c hc h1 _ _ hft => ?_⟩
    obtain ⟨v, hv⟩ := hcorr "map" bm a1 sh c hc h1 hft
    rw [hv] at f3; cases f3
  | ok v3 =>
  rw [ok_bind]
  cases f4 : correctnessKw "pred_mean" (aux ++ kw) with
  | error e =>
    refine ⟨e, rfl, fun sh c hc _ h2 _ hft => ?_⟩
    obtain ⟨v, hv⟩ := hcorr "pred_mean" bp a2 sh c hc h2 hft
    rw [hv] at f4; cases f4
  | ok v4 =>
  rw [ok_bind]
  have f5 : nllOneHotKw (aux ++ kw) = .error .typeError := by
    unfold nllOneHotKw strictKw
    rw [if_pos]
    rw [List.any_eq_true]
    refine ⟨"map", ?_, by decide⟩
    simp only [Dict.keys, List.map_append, List.mem_append]
    exact Or.inl hkey
  simp only [ok_bind, hcall, f5, error_bind]
  exact ⟨_, rfl, fun _ _ _ _ _ _ _ => rfl⟩

/-- An exception of the first data point is the exception of the run. -/
theorem evaluationMetrics_raises (predFn : X → Except Err (Dict (Arr ℝ))) (ms : List (StepFn (Arr ℝ)))
    (reduce : Arr ℝ → Except Err (Arr ℝ)) (pts : List (X × Arr ℝ)) (hd : PointsAre points data pts)
    (h : ∀ kw ∈ [[], [("has_batch", tt)]], ∀ pt ∈ pts, ∃ e, evaluatePoint predFn ms kw pt = .error e) :
    ∃ e, evaluationMetrics rows points predFn ms reduce tt data = .error e := by
  obtain ⟨ps, decode, hdata, hdec, rfl⟩ := hd
  have hbatch : ∀ xy ∈ ps, ∃ e, evaluateBatch predFn ms [("has_batch", tt)] (decode xy) = .error e := by
    intro xy hxy
    cases hc : decode xy with
    | nil => exact absurd hc (hdec xy hxy).2
    | cons pt l =>
      obtain ⟨e, he⟩ := h [("has_batch", tt)] (by simp) pt (List.mem_flatMap.2 ⟨xy, hxy, by simp [hc]⟩)
      exact ⟨e, by rw [evaluateBatch, mapE_first_error _ _ _ e he]; rfl⟩
  cases hdata with
  | single _ xy hb =>
    obtain ⟨tr, d, t1, t2, t3⟩ := batch_points hb rows points _ (hdec xy (by simp)).1
    have hl : data.isDataLoader = false := by cases hb <;> rfl
    simp only [evaluationMetrics, hl, Bool.false_eq_true, if_false, t1, t2, t3, ok_bind, evaluateMetricsOnDataset, initMetrics]
    cases hc : decode xy with
    | nil => exact absurd hc (hdec xy (by simp)).2
    | cons pt l =>
      obtain ⟨e, he⟩ := h [] (by simp) pt (by simp [hc])
      exact ⟨e, by rw [mapE_first_error _ _ _ e he]; rfl⟩
  | pairs _ hne =>
    cases ps with
    | nil => exact absurd rfl hne
    | cons p0 ps =>
      obtain ⟨e, he⟩ := hbatch p0 (by simp)
      have e1 : evaluationMetrics rows points predFn ms reduce tt (.iter (.reiterable ((p0 :: ps).map fun xy => .tup [xy.1, xy.2]))) =
        evaluateOnBatches predFn ms (fun b => do let d ← PyObj.inputTargetSplit rows b; batchPoints points d) concatAll
          [("has_batch", tt)] ((p0 :: ps).map fun xy => .tup [xy.1, xy.2]) := rfl
      refine ⟨e, ?_⟩
      rw [e1, evaluateOnBatches, List.map_cons, mapE_first_error _ _ _ e]
      · rfl
      · have : (do let d ← PyObj.inputTargetSplit rows (.tup [p0.1, p0.2]); batchPoints points d) = .ok (decode p0) := (hdec p0 (by simp)).1
        rw [this]
        exact he
  | mappings ds _ hne hb =>
    cases hb with
    | nil => exact absurd rfl hne
    | @cons d0 p0 ds' ps' hd hb' =>
      obtain ⟨e, he⟩ := hbatch p0 (by simp)
      refine ⟨e, ?_⟩
      have hval : PyObj.validateAndGetTransform rows (.dct d0) = .ok (fun d => .ok d) := by
        simp [PyObj.validateAndGetTransform, Dict.mem, hd.1, hd.2]
      have e1 : evaluationMetrics rows points predFn ms reduce tt (.iter (.reiterable ((d0 :: ds').map PyObj.dct))) =
          evaluateOnBatches predFn ms (fun b => do let d ← (.ok b : Except Err (PyObj A)); batchPoints points d) concatAll
            [("has_batch", tt)] ((d0 :: ds').map PyObj.dct) := by
        simp only [evaluationMetrics, PyObj.isDataLoader, PyObj.isIterable, Bool.and_self, if_true, PyObj.next, Loader.peek, List.map_cons, ok_bind, hval,
          pure, Except.pure, PyObj.iterAll, Loader.pending]
      rw [e1, evaluateOnBatches, List.map_cons, mapE_first_error _ _ _ e]
      · rfl
      · have : batchPoints points (.dct d0) = .ok (decode p0) := by
          simp only [batchPoints, PyObj.field, Dict.getE, hd.1, hd.2, ok_bind]; exact (hdec p0 (by simp)).1
        simp only [ok_bind, this]
        exact he

/-- **C53 (finding: the default classification metrics cannot be used).** With `metrics="classification"` (any spelling), `evaluation`
raises for every model, whatever the shape of its output, every predictive type and all data; the exception is `TypeError` whenever the
output has a non-empty class axis and the targets fit (labels, one-hot rows or anything that broadcasts): either `pred_act` is missing, or
the function stored under `nll_gaussian` rejects the remaining keys of the predictive. -/
theorem C53_classification_raises
    (hapi : ApiLinear lower pushforward predictive pr a θ est ∨ ApiNonlinear lower pushforward predictive pr a θ est)
    (hmet : convertToEnum lower defaultMetricsValues false metrics = .ok (.member "classification"))
    (hτ : prior.priorPrec = some τ) (hτ0 : 0 < τ) (hσ : 0 ≤ prior.sigmaSquared.getD 1)
    (pts : List (X × Arr ℝ)) (hd : PointsAre points data pts) (reduce : Arr ℝ → Except Err (Arr ℝ)) :
    (∃ e, evaluation lower rows points a prior data (.enum metrics) predictive pushforward none reduce tt = .error e) ∧
    ∀ (sh : List ℕ) (c : ℕ), 0 < c → a.net.shape = sh ++ [c] → (∀ pt ∈ pts, TargetFits sh pt.2) →
      evaluation lower rows points a prior data (.enum metrics) predictive pushforward none reduce tt = .error .typeError := by
  have hm : resolveMetrics lower defaultRegressionMetrics defaultClassificationMetrics (.enum metrics) = .ok defaultClassificationMetrics := by
    cases metrics with
    | other => simp [convertToEnum] at hmet
    | member v => simp only [resolveMetrics, hmet, ok_bind]; rfl
    | str v => simp only [resolveMetrics, hmet, ok_bind]; rfl
  rcases hapi with h | h
  · obtain ⟨fns, eps, h1, h2, h3⟩ := C51_linear_predictive lower pushforward predictive pr h.pushforward h.predictive a h.rng h.nonempty
      h.wf θ h.params est h.psd h.posterior h.usable
    obtain ⟨P, R, rfl, e1, e2, e3⟩ := h3 prior τ hτ hτ0 hσ
    have key : ∀ kw ∈ [[], [("has_batch", tt)]], ∀ pt : X × Arr ℝ, ∃ e,
        evaluatePoint (setPushforward a .lin fns prior) defaultClassificationMetrics kw pt = .error e ∧
        ∀ (sh : List ℕ) (c : ℕ), 0 < c → a.net.shape = sh ++ [c] → TargetFits sh pt.2 → e = .typeError := by
      intro kw hkw pt
      obtain ⟨r, r1, r2⟩ := e3 pt.1
      obtain ⟨e, he, hty⟩ := classification_point tt _ pt.1 r r1 _ _ (by rw [r2]; simp [apiExpected]; rfl) (by rw [r2]; simp [apiExpected]; rfl)
        pt.2 kw hkw
      refine ⟨e, he, fun sh c hc hs hft => hty sh c hc hs hs (fun ba hba => ?_) hft⟩
      rw [r2] at hba
      simp only [apiExpected] at hba
      split_ifs at hba <;> simp_all <;> subst hba <;> first | exact hs | rfl
    simp only [evaluation, hm, h1, ok_bind]
    constructor
    · obtain ⟨e, he⟩ := evaluationMetrics_raises rows points data tt (setPushforward a .lin fns prior) defaultClassificationMetrics reduce pts hd
        fun kw hkw pt _ => (key kw hkw pt).imp fun e he => he.1
      exact ⟨e, by rw [he]; rfl⟩
    · intro sh c hc hs hft
      rw [evaluationMetrics_error rows points data tt _ _ reduce pts hd .typeError]
      · rfl
      · intro kw hkw pt hpt
        obtain ⟨e, he, hty⟩ := key kw hkw pt
        rw [he, hty sh c hc hs (hft pt hpt)]
  · obtain ⟨fns, eps, h1, h2, h3⟩ := C51_nonlinear_predictive lower pushforward predictive pr h.pushforward h.predictive a h.rng h.nonempty
      h.wf θ h.params est h.psd h.posterior h.samples h.usable
    obtain ⟨P, R, rfl, e1, e2, e3⟩ := h3 prior τ hτ hτ0 hσ
    have key : ∀ kw ∈ [[], [("has_batch", tt)]], ∀ pt : X × Arr ℝ, ∃ e,
        evaluatePoint (setPushforward a .nonlin fns prior) defaultClassificationMetrics kw pt = .error e ∧
        ∀ (sh : List ℕ) (c : ℕ), 0 < c → a.net.shape = sh ++ [c] → TargetFits sh pt.2 → e = .typeError := by
      intro kw hkw pt
      obtain ⟨r, r1, r2⟩ := e3 pt.1
      obtain ⟨e, he, hty⟩ := classification_point tt _ pt.1 r r1 _ _ (by rw [r2]; simp [apiNonlinExpected]; rfl)
        (by rw [r2]; simp [apiNonlinExpected]; rfl) pt.2 kw hkw
      refine ⟨e, he, fun sh c hc hs hft => hty sh c hc hs hs (fun ba hba => ?_) hft⟩
      rw [r2] at hba
      simp [apiNonlinExpected] at hba
    simp only [evaluation, hm, h1, ok_bind]
    constructor
    · obtain ⟨e, he⟩ := evaluationMetrics_raises rows points data tt (setPushforward a .nonlin fns prior) defaultClassificationMetrics reduce pts hd
        fun kw hkw pt _ => (key kw hkw pt).imp fun e he => he.1
      exact ⟨e, by rw [he]; rfl⟩
    · intro sh c hc hs hft
      rw [evaluationMetrics_error rows points data tt _ _ reduce pts hd .typeError]
      · rfl
      · intro kw hkw pt hpt
        obtain ⟨e, he, hty⟩ := key kw hkw pt
        rw [he, hty sh c hc hs (hft pt hpt)]

/-- **C53 (finding: one-hot targets).** On one data point, `correctness` compares the predicted class with every entry of a one-hot
target: the result is a vector instead of one number. -/
theorem C53_one_hot_point_broadcasts {c : ℕ} (y : Fin c) (d : Dict (Arr ℝ)) (b : Arr ℝ) (hb : d.get? "map" = some b) (hbc : b.shape = [c])
    (ht : d.get? "target" = some ⟨[c], List.ofFn fun k => if k = y then (1 : ℝ) else 0⟩) :
    ∃ v, correctnessKw "map" d = .ok v ∧ v.shape = [c] := by
  have h1 := reduceLast_ok argmaxNum (b := b) (sh := []) (c := c) hbc y.pos
  have hs : bcShapes [] [c] = some [c] := by
    by_cases h : 1 = c
    · subst h; rfl
    · simp [bcShapes, padShape, bcAligned, bcDim, h]
  exact ⟨_, by simp only [correctnessKw, kwArg, hb, ht, ok_bind, correctnessArr, argmaxLast, h1, targetArr, List.length_singleton,
    OfNat.one_ne_ofNat, if_false, Arr.bcast2, hs]; rfl, rfl⟩

end

/-! ### Non-vacuity -/

/-- Points of a batch with one or two inputs and two-entry targets. -/
def testEvalPoints : PyObj (List ℝ) → PyObj (List ℝ) → Except Err (List (ℝ × Arr ℝ))
  | .arr [x, x'], .arr [a, b, c, d] => .ok [(x, ⟨[2], [a, b]⟩), (x', ⟨[2], [c, d]⟩)]
  | .arr [x], .arr [a, b] => .ok [(x, ⟨[2], [a, b]⟩)]
  | _, _ => .error .valueError

/-- A loader with a batch of two points and a batch of one point. -/
def testLoader : PyObj (List ℝ) := .iter (.reiterable [.tup [.arr [1, 2], .arr [4, 5, 6, 7]], .tup [.arr [3], .arr [8, 9]]])

theorem test_points : PointsAre testEvalPoints testLoader (List.ofFn fun i => ((![1, 2, 3] : Fin 3 → ℝ) i,
    arrOf testArgs.net.shape ((![![4, 5], ![6, 7], ![8, 9]] : Fin 3 → Fin 2 → ℝ) i))) := by
  refine ⟨[(.arr [1, 2], .arr [4, 5, 6, 7]), (.arr [3], .arr [8, 9])], fun xy => (testEvalPoints xy.1 xy.2).toOption.getD [],
    DataOf.pairs [(.arr [1, 2], .arr [4, 5, 6, 7]), (.arr [3], .arr [8, 9])] (by simp), ?_, ?_⟩
  · intro xy hxy
    rcases List.mem_cons.1 hxy with rfl | hxy
    · exact ⟨rfl, by simp [testEvalPoints, Except.toOption]⟩
    · rw [List.mem_singleton.1 hxy]
      exact ⟨rfl, by simp [testEvalPoints, Except.toOption]⟩
  · simp [testEvalPoints, Except.toOption, arrOf, testArgs, testNet, List.ofFn_succ]

/-- The hypotheses of the regression theorem are met by a loader with batches of different sizes. -/
example : ∃ g, evaluation (fun s => if s = "Linear" then "linear" else s) (fun _ => .error .valueError) testEvalPoints testArgs
      ⟨some 2, none⟩ testLoader (.enum (.str "regression")) (.member "none") (.str "Linear") none .ok ⟨[], [1]⟩ =
    .ok (regNames.map fun k => (k, ⟨[3], List.ofFn fun i => regScore (testNet.fn ((![1, 2, 3] : Fin 3 → ℝ) i) ![3, 5])
      (fun k => Real.sqrt (covAt testNet.fn ![3, 5] (targetPrecision 2 1 1 (.full !![2, 2; 2, 2])) ((![1, 2, 3] : Fin 3 → ℝ) i) k k))
      ((![![4, 5], ![6, 7], ![8, 9]] : Fin 3 → Fin 2 → ℝ) i) k⟩), g) := by
  obtain ⟨g, eps, R, h1, -, -⟩ := C53_regression _ (fun _ => .error .valueError) testEvalPoints (.str "Linear") (.member "none")
    (.str "regression") "none" testArgs ![3, 5] (.full !![2, 2; 2, 2]) ⟨some 2, none⟩ testLoader ⟨[], [1]⟩ ![1, 2, 3] 2 test_apiLinear
    rfl rfl (by norm_num) (by norm_num) (by decide) _ test_points (fun i k => by
      apply test_gradient
      fin_cases i <;> simp)
  exact ⟨g, h1⟩

/-- The hypotheses of the classification finding are met. -/
example : evaluation (fun s => s) (fun _ => .error .valueError) testLabelPoints testArgs ⟨some 2, none⟩
      (.dct [("input", .arr [1, 2]), ("target", .arr [1, 0])]) (.enum (.member "classification")) (.str "mc_bridge") (.str "linear") none .ok ⟨[], [1]⟩ =
    .error .typeError := by
  refine (C53_classification_raises _ _ testLabelPoints (.str "linear") (.str "mc_bridge") (.member "classification") "mc_bridge" testArgs ![3, 5]
    (.full !![2, 2; 2, 2]) ⟨some 2, none⟩ _ ⟨[], [1]⟩ 2 (Or.inl test_apiClass) rfl rfl (by norm_num) (by norm_num)
    [(1, ⟨[], [1]⟩), (2, ⟨[], [0]⟩)] ⟨[(.arr [1, 2], .arr [1, 0])], fun _ => [(1, ⟨[], [1]⟩), (2, ⟨[], [0]⟩)], ?_, ?_, rfl⟩ .ok).2 [] 2
    (by norm_num) rfl ?_
  · exact DataOf.single _ _ (BatchOf.mapping _ _ _ rfl rfl)
  · intro xy hxy
    rw [List.mem_singleton.1 hxy]
    exact ⟨rfl, by simp⟩
  · simp [TargetFits, Arr.WF, shapeSize, Compatible]

end Laplax.Props
