import Verif.Lib.ApiPredictiveLemmas
import Verif.Props.Laplace

/-! # C51: the predictive `calibration` and `evaluation` build from names -/

namespace Laplax.Props
open Laplax Laplax.Spec
open scoped BigOperators Matrix

variable {X K : Type} {p : ℕ}

theorem draws_exist (rng : Prng K) (hr : RngOk rng) (key : Option K) (mean : PyTree ℝ) (hsz : numEntries mean = p) (S : ℕ) :
    ∃ eps : Fin S → Vec p, Draws rng key mean eps := by
  have hlen := hr.split (key.getD rng.key0) S
  choose t h1 _ _ x h2 using fun k => randnLike_ok (p := p) rng hr k mean hsz
  refine ⟨fun i => x ((rng.split (key.getD rng.key0) S)[i.val]'(by rw [hlen]; exact i.isLt)), fun i => ?_⟩
  exact ⟨_, _, List.getElem?_eq_getElem _, h1 _, h2 _⟩

theorem draws_unique {rng : Prng K} {key : Option K} {mean : PyTree ℝ} {S : ℕ} {eps eps' : Fin S → Vec p}
    (h : Draws rng key mean eps) (h' : Draws rng key mean eps') : eps = eps' := by
  funext i
  obtain ⟨k, t, h1, h2, h3⟩ := h i
  obtain ⟨k', t', g1, g2, g3⟩ := h' i
  rw [h1] at g1
  cases g1
  rw [h2] at g2
  cases g2
  exact List.ofFn_injective (h3.symm.trans g3)

theorem setupPushforward_members (lower : String → String) (pf pr : EnumArg) (v q : String) (fns : Option (List PfName))
    (hpf : convertToEnum lower pushforwardValues false pf = .ok (.member v))
    (hpr : convertToEnum lower predictiveValues false pr = .ok (.member q)) :
    setupPushforward lower pf pr fns = setupPushforward lower (.member v) (.member q) fns := by
  unfold setupPushforward
  rw [hpf, hpr]; rfl

/-- What the linearised default run of a usable predictive type publishes. -/
theorem api_linear_run (a : PredictiveArgs X K p) (hrng : RngOk a.rng) (hp : 0 < p) (hwf : WFTree a.params) (θ : Vec p)
    (hθ : entries a.params = List.ofFn θ) (prior : PriorArgs) (post : Posterior p)
    (hpost : a.posteriorFn prior 1 = .ok post) (cov scale : List (PyTree ℝ) → Except Err (PyTree ℝ))
    (hcov : post.covMv post.state = .ok cov) (hscale : post.scaleMv post.state = .ok scale)
    (C R : Matrix (Fin p) (Fin p) ℝ) (hC : ActsOnTrees a.params cov (fun v => C *ᵥ v))
    (hR : ActsOnTrees a.params scale (fun v => R *ᵥ v)) (pr : String) (hu : ApiUsable a.net.shape a.numSamples pr)
    (eps : Fin a.numSamples → Vec p) (heps : Draws a.rng (some a.key) a.params eps) (x : X) :
    ∃ r, setPushforward a .lin (apiNames pr) prior x = .ok r ∧
      ∀ key, r.get? key = apiExpected a.net.shape (a.net.fn x θ) (jacobian (a.net.fn x) θ * C * (jacobian (a.net.fn x) θ)ᵀ)
        (fun i => a.net.fn x θ + jacobian (a.net.fn x) θ *ᵥ (R *ᵥ eps i)) pr key := by
  have hfn : ∀ fn ∈ apiLinFns pr, LinUsable a.net.shape ((apiKw a (some pr)).numSamples.getD 0)
      ((apiKw a (some pr)).specialPredType.getD "mean_field_0") fn := by
    intro fn hfn
    simp only [apiKw, Option.getD_some]
    rcases hu with rfl | ⟨rfl, h1, h2⟩ | ⟨h0, h1, h2⟩
    · simp [apiLinFns] at hfn; rcases hfn with rfl | rfl <;> trivial
    · simp [apiLinFns] at hfn; rcases hfn with rfl | rfl | rfl
      · trivial
      · trivial
      · exact ⟨h2, h1⟩
    · have n0 : pr ≠ "none" := by rintro rfl; simp at h0
      have n1 : pr ≠ "mc_bridge" := by rintro rfl; simp at h0
      simp [apiLinFns, n0, n1] at hfn; rcases hfn with rfl | rfl | rfl
      · trivial
      · trivial
      · exact ⟨h1, h2, h0⟩
  obtain ⟨r, eps', h1, h2, h3, h4⟩ := C35_linearized_predictive a.rng hrng a.net a.params hp hwf θ hθ a.posteriorFn prior 1 post hpost
    cov scale hcov hscale C R hC hR (apiKw a (some pr)) rfl (by simp [apiKw]) (by simp [apiKw]) (by simp [apiKw]) (apiLinFns pr) hfn x
  have e : eps' = eps := draws_unique h1 heps
  rw [e] at h3
  clear e h1 eps'
  have hkeys := lin_keys a.rng a.net a.params a.posteriorFn prior 1 pr (apiKw a (some pr)) rfl x r h2 h4
  simp only [apiKw, Option.getD_some] at h3
  refine ⟨publish pr r, by rw [setPushforward_lin, h2]; rfl, ?_⟩
  set f := a.net.fn x θ with hf
  set V := jacobian (a.net.fn x) θ * C * (jacobian (a.net.fn x) θ)ᵀ with hV
  set s : Fin a.numSamples → Vec _ := fun i => f + jacobian (a.net.fn x) θ *ᵥ (R *ᵥ eps i) with hs
  have hval : ∀ k ∈ apiKeys pr, r.get? k = linExpected a.net.shape f V s (specialOf pr f V) k := by
    intro k hk
    obtain ⟨v, hv⟩ := Option.isSome_iff_exists.1 ((hkeys k).2 hk)
    rw [hv, ← h3 k v hv]
  have hnone : ∀ k, k ∉ apiKeys pr → r.get? k = none := by
    intro k hk
    by_contra hc
    exact hk ((hkeys k).1 (Option.isSome_iff_ne_none.2 hc))
  rcases hu with rfl | ⟨rfl, g1, g2⟩ | ⟨g0, g1, g2⟩
  · intro key
    simp only [publish, if_true]
    by_cases hk : key ∈ apiKeys "none"
    · rw [hval key hk]
      simp [apiKeys] at hk
      rcases hk with rfl | rfl | rfl | rfl <;> simp [linExpected, apiExpected]
    · rw [hnone key hk]
      simp [apiKeys] at hk
      simp [apiExpected, hk]
  · intro key
    have hpub : (publish "mc_bridge" r).get? key =
        if key = "pred_act" then some (arrOf a.net.shape (ensSoftmax s)) else r.get? key := by
      have hm : r.get? "mc_pred_act" = some (arrOf a.net.shape (ensSoftmax s)) := by
        rw [hval _ (by simp [apiKeys])]; simp [linExpected]
      have hsp : r.get? "special_pred_act" = none := hnone _ (by simp [apiKeys])
      simp only [publish, getPredAct, hm, Dict.get?_set, hsp]
      simp [Dict.get?_set, eq_comm]
    rw [hpub]
    by_cases hpa : key = "pred_act"
    · subst hpa; simp [apiExpected]
    rw [if_neg hpa]
    by_cases hk : key ∈ apiKeys "mc_bridge"
    · rw [hval key hk]
      simp [apiKeys] at hk
      rcases hk with rfl | rfl | rfl | rfl | rfl | rfl <;> simp [linExpected, apiExpected]
    · rw [hnone key hk]
      simp [apiKeys] at hk
      simp [apiExpected, hk, hpa]
  · intro key
    have n0 : pr ≠ "none" := by rintro rfl; simp at g0
    have n1 : pr ≠ "mc_bridge" := by rintro rfl; simp at g0
    have hsk : "special_pred_act" ∈ apiKeys pr := by
      by_cases h : pr = "mean_field_2" <;> simp [apiKeys, n0, n1, h]
    have hpub : (publish pr r).get? key =
        if key = "pred_act" then some (arrOf a.net.shape (specialOf pr f V)) else r.get? key := by
      have hm : r.get? "mc_pred_act" = none := hnone _ (by
        by_cases h : pr = "mean_field_2" <;> simp [apiKeys, n0, n1, h])
      have hsp : r.get? "special_pred_act" = some (arrOf a.net.shape (specialOf pr f V)) := by
        rw [hval _ hsk]; simp [linExpected]
      simp only [publish, n0, if_false, getPredAct, hm, Dict.get?_set, hsp]
      simp [Dict.get?_set, eq_comm]
    rw [hpub]
    by_cases hpa : key = "pred_act"
    · subst hpa; simp [apiExpected, n0, n1]
    rw [if_neg hpa]
    have hsh : a.net.shape ≠ [] := by intro h; rw [h] at g1; simp at g1
    by_cases hk : key ∈ apiKeys pr
    · rw [hval key hk]
      by_cases h : pr = "mean_field_2"
      · subst h
        simp [apiKeys] at hk
        rcases hk with rfl | rfl | rfl | rfl | rfl | rfl <;> simp [linExpected, apiExpected, hsh, g1]
      · simp [apiKeys, n0, n1, h] at hk
        rcases hk with rfl | rfl | rfl | rfl | rfl <;> simp [linExpected, apiExpected, n0, n1, h]
    · rw [hnone key hk]
      by_cases h : pr = "mean_field_2"
      · subst h
        simp [apiKeys] at hk
        simp [apiExpected, hk, hpa]
      · simp [apiKeys, n0, n1, h] at hk
        simp [apiExpected, n0, n1, h, hk, hpa]

/-- **C51 (linear predictive by name).** For every accepted spelling of the linear pushforward and of a predictive type usable for
the model's output shape, every positive semidefinite curvature estimate, positive prior precision, non-negative noise, model,
parameters and PRNG key: the predictive that `calibration` and `evaluation` build holds at every input exactly the documented keys:
`pred_mean = map = f(x)`, `pred_var`/`pred_std` the variances/deviations of `J P⁻¹ Jᵀ`, and for a classification type the class
probabilities also under `pred_act` — the mean softmax of samples `f(x) + J R ε_i` with `R Rᵀ = P⁻¹`, or the mean-field formula. -/
theorem C51_linear_predictive (lower : String → String) (pushforward predictive : EnumArg) (pr : String)
    (hpf : convertToEnum lower pushforwardValues false pushforward = .ok (.member "linear"))
    (hpr : convertToEnum lower predictiveValues false predictive = .ok (.member pr))
    (a : PredictiveArgs X K p) (hrng : RngOk a.rng) (hp : 0 < p) (hwf : WFTree a.params) (θ : Vec p)
    (hθ : entries a.params = List.ofFn θ) (est : CurvEstimate p) (he : EstimatePsd est)
    (hpost : a.posteriorFn = fun prior s => setPosteriorFn est (.tree a.params) prior s) (hu : ApiUsable a.net.shape a.numSamples pr) :
    ∃ (fns : List PfName) (eps : Fin a.numSamples → Vec p), setupPushforward lower pushforward predictive none = .ok (.lin, fns) ∧
      Draws a.rng (some a.key) a.params eps ∧
      ∀ (prior : PriorArgs) (τ : ℝ), prior.priorPrec = some τ → 0 < τ → 0 ≤ prior.sigmaSquared.getD 1 →
        ∃ P R : Matrix (Fin p) (Fin p) ℝ, P = targetPrecision τ (prior.sigmaSquared.getD 1) 1 est ∧ P * P⁻¹ = 1 ∧ R * Rᵀ = P⁻¹ ∧
          ∀ x : X, ∃ r, setPushforward a .lin fns prior x = .ok r ∧
            ∀ key, r.get? key = apiExpected a.net.shape (a.net.fn x θ) (jacobian (a.net.fn x) θ * P⁻¹ * (jacobian (a.net.fn x) θ)ᵀ)
              (fun i => a.net.fn x θ + jacobian (a.net.fn x) θ *ᵥ (R *ᵥ eps i)) pr key := by
  have hsz : numEntries a.params = p := by rw [← length_entries hwf, hθ, List.length_ofFn]
  obtain ⟨eps, heps⟩ := draws_exist a.rng hrng (some a.key) a.params hsz a.numSamples
  have hmem : pr ∈ ["mc_bridge", "laplace_bridge", "mean_field_0", "mean_field_1", "mean_field_2", "none"] := by
    rcases hu with rfl | ⟨rfl, -⟩ | ⟨h, -⟩
    · simp
    · simp
    · simp at h; rcases h with rfl | rfl | rfl <;> simp
  refine ⟨apiNames pr, eps, ?_, heps, fun prior τ hτ hτ0 hσ => ?_⟩
  · rw [setupPushforward_members lower _ _ _ _ none hpf hpr, C44_linear lower pr hmem]; rfl
  obtain ⟨post, cov, scale, k1, k2, k3, R, k4, k5, k6⟩ := posterior_of_estimate a.params hsz hp est he prior τ hτ hτ0 hσ 1 one_pos
  obtain ⟨e1, -, -, S, e4, e5⟩ := k4
  have hRS : R = S := by
    apply Matrix.toLin'.injective
    apply LinearMap.ext; intro v
    rw [Matrix.toLin'_apply, Matrix.toLin'_apply]; exact e4 v
  refine ⟨_, R, rfl, e1, by rw [hRS]; exact e5, fun x => ?_⟩
  exact api_linear_run a hrng hp hwf θ hθ prior post (by rw [hpost]; exact k1) cov scale k2 k3 _ R k5 k6 pr hu eps heps x

/-- **C51 (nonlinear predictive by name).** The nonlinear pushforward accepts `none` and `mc_bridge`; its predictive holds at every
input exactly `map`, the mean and standard deviation (`ddof = 0`) over the ensemble `f(x, θ + R ε_i)`, `R Rᵀ = P⁻¹`, and for `mc_bridge`
the first five members and the mean of their softmax — never `pred_act`. -/
theorem C51_nonlinear_predictive (lower : String → String) (pushforward predictive : EnumArg) (pr : String)
    (hpf : convertToEnum lower pushforwardValues false pushforward = .ok (.member "nonlinear"))
    (hpr : convertToEnum lower predictiveValues false predictive = .ok (.member pr))
    (a : PredictiveArgs X K p) (hrng : RngOk a.rng) (hp : 0 < p) (hwf : WFTree a.params) (θ : Vec p)
    (hθ : entries a.params = List.ofFn θ) (est : CurvEstimate p) (he : EstimatePsd est)
    (hpost : a.posteriorFn = fun prior s => setPosteriorFn est (.tree a.params) prior s) (hS : 0 < a.numSamples)
    (hu : pr = "none" ∨ pr = "mc_bridge" ∧ a.net.shape.length = 1) :
    ∃ (fns : List PfName) (eps : Fin a.numSamples → Vec p), setupPushforward lower pushforward predictive none = .ok (.nonlin, fns) ∧
      Draws a.rng (some a.key) a.params eps ∧
      ∀ (prior : PriorArgs) (τ : ℝ), prior.priorPrec = some τ → 0 < τ → 0 ≤ prior.sigmaSquared.getD 1 →
        ∃ P R : Matrix (Fin p) (Fin p) ℝ, P = targetPrecision τ (prior.sigmaSquared.getD 1) 1 est ∧ P * P⁻¹ = 1 ∧ R * Rᵀ = P⁻¹ ∧
          ∀ x : X, ∃ r, setPushforward a .nonlin fns prior x = .ok r ∧
            ∀ key, r.get? key = apiNonlinExpected a.net.shape (a.net.fn x θ) (fun i => a.net.fn x (θ + R *ᵥ eps i)) pr key := by
  have hsz : numEntries a.params = p := by rw [← length_entries hwf, hθ, List.length_ofFn]
  obtain ⟨eps, heps⟩ := draws_exist a.rng hrng (some a.key) a.params hsz a.numSamples
  have hsetup : setupPushforward lower pushforward predictive none =
      .ok (.nonlin, [.nonlinSetup, .nonlinPredMean, .nonlinPredStd] ++ if pr = "mc_bridge" then [.nonlinMcPredAct] else []) := by
    rw [setupPushforward_members lower _ _ _ _ none hpf hpr]
    rcases hu with rfl | ⟨rfl, -⟩ <;> rfl
  refine ⟨_, eps, hsetup, heps, fun prior τ hτ hτ0 hσ => ?_⟩
  obtain ⟨post, cov, scale, k1, k2, k3, R, k4, k5, k6⟩ := posterior_of_estimate a.params hsz hp est he prior τ hτ hτ0 hσ 1 one_pos
  obtain ⟨e1, -, -, S, e4, e5⟩ := k4
  have hRS : R = S := by
    apply Matrix.toLin'.injective
    apply LinearMap.ext; intro v
    rw [Matrix.toLin'_apply, Matrix.toLin'_apply]; exact e4 v
  refine ⟨_, R, rfl, e1, by rw [hRS]; exact e5, fun x => ?_⟩
  obtain ⟨eps', h1, h2⟩ := C36_sampled_predictive a.rng hrng a.net a.params hwf θ hθ a.posteriorFn prior 1 post (by rw [hpost]; exact k1)
    scale k3 R k6 (some a.key) a.numSamples hS {} rfl (by simp) (by simp) (by simp)
  have e : eps' = eps := draws_unique h1 heps
  subst e
  rcases hu with rfl | ⟨rfl, hsh⟩
  · obtain ⟨r, g1, g2⟩ := h2 x [.predMean, .predStd] (by simp [NonlinUsable]) (by simp)
    refine ⟨r, g1, fun key => ?_⟩
    rw [g2 key]
    simp only [nonlinExpected, apiNonlinExpected, ddofs, List.foldl, statReq, Ddofs.next]
    by_cases q1 : key = "map"
    · simp [q1]
    by_cases q2 : key = "pred_mean"
    · simp [q2]
    by_cases q3 : key = "pred_std"
    · simp [q3]
    simp [q1, q2, q3]
  · obtain ⟨r, g1, g2⟩ := h2 x [.predMean, .predStd, .mcPredAct] (by simp [NonlinUsable, hsh]) (by simp)
    refine ⟨r, g1, fun key => ?_⟩
    rw [g2 key]
    simp only [nonlinExpected, apiNonlinExpected, ddofs, List.foldl, statReq, Ddofs.next]
    by_cases q1 : key = "map"
    · simp [q1]
    by_cases q2 : key = "pred_mean"
    · simp [q2]
    by_cases q3 : key = "pred_std"
    · simp [q3]
    by_cases q4 : key = "samples"
    · simp [q4]
    by_cases q5 : key = "mc_pred_act"
    · simp [q5]
    simp [q1, q2, q3, q4, q5]

/-- **C51 (finding: the bridge cannot be used).** With the linear pushforward and predictive type `laplace_bridge`, every prediction
of a model with 1-D output raises `IndexError`. -/
theorem C51_laplace_bridge_raises (lower : String → String) (pushforward predictive : EnumArg)
    (hpf : convertToEnum lower pushforwardValues false pushforward = .ok (.member "linear"))
    (hpr : convertToEnum lower predictiveValues false predictive = .ok (.member "laplace_bridge"))
    (a : PredictiveArgs X K p) (hrng : RngOk a.rng) (hp : 0 < p) (hwf : WFTree a.params) (θ : Vec p)
    (hθ : entries a.params = List.ofFn θ) (est : CurvEstimate p) (he : EstimatePsd est)
    (hpost : a.posteriorFn = fun prior s => setPosteriorFn est (.tree a.params) prior s) (h1 : a.net.shape.length = 1) :
    ∃ fns, setupPushforward lower pushforward predictive none = .ok (.lin, fns) ∧
      ∀ (prior : PriorArgs) (τ : ℝ), prior.priorPrec = some τ → 0 < τ → 0 ≤ prior.sigmaSquared.getD 1 →
        ∀ x, setPushforward a .lin fns prior x = .error .indexError := by
  have hsz : numEntries a.params = p := by rw [← length_entries hwf, hθ, List.length_ofFn]
  refine ⟨apiNames "laplace_bridge", ?_, fun prior τ hτ hτ0 hσ x => ?_⟩
  · rw [setupPushforward_members lower _ _ _ _ none hpf hpr]; rfl
  obtain ⟨post, cov, scale, k1, k2, k3, R, k4, k5, k6⟩ := posterior_of_estimate a.params hsz hp est he prior τ hτ hτ0 hσ 1 one_pos
  have := C35_laplace_bridge_raises a.rng hrng a.net a.params hp hwf θ hθ a.posteriorFn prior 1 post (by rw [hpost]; exact k1) cov scale
    k2 k3 _ R k5 k6 (apiKw a (some "laplace_bridge")) rfl (by simp [apiKw]) (by simp [apiKw]) (by simp [apiKw]) h1 rfl
    [.predMean, .predStd] [] (by simp [LinUsable]) x
  rw [setPushforward_lin]
  have hl : LinFn.setup :: apiLinFns "laplace_bridge" = LinFn.setup :: [.predMean, .predStd] ++ .specialPredAct :: [] := rfl
  rw [hl, this]; rfl

/-- **C51 (no samples).** The nonlinear predictive with `num_samples = 0` raises `KeyError` for every input. -/
theorem C51_nonlinear_needs_samples (a : PredictiveArgs X K p) (θ : Vec p) (hθ : entries a.params = List.ofFn θ) (hS : a.numSamples = 0)
    (prior : PriorArgs) (post : Posterior p) (hpost : a.posteriorFn prior 1 = .ok post) (rest : List PfName) (x : X) :
    setPushforward a .nonlin (.nonlinSetup :: rest) prior x = .error .keyError := by
  simp only [setPushforward, nonlinPushforward, hpost, ok_bind, getDistState, weightSampleEntry, hS, gt_iff_lt, lt_irrefl, if_false,
    probPredictive, call_eq a.net x hθ, List.map_cons, finalizeFns, finalizeLoop, pure, Except.pure]
  rfl

/-- Non-vacuity: the default `mc_bridge`, `mean_field_2` and `none` predictives of a two-output network. -/
example : ∀ pr ∈ ["none", "mc_bridge", "mean_field_2"], ApiUsable testNet.shape 3 pr := by
  intro pr h
  simp at h
  rcases h with rfl | rfl | rfl
  · exact Or.inl rfl
  · exact Or.inr (Or.inl ⟨rfl, rfl, by norm_num⟩)
  · exact Or.inr (Or.inr ⟨by simp, rfl, by simp [testNet, shapeSize]⟩)

/-- All hypotheses of the linear theorem are met: a full estimate on the test network, `"Linear"` and `"mc_bridge"` as strings. -/
example : ∃ (fns : List PfName) (eps : Fin 3 → Vec 2) (R : Matrix (Fin 2) (Fin 2) ℝ), ∀ x : ℝ, ∃ r,
    setPushforward (X := ℝ) (p := 2) ⟨testRng, testNet, testMean, fun a s => setPosteriorFn (.full !![2, 2; 2, 2]) (.tree testMean) a s, fun _ _ _ _ => .error .typeError, (), 3⟩
      .lin fns ⟨some 2, none⟩ x = .ok r ∧
    r.get? "pred_act" = some (arrOf [2] (ensSoftmax fun i => testNet.fn x ![3, 5] + jacobian (testNet.fn x) ![3, 5] *ᵥ (R *ᵥ eps i))) := by
  obtain ⟨fns, eps, -, -, h⟩ := C51_linear_predictive (X := ℝ) (p := 2) (fun s => if s = "Linear" then "linear" else s) (.str "Linear") (.str "mc_bridge") "mc_bridge"
    rfl rfl ⟨testRng, testNet, testMean, fun a s => setPosteriorFn (.full !![2, 2; 2, 2]) (.tree testMean) a s, fun _ _ _ _ => .error .typeError, (), 3⟩
    testRng_ok (by norm_num) testMean_wf ![3, 5] (by simp [testMean, entries, Tree.leaves, Tree.leavesL]) (.full !![2, 2; 2, 2]) test_psd rfl
    (Or.inr (Or.inl ⟨rfl, rfl, by norm_num⟩))
  obtain ⟨P, R, -, -, -, h⟩ := h ⟨some 2, none⟩ 2 rfl (by norm_num) (by norm_num)
  refine ⟨fns, eps, R, fun x => ?_⟩
  obtain ⟨r, h1, h2⟩ := h x
  exact ⟨r, h1, by rw [h2]; simp [apiExpected]; rfl⟩

end Laplax.Props
