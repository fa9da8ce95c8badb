import Verif.Props.PushforwardNonlin

/-! # C36: the special predictives of the sampled predictive -/

namespace Laplax.Props
open Laplax Laplax.Spec
open scoped BigOperators Matrix

variable {X K : Type} {p : ℕ}

/-- The state of a sampled predictive after a prefix of usable requests. -/
theorem nonlin_prefix (rng : Prng K) (hrng : RngOk rng) (net : Net X p) (mean : PyTree ℝ)
    (hwf : WFTree mean) (θ : Vec p) (hθ : entries mean = List.ofFn θ)
    (posteriorFn : PriorArgs → ℝ → Except Err (Posterior p)) (prior : PriorArgs) (lsf : ℝ) (post : Posterior p)
    (hpost : posteriorFn prior lsf = .ok post) (scale : List (PyTree ℝ) → Except Err (PyTree ℝ))
    (hscale : post.scaleMv post.state = .ok scale)
    (R : Matrix (Fin p) (Fin p) ℝ) (hR : ActsOnTrees mean scale (fun v => R *ᵥ v)) (key : Option K) (S : ℕ) (hS : 0 < S)
    (kw : PfKwargs K) (hkw : kw.precompute = none) (hb1 : kw.precomputeListBatchSize ≠ some 0)
    (hb2 : kw.nonlinSetupBatchSize ≠ some 0) (hb3 : kw.weightBatchSize ≠ some 0) :
    ∃ eps : Fin S → Vec p, Draws rng key mean eps ∧ ∀ (x : X) (fns : List NonlinFn), (∀ fn ∈ fns, NonlinUsable net.shape fn) →
      ∃ (ctx : PfCtx X K p) (aux : PfAux X) (r : Dict (Arr ℝ)), NonlinCtx net x (fun i => θ + R *ᵥ eps i) ctx aux ∧
        aux.predEnsemble = some (ensArr net.shape (ensOf net x fun i => θ + R *ᵥ eps i)) ∧ aux.covMv = none ∧
        (ctx.kw.specialPredType = kw.specialPredType ∧ ctx.kw.useCorrection = kw.useCorrection) ∧ Exact net x θ (fun i => θ + R *ᵥ eps i) fns r ∧
        ∀ rest : List NonlinFn,
          nonlinPushforward rng net mean posteriorFn prior key lsf ((NonlinFn.setup :: fns ++ rest).map NonlinFn.step) S kw x =
            (finalizeLoop ctx (rest.map NonlinFn.step) r aux >>= fun q => .ok q.1) := by
  have hsz : numEntries mean = p := by rw [← length_entries hwf, hθ, List.length_ofFn]
  obtain ⟨g, eps, hg1, hg2, hg3⟩ := weight_samples rng hrng key mean mean (SameLayout.refl _) hwf hsz θ hθ scale
    (fun v => R *ᵥ v) hR S { kw with numSamples := none, key := none } hkw hb1
  refine ⟨eps, hg2, fun x fns hu => ?_⟩
  let dist : DistState X p := ⟨post, S, none, none, some g⟩
  have hdist : getDistState rng mean net post false S key { kw with numSamples := none, key := none } = .ok dist := by
    simp only [getDistState, weightSampleEntry, weightSampleEntry.weightSampleMean, ok_bind, hscale, dist, hS, if_true,
      Bool.false_eq_true, if_false, hg1]
    rfl
  let W : Fin S → Vec p := fun i => θ + R *ᵥ eps i
  let ctx : PfCtx X K p := ⟨x, dist, { kw with numSamples := none, key := none }⟩
  have hc0 : NonlinCtx net x W ctx ⟨net.call, mean, none, none, none⟩ :=
    ⟨hS, rfl, rfl, rfl, ⟨g, rfl, fun i => by obtain ⟨w, h1, _, _, h4⟩ := hg3 i; exact ⟨w, h1, h4⟩⟩, ⟨hb2, hb3⟩, rfl⟩
  have hc : NonlinCtx net x W ctx ⟨net.call, mean, some (ensArr net.shape (ensOf net x W)), none, none⟩ :=
    ⟨hS, rfl, rfl, rfl, hc0.get, ⟨hb2, hb3⟩, rfl⟩
  have hinit : Exact net x θ W [] [("map", arrOf net.shape (net.fn x θ))] := by
    intro k
    by_cases h : k = "map"
    · subst h; simp [Dict.get?, nonlinExpected]
    · have h' : ¬ "map" = k := Ne.symm h
      simp [Dict.get?, nonlinExpected, h, h', ddofs]
  obtain ⟨r', h1, h2⟩ := nonlinRun_ok hc rfl fns [] hu _ hinit
  refine ⟨ctx, ⟨net.call, mean, some (ensArr net.shape (ensOf net x W)), none, none⟩, r', hc, rfl, rfl, ⟨rfl, rfl⟩, h2, fun rest => ?_⟩
  simp only [nonlinPushforward, hpost, ok_bind, hdist, probPredictive, call_eq net x hθ]
  have hset := nonlinSetup_ok hc0 [("map", arrOf net.shape (net.fn x θ))]
  simp only [List.cons_append, List.map_cons, finalizeFns, finalizeLoop]
  rw [show NonlinFn.step NonlinFn.setup = (nonlinSetup : PfStep X K p) from rfl]
  erw [hset]
  rw [ok_bind, List.map_append, finalizeLoop_append]
  erw [h1]; rfl

theorem ddofs_var_isSome (fns : List NonlinFn) : (ddofs fns).var.isSome ↔ NonlinFn.predVar ∈ fns := by
  induction fns using List.reverseRecOn with
  | nil => simp [ddofs]
  | append_singleton fns fn ih => rw [ddofs_snoc]; cases fn <;> simp [statReq, Ddofs.next, ih]

/-- The variance-based types on a 1-D mean and variance. -/
theorem varPred_value (sh : List ℕ) (h1 : sh.length = 1) (kind : String) (hk : kind = "mean_field_0" ∨ kind = "mean_field_1")
    (uc : Bool) (m : Vec (shapeSize sh)) (V : Matrix (Fin (shapeSize sh)) (Fin (shapeSize sh)) ℝ) :
    ∃ f, varPredFn uc kind = some f ∧ f (arrOf sh m) (arrOf sh fun j => V j j) = .ok (arrOf sh (specialOf kind m V)) := by
  rcases hk with rfl | rfl
  · exact ⟨meanField0Arr, by simp [varPredFn], meanField0Arr_1d sh h1 _ _⟩
  · exact ⟨meanField1Arr, by simp [varPredFn], meanField1Arr_1d sh h1 _ _⟩

/-- `mean_field_2` on a 1-D mean and a sample covariance: a scalar covariance (one output) raises. -/
theorem covPred_value (sh : List ℕ) (h1 : sh.length = 1) (m : Vec (shapeSize sh))
    (V : Matrix (Fin (shapeSize sh)) (Fin (shapeSize sh)) ℝ) :
    covPredFn "mean_field_2" (arrOf sh m) (covArrOf V) =
      if shapeSize sh = 1 then .error .valueError else .ok (arrOf sh (specialOf "mean_field_2" m V)) := by
  simp only [covPredFn, if_true]
  by_cases h : shapeSize sh = 1
  · rw [if_pos h]
    obtain ⟨n, rfl⟩ := List.length_eq_one_iff.1 h1
    simp [covArrOf, h, arrOf, meanField2Arr]
  · rw [if_neg h, show covArrOf V = denseArr V by simp [covArrOf, h]]
    exact meanField2Arr_1d sh h1 _ _

/-- **C36 (special predictives).** For every model with a 1-D output, posterior whose scale product acts as `R`, positive
`num_samples` and every list of usable functions requested before (and `rest` after) the special predictive, with the ensemble
`s_i = f(x, θ + R eps_i)`:
(1) `mean_field_0/1` with `pred_var` among the earlier requests: `special_pred_act` is the special predictive of the ensemble mean and
of exactly the variance reported as `pred_var`; besides it only `pred_mean` may be added, with the ensemble mean;
(2) every variance-based type (also the default) without an earlier `pred_var`: `KeyError`;
(3) `laplace_bridge` with an earlier `pred_var`: `IndexError`;
(4) `mean_field_2`: the special predictive of the ensemble mean and the sample covariance, which is added as `pred_cov` - unless there
is exactly one output, when it raises `ValueError`;
(5) any other type: `KeyError`. -/
theorem C36_special_predictives (rng : Prng K) (hrng : RngOk rng) (net : Net X p) (mean : PyTree ℝ)
    (hwf : WFTree mean) (θ : Vec p) (hθ : entries mean = List.ofFn θ)
    (posteriorFn : PriorArgs → ℝ → Except Err (Posterior p)) (prior : PriorArgs) (lsf : ℝ) (post : Posterior p)
    (hpost : posteriorFn prior lsf = .ok post) (scale : List (PyTree ℝ) → Except Err (PyTree ℝ))
    (hscale : post.scaleMv post.state = .ok scale)
    (R : Matrix (Fin p) (Fin p) ℝ) (hR : ActsOnTrees mean scale (fun v => R *ᵥ v)) (key : Option K) (S : ℕ) (hS : 0 < S)
    (kw : PfKwargs K) (hkw : kw.precompute = none) (hb1 : kw.precomputeListBatchSize ≠ some 0)
    (hb2 : kw.nonlinSetupBatchSize ≠ some 0) (hb3 : kw.weightBatchSize ≠ some 0) (h1 : net.shape.length = 1)
    (kind : String) (hkind : kw.specialPredType.getD "mean_field_0" = kind) :
    ∃ eps : Fin S → Vec p, Draws rng key mean eps ∧ ∀ (x : X) (fns rest : List NonlinFn), (∀ fn ∈ fns, NonlinUsable net.shape fn) →
      (.predCov ∈ fns → 2 ≤ S) →
      ∀ (run : List NonlinFn → Except Err (Dict (Arr ℝ))),
      (run = fun l => nonlinPushforward rng net mean posteriorFn prior key lsf ((NonlinFn.setup :: fns ++ l).map NonlinFn.step) S kw x) →
      ∀ s : Fin S → Vec (shapeSize net.shape), (s = fun i => net.fn x (θ + R *ᵥ eps i)) →
      ((kind = "mean_field_0" ∨ kind = "mean_field_1") → ∀ d : ℝ,
        nonlinExpected net.shape (net.fn x θ) s fns "pred_var" = some (arrOf net.shape fun j => ensCov s d j j) →
        ∃ r, run [.specialPredAct] = .ok r ∧
          r.get? "special_pred_act" = some (arrOf net.shape (specialOf kind (ensMean s) (ensCov s d))) ∧
          r.get? "pred_mean" = some (arrOf net.shape (ensMean s)) ∧
          ∀ k, k ≠ "special_pred_act" → k ≠ "pred_mean" → r.get? k = nonlinExpected net.shape (net.fn x θ) s fns k) ∧
      (kind ∈ ["laplace_bridge", "mean_field_0", "mean_field_1"] → .predVar ∉ fns → run (.specialPredAct :: rest) = .error .keyError) ∧
      (kind = "laplace_bridge" → .predVar ∈ fns → run (.specialPredAct :: rest) = .error .indexError) ∧
      (kind = "mean_field_2" → shapeSize net.shape ≠ 1 → 2 ≤ S →
        ∃ r, run [.specialPredAct] = .ok r ∧
          r.get? "special_pred_act" = some (arrOf net.shape (specialOf kind (ensMean s) (ensCov s 1))) ∧
          r.get? "pred_mean" = some (arrOf net.shape (ensMean s)) ∧ r.get? "pred_cov" = some (covArrOf (ensCov s 1)) ∧
          ∀ k, k ≠ "special_pred_act" → k ≠ "pred_mean" → k ≠ "pred_cov" → r.get? k = nonlinExpected net.shape (net.fn x θ) s fns k) ∧
      (kind = "mean_field_2" → shapeSize net.shape = 1 → 2 ≤ S → run (.specialPredAct :: rest) = .error .valueError) ∧
      (kind ∉ ["laplace_bridge", "mean_field_0", "mean_field_1", "mean_field_2"] → run (.specialPredAct :: rest) = .error .keyError) := by
  obtain ⟨eps, hd, h⟩ := nonlin_prefix rng hrng net mean hwf θ hθ posteriorFn prior lsf post hpost scale hscale R hR key S hS kw hkw hb1 hb2 hb3
  refine ⟨eps, hd, fun x fns rest hu _ run hrun s hs => ?_⟩
  obtain ⟨ctx, aux, r, hc, hens, hcov, ⟨hsp, _⟩, hr, hall⟩ := h x fns hu
  have hk : ctx.kw.specialPredType.getD "mean_field_0" = kind := by rw [hsp, hkind]
  have hW : ensOf net x (fun i => θ + R *ᵥ eps i) = s := by rw [hs]; rfl
  rw [hW] at hens
  have hr' : ∀ k, r.get? k = nonlinExpected net.shape (net.fn x θ) s fns k := fun k => by rw [← hW]; exact hr k
  -- `pred_mean` is there or is added
  obtain ⟨r1, e1, e2, e3⟩ : ∃ r1, ensureKey "pred_mean" (if false = true then linPredMean else nonlinPredMean) r aux ctx = .ok (r1, aux) ∧
      r1.get? "pred_mean" = some (arrOf net.shape (ensMean s)) ∧ ∀ k, k ≠ "pred_mean" → r1.get? k = r.get? k := by
    have h0 := hr' "pred_mean"
    have hexp : nonlinExpected net.shape (net.fn x θ) s fns "pred_mean" =
        if .predMean ∈ fns then some (arrOf net.shape (ensMean s)) else none := by simp [nonlinExpected]
    rw [hexp] at h0
    by_cases hm : NonlinFn.predMean ∈ fns
    · rw [if_pos hm] at h0
      exact ⟨r, by rw [ensureKey, if_pos (by simp [Dict.mem, h0])], h0, fun _ _ => rfl⟩
    · rw [if_neg hm] at h0
      refine ⟨r.set "pred_mean" (arrOf net.shape (ensMean s)), ?_, by simp [Dict.get?_set], fun k hk => by rw [Dict.get?_set, if_neg (Ne.symm hk)]⟩
      rw [ensureKey_absent h0]
      simp only [Bool.false_eq_true, if_false, nonlinPredMean, hens, entryE, ok_bind, meanAxis0_ens]; rfl
  have hstep : ∀ l, run l = (finalizeLoop ctx (l.map NonlinFn.step) r aux >>= fun q => .ok q.1) := by
    intro l; rw [hrun]; exact hall l
  have herr : ∀ e, specialPredAct false r aux ctx = .error e → run (.specialPredAct :: rest) = .error e := by
    intro e he
    rw [hstep, List.map_cons, finalizeLoop, show NonlinFn.step NonlinFn.specialPredAct = (specialPredAct false : PfStep X K p) from rfl, he]
    rfl
  have hok : ∀ r2, specialPredAct false r aux ctx = .ok (r2, aux) → run [.specialPredAct] = .ok r2 := by
    intro r2 he
    rw [hstep, List.map_cons, finalizeLoop, show NonlinFn.step NonlinFn.specialPredAct = (specialPredAct false : PfStep X K p) from rfl, he]
    rfl
  have hvarNone : NonlinFn.predVar ∉ fns → r1.get? "pred_var" = none := by
    intro hv
    rw [e3 _ (by decide), hr']
    have : (ddofs fns).var = none := by
      rw [← Option.not_isSome_iff_eq_none, ddofs_var_isSome]; exact hv
    simp [nonlinExpected, this]
  refine ⟨?_, ?_, ?_, ?_, ?_, ?_⟩
  · intro hkk d hvar
    obtain ⟨f, hf, hval⟩ := varPred_value net.shape h1 kind hkk (ctx.kw.useCorrection.getD true) (ensMean s) (ensCov s d)
    have hv1 : r1.get? "pred_var" = some (arrOf net.shape fun j => ensCov s d j j) := by rw [e3 _ (by decide), hr', hvar]
    have g1 : ensureKey "pred_var" linPredVar r1 aux ctx = .ok (r1, aux) := by rw [ensureKey, if_pos (by simp [Dict.mem, hv1])]
    refine ⟨r1.set "special_pred_act" (arrOf net.shape (specialOf kind (ensMean s) (ensCov s d))), hok _ ?_, by simp [Dict.get?_set], ?_, ?_⟩
    · simp only [specialPredAct, e1, ok_bind, Dict.getE, e2, hk, hf, g1, hv1, hval]; rfl
    · rw [Dict.get?_set, if_neg (by decide), e2]
    · intro k k1 k2
      rw [Dict.get?_set, if_neg (Ne.symm k1), e3 k k2, hr']
  · intro hkk hv
    refine herr _ ?_
    obtain ⟨f, hf⟩ : ∃ f, varPredFn (ctx.kw.useCorrection.getD true) kind = some f := by
      simp only [List.mem_cons, List.not_mem_nil, or_false] at hkk
      rcases hkk with h | h | h <;> rw [h] <;> simp [varPredFn]
    simp only [specialPredAct, e1, ok_bind, Dict.getE, e2, hk, hf, ensureKey_absent (hvarNone hv), linPredVar, hcov, entryE, error_bind]
  · intro hkk hv
    refine herr _ ?_
    obtain ⟨d, hd'⟩ := Option.isSome_iff_exists.1 ((ddofs_var_isSome fns).2 hv)
    have hv1 : r1.get? "pred_var" = some (arrOf net.shape fun j => ensCov s d j j) := by
      rw [e3 _ (by decide), hr']; simp [nonlinExpected, hd']
    have g1 : ensureKey "pred_var" linPredVar r1 aux ctx = .ok (r1, aux) := by rw [ensureKey, if_pos (by simp [Dict.mem, hv1])]
    have hf : varPredFn (ctx.kw.useCorrection.getD true) kind = some fun m v => laplaceBridgeArr m v (ctx.kw.useCorrection.getD true) := by rw [hkk]; simp [varPredFn]
    simp only [specialPredAct, e1, ok_bind, Dict.getE, e2, hk, hf, g1, hv1, laplaceBridgeArr_1d net.shape (le_of_eq h1), error_bind]
  all_goals
    have key2 : ∀ _ : kind = "mean_field_2", ∃ r2, ensureKey "pred_cov" (if false = true then linPredCov else nonlinPredCov) r1 aux ctx = .ok (r2, aux) ∧
        r2.get? "pred_cov" = some (covArrOf (ensCov s 1)) ∧ ∀ k, k ≠ "pred_cov" → r2.get? k = r1.get? k := by
      intro _
      have h0 := hr' "pred_cov"
      have hexp : nonlinExpected net.shape (net.fn x θ) s fns "pred_cov" =
          if (ddofs fns).cov then some (covArrOf (ensCov s 1)) else none := by simp [nonlinExpected]
      rw [hexp, ← e3 _ (by decide)] at h0
      by_cases hm : (ddofs fns).cov
      · rw [if_pos hm] at h0
        exact ⟨r1, by rw [ensureKey, if_pos (by simp [Dict.mem, h0])], h0, fun _ _ => rfl⟩
      · rw [if_neg hm] at h0
        refine ⟨r1.set "pred_cov" (covArrOf (ensCov s 1)), ?_, by simp [Dict.get?_set], fun k hk => by rw [Dict.get?_set, if_neg (Ne.symm hk)]⟩
        rw [ensureKey_absent h0]
        simp only [Bool.false_eq_true, if_false, nonlinPredCov, hens, entryE, ok_bind, covAxis0_ens']; rfl
    have hnone : kind ∉ ["laplace_bridge", "mean_field_0", "mean_field_1"] → varPredFn (ctx.kw.useCorrection.getD true) kind = none := by
      intro hn
      simp only [List.mem_cons, List.not_mem_nil, or_false, not_or] at hn
      simp only [varPredFn, if_neg hn.1, if_neg hn.2.1, if_neg hn.2.2]
  · intro hkk hne _
    obtain ⟨r2, q1, q2, q3⟩ := key2 hkk
    have hval := covPred_value net.shape h1 (ensMean s) (ensCov s 1)
    rw [if_neg hne, ← hkk] at hval
    refine ⟨r2.set "special_pred_act" (arrOf net.shape (specialOf kind (ensMean s) (ensCov s 1))), hok _ ?_, by simp [Dict.get?_set], ?_, ?_, ?_⟩
    · simp only [specialPredAct, e1, ok_bind, Dict.getE, e2, hk, hnone (by rw [hkk]; decide), if_pos hkk, q1, q2, hval]; rfl
    · rw [Dict.get?_set, if_neg (by decide), q3 _ (by decide), e2]
    · rw [Dict.get?_set, if_neg (by decide), q2]
    · intro k k1 k2 k3
      rw [Dict.get?_set, if_neg (Ne.symm k1), q3 k k3, e3 k k2, hr']
  · intro hkk hone _
    refine herr _ ?_
    obtain ⟨r2, q1, q2, q3⟩ := key2 hkk
    have hval := covPred_value net.shape h1 (ensMean s) (ensCov s 1)
    rw [if_pos hone, ← hkk] at hval
    simp only [specialPredAct, e1, ok_bind, Dict.getE, e2, hk, hnone (by rw [hkk]; decide), if_pos hkk, q1, q2, hval]; rfl
  · intro hkk
    refine herr _ ?_
    have hn2 : kind ∉ ["laplace_bridge", "mean_field_0", "mean_field_1"] := by
      intro hm; apply hkk; simp only [List.mem_cons, List.not_mem_nil, or_false] at hm ⊢; tauto
    have hn3 : kind ≠ "mean_field_2" := by
      intro hm; apply hkk; simp [hm]
    simp only [specialPredAct, e1, ok_bind, Dict.getE, e2, hk, hnone hn2, if_neg hn3]

/-- All hypotheses are met by the network, posterior and PRNG of the previous files: the default requests followed by the special
predictive report it, and the special predictive alone raises. -/
example : ∃ (R : Matrix (Fin 2) (Fin 2) ℝ) (eps : Fin 3 → Vec 2), R * Rᵀ = (precision !![2, 2; 2, 2] 1 1 1)⁻¹ ∧
    Draws testRng none testMean eps ∧ ∀ x : ℝ, ∃ r,
      nonlinPushforward testRng testNet testMean (fun a s => createPosteriorFn .full testMv (.tree testMean) a s)
        ⟨some 1, none⟩ none 1 ((defaultNonlinFns ++ [NonlinFn.specialPredAct]).map NonlinFn.step) 3 {} x = .ok r ∧
      r.get? "special_pred_act" = some (arrOf [2] (specialOf "mean_field_0" (ensMean fun i => testNet.fn x (![3, 5] + R *ᵥ eps i))
        (ensCov (fun i => testNet.fn x (![3, 5] + R *ᵥ eps i)) 1))) ∧
      nonlinPushforward testRng testNet testMean (fun a s => createPosteriorFn .full testMv (.tree testMean) a s)
        ⟨some 1, none⟩ none 1 ([NonlinFn.setup, .specialPredAct].map NonlinFn.step) 3 {} x = .error .keyError := by
  obtain ⟨post, cov, scale, h1, h2, h3, fc, fs, hpost, hact⟩ :=
    C26_create_posterior_full (p := 2) testMean (by simp [testMean, numEntries, Tree.leaves, Tree.leavesL]) (by norm_num) testMv
      !![2, 2; 2, 2] testMv_ok test_psd ⟨some 1, none⟩ 1 rfl (by norm_num) (by norm_num) 1 (by norm_num)
  obtain ⟨_, _, _, R, hR1, hR2⟩ := hpost
  obtain ⟨eps, hd, h⟩ := C36_special_predictives testRng testRng_ok testNet testMean testMean_wf ![3, 5]
    (by simp [testMean, entries, Tree.leaves, Tree.leavesL]) (fun a s => createPosteriorFn .full testMv (.tree testMean) a s)
    ⟨some 1, none⟩ 1 post h1 scale h3 R
    (fun u y hu hy => by have := (hact u y hu hy).2; simp only [hR1] at this; exact this)
    none 3 (by norm_num) {} rfl (by simp) (by simp) (by simp) rfl "mean_field_0" rfl
  refine ⟨R, eps, hR2, hd, fun x => ?_⟩
  obtain ⟨g, _⟩ := h x [.predMean, .predCov, .predVar, .predStd, .samples] [] (by simp [NonlinUsable]) (fun _ => by norm_num) _ rfl _ rfl
  obtain ⟨r, g1, g2, _⟩ := g (Or.inl rfl) 1 (by simp [nonlinExpected, ddofs, statReq, Ddofs.next])
  obtain ⟨_, k, _⟩ := h x [] [] (by simp) (by simp) _ rfl _ rfl
  exact ⟨r, g1, g2, k (by simp) (by simp)⟩

end Laplax.Props
