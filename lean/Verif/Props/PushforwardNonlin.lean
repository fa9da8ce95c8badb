import Verif.Props.Pushforward

/-! # C36: the sampled (nonlinear) predictive -/

namespace Laplax.Props
open Laplax Laplax.Spec
open scoped BigOperators Matrix

variable {X K : Type} {p : ℕ}

/-- The situation after `nonlin_setup`. -/
structure NonlinCtx {S : ℕ} (net : Net X p) (x : X) (W : Fin S → Vec p) (ctx : PfCtx X K p) (aux : PfAux X) : Prop where
  pos : 0 < S
  input : ctx.input = x
  num : ctx.distState.numSamples = S
  model : aux.modelFn = net.call
  get : ∃ g, ctx.distState.getWeightSamples = some g ∧ ∀ i : Fin S, ∃ w, g i.val = .ok w ∧ entries w = List.ofFn (W i)
  batch : ctx.kw.nonlinSetupBatchSize ≠ some 0 ∧ ctx.kw.weightBatchSize ≠ some 0
  kwNum : ctx.kw.numSamples = none

theorem nonlinSetup_ok {S : ℕ} {net : Net X p} {x : X} {W : Fin S → Vec p} {ctx : PfCtx X K p} {aux : PfAux X}
    (hc : NonlinCtx net x W ctx aux) (r : Dict (Arr ℝ)) :
    nonlinSetup r aux ctx = .ok (r, { aux with predEnsemble := some (ensArr net.shape (ensOf net x W)) }) := by
  obtain ⟨g, hg, hw⟩ := hc.get
  have hb : (ctx.kw.nonlinSetupBatchSize <|> ctx.kw.weightBatchSize) ≠ some 0 := by
    have h1 := hc.batch.1; have h2 := hc.batch.2
    cases h : ctx.kw.nonlinSetupBatchSize with
    | none => simpa using h2
    | some b => rw [h] at h1; simpa using h1
  simp only [nonlinSetup, hg, entryE, ok_bind, hc.num, hc.input, hc.model]
  rw [laxMapArr_ok net.shape _ hb S hc.pos _ (ensOf net x W)]
  · rfl
  · intro i
    obtain ⟨w, h1, h2⟩ := hw i
    rw [h1, ok_bind, call_eq net x h2]; rfl

theorem slice_ens {S c : ℕ} (m : ℕ) (sh : List ℕ) (hc : c = shapeSize sh) (s : Fin S → Vec c) :
    Arr.slice 0 m (ensArr sh s) = .ok (ensArr sh (ensTake m s)) := by
  have h : Arr.slice 0 m (ensArr sh s) = .ok ⟨(max 0 (min m S) - 0) :: sh,
      (((List.ofFn fun i => List.ofFn (s i)).flatten).take (max 0 (min m S) * shapeSize sh)).drop (0 * shapeSize sh)⟩ := by
    simp [Arr.slice, ensArr]
  rw [h]
  simp only [Nat.zero_max, Nat.sub_zero, Nat.zero_mul, List.drop_zero, ensArr, Nat.max_zero, zero_le, sup_of_le_right]
  congr 2
  have hrow : ∀ (L : List (List ℝ)) (k : ℕ), (∀ l ∈ L, l.length = c) → L.flatten.take (k * c) = (L.take k).flatten := by
    intro L k hL
    induction L generalizing k with
    | nil => simp
    | cons l L ih =>
      cases k with
      | zero => simp
      | succ k =>
        have hl := hL l (by simp)
        simp only [List.flatten_cons, List.take_succ_cons]
        rw [List.take_append, List.take_of_length_le (by rw [hl]; nlinarith), hl,
          show (k + 1) * c - c = k * c by rw [Nat.succ_mul]; omega, ih k (fun l h => hL l (by simp [h]))]
  rw [← hc, hrow _ _ (by simp [List.mem_ofFn])]
  congr 1
  apply List.ext_getElem
  · simp
  · intro i h1 h2; simp [ensTake]

theorem nonlinDiag_cov {n : ℕ} (M : Matrix (Fin n) (Fin n) ℝ) : nonlinDiag (covArrOf M) = .ok (List.ofFn fun i => M i i) := by
  unfold covArrOf
  split_ifs with h
  · rfl
  · exact jnpDiag_dense M

theorem covAxis0_ens' {S : ℕ} (sh : List ℕ) (s : Fin S → Vec (shapeSize sh)) : covAxis0 (ensArr sh s) = .ok (covArrOf (ensCov s 1)) := by
  rw [covAxis0_ens]; rfl

/-- The dictionary is exactly the expected one. -/
def Exact {S : ℕ} (net : Net X p) (x : X) (θ : Vec p) (W : Fin S → Vec p) (fns : List NonlinFn) (r : Dict (Arr ℝ)) : Prop :=
  ∀ key, r.get? key = nonlinExpected net.shape (net.fn x θ) (ensOf net x W) fns key

theorem ddofs_snoc (fns : List NonlinFn) (fn : NonlinFn) : ddofs (fns ++ [fn]) = (ddofs fns).next (statReq fn) := by
  simp [ddofs, List.foldl_append]

theorem nonlinStep_ok {S : ℕ} {net : Net X p} {x : X} {θ : Vec p} {W : Fin S → Vec p} {ctx : PfCtx X K p} {aux : PfAux X}
    (hc : NonlinCtx net x W ctx aux) (hens : aux.predEnsemble = some (ensArr net.shape (ensOf net x W)))
    (done : List NonlinFn) (fn : NonlinFn) (hu : NonlinUsable net.shape fn) (r : Dict (Arr ℝ)) (hr : Exact net x θ W done r) :
    ∃ r', fn.step r aux ctx = .ok (r', aux) ∧ Exact net x θ W (done ++ [fn]) r' := by
  have hset : ∀ (k : String) (v : Arr ℝ), (∀ key, (if k = key then some v else nonlinExpected net.shape (net.fn x θ) (ensOf net x W) done key) =
      nonlinExpected net.shape (net.fn x θ) (ensOf net x W) (done ++ [fn]) key) → Exact net x θ W (done ++ [fn]) (r.set k v) := by
    intro k v h key
    rw [Dict.get?_set, ← h key, hr key]
  cases fn with
  | setup =>
    refine ⟨r, ?_, ?_⟩
    · simp only [NonlinFn.step, nonlinSetup_ok hc]
      rw [← hens]
    · intro key
      rw [hr key]
      simp [nonlinExpected, ddofs_snoc, statReq, Ddofs.next]
  | predMean =>
    refine ⟨_, by simp only [NonlinFn.step, nonlinPredMean, hens, entryE, ok_bind, meanAxis0_ens]; rfl, hset _ _ ?_⟩
    intro key
    by_cases h : key = "pred_mean"
    · subst h; simp [nonlinExpected]
    · rw [if_neg (Ne.symm h)]; simp [nonlinExpected, h, ddofs_snoc, statReq, Ddofs.next]
  | predCov =>
    refine ⟨_, by simp only [NonlinFn.step, nonlinPredCov, hens, entryE, ok_bind, covAxis0_ens']; rfl, hset _ _ ?_⟩
    intro key
    by_cases h : key = "pred_cov"
    · subst h; simp [nonlinExpected, ddofs_snoc, statReq, Ddofs.next]
    · rw [if_neg (Ne.symm h)]; simp [nonlinExpected, h, ddofs_snoc, statReq, Ddofs.next]
  | predVar =>
    have h0 := hr "pred_cov"
    have hexp : nonlinExpected net.shape (net.fn x θ) (ensOf net x W) done "pred_cov" =
        if (ddofs done).cov then some (covArrOf (ensCov (ensOf net x W) 1)) else none := by simp [nonlinExpected]
    rw [hexp] at h0
    have hfin : ∀ key, (if "pred_var" = key then some (arrOf net.shape fun j => ensCov (ensOf net x W) (if (ddofs done).cov then 1 else 0) j j)
        else nonlinExpected net.shape (net.fn x θ) (ensOf net x W) done key) =
        nonlinExpected net.shape (net.fn x θ) (ensOf net x W) (done ++ [.predVar]) key := by
      intro key
      by_cases h : key = "pred_var"
      · subst h; simp [nonlinExpected, ddofs_snoc, statReq, Ddofs.next]
      · rw [if_neg (Ne.symm h)]; simp [nonlinExpected, h, ddofs_snoc, statReq, Ddofs.next]
    refine ⟨_, ?_, hset _ _ hfin⟩
    cases hcov : (ddofs done).cov with
    | true =>
      simp only [hcov, if_true] at h0
      simp only [NonlinFn.step, nonlinPredVar, h0, hens, entryE, ok_bind, nonlinDiag_cov]
      have : (ensArr net.shape (ensOf net x W)).shape.drop 1 = net.shape := rfl
      rw [this, reshape_ofFn]; rfl
    | false =>
      simp only [hcov] at h0
      simp only [NonlinFn.step, nonlinPredVar]
      rw [show r.get? "pred_cov" = none by simpa using h0]
      simp only [hens, entryE, ok_bind, varAxis0_ens]; rfl
  | predStd =>
    have h0 := hr "pred_var"
    have hexp : nonlinExpected net.shape (net.fn x θ) (ensOf net x W) done "pred_var" =
        (ddofs done).var.map (fun d => arrOf net.shape fun j => ensCov (ensOf net x W) d j j) := by simp [nonlinExpected]
    rw [hexp] at h0
    have hfin : ∀ key, (if "pred_std" = key then some (arrOf net.shape fun j => Real.sqrt (ensCov (ensOf net x W) ((ddofs done).var.getD 0) j j))
        else nonlinExpected net.shape (net.fn x θ) (ensOf net x W) done key) =
        nonlinExpected net.shape (net.fn x θ) (ensOf net x W) (done ++ [.predStd]) key := by
      intro key
      by_cases h : key = "pred_std"
      · subst h; simp [nonlinExpected, ddofs_snoc, statReq, Ddofs.next]
      · rw [if_neg (Ne.symm h)]; simp [nonlinExpected, h, ddofs_snoc, statReq, Ddofs.next]
    refine ⟨_, ?_, hset _ _ hfin⟩
    cases hvar : (ddofs done).var with
    | some d =>
      rw [hvar] at h0
      simp only [Option.map_some] at h0
      simp only [NonlinFn.step, nonlinPredStd, h0, map1_arrOf, Option.getD_some]
    | none =>
      rw [hvar] at h0
      simp only [Option.map_none] at h0
      simp only [NonlinFn.step, nonlinPredStd, h0, hens, entryE, ok_bind, stdAxis0_ens]; rfl
  | samples =>
    refine ⟨_, by simp only [NonlinFn.step, nonlinSamples, hens, entryE, ok_bind, hc.kwNum, Option.getD_none, slice_ens _ _ rfl]; rfl, hset _ _ ?_⟩
    intro key
    by_cases h : key = "samples"
    · subst h; simp [nonlinExpected]
    · rw [if_neg (Ne.symm h)]; simp [nonlinExpected, h, ddofs_snoc, statReq, Ddofs.next]
  | mcPredAct =>
    have hsh : net.shape = [shapeSize net.shape] := by
      obtain ⟨n, hn⟩ := List.length_eq_one_iff.1 hu
      rw [hn]; simp [shapeSize]
    have h0 := hr "samples"
    have hexp : nonlinExpected net.shape (net.fn x θ) (ensOf net x W) done "samples" =
        if .samples ∈ done ∨ .mcPredAct ∈ done then some (ensArr net.shape (ensTake 5 (ensOf net x W))) else none := by simp [nonlinExpected]
    rw [hexp] at h0
    obtain ⟨r1, e1, e2, e3⟩ : ∃ r1, ensureKey "samples" nonlinSamples r aux ctx = .ok (r1, aux) ∧
        r1.get? "samples" = some (ensArr net.shape (ensTake 5 (ensOf net x W))) ∧
        ∀ key, key ≠ "samples" → r1.get? key = r.get? key := by
      by_cases h : NonlinFn.samples ∈ done ∨ NonlinFn.mcPredAct ∈ done
      · rw [if_pos h] at h0
        exact ⟨r, by rw [ensureKey, if_pos (by simp [Dict.mem, h0])], h0, fun _ _ => rfl⟩
      · rw [if_neg h] at h0
        refine ⟨r.set "samples" (ensArr net.shape (ensTake 5 (ensOf net x W))), ?_, by simp [Dict.get?_set], ?_⟩
        · rw [ensureKey_absent h0]
          simp only [nonlinSamples, hens, entryE, ok_bind, hc.kwNum, Option.getD_none, slice_ens _ _ rfl]; rfl
        · intro key hk; rw [Dict.get?_set, if_neg (Ne.symm hk)]
    refine ⟨r1.set "mc_pred_act" (arrOf net.shape (ensSoftmax (ensTake 5 (ensOf net x W)))), ?_, ?_⟩
    · simp only [NonlinFn.step, nonlinMcPredAct, e1, ok_bind, Dict.getE, e2, meanSoftmax_ens _ hsh]; rfl
    · intro key
      rw [Dict.get?_set]
      by_cases h : key = "mc_pred_act"
      · subst h; simp [nonlinExpected]
      · rw [if_neg (Ne.symm h)]
        by_cases h' : key = "samples"
        · subst h'; rw [e2]; simp [nonlinExpected]
        · rw [e3 key h', hr key]; simp [nonlinExpected, h, h', ddofs_snoc, statReq, Ddofs.next]
  | specialPredAct => exact hu.elim

theorem nonlinRun_ok {S : ℕ} {net : Net X p} {x : X} {θ : Vec p} {W : Fin S → Vec p} {ctx : PfCtx X K p} {aux : PfAux X}
    (hc : NonlinCtx net x W ctx aux) (hens : aux.predEnsemble = some (ensArr net.shape (ensOf net x W)))
    (fns done : List NonlinFn) (hu : ∀ fn ∈ fns, NonlinUsable net.shape fn) (r : Dict (Arr ℝ)) (hr : Exact net x θ W done r) :
    ∃ r', finalizeLoop ctx (fns.map (NonlinFn.step (X := X) (K := K) (p := p))) r aux = .ok (r', aux) ∧ Exact net x θ W (done ++ fns) r' := by
  induction fns generalizing r done with
  | nil => exact ⟨r, rfl, by simpa using hr⟩
  | cons fn fns ih =>
    obtain ⟨r1, h1, h2⟩ := nonlinStep_ok hc hens done fn (hu fn (by simp)) r hr
    obtain ⟨r2, g1, g2⟩ := ih (done ++ [fn]) (fun f hf => hu f (by simp [hf])) r1 h2
    refine ⟨r2, ?_, by simpa using g2⟩
    simp only [List.map_cons, finalizeLoop, h1, ok_bind, g1]

/-- **C36 (exact behaviour).** For every model, posterior whose scale product acts as `R`, positive `num_samples`, and every list
of functions beginning with `nonlin_setup`: the result holds, for every key, exactly the statistic of the one ensemble
`f(x, θ + R eps_i)`, `i < num_samples`, that `nonlinExpected` prescribes for the history of requests.  (The covariance divides by
`num_samples - 1`: with a single sample it is NaN in JAX, so it is requested here only with two or more.) -/
theorem C36_sampled_predictive (rng : Prng K) (hrng : RngOk rng) (net : Net X p) (mean : PyTree ℝ)
    (hwf : WFTree mean) (θ : Vec p) (hθ : entries mean = List.ofFn θ)
    (posteriorFn : PriorArgs → ℝ → Except Err (Posterior p)) (prior : PriorArgs) (lsf : ℝ) (post : Posterior p)
    (hpost : posteriorFn prior lsf = .ok post) (scale : List (PyTree ℝ) → Except Err (PyTree ℝ))
    (hscale : post.scaleMv post.state = .ok scale)
    (R : Matrix (Fin p) (Fin p) ℝ) (hR : ActsOnTrees mean scale (fun v => R *ᵥ v)) (key : Option K) (S : ℕ) (hS : 0 < S)
    (kw : PfKwargs K) (hkw : kw.precompute = none) (hb1 : kw.precomputeListBatchSize ≠ some 0)
    (hb2 : kw.nonlinSetupBatchSize ≠ some 0) (hb3 : kw.weightBatchSize ≠ some 0) :
    ∃ eps : Fin S → Vec p, Draws rng key mean eps ∧ ∀ (x : X) (fns : List NonlinFn), (∀ fn ∈ fns, NonlinUsable net.shape fn) →
      (.predCov ∈ fns → 2 ≤ S) →
      ∃ r, nonlinPushforward rng net mean posteriorFn prior key lsf ((NonlinFn.setup :: fns).map NonlinFn.step) S kw x = .ok r ∧
        ∀ k, r.get? k = nonlinExpected net.shape (net.fn x θ) (fun i => net.fn x (θ + R *ᵥ eps i)) fns k := by
  have hsz : numEntries mean = p := by rw [← length_entries hwf, hθ, List.length_ofFn]
  obtain ⟨g, eps, hg1, hg2, hg3⟩ := weight_samples rng hrng key mean mean (SameLayout.refl _) hwf hsz θ hθ scale
    (fun v => R *ᵥ v) hR S { kw with numSamples := none, key := none } hkw hb1
  refine ⟨eps, hg2, fun x fns hu _ => ?_⟩
  let dist : DistState X p := ⟨post, S, none, none, some g⟩
  have hdist : getDistState rng mean net post false S key { kw with numSamples := none, key := none } = .ok dist := by
    simp only [getDistState, weightSampleEntry, weightSampleEntry.weightSampleMean, ok_bind, hscale, dist, hS, if_true,
      Bool.false_eq_true, if_false, hg1]
    rfl
  let W : Fin S → Vec p := fun i => θ + R *ᵥ eps i
  let ctx : PfCtx X K p := ⟨x, dist, { kw with numSamples := none, key := none }⟩
  have hc0 : NonlinCtx net x W ctx ⟨net.call, mean, none, none, none⟩ :=
    ⟨hS, rfl, rfl, rfl, ⟨g, rfl, fun i => by obtain ⟨w, h1, _, _, h4⟩ := hg3 i; exact ⟨w, h1, h4⟩⟩, ⟨hb2, hb3⟩, rfl⟩
  have hc : NonlinCtx net x W ctx ⟨net.call, mean, some (ensArr net.shape (ensOf net x W)), none, none⟩ :=
    ⟨hS, rfl, rfl, rfl, hc0.get, ⟨hb2, hb3⟩, rfl⟩
  have hinit : Exact net x θ W [] [("map", arrOf net.shape (net.fn x θ))] := by
    intro k
    by_cases h : k = "map"
    · subst h; simp [Dict.get?, nonlinExpected]
    · have h' : ¬ "map" = k := Ne.symm h
      simp [Dict.get?, nonlinExpected, h, h', ddofs]
  obtain ⟨r', h1, h2⟩ := nonlinRun_ok hc rfl fns [] hu _ hinit
  refine ⟨r', ?_, h2⟩
  simp only [nonlinPushforward, hpost, ok_bind, hdist, probPredictive, call_eq net x hθ]
  have hset := nonlinSetup_ok hc0 [("map", arrOf net.shape (net.fn x θ))]
  simp only [List.map_cons, finalizeFns, finalizeLoop]
  rw [show NonlinFn.step NonlinFn.setup = (nonlinSetup : PfStep X K p) from rfl]
  erw [hset]
  rw [ok_bind]
  erw [h1]; rfl

theorem ddofs_cov (fns : List NonlinFn) : (ddofs fns).cov = decide (NonlinFn.predCov ∈ fns) := by
  induction fns using List.reverseRecOn with
  | nil => simp [ddofs]
  | append_singleton fns fn ih => rw [ddofs_snoc]; cases fn <;> simp [statReq, Ddofs.next, ih]

theorem _root_.Laplax.Spec.Ordered.init {fns : List NonlinFn} {fn : NonlinFn} (h : Ordered (fns ++ [fn])) : Ordered fns :=
  ⟨fun pre post e => h.1 pre (post ++ [fn]) (by rw [e]; simp), fun pre post e => h.2 pre (post ++ [fn]) (by rw [e]; simp)⟩

theorem ddofs_ordered {fns : List NonlinFn} (h : Ordered fns) :
    (ddofs fns).var = (if .predVar ∈ fns then some 1 else none) ∧ (ddofs fns).std = (if .predStd ∈ fns then some 1 else none) := by
  induction fns using List.reverseRecOn with
  | nil => simp [ddofs]
  | append_singleton fns fn ih =>
    obtain ⟨h1, h2⟩ := ih h.init
    rw [ddofs_snoc]
    cases fn with
    | predVar =>
      have hc := h.1 fns [] rfl
      simp [statReq, Ddofs.next, h2, ddofs_cov, hc]
    | predStd =>
      have hv := h.2 fns [] rfl
      simp [statReq, Ddofs.next, h1, hv]
    | _ => simp [statReq, Ddofs.next, h1, h2]

/-- Ordered histories agree on every key. -/
theorem expected_ordered {S c : ℕ} (sh : List ℕ) (f : Fin c → ℝ) (s : Fin S → Fin c → ℝ) (fns fns' : List NonlinFn)
    (h : Ordered fns) (h' : Ordered fns') :
    (∀ key v v', nonlinExpected sh f s fns key = some v → nonlinExpected sh f s fns' key = some v' → v = v') ∧
    (∀ v, nonlinExpected sh f s fns "pred_cov" = some v → v = covArrOf (ensCov s 1)) ∧
    (∀ v, nonlinExpected sh f s fns "pred_var" = some v → v = arrOf sh (fun j => ensCov s 1 j j)) ∧
    (∀ v, nonlinExpected sh f s fns "pred_std" = some v → v = arrOf sh (fun j => Real.sqrt (ensCov s 1 j j))) := by
  obtain ⟨a1, a2⟩ := ddofs_ordered h
  obtain ⟨b1, b2⟩ := ddofs_ordered h'
  refine ⟨?_, ?_, ?_, ?_⟩
  · intro key v v' e e'
    simp only [nonlinExpected, a1, a2, ddofs_cov] at e
    simp only [nonlinExpected, b1, b2, ddofs_cov] at e'
    split_ifs at e with k1 k2 k3 k4 k5 k6 k7 k8 k9 k10 k11 <;> simp_all
    all_goals first
      | (split_ifs at e <;> split_ifs at e' <;> simp_all)
      | (split_ifs at e' <;> simp_all)
  · intro v e
    simp [nonlinExpected] at e
    exact e.2.symm
  · intro v e
    simp only [nonlinExpected, a1] at e
    simp at e
    exact e.2.symm
  · intro v e
    simp only [nonlinExpected, a2] at e
    simp at e
    exact e.2.symm

/-- The two normalisations differ for a varying output. -/
theorem expected_unordered {S c : ℕ} (sh : List ℕ) (f : Fin c → ℝ) (s : Fin S → Fin c → ℝ) (hS : 2 ≤ S) (j : Fin c)
    (hj : ∃ i, s i j ≠ ensMean s j) :
    nonlinExpected sh f s [.predVar, .predCov] "pred_var" ≠ nonlinExpected sh f s [.predCov, .predVar] "pred_var" ∧
    (S : ℝ) * ensCov s 0 j j = (S - 1) * ensCov s 1 j j := by
  have hS0 : (S : ℝ) ≠ 0 := by positivity
  have hS1 : (S : ℝ) - 1 ≠ 0 := by
    have : (2 : ℝ) ≤ S := by exact_mod_cast hS
    linarith
  have hpos : 0 < ∑ i, (s i j - ensMean s j) * (s i j - ensMean s j) := by
    obtain ⟨i, hi⟩ := hj
    apply Finset.sum_pos' (fun i _ => mul_self_nonneg _)
    exact ⟨i, Finset.mem_univ _, mul_self_pos.2 (sub_ne_zero.2 hi)⟩
  constructor
  · intro h
    simp only [nonlinExpected, ddofs, List.foldl, statReq, Ddofs.next] at h
    simp at h
    have h2 := congrArg Arr.data h
    simp only [arrOf, List.ofFn_inj] at h2
    have h3 := congrFun h2 j
    simp only [ensCov, Matrix.of_apply, sub_zero] at h3
    rw [div_eq_div_iff hS0 hS1] at h3
    nlinarith
  · simp only [ensCov, Matrix.of_apply, sub_zero]
    field_simp

/-- **C36 (order independence), partial.** For requests in which the covariance is requested before any variance and a variance
before any standard deviation (as in the default list), the result does not depend on the order or subset of the requests: a key
computed by two such lists has the same value, `pred_mean` is the ensemble mean, `pred_var` the diagonal of the sample covariance
`pred_cov`, and `pred_std` the root of `pred_var`.  Missing: arbitrary lists, for which the claim is false
(`C36_variance_depends_on_order`). -/
theorem C36_order_independent_partial (rng : Prng K) (hrng : RngOk rng) (net : Net X p) (mean : PyTree ℝ)
    (hwf : WFTree mean) (θ : Vec p) (hθ : entries mean = List.ofFn θ)
    (posteriorFn : PriorArgs → ℝ → Except Err (Posterior p)) (prior : PriorArgs) (lsf : ℝ) (post : Posterior p)
    (hpost : posteriorFn prior lsf = .ok post) (scale : List (PyTree ℝ) → Except Err (PyTree ℝ))
    (hscale : post.scaleMv post.state = .ok scale)
    (R : Matrix (Fin p) (Fin p) ℝ) (hR : ActsOnTrees mean scale (fun v => R *ᵥ v)) (key : Option K) (S : ℕ) (hS : 0 < S)
    (kw : PfKwargs K) (hkw : kw.precompute = none) (hb1 : kw.precomputeListBatchSize ≠ some 0)
    (hb2 : kw.nonlinSetupBatchSize ≠ some 0) (hb3 : kw.weightBatchSize ≠ some 0)
    (x : X) (fns fns' : List NonlinFn) (hu : ∀ fn ∈ fns, NonlinUsable net.shape fn) (hu' : ∀ fn ∈ fns', NonlinUsable net.shape fn)
    (hS2 : .predCov ∈ fns ∨ .predCov ∈ fns' → 2 ≤ S) (ho : Ordered fns) (ho' : Ordered fns') :
    ∃ (eps : Fin S → Vec p) (r r' : Dict (Arr ℝ)), Draws rng key mean eps ∧
      nonlinPushforward rng net mean posteriorFn prior key lsf ((NonlinFn.setup :: fns).map NonlinFn.step) S kw x = .ok r ∧
      nonlinPushforward rng net mean posteriorFn prior key lsf ((NonlinFn.setup :: fns').map NonlinFn.step) S kw x = .ok r' ∧
      (∀ k v v', r.get? k = some v → r'.get? k = some v' → v = v') ∧
      (.predMean ∈ fns → r.get? "pred_mean" = some (arrOf net.shape (ensMean fun i => net.fn x (θ + R *ᵥ eps i)))) ∧
      (.predCov ∈ fns → r.get? "pred_cov" = some (covArrOf (ensCov (fun i => net.fn x (θ + R *ᵥ eps i)) 1))) ∧
      (.predVar ∈ fns → r.get? "pred_var" = some (arrOf net.shape fun j => ensCov (fun i => net.fn x (θ + R *ᵥ eps i)) 1 j j)) ∧
      (.predStd ∈ fns → r.get? "pred_std" =
        some (arrOf net.shape fun j => Real.sqrt (ensCov (fun i => net.fn x (θ + R *ᵥ eps i)) 1 j j))) := by
  obtain ⟨eps, hd, h⟩ := C36_sampled_predictive rng hrng net mean hwf θ hθ posteriorFn prior lsf post hpost scale hscale R hR key S hS kw hkw hb1 hb2 hb3
  obtain ⟨r, h1, h2⟩ := h x fns hu (fun hm => hS2 (Or.inl hm))
  obtain ⟨r', g1, g2⟩ := h x fns' hu' (fun hm => hS2 (Or.inr hm))
  have hexp := expected_ordered net.shape (net.fn x θ) (fun i => net.fn x (θ + R *ᵥ eps i)) fns fns' ho ho'
  obtain ⟨a1, a2⟩ := ddofs_ordered ho
  refine ⟨eps, r, r', hd, h1, g1, ?_, ?_, ?_, ?_, ?_⟩
  · intro k v v' e e'
    rw [h2] at e; rw [g2] at e'
    exact hexp.1 k v v' e e'
  · intro hm; rw [h2]; simp [nonlinExpected, hm]
  · intro hm; rw [h2]; simp [nonlinExpected, ddofs_cov, hm]
  · intro hm; rw [h2]; simp [nonlinExpected, a1, hm]
  · intro hm; rw [h2]; simp [nonlinExpected, a2, hm]

/-- **C36 (finding).** Whenever some output entry varies over the ensemble of at least two samples, requesting the variance before
or after the covariance gives different `pred_var`: normalised by `S` in the first case and by `S - 1` in the second. -/
theorem C36_variance_depends_on_order (rng : Prng K) (hrng : RngOk rng) (net : Net X p) (mean : PyTree ℝ)
    (hwf : WFTree mean) (θ : Vec p) (hθ : entries mean = List.ofFn θ)
    (posteriorFn : PriorArgs → ℝ → Except Err (Posterior p)) (prior : PriorArgs) (lsf : ℝ) (post : Posterior p)
    (hpost : posteriorFn prior lsf = .ok post) (scale : List (PyTree ℝ) → Except Err (PyTree ℝ))
    (hscale : post.scaleMv post.state = .ok scale)
    (R : Matrix (Fin p) (Fin p) ℝ) (hR : ActsOnTrees mean scale (fun v => R *ᵥ v)) (key : Option K) (S : ℕ) (hS : 0 < S)
    (kw : PfKwargs K) (hkw : kw.precompute = none) (hb1 : kw.precomputeListBatchSize ≠ some 0)
    (hb2 : kw.nonlinSetupBatchSize ≠ some 0) (hb3 : kw.weightBatchSize ≠ some 0)
    (hS2 : 2 ≤ S) :
    ∃ eps : Fin S → Vec p, Draws rng key mean eps ∧ ∀ (x : X),
      (∃ i k j, net.fn x (θ + R *ᵥ eps i) j ≠ net.fn x (θ + R *ᵥ eps k) j) →
      ∃ r r' : Dict (Arr ℝ),
        nonlinPushforward rng net mean posteriorFn prior key lsf ([NonlinFn.setup, .predVar, .predCov].map NonlinFn.step) S kw x = .ok r ∧
        nonlinPushforward rng net mean posteriorFn prior key lsf ([NonlinFn.setup, .predCov, .predVar].map NonlinFn.step) S kw x = .ok r' ∧
        r.get? "pred_cov" = r'.get? "pred_cov" ∧ r.get? "pred_var" ≠ r'.get? "pred_var" := by
  obtain ⟨eps, hd, h⟩ := C36_sampled_predictive rng hrng net mean hwf θ hθ posteriorFn prior lsf post hpost scale hscale R hR key S hS kw hkw hb1 hb2 hb3
  refine ⟨eps, hd, fun x ⟨i, k, j, hne⟩ => ?_⟩
  obtain ⟨r, h1, h2⟩ := h x [.predVar, .predCov] (by simp [NonlinUsable]) (fun _ => hS2)
  obtain ⟨r', g1, g2⟩ := h x [.predCov, .predVar] (by simp [NonlinUsable]) (fun _ => hS2)
  refine ⟨r, r', h1, g1, ?_, ?_⟩
  · rw [h2, g2]; simp [nonlinExpected, ddofs_cov]
  · rw [h2, g2]
    refine (expected_unordered net.shape (net.fn x θ) (fun i => net.fn x (θ + R *ᵥ eps i)) hS2 j ?_).1
    by_contra hall
    push Not at hall
    exact hne ((hall i).trans (hall k).symm)

/-- The sample covariance of at least two samples is positive semidefinite (so `pred_var ≥ 0`). -/
theorem C36_sample_covariance_psd {S c : ℕ} (s : Fin S → Fin c → ℝ) (hS : 2 ≤ S) :
    (ensCov s 1).PosSemidef ∧ ∀ j, 0 ≤ ensCov s 1 j j ∧ 0 ≤ ensCov s 0 j j := by
  have h1 : (0 : ℝ) ≤ S - 1 := by
    have : (2 : ℝ) ≤ S := by exact_mod_cast hS
    linarith
  have hps : (ensCov s 1).PosSemidef := by
    have : ensCov s 1 = ((S : ℝ) - 1)⁻¹ • ((Matrix.of fun (i : Fin S) (j : Fin c) => s i j - ensMean s j)ᴴ *
        (Matrix.of fun (i : Fin S) (j : Fin c) => s i j - ensMean s j)) := by
      ext j k
      simp [ensCov, Matrix.mul_apply, Matrix.conjTranspose_apply, div_eq_inv_mul]
    rw [this]
    exact (Matrix.posSemidef_conjTranspose_mul_self _).smul (inv_nonneg.2 h1)
  refine ⟨hps, fun j => ⟨hps.diag_nonneg, ?_⟩⟩
  simp only [ensCov, Matrix.of_apply, sub_zero]
  exact div_nonneg (Finset.sum_nonneg fun i _ => mul_self_nonneg _) (Nat.cast_nonneg _)

/-- Without weight samples (`num_samples = 0`) `nonlin_setup` raises `KeyError`. -/
theorem C36_zero_samples_raise (rng : Prng K) (net : Net X p) (mean : PyTree ℝ) (θ : Vec p) (hθ : entries mean = List.ofFn θ)
    (posteriorFn : PriorArgs → ℝ → Except Err (Posterior p)) (prior : PriorArgs) (lsf : ℝ) (post : Posterior p)
    (hpost : posteriorFn prior lsf = .ok post) (key : Option K) (kw : PfKwargs K) (fns : List NonlinFn) (x : X) :
    nonlinPushforward rng net mean posteriorFn prior key lsf ((NonlinFn.setup :: fns).map NonlinFn.step) 0 kw x = .error .keyError := by
  simp only [nonlinPushforward, hpost, ok_bind, getDistState, weightSampleEntry, probPredictive, call_eq net x hθ]
  rfl

/-- **Finding.** The special predictives of the sampled predictive raise `KeyError` for every variance-based type unless `pred_var` was
requested before: the fallback is the linearised `lin_pred_var`. -/
theorem C36_special_needs_variance {aux : PfAux X} (ctx : PfCtx X K p) (hcov : aux.covMv = none) (r : Dict (Arr ℝ))
    (hmean : (r.get? "pred_mean").isSome) (hvar : r.get? "pred_var" = none)
    (hkind : ctx.kw.specialPredType.getD "mean_field_0" ∈ ["laplace_bridge", "mean_field_0", "mean_field_1"]) :
    specialPredAct false r aux ctx = .error .keyError := by
  obtain ⟨m, hm⟩ := Option.isSome_iff_exists.1 hmean
  have h1 : ensureKey "pred_mean" (if false = true then linPredMean else nonlinPredMean) r aux ctx = .ok (r, aux) := by
    rw [ensureKey, if_pos]; simp [Dict.mem, hm]
  have h2 : ∃ f, varPredFn (ctx.kw.useCorrection.getD true) (ctx.kw.specialPredType.getD "mean_field_0") = some f := by
    simp only [List.mem_cons, List.not_mem_nil, or_false] at hkind
    rcases hkind with h | h | h <;> rw [h] <;> simp [varPredFn]
  obtain ⟨f, hf⟩ := h2
  simp only [specialPredAct, h1, ok_bind, Dict.getE, hm, hf, ensureKey_absent hvar, linPredVar, hcov, entryE, error_bind]

/-! ### Non-vacuity -/

/-- The default list is ordered, and its hypotheses are met by the network of the previous file. -/
example : Ordered (defaultNonlinFns.drop 1) := by
  constructor
  · intro pre post h
    simp only [defaultNonlinFns, List.drop_succ_cons, List.drop_zero] at h
    match pre, h with
    | [_, _], h => simp at h; simp [← h.2.1]
    | [], h => simp at h
    | [_], h => simp at h
    | [_, _, _], h => simp at h
    | [_, _, _, _], h => simp at h
    | [_, _, _, _, _], h => simp at h
    | _ :: _ :: _ :: _ :: _ :: _ :: _, h => simp at h
  · intro pre post h
    simp only [defaultNonlinFns, List.drop_succ_cons, List.drop_zero] at h
    match pre, h with
    | [_, _, _], h => simp at h; simp [← h.2.2.1]
    | [], h => simp at h
    | [_], h => simp at h
    | [_, _], h => simp at h
    | [_, _, _, _], h => simp at h
    | [_, _, _, _, _], h => simp at h
    | _ :: _ :: _ :: _ :: _ :: _ :: _, h => simp at h

/-- All hypotheses of the theorems on the sampled predictive are met by the network, posterior and PRNG of the previous file. -/
example : ∃ (R : Matrix (Fin 2) (Fin 2) ℝ) (eps : Fin 3 → Vec 2), R * Rᵀ = (precision !![2, 2; 2, 2] 1 1 1)⁻¹ ∧
    Draws testRng none testMean eps ∧ ∀ x : ℝ, ∃ r,
      nonlinPushforward testRng testNet testMean (fun a s => createPosteriorFn .full testMv (.tree testMean) a s)
        ⟨some 1, none⟩ none 1 (defaultNonlinFns.map NonlinFn.step) 3 {} x = .ok r ∧
      r.get? "pred_var" = some (arrOf [2] fun j => ensCov (fun i => testNet.fn x (![3, 5] + R *ᵥ eps i)) 1 j j) := by
  obtain ⟨post, cov, scale, h1, h2, h3, fc, fs, hpost, hact⟩ :=
    C26_create_posterior_full (p := 2) testMean (by simp [testMean, numEntries, Tree.leaves, Tree.leavesL]) (by norm_num) testMv
      !![2, 2; 2, 2] testMv_ok test_psd ⟨some 1, none⟩ 1 rfl (by norm_num) (by norm_num) 1 (by norm_num)
  obtain ⟨_, _, _, R, hR1, hR2⟩ := hpost
  obtain ⟨eps, hd, h⟩ := C36_sampled_predictive testRng testRng_ok testNet testMean testMean_wf ![3, 5]
    (by simp [testMean, entries, Tree.leaves, Tree.leavesL]) (fun a s => createPosteriorFn .full testMv (.tree testMean) a s)
    ⟨some 1, none⟩ 1 post h1 scale h3 R
    (fun u y hu hy => by have := (hact u y hu hy).2; simp only [hR1] at this; exact this)
    none 3 (by norm_num) {} rfl (by simp) (by simp) (by simp)
  refine ⟨R, eps, hR2, hd, fun x => ?_⟩
  obtain ⟨r, g1, g2⟩ := h x [.predMean, .predCov, .predVar, .predStd, .samples] (by simp [NonlinUsable]) (fun _ => by norm_num)
  refine ⟨r, g1, ?_⟩
  rw [g2]
  simp [nonlinExpected, ddofs, statReq, Ddofs.next, testNet]

end Laplax.Props
