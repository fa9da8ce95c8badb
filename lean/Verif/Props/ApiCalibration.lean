import Verif.Lib.ApiCalibrationLemmas
import Verif.Props.Predictives

/-! # C52: calibration end to end -/

namespace Laplax.Props
open Laplax Laplax.Spec
open scoped BigOperators Matrix

variable {X K A : Type} {p : ℕ}

/-! ### Metrics on stacked predictions -/

theorem getD_ens {N : ℕ} (sh : List ℕ) (m : Fin N → Vec (shapeSize sh)) (i : Fin N) (k : Fin (shapeSize sh)) :
    (ensArr sh m).data.getD (i.val * shapeSize sh + k.val) 0 = m i k := flatten_ofFn_getD m i k

theorem stacked_index {N c m : ℕ} (hm : m = N * c) (i : Fin m) : ∃ (a : Fin N) (b : Fin c), i.val = a.val * c + b.val := by
  subst hm
  refine ⟨i.divNat, i.modNat, ?_⟩
  simp only [Fin.coe_divNat, Fin.coe_modNat]
  exact (Nat.div_add_mod' i.val c).symm

theorem nll_stacked {N : ℕ} (sh : List ℕ) (m s t : Fin N → Vec (shapeSize sh)) (hs : ∀ i k, 0 < s i k) :
    nllGaussian (ensArr sh m).toNd (ensArr sh s).toNd (ensArr sh t).toNd =
      .ok ((∑ i, ∑ k, negLogDensity (m i k) (s i k) (t i k)) / ((N : ℝ) * (shapeSize sh : ℝ))) := by
  have hsz := shapeSize_stack N sh
  have h := (C32_nll (N :: sh) (fun i => (ensArr sh m).data.getD i.val 0) (fun i => (ensArr sh s).data.getD i.val 0)
    (fun i => (ensArr sh t).data.getD i.val 0) (fun i => by
      obtain ⟨a, b, hab⟩ := stacked_index hsz i
      rw [hab, getD_ens]; exact hs a b)).1
  have e : nllGaussian (ensArr sh m).toNd (ensArr sh s).toNd (ensArr sh t).toNd = _ := h
  rw [e, sum_stacked hsz (fun n => negLogDensity ((ensArr sh m).data.getD n 0) ((ensArr sh s).data.getD n 0) ((ensArr sh t).data.getD n 0)), hsz]
  simp only [getD_ens]
  push_cast
  rfl

theorem chi2_stacked {N : ℕ} (sh : List ℕ) (m s t : Fin N → Vec (shapeSize sh)) (D : Dict (Arr ℝ))
    (h1 : D.get? "pred_mean" = some (ensArr sh m)) (h2 : D.get? "pred_std" = some (ensArr sh s)) (h3 : D.get? "target" = some (ensArr sh t)) :
    chi2Metric D = .ok |(∑ i, ∑ k, (t i k - m i k) ^ 2 / s i k ^ 2) / ((N : ℝ) * (shapeSize sh : ℝ)) - 1| := by
  have hsz := shapeSize_stack N sh
  simp only [chi2Metric, kwArg, h1, h2, h3, ok_bind]
  rw [if_pos ⟨rfl, rfl⟩]
  simp only [pure, Except.pure, chiSquaredZero, chiSquared, if_true, jnpMean]
  congr 3
  have e := sum_stacked (N := N) (c := shapeSize sh) rfl (fun n => ((ensArr sh m).data.getD n 0 - (ensArr sh t).data.getD n 0) ^ 2 / (ensArr sh s).data.getD n 0 ^ 2)
  have e2 : shapeSize (ensArr sh m).shape = N * shapeSize sh := hsz
  rw [e2]
  push_cast
  congr 1
  refine Eq.trans e ?_
  refine Finset.sum_congr rfl fun i _ => Finset.sum_congr rfl fun k _ => ?_
  rw [getD_ens, getD_ens, getD_ens]; ring

theorem oneHot_stacked {N : ℕ} (d : ℕ) (y : Fin N → Fin d) :
    oneHotArr d ⟨[N], (List.ofFn fun i => (labelArr (y i)).data).flatten⟩ =
      ⟨[N, d], (List.ofFn fun i => List.ofFn fun k : Fin d => if k = y i then (1 : ℝ) else 0).flatten⟩ := by
  have h1 : (List.ofFn fun i => (labelArr (y i)).data).flatten = List.ofFn fun i => ((y i).val : ℝ) := by
    simp only [labelArr]
    show (List.ofFn ((fun x => [x]) ∘ fun i => ((y i).val : ℝ))).flatten = _
    rw [← List.map_ofFn]
    induction (List.ofFn fun i => ((y i).val : ℝ)) with
    | nil => rfl
    | cons a l ih => simp [ih]
  rw [h1]
  simp only [oneHotArr, List.cons_append, List.nil_append, List.flatMap, List.map_ofFn]
  congr 3
  funext i
  simp only [Function.comp_apply]
  congr 1; funext k
  have : ((y i).val : ℝ) = (k.val : ℝ) ↔ k = y i := by
    rw [Nat.cast_inj, Fin.ext_iff, eq_comm]
  simp [this]

/-! ### The predictive -/

/-- The selected linear predictive, for all prior precisions at once. -/
theorem api_linear {lower : String → String} {pushforward predictive : EnumArg} {pr : String} {a : PredictiveArgs X K p}
    {θ : Vec p} {est : CurvEstimate p} (h : ApiLinear lower pushforward predictive pr a θ est) :
    ∃ (fns : List PfName) (eps : Fin a.numSamples → Vec p) (R : ℝ → Matrix (Fin p) (Fin p) ℝ),
      setupPushforward lower pushforward predictive none = .ok (.lin, fns) ∧ Draws a.rng (some a.key) a.params eps ∧
      ∀ τ, 0 < τ → LinearPredictive a θ est pr eps (R τ) τ (setPushforward a .lin fns ⟨some τ, none⟩) := by
  obtain ⟨fns, eps, h1, h2, h3⟩ := C51_linear_predictive lower pushforward predictive pr h.pushforward h.predictive a h.rng h.nonempty
    h.wf θ h.params est h.psd h.posterior h.usable
  have h4 : ∀ τ : ℝ, ∃ R : Matrix (Fin p) (Fin p) ℝ, 0 < τ →
      LinearPredictive a θ est pr eps R τ (setPushforward a .lin fns ⟨some τ, none⟩) := by
    intro τ
    by_cases hτ : 0 < τ
    · obtain ⟨P, R, rfl, e1, e2, e3⟩ := h3 ⟨some τ, none⟩ τ rfl hτ (by norm_num)
      exact ⟨R, fun _ => ⟨e2, e3⟩⟩
    · exact ⟨0, fun h => absurd h hτ⟩
  choose R hR using h4
  exact ⟨fns, eps, R, h1, h2, hR⟩

theorem targetPrecision_inv_posDef {est : CurvEstimate p} (he : EstimatePsd est) (params : PyTree ℝ) (hsz : numEntries params = p)
    (hp : 0 < p) {τ : ℝ} (hτ : 0 < τ) : ((targetPrecision τ 1 1 est)⁻¹).PosDef := by
  obtain ⟨post, cov, scale, -, -, -, R, k4, -, -⟩ := posterior_of_estimate params hsz hp est he ⟨some τ, none⟩ τ rfl hτ (by norm_num) 1 one_pos
  exact k4.2.1

theorem predVar_pos {lower : String → String} {pushforward predictive : EnumArg} {pr : String} {a : PredictiveArgs X K p}
    {θ : Vec p} {est : CurvEstimate p} (h : ApiLinear lower pushforward predictive pr a θ est) {τ : ℝ} (hτ : 0 < τ) (x : X)
    (k : Fin (shapeSize a.net.shape)) (hJ : ∃ j, jacobian (a.net.fn x) θ k j ≠ 0) : 0 < predCovAt a.net.fn θ est τ x k k := by
  have hsz : numEntries a.params = p := by rw [← length_entries h.wf, h.params, List.length_ofFn]
  have hpd := targetPrecision_inv_posDef h.psd a.params hsz h.nonempty hτ
  have hne : (fun j => jacobian (a.net.fn x) θ k j) ≠ 0 := by
    obtain ⟨j, hj⟩ := hJ
    intro e; exact hj (congrFun e j)
  have := quad_pos hpd _ hne
  convert this using 1
  simp only [predCovAt, Matrix.mul_apply, Matrix.transpose_apply, Finset.sum_mul]
  rw [Finset.sum_comm]

theorem build_objective {lower : String → String} {objective : EnumArg} {o : String} (cls : Bool)
    (h : convertToEnum lower calibrationObjectiveValues false objective = .ok (.member o)) :
    buildCalibrationObjective lower objective false false false false false cls =
      buildCalibrationObjective lower (.member o) false false false false false cls := by
  unfold buildCalibrationObjective
  rw [h]; rfl

/-- The keys of the linearised predictive do not depend on the input. -/
theorem apiExpected_isSome {S c : ℕ} (sh : List ℕ) (f f' : Fin c → ℝ) (V V' : Matrix (Fin c) (Fin c) ℝ) (s s' : Fin S → Fin c → ℝ)
    (pr key : String) (h : (apiExpected sh f V s pr key).isSome) : (apiExpected sh f' V' s' pr key).isSome := by
  unfold apiExpected at *
  split_ifs at * <;> simp_all

/-- The stacked predictions of a batch. -/
theorem stacked_predictions {N : ℕ} (hN : 0 < N) {a : PredictiveArgs X K p} {θ : Vec p} {est : CurvEstimate p} {pr : String}
    {eps : Fin a.numSamples → Vec p} {R : Matrix (Fin p) (Fin p) ℝ} {τ : ℝ} {set : PriorArgs → X → Except Err (Dict (Arr ℝ))}
    (h : LinearPredictive a θ est pr eps R τ (set ⟨some τ, none⟩)) (xs : Fin N → X) (ts : Fin N → Arr ℝ)
    (metric : Dict (Arr ℝ) → Except Err ℝ) :
    ∃ D, evaluateForGivenPriorArguments (List.ofFn fun i => (xs i, ts i)) set metric ⟨some τ, none⟩ = metric D ∧
      D.get? "target" = some ⟨N :: (ts ⟨0, hN⟩).shape, (List.ofFn fun i => (ts i).data).flatten⟩ ∧
      D.get? "map" = some (ensArr a.net.shape fun i => a.net.fn (xs i) θ) ∧
      D.get? "pred_mean" = some (ensArr a.net.shape fun i => a.net.fn (xs i) θ) ∧
      D.get? "pred_std" = some (ensArr a.net.shape fun i k => Real.sqrt (predCovAt a.net.fn θ est τ (xs i) k k)) ∧
      (pr ≠ "none" → D.get? "pred_act" = some (ensArr a.net.shape fun i => classProbs pr (a.net.fn (xs i) θ)
        (predCovAt a.net.fn θ est τ (xs i)) (fun j => a.net.fn (xs i) θ + jacobian (a.net.fn (xs i)) θ *ᵥ (R *ᵥ eps j)))) := by
  obtain ⟨D, d1, d2⟩ := evaluate_ok hN xs ts set metric ⟨some τ, none⟩
    (fun i key => apiExpected a.net.shape (a.net.fn (xs i) θ) (predCovAt a.net.fn θ est τ (xs i))
      (fun j => a.net.fn (xs i) θ + jacobian (a.net.fn (xs i)) θ *ᵥ (R *ᵥ eps j)) pr key)
    (fun k i j hi => apiExpected_isSome _ _ _ _ _ _ _ _ _ hi) (fun i => h.2 (xs i))
  refine ⟨D, d1, by rw [d2, if_pos rfl], ?_, ?_, ?_, fun hpr => ?_⟩
  · rw [d2, if_neg (by decide)]
    simp [apiExpected, arrOf, ensArr]
  · rw [d2, if_neg (by decide)]
    simp [apiExpected, arrOf, ensArr]
  · rw [d2, if_neg (by decide)]
    simp [apiExpected, arrOf, ensArr]
  · rw [d2, if_neg (by decide)]
    by_cases h1 : pr = "mc_bridge"
    · simp [apiExpected, arrOf, ensArr, h1, classProbs]
    · simp [apiExpected, arrOf, ensArr, h1, hpr, classProbs]

theorem stack_targets {N : ℕ} (hN : 0 < N) (sh : List ℕ) (ys : Fin N → Vec (shapeSize sh)) :
    (⟨N :: ((fun i => arrOf sh (ys i)) (⟨0, hN⟩ : Fin N)).shape, (List.ofFn fun i => (arrOf sh (ys i)).data).flatten⟩ : Arr ℝ) = ensArr sh ys := rfl

/-! ### Class probabilities and the calibration error -/

theorem classProbs_range {S c : ℕ} (pr : String) (f : Vec c) (V : Matrix (Fin c) (Fin c) ℝ) (s : Fin S → Vec c)
    (hpr : pr = "mc_bridge" ∧ 0 < S ∨ pr ∈ ["mean_field_0", "mean_field_1", "mean_field_2"]) (k : Fin c) :
    0 ≤ classProbs pr f V s k ∧ classProbs pr f V s k ≤ 1 := by
  have hsm : ∀ z : Vec c, 0 ≤ softmaxOf z k ∧ softmaxOf z k ≤ 1 := by
    intro z
    have h := (softmax_isProb k.pos z).1
    exact ⟨h.1 k, h.2 ▸ Finset.single_le_sum (fun j _ => h.1 j) (Finset.mem_univ k)⟩
  rcases hpr with ⟨rfl, hS⟩ | hpr
  · have hS' : (0 : ℝ) < S := by exact_mod_cast hS
    simp only [classProbs, if_true, ensSoftmax]
    refine ⟨div_nonneg (Finset.sum_nonneg fun i _ => (hsm _).1) hS'.le, ?_⟩
    rw [div_le_one hS']
    calc ∑ i, softmaxOf (s i) k ≤ ∑ _i : Fin S, (1 : ℝ) := Finset.sum_le_sum fun i _ => (hsm _).2
      _ = S := by simp
  · simp only [List.mem_cons, List.not_mem_nil, or_false] at hpr
    rcases hpr with rfl | rfl | rfl
    · simpa [classProbs, specialOf] using hsm _
    · have := (C33_mean_field_1 f fun k => V k k).1 k
      simp only [meanField1, lambda0] at this
      simp only [classProbs, specialOf]
      rw [if_neg (by decide), if_neg (by decide), if_pos trivial]
      exact ⟨this.1.le, this.2⟩
    · have := (C33_mean_field_2 f V).1 k
      simp only [meanField2, lambda0] at this
      simp only [classProbs, specialOf]
      rw [if_neg (by decide), if_neg (by decide), if_neg (by decide)]
      exact ⟨this.1.le, this.2⟩

theorem rowsOf_flatten {N c : ℕ} (sh : List ℕ) (m : Fin N → Vec c) : rowsOf ⟨sh, (List.ofFn fun i => List.ofFn (m i)).flatten⟩ N c = m := by
  funext i k
  exact flatten_ofFn_getD m i k

theorem labels_flatten {N c : ℕ} (y : Fin N → Fin c) : (List.ofFn fun i => (labelArr (y i)).data).flatten = List.ofFn fun i => ((y i).val : ℝ) := by
  simp only [labelArr]
  show (List.ofFn ((fun x => [x]) ∘ fun i => ((y i).val : ℝ))).flatten = _
  rw [← List.map_ofFn]
  induction (List.ofFn fun i => ((y i).val : ℝ)) with
  | nil => rfl
  | cons a l ih => simp [ih]

theorem asLabel_nat (n : ℕ) : asLabel (n : ℝ) = (n : ℤ) := by simp [asLabel]

/-- The two encodings of class labels give `correctness` the same labels. -/
theorem asTarget_labels {N c : ℕ} (hc : 0 < c) (y : Fin N → Fin c) (t : Arr ℝ)
    (ht : t = ⟨[N], (List.ofFn fun i => (labelArr (y i)).data).flatten⟩ ∨
      t = ⟨[N, c], (List.ofFn fun i => List.ofFn fun k : Fin c => if k = y i then (1 : ℝ) else 0).flatten⟩) :
    ∃ tg, asTarget N c t = .ok tg ∧ targetLabels tg = .ok fun i => ((y i).val : ℤ) := by
  rcases ht with rfl | rfl
  · refine ⟨_, by rw [asTarget, if_pos rfl], ?_⟩
    simp only [targetLabels, labels_flatten]
    congr 1; funext i
    simp [asLabel_nat]
  · refine ⟨_, by rw [asTarget, if_neg (by simp), if_pos rfl], ?_⟩
    rw [rowsOf_flatten]
    have := C31_one_hot_targets hc y
    simp only [targetLabels, if_neg hc.ne'] at this ⊢
    rw [← this]
    congr 1
    funext i
    congr 3
    funext k
    have : ((k.val : ℤ) = ((y i).val : ℤ)) ↔ k = y i := by rw [Fin.ext_iff]; exact Int.natCast_inj
    simp [oneHot, this]

theorem ece_stacked {N c : ℕ} (hc : 0 < c) (out probs : Fin N → Vec c) (y : Fin N → Fin c)
    (hprobs : ∀ i k, 0 ≤ probs i k ∧ probs i k ≤ 1) (D : Dict (Arr ℝ))
    (h1 : D.get? "map" = some ⟨[N, c], (List.ofFn fun i => List.ofFn (out i)).flatten⟩)
    (h2 : D.get? "pred_act" = some ⟨[N, c], (List.ofFn fun i => List.ofFn (probs i)).flatten⟩) (t : Arr ℝ) (h3 : D.get? "target" = some t)
    (ht : ∃ tg, asTarget N c t = .ok tg ∧ targetLabels tg = .ok fun i => ((y i).val : ℤ)) :
    eceMetric D = .ok (eceScore out probs y) := by
  obtain ⟨tg, t1, t2⟩ := ht
  obtain ⟨r, r1, r2⟩ := C31_correctness hc out tg _ t2
  haveI : Nonempty (Fin c) := ⟨⟨0, hc⟩⟩
  have hmax : rowMax N c probs = .ok fun i => maxEntry (probs i) := by
    unfold rowMax
    rw [dif_pos hc]
    congr 1; funext i
    simp only [maxEntry]
    rw [Finset.sup'_univ_eq_ciSup]
  have hcorr : (fun i => if r i = true then (1 : ℝ) else 0) =
      open Classical in (fun i => if IsFirstMax (out i) (y i) then (1 : ℝ) else 0) := by
    funext i
    have : r i = true ↔ IsFirstMax (out i) (y i) := by
      rw [r2]
      constructor
      · rintro ⟨l, hl, hm⟩
        have : l = y i := Fin.ext (by exact_mod_cast hl)
        rw [← this]; exact hm
      · intro h; exact ⟨y i, rfl, h⟩
    by_cases hf : IsFirstMax (out i) (y i)
    · rw [if_pos (this.2 hf), if_pos hf]
    · rw [if_neg (fun h => hf (this.1 h)), if_neg hf]
  simp only [eceMetric, kwArg, h1, h2, h3, ok_bind, if_true, rowsOf_flatten, hmax, t1, r1]
  rw [hcorr, C30_ece_value _ _ (by norm_num)]
  · rfl
  · intro i
    have hb : BddAbove (Set.range (probs i)) := ⟨1, by rintro _ ⟨k, rfl⟩; exact (hprobs i k).2⟩
    exact ⟨le_trans (hprobs i ⟨0, hc⟩).1 (le_ciSup hb ⟨0, hc⟩), ciSup_le fun k => (hprobs i k).2⟩

theorem oneDim {sh : List ℕ} (h : sh.length = 1) : sh = [shapeSize sh] := by
  match sh, h with
  | [d], _ => simp [shapeSize]

/-! ### The marginal likelihood objective -/

/-- The negated marginal log-likelihood for a loss with value `L` at the parameters. -/
theorem mll_of_loss (params : PyTree ℝ) (hw : WFTree params) (hp : 0 < p) (θ : Vec p) (hθ : entries params = List.ofFn θ)
    (e : CurvEstimate p) (he : EstimatePsd e) (hk : ∀ r (t : LowRankTerms p r), e ≠ .lowRank t) (G : PyTree ℝ → Except Err ℝ) (L : ℝ)
    (hfull : G params = .ok L) (τ : ℝ) (hτ : 0 < τ) :
    ∃ l, marginalLogLikelihood e { toPriorArgs := ⟨some τ, none⟩, sigma := none } (.ok G) params = .ok l ∧ -l = mllScore θ e L τ := by
  have hsz : numEntries params = p := by rw [← length_entries hw, hθ, List.length_ofFn]
  have hne : params.leaves ≠ [] := by
    intro h0
    have := congrArg List.length hθ
    simp [entries, h0] at this; omega
  have hgs : getSize params = p := by
    rw [← hsz]; exact (((C02_full_flatten params).2 hne).2 hw).symm.trans (length_entries hw)
  have hJ := C34_joint _ { toPriorArgs := ⟨some τ, none⟩, sigma := none } params hw hne τ rfl hτ L hfull
  have hJ' : -(L / (2 * (none : Option ℝ).getD 1)) + logPrior τ (entries params) = -(L / 2) + logPrior τ (List.ofFn θ) := by
    rw [hθ]; norm_num
  cases e with
  | full C =>
    obtain ⟨j, l, g1, g2, g3, -⟩ := C34_full C he { toPriorArgs := ⟨some τ, none⟩, sigma := none } _ params hw hne hgs τ rfl hτ (by norm_num) 1 one_pos L hfull
    refine ⟨l, g2, ?_⟩
    rw [hJ] at g1
    cases g1
    rw [g3, hJ']; rfl
  | diagonal d =>
    obtain ⟨j, l, g1, g2, g3, -⟩ := C34_diagonal d he { toPriorArgs := ⟨some τ, none⟩, sigma := none } _ params hw hne hgs τ rfl hτ (by norm_num) 1 one_pos L hfull
    refine ⟨l, g2, ?_⟩
    rw [hJ] at g1
    cases g1
    rw [g3, hJ']; rfl
  | lowRank t => exact absurd rfl (hk _ t)

theorem mllObjective_ok (net : Net X p) (params : PyTree ℝ) (hw : WFTree params) (hp : 0 < p) (θ : Vec p) (hθ : entries params = List.ofFn θ)
    (loss : (B : ℕ) → HessLossArg B (shapeSize net.shape)) (e : CurvEstimate p) (he : EstimatePsd e)
    (hk : ∀ r (t : LowRankTerms p r), e ≠ .lowRank t) (data : List (X × Arr ℝ)) (pts : List (X × Vec (shapeSize net.shape)))
    (hpts : mapE (fun dp : X × Arr ℝ => do
      let t ← lossTarget net.shape dp.2
      return (dp.1, t)) data = .ok pts) {N : ℕ} (hN : pts.length = N) (xs : Fin N → X)
    (ys : Fin N → Vec (shapeSize net.shape)) (hd : ∀ i : Fin N, pts[i.val]? = some (xs i, ys i)) (L : ℝ)
    (hL : BatchLoss net.fn θ (loss N) xs ys L) (τ : ℝ) (hτ : 0 < τ) :
    mllObjective net params loss e data ⟨some τ, none⟩ = .num ((mllScore θ e L τ : ℝ) : WithTop ℝ) := by
  subst hN
  have hx : ∀ i : Fin pts.length, pts[i.val] = (xs i, ys i) := by
    intro i
    have := hd i
    rw [List.getElem?_eq_getElem i.isLt] at this
    exact Option.some.inj this
  obtain ⟨F, f1, f2⟩ : ∃ F, concatenateModelAndLossFn net.fn (loss pts.length) = .ok (.scalar F) ∧ F (fun i => pts[i]) θ = L := by
    rcases hL with ⟨h1, h2⟩ | ⟨ℓ, h1, h2⟩
    · refine ⟨_, by rw [h1]; rfl, ?_⟩
      rw [h2]
      refine Finset.sum_congr rfl fun i _ => Finset.sum_congr rfl fun k _ => ?_
      simp only [fwd, Fin.getElem_fin, hx i]
    · refine ⟨_, by rw [h1]; rfl, ?_⟩
      rw [h2]
      congr 1
      · funext i; simp only [fwd, Fin.getElem_fin, hx i]
      · funext i; simp only [Fin.getElem_fin, hx i]
  have key : ∃ l, marginalLogLikelihood e { toPriorArgs := ⟨some τ, none⟩, sigma := none } (.ok fun t => do
          let θ ← asParams p t
          return F (fun i : Fin pts.length => pts[i]) θ) params = .ok l ∧ -l = mllScore θ e L τ := by
    obtain ⟨G, hG⟩ : ∃ G : PyTree ℝ → Except Err ℝ, G = fun t => do
          let θ ← asParams p t
          return F (fun i : Fin pts.length => pts[i]) θ := ⟨_, rfl⟩
    rw [← hG]
    have hfull : G params = .ok L := by
      simp only [hG, asParams_eq hθ, ok_bind, f2]; rfl
    exact mll_of_loss params hw hp θ hθ e he hk G L hfull τ hτ
  obtain ⟨l, l1, l2⟩ := key
  simp only [mllObjective, hpts, f1]
  rw [l1, ok_bind, ← l2]
  rfl

theorem lossTargets_ok {N : ℕ} (sh : List ℕ) (xs : Fin N → X) (ys : Fin N → Vec (shapeSize sh)) :
    mapE (fun dp : X × Arr ℝ => do
      let t ← lossTarget sh dp.2
      return (dp.1, t)) (List.ofFn fun i => (xs i, arrOf sh (ys i))) = .ok (List.ofFn fun i => (xs i, ys i)) := by
  refine mapE_ofFn _ _ _ fun i => ?_
  simp only [lossTarget]
  rw [if_pos (by rfl), asVec_arrOf]
  rfl

section
variable (lower : String → String) (rows : A → Except Err (List A)) (points : PyObj A → PyObj A → Except Err (List (X × Arr ℝ)))
  (pushforward predictive objective method : EnumArg) (pr : String) (a : PredictiveArgs X K p) (θ : Vec p) (est e : CurvEstimate p)
  (data : PyObj A) (loss : (B : ℕ) → HessLossArg B (shapeSize a.net.shape)) (options : Dict (CalMethod (PyObj A) (WithTop ℝ))) (kw : GridKwargs)
  {N : ℕ} (xs : Fin N → X)

/-- **C52 (negative log-likelihood, regression).** With the linearised predictive and predictive type `none`, a grid search over the
NLL objective on one batch returns the prior precision chosen from the logarithmic grid by the mean negative log density of the targets
under `N(f(x, θ), diag J_x P_τ⁻¹ J_xᵀ)`, together with the predictive itself.  (`hJ`: no output entry has zero gradient, i.e. every
predictive variance is positive.) -/
theorem C52_nll (h : ApiLinear lower pushforward predictive pr a θ est) (hcls : NoPredictive predictive)
    (ho : convertToEnum lower calibrationObjectiveValues false objective = .ok (.member "nll"))
    (hm : convertToEnum lower calibrationMethodValues true method = .ok (.member "grid_search")) (hn : 0 < kw.gridSize.getD 50)
    (hN : 0 < N) (ys : Fin N → Vec (shapeSize a.net.shape)) (hb : BatchIs points data xs fun i => arrOf a.net.shape (ys i))
    (hJ : ∀ i k, ∃ j, jacobian (a.net.fn (xs i)) θ k j ≠ 0) :
    ∃ q tried set eps R, calibration lower rows points a data loss e predictive pushforward none objective method options kw =
        .ok (⟨some q, none⟩, set, tried) ∧ 0 < q ∧
      ChosenBy (precGrid (kw.logPriorPrecMin.getD (-3)) (kw.logPriorPrecMax.getD 3) (kw.gridSize.getD 50))
        (fun τ => (nllScore a.net.fn θ est xs ys τ : ℝ)) kw.patience q tried ∧
      Draws a.rng (some a.key) a.params eps ∧ LinearPredictive a θ est pr eps R q (set ⟨some q, none⟩) := by
  rw [← isClassification_false_iff] at hcls
  obtain ⟨fns, eps, R, h1, h2, h3⟩ := api_linear h
  obtain ⟨xy, b1, b2⟩ := hb
  obtain ⟨q, tried, c1, c2, c3⟩ := calibration_grid lower rows points a data loss e predictive pushforward none objective method options kw
    .lin fns h1 (.nll false) (by rw [build_objective _ ho, hcls]; rfl) hm b1 _ b2 hn
    (fun τ => ((nllScore a.net.fn θ est xs ys τ : ℝ) : WithTop ℝ)) (fun τ hτ => by
      obtain ⟨D, d1, d2, d3, d4, d5, -⟩ := stacked_predictions hN (h3 τ hτ) xs (fun i => arrOf a.net.shape (ys i)) nllMetric
      rw [stack_targets] at d2
      simp only [objectiveFn, Bool.false_eq_true, if_false, d1, nllMetric, kwArg, d2, d4, d5, ok_bind]
      rw [nll_stacked _ _ _ _ fun i k => Real.sqrt_pos.2 (predVar_pos h hτ (xs i) k (hJ i k))]
      rfl)
  exact ⟨q, tried, _, eps, R q, c1, c3, c2, h2, h3 q c3⟩

/-- **C52 (chi-squared).** The chi-squared objective chooses by the distance of the mean squared standardised residual from 1. -/
theorem C52_chi_squared (h : ApiLinear lower pushforward predictive pr a θ est) (hcls : NoPredictive predictive)
    (ho : convertToEnum lower calibrationObjectiveValues false objective = .ok (.member "chi_squared"))
    (hm : convertToEnum lower calibrationMethodValues true method = .ok (.member "grid_search")) (hn : 0 < kw.gridSize.getD 50)
    (hN : 0 < N) (ys : Fin N → Vec (shapeSize a.net.shape)) (hb : BatchIs points data xs fun i => arrOf a.net.shape (ys i))
    (hJ : ∀ i k, ∃ j, jacobian (a.net.fn (xs i)) θ k j ≠ 0) :
    ∃ q tried set eps R, calibration lower rows points a data loss e predictive pushforward none objective method options kw =
        .ok (⟨some q, none⟩, set, tried) ∧ 0 < q ∧
      ChosenBy (precGrid (kw.logPriorPrecMin.getD (-3)) (kw.logPriorPrecMax.getD 3) (kw.gridSize.getD 50))
        (fun τ => (chi2Score a.net.fn θ est xs ys τ : ℝ)) kw.patience q tried ∧
      Draws a.rng (some a.key) a.params eps ∧ LinearPredictive a θ est pr eps R q (set ⟨some q, none⟩) := by
  rw [← isClassification_false_iff] at hcls
  obtain ⟨fns, eps, R, h1, h2, h3⟩ := api_linear h
  obtain ⟨xy, b1, b2⟩ := hb
  obtain ⟨q, tried, c1, c2, c3⟩ := calibration_grid lower rows points a data loss e predictive pushforward none objective method options kw
    .lin fns h1 .chi2 (by rw [build_objective _ ho, hcls]; rfl) hm b1 _ b2 hn
    (fun τ => ((chi2Score a.net.fn θ est xs ys τ : ℝ) : WithTop ℝ)) (fun τ hτ => by
      obtain ⟨D, d1, d2, d3, d4, d5, -⟩ := stacked_predictions hN (h3 τ hτ) xs (fun i => arrOf a.net.shape (ys i)) chi2Metric
      rw [stack_targets] at d2
      simp only [objectiveFn, d1]
      rw [chi2_stacked _ _ _ _ D d4 d5 d2]
      simp only [Real.sq_sqrt (predVar_pos h hτ (xs _) _ (hJ _ _)).le]
      rfl)
  exact ⟨q, tried, _, eps, R q, c1, c3, c2, h2, h3 q c3⟩

/-- **C52 (negative log-likelihood, classification).** For a classification predictive the NLL objective compares the logits'
predictive with the one-hot encoding of integer labels. -/
theorem C52_nll_classification (h : ApiLinear lower pushforward predictive pr a θ est) (hcls : ¬ NoPredictive predictive)
    (hsh : a.net.shape.length = 1) (ho : convertToEnum lower calibrationObjectiveValues false objective = .ok (.member "nll"))
    (hm : convertToEnum lower calibrationMethodValues true method = .ok (.member "grid_search")) (hn : 0 < kw.gridSize.getD 50)
    (hN : 0 < N) (labels : Fin N → Fin (shapeSize a.net.shape)) (hb : BatchIs points data xs fun i => labelArr (labels i))
    (hJ : ∀ i k, ∃ j, jacobian (a.net.fn (xs i)) θ k j ≠ 0) :
    ∃ q tried set eps R, calibration lower rows points a data loss e predictive pushforward none objective method options kw =
        .ok (⟨some q, none⟩, set, tried) ∧ 0 < q ∧
      ChosenBy (precGrid (kw.logPriorPrecMin.getD (-3)) (kw.logPriorPrecMax.getD 3) (kw.gridSize.getD 50))
        (fun τ => (nllScore a.net.fn θ est xs (fun i k => if k = labels i then 1 else 0) τ : ℝ)) kw.patience q tried ∧
      Draws a.rng (some a.key) a.params eps ∧ LinearPredictive a θ est pr eps R q (set ⟨some q, none⟩) := by
  rw [← isClassification_true_iff] at hcls
  obtain ⟨fns, eps, R, h1, h2, h3⟩ := api_linear h
  obtain ⟨xy, b1, b2⟩ := hb
  obtain ⟨q, tried, c1, c2, c3⟩ := calibration_grid lower rows points a data loss e predictive pushforward none objective method options kw
    .lin fns h1 (.nll true) (by rw [build_objective _ ho, hcls]; rfl) hm b1 _ b2 hn
    (fun τ => ((nllScore a.net.fn θ est xs (fun i k => if k = labels i then 1 else 0) τ : ℝ) : WithTop ℝ)) (fun τ hτ => by
      obtain ⟨D, d1, d2, d3, d4, d5, -⟩ := stacked_predictions hN (h3 τ hτ) xs (fun i => labelArr (labels i)) nllClassificationMetric
      have hl : lastDim (ensArr a.net.shape fun i => a.net.fn (xs i) θ) = .ok (shapeSize a.net.shape) := by
        have hsz := oneDim hsh
        generalize (fun i => a.net.fn (xs i) θ) = g
        generalize hc : shapeSize a.net.shape = c at g hsz
        simp [lastDim, ensArr, hsz]
      have ht : oneHotArr (shapeSize a.net.shape) ⟨N :: ((fun i => labelArr (labels i)) (⟨0, hN⟩ : Fin N)).shape,
          (List.ofFn fun i => (labelArr (labels i)).data).flatten⟩ = ensArr a.net.shape (fun i k => if k = labels i then (1 : ℝ) else 0) := by
        have := oneHot_stacked _ labels
        rw [show (⟨N :: ((fun i => labelArr (labels i)) (⟨0, hN⟩ : Fin N)).shape, (List.ofFn fun i => (labelArr (labels i)).data).flatten⟩ : Arr ℝ) =
          ⟨[N], (List.ofFn fun i => (labelArr (labels i)).data).flatten⟩ from rfl, this]
        unfold ensArr
        congr 1
        rw [← oneDim hsh]
      simp only [objectiveFn, if_true, d1, nllClassificationMetric, kwArg, d2, d4, d5, ok_bind, hl, ht]
      rw [nll_stacked _ _ _ _ fun i k => Real.sqrt_pos.2 (predVar_pos h hτ (xs i) k (hJ i k))]
      rfl)
  exact ⟨q, tried, _, eps, R q, c1, c3, c2, h2, h3 q c3⟩

/-- Calibration by the calibration error with targets from which `correctness` reads the given labels. -/
theorem ece_calibration (h : ApiLinear lower pushforward predictive pr a θ est) (hpr : pr ≠ "none")
    (ho : convertToEnum lower calibrationObjectiveValues false objective = .ok (.member "ece"))
    (hm : convertToEnum lower calibrationMethodValues true method = .ok (.member "grid_search")) (hn : 0 < kw.gridSize.getD 50)
    (hcls : ¬ NoPredictive predictive)
    (hN : 0 < N) (labels : Fin N → Fin (shapeSize a.net.shape)) (ts : Fin N → Arr ℝ) (hb : BatchIs points data xs ts)
    (hts : ∃ tg, asTarget N (shapeSize a.net.shape) ⟨N :: (ts ⟨0, hN⟩).shape, (List.ofFn fun i => (ts i).data).flatten⟩ = .ok tg ∧
      targetLabels tg = .ok fun i => ((labels i).val : ℤ)) :
    ∃ (q : ℝ) (tried : List ℝ) (set : PriorArgs → X → Except Err (Dict (Arr ℝ))) (eps : Fin a.numSamples → Vec p)
        (R : ℝ → Matrix (Fin p) (Fin p) ℝ), calibration lower rows points a data loss e predictive pushforward none objective method options kw =
        .ok (⟨some q, none⟩, set, tried) ∧ 0 < q ∧
      ChosenBy (precGrid (kw.logPriorPrecMin.getD (-3)) (kw.logPriorPrecMax.getD 3) (kw.gridSize.getD 50))
        (fun τ => (eceScore (fun i => a.net.fn (xs i) θ) (fun i => classProbs pr (a.net.fn (xs i) θ) (predCovAt a.net.fn θ est τ (xs i))
          (fun j => a.net.fn (xs i) θ + jacobian (a.net.fn (xs i)) θ *ᵥ (R τ *ᵥ eps j))) labels : ℝ)) kw.patience q tried ∧
      Draws a.rng (some a.key) a.params eps ∧ ∀ τ, 0 < τ → LinearPredictive a θ est pr eps (R τ) τ (set ⟨some τ, none⟩) := by
  rw [← isClassification_true_iff] at hcls
  obtain ⟨fns, eps, R, h1, h2, h3⟩ := api_linear h
  have hu : a.net.shape.length = 1 ∧ (pr = "mc_bridge" ∧ 0 < a.numSamples ∨ pr ∈ ["mean_field_0", "mean_field_1", "mean_field_2"]) := by
    rcases h.usable with h | ⟨h, h', h''⟩ | ⟨h, h', h''⟩
    · exact absurd h hpr
    · exact ⟨h', Or.inl ⟨h, h''⟩⟩
    · exact ⟨h', Or.inr h⟩
  have hc : 0 < shapeSize a.net.shape := (labels ⟨0, hN⟩).pos
  have hens : ∀ m : Fin N → Vec (shapeSize a.net.shape), ensArr a.net.shape m = ⟨[N, shapeSize a.net.shape], (List.ofFn fun i => List.ofFn (m i)).flatten⟩ := by
    intro m
    unfold ensArr
    congr 1
    rw [← oneDim hu.1]
  obtain ⟨xy, b1, b2⟩ := hb
  obtain ⟨q, tried, c1, c2, c3⟩ := calibration_grid lower rows points a data loss e predictive pushforward none objective method options kw
    .lin fns h1 .ece (by rw [build_objective _ ho, hcls]; rfl) hm b1 _ b2 hn
    (fun τ => ((eceScore (fun i => a.net.fn (xs i) θ) (fun i => classProbs pr (a.net.fn (xs i) θ) (predCovAt a.net.fn θ est τ (xs i))
          (fun j => a.net.fn (xs i) θ + jacobian (a.net.fn (xs i)) θ *ᵥ (R τ *ᵥ eps j))) labels : ℝ) : WithTop ℝ)) (fun τ hτ => by
      obtain ⟨D, d1, d2, d3, d4, d5, d6⟩ := stacked_predictions hN (h3 τ hτ) xs ts eceMetric
      simp only [objectiveFn, d1]
      rw [ece_stacked hc _ _ labels (fun i k => classProbs_range pr _ _ _ hu.2 k) D (by rw [d3, hens]) (by rw [d6 hpr, hens]) _ d2 hts]
      rfl)
  exact ⟨q, tried, _, eps, R, c1, c3, c2, h2, h3⟩

/-- **C52 (expected calibration error).** For the classification predictives the ECE objective chooses by the expected calibration
error of the predictive's own class probabilities; correctness is that of the network output.  Labels are integers or one-hot. -/
theorem C52_ece (h : ApiLinear lower pushforward predictive pr a θ est) (hpr : pr ≠ "none")
    (ho : convertToEnum lower calibrationObjectiveValues false objective = .ok (.member "ece"))
    (hm : convertToEnum lower calibrationMethodValues true method = .ok (.member "grid_search")) (hn : 0 < kw.gridSize.getD 50)
    (hcls : ¬ NoPredictive predictive)
    (hN : 0 < N) (labels : Fin N → Fin (shapeSize a.net.shape))
    (hb : BatchIs points data xs (fun i => labelArr (labels i)) ∨
      BatchIs points data xs fun i => arrOf a.net.shape fun k => if k = labels i then 1 else 0) :
    ∃ (q : ℝ) (tried : List ℝ) (set : PriorArgs → X → Except Err (Dict (Arr ℝ))) (eps : Fin a.numSamples → Vec p)
        (R : ℝ → Matrix (Fin p) (Fin p) ℝ), calibration lower rows points a data loss e predictive pushforward none objective method options kw =
        .ok (⟨some q, none⟩, set, tried) ∧ 0 < q ∧
      ChosenBy (precGrid (kw.logPriorPrecMin.getD (-3)) (kw.logPriorPrecMax.getD 3) (kw.gridSize.getD 50))
        (fun τ => (eceScore (fun i => a.net.fn (xs i) θ) (fun i => classProbs pr (a.net.fn (xs i) θ) (predCovAt a.net.fn θ est τ (xs i))
          (fun j => a.net.fn (xs i) θ + jacobian (a.net.fn (xs i)) θ *ᵥ (R τ *ᵥ eps j))) labels : ℝ)) kw.patience q tried ∧
      Draws a.rng (some a.key) a.params eps ∧ ∀ τ, 0 < τ → LinearPredictive a θ est pr eps (R τ) τ (set ⟨some τ, none⟩) := by
  have hu : a.net.shape.length = 1 := by
    rcases h.usable with h | ⟨h, h', h''⟩ | ⟨h, h', h''⟩
    · exact absurd h hpr
    · exact h'
    · exact h'
  have hc : 0 < shapeSize a.net.shape := (labels ⟨0, hN⟩).pos
  rcases hb with hb | hb
  · exact ece_calibration lower rows points pushforward predictive objective method pr a θ est e data loss options kw xs h hpr ho hm hn hcls hN labels _ hb
      (asTarget_labels hc labels _ (Or.inl rfl))
  · refine ece_calibration lower rows points pushforward predictive objective method pr a θ est e data loss options kw xs h hpr ho hm hn hcls hN labels _ hb
      (asTarget_labels hc labels _ (Or.inr ?_))
    unfold arrOf
    congr 1
    rw [← oneDim hu]

theorem asTarget_column {N c : ℕ} (hc : 0 < c) (t : Arr ℝ) (ht : t.shape = [N, 1]) :
    ∃ tg : Target N c, asTarget N c t = .ok tg ∧ targetLabels tg = .ok fun _ => (((⟨0, hc⟩ : Fin c).val : ℕ) : ℤ) := by
  have one : ∀ z : Vec 1, ((jnpArgmax z).map fun k => (k.val : ℤ)).getD 0 = 0 := by
    intro z
    obtain ⟨k, hk⟩ : ∃ k, jnpArgmax z = some k := by
      obtain ⟨k, h, -⟩ := jnpArgmax_some one_pos z
      exact ⟨k, h⟩
    rw [hk]
    have : k = 0 := Subsingleton.elim _ _
    simp [this]
  rw [asTarget, if_neg (by rw [ht]; simp)]
  by_cases h1 : c = 1
  · subst h1
    rw [if_pos ht]
    refine ⟨_, rfl, ?_⟩
    simp only [targetLabels, one]
    rfl
  · rw [if_neg (by rw [ht]; simp; omega)]
    simp only [ht, ne_eq, not_true_eq_false, if_false, one_ne_zero]
    refine ⟨_, rfl, ?_⟩
    simp only [targetLabels, one]
    rfl

/-- **C77 (column labels in calibration).** With integer labels stored as a column (per-point targets of shape `[1]`) the ECE objective does not look
at the labels: it runs, and chooses the precision as if every data point belonged to class 0. -/
theorem C77_ece_column_labels (h : ApiLinear lower pushforward predictive pr a θ est) (hpr : pr ≠ "none")
    (ho : convertToEnum lower calibrationObjectiveValues false objective = .ok (.member "ece"))
    (hm : convertToEnum lower calibrationMethodValues true method = .ok (.member "grid_search")) (hn : 0 < kw.gridSize.getD 50)
    (hcls : ¬ NoPredictive predictive)
    (hN : 0 < N) (hc : 0 < shapeSize a.net.shape) (labels : Fin N → Fin (shapeSize a.net.shape))
    (hb : BatchIs points data xs (fun i => ⟨[1], [((labels i).val : ℝ)]⟩)) :
    ∃ (q : ℝ) (tried : List ℝ) (set : PriorArgs → X → Except Err (Dict (Arr ℝ))) (eps : Fin a.numSamples → Vec p)
        (R : ℝ → Matrix (Fin p) (Fin p) ℝ), calibration lower rows points a data loss e predictive pushforward none objective method options kw =
        .ok (⟨some q, none⟩, set, tried) ∧ 0 < q ∧
      ChosenBy (precGrid (kw.logPriorPrecMin.getD (-3)) (kw.logPriorPrecMax.getD 3) (kw.gridSize.getD 50))
        (fun τ => (eceScore (fun i => a.net.fn (xs i) θ) (fun i => classProbs pr (a.net.fn (xs i) θ) (predCovAt a.net.fn θ est τ (xs i))
          (fun j => a.net.fn (xs i) θ + jacobian (a.net.fn (xs i)) θ *ᵥ (R τ *ᵥ eps j))) (fun _ => ⟨0, hc⟩) : ℝ)) kw.patience q tried ∧
      Draws a.rng (some a.key) a.params eps ∧ ∀ τ, 0 < τ → LinearPredictive a θ est pr eps (R τ) τ (set ⟨some τ, none⟩) :=
  ece_calibration lower rows points pushforward predictive objective method pr a θ est e data loss options kw xs h hpr ho hm hn hcls hN
    (fun _ => ⟨0, hc⟩) _ hb (asTarget_column hc _ rfl)

/-- **C52 (marginal likelihood).** For a dense or diagonal curvature estimate and a scalar loss, the marginal-likelihood objective
chooses by the negative log evidence of the Laplace approximation. -/
theorem C52_marginal_likelihood (h : ApiLinear lower pushforward predictive pr a θ est)
    (ho : convertToEnum lower calibrationObjectiveValues false objective = .ok (.member "marginal_log_likelihood"))
    (hm : convertToEnum lower calibrationMethodValues true method = .ok (.member "grid_search")) (hn : 0 < kw.gridSize.getD 50)
    (he : EstimatePsd e) (hk : ∀ r (t : LowRankTerms p r), e ≠ .lowRank t)
    (ys : Fin N → Vec (shapeSize a.net.shape)) (hb : BatchIs points data xs fun i => arrOf a.net.shape (ys i)) (L : ℝ)
    (hL : BatchLoss a.net.fn θ (loss N) xs ys L) :
    ∃ q tried set eps R, calibration lower rows points a data loss e predictive pushforward none objective method options kw =
        .ok (⟨some q, none⟩, set, tried) ∧ 0 < q ∧
      ChosenBy (precGrid (kw.logPriorPrecMin.getD (-3)) (kw.logPriorPrecMax.getD 3) (kw.gridSize.getD 50))
        (fun τ => (mllScore θ e L τ : ℝ)) kw.patience q tried ∧
      Draws a.rng (some a.key) a.params eps ∧ LinearPredictive a θ est pr eps R q (set ⟨some q, none⟩) := by
  obtain ⟨fns, eps, R, h1, h2, h3⟩ := api_linear h
  obtain ⟨xy, b1, b2⟩ := hb
  obtain ⟨q, tried, c1, c2, c3⟩ := calibration_grid lower rows points a data loss e predictive pushforward none objective method options kw
    .lin fns h1 .mll (by rw [build_objective _ ho]; cases isClassification predictive <;> rfl) hm b1 _ b2 hn
    (fun τ => ((mllScore θ e L τ : ℝ) : WithTop ℝ)) (fun τ hτ => by
      simp only [objectiveFn]
      rw [mllObjective_ok a.net a.params h.wf h.nonempty θ h.params loss e he hk _ _ (lossTargets_ok a.net.shape xs ys) (by simp) xs ys (by simp) L hL τ hτ]
      rfl)
  exact ⟨q, tried, _, eps, R q, c1, c3, c2, h2, h3 q c3⟩

/-- **C52 (without patience).** Without `patience` the whole grid is tried and the returned precision is the first best of all. -/
theorem C52_without_patience {grid : List ℝ} {score : ℝ → WithTop ℝ} {q : ℝ} {tried : List ℝ} (h : ChosenBy grid score none q tried) :
    tried = grid ∧ BestOf grid score q := best_of_chosen h

/-- **C52 (range).** Whatever the score, the chosen precision lies between `10^lo` and `10^hi`. -/
theorem C52_range {lo hi : ℝ} (hlh : lo ≤ hi) {n : ℕ} {score : ℝ → WithTop ℝ} {patience : Option Int} {q : ℝ} {tried : List ℝ}
    (h : ChosenBy (precGrid lo hi n) score patience q tried) : (10 : ℝ) ^ lo ≤ q ∧ q ≤ (10 : ℝ) ^ hi := by
  obtain ⟨m, i, h1, h2, h3, h4, h5, h6, h7⟩ := h
  have hin : i < n := by simp [precGrid] at h2; omega
  have hq : q = (10 : ℝ) ^ (lo + (i : ℝ) * ((hi - lo) / ((n : ℝ) - 1))) := by
    simp [precGrid, hin] at h6; exact h6.symm
  have hi1 : (i : ℝ) ≤ (n : ℝ) - 1 := by
    have : ((i + 1 : ℕ) : ℝ) ≤ n := by exact_mod_cast hin
    push_cast at this; linarith
  have hi0 : (0 : ℝ) ≤ i := Nat.cast_nonneg i
  have hd : 0 ≤ hi - lo := by linarith
  have e1 : 0 ≤ (i : ℝ) * ((hi - lo) / ((n : ℝ) - 1)) := mul_nonneg hi0 (div_nonneg hd (by linarith))
  have e2 : (i : ℝ) * ((hi - lo) / ((n : ℝ) - 1)) ≤ hi - lo := by
    rcases eq_or_lt_of_le (show (0 : ℝ) ≤ (n : ℝ) - 1 by linarith) with h0 | h0
    · rw [← h0]; simpa using hd
    · calc (i : ℝ) * ((hi - lo) / ((n : ℝ) - 1)) ≤ ((n : ℝ) - 1) * ((hi - lo) / ((n : ℝ) - 1)) :=
            mul_le_mul_of_nonneg_right hi1 (div_nonneg hd h0.le)
        _ = hi - lo := by field_simp
  rw [hq]
  constructor <;> apply Real.rpow_le_rpow_of_exponent_le (by norm_num) <;> linarith

/-- If every candidate fails with `ValueError`, the search returns the first one. -/
theorem chosen_all_top {xs : List ℝ} {patience : Option Int} {q : ℝ} {tried : List ℝ} (h : ChosenBy xs (fun _ => ⊤) patience q tried) :
    xs[0]? = some q := by
  obtain ⟨n, i, h1, h2, h3, h4, h5, h6, h7⟩ := h
  rcases Nat.eq_zero_or_pos i with h0 | h0
  · rw [← h0]; exact h6
  · exact absurd (h5.2.2 0 h0) (lt_irrefl _)

theorem precGrid_head (lo hi : ℝ) (n : ℕ) (hn : 0 < n) : (precGrid lo hi n)[0]? = some ((10 : ℝ) ^ lo) := by
  simp [precGrid, hn]

/-- **C52 (finding: a silent failure).** If the targets do not have the shape of the outputs (say `(n,)` for outputs `(n, 1)`), the
NLL objective raises `ValueError` for every candidate, which counts as `inf`: calibration returns the smallest precision of the grid
without any error. -/
theorem C52_shape_mismatch_silent (h : ApiLinear lower pushforward predictive pr a θ est) (hcls : NoPredictive predictive)
    (ho : convertToEnum lower calibrationObjectiveValues false objective = .ok (.member "nll"))
    (hm : convertToEnum lower calibrationMethodValues true method = .ok (.member "grid_search")) (hn : 0 < kw.gridSize.getD 50)
    (hN : 0 < N) (ts : Fin N → Arr ℝ) (hb : BatchIs points data xs ts) (hts : ∀ i, (ts i).shape ≠ a.net.shape) :
    ∃ tried set, calibration lower rows points a data loss e predictive pushforward none objective method options kw =
        .ok (⟨some ((10 : ℝ) ^ kw.logPriorPrecMin.getD (-3)), none⟩, set, tried) := by
  rw [← isClassification_false_iff] at hcls
  obtain ⟨fns, eps, R, h1, h2, h3⟩ := api_linear h
  obtain ⟨xy, b1, b2⟩ := hb
  obtain ⟨q, tried, c1, c2, c3⟩ := calibration_grid lower rows points a data loss e predictive pushforward none objective method options kw
    .lin fns h1 (.nll false) (by rw [build_objective _ ho, hcls]; rfl) hm b1 _ b2 hn (fun _ => ⊤) (fun τ hτ => by
      obtain ⟨D, d1, d2, d3, d4, d5, -⟩ := stacked_predictions hN (h3 τ hτ) xs ts nllMetric
      simp only [objectiveFn, Bool.false_eq_true, if_false, d1, nllMetric, kwArg, d2, d4, d5, ok_bind]
      rw [(C32_shape_mismatch _ _ _ true ?_).1]
      · rfl
      · intro hh
        have := hh.2
        simp only [Arr.toNd, ensArr, List.cons.injEq, true_and] at this
        exact hts _ this.symm)
  have := chosen_all_top c2
  rw [precGrid_head _ _ _ hn] at this
  cases this
  exact ⟨tried, _, c1⟩

/-- **C52 (finding: one-hot labels).** The NLL objective for classification encodes the targets itself; targets that are one-hot
already make every candidate fail, and calibration silently returns the smallest precision of the grid. -/
theorem C52_one_hot_labels_silent (h : ApiLinear lower pushforward predictive pr a θ est) (hcls : ¬ NoPredictive predictive)
    (hsh : a.net.shape.length = 1) (ho : convertToEnum lower calibrationObjectiveValues false objective = .ok (.member "nll"))
    (hm : convertToEnum lower calibrationMethodValues true method = .ok (.member "grid_search")) (hn : 0 < kw.gridSize.getD 50)
    (hN : 0 < N) (ts : Fin N → Arr ℝ) (hb : BatchIs points data xs ts) (hts : ∀ i, (ts i).shape = a.net.shape) :
    ∃ tried set, calibration lower rows points a data loss e predictive pushforward none objective method options kw =
        .ok (⟨some ((10 : ℝ) ^ kw.logPriorPrecMin.getD (-3)), none⟩, set, tried) := by
  rw [← isClassification_true_iff] at hcls
  obtain ⟨fns, eps, R, h1, h2, h3⟩ := api_linear h
  obtain ⟨xy, b1, b2⟩ := hb
  obtain ⟨q, tried, c1, c2, c3⟩ := calibration_grid lower rows points a data loss e predictive pushforward none objective method options kw
    .lin fns h1 (.nll true) (by rw [build_objective _ ho, hcls]; rfl) hm b1 _ b2 hn (fun _ => ⊤) (fun τ hτ => by
      obtain ⟨D, d1, d2, d3, d4, d5, -⟩ := stacked_predictions hN (h3 τ hτ) xs ts nllClassificationMetric
      have hl : ∃ c, lastDim (ensArr a.net.shape fun i => a.net.fn (xs i) θ) = .ok c := by
        have hg : ∃ c, (N :: a.net.shape).getLast? = some c := ⟨_, List.getLast?_eq_some_getLast (by simp)⟩
        obtain ⟨c, hg⟩ := hg
        exact ⟨c, by simp only [lastDim, ensArr, hg]⟩
      obtain ⟨c, hl⟩ := hl
      simp only [objectiveFn, if_true, d1, nllClassificationMetric, kwArg, d2, d4, d5, ok_bind, hl]
      rw [(C32_shape_mismatch _ _ _ true ?_).1]
      · rfl
      · intro hh
        have := congrArg List.length hh.2
        simp only [Arr.toNd, ensArr, oneHotArr, List.length_append, List.length_cons, List.length_nil, hts] at this
        omega)
  have := chosen_all_top c2
  rw [precGrid_head _ _ _ hn] at this
  cases this
  exact ⟨tried, _, c1⟩

theorem gridSearch_first_error {P : Type} (obj : P → ObjRes (WithTop ℝ)) (patience : Option Int) (x : P) (xs : List P) (err : Err)
    (h : evalObjective (obj x) = .error err) : gridSearch (x :: xs) obj patience none = .error err := by
  simp [gridSearch, gridLoop, h]; rfl

/-- A calibration whose objective fails on the first candidate fails with that error. -/
theorem calibration_grid_error (kind : PfKind) (fs : List PfName) (fns : Option (List PfName))
    (hset : setupPushforward lower pushforward predictive fns = .ok (kind, fs))
    (o : Objective) (ho : buildCalibrationObjective lower objective false false false false false (isClassification predictive) = .ok o)
    (hm : convertToEnum lower calibrationMethodValues true method = .ok (.member "grid_search"))
    {xy : PyObj A × PyObj A} (hb : BatchOf data xy) (pts : List (X × Arr ℝ)) (hp : points xy.1 xy.2 = .ok pts)
    (hn : 0 < kw.gridSize.getD 50) (err : Err)
    (hs : ∀ τ, 0 < τ → evalObjective (objectiveFn a (setPushforward a kind fs) loss e o pts ⟨some τ, none⟩) = .error err) :
    calibration lower rows points a data loss e predictive pushforward fns objective method options kw = .error err := by
  obtain ⟨tr, d, t1, t2, t3⟩ := batch_points hb rows points pts hp
  have hh := precGrid_head (kw.logPriorPrecMin.getD (-3)) (kw.logPriorPrecMax.getD 3) _ hn
  simp only [calibration, hset, ok_bind, ho, hm, if_true, t1, t2, optimizePriorPrec, jnpLogspace_eq]
  have hpos : (0 : ℝ) < (10 : ℝ) ^ (kw.logPriorPrecMin.getD (-3)) := Real.rpow_pos_of_pos (by norm_num) _
  cases hg : precGrid (kw.logPriorPrecMin.getD (-3)) (kw.logPriorPrecMax.getD 3) (kw.gridSize.getD 50) with
  | nil => rw [hg] at hh; simp at hh
  | cons x g =>
    rw [hg] at hh
    simp at hh
    subst hh
    rw [gridSearch_first_error _ _ _ _ err]
    · rfl
    · simp only [onBatch, t3]
      exact hs _ hpos

/-- **C52 (finding: evidence with the built-in classification loss).** With loss `"cross_entropy"` the combined function returns one
value per output entry, so the marginal-likelihood objective returns an array and calibration raises `ValueError`. -/
theorem C52_cross_entropy_evidence_raises (h : ApiLinear lower pushforward predictive pr a θ est)
    (ho : convertToEnum lower calibrationObjectiveValues false objective = .ok (.member "marginal_log_likelihood"))
    (hm : convertToEnum lower calibrationMethodValues true method = .ok (.member "grid_search")) (hn : 0 < kw.gridSize.getD 50)
    (ys : Fin N → Vec (shapeSize a.net.shape)) (hb : BatchIs points data xs fun i => arrOf a.net.shape (ys i))
    (hL : ∀ B, loss B = .name "cross_entropy") (h2 : 1 < N * shapeSize a.net.shape) :
    calibration lower rows points a data loss e predictive pushforward none objective method options kw = .error .valueError := by
  obtain ⟨fns, eps, R, h1, -, -⟩ := api_linear h
  obtain ⟨xy, b1, b2⟩ := hb
  refine calibration_grid_error lower rows points pushforward predictive objective method a e data loss options kw .lin fns none h1 .mll
    (by rw [build_objective _ ho]; cases isClassification predictive <;> rfl) hm b1 _ b2 hn _ fun τ hτ => ?_
  have hc : ∀ B, ∃ g, concatenateModelAndLossFn (B := B) a.net.fn (loss B) = .ok (.array g) := by
    intro B; rw [hL]; exact ⟨_, rfl⟩
  simp only [objectiveFn, mllObjective, lossTargets_ok]
  obtain ⟨g, hg⟩ := hc (List.ofFn fun i => (xs i, ys i)).length
  rw [hg]
  simp only [List.length_ofFn, h2, if_true]
  rfl

/-- The selected sampled predictive, for all prior precisions at once. -/
theorem api_nonlinear {lower : String → String} {pushforward predictive : EnumArg} {pr : String} {a : PredictiveArgs X K p}
    {θ : Vec p} {est : CurvEstimate p} (h : ApiNonlinear lower pushforward predictive pr a θ est) :
    ∃ (fns : List PfName) (eps : Fin a.numSamples → Vec p) (R : ℝ → Matrix (Fin p) (Fin p) ℝ),
      setupPushforward lower pushforward predictive none = .ok (.nonlin, fns) ∧ Draws a.rng (some a.key) a.params eps ∧
      ∀ τ, 0 < τ → SampledPredictive a θ est pr eps (R τ) τ (setPushforward a .nonlin fns ⟨some τ, none⟩) := by
  obtain ⟨fns, eps, h1, h2, h3⟩ := C51_nonlinear_predictive lower pushforward predictive pr h.pushforward h.predictive a h.rng h.nonempty
    h.wf θ h.params est h.psd h.posterior h.samples h.usable
  have h4 : ∀ τ : ℝ, ∃ R : Matrix (Fin p) (Fin p) ℝ, 0 < τ →
      SampledPredictive a θ est pr eps R τ (setPushforward a .nonlin fns ⟨some τ, none⟩) := by
    intro τ
    by_cases hτ : 0 < τ
    · obtain ⟨P, R, rfl, e1, e2, e3⟩ := h3 ⟨some τ, none⟩ τ rfl hτ (by norm_num)
      exact ⟨R, fun _ => ⟨e2, e3⟩⟩
    · exact ⟨0, fun h => absurd h hτ⟩
  choose R hR using h4
  exact ⟨fns, eps, R, h1, h2, hR⟩

theorem apiNonlinExpected_isSome {S c : ℕ} (sh : List ℕ) (f f' : Fin c → ℝ) (s s' : Fin S → Fin c → ℝ)
    (pr key : String) (h : (apiNonlinExpected sh f s pr key).isSome) : (apiNonlinExpected sh f' s' pr key).isSome := by
  unfold apiNonlinExpected at *
  split_ifs at * <;> simp_all

/-- **C52 (sampled predictive).** The NLL objective with the sampled (nonlinear) predictive scores the ensemble `f(x, θ + R_τ ε_j)`, as
long as its standard deviations are positive. -/
theorem C52_nll_nonlinear (h : ApiNonlinear lower pushforward predictive pr a θ est) (hcls : NoPredictive predictive)
    (ho : convertToEnum lower calibrationObjectiveValues false objective = .ok (.member "nll"))
    (hm : convertToEnum lower calibrationMethodValues true method = .ok (.member "grid_search")) (hn : 0 < kw.gridSize.getD 50)
    (hN : 0 < N) (ys : Fin N → Vec (shapeSize a.net.shape)) (hb : BatchIs points data xs fun i => arrOf a.net.shape (ys i)) :
    ∃ (eps : Fin a.numSamples → Vec p) (R : ℝ → Matrix (Fin p) (Fin p) ℝ) (set : PriorArgs → X → Except Err (Dict (Arr ℝ))),
      Draws a.rng (some a.key) a.params eps ∧ (∀ τ, 0 < τ → SampledPredictive a θ est pr eps (R τ) τ (set ⟨some τ, none⟩)) ∧
      ((∀ τ, 0 < τ → ∀ i k, 0 < ensCov (fun j => a.net.fn (xs i) (θ + R τ *ᵥ eps j)) 0 k k) →
        ∃ q tried, calibration lower rows points a data loss e predictive pushforward none objective method options kw =
            .ok (⟨some q, none⟩, set, tried) ∧ 0 < q ∧
          ChosenBy (precGrid (kw.logPriorPrecMin.getD (-3)) (kw.logPriorPrecMax.getD 3) (kw.gridSize.getD 50))
            (fun τ => (ensNllScore (fun i j => a.net.fn (xs i) (θ + R τ *ᵥ eps j)) ys : ℝ)) kw.patience q tried) := by
  rw [← isClassification_false_iff] at hcls
  obtain ⟨fns, eps, R, h1, h2, h3⟩ := api_nonlinear h
  refine ⟨eps, R, _, h2, h3, fun hpos => ?_⟩
  obtain ⟨xy, b1, b2⟩ := hb
  obtain ⟨q, tried, c1, c2, c3⟩ := calibration_grid lower rows points a data loss e predictive pushforward none objective method options kw
    .nonlin fns h1 (.nll false) (by rw [build_objective _ ho, hcls]; rfl) hm b1 _ b2 hn
    (fun τ => ((ensNllScore (fun i j => a.net.fn (xs i) (θ + R τ *ᵥ eps j)) ys : ℝ) : WithTop ℝ)) (fun τ hτ => by
      obtain ⟨D, d1, d2⟩ := evaluate_ok hN xs (fun i => arrOf a.net.shape (ys i)) (setPushforward a .nonlin fns) nllMetric ⟨some τ, none⟩
        (fun i key => apiNonlinExpected a.net.shape (a.net.fn (xs i) θ) (fun j => a.net.fn (xs i) (θ + R τ *ᵥ eps j)) pr key)
        (fun k i j hi => apiNonlinExpected_isSome _ _ _ _ _ _ _ hi) (fun i => (h3 τ hτ).2 (xs i))
      have e1 : D.get? "target" = some (ensArr a.net.shape ys) := by rw [d2, if_pos rfl]; rfl
      have e2 : D.get? "pred_mean" = some (ensArr a.net.shape fun i => ensMean fun j => a.net.fn (xs i) (θ + R τ *ᵥ eps j)) := by
        rw [d2, if_neg (by decide)]; simp [apiNonlinExpected, arrOf, ensArr]
      have e3 : D.get? "pred_std" = some (ensArr a.net.shape fun i k => Real.sqrt (ensCov (fun j => a.net.fn (xs i) (θ + R τ *ᵥ eps j)) 0 k k)) := by
        rw [d2, if_neg (by decide)]; simp [apiNonlinExpected, arrOf, ensArr]
      simp only [objectiveFn, Bool.false_eq_true, if_false, d1, nllMetric, kwArg, e1, e2, e3, ok_bind]
      rw [nll_stacked _ _ _ _ fun i k => Real.sqrt_pos.2 (hpos τ hτ i k)]
      rfl)
  exact ⟨q, tried, c1, c3, c2⟩

/-- **C52 (finding: ECE needs the linear pushforward).** The nonlinear predictive never holds `pred_act`, so calibrating it with the
ECE objective always raises `TypeError`. -/
theorem C52_ece_nonlinear_raises (h : ApiNonlinear lower pushforward predictive pr a θ est) (hcls : ¬ NoPredictive predictive)
    (ho : convertToEnum lower calibrationObjectiveValues false objective = .ok (.member "ece"))
    (hm : convertToEnum lower calibrationMethodValues true method = .ok (.member "grid_search")) (hn : 0 < kw.gridSize.getD 50)
    (hN : 0 < N) (ts : Fin N → Arr ℝ) (hb : BatchIs points data xs ts) :
    calibration lower rows points a data loss e predictive pushforward none objective method options kw = .error .typeError := by
  rw [← isClassification_true_iff] at hcls
  obtain ⟨fns, eps, R, h1, h2, h3⟩ := api_nonlinear h
  obtain ⟨xy, b1, b2⟩ := hb
  refine calibration_grid_error lower rows points pushforward predictive objective method a e data loss options kw .nonlin fns none h1 .ece
    (by rw [build_objective _ ho, hcls]; rfl) hm b1 _ b2 hn _ fun τ hτ => ?_
  obtain ⟨D, d1, d2⟩ := evaluate_ok hN xs ts (setPushforward a .nonlin fns) eceMetric ⟨some τ, none⟩
    (fun i key => apiNonlinExpected a.net.shape (a.net.fn (xs i) θ) (fun j => a.net.fn (xs i) (θ + R τ *ᵥ eps j)) pr key)
    (fun k i j hi => apiNonlinExpected_isSome _ _ _ _ _ _ _ hi) (fun i => (h3 τ hτ).2 (xs i))
  have e1 : ∃ v, D.get? "map" = some v := by rw [d2, if_neg (by decide)]; simp [apiNonlinExpected]
  have e2 : D.get? "pred_act" = none := by rw [d2, if_neg (by decide)]; simp [apiNonlinExpected]
  obtain ⟨v, e1⟩ := e1
  simp only [objectiveFn, d1, eceMetric, kwArg, e1, e2, ok_bind]
  rfl

/-- **C52 (unreadable batch).** When the inputs and targets of the batch cannot be read as data points, the exception is raised by
the objective: a `ValueError` counts as an infinite score, so calibration succeeds and returns the first grid point; any other
exception propagates. -/
theorem C52_unreadable_batch (kind : PfKind) (fs : List PfName) (fns : Option (List PfName))
    (hset : setupPushforward lower pushforward predictive fns = .ok (kind, fs))
    (o : Objective) (ho : buildCalibrationObjective lower objective false false false false false (isClassification predictive) = .ok o)
    (hm : convertToEnum lower calibrationMethodValues true method = .ok (.member "grid_search"))
    {xy : PyObj A × PyObj A} (hb : BatchOf data xy) (hn : 0 < kw.gridSize.getD 50) :
    (points xy.1 xy.2 = .error .valueError → ∃ tried set,
      calibration lower rows points a data loss e predictive pushforward fns objective method options kw =
        .ok (⟨some ((10 : ℝ) ^ (kw.logPriorPrecMin.getD (-3))), none⟩, set, tried)) ∧
    (∀ err, err ≠ .valueError → points xy.1 xy.2 = .error err →
      calibration lower rows points a data loss e predictive pushforward fns objective method options kw = .error err) := by
  obtain ⟨tr, d, t1, t2, t3⟩ : ∃ tr d, data.validateAndGetTransform rows = .ok tr ∧ tr data = .ok d ∧ batchPoints points d = points xy.1 xy.2 := by
    cases hb with
    | pair x y => exact ⟨_, _, rfl, rfl, rfl⟩
    | mapping kvs x y hx hy =>
      refine ⟨fun d => .ok d, .dct kvs, by simp [PyObj.validateAndGetTransform, Dict.mem, hx, hy], rfl, ?_⟩
      simp only [batchPoints, PyObj.field, Dict.getE, hx, hy, ok_bind]
  have hh := precGrid_head (kw.logPriorPrecMin.getD (-3)) (kw.logPriorPrecMax.getD 3) _ hn
  refine ⟨fun he => ?_, fun err hne he => ?_⟩
  · obtain ⟨q, tried, g1, g2⟩ := chosen_of_search (precGrid (kw.logPriorPrecMin.getD (-3)) (kw.logPriorPrecMax.getD 3) (kw.gridSize.getD 50))
      (by intro h; rw [h] at hh; simp at hh)
      (fun q => onBatch points (objectiveFn a (setPushforward a kind fs) loss e o) ⟨some q, none⟩ d) kw.patience (fun _ => ⊤)
      (fun q hq => by simp only [onBatch, t3, he]; rfl)
    have := chosen_all_top g2
    rw [hh] at this
    cases this
    refine ⟨tried, setPushforward a kind fs, ?_⟩
    simp only [calibration, hset, ok_bind, ho, hm, if_true, t1, t2, optimizePriorPrec, jnpLogspace_eq, g1]
    rfl
  · simp only [calibration, hset, ok_bind, ho, hm, if_true, t1, t2, optimizePriorPrec, jnpLogspace_eq]
    cases hg : precGrid (kw.logPriorPrecMin.getD (-3)) (kw.logPriorPrecMax.getD 3) (kw.gridSize.getD 50) with
    | nil => rw [hg] at hh; simp at hh
    | cons x g =>
      rw [gridSearch_first_error _ _ _ _ err]
      · rfl
      · simp only [onBatch, t3, he]
        cases err <;> first | rfl | exact absurd rfl hne

/-- **C52 (finding: no iteration limit).** `max_iterations`, which `grid_search` understands, is accepted by `calibration` and has no
effect on anything it returns or tries. -/
theorem C52_max_iterations_ignored (fns : Option (List PfName)) (m : Option Int) :
    calibration lower rows points a data loss e predictive pushforward fns objective method options { kw with maxIterations := m } =
      calibration lower rows points a data loss e predictive pushforward fns objective method options kw := rfl

/-- **C52 (methods).** A method name other than `grid_search` is looked up among the registered methods: a registered one gets the
objective and the batch and its result is returned unchanged, together with the predictive setter; an unknown one raises
`ValueError`; something that is no string raises `AttributeError`.  Data that is not one batch raises `ValueError`. -/
theorem C52_methods (kind : PfKind) (fs : List PfName) (fns : Option (List PfName))
    (hset : setupPushforward lower pushforward predictive fns = .ok (kind, fs))
    (o : Objective) (ho : buildCalibrationObjective lower objective false false false false false (isClassification predictive) = .ok o) :
    (∀ s f tr d, lower s ∉ calibrationMethodValues → options.get? s = some f → data.validateAndGetTransform rows = .ok tr → tr data = .ok d →
      calibration lower rows points a data loss e predictive pushforward fns objective (.str s) options kw =
        (f (onBatch points (objectiveFn a (setPushforward a kind fs) loss e o)) d).map fun r => (r, setPushforward a kind fs, [])) ∧
    (∀ s, lower s ∉ calibrationMethodValues → options.get? s = none →
      calibration lower rows points a data loss e predictive pushforward fns objective (.str s) options kw = .error .valueError) ∧
    calibration lower rows points a data loss e predictive pushforward fns objective .other options kw = .error .attributeError ∧
    (convertToEnum lower calibrationMethodValues true method = .ok (.member "grid_search") → ∀ err, data.validateAndGetTransform rows = .error err →
      calibration lower rows points a data loss e predictive pushforward fns objective method options kw = .error err) := by
  refine ⟨fun s f tr d hs hf h1 h2 => ?_, fun s hs hf => ?_, ?_, fun hm err herr => ?_⟩
  · simp only [calibration, hset, ok_bind, ho, convertToEnum, hs, if_false, if_true, hf, h1, h2]
    rw [if_neg (by simp)]
    cases f (onBatch points (objectiveFn a (setPushforward a kind fs) loss e o)) d <;> rfl
  · simp only [calibration, hset, ok_bind, ho, convertToEnum, hs, if_false, if_true, hf]
    rw [if_neg (by simp)]
  · simp only [calibration, hset, ok_bind, ho, convertToEnum, error_bind]
  · simp only [calibration, hset, ok_bind, ho, hm, if_true, herr, error_bind]

end

/-! ### Non-vacuity -/

/-- Two inputs and their two-dimensional targets, given as lists of numbers.  -/
def testPoints : PyObj (List ℝ) → PyObj (List ℝ) → Except Err (List (ℝ × Arr ℝ))
  | .arr [x, x'], .arr [a, b, c, d] => .ok [(x, ⟨[2], [a, b]⟩), (x', ⟨[2], [c, d]⟩)]
  | _, _ => .error .valueError

/-- The arguments of the example: a two-output network, two parameters, three samples, a full curvature estimate. -/
noncomputable def testArgs : PredictiveArgs ℝ Unit 2 :=
  ⟨testRng, testNet, testMean, fun a s => setPosteriorFn (.full !![2, 2; 2, 2]) (.tree testMean) a s, fun _ _ _ _ => .error .typeError, (), 3⟩

theorem test_apiLinear : ApiLinear (fun s => if s = "Linear" then "linear" else s) (.str "Linear") (.member "none") "none" testArgs ![3, 5]
    (.full !![2, 2; 2, 2]) where
  pushforward := rfl
  predictive := rfl
  rng := testRng_ok
  nonempty := by norm_num
  wf := testMean_wf
  params := by simp [testArgs, testMean, entries, Tree.leaves, Tree.leavesL]
  psd := test_psd
  posterior := rfl
  usable := Or.inl rfl

theorem test_batch : BatchIs testPoints (.tup [.arr [1, 2], .arr [4, 5, 6, 7]]) ![1, 2]
    (fun i => arrOf testArgs.net.shape ((![![4, 5], ![6, 7]] : Fin 2 → Fin 2 → ℝ) i)) :=
  ⟨_, BatchOf.pair _ _, by simp [testPoints, arrOf, testArgs, testNet, List.ofFn_succ]⟩

theorem test_gradient (x : ℝ) (hx : x ≠ 0) (k : Fin 2) : ∃ j, jacobian (testNet.fn x) ![3, 5] k j ≠ 0 := by
  refine ⟨0, ?_⟩
  have h0 : HasFDerivAt (fun v : Vec 2 => v 0) (ContinuousLinearMap.proj 0 : Vec 2 →L[ℝ] ℝ) ![3, 5] := hasFDerivAt_apply 0 _
  have h1 : HasFDerivAt (fun v : Vec 2 => v 1) (ContinuousLinearMap.proj 1 : Vec 2 →L[ℝ] ℝ) ![3, 5] := hasFDerivAt_apply 1 _
  have hd : HasFDerivAt (testNet.fn x) (ContinuousLinearMap.pi ![(3 : ℝ) • (ContinuousLinearMap.proj 1 : Vec 2 →L[ℝ] ℝ) +
      (5 : ℝ) • ContinuousLinearMap.proj 0, x • (ContinuousLinearMap.proj 0 : Vec 2 →L[ℝ] ℝ)]) ![3, 5] := by
    rw [hasFDerivAt_pi']
    intro i
    fin_cases i
    · exact (h0.mul h1).congr_fderiv (by ext v; simp; rfl)
    · exact (h0.const_mul x).congr_fderiv (by ext v; simp; rfl)
  show fderiv ℝ (testNet.fn x) ![3, 5] (Pi.single 0 1) k ≠ 0
  rw [hd.fderiv]
  fin_cases k
  · show (3 : ℝ) * (Pi.single 0 1 : Vec 2) 1 + 5 * (Pi.single 0 1 : Vec 2) 0 ≠ 0
    simp
  · show x * (Pi.single 0 1 : Vec 2) 0 ≠ 0
    simpa using hx

/-- All hypotheses of the NLL theorem are met, and the default grid has 50 points from `10^-3` to `10^3`. -/
example : ∃ q tried set, calibration (fun s => if s = "Linear" then "linear" else s) (fun _ => .error .valueError) testPoints testArgs
      (.tup [.arr [1, 2], .arr [4, 5, 6, 7]]) (fun _ => .name "mse") (.full !![2, 2; 2, 2]) (.member "none") (.str "Linear") none
      (.str "nll") (.str "grid_search") [] {} = .ok (⟨some q, none⟩, set, tried) ∧
    BestOf (precGrid (-3) 3 50) (fun τ => (nllScore testNet.fn ![3, 5] (.full !![2, 2; 2, 2]) ![1, 2] ![![4, 5], ![6, 7]] τ : ℝ)) q ∧
    (10 : ℝ) ^ (-3 : ℝ) ≤ q ∧ q ≤ (10 : ℝ) ^ (3 : ℝ) := by
  obtain ⟨q, tried, set, eps, R, h1, -, h2, -⟩ := C52_nll _ (fun _ => .error .valueError) testPoints (.str "Linear") (.member "none")
    (.str "nll") (.str "grid_search") "none" testArgs ![3, 5] (.full !![2, 2; 2, 2]) (.full !![2, 2; 2, 2])
    (.tup [.arr [1, 2], .arr [4, 5, 6, 7]]) (fun _ => .name "mse") [] {} ![1, 2] test_apiLinear (Or.inl rfl) rfl rfl (by decide) (by norm_num) _
    test_batch (fun i k => by
      apply test_gradient
      fin_cases i <;> simp)
  exact ⟨q, tried, set, h1, (C52_without_patience h2).2, C52_range (by norm_num) h2⟩

/-- The hypotheses of the evidence theorem are met by the same call. -/
example : ∃ q tried set, calibration (fun s => if s = "Linear" then "linear" else s) (fun _ => .error .valueError) testPoints testArgs
      (.tup [.arr [1, 2], .arr [4, 5, 6, 7]]) (fun _ => .name "mse") (.full !![2, 2; 2, 2]) (.member "none") (.str "Linear") none
      (.str "marginal_log_likelihood") (.str "grid_search") [] {} = .ok (⟨some q, none⟩, set, tried) ∧ 0 < q := by
  obtain ⟨q, tried, set, eps, R, h1, h2, -⟩ := C52_marginal_likelihood _ (fun _ => .error .valueError) testPoints (.str "Linear") (.member "none")
    (.str "marginal_log_likelihood") (.str "grid_search") "none" testArgs ![3, 5] (.full !![2, 2; 2, 2]) (.full !![2, 2; 2, 2])
    (.tup [.arr [1, 2], .arr [4, 5, 6, 7]]) (fun _ => .name "mse") [] {} ![1, 2] test_apiLinear rfl rfl (by decide) test_psd
    (fun _ _ => by simp) _ test_batch _ (Or.inl ⟨rfl, rfl⟩)
  exact ⟨q, tried, set, h1, h2⟩

/-- The classification setting: `mc_bridge` with integer labels. -/
theorem test_apiClass : ApiLinear (fun s => s) (.str "linear") (.str "mc_bridge") "mc_bridge" testArgs ![3, 5] (.full !![2, 2; 2, 2]) where
  pushforward := rfl
  predictive := rfl
  rng := testRng_ok
  nonempty := by norm_num
  wf := testMean_wf
  params := by simp [testArgs, testMean, entries, Tree.leaves, Tree.leavesL]
  psd := test_psd
  posterior := rfl
  usable := Or.inr (Or.inl ⟨rfl, rfl, by norm_num [testArgs]⟩)

/-- Inputs with integer labels. -/
def testLabelPoints : PyObj (List ℝ) → PyObj (List ℝ) → Except Err (List (ℝ × Arr ℝ))
  | .arr [x, x'], .arr [a, b] => .ok [(x, ⟨[], [a]⟩), (x', ⟨[], [b]⟩)]
  | _, _ => .error .valueError

/-- The hypotheses of the ECE theorem are met. -/
example : ∃ q tried set, calibration (fun s => s) (fun _ => .error .valueError) testLabelPoints testArgs
      (.dct [("input", .arr [1, 2]), ("target", .arr [1, 0])]) (fun _ => .name "mse") (.full !![2, 2; 2, 2]) (.str "mc_bridge") (.str "linear") none
      (.str "ece") (.str "grid_search") [] {} = .ok (⟨some q, none⟩, set, tried) ∧ 0 < q := by
  obtain ⟨q, tried, set, eps, R, h1, h2, -⟩ := C52_ece (fun s => s) (fun _ => .error .valueError) testLabelPoints (.str "linear") (.str "mc_bridge")
    (.str "ece") (.str "grid_search") "mc_bridge" testArgs ![3, 5] (.full !![2, 2; 2, 2]) (.full !![2, 2; 2, 2])
    (.dct [("input", .arr [1, 2]), ("target", .arr [1, 0])]) (fun _ => .name "mse") [] {} ![1, 2] test_apiClass (by decide) rfl rfl (by decide) (by simp [NoPredictive])
    (by norm_num) (![1, 0] : Fin 2 → Fin 2) (Or.inl ⟨_, BatchOf.mapping _ _ _ rfl rfl, by simp [testLabelPoints, labelArr, List.ofFn_succ]⟩)
  exact ⟨q, tried, set, h1, h2⟩

/-- Inputs with a column of integer labels. -/
def testColumnPoints : PyObj (List ℝ) → PyObj (List ℝ) → Except Err (List (ℝ × Arr ℝ))
  | .arr [x, x'], .arr [a, b] => .ok [(x, ⟨[1], [a]⟩), (x', ⟨[1], [b]⟩)]
  | _, _ => .error .valueError

/-- The hypotheses of the theorem on column labels are met. -/
example : ∃ q tried set, calibration (fun s => s) (fun _ => .error .valueError) testColumnPoints testArgs
      (.dct [("input", .arr [1, 2]), ("target", .arr [1, 0])]) (fun _ => .name "mse") (.full !![2, 2; 2, 2]) (.str "mc_bridge") (.str "linear") none
      (.str "ece") (.str "grid_search") [] {} = .ok (⟨some q, none⟩, set, tried) ∧ 0 < q := by
  obtain ⟨q, tried, set, eps, R, h1, h2, -⟩ := C77_ece_column_labels (fun s => s) (fun _ => .error .valueError) testColumnPoints (.str "linear")
    (.str "mc_bridge") (.str "ece") (.str "grid_search") "mc_bridge" testArgs ![3, 5] (.full !![2, 2; 2, 2]) (.full !![2, 2; 2, 2])
    (.dct [("input", .arr [1, 2]), ("target", .arr [1, 0])]) (fun _ => .name "mse") [] {} ![1, 2] test_apiClass (by decide) rfl rfl (by decide) (by simp [NoPredictive])
    (by norm_num) (show 0 < 2 by norm_num) (![1, 0] : Fin 2 → Fin 2) ⟨_, BatchOf.mapping _ _ _ rfl rfl, by simp [testColumnPoints, List.ofFn_succ]⟩
  exact ⟨q, tried, set, h1, h2⟩

end Laplax.Props
