import Verif.Spec.Order
import Verif.Props.Workflow
import Verif.Props.Invariance

/-! # C69: the order of calibration and test points does not matter -/

namespace Laplax.Props
open Laplax Laplax.Spec
open scoped BigOperators Matrix

variable {X Y K A : Type} {p c : ℕ} {N N' m : ℕ} {π : Fin N' → Fin N}

/-! ### Sums over repeated points -/

theorem sum_eachTimes (h : EachTimes m π) (g : Fin N → ℝ) : ∑ j, g (π j) = m * ∑ i, g i := by
  rw [← Finset.sum_fiberwise Finset.univ π (fun j => g (π j)), Finset.mul_sum]
  refine Finset.sum_congr rfl fun i _ => ?_
  rw [Finset.sum_congr rfl (g := fun _ => g i) (fun j hj => by rw [(Finset.mem_filter.1 hj).2]), Finset.sum_const, h i, nsmul_eq_mul]

theorem count_eachTimes (h : EachTimes m π) : (N' : ℝ) = m * N := by
  have := sum_eachTimes h fun _ => 1
  simpa using this

theorem mean_eachTimes (h : EachTimes m π) (hm : 0 < m) (g : Fin N → ℝ) (d : ℝ) :
    (∑ j, g (π j)) / ((N' : ℝ) * d) = (∑ i, g i) / ((N : ℝ) * d) := by
  have : (m : ℝ) ≠ 0 := by exact_mod_cast hm.ne'
  rw [sum_eachTimes h, count_eachTimes h, mul_assoc, mul_div_mul_left _ _ this]

theorem pos_eachTimes (h : EachTimes m π) (hm : 0 < m) (hN : 0 < N) : 0 < N' := by
  have := count_eachTimes h
  have h2 : (0 : ℝ) < m * N := by exact_mod_cast Nat.mul_pos hm hN
  rw [← this] at h2
  exact_mod_cast h2

theorem eachTimes_perm (σ : Equiv.Perm (Fin N)) : EachTimes 1 σ := by
  intro i
  rw [Finset.card_eq_one]
  exact ⟨σ.symm i, by ext j; simp [Equiv.eq_symm_apply]⟩

/-- The expected calibration error is a function of the empirical distribution of (confidence, correctness). -/
theorem ece_eachTimes (h : EachTimes m π) (hm : 0 < m) (nb : ℕ) (conf corr : Vec N) :
    ece nb (conf ∘ π) (corr ∘ π) = ece nb conf corr := by
  classical
  have hm' : (m : ℝ) ≠ 0 := by exact_mod_cast hm.ne'
  have hs : ∀ (b : ℕ) (v : Vec N), ∑ j ∈ bin nb (conf ∘ π) b, v (π j) = m * ∑ i ∈ bin nb conf b, v i := by
    intro b v
    simp only [bin, Finset.sum_filter]
    exact sum_eachTimes h fun i => if InBin nb b (conf i) then v i else 0
  have hc : ∀ b, ((bin nb (conf ∘ π) b).card : ℝ) = m * (bin nb conf b).card := by
    intro b
    have := hs b fun _ => 1
    simpa using this
  have ha : ∀ (b : ℕ) (v : Vec N), avg (bin nb (conf ∘ π) b) (v ∘ π) = avg (bin nb conf b) v := by
    intro b v
    simp only [avg, Function.comp_apply]
    rw [hs, hc, mul_div_mul_left _ _ hm']
  simp only [ece, gap, ha, hc, count_eachTimes h, mul_div_mul_left _ _ hm']

theorem nllScore_eachTimes (h : EachTimes m π) (hm : 0 < m) (f : X → Vec p → Vec c) (θ : Vec p) (est : CurvEstimate p) (xs : Fin N → X)
    (ys : Fin N → Vec c) (τ : ℝ) : nllScore f θ est (fun j => xs (π j)) (fun j => ys (π j)) τ = nllScore f θ est xs ys τ :=
  mean_eachTimes h hm (fun i => ∑ k, negLogDensity (f (xs i) θ k) (Real.sqrt (predCovAt f θ est τ (xs i) k k)) (ys i k)) c

theorem chi2Score_eachTimes (h : EachTimes m π) (hm : 0 < m) (f : X → Vec p → Vec c) (θ : Vec p) (est : CurvEstimate p) (xs : Fin N → X)
    (ys : Fin N → Vec c) (τ : ℝ) : chi2Score f θ est (fun j => xs (π j)) (fun j => ys (π j)) τ = chi2Score f θ est xs ys τ := by
  simp only [chi2Score]
  rw [mean_eachTimes h hm (fun i => ∑ k, (ys i k - f (xs i) θ k) ^ 2 / predCovAt f θ est τ (xs i) k k) c]

theorem eceScore_eachTimes (h : EachTimes m π) (hm : 0 < m) (out probs probs' : Fin N → Vec c) (hp : ∀ i, probs' i = probs i) (y : Fin N → Fin c) :
    eceScore (fun j => out (π j)) (fun j => probs' (π j)) (fun j => y (π j)) = eceScore out probs y := by
  classical
  simp only [hp]
  exact ece_eachTimes h hm 15 (fun i => maxEntry (probs i)) (fun i => if IsFirstMax (out i) (y i) then 1 else 0)

/-- Only the scores of the candidates matter. -/
theorem chosen_congr {grid : List ℝ} {s s' : ℝ → WithTop ℝ} {patience : Option Int} {q : ℝ} {tried : List ℝ}
    (h : ChosenBy grid s patience q tried) (hs : ∀ τ ∈ grid, s τ = s' τ) : ChosenBy grid s' patience q tried := by
  have hj : ∀ j, j < grid.length → s (grid.getD j 0) = s' (grid.getD j 0) := by
    intro j hj
    refine hs _ ?_
    rw [List.getD_eq_getElem _ _ hj]
    exact List.getElem_mem hj
  obtain ⟨n, i, a1, a2, a3, a4, a5, a6, a7⟩ := h
  have hM : ∀ k, k ≤ grid.length → (MustStop (fun j => s (grid.getD j 0)) grid.length patience none k ↔
      MustStop (fun j => s' (grid.getD j 0)) grid.length patience none k) := by
    intro k hk
    simp only [MustStop, LastStepsIncrease]
    have : ∀ t, (∀ i, k ≤ i + 1 + t → i + 1 < k → s (grid.getD i 0) < s (grid.getD (i + 1) 0)) ↔
        (∀ i, k ≤ i + 1 + t → i + 1 < k → s' (grid.getD i 0) < s' (grid.getD (i + 1) 0)) := by
      intro t
      constructor <;> intro h i h1 h2
      · rw [← hj i (by omega), ← hj (i + 1) (by omega)]; exact h i h1 h2
      · rw [hj i (by omega), hj (i + 1) (by omega)]; exact h i h1 h2
    simp only [this]
  refine ⟨n, i, a1, a2, (hM n a2).1 a3, fun k h1 h2 h3 => a4 k h1 h2 ((hM k (by omega)).2 h3), ⟨a5.1, ?_, ?_⟩, a6, a7⟩
  · intro j h1
    simp only [← hj i (by omega), ← hj j (by omega)]; exact a5.2.1 j h1
  · intro j h1
    simp only [← hj i (by omega), ← hj j (by omega)]; exact a5.2.2 j h1

/-- Adding a number that does not depend on the candidate changes no choice. -/
theorem chosen_shift {grid : List ℝ} {s : ℝ → ℝ} {patience : Option Int} {q : ℝ} {tried : List ℝ} (d : ℝ)
    (h : ChosenBy grid (fun τ => ((s τ + d : ℝ) : WithTop ℝ)) patience q tried) : ChosenBy grid (fun τ => ((s τ : ℝ) : WithTop ℝ)) patience q tried := by
  simpa only [ChosenBy, MustStop, LastStepsIncrease, IsFirstMin, WithTop.coe_lt_coe, WithTop.coe_le_coe, add_lt_add_iff_right,
    add_le_add_iff_right] using h

theorem mllScore_split (θ : Vec p) (e : CurvEstimate p) (L τ : ℝ) : mllScore θ e L τ = mllScore θ e 0 τ + L / 2 := by
  simp only [mllScore, logEvidence]
  ring

section
variable (lower : String → String) (rows : A → Except Err (List A)) (points : PyObj A → PyObj A → Except Err (List (X × Arr ℝ)))
  (pushforward predictive objective method : EnumArg) (pr : String) (a : PredictiveArgs X K p) (θ : Vec p) (est e : CurvEstimate p)
  (data data' : PyObj A) (loss loss' : (B : ℕ) → HessLossArg B (shapeSize a.net.shape)) (options : Dict (CalMethod (PyObj A) (WithTop ℝ)))
  (kw : GridKwargs) (xs : Fin N → X)

/-- The predictive setter in the result of a calibration does not depend on the data. -/
theorem calibration_setter_eq (fns : Option (List PfName)) (hm : convertToEnum lower calibrationMethodValues true method = .ok (.member "grid_search"))
    {q q' : PriorArgs} {set set' : PriorArgs → X → Except Err (Dict (Arr ℝ))} {tried tried' : List ℝ}
    (h : calibration lower rows points a data loss e predictive pushforward fns objective method options kw = .ok (q, set, tried))
    (h' : calibration lower rows points a data' loss' e predictive pushforward fns objective method options kw = .ok (q', set', tried')) :
    set = set' := by
  simp only [calibration, bind_ok_iff, hm, ok_bind, if_true] at h h'
  obtain ⟨pf, h1, o, h2, tr, h3, d, h4, r, h5, h6⟩ := h
  obtain ⟨pf', h1', o', h2', tr', h3', d', h4', r', h5', h6'⟩ := h'
  cases h1.symm.trans h1'
  cases h6
  cases h6'
  rfl

/-- **C69 (NLL).** Calibrating on a reordering of the batch, or of `m` copies of it, gives the same result: prior precision, predictive
and tried candidates. -/
theorem C69_nll (h : ApiLinear lower pushforward predictive pr a θ est) (hcls : NoPredictive predictive)
    (ho : convertToEnum lower calibrationObjectiveValues false objective = .ok (.member "nll"))
    (hm : convertToEnum lower calibrationMethodValues true method = .ok (.member "grid_search")) (hn : 0 < kw.gridSize.getD 50)
    (hN : 0 < N) (ys : Fin N → Vec (shapeSize a.net.shape)) (hb : BatchIs points data xs fun i => arrOf a.net.shape (ys i))
    (hπ : EachTimes m π) (h0 : 0 < m) (hb' : BatchIs points data' (fun j => xs (π j)) fun j => arrOf a.net.shape (ys (π j)))
    (hJ : ∀ i k, ∃ j, jacobian (a.net.fn (xs i)) θ k j ≠ 0) :
    calibration lower rows points a data' loss e predictive pushforward none objective method options kw =
      calibration lower rows points a data loss e predictive pushforward none objective method options kw := by
  obtain ⟨q, tried, set, eps, R, c1, -, c2, -⟩ := C52_nll lower rows points pushforward predictive objective method pr a θ est e data loss options kw
    xs h hcls ho hm hn hN ys hb hJ
  obtain ⟨q', tried', set', eps', R', c1', -, c2', -⟩ := C52_nll lower rows points pushforward predictive objective method pr a θ est e data' loss
    options kw (fun j => xs (π j)) h hcls ho hm hn (pos_eachTimes hπ h0 hN) _ hb' (fun j => hJ (π j))
  simp only [nllScore_eachTimes hπ h0] at c2'
  obtain ⟨rfl, rfl⟩ := chosen_unique c2 c2'
  rw [c1, c1', calibration_setter_eq _ _ _ _ _ _ _ _ _ _ _ _ _ _ _ _ hm c1 c1']

/-- **C69 (chi-squared).** -/
theorem C69_chi_squared (h : ApiLinear lower pushforward predictive pr a θ est) (hcls : NoPredictive predictive)
    (ho : convertToEnum lower calibrationObjectiveValues false objective = .ok (.member "chi_squared"))
    (hm : convertToEnum lower calibrationMethodValues true method = .ok (.member "grid_search")) (hn : 0 < kw.gridSize.getD 50)
    (hN : 0 < N) (ys : Fin N → Vec (shapeSize a.net.shape)) (hb : BatchIs points data xs fun i => arrOf a.net.shape (ys i))
    (hπ : EachTimes m π) (h0 : 0 < m) (hb' : BatchIs points data' (fun j => xs (π j)) fun j => arrOf a.net.shape (ys (π j)))
    (hJ : ∀ i k, ∃ j, jacobian (a.net.fn (xs i)) θ k j ≠ 0) :
    calibration lower rows points a data' loss e predictive pushforward none objective method options kw =
      calibration lower rows points a data loss e predictive pushforward none objective method options kw := by
  obtain ⟨q, tried, set, eps, R, c1, -, c2, -⟩ := C52_chi_squared lower rows points pushforward predictive objective method pr a θ est e data loss
    options kw xs h hcls ho hm hn hN ys hb hJ
  obtain ⟨q', tried', set', eps', R', c1', -, c2', -⟩ := C52_chi_squared lower rows points pushforward predictive objective method pr a θ est e data'
    loss options kw (fun j => xs (π j)) h hcls ho hm hn (pos_eachTimes hπ h0 hN) _ hb' (fun j => hJ (π j))
  simp only [chi2Score_eachTimes hπ h0] at c2'
  obtain ⟨rfl, rfl⟩ := chosen_unique c2 c2'
  rw [c1, c1', calibration_setter_eq _ _ _ _ _ _ _ _ _ _ _ _ _ _ _ _ hm c1 c1']

/-- **C69 (NLL, classification).** -/
theorem C69_nll_classification (h : ApiLinear lower pushforward predictive pr a θ est) (hcls : ¬ NoPredictive predictive)
    (hsh : a.net.shape.length = 1) (ho : convertToEnum lower calibrationObjectiveValues false objective = .ok (.member "nll"))
    (hm : convertToEnum lower calibrationMethodValues true method = .ok (.member "grid_search")) (hn : 0 < kw.gridSize.getD 50)
    (hN : 0 < N) (labels : Fin N → Fin (shapeSize a.net.shape)) (hb : BatchIs points data xs fun i => labelArr (labels i))
    (hπ : EachTimes m π) (h0 : 0 < m) (hb' : BatchIs points data' (fun j => xs (π j)) fun j => labelArr (labels (π j)))
    (hJ : ∀ i k, ∃ j, jacobian (a.net.fn (xs i)) θ k j ≠ 0) :
    calibration lower rows points a data' loss e predictive pushforward none objective method options kw =
      calibration lower rows points a data loss e predictive pushforward none objective method options kw := by
  obtain ⟨q, tried, set, eps, R, c1, -, c2, -⟩ := C52_nll_classification lower rows points pushforward predictive objective method pr a θ est e data
    loss options kw xs h hcls hsh ho hm hn hN labels hb hJ
  obtain ⟨q', tried', set', eps', R', c1', -, c2', -⟩ := C52_nll_classification lower rows points pushforward predictive objective method pr a θ est e
    data' loss options kw (fun j => xs (π j)) h hcls hsh ho hm hn (pos_eachTimes hπ h0 hN) _ hb' (fun j => hJ (π j))
  have hsc := fun τ => nllScore_eachTimes hπ h0 a.net.fn θ est xs (fun i k => if k = labels i then 1 else 0) τ
  simp only [hsc] at c2'
  obtain ⟨rfl, rfl⟩ := chosen_unique c2 c2'
  rw [c1, c1', calibration_setter_eq _ _ _ _ _ _ _ _ _ _ _ _ _ _ _ _ hm c1 c1']

/-- **C69 (ECE).** The labels may be integers in one batch and one-hot in the other. -/
theorem C69_ece (h : ApiLinear lower pushforward predictive pr a θ est) (hpr : pr ≠ "none")
    (ho : convertToEnum lower calibrationObjectiveValues false objective = .ok (.member "ece"))
    (hm : convertToEnum lower calibrationMethodValues true method = .ok (.member "grid_search")) (hn : 0 < kw.gridSize.getD 50)
    (hcls : ¬ NoPredictive predictive)
    (hN : 0 < N) (labels : Fin N → Fin (shapeSize a.net.shape))
    (hb : BatchIs points data xs (fun i => labelArr (labels i)) ∨
      BatchIs points data xs fun i => arrOf a.net.shape fun k => if k = labels i then 1 else 0)
    (hπ : EachTimes m π) (h0 : 0 < m)
    (hb' : BatchIs points data' (fun j => xs (π j)) (fun j => labelArr (labels (π j))) ∨
      BatchIs points data' (fun j => xs (π j)) fun j => arrOf a.net.shape fun k => if k = labels (π j) then 1 else 0) :
    calibration lower rows points a data' loss e predictive pushforward none objective method options kw =
      calibration lower rows points a data loss e predictive pushforward none objective method options kw := by
  obtain ⟨q, tried, set, eps, R, c1, hq, c2, -, c3⟩ := C52_ece lower rows points pushforward predictive objective method pr a θ est e data
    loss options kw xs h hpr ho hm hn hcls hN labels hb
  obtain ⟨q', tried', set', eps', R', c1', hq', c2', -, c3'⟩ := C52_ece lower rows points pushforward predictive objective method pr a θ est e
    data' loss options kw (fun j => xs (π j)) h hpr ho hm hn hcls (pos_eachTimes hπ h0 hN) (fun j => labels (π j)) hb'
  have hset := calibration_setter_eq _ _ _ _ _ _ _ _ _ _ _ _ _ _ _ _ hm c1 c1'
  subst hset
  have hp : ∀ τ, 0 < τ → ∀ x, classProbs pr (a.net.fn x θ) (predCovAt a.net.fn θ est τ x)
        (fun j => a.net.fn x θ + jacobian (a.net.fn x) θ *ᵥ (R' τ *ᵥ eps' j)) =
      classProbs pr (a.net.fn x θ) (predCovAt a.net.fn θ est τ x) (fun j => a.net.fn x θ + jacobian (a.net.fn x) θ *ᵥ (R τ *ᵥ eps j)) := by
    intro τ hτ x
    obtain ⟨r, r1, r2⟩ := (c3 τ hτ).2 x
    obtain ⟨r', r1', r2'⟩ := (c3' τ hτ).2 x
    cases r1.symm.trans r1'
    have e1 := (r2' "pred_act").symm.trans (r2 "pred_act")
    have key : ∀ s : Fin a.numSamples → Vec (shapeSize a.net.shape),
        apiExpected a.net.shape (a.net.fn x θ) (predCovAt a.net.fn θ est τ x) s pr "pred_act" =
          some (arrOf a.net.shape (classProbs pr (a.net.fn x θ) (predCovAt a.net.fn θ est τ x) s)) := by
      intro s
      by_cases h1 : pr = "mc_bridge"
      · simp [apiExpected, h1, classProbs]
      · simp [apiExpected, h1, hpr, classProbs]
    rw [key, key] at e1
    exact List.ofFn_injective (congrArg Arr.data (Option.some.inj e1))
  obtain ⟨P, hP⟩ : ∃ P : ℝ → X → Vec (shapeSize a.net.shape), P = fun τ x => classProbs pr (a.net.fn x θ) (predCovAt a.net.fn θ est τ x)
      (fun j => a.net.fn x θ + jacobian (a.net.fn x) θ *ᵥ (R τ *ᵥ eps j)) := ⟨_, rfl⟩
  obtain ⟨P', hP'⟩ : ∃ P' : ℝ → X → Vec (shapeSize a.net.shape), P' = fun τ x => classProbs pr (a.net.fn x θ) (predCovAt a.net.fn θ est τ x)
      (fun j => a.net.fn x θ + jacobian (a.net.fn x) θ *ᵥ (R' τ *ᵥ eps' j)) := ⟨_, rfl⟩
  have d2 : ChosenBy (precGrid (kw.logPriorPrecMin.getD (-3)) (kw.logPriorPrecMax.getD 3) (kw.gridSize.getD 50))
      (fun τ => (eceScore (fun i => a.net.fn (xs i) θ) (fun i => P τ (xs i)) labels : ℝ)) kw.patience q tried := by rw [hP]; exact c2
  have d2' : ChosenBy (precGrid (kw.logPriorPrecMin.getD (-3)) (kw.logPriorPrecMax.getD 3) (kw.gridSize.getD 50))
      (fun τ => (eceScore (fun j => a.net.fn (xs (π j)) θ) (fun j => P' τ (xs (π j))) (fun j => labels (π j)) : ℝ)) kw.patience q' tried' := by
    rw [hP']; exact c2'
  have hPP : ∀ τ, 0 < τ → ∀ x, P' τ x = P τ x := by rw [hP, hP']; exact hp
  have hsc : ∀ τ, 0 < τ → eceScore (fun j => a.net.fn (xs (π j)) θ) (fun j => P' τ (xs (π j))) (fun j => labels (π j)) =
      eceScore (fun i => a.net.fn (xs i) θ) (fun i => P τ (xs i)) labels := fun τ hτ =>
    eceScore_eachTimes hπ h0 (fun i => a.net.fn (xs i) θ) (fun i => P τ (xs i)) (fun i => P' τ (xs i)) (fun i => hPP τ hτ (xs i)) labels
  obtain ⟨rfl, rfl⟩ := chosen_unique d2 (chosen_congr d2' fun τ hτ => by rw [hsc τ (precGrid_pos hτ)])
  rw [c1, c1']

/-- **C69 (marginal likelihood).** The training loss at the parameters does not depend on the prior precision, so the choice by
evidence does not depend on the calibration data at all: not on the order or repetition of its points, not on their number, not on
inputs and targets and not on the (scalar) loss. -/
theorem C69_evidence (h : ApiLinear lower pushforward predictive pr a θ est)
    (ho : convertToEnum lower calibrationObjectiveValues false objective = .ok (.member "marginal_log_likelihood"))
    (hm : convertToEnum lower calibrationMethodValues true method = .ok (.member "grid_search")) (hn : 0 < kw.gridSize.getD 50)
    (he : EstimatePsd e) (hk : ∀ r (t : LowRankTerms p r), e ≠ .lowRank t)
    (ys : Fin N → Vec (shapeSize a.net.shape)) (hb : BatchIs points data xs fun i => arrOf a.net.shape (ys i)) (L : ℝ)
    (hL : BatchLoss a.net.fn θ (loss N) xs ys L)
    (xs' : Fin N' → X) (ys' : Fin N' → Vec (shapeSize a.net.shape)) (hb' : BatchIs points data' xs' fun i => arrOf a.net.shape (ys' i)) (L' : ℝ)
    (hL' : BatchLoss a.net.fn θ (loss' N') xs' ys' L') :
    calibration lower rows points a data' loss' e predictive pushforward none objective method options kw =
      calibration lower rows points a data loss e predictive pushforward none objective method options kw := by
  obtain ⟨q, tried, set, eps, R, c1, hq, c2, -⟩ := C52_marginal_likelihood lower rows points pushforward predictive objective method pr a θ est e data
    loss options kw xs h ho hm hn he hk ys hb L hL
  obtain ⟨q', tried', set', eps', R', c1', hq', c2', -⟩ := C52_marginal_likelihood lower rows points pushforward predictive objective method pr a θ est e
    data' loss' options kw xs' h ho hm hn he hk ys' hb' L' hL'
  simp only [mllScore_split θ e L] at c2
  simp only [mllScore_split θ e L'] at c2'
  obtain ⟨rfl, rfl⟩ := chosen_unique (chosen_shift _ c2) (chosen_shift _ c2')
  rw [c1, c1', calibration_setter_eq _ _ _ _ _ _ _ _ _ _ _ _ _ _ _ _ hm c1 c1']

/-- **C69 (test data).** Evaluating regression metrics on points picked from the test data in any order, any number of times, in any
batches, returns the picked values and the same predictive; if every point is picked equally often, the averages are the same. -/
theorem C69_test_data (prior : PriorArgs) (metrics : EnumArg) (tt : Arr ℝ) (τ : ℝ) (h : ApiLinear lower pushforward predictive pr a θ est)
    (hmet : convertToEnum lower defaultMetricsValues false metrics = .ok (.member "regression"))
    (hτ : prior.priorPrec = some τ) (hτ0 : 0 < τ) (hσ : 0 ≤ prior.sigmaSquared.getD 1) (hc : 0 < shapeSize a.net.shape)
    (ys : Fin N → Vec (shapeSize a.net.shape)) (hd : PointsAre points data (List.ofFn fun i => (xs i, arrOf a.net.shape (ys i))))
    (hd' : PointsAre points data' (List.ofFn fun j => (xs (π j), arrOf a.net.shape (ys (π j)))))
    (hJ : ∀ i k, ∃ j, jacobian (a.net.fn (xs i)) θ k j ≠ 0) :
    ∃ (score : String → Fin N → ℝ) (g : X → Except Err (Dict (Arr ℝ))),
      evaluation lower rows points a prior data (.enum metrics) predictive pushforward none .ok tt =
        .ok (regNames.map fun k => (k, ⟨[N], List.ofFn (score k)⟩), g) ∧
      evaluation lower rows points a prior data' (.enum metrics) predictive pushforward none .ok tt =
        .ok (regNames.map fun k => (k, ⟨[N'], List.ofFn fun j => score k (π j)⟩), g) ∧
      ∀ m, EachTimes m π → 0 < m → ∀ k, (∑ j, score k (π j)) / N' = (∑ i, score k i) / N := by
  obtain ⟨g, _, _, e1, -, -⟩ := C53_regression lower rows points pushforward predictive metrics pr a θ est prior data tt xs τ h hmet hτ hτ0 hσ hc ys hd hJ
  obtain ⟨g', _, _, e1', -, -⟩ := C53_regression lower rows points pushforward predictive metrics pr a θ est prior data' tt (fun j => xs (π j)) τ h hmet
    hτ hτ0 hσ hc (fun j => ys (π j)) hd' (fun j => hJ (π j))
  have hg := evaluation_predictive_eq lower rows points predictive pushforward tt _ _ _ _ _ _ _ e1 e1'
  subst hg
  refine ⟨fun k i => regScore (a.net.fn (xs i) θ) (fun k => Real.sqrt (covAt a.net.fn θ (targetPrecision τ (prior.sigmaSquared.getD 1) 1 est) (xs i) k k))
    (ys i) k, g, e1, e1', fun m hπ h0 k => ?_⟩
  have := mean_eachTimes hπ h0 (fun i => regScore (a.net.fn (xs i) θ)
    (fun k => Real.sqrt (covAt a.net.fn θ (targetPrecision τ (prior.sigmaSquared.getD 1) 1 est) (xs i) k k)) (ys i) k) 1
  simpa only [mul_one] using this

end

section
variable (lower : String → String) (rows : A → Except Err (List A)) (rng : Prng K) (net : Net X p) (params : PyTree ℝ) (θ : Vec p)
  (custom : ℕ → PfStep X K p) (key : K) (numSamples : ℕ)
  (trainPoints : PyObj A → PyObj A → Except Err (List (X × Y))) (trainData trainData' : PyObj A) (samples samples' : List (X × Y)) (loss : String)
  (H : Vec (shapeSize net.shape) → Vec (shapeSize net.shape) → Y → Vec (shapeSize net.shape))
  (curvType ct : EnumArg) (kind : EnumArg → LaplaceKind p) (numCurv numTotal : ℕ)
  (points : PyObj A → PyObj A → Except Err (List (X × Arr ℝ))) (calData calData' : PyObj A)
  (calLoss : (B : ℕ) → HessLossArg B (shapeSize net.shape)) (predictive pushforward objective method metrics : EnumArg)
  (options : Dict (CalMethod (PyObj A) (WithTop ℝ))) (kw : GridKwargs) (testData testData' : PyObj A) (tt : Arr ℝ)

/-- **C69 (whole workflow).** `laplace`, NLL calibration and evaluation on reordered training data, a reordered (and possibly repeated)
calibration batch and any selection of the test points: the same prior, the same predictive and the selected metric values. -/
theorem C69_workflow (hperm : samples.Perm samples')
    (htrain : LaplaceCall lower trainPoints net.fn params θ trainData samples loss H curvType ct)
    (htrain' : LaplaceCall lower trainPoints net.fn params θ trainData' samples' loss H curvType ct)
    (hN : numTotal ≠ 0) (hrng : RngOk rng) (hpf : convertToEnum lower pushforwardValues false pushforward = .ok (.member "linear"))
    (hpr : convertToEnum lower predictiveValues false predictive = .ok (.member "none")) (hcls : NoPredictive predictive)
    (ho : convertToEnum lower calibrationObjectiveValues false objective = .ok (.member "nll"))
    (hm : convertToEnum lower calibrationMethodValues true method = .ok (.member "grid_search")) (hn : 0 < kw.gridSize.getD 50)
    (hmet : convertToEnum lower defaultMetricsValues false metrics = .ok (.member "regression")) (hc : 0 < shapeSize net.shape)
    {M M' : ℕ} (hM : 0 < M) (cx : Fin M → X) (cy : Fin M → Vec (shapeSize net.shape))
    (hcal : BatchIs points calData cx fun i => arrOf net.shape (cy i)) (hJc : ∀ i k, ∃ j, jacobian (net.fn (cx i)) θ k j ≠ 0)
    (ρ : Fin M' → Fin M) (hρ : EachTimes m ρ) (h0 : 0 < m) (hcal' : BatchIs points calData' (fun j => cx (ρ j)) fun j => arrOf net.shape (cy (ρ j)))
    (xs : Fin N → X) (ys : Fin N → Vec (shapeSize net.shape))
    (htest : PointsAre points testData (List.ofFn fun i => (xs i, arrOf net.shape (ys i))))
    (htest' : PointsAre points testData' (List.ofFn fun j => (xs (π j), arrOf net.shape (ys (π j)))))
    (hJ : ∀ i k, ∃ j, jacobian (net.fn (xs i)) θ k j ≠ 0) (hk : kind ct = .full ∨ kind ct = .diagonal) :
    ∃ (prior : PriorArgs) (score : String → Fin N → ℝ) (g : X → Except Err (Dict (Arr ℝ))),
      workflow lower rows rng net params custom key numSamples trainPoints trainData (.name loss) curvType kind numCurv numTotal points
          calData calLoss predictive pushforward objective method options kw testData (.enum metrics) .ok tt =
        .ok (prior, regNames.map fun k => (k, ⟨[N], List.ofFn (score k)⟩), g) ∧
      workflow lower rows rng net params custom key numSamples trainPoints trainData' (.name loss) curvType kind numCurv numTotal points
          calData' calLoss predictive pushforward objective method options kw testData' (.enum metrics) .ok tt =
        .ok (prior, regNames.map fun k => (k, ⟨[N'], List.ofFn fun j => score k (π j)⟩), g) := by
  have hl := C47_batching_independent lower rows trainPoints net.fn params θ trainData trainData' samples samples' hperm loss H curvType ct
    htrain htrain' kind numCurv numTotal hN
  obtain ⟨G, h1, h2, h3⟩ := laplace_then lower rows net params θ trainPoints trainData samples loss H curvType ct kind numCurv numTotal htrain hN
  obtain ⟨est, hest⟩ : ∃ est, EstimateFrom G (kind ct) est := by
    rcases hk with hk | hk
    · exact ⟨_, Or.inl ⟨hk, rfl⟩⟩
    · exact ⟨_, Or.inr (Or.inl ⟨hk, rfl⟩)⟩
  obtain ⟨hpsd, hlap⟩ := h3 est hest
  have hapi : ApiLinear lower pushforward predictive "none"
      (⟨rng, net, params, fun a s => setPosteriorFn est (.tree params) a s, custom, key, numSamples⟩ : PredictiveArgs X K p) θ est :=
    ⟨hpf, hpr, hrng, htrain.hp, htrain.hwf, htrain.hθ, hpsd, rfl, Or.inl rfl⟩
  obtain ⟨q, tried, set, eps, R, c1, c2, c3, -, -⟩ := C52_nll lower rows points pushforward predictive objective method "none"
    (⟨rng, net, params, fun a s => setPosteriorFn est (.tree params) a s, custom, key, numSamples⟩ : PredictiveArgs X K p) θ est est
    calData calLoss options kw cx hapi hcls ho hm hn hM cy hcal hJc
  have c1' := (C69_nll lower rows points pushforward predictive objective method "none"
    (⟨rng, net, params, fun a s => setPosteriorFn est (.tree params) a s, custom, key, numSamples⟩ : PredictiveArgs X K p) θ est est
    calData calData' calLoss options kw cx hapi hcls ho hm hn hM cy hcal hρ h0 hcal' hJc).trans c1
  obtain ⟨score, g, e1, e1', -⟩ := C69_test_data lower rows points pushforward predictive "none"
    (⟨rng, net, params, fun a s => setPosteriorFn est (.tree params) a s, custom, key, numSamples⟩ : PredictiveArgs X K p) θ est
    testData testData' xs ⟨some q, none⟩ metrics tt q hapi hmet rfl c2 (by norm_num) hc ys htest htest' hJ
  refine ⟨⟨some q, none⟩, score, g, ?_, ?_⟩
  · simp only [workflow, hlap, ok_bind]
    rw [c1, ok_bind]
    simp only []
    rw [e1]
    rfl
  · simp only [workflow, ← hl, hlap, ok_bind]
    rw [c1', ok_bind]
    simp only []
    rw [e1']
    rfl

end

/-! ### Non-vacuity -/

/-- The batch (1, 2) doubled and mixed. -/
example : EachTimes 2 (![1, 0, 0, 1] : Fin 4 → Fin 2) := by
  intro i; fin_cases i <;> rfl

/-- Reading any number of inputs with two-entry targets. -/
def testManyPoints : PyObj (List ℝ) → PyObj (List ℝ) → Except Err (List (ℝ × Arr ℝ))
  | .arr xs, .arr ys => .ok (xs.zipIdx.map fun x => (x.1, ⟨[2], [ys.getD (2 * x.2) 0, ys.getD (2 * x.2 + 1) 0]⟩))
  | _, _ => .error .valueError

/-- The hypotheses are met: a batch of two points, and its two copies in another order. -/
example : calibration (fun s => if s = "Linear" then "linear" else s) (fun _ => .error .valueError) testManyPoints testArgs
      (.tup [.arr [2, 1, 1, 2], .arr [6, 7, 4, 5, 4, 5, 6, 7]]) (fun _ => .name "mse") (.full !![2, 2; 2, 2]) (.member "none") (.str "Linear") none
      (.str "nll") (.str "grid_search") [] {} =
    calibration (fun s => if s = "Linear" then "linear" else s) (fun _ => .error .valueError) testManyPoints testArgs
      (.tup [.arr [1, 2], .arr [4, 5, 6, 7]]) (fun _ => .name "mse") (.full !![2, 2; 2, 2]) (.member "none") (.str "Linear") none
      (.str "nll") (.str "grid_search") [] {} :=
  C69_nll (m := 2) (π := (![1, 0, 0, 1] : Fin 4 → Fin 2)) _ _ testManyPoints (.str "Linear") (.member "none") (.str "nll") (.str "grid_search") "none" testArgs
    ![3, 5] (.full !![2, 2; 2, 2]) (.full !![2, 2; 2, 2]) _ _ (fun _ => .name "mse") [] {} ![1, 2] test_apiLinear (Or.inl rfl) rfl rfl (by decide)
    (by norm_num) (![![4, 5], ![6, 7]] : Fin 2 → Fin 2 → ℝ)
    ⟨_, BatchOf.pair _ _, by simp [testManyPoints, arrOf, testArgs, testNet, List.ofFn_succ]; exact ⟨rfl, rfl⟩⟩ (by intro i; fin_cases i <;> rfl) (by norm_num)
    ⟨_, BatchOf.pair _ _, by simp [testManyPoints, arrOf, testArgs, testNet, List.ofFn_succ]; exact ⟨rfl, rfl, rfl⟩⟩
    (fun i k => by apply test_gradient; fin_cases i <;> simp)

end Laplax.Props
