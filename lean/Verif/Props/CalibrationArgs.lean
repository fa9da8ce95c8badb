import Verif.Props.BroadcastEvidence
import Verif.Model.CalibrationArgs
import Mathlib.LinearAlgebra.Matrix.SchurComplement

/-! # C60: the arguments `curv_type` and `vmap_over_data` of `calibration` -/

namespace Laplax.Spec
open scoped BigOperators

/-- The curvature type names the kind of the estimate, as an enum member or as the exact value. -/
def TypeFits {p : ℕ} (curvType : EnumArg) (e : CurvEstimate p) : Prop :=
  ∃ v : String, (curvType = .member v ∨ curvType = .str v) ∧
    match e with
    | .full _ => v = "full"
    | .diagonal _ => v = "diagonal"
    | .lowRank _ => v = "lanczos" ∨ v = "lobpcg"

/-- Negative log evidence with the value `D` in the place of the log determinant of the posterior precision: likelihood `exp(-L/2)`,
prior `N(0, τ⁻¹ I)`. -/
noncomputable def detScore {p : ℕ} (θ : Fin p → ℝ) (L D τ : ℝ) : ℝ :=
  L / 2 - logPrior τ (List.ofFn θ) - (p : ℝ) / 2 * Real.log (2 * Real.pi) + D / 2

/-- The outputs of the batch are available: every sample separately, or all at once by a batched model that returns the stack of the
separate outputs. -/
def BatchedModel {X : Type} {p N : ℕ} (opts : CalibrationOptions) (net : Net X p)
    (bnet : List X → PyTree ℝ → Except Err (Arr ℝ)) (params : PyTree ℝ) (θ : Fin p → ℝ) (xs : Fin N → X) : Prop :=
  opts.vmapOverData = true ∨
    bnet (List.ofFn xs) params = .ok ⟨N :: net.shape, (List.ofFn fun i => List.ofFn (net.fn (xs i) θ)).flatten⟩

end Laplax.Spec

namespace Laplax.Props
open Laplax Spec
open scoped BigOperators Matrix

variable {X K A : Type} {p : ℕ}

/-! ### Grid search over the general objective -/

theorem calibrationWith_grid (opts : CalibrationOptions) (bnet : List X → PyTree ℝ → Except Err (Arr ℝ)) (lower : String → String)
    (rows : A → Except Err (List A))
    (points : PyObj A → PyObj A → Except Err (List (X × Arr ℝ))) (a : PredictiveArgs X K p) (data : PyObj A)
    (loss : (B : ℕ) → HessLossArg B (shapeSize a.net.shape)) (e : CurvEstimate p) (predictive pushforward : EnumArg)
    (fns : Option (List PfName)) (objective method : EnumArg) (options : Dict (CalMethod (PyObj A) (WithTop ℝ))) (kw : GridKwargs)
    (kind : PfKind) (fs : List PfName) (hset : setupPushforward lower pushforward predictive fns = .ok (kind, fs))
    (o : Objective) (ho : buildCalibrationObjective lower objective false false false false false (isClassification predictive) = .ok o)
    (hm : convertToEnum lower calibrationMethodValues true method = .ok (.member "grid_search"))
    {xy : PyObj A × PyObj A} (hb : BatchOf data xy) (pts : List (X × Arr ℝ)) (hp : points xy.1 xy.2 = .ok pts)
    (hn : 0 < kw.gridSize.getD 50) (s : ℝ → WithTop ℝ)
    (hs : ∀ τ, 0 < τ → evalObjective (objectiveFnWith opts bnet a (setPushforward a kind fs) loss e o pts ⟨some τ, none⟩) = .ok (s τ)) :
    ∃ q tried, calibrationWith opts bnet lower rows points a data loss e predictive pushforward fns objective method options kw =
        .ok (⟨some q, none⟩, setPushforward a kind fs, tried) ∧
      ChosenBy (precGrid (kw.logPriorPrecMin.getD (-3)) (kw.logPriorPrecMax.getD 3) (kw.gridSize.getD 50)) s kw.patience q tried ∧ 0 < q := by
  obtain ⟨tr, d, t1, t2, t3⟩ := batch_points hb rows points pts hp
  obtain ⟨q, tried, g1, g2⟩ := chosen_of_search (precGrid (kw.logPriorPrecMin.getD (-3)) (kw.logPriorPrecMax.getD 3) (kw.gridSize.getD 50))
    (by intro h; have := congrArg List.length h; simp [precGrid] at this; omega)
    (fun q => onBatch points (objectiveFnWith opts bnet a (setPushforward a kind fs) loss e o) ⟨some q, none⟩ d) kw.patience s
    (fun q hq => by simp only [onBatch, t3]; exact hs q (precGrid_pos hq))
  have hq : 0 < q := by
    obtain ⟨n, i, _, _, _, _, _, h6, _⟩ := g2
    exact precGrid_pos (List.mem_of_getElem? h6)
  refine ⟨q, tried, ?_, g2, hq⟩
  simp only [calibrationWith, hset, ok_bind, ho, hm, if_true, t1, t2, optimizePriorPrec, jnpLogspace_eq, g1]
  rfl

section
variable (opts : CalibrationOptions) (bnet : List X → PyTree ℝ → Except Err (Arr ℝ))
  (lower : String → String) (rows : A → Except Err (List A)) (points : PyObj A → PyObj A → Except Err (List (X × Arr ℝ)))
  (pushforward predictive objective method : EnumArg) (pr : String) (a : PredictiveArgs X K p) (θ : Vec p) (est e : CurvEstimate p)
  (data : PyObj A) (loss : (B : ℕ) → HessLossArg B (shapeSize a.net.shape)) (options : Dict (CalMethod (PyObj A) (WithTop ℝ))) (kw : GridKwargs)
  {N : ℕ} (xs : Fin N → X)

theorem calibrationWith_grid_error (kind : PfKind) (fs : List PfName) (fns : Option (List PfName))
    (hset : setupPushforward lower pushforward predictive fns = .ok (kind, fs))
    (o : Objective) (ho : buildCalibrationObjective lower objective false false false false false (isClassification predictive) = .ok o)
    (hm : convertToEnum lower calibrationMethodValues true method = .ok (.member "grid_search"))
    {xy : PyObj A × PyObj A} (hb : BatchOf data xy) (pts : List (X × Arr ℝ)) (hp : points xy.1 xy.2 = .ok pts)
    (hn : 0 < kw.gridSize.getD 50) (err : Err)
    (hs : ∀ τ, 0 < τ → evalObjective (objectiveFnWith opts bnet a (setPushforward a kind fs) loss e o pts ⟨some τ, none⟩) = .error err) :
    calibrationWith opts bnet lower rows points a data loss e predictive pushforward fns objective method options kw = .error err := by
  obtain ⟨tr, d, t1, t2, t3⟩ := batch_points hb rows points pts hp
  have hh := precGrid_head (kw.logPriorPrecMin.getD (-3)) (kw.logPriorPrecMax.getD 3) _ hn
  simp only [calibrationWith, hset, ok_bind, ho, hm, if_true, t1, t2, optimizePriorPrec, jnpLogspace_eq]
  have hpos : (0 : ℝ) < (10 : ℝ) ^ (kw.logPriorPrecMin.getD (-3)) := Real.rpow_pos_of_pos (by norm_num) _
  cases hg : precGrid (kw.logPriorPrecMin.getD (-3)) (kw.logPriorPrecMax.getD 3) (kw.gridSize.getD 50) with
  | nil => rw [hg] at hh; simp at hh
  | cons x g =>
    rw [hg] at hh
    simp at hh
    subst hh
    rw [gridSearch_first_error _ _ _ _ err]
    · rfl
    · simp only [onBatch, t3]
      exact hs _ hpos

/-! ### The evidence for any log determinant -/

theorem batchOutputs_ok (h : ApiLinear lower pushforward predictive pr a θ est) (hN : 0 < N) (ts : Fin N → Arr ℝ)
    (hv : BatchedModel opts a.net bnet a.params θ xs) :
    batchOutputs opts.vmapOverData a.net bnet (List.ofFn fun i => (xs i, ts i)) a.params =
      .ok (ensArr a.net.shape fun i => a.net.fn (xs i) θ) := by
  have hcall : mapE (fun dp : X × Arr ℝ => a.net.call dp.1 a.params) (List.ofFn fun i => (xs i, ts i)) =
      .ok (List.ofFn fun i => arrOf a.net.shape (a.net.fn (xs i) θ)) :=
    mapE_ofFn _ _ _ fun i => by simp only [Net.call, asParams_eq h.params, ok_bind]; rfl
  have hb : (do
      let ms ← mapE (fun dp : X × Arr ℝ => a.net.call dp.1 a.params) (List.ofFn fun i => (xs i, ts i))
      stackOf ms) = .ok (ensArr a.net.shape fun i => a.net.fn (xs i) θ) := by
    rw [hcall, ok_bind]
    obtain ⟨n, rfl⟩ : ∃ n, N = n + 1 := ⟨N - 1, by omega⟩
    simp [stackOf, stackArr, ensArr, arrOf, List.ofFn_succ, List.map_ofFn, Function.comp_def]
  rcases hvv : opts.vmapOverData with _ | _
  · rcases hv with hv | hv
    · rw [hvv] at hv; cases hv
    · simp only [batchOutputs, List.map_ofFn, Function.comp_def, hv, ensArr]
  · exact hb

theorem ensArr_wf {N : ℕ} (sh : List ℕ) (f : Fin N → Vec (shapeSize sh)) : (ensArr sh f).WF := by
  simp [Arr.WF, ensArr, shapeSize_cons, List.length_flatten, Function.comp_def]

theorem flatten_zip {N c : ℕ} (g : ℝ → ℝ → ℝ) (u v : Fin N → Vec c) :
    (List.zipWith g (List.ofFn fun i => List.ofFn (u i)).flatten (List.ofFn fun i => List.ofFn (v i)).flatten).sum = ∑ i, ∑ k, g (u i k) (v i k) := by
  induction N with
  | zero => simp
  | succ n ih =>
    rw [List.ofFn_succ, List.ofFn_succ, List.flatten_cons, List.flatten_cons, List.zipWith_append (by simp), List.sum_append, Fin.sum_univ_succ,
      ← ih (fun i => u i.succ) (fun i => v i.succ)]
    congr 1
    rw [show List.zipWith g (List.ofFn (u 0)) (List.ofFn (v 0)) = List.ofFn fun k => g (u 0 k) (v 0 k) by
      apply List.ext_getElem <;> simp]
    exact List.sum_ofFn

theorem batchLossFn_ok (h : ApiLinear lower pushforward predictive pr a θ est) (hN : 0 < N)
    (ys : Fin N → Vec (shapeSize a.net.shape)) (hv : BatchedModel opts a.net bnet a.params θ xs) (L : ℝ)
    (hL : BatchLoss a.net.fn θ (loss N) xs ys L) :
    ∃ f, batchLossFn a.net.shape loss (List.ofFn fun i => (xs i, arrOf a.net.shape (ys i)))
      (batchOutputs opts.vmapOverData a.net bnet (List.ofFn fun i => (xs i, arrOf a.net.shape (ys i)))) = .ok (.inl f) ∧ f a.params = .ok L := by
  have hm := batchOutputs_ok opts bnet lower pushforward predictive pr a θ est xs h hN (fun i => arrOf a.net.shape (ys i)) hv
  have hy : stackOf ((List.ofFn fun i => (xs i, arrOf a.net.shape (ys i))).map (·.2)) = .ok (ensArr a.net.shape ys) := by
    obtain ⟨n, rfl⟩ : ∃ n, N = n + 1 := ⟨N - 1, by omega⟩
    simp [stackOf, stackArr, ensArr, arrOf, List.ofFn_succ, List.map_ofFn, Function.comp_def]
  have hlen : (List.ofFn fun i => (xs i, arrOf a.net.shape (ys i))).length = N := List.length_ofFn
  obtain ⟨data, hdata⟩ : ∃ d, d = (List.ofFn fun i => (xs i, arrOf a.net.shape (ys i))) := ⟨_, rfl⟩
  rw [← hdata] at hm hy hlen ⊢
  clear hdata
  subst hlen
  rcases hL with ⟨h1, h2⟩ | ⟨ℓ, h1, h2⟩
  · refine ⟨_, by simp only [batchLossFn, h1, if_true]; rfl, ?_⟩
    simp only [hm, hy, ok_bind, mseLossArr]
    rw [bcast2_same _ (ensArr a.net.shape fun i => a.net.fn (xs i) θ) _ (ensArr_wf _ _) (ensArr_wf _ ys) rfl, ok_bind, h2]
    simp only [ensArr, flatten_zip]
    rfl
  · refine ⟨_, by simp only [batchLossFn, h1]; rfl, ?_⟩
    simp only [hm, hy, ok_bind]
    rw [if_pos ⟨rfl, rfl⟩, h2]
    simp only [ensArr, rowsOf_flatten]
    rfl

/-- The evidence for a log determinant `D τ`. -/
theorem mllObjectiveWith_ok (h : ApiLinear lower pushforward predictive pr a θ est) (hN : 0 < N)
    (ys : Fin N → Vec (shapeSize a.net.shape)) (hv : BatchedModel opts a.net bnet a.params θ xs) (L : ℝ)
    (hL : BatchLoss a.net.fn θ (loss N) xs ys L) (τ D : ℝ) (hτ : 0 < τ) (hD : logDetBy opts.curvType e ⟨some τ, none⟩ = .ok D) :
    mllObjectiveWith opts.curvType opts.vmapOverData a.net bnet a.params loss e
      (List.ofFn fun i => (xs i, arrOf a.net.shape (ys i))) ⟨some τ, none⟩ = .num ((detScore θ L D τ : ℝ) : WithTop ℝ) := by
  obtain ⟨f, f1, f2⟩ := batchLossFn_ok opts bnet lower pushforward predictive pr a θ est loss xs h hN ys hv L hL
  have hsz : numEntries a.params = p := by rw [← length_entries h.wf, h.params, List.length_ofFn]
  have hne : a.params.leaves ≠ [] := leaves_ne_of_entries h.nonempty h.params
  have hgs : getSize a.params = p := by
    exact ((((C02_full_flatten a.params).2 hne).2 h.wf).symm.trans (length_entries h.wf)).trans hsz
  have hJ := C34_joint _ { toPriorArgs := ⟨some τ, none⟩, sigma := none } a.params h.wf hne τ rfl hτ L f2
  have hJ' : -(L / (2 * (none : Option ℝ).getD 1)) + logPrior τ (entries a.params) = -(L / 2) + logPrior τ (List.ofFn θ) := by
    rw [h.params]; norm_num
  simp only [mllObjectiveWith, f1, mllBy, hD, ok_bind, hJ, hJ', hgs]
  show ObjRes.num _ = _
  congr 2
  simp only [lmlOf, detScore]
  ring

theorem mllObjectiveWith_error (h : ApiLinear lower pushforward predictive pr a θ est) (hN : 0 < N)
    (ys : Fin N → Vec (shapeSize a.net.shape)) (hv : BatchedModel opts a.net bnet a.params θ xs) (L : ℝ)
    (hL : BatchLoss a.net.fn θ (loss N) xs ys L) (τ : ℝ) (err : Err) (hD : logDetBy opts.curvType e ⟨some τ, none⟩ = .error err) :
    mllObjectiveWith opts.curvType opts.vmapOverData a.net bnet a.params loss e
      (List.ofFn fun i => (xs i, arrOf a.net.shape (ys i))) ⟨some τ, none⟩ = .raises err := by
  obtain ⟨f, f1, f2⟩ := batchLossFn_ok opts bnet lower pushforward predictive pr a θ est loss xs h hN ys hv L hL
  simp only [mllObjectiveWith, f1, mllBy, hD, error_bind]
  rfl

/-- Evidence calibration chooses by the score with the log determinant the tables give. -/
theorem evidence_chosen (h : ApiLinear lower pushforward predictive pr a θ est)
    (ho : convertToEnum lower calibrationObjectiveValues false objective = .ok (.member "marginal_log_likelihood"))
    (hm : convertToEnum lower calibrationMethodValues true method = .ok (.member "grid_search")) (hn : 0 < kw.gridSize.getD 50)
    (hN : 0 < N) (ys : Fin N → Vec (shapeSize a.net.shape)) (hb : BatchIs points data xs fun i => arrOf a.net.shape (ys i))
    (hv : BatchedModel opts a.net bnet a.params θ xs) (L : ℝ) (hL : BatchLoss a.net.fn θ (loss N) xs ys L) (D : ℝ → ℝ)
    (hD : ∀ τ, 0 < τ → logDetBy opts.curvType e ⟨some τ, none⟩ = .ok (D τ)) :
    ∃ q tried set, calibrationWith opts bnet lower rows points a data loss e predictive pushforward none objective method options kw =
        .ok (⟨some q, none⟩, set, tried) ∧ 0 < q ∧
      ChosenBy (precGrid (kw.logPriorPrecMin.getD (-3)) (kw.logPriorPrecMax.getD 3) (kw.gridSize.getD 50))
        (fun τ => (detScore θ L (D τ) τ : ℝ)) kw.patience q tried := by
  obtain ⟨fns, eps, R, h1, -, -⟩ := api_linear h
  obtain ⟨xy, b1, b2⟩ := hb
  obtain ⟨q, tried, c1, c2, c3⟩ := calibrationWith_grid opts bnet lower rows points a data loss e predictive pushforward none objective method
    options kw .lin fns h1 .mll (by rw [build_objective _ ho]; cases isClassification predictive <;> rfl) hm b1 _ b2 hn
    (fun τ => ((detScore θ L (D τ) τ : ℝ) : WithTop ℝ)) (fun τ hτ => by
      simp only [objectiveFnWith]
      rw [mllObjectiveWith_ok opts bnet lower pushforward predictive pr a θ est e loss xs h hN ys hv L hL τ (D τ) hτ (hD τ hτ)]
      rfl)
  exact ⟨q, tried, _, c1, c3, c2⟩

/-- What evidence calibration does when the tables fail. -/
theorem evidence_fails (h : ApiLinear lower pushforward predictive pr a θ est)
    (ho : convertToEnum lower calibrationObjectiveValues false objective = .ok (.member "marginal_log_likelihood"))
    (hm : convertToEnum lower calibrationMethodValues true method = .ok (.member "grid_search")) (hn : 0 < kw.gridSize.getD 50)
    (hN : 0 < N) (ys : Fin N → Vec (shapeSize a.net.shape)) (hb : BatchIs points data xs fun i => arrOf a.net.shape (ys i))
    (hv : BatchedModel opts a.net bnet a.params θ xs) (L : ℝ) (hL : BatchLoss a.net.fn θ (loss N) xs ys L) (err : Err)
    (hD : ∀ τ, 0 < τ → logDetBy opts.curvType e ⟨some τ, none⟩ = .error err) :
    (err = .valueError → ∃ tried set,
      calibrationWith opts bnet lower rows points a data loss e predictive pushforward none objective method options kw =
        .ok (⟨some ((10 : ℝ) ^ kw.logPriorPrecMin.getD (-3)), none⟩, set, tried)) ∧
    (err ≠ .valueError →
      calibrationWith opts bnet lower rows points a data loss e predictive pushforward none objective method options kw = .error err) := by
  obtain ⟨fns, eps, R, h1, -, -⟩ := api_linear h
  obtain ⟨xy, b1, b2⟩ := hb
  refine ⟨fun hv' => ?_, fun hne => ?_⟩
  · subst hv'
    obtain ⟨q, tried, c1, c2, c3⟩ := calibrationWith_grid opts bnet lower rows points a data loss e predictive pushforward none objective
      method options kw
      .lin fns h1 .mll (by rw [build_objective _ ho]; cases isClassification predictive <;> rfl) hm b1 _ b2 hn (fun _ => ⊤) (fun τ hτ => by
        simp only [objectiveFnWith]
        rw [mllObjectiveWith_error opts bnet lower pushforward predictive pr a θ est e loss xs h hN ys hv L hL τ _ (hD τ hτ)]
        rfl)
    have := chosen_all_top c2
    rw [precGrid_head _ _ _ hn] at this
    cases this
    exact ⟨tried, _, c1⟩
  · refine calibrationWith_grid_error opts bnet lower rows points pushforward predictive objective method a e data loss options kw .lin fns none h1 .mll
      (by rw [build_objective _ ho]; cases isClassification predictive <;> rfl) hm b1 _ b2 hn _ fun τ hτ => ?_
    simp only [objectiveFnWith]
    rw [mllObjectiveWith_error opts bnet lower pushforward predictive pr a θ est e loss xs h hN ys hv L hL τ _ (hD τ hτ)]
    cases err <;> first | rfl | exact absurd rfl hne

/-- The evidence of a dense or diagonal estimate, for a fitting type. -/
theorem mllObjectiveWith_score (h : ApiLinear lower pushforward predictive pr a θ est) (hN : 0 < N)
    (ys : Fin N → Vec (shapeSize a.net.shape)) (hv : BatchedModel opts a.net bnet a.params θ xs) (L : ℝ)
    (hL : BatchLoss a.net.fn θ (loss N) xs ys L)
    (ht : TypeFits opts.curvType e) (he : EstimatePsd e) (hk : ∀ r (t : LowRankTerms p r), e ≠ .lowRank t) (τ : ℝ) (hτ : 0 < τ) :
    mllObjectiveWith opts.curvType opts.vmapOverData a.net bnet a.params loss e
      (List.ofFn fun i => (xs i, arrOf a.net.shape (ys i))) ⟨some τ, none⟩ = .num ((mllScore θ e L τ : ℝ) : WithTop ℝ) := by
  obtain ⟨v, hv1, hv2⟩ := ht
  have hkey : curvKey opts.curvType = some v := by rcases hv1 with hv1 | hv1 <;> rw [hv1] <;> rfl
  obtain ⟨f, f1, f2⟩ := batchLossFn_ok opts bnet lower pushforward predictive pr a θ est loss xs h hN ys hv L hL
  obtain ⟨l, l1, l2⟩ := mll_of_loss a.params h.wf h.nonempty θ h.params e he hk f L f2 τ hτ
  have hmll : mllBy opts.curvType e { toPriorArgs := ⟨some τ, none⟩, sigma := none } f a.params = .ok l := by
    rw [← l1]
    cases e with
    | full C =>
      simp only at hv2
      subst hv2
      simp only [mllBy, logDetBy, hkey, if_true, marginalLogLikelihood, ok_bind, fullCurvatureToPrecision, PriorArgs.getPriorPrec,
        fullMarginalLogLikelihood]
      rfl
    | diagonal d =>
      simp only at hv2
      subst hv2
      simp only [mllBy, logDetBy, hkey, if_neg (show ¬ ("diagonal" = "full") by decide), if_true, marginalLogLikelihood, ok_bind,
        diagonalCurvatureToPrecision, PriorArgs.getPriorPrec, diagonalMarginalLogLikelihood]
      rfl
    | lowRank t => exact absurd rfl (hk _ t)
  simp only [mllObjectiveWith, f1, hmll, ok_bind]
  rw [← l2]
  rfl

theorem logDetBy_fits (ht : TypeFits opts.curvType e) (τ : ℝ) : ∃ D, logDetBy opts.curvType e ⟨some τ, none⟩ = .ok D := by
  obtain ⟨v, hv1, hv2⟩ := ht
  have hkey : curvKey opts.curvType = some v := by rcases hv1 with hv1 | hv1 <;> rw [hv1] <;> rfl
  cases e with
  | full C =>
    simp only at hv2
    subst hv2
    exact ⟨_, by simp only [logDetBy, hkey, if_true, fullCurvatureToPrecision, PriorArgs.getPriorPrec, ok_bind]; rfl⟩
  | diagonal d =>
    simp only at hv2
    subst hv2
    exact ⟨_, by simp only [logDetBy, hkey, if_neg (show ¬ ("diagonal" = "full") by decide), if_true, diagonalCurvatureToPrecision,
      PriorArgs.getPriorPrec, ok_bind]; rfl⟩
  | lowRank t =>
    simp only at hv2
    have e1 : v ≠ "full" := by rcases hv2 with rfl | rfl <;> decide
    have e2 : v ≠ "diagonal" := by rcases hv2 with rfl | rfl <;> decide
    exact ⟨_, by simp only [logDetBy, hkey, if_neg e1, if_neg e2, if_pos hv2, lowRankCurvatureToPrecision, PriorArgs.getPriorPrec, ok_bind]; rfl⟩

theorem logDetBy_unknown (hbad : ∀ v ∈ ["full", "diagonal", "lanczos", "lobpcg"], opts.curvType ≠ .member v ∧ opts.curvType ≠ .str v) (b : PriorArgs) :
    logDetBy opts.curvType e b = .error .keyError := by
  have hk : ∀ v ∈ ["full", "diagonal", "lanczos", "lobpcg"], curvKey opts.curvType ≠ some v := by
    intro v hv' hc
    cases ht : opts.curvType with
    | member w => rw [ht] at hc; simp [curvKey] at hc; exact (hbad v hv').1 (by rw [ht, hc])
    | str w => rw [ht] at hc; simp [curvKey] at hc; exact (hbad v hv').2 (by rw [ht, hc])
    | other => rw [ht] at hc; simp [curvKey] at hc
  unfold logDetBy
  cases hc : curvKey opts.curvType with
  | none => rfl
  | some key =>
    simp only [hc, ne_eq, Option.some.injEq] at hk
    have k1 := hk "full" (by simp)
    have k2 := hk "diagonal" (by simp)
    have k3 := hk "lanczos" (by simp)
    have k4 := hk "lobpcg" (by simp)
    simp [k1, k2, k3, k4]

/-! ### The properties -/

/-- **C60 (fitting curvature type).** With a curvature type that names the kind of the (dense or diagonal, positive semidefinite)
estimate, evidence calibration on one batch with targets shaped like the outputs chooses by the negative log evidence — with a model
evaluated sample by sample (`vmap_over_data=True`), and equally with a model called once on the whole batch (`vmap_over_data=False`)
that returns the stack of the single outputs.  (Missing from the property, because the code violates it: other accepted spellings of the
type, low-rank estimates, and types that do not fit; see the theorems below.) -/
theorem C60_evidence_partial (h : ApiLinear lower pushforward predictive pr a θ est)
    (ho : convertToEnum lower calibrationObjectiveValues false objective = .ok (.member "marginal_log_likelihood"))
    (hm : convertToEnum lower calibrationMethodValues true method = .ok (.member "grid_search")) (hn : 0 < kw.gridSize.getD 50)
    (hN : 0 < N) (ys : Fin N → Vec (shapeSize a.net.shape)) (hb : BatchIs points data xs fun i => arrOf a.net.shape (ys i))
    (hv : BatchedModel opts a.net bnet a.params θ xs) (L : ℝ) (hL : BatchLoss a.net.fn θ (loss N) xs ys L)
    (ht : TypeFits opts.curvType e) (he : EstimatePsd e) (hk : ∀ r (t : LowRankTerms p r), e ≠ .lowRank t) :
    ∃ q tried set, calibrationWith opts bnet lower rows points a data loss e predictive pushforward none objective method options kw =
        .ok (⟨some q, none⟩, set, tried) ∧ 0 < q ∧
      ChosenBy (precGrid (kw.logPriorPrecMin.getD (-3)) (kw.logPriorPrecMax.getD 3) (kw.gridSize.getD 50))
        (fun τ => (mllScore θ e L τ : ℝ)) kw.patience q tried := by
  obtain ⟨fns, eps, R, h1, -, -⟩ := api_linear h
  obtain ⟨xy, b1, b2⟩ := hb
  obtain ⟨q, tried, c1, c2, c3⟩ := calibrationWith_grid opts bnet lower rows points a data loss e predictive pushforward none objective method
    options kw .lin fns h1 .mll (by rw [build_objective _ ho]; cases isClassification predictive <;> rfl) hm b1 _ b2 hn
    (fun τ => ((mllScore θ e L τ : ℝ) : WithTop ℝ)) (fun τ hτ => by
      simp only [objectiveFnWith]
      rw [mllObjectiveWith_score opts bnet lower pushforward predictive pr a θ est e loss xs h hN ys hv L hL ht he hk τ hτ]
      rfl)
  exact ⟨q, tried, _, c1, c3, c2⟩

/-- **C60 (other objectives).** The negative log-likelihood, chi-squared and calibration-error objectives do not depend on `curv_type`
or `vmap_over_data`: calibration gives the same outcome — result or exception — for any two choices of both, any method and any
keyword arguments; it is the outcome C52 and C53 describe. -/
theorem C60_other_objectives (opts' : CalibrationOptions) (bnet' : List X → PyTree ℝ → Except Err (Arr ℝ)) (fns : Option (List PfName))
    (ho : convertToEnum lower calibrationObjectiveValues false objective ≠ .ok (.member "marginal_log_likelihood")) :
    calibrationWith opts bnet lower rows points a data loss e predictive pushforward fns objective method options kw =
      calibrationWith opts' bnet' lower rows points a data loss e predictive pushforward fns objective method options kw ∧
    calibrationWith opts bnet lower rows points a data loss e predictive pushforward fns objective method options kw =
      calibration lower rows points a data loss e predictive pushforward fns objective method options kw := by
  have key : ∀ o, buildCalibrationObjective lower objective false false false false false (isClassification predictive) = .ok o →
      ∀ s, objectiveFnWith opts bnet a s loss e o = objectiveFnWith opts' bnet' a s loss e o ∧
        objectiveFnWith opts bnet a s loss e o = objectiveFn a s loss e o := by
    intro o hobj s
    cases o with
    | nll _ => exact ⟨rfl, rfl⟩
    | chi2 => exact ⟨rfl, rfl⟩
    | ece => exact ⟨rfl, rfl⟩
    | mll =>
      exfalso
      simp only [buildCalibrationObjective] at hobj
      cases hc : convertToEnum lower calibrationObjectiveValues false objective with
      | error er => rw [hc] at hobj; simp [error_bind] at hobj
      | ok m =>
        rw [hc] at ho hobj
        rw [ok_bind] at hobj
        have hm' : m ≠ .member "marginal_log_likelihood" := fun hx => ho (by rw [hx])
        simp only [if_neg hm'] at hobj
        split_ifs at hobj <;> simp_all [pure, Except.pure]
  constructor
  · simp only [calibrationWith]
    cases h1 : setupPushforward lower pushforward predictive fns with
    | error er => rfl
    | ok pf =>
      simp only [ok_bind]
      cases h2 : buildCalibrationObjective lower objective false false false false false (isClassification predictive) with
      | error er => rfl
      | ok o => simp only [ok_bind, (key o h2 _).1]
  · simp only [calibrationWith, calibration]
    cases h1 : setupPushforward lower pushforward predictive fns with
    | error er => rfl
    | ok pf =>
      simp only [ok_bind]
      cases h2 : buildCalibrationObjective lower objective false false false false false (isClassification predictive) with
      | error er => rfl
      | ok o => simp only [ok_bind, (key o h2 _).2]; rfl

/-- **C60 (default of `vmap_over_data`).** `vmap_over_data` is true unless given: calibration then never calls the model on a whole
batch, so that the outcome — result or exception, for every objective, method and keyword argument — is the same for any two behaviours
of the model on batches; and it is the outcome with `vmap_over_data=True` written out. -/
theorem C60_default_per_sample (t : EnumArg) (bnet' : List X → PyTree ℝ → Except Err (Arr ℝ)) (fns : Option (List PfName)) :
    calibrationWith { curvType := t } bnet lower rows points a data loss e predictive pushforward fns objective method options kw =
      calibrationWith { curvType := t, vmapOverData := true } bnet' lower rows points a data loss e predictive pushforward fns objective
        method options kw := by
  have key : ∀ o s, objectiveFnWith { curvType := t } bnet a s loss e o =
      objectiveFnWith { curvType := t, vmapOverData := true } bnet' a s loss e o := by
    intro o s
    cases o <;> rfl
  simp only [calibrationWith, key]

/-- **C60 (registered methods).** A registered calibration method gets an objective that is the negative log evidence of the estimate at
every positive precision (for a fitting type), and its result is returned. -/
theorem C60_registered_method (h : ApiLinear lower pushforward predictive pr a θ est)
    (ho : convertToEnum lower calibrationObjectiveValues false objective = .ok (.member "marginal_log_likelihood"))
    (s : String) (hs : lower s ∉ calibrationMethodValues) (f : CalMethod (PyObj A) (WithTop ℝ)) (hf : options.get? s = some f)
    (hN : 0 < N) (ys : Fin N → Vec (shapeSize a.net.shape)) (hb : BatchIs points data xs fun i => arrOf a.net.shape (ys i))
    (hv : BatchedModel opts a.net bnet a.params θ xs) (L : ℝ) (hL : BatchLoss a.net.fn θ (loss N) xs ys L)
    (ht : TypeFits opts.curvType e) (he : EstimatePsd e) (hk : ∀ r (t : LowRankTerms p r), e ≠ .lowRank t) :
    ∃ obj d set, calibrationWith opts bnet lower rows points a data loss e predictive pushforward none objective (.str s) options kw =
        (f obj d).map (fun r => (r, set, [])) ∧ ∀ τ, 0 < τ → obj ⟨some τ, none⟩ d = .num ((mllScore θ e L τ : ℝ) : WithTop ℝ) := by
  obtain ⟨fns, eps, R, h1, -, -⟩ := api_linear h
  obtain ⟨xy, b1, b2⟩ := hb
  obtain ⟨tr, d, t1, t2, t3⟩ := batch_points b1 rows points _ b2
  have hobj : buildCalibrationObjective lower objective false false false false false (isClassification predictive) = .ok .mll := by
    rw [build_objective _ ho]; cases isClassification predictive <;> rfl
  refine ⟨onBatch points (objectiveFnWith opts bnet a (setPushforward a .lin fns) loss e .mll), d, setPushforward a .lin fns, ?_, fun τ hτ => ?_⟩
  · simp only [calibrationWith, h1, ok_bind, hobj, convertToEnum, hs, if_false, if_true, hf, t1, t2]
    rw [if_neg (by simp)]
    cases f (onBatch points (objectiveFnWith opts bnet a (setPushforward a .lin fns) loss e .mll)) d <;> rfl
  · simp only [onBatch, t3, objectiveFnWith]
    exact mllObjectiveWith_score opts bnet lower pushforward predictive pr a θ est e loss xs h hN ys hv L hL ht he hk τ hτ

/-- The objective with loss `"cross_entropy"`. -/
theorem mllObjectiveWith_ce (h : ApiLinear lower pushforward predictive pr a θ est) (hN : 0 < N)
    (ys : Fin N → Vec (shapeSize a.net.shape)) (hv : BatchedModel opts a.net bnet a.params θ xs)
    (hL : loss N = .name "cross_entropy") (h2 : 1 < N * shapeSize a.net.shape) (τ : ℝ) :
    mllObjectiveWith opts.curvType opts.vmapOverData a.net bnet a.params loss e
      (List.ofFn fun i => (xs i, arrOf a.net.shape (ys i))) ⟨some τ, none⟩ =
        match logDetBy opts.curvType e ⟨some τ, none⟩ with
        | .ok _ => .array
        | .error err => .raises err := by
  have hm := batchOutputs_ok opts bnet lower pushforward predictive pr a θ est xs h hN (fun i => arrOf a.net.shape (ys i)) hv
  have hy : stackOf ((List.ofFn fun i => (xs i, arrOf a.net.shape (ys i))).map (·.2)) = .ok (ensArr a.net.shape ys) := by
    obtain ⟨n, rfl⟩ : ∃ n, N = n + 1 := ⟨N - 1, by omega⟩
    simp [stackOf, stackArr, ensArr, arrOf, List.ofFn_succ, List.map_ofFn, Function.comp_def]
  have hl : loss (List.ofFn fun i => (xs i, arrOf a.net.shape (ys i))).length = .name "cross_entropy" := by rw [List.length_ofFn]; exact hL
  simp only [mllObjectiveWith, batchLossFn, hl, if_neg (show ¬ ("cross_entropy" = "mse") by decide), if_true, hm, hy, ok_bind, ceLossArr]
  rw [bcast2_same _ (ensArr a.net.shape fun i => a.net.fn (xs i) θ) _ (ensArr_wf _ _) (ensArr_wf _ ys) rfl]
  simp only [ok_bind]
  cases logDetBy opts.curvType e ⟨some τ, none⟩ with
  | error err => rfl
  | ok D =>
    show (if 1 < _ then _ else _) = _
    rw [if_pos]
    simpa [ensArr, List.length_flatten, Function.comp_def] using h2

/-- **C60 (finding: cross entropy).** With loss `"cross_entropy"` (one value per output entry) evidence calibration raises `ValueError`
for every fitting type, and for a batched model too; for a type that is in no table, `KeyError`. -/
theorem C60_cross_entropy_raises (h : ApiLinear lower pushforward predictive pr a θ est)
    (ho : convertToEnum lower calibrationObjectiveValues false objective = .ok (.member "marginal_log_likelihood"))
    (hm : convertToEnum lower calibrationMethodValues true method = .ok (.member "grid_search")) (hn : 0 < kw.gridSize.getD 50)
    (hN : 0 < N) (ys : Fin N → Vec (shapeSize a.net.shape)) (hb : BatchIs points data xs fun i => arrOf a.net.shape (ys i))
    (hv : BatchedModel opts a.net bnet a.params θ xs) (hL : loss N = .name "cross_entropy") (h2 : 1 < N * shapeSize a.net.shape) :
    (TypeFits opts.curvType e →
      calibrationWith opts bnet lower rows points a data loss e predictive pushforward none objective method options kw = .error .valueError) ∧
    ((∀ v ∈ ["full", "diagonal", "lanczos", "lobpcg"], opts.curvType ≠ .member v ∧ opts.curvType ≠ .str v) →
      calibrationWith opts bnet lower rows points a data loss e predictive pushforward none objective method options kw = .error .keyError) := by
  obtain ⟨fns, eps, R, h1, -, -⟩ := api_linear h
  obtain ⟨xy, b1, b2⟩ := hb
  refine ⟨fun ht => ?_, fun hbad => ?_⟩ <;>
  refine calibrationWith_grid_error opts bnet lower rows points pushforward predictive objective method a e data loss options kw .lin fns none h1 .mll
      (by rw [build_objective _ ho]; cases isClassification predictive <;> rfl) hm b1 _ b2 hn _ fun τ hτ => ?_ <;>
  simp only [objectiveFnWith] <;>
  rw [mllObjectiveWith_ce opts bnet lower pushforward predictive pr a θ est e loss xs h hN ys hv hL h2]
  · obtain ⟨D, hD⟩ := logDetBy_fits opts e ht τ
    rw [hD]
    rfl
  · rw [logDetBy_unknown opts e hbad]
    rfl

/-- **C60 (finding: unknown losses).** A loss that the evidence does not know makes calibration return the smallest precision of the grid
without any error, for every curvature type (also one in no table) and both values of `vmap_over_data`. -/
theorem C60_unknown_loss_silent (h : ApiLinear lower pushforward predictive pr a θ est)
    (ho : convertToEnum lower calibrationObjectiveValues false objective = .ok (.member "marginal_log_likelihood"))
    (hm : convertToEnum lower calibrationMethodValues true method = .ok (.member "grid_search")) (hn : 0 < kw.gridSize.getD 50)
    (ts : Fin N → Arr ℝ) (hb : BatchIs points data xs ts)
    (hL : loss N = .other ∨ ∃ s, s ≠ "mse" ∧ s ≠ "cross_entropy" ∧ loss N = .name s) :
    ∃ tried set, calibrationWith opts bnet lower rows points a data loss e predictive pushforward none objective method options kw =
        .ok (⟨some ((10 : ℝ) ^ kw.logPriorPrecMin.getD (-3)), none⟩, set, tried) := by
  obtain ⟨fns, eps, R, h1, -, -⟩ := api_linear h
  obtain ⟨xy, b1, b2⟩ := hb
  obtain ⟨q, tried, c1, c2, c3⟩ := calibrationWith_grid opts bnet lower rows points a data loss e predictive pushforward none objective method
    options kw .lin fns h1 .mll (by rw [build_objective _ ho]; cases isClassification predictive <;> rfl) hm b1 _ b2 hn (fun _ => ⊤) (fun τ hτ => by
      rcases hL with hL | ⟨s, s1, s2, hL⟩
      · have hl : loss (List.ofFn fun i => (xs i, ts i)).length = .other := by rw [List.length_ofFn]; exact hL
        simp only [objectiveFnWith, mllObjectiveWith, batchLossFn, hl]
        rfl
      · have hl : loss (List.ofFn fun i => (xs i, ts i)).length = .name s := by rw [List.length_ofFn]; exact hL
        simp only [objectiveFnWith, mllObjectiveWith, batchLossFn, hl, if_neg s1, if_neg s2]
        rfl)
  have := chosen_all_top c2
  rw [precGrid_head _ _ _ hn] at this
  cases this
  exact ⟨tried, _, c1⟩

/-- **C60 (low-rank estimates).** With a type naming a low-rank estimate, the log determinant of the posterior precision is replaced by
`r log τ + ∑ₖ log(1 + τ Sₖ)`. -/
theorem C60_low_rank_score (h : ApiLinear lower pushforward predictive pr a θ est)
    (ho : convertToEnum lower calibrationObjectiveValues false objective = .ok (.member "marginal_log_likelihood"))
    (hm : convertToEnum lower calibrationMethodValues true method = .ok (.member "grid_search")) (hn : 0 < kw.gridSize.getD 50)
    (hN : 0 < N) (ys : Fin N → Vec (shapeSize a.net.shape)) (hb : BatchIs points data xs fun i => arrOf a.net.shape (ys i))
    (hv : BatchedModel opts a.net bnet a.params θ xs) (L : ℝ) (hL : BatchLoss a.net.fn θ (loss N) xs ys L)
    {r : ℕ} (t : LowRankTerms p r) (ht : TypeFits opts.curvType (.lowRank t)) :
    ∃ q tried set, calibrationWith opts bnet lower rows points a data loss (.lowRank t) predictive pushforward none objective method options kw =
        .ok (⟨some q, none⟩, set, tried) ∧ 0 < q ∧
      ChosenBy (precGrid (kw.logPriorPrecMin.getD (-3)) (kw.logPriorPrecMax.getD 3) (kw.gridSize.getD 50))
        (fun τ => (detScore θ L (r * Real.log τ + ∑ k, Real.log (1 + τ * t.S k)) τ : ℝ)) kw.patience q tried := by
  obtain ⟨v, hv1, hv2⟩ := ht
  have hkey : curvKey opts.curvType = some v := by rcases hv1 with hv1 | hv1 <;> rw [hv1] <;> rfl
  refine evidence_chosen opts bnet lower rows points pushforward predictive objective method pr a θ est _ data loss options kw xs h ho hm hn hN ys
    hb hv L hL (fun τ => r * Real.log τ + ∑ k, Real.log (1 + τ * t.S k)) fun τ _ => ?_
  have e1 : v ≠ "full" := by rcases hv2 with rfl | rfl <;> decide
  have e2 : v ≠ "diagonal" := by rcases hv2 with rfl | rfl <;> decide
  simp only [logDetBy, hkey, if_neg e1, if_neg e2, if_pos hv2, lowRankCurvatureToPrecision, PriorArgs.getPriorPrec, ok_bind,
    PriorArgs.getSigmaSquared, Option.getD_none, one_mul, div_one]
  rfl

/-- **C60 (finding: spellings).** `laplace` accepts the curvature type in any case; evidence calibration reads its tables with the
argument itself, so every string but the four exact values raises `KeyError`. -/
theorem C60_spelling_raises (h : ApiLinear lower pushforward predictive pr a θ est)
    (ho : convertToEnum lower calibrationObjectiveValues false objective = .ok (.member "marginal_log_likelihood"))
    (hm : convertToEnum lower calibrationMethodValues true method = .ok (.member "grid_search")) (hn : 0 < kw.gridSize.getD 50)
    (hN : 0 < N) (ys : Fin N → Vec (shapeSize a.net.shape)) (hb : BatchIs points data xs fun i => arrOf a.net.shape (ys i))
    (hv : BatchedModel opts a.net bnet a.params θ xs) (L : ℝ) (hL : BatchLoss a.net.fn θ (loss N) xs ys L)
    (hbad : ∀ v ∈ ["full", "diagonal", "lanczos", "lobpcg"], opts.curvType ≠ .member v ∧ opts.curvType ≠ .str v) :
    calibrationWith opts bnet lower rows points a data loss e predictive pushforward none objective method options kw = .error .keyError := by
  refine (evidence_fails opts bnet lower rows points pushforward predictive objective method pr a θ est e data loss options kw xs h ho hm hn hN ys
    hb hv L hL .keyError fun τ _ => ?_).2 (by simp)
  exact logDetBy_unknown opts e hbad _

/-- **C60 (finding: low-rank type, other estimate).** With `"lanczos"` or `"lobpcg"` and a dense or diagonal estimate, unpacking the
estimate fails with `ValueError`, which the search counts as infinite: the smallest precision of the grid is returned without any
error. -/
theorem C60_low_rank_type_silent (h : ApiLinear lower pushforward predictive pr a θ est)
    (ho : convertToEnum lower calibrationObjectiveValues false objective = .ok (.member "marginal_log_likelihood"))
    (hm : convertToEnum lower calibrationMethodValues true method = .ok (.member "grid_search")) (hn : 0 < kw.gridSize.getD 50)
    (hN : 0 < N) (ys : Fin N → Vec (shapeSize a.net.shape)) (hb : BatchIs points data xs fun i => arrOf a.net.shape (ys i))
    (hv : BatchedModel opts a.net bnet a.params θ xs) (L : ℝ) (hL : BatchLoss a.net.fn θ (loss N) xs ys L)
    (hk : ∀ r (t : LowRankTerms p r), e ≠ .lowRank t)
    (ht : ∃ v, (v = "lanczos" ∨ v = "lobpcg") ∧ (opts.curvType = .member v ∨ opts.curvType = .str v)) :
    ∃ tried set, calibrationWith opts bnet lower rows points a data loss e predictive pushforward none objective method options kw =
        .ok (⟨some ((10 : ℝ) ^ kw.logPriorPrecMin.getD (-3)), none⟩, set, tried) := by
  obtain ⟨v, hv2, hv1⟩ := ht
  have hkey : curvKey opts.curvType = some v := by rcases hv1 with hv1 | hv1 <;> rw [hv1] <;> rfl
  refine (evidence_fails opts bnet lower rows points pushforward predictive objective method pr a θ est e data loss options kw xs h ho hm hn hN ys
    hb hv L hL .valueError fun τ _ => ?_).1 rfl
  have e1 : v ≠ "full" := by rcases hv2 with rfl | rfl <;> decide
  have e2 : v ≠ "diagonal" := by rcases hv2 with rfl | rfl <;> decide
  cases e with
  | full C => simp only [logDetBy, hkey, if_neg e1, if_neg e2, if_pos hv2, PriorArgs.getPriorPrec, ok_bind]
  | diagonal C => simp only [logDetBy, hkey, if_neg e1, if_neg e2, if_pos hv2, PriorArgs.getPriorPrec, ok_bind]
  | lowRank t => exact absurd rfl (hk _ t)

/-- **C60 (dense or diagonal type, low-rank estimate).** `TypeError`. -/
theorem C60_array_type_on_low_rank (h : ApiLinear lower pushforward predictive pr a θ est)
    (ho : convertToEnum lower calibrationObjectiveValues false objective = .ok (.member "marginal_log_likelihood"))
    (hm : convertToEnum lower calibrationMethodValues true method = .ok (.member "grid_search")) (hn : 0 < kw.gridSize.getD 50)
    (hN : 0 < N) (ys : Fin N → Vec (shapeSize a.net.shape)) (hb : BatchIs points data xs fun i => arrOf a.net.shape (ys i))
    (hv : BatchedModel opts a.net bnet a.params θ xs) (L : ℝ) (hL : BatchLoss a.net.fn θ (loss N) xs ys L)
    {r : ℕ} (t : LowRankTerms p r)
    (ht : ∃ v, (v = "full" ∨ v = "diagonal") ∧ (opts.curvType = .member v ∨ opts.curvType = .str v)) :
    calibrationWith opts bnet lower rows points a data loss (.lowRank t) predictive pushforward none objective method options kw =
      .error .typeError := by
  obtain ⟨v, hv2, hv1⟩ := ht
  have hkey : curvKey opts.curvType = some v := by rcases hv1 with hv1 | hv1 <;> rw [hv1] <;> rfl
  refine (evidence_fails opts bnet lower rows points pushforward predictive objective method pr a θ est _ data loss options kw xs h ho hm hn hN ys
    hb hv L hL .typeError fun τ _ => ?_).2 (by simp)
  rcases hv2 with rfl | rfl
  · simp only [logDetBy, hkey, if_true, PriorArgs.getPriorPrec, ok_bind]
  · simp only [logDetBy, hkey, if_neg (show ¬ ("diagonal" = "full") by decide), if_true, PriorArgs.getPriorPrec, ok_bind]

theorem det_rows (d : Vec p) (τ : ℝ) (hτ : 0 < τ) (hp : 0 < p) :
    (Matrix.of fun i j : Fin p => d j + τ * (if i = j then 1 else 0)).det = τ ^ (p - 1) * (τ + ∑ i, d i) := by
  have : (Matrix.of fun i j : Fin p => d j + τ * (if i = j then 1 else 0)) =
      τ • (1 + Matrix.replicateCol Unit (fun _ : Fin p => (1 : ℝ)) * Matrix.replicateRow Unit (fun j => d j / τ)) := by
    ext i j
    simp only [Matrix.of_apply, Matrix.smul_apply, Matrix.add_apply, Matrix.mul_apply, Matrix.one_apply, Matrix.replicateCol_apply,
      Matrix.replicateRow_apply, Finset.univ_unique, Finset.sum_const, Finset.card_singleton, one_smul, one_mul, smul_eq_mul]
    field_simp
    ring
  rw [this, Matrix.det_smul, Matrix.det_one_add_replicateCol_mul_replicateRow]
  obtain ⟨n, rfl⟩ : ∃ n, p = n + 1 := ⟨p - 1, by omega⟩
  simp [dotProduct, ← Finset.sum_div, pow_succ]
  field_simp

/-- **C60 (finding: dense type, diagonal estimate).** With `"full"` and a diagonal estimate `d`, numpy broadcasting adds the prior to the
matrix all of whose rows are `d`: without any error, the search uses `(p-1) log τ + log (τ + ∑ dᵢ)` as the log determinant, not the
`∑ log (τ + dᵢ)` of the estimate. -/
theorem C60_full_type_on_diagonal (h : ApiLinear lower pushforward predictive pr a θ est)
    (ho : convertToEnum lower calibrationObjectiveValues false objective = .ok (.member "marginal_log_likelihood"))
    (hm : convertToEnum lower calibrationMethodValues true method = .ok (.member "grid_search")) (hn : 0 < kw.gridSize.getD 50)
    (hN : 0 < N) (ys : Fin N → Vec (shapeSize a.net.shape)) (hb : BatchIs points data xs fun i => arrOf a.net.shape (ys i))
    (hv : BatchedModel opts a.net bnet a.params θ xs) (L : ℝ) (hL : BatchLoss a.net.fn θ (loss N) xs ys L)
    (d : Vec p) (hd : ∀ i, 0 ≤ d i) (ht : opts.curvType = .member "full" ∨ opts.curvType = .str "full") :
    ∃ q tried set, calibrationWith opts bnet lower rows points a data loss (.diagonal d) predictive pushforward none objective method options kw =
        .ok (⟨some q, none⟩, set, tried) ∧ 0 < q ∧
      ChosenBy (precGrid (kw.logPriorPrecMin.getD (-3)) (kw.logPriorPrecMax.getD 3) (kw.gridSize.getD 50))
        (fun τ => (detScore θ L (((p : ℝ) - 1) * Real.log τ + Real.log (τ + ∑ i, d i)) τ : ℝ)) kw.patience q tried := by
  have hkey : curvKey opts.curvType = some "full" := by rcases ht with hv1 | hv1 <;> rw [hv1] <;> rfl
  refine evidence_chosen opts bnet lower rows points pushforward predictive objective method pr a θ est _ data loss options kw xs h ho hm hn hN ys
    hb hv L hL (fun τ => ((p : ℝ) - 1) * Real.log τ + Real.log (τ + ∑ i, d i)) fun τ hτ => ?_
  have hs : 0 < τ + ∑ i, d i := add_pos_of_pos_of_nonneg hτ (Finset.sum_nonneg fun i _ => hd i)
  have hdet := det_rows d τ hτ h.nonempty
  simp only [logDetBy, hkey, if_true, fullCurvatureToPrecision, PriorArgs.getPriorPrec, ok_bind, PriorArgs.getSigmaSquared,
    Option.getD_none, one_mul, div_one, Matrix.of_apply]
  show Except.ok _ = _
  congr 1
  erw [hdet]
  rw [abs_of_pos (mul_pos (pow_pos hτ _) hs), Real.log_mul (pow_pos hτ _).ne' hs.ne', Real.log_pow]
  have hp := h.nonempty
  push_cast [Nat.cast_sub (show 1 ≤ p from hp)]
  rfl

/-- **C60 (finding: diagonal type, dense estimate).** With `"diagonal"` and a dense matrix the prior precision is added to all `p²`
entries and the logarithms of all of them are summed up — without any error. -/
theorem C60_diagonal_type_on_full (h : ApiLinear lower pushforward predictive pr a θ est)
    (ho : convertToEnum lower calibrationObjectiveValues false objective = .ok (.member "marginal_log_likelihood"))
    (hm : convertToEnum lower calibrationMethodValues true method = .ok (.member "grid_search")) (hn : 0 < kw.gridSize.getD 50)
    (hN : 0 < N) (ys : Fin N → Vec (shapeSize a.net.shape)) (hb : BatchIs points data xs fun i => arrOf a.net.shape (ys i))
    (hv : BatchedModel opts a.net bnet a.params θ xs) (L : ℝ) (hL : BatchLoss a.net.fn θ (loss N) xs ys L)
    (C : Matrix (Fin p) (Fin p) ℝ) (hC : ∀ i j, 0 ≤ C i j) (ht : opts.curvType = .member "diagonal" ∨ opts.curvType = .str "diagonal") :
    ∃ q tried set, calibrationWith opts bnet lower rows points a data loss (.full C) predictive pushforward none objective method options kw =
        .ok (⟨some q, none⟩, set, tried) ∧ 0 < q ∧
      ChosenBy (precGrid (kw.logPriorPrecMin.getD (-3)) (kw.logPriorPrecMax.getD 3) (kw.gridSize.getD 50))
        (fun τ => (detScore θ L (∑ i, ∑ j, Real.log (C i j + τ)) τ : ℝ)) kw.patience q tried := by
  have hkey : curvKey opts.curvType = some "diagonal" := by rcases ht with hv1 | hv1 <;> rw [hv1] <;> rfl
  refine evidence_chosen opts bnet lower rows points pushforward predictive objective method pr a θ est _ data loss options kw xs h ho hm hn hN ys
    hb hv L hL (fun τ => ∑ i, ∑ j, Real.log (C i j + τ)) fun τ hτ => ?_
  have hmap : mapE (fun i => diagonalCurvatureToPrecision (C i) ⟨some τ, none⟩ 1) (List.ofFn fun i : Fin p => i) =
      .ok (List.ofFn fun i j => C i j + τ) := mapE_ofFn _ _ _ fun i => by
    simp only [diagonalCurvatureToPrecision, PriorArgs.getPriorPrec, ok_bind, PriorArgs.getSigmaSquared, Option.getD_none, one_mul, mul_one, div_one]
    rfl
  simp only [logDetBy, hkey, if_neg (show ¬ ("diagonal" = "full") by decide), if_true, hmap, ok_bind]
  rw [if_pos (by
    intro row hrow j
    obtain ⟨i, rfl⟩ := (List.mem_ofFn' _ _).1 hrow
    exact add_pos_of_nonneg_of_pos (hC i j) hτ)]
  show Except.ok _ = _
  congr 1
  rw [List.map_ofFn, List.sum_ofFn]
  rfl

/-- **C60 (batched model that fails).** With `vmap_over_data=False`, a fitting curvature type and any loss that the evidence knows: an exception of the model
called on the whole batch is passed on — except `ValueError`, which counts as infinite, so that the smallest precision of the grid is
returned. -/
theorem C60_batched_model_fails (h : ApiLinear lower pushforward predictive pr a θ est)
    (ho : convertToEnum lower calibrationObjectiveValues false objective = .ok (.member "marginal_log_likelihood"))
    (hm : convertToEnum lower calibrationMethodValues true method = .ok (.member "grid_search")) (hn : 0 < kw.gridSize.getD 50)
    (ts : Fin N → Arr ℝ) (hb : BatchIs points data xs ts) (hv : opts.vmapOverData = false) (err : Err)
    (hbn : bnet (List.ofFn xs) a.params = .error err) (hL : loss N = .name "mse" ∨ loss N = .name "cross_entropy" ∨ ∃ ℓ, loss N = .callable ℓ)
    (ht : TypeFits opts.curvType e) :
    (err = .valueError → ∃ tried set,
      calibrationWith opts bnet lower rows points a data loss e predictive pushforward none objective method options kw =
        .ok (⟨some ((10 : ℝ) ^ kw.logPriorPrecMin.getD (-3)), none⟩, set, tried)) ∧
    (err ≠ .valueError →
      calibrationWith opts bnet lower rows points a data loss e predictive pushforward none objective method options kw = .error err) := by
  have hobj : ∀ τ : ℝ, mllObjectiveWith opts.curvType opts.vmapOverData a.net bnet a.params loss e (List.ofFn fun i => (xs i, ts i))
      ⟨some τ, none⟩ = .raises err := by
    intro τ
    obtain ⟨flat, hflat⟩ : ∃ l, fullFlatten a.params = .ok l :=
      ⟨_, ((C02_full_flatten a.params).2 (leaves_ne_of_entries h.nonempty h.params)).1⟩
    obtain ⟨D, hD⟩ := logDetBy_fits opts e ht τ
    rcases hL with hL | hL | ⟨ℓ, hL⟩
    · have hl : loss (List.ofFn fun i => (xs i, ts i)).length = .name "mse" := by rw [List.length_ofFn]; exact hL
      simp only [mllObjectiveWith, batchLossFn, hl, if_true, mllBy, hD, ok_bind, jointLogLikelihood, hflat, PriorArgs.getPriorPrec, hv,
        batchOutputs, List.map_ofFn, Function.comp_def, hbn, error_bind]
      rfl
    · have hl : loss (List.ofFn fun i => (xs i, ts i)).length = .name "cross_entropy" := by rw [List.length_ofFn]; exact hL
      simp only [mllObjectiveWith, batchLossFn, hl, if_neg (show ¬ ("cross_entropy" = "mse") by decide), if_true, hD, hv,
        batchOutputs, List.map_ofFn, Function.comp_def, hbn, error_bind]
    · obtain ⟨data, hdata⟩ : ∃ data, data = List.ofFn fun i => (xs i, ts i) := ⟨_, rfl⟩
      have hlen : data.length = N := by rw [hdata, List.length_ofFn]
      have hx : data.map (·.1) = List.ofFn xs := by rw [hdata, List.map_ofFn]; rfl
      rw [← hdata]
      subst hlen
      simp only [mllObjectiveWith, batchLossFn, hL, mllBy, hD, ok_bind, jointLogLikelihood, hflat, PriorArgs.getPriorPrec, hv,
        batchOutputs, hx, hbn, error_bind]
      rfl
  obtain ⟨fns, eps, R, h1, -, -⟩ := api_linear h
  obtain ⟨xy, b1, b2⟩ := hb
  refine ⟨fun hv' => ?_, fun hne => ?_⟩
  · subst hv'
    obtain ⟨q, tried, c1, c2, c3⟩ := calibrationWith_grid opts bnet lower rows points a data loss e predictive pushforward none objective
      method options kw
      .lin fns h1 .mll (by rw [build_objective _ ho]; cases isClassification predictive <;> rfl) hm b1 _ b2 hn (fun _ => ⊤) (fun τ hτ => by
        simp only [objectiveFnWith, hobj]
        rfl)
    have := chosen_all_top c2
    rw [precGrid_head _ _ _ hn] at this
    cases this
    exact ⟨tried, _, c1⟩
  · refine calibrationWith_grid_error opts bnet lower rows points pushforward predictive objective method a e data loss options kw .lin fns none h1 .mll
      (by rw [build_objective _ ho]; cases isClassification predictive <;> rfl) hm b1 _ b2 hn _ fun τ hτ => ?_
    simp only [objectiveFnWith, hobj]
    cases err <;> first | rfl | exact absurd rfl hne

end

/-! ### Non-vacuity -/

/-- A batched version of the network of the example. -/
noncomputable def testBatched (xs : List ℝ) (t : PyTree ℝ) : Except Err (Arr ℝ) := do
  let ms ← mapE (fun x => testNet.call x t) xs
  stackOf ms

theorem testBatched_ok {opts : CalibrationOptions} : BatchedModel opts testArgs.net testBatched testArgs.params ![3, 5] ![1, 2] := by
  refine Or.inr ?_
  have hcall : mapE (fun x => testNet.call x testArgs.params) (List.ofFn ![(1 : ℝ), 2]) =
      .ok (List.ofFn fun i => arrOf testNet.shape (testNet.fn (![1, 2] i) ![3, 5])) :=
    mapE_ofFn _ _ _ fun i => by simp only [Net.call, asParams_eq test_apiLinear.params, ok_bind]; rfl
  simp only [testBatched, hcall, ok_bind]
  rfl

/-- A batched model with the type as a member. -/
example : ∃ q tried set, calibrationWith ⟨.member "full", false⟩ testBatched (fun s => if s = "Linear" then "linear" else s) (fun _ => .error .valueError) testPoints testArgs
      (.tup [.arr [1, 2], .arr [4, 5, 6, 7]]) (fun _ => .name "mse") (.full !![2, 2; 2, 2]) (.member "none") (.str "Linear") none
      (.str "marginal_log_likelihood") (.str "grid_search") [] {} = .ok (⟨some q, none⟩, set, tried) ∧ 0 < q := by
  obtain ⟨q, tried, set, h1, h2, -⟩ := C60_evidence_partial ⟨.member "full", false⟩ testBatched _ (fun _ => .error .valueError) testPoints (.str "Linear") (.member "none")
    (.str "marginal_log_likelihood") (.str "grid_search") "none" testArgs ![3, 5] (.full !![2, 2; 2, 2]) (.full !![2, 2; 2, 2]) 
    (.tup [.arr [1, 2], .arr [4, 5, 6, 7]]) (fun _ => .name "mse") [] {} ![1, 2] test_apiLinear rfl rfl (by decide) (by norm_num) _ test_batch
    testBatched_ok _ (.inl ⟨rfl, rfl⟩)
    ⟨"full", .inl rfl, rfl⟩ test_psd (fun _ _ => by simp)
  exact ⟨q, tried, set, h1, h2⟩

/-- `laplace` accepts the spelling `"FULL"`; evidence calibration does not. -/
example : calibrationWith ⟨.str "FULL", true⟩ testBatched (fun s => if s = "Linear" then "linear" else s) (fun _ => .error .valueError) testPoints testArgs
      (.tup [.arr [1, 2], .arr [4, 5, 6, 7]]) (fun _ => .name "mse") (.full !![2, 2; 2, 2]) (.member "none") (.str "Linear") none
      (.str "marginal_log_likelihood") (.str "grid_search") [] {} = .error .keyError :=
  C60_spelling_raises ⟨.str "FULL", true⟩ testBatched _ (fun _ => .error .valueError) testPoints (.str "Linear") (.member "none")
    (.str "marginal_log_likelihood") (.str "grid_search") "none" testArgs ![3, 5] (.full !![2, 2; 2, 2]) (.full !![2, 2; 2, 2]) 
    (.tup [.arr [1, 2], .arr [4, 5, 6, 7]]) (fun _ => .name "mse") [] {} ![1, 2] test_apiLinear rfl rfl (by decide) (by norm_num) _ test_batch
    testBatched_ok _ (.inl ⟨rfl, rfl⟩) (by decide)

/-- The dense estimate called `"lanczos"`: the answer is `10^-3`. -/
example : ∃ tried set, calibrationWith ⟨.str "lanczos", true⟩ testBatched (fun s => if s = "Linear" then "linear" else s) (fun _ => .error .valueError) testPoints testArgs
      (.tup [.arr [1, 2], .arr [4, 5, 6, 7]]) (fun _ => .name "mse") (.full !![2, 2; 2, 2]) (.member "none") (.str "Linear") none
      (.str "marginal_log_likelihood") (.str "grid_search") [] {} =
      .ok (⟨some ((10 : ℝ) ^ (-3 : ℝ)), none⟩, set, tried) :=
  C60_low_rank_type_silent ⟨.str "lanczos", true⟩ testBatched _ (fun _ => .error .valueError) testPoints (.str "Linear") (.member "none")
    (.str "marginal_log_likelihood") (.str "grid_search") "none" testArgs ![3, 5] (.full !![2, 2; 2, 2]) (.full !![2, 2; 2, 2]) 
    (.tup [.arr [1, 2], .arr [4, 5, 6, 7]]) (fun _ => .name "mse") [] {} ![1, 2] test_apiLinear rfl rfl (by decide) (by norm_num) _ test_batch
    testBatched_ok _ (.inl ⟨rfl, rfl⟩) (fun _ _ => by simp)
    ⟨"lanczos", .inl rfl, .inr rfl⟩

/-- The diagonal estimate `(1, 1)` called `"full"`: the score uses `log (τ (τ + 2))` where `log (τ + 1)²` would be right. -/
example : ∃ q tried set, calibrationWith ⟨.str "full", true⟩ testBatched (fun s => if s = "Linear" then "linear" else s) (fun _ => .error .valueError) testPoints testArgs
      (.tup [.arr [1, 2], .arr [4, 5, 6, 7]]) (fun _ => .name "mse") (.diagonal ![1, 1]) (.member "none") (.str "Linear") none
      (.str "marginal_log_likelihood") (.str "grid_search") [] {} = .ok (⟨some q, none⟩, set, tried) ∧
    BestOf (precGrid (-3) 3 50) (fun τ => (detScore ![3, 5] ((3 * 5 - 4) ^ 2 + (1 * 3 - 5) ^ 2 + ((3 * 5 - 6) ^ 2 + (2 * 3 - 7) ^ 2)) (Real.log τ + Real.log (τ + 2)) τ : ℝ)) q := by
  obtain ⟨q, tried, set, h1, h2, h3⟩ := C60_full_type_on_diagonal ⟨.str "full", true⟩ testBatched _ (fun _ => .error .valueError) testPoints (.str "Linear") (.member "none")
    (.str "marginal_log_likelihood") (.str "grid_search") "none" testArgs ![3, 5] (.full !![2, 2; 2, 2]) 
    (.tup [.arr [1, 2], .arr [4, 5, 6, 7]]) (fun _ => .name "mse") [] {} ![1, 2] test_apiLinear rfl rfl (by decide) (by norm_num) _ test_batch
    testBatched_ok _ (.inl ⟨rfl, rfl⟩)
    ![1, 1] (fun i => by fin_cases i <;> simp) (.inr rfl)
  refine ⟨q, tried, set, h1, ?_⟩
  have hl : ∑ i, ∑ k, (testArgs.net.fn (![1, 2] i) ![3, 5] k - (![![4, 5], ![6, 7]] : Fin 2 → Fin 2 → ℝ) i k) ^ 2 =
      (3 * 5 - 4) ^ 2 + (1 * 3 - 5) ^ 2 + ((3 * 5 - 6) ^ 2 + (2 * 3 - 7) ^ 2) := by
    show ∑ i : Fin 2, ∑ k : Fin 2, (testNet.fn (![1, 2] i) ![3, 5] k - (![![4, 5], ![6, 7]] : Fin 2 → Fin 2 → ℝ) i k) ^ 2 = _
    simp [testNet, Fin.sum_univ_two]
  have hd : ∀ τ : ℝ, (((2 : ℕ) : ℝ) - 1) * Real.log τ + Real.log (τ + ∑ i, (![1, 1] : Fin 2 → ℝ) i) = Real.log τ + Real.log (τ + 2) := by
    intro τ; norm_num [Fin.sum_univ_two]
  have h4 := (C52_without_patience h3).2
  simp only [hl, hd] at h4
  exact h4

/-- The dense estimate called `"diagonal"`. -/
example : ∃ q tried set, calibrationWith ⟨.str "diagonal", true⟩ testBatched (fun s => if s = "Linear" then "linear" else s) (fun _ => .error .valueError) testPoints testArgs
      (.tup [.arr [1, 2], .arr [4, 5, 6, 7]]) (fun _ => .name "mse") (.full !![2, 2; 2, 2]) (.member "none") (.str "Linear") none
      (.str "marginal_log_likelihood") (.str "grid_search") [] {} = .ok (⟨some q, none⟩, set, tried) ∧ 0 < q := by
  obtain ⟨q, tried, set, h1, h2, h3⟩ := C60_diagonal_type_on_full ⟨.str "diagonal", true⟩ testBatched _ (fun _ => .error .valueError) testPoints (.str "Linear") (.member "none")
    (.str "marginal_log_likelihood") (.str "grid_search") "none" testArgs ![3, 5] (.full !![2, 2; 2, 2]) 
    (.tup [.arr [1, 2], .arr [4, 5, 6, 7]]) (fun _ => .name "mse") [] {} ![1, 2] test_apiLinear rfl rfl (by decide) (by norm_num) _ test_batch
    testBatched_ok _ (.inl ⟨rfl, rfl⟩)
    !![2, 2; 2, 2] (fun i j => by fin_cases i <;> fin_cases j <;> norm_num) (.inr rfl)
  exact ⟨q, tried, set, h1, h2⟩

/-- A low-rank estimate with its own type, and with a wrong one. -/
example (t : LowRankTerms 2 1) : (∃ q tried set, calibrationWith ⟨.str "lobpcg", true⟩ testBatched (fun s => if s = "Linear" then "linear" else s) (fun _ => .error .valueError) testPoints testArgs
      (.tup [.arr [1, 2], .arr [4, 5, 6, 7]]) (fun _ => .name "mse") (.lowRank t) (.member "none") (.str "Linear") none
      (.str "marginal_log_likelihood") (.str "grid_search") [] {} = .ok (⟨some q, none⟩, set, tried) ∧ 0 < q) ∧
    calibrationWith ⟨.str "full", true⟩ testBatched (fun s => if s = "Linear" then "linear" else s) (fun _ => .error .valueError) testPoints testArgs
      (.tup [.arr [1, 2], .arr [4, 5, 6, 7]]) (fun _ => .name "mse") (.lowRank t) (.member "none") (.str "Linear") none
      (.str "marginal_log_likelihood") (.str "grid_search") [] {} = .error .typeError := by
  obtain ⟨q, tried, set, h1, h2, h3⟩ := C60_low_rank_score ⟨.str "lobpcg", true⟩ testBatched _ (fun _ => .error .valueError) testPoints (.str "Linear") (.member "none")
    (.str "marginal_log_likelihood") (.str "grid_search") "none" testArgs ![3, 5] (.full !![2, 2; 2, 2]) 
    (.tup [.arr [1, 2], .arr [4, 5, 6, 7]]) (fun _ => .name "mse") [] {} ![1, 2] test_apiLinear rfl rfl (by decide) (by norm_num) _ test_batch
    testBatched_ok _ (.inl ⟨rfl, rfl⟩)
    t ⟨"lobpcg", .inr rfl, .inr rfl⟩
  exact ⟨⟨q, tried, set, h1, h2⟩, C60_array_type_on_low_rank ⟨.str "full", true⟩ testBatched _ (fun _ => .error .valueError) testPoints (.str "Linear") (.member "none")
    (.str "marginal_log_likelihood") (.str "grid_search") "none" testArgs ![3, 5] (.full !![2, 2; 2, 2]) 
    (.tup [.arr [1, 2], .arr [4, 5, 6, 7]]) (fun _ => .name "mse") [] {} ![1, 2] test_apiLinear rfl rfl (by decide) (by norm_num) _ test_batch
    testBatched_ok _ (.inl ⟨rfl, rfl⟩)
    t ⟨"full", .inl rfl, .inr rfl⟩⟩

end Laplax.Props
