import Verif.Props.Broadcast

/-! # C57: evidence calibration with targets of another shape, and with unknown losses -/

namespace Laplax.Props
open Laplax Spec
open scoped BigOperators Matrix

variable {X K A : Type} {p : ℕ}

/-- If the loss itself fails, so does the marginal likelihood, with the same exception. -/
theorem mll_error (params : PyTree ℝ) (hne : params.leaves ≠ []) (e : CurvEstimate p) (G : PyTree ℝ → Except Err ℝ) (err : Err)
    (hG : G params = .error err) (τ : ℝ) :
    marginalLogLikelihood e { toPriorArgs := ⟨some τ, none⟩, sigma := none } (.ok G) params = .error err := by
  obtain ⟨flat, hflat⟩ : ∃ l, fullFlatten params = .ok l := ⟨_, ((C02_full_flatten params).2 hne).1⟩
  have hj : jointLogLikelihood G { toPriorArgs := ⟨some τ, none⟩, sigma := none } params = .error err := by
    simp only [jointLogLikelihood, hflat, ok_bind, PriorArgs.getPriorPrec, hG, error_bind]
  cases e with
  | full C =>
    simp only [marginalLogLikelihood, ok_bind, fullCurvatureToPrecision, PriorArgs.getPriorPrec, fullMarginalLogLikelihood, hj, error_bind]
    rfl
  | diagonal d =>
    simp only [marginalLogLikelihood, ok_bind, diagonalCurvatureToPrecision, PriorArgs.getPriorPrec, diagonalMarginalLogLikelihood, hj, error_bind]
    rfl
  | lowRank t =>
    simp only [marginalLogLikelihood, ok_bind, lowRankCurvatureToPrecision, PriorArgs.getPriorPrec, lowRankMarginalLogLikelihood, hj, error_bind]
    rfl

/-- The targets of the batch do not have the shape of the outputs. -/
theorem lossTargets_error (sh : List ℕ) {N : ℕ} (hN : 0 < N) (xs : Fin N → X) (ts : Fin N → Arr ℝ) (hts : ∀ i, (ts i).shape ≠ sh) :
    ∃ err, mapE (fun dp : X × Arr ℝ => do
      let t ← lossTarget sh dp.2
      return (dp.1, t)) (List.ofFn fun i => (xs i, ts i)) = .error err := by
  obtain ⟨n, rfl⟩ : ∃ n, N = n + 1 := ⟨N - 1, by omega⟩
  rw [List.ofFn_succ]
  refine ⟨.unmodelled, mapE_first_error _ _ _ _ ?_⟩
  simp only [lossTarget]
  rw [if_neg (hts 0)]
  rfl

/-- The stacked outputs and targets of a batch. -/
theorem stackedOutputs_ok (net : Net X p) (params : PyTree ℝ) (θ : Vec p) (hθ : entries params = List.ofFn θ) {N : ℕ} (hN : 0 < N)
    (xs : Fin N → X) (ts : Fin N → Arr ℝ) (sht : List ℕ) (hts : ∀ i, (ts i).shape = sht) :
    stackedOutputs net (List.ofFn fun i => (xs i, ts i)) params =
      .ok (ensArr net.shape fun i => net.fn (xs i) θ, ⟨N :: sht, (List.ofFn fun i => (ts i).data).flatten⟩) := by
  have hcall : mapE (fun dp : X × Arr ℝ => net.call dp.1 params) (List.ofFn fun i => (xs i, ts i)) =
      .ok (List.ofFn fun i => arrOf net.shape (net.fn (xs i) θ)) :=
    mapE_ofFn _ _ _ fun i => by simp only [Net.call, asParams_eq hθ, ok_bind]; rfl
  simp only [stackedOutputs, hcall, ok_bind]
  obtain ⟨n, rfl⟩ : ∃ n, N = n + 1 := ⟨N - 1, by omega⟩
  simp [stackOf, stackArr, ensArr, arrOf, List.ofFn_succ, List.map_ofFn, Function.comp_def, hts]
  rfl

section
variable (lower : String → String) (rows : A → Except Err (List A)) (points : PyObj A → PyObj A → Except Err (List (X × Arr ℝ)))
  (pushforward predictive objective method : EnumArg) (pr : String) (a : PredictiveArgs X K p) (θ : Vec p) (est e : CurvEstimate p)
  (data : PyObj A) (loss : (B : ℕ) → HessLossArg B (shapeSize a.net.shape)) (options : Dict (CalMethod (PyObj A) (WithTop ℝ))) (kw : GridKwargs)
  {N : ℕ} (xs : Fin N → X)

/-- The marginal-likelihood objective on a batch whose stacked targets do not broadcast against the stacked outputs. -/
theorem mll_incompatible (h : ApiLinear lower pushforward predictive pr a θ est) (hN : 0 < N) (ts : Fin N → Arr ℝ) (sht : List ℕ)
    (hts : ∀ i, (ts i).shape = sht) (hc : ¬ Compatible (N :: a.net.shape) (N :: sht))
    (hL : loss N = .name "mse" ∨ loss N = .name "cross_entropy") (τ : ℝ) :
    mllObjective a.net a.params loss e (List.ofFn fun i => (xs i, ts i)) ⟨some τ, none⟩ =
      .raises (if a.net.shape.length = sht.length then .typeError else .valueError) := by
  have hsh : sht ≠ a.net.shape := fun e => hc (by rw [e]; exact fun k => .inl rfl)
  obtain ⟨err, herr⟩ := lossTargets_error a.net.shape hN xs ts (fun i => by rw [hts]; exact hsh)
  have hso := stackedOutputs_ok a.net a.params θ h.params hN xs ts sht hts
  have hb : ∀ f : ℝ → ℝ → ℝ, Arr.bcast2 f (ensArr a.net.shape fun i => a.net.fn (xs i) θ)
      (⟨N :: sht, (List.ofFn fun i => (ts i).data).flatten⟩ : Arr ℝ) =
        .error (if a.net.shape.length = sht.length then .typeError else .valueError) := by
    intro f
    rw [bcast2_error f _ _ (by simpa [ensArr] using hc)]
    simp [bcError, ensArr]
  simp only [mllObjective, herr, mllBroadcast]
  rcases hL with hL | hL
  · have hl : loss (List.ofFn fun i => (xs i, ts i)).length = .name "mse" := by rw [List.length_ofFn]; exact hL
    simp only [hl, if_true]
    rw [mll_error a.params (leaves_ne_of_entries h.nonempty h.params) e _
      (if a.net.shape.length = sht.length then .typeError else .valueError)]
    · rfl
    · simp only [hso, ok_bind, mseLossArr, hb, error_bind]
  · have hl : loss (List.ofFn fun i => (xs i, ts i)).length = .name "cross_entropy" := by rw [List.length_ofFn]; exact hL
    simp only [hl, if_neg (show ¬ ("cross_entropy" = "mse") by decide), if_true, hso, ok_bind, ceLossArr, hb]

/-- **C57 (finding: evidence with targets that do not broadcast).** With loss `"mse"` or `"cross_entropy"`, and targets of a common shape
that does not broadcast against the outputs' (both with the batch axis in front): if the targets have another number of axes than the
outputs, every candidate counts as infinite and calibration returns the smallest precision of the grid without any error; with
equally many axes it raises `TypeError`. -/
theorem C57_evidence_incompatible (h : ApiLinear lower pushforward predictive pr a θ est)
    (ho : convertToEnum lower calibrationObjectiveValues false objective = .ok (.member "marginal_log_likelihood"))
    (hm : convertToEnum lower calibrationMethodValues true method = .ok (.member "grid_search")) (hn : 0 < kw.gridSize.getD 50)
    (hN : 0 < N) (ts : Fin N → Arr ℝ) (sht : List ℕ) (hts : ∀ i, (ts i).shape = sht) (hb : BatchIs points data xs ts)
    (hc : ¬ Compatible (N :: a.net.shape) (N :: sht)) (hL : loss N = .name "mse" ∨ loss N = .name "cross_entropy") :
    (a.net.shape.length ≠ sht.length → ∃ tried set,
      calibration lower rows points a data loss e predictive pushforward none objective method options kw =
        .ok (⟨some ((10 : ℝ) ^ kw.logPriorPrecMin.getD (-3)), none⟩, set, tried)) ∧
    (a.net.shape.length = sht.length →
      calibration lower rows points a data loss e predictive pushforward none objective method options kw = .error .typeError) := by
  obtain ⟨fns, eps, R, h1, -, -⟩ := api_linear h
  obtain ⟨xy, b1, b2⟩ := hb
  have hobj := mll_incompatible lower pushforward predictive pr a θ est e loss xs h hN ts sht hts hc hL
  refine ⟨fun hl => ?_, fun hl => ?_⟩
  · obtain ⟨q, tried, c1, c2, c3⟩ := calibration_grid lower rows points a data loss e predictive pushforward none objective method options kw
      .lin fns h1 .mll (by rw [build_objective _ ho]; cases isClassification predictive <;> rfl) hm b1 _ b2 hn (fun _ => ⊤) (fun τ hτ => by
        simp only [objectiveFn, hobj, if_neg hl]
        rfl)
    have := chosen_all_top c2
    rw [precGrid_head _ _ _ hn] at this
    cases this
    exact ⟨tried, _, c1⟩
  · refine calibration_grid_error lower rows points pushforward predictive objective method a e data loss options kw .lin fns none h1 .mll
      (by rw [build_objective _ ho]; cases isClassification predictive <;> rfl) hm b1 _ b2 hn _ fun τ hτ => ?_
    simp only [objectiveFn, hobj, if_pos hl]
    rfl

/-- **C57 (finding: evidence of a classifier with class labels).** The usual classification call — outputs of shape `(C,)`, integer class
labels, loss `"cross_entropy"`, the marginal likelihood as the objective — never optimises anything: for `C ≠ 1`, a batch of `N ≠ 1` points and `N ≠ C` it returns
the smallest precision of the grid without any error; in all other cases (but `N = C = 1`) it raises `ValueError`. -/
theorem C57_class_labels_evidence (h : ApiLinear lower pushforward predictive pr a θ est)
    (ho : convertToEnum lower calibrationObjectiveValues false objective = .ok (.member "marginal_log_likelihood"))
    (hm : convertToEnum lower calibrationMethodValues true method = .ok (.member "grid_search")) (hn : 0 < kw.gridSize.getD 50)
    (hN : 0 < N) (C : ℕ) (hC : 0 < C) (hsh : a.net.shape = [C]) (labels : Fin N → ℝ)
    (hb : BatchIs points data xs fun i => ⟨[], [labels i]⟩) (hL : loss N = .name "cross_entropy") :
    (C ≠ 1 → N ≠ 1 → N ≠ C → ∃ tried set,
      calibration lower rows points a data loss e predictive pushforward none objective method options kw =
        .ok (⟨some ((10 : ℝ) ^ kw.logPriorPrecMin.getD (-3)), none⟩, set, tried)) ∧
    ((C = 1 ∨ N = 1 ∨ N = C) → ¬ (N = 1 ∧ C = 1) →
      calibration lower rows points a data loss e predictive pushforward none objective method options kw = .error .valueError) := by
  refine ⟨fun h1 h2 h3 => ?_, fun hcase hnot => ?_⟩
  · refine (C57_evidence_incompatible lower rows points pushforward predictive objective method pr a θ est e data loss options kw xs h ho hm
      hn hN (fun i => ⟨[], [labels i]⟩) [] (fun _ => rfl) hb ?_ (.inr hL)).1 (by simp [hsh])
    intro hc
    rcases hc 0 with h | h | h <;> simp [axisFromRight, hsh] at h
    · exact h3 h.symm
    · exact h1 h
    · exact h2 h
  · obtain ⟨fns, eps, R, h1, -, -⟩ := api_linear h
    obtain ⟨xy, b1, b2⟩ := hb
    refine calibration_grid_error lower rows points pushforward predictive objective method a e data loss options kw .lin fns none h1 .mll
      (by rw [build_objective _ ho]; cases isClassification predictive <;> rfl) hm b1 _ b2 hn _ fun τ hτ => ?_
    obtain ⟨err, herr⟩ := lossTargets_error a.net.shape hN xs (fun i => (⟨[], [labels i]⟩ : Arr ℝ)) (fun i => by simp [hsh])
    have hso := stackedOutputs_ok a.net a.params θ h.params hN xs (fun i => (⟨[], [labels i]⟩ : Arr ℝ)) [] (fun _ => rfl)
    rw [stack_scalars] at hso
    have hl : loss (List.ofFn fun i => (xs i, (⟨[], [labels i]⟩ : Arr ℝ))).length = .name "cross_entropy" := by
      rw [List.length_ofFn]; exact hL
    obtain ⟨r, r1, r2, r3, r4, -⟩ := bcast2_ok logSigmoidCrossEntropy (ensArr a.net.shape fun i => a.net.fn (xs i) θ) (⟨[N], List.ofFn labels⟩ : Arr ℝ)
      (by simp [Arr.WF, ensArr, shapeSize_cons, List.length_flatten, Function.comp_def]) (by simp [Arr.WF, shapeSize]) (by
        intro k
        rcases k with _ | _ | k
        · simp [axisFromRight, ensArr, hsh]; tauto
        · simp [axisFromRight, ensArr, hsh]
        · simp [axisFromRight, ensArr, hsh])
    have hlen : 1 < r.data.length := by
      obtain ⟨x, y, hxy⟩ : ∃ x y, r.shape = [x, y] := by
        have : r.shape.length = 2 := by rw [r3]; simp [ensArr, hsh]
        match hr : r.shape, this with
        | [x, y], _ => exact ⟨x, y, rfl⟩
      have h0 := r4 0
      have h1 := r4 1
      simp [axisFromRight, ensArr, hsh, hxy] at h0 h1
      have hw : r.data.length = x * (y * 1) := by rw [r2, hxy]; simp [shapeSize]
      rw [hw, h1, h0, mul_one]
      split_ifs with hN1 hC1 hC1
      · omega
      · subst hN1; simp; omega
      · nlinarith [show 1 < N by omega]
      · nlinarith [show 1 < N by omega]
    simp only [objectiveFn, mllObjective, herr, mllBroadcast, hl, if_neg (show ¬ ("cross_entropy" = "mse") by decide), if_true, hso, ok_bind,
      ceLossArr, r1, hlen]
    rfl

/-- **C57 (finding: unknown losses).** A loss that `concatenate_model_and_loss_fn` does not know (`"binary_cross_entropy"`, `"none"`, a
misspelled name, `None`) makes every candidate of the evidence calibration count as infinite, whatever the targets are: the smallest
precision of the grid is returned without any error. -/
theorem C57_unknown_loss_silent (h : ApiLinear lower pushforward predictive pr a θ est)
    (ho : convertToEnum lower calibrationObjectiveValues false objective = .ok (.member "marginal_log_likelihood"))
    (hm : convertToEnum lower calibrationMethodValues true method = .ok (.member "grid_search")) (hn : 0 < kw.gridSize.getD 50)
    (ts : Fin N → Arr ℝ) (hb : BatchIs points data xs ts)
    (hL : (∀ B, loss B = .other) ∨ ∃ s, s ≠ "mse" ∧ s ≠ "cross_entropy" ∧ ∀ B, loss B = .name s) :
    ∃ tried set, calibration lower rows points a data loss e predictive pushforward none objective method options kw =
        .ok (⟨some ((10 : ℝ) ^ kw.logPriorPrecMin.getD (-3)), none⟩, set, tried) := by
  obtain ⟨fns, eps, R, h1, -, -⟩ := api_linear h
  obtain ⟨xy, b1, b2⟩ := hb
  have hobj : ∀ τ : ℝ, mllObjective a.net a.params loss e (List.ofFn fun i => (xs i, ts i)) ⟨some τ, none⟩ = .raises .valueError := by
    intro τ
    unfold mllObjective
    split
    · unfold mllBroadcast
      rcases hL with hL | ⟨s, s1, s2, hL⟩
      · simp only [hL]
      · simp only [hL, if_neg s1, if_neg s2]
    · rcases hL with hL | ⟨s, s1, s2, hL⟩
      · simp only [hL, concatenateModelAndLossFn]
      · simp only [hL, concatenateModelAndLossFn, if_neg s1, if_neg s2]
  obtain ⟨q, tried, c1, c2, c3⟩ := calibration_grid lower rows points a data loss e predictive pushforward none objective method options kw
    .lin fns h1 .mll (by rw [build_objective _ ho]; cases isClassification predictive <;> rfl) hm b1 _ b2 hn (fun _ => ⊤) (fun τ hτ => by
      simp only [objectiveFn, hobj]
      rfl)
  have := chosen_all_top c2
  rw [precGrid_head _ _ _ hn] at this
  cases this
  exact ⟨tried, _, c1⟩

end

/-! ### Non-vacuity -/

/-- Inputs with one class label each. -/
def labelPoints : PyObj (List ℝ) → PyObj (List ℝ) → Except Err (List (ℝ × Arr ℝ))
  | .arr xs, .arr ls => .ok (List.zipWith (fun x l => (x, ⟨[], [l]⟩)) xs ls)
  | _, _ => .error .valueError

/-- Three points with labels in a two-class problem: the default grid starts at `10^-3`, and that is the answer. -/
example : ∃ tried set, calibration (fun s => if s = "Linear" then "linear" else s) (fun _ => .error .valueError) labelPoints testArgs
      (.tup [.arr [1, 2, 3], .arr [0, 1, 0]]) (fun _ => .name "cross_entropy") (.full !![2, 2; 2, 2]) (.member "none") (.str "Linear") none
      (.str "marginal_log_likelihood") (.str "grid_search") [] {} = .ok (⟨some ((10 : ℝ) ^ (-3 : ℝ)), none⟩, set, tried) := by
  exact (C57_class_labels_evidence _ (fun _ => .error .valueError) labelPoints _ _ _ _ "none" testArgs ![3, 5] (.full !![2, 2; 2, 2])
    (.full !![2, 2; 2, 2]) (.tup [.arr [1, 2, 3], .arr [0, 1, 0]]) (fun _ => .name "cross_entropy") [] {} ![1, 2, 3] test_apiLinear rfl rfl
    (by decide) (by norm_num) 2 (by norm_num) rfl ![0, 1, 0] ⟨_, BatchOf.pair _ _, by simp [labelPoints, List.ofFn_succ]⟩ rfl).1
    (by norm_num) (by norm_num) (by norm_num)

/-- Two points with labels in a two-class problem: `ValueError`. -/
example : calibration (fun s => if s = "Linear" then "linear" else s) (fun _ => .error .valueError) labelPoints testArgs
      (.tup [.arr [1, 2], .arr [0, 1]]) (fun _ => .name "cross_entropy") (.full !![2, 2; 2, 2]) (.member "none") (.str "Linear") none
      (.str "marginal_log_likelihood") (.str "grid_search") [] {} = .error .valueError := by
  exact (C57_class_labels_evidence _ (fun _ => .error .valueError) labelPoints _ _ _ _ "none" testArgs ![3, 5] (.full !![2, 2; 2, 2])
    (.full !![2, 2; 2, 2]) (.tup [.arr [1, 2], .arr [0, 1]]) (fun _ => .name "cross_entropy") [] {} ![1, 2] test_apiLinear rfl rfl
    (by decide) (by norm_num) 2 (by norm_num) rfl ![0, 1] ⟨_, BatchOf.pair _ _, by simp [labelPoints, List.ofFn_succ]⟩ rfl).2
    (by norm_num) (by norm_num)

/-- The loss `"binary_cross_entropy"`, which the curvature supports, is unknown to the evidence. -/
example : ∃ tried set, calibration (fun s => if s = "Linear" then "linear" else s) (fun _ => .error .valueError) labelPoints testArgs
      (.tup [.arr [1, 2], .arr [0, 1]]) (fun _ => .name "binary_cross_entropy") (.full !![2, 2; 2, 2]) (.member "none") (.str "Linear") none
      (.str "marginal_log_likelihood") (.str "grid_search") [] {} = .ok (⟨some ((10 : ℝ) ^ (-3 : ℝ)), none⟩, set, tried) := by
  exact C57_unknown_loss_silent _ (fun _ => .error .valueError) labelPoints _ _ _ _ "none" testArgs ![3, 5] (.full !![2, 2; 2, 2])
    (.full !![2, 2; 2, 2]) (.tup [.arr [1, 2], .arr [0, 1]]) (fun _ => .name "binary_cross_entropy") [] {} ![1, 2] test_apiLinear rfl rfl
    (by decide) (fun i => ⟨[], [(![0, 1] : Fin 2 → ℝ) i]⟩) ⟨_, BatchOf.pair _ _, by simp [labelPoints, List.ofFn_succ]⟩
    (.inr ⟨_, by decide, by decide, fun _ => rfl⟩)

end Laplax.Props
