import Verif.Props.Invariance

/-! # C63: the evidence does not depend on the arrangement of the parameters -/

namespace Laplax.Props
open Laplax Spec
open scoped BigOperators Matrix

variable {p c : ℕ} {A X Y K : Type}

theorem logPrior_rearranged (τ : ℝ) (θ : Vec p) (π : Equiv.Perm (Fin p)) : logPrior τ (List.ofFn (θ ∘ π)) = logPrior τ (List.ofFn θ) := by
  simp only [logPrior, List.map_ofFn, List.sum_ofFn]
  exact Equiv.sum_comp π (fun i => Real.log (ProbabilityTheory.gaussianPDFReal 0 (Real.toNNReal τ⁻¹) (θ i)))

theorem logEvidence_rearranged (j : ℝ) (P : Matrix (Fin p) (Fin p) ℝ) (π : Equiv.Perm (Fin p)) : logEvidence j (P.submatrix π π) = logEvidence j P := by
  have : (2 * Real.pi)⁻¹ • P.submatrix π π = ((2 * Real.pi)⁻¹ • P).submatrix π π := rfl
  rw [logEvidence, logEvidence, this, Matrix.det_submatrix_equiv_self]

theorem precisionOf_rearranged (G : Matrix (Fin p) (Fin p) ℝ) (π : Equiv.Perm (Fin p)) (τ σ s : ℝ) :
    precision (G.submatrix π π) τ σ s = (precision G τ σ s).submatrix π π := by
  ext i j
  by_cases hij : i = j
  · subst hij; simp [precision]; ring
  · have : π i ≠ π j := fun e => hij (π.injective e)
    simp [precision, hij, this]

/-- **C63 (evidence).** For another arrangement of the parameters and loss functions of the two arrangements that agree at the given
parameters, `marginal_log_likelihood` with the curvature that `laplace` returns (dense or diagonal) is the same number, for all prior
arguments and loss scalings. -/
theorem C63_evidence_parameter_layout (lower : String → String) (rows : A → Except Err (List A))
    (points : PyObj A → PyObj A → Except Err (List (X × Y)))
    (net : Net X p) (π : Equiv.Perm (Fin p)) (params params' : PyTree ℝ) (θ : Vec p) (data : PyObj A) (samples : List (X × Y)) (loss : String)
    (H : Vec (shapeSize net.shape) → Vec (shapeSize net.shape) → Y → Vec (shapeSize net.shape)) (curvType ct : EnumArg)
    (h : LaplaceCall lower points net.fn params θ data samples loss H curvType ct)
    (h' : LaplaceCall lower points (rearranged net π).fn params' (θ ∘ π) data samples loss H curvType ct)
    (kind : EnumArg → LaplaceKind p) (hk : kind ct = .full ∨ kind ct = .diagonal) (numCurv numTotal : ℕ) (hN : numTotal ≠ 0)
    (fullFn fullFn' : PyTree ℝ → Except Err ℝ) (L : ℝ) (hl : fullFn params = .ok L) (hl' : fullFn' params' = .ok L) :
    ∃ posteriorFn est posteriorFn' est',
      laplace lower rows points net.fn params data (.name loss) curvType kind numCurv numTotal = .ok (posteriorFn, est) ∧
      laplace lower rows points (rearranged net π).fn params' data (.name loss) curvType kind numCurv numTotal = .ok (posteriorFn', est') ∧
      ∀ (a : MllArgs) (τ : ℝ), a.priorPrec = some τ → 0 < τ → 0 ≤ a.sigmaSquared.getD 1 → ∀ s : ℝ, 0 < s →
        ∃ lml, marginalLogLikelihood est a (.ok fullFn) params s = .ok lml ∧
          marginalLogLikelihood est' a (.ok fullFn') params' s = .ok lml := by
  have side : ∀ (t : PyTree ℝ) (η : Vec p), WFTree t → entries t = List.ofFn η → t.leaves ≠ [] ∧ getSize t = p := by
    intro t η hw hη
    have hsz : numEntries t = p := by rw [← length_entries hw, hη, List.length_ofFn]
    have hne : t.leaves ≠ [] := by
      intro h0
      have := congrArg List.length hη
      have hp := h.hp
      simp [entries, h0] at this; omega
    exact ⟨hne, by rw [← hsz]; exact (((C02_full_flatten t).2 hne).2 hw).symm.trans (length_entries hw)⟩
  obtain ⟨n1, n2⟩ := side params θ h.hwf h.hθ
  obtain ⟨n1', n2'⟩ := side params' (θ ∘ π) h'.hwf h'.hθ
  obtain ⟨G, g1, g2, g3⟩ := C47_laplace_curvature lower rows points net.fn params θ data samples loss H curvType ct h kind numCurv numTotal hN
  obtain ⟨G', g1', g2', g3'⟩ := C47_laplace_curvature lower rows points (rearranged net π).fn params' (θ ∘ π) data samples loss H curvType ct h'
    kind numCurv numTotal hN
  have hG : G' = G.submatrix π π := matrix_rearranged g2 g2'
  subst hG
  have hjoint : ∀ (a : MllArgs) (τ : ℝ), a.priorPrec = some τ → 0 < τ → ∀ j j', jointLogLikelihood fullFn a params = .ok j →
      jointLogLikelihood fullFn' a params' = .ok j' → j = j' := by
    intro a τ hτ hτ0 j j' e e'
    rw [C34_joint fullFn a params h.hwf n1 τ hτ hτ0 L hl, h.hθ] at e
    rw [C34_joint fullFn' a params' h'.hwf n1' τ hτ hτ0 L hl', h'.hθ, logPrior_rearranged] at e'
    exact Except.ok.inj (e.symm.trans e')
  rcases hk with e | e
  · refine ⟨_, .full G, _, .full (G.submatrix π π), by rw [g3, e]; rfl, by rw [g3', e]; rfl, fun a τ hτ hτ0 hσ s hs => ?_⟩
    obtain ⟨j, lml, k1, k2, k3, -⟩ := C34_full G g1 a fullFn params h.hwf n1 n2 τ hτ hτ0 hσ s hs L hl
    obtain ⟨j', lml', k1', k2', k3', -⟩ := C34_full (G.submatrix π π) g1' a fullFn' params' h'.hwf n1' n2' τ hτ hτ0 hσ s hs L hl'
    refine ⟨lml, k2, ?_⟩
    rw [k2', k3', k3, precisionOf_rearranged, logEvidence_rearranged, hjoint a τ hτ hτ0 j j' k1 k1']
  · have hdiag : Matrix.diagonal (fun i => G (π i) (π i)) = (Matrix.diagonal fun i => G i i).submatrix π π := by
      ext i j
      by_cases hij : i = j
      · subst hij; simp
      · have : π i ≠ π j := fun e => hij (π.injective e)
        simp [hij, this]
    refine ⟨_, .diagonal fun i => G i i, _, .diagonal fun i => G (π i) (π i), by rw [g3, e]; rfl, by rw [g3', e]; rfl, fun a τ hτ hτ0 hσ s hs => ?_⟩
    obtain ⟨j, lml, k1, k2, k3, -⟩ := C34_diagonal _ (posSemidef_diag_nonneg g1) a fullFn params h.hwf n1 n2 τ hτ hτ0 hσ s hs L hl
    obtain ⟨j', lml', k1', k2', k3', -⟩ := C34_diagonal (fun i => G (π i) (π i)) (fun i => posSemidef_diag_nonneg g1 (π i)) a fullFn' params' h'.hwf
      n1' n2' τ hτ hτ0 hσ s hs L hl'
    refine ⟨lml, k2, ?_⟩
    rw [k2', k3', k3, hdiag, precisionOf_rearranged, logEvidence_rearranged, hjoint a τ hτ hτ0 j j' k1 k1']

section
variable (lower : String → String) (rows : A → Except Err (List A)) (rng : Prng K) (net : Net X p) (π : Equiv.Perm (Fin p))
  (params params' : PyTree ℝ) (θ : Vec p)
  (custom : ℕ → PfStep X K p) (key : K) (numSamples : ℕ)
  (trainPoints : PyObj A → PyObj A → Except Err (List (X × Y))) (trainData : PyObj A) (samples : List (X × Y)) (loss : String)
  (H : Vec (shapeSize net.shape) → Vec (shapeSize net.shape) → Y → Vec (shapeSize net.shape))
  (curvType ct : EnumArg) (kind : EnumArg → LaplaceKind p) (numCurv numTotal : ℕ)
  (points : PyObj A → PyObj A → Except Err (List (X × Arr ℝ))) (calData : PyObj A)
  (calLoss : (B : ℕ) → HessLossArg B (shapeSize net.shape)) (predictive pushforward objective method metrics : EnumArg)
  (options : Dict (CalMethod (PyObj A) (WithTop ℝ))) (kw : GridKwargs) (testData : PyObj A) (tt : Arr ℝ)

/-- **C63 (arrangement of the parameters, workflow with evidence calibration).** Fitting, calibrating by the marginal likelihood and
evaluating with the default regression metrics: another arrangement of the parameters leads to the same calibrated prior and to the same
metrics. -/
theorem C63_evidence_workflow_parameter_layout
    (htrain : LaplaceCall lower trainPoints net.fn params θ trainData samples loss H curvType ct)
    (htrain' : LaplaceCall lower trainPoints (rearranged net π).fn params' (θ ∘ π) trainData samples loss H curvType ct)
    (hN : numTotal ≠ 0) (hrng : RngOk rng) (hpf : convertToEnum lower pushforwardValues false pushforward = .ok (.member "linear"))
    (hpr : convertToEnum lower predictiveValues false predictive = .ok (.member "none"))
    (ho : convertToEnum lower calibrationObjectiveValues false objective = .ok (.member "marginal_log_likelihood"))
    (hm : convertToEnum lower calibrationMethodValues true method = .ok (.member "grid_search")) (hn : 0 < kw.gridSize.getD 50)
    (hmet : convertToEnum lower defaultMetricsValues false metrics = .ok (.member "regression")) (hc : 0 < shapeSize net.shape)
    {M : ℕ} (cx : Fin M → X) (cy : Fin M → Vec (shapeSize net.shape))
    (hcal : BatchIs points calData cx fun i => arrOf net.shape (cy i)) (L : ℝ) (hL : BatchLoss net.fn θ (calLoss M) cx cy L)
    {N : ℕ} (xs : Fin N → X) (ys : Fin N → Vec (shapeSize net.shape))
    (htest : PointsAre points testData (List.ofFn fun i => (xs i, arrOf net.shape (ys i))))
    (hJ : ∀ i k, ∃ j, jacobian (net.fn (xs i)) θ k j ≠ 0) (hk : kind ct = .full ∨ kind ct = .diagonal) :
    ∃ prior scores g g',
      workflow lower rows rng net params custom key numSamples trainPoints trainData (.name loss) curvType kind numCurv numTotal points
        calData calLoss predictive pushforward objective method options kw testData (.enum metrics) .ok tt = .ok (prior, scores, g) ∧
      workflow lower rows rng (rearranged net π) params' custom key numSamples trainPoints trainData (.name loss) curvType kind numCurv numTotal
        points calData calLoss predictive pushforward objective method options kw testData (.enum metrics) .ok tt = .ok (prior, scores, g') := by
  have hj : ∀ x (k : Fin (shapeSize net.shape)), (∃ j, jacobian (net.fn x) θ k j ≠ 0) → ∃ j, jacobian ((rearranged net π).fn x) (θ ∘ π) k j ≠ 0 := by
    rintro x k ⟨j, h⟩
    refine ⟨π.symm j, ?_⟩
    rw [show jacobian ((rearranged net π).fn x) (θ ∘ π) = (jacobian (net.fn x) θ).submatrix id π from jacobian_rearranged (net.fn x) π θ]
    simpa using h
  have hmean : ∀ x, (rearranged net π).fn x (θ ∘ π) = net.fn x θ := by
    intro x
    show net.fn x ((θ ∘ π) ∘ π.symm) = _
    congr 1; funext k; simp
  have hL' : BatchLoss (rearranged net π).fn (θ ∘ π) (calLoss M) cx cy L := by
    rcases hL with ⟨h1, h2⟩ | ⟨ℓ, h1, h2⟩
    · refine Or.inl ⟨h1, ?_⟩
      rw [h2]
      simp only [hmean]; rfl
    · refine Or.inr ⟨ℓ, h1, ?_⟩
      rw [h2]
      congr 1; funext i; rw [hmean]
  obtain ⟨G, -, g2, est, e1, q, tried, g, -, k2, k3⟩ := C54_evidence_workflow lower rows rng net params θ custom key numSamples trainPoints trainData samples
    loss H curvType ct kind numCurv numTotal points calData calLoss predictive pushforward objective method metrics options kw testData tt htrain hN hrng
    hpf hpr ho hm hn hmet hc cx cy hcal L hL xs ys htest hJ hk
  obtain ⟨G', -, g2', est', e2, q', tried', g', -, k2', k3'⟩ := C54_evidence_workflow lower rows rng (rearranged net π) params' (θ ∘ π) custom key numSamples
    trainPoints trainData samples loss H curvType ct kind numCurv numTotal points calData calLoss predictive pushforward objective method metrics options kw
    testData tt htrain' hN hrng hpf hpr ho hm hn hmet hc cx cy hcal L hL' xs ys htest (fun i k => hj _ k (hJ i k)) hk
  have hG : G' = G.submatrix π π := matrix_rearranged g2 g2'
  subst hG
  have e3 : curvOf est' = (curvOf est).submatrix π π := by
    obtain ⟨f, f', f1, f2, f3⟩ := curvOf_estimateFrom (π := π) G hk
    have uniq : ∀ (M : Matrix (Fin p) (Fin p) ℝ) (u v : CurvEstimate p), EstimateFrom M (kind ct) u → EstimateFrom M (kind ct) v → u = v := by
      intro M u v hu hv
      rcases hk with hk | hk <;> rw [hk] at hu hv <;> rcases hu with ⟨u1, rfl⟩ | ⟨u1, rfl⟩ | hu <;> rcases hv with ⟨v1, rfl⟩ | ⟨v1, rfl⟩ | hv <;> simp_all
    rw [uniq _ _ _ e2 f2, uniq _ _ _ e1 f1, f3]
  have hs : (fun τ => ((mllScore (θ ∘ π) est' L τ : ℝ) : WithTop ℝ)) = fun τ => ((mllScore θ est L τ : ℝ) : WithTop ℝ) := by
    funext τ
    congr 1
    rw [mllScore, mllScore, logPrior_rearranged, precision_rearranged e3, logEvidence_rearranged]
  rw [hs] at k2'
  obtain ⟨rfl, -⟩ := chosen_unique k2 k2'
  refine ⟨_, _, g, g', k3, ?_⟩
  rw [k3']
  have hcov : ∀ τ x, covAt (rearranged net π).fn (θ ∘ π) (targetPrecision τ 1 1 est') x = covAt net.fn θ (targetPrecision τ 1 1 est) x := by
    intro τ x
    rw [precision_rearranged e3]
    exact covAt_rearranged net.fn π θ _ x
  simp only [hmean, hcov]
  rfl

end

/-! ### Non-vacuity -/

/-- The network of the earlier examples and its parameters in the other order: the same evidence. -/
example : ∃ posteriorFn est posteriorFn' est',
    laplace (fun s => if s = "Linear" then "linear" else s) (fun _ => .error .valueError) testTrainPoints testNet.fn testMean
      (.iter (.reiterable [.tup [.arr [1, 2], .arr [4, 5, 6, 7]], .tup [.arr [3], .arr [8, 9]]])) (.name "mse") (.str "full") (fun _ => .full) 3 3 =
      .ok (posteriorFn, est) ∧
    laplace (fun s => if s = "Linear" then "linear" else s) (fun _ => .error .valueError) testTrainPoints (rearranged testNet (Equiv.swap 0 1)).fn testMean'
      (.iter (.reiterable [.tup [.arr [1, 2], .arr [4, 5, 6, 7]], .tup [.arr [3], .arr [8, 9]]])) (.name "mse") (.str "full") (fun _ => .full) 3 3 =
      .ok (posteriorFn', est') ∧
    ∃ lml, marginalLogLikelihood est ⟨⟨some 2, none⟩, none⟩ (.ok fun _ => .ok 7) testMean = .ok lml ∧
      marginalLogLikelihood est' ⟨⟨some 2, none⟩, none⟩ (.ok fun _ => .ok 7) testMean' = .ok lml := by
  obtain ⟨pf, est, pf', est', h1, h2, h3⟩ := C63_evidence_parameter_layout (fun s => if s = "Linear" then "linear" else s) (fun _ => .error .valueError)
    testTrainPoints testNet (Equiv.swap 0 1) testMean testMean' ![3, 5] _ _ "mse" _ _ _ test_train test_train' (fun _ => .full) (Or.inl rfl) 3 3
    (by norm_num) (fun _ => .ok 7) (fun _ => .ok 7) 7 rfl rfl
  exact ⟨pf, est, pf', est', h1, h2, h3 ⟨⟨some 2, none⟩, none⟩ 2 rfl (by norm_num) (by norm_num) 1 one_pos⟩

/-- The same workflow with evidence calibration in both arrangements. -/
example : ∃ prior scores g g',
    workflow (fun s => if s = "Linear" then "linear" else s) (fun _ => .error .valueError) testRng testNet testMean
      (fun _ _ _ _ => .error .typeError) () 3 testTrainPoints
      (.iter (.reiterable [.tup [.arr [1, 2], .arr [4, 5, 6, 7]], .tup [.arr [3], .arr [8, 9]]])) (.name "mse") (.str "full")
      (fun _ => .full) 3 3 testEvalPoints (.tup [.arr [1, 2], .arr [4, 5, 6, 7]]) (fun _ => .name "mse") (.member "none") (.str "Linear")
      (.str "marginal_log_likelihood") (.str "grid_search") [] {} testLoader (.enum (.str "regression")) .ok ⟨[], [1]⟩ = .ok (prior, scores, g) ∧
    workflow (fun s => if s = "Linear" then "linear" else s) (fun _ => .error .valueError) testRng (rearranged testNet (Equiv.swap 0 1)) testMean'
      (fun _ _ _ _ => .error .typeError) () 3 testTrainPoints
      (.iter (.reiterable [.tup [.arr [1, 2], .arr [4, 5, 6, 7]], .tup [.arr [3], .arr [8, 9]]])) (.name "mse") (.str "full")
      (fun _ => .full) 3 3 testEvalPoints (.tup [.arr [1, 2], .arr [4, 5, 6, 7]]) (fun _ => .name "mse") (.member "none") (.str "Linear")
      (.str "marginal_log_likelihood") (.str "grid_search") [] {} testLoader (.enum (.str "regression")) .ok ⟨[], [1]⟩ = .ok (prior, scores, g') :=
  C63_evidence_workflow_parameter_layout (fun s => if s = "Linear" then "linear" else s) (fun _ => .error .valueError) testRng testNet (Equiv.swap 0 1)
    testMean testMean' ![3, 5] (fun _ _ _ _ => .error .typeError) () 3 testTrainPoints _ _ "mse" _ (.str "full") (.member "full") (fun _ => .full) 3 3
    testEvalPoints (.tup [.arr [1, 2], .arr [4, 5, 6, 7]]) (fun _ => .name "mse") (.member "none") (.str "Linear") (.str "marginal_log_likelihood")
    (.str "grid_search") (.str "regression") [] {} testLoader ⟨[], [1]⟩ test_train test_train' (by norm_num) testRng_ok rfl rfl rfl rfl (by decide) rfl
    (by decide) (M := 2) ![1, 2] (![![4, 5], ![6, 7]] : Fin 2 → Fin 2 → ℝ)
    ⟨_, BatchOf.pair _ _, by simp [testEvalPoints, arrOf, testNet, List.ofFn_succ]; exact ⟨rfl, rfl⟩⟩ _ (Or.inl ⟨rfl, rfl⟩)
    ![1, 2, 3] (![![4, 5], ![6, 7], ![8, 9]] : Fin 3 → Fin 2 → ℝ) test_points
    (fun i k => by apply test_gradient; fin_cases i <;> simp) (Or.inl rfl)

end Laplax.Props
