import Verif.Props.Workflow
import Verif.Props.LowRank

/-! # C54: the workflow with the low-rank curvature estimates -/

namespace Laplax.Props
open Laplax Laplax.Spec
open scoped BigOperators Matrix

variable {X Y K A : Type} {p : ℕ}

section
variable (lower : String → String) (rows : A → Except Err (List A)) (rng : Prng K) (net : Net X p) (params : PyTree ℝ) (θ : Vec p)
  (custom : ℕ → PfStep X K p) (key : K) (numSamples : ℕ)
  (trainPoints : PyObj A → PyObj A → Except Err (List (X × Y))) (trainData : PyObj A) (samples : List (X × Y)) (loss : String)
  (H : Vec (shapeSize net.shape) → Vec (shapeSize net.shape) → Y → Vec (shapeSize net.shape))
  (curvType ct : EnumArg) (kind : EnumArg → LaplaceKind p) (numCurv numTotal : ℕ)
  (points : PyObj A → PyObj A → Except Err (List (X × Arr ℝ))) (calData : PyObj A)
  (calLoss : (B : ℕ) → HessLossArg B (shapeSize net.shape)) (predictive pushforward objective method metrics : EnumArg)
  (options : Dict (CalMethod (PyObj A) (WithTop ℝ))) (kw : GridKwargs) (testData : PyObj A) (tt : Arr ℝ)

/-- **C54 (regression workflow with Lanczos).** The workflow of `C54_regression_workflow` with the Lanczos estimate of rank `r` with full
reorthogonalisation: if the process does not break down on the curvature `G = N_curv/N_total Σ Jᵀ H J` of the training data, the workflow
succeeds, and the reported standard deviations are those of the precision `q I + Pr G Pr`, with `Pr` the orthogonal
projection on the Krylov space of the start vector and `q` the first best tried prior precision under the NLL of that same precision. -/
theorem C54_lanczos_workflow (htrain : LaplaceCall lower trainPoints net.fn params θ trainData samples loss H curvType ct)
    (hN : numTotal ≠ 0) (hrng : RngOk rng) (hpf : convertToEnum lower pushforwardValues false pushforward = .ok (.member "linear"))
    (hpr : convertToEnum lower predictiveValues false predictive = .ok (.member "none")) (hcls : NoPredictive predictive)
    (ho : convertToEnum lower calibrationObjectiveValues false objective = .ok (.member "nll"))
    (hm : convertToEnum lower calibrationMethodValues true method = .ok (.member "grid_search")) (hn : 0 < kw.gridSize.getD 50)
    (hmet : convertToEnum lower defaultMetricsValues false metrics = .ok (.member "regression")) (hc : 0 < shapeSize net.shape)
    {M : ℕ} (hM : 0 < M) (cx : Fin M → X) (cy : Fin M → Vec (shapeSize net.shape))
    (hcal : BatchIs points calData cx fun i => arrOf net.shape (cy i)) (hJc : ∀ i k, ∃ j, jacobian (net.fn (cx i)) θ k j ≠ 0)
    {N : ℕ} (xs : Fin N → X) (ys : Fin N → Vec (shapeSize net.shape))
    (htest : PointsAre points testData (List.ofFn fun i => (xs i, arrOf net.shape (ys i))))
    (hJ : ∀ i k, ∃ j, jacobian (net.fn (xs i)) θ k j ≠ 0)
    {r : ℕ} (eigh : Mat r r → Vec r × Mat r r) (hE : IsEigh eigh) (b : Vec p) (hb : b ≠ 0) (tol : ℝ)
    (hk : kind ct = .lowRank r (lanczosAlg r eigh b tol true))
    (G : Mat p p) (hG : ∀ v, G *ᵥ v = ((numCurv : ℝ) / numTotal) • ggnSamples net.fn θ H samples v)
    (hβ : ∀ j, j + 1 < r → (lanczosIterations (fun v => G *ᵥ v) b r tol true).beta j ≠ 0) :
    ∃ (Pr : Mat p p) (q : ℝ) (tried : List ℝ) (g : X → Except Err (Dict (Arr ℝ))),
      Prᵀ = Pr ∧ Pr * Pr = Pr ∧ (∀ x, Pr *ᵥ x ∈ krylov G b r) ∧ (∀ x ∈ krylov G b r, Pr *ᵥ x = x) ∧ 0 < q ∧
      ChosenBy (precGrid (kw.logPriorPrecMin.getD (-3)) (kw.logPriorPrecMax.getD 3) (kw.gridSize.getD 50))
          (fun τ => (nllScore net.fn θ (.full (Pr * G * Pr)) cx cy τ : ℝ)) kw.patience q tried ∧
      workflow lower rows rng net params custom key numSamples trainPoints trainData (.name loss) curvType kind numCurv numTotal points
            calData calLoss predictive pushforward objective method options kw testData (.enum metrics) .ok tt =
          .ok (⟨some q, none⟩, regNames.map fun k => (k, ⟨[N], List.ofFn fun i => regScore (net.fn (xs i) θ)
            (fun k => Real.sqrt (covAt net.fn θ (q • (1 : Mat p p) + Pr * G * Pr) (xs i) k k)) (ys i) k⟩), g) := by
  obtain ⟨G', g1, g2, g3⟩ := C54_regression_workflow lower rows rng net params θ custom key numSamples trainPoints trainData samples loss H
    curvType ct kind numCurv numTotal points calData calLoss predictive pushforward objective method metrics options kw testData tt
    htrain hN hrng hpf hpr hcls ho hm hn hmet hc hM cx cy hcal hJc xs ys htest hJ
  have hGG : G' = G := by
    apply Matrix.toLin'.injective
    apply LinearMap.ext; intro v
    rw [Matrix.toLin'_apply, Matrix.toLin'_apply, hG, g2]
  subst hGG
  have hMs : G'ᵀ = G' := by
    have := g1.1
    rwa [Matrix.IsHermitian, Matrix.conjTranspose_eq_transpose_of_trivial] at this
  obtain ⟨t1, t2, t3, t4, Pr, p1, p2, p3, p4, p5, p6⟩ := C23_low_rank_terms G' hMs b hb tol r eigh hE hβ _ rfl
  obtain ⟨q, tried, g, q1, q2, q3⟩ := g3 (.lowRank (lanczosLowrankTerms r eigh (fun v => G' *ᵥ v) b tol true))
    (.inr (.inr ⟨r, _, _, hk, lanczosAlg_run G' r eigh b tol true, rfl, t1, t4 g1⟩))
  have hT : ∀ τ, targetPrecision τ 1 1 (.lowRank (lanczosLowrankTerms r eigh (fun v => G' *ᵥ v) b tol true)) =
      targetPrecision τ 1 1 (.full (Pr * G' * Pr)) := by
    intro τ
    simp only [targetPrecision, precision, p6, div_one, inv_one, one_smul]; rw [add_comm]
  have hscore : (fun τ => ((nllScore net.fn θ (.full (Pr * G' * Pr)) cx cy τ : ℝ) : WithTop ℝ)) =
      fun τ => ((nllScore net.fn θ (.lowRank (lanczosLowrankTerms r eigh (fun v => G' *ᵥ v) b tol true)) cx cy τ : ℝ) : WithTop ℝ) := by
    funext τ
    simp only [nllScore, predCovAt, hT]
  refine ⟨Pr, q, tried, g, p2, p3, p4, p5, q1, ?_, ?_⟩
  · rw [hscore]; exact q2
  · rw [q3]
    have : targetPrecision q 1 1 (.lowRank (lanczosLowrankTerms r eigh (fun v => G' *ᵥ v) b tol true)) = q • (1 : Mat p p) + Pr * G' * Pr := by
      simp only [targetPrecision, p6, div_one, one_smul]
    rw [this]

/-- **C54 (regression workflow with LOBPCG).** The same with the LOBPCG estimate (`mv_jit=False`) of rank `k`, for more than `5 k`
parameters: if the start block is well conditioned and no search direction vanishes, the workflow succeeds, and the reported standard
deviations are those of the precision `q I + U Uᵀ G U Uᵀ`, `U` the computed orthonormal Ritz vectors. -/
theorem C54_lobpcg_workflow (htrain : LaplaceCall lower trainPoints net.fn params θ trainData samples loss H curvType ct)
    (hN : numTotal ≠ 0) (hrng : RngOk rng) (hpf : convertToEnum lower pushforwardValues false pushforward = .ok (.member "linear"))
    (hpr : convertToEnum lower predictiveValues false predictive = .ok (.member "none")) (hcls : NoPredictive predictive)
    (ho : convertToEnum lower calibrationObjectiveValues false objective = .ok (.member "nll"))
    (hm : convertToEnum lower calibrationMethodValues true method = .ok (.member "grid_search")) (hn : 0 < kw.gridSize.getD 50)
    (hmet : convertToEnum lower defaultMetricsValues false metrics = .ok (.member "regression")) (hc : 0 < shapeSize net.shape)
    {M : ℕ} (hM : 0 < M) (cx : Fin M → X) (cy : Fin M → Vec (shapeSize net.shape))
    (hcal : BatchIs points calData cx fun i => arrOf net.shape (cy i)) (hJc : ∀ i k, ∃ j, jacobian (net.fn (cx i)) θ k j ≠ 0)
    {N : ℕ} (xs : Fin N → X) (ys : Fin N → Vec (shapeSize net.shape))
    (htest : PointsAre points testData (List.ofFn fun i => (xs i, arrOf net.shape (ys i))))
    (hJ : ∀ i k, ∃ j, jacobian (net.fn (xs i)) θ k j ≠ 0)
    {k : ℕ} [NeZero k] (Ke : Kernels) (hK : GoodKernels Ke) (eps : ℝ) (X0 : Mat p k) (tol : ℝ) (hkp : k * 5 < p)
    (hk : kind ct = .lowRank k (lobpcgAlg Ke eps X0 tol))
    (G : Mat p p) (hG : ∀ v, G *ᵥ v = ((numCurv : ℝ) / numTotal) • ggnSamples net.fn θ H samples v)
    (h0 : OrthonormalCols (orthonormalize Ke eps X0)) (hR : ∀ l < k, ∀ j, ∃ r, searchBlock Ke eps (lobpcgIter Ke eps G tol X0 l) r j ≠ 0) :
    ∃ (U : Mat p k) (q : ℝ) (tried : List ℝ) (g : X → Except Err (Dict (Arr ℝ))), Uᵀ * U = 1 ∧ 0 < q ∧
      ChosenBy (precGrid (kw.logPriorPrecMin.getD (-3)) (kw.logPriorPrecMax.getD 3) (kw.gridSize.getD 50))
          (fun τ => (nllScore net.fn θ (.full (U * Uᵀ * G * (U * Uᵀ))) cx cy τ : ℝ)) kw.patience q tried ∧
      workflow lower rows rng net params custom key numSamples trainPoints trainData (.name loss) curvType kind numCurv numTotal points
            calData calLoss predictive pushforward objective method options kw testData (.enum metrics) .ok tt =
          .ok (⟨some q, none⟩, regNames.map fun k => (k, ⟨[N], List.ofFn fun i => regScore (net.fn (xs i) θ)
            (fun k => Real.sqrt (covAt net.fn θ (q • (1 : Mat p p) + U * Uᵀ * G * (U * Uᵀ)) (xs i) k k)) (ys i) k⟩), g) := by
  obtain ⟨G', g1, g2, g3⟩ := C54_regression_workflow lower rows rng net params θ custom key numSamples trainPoints trainData samples loss H
    curvType ct kind numCurv numTotal points calData calLoss predictive pushforward objective method metrics options kw testData tt
    htrain hN hrng hpf hpr hcls ho hm hn hmet hc hM cx cy hcal hJc xs ys htest hJ
  have hGG : G' = G := by
    apply Matrix.toLin'.injective
    apply LinearMap.ext; intro v
    rw [Matrix.toLin'_apply, Matrix.toLin'_apply, hG, g2]
  subst hGG
  have hMs : G'ᵀ = G' := by
    have := g1.1
    rwa [Matrix.IsHermitian, Matrix.conjTranspose_eq_transpose_of_trivial] at this
  obtain ⟨T, hT0, t1, -, p6, -, t5, -⟩ := C48_low_rank_terms Ke hK eps G' hMs X0 tol hkp h0 hR
  obtain ⟨q, tried, g, q1, q2, q3⟩ := g3 (.lowRank T)
    (.inr (.inr ⟨k, _, _, hk, (lobpcgAlg_run G' Ke eps X0 tol).trans hT0, rfl, t1, t5 fun v => by simpa using g1.dotProduct_mulVec_nonneg v⟩))
  have hT : ∀ τ, targetPrecision τ 1 1 (.lowRank T) = targetPrecision τ 1 1 (.full (T.U * T.Uᵀ * G' * (T.U * T.Uᵀ))) := by
    intro τ
    simp only [targetPrecision, precision, p6, div_one, inv_one, one_smul]; rw [add_comm]
  have hscore : (fun τ => ((nllScore net.fn θ (.full (T.U * T.Uᵀ * G' * (T.U * T.Uᵀ))) cx cy τ : ℝ) : WithTop ℝ)) =
      fun τ => ((nllScore net.fn θ (.lowRank T) cx cy τ : ℝ) : WithTop ℝ) := by
    funext τ
    simp only [nllScore, predCovAt, hT]
  refine ⟨T.U, q, tried, g, t1, q1, ?_, ?_⟩
  · rw [hscore]; exact q2
  · rw [q3]
    have : targetPrecision q 1 1 (.lowRank T) = q • (1 : Mat p p) + T.U * T.Uᵀ * G' * (T.U * T.Uᵀ) := by
      simp only [targetPrecision, p6, div_one, one_smul]
    rw [this]

end

/-! ### Non-vacuity -/

theorem testNet_jacobian (x : ℝ) : jacobian (testNet.fn x) ![3, 5] = (!![5, 3; x, 0] : Matrix (Fin 2) (Fin 2) ℝ) := by
  have h0 : HasFDerivAt (fun v : Vec 2 => v 0) (ContinuousLinearMap.proj 0 : Vec 2 →L[ℝ] ℝ) ![3, 5] := hasFDerivAt_apply 0 _
  have h1 : HasFDerivAt (fun v : Vec 2 => v 1) (ContinuousLinearMap.proj 1 : Vec 2 →L[ℝ] ℝ) ![3, 5] := hasFDerivAt_apply 1 _
  have hd : HasFDerivAt (testNet.fn x) (ContinuousLinearMap.pi ![(3 : ℝ) • (ContinuousLinearMap.proj 1 : Vec 2 →L[ℝ] ℝ) +
      (5 : ℝ) • ContinuousLinearMap.proj 0, x • (ContinuousLinearMap.proj 0 : Vec 2 →L[ℝ] ℝ)]) ![3, 5] := by
    rw [hasFDerivAt_pi']
    intro i
    fin_cases i
    · exact (h0.mul h1).congr_fderiv (by ext v; simp; rfl)
    · exact (h0.const_mul x).congr_fderiv (by ext v; simp; rfl)
  ext k j
  show fderiv ℝ (testNet.fn x) ![3, 5] (Pi.single j 1) k = _
  rw [hd.fderiv]
  fin_cases k
  · show (3 : ℝ) * (Pi.single j 1 : Vec 2) 1 + 5 * (Pi.single j 1 : Vec 2) 0 = _
    fin_cases j <;> simp <;> rfl
  · show x * (Pi.single j 1 : Vec 2) 0 = _
    fin_cases j <;> simp <;> rfl

/-- A symmetric 2×2 matrix with a positive off-diagonal entry does not break down for the first unit vector. -/
theorem no_breakdown (a g d : ℝ) (tol : ℝ) (hg : 0 < g) (ht : tol < g) (j : ℕ) (hj : j + 1 < 2) :
    (lanczosIterations (fun v => (!![a, g; g, d] : Mat 2 2) *ᵥ v) ![1, 0] 2 tol true).beta j ≠ 0 := by
  obtain rfl : j = 0 := by omega
  rw [lz_beta _ _ _ _ 2 0 (by omega), (lzStep _ _ _ _ 0).1]
  have hV : lzV (fun v => (!![a, g; g, d] : Mat 2 2) *ᵥ v) ![1, 0] tol true 0 = ![1, 0] := by
    rw [lzV_zero]
    simp [norm2, dotProduct, Fin.sum_univ_two]
  have hW : lzW (fun v => (!![a, g; g, d] : Mat 2 2) *ᵥ v) ![1, 0] tol true 0 = ![0, g] := by
    simp only [lzW, reorthogonalize, hV]
    ext i; fin_cases i <;> simp [Matrix.vecHead, Matrix.vecTail, dotProduct, Fin.sum_univ_two]
  have hn : norm2 (lzW (fun v => (!![a, g; g, d] : Mat 2 2) *ᵥ v) ![1, 0] tol true 0) = g := by
    rw [hW, norm2]
    rw [show ((![0, g] : Vec 2) ⬝ᵥ ![0, g]) = g ^ 2 by simp [dotProduct, Fin.sum_univ_two]; ring]
    exact Real.sqrt_sq hg.le
  rw [hn]
  simp [not_lt.2 ht.le, hg.ne']

/-- All hypotheses of the Lanczos workflow are met, with rank 2 on the three training points: `G = [[178, 90], [90, 54]]`. -/
example : ∃ (eigh : Mat 2 2 → Vec 2 × Mat 2 2) (q : ℝ) (metrics : Dict (Arr ℝ)) (g : ℝ → Except Err (Dict (Arr ℝ))), 0 < q ∧
    workflow (fun s => if s = "Linear" then "linear" else s) (fun _ => .error .valueError) testRng testNet testMean
      (fun _ _ _ _ => .error .typeError) () 3 testTrainPoints
      (.iter (.reiterable [.tup [.arr [1, 2], .arr [4, 5, 6, 7]], .tup [.arr [3], .arr [8, 9]]])) (.name "mse") (.str "full")
      (fun _ => .lowRank 2 (lanczosAlg 2 eigh ![1, 0] 1e-6 true)) 3 3 testEvalPoints (.tup [.arr [1, 2], .arr [4, 5, 6, 7]])
      (fun _ => .name "mse") (.member "none") (.str "Linear")
      (.str "nll") (.str "grid_search") [] {} testLoader (.enum (.str "regression")) .ok ⟨[], [1]⟩ = .ok (⟨some q, none⟩, metrics, g) := by
  obtain ⟨eigh, hE⟩ := C23_eigh_exists 2
  obtain ⟨Pr, q, tried, g, -, -, -, -, h1, -, h2⟩ := C54_lanczos_workflow (fun s => if s = "Linear" then "linear" else s)
    (fun _ => .error .valueError) testRng testNet testMean
    ![3, 5] (fun _ _ _ _ => .error .typeError) () 3 testTrainPoints _ _ "mse" _ (.str "full") (.member "full")
    (fun _ => .lowRank 2 (lanczosAlg 2 eigh ![1, 0] 1e-6 true)) 3 3 testEvalPoints
    (.tup [.arr [1, 2], .arr [4, 5, 6, 7]]) (fun _ => .name "mse") (.member "none") (.str "Linear") (.str "nll") (.str "grid_search")
    (.str "regression") [] {} testLoader ⟨[], [1]⟩ test_train (by norm_num) testRng_ok rfl rfl (Or.inl rfl) rfl rfl (by decide) rfl (by decide)
    (M := 2) (by norm_num) ![1, 2] (![![4, 5], ![6, 7]] : Fin 2 → Fin 2 → ℝ)
    ⟨_, BatchOf.pair _ _, by simp [testEvalPoints, arrOf, testNet, List.ofFn_succ]; exact ⟨rfl, rfl⟩⟩
    (fun i k => by apply test_gradient; fin_cases i <;> simp)
    ![1, 2, 3] (![![4, 5], ![6, 7], ![8, 9]] : Fin 3 → Fin 2 → ℝ) test_points
    (fun i k => by apply test_gradient; fin_cases i <;> simp)
    eigh hE ![1, 0] (fun h => by simpa using congrFun h 0) 1e-6 rfl !![178, 90; 90, 54]
    (fun v => by
      have hj : ∀ x : ℝ, (jacobian (testNet.fn x) ![3, 5])ᵀ *ᵥ mseHessianMv (jacobian (testNet.fn x) ![3, 5] *ᵥ v) =
          (!![50 + 2 * x ^ 2, 30; 30, 18] : Mat 2 2) *ᵥ v := by
        intro x
        rw [testNet_jacobian]
        have hmse : mseHessianMv ((!![5, 3; x, 0] : Mat 2 2) *ᵥ v) = (2 : ℝ) • ((!![5, 3; x, 0] : Mat 2 2) *ᵥ v) := rfl
        have hM : (!![5, 3; x, 0] : Mat 2 2)ᵀ * ((2 : ℝ) • !![5, 3; x, 0]) = !![50 + 2 * x ^ 2, 30; 30, 18] := by
          ext i j
          fin_cases i <;> fin_cases j <;> simp [Matrix.mul_apply, Fin.sum_univ_two] <;> ring
        show (!![5, 3; x, 0] : Mat 2 2)ᵀ *ᵥ mseHessianMv ((!![5, 3; x, 0] : Mat 2 2) *ᵥ v) = _
        rw [hmse, ← Matrix.smul_mulVec, ← hM, ← Matrix.mulVec_mulVec]
      simp only [ggnSamples, List.map_cons, List.map_nil, List.sum_cons, List.sum_nil, hj]
      ext i
      fin_cases i <;> simp [Matrix.mulVec, dotProduct, Fin.sum_univ_two] <;> ring)
    (no_breakdown 178 90 54 1e-6 (by norm_num) (by norm_num))
  exact ⟨eigh, q, _, g, h1, h2⟩

end Laplax.Props
