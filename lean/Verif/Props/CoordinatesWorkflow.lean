import Verif.Props.Coordinates
import Verif.Props.Exact

/-! # C84: other coordinates for the parameters, evidence and workflow -/

namespace Laplax.Props
open Laplax Spec
open scoped BigOperators Matrix

variable {p c : ℕ} {E X Y K : Type}

/-- The evidence of a mode and a precision, written in other coordinates. -/
theorem evidence_coordinates {A : Matrix (Fin p) (Fin p) ℝ} {r τ : ℝ} (hA : IsSimilarity A r) (hτ : 0 < τ) (b : ℝ) (w : Vec p)
    {P : Matrix (Fin p) (Fin p) ℝ} (hP : P.PosDef) :
    logEvidence (b + logPrior (r * τ) (List.ofFn w)) (Aᵀ * P * A) = logEvidence (b + logPrior τ (List.ofFn (A *ᵥ w))) P := by
  obtain ⟨-, -, hAA⟩ := similarity_inverse hA
  have hr := hA.1
  have hnorm : ((List.ofFn (A *ᵥ w)).map (· ^ 2)).sum = r * ((List.ofFn w).map (· ^ 2)).sum := by
    have e : ∀ u : Vec p, ((List.ofFn u).map (· ^ 2)).sum = u ⬝ᵥ u := by
      intro u
      rw [List.map_ofFn, List.sum_ofFn, dotProduct]
      exact Finset.sum_congr rfl fun i _ => by simp [pow_two]
    rw [e, e, Matrix.dotProduct_mulVec, Matrix.vecMul_mulVec, hAA, Matrix.vecMul_smul, Matrix.vecMul_one, smul_dotProduct, smul_eq_mul]
  have hdet : A.det * A.det = r ^ p := by
    have := congrArg Matrix.det hA.2
    rwa [Matrix.det_mul, Matrix.det_transpose, Matrix.det_smul, Matrix.det_one, mul_one, Fintype.card_fin] at this
  have hQ : ((2 * Real.pi)⁻¹ • (Aᵀ * P * A)).det = r ^ p * ((2 * Real.pi)⁻¹ • P).det := by
    rw [Matrix.det_smul, Matrix.det_smul, Matrix.det_mul, Matrix.det_mul, Matrix.det_transpose, ← hdet]
    ring
  have hd : 0 < ((2 * Real.pi)⁻¹ • P).det := (hP.smul (by positivity : (0 : ℝ) < (2 * Real.pi)⁻¹)).det_pos
  rw [logEvidence, logEvidence, hQ, Real.log_mul (pow_pos hr p).ne' hd.ne', Real.log_pow, logPrior_eq _ (mul_pos hr hτ), logPrior_eq _ hτ, hnorm,
    Real.log_mul hr.ne' hτ.ne', List.length_ofFn, List.length_ofFn]
  ring

section
variable (lower : String → String) (rows : E → Except Err (List E)) (points : PyObj E → PyObj E → Except Err (List (X × Y)))
  (net : Net X p) (A : Matrix (Fin p) (Fin p) ℝ) (params params' : PyTree ℝ) (w : Vec p) (data : PyObj E) (samples : List (X × Y)) (loss : String)
  (H : Vec (shapeSize net.shape) → Vec (shapeSize net.shape) → Y → Vec (shapeSize net.shape)) (curvType ct : EnumArg)

/-- **C84 (evidence).** For the parameters in the coordinates `w = A v`, `A Aᵀ = c·1`, dense curvature and loss functions of the two models that agree
at the fitted parameters: `marginal_log_likelihood` of the new coordinates for the prior precision `c τ` is the same number as the one of the
original coordinates for `τ`, for every `τ`, weight `sigma_squared`, noise scale and loss scaling. -/
theorem C84_evidence {r : ℝ} (hA : IsSimilarity A r)
    (h : LaplaceCall lower points net.fn params (A *ᵥ w) data samples loss H curvType ct)
    (hwf' : WFTree params') (hw' : entries params' = List.ofFn w)
    (kind : EnumArg → LaplaceKind p) (hk : kind ct = .full) (numCurv numTotal : ℕ) (hN : numTotal ≠ 0)
    (fullFn fullFn' : PyTree ℝ → Except Err ℝ) (L : ℝ) (hl : fullFn params = .ok L) (hl' : fullFn' params' = .ok L) :
    ∃ posteriorFn est posteriorFn' est',
      laplace lower rows points net.fn params data (.name loss) curvType kind numCurv numTotal = .ok (posteriorFn, est) ∧
      laplace lower rows points (inCoordinates net A).fn params' data (.name loss) curvType kind numCurv numTotal = .ok (posteriorFn', est') ∧
      ∀ (τ : ℝ) (σ noise : Option ℝ), 0 < τ → 0 ≤ σ.getD 1 → ∀ s : ℝ, 0 < s →
        ∃ lml, marginalLogLikelihood est ⟨⟨some τ, σ⟩, noise⟩ (.ok fullFn) params s = .ok lml ∧
          marginalLogLikelihood est' ⟨⟨some (r * τ), σ⟩, noise⟩ (.ok fullFn') params' s = .ok lml := by
  have h' := laplaceCall_coordinates h hwf' hw'
  have side : ∀ (t : PyTree ℝ) (η : Vec p), WFTree t → entries t = List.ofFn η → t.leaves ≠ [] ∧ getSize t = p := by
    intro t η hw hη
    have hsz : numEntries t = p := by rw [← length_entries hw, hη, List.length_ofFn]
    have hne : t.leaves ≠ [] := by
      intro h0
      have := congrArg List.length hη
      have hp := h.hp
      simp [entries, h0] at this; omega
    exact ⟨hne, by rw [← hsz]; exact (((C02_full_flatten t).2 hne).2 hw).symm.trans (length_entries hw)⟩
  obtain ⟨n1, n2⟩ := side params _ h.hwf h.hθ
  obtain ⟨n1', n2'⟩ := side params' w hwf' hw'
  obtain ⟨i1, i2, -⟩ := similarity_inverse hA
  obtain ⟨G, g1, g1', e1, e2⟩ := laplace_coordinates lower rows points net A params params' w data samples loss H curvType ct i1 i2 h h' kind hk numCurv
    numTotal hN
  refine ⟨_, _, _, _, e1, e2, fun τ σ noise hτ hσ s hs => ?_⟩
  obtain ⟨j, lml, k1, k2, k3, -⟩ := C34_full G g1 ⟨⟨some τ, σ⟩, noise⟩ fullFn params h.hwf n1 n2 τ rfl hτ hσ s hs L hl
  obtain ⟨j', lml', k1', k2', k3', -⟩ := C34_full (Aᵀ * G * A) g1' ⟨⟨some (r * τ), σ⟩, noise⟩ fullFn' params' hwf' n1' n2' (r * τ) rfl
    (mul_pos hA.1 hτ) hσ s hs L hl'
  refine ⟨lml, k2, ?_⟩
  rw [C34_joint fullFn _ params h.hwf n1 τ rfl hτ L hl, h.hθ] at k1
  rw [C34_joint fullFn' _ params' hwf' n1' (r * τ) rfl (mul_pos hA.1 hτ) L hl', hw'] at k1'
  rw [k2', k3', k3, ← Except.ok.inj k1, ← Except.ok.inj k1', precision_coordinates hA]
  exact congrArg Except.ok (evidence_coordinates hA hτ _ w (precision_posDef g1 hτ hσ hs))

end

/-- A search over the candidates multiplied by `r`. -/
theorem chosen_scaled {xs : List ℝ} {s s' : ℝ → WithTop ℝ} {patience : Option Int} {q r : ℝ} {tried : List ℝ} (hr : 0 < r)
    (h : ChosenBy xs s patience q tried) (hs : ∀ x, s' (r * x) = s x) : ChosenBy (xs.map (r * ·)) s' patience (r * q) (tried.map (r * ·)) := by
  obtain ⟨n, i, a1, a2, a3, a4, a5, a6, a7⟩ := h
  have e : (fun j => s' ((xs.map (r * ·)).getD j 0)) = fun j => s (xs.getD j 0) := by
    funext j
    rw [← hs, List.getD_eq_getElem?_getD, List.getD_eq_getElem?_getD, List.getElem?_map]
    cases xs[j]? <;> simp
  refine ⟨n, i, a1, by simpa using a2, ?_, ?_, ?_, ?_, ?_⟩
  · rw [e, List.length_map]; exact a3
  · rw [e, List.length_map]; exact a4
  · rw [e]; exact a5
  · rw [List.getElem?_map, a6]; rfl
  · rw [a7, List.map_take]

/-- The grid with both ends moved by `log₁₀ r`. -/
theorem precGrid_scaled {r : ℝ} (hr : 0 < r) (lo hi : ℝ) (n : ℕ) :
    (precGrid lo hi n).map (r * ·) = precGrid (lo + Real.logb 10 r) (hi + Real.logb 10 r) n := by
  rw [precGrid, precGrid, List.map_ofFn]
  congr 1; funext i
  simp only [Function.comp]
  rw [show lo + Real.logb 10 r + (i.val : ℝ) * ((hi + Real.logb 10 r - (lo + Real.logb 10 r)) / ((n : ℝ) - 1)) =
    Real.logb 10 r + (lo + (i.val : ℝ) * ((hi - lo) / ((n : ℝ) - 1))) by ring,
    Real.rpow_add (by norm_num : (0 : ℝ) < 10) (Real.logb 10 r), Real.rpow_logb (by norm_num) (by norm_num) hr]

section
variable (lower : String → String) (rows : E → Except Err (List E)) (rng : Prng K) (net : Net X p) (A : Matrix (Fin p) (Fin p) ℝ)
  (params params' : PyTree ℝ) (w : Vec p)
  (custom : ℕ → PfStep X K p) (key : K) (numSamples : ℕ)
  (trainPoints : PyObj E → PyObj E → Except Err (List (X × Y))) (trainData : PyObj E) (samples : List (X × Y)) (loss : String)
  (H : Vec (shapeSize net.shape) → Vec (shapeSize net.shape) → Y → Vec (shapeSize net.shape))
  (curvType ct : EnumArg) (kind : EnumArg → LaplaceKind p) (numCurv numTotal : ℕ)
  (points : PyObj E → PyObj E → Except Err (List (X × Arr ℝ))) (calData : PyObj E)
  (calLoss : (B : ℕ) → HessLossArg B (shapeSize net.shape)) (predictive pushforward objective method metrics : EnumArg)
  (options : Dict (CalMethod (PyObj E) (WithTop ℝ))) (kw kw' : GridKwargs) (testData : PyObj E) (tt : Arr ℝ)

/-- **C84 (whole regression workflow).** Fitting with dense curvature, calibrating by the predictive likelihood and evaluating: with the parameters in the
coordinates `w = A v`, `A Aᵀ = c·1`, and the range of the grid search moved by `log₁₀ c`, the calibrated prior precision is `c` times the original
one and all reported metrics are the same. -/
theorem C84_workflow {r : ℝ} (hA : IsSimilarity A r)
    (htrain : LaplaceCall lower trainPoints net.fn params (A *ᵥ w) trainData samples loss H curvType ct)
    (hwf' : WFTree params') (hw' : entries params' = List.ofFn w)
    (hN : numTotal ≠ 0) (hrng : RngOk rng) (hpf : convertToEnum lower pushforwardValues false pushforward = .ok (.member "linear"))
    (hpr : convertToEnum lower predictiveValues false predictive = .ok (.member "none")) (hcls : NoPredictive predictive)
    (ho : convertToEnum lower calibrationObjectiveValues false objective = .ok (.member "nll"))
    (hm : convertToEnum lower calibrationMethodValues true method = .ok (.member "grid_search")) (hn : 0 < kw.gridSize.getD 50) (hkw : ScaledGrid kw kw' r)
    (hmet : convertToEnum lower defaultMetricsValues false metrics = .ok (.member "regression")) (hc : 0 < shapeSize net.shape)
    {M : ℕ} (hM : 0 < M) (cx : Fin M → X) (cy : Fin M → Vec (shapeSize net.shape))
    (hcal : BatchIs points calData cx fun i => arrOf net.shape (cy i)) (hJc : ∀ i k, ∃ j, jacobian (net.fn (cx i)) (A *ᵥ w) k j ≠ 0)
    {N : ℕ} (xs : Fin N → X) (ys : Fin N → Vec (shapeSize net.shape))
    (htest : PointsAre points testData (List.ofFn fun i => (xs i, arrOf net.shape (ys i))))
    (hJ : ∀ i k, ∃ j, jacobian (net.fn (xs i)) (A *ᵥ w) k j ≠ 0) (hk : kind ct = .full) :
    ∃ q scores g g', 0 < q ∧
      workflow lower rows rng net params custom key numSamples trainPoints trainData (.name loss) curvType kind numCurv numTotal points
        calData calLoss predictive pushforward objective method options kw testData (.enum metrics) .ok tt = .ok (⟨some q, none⟩, scores, g) ∧
      workflow lower rows rng (inCoordinates net A) params' custom key numSamples trainPoints trainData (.name loss) curvType kind numCurv numTotal
        points calData calLoss predictive pushforward objective method options kw' testData (.enum metrics) .ok tt =
          .ok (⟨some (r * q), none⟩, scores, g') := by
  have htrain' := laplaceCall_coordinates htrain hwf' hw'
  obtain ⟨i1, i2, -⟩ := similarity_inverse hA
  have hj : ∀ x (k : Fin (shapeSize net.shape)), (∃ j, jacobian (net.fn x) (A *ᵥ w) k j ≠ 0) → ∃ j, jacobian ((inCoordinates net A).fn x) w k j ≠ 0 := by
    intro x k hx
    by_contra hall
    push Not at hall
    obtain ⟨j, hj⟩ := hx
    apply hj
    have e : jacobian ((inCoordinates net A).fn x) w = jacobian (net.fn x) (A *ᵥ w) * A := jacobian_coordinates (net.fn x) i1 i2 w
    have e2 : jacobian (net.fn x) (A *ᵥ w) = (jacobian (net.fn x) (A *ᵥ w) * A) * (r⁻¹ • Aᵀ) := by rw [Matrix.mul_assoc, i1, Matrix.mul_one]
    have e3 : jacobian (net.fn x) (A *ᵥ w) * A = jacobian ((inCoordinates net A).fn x) w := e.symm
    rw [e2, e3]
    refine (Matrix.mul_apply (M := jacobian ((inCoordinates net A).fn x) w) (N := r⁻¹ • Aᵀ)).trans ?_
    exact Finset.sum_eq_zero fun l _ => by rw [show jacobian ((inCoordinates net A).fn x) w k l = 0 from hall l, zero_mul]
  obtain ⟨G, g1, g2, W⟩ := C54_regression_workflow lower rows rng net params (A *ᵥ w) custom key numSamples trainPoints trainData samples loss H curvType ct
    kind numCurv numTotal points calData calLoss predictive pushforward objective method metrics options kw testData tt htrain hN hrng hpf hpr hcls ho
    hm hn hmet hc hM cx cy hcal hJc xs ys htest hJ
  obtain ⟨G', -, g2', W'⟩ := C54_regression_workflow lower rows rng (inCoordinates net A) params' w custom key numSamples trainPoints trainData
    samples loss H curvType ct kind numCurv numTotal points calData calLoss predictive pushforward objective method metrics options kw' testData tt
    htrain' hN hrng hpf hpr hcls ho hm (hkw.2.2.1 ▸ hn) hmet hc hM cx cy hcal (fun i k => hj _ k (hJc i k)) xs ys htest (fun i k => hj _ k (hJ i k))
  have hG : G' = Aᵀ * G * A := matrix_coordinates i1 i2 g2 g2'
  subst hG
  obtain ⟨q, tried, g, hq, k2, k3⟩ := W (.full G) (Or.inl ⟨hk, rfl⟩)
  obtain ⟨q', tried', g', -, k2', k3'⟩ := W' (.full (Aᵀ * G * A)) (Or.inl ⟨hk, rfl⟩)
  have hcov : ∀ τ x, covAt (inCoordinates net A).fn w (targetPrecision (r * τ) 1 1 (.full (Aᵀ * G * A))) x =
      covAt net.fn (A *ᵥ w) (targetPrecision τ 1 1 (.full G)) x := by
    intro τ x
    refine covAt_coordinates net.fn i1 i2 w x ?_
    simp only [targetPrecision]
    rw [precision_coordinates hA, congruent_inverse i1 i2]
  have hmean : ∀ x, (inCoordinates net A).fn x w = net.fn x (A *ᵥ w) := fun x => rfl
  have hs : ∀ τ, ((nllScore (inCoordinates net A).fn w (.full (Aᵀ * G * A)) cx cy (r * τ) : ℝ) : WithTop ℝ) =
      ((nllScore net.fn (A *ᵥ w) (.full G) cx cy τ : ℝ) : WithTop ℝ) := by
    intro τ
    congr 1
    simp only [nllScore, hmean]
    have : ∀ x, predCovAt (inCoordinates net A).fn w (.full (Aᵀ * G * A)) (r * τ) x = predCovAt net.fn (A *ᵥ w) (.full G) τ x := hcov τ
    simp only [this]
    rfl
  have k4 := chosen_scaled (s' := fun τ => ((nllScore (inCoordinates net A).fn w (.full (Aᵀ * G * A)) cx cy τ : ℝ) : WithTop ℝ)) hA.1 k2 hs
  rw [precGrid_scaled hA.1, ← hkw.1, ← hkw.2.1, ← hkw.2.2.1, ← hkw.2.2.2] at k4
  obtain ⟨rfl, -⟩ := chosen_unique k4 k2'
  refine ⟨q, _, g, g', hq, k3, ?_⟩
  rw [k3']
  simp only [hmean, hcov]
  rfl

end

/-! ### Diagonal curvature depends on the coordinates -/

/-- The linear model `f(x, w) = x · w` with two parameters. -/
def dotNet : Net (Vec 2) 2 := ⟨[1], fun x v _ => x ⬝ᵥ v⟩

/-- `w₀ = v₀ - v₁`, `w₁ = v₀ + v₁`: a rotation by 45° and a factor `√2`. -/
def turn : Matrix (Fin 2) (Fin 2) ℝ := !![1, -1; 1, 1]

theorem turn_similarity : IsSimilarity turn 2 := by
  refine ⟨by norm_num, ?_⟩
  ext i j
  fin_cases i <;> fin_cases j <;> simp [turn, Matrix.mul_apply, Fin.sum_univ_two] <;> norm_num

theorem dot_jacobian (x v : Vec 2) : DifferentiableAt ℝ (dotNet.fn x) v ∧ jacobian (dotNet.fn x) v = Matrix.of fun _ => x := by
  refine jacobian_affine (Matrix.of fun _ => x) 0 (dotNet.fn x) (fun u => ?_) v
  funext k
  exact (add_zero _).symm

theorem inverse_of_diagonal {q : Vec p} (hq : ∀ i, q i ≠ 0) : (Matrix.diagonal q)⁻¹ = Matrix.diagonal fun i => (q i)⁻¹ := by
  apply Matrix.inv_eq_right_inv
  rw [Matrix.diagonal_mul_diagonal, ← Matrix.diagonal_one]
  congr 1; funext i
  exact mul_inv_cancel₀ (hq i)

theorem one_row (hc : c = 1) (x v : Vec 2) :
    (Matrix.of fun (_ : Fin c) => x)ᵀ *ᵥ mseHessianMv ((Matrix.of fun (_ : Fin c) => x) *ᵥ v) = (2 * (x ⬝ᵥ v)) • x := by
  subst hc
  funext i
  simp only [Matrix.mulVec, dotProduct, mseHessianMv, Finset.univ_unique, Finset.sum_singleton, Matrix.transpose_apply, Matrix.of_apply, Pi.smul_apply,
    smul_eq_mul]
  ring

/-- **C84 (diagonal curvature).** With diagonal curvature the predictions do depend on the coordinates: the model `f(x, w) = x·w` fitted to one data point with
the input `(1, 0)` under squared error reports at that input the variance `1 / (2 + τ)`; with the parameters in the coordinates `w₀ = v₀ - v₁`,
`w₁ = v₀ + v₁` and the prior precision `2 τ`, which with dense curvature is the same predictive, it reports the larger `1 / (1 + τ)`. -/
theorem C84_diagonal_depends (lower : String → String) (rows : E → Except Err (List E)) (points : PyObj E → PyObj E → Except Err (List (Vec 2 × Y)))
    (params params' : PyTree ℝ) (w : Vec 2) (data : PyObj E) (y : Y) (curvType ct : EnumArg)
    (h : LaplaceCall lower points dotNet.fn params (turn *ᵥ w) data [(![1, 0], y)] "mse" (fun jv _ _ => mseHessianMv jv) curvType ct)
    (hwf' : WFTree params') (hw' : entries params' = List.ofFn w)
    (kind : EnumArg → LaplaceKind 2) (hk : kind ct = .diagonal) (num : ℕ) (hN : num ≠ 0)
    (pushforward predictive : EnumArg) (pr : String)
    (hpf : convertToEnum lower pushforwardValues false pushforward = .ok (.member "linear"))
    (hpr : convertToEnum lower predictiveValues false predictive = .ok (.member pr))
    (rng : Prng K) (hrng : RngOk rng) (custom : ℕ → PfStep (Vec 2) K 2) (key : K) (S : ℕ) (hu : ApiUsable dotNet.shape S pr) :
    ∃ posteriorFn est posteriorFn' est',
      laplace lower rows points dotNet.fn params data (.name "mse") curvType kind num num = .ok (posteriorFn, est) ∧
      laplace lower rows points (inCoordinates dotNet turn).fn params' data (.name "mse") curvType kind num num = .ok (posteriorFn', est') ∧
      ∀ τ : ℝ, 0 < τ → ∃ m V V',
        Reports lower pushforward predictive ⟨rng, dotNet, params, posteriorFn, custom, key, S⟩ ⟨some τ, none⟩ ![1, 0] m V ∧
        Reports lower pushforward predictive ⟨rng, inCoordinates dotNet turn, params', posteriorFn', custom, key, S⟩ ⟨some (2 * τ), none⟩ ![1, 0] m V' ∧
        (V = fun _ => 1 / (2 + τ)) ∧ (V' = fun _ => 1 / (1 + τ)) ∧ ∀ k, V k < V' k := by
  have h' := laplaceCall_coordinates h hwf' hw'
  obtain ⟨i1, i2, -⟩ := similarity_inverse turn_similarity
  obtain ⟨G, g1, g2, g3⟩ := C47_laplace_curvature lower rows points dotNet.fn params (turn *ᵥ w) data _ "mse" _ curvType ct h kind num num hN
  obtain ⟨G', g1', g2', g3'⟩ := C47_laplace_curvature lower rows points (inCoordinates dotNet turn).fn params' w data _ "mse" _ curvType ct h' kind num num hN
  have hG' : G' = turnᵀ * G * turn := matrix_coordinates i1 i2 g2 g2'
  have hG : G = !![2, 0; 0, 0] := by
    have hone : ((num : ℝ) / num) = 1 := div_self (by exact_mod_cast hN)
    apply Matrix.toLin'.injective
    apply LinearMap.ext; intro v
    rw [Matrix.toLin'_apply, Matrix.toLin'_apply, g2, hone, one_smul]
    simp only [ggnSamples, List.map_cons, List.map_nil, List.sum_cons, List.sum_nil, add_zero, (dot_jacobian _ _).2]
    refine (one_row rfl ![1, 0] v).trans ?_
    funext i
    fin_cases i <;> simp [Fin.sum_univ_two, dotProduct]
  subst hG
  have hdiag : (fun i => (turnᵀ * (!![2, 0; 0, 0] : Matrix (Fin 2) (Fin 2) ℝ) * turn) i i) = fun _ => (2 : ℝ) := by
    funext i
    fin_cases i <;> simp [turn, Matrix.mul_apply, Fin.sum_univ_two]
  have hdiag0 : (fun i => (!![2, 0; 0, 0] : Matrix (Fin 2) (Fin 2) ℝ) i i) = ![2, 0] := by
    funext i
    fin_cases i <;> simp
  rw [hk] at g3 g3'
  simp only [estimateOf, hG', hdiag, hdiag0] at g3 g3'
  refine ⟨_, _, _, _, g3, g3', fun τ hτ => ?_⟩
  have p1 : EstimatePsd (.diagonal ![2, 0] : CurvEstimate 2) := fun i => by fin_cases i <;> norm_num
  have p2 : EstimatePsd (.diagonal (fun _ => 2) : CurvEstimate 2) := fun i => by norm_num
  have r1 := reports (a := ⟨rng, dotNet, params, fun q s => setPosteriorFn (.diagonal ![2, 0]) (.tree params) q s, custom, key, S⟩)
    (⟨hpf, hpr, hrng, h.hp, h.hwf, h.hθ, p1, rfl, hu⟩ : ApiLinear lower pushforward predictive pr _ (turn *ᵥ w) (.diagonal ![2, 0])) ⟨some τ, none⟩ rfl hτ
    (by norm_num) ![1, 0]
  have r2 := reports (a := ⟨rng, inCoordinates dotNet turn, params', fun q s => setPosteriorFn (.diagonal fun _ => 2) (.tree params') q s, custom, key, S⟩)
    (⟨hpf, hpr, hrng, h.hp, hwf', hw', p2, rfl, hu⟩ : ApiLinear lower pushforward predictive pr _ w (.diagonal fun _ => 2)) ⟨some (2 * τ), none⟩ rfl
    (by linarith) (by norm_num) ![1, 0]
  have t1 : targetPrecision τ ((none : Option ℝ).getD 1) 1 (.diagonal ![2, 0] : CurvEstimate 2) = Matrix.diagonal ![2 + τ, τ] := by
    rw [targetPrecision_eq]
    ext i j
    fin_cases i <;> fin_cases j <;> simp [curvOf]
  have t2 : targetPrecision (2 * τ) ((none : Option ℝ).getD 1) 1 (.diagonal (fun _ => 2) : CurvEstimate 2) = Matrix.diagonal fun _ => 2 + 2 * τ := by
    rw [targetPrecision_eq]
    ext i j
    fin_cases i <;> fin_cases j <;> simp [curvOf]
  have hτ2 : (2 : ℝ) + τ ≠ 0 := by positivity
  have hτ3 : (2 : ℝ) + 2 * τ ≠ 0 := by positivity
  have v1 : (fun k => covAt dotNet.fn (turn *ᵥ w) (Matrix.diagonal ![2 + τ, τ]) ![1, 0] k k) = fun _ => 1 / (2 + τ) := by
    funext k
    rw [covAt_diag, (dot_jacobian _ _).2, inverse_of_diagonal fun i => by fin_cases i <;> simp <;> positivity]
    simp [dotProduct, Fin.sum_univ_two, Matrix.mulVec_diagonal]
  have v2 : (fun k => covAt (inCoordinates dotNet turn).fn w (Matrix.diagonal fun _ => 2 + 2 * τ) ![1, 0] k k) = fun _ => 1 / (1 + τ) := by
    funext k
    refine (covAt_coordinates_diag dotNet.fn _ i1 i2 w ![1, 0] k).trans ?_
    have hm : turn * (Matrix.diagonal fun _ : Fin 2 => 2 + 2 * τ)⁻¹ * turnᵀ = (1 / (1 + τ)) • 1 := by
      rw [inverse_of_diagonal fun i => hτ3, ← Matrix.smul_one_eq_diagonal, Matrix.mul_smul, Matrix.smul_mul, Matrix.mul_one, turn_similarity.2, smul_smul]
      congr 1
      have : (1 : ℝ) + τ ≠ 0 := by positivity
      field_simp
    rw [(dot_jacobian _ _).2, hm, Matrix.smul_mulVec, Matrix.one_mulVec]
    show (![1, 0] : Vec 2) ⬝ᵥ ((1 / (1 + τ)) • (![1, 0] : Vec 2)) = _
    simp [dotProduct, Fin.sum_univ_two]
  rw [t1, v1] at r1
  rw [t2, v2] at r2
  refine ⟨_, _, _, r1, r2, rfl, rfl, fun k => one_div_lt_one_div_of_lt (by linarith) (by linarith)⟩

/-! ### Non-vacuity -/

/-- The parameters of the example in the coordinates `w = turn v`: `{a: [[4]], z: 1}`. -/
def testTurned : PyTree ℝ := .node "dict(a,z)" [.leaf ⟨[1, 1], [4]⟩, .leaf ⟨[], [1]⟩]

theorem testTurned_wf : WFTree testTurned := by
  intro a ha
  simp [testTurned, Tree.leaves, Tree.leavesL] at ha
  rcases ha with rfl | rfl <;> rfl

theorem testTurned_entries : entries testTurned = List.ofFn ![4, 1] := by simp [testTurned, entries, Tree.leaves, Tree.leavesL]

theorem turn_testTurned : turn *ᵥ ![4, 1] = ![3, 5] := by
  funext i; fin_cases i <;> simp [turn, Matrix.mulVec, dotProduct, Fin.sum_univ_two] <;> norm_num

theorem test_train_turned : LaplaceCall (fun s => if s = "Linear" then "linear" else s) testTrainPoints testNet.fn testMean (turn *ᵥ ![4, 1])
    (.iter (.reiterable [.tup [.arr [1, 2], .arr [4, 5, 6, 7]], .tup [.arr [3], .arr [8, 9]]])) [(1, ()), (2, ()), (3, ())] "mse"
    (fun jv _ _ => mseHessianMv jv) (.str "full") (.member "full") := by rw [turn_testTurned]; exact test_train

/-- The predictive of the nonlinear example with the parameters in other coordinates and twice the prior precision. -/
example : ∃ posteriorFn est posteriorFn' est',
    laplace (fun s => if s = "Linear" then "linear" else s) (fun _ => .error .valueError) testTrainPoints testNet.fn testMean
      (.iter (.reiterable [.tup [.arr [1, 2], .arr [4, 5, 6, 7]], .tup [.arr [3], .arr [8, 9]]])) (.name "mse") (.str "full") (fun _ => .full) 3 3 =
        .ok (posteriorFn, est) ∧
    laplace (fun s => if s = "Linear" then "linear" else s) (fun _ => .error .valueError) testTrainPoints (inCoordinates testNet turn).fn testTurned
      (.iter (.reiterable [.tup [.arr [1, 2], .arr [4, 5, 6, 7]], .tup [.arr [3], .arr [8, 9]]])) (.name "mse") (.str "full") (fun _ => .full) 3 3 =
        .ok (posteriorFn', est') ∧
    ∀ x, ∃ m V, Reports (fun s => if s = "Linear" then "linear" else s) (.str "Linear") (.member "none")
        ⟨testRng, testNet, testMean, posteriorFn, fun _ _ _ _ => .error .typeError, (), 3⟩ ⟨some 5, none⟩ x m V ∧
      Reports (fun s => if s = "Linear" then "linear" else s) (.str "Linear") (.member "none")
        ⟨testRng, inCoordinates testNet turn, testTurned, posteriorFn', fun _ _ _ _ => .error .typeError, (), 3⟩ ⟨some (2 * 5), none⟩ x m V := by
  obtain ⟨pf, est, pf', est', h1, h2, h3⟩ := C84_predictive (fun s => if s = "Linear" then "linear" else s) (fun _ => .error .valueError)
    testTrainPoints testNet turn testMean testTurned ![4, 1] _ _ "mse" _ _ _ turn_similarity test_train_turned testTurned_wf testTurned_entries
    (fun _ => .full) rfl 3 3 (by norm_num) (.str "Linear") (.member "none") "none" rfl rfl testRng testRng_ok (fun _ _ _ _ => .error .typeError) () 3
    (Or.inl rfl)
  exact ⟨pf, est, pf', est', h1, h2, h3 5 none (by norm_num) (by norm_num)⟩

/-- The evidence. -/
example : ∃ est est' : CurvEstimate 2, ∃ lml, marginalLogLikelihood est ⟨⟨some 5, none⟩, some 3⟩ (.ok fun _ => .ok 7) testMean 1 = .ok lml ∧
    marginalLogLikelihood est' ⟨⟨some (2 * 5), none⟩, some 3⟩ (.ok fun _ => .ok 7) testTurned 1 = .ok lml := by
  obtain ⟨pf, est, pf', est', -, -, h3⟩ := C84_evidence (fun s => if s = "Linear" then "linear" else s) (fun _ => .error .valueError)
    testTrainPoints testNet turn testMean testTurned ![4, 1] _ _ "mse" _ _ _ turn_similarity test_train_turned testTurned_wf testTurned_entries
    (fun _ => .full) rfl 3 3 (by norm_num) (fun _ => .ok 7) (fun _ => .ok 7) 7 rfl rfl
  exact ⟨est, est', h3 5 none (some 3) (by norm_num) (by norm_num) 1 one_pos⟩

/-- The whole workflow, with the grid moved by `log₁₀ 2`. -/
example : ∃ q scores g g', 0 < q ∧
    workflow (fun s => if s = "Linear" then "linear" else s) (fun _ => .error .valueError) testRng testNet testMean
      (fun _ _ _ _ => .error .typeError) () 3 testTrainPoints
      (.iter (.reiterable [.tup [.arr [1, 2], .arr [4, 5, 6, 7]], .tup [.arr [3], .arr [8, 9]]])) (.name "mse") (.str "full")
      (fun _ => .full) 3 3 testEvalPoints (.tup [.arr [1, 2], .arr [4, 5, 6, 7]]) (fun _ => .name "mse") (.member "none") (.str "Linear")
      (.str "nll") (.str "grid_search") [] {} testLoader (.enum (.str "regression")) .ok ⟨[], [1]⟩ = .ok (⟨some q, none⟩, scores, g) ∧
    workflow (fun s => if s = "Linear" then "linear" else s) (fun _ => .error .valueError) testRng (inCoordinates testNet turn) testTurned
      (fun _ _ _ _ => .error .typeError) () 3 testTrainPoints
      (.iter (.reiterable [.tup [.arr [1, 2], .arr [4, 5, 6, 7]], .tup [.arr [3], .arr [8, 9]]])) (.name "mse") (.str "full")
      (fun _ => .full) 3 3 testEvalPoints (.tup [.arr [1, 2], .arr [4, 5, 6, 7]]) (fun _ => .name "mse") (.member "none") (.str "Linear")
      (.str "nll") (.str "grid_search") [] { logPriorPrecMin := some (-3 + Real.logb 10 2), logPriorPrecMax := some (3 + Real.logb 10 2) } testLoader
      (.enum (.str "regression")) .ok ⟨[], [1]⟩ = .ok (⟨some (2 * q), none⟩, scores, g') :=
  C84_workflow (fun s => if s = "Linear" then "linear" else s) (fun _ => .error .valueError) testRng testNet turn
    testMean testTurned ![4, 1] (fun _ _ _ _ => .error .typeError) () 3 testTrainPoints _ _ "mse" _ (.str "full") (.member "full") (fun _ => .full) 3 3
    testEvalPoints (.tup [.arr [1, 2], .arr [4, 5, 6, 7]]) (fun _ => .name "mse") (.member "none") (.str "Linear") (.str "nll") (.str "grid_search")
    (.str "regression") [] {} _ testLoader ⟨[], [1]⟩ turn_similarity test_train_turned testTurned_wf testTurned_entries (by norm_num) testRng_ok rfl rfl
    (Or.inl rfl) rfl rfl (by decide) ⟨rfl, rfl, rfl, rfl⟩ rfl
    (by decide) (M := 2) (by norm_num) ![1, 2] (![![4, 5], ![6, 7]] : Fin 2 → Fin 2 → ℝ)
    ⟨_, BatchOf.pair _ _, by simp [testEvalPoints, arrOf, testNet, List.ofFn_succ]; exact ⟨rfl, rfl⟩⟩
    (fun i k => by rw [turn_testTurned]; apply test_gradient; fin_cases i <;> simp)
    ![1, 2, 3] (![![4, 5], ![6, 7], ![8, 9]] : Fin 3 → Fin 2 → ℝ) test_points
    (fun i k => by rw [turn_testTurned]; apply test_gradient; fin_cases i <;> simp) rfl

/-- One data point for the linear model. -/
theorem test_dot (curvType ct : EnumArg) (hct : convertToEnum (fun s => if s = "Linear" then "linear" else s) curvApproxValues false curvType = .ok ct) :
    LaplaceCall (fun s => if s = "Linear" then "linear" else s) (fun (_ _ : PyObj Unit) => .ok [(![1, 0], ())]) dotNet.fn testMean
      (turn *ᵥ ![4, 1]) (.tup [.arr (), .arr ()]) [(![1, 0], ())] "mse" (fun jv _ _ => mseHessianMv jv) curvType ct := by
  refine ⟨by norm_num, testMean_wf, by rw [turn_testTurned]; simp [testMean, entries, Tree.leaves, Tree.leavesL], ?_, fun s _ => (dot_jacobian _ _).1, rfl, hct⟩
  exact ⟨[(.arr (), .arr ())], fun _ => [(![1, 0], ())], DataOf.single _ _ (BatchOf.pair _ _), fun _ _ => rfl, rfl⟩

/-- The diagonal example has an instance. -/
example : ∃ posteriorFn posteriorFn' : PriorArgs → ℝ → Except Err (Posterior 2), ∃ m V V',
    Reports (fun s => if s = "Linear" then "linear" else s) (.str "Linear") (.member "none")
      ⟨testRng, dotNet, testMean, posteriorFn, fun _ _ _ _ => .error .typeError, (), 3⟩ ⟨some 1, none⟩ ![1, 0] m V ∧
    Reports (fun s => if s = "Linear" then "linear" else s) (.str "Linear") (.member "none")
      ⟨testRng, inCoordinates dotNet turn, testTurned, posteriorFn', fun _ _ _ _ => .error .typeError, (), 3⟩ ⟨some (2 * 1), none⟩ ![1, 0] m V' ∧
    (V = fun _ => 1 / (2 + 1)) ∧ (V' = fun _ => 1 / (1 + 1)) ∧ ∀ k, V k < V' k := by
  obtain ⟨pf, -, pf', -, -, -, h⟩ := C84_diagonal_depends (fun s => if s = "Linear" then "linear" else s) (fun _ => .error .valueError)
    (fun (_ _ : PyObj Unit) => .ok [(![1, 0], ())]) testMean testTurned ![4, 1] (.tup [.arr (), .arr ()]) () (.str "diagonal") (.member "diagonal")
    (test_dot _ _ rfl) testTurned_wf testTurned_entries (fun _ => .diagonal) rfl 1 one_ne_zero (.str "Linear") (.member "none") "none" rfl rfl testRng testRng_ok
    (fun _ _ _ _ => .error .typeError) () 3 (Or.inl rfl)
  exact ⟨pf, pf', h 1 one_pos⟩

/-- The outputs of the linear model see every direction: a shear is not a similarity, so no prior precision restores the predictions. -/
example : ∃ (a b : Matrix (Fin 2) (Fin 2) ℝ), a * b = 1 ∧ b * a = 1 ∧ (∀ u : Vec 2, ∃ x k, jacobian (dotNet.fn x) (a *ᵥ ![4, 1]) k = u) ∧
    ∀ c : ℝ, a * aᵀ ≠ c • 1 := by
  refine ⟨!![1, 1; 0, 1], !![1, -1; 0, 1], ?_, ?_, fun u => ⟨u, ⟨0, by decide⟩, by rw [(dot_jacobian _ _).2]; rfl⟩, fun c h => ?_⟩
  · ext i j; fin_cases i <;> fin_cases j <;> simp [Matrix.mul_apply, Fin.sum_univ_two]
  · ext i j; fin_cases i <;> fin_cases j <;> simp [Matrix.mul_apply, Fin.sum_univ_two]
  · have := congrFun (congrFun h 0) 1
    simp [Matrix.mul_apply, Fin.sum_univ_two] at this

/-- All hypotheses of the characterisation are met by the linear model, one data point and `turn`. -/
example : ∃ (posteriorFn posteriorFn' : PriorArgs → ℝ → Except Err (Posterior 2)), ∀ τ τ' : ℝ, 0 < τ → 0 < τ' →
    ((∀ x, ∃ m m' V, Reports (fun s => if s = "Linear" then "linear" else s) (.str "Linear") (.member "none")
        ⟨testRng, dotNet, testMean, posteriorFn, fun _ _ _ _ => .error .typeError, (), 3⟩ ⟨some τ, none⟩ x m V ∧
      Reports (fun s => if s = "Linear" then "linear" else s) (.str "Linear") (.member "none")
        ⟨testRng, inCoordinates dotNet turn, testTurned, posteriorFn', fun _ _ _ _ => .error .typeError, (), 3⟩ ⟨some τ', none⟩ x m' V) ↔
      turn * turnᵀ = (τ' / τ) • (1 : Matrix (Fin 2) (Fin 2) ℝ)) := by
  obtain ⟨i1, i2, -⟩ := similarity_inverse turn_similarity
  obtain ⟨pf, -, pf', -, -, -, h⟩ := C84_only_similarities (fun s => if s = "Linear" then "linear" else s) (fun _ => .error .valueError)
    (fun (_ _ : PyObj Unit) => .ok [(![1, 0], ())]) dotNet turn testMean testTurned ![4, 1] (.tup [.arr (), .arr ()]) _ "mse" _ (.str "full") (.member "full")
    i1 i2 (test_dot _ _ rfl) testTurned_wf testTurned_entries (fun u => ⟨u, ⟨0, by decide⟩, by rw [(dot_jacobian _ _).2]; rfl⟩) (fun _ => .full) rfl 1 1
    one_ne_zero (.str "Linear") (.member "none") "none" rfl rfl testRng testRng_ok (fun _ _ _ _ => .error .typeError) () 3 (Or.inl rfl)
  exact ⟨pf, pf', fun τ τ' hτ hτ' => h τ τ' none hτ hτ' (by norm_num)⟩

end Laplax.Props
