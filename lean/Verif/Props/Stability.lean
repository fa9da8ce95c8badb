import Verif.Props.DataInfluence
import Verif.Props.SubsampledUncertainty
import Verif.Props.Broadcast
import Mathlib.Topology.Instances.Matrix
import Mathlib.Analysis.Calculus.ContDiff.Basic
import Mathlib.Algebra.Order.BigOperators.Ring.Finset

/-! # C83: small changes of the curvature or of the parameters change the report little -/

namespace Laplax.Props
open Laplax Laplax.Spec
open scoped BigOperators Matrix

variable {A X Y K : Type} {p c n : ℕ}

theorem solve_small {P : Matrix (Fin p) (Fin p) ℝ} (hP : P.PosDef) {τ : ℝ} (hτ : 0 < τ) (hle : ∀ u : Vec p, τ * (u ⬝ᵥ u) ≤ u ⬝ᵥ P *ᵥ u) (v : Vec p) :
    (P⁻¹ *ᵥ v) ⬝ᵥ (P⁻¹ *ᵥ v) ≤ (v ⬝ᵥ v) / τ ^ 2 := by
  have h1 : P *ᵥ (P⁻¹ *ᵥ v) = v := by
    rw [Matrix.mulVec_mulVec, Matrix.mul_nonsing_inv _ hP.det_pos.ne'.isUnit, Matrix.one_mulVec]
  obtain ⟨u, hu⟩ : ∃ u, u = P⁻¹ *ᵥ v := ⟨_, rfl⟩
  have h2 := hle u
  rw [hu, h1, ← hu] at h2
  rw [← hu]
  have hcs : (u ⬝ᵥ v) ^ 2 ≤ (u ⬝ᵥ u) * (v ⬝ᵥ v) := by
    have := Finset.sum_mul_sq_le_sq_mul_sq Finset.univ u v
    simpa [dotProduct, sq] using this
  have huu : 0 ≤ u ⬝ᵥ u := by rw [dotProduct]; exact Finset.sum_nonneg fun i _ => mul_self_nonneg _
  rw [le_div_iff₀ (by positivity)]
  rcases huu.eq_or_lt with h0 | h0
  · rw [← h0, zero_mul]
    rw [dotProduct]; exact Finset.sum_nonneg fun i _ => mul_self_nonneg _
  · have h3 : (τ * (u ⬝ᵥ u)) ^ 2 ≤ (u ⬝ᵥ v) ^ 2 := pow_le_pow_left₀ (mul_nonneg hτ.le huu) h2 2
    have h4 : (u ⬝ᵥ u) * (τ ^ 2 * (u ⬝ᵥ u)) ≤ (u ⬝ᵥ u) * (v ⬝ᵥ v) := by nlinarith
    have := le_of_mul_le_mul_left h4 h0
    linarith

theorem variance_gap {P Q : Matrix (Fin p) (Fin p) ℝ} (hP : P.PosDef) (hQ : Q.PosDef) {τ : ℝ} (hτ : 0 < τ) (hle : ∀ u : Vec p, τ * (u ⬝ᵥ u) ≤ u ⬝ᵥ P *ᵥ u)
    {ε : ℝ} (hε : ∀ u : Vec p, u ⬝ᵥ (Q - P) *ᵥ u ≤ ε * (u ⬝ᵥ u)) (hε0 : 0 ≤ ε) (v : Vec p) :
    v ⬝ᵥ P⁻¹ *ᵥ v ≤ v ⬝ᵥ Q⁻¹ *ᵥ v + ε * ((v ⬝ᵥ v) / τ ^ 2) := by
  have e : P + (Q - P) = Q := by abel
  have h1 := variance_decrease hP (D := Q - P) (by rw [e]; exact hQ) v
  rw [e] at h1
  have h2 := hε (P⁻¹ *ᵥ v)
  have h3 := mul_le_mul_of_nonneg_left (solve_small hP hτ hle v) hε0
  linarith

/-- **C83 (curvature errors).** For every model, two positive semidefinite curvature estimates of any kinds whose quadratic forms differ by at most `ε` on
unit vectors lead to reported means that agree and to reported variances that differ by at most `σ² ε ‖J_k‖²/τ²`. -/
theorem C83_curvature_error {lower : String → String} {pushforward predictive : EnumArg} {pr : String} {a : PredictiveArgs X K p}
    {θ : Vec p} {est est' : CurvEstimate p} (h : ApiLinear lower pushforward predictive pr a θ est) (he' : EstimatePsd est') {ε : ℝ} (hε0 : 0 ≤ ε)
    (hε : ∀ v : Vec p, |v ⬝ᵥ curvOf est' *ᵥ v - v ⬝ᵥ curvOf est *ᵥ v| ≤ ε * ∑ i, v i ^ 2) (prior : PriorArgs) {τ : ℝ}
    (hτ : prior.priorPrec = some τ) (hτ0 : 0 < τ) (hσ : 0 ≤ prior.sigmaSquared.getD 1) (x : X) :
    ∃ m V V', Reports lower pushforward predictive a prior x m V ∧
      Reports lower pushforward predictive { a with posteriorFn := fun q s => setPosteriorFn est' (.tree a.params) q s } prior x m V' ∧
      ∀ k, |V k - V' k| ≤ prior.sigmaSquared.getD 1 * ε * (∑ j, jacobian (a.net.fn x) θ k j ^ 2) / τ ^ 2 := by
  have h' : ApiLinear lower pushforward predictive pr { a with posteriorFn := fun q s => setPosteriorFn est' (.tree a.params) q s } θ est' :=
    ⟨h.pushforward, h.predictive, h.rng, h.nonempty, h.wf, h.params, he', rfl, h.usable⟩
  refine ⟨_, _, _, reports h prior hτ hτ0 hσ x, reports h' prior hτ hτ0 hσ x, fun k => ?_⟩
  have sq : ∀ {q : ℕ} (v : Vec q), v ⬝ᵥ v = ∑ i, v i ^ 2 := fun v => by
    rw [dotProduct]; exact Finset.sum_congr rfl fun i _ => (sq _).symm
  have hlow : ∀ {e : CurvEstimate p}, EstimatePsd e → ∀ u : Vec p, τ * (u ⬝ᵥ u) ≤ u ⬝ᵥ targetPrecision τ (prior.sigmaSquared.getD 1) 1 e *ᵥ u := by
    intro e he u
    rw [targetPrecision_eq, Matrix.add_mulVec, dotProduct_add, Matrix.smul_mulVec τ, Matrix.one_mulVec, dotProduct_smul, smul_eq_mul]
    have := ((curvOf_posSemidef he).smul hσ).dotProduct_mulVec_nonneg u
    rw [star_trivial] at this
    linarith
  have hdiff : ∀ (e e' : CurvEstimate p) (u : Vec p), u ⬝ᵥ (targetPrecision τ (prior.sigmaSquared.getD 1) 1 e' - targetPrecision τ (prior.sigmaSquared.getD 1) 1 e) *ᵥ u =
      prior.sigmaSquared.getD 1 * (u ⬝ᵥ curvOf e' *ᵥ u - u ⬝ᵥ curvOf e *ᵥ u) := by
    intro e e' u
    rw [targetPrecision_eq, targetPrecision_eq, add_sub_add_right_eq_sub, ← smul_sub, Matrix.smul_mulVec, dotProduct_smul, Matrix.sub_mulVec, dotProduct_sub, smul_eq_mul]
  have hP := targetPrecision_posDef h.psd hτ0 hσ
  have hQ := targetPrecision_posDef he' hτ0 hσ
  have hσε := mul_nonneg hσ hε0
  have g1 := variance_gap hP hQ hτ0 (hlow h.psd) (fun u => by
    rw [hdiff, mul_assoc, sq]; exact mul_le_mul_of_nonneg_left ((le_abs_self _).trans (hε u)) hσ) hσε (jacobian (a.net.fn x) θ k)
  have g2 := variance_gap hQ hP hτ0 (hlow he') (fun u => by
    rw [hdiff, mul_assoc, sq]; refine mul_le_mul_of_nonneg_left (le_trans ?_ (hε u)) hσ
    rw [abs_sub_comm]; exact le_abs_self _) hσε (jacobian (a.net.fn x) θ k)
  rw [sq, ← covAt_diag, ← covAt_diag, ← mul_div_assoc] at g1 g2
  show |covAt a.net.fn θ _ x k k - covAt a.net.fn θ _ x k k| ≤ _
  rw [abs_le]
  constructor <;> linarith

/-! ### Continuity in the parameters -/

theorem softmax_continuous_all : Continuous fun z : Vec n => softmax z := by
  refine continuous_pi fun k => ?_
  rcases Nat.eq_zero_or_pos n with rfl | hn
  · exact k.elim0
  · have hne : ∀ z : Vec n, ∑ j, Real.exp (z j) ≠ 0 := fun z =>
      (Finset.sum_pos (fun j _ => Real.exp_pos _) ⟨⟨0, hn⟩, Finset.mem_univ _⟩).ne'
    unfold softmax
    exact Continuous.div (by fun_prop) (by fun_prop) hne

/-- The Hessian products of the named losses are continuous. -/
theorem lossHess_continuous (s : String) (H : Vec c → Vec c → Y → Vec c) (h : createLossHessianMv (.name s) = .ok H) (y : Y) :
    Continuous fun q : Vec c × Vec c => H q.1 q.2 y := by
  unfold createLossHessianMv at h
  simp only at h
  have hsig : Continuous sigmoid := by
    unfold sigmoid
    refine Continuous.div continuous_const (by fun_prop) fun x => ?_
    have := Real.exp_pos (-x); positivity
  split at h
  · cases h
    refine continuous_pi fun k => ?_
    simp only [bceHessianMv]
    exact ((hsig.comp (by fun_prop)).mul (continuous_const.sub (hsig.comp (by fun_prop)))).mul (by fun_prop)
  · split at h
    · cases h
      refine continuous_pi fun k => ?_
      simp only [ceHessianMv]
      have hs : ∀ j, Continuous fun q : Vec c × Vec c => softmax q.2 j := fun j => (continuous_apply j).comp (softmax_continuous_all.comp continuous_snd)
      exact ((hs k).mul (by fun_prop)).sub ((hs k).mul (continuous_finset_sum _ fun j _ => (hs j).mul (by fun_prop)))
    · split at h
      · cases h
        refine continuous_pi fun k => ?_
        simp only [mseHessianMv]
        fun_prop
      · split at h
        · cases h
          exact continuous_fst
        · cases h

theorem jacobian_continuous {f : Vec p → Vec c} (hf : ContDiff ℝ 1 f) : Continuous fun θ => jacobian f θ := by
  refine continuous_matrix fun k j => ?_
  have h1 : Continuous (fderiv ℝ f) := hf.continuous_fderiv one_ne_zero
  simp only [jacobian, Matrix.of_apply]
  exact (continuous_apply k).comp (h1.clm_apply continuous_const)

theorem ggn_continuous {f : X → Vec p → Vec c} (hf : ∀ x, ContDiff ℝ 1 (f x)) {H : Vec c → Vec c → Y → Vec c}
    (hH : ∀ y, Continuous fun q : Vec c × Vec c => H q.1 q.2 y) (l : List (X × Y)) (v : Vec p) :
    Continuous fun θ => ggnSamples f θ H l v := by
  induction l with
  | nil => simp only [ggnSamples, List.map_nil, List.sum_nil]; exact continuous_const
  | cons e l ih =>
    simp only [ggnSamples, List.map_cons, List.sum_cons] at ih ⊢
    refine Continuous.add ?_ ih
    have hJ := jacobian_continuous (hf e.1)
    exact hJ.matrix_transpose.matrix_mulVec ((hH e.2).comp ((hJ.matrix_mulVec continuous_const).prodMk (hf e.1).continuous))

theorem inv_continuous {P : Vec p → Matrix (Fin n) (Fin n) ℝ} (hP : Continuous P) (hpd : ∀ θ, (P θ).PosDef) : Continuous fun θ => (P θ)⁻¹ := by
  have e : (fun θ => (P θ)⁻¹) = fun θ => ((P θ).det)⁻¹ • (P θ).adjugate := by
    funext θ; rw [Matrix.inv_def, Ring.inverse_eq_inv']
  rw [e]
  exact (hP.matrix_det.inv₀ fun θ => (hpd θ).det_pos.ne').smul hP.matrix_adjugate

section
variable (lower : String → String) (rows : A → Except Err (List A)) (points : PyObj A → PyObj A → Except Err (List (X × Y)))
  (net : Net X p) (paramsOf : Vec p → PyTree ℝ) (data : PyObj A) (samples : List (X × Y)) (loss : String)
  (H : Vec (shapeSize net.shape) → Vec (shapeSize net.shape) → Y → Vec (shapeSize net.shape)) (curvType ct : EnumArg)

/-- **C83 (parameters).** For every model that is continuously differentiable in its parameters, every named loss and data set, and dense or diagonal
curvature: the mean and the variances that the linearised predictive reports after `laplace` at the parameters `θ` are continuous functions of `θ`. -/
theorem C83_continuous_in_parameters (h : ∀ θ, LaplaceCall lower points net.fn (paramsOf θ) θ data samples loss H curvType ct)
    (hsm : ∀ x, ContDiff ℝ 1 (net.fn x)) (kind : EnumArg → LaplaceKind p) (hk : kind ct = .full ∨ kind ct = .diagonal) (numCurv numTotal : ℕ)
    (hN : numTotal ≠ 0) (prior : PriorArgs) (τ : ℝ) (hτ : prior.priorPrec = some τ) (hτ0 : 0 < τ) (hσ : 0 ≤ prior.sigmaSquared.getD 1)
    (pushforward predictive : EnumArg) (pr : String)
    (hpf : convertToEnum lower pushforwardValues false pushforward = .ok (.member "linear"))
    (hpr : convertToEnum lower predictiveValues false predictive = .ok (.member pr))
    (rng : Prng K) (hrng : RngOk rng) (custom : ℕ → PfStep X K p) (key : K) (S : ℕ) (hu : ApiUsable net.shape S pr) (x : X) :
    ∃ m V : Vec p → Fin (shapeSize net.shape) → ℝ, Continuous m ∧ Continuous V ∧ ∀ θ, ∃ posteriorFn est,
      laplace lower rows points net.fn (paramsOf θ) data (.name loss) curvType kind numCurv numTotal = .ok (posteriorFn, est) ∧
      Reports lower pushforward predictive ⟨rng, net, paramsOf θ, posteriorFn, custom, key, S⟩ prior x (m θ) (V θ) := by
  have k1 := fun θ => C47_laplace_curvature lower rows points net.fn (paramsOf θ) θ data samples loss H curvType ct (h θ) kind numCurv numTotal hN
  choose G g1 g2 g3 using k1
  have k2 := fun θ => estimate_dense (g1 θ) hk
  choose est e1 e2 e3 e3' using k2
  have hG : Continuous G := by
    refine continuous_matrix fun i j => ?_
    have e : (fun θ => G θ i j) = fun θ => (((numCurv : ℝ) / numTotal) • ggnSamples net.fn θ H samples (Pi.single j 1)) i := by
      funext θ
      rw [← g2 θ, Matrix.mulVec_single_one]; rfl
    rw [e]
    have hc := (ggn_continuous hsm (lossHess_continuous loss H (h 0).hH) samples (Pi.single j 1)).const_smul ((numCurv : ℝ) / numTotal)
    exact (continuous_apply i).comp hc
  have hcurv : Continuous fun θ => curvOf (est θ) := by
    rcases hk with hk | hk
    · simp only [e3 _ hk]; exact hG
    · simp only [e3' _ hk]
      exact Continuous.matrix_diagonal (continuous_pi fun i => (continuous_apply i).comp ((continuous_apply i).comp hG))
  have hP : Continuous fun θ => targetPrecision τ (prior.sigmaSquared.getD 1) 1 (est θ) := by
    simp only [targetPrecision_eq]
    have hc := (hcurv.const_smul (prior.sigmaSquared.getD 1)).add (continuous_const (y := τ • (1 : Matrix (Fin p) (Fin p) ℝ)))
    exact hc
  have hJ := jacobian_continuous (hsm x)
  refine ⟨fun θ => net.fn x θ, fun θ k => covAt net.fn θ (targetPrecision τ (prior.sigmaSquared.getD 1) 1 (est θ)) x k k, (hsm x).continuous, ?_,
    fun θ => ⟨fun q s => setPosteriorFn (est θ) (.tree (paramsOf θ)) q s, est θ, by rw [g3, e1]; rfl, ?_⟩⟩
  · refine continuous_pi fun k => ?_
    have := (hJ.matrix_mul (inv_continuous hP fun θ => targetPrecision_posDef (e2 θ) hτ0 hσ)).matrix_mul hJ.matrix_transpose
    exact (continuous_apply k).comp ((continuous_apply k).comp this)
  · exact reports (a := (⟨rng, net, paramsOf θ, fun q s => setPosteriorFn (est θ) (.tree (paramsOf θ)) q s, custom, key, S⟩ : PredictiveArgs X K p))
      (⟨hpf, hpr, hrng, (h θ).hp, (h θ).hwf, (h θ).hθ, e2 θ, rfl, hu⟩ : ApiLinear lower pushforward predictive pr _ θ (est θ)) prior hτ hτ0 hσ x

end

/-- **C83 (inputs).** For every estimate, if the output of the model and its Jacobian in the parameters are continuous in the input, then so are the
reported mean and variances. -/
theorem C83_continuous_in_input [TopologicalSpace X] {lower : String → String} {pushforward predictive : EnumArg} {pr : String} {a : PredictiveArgs X K p}
    {θ : Vec p} {est : CurvEstimate p} (h : ApiLinear lower pushforward predictive pr a θ est) (hf : Continuous fun x => a.net.fn x θ)
    (hJ : Continuous fun x => jacobian (a.net.fn x) θ) (prior : PriorArgs) {τ : ℝ}
    (hτ : prior.priorPrec = some τ) (hτ0 : 0 < τ) (hσ : 0 ≤ prior.sigmaSquared.getD 1) :
    ∃ m V : X → Fin (shapeSize a.net.shape) → ℝ, Continuous m ∧ Continuous V ∧ ∀ x, Reports lower pushforward predictive a prior x (m x) (V x) := by
  refine ⟨_, _, hf, ?_, fun x => reports h prior hτ hτ0 hσ x⟩
  refine continuous_pi fun k => ?_
  have := (hJ.matrix_mul (continuous_const (y := (targetPrecision τ (prior.sigmaSquared.getD 1) 1 est)⁻¹))).matrix_mul hJ.matrix_transpose
  exact (continuous_apply k).comp ((continuous_apply k).comp this)

/-! ### Non-vacuity -/

/-- A curvature that is off by one tenth of the identity. -/
example : ∃ m V V', Reports (fun s => if s = "Linear" then "linear" else s) (.str "Linear") (.member "none") testArgs ⟨some 1, none⟩ 2 m V ∧
    Reports (fun s => if s = "Linear" then "linear" else s) (.str "Linear") (.member "none")
      { testArgs with posteriorFn := fun q s => setPosteriorFn (.full (!![2, 2; 2, 2] + (1 / 10 : ℝ) • 1)) (.tree testArgs.params) q s } ⟨some 1, none⟩ 2 m V' ∧
    ∀ k, |V k - V' k| ≤ 1 * (1 / 10) * (∑ j, jacobian (testArgs.net.fn 2) ![3, 5] k j ^ 2) / 1 ^ 2 :=
  C83_curvature_error (est' := .full (!![2, 2; 2, 2] + (1 / 10 : ℝ) • 1)) test_apiLinear
    (Matrix.PosSemidef.add test_apiLinear.psd (Matrix.PosSemidef.one.smul (by norm_num))) (ε := 1 / 10) (by norm_num) (fun v => by
      simp only [curvOf]
      rw [Matrix.add_mulVec, dotProduct_add, add_sub_cancel_left, Matrix.smul_mulVec, Matrix.one_mulVec, dotProduct_smul, smul_eq_mul]
      have e : v ⬝ᵥ v = ∑ i, v i ^ 2 := by rw [dotProduct]; exact Finset.sum_congr rfl fun i _ => (sq _).symm
      rw [e, abs_of_nonneg (by positivity)]) ⟨some 1, none⟩ rfl one_pos (by norm_num) 2

theorem testNet_smooth (x : ℝ) : ContDiff ℝ 1 (testNet.fn x) := by
  refine contDiff_pi.2 fun i => ?_
  fin_cases i
  · show ContDiff ℝ 1 fun θ : Vec 2 => θ 0 * θ 1
    fun_prop
  · show ContDiff ℝ 1 fun θ : Vec 2 => x * θ 0
    fun_prop

/-- The parameters `{a: θ₀, b: [θ₁]}`. -/
def testParams (θ : Vec 2) : PyTree ℝ := .node "dict(a,b)" [.leaf ⟨[], [θ 0]⟩, .leaf ⟨[1], [θ 1]⟩]

theorem test_everywhere (θ : Vec 2) : LaplaceCall (fun s => s) testPairs testNet.fn (testParams θ) θ (.tup [.arr [1, 2], .arr [0, 1]]) [(1, 0), (2, 1)]
    "binary_cross_entropy" (fun jv pred _ => bceHessianMv jv pred) (.str "full") (.member "full") := by
  refine ⟨by norm_num, ?_, ?_, (test_binary [1, 2] [0, 1]).hdata, fun s _ => testNet_differentiable _ _, rfl, (test_binary [1, 2] [0, 1]).hct⟩
  · intro a ha
    simp [testParams, Tree.leaves, Tree.leavesL] at ha
    rcases ha with rfl | rfl <;> rfl
  · simp [testParams, entries, Tree.leaves, Tree.leavesL]

example : ∃ m V : Vec 2 → Fin (shapeSize testNet.shape) → ℝ, Continuous m ∧ Continuous V ∧ ∀ θ, ∃ posteriorFn est,
    laplace (fun s => s) (fun _ => .error .valueError) testPairs testNet.fn (testParams θ) (.tup [.arr [1, 2], .arr [0, 1]]) (.name "binary_cross_entropy")
      (.str "full") (fun _ => .diagonal) 1 1 = .ok (posteriorFn, est) ∧
    Reports (fun s => s) (.str "linear") (.member "none") ⟨testRng, testNet, testParams θ, posteriorFn, fun _ _ _ _ => .error .typeError, (), 3⟩
      ⟨some 1, none⟩ 3 (m θ) (V θ) :=
  C83_continuous_in_parameters (fun s => s) (fun _ => .error .valueError) testPairs testNet testParams _ _ _ _ _ _ test_everywhere testNet_smooth
    (fun _ => .diagonal) (.inr rfl) 1 1 one_ne_zero ⟨some 1, none⟩ 1 rfl one_pos (by norm_num) (.str "linear") (.member "none") "none" rfl rfl
    testRng testRng_ok _ () 3 (Or.inl rfl) 3

example : ∃ m V : ℝ → Fin (shapeSize testArgs1.net.shape) → ℝ, Continuous m ∧ Continuous V ∧ ∀ x,
    Reports (fun s => s) (.str "linear") (.member "none") testArgs1 ⟨some 1, none⟩ x (m x) (V x) := by
  refine C83_continuous_in_input test_apiLinear1 ?_ ?_ ⟨some 1, none⟩ rfl one_pos (by norm_num)
  · refine continuous_pi fun i => ?_
    show Continuous fun x : ℝ => x * _
    fun_prop
  · have e : (fun x : ℝ => jacobian (testArgs1.net.fn x) ![3, 5]) = fun x => Matrix.of fun _ j => if j = 0 then x else 0 := by
      funext x
      refine (jacobian_affine _ 0 _ (fun θ => ?_) _).2
      funext i
      show x * θ 0 = _
      simp [Matrix.mulVec, dotProduct]
    rw [e]
    refine continuous_matrix fun i j => ?_
    simp only [Matrix.of_apply]
    split <;> fun_prop

end Laplax.Props
