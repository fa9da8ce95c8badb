import Verif.Props.Subsampling
import Verif.Props.Uncertainty

/-! # C81: fitting on part of the data never looks more certain on average -/

namespace Laplax.Props
open Laplax Spec
open scoped BigOperators Matrix

variable {p c B N : ℕ} {A X Y K : Type}

/-- The quadratic form of the inverse is convex and antitone. -/
theorem quad_inv_average {ι : Type} [Fintype ι] (w : ι → ℝ) (hw : ∀ i, 0 ≤ w i) (hw1 : ∑ i, w i = 1) {P : ι → Matrix (Fin p) (Fin p) ℝ}
    (hP : ∀ i, (P i).PosDef) {Q : Matrix (Fin p) (Fin p) ℝ} (hQ : Q.PosDef) (hle : (Q - ∑ i, w i • P i).PosSemidef) (v : Vec p) :
    v ⬝ᵥ Q⁻¹ *ᵥ v ≤ ∑ i, w i * (v ⬝ᵥ (P i)⁻¹ *ᵥ v) := by
  have hdet : IsUnit Q.det := (Matrix.isUnit_iff_isUnit_det Q).1 hQ.isUnit
  obtain ⟨u, hu⟩ : ∃ u, u = Q⁻¹ *ᵥ v := ⟨_, rfl⟩
  have h1 : Q *ᵥ u = v := by rw [hu, Matrix.mulVec_mulVec, Matrix.mul_nonsing_inv _ hdet, Matrix.one_mulVec]
  have h2 : v ⬝ᵥ Q⁻¹ *ᵥ v = u ⬝ᵥ v := by rw [← hu, dotProduct_comm]
  have h3 := hle.dotProduct_mulVec_nonneg u
  simp only [star_trivial, Matrix.sub_mulVec, Matrix.sum_mulVec, Matrix.smul_mulVec, dotProduct_sub, dotProduct_sum, dotProduct_smul, smul_eq_mul, h1] at h3
  have h4 : ∑ i, w i * (2 * (u ⬝ᵥ v) - u ⬝ᵥ P i *ᵥ u) ≤ ∑ i, w i * (v ⬝ᵥ (P i)⁻¹ *ᵥ v) :=
    Finset.sum_le_sum fun i _ => mul_le_mul_of_nonneg_left (quad_inv_le (hP i) u v) (hw i)
  have h5 : ∑ i, w i * (2 * (u ⬝ᵥ v) - u ⬝ᵥ P i *ᵥ u) = 2 * (u ⬝ᵥ v) - ∑ i, w i * (u ⬝ᵥ P i *ᵥ u) := by
    simp only [mul_sub, Finset.sum_sub_distrib, ← Finset.sum_mul, hw1, one_mul]
  rw [h2]
  linarith

/-- The curvature of the estimate of a dense or diagonal fit, as a linear function of the curvature matrix. -/
theorem estimate_dense {G : Matrix (Fin p) (Fin p) ℝ} (hG : G.PosSemidef) {k : LaplaceKind p} (hk : k = .full ∨ k = .diagonal) :
    ∃ est, estimateOf G k = .ok est ∧ EstimatePsd est ∧ (k = .full → curvOf est = G) ∧ (k = .diagonal → curvOf est = Matrix.diagonal fun i => G i i) := by
  rcases hk with rfl | rfl
  · exact ⟨.full G, rfl, hG, fun _ => rfl, fun h => by cases h⟩
  · exact ⟨.diagonal fun i => G i i, rfl, posSemidef_diag_nonneg hG, (fun h => by cases h), fun _ => rfl⟩

section
variable (lower : String → String) (rows : A → Except Err (List A))
  (points : PyObj A → PyObj A → Except Err (List (X × Y))) (net : Net X p) (params : PyTree ℝ) (θ : Vec p)
  (pts : Fin N → X × Y) (hBN : B ≤ N) (data : Equiv.Perm (Fin N) → PyObj A) (all : PyObj A) (loss : String)
  (H : Vec (shapeSize net.shape) → Vec (shapeSize net.shape) → Y → Vec (shapeSize net.shape)) (curvType ct : EnumArg)

/-- The mean curvature of the sub-sampled fits against the one of all the data. -/
theorem subsampled_curvature (hN : 0 < N) (numCurv numTotal : ℕ) (hT : numTotal ≠ 0) (hfac : numCurv * B ≤ numTotal * N)
    (hgood : GoodLossHess H) (hd : ∀ i, DifferentiableAt ℝ (net.fn (pts i).1) θ)
    (G : Equiv.Perm (Fin N) → Matrix (Fin p) (Fin p) ℝ) (F : Matrix (Fin p) (Fin p) ℝ)
    (hG : ∀ π v, G π *ᵥ v = ((numCurv : ℝ) / numTotal) • ggnSamples net.fn θ H (List.ofFn fun i : Fin B => pts (π (Fin.castLE hBN i))) v)
    (hF : ∀ v, F *ᵥ v = (((1 : ℕ) : ℝ) / ((1 : ℕ) : ℝ)) • ggnSamples net.fn θ H (List.ofFn pts) v) :
    (F - ∑ π, (Nat.factorial N : ℝ)⁻¹ • G π).PosSemidef := by
  have hN' : (N : ℝ) ≠ 0 := by exact_mod_cast hN.ne'
  have hT' : (numTotal : ℝ) ≠ 0 := by exact_mod_cast hT
  have hF0 : F.PosSemidef := by
    have : F = ggnMatrix net.fn θ H hgood 1 (List.ofFn pts) := by
      apply Matrix.toLin'.injective
      apply LinearMap.ext; intro v
      rw [Matrix.toLin'_apply, Matrix.toLin'_apply, hF, ggnMatrix_mulVec, Nat.cast_one, div_one]
    rw [this]
    refine ggnMatrix_posSemidef net.fn θ H hgood 1 zero_le_one _ fun s hs => ?_
    obtain ⟨i, rfl⟩ := (List.mem_ofFn' _ _).1 hs
    exact hd i
  have e : ∑ π, (Nat.factorial N : ℝ)⁻¹ • G π = ((numCurv : ℝ) * B / (numTotal * N)) • F := by
    apply Matrix.toLin'.injective
    apply LinearMap.ext; intro v
    rw [Matrix.toLin'_apply, Matrix.toLin'_apply, Matrix.smul_mulVec, hF, Matrix.sum_mulVec]
    simp only [Matrix.smul_mulVec, hG, ggnSamples, List.map_ofFn, List.sum_ofFn, Function.comp]
    rw [← Finset.smul_sum, ← Finset.smul_sum, Finset.sum_comm, smul_smul, Finset.smul_sum, Nat.cast_one, div_one, one_smul]
    have key := fun i : Fin B => perm_average (fun n : Fin N => (jacobian (net.fn (pts n).1) θ)ᵀ *ᵥ H (jacobian (net.fn (pts n).1) θ *ᵥ v) (net.fn (pts n).1 θ) (pts n).2) (Fin.castLE hBN i)
    have e : (Nat.factorial N : ℝ)⁻¹ * ((numCurv : ℝ) / numTotal) = (numCurv : ℝ) / (numTotal * N) * ((N : ℝ) / Nat.factorial N) := by field_simp
    simp only [e, ← smul_smul, key]
    rw [Finset.sum_const, Finset.card_univ, Fintype.card_fin, ← Nat.cast_smul_eq_nsmul ℝ, smul_smul]
    congr 1
    ring
  have e2 : F - ((numCurv : ℝ) * B / (numTotal * N)) • F = (1 - (numCurv : ℝ) * B / (numTotal * N)) • F := by rw [sub_smul, one_smul]
  rw [e, e2]
  refine hF0.smul (sub_nonneg.2 (div_le_one_of_le₀ ?_ (by positivity)))
  exact_mod_cast hfac

/-- **C81 (predictive variances).** Fit on the first `B` points of the `N` data points in a uniformly random order, with any `num_curv_samples` and
`num_total_samples` whose quotient is at most `N/B` (so for the correct scaling `N/B`, for the documented arguments `B, N`, and for the defaults), with
dense or diagonal curvature.  The mean over all orders of the variance that the linearised predictive reports is at least the variance that the
fit on all the data reports, at every input and output; the reported means all agree. -/
theorem C81_average_variance (hN : 0 < N) (numCurv numTotal : ℕ) (hT : numTotal ≠ 0) (hfac : numCurv * B ≤ numTotal * N)
    (h : ∀ π, LaplaceCall lower points net.fn params θ (data π) (List.ofFn fun i : Fin B => pts (π (Fin.castLE hBN i))) loss H curvType ct)
    (hall : LaplaceCall lower points net.fn params θ all (List.ofFn pts) loss H curvType ct)
    (kind : EnumArg → LaplaceKind p) (hk : kind ct = .full ∨ kind ct = .diagonal)
    (pushforward predictive : EnumArg) (pr : String)
    (hpf : convertToEnum lower pushforwardValues false pushforward = .ok (.member "linear"))
    (hpr : convertToEnum lower predictiveValues false predictive = .ok (.member pr))
    (rng : Prng K) (hrng : RngOk rng) (custom : ℕ → PfStep X K p) (key : K) (S : ℕ) (hu : ApiUsable net.shape S pr) :
    ∃ (posteriorFn : Equiv.Perm (Fin N) → PriorArgs → ℝ → Except Err (Posterior p)) (est : Equiv.Perm (Fin N) → CurvEstimate p)
      (posteriorAll : PriorArgs → ℝ → Except Err (Posterior p)) (estAll : CurvEstimate p),
      (∀ π, laplace lower rows points net.fn params (data π) (.name loss) curvType kind numCurv numTotal = .ok (posteriorFn π, est π)) ∧
      laplace lower rows points net.fn params all (.name loss) curvType kind 1 1 = .ok (posteriorAll, estAll) ∧
      ∀ (prior : PriorArgs) (τ : ℝ), prior.priorPrec = some τ → 0 < τ → 0 ≤ prior.sigmaSquared.getD 1 → ∀ x,
        ∃ (m : Fin (shapeSize net.shape) → ℝ) (V : Equiv.Perm (Fin N) → Fin (shapeSize net.shape) → ℝ) (W : Fin (shapeSize net.shape) → ℝ),
          (∀ π, Reports lower pushforward predictive ⟨rng, net, params, posteriorFn π, custom, key, S⟩ prior x m (V π)) ∧
          Reports lower pushforward predictive ⟨rng, net, params, posteriorAll, custom, key, S⟩ prior x m W ∧
          ∀ k, W k ≤ (∑ π, V π k) / Nat.factorial N := by
  have k1 := fun π => C47_laplace_curvature lower rows points net.fn params θ (data π) _ loss H curvType ct (h π) kind numCurv numTotal hT
  choose G g1 g2 g3 using k1
  obtain ⟨F, f1, f2, f3⟩ := C47_laplace_curvature lower rows points net.fn params θ all _ loss H curvType ct hall kind 1 1 one_ne_zero
  have hle := subsampled_curvature net θ pts hBN H hN numCurv numTotal hT hfac (goodLossHess_named loss H hall.hH)
    (fun i => hall.hd (pts i) ((List.mem_ofFn' _ _).2 ⟨i, rfl⟩)) G F g2 f2
  have k2 := fun π => estimate_dense (g1 π) hk
  choose est e1 e2 e3 e3' using k2
  obtain ⟨estAll, a1, a2, a3, a3'⟩ := estimate_dense f1 hk
  have hle' : (curvOf estAll - ∑ π, (Nat.factorial N : ℝ)⁻¹ • curvOf (est π)).PosSemidef := by
    rcases hk with hk | hk
    · simp only [e3 _ hk, a3 hk]; exact hle
    · simp only [e3' _ hk, a3' hk]
      have : (Matrix.diagonal fun i => F i i) - ∑ π, (Nat.factorial N : ℝ)⁻¹ • (Matrix.diagonal fun i => G π i i) =
          Matrix.diagonal fun i => (F - ∑ π, (Nat.factorial N : ℝ)⁻¹ • G π) i i := by
        ext i j
        by_cases hij : i = j
        · subst hij; simp [Matrix.sum_apply]
        · simp [Matrix.sum_apply, hij]
      rw [this]
      exact Matrix.PosSemidef.diagonal fun i => posSemidef_diag_nonneg hle i
  refine ⟨fun π => fun q s => setPosteriorFn (est π) (.tree params) q s, est, _, estAll, fun π => by rw [g3, e1]; rfl, by rw [f3, a1]; rfl,
    fun prior τ hτ hτ0 hσ x => ?_⟩
  have r1 := fun π => reports (a := (⟨rng, net, params, fun q s => setPosteriorFn (est π) (.tree params) q s, custom, key, S⟩ : PredictiveArgs X K p))
    (⟨hpf, hpr, hrng, hall.hp, hall.hwf, hall.hθ, e2 π, rfl, hu⟩ : ApiLinear lower pushforward predictive pr _ θ (est π)) prior hτ hτ0 hσ x
  have r2 := reports (a := (⟨rng, net, params, fun q s => setPosteriorFn estAll (.tree params) q s, custom, key, S⟩ : PredictiveArgs X K p))
    (⟨hpf, hpr, hrng, hall.hp, hall.hwf, hall.hθ, a2, rfl, hu⟩ : ApiLinear lower pushforward predictive pr _ θ estAll) prior hτ hτ0 hσ x
  refine ⟨_, _, _, r1, r2, fun k => ?_⟩
  have hfact : (Nat.factorial N : ℝ) ≠ 0 := by exact_mod_cast Nat.factorial_ne_zero N
  have hw1 : ∑ _π : Equiv.Perm (Fin N), (Nat.factorial N : ℝ)⁻¹ = 1 := by
    rw [Finset.sum_const, Finset.card_univ, Fintype.card_perm, Fintype.card_fin, nsmul_eq_mul, mul_inv_cancel₀ hfact]
  have hq := quad_inv_average (fun _ : Equiv.Perm (Fin N) => (Nat.factorial N : ℝ)⁻¹) (fun _ => by positivity) hw1
    (fun π => targetPrecision_posDef (e2 π) hτ0 hσ) (targetPrecision_posDef a2 hτ0 hσ) (by
      have : targetPrecision τ (prior.sigmaSquared.getD 1) 1 estAll -
          ∑ π, (Nat.factorial N : ℝ)⁻¹ • targetPrecision τ (prior.sigmaSquared.getD 1) 1 (est π) =
          prior.sigmaSquared.getD 1 • (curvOf estAll - ∑ π, (Nat.factorial N : ℝ)⁻¹ • curvOf (est π)) := by
        simp only [targetPrecision_eq, smul_add, Finset.sum_add_distrib]
        rw [← Finset.sum_smul, hw1, one_smul, add_sub_add_right_eq_sub, smul_sub, Finset.smul_sum]
        congr 1
        exact Finset.sum_congr rfl fun π _ => smul_comm _ _ _
      rw [this]
      exact hle'.smul hσ) (jacobian (net.fn x) θ k)
  simp only [← covAt_diag] at hq
  refine hq.trans_eq ?_
  rw [← Finset.mul_sum, div_eq_inv_mul]

end

/-! ### Non-vacuity -/

/-- Batches of two of five points with the correct scaling `5/2`, against all five points. -/
example (pts : Fin 5 → ℝ × ℝ) : ∃ (posteriorFn : Equiv.Perm (Fin 5) → PriorArgs → ℝ → Except Err (Posterior 2)) (est : Equiv.Perm (Fin 5) → CurvEstimate 2)
      (posteriorAll : PriorArgs → ℝ → Except Err (Posterior 2)) (estAll : CurvEstimate 2),
    (∀ π, laplace (fun s => s) (fun _ => .error .valueError) testPairs testNet.fn testMean
      (.tup [.arr (List.ofFn fun i : Fin 2 => (pts (π (Fin.castLE (by norm_num) i))).1), .arr (List.ofFn fun i : Fin 2 => (pts (π (Fin.castLE (by norm_num) i))).2)])
      (.name "mse") (.str "full") (fun _ => .full) 5 2 = .ok (posteriorFn π, est π)) ∧
    laplace (fun s => s) (fun _ => .error .valueError) testPairs testNet.fn testMean
      (.tup [.arr (List.ofFn fun i => (pts i).1), .arr (List.ofFn fun i => (pts i).2)]) (.name "mse") (.str "full") (fun _ => .full) 1 1 = .ok (posteriorAll, estAll) ∧
    ∃ (m : Fin (shapeSize testNet.shape) → ℝ) (V : Equiv.Perm (Fin 5) → Fin (shapeSize testNet.shape) → ℝ) (W : Fin (shapeSize testNet.shape) → ℝ), (∀ π, Reports (fun s => s) (.str "linear") (.member "none")
        ⟨testRng, testNet, testMean, posteriorFn π, fun _ _ _ _ => .error .typeError, (), 3⟩ ⟨some 1, none⟩ 2 m (V π)) ∧
      Reports (fun s => s) (.str "linear") (.member "none") ⟨testRng, testNet, testMean, posteriorAll, fun _ _ _ _ => .error .typeError, (), 3⟩ ⟨some 1, none⟩ 2 m W ∧
      ∀ k, W k ≤ (∑ π, V π k) / Nat.factorial 5 := by
  obtain ⟨a, b, d, e, h1, h2, h3⟩ := C81_average_variance (B := 2) (fun s => s) (fun _ => .error .valueError) testPairs testNet testMean ![3, 5] pts (by norm_num)
    (fun π => .tup [.arr (List.ofFn fun i : Fin 2 => (pts (π (Fin.castLE (by norm_num) i))).1), .arr (List.ofFn fun i : Fin 2 => (pts (π (Fin.castLE (by norm_num) i))).2)])
    _ "mse" _ _ _ (by norm_num) 5 2 (by norm_num) (by norm_num) (fun π => test_zip fun i : Fin 2 => pts (π (Fin.castLE (by norm_num) i))) (test_zip pts) (fun _ => .full) (.inl rfl)
    (.str "linear") (.member "none") "none" rfl rfl testRng testRng_ok (fun _ _ _ _ => .error .typeError) () 3 (Or.inl rfl)
  exact ⟨a, b, d, e, h1, h2, h3 ⟨some 1, none⟩ 1 rfl one_pos (by norm_num) 2⟩

end Laplax.Props
