import Verif.Props.Relabel
import Verif.Props.Scores
import Verif.Props.Workflow
import Verif.Spec.Units

/-! # C73: the units of the outputs -/

namespace Laplax.Props
open Laplax Spec
open scoped BigOperators Matrix

variable {p c n : ℕ} {A X Y K : Type}

/-! ## Scores -/

/-- **C73 (scores).** Converting predictions and targets of a regression to other units multiplies `rmse` and the CRPS by the factor,
leaves `chi_squared` unchanged and adds the logarithm of the factor (per entry) to the negative log density. -/
theorem C73_scores (u b : ℝ) (hu : 0 < u) (sh : List ℕ) (mean std target : Fin (shapeSize sh) → ℝ) (hs : ∀ i, 0 < std i)
    (hn : 0 < shapeSize sh) :
    estimateRmse (fun i => u * mean i + b) (fun i => u * target i + b) = u * estimateRmse mean target ∧
    (∀ avg, chiSquared (fun i => u * mean i + b) (fun i => u * std i) (fun i => u * target i + b) avg = chiSquared mean std target avg) ∧
    chiSquaredZero (fun i => u * mean i + b) (fun i => u * std i) (fun i => u * target i + b) = chiSquaredZero mean std target ∧
    (∀ r, nllGaussian ⟨sh, mean⟩ ⟨sh, std⟩ ⟨sh, target⟩ true = .ok r →
      nllGaussian ⟨sh, fun i => u * mean i + b⟩ ⟨sh, fun i => u * std i⟩ ⟨sh, fun i => u * target i + b⟩ true = .ok (r + Real.log u)) ∧
    (∀ r, nllGaussian ⟨sh, mean⟩ ⟨sh, std⟩ ⟨sh, target⟩ false = .ok r →
      nllGaussian ⟨sh, fun i => u * mean i + b⟩ ⟨sh, fun i => u * std i⟩ ⟨sh, fun i => u * target i + b⟩ false =
        .ok (r + shapeSize sh * Real.log u)) ∧
    (∀ scaled r, crpsGaussian ⟨sh, mean⟩ ⟨sh, std⟩ ⟨sh, target⟩ scaled = .ok r →
      crpsGaussian ⟨sh, fun i => u * mean i + b⟩ ⟨sh, fun i => u * std i⟩ ⟨sh, fun i => u * target i + b⟩ scaled = .ok (u * r)) := by
  have hn' : (shapeSize sh : ℝ) ≠ 0 := by positivity
  have hd : ∀ i, (u * mean i + b) - (u * target i + b) = u * (mean i - target i) := fun i => by ring
  have hd' : ∀ i, (u * target i + b) - (u * mean i + b) = u * (target i - mean i) := fun i => by ring
  have chi : ∀ avg, chiSquared (fun i => u * mean i + b) (fun i => u * std i) (fun i => u * target i + b) avg =
      chiSquared mean std target avg := by
    intro avg
    have : (fun i => ((u * mean i + b) - (u * target i + b)) ^ 2 / (u * std i) ^ 2) = fun i => (mean i - target i) ^ 2 / std i ^ 2 := by
      funext i
      rw [hd, mul_pow, mul_pow, mul_div_mul_left _ _ (by positivity)]
    simp only [chiSquared, this]
  have hlog : ∀ i, normLogpdf ((u * mean i + b) - (u * target i + b)) (u * std i) = normLogpdf (mean i - target i) (std i) - Real.log u := by
    intro i
    have h1 := (hs i)
    have e : 2 * Real.pi * (u * std i) ^ 2 = (2 * Real.pi * std i ^ 2) * u ^ 2 := by ring
    rw [hd, normLogpdf, normLogpdf, e, Real.log_mul (by positivity) (by positivity), Real.log_pow, mul_pow, mul_pow,
      mul_div_mul_left _ _ (by positivity)]
    push_cast
    ring
  have hcr : ∀ i, crpsTerm (u * mean i + b) (u * std i) (u * target i + b) = u * crpsTerm (mean i) (std i) (target i) := by
    intro i
    simp only [crpsTerm]
    rw [hd', mul_div_mul_left _ _ hu.ne']
    ring
  refine ⟨?_, chi, ?_, fun r h => ?_, fun r h => ?_, fun scaled r h => ?_⟩
  · simp only [estimateRmse, hd, mul_pow]
    have : jnpMean (fun i => u ^ 2 * (mean i - target i) ^ 2) = u ^ 2 * jnpMean (fun i => (mean i - target i) ^ 2) := by
      simp only [jnpMean, ← Finset.mul_sum]; ring
    rw [this, Real.sqrt_mul (by positivity), Real.sqrt_sq hu.le]
  · simp only [chiSquaredZero, chi]
  · simp only [nllGaussian, and_self, dif_pos, if_true, Except.ok.injEq] at h ⊢
    simp only [hlog, Finset.sum_sub_distrib, Finset.sum_const, Finset.card_univ, Fintype.card_fin, nsmul_eq_mul]
    rw [← h]
    field_simp
    ring
  · simp only [nllGaussian, and_self, dif_pos, Bool.false_eq_true, if_false, Except.ok.injEq] at h ⊢
    simp only [hlog, Finset.sum_sub_distrib, Finset.sum_const, Finset.card_univ, Fintype.card_fin, nsmul_eq_mul]
    rw [← h]
    ring
  · simp only [crpsGaussian, and_self, dif_pos, Except.ok.injEq] at h ⊢
    simp only [hcr, ← Finset.mul_sum]
    rw [← h]
    split <;> ring

/-! ## Posterior -/

theorem jacobian_units (f : Vec p → Vec c) {u : ℝ} (hu : u ≠ 0) (b : ℝ) (θ : Vec p) :
    jacobian (fun v k => u * f v k + b) θ = u • jacobian f θ := by
  have e : (fun v k => u * f v k + b) = fun v => (u • f) v + (fun _ => b : Vec c) := by
    funext v k; simp
  ext i j
  simp only [jacobian, Matrix.of_apply, Matrix.smul_apply, smul_eq_mul]
  rw [e, fderiv_add_const, fderiv_const_smul_of_field]
  rfl

theorem ggn_units {θ : Vec p} (f : X → Vec p → Vec c) {u : ℝ} (hu : u ≠ 0) (b : ℝ) (samples : List (X × Y)) (v : Vec p) :
    ggnSamples (fun x w k => u * f x w k + b) θ (fun jv _ _ => mseHessianMv jv) samples v =
      u ^ 2 • ggnSamples f θ (fun jv _ _ => mseHessianMv jv) samples v := by
  simp only [ggnSamples]
  rw [List.smul_sum, List.map_map]
  congr 1
  refine List.map_congr_left fun s _ => ?_
  rw [jacobian_units _ hu]
  simp only [Function.comp]
  have : mseHessianMv (u • jacobian (f s.1) θ *ᵥ v) = u • mseHessianMv (jacobian (f s.1) θ *ᵥ v) := by
    funext k; simp only [mseHessianMv, Pi.smul_apply, smul_eq_mul]; ring
  rw [Matrix.smul_mulVec, this, Matrix.transpose_smul, Matrix.smul_mulVec, Matrix.mulVec_smul, smul_smul, sq]

theorem mse_hessian {H : Vec c → Vec c → Y → Vec c} (h : createLossHessianMv (.name "mse") = .ok H) : H = fun jv _ _ => mseHessianMv jv := by
  simp only [createLossHessianMv, if_neg (show ¬ ("mse" = "binary_cross_entropy") by decide),
    if_neg (show ¬ ("mse" = "cross_entropy") by decide), if_true] at h
  exact (Except.ok.inj h).symm

section
variable (lower : String → String) (rows : A → Except Err (List A)) (points : PyObj A → PyObj A → Except Err (List (X × Y)))
  (net : Net X p) (u b : ℝ) (params : PyTree ℝ) (θ : Vec p) (data data' : PyObj A) (samples samples' : List (X × Y))
  (H : Vec (shapeSize net.shape) → Vec (shapeSize net.shape) → Y → Vec (shapeSize net.shape)) (curvType ct : EnumArg)
  (kind : EnumArg → LaplaceKind p) (numCurv numTotal : ℕ)

/-- The two curvatures. -/
theorem units_laplace (hu : 0 < u) (hin : samples'.map Prod.fst = samples.map Prod.fst)
    (h : LaplaceCall lower points net.fn params θ data samples "mse" H curvType ct)
    (h' : LaplaceCall lower points (inUnits net u b).fn params θ data' samples' "mse" H curvType ct) (hN : numTotal ≠ 0) :
    ∃ G : Matrix (Fin p) (Fin p) ℝ, G.PosSemidef ∧
      laplace lower rows points net.fn params data (.name "mse") curvType kind numCurv numTotal =
        (estimateOf G (kind ct)).map (fun est => (fun a s => setPosteriorFn est (.tree params) a s, est)) ∧
      laplace lower rows points (inUnits net u b).fn params data' (.name "mse") curvType kind numCurv numTotal =
        (estimateOf (u ^ 2 • G) (kind ct)).map (fun est => (fun a s => setPosteriorFn est (.tree params) a s, est)) := by
  obtain ⟨G, g1, g2, g3⟩ := C47_laplace_curvature lower rows points net.fn params θ data samples "mse" H curvType ct h kind numCurv numTotal hN
  obtain ⟨G', -, g2', g3'⟩ := C47_laplace_curvature lower rows points (inUnits net u b).fn params θ data' samples' "mse" H curvType ct h' kind
    numCurv numTotal hN
  refine ⟨G, g1, g3, ?_⟩
  have hH := mse_hessian h.hH
  have hs : ∀ (f : X → Vec p → Vec (shapeSize net.shape)) (v : Vec p), ggnSamples f θ H samples' v = ggnSamples f θ H samples v := by
    intro f v
    have e : ∀ ss : List (X × Y), ggnSamples f θ H ss v =
        ((ss.map Prod.fst).map fun x => (jacobian (f x) θ)ᵀ *ᵥ mseHessianMv (jacobian (f x) θ *ᵥ v)).sum := by
      intro ss
      rw [ggnSamples, List.map_map, hH]; rfl
    rw [e, e, hin]
  have : G' = u ^ 2 • G := by
    apply Matrix.toLin'.injective
    apply LinearMap.ext; intro v
    rw [Matrix.toLin'_apply, Matrix.toLin'_apply, Matrix.smul_mulVec, g2, smul_comm]
    refine (g2' v).trans (congrArg (((numCurv : ℝ) / numTotal) • ·) ?_)
    refine (hs (inUnits net u b).fn v).trans ?_
    rw [hH]
    exact ggn_units net.fn hu.ne' b samples v
  rw [g3', this]

/-- **C73 (posterior).** Squared-error loss, full or diagonal curvature: for the model in other units – the targets may be converted along
with it – the posterior function returned by `laplace` is the same, if `sigma_squared` is divided by the square of the factor. -/
theorem C73_same_posterior (hu : 0 < u) (hin : samples'.map Prod.fst = samples.map Prod.fst)
    (h : LaplaceCall lower points net.fn params θ data samples "mse" H curvType ct)
    (h' : LaplaceCall lower points (inUnits net u b).fn params θ data' samples' "mse" H curvType ct) (hN : numTotal ≠ 0)
    (hk : kind ct = .full ∨ kind ct = .diagonal) :
    ∃ posteriorFn est posteriorFn' est',
      laplace lower rows points net.fn params data (.name "mse") curvType kind numCurv numTotal = .ok (posteriorFn, est) ∧
      laplace lower rows points (inUnits net u b).fn params data' (.name "mse") curvType kind numCurv numTotal = .ok (posteriorFn', est') ∧
      EstimatePsd est ∧ posteriorFn = (fun a s => setPosteriorFn est (.tree params) a s) ∧
      EstimatePsd est' ∧ posteriorFn' = (fun a s => setPosteriorFn est' (.tree params) a s) ∧
      (∀ (τ : Option ℝ) (σ s : ℝ), posteriorFn' ⟨τ, some (σ / u ^ 2)⟩ s = posteriorFn ⟨τ, some σ⟩ s) ∧
      ∀ (τ σ s : ℝ), targetPrecision (u ^ 2 * τ) σ s est' = u ^ 2 • targetPrecision τ σ s est := by
  obtain ⟨G, g1, g2, g3⟩ := units_laplace lower rows points net u b params θ data data' samples samples' H curvType ct kind numCurv numTotal
    hu hin h h' hN
  have hu2 : u ^ 2 ≠ 0 := by positivity
  have hg' : (u ^ 2 • G).PosSemidef := g1.smul (by positivity)
  have key : ∀ σ x : ℝ, σ / u ^ 2 * (u ^ 2 * x) = σ * x := fun σ x => by field_simp
  rcases hk with hk | hk
  · rw [hk] at g2 g3
    refine ⟨_, _, _, _, g2, g3, g1, rfl, hg', rfl, fun τ σ s => ?_, fun τ σ s => ?_⟩
    · have : fullCurvatureToPrecision (u ^ 2 • G) ⟨τ, some (σ / u ^ 2)⟩ s = fullCurvatureToPrecision G ⟨τ, some σ⟩ s := by
        cases τ with
        | none => rfl
        | some τ =>
          refine congrArg Except.ok ?_
          funext i j
          show (σ / u ^ 2 * (u ^ 2 * G i j) + _) / s = (σ * G i j + _) / s
          rw [key]
      simp only [setPosteriorFn, posteriorState, this]
    · simp only [targetPrecision, precision, smul_add, smul_smul]
      congr 2 <;> ring
  · rw [hk] at g2 g3
    refine ⟨_, _, _, _, g2, g3, posSemidef_diag_nonneg g1, rfl, posSemidef_diag_nonneg hg', rfl, fun τ σ s => ?_, fun τ σ s => ?_⟩
    · have : diagonalCurvatureToPrecision (fun i => (u ^ 2 • G) i i) ⟨τ, some (σ / u ^ 2)⟩ s =
          diagonalCurvatureToPrecision (fun i => G i i) ⟨τ, some σ⟩ s := by
        cases τ with
        | none => rfl
        | some τ =>
          refine congrArg Except.ok ?_
          funext i
          show (σ / u ^ 2 * (u ^ 2 * G i i) + _) / s = (σ * G i i + _) / s
          rw [key]
      simp only [setPosteriorFn, posteriorState, this]
    · have e : (Matrix.diagonal fun i => (u ^ 2 • G) i i) = u ^ 2 • Matrix.diagonal fun i => G i i := by
        rw [← Matrix.diagonal_smul]; rfl
      simp only [targetPrecision, precision, e, smul_add, smul_smul]
      congr 2 <;> ring

end

/-! ## Predictions -/

theorem converted_arr (u b : ℝ) (key : String) (sh : List ℕ) (y : Vec c) :
    converted u b key (arrOf sh y) = arrOf sh fun i =>
      if key ∈ ["map", "pred_mean", "samples"] then u * y i + b else if key = "pred_std" then u * y i else u ^ 2 * y i := by
  simp only [converted, arrOf, List.map_ofFn]; rfl

theorem converted_rows (u b : ℝ) (key : String) (sh : List ℕ) {S : ℕ} (y : Fin S → Vec c) :
    converted u b key ⟨sh, (List.ofFn fun i => List.ofFn (y i)).flatten⟩ = ⟨sh, (List.ofFn fun i => List.ofFn fun k =>
      if key ∈ ["map", "pred_mean", "samples"] then u * y i k + b else if key = "pred_std" then u * y i k else u ^ 2 * y i k).flatten⟩ := by
  simp only [converted, List.map_flatten, List.map_ofFn]
  congr 3
  funext i
  simp only [Function.comp, List.map_ofFn]
  rfl

theorem linExpected_units {S : ℕ} (u b : ℝ) (hu : 0 < u) (sh : List ℕ) (f : Vec c) (V : Matrix (Fin c) (Fin c) ℝ) (s : Fin S → Vec c)
    (sp sp' : Vec c) (key : String) (h : key ∈ ["map", "pred_mean", "pred_var", "pred_std", "pred_cov", "samples"]) :
    linExpected sh (fun k => u * f k + b) (u ^ 2 • V) (fun i k => u * s i k + b) sp' key =
      (linExpected sh f V s sp key).map (converted u b key) := by
  simp only [List.mem_cons, List.not_mem_nil, or_false] at h
  rcases h with rfl | rfl | rfl | rfl | rfl | rfl
  · simp [linExpected, converted_arr]
  · simp [linExpected, converted_arr]
  · simp [linExpected, converted_arr]
  · simp [linExpected, converted_arr, Real.sqrt_mul (sq_nonneg u), Real.sqrt_sq hu.le]
  · simp only [linExpected, if_neg (show ¬ ("pred_cov" = "map") by decide), if_neg (show ¬ ("pred_cov" = "pred_mean") by decide), if_true]
    split_ifs with h1 h2
    · have := converted_arr u b "pred_cov" [1] (fun i => V i i)
      simp only [arrOf] at this
      rw [Option.map_some, this]
      simp
    · rw [Option.map_some, denseArr, denseArr, converted_rows]
      simp
    · rfl
  · simp [linExpected, ensArr, converted_rows]

theorem cov_units (f : Vec p → Vec c) {u : ℝ} (hu : u ≠ 0) (b : ℝ) (θ : Vec p) (C : Matrix (Fin p) (Fin p) ℝ) :
    jacobian (fun v k => u * f v k + b) θ * C * (jacobian (fun v k => u * f v k + b) θ)ᵀ = u ^ 2 • (jacobian f θ * C * (jacobian f θ)ᵀ) := by
  rw [jacobian_units f hu]
  simp only [Matrix.transpose_smul, Matrix.smul_mul, Matrix.mul_smul, smul_smul, sq]

theorem sample_units (f : Vec p → Vec c) {u : ℝ} (hu : u ≠ 0) (b : ℝ) (θ w : Vec p) (k : Fin c) :
    ((fun k => u * f θ k + b) + jacobian (fun v k => u * f v k + b) θ *ᵥ w) k = u * (f θ + jacobian f θ *ᵥ w) k + b := by
  rw [jacobian_units f hu, Matrix.smul_mulVec]
  simp only [Pi.add_apply, Pi.smul_apply, smul_eq_mul]
  ring

/-- **C73 (linearised predictive).** For equal posteriors, every list of linearised pushforward functions, keyword arguments and input:
mean, variance, standard deviation, covariance and samples of the model in other units are the converted ones. -/
theorem C73_linearized_predictive (rng : Prng K) (hrng : RngOk rng) (net : Net X p) (u b : ℝ) (hu : 0 < u)
    (mean : PyTree ℝ) (hp : 0 < p) (hwf : WFTree mean) (θ : Vec p) (hθ : entries mean = List.ofFn θ)
    (posteriorFn posteriorFn' : PriorArgs → ℝ → Except Err (Posterior p)) (prior prior' : PriorArgs) (lsf : ℝ) (post : Posterior p)
    (hpost : posteriorFn prior lsf = .ok post) (hpost' : posteriorFn' prior' lsf = .ok post)
    (cov scale : List (PyTree ℝ) → Except Err (PyTree ℝ))
    (hcov : post.covMv post.state = .ok cov) (hscale : post.scaleMv post.state = .ok scale)
    (C R : Matrix (Fin p) (Fin p) ℝ) (hC : ActsOnTrees mean cov (fun v => C *ᵥ v)) (hR : ActsOnTrees mean scale (fun v => R *ᵥ v))
    (kw : PfKwargs K) (hkw : kw.precompute = none) (hb1 : kw.precomputeListBatchSize ≠ some 0)
    (hb2 : kw.linSamplesBatchSize ≠ some 0) (hb3 : kw.weightBatchSize ≠ some 0)
    (fns : List LinFn)
    (hus : ∀ fn ∈ fns, LinUsable net.shape (kw.numSamples.getD 0) (kw.specialPredType.getD "mean_field_0") fn) (x : X) :
    ∃ r r' : Dict (Arr ℝ),
      linPushforward rng net mean posteriorFn prior lsf ((LinFn.setup :: fns).map LinFn.step) kw x = .ok r ∧
      linPushforward rng (inUnits net u b) mean posteriorFn' prior' lsf ((LinFn.setup :: fns).map LinFn.step) kw x = .ok r' ∧
      ∀ fn ∈ fns, fn ≠ .mcPredAct → fn ≠ .specialPredAct →
        (r.get? (linKey fn)).isSome ∧ r'.get? (linKey fn) = (r.get? (linKey fn)).map (converted u b (linKey fn)) := by
  obtain ⟨r, eps, d1, h1, h2, h3⟩ := C35_linearized_predictive rng hrng net mean hp hwf θ hθ posteriorFn prior lsf post hpost cov scale
    hcov hscale C R hC hR kw hkw hb1 hb2 hb3 fns hus x
  obtain ⟨r', eps', d1', h1', h2', h3'⟩ := C35_linearized_predictive rng hrng (inUnits net u b) mean hp hwf θ hθ posteriorFn' prior' lsf post
    hpost' cov scale hcov hscale C R hC hR kw hkw hb1 hb2 hb3 fns hus x
  obtain rfl : eps' = eps := draws_unique d1' d1
  refine ⟨r, r', h1, h1', fun fn hfn n1 n2 => ⟨h3 fn hfn, ?_⟩⟩
  obtain ⟨v, hv⟩ := Option.isSome_iff_exists.1 (h3 fn hfn)
  obtain ⟨v', hv'⟩ := Option.isSome_iff_exists.1 (h3' fn hfn)
  rw [hv, hv', ← h2 _ v hv, ← h2' _ v' hv']
  have e1 : jacobian ((inUnits net u b).fn x) θ * C * (jacobian ((inUnits net u b).fn x) θ)ᵀ =
      u ^ 2 • (jacobian (net.fn x) θ * C * (jacobian (net.fn x) θ)ᵀ) := cov_units (net.fn x) hu.ne' b θ C
  have e2 : (fun i => (inUnits net u b).fn x θ + jacobian ((inUnits net u b).fn x) θ *ᵥ (R *ᵥ eps' i)) =
      fun i k => u * (net.fn x θ + jacobian (net.fn x) θ *ᵥ (R *ᵥ eps' i)) k + b :=
    funext fun i => funext fun k => sample_units (net.fn x) hu.ne' b θ (R *ᵥ eps' i) k
  rw [e1, e2]
  refine linExpected_units u b hu net.shape (net.fn x θ) _ _ _ _ (linKey fn) ?_
  cases fn <;> simp_all [linKey]

theorem apiExpected_units {S : ℕ} (u b : ℝ) (hu : 0 < u) (sh : List ℕ) (f : Vec c) (V : Matrix (Fin c) (Fin c) ℝ) (s s' : Fin S → Vec c)
    (key : String) :
    apiExpected sh (fun k => u * f k + b) (u ^ 2 • V) s' "none" key = (apiExpected sh f V s "none" key).map (converted u b key) := by
  unfold apiExpected
  split_ifs with h1 h2 h3 h4
  · rw [Option.map_some, converted_arr]
    rcases h1 with rfl | rfl <;> simp
  · subst h2
    rw [Option.map_some, converted_arr]
    simp
  · subst h3
    rw [Option.map_some, converted_arr]
    simp [Real.sqrt_mul (sq_nonneg u), Real.sqrt_sq hu.le]
  all_goals first | rfl | exact absurd rfl h4

section
variable (lower : String → String) (rows : A → Except Err (List A)) (points : PyObj A → PyObj A → Except Err (List (X × Y)))
  (net : Net X p) (u b : ℝ) (params : PyTree ℝ) (θ : Vec p) (data data' : PyObj A) (samples samples' : List (X × Y))
  (H : Vec (shapeSize net.shape) → Vec (shapeSize net.shape) → Y → Vec (shapeSize net.shape)) (curvType ct : EnumArg)
  (kind : EnumArg → LaplaceKind p) (numCurv numTotal : ℕ)
  (pushforward predictive : EnumArg) (rng : Prng K) (custom : ℕ → PfStep X K p) (key : K) (S : ℕ)

/-- The named predictive, for two posteriors with covariances `C` and `t • C`. -/
theorem units_run (hu : 0 < u) (hpf : convertToEnum lower pushforwardValues false pushforward = .ok (.member "linear"))
    (hpr : convertToEnum lower predictiveValues false predictive = .ok (.member "none")) (hrng : RngOk rng) (hp : 0 < p)
    (hwf : WFTree params) (hθ : entries params = List.ofFn θ)
    (posteriorFn posteriorFn' : PriorArgs → ℝ → Except Err (Posterior p)) (est est' : CurvEstimate p) (hpsd : EstimatePsd est)
    (hpsd' : EstimatePsd est') (hfn : posteriorFn = fun a s => setPosteriorFn est (.tree params) a s)
    (hfn' : posteriorFn' = fun a s => setPosteriorFn est' (.tree params) a s) (τ σ τ' σ' : ℝ) (hτ : 0 < τ) (hσ : 0 ≤ σ) (hτ' : 0 < τ')
    (hσ' : 0 ≤ σ') (x : X) :
    ∃ fns r r', setupPushforward lower pushforward predictive none = .ok (.lin, fns) ∧
      setPushforward ⟨rng, net, params, posteriorFn, custom, key, S⟩ .lin fns ⟨some τ, some σ⟩ x = .ok r ∧
      setPushforward ⟨rng, inUnits net u b, params, posteriorFn', custom, key, S⟩ .lin fns ⟨some τ', some σ'⟩ x = .ok r' ∧
      ∃ s s' : Fin S → Vec (shapeSize net.shape),
      (∀ k, r.get? k = apiExpected net.shape (net.fn x θ) (jacobian (net.fn x) θ * (targetPrecision τ σ 1 est)⁻¹ * (jacobian (net.fn x) θ)ᵀ)
        s "none" k) ∧
      ∀ k, r'.get? k = apiExpected net.shape (fun k => u * net.fn x θ k + b)
        (u ^ 2 • (jacobian (net.fn x) θ * (targetPrecision τ' σ' 1 est')⁻¹ * (jacobian (net.fn x) θ)ᵀ)) s' "none" k := by
  have hsz : numEntries params = p := by rw [← length_entries hwf, hθ, List.length_ofFn]
  obtain ⟨eps, heps⟩ := draws_exist rng hrng (some key) params hsz S
  obtain ⟨post, cov, scale, k1, k2, k3, R, k4, k5, k6⟩ := posterior_of_estimate params hsz hp est hpsd ⟨some τ, some σ⟩ τ rfl hτ
    (by simpa using hσ) 1 one_pos
  obtain ⟨post', cov', scale', l1, l2, l3, R', l4, l5, l6⟩ := posterior_of_estimate params hsz hp est' hpsd' ⟨some τ', some σ'⟩ τ' rfl hτ'
    (by simpa using hσ') 1 one_pos
  obtain ⟨r, g1, g2⟩ := api_linear_run ⟨rng, net, params, posteriorFn, custom, key, S⟩ hrng hp hwf θ hθ ⟨some τ, some σ⟩ post
    (by simp only [hfn]; exact k1) cov scale k2 k3 _ R k5 k6 "none" (Or.inl rfl) eps heps x
  obtain ⟨r', g1', g2'⟩ := api_linear_run ⟨rng, inUnits net u b, params, posteriorFn', custom, key, S⟩ hrng hp hwf θ hθ ⟨some τ', some σ'⟩ post'
    (by simp only [hfn']; exact l1) cov' scale' l2 l3 _ R' l5 l6 "none" (Or.inl rfl) eps heps x
  refine ⟨apiNames "none", r, r', ?_, g1, g1', _, fun i => (fun k => u * net.fn x θ k + b) +
      jacobian (fun v k => u * net.fn x v k + b) θ *ᵥ (R' *ᵥ eps i), g2, fun k => (g2' k).trans ?_⟩
  · rw [setupPushforward_members lower _ _ _ _ none hpf hpr, C44_linear lower "none" (by simp)]; rfl
  · exact congrArg (fun V => apiExpected net.shape (fun k => u * net.fn x θ k + b) V (fun i => (fun k => u * net.fn x θ k + b) +
      jacobian (fun v k => u * net.fn x v k + b) θ *ᵥ (R' *ᵥ eps i)) "none" k) (cov_units (net.fn x) hu.ne' b θ _)

/-- **C73 (workflow).** Squared-error loss, full or diagonal curvature, linearised regression predictive selected by name. Fitting and
predicting in other units, with `sigma_squared` divided by the square of the factor, gives the converted predictions: means like the
outputs, standard deviations by the factor, variances by its square. -/
theorem C73_workflow (hu : 0 < u) (hin : samples'.map Prod.fst = samples.map Prod.fst)
    (h : LaplaceCall lower points net.fn params θ data samples "mse" H curvType ct)
    (h' : LaplaceCall lower points (inUnits net u b).fn params θ data' samples' "mse" H curvType ct) (hN : numTotal ≠ 0)
    (hk : kind ct = .full ∨ kind ct = .diagonal)
    (hpf : convertToEnum lower pushforwardValues false pushforward = .ok (.member "linear"))
    (hpr : convertToEnum lower predictiveValues false predictive = .ok (.member "none")) (hrng : RngOk rng) :
    ∃ posteriorFn est posteriorFn' est',
      laplace lower rows points net.fn params data (.name "mse") curvType kind numCurv numTotal = .ok (posteriorFn, est) ∧
      laplace lower rows points (inUnits net u b).fn params data' (.name "mse") curvType kind numCurv numTotal = .ok (posteriorFn', est') ∧
      ∀ τ σ : ℝ, 0 < τ → 0 ≤ σ → ∀ x,
        ∃ fns r r', setupPushforward lower pushforward predictive none = .ok (.lin, fns) ∧
          setPushforward ⟨rng, net, params, posteriorFn, custom, key, S⟩ .lin fns ⟨some τ, some σ⟩ x = .ok r ∧
          setPushforward ⟨rng, inUnits net u b, params, posteriorFn', custom, key, S⟩ .lin fns ⟨some τ, some (σ / u ^ 2)⟩ x = .ok r' ∧
          (r.get? "pred_mean").isSome ∧ (r.get? "pred_var").isSome ∧ (r.get? "pred_std").isSome ∧
          ∀ k, r'.get? k = (r.get? k).map (converted u b k) := by
  obtain ⟨pf, est, pf', est', a1, a2, a3, a4, a5, a6, a7, a8⟩ := C73_same_posterior lower rows points net u b params θ data data' samples
    samples' H curvType ct kind numCurv numTotal hu hin h h' hN hk
  refine ⟨pf, est, pf', est', a1, a2, fun τ σ hτ hσ x => ?_⟩
  obtain ⟨fns, r, r', b1, b2, b3, s, s', b4, b5⟩ := units_run lower net u b params θ pushforward predictive rng custom key S hu hpf hpr hrng
    h.hp h.hwf h.hθ pf pf' est est' a3 a5 a4 a6 τ σ τ (σ / u ^ 2) hτ hσ hτ (by positivity) x
  have hprec : targetPrecision τ (σ / u ^ 2) 1 est' = targetPrecision τ σ 1 est := by
    have e := a8 (τ / u ^ 2) (σ / u ^ 2) 1
    have hu2 : u ^ 2 ≠ 0 := by positivity
    rw [mul_div_cancel₀ _ hu2] at e
    rw [e]
    rcases est with G | d | t
    · simp only [targetPrecision, precision, smul_add, smul_smul]
      congr 2 <;> field_simp
    · simp only [targetPrecision, precision, smul_add, smul_smul]
      congr 2 <;> field_simp
    · simp only [targetPrecision, smul_add, smul_smul]
      congr 2 <;> field_simp
  rw [hprec] at b5
  refine ⟨fns, r, r', b1, b2, b3, ?_, ?_, ?_, fun k => ?_⟩
  · rw [b4]; simp [apiExpected]
  · rw [b4]; simp [apiExpected]
  · rw [b4]; simp [apiExpected]
  · rw [b4, b5, apiExpected_units u b hu net.shape _ _ s s' k]

/-- **C73 (what a fixed `sigma_squared` does).** If only the prior precision is changed, by the square of the factor, the means are
converted but variances and standard deviations stay the same *numbers*, i.e. they shrink by the factor relative to the outputs. Calibration
varies the prior precision alone, so its result depends on the units of the targets. -/
theorem C73_fixed_noise (hu : 0 < u) (hin : samples'.map Prod.fst = samples.map Prod.fst)
    (h : LaplaceCall lower points net.fn params θ data samples "mse" H curvType ct)
    (h' : LaplaceCall lower points (inUnits net u b).fn params θ data' samples' "mse" H curvType ct) (hN : numTotal ≠ 0)
    (hk : kind ct = .full ∨ kind ct = .diagonal)
    (hpf : convertToEnum lower pushforwardValues false pushforward = .ok (.member "linear"))
    (hpr : convertToEnum lower predictiveValues false predictive = .ok (.member "none")) (hrng : RngOk rng) :
    ∃ posteriorFn est posteriorFn' est',
      laplace lower rows points net.fn params data (.name "mse") curvType kind numCurv numTotal = .ok (posteriorFn, est) ∧
      laplace lower rows points (inUnits net u b).fn params data' (.name "mse") curvType kind numCurv numTotal = .ok (posteriorFn', est') ∧
      ∀ τ σ : ℝ, 0 < τ → 0 ≤ σ → ∀ x,
        ∃ fns r r' var std, setupPushforward lower pushforward predictive none = .ok (.lin, fns) ∧
          setPushforward ⟨rng, net, params, posteriorFn, custom, key, S⟩ .lin fns ⟨some τ, some σ⟩ x = .ok r ∧
          setPushforward ⟨rng, inUnits net u b, params, posteriorFn', custom, key, S⟩ .lin fns ⟨some (u ^ 2 * τ), some σ⟩ x = .ok r' ∧
          r.get? "pred_var" = some var ∧ r'.get? "pred_var" = some var ∧ r.get? "pred_std" = some std ∧ r'.get? "pred_std" = some std ∧
          r'.get? "pred_mean" = (r.get? "pred_mean").map (converted u b "pred_mean") := by
  obtain ⟨pf, est, pf', est', a1, a2, a3, a4, a5, a6, a7, a8⟩ := C73_same_posterior lower rows points net u b params θ data data' samples
    samples' H curvType ct kind numCurv numTotal hu hin h h' hN hk
  refine ⟨pf, est, pf', est', a1, a2, fun τ σ hτ hσ x => ?_⟩
  obtain ⟨fns, r, r', b1, b2, b3, s, s', b4, b5⟩ := units_run lower net u b params θ pushforward predictive rng custom key S hu hpf hpr hrng
    h.hp h.hwf h.hθ pf pf' est est' a3 a5 a4 a6 τ σ (u ^ 2 * τ) σ hτ hσ (by positivity) hσ x
  have hu2 : u ^ 2 ≠ 0 := by positivity
  have hinv : u ^ 2 • (jacobian (net.fn x) θ * (targetPrecision (u ^ 2 * τ) σ 1 est')⁻¹ * (jacobian (net.fn x) θ)ᵀ) =
      jacobian (net.fn x) θ * (targetPrecision τ σ 1 est)⁻¹ * (jacobian (net.fn x) θ)ᵀ := by
    have hpd := (targetPrecision_posDef a3 hτ hσ).isUnit
    have e : (u ^ 2 • targetPrecision τ σ 1 est)⁻¹ = (u ^ 2)⁻¹ • (targetPrecision τ σ 1 est)⁻¹ := by
      apply Matrix.inv_eq_right_inv
      rw [Matrix.smul_mul, Matrix.mul_smul, smul_smul, mul_inv_cancel₀ hu2, one_smul,
        Matrix.mul_nonsing_inv _ ((Matrix.isUnit_iff_isUnit_det _).1 hpd)]
    rw [a8, e]
    simp only [Matrix.smul_mul, Matrix.mul_smul, smul_smul, mul_inv_cancel₀ hu2, one_smul]
  rw [hinv] at b5
  refine ⟨fns, r, r', _, _, b1, b2, b3, by rw [b4]; simp [apiExpected]; rfl, by rw [b5]; simp [apiExpected],
    by rw [b4]; simp [apiExpected]; rfl, by rw [b5]; simp [apiExpected], ?_⟩
  rw [b4, b5]
  simp only [apiExpected, or_true, if_true, Option.map_some, converted_arr]
  simp

end

theorem ensMean_units {S : ℕ} (hS : 0 < S) (u b : ℝ) (s : Fin S → Vec c) (j : Fin c) :
    ensMean (fun i k => u * s i k + b) j = u * ensMean s j + b := by
  have hS' : (S : ℝ) ≠ 0 := by positivity
  simp only [ensMean, Finset.sum_add_distrib, ← Finset.mul_sum, Finset.sum_const, Finset.card_univ, Fintype.card_fin, nsmul_eq_mul]
  field_simp

theorem ensCov_units {S : ℕ} (hS : 0 < S) (u b : ℝ) (s : Fin S → Vec c) (d : ℝ) :
    ensCov (fun i k => u * s i k + b) d = u ^ 2 • ensCov s d := by
  ext j k
  simp only [ensCov, Matrix.of_apply, Matrix.smul_apply, smul_eq_mul, ensMean_units hS]
  rw [mul_div_assoc', Finset.mul_sum]
  congr 1
  exact Finset.sum_congr rfl fun i _ => by ring

theorem nonlinExpected_units {S : ℕ} (hS : 0 < S) (u b : ℝ) (hu : 0 < u) (sh : List ℕ) (f : Vec c) (s : Fin S → Vec c) (fns : List NonlinFn)
    (key : String) (h : key ≠ "mc_pred_act") :
    nonlinExpected sh (fun k => u * f k + b) (fun i k => u * s i k + b) fns key = (nonlinExpected sh f s fns key).map (converted u b key) := by
  unfold nonlinExpected
  have ht : ensTake 5 (fun i k => u * s i k + b) = fun i k => u * ensTake 5 s i k + b := rfl
  split_ifs with h1 h2 h2' h3 h3' h4 h5 h6 h6'
  · subst h1; simp [converted_arr]
  · subst h2
    simp only [Option.map_some, converted_arr]
    rw [show ensMean (fun i k => u * s i k + b) = fun j => u * ensMean s j + b from funext (ensMean_units hS u b s)]
    simp
  · rfl
  · subst h3
    rw [ensCov_units hS, Option.map_some, covArrOf, covArrOf]
    split_ifs with hc
    · have := converted_arr u b "pred_cov" [] (fun i => ensCov s 1 i i)
      simp only [arrOf] at this
      rw [this]
      simp
    · rw [denseArr, denseArr, converted_rows]
      simp
  · rfl
  · subst h4
    cases (ddofs fns).var with
    | none => rfl
    | some d => simp [converted_arr, ensCov_units hS]
  · subst h5
    cases (ddofs fns).std with
    | none => rfl
    | some d => simp [converted_arr, ensCov_units hS, Real.sqrt_mul (sq_nonneg u), Real.sqrt_sq hu.le]
  · subst h6; simp [ht, ensArr, converted_rows]
  · rfl
  · rfl

/-- **C73 (sampled predictive).** For equal posteriors, every list of functions of the sampled predictive and every input: all entries
except the class probabilities are the converted ones. -/
theorem C73_sampled_predictive (rng : Prng K) (hrng : RngOk rng) (net : Net X p) (u b : ℝ) (hu : 0 < u)
    (mean : PyTree ℝ) (hwf : WFTree mean) (θ : Vec p) (hθ : entries mean = List.ofFn θ)
    (posteriorFn posteriorFn' : PriorArgs → ℝ → Except Err (Posterior p)) (prior prior' : PriorArgs) (lsf : ℝ) (post : Posterior p)
    (hpost : posteriorFn prior lsf = .ok post) (hpost' : posteriorFn' prior' lsf = .ok post)
    (scale : List (PyTree ℝ) → Except Err (PyTree ℝ)) (hscale : post.scaleMv post.state = .ok scale)
    (R : Matrix (Fin p) (Fin p) ℝ) (hR : ActsOnTrees mean scale (fun v => R *ᵥ v)) (key : Option K) (S : ℕ) (hS : 0 < S)
    (kw : PfKwargs K) (hkw : kw.precompute = none) (hb1 : kw.precomputeListBatchSize ≠ some 0)
    (hb2 : kw.nonlinSetupBatchSize ≠ some 0) (hb3 : kw.weightBatchSize ≠ some 0) (x : X) (fns : List NonlinFn)
    (hus : ∀ fn ∈ fns, NonlinUsable net.shape fn) (hc : .predCov ∈ fns → 2 ≤ S) :
    ∃ r r' : Dict (Arr ℝ),
      nonlinPushforward rng net mean posteriorFn prior key lsf ((NonlinFn.setup :: fns).map NonlinFn.step) S kw x = .ok r ∧
      nonlinPushforward rng (inUnits net u b) mean posteriorFn' prior' key lsf ((NonlinFn.setup :: fns).map NonlinFn.step) S kw x = .ok r' ∧
      ∀ k, k ≠ "mc_pred_act" → r'.get? k = (r.get? k).map (converted u b k) := by
  obtain ⟨eps, d1, h⟩ := C36_sampled_predictive rng hrng net mean hwf θ hθ posteriorFn prior lsf post hpost scale hscale R hR key S hS kw
    hkw hb1 hb2 hb3
  obtain ⟨eps', d1', h'⟩ := C36_sampled_predictive rng hrng (inUnits net u b) mean hwf θ hθ posteriorFn' prior' lsf post hpost' scale hscale R
    hR key S hS kw hkw hb1 hb2 hb3
  obtain rfl : eps' = eps := draws_unique d1' d1
  obtain ⟨r, h1, h2⟩ := h x fns hus hc
  obtain ⟨r', h1', h2'⟩ := h' x fns hus hc
  refine ⟨r, r', h1, h1', fun k hk => ?_⟩
  rw [h2, h2']
  exact nonlinExpected_units hS u b hu net.shape (net.fn x θ) (fun i => net.fn x (θ + R *ᵥ eps' i)) fns k hk

/-! ## The hypotheses are met -/

theorem test_train_units (u b : ℝ) : LaplaceCall (fun s => if s = "Linear" then "linear" else s) testTrainPoints (inUnits testNet u b).fn
    testMean ![3, 5]
    (.iter (.reiterable [.tup [.arr [1, 2], .arr [4, 5, 6, 7]], .tup [.arr [3], .arr [8, 9]]])) [(1, ()), (2, ()), (3, ())] "mse"
    (fun jv _ _ => mseHessianMv jv) (.str "full") (.member "full") := by
  have h := test_train
  refine ⟨h.hp, h.hwf, h.hθ, h.hdata, fun s _ => ?_, rfl, rfl⟩
  have h1 := testNet_differentiable s.1 ![3, 5]
  rw [differentiableAt_pi] at h1 ⊢
  exact fun k => ((h1 k).const_mul u).add_const b

/-- Celsius to Fahrenheit. -/
example (x : ℝ) : ∃ posteriorFn est posteriorFn' est' fns r r',
    laplace (fun s => if s = "Linear" then "linear" else s) (fun _ => .error .valueError) testTrainPoints testNet.fn testMean
      (.iter (.reiterable [.tup [.arr [1, 2], .arr [4, 5, 6, 7]], .tup [.arr [3], .arr [8, 9]]])) (.name "mse") (.str "full")
      (fun _ => .full) 3 3 = .ok (posteriorFn, est) ∧
    laplace (fun s => if s = "Linear" then "linear" else s) (fun _ => .error .valueError) testTrainPoints (inUnits testNet (9 / 5) 32).fn testMean
      (.iter (.reiterable [.tup [.arr [1, 2], .arr [4, 5, 6, 7]], .tup [.arr [3], .arr [8, 9]]])) (.name "mse") (.str "full")
      (fun _ => .full) 3 3 = .ok (posteriorFn', est') ∧
    setupPushforward (fun s => if s = "Linear" then "linear" else s) (.str "Linear") (.str "none") none = .ok (.lin, fns) ∧
    setPushforward (X := ℝ) (K := Unit) (p := 2) ⟨testRng, testNet, testMean, posteriorFn, fun _ _ _ _ => .error .typeError, (), 3⟩ .lin fns
      ⟨some 2, some 1⟩ x = .ok r ∧
    setPushforward (X := ℝ) (K := Unit) (p := 2) ⟨testRng, inUnits testNet (9 / 5) 32, testMean, posteriorFn', fun _ _ _ _ => .error .typeError, (), 3⟩
      .lin fns ⟨some 2, some (1 / (9 / 5) ^ 2)⟩ x = .ok r' ∧
    ∀ k, r'.get? k = (r.get? k).map (converted (9 / 5) 32 k) := by
  obtain ⟨pf, est, pf', est', h1, h2, h3⟩ := C73_workflow (X := ℝ) (p := 2) (K := Unit) (fun s => if s = "Linear" then "linear" else s)
    (fun _ => .error .valueError)
    testTrainPoints testNet (9 / 5) 32 testMean ![3, 5] _ _ _ _ _ _ _ (fun _ => .full) 3 3 (.str "Linear") (.str "none") testRng
    (fun _ _ _ _ => .error .typeError) () 3 (by norm_num) rfl test_train (test_train_units (9 / 5) 32) (by norm_num) (Or.inl rfl) rfl rfl testRng_ok
  obtain ⟨fns, r, r', g1, g2, g3, -, -, -, g4⟩ := h3 2 1 two_pos zero_le_one x
  exact ⟨pf, est, pf', est', fns, r, r', h1, h2, g1, g2, g3, g4⟩

end Laplax.Props
