import Verif.Spec.Relabel
import Verif.Props.Invariance
import Verif.Props.Accuracy

/-! # C67: relabelling the classes permutes the predictions -/

namespace Laplax.Props
open Laplax Spec
open scoped BigOperators Matrix

variable {p c : ℕ} {A X Y K : Type}

theorem jacobian_relabelled (f : Vec p → Vec c) (π : Equiv.Perm (Fin c)) (θ : Vec p) :
    jacobian (fun v => f v ∘ π) θ = (jacobian f θ).submatrix π id := by
  let e : Vec c ≃L[ℝ] Vec c := ContinuousLinearEquiv.piCongrLeft ℝ (fun _ => ℝ) π.symm
  have he : ∀ v, e v = v ∘ π := by
    intro v; funext k
    show (Equiv.piCongrLeft (fun _ => ℝ) π.symm) v k = _
    rw [Equiv.piCongrLeft_apply, eq_rec_constant]
    rfl
  have hf : (fun v => f v ∘ π) = e ∘ f := by funext v; rw [Function.comp, he]
  ext i j
  simp only [jacobian, Matrix.of_apply, Matrix.submatrix_apply, id]
  rw [hf, e.comp_fderiv]
  show e (fderiv ℝ f θ (Pi.single j 1)) i = _
  rw [he]; rfl

theorem softmax_relabelled (z : Vec c) (π : Equiv.Perm (Fin c)) : softmax (z ∘ π) = softmax z ∘ π := by
  funext k
  simp only [softmax, Function.comp]
  rw [Equiv.sum_comp π fun j => Real.exp (z j)]

theorem softmaxOf_relabelled (z : Vec c) (π : Equiv.Perm (Fin c)) : softmaxOf (z ∘ π) = softmaxOf z ∘ π := softmax_relabelled z π

/-- The Hessian products of the named losses do not depend on the order of the classes. -/
theorem named_relabelled {loss : String} {H : Vec c → Vec c → Y → Vec c} (h : createLossHessianMv (.name loss) = .ok H)
    (π : Equiv.Perm (Fin c)) (v z : Vec c) (t : Y) : H (v ∘ π) (z ∘ π) t = H v z t ∘ π := by
  simp only [createLossHessianMv] at h
  split at h
  · cases h; rfl
  split at h
  · cases h
    funext k
    simp only [ceHessianMv, softmax_relabelled, Function.comp]
    rw [Equiv.sum_comp π fun j => softmax z j * v j]
  split at h
  · cases h; rfl
  split at h
  · cases h; rfl
  · cases h

theorem ggn_relabelled {loss : String} {H : Vec c → Vec c → Y → Vec c} (h : createLossHessianMv (.name loss) = .ok H)
    (f : X → Vec p → Vec c) (π : Equiv.Perm (Fin c)) (θ : Vec p) (ss : List (X × Y))
    (v : Vec p) : ggnSamples (fun x w => f x w ∘ π) θ H ss v = ggnSamples f θ H ss v := by
  simp only [ggnSamples]
  congr 1
  refine List.map_congr_left fun s _ => ?_
  rw [jacobian_relabelled (f s.1) π θ]
  have h1 : (jacobian (f s.1) θ).submatrix π id *ᵥ v = (jacobian (f s.1) θ *ᵥ v) ∘ π := rfl
  rw [h1, named_relabelled h]
  funext j
  simp only [Matrix.mulVec, dotProduct, Matrix.transpose_apply, Matrix.submatrix_apply, id, Function.comp]
  exact Equiv.sum_comp π fun k => jacobian (f s.1) θ k j * H (jacobian (f s.1) θ *ᵥ v) (f s.1 θ) s.2 k

/-- **C67 (posterior).** With a named loss, `laplace` gives for the relabelled model the same curvature estimate and the same posterior
function, whatever the curvature type; the targets may be relabelled (or changed otherwise) along with the model. -/
theorem C67_same_posterior (lower : String → String) (rows : A → Except Err (List A))
    (points : PyObj A → PyObj A → Except Err (List (X × Y))) (net : Net X p) (π : Equiv.Perm (Fin (shapeSize net.shape)))
    (params : PyTree ℝ) (θ : Vec p) (data data' : PyObj A) (samples samples' : List (X × Y))
    (hperm : (samples.map Prod.fst).Perm (samples'.map Prod.fst)) (loss : String)
    (H : Vec (shapeSize net.shape) → Vec (shapeSize net.shape) → Y → Vec (shapeSize net.shape)) (curvType ct : EnumArg)
    (h : LaplaceCall lower points net.fn params θ data samples loss H curvType ct)
    (h' : LaplaceCall lower points (relabelled net π).fn params θ data' samples' loss H curvType ct)
    (kind : EnumArg → LaplaceKind p) (numCurv numTotal : ℕ) (hN : numTotal ≠ 0) :
    laplace lower rows points (relabelled net π).fn params data' (.name loss) curvType kind numCurv numTotal =
      laplace lower rows points net.fn params data (.name loss) curvType kind numCurv numTotal := by
  obtain ⟨G, -, h2, h3⟩ := C47_laplace_curvature lower rows points net.fn params θ data samples loss H curvType ct h kind numCurv numTotal hN
  obtain ⟨G', -, h2', h3'⟩ := C47_laplace_curvature lower rows points (relabelled net π).fn params θ data' samples' loss H curvType ct h' kind
    numCurv numTotal hN
  obtain ⟨H0, hH0⟩ := named_ignores_target h.hH
  have hs : ∀ ss v, ggnSamples net.fn θ H ss v =
      ((ss.map Prod.fst).map fun x => (jacobian (net.fn x) θ)ᵀ *ᵥ H0 (jacobian (net.fn x) θ *ᵥ v) (net.fn x θ)).sum := by
    intro ss v
    rw [ggnSamples, List.map_map, hH0]; rfl
  have : G' = G := by
    apply Matrix.toLin'.injective
    apply LinearMap.ext; intro v
    rw [Matrix.toLin'_apply, Matrix.toLin'_apply, h2]
    have e := ggn_relabelled h.hH net.fn π θ samples' v
    refine ((h2' v).trans (congrArg (((numCurv : ℝ) / numTotal) • ·) e)).trans ?_
    show ((numCurv : ℝ) / numTotal) • ggnSamples net.fn θ H samples' v = _
    rw [hs, hs, (hperm.map _).sum_eq]
  rw [h3', h3, this]

/-! ### The predictives -/

theorem specialOf_relabelled (kind : String) (f : Vec c) (V : Matrix (Fin c) (Fin c) ℝ) (π : Equiv.Perm (Fin c)) :
    specialOf kind (f ∘ π) (V.submatrix π π) = specialOf kind f V ∘ π := by
  simp only [specialOf]
  split_ifs
  · exact softmaxOf_relabelled (fun k => f k / Real.sqrt (1 + Real.pi / 8 * V k k)) π
  · funext i
    simp only [Function.comp, Matrix.submatrix_apply]
    rw [Equiv.sum_comp π fun j => Real.exp ((f j - f (π i)) / Real.sqrt (1 + Real.pi / 8 * (V (π i) (π i) + V j j)))]
  · funext i
    simp only [Function.comp, Matrix.submatrix_apply]
    rw [Equiv.sum_comp π fun j => Real.exp ((f j - f (π i)) / Real.sqrt (1 + Real.pi / 8 * (V (π i) (π i) + V j j - 2 * V (π i) j)))]

/-- **C67 (mean-field predictives and Laplace bridge).** Permuting the classes of the Gaussian permutes the class probabilities. -/
theorem C67_class_probabilities (mean var : Vec c) (cov : Matrix (Fin c) (Fin c) ℝ) (π : Equiv.Perm (Fin c)) :
    meanField0 (mean ∘ π) (var ∘ π) = meanField0 mean var ∘ π ∧
    meanField1 (mean ∘ π) (var ∘ π) = meanField1 mean var ∘ π ∧
    meanField2 (mean ∘ π) (Matrix.of fun i j => cov (π i) (π j)) = meanField2 mean cov ∘ π ∧
    ∀ (m : ℕ) (M V : Fin c → Fin m → ℝ) (useCorrection : Bool),
      laplaceBridgeMat (fun k => M (π k)) (fun k => V (π k)) useCorrection = fun k => laplaceBridgeMat M V useCorrection (π k) := by
  refine ⟨?_, ?_, ?_, ?_⟩
  · exact softmax_relabelled (fun k => mean k / Real.sqrt (1 + lambda0 * var k)) π
  · funext i
    simp only [meanField1, Function.comp]
    rw [Equiv.sum_comp π fun j => Real.exp ((mean j - mean (π i)) / Real.sqrt (1 + lambda0 * (var (π i) + var j)))]
  · funext i
    simp only [meanField2, Function.comp, Matrix.of_apply]
    rw [Equiv.sum_comp π fun j => Real.exp ((mean j - mean (π i)) / Real.sqrt (1 + lambda0 * (cov (π i) (π i) + cov j j - 2 * cov (π i) j)))]
  · intro m M V b
    have e1 : ∀ s, ∑ k, V (π k) s = ∑ k, V k s := fun s => Equiv.sum_comp π fun k => V k s
    have e2 : ∀ (g : Fin c → ℝ), ∑ k, g (π k) = ∑ k, g k := fun g => Equiv.sum_comp π g
    funext k s
    cases b
    · simp only [laplaceBridgeMat, laplaceBridgeBlocks, dirichletPredictive, Bool.false_eq_true, if_false]
      congr 1
      · congr 3; congr 1; exact e2 fun k => Real.exp (-M k s)
      · rw [← e2 fun k => ∑ s', (1 - 2 / (m : ℝ) + Real.exp (M k s') * (∑ k, Real.exp (-M k s')) / (m : ℝ) ^ 2) / V k s']
        refine Finset.sum_congr rfl fun k' _ => Finset.sum_congr rfl fun s' _ => ?_
        congr 3; congr 1; exact e2 fun k => Real.exp (-M k s')
    · simp only [laplaceBridgeMat, laplaceBridgeBlocks, dirichletPredictive, if_true, e1]
      congr 1
      · congr 3; congr 1; exact e2 fun k => Real.exp (-(M k s / Real.sqrt ((∑ k, V k s) / Real.sqrt ((m : ℝ) / 2))))
      · rw [← e2 fun k => ∑ s', (1 - 2 / (m : ℝ) + Real.exp (M k s' / Real.sqrt ((∑ k, V k s') / Real.sqrt ((m : ℝ) / 2))) *
          (∑ k, Real.exp (-(M k s' / Real.sqrt ((∑ k, V k s') / Real.sqrt ((m : ℝ) / 2))))) / (m : ℝ) ^ 2) /
          (V k s' / ((∑ k, V k s') / Real.sqrt ((m : ℝ) / 2)))]
        refine Finset.sum_congr rfl fun k' _ => Finset.sum_congr rfl fun s' _ => ?_
        congr 3; congr 1; exact e2 fun k => Real.exp (-(M k s' / Real.sqrt ((∑ k, V k s') / Real.sqrt ((m : ℝ) / 2))))

theorem ensMean_relabelled {S : ℕ} (s : Fin S → Fin c → ℝ) (π : Equiv.Perm (Fin c)) : ensMean (fun i => s i ∘ π) = ensMean s ∘ π := rfl

theorem ensCov_relabelled {S : ℕ} (s : Fin S → Fin c → ℝ) (d : ℝ) (π : Equiv.Perm (Fin c)) :
    ensCov (fun i => s i ∘ π) d = (ensCov s d).submatrix π π := rfl

theorem ensSoftmax_relabelled {S : ℕ} (s : Fin S → Fin c → ℝ) (π : Equiv.Perm (Fin c)) : ensSoftmax (fun i => s i ∘ π) = ensSoftmax s ∘ π := by
  funext k
  simp only [ensSoftmax, softmaxOf_relabelled, Function.comp]

theorem entry_none {sh : List ℕ} {π : Equiv.Perm (Fin c)} {key : String} : RelabelledEntry sh π key none none := Or.inl ⟨rfl, rfl⟩

theorem entry_arr {sh : List ℕ} {π : Equiv.Perm (Fin c)} {key : String} (y : Vec c) (h1 : key ≠ "pred_cov") (h2 : key ≠ "samples") :
    RelabelledEntry sh π key (some (arrOf sh y)) (some (arrOf sh (y ∘ π))) := Or.inr (Or.inr (Or.inr ⟨h1, h2, y, rfl, rfl⟩))

theorem entry_samples {sh : List ℕ} {π : Equiv.Perm (Fin c)} {S : ℕ} (s : Fin S → Vec c) :
    RelabelledEntry sh π "samples" (some (ensArr sh s)) (some (ensArr sh fun i => s i ∘ π)) :=
  Or.inr (Or.inr (Or.inl ⟨rfl, S, s, rfl, rfl⟩))

theorem entry_cov {sh : List ℕ} {π : Equiv.Perm (Fin c)} (V : Matrix (Fin c) (Fin c) ℝ) :
    RelabelledEntry sh π "pred_cov" (some (denseArr V)) (some (denseArr (V.submatrix π π))) :=
  Or.inr (Or.inl ⟨rfl, [c, c], V, rfl, rfl⟩)

theorem entry_diag {sh shape : List ℕ} {π : Equiv.Perm (Fin c)} (V : Matrix (Fin c) (Fin c) ℝ) (h : c = 1) :
    RelabelledEntry sh π "pred_cov" (some ⟨shape, List.ofFn fun j => V j j⟩) (some ⟨shape, List.ofFn fun j => V.submatrix π π j j⟩) := by
  subst h
  exact Or.inr (Or.inl ⟨rfl, shape, V, by simp [List.ofFn_succ], by simp [List.ofFn_succ]⟩)

theorem linExpected_relabelled {S : ℕ} (sh : List ℕ) (hsh : sh = [] → c = 1) (f : Vec c) (V : Matrix (Fin c) (Fin c) ℝ) (s : Fin S → Vec c)
    (sp : Vec c) (π : Equiv.Perm (Fin c)) (key : String) :
    RelabelledEntry sh π key (linExpected sh f V s sp key) (linExpected sh (f ∘ π) (V.submatrix π π) (fun i => s i ∘ π) (sp ∘ π) key) := by
  unfold linExpected
  split_ifs with h1 h2 h3 h4 h5 h6 h7 h8 h9 h10
  · exact entry_arr f (by rw [h1]; decide) (by rw [h1]; decide)
  · exact entry_arr f (by rw [h2]; decide) (by rw [h2]; decide)
  · rw [h3]; exact entry_diag V (hsh h4)
  · rw [h3]; exact entry_cov V
  · exact entry_none
  · exact entry_arr (fun i => V i i) (by rw [h6]; decide) (by rw [h6]; decide)
  · exact entry_arr (fun i => Real.sqrt (V i i)) (by rw [h7]; decide) (by rw [h7]; decide)
  · rw [h8]; exact entry_samples s
  · rw [ensSoftmax_relabelled]; exact entry_arr _ (by rw [h9]; decide) (by rw [h9]; decide)
  · exact entry_arr sp (by rw [h10]; decide) (by rw [h10]; decide)
  · exact entry_none

theorem cov_relabelled (f : Vec p → Vec c) (π : Equiv.Perm (Fin c)) (θ : Vec p) (C : Matrix (Fin p) (Fin p) ℝ) :
    jacobian (fun v => f v ∘ π) θ * C * (jacobian (fun v => f v ∘ π) θ)ᵀ =
      (jacobian f θ * C * (jacobian f θ)ᵀ).submatrix π π := by
  rw [jacobian_relabelled]; rfl

/-- **C67 (linearised predictive).** For every posterior, list of linearised pushforward functions, keyword arguments and input, the
prediction of the relabelled model holds under every requested key the relabelled value of the prediction of the original model: means,
variances, standard deviations and class probabilities are permuted, the covariance in rows and columns, and every sample. -/
theorem C67_linearized_predictive (rng : Prng K) (hrng : RngOk rng) (net : Net X p) (π : Equiv.Perm (Fin (shapeSize net.shape)))
    (mean : PyTree ℝ) (hp : 0 < p) (hwf : WFTree mean) (θ : Vec p) (hθ : entries mean = List.ofFn θ)
    (posteriorFn : PriorArgs → ℝ → Except Err (Posterior p)) (prior : PriorArgs) (lsf : ℝ) (post : Posterior p)
    (hpost : posteriorFn prior lsf = .ok post) (cov scale : List (PyTree ℝ) → Except Err (PyTree ℝ))
    (hcov : post.covMv post.state = .ok cov) (hscale : post.scaleMv post.state = .ok scale)
    (C R : Matrix (Fin p) (Fin p) ℝ) (hC : ActsOnTrees mean cov (fun v => C *ᵥ v)) (hR : ActsOnTrees mean scale (fun v => R *ᵥ v))
    (kw : PfKwargs K) (hkw : kw.precompute = none) (hb1 : kw.precomputeListBatchSize ≠ some 0)
    (hb2 : kw.linSamplesBatchSize ≠ some 0) (hb3 : kw.weightBatchSize ≠ some 0)
    (fns : List LinFn)
    (hu : ∀ fn ∈ fns, LinUsable net.shape (kw.numSamples.getD 0) (kw.specialPredType.getD "mean_field_0") fn) (x : X) :
    ∃ r r' : Dict (Arr ℝ),
      linPushforward rng net mean posteriorFn prior lsf ((LinFn.setup :: fns).map LinFn.step) kw x = .ok r ∧
      linPushforward rng (relabelled net π) mean posteriorFn prior lsf ((LinFn.setup :: fns).map LinFn.step) kw x = .ok r' ∧
      ∀ fn ∈ fns, (r.get? (linKey fn)).isSome ∧ RelabelledEntry net.shape π (linKey fn) (r.get? (linKey fn)) (r'.get? (linKey fn)) := by
  obtain ⟨r, eps, d1, h1, h2, h3⟩ := C35_linearized_predictive rng hrng net mean hp hwf θ hθ posteriorFn prior lsf post hpost cov scale
    hcov hscale C R hC hR kw hkw hb1 hb2 hb3 fns hu x
  obtain ⟨r', eps', d1', h1', h2', h3'⟩ := C35_linearized_predictive rng hrng (relabelled net π) mean hp hwf θ hθ posteriorFn prior lsf post
    hpost cov scale hcov hscale C R hC hR kw hkw hb1 hb2 hb3 fns hu x
  obtain rfl : eps' = eps := draws_unique d1' d1
  refine ⟨r, r', h1, h1', fun fn hfn => ⟨h3 fn hfn, ?_⟩⟩
  obtain ⟨v, hv⟩ := Option.isSome_iff_exists.1 (h3 fn hfn)
  obtain ⟨v', hv'⟩ := Option.isSome_iff_exists.1 (h3' fn hfn)
  rw [hv, hv', ← h2 _ v hv, ← h2' _ v' hv']
  have e1 : jacobian ((relabelled net π).fn x) θ * C * (jacobian ((relabelled net π).fn x) θ)ᵀ =
      (jacobian (net.fn x) θ * C * (jacobian (net.fn x) θ)ᵀ).submatrix π π := cov_relabelled (net.fn x) π θ C
  have e2 : (fun i => (relabelled net π).fn x θ + jacobian ((relabelled net π).fn x) θ *ᵥ (R *ᵥ eps' i)) =
      fun i => (net.fn x θ + jacobian (net.fn x) θ *ᵥ (R *ᵥ eps' i)) ∘ π := by
    funext i
    rw [show jacobian ((relabelled net π).fn x) θ = (jacobian (net.fn x) θ).submatrix π id from jacobian_relabelled (net.fn x) π θ]
    rfl
  rw [e1, e2]
  have e3 := specialOf_relabelled (kw.specialPredType.getD "mean_field_0") (net.fn x θ) (jacobian (net.fn x) θ * C * (jacobian (net.fn x) θ)ᵀ) π
  have := linExpected_relabelled net.shape (by intro h; rw [h]; rfl) (net.fn x θ) (jacobian (net.fn x) θ * C * (jacobian (net.fn x) θ)ᵀ)
    (fun i => net.fn x θ + jacobian (net.fn x) θ *ᵥ (R *ᵥ eps' i))
    (specialOf (kw.specialPredType.getD "mean_field_0") (net.fn x θ) (jacobian (net.fn x) θ * C * (jacobian (net.fn x) θ)ᵀ)) π (linKey fn)
  rw [← e3] at this
  exact this

theorem covArrOf_relabelled {sh : List ℕ} {π : Equiv.Perm (Fin c)} (V : Matrix (Fin c) (Fin c) ℝ) :
    RelabelledEntry sh π "pred_cov" (some (covArrOf V)) (some (covArrOf (V.submatrix π π))) := by
  unfold covArrOf
  split_ifs with h
  · exact entry_diag V h
  · exact entry_cov V

theorem nonlinExpected_relabelled {S : ℕ} (sh : List ℕ) (f : Vec c) (s : Fin S → Vec c) (fns : List NonlinFn) (π : Equiv.Perm (Fin c))
    (key : String) : RelabelledEntry sh π key (nonlinExpected sh f s fns key) (nonlinExpected sh (f ∘ π) (fun i => s i ∘ π) fns key) := by
  have ht : ensTake 5 (fun i => s i ∘ π) = fun i => ensTake 5 s i ∘ π := rfl
  unfold nonlinExpected
  split_ifs with h1 h2 h2' h3 h3' h4 h5 h6 h6' h7 h7'
  · exact entry_arr f (by rw [h1]; decide) (by rw [h1]; decide)
  · exact entry_arr (ensMean s) (by rw [h2]; decide) (by rw [h2]; decide)
  · exact entry_none
  · rw [h3, ensCov_relabelled]; exact covArrOf_relabelled _
  · exact entry_none
  · cases (ddofs fns).var with
    | none => exact entry_none
    | some d => exact entry_arr (fun j => ensCov s d j j) (by rw [h4]; decide) (by rw [h4]; decide)
  · cases (ddofs fns).std with
    | none => exact entry_none
    | some d => exact entry_arr (fun j => Real.sqrt (ensCov s d j j)) (by rw [h5]; decide) (by rw [h5]; decide)
  · rw [h6, ht]; exact entry_samples _
  · exact entry_none
  · rw [ht, ensSoftmax_relabelled]; exact entry_arr _ (by rw [h7]; decide) (by rw [h7]; decide)
  · exact entry_none
  · exact entry_none

/-- **C67 (sampled predictive).** The same for the sampled (nonlinear) predictive with every list of its functions: the result for the
relabelled model holds under every key the relabelled value. -/
theorem C67_sampled_predictive (rng : Prng K) (hrng : RngOk rng) (net : Net X p) (π : Equiv.Perm (Fin (shapeSize net.shape)))
    (mean : PyTree ℝ) (hwf : WFTree mean) (θ : Vec p) (hθ : entries mean = List.ofFn θ)
    (posteriorFn : PriorArgs → ℝ → Except Err (Posterior p)) (prior : PriorArgs) (lsf : ℝ) (post : Posterior p)
    (hpost : posteriorFn prior lsf = .ok post) (scale : List (PyTree ℝ) → Except Err (PyTree ℝ))
    (hscale : post.scaleMv post.state = .ok scale)
    (R : Matrix (Fin p) (Fin p) ℝ) (hR : ActsOnTrees mean scale (fun v => R *ᵥ v)) (key : Option K) (S : ℕ) (hS : 0 < S)
    (kw : PfKwargs K) (hkw : kw.precompute = none) (hb1 : kw.precomputeListBatchSize ≠ some 0)
    (hb2 : kw.nonlinSetupBatchSize ≠ some 0) (hb3 : kw.weightBatchSize ≠ some 0) (x : X) (fns : List NonlinFn)
    (hu : ∀ fn ∈ fns, NonlinUsable net.shape fn) (hc : .predCov ∈ fns → 2 ≤ S) :
    ∃ r r' : Dict (Arr ℝ),
      nonlinPushforward rng net mean posteriorFn prior key lsf ((NonlinFn.setup :: fns).map NonlinFn.step) S kw x = .ok r ∧
      nonlinPushforward rng (relabelled net π) mean posteriorFn prior key lsf ((NonlinFn.setup :: fns).map NonlinFn.step) S kw x = .ok r' ∧
      ∀ k, RelabelledEntry net.shape π k (r.get? k) (r'.get? k) := by
  obtain ⟨eps, d1, h⟩ := C36_sampled_predictive rng hrng net mean hwf θ hθ posteriorFn prior lsf post hpost scale hscale R hR key S hS kw
    hkw hb1 hb2 hb3
  obtain ⟨eps', d1', h'⟩ := C36_sampled_predictive rng hrng (relabelled net π) mean hwf θ hθ posteriorFn prior lsf post hpost scale hscale R
    hR key S hS kw hkw hb1 hb2 hb3
  obtain rfl : eps' = eps := draws_unique d1' d1
  obtain ⟨r, h1, h2⟩ := h x fns hu hc
  obtain ⟨r', h1', h2'⟩ := h' x fns hu hc
  refine ⟨r, r', h1, h1', fun k => ?_⟩
  rw [h2, h2']
  exact nonlinExpected_relabelled net.shape (net.fn x θ) (fun i => net.fn x (θ + R *ᵥ eps' i)) fns π k

theorem apiExpected_relabelled {S : ℕ} (sh : List ℕ) (f : Vec c) (V : Matrix (Fin c) (Fin c) ℝ) (s : Fin S → Vec c)
    (pr : String) (π : Equiv.Perm (Fin c)) (key : String) :
    RelabelledEntry sh π key (apiExpected sh f V s pr key) (apiExpected sh (f ∘ π) (V.submatrix π π) (fun i => s i ∘ π) pr key) := by
  unfold apiExpected
  split_ifs with h1 h2 h3 h4 h5 h6 h7 h8 h9
  · exact entry_arr f (by rcases h1 with rfl | rfl <;> decide) (by rcases h1 with rfl | rfl <;> decide)
  · exact entry_arr (fun i => V i i) (by rw [h2]; decide) (by rw [h2]; decide)
  · exact entry_arr (fun i => Real.sqrt (V i i)) (by rw [h3]; decide) (by rw [h3]; decide)
  · exact entry_none
  · rw [h6]; exact entry_samples s
  · rw [ensSoftmax_relabelled]
    exact entry_arr _ (by rcases h7 with rfl | rfl <;> decide) (by rcases h7 with rfl | rfl <;> decide)
  · exact entry_none
  · rw [h8.1]; exact entry_cov V
  · rw [specialOf_relabelled]
    exact entry_arr _ (by rcases h9 with rfl | rfl <;> decide) (by rcases h9 with rfl | rfl <;> decide)
  · exact entry_none

/-- **C67 (predictive selected by name).** The linearised predictive that `calibration` and `evaluation` select by name, for every
predictive type that can be used: fitted estimate, prior arguments and input being equal, the predictions for the relabelled model are the
relabelled predictions, key by key. -/
theorem C67_named_predictive (lower : String → String) (pushforward predictive : EnumArg) (pr : String) (rng : Prng K) (net : Net X p)
    (params : PyTree ℝ) (posteriorFn : PriorArgs → ℝ → Except Err (Posterior p)) (custom : ℕ → PfStep X K p) (key : K) (S : ℕ)
    (π : Equiv.Perm (Fin (shapeSize net.shape))) (θ : Vec p) (est : CurvEstimate p)
    (h : ApiLinear lower pushforward predictive pr ⟨rng, net, params, posteriorFn, custom, key, S⟩ θ est)
    (prior : PriorArgs) (τ : ℝ) (hτ : prior.priorPrec = some τ) (hτ0 : 0 < τ) (hσ : 0 ≤ prior.sigmaSquared.getD 1) (x : X) :
    ∃ fns r r', setupPushforward lower pushforward predictive none = .ok (.lin, fns) ∧
      setPushforward ⟨rng, net, params, posteriorFn, custom, key, S⟩ .lin fns prior x = .ok r ∧
      setPushforward ⟨rng, relabelled net π, params, posteriorFn, custom, key, S⟩ .lin fns prior x = .ok r' ∧
      ∀ k, RelabelledEntry net.shape π k (r.get? k) (r'.get? k) := by
  have hsz : numEntries params = p := by
    have := length_entries h.wf
    rw [h.params, List.length_ofFn] at this
    exact this.symm
  have hmem : pr ∈ ["mc_bridge", "laplace_bridge", "mean_field_0", "mean_field_1", "mean_field_2", "none"] := by
    rcases h.usable with rfl | ⟨rfl, -⟩ | ⟨h, -⟩
    · simp
    · simp
    · simp at h; rcases h with rfl | rfl | rfl <;> simp
  obtain ⟨eps, heps⟩ := draws_exist rng h.rng (some key) params hsz S
  obtain ⟨post, cov, scale, k1, k2, k3, R, k4, k5, k6⟩ := posterior_of_estimate params hsz h.nonempty est h.psd prior τ hτ hτ0 hσ 1 one_pos
  have hp : posteriorFn prior 1 = .ok post := by
    have := h.posterior
    simp only at this
    rw [this]; exact k1
  obtain ⟨r, g1, g2⟩ := api_linear_run ⟨rng, net, params, posteriorFn, custom, key, S⟩ h.rng h.nonempty h.wf θ h.params prior post
    hp cov scale k2 k3 _ R k5 k6 pr h.usable eps heps x
  obtain ⟨r', g1', g2'⟩ := api_linear_run ⟨rng, relabelled net π, params, posteriorFn, custom, key, S⟩ h.rng h.nonempty h.wf θ h.params prior
    post hp cov scale k2 k3 _ R k5 k6 pr h.usable eps heps x
  refine ⟨apiNames pr, r, r', ?_, g1, g1', fun k => ?_⟩
  · rw [setupPushforward_members lower _ _ _ _ none h.pushforward h.predictive, C44_linear lower pr hmem]; rfl
  rw [g2, g2']
  dsimp only
  have e2 : (fun i => (relabelled net π).fn x θ + jacobian ((relabelled net π).fn x) θ *ᵥ (R *ᵥ eps i)) =
      fun i => (net.fn x θ + jacobian (net.fn x) θ *ᵥ (R *ᵥ eps i)) ∘ π := by
    funext i
    rw [show jacobian ((relabelled net π).fn x) θ = (jacobian (net.fn x) θ).submatrix π id from jacobian_relabelled (net.fn x) π θ]
    rfl
  rw [e2, show jacobian ((relabelled net π).fn x) θ * (targetPrecision τ (prior.sigmaSquared.getD 1) 1 est)⁻¹ * (jacobian ((relabelled net π).fn x) θ)ᵀ =
    (jacobian (net.fn x) θ * (targetPrecision τ (prior.sigmaSquared.getD 1) 1 est)⁻¹ * (jacobian (net.fn x) θ)ᵀ).submatrix π π from
    cov_relabelled (net.fn x) π θ _]
  exact apiExpected_relabelled net.shape _ _ _ pr π k

/-! ### Scores -/

section
variable {n : ℕ}

theorem amongTop_relabelled {z : Vec c} (hz : Function.Injective z) (π : Equiv.Perm (Fin c)) (k : ℕ) (l : Fin c) :
    AmongTop (z ∘ π) k (π.symm l) ↔ AmongTop z k l := by
  classical
  unfold AmongTop
  have : (Finset.univ.filter fun j => (z ∘ π) (π.symm l) < (z ∘ π) j ∨ ((z ∘ π) j = (z ∘ π) (π.symm l) ∧ j < π.symm l)) =
      (Finset.univ.filter fun j => z l < z j ∨ (z j = z l ∧ j < l)).map π.symm.toEmbedding := by
    ext j
    simp only [Finset.mem_filter, Finset.mem_univ, true_and, Finset.mem_map_equiv, Equiv.symm_symm, Function.comp, Equiv.apply_symm_apply]
    refine or_congr Iff.rfl ⟨fun h => ?_, fun h => ?_⟩
    · have h1 := hz h.1
      have h2 : j = π.symm l := by rw [← h1]; simp
      exact absurd h.2 (by rw [h2]; exact lt_irrefl _)
    · exact absurd h.2 (by rw [hz h.1]; exact lt_irrefl _)
  refine Iff.of_eq (congrArg (· < k) ?_)
  refine Eq.trans (congrArg Finset.card ?_) (Finset.card_map π.symm.toEmbedding)
  convert this

/-- **C67 (scores).** Relabelling the classes of predictions and labels changes none of the classification scores: the Brier score, the
cross-entropies, the correctness of predictions with a unique largest class, and the top-`k` accuracies of predictions without ties. -/
theorem C67_scores (π : Equiv.Perm (Fin c)) (pred : Fin n → Vec c) (y : Fin n → Fin c) :
    multiclassBrier (fun i => pred i ∘ π) (.labels fun i => ((π.symm (y i)).val : ℤ)) = multiclassBrier pred (.labels fun i => ((y i).val : ℤ)) ∧
    (∀ t : Fin n → Vec c, multiclassBrier (fun i => pred i ∘ π) (.rows fun i => t i ∘ π) = multiclassBrier pred (.rows t)) ∧
    (∀ q r : Vec c, crossEntropyMetric (q ∘ π) (r ∘ π) = crossEntropyMetric q r) ∧
    ((∀ i, ∃ k, ∀ j, j ≠ k → pred i j < pred i k) →
      correctness (fun i => pred i ∘ π) (.labels fun i => ((π.symm (y i)).val : ℤ)) = correctness pred (.labels fun i => ((y i).val : ℤ))) ∧
    ((∀ i, Function.Injective (pred i)) → ∀ ks : List ℕ,
      accuracy (fun i => pred i ∘ π) (.labels fun i => ((π.symm (y i)).val : ℤ)) (ks.map fun k : ℕ => (k : ℤ)) =
        accuracy pred (.labels fun i => ((y i).val : ℤ)) (ks.map fun k : ℕ => (k : ℤ))) := by
  have key : ∀ t : Fin n → Vec c, multiclassBrier (fun i => pred i ∘ π) (.rows fun i => t i ∘ π) = multiclassBrier pred (.rows t) := by
    intro t
    simp only [multiclassBrier, Function.comp]
    congr 2
    refine Finset.sum_congr rfl fun i _ => ?_
    rw [← Equiv.sum_comp π fun k => t i k * (1 - 2 * pred i k + ∑ j, pred i j ^ 2), Equiv.sum_comp π fun j => pred i j ^ 2]
  refine ⟨?_, key, ?_, ?_, ?_⟩
  · have := key fun i => oneHot ((y i).val : ℤ)
    have e : (fun i => (oneHot ((y i).val : ℤ) : Vec c) ∘ π) = fun i => oneHot (((π.symm (y i)).val : ℕ) : ℤ) := by
      funext i k
      simp only [oneHot, Function.comp, Nat.cast_inj, Fin.val_inj, Equiv.eq_symm_apply]
    rw [e] at this
    exact this
  · intro q r
    simp only [crossEntropyMetric, Function.comp]
    rw [Equiv.sum_comp π fun k => xlogy (q k) (r k)]
  · intro hu
    rcases Nat.eq_zero_or_pos c with rfl | hc
    · rfl
    obtain ⟨b, h1, h2⟩ := C31_correctness hc (fun i => pred i ∘ π) (.labels fun i => ((π.symm (y i)).val : ℤ)) _ rfl
    obtain ⟨b', h1', h2'⟩ := C31_correctness hc pred (.labels fun i => ((y i).val : ℤ)) _ rfl
    rw [h1, h1']
    congr 1
    funext i
    have hiff : b i = true ↔ b' i = true := by
      rw [h2, h2']
      obtain ⟨k, hk⟩ := hu i
      have m1 : ∀ l, IsFirstMax (pred i) l ↔ l = k := by
        intro l
        constructor
        · intro hl
          by_contra hne
          exact absurd (hl.1 k) (not_le.2 (hk l hne))
        · rintro rfl
          exact ⟨fun j => by by_cases e : j = l; exacts [by rw [e], (hk j e).le], fun j hj => hk j hj.ne⟩
      have m2 : ∀ l, IsFirstMax (pred i ∘ π) l ↔ l = π.symm k := by
        intro l
        have hne : ∀ j, j ≠ π.symm k → (pred i ∘ π) j < (pred i ∘ π) (π.symm k) := by
          intro j hj
          simp only [Function.comp, Equiv.apply_symm_apply]
          exact hk _ fun e => hj (by rw [← e]; simp)
        constructor
        · intro hl
          by_contra h
          exact absurd (hl.1 (π.symm k)) (not_le.2 (hne l h))
        · rintro rfl
          exact ⟨fun j => by by_cases e : j = π.symm k; exacts [by rw [e], (hne j e).le], fun j hj => hne j hj.ne⟩
      simp only [m1, m2, Nat.cast_inj, Fin.val_inj]
      constructor
      · rintro ⟨l, e1, e2⟩
        exact ⟨k, by rw [e2] at e1; exact π.symm.injective e1, rfl⟩
      · rintro ⟨l, e1, e2⟩
        exact ⟨π.symm k, by rw [← e1, e2], rfl⟩
    cases hb : b i <;> cases hb' : b' i <;> simp_all
  · intro hz ks
    by_cases hks : ks = []
    · subst hks; simp [accuracy, bind, Except.bind]
    rw [C31_value _ _ _ rfl ks hks, C31_value _ _ _ rfl ks hks]
    congr 1
    refine List.map_congr_left fun k _ => ?_
    have e : hits (fun i => pred i ∘ π) (fun i => ((π.symm (y i)).val : ℤ)) k = hits pred (fun i => ((y i).val : ℤ)) k := ?_
    · rw [e]
    classical
    ext i
    simp only [hits, Finset.mem_filter, Finset.mem_univ, true_and, Nat.cast_inj, Fin.val_inj]
    constructor
    · rintro ⟨l, rfl, h⟩
      exact ⟨y i, rfl, (amongTop_relabelled (hz i) π k (y i)).1 h⟩
    · rintro ⟨l, rfl, h⟩
      exact ⟨π.symm (y i), rfl, (amongTop_relabelled (hz i) π k (y i)).2 h⟩

/-- **C67 (boundary).** With a tie the correctness depends on the labelling: both classes have the score 1, and the label 0 is counted as
correct, the swapped label 1 is not. -/
theorem C67_ties_depend_on_labels :
    (∃ b, correctness (n := 1) (c := 2) (fun _ => ![1, 1]) (.labels fun _ => 0) = .ok b ∧ b 0 = true) ∧
    (∃ b, correctness (n := 1) (c := 2) (fun _ => ![1, 1] ∘ Equiv.swap 0 1) (.labels fun _ => 1) = .ok b ∧ b 0 = false) := by
  have hf : IsFirstMax (![1, 1] : Vec 2) 0 := ⟨fun j => by fin_cases j <;> simp, fun j hj => absurd hj (by simp)⟩
  have e : (![1, 1] : Vec 2) ∘ Equiv.swap 0 1 = ![1, 1] := by funext j; fin_cases j <;> simp
  rw [e]
  constructor
  · obtain ⟨b, h1, h2⟩ := C31_correctness (n := 1) (c := 2) (by norm_num) (fun _ => ![1, 1]) (.labels fun _ => 0) _ rfl
    exact ⟨b, h1, (h2 0).2 ⟨0, rfl, hf⟩⟩
  · obtain ⟨b, h1, h2⟩ := C31_correctness (n := 1) (c := 2) (by norm_num) (fun _ => ![1, 1]) (.labels fun _ => 1) _ rfl
    refine ⟨b, h1, ?_⟩
    rw [Bool.eq_false_iff]
    intro hb
    obtain ⟨l, e1, e2⟩ := (h2 0).1 hb
    have : l = 1 := by apply Fin.ext; have : ((l.val : ℕ) : ℤ) = 1 := e1; omega
    subst this
    exact absurd (e2.2 0 (by decide)) (by simp)

end

/-! ### Non-vacuity -/

/-- Swap the two classes. -/
def testSwap : Equiv.Perm (Fin 2) := Equiv.swap 0 1

theorem test_relabelled (ys : List ℝ) (y : List (ℝ × ℝ)) (hy : [1, 2].zip ys = y) (π : Equiv.Perm (Fin 2)) :
    LaplaceCall (fun s => s) testPairs (relabelled testNet π).fn testMean ![3, 5] (.tup [.arr [1, 2], .arr ys]) y "cross_entropy"
    (fun jv pred _ => ceHessianMv jv pred) (.str "full") (.member "full") := by
  have h := test_targets ys y hy
  refine ⟨h.hp, h.hwf, h.hθ, h.hdata, fun s _ => ?_, rfl, rfl⟩
  have h1 := testNet_differentiable s.1 ![3, 5]
  rw [differentiableAt_pi] at h1 ⊢
  exact fun k => h1 (π k)

example : laplace (fun s => s) (fun _ => .error .valueError) testPairs (relabelled testNet testSwap).fn testMean
      (.tup [.arr [1, 2], .arr [1, 0]]) (.name "cross_entropy") (.str "full") (fun _ => .full) 1 1 =
    laplace (fun s => s) (fun _ => .error .valueError) testPairs testNet.fn testMean (.tup [.arr [1, 2], .arr [0, 1]]) (.name "cross_entropy")
      (.str "full") (fun _ => .full) 1 1 :=
  C67_same_posterior (fun s => s) _ testPairs testNet testSwap testMean ![3, 5] _ _ [(1, 0), (2, 1)] [(1, 1), (2, 0)] (by simp)
    "cross_entropy" _ _ _ (test_relabelled [0, 1] _ rfl (Equiv.refl _)) (test_relabelled [1, 0] _ rfl _) _ 1 1 one_ne_zero

example (x : ℝ) : ∃ fns r r', setupPushforward (fun s => if s = "Linear" then "linear" else s) (.str "Linear") (.str "mc_bridge") none = .ok (.lin, fns) ∧
    setPushforward (X := ℝ) (K := Unit) (p := 2) ⟨testRng, testNet, testMean, fun a s => setPosteriorFn (.full !![2, 2; 2, 2]) (.tree testMean) a s, fun _ _ _ _ => .error .typeError, (), 3⟩
      .lin fns ⟨some 2, none⟩ x = .ok r ∧
    setPushforward (X := ℝ) (K := Unit) (p := 2) ⟨testRng, relabelled testNet testSwap, testMean, fun a s => setPosteriorFn (.full !![2, 2; 2, 2]) (.tree testMean) a s, fun _ _ _ _ => .error .typeError, (), 3⟩
      .lin fns ⟨some 2, none⟩ x = .ok r' ∧
    ∀ k, RelabelledEntry [2] testSwap k (r.get? k) (r'.get? k) :=
  C67_named_predictive (X := ℝ) (p := 2) (fun s => if s = "Linear" then "linear" else s) (.str "Linear") (.str "mc_bridge") "mc_bridge"
    testRng testNet testMean _ _ () 3 testSwap ![3, 5] (.full !![2, 2; 2, 2])
    ⟨rfl, rfl, testRng_ok, by norm_num, testMean_wf, by simp [testMean, entries, Tree.leaves, Tree.leavesL], test_psd, rfl,
      Or.inr (Or.inl ⟨rfl, rfl, by norm_num⟩)⟩ ⟨some 2, none⟩ 2 rfl (by norm_num) (by norm_num) x

/-- Two samples without ties. -/
example : accuracy (n := 2) (c := 3) (fun i => (![![1, 2, 3], ![5, 4, 6]] : Fin 2 → Vec 3) i ∘ Equiv.swap 0 2)
      (.labels fun i => (((Equiv.swap 0 2).symm ((![1, 2] : Fin 2 → Fin 3) i)).val : ℤ)) ([1, 2].map fun k : ℕ => (k : ℤ)) =
    accuracy (n := 2) (c := 3) ![![1, 2, 3], ![5, 4, 6]] (.labels fun i => (((![1, 2] : Fin 2 → Fin 3) i).val : ℤ)) ([1, 2].map fun k : ℕ => (k : ℤ)) :=
  (C67_scores (Equiv.swap 0 2) _ ![1, 2]).2.2.2.2 (by
    intro i a b h
    fin_cases i <;> fin_cases a <;> fin_cases b <;> simp_all) [1, 2]

end Laplax.Props
