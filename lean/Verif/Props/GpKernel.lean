import Verif.Props.Pushforward

/-! # C37: the posterior GP kernel -/

namespace Laplax.Props
open Laplax Laplax.Spec
open scoped BigOperators Matrix

variable {X K : Type} {p : ℕ}

theorem isKernel_of_posterior {c : ℕ} (J : X → Matrix (Fin c) (Fin p) ℝ) (C : Matrix (Fin p) (Fin p) ℝ) (hC : C.PosSemidef) :
    IsKernel (fun x1 x2 => J x1 * C * (J x2)ᵀ) := by
  have hs : Cᵀ = C := by
    have := hC.isHermitian
    rwa [Matrix.IsHermitian, Matrix.conjTranspose_eq_transpose_of_trivial] at this
  refine ⟨fun x1 x2 => ?_, fun n xs => ?_⟩
  · rw [Matrix.transpose_mul, Matrix.transpose_mul, Matrix.transpose_transpose, hs, Matrix.mul_assoc]
  · have h := hC.mul_mul_conjTranspose_same (Matrix.of fun (a : Fin n × Fin c) (j : Fin p) => J (xs a.1) a.2 j)
    rw [Matrix.conjTranspose_eq_transpose_of_trivial] at h
    convert h using 1
    ext a b
    simp [gram, Matrix.mul_apply]

/-- The distribution state of the kernel. -/
theorem gp_dist (rng : Prng K) (net : Net X p) (mean : PyTree ℝ) (post : Posterior p) (key : Option K) (kw : PfKwargs K) :
    getDistState rng mean net post true 0 key kw = .ok ⟨post, 0, some (pfVjp net mean), some (pfJvp net mean), none⟩ := rfl

theorem kernelMv_eq (s : Setting X p) (hs : s.Ok) (post : Posterior p) (hcov : post.covMv post.state = .ok s.covg) (x1 x2 : X)
    (sh : List ℕ) (w : Vec (shapeSize s.net.shape)) :
    kernelMv ⟨sh, List.ofFn w⟩ x1 x2 ⟨post, 0, some (pfVjp s.net s.mean), some (pfJvp s.net s.mean), none⟩ =
      .ok (arrOf s.net.shape (s.kernel x1 x2 *ᵥ w)) := by
  simp only [kernelMv, hcov, ok_bind, entryE]
  exact kernel_product s hs x1 x2 sh w

/-- **C37 (kernel products).** For every model, posterior with positive semidefinite covariance `Σ`: the function returned for
`dense=False` computes the product with `k(x1, x2) = J(x1) Σ J(x2)ᵀ`, and `k` is a symmetric kernel with positive semidefinite
Gram matrices on every finite set of inputs. -/
theorem C37_kernel_products (rng : Prng K) (net : Net X p) (mean : PyTree ℝ) (hp : 0 < p)
    (hwf : WFTree mean) (θ : Vec p) (hθ : entries mean = List.ofFn θ)
    (posteriorFn : PriorArgs → ℝ → Except Err (Posterior p)) (prior : PriorArgs) (lsf : ℝ) (post : Posterior p)
    (hpost : posteriorFn prior lsf = .ok post) (cov : List (PyTree ℝ) → Except Err (PyTree ℝ))
    (hcov : post.covMv post.state = .ok cov)
    (C : Matrix (Fin p) (Fin p) ℝ) (hC : ActsOnTrees mean cov (fun v => C *ᵥ v)) (hpsd : C.PosSemidef)
    (layout : Layout ℝ) (kw : PfKwargs K) (hns : kw.numSamples = none) :
    ∃ (g : Arr ℝ → X → X → DistState X p → Except Err (Arr ℝ)) (dist : DistState X p)
      (k : X → X → Matrix (Fin (shapeSize net.shape)) (Fin (shapeSize net.shape)) ℝ),
      setPosteriorGpKernel rng net mean posteriorFn prior lsf false layout kw = .ok (.mv g, dist) ∧
      (∀ (x1 x2 : X) (sh : List ℕ) (w : Vec (shapeSize net.shape)),
        g ⟨sh, List.ofFn w⟩ x1 x2 dist = .ok (arrOf net.shape (k x1 x2 *ᵥ w))) ∧
      (∀ x1 x2, k x1 x2 = jacobian (net.fn x1) θ * C * (jacobian (net.fn x2) θ)ᵀ) ∧ IsKernel k := by
  let st : Setting X p := ⟨net, mean, θ, C, cov⟩
  have hst : st.Ok := ⟨hp, hwf, hθ, hC⟩
  refine ⟨kernelMv, ⟨post, 0, some (pfVjp net mean), some (pfJvp net mean), none⟩, st.kernel, ?_, ?_, fun _ _ => rfl,
    isKernel_of_posterior (fun x => jacobian (net.fn x) θ) C hpsd⟩
  · simp only [setPosteriorGpKernel, hpost, ok_bind, gp_dist, hns, Option.isSome_none, Bool.false_eq_true, if_false]; rfl
  · intro x1 x2 sh w
    exact kernelMv_eq st hst post hcov x1 x2 sh w

/-- **C37 (dense kernel).** For every model with vector outputs, the function returned for `dense=True` with an integer layout of the
output size returns the matrix `k(x1, x2)` of the kernel above; on the diagonal it is the array the linearised predictive
returns as `pred_cov`. -/
theorem C37_dense_kernel (rng : Prng K) (hrng : RngOk rng) (net : Net X p) (mean : PyTree ℝ) (hp : 0 < p)
    (hwf : WFTree mean) (θ : Vec p) (hθ : entries mean = List.ofFn θ)
    (posteriorFn : PriorArgs → ℝ → Except Err (Posterior p)) (prior : PriorArgs) (lsf : ℝ) (post : Posterior p)
    (hpost : posteriorFn prior lsf = .ok post) (cov scale : List (PyTree ℝ) → Except Err (PyTree ℝ))
    (hcov : post.covMv post.state = .ok cov) (hscale : post.scaleMv post.state = .ok scale)
    (C R : Matrix (Fin p) (Fin p) ℝ) (hC : ActsOnTrees mean cov (fun v => C *ᵥ v)) (hR : ActsOnTrees mean scale (fun v => R *ᵥ v))
    (hpsd : C.PosSemidef) (hdim : net.shape.length = 1) (hpos : 0 < shapeSize net.shape)
    (kg : PfKwargs K) (hns : kg.numSamples = none) (kw : PfKwargs K) (hkw : kw.precompute = none) (hb1 : kw.precomputeListBatchSize ≠ some 0)
    (hb2 : kw.linSamplesBatchSize ≠ some 0) (hb3 : kw.weightBatchSize ≠ some 0) :
    ∃ (g : X → X → Except Err (PyTree ℝ)) (dist : DistState X p)
      (k : X → X → Matrix (Fin (shapeSize net.shape)) (Fin (shapeSize net.shape)) ℝ),
      setPosteriorGpKernel rng net mean posteriorFn prior lsf true (.int (shapeSize net.shape)) kg = .ok (.dense g, dist) ∧
      (∀ x1 x2 : X, g x1 x2 = .ok (.leaf (denseArr (k x1 x2)))) ∧
      (∀ x1 x2, k x1 x2 = jacobian (net.fn x1) θ * C * (jacobian (net.fn x2) θ)ᵀ) ∧ IsKernel k ∧
      ∀ x, ∃ r c, linPushforward rng net mean posteriorFn prior lsf ([LinFn.setup, .predCov].map LinFn.step) kw x = .ok r ∧
        r.get? "pred_cov" = some c ∧ g x x = .ok (.leaf c) := by
  let st : Setting X p := ⟨net, mean, θ, C, cov⟩
  have hst : st.Ok := ⟨hp, hwf, hθ, hC⟩
  have hsh : net.shape = [shapeSize net.shape] := by
    obtain ⟨n, hn⟩ := List.length_eq_one_iff.1 hdim
    rw [hn]; simp [shapeSize]
  let dist : DistState X p := ⟨post, 0, some (pfVjp net mean), some (pfJvp net mean), none⟩
  let g : X → X → Except Err (PyTree ℝ) := fun x1 x2 =>
    toDense (onLeaf (fun v => kernelMv v x1 x2 dist)) (.int (shapeSize net.shape))
  have hg : ∀ x1 x2 : X, g x1 x2 = .ok (.leaf (denseArr (st.kernel x1 x2))) := by
    intro x1 x2
    have := C08_to_dense_int_columns (α := ℝ) (m := shapeSize net.shape) hpos (onLeaf (fun v => kernelMv v x1 x2 dist))
      (fun w => st.kernel x1 x2 *ᵥ w) (by
        intro w
        simp only [onLeaf]
        have := kernelMv_eq st hst post hcov x1 x2 [shapeSize net.shape] w
        erw [this]
        simp only [ok_bind, arrOf, pure, Except.pure]
        exact congrArg (fun sh' : List ℕ => (Except.ok (Tree.leaf ⟨sh', List.ofFn (st.kernel x1 x2 *ᵥ w)⟩) : Except Err (PyTree ℝ))) hsh)
      none (by simp)
    refine this.trans ?_
    have e : (Matrix.of fun i j => (fun w => st.kernel x1 x2 *ᵥ w) (unitFn ℝ (shapeSize net.shape) j) i) = st.kernel x1 x2 := by
      ext i j
      exact mulVec_unitFn _ _ _
    rw [e]
  refine ⟨g, dist, st.kernel, ?_, hg, fun _ _ => rfl, isKernel_of_posterior (fun x => jacobian (net.fn x) θ) C hpsd, fun x => ?_⟩
  · have ht : layoutTruthy (.int (shapeSize net.shape)) = .ok true := by simp [layoutTruthy]; omega
    simp only [setPosteriorGpKernel, hpost, ok_bind, gp_dist, hns, Option.isSome_none, Bool.false_eq_true, if_false, if_true, ht]; rfl
  · obtain ⟨r, eps, _, h1, h2, h3⟩ := C35_linearized_predictive rng hrng net mean hp hwf θ hθ posteriorFn prior lsf post hpost cov
      scale hcov hscale C R hC hR kw hkw hb1 hb2 hb3 [.predCov] (by simp [LinUsable, hdim, hpos]) x
    obtain ⟨c, hc⟩ := Option.isSome_iff_exists.1 (h3 .predCov (by simp))
    refine ⟨r, c, h1, hc, ?_⟩
    have := h2 _ _ hc
    simp only [linKey, linExpected] at this
    rw [if_neg (by simp), if_neg (by simp), if_pos trivial, if_neg (by rw [hsh]; simp), if_pos hdim] at this
    rw [hg, ← Option.some.inj this]; rfl

/-- **C37 (layout required).** `dense=True` without an output layout (or with layout `0`) raises `ValueError`; so does an array
layout with more than one entry (its truth value is ambiguous), although layouts elsewhere may be arrays. -/
theorem C37_dense_needs_layout (rng : Prng K) (net : Net X p) (mean : PyTree ℝ)
    (posteriorFn : PriorArgs → ℝ → Except Err (Posterior p)) (prior : PriorArgs) (lsf : ℝ) (post : Posterior p)
    (hpost : posteriorFn prior lsf = .ok post) (kw : PfKwargs K) (hns : kw.numSamples = none) (layout : Layout ℝ)
    (hl : layout = .none ∨ layout = .int 0 ∨ ∃ sh x y zs, layout = .tree (.leaf ⟨sh, x :: y :: zs⟩)) :
    setPosteriorGpKernel rng net mean posteriorFn prior lsf true layout kw = .error .valueError := by
  rcases hl with rfl | rfl | ⟨sh, x, y, zs, rfl⟩ <;>
    simp only [setPosteriorGpKernel, hpost, ok_bind, gp_dist, hns, Option.isSome_none, Bool.false_eq_true, if_false, if_true] <;> rfl

/-- **C37 (no samples).** The kernel is not sampled: passing `num_samples` (which the linearised predictive reads from the same keyword
arguments) raises `TypeError`. -/
theorem C37_num_samples_raises (rng : Prng K) (net : Net X p) (mean : PyTree ℝ)
    (posteriorFn : PriorArgs → ℝ → Except Err (Posterior p)) (prior : PriorArgs) (lsf : ℝ) (post : Posterior p)
    (hpost : posteriorFn prior lsf = .ok post) (kw : PfKwargs K) (n : ℕ) (hns : kw.numSamples = some n) (dense : Bool) (layout : Layout ℝ) :
    setPosteriorGpKernel rng net mean posteriorFn prior lsf dense layout kw = .error .typeError := by
  simp only [setPosteriorGpKernel, hpost, ok_bind, hns, Option.isSome_some, if_true]

/-- Non-vacuity: the kernel of the test network exists and is a kernel. -/
example : ∃ (g : ℝ → ℝ → Except Err (PyTree ℝ)) (dist : DistState ℝ 2) (k : ℝ → ℝ → Matrix (Fin 2) (Fin 2) ℝ),
    setPosteriorGpKernel testRng testNet testMean (fun a s => createPosteriorFn .full testMv (.tree testMean) a s)
      ⟨some 1, none⟩ 1 true (.int 2) {} = .ok (.dense g, dist) ∧ (∀ x1 x2, g x1 x2 = .ok (.leaf (denseArr (k x1 x2)))) ∧ IsKernel k := by
  obtain ⟨post, cov, scale, h1, h2, h3, fc, fs, hpost, hact⟩ :=
    C26_create_posterior_full (p := 2) testMean (by simp [testMean, numEntries, Tree.leaves, Tree.leavesL]) (by norm_num) testMv
      !![2, 2; 2, 2] testMv_ok test_psd ⟨some 1, none⟩ 1 rfl (by norm_num) (by norm_num) 1 (by norm_num)
  obtain ⟨_, hpd, hfc, R, hR1, _⟩ := hpost
  obtain ⟨g, dist, k, e1, e2, _, e3, _⟩ := C37_dense_kernel testRng testRng_ok testNet testMean (by norm_num) testMean_wf ![3, 5]
    (by simp [testMean, entries, Tree.leaves, Tree.leavesL]) (fun a s => createPosteriorFn .full testMv (.tree testMean) a s)
    ⟨some 1, none⟩ 1 post h1 cov scale h2 h3 _ R
    (fun u y hu hy => by have := (hact u y hu hy).1; simp only [hfc] at this; exact this)
    (fun u y hu hy => by have := (hact u y hu hy).2; simp only [hR1] at this; exact this)
    hpd.posSemidef rfl (by simp [testNet, shapeSize]) {} rfl {} rfl (by simp) (by simp) (by simp)
  exact ⟨g, dist, k, e1, e2, e3⟩

end Laplax.Props
