import Verif.Props.LanczosPosterior
import Verif.Props.Pushforward

/-! # C64: the predictive variance that a Lanczos posterior reports for a model with one parameter -/

namespace Laplax.Props
open Laplax Laplax.Spec
open scoped BigOperators Matrix

section
variable {c : ℕ} {B X Y Key K Z : Type} (E : LowRankExt Key) (jit : Bool) (lower : String → String) (rows : B → Except Err (List B))
    (points : PyObj B → PyObj B → Except Err (List (X × Y))) (model : X → Vec 1 → Vec c)
    (bmodel : PyObj B → Except Err (Σ N : ℕ, Vec 1 → Fin N → Vec c)) (params : PyTree ℝ) (θ : Vec 1) (data : PyObj B)
    (ps : List (PyObj B × PyObj B)) (decode : PyObj B × PyObj B → List (X × Y)) (h : ReadableData points params θ data ps decode)
    (hd : ∀ s ∈ ps.flatMap decode, DifferentiableAt ℝ (model s.1) θ)
    (loss : String) (H : Vec c → Vec c → Y → Vec c) (hH : createLossHessianMv (.name loss : LossArg c Y) = .ok H)
    (numCurv numTotal : ℕ) (hN : numTotal ≠ 0)

include h hd hH hN in
/-- **C64 (what the user sees).** For every model with one parameter, data set, batching, named loss and prior, with
`g = num_curv/num_total Σ Jᵀ H J` and `q = τ/s`: `laplace(..., curv_type="lanczos", key=key)` with the default rank succeeds, and the
linearised predictive built on its posterior reports, for every network and input, the variance
`(∂f_j/∂θ)² (20/(q + σ² g) - 19/q)` instead of `(∂f_j/∂θ)² / (q + σ² g)` - a negative number as soon as the output depends on the
parameter and `19 σ² g > q`. -/
theorem C64_one_parameter_predictive (curvType : EnumArg)
    (hct : convertToEnum lower curvApproxValues false curvType = .ok (.member "lanczos"))
    (key : Key) (hkey : E.normal key 1 ≠ 0) (hE : IsEigh (E.kernels.eigh (r := 20)))
    (prior : PriorArgs) (τ : ℝ) (hτ : prior.priorPrec = some τ) (hτ0 : 0 < τ) (σ : ℝ) (hσe : σ = prior.sigmaSquared.getD 1) (hσ : 0 ≤ σ)
    (s : ℝ) (hs : 0 < s) (q : ℝ) (hq : q = τ / s)
    (g : ℝ) (hg : g = (((numCurv : ℝ) / numTotal) • ggnSamples model θ H (ps.flatMap decode) (fun _ => 1)) 0) :
    ∃ (posteriorFn : PriorArgs → ℝ → Except Err (Posterior 1)) (est : CurvEstimate 1),
      laplaceKw E ⟨true, jit⟩ lower rows points model bmodel params data (.name loss) curvType numCurv numTotal { kw := { key := some key } } =
        .ok (posteriorFn, est) ∧
      ∀ (rng : Prng K), RngOk rng → ∀ (net : Net Z 1) (kw : PfKwargs K), kw.precompute = none → kw.precomputeListBatchSize ≠ some 0 →
        kw.linSamplesBatchSize ≠ some 0 → kw.weightBatchSize ≠ some 0 → ∀ (fns : List LinFn),
        (∀ fn ∈ fns, LinUsable net.shape (kw.numSamples.getD 0) (kw.specialPredType.getD "mean_field_0") fn) → .predVar ∈ fns → ∀ z : Z,
        ∃ r, linPushforward rng net params posteriorFn prior s ((LinFn.setup :: fns).map LinFn.step) kw z = .ok r ∧
          r.get? "pred_var" = some (arrOf net.shape fun j => (jacobian (net.fn z) θ j 0) ^ 2 * (20 / (q + σ * g) - 19 / q)) ∧
          (q < 19 * (σ * g) → ∀ j, jacobian (net.fn z) θ j 0 ≠ 0 → (jacobian (net.fn z) θ j 0) ^ 2 * (20 / (q + σ * g) - 19 / q) < 0) := by
  obtain ⟨G, hG, hL⟩ := C59_low_rank_keywords E jit lower rows points model bmodel params θ data ps decode h hd (.name loss) H hH numCurv numTotal hN
    curvType "lanczos" (.inl rfl) hct { kw := { key := some key } } (by simp)
  have hgood := goodLossHess_named loss H hH
  have hGm : G = ggnMatrix model θ H hgood ((numCurv : ℝ) / numTotal) (ps.flatMap decode) := by
    apply Matrix.toLin'.injective
    apply LinearMap.ext; intro v
    rw [Matrix.toLin'_apply, Matrix.toLin'_apply, hG, ggnMatrix_mulVec]
  have hpsd : G.PosSemidef := by rw [hGm]; exact ggnMatrix_posSemidef model θ H hgood _ (by positivity) _ hd
  have hG0 : G 0 0 = g := by
    rw [hg, ← hG]; simp [Matrix.mulVec, dotProduct]
  have hrun := (C49_lanczos E G h.hp _ _ (IsOperator.matrix .none) { key := some key }).1 (E.normal key 1) (.inr ⟨rfl, key, rfl, rfl⟩)
  rcases hL with ⟨e, h1, -⟩ | ⟨r, t, h1, h2⟩
  · simp only [Option.getD_none] at h1
    rw [hrun] at h1; cases h1
  · simp only [Option.getD_none] at h1
    rw [hrun] at h1
    simp only [Except.ok.injEq, Sigma.mk.injEq, heq_eq_eq, true_and] at h1
    obtain ⟨rfl, h1⟩ := h1
    obtain rfl := eq_of_heq h1
    obtain ⟨st, hst, hc1, hc2⟩ := C64_one_parameter G hpsd (E.normal key 1) hkey 1e-6 20 (by norm_num) E.kernels.eigh hE prior τ hτ hτ0 σ hσe hσ s hs q hq
    have hsz : numEntries params = 1 := by rw [← length_entries h.hwf, h.hθ, List.length_ofFn]
    obtain ⟨post, g1, g2, g3⟩ := C26_pytree_products _ params hsz h.hp prior s st hst
    obtain ⟨cov, scale, c1, c2, c3⟩ := g3 post.state
    refine ⟨_, _, h2, fun rng hrng net kw k1 k2 k3 k4 fns hu hv z => ?_⟩
    have hC : ActsOnTrees params cov (fun v => ((((20 : ℕ) : ℝ) / (q + σ * G 0 0) - (((20 : ℕ) : ℝ) - 1) / q) • (1 : Matrix (Fin 1) (Fin 1) ℝ)) *ᵥ v) :=
      fun u x hu hx => by
        have := (c3 u x hu hx).1
        rw [g2, hc1] at this
        simp only [Matrix.smul_mulVec, Matrix.one_mulVec]
        exact this
    have hR : ActsOnTrees params scale (fun v => ((((20 : ℕ) : ℝ) / √(q + σ * G 0 0) - (((20 : ℕ) : ℝ) - 1) / √q) • (1 : Matrix (Fin 1) (Fin 1) ℝ)) *ᵥ v) :=
      fun u x hu hx => by
        have := (c3 u x hu hx).2
        rw [g2, hc2] at this
        simp only [Matrix.smul_mulVec, Matrix.one_mulVec]
        exact this
    obtain ⟨r, eps, -, e1, e2, e3⟩ := C35_linearized_predictive rng hrng net params h.hp h.hwf θ h.hθ _ prior s post g1 cov scale c1 c2 _ _ hC hR kw
      k1 k2 k3 k4 fns hu z
    refine ⟨r, e1, ?_, ?_⟩
    · obtain ⟨v, hv'⟩ := Option.isSome_iff_exists.1 (e3 _ hv)
      have hv'' : r.get? "pred_var" = some v := hv'
      rw [hv'', ← e2 _ _ hv'']
      simp only [linExpected]
      rw [if_neg (by decide), if_neg (by decide), if_neg (by decide), if_pos trivial, hG0]
      congr 2; funext j
      rw [Matrix.mul_smul, Matrix.mul_one, Matrix.smul_mul, Matrix.smul_apply, Matrix.mul_apply, Fin.sum_univ_one, Matrix.transpose_apply, smul_eq_mul]
      norm_num; ring
    · intro hbig j hj
      have hq0 : 0 < q := by rw [hq]; positivity
      have hd0 : 0 < q + σ * g := by nlinarith
      have : 20 / (q + σ * g) - 19 / q < 0 := by
        rw [sub_neg, div_lt_div_iff₀ hd0 hq0]; nlinarith
      exact mul_neg_of_pos_of_neg (by positivity) this
end

/-! ### Non-vacuity -/

/-- A line through the origin, `f(x) = x·t`. -/
def oModel : ℝ → Vec 1 → Vec 1 := fun x t _ => x * t 0

/-- The same network for the predictive. -/
def oNet : Net ℝ 1 := ⟨[1], fun x t _ => x * t 0⟩

/-- Its parameter. -/
def oParams : PyTree ℝ := .node "dict(w)" [.leaf ⟨[], [2]⟩]

theorem oModel_jacobian (x : ℝ) (θ : Vec 1) : jacobian (oModel x) θ = Matrix.of fun _ _ => x := by
  have h : oModel x = fun t => (Matrix.of fun (_ : Fin 1) (_ : Fin 1) => x) *ᵥ t := by
    funext t k
    simp [oModel, Matrix.mulVec, dotProduct]
  have h' : HasFDerivAt (oModel x) (LinearMap.toContinuousLinearMap (Matrix.toLin' (Matrix.of fun (_ : Fin 1) (_ : Fin 1) => x))) θ := by
    rw [h]
    exact (LinearMap.toContinuousLinearMap (Matrix.toLin' (Matrix.of fun (_ : Fin 1) (_ : Fin 1) => x))).hasFDerivAt
  ext k j
  simp [jacobian, h'.fderiv]

theorem oReadable : ReadableData wPoints oParams (fun _ => 2 : Vec 1)
    (.iter (.reiterable [.tup [.arr [1, 2], .arr [5, 6]], .tup [.arr [3, 4], .arr [7, 8]]])) wPs wDecode where
  hp := by norm_num
  hwf := by
    intro a ha
    simp [oParams, Tree.leaves, Tree.leavesL] at ha
    subst ha; rfl
  hθ := by simp [oParams, entries, Tree.leaves, Tree.leavesL, List.ofFn_succ]
  hdata := DataOf.pairs wPs (by simp [wPs])
  hdec := by intro xy hxy; simp [wPs] at hxy; rcases hxy with rfl | rfl <;> rfl

/-- `C64_one_parameter_predictive`: the line through the origin fitted to four points (curvature `2 (1 + 4 + 9 + 16) = 60`) with prior
precision 1 reports the predictive variance `x² (20/61 - 19)`. -/
example : ∃ (E : LowRankExt ℕ) (posteriorFn : PriorArgs → ℝ → Except Err (Posterior 1)) (est : CurvEstimate 1),
    laplaceKw E ⟨true, true⟩ (fun s => s) (fun _ => .error .typeError) wPoints oModel (fun _ => .error .typeError) oParams
      (.iter (.reiterable [.tup [.arr [1, 2], .arr [5, 6]], .tup [.arr [3, 4], .arr [7, 8]]])) (.name "mse") (.str "lanczos") 4 4
      { kw := { key := some 7 } } = .ok (posteriorFn, est) ∧
    ∀ x : ℝ, ∃ r, linPushforward testRng oNet oParams posteriorFn ⟨some 1, none⟩ 1 ([LinFn.setup, .predMean, .predVar].map LinFn.step) {} x = .ok r ∧
      r.get? "pred_var" = some ⟨[1], [x ^ 2 * (20 / 61 - 19)]⟩ := by
  choose eigh heigh using C23_eigh_exists
  obtain ⟨E, h1, h2⟩ : ∃ E : LowRankExt ℕ, E.normal 7 1 ≠ 0 ∧ IsEigh (E.kernels.eigh (r := 20)) :=
    ⟨⟨fun _ _ _ => 1, fun _ _ _ => 0, 0, ⟨fun {r} => eigh r, fun {_ _} M => M, fun {_} M => (M, 0, M)⟩, 0, fun {_ _} _ _ => .done (.error .valueError)⟩,
      fun h => one_ne_zero (congrFun h 0), heigh 20⟩
  have hg : (60 : ℝ) = ((((4 : ℕ) : ℝ) / (4 : ℕ)) • ggnSamples oModel (fun _ => 2) (fun jv _ _ => mseHessianMv jv) (wPs.flatMap wDecode) (fun _ => 1)) 0 := by
    have hs : wPs.flatMap wDecode = [(1, 5), (2, 6), (3, 7), (4, 8)] := rfl
    rw [hs]
    simp only [ggnSamples, List.map_cons, List.map_nil, List.sum_cons, List.sum_nil, oModel_jacobian, Pi.smul_apply,
      Pi.add_apply, Pi.zero_apply, Matrix.mulVec, mseHessianMv, Matrix.transpose_apply, Fin.sum_univ_one, smul_eq_mul, dotProduct, Matrix.of_apply]
    norm_num
  obtain ⟨pf, est, g1, g2⟩ := C64_one_parameter_predictive (K := Unit) (Z := ℝ) E true (fun s => s) (fun _ => .error .typeError) wPoints oModel
    (fun _ => .error .typeError) oParams (fun _ => 2) _ wPs wDecode oReadable (fun s _ => by unfold oModel; fun_prop) "mse"
    (fun jv _ _ => mseHessianMv jv) rfl 4 4 (by norm_num) (.str "lanczos") rfl 7 h1 h2 ⟨some 1, none⟩ 1 rfl one_pos 1 rfl zero_le_one 1 one_pos 1
    (by norm_num) 60 hg
  refine ⟨E, pf, est, g1, fun x => ?_⟩
  obtain ⟨r, k1, k2, -⟩ := g2 testRng testRng_ok oNet {} rfl (by simp) (by simp) (by simp) [.predMean, .predVar] (by simp [LinUsable]) (by simp) x
  refine ⟨r, k1, ?_⟩
  rw [k2]
  have hj : ∀ j, jacobian (oNet.fn x) (fun _ => 2 : Vec 1) j 0 = x := fun j => congrFun (congrFun (oModel_jacobian x (fun _ => 2)) j) 0
  simp only [hj]
  simp [arrOf, oNet, shapeSize, List.ofFn_succ]
  norm_num

end Laplax.Props
