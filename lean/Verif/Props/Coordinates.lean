import Verif.Spec.Coordinates
import Verif.Props.UnusedParams
import Verif.Props.InvarianceEvidence

/-! # C84: other coordinates for the parameters -/

namespace Laplax.Props
open Laplax Spec
open scoped BigOperators Matrix

variable {p c : ℕ} {E X Y K : Type}

theorem jacobian_coordinates (f : Vec p → Vec c) {A B : Matrix (Fin p) (Fin p) ℝ} (h1 : A * B = 1) (h2 : B * A = 1) (w : Vec p) :
    jacobian (fun v => f (A *ᵥ v)) w = jacobian f (A *ᵥ w) * A := by
  let e : Vec p ≃L[ℝ] Vec p := (Matrix.toLin'OfInv h2 h1).toContinuousLinearEquiv
  have he : ∀ v, e v = A *ᵥ v := fun v => by simp [e, Matrix.toLin'OfInv]
  have hf : (fun v => f (A *ᵥ v)) = f ∘ e := by funext v; rw [Function.comp, he]
  have hdir : ∀ u : Vec p, fderiv ℝ (fun v => f (A *ᵥ v)) w u = fderiv ℝ f (A *ᵥ w) (A *ᵥ u) := by
    intro u
    rw [hf, e.comp_right_fderiv, he, ← he u]
    rfl
  ext i j
  simp only [jacobian, Matrix.of_apply]
  rw [hdir]
  have hlin : A *ᵥ (Pi.single j 1 : Vec p) = ∑ k, A k j • (Pi.single k 1 : Vec p) := by
    funext l
    simp [Finset.sum_apply, Pi.single_apply]
  rw [hlin, map_sum, Finset.sum_apply, Matrix.mul_apply]
  refine Finset.sum_congr rfl fun k _ => ?_
  rw [map_smul, Pi.smul_apply, smul_eq_mul, mul_comm]
  rfl

theorem ggn_coordinates (f : X → Vec p → Vec c) {A B : Matrix (Fin p) (Fin p) ℝ} (h1 : A * B = 1) (h2 : B * A = 1) (w : Vec p)
    (H : Vec c → Vec c → Y → Vec c) (ss : List (X × Y)) (v : Vec p) :
    ggnSamples (fun x v => f x (A *ᵥ v)) w H ss v = Aᵀ *ᵥ ggnSamples f (A *ᵥ w) H ss (A *ᵥ v) := by
  induction ss with
  | nil => simp [ggnSamples]
  | cons s ss ih =>
    simp only [ggnSamples, List.map_cons, List.sum_cons] at ih ⊢
    rw [ih, jacobian_coordinates (f s.1) h1 h2, Matrix.mulVec_add, Matrix.transpose_mul, Matrix.mulVec_mulVec, Matrix.mulVec_mulVec]

theorem matrix_coordinates {f : X → Vec p → Vec c} {A B : Matrix (Fin p) (Fin p) ℝ} (h1 : A * B = 1) (h2 : B * A = 1) {w : Vec p}
    {H : Vec c → Vec c → Y → Vec c} {ss : List (X × Y)} {r : ℝ} {G G' : Matrix (Fin p) (Fin p) ℝ} (h : ∀ v, G *ᵥ v = r • ggnSamples f (A *ᵥ w) H ss v)
    (h' : ∀ v, G' *ᵥ v = r • ggnSamples (fun x v => f x (A *ᵥ v)) w H ss v) : G' = Aᵀ * G * A := by
  apply Matrix.toLin'.injective
  apply LinearMap.ext; intro v
  rw [Matrix.toLin'_apply, Matrix.toLin'_apply, h', ggn_coordinates f h1 h2, ← Matrix.mulVec_mulVec, ← Matrix.mulVec_mulVec, h, Matrix.mulVec_smul]

/-- The inverse of a similarity. -/
theorem similarity_inverse {A : Matrix (Fin p) (Fin p) ℝ} {r : ℝ} (h : IsSimilarity A r) :
    A * (r⁻¹ • Aᵀ) = 1 ∧ (r⁻¹ • Aᵀ) * A = 1 ∧ Aᵀ * A = r • 1 := by
  have h0 : r ≠ 0 := h.1.ne'
  have h1 : A * (r⁻¹ • Aᵀ) = 1 := by
    rw [Matrix.mul_smul, h.2, smul_smul, inv_mul_cancel₀ h0, one_smul]
  have h2 : (r⁻¹ • Aᵀ) * A = 1 := mul_eq_one_comm.1 h1
  refine ⟨h1, h2, ?_⟩
  rw [Matrix.smul_mul] at h2
  rw [← h2, smul_smul, mul_inv_cancel₀ h0, one_smul]

theorem precision_coordinates {A : Matrix (Fin p) (Fin p) ℝ} {r : ℝ} (h : IsSimilarity A r) (G : Matrix (Fin p) (Fin p) ℝ) (τ σ s : ℝ) :
    precision (Aᵀ * G * A) (r * τ) σ s = Aᵀ * precision G τ σ s * A := by
  unfold precision
  rw [Matrix.mul_smul, Matrix.smul_mul, Matrix.mul_add, Matrix.add_mul, Matrix.mul_smul, Matrix.smul_mul, Matrix.mul_smul, Matrix.smul_mul, Matrix.mul_one,
    (similarity_inverse h).2.2, smul_smul, mul_comm r τ]

/-- The inverse of a congruent matrix. -/
theorem congruent_inverse {A B P : Matrix (Fin p) (Fin p) ℝ} (h1 : A * B = 1) (h2 : B * A = 1) :
    A * (Aᵀ * P * A)⁻¹ * Aᵀ = P⁻¹ := by
  have hA : A⁻¹ = B := Matrix.inv_eq_right_inv h1
  have hdA : IsUnit A.det := (Matrix.isUnit_iff_isUnit_det A).1 ⟨⟨A, B, h1, h2⟩, rfl⟩
  have hdT : IsUnit Aᵀ.det := by rwa [Matrix.det_transpose]
  rw [Matrix.mul_inv_rev, Matrix.mul_inv_rev, ← Matrix.mul_assoc, Matrix.mul_nonsing_inv _ hdA, Matrix.one_mul, Matrix.mul_assoc,
    Matrix.nonsing_inv_mul _ hdT, Matrix.mul_one]

theorem covAt_coordinates (f : X → Vec p → Vec c) {A B P P' : Matrix (Fin p) (Fin p) ℝ} (h1 : A * B = 1) (h2 : B * A = 1) (w : Vec p) (x : X)
    (h : A * P'⁻¹ * Aᵀ = P⁻¹) : covAt (fun x v => f x (A *ᵥ v)) w P' x = covAt f (A *ᵥ w) P x := by
  rw [covAt, covAt, jacobian_coordinates (f x) h1 h2, ← h, Matrix.transpose_mul]
  simp only [Matrix.mul_assoc]

theorem covAt_coordinates_diag (f : X → Vec p → Vec c) {A B : Matrix (Fin p) (Fin p) ℝ} (P' : Matrix (Fin p) (Fin p) ℝ) (h1 : A * B = 1)
    (h2 : B * A = 1) (w : Vec p) (x : X) (k : Fin c) : covAt (fun x v => f x (A *ᵥ v)) w P' x k k =
      jacobian (f x) (A *ᵥ w) k ⬝ᵥ (A * P'⁻¹ * Aᵀ) *ᵥ jacobian (f x) (A *ᵥ w) k := by
  rw [covAt, jacobian_coordinates (f x) h1 h2, Matrix.transpose_mul,
    show jacobian (f x) (A *ᵥ w) * A * P'⁻¹ * (Aᵀ * (jacobian (f x) (A *ᵥ w))ᵀ) =
      jacobian (f x) (A *ᵥ w) * ((A * P'⁻¹ * Aᵀ) * (jacobian (f x) (A *ᵥ w))ᵀ) by simp only [Matrix.mul_assoc], Matrix.mul_apply, dotProduct]
  rfl

theorem arrOf_inj {sh : List ℕ} {v v' : Fin (shapeSize sh) → ℝ} (h : arrOf sh v = arrOf sh v') : v = v' := by
  have := congrArg Arr.data h
  simpa only [arrOf, List.ofFn_inj] using this

/-- One call reports one mean and one variance. -/
theorem one_report {lower : String → String} {pushforward predictive : EnumArg} {a : PredictiveArgs X K p} {prior : PriorArgs} {x : X}
    {m m' V V' : Fin (shapeSize a.net.shape) → ℝ} (h : Reports lower pushforward predictive a prior x m V)
    (h' : Reports lower pushforward predictive a prior x m' V') : m = m' ∧ V = V' := by
  obtain ⟨kind, fns, r, a1, a2, a3, a4, -⟩ := h
  obtain ⟨kind', fns', r', b1, b2, b3, b4, -⟩ := h'
  rw [a1] at b1
  obtain ⟨rfl, rfl⟩ := Prod.mk.inj (Except.ok.inj b1)
  rw [a2] at b2
  obtain rfl := Except.ok.inj b2
  rw [a3] at b3
  rw [a4] at b4
  exact ⟨arrOf_inj (Option.some.inj b3), arrOf_inj (Option.some.inj b4)⟩

/-- Two symmetric matrices with one quadratic form are equal. -/
theorem symm_ext_quad {M N : Matrix (Fin p) (Fin p) ℝ} (hM : Mᵀ = M) (hN : Nᵀ = N) (h : ∀ u, u ⬝ᵥ M *ᵥ u = u ⬝ᵥ N *ᵥ u) : M = N := by
  ext i j
  have pol : ∀ {Q : Matrix (Fin p) (Fin p) ℝ}, Qᵀ = Q →
      (Pi.single i 1 + Pi.single j 1) ⬝ᵥ Q *ᵥ (Pi.single i 1 + Pi.single j 1) -
        Pi.single i 1 ⬝ᵥ Q *ᵥ Pi.single i 1 - Pi.single j 1 ⬝ᵥ Q *ᵥ Pi.single j 1 = 2 * Q i j := by
    intro Q hQ
    have : Q j i = Q i j := congrFun (congrFun hQ i) j
    simp only [Matrix.mulVec_add, dotProduct_add, add_dotProduct, Matrix.mulVec_single_one, single_one_dotProduct, Matrix.col_apply]
    linarith
  have := (pol hM).symm.trans ((by rw [h, h, h]) : _ = _) |>.trans (pol hN)
  linarith

/-- The conditions of a `laplace` call carry over to the other coordinates. -/
theorem laplaceCall_coordinates {lower : String → String} {points : PyObj E → PyObj E → Except Err (List (X × Y))} {net : Net X p}
    {A : Matrix (Fin p) (Fin p) ℝ} {params params' : PyTree ℝ} {w : Vec p} {data : PyObj E} {samples : List (X × Y)} {loss : String}
    {H : Vec (shapeSize net.shape) → Vec (shapeSize net.shape) → Y → Vec (shapeSize net.shape)} {curvType ct : EnumArg}
    (h : LaplaceCall lower points net.fn params (A *ᵥ w) data samples loss H curvType ct) (hwf' : WFTree params')
    (hw' : entries params' = List.ofFn w) : LaplaceCall lower points (inCoordinates net A).fn params' w data samples loss H curvType ct := by
  refine ⟨h.hp, hwf', hw', h.hdata, fun s hs => ?_, h.hH, h.hct⟩
  exact DifferentiableAt.comp (g := net.fn s.1) (f := fun v : Vec p => A *ᵥ v) w (h.hd s hs)
    (Matrix.toLin' A).toContinuousLinearMap.differentiableAt

section
variable (lower : String → String) (rows : E → Except Err (List E)) (points : PyObj E → PyObj E → Except Err (List (X × Y)))
  (net : Net X p) (A : Matrix (Fin p) (Fin p) ℝ) (params params' : PyTree ℝ) (w : Vec p) (data : PyObj E) (samples : List (X × Y)) (loss : String)
  (H : Vec (shapeSize net.shape) → Vec (shapeSize net.shape) → Y → Vec (shapeSize net.shape)) (curvType ct : EnumArg)

/-- The estimates `laplace` makes in the two coordinate systems. -/
theorem laplace_coordinates {B : Matrix (Fin p) (Fin p) ℝ} (h1 : A * B = 1) (h2 : B * A = 1)
    (h : LaplaceCall lower points net.fn params (A *ᵥ w) data samples loss H curvType ct)
    (h' : LaplaceCall lower points (inCoordinates net A).fn params' w data samples loss H curvType ct)
    (kind : EnumArg → LaplaceKind p) (hk : kind ct = .full) (numCurv numTotal : ℕ) (hN : numTotal ≠ 0) :
    ∃ G : Matrix (Fin p) (Fin p) ℝ, G.PosSemidef ∧ (Aᵀ * G * A).PosSemidef ∧
      laplace lower rows points net.fn params data (.name loss) curvType kind numCurv numTotal =
        .ok (fun a s => setPosteriorFn (.full G) (.tree params) a s, .full G) ∧
      laplace lower rows points (inCoordinates net A).fn params' data (.name loss) curvType kind numCurv numTotal =
        .ok (fun a s => setPosteriorFn (.full (Aᵀ * G * A)) (.tree params') a s, .full (Aᵀ * G * A)) := by
  obtain ⟨G, g1, g2, g3⟩ := C47_laplace_curvature lower rows points net.fn params (A *ᵥ w) data samples loss H curvType ct h kind numCurv numTotal hN
  obtain ⟨G', g1', g2', g3'⟩ := C47_laplace_curvature lower rows points (inCoordinates net A).fn params' w data samples loss H curvType ct h'
    kind numCurv numTotal hN
  have hG : G' = Aᵀ * G * A := matrix_coordinates h1 h2 g2 g2'
  subst hG
  exact ⟨G, g1, g1', by rw [g3, hk]; rfl, by rw [g3', hk]; rfl⟩

/-- **C84 (predictive).** For every model, data set and similarity `A` (a rotation or reflection with a change of scale, `A Aᵀ = c·1`): fitting the same
data with dense curvature, with the parameters in the coordinates `w = A v`, gives a linearised predictive that reports for the prior precision `c τ`
the means and variances it reports in the original coordinates for `τ`, for every input. -/
theorem C84_predictive {r : ℝ} (hA : IsSimilarity A r)
    (h : LaplaceCall lower points net.fn params (A *ᵥ w) data samples loss H curvType ct)
    (hwf' : WFTree params') (hw' : entries params' = List.ofFn w)
    (kind : EnumArg → LaplaceKind p) (hk : kind ct = .full) (numCurv numTotal : ℕ) (hN : numTotal ≠ 0)
    (pushforward predictive : EnumArg) (pr : String)
    (hpf : convertToEnum lower pushforwardValues false pushforward = .ok (.member "linear"))
    (hpr : convertToEnum lower predictiveValues false predictive = .ok (.member pr))
    (rng : Prng K) (hrng : RngOk rng) (custom : ℕ → PfStep X K p) (key : K) (S : ℕ) (hu : ApiUsable net.shape S pr) :
    ∃ posteriorFn est posteriorFn' est',
      laplace lower rows points net.fn params data (.name loss) curvType kind numCurv numTotal = .ok (posteriorFn, est) ∧
      laplace lower rows points (inCoordinates net A).fn params' data (.name loss) curvType kind numCurv numTotal = .ok (posteriorFn', est') ∧
      ∀ (τ : ℝ) (σ : Option ℝ), 0 < τ → 0 ≤ σ.getD 1 → ∀ x, ∃ m V,
        Reports lower pushforward predictive ⟨rng, net, params, posteriorFn, custom, key, S⟩ ⟨some τ, σ⟩ x m V ∧
        Reports lower pushforward predictive ⟨rng, inCoordinates net A, params', posteriorFn', custom, key, S⟩ ⟨some (r * τ), σ⟩ x m V := by
  have h' := laplaceCall_coordinates h hwf' hw'
  obtain ⟨i1, i2, -⟩ := similarity_inverse hA
  obtain ⟨G, g1, g1', e1, e2⟩ := laplace_coordinates lower rows points net A params params' w data samples loss H curvType ct i1 i2 h h' kind hk numCurv
    numTotal hN
  refine ⟨_, _, _, _, e1, e2, fun τ σ hτ hσ x => ?_⟩
  have r1 := reports (a := ⟨rng, net, params, fun q s => setPosteriorFn (.full G) (.tree params) q s, custom, key, S⟩)
    (⟨hpf, hpr, hrng, h.hp, h.hwf, h.hθ, g1, rfl, hu⟩ : ApiLinear lower pushforward predictive pr _ (A *ᵥ w) (.full G)) ⟨some τ, σ⟩ rfl hτ hσ x
  have r2 := reports (a := ⟨rng, inCoordinates net A, params', fun q s => setPosteriorFn (.full (Aᵀ * G * A)) (.tree params') q s, custom, key, S⟩)
    (⟨hpf, hpr, hrng, h.hp, h'.hwf, h'.hθ, g1', rfl, hu⟩ : ApiLinear lower pushforward predictive pr _ w (.full (Aᵀ * G * A))) ⟨some (r * τ), σ⟩ rfl
    (mul_pos hA.1 hτ) hσ x
  refine ⟨_, _, r1, ?_⟩
  have hpd := precision_posDef g1 hτ hσ one_pos
  have hcov : covAt (inCoordinates net A).fn w (targetPrecision (r * τ) (σ.getD 1) 1 (.full (Aᵀ * G * A))) x =
      covAt net.fn (A *ᵥ w) (targetPrecision τ (σ.getD 1) 1 (.full G)) x := by
    simp only [targetPrecision]
    refine covAt_coordinates net.fn i1 i2 w x ?_
    rw [precision_coordinates hA, congruent_inverse i1 i2]
  have hm : (inCoordinates net A).fn x w = net.fn x (A *ᵥ w) := rfl
  rw [hcov, hm] at r2
  exact r2

/-- **C84 (weights).** In the same situation, for every loss scaling `s`, the posterior covariance of the weights in the original coordinates is `A C' Aᵀ`, `C'` the one
of the new coordinates for the prior precision `c τ`: the same distribution of weights, written in other coordinates. -/
theorem C84_posterior {r : ℝ} (hA : IsSimilarity A r)
    (h : LaplaceCall lower points net.fn params (A *ᵥ w) data samples loss H curvType ct)
    (hwf' : WFTree params') (hw' : entries params' = List.ofFn w)
    (kind : EnumArg → LaplaceKind p) (hk : kind ct = .full) (numCurv numTotal : ℕ) (hN : numTotal ≠ 0) :
    ∃ posteriorFn est posteriorFn' est',
      laplace lower rows points net.fn params data (.name loss) curvType kind numCurv numTotal = .ok (posteriorFn, est) ∧
      laplace lower rows points (inCoordinates net A).fn params' data (.name loss) curvType kind numCurv numTotal = .ok (posteriorFn', est') ∧
      ∀ (τ : ℝ) (σ : Option ℝ), 0 < τ → 0 ≤ σ.getD 1 → ∀ s : ℝ, 0 < s →
        ∃ (post post' : Posterior p) (cov cov' : List (PyTree ℝ) → Except Err (PyTree ℝ)) (C C' : Matrix (Fin p) (Fin p) ℝ),
          posteriorFn ⟨some τ, σ⟩ s = .ok post ∧ post.covMv post.state = .ok cov ∧ ActsOnTrees params cov (fun v => C *ᵥ v) ∧
          posteriorFn' ⟨some (r * τ), σ⟩ s = .ok post' ∧ post'.covMv post'.state = .ok cov' ∧ ActsOnTrees params' cov' (fun v => C' *ᵥ v) ∧
          C = A * C' * Aᵀ := by
  have h' := laplaceCall_coordinates h hwf' hw'
  obtain ⟨i1, i2, -⟩ := similarity_inverse hA
  obtain ⟨G, g1, g1', e1, e2⟩ := laplace_coordinates lower rows points net A params params' w data samples loss H curvType ct i1 i2 h h' kind hk numCurv
    numTotal hN
  refine ⟨_, _, _, _, e1, e2, fun τ σ hτ hσ s hs => ?_⟩
  have hsz : numEntries params = p := by rw [← length_entries h.hwf, h.hθ, List.length_ofFn]
  have hsz' : numEntries params' = p := by rw [← length_entries h'.hwf, h'.hθ, List.length_ofFn]
  obtain ⟨post, cov, scale, a1, a2, -, R, -, a3, -⟩ := posterior_of_estimate params hsz h.hp (.full G) g1 ⟨some τ, σ⟩ τ rfl hτ hσ s hs
  obtain ⟨post', cov', scale', b1, b2, -, R', -, b3, -⟩ := posterior_of_estimate params' hsz' h'.hp (.full (Aᵀ * G * A)) g1' ⟨some (r * τ), σ⟩ (r * τ) rfl
    (mul_pos hA.1 hτ) hσ s hs
  refine ⟨post, post', cov, cov', _, _, a1, a2, a3, b1, b2, b3, ?_⟩
  simp only [targetPrecision]
  rw [precision_coordinates hA, congruent_inverse i1 i2]

/-- **C84 (only similarities).** For a model whose outputs see every direction of the parameter space (as the linear model `f(x, w) = x·w` on all inputs `x`), data
of any kind and any invertible change of coordinates `A`: the predictive in the new coordinates with prior precision `τ'` reports the variances of
the original one with `τ` for all inputs exactly if `A Aᵀ = (τ'/τ)·1`.  Any other change of coordinates changes the predictions, for every choice
of the new prior precision: the isotropic prior is a statement about the coordinates. -/
theorem C84_only_similarities {B : Matrix (Fin p) (Fin p) ℝ} (i1 : A * B = 1) (i2 : B * A = 1)
    (h : LaplaceCall lower points net.fn params (A *ᵥ w) data samples loss H curvType ct)
    (hwf' : WFTree params') (hw' : entries params' = List.ofFn w)
    (hsees : ∀ u : Vec p, ∃ x k, jacobian (net.fn x) (A *ᵥ w) k = u)
    (kind : EnumArg → LaplaceKind p) (hk : kind ct = .full) (numCurv numTotal : ℕ) (hN : numTotal ≠ 0)
    (pushforward predictive : EnumArg) (pr : String)
    (hpf : convertToEnum lower pushforwardValues false pushforward = .ok (.member "linear"))
    (hpr : convertToEnum lower predictiveValues false predictive = .ok (.member pr))
    (rng : Prng K) (hrng : RngOk rng) (custom : ℕ → PfStep X K p) (key : K) (S : ℕ) (hu : ApiUsable net.shape S pr) :
    ∃ posteriorFn est posteriorFn' est',
      laplace lower rows points net.fn params data (.name loss) curvType kind numCurv numTotal = .ok (posteriorFn, est) ∧
      laplace lower rows points (inCoordinates net A).fn params' data (.name loss) curvType kind numCurv numTotal = .ok (posteriorFn', est') ∧
      ∀ (τ τ' : ℝ) (σ : Option ℝ), 0 < τ → 0 < τ' → 0 ≤ σ.getD 1 →
        ((∀ x, ∃ m m' V, Reports lower pushforward predictive ⟨rng, net, params, posteriorFn, custom, key, S⟩ ⟨some τ, σ⟩ x m V ∧
          Reports lower pushforward predictive ⟨rng, inCoordinates net A, params', posteriorFn', custom, key, S⟩ ⟨some τ', σ⟩ x m' V) ↔
        A * Aᵀ = (τ' / τ) • (1 : Matrix (Fin p) (Fin p) ℝ)) := by
  have h' := laplaceCall_coordinates h hwf' hw'
  obtain ⟨G, g1, g1', e1, e2⟩ := laplace_coordinates lower rows points net A params params' w data samples loss H curvType ct i1 i2 h h' kind hk numCurv
    numTotal hN
  refine ⟨_, _, _, _, e1, e2, fun τ τ' σ hτ hτ' hσ => ?_⟩
  have r1 := fun x => reports (a := ⟨rng, net, params, fun q s => setPosteriorFn (.full G) (.tree params) q s, custom, key, S⟩)
    (⟨hpf, hpr, hrng, h.hp, h.hwf, h.hθ, g1, rfl, hu⟩ : ApiLinear lower pushforward predictive pr _ (A *ᵥ w) (.full G)) ⟨some τ, σ⟩ rfl hτ hσ x
  have r2 := fun x => reports (a := ⟨rng, inCoordinates net A, params', fun q s => setPosteriorFn (.full (Aᵀ * G * A)) (.tree params') q s, custom, key, S⟩)
    (⟨hpf, hpr, hrng, h.hp, h'.hwf, h'.hθ, g1', rfl, hu⟩ : ApiLinear lower pushforward predictive pr _ w (.full (Aᵀ * G * A))) ⟨some τ', σ⟩ rfl
    hτ' hσ x
  have hP := precision_posDef g1 hτ hσ one_pos
  have hP' := precision_posDef g1' hτ' hσ one_pos
  obtain ⟨P, hPe⟩ : ∃ P, P = precision G τ (σ.getD 1) 1 := ⟨_, rfl⟩
  obtain ⟨P', hPe'⟩ : ∃ P', P' = precision (Aᵀ * G * A) τ' (σ.getD 1) 1 := ⟨_, rfl⟩
  simp only [targetPrecision, ← hPe, ← hPe'] at r1 r2
  rw [← hPe] at hP
  rw [← hPe'] at hP'
  have hc1 : ∀ x k, covAt net.fn (A *ᵥ w) P x k k = jacobian (net.fn x) (A *ᵥ w) k ⬝ᵥ P⁻¹ *ᵥ jacobian (net.fn x) (A *ᵥ w) k :=
    fun x k => covAt_diag _ _ _ _ _
  have hc2 : ∀ x k, covAt (inCoordinates net A).fn w P' x k k =
      jacobian (net.fn x) (A *ᵥ w) k ⬝ᵥ (A * P'⁻¹ * Aᵀ) *ᵥ jacobian (net.fn x) (A *ᵥ w) k :=
    fun x k => covAt_coordinates_diag net.fn P' i1 i2 w x k
  constructor
  · intro hall
    have hquad : ∀ u : Vec p, u ⬝ᵥ P⁻¹ *ᵥ u = u ⬝ᵥ (A * P'⁻¹ * Aᵀ) *ᵥ u := by
      intro u
      obtain ⟨x, k, rfl⟩ := hsees u
      obtain ⟨m, m', V, s1, s2⟩ := hall x
      have v1 := one_report s1 (r1 x)
      have v2 := one_report s2 (r2 x)
      have e1 := hc1 x k
      have e2 := hc2 x k
      exact e1.symm.trans (((congrFun v1.2 k).symm.trans (congrFun v2.2 k)).trans e2)
    have hsP : (P⁻¹)ᵀ = P⁻¹ := by
      rw [← Matrix.conjTranspose_eq_transpose_of_trivial]; exact hP.inv.isHermitian.eq
    have hsP' : (P'⁻¹)ᵀ = P'⁻¹ := by
      rw [← Matrix.conjTranspose_eq_transpose_of_trivial]; exact hP'.inv.isHermitian.eq
    have heq : P⁻¹ = A * P'⁻¹ * Aᵀ := by
      refine symm_ext_quad hsP ?_ hquad
      rw [Matrix.transpose_mul, Matrix.transpose_mul, hsP', Matrix.transpose_transpose, Matrix.mul_assoc]
    -- hence `P' = Aᵀ P A`
    have hP'2 : P' = Aᵀ * P * A := by
      have hinvP : P = Bᵀ * P' * B := by
        have e : (A * P'⁻¹ * Aᵀ) * (Bᵀ * P' * B) = 1 := by
          have t : Aᵀ * Bᵀ = 1 := by rw [← Matrix.transpose_mul, i2, Matrix.transpose_one]
          calc (A * P'⁻¹ * Aᵀ) * (Bᵀ * P' * B) = A * (P'⁻¹ * ((Aᵀ * Bᵀ) * P')) * B := by simp only [Matrix.mul_assoc]
            _ = 1 := by rw [t, Matrix.one_mul, Matrix.nonsing_inv_mul _ hP'.det_pos.ne'.isUnit, Matrix.mul_one, i1]
        rw [← heq] at e
        have := Matrix.inv_eq_right_inv e
        rw [Matrix.nonsing_inv_nonsing_inv _ hP.det_pos.ne'.isUnit] at this
        exact this
      have t : Aᵀ * Bᵀ = 1 := by rw [← Matrix.transpose_mul, i2, Matrix.transpose_one]
      rw [hinvP]
      calc P' = (Aᵀ * Bᵀ) * P' * (B * A) := by rw [t, i2, Matrix.one_mul, Matrix.mul_one]
        _ = _ := by simp only [Matrix.mul_assoc]
    have hAA : τ' • (1 : Matrix (Fin p) (Fin p) ℝ) = τ • (Aᵀ * A) := by
      rw [hPe, hPe'] at hP'2
      unfold precision at hP'2
      rw [inv_one, one_smul, one_smul, Matrix.mul_add, Matrix.add_mul, Matrix.mul_smul, Matrix.smul_mul, Matrix.mul_smul, Matrix.smul_mul, Matrix.mul_one] at hP'2
      exact add_left_cancel hP'2
    have h3 : Aᵀ * A = (τ' / τ) • 1 := by
      have := congrArg (fun M => τ⁻¹ • M) hAA
      simp only [smul_smul, inv_mul_cancel₀ hτ.ne', one_smul] at this
      rw [← this, div_eq_inv_mul]
    have hc0 : τ' / τ ≠ 0 := (div_pos hτ' hτ).ne'
    have h4 : ((τ' / τ)⁻¹ • Aᵀ) * A = 1 := by rw [Matrix.smul_mul, h3, smul_smul, inv_mul_cancel₀ hc0, one_smul]
    have h5 : A * ((τ' / τ)⁻¹ • Aᵀ) = 1 := mul_eq_one_comm.1 h4
    rw [Matrix.mul_smul] at h5
    rw [← h5, smul_smul, mul_inv_cancel₀ hc0, one_smul]
  · intro hsim x
    have hA : IsSimilarity A (τ' / τ) := ⟨div_pos hτ' hτ, hsim⟩
    refine ⟨_, (inCoordinates net A).fn x w, _, r1 x, ?_⟩
    have hPP : P' = Aᵀ * P * A := by
      rw [hPe', hPe, ← precision_coordinates hA, div_mul_cancel₀ _ hτ.ne']
    have hcov : covAt (inCoordinates net A).fn w P' x = covAt net.fn (A *ᵥ w) P x :=
      covAt_coordinates net.fn i1 i2 w x (by rw [hPP, congruent_inverse i1 i2])
    have := r2 x
    rw [hcov] at this
    exact this

end

end Laplax.Props
