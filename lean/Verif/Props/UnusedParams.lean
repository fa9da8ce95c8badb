import Verif.Props.Unused
import Verif.Props.DataOrder

/-! # C70: parameters that the model does not use — the API level -/

namespace Laplax.Props
open Laplax Spec
open scoped BigOperators Matrix

variable {p q c : ℕ} {A X Y K : Type} {ι : Fin p → Fin q}

theorem laplace_reading (lower : String → String) (rows : A → Except Err (List A)) (points : PyObj A → PyObj A → Except Err (List (X × Y)))
    (net : Net X p) (hι : Function.Injective ι) (params params' : PyTree ℝ) (w : Vec q) (data : PyObj A) (samples : List (X × Y)) (loss : String)
    (H : Vec (shapeSize net.shape) → Vec (shapeSize net.shape) → Y → Vec (shapeSize net.shape)) (curvType ct : EnumArg)
    (h : LaplaceCall lower points net.fn params (w ∘ ι) data samples loss H curvType ct)
    (h' : LaplaceCall lower points (reading net ι).fn params' w data samples loss H curvType ct)
    (kind : EnumArg → LaplaceKind p) (kind' : EnumArg → LaplaceKind q) (hk : SameKind (kind ct) (kind' ct)) (numCurv numTotal : ℕ)
    (hN : numTotal ≠ 0) :
    ∃ est est', laplace lower rows points net.fn params data (.name loss) curvType kind numCurv numTotal =
        .ok (fun a s => setPosteriorFn est (.tree params) a s, est) ∧
      laplace lower rows points (reading net ι).fn params' data (.name loss) curvType kind' numCurv numTotal =
        .ok (fun a s => setPosteriorFn est' (.tree params') a s, est') ∧
      EstimatePsd est ∧ EstimatePsd est' ∧ curvOf est' = (readMat ι)ᵀ * curvOf est * readMat ι ∧
      (∀ r (t : LowRankTerms p r), est ≠ .lowRank t) ∧ ∀ r (t : LowRankTerms q r), est' ≠ .lowRank t := by
  obtain ⟨G, g1, g2, g3⟩ := C47_laplace_curvature lower rows points net.fn params (w ∘ ι) data samples loss H curvType ct h kind numCurv numTotal hN
  obtain ⟨G', g1', g2', g3'⟩ := C47_laplace_curvature lower rows points (reading net ι).fn params' w data samples loss H curvType ct h'
    kind' numCurv numTotal hN
  have hG : G' = (readMat ι)ᵀ * G * readMat ι := matrix_reading hι g2 g2'
  rcases hk with ⟨e, e'⟩ | ⟨e, e'⟩
  · exact ⟨.full G, .full G', by rw [g3, e]; rfl, by rw [g3', e']; rfl, g1, g1', hG, by simp, by simp⟩
  · refine ⟨.diagonal fun i => G i i, .diagonal fun i => G' i i, by rw [g3, e]; rfl, by rw [g3', e']; rfl, posSemidef_diag_nonneg g1,
      posSemidef_diag_nonneg g1', ?_, by simp, by simp⟩
    subst hG
    exact diag_reading hι G

theorem dense_posDef {est : CurvEstimate p} (he : EstimatePsd est) (hnl : ∀ r (t : LowRankTerms p r), est ≠ .lowRank t) {τ σ s : ℝ} (hτ : 0 < τ)
    (hσ : 0 ≤ σ) (hs : 0 < s) : (targetPrecision τ σ s est).PosDef := by
  rw [targetPrecision_dense est hnl]
  exact precision_posDef (curvOf_posSemidef he) hτ hσ hs

theorem precisions_reading {est : CurvEstimate p} {est' : CurvEstimate q} (he : EstimatePsd est) (he' : EstimatePsd est')
    (h6 : ∀ r (t : LowRankTerms p r), est ≠ .lowRank t) (h7 : ∀ r (t : LowRankTerms q r), est' ≠ .lowRank t) {τ σ s : ℝ} (hτ : 0 < τ)
    (hσ : 0 ≤ σ) (hs : 0 < s) : IsUnit (targetPrecision τ σ s est).det ∧ IsUnit (targetPrecision τ σ s est').det :=
  ⟨(dense_posDef he h6 hτ hσ hs).det_pos.ne'.isUnit, (dense_posDef he' h7 hτ hσ hs).det_pos.ne'.isUnit⟩

/-- **C70 (posterior).** A model that uses only the parameters at the positions `ι` of its parameter vector, fitted with dense or
diagonal curvature, has for every prior precision `τ`, noise and loss scaling `s` a posterior in which every unused parameter is
uncorrelated with all others and has its prior variance `s/τ`, and in which the used parameters have the covariance of the posterior
of the model without the unused parameters. -/
theorem C70_posterior (lower : String → String) (rows : A → Except Err (List A)) (points : PyObj A → PyObj A → Except Err (List (X × Y)))
    (net : Net X p) (hι : Function.Injective ι) (params params' : PyTree ℝ) (w : Vec q) (data : PyObj A) (samples : List (X × Y)) (loss : String)
    (H : Vec (shapeSize net.shape) → Vec (shapeSize net.shape) → Y → Vec (shapeSize net.shape)) (curvType ct : EnumArg)
    (h : LaplaceCall lower points net.fn params (w ∘ ι) data samples loss H curvType ct)
    (h' : LaplaceCall lower points (reading net ι).fn params' w data samples loss H curvType ct)
    (kind : EnumArg → LaplaceKind p) (kind' : EnumArg → LaplaceKind q) (hk : SameKind (kind ct) (kind' ct)) (numCurv numTotal : ℕ)
    (hN : numTotal ≠ 0) :
    ∃ posteriorFn est posteriorFn' est',
      laplace lower rows points net.fn params data (.name loss) curvType kind numCurv numTotal = .ok (posteriorFn, est) ∧
      laplace lower rows points (reading net ι).fn params' data (.name loss) curvType kind' numCurv numTotal = .ok (posteriorFn', est') ∧
      ∀ (a : PriorArgs) (τ : ℝ), a.priorPrec = some τ → 0 < τ → 0 ≤ a.sigmaSquared.getD 1 → ∀ s : ℝ, 0 < s →
        ∃ (post : Posterior p) (post' : Posterior q) (cov cov' : List (PyTree ℝ) → Except Err (PyTree ℝ))
          (C : Matrix (Fin p) (Fin p) ℝ) (C' : Matrix (Fin q) (Fin q) ℝ),
          posteriorFn a s = .ok post ∧ post.covMv post.state = .ok cov ∧ ActsOnTrees params cov (fun v => C *ᵥ v) ∧
          posteriorFn' a s = .ok post' ∧ post'.covMv post'.state = .ok cov' ∧ ActsOnTrees params' cov' (fun v => C' *ᵥ v) ∧
          (∀ i j, C' (ι i) (ι j) = C i j) ∧
          ∀ j, Unused ι j → C' j j = s / τ ∧ ∀ k, k ≠ j → C' j k = 0 ∧ C' k j = 0 := by
  obtain ⟨est, est', e1, e2, e3, e4, e5, e6, e7⟩ := laplace_reading lower rows points net hι params params' w data samples loss H curvType ct h h' kind
    kind' hk numCurv numTotal hN
  refine ⟨_, est, _, est', e1, e2, fun a τ hτ hτ0 hσ s hs => ?_⟩
  have hsz : numEntries params = p := by rw [← length_entries h.hwf, h.hθ, List.length_ofFn]
  have hsz' : numEntries params' = q := by rw [← length_entries h'.hwf, h'.hθ, List.length_ofFn]
  obtain ⟨post, cov, scale, a1, a2, -, R, -, a3, -⟩ := posterior_of_estimate params hsz h.hp est e3 a τ hτ hτ0 hσ s hs
  obtain ⟨post', cov', scale', b1, b2, -, R', -, b3, -⟩ := posterior_of_estimate params' hsz' h'.hp est' e4 a τ hτ hτ0 hσ s hs
  refine ⟨post, post', cov, cov', _, _, a1, a2, a3, b1, b2, b3, ?_⟩
  obtain ⟨u1, u2⟩ := precisions_reading e3 e4 e6 e7 hτ0 hσ hs
  have hsym : ∀ j k, (targetPrecision τ (a.sigmaSquared.getD 1) s est')⁻¹ j k = (targetPrecision τ (a.sigmaSquared.getD 1) s est')⁻¹ k j := by
    have := (dense_posDef e4 e7 hτ0 hσ hs).inv.isHermitian
    rw [Matrix.IsHermitian, Matrix.conjTranspose_eq_transpose_of_trivial] at this
    intro j k
    exact (congrFun (congrFun this k) j)
  rw [targetPrecision_dense est e6] at u1 ⊢
  rw [targetPrecision_dense est' e7, e5] at u2 hsym ⊢
  obtain ⟨c1, c2⟩ := cov_reading hι hτ0 hs u1 u2
  have col : ∀ {n : ℕ} (M : Matrix (Fin n) (Fin n) ℝ) (j k : Fin n), M j k = (M *ᵥ Pi.single k 1) j := by
    intro n M j k; simp
  refine ⟨fun i j => ?_, fun j hj => ⟨?_, fun k hk => ?_⟩⟩
  · have hz : ∀ l, Unused ι l → (Pi.single (ι j) 1 : Vec q) l = 0 := fun l hl => by
      rw [Pi.single_apply, if_neg fun e => hl j e.symm]
    have hcomp : (Pi.single (ι j) 1 : Vec q) ∘ ι = Pi.single j 1 := by
      funext m
      simp only [Function.comp, Pi.single_apply, hι.eq_iff]
    have := (c2 _ hz).1
    rw [hcomp] at this
    exact (col _ _ _).trans ((congrFun this i).trans (col _ _ _).symm)
  · exact (col _ _ _).trans (by rw [c1 j hj]; simp)
  · have : (precision ((readMat ι)ᵀ * curvOf est * readMat ι) τ (a.sigmaSquared.getD 1) s)⁻¹ k j = 0 := by
      exact (col _ _ _).trans (by rw [c1 j hj]; simp [hk])
    exact ⟨by rw [hsym]; exact this, this⟩

theorem targetCov_reading (f : X → Vec p → Vec c) (hι : Function.Injective ι) (w : Vec q) {est : CurvEstimate p} {est' : CurvEstimate q}
    (he : EstimatePsd est) (he' : EstimatePsd est') (h5 : curvOf est' = (readMat ι)ᵀ * curvOf est * readMat ι)
    (h6 : ∀ r (t : LowRankTerms p r), est ≠ .lowRank t) (h7 : ∀ r (t : LowRankTerms q r), est' ≠ .lowRank t) {τ σ s : ℝ} (hτ : 0 < τ) (hσ : 0 ≤ σ)
    (hs : 0 < s) (x : X) :
    covAt (fun x w => f x (w ∘ ι)) w (targetPrecision τ σ s est') x = covAt f (w ∘ ι) (targetPrecision τ σ s est) x := by
  obtain ⟨u1, u2⟩ := precisions_reading he he' h6 h7 hτ hσ hs
  refine covAt_reading f hι w u1 u2 ?_ x
  rw [targetPrecision_dense est h6, targetPrecision_dense est' h7, h5]
  exact precision_reading hι _ _ _ _

/-- **C70 (predictive).** Parameters that the model does not use change no prediction: the linearised predictive reports the mean and the
variances of the model without them, for all prior arguments and inputs. -/
theorem C70_predictive (lower : String → String) (rows : A → Except Err (List A)) (points : PyObj A → PyObj A → Except Err (List (X × Y)))
    (net : Net X p) (hι : Function.Injective ι) (params params' : PyTree ℝ) (w : Vec q) (data : PyObj A) (samples : List (X × Y)) (loss : String)
    (H : Vec (shapeSize net.shape) → Vec (shapeSize net.shape) → Y → Vec (shapeSize net.shape)) (curvType ct : EnumArg)
    (h : LaplaceCall lower points net.fn params (w ∘ ι) data samples loss H curvType ct)
    (h' : LaplaceCall lower points (reading net ι).fn params' w data samples loss H curvType ct)
    (kind : EnumArg → LaplaceKind p) (kind' : EnumArg → LaplaceKind q) (hk : SameKind (kind ct) (kind' ct)) (numCurv numTotal : ℕ)
    (hN : numTotal ≠ 0) (pushforward predictive : EnumArg) (pr : String)
    (hpf : convertToEnum lower pushforwardValues false pushforward = .ok (.member "linear"))
    (hpr : convertToEnum lower predictiveValues false predictive = .ok (.member pr))
    (rng : Prng K) (hrng : RngOk rng) (custom : ℕ → PfStep X K p) (custom' : ℕ → PfStep X K q) (key : K) (S : ℕ) (hu : ApiUsable net.shape S pr) :
    ∃ posteriorFn est posteriorFn' est',
      laplace lower rows points net.fn params data (.name loss) curvType kind numCurv numTotal = .ok (posteriorFn, est) ∧
      laplace lower rows points (reading net ι).fn params' data (.name loss) curvType kind' numCurv numTotal = .ok (posteriorFn', est') ∧
      ∀ (prior : PriorArgs) (τ : ℝ), prior.priorPrec = some τ → 0 < τ → 0 ≤ prior.sigmaSquared.getD 1 → ∀ x, ∃ m V,
        Reports lower pushforward predictive ⟨rng, net, params, posteriorFn, custom, key, S⟩ prior x m V ∧
        Reports lower pushforward predictive ⟨rng, reading net ι, params', posteriorFn', custom', key, S⟩ prior x m V := by
  obtain ⟨est, est', e1, e2, e3, e4, e5, e6, e7⟩ := laplace_reading lower rows points net hι params params' w data samples loss H curvType ct h h' kind
    kind' hk numCurv numTotal hN
  refine ⟨_, est, _, est', e1, e2, fun prior τ hτ hτ0 hσ x => ?_⟩
  have r1 := reports (a := ⟨rng, net, params, fun q s => setPosteriorFn est (.tree params) q s, custom, key, S⟩)
    (⟨hpf, hpr, hrng, h.hp, h.hwf, h.hθ, e3, rfl, hu⟩ : ApiLinear lower pushforward predictive pr _ (w ∘ ι) est) prior hτ hτ0 hσ x
  have r2 := reports (a := ⟨rng, reading net ι, params', fun q s => setPosteriorFn est' (.tree params') q s, custom', key, S⟩)
    (⟨hpf, hpr, hrng, h'.hp, h'.hwf, h'.hθ, e4, rfl, hu⟩ : ApiLinear lower pushforward predictive pr _ w est') prior hτ hτ0 hσ x
  refine ⟨_, _, r1, ?_⟩
  have hv := targetCov_reading net.fn hι w e3 e4 e5 e6 e7 hτ0 hσ one_pos x
  simp only [reading] at r2
  rw [hv] at r2
  exact r2

/-- The log evidence of the two models. -/
theorem logEvidence_reading (hι : Function.Injective ι) (L : ℝ) (w : Vec q) (C : Matrix (Fin p) (Fin p) ℝ) {τ σ s : ℝ} (hτ : 0 < τ) (hs : 0 < s)
    (hP : 0 < (precision C τ σ s).det) :
    logEvidence (L + logPrior τ (List.ofFn w)) (precision ((readMat ι)ᵀ * C * readMat ι) τ σ s) =
      logEvidence (L + logPrior τ (List.ofFn (w ∘ ι))) (precision C τ σ s) - τ / 2 * unusedNorm2 ι w + (q - p) / 2 * Real.log s := by
  classical
  have hpq : p ≤ q := by simpa using Fintype.card_le_of_injective ι hι
  have hsum : ∑ j, w j ^ 2 = ∑ i, w (ι i) ^ 2 + unusedNorm2 ι w := by
    have e1 : ∑ i, w (ι i) ^ 2 = ∑ j, if Unused ι j then 0 else w j ^ 2 := by
      have h1 : ∑ j, (if Unused ι j then 0 else w j ^ 2) = ∑ j ∈ Finset.univ.image ι, w j ^ 2 := by
        rw [← Finset.sum_filter_add_sum_filter_not Finset.univ (fun j => Unused ι j)]
        rw [Finset.sum_eq_zero (fun j hj => if_pos (Finset.mem_filter.1 hj).2), zero_add]
        rw [Finset.sum_congr rfl (fun j hj => if_neg (Finset.mem_filter.1 hj).2)]
        refine Finset.sum_congr ?_ fun _ _ => rfl
        ext j
        simp [Unused]
      rw [h1, Finset.sum_image (fun a _ b _ e => hι e)]
    rw [e1, unusedNorm2, ← Finset.sum_add_distrib]
    refine Finset.sum_congr rfl fun j _ => ?_
    by_cases hj : Unused ι j <;> simp [hj]
  have hpi : (0 : ℝ) < (2 * Real.pi)⁻¹ := by positivity
  have hts : 0 < τ / s := div_pos hτ hs
  rw [logEvidence, logEvidence, Matrix.det_smul, Matrix.det_smul, det_reading hι C hτ hs, logPrior_eq τ hτ, logPrior_eq τ hτ, Fintype.card_fin,
    Fintype.card_fin, List.map_ofFn, List.map_ofFn, List.sum_ofFn, List.sum_ofFn, List.length_ofFn, List.length_ofFn]
  rw [Real.log_mul (pow_pos hpi _).ne' (mul_pos (pow_pos hts _) hP).ne', Real.log_mul (pow_pos hts _).ne' hP.ne',
    Real.log_mul (pow_pos hpi _).ne' hP.ne', Real.log_pow, Real.log_pow, Real.log_pow, Real.log_inv, Real.log_div hτ.ne' hs.ne']
  simp only [Function.comp]
  rw [hsum, Nat.cast_sub hpq]
  ring

/-- **C70 (evidence).** For a model that uses only the parameters at the positions `ι` and loss functions that agree at the given
parameters, `marginal_log_likelihood` with the curvature that `laplace` returns (dense or diagonal) is the one of the model without
the unused parameters minus `τ/2` times their squared norm plus `½ log s` for each of them. -/
theorem C70_evidence (lower : String → String) (rows : A → Except Err (List A))
    (points : PyObj A → PyObj A → Except Err (List (X × Y)))
    (net : Net X p) (hι : Function.Injective ι) (params params' : PyTree ℝ) (w : Vec q) (data : PyObj A) (samples : List (X × Y)) (loss : String)
    (H : Vec (shapeSize net.shape) → Vec (shapeSize net.shape) → Y → Vec (shapeSize net.shape)) (curvType ct : EnumArg)
    (h : LaplaceCall lower points net.fn params (w ∘ ι) data samples loss H curvType ct)
    (h' : LaplaceCall lower points (reading net ι).fn params' w data samples loss H curvType ct)
    (kind : EnumArg → LaplaceKind p) (kind' : EnumArg → LaplaceKind q) (hk : SameKind (kind ct) (kind' ct)) (numCurv numTotal : ℕ)
    (hN : numTotal ≠ 0) (fullFn fullFn' : PyTree ℝ → Except Err ℝ) (L : ℝ) (hl : fullFn params = .ok L) (hl' : fullFn' params' = .ok L) :
    ∃ posteriorFn est posteriorFn' est',
      laplace lower rows points net.fn params data (.name loss) curvType kind numCurv numTotal = .ok (posteriorFn, est) ∧
      laplace lower rows points (reading net ι).fn params' data (.name loss) curvType kind' numCurv numTotal = .ok (posteriorFn', est') ∧
      ∀ (a : MllArgs) (τ : ℝ), a.priorPrec = some τ → 0 < τ → 0 ≤ a.sigmaSquared.getD 1 → ∀ s : ℝ, 0 < s →
        ∃ lml, marginalLogLikelihood est a (.ok fullFn) params s = .ok lml ∧
          marginalLogLikelihood est' a (.ok fullFn') params' s =
            .ok (lml - τ / 2 * unusedNorm2 ι w + (q - p) / 2 * Real.log s) := by
  have side : ∀ {n : ℕ} (hn : 0 < n) (t : PyTree ℝ) (η : Vec n), WFTree t → entries t = List.ofFn η → t.leaves ≠ [] ∧ getSize t = n := by
    intro n hn t η hw hη
    have hsz : numEntries t = n := by rw [← length_entries hw, hη, List.length_ofFn]
    have hne : t.leaves ≠ [] := by
      intro h0
      have := congrArg List.length hη
      simp [entries, h0] at this; omega
    exact ⟨hne, by rw [← hsz]; exact (((C02_full_flatten t).2 hne).2 hw).symm.trans (length_entries hw)⟩
  obtain ⟨n1, n2⟩ := side h.hp params (w ∘ ι) h.hwf h.hθ
  obtain ⟨n1', n2'⟩ := side h'.hp params' w h'.hwf h'.hθ
  obtain ⟨est, est', e1, e2, e3, e4, e5, e6, e7⟩ := laplace_reading lower rows points net hι params params' w data samples loss H curvType ct h h' kind
    kind' hk numCurv numTotal hN
  refine ⟨_, est, _, est', e1, e2, fun a τ hτ hτ0 hσ s hs => ?_⟩
  have ev : ∀ {n : ℕ} (e : CurvEstimate n) (_ : EstimatePsd e) (_ : ∀ r (t : LowRankTerms n r), e ≠ .lowRank t) (ps : PyTree ℝ) (η : Vec n)
      (_ : WFTree ps) (_ : entries ps = List.ofFn η) (_ : ps.leaves ≠ []) (_ : getSize ps = n) (f : PyTree ℝ → Except Err ℝ) (_ : f ps = .ok L),
      marginalLogLikelihood e a (.ok f) ps s =
        .ok (logEvidence (-(L / (2 * a.sigma.getD 1)) + logPrior τ (List.ofFn η)) (precision (curvOf e) τ (a.sigmaSquared.getD 1) s)) := by
    intro n e hpsd hnl ps η hw hη hne hsz f hf
    have hJ := C34_joint f a ps hw hne τ hτ hτ0 L hf
    rw [hη] at hJ
    cases e with
    | full G =>
      obtain ⟨j, lml, k1, k2, k3, -⟩ := C34_full G hpsd a f ps hw hne hsz τ hτ hτ0 hσ s hs L hf
      rw [hJ] at k1
      rw [k2, k3, ← Except.ok.inj k1]; rfl
    | diagonal d =>
      obtain ⟨j, lml, k1, k2, k3, -⟩ := C34_diagonal d hpsd a f ps hw hne hsz τ hτ hτ0 hσ s hs L hf
      rw [hJ] at k1
      rw [k2, k3, ← Except.ok.inj k1]; rfl
    | lowRank t => exact absurd rfl (hnl _ t)
  refine ⟨_, ev est e3 e6 params (w ∘ ι) h.hwf h.hθ n1 n2 fullFn hl, ?_⟩
  rw [ev est' e4 e7 params' w h'.hwf h'.hθ n1' n2' fullFn' hl', e5, logEvidence_reading hι _ w (curvOf est) hτ0 hs]
  have := (dense_posDef e3 e6 hτ0 hσ hs).det_pos
  rwa [targetPrecision_dense est e6] at this

end Laplax.Props
