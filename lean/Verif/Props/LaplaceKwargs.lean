import Verif.Model.LaplaceKwargs
import Verif.Props.LaplaceLoss
import Verif.Props.LowRank

/-! # C59: keyword arguments of `laplace` -/

namespace Laplax.Props
open Laplax Spec
open scoped BigOperators Matrix

variable {p c : ℕ} {A X Y Key : Type}

/-- The estimation selected inside `laplace` is `create_low_rank_curvature` on the curvature matrix. -/
theorem lowRankKind_run (E : LowRankExt Key) (kws : CurvKwargs Key) (hA : "A" ∉ kws.others) (m : String) (G : Mat p p) (hp : 0 < p) :
    (∃ e, createLowRankCurvature E (.array (denseArr G)) .none kws.kw m = .error e ∧
      estimateOf G (lowRankKind E kws m) = .error e) ∨
    ∃ (r : ℕ) (t : LowRankTerms p r), createLowRankCurvature E (.array (denseArr G)) .none kws.kw m = .ok ⟨p, r, t⟩ ∧
      estimateOf G (lowRankKind E kws m) = .ok (.lowRank t) := by
  obtain ⟨op, h1, h2⟩ := getMatvecOp_form G hp _ _ (IsOperator.matrix .none)
  by_cases hm : m = "lanczos"
  · subst hm
    simp only [createLowRankCurvature, if_true, lanczosDriver, h1, ok_bind, lowRankKind, hA, if_false]
    cases lanczosStart E kws.kw p with
    | error e => exact .inl ⟨e, rfl, rfl⟩
    | ok b =>
      simp only [ok_bind, runPy_eq _ G h2, estimateOf]
      cases runAlg G (lanczosAlg kws.kw.rank E.kernels.eigh b kws.kw.tol kws.kw.fullReorth) with
      | error e => exact .inl ⟨e, rfl, rfl⟩
      | ok t => exact .inr ⟨_, t, rfl, rfl⟩
  · by_cases hm' : m = "lobpcg"
    · subst hm'
      simp only [createLowRankCurvature, if_neg hm, if_true, lobpcgDriver, h1, ok_bind, lowRankKind, hA, if_false]
      by_cases hk : lobpcgRank p kws.kw.rank = 0
      · simp only [hk, dif_pos]
        exact .inl ⟨_, rfl, rfl⟩
      · simp only [hk, dif_neg, not_false_eq_true, runPy_eq _ G h2, estimateOf]
        haveI : NeZero (lobpcgRank p kws.kw.rank) := ⟨hk⟩
        generalize halg : (if kws.kw.mvJit then E.jaxLobpcg (E.normalMat (kws.kw.key.getD E.key0) p (lobpcgRank p kws.kw.rank)) kws.kw.tol
          else lobpcgAlg E.kernels E.eps (E.normalMat (kws.kw.key.getD E.key0) p (lobpcgRank p kws.kw.rank)) kws.kw.tol) = alg
        cases runAlg G alg with
        | error e => exact .inl ⟨e, rfl, rfl⟩
        | ok t => exact .inr ⟨_, t, rfl, rfl⟩
    · simp only [createLowRankCurvature, if_neg hm, if_neg hm', lowRankKind]
      exact .inl ⟨_, rfl, rfl⟩

section
variable (E : LowRankExt Key) (jit : Bool) (lower : String → String) (rows : A → Except Err (List A))
    (points : PyObj A → PyObj A → Except Err (List (X × Y))) (model : X → Vec p → Vec c)
    (bmodel : PyObj A → Except Err (Σ B : ℕ, Vec p → Fin B → Vec c)) (params : PyTree ℝ) (θ : Vec p) (data : PyObj A)
    (ps : List (PyObj A × PyObj A)) (decode : PyObj A × PyObj A → List (X × Y)) (h : ReadableData points params θ data ps decode)
    (hd : ∀ s ∈ ps.flatMap decode, DifferentiableAt ℝ (model s.1) θ)
    (lossFn : LossObj c Y (PyObj A)) (H : Vec c → Vec c → Y → Vec c) (hH : createLossHessianMv lossFn.perSample = .ok H)
    (numCurv numTotal : ℕ) (hN : numTotal ≠ 0)

include h hd hH hN in
/-- What `laplace` computes for any loss and any estimation: the estimate for the matrix `factor · Σ Jᵀ H J`. -/
theorem laplaceWith_matrix (curvType ct : EnumArg) (hct : convertToEnum lower curvApproxValues false curvType = .ok ct) :
    ∃ G : Mat p p, (∀ v, G *ᵥ v = ((numCurv : ℝ) / numTotal) • ggnSamples model θ H (ps.flatMap decode) v) ∧
      ∀ kind : EnumArg → LaplaceKind p,
        laplaceWith ⟨true, jit⟩ lower rows points model bmodel params data lossFn curvType kind numCurv numTotal =
          (estimateOf G (kind ct)).map (fun est => (fun a s => setPosteriorFn est (.tree params) a s, est)) := by
  have hsz : numEntries params = p := by rw [← length_entries h.hwf, h.hθ, List.length_ofFn]
  let f : PyObj A × PyObj A → Vec p →ₗ[ℝ] Vec p := fun xy => ggnLin model θ H (lossHess_lin hH) ((numCurv : ℝ) / numTotal) (decode xy)
  have hmv : ∀ xy ∈ ps, ∀ x t, IsTree params x t →
      ∃ w, ggnTreeMv points model params H ((numCurv : ℝ) / numTotal) t xy.1 xy.2 = .ok w ∧ IsTree params (f xy x) w := fun xy hxy x t ht =>
    ggnTreeMv_lin points model params h.hp hsz θ h.hθ H (lossHess_lin hH) _ _ _ _ (h.hdec xy hxy) x t ht
  refine ⟨LinearMap.toMatrix' (ps.map f).sum, fun v => ?_, fun kind => ?_⟩
  · rw [← Matrix.toLin'_apply, Matrix.toLin'_toMatrix']
    exact sum_ggnLin model θ H (lossHess_lin hH) _ decode ps hd v
  · exact laplaceWith_generic ⟨true, jit⟩ lower rows points model bmodel params h.hp h.hwf θ h.hθ data ps h.hdata lossFn curvType ct hct
      kind numCurv numTotal hN _ (by simp only [ggnTreeProduct, hH, ok_bind]; rfl) f hmv

include h hd hH hN in
/-- **C59 (keywords reach the low-rank estimation).** For every model, loss, data set and batching: `laplace` with curvature type
LANCZOS or LOBPCG and any keyword arguments returns exactly what `create_low_rank_curvature` returns for the matrix
`num_curv/num_total · Σ Jᵀ H J` with the same keyword arguments and the method of `low_rank_method` — or, if that keyword is
absent, of the curvature type — including its exceptions. -/
theorem C59_low_rank_keywords (curvType : EnumArg) (name : String) (hname : name = "lanczos" ∨ name = "lobpcg")
    (hct : convertToEnum lower curvApproxValues false curvType = .ok (.member name)) (kws : CurvKwargs Key)
    (hres : ∀ s ∈ ["mv", "layout", "A", "curv_estimate"], s ∉ kws.others) :
    ∃ G : Mat p p, (∀ v, G *ᵥ v = ((numCurv : ℝ) / numTotal) • ggnSamples model θ H (ps.flatMap decode) v) ∧
      ((∃ e, createLowRankCurvature E (.array (denseArr G)) .none kws.kw (kws.method.getD name) = .error e ∧
        laplaceKw E ⟨true, jit⟩ lower rows points model bmodel params data lossFn curvType numCurv numTotal kws = .error e) ∨
      ∃ (r : ℕ) (t : LowRankTerms p r),
        createLowRankCurvature E (.array (denseArr G)) .none kws.kw (kws.method.getD name) = .ok ⟨p, r, t⟩ ∧
        laplaceKw E ⟨true, jit⟩ lower rows points model bmodel params data lossFn curvType numCurv numTotal kws =
          .ok (fun a s => setPosteriorFn (.lowRank t) (.tree params) a s, .lowRank t)) := by
  obtain ⟨G, hG, hL⟩ := laplaceWith_matrix jit lower rows points model bmodel params θ data ps decode h hd lossFn H hH numCurv numTotal hN
    curvType _ hct
  have h1 := hres "mv" (by simp)
  have h2 := hres "layout" (by simp)
  have h3 := hres "A" (by simp)
  have h4 := hres "curv_estimate" (by simp)
  have hk : (kindOfKwargs E kws (.member name) : LaplaceKind p) = lowRankKind E kws (kws.method.getD name) := by
    rcases hname with rfl | rfl <;> simp [kindOfKwargs, h1, h2]
  refine ⟨G, hG, ?_⟩
  rcases lowRankKind_run E kws h3 (kws.method.getD name) G h.hp with ⟨e, he1, he2⟩ | ⟨r, t, he1, he2⟩
  · refine .inl ⟨e, he1, ?_⟩
    simp only [laplaceKw, hL, hk, he2, Except.map, error_bind]
  · refine .inr ⟨r, t, he1, ?_⟩
    simp only [laplaceKw, hL, hk, he2, Except.map, ok_bind, h4, if_false]
    rfl

include h hd hH hN in
/-- **C59 (FULL and DIAGONAL take no keywords).** The keyword arguments — including the rank, the key and `low_rank_method` — do not
change the full matrix and the diagonal. -/
theorem C59_full_and_diagonal_ignore_keywords (curvType : EnumArg) (name : String) (hname : name = "full" ∨ name = "diagonal")
    (hct : convertToEnum lower curvApproxValues false curvType = .ok (.member name)) (kws : CurvKwargs Key)
    (hres : ∀ s ∈ ["mv", "layout", "curv_estimate"], s ∉ kws.others) :
    ∃ G : Mat p p, (∀ v, G *ᵥ v = ((numCurv : ℝ) / numTotal) • ggnSamples model θ H (ps.flatMap decode) v) ∧
      laplaceKw E ⟨true, jit⟩ lower rows points model bmodel params data lossFn curvType numCurv numTotal kws =
        if name = "full" then .ok (fun a s => setPosteriorFn (.full G) (.tree params) a s, .full G)
        else .ok (fun a s => setPosteriorFn (.diagonal fun i => G i i) (.tree params) a s, .diagonal fun i => G i i) := by
  obtain ⟨G, hG, hL⟩ := laplaceWith_matrix jit lower rows points model bmodel params θ data ps decode h hd lossFn H hH numCurv numTotal hN
    curvType _ hct
  have h1 := hres "mv" (by simp)
  have h2 := hres "layout" (by simp)
  have h4 := hres "curv_estimate" (by simp)
  refine ⟨G, hG, ?_⟩
  rcases hname with rfl | rfl
  · have hk : (kindOfKwargs E kws (.member "full") : LaplaceKind p) = .full := by simp [kindOfKwargs, h1, h2]
    simp only [laplaceKw, hL, hk, estimateOf, Except.map, ok_bind, h4, if_false, if_true]
    rfl
  · have hk : (kindOfKwargs E kws (.member "diagonal") : LaplaceKind p) = .diagonal := by simp [kindOfKwargs, h1, h2]
    simp only [laplaceKw, hL, hk, estimateOf, Except.map, ok_bind, h4, if_false, if_neg (show ¬ ("diagonal" = "full") by decide)]
    rfl

include h hd hH hN in
/-- **C59 (reserved names).** The keywords `mv`, `layout` and (after the estimation has run) `curv_estimate` make every call raise
`TypeError`; so does `A` for the low-rank curvature types with a known method. -/
theorem C59_reserved_keywords (curvType ct : EnumArg) (hct : convertToEnum lower curvApproxValues false curvType = .ok ct)
    (kws : CurvKwargs Key) :
    (("mv" ∈ kws.others ∨ "layout" ∈ kws.others) →
      laplaceKw E ⟨true, jit⟩ lower rows points model bmodel params data lossFn curvType numCurv numTotal kws = .error .typeError) ∧
    ("curv_estimate" ∈ kws.others →
      Raises (laplaceKw E ⟨true, jit⟩ lower rows points model bmodel params data lossFn curvType numCurv numTotal kws)) ∧
    ("A" ∈ kws.others → (ct = .member "lanczos" ∨ ct = .member "lobpcg") → (∀ m ∈ kws.method, m = "lanczos" ∨ m = "lobpcg") →
      laplaceKw E ⟨true, jit⟩ lower rows points model bmodel params data lossFn curvType numCurv numTotal kws = .error .typeError) := by
  obtain ⟨G, hG, hL⟩ := laplaceWith_matrix jit lower rows points model bmodel params θ data ps decode h hd lossFn H hH numCurv numTotal hN
    curvType _ hct
  have hres : (kindOfKwargs E kws ct : LaplaceKind p) = .lowRank 0 (.done (.error .typeError)) →
      laplaceKw E ⟨true, jit⟩ lower rows points model bmodel params data lossFn curvType numCurv numTotal kws = .error .typeError := by
    intro hk
    simp only [laplaceKw, hL, hk, estimateOf, runAlg, Except.map, error_bind]
  refine ⟨fun hr => hres ?_, fun hr => ?_, fun hA hc hm => ?_⟩
  · simp only [kindOfKwargs, hr, if_true]
  · simp only [laplaceKw, hL]
    cases estimateOf G (kindOfKwargs E kws ct) with
    | error e => exact ⟨e, rfl⟩
    | ok est => exact ⟨.typeError, by simp [Except.map, ok_bind, hr]⟩
  · by_cases hr : "mv" ∈ kws.others ∨ "layout" ∈ kws.others
    · exact hres (by simp only [kindOfKwargs, hr, if_true])
    · refine hres ?_
      have hl : ∀ d, d = "lanczos" ∨ d = "lobpcg" →
          (lowRankKind E kws (kws.method.getD d) : LaplaceKind p) = .lowRank 0 (.done (.error .typeError)) := by
        intro d hdd
        have : kws.method.getD d = "lanczos" ∨ kws.method.getD d = "lobpcg" := by
          cases hmm : kws.method with
          | none => exact hdd
          | some m => exact hm m (by simp [hmm])
        rcases this with e | e <;> simp [lowRankKind, e, hA]
      rcases hc with rfl | rfl
      · simpa [kindOfKwargs, hr] using hl "lanczos" (.inl rfl)
      · simpa [kindOfKwargs, hr] using hl "lobpcg" (.inr rfl)

include h hd hH hN in
/-- **C59 (Lanczos needs a start).** Without `key` and `b` — in particular with no keyword arguments at all — `laplace` with
curvature type LANCZOS raises `ValueError`; LOBPCG uses a fixed key instead. -/
theorem C59_lanczos_needs_key (curvType : EnumArg) (hct : convertToEnum lower curvApproxValues false curvType = .ok (.member "lanczos"))
    (kws : CurvKwargs Key) (hm : kws.method = none) (hk : kws.kw.key = none) (hb : kws.kw.b = none)
    (hres : ∀ s ∈ ["mv", "layout", "A", "curv_estimate"], s ∉ kws.others) :
    laplaceKw E ⟨true, jit⟩ lower rows points model bmodel params data lossFn curvType numCurv numTotal kws = .error .valueError := by
  obtain ⟨G, -, hG⟩ := C59_low_rank_keywords E jit lower rows points model bmodel params θ data ps decode h hd lossFn H hH numCurv
    numTotal hN curvType "lanczos" (.inl rfl) hct kws hres
  have he := (C49_lanczos E G h.hp _ _ (IsOperator.matrix .none) kws.kw).2.1 hb hk
  rw [hm] at hG
  simp only [Option.getD_none, he] at hG
  rcases hG with ⟨e, he1, he2⟩ | ⟨r, t, he1, -⟩
  · obtain rfl : Err.valueError = e := by injection he1
    exact he2
  · simp at he1

include h hd hH hN in
/-- **C59 (`low_rank_method` wins over the curvature type).** LOBPCG with `low_rank_method="lanczos"` is LANCZOS with the same
keywords, and conversely. -/
theorem C59_method_overrides_type (ct1 ct2 : EnumArg) (h1 : convertToEnum lower curvApproxValues false ct1 = .ok (.member "lanczos"))
    (h2 : convertToEnum lower curvApproxValues false ct2 = .ok (.member "lobpcg")) (kws : CurvKwargs Key) (m : String)
    (hm : kws.method = some m) :
    laplaceKw E ⟨true, jit⟩ lower rows points model bmodel params data lossFn ct1 numCurv numTotal kws =
      laplaceKw E ⟨true, jit⟩ lower rows points model bmodel params data lossFn ct2 numCurv numTotal kws := by
  obtain ⟨G, hG, hL⟩ := laplaceWith_matrix jit lower rows points model bmodel params θ data ps decode h hd lossFn H hH numCurv numTotal hN
    ct1 _ h1
  obtain ⟨G', hG', hL'⟩ := laplaceWith_matrix jit lower rows points model bmodel params θ data ps decode h hd lossFn H hH numCurv numTotal hN
    ct2 _ h2
  obtain rfl : G = G' := by
    apply Matrix.toLin'.injective
    apply LinearMap.ext; intro v
    rw [Matrix.toLin'_apply, Matrix.toLin'_apply, hG, hG']
  have : (kindOfKwargs E kws (.member "lanczos") : LaplaceKind p) = kindOfKwargs E kws (.member "lobpcg") := by
    by_cases hr : "mv" ∈ kws.others ∨ "layout" ∈ kws.others
    · simp only [kindOfKwargs, hr, if_true]
    · simp [kindOfKwargs, hr, hm]
  simp only [laplaceKw, hL, hL', this]

end

/-- **C59 (LOBPCG, end to end).** `laplace` with curvature type LOBPCG, `mv_jit=False` and a named loss, on any model, data and
batching: if the starting block is well conditioned, no search direction vanishes and there are more than five times as many
parameters as the (adjusted) rank `k`, the estimate has orthonormal `U`, non-increasing `S ≥ 0` and `U diag(S) Uᵀ = Pr G Pr` with
`Pr = U Uᵀ`, and the products of the posterior act on parameter pytrees as the covariance, and a square root of it, of the Gaussian
with precision `(τ/s) I + σ² Pr G Pr`. -/
theorem C59_lobpcg_posterior (E : LowRankExt Key) (hE : GoodKernels E.kernels) (jit : Bool) (lower : String → String)
    (rows : A → Except Err (List A)) (points : PyObj A → PyObj A → Except Err (List (X × Y))) (model : X → Vec p → Vec c)
    (bmodel : PyObj A → Except Err (Σ B : ℕ, Vec p → Fin B → Vec c)) (params : PyTree ℝ) (θ : Vec p) (data : PyObj A)
    (ps : List (PyObj A × PyObj A)) (decode : PyObj A × PyObj A → List (X × Y)) (h : ReadableData points params θ data ps decode)
    (hd : ∀ s ∈ ps.flatMap decode, DifferentiableAt ℝ (model s.1) θ) (loss : String) (H : Vec c → Vec c → Y → Vec c)
    (hH : createLossHessianMv (.name loss) = .ok H) (numCurv numTotal : ℕ) (hN : numTotal ≠ 0) (curvType : EnumArg)
    (hct : convertToEnum lower curvApproxValues false curvType = .ok (.member "lobpcg")) (kws : CurvKwargs Key)
    (hm : kws.method = none) (hj : kws.kw.mvJit = false) (hres : ∀ s ∈ ["mv", "layout", "A", "curv_estimate"], s ∉ kws.others)
    (G : Mat p p) (hG : ∀ v, G *ᵥ v = ((numCurv : ℝ) / numTotal) • ggnSamples model θ H (ps.flatMap decode) v)
    (k : ℕ) [NeZero k] (hk : k = lobpcgRank p kws.kw.rank) (hkp : k * 5 < p) (X0 : Mat p k)
    (hX0 : X0 = E.normalMat (kws.kw.key.getD E.key0) p k) (h0 : OrthonormalCols (orthonormalize E.kernels E.eps X0))
    (hR : ∀ l < k, ∀ j, ∃ r, searchBlock E.kernels E.eps (lobpcgIter E.kernels E.eps G kws.kw.tol X0 l) r j ≠ 0)
    (a : PriorArgs) (τ : ℝ) (hτ : a.priorPrec = some τ) (hτ0 : 0 < τ) (hσ : 0 ≤ a.sigmaSquared.getD 1) (s : ℝ) (hs : 0 < s) :
    ∃ (t : LowRankTerms p k) (posteriorFn : PriorArgs → ℝ → Except Err (Posterior p)),
      laplaceKw E ⟨true, jit⟩ lower rows points model bmodel params data (.name loss) curvType numCurv numTotal kws =
        .ok (posteriorFn, .lowRank t) ∧
      t.Uᵀ * t.U = 1 ∧ Antitone t.S ∧ (∀ j, 0 ≤ t.S j) ∧
      ∃ post cov scale, posteriorFn a s = .ok post ∧ post.covMv post.state = .ok cov ∧ post.scaleMv post.state = .ok scale ∧
        ∃ P R : Mat p p, P = (τ / s) • (1 : Mat p p) + a.sigmaSquared.getD 1 • ((t.U * t.Uᵀ) * G * (t.U * t.Uᵀ)) ∧ P * P⁻¹ = 1 ∧
          R * Rᵀ = P⁻¹ ∧ ActsOnTrees params cov (fun v => P⁻¹ *ᵥ v) ∧ ActsOnTrees params scale (fun v => R *ᵥ v) := by
  have hsz : numEntries params = p := by rw [← length_entries h.hwf, h.hθ, List.length_ofFn]
  obtain ⟨G', hG', hrun⟩ := C59_low_rank_keywords E jit lower rows points model bmodel params θ data ps decode h hd (.name loss) H hH
    numCurv numTotal hN curvType "lobpcg" (.inr rfl) hct kws hres
  obtain rfl : G' = G := by
    apply Matrix.toLin'.injective
    apply LinearMap.ext; intro v
    rw [Matrix.toLin'_apply, Matrix.toLin'_apply, hG, hG']
  have hgood := goodLossHess_named loss H hH
  have hGm : G' = ggnMatrix model θ H hgood ((numCurv : ℝ) / numTotal) (ps.flatMap decode) := by
    apply Matrix.toLin'.injective
    apply LinearMap.ext; intro v
    rw [Matrix.toLin'_apply, Matrix.toLin'_apply, hG, ggnMatrix_mulVec]
  have hpsd : G'.PosSemidef := by rw [hGm]; exact ggnMatrix_posSemidef model θ H hgood _ (by positivity) _ hd
  have hsym : G'ᵀ = G' := by
    have := hpsd.1
    rwa [Matrix.IsHermitian, Matrix.conjTranspose_eq_transpose_of_trivial] at this
  subst hk hX0
  obtain ⟨T, hT, t1, -, t3, t4, t5, -⟩ := C48_low_rank_terms E.kernels hE E.eps G' hsym _ kws.kw.tol hkp h0 hR
  have t5' := t5 fun v => by simpa using hpsd.dotProduct_mulVec_nonneg v
  have hc := (C49_lobpcg E G' h.hp _ _ (IsOperator.matrix .none) kws.kw hj _ rfl).2 inferInstance
  rw [hT] at hc
  rw [hm] at hrun
  simp only [Option.getD_none, hc, Except.map] at hrun
  rcases hrun with ⟨e, he, -⟩ | ⟨r, t, he1, he2⟩
  · simp at he
  · simp only [Except.ok.injEq, Sigma.mk.injEq, heq_eq_eq, true_and] at he1
    obtain ⟨rfl, he1⟩ := he1
    obtain rfl : T = t := eq_of_heq he1
    refine ⟨T, _, he2, t1, t4, t5', ?_⟩
    obtain ⟨post, cov, scale, q1, q2, q3, R, ⟨q4, q5, -, R', q6, q7⟩, q8, q9⟩ := posterior_of_estimate params hsz h.hp (.lowRank T)
      (show EstimatePsd (.lowRank T) from ⟨t1, t5'⟩) a τ hτ hτ0 hσ s hs
    refine ⟨post, cov, scale, q1, q2, q3, _, R, rfl, ?_, ?_, ?_, ?_⟩
    · rw [← t3]; exact q4
    · obtain rfl : R = R' := by
        apply Matrix.toLin'.injective
        apply LinearMap.ext; intro v
        rw [Matrix.toLin'_apply, Matrix.toLin'_apply]
        exact q6 v
      rw [← t3]; exact q7
    · rw [← t3]; exact q8
    · exact q9

/-! ### Non-vacuity: a two-parameter linear model on two batches of two samples -/

theorem wDiff (c : ℕ) : ∀ s ∈ wPs.flatMap wDecode, DifferentiableAt ℝ (wModel c s.1) ![(2 : ℝ), 3] := by
  intro s _
  unfold wModel
  fun_prop

/-- `C59_lanczos_needs_key`: the plain call `laplace(..., curv_type="lanczos")`. -/
example (E : LowRankExt Key) : laplaceKw E ⟨true, true⟩ (fun s => s) (fun _ => .error .typeError) wPoints (wModel 1) (wBatchModel 1)
    wParams (.iter (.reiterable [.tup [.arr [1, 2], .arr [5, 6]], .tup [.arr [3, 4], .arr [7, 8]]])) (.name "mse") (.str "lanczos")
    4 4 {} = .error .valueError :=
  C59_lanczos_needs_key E true _ _ _ _ _ _ _ _ _ _ wReadable (wDiff 1) (.name "mse") _ rfl 4 4 (by norm_num) _ rfl {} rfl rfl rfl
    (by simp)

/-- `C59_low_rank_keywords` and `C59_method_overrides_type`: a call with a key, a rank and `low_rank_method="lanczos"`, and an extra
keyword that is ignored. -/
example (E : LowRankExt ℕ) : ∃ kws : CurvKwargs ℕ, kws.method = some "lanczos" ∧ kws.kw.key = some 7 ∧ kws.kw.rank = 1 ∧
    kws.others = ["chunk_size"] ∧ (∀ s ∈ ["mv", "layout", "A", "curv_estimate"], s ∉ kws.others) ∧
    laplaceKw E ⟨true, true⟩ (fun s => s) (fun _ => .error .typeError) wPoints (wModel 1) (wBatchModel 1)
      wParams (.iter (.reiterable [.tup [.arr [1, 2], .arr [5, 6]], .tup [.arr [3, 4], .arr [7, 8]]])) (.name "mse") (.str "lanczos")
      4 4 kws =
    laplaceKw E ⟨true, true⟩ (fun s => s) (fun _ => .error .typeError) wPoints (wModel 1) (wBatchModel 1)
      wParams (.iter (.reiterable [.tup [.arr [1, 2], .arr [5, 6]], .tup [.arr [3, 4], .arr [7, 8]]])) (.name "mse") (.str "lobpcg")
      4 4 kws := by
  refine ⟨⟨some "lanczos", { key := some 7, rank := 1 }, ["chunk_size"]⟩, rfl, rfl, rfl, rfl, by simp, ?_⟩
  exact C59_method_overrides_type E true _ _ _ _ _ _ _ _ _ _ wReadable (wDiff 1) (.name "mse") _ rfl 4 4 (by norm_num) _ _ rfl rfl _ _ rfl

/-- `C59_reserved_keywords`. -/
example (E : LowRankExt Key) : laplaceKw E ⟨true, true⟩ (fun s => s) (fun _ => .error .typeError) wPoints (wModel 1) (wBatchModel 1)
    wParams (.iter (.reiterable [.tup [.arr [1, 2], .arr [5, 6]], .tup [.arr [3, 4], .arr [7, 8]]])) (.name "mse") (.str "full")
    4 4 { others := ["layout"] } = .error .typeError :=
  (C59_reserved_keywords E true _ _ _ _ _ _ _ _ _ _ wReadable (wDiff 1) (.name "mse") _ rfl 4 4 (by norm_num) _ _ rfl _).1 (by simp)

/-- A linear model with six parameters, two of which matter. -/
def vModel : ℝ → Vec 6 → Vec 1 := fun x t _ => t 0 + x * t 2

def vRow (x : ℝ) : Matrix (Fin 1) (Fin 6) ℝ := Matrix.of fun _ j => if j = 0 then 1 else if j = 2 then x else 0

theorem vModel_jacobian (x : ℝ) (θ : Vec 6) : jacobian (vModel x) θ = vRow x := by
  have h : vModel x = fun t => vRow x *ᵥ t := by
    funext t k
    simp [vModel, vRow, Matrix.mulVec, dotProduct, Fin.sum_univ_succ]
  have h' : HasFDerivAt (vModel x) (LinearMap.toContinuousLinearMap (Matrix.toLin' (vRow x))) θ := by
    rw [h]
    exact (LinearMap.toContinuousLinearMap (Matrix.toLin' (vRow x))).hasFDerivAt
  ext k j
  simp [jacobian, h'.fderiv]

def vParams : PyTree ℝ := .leaf ⟨[6], [0, 0, 0, 0, 0, 0]⟩

theorem vReadable : ReadableData wPoints vParams (0 : Vec 6)
    (.iter (.reiterable [.tup [.arr [1, 2], .arr [5, 6]], .tup [.arr [3, 4], .arr [7, 8]]])) wPs wDecode where
  hp := by norm_num
  hwf := by
    intro a ha
    simp [vParams, Tree.leaves] at ha
    subst ha; rfl
  hθ := by simp [vParams, entries, Tree.leaves, List.ofFn_succ]
  hdata := DataOf.pairs wPs (by simp [wPs])
  hdec := by intro xy hxy; simp [wPs] at hxy; rcases hxy with rfl | rfl <;> rfl

/-- `C59_lobpcg_posterior` applies, for all admissible kernels, to `laplace(..., curv_type="lobpcg", rank=1, mv_jit=False)` on a
six-parameter model. -/
example (K : Kernels) (hK : GoodKernels K) (bm : PyObj (List ℝ) → Except Err (Σ B : ℕ, Vec 6 → Fin B → Vec 1)) :
    ∃ (E : LowRankExt Unit) (t : LowRankTerms 6 1) (posteriorFn : PriorArgs → ℝ → Except Err (Posterior 6)), E.kernels = K ∧
      laplaceKw E ⟨true, true⟩ (fun s => s) (fun _ => .error .typeError) wPoints vModel bm vParams
        (.iter (.reiterable [.tup [.arr [1, 2], .arr [5, 6]], .tup [.arr [3, 4], .arr [7, 8]]])) (.name "mse") (.str "lobpcg") 4 4
        { kw := { rank := 1, mvJit := false } } = .ok (posteriorFn, .lowRank t) ∧ t.Uᵀ * t.U = 1 := by
  let E : LowRankExt Unit := ⟨fun _ _ => 0, fun _ n k => Matrix.of fun i _ => if i.val = 0 then 1 else 0, (), K, 1 / 2,
    fun _ _ => .done (.error .unmodelled)⟩
  let g : ℝ → Mat 6 6 := fun x => (vRow x)ᵀ * ((2 : ℝ) • vRow x)
  let G : Mat 6 6 := g 1 + (g 2 + (g 3 + g 4))
  have hs : wPs.flatMap wDecode = [(1, 5), (2, 6), (3, 7), (4, 8)] := rfl
  have hrow : ∀ (i : Fin 6) (x : ℝ), g x i 0 = 2 * (if i = 0 then 1 else if i = 2 then x else 0) := by
    intro i x
    simp only [g, vRow, Matrix.mul_apply, Matrix.transpose_apply, Matrix.smul_apply, Matrix.of_apply, smul_eq_mul, Finset.univ_unique,
      Finset.sum_singleton, if_true]
    ring
  have hcol : ∀ i : Fin 6, G i 0 = 2 * (if i = 0 then 4 else if i = 2 then 10 else 0) := by
    intro i
    simp only [G, Matrix.add_apply, hrow]
    split_ifs <;> norm_num
  have hG : ∀ v, G *ᵥ v = ((4 : ℕ) / (4 : ℕ) : ℝ) • ggnSamples vModel 0 (fun jv _ _ => mseHessianMv jv) (wPs.flatMap wDecode) v := by
    intro v
    have hg : ∀ x, g x *ᵥ v = (vRow x)ᵀ *ᵥ mseHessianMv (vRow x *ᵥ v) := by
      intro x
      simp only [g, ← Matrix.mulVec_mulVec, Matrix.smul_mulVec]
      rfl
    simp only [G, ggnSamples, hs, vModel_jacobian, List.map_cons, List.map_nil, List.sum_cons, List.sum_nil, Matrix.add_mulVec, hg, add_zero]
    norm_num
  obtain ⟨h0, hR⟩ := first_search_block K hK 1e-6 G (fun i h0 h2 => by rw [hcol, if_neg h0, if_neg h2, mul_zero])
    (by rw [hcol, if_neg (by decide), if_pos rfl]; norm_num) (E.normalMat () 6 1) (by
      ext i j
      simp only [E, Matrix.of_apply, Fin.ext_iff]
      rfl)
  obtain ⟨t, pf, h1, h2, -⟩ := C59_lobpcg_posterior E hK true (fun s => s) (fun _ => .error .typeError) wPoints vModel bm vParams 0 _ _ _
    vReadable (fun s _ => by unfold vModel; fun_prop) "mse" _ rfl 4 4 (by norm_num) (.str "lobpcg") rfl
    { kw := { rank := 1, mvJit := false } } rfl rfl (by simp) G hG 1 rfl (by norm_num) (E.normalMat () 6 1) rfl h0 hR ⟨some 1, none⟩ 1
    rfl one_pos (by norm_num) 1 one_pos
  exact ⟨E, t, pf, rfl, h1, h2⟩

end Laplax.Props
