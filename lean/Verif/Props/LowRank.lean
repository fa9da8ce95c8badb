import Verif.Spec.LowRank
import Verif.Model.LowRank
import Verif.Props.Lobpcg
import Verif.Props.Laplace

/-! # C49: low-rank curvature from any form of the operator -/

namespace Laplax.Props
open Laplax Laplax.Spec
open scoped BigOperators Matrix

variable {n r : ℕ}

/-! ### Running the algorithms -/

theorem runPy_eq (op : PyTree ℝ → Except Err (PyTree ℝ)) (M : Mat n n) (h : RepresentsFlat op (fun v => M *ᵥ v)) (alg : MvAlg n r) :
    alg.runPy op = runAlg M alg := by
  induction alg with
  | done t => rfl
  | call v k ih =>
    have h1 : op (ofVec v) = .ok (ofVec (M *ᵥ v)) := by
      have := h v
      simpa [ofVec, flatLeaf] using this
    have h2 : asVec n (ofVec (M *ᵥ v)) = .ok (M *ᵥ v) := asVec_ofFn _
    simp only [MvAlg.runPy, runAlg, h1, ok_bind, h2, ih]

theorem lanczosLoop_run (M : Mat n n) (tol : ℝ) (fr : Bool) (k : LanczosState n → MvAlg n r) (m : ℕ) :
    ∀ (i : ℕ) (s : LanczosState n), runAlg M (lanczosLoopAlg tol fr k m i s) =
      runAlg M (k ((List.range' i m).foldl (fun s i => iterationStep tol fr s (M *ᵥ s.v) i) s)) := by
  induction m with
  | zero => intro i s; rfl
  | succ m ih =>
    intro i s
    simp only [lanczosLoopAlg, runAlg, ih, List.range'_succ, List.foldl_cons]

theorem lanczosAlg_run (M : Mat n n) (rank : ℕ) (eigh : Mat rank rank → Vec rank × Mat rank rank) (b : Vec n) (tol : ℝ) (fr : Bool) :
    runAlg M (lanczosAlg rank eigh b tol fr) = .ok (lanczosLowrankTerms rank eigh (fun v => M *ᵥ v) b tol fr) := by
  simp only [lanczosAlg, lanczosLoop_run]
  rw [← List.range_eq_range']
  rfl

theorem callCols_run (M : Mat n n) (a : ℕ) : ∀ (cols : Fin a → Vec n) (k : (Fin a → Vec n) → MvAlg n r),
    runAlg M (MvAlg.callCols a cols k) = runAlg M (k fun j => M *ᵥ cols j) := by
  induction a with
  | zero => intro cols k; simp only [MvAlg.callCols]; congr 2; funext j; exact j.elim0
  | succ a ih =>
    intro cols k
    simp only [MvAlg.callCols, runAlg, ih]
    congr 2
    funext j
    refine Fin.cases ?_ (fun j => ?_) j <;> simp

theorem callBlock_run (M : Mat n n) {a : ℕ} (X : Mat n a) (k : Mat n a → MvAlg n r) :
    runAlg M (MvAlg.callBlock X k) = runAlg M (k (matmat (fun v => M *ᵥ v) X)) := by
  rw [MvAlg.callBlock, callCols_run]; rfl

theorem lobpcgLoop_run (M : Mat n n) {k : ℕ} [NeZero k] (K : Kernels) (eps tol : ℝ) (fin : LobpcgState n k → MvAlg n r) (f : ℕ) :
    ∀ s, runAlg M (lobpcgLoopAlg K eps tol fin f s) = runAlg M (fin (lobpcgLoop K eps (fun v => M *ᵥ v) tol f s)) := by
  induction f with
  | zero => intro s; rfl
  | succ f ih =>
    intro s
    by_cases h : s.converged < k
    · simp only [lobpcgLoopAlg, lobpcgLoop, if_pos h, callBlock_run, ih]
      rfl
    · simp only [lobpcgLoopAlg, lobpcgLoop, if_neg h]

theorem lobpcgAlg_run (M : Mat n n) {k : ℕ} [NeZero k] (K : Kernels) (eps : ℝ) (X0 : Mat n k) (tol : ℝ) :
    runAlg M (lobpcgAlg K eps X0 tol) = lobpcgLowrankTerms K eps (fun v => M *ᵥ v) X0 tol := by
  simp only [lobpcgAlg, lobpcgLowrankTerms, lobpcgStandard]
  cases h : lobpcgCheckInputs n k with
  | error e => rfl
  | ok u =>
    simp only [callBlock_run, lobpcgLoop_run, ok_bind]
    rfl

/-! ### The three forms of an operator -/

theorem zipWith_sum_ofFn (a b : Vec n) : (List.zipWith (· * ·) (List.ofFn a) (List.ofFn b)).sum = a ⬝ᵥ b := by
  have : List.zipWith (· * ·) (List.ofFn a) (List.ofFn b) = List.ofFn fun i => a i * b i := by
    apply List.ext_getElem
    · simp
    · intro i h1 h2; simp
  rw [this, List.sum_ofFn]; rfl

theorem jnpMatVec_dense {m : ℕ} (M : Mat m n) : RepresentsFlat (jnpMatVec (denseArr M)) (fun v => M *ᵥ v) := by
  intro x
  have hc : chunks n m (denseArr M).data = List.ofFn (fun i => List.ofFn (fun j => M i j)) := by
    have := chunks_flatten (List.ofFn (fun i => List.ofFn (fun j => M i j))) n (by simp [List.mem_ofFn])
    simpa [denseArr] using this
  show (if [n] = [n] then Except.ok (flatLeaf ((chunks n m (denseArr M).data).map fun row =>
    (List.zipWith (· * ·) row (List.ofFn x)).sum)) else Except.error Err.typeError) = _
  rw [if_pos rfl, hc, List.map_ofFn]
  simp only [Function.comp_def, zipWith_sum_ofFn, flatLeaf, List.length_ofFn]
  rfl

theorem getMatvecOp_form (M : Mat n n) (hn : 0 < n) (A : LowRankOp) (layout : Layout ℝ) (h : IsOperator M A layout) :
    ∃ op, getMatvecOp A layout = .ok (op, n) ∧ RepresentsFlat op (fun v => M *ᵥ v) := by
  cases h with
  | matrix => exact ⟨_, rfl, jnpMatVec_dense M⟩
  | flat f h => exact ⟨f, rfl, h⟩
  | tree f t ht h =>
    refine ⟨wrapMv t f, ?_, wrapped_mv_represents t ht hn f _ h⟩
    show Except.ok (wrapMv t f, getSize t) = _
    rw [getSize_eq, ht]

variable {Key : Type}

/-- **C49 (operator forms).** For every matrix `M` in any of the supported forms, `get_matvec` returns its dimension and a product
on flat vectors computing `M x`. -/
theorem C49_get_matvec (M : Mat n n) (hn : 0 < n) (A : LowRankOp) (layout : Layout ℝ) (h : IsOperator M A layout) :
    ∃ op, getMatvecOp A layout = .ok (op, n) ∧
      ∀ x : Vec n, op (.leaf ⟨[n], List.ofFn x⟩) = .ok (.leaf ⟨[n], List.ofFn fun i => ∑ j, M i j * x j⟩) :=
  getMatvecOp_form M hn A layout h

/-- **C49 (rejected operators).** A callable without a layout is a `TypeError` for both methods, whatever the other arguments. -/
theorem C49_callable_needs_layout (E : LowRankExt Key) (f : PyTree ℝ → Except Err (PyTree ℝ)) (kw : LowRankKw Key) :
    createLowRankCurvature E (.callable f) .none kw "lanczos" = .error .typeError ∧
    createLowRankCurvature E (.callable f) .none kw "lobpcg" = .error .typeError := ⟨rfl, rfl⟩

/-- **C49 (unknown method).** Every method name other than the two known ones is a `KeyError`; the default is Lanczos. -/
theorem C49_methods (E : LowRankExt Key) (A : LowRankOp) (layout : Layout ℝ) (kw : LowRankKw Key) :
    (∀ m, m ≠ "lanczos" → m ≠ "lobpcg" → createLowRankCurvature E A layout kw m = .error .keyError) ∧
    createLowRankCurvature E A layout kw = createLowRankCurvature E A layout kw "lanczos" := by
  refine ⟨fun m h1 h2 => ?_, rfl⟩
  simp [createLowRankCurvature, h1, h2]

/-- **C49 (the form does not matter).** For every method, keyword arguments and matrix: all forms of the operator give the same
outcome (the same terms or the same exception). -/
theorem C49_form_independent (E : LowRankExt Key) (M : Mat n n) (hn : 0 < n) (A A' : LowRankOp) (layout layout' : Layout ℝ)
    (h : IsOperator M A layout) (h' : IsOperator M A' layout') (kw : LowRankKw Key) (method : String) :
    createLowRankCurvature E A layout kw method = createLowRankCurvature E A' layout' kw method := by
  obtain ⟨op, h1, h2⟩ := getMatvecOp_form M hn A layout h
  obtain ⟨op', h1', h2'⟩ := getMatvecOp_form M hn A' layout' h'
  simp only [createLowRankCurvature, lanczosDriver, lobpcgDriver, h1, h1', ok_bind, runPy_eq _ M h2, runPy_eq _ M h2']

/-- **C49 (Lanczos).** The start vector is `b` if given (the key is then ignored), else drawn from the key; neither is a
`ValueError`; a `b` of the wrong length raises.  The result then is that of the Lanczos process of C23 with the products `M v`. -/
theorem C49_lanczos (E : LowRankExt Key) (M : Mat n n) (hn : 0 < n) (A : LowRankOp) (layout : Layout ℝ)
    (h : IsOperator M A layout) (kw : LowRankKw Key) :
    (∀ b : Vec n, kw.b = some (List.ofFn b) ∨ (kw.b = none ∧ ∃ k, kw.key = some k ∧ b = E.normal k n) →
      createLowRankCurvature E A layout kw "lanczos" =
        .ok ⟨n, kw.rank, lanczosLowrankTerms kw.rank E.kernels.eigh (fun v => M *ᵥ v) b kw.tol kw.fullReorth⟩) ∧
    (kw.b = none → kw.key = none → createLowRankCurvature E A layout kw "lanczos" = .error .valueError) ∧
    (∀ l, kw.b = some l → l.length ≠ n → Raises (createLowRankCurvature E A layout kw "lanczos")) := by
  obtain ⟨op, h1, h2⟩ := getMatvecOp_form M hn A layout h
  have e : createLowRankCurvature E A layout kw "lanczos" = (do
      let b ← lanczosStart E kw n
      let t ← (lanczosAlg kw.rank E.kernels.eigh b kw.tol kw.fullReorth).runPy op
      return ⟨n, kw.rank, t⟩) := by
    simp only [createLowRankCurvature, if_true, lanczosDriver, h1, ok_bind]
  rw [e]
  refine ⟨?_, ?_, ?_⟩
  · rintro b (hb | ⟨hb, k, hk, rfl⟩)
    · have : lanczosStart E kw n = .ok b := by simp only [lanczosStart, hb, asVec_ofFn]
      simp only [this, ok_bind, runPy_eq _ M h2, lanczosAlg_run]; rfl
    · have : lanczosStart E kw n = .ok (E.normal k n) := by simp only [lanczosStart, hb, hk]
      simp only [this, ok_bind, runPy_eq _ M h2, lanczosAlg_run]; rfl
  · intro hb hk
    have : lanczosStart E kw n = .error .valueError := by simp only [lanczosStart, hb, hk]
    rw [this]; rfl
  · intro l hb hl
    have : lanczosStart E kw n = .error .typeError := by
      simp only [lanczosStart, hb, asVec, flatLeaf, dif_neg hl]
    exact ⟨.typeError, by rw [this]; rfl⟩

/-- **C49 (LOBPCG, not jitted).** The block has `k = lobpcgRank n rank` columns (C25) drawn from the key, or from key 0 if none is
given; `k = 0` is a `ValueError`; otherwise the result is that of the iteration of C48 with the products `M v`. -/
theorem C49_lobpcg (E : LowRankExt Key) (M : Mat n n) (hn : 0 < n) (A : LowRankOp) (layout : Layout ℝ)
    (h : IsOperator M A layout) (kw : LowRankKw Key) (hj : kw.mvJit = false) (k : ℕ) (hk : k = lobpcgRank n kw.rank) :
    (k = 0 → createLowRankCurvature E A layout kw "lobpcg" = .error .valueError) ∧
    ∀ hk0 : NeZero k, createLowRankCurvature E A layout kw "lobpcg" =
      (lobpcgLowrankTerms E.kernels E.eps (fun v => M *ᵥ v) (E.normalMat (kw.key.getD E.key0) n k) kw.tol).map
        fun t => ⟨n, k, t⟩ := by
  obtain ⟨op, h1, h2⟩ := getMatvecOp_form M hn A layout h
  subst hk
  have hs : ("lobpcg" : String) ≠ "lanczos" := by decide
  constructor
  · intro h0
    simp only [createLowRankCurvature, if_neg hs, if_true, lobpcgDriver, h1, ok_bind, dif_pos h0]
  · intro hk0
    have h0 : lobpcgRank n kw.rank ≠ 0 := NeZero.ne _
    simp only [createLowRankCurvature, if_neg hs, if_true, lobpcgDriver, h1, ok_bind, dif_neg h0, hj, Bool.false_eq_true, if_false,
      runPy_eq _ M h2, lobpcgAlg_run]
    cases lobpcgLowrankTerms E.kernels E.eps (fun v => M *ᵥ v) (E.normalMat (kw.key.getD E.key0) n (lobpcgRank n kw.rank)) kw.tol <;> rfl

/-- **C49 (defaults).** Without further keywords, Lanczos (given a key) runs with rank 20, tolerance `1e-6` and full
reorthogonalisation, and LOBPCG runs JAX's own `lobpcg_standard` with tolerance `1e-6` on the default key's start block, its size the
rank 20 as adjusted to the dimension. -/
theorem C49_defaults (E : LowRankExt Key) (M : Mat n n) (hn : 0 < n) (A : LowRankOp) (layout : Layout ℝ)
    (h : IsOperator M A layout) :
    (∀ key, createLowRankCurvature E A layout { key := some key } =
      .ok ⟨n, 20, lanczosLowrankTerms 20 E.kernels.eigh (fun v => M *ᵥ v) (E.normal key n) 1e-6 true⟩) ∧
    ∀ k, k = lobpcgRank n 20 → 0 < k → createLowRankCurvature E A layout {} "lobpcg" =
      (runAlg M (E.jaxLobpcg (E.normalMat E.key0 n k) 1e-6)).map fun t => ⟨n, k, t⟩ := by
  constructor
  · intro key
    exact (C49_lanczos E M hn A layout h { key := some key }).1 (E.normal key n) (Or.inr ⟨rfl, key, rfl, rfl⟩)
  · rintro k rfl hk
    obtain ⟨op, h1, h2⟩ := getMatvecOp_form M hn A layout h
    have hs : ("lobpcg" : String) ≠ "lanczos" := by decide
    simp only [createLowRankCurvature, if_neg hs, if_true, lobpcgDriver, h1, ok_bind, runPy_eq _ M h2]
    rw [dif_neg (by omega)]
    rfl

/-- **C49 (exceptions of the operator).** If the first product raises, so does the whole call, with the same exception. -/
theorem C49_operator_exception (E : LowRankExt Key) (f : PyTree ℝ → Except Err (PyTree ℝ)) (e : Err) (hf : ∀ v, f v = .error e)
    (kw : LowRankKw Key) (hr : 0 < kw.rank) (key : Key) (hkey : kw.key = some key) (hb : kw.b = none) :
    createLowRankCurvature E (.callable f) (.int n) kw "lanczos" = .error e := by
  obtain ⟨m, hm⟩ : ∃ m, kw.rank = m + 1 := ⟨kw.rank - 1, by omega⟩
  simp only [createLowRankCurvature, if_true, lanczosDriver, getMatvecOp, getMatvec, ok_bind, lanczosStart, hb, hkey]
  have : (lanczosAlg kw.rank E.kernels.eigh (E.normal key n) kw.tol kw.fullReorth).runPy f = .error e := by
    obtain ⟨key', b', rank, tol, j, fr⟩ := kw
    simp only at hm
    subst hm
    simp only [lanczosAlg, lanczosLoopAlg, MvAlg.runPy, hf]
    rfl
  rw [this]; rfl

/-- **C49 (what is returned).** Lanczos on a positive semidefinite matrix in any form, without breakdown: orthonormal `U`,
`S ≥ 0`, `scalar = 0` and `U diag(S) Uᵀ = P M P` with `P` the orthogonal projection on the Krylov space of the start vector. -/
theorem C49_lanczos_result (E : LowRankExt Key) (hE : IsEigh (E.kernels.eigh (r := r))) (M : Mat n n) (hM : M.PosSemidef) (hn : 0 < n)
    (A : LowRankOp) (layout : Layout ℝ) (h : IsOperator M A layout) (kw : LowRankKw Key) (hfr : kw.fullReorth = true)
    (hr : kw.rank = r) (b : Vec n) (hb : b ≠ 0) (hkb : kw.b = some (List.ofFn b))
    (hβ : ∀ j, j + 1 < r → (lanczosIterations (fun v => M *ᵥ v) b r kw.tol true).beta j ≠ 0) :
    ∃ t : LowRankTerms n r, createLowRankCurvature E A layout kw "lanczos" = .ok ⟨n, r, t⟩ ∧
      t.Uᵀ * t.U = 1 ∧ (∀ k, 0 ≤ t.S k) ∧ t.scalar = 0 ∧
      ∃ P : Mat n n, Pᵀ = P ∧ P * P = P ∧ (∀ x, P *ᵥ x ∈ krylov M b r) ∧ (∀ x ∈ krylov M b r, P *ᵥ x = x) ∧
        t.U * Matrix.diagonal t.S * t.Uᵀ = P * M * P := by
  have hMs : Mᵀ = M := by
    have := hM.1
    rwa [Matrix.IsHermitian, Matrix.conjTranspose_eq_transpose_of_trivial] at this
  obtain ⟨t1, t2, t3, t4, P, p1, p2, p3, p4, p5, p6⟩ := C23_low_rank_terms M hMs b hb kw.tol r E.kernels.eigh hE hβ _ rfl
  refine ⟨_, ?_, t1, t4 hM, t3, P, p2, p3, p4, p5, p6⟩
  rw [(C49_lanczos E M hn A layout h kw).1 b (.inl hkb), hfr]
  subst hr; rfl

/-- **C49 (Laplace approximation with Lanczos).** `laplace` with the Lanczos estimation on any model, data and batching, then the
linearised pushforward: if `G = N_curv/N_total Σ Jᵀ H J` and the process does not break down on `G`, the predictive covariance at
every input is `J_x ((τ/s) I + σ² Pr G Pr)⁻¹ J_xᵀ`, `Pr` the orthogonal projection on the Krylov space of the start vector. -/
theorem C49_laplace_lanczos {p : ℕ} {A X Y Kt : Type} (lower : String → String) (rows : A → Except Err (List A)) (net : Net X p)
    (points : PyObj A → PyObj A → Except Err (List (X × Y))) (params : PyTree ℝ) (θ : Vec p)
    (data : PyObj A) (samples : List (X × Y)) (loss : String) (H : Vec (shapeSize net.shape) → Vec (shapeSize net.shape) → Y → Vec (shapeSize net.shape))
    (curvType ct : EnumArg) (h : LaplaceCall lower points net.fn params θ data samples loss H curvType ct)
    (kind : EnumArg → LaplaceKind p) (eigh : Mat r r → Vec r × Mat r r) (hE : IsEigh eigh) (b : Vec p) (hb : b ≠ 0) (tol : ℝ)
    (hk : kind ct = .lowRank r (lanczosAlg r eigh b tol true)) (numCurv numTotal : ℕ) (hN : numTotal ≠ 0)
    (G : Mat p p) (hG : ∀ v, G *ᵥ v = ((numCurv : ℝ) / numTotal) • ggnSamples net.fn θ H samples v)
    (hβ : ∀ j, j + 1 < r → (lanczosIterations (fun v => G *ᵥ v) b r tol true).beta j ≠ 0)
    (prior : PriorArgs) (τ : ℝ) (hτ : prior.priorPrec = some τ) (hτ0 : 0 < τ) (hσ : 0 ≤ prior.sigmaSquared.getD 1) (s : ℝ) (hs : 0 < s)
    (rng : Prng Kt) (hrng : RngOk rng) (kw : PfKwargs Kt) (hkw : kw.precompute = none) (hb1 : kw.precomputeListBatchSize ≠ some 0)
    (hb2 : kw.linSamplesBatchSize ≠ some 0) (hb3 : kw.weightBatchSize ≠ some 0) (fns : List LinFn)
    (hu : ∀ fn ∈ fns, LinUsable net.shape (kw.numSamples.getD 0) (kw.specialPredType.getD "mean_field_0") fn) :
    ∃ (Pr P R : Mat p p) (posteriorFn : PriorArgs → ℝ → Except Err (Posterior p)) (est : CurvEstimate p),
      Prᵀ = Pr ∧ Pr * Pr = Pr ∧ (∀ x, Pr *ᵥ x ∈ krylov G b r) ∧ (∀ x ∈ krylov G b r, Pr *ᵥ x = x) ∧
      P = (τ / s) • (1 : Mat p p) + prior.sigmaSquared.getD 1 • (Pr * G * Pr) ∧ P * P⁻¹ = 1 ∧ R * Rᵀ = P⁻¹ ∧
      laplace lower rows points net.fn params data (.name loss) curvType kind numCurv numTotal = .ok (posteriorFn, est) ∧
      ∀ x : X, ∃ (res : Dict (Arr ℝ)) (eps : Fin (kw.numSamples.getD 0) → Vec p), Draws rng kw.key params eps ∧
        linPushforward rng net params posteriorFn prior s ((LinFn.setup :: fns).map LinFn.step) kw x = .ok res ∧
        (∀ key v, res.get? key = some v →
          linExpected net.shape (net.fn x θ) (jacobian (net.fn x) θ * P⁻¹ * (jacobian (net.fn x) θ)ᵀ)
            (fun i => net.fn x θ + jacobian (net.fn x) θ *ᵥ (R *ᵥ eps i))
            (specialOf (kw.specialPredType.getD "mean_field_0") (net.fn x θ) (jacobian (net.fn x) θ * P⁻¹ * (jacobian (net.fn x) θ)ᵀ))
            key = some v) ∧
        ∀ fn ∈ fns, (res.get? (linKey fn)).isSome := by
  obtain ⟨G', g1, g2, g3⟩ := C47_linearized_predictive lower rows net points params θ data samples loss H curvType ct h kind numCurv
    numTotal hN prior τ hτ hτ0 hσ s hs rng hrng kw hkw hb1 hb2 hb3 fns hu
  have hGG : G' = G := by
    apply Matrix.toLin'.injective
    apply LinearMap.ext; intro v
    rw [Matrix.toLin'_apply, Matrix.toLin'_apply, hG, g2]
  subst hGG
  have hMs : G'ᵀ = G' := by
    have := g1.1
    rwa [Matrix.IsHermitian, Matrix.conjTranspose_eq_transpose_of_trivial] at this
  obtain ⟨t1, t2, t3, t4, Pr, p1, p2, p3, p4, p5, p6⟩ := C23_low_rank_terms G' hMs b hb tol r eigh hE hβ _ rfl
  obtain ⟨P, R, pf, q1, q2, q3, q4, q5⟩ := g3 (.lowRank (lanczosLowrankTerms r eigh (fun v => G' *ᵥ v) b tol true))
    (.inr (.inr ⟨r, _, _, hk, lanczosAlg_run G' r eigh b tol true, rfl, t1, t4 g1⟩))
  refine ⟨Pr, P, R, pf, _, p2, p3, p4, p5, ?_, q2, q3, q4, q5⟩
  rw [q1, ← p6]; rfl

/-! ### Non-vacuity -/

/-- The three forms of one non-diagonal matrix, and keyword arguments for which Lanczos does not break down. -/
example : ∃ (M : Mat 2 2) (f g : PyTree ℝ → Except Err (PyTree ℝ)) (t : PyTree ℝ) (b : Vec 2),
    IsOperator M (.array (denseArr M)) .none ∧ IsOperator M (.callable f) (.int 2) ∧ IsOperator M (.callable g) (.tree t) ∧
    M.PosSemidef ∧ b ≠ 0 ∧ ∀ j, j + 1 < 2 → (lanczosIterations (fun v => M *ᵥ v) b 2 (1 / 2) true).beta j ≠ 0 := by
  refine ⟨!![2, 2; 2, 2], jnpMatVec (denseArr !![2, 2; 2, 2]), fun t => match entries t with
    | [x, y] => .ok (.leaf ⟨[2], [2 * x + 2 * y, 2 * x + 2 * y]⟩)
    | _ => .error .typeError, .node "dict(a,b)" [.leaf ⟨[1], [0]⟩, .leaf ⟨[], [0]⟩], ![1, 0], .matrix _, .flat _ (jnpMatVec_dense _),
    .tree _ _ (by simp [numEntries, Tree.leaves, Tree.leavesL]) ?_, ?_, ?_, ?_⟩
  · intro x t _ _ ht
    have ht' : entries t = [x 0, x 1] := by
      have : entries t = List.ofFn x := ht
      rw [this]; simp [List.ofFn_succ]
    refine ⟨.leaf ⟨[2], [2 * x 0 + 2 * x 1, 2 * x 0 + 2 * x 1]⟩, by simp only [ht'], ?_⟩
    simp [Tree.leaves, List.ofFn_succ, Matrix.mulVec, dotProduct, Fin.sum_univ_two]
  · have := Matrix.posSemidef_conjTranspose_mul_self (!![1, 1; 1, 1] : Mat 2 2)
    convert this using 1
    ext i j
    fin_cases i <;> fin_cases j <;> norm_num [Matrix.mul_apply, Fin.sum_univ_two]
  · intro h; simpa using congrFun h 0
  · intro j hj
    obtain rfl : j = 0 := by omega
    rw [lz_beta _ _ _ _ 2 0 (by omega), (lzStep _ _ _ _ 0).1]
    have hV : lzV (fun v => (!![2, 2; 2, 2] : Mat 2 2) *ᵥ v) ![1, 0] (1 / 2) true 0 = ![1, 0] := by
      rw [lzV_zero]
      simp [norm2, dotProduct, Fin.sum_univ_two]
    have hW : lzW (fun v => (!![2, 2; 2, 2] : Mat 2 2) *ᵥ v) ![1, 0] (1 / 2) true 0 = ![0, 2] := by
      simp only [lzW, reorthogonalize, hV]
      ext i; fin_cases i <;> simp [Matrix.vecHead, Matrix.vecTail, dotProduct, Fin.sum_univ_two]
    have hn : norm2 (lzW (fun v => (!![2, 2; 2, 2] : Mat 2 2) *ᵥ v) ![1, 0] (1 / 2) true 0) = 2 := by
      rw [hW, norm2]
      rw [show ((![0, 2] : Vec 2) ⬝ᵥ ![0, 2]) = 2 ^ 2 by simp [dotProduct, Fin.sum_univ_two]; norm_num]
      exact Real.sqrt_sq (by norm_num)
    rw [hn]; norm_num

end Laplax.Props
