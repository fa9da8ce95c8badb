import Verif.Props.Posterior
import Verif.Props.Mv

/-! # C26: posterior functions on pytrees -/

namespace Laplax.Props
open Laplax Laplax.Spec
open scoped Matrix BigOperators

variable {p r : ℕ}

theorem asVec_ofFn (x : Vec p) : asVec p (flatLeaf (List.ofFn x)) = .ok x := by
  simp [asVec, flatLeaf]

theorem asVec_list {xs : List ℝ} {x : Vec p} (h : xs = List.ofFn x) : asVec p (flatLeaf xs) = .ok x := by
  rw [h, asVec_ofFn]

theorem leaves_ne_of_entries {t : PyTree ℝ} (hp : 0 < p) {x : Vec p} (h : entries t = List.ofFn x) : t.leaves ≠ [] := by
  intro h0
  have := congrArg List.length h
  simp [entries, h0] at this
  omega

/-- The wrapped product of any flat product `f`: on a pytree of the layout it returns the pytree of the same layout whose
entries are `f` of the entries. -/
theorem wrapped_product (layout : PyTree ℝ) (hsz : numEntries layout = p) (hp : 0 < p)
    {S : Type} (f : S → Vec p → Vec p) (st : S) :
    ∃ g, wrapFactory (fun s => .ok (flatCallable (f s))) (posteriorWrappers (.tree layout)).1
        (posteriorWrappers (.tree layout)).2 st = .ok g ∧
      ∀ (u : PyTree ℝ) (x : Vec p), SameLayout u layout → entries u = List.ofFn x →
        ∃ w, g [u] = .ok w ∧ SameLayout w layout ∧ WFTree w ∧ entries w = List.ofFn (f st x) := by
  refine ⟨_, rfl, ?_⟩
  intro u x hl hx
  have hne : layout.leaves ≠ [] := by
    intro h0; simp [numEntries, h0] at hsz; omega
  have hune : u.leaves ≠ [] := leaves_ne_of_entries hp hx
  obtain ⟨w, hw⟩ := unflattenLike_isOk layout hne (List.ofFn (f st x)) (by simp [hsz])
  obtain ⟨h1, h2, h3⟩ := (unflattenLike_ok_iff layout hne _ w).1 hw
  refine ⟨w, ?_, h1, h2, h3⟩
  have e1 : asVec p (flatLeaf (entries u)) = .ok x := asVec_list hx
  rw [show [u] = [] ++ u :: [] from rfl, wrapFunction_split _ _ _ [] [] u 0 (Or.inl rfl)]
  simp only [posteriorWrappers, createPytreeFlattener, Option.getD_some, fullFlatten_eq hune]
  simp only [ok_bind, pure_bind, List.nil_append, flatCallable, e1]
  simpa [ofVec, flatLeaf] using hw

/-- The unwrapped product of an `int`/`None` layout acts on flat arrays. -/
theorem unwrapped_product (layout : Layout ℝ) (hlay : ∀ t, layout ≠ .tree t)
    {S : Type} (f : S → Vec p → Vec p) (st : S) :
    ∃ g, wrapFactory (fun s => .ok (flatCallable (f s))) (posteriorWrappers layout).1
        (posteriorWrappers layout).2 st = .ok g ∧
      ∀ x : Vec p, g [.leaf ⟨[p], List.ofFn x⟩] = .ok (.leaf ⟨[p], List.ofFn (f st x)⟩) := by
  refine ⟨_, rfl, fun x => ?_⟩
  have hw : posteriorWrappers layout = (none, none) := by
    cases layout with
    | int n => rfl
    | none => rfl
    | tree t => exact absurd rfl (hlay t)
  have e1 : asVec p (.leaf ⟨[p], List.ofFn x⟩) = .ok x := by simp [asVec]
  rw [show ([.leaf ⟨[p], List.ofFn x⟩] : List (PyTree ℝ)) = [] ++ .leaf ⟨[p], List.ofFn x⟩ :: [] from rfl, wrapFunction_split _ _ _ [] [] _ 0 (Or.inl rfl)]
  simp only [hw, Option.getD_none, ok_bind, List.nil_append, flatCallable, e1]
  simp [ofVec, flatLeaf, ok_bind, pure, Except.pure]

/-- C26: for every curvature kind and estimate, the products returned by `set_posterior_fn` for a pytree layout act on
pytrees of that layout exactly as the flat products act on their entries, for every state of the same kind of method,
and the returned state is the method's state. -/
theorem C26_pytree_products (e : CurvEstimate p) (layout : PyTree ℝ) (hsz : numEntries layout = p) (hp : 0 < p)
    (a : PriorArgs) (s : ℝ) (st₀ : PosteriorState p) (hst : posteriorState e a s = .ok st₀) :
    ∃ post, setPosteriorFn e (.tree layout) a s = .ok post ∧ post.state = st₀ ∧
      ∀ st, ∃ cov scale, post.covMv st = .ok cov ∧ post.scaleMv st = .ok scale ∧
        ∀ (u : PyTree ℝ) (x : Vec p), SameLayout u layout → entries u = List.ofFn x →
          (∃ w, cov [u] = .ok w ∧ SameLayout w layout ∧ WFTree w ∧ entries w = List.ofFn (covMvOfState st x)) ∧
          (∃ w, scale [u] = .ok w ∧ SameLayout w layout ∧ WFTree w ∧ entries w = List.ofFn (scaleMvOfState st x)) := by
  refine ⟨_, by simp only [setPosteriorFn, hst, ok_bind]; rfl, rfl, fun st => ?_⟩
  obtain ⟨cov, hc, hc'⟩ := wrapped_product layout hsz hp covMvOfState st
  obtain ⟨scale, hs, hs'⟩ := wrapped_product layout hsz hp scaleMvOfState st
  exact ⟨cov, scale, hc, hs, fun u x h1 h2 => ⟨hc' u x h1 h2, hs' u x h1 h2⟩⟩

/-- C26: with an `int` or `None` layout the products act directly on flat arrays. -/
theorem C26_flat_products (e : CurvEstimate p) (layout : Layout ℝ) (hlay : ∀ t, layout ≠ .tree t)
    (a : PriorArgs) (s : ℝ) (st₀ : PosteriorState p) (hst : posteriorState e a s = .ok st₀) :
    ∃ post, setPosteriorFn e layout a s = .ok post ∧ post.state = st₀ ∧
      ∀ st, ∃ cov scale, post.covMv st = .ok cov ∧ post.scaleMv st = .ok scale ∧ ∀ x : Vec p,
        cov [.leaf ⟨[p], List.ofFn x⟩] = .ok (.leaf ⟨[p], List.ofFn (covMvOfState st x)⟩) ∧
        scale [.leaf ⟨[p], List.ofFn x⟩] = .ok (.leaf ⟨[p], List.ofFn (scaleMvOfState st x)⟩) := by
  refine ⟨_, by simp only [setPosteriorFn, hst, ok_bind]; rfl, rfl, fun st => ?_⟩
  obtain ⟨cov, hc, hc'⟩ := unwrapped_product (p := p) layout hlay covMvOfState st
  obtain ⟨scale, hs, hs'⟩ := unwrapped_product (p := p) layout hlay scaleMvOfState st
  exact ⟨cov, scale, hc, hs, fun x => ⟨hc' x, hs' x⟩⟩

/-! ### End to end -/

theorem asMatrix_denseArr (M : Matrix (Fin p) (Fin p) ℝ) : asMatrix p (.leaf (denseArr M)) = .ok M := by
  simp only [asMatrix, denseArr, if_true]
  congr 1; funext i j
  have hlen : ((List.ofFn fun i => List.ofFn fun j => M i j).flatten).length = p * p := by
    rw [List.length_flatten]; simp [List.map_ofFn, Function.comp_def, List.sum_ofFn]
  have hi := i.isLt; have hj := j.isLt
  have hlt : i.val * p + j.val < p * p := by nlinarith
  rw [List.getD_eq_getElem?_getD]
  have hrow := drop_take_flatten (List.ofFn fun i => List.ofFn fun j => M i j) p (by simp [List.mem_ofFn]) i.val (by simp)
  have h2 := congrArg (fun l => l[j.val]?) hrow
  simp only [List.getElem_ofFn] at h2
  rw [List.getElem?_take, if_pos hj, List.getElem?_drop] at h2
  rw [h2]; simp

/-- The flat matrix-vector product that `create_full_curvature`/`get_matvec` build around a pytree product. -/
theorem wrapped_mv_represents (layout : PyTree ℝ) (hsz : numEntries layout = p) (hp : 0 < p)
    (mv : PyTree ℝ → Except Err (PyTree ℝ)) (f : Vec p → Vec p) (hmv : RepresentsTree layout mv f) :
    RepresentsFlat (wrapMv layout mv) f := by
  intro x
  have hne : layout.leaves ≠ [] := by
    intro h0; simp [numEntries, h0] at hsz; omega
  obtain ⟨u, hu⟩ := unflattenLike_isOk layout hne (List.ofFn x) (by simp [hsz])
  obtain ⟨h1, h2, h3⟩ := (unflattenLike_ok_iff layout hne _ u).1 hu
  obtain ⟨w, hw, hw'⟩ := hmv x u h1 h2 h3
  have hwne : w.leaves ≠ [] := leaves_ne_of_entries hp hw'
  have hw'' : entries w = List.ofFn (f x) := hw'
  simp only [wrapMv, createPytreeFlattener, hu, ok_bind, hw, fullFlatten_eq hwne, hw'', flatLeaf, List.length_ofFn]
  rfl

theorem createFullCurvature_eq (layout : PyTree ℝ) (hsz : numEntries layout = p) (hp : 0 < p)
    (mv : PyTree ℝ → Except Err (PyTree ℝ)) (C : Matrix (Fin p) (Fin p) ℝ)
    (hmv : RepresentsTree layout mv (fun v => C *ᵥ v)) :
    createFullCurvature mv (.tree layout) = .ok (.leaf (denseArr C)) := by
  have h := C08_to_dense_int_columns (α := ℝ) hp _ _ (wrapped_mv_represents layout hsz hp mv _ hmv) none (by simp)
  simp only [createFullCurvature, getSize_eq, hsz]
  rw [h]
  congr 2; congr 1
  ext i j
  simp [unitFn, Matrix.mulVec, dotProduct]

/-- C26 end to end, FULL: if `mv` computes the product with a positive semidefinite matrix `C` on pytrees of the layout,
then `create_posterior_fn("full", mv, layout)(prior)` yields products that act on pytrees as the Gaussian with precision
`(σ² C + τ I)/s`. -/
theorem C26_create_posterior_full (layout : PyTree ℝ) (hsz : numEntries layout = p) (hp : 0 < p)
    (mv : PyTree ℝ → Except Err (PyTree ℝ)) (C : Matrix (Fin p) (Fin p) ℝ)
    (hmv : RepresentsTree layout mv (fun v => C *ᵥ v)) (hC : C.PosSemidef) (a : PriorArgs) (τ : ℝ)
    (hτ : a.priorPrec = some τ) (hτ0 : 0 < τ) (hσ : 0 ≤ a.sigmaSquared.getD 1) (s : ℝ) (hs : 0 < s) :
    ∃ post cov scale, createPosteriorFn (p := p) .full mv (.tree layout) a s = .ok post ∧
      post.covMv post.state = .ok cov ∧ post.scaleMv post.state = .ok scale ∧
      ∃ fc fs : Vec p → Vec p, IsPosterior (precision C τ (a.sigmaSquared.getD 1) s) fc fs ∧
        ∀ (u : PyTree ℝ) (x : Vec p), SameLayout u layout → entries u = List.ofFn x →
          (∃ w, cov [u] = .ok w ∧ SameLayout w layout ∧ WFTree w ∧ entries w = List.ofFn (fc x)) ∧
          (∃ w, scale [u] = .ok w ∧ SameLayout w layout ∧ WFTree w ∧ entries w = List.ofFn (fs x)) := by
  obtain ⟨st, h1, h2, _⟩ := C19_full_posterior C a τ hτ s (precision_posDef hC hτ0 hσ hs)
  obtain ⟨post, g1, g2, g3⟩ := C26_pytree_products (.full C) layout hsz hp a s st h1
  obtain ⟨cov, scale, k1, k2, k3⟩ := g3 post.state
  refine ⟨post, cov, scale, ?_, k1, k2, covMvOfState st, scaleMvOfState st, h2, ?_⟩
  · have e1 : asMatrix p (.leaf (denseArr C)) = .ok C := asMatrix_denseArr C
    have e2 : estimateCurvature (p := p) .full mv (.tree layout) = .ok (.full C) := by
      simp only [estimateCurvature, createFullCurvature_eq layout hsz hp mv C hmv, ok_bind, e1]; rfl
    simp only [createPosteriorFn, e2, ok_bind, g1]
  · intro u x hu hx
    rw [← g2]; exact k3 u x hu hx

/-- C26 end to end, DIAGONAL: the same with the diagonal of `C`; `C` need not be positive semidefinite, only its diagonal
non-negative. -/
theorem C26_create_posterior_diagonal (layout : PyTree ℝ) (hsz : numEntries layout = p) (hp : 0 < p)
    (mv : PyTree ℝ → Except Err (PyTree ℝ)) (C : Matrix (Fin p) (Fin p) ℝ)
    (hmv : RepresentsTree layout mv (fun v => C *ᵥ v)) (hC : ∀ i, 0 ≤ C i i) (a : PriorArgs) (τ : ℝ)
    (hτ : a.priorPrec = some τ) (hτ0 : 0 < τ) (hσ : 0 ≤ a.sigmaSquared.getD 1) (s : ℝ) (hs : 0 < s) :
    ∃ post cov scale, createPosteriorFn (p := p) .diagonal mv (.tree layout) a s = .ok post ∧
      post.covMv post.state = .ok cov ∧ post.scaleMv post.state = .ok scale ∧
      ∃ fc fs : Vec p → Vec p,
        IsPosterior (precision (Matrix.diagonal fun i => C i i) τ (a.sigmaSquared.getD 1) s) fc fs ∧
        ∀ (u : PyTree ℝ) (x : Vec p), SameLayout u layout → entries u = List.ofFn x →
          (∃ w, cov [u] = .ok w ∧ SameLayout w layout ∧ WFTree w ∧ entries w = List.ofFn (fc x)) ∧
          (∃ w, scale [u] = .ok w ∧ SameLayout w layout ∧ WFTree w ∧ entries w = List.ofFn (fs x)) := by
  set d : Vec p := fun i => C i i with hd
  obtain ⟨st, h1, h2⟩ := C20_diagonal_is_posterior d a τ hτ s (fun i => by have := hC i; simp only [hd]; positivity)
  obtain ⟨post, g1, g2, g3⟩ := C26_pytree_products (.diagonal d) layout hsz hp a s st h1
  obtain ⟨cov, scale, k1, k2, k3⟩ := g3 post.state
  refine ⟨post, cov, scale, ?_, k1, k2, covMvOfState st, scaleMvOfState st, h2, ?_⟩
  · have e0 := C09_diagonal_tree layout hsz mv _ hmv none (by simp)
    have e00 : (fun i => (C *ᵥ unitFn ℝ p i) i) = d := by
      funext i; simp [unitFn, Matrix.mulVec, dotProduct, hd]
    rw [e00] at e0
    have e2 : estimateCurvature (p := p) .diagonal mv (.tree layout) = .ok (.diagonal d) := by
      simp only [estimateCurvature, createDiagonalCurvature, e0, ok_bind, asVec_ofFn]; rfl
    simp only [createPosteriorFn, e2, ok_bind, g1]
  · intro u x hu hx
    rw [← g2]; exact k3 u x hu hx

/-- C26 end to end, low rank: whatever the driver returns (given the flat product and its dimension), the pytree products
are the flat products of those terms; with orthonormal `U`, `S ≥ 0` they are the Gaussian with precision
`(τ/s) I + σ² U diag(S) Uᵀ`. -/
theorem C26_create_posterior_low_rank (layout : PyTree ℝ) (hsz : numEntries layout = p) (hp : 0 < p)
    (mv : PyTree ℝ → Except Err (PyTree ℝ)) (C : Matrix (Fin p) (Fin p) ℝ)
    (hmv : RepresentsTree layout mv (fun v => C *ᵥ v))
    (driver : (PyTree ℝ → Except Err (PyTree ℝ)) → ℕ → Except Err (LowRankTerms p r)) (t : LowRankTerms p r)
    (hdrv : ∀ g, RepresentsFlat g (fun v => C *ᵥ v) → driver g p = .ok t)
    (hU : t.Uᵀ * t.U = 1) (hS : ∀ k, 0 ≤ t.S k) (a : PriorArgs) (τ : ℝ)
    (hτ : a.priorPrec = some τ) (hτ0 : 0 < τ) (hσ : 0 ≤ a.sigmaSquared.getD 1) (s : ℝ) (hs : 0 < s) :
    ∃ post cov scale, createPosteriorFn (p := p) (.lowRank r driver) mv (.tree layout) a s = .ok post ∧
      post.covMv post.state = .ok cov ∧ post.scaleMv post.state = .ok scale ∧
      ∃ fc fs : Vec p → Vec p,
        IsPosterior ((τ / s) • (1 : Matrix (Fin p) (Fin p) ℝ) +
          a.sigmaSquared.getD 1 • (t.U * Matrix.diagonal t.S * t.Uᵀ)) fc fs ∧
        ∀ (u : PyTree ℝ) (x : Vec p), SameLayout u layout → entries u = List.ofFn x →
          (∃ w, cov [u] = .ok w ∧ SameLayout w layout ∧ WFTree w ∧ entries w = List.ofFn (fc x)) ∧
          (∃ w, scale [u] = .ok w ∧ SameLayout w layout ∧ WFTree w ∧ entries w = List.ofFn (fs x)) := by
  obtain ⟨st, h1, h2, _⟩ := C21_low_rank_posterior t hU hS a τ hτ hτ0 hσ s hs
  obtain ⟨post, g1, g2, g3⟩ := C26_pytree_products (.lowRank t) layout hsz hp a s st h1
  obtain ⟨cov, scale, k1, k2, k3⟩ := g3 post.state
  refine ⟨post, cov, scale, ?_, k1, k2, covMvOfState st, scaleMvOfState st, h2, ?_⟩
  · have e2 : estimateCurvature (p := p) (.lowRank r driver) mv (.tree layout) = .ok (.lowRank t) := by
      have := hdrv _ (wrapped_mv_represents layout hsz hp mv _ hmv)
      simp only [estimateCurvature, getMatvec, ok_bind, getSize_eq, hsz, this]; rfl
    simp only [createPosteriorFn, e2, ok_bind, g1]
  · intro u x hu hx
    rw [← g2]; exact k3 u x hu hx

/-- FULL rejects the documented `int` layout with an `AttributeError` (and `None` with a `ValueError`). -/
theorem C26_full_needs_pytree_layout (mv : PyTree ℝ → Except Err (PyTree ℝ)) (n : ℕ) (a : PriorArgs) (s : ℝ) :
    createPosteriorFn (p := p) .full mv (.int n) a s = .error .attributeError ∧
    Raises (createPosteriorFn (p := p) .full mv .none a s) := ⟨rfl, .valueError, rfl⟩

/-- Non-vacuity: a pytree layout and a callable representing a non-diagonal matrix on it exist. -/
example : ∃ (layout : PyTree ℝ) (mv : PyTree ℝ → Except Err (PyTree ℝ)), numEntries layout = 2 ∧
    RepresentsTree layout mv (fun v => (!![2, 2; 2, 2] : Matrix (Fin 2) (Fin 2) ℝ) *ᵥ v) := by
  refine ⟨.node "dict(a,b)" [.leaf ⟨[1], [0]⟩, .leaf ⟨[], [0]⟩], fun t => match entries t with
    | [x, y] => .ok (.leaf ⟨[2], [2 * x + 2 * y, 2 * x + 2 * y]⟩)
    | _ => .error .typeError, ?_, ?_⟩
  · simp [numEntries, Tree.leaves, Tree.leavesL]
  · intro x t _ _ ht
    have ht' : entries t = [x 0, x 1] := by
      have : entries t = List.ofFn x := ht
      rw [this]; simp [List.ofFn_succ]
    refine ⟨.leaf ⟨[2], [2 * x 0 + 2 * x 1, 2 * x 0 + 2 * x 1]⟩, by simp only [ht'], ?_⟩
    simp [Tree.leaves, List.ofFn_succ, Matrix.mulVec, dotProduct, Fin.sum_univ_two]

/-- **C26 (default loss scaling).** A posterior requested without a loss scaling factor is the posterior of factor 1, for both
entry points and for the three conversions to a precision. -/
theorem C26_default_loss_scaling (ct : CurvType p) (e : CurvEstimate p) (mv : PyTree ℝ → Except Err (PyTree ℝ)) (layout : Layout ℝ)
    (C : Matrix (Fin p) (Fin p) ℝ) (d : Vec p) (t : LowRankTerms p r)
    (a : PriorArgs) : createPosteriorFn ct mv layout a = createPosteriorFn ct mv layout a 1 ∧
    setPosteriorFn e layout a = setPosteriorFn e layout a 1 ∧
    fullCurvatureToPrecision C a = fullCurvatureToPrecision C a 1 ∧ diagonalCurvatureToPrecision d a = diagonalCurvatureToPrecision d a 1 ∧
    lowRankCurvatureToPrecision t a = lowRankCurvatureToPrecision t a 1 := ⟨rfl, rfl, rfl, rfl, rfl⟩

end Laplax.Props
