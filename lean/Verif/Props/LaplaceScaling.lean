import Verif.Props.LaplaceKwargs

/-! # C42: the scaling of `laplace`, end to end -/

namespace Laplax.Props
open Laplax Spec
open scoped BigOperators Matrix

variable {p c : ℕ} {A X Y Key : Type}

/-- The GGN sum of a data set repeated `k` times. -/
theorem ggnSamples_replicate (model : X → Vec p → Vec c) (θ : Vec p) (H : Vec c → Vec c → Y → Vec c) (samples : List (X × Y)) (k : ℕ)
    (v : Vec p) : ggnSamples model θ H (List.replicate k samples).flatten v = (k : ℝ) • ggnSamples model θ H samples v := by
  induction k with
  | zero => simp [ggnSamples]
  | succ k ih =>
    have : ggnSamples model θ H (List.replicate (k + 1) samples).flatten v =
        ggnSamples model θ H samples v + ggnSamples model θ H (List.replicate k samples).flatten v := by
      simp [ggnSamples, List.replicate_succ]
    rw [this, ih]
    push_cast
    rw [add_smul, one_smul, add_comm]

section
variable (E : LowRankExt Key) (jit : Bool) (lower : String → String) (rows : A → Except Err (List A))
    (points : PyObj A → PyObj A → Except Err (List (X × Y))) (model : X → Vec p → Vec c)
    (bmodel : PyObj A → Except Err (Σ B : ℕ, Vec p → Fin B → Vec c)) (params : PyTree ℝ) (θ : Vec p) (data : PyObj A)
    (ps : List (PyObj A × PyObj A)) (decode : PyObj A × PyObj A → List (X × Y)) (h : ReadableData points params θ data ps decode)
    (hd : ∀ s ∈ ps.flatMap decode, DifferentiableAt ℝ (model s.1) θ)
    (lossFn : LossObj c Y (PyObj A)) (H : Vec c → Vec c → Y → Vec c) (hH : createLossHessianMv lossFn.perSample = .ok H)
    (numCurv numTotal : ℕ) (hN : numTotal ≠ 0)

include h hd hH hN in
/-- **C42 (`laplace`, end to end).** For every model, data set and batching, `laplace` with curvature type FULL returns the matrix
`num_curv/num_total · Σ Jᵀ H J`, so it returns the compensated curvature `num_total/num_curv · Σ Jᵀ H J` of the property **exactly when**
the two counts are equal or the sum over the curvature samples vanishes. -/
theorem C42_laplace_correct_iff (curvType : EnumArg) (hct : convertToEnum lower curvApproxValues false curvType = .ok (.member "full"))
    (hm : numCurv ≠ 0) (Gs : Mat p p) (hG : ∀ v, Gs *ᵥ v = ggnSamples model θ H (ps.flatMap decode) v) :
    ∃ posteriorFn est,
      laplaceKw E ⟨true, jit⟩ lower rows points model bmodel params data lossFn curvType numCurv numTotal {} = .ok (posteriorFn, est) ∧
      est = .full (((numCurv : ℝ) / numTotal) • Gs) ∧
      (est = .full (((numTotal : ℝ) / numCurv) • Gs) ↔ numCurv = numTotal ∨ Gs = 0) := by
  obtain ⟨G, h1, h2⟩ := C59_full_and_diagonal_ignore_keywords E jit lower rows points model bmodel params θ data ps decode h hd lossFn H hH
    numCurv numTotal hN curvType "full" (Or.inl rfl) hct {} (by simp)
  have hGG : G = ((numCurv : ℝ) / numTotal) • Gs := by
    apply Matrix.toLin'.injective
    apply LinearMap.ext
    intro v
    rw [Matrix.toLin'_apply, Matrix.toLin'_apply, h1, Matrix.smul_mulVec, hG]
  subst hGG
  rw [if_pos rfl] at h2
  refine ⟨_, _, h2, rfl, ?_⟩
  have hm' : (0 : ℝ) < numCurv := by exact_mod_cast Nat.pos_of_ne_zero hm
  have hN' : (0 : ℝ) < numTotal := by exact_mod_cast Nat.pos_of_ne_zero hN
  rw [CurvEstimate.full.injEq]
  constructor
  · intro he
    by_cases hz : Gs = 0
    · exact Or.inr hz
    · left
      have := smul_left_injective ℝ hz he
      rw [div_eq_div_iff hN'.ne' hm'.ne'] at this
      have : (numCurv : ℝ) = numTotal := by nlinarith
      exact_mod_cast this
  · rintro (rfl | rfl)
    · rfl
    · simp

include h hd hH hN in
/-- **C42 (`laplace`, replicated data).** Replicating the data set `k` times (in any batching, with `num_curv_samples` counting the
replicas) should leave the curvature unchanged; `laplace` multiplies it by `k²`. -/
theorem C42_laplace_replicated_data (curvType : EnumArg) (hct : convertToEnum lower curvApproxValues false curvType = .ok (.member "full"))
    (k : ℕ) (data' : PyObj A) (ps' : List (PyObj A × PyObj A)) (decode' : PyObj A × PyObj A → List (X × Y))
    (h' : ReadableData points params θ data' ps' decode') (hrep : ps'.flatMap decode' = (List.replicate k (ps.flatMap decode)).flatten) :
    ∃ (f f' : PriorArgs → ℝ → Except Err (Posterior p)) (G : Mat p p),
      laplaceKw E ⟨true, jit⟩ lower rows points model bmodel params data lossFn curvType numCurv numTotal {} = .ok (f, .full G) ∧
      laplaceKw E ⟨true, jit⟩ lower rows points model bmodel params data' lossFn curvType (k * numCurv) numTotal {} =
        .ok (f', .full ((k : ℝ) ^ 2 • G)) := by
  obtain ⟨G, h1, h2⟩ := C59_full_and_diagonal_ignore_keywords E jit lower rows points model bmodel params θ data ps decode h hd lossFn H hH
    numCurv numTotal hN curvType "full" (Or.inl rfl) hct {} (by simp)
  obtain ⟨G', g1, g2⟩ := C59_full_and_diagonal_ignore_keywords E jit lower rows points model bmodel params θ data' ps' decode' h'
    (fun s hs => hd s (by
      rw [hrep] at hs
      obtain ⟨l, hl, hsl⟩ := List.mem_flatten.mp hs
      rwa [(List.mem_replicate.mp hl).2] at hsl)) lossFn H hH
    (k * numCurv) numTotal hN curvType "full" (Or.inl rfl) hct {} (by simp)
  rw [if_pos rfl] at h2 g2
  have hGG : G' = (k : ℝ) ^ 2 • G := by
    apply Matrix.toLin'.injective
    apply LinearMap.ext
    intro v
    rw [Matrix.toLin'_apply, Matrix.toLin'_apply, g1, Matrix.smul_mulVec, h1, hrep, ggnSamples_replicate, smul_smul, smul_smul]
    congr 1
    push_cast
    ring
  subst hGG
  exact ⟨_, _, G, h2, g2⟩

end

/-- All hypotheses are met by the two-parameter model on two batches of two samples, with four of ten samples used. -/
example (E : LowRankExt Key) : ∃ f est, laplaceKw E ⟨true, true⟩ (fun s => s) (fun _ => .error .typeError) wPoints (wModel 1) (wBatchModel 1)
    wParams (.iter (.reiterable [.tup [.arr [1, 2], .arr [5, 6]], .tup [.arr [3, 4], .arr [7, 8]]])) (.name "mse") (.str "full")
    4 10 {} = .ok (f, est) := by
  obtain ⟨Gs, hGs⟩ : ∃ Gs : Mat 2 2, ∀ v, Gs *ᵥ v = ggnSamples (wModel 1) ![2, 3] (fun jv _ _ => mseHessianMv jv) (wPs.flatMap wDecode) v := by
    obtain ⟨G, hG, -⟩ := laplaceWith_matrix true (fun s => s) (fun _ => .error .typeError) wPoints (wModel 1) (wBatchModel 1) wParams ![2, 3]
      (.iter (.reiterable [.tup [.arr [1, 2], .arr [5, 6]], .tup [.arr [3, 4], .arr [7, 8]]])) wPs wDecode wReadable (wDiff 1) (.name "mse") _ rfl
      1 1 (by norm_num) (.str "full") _ rfl
    exact ⟨G, fun v => by rw [hG]; simp⟩
  obtain ⟨f, est, h1, -⟩ := C42_laplace_correct_iff E true (fun s => s) (fun _ => .error .typeError) wPoints (wModel 1) (wBatchModel 1) wParams
    ![2, 3] _ wPs wDecode wReadable (wDiff 1) (.name "mse") _ rfl 4 10 (by norm_num) (.str "full") rfl (by norm_num) Gs hGs
  exact ⟨f, est, h1⟩

end Laplax.Props
