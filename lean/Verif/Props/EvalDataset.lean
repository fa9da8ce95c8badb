import Verif.Model.EvalDataset
import Verif.Lib.ApiCalibrationLemmas
import Verif.Props.ApiPredictive

/-! # C56: `evaluate_on_dataset` collects the predictions of all data points -/

namespace Laplax.Props
open Laplax Laplax.Spec
open scoped BigOperators Matrix

variable {X K : Type} {p : ℕ}

/-- **C56.** For a predictive that returns at every point the same keys with the same shapes (`shape k = none`: no such key):
whatever batch sizes are given (explicit `None` included), the result holds under every key of the predictive the stack of the
values at the points `0 … N-1` in the order of the data, under `"target"` the stack of the targets (also if the predictive itself
returns such a key), and nothing else. -/
theorem C56_collects_all {N : ℕ} (hN : 0 < N) (xs : Fin N → X) (ts : Fin N → Arr ℝ) (tsh : List ℕ) (hts : ∀ i, (ts i).shape = tsh)
    (predFn : X → Except Err (Dict (Arr ℝ))) (shape : String → Option (List ℕ)) (value : String → Fin N → List ℝ)
    (hpred : ∀ i, ∃ r, predFn (xs i) = .ok r ∧ ∀ k, r.get? k = (shape k).map fun sh => ⟨sh, value k i⟩)
    (own : Option (Option ℕ)) (dataBatchSize : Option ℕ) (h0 : own ≠ some (some 0)) (h1 : own = none → dataBatchSize ≠ some 0) :
    ∃ out, evaluateOnDataset predFn (List.ofFn fun i => (xs i, ts i)) own dataBatchSize = .ok out ∧
      out.get? "target" = some ⟨N :: tsh, (List.ofFn fun i => (ts i).data).flatten⟩ ∧
      ∀ k, k ≠ "target" → out.get? k = (shape k).map fun sh => ⟨N :: sh, (List.ofFn fun i => value k i).flatten⟩ := by
  have hb : evalBatchSize own dataBatchSize ≠ some 0 := by
    cases own with
    | none => exact h1 rfl
    | some b => intro h; exact h0 (by simp only [evalBatchSize] at h; rw [h])
  choose r hr hv using hpred
  have hmap : mapE (evaluateDataPoint predFn) (List.ofFn fun i => (xs i, ts i)) = .ok (List.ofFn fun i => (r i).set "target" (ts i)) := by
    apply mapE_ofFn
    intro i
    simp only [evaluateDataPoint, hr, ok_bind]; rfl
  obtain ⟨D, hD, hDk⟩ := stackDicts_ok hN (fun i => (r i).set "target" (ts i))
    (fun i k => if "target" = k then some (ts i) else (shape k).map fun sh => ⟨sh, value k i⟩)
    (fun i k => by rw [Dict.get?_set, hv]) (fun k i j h => by
      by_cases hk : "target" = k
      · simp [hk]
      · simp only [hk, if_false, Option.isSome_map] at h ⊢; exact h)
  refine ⟨D, ?_, ?_, fun k hk => ?_⟩
  · simp only [evaluateOnDataset, laxMap_eq _ hb, hmap, ok_bind, hD]
  · rw [hDk]; simp [hts]
  · rw [hDk]
    have hk' : ¬ ("target" = k) := fun h => hk h.symm
    cases hs : shape k with
    | none => simp [hk', hs]
    | some sh => simp [hk', hs]

/-- **C56 (errors).** If the predictive raises at some point, the call raises the exception of the first such point, whatever the batch
size; a batch size of zero raises `ZeroDivisionError`. -/
theorem C56_errors (predFn : X → Except Err (Dict (Arr ℝ))) (pre : List (X × Arr ℝ)) (dp : X × Arr ℝ) (rest : List (X × Arr ℝ))
    (e : Err) (hpre : ∀ q ∈ pre, ∃ r, predFn q.1 = .ok r) (he : predFn dp.1 = .error e) (dataBatchSize : Option ℕ) :
    (∀ own : Option (Option ℕ), own ≠ some (some 0) → (own = none → dataBatchSize ≠ some 0) →
      evaluateOnDataset predFn (pre ++ dp :: rest) own dataBatchSize = .error e) ∧
    evaluateOnDataset predFn (pre ++ dp :: rest) (some (some 0)) dataBatchSize = .error .zeroDivisionError := by
  refine ⟨fun own h0 h1 => ?_, rfl⟩
  have hb : evalBatchSize own dataBatchSize ≠ some 0 := by
    cases own with
    | none => exact h1 rfl
    | some b => intro h; exact h0 (by simp only [evalBatchSize] at h; rw [h])
  have : mapE (evaluateDataPoint predFn) (pre ++ dp :: rest) = .error e := by
    induction pre with
    | nil => simp [mapE, evaluateDataPoint, he, error_bind]
    | cons q pre ih =>
      obtain ⟨r, hr⟩ := hpre q (by simp)
      have := ih (fun q' hq' => hpre q' (by simp [hq']))
      simp only [List.cons_append, mapE, evaluateDataPoint, hr, ok_bind, this, pure, Except.pure, error_bind]
  simp only [evaluateOnDataset, laxMap_eq _ hb, this, error_bind]

/-- **C56 (through the API).** With the linearised predictive that `calibration`/`evaluation` build (predictive type `none`), the result on
any data set holds exactly the model outputs, predictive variances and deviations `diag J P⁻¹ Jᵀ` of all points, and the targets. -/
theorem C56_linear_predictive (a : PredictiveArgs X K p) (hrng : RngOk a.rng) (hp : 0 < p) (hwf : WFTree a.params) (θ : Vec p)
    (hθ : entries a.params = List.ofFn θ) (est : CurvEstimate p) (he : EstimatePsd est)
    (hpost : a.posteriorFn = fun prior s => setPosteriorFn est (.tree a.params) prior s)
    (prior : PriorArgs) (τ : ℝ) (hτ : prior.priorPrec = some τ) (hτ0 : 0 < τ) (hσ : 0 ≤ prior.sigmaSquared.getD 1)
    {N : ℕ} (hN : 0 < N) (xs : Fin N → X) (ts : Fin N → Arr ℝ) (tsh : List ℕ) (hts : ∀ i, (ts i).shape = tsh)
    (own : Option (Option ℕ)) (dataBatchSize : Option ℕ) (h0 : own ≠ some (some 0)) (h1 : own = none → dataBatchSize ≠ some 0) :
    ∃ fns, setupPushforward id (.member "linear") (.member "none") none = .ok (.lin, fns) ∧
      ∃ P : Matrix (Fin p) (Fin p) ℝ, P = targetPrecision τ (prior.sigmaSquared.getD 1) 1 est ∧ P * P⁻¹ = 1 ∧
      ∃ out, evaluateOnDataset (setPushforward a .lin fns prior) (List.ofFn fun i => (xs i, ts i)) own dataBatchSize = .ok out ∧
        ∀ k, out.get? k =
          let f := fun i => a.net.fn (xs i) θ
          let V := fun i => jacobian (a.net.fn (xs i)) θ * P⁻¹ * (jacobian (a.net.fn (xs i)) θ)ᵀ
          if k = "target" then some ⟨N :: tsh, (List.ofFn fun i => (ts i).data).flatten⟩
          else if k = "map" ∨ k = "pred_mean" then some (ensArr a.net.shape f)
          else if k = "pred_var" then some (ensArr a.net.shape fun i j => V i j j)
          else if k = "pred_std" then some (ensArr a.net.shape fun i j => Real.sqrt (V i j j))
          else none := by
  obtain ⟨fns, eps, h2, -, h3⟩ := C51_linear_predictive id (.member "linear") (.member "none") "none" rfl rfl a hrng hp hwf θ hθ est he hpost
    (Or.inl rfl)
  obtain ⟨P, R, hP, hPi, -, h4⟩ := h3 prior τ hτ hτ0 hσ
  refine ⟨fns, h2, P, hP, hPi, ?_⟩
  obtain ⟨out, ho, ht, hk⟩ := C56_collects_all hN xs ts tsh hts (setPushforward a .lin fns prior)
    (fun k => if k = "map" ∨ k = "pred_mean" ∨ k = "pred_var" ∨ k = "pred_std" then some a.net.shape else none)
    (fun k i => if k = "map" ∨ k = "pred_mean" then List.ofFn (a.net.fn (xs i) θ)
      else if k = "pred_var" then List.ofFn fun j => (jacobian (a.net.fn (xs i)) θ * P⁻¹ * (jacobian (a.net.fn (xs i)) θ)ᵀ) j j
      else List.ofFn fun j => Real.sqrt ((jacobian (a.net.fn (xs i)) θ * P⁻¹ * (jacobian (a.net.fn (xs i)) θ)ᵀ) j j))
    (fun i => by
      obtain ⟨r, hr, hrk⟩ := h4 (xs i)
      refine ⟨r, hr, fun k => ?_⟩
      rw [hrk]
      simp only [apiExpected, arrOf, if_true]
      by_cases c1 : k = "map" ∨ k = "pred_mean"
      · have : k = "map" ∨ k = "pred_mean" ∨ k = "pred_var" ∨ k = "pred_std" := by tauto
        simp only [c1, this, if_true, Option.map_some]
      · by_cases c2 : k = "pred_var"
        · simp [c2]
        · by_cases c3 : k = "pred_std"
          · simp [c3]
          · have : ¬ (k = "map" ∨ k = "pred_mean" ∨ k = "pred_var" ∨ k = "pred_std") := by tauto
            simp [c1, c2, c3, this]) own dataBatchSize h0 h1
  refine ⟨out, ho, fun k => ?_⟩
  by_cases c0 : k = "target"
  · subst c0; simpa using ht
  rw [hk k c0]
  simp only [c0, if_false]
  by_cases c1 : k = "map" ∨ k = "pred_mean"
  · have : k = "map" ∨ k = "pred_mean" ∨ k = "pred_var" ∨ k = "pred_std" := by tauto
    simp only [c1, this, if_true, Option.map_some, ensArr]
  · by_cases c2 : k = "pred_var"
    · simp [c2, ensArr]
    · by_cases c3 : k = "pred_std"
      · simp [c3, ensArr]
      · have : ¬ (k = "map" ∨ k = "pred_mean" ∨ k = "pred_var" ∨ k = "pred_std") := by tauto
        simp [c1, c2, c3, this]

/-- Non-vacuity: two points, a predictive with two keys one of which is `"target"`, batch size 2 given for this call. -/
example : ∃ out, evaluateOnDataset (fun x : ℝ => .ok [("target", ⟨[], [7]⟩), ("y", ⟨[1], [2 * x]⟩)])
    [((1 : ℝ), (⟨[], [10]⟩ : Arr ℝ)), (2, ⟨[], [20]⟩)] (some (some 2)) (some 0) = .ok out ∧
    out.get? "target" = some ⟨[2], [10, 20]⟩ ∧ out.get? "y" = some ⟨[2, 1], [2 * 1, 2 * 2]⟩ :=
  ⟨_, rfl, rfl, rfl⟩

end Laplax.Props
