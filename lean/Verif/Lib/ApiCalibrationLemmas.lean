import Verif.Model.ApiCalibration
import Verif.Spec.ApiCalibration
import Verif.Props.Calibrate
import Verif.Props.Scores
import Verif.Props.Calibration
import Verif.Props.Accuracy
import Verif.Props.Likelihood
import Verif.Props.ApiPredictive

/-! # Lemmas on calibration runs -/

namespace Laplax
open Laplax.Spec Laplax.Props
open scoped BigOperators Matrix

variable {X K A : Type} {p : ℕ}

/-! ### Dictionaries of stacked results -/

theorem Dict.mem_keys_iff {V : Type} (d : Dict V) (k : String) : k ∈ d.keys ↔ ∃ v, d.get? k = some v := by
  induction d with
  | nil => simp [Dict.keys, Dict.get?]
  | cons e d ih =>
    obtain ⟨k0, v0⟩ := e
    simp only [Dict.keys, List.map_cons, List.mem_cons, Dict.get?] at ih ⊢
    by_cases h : k0 = k
    · simp [h]
    · simp only [h, if_false, Ne.symm h, false_or]; exact ih

theorem Dict.get?_map_keys {V : Type} (ks : List String) (g : String → V) (k : String) :
    Dict.get? (ks.map fun k => (k, g k)) k = if k ∈ ks then some (g k) else none := by
  induction ks with
  | nil => simp [Dict.get?]
  | cons a ks ih =>
    simp only [List.map_cons, Dict.get?, ih, List.mem_cons]
    by_cases h : a = k
    · simp [h]
    · simp [h, Ne.symm h]

/-- Stacking result dictionaries that all have the keys of the first. -/
theorem stackDicts_ok {N : ℕ} (hN : 0 < N) (rs : Fin N → Dict (Arr ℝ)) (E : Fin N → String → Option (Arr ℝ))
    (h : ∀ i k, (rs i).get? k = E i k) (hk : ∀ k i j, (E i k).isSome → (E j k).isSome) :
    ∃ D, stackDicts (List.ofFn rs) = .ok D ∧
      ∀ k, D.get? k = if (E ⟨0, hN⟩ k).isSome then
        some ⟨N :: ((E ⟨0, hN⟩ k).getD ⟨[], []⟩).shape, (List.ofFn fun i => ((E i k).getD ⟨[], []⟩).data).flatten⟩ else none := by
  obtain ⟨n, rfl⟩ : ∃ n, N = n + 1 := ⟨N - 1, by omega⟩
  have hz : (⟨0, hN⟩ : Fin (n + 1)) = 0 := rfl
  rw [hz]
  refine ⟨(rs 0).keys.map (fun k => (k, (⟨(n + 1) :: ((E 0 k).getD ⟨[], []⟩).shape,
    (List.ofFn fun i => ((E i k).getD ⟨[], []⟩).data).flatten⟩ : Arr ℝ))), ?_, fun k => ?_⟩
  · rw [List.ofFn_succ]
    simp only [stackDicts]
    rw [← List.ofFn_succ (f := rs)]
    refine mapE_of_forall _ _ _ fun k hk' => ?_
    obtain ⟨v, hv⟩ := (Dict.mem_keys_iff _ _).1 hk'
    rw [h] at hv
    have hall : ∀ i, Dict.getE (rs i) k = .ok ((E i k).getD ⟨[], []⟩) := by
      intro i
      have h1 := hk k 0 i (by rw [hv]; rfl)
      unfold Dict.getE
      rw [h i k]
      obtain ⟨w, hw⟩ := Option.isSome_iff_exists.1 h1
      rw [hw]; rfl
    rw [mapE_ofFn (fun d => Dict.getE d k) rs (fun i => (E i k).getD ⟨[], []⟩) hall, ok_bind, List.ofFn_succ]
    simp only [stackOf, ok_bind, stackArr, pure, Except.pure]
    congr 3
    · simp
    · congr 1
      simp only [List.ofFn_succ, List.map_cons, List.map_ofFn]
      rfl
  · rw [Dict.get?_map_keys]
    by_cases hs : (E 0 k).isSome
    · rw [if_pos hs, if_pos]
      obtain ⟨w, hw⟩ := Option.isSome_iff_exists.1 hs
      exact (Dict.mem_keys_iff _ _).2 ⟨w, by rw [h, hw]⟩
    · rw [if_neg hs, if_neg]
      intro hmem
      obtain ⟨w, hw⟩ := (Dict.mem_keys_iff _ _).1 hmem
      rw [h] at hw
      rw [hw] at hs; simp at hs

/-- Reading the points of a batch and their predictions, then stacking. -/
theorem evaluate_ok {N : ℕ} (hN : 0 < N) (xs : Fin N → X) (ts : Fin N → Arr ℝ) (set : PriorArgs → X → Except Err (Dict (Arr ℝ)))
    (metric : Dict (Arr ℝ) → Except Err ℝ) (prior : PriorArgs) (E : Fin N → String → Option (Arr ℝ))
    (hk : ∀ k i j, (E i k).isSome → (E j k).isSome)
    (h : ∀ i, ∃ r, set prior (xs i) = .ok r ∧ ∀ k, r.get? k = E i k) :
    ∃ D, evaluateForGivenPriorArguments (List.ofFn fun i => (xs i, ts i)) set metric prior = metric D ∧
      ∀ k, D.get? k = if k = "target" then some ⟨N :: (ts ⟨0, hN⟩).shape, (List.ofFn fun i => (ts i).data).flatten⟩
        else if (E ⟨0, hN⟩ k).isSome then
        some ⟨N :: ((E ⟨0, hN⟩ k).getD ⟨[], []⟩).shape, (List.ofFn fun i => ((E i k).getD ⟨[], []⟩).data).flatten⟩ else none := by
  choose r h1 h2 using h
  obtain ⟨D, d1, d2⟩ := stackDicts_ok hN (fun i => (r i).set "target" (ts i)) (fun i k => if k = "target" then some (ts i) else E i k)
    (fun i k => by rw [Dict.get?_set, h2 i k]; by_cases e : k = "target" <;> simp [e, eq_comm])
    (fun k i j hi => by
      by_cases e : k = "target"
      · simp [e]
      · simp only [e, if_false] at hi ⊢; exact hk k i j hi)
  refine ⟨D, ?_, fun k => ?_⟩
  · unfold evaluateForGivenPriorArguments
    rw [mapE_ofFn _ (fun i => (xs i, ts i)) (fun i => (r i).set "target" (ts i)) (fun i => by simp only [h1 i, ok_bind]; rfl), ok_bind, d1, ok_bind]
  · rw [d2]
    by_cases e : k = "target" <;> simp [e]

/-! ### Sums over stacked arrays -/

theorem sum_stacked {N c m : ℕ} (hm : m = N * c) (g : ℕ → ℝ) : ∑ i : Fin m, g i.val = ∑ i : Fin N, ∑ k : Fin c, g (i.val * c + k.val) := by
  subst hm
  rw [← Fintype.sum_prod_type']
  refine (Fintype.sum_equiv finProdFinEquiv _ _ fun ik => ?_).symm
  congr 1
  simp only [finProdFinEquiv_apply_val]; ring

theorem shapeSize_stack (N : ℕ) (sh : List ℕ) : shapeSize (N :: sh) = N * shapeSize sh := shapeSize_cons N sh

/-! ### The search -/

theorem jnpLogspace_eq (lo hi : ℝ) (n : ℕ) : jnpLogspace lo hi n = precGrid lo hi n := by
  unfold jnpLogspace precGrid
  rw [range_map_eq_ofFn]

theorem chosen_of_search (xs : List ℝ) (hne : xs ≠ []) (obj : ℝ → ObjRes (WithTop ℝ)) (patience : Option Int) (s : ℝ → WithTop ℝ)
    (hs : ∀ q ∈ xs, evalObjective (obj q) = .ok (s q)) :
    ∃ q tried, gridSearch xs obj patience none = .ok (q, tried) ∧ ChosenBy xs s patience q tried := by
  obtain ⟨n, i, hi, h1, h2, h3, h4, h5, h6⟩ := C28_grid_search obj patience none xs hne (fun j => s (xs.getD j 0)) (fun j hj => by
    rw [hs _ (List.getElem_mem hj)]; simp [List.getD_eq_getElem?_getD, hj])
  exact ⟨_, _, h6, n, i, h5.1, h2, h3, h4, h5, by simp [hi], rfl⟩

theorem best_of_chosen {xs : List ℝ} {s : ℝ → WithTop ℝ} {q : ℝ} {tried : List ℝ} (h : ChosenBy xs s none q tried) :
    tried = xs ∧ BestOf xs s q := by
  obtain ⟨n, i, h1, h2, h3, h4, h5, h6, h7⟩ := h
  have hn : n = xs.length := by
    rcases h3 with h | ⟨p, h, _⟩ | ⟨m, h, _⟩
    · exact h
    · exact absurd h (by simp)
    · exact absurd h (by simp)
  subst hn
  have hg : ∀ j x, xs[j]? = some x → xs.getD j 0 = x := by
    intro j x hx; rw [List.getD_eq_getElem?_getD, hx]; rfl
  refine ⟨by rw [h7, List.take_length], List.mem_of_getElem? h6, fun x hx => ?_, i, h6, fun j x hj hx => ?_⟩
  · obtain ⟨j, hj, rfl⟩ := List.mem_iff_getElem.1 hx
    have := h5.2.1 j hj
    beta_reduce at this
    rw [hg i q h6, hg j _ (List.getElem?_eq_getElem hj)] at this
    exact this
  · have := h5.2.2 j hj
    beta_reduce at this
    rw [hg i q h6, hg j x hx] at this
    exact this

theorem precGrid_pos {lo hi : ℝ} {n : ℕ} {q : ℝ} (h : q ∈ precGrid lo hi n) : 0 < q := by
  simp only [precGrid, List.mem_ofFn] at h
  obtain ⟨i, rfl⟩ := h
  exact Real.rpow_pos_of_pos (by norm_num) _

theorem isClassification_false_iff {pr : EnumArg} : isClassification pr = false ↔ NoPredictive pr := by
  cases pr <;> simp [isClassification, NoPredictive]

theorem isClassification_true_iff {pr : EnumArg} : isClassification pr = true ↔ ¬ NoPredictive pr := by
  rw [← isClassification_false_iff]; simp

/-- One batch, read as inputs and targets. -/
theorem batch_points {data : PyObj A} {xy : PyObj A × PyObj A} (hb : BatchOf data xy) (rows : A → Except Err (List A))
    (points : PyObj A → PyObj A → Except Err (List (X × Arr ℝ))) (pts : List (X × Arr ℝ)) (hp : points xy.1 xy.2 = .ok pts) :
    ∃ tr d, data.validateAndGetTransform rows = .ok tr ∧ tr data = .ok d ∧ batchPoints points d = .ok pts := by
  cases hb with
  | pair x y => exact ⟨_, _, rfl, rfl, hp⟩
  | mapping kvs x y hx hy =>
    refine ⟨fun d => .ok d, .dct kvs, by simp [PyObj.validateAndGetTransform, Dict.mem, hx, hy], rfl, ?_⟩
    simp only [batchPoints, PyObj.field, Dict.getE, hx, hy, ok_bind]; exact hp

/-- A calibration by grid search whose objective gives the scores `s` chooses by `s`. -/
theorem calibration_grid (lower : String → String) (rows : A → Except Err (List A))
    (points : PyObj A → PyObj A → Except Err (List (X × Arr ℝ))) (a : PredictiveArgs X K p) (data : PyObj A)
    (loss : (B : ℕ) → HessLossArg B (shapeSize a.net.shape)) (e : CurvEstimate p) (predictive pushforward : EnumArg)
    (fns : Option (List PfName)) (objective method : EnumArg) (options : Dict (CalMethod (PyObj A) (WithTop ℝ))) (kw : GridKwargs)
    (kind : PfKind) (fs : List PfName) (hset : setupPushforward lower pushforward predictive fns = .ok (kind, fs))
    (o : Objective) (ho : buildCalibrationObjective lower objective false false false false false (isClassification predictive) = .ok o)
    (hm : convertToEnum lower calibrationMethodValues true method = .ok (.member "grid_search"))
    {xy : PyObj A × PyObj A} (hb : BatchOf data xy) (pts : List (X × Arr ℝ)) (hp : points xy.1 xy.2 = .ok pts)
    (hn : 0 < kw.gridSize.getD 50) (s : ℝ → WithTop ℝ)
    (hs : ∀ τ, 0 < τ → evalObjective (objectiveFn a (setPushforward a kind fs) loss e o pts ⟨some τ, none⟩) = .ok (s τ)) :
    ∃ q tried, calibration lower rows points a data loss e predictive pushforward fns objective method options kw =
        .ok (⟨some q, none⟩, setPushforward a kind fs, tried) ∧
      ChosenBy (precGrid (kw.logPriorPrecMin.getD (-3)) (kw.logPriorPrecMax.getD 3) (kw.gridSize.getD 50)) s kw.patience q tried ∧ 0 < q := by
  obtain ⟨tr, d, t1, t2, t3⟩ := batch_points hb rows points pts hp
  obtain ⟨q, tried, g1, g2⟩ := chosen_of_search (precGrid (kw.logPriorPrecMin.getD (-3)) (kw.logPriorPrecMax.getD 3) (kw.gridSize.getD 50))
    (by intro h; have := congrArg List.length h; simp [precGrid] at this; omega)
    (fun q => onBatch points (objectiveFn a (setPushforward a kind fs) loss e o) ⟨some q, none⟩ d) kw.patience s
    (fun q hq => by simp only [onBatch, t3]; exact hs q (precGrid_pos hq))
  have hq : 0 < q := by
    obtain ⟨n, i, _, _, _, _, _, h6, _⟩ := g2
    exact precGrid_pos (List.mem_of_getElem? h6)
  refine ⟨q, tried, ?_, g2, hq⟩
  simp only [calibration, hset, ok_bind, ho, hm, if_true, t1, t2, optimizePriorPrec, jnpLogspace_eq, g1]
  rfl

end Laplax
