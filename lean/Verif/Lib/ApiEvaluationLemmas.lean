import Verif.Model.ApiEvaluation
import Verif.Spec.ApiEvaluation
import Verif.Lib.ApiCalibrationLemmas
import Verif.Props.Laplace

/-! # Lemmas on evaluation runs -/

namespace Laplax
open Laplax.Spec Laplax.Props
open scoped BigOperators Matrix

variable {X K A : Type} {p : ℕ}

theorem concatAll_stacks (sh : List ℕ) (L : List (List (List ℝ))) (hL : L ≠ []) :
    concatAll (L.map fun l => (⟨l.length :: sh, l.flatten⟩ : Arr ℝ)) = .ok ⟨L.flatten.length :: sh, L.flatten.flatten⟩ := by
  cases L with
  | nil => exact absurd rfl hL
  | cons l0 L =>
    simp only [concatAll, List.map_cons]
    clear hL
    induction L generalizing l0 with
    | nil => simp; rfl
    | cons l1 L ih =>
      have h := ih (l0 ++ l1)
      simp only [List.map_cons, List.foldlM_cons, concatAxis0, if_true, ok_bind]
      simp only [List.length_append, List.flatten_append, List.flatten_cons, List.append_assoc] at h
      rw [h]
      simp [List.append_assoc, Nat.add_assoc]

theorem mapE_map {B C D : Type} (g : B → C) (f : C → Except Err D) (xs : List B) : mapE (f ∘ g) xs = mapE f (xs.map g) := by
  induction xs with
  | nil => rfl
  | cons x xs ih => simp only [List.map_cons, mapE, ih, Function.comp]

theorem mapE_forall2 {B C D : Type} {f : B → Except Err D} {g : C → Except Err D} {xs : List B} {ys : List C}
    (h : List.Forall₂ (fun x y => f x = g y) xs ys) : mapE f xs = mapE g ys := by
  induction h with
  | nil => rfl
  | cons h _ ih => simp only [mapE, h, ih]

theorem get?_mapKeys {V : Type} {ks : List String} (g : String → V) {k : String} (hk : k ∈ ks) :
    Dict.getE (ks.map fun k => (k, g k)) k = .ok (g k) := by
  unfold Dict.getE
  rw [Dict.get?_map_keys, if_pos hk]

theorem keys_mapKeys {V : Type} (ks : List String) (g : String → V) : Dict.keys (ks.map fun k => (k, g k)) = ks := by
  simp [Dict.keys, Function.comp_def]

theorem stackOf_map {P : Type} (sh : List ℕ) (dat : P → List ℝ) (pts : List P) (h : pts ≠ []) :
    stackOf (pts.map fun pt => (⟨sh, dat pt⟩ : Arr ℝ)) = .ok ⟨pts.length :: sh, (pts.map dat).flatten⟩ := by
  cases pts with
  | nil => exact absurd rfl h
  | cons a as => simp [stackOf, stackArr, Function.comp_def]

/-- Dictionaries with the same keys and shapes are stacked key by key. -/
theorem stackDicts_map {P : Type} (ks : List String) (sh : String → List ℕ) (dat : P → String → List ℝ) (pts : List P) (h : pts ≠ []) :
    stackDicts (pts.map fun pt => ks.map fun k => (k, (⟨sh k, dat pt k⟩ : Arr ℝ))) =
      .ok (ks.map fun k => (k, ⟨pts.length :: sh k, (pts.map (dat · k)).flatten⟩)) := by
  cases hp : pts with
  | nil => exact absurd hp h
  | cons a as =>
    simp only [List.map_cons, stackDicts, keys_mapKeys]
    refine mapE_of_forall _ _ _ fun k hk => ?_
    have := mapE_of_forall (fun d => Dict.getE d k) (fun d => (Dict.get? d k).getD ⟨[], []⟩)
      ((a :: as).map fun pt => ks.map fun k => (k, (⟨sh k, dat pt k⟩ : Arr ℝ))) (by
        intro d hd
        simp only [List.mem_map] at hd
        obtain ⟨pt, -, rfl⟩ := hd
        rw [get?_mapKeys _ hk, Dict.get?_map_keys, if_pos hk]; rfl)
    simp only [List.map_cons] at this
    rw [this, ok_bind]
    have e := stackOf_map (sh k) (dat · k) (a :: as) (by simp)
    simp only [Dict.get?_map_keys, if_pos hk, Option.getD_some, List.map_map, Function.comp_def]
    simp only [List.map_cons] at e
    rw [e]; rfl

theorem reduceMetrics_ok {V W : Type} (reduce : List V → Except Err W) (rs : List (Dict V)) (ks : List String) (g : String → W)
    (h : ∀ k ∈ ks, ∃ vs, mapE (fun r => Dict.getE r k) rs = .ok vs ∧ reduce vs = .ok (g k)) :
    reduceMetrics reduce rs ks = .ok (ks.map fun k => (k, g k)) := by
  induction ks with
  | nil => rfl
  | cons k ks ih =>
    obtain ⟨vs, h1, h2⟩ := h k (by simp)
    simp only [reduceMetrics, h1, h2, ok_bind, ih fun k' hk' => h k' (by simp [hk'])]
    rfl

/-- The batches of a loader are evaluated point by point, whatever the partition. -/
theorem evaluateOnBatches_ok {D : Type} (predFn : X → Except Err (Dict (Arr ℝ))) (ms : List (StepFn (Arr ℝ)))
    (tr : D → Except Err (List (X × Arr ℝ))) (kw : Dict (Arr ℝ)) (bs : List D) (hbs : bs ≠ []) (decode : D → List (X × Arr ℝ))
    (htr : ∀ b ∈ bs, tr b = .ok (decode b) ∧ decode b ≠ []) (ks : List String) (sh : String → List ℕ)
    (dat : X × Arr ℝ → String → List ℝ)
    (h : ∀ pt ∈ bs.flatMap decode, evaluatePoint predFn ms kw pt = .ok (ks.map fun k => (k, ⟨sh k, dat pt k⟩))) :
    evaluateOnBatches predFn ms tr concatAll kw bs =
      .ok (ks.map fun k => (k, ⟨(bs.flatMap decode).length :: sh k, ((bs.flatMap decode).map (dat · k)).flatten⟩)) := by
  have hb : ∀ b ∈ bs, (do let pts ← tr b; evaluateBatch predFn ms kw pts) =
      .ok (ks.map fun k => (k, (⟨(decode b).length :: sh k, ((decode b).map (dat · k)).flatten⟩ : Arr ℝ))) := by
    intro b hb
    rw [(htr b hb).1, ok_bind, evaluateBatch, mapE_of_forall _ (fun pt => ks.map fun k => (k, (⟨sh k, dat pt k⟩ : Arr ℝ))) _
      (fun pt hpt => h pt (List.mem_flatMap.2 ⟨b, hb, hpt⟩)), ok_bind, stackDicts_map _ _ _ _ (htr b hb).2]
  unfold evaluateOnBatches
  rw [mapE_of_forall _ _ _ hb, ok_bind]
  cases hc : bs with
  | nil => exact absurd hc hbs
  | cons b0 bs0 =>
    simp only [List.map_cons, keys_mapKeys]
    rw [← List.map_cons (f := fun b => ks.map fun k => (k, (⟨(decode b).length :: sh k, ((decode b).map (dat · k)).flatten⟩ : Arr ℝ))), ← hc]
    refine reduceMetrics_ok _ _ _ _ fun k hk => ⟨bs.map fun b => ⟨(decode b).length :: sh k, ((decode b).map (dat · k)).flatten⟩, ?_, ?_⟩
    · rw [mapE_ok_iff, List.forall₂_map_left_iff, List.forall₂_map_right_iff, List.forall₂_same]
      intro b _
      exact get?_mapKeys _ hk
    · have := concatAll_stacks (sh k) (bs.map fun b => (decode b).map (dat · k)) (by simpa using hbs)
      simp only [List.map_map, Function.comp_def, List.length_map] at this
      rw [this]
      simp only [List.flatMap, List.map_flatten, List.map_map, Function.comp_def, List.length_flatten, List.length_map]

/-- Whatever the form of the data: the metrics are those of its points, in order. -/
theorem evaluationMetrics_ok (rows : A → Except Err (List A)) (points : PyObj A → PyObj A → Except Err (List (X × Arr ℝ)))
    (predFn : X → Except Err (Dict (Arr ℝ))) (ms : List (StepFn (Arr ℝ))) (tt : Arr ℝ) (data : PyObj A) (pts : List (X × Arr ℝ))
    (hd : PointsAre points data pts) (ks : List String) (sh : String → List ℕ) (dat : X × Arr ℝ → String → List ℝ)
    (h : ∀ kw ∈ [[], [("has_batch", tt)]], ∀ pt ∈ pts, evaluatePoint predFn ms kw pt = .ok (ks.map fun k => (k, ⟨sh k, dat pt k⟩))) :
    evaluationMetrics rows points predFn ms .ok tt data = .ok (ks.map fun k => (k, ⟨pts.length :: sh k, (pts.map (dat · k)).flatten⟩)) := by
  obtain ⟨ps, decode, hdata, hdec, rfl⟩ := hd
  cases hdata with
  | single _ xy hb =>
    obtain ⟨tr, d, t1, t2, t3⟩ := batch_points hb rows points _ (hdec xy (by simp)).1
    have hl : data.isDataLoader = false := by cases hb <;> rfl
    simp only [evaluationMetrics, hl, Bool.false_eq_true, if_false, t1, t2, t3, ok_bind]
    simp only [List.flatMap_cons, List.flatMap_nil, List.append_nil] at h ⊢
    simp only [evaluateMetricsOnDataset, initMetrics]
    rw [mapE_of_forall _ _ _ (h [] (by simp)), ok_bind]
    have hne := (hdec xy (by simp)).2
    cases hc : decode xy with
    | nil => exact absurd hc hne
    | cons b0 bs0 =>
      simp only [List.map_cons, keys_mapKeys]
      rw [← List.map_cons (f := fun pt => ks.map fun k => (k, (⟨sh k, dat pt k⟩ : Arr ℝ))), ← hc]
      refine reduceMetrics_ok _ _ _ _ fun k hk => ⟨(decode xy).map fun pt => ⟨sh k, dat pt k⟩, ?_, ?_⟩
      · rw [mapE_ok_iff, List.forall₂_map_left_iff, List.forall₂_map_right_iff, List.forall₂_same]
        intro b _
        exact get?_mapKeys _ hk
      · rw [stackOf_map _ _ _ hne]; simp [hc]; rfl
  | pairs _ hne =>
    cases ps with
    | nil => exact absurd rfl hne
    | cons p0 ps =>
      have e : evaluationMetrics rows points predFn ms .ok tt (.iter (.reiterable ((p0 :: ps).map fun xy => .tup [xy.1, xy.2]))) =
        evaluateOnBatches predFn ms (fun b => do let d ← PyObj.inputTargetSplit rows b; batchPoints points d) concatAll
          [("has_batch", tt)] ((p0 :: ps).map fun xy => .tup [xy.1, xy.2]) := rfl
      rw [e]
      have e2 : evaluateOnBatches predFn ms (fun b => do let d ← PyObj.inputTargetSplit rows b; batchPoints points d) concatAll
          [("has_batch", tt)] ((p0 :: ps).map fun xy => .tup [xy.1, xy.2]) =
        evaluateOnBatches predFn ms (fun xy : PyObj A × PyObj A => points xy.1 xy.2) concatAll [("has_batch", tt)] (p0 :: ps) := by
        unfold evaluateOnBatches
        congr 1
        rw [← mapE_map]
        rfl
      rw [e2]
      exact evaluateOnBatches_ok predFn ms _ _ _ hne decode hdec ks sh dat (h _ (by simp))
  | mappings ds _ hne hb =>
    have e2 : evaluationMetrics rows points predFn ms .ok tt (.iter (.reiterable (ds.map PyObj.dct))) =
        evaluateOnBatches predFn ms (fun xy : PyObj A × PyObj A => points xy.1 xy.2) concatAll [("has_batch", tt)] ps := by
      cases hb with
      | nil => exact absurd rfl hne
      | @cons d0 p0 ds' ps' hd hb' =>
        have hval : PyObj.validateAndGetTransform rows (.dct d0) = .ok (fun d => .ok d) := by
          simp [PyObj.validateAndGetTransform, Dict.mem, hd.1, hd.2]
        have e : evaluationMetrics rows points predFn ms .ok tt (.iter (.reiterable ((d0 :: ds').map PyObj.dct))) =
          evaluateOnBatches predFn ms (fun b => do let d ← (.ok b : Except Err (PyObj A)); batchPoints points d) concatAll
            [("has_batch", tt)] ((d0 :: ds').map PyObj.dct) := by
          simp only [evaluationMetrics, PyObj.isDataLoader, PyObj.isIterable, Bool.and_self, if_true, PyObj.next, Loader.peek, List.map_cons, ok_bind, hval,
            pure, Except.pure, PyObj.iterAll, Loader.pending]
        rw [e]
        unfold evaluateOnBatches
        congr 1
        rw [← mapE_map]
        refine mapE_forall2 ?_
        refine List.Forall₂.imp ?_ (List.Forall₂.cons hd hb')
        rintro kvs xy ⟨hx, hy⟩
        simp only [Function.comp, batchPoints, PyObj.field, Dict.getE, hx, hy, ok_bind]
    rw [e2]
    exact evaluateOnBatches_ok predFn ms _ _ _ hne decode hdec ks sh dat (h _ (by simp))

end Laplax
