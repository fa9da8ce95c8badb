import Verif.Spec.LoaderMV
import Verif.Lib.LoaderLemmas
import Verif.Props.Mv
import Mathlib.Data.Rat.Defs
import Mathlib.Algebra.Field.Rat
import Mathlib.Algebra.BigOperators.Pi

/-! # Properties C10–C12: data loaders -/

namespace Laplax.Props
open Laplax Laplax.Spec
variable {α : Type}

/-! ## C10 batch-partition invariance

`g x` is the per-sample result (a row with `prod(sh)` entries); a batch evaluates to `batchArr sh g batch`, one row per
sample.  `batches` is an arbitrary list of batches of arbitrary (unequal) sizes. -/

/-- Leaf-level facts used for single arrays and, leafwise, for pytrees. -/
theorem reduceSum_step [AddCommMonoid α] {X : Type} (kd : Bool) (sh : List Nat) (g : X → List α)
    (hg : ∀ x, (g x).length = shapeSize sh) :
    (∀ b : List X, ∃ rs, reduceSum kd (batchArr sh g b) none = .ok rs ∧
      (fun (pre : List (List X)) (r s : Arr α) => r = s ∧ s = ⟨if kd then 1 :: sh else sh, colSum (shapeSize sh) (pre.flatten.map g)⟩)
        [b] rs.1 rs.2) ∧
    (∀ (pre : List (List X)) (b : List X) (r₀ s₀ : Arr α), pre ≠ [] →
      (r₀ = s₀ ∧ s₀ = ⟨if kd then 1 :: sh else sh, colSum (shapeSize sh) (pre.flatten.map g)⟩) →
      ∃ rs, reduceSum kd (batchArr sh g b) (some s₀) = .ok rs ∧
      (rs.1 = rs.2 ∧ rs.2 = ⟨if kd then 1 :: sh else sh, colSum (shapeSize sh) ((pre ++ [b]).flatten.map g)⟩)) := by
  constructor
  · intro b
    refine ⟨(⟨if kd then 1 :: sh else sh, colSum (shapeSize sh) (b.map g)⟩, ⟨if kd then 1 :: sh else sh, colSum (shapeSize sh) (b.map g)⟩), ?_, rfl, by simp⟩
    simp only [reduceSum, batchArr_sumAxis0 kd sh g hg, ok_bind]; rfl
  · rintro pre b r₀ s₀ _ ⟨rfl, rfl⟩
    refine ⟨(⟨if kd then 1 :: sh else sh, colSum (shapeSize sh) ((pre ++ [b]).flatten.map g)⟩,
      ⟨if kd then 1 :: sh else sh, colSum (shapeSize sh) ((pre ++ [b]).flatten.map g)⟩), ?_, rfl, rfl⟩
    simp only [reduceSum, batchArr_sumAxis0 kd sh g hg, ok_bind, zipWith_arr]
    have := addL_colSum (shapeSize sh) (pre.flatten.map g) (b.map g)
    simp only [addL] at this
    rw [this]; simp; rfl

/-- **C10 (`reduce_sum`).** The result is the sum over *all samples*, independent of the batching. -/
theorem C10_reduce_sum [AddCommMonoid α] {X : Type} (kd : Bool) (sh : List Nat) (g : X → List α)
    (hg : ∀ x, (g x).length = shapeSize sh) (batches : List (List X)) (hne : batches ≠ []) :
    processBatches (fun b => .ok (batchArr sh g b)) (reduceSum kd) batches =
      .ok ⟨if kd then 1 :: sh else sh, colSum (shapeSize sh) (batches.flatten.map g)⟩ := by
  obtain ⟨h0, h1⟩ := reduceSum_step kd sh g hg
  obtain ⟨r, s, h, hr, hs⟩ := processLoop_inv (fun b => .ok (batchArr sh g b)) (reduceSum kd)
    (fun pre r s => r = s ∧ s = ⟨if kd then 1 :: sh else sh, colSum (shapeSize sh) (pre.flatten.map g)⟩)
    (fun b => by obtain ⟨rs, a, b'⟩ := h0 b; exact ⟨_, rs, rfl, a, b'⟩)
    (fun pre b r₀ s₀ hp hi => by obtain ⟨rs, a, b'⟩ := h1 pre b r₀ s₀ hp hi; exact ⟨_, rs, rfl, a, b'⟩) batches hne
  rw [h, hr, hs]

/-- **C10 (`reduce_concat`).** The result is the concatenation of all samples' rows in order. -/
theorem C10_reduce_concat {X : Type} (sh : List Nat) (g : X → List α) (batches : List (List X)) (hne : batches ≠ []) :
    processBatches (fun b => .ok (batchArr sh g b)) reduceConcat batches = .ok (batchArr sh g batches.flatten) := by
  obtain ⟨r, s, h, hr, hs⟩ := processLoop_inv (fun b => .ok (batchArr sh g b)) reduceConcat
    (fun pre r s => r = s ∧ s = batchArr sh g pre.flatten)
    (fun b => ⟨_, (batchArr sh g b, batchArr sh g b), rfl, rfl, rfl, by simp⟩)
    (by
      rintro pre b r₀ s₀ _ ⟨rfl, rfl⟩
      refine ⟨_, (batchArr sh g (pre ++ [b]).flatten, batchArr sh g (pre ++ [b]).flatten), rfl, ?_, rfl, rfl⟩
      simp [reduceConcat, concatAxis0, batchArr]) batches hne
  rw [h, hr, hs]

/-- Leaf-level step facts for the online mean. -/
theorem reduceOnlineMean_step [Field α] {X : Type} (sh : List Nat) (g : X → List α)
    (hg : ∀ x, (g x).length = shapeSize sh) :
    (∀ b : List X, ∃ rs, reduceOnlineMean (batchArr sh g b) none = .ok rs ∧
      (fun (pre : List (List X)) (r : Arr α) (s : Nat × Arr α) =>
        s = (pre.flatten.length, ⟨sh, colSum (shapeSize sh) (pre.flatten.map g)⟩) ∧ r = s.2.divNat s.1) [b] rs.1 rs.2) ∧
    (∀ (pre : List (List X)) (b : List X) (r₀ : Arr α) (s₀ : Nat × Arr α), pre ≠ [] →
      (s₀ = (pre.flatten.length, ⟨sh, colSum (shapeSize sh) (pre.flatten.map g)⟩) ∧ r₀ = s₀.2.divNat s₀.1) →
      ∃ rs, reduceOnlineMean (batchArr sh g b) (some s₀) = .ok rs ∧
        (rs.2 = ((pre ++ [b]).flatten.length, ⟨sh, colSum (shapeSize sh) ((pre ++ [b]).flatten.map g)⟩) ∧
          rs.1 = rs.2.2.divNat rs.2.1)) := by
  have hb := fun b : List X => batchArr_sumAxis0 (α := α) false sh g hg b
  constructor
  · intro b
    refine ⟨(Arr.divNat ⟨sh, colSum (shapeSize sh) (b.map g)⟩ b.length, (b.length, ⟨sh, colSum (shapeSize sh) (b.map g)⟩)), ?_, by simp, rfl⟩
    have := hb b
    simp only [batchArr] at this
    simp only [reduceOnlineMean, batchArr, this, ok_bind]; rfl
  · rintro pre b r₀ s₀ _ ⟨rfl, rfl⟩
    refine ⟨(Arr.divNat ⟨sh, colSum (shapeSize sh) ((pre ++ [b]).flatten.map g)⟩ (pre ++ [b]).flatten.length,
      ((pre ++ [b]).flatten.length, ⟨sh, colSum (shapeSize sh) ((pre ++ [b]).flatten.map g)⟩)), ?_, rfl, rfl⟩
    have := hb b
    simp only [batchArr] at this
    simp only [reduceOnlineMean, batchArr, this, ok_bind, if_false, Bool.false_eq_true, zipWith_arr]
    have h2 := addL_colSum (shapeSize sh) (pre.flatten.map g) (b.map g)
    simp only [addL] at h2
    rw [h2]; simp; rfl

/-- **C10 (`reduce_online_mean`).** For a non-empty data set the result is the *sample* mean
`(Σ_samples g x) / (number of samples)`, for every batching (unequal batch sizes and empty batches included). -/
theorem C10_reduce_online_mean [Field α] {X : Type} (sh : List Nat) (g : X → List α)
    (hg : ∀ x, (g x).length = shapeSize sh) (batches : List (List X)) (hne : batches.flatten ≠ []) :
    processBatches (fun b => .ok (batchArr sh g b)) reduceOnlineMean batches =
      .ok ⟨sh, (colSum (shapeSize sh) (batches.flatten.map g)).map (· / (batches.flatten.length : α))⟩ := by
  have hne' : batches ≠ [] := by rintro rfl; simp at hne
  obtain ⟨h0, h1⟩ := reduceOnlineMean_step (α := α) sh g hg
  obtain ⟨r, s, h, hs, hr⟩ := processLoop_inv (fun b => .ok (batchArr sh g b)) reduceOnlineMean
    (fun pre r s => s = (pre.flatten.length, ⟨sh, colSum (shapeSize sh) (pre.flatten.map g)⟩) ∧ r = s.2.divNat s.1)
    (fun b => by obtain ⟨rs, a, b'⟩ := h0 b; exact ⟨_, rs, rfl, a, b'⟩)
    (fun pre b r₀ s₀ hp hi => by obtain ⟨rs, a, b'⟩ := h1 pre b r₀ s₀ hp hi; exact ⟨_, rs, rfl, a, b'⟩) batches hne'
  rw [h, hr, hs]; rfl

/-- **C10 (two batchings).** Any two batchings of the same data give identical results for all three reductions. -/
theorem C10_partition_invariance [Field α] {X : Type} (sh : List Nat) (g : X → List α)
    (hg : ∀ x, (g x).length = shapeSize sh) (bs₁ bs₂ : List (List X)) (hsame : bs₁.flatten = bs₂.flatten)
    (hne : bs₁.flatten ≠ []) :
    processBatches (fun b => .ok (batchArr sh g b)) reduceOnlineMean bs₁ =
      processBatches (fun b => .ok (batchArr sh g b)) reduceOnlineMean bs₂ ∧
    (∀ kd, processBatches (fun b => .ok (batchArr sh g b)) (reduceSum kd) bs₁ =
      processBatches (fun b => .ok (batchArr sh g b)) (reduceSum kd) bs₂) ∧
    processBatches (fun b => .ok (batchArr sh g b)) reduceConcat bs₁ =
      processBatches (fun b => .ok (batchArr sh g b)) reduceConcat bs₂ := by
  have h1 : bs₁ ≠ [] := by rintro rfl; simp at hne
  have h2 : bs₂ ≠ [] := by rintro rfl; rw [hsame] at hne; simp at hne
  refine ⟨?_, fun kd => ?_, ?_⟩
  · rw [C10_reduce_online_mean sh g hg bs₁ hne, C10_reduce_online_mean sh g hg bs₂ (hsame ▸ hne), hsame]
  · rw [C10_reduce_sum kd sh g hg bs₁ h1, C10_reduce_sum kd sh g hg bs₂ h2, hsame]
  · rw [C10_reduce_concat sh g bs₁ h1, C10_reduce_concat sh g bs₂ h2, hsame]

/-- **C10 (`reduce_add`).** Per-batch results `F b` of a fixed shape are added up over all batches; if each `F b` is a
sum over the batch's samples, the result is the sum over all samples. -/
theorem C10_reduce_add [AddCommMonoid α] {B : Type} (sh : List Nat) (F : B → List α) (hF : ∀ b, (F b).length = shapeSize sh)
    (batches : List B) (hne : batches ≠ []) :
    processBatches (fun b => .ok ⟨sh, F b⟩) reduceAdd batches = .ok ⟨sh, colSum (shapeSize sh) (batches.map F)⟩ := by
  obtain ⟨r, s, h, hr, hs⟩ := processLoop_inv (fun b => .ok (⟨sh, F b⟩ : Arr α)) reduceAdd
    (fun pre r s => r = s ∧ s = ⟨sh, colSum (shapeSize sh) (pre.map F)⟩)
    (fun b => ⟨_, (⟨sh, F b⟩, ⟨sh, F b⟩), rfl, rfl, rfl, by simp [colSum_singleton _ _ (hF b)]⟩)
    (by
      rintro pre b r₀ s₀ _ ⟨rfl, rfl⟩
      refine ⟨_, (⟨sh, colSum (shapeSize sh) ((pre ++ [b]).map F)⟩, ⟨sh, colSum (shapeSize sh) ((pre ++ [b]).map F)⟩), rfl, ?_, rfl, rfl⟩
      simp only [reduceAdd, zipWith_arr, ok_bind]
      have h2 := addL_colSum (shapeSize sh) (pre.map F) [F b]
      rw [colSum_singleton _ _ (hF b), addL_comm] at h2
      simp only [addL] at h2
      rw [h2]; simp; rfl) batches hne
  rw [h, hr, hs]

/-- **C10 (`reduce_add`, partition form).** -/
theorem C10_reduce_add_partition [AddCommMonoid α] {X : Type} (sh : List Nat) (g : X → List α)
    (hg : ∀ x, (g x).length = shapeSize sh) (batches : List (List X)) (hne : batches ≠ []) :
    processBatches (fun b => .ok ⟨sh, colSum (shapeSize sh) (b.map g)⟩) reduceAdd batches =
      .ok ⟨sh, colSum (shapeSize sh) (batches.flatten.map g)⟩ := by
  rw [C10_reduce_add sh _ (fun b => length_colSum _ _) batches hne]
  congr 2
  clear hne
  induction batches with
  | nil => simp
  | cons b bs ih =>
    have h1 := addL_colSum (shapeSize sh) [colSum (shapeSize sh) (b.map g)] (bs.map (fun b => colSum (shapeSize sh) (b.map g)))
    have h2 := addL_colSum (shapeSize sh) (b.map g) (bs.flatten.map g)
    rw [colSum_singleton _ _ (length_colSum _ _), ih, h2] at h1
    simp only [List.map_cons, List.flatten_cons, List.map_append]
    exact h1.symm

/-- **C10 (pytree results).** For functions returning pytrees, each leaf of the reduced result is the sample mean /
sum / concatenation of that leaf over all samples: batching is irrelevant leaf by leaf. -/
theorem C10_pytree [Field α] {X : Type} (td : Tree Unit) (k : Nat) (hk : td.leaves.length = k) (sh : Fin k → List Nat)
    (g : Fin k → X → List α) (hg : ∀ j x, (g j x).length = shapeSize (sh j)) (F : List X → PyTree α)
    (hF : ∀ b, (F b).treedef = td ∧ (F b).leaves = List.ofFn (fun j => batchArr (sh j) (g j) b))
    (batches : List (List X)) (hne : batches.flatten ≠ []) :
    (∃ t : PyTree α, processBatches (fun b => .ok (F b)) (liftReduce reduceOnlineMean) batches = .ok t ∧ t.treedef = td ∧
      t.leaves = List.ofFn (fun j => ⟨sh j, (colSum (shapeSize (sh j)) (batches.flatten.map (g j))).map
        (· / (batches.flatten.length : α))⟩)) ∧
    (∀ kd, ∃ t : PyTree α, processBatches (fun b => .ok (F b)) (liftReduce (reduceSum kd)) batches = .ok t ∧ t.treedef = td ∧
      t.leaves = List.ofFn (fun j => ⟨if kd then 1 :: sh j else sh j, colSum (shapeSize (sh j)) (batches.flatten.map (g j))⟩)) ∧
    (∃ t : PyTree α, processBatches (fun b => .ok (F b)) (liftReduce reduceConcat) batches = .ok t ∧ t.treedef = td ∧
      t.leaves = List.ofFn (fun j => batchArr (sh j) (g j) batches.flatten)) := by
  have hne' : batches ≠ [] := by rintro rfl; simp at hne
  refine ⟨?_, fun kd => ?_, ?_⟩
  · obtain ⟨t, h1, h2, r, s, h3, h4⟩ := processBatches_lift reduceOnlineMean td k hk F (fun j b => batchArr (sh j) (g j) b) hF
      (fun j pre r s => s = (pre.flatten.length, ⟨sh j, colSum (shapeSize (sh j)) (pre.flatten.map (g j))⟩) ∧ r = s.2.divNat s.1)
      (fun j b => (reduceOnlineMean_step (sh j) (g j) (hg j)).1 b)
      (fun j pre b r₀ s₀ hp hi => (reduceOnlineMean_step (sh j) (g j) (hg j)).2 pre b r₀ s₀ hp hi) batches hne'
    refine ⟨t, h1, h2, ?_⟩
    rw [h3]; congr 1; funext j; rw [(h4 j).2, (h4 j).1]; rfl
  · obtain ⟨t, h1, h2, r, s, h3, h4⟩ := processBatches_lift (reduceSum kd) td k hk F (fun j b => batchArr (sh j) (g j) b) hF
      (fun j pre r s => r = s ∧ s = ⟨if kd then 1 :: sh j else sh j, colSum (shapeSize (sh j)) (pre.flatten.map (g j))⟩)
      (fun j b => (reduceSum_step kd (sh j) (g j) (hg j)).1 b)
      (fun j pre b r₀ s₀ hp hi => (reduceSum_step kd (sh j) (g j) (hg j)).2 pre b r₀ s₀ hp hi) batches hne'
    refine ⟨t, h1, h2, ?_⟩
    rw [h3]; congr 1; funext j; rw [(h4 j).1, (h4 j).2]
  · obtain ⟨t, h1, h2, r, s, h3, h4⟩ := processBatches_lift reduceConcat td k hk F (fun j b => batchArr (sh j) (g j) b) hF
      (fun j pre r s => r = s ∧ s = batchArr (sh j) (g j) pre.flatten)
      (fun j b => ⟨(batchArr (sh j) (g j) b, batchArr (sh j) (g j) b), rfl, rfl, by simp⟩)
      (by
        rintro j pre b r₀ s₀ _ ⟨rfl, rfl⟩
        refine ⟨(batchArr (sh j) (g j) (pre ++ [b]).flatten, batchArr (sh j) (g j) (pre ++ [b]).flatten), ?_, rfl, rfl⟩
        simp [reduceConcat, concatAxis0, batchArr]) batches hne'
    refine ⟨t, h1, h2, ?_⟩
    rw [h3]; congr 1; funext j; rw [(h4 j).1, (h4 j).2]

/-- **C10 (scalar results, caveat).** For functions returning a *scalar* per batch (ndim 0), `reduce_online_mean` counts
every batch once: the result is the plain mean of batch values, which does depend on the batching. -/
theorem C10_online_mean_scalar [Field α] {B : Type} (f : B → α) (batches : List B) (hne : batches ≠ []) :
    processBatches (fun b => .ok ⟨[], [f b]⟩) reduceOnlineMean batches =
      .ok ⟨[], [(batches.map f).sum / (batches.length : α)]⟩ := by
  obtain ⟨r, s, h, hs, hr⟩ := processLoop_inv (fun b => .ok (⟨[], [f b]⟩ : Arr α)) reduceOnlineMean
    (fun pre r s => s = (pre.length, ⟨[], [(pre.map f).sum]⟩) ∧ r = s.2.divNat s.1)
    (fun b => ⟨_, (Arr.divNat ⟨[], [f b]⟩ 1, (1, ⟨[], [f b]⟩)), rfl, rfl, by simp, rfl⟩)
    (by
      rintro pre b r₀ s₀ _ ⟨rfl, rfl⟩
      refine ⟨_, (Arr.divNat ⟨[], [((pre ++ [b]).map f).sum]⟩ (pre.length + 1), (pre.length + 1, ⟨[], [((pre ++ [b]).map f).sum]⟩)), rfl, ?_, by simp, rfl⟩
      simp [reduceOnlineMean, zipWith_arr, ok_bind]) batches hne
  rw [h, hr, hs]; rfl

example : ∃ (g : Nat → List ℚ) (batches : List (List Nat)), (∀ x, (g x).length = shapeSize [2]) ∧
    batches.flatten ≠ [] ∧ batches = [[1], [2, 3, 4], []] := ⟨fun x => [(x : ℚ), 1], _, by simp [shapeSize], by simp, rfl⟩

/-! ## C11 empty loaders and visiting order -/

/-- **C11 (empty).** Every consumer of a data loader raises `ValueError` when it yields nothing. -/
theorem C11_empty_raises {A B D R S X V W Y Z SZ : Type} (f : B → Except Err R) (fD : D → Except Err R)
    (fA : A → D → Except Err R) (a : A) (transform : B → D) (reduce : R → Option S → Except Err (R × S))
    (m : DataLoaderMV B X V W Y S) (hm : m.loader = []) (x : X) (v : V) (hx : m.inputTransform x = .ok v)
    (reduceZ : Z → Option SZ → Except Err (Z × SZ)) (func : (X → Except Err Y) → Except Err Z) :
    processBatches f reduce [] = .error .valueError ∧
    executeWithDataLoader fD ([] : List B) transform reduce = .error .valueError ∧
    wrapFunctionWithDataLoader fA ([] : List B) transform reduce a = .error .valueError ∧
    m.call x = .error .valueError ∧
    m.lowerFunc reduceZ func = .error .valueError := by
  refine ⟨rfl, rfl, rfl, ?_, ?_⟩
  · simp only [DataLoaderMV.call, hx, ok_bind, hm]; rfl
  · simp only [DataLoaderMV.lowerFunc, hm]; rfl

/-- **C11 (every batch once, in order).** With a reduction that records what it is given, the record is exactly the
sequence of transformed batches. -/
theorem C11_visits_in_order {B D : Type} (transform : B → D) (batches : List B) (hne : batches ≠ []) :
    executeWithDataLoader (fun d => .ok [d]) batches transform
      (fun r st => .ok (st.getD [] ++ r, st.getD [] ++ r)) = .ok (batches.map transform) := by
  obtain ⟨r, s, h, hr, hs⟩ := processLoop_inv (fun b => .ok [transform b])
    (fun r (st : Option (List D)) => .ok (st.getD [] ++ r, st.getD [] ++ r))
    (fun pre r s => r = s ∧ s = pre.map transform)
    (fun b => ⟨_, ([transform b], [transform b]), rfl, rfl, rfl, by simp⟩)
    (by
      rintro pre b r₀ s₀ _ ⟨rfl, rfl⟩
      exact ⟨_, ((pre ++ [b]).map transform, (pre ++ [b]).map transform), rfl, by simp, rfl, rfl⟩) batches hne
  unfold executeWithDataLoader
  rw [h, hr, hs]

/-- **C11 (every entry point visits every batch).** The wrapped function applied to `a`, the `DataLoaderMV` product and
`process_batches` on a loader with state run the same loop: each batch exactly once, in order, with the extra argument. -/
theorem C11_entry_points_visit_in_order {A B D : Type} (transform : B → D) (batches : List B) (hne : batches ≠ []) (a : A) :
    wrapFunctionWithDataLoader (fun a d => .ok [(a, d)]) batches transform
      (fun r st => .ok (st.getD [] ++ r, st.getD [] ++ r)) a = .ok (batches.map fun b => (a, transform b)) ∧
    (DataLoaderMV.new (fun (a : A) b => .ok [(a, transform b)]) batches
      (fun r st => .ok (st.getD [] ++ r, st.getD [] ++ r))).call a = .ok (batches.map fun b => (a, transform b)) ∧
    (processLoader (fun b => .ok [(a, transform b)]) (fun r st => .ok (st.getD [] ++ r, st.getD [] ++ r))
      (.oneShot batches)) = (.ok (batches.map fun b => (a, transform b)), .oneShot []) := by
  have h := C11_visits_in_order (fun b => (a, transform b)) batches hne
  refine ⟨h, ?_, ?_⟩
  · simp only [DataLoaderMV.call, DataLoaderMV.new, ok_bind]
    rw [show processBatches (fun b => Except.ok [(a, transform b)]) _ batches = _ from h, ok_bind]
  · simp only [processLoader, Loader.pending, Loader.exhausted]
    rw [show processBatches (fun b => Except.ok [(a, transform b)]) _ batches = _ from h]

/-- **C11 (a failing batch fails the whole reduction).** -/
theorem C11_error_propagates {B R S : Type} (f : B → Except Err R) (reduce : R → Option S → Except Err (R × S))
    (b : B) (e : Err) (hb : f b = .error e) (pre post : List B) :
    Raises (processBatches f reduce (pre ++ b :: post)) := by
  have : ∀ (pre : List B) acc, ∃ e', processLoop f reduce acc (pre ++ b :: post) = .error e' := by
    intro pre
    induction pre with
    | nil => intro acc; exact ⟨e, by simp [processLoop, hb, error_bind]⟩
    | cons p pre ih =>
      intro acc
      simp only [List.cons_append, processLoop]
      cases f p with
      | error e' => exact ⟨e', rfl⟩
      | ok r =>
        simp only [ok_bind]
        cases reduce r (acc.map Prod.snd) with
        | error e' => exact ⟨e', rfl⟩
        | ok rs => simp only [ok_bind]; exact ih _
  obtain ⟨e', he⟩ := this pre none
  exact ⟨e', by simp [processBatches, he, error_bind]⟩

/-- **C11 (one-shot iterators).** A generator is consumed by the first full pass: every later pass raises; a re-iterable
loader gives the same result every time. -/
theorem C11_second_pass {B R S : Type} (f : B → Except Err R) (reduce : R → Option S → Except Err (R × S)) (bs : List B) :
    (let (r₁, l₁) := processLoader f reduce (.oneShot bs)
     r₁ = processBatches f reduce bs ∧ (processLoader f reduce l₁).1 = .error .valueError) ∧
    (let (r₁, l₁) := processLoader f reduce (.reiterable bs)
     (processLoader f reduce l₁).1 = r₁) := ⟨⟨rfl, rfl⟩, rfl⟩

example : (DataLoaderMV.new (fun (v b : Nat) => .ok (v * b)) [] (fun r (s : Option Nat) => .ok (r + s.getD 0, r + s.getD 0))).loader = [] := rfl

/-! ## C12 DataLoaderMV -/

theorem sum_apply_list {B K : Type} [CommRing K] {m n : Nat} (f : B → (Fin n → K) →ₗ[K] (Fin m → K)) (bs : List B) (x : Fin n → K) :
    (bs.map f).sum x = (bs.map (fun b => f b x)).sum := by
  induction bs with
  | nil => simp
  | cons b bs ih => simp [ih]

/-- The additive reduction on trees of one layout. -/
theorem reduceAdd_trees {B K : Type} [CommRing K] {m : Nat} (L : PyTree K) (F : B → PyTree K) (y : B → Fin m → K)
    (hF : ∀ b, IsTree L (y b) (F b)) (fE : B → Except Err (PyTree K)) (hfE : ∀ b, fE b = .ok (F b)) (bs : List B) (hne : bs ≠ []) :
    ∃ t, processBatches fE (liftReduce reduceAdd) bs = .ok t ∧ IsTree L (bs.map y).sum t := by
  have add_step : ∀ (u w : PyTree K) (a c : Fin m → K), IsTree L a u → IsTree L c w →
      ∃ r, liftReduce reduceAdd u (some w) = .ok (r, r) ∧ IsTree L (a + c) r := by
    rintro u w a c ⟨hu1, hu2, hu3⟩ ⟨hw1, hw2, hw3⟩
    obtain ⟨r, h1, h2, h3, h4⟩ := tmap2_zipWith (· + ·) u w (hu1.trans hw1.symm) hu2 hw2
    refine ⟨r, ?_, h2.trans hu1, h3, ?_⟩
    · -- the lifted reduction computes pairs (r, r)
      have htd : u.treedef = w.treedef := (hu1.trans hw1.symm).treedef
      have h5 := (tmap2_ok_iff _ _ _ htd _).1 h1
      have h6 : Tree.tmap2 (fun a s => reduceAdd a (some s)) u w = .ok (r.map (fun a => (a, a))) := by
        rw [tmap2_ok_iff _ _ _ htd]
        refine ⟨by rw [Tree.treedef_map]; exact h5.1, ?_⟩
        rw [Tree.leaves_map, List.forall₂_map_right_iff]
        refine h5.2.imp ?_
        intro p q hpq
        simp only [reduceAdd, hpq, ok_bind]; rfl
      simp only [liftReduce, h6, ok_bind, Tree.map_map]
      have h7 : ∀ g : Arr K × Arr K → Arr K, (g ∘ fun a => (a, a)) = id → r.map (g ∘ fun a => (a, a)) = r := by
        intro g hg; rw [hg]; apply Tree.ext_leaves
        · rw [Tree.treedef_map]
        · rw [Tree.leaves_map]; simp
      rw [h7 Prod.fst rfl, h7 Prod.snd rfl]; rfl
    · rw [h4, hu3, hw3]
      apply List.ext_getElem
      · simp
      · intro i _ _; simp
  obtain ⟨r, s, h, hr, hs⟩ := processLoop_inv fE (liftReduce reduceAdd)
    (fun pre r s => r = s ∧ IsTree L (pre.map y).sum s)
    (fun b => by
      refine ⟨F b, (F b, F b), hfE b, ?_, rfl, by simpa using hF b⟩
      have : Tree.tmap (fun a => reduceAdd a none) (F b) = .ok ((F b).map (fun a => (a, a))) := Tree.tmap_ok _ _
      simp only [liftReduce, this, ok_bind, Tree.map_map]
      have h7 : ∀ g : Arr K × Arr K → Arr K, (g ∘ fun a => (a, a)) = id → (F b).map (g ∘ fun a => (a, a)) = F b := by
        intro g hg; rw [hg]; apply Tree.ext_leaves
        · rw [Tree.treedef_map]
        · rw [Tree.leaves_map]; simp
      rw [h7 Prod.fst rfl, h7 Prod.snd rfl]; rfl)
    (by
      rintro pre b r₀ s₀ _ ⟨rfl, hi⟩
      obtain ⟨r, h1, h2⟩ := add_step (F b) r₀ _ _ (hF b) hi
      refine ⟨F b, (r, r), hfE b, h1, rfl, ?_⟩
      have : ((pre ++ [b]).map y).sum = y b + (pre.map y).sum := by simp [add_comm]
      rw [this]; exact h2) bs hne
  exact ⟨r, h, by rw [hr]; exact hs⟩

/-- **C12 (call).** The object acts as `gO ∘ (Σ_batches f b) ∘ gI`. -/
theorem C12_call_is_summed_operator {B K : Type} [CommRing K] {p q m n : Nat}
    {o : DataLoaderMV B (PyTree K) (PyTree K) (PyTree K) (PyTree K) (PyTree K)} {Lx Lv Lw Ly : PyTree K}
    {f : B → (Fin p → K) →ₗ[K] (Fin q → K)} {gI : (Fin n → K) →ₗ[K] (Fin p → K)} {gO : (Fin q → K) →ₗ[K] (Fin m → K)}
    (h : LinearLoaderMV o Lx Lv Lw Ly f gI gO) (hne : o.loader ≠ []) (x : Fin n → K) (t : PyTree K) (ht : IsTree Lx x t) :
    ∃ r, o.call t = .ok r ∧ IsTree Ly (gO ((o.loader.map f).sum (gI x))) r := by
  obtain ⟨v, hv, hvt⟩ := h.hin x t ht
  choose w hw hwt using fun b => h.hmv b (gI x) v hvt
  obtain ⟨s, hs, hst⟩ := reduceAdd_trees Lw w (fun b => f b (gI x)) hwt (fun b => o.mv v b) hw o.loader hne
  rw [← sum_apply_list f] at hst
  obtain ⟨r, hr, hrt⟩ := h.hout _ s hst
  refine ⟨r, ?_, hrt⟩
  simp only [DataLoaderMV.call, hv, ok_bind, h.hred, hs, hr]

/-- The per-batch wrapped product used by `lower_func`. -/
theorem perBatch {B K : Type} [CommRing K] {p q m n : Nat}
    {o : DataLoaderMV B (PyTree K) (PyTree K) (PyTree K) (PyTree K) (PyTree K)} {Lx Lv Lw Ly : PyTree K}
    {f : B → (Fin p → K) →ₗ[K] (Fin q → K)} {gI : (Fin n → K) →ₗ[K] (Fin p → K)} {gO : (Fin q → K) →ₗ[K] (Fin m → K)}
    (h : LinearLoaderMV o Lx Lv Lw Ly f gI gO) (b : B) (x : Fin n → K) (t : PyTree K) (ht : IsTree Lx x t) :
    ∃ r, (do let v ← o.inputTransform t; let w ← o.mv v b; o.outputTransform w) = .ok r ∧ IsTree Ly (gO (f b (gI x))) r := by
  obtain ⟨v, hv, hvt⟩ := h.hin x t ht
  obtain ⟨w, hw, hwt⟩ := h.hmv b _ v hvt
  obtain ⟨r, hr, hrt⟩ := h.hout _ w hwt
  exact ⟨r, by simp only [hv, ok_bind, hw, hr], hrt⟩

theorem isTree_flat {n : Nat} (d : List α) (hd : d.length = n) (x : Fin n → α) (t : PyTree α) :
    IsTree (Tree.leaf ⟨[n], d⟩) x t ↔ t = Tree.leaf ⟨[n], List.ofFn x⟩ := by
  constructor
  · rintro ⟨h1, h2, h3⟩
    cases t with
    | node => simp [SameLayout, Tree.map] at h1
    | leaf a =>
      obtain ⟨sh, data⟩ := a
      simp [SameLayout, Tree.map] at h1
      simp [entries, Tree.leaves] at h3
      rw [h1, h3]
  · rintro rfl
    refine ⟨by simp [SameLayout, Tree.map], ?_, by simp [entries, Tree.leaves]⟩
    intro a ha; simp [Tree.leaves] at ha; subst ha; simp [Arr.WF, shapeSize]

theorem list_sum_pi {ι K : Type} [AddCommMonoid K] (l : List (ι → K)) (i : ι) : l.sum i = (l.map (fun g => g i)).sum := by
  induction l with
  | nil => rfl
  | cons a l ih => simp [ih]

/-- **C12 (to_dense).** Lowering `to_dense` batch by batch and adding gives the dense matrix of the summed operator,
i.e. exactly `to_dense` of the object called as a function. -/
theorem C12_to_dense {B K : Type} [CommRing K] [Inhabited K] {p q m n : Nat} (hn : 0 < n)
    {o : DataLoaderMV B (PyTree K) (PyTree K) (PyTree K) (PyTree K) (PyTree K)} {Lv Lw : PyTree K} (dx dy : List K)
    (hdx : dx.length = n) (hdy : dy.length = m)
    {f : B → (Fin p → K) →ₗ[K] (Fin q → K)} {gI : (Fin n → K) →ₗ[K] (Fin p → K)} {gO : (Fin q → K) →ₗ[K] (Fin m → K)}
    (h : LinearLoaderMV o (Tree.leaf ⟨[n], dx⟩) Lv Lw (Tree.leaf ⟨[m], dy⟩) f gI gO) (hne : o.loader ≠ []) (batch : Option Nat)
    (hb : batch ≠ some 0) :
    ∃ M : Matrix (Fin m) (Fin n) K, (∀ x, M.mulVec x = gO ((o.loader.map f).sum (gI x))) ∧
      o.lowerFunc (liftReduce reduceAdd) (fun mv => toDense mv (.int n) batch) = .ok (.leaf (denseArr M)) ∧
      toDense o.call (.int n) batch = .ok (.leaf (denseArr M)) := by
  have hcall : RepresentsFlat o.call (gO ∘ₗ (o.loader.map f).sum ∘ₗ gI) := by
    intro x
    obtain ⟨r, hr, hrt⟩ := C12_call_is_summed_operator h hne x (Tree.leaf ⟨[n], List.ofFn x⟩) ((isTree_flat dx hdx x _).2 rfl)
    rw [hr, (isTree_flat dy hdy _ _).1 hrt]; rfl
  have hper : ∀ b, RepresentsFlat (fun t => do let v ← o.inputTransform t; let w ← o.mv v b; o.outputTransform w)
      (gO ∘ₗ f b ∘ₗ gI) := by
    intro b x
    obtain ⟨r, hr, hrt⟩ := perBatch h b x (Tree.leaf ⟨[n], List.ofFn x⟩) ((isTree_flat dx hdx x _).2 rfl)
    beta_reduce
    rw [hr, (isTree_flat dy hdy _ _).1 hrt]; rfl
  let Mb : B → Matrix (Fin m) (Fin n) K := fun b => Matrix.of (fun i j => (gO ∘ₗ f b ∘ₗ gI) (unitFn K n j) i)
  let M : Matrix (Fin m) (Fin n) K := Matrix.of (fun i j => (gO ∘ₗ (o.loader.map f).sum ∘ₗ gI) (unitFn K n j) i)
  refine ⟨M, fun x => matrix_of_columns _ x, ?_, C08_to_dense_int_columns hn _ _ hcall batch hb⟩
  -- the lowered path
  have hd : ∀ N : Matrix (Fin m) (Fin n) K,
      IsTree (n := m * n) (Tree.leaf ⟨[m, n], (denseArr N).data⟩) (fun k => N k.divNat k.modNat) (.leaf (denseArr N)) := by
    intro N
    refine ⟨by simp [SameLayout, Tree.map, denseArr], ?_, ?_⟩
    · intro a ha; simp [Tree.leaves] at ha; subst ha
      simp only [Arr.WF, denseArr, shapeSize]
      rw [← sum_map_length]
      have : (List.ofFn (fun i => List.ofFn (fun j => N i j))).map List.length = List.replicate m n := by
        rw [List.eq_replicate_iff]; refine ⟨by simp, ?_⟩
        intro x hx; obtain ⟨d, hd, rfl⟩ := List.mem_map.1 hx
        rw [List.mem_ofFn] at hd; obtain ⟨k, rfl⟩ := hd; simp
      rw [this]; simp
    · simp only [entries, Tree.leaves, denseArr, List.map_cons, List.map_nil, List.flatten_cons, List.flatten_nil, List.append_nil]
      rw [List.ofFn_mul]
      congr 2
      funext i; congr 1; funext j
      congr 1
      · ext; simp only [Fin.coe_divNat]; rw [Nat.mul_comm, Nat.mul_add_div (by omega)]; simp [Nat.div_eq_of_lt j.2]
      · ext; simp only [Fin.coe_modNat]; rw [Nat.mul_comm, Nat.mul_add_mod]; exact (Nat.mod_eq_of_lt j.2).symm
  have hshape : ∀ (N N' : Matrix (Fin m) (Fin n) K), SameLayout (Tree.leaf ⟨[m, n], (denseArr N).data⟩ : PyTree K) (Tree.leaf ⟨[m, n], (denseArr N').data⟩) := by
    intro N N'; simp [SameLayout, Tree.map]
  obtain ⟨t, ht, htt⟩ := reduceAdd_trees (K := K) (Tree.leaf ⟨[m, n], (denseArr M).data⟩) (fun b => .leaf (denseArr (Mb b)))
    (fun b => (fun k : Fin (m * n) => Mb b k.divNat k.modNat))
    (fun b => ⟨(hd (Mb b)).1.trans (hshape _ _), (hd (Mb b)).2.1, (hd (Mb b)).2.2⟩)
    (fun b => toDense (fun t => do let v ← o.inputTransform t; let w ← o.mv v b; o.outputTransform w) (.int n) batch)
    (fun b => C08_to_dense_int_columns hn _ _ (hper b) batch hb) o.loader hne
  have hM : (o.loader.map (fun b => (fun k : Fin (m * n) => Mb b k.divNat k.modNat))).sum = (fun k => M k.divNat k.modNat) := by
    funext k
    have h1 : M k.divNat k.modNat = (o.loader.map (fun b => Mb b k.divNat k.modNat)).sum := by
      simp only [M, Mb, Matrix.of_apply, LinearMap.comp_apply]
      rw [sum_apply_list, map_list_sum, List.map_map]
      rw [list_sum_pi]
      simp [List.map_map, Function.comp_def]
    rw [h1, list_sum_pi]; simp [List.map_map, Function.comp_def]
  rw [hM] at htt
  have : t = .leaf (denseArr M) := by
    have h2 := hd M
    apply Tree.ext_leaves
    · rw [htt.1.treedef, h2.1.treedef]
    · have e1 := htt.1.shapes
      have e2 := h2.1.shapes
      cases t with
      | node tag ks => have h3 := htt.1; simp [SameLayout, Tree.map] at h3
      | leaf a =>
        have e3 := htt.2.2; rw [← h2.2.2] at e3
        simp [entries, Tree.leaves] at e3
        simp [Tree.leaves] at e1 e2 ⊢
        obtain ⟨s, d⟩ := a
        simp only at e1 e3
        rw [e1, e3]; rfl
  rw [← this, ← ht]; rfl

/-- **C12 (diagonal).** Lowering `diagonal` batch by batch and adding gives the diagonal of the summed operator, i.e.
`diagonal` of the object called as a function — for any pytree layout. -/
theorem C12_diagonal {B K : Type} [CommRing K] {p q n : Nat}
    {o : DataLoaderMV B (PyTree K) (PyTree K) (PyTree K) (PyTree K) (PyTree K)} {L Lv Lw : PyTree K} (hsz : numEntries L = n)
    {f : B → (Fin p → K) →ₗ[K] (Fin q → K)} {gI : (Fin n → K) →ₗ[K] (Fin p → K)} {gO : (Fin q → K) →ₗ[K] (Fin n → K)}
    (h : LinearLoaderMV o L Lv Lw L f gI gO) (hne : o.loader ≠ []) :
    ∃ d : Fin n → K, (∀ i, d i = gO ((o.loader.map f).sum (gI (unitFn K n i))) i) ∧
      o.lowerFunc (liftReduce reduceAdd) (fun mv => do let xs ← diagonal (.callable mv) (.tree L); return flatLeaf xs) =
        .ok (.leaf ⟨[n], List.ofFn d⟩) ∧
      diagonal (.callable o.call) (.tree L) = .ok (List.ofFn d) := by
  have hcall : RepresentsTree L o.call (fun x => gO ((o.loader.map f).sum (gI x))) := by
    intro x t h1 h2 h3
    obtain ⟨r, hr, hrt⟩ := C12_call_is_summed_operator h hne x t ⟨h1, h2, h3⟩
    exact ⟨r, hr, hrt.2.2⟩
  have hper : ∀ b, RepresentsTree L (fun t => do let v ← o.inputTransform t; let w ← o.mv v b; o.outputTransform w)
      (fun x => gO (f b (gI x))) := by
    intro b x t h1 h2 h3
    obtain ⟨r, hr, hrt⟩ := perBatch h b x t ⟨h1, h2, h3⟩
    exact ⟨r, hr, hrt.2.2⟩
  refine ⟨fun i => gO ((o.loader.map f).sum (gI (unitFn K n i))) i, fun i => rfl, ?_, ?_⟩
  · obtain ⟨t, ht, htt⟩ := reduceAdd_trees (K := K) (Tree.leaf ⟨[n], List.ofFn (fun _ : Fin n => (0 : K))⟩)
      (fun b => .leaf ⟨[n], List.ofFn (fun i => gO (f b (gI (unitFn K n i))) i)⟩)
      (fun b => fun i => gO (f b (gI (unitFn K n i))) i)
      (fun b => (isTree_flat _ (by simp) _ _).2 rfl)
      (fun b => do
        let xs ← diagonal (.callable (fun t => do let v ← o.inputTransform t; let w ← o.mv v b; o.outputTransform w)) (.tree L)
        return flatLeaf xs)
      (fun b => by
        rw [C09_diagonal_tree L hsz _ _ (hper b) none (by simp), ok_bind]
        simp only [flatLeaf, List.length_ofFn]; rfl) o.loader hne
    have hM : (o.loader.map (fun b => fun i => gO (f b (gI (unitFn K n i))) i)).sum =
        (fun i => gO ((o.loader.map f).sum (gI (unitFn K n i))) i) := by
      funext i
      rw [sum_apply_list, map_list_sum, List.map_map, list_sum_pi, list_sum_pi]
      simp [List.map_map, Function.comp_def]
    rw [hM] at htt
    rw [(isTree_flat _ (by simp) _ _).1 htt] at ht
    exact ht
  · exact C09_diagonal_tree L hsz _ _ hcall none (by simp)

/-- **C12 (wrapping).** Wrapping conjugates the behaviour of the object (and builds a new object: `o` itself is a value
and keeps behaving as before). -/
theorem C12_wrap {B X X' V W Y Y' S : Type} (o : DataLoaderMV B X V W Y S) (inF : X' → Except Err X) (outF : Y → Except Err Y')
    (x' : X') (x : X) (hx : inF x' = .ok x) :
    (o.wrap inF outF).call x' = (o.call x >>= outF) ∧ (o.wrap inF outF).loader = o.loader := by
  refine ⟨?_, rfl⟩
  simp only [DataLoaderMV.call, DataLoaderMV.wrap, hx, ok_bind]
  cases o.inputTransform x with
  | error e => rfl
  | ok v =>
    simp only [ok_bind]
    cases processBatches (fun b => o.mv v b) o.reduce o.loader with
    | error e => rfl
    | ok r => rfl

/-- **C12 (default reduction is not an operator).** With the constructor's *default* `reduce_online_mean` the object does
not return a vector of the parameter size: a 1-D result of length `n` is averaged over its own entries to a scalar. -/
theorem C12_default_reduce_collapses {B K : Type} [Field K] {n : Nat} (y : B → Fin n → K) (b : B) :
    processBatches (fun b => .ok (⟨[n], List.ofFn (y b)⟩ : Arr K)) reduceOnlineMean [b] =
      .ok ⟨[], [(List.ofFn (y b)).sum / (n : K)]⟩ := by
  have hc : chunks 1 n (List.ofFn (y b)) = (List.ofFn (y b)).map (fun x => [x]) := by
    have := chunks_one (List.ofFn (y b)); simpa using this
  have hs : sumRows 1 (chunks 1 n (List.ofFn (y b))) = [(List.ofFn (y b)).sum] := by
    rw [sumRows_eq]
    · rw [hc]; simp [colSum, Function.comp_def]
    · intro r hr; rw [hc] at hr; obtain ⟨x, _, rfl⟩ := List.mem_map.1 hr; rfl
  have e : shapeSize ([] : List Nat) = 1 := rfl
  simp only [processBatches, processLoop, reduceOnlineMean, Arr.sumAxis0, ok_bind, Option.map_none, e, hs]
  rfl

/-- Non-vacuity of `LinearLoaderMV`: scaling by the batch value, identity transforms, on flat pairs. -/
example : ∃ (o : DataLoaderMV ℚ (PyTree ℚ) (PyTree ℚ) (PyTree ℚ) (PyTree ℚ) (PyTree ℚ)) (L : PyTree ℚ)
    (f : ℚ → (Fin 2 → ℚ) →ₗ[ℚ] (Fin 2 → ℚ)), LinearLoaderMV o L L L L f LinearMap.id LinearMap.id ∧
    o.loader = [2, 3] ∧ f 2 ≠ 0 := by
  refine ⟨DataLoaderMV.new (fun v b => treeMul b v) [2, 3] (liftReduce reduceAdd), sampleTree.map (fun a => ⟨a.shape, a.data.map (fun z => (z : ℚ))⟩),
    fun b => b • LinearMap.id, ⟨rfl, fun x t h => ⟨t, rfl, h⟩, ?_, fun y t h => ⟨t, rfl, h⟩⟩, rfl, ?_⟩
  · intro b x t h
    obtain ⟨r, h1, h2, h3, h4⟩ := tmap_map1 (b * ·) t h.2.1
    refine ⟨r, h1, h2.trans h.1, h3, ?_⟩
    rw [h4, h.2.2, List.map_ofFn]; rfl
  · intro h
    have := congrFun (congrArg (fun g : (Fin 2 → ℚ) →ₗ[ℚ] (Fin 2 → ℚ) => g (fun _ => 1)) h) 0
    simp at this

end Laplax.Props
