import Verif.Model.LoaderAxis
import Verif.Props.Loader
import Verif.Lib.TreeLemmas5

/-! # C10: reductions along any axis -/

namespace Laplax.Spec
variable {α : Type}

/-- The array a batched evaluation returns when the samples are stacked along the axis behind `before`: shape `(*before, batch, *after)`;
`g x i` are the entries of sample `x` (in row-major order over `after`) at the (flat) position `i` of the axes `before`. -/
def axisArr {X : Type} (before after : List Nat) (g : X → Nat → List α) (batch : List X) : Arr α :=
  ⟨before ++ batch.length :: after, (List.range (shapeSize before)).flatMap fun i => batch.flatMap fun x => g x i⟩

end Laplax.Spec

namespace Laplax.Props
open Laplax Laplax.Spec
variable {α : Type}

theorem normAxis_ok (before after : List Nat) (n : Nat) (axis : Int) (h : axis = before.length ∨ axis = -((after.length : Int) + 1)) :
    normAxis axis (before ++ n :: after).length = .ok before.length := by
  simp only [normAxis, List.length_append, List.length_cons]
  rcases h with rfl | rfl
  · rw [if_pos (by push_cast; omega), if_neg (by omega)]
    simp
  · rw [if_pos (by push_cast; omega), if_pos (by omega)]
    congr 1
    push_cast
    omega

theorem chunks_flatMap (k s : Nat) (f : Nat → List α) (h : ∀ i < k, (f i).length = s) :
    chunks s k ((List.range k).flatMap f) = (List.range k).map f := by
  have := chunks_flatten ((List.range k).map f) s (by
    intro d hd
    obtain ⟨i, hi, rfl⟩ := List.mem_map.mp hd
    exact h i (List.mem_range.mp hi))
  rwa [List.length_map, List.length_range, ← List.flatMap_def] at this

theorem length_block {X : Type} (post : Nat) (g : X → Nat → List α) (b : List X) (i : Nat) (hg : ∀ x, (g x i).length = post) :
    (b.flatMap fun x => g x i).length = b.length * post := by
  induction b with
  | nil => simp
  | cons x xs ih => rw [List.flatMap_cons, List.length_append, ih, hg, List.length_cons, Nat.add_mul, Nat.one_mul, Nat.add_comm]

theorem sumAxis_axisArr [AddCommMonoid α] {X : Type} (kd : Bool) (before after : List Nat) (g : X → Nat → List α)
    (hg : ∀ x, ∀ i < shapeSize before, (g x i).length = shapeSize after) (axis : Int)
    (hax : axis = before.length ∨ axis = -((after.length : Int) + 1)) (b : List X) :
    (axisArr before after g b).sumAxis kd axis = .ok ⟨before ++ (if kd then 1 :: after else after),
      (List.range (shapeSize before)).flatMap fun i => colSum (shapeSize after) (b.map (g · i))⟩ := by
  simp only [Arr.sumAxis, axisArr, normAxis_ok before after _ axis hax, ok_bind, List.take_left, List.drop_left, List.headD_cons]
  have h1 : (before ++ b.length :: after).drop (before.length + 1) = after := by
    rw [← List.drop_drop, List.drop_left]; rfl
  rw [h1, chunks_flatMap _ _ _ fun i hi => length_block (shapeSize after) g b i fun x => hg x i hi, List.map_map, List.flatMap_def]
  show Except.ok _ = Except.ok _
  congr 3
  refine List.map_congr_left fun i hi => ?_
  have hi' := List.mem_range.mp hi
  have := batchArr_sumAxis0 false after (fun x => if (g x i).length = shapeSize after then g x i else List.replicate (shapeSize after) 0)
    (fun x => by split <;> simp_all) b
  have e : ∀ x, (if (g x i).length = shapeSize after then g x i else List.replicate (shapeSize after) 0) = g x i := fun x => if_pos (hg x i hi')
  simp only [e, batchArr, Arr.sumAxis0, Except.ok.injEq, Arr.mk.injEq] at this
  simp only [Function.comp, List.flatMap_def]
  exact this.2

theorem zipWith_flatMap {β γ : Type} (f : α → β → γ) (l : List Nat) (F : Nat → List α) (G : Nat → List β)
    (h : ∀ i ∈ l, (F i).length = (G i).length) :
    List.zipWith f (l.flatMap F) (l.flatMap G) = l.flatMap fun i => List.zipWith f (F i) (G i) := by
  induction l with
  | nil => simp
  | cons i is ih =>
    rw [List.flatMap_cons, List.flatMap_cons, List.flatMap_cons, List.zipWith_append (h i (by simp)), ih fun j hj => h j (by simp [hj])]

/-- **C10 (`reduce_sum`, any axis).** Whatever axis the samples are stacked along (counted from the front or, as a negative number, from the
end), the result is the sum over *all samples* of all batches, position by position. -/
theorem C10_reduce_sum_axis [AddCommMonoid α] {X : Type} (kd : Bool) (before after : List Nat) (g : X → Nat → List α)
    (hg : ∀ x, ∀ i < shapeSize before, (g x i).length = shapeSize after) (axis : Int)
    (hax : axis = before.length ∨ axis = -((after.length : Int) + 1)) (batches : List (List X)) (hne : batches ≠ []) :
    processBatches (fun b => .ok (axisArr before after g b)) (reduceSumAxis kd axis) batches =
      .ok ⟨before ++ (if kd then 1 :: after else after),
        (List.range (shapeSize before)).flatMap fun i => colSum (shapeSize after) (batches.flatten.map (g · i))⟩ := by
  obtain ⟨r, s, h, hr, hs⟩ := processLoop_inv (fun b => .ok (axisArr before after g b)) (reduceSumAxis kd axis)
    (fun pre r s => r = s ∧ s = (⟨before ++ (if kd then 1 :: after else after),
        (List.range (shapeSize before)).flatMap fun i => colSum (shapeSize after) (pre.flatten.map (g · i))⟩ : Arr α))
    (fun b => by
      refine ⟨_, (_, _), rfl, ?_, rfl, rfl⟩
      simp only [reduceSumAxis, sumAxis_axisArr kd before after g hg axis hax, ok_bind, List.flatten_cons, List.flatten_nil, List.append_nil]
      rfl)
    (by
      rintro pre b r₀ s₀ _ ⟨rfl, rfl⟩
      refine ⟨_, (_, _), rfl, ?_, rfl, rfl⟩
      simp only [reduceSumAxis, sumAxis_axisArr kd before after g hg axis hax, ok_bind, zipWith_arr]
      rw [zipWith_flatMap _ _ _ _ fun i _ => by rw [length_colSum, length_colSum]]
      have e : ∀ i, List.zipWith (· + ·) (colSum (shapeSize after) (pre.flatten.map (g · i))) (colSum (shapeSize after) (b.map (g · i))) =
          colSum (shapeSize after) ((pre ++ [b]).flatten.map (g · i)) := by
        intro i
        have := addL_colSum (shapeSize after) (pre.flatten.map (g · i)) (b.map (g · i))
        simp only [addL] at this
        rw [this]; simp
      simp only [e]
      rfl) batches hne
  rw [h, hr, hs]

theorem concatAxis_axisArr {X : Type} (before after : List Nat) (g : X → Nat → List α)
    (hg : ∀ x, ∀ i < shapeSize before, (g x i).length = shapeSize after) (axis : Int)
    (hax : axis = before.length ∨ axis = -((after.length : Int) + 1)) (a b : List X) :
    concatAxis axis (axisArr before after g a) (axisArr before after g b) = .ok (axisArr before after g (a ++ b)) := by
  have h1 : ∀ n : Nat, (before ++ n :: after).drop (before.length + 1) = after := by
    intro n; rw [← List.drop_drop, List.drop_left]; rfl
  simp only [concatAxis, axisArr, normAxis_ok before after _ axis hax, ok_bind, List.take_left, List.drop_left, List.headD_cons, h1]
  rw [if_pos ⟨by simp, trivial, trivial⟩,
    chunks_flatMap _ _ _ fun i hi => length_block (shapeSize after) g a i fun x => hg x i hi,
    chunks_flatMap _ _ _ fun i hi => length_block (shapeSize after) g b i fun x => hg x i hi]
  show Except.ok _ = Except.ok _
  congr 2
  · simp
  · rw [List.zipWith_map, List.zipWith_self, List.flatMap_def]
    simp

/-- **C10 (`reduce_concat`, any axis).** The result is the array one evaluation of all samples in order would have given. -/
theorem C10_reduce_concat_axis {X : Type} (before after : List Nat) (g : X → Nat → List α)
    (hg : ∀ x, ∀ i < shapeSize before, (g x i).length = shapeSize after) (axis : Int)
    (hax : axis = before.length ∨ axis = -((after.length : Int) + 1)) (batches : List (List X)) (hne : batches ≠ []) :
    processBatches (fun b => .ok (axisArr before after g b)) (reduceConcatAxis axis) batches =
      .ok (axisArr before after g batches.flatten) := by
  obtain ⟨r, s, h, hr, hs⟩ := processLoop_inv (fun b => .ok (axisArr before after g b)) (reduceConcatAxis axis)
    (fun pre r s => r = s ∧ s = axisArr before after g pre.flatten)
    (fun b => ⟨_, (axisArr before after g b, axisArr before after g b), rfl, rfl, rfl, by simp⟩)
    (by
      rintro pre b r₀ s₀ _ ⟨rfl, rfl⟩
      refine ⟨_, (_, _), rfl, ?_, rfl, rfl⟩
      simp only [reduceConcatAxis, concatAxis_axisArr before after g hg axis hax, ok_bind, List.flatten_append, List.flatten_cons,
        List.flatten_nil, List.append_nil]
      rfl) batches hne
  rw [h, hr, hs]

/-- **C10 (axis out of range).** `reduce_sum` raises `ValueError` on the first batch whose result has no such axis — in particular on scalar
results, for every axis — and `concat` on such a first argument. -/
theorem C10_axis_out_of_range [Add α] [OfNat α 0] (kd : Bool) (axis : Int) (a b : Arr α) (st : Option (Arr α))
    (h : axis < -(a.shape.length : Int) ∨ (a.shape.length : Int) ≤ axis) :
    reduceSumAxis kd axis a st = .error .valueError ∧ concatAxis axis a b = .error .valueError := by
  have : normAxis axis a.shape.length = .error .valueError := by
    rw [normAxis, if_neg (by omega)]
  constructor
  · simp only [reduceSumAxis, Arr.sumAxis, this, error_bind]
  · simp only [concatAxis, this, error_bind]

theorem chunks_one (s : Nat) (l : List α) (h : l.length = s) : chunks s 1 l = [l] := by
  simpa using chunks_flatten [l] s (by simpa using h)

/-- **C10 (default axis).** With `axis=0` the general reductions are the ones of the other C10 theorems, including on scalars, for every array
with as many entries as its shape says. -/
theorem C10_axis_zero [Add α] [OfNat α 0] (kd : Bool) (a b : Arr α) (ha : a.data.length = shapeSize a.shape) (hb : b.data.length = shapeSize b.shape)
    (st : Option (Arr α)) (hst : ∀ s ∈ st, s.data.length = shapeSize s.shape) :
    reduceSumAxis kd 0 a st = reduceSum kd a st ∧ concatAxis 0 a b = concatAxis0 a b ∧ reduceConcatAxis 0 a st = reduceConcat a st := by
  have hc : ∀ x y : Arr α, x.data.length = shapeSize x.shape → y.data.length = shapeSize y.shape → concatAxis 0 x y = concatAxis0 x y := by
    rintro ⟨s1, d1⟩ ⟨s2, d2⟩ h1 h2
    cases s1 with
    | nil => simp [concatAxis, concatAxis0, normAxis, error_bind]
    | cons n sh =>
      have hn : normAxis 0 (n :: sh).length = .ok 0 := by
        rw [normAxis, if_pos (by simp only [List.length_cons]; omega)]; rfl
      simp only [concatAxis, concatAxis0, hn, ok_bind]
      cases s2 with
      | nil => simp
      | cons m sh' =>
        simp only [List.take_zero, List.drop_zero, List.headD_cons, List.drop_succ_cons, List.length_cons]
        by_cases e : sh = sh'
        · subst e
          simp only [shapeSize_cons] at h1 h2
          rw [if_pos (by simp), if_pos rfl, show shapeSize [] = 1 from rfl, chunks_one _ _ h1, chunks_one _ _ h2]
          simp
          rfl
        · rw [if_neg e, if_neg fun h => e h.2.2.symm]
  refine ⟨?_, hc a b ha hb, ?_⟩
  · have : a.sumAxis kd 0 = a.sumAxis0 kd := by
      obtain ⟨sh, d⟩ := a
      cases sh with
      | nil => simp [Arr.sumAxis, Arr.sumAxis0, normAxis, error_bind]
      | cons n sh =>
        have hn : normAxis 0 (n :: sh).length = .ok 0 := by
          rw [normAxis, if_pos (by simp only [List.length_cons]; omega)]; rfl
        simp only [Arr.sumAxis, Arr.sumAxis0, hn, ok_bind, List.take_zero, List.drop_zero, List.headD_cons, List.drop_succ_cons]
        simp only [shapeSize_cons] at ha
        rw [show shapeSize [] = 1 from rfl, chunks_one _ _ ha]
        simp
        rfl
    simp only [reduceSumAxis, reduceSum, this]
    cases a.sumAxis0 kd with
    | error e => rfl
    | ok v => cases st <;> rfl
  · cases st with
    | none => rfl
    | some s => simp only [reduceConcatAxis, reduceConcat, hc s a (hst s rfl) ha]

/-- Three samples in two batches, stacked along the middle axis of `(2, batch, 2)` arrays. -/
example : processBatches (fun b => .ok (axisArr [2] [2] (fun (x : ℚ) i => [x, x + i]) b)) (reduceSumAxis true (-2)) [[1, 2], [3]] =
    .ok ⟨[2, 1, 2], [6, 6, 6, 9]⟩ := by
  rw [C10_reduce_sum_axis true [2] [2] _ (by intro x i _; rfl) (-2) (Or.inr (by simp)) _ (by simp)]
  simp [colSum, shapeSize, List.range_succ]
  norm_num

end Laplax.Props
