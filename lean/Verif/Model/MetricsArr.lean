import Verif.Model.ApiCalibration
import Verif.Model.TreeAxis
import Verif.Model.Mv

/-! # The classification metrics on arrays of any shape (`laplax/eval/metrics.py:48-161`)

`Model/Metrics` models these functions for the documented shapes; here the arguments are arrays of any number of axes, combined by numpy
broadcasting.  Class labels are numbers stored in the array (integer and float labels are compared by value).  As there, float rounding,
NaN and infinities are not modelled (the mean of an empty array is 0 here, NaN in JAX). -/

namespace Laplax
open scoped BigOperators

/-- External: a reduction along the last axis (`axis=-1`): one number per row; `ValueError` without axes or if the last axis is empty. -/
noncomputable def reduceLast (f : {c : ℕ} → Vec c → ℝ) (a : Arr ℝ) : Except Err (Arr ℝ) :=
  match a.shape.getLast? with
  | none => .error .valueError
  | some c =>
    if c = 0 then .error .valueError
    else .ok ⟨a.shape.dropLast,
      (List.range (shapeSize a.shape.dropLast)).map fun i => f fun k : Fin c => a.data.getD (i * c + k.val) 0⟩

/-- External: the index `jnp.argmax` returns for one non-empty row. -/
noncomputable def argmaxNum {c : ℕ} (z : Vec c) : ℝ := ((jnpArgmax z).map fun k => (k.val : ℝ)).getD 0

/-- External: the number `jnp.max` returns for one non-empty row. -/
noncomputable def maxNum {c : ℕ} (z : Vec c) : ℝ :=
  match arrMax z with
  | .ok m => m
  | .error _ => 0

/-- External: `jnp.argmax(a, axis=-1)`. -/
noncomputable def argmaxLast (a : Arr ℝ) : Except Err (Arr ℝ) := reduceLast argmaxNum a

/-- `if target.ndim == 2: target = jnp.argmax(target, axis=-1)` (eval/metrics.py:69-70, 99-100). -/
noncomputable def targetArr (target : Arr ℝ) : Except Err (Arr ℝ) :=
  if target.shape.length = 2 then argmaxLast target else .ok target

/-- `correctness` (eval/metrics.py:48-72): `pred == target` broadcasts. -/
noncomputable def correctnessArr (pred target : Arr ℝ) : Except Err (Arr Bool) := do
  let p ← argmaxLast pred
  let t ← targetArr target
  Arr.bcast2 (fun x y => decide (x = y)) p t

/-- External: the indices of `lax.top_k(pred, k)` of a 2-D array (one row of ranks per sample, before the transposition); `ValueError` for a
negative `k` or one larger than the last axis. -/
noncomputable def topKRows (n c : ℕ) (data : List ℝ) (k : ℤ) : Except Err (Fin n → List (Fin c)) :=
  if k < 0 ∨ (c : ℤ) < k then .error .valueError
  else .ok fun i => laxTopK (fun j : Fin c => data.getD (i.val * c + j.val) 0) k.toNat

/-- `lax.top_k(pred, k)[1].T` (eval/metrics.py:96-97): rank `r`, sample `i`. -/
noncomputable def rankArr {n c : ℕ} (rows : Fin n → List (Fin c)) (k : ℕ) : Arr ℝ :=
  ⟨[k, n], ((List.range k).map fun r => List.ofFn fun i : Fin n => (((rows i)[r]?).map fun j => (j.val : ℝ)).getD 0).flatten⟩

/-- External: the indices of `lax.top_k(pred, k)` for an array whose last axis has length `c` (the other axes: `sh`); `ValueError` for a negative
`k` or one larger than the last axis. -/
noncomputable def topKLast (sh : List ℕ) (c : ℕ) (data : List ℝ) (k : ℤ) : Except Err (Arr ℝ) :=
  if k < 0 ∨ (c : ℤ) < k then .error .valueError
  else .ok ⟨sh ++ [k.toNat], ((List.range (shapeSize sh)).map fun i =>
    (laxTopK (fun j : Fin c => data.getD (i * c + j.val) 0) k.toNat).map fun j => (j.val : ℝ)).flatten⟩

/-- `accuracy` (eval/metrics.py:75-112).  The documented case of two axes is written out (`rankArr` is the transposed array of ranks); with more axes
`max_k` is still limited by the *second* axis (`pred.shape[1]`), the ranks are taken along the last one, `pred.T` reverses all axes and
the labels are compared by broadcasting. -/
noncomputable def accuracyArr (pred target : Arr ℝ) (topK : List ℤ) : Except Err (List ℝ) := do
  let m ← match topK.max? with
    | none => .error .valueError
    | some m => .ok m
  match pred.shape with
  | [] => .error .indexError
  | [_] => .error .indexError
  | [n, c] => do
    let maxK := min m (c : ℤ)
    let batchSize ← match target.shape with
      | [] => .error .indexError
      | b :: _ => .ok b
    let rows ← topKRows n c pred.data maxK
    let t ← targetArr target
    let corr ← Arr.bcast2 (fun x y => decide (x = y)) (rankArr rows maxK.toNat) ⟨[1, t.data.length], t.data⟩
    return topK.map fun k =>
      ((pySliceTo (chunks ((corr.shape.drop 1).headD 1) maxK.toNat corr.data) (min k maxK)).flatten.countP (· = true) : ℝ) * 100 / batchSize
  | n :: m' :: rest => do
    let maxK := min m (m' : ℤ)
    let batchSize ← match target.shape with
      | [] => .error .indexError
      | b :: _ => .ok b
    let ranks ← topKLast (n :: m' :: rest).dropLast (rest.getLastD 0) pred.data maxK
    let t ← targetArr target
    let corr ← Arr.bcast2 (fun x y => decide (x = y)) ranks.transpose ⟨[1, t.data.length], t.data⟩
    return topK.map fun k =>
      ((pySliceTo (chunks (shapeSize (corr.shape.drop 1)) (corr.shape.headD 0) corr.data) (min k maxK)).flatten.countP (· = true) : ℝ) * 100 /
        batchSize

/-- `cross_entropy` (eval/metrics.py:115-135). -/
noncomputable def crossEntropyArr (p q : Arr ℝ) (axis : Option Int := some (-1)) : Except Err (Arr ℝ) := do
  let x ← Arr.bcast2 xlogy p q
  let s ← statAxis List.sum axis false x
  return ⟨s.shape, s.data.map (- ·)⟩

/-- `if target.ndim == 1: target = jax.nn.one_hot(target, num_classes=prob.shape[-1])` (eval/metrics.py:155-156). -/
noncomputable def brierTarget (prob target : Arr ℝ) : Except Err (Arr ℝ) :=
  if target.shape.length = 1 then
    match prob.shape.getLast? with
    | none => .error .indexError
    | some c => .ok (oneHotArr c target)
  else .ok target

/-- `multiclass_brier` (eval/metrics.py:138-161). -/
noncomputable def multiclassBrierArr (prob target : Arr ℝ) : Except Err ℝ := do
  let t ← brierTarget prob target
  let s ← statAxis (fun l => (l.map (· ^ 2)).sum) (some (-1)) true prob
  let comp ← Arr.bcast2 (fun p s => 1 - 2 * p + s) prob s
  let prod ← Arr.bcast2 (· * ·) t comp
  return -(meanArr prod)

end Laplax
