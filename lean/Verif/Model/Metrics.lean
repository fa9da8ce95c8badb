import Mathlib.Data.Real.Sqrt
import Mathlib.Data.List.Sort
import Mathlib.Analysis.SpecialFunctions.Trigonometric.Basic
import Mathlib.MeasureTheory.Integral.Bochner.Set
import Mathlib.MeasureTheory.Measure.Lebesgue.Basic
import Verif.Model.Loss

/-! # Evaluation metrics (`laplax/eval/metrics.py`)

Arrays are real-valued functions on `Fin n`; float rounding, NaN and infinities are not modelled (a division by zero, for
instance by an empty batch, yields 0 here where JAX yields NaN/inf: the theorems assume non-empty batches and positive standard
deviations). -/

namespace Laplax
open scoped BigOperators

/-! ## Classification -/

/-- External: `jnp.argmax(z, axis=-1)` for one row: the first index holding a maximal entry (`none`: empty axis, where JAX
raises). -/
noncomputable def jnpArgmax {c : ℕ} (z : Vec c) : Option (Fin c) :=
  by classical exact (List.finRange c).find? (fun i => decide (∀ j, z j ≤ z i))

/-- A `target` argument: integer labels (1-D) or one row per sample (2-D).
(the `target` argument of eval/metrics.py:48-72, 75-112) -/
inductive Target (n c : ℕ) where
  | labels (y : Fin n → ℤ)
  | rows (t : Fin n → Vec c)

/-- `if target.ndim == 2: target = jnp.argmax(target, axis=-1)` (eval/metrics.py:69-70, 99-100). -/
noncomputable def targetLabels {n c : ℕ} : Target n c → Except Err (Fin n → ℤ)
  | .labels y => .ok y
  | .rows t => if c = 0 then .error .valueError else .ok (fun i => (((jnpArgmax (t i)).map (fun k => (k.val : ℤ))).getD 0))

/-- `correctness` (eval/metrics.py:48-72). -/
noncomputable def correctness {n c : ℕ} (pred : Fin n → Vec c) (target : Target n c) : Except Err (Fin n → Bool) :=
  if c = 0 then .error .valueError else do
    let y ← targetLabels target
    return fun i => decide ((((jnpArgmax (pred i)).map (fun k => (k.val : ℤ))).getD 0) = y i)

/-- The order `jax.lax.top_k` sorts by: larger entries first, ties by smaller index. -/
noncomputable def topKBefore {c : ℕ} (z : Vec c) (i j : Fin c) : Bool :=
  by classical exact decide (z j < z i ∨ (z i = z j ∧ i ≤ j))

/-- External: the indices returned by `jax.lax.top_k(z, k)` for one row. -/
noncomputable def laxTopK {c : ℕ} (z : Vec c) (k : ℕ) : List (Fin c) :=
  ((List.finRange c).mergeSort (topKBefore z)).take k

/-- Python slice `xs[:k]` for an integer `k`. -/
def pySliceTo {α : Type} (xs : List α) (k : ℤ) : List α :=
  if 0 ≤ k then xs.take k.toNat else xs.take ((xs.length : ℤ) + k).toNat

/-- `accuracy` (eval/metrics.py:75-112). `correctness[: min(k, max_k)]` has one row per rank and one column per sample; its sum
is the number of (rank, sample) pairs where the ranked class is the label. -/
noncomputable def accuracy {n c : ℕ} (pred : Fin n → Vec c) (target : Target n c) (topK : List ℤ) : Except Err (List ℝ) := do
  let maxK ← match topK.max? with
    | none => .error .valueError
    | some m => .ok (min m (c : ℤ))
  if maxK < 0 then .error .valueError else do
    let y ← targetLabels target
    return topK.map fun k =>
      (∑ i : Fin n, (((pySliceTo (laxTopK (pred i) maxK.toNat) (min k maxK)).countP
        (fun j => decide ((j.val : ℤ) = y i)) : ℕ) : ℝ)) * 100 / n

/-- External: `jax.scipy.special.xlogy`. -/
noncomputable def xlogy (x y : ℝ) : ℝ := if x = 0 then 0 else x * Real.log y

/-- `cross_entropy` (eval/metrics.py:115-135), one sample. -/
noncomputable def crossEntropyMetric {c : ℕ} (p q : Vec c) : ℝ := -∑ k, xlogy (p k) (q k)

/-- External: `jax.nn.one_hot(y, num_classes=c)`. -/
def oneHot {c : ℕ} (y : ℤ) : Vec c := fun k => if (k.val : ℤ) = y then 1 else 0

/-- `multiclass_brier` (eval/metrics.py:138-161). -/
noncomputable def multiclassBrier {n c : ℕ} (prob : Fin n → Vec c) (target : Target n c) : ℝ :=
  let t : Fin n → Vec c := (match target with
    | .labels y => fun i => oneHot (y i)
    | .rows t => t)
  (-1) * ((∑ i, ∑ k, t i k * (1 - 2 * prob i k + ∑ j, prob i j ^ 2)) / ((n : ℝ) * c))

/-! ## Calibration -/

/-- External: `jnp.linspace(0, 1, nb + 1)`. -/
noncomputable def linspace01 (nb : ℕ) : Fin (nb + 1) → ℝ := fun i => (i.val : ℝ) / nb

/-- External: `jnp.digitize(x, edges)` for increasing `edges`: the number of edges `≤ x`. -/
noncomputable def digitize {m : ℕ} (edges : Fin m → ℝ) (x : ℝ) : ℕ :=
  by classical exact (Finset.univ.filter (fun i => edges i ≤ x)).card

/-- External: `jnp.clip(i, min, max) = minimum(maximum(i, min), max)`. -/
def clip (i lo hi : ℤ) : ℤ := min (max i lo) hi

/-- The bin indices of `calculate_bin_metrics` (eval/metrics.py:187-189). -/
noncomputable def binIndex (nb : ℕ) (x : ℝ) : ℤ := clip ((digitize (linspace01 nb) x : ℤ) - 1) 0 ((nb : ℤ) - 1)

/-- External: `jnp.zeros(nb).at[idx].add(v)` (indices outside `[0, nb)` that remain negative would wrap or be dropped; the
indices used here never are when `nb > 0`). -/
noncomputable def scatterAdd {n nb : ℕ} (idx : Fin n → ℤ) (v : Vec n) : Vec nb :=
  fun b => ∑ i, if idx i = (b.val : ℤ) then v i else 0

/-- `calculate_bin_metrics` (eval/metrics.py:164-205): proportions, mean confidences, mean accuracies.
Simplification: `correctness` is a numeric array (its dtype is used for the accumulator). -/
noncomputable def calculateBinMetrics {n : ℕ} (nb : ℕ) (conf corr : Vec n) : Vec nb × Vec nb × Vec nb :=
  let idx : Fin n → ℤ := fun i => binIndex nb (conf i)
  let counts : Vec nb := scatterAdd idx (fun _ => 1)
  let confs : Vec nb := scatterAdd idx conf
  let accs : Vec nb := scatterAdd idx corr
  (fun b => counts b / ∑ b', counts b',
   fun b => if counts b > 0 then confs b / counts b else 0,
   fun b => if counts b > 0 then accs b / counts b else 0)

/-- `CalibrationErrorNorm` (laplax/enums.py).  (enums.py:25-32) -/
inductive CalNorm where
  | l1
  | inf
  deriving DecidableEq

/-- External: `x.max()` of a 1-D array; raises on an empty array. -/
noncomputable def arrMax {m : ℕ} (x : Vec m) : Except Err ℝ :=
  if h : 0 < m then .ok (Finset.univ.sup' ⟨⟨0, h⟩, Finset.mem_univ _⟩ x) else .error .valueError

/-- `calibration_error` (eval/metrics.py:208-240). -/
noncomputable def calibrationError {n : ℕ} (conf corr : Vec n) (nb : ℕ) (norm : CalNorm) : Except Err ℝ :=
  let r := calculateBinMetrics nb conf corr
  let absDiffs : Vec nb := fun b => |r.2.2 b - r.2.1 b|
  match norm with
  | .l1 => .ok (∑ b, r.1 b * absDiffs b)
  | .inf => arrMax absDiffs

/-- `expected_calibration_error` (eval/metrics.py:243-265). -/
noncomputable def expectedCalibrationError {n : ℕ} (conf corr : Vec n) (nb : ℕ) : Except Err ℝ :=
  calibrationError conf corr nb .l1

/-- `maximum_calibration_error` (eval/metrics.py:268-291). -/
noncomputable def maximumCalibrationError {n : ℕ} (conf corr : Vec n) (nb : ℕ) : Except Err ℝ :=
  calibrationError conf corr nb .inf

/-! ## Regression -/

/-- External: `jnp.mean`. -/
noncomputable def jnpMean {n : ℕ} (x : Vec n) : ℝ := (∑ i, x i) / n

/-- `chi_squared` (eval/metrics.py:299-331); arrays of equal shape, flattened. -/
noncomputable def chiSquared {n : ℕ} (mean std target : Vec n) (averaged : Bool := true) : ℝ :=
  let val : Vec n := fun i => (mean i - target i) ^ 2 / std i ^ 2
  if averaged then jnpMean val else ∑ i, val i

/-- `chi_squared_zero` (eval/metrics.py:334-347). -/
noncomputable def chiSquaredZero {n : ℕ} (mean std target : Vec n) (averaged : Bool := true) : ℝ :=
  |chiSquared mean std target averaged - 1|

/-- `estimate_rmse` (eval/metrics.py:350-368). -/
noncomputable def estimateRmse {n : ℕ} (mean target : Vec n) : ℝ := Real.sqrt (jnpMean (fun i => (mean i - target i) ^ 2))

/-- External: `jax.scipy.stats.norm.pdf(z, loc=0, scale=1)`. -/
noncomputable def normPdf (z : ℝ) : ℝ := (Real.sqrt (2 * Real.pi))⁻¹ * Real.exp (-(z ^ 2) / 2)

/-- External: `jax.scipy.stats.norm.cdf(z, loc=0, scale=1)`. -/
noncomputable def normCdf (z : ℝ) : ℝ := ∫ t in Set.Iic z, normPdf t

/-- External: `jax.scipy.stats.norm.logpdf(x, loc=0, scale=s)`: `-(log(2*pi*s^2) + x^2/s^2)/2`. -/
noncomputable def normLogpdf (x s : ℝ) : ℝ := -(Real.log (2 * Real.pi * s ^ 2) + x ^ 2 / s ^ 2) / 2

/-- An array with its shape; the data is flattened in row-major order.  (the array arguments of eval/metrics.py:299-493) -/
structure NdArr where
  shape : List ℕ
  data : Fin (shapeSize shape) → ℝ

/-- One summand of `crps_gaussian` (eval/metrics.py:402-409). -/
noncomputable def crpsTerm (mean std target : ℝ) : ℝ :=
  let z := (target - mean) / std
  (-1) * std * (1 / Real.sqrt Real.pi - 2 * normPdf z - z * (2 * normCdf z - 1))

/-- `crps_gaussian` (eval/metrics.py:371-417), with the shape check. -/
noncomputable def crpsGaussian (mean std target : NdArr) (scaled : Bool := true) : Except Err ℝ :=
  if h : mean.shape = std.shape ∧ std.shape = target.shape then
    let list : Vec (shapeSize mean.shape) := fun i =>
      crpsTerm (mean.data i) (std.data (h.1 ▸ i)) (target.data ((h.1.trans h.2) ▸ i))
    let crps := ∑ i, list i
    .ok (if scaled then crps / (shapeSize mean.shape : ℝ) else crps)
  else .error .valueError

/-- `nll_gaussian` (eval/metrics.py:420-472), with the shape check. -/
noncomputable def nllGaussian (mean std target : NdArr) (scaled : Bool := true) : Except Err ℝ :=
  if h : mean.shape = std.shape ∧ std.shape = target.shape then
    let list : Vec (shapeSize mean.shape) := fun i =>
      normLogpdf (mean.data i - target.data ((h.1.trans h.2) ▸ i)) (std.data (h.1 ▸ i))
    let nll := -1 * ∑ i, list i
    .ok (if scaled then nll / (shapeSize mean.shape : ℝ) else nll)
  else .error .valueError

end Laplax
