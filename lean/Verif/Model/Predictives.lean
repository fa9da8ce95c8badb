import Verif.Model.Loss
import Verif.Model.Broadcast
import Mathlib.Data.Real.Sqrt
import Mathlib.Analysis.SpecialFunctions.Trigonometric.Basic
import Mathlib.LinearAlgebra.Matrix.Notation

/-! # Classification predictives (`laplax/eval/predictives.py`)

Real arithmetic; `x / 0 = 0` and `sqrt` of a negative number is 0 where JAX gives inf/NaN (the theorems exclude these). -/

namespace Laplax
open scoped BigOperators

/-- `LAMBDA_0 = math.pi / 8` (eval/predictives.py:8). -/
noncomputable def lambda0 : ℝ := Real.pi / 8

/-- `dirichlet_predictive` (eval/predictives.py:44-52) on a 2-D array: divides by the sum over *all* entries. -/
noncomputable def dirichletPredictive {c m : ℕ} (α : Fin c → Fin m → ℝ) : Fin c → Fin m → ℝ :=
  fun k s => α k s / ∑ k', ∑ s', α k' s'

/-- `laplace_bridge` (eval/predictives.py:26-41) on arrays with `c` entries along axis 0 and `m` entries behind each of them; `numClasses` is
`mean.shape[1]`. -/
noncomputable def laplaceBridgeBlocks {c m : ℕ} (numClasses : ℕ) (mean var : Fin c → Fin m → ℝ) (useCorrection : Bool) : Fin c → Fin m → ℝ :=
  let cc : Fin m → ℝ := fun s => (∑ k, var k s) / Real.sqrt ((numClasses : ℝ) / 2)
  let mean' : Fin c → Fin m → ℝ := if useCorrection then fun k s => mean k s / Real.sqrt (cc s) else mean
  let var' : Fin c → Fin m → ℝ := if useCorrection then fun k s => var k s / cc s else var
  let sumExpNeg : Fin m → ℝ := fun s => ∑ k, Real.exp (-mean' k s)
  let params : Fin c → Fin m → ℝ := fun k s =>
    (1 - 2 / (numClasses : ℝ) + Real.exp (mean' k s) * sumExpNeg s / (numClasses : ℝ) ^ 2) / var' k s
  dirichletPredictive params

/-- `laplace_bridge` on `[C, m]` arrays: `num_classes = mean.shape[1] = m`.  (eval/predictives.py:11-41) -/
noncomputable def laplaceBridgeMat {c m : ℕ} (mean var : Fin c → Fin m → ℝ) (useCorrection : Bool) : Fin c → Fin m → ℝ :=
  laplaceBridgeBlocks m mean var useCorrection

/-- `mean_field_0_predictive` (eval/predictives.py:55-62). -/
noncomputable def meanField0 {c : ℕ} (mean var : Vec c) : Vec c :=
  softmax (fun k => mean k / Real.sqrt (1 + lambda0 * var k))

/-- `mean_field_1_predictive` (eval/predictives.py:65-76): `mu_diff[i, j] = mean[j] - mean[i]`, `s_sum[i, j] = var[i] + var[j]`,
summed over `j`. -/
noncomputable def meanField1 {c : ℕ} (mean var : Vec c) : Vec c := fun i =>
  1 / ∑ j, Real.exp ((mean j - mean i) / Real.sqrt (1 + lambda0 * (var i + var j)))

/-- `mean_field_2_predictive` (eval/predictives.py:79-88): `s_sum[i, j] = cov[i,i] + cov[j,j] - 2 cov[i,j]`. -/
noncomputable def meanField2 {c : ℕ} (mean : Vec c) (cov : Matrix (Fin c) (Fin c) ℝ) : Vec c := fun i =>
  1 / ∑ j, Real.exp ((mean j - mean i) / Real.sqrt (1 + lambda0 * (cov i i + cov j j - 2 * cov i j)))

/-! ### The same functions on arrays of any shape

The variances have the shape of the means (the only case that occurs: `pred_var` is reshaped to the shape of the mean); otherwise the arguments would
broadcast, which is not modelled except in `mean_field_2_predictive`. -/

/-- Block `b` of length `c` of a flat array: the entries along the last axis at one position of the other axes.  (row-major layout) -/
def lastAxis (a : Arr ℝ) (c b : ℕ) : Vec c := fun k => a.data.getD (b * c + k.val) 0

/-- The entries along the first axis (of length `c`) at position `r` of the `R` positions of the other axes.  (row-major layout) -/
def firstAxis (a : Arr ℝ) (c R r : ℕ) : Vec c := fun j => a.data.getD (j.val * R + r) 0

/-- `laplace_bridge` (eval/predictives.py:11-41): `mean.shape[1]` raises `IndexError` for arrays with fewer than two axes. -/
noncomputable def laplaceBridgeArr (mean var : Arr ℝ) (useCorrection : Bool) : Except Err (Arr ℝ) :=
  match mean.shape with
  | [] => .error .indexError
  | [_] => .error .indexError
  | c :: k :: rest =>
    if var.shape ≠ mean.shape then .error .unmodelled
    else
      let R := shapeSize (k :: rest)
      let blocks (a : Arr ℝ) : Fin c → Fin R → ℝ := fun j r => a.data.getD (j.val * R + r.val) 0
      .ok ⟨mean.shape, (List.ofFn fun j => List.ofFn (laplaceBridgeBlocks k (blocks mean) (blocks var) useCorrection j)).flatten⟩

/-- `mean_field_0_predictive` (eval/predictives.py:55-62): `jax.nn.softmax` acts along the last axis and raises `ValueError` without axes. -/
noncomputable def meanField0Arr (mean var : Arr ℝ) : Except Err (Arr ℝ) :=
  match mean.shape.getLast? with
  | none => .error .valueError
  | some c =>
    if var.shape ≠ mean.shape then .error .unmodelled
    else .ok ⟨mean.shape, ((List.range (shapeSize mean.shape.dropLast)).map fun b =>
      List.ofFn (meanField0 (lastAxis mean c b) (lastAxis var c b))).flatten⟩

/-- `mean_field_1_predictive` (eval/predictives.py:65-76): the new axes of `mean[None, :]` and `mean[:, None]` pair the entries along the first
axis; `IndexError` without axes. -/
noncomputable def meanField1Arr (mean var : Arr ℝ) : Except Err (Arr ℝ) :=
  match mean.shape with
  | [] => .error .indexError
  | c :: rest =>
    if var.shape ≠ mean.shape then .error .unmodelled
    else .ok ⟨mean.shape, (List.ofFn fun k : Fin c => List.ofFn fun r : Fin (shapeSize rest) =>
      meanField1 (firstAxis mean c (shapeSize rest) r.val) (firstAxis var c (shapeSize rest) r.val) k).flatten⟩

/-- `mean[None, :] - mean[:, None]` (eval/predictives.py:80) for a mean with `n` entries along the first axis. -/
noncomputable def muDiff (mean : Arr ℝ) (n : ℕ) (rest : List ℕ) : Arr ℝ :=
  ⟨n :: n :: rest, (List.ofFn fun i : Fin n => (List.ofFn fun j : Fin n => List.ofFn fun r : Fin (shapeSize rest) =>
    firstAxis mean n (shapeSize rest) r.val j - firstAxis mean n (shapeSize rest) r.val i).flatten).flatten⟩

/-- `s_diag[:, None] + s_diag[None, :] - 2 * cov` (eval/predictives.py:81-82) for a square matrix. -/
noncomputable def sSum (cov : Arr ℝ) (N : ℕ) : Arr ℝ :=
  ⟨[N, N], (List.ofFn fun i : Fin N => List.ofFn fun j : Fin N =>
    cov.data.getD (i.val * N + i.val) 0 + cov.data.getD (j.val * N + j.val) 0 - 2 * cov.data.getD (i.val * N + j.val) 0).flatten⟩

/-- External: `jnp.sum(a, axis=1)` of an array with at least two axes. -/
noncomputable def sumAxis1 (a : Arr ℝ) : Except Err (Arr ℝ) :=
  match a.shape with
  | n :: m :: rest => .ok ⟨n :: rest, (List.ofFn fun i : Fin n => List.ofFn fun r : Fin (shapeSize rest) =>
      ∑ j : Fin m, a.data.getD ((i.val * m + j.val) * shapeSize rest + r.val) 0).flatten⟩
  | _ => .error .valueError

/-- `mean_field_2_predictive` (eval/predictives.py:79-88): `IndexError` for a mean without axes, `ValueError` of `jnp.diag` for a covariance without axes
or with more than two.  A mean with several axes is broadcast against the matrix (1-D and rectangular covariances do not occur: not modelled). -/
noncomputable def meanField2Arr (mean cov : Arr ℝ) : Except Err (Arr ℝ) :=
  match mean.shape, cov.shape with
  | [], _ => .error .indexError
  | _ :: _, [] => .error .valueError
  | [n], [a, b] =>
    if a = n ∧ b = n then .ok ⟨[n], List.ofFn (meanField2 (lastAxis mean n 0) (Matrix.of fun i j => lastAxis cov n i.val j))⟩
    else .error .unmodelled
  | n :: rest, [a, b] =>
    if a = b then do
      let e ← Arr.bcast2 (fun d s => Real.exp (d / Real.sqrt (1 + lambda0 * s))) (muDiff mean n rest) (sSum cov a)
      let s ← sumAxis1 e
      return ⟨s.shape, s.data.map (1 / ·)⟩
    else .error .unmodelled
  | _ :: _, [_] => .error .unmodelled
  | _ :: _, _ => .error .valueError

end Laplax
