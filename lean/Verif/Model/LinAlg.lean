import Verif.Model.Loss
import Mathlib.LinearAlgebra.Matrix.NonsingularInverse
import Mathlib.Analysis.SpecialFunctions.Pow.Real

/-! # Dense linear algebra called by laplax (external: `jnp.linalg`, `jax.scipy.linalg`)

A 2-D array of shape `(m, n)` is a `Matrix (Fin m) (Fin n) ℝ`.  The factorisation and the triangular solve are modelled
by the textbook algorithms, not by their specification.  Exact real arithmetic replaces floating point; on an input that
is not positive definite the real `cholesky` returns NaN while `Real.sqrt` of a negative number is `0` here, so nothing
may be concluded from this model outside the positive definite case. -/

namespace Laplax
open scoped BigOperators

/-- External: `jnp.flip(A, axis=(-2, -1))`. -/
def flip2 {m n : ℕ} (A : Matrix (Fin m) (Fin n) ℝ) : Matrix (Fin m) (Fin n) ℝ := fun i j => A i.rev j.rev

/-- External: `jnp.transpose(A, axes=(a, b))` of a square matrix; an axis is taken modulo `A.ndim = 2`, so `(-2, -1)` is
`(0, 1)`, the identity permutation. -/
def transposeAxes {n : ℕ} (A : Matrix (Fin n) (Fin n) ℝ) (axes : ℤ × ℤ) : Matrix (Fin n) (Fin n) ℝ :=
  if axes.1 % 2 = 0 ∧ axes.2 % 2 = 1 then A else fun i j => A j i

/-- The Cholesky algorithm (outer-product form) on the lower triangle: first column, then the Schur complement.
(external: `jnp.linalg.cholesky`, called at curv/full.py:101) -/
noncomputable def choleskyLower : {n : ℕ} → Matrix (Fin n) (Fin n) ℝ → Matrix (Fin n) (Fin n) ℝ
  | 0, A => A
  | _ + 1, A =>
    let d := Real.sqrt (A 0 0)
    let l := fun i : Fin _ => A i.succ 0 / d
    let L' := choleskyLower (fun i j => A i.succ j.succ - l i * l j)
    fun i => Fin.cases (motive := fun _ => Fin (_ + 1) → ℝ)
      (fun j => Fin.cases (motive := fun _ => ℝ) d (fun _ => 0) j)
      (fun i' j => Fin.cases (motive := fun _ => ℝ) (l i') (fun j' => L' i' j') j) i

/-- External: `jnp.linalg.cholesky(A)` with the default `symmetrize_input=True`: lower factor of `(A + Aᵀ)/2`. -/
noncomputable def jnpCholesky {n : ℕ} (A : Matrix (Fin n) (Fin n) ℝ) : Matrix (Fin n) (Fin n) ℝ :=
  choleskyLower (fun i j => (A i j + A j i) / 2)

/-- Forward substitution; reads only the lower triangle of `M`.
(external: `jax.scipy.linalg.solve_triangular`, called at curv/full.py:104) -/
noncomputable def forwardSubst : {n : ℕ} → Matrix (Fin n) (Fin n) ℝ → Vec n → Vec n
  | 0, _, b => b
  | _ + 1, M, b =>
    let x0 := b 0 / M 0 0
    let x' := forwardSubst (fun i j => M i.succ j.succ) (fun i => b i.succ - M i.succ 0 * x0)
    fun i => Fin.cases (motive := fun _ => ℝ) x0 x' i

/-- Back substitution; reads only the upper triangle of `M`.
(external: `jax.scipy.linalg.solve_triangular`, called at curv/full.py:104) -/
noncomputable def backSubst {n : ℕ} (M : Matrix (Fin n) (Fin n) ℝ) (b : Vec n) : Vec n :=
  fun i => forwardSubst (flip2 M) (fun k => b k.rev) i.rev

/-- External: `jax.scipy.linalg.solve_triangular(A, b, trans=…, lower=…)` for one right-hand side.  `trans="T"` solves
`Aᵀ x = b`; only the triangle of `A` selected by `lower` is read. -/
noncomputable def solveTriangular {n : ℕ} (A : Matrix (Fin n) (Fin n) ℝ) (b : Vec n) (trans : Bool) (lower : Bool) :
    Vec n :=
  match trans, lower with
  | false, true => forwardSubst A b
  | false, false => backSubst A b
  | true, true => backSubst (fun i j => A j i) b
  | true, false => forwardSubst (fun i j => A j i) b

/-- `solve_triangular` with a matrix right-hand side: column by column.  (external, called at curv/full.py:104) -/
noncomputable def solveTriangularMat {n m : ℕ} (A : Matrix (Fin n) (Fin n) ℝ) (B : Matrix (Fin n) (Fin m) ℝ)
    (trans : Bool) (lower : Bool) : Matrix (Fin n) (Fin m) ℝ :=
  fun i j => solveTriangular A (fun k => B k j) trans lower i

end Laplax
