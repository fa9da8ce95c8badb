import Verif.Model.Posterior

/-! # Model of the numerics of `laplax/curv/lanczos.py`

Exact real arithmetic.  The arrays `alpha`, `beta`, `V` are functions of the row index, zero where never written; a
`.at[i].set(x)` is a point update. `jnp.linalg.eigh` is a parameter (`Spec.IsEigh` states what is assumed of it). -/

namespace Laplax
open scoped BigOperators Matrix

variable {n : ℕ}

/-- Carry of the loop (curv/lanczos.py:80-95). -/
structure LanczosState (n : ℕ) where
  v : Vec n
  alpha : ℕ → ℝ
  beta : ℕ → ℝ
  V : ℕ → Vec n

/-- External: `jnp.linalg.norm(w, 2)`. -/
noncomputable def norm2 (w : Vec n) : ℝ := Real.sqrt (w ⬝ᵥ w)

/-- `body_fn` of `reorthogonalize` (curv/lanczos.py:49-51). -/
def reorthBody (V : ℕ → Vec n) (w : Vec n) (j : ℕ) : Vec n := w - (V j ⬝ᵥ w) • V j

/-- `reorthogonalize` (curv/lanczos.py:48-53): `fori_loop(0, i, body_fn, w)`. -/
def reorthogonalize (w : Vec n) (V : ℕ → Vec n) (i : ℕ) : Vec n := (List.range i).foldl (reorthBody V) w

/-- `iteration_step` (curv/lanczos.py:56-78). -/
noncomputable def iterationStep (tol : ℝ) (fullReorth : Bool) (s : LanczosState n) (w : Vec n) (i : ℕ) :
    LanczosState n :=
  let a := s.v ⬝ᵥ w
  let w := w - a • s.v
  let w := if fullReorth then reorthogonalize w s.V i else w
  let w := if fullReorth then reorthogonalize w s.V i else w
  let bVal := norm2 w
  let bVal := if bVal < tol then 0 else bVal
  let vNext := if bVal > 0 then (1 / bVal) • w else s.v
  { v := vNext
    alpha := Function.update s.alpha i a
    beta := Function.update s.beta i bVal
    V := Function.update s.V (i + 1) vNext }

/-- `lanczos_iterations` (curv/lanczos.py:9-95); `mv_jit` selects `lax.scan` or a python loop over the same body.  A zero
start vector (NaN in floating point) is the zero vector here. -/
noncomputable def lanczosIterations (matvec : Vec n → Vec n) (b : Vec n) (maxiter : ℕ) (tol : ℝ) (fullReorth : Bool) :
    LanczosState n :=
  let v0 := (1 / norm2 b) • b
  let init : LanczosState n := { v := v0, alpha := 0, beta := 0, V := Function.update 0 0 v0 }
  (List.range maxiter).foldl (fun s i => iterationStep tol fullReorth s (matvec s.v) i) init

/-- `construct_tridiagonal` (curv/lanczos.py:98-117) for `k` iterations. -/
def constructTridiagonal (k : ℕ) (alpha beta : ℕ → ℝ) : Matrix (Fin k) (Fin k) ℝ := fun i j =>
  if i = j then alpha i else if i.val + 1 = j.val then beta i else if j.val + 1 = i.val then beta j else 0

/-- `V[:-1].T` (curv/lanczos.py:139): column `j` is Lanczos vector `j < k`. -/
def lanczosBasis (k : ℕ) (V : ℕ → Vec n) : Matrix (Fin n) (Fin k) ℝ := fun i j => V j i

/-- `compute_eigendecomposition(…, compute_vectors=True)` (curv/lanczos.py:120-143): `(eigvals, ritz_vectors)`. -/
def computeEigendecomposition {k : ℕ} (eigh : Matrix (Fin k) (Fin k) ℝ → Vec k × Matrix (Fin k) (Fin k) ℝ)
    (alpha beta : ℕ → ℝ) (V : ℕ → Vec n) : Vec k × Matrix (Fin n) (Fin k) ℝ :=
  let e := eigh (constructTridiagonal k alpha beta)
  (e.1, lanczosBasis k V * e.2)

/-- The numerical core of `lanczos_lowrank` (curv/lanczos.py:222-241): `rank` iterations from `b`, eigendecomposition,
`scalar = 0`.  (Argument checks, dtypes and the x64 flag: `Verif.Model.LowRankDrivers`.) -/
noncomputable def lanczosLowrankTerms (rank : ℕ)
    (eigh : Matrix (Fin rank) (Fin rank) ℝ → Vec rank × Matrix (Fin rank) (Fin rank) ℝ)
    (matvec : Vec n → Vec n) (b : Vec n) (tol : ℝ := 1e-6) (fullReorth : Bool := true) : LowRankTerms n rank :=
  let s := lanczosIterations matvec b rank tol fullReorth
  let e := computeEigendecomposition eigh s.alpha s.beta s.V
  { U := e.2, S := e.1, scalar := 0 }

end Laplax
