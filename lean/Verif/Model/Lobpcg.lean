import Verif.Model.LowRankDrivers
import Verif.Model.Lanczos
import Mathlib.Analysis.SpecialFunctions.Pow.Real
import Mathlib.Data.Fin.Tuple.Basic

/-! # Model of the numerics of `laplax/curv/lobpcg.py` (the non-jitted solver)

Exact real arithmetic (the dtype casts are identities).  `jnp.linalg.eigh`, `jnp.linalg.qr` and `jnp.linalg.svd` are
parameters; `Spec/Lobpcg.lean` states what is assumed of them.  With `A_jit=True` the code calls JAX's own
`lobpcg_standard`, which is not modelled.  A division by zero (NaN/inf in floating point) is `0` here; the theorems show
where it cannot happen. -/

namespace Laplax
open scoped BigOperators Matrix

variable {n k : ℕ}

/-- The matrices occurring here: `(a, b)`-shaped float arrays.  (curv/lobpcg.py:82-201) -/
abbrev Mat (a b : ℕ) := Matrix (Fin a) (Fin b) ℝ

/-- External: `jnp.linalg.norm(X, ord=2, axis=0)`. -/
noncomputable def colNorm (X : Mat n k) (j : Fin k) : ℝ := Real.sqrt (∑ i, X i j ^ 2)

/-- External: `jnp.concatenate((A, B), axis=1)`. -/
def hcat {a b : ℕ} (A : Mat n a) (B : Mat n b) : Mat n (a + b) := Matrix.of fun i => Fin.append (A i) (B i)

/-- The numerical kernels called: `jnp.linalg.eigh` (ascending eigenvalues), the `q` of `jnp.linalg.qr` (reduced mode),
`jnp.linalg.svd`. (calls in curv/lobpcg.py:147, 214, 232, 278) -/
structure Kernels where
  eigh : {r : ℕ} → Mat r r → Vec r × Mat r r
  qr : {a b : ℕ} → Mat a b → Mat a b
  svd : {r : ℕ} → Mat r r → Mat r r × Vec r × Mat r r

/-- External: `jax.experimental.sparse.linalg._eigh_ascending`: `eigh`, reversed (largest eigenvalue first). -/
def eighAscending (K : Kernels) {r : ℕ} (M : Mat r r) : Vec r × Mat r r :=
  (fun j => (K.eigh M).1 j.rev, Matrix.of fun i j => (K.eigh M).2 i j.rev)

/-- `_svqb` (curv/lobpcg.py:208-226); `eps` is `jnp.finfo(dtype).eps`. -/
noncomputable def svqb [NeZero k] (K : Kernels) (eps : ℝ) (X : Mat n k) : Mat n k :=
  let X1 : Mat n k := Matrix.of fun i j => X i j / (if colNorm X j = 0 then 1 else colNorm X j)
  let inner := X1ᵀ * X1
  let w := (eighAscending K inner).1
  let V := (eighAscending K inner).2
  let tau := eps * w 0
  let padded : Vec k := fun j => max (w j) tau
  let sqrted : Vec k := fun j => (if tau > 0 then padded j else 1) ^ (-(1 / 2) : ℝ)
  let scaledV : Mat k k := Matrix.of fun i j => V i j * sqrted j
  let orthoX : Mat n k := X1 * scaledV
  let keep : Fin k → Prop := fun j => w j > tau ∧ inner j j > 0
  open Classical in
  let orthoX1 : Mat n k := Matrix.of fun i j => orthoX i j * (if keep j then 1 else 0)
  open Classical in
  Matrix.of fun i j => orthoX1 i j / (if keep j ∧ colNorm orthoX1 j > 0 then colNorm orthoX1 j else 1)

/-- `_orthonormalize` (curv/lobpcg.py:201-205): two rounds of `_svqb`. -/
noncomputable def orthonormalize [NeZero k] (K : Kernels) (eps : ℝ) (X : Mat n k) : Mat n k :=
  svqb K eps (svqb K eps X)

/-- `_extend_basis` (curv/lobpcg.py:229-240), `m` new columns.  `Xupper` are the first `k` rows; `other` is
`[eye(m); zeros(n-k-m, m)]` (its row index is the row number minus `k`). -/
noncomputable def extendBasis (K : Kernels) (X : Mat n k) (m : ℕ) : Mat n m :=
  let Xupper : Mat k k := Matrix.of fun i j => if h : i.val < n then X ⟨i, h⟩ j else 0
  let u := (K.svd Xupper).1
  let s := (K.svd Xupper).2.1
  let vt := (K.svd Xupper).2.2
  let y : Mat n k := Matrix.of fun i j => X i j + (if h : i.val < k then (u * vt) ⟨i, h⟩ j else 0)
  let other : ℕ → Fin m → ℝ := fun r b => if r = b.val then 1 else 0
  let scaled : Mat k k := Matrix.of fun i j => vtᵀ i j * (2 * (1 + s j)) ^ (-1 / 2 : ℝ)
  let w : Mat n k := y * scaled
  let wLower_other : Mat k m := Matrix.of fun a b => ∑ r : Fin n, if k ≤ r.val then w r a * other (r.val - k) b else 0
  let h : Mat n m := Matrix.of fun i b => -2 * (w * wLower_other) i b
  Matrix.of fun i b => if k ≤ i.val then h i b + other (i.val - k) b else h i b

/-- One subtraction `U -= basis @ (basis.T @ U)` (curv/lobpcg.py:250, 256). -/
def projectOnce {a : ℕ} (basis : Mat n a) (U : Mat n k) : Mat n k := U - basis * (basisᵀ * U)

/-- `_project_out` (curv/lobpcg.py:243-260). -/
noncomputable def projectOut [NeZero k] (K : Kernels) (eps : ℝ) {a : ℕ} (basis : Mat n a) (U : Mat n k) : Mat n k :=
  let U := orthonormalize K eps (projectOnce basis U)
  let U := orthonormalize K eps (projectOnce basis U)
  let U := projectOnce basis (projectOnce basis U)
  Matrix.of fun i j => U i j * (if colNorm U j ≥ 0.99 then 1 else 0)

/-- `_rayleigh_ritz_orth` (curv/lobpcg.py:263-278). -/
def rayleighRitzOrth (K : Kernels) {r : ℕ} (AS S : Mat n r) : Vec r × Mat r r := eighAscending K (Sᵀ * AS)

/-- Loop variables (curv/lobpcg.py:181-199). -/
structure LobpcgState (n k : ℕ) where
  X : Mat n k
  P : Mat n k
  R : Mat n k
  theta : Vec k
  converged : ℕ
  i : ℕ

/-- The callable `A` on a block: `matmat = jax.vmap(matvec, in_axes=-1, out_axes=-1)` (curv/lobpcg.py:365). -/
def matmat (mv : Vec n → Vec n) {a : ℕ} (X : Mat n a) : Mat n a := Matrix.of fun i j => mv (fun i => X i j) i

/-- `_iteration_first_step` (curv/lobpcg.py:132-152): the new `X`, `P` and all Ritz values. -/
noncomputable def iterationFirstStep (K : Kernels) (X P R : Mat n k) (AS : Mat n (k + (k + k))) :
    Mat n k × Mat n k × Vec (k + (k + k)) :=
  let XPR := hcat X (hcat P R)
  let rr := rayleighRitzOrth K AS XPR
  let theta := rr.1
  let Q := rr.2
  let B0 : Mat (k + (k + k)) k := Matrix.of fun i j => Q i (Fin.castAdd (k + k) j)
  let B : Mat (k + (k + k)) k := Matrix.of fun i j => B0 i j / colNorm B0 j
  let X0 := XPR * B
  let X' : Mat n k := Matrix.of fun i j => X0 i j / colNorm X0 j
  let q : Mat (k + k) k := K.qr (Matrix.of fun (i : Fin (k + k)) (j : Fin k) => Q (Fin.castAdd (k + k) j) (Fin.natAdd k i))
  let Q2 : Mat (k + (k + k)) (k + k) := Matrix.of fun i j => Q i (Fin.natAdd k j)
  let diff : Mat (k + (k + k)) k := Q2 * q
  let P0 := XPR * diff
  let P' : Mat n k := Matrix.of fun i j => P0 i j / (if colNorm P0 j = 0 then 1 else colNorm P0 j)
  (X', P', theta)

/-- `_iteration_second_step` (curv/lobpcg.py:154-170): new residuals and the number of converged columns. -/
noncomputable def iterationSecondStep (X AX : Mat n k) (theta : Vec k) (tol : ℝ) : Mat n k × ℕ :=
  let R : Mat n k := Matrix.of fun i j => AX i j - theta j * X i j
  let reltol : Vec k := fun j => (colNorm AX j + theta j) * n * 10
  (R, (Finset.univ.filter fun j => colNorm R j < tol * reltol j).card)

/-- The body of the while loop (curv/lobpcg.py:183-199). -/
noncomputable def lobpcgStep [NeZero k] (K : Kernels) (eps : ℝ) (mv : Vec n → Vec n) (tol : ℝ) (s : LobpcgState n k) :
    LobpcgState n k :=
  let R := projectOut K eps (hcat s.X s.P) s.R
  let XPR := hcat s.X (hcat s.P R)
  let AS := matmat mv XPR
  let fs := iterationFirstStep K s.X s.P R AS
  let X := fs.1
  let P := fs.2.1
  let theta : Vec k := fun j => fs.2.2 (Fin.castAdd (k + k) j)
  let AX := matmat mv X
  let ss := iterationSecondStep X AX theta tol
  { X := X, P := P, R := ss.1, theta := theta, converged := ss.2, i := s.i + 1 }

/-- The loop variables before the loop (curv/lobpcg.py:121-129, 178-179). -/
noncomputable def lobpcgInit [NeZero k] (K : Kernels) (eps : ℝ) (mv : Vec n → Vec n) (X0 : Mat n k) : LobpcgState n k :=
  let X := orthonormalize K eps X0
  let P := extendBasis K X k
  let AX := matmat mv X
  let theta : Vec k := fun j => ∑ i, X i j * AX i j
  { X := X, P := P, R := Matrix.of fun i j => AX i j - theta j * X i j, theta := theta, converged := 0, i := 0 }

/-- `while i < m and converged < k` (curv/lobpcg.py:180-199); the first argument is `m - i`. -/
noncomputable def lobpcgLoop [NeZero k] (K : Kernels) (eps : ℝ) (mv : Vec n → Vec n) (tol : ℝ) :
    ℕ → LobpcgState n k → LobpcgState n k
  | 0, s => s
  | f + 1, s => if s.converged < k then lobpcgLoop K eps mv tol f (lobpcgStep K eps mv tol s) else s

/-- `lobpcg_standard(A, X, m, tol, A_jit=False)` (curv/lobpcg.py:82-201): `(eigenvalues, eigenvectors, iterations)`.
`tol=None` is `eps`. -/
noncomputable def lobpcgStandard [NeZero k] (K : Kernels) (eps : ℝ) (mv : Vec n → Vec n) (X0 : Mat n k) (m : ℕ)
    (tol : Option ℝ) : Except Err (Vec k × Mat n k × ℕ) := do
  lobpcgCheckInputs n k
  let s := lobpcgLoop K eps mv (tol.getD eps) m (lobpcgInit K eps mv X0)
  return (s.theta, s.X, s.i)

/-- The numerical core of `lobpcg_lowrank(mv_jit=False)` (curv/lobpcg.py:364-402) for a start block with `k` columns, `k` the
(already adjusted) rank: `m = rank`, `scalar = 0`.  (Argument handling, dtypes, the x64 flag and the rank adjustment:
`Verif.Model.LowRankDrivers`.) -/
noncomputable def lobpcgLowrankTerms [NeZero k] (K : Kernels) (eps : ℝ) (mv : Vec n → Vec n) (X0 : Mat n k)
    (tol : ℝ) : Except Err (LowRankTerms n k) := do
  let r ← lobpcgStandard K eps mv X0 k (some tol)
  return { U := r.2.1, S := r.1, scalar := 0 }

end Laplax
