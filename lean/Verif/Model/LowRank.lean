import Verif.Model.Lobpcg
import Verif.Model.Laplace

/-! # Model of `create_low_rank_curvature`: operator forms, method dispatch, complete drivers

`Verif.Model.LowRankDrivers` models the global precision flag around the drivers, `Verif.Model.Lanczos` / `Verif.Model.Lobpcg` the
numerics on total functions.  Here the drivers are put together on the operators users pass: a 2-D array or a python callable on
flat vectors or on pytrees, which may raise.  Exact real arithmetic: the dtype casts are identities. -/

namespace Laplax
open scoped BigOperators Matrix

/-- The operator argument `A`.  (curv/utils.py:53-60) -/
inductive LowRankOp where
  | array (a : Arr ℝ)
  | callable (f : PyTree ℝ → Except Err (PyTree ℝ))

/-- External: `A @ x` for a 2-D array and a 1-D vector (`A @ x` at curv/utils.py:77).  Other ranks are not modelled: they raise
here. -/
def jnpMatVec (a : Arr ℝ) (x : PyTree ℝ) : Except Err (PyTree ℝ) :=
  match a.shape, x with
  | [m, n], .leaf v =>
    if v.shape = [n] then .ok (flatLeaf ((chunks n m a.data).map fun row => (List.zipWith (· * ·) row v.data).sum))
    else .error .typeError
  | _, _ => .error .typeError

/-- `get_matvec` (curv/utils.py:53-100) for both forms of `A`: the flat product and the dimension.  (`jit` does not change
values; the callable branch is `Verif.Model.Posterior.getMatvec`.) -/
def getMatvecOp : LowRankOp → Layout ℝ → Except Err ((PyTree ℝ → Except Err (PyTree ℝ)) × ℕ)
  | .array a, _ => match a.shape with
    | [] => .error .indexError
    | n :: _ => .ok (jnpMatVec a, n)
  | .callable f, layout => getMatvec f layout

variable {n r : ℕ}

/-- Run an algorithm on a python product: each call may raise, and the result must be a vector of the right length.
(the uses of `matvec` in curv/lanczos.py:222-232 and curv/lobpcg.py:364-395) -/
def MvAlg.runPy (op : PyTree ℝ → Except Err (PyTree ℝ)) : MvAlg n r → Except Err (LowRankTerms n r)
  | .done t => t
  | .call v k => do
    let w ← op (ofVec v)
    let y ← asVec n w
    (k y).runPy op

/-- The loop of `lanczos_iterations` (curv/lanczos.py:80-95) with the product of each iteration as a call: `m` iterations from
index `i`. -/
noncomputable def lanczosLoopAlg (tol : ℝ) (fullReorth : Bool) (k : LanczosState n → MvAlg n r) :
    ℕ → ℕ → LanczosState n → MvAlg n r
  | 0, _, s => k s
  | m + 1, i, s => .call s.v fun w => lanczosLoopAlg tol fullReorth k m (i + 1) (iterationStep tol fullReorth s w i)

/-- `lanczos_lowrank` after the choice of the start vector (curv/lanczos.py:222-241) as an algorithm over products. -/
noncomputable def lanczosAlg (rank : ℕ) (eigh : Mat rank rank → Vec rank × Mat rank rank) (b : Vec n) (tol : ℝ)
    (fullReorth : Bool) : MvAlg n rank :=
  let v0 := (1 / norm2 b) • b
  lanczosLoopAlg tol fullReorth (fun s =>
    let e := computeEigendecomposition eigh s.alpha s.beta s.V
    .done (.ok { U := e.2, S := e.1, scalar := 0 })) rank 0 { v := v0, alpha := 0, beta := 0, V := Function.update 0 0 v0 }

/-- `matmat = jax.vmap(matvec, in_axes=-1, out_axes=-1)` (curv/lobpcg.py:365) on a block: one product per column. -/
def MvAlg.callCols : (a : ℕ) → (Fin a → Vec n) → ((Fin a → Vec n) → MvAlg n r) → MvAlg n r
  | 0, _, k => k (fun j => j.elim0)
  | a + 1, cols, k => .call (cols 0) fun w =>
      MvAlg.callCols a (fun j => cols j.succ) fun ws => k (Fin.cons w ws)

/-- The block `A(X)` (curv/lobpcg.py:124, 188, 194). -/
def MvAlg.callBlock {a : ℕ} (X : Mat n a) (k : Mat n a → MvAlg n r) : MvAlg n r :=
  MvAlg.callCols a (fun j i => X i j) fun ws => k (Matrix.of fun i j => ws j i)

/-- The while loop of `lobpcg_standard` (curv/lobpcg.py:180-199) with its products as calls. -/
noncomputable def lobpcgLoopAlg {k : ℕ} [NeZero k] (K : Kernels) (eps tol : ℝ) (fin : LobpcgState n k → MvAlg n r) :
    ℕ → LobpcgState n k → MvAlg n r
  | 0, s => fin s
  | f + 1, s =>
    if s.converged < k then
      let R := projectOut K eps (hcat s.X s.P) s.R
      MvAlg.callBlock (hcat s.X (hcat s.P R)) fun AS =>
        let fs := iterationFirstStep K s.X s.P R AS
        let theta : Vec k := fun j => fs.2.2 (Fin.castAdd (k + k) j)
        MvAlg.callBlock fs.1 fun AX =>
          let ss := iterationSecondStep fs.1 AX theta tol
          lobpcgLoopAlg K eps tol fin f { X := fs.1, P := fs.2.1, R := ss.1, theta := theta, converged := ss.2, i := s.i + 1 }
    else fin s

/-- `lobpcg_lowrank(mv_jit=False)` after the start block has been drawn (curv/lobpcg.py:386-402). -/
noncomputable def lobpcgAlg {k : ℕ} [NeZero k] (K : Kernels) (eps : ℝ) (X0 : Mat n k) (tol : ℝ) : MvAlg n k :=
  match lobpcgCheckInputs n k with
  | .error e => .done (.error e)
  | .ok _ =>
    let X := orthonormalize K eps X0
    let P := extendBasis K X k
    MvAlg.callBlock X fun AX =>
      let theta : Vec k := fun j => ∑ i, X i j * AX i j
      lobpcgLoopAlg K eps tol (fun s => .done (.ok { U := s.X, S := s.theta, scalar := 0 })) k
        { X := X, P := P, R := Matrix.of fun i j => AX i j - theta j * X i j, theta := theta, converged := 0, i := 0 }

/-- Externals of the drivers: the PRNG, the linear algebra kernels, `finfo(calc_dtype).eps`, and JAX's own `lobpcg_standard`
(used for `mv_jit=True`), the latter as an arbitrary algorithm. -/
structure LowRankExt (Key : Type) where
  normal : Key → (n : ℕ) → Vec n
  normalMat : Key → (n k : ℕ) → Mat n k
  key0 : Key
  kernels : Kernels
  eps : ℝ
  jaxLobpcg : {n k : ℕ} → Mat n k → ℝ → MvAlg n k

/-- The keyword arguments of `create_low_rank_curvature` (curv/low_rank.py:21-26, forwarded to curv/lanczos.py:146-160 and
curv/lobpcg.py:281-293; the dtypes are not modelled here). -/
structure LowRankKw (Key : Type) where
  key : Option Key := none
  b : Option (List ℝ) := none
  rank : ℕ := 20
  tol : ℝ := 1e-6
  mvJit : Bool := true
  fullReorth : Bool := true

/-- Low-rank terms of any dimension and rank.  (curv/utils.py:27-44) -/
abbrev AnyLowRank := (n : ℕ) × (r : ℕ) × LowRankTerms n r

variable {Key : Type}

/-- The start vector of `lanczos_lowrank` (curv/lanczos.py:214-221). -/
def lanczosStart (E : LowRankExt Key) (kw : LowRankKw Key) (n : ℕ) : Except Err (Vec n) :=
  match kw.b, kw.key with
  | some b, _ => asVec n (flatLeaf b)
  | none, some k => .ok (E.normal k n)
  | none, none => .error .valueError

/-- `lanczos_lowrank` (curv/lanczos.py:146-244). -/
noncomputable def lanczosDriver (E : LowRankExt Key) (A : LowRankOp) (layout : Layout ℝ) (kw : LowRankKw Key) :
    Except Err AnyLowRank := do
  let m ← getMatvecOp A layout
  let b ← lanczosStart E kw m.2
  let t ← (lanczosAlg kw.rank E.kernels.eigh b kw.tol kw.fullReorth).runPy m.1
  return ⟨m.2, kw.rank, t⟩

/-- `lobpcg_lowrank` (curv/lobpcg.py:281-407).  A search dimension of zero is rejected (external: `_check_inputs`). -/
noncomputable def lobpcgDriver (E : LowRankExt Key) (A : LowRankOp) (layout : Layout ℝ) (kw : LowRankKw Key) :
    Except Err AnyLowRank := do
  let m ← getMatvecOp A layout
  let k := lobpcgRank m.2 kw.rank
  let X := E.normalMat (kw.key.getD E.key0) m.2 k
  if h : k = 0 then .error .valueError
  else
    have : NeZero k := ⟨h⟩
    let t ← (if kw.mvJit then E.jaxLobpcg X kw.tol else lobpcgAlg E.kernels E.eps X kw.tol).runPy m.1
    return ⟨m.2, k, t⟩

/-- `create_low_rank_curvature` (curv/low_rank.py:21-62): a dictionary keyed by `LowRankMethod` members, which are strings
(`StrEnum`); the default is `"lanczos"`. -/
noncomputable def createLowRankCurvature (E : LowRankExt Key) (A : LowRankOp) (layout : Layout ℝ) (kw : LowRankKw Key)
    (method : String := "lanczos") : Except Err AnyLowRank :=
  if method = "lanczos" then lanczosDriver E A layout kw
  else if method = "lobpcg" then lobpcgDriver E A layout kw
  else .error .keyError

end Laplax
