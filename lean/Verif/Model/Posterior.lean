import Verif.Model.LinAlg
import Verif.Model.Mv

/-! # Model of `laplax/curv/full.py`, `laplax/curv/diagonal.py`, `laplax/curv/low_rank.py` and `laplax/curv/cov.py` -/

namespace Laplax
open scoped BigOperators Matrix

variable {p r : ℕ}

/-- The `prior_arguments` dictionary: the two keys laplax reads.  (types.py:30; read at curv/full.py:78-79) -/
structure PriorArgs where
  priorPrec : Option ℝ
  sigmaSquared : Option ℝ

/-- `prior_arguments["prior_prec"]` (curv/full.py:78, curv/diagonal.py:61, curv/low_rank.py:141). -/
def PriorArgs.getPriorPrec (a : PriorArgs) : Except Err ℝ :=
  match a.priorPrec with
  | some t => .ok t
  | none => .error .keyError

/-- `prior_arguments.get("sigma_squared", 1.0)` (curv/full.py:79, curv/diagonal.py:62, curv/low_rank.py:142). -/
noncomputable def PriorArgs.getSigmaSquared (a : PriorArgs) : ℝ := a.sigmaSquared.getD 1

/-! ### FULL (curv/full.py) -/

/-- `full_curvature_to_precision` (curv/full.py:58-83). -/
noncomputable def fullCurvatureToPrecision (C : Matrix (Fin p) (Fin p) ℝ) (a : PriorArgs) (lsf : ℝ := 1) :
    Except Err (Matrix (Fin p) (Fin p) ℝ) := do
  let priorPrec ← a.getPriorPrec
  let s2 := a.getSigmaSquared
  return fun i j => (s2 * C i j + priorPrec * (if i = j then 1 else 0)) / lsf

/-- `full_prec_to_scale` (curv/full.py:86-105).  `solve_triangular`'s default is `lower=False`. -/
noncomputable def fullPrecToScale (prec : Matrix (Fin p) (Fin p) ℝ) : Matrix (Fin p) (Fin p) ℝ :=
  let Lf := jnpCholesky (flip2 prec)
  let Linv := transposeAxes (flip2 Lf) (-2, -1)
  solveTriangularMat Linv (fun i j => if i = j then 1 else 0) true false

/-- `LowRankTerms` (curv/utils.py:28-50). -/
structure LowRankTerms (p r : ℕ) where
  U : Matrix (Fin p) (Fin r) ℝ
  S : Vec r
  scalar : ℝ

/-- The posterior state dictionary `{"scale": …}` of the three approximations (curv/full.py:108-125,
curv/diagonal.py:69-84, curv/low_rank.py:151-176). -/
inductive PosteriorState (p : ℕ) where
  | full (scale : Matrix (Fin p) (Fin p) ℝ)
  | diagonal (scale : Vec p)
  | lowRank {r : ℕ} (scale : LowRankTerms p r)

/-- `full_prec_to_posterior_state` (curv/full.py:108-125). -/
noncomputable def fullPrecToPosteriorState (prec : Matrix (Fin p) (Fin p) ℝ) : PosteriorState p :=
  .full (fullPrecToScale prec)

/-- `full_posterior_state_to_scale` (curv/full.py:128-147). -/
def fullScaleMv (scale : Matrix (Fin p) (Fin p) ℝ) (vec : Vec p) : Vec p := scale *ᵥ vec

/-- `full_posterior_state_to_cov` (curv/full.py:150-171): `cov = scale @ scale.T`. -/
def fullCovMv (scale : Matrix (Fin p) (Fin p) ℝ) (vec : Vec p) : Vec p := (scale * scaleᵀ) *ᵥ vec

/-! ### DIAGONAL (curv/diagonal.py) -/

/-- `diagonal_curvature_to_precision` (curv/diagonal.py:41-66); `jnp.ones_like(n)` is the scalar 1. -/
noncomputable def diagonalCurvatureToPrecision (d : Vec p) (a : PriorArgs) (lsf : ℝ := 1) : Except Err (Vec p) := do
  let priorPrec ← a.getPriorPrec
  let s2 := a.getSigmaSquared
  return fun i => (s2 * d i + priorPrec * 1) / lsf

/-- The scale of `diagonal_prec_to_posterior_state` (curv/diagonal.py:69-84). -/
noncomputable def diagonalScale (prec : Vec p) : Vec p := fun i => Real.sqrt (1 / prec i)

/-- `diagonal_prec_to_posterior_state` (curv/diagonal.py:69-84). -/
noncomputable def diagonalPrecToPosteriorState (prec : Vec p) : PosteriorState p := .diagonal (diagonalScale prec)

/-- `diagonal_posterior_state_to_scale` (curv/diagonal.py:87-106). -/
def diagonalScaleMv (scale vec : Vec p) : Vec p := fun i => scale i * vec i

/-- `diagonal_posterior_state_to_cov` (curv/diagonal.py:109-128). -/
def diagonalCovMv (scale vec : Vec p) : Vec p := fun i => scale i ^ 2 * vec i

/-! ### Low rank (curv/low_rank.py) -/

/-- `create_low_rank_mv` (curv/low_rank.py:63-87). -/
def createLowRankMv (t : LowRankTerms p r) (vec : Vec p) : Vec p :=
  fun i => t.scalar * vec i + (t.U *ᵥ (fun k => t.S k * (t.Uᵀ *ᵥ vec) k)) i

/-- `low_rank_square` (curv/low_rank.py:90-116). -/
def lowRankSquare (t : LowRankTerms p r) : LowRankTerms p r :=
  { U := t.U, S := fun k => (t.S k + t.scalar) ^ 2 - t.scalar ^ 2, scalar := t.scalar ^ 2 }

/-- `low_rank_curvature_to_precision` (curv/low_rank.py:119-148). -/
noncomputable def lowRankCurvatureToPrecision (t : LowRankTerms p r) (a : PriorArgs) (lsf : ℝ := 1) :
    Except Err (LowRankTerms p r) := do
  let priorPrec ← a.getPriorPrec
  let s2 := a.getSigmaSquared
  return { U := t.U, S := fun k => s2 * t.S k, scalar := priorPrec / lsf }

/-- The scale of `low_rank_prec_to_posterior_state` (curv/low_rank.py:151-176). -/
noncomputable def lowRankScale (t : LowRankTerms p r) : LowRankTerms p r :=
  let c := 1 / Real.sqrt t.scalar
  { U := t.U, S := fun k => 1 / Real.sqrt (t.S k + t.scalar) - c, scalar := c }

/-- `low_rank_prec_to_posterior_state` (curv/low_rank.py:151-176). -/
noncomputable def lowRankPrecToPosteriorState (t : LowRankTerms p r) : PosteriorState p := .lowRank (lowRankScale t)

/-! ### Dispatch (curv/cov.py) -/

/-- A curvature estimate of one of the built-in kinds.  (the results of curv/cov.py:101-130) -/
inductive CurvEstimate (p : ℕ) where
  | full (C : Matrix (Fin p) (Fin p) ℝ)
  | diagonal (d : Vec p)
  | lowRank {r : ℕ} (t : LowRankTerms p r)

/-- `CURVATURE_PRECISION_METHODS[curv_type]` followed by `CURVATURE_TO_POSTERIOR_STATE[curv_type]`
(curv/cov.py:60-72, 186-193); the estimate's kind stands for `curv_type` (both low-rank keys share one entry). -/
noncomputable def posteriorState (e : CurvEstimate p) (a : PriorArgs) (lsf : ℝ := 1) : Except Err (PosteriorState p) :=
  match e with
  | .full C => do
    let prec ← fullCurvatureToPrecision C a lsf
    return fullPrecToPosteriorState prec
  | .diagonal d => do
    let prec ← diagonalCurvatureToPrecision d a lsf
    return diagonalPrecToPosteriorState prec
  | .lowRank t => do
    let prec ← lowRankCurvatureToPrecision t a lsf
    return lowRankPrecToPosteriorState prec

/-- `CURVATURE_STATE_TO_SCALE[curv_type](state)` (curv/cov.py:74-79, curv/full.py:128-147, curv/diagonal.py:87-106,
curv/low_rank.py:179-195). -/
def scaleMvOfState : PosteriorState p → Vec p → Vec p
  | .full s => fullScaleMv s
  | .diagonal s => diagonalScaleMv s
  | .lowRank s => createLowRankMv s

/-- `CURVATURE_STATE_TO_COV[curv_type](state)` (curv/cov.py:81-86, curv/full.py:150-171, curv/diagonal.py:109-128,
curv/low_rank.py:198-213). -/
def covMvOfState : PosteriorState p → Vec p → Vec p
  | .full s => fullCovMv s
  | .diagonal s => diagonalCovMv s
  | .lowRank s => createLowRankMv (lowRankSquare s)

/-- A flat 1-D array argument as a mathematical vector; JAX raises for a product with a vector of the wrong length (for
the diagonal approximation a length-1 array would broadcast: not modelled, same error here). -/
def asVec (p : ℕ) (t : PyTree ℝ) : Except Err (Vec p) :=
  match t with
  | .leaf a => if h : a.data.length = p then .ok (fun i => a.data[i.val]'(by omega)) else .error .typeError
  | .node _ _ => .error .typeError

/-- A vector as a flat 1-D array.  (types.py:21) -/
def ofVec (v : Vec p) : PyTree ℝ := flatLeaf (List.ofFn v)

/-- The python callable computing `f` on flat arrays. -/
def flatCallable (f : Vec p → Vec p) : List (PyTree ℝ) → Except Err (PyTree ℝ)
  | [t] => do
    let v ← asVec p t
    return ofVec (f v)
  | _ => .error .typeError

/-- `Posterior` (curv/cov.py:94-98). -/
structure Posterior (p : ℕ) where
  state : PosteriorState p
  covMv : PosteriorState p → Except Err (List (PyTree ℝ) → Except Err (PyTree ℝ))
  scaleMv : PosteriorState p → Except Err (List (PyTree ℝ) → Except Err (PyTree ℝ))

/-- `flatten, unflatten` of `set_posterior_fn` (curv/cov.py:159-164): `None` for an `int`/`None` layout. -/
def posteriorWrappers (layout : Layout ℝ) :
    Option (PyTree ℝ → Except Err (PyTree ℝ)) × Option (PyTree ℝ → Except Err (PyTree ℝ)) :=
  match layout with
  | .int _ => (none, none)
  | .none => (none, none)
  | .tree t =>
    (some (fun u => do
      let xs ← (createPytreeFlattener t).1 u
      return flatLeaf xs),
     some (fun u => match u with
      | .leaf a => (createPytreeFlattener t).2 a.data
      | .node _ _ => .error .typeError))

/-- `set_posterior_fn(curv_type, curv_estimate, layout=layout)(prior_arguments, loss_scaling_factor)`
(curv/cov.py:133-207).  The `ValueError` at 155-157 is unreachable (`isinstance(_, PyTree)` always holds). -/
noncomputable def setPosteriorFn (e : CurvEstimate p) (layout : Layout ℝ) (a : PriorArgs) (lsf : ℝ := 1) :
    Except Err (Posterior p) := do
  let w := posteriorWrappers layout
  let state ← posteriorState e a lsf
  return {
    state := state
    covMv := wrapFactory (fun s => .ok (flatCallable (covMvOfState s))) w.1 w.2
    scaleMv := wrapFactory (fun s => .ok (flatCallable (scaleMvOfState s))) w.1 w.2 }

/-- Read a 2-D array of shape `(p, p)` as a matrix.  (external: reading the array of curv/full.py:55) -/
def asMatrix (p : ℕ) (t : PyTree ℝ) : Except Err (Matrix (Fin p) (Fin p) ℝ) :=
  match t with
  | .leaf a => if a.shape = [p, p] then .ok (fun i j => a.data.getD (i.val * p + j.val) 0) else .error .typeError
  | .node _ _ => .error .typeError

/-- `wrap_function(mv, input_fn=unflatten, output_fn=flatten)` with the flattener of the layout `t`
(curv/full.py:52-53, curv/utils.py:88-89). -/
def wrapMv (t : PyTree ℝ) (mv : PyTree ℝ → Except Err (PyTree ℝ)) (v : PyTree ℝ) : Except Err (PyTree ℝ) :=
  match v with
  | .leaf a => do
    let u ← (createPytreeFlattener t).2 a.data
    let w ← mv u
    let xs ← (createPytreeFlattener t).1 w
    return flatLeaf xs
  | .node _ _ => .error .typeError

/-- `create_full_curvature` (curv/full.py:23-55).  An `int` layout skips the wrapping, but then `get_size(layout)` reads
`.shape` of an `int` and raises `AttributeError`; a `None` layout has no leaves (`_unflatten` raises while tracing). -/
noncomputable def createFullCurvature (mv : PyTree ℝ → Except Err (PyTree ℝ)) (layout : Layout ℝ) :
    Except Err (PyTree ℝ) :=
  match layout with
  | .int _ => .error .attributeError
  | .none => .error .valueError
  | .tree t =>
    toDense (wrapMv t mv) (.int (getSize t))

/-- `create_diagonal_curvature` (curv/diagonal.py:17-38). -/
def createDiagonalCurvature (mv : PyTree ℝ → Except Err (PyTree ℝ)) (layout : Layout ℝ) : Except Err (List ℝ) :=
  diagonal (.callable mv) layout

/-- `get_matvec` (curv/utils.py:53-100) for a callable and a layout (`jit` only controls compilation): the flat
matrix-vector product and its dimension. -/
def getMatvec (mv : PyTree ℝ → Except Err (PyTree ℝ)) (layout : Layout ℝ) :
    Except Err ((PyTree ℝ → Except Err (PyTree ℝ)) × ℕ) :=
  match layout with
  | .none => .error .typeError
  | .int n => .ok (mv, n)
  | .tree t => .ok (wrapMv t mv, getSize t)

/-- The `curv_type` argument of `create_posterior_fn`; the low-rank drivers are a parameter (`Verif.Model.Lanczos`
models one of them) receiving the uniform matrix-vector product and its dimension. -/
inductive CurvType (p : ℕ) where
  | full
  | diagonal
  | lowRank (r : ℕ) (driver : (PyTree ℝ → Except Err (PyTree ℝ)) → ℕ → Except Err (LowRankTerms p r))

/-- `estimate_curvature` (curv/cov.py:101-130); results are read as arrays over the flat parameters (`p` many). -/
noncomputable def estimateCurvature (ct : CurvType p) (mv : PyTree ℝ → Except Err (PyTree ℝ)) (layout : Layout ℝ) :
    Except Err (CurvEstimate p) :=
  match ct with
  | .full => do
    let d ← createFullCurvature mv layout
    let M ← asMatrix p d
    return .full M
  | .diagonal => do
    let xs ← createDiagonalCurvature mv layout
    let v ← asVec p (flatLeaf xs)
    return .diagonal v
  | .lowRank _ driver => do
    let mvn ← getMatvec mv layout
    let t ← driver mvn.1 mvn.2
    return .lowRank t

/-- `create_posterior_fn` (curv/cov.py:210-252) applied to its `prior_arguments`. -/
noncomputable def createPosteriorFn (ct : CurvType p) (mv : PyTree ℝ → Except Err (PyTree ℝ)) (layout : Layout ℝ)
    (a : PriorArgs) (lsf : ℝ := 1) : Except Err (Posterior p) := do
  let e ← estimateCurvature ct mv layout
  setPosteriorFn e layout a lsf

end Laplax
