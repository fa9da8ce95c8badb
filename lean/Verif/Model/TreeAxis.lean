import Verif.Model.LoaderAxis
import Verif.Model.TreeStats

/-! # `mean`, `std`, `var`, `cov` with keyword arguments and `tree_slice` with python bounds (`laplax/util/tree.py`) -/

namespace Laplax

/-- External: a statistic of `jax.numpy` with `axis` (an integer or `None`) and `keepdims` (laplax/util/tree.py:125, 138, 151): `f` of the entries
along the axis at every position of the others; with `axis=None` of all entries.  (Tuples of axes: `statAxes`.) -/
noncomputable def statAxis (f : List ℝ → ℝ) (axis : Option Int) (keepdims : Bool) (a : Arr ℝ) : Except Err (Arr ℝ) :=
  match axis with
  | none => .ok ⟨if keepdims then a.shape.map (fun _ => 1) else [], [f a.data]⟩
  | some axis => do
    let ax ← normAxis axis a.shape.length
    let before := a.shape.take ax
    let n := (a.shape.drop ax).headD 1
    let after := a.shape.drop (ax + 1)
    return ⟨before ++ (if keepdims then 1 :: after else after),
      ((List.range (shapeSize before)).map fun i => (List.range (shapeSize after)).map fun k =>
        f ((List.range n).map fun s => a.data.getD ((i * n + s) * shapeSize after + k) 0)).flatten⟩

/-- `mean(tree, axis=axis, keepdims=keepdims)` (laplax/util/tree.py:115-125). -/
noncomputable def treeMeanWith (axis : Option Int) (keepdims : Bool) (t : PyTree ℝ) : Except Err (PyTree ℝ) :=
  Tree.tmap (statAxis listMean axis keepdims) t

/-- `var(tree, axis=axis, ddof=ddof, keepdims=keepdims)` (laplax/util/tree.py:141-151). -/
noncomputable def treeVarWith (axis : Option Int) (ddof : ℝ) (keepdims : Bool) (t : PyTree ℝ) : Except Err (PyTree ℝ) :=
  Tree.tmap (statAxis (fun c => listCov c c ddof) axis keepdims) t

/-- `std(tree, axis=axis, ddof=ddof, keepdims=keepdims)` (laplax/util/tree.py:128-138): `jnp.sqrt(jnp.var(...))`. -/
noncomputable def treeStdWith (axis : Option Int) (ddof : ℝ) (keepdims : Bool) (t : PyTree ℝ) : Except Err (PyTree ℝ) :=
  Tree.tmap (statAxis (fun c => Real.sqrt (listCov c c ddof)) axis keepdims) t

/-- External: a reduction of `jax.numpy` over several axes at once: the entries of a row-major array with the given dimensions, grouped by
the position along the dimensions that are kept (marked `false`).  (`axis=(…)` of laplax/util/tree.py:125, 138, 151) -/
def axisGroups : List (ℕ × Bool) → List ℝ → List (List ℝ)
  | [], data => [data]
  | (n, false) :: dims, data => (chunks (shapeSize (dims.map Prod.fst)) n data).flatMap (axisGroups dims)
  | (n, true) :: dims, data =>
    let gs := (chunks (shapeSize (dims.map Prod.fst)) n data).map (axisGroups dims)
    (List.range (shapeSize ((dims.filter fun d => !d.2).map Prod.fst))).map fun k => (gs.map fun g => g.getD k []).flatten

/-- External: a statistic of `jax.numpy` with a tuple of axes: every axis is checked, a repeated one is a `ValueError`; `f` of the entries along
the axes at every position of the others.  (laplax/util/tree.py:125, 138, 151) -/
noncomputable def statAxes (f : List ℝ → ℝ) (axes : List Int) (keepdims : Bool) (a : Arr ℝ) : Except Err (Arr ℝ) := do
  let ax ← mapE (fun x => normAxis x a.shape.length) axes
  if ax.Nodup then
    let dims := a.shape.zip ((List.range a.shape.length).map fun d => decide (d ∈ ax))
    return ⟨if keepdims then dims.map (fun d => if d.2 then 1 else d.1) else (dims.filter fun d => !d.2).map Prod.fst,
      (axisGroups dims a.data).map f⟩
  else .error .valueError

/-- `mean(tree, axis=axes, keepdims=keepdims)` with a tuple of axes (laplax/util/tree.py:115-125). -/
noncomputable def treeMeanAxes (axes : List Int) (keepdims : Bool) (t : PyTree ℝ) : Except Err (PyTree ℝ) :=
  Tree.tmap (statAxes listMean axes keepdims) t

/-- `var(tree, axis=axes, ddof=ddof, keepdims=keepdims)` with a tuple of axes (laplax/util/tree.py:141-151). -/
noncomputable def treeVarAxes (axes : List Int) (ddof : ℝ) (keepdims : Bool) (t : PyTree ℝ) : Except Err (PyTree ℝ) :=
  Tree.tmap (statAxes (fun c => listCov c c ddof) axes keepdims) t

/-- `std(tree, axis=axes, ddof=ddof, keepdims=keepdims)` with a tuple of axes (laplax/util/tree.py:128-138). -/
noncomputable def treeStdAxes (axes : List Int) (ddof : ℝ) (keepdims : Bool) (t : PyTree ℝ) : Except Err (PyTree ℝ) :=
  Tree.tmap (statAxes (fun c => Real.sqrt (listCov c c ddof)) axes keepdims) t

/-- External: the observations of the variables in `jnp.cov(a, rowvar=rowvar)` (laplax/util/tree.py:164): `jnp.atleast_2d`, transposed if not
`rowvar` and the array is not 1-D; `ValueError` for more than two axes. -/
def covRows (rowvar : Bool) (a : Arr ℝ) : Except Err (List (List ℝ)) :=
  match a.shape with
  | [] => .ok [a.data]
  | [_] => .ok [a.data]
  | [m, n] =>
    if rowvar then .ok (chunks n m a.data)
    else .ok ((List.range n).map fun j => (List.range m).map fun i => a.data.getD (i * n + j) 0)
  | _ => .error .valueError

/-- External: `jnp.cov(a, rowvar=rowvar, bias=bias, ddof=ddof)`: `ddof` defaults to `0` if `bias` and `1` otherwise; `.squeeze()` makes the
covariance of one variable 0-D. -/
noncomputable def jnpCov (rowvar bias : Bool) (ddof : Option ℝ) (a : Arr ℝ) : Except Err (Arr ℝ) := do
  let rows ← covRows rowvar a
  let d := ddof.getD (if bias then 0 else 1)
  let m := (rows.map fun x => rows.map fun y => listCov x y d).flatten
  return if rows.length = 1 then ⟨[], m⟩ else ⟨[rows.length, rows.length], m⟩

/-- `cov(tree, rowvar=rowvar, bias=bias, ddof=ddof)` (laplax/util/tree.py:154-164); the defaults of `jnp.cov` are `True, False, None`. -/
noncomputable def treeCovWith (rowvar : Bool := true) (bias : Bool := false) (ddof : Option ℝ := none) (t : PyTree ℝ) :
    Except Err (PyTree ℝ) := Tree.tmap (jnpCov rowvar bias ddof) t

/-- External: python's normalisation of a slice bound (used by laplax/util/tree.py:366): negative bounds count from the end, then clamp. -/
def sliceBound (n : Nat) (i : Int) : Nat := min (if i < 0 then i + n else i).toNat n

/-- External: `arr[a:b]` along the leading axis for any python integers or `None`. -/
def Arr.pySlice {α : Type} (lo hi : Option Int) (a : Arr α) : Except Err (Arr α) :=
  match a.shape with
  | [] => .error .indexError
  | n :: _ => a.slice ((lo.map (sliceBound n)).getD 0) ((hi.map (sliceBound n)).getD n)

/-- `tree_slice` (laplax/util/tree.py:355-366) for any python integers (or `None`). -/
def treePySlice {α : Type} (t : PyTree α) (lo hi : Option Int) : Except Err (PyTree α) := Tree.tmap (Arr.pySlice lo hi) t

end Laplax
