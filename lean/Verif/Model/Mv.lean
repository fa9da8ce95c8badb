import Verif.Model.TreeOps

/-! # Model of `laplax/util/mv.py` and `laplax/util/ops.py` -/

namespace Laplax
variable {α : Type}

/-- External: `jax.lax.map(f, xs, batch_size=b)` on the list of slices along the leading axis.  Without a batch size
it is a sequential map; with batch size `b` the first `b * (len / b)` slices are processed in full batches, the
remainder in one last batch, and the results are concatenated.  Batch size 0 divides by zero. -/
def laxMap {A B : Type} (batch : Option Nat) (f : A → Except Err B) (xs : List A) : Except Err (List B) :=
  match batch with
  | none => mapE f xs
  | some 0 => .error .zeroDivisionError
  | some b => do
    let nb := xs.length / b
    let ys ← mapE (mapE f) (chunks b nb xs)
    let rs ← mapE f (xs.drop (nb * b))
    return ys.flatten ++ rs

/-- The `layout` argument: an `int` size, a pytree, or `None` (laplax/types.py:30). -/
inductive Layout (α : Type) where
  | int (n : Nat)
  | tree (t : PyTree α)
  | none

/-- The first argument of `diagonal`: a callable or a dense 2-D array (its rows).  (the `mv` argument of util/mv.py:19-85) -/
inductive MvArg (α : Type) where
  | callable (mv : PyTree α → Except Err (PyTree α))
  | dense (rows : List (List α))

/-- A 1-D array as a one-leaf pytree.  (types.py:21) -/
def flatLeaf (xs : List α) : PyTree α := .leaf ⟨[xs.length], xs⟩

/-- `diagonal` (laplax/util/mv.py:18-84) for callables and dense arrays (`DataLoaderMV` is registered separately,
see `Verif.Model.Loader`).  `mv_jittable` only controls compilation. -/
def diagonal [OfNat α 0] [OfNat α 1] (mv : MvArg α) (layout : Layout α) (batch : Option Nat := Option.none) :
    Except Err (List α) :=
  match mv, layout with
  | .callable _, .none => .error .typeError
  | .dense rows, _ => .ok (rows.mapIdx (fun i r => r[i]?)).reduceOption
  | .callable mv, .int n =>
    laxMap batch (fun i : Nat => do
      let r ← mv (flatLeaf ((List.replicate n (0 : α)).set i 1))
      treeVecGet r i) (List.range n)
  | .callable mv, .tree t =>
    laxMap batch (fun i : Nat => do
      let e ← basisVectorFromIndex i t
      let r ← mv e
      treeVecGet r i) (List.range (getSize t))

/-- External: `jnp.transpose` (all axes reversed) on row-major data of the given shape. -/
def transposeData [Inhabited α] : List Nat → List α → List α
  | [], xs => xs
  | d :: rest, xs =>
    let rows := (chunks (shapeSize rest) d xs).map (transposeData rest)
    ((List.range (shapeSize rest)).map (fun k => rows.map (fun r => r.getD k default))).flatten

/-- External: `jnp.transpose(a)`. -/
def Arr.transpose [Inhabited α] (a : Arr α) : Arr α := ⟨a.shape.reverse, transposeData a.shape a.data⟩

/-- External: stack a non-empty list of equally structured results of `jax.lax.map` leaf by leaf.  The structure and
shapes are those of the first result (JAX traces the function once, so all results agree). With no slices at all
(`n = 0`) JAX derives the structure by tracing; not modelled. -/
def stackTrees (ts : List (PyTree α)) : Except Err (PyTree α) :=
  match ts with
  | [] => .error .unmodelled
  | t :: _ =>
    Tree.unflatten t.treedef
      (t.leaves.mapIdx (fun j l => stackArr l.shape (ts.map (fun u => u.leaves.getD j ⟨[], []⟩))))

/-- `to_dense` (laplax/util/mv.py:87-123): `mv` is mapped over the rows of the identity (`jnp.eye(n)` or
`eye_like(layout)`) and every leaf of the stacked result is transposed.  `isinstance(layout, PyTree)` holds for every
object, so the `TypeError` branch (117-118) is unreachable and `None` reaches `eye_like(None)`, which raises
(`zip(..., strict=True)` with one part and no leaves). -/
def toDense [Inhabited α] [OfNat α 0] [OfNat α 1] (mv : PyTree α → Except Err (PyTree α)) (layout : Layout α)
    (batch : Option Nat := Option.none) : Except Err (PyTree α) :=
  match layout with
  | .int n => do
    let ys ← laxMap batch mv ((chunks n n (jnpEye α n).data).map flatLeaf)
    let st ← stackTrees ys
    Tree.tmap (fun a => .ok a.transpose) st
  | .tree t => do
    let identity ← eyeLike t
    let slices ← mapE (fun i => Tree.tmap (Arr.row i) identity) (List.range (getSize t))
    let ys ← laxMap batch mv slices
    let st ← stackTrees ys
    Tree.tmap (fun a => .ok a.transpose) st
  | .none => do
    let identity ← eyeLike (Tree.node "None" [] : PyTree α)
    Tree.tmap (fun a => .ok a.transpose) identity

/-- `precompute_list` (laplax/util/ops.py:46-80).  `precompute = None` means the default `True`
(`DEFAULT_PRECOMPUTE_LIST`, line 15).  With precomputation, all items are mapped eagerly and the returned getter indexes
the stored results (non-negative indices here; an index beyond the end reads the last result); otherwise `func` itself is returned (so it is then called on the *index argument*, which is why
laplax always calls it with `items = arange(n)`). -/
def precomputeList {B : Type} (func : Nat → Except Err B) (items : List Nat) (precompute : Option Bool)
    (batch : Option Nat := none) : Except Err (Nat → Except Err B) :=
  match precompute.getD true with
  | true => do
    let pre ← laxMap batch func items
    return fun index => jaxGet pre index
  | false => .ok func

/-- `str_to_bool` (laplax/util/ops.py:22-38). -/
def strToBool (value : String) : Except Err Bool :=
  if value = "True" then .ok true
  else if value = "False" then .ok false
  else .error .valueError

end Laplax
