import Verif.Model.Flatten
import Verif.Model.Broadcast

/-! # Model of `laplax/util/tree.py` -/

namespace Laplax
variable {α : Type}

/-- `get_size` (laplax/util/tree.py:19-29). -/
def getSize (t : PyTree α) : Nat := (t.leaves.map (fun a => shapeSize a.shape)).sum

/-- External: a binary `jnp` ufunc: entry by entry on arrays of equal shape, with numpy broadcasting otherwise. -/
def Arr.zipWith (f : α → α → α) (a b : Arr α) : Except Err (Arr α) :=
  if a.shape = b.shape then .ok ⟨a.shape, List.zipWith f a.data b.data⟩ else Arr.bcast2 f a b

/-- External: a unary `jnp` ufunc. -/
def Arr.map1 {γ} (f : α → γ) (a : Arr α) : Arr γ := ⟨a.shape, a.data.map f⟩

/-- `add` (laplax/util/tree.py:37-48). -/
def treeAdd [Add α] (t1 t2 : PyTree α) : Except Err (PyTree α) := Tree.tmap2 (Arr.zipWith (· + ·)) t1 t2

/-- `neg` (laplax/util/tree.py:51-60). -/
def treeNeg [Neg α] (t : PyTree α) : Except Err (PyTree α) := Tree.tmap (fun a => .ok (a.map1 (- ·))) t

/-- `sub` (laplax/util/tree.py:63-74). -/
def treeSub [Add α] [Neg α] (t1 t2 : PyTree α) : Except Err (PyTree α) := do
  let n ← treeNeg t2
  treeAdd t1 n

/-- `mul` (laplax/util/tree.py:77-88). -/
def treeMul [Mul α] (scalar : α) (t : PyTree α) : Except Err (PyTree α) :=
  Tree.tmap (fun a => .ok (a.map1 (scalar * ·))) t

/-- `ones_like` (laplax/util/tree.py:220-229). -/
def onesLike [OfNat α 1] (t : PyTree α) : Except Err (PyTree α) :=
  Tree.tmap (fun a => .ok ⟨a.shape, List.replicate (shapeSize a.shape) 1⟩) t

/-- `zeros_like` (laplax/util/tree.py:232-241). -/
def zerosLike [OfNat α 0] (t : PyTree α) : Except Err (PyTree α) :=
  Tree.tmap (fun a => .ok ⟨a.shape, List.replicate (shapeSize a.shape) 0⟩) t

/-- `randn_like` (laplax/util/tree.py:244-266).  The PRNG is a parameter: `split key n` gives the subkeys and
`normal k sh` the draws. -/
def randnLike {K : Type} (split : K → Nat → List K) (normal : K → List Nat → Arr α) (key : K) (t : PyTree α) :
    Except Err (PyTree α) := do
  let leaves := t.leaves
  let keys := split key leaves.length
  let pairs ← zipStrict keys leaves
  let random ← mapE (fun p => .ok (normal p.1 p.2.shape)) pairs
  Tree.unflatten t.treedef random

/-- `normal_like` (laplax/util/tree.py:269-284). -/
def normalLike [Add α] {K : Type} (split : K → Nat → List K) (normal : K → List Nat → Arr α) (key : K)
    (mean : PyTree α) (scaleMv : PyTree α → Except Err (PyTree α)) : Except Err (PyTree α) := do
  let eps ← randnLike split normal key mean
  let s ← scaleMv eps
  treeAdd mean s

/-- External: `jnp.searchsorted(sorted, idx, side="right")` = number of entries `≤ idx` of a sorted array. -/
def searchsortedRight (cum : List Nat) (idx : Int) : Nat := cum.countP (fun c : Nat => decide ((c : Int) ≤ idx))

/-- External: `x[i]` along the leading axis of a JAX array, given as the list of its slices.  Negative indices count from
the end; an index out of range is clamped (JAX documentation, "out-of-bounds indexing").  Reading from an axis of length
zero is not modelled. -/
def jaxGet {B : Type} (xs : List B) (i : Int) : Except Err B :=
  let j := if i < 0 then i + xs.length else i
  match xs[min j.toNat (xs.length - 1)]? with
  | some x => .ok x
  | none => .error .unmodelled

/-- External: `x.at[i].set(v)` on a one-dimensional JAX array.  Negative indices count from the end; an update out of
range is dropped. -/
def jaxSet {B : Type} (xs : List B) (i : Int) (v : B) : List B :=
  let j := if i < 0 then i + xs.length else i
  if j < 0 then xs else xs.set j.toNat v

/-- `basis_vector_from_index` (laplax/util/tree.py:287-325), for every python integer `idx`. -/
def basisVectorFromIndex [OfNat α 0] [OfNat α 1] (idx : Int) (t : PyTree α) : Except Err (PyTree α) := do
  let zeros ← zerosLike t
  let flat := zeros.leaves
  let sizes := flat.map (fun a => shapeSize a.shape)
  let cumSizes := cumsum sizes
  let k := searchsortedRight cumSizes idx
  let idxCorr : Int := idx - ((if k > 0 then cumSizes.getD (k - 1) 0 else 0 : Nat) : Int)
  let updated := flat.mapIdx (fun i a => if i = k then ⟨a.shape, jaxSet a.data idxCorr 1⟩ else a)
  Tree.unflatten zeros.treedef updated

/-- External: `jnp.eye(n)` as a row-major `(n, n)` array. -/
def jnpEye (α : Type) [OfNat α 0] [OfNat α 1] (n : Nat) : Arr α :=
  ⟨[n, n], ((List.range n).map (fun i => (List.replicate n (0 : α)).set i 1)).flatten⟩

/-- `eye_like` (laplax/util/tree.py:343-352). -/
def eyeLike [OfNat α 0] [OfNat α 1] (t : PyTree α) : Except Err (PyTree α) :=
  unravelArrayIntoPytree t 1 (jnpEye α (getSize t))

/-- External: stacking equally shaped arrays along a new leading axis. -/
def stackArr (sh : List Nat) (as : List (Arr α)) : Arr α := ⟨as.length :: sh, (as.map Arr.data).flatten⟩

/-- External: `jax.lax.map(f, jnp.arange(n))` for a tree-valued `f`; the results are stacked leaf by leaf.
Requires all results to have the structure and shapes of `layout` (JAX guarantees it by tracing `f` once). -/
def laxMapTree (layout : PyTree α) (f : Nat → Except Err (PyTree α)) (n : Nat) : Except Err (PyTree α) := do
  let ts ← mapE f (List.range n)
  let ls := layout.leaves.mapIdx (fun j l => stackArr l.shape (ts.map (fun t => t.leaves.getD j ⟨[], []⟩)))
  Tree.unflatten layout.treedef ls

/-- `eye_like_with_basis_vector` (laplax/util/tree.py:328-340). -/
def eyeLikeWithBasisVector [OfNat α 0] [OfNat α 1] (t : PyTree α) : Except Err (PyTree α) :=
  laxMapTree t (fun i => basisVectorFromIndex i t) (getSize t)

/-- External: slice `i` (leading axis) of an array that `jax.lax.map` maps over; `lax.map` only uses slices in range. -/
def Arr.row (i : Nat) (a : Arr α) : Except Err (Arr α) :=
  match a.shape with
  | [] => .error .indexError
  | n :: sh => if i < n then .ok ⟨sh, (a.data.drop (i * shapeSize sh)).take (shapeSize sh)⟩
               else .error .unmodelled

/-- External: `arr[a:b]` (leading axis, non-negative bounds), clamped as in python. -/
def Arr.slice (lo hi : Nat) (a : Arr α) : Except Err (Arr α) :=
  match a.shape with
  | [] => .error .indexError
  | n :: sh =>
    let l := min lo n
    let h := max l (min hi n)
    .ok ⟨(h - l) :: sh, (a.data.take (h * shapeSize sh)).drop (l * shapeSize sh)⟩

/-- `tree_slice` (laplax/util/tree.py:355-366). -/
def treeSlice (t : PyTree α) (lo hi : Nat) : Except Err (PyTree α) := Tree.tmap (Arr.slice lo hi) t

/-- `tree_vec_get` (laplax/util/tree.py:369-384), for every python integer `idx`. -/
def treeVecGet (t : PyTree α) (idx : Int) : Except Err α :=
  match t with
  | .leaf a => jaxGet a.data idx
  | t => do
    let flat ← jnpConcatenate (t.leaves.map Arr.data)
    jaxGet flat idx

end Laplax
