import Verif.Model.Pushforward

/-! # Model of the remaining functions of `laplax/util/tree.py`: statistics, products, comparison

Real arithmetic on floating-point leaves. -/

namespace Laplax

/-- `sqrt` (laplax/util/tree.py:91-100); the root of a negative entry (NaN in JAX) is not modelled. -/
noncomputable def treeSqrt (t : PyTree ℝ) : Except Err (PyTree ℝ) := Tree.tmap (fun a => .ok (a.map1 Real.sqrt)) t

/-- External: `jnp.invert(a)`, the bitwise complement: `TypeError` for floating-point arrays. -/
def jnpInvert (_ : Arr ℝ) : Except Err (Arr ℝ) := .error .typeError

/-- `invert` (laplax/util/tree.py:103-112) on floating-point leaves. -/
def treeInvert (t : PyTree ℝ) : Except Err (PyTree ℝ) := Tree.tmap jnpInvert t

/-- `mean(tree, axis=0)` (laplax/util/tree.py:115-125); other keyword arguments are not modelled. -/
noncomputable def treeMean (t : PyTree ℝ) : Except Err (PyTree ℝ) := Tree.tmap meanAxis0 t

/-- `std(tree, axis=0)` (laplax/util/tree.py:128-138). -/
noncomputable def treeStd (t : PyTree ℝ) : Except Err (PyTree ℝ) := Tree.tmap stdAxis0 t

/-- `var(tree, axis=0)` (laplax/util/tree.py:141-151). -/
noncomputable def treeVar (t : PyTree ℝ) : Except Err (PyTree ℝ) := Tree.tmap varAxis0 t

/-- External: `jnp.cov(a, rowvar=False)`: a 1-D array is one variable, more than two dimensions raise `ValueError`; on a 2-D array the
reshape of `covAxis0` does nothing.  0-D arrays are not modelled. -/
noncomputable def covLeaf (a : Arr ℝ) : Except Err (Arr ℝ) :=
  match a.shape with
  | [] => .error .unmodelled
  | [_] => covAxis0 a
  | [_, _] => covAxis0 a
  | _ => .error .valueError

/-- `cov(tree, rowvar=False)` (laplax/util/tree.py:154-164). -/
noncomputable def treeCov (t : PyTree ℝ) : Except Err (PyTree ℝ) := Tree.tmap covLeaf t

/-- External: `a.reshape(*sh, -1)`: the missing last dimension and the unchanged data; `TypeError` if the size is no multiple.  A
zero-size `sh` (ambiguous dimension) is not modelled. -/
def reshapeTail (sh : List ℕ) (a : Arr ℝ) : Except Err (ℕ × List ℝ) :=
  if shapeSize sh = 0 then .error .unmodelled
  else if a.data.length % shapeSize sh = 0 then .ok (a.data.length / shapeSize sh, a.data) else .error .typeError

/-- External: `jnp.concatenate(as, axis=-1)` of arrays with leading shape `sh`, given as pairs of the last dimension and the data:
the result is again such a pair. -/
def concatLast (sh : List ℕ) (as : List (ℕ × List ℝ)) : Except Err (ℕ × List ℝ) :=
  match as with
  | [] => .error .valueError
  | as => .ok ((as.map Prod.fst).sum,
      ((List.range (shapeSize sh)).map fun r => (as.map fun a => (a.2.drop (r * a.1)).take a.1).flatten).flatten)

/-- External: `a @ v` for an array of shape `(*sh, n)` (last dimension and data) and a vector: `TypeError` if the sizes differ. -/
noncomputable def matmulLast (sh : List ℕ) (a : ℕ × List ℝ) (v : List ℝ) : Except Err (Arr ℝ) :=
  if a.1 = v.length then
    .ok ⟨sh, (List.range (shapeSize sh)).map fun r => (List.zipWith (· * ·) ((a.2.drop (r * a.1)).take a.1) v).sum⟩
  else .error .typeError

/-- `tree_matvec` (laplax/util/tree.py:167-199).  Simplification: the shapes `(*sh_j, K)` after the concatenation are kept as pairs
of the last dimension and the data next to the leaves of `vector`; a missing leaf raises `IndexError`, surplus leaves are ignored. -/
noncomputable def treeMatvec (tree vector : PyTree ℝ) : Except Err (PyTree ℝ) := do
  let vs := vector.leaves
  let n := vs.length
  let as := tree.leaves
  let rows ← mapE (fun jv : ℕ × Arr ℝ => do
    let blocks ← mapE (fun i => match as[i * n + jv.1]? with
      | none => .error .indexError
      | some a => reshapeTail jv.2.shape a) (List.range n)
    let c ← concatLast jv.2.shape blocks
    return (jv.2.shape, c)) ((List.range n).zip vs)
  let v ← jnpConcatenate (vs.map Arr.data)
  let outs ← mapE (fun r : List ℕ × (ℕ × List ℝ) => matmulLast r.1 r.2 v) rows
  Tree.unflatten vector.treedef outs

/-- External: `a @ v` for an array `a` and a vector: contracts the last axis; a 0-D array raises `ValueError`, unequal sizes
`TypeError`. -/
noncomputable def Arr.matmulVec (a : Arr ℝ) (v : List ℝ) : Except Err (Arr ℝ) :=
  match a.shape.getLast? with
  | none => .error .valueError
  | some k => matmulLast a.shape.dropLast (k, a.data) v

/-- `tree_partialmatvec` (laplax/util/tree.py:202-212) with a 1-D `vector`. -/
noncomputable def treePartialmatvec (tree : PyTree ℝ) (v : List ℝ) : Except Err (PyTree ℝ) := Tree.tmap (fun a => a.matmulVec v) tree

open Classical in
/-- External: `jnp.allclose(a, b)` on arrays of equal shape: `|a - b| ≤ atol + rtol·|b|` with `rtol = 1e-05`, `atol = 1e-08`. -/
noncomputable def jnpAllclose (a b : Arr ℝ) : Except Err Bool :=
  if a.shape = b.shape then
    .ok ((List.zipWith (fun x y => decide (|x - y| ≤ 1 / 10 ^ 8 + 1 / 10 ^ 5 * |y|)) a.data b.data).all id)
  else .error .unmodelled

/-- `allclose` (laplax/util/tree.py:392-402). -/
noncomputable def treeAllclose (t1 t2 : PyTree ℝ) : Except Err Bool := do
  let t ← Tree.tmap2 jnpAllclose t1 t2
  return t.leaves.all id

end Laplax
