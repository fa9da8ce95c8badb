import Verif.Model.Base

/-! # Model of `laplax/util/flatten.py` -/

namespace Laplax
variable {α : Type}

/-- `cumsum` (laplax/util/flatten.py:18-34): running totals; `total` is the walrus accumulator. -/
def cumsumFrom (total : Nat) : List Nat → List Nat
  | [] => []
  | n :: ns => (total + n) :: cumsumFrom (total + n) ns

/-- `cumsum` (laplax/util/flatten.py:18-34). -/
def cumsum (seq : List Nat) : List Nat := cumsumFrom 0 seq

/-- `full_flatten` (laplax/util/flatten.py:37-48): concatenate the ravelled leaves. -/
def fullFlatten (t : PyTree α) : Except Err (List α) :=
  jnpConcatenate (t.leaves.map Arr.data)

/-- The `_unflatten` closure of `create_pytree_flattener` (laplax/util/flatten.py:90-103) for layout `layout`. -/
def unflattenLike (layout : PyTree α) (arr : List α) : Except Err (PyTree α) := do
  let allShapes := layout.leaves.map Arr.shape
  let flatVectorSplit := jnpSplit arr (cumsum (allShapes.map shapeSize)).dropLast
  let pairs ← zipStrict flatVectorSplit allShapes
  let ls ← mapE (fun p => reshape p.1 p.2) pairs
  Tree.unflatten layout.treedef ls

/-- `create_pytree_flattener` (laplax/util/flatten.py:71-105): the pair `(full_flatten, _unflatten)`. -/
def createPytreeFlattener (layout : PyTree α) :
    (PyTree α → Except Err (List α)) × (List α → Except Err (PyTree α)) :=
  (fullFlatten, unflattenLike layout)

/-- External: where python's slices `args[:k]` and `args[k:]` of a tuple of length `n` cut. -/
def pyCut (n : Nat) (k : Int) : Nat := if 0 ≤ k then min k.toNat n else ((n : Int) + k).toNat

/-- External: python indexing `args[k]` of a tuple; negative indices count from the end, `IndexError` out of range. -/
def pyItem {A : Type} (args : List A) (k : Int) : Except Err A :=
  if 0 ≤ k then
    match args[k.toNat]? with
    | some a => .ok a
    | none => .error .indexError
  else if -k ≤ args.length then
    match args[((args.length : Int) + k).toNat]? with
    | some a => .ok a
    | none => .error .indexError
  else .error .indexError

/-- `wrap_function` (laplax/util/flatten.py:182-222).  Positional arguments are a list, keyword arguments are
passed through by `fn` itself; `None` transforms are the identity (207-208); `args[argnums]` raises `IndexError`
when out of range (214). -/
def wrapFunction {A B : Type} (fn : List A → Except Err B)
    (inputFn : Option (A → Except Err A)) (outputFn : Option (B → Except Err B)) (argnums : Int := 0)
    (args : List A) : Except Err B := do
  let effIn := inputFn.getD (fun x => .ok x)
  let effOut := outputFn.getD (fun x => .ok x)
  let a ← pyItem args argnums
  let a' ← effIn a
  let r ← fn (args.take (pyCut args.length argnums) ++ [a'] ++ args.drop (pyCut args.length (argnums + 1)))
  effOut r

/-- `wrap_factory` (laplax/util/flatten.py:225-249). -/
def wrapFactory {A B C : Type} (factory : C → Except Err (List A → Except Err B))
    (inputFn : Option (A → Except Err A)) (outputFn : Option (B → Except Err B)) (c : C) :
    Except Err (List A → Except Err B) := do
  let fn ← factory c
  return wrapFunction fn inputFn outputFn 0

/-- `flatten_function` (laplax/util/flatten.py:51-68) for a one-argument tree function: the result takes and
returns flat vectors. (Python's `wrap_function` is untyped, so flat→tree and tree→flat are composed directly.) -/
def flattenFunction (fn : PyTree α → Except Err (PyTree α)) (layout : PyTree α) (v : List α) :
    Except Err (List α) := do
  let (flatten, unflatten) := createPytreeFlattener layout
  let t ← unflatten v
  let r ← fn t
  flatten r

/-! ## Splitting along an axis -/

/-- Cut a list into consecutive blocks of length `n` (`k` of them): the view of a row-major array with shape
`(k, n)`.  (external: the row-major layout behind `jnp.split(…, axis)`, util/flatten.py:140, 176) -/
def chunks (n : Nat) : Nat → List α → List (List α)
  | 0, _ => []
  | k + 1, xs => xs.take n :: chunks n k (xs.drop n)

/-- External: `jnp.split(arr, idxs, axis)` on a row-major array.  With `pre = prod(shape[:axis])` blocks of
`n * post` entries each (`n = shape[axis]`, `post = prod(shape[axis+1:])`), the boundaries inside each block are
`idx * post`; piece `j` collects the `j`-th part of every block. -/
def splitAxis (pre blk post : Nat) (idxs : List Nat) (xs : List α) : List (List α) :=
  let parts := (chunks blk pre xs).map (fun b => jnpSplit b (idxs.map (· * post)))
  (List.range (idxs.length + 1)).map (fun j => (parts.map (fun p => p.getD j [])).flatten)

/-- `unravel_array_into_pytree` (laplax/util/flatten.py:153-179).  `arr.ndim = 0` makes `axis %= 0` raise
`ZeroDivisionError`; python's `%` is non-negative, so every integer axis is accepted (taken modulo `arr.ndim`). -/
def unravelArrayIntoPytree (pytree : PyTree α) (axis : Int) (arr : Arr α) : Except Err (PyTree α) :=
  if arr.shape.length = 0 then .error .zeroDivisionError
  else do
    let ax := (axis % (arr.shape.length : Int)).toNat
    let leaves := pytree.leaves
    let before := arr.shape.take ax
    let after := arr.shape.drop (ax + 1)
    let shapes := leaves.map (fun l => before ++ l.shape ++ after)
    let n := (arr.shape.drop ax).headD 1
    let parts := splitAxis (shapeSize before) (n * shapeSize after) (shapeSize after)
      (cumsum (leaves.dropLast.map (fun l => shapeSize l.shape))) arr.data
    let pairs ← zipStrict parts shapes
    let ls ← mapE (fun p => reshape p.1 p.2) pairs
    Tree.unflatten pytree.treedef ls

/-- `flatten` of `create_partial_pytree_flattener` (laplax/util/flatten.py:128-132): each leaf becomes a
`(-1, last_dim)` matrix (`IndexError` for scalar leaves, `leaf.shape[-1]`), rows are concatenated; all leaves must
share the last dimension.  (`reshape(-1, 0)` of a leaf with last dimension 0 is not modelled: the
unknown dimension is ambiguous.)  Result: shape `[rows, R]` array. -/
def partialFlatten (t : PyTree α) : Except Err (Arr α) :=
  match t.leaves with
  | [] => .error .valueError
  | l :: ls =>
    match l.shape.getLast? with
    | none => .error .indexError
    | some 0 => .error .unmodelled
    | some R =>
      if (l :: ls).all (fun a => a.shape.getLast? == some R) then
        let d := ((l :: ls).map Arr.data).flatten
        .ok ⟨[d.length / R, R], d⟩
      else .error .typeError

/-- `unflatten` of `create_partial_pytree_flattener` (laplax/util/flatten.py:138-148) applied to a 2-D array:
split the rows at the cumulated row counts `prod(shape[:-1])`, reshape each part to the leaf's shape.
`R` is the number of columns of `arr`. -/
def partialUnflatten (layout : PyTree α) (arr : Arr α) : Except Err (PyTree α) :=
  match arr.shape with
  | [_, R] => do
    let allShapes := layout.leaves.map Arr.shape
    let idxs := (cumsum (allShapes.map (fun sh => shapeSize sh.dropLast))).dropLast
    let parts := jnpSplit arr.data (idxs.map (· * R))
    -- `for i in range(len(flat_vector_split))` indexes `all_shapes[i]`
    if allShapes.length < parts.length then .error .indexError
    else do
      let ls ← mapE (fun p => reshape p.1 p.2) (parts.zip allShapes)
      Tree.unflatten layout.treedef ls
  | _ => .error .unmodelled

end Laplax
