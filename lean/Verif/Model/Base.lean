/-!
# Python/JAX vocabulary used by the model

Exceptions as values, n-dimensional arrays, pytrees and the handful of `jax`/`jax.numpy` functions
that laplax calls on them.  These are models of *external* calls (JAX itself is not in `/repo`);
their assumed behaviour is part of the trusted base.
-/

namespace Laplax

/-- Python exception classes raised by (or through) laplax.  `unmodelled` marks inputs on which the
real code does something this model does not describe (e.g. numpy broadcasting of unequal shapes). -/
inductive Err where
  | valueError
  | typeError
  | keyError
  | indexError
  | attributeError
  | zeroDivisionError
  | stopIteration
  | unmodelled
  deriving DecidableEq, Repr

/-- A dense array: shape and row-major content (external: `jax.Array`). -/
structure Arr (α : Type) where
  shape : List Nat
  data : List α
  deriving DecidableEq, Repr

/-- Number of entries of an array of the given shape (`math.prod(shape)`).  (util/flatten.py:95, util/tree.py:29) -/
def shapeSize (sh : List Nat) : Nat := sh.foldl (· * ·) 1

/-- The invariant every real array has: as many entries as the shape says.
(an external invariant of JAX arrays (types.py:16-20)) -/
def Arr.WF {α} (a : Arr α) : Prop := a.data.length = shapeSize a.shape

/-- External: `a.reshape(sh)`; raises on a size mismatch. -/
def reshape {α} (xs : List α) (sh : List Nat) : Except Err (Arr α) :=
  if xs.length = shapeSize sh then .ok ⟨sh, xs⟩ else .error .valueError

/-- External: `jnp.split(arr, idxs)` on a 1-D array; pieces between consecutive indices. `start` is the
current left boundary.  (Real JAX may already raise for out-of-range boundaries; here such pieces come out
short and the following `reshape` raises.) -/
def splitFrom {α} (start : Nat) : List Nat → List α → List (List α)
  | [], xs => [xs.drop start]
  | i :: is, xs => (xs.take i).drop start :: splitFrom i is xs

/-- External: `jnp.split(arr, idxs)`. -/
def jnpSplit {α} (xs : List α) (idxs : List Nat) : List (List α) := splitFrom 0 idxs xs

/-- External: `jnp.concatenate` of 1-D arrays; needs at least one array. -/
def jnpConcatenate {α} : List (List α) → Except Err (List α)
  | [] => .error .valueError
  | xs => .ok xs.flatten

/-- Python `zip(xs, ys, strict=True)`. -/
def zipStrict {α β} : List α → List β → Except Err (List (α × β))
  | [], [] => .ok []
  | a :: as, b :: bs => do
      let r ← zipStrict as bs
      return (a, b) :: r
  | _, _ => .error .valueError

/-- Sequence a list of computations from left to right; the first exception propagates
(a python list comprehension whose body may raise). -/
def mapE {α β} (f : α → Except Err β) : List α → Except Err (List β)
  | [] => .ok []
  | a :: as => do
      let b ← f a
      let bs ← mapE f as
      return b :: bs

/-- A JAX pytree.  `tag` records the container kind and its keys (`None` is a node without children). -/
inductive Tree (β : Type) where
  | leaf (b : β)
  | node (tag : String) (kids : List (Tree β))
  deriving Repr

namespace Tree
variable {β γ : Type}

mutual
  /-- External: `jax.tree.flatten(tree)[0]`, the leaves from left to right. -/
  def leaves : Tree β → List β
    | leaf b => [b]
    | node _ ks => leavesL ks
  /-- Leaves of a list of subtrees. -/
  def leavesL : List (Tree β) → List β
    | [] => []
    | t :: ts => t.leaves ++ leavesL ts
end

mutual
  /-- Apply a total function to every leaf. -/
  def map (f : β → γ) : Tree β → Tree γ
    | leaf b => leaf (f b)
    | node tag ks => node tag (mapL f ks)
  /-- `map` on a list of subtrees. -/
  def mapL (f : β → γ) : List (Tree β) → List (Tree γ)
    | [] => []
    | t :: ts => t.map f :: mapL f ts
end

/-- External: `jax.tree.flatten(tree)[1]`, the tree definition (structure without leaf values). -/
def treedef (t : Tree β) : Tree Unit := t.map (fun _ => ())

mutual
  /-- Fill the leaf slots of a tree definition from a list, returning what is left over. -/
  def fill : Tree Unit → List β → Option (Tree β × List β)
    | leaf _, [] => none
    | leaf _, b :: bs => some (leaf b, bs)
    | node tag ks, bs =>
      match fillL ks bs with
      | none => none
      | some (ks', r) => some (node tag ks', r)
  /-- `fill` on a list of subtrees. -/
  def fillL : List (Tree Unit) → List β → Option (List (Tree β) × List β)
    | [], bs => some ([], bs)
    | t :: ts, bs =>
      match fill t bs with
      | none => none
      | some (t', r) =>
        match fillL ts r with
        | none => none
        | some (ts', r') => some (t' :: ts', r')
end

/-- External: `jax.tree.unflatten(treedef, leaves)`; raises for too few or too many leaves. -/
def unflatten (td : Tree Unit) (bs : List β) : Except Err (Tree β) :=
  match fill td bs with
  | some (t, []) => .ok t
  | _ => .error .valueError

mutual
  /-- Structural equality test on tree definitions. -/
  def defEq : Tree Unit → Tree Unit → Bool
    | leaf _, leaf _ => true
    | node s ks, node s' ks' => s == s' && defEqL ks ks'
    | _, _ => false
  /-- `defEq` on lists. -/
  def defEqL : List (Tree Unit) → List (Tree Unit) → Bool
    | [], [] => true
    | t :: ts, u :: us => defEq t u && defEqL ts us
    | _, _ => false
end

/-- External: `jax.tree.map(f, tree)` with a leaf function that may raise. -/
def tmap (f : β → Except Err γ) (t : Tree β) : Except Err (Tree γ) := do
  let ls ← mapE f t.leaves
  unflatten t.treedef ls

/-- External: `jax.tree.map(f, t1, t2)`.  Real JAX accepts a `t2` of which `t1` is a prefix and would then
call `f` on a subtree, which every `f` used by laplax rejects; both cases raise. -/
def tmap2 {δ} (f : β → γ → Except Err δ) (t1 : Tree β) (t2 : Tree γ) : Except Err (Tree δ) :=
  if defEq t1.treedef t2.treedef then do
    let ps ← zipStrict t1.leaves t2.leaves
    let ls ← mapE (fun p => f p.1 p.2) ps
    unflatten t1.treedef ls
  else .error .valueError

end Tree

/-- A pytree of arrays.  (types.py:23) -/
abbrev PyTree (α : Type) := Tree (Arr α)

end Laplax
