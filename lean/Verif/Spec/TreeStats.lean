import Verif.Spec.Pushforward

/-! # Specification of pytree ensembles and block products -/

namespace Laplax.Spec
open Laplax
open scoped BigOperators Matrix

/-- `T` is the stack of the pytrees `ts` (all of the layout `L`): every leaf carries the members' leaves along a new leading axis. -/
def StackedTree (L : PyTree ℝ) (ts : List (PyTree ℝ)) (T : PyTree ℝ) : Prop :=
  T.treedef = L.treedef ∧ T.leaves.length = L.leaves.length ∧
    ∀ (j : ℕ) (l : Arr ℝ), L.leaves[j]? = some l →
      T.leaves[j]? = some ⟨ts.length :: l.shape, (ts.map fun t => (t.leaves.getD j ⟨[], []⟩).data).flatten⟩

/-- The members of an ensemble of pytrees and their entries. -/
structure TreeEnsemble {P : ℕ} (L : PyTree ℝ) (ts : List (PyTree ℝ)) (x : Fin ts.length → Fin P → ℝ) : Prop where
  layout : ∀ t ∈ ts, SameLayout t L
  wf : ∀ t ∈ ts, WFTree t
  values : ∀ i : Fin ts.length, entries ts[i] = List.ofFn (x i)
  nonempty : ts ≠ []

/-- A pytree with `n` leaves of `s j` entries `v j`. -/
def LeavesAre {n : ℕ} {s : Fin n → ℕ} (t : PyTree ℝ) (v : ∀ j, Fin (s j) → ℝ) : Prop :=
  ∃ sh : Fin n → List ℕ, (∀ j, shapeSize (sh j) = s j) ∧ t.leaves = List.ofFn fun j => ⟨sh j, List.ofFn (v j)⟩

/-- The matrix stored in row-major order in a list of numbers. -/
def rowMajor {m n : ℕ} (B : Matrix (Fin m) (Fin n) ℝ) : List ℝ := (List.ofFn fun r => List.ofFn fun c => B r c).flatten

/-- `tree` stores the blocks `B i j` (of size `s j × s i`) with the column index `i` outermost. -/
def ColumnBlocks {n : ℕ} {s : Fin n → ℕ} (tree : PyTree ℝ) (B : ∀ i j, Matrix (Fin (s j)) (Fin (s i)) ℝ) : Prop :=
  tree.leaves.map Arr.data = (List.ofFn fun i => List.ofFn fun j => rowMajor (B i j)).flatten

/-- `tree` is the pytree of second derivatives as `jax.hessian` returns it: block `H i j` (of size `s i × s j`) with the row index
`i` outermost. -/
def HessianTree {n : ℕ} {s : Fin n → ℕ} (tree : PyTree ℝ) (H : ∀ i j, Matrix (Fin (s i)) (Fin (s j)) ℝ) : Prop :=
  tree.leaves.map Arr.data = (List.ofFn fun i => List.ofFn fun j => rowMajor (H i j)).flatten

/-- Entrywise closeness with numpy's default tolerances. -/
def Close (x y : ℝ) : Prop := |x - y| ≤ 1 / 10 ^ 8 + 1 / 10 ^ 5 * |y|

end Laplax.Spec
