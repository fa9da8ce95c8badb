import Verif.Spec.Broadcast
import Verif.Spec.Tree

/-! # Specification: the dense representation of a pytree-valued product -/

namespace Laplax.Spec
variable {α : Type}

/-- `out` is the dense representation of the columns `y 0, …, y (n-1)`: the same containers, and the leaf in place of a leaf of
shape `sh` has shape `reverse sh ++ [n]` and holds at `(i_r, …, i_1, j)` the entry `(i_1, …, i_r)` of that leaf of `y j`. -/
structure IsDenseOf {n : Nat} (y : Fin n → PyTree α) (out : PyTree α) : Prop where
  containers : ∀ j, out.treedef = (y j).treedef
  shape : ∀ (j : Fin n) (l : Nat), out.leaves[l]?.map Arr.shape = (y j).leaves[l]?.map (fun a : Arr α => a.shape.reverse ++ [n])
  genuine : WFTree out
  entry : ∀ (j : Fin n) (l : Nat) (a b : Arr α), (y j).leaves[l]? = some a → out.leaves[l]? = some b →
    ∀ ix, IsIndex a.shape ix → entryAt b (ix.reverse ++ [j.val]) = entryAt a ix

end Laplax.Spec
