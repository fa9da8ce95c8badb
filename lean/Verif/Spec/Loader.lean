import Verif.Model.Base
import Mathlib.Algebra.BigOperators.Group.List.Basic

/-! # Specification vocabulary for batched data -/

namespace Laplax.Spec
variable {α : Type}

/-- Columnwise sum of rows with `s` entries each. -/
def colSum [AddCommMonoid α] (s : Nat) (rows : List (List α)) : List α :=
  (List.range s).map (fun k => (rows.map (fun r => r.getD k 0)).sum)

/-- The array a batched evaluation returns: one row of shape `sh` per sample. -/
def batchArr {X : Type} (sh : List Nat) (g : X → List α) (batch : List X) : Arr α :=
  ⟨batch.length :: sh, (batch.map g).flatten⟩

end Laplax.Spec
