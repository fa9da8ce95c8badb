import Verif.Model.Base

/-! # Specification vocabulary for pytrees (independent of the laplax code) -/

namespace Laplax.Spec
variable {α : Type}

/-- Two pytrees have the same layout: same containers and keys, same leaf shapes. -/
def SameLayout (t u : PyTree α) : Prop := t.map Arr.shape = u.map Arr.shape

/-- All leaves are genuine arrays (as many entries as their shape says). -/
def WFTree (t : PyTree α) : Prop := ∀ a ∈ t.leaves, a.WF

/-- All scalar entries of a pytree, leaf by leaf, each leaf row-major. -/
def entries (t : PyTree α) : List α := (t.leaves.map Arr.data).flatten

/-- Number of scalar slots prescribed by a layout. -/
def numEntries (t : PyTree α) : Nat := (t.leaves.map (fun a => a.shape.foldl (· * ·) 1)).sum

/-- `x` is an error (some exception was raised). -/
def Raises {ε β : Type} (x : Except ε β) : Prop := ∃ e, x = .error e

/-- The `i`-th standard basis vector of length `n`. -/
def unitVec (α : Type) [OfNat α 0] [OfNat α 1] (n i : Nat) : List α :=
  (List.range n).map (fun j => if j = i then 1 else 0)

end Laplax.Spec
