import Verif.Model.Base

/-! # Specification: entries of an array by multi-index, and which entries broadcasting combines -/

namespace Laplax.Spec
variable {α : Type}

/-- A multi-index into an array of shape `sh`: one number per axis, in range. -/
def IsIndex : List Nat → List Nat → Prop
  | [], [] => True
  | n :: sh, i :: ix => i < n ∧ IsIndex sh ix
  | _, _ => False

/-- Row-major position of a multi-index. -/
def position : List Nat → List Nat → Nat
  | n :: sh, i :: ix => i * shapeSize sh + position sh ix
  | _, _ => 0

/-- The entry at a multi-index. -/
def entryAt (a : Arr α) (ix : List Nat) : Option α := a.data[position a.shape ix]?

/-- Right-aligned comparison of two shapes: the `k`-th axis from the right, `1` when the array has no such axis. -/
def axisFromRight (sh : List Nat) (k : Nat) : Nat := sh.reverse.getD k 1

/-- The shapes are broadcast-compatible: from the right, equal or one of them one. -/
def Compatible (s t : List Nat) : Prop :=
  ∀ k, axisFromRight s k = axisFromRight t k ∨ axisFromRight s k = 1 ∨ axisFromRight t k = 1

/-- The part of a multi-index of the result that an array of shape `sh` sees: the trailing axes, with `0` on axes of length one. -/
def seenBy (sh ix : List Nat) : List Nat :=
  List.zipWith (fun n i => if n = 1 then 0 else i) sh (ix.drop (ix.length - sh.length))

end Laplax.Spec
