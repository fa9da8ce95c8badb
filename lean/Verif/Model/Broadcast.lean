import Verif.Model.Base

/-! # numpy broadcasting (external: `jnp` binary operations on arrays of unequal shapes)

Used wherever laplax combines two arrays with `+`, `-`, `/`, `**` without checking their shapes
(util/tree.py:48, eval/metrics.py:331, 368, curv/utils.py:178). -/

namespace Laplax
variable {α β γ : Type}

/-- External: shapes are aligned on the right; missing leading axes have length one. -/
def padShape (r : Nat) (sh : List Nat) : List Nat := List.replicate (r - sh.length) 1 ++ sh

/-- External: two axes are compatible when equal or when one has length one. -/
def bcDim (a b : Nat) : Option Nat :=
  if a = b then some a else if a = 1 then some b else if b = 1 then some a else none

/-- External: axis by axis, for shapes with the same number of axes. -/
def bcAligned : List Nat → List Nat → Option (List Nat)
  | [], [] => some []
  | a :: s, b :: t =>
    match bcDim a b, bcAligned s t with
    | some d, some r => some (d :: r)
    | _, _ => none
  | _, _ => none

/-- External: `np.broadcast_shapes(s, t)`. -/
def bcShapes (s t : List Nat) : Option (List Nat) :=
  bcAligned (padShape (max s.length t.length) s) (padShape (max s.length t.length) t)

/-- External: `jnp.broadcast_to` on row-major data; both shapes have the same number of axes, and every axis of the first has
the length of the second or length one (then it is repeated). -/
def bcTo : List Nat → List Nat → List α → List α
  | s :: sh, o :: out, xs =>
    if s = o then
      ((List.range s).map (fun i => bcTo sh out ((xs.drop (i * shapeSize sh)).take (shapeSize sh)))).flatten
    else (List.replicate o (bcTo sh out xs)).flatten
  | _, _, xs => xs

/-- External: the exception for incompatible shapes.  JAX raises `TypeError` for shapes with equally many axes (from `lax`)
and `ValueError` otherwise (from the rank promotion of `jnp`). -/
def bcError (s t : List Nat) : Err := if s.length = t.length then .typeError else .valueError

/-- External: a binary `jnp` operation with broadcasting. -/
def Arr.bcast2 (f : α → β → γ) (a : Arr α) (b : Arr β) : Except Err (Arr γ) :=
  match bcShapes a.shape b.shape with
  | none => .error (bcError a.shape b.shape)
  | some out =>
    .ok ⟨out, List.zipWith f (bcTo (padShape out.length a.shape) out a.data) (bcTo (padShape out.length b.shape) out b.data)⟩

end Laplax
