import Verif.Model.Loader

/-! # `reduce_sum`, `concat` and `reduce_concat` along any axis (`laplax/util/loader.py`) -/

namespace Laplax
variable {α : Type}

/-- External: the axis check of `jnp.sum` and `jnp.concatenate` (used at util/loader.py:55, 97): an axis in `[-ndim, ndim)`, counted from the
end when negative; `ValueError` otherwise. -/
def normAxis (axis : Int) (ndim : Nat) : Except Err Nat :=
  if -(ndim : Int) ≤ axis ∧ axis < (ndim : Int) then .ok (if axis < 0 then axis + ndim else axis).toNat else .error .valueError

/-- External: `jnp.sum(x, keepdims=keepdims, axis=axis)` (util/loader.py:55) on row-major data: `prod(shape[:axis])` blocks of `shape[axis]`
rows of `prod(shape[axis+1:])` entries; each block is summed. -/
def Arr.sumAxis [Add α] [OfNat α 0] (keepdims : Bool) (axis : Int) (a : Arr α) : Except Err (Arr α) := do
  let ax ← normAxis axis a.shape.length
  let before := a.shape.take ax
  let n := (a.shape.drop ax).headD 1
  let after := a.shape.drop (ax + 1)
  return ⟨before ++ (if keepdims then 1 :: after else after),
    ((chunks (n * shapeSize after) (shapeSize before) a.data).map fun blk =>
      sumRows (shapeSize after) (chunks (shapeSize after) n blk)).flatten⟩

/-- `reduce_sum` (laplax/util/loader.py:42-60), one leaf, any axis. -/
def reduceSumAxis [Add α] [OfNat α 0] (keepdims : Bool) (axis : Int) (resNew : Arr α) (state : Option (Arr α)) :
    Except Err (Arr α × Arr α) := do
  let summed ← resNew.sumAxis keepdims axis
  match state with
  | none => return (summed, summed)
  | some st => do
    let newState ← Arr.zipWith (· + ·) st summed
    return (newState, newState)

/-- `concat` (laplax/util/loader.py:82-99), one leaf, any axis: `jnp.concatenate([a, b], axis=axis)` raises `ValueError` for a
zero-dimensional first array or an axis out of range of its rank, `TypeError` when the other dimensions differ. -/
def concatAxis (axis : Int) (a b : Arr α) : Except Err (Arr α) := do
  let ax ← normAxis axis a.shape.length
  let before := a.shape.take ax
  let n := (a.shape.drop ax).headD 1
  let after := a.shape.drop (ax + 1)
  let m := (b.shape.drop ax).headD 1
  if a.shape.length = b.shape.length ∧ b.shape.take ax = before ∧ b.shape.drop (ax + 1) = after then
    return ⟨before ++ (n + m) :: after,
      (List.zipWith (· ++ ·) (chunks (n * shapeSize after) (shapeSize before) a.data)
        (chunks (m * shapeSize after) (shapeSize before) b.data)).flatten⟩
  else .error .typeError

/-- `reduce_concat` (laplax/util/loader.py:102-121), one leaf, any axis. -/
def reduceConcatAxis (axis : Int) (resNew : Arr α) (state : Option (Arr α)) : Except Err (Arr α × Arr α) :=
  match state with
  | none => .ok (resNew, resNew)
  | some st => do
    let newState ← concatAxis axis st resNew
    return (newState, newState)

end Laplax
