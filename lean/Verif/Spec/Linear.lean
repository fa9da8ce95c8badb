import Verif.Model.Mv
import Mathlib.Data.Matrix.Mul

/-! # Specification vocabulary for matrices and matrix-vector products -/

namespace Laplax.Spec
variable {α : Type}

/-- The row-major 2-D array holding the matrix `M`. -/
def denseArr {m n : Nat} (M : Matrix (Fin m) (Fin n) α) : Arr α :=
  ⟨[m, n], (List.ofFn (fun i => List.ofFn (fun j => M i j))).flatten⟩

/-- The python callable `mv` computes the mathematical map `f` on flat vectors of length `n`. -/
def RepresentsFlat {m n : Nat} (mv : PyTree α → Except Err (PyTree α)) (f : (Fin n → α) → (Fin m → α)) : Prop :=
  ∀ x : Fin n → α, mv (.leaf ⟨[n], List.ofFn x⟩) = .ok (.leaf ⟨[m], List.ofFn (f x)⟩)

/-- The python callable `mv` on pytrees of the given layout computes `f` on their entries; the output is any pytree
with those entries. -/
def RepresentsTree {m n : Nat} (layout : PyTree α) (mv : PyTree α → Except Err (PyTree α))
    (f : (Fin n → α) → (Fin m → α)) : Prop :=
  ∀ (x : Fin n → α) (t : PyTree α), t.map Arr.shape = layout.map Arr.shape → (∀ a ∈ t.leaves, a.WF) →
    (t.leaves.map Arr.data).flatten = List.ofFn x →
    ∃ r, mv t = .ok r ∧ (r.leaves.map Arr.data).flatten = List.ofFn (f x)

end Laplax.Spec

namespace Laplax.Spec
variable {α : Type}

/-- As `RepresentsTree`, with a flat 1-D array as output. -/
def RepresentsTreeToFlat {m n : Nat} (layout : PyTree α) (mv : PyTree α → Except Err (PyTree α))
    (f : (Fin n → α) → (Fin m → α)) : Prop :=
  ∀ (x : Fin n → α) (t : PyTree α), t.map Arr.shape = layout.map Arr.shape → (∀ a ∈ t.leaves, a.WF) →
    (t.leaves.map Arr.data).flatten = List.ofFn x → mv t = .ok (.leaf ⟨[m], List.ofFn (f x)⟩)

/-- The `j`-th unit vector as a function. -/
def unitFn (α : Type) [OfNat α 0] [OfNat α 1] (n : Nat) (j : Fin n) : Fin n → α := fun i => if i = j then 1 else 0

end Laplax.Spec
