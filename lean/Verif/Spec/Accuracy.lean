import Verif.Spec.Metrics

/-! # Specification vocabulary for accuracies -/

namespace Laplax.Spec
open Laplax

variable {n c : ℕ}

/-- `k` is the first index at which `z` is maximal. -/
def IsFirstMax (z : Vec c) (k : Fin c) : Prop := (∀ j, z j ≤ z k) ∧ ∀ j < k, z j < z k

/-- Samples whose label is among the `k` best predicted classes. -/
noncomputable def hits (pred : Fin n → Vec c) (y : Fin n → ℤ) (k : ℕ) : Finset (Fin n) :=
  by classical exact Finset.univ.filter (fun i => ∃ l : Fin c, (l.val : ℤ) = y i ∧ AmongTop (pred i) k l)

end Laplax.Spec
