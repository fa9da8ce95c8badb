import Mathlib.Order.Defs.LinearOrder

/-! # Specification vocabulary for grid search -/

namespace Laplax.Spec

/-- The last `k` steps of `s 0, …, s (n-1)` were all strict increases (so there were at least `k` steps). -/
def LastStepsIncrease {R : Type} [LT R] (s : Nat → R) (n k : Nat) : Prop :=
  k + 1 ≤ n ∧ ∀ i, n ≤ i + 1 + k → i + 1 < n → s i < s (i + 1)

/-- The search has to stop after `n` evaluations: candidates exhausted, `p` consecutive increases just happened (a
non-positive `p` is met as soon as two values can be compared), or iteration number `n-1` reached the limit. -/
def MustStop {R : Type} [LT R] (s : Nat → R) (len : Nat) (patience maxIter : Option Int) (n : Nat) : Prop :=
  n = len ∨ (∃ p, patience = some p ∧ 2 ≤ n ∧ LastStepsIncrease s n p.toNat) ∨ (∃ m, maxIter = some m ∧ m ≤ (n : Int) - 1)

/-- `i` is the first index below `n` where `s` attains its minimum over `0..n-1`. -/
def IsFirstMin {R : Type} [LT R] [LE R] (s : Nat → R) (n i : Nat) : Prop :=
  i < n ∧ (∀ j, j < n → s i ≤ s j) ∧ (∀ j, j < i → s i < s j)

end Laplax.Spec
