import Mathlib.Data.Fintype.Card
import Mathlib.Data.Finset.Card

/-! # Reordered and repeated data -/

namespace Laplax.Spec

/-- The list `π 0, π 1, …` names each of the `n` data points exactly `m` times: a reordering for `m = 1`, a reordering of `m` copies of
the data in general. -/
def EachTimes {n n' : ℕ} (m : ℕ) (π : Fin n' → Fin n) : Prop := ∀ i, (Finset.univ.filter fun j => π j = i).card = m

end Laplax.Spec
