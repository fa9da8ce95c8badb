import Verif.Spec.ApiCalibration

/-! # Specification for C76: when a search through candidates finds the best one -/

namespace Laplax.Spec

/-- The scores `s 0, …, s (n-1)` form a single valley: none of them is above both an earlier and a later one (they fall, then rise; plateaus
are allowed). -/
def SingleValley {R : Type} [LinearOrder R] (s : ℕ → R) (n : ℕ) : Prop :=
  ∀ i j l, i ≤ j → j ≤ l → l < n → s j ≤ max (s i) (s l)

/-- `q` is up to `ε` as good as every prior precision between `10^lo` and `10^hi`, grid point or not. -/
def WithinOfBest (score : ℝ → ℝ) (lo hi ε q : ℝ) : Prop :=
  (10 : ℝ) ^ lo ≤ q ∧ q ≤ (10 : ℝ) ^ hi ∧ ∀ τ, (10 : ℝ) ^ lo ≤ τ → τ ≤ (10 : ℝ) ^ hi → score q ≤ score τ + ε

end Laplax.Spec
