import Verif.Spec.Uncertainty
import Verif.Model.ApiCalibration
import Mathlib.Analysis.SpecialFunctions.Log.Base

/-! # Specification of other coordinates for the parameters -/

namespace Laplax.Spec
open Laplax
open scoped Matrix

variable {X : Type} {p : ℕ}

/-- The same model with its parameters in other coordinates: `w = A v`; `v` is what is stored. -/
def inCoordinates (net : Net X p) (A : Matrix (Fin p) (Fin p) ℝ) : Net X p := ⟨net.shape, fun x v => net.fn x (A *ᵥ v)⟩

/-- `A` is a rotation or reflection combined with a change of scale: lengths are multiplied by `√c`. -/
def IsSimilarity (A : Matrix (Fin p) (Fin p) ℝ) (c : ℝ) : Prop := 0 < c ∧ A * Aᵀ = c • (1 : Matrix (Fin p) (Fin p) ℝ)

/-- The grid search described by `kw'` tries the candidates of `kw` multiplied by `c`: both ends of the range of decimal logarithms are moved by `log₁₀ c` (the
defaults are `-3` and `3`). -/
def ScaledGrid (kw kw' : GridKwargs) (c : ℝ) : Prop :=
  kw'.logPriorPrecMin.getD (-3) = kw.logPriorPrecMin.getD (-3) + Real.logb 10 c ∧
    kw'.logPriorPrecMax.getD 3 = kw.logPriorPrecMax.getD 3 + Real.logb 10 c ∧ kw'.gridSize = kw.gridSize ∧ kw'.patience = kw.patience

end Laplax.Spec
