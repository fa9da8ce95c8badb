import Verif.Model.Base
import Mathlib.Data.Real.Basic

/-! # Specification of statistics over several axes -/

namespace Laplax.Spec

/-- All positions of an array of the given shape, in row-major order. -/
def positions : List ℕ → List (List ℕ)
  | [] => [[]]
  | n :: sh => (List.range n).flatMap fun i => (positions sh).map (i :: ·)

/-- The array with the entry `y pos` at every position. -/
def gridOf (sh : List ℕ) (y : List ℕ → ℝ) : Arr ℝ := ⟨sh, (positions sh).map y⟩

/-- Which of the `ndim` axes the tuple names; negative numbers count from the end. -/
def named (axes : List Int) (ndim : ℕ) : List Bool := (List.range ndim).map fun d : ℕ => decide (∃ x ∈ axes, x = (d : Int) ∨ x = (d : Int) - ndim)

/-- Every member of the tuple is an axis (negative ones counted from the end) and no two are the same axis. -/
def AxesOk (axes : List Int) (ndim : ℕ) : Prop :=
  (∀ x ∈ axes, -(ndim : Int) ≤ x ∧ x < ndim) ∧ axes.Pairwise fun (x z : Int) => x ≠ z ∧ x ≠ z + ndim ∧ z ≠ x + ndim

/-- What is left of a list of one value per axis when the marked axes are removed. -/
def unmarked (mask : List Bool) (l : List ℕ) : List ℕ := ((mask.zip l).filter fun b => !b.1).map Prod.snd

/-- The entries of `y` along the marked axes at the position `o` of the others. -/
def entriesAlong (sh : List ℕ) (mask : List Bool) (y : List ℕ → ℝ) (o : List ℕ) : List ℝ :=
  ((positions sh).filter fun pos => unmarked mask pos = o).map y

/-- The arithmetic mean of a list. -/
noncomputable def meanOf (l : List ℝ) : ℝ := l.sum / l.length

/-- The sum of the squared deviations from the mean over `n - ddof`. -/
noncomputable def varianceOf (ddof : ℝ) (l : List ℝ) : ℝ := (l.map fun x => (x - meanOf l) ^ 2).sum / (l.length - ddof)

/-- The array of the statistics `f` over the marked axes, which are dropped or kept with length one. -/
def statGrid (keepdims : Bool) (sh : List ℕ) (mask : List Bool) (f : List ℝ → ℝ) (y : List ℕ → ℝ) : Arr ℝ :=
  ⟨if keepdims then List.zipWith (fun n b => if b then 1 else n) sh mask else unmarked mask sh,
    (positions (unmarked mask sh)).map fun o => f (entriesAlong sh mask y o)⟩

end Laplax.Spec
