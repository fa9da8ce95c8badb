import Verif.Model.LowRank
import Verif.Spec.Linear
import Verif.Spec.Tree

/-! # The supported forms of a linear operator -/

namespace Laplax.Spec
open Laplax
open scoped BigOperators Matrix

variable {n : ℕ}

/-- `op` with `layout` is the matrix `M` in one of the supported forms: the 2-D array (any layout, it is ignored), a callable on
flat vectors with the dimension as layout, or a callable on pytrees with a parameter pytree as layout. -/
inductive IsOperator (M : Mat n n) : LowRankOp → Layout ℝ → Prop
  | matrix (layout : Layout ℝ) : IsOperator M (.array (denseArr M)) layout
  | flat (f : PyTree ℝ → Except Err (PyTree ℝ)) (h : RepresentsFlat f (fun v => M *ᵥ v)) : IsOperator M (.callable f) (.int n)
  | tree (f : PyTree ℝ → Except Err (PyTree ℝ)) (t : PyTree ℝ) (ht : numEntries t = n) (h : RepresentsTree t f (fun v => M *ᵥ v)) :
      IsOperator M (.callable f) (.tree t)

end Laplax.Spec
