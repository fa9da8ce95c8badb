import Verif.Model.LaplaceOptions
import Verif.Spec.Laplace
import Mathlib.Analysis.Calculus.ContDiff.Defs

/-! # Specification of batched forward passes and of losses that sum over samples -/

namespace Laplax.Spec
open scoped BigOperators

variable {A X Y YB : Type} {p c : ℕ}

/-- `f` is the forward pass of the model on all inputs of `samples` at once: one output row per sample. -/
def BatchForward (model : X → Vec p → Vec c) (samples : List (X × Y)) (f : Σ B : ℕ, Vec p → Fin B → Vec c) : Prop :=
  f.1 = samples.length ∧ ∀ θ, List.ofFn (f.2 θ) = samples.map fun s => model s.1 θ

/-- On the targets `y` of a batch the loss is a sum over the samples: squared error, binary cross-entropy, no loss, or a
callable that returns the sum of its (twice continuously differentiable) values on the samples. -/
def ActsBySample (lossFn : LossObj c Y YB) (samples : List (X × Y)) (y : YB) : Prop :=
  lossFn = .name "mse" ∨ lossFn = .name "binary_cross_entropy" ∨ lossFn = .name "none" ∨
    ∃ single batch, lossFn = .callable single batch ∧ (∀ s ∈ samples, ContDiff ℝ 2 fun z => single z s.2) ∧
      ∀ z : Fin samples.length → Vec c, batch samples.length z y = ∑ i, single (z i) (samples[i]).2

/-- Parameters with the entries `θ` and data whose batches can be read as samples. -/
structure ReadableData (points : PyObj A → PyObj A → Except Err (List (X × Y))) (params : PyTree ℝ) (θ : Vec p) (data : PyObj A)
    (ps : List (PyObj A × PyObj A)) (decode : PyObj A × PyObj A → List (X × Y)) : Prop where
  hp : 0 < p
  hwf : WFTree params
  hθ : entries params = List.ofFn θ
  hdata : DataOf data ps
  hdec : ∀ xy ∈ ps, points xy.1 xy.2 = .ok (decode xy)

end Laplax.Spec
