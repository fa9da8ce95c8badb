import Verif.Model.Ggn
import Verif.Spec.Ggn
import Verif.Spec.Loss

/-! # Specification of admissible losses -/

namespace Laplax.Spec
open Laplax
open scoped BigOperators Matrix

variable {X Y : Type} {p c B : ℕ}

/-- A loss Hessian product that is linear, symmetric and positive semidefinite at every prediction and target. -/
structure GoodLossHess (H : Vec c → Vec c → Y → Vec c) : Prop where
  lin : ∀ z t (a b : ℝ) (u v : Vec c), H (a • u + b • v) z t = a • H u z t + b • H v z t
  symm : ∀ z t (u v : Vec c), u ⬝ᵥ H v z t = H u z t ⬝ᵥ v
  psd : ∀ z t (v : Vec c), 0 ≤ v ⬝ᵥ H v z t

/-- The scalar function differentiated by the Hessian product for a given loss. -/
noncomputable def totalLoss (model : X → Vec p → Vec c) (data : Fin B → X × Vec c) : HessLossArg B c → Vec p → ℝ
  | .callable ℓ => fun θ => ℓ (fun i => model (data i).1 θ) (fun i => (data i).2)
  | _ => fun θ => ∑ i, Spec.squaredError (data i).2 (model (data i).1 θ)

end Laplax.Spec
