import Verif.Spec.Uncertainty
import Mathlib.LinearAlgebra.Matrix.Defs

/-! # Specification of a relabelling of the output entries (classes) -/

namespace Laplax.Spec
open Laplax

variable {X : Type} {p : ℕ}

/-- The same model with its output entries in another order: entry `k` is entry `π k` of the original model. -/
def relabelled (net : Net X p) (π : Equiv.Perm (Fin (shapeSize net.shape))) : Net X p := ⟨net.shape, fun x v => net.fn x v ∘ π⟩

/-- The values `v` and `v'` two predictions hold under one key correspond under the relabelling `π`: both absent, or
* the covariance matrix with rows and columns permuted,
* the samples, each of them permuted,
* for all other keys the array of output entries, permuted. -/
def RelabelledEntry {c : ℕ} (sh : List ℕ) (π : Equiv.Perm (Fin c)) (key : String) (v v' : Option (Arr ℝ)) : Prop :=
  (v = none ∧ v' = none) ∨
  (key = "pred_cov" ∧ ∃ (shape : List ℕ) (V : Matrix (Fin c) (Fin c) ℝ), v = some ⟨shape, (List.ofFn fun i => List.ofFn fun j => V i j).flatten⟩ ∧
    v' = some ⟨shape, (List.ofFn fun i => List.ofFn fun j => V (π i) (π j)).flatten⟩) ∨
  (key = "samples" ∧ ∃ (S : ℕ) (s : Fin S → Fin c → ℝ), v = some ⟨S :: sh, (List.ofFn fun i => List.ofFn fun k => s i k).flatten⟩ ∧
    v' = some ⟨S :: sh, (List.ofFn fun i => List.ofFn fun k => s i (π k)).flatten⟩) ∨
  (key ≠ "pred_cov" ∧ key ≠ "samples" ∧ ∃ y : Fin c → ℝ, v = some ⟨sh, List.ofFn fun k => y k⟩ ∧ v' = some ⟨sh, List.ofFn fun k => y (π k)⟩)

/-- The same model with a number added to all its output entries; the number may depend on the input and on the parameters. -/
def shifted (net : Net X p) (t : X → (Fin p → ℝ) → ℝ) : Net X p := ⟨net.shape, fun x v k => net.fn x v k + t x v⟩

end Laplax.Spec
