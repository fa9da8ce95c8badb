import Verif.Model.Loader
import Verif.Spec.Tree
import Mathlib.Algebra.Module.Pi
import Mathlib.Algebra.Module.LinearMap.Defs

/-! # Specification of a loader-backed linear operator -/

namespace Laplax.Spec
open Laplax

variable {α : Type}

/-- `t` is the pytree of layout `L` with entries `x`. -/
def IsTree {n : Nat} (L : PyTree α) (x : Fin n → α) (t : PyTree α) : Prop :=
  SameLayout t L ∧ WFTree t ∧ entries t = List.ofFn x

/-- Standing assumptions: a `DataLoaderMV` over pytrees whose per-batch product represents linear maps `f b`, with
linear input and output transforms `gI`, `gO` (identities for a fresh object; `unflatten`/`flatten` after wrapping). -/
structure LinearLoaderMV {B K : Type} [CommRing K] {p q m n : Nat}
    (o : DataLoaderMV B (PyTree K) (PyTree K) (PyTree K) (PyTree K) (PyTree K)) (Lx Lv Lw Ly : PyTree K)
    (f : B → (Fin p → K) →ₗ[K] (Fin q → K)) (gI : (Fin n → K) →ₗ[K] (Fin p → K)) (gO : (Fin q → K) →ₗ[K] (Fin m → K)) : Prop where
  hred : o.reduce = liftReduce reduceAdd
  hin : ∀ x t, IsTree Lx x t → ∃ v, o.inputTransform t = .ok v ∧ IsTree Lv (gI x) v
  hmv : ∀ b x t, IsTree Lv x t → ∃ w, o.mv t b = .ok w ∧ IsTree Lw (f b x) w
  hout : ∀ y t, IsTree Lw y t → ∃ r, o.outputTransform t = .ok r ∧ IsTree Ly (gO y) r

end Laplax.Spec
