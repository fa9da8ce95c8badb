import Verif.Spec.Accuracy
import Verif.Spec.Broadcast

/-! # Specification vocabulary for metrics on arrays of any shape -/

namespace Laplax.Spec
open Laplax

variable {n c : ℕ}

/-- The array of shape `(n, c)` with the rows `z i`. -/
def tableArr (z : Fin n → Fin c → ℝ) : Arr ℝ := ⟨[n, c], (List.ofFn fun i => List.ofFn (z i)).flatten⟩

/-- The array of shape `(n,)`. -/
def vectorArr (y : Fin n → ℝ) : Arr ℝ := ⟨[n], List.ofFn y⟩

/-- The array of shape `(n, 1)`. -/
def columnArr (y : Fin n → ℝ) : Arr ℝ := ⟨[n, 1], List.ofFn y⟩

/-- The predictions `pred` (shape `sh ++ [c]`) have, at the position `ix` of the axes `sh`, the scores `z`. -/
def ScoresAt (pred : Arr ℝ) (ix : List ℕ) (z : Fin c → ℝ) : Prop := ∀ k : Fin c, entryAt pred (ix ++ [k.val]) = some (z k)

/-- How many of `n` predictions have the class `y` among their `k` best. -/
noncomputable def hitsOf (pred : Fin n → Fin c → ℝ) (y : Fin c) (k : ℕ) : ℕ :=
  by classical exact (Finset.univ.filter fun i => AmongTop (pred i) k y).card

/-- The array of shape `(n, *inner, c)` whose score vectors at sample `i` are `pred i s`, `s` running over the positions of `inner` row by row. -/
def gridArr (inner : List ℕ) (pred : Fin n → Fin (shapeSize inner) → Fin c → ℝ) : Arr ℝ :=
  ⟨n :: inner ++ [c], (List.ofFn fun i => (List.ofFn fun s => List.ofFn (pred i s)).flatten).flatten⟩

/-- The positions `(i, s)` of such predictions at which the label of sample `i` is among the `k` best classes. -/
noncomputable def gridHits {inner : List ℕ} (pred : Fin n → Fin (shapeSize inner) → Fin c → ℝ) (y : Fin n → Fin c) (k : ℕ) :
    Finset (Fin n × Fin (shapeSize inner)) :=
  by classical exact Finset.univ.filter fun q => AmongTop (pred q.1 q.2) k (y q.1)

end Laplax.Spec
