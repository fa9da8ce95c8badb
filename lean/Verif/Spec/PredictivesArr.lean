import Verif.Spec.MetricsArr
import Verif.Spec.Predictive

/-! # Specification vocabulary for class probabilities of outputs with any number of axes -/

namespace Laplax.Spec
open Laplax

/-- The array `a` (shape `c :: sh`) has, at the position `ix` of the axes `sh`, the numbers `z` along its first axis. -/
def AlongFirst {c : ℕ} (a : Arr ℝ) (ix : List ℕ) (z : Fin c → ℝ) : Prop := ∀ k : Fin c, entryAt a (k.val :: ix) = some (z k)

/-- `softmax(f / √(1 + π/8·v))`. -/
noncomputable def meanField0Of {c : ℕ} (f v : Fin c → ℝ) : Fin c → ℝ := softmaxOf fun k => f k / Real.sqrt (1 + Real.pi / 8 * v k)

/-- `1 / Σ_j exp((f_j - f_i)/√(1 + π/8·(v_i + v_j)))`. -/
noncomputable def meanField1Of {c : ℕ} (f v : Fin c → ℝ) : Fin c → ℝ := fun i =>
  1 / ∑ j, Real.exp ((f j - f i) / Real.sqrt (1 + Real.pi / 8 * (v i + v j)))

/-- The Dirichlet parameters of the Laplace bridge (Hobbhahn et al.) for means `f` and variances `v`: `(1 - 2/K + exp(f_k)·Σ_j exp(-f_j)/K²)/v_k`. -/
noncomputable def bridgeOf {c : ℕ} (K : ℕ) (f v : Fin c → ℝ) : Fin c → ℝ := fun k =>
  (1 - 2 / K + Real.exp (f k) * (∑ j, Real.exp (-f j)) / (K : ℝ) ^ 2) / v k

/-- The same after the variance correction: variances divided by `t = Σ_j v_j / √(K/2)`, means by `√t`. -/
noncomputable def bridgeCorrectedOf {c : ℕ} (K : ℕ) (f v : Fin c → ℝ) : Fin c → ℝ :=
  bridgeOf K (fun k => f k / Real.sqrt ((∑ j, v j) / Real.sqrt (K / 2))) (fun k => v k / ((∑ j, v j) / Real.sqrt (K / 2)))

/-- `r` is the Laplace bridge of means `m` and variances `v` of shape `(c, k, *sh)`: the Dirichlet parameters for `k` classes, taken along the first axis at
every position of the others, divided by the sum of all of them. -/
def IsBridge (c k : ℕ) (sh : List ℕ) (corrected : Bool) (m v r : Arr ℝ) : Prop :=
  r.WF ∧ r.shape = m.shape ∧ ∃ g : Fin (shapeSize (k :: sh)) → Fin c → ℝ, ∀ ix, IsIndex (k :: sh) ix →
    ∃ (z w : Fin c → ℝ) (n : Fin (shapeSize (k :: sh))), AlongFirst m ix z ∧ AlongFirst v ix w ∧ n.val = position (k :: sh) ix ∧
      g n = (if corrected then bridgeCorrectedOf k z w else bridgeOf k z w) ∧ AlongFirst r ix (fun j => g n j / ∑ j, ∑ n, g n j)

end Laplax.Spec
