import Mathlib.Analysis.SpecialFunctions.Log.Deriv
import Mathlib.Analysis.SpecialFunctions.ExpDeriv
import Mathlib.Analysis.Calculus.FDeriv.Pi
import Verif.Model.Base

/-! # Loss functions and their Hessian products (`laplax/curv/ggn.py:24-197`, `laplax/curv/hessian.py:24-43`,
`laplax/curv/utils.py:103-199`)

Arrays are real vectors `Fin n → ℝ` (float rounding is not modelled).  Automatic differentiation is modelled by the
Fréchet derivative: `jax.grad` is the vector of partial derivatives, `jax.jvp` the directional derivative. -/

namespace Laplax
open scoped BigOperators

/-- A 1-D float array of length `n`.  (types.py:19-20) -/
abbrev Vec (n : ℕ) := Fin n → ℝ

/-- External: `jax.nn.sigmoid`. -/
noncomputable def sigmoid (x : ℝ) : ℝ := 1 / (1 + Real.exp (-x))

/-- External: `jax.nn.log_sigmoid`. -/
noncomputable def logSigmoid (x : ℝ) : ℝ := Real.log (sigmoid x)

/-- External: `jax.nn.softmax` over the (only) axis. -/
noncomputable def softmax {n : ℕ} (z : Vec n) : Vec n := fun k => Real.exp (z k) / ∑ j, Real.exp (z j)

/-- External: `jax.grad(func)(primals)`: the partial derivatives. -/
noncomputable def jaxGrad {n : ℕ} (f : Vec n → ℝ) (z : Vec n) : Vec n := fun k => fderiv ℝ f z (Pi.single k 1)

/-- `hvp` (curv/hessian.py:24-43): `jax.jvp(jax.grad(func), (primals,), (tangents,))[1]`. -/
noncomputable def hvp {n : ℕ} (f : Vec n → ℝ) (z v : Vec n) : Vec n := fderiv ℝ (jaxGrad f) z v

/-- `_binary_cross_entropy_hessian_mv` (curv/ggn.py:24-53). -/
noncomputable def bceHessianMv {n : ℕ} (jv pred : Vec n) : Vec n :=
  fun k => sigmoid (pred k) * (1 - sigmoid (pred k)) * jv k

/-- `_cross_entropy_hessian_mv` (curv/ggn.py:56-87): `off_diag_jv = prob * (prob.reshape(1,-1) @ jv)`,
`diag_jv = prob * jv`, result `diag_jv - off_diag_jv`. -/
noncomputable def ceHessianMv {n : ℕ} (jv pred : Vec n) : Vec n :=
  fun k => softmax pred k * jv k - softmax pred k * ∑ j, softmax pred j * jv j

/-- `_mse_hessian_mv` (curv/ggn.py:90-114). -/
def mseHessianMv {n : ℕ} (jv : Vec n) : Vec n := fun k => 2 * jv k

/-- A `loss_fn` argument: `None`, a string / `LossFn` member (a `StrEnum` member equals its value), a callable
`loss_fn(pred, target)`, or some other object.  (the `loss_fn` argument of curv/ggn.py:117-202) -/
inductive LossArg (n : ℕ) (Y : Type) where
  | none
  | name (s : String)
  | callable (ℓ : Vec n → Y → ℝ)
  | other

/-- `create_loss_hessian_mv` (curv/ggn.py:117-197): the function `(jv, pred, target) ↦ H·jv`. -/
noncomputable def createLossHessianMv {n : ℕ} {Y : Type} : LossArg n Y → Except Err (Vec n → Vec n → Y → Vec n)
  | .none => .error .valueError
  | .name s =>
    if s = "binary_cross_entropy" then .ok (fun jv pred _ => bceHessianMv jv pred)
    else if s = "cross_entropy" then .ok (fun jv pred _ => ceHessianMv jv pred)
    else if s = "mse" then .ok (fun jv _ _ => mseHessianMv jv)
    else if s = "none" then .ok (fun jv _ _ => jv)
    else .error .valueError
  | .callable ℓ => .ok (fun jv pred target => hvp (fun p => ℓ p target) pred jv)
  | .other => .error .valueError

/-- `log_sigmoid_cross_entropy` (curv/utils.py:103-125), one entry. -/
noncomputable def logSigmoidCrossEntropy (logit target : ℝ) : ℝ :=
  -target * logSigmoid logit - (1 - target) * logSigmoid (-logit)

end Laplax
