import Mathlib.LinearAlgebra.Matrix.PosDef
import Verif.Model.Pushforward
import Verif.Spec.Pushforward

/-! # Specification of what a pushforward must record -/

namespace Laplax.Spec
open Laplax
open scoped BigOperators Matrix

variable {X K : Type} {p : ℕ}

/-- The PRNG hands out as many keys as asked for and draws arrays of the requested shape. -/
structure RngOk (rng : Prng K) : Prop where
  split : ∀ k n, (rng.split k n).length = n
  shape : ∀ k sh, (rng.normal k sh).shape = sh
  wf : ∀ k sh, (rng.normal k sh).WF

/-- `eps i` are the standard-normal draws for the `i`-th weight sample: `randn_like` of the parameters with the `i`-th of the
`S` keys split from `key` (default `jax.random.key(0)`). -/
def Draws (rng : Prng K) (key : Option K) (mean : PyTree ℝ) {S : ℕ} (eps : Fin S → Vec p) : Prop :=
  ∀ i : Fin S, ∃ k t, (rng.split (key.getD rng.key0) S)[i.val]? = some k ∧ randnLike rng.split rng.normal k mean = .ok t ∧
    entries t = List.ofFn (eps i)

/-- The special predictive of the given type on mean `f` and covariance `V`: the softmax of the logits scaled by
`1/√(1 + π/8·v_k)` (`mean_field_0`), and `1/Σ_j exp((f_j - f_i)/√(1 + π/8·s_ij))` with `s_ij = v_i + v_j` (`mean_field_1`) or
`s_ij = V_ii + V_jj - 2·V_ij` (`mean_field_2`). -/
noncomputable def specialOf {c : ℕ} (kind : String) (f : Vec c) (V : Matrix (Fin c) (Fin c) ℝ) : Vec c :=
  if kind = "mean_field_0" then softmaxOf (fun k => f k / Real.sqrt (1 + Real.pi / 8 * V k k))
  else if kind = "mean_field_1" then
    fun i => 1 / ∑ j, Real.exp ((f j - f i) / Real.sqrt (1 + Real.pi / 8 * (V i i + V j j)))
  else fun i => 1 / ∑ j, Real.exp ((f j - f i) / Real.sqrt (1 + Real.pi / 8 * (V i i + V j j - 2 * V i j)))

/-- The key a linearised function writes (`lin_setup` writes none). -/
def linKey : LinFn → String
  | .setup => "map"
  | .predMean => "pred_mean"
  | .predVar => "pred_var"
  | .predStd => "pred_std"
  | .predCov => "pred_cov"
  | .samples => "samples"
  | .mcPredAct => "mc_pred_act"
  | .specialPredAct => "special_pred_act"

/-- When a function can be used: the dense covariance needs a non-empty output of rank at most 1, samples need
`num_samples > 0`, the classification predictives a 1-D output and a mean-field type. -/
def LinUsable (sh : List ℕ) (S : ℕ) (kind : String) : LinFn → Prop
  | .predCov => sh.length ≤ 1 ∧ 0 < shapeSize sh
  | .samples => 0 < S
  | .mcPredAct => 0 < S ∧ sh.length = 1
  | .specialPredAct => sh.length = 1 ∧ 0 < shapeSize sh ∧ kind ∈ ["mean_field_0", "mean_field_1", "mean_field_2"]
  | _ => True

/-- How a request influences the normalisation of the statistics. -/
def statReq : NonlinFn → StatReq
  | .predCov => .cov
  | .predVar => .var
  | .predStd => .std
  | _ => .other

/-- The normalisations after a history of requests. -/
noncomputable def ddofs (fns : List NonlinFn) : Ddofs := fns.foldl (fun d fn => d.next (statReq fn)) {}

/-- What each key of the sampled predictive holds after the history `fns` of requests: nothing unless requested; the mean,
covariance (`ddof = 1`), variance and standard deviation (with the history's `ddof`) of the ensemble `s`, its first five members,
and the mean softmax of those. -/
noncomputable def nonlinExpected {S c : ℕ} (sh : List ℕ) (f : Fin c → ℝ) (s : Fin S → Fin c → ℝ) (fns : List NonlinFn) (key : String) :
    Option (Arr ℝ) :=
  if key = "map" then some (arrOf sh f)
  else if key = "pred_mean" then if .predMean ∈ fns then some (arrOf sh (ensMean s)) else none
  else if key = "pred_cov" then if (ddofs fns).cov then some (covArrOf (ensCov s 1)) else none
  else if key = "pred_var" then (ddofs fns).var.map (fun d => arrOf sh fun j => ensCov s d j j)
  else if key = "pred_std" then (ddofs fns).std.map (fun d => arrOf sh fun j => Real.sqrt (ensCov s d j j))
  else if key = "samples" then if .samples ∈ fns ∨ .mcPredAct ∈ fns then some (ensArr sh (ensTake 5 s)) else none
  else if key = "mc_pred_act" then if .mcPredAct ∈ fns then some (arrOf sh (ensSoftmax (ensTake 5 s))) else none
  else none

/-- The softmax average needs a 1-D output; the special predictives are treated separately. -/
def NonlinUsable (sh : List ℕ) : NonlinFn → Prop
  | .mcPredAct => sh.length = 1
  | .specialPredAct => False
  | _ => True

/-- The ensemble: the model at the sampled weights. -/
def ensOf {S : ℕ} (net : Net X p) (x : X) (W : Fin S → Vec p) : Fin S → Vec (shapeSize net.shape) := fun i => net.fn x (W i)

/-- Every variance request comes after a covariance request and every standard-deviation request after a variance request. -/
def Ordered (fns : List NonlinFn) : Prop :=
  (∀ pre post, fns = pre ++ .predVar :: post → .predCov ∈ pre) ∧ (∀ pre post, fns = pre ++ .predStd :: post → .predVar ∈ pre)

/-- The Gram matrix of a matrix-valued kernel on the inputs `xs`, as one matrix indexed by (input, output entry). -/
def gram {c n : ℕ} (k : X → X → Matrix (Fin c) (Fin c) ℝ) (xs : Fin n → X) : Matrix (Fin n × Fin c) (Fin n × Fin c) ℝ :=
  Matrix.of fun a b => k (xs a.1) (xs b.1) a.2 b.2

/-- A symmetric positive semidefinite (matrix-valued) kernel. -/
structure IsKernel {c : ℕ} (k : X → X → Matrix (Fin c) (Fin c) ℝ) : Prop where
  symm : ∀ x1 x2, k x1 x2 = (k x2 x1)ᵀ
  psd : ∀ (n : ℕ) (xs : Fin n → X), (gram k xs).PosSemidef

end Laplax.Spec
