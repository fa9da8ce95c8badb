import Verif.Model.Laplace
import Verif.Spec.Ggn
import Verif.Spec.Pushforward
import Verif.Spec.Posterior

/-! # Specification of the data and the curvature of a Laplace approximation -/

namespace Laplax.Spec
open scoped BigOperators Matrix

/-- `b` is a batch with inputs `x` and targets `y`: a pair, or a mapping with these two keys. -/
inductive BatchOf {A : Type} : PyObj A → PyObj A × PyObj A → Prop
  | pair (x y : PyObj A) : BatchOf (.tup [x, y]) (x, y)
  | mapping (kvs : List (String × PyObj A)) (x y : PyObj A) (hx : Dict.get? kvs "input" = some x)
      (hy : Dict.get? kvs "target" = some y) : BatchOf (.dct kvs) (x, y)

/-- `data` consists of the given (non-empty list of) batches: one batch, or a re-iterable loader that yields pairs, or one that
yields mappings. -/
inductive DataOf {A : Type} : PyObj A → List (PyObj A × PyObj A) → Prop
  | single (b : PyObj A) (xy : PyObj A × PyObj A) (h : BatchOf b xy) : DataOf b [xy]
  | pairs (ps : List (PyObj A × PyObj A)) (h : ps ≠ []) :
      DataOf (.iter (.reiterable (ps.map fun xy => .tup [xy.1, xy.2]))) ps
  | mappings (ds : List (List (String × PyObj A))) (ps : List (PyObj A × PyObj A)) (h : ps ≠ [])
      (hb : List.Forall₂ (fun kvs xy => Dict.get? kvs "input" = some xy.1 ∧ Dict.get? kvs "target" = some xy.2) ds ps) :
      DataOf (.iter (.reiterable (ds.map PyObj.dct))) ps

/-- `Σ J_sᵀ H_s J_s v` over a list of `(input, target)` samples. -/
noncomputable def ggnSamples {p c : ℕ} {X Y : Type} (model : X → (Fin p → ℝ) → (Fin c → ℝ)) (θ : Fin p → ℝ)
    (H : (Fin c → ℝ) → (Fin c → ℝ) → Y → (Fin c → ℝ)) (samples : List (X × Y)) (v : Fin p → ℝ) : Fin p → ℝ :=
  (samples.map fun s => (jacobian (model s.1) θ)ᵀ *ᵥ H (jacobian (model s.1) θ *ᵥ v) (model s.1 θ) s.2).sum

/-- The result of a sequence of adaptive matrix-vector products with the matrix `G`. -/
def runAlg {p r : ℕ} (G : Matrix (Fin p) (Fin p) ℝ) : MvAlg p r → Except Err (LowRankTerms p r)
  | .done t => t
  | .call v k => runAlg G (k (G *ᵥ v))

/-- The estimate each curvature kind must produce for the curvature matrix `G`. -/
def estimateOf {p : ℕ} (G : Matrix (Fin p) (Fin p) ℝ) : LaplaceKind p → Except Err (CurvEstimate p)
  | .full => .ok (.full G)
  | .diagonal => .ok (.diagonal fun i => G i i)
  | .lowRank _ alg => match runAlg G alg with
    | .ok t => .ok (.lowRank t)
    | .error e => .error e

/-- The precision matrix a posterior must have for the given estimate: `(σ² G + τ I)/s` for a full or diagonal estimate, and
`(τ/s) I + σ² U diag(S) Uᵀ` for a low-rank one (see C22 for the loss scaling there). -/
noncomputable def targetPrecision {p : ℕ} (τ σ2 s : ℝ) : CurvEstimate p → Matrix (Fin p) (Fin p) ℝ
  | .full G => precision G τ σ2 s
  | .diagonal d => precision (Matrix.diagonal d) τ σ2 s
  | .lowRank t => (τ / s) • (1 : Matrix (Fin p) (Fin p) ℝ) + σ2 • (t.U * Matrix.diagonal t.S * t.Uᵀ)

/-- What makes an estimate a positive semidefinite curvature. -/
def EstimatePsd {p : ℕ} : CurvEstimate p → Prop
  | .full G => G.PosSemidef
  | .diagonal d => ∀ i, 0 ≤ d i
  | .lowRank t => t.Uᵀ * t.U = 1 ∧ ∀ k, 0 ≤ t.S k

section
variable {A X Y : Type} {p c : ℕ}

/-- The arguments under which `laplace` is used: parameters with the entries `θ`, data made of the batches `ps`, a named loss, an
accepted curvature type. -/
structure LaplaceCall (lower : String → String) (points : PyObj A → PyObj A → Except Err (List (X × Y)))
    (model : X → Vec p → Vec c) (params : PyTree ℝ) (θ : Vec p) (data : PyObj A) (samples : List (X × Y)) (loss : String)
    (H : Vec c → Vec c → Y → Vec c) (curvType ct : EnumArg) : Prop where
  hp : 0 < p
  hwf : WFTree params
  hθ : entries params = List.ofFn θ
  hdata : ∃ (ps : List (PyObj A × PyObj A)) (decode : PyObj A × PyObj A → List (X × Y)), DataOf data ps ∧
    (∀ xy ∈ ps, points xy.1 xy.2 = .ok (decode xy)) ∧ ps.flatMap decode = samples
  hd : ∀ s ∈ samples, DifferentiableAt ℝ (model s.1) θ
  hH : createLossHessianMv (.name loss) = .ok H
  hct : convertToEnum lower curvApproxValues false curvType = .ok ct

end

end Laplax.Spec
