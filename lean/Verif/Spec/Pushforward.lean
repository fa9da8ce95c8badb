import Verif.Spec.Tree
import Verif.Spec.Linear
import Verif.Spec.Ggn
import Mathlib.Analysis.SpecialFunctions.Pow.Real

/-! # Specification of predictive statistics -/

namespace Laplax.Spec
open scoped BigOperators Matrix

/-- The python callable `g` acts on parameter pytrees of the given layout as `f` acts on their entries. -/
def ActsOnTrees {p : ℕ} (layout : PyTree ℝ) (g : List (PyTree ℝ) → Except Err (PyTree ℝ)) (f : (Fin p → ℝ) → (Fin p → ℝ)) : Prop :=
  ∀ (u : PyTree ℝ) (x : Fin p → ℝ), SameLayout u layout → entries u = List.ofFn x →
    ∃ w, g [u] = .ok w ∧ SameLayout w layout ∧ WFTree w ∧ entries w = List.ofFn (f x)

/-- `softmax(z)_k`. -/
noncomputable def softmaxOf {c : ℕ} (z : Fin c → ℝ) (k : Fin c) : ℝ := Real.exp (z k) / ∑ j, Real.exp (z j)

/-- The mean of an ensemble. -/
noncomputable def ensMean {S c : ℕ} (s : Fin S → Fin c → ℝ) (j : Fin c) : ℝ := (∑ i, s i j) / S

/-- The second central moment of an ensemble divided by `S - ddof`. -/
noncomputable def ensCov {S c : ℕ} (s : Fin S → Fin c → ℝ) (ddof : ℝ) : Matrix (Fin c) (Fin c) ℝ :=
  Matrix.of fun j k => (∑ i, (s i j - ensMean s j) * (s i k - ensMean s k)) / (S - ddof)

/-- The mean of the softmax probabilities of an ensemble. -/
noncomputable def ensSoftmax {S c : ℕ} (s : Fin S → Fin c → ℝ) (k : Fin c) : ℝ := (∑ i, softmaxOf (s i) k) / S

/-- An array of shape `sh` with the given entries. -/
def arrOf {c : ℕ} (sh : List ℕ) (y : Fin c → ℝ) : Arr ℝ := ⟨sh, List.ofFn y⟩

/-- The ensemble as one array of shape `(S, *sh)`. -/
def ensArr {S c : ℕ} (sh : List ℕ) (s : Fin S → Fin c → ℝ) : Arr ℝ := ⟨S :: sh, (List.ofFn fun i => List.ofFn (s i)).flatten⟩

/-- What each key of the linearised predictive must hold: mean `f`, covariance `V` (for a scalar output a length-1 array), its
diagonal and the root of the diagonal, the samples, the averaged softmax of the samples, and a special predictive. -/
noncomputable def linExpected {S c : ℕ} (sh : List ℕ) (f : Fin c → ℝ) (V : Matrix (Fin c) (Fin c) ℝ) (s : Fin S → Fin c → ℝ)
    (special : Fin c → ℝ) (key : String) : Option (Arr ℝ) :=
  if key = "map" then some (arrOf sh f)
  else if key = "pred_mean" then some (arrOf sh f)
  else if key = "pred_cov" then
    if sh = [] then some ⟨[1], List.ofFn fun i => V i i⟩ else if sh.length = 1 then some (denseArr V) else none
  else if key = "pred_var" then some (arrOf sh fun i => V i i)
  else if key = "pred_std" then some (arrOf sh fun i => Real.sqrt (V i i))
  else if key = "samples" then some (ensArr sh s)
  else if key = "mc_pred_act" then some (arrOf sh (ensSoftmax s))
  else if key = "special_pred_act" then some (arrOf sh special)
  else none

/-- The functions of the sampled predictive whose values depend on the order of requests. -/
inductive StatReq where
  | cov | var | std | other
  deriving DecidableEq, Repr

/-- What has been requested so far: whether the covariance was, and with which `ddof` variance and standard deviation were last
computed. -/
structure Ddofs where
  cov : Bool := false
  var : Option ℝ := none
  std : Option ℝ := none

/-- The variance uses `ddof = 1` if the covariance was requested before, `ddof = 0` otherwise; the standard deviation follows the
last variance and uses `ddof = 0` without one. -/
noncomputable def Ddofs.next (d : Ddofs) : StatReq → Ddofs
  | .cov => { d with cov := true }
  | .var => { d with var := some (if d.cov then 1 else 0) }
  | .std => { d with std := some (d.var.getD 0) }
  | .other => d

/-- The covariance matrix as returned: 0-D for a single output entry. -/
noncomputable def covArrOf {c : ℕ} (V : Matrix (Fin c) (Fin c) ℝ) : Arr ℝ :=
  if c = 1 then ⟨[], List.ofFn fun j => V j j⟩ else denseArr V

/-- The first `m` members of an ensemble. -/
def ensTake {S c : ℕ} (m : ℕ) (s : Fin S → Fin c → ℝ) : Fin (min m S) → Fin c → ℝ := fun i => s ⟨i.val, by omega⟩

end Laplax.Spec
