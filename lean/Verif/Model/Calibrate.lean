import Verif.Model.Base
import Mathlib.Order.BoundedOrder.Basic
import Mathlib.Order.Defs.LinearOrder
import Mathlib.Analysis.SpecialFunctions.Pow.Real

/-! # Model of `laplax/eval/calibrate.py` -/

namespace Laplax

/-- What one call `objective({"prior_prec": p})` does (eval/calibrate.py:99-107): it returns a number of an ordered type with a
largest element (`float`, `⊤ = inf`), returns NaN, returns an array with several entries, or raises. -/
inductive ObjRes (R : Type) where
  | num (r : R)
  | nan
  | array
  | raises (e : Err)

/-- eval/calibrate.py:99-107: `ValueError` and NaN count as `inf`, every other exception propagates.  For an array with several
entries `if jnp.isnan(result)` (line 105, outside the `try`) raises `ValueError`. -/
def evalObjective {R : Type} [Top R] : ObjRes R → Except Err R
  | .num r => .ok r
  | .nan => .ok ⊤
  | .array => .error .valueError
  | .raises .valueError => .ok ⊤
  | .raises e => .error e

/-- eval/calibrate.py:97-136, the `for` loop: `it` is `iteration`, `cnt` is `increasing_count`, `prev` is `previous_result`;
`results`/`precs` are the two python lists.  Logging and timing are dropped. -/
def gridLoop {P R : Type} [LinearOrder R] [Top R] (obj : P → ObjRes R) (patience maxIter : Option Int) :
    Nat → Nat → Option R → List R → List P → List P → Except Err (List R × List P)
  | _, _, _, results, precs, [] => .ok (results, precs)
  | it, cnt, prev, results, precs, x :: xs => do
    let r ← evalObjective (obj x)
    let results := results ++ [r]
    let precs := precs ++ [x]
    match patience, prev with
    | some p, some q =>
      let cnt := if q < r then cnt + 1 else 0
      if p ≤ (cnt : Int) then .ok (results, precs)
      else
        match maxIter with
        | some m => if m ≤ (it : Int) then .ok (results, precs)
                    else gridLoop obj patience maxIter (it + 1) cnt (some r) results precs xs
        | none => gridLoop obj patience maxIter (it + 1) cnt (some r) results precs xs
    | _, _ =>
      match maxIter with
      | some m => if m ≤ (it : Int) then .ok (results, precs)
                  else gridLoop obj patience maxIter (it + 1) cnt (some r) results precs xs
      | none => gridLoop obj patience maxIter (it + 1) cnt (some r) results precs xs

/-- `np.nanargmin` (used at eval/calibrate.py:138) on a list without NaN: index of the first minimum; `ValueError` on an empty
list. -/
def nanargmin {R : Type} [LinearOrder R] : List R → Except Err Nat
  | [] => .error .valueError
  | x :: xs => .ok (go x 0 1 xs)
where
  go : R → Nat → Nat → List R → Nat
    | _, bi, _, [] => bi
    | b, bi, i, y :: ys => if y < b then go y i (i + 1) ys else go b bi (i + 1) ys

/-- eval/calibrate.py:69-141 `grid_search`.  The second component is the list `prior_precs` of candidates on which the
objective was called, in call order (an observable side effect). -/
def gridSearch {P R : Type} [LinearOrder R] [Top R] (interval : List P) (obj : P → ObjRes R) (patience maxIter : Option Int) :
    Except Err (P × List P) := do
  let (results, precs) ← gridLoop obj patience maxIter 0 0 none [] [] interval
  let i ← nanargmin results
  match precs[i]? with
  | some p => .ok (p, precs)
  | none => .error .indexError

/-- `jnp.logspace(start, stop, num)` (eval/calibrate.py:170-174), base 10, end point included, over ℝ. -/
noncomputable def jnpLogspace (start stop : ℝ) (num : Nat) : List ℝ :=
  (List.range num).map (fun (i : Nat) => (10 : ℝ) ^ (start + (i : ℝ) * ((stop - start) / ((num : ℝ) - 1))))

/-- eval/calibrate.py:144-181 `optimize_prior_prec`. -/
noncomputable def optimizePriorPrec {R : Type} [LinearOrder R] [Top R] (obj : ℝ → ObjRes R) (lo hi : ℝ) (gridSize : Nat)
    (patience maxIter : Option Int) : Except Err (ℝ × List ℝ) :=
  gridSearch (jnpLogspace lo hi gridSize) obj patience maxIter

end Laplax
