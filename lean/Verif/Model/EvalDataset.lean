import Verif.Model.ApiCalibration

/-! # Model of `evaluate_on_dataset` (`laplax/eval/utils.py:56-90`) -/

namespace Laplax

/-- eval/utils.py:82-83 `evaluate_data_point`: `{**pred_fn(dp["input"]), "target": dp["target"]}`. -/
def evaluateDataPoint {X : Type} (predFn : X → Except Err (Dict (Arr ℝ))) (dp : X × Arr ℝ) : Except Err (Dict (Arr ℝ)) := do
  let r ← predFn dp.1
  return r.set "target" dp.2

/-- eval/utils.py:87-89: `kwargs.get("evaluate_on_dataset_batch_size", kwargs.get("data_batch_size"))`.  `own = none`: the
keyword is absent; `own = some none`: it is given as `None`. -/
def evalBatchSize (own : Option (Option Nat)) (dataBatchSize : Option Nat) : Option Nat :=
  match own with
  | some b => b
  | none => dataBatchSize

/-- eval/utils.py:56-90 `evaluate_on_dataset` on a non-empty data set.  Entries of the data other than input and target are
never read; the dictionary's key order (sorted by JAX) is not modelled. -/
def evaluateOnDataset {X : Type} (predFn : X → Except Err (Dict (Arr ℝ))) (data : List (X × Arr ℝ))
    (own : Option (Option Nat)) (dataBatchSize : Option Nat) : Except Err (Dict (Arr ℝ)) := do
  let rs ← laxMap (evalBatchSize own dataBatchSize) (evaluateDataPoint predFn) data
  stackDicts rs

end Laplax
