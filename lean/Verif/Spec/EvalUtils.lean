import Verif.Model.EvalUtils

/-! # Specification vocabulary for metric evaluation -/

namespace Laplax.Spec
open Laplax

variable {V : Type}

/-- The metrics that have to be evaluated: the caller's list, then the dictionary's functions stored under their names. -/
def metricsUsed (metrics : Option (List (StepFn V))) (md : Option (List (KwFn V × String))) : List (StepFn V) :=
  metrics.getD [] ++ (match md with
    | some d => [applyFns d (some (d.map Prod.snd)) "results" []]
    | none => [])

end Laplax.Spec
