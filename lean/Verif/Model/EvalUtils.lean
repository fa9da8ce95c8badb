import Verif.Model.Base

/-! # Model of `laplax/eval/utils.py`

Python dictionaries with string keys are association lists in insertion order. -/

namespace Laplax

/-- A python `dict` with string keys (insertion order, unique keys maintained by `set`). -/
abbrev Dict (V : Type) := List (String × V)

namespace Dict
/-- `d[k]` / `d.get(k)`  (python `dict`, used throughout eval/utils.py:28-367) -/
def get? {V : Type} : Dict V → String → Option V
  | [], _ => none
  | (k', v) :: d, k => if k' = k then some v else get? d k
/-- `d[k] = v`: replaces in place or appends.  (python `dict`, used in eval/utils.py:151-168, 213-216) -/
def set {V : Type} : Dict V → String → V → Dict V
  | [], k, v => [(k, v)]
  | (k', v') :: d, k, v => if k' = k then (k', v) :: d else (k', v') :: set d k v
/-- `k in d`  (python `dict`) -/
def mem {V : Type} (d : Dict V) (k : String) : Bool := (d.get? k).isSome
/-- Python `dict.keys()`, eval/utils.py:283, 355. -/
def keys {V : Type} (d : Dict V) : List String := d.map Prod.fst
/-- `d[k]` raising `KeyError`.  (python `dict`) -/
def getE {V : Type} (d : Dict V) (k : String) : Except Err V :=
  match d.get? k with
  | some v => .ok v
  | none => .error .keyError
end Dict

/-- A callable taking keyword arguments only.  (the metric callables of eval/utils.py:221-367) -/
abbrev KwFn (V : Type) := Dict V → Except Err V

/-- `func(**a, **b)`: `TypeError` for a keyword given twice.  (python keyword calls, eval/utils.py:274-283) -/
def callKw {V : Type} (f : KwFn V) (a b : Dict V) : Except Err V :=
  if b.keys.any (fun k => a.mem k) then .error .typeError else f (a ++ b)

/-- A metric / pushforward step `func(results=…, aux=…, **kwargs) -> (results, aux)`.
(the callables of eval/utils.py:28-53, 129-170) -/
abbrev StepFn (V : Type) := Dict V → Dict V → Dict V → Except Err (Dict V × Dict V)

/-- eval/utils.py:51-53, the loop of `finalize_fns`; generic in the types of `results`, `aux` and the keyword arguments
(dictionaries here, see `StepFn`; the pushforward model uses records for `aux` and the keyword arguments). -/
def finalizeLoop {R A K : Type} (kwargs : K) : List (R → A → K → Except Err (R × A)) → R → A → Except Err (R × A)
  | [], r, a => .ok (r, a)
  | f :: fs, r, a => do
    let (r', a') ← f r a kwargs
    finalizeLoop kwargs fs r' a'

/-- eval/utils.py:28-53 `finalize_fns` (returns `results`). -/
def finalizeFns {R A K : Type} (fns : List (R → A → K → Except Err (R × A))) (results : R) (aux : A) (kwargs : K) :
    Except Err R := do
  let (r, _) ← finalizeLoop kwargs fns results aux
  return r

/-- eval/utils.py:131-140: the keyword arguments looked up in results, then aux; `ValueError` if in neither. -/
def lookupPairs {V : Type} (results aux : Dict V) : List (String × String) → Dict V → Except Err (Dict V)
  | [], acc => .ok acc
  | (k, v) :: rest, acc =>
    match results.get? v with
    | some x => lookupPairs results aux rest (acc.set k x)
    | none =>
      match aux.get? v with
      | some x => lookupPairs results aux rest (acc.set k x)
      | none => .error .valueError

/-- eval/utils.py:159-168.  `pairs = none` means `key_value_pairs` *is* the `aux` dictionary object (line 143), so
entries stored into aux are visible to the following functions. -/
def applyLoop {V : Type} (field : String) (localKw : Dict V) (pairs : Option (Dict V)) :
    List (KwFn V × String) → Dict V → Dict V → Except Err (Dict V × Dict V)
  | [], r, a => .ok (r, a)
  | (f, name) :: rest, r, a => do
    let res ← callKw f (pairs.getD a) localKw
    if field = "results" then applyLoop field localKw pairs rest (r.set name res) a
    else if field = "aux" then applyLoop field localKw pairs rest r (a.set name res)
    else .error .valueError

/-- eval/utils.py:131-143: `key_value_pairs`; `none` = the aux dictionary itself (no keyword mapping given). -/
def resolvePairs {V : Type} (results aux : Dict V) (mapping : List (String × String)) : Except Err (Option (Dict V)) :=
  match mapping with
  | [] => .ok none
  | m :: ms => match lookupPairs results aux (m :: ms) [] with
    | .ok p => .ok (some p)
    | .error e => .error e

/-- eval/utils.py:146-156: `func_names`. -/
def resolveNames {V : Type} (funcs : List (KwFn V × String)) (names : Option (List String)) : Except Err (List String) :=
  match names with
  | none => .ok (funcs.map Prod.snd)
  | some ns => if ns.length ≠ funcs.length then .error .valueError else .ok ns

/-- eval/utils.py:93-172 `apply_fns(*funcs, names=names, field=field, **kwargs)`, the returned `apply`.  `funcs` carry
their `__name__`; `names = none` uses those. (Non-callable arguments are rejected at construction, line 124-127: they are
unrepresentable here.) -/
def applyFns {V : Type} (funcs : List (KwFn V × String)) (names : Option (List String)) (field : String)
    (mapping : List (String × String)) : StepFn V := fun results aux localKw => do
  let pairs ← resolvePairs results aux mapping
  let fnames ← resolveNames funcs names
  applyLoop field localKw pairs ((funcs.map Prod.fst).zip fnames) results aux

/-- eval/utils.py:214-215 with distinct destination and source dictionaries or the same one. -/
def transferLoop {V : Type} (field accessFrom : String) : List (String × String) → Dict V → Dict V → Except Err (Dict V × Dict V)
  | [], r, a => .ok (r, a)
  | (k, v) :: rest, r, a => do
    let x ← (if accessFrom = "results" then r else a).getE v
    if field = "results" then transferLoop field accessFrom rest (r.set k x) a
    else transferLoop field accessFrom rest r (a.set k x)

/-- eval/utils.py:175-218 `transfer_entry` (mapping already a dict; a list of keys becomes the diagonal mapping, line
201-202). -/
def transferEntry {V : Type} (mapping : List (String × String)) (field accessFrom : String) : Except Err (StepFn V) :=
  if ¬ (field = "results" ∨ field = "aux") ∨ ¬ (accessFrom = "results" ∨ accessFrom = "aux") then .error .valueError
  else .ok (fun results aux _ => transferLoop field accessFrom mapping results aux)

/-- eval/utils.py:258-272 / 328-342: the metric list used, and the caller's list object after the call
(`metrics.extend` mutates it). -/
def initMetrics {V : Type} (metrics : Option (List (StepFn V))) (metricsDict : Option (List (KwFn V × String))) :
    Except Err (List (StepFn V) × Option (List (StepFn V))) :=
  let fromDict := match metricsDict with
    | some d => [applyFns d (some (d.map Prod.snd)) "results" []]
    | none => []
  match metrics, metricsDict with
  | none, none => .error .valueError
  | none, some _ => .ok (fromDict, none)
  | some ms, some _ => .ok (ms ++ fromDict, some (ms ++ fromDict))
  | some ms, none => .ok (ms, some ms)

/-- eval/utils.py:274-276: `evaluate_data_point`; `predFn` gets the data point's input, the target is stored under
`"target"`. -/
def evaluatePoint {X V : Type} (predFn : X → Except Err (Dict V)) (metrics : List (StepFn V)) (kwargs : Dict V) (dp : X × V) :
    Except Err (Dict V) := do
  let p ← predFn dp.1
  finalizeFns metrics [] (p.set "target" dp.2) kwargs

/-- `{m: reduce([r[m] for r in results]) for m in results[0]}` (eval/utils.py:286, 361-367). -/
def reduceMetrics {V W : Type} (reduce : List V → Except Err W) (results : List (Dict V)) : List String → Except Err (Dict W)
  | [] => .ok []
  | m :: ms => do
    let vs ← mapE (fun r => r.getE m) results
    let w ← reduce vs
    let rest ← reduceMetrics reduce results ms
    return (m, w) :: rest

/-- eval/utils.py:221-286 `evaluate_metrics_on_dataset` on a non-empty data set (`lax.map` = one result per data point,
stacked per metric).  Second component: the caller's metric list afterwards. -/
def evaluateMetricsOnDataset {X V W : Type} (predFn : X → Except Err (Dict V)) (data : List (X × V))
    (metrics : Option (List (StepFn V))) (metricsDict : Option (List (KwFn V × String))) (reduce : List V → Except Err W)
    (kwargs : Dict V) : Except Err (Dict W) × Option (List (StepFn V)) :=
  match initMetrics metrics metricsDict with
  | .error e => (.error e, metrics)
  | .ok (ms, after) =>
    (do
      let rs ← mapE (evaluatePoint predFn ms kwargs) data
      match rs with
      | [] => .error .unmodelled
      | r :: _ => reduceMetrics reduce rs r.keys, after)

/-- eval/utils.py:289-367 `evaluate_metrics_on_generator`.  One `evaluate_data` result per generated item (batched
evaluation under `vmap` is one call on the batch); `transform` includes the look-ups `dp["input"]`, `dp["target"]`. -/
def evaluateMetricsOnGenerator {D X V W : Type} (predFn : X → Except Err (Dict V)) (generator : List D) (transform : D → Except Err (X × V))
    (metrics : Option (List (StepFn V))) (metricsDict : Option (List (KwFn V × String))) (reduce : List V → Except Err W)
    (kwargs : Dict V) : Except Err (Dict W) × Option (List (StepFn V)) :=
  match initMetrics metrics metricsDict with
  | .error e => (.error e, metrics)
  | .ok (ms, after) =>
    (do
      let rs ← mapE (fun d => do evaluatePoint predFn ms kwargs (← transform d)) generator
      match rs with
      | [] => .ok []
      | r :: _ => reduceMetrics reduce rs r.keys, after)

end Laplax
