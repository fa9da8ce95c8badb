import Verif.Model.Base

/-! # Model of `laplax/register.py` and the dispatch tables of `curv/cov.py`, `eval/likelihood.py` -/

namespace Laplax

/-- The six module-level dispatch dictionaries.  (curv/cov.py:51-86, eval/likelihood.py, assigned at register.py:132-147) -/
inductive Slot where
  | create       -- cov.py:51 CURVATURE_METHODS
  | precision    -- cov.py:60 CURVATURE_PRECISION_METHODS
  | posterior    -- cov.py:67 CURVATURE_TO_POSTERIOR_STATE
  | scale        -- cov.py:74 CURVATURE_STATE_TO_SCALE
  | cov          -- cov.py:81 CURVATURE_STATE_TO_COV
  | mll          -- likelihood.py:251 CURVATURE_MARGINAL_LOG_LIKELIHOOD
  deriving DecidableEq, Repr

/-- Order of the assignments in register.py:132-147. -/
def Slot.order : List Slot := [.create, .precision, .posterior, .scale, .cov, .mll]

/-- State of the six dictionaries.  Keys are strings: `CurvApprox` is a `StrEnum`, so its members hash and compare like
their values. `F` is the type of registered functions.  (curv/cov.py:51-86) -/
def Tables (F : Type) := Slot → String → Option F

/-- `d[name] = f` on one of the dictionaries.  (register.py:132-147) -/
def Tables.set {F : Type} (t : Tables F) (s : Slot) (name : String) (f : F) : Tables F :=
  fun s' n => if s' = s ∧ n = name then some f else t s' n

/-- One call of `register_curvature_method` (register.py:50-66). -/
structure RegCall (F : Type) where
  name : String
  fns : Slot → Option F
  default : Option String

/-- `fn or TABLE[default]` (register.py:132-147): `KeyError` if the default is not in the table.  A missing function
together with `default is None` cannot reach this point (checked before), `TABLE[None]` would be a `KeyError`. -/
def slotValue {F : Type} (t : Tables F) (c : RegCall F) (s : Slot) : Except Err F :=
  match c.fns s with
  | some f => .ok f
  | none =>
    match c.default with
    | none => .error .keyError
    | some d => match t s d with
      | some f => .ok f
      | none => .error .keyError

/-- The assignments register.py:132-147, in order; an exception leaves the assignments made before it. -/
def assignSlots {F : Type} (c : RegCall F) : List Slot → Tables F → Except Err Unit × Tables F
  | [], t => (.ok (), t)
  | s :: ss, t =>
    match slotValue t c s with
    | .error e => (.error e, t)
    | .ok f => assignSlots c ss (t.set s c.name f)

/-- register.py:50-147 `register_curvature_method`: outcome and the tables afterwards. -/
def registerCurvatureMethod {F : Type} (c : RegCall F) (t : Tables F) : Except Err Unit × Tables F :=
  if c.default = none ∧ ¬ Slot.order.all (fun s => (c.fns s).isSome) then (.error .valueError, t)   -- 95-130
  else assignSlots c Slot.order t

/-- A history of calls; the caller may catch exceptions and continue.  (register.py:50-147) -/
def runRegistrations {F : Type} : List (RegCall F) → Tables F → Tables F
  | [], t => t
  | c :: cs, t => runRegistrations cs (registerCurvatureMethod c t).2

/-- cov.py:51-86 and likelihood.py:251-256: the initial tables, for any built-in functions `b`. -/
def initialTables {F : Type} (b : Slot → String → F) : Tables F :=
  fun s n => if n = "full" ∨ n = "diagonal" ∨ n = "lanczos" ∨ n = "lobpcg" then some (b s n) else none

/-- register.py:27-42 `register_calibration_method` on the dictionary `calibration_options` (api.py:221-231). -/
def registerCalibrationMethod {F : Type} (name : String) (f : F) (t : String → Option F) : String → Option F :=
  fun n => if n = name then some f else t n

end Laplax
