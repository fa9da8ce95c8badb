import Verif.Spec.DocumentedErrors
import Verif.Props.Api
import Verif.Props.ApiCalibration
import Verif.Props.ApiEvaluation
import Verif.Props.EvalUtils
import Verif.Props.Ggn
import Verif.Props.GpKernel
import Verif.Props.Loader
import Verif.Props.LowRank
import Verif.Props.LowRankDrivers
import Verif.Props.Mv
import Verif.Props.Register
import Verif.Props.TreeStats

/-! # Property C65: every documented exception is raised, with its class, exactly in the documented situation -/

namespace Laplax.Props
open Laplax Laplax.Spec
open scoped BigOperators

/-! ## Curvature products -/

section Curvature
variable {p c B : ℕ} {X Y : Type}

/-- **C65 (`create_loss_hessian_mv`).** Raises exactly for `None`, an unknown name or an object that is no callable, and then
`ValueError`. -/
theorem C65_loss_hessian {n : ℕ} {Y : Type} (l : LossArg n Y) (e : Err) :
    createLossHessianMv l = .error e ↔ e = .valueError ∧ ¬ SupportedLoss l := by
  cases l with
  | none => simp [createLossHessianMv, SupportedLoss, eq_comm]
  | callable ℓ => simp [createLossHessianMv, SupportedLoss]
  | other => simp [createLossHessianMv, SupportedLoss, eq_comm]
  | name s =>
    simp only [createLossHessianMv, SupportedLoss]
    by_cases h1 : s = "binary_cross_entropy"
    · simp [h1]
    · by_cases h2 : s = "cross_entropy"
      · simp [h2]
      · by_cases h3 : s = "mse"
        · simp [h3]
        · by_cases h4 : s = "none"
          · simp [h4]
          · simp [h1, h2, h3, h4, eq_comm]

/-- **C65 (`create_ggn_mv`).** Raises exactly when both or neither of `loss_fn` and `loss_hessian_mv` are given (`ValueError`),
when the number of curvature samples is zero (`ZeroDivisionError`; undocumented) or when the loss is unsupported
(`ValueError`). -/
theorem C65_create_ggn_mv (model : X → Vec p → Vec c) (θ : Vec p) (data : Fin B → X × Y) (l : LossArg c Y)
    (numCurv numTotal : Option ℕ) (H : Option (Vec c → Vec c → Y → Vec c)) (e : Err) :
    createGgnMv model θ data l numCurv numTotal H = .error e ↔
      ((l = .none ↔ H = none) ∧ e = .valueError) ∨
      (¬ (l = .none ↔ H = none) ∧ numCurv.getD B = 0 ∧ e = .zeroDivisionError) ∨
      (l ≠ .none ∧ H = none ∧ numCurv.getD B ≠ 0 ∧ ¬ SupportedLoss l ∧ e = .valueError) := by
  have hs : ∀ f : ℝ, curvScalingFactor B numCurv numTotal = .ok f → numCurv.getD B ≠ 0 := by
    intro f hf h0
    simp [curvScalingFactor, h0] at hf
  by_cases h0 : numCurv.getD B = 0
  · have hf : curvScalingFactor B numCurv numTotal = .error .zeroDivisionError := by simp [curvScalingFactor, h0]
    cases l <;> cases H <;> simp [createGgnMv, hf, h0, error_bind, eq_comm]
  · obtain ⟨f, hf⟩ : ∃ f, curvScalingFactor B numCurv numTotal = .ok f := by simp [curvScalingFactor, h0]
    have hw : ∀ l' : LossArg c Y, (do
        let mv ← createGgnMvWithoutData (B := B) model θ l' f none
        return fun vec => mv vec data : Except Err (Vec p → Vec p)) = .error e ↔ createLossHessianMv l' = .error e := by
      intro l'
      simp only [createGgnMvWithoutData]
      cases createLossHessianMv l' with
      | ok h => simp only [ok_bind]; constructor <;> intro h <;> cases h
      | error e' => simp only [error_bind]; constructor <;> (intro h; cases h; rfl)
    cases l with
    | none =>
      cases H with
      | none => simp [createGgnMv, h0, eq_comm]
      | some H =>
        simp only [createGgnMv, hf, ok_bind, createGgnMvWithoutData]
        constructor
        · intro h; cases h
        · simp [h0]
    | name s =>
      cases H with
      | some H => simp [createGgnMv, h0, eq_comm]
      | none => simp only [createGgnMv, hf, ok_bind, hw, C65_loss_hessian]; simp [h0, and_comm]
    | callable s =>
      cases H with
      | some H => simp [createGgnMv, h0, eq_comm]
      | none => simp only [createGgnMv, hf, ok_bind, hw, C65_loss_hessian]; simp [h0, and_comm]
    | other =>
      cases H with
      | some H => simp [createGgnMv, h0, eq_comm]
      | none => simp only [createGgnMv, hf, ok_bind, hw, C65_loss_hessian]; simp [h0, and_comm]

/-- **C65 (`concatenate_model_and_loss_fn`, `create_hessian_mv`).** The combined function is refused, with `ValueError`, exactly
for a name other than the two supported ones and for an object that is no callable; the Hessian product additionally refuses
zero curvature samples (`ZeroDivisionError`), checked first. -/
theorem C65_hessian (model : X → Vec p → Vec c) (θ : Vec p) (data : Fin B → X × Vec c) (l : HessLossArg B c)
    (numCurv numTotal : Option ℕ) (e : Err) :
    (concatenateModelAndLossFn (X := X) model l = .error e ↔
      e = .valueError ∧ ((∃ s, l = .name s ∧ s ≠ "mse" ∧ s ≠ "cross_entropy") ∨ l = .other)) ∧
    (createHessianMv model θ data l numCurv numTotal = .error e ↔
      (numCurv.getD B = 0 ∧ e = .zeroDivisionError) ∨
      (numCurv.getD B ≠ 0 ∧ e = .valueError ∧ ((∃ s, l = .name s ∧ s ≠ "mse" ∧ s ≠ "cross_entropy") ∨ l = .other))) := by
  have hc : ∀ e, concatenateModelAndLossFn (X := X) model l = .error e ↔
      e = .valueError ∧ ((∃ s, l = .name s ∧ s ≠ "mse" ∧ s ≠ "cross_entropy") ∨ l = .other) := by
    intro e
    cases l with
    | callable ℓ => simp [concatenateModelAndLossFn]
    | other => simp [concatenateModelAndLossFn, eq_comm]
    | name s =>
      simp only [concatenateModelAndLossFn]
      by_cases h1 : s = "mse"
      · simp [h1]
      · by_cases h2 : s = "cross_entropy"
        · simp [h2]
        · simp [h1, h2, eq_comm]
  refine ⟨hc e, ?_⟩
  by_cases h0 : numCurv.getD B = 0
  · simp [createHessianMv, curvScalingFactor, h0, error_bind, eq_comm]
  · obtain ⟨f, hf⟩ : ∃ f, curvScalingFactor B numCurv numTotal = .ok f := by simp [curvScalingFactor, h0]
    have : createHessianMv model θ data l numCurv numTotal = .error e ↔
        concatenateModelAndLossFn (X := X) model l = .error e := by
      simp only [createHessianMv, hf, ok_bind]
      cases concatenateModelAndLossFn (X := X) model l with
      | ok g => simp only [ok_bind]; constructor <;> intro h <;> cases h
      | error e' => simp only [error_bind]; constructor <;> (intro h; cases h; rfl)
    rw [this, hc]; simp [h0]

end Curvature

/-! ## Products, layouts and loaders -/

/-- **C65 (layouts).** A callable product without a layout is refused with `TypeError` by `diagonal`, by `get_matvec`, and by both
low-rank drivers whatever the other arguments; `get_matvec` refuses nothing else except a 0-dimensional array (`IndexError`). -/
theorem C65_layout_required (mv : PyTree ℝ → Except Err (PyTree ℝ)) (batch : Option ℕ) :
    diagonal (.callable mv) .none batch = .error .typeError ∧
    (∀ (op : LowRankOp) (layout : Layout ℝ) (e : Err), getMatvecOp op layout = .error e ↔
      ((∃ f, op = .callable f) ∧ layout = .none ∧ e = .typeError) ∨
      (∃ a : Arr ℝ, op = .array a ∧ a.shape = [] ∧ e = .indexError)) ∧
    (∀ {F Key Vec Iter Eig Res : Type} (c : LanczosCalls Key Vec Iter Eig Res) (a : LanczosArgs F ℝ Key Vec) (f : F)
      (flag : Bool), a.op = .callable f → a.layout = .none → (lanczosLowrank c a flag).1 = .error .typeError) := by
  refine ⟨rfl, ?_, ?_⟩
  · intro op layout e
    cases op with
    | callable f => cases layout <;> simp [getMatvecOp, getMatvec, eq_comm]
    | array a =>
      cases hs : a.shape with
      | nil => simp [getMatvecOp, hs, eq_comm]
      | cons d ds => simp [getMatvecOp, hs]
  · intro F Key Vec Iter Eig Res c a f flag ho hl
    simp only [lanczosLowrank, ho, hl, getMatvecSize]
    rfl

/-- **C65 (`lanczos_lowrank` start vector).** With an operator whose size can be read, a call with neither a key nor a start vector
raises `ValueError`, whatever the numerical calls would do. -/
theorem C65_lanczos_needs_key {F α Key Vec Iter Eig Res : Type} (c : LanczosCalls Key Vec Iter Eig Res)
    (a : LanczosArgs F α Key Vec) (flag : Bool) (n : ℕ) (hn : getMatvecSize a.op a.layout = .ok n)
    (hk : a.key = none) (hb : a.b = none) : (lanczosLowrank c a flag).1 = .error .valueError := by
  have e1 : X64M.call (fun _ => getMatvecSize a.op a.layout) = (X64M.pure n : X64M ℕ) := by
    rw [hn]; rfl
  have e2 : startVector c a n = X64M.throw .valueError := by simp only [startVector, hk, hb]
  simp only [lanczosLowrank]
  show (X64M.bind X64M.read _ flag).1 = _
  simp only [X64M.bind, X64M.read]
  show (X64M.bind (X64M.update _) _ flag).1 = _
  simp only [X64M.bind, X64M.update]
  show (X64M.bind (X64M.call _) _ _).1 = _
  simp only [e1]
  show (X64M.bind (startVector c a n) _ _).1 = _
  rw [e2]; rfl

/-- **C65 (`process_batches`).** With a per-batch function and a reduction that do not raise, the call raises exactly on an empty
loader, and then `ValueError`. -/
theorem C65_process_batches {B R S : Type} (f : B → Except Err R) (reduce : R → Option S → Except Err (R × S))
    (hf : ∀ b, ∃ r, f b = .ok r) (hr : ∀ r s, ∃ q, reduce r s = .ok q) (bs : List B) (e : Err) :
    processBatches f reduce bs = .error e ↔ bs = [] ∧ e = .valueError := by
  have key : ∀ (bs : List B) (acc : Option (R × S)), ∃ acc', processLoop f reduce acc bs = .ok acc' ∧
      (acc' = none → bs = [] ∧ acc = none) := by
    intro bs
    induction bs with
    | nil => intro acc; exact ⟨acc, rfl, fun h => ⟨rfl, h⟩⟩
    | cons b bs ih =>
      intro acc
      obtain ⟨r, h1⟩ := hf b
      obtain ⟨q, h2⟩ := hr r (acc.map Prod.snd)
      obtain ⟨acc', h3, h4⟩ := ih (some q)
      refine ⟨acc', ?_, fun h => absurd (h4 h).2 (by simp)⟩
      simp only [processLoop, h1, ok_bind, h2, h3]
  cases bs with
  | nil =>
    have : processBatches f reduce [] = .error .valueError := rfl
    rw [this]; simp [eq_comm]
  | cons b bs =>
    obtain ⟨acc', h1, h2⟩ := key (b :: bs) none
    simp only [processBatches, h1, ok_bind]
    cases acc' with
    | none => exact absurd (h2 rfl).1 (by simp)
    | some q =>
      constructor
      · intro h; cases h
      · intro h; exact absurd h.1 (by simp)

/-- Non-vacuity: a loader of two batches is processed, the empty one refused. -/
example : processBatches (fun b : ℕ => .ok b) (fun r (s : Option ℕ) => .ok (r + s.getD 0, r + s.getD 0)) [1, 2] = .ok 3 ∧
    processBatches (fun b : ℕ => .ok b) (fun r (s : Option ℕ) => .ok (r + s.getD 0, r + s.getD 0)) [] = .error .valueError :=
  ⟨rfl, rfl⟩

/-- **C65 (reductions and products of scalars).** Summing over the batch axis an array that has none, and a product with an array
that has no axis, raise `ValueError`; arrays with an axis do not raise it in the first case. -/
theorem C65_array_operations (keepdims : Bool) (a : Arr ℝ) (st : Option (Arr ℝ)) (v : List ℝ) (t : PyTree ℝ) (e : Err) :
    (a.sumAxis0 keepdims = .error e ↔ a.shape = [] ∧ e = .valueError) ∧
    (a.shape = [] → reduceSum keepdims a st = .error .valueError) ∧
    (a.shape = [] → treePartialmatvec (.leaf a) v = .error .valueError) := by
  refine ⟨?_, ?_, ?_⟩
  · cases hs : a.shape with
    | nil => simp [Arr.sumAxis0, hs, eq_comm]
    | cons d ds => simp [Arr.sumAxis0, hs]
  · intro hs; simp only [reduceSum, Arr.sumAxis0, hs, error_bind]
  · intro hs
    have : a.matmulVec v = .error .valueError := by simp [Arr.matmulVec, hs]
    have h2 : mapE (fun a : Arr ℝ => a.matmulVec v) (Tree.leaf a).leaves = .error .valueError := by
      simp only [Tree.leaves, mapE, this, error_bind]
    simp only [treePartialmatvec, Tree.tmap, h2, error_bind]

/-- **C65 (flat products on pytrees).** A covariance or scale product of a posterior without a pytree layout takes one flat array of
`p` entries: any other argument list is a `TypeError`. -/
theorem C65_pytree_where_array_expected {p : ℕ} (f : Vec p → Vec p) (args : List (PyTree ℝ)) (e : Err) :
    flatCallable f args = .error e ↔ e = .typeError ∧ ¬ ∃ a : Arr ℝ, args = [.leaf a] ∧ a.data.length = p := by
  match args with
  | [] => simp [flatCallable, eq_comm]
  | [.leaf a] =>
    by_cases h : a.data.length = p
    · simp only [flatCallable, asVec, h, dite_true, ok_bind]
      constructor
      · intro h; cases h
      · rintro ⟨-, h'⟩; exact absurd ⟨a, rfl, h⟩ h'
    · simp only [flatCallable, asVec, h, dite_false, error_bind]
      constructor
      · intro h'; cases h'; refine ⟨rfl, ?_⟩; rintro ⟨b, hb, hl⟩; simp at hb; exact h (hb ▸ hl)
      · rintro ⟨rfl, -⟩; rfl
  | [.node k ts] =>
    simp only [flatCallable, asVec, error_bind]
    constructor
    · intro h'; cases h'; refine ⟨rfl, ?_⟩; rintro ⟨b, hb, hl⟩; simp at hb
    · rintro ⟨rfl, -⟩; rfl
  | a :: b :: rest => simp [flatCallable, eq_comm]

/-! ## Registration, metrics plumbing -/

/-- **C65 (`register_curvature_method`).** `ValueError` exactly when there is no default and some function is missing; the tables
are then untouched. -/
theorem C65_register {F : Type} (c : RegCall F) (t : Tables F) :
    ((registerCurvatureMethod c t).1 = .error .valueError ↔ c.default = none ∧ ∃ s, c.fns s = none) ∧
    ((registerCurvatureMethod c t).1 = .error .valueError → (registerCurvatureMethod c t).2 = t) := by
  have hall : (Slot.order.all (fun s => (c.fns s).isSome) = true) ↔ ∀ s, c.fns s ≠ none := by
    simp only [Slot.order, List.all_cons, List.all_nil, Bool.and_true, Bool.and_eq_true, Option.isSome_iff_ne_none]
    constructor
    · rintro ⟨h1, h2, h3, h4, h5, h6⟩ s; cases s <;> assumption
    · intro h; exact ⟨h _, h _, h _, h _, h _, h _⟩
  have hne : ∀ (ss : List Slot) (t : Tables F), (assignSlots c ss t).1 ≠ .error .valueError := by
    intro ss
    induction ss with
    | nil => intro t; simp [assignSlots]
    | cons s ss ih =>
      intro t
      have hk : ∀ e, slotValue t c s = .error e → e = .keyError := by
        intro e he
        unfold slotValue at he
        split at he
        · cases he
        · split at he
          · cases he; rfl
          · split at he
            · cases he
            · cases he; rfl
      simp only [assignSlots]
      cases hv : slotValue t c s with
      | error e => rw [hk e hv]; simp
      | ok f => exact ih _
  by_cases h : c.default = none ∧ ¬ Slot.order.all (fun s => (c.fns s).isSome)
  · have hr : registerCurvatureMethod c t = (.error .valueError, t) := by
      simp only [registerCurvatureMethod]; exact if_pos h
    rw [hr]
    refine ⟨⟨fun _ => ⟨h.1, ?_⟩, fun _ => rfl⟩, fun _ => rfl⟩
    have := h.2; rw [hall] at this; push Not at this; exact this
  · have hr : registerCurvatureMethod c t = assignSlots c Slot.order t := by
      simp only [registerCurvatureMethod]; exact if_neg h
    rw [hr]
    refine ⟨⟨fun h' => absurd h' (hne _ _), fun h' => absurd ?_ h⟩, fun h' => absurd h' (hne _ _)⟩
    refine ⟨h'.1, fun h'' => ?_⟩
    obtain ⟨s, hs⟩ := h'.2
    exact hall.1 h'' s hs

/-- **C65 (metric plumbing).** `transfer_entry` refuses exactly the fields other than `"results"` and `"aux"`; both evaluation
loops refuse a call without any metrics; `apply_fns` refuses a wrong number of names; each with `ValueError`. -/
theorem C65_metric_plumbing {V W X D : Type} (mapping : List (String × String)) (field acc : String) (e : Err)
    (funcs : List (KwFn V × String)) (names : Option (List String)) :
    (transferEntry (V := V) mapping field acc = .error e ↔
      e = .valueError ∧ ¬ (field ∈ ["results", "aux"] ∧ acc ∈ ["results", "aux"])) ∧
    (resolveNames funcs names = .error e ↔ e = .valueError ∧ ∃ ns, names = some ns ∧ ns.length ≠ funcs.length) ∧
    (∀ (ms : Option (List (StepFn V))) (md : Option (List (KwFn V × String))),
      initMetrics ms md = .error e ↔ e = .valueError ∧ ms = none ∧ md = none) ∧
    (∀ (predFn : X → Except Err (Dict V)) (data : List (X × V)) (gen : List D) (tr : D → Except Err (X × V))
      (reduce : List V → Except Err W) (kwargs : Dict V),
      (evaluateMetricsOnDataset predFn data none none reduce kwargs).1 = .error .valueError ∧
      (evaluateMetricsOnGenerator predFn gen tr none none reduce kwargs).1 = .error .valueError) := by
  refine ⟨?_, ?_, ?_, fun _ _ _ _ _ _ => ⟨rfl, rfl⟩⟩
  · have hmem : ∀ s : String, s ∈ ["results", "aux"] ↔ s = "results" ∨ s = "aux" := by simp
    unfold transferEntry
    rw [hmem, hmem]
    by_cases h : ¬ (field = "results" ∨ field = "aux") ∨ ¬ (acc = "results" ∨ acc = "aux")
    · rw [if_pos h]
      constructor
      · intro h'; cases h'; exact ⟨rfl, by tauto⟩
      · rintro ⟨rfl, -⟩; rfl
    · rw [if_neg h]
      constructor
      · intro h'; cases h'
      · rintro ⟨-, h'⟩; exact absurd h' (by tauto)
  · cases names with
    | none => simp [resolveNames]
    | some ns => by_cases h : ns.length = funcs.length <;> simp [resolveNames, h, eq_comm]
  · intro ms md
    cases ms <;> cases md <;> simp [initMetrics, eq_comm]

/-- **C65 (Gaussian metrics).** `nll_gaussian` and `crps_gaussian` raise exactly when the three shapes are not equal, and then
`ValueError`. -/
theorem C65_gaussian_metrics (mean std target : NdArr) (scaled : Bool) (e : Err) :
    (nllGaussian mean std target scaled = .error e ↔ e = .valueError ∧ ¬ (mean.shape = std.shape ∧ std.shape = target.shape)) ∧
    (crpsGaussian mean std target scaled = .error e ↔ e = .valueError ∧ ¬ (mean.shape = std.shape ∧ std.shape = target.shape)) := by
  by_cases h : mean.shape = std.shape ∧ std.shape = target.shape
  · simp [nllGaussian, crpsGaussian, h]
  · simp [nllGaussian, crpsGaussian, h, eq_comm]

/-! ## The API -/

section Api
variable {A V W S : Type}

/-- **C65 (batches).** An object is accepted as a batch exactly if it is a pair or a mapping with both keys (`ValueError`
otherwise), as the data of `calibration` as well. -/
theorem C65_batch_validation (rows : A → Except Err (List A)) (b : PyObj A) (e : Err) :
    (b.validateAndGetTransform rows = .error e ↔ e = .valueError ∧ ¬ IsBatch b) ∧
    (¬ IsBatch b → calibrationBatch rows b = .error .valueError) := by
  obtain ⟨h1, h2⟩ := validate_ok_iff rows b
  refine ⟨⟨fun h => ?_, fun h => ?_⟩, fun h => ?_⟩
  · by_cases hb : IsBatch b
    · obtain ⟨tr, ht⟩ := h1 hb; rw [ht] at h; cases h
    · rw [h2 hb] at h; cases h; exact ⟨rfl, hb⟩
  · rw [h.1]; exact h2 h.2
  · simp only [calibrationBatch, h2 h, error_bind]

/-- **C65 (loaders with an explicit transform).** With a user-given transform the data is not validated: an object that cannot be
iterated, a batch that is no mapping after the transform, and a batch without integer indices under the pair transform raise
`TypeError`. -/
theorem C65_unvalidated_data (rows : A → Except Err (List A)) (mv : V → PyObj A → PyObj A → Except Err W)
    (reduce : W → Option S → Except Err (W × S)) (sm : W → Except Err Bool) (params : V)
    (tr : PyObj A → Except Err (PyObj A)) :
    ggnApi rows mv reduce sm params .other (some tr) = .error .typeError ∧
    (∀ (b d : PyObj A) (bs : List (PyObj A)), tr b = .ok d → (∀ kvs, d ≠ .dct kvs) →
      ggnApi rows mv reduce sm params (.lst (b :: bs)) (some tr) = .error .typeError) ∧
    (∀ (bs : List (PyObj A)), ggnApi rows mv reduce sm params (.lst (.other :: bs)) (some (PyObj.inputTargetSplit rows))
      = .error .typeError) := by
  refine ⟨rfl, ?_, fun bs => rfl⟩
  intro b d bs hb hd
  have hf : PyObj.field "input" d = .error .typeError := by
    cases d with
    | dct kvs => exact absurd rfl (hd kvs)
    | _ => rfl
  have : ((Bound.stream tr).pass rows mv reduce (fun m => m params) (PyObj.lst (b :: bs))).1 = .error .typeError := by
    simp only [Bound.pass, PyObj.iterAll, ok_bind, processBatches, processLoop, hb, mvOnBatch, hf, error_bind]
  simp only [ggnApi]
  show (do let test ← ((Bound.stream tr).pass rows mv reduce (fun m => m params) (PyObj.lst (b :: bs))).1; _ : Except Err _) = _
  rw [this]; rfl

/-- **C65 (`GGN` shape test).** Once the data is accepted and the trial product computed, `GGN` raises `ValueError` exactly when the
product does not have the shapes of the parameters. -/
theorem C65_ggn_api_shape_test (rows : A → Except Err (List A)) (mv : V → PyObj A → PyObj A → Except Err W)
    (reduce : W → Option S → Except Err (W × S)) (sm : W → Except Err Bool) (params : V) (data d1 d2 : PyObj A)
    (tr : Option (PyObj A → Except Err (PyObj A))) (b : Bound A) (w : W) (same : Bool)
    (hw : maybeWrap rows data tr = .ok (b, d1)) (hp : b.pass rows mv reduce (fun m => m params) d1 = (.ok w, d2))
    (hm : sm w = .ok same) :
    ggnApi rows mv reduce sm params data tr = if same then .ok (b, d2) else .error .valueError := by
  simp only [ggnApi, hw, ok_bind, hp, hm]
  cases same <;> rfl

/-- **C65 (`_setup_pushforward`).** For members of the two enums and the default functions the only refused combinations are the
sampled pushforward with a special predictive (`ValueError`); an unknown name of either is a `ValueError`, an object that is
neither a member nor a string an `AttributeError` (undocumented). -/
theorem C65_setup_pushforward (lower : String → String) (pf pr : EnumArg) (e : Err) :
    (∀ a b, pf = .member a → pr = .member b → a ∈ ["linear", "nonlinear"] →
      b ∈ ["mc_bridge", "laplace_bridge", "mean_field_0", "mean_field_1", "mean_field_2", "none"] →
      (setupPushforward lower pf pr none = .error e ↔
        e = .valueError ∧ a = "nonlinear" ∧ b ∈ ["laplace_bridge", "mean_field_0", "mean_field_1", "mean_field_2"])) ∧
    (∀ s fns, pf = .str s → lower s ∉ ["linear", "nonlinear"] → setupPushforward lower pf pr fns = .error .valueError) ∧
    (∀ a s fns, pf = .member a → pr = .str s →
      lower s ∉ ["mc_bridge", "laplace_bridge", "mean_field_0", "mean_field_1", "mean_field_2", "none"] →
      setupPushforward lower pf pr fns = .error .valueError) ∧
    (∀ fns, pf = .other → setupPushforward lower pf pr fns = .error .attributeError) := by
  refine ⟨?_, ?_, ?_, ?_⟩
  · rintro a b rfl rfl ha hb
    simp only [List.mem_cons, List.not_mem_nil, or_false] at ha hb
    rcases ha with rfl | rfl <;> rcases hb with rfl | rfl | rfl | rfl | rfl | rfl <;>
      simp [setupPushforward, convertToEnum, specialPredictives, pure, Except.pure, bind, Except.bind, eq_comm]
  · rintro s fns rfl hs
    have : convertToEnum lower pushforwardValues false (.str s) = .error .valueError := by
      simp only [convertToEnum]; rw [if_neg (by exact hs)]; rfl
    simp only [setupPushforward, this, error_bind]
  · rintro a s fns rfl rfl hs
    have : convertToEnum lower predictiveValues false (.str s) = .error .valueError := by
      simp only [convertToEnum]; rw [if_neg (by exact hs)]; rfl
    simp only [setupPushforward, convertToEnum, ok_bind]
    have h2 : (if lower s ∈ predictiveValues then Except.ok (EnumArg.member (lower s)) else
      if false = true then Except.ok (EnumArg.str s) else Except.error Err.valueError) = (.error .valueError : Except Err EnumArg) := this
    rw [h2]; rfl
  · rintro fns rfl; rfl

/-- **C65 (`_resolve_metrics`).** Raises exactly for a name of no metrics class, an empty list or an object of another kind, always
`ValueError`. -/
theorem C65_resolve_metrics {F : Type} (lower : String → String) (reg cls : List F) (m : MetricsArg F) (e : Err)
    (hm : ∀ v, m = .enum (.member v) → v = "regression" ∨ v = "classification") :
    resolveMetrics lower reg cls m = .error e ↔ e = .valueError ∧
      ((∃ s, m = .enum (.str s) ∧ lower s ≠ "regression" ∧ lower s ≠ "classification") ∨ m = .list [] ∨ m = .other ∨
        m = .enum .other) := by
  cases m with
  | callable f => simp [resolveMetrics]
  | list fs => cases fs <;> simp [resolveMetrics, eq_comm]
  | other => simp [resolveMetrics, eq_comm]
  | enum a =>
    cases a with
    | other => simp [resolveMetrics, eq_comm]
    | member v =>
      rcases hm v rfl with rfl | rfl <;> simp [resolveMetrics, convertToEnum, pure, Except.pure, bind, Except.bind]
    | str s =>
      by_cases h1 : lower s = "regression"
      · simp [resolveMetrics, convertToEnum, defaultMetricsValues, h1, pure, Except.pure, bind, Except.bind]
      · by_cases h2 : lower s = "classification"
        · simp [resolveMetrics, convertToEnum, defaultMetricsValues, h2, pure, Except.pure, bind, Except.bind]
        · simp [resolveMetrics, convertToEnum, defaultMetricsValues, h1, h2, bind, Except.bind]; exact eq_comm

/-- **C65 (`calibration` method).** After the arguments before it were accepted, a method name that is neither the grid search nor
registered is a `ValueError`, before the data is looked at. -/
theorem C65_calibration_method {X K : Type} {p : ℕ} (lower : String → String) (rows : A → Except Err (List A))
    (points : PyObj A → PyObj A → Except Err (List (X × Arr ℝ))) (a : PredictiveArgs X K p) (data : PyObj A)
    (loss : (B : ℕ) → HessLossArg B (shapeSize a.net.shape)) (c : CurvEstimate p) (predictive pushforward objective : EnumArg)
    (fns : Option (List PfName)) (pf : PfKind × List PfName) (o : Objective)
    (hpf : setupPushforward lower pushforward predictive fns = .ok pf)
    (ho : buildCalibrationObjective lower objective false false false false false (isClassification predictive) = .ok o)
    (options : Dict (CalMethod (PyObj A) (WithTop ℝ))) (kw : GridKwargs) (s : String)
    (hs : lower s ≠ "grid_search") (hn : options.get? s = none) :
    calibration lower rows points a data loss c predictive pushforward fns objective (.str s) options kw = .error .valueError := by
  have hm : convertToEnum lower calibrationMethodValues true (.str s) = .ok (.str s) := by
    simp [convertToEnum, calibrationMethodValues, hs]
  simp only [calibration, hpf, ok_bind, ho, hm, hn]
  rw [if_neg (by simp)]

end Api

/-- **C65 (full statement fails).** `to_dense` documents `TypeError` for a layout that is neither an integer nor a pytree; `None` is
such a layout, and what is raised is a `ValueError`. -/
theorem C65_to_dense_partial (mv : PyTree ℝ → Except Err (PyTree ℝ)) : toDense mv .none = .error .valueError :=
  rfl

/-- Non-vacuity: refused and accepted calls of several of the functions above. -/
example : createLossHessianMv (n := 2) (Y := ℝ) (.name "hinge") = .error .valueError ∧
    SupportedLoss (n := 2) (Y := ℝ) (.name "mse") ∧
    resolveMetrics (fun s => s) [1, 2] [3] (.enum (.str "regression")) = .ok [1, 2] ∧
    resolveMetrics (fun s => s) [1, 2] [3] (.enum (.str "Regression")) = .error .valueError ∧
    setupPushforward (fun s => s) (.member "nonlinear") (.member "mean_field_1") none = .error .valueError :=
  ⟨(C65_loss_hessian _ _).2 ⟨rfl, by simp [SupportedLoss]⟩, by simp [SupportedLoss], rfl, rfl, rfl⟩

end Laplax.Props
