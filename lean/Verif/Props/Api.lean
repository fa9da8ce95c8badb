import Verif.Spec.Api
import Verif.Model.Api
import Verif.Model.Mv
import Verif.Lib.LoaderLemmas

/-! # C40, C41, C43, C44, C45, C46: argument handling and data routing of the high-level API -/

namespace Laplax.Props
open Laplax Laplax.Spec

/-! ## C40 -/

/-- **C40.** Outcomes of enum conversion, for every enum class (list of values), every `str.lower` and both settings of
`str_default`: a member is returned exactly for that member and for the strings whose lower-case form is its value; the
string itself exactly when `str_default` is set and no member matches; `ValueError` exactly for a non-matching string
without `str_default`; objects that are no strings raise `AttributeError`. -/
theorem C40_convert_to_enum (lower : String → String) (values : List String) (sd : Bool) (arg : EnumArg) :
    (∀ m, convertToEnum lower values sd arg = .ok (.member m) ↔
      arg = .member m ∨ ∃ s, arg = .str s ∧ lower s = m ∧ m ∈ values) ∧
    (∀ t, convertToEnum lower values sd arg = .ok (.str t) ↔ sd = true ∧ arg = .str t ∧ lower t ∉ values) ∧
    (convertToEnum lower values sd arg ≠ .ok .other) ∧
    (∀ e, convertToEnum lower values sd arg = .error e ↔
      (e = .valueError ∧ sd = false ∧ ∃ s, arg = .str s ∧ lower s ∉ values) ∨ (e = .attributeError ∧ arg = .other)) := by
  cases arg with
  | member v => simp [convertToEnum]
  | other => simp [convertToEnum, eq_comm]
  | str s =>
    by_cases h : lower s ∈ values
    · simp only [convertToEnum, if_pos h]
      refine ⟨fun m => ⟨fun hm => ?_, ?_⟩, by simp [h], by simp, by simp [h]⟩
      · simp only [Except.ok.injEq, EnumArg.member.injEq] at hm
        exact .inr ⟨s, rfl, hm, hm ▸ h⟩
      · rintro (hm | ⟨s', hs, rfl, -⟩)
        · cases hm
        · cases hs; rfl
    · cases sd <;> simp only [convertToEnum, if_neg h] <;> refine ⟨?_, ?_, ?_, ?_⟩ <;> simp [h, eq_comm]
      all_goals intro m s' hs hm; subst hs; subst hm; exact h

/-- **C40.** The values the code converts to are the documented ones. -/
theorem C40_documented_values : [curvApproxValues, calibrationObjectiveValues, calibrationMethodValues, pushforwardValues,
    predictiveValues, defaultMetricsValues] = apiEnums := rfl

/-- **C40.** For the six enums of the API and any `str.lower` that lower-cases ASCII letters: every spelling of a value
with arbitrary capitalisation (a string whose characters lower-case to the value's characters) is accepted, in particular
the value itself; no two members of a class collide. -/
theorem C40_any_case_spelling (lower : String → String)
    (hlower : ∀ s : String, (∀ c ∈ s.toList, c.val < 128) → lower s = String.ofList (s.toList.map Char.toLower))
    (values : List String) (hv : values ∈ apiEnums) (v : String) (hmem : v ∈ values) :
    (∀ (s : String) (sd : Bool), (∀ c ∈ s.toList, c.val < 128) → s.toList.map Char.toLower = v.toList →
      convertToEnum lower values sd (.str s) = .ok (.member v)) ∧
    (∀ sd, convertToEnum lower values sd (.str v) = .ok (.member v)) ∧ values.Nodup := by
  have key : ∀ (s : String) (sd : Bool), (∀ c ∈ s.toList, c.val < 128) → s.toList.map Char.toLower = v.toList →
      convertToEnum lower values sd (.str s) = .ok (.member v) := by
    intro s sd hs hl
    have : lower s = v := by rw [hlower s hs, hl, String.ofList_toList]
    simp [convertToEnum, this, hmem]
  have hfix : (∀ c ∈ v.toList, c.val < 128) ∧ v.toList.map Char.toLower = v.toList := by
    have : ∀ vs ∈ apiEnums, ∀ v ∈ vs, (∀ c ∈ v.toList, c.val < 128) ∧ v.toList.map Char.toLower = v.toList := by
      decide +kernel
    exact this values hv v hmem
  have hnd : ∀ vs ∈ apiEnums, vs.Nodup := by decide +kernel
  exact ⟨key, fun sd => key v sd hfix.1 hfix.2, hnd values hv⟩

example : convertToEnum (fun s => String.ofList (s.toList.map Char.toLower)) predictiveValues false (.str "Mean_Field_0")
    = .ok (.member "mean_field_0") := by decide +kernel

/-- **C40.** `str_to_bool` accepts exactly `"True"` and `"False"`. -/
theorem C40_str_to_bool (s : String) :
    (∀ b, strToBool s = .ok b ↔ (s = "True" ∧ b = true) ∨ (s = "False" ∧ b = false)) ∧
    (∀ e, strToBool s = .error e ↔ e = .valueError ∧ s ≠ "True" ∧ s ≠ "False") := by
  unfold strToBool
  by_cases h : s = "True"
  · subst h; simp [eq_comm]
  · by_cases h' : s = "False"
    · subst h'; simp [eq_comm]
    · simp [h, h', eq_comm]

/-! ## C43 -/

section Data
variable {A V W S : Type}

/-- **C43.** An `(input, target)` tuple is one batch with exactly these inputs and targets: for `laplace`/`GGN` (every use
`g` of the product sees this batch only, and the data object is left as it was), for `calibration` and for
`evaluation`. -/
theorem C43_tuple_is_one_batch (rows : A → Except Err (List A)) (x y : PyObj A) :
    (∃ b, maybeWrap rows (.tup [x, y]) none = .ok (b, .tup [x, y]) ∧
      ∀ (mv : V → PyObj A → PyObj A → Except Err W) (reduce : W → Option S → Except Err (W × S)) (g) (d : PyObj A),
        b.pass rows mv reduce g d = (g (fun v => mv v x y), d)) ∧
    calibrationBatch rows (.tup [x, y]) = .ok (x, y) ∧
    (∀ {X V' W' : Type} (predFn : X → Except Err (Dict V')) (ms : List (StepFn V')) (points batch)
        (conc red : List V' → Except Err W') (tt : V'),
      evaluationData rows predFn ms points batch conc red tt (.tup [x, y]) =
        (do let ps ← points x y
            (evaluateMetricsOnDataset predFn ps (some ms) none red []).1)) :=
  ⟨⟨_, rfl, fun _ _ _ _ => rfl⟩, rfl, fun _ _ _ _ _ _ _ => rfl⟩

/-- **C43.** A mapping with keys `"input"` and `"target"` (and possibly others) is one batch with exactly these. -/
theorem C43_mapping_is_one_batch (rows : A → Except Err (List A)) (kvs : Dict (PyObj A)) (x y : PyObj A)
    (hx : Dict.get? kvs "input" = some x) (hy : Dict.get? kvs "target" = some y) :
    (∃ b, maybeWrap rows (.dct kvs) none = .ok (b, .dct kvs) ∧
      ∀ (mv : V → PyObj A → PyObj A → Except Err W) (reduce : W → Option S → Except Err (W × S)) (g) (d : PyObj A),
        b.pass rows mv reduce g d = (g (fun v => mv v x y), d)) ∧
    calibrationBatch rows (.dct kvs) = .ok (x, y) ∧
    (∀ {X V' W' : Type} (predFn : X → Except Err (Dict V')) (ms : List (StepFn V')) (points batch)
        (conc red : List V' → Except Err W') (tt : V'),
      evaluationData rows predFn ms points batch conc red tt (.dct kvs) =
        (do let ps ← points x y
            (evaluateMetricsOnDataset predFn ps (some ms) none red []).1)) := by
  have fx : PyObj.field "input" (.dct kvs) = .ok x := by simp [PyObj.field, Dict.getE, hx]
  have fy : PyObj.field "target" (.dct kvs) = .ok y := by simp [PyObj.field, Dict.getE, hy]
  have hval : PyObj.validateAndGetTransform rows (.dct kvs) = .ok (fun d => .ok d) := by
    simp [PyObj.validateAndGetTransform, Dict.mem, hx, hy]
  refine ⟨⟨.single (.dct kvs), ?_, ?_⟩, ?_, ?_⟩
  · simp only [maybeWrap, PyObj.isDataLoader, PyObj.isIterable, Bool.and_false, hval]; rfl
  · intro mv reduce g d
    have : mvOnBatch mv (.dct kvs) = fun v => mv v x y := by
      funext v; simp only [mvOnBatch, fx, fy, ok_bind]
    simp only [Bound.pass, this]
  · simp only [calibrationBatch, hval, ok_bind, fx, fy]; rfl
  · intro X V' W' predFn ms points batch conc red tt
    simp only [evaluationData, PyObj.isDataLoader, PyObj.isIterable, Bool.and_false, hval, ok_bind, fx, fy]
    rfl

theorem validate_ok_iff (rows : A → Except Err (List A)) (b : PyObj A) :
    (IsBatch b → ∃ tr, b.validateAndGetTransform rows = .ok tr) ∧
    (¬ IsBatch b → b.validateAndGetTransform rows = .error .valueError) := by
  cases b with
  | tup xs => by_cases h : xs.length = 2 <;> simp [IsBatch, PyObj.validateAndGetTransform, h]
  | lst xs => by_cases h : xs.length = 2 <;> simp [IsBatch, PyObj.validateAndGetTransform, h]
  | dct kvs =>
    cases h1 : Dict.get? kvs "input" <;> cases h2 : Dict.get? kvs "target" <;>
      simp [IsBatch, PyObj.validateAndGetTransform, h1, h2, Dict.mem]
  | arr a => simp [IsBatch, PyObj.validateAndGetTransform]
  | iter l => simp [IsBatch, PyObj.validateAndGetTransform]
  | other => simp [IsBatch, PyObj.validateAndGetTransform]

/-- **C43.** Anything that is neither a batch nor a data loader is rejected with `ValueError` by all three entry points; a
data loader whose first element is not a batch (in particular an array, whose first element is its first row) is rejected
too; and `calibration` rejects every data loader. -/
theorem C43_rejected (rows : A → Except Err (List A)) (d : PyObj A) (hd : ¬ IsBatch d) :
    (d.isDataLoader = false →
      maybeWrap rows d none = .error .valueError ∧
      ∀ {X V' W' : Type} (predFn : X → Except Err (Dict V')) (ms : List (StepFn V')) (points batch)
        (conc red : List V' → Except Err W') (tt : V'),
        evaluationData rows predFn ms points batch conc red tt d = .error .valueError) ∧
    (∀ b d', d.isDataLoader = true → d.next rows = .ok (b, d') → ¬ IsBatch b →
      maybeWrap rows d none = .error .valueError ∧
      ∀ {X V' W' : Type} (predFn : X → Except Err (Dict V')) (ms : List (StepFn V')) (points batch)
        (conc red : List V' → Except Err W') (tt : V'),
        evaluationData rows predFn ms points batch conc red tt d = .error .valueError) ∧
    calibrationBatch rows d = .error .valueError := by
  have hv := (validate_ok_iff rows d).2 hd
  refine ⟨fun hl => ⟨?_, ?_⟩, fun b d' hl hn hb => ⟨?_, ?_⟩, ?_⟩
  · simp [maybeWrap, hl, hv, error_bind]
  · intro X V' W' predFn ms points batch conc red tt
    simp [evaluationData, hl, hv, error_bind]
  · simp [maybeWrap, hl, hn, (validate_ok_iff rows b).2 hb, error_bind, ok_bind]
  · intro X V' W' predFn ms points batch conc red tt
    simp [evaluationData, hl, hn, (validate_ok_iff rows b).2 hb, error_bind, ok_bind]
  · simp [calibrationBatch, hv, error_bind]

/-- **C43.** Arrays are never accepted as data: whatever the array, all three entry points raise. -/
theorem C43_array_rejected (rows : A → Except Err (List A)) (a : A) :
    (∃ e, maybeWrap rows (.arr a) none = .error e) ∧ calibrationBatch rows (.arr a) = .error .valueError ∧
    (∀ {X V' W' : Type} (predFn : X → Except Err (Dict V')) (ms : List (StepFn V')) (points batch)
        (conc red : List V' → Except Err W') (tt : V'),
      ∃ e, evaluationData rows predFn ms points batch conc red tt (.arr a) = .error e) := by
  cases hr : rows a with
  | error e =>
    have hn : PyObj.next rows (.arr a) = .error e := by
      simp [PyObj.next, PyObj.iterAll, hr, error_bind]
    refine ⟨⟨e, ?_⟩, rfl, fun predFn ms points batch conc red tt => ⟨e, ?_⟩⟩
    · simp [maybeWrap, PyObj.isDataLoader, PyObj.isIterable, hn, error_bind]
    · simp [evaluationData, PyObj.isDataLoader, PyObj.isIterable, hn, error_bind]
  | ok rs =>
    cases rs with
    | nil =>
      have hn : PyObj.next rows (.arr a) = .error .stopIteration := by
        simp [PyObj.next, PyObj.iterAll, hr, ok_bind, pure, Except.pure]
      refine ⟨⟨.stopIteration, ?_⟩, rfl, fun predFn ms points batch conc red tt => ⟨.stopIteration, ?_⟩⟩
      · simp [maybeWrap, PyObj.isDataLoader, PyObj.isIterable, hn, error_bind]
      · simp [evaluationData, PyObj.isDataLoader, PyObj.isIterable, hn, error_bind]
    | cons r rs =>
      have hn : PyObj.next rows (.arr a) = .ok (.arr r, .arr a) := by
        simp [PyObj.next, PyObj.iterAll, hr, ok_bind, pure, Except.pure]
      have h := C43_rejected rows (.arr a) (by simp [IsBatch])
      have h2 := h.2.1 (.arr r) (.arr a) rfl hn (by simp [IsBatch])
      exact ⟨⟨_, h2.1⟩, rfl, fun predFn ms points batch conc red tt => ⟨_, h2.2 predFn ms points batch conc red tt⟩⟩

/-- **C43 (what happens to lists, the accepted container for which the property fails).** `[x, y]` passes validation as an
`(input, target)` pair; `calibration` and `evaluation` use it as one batch, but `laplace`/`GGN` stream over the list: the
product is evaluated on *two* batches, the first with inputs `x[0]` and targets `x[1]`, the second with `y[0]`, `y[1]`. -/
theorem C43_list_pair_partial (rows : A → Except Err (List A)) (x y : PyObj A) :
    calibrationBatch rows (.lst [x, y]) = .ok (x, y) ∧
    (∀ {X V' W' : Type} (predFn : X → Except Err (Dict V')) (ms : List (StepFn V')) (points batch)
        (conc red : List V' → Except Err W') (tt : V'),
      evaluationData rows predFn ms points batch conc red tt (.lst [x, y]) =
      evaluationData rows predFn ms points batch conc red tt (.tup [x, y])) ∧
    (∃ b, maybeWrap rows (.lst [x, y]) none = .ok (b, .lst [x, y]) ∧
      ∀ (mv : V → PyObj A → PyObj A → Except Err W) (reduce : W → Option S → Except Err (W × S)) (g),
        b.pass rows mv reduce g (.lst [x, y]) =
          (processBatches (fun z => do
            let z0 ← PyObj.index rows 0 z
            let z1 ← PyObj.index rows 1 z
            g (fun v => mv v z0 z1)) reduce [x, y], .lst [x, y])) ∧
    (∀ xs : List (PyObj A), xs.length ≠ 2 → maybeWrap rows (.lst xs) none = .error .valueError) := by
  refine ⟨rfl, fun _ _ _ _ _ _ _ => rfl, ⟨.stream (PyObj.inputTargetSplit rows), rfl, ?_⟩, ?_⟩
  · intro mv reduce g
    simp only [Bound.pass, PyObj.iterAll, ok_bind]
    congr 2
    funext z
    cases h0 : PyObj.index rows 0 z with
    | error e => simp [PyObj.inputTargetSplit, h0, error_bind]
    | ok z0 =>
      cases h1 : PyObj.index rows 1 z with
      | error e => simp [PyObj.inputTargetSplit, h0, h1, error_bind, ok_bind]
      | ok z1 =>
        simp only [PyObj.inputTargetSplit, h0, h1, ok_bind, pure, Except.pure]
        rfl
  · intro xs h
    simp [maybeWrap, PyObj.isDataLoader, PyObj.isIterable, PyObj.validateAndGetTransform, h, error_bind]

/-- Rows of a nested integer array used in the witnesses. -/
abbrev demoRows : List Nat → Except Err (List (List Nat)) := fun a => .ok (a.map fun n => [n])
/-- A product that records the batch it sees: `(inputs, targets)`. -/
abbrev demoMv : Unit → PyObj (List Nat) → PyObj (List Nat) → Except Err (List Nat × List Nat)
  | _, .arr x, .arr y => .ok (x, y)
  | _, _, _ => .error .typeError
/-- Record every batch. -/
abbrev demoReduce (w : List Nat × List Nat) : Option (List Nat × List Nat) →
    Except Err ((List Nat × List Nat) × (List Nat × List Nat))
  | none => .ok (w, w)
  | some s => .ok ((s.1 ++ w.1, s.2 ++ w.2), (s.1 ++ w.1, s.2 ++ w.2))

/-- **C43 (negation).** The claim "a pair is one batch, whatever its container" is false for lists in `laplace`/`GGN`: with
inputs `[1,2]` and targets `[3,4]` the tuple gives the batch `([1,2],[3,4])`, the list silently gives the inputs `1, 3`
and the targets `2, 4`, without any exception. -/
theorem C43_list_pair_violated :
    ∃ (bt bl : Bound (List Nat)) (dt dl : PyObj (List Nat)),
      maybeWrap demoRows (.tup [.arr [1, 2], .arr [3, 4]]) none = .ok (bt, dt) ∧
      maybeWrap demoRows (.lst [.arr [1, 2], .arr [3, 4]]) none = .ok (bl, dl) ∧
      (bt.pass demoRows demoMv demoReduce (fun m => m ()) dt).1 = .ok ([1, 2], [3, 4]) ∧
      (bl.pass demoRows demoMv demoReduce (fun m => m ()) dl).1 = .ok ([1, 3], [2, 4]) :=
  ⟨_, _, _, _, rfl, rfl, rfl, rfl⟩

example : IsBatch (.tup [.arr [1, 2], .arr [3, 4]] : PyObj (List Nat)) ∧ ¬ IsBatch (.other : PyObj (List Nat)) ∧
    Dict.get? [("input", (.arr [1] : PyObj (List Nat))), ("target", .arr [2])] "target" = some (.arr [2]) := by
  simp [IsBatch, Dict.get?]

/-! ## C41 -/

theorem Loader.pending_exhausted_oneShot {B : Type} (bs : List B) : (Loader.oneShot bs).exhausted.pending = [] := rfl

/-- A stream over an exhausted one-shot iterator raises. -/
theorem pass_exhausted (rows : A → Except Err (List A)) (mv : V → PyObj A → PyObj A → Except Err W)
    (reduce : W → Option S → Except Err (W × S)) (g) (tr) :
    Bound.pass rows mv reduce g (.stream tr) (.iter (.oneShot [])) = (.error .valueError, .iter (.oneShot [])) := rfl

/-- **C41 (`laplace`, one-shot iterators).** For every one-shot iterator with any batches, every model, every method and
every curvature algorithm that evaluates the product at least once, `laplace` raises: it never returns a curvature
computed from a part (or all) of the data. -/
theorem C41_laplace_one_shot_rejected {R K : Type} [Div K] [NatCast K] (lower : String → String)
    (rows : A → Except Err (List A)) (mv : K → V → PyObj A → PyObj A → Except Err W)
    (reduce : W → Option S → Except Err (W × S)) (shapesMatch : W → Except Err Bool) (params : V)
    (batches : List (PyObj A)) (curvType : EnumArg) (numCurv numTotal : Nat) (alg : EnumArg → CurvAlg V W R)
    (halg : ∀ ct, ∃ g k, alg ct = .pass g k) :
    ∃ e, laplaceCurv lower rows mv reduce shapesMatch params (.iter (.oneShot batches)) curvType numCurv numTotal alg
      = .error e := by
  unfold laplaceCurv
  cases hc : convertToEnum lower curvApproxValues false curvType with
  | error e => exact ⟨e, by simp [error_bind]⟩
  | ok ct =>
    simp only [ok_bind]
    by_cases ht : numTotal = 0
    · exact ⟨_, if_pos ht⟩
    rw [if_neg ht]
    obtain ⟨g, k, hk⟩ := halg ct
    cases batches with
    | nil => exact ⟨.stopIteration, rfl⟩
    | cons b bs =>
      have hn : PyObj.next rows (.iter (.oneShot (b :: bs))) = .ok (b, .iter (.oneShot bs)) := rfl
      cases hvt : b.validateAndGetTransform rows with
      | error e =>
        exact ⟨e, by simp [ggnApi, maybeWrap, PyObj.isDataLoader, PyObj.isIterable, hn, hvt, ok_bind, error_bind]⟩
      | ok tr =>
        have hw : maybeWrap rows (.iter (.oneShot (b :: bs))) none = .ok (.stream tr, .iter (.oneShot bs)) := by
          simp only [maybeWrap, PyObj.isDataLoader, PyObj.isIterable, hn, ok_bind, hvt]; rfl
        simp only [ggnApi, hw, ok_bind]
        generalize hp : Bound.pass rows (mv _) reduce (fun m => m params) (.stream tr) (.iter (.oneShot bs)) = p
        have hp2 : p.2 = .iter (.oneShot []) := by rw [← hp]; rfl
        obtain ⟨r, d2⟩ := p
        simp only at hp2
        subst hp2
        cases r with
        | error e => exact ⟨e, rfl⟩
        | ok w =>
          simp only [ok_bind]
          cases hs : shapesMatch w with
          | error e => exact ⟨e, rfl⟩
          | ok sm =>
            cases sm with
            | false => exact ⟨_, rfl⟩
            | true =>
              refine ⟨.valueError, ?_⟩
              simp only [ok_bind, if_true, pure, Except.pure, hk, CurvAlg.run, pass_exhausted]

/-- **C41 (`GGN` with a user-supplied transform).** Also when the first batch is not peeked at, a one-shot iterator is
used up by the construction; every later use of the returned product raises. -/
theorem C41_ggn_one_shot_rejected (rows : A → Except Err (List A)) (mv : V → PyObj A → PyObj A → Except Err W)
    (reduce : W → Option S → Except Err (W × S)) (shapesMatch : W → Except Err Bool) (params : V)
    (batches : List (PyObj A)) (transform : Option (PyObj A → Except Err (PyObj A))) (b : Bound A) (d : PyObj A)
    (h : ggnApi rows mv reduce shapesMatch params (.iter (.oneShot batches)) transform = .ok (b, d)) (g) :
    (b.pass rows mv reduce g d).1 = .error .valueError := by
  have hw : ∃ tr bs, maybeWrap rows (.iter (.oneShot batches)) transform = .ok (.stream tr, .iter (.oneShot bs)) ∨
      ∃ e, maybeWrap rows (.iter (.oneShot batches)) transform = .error e := by
    cases transform with
    | some tr => exact ⟨tr, batches, .inl rfl⟩
    | none =>
      cases batches with
      | nil => exact ⟨fun _ => .error .valueError, [], .inr ⟨_, rfl⟩⟩
      | cons b bs =>
        have hn : PyObj.next rows (.iter (.oneShot (b :: bs))) = .ok (b, .iter (.oneShot bs)) := rfl
        cases hvt : b.validateAndGetTransform rows with
        | error e =>
          refine ⟨fun _ => .error .valueError, [], .inr ⟨e, ?_⟩⟩
          simp [maybeWrap, PyObj.isDataLoader, PyObj.isIterable, hn, hvt, ok_bind, error_bind]
        | ok tr =>
          refine ⟨tr, bs, .inl ?_⟩
          simp only [maybeWrap, PyObj.isDataLoader, PyObj.isIterable, hn, ok_bind, hvt]; rfl
  obtain ⟨tr, bs, hw | ⟨e, hw⟩⟩ := hw
  · simp only [ggnApi, hw, ok_bind] at h
    obtain ⟨w, -, h⟩ := (bind_ok_iff _ _ _).1 h
    obtain ⟨sm, -, h⟩ := (bind_ok_iff _ _ _).1 h
    cases sm with
    | false => cases h
    | true =>
      simp only [if_true, pure, Except.pure, Except.ok.injEq, Prod.mk.injEq] at h
      obtain ⟨rfl, rfl⟩ := h
      rfl
  · simp only [ggnApi, hw, error_bind] at h; cases h

/-- **C41 (`laplace`, re-iterable loaders).** With a re-iterable loader, `GGN` succeeds only with a product every use of
which visits all batches, in order, each exactly once, and which can be used any number of times. -/
theorem C41_ggn_reiterable_uses_all (rows : A → Except Err (List A)) (mv : V → PyObj A → PyObj A → Except Err W)
    (reduce : W → Option S → Except Err (W × S)) (shapesMatch : W → Except Err Bool) (params : V)
    (first : PyObj A) (batches : List (PyObj A)) (b : Bound A) (d : PyObj A)
    (h : ggnApi rows mv reduce shapesMatch params (.iter (.reiterable (first :: batches))) none = .ok (b, d)) :
    d = .iter (.reiterable (first :: batches)) ∧
    ∃ tr, first.validateAndGetTransform rows = .ok tr ∧
      ∀ g, b.pass rows mv reduce g d =
        (processBatches (fun z => do let dz ← tr z; g (mvOnBatch mv dz)) reduce (first :: batches), d) := by
  have hn : PyObj.next rows (.iter (.reiterable (first :: batches))) = .ok (first, .iter (.reiterable (first :: batches))) := rfl
  cases hvt : first.validateAndGetTransform rows with
  | error e =>
    simp [ggnApi, maybeWrap, PyObj.isDataLoader, PyObj.isIterable, hn, hvt, ok_bind, error_bind] at h
  | ok tr =>
    have hw : maybeWrap rows (.iter (.reiterable (first :: batches))) none =
        .ok (.stream tr, .iter (.reiterable (first :: batches))) := by
      simp only [maybeWrap, PyObj.isDataLoader, PyObj.isIterable, hn, ok_bind, hvt]; rfl
    simp only [ggnApi, hw, ok_bind] at h
    obtain ⟨w, -, h⟩ := (bind_ok_iff _ _ _).1 h
    obtain ⟨sm, -, h⟩ := (bind_ok_iff _ _ _).1 h
    cases sm with
    | false => cases h
    | true =>
      simp only [if_true, pure, Except.pure, Except.ok.injEq, Prod.mk.injEq] at h
      obtain ⟨rfl, rfl⟩ := h
      exact ⟨rfl, tr, rfl, fun g => rfl⟩

/-- **C41 (`evaluation`).** With a re-iterable loader the metrics are computed from all batches; with a one-shot iterator
the first batch, consumed for validation, is left out: the result is the one of the remaining batches.  A loader or
iterator without any batch raises.  (Missing from the full property: the one-shot case should use every batch or raise —
see the negation below.) -/
theorem C41_evaluation_partial (rows : A → Except Err (List A)) {X V' W' : Type} (predFn : X → Except Err (Dict V'))
    (ms : List (StepFn V')) (points) (batch : PyObj A → PyObj A → Except Err (X × V')) (conc red : List V' → Except Err W')
    (tt : V') (first : PyObj A) (rest : List (PyObj A)) (tr) (htr : first.validateAndGetTransform rows = .ok tr) :
    evaluationData rows predFn ms points batch conc red tt (.iter (.reiterable (first :: rest))) =
      (evaluateMetricsOnGenerator predFn (first :: rest)
        (fun b => do let d ← tr b; batch (← d.field "input") (← d.field "target")) (some ms) none conc
        [("has_batch", tt)]).1 ∧
    evaluationData rows predFn ms points batch conc red tt (.iter (.oneShot (first :: rest))) =
      (evaluateMetricsOnGenerator predFn rest
        (fun b => do let d ← tr b; batch (← d.field "input") (← d.field "target")) (some ms) none conc
        [("has_batch", tt)]).1 ∧
    evaluationData rows predFn ms points batch conc red tt (.iter (.reiterable [])) = .error .stopIteration ∧
    evaluationData rows predFn ms points batch conc red tt (.iter (.oneShot [])) = .error .stopIteration := by
  have hn1 : PyObj.next rows (.iter (.reiterable (first :: rest))) = .ok (first, .iter (.reiterable (first :: rest))) := rfl
  have hn2 : PyObj.next rows (.iter (.oneShot (first :: rest))) = .ok (first, .iter (.oneShot rest)) := rfl
  refine ⟨?_, ?_, rfl, rfl⟩
  · simp only [evaluationData, PyObj.isDataLoader, PyObj.isIterable, hn1, htr, ok_bind, Bool.and_self, if_true]
    rfl
  · simp only [evaluationData, PyObj.isDataLoader, PyObj.isIterable, hn2, htr, ok_bind, Bool.and_self, if_true]
    rfl

/-- **C41 (negation).** `evaluation` on a one-shot iterator of a single batch returns an empty result dictionary without
an exception, and on two batches the value of the second batch only, although the re-iterable loader gives both. -/
theorem C41_evaluation_violated :
    ∃ (predFn : List Nat → Except Err (Dict (List Nat))) (ms : List (StepFn (List Nat)))
      (batch : PyObj (List Nat) → PyObj (List Nat) → Except Err (List Nat × List Nat)),
      let ev := evaluationData demoRows predFn ms (fun _ _ => .error .unmodelled) batch
        (fun vs => .ok vs.flatten) (fun vs => .ok vs.flatten) []
      let b1 : PyObj (List Nat) := .tup [.arr [1], .arr [10]]
      let b2 : PyObj (List Nat) := .tup [.arr [2], .arr [20]]
      ev (.iter (.oneShot [b1])) = .ok [] ∧
      ev (.iter (.oneShot [b1, b2])) = .ok [("t", [20])] ∧
      ev (.iter (.reiterable [b1, b2])) = .ok [("t", [10, 20])] :=
  ⟨fun _ => .ok [], [fun r a _ => do return (r.set "t" (← a.getE "target"), a)],
    fun x y => match x, y with
      | .arr x, .arr y => .ok (x, y)
      | _, _ => .error .typeError, rfl, rfl, rfl⟩

/-- Hypotheses of the theorems above are met: a curvature algorithm with one pass, a loader of valid batches. -/
example : (∃ b d, ggnApi demoRows demoMv demoReduce (fun _ => .ok true) ()
      (.iter (.reiterable [.tup [.arr [1], .arr [2]], .tup [.arr [3], .arr [4]]])) none = .ok (b, d)) ∧
    (∃ b d, ggnApi demoRows demoMv demoReduce (fun _ => .ok true) ()
      (.iter (.oneShot [.tup [.arr [1], .arr [2]], .tup [.arr [3], .arr [4]]])) none = .ok (b, d)) ∧
    (∀ ct : EnumArg, ∃ g k, (fun _ : EnumArg => (CurvAlg.pass (fun m => m ()) (fun w => .done (.ok w)) :
      CurvAlg Unit Nat Nat)) ct = .pass g k) :=
  ⟨⟨_, _, rfl⟩, ⟨_, _, rfl⟩, fun _ => ⟨_, _, rfl⟩⟩

end Data

/-! ## C44: pushforward selection -/

/-- **C44.** `_setup_pushforward` with the linear pushforward and no custom functions: rejects exactly unknown names; with
`Predictive.NONE` no probability step is present; with any classification predictive the list ends with the matching
probability step followed by the step that publishes it as `"pred_act"`. -/
theorem C44_linear (lower : String → String) (p : String)
    (hp : p ∈ ["mc_bridge", "laplace_bridge", "mean_field_0", "mean_field_1", "mean_field_2", "none"]) :
    setupPushforward lower (.member "linear") (.member p) none =
      .ok (.lin, [.linSetup, .linPredMean, .linPredStd] ++
        (if p = "none" then [] else
          [if p = "mc_bridge" then .linMcPredAct else .linSpecialPredAct p, .getPredAct])) := by
  simp only [List.mem_cons, List.not_mem_nil, or_false] at hp
  rcases hp with rfl | rfl | rfl | rfl | rfl | rfl <;> rfl

/-- **C44.** With the nonlinear pushforward and no custom functions: `NONE` and `MC_BRIDGE` are accepted, every special
predictive is rejected with `ValueError`. -/
theorem C44_nonlinear_partial (lower : String → String) (p : String)
    (hp : p ∈ ["mc_bridge", "laplace_bridge", "mean_field_0", "mean_field_1", "mean_field_2", "none"]) :
    setupPushforward lower (.member "nonlinear") (.member p) none =
      if p ∈ ["laplace_bridge", "mean_field_0", "mean_field_1", "mean_field_2"] then .error .valueError
      else .ok (.nonlin, [.nonlinSetup, .nonlinPredMean, .nonlinPredStd] ++
        (if p = "mc_bridge" then [.nonlinMcPredAct] else [])) := by
  simp only [List.mem_cons, List.not_mem_nil, or_false] at hp
  rcases hp with rfl | rfl | rfl | rfl | rfl | rfl <;> rfl

/-- **C44 (negation).** The claim "with a classification predictive the class probabilities are published under
`pred_act`" is false for the nonlinear pushforward: its step list computes them but never runs `get_pred_act`. -/
theorem C44_nonlinear_pred_act_violated (lower : String → String) :
    ∃ fns, setupPushforward lower (.member "nonlinear") (.member "mc_bridge") none = .ok (.nonlin, fns) ∧
      fns.any storesProb = true ∧ PfName.getPredAct ∉ fns :=
  ⟨_, rfl, by decide, by decide⟩

/-- **C44.** Non-empty custom functions are used exactly as given, whatever the (valid) types; an empty list counts as no
custom functions; invalid names raise. -/
theorem C44_custom (lower : String → String) (pf pr : EnumArg) (f : PfName) (fs : List PfName) (v p : String)
    (hpf : convertToEnum lower pushforwardValues false pf = .ok (.member v)) (hv : v ∈ ["linear", "nonlinear"])
    (hpr : convertToEnum lower predictiveValues false pr = .ok (.member p)) :
    setupPushforward lower pf pr (some (f :: fs)) = .ok (if v = "linear" then .lin else .nonlin, f :: fs) ∧
    setupPushforward lower pf pr (some []) = setupPushforward lower pf pr none := by
  simp only [List.mem_cons, List.not_mem_nil, or_false] at hv
  refine ⟨?_, rfl⟩
  rcases hv with rfl | rfl <;> simp [setupPushforward, hpf, hpr, ok_bind, pure, Except.pure]

/-- **C44.** Names that do not convert are rejected with the conversion's exception. -/
theorem C44_invalid_names (lower : String → String) (pf pr : EnumArg) (fns : Option (List PfName)) (e : Err) :
    (convertToEnum lower pushforwardValues false pf = .error e → setupPushforward lower pf pr fns = .error e) ∧
    (∀ v, convertToEnum lower pushforwardValues false pf = .ok v →
      convertToEnum lower predictiveValues false pr = .error e → setupPushforward lower pf pr fns = .error e) := by
  refine ⟨fun h => by simp [setupPushforward, h, error_bind], fun v h h' => by simp [setupPushforward, h, h', error_bind, ok_bind]⟩

theorem Dict.get?_set {V : Type} (d : Dict V) (k k' : String) (v : V) :
    Dict.get? (Dict.set d k v) k' = if k = k' then some v else Dict.get? d k' := by
  induction d with
  | nil => simp [Dict.set, Dict.get?]
  | cons p d ih =>
    obtain ⟨a, b⟩ := p
    by_cases h : a = k
    · subst h; by_cases h' : a = k' <;> simp [Dict.set, Dict.get?, h']
    · by_cases h' : a = k'
      · subst h'; simp [Dict.set, Dict.get?, h, Ne.symm h]
      · simp [Dict.set, Dict.get?, h, h', ih]

/-- **C44.** `get_pred_act` publishes the special predictive if present, else the Monte-Carlo one, else nothing; all other
entries and the auxiliary data are untouched. -/
theorem C44_get_pred_act {V : Type} (results aux kw : Dict V) :
    ∃ r, getPredAct results aux kw = .ok (r, aux) ∧
      r.get? "pred_act" = ((results.get? "special_pred_act").or (results.get? "mc_pred_act")).or (results.get? "pred_act") ∧
      ∀ k, k ≠ "pred_act" → r.get? k = results.get? k := by
  have h1 : ("pred_act" = "special_pred_act") = False := by decide
  have h2 : ("pred_act" = "mc_pred_act") = False := by decide
  cases hm : results.get? "mc_pred_act" <;> cases hs : results.get? "special_pred_act" <;>
    simp [getPredAct, hm, hs, Dict.get?_set]
  all_goals intro k hk; simp [Ne.symm hk]

example : convertToEnum (fun s => String.ofList (s.toList.map Char.toLower)) pushforwardValues false (.str "LINEAR")
    = .ok (.member "linear") := by decide +kernel

/-! ## C45: calibration objective selection -/

/-- **C45.** Complete decision table of the calibration objective: accepted requests are exactly those with a known
objective, model and curvature type given, all of the marginal likelihood's arguments when that is asked for, no
chi-squared for classification and no ECE for regression; every accepted request gets the objective asked for; everything
else raises `ValueError`. -/
theorem C45_objective_table (lower : String → String) (o : String) (ho : o ∈ calibrationObjectiveValues)
    (ceN mfN paN ctN vmN cls : Bool) :
    buildCalibrationObjective lower (.member o) ceN mfN paN ctN vmN cls =
      if mfN ∨ ctN then .error .valueError
      else if o = "nll" then .ok (.nll cls)
      else if o = "chi_squared" then (if cls then .error .valueError else .ok .chi2)
      else if o = "ece" then (if cls then .ok .ece else .error .valueError)
      else (if ceN ∨ paN ∨ vmN then .error .valueError else .ok .mll) := by
  simp only [calibrationObjectiveValues, List.mem_cons, List.not_mem_nil, or_false] at ho
  rcases ho with rfl | rfl | rfl | rfl <;> cases ceN <;> cases mfN <;> cases paN <;> cases ctN <;> cases vmN <;>
    cases cls <;> rfl

/-- **C45 (names).** The objective can be given as any accepted spelling; an unknown one raises `ValueError`. -/
theorem C45_objective_names (lower : String → String) (s : String) (ceN mfN paN ctN vmN cls : Bool) :
    buildCalibrationObjective lower (.str s) ceN mfN paN ctN vmN cls =
      if lower s ∈ calibrationObjectiveValues then
        buildCalibrationObjective lower (.member (lower s)) ceN mfN paN ctN vmN cls
      else .error .valueError := by
  by_cases h : lower s ∈ calibrationObjectiveValues
  · simp only [h, if_true, buildCalibrationObjective, convertToEnum]
  · simp only [h, if_false, buildCalibrationObjective, convertToEnum, error_bind, Bool.false_eq_true]

/-- **C45 (finding).** NLL, chi-squared and ECE objectives do not use the model or the curvature type, yet the request is
rejected when one of them is missing. -/
theorem C45_model_required_for_every_objective (lower : String → String) (o : String)
    (ho : o ∈ calibrationObjectiveValues) (ceN paN ctN vmN cls : Bool) :
    buildCalibrationObjective lower (.member o) ceN true paN ctN vmN cls = .error .valueError := by
  rw [C45_objective_table lower o ho]; simp

/-! ## C46: metric selection -/

/-- **C46.** `_resolve_metrics`: a single callable becomes a one-element list, a non-empty list is used unchanged, an empty
list and unsupported objects raise `ValueError`, the two default names give the two default lists, unknown names raise;
the result is never an empty list (given that the default lists are not). -/
theorem C46_resolve_metrics {F : Type} (lower : String → String) (reg cls : List F) (hr : reg ≠ []) (hc : cls ≠ []) :
    (∀ f, resolveMetrics lower reg cls (.callable f) = .ok [f]) ∧
    (∀ fs, resolveMetrics lower reg cls (.list fs) = if fs = [] then .error .valueError else .ok fs) ∧
    (∀ s, resolveMetrics lower reg cls (.enum (.str s)) =
      if lower s = "regression" then .ok reg else if lower s = "classification" then .ok cls else .error .valueError) ∧
    resolveMetrics lower reg cls (.enum (.member "regression")) = .ok reg ∧
    resolveMetrics lower reg cls (.enum (.member "classification")) = .ok cls ∧
    resolveMetrics lower reg cls .other = .error .valueError ∧
    (∀ a fs, resolveMetrics lower reg cls a = .ok fs → fs ≠ []) := by
  have hlist : ∀ fs, resolveMetrics lower reg cls (.list fs) = if fs = [] then .error .valueError else .ok fs := by
    intro fs; cases fs <;> simp [resolveMetrics]
  have hstr : ∀ s, resolveMetrics lower reg cls (.enum (.str s)) =
      if lower s = "regression" then .ok reg else if lower s = "classification" then .ok cls else .error .valueError := by
    intro s
    by_cases h1 : lower s = "regression"
    · simp [resolveMetrics, convertToEnum, h1, defaultMetricsValues, ok_bind, pure, Except.pure]
    · by_cases h2 : lower s = "classification"
      · simp [resolveMetrics, convertToEnum, h2, defaultMetricsValues, ok_bind, pure, Except.pure]
      · simp [resolveMetrics, convertToEnum, h1, h2, defaultMetricsValues, error_bind]
  refine ⟨fun f => rfl, hlist, hstr, rfl, rfl, rfl, ?_⟩
  intro a fs h
  cases a with
  | callable f => cases h; simp
  | list l => rw [hlist] at h; split at h <;> cases h; assumption
  | other => cases h
  | enum e =>
    cases e with
    | other => cases h
    | str s =>
      rw [hstr] at h
      split at h
      · cases h; exact hr
      · split at h
        · cases h; exact hc
        · cases h
    | member v =>
      simp only [resolveMetrics, convertToEnum, ok_bind] at h
      split at h
      · cases h; exact hr
      · split at h
        · cases h; exact hc
        · cases h

example : resolveMetrics (fun s => String.ofList (s.toList.map Char.toLower)) [1] [2, 3] (.enum (.str "Regression")) = .ok [1] := by
  decide +kernel

end Laplax.Props
