import Verif.Spec.Register
import Verif.Model.Register

/-! # Property C27: registration of curvature methods -/

namespace Laplax.Props
open Laplax Laplax.Spec
variable {F : Type}

theorem assignSlots_ok (c : RegCall F) (ss : List Slot) (hnd : ss.Nodup) (t t' : Tables F)
    (h : assignSlots c ss t = (.ok (), t')) :
    (∀ s n, n ≠ c.name → t' s n = t s n) ∧
    (∀ s ∈ ss, t' s c.name = (c.fns s).or (c.default.bind (t s)) ∧ (t' s c.name).isSome) ∧
    (∀ s, s ∉ ss → t' s c.name = t s c.name) := by
  induction ss generalizing t with
  | nil => simp [assignSlots] at h; subst h; simp
  | cons s ss ih =>
    simp only [assignSlots] at h
    cases hv : slotValue t c s with
    | error e => rw [hv] at h; simp at h
    | ok f =>
      rw [hv] at h
      simp only [List.nodup_cons] at hnd
      obtain ⟨h1, h2, h3⟩ := ih hnd.2 _ h
      have hval : some f = (c.fns s).or (c.default.bind (t s)) := by
        unfold slotValue at hv
        cases hf : c.fns s with
        | some g => rw [hf] at hv; simp at hv; simp [hv]
        | none =>
          rw [hf] at hv; simp only at hv
          cases hd : c.default with
          | none => rw [hd] at hv; simp at hv
          | some d =>
            rw [hd] at hv; simp only at hv
            cases ht : t s d with
            | none => rw [ht] at hv; simp at hv
            | some g => rw [ht] at hv; simp at hv; simp [hv, ht]
      refine ⟨?_, ?_, ?_⟩
      · intro s' n hn; rw [h1 s' n hn]; simp [Tables.set, hn]
      · intro s' hs'
        rcases List.mem_cons.1 hs' with rfl | hs'
        · have e1 : t' s' c.name = some f := by rw [h3 _ hnd.1]; simp [Tables.set]
          exact ⟨e1.trans hval, by rw [e1]; rfl⟩
        · have hne : s' ≠ s := fun e => hnd.1 (e ▸ hs')
          obtain ⟨a, b⟩ := h2 s' hs'
          refine ⟨?_, b⟩
          rw [a]; congr 1
          cases c.default with
          | none => rfl
          | some d => simp [Tables.set, hne]
      · intro s' hs'
        simp only [List.mem_cons, not_or] at hs'
        rw [h3 s' hs'.2]; simp [Tables.set, hs'.1]

theorem slot_mem_order (s : Slot) : s ∈ Slot.order := by cases s <;> simp [Slot.order]

/-- **C27 (effect of a successful registration).** Every table maps the new name to the given function or, where none was
given, to the default method's function of that table; every other entry of every table is unchanged; no table misses
the name. -/
theorem C27_success (c : RegCall F) (t t' : Tables F) (h : registerCurvatureMethod c t = (.ok (), t')) :
    (∀ s n, n ≠ c.name → t' s n = t s n) ∧ (∀ s, (t' s c.name).isSome) ∧
    (∀ s f, c.fns s = some f → t' s c.name = some f) ∧
    (∀ s d, c.fns s = none → c.default = some d → t' s c.name = t s d) := by
  unfold registerCurvatureMethod at h
  split at h
  · simp at h
  · obtain ⟨h1, h2, _⟩ := assignSlots_ok c Slot.order (by decide) t t' h
    refine ⟨h1, fun s => (h2 s (slot_mem_order s)).2, ?_, ?_⟩
    · intro s f hf; rw [(h2 s (slot_mem_order s)).1, hf]; rfl
    · intro s d hf hd; rw [(h2 s (slot_mem_order s)).1, hf, hd]; rfl

/-- **C27 (consistency over histories).** Starting from the built-in tables, after any sequence of successful
registrations all six tables know the same methods. -/
theorem C27_consistent_histories (cs : List (RegCall F)) (b : Slot → String → F)
    (hok : ∀ pre c post, cs = pre ++ c :: post →
      ∃ t', registerCurvatureMethod c (runRegistrations pre (initialTables b)) = (.ok (), t')) :
    Consistent (runRegistrations cs (initialTables b)) := by
  have gen : ∀ (cs : List (RegCall F)) (t : Tables F), Consistent t →
      (∀ pre c post, cs = pre ++ c :: post → ∃ t', registerCurvatureMethod c (runRegistrations pre t) = (.ok (), t')) →
      Consistent (runRegistrations cs t) := by
    intro cs
    induction cs with
    | nil => intro t h _; exact h
    | cons c cs ih =>
      intro t ht hok
      obtain ⟨t', h⟩ := hok [] c cs rfl
      simp only [runRegistrations] at h ⊢
      rw [h]
      obtain ⟨h1, h2, _⟩ := C27_success c t t' h
      refine ih t' ?_ ?_
      · intro s s' n
        by_cases hn : n = c.name
        · subst hn; rw [h2 s, h2 s']
        · rw [h1 s n hn, h1 s' n hn]; exact ht s s' n
      · intro pre c' post e
        obtain ⟨t'', h''⟩ := hok (c :: pre) c' post (by rw [e]; rfl)
        simp only [runRegistrations, h] at h''
        exact ⟨t'', h''⟩
  refine gen cs _ ?_ hok
  intro s s' n; simp only [initialTables]; split <;> rfl

/-- **C27 (built-in methods).** Before any registration exactly the four documented methods are available, in every table; and
they stay available, in every table, through any history of registrations under other names, successful or not. -/
theorem C27_builtin_methods (b : Slot → String → F) (cs : List (RegCall F)) (n : String)
    (hn : ∀ c ∈ cs, c.name ≠ n) (s : Slot) :
    runRegistrations cs (initialTables b) s n =
      if n ∈ ["full", "diagonal", "lanczos", "lobpcg"] then some (b s n) else none := by
  have gen : ∀ (ss : List Slot) (c : RegCall F) (t : Tables F), c.name ≠ n → (assignSlots c ss t).2 s n = t s n := by
    intro ss c
    induction ss with
    | nil => intro t _; rfl
    | cons s0 ss ih =>
      intro t hc
      simp only [assignSlots]
      split
      · rfl
      · rw [ih _ hc]
        simp only [Tables.set]
        split
        · rename_i h; exact absurd h.2.symm hc
        · rfl
  have key : ∀ (cs : List (RegCall F)) (t : Tables F), (∀ c ∈ cs, c.name ≠ n) → runRegistrations cs t s n = t s n := by
    intro cs
    induction cs with
    | nil => intro t _; rfl
    | cons c cs ih =>
      intro t h
      simp only [runRegistrations]
      rw [ih _ (fun c' h' => h c' (by simp [h']))]
      unfold registerCurvatureMethod
      split
      · rfl
      · exact gen _ c t (h c (by simp))
  rw [key cs _ hn]
  simp [initialTables]

/-- **C27 (when registration succeeds).** On consistent tables a call succeeds iff all six functions are given or the
default is a known method. -/
theorem C27_succeeds_iff (c : RegCall F) (t : Tables F) (ht : Consistent t) :
    (registerCurvatureMethod c t).1 = .ok () ↔
      (∀ s, (c.fns s).isSome) ∨ ∃ d, c.default = some d ∧ ∀ s, (t s d).isSome := by
  have hall : Slot.order.all (fun s => (c.fns s).isSome) = true ↔ ∀ s, (c.fns s).isSome := by
    rw [List.all_eq_true]; exact ⟨fun h s => h s (slot_mem_order s), fun h s _ => h s⟩
  -- success of the assignments from per-slot success
  have key : ∀ (ss : List Slot) (t : Tables F), ss.Nodup → (∀ s ∈ ss, ∃ f, slotValue t c s = .ok f) →
      (assignSlots c ss t).1 = .ok () := by
    intro ss
    induction ss with
    | nil => intro t _ _; rfl
    | cons s ss ih =>
      intro t hnd h
      obtain ⟨f, hf⟩ := h s (by simp)
      simp only [assignSlots, hf]
      simp only [List.nodup_cons] at hnd
      refine ih _ hnd.2 ?_
      intro s' hs'
      obtain ⟨g, hg⟩ := h s' (by simp [hs'])
      have hne : s' ≠ s := fun e => hnd.1 (e ▸ hs')
      refine ⟨g, ?_⟩
      rw [← hg]; unfold slotValue
      cases c.fns s' with
      | some _ => rfl
      | none =>
        cases c.default with
        | none => rfl
        | some d => simp [Tables.set, hne]
  constructor
  · intro h
    by_cases hf : ∀ s, (c.fns s).isSome
    · exact Or.inl hf
    · right
      unfold registerCurvatureMethod at h
      split at h
      · simp at h
      · rename_i hc
        cases hd : c.default with
        | none => exact absurd ⟨hd, fun h' => hf (hall.1 h')⟩ hc
        | some d =>
          refine ⟨d, rfl, ?_⟩
          obtain ⟨s, hs⟩ := Classical.not_forall.1 hf
          simp only [Bool.not_eq_true, Option.isSome_eq_false_iff, Option.isNone_iff_eq_none] at hs
          cases hr : assignSlots c Slot.order t with
          | mk o t' =>
            rw [hr] at h; simp only at h; subst h
            obtain ⟨_, h2, _⟩ := assignSlots_ok c Slot.order (by decide) t t' hr
            have := h2 s (slot_mem_order s)
            rw [this.1, hs, hd] at this
            intro s'; rw [ht s' s d]; exact this.2
  · intro h
    unfold registerCurvatureMethod
    split
    · rename_i hc
      rcases h with h | ⟨d, hd, _⟩
      · exact absurd (hall.2 h) hc.2
      · rw [hc.1] at hd; simp at hd
    · refine key _ t (by decide) ?_
      intro s _
      unfold slotValue
      rcases h with h | ⟨d, hd, h⟩
      · cases hf : c.fns s with
        | some f => exact ⟨f, rfl⟩
        | none => have := h s; rw [hf] at this; simp at this
      · cases hf : c.fns s with
        | some f => exact ⟨f, rfl⟩
        | none =>
          rw [hd]
          cases ht' : t s d with
          | some f => exact ⟨f, by simp [ht']⟩
          | none => have := h s; rw [ht'] at this; simp at this

/-- Entries under other names never change, whatever the outcome. -/
theorem assignSlots_other (c : RegCall F) (ss : List Slot) (t : Tables F) (s : Slot) (n : String) (hn : n ≠ c.name) :
    (assignSlots c ss t).2 s n = t s n := by
  induction ss generalizing t with
  | nil => rfl
  | cons s' ss ih =>
    simp only [assignSlots]
    cases slotValue t c s' with
    | error e => rfl
    | ok f => rw [ih]; simp [Tables.set, hn]

/-- **C27 (built-ins keep their behaviour).** After any history — successful or failing calls — every method whose name
was never registered behaves as initially. -/
theorem C27_builtins_unchanged (cs : List (RegCall F)) (t : Tables F) (n : String) (hn : ∀ c ∈ cs, c.name ≠ n) (s : Slot) :
    runRegistrations cs t s n = t s n := by
  induction cs generalizing t with
  | nil => rfl
  | cons c cs ih =>
    simp only [runRegistrations]
    rw [ih _ (fun c' h => hn c' (by simp [h]))]
    unfold registerCurvatureMethod
    split
    · rfl
    · exact assignSlots_other c _ t s n (fun e => hn c (by simp) e.symm)

/-- **C27 (failing registration, partial).** On consistent tables, a call that is rejected with `ValueError` leaves all
tables unchanged; a call that fails because of an unknown default (`KeyError`) leaves them unchanged if no creation
function was given.  Missing: the other failing calls, for which the claim is false
(`C27_failing_registration_violated`). -/
theorem C27_failing_registration_partial (c : RegCall F) (t t' : Tables F) (e : Err) (ht : Consistent t)
    (h : registerCurvatureMethod c t = (.error e, t')) (h' : e = .valueError ∨ c.fns .create = none) : t' = t := by
  have hno : ¬ ((∀ s, (c.fns s).isSome) ∨ ∃ d, c.default = some d ∧ ∀ s, (t s d).isSome) := by
    rw [← C27_succeeds_iff c t ht, h]; simp
  unfold registerCurvatureMethod at h
  split at h
  · simp at h; exact h.2.symm
  · have hkey : ∀ (ss : List Slot) (t : Tables F), assignSlots c ss t = (.error e, t') → e = .keyError := by
      intro ss
      induction ss with
      | nil => intro t h; simp [assignSlots] at h
      | cons s ss ih =>
        intro t h
        simp only [assignSlots] at h
        cases hv : slotValue t c s with
        | ok f => rw [hv] at h; exact ih _ h
        | error e' =>
          rw [hv] at h; simp at h
          rw [← h.1]
          unfold slotValue at hv
          split at hv
          · simp at hv
          · split at hv
            · simp at hv; exact hv.symm
            · split at hv
              · simp at hv
              · simp at hv; exact hv.symm
    have he := hkey _ _ h
    rcases h' with h' | h'
    · rw [h'] at he; simp at he
    · simp only [Slot.order, assignSlots] at h
      cases hv : slotValue t c .create with
      | error e' => rw [hv] at h; simp at h; exact h.2.symm
      | ok f =>
        exfalso
        apply hno; right
        unfold slotValue at hv
        rw [h'] at hv; simp only at hv
        cases hd : c.default with
        | none => rw [hd] at hv; simp at hv
        | some d =>
          rw [hd] at hv; simp only at hv
          refine ⟨d, rfl, fun s => ?_⟩
          rw [ht s .create d]
          cases htd : t .create d with
          | none => rw [htd] at hv; simp at hv
          | some g => rfl

/-- **C27 (negation for failing calls).** Registering a creation function with a default method that does not exist raises
`KeyError` but has already put the new name into the creation table: the tables are then inconsistent (the method can be
estimated but has no precision function). -/
theorem C27_failing_registration_violated (b : Slot → String → F) (f : F) :
    ∃ c : RegCall F, (registerCurvatureMethod c (initialTables b)).1 = .error .keyError ∧
      ¬ Consistent (registerCurvatureMethod c (initialTables b)).2 := by
  refine ⟨⟨"mine", fun s => if s = .create then some f else none, some "kfac"⟩, rfl, ?_⟩
  intro h
  have := h .create .precision "mine"
  revert this
  simp [registerCurvatureMethod, assignSlots, slotValue, Slot.order, initialTables, Tables.set]

/-- **C27 (calibration registry).** Registering a calibration method changes exactly its own entry. -/
theorem C27_calibration_registry (name : String) (f : F) (t : String → Option F) :
    registerCalibrationMethod name f t name = some f ∧
    ∀ n, n ≠ name → registerCalibrationMethod name f t n = t n := by
  constructor
  · simp [registerCalibrationMethod]
  · intro n h; simp [registerCalibrationMethod, h]

/-- Non-vacuity: registering `mine` with its own covariance function and default `full` succeeds. -/
example : ∃ t', registerCurvatureMethod (F := Nat) ⟨"mine", fun s => if s = .cov then some 7 else none, some "full"⟩
    (initialTables (fun _ _ => 1)) = (.ok (), t') ∧ t' .cov "mine" = some 7 ∧ t' .scale "mine" = some 1 := ⟨_, rfl, rfl, rfl⟩

/-- **C27 (the tables after a failing registration, exactly).** On consistent tables a call that fails with `KeyError` has stored, under the
new name, the given functions up to the first one that was not given; nothing else has changed. -/
theorem C27_after_failure (c : RegCall F) (t : Tables F) (ht : Consistent t) (h : (registerCurvatureMethod c t).1 = .error .keyError) :
    (registerCurvatureMethod c t).2 = fun s n =>
      if n = c.name ∧ s ∈ [Slot.create, .precision, .posterior, .scale, .cov, .mll].takeWhile (fun s => (c.fns s).isSome) then c.fns s else t s n := by
  unfold registerCurvatureMethod at h ⊢
  split at h
  · simp at h
  · rename_i hc
    rw [if_neg hc]
    -- the default is unknown
    have hd : ∀ d, c.default = some d → ∀ s, t s d = none := by
      intro d hcd s
      apply Classical.byContradiction; intro hne
      have hall : ∀ s', (t s' d).isSome := fun s' => by rw [ht s' s d]; exact Option.isSome_iff_ne_none.2 hne
      have hgen : ∀ (ss : List Slot), ss.Nodup → ∀ u : Tables F, (∀ s' ∈ ss, u s' d = t s' d) → (assignSlots c ss u).1 = .ok () := by
        intro ss
        induction ss with
        | nil => intro _ u _; rfl
        | cons s0 ss ih =>
          intro hnd u hu
          obtain ⟨f, hf⟩ : ∃ f, slotValue u c s0 = .ok f := by
            unfold slotValue
            cases c.fns s0 with
            | some f => exact ⟨f, rfl⟩
            | none =>
              obtain ⟨f, hf⟩ := Option.isSome_iff_exists.1 (hall s0)
              exact ⟨f, by simp [hcd, hu s0 (by simp), hf]⟩
          simp only [assignSlots, hf]
          simp only [List.nodup_cons] at hnd
          apply ih hnd.2
          intro s' hs'
          have : s' ≠ s0 := fun e => hnd.1 (e ▸ hs')
          rw [← hu s' (by simp [hs'])]
          simp [Tables.set, this]
      rw [hgen Slot.order (by decide) t (fun _ _ => rfl)] at h
      cases h
    have hgen : ∀ (ss : List Slot), ss.Nodup → ∀ u : Tables F, (∀ d, c.default = some d → ∀ s ∈ ss, u s d = none) →
        (assignSlots c ss u).2 = fun s n => if n = c.name ∧ s ∈ ss.takeWhile (fun s => (c.fns s).isSome) then c.fns s else u s n := by
      intro ss
      induction ss with
      | nil => intro _ u _; simp [assignSlots]
      | cons s0 ss ih =>
        intro hnd u hu
        simp only [List.nodup_cons] at hnd
        cases hf : c.fns s0 with
        | none =>
          have hv : slotValue u c s0 = .error .keyError := by
            unfold slotValue
            rw [hf]
            cases hcd : c.default with
            | none => rfl
            | some d => simp [hu d hcd s0 (by simp)]
          simp [assignSlots, hv, List.takeWhile_cons, hf]
        | some f =>
          have hv : slotValue u c s0 = .ok f := by simp [slotValue, hf]
          simp only [assignSlots, hv]
          rw [ih hnd.2 _ (by
            intro d hcd s hs
            have : s ≠ s0 := fun e => hnd.1 (e ▸ hs)
            simp only [Tables.set, this, false_and, if_false]
            exact hu d hcd s (by simp [hs]))]
          funext s n
          simp only [List.takeWhile_cons, hf, Option.isSome_some, if_true, List.mem_cons, Tables.set]
          by_cases hn : n = c.name
          · by_cases hs : s = s0
            · subst hs; simp [hn, hf]
            · simp [hn, hs]
          · simp [hn]
    exact hgen Slot.order (by decide) t (fun d hcd s _ => hd d hcd s)

end Laplax.Props
