import Verif.Spec.EvalUtils
import Verif.Model.EvalUtils
import Verif.Lib.TreeLemmas

/-! # Properties C38, C39: metric plumbing -/

namespace Laplax.Props
open Laplax Laplax.Spec
variable {V W : Type}

/-! ### dictionary facts -/

theorem Dict.get?_set (d : Dict V) (k k' : String) (v : V) : (d.set k v).get? k' = if k = k' then some v else d.get? k' := by
  induction d with
  | nil => simp [Dict.set, Dict.get?]
  | cons p d ih =>
    obtain ⟨k₀, v₀⟩ := p
    simp only [Dict.set]
    by_cases h : k₀ = k
    · simp only [h, if_true, Dict.get?]; by_cases h' : k = k' <;> simp [h']
    · simp only [h, if_false, Dict.get?, ih]
      by_cases h' : k₀ = k'
      · simp only [h', if_true]; rw [if_neg]; rintro rfl; exact h h'
      · simp [h']

theorem Dict.get?_append (a b : Dict V) (k : String) : Dict.get? (a ++ b) k = (a.get? k).or (b.get? k) := by
  induction a with
  | nil => simp [Dict.get?]
  | cons p a ih => obtain ⟨k₀, v₀⟩ := p; simp only [List.cons_append, Dict.get?]; split <;> simp [ih]

/-! ## C38 -/

/-- **C38 (`finalize_fns` folds left to right).** Running `fs ++ gs` is running `fs` and then `gs` on the dictionaries
`fs` produced; the first exception stops everything; with no functions the results are returned as they are. -/
theorem C38_finalize_append (kwargs : Dict V) (fs gs : List (StepFn V)) (r a : Dict V) :
    finalizeLoop kwargs (fs ++ gs) r a = (finalizeLoop kwargs fs r a >>= fun p => finalizeLoop kwargs gs p.1 p.2) ∧
    finalizeFns (fs ++ gs) r a kwargs = (finalizeLoop kwargs fs r a >>= fun p => finalizeFns gs p.1 p.2 kwargs) ∧
    finalizeFns [] r a kwargs = .ok r ∧
    (∀ f, finalizeFns [f] r a kwargs = (f r a kwargs).map Prod.fst) := by
  have h : ∀ (fs : List (StepFn V)) (r a : Dict V),
      finalizeLoop kwargs (fs ++ gs) r a = (finalizeLoop kwargs fs r a >>= fun p => finalizeLoop kwargs gs p.1 p.2) := by
    intro fs
    induction fs with
    | nil => intro r a; rfl
    | cons f fs ih =>
      intro r a
      simp only [List.cons_append, finalizeLoop]
      cases f r a kwargs with
      | error e => rfl
      | ok p => simp only [ok_bind]; exact ih _ _
  refine ⟨h fs r a, ?_, rfl, ?_⟩
  · simp only [finalizeFns, h fs r a]
    cases finalizeLoop kwargs fs r a with
    | error e => rfl
    | ok p => rfl
  · intro f
    simp only [finalizeFns, finalizeLoop]
    cases f r a kwargs with
    | error e => rfl
    | ok p => rfl

/-- Loop of `apply_fns` writing to results with fixed arguments. -/
theorem applyLoop_results (localKw args : Dict V) (fns : List (KwFn V × String)) (r a r' a' : Dict V)
    (hnd : (fns.map Prod.snd).Nodup) (h : applyLoop "results" localKw (some args) fns r a = .ok (r', a')) :
    a' = a ∧ (∀ f name, (f, name) ∈ fns → ∃ v, callKw f args localKw = .ok v ∧ r'.get? name = some v) ∧
    (∀ k, k ∉ fns.map Prod.snd → r'.get? k = r.get? k) := by
  induction fns generalizing r with
  | nil => simp [applyLoop] at h; obtain ⟨rfl, rfl⟩ := h; simp
  | cons p fns ih =>
    obtain ⟨f, name⟩ := p
    simp only [applyLoop, Option.getD_some, if_true] at h
    cases hv : callKw f args localKw with
    | error e => rw [hv] at h; cases h
    | ok v =>
      rw [hv, ok_bind] at h
      simp only [List.map_cons, List.nodup_cons] at hnd
      obtain ⟨h1, h2, h3⟩ := ih _ hnd.2 h
      refine ⟨h1, ?_, ?_⟩
      · intro f' name' hm
        rcases List.mem_cons.1 hm with hm | hm
        · cases hm
          refine ⟨v, hv, ?_⟩
          rw [h3 _ hnd.1, Dict.get?_set]; simp
        · exact h2 f' name' hm
      · intro k hk
        simp only [List.map_cons, List.mem_cons, not_or] at hk
        rw [h3 k hk.2, Dict.get?_set, if_neg (fun e => hk.1 e.symm)]

/-- What `lookupPairs` builds: `k ↦` the value of `v` in results, else in aux; fails iff some `v` is in neither. -/
theorem lookupPairs_spec (results aux : Dict V) (mapping : List (String × String)) (acc : Dict V)
    (hnd : (mapping.map Prod.fst).Nodup) :
    (∀ p, lookupPairs results aux mapping acc = .ok p →
      (∀ k v, (k, v) ∈ mapping → ∃ x, (results.get? v).or (aux.get? v) = some x ∧ p.get? k = some x) ∧
      (∀ k, k ∉ mapping.map Prod.fst → p.get? k = acc.get? k)) ∧
    ((∃ k v, (k, v) ∈ mapping ∧ results.get? v = none ∧ aux.get? v = none) →
      lookupPairs results aux mapping acc = .error .valueError) := by
  induction mapping generalizing acc with
  | nil => simp [lookupPairs]
  | cons q mapping ih =>
    obtain ⟨k₀, v₀⟩ := q
    simp only [List.map_cons, List.nodup_cons] at hnd
    -- value found
    have found : ∀ x, (results.get? v₀).or (aux.get? v₀) = some x →
        lookupPairs results aux ((k₀, v₀) :: mapping) acc = lookupPairs results aux mapping (acc.set k₀ x) := by
      intro x hx
      simp only [lookupPairs]
      cases hr : results.get? v₀ with
      | some y => rw [hr] at hx; simp at hx; simp [hx]
      | none =>
        rw [hr] at hx; simp at hx
        simp [hx]
    constructor
    · intro p hp
      cases hx : (results.get? v₀).or (aux.get? v₀) with
      | none =>
        simp at hx
        simp [lookupPairs, hx.1, hx.2] at hp
      | some x =>
        rw [found x hx] at hp
        obtain ⟨h1, h2⟩ := (ih (acc.set k₀ x) hnd.2).1 p hp
        refine ⟨?_, ?_⟩
        · intro k v hm
          rcases List.mem_cons.1 hm with hm | hm
          · cases hm
            refine ⟨x, hx, ?_⟩
            rw [h2 _ hnd.1, Dict.get?_set]; simp
          · exact h1 k v hm
        · intro k hk
          simp only [List.map_cons, List.mem_cons, not_or] at hk
          rw [h2 k hk.2, Dict.get?_set, if_neg (fun e => hk.1 e.symm)]
    · rintro ⟨k, v, hm, hr, ha⟩
      cases hx : (results.get? v₀).or (aux.get? v₀) with
      | none => simp at hx; simp [lookupPairs, hx.1, hx.2]
      | some x =>
        rw [found x hx]
        refine (ih (acc.set k₀ x) hnd.2).2 ⟨k, v, ?_, hr, ha⟩
        rcases List.mem_cons.1 hm with hm | hm
        · cases hm; rw [hr, ha] at hx; simp at hx
        · exact hm

/-- **C38 (`apply_fns`).** With a keyword mapping and distinct names, storing into `results`: whenever the step succeeds,
every function was called with exactly the mapped values (`results` taking precedence over `aux`), its value is stored
under its name, every other key of `results` and the whole of `aux` are untouched. -/
theorem C38_apply_fns (funcs : List (KwFn V × String)) (names : List String) (mapping : List (String × String))
    (hm : mapping ≠ []) (hmd : (mapping.map Prod.fst).Nodup) (hnd : names.Nodup) (r a kw r' a' : Dict V)
    (h : applyFns funcs (some names) "results" mapping r a kw = .ok (r', a')) :
    names.length = funcs.length ∧ a' = a ∧
    (∃ args : Dict V, (∀ k v, (k, v) ∈ mapping → ∃ x, (r.get? v).or (a.get? v) = some x ∧ args.get? k = some x) ∧
      (∀ k, k ∉ mapping.map Prod.fst → args.get? k = none) ∧
      ∀ i (hi : i < funcs.length) (hi' : i < names.length), ∃ v, callKw funcs[i].1 args kw = .ok v ∧ r'.get? names[i] = some v) ∧
    (∀ k, k ∉ names → r'.get? k = r.get? k) := by
  simp only [applyFns] at h
  cases hp : resolvePairs r a mapping with
  | error e => rw [hp] at h; cases h
  | ok po =>
    rw [hp, ok_bind] at h
    cases hn : resolveNames funcs (some names) with
    | error e => rw [hn] at h; cases h
    | ok ns =>
      rw [hn, ok_bind] at h
      simp only [resolveNames] at hn
      split at hn
      · cases hn
      · rename_i hl
        simp only [ne_eq, Decidable.not_not] at hl
        cases hn
        cases mapping with
        | nil => exact absurd rfl hm
        | cons m ms =>
          simp only [resolvePairs] at hp
          cases hlk : lookupPairs r a (m :: ms) [] with
          | error e => rw [hlk] at hp; cases hp
          | ok args =>
            rw [hlk] at hp; cases hp
            have hz : ((funcs.map Prod.fst).zip names).map Prod.snd = names := by
              rw [List.map_snd_zip]; simp [hl]
            obtain ⟨h1, h2, h3⟩ := applyLoop_results kw args _ r a r' a' (by rw [hz]; exact hnd) h
            obtain ⟨l1, l2⟩ := (lookupPairs_spec r a (m :: ms) [] hmd).1 args hlk
            refine ⟨hl, h1, ⟨args, l1, fun k hk => by rw [l2 k hk]; rfl, ?_⟩, ?_⟩
            · intro i hi hi'
              refine h2 _ _ ?_
              rw [List.mem_iff_getElem]
              exact ⟨i, by simp; omega, by simp⟩
            · intro k hk; exact h3 k (by rw [hz]; exact hk)

/-- **C38 (`apply_fns` errors).** A mapped key in neither dictionary, or a wrong number of names, is a `ValueError`; an
invalid `field` is a `ValueError` as soon as one function is applied. -/
theorem C38_apply_fns_errors (funcs : List (KwFn V × String)) (names : List String) (mapping : List (String × String))
    (field : String) (r a kw : Dict V) :
    ((mapping.map Prod.fst).Nodup → (∃ k v, (k, v) ∈ mapping ∧ r.get? v = none ∧ a.get? v = none) → ∀ ns,
      applyFns funcs ns field mapping r a kw = .error .valueError) ∧
    (names.length ≠ funcs.length → mapping = [] → applyFns funcs (some names) field mapping r a kw = .error .valueError) ∧
    (∀ f n, field ≠ "results" → field ≠ "aux" → mapping = [] → (∃ v, callKw f a kw = .ok v) →
      applyFns [(f, n)] none field mapping r a kw = .error .valueError) := by
  refine ⟨?_, ?_, ?_⟩
  · intro hnd hex ns
    have := (lookupPairs_spec r a mapping [] hnd).2 hex
    cases mapping with
    | nil => obtain ⟨_, _, h, _⟩ := hex; simp at h
    | cons m ms => simp only [applyFns, resolvePairs, this]; rfl
  · rintro h rfl
    simp [applyFns, resolvePairs, resolveNames, h, ok_bind]; rfl
  · rintro f n h1 h2 rfl ⟨v, hv⟩
    simp [applyFns, resolvePairs, resolveNames, ok_bind, applyLoop, hv, h1, h2]

/-- **C38 (`apply_fns` without mapping, `field = "aux"`: aliasing).** The argument dictionary *is* `aux`, so the second
function already receives the first function's value. -/
theorem C38_apply_fns_aux_alias (f g : KwFn V) (n m : String) (r a : Dict V) (v : V) (hv : f a = .ok v) :
    applyFns [(f, n), (g, m)] none "aux" [] r a [] =
      (g (a.set n v) >>= fun w => .ok (r, (a.set n v).set m w)) := by
  simp [applyFns, resolvePairs, resolveNames, ok_bind, applyLoop, callKw, Dict.keys, hv]

/-- **C38 (keyword collision).** A keyword that is both looked up from the results/aux and passed by the caller makes the call
raise `TypeError`, whatever the function. -/
theorem C38_duplicate_keyword (f : KwFn V) (n k v : String) (x : V) (r a kw : Dict V)
    (hx : (r.get? v).or (a.get? v) = some x) (hk : k ∈ kw.keys) :
    applyFns [(f, n)] (some [n]) "results" [(k, v)] r a kw = .error .typeError := by
  have h1 : lookupPairs r a [(k, v)] [] = .ok [(k, x)] := by
    simp only [lookupPairs]
    cases h : r.get? v with
    | some y => rw [h] at hx; simp at hx; subst hx; rfl
    | none => rw [h] at hx; simp at hx; simp only [hx]; rfl
  have h2 : kw.keys.any (fun k' => Dict.mem [(k, x)] k') = true := by
    rw [List.any_eq_true]
    exact ⟨k, hk, by simp [Dict.mem, Dict.get?]⟩
  simp only [applyFns, resolvePairs, h1, ok_bind, resolveNames, pure, Except.pure]
  show applyLoop "results" kw (some [(k, x)]) [(f, n)] r a = _
  simp only [applyLoop, callKw, Option.getD_some]
  erw [if_pos h2]
  rfl

theorem transferLoop_results (mapping : List (String × String)) (r a r' a' : Dict V) (hnd : (mapping.map Prod.fst).Nodup)
    (h : transferLoop "results" "aux" mapping r a = .ok (r', a')) :
    a' = a ∧ (∀ k v, (k, v) ∈ mapping → ∃ x, a.get? v = some x ∧ r'.get? k = some x) ∧
    (∀ k, k ∉ mapping.map Prod.fst → r'.get? k = r.get? k) := by
  induction mapping generalizing r with
  | nil => simp [transferLoop] at h; obtain ⟨rfl, rfl⟩ := h; simp
  | cons q mapping ih =>
    obtain ⟨k₀, v₀⟩ := q
    simp only [transferLoop] at h
    cases hx : a.get? v₀ with
    | none => simp [Dict.getE, hx] at h; cases h
    | some x =>
      have hx' : a.getE v₀ = .ok x := by simp [Dict.getE, hx]
      simp only [show ("aux" = "results") = False by simp, if_false, hx', ok_bind, if_true] at h
      simp only [List.map_cons, List.nodup_cons] at hnd
      obtain ⟨h1, h2, h3⟩ := ih _ hnd.2 h
      refine ⟨h1, ?_, ?_⟩
      · intro k v hm
        rcases List.mem_cons.1 hm with hm | hm
        · cases hm; exact ⟨x, hx, by rw [h3 _ hnd.1, Dict.get?_set]; simp⟩
        · exact h2 k v hm
      · intro k hk
        simp only [List.map_cons, List.mem_cons, not_or] at hk
        rw [h3 k hk.2, Dict.get?_set, if_neg (fun e => hk.1 e.symm)]

theorem transferLoop_aux (mapping : List (String × String)) (r a r' a' : Dict V) (hnd : (mapping.map Prod.fst).Nodup)
    (h : transferLoop "aux" "results" mapping r a = .ok (r', a')) :
    r' = r ∧ (∀ k v, (k, v) ∈ mapping → ∃ x, r.get? v = some x ∧ a'.get? k = some x) ∧
    (∀ k, k ∉ mapping.map Prod.fst → a'.get? k = a.get? k) := by
  induction mapping generalizing a with
  | nil => simp [transferLoop] at h; obtain ⟨rfl, rfl⟩ := h; simp
  | cons q mapping ih =>
    obtain ⟨k₀, v₀⟩ := q
    simp only [transferLoop] at h
    cases hx : r.get? v₀ with
    | none => simp [Dict.getE, hx] at h; cases h
    | some x =>
      have hx' : r.getE v₀ = .ok x := by simp [Dict.getE, hx]
      simp only [show ("aux" = "results") = False by simp, if_false, hx', ok_bind, if_true] at h
      simp only [List.map_cons, List.nodup_cons] at hnd
      obtain ⟨h1, h2, h3⟩ := ih _ hnd.2 h
      refine ⟨h1, ?_, ?_⟩
      · intro k v hm
        rcases List.mem_cons.1 hm with hm | hm
        · cases hm; exact ⟨x, hx, by rw [h3 _ hnd.1, Dict.get?_set]; simp⟩
        · exact h2 k v hm
      · intro k hk
        simp only [List.map_cons, List.mem_cons, not_or] at hk
        rw [h3 k hk.2, Dict.get?_set, if_neg (fun e => hk.1 e.symm)]

/-- **C38 (`transfer_entry`).** Copying from `aux` to `results` (or back) copies exactly the requested entries and touches
nothing else, including the source dictionary. -/
theorem C38_transfer_entry (mapping : List (String × String)) (hnd : (mapping.map Prod.fst).Nodup) (r a kw r' a' : Dict V) :
    (∀ s : StepFn V, transferEntry mapping "results" "aux" = .ok s → s r a kw = .ok (r', a') →
      a' = a ∧ (∀ k v, (k, v) ∈ mapping → ∃ x, a.get? v = some x ∧ r'.get? k = some x) ∧
      (∀ k, k ∉ mapping.map Prod.fst → r'.get? k = r.get? k)) ∧
    (∀ s : StepFn V, transferEntry mapping "aux" "results" = .ok s → s r a kw = .ok (r', a') →
      r' = r ∧ (∀ k v, (k, v) ∈ mapping → ∃ x, r.get? v = some x ∧ a'.get? k = some x) ∧
      (∀ k, k ∉ mapping.map Prod.fst → a'.get? k = a.get? k)) := by
  constructor
  · intro s hs h
    simp [transferEntry] at hs; subst hs
    exact transferLoop_results mapping r a r' a' hnd h
  · intro s hs h
    simp [transferEntry] at hs; subst hs
    exact transferLoop_aux mapping r a r' a' hnd h

/-- **C38 (`transfer_entry` succeeds iff all sources exist; absent entries are a `KeyError`).** -/
theorem C38_transfer_entry_errors (mapping : List (String × String)) (r a : Dict V) :
    ((∀ k v, (k, v) ∈ mapping → (a.get? v).isSome) → ∃ r', transferLoop "results" "aux" mapping r a = .ok (r', a)) ∧
    ((∃ k v, (k, v) ∈ mapping ∧ a.get? v = none) → transferLoop "results" "aux" mapping r a = .error .keyError) ∧
    (∀ field acc, ¬ (field = "results" ∨ field = "aux") ∨ ¬ (acc = "results" ∨ acc = "aux") →
      transferEntry (V := V) mapping field acc = .error .valueError) := by
  refine ⟨?_, ?_, ?_⟩
  · intro h
    induction mapping generalizing r with
    | nil => exact ⟨r, rfl⟩
    | cons q mapping ih =>
      obtain ⟨k₀, v₀⟩ := q
      have h0 := h k₀ v₀ (by simp)
      obtain ⟨x, hx⟩ := Option.isSome_iff_exists.1 h0
      have hx' : a.getE v₀ = .ok x := by simp [Dict.getE, hx]
      simp only [transferLoop, show ("aux" = "results") = False by simp, if_false, hx', ok_bind, if_true]
      exact ih _ (fun k v hm => h k v (by simp [hm]))
  · rintro ⟨k, v, hm, hn⟩
    induction mapping generalizing r with
    | nil => simp at hm
    | cons q mapping ih =>
      obtain ⟨k₀, v₀⟩ := q
      simp only [transferLoop, show ("aux" = "results") = False by simp, if_false, if_true]
      cases hx : a.get? v₀ with
      | none => simp [Dict.getE, hx]; rfl
      | some x =>
        have hx' : a.getE v₀ = .ok x := by simp [Dict.getE, hx]
        rw [hx', ok_bind]
        refine ih _ ?_
        rcases List.mem_cons.1 hm with hm | hm
        · cases hm; rw [hn] at hx; cases hx
        · exact hm
  · intro field acc h
    unfold transferEntry; rw [if_pos h]

/-- Non-vacuity of the success hypotheses. -/
example : ∃ r' a', applyFns (V := Nat) [(fun d => d.getE "x", "f"), (fun d => d.getE "y", "g")] (some ["p", "q"]) "results"
    [("x", "u"), ("y", "w")] [("u", 1), ("z", 5)] [("u", 2), ("w", 3)] [] = .ok (r', a') ∧ r' = [("u", 1), ("z", 5), ("p", 1), ("q", 3)] :=
  ⟨_, _, rfl, rfl⟩

/-! ## C39 -/

/-- **C39 (partial).** The caller's metric list is unchanged whenever no `metrics_dict` is given, or no list is given, or
the call fails at argument checking. Missing: a list together with a dictionary (`C39_list_mutation_violated`). -/
theorem C39_list_unchanged_partial {D X : Type} (predFn : X → Except Err (Dict V)) (data : List (X × V)) (gen : List D) (tr : D → Except Err (X × V))
    (metrics : Option (List (StepFn V))) (md : Option (List (KwFn V × String))) (reduce : List V → Except Err W) (kwargs : Dict V)
    (h : metrics = none ∨ md = none) :
    (evaluateMetricsOnDataset predFn data metrics md reduce kwargs).2 = metrics ∧
    (evaluateMetricsOnGenerator predFn gen tr metrics md reduce kwargs).2 = metrics := by
  rcases h with rfl | rfl
  · cases md <;> exact ⟨rfl, rfl⟩
  · cases metrics <;> exact ⟨rfl, rfl⟩

/-- **C39 (negation).** With both a list and a dictionary, the caller's list has one more element after every call; after
`n` calls with the same list object it has grown by `n`, so each metric of the dictionary is evaluated `n` times. -/
theorem C39_list_mutation_violated {X : Type} (predFn : X → Except Err (Dict V)) (data : List (X × V))
    (ms : List (StepFn V)) (md : List (KwFn V × String)) (reduce : List V → Except Err W) (kwargs : Dict V) :
    (∃ ms', (evaluateMetricsOnDataset predFn data (some ms) (some md) reduce kwargs).2 = some ms' ∧ ms'.length = ms.length + 1) ∧
    ∀ n, ∃ ms', (Nat.repeat (fun m => (evaluateMetricsOnDataset predFn data m (some md) reduce kwargs).2) n (some ms)) = some ms' ∧
      ms'.length = ms.length + n := by
  refine ⟨⟨_, rfl, by simp⟩, ?_⟩
  intro n
  induction n with
  | zero => exact ⟨ms, rfl, rfl⟩
  | succ n ih =>
    obtain ⟨ms', h1, h2⟩ := ih
    refine ⟨ms' ++ [applyFns md (some (md.map Prod.snd)) "results" []], ?_, by simp [h2]; omega⟩
    simp only [Nat.repeat, h1]; rfl

theorem reduceMetrics_ok (reduce : List V → Except Err W) (results : List (Dict V)) (ks : List String) (out : Dict W)
    (h : reduceMetrics reduce results ks = .ok out) :
    out.keys = ks ∧ ∀ k ∈ ks, ks.Nodup → ∃ vs w, results.map (fun r => r.get? k) = vs.map some ∧ reduce vs = .ok w ∧ out.get? k = some w := by
  induction ks generalizing out with
  | nil => simp [reduceMetrics] at h; subst h; simp [Dict.keys]
  | cons m ms ih =>
    simp only [reduceMetrics] at h
    cases h1 : mapE (fun r => Dict.getE r m) results with
    | error e => rw [h1] at h; cases h
    | ok vs =>
      rw [h1, ok_bind] at h
      cases h2 : reduce vs with
      | error e => rw [h2] at h; cases h
      | ok w =>
        rw [h2, ok_bind] at h
        cases h3 : reduceMetrics reduce results ms with
        | error e => rw [h3] at h; cases h
        | ok rest =>
          rw [h3, ok_bind] at h
          cases h
          obtain ⟨i1, i2⟩ := ih rest h3
          refine ⟨by simp only [Dict.keys, List.map_cons] at i1 ⊢; rw [i1], ?_⟩
          intro k hk hnd
          simp only [List.nodup_cons] at hnd
          rcases List.mem_cons.1 hk with rfl | hk
          · refine ⟨vs, w, ?_, h2, by simp [Dict.get?]⟩
            clear h2 h3 i1 i2 hnd hk ih
            induction results generalizing vs with
            | nil => simp [mapE] at h1; subst h1; rfl
            | cons r rs ih' =>
              simp only [mapE] at h1
              cases hg : r.get? k with
              | none => simp [Dict.getE, hg] at h1; cases h1
              | some x =>
                have hx' : r.getE k = .ok x := by simp [Dict.getE, hg]
                rw [hx', ok_bind] at h1
                cases hr : mapE (fun r => Dict.getE r k) rs with
                | error e => rw [hr] at h1; cases h1
                | ok vs' => rw [hr, ok_bind] at h1; cases h1; simp [hg, ih' vs' hr]
          · obtain ⟨vs', w', a1, a2, a3⟩ := i2 k hk hnd.2
            refine ⟨vs', w', a1, a2, ?_⟩
            simp only [Dict.get?]
            rw [if_neg (by rintro rfl; exact hnd.1 hk)]; exact a3

theorem initMetrics_used {metrics : Option (List (StepFn V))} {md : Option (List (KwFn V × String))} {ms : List (StepFn V)}
    {after : Option (List (StepFn V))} (h : initMetrics metrics md = .ok (ms, after)) : ms = metricsUsed metrics md := by
  cases metrics <;> cases md <;> simp [initMetrics] at h <;> simp [metricsUsed, ← h.1]

/-- **C39 (generator).** For every non-empty generator, if the evaluation succeeds, the output has exactly the metrics of
the first item, and each is `reduce` of the list of *all* per-item values in generation order. -/
theorem C39_generator_reduces_all {D X : Type} (predFn : X → Except Err (Dict V)) (d : D) (gen : List D) (tr : D → Except Err (X × V))
    (metrics : Option (List (StepFn V))) (md : Option (List (KwFn V × String))) (reduce : List V → Except Err W) (kwargs : Dict V)
    (out : Dict W) (h : (evaluateMetricsOnGenerator predFn (d :: gen) tr metrics md reduce kwargs).1 = .ok out) :
    ∃ (ms : List (StepFn V)) (r : Dict V) (rs : List (Dict V)), ms = metricsUsed metrics md ∧
      mapE (fun d => tr d >>= evaluatePoint predFn ms kwargs) (d :: gen) = .ok (r :: rs) ∧ out.keys = r.keys ∧
      (r.keys.Nodup → ∀ k ∈ r.keys, ∃ vs w, (r :: rs).map (fun r => r.get? k) = vs.map some ∧ reduce vs = .ok w ∧ out.get? k = some w) := by
  simp only [evaluateMetricsOnGenerator] at h
  cases hi : initMetrics metrics md with
  | error e => rw [hi] at h; simp at h
  | ok p =>
    obtain ⟨ms, after⟩ := p
    rw [hi] at h; simp only at h
    cases hr : mapE (fun d => tr d >>= evaluatePoint predFn ms kwargs) (d :: gen) with
    | error e => rw [hr] at h; cases h
    | ok rs =>
      rw [hr, ok_bind] at h
      have hl : rs.length = (d :: gen).length := by
        rw [mapE_ok_iff] at hr; exact hr.length_eq.symm
      cases rs with
      | nil => simp at hl
      | cons r rs =>
        obtain ⟨a, b⟩ := reduceMetrics_ok reduce (r :: rs) r.keys out h
        exact ⟨ms, r, rs, initMetrics_used hi, hr, a, fun hn k hk => b k hk hn⟩

/-- **C39 (dataset).** Same for a data set. -/
theorem C39_dataset_reduces_all {X : Type} (predFn : X → Except Err (Dict V)) (data : List (X × V))
    (metrics : Option (List (StepFn V))) (md : Option (List (KwFn V × String))) (reduce : List V → Except Err W) (kwargs : Dict V)
    (out : Dict W) (h : (evaluateMetricsOnDataset predFn data metrics md reduce kwargs).1 = .ok out) :
    ∃ (ms : List (StepFn V)) (r : Dict V) (rs : List (Dict V)), ms = metricsUsed metrics md ∧
      mapE (evaluatePoint predFn ms kwargs) data = .ok (r :: rs) ∧ out.keys = r.keys ∧
      (r.keys.Nodup → ∀ k ∈ r.keys, ∃ vs w, (r :: rs).map (fun r => r.get? k) = vs.map some ∧ reduce vs = .ok w ∧ out.get? k = some w) := by
  simp only [evaluateMetricsOnDataset] at h
  cases hi : initMetrics metrics md with
  | error e => rw [hi] at h; simp at h
  | ok p =>
    obtain ⟨ms, after⟩ := p
    rw [hi] at h; simp only at h
    cases hr : mapE (evaluatePoint predFn ms kwargs) data with
    | error e => rw [hr] at h; cases h
    | ok rs =>
      rw [hr, ok_bind] at h
      cases rs with
      | nil => simp at h
      | cons r rs =>
        obtain ⟨a, b⟩ := reduceMetrics_ok reduce (r :: rs) r.keys out h
        exact ⟨ms, r, rs, initMetrics_used hi, hr, a, fun hn k hk => b k hk hn⟩

/-- **C39 (argument check).** Neither a list nor a dictionary: `ValueError`; an empty generator yields an empty dictionary. -/
theorem C39_edge_cases {D X : Type} (predFn : X → Except Err (Dict V)) (data : List (X × V)) (gen : List D) (tr : D → Except Err (X × V))
    (reduce : List V → Except Err W) (kwargs : Dict V) (ms : List (StepFn V)) :
    (evaluateMetricsOnDataset predFn data none none reduce kwargs).1 = .error .valueError ∧
    (evaluateMetricsOnGenerator predFn gen tr none none reduce kwargs).1 = .error .valueError ∧
    (evaluateMetricsOnGenerator predFn ([] : List D) tr (some ms) none reduce kwargs).1 = .ok [] := ⟨rfl, rfl, rfl⟩

example : (evaluateMetricsOnGenerator (V := Nat) (W := Nat) (fun x : Nat => .ok [("p", x)]) [1, 2, 3] (fun d => .ok (d, 10 * d))
    (some [fun _ a _ => do let p ← a.getE "p"; let t ← a.getE "target"; return ([("s", p + t)], a)]) none (fun l => .ok l.sum) []).1
    = .ok [("s", 66)] := rfl

end Laplax.Props
