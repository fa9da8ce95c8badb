import Verif.Model.LowRankDrivers

/-! # Properties C24, C25: global precision flag and LOBPCG rank -/

namespace Laplax.Props
open Laplax

/-! ## C24 -/

/-- `m` never writes the flag. -/
def KeepsFlag {α : Type} (m : X64M α) : Prop := ∀ f, (m f).2 = f

theorem keepsFlag_call {α : Type} (g : Bool → Except Err α) : KeepsFlag (X64M.call g) := fun _ => rfl
theorem keepsFlag_throw {α : Type} (e : Err) : KeepsFlag (X64M.throw (α := α) e) := fun _ => rfl
theorem keepsFlag_pure {α : Type} (a : α) : KeepsFlag (Pure.pure a : X64M α) := fun _ => rfl

/-- The flag after an outcome: `orig` on success, `cur` on an exception. -/
def OutFlag {α : Type} (cur orig : Bool) : Except Err α × Bool → Prop
  | (.ok _, f) => f = orig
  | (.error _, f) => f = cur

theorem outFlag_bind {α β : Type} (m : X64M α) (k : α → X64M β) (cur orig : Bool) (hm : KeepsFlag m)
    (hk : ∀ a, OutFlag cur orig (k a cur)) : OutFlag cur orig (X64M.bind m k cur) := by
  have h2 := hm cur
  rw [X64M.bind]
  cases h1 : m cur with
  | mk r f' =>
    rw [h1] at h2; simp only at h2; subst h2
    cases r with
    | ok a => exact hk a
    | error e' => rfl

theorem lanczos_outFlag {F α Key Vec Iter Eig Res : Type} (c : LanczosCalls Key Vec Iter Eig Res)
    (a : LanczosArgs F α Key Vec) (orig : Bool) :
    OutFlag (decide (a.calcDtype = .f64)) orig (lanczosLowrank c a orig) := by
  refine outFlag_bind (X64M.call (fun _ => getMatvecSize a.op a.layout)) _ _ _ (keepsFlag_call _) fun size => ?_
  refine outFlag_bind _ _ _ _ ?_ fun b => ?_
  · unfold startVector; split
    · exact keepsFlag_call _
    · exact keepsFlag_call _
    · exact keepsFlag_throw _
  refine outFlag_bind _ _ _ _ (keepsFlag_call _) fun it => ?_
  refine outFlag_bind _ _ _ _ (keepsFlag_call _) fun eig => ?_
  refine outFlag_bind _ _ _ _ (keepsFlag_call _) fun res => ?_
  rfl

theorem lobpcg_outFlag {F α Key Mat Eig Res : Type} (c : LobpcgCalls Key Mat Eig Res)
    (a : LobpcgArgs F α Key) (orig : Bool) :
    OutFlag (decide (a.calcDtype = .f64)) orig (lobpcgLowrank c a orig) := by
  refine outFlag_bind (X64M.call (fun _ => getMatvecSize a.op a.layout)) _ _ _ (keepsFlag_call _) fun size => ?_
  refine outFlag_bind _ _ _ _ ?_ fun b => ?_
  · unfold lobpcgKey; split
    · exact keepsFlag_pure _
    · exact keepsFlag_call _
  refine outFlag_bind _ _ _ _ (keepsFlag_call _) fun it => ?_
  refine outFlag_bind _ _ _ _ (keepsFlag_call _) fun eig => ?_
  refine outFlag_bind _ _ _ _ (keepsFlag_call _) fun res => ?_
  refine outFlag_bind _ _ _ _ (keepsFlag_call _) fun res' => ?_
  rfl

/-- **C24 (partial).** Missing: exception paths (see `C24_flag_after_exception`, `C24_violated`). Whenever the drivers
*return*, the global flag has its original value, whatever the arguments and numerics. -/
theorem C24_restored_on_return_partial {F α Key Vec Mat Iter Eig Res : Type} :
    (∀ (c : LanczosCalls Key Vec Iter Eig Res) (a : LanczosArgs F α Key Vec) (orig : Bool) (r : Res) (f : Bool),
      lanczosLowrank c a orig = (.ok r, f) → f = orig) ∧
    (∀ (c : LobpcgCalls Key Mat Eig Res) (a : LobpcgArgs F α Key) (orig : Bool) (r : Res × Nat) (f : Bool),
      lobpcgLowrank c a orig = (.ok r, f) → f = orig) := by
  constructor
  · intro c a orig r f h
    have h1 := lanczos_outFlag c a orig
    rw [h] at h1; exact h1
  · intro c a orig r f h
    have h1 := lobpcg_outFlag c a orig
    rw [h] at h1; exact h1

/-- **C24 (exceptions).** On *every* exception the flag is left at `calc_dtype == float64` instead of being restored. -/
theorem C24_flag_after_exception {F α Key Vec Mat Iter Eig Res : Type} :
    (∀ (c : LanczosCalls Key Vec Iter Eig Res) (a : LanczosArgs F α Key Vec) (orig : Bool) (e : Err) (f : Bool),
      lanczosLowrank c a orig = (.error e, f) → f = decide (a.calcDtype = .f64)) ∧
    (∀ (c : LobpcgCalls Key Mat Eig Res) (a : LobpcgArgs F α Key) (orig : Bool) (e : Err) (f : Bool),
      lobpcgLowrank c a orig = (.error e, f) → f = decide (a.calcDtype = .f64)) := by
  constructor
  · intro c a orig r f h
    have h1 := lanczos_outFlag c a orig
    rw [h] at h1; exact h1
  · intro c a orig r f h
    have h1 := lobpcg_outFlag c a orig
    rw [h] at h1; exact h1

/-- **C24 (sufficient condition).** If the flag already equals `calc_dtype == float64`, it is preserved on every outcome. -/
theorem C24_always_restored_if_matching {F α Key Vec Iter Eig Res : Type} (c : LanczosCalls Key Vec Iter Eig Res)
    (a : LanczosArgs F α Key Vec) : (lanczosLowrank c a (decide (a.calcDtype = .f64))).2 = decide (a.calcDtype = .f64) := by
  cases h : lanczosLowrank c a (decide (a.calcDtype = .f64)) with
  | mk r f =>
    cases r with
    | ok r => exact (C24_restored_on_return_partial (Mat := Unit)).1 c a _ r f h
    | error e => exact (C24_flag_after_exception (Mat := Unit)).1 c a _ e f h

/-- **C24 (negation).** With the default `calc_dtype = float64` in a process running in 32-bit mode: calling
`lanczos_lowrank` without key and start vector on a well-formed operator raises the documented `ValueError` and leaves the
process in 64-bit mode; likewise if the user's operator raises during the iterations; likewise for `lobpcg_lowrank` with
size = 5·rank. -/
theorem C24_violated {F α Key Vec Mat Iter Eig Res : Type} (c : LanczosCalls Key Vec Iter Eig Res)
    (cb : LobpcgCalls Key Mat Eig Res) (a : LanczosArgs F α Key Vec) (ab : LobpcgArgs F α Key) (hc : a.calcDtype = .f64) (n : Nat)
    (hop : getMatvecSize a.op a.layout = .ok n) :
    (a.b = none → a.key = none → lanczosLowrank c a false = (.error .valueError, true)) ∧
    (∀ e v, a.b = some v → c.asarray v .f64 true = .ok v → (∀ v r d d', c.iterations v r d d' true = .error e) →
      lanczosLowrank c a false = (.error e, true)) ∧
    (∀ k x, ab.calcDtype = .f64 → ab.key = some k → (∀ n r, cb.normal k n r .f64 true = .ok x) →
      getMatvecSize ab.op ab.layout = .ok (ab.rank * 5) → lobpcgLowrank cb ab false = (.error .valueError, true)) := by
  refine ⟨?_, ?_, ?_⟩
  · intro h1 h2
    simp only [lanczosLowrank, Bind.bind, X64M.bind, X64M.read, X64M.update, X64M.call, startVector, X64M.throw, hc, hop, h1, h2, decide_true]
  · intro e v h1 h2 h3
    simp only [lanczosLowrank, Bind.bind, X64M.bind, X64M.read, X64M.update, X64M.call, startVector, hc, hop, h1, h2, h3, decide_true]
  · intro k x h1 h2 h3 h4
    simp only [lobpcgLowrank, Bind.bind, X64M.bind, X64M.read, X64M.update, X64M.call, lobpcgKey, h1, h2, h3, h4, decide_true, pure, Pure.pure, X64M.pure]
    simp [lobpcgRank, lobpcgCheckInputs]

/-- **C24 (a callable needs a layout).** A callable operator without layout makes both drivers raise `TypeError` before any
numerics, whatever the other arguments; arrays need none. -/
theorem C24_callable_needs_layout {F α Key Vec Mat Iter Eig Res : Type} (c : LanczosCalls Key Vec Iter Eig Res)
    (cb : LobpcgCalls Key Mat Eig Res) (a : LanczosArgs F α Key Vec) (ab : LobpcgArgs F α Key) (f : F) (orig : Bool) :
    (lanczosLowrank c { a with op := .callable f, layout := (LayoutArg.none : LayoutArg α) } orig).1 = .error .typeError ∧
    (lobpcgLowrank cb { ab with op := .callable f, layout := (LayoutArg.none : LayoutArg α) } orig).1 = .error .typeError ∧
    ∀ n m, getMatvecSize (F := F) (α := α) (.array [n, m]) .none = .ok n := ⟨rfl, rfl, fun _ _ => rfl⟩

/-- **C24 (dtype selection).** Without explicit dtypes the operator is evaluated and the results are returned in the
precision of the *original* flag, while the iterations run in `calc_dtype` with the flag set accordingly. -/
theorem C24_default_dtypes {F α Key Vec Iter Eig Res : Type} (c : LanczosCalls Key Vec Iter Eig Res)
    (a : LanczosArgs F α Key Vec) (orig f : Bool) (r : Res) (hmv : a.mvDtype = none) (hret : a.returnDtype = none)
    (h : lanczosLowrank c a orig = (.ok r, f)) :
    ∃ v it eig, c.iterations v a.rank (if orig then .f64 else .f32) a.calcDtype (decide (a.calcDtype = .f64)) = .ok it ∧
      c.eigh it (decide (a.calcDtype = .f64)) = .ok eig ∧
      c.convert eig (if orig then .f64 else .f32) (decide (a.calcDtype = .f64)) = .ok r := by
  simp only [lanczosLowrank, Bind.bind, X64M.bind, X64M.read, X64M.update, X64M.call, hmv, hret, Option.getD_none, defaultDtype] at h
  cases h1 : getMatvecSize a.op a.layout with
  | error e => rw [h1] at h; simp at h
  | ok n =>
    rw [h1] at h; simp only at h
    have fin : ∀ (o : Except Err Vec), (match (o, decide (a.calcDtype = FloatType.f64)) with
        | (.ok b, f') => X64M.bind (X64M.call (c.iterations b a.rank (if orig then .f64 else .f32) a.calcDtype)) (fun it =>
            X64M.bind (X64M.call (c.eigh it)) (fun eig => X64M.bind (X64M.call (c.convert eig (if orig then .f64 else .f32)))
              (fun res => X64M.bind (X64M.update orig) (fun _ => X64M.pure res)))) f'
        | (.error e, f') => (.error e, f')) = ((.ok r, f) : Except Err Res × Bool) → ∃ v it eig,
        c.iterations v a.rank (if orig then .f64 else .f32) a.calcDtype (decide (a.calcDtype = .f64)) = .ok it ∧
        c.eigh it (decide (a.calcDtype = .f64)) = .ok eig ∧
        c.convert eig (if orig then .f64 else .f32) (decide (a.calcDtype = .f64)) = .ok r := by
      intro o ho
      cases o with
      | error e => simp at ho
      | ok v =>
        simp only [X64M.bind, X64M.call] at ho
        cases h2 : c.iterations v a.rank (if orig then .f64 else .f32) a.calcDtype (decide (a.calcDtype = .f64)) with
        | error e => rw [h2] at ho; simp at ho
        | ok it =>
          rw [h2] at ho; simp only at ho
          cases h3 : c.eigh it (decide (a.calcDtype = .f64)) with
          | error e => rw [h3] at ho; simp at ho
          | ok eig =>
            rw [h3] at ho; simp only at ho
            cases h4 : c.convert eig (if orig then .f64 else .f32) (decide (a.calcDtype = .f64)) with
            | error e => rw [h4] at ho; simp at ho
            | ok res =>
              rw [h4] at ho
              simp [X64M.update, X64M.pure] at ho
              exact ⟨v, it, eig, h2, h3, by rw [← ho.1]; exact h4⟩
    have hk : KeepsFlag (startVector c a n) := by
      unfold startVector; split
      · exact keepsFlag_call _
      · exact keepsFlag_call _
      · exact keepsFlag_throw _
    have hk' := hk (decide (a.calcDtype = .f64))
    refine fin (startVector c a n (decide (a.calcDtype = .f64))).1 ?_
    rw [← h]
    cases hv : startVector c a n (decide (a.calcDtype = .f64)) with
    | mk o f' => rw [hv] at hk'; simp only at hk'; subst hk'; rfl

/-- Non-vacuity: a run that returns, and one that raises, from a 32-bit process. -/
example : ∃ (c : LanczosCalls Unit Nat Nat Nat Nat) (a : LanczosArgs Unit Nat Unit Nat),
    lanczosLowrank c a false = (.ok 7, false) ∧ lanczosLowrank c { a with b := none } false = (.error .valueError, true) :=
  ⟨⟨fun v _ _ => .ok v, fun _ n _ _ => .ok n, fun v _ _ _ _ => .ok v, fun v _ => .ok v, fun v _ _ => .ok v⟩,
   ⟨.array [3, 3], .none, none, some 7, 2, none, .f64, none⟩, rfl, rfl⟩

/-! ## C25 -/

/-- **C25 (partial).** The adjusted rank is at least 1 and at most the requested rank (`rank ≥ 1`); it meets the solver's
requirement `5 * rank' < size` for every size except `size ≤ 5` and `size = 5 * rank`. Missing: those sizes, for which
the claim is false (`C25_violated`). -/
theorem C25_rank_partial (size rank : Nat) (hr : 1 ≤ rank) :
    1 ≤ lobpcgRank size rank ∧ lobpcgRank size rank ≤ rank ∧
    (lobpcgRank size rank * 5 < size ↔ 5 < size ∧ size ≠ 5 * rank) := by
  unfold lobpcgRank
  split <;> omega

/-- **C25 (reaches the solver).** For admissible sizes `lobpcg_lowrank` returns with the adjusted rank (numerics
succeeding); otherwise it raises the solver's `ValueError`. -/
theorem C25_lowrank_outcome {F α Key Mat Eig Res : Type} (c : LobpcgCalls Key Mat Eig Res) (a : LobpcgArgs F α Key)
    (hr : 1 ≤ a.rank) (size : Nat) (hs : getMatvecSize a.op a.layout = .ok size) (orig : Bool) (k : Key) (hk : a.key = some k)
    (x : Mat) (eig : Eig) (res : Res) (h1 : ∀ n r d f, c.normal k n r d f = .ok x) (h2 : ∀ r d d' f, c.solve x r d d' f = .ok eig)
    (h3 : ∀ d f, c.convert eig d f = .ok res) :
    (5 < size ∧ size ≠ 5 * a.rank → ∃ r', 1 ≤ r' ∧ r' ≤ a.rank ∧ 5 * r' < size ∧ lobpcgLowrank c a orig = (.ok (res, r'), orig)) ∧
    (¬ (5 < size ∧ size ≠ 5 * a.rank) → (lobpcgLowrank c a orig).1 = .error .valueError) := by
  obtain ⟨p1, p2, p3⟩ := C25_rank_partial size a.rank hr
  constructor
  · intro h
    have h5 := p3.2 h
    refine ⟨lobpcgRank size a.rank, p1, p2, by omega, ?_⟩
    simp only [lobpcgLowrank, Bind.bind, X64M.bind, X64M.read, X64M.update, X64M.call, lobpcgKey, hs, hk, h1, h2, h3, pure, Pure.pure, X64M.pure]
    simp [lobpcgCheckInputs, Nat.not_le.2 h5]
  · intro h
    have h5 : ¬ lobpcgRank size a.rank * 5 < size := fun h' => h (p3.1 h')
    simp only [lobpcgLowrank, Bind.bind, X64M.bind, X64M.read, X64M.update, X64M.call, lobpcgKey, hs, hk, h1, h2, h3, pure, Pure.pure, X64M.pure]
    have h6 : size ≤ lobpcgRank size a.rank * 5 := by omega
    simp [lobpcgCheckInputs, h6]

/-- **C25 (negation).** The default rank 20 on a problem of size exactly 100 is *not* adjusted and not admissible; neither
is any problem of size at most 5. -/
theorem C25_violated : (lobpcgRank 100 20 = 20 ∧ ¬ lobpcgRank 100 20 * 5 < 100) ∧
    ∀ size rank, size ≤ 5 → 1 ≤ rank → ¬ lobpcgRank size rank * 5 < size := by
  refine ⟨by decide, fun size rank h hr h' => ?_⟩
  have := (C25_rank_partial size rank hr).2.2.1 h'
  omega

example : lobpcgRank 37 20 = 6 ∧ 6 * 5 < 37 := by decide

end Laplax.Props
