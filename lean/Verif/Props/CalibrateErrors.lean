import Verif.Props.Calibrate

/-! # Property C28, continued: exceptions at any candidate -/

namespace Laplax.Props
open Laplax Laplax.Spec
variable {P R : Type} [LinearOrder R] [Top R]

/-- The state of the loop after `it` evaluations with results `s 0, …, s (it-1)`. -/
structure LoopInv (s : Nat → R) (patience : Option Int) (it cnt : Nat) (prev : Option R) : Prop where
  start : it = 0 → prev = none ∧ cnt = 0
  last : 1 ≤ it → prev = some (s (it - 1))
  runs : patience ≠ none → 1 ≤ it → ∀ k, LastStepsIncrease s it k ↔ k ≤ cnt

/-- The stopping rule, apart from running out of candidates. -/
def Fires (s : Nat → R) (patience maxIter : Option Int) (n : Nat) : Prop :=
  (∃ p, patience = some p ∧ 2 ≤ n ∧ LastStepsIncrease s n p.toNat) ∨ (∃ m, maxIter = some m ∧ m ≤ (n : Int) - 1)

theorem grid_limit (obj : P → ObjRes R) (patience maxIter : Option Int) (it cnt : Nat) (r : R) (rs : List R) (ps xs : List P) :
    ((∃ m, maxIter = some m ∧ m ≤ ((it + 1 : Nat) : Int) - 1) →
      (match maxIter with
        | some m => if m ≤ (it : Int) then (Except.ok (rs, ps) : Except Err (List R × List P)) else gridLoop obj patience maxIter (it + 1) cnt (some r) rs ps xs
        | none => gridLoop obj patience maxIter (it + 1) cnt (some r) rs ps xs) = .ok (rs, ps)) ∧
    ((¬ ∃ m, maxIter = some m ∧ m ≤ ((it + 1 : Nat) : Int) - 1) →
      (match maxIter with
        | some m => if m ≤ (it : Int) then (Except.ok (rs, ps) : Except Err (List R × List P)) else gridLoop obj patience maxIter (it + 1) cnt (some r) rs ps xs
        | none => gridLoop obj patience maxIter (it + 1) cnt (some r) rs ps xs) =
        gridLoop obj patience maxIter (it + 1) cnt (some r) rs ps xs) := by
  cases maxIter with
  | none => exact ⟨fun ⟨m, h, _⟩ => by simp at h, fun _ => rfl⟩
  | some m =>
    constructor
    · rintro ⟨m', h, h'⟩
      cases h
      simp only
      rw [if_pos (by push_cast at h'; omega)]
    · intro h
      simp only
      rw [if_neg]
      intro h'
      exact h ⟨m, rfl, by push_cast; omega⟩

theorem grid_step (obj : P → ObjRes R) (patience maxIter : Option Int) (s : Nat → R) (it cnt : Nat) (prev : Option R)
    (hinv : LoopInv s patience it cnt prev) (x : P) (hx : evalObjective (obj x) = .ok (s it)) (rs : List R) (ps xs : List P) :
    (Fires s patience maxIter (it + 1) → gridLoop obj patience maxIter it cnt prev rs ps (x :: xs) = .ok (rs ++ [s it], ps ++ [x])) ∧
    (¬ Fires s patience maxIter (it + 1) → ∃ c, LoopInv s patience (it + 1) c (some (s it)) ∧
      gridLoop obj patience maxIter it cnt prev rs ps (x :: xs) =
        gridLoop obj patience maxIter (it + 1) c (some (s it)) (rs ++ [s it]) (ps ++ [x]) xs) := by
  simp only [gridLoop, hx, ok_bind]
  cases hp : patience with
  | none =>
    simp only
    have hf : Fires s none maxIter (it + 1) ↔ ∃ m, maxIter = some m ∧ m ≤ ((it + 1 : Nat) : Int) - 1 :=
      ⟨fun h => h.elim (fun ⟨p, h, _⟩ => by simp at h) id, Or.inr⟩
    rw [hf]
    refine ⟨fun h => (grid_limit obj none maxIter it cnt (s it) _ _ xs).1 h, fun h =>
      ⟨cnt, ⟨fun h => by omega, fun _ => by simp, fun h => absurd rfl h⟩, (grid_limit obj none maxIter it cnt (s it) _ _ xs).2 h⟩⟩
  | some p =>
    rcases Nat.eq_zero_or_pos it with h0 | h0
    · obtain ⟨rfl, rfl⟩ := hinv.start h0
      subst h0
      simp only
      have hf : Fires s (some p) maxIter (0 + 1) ↔ ∃ m, maxIter = some m ∧ m ≤ ((0 + 1 : Nat) : Int) - 1 :=
        ⟨fun h => h.elim (fun ⟨p, _, h, _⟩ => by omega) id, Or.inr⟩
      rw [hf]
      refine ⟨fun h => (grid_limit obj (some p) maxIter 0 0 (s 0) _ _ xs).1 h, fun h =>
        ⟨0, ⟨fun h => by omega, fun _ => by simp, fun _ _ k => ?_⟩, (grid_limit obj (some p) maxIter 0 0 (s 0) _ _ xs).2 h⟩⟩
      constructor
      · rintro ⟨h, _⟩; omega
      · intro h; exact ⟨by omega, fun i h1 h2 => by omega⟩
    · have hpr := hinv.last h0
      subst hpr
      have hruns := lastSteps_succ s it cnt h0 (hinv.runs (by simp [hp]) h0)
      have hfire : (∃ q, some p = some q ∧ 2 ≤ it + 1 ∧ LastStepsIncrease s (it + 1) q.toNat) ↔
          p ≤ ((if s (it - 1) < s it then cnt + 1 else 0 : Nat) : Int) := by
        constructor
        · rintro ⟨q, h, _, h'⟩
          cases h
          rw [hruns] at h'; omega
        · intro h
          exact ⟨p, rfl, by omega, (hruns _).2 (by omega)⟩
      simp only
      generalize (if s (it - 1) < s it then cnt + 1 else 0) = c' at hfire hruns ⊢
      refine ⟨fun h => ?_, fun h => ⟨c', ⟨fun h => by omega, fun _ => by simp, fun _ _ => hruns⟩, ?_⟩⟩
      · split
        · rfl
        · rename_i hn
          rcases h with h | h
          · exact absurd (hfire.1 h) hn
          · exact (grid_limit obj (some p) maxIter it c' (s it) _ _ xs).1 h
      · rw [if_neg (fun h' => h (Or.inl (hfire.2 h')))]
        exact (grid_limit obj (some p) maxIter it c' (s it) _ _ xs).2 (fun h' => h (Or.inr h'))

/-- The loop over `pre ++ rest` when the candidates of `pre` can be evaluated: either the rule fires within `pre`, or the loop
arrives at `rest`. -/
theorem grid_prefix (obj : P → ObjRes R) (patience maxIter : Option Int) (s : Nat → R) (pre rest : List P) :
    ∀ (it cnt : Nat) (prev : Option R) (rs : List R) (ps : List P), LoopInv s patience it cnt prev →
      (∀ j (h : j < pre.length), evalObjective (obj pre[j]) = .ok (s (it + j))) →
      (∃ n, n < pre.length ∧ Fires s patience maxIter (it + n + 1) ∧ (∀ m < n, ¬ Fires s patience maxIter (it + m + 1)) ∧
        gridLoop obj patience maxIter it cnt prev rs ps (pre ++ rest) =
          .ok (rs ++ (List.range (n + 1)).map (fun j => s (it + j)), ps ++ pre.take (n + 1))) ∨
      ((∀ n < pre.length, ¬ Fires s patience maxIter (it + n + 1)) ∧ ∃ cnt' prev' rs' ps',
        gridLoop obj patience maxIter it cnt prev rs ps (pre ++ rest) =
          gridLoop obj patience maxIter (it + pre.length) cnt' prev' rs' ps' rest) := by
  induction pre with
  | nil =>
    intro it cnt prev rs ps _ _
    exact Or.inr ⟨fun n hn => by simp at hn, cnt, prev, rs, ps, rfl⟩
  | cons x pre ih =>
    intro it cnt prev rs ps hinv hs
    have hx : evalObjective (obj x) = .ok (s it) := hs 0 (by simp)
    obtain ⟨h1, h2⟩ := grid_step obj patience maxIter s it cnt prev hinv x hx rs ps (pre ++ rest)
    by_cases hf : Fires s patience maxIter (it + 1)
    · exact Or.inl ⟨0, by simp, by simpa using hf, fun m hm => by omega, by simpa using h1 hf⟩
    · obtain ⟨c, hc, he⟩ := h2 hf
      rcases ih (it + 1) c (some (s it)) (rs ++ [s it]) (ps ++ [x]) hc (fun j h => by
        have := hs (j + 1) (by simpa using h)
        simp only [List.getElem_cons_succ] at this
        rw [this]; congr 2; omega) with ⟨n, a1, a2, a3, a4⟩ | ⟨a1, cnt', prev', rs', ps', a2⟩
      · refine Or.inl ⟨n + 1, by simpa using a1, by rw [show it + (n + 1) + 1 = it + 1 + n + 1 by omega]; exact a2, ?_, ?_⟩
        · intro m hm
          cases m with
          | zero => exact hf
          | succ m => rw [show it + (m + 1) + 1 = it + 1 + m + 1 by omega]; exact a3 m (by omega)
        · rw [List.cons_append, he, a4, List.range_succ_eq_map (n := n + 1)]
          simp only [List.map_cons, List.map_map, List.append_assoc, List.singleton_append, List.take_succ_cons, Function.comp_def,
            Nat.add_zero]
          have : (fun j => s (it + 1 + j)) = fun j => s (it + j.succ) := by funext j; congr 1; omega
          rw [this]
      · refine Or.inr ⟨?_, cnt', prev', rs', ps', by
          rw [List.cons_append, he, a2]; congr 1; simp; omega⟩
        intro n hn
        cases n with
        | zero => exact hf
        | succ n => rw [show it + (n + 1) + 1 = it + 1 + n + 1 by omega]; exact a1 n (by simpa using hn)

/-- The objective's result on a candidate is one the search does not survive: an exception other than `ValueError`, or an array
with several entries (whose NaN test raises `ValueError`). -/
def Fatal (r : ObjRes R) (e : Err) : Prop := (r = .raises e ∧ e ≠ .valueError) ∨ (r = .array ∧ e = .valueError)

/-- **C28 (exceptions at any candidate).** Suppose the candidates `pre` have scores `s 0, s 1, …` and the next candidate `x` is
fatal.  If the stopping rule fires within the first `pre.length` evaluations, `x` is never evaluated and the result is the first
minimiser up to there; otherwise the exception propagates and no precision is returned. -/
theorem C28_exception_at_candidate (obj : P → ObjRes R) (patience maxIter : Option Int) (pre post : List P) (x : P) (e : Err) (s : Nat → R)
    (hs : ∀ j (h : j < pre.length), evalObjective (obj pre[j]) = .ok (s j)) (hx : Fatal (obj x) e) :
    (∀ n, 1 ≤ n → n ≤ pre.length → (∀ m, 1 ≤ m → m < n → ¬ MustStop s (pre ++ x :: post).length patience maxIter m) →
      MustStop s (pre ++ x :: post).length patience maxIter n →
      ∃ i, ∃ hi : i < pre.length, IsFirstMin s n i ∧
        gridSearch (pre ++ x :: post) obj patience maxIter = .ok (pre[i], pre.take n)) ∧
    ((∀ n, 1 ≤ n → n ≤ pre.length → ¬ MustStop s (pre ++ x :: post).length patience maxIter n) →
      gridSearch (pre ++ x :: post) obj patience maxIter = .error e) := by
  have hev : evalObjective (obj x) = .error e := by
    rcases hx with ⟨h1, h2⟩ | ⟨h1, h2⟩
    · rw [h1]; cases e <;> first | rfl | exact absurd rfl h2
    · rw [h1, h2]; rfl
  have hms : ∀ n, n ≤ pre.length → (MustStop s (pre ++ x :: post).length patience maxIter n ↔ Fires s patience maxIter n) := by
    intro n hn
    have : n ≠ (pre ++ x :: post).length := by simp; omega
    exact ⟨fun h => h.resolve_left this, Or.inr⟩
  have hinv : LoopInv s patience 0 0 none := ⟨fun _ => ⟨rfl, rfl⟩, fun h => by omega, fun _ h => by omega⟩
  rcases grid_prefix obj patience maxIter s pre (x :: post) 0 0 none [] [] hinv (fun j h => by rw [Nat.zero_add]; exact hs j h) with
    ⟨n, a1, a2, a3, a4⟩ | ⟨a1, cnt', prev', rs', ps', a2⟩
  · simp only [Nat.zero_add, List.nil_append] at a2 a3 a4
    refine ⟨fun n' h1 h2 h3 h4 => ?_, fun h => absurd ((hms (n + 1) a1).2 a2) (h (n + 1) (by omega) a1)⟩
    have hnn : n' = n + 1 := by
      rcases Nat.lt_trichotomy n' (n + 1) with h | h | h
      · refine absurd ((hms n' h2).1 h4) ?_
        have := a3 (n' - 1) (by omega)
        rwa [Nat.sub_add_cancel h1] at this
      · exact h
      · exact absurd ((hms (n + 1) (by omega)).2 a2) (h3 (n + 1) (by omega) h)
    subst hnn
    obtain ⟨i, hi, hmin⟩ := nanargmin_spec s (n + 1) (by omega)
    have hin := hmin.1
    refine ⟨i, by omega, hmin, ?_⟩
    have a4' : gridLoop obj patience maxIter 0 0 none [] [] (pre ++ x :: post) = .ok ((List.range (n + 1)).map s, pre.take (n + 1)) := a4
    simp only [gridSearch, a4', ok_bind, hi]
    rw [List.getElem?_take_of_lt hin, List.getElem?_eq_getElem (by omega)]
  · simp only [Nat.zero_add] at a1
    refine ⟨fun n' h1 h2 h3 h4 => ?_, fun _ => ?_⟩
    · have := a1 (n' - 1) (by omega)
      rw [Nat.sub_add_cancel h1] at this
      exact absurd ((hms n' h2).1 h4) this
    · unfold gridSearch
      rw [a2]
      simp only [gridLoop, hev, error_bind]

/-- **C28 (what can be raised).** Whatever the objective does, a call that raises either had no candidates (`ValueError`) or
raises the exception of the first fatal candidate. -/
theorem C28_raises_only_if (obj : P → ObjRes R) (patience maxIter : Option Int) (xs : List P) (e : Err)
    (h : gridSearch xs obj patience maxIter = .error e) :
    (xs = [] ∧ e = .valueError) ∨ ∃ pre x post, xs = pre ++ x :: post ∧ Fatal (obj x) e ∧
      ∀ y ∈ pre, ∀ e', ¬ Fatal (obj y) e' := by
  have hf : ∀ (r : ObjRes R), (∃ v, evalObjective r = .ok v ∧ ∀ e', ¬ Fatal r e') ∨ ∃ e', Fatal r e' := by
    intro r
    cases r with
    | num v => exact Or.inl ⟨v, rfl, fun e' h => by rcases h with ⟨h, _⟩ | ⟨h, _⟩ <;> cases h⟩
    | nan => exact Or.inl ⟨⊤, rfl, fun e' h => by rcases h with ⟨h, _⟩ | ⟨h, _⟩ <;> cases h⟩
    | array => exact Or.inr ⟨.valueError, Or.inr ⟨rfl, rfl⟩⟩
    | raises e' =>
      by_cases he : e' = .valueError
      · subst he
        exact Or.inl ⟨⊤, rfl, fun e'' h => by
          rcases h with ⟨h, h'⟩ | ⟨h, _⟩
          · cases h; exact h' rfl
          · cases h⟩
      · exact Or.inr ⟨e', Or.inl ⟨rfl, he⟩⟩
  have split : (∀ y ∈ xs, ∃ v, evalObjective (obj y) = .ok v) ∨
      ∃ pre x post e', xs = pre ++ x :: post ∧ Fatal (obj x) e' ∧ ∀ y ∈ pre, (∃ v, evalObjective (obj y) = .ok v) ∧ ∀ e', ¬ Fatal (obj y) e' := by
    clear h
    induction xs with
    | nil => exact Or.inl (fun y hy => by simp at hy)
    | cons x xs ih =>
      rcases hf (obj x) with ⟨v, hv, hnf⟩ | ⟨e', he'⟩
      · rcases ih with ih | ⟨pre, x', post, e', h1, h2, h3⟩
        · refine Or.inl fun y hy => ?_
          rcases List.mem_cons.1 hy with rfl | hy
          · exact ⟨v, hv⟩
          · exact ih y hy
        · refine Or.inr ⟨x :: pre, x', post, e', by rw [h1]; rfl, h2, fun y hy => ?_⟩
          rcases List.mem_cons.1 hy with rfl | hy
          · exact ⟨⟨v, hv⟩, hnf⟩
          · exact h3 y hy
      · exact Or.inr ⟨[], x, xs, e', rfl, he', fun y hy => by simp at hy⟩
  have score : ∀ (zs : List P), (∀ y ∈ zs, ∃ v, evalObjective (obj y) = .ok v) →
      ∃ s : Nat → R, ∀ j (h : j < zs.length), evalObjective (obj zs[j]) = .ok (s j) := by
    intro zs hz
    classical
    refine ⟨fun j => if h : j < zs.length then (hz zs[j] (List.getElem_mem h)).choose else ⊤, fun j hj => ?_⟩
    simp only [hj, dif_pos]
    exact (hz zs[j] (List.getElem_mem hj)).choose_spec
  rcases split with hall | ⟨pre, x, post, e', h1, h2, h3⟩
  · by_cases hne : xs = []
    · subst hne
      rw [(C28_errors obj patience maxIter).1] at h
      exact Or.inl ⟨rfl, (Except.error.inj h).symm⟩
    · obtain ⟨s, hs⟩ := score xs hall
      obtain ⟨n, i, hi, _, _, _, _, _, hg⟩ := C28_grid_search obj patience maxIter xs hne s hs
      rw [hg] at h; cases h
  · obtain ⟨s, hs⟩ := score pre (fun y hy => (h3 y hy).1)
    obtain ⟨g1, g2⟩ := C28_exception_at_candidate obj patience maxIter pre post x e' s hs h2
    subst h1
    right
    by_cases hst : ∃ n, 1 ≤ n ∧ n ≤ pre.length ∧ MustStop s (pre ++ x :: post).length patience maxIter n
    · exfalso
      classical
      have hn := Nat.find_spec hst
      obtain ⟨i, hi, _, hg⟩ := g1 (Nat.find hst) hn.1 hn.2.1 (fun m hm1 hm2 hm3 => Nat.find_min hst hm2 ⟨hm1, by omega, hm3⟩) hn.2.2
      rw [hg] at h; cases h
    · rw [g2 (fun n h1 h2 h3 => hst ⟨n, h1, h2, h3⟩)] at h
      cases h
      exact ⟨pre, x, post, rfl, h2, fun y hy => (h3 y hy).2⟩

/-- Non-vacuity: a `TypeError` at the third candidate propagates without patience, and is never reached with patience 1. -/
example : gridSearch (R := WithTop Nat) [1, 2, 3] (fun p : Nat => if p = 3 then .raises .typeError else .num p) none none = .error .typeError ∧
    gridSearch (R := WithTop Nat) [1, 2, 3] (fun p : Nat => if p = 3 then .raises .typeError else .num p) (some 1) none = .ok (1, [1, 2]) :=
  ⟨rfl, rfl⟩

end Laplax.Props
