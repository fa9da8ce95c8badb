import Verif.Model.Calibrate
import Verif.Spec.Calibrate
import Verif.Lib.TreeLemmas
import Mathlib.Order.WithBot

/-! # Properties C28, C29: grid search -/

namespace Laplax.Props
open Laplax Laplax.Spec
variable {P R : Type} [LinearOrder R]

theorem nanargmin_go (s : Nat → R) (n : Nat) (b : R) (bi i : Nat) (ys : List R) (hbi : bi < i) (hb : b = s bi)
    (hmin : ∀ j, j < i → s bi ≤ s j) (hfirst : ∀ j, j < bi → s bi < s j)
    (hys : ∀ k (h : k < ys.length), ys[k] = s (i + k)) (hn : n = i + ys.length) :
    IsFirstMin s n (nanargmin.go b bi i ys) := by
  induction ys generalizing b bi i with
  | nil => simp at hn; subst hn; exact ⟨hbi, hmin, hfirst⟩
  | cons y ys ih =>
    have hy : y = s i := by have := hys 0 (by simp); simpa using this
    have hys' : ∀ k (h : k < ys.length), ys[k] = s (i + 1 + k) := by
      intro k h; have := hys (k + 1) (by simpa using h); simp at this; rw [this]; congr 1; omega
    simp only [nanargmin.go]
    split
    · rename_i hlt
      refine ih y i (i + 1) (by omega) hy ?_ ?_ hys' (by simp at hn; omega)
      · intro j hj
        rcases Nat.lt_or_ge j i with h | h
        · exact le_trans (le_of_lt (by rw [← hy]; exact hlt)) (hb ▸ hmin j h)
        · have : j = i := by omega
          rw [this]
      · intro j hj; exact lt_of_lt_of_le (by rw [← hy]; exact hlt) (hb ▸ hmin j hj)
    · rename_i hnl
      refine ih b bi (i + 1) (by omega) hb ?_ hfirst hys' (by simp at hn; omega)
      intro j hj
      rcases Nat.lt_or_ge j i with h | h
      · exact hmin j h
      · have : j = i := by omega
        rw [this, ← hy, ← hb]; exact le_of_not_gt hnl

theorem nanargmin_spec (s : Nat → R) (n : Nat) (hn : 0 < n) : ∃ i, nanargmin ((List.range n).map s) = .ok i ∧ IsFirstMin s n i := by
  obtain ⟨m, rfl⟩ : ∃ m, n = m + 1 := ⟨n - 1, by omega⟩
  rw [List.range_succ_eq_map]
  simp only [List.map_cons, List.map_map, nanargmin]
  refine ⟨_, rfl, ?_⟩
  refine nanargmin_go s (m + 1) (s 0) 0 1 _ (by omega) rfl ?_ ?_ ?_ ?_
  · intro j hj; have : j = 0 := by omega
    rw [this]
  · intro j hj; omega
  · intro k h; simp; congr 1; omega
  · simp; omega

theorem lastSteps_succ (s : Nat → R) (n c : Nat) (hn : 1 ≤ n) (h : ∀ k, LastStepsIncrease s n k ↔ k ≤ c) (k : Nat) :
    LastStepsIncrease s (n + 1) k ↔ k ≤ (if s (n - 1) < s n then c + 1 else 0) := by
  cases k with
  | zero => simp only [Nat.zero_le, iff_true]; exact ⟨by omega, fun i h1 h2 => by omega⟩
  | succ k =>
    have key : LastStepsIncrease s (n + 1) (k + 1) ↔ LastStepsIncrease s n k ∧ s (n - 1) < s n := by
      constructor
      · rintro ⟨h1, h2⟩
        refine ⟨⟨by omega, fun i a b => h2 i (by omega) (by omega)⟩, ?_⟩
        have := h2 (n - 1) (by omega) (by omega)
        rwa [show n - 1 + 1 = n by omega] at this
      · rintro ⟨⟨h1, h2⟩, h3⟩
        refine ⟨by omega, fun i a b => ?_⟩
        rcases Nat.lt_or_ge (i + 1) n with h | h
        · exact h2 i (by omega) h
        · have : i = n - 1 := by omega
          subst this; rw [show n - 1 + 1 = n by omega]; exact h3
    rw [key, h]
    split <;> simp [*]

variable [Top R]

theorem gridLoop_spec (obj : P → ObjRes R) (patience maxIter : Option Int) (xs : List P) (s : Nat → R)
    (hs : ∀ j (h : j < xs.length), evalObjective (obj xs[j]) = .ok (s j)) :
    ∀ (rest : List P) (it cnt : Nat) (prev : Option R), rest ≠ [] → xs.drop it = rest → it < xs.length →
      (it = 0 → prev = none) → (1 ≤ it → prev = some (s (it - 1))) →
      ((1 ≤ it ∧ patience ≠ none) → ∀ k, LastStepsIncrease s it k ↔ k ≤ cnt) → (it = 0 → cnt = 0) →
      ∃ n, it < n ∧ n ≤ xs.length ∧ MustStop s xs.length patience maxIter n ∧
        (∀ m, it < m → m < n → ¬ MustStop s xs.length patience maxIter m) ∧
        gridLoop obj patience maxIter it cnt prev ((List.range it).map s) (xs.take it) rest =
          .ok ((List.range n).map s, xs.take n) := by
  intro rest
  induction rest with
  | nil => intro _ _ _ h; exact absurd rfl h
  | cons x rest ih =>
    intro it cnt prev _ hdrop hit hprev0 hprev1 hcnt hcnt0
    have hx : xs[it] = x := by
      have h1 := List.getElem_cons_drop (h := hit)
      rw [hdrop] at h1; exact (List.cons.inj h1).1
    have hdrop' : xs.drop (it + 1) = rest := by
      have h1 := List.getElem_cons_drop (h := hit)
      rw [hdrop] at h1; exact (List.cons.inj h1).2
    have hev : evalObjective (obj x) = .ok (s it) := by rw [← hx]; exact hs it hit
    have hR : (List.range it).map s ++ [s it] = (List.range (it + 1)).map s := by simp [List.range_succ]
    have hPx : xs.take it ++ [x] = xs.take (it + 1) := by rw [List.take_succ_eq_append_getElem hit, hx]
    -- the continuation
    have cont : ∀ c', (∀ (_ : patience ≠ none) k, LastStepsIncrease s (it + 1) k ↔ k ≤ c') →
        ¬ MustStop s xs.length patience maxIter (it + 1) ∨ it + 1 = xs.length →
        ∃ n, it < n ∧ n ≤ xs.length ∧ MustStop s xs.length patience maxIter n ∧
        (∀ m, it < m → m < n → ¬ MustStop s xs.length patience maxIter m) ∧
        gridLoop obj patience maxIter (it + 1) c' (some (s it)) ((List.range (it + 1)).map s) (xs.take (it + 1)) rest =
          .ok ((List.range n).map s, xs.take n) := by
      intro c' hc' hstop
      by_cases hr : rest = []
      · subst hr
        have hl : it + 1 = xs.length := by
          have := congrArg List.length hdrop'; simp at this; omega
        refine ⟨it + 1, by omega, by omega, Or.inl hl, fun m h1 h2 => by omega, ?_⟩
        simp [gridLoop]
      · have hl : it + 1 < xs.length := by
          have h1 := congrArg List.length hdrop'
          have h2 : rest.length ≠ 0 := by simpa using hr
          rw [List.length_drop] at h1; omega
        obtain ⟨n, h1, h2, h3, h4, h5⟩ := ih (it + 1) c' (some (s it)) hr hdrop' hl (by omega) (by simp)
          (fun h k => hc' h.2 k) (by omega)
        refine ⟨n, by omega, h2, h3, ?_, h5⟩
        intro m hm1 hm2
        rcases Nat.lt_or_ge (it + 1) m with h | h
        · exact h4 m h hm2
        · have : m = it + 1 := by omega
          subst this
          rcases hstop with h | h
          · exact h
          · omega
    have stop : MustStop s xs.length patience maxIter (it + 1) →
        ∃ n, it < n ∧ n ≤ xs.length ∧ MustStop s xs.length patience maxIter n ∧
        (∀ m, it < m → m < n → ¬ MustStop s xs.length patience maxIter m) ∧
        (.ok ((List.range (it + 1)).map s, xs.take (it + 1)) : Except Err (List R × List P)) =
          .ok ((List.range n).map s, xs.take n) :=
      fun h => ⟨it + 1, by omega, by omega, h, fun m h1 h2 => by omega, rfl⟩
    by_cases hend : it + 1 = xs.length
    · -- last element: every branch stops here
      have hrest : rest = [] := by
        have := congrArg List.length hdrop'; simp at this
        exact List.length_eq_zero_iff.1 (by omega)
      have hms : MustStop s xs.length patience maxIter (it + 1) := Or.inl hend
      subst hrest
      simp only [gridLoop, hev, ok_bind, hR, hPx]
      repeat' split
      all_goals exact stop hms
    · cases hpat : patience with
      | none =>
        subst hpat
        simp only [gridLoop, hev, ok_bind, hR, hPx]
        cases hmx : maxIter with
        | none =>
          subst hmx
          refine cont cnt (by simp) (Or.inl ?_)
          rintro (h | ⟨p, h, _⟩ | ⟨m, h, _⟩)
          · exact hend h
          · exact absurd h (by simp)
          · exact absurd h (by simp)
        | some m =>
          subst hmx
          simp only
          split
          · rename_i h
            exact stop (Or.inr (Or.inr ⟨m, rfl, by push_cast; omega⟩))
          · rename_i h
            refine cont cnt (by simp) (Or.inl ?_)
            rintro (h' | ⟨p, h', _⟩ | ⟨m', h', h''⟩)
            · exact hend h'
            · exact absurd h' (by simp)
            · cases h'; push_cast at h''; omega
      | some p =>
        subst hpat
        rcases Nat.eq_zero_or_pos it with h0 | h0
        · -- first iteration
          have hpn := hprev0 h0
          subst hpn
          have hc0 := hcnt0 h0
          subst h0
          have hinc : ∀ (_ : (some p : Option Int) ≠ none) k, LastStepsIncrease s (0 + 1) k ↔ k ≤ cnt := by
            intro _ k; rw [hc0]
            constructor
            · rintro ⟨h, _⟩; omega
            · intro h; exact ⟨by omega, fun i h1 h2 => by omega⟩
          simp only [gridLoop, hev, ok_bind, hR, hPx]
          cases hmx : maxIter with
          | none =>
            subst hmx
            refine cont cnt hinc (Or.inl ?_)
            rintro (h | ⟨p', h, h2, _⟩ | ⟨m, h, _⟩)
            · exact hend h
            · omega
            · exact absurd h (by simp)
          | some m =>
            subst hmx
            simp only
            split
            · rename_i h
              exact stop (Or.inr (Or.inr ⟨m, rfl, by push_cast at *; omega⟩))
            · rename_i h
              refine cont cnt hinc (Or.inl ?_)
              rintro (h' | ⟨p', h', h2, _⟩ | ⟨m', h', h''⟩)
              · exact hend h'
              · omega
              · cases h'; push_cast at h'' h; omega
        · have hpn := hprev1 h0
          subst hpn
          have hinc : ∀ (_ : (some p : Option Int) ≠ none) k, LastStepsIncrease s (it + 1) k ↔
              k ≤ (if s (it - 1) < s it then cnt + 1 else 0) :=
            fun _ k => lastSteps_succ s it cnt h0 (hcnt ⟨h0, by simp⟩) k
          simp only [gridLoop, hev, ok_bind, hR, hPx]
          generalize hcc : (if s (it - 1) < s it then cnt + 1 else 0) = c' at hinc ⊢
          split
          · rename_i hp
            refine stop (Or.inr (Or.inl ⟨p, rfl, by omega, (hinc (by simp) _).2 (by omega)⟩))
          · rename_i hp
            have hnp : ∀ p', (some p : Option Int) = some p' → ¬ LastStepsIncrease s (it + 1) p'.toNat := by
              intro p' h; cases h; rw [hinc (by simp)]; omega
            cases hmx : maxIter with
            | none =>
              subst hmx
              refine cont c' hinc (Or.inl ?_)
              rintro (h | ⟨p', h, _, h2⟩ | ⟨m, h, _⟩)
              · exact hend h
              · exact hnp p' h h2
              · exact absurd h (by simp)
            | some m =>
              subst hmx
              simp only
              split
              · rename_i h
                exact stop (Or.inr (Or.inr ⟨m, rfl, by push_cast; omega⟩))
              · rename_i h
                refine cont c' hinc (Or.inl ?_)
                rintro (h' | ⟨p', h', _, h2⟩ | ⟨m', h', h''⟩)
                · exact hend h'
                · exact hnp p' h' h2
                · cases h'; push_cast at h''; omega

/-- **C28.** For every non-empty interval, every patience and iteration limit, if the objective never raises anything but
`ValueError` (scores `s j`, NaN and `ValueError` counted as `⊤`): exactly the first `n` candidates are evaluated, where
`n ≥ 1` is the first count at which the stopping rule fires, and the returned value is the first minimiser among them. -/
theorem C28_grid_search (obj : P → ObjRes R) (patience maxIter : Option Int) (xs : List P) (hne : xs ≠ []) (s : Nat → R)
    (hs : ∀ j (h : j < xs.length), evalObjective (obj xs[j]) = .ok (s j)) :
    ∃ n i, ∃ hi : i < xs.length, 1 ≤ n ∧ n ≤ xs.length ∧ MustStop s xs.length patience maxIter n ∧
      (∀ m, 1 ≤ m → m < n → ¬ MustStop s xs.length patience maxIter m) ∧
      IsFirstMin s n i ∧ gridSearch xs obj patience maxIter = .ok (xs[i], xs.take n) := by
  have hl : 0 < xs.length := List.length_pos_iff.2 hne
  obtain ⟨n, h1, h2, h3, h4, h5⟩ := gridLoop_spec obj patience maxIter xs s hs xs 0 0 none hne rfl hl
    (by simp) (by omega) (by rintro ⟨h, _⟩; omega) (by simp)
  obtain ⟨i, hi, hmin⟩ := nanargmin_spec s n (by omega)
  have hin := hmin.1
  refine ⟨n, i, by omega, by omega, h2, h3, fun m a b => h4 m (by omega) b, hmin, ?_⟩
  simp only [List.range_zero, List.map_nil, List.take_zero] at h5
  simp only [gridSearch, h5, ok_bind, hi]
  rw [List.getElem?_take_of_lt hin, List.getElem?_eq_getElem (by omega)]

/-- **C28 (no limits).** Without patience and iteration limit every candidate is evaluated and the result is the first
global minimiser over the whole interval. -/
theorem C28_unlimited (obj : P → ObjRes R) (xs : List P) (hne : xs ≠ []) (s : Nat → R)
    (hs : ∀ j (h : j < xs.length), evalObjective (obj xs[j]) = .ok (s j)) :
    ∃ i, ∃ hi : i < xs.length, IsFirstMin s xs.length i ∧ gridSearch xs obj none none = .ok (xs[i], xs) := by
  obtain ⟨n, i, hi, h1, h2, h3, h4, h5, h6⟩ := C28_grid_search obj none none xs hne s hs
  have : n = xs.length := by
    rcases h3 with h | ⟨p, h, _⟩ | ⟨m, h, _⟩
    · exact h
    · exact absurd h (by simp)
    · exact absurd h (by simp)
  subst this
  exact ⟨i, hi, h5, by rw [h6, List.take_length]⟩

/-- **C28 (errors).** An empty interval raises `ValueError`; an exception other than `ValueError` from the objective on the
first candidate propagates. -/
theorem C28_errors (obj : P → ObjRes R) (patience maxIter : Option Int) :
    gridSearch [] obj patience maxIter = .error .valueError ∧
    (∀ x xs e, obj x = .raises e → e ≠ .valueError → gridSearch (x :: xs) obj patience maxIter = .error e) := by
  constructor
  · simp [gridSearch, gridLoop, nanargmin, ok_bind]; rfl
  · intro x xs e h1 h2
    have : evalObjective (obj x) = .error e := by
      rw [h1]; cases e <;> first | rfl | exact absurd rfl h2
    simp [gridSearch, gridLoop, this]; rfl

/-- **C28 (what failing evaluations count as).** NaN and `ValueError` count as `inf`: with a genuine largest element they
can only be returned if every evaluated candidate scored `inf`. -/
theorem C28_failures_lose {R : Type} [LinearOrder R] [OrderTop R] (obj : P → ObjRes R) (patience maxIter : Option Int)
    (xs : List P) (hne : xs ≠ []) (s : Nat → R) (hs : ∀ j (h : j < xs.length), evalObjective (obj xs[j]) = .ok (s j))
    (p : P) (ev : List P) (h : gridSearch xs obj patience maxIter = .ok (p, ev))
    (hp : obj p = .nan ∨ obj p = .raises .valueError) :
    ∀ q ∈ ev, evalObjective (obj q) = .ok ⊤ := by
  obtain ⟨n, i, hi, h1, h2, h3, h4, h5, h6⟩ := C28_grid_search obj patience maxIter xs hne s hs
  rw [h6] at h
  simp only [Except.ok.injEq, Prod.mk.injEq] at h
  obtain ⟨rfl, rfl⟩ := h
  have hsi : s i = ⊤ := by
    have := hs i hi
    rcases hp with h | h <;> rw [h] at this <;> simp [evalObjective] at this <;> exact this.symm
  intro q hq
  obtain ⟨j, hj, rfl⟩ := List.mem_iff_getElem.1 hq
  have hjn : j < n := by simp at hj; omega
  have hjl : j < xs.length := by omega
  rw [List.getElem_take, hs j hjl]
  have := h5.2.1 j hjn
  rw [hsi] at this
  rw [top_le_iff.1 this]

/-- **C28 (`optimize_prior_prec`).** The returned precision lies between `10^min` and `10^max`. -/
theorem C28_optimize_prior_prec_range (obj : ℝ → ObjRes R) (lo hi : ℝ) (hlh : lo ≤ hi) (num : Nat) (patience maxIter : Option Int)
    (p : ℝ) (ev : List ℝ) (s : Nat → R)
    (hs : ∀ j (h : j < (jnpLogspace lo hi num).length), evalObjective (obj (jnpLogspace lo hi num)[j]) = .ok (s j))
    (h : optimizePriorPrec obj lo hi num patience maxIter = .ok (p, ev)) : (10 : ℝ) ^ lo ≤ p ∧ p ≤ (10 : ℝ) ^ hi := by
  by_cases hne : jnpLogspace lo hi num = []
  · simp only [optimizePriorPrec, hne, (C28_errors obj patience maxIter).1] at h; cases h
  · obtain ⟨n, i, hi', h1, h2, h3, h4, h5, h6⟩ := C28_grid_search obj patience maxIter _ hne s hs
    simp only [optimizePriorPrec, h6, Except.ok.injEq, Prod.mk.injEq] at h
    obtain ⟨rfl, -⟩ := h
    simp only [jnpLogspace, List.getElem_map, List.getElem_range]
    simp only [jnpLogspace, List.length_map, List.length_range] at hi'
    have hd : 0 ≤ hi - lo := by linarith
    rcases Nat.lt_or_ge num 2 with hn | hn
    · have : i = 0 := by omega
      subst this
      simp only [Nat.cast_zero, zero_mul, add_zero]
      exact ⟨le_refl _, Real.rpow_le_rpow_of_exponent_le (by norm_num) hlh⟩
    · have hc : (1 : ℝ) ≤ (num : ℝ) - 1 := by
        have : (2 : ℝ) ≤ num := by exact_mod_cast hn
        linarith
      have hic : (i : ℝ) ≤ (num : ℝ) - 1 := by
        have : (i : ℝ) + 1 ≤ num := by exact_mod_cast hi'
        linarith
      constructor
      · apply Real.rpow_le_rpow_of_exponent_le (by norm_num)
        have : 0 ≤ (i : ℝ) * ((hi - lo) / ((num : ℝ) - 1)) := by positivity
        linarith
      · apply Real.rpow_le_rpow_of_exponent_le (by norm_num)
        have : (i : ℝ) * ((hi - lo) / ((num : ℝ) - 1)) ≤ hi - lo := by
          rw [mul_div_assoc', div_le_iff₀ (by linarith)]
          nlinarith
        linarith

/-- Non-vacuity: a run over `[10,20,30,40]` with a NaN, a `ValueError` and patience 1 stops after three evaluations. -/
example : gridSearch (R := WithTop Nat) [10, 20, 30, 40]
    (fun p : Nat => if p = 10 then .nan else if p = 20 then .num 5 else if p = 30 then .raises .valueError else .num 1)
    (some 1) none = .ok (20, [10, 20, 30]) := by rfl

/-- **C29 (partial; the claim itself is false).** The code checks `iteration >= max_iterations` *after* evaluating, with
`iteration` counted from 0, so up to `m + 1` candidates are evaluated: never more, for every `m ≥ 0`. -/
theorem C29_at_most_succ_partial (obj : P → ObjRes R) (patience : Option Int) (m : Nat) (xs : List P) (s : Nat → R)
    (hs : ∀ j (h : j < xs.length), evalObjective (obj xs[j]) = .ok (s j)) (p : P) (ev : List P)
    (h : gridSearch xs obj patience (some m) = .ok (p, ev)) : ev.length ≤ m + 1 := by
  by_cases hne : xs = []
  · subst hne; rw [(C28_errors obj patience (some m)).1] at h; cases h
  obtain ⟨n, i, hi, h1, h2, h3, h4, h5, h6⟩ := C28_grid_search obj patience (some m) xs hne s hs
  rw [h6] at h
  simp only [Except.ok.injEq, Prod.mk.injEq] at h
  rw [← h.2, List.length_take]
  have : n ≤ m + 1 := by
    by_contra hc
    exact h4 (m + 1) (by omega) (by omega) (Or.inr (Or.inr ⟨m, rfl, by push_cast; omega⟩))
  omega

/-- **C29 (negation).** Without patience, whenever more than `m` candidates are available, exactly `m + 1` are evaluated —
one more than `max_iterations`. -/
theorem C29_violated (obj : P → ObjRes R) (m : Nat) (xs : List P) (s : Nat → R) (hlen : m < xs.length)
    (hs : ∀ j (h : j < xs.length), evalObjective (obj xs[j]) = .ok (s j)) :
    ∃ p ev, gridSearch xs obj none (some m) = .ok (p, ev) ∧ ev.length = m + 1 := by
  have hne : xs ≠ [] := by rintro rfl; simp at hlen
  obtain ⟨n, i, hi, h1, h2, h3, h4, h5, h6⟩ := C28_grid_search obj none (some m) xs hne s hs
  refine ⟨_, _, h6, ?_⟩
  rw [List.length_take]
  have hn : n = m + 1 := by
    have a : n ≤ m + 1 := by
      by_contra hc
      exact h4 (m + 1) (by omega) (by omega) (Or.inr (Or.inr ⟨m, rfl, by push_cast; omega⟩))
    rcases h3 with h | ⟨p, h, _⟩ | ⟨m', h, h'⟩
    · omega
    · exact absurd h (by simp)
    · cases h; omega
  omega

example : gridSearch (R := WithTop Nat) [10, 20, 30] (fun p : Nat => .num (p : WithTop Nat)) none (some 1) = .ok (10, [10, 20]) := by rfl

/-- **C29 (the exact effect).** `max_iterations = m` is the same as offering only the first `m + 1` candidates: same outcome, same
evaluations and the same exceptions, for every objective and every patience. -/
theorem C29_truncates (obj : P → ObjRes R) (patience : Option Int) (m : Nat) (xs : List P) :
    gridSearch xs obj patience (some m) = gridSearch (xs.take (m + 1)) obj patience none := by
  have key : ∀ (xs : List P) (it cnt : Nat) (prev : Option R) (rs : List R) (ps : List P), it ≤ m →
      gridLoop obj patience (some (m : Int)) it cnt prev rs ps xs =
        gridLoop obj patience none it cnt prev rs ps (xs.take (m + 1 - it)) := by
    intro xs
    induction xs with
    | nil => intro it cnt prev rs ps _; simp [gridLoop]
    | cons x xs ih =>
      intro it cnt prev rs ps hit
      obtain ⟨k, hk⟩ : ∃ k, m + 1 - it = k + 1 := ⟨m - it, by omega⟩
      rw [hk, List.take_succ_cons]
      have hrec : ∀ cnt prev rs ps, (if (m : Int) ≤ (it : Int) then (Except.ok (rs, ps) : Except Err (List R × List P))
          else gridLoop obj patience (some (m : Int)) (it + 1) cnt prev rs ps xs) =
          gridLoop obj patience none (it + 1) cnt prev rs ps (xs.take k) := by
        intro cnt prev rs ps
        by_cases h : m ≤ it
        · rw [if_pos (by exact_mod_cast h)]
          have : k = 0 := by omega
          rw [this]; simp [gridLoop]
        · rw [if_neg (by exact_mod_cast h), ih (it + 1) cnt prev rs ps (by omega)]
          congr 2; omega
      simp only [gridLoop]
      cases evalObjective (obj x) with
      | error e => rfl
      | ok r =>
        simp only [ok_bind]
        cases patience with
        | none => exact hrec _ _ _ _
        | some pt =>
          cases prev with
          | none => exact hrec _ _ _ _
          | some q =>
            simp only
            split
            · split
              · rfl
              · exact hrec _ _ _ _
            · split
              · rfl
              · exact hrec _ _ _ _
  unfold gridSearch
  rw [key xs 0 0 none [] [] (Nat.zero_le _)]
  rfl

end Laplax.Props
