import Verif.Spec.Accuracy
import Verif.Model.Metrics
import Verif.Spec.Metrics
import Mathlib.Algebra.BigOperators.Field

/-! # C31: accuracy and correctness -/

namespace Laplax.Props
open Laplax Laplax.Spec
open scoped BigOperators

variable {n c : ℕ}

theorem find_finRange (p : Fin c → Bool) (k : Fin c) :
    (List.finRange c).find? p = some k ↔ p k = true ∧ ∀ j < k, p j = false := by
  rw [List.find?_eq_some_iff_getElem]
  constructor
  · rintro ⟨h1, i, hi, h2, h3⟩
    refine ⟨h1, fun j hj => ?_⟩
    have hik : i = k.val := by rw [List.getElem_finRange] at h2; simpa using congrArg Fin.val h2
    have := h3 j.val (by rw [hik]; exact hj)
    simpa using this
  · rintro ⟨h1, h2⟩
    refine ⟨h1, k.val, by simp, by simp, fun j hj => ?_⟩
    have := h2 ⟨j, by omega⟩ (by simpa [Fin.lt_def] using hj)
    simpa using this

theorem jnpArgmax_iff (z : Vec c) (k : Fin c) : jnpArgmax z = some k ↔ IsFirstMax z k := by
  unfold jnpArgmax IsFirstMax
  rw [find_finRange]
  simp only [decide_eq_true_eq, decide_eq_false_iff_not, not_forall, not_le]
  refine and_congr_right fun h => forall_congr' fun j => imp_congr_right fun hj => ⟨?_, fun h' => ⟨k, h'⟩⟩
  rintro ⟨l, hl⟩
  exact hl.trans_le (h l)

theorem exists_firstMax (hc : 0 < c) (z : Vec c) : ∃ k, IsFirstMax z k := by
  classical
  have hne : (Finset.univ : Finset (Fin c)).Nonempty := ⟨⟨0, hc⟩, Finset.mem_univ _⟩
  obtain ⟨m, -, hm⟩ := Finset.exists_max_image Finset.univ z hne
  obtain ⟨k, hk, hk'⟩ := Finset.exists_min_image (Finset.univ.filter (fun i => ∀ j, z j ≤ z i)) id
    ⟨m, by simpa using fun j => hm j (Finset.mem_univ _)⟩
  simp only [Finset.mem_filter, Finset.mem_univ, true_and, id] at hk hk'
  refine ⟨k, hk, fun j hj => lt_of_le_of_ne (hk j) fun he => ?_⟩
  exact absurd (hk' j (fun l => he ▸ hk l)) (not_le.2 hj)

theorem jnpArgmax_some (hc : 0 < c) (z : Vec c) : ∃ k, jnpArgmax z = some k ∧ IsFirstMax z k := by
  obtain ⟨k, hk⟩ := exists_firstMax hc z
  exact ⟨k, (jnpArgmax_iff z k).2 hk, hk⟩

/-! ### `lax.top_k` -/

theorem topKBefore_iff (z : Vec c) (i j : Fin c) : topKBefore z i j = true ↔ z j < z i ∨ (z i = z j ∧ i ≤ j) := by
  simp [topKBefore]

/-- The full ranking. -/
noncomputable def ranking (z : Vec c) : List (Fin c) := (List.finRange c).mergeSort (topKBefore z)

theorem ranking_perm (z : Vec c) : (ranking z).Perm (List.finRange c) := List.mergeSort_perm _ _

theorem ranking_nodup (z : Vec c) : (ranking z).Nodup := (ranking_perm z).nodup_iff.2 (List.nodup_finRange c)

theorem ranking_length (z : Vec c) : (ranking z).length = c := by rw [(ranking_perm z).length_eq]; simp

theorem ranking_mem (z : Vec c) (y : Fin c) : y ∈ ranking z := (ranking_perm z).mem_iff.2 (List.mem_finRange y)

theorem ranking_sorted (z : Vec c) : (ranking z).Pairwise (fun i j => z j < z i ∨ (z i = z j ∧ i ≤ j)) := by
  have h := List.pairwise_mergeSort (le := topKBefore z)
    (fun a b d h1 h2 => by
      rw [topKBefore_iff] at *
      rcases h1 with h1 | ⟨h1, h1'⟩ <;> rcases h2 with h2 | ⟨h2, h2'⟩
      · exact Or.inl (h2.trans h1)
      · exact Or.inl (h2 ▸ h1)
      · exact Or.inl (h1 ▸ h2)
      · exact Or.inr ⟨h1.trans h2, h1'.trans h2'⟩)
    (fun a b => by
      rw [Bool.or_eq_true, topKBefore_iff, topKBefore_iff]
      rcases lt_trichotomy (z a) (z b) with h | h | h
      · exact Or.inr (Or.inl h)
      · rcases le_total a b with h' | h'
        · exact Or.inl (Or.inr ⟨h, h'⟩)
        · exact Or.inr (Or.inr ⟨h.symm, h'⟩)
      · exact Or.inl (Or.inl h))
    (List.finRange c)
  exact h.imp (fun h => (topKBefore_iff z _ _).1 h)

/-- A class is among the first `k` of the ranking exactly if it is among the `k` best. -/
theorem mem_take_ranking (z : Vec c) (k : ℕ) (y : Fin c) : y ∈ (ranking z).take k ↔ AmongTop z k y := by
  classical
  obtain ⟨l1, l2, hl⟩ := List.append_of_mem (ranking_mem z y)
  have hnd := ranking_nodup z
  have hs := ranking_sorted z
  have hmem := ranking_mem z
  rw [hl] at hnd hs hmem
  rw [List.nodup_append] at hnd
  obtain ⟨hn1, hn2, hdis⟩ := hnd
  have hy1 : y ∉ l1 := fun h => hdis y h y (by simp) rfl
  have hset : (Finset.univ.filter (fun j => z y < z j ∨ (z j = z y ∧ j < y))) = l1.toFinset := by
    ext j
    simp only [Finset.mem_filter, Finset.mem_univ, true_and, List.mem_toFinset]
    constructor
    · intro hj
      have hm := hmem j
      rw [List.mem_append, List.mem_cons] at hm
      rcases hm with h | rfl | h
      · exact h
      · rcases hj with h | ⟨_, h⟩ <;> exact absurd h (lt_irrefl _)
      · exfalso
        have := (List.pairwise_append.1 hs).2.1
        rw [List.pairwise_cons] at this
        rcases this.1 j h with h' | ⟨h', h''⟩ <;> rcases hj with g | ⟨g, g'⟩
        · exact lt_asymm g h'
        · rw [g] at h'; exact lt_irrefl _ h'
        · rw [h'] at g; exact lt_irrefl _ g
        · exact absurd g' (not_lt.2 h'')
    · intro hj
      rcases (List.pairwise_append.1 hs).2.2 j hj y (by simp) with h | ⟨h, h'⟩
      · exact Or.inl h
      · exact Or.inr ⟨h, lt_of_le_of_ne h' (fun e => hy1 (e ▸ hj))⟩
  have hcard : (Finset.univ.filter (fun j => z y < z j ∨ (z j = z y ∧ j < y))).card = l1.length := by
    rw [hset, List.toFinset_card_of_nodup hn1]
  have : AmongTop z k y ↔ l1.length < k := by rw [← hcard]; rfl
  rw [this, hl, List.take_append, List.mem_append]
  constructor
  · rintro (h | h)
    · exact absurd (List.mem_of_mem_take h) hy1
    · by_contra hk
      have : k - l1.length = 0 := by omega
      rw [this] at h; simp at h
  · intro h
    right
    obtain ⟨m, hm⟩ : ∃ m, k - l1.length = m + 1 := ⟨k - l1.length - 1, by omega⟩
    rw [hm]; simp

/-- C31 (tie-breaking): `lax.top_k`'s first index is `argmax`. -/
theorem amongTop_one_iff (z : Vec c) (y : Fin c) : AmongTop z 1 y ↔ IsFirstMax z y := by
  classical
  unfold AmongTop IsFirstMax
  rw [Nat.lt_one_iff, Finset.card_eq_zero, Finset.filter_eq_empty_iff]
  constructor
  · intro h
    refine ⟨fun j => not_lt.1 fun g => h (Finset.mem_univ j) (Or.inl g), fun j hj => ?_⟩
    rcases lt_trichotomy (z j) (z y) with g | g | g
    · exact g
    · exact absurd (Or.inr ⟨g, hj⟩) (h (Finset.mem_univ j))
    · exact absurd (Or.inl g) (h (Finset.mem_univ j))
  · rintro ⟨h1, h2⟩ j _ (g | ⟨g, g'⟩)
    · exact absurd g (not_lt.2 (h1 j))
    · exact absurd g (h2 j g').ne

theorem amongTop_mono (z : Vec c) {k k' : ℕ} (h : k ≤ k') (y : Fin c) : AmongTop z k y → AmongTop z k' y :=
  fun h' => lt_of_lt_of_le h' h

theorem amongTop_all (z : Vec c) {k : ℕ} (h : c ≤ k) (y : Fin c) : AmongTop z k y := by
  classical
  refine lt_of_lt_of_le ?_ h
  have : (Finset.univ.filter (fun j => z y < z j ∨ (z j = z y ∧ j < y))) ⊂ (Finset.univ : Finset (Fin c)) := by
    rw [Finset.ssubset_univ_iff]
    intro h'
    have := Finset.mem_univ y
    rw [← h'] at this
    simp at this
  simpa using Finset.card_lt_card this

/-! ### `accuracy` -/

theorem countP_label (L : List (Fin c)) (hL : L.Nodup) (y : ℤ) :
    L.countP (fun j => decide ((j.val : ℤ) = y)) = (by classical exact if ∃ l ∈ L, (l.val : ℤ) = y then 1 else 0) := by
  classical
  by_cases h : ∃ l ∈ L, (l.val : ℤ) = y
  · obtain ⟨l, hl, hy⟩ := h
    rw [if_pos ⟨l, hl, hy⟩]
    have : (fun j : Fin c => decide ((j.val : ℤ) = y)) = fun j => j == l := by
      funext j
      rw [← hy, Bool.eq_iff_iff]
      simp only [decide_eq_true_eq, beq_iff_eq, Fin.ext_iff]
      omega
    rw [this, ← List.count_eq_countP]
    exact List.count_eq_one_of_mem hL hl
  · rw [if_neg h, List.countP_eq_zero]
    intro j hj hd
    exact h ⟨j, hj, by simpa using hd⟩

theorem max?_cast (ks : List ℕ) (hks : ks ≠ []) :
    ∃ m : ℕ, (ks.map (fun k : ℕ => (k : ℤ))).max? = some (m : ℤ) ∧ ∀ k ∈ ks, k ≤ m := by
  cases hm : (ks.map (fun k : ℕ => (k : ℤ))).max? with
  | none => rw [List.max?_eq_none_iff] at hm; exact absurd (List.map_eq_nil_iff.1 hm) hks
  | some m =>
    rw [List.max?_eq_some_iff] at hm
    obtain ⟨h1, h2⟩ := hm
    obtain ⟨a, _, rfl⟩ := List.mem_map.1 h1
    refine ⟨a, rfl, fun k hk => ?_⟩
    exact_mod_cast h2 (k : ℤ) (List.mem_map.2 ⟨k, hk, rfl⟩)

/-- C31: `accuracy` returns, for every requested `k`, 100 times the fraction of samples whose label is among the `k` best
scores (ties resolved towards the smaller class index). -/
theorem C31_value (pred : Fin n → Vec c) (target : Target n c) (y : Fin n → ℤ) (hy : targetLabels target = .ok y)
    (ks : List ℕ) (hks : ks ≠ []) :
    accuracy pred target (ks.map (fun k : ℕ => (k : ℤ))) = .ok (ks.map fun k => ((hits pred y k).card : ℝ) * 100 / n) := by
  obtain ⟨m, hm, hle⟩ := max?_cast ks hks
  unfold accuracy
  rw [hm]
  have hge : ¬ (min (m : ℤ) (c : ℤ) < 0) := by omega
  have hmin : (min (m : ℤ) (c : ℤ)).toNat = min m c := by omega
  simp only [bind, Except.bind, hge, if_false, hy, pure, Except.pure, List.map_map]
  congr 1
  apply List.map_congr_left
  intro k hk
  have hkm := hle k hk
  simp only [Function.comp]
  congr 2
  have hterm : ∀ i, (pySliceTo (laxTopK (pred i) (min (m : ℤ) (c : ℤ)).toNat) (min (k : ℤ) (min (m : ℤ) (c : ℤ)))).countP
      (fun j => decide ((j.val : ℤ) = y i)) = if i ∈ hits pred y k then 1 else 0 := by
    intro i
    have hslice : pySliceTo (laxTopK (pred i) (min (m : ℤ) (c : ℤ)).toNat) (min (k : ℤ) (min (m : ℤ) (c : ℤ)))
        = (ranking (pred i)).take k := by
      have h0 : (0 : ℤ) ≤ min (k : ℤ) (min (m : ℤ) (c : ℤ)) := by omega
      rw [pySliceTo, if_pos h0, laxTopK, List.take_take]
      rw [ranking, List.take_eq_take_iff, List.length_mergeSort, List.length_finRange]
      omega
    rw [hslice, countP_label _ ((ranking_nodup _).sublist (List.take_sublist _ _))]
    have hiff : (∃ l ∈ (ranking (pred i)).take k, (l.val : ℤ) = y i) ↔ i ∈ hits pred y k := by
      simp only [mem_take_ranking, hits, Finset.mem_filter, Finset.mem_univ, true_and]
      exact ⟨fun ⟨l, h1, h2⟩ => ⟨l, h2, h1⟩, fun ⟨l, h1, h2⟩ => ⟨l, h2, h1⟩⟩
    by_cases h : i ∈ hits pred y k
    · rw [if_pos h, if_pos (hiff.2 h)]
    · rw [if_neg h, if_neg (fun h' => h (hiff.1 h'))]
  simp only [hterm]
  push_cast
  simp

/-- C31: with non-negative `k`s every returned accuracy lies in `[0, 100]`. -/
theorem C31_range (pred : Fin n → Vec c) (target : Target n c) (y : Fin n → ℤ) (hy : targetLabels target = .ok y)
    (ks : List ℕ) (hks : ks ≠ []) :
    ∃ r, accuracy pred target (ks.map (fun k : ℕ => (k : ℤ))) = .ok r ∧ r.length = ks.length ∧ ∀ a ∈ r, 0 ≤ a ∧ a ≤ 100 := by
  refine ⟨_, C31_value pred target y hy ks hks, by simp, ?_⟩
  intro a ha
  obtain ⟨k, -, rfl⟩ := List.mem_map.1 ha
  refine ⟨by positivity, ?_⟩
  apply div_le_of_le_mul₀ (by positivity) (by norm_num)
  have : ((hits pred y k).card : ℝ) ≤ n := by exact_mod_cast (Finset.card_le_univ _).trans (by simp)
  linarith

/-- C31: accuracy does not decrease with `k`. -/
theorem C31_monotone (pred : Fin n → Vec c) (target : Target n c) (y : Fin n → ℤ) (hy : targetLabels target = .ok y)
    (k k' : ℕ) (h : k ≤ k') :
    ∃ a b, accuracy pred target [(k : ℤ), (k' : ℤ)] = .ok [a, b] ∧ a ≤ b := by
  refine ⟨_, _, C31_value pred target y hy [k, k'] (by simp), ?_⟩
  have : (hits pred y k).card ≤ (hits pred y k').card := by
    apply Finset.card_le_card
    intro i
    simp only [hits, Finset.mem_filter, Finset.mem_univ, true_and]
    rintro ⟨l, h1, h2⟩
    exact ⟨l, h1, amongTop_mono _ h l h2⟩
  have : ((hits pred y k).card : ℝ) ≤ (hits pred y k').card := by exact_mod_cast this
  exact div_le_div_of_nonneg_right (mul_le_mul_of_nonneg_right this (by norm_num)) (by positivity)

/-- C31: for `k` at least the number of classes the accuracy is 100 (labels valid, batch non-empty). -/
theorem C31_all_classes (hn : 0 < n) (pred : Fin n → Vec c) (target : Target n c) (y : Fin n → ℤ)
    (hy : targetLabels target = .ok y) (hv : ∀ i, ∃ l : Fin c, (l.val : ℤ) = y i) (k : ℕ) (hk : c ≤ k) :
    accuracy pred target [(k : ℤ)] = .ok [100] := by
  have h := C31_value pred target y hy [k] (by simp)
  simp only [List.map_cons, List.map_nil] at h
  rw [h]
  have : hits pred y k = Finset.univ := by
    ext i
    simp only [hits, Finset.mem_filter, Finset.mem_univ, true_and, iff_true]
    obtain ⟨l, hl⟩ := hv i
    exact ⟨l, hl, amongTop_all _ hk l⟩
  have hn' : (n : ℝ) ≠ 0 := by positivity
  rw [this, Finset.card_univ, Fintype.card_fin, mul_comm, mul_div_assoc, div_self hn', mul_one]

/-- C31: `correctness` says whether the first maximal class is the label. -/
theorem C31_correctness (hc : 0 < c) (pred : Fin n → Vec c) (target : Target n c) (y : Fin n → ℤ)
    (hy : targetLabels target = .ok y) :
    ∃ r, correctness pred target = .ok r ∧ ∀ i, r i = true ↔ ∃ l : Fin c, (l.val : ℤ) = y i ∧ IsFirstMax (pred i) l := by
  unfold correctness
  rw [if_neg hc.ne', hy]
  refine ⟨_, rfl, fun i => ?_⟩
  obtain ⟨k, h1, h2⟩ := jnpArgmax_some hc (pred i)
  simp only [h1, Option.map_some, Option.getD_some, decide_eq_true_eq]
  constructor
  · intro h; exact ⟨k, h, h2⟩
  · rintro ⟨l, hl, hm⟩
    have : jnpArgmax (pred i) = some l := (jnpArgmax_iff _ _).2 hm
    rw [h1, Option.some.injEq] at this
    rw [this, hl]

/-- C31: top-1 accuracy is 100 times the mean of `correctness`. -/
theorem C31_top1_is_mean_correctness (hc : 0 < c) (pred : Fin n → Vec c) (target : Target n c) (y : Fin n → ℤ)
    (hy : targetLabels target = .ok y) :
    ∃ r, correctness pred target = .ok r ∧
      accuracy pred target [1] = .ok [100 * ((∑ i, if r i then (1 : ℝ) else 0) / n)] := by
  obtain ⟨r, hr, hri⟩ := C31_correctness hc pred target y hy
  refine ⟨r, hr, ?_⟩
  have h := C31_value pred target y hy [1] (by simp)
  simp only [List.map_cons, List.map_nil, Nat.cast_one] at h
  rw [h]
  have h2 : ((hits pred y 1).card : ℝ) = ∑ i, if r i then (1 : ℝ) else 0 := by
    rw [Finset.sum_boole]
    congr 2
    ext i
    simp only [hits, Finset.mem_filter, Finset.mem_univ, true_and, hri, amongTop_one_iff]
  rw [h2]
  congr 2
  ring

/-- C31: one-hot targets and the label vector give the same metrics. -/
theorem C31_one_hot_targets (hc : 0 < c) (y : Fin n → Fin c) :
    targetLabels (.rows (n := n) (c := c) (fun i => oneHot ((y i).val : ℤ))) = targetLabels (.labels (n := n) (c := c) (fun i => ((y i).val : ℤ))) := by
  simp only [targetLabels, if_neg hc.ne']
  congr 1
  funext i
  have : jnpArgmax (oneHot ((y i).val : ℤ) : Vec c) = some (y i) := by
    rw [jnpArgmax_iff]
    refine ⟨fun j => ?_, fun j hj => ?_⟩
    · simp only [oneHot]; split_ifs <;> norm_num
    · have : ((j.val : ℤ)) ≠ ((y i).val : ℤ) := by rw [Fin.lt_def] at hj; omega
      simp [oneHot, this]
  simp [this]

/-- C31: an empty `top_k` raises. -/
theorem C31_empty_top_k (pred : Fin n → Vec c) (target : Target n c) : accuracy pred target [] = .error .valueError := by
  simp [accuracy, bind, Except.bind]

/-- C31 (boundary of the claim): a negative `k` next to a larger one is not rejected; python slicing turns `k = -1` into
"all but the last of the ranked classes". -/
theorem C31_negative_k : accuracy (n := 1) (c := 2) (fun _ => ![1, 0]) (.labels (fun _ => 0)) [-1, 2] = .ok [100, 100] := by
  have hr : ranking (![1, 0] : Vec 2) = [0, 1] := by
    have hlen := ranking_length (![1, 0] : Vec 2)
    have hp := ranking_perm (![1, 0] : Vec 2)
    have hs := ranking_sorted (![1, 0] : Vec 2)
    have e : List.finRange 2 = [0, 1] := by decide
    rw [e] at hp
    have : ∃ a b, ranking (![1, 0] : Vec 2) = [a, b] := List.length_eq_two.1 hlen
    obtain ⟨a, b, hab⟩ := this
    rw [hab] at hp hs ⊢
    have ha : a ∈ [(0 : Fin 2), 1] := hp.mem_iff.1 (by simp)
    have hb : b ∈ [(0 : Fin 2), 1] := hp.mem_iff.1 (by simp)
    have hne : a ≠ b := by have := hp.nodup_iff.2 (by decide); simpa using this
    fin_cases a <;> fin_cases b <;> simp at hs hne ⊢
    norm_num at hs
  have hr' : (List.finRange 2).mergeSort (topKBefore ![1, 0]) = [0, 1] := hr
  simp [accuracy, bind, Except.bind, pure, Except.pure, targetLabels, laxTopK, hr', pySliceTo, List.max?]

/-- The number of ranked classes a requested `k` reads, when the largest request is `m`: `k` itself if it is not negative, and
`min m c + k` (but at least none) if it is. -/
def effectiveK (c : ℕ) (m k : ℤ) : ℕ := if 0 ≤ k then k.toNat else (min m (c : ℤ) + k).toNat

/-- C31 (every list of integers): if the largest requested `k` is not negative, the call succeeds, and an entry `k` gives 100
times the fraction of samples whose label is among the `k` best, where a negative `k` counts from the end of the
`min (max top_k) c` ranked classes. -/
theorem C31_any_top_k (pred : Fin n → Vec c) (target : Target n c) (y : Fin n → ℤ) (hy : targetLabels target = .ok y)
    (topK : List ℤ) (m : ℤ) (hm : m ∈ topK) (hmax : ∀ k ∈ topK, k ≤ m) (hm0 : 0 ≤ m) :
    accuracy pred target topK = .ok (topK.map fun k => ((hits pred y (effectiveK c m k)).card : ℝ) * 100 / n) := by
  have hmx : topK.max? = some m := List.max?_eq_some_iff.2 ⟨hm, hmax⟩
  unfold accuracy
  rw [hmx]
  have hge : ¬ (min m (c : ℤ) < 0) := by omega
  simp only [bind, Except.bind, hge, if_false, hy, pure, Except.pure]
  congr 1
  apply List.map_congr_left
  intro k hk
  have hkm := hmax k hk
  congr 2
  have hterm : ∀ i, (pySliceTo (laxTopK (pred i) (min m (c : ℤ)).toNat) (min k (min m (c : ℤ)))).countP
      (fun j => decide ((j.val : ℤ) = y i)) = if i ∈ hits pred y (effectiveK c m k) then 1 else 0 := by
    intro i
    have hlen : (laxTopK (pred i) (min m (c : ℤ)).toNat).length = (min m (c : ℤ)).toNat := by
      rw [laxTopK, List.length_take, List.length_mergeSort, List.length_finRange]
      omega
    have hslice : pySliceTo (laxTopK (pred i) (min m (c : ℤ)).toNat) (min k (min m (c : ℤ)))
        = (ranking (pred i)).take (effectiveK c m k) := by
      rw [pySliceTo, hlen, effectiveK]
      by_cases h0 : 0 ≤ k
      · have h0' : (0 : ℤ) ≤ min k (min m (c : ℤ)) := by omega
        rw [if_pos h0', if_pos h0, laxTopK, List.take_take]
        rw [ranking, List.take_eq_take_iff, List.length_mergeSort, List.length_finRange]
        omega
      · have h0' : ¬ (0 : ℤ) ≤ min k (min m (c : ℤ)) := by omega
        rw [if_neg h0', if_neg h0, laxTopK, List.take_take]
        rw [ranking, List.take_eq_take_iff, List.length_mergeSort, List.length_finRange]
        omega
    rw [hslice, countP_label _ ((ranking_nodup _).sublist (List.take_sublist _ _))]
    have hiff : (∃ l ∈ (ranking (pred i)).take (effectiveK c m k), (l.val : ℤ) = y i) ↔ i ∈ hits pred y (effectiveK c m k) := by
      simp only [mem_take_ranking, hits, Finset.mem_filter, Finset.mem_univ, true_and]
      exact ⟨fun ⟨l, h1, h2⟩ => ⟨l, h2, h1⟩, fun ⟨l, h1, h2⟩ => ⟨l, h2, h1⟩⟩
    by_cases h : i ∈ hits pred y (effectiveK c m k)
    · rw [if_pos h, if_pos (hiff.2 h)]
    · rw [if_neg h, if_neg (fun h' => h (hiff.1 h'))]
  simp only [hterm]
  push_cast
  simp

/-- C31: a list of `k`s that is empty or entirely negative is rejected with a `ValueError`. -/
theorem C31_all_negative (pred : Fin n → Vec c) (target : Target n c) (topK : List ℤ) (h : ∀ k ∈ topK, k < 0) :
    accuracy pred target topK = .error .valueError := by
  unfold accuracy
  cases hm : topK.max? with
  | none => rfl
  | some m =>
    have := h m (List.max?_eq_some_iff.1 hm).1
    have hlt : min m (c : ℤ) < 0 := by omega
    simp only [bind, Except.bind, hlt, if_true]

/-- C31: two-dimensional targets with zero classes are rejected by both functions, whatever `top_k` is (the maximal class of an
empty row does not exist). -/
theorem C31_zero_classes (pred : Fin n → Vec 0) (t : Fin n → Vec 0) (topK : List ℤ) :
    accuracy pred (.rows t) topK = .error .valueError ∧ correctness pred (.rows t) = .error .valueError := by
  refine ⟨?_, by simp [correctness]⟩
  unfold accuracy
  cases hm : topK.max? with
  | none => rfl
  | some m =>
    simp only [bind, Except.bind, targetLabels, if_true]
    split_ifs <;> rfl

/-- C31: `correctness` on zero classes raises for label targets too, `accuracy` does not: no label is ever among the best of
no classes, so every accuracy is 0. -/
theorem C31_zero_classes_labels (pred : Fin n → Vec 0) (y : Fin n → ℤ) (ks : List ℕ) (hks : ks ≠ []) :
    accuracy pred (.labels y) (ks.map (fun k : ℕ => (k : ℤ))) = .ok (ks.map fun _ => 0) ∧
      correctness pred (.labels y) = .error .valueError := by
  refine ⟨?_, by simp [correctness]⟩
  rw [C31_value pred (.labels y) y rfl ks hks]
  congr 1
  apply List.map_congr_left
  intro k _
  have : hits pred y k = ∅ := by
    ext i
    simp only [hits, Finset.mem_filter, Finset.mem_univ, true_and, Finset.notMem_empty, iff_false]
    rintro ⟨l, _⟩
    exact l.elim0
  simp [this]

/-- Non-vacuity: four classes, the two best of three ranked ones. -/
example (pred : Fin 2 → Vec 4) : accuracy pred (.labels ![1, 2]) [3, -1]
    = .ok [((hits pred ![1, 2] 3).card : ℝ) * 100 / (2 : ℕ), ((hits pred ![1, 2] 2).card : ℝ) * 100 / (2 : ℕ)] :=
  C31_any_top_k pred _ _ rfl [3, -1] 3 (by simp) (by simp) (by norm_num)

/-- Non-vacuity: two samples, three classes, with a tie. -/
example : ∃ a b, accuracy (n := 2) (c := 3) (fun i => if i = 0 then ![1, 1, 0] else ![0, 2, 1]) (.labels ![1, 1]) [(1 : ℕ), (2 : ℕ)]
    = .ok [a, b] ∧ a ≤ b := C31_monotone _ _ _ rfl 1 2 (by norm_num)

end Laplax.Props
