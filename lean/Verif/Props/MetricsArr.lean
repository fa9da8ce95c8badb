import Verif.Model.MetricsArr
import Verif.Spec.MetricsArr
import Verif.Props.Broadcast
import Verif.Props.TreeAxis
import Verif.Props.Accuracy

/-! # C77: the classification metrics on arrays of any shape -/

namespace Laplax.Props
open Laplax Laplax.Spec
open scoped BigOperators Matrix

variable {n m c : ℕ}

/-! ### Entries along the last axis -/

theorem position_lastAxis : ∀ (sh ix : List ℕ) (c k : ℕ), IsIndex sh ix → position (sh ++ [c]) (ix ++ [k]) = position sh ix * c + k
  | [], [], c, k, _ => by simp [position, shapeSize]
  | s :: sh, i :: ix, c, k, h => by
    rw [List.cons_append, List.cons_append, position, position, position_lastAxis sh ix c k h.2, shapeSize_append]
    simp [shapeSize]; ring
  | [], _ :: _, _, _, h => h.elim
  | _ :: _, [], _, _, h => h.elim

theorem isIndex_lastAxis : ∀ {sh ix : List ℕ} {c k : ℕ}, IsIndex sh ix → k < c → IsIndex (sh ++ [c]) (ix ++ [k])
  | [], [], _, _, _, hk => ⟨hk, trivial⟩
  | _ :: _, _ :: _, _, _, h, hk => ⟨h.1, isIndex_lastAxis h.2 hk⟩
  | [], _ :: _, _, _, h, _ => h.elim
  | _ :: _, [], _, _, h, _ => h.elim

/-- The row of the predictions at a position. -/
def rowAt (a : Arr ℝ) (sh : List ℕ) (c : ℕ) (ix : List ℕ) : Fin c → ℝ := fun k => a.data.getD (position sh ix * c + k.val) 0

theorem scoresAt_row {a : Arr ℝ} {sh : List ℕ} (h : a.shape = sh ++ [c]) (ha : a.WF) {ix : List ℕ} (hi : IsIndex sh ix) :
    ScoresAt a ix (rowAt a sh c ix) := by
  intro k
  have hlt := position_lt (isIndex_lastAxis hi k.isLt)
  rw [position_lastAxis sh ix c k hi] at hlt
  unfold entryAt rowAt
  rw [h, position_lastAxis sh ix c k hi, List.getD_eq_getElem?_getD]
  have : position sh ix * c + k.val < a.data.length := by rw [ha, h]; exact hlt
  rw [List.getElem?_eq_getElem this]; rfl

theorem reduceLast_entry (f : {c : ℕ} → Vec c → ℝ) {a : Arr ℝ} {sh : List ℕ} (h : a.shape = sh ++ [c]) (hc : 0 < c) :
    ∃ r, reduceLast f a = .ok r ∧ r.WF ∧ r.shape = sh ∧ ∀ ix, IsIndex sh ix → entryAt r ix = some (f (rowAt a sh c ix)) := by
  refine ⟨_, reduceLast_ok f h hc, by simp [Arr.WF], rfl, fun ix hi => ?_⟩
  have hlt := position_lt hi
  simp only [entryAt, List.getElem?_map, List.getElem?_range hlt, Option.map_some]
  rfl

theorem argmaxNum_eq (hc : 0 < c) (z : Vec c) : ∃ k : Fin c, IsFirstMax z k ∧ argmaxNum z = (k.val : ℝ) := by
  obtain ⟨k, h1, h2⟩ := jnpArgmax_some hc z
  exact ⟨k, h2, by simp [argmaxNum, h1]⟩

theorem isFirstMax_unique {z : Vec c} {k l : Fin c} (h : IsFirstMax z k) (h' : IsFirstMax z l) : k = l := by
  rcases lt_trichotomy k l with h1 | h1 | h1
  · exact absurd (h.1 l) (not_le.2 (h'.2 k h1))
  · exact h1
  · exact absurd (h'.1 k) (not_le.2 (h.2 l h1))

theorem seenBy_isIndex : ∀ {sh out ix : List ℕ}, FitsInto sh out → IsIndex out ix → IsIndex sh (List.zipWith (fun n i => if n = 1 then 0 else i) sh ix)
  | [], [], [], _, _ => trivial
  | s :: sh, o :: out, i :: ix, hf, hi => by
    refine ⟨?_, seenBy_isIndex hf.2 hi.2⟩
    rcases hf.1 with h | h
    · by_cases h1 : s = 1
      · simp [h1]
      · simp only [h1, if_false]; rw [h]; exact hi.1
    · simp [h]
  | [], [], _ :: _, _, h => h.elim
  | _ :: _, _ :: _, [], _, h => h.elim
  | [], _ :: _, _, h, _ => h.elim
  | _ :: _, [], _, h, _ => h.elim

theorem isIndex_of_entry {α : Type} {a : Arr α} (_ha : a.WF) (sh : List ℕ) (hs : a.shape = sh) {t out ix : List ℕ} (hout : bcShapes sh t = some out)
    (hi : IsIndex out ix) : IsIndex sh (seenBy sh ix) := by
  have hf := (bcShapes_fits hout).1
  have hl := isIndex_length hi
  have hlen : out.length = max sh.length t.length := bcShapes_length hout
  have h1 := seenBy_isIndex hf hi
  unfold padShape at h1
  unfold seenBy
  rw [hl]
  have key : ∀ (j : ℕ) (ix : List ℕ), IsIndex (List.replicate j 1 ++ sh) (List.zipWith (fun n i => if n = 1 then 0 else i) (List.replicate j 1 ++ sh) ix) →
      IsIndex sh (List.zipWith (fun n i => if n = 1 then 0 else i) sh (ix.drop j)) := by
    intro j
    induction j with
    | zero => intro ix h; simpa using h
    | succ j ih =>
      intro ix h
      cases ix with
      | nil => simp [List.replicate_succ] at h; exact h.elim
      | cons i ix =>
        simp only [List.replicate_succ, List.cons_append, List.zipWith_cons_cons] at h
        exact ih ix h.2
  exact key _ ix h1

/-- **C77 (correctness).** For predictions of any shape `(*sh, c)` with `c > 0` classes and a target that is not 2-D: the call succeeds exactly when
the target's shape broadcasts against `sh`, and every entry of the result says whether the first best class at that position is the
label found there; otherwise `TypeError` or `ValueError`. -/
theorem C77_correctness (pred target : Arr ℝ) (sh : List ℕ) (hc : 0 < c) (hp : pred.shape = sh ++ [c]) (hpw : pred.WF) (htw : target.WF)
    (h2 : target.shape.length ≠ 2) :
    (Compatible sh target.shape → ∃ r, correctnessArr pred target = .ok r ∧ r.WF ∧ r.shape.length = max sh.length target.shape.length ∧
      (∀ k, axisFromRight r.shape k = if axisFromRight sh k = 1 then axisFromRight target.shape k else axisFromRight sh k) ∧
      ∀ ix, IsIndex r.shape ix → ∃ (z : Vec c) (l : Fin c) (y : ℝ), ScoresAt pred (seenBy sh ix) z ∧ IsFirstMax z l ∧
        entryAt target (seenBy target.shape ix) = some y ∧ entryAt r ix = some (decide ((l.val : ℝ) = y))) ∧
    (¬ Compatible sh target.shape → correctnessArr pred target =
      .error (if sh.length = target.shape.length then .typeError else .valueError)) := by
  obtain ⟨q, q1, q2, q3, q4⟩ := reduceLast_entry argmaxNum hp hc
  have hred : correctnessArr pred target = Arr.bcast2 (fun x y : ℝ => decide (x = y)) q target := by
    simp only [correctnessArr, argmaxLast, q1, ok_bind, targetArr, if_neg h2]
  rw [hred]
  constructor
  · intro hcomp
    have hs := (compatible_iff sh target.shape).2 hcomp
    obtain ⟨out, hout⟩ := Option.isSome_iff_exists.1 hs
    obtain ⟨r, r1, r2, r3, r4, r5⟩ := bcast2_ok (fun x y : ℝ => decide (x = y)) q target q2 htw (by rw [q3]; exact hcomp)
    have hro : r.shape = out := by
      unfold Arr.bcast2 at r1
      rw [q3, hout] at r1
      cases r1; rfl
    rw [q3] at r3 r4 r5
    refine ⟨r, r1, r2, r3, r4, fun ix hix => ?_⟩
    obtain ⟨x, y, hx, hy, hr⟩ := r5 ix hix
    have hi : IsIndex sh (seenBy sh ix) := isIndex_of_entry q2 sh q3 hout (hro ▸ hix)
    rw [q4 _ hi] at hx
    obtain ⟨l, l1, l2⟩ := argmaxNum_eq hc (rowAt pred sh c (seenBy sh ix))
    refine ⟨_, l, y, scoresAt_row hp hpw hi, l1, hy, ?_⟩
    rw [hr, ← Option.some.inj hx, l2]
  · intro hcomp
    have := bcast2_error (fun x y : ℝ => decide (x = y)) q target (by rw [q3]; exact hcomp)
    rw [this, bcError, q3]

/-! ### Tables -/

theorem table_wf (z : Fin n → Fin c → ℝ) : (tableArr z).WF := by
  simp [Arr.WF, tableArr, shapeSize, List.length_flatten, Function.comp_def]

theorem reduceLast_table (f : {c : ℕ} → Vec c → ℝ) (hc : 0 < c) (z : Fin n → Fin c → ℝ) :
    reduceLast f (tableArr z) = .ok (vectorArr fun i => f (z i)) := by
  rw [reduceLast_ok f (b := tableArr z) (sh := [n]) (c := c) rfl hc]
  simp only [vectorArr, tableArr]
  rw [show shapeSize [n] = n by simp [shapeSize], range_map_eq_ofFn]
  congr 3
  funext i
  congr 1
  funext k
  exact flatten_ofFn_getD z i k

theorem targetArr_vector (y : Fin n → ℝ) : targetArr (vectorArr y) = .ok (vectorArr y) := by
  simp [targetArr, vectorArr]

theorem targetArr_table (hc : 0 < c) (z : Fin n → Fin c → ℝ) : targetArr (tableArr z) = .ok (vectorArr fun i => argmaxNum (z i)) := by
  rw [targetArr, if_pos (by simp [tableArr])]
  exact reduceLast_table argmaxNum hc z

theorem argmaxNum_one (y : Vec 1) : argmaxNum y = 0 := by
  obtain ⟨k, -, h⟩ := argmaxNum_eq one_pos y
  rw [h, Subsingleton.elim k 0]; simp

theorem column_eq_table (y : Fin n → ℝ) : columnArr y = tableArr fun i (_ : Fin 1) => y i := by
  unfold columnArr tableArr
  congr 1
  rw [← ofFn_singletons]
  simp [List.ofFn_succ]

theorem bcast2_vector {α : Type} (f : ℝ → ℝ → α) (x y : Fin n → ℝ) :
    Arr.bcast2 f (vectorArr x) (vectorArr y) = .ok ⟨[n], List.ofFn fun i => f (x i) (y i)⟩ := by
  rw [bcast2_same f (vectorArr x) (vectorArr y) (by simp [Arr.WF, vectorArr, shapeSize]) (by simp [Arr.WF, vectorArr, shapeSize]) rfl]
  simp [vectorArr, zipWith_ofFn]

theorem correct_iff (hc : 0 < c) (z : Vec c) (y : Fin c) : argmaxNum z = (y.val : ℝ) ↔ IsFirstMax z y := by
  obtain ⟨k, k1, k2⟩ := argmaxNum_eq hc z
  rw [k2]
  constructor
  · intro h
    have : k = y := Fin.ext (by exact_mod_cast h)
    rwa [← this]
  · intro h; rw [isFirstMax_unique h k1]

/-- **C77 (documented shapes).** Predictions `(n, c)` with labels `(n,)`, or with one score vector per sample `(n, c')`: the entries say whether
the first best class is the label (of the score vector: its first best class). -/
theorem C77_correctness_documented (hc : 0 < c) (pred : Fin n → Fin c → ℝ) (y : Fin n → Fin c) :
    open Classical in correctnessArr (tableArr pred) (vectorArr fun i => ((y i).val : ℝ)) = .ok ⟨[n], List.ofFn fun i => decide (IsFirstMax (pred i) (y i))⟩ ∧
    ∀ (z : Fin n → Fin c → ℝ), (∀ i, IsFirstMax (z i) (y i)) →
      open Classical in correctnessArr (tableArr pred) (tableArr z) = .ok ⟨[n], List.ofFn fun i => decide (IsFirstMax (pred i) (y i))⟩ := by
  classical
  constructor
  · simp only [correctnessArr, argmaxLast, reduceLast_table argmaxNum hc, ok_bind, targetArr_vector, bcast2_vector, correct_iff hc]
  · intro z hz
    simp only [correctnessArr, argmaxLast, reduceLast_table argmaxNum hc, ok_bind, targetArr_table hc, bcast2_vector,
      (fun i => (correct_iff hc (z i) (y i)).2 (hz i) : ∀ i, argmaxNum (z i) = _), correct_iff hc]

/-- **C77 (finding: labels as a column).** With labels of shape `(n, 1)` — the shape a data loader often gives — the labels are not used: `argmax`
along an axis of length one is 0, so a prediction counts as correct exactly when class 0 is its first best class. -/
theorem C77_column_labels (hc : 0 < c) (pred : Fin n → Fin c → ℝ) (y : Fin n → ℝ) :
    open Classical in correctnessArr (tableArr pred) (columnArr y) = .ok ⟨[n], List.ofFn fun i => decide (IsFirstMax (pred i) ⟨0, hc⟩)⟩ := by
  classical
  have h0 : ∀ z : Vec c, argmaxNum z = 0 ↔ IsFirstMax z ⟨0, hc⟩ := fun z => by
    rw [← correct_iff hc z ⟨0, hc⟩]; simp
  simp only [correctnessArr, argmaxLast, reduceLast_table argmaxNum hc, ok_bind, column_eq_table, targetArr_table one_pos, argmaxNum_one,
    bcast2_vector, h0]

/-! ### Accuracy -/

theorem max?_one (k : ℤ) : [k].max? = some k := rfl

theorem bcast2_table_row {α : Type} {K : ℕ} (f : ℝ → ℝ → α) (g : Fin K → Fin n → ℝ) (y : Fin n → ℝ) :
    Arr.bcast2 f (tableArr g) ⟨[1, n], List.ofFn y⟩ = .ok ⟨[K, n], (List.ofFn fun i => List.ofFn fun j => f (g i j) (y j)).flatten⟩ := by
  have hs : bcShapes [K, n] [1, n] = some [K, n] := by
    simp [bcShapes, padShape, bcAligned, bcDim]
    by_cases h : K = 1 <;> simp [h]
  unfold Arr.bcast2 tableArr
  simp only [hs]
  rw [show padShape [K, n].length [1, n] = [1, n] from rfl, show padShape [K, n].length [K, n] = [K, n] from rfl, bcTo_row, bcTo_mat,
    zipWith_blocks _ _ _ (by simp)]
  simp only [zipWith_ofFn]

theorem bcTo_one (K n : ℕ) (x : ℝ) : bcTo [1, 1] [K, n] [x] = (List.ofFn fun _ : Fin K => List.ofFn fun _ : Fin n => x).flatten := by
  have h1 := bcTo_unit n x
  by_cases h : K = 1
  · subst h
    rw [bcTo, if_pos rfl]
    simp [shapeSize, h1, List.ofFn_succ]
  · rw [bcTo, if_neg (fun e => h e.symm), h1]
    congr 1
    apply List.ext_getElem?
    intro k
    simp [List.getElem?_ofFn, List.getElem?_replicate]

theorem bcast2_table_one {α : Type} {K : ℕ} (f : ℝ → ℝ → α) (g : Fin K → Fin n → ℝ) (y : ℝ) :
    Arr.bcast2 f (tableArr g) ⟨[1, 1], [y]⟩ = .ok ⟨[K, n], (List.ofFn fun i => List.ofFn fun j => f (g i j) y).flatten⟩ := by
  have hs : bcShapes [K, n] [1, 1] = some [K, n] := by
    simp [bcShapes, padShape, bcAligned, bcDim]
    by_cases h : K = 1 <;> by_cases h' : n = 1 <;> simp [h, h']
  unfold Arr.bcast2 tableArr
  simp only [hs]
  rw [show padShape [K, n].length [1, 1] = [1, 1] from rfl, show padShape [K, n].length [K, n] = [K, n] from rfl, bcTo_one, bcTo_mat,
    zipWith_blocks _ _ _ (by simp)]
  simp only [zipWith_ofFn]

theorem count_columns : ∀ {K : ℕ} (t : ℕ) (f : Fin K → Fin n → Bool),
    (((List.ofFn fun r => List.ofFn (f r)).take t).flatten.countP (· = true)) = ∑ i, ((List.ofFn fun r => f r i).take t).countP (· = true)
  | 0, t, f => by simp
  | K + 1, 0, f => by simp
  | K + 1, t + 1, f => by
    have ih := count_columns t fun r : Fin K => f r.succ
    simp only [List.ofFn_succ (f := fun r => List.ofFn (f r)), List.take_succ_cons, List.flatten_cons, List.countP_append, ih]
    have : ∀ i, ((List.ofFn fun r => f r i).take (t + 1)).countP (· = true) =
        (if f 0 i = true then 1 else 0) + ((List.ofFn fun r : Fin K => f r.succ i).take t).countP (· = true) := by
      intro i
      rw [List.ofFn_succ, List.take_succ_cons, List.countP_cons, add_comm]
      simp
    simp only [this, Finset.sum_add_distrib]
    congr 1
    rw [List.countP_eq_length_filter]
    have h : ∀ (N : ℕ) (g : Fin N → Bool), ((List.ofFn g).filter (· = true)).length = ∑ i, if g i = true then 1 else 0 := by
      intro N
      induction N with
      | zero => intro g; simp
      | succ N ih =>
        intro g
        rw [List.ofFn_succ, Fin.sum_univ_succ, ← ih, List.filter_cons]
        split <;> simp_all [add_comm]
    exact h _ _

theorem count_columns_slice {K : ℕ} (k : ℤ) (f : Fin K → Fin n → Bool) :
    ((pySliceTo (List.ofFn fun r => List.ofFn (f r)) k).flatten.countP (· = true)) = ∑ i, (pySliceTo (List.ofFn fun r => f r i) k).countP (· = true) := by
  unfold pySliceTo
  split
  · exact count_columns _ f
  · simp only [List.length_ofFn]
    exact count_columns _ f

theorem pySliceTo_map {α β : Type} (g : α → β) (l : List α) (k : ℤ) : pySliceTo (l.map g) k = (pySliceTo l k).map g := by
  unfold pySliceTo
  split <;> simp [List.map_take]

theorem rankArr_eq {K : ℕ} (rows : Fin n → List (Fin c)) : rankArr rows K =
    tableArr fun (r : Fin K) i => (((rows i)[r.val]?).map fun j => (j.val : ℝ)).getD 0 := by
  unfold rankArr tableArr
  rw [range_map_eq_ofFn]

theorem ofFn_get {K : ℕ} {β : Type} (l : List (Fin c)) (h : l.length = K) (g : ℝ → β) :
    (List.ofFn fun r : Fin K => g (((l[r.val]?).map fun j => (j.val : ℝ)).getD 0)) = l.map fun j => g (j.val : ℝ) := by
  subst h
  apply List.ext_getElem?
  intro k
  by_cases hk : k < l.length
  · simp [List.getElem?_ofFn, hk]
  · simp [List.getElem?_ofFn, hk]

theorem laxTopK_length (z : Vec c) (k : ℕ) (hk : k ≤ c) : (laxTopK z k).length = k := by
  simp [laxTopK, hk]

theorem topKRows_table (pred : Fin n → Fin c → ℝ) (k : ℤ) (h0 : 0 ≤ k) (h1 : k ≤ c) :
    topKRows n c (tableArr pred).data k = .ok fun i => laxTopK (pred i) k.toNat := by
  unfold topKRows
  rw [if_neg (by omega)]
  congr 2
  funext i
  congr 1
  funext j
  exact flatten_ofFn_getD pred i j

/-- The counts of the accuracy, for any comparison of ranked class and sample. -/
theorem accuracy_counts (pred : Fin n → Fin c → ℝ) (K : ℕ) (hK : K ≤ c) (y : Fin n → ℝ) (k : ℤ) :
    (pySliceTo (chunks n K (List.ofFn fun r : Fin K => List.ofFn fun i =>
        decide ((((laxTopK (pred i) K)[r.val]?).map fun j => (j.val : ℝ)).getD 0 = y i)).flatten) k).flatten.countP (· = true) =
      ∑ i, (pySliceTo (laxTopK (pred i) K) k).countP fun j => decide ((j.val : ℝ) = y i) := by
  have hch := chunks_flatten (List.ofFn fun r : Fin K => List.ofFn fun i =>
        decide ((((laxTopK (pred i) K)[r.val]?).map fun j => (j.val : ℝ)).getD 0 = y i)) n (by
      intro d hd
      obtain ⟨r, rfl⟩ := (List.mem_ofFn' _ _).1 hd
      simp)
  rw [List.length_ofFn] at hch
  rw [hch, count_columns_slice]
  refine Finset.sum_congr rfl fun i _ => ?_
  rw [ofFn_get (laxTopK (pred i) K) (laxTopK_length _ _ hK) fun x => decide (x = y i), pySliceTo_map, List.countP_map]
  congr 1
  funext j
  simp

/-- **C77 (accuracy, documented shapes).** Predictions `(n, c)` and labels `(n,)` give the accuracies of C31, for every tuple of ranks. -/
theorem C77_accuracy_documented (pred : Fin n → Fin c → ℝ) (y : Fin n → ℤ) (topK : List ℤ) :
    accuracyArr (tableArr pred) (vectorArr fun i => (y i : ℝ)) topK = accuracy pred (.labels y) topK := by
  unfold accuracyArr accuracy
  cases hm : topK.max? with
  | none => simp [error_bind]
  | some M =>
    simp only [ok_bind, targetLabels]
    by_cases h0 : min M (c : ℤ) < 0
    · rw [if_pos h0]
      simp only [tableArr, vectorArr, ok_bind, topKRows, h0, true_or, if_true, error_bind]
    · rw [if_neg h0]
      have hK : (min M (c : ℤ)).toNat ≤ c := by omega
      have h1 := topKRows_table pred (min M (c : ℤ)) (by omega) (by omega)
      simp only [tableArr] at h1
      simp only [tableArr, h1, ok_bind, targetArr_vector]
      simp only [vectorArr, rankArr_eq, List.length_ofFn, bcast2_table_row, ok_bind, List.drop_succ_cons, List.drop_zero, List.headD_cons]
      show Except.ok _ = Except.ok _
      congr 2
      funext k
      rw [accuracy_counts pred _ hK]
      have e : ∀ (i : Fin n) (j : Fin c), decide ((j.val : ℝ) = ((y i : ℤ) : ℝ)) = decide ((j.val : ℤ) = y i) := by
        intro i j; exact decide_eq_decide.2 (by norm_cast)
      rw [Nat.cast_sum]
      simp only [e]

/-- **C77 (finding: one label for many predictions).** With a single label of shape `(1,)` for `n` predictions, the label is compared with every
prediction but the count is divided by one: the result is 100 times the number of hits, which exceeds 100 as soon as two predictions hit. -/
theorem C77_accuracy_one_label (pred : Fin n → Fin c → ℝ) (y : Fin c) (k : ℕ) :
    accuracyArr (tableArr pred) (vectorArr fun _ : Fin 1 => (y.val : ℝ)) [(k : ℤ)] = .ok [100 * (hitsOf pred y k : ℝ)] ∧
    (2 ≤ hitsOf pred y k → ∃ v, accuracyArr (tableArr pred) (vectorArr fun _ : Fin 1 => (y.val : ℝ)) [(k : ℤ)] = .ok [v] ∧ 100 < v) := by
  have hmain : accuracyArr (tableArr pred) (vectorArr fun _ : Fin 1 => (y.val : ℝ)) [(k : ℤ)] = .ok [100 * (hitsOf pred y k : ℝ)] := by
    have hK : (min (k : ℤ) (c : ℤ)).toNat ≤ c := by omega
    have h1 := topKRows_table pred (min (k : ℤ) (c : ℤ)) (by omega) (by omega)
    simp only [tableArr] at h1
    have hcount : accuracyArr (tableArr pred) (vectorArr fun _ : Fin 1 => (y.val : ℝ)) [(k : ℤ)] =
        .ok [((∑ i, (pySliceTo (laxTopK (pred i) (min (k : ℤ) (c : ℤ)).toNat) (min (k : ℤ) (min (k : ℤ) (c : ℤ)))).countP
          fun j => decide ((j.val : ℝ) = (y.val : ℝ)) : ℕ) : ℝ) * 100] := by
      unfold accuracyArr
      simp only [max?_one, ok_bind, tableArr, h1, targetArr_vector]
      simp only [vectorArr, rankArr_eq, List.ofFn_succ, List.ofFn_zero, List.length_singleton, bcast2_table_one, ok_bind, List.drop_succ_cons,
        List.drop_zero, List.headD_cons, List.map_cons, List.map_nil]
      show Except.ok _ = Except.ok _
      rw [accuracy_counts pred _ hK fun _ => (y.val : ℝ)]
      simp
    rw [hcount]
    rcases Nat.eq_zero_or_pos n with hn | hn
    · subst hn
      simp [hitsOf]
    · have h2 := C31_value pred (.labels fun _ => (y.val : ℤ)) (fun _ => (y.val : ℤ)) rfl [k] (by simp)
      unfold accuracy at h2
      have hnn : ¬ (min (k : ℤ) (c : ℤ) < 0) := by omega
      simp only [List.map_cons, List.map_nil, max?_one, ok_bind, if_neg hnn, targetLabels] at h2
      have h3 := List.head_eq_of_cons_eq (Except.ok.inj h2)
      have hn' : (n : ℝ) ≠ 0 := by positivity
      have e : ∀ j : Fin c, decide ((j.val : ℝ) = (y.val : ℝ)) = decide ((j.val : ℤ) = (y.val : ℤ)) := by
        intro j; exact decide_eq_decide.2 (by norm_cast)
      have h4 := (div_left_inj' hn').1 h3
      have hh : (hits pred (fun _ => (y.val : ℤ)) k).card = hitsOf pred y k := by
        unfold hits hitsOf
        congr 1
        ext i
        simp only [Finset.mem_filter, Finset.mem_univ, true_and]
        constructor
        · rintro ⟨l, hl, h⟩
          rwa [show y = l from Fin.ext (by exact_mod_cast hl.symm)]
        · intro h; exact ⟨y, rfl, h⟩
      rw [hh] at h4
      rw [Nat.cast_sum]
      simp only [e]
      rw [h4, mul_comm]
  refine ⟨hmain, fun h => ⟨_, hmain, ?_⟩⟩
  have : (2 : ℝ) ≤ hitsOf pred y k := by exact_mod_cast h
  linarith

/-- **C77 (accuracy: which calls raise).** No rank, predictions with fewer than two axes, a target without axes, or only negative ranks raise; labels of another
length than the predictions raise `TypeError` unless one of the two has length one. -/
theorem C77_accuracy_errors (pred : Fin n → Fin c → ℝ) (y : Fin m → ℝ) :
    (∀ p t, accuracyArr p t [] = .error .valueError) ∧
    (∀ (p t : Arr ℝ) (k : ℤ), p.shape.length ≤ 1 → accuracyArr p t [k] = .error .indexError) ∧
    (∀ (v : ℝ) (k : ℤ), accuracyArr (tableArr pred) ⟨[], [v]⟩ [k] = .error .indexError) ∧
    (∀ k : ℤ, k < 0 → accuracyArr (tableArr pred) (vectorArr y) [k] = .error .valueError) ∧
    (∀ k : ℕ, n ≠ m → n ≠ 1 → m ≠ 1 → accuracyArr (tableArr pred) (vectorArr y) [(k : ℤ)] = .error .typeError) := by
  refine ⟨fun p t => by simp [accuracyArr, error_bind], fun p t k hp => ?_, fun v k => ?_, fun k hk => ?_, fun k h1 h2 h3 => ?_⟩
  · unfold accuracyArr
    simp only [max?_one, ok_bind]
    match hs : p.shape, hp with
    | [], _ => rfl
    | [_], _ => rfl
  · simp [accuracyArr, tableArr, ok_bind, error_bind]
  · have : min k (c : ℤ) < 0 := by omega
    simp [accuracyArr, tableArr, vectorArr, topKRows, ok_bind, error_bind, this, hk]
  · have ht := topKRows_table pred (min (k : ℤ) (c : ℤ)) (by omega) (by omega)
    simp only [tableArr] at ht
    unfold accuracyArr
    simp only [max?_one, ok_bind, tableArr, ht, targetArr_vector]
    have hbad : ∀ (K : ℕ) (g : Fin K → Fin n → ℝ), Arr.bcast2 (fun x y : ℝ => decide (x = y)) (tableArr g) ⟨[1, (List.ofFn y).length], List.ofFn y⟩ =
        .error .typeError := by
      intro K g
      rw [bcast2_error]
      · simp [bcError, tableArr]
      · intro hc
        have := hc 0
        simp [axisFromRight, tableArr] at this
        omega
    simp only [vectorArr, rankArr_eq, hbad, error_bind]

/-! ### Cross-entropy -/

theorem cube_wf {S : ℕ} (before after : List ℕ) (y : Fin (shapeSize before) → Fin S → Fin (shapeSize after) → ℝ) : (cubeArr before after y).WF := by
  simp [Arr.WF, cubeArr, List.length_flatten, Function.comp_def, shapeSize_append, shapeSize_cons]

theorem zipWith_cube {S : ℕ} (f : ℝ → ℝ → ℝ) (before after : List ℕ) (x y : Fin (shapeSize before) → Fin S → Fin (shapeSize after) → ℝ) :
    Arr.bcast2 f (cubeArr before after x) (cubeArr before after y) = .ok (cubeArr before after fun i s k => f (x i s k) (y i s k)) := by
  rw [bcast2_same f (cubeArr before after x) (cubeArr before after y) (cube_wf _ _ _) (cube_wf _ _ _) rfl]
  simp only [cubeArr]
  rw [zipWith_blocks _ _ _ (by intro i; simp [List.length_flatten, Function.comp_def])]
  congr 4
  funext i
  rw [zipWith_blocks _ _ _ (by intro i; simp)]
  simp only [zipWith_ofFn]

/-- **C77 (cross-entropy along any axis).** For two arrays of equal shape with `S` classes along any axis (counted from the front or from the
end): one number per position of the other axes, `-Σ_s p_s log q_s` with `0 log 0 = 0`; the class axis is removed. -/
theorem C77_cross_entropy {S : ℕ} (before after : List ℕ) (P Q : Fin (shapeSize before) → Fin S → Fin (shapeSize after) → ℝ) (axis : Int)
    (hax : axis = before.length ∨ axis = -((after.length : Int) + 1)) :
    crossEntropyArr (cubeArr before after P) (cubeArr before after Q) (some axis) =
      .ok ⟨before ++ after, (List.ofFn fun i => List.ofFn fun k => -∑ s, if P i s k = 0 then 0 else P i s k * Real.log (Q i s k)).flatten⟩ := by
  simp only [crossEntropyArr, zipWith_cube, ok_bind, statAxis_cube List.sum false before after _ axis hax]
  simp only [reducedArr, Bool.false_eq_true, if_false, List.map_flatten, List.map_ofFn, Function.comp_def, List.sum_ofFn, xlogy]
  rfl

theorem statAxis_table (f : List ℝ → ℝ) (kd : Bool) (z : Fin n → Fin c → ℝ) :
    statAxis f (some (-1)) kd (tableArr z) = .ok ⟨if kd then [n, 1] else [n], List.ofFn fun i => f (List.ofFn (z i))⟩ := by
  have hn : normAxis (-1) 2 = .ok 1 := rfl
  simp only [statAxis, tableArr, List.length_cons, List.length_nil, hn, ok_bind, List.take_succ_cons, List.take_zero,
    List.drop_succ_cons, List.drop_zero, List.headD_cons, shapeSize, List.foldl_cons, List.foldl_nil, one_mul, List.range_one, List.map_cons, List.map_nil,
    mul_one, add_zero]
  show Except.ok _ = Except.ok _
  congr 2
  · cases kd <;> rfl
  · rw [range_map_eq_ofFn, ofFn_singletons]
    congr 1
    funext i
    rw [range_map_eq_ofFn]
    congr 2
    funext k
    exact flatten_ofFn_getD z i k

/-- **C77 (cross-entropy of one distribution with many).** One distribution `(c,)` against a batch `(n, c)`: the cross-entropies with every row. -/
theorem C77_cross_entropy_broadcast (P : Fin c → ℝ) (Q : Fin n → Fin c → ℝ) :
    crossEntropyArr (vectorArr P) (tableArr Q) = .ok (vectorArr fun i => -∑ k, if P k = 0 then 0 else P k * Real.log (Q i k)) := by
  have hs : bcShapes [c] [n, c] = some [n, c] := by
    simp [bcShapes, padShape, bcAligned, bcDim]
    by_cases h : 1 = n <;> simp [h]
  have hb : Arr.bcast2 xlogy (vectorArr P) (tableArr Q) = .ok (tableArr fun i k => xlogy (P k) (Q i k)) := by
    unfold Arr.bcast2 tableArr vectorArr
    simp only [hs]
    rw [show padShape [n, c].length [c] = [1, c] from rfl, show padShape [n, c].length [n, c] = [n, c] from rfl, bcTo_row, bcTo_mat,
      zipWith_blocks _ _ _ (by simp)]
    simp only [zipWith_ofFn]
  simp only [crossEntropyArr, hb, ok_bind, statAxis_table, Bool.false_eq_true, if_false, List.map_ofFn, Function.comp_def, List.sum_ofFn, xlogy]
  rfl

/-- **C77 (cross-entropy: which calls raise).** Shapes that do not broadcast raise, and so does an axis out of range (`ValueError`). -/
theorem C77_cross_entropy_errors (P Q : Arr ℝ) (axis : Int) :
    (¬ Compatible P.shape Q.shape → crossEntropyArr P Q (some axis) =
      .error (if P.shape.length = Q.shape.length then .typeError else .valueError)) ∧
    (P.WF → Q.WF → Compatible P.shape Q.shape → ¬ (-(max P.shape.length Q.shape.length : ℤ) ≤ axis ∧ axis < max P.shape.length Q.shape.length) →
      crossEntropyArr P Q (some axis) = .error .valueError) := by
  constructor
  · intro h
    simp only [crossEntropyArr, bcast2_error _ _ _ h, error_bind, bcError]
  · intro hP hQ h hax
    obtain ⟨r, r1, -, r2, -⟩ := bcast2_ok xlogy P Q hP hQ h
    have hn : normAxis axis r.shape.length = .error .valueError := by
      unfold normAxis
      rw [if_neg (by rw [r2]; push_cast at hax ⊢; exact hax)]
    simp only [crossEntropyArr, r1, ok_bind, statAxis, hn, error_bind]

/-! ### Brier score -/

/-- `1 - 2 p_k + Σ_j p_j²`: the squared distance between `p` and the `k`-th unit vector. -/
theorem dist_unit (p : Fin c → ℝ) (k : Fin c) : 1 - 2 * p k + ∑ j, p j ^ 2 = ∑ j, (p j - if j = k then 1 else 0) ^ 2 := by
  have : ∀ j, (p j - if j = k then (1 : ℝ) else 0) ^ 2 = p j ^ 2 + (if j = k then 1 - 2 * p j else 0) := by
    intro j; split_ifs <;> ring
  simp only [this, Finset.sum_add_distrib, Finset.sum_ite_eq', Finset.mem_univ, if_true]
  ring

theorem brier_comp_table (prob : Fin n → Fin c → ℝ) : ∃ s, statAxis (fun l => (l.map (· ^ 2)).sum) (some (-1)) true (tableArr prob) = .ok s ∧
    Arr.bcast2 (fun p s => 1 - 2 * p + s) (tableArr prob) s = .ok (tableArr fun i k => ∑ j, (prob i j - if j = k then 1 else 0) ^ 2) := by
  refine ⟨_, statAxis_table _ true prob, ?_⟩
  simp only [if_true, List.map_ofFn, Function.comp_def, List.sum_ofFn]
  have := bcast2_mat_col (fun p s : ℝ => 1 - 2 * p + s) prob fun i => ∑ j, prob i j ^ 2
  simp only [dist_unit] at this
  exact this

theorem oneHotArr_vector (y : Fin n → ℝ) : oneHotArr c (vectorArr y) = tableArr fun i (k : Fin c) => if y i = (k.val : ℝ) then 1 else 0 := by
  simp only [oneHotArr, vectorArr, tableArr, List.flatMap, List.map_ofFn, Function.comp_def]
  rfl

theorem bcast2_tables (f : ℝ → ℝ → ℝ) (x y : Fin n → Fin c → ℝ) :
    Arr.bcast2 f (tableArr x) (tableArr y) = .ok (tableArr fun i k => f (x i k) (y i k)) := by
  rw [bcast2_same f (tableArr x) (tableArr y) (table_wf x) (table_wf y) rfl]
  simp only [tableArr]
  rw [zipWith_blocks _ _ _ (by intro i; simp)]
  simp only [zipWith_ofFn]

/-- **C77 (Brier score, documented shapes).** Probabilities `(n, c)` with labels `(n,)`: minus the mean over samples and classes of the squared
distance of the row from the unit vector of the label, that is minus the Brier score divided by the number of classes (C32). -/
theorem C77_brier_documented (prob : Fin n → Fin c → ℝ) (y : Fin n → Fin c) :
    multiclassBrierArr (tableArr prob) (vectorArr fun i => ((y i).val : ℝ)) = .ok (-(brier prob y / c)) ∧
    multiclassBrierArr (tableArr prob) (tableArr fun i k => if k = y i then 1 else 0) = .ok (-(brier prob y / c)) := by
  obtain ⟨s, s1, s2⟩ := brier_comp_table prob
  have hval : ∀ t : Fin n → Fin c → ℝ, (∀ i k, t i k = if k = y i then 1 else 0) →
      meanArr (tableArr fun i k => t i k * ∑ j, (prob i j - if j = k then 1 else 0) ^ 2) = brier prob y / c := by
    intro t ht
    rw [tableArr, mean_blocks, brier, div_div]
    congr 1
    refine Finset.sum_congr rfl fun i _ => ?_
    simp [ht]
  constructor
  · simp only [multiclassBrierArr, brierTarget]
    rw [if_pos (by simp [vectorArr])]
    simp only [tableArr, List.getLast?_cons_cons, List.getLast?_singleton, ok_bind]
    simp only [tableArr] at s1 s2
    simp only [s1, ok_bind, s2, oneHotArr_vector]
    have := bcast2_tables (· * ·) (fun i (k : Fin c) => if ((y i).val : ℝ) = (k.val : ℝ) then (1 : ℝ) else 0)
      fun i k => ∑ j, (prob i j - if j = k then 1 else 0) ^ 2
    simp only [tableArr] at this ⊢
    simp only [this, ok_bind]
    have h := hval (fun i (k : Fin c) => if ((y i).val : ℝ) = (k.val : ℝ) then (1 : ℝ) else 0) (fun i k => by
      simp only [Nat.cast_inj, ← Fin.ext_iff, eq_comm])
    simp only [tableArr] at h
    rw [h]; rfl
  · simp only [multiclassBrierArr, brierTarget]
    rw [if_neg (by simp [tableArr])]
    simp only [ok_bind, s1, s2, bcast2_tables, hval _ fun i k => rfl]
    rfl

theorem brier_comp_vector (p : Fin c → ℝ) : ∃ s, statAxis (fun l => (l.map (· ^ 2)).sum) (some (-1)) true (vectorArr p) = .ok s ∧
    Arr.bcast2 (fun p s => 1 - 2 * p + s) (vectorArr p) s = .ok (vectorArr fun k => ∑ j, (p j - if j = k then 1 else 0) ^ 2) := by
  have hn : normAxis (-1) 1 = .ok 0 := rfl
  have h1 : statAxis (fun l => (l.map (· ^ 2)).sum) (some (-1)) true (vectorArr p) = .ok ⟨[1], [∑ j, p j ^ 2]⟩ := by
    simp only [statAxis, vectorArr, List.length_cons, List.length_nil, hn, ok_bind, List.take_zero,
      List.drop_succ_cons, List.drop_zero, List.headD_cons, shapeSize, List.foldl_nil, List.range_one, List.map_cons, List.map_nil,
      mul_one, add_zero, zero_mul, zero_add, List.nil_append, if_true]
    show Except.ok _ = Except.ok _
    congr 2
    rw [range_map_eq_ofFn]
    simp [List.map_ofFn, Function.comp_def, List.sum_ofFn, List.getD_eq_getElem?_getD]
  refine ⟨_, h1, ?_⟩
  have hs : bcShapes [c] [1] = some [c] := by
    simp [bcShapes, padShape, bcAligned, bcDim]
    by_cases h : c = 1 <;> simp [h]
  unfold Arr.bcast2
  simp only [vectorArr, hs]
  rw [show padShape [c].length [c] = [c] from rfl, show padShape [c].length [1] = [1] from rfl, bcTo_unit, bcTo_self _ _ (by simp [shapeSize]), zipWith_ofFn]
  simp only [dist_unit]

/-- **C77 (finding: the Brier score of one prediction with a one-hot target).** For one probability vector `(c,)` and its one-hot target `(c,)` the target
counts as a vector of labels: every entry of it is turned into a one-hot row (the zeros into class 0, the one into class 1), so the result
does not depend on the true class at all. -/
theorem C77_brier_one_point (hc : 2 ≤ c) (p : Fin c → ℝ) (y : Fin c) :
    multiclassBrierArr (vectorArr p) (vectorArr fun k => if k = y then 1 else 0) =
      .ok (-((((c : ℝ) - 1) * ∑ j : Fin c, (p j - if j.val = 0 then 1 else 0) ^ 2 + ∑ j : Fin c, (p j - if j.val = 1 then 1 else 0) ^ 2) / ((c : ℝ) * c))) := by
  obtain ⟨s, s1, s2⟩ := brier_comp_vector p
  simp only [multiclassBrierArr, brierTarget]
  rw [if_pos (by simp [vectorArr])]
  have hl : (vectorArr p).shape.getLast? = some c := rfl
  simp only [hl, ok_bind, s1, s2, oneHotArr_vector]
  have hb := bcast2_mat_row (· * ·) (fun i (k : Fin c) => if (if i = y then (1 : ℝ) else 0) = (k.val : ℝ) then (1 : ℝ) else 0)
    fun k => ∑ j, (p j - if j = k then 1 else 0) ^ 2
  simp only [tableArr, vectorArr, hb, ok_bind, mean_blocks]
  show Except.ok _ = Except.ok _
  congr 3
  obtain ⟨D, hD⟩ : ∃ D : Fin c → ℝ, D = fun k => ∑ j, (p j - if j = k then 1 else 0) ^ 2 := ⟨_, rfl⟩
  have e0 : ∑ j : Fin c, (p j - if j.val = 0 then 1 else 0) ^ 2 = D ⟨0, by omega⟩ := by
    rw [hD]; simp [Fin.ext_iff]
  have e1 : ∑ j : Fin c, (p j - if j.val = 1 then 1 else 0) ^ 2 = D ⟨1, by omega⟩ := by
    rw [hD]; simp [Fin.ext_iff]
  have hrow : ∀ i : Fin c, (∑ k : Fin c, (if (if i = y then (1 : ℝ) else 0) = (k.val : ℝ) then (1 : ℝ) else 0) * ∑ j, (p j - if j = k then 1 else 0) ^ 2) =
      D ⟨0, by omega⟩ + if i = y then D ⟨1, by omega⟩ - D ⟨0, by omega⟩ else 0 := by
    intro i
    by_cases h : i = y
    · have : ∀ k : Fin c, ((1 : ℝ) = (k.val : ℝ)) ↔ k = ⟨1, by omega⟩ := fun k => by
        rw [Fin.ext_iff]; constructor
        · intro h; exact_mod_cast h.symm
        · intro h; exact_mod_cast h.symm
      simp [h, this, hD]
    · have : ∀ k : Fin c, ((0 : ℝ) = (k.val : ℝ)) ↔ k = ⟨0, by omega⟩ := fun k => by
        rw [Fin.ext_iff]; constructor
        · intro h; exact_mod_cast h.symm
        · intro h; exact_mod_cast h.symm
      simp [h, this, hD]
  rw [Finset.sum_congr rfl fun i _ => hrow i, Finset.sum_add_distrib, e0, e1]
  simp
  ring

/-- **C77 (finding: the Brier score with labels as a column).** Probabilities `(n, c)` with labels `(n, 1)`: the labels are used as weights, so samples of
class 0 do not count. -/
theorem C77_brier_column_labels (prob : Fin n → Fin c → ℝ) (y : Fin n → ℝ) :
    multiclassBrierArr (tableArr prob) (columnArr y) =
      .ok (-((∑ i, y i * ∑ k, ∑ j, (prob i j - if j = k then 1 else 0) ^ 2) / ((n : ℝ) * c))) := by
  obtain ⟨s, s1, s2⟩ := brier_comp_table prob
  simp only [multiclassBrierArr, brierTarget]
  rw [if_neg (by simp [columnArr])]
  simp only [ok_bind, s1, s2]
  have hs : bcShapes [n, 1] [n, c] = some [n, c] := by
    simp [bcShapes, padShape, bcAligned, bcDim]
    by_cases h : 1 = c <;> simp [h]
  have hb : Arr.bcast2 (· * ·) (columnArr y) (tableArr fun i k => ∑ j, (prob i j - if j = k then 1 else 0) ^ 2) =
      .ok (tableArr fun i k => y i * ∑ j, (prob i j - if j = k then 1 else 0) ^ 2) := by
    unfold Arr.bcast2 tableArr columnArr
    simp only [hs]
    rw [show padShape [n, c].length [n, 1] = [n, 1] from rfl, show padShape [n, c].length [n, c] = [n, c] from rfl, bcTo_col, bcTo_mat,
      zipWith_blocks _ _ _ (by simp)]
    simp only [zipWith_ofFn]
  simp only [hb, ok_bind]
  simp only [tableArr, mean_blocks, Finset.mul_sum]
  rfl

/-- **C77 (finding: the Brier score of one prediction with its class).** For one probability vector `(c,)` and its class as a single number, the number
is used as a weight of the score of all classes: a prediction of class 0 always scores 0. -/
theorem C77_brier_scalar_label (_ : 0 < c) (p : Fin c → ℝ) (t : ℝ) :
    multiclassBrierArr (vectorArr p) ⟨[], [t]⟩ = .ok (-((t * ∑ k, ∑ j, (p j - if j = k then 1 else 0) ^ 2) / c)) := by
  obtain ⟨s, s1, s2⟩ := brier_comp_vector p
  simp only [multiclassBrierArr, brierTarget]
  rw [if_neg (by simp)]
  simp only [ok_bind, s1, s2]
  have hs : bcShapes [] [c] = some [c] := by
    simp [bcShapes, padShape, bcAligned, bcDim]
    by_cases h : 1 = c <;> simp [h]
  have hb : Arr.bcast2 (· * ·) ⟨[], [t]⟩ (vectorArr fun k => ∑ j, (p j - if j = k then 1 else 0) ^ 2) =
      .ok (vectorArr fun k => t * ∑ j, (p j - if j = k then 1 else 0) ^ 2) := by
    unfold Arr.bcast2 vectorArr
    simp only [hs]
    rw [show padShape [c].length [] = [1] from rfl, show padShape [c].length [c] = [c] from rfl, bcTo_unit, bcTo_self _ _ (by simp [shapeSize])]
    simp only [zipWith_ofFn]
  simp only [hb, ok_bind]
  simp only [meanArr, vectorArr, List.sum_ofFn, List.length_ofFn, Finset.mul_sum]
  rfl

/-! ### Non-vacuity -/

/-- Two samples, two classes: the hypotheses of the column finding hold, and the labels do not matter. -/
example : correctnessArr (tableArr ![![2, 1], ![2, 1]]) (columnArr ![1, 1]) = .ok ⟨[2], [true, true]⟩ := by
  classical
  rw [C77_column_labels (by norm_num)]
  have : ∀ i : Fin 2, IsFirstMax ((![![2, 1], ![2, 1]] : Fin 2 → Fin 2 → ℝ) i) (⟨0, by norm_num⟩ : Fin 2) := by
    intro i
    refine ⟨fun j => ?_, fun j hj => absurd hj (by simp)⟩
    fin_cases i <;> fin_cases j <;> simp
  have h0 := this 0
  have h1 := this 1
  simp only [List.ofFn_succ, List.ofFn_zero]
  rw [decide_eq_true h0, decide_eq_true (show IsFirstMax ((![![2, 1], ![2, 1]] : Fin 2 → Fin 2 → ℝ) (Fin.succ 0)) ⟨0, by norm_num⟩ from h1)]

/-- Predictions `(2, 2)` whose best class is 0 against the single label 0: an "accuracy" above 100. -/
example : ∃ v, accuracyArr (tableArr ![![2, 1], ![2, 1]]) (vectorArr fun _ : Fin 1 => (((0 : Fin 2).val : ℕ) : ℝ)) [((1 : ℕ) : ℤ)] = .ok [v] ∧ 100 < v := by
  classical
  refine (C77_accuracy_one_label _ _ _).2 ?_
  have : ∀ i : Fin 2, AmongTop ((![![2, 1], ![2, 1]] : Fin 2 → Fin 2 → ℝ) i) 1 (0 : Fin 2) := by
    intro i
    rw [amongTop_one_iff]
    refine ⟨fun j => ?_, fun j hj => absurd hj (by simp)⟩
    fin_cases i <;> fin_cases j <;> simp
  simp [hitsOf, this]

/-- Image-like predictions `(2, 1, 2)` and labels `(1,)` meet the hypotheses of the general statement. -/
example : ∃ r, correctnessArr ⟨[2, 1, 2], [3, 1, 1, 3]⟩ ⟨[1], [0]⟩ = .ok r ∧ r.WF := by
  obtain ⟨r, h1, h2, -⟩ := (C77_correctness (c := 2) ⟨[2, 1, 2], [3, 1, 1, 3]⟩ ⟨[1], [0]⟩ [2, 1] (by norm_num) rfl rfl rfl (by simp)).1 (by
    intro k
    match k with
    | 0 => exact Or.inl rfl
    | k + 1 => exact Or.inr (Or.inr (by simp [axisFromRight])))
  exact ⟨r, h1, h2⟩

/-- **C77 (correctness, errors).** `ValueError` for predictions without axes or with an empty last axis, and for one-hot targets with zero columns. -/
theorem C77_correctness_errors (pred target : Arr ℝ) :
    (pred.shape = [] → correctnessArr pred target = .error .valueError) ∧
    (∀ sh, pred.shape = sh ++ [0] → correctnessArr pred target = .error .valueError) ∧
    (∀ n, target.shape = [n, 0] → ∀ sh c, 0 < c → pred.shape = sh ++ [c] → correctnessArr pred target = .error .valueError) := by
  refine ⟨fun h => ?_, fun sh h => ?_, fun n h sh c hc hp => ?_⟩
  · simp [correctnessArr, argmaxLast, reduceLast, h, error_bind]
  · simp [correctnessArr, argmaxLast, reduceLast, h, error_bind]
  · simp only [correctnessArr, argmaxLast, reduceLast, hp, List.getLast?_append, List.getLast?_singleton, Option.some_or, if_neg hc.ne', ok_bind, targetArr, h,
      List.length_cons, List.length_nil]
    simp [error_bind]

theorem maxNum_eq (hc : 0 < c) (z : Vec c) : ∃ k : Fin c, (∀ j, z j ≤ z k) ∧ maxNum z = z k := by
  obtain ⟨k, _, hk⟩ := Finset.exists_mem_eq_sup' (⟨⟨0, hc⟩, Finset.mem_univ _⟩ : (Finset.univ : Finset (Fin c)).Nonempty) z
  have hmax : maxNum z = z k := by simp only [maxNum, arrMax, dif_pos hc]; exact hk
  refine ⟨k, fun j => ?_, hmax⟩
  rw [← hk]; exact Finset.le_sup' z (Finset.mem_univ j)

/-- **C77 (confidence).** On outputs of any shape `(*sh, c)` the two confidence functions of the default classification metrics are, at every position of the
axes `sh`, the probability of a most probable class: of the softmax of the MAP output, and of the given class probabilities. -/
theorem C77_confidence (d : Dict (Arr ℝ)) (m : Arr ℝ) (sh : List ℕ) (hc : 0 < c) (hm : m.shape = sh ++ [c]) (hw : m.WF) :
    (d.get? "map" = some m → ∃ r, confidenceMapKw d = .ok r ∧ r.WF ∧ r.shape = sh ∧ ∀ ix, IsIndex sh ix → ∃ (z : Fin c → ℝ) (k : Fin c),
      ScoresAt m ix z ∧ (∀ j, softmaxOf z j ≤ softmaxOf z k) ∧ entryAt r ix = some (softmaxOf z k)) ∧
    (d.get? "pred_act" = some m → ∃ r, confidencePredKw d = .ok r ∧ r.WF ∧ r.shape = sh ∧ ∀ ix, IsIndex sh ix → ∃ (z : Fin c → ℝ) (k : Fin c),
      ScoresAt m ix z ∧ (∀ j, z j ≤ z k) ∧ entryAt r ix = some (z k)) := by
  constructor
  · intro h
    obtain ⟨r, r1, r2, r3, r4⟩ := reduceLast_entry (fun z => maxNum (softmax z)) hm hc
    refine ⟨r, by simp only [confidenceMapKw, kwArg, h, ok_bind]; exact r1, r2, r3, fun ix hi => ?_⟩
    obtain ⟨k, k1, k2⟩ := maxNum_eq hc (softmax (rowAt m sh c ix))
    exact ⟨rowAt m sh c ix, k, scoresAt_row hm hw hi, k1, by rw [r4 ix hi, k2]; rfl⟩
  · intro h
    obtain ⟨r, r1, r2, r3, r4⟩ := reduceLast_entry maxNum hm hc
    refine ⟨r, by simp only [confidencePredKw, kwArg, h, ok_bind]; exact r1, r2, r3, fun ix hi => ?_⟩
    obtain ⟨k, k1, k2⟩ := maxNum_eq hc (rowAt m sh c ix)
    exact ⟨rowAt m sh c ix, k, scoresAt_row hm hw hi, k1, by rw [r4 ix hi, k2]⟩

/-- Outputs of shape `(2, 3)` meet the hypotheses. -/
example : ∃ r, confidenceMapKw [("map", ⟨[2, 3], [1, 2, 3, 4, 5, 6]⟩)] = .ok r ∧ r.shape = [2] := by
  obtain ⟨r, h1, -, h2, -⟩ := (C77_confidence (c := 3) [("map", ⟨[2, 3], [1, 2, 3, 4, 5, 6]⟩)] ⟨[2, 3], [1, 2, 3, 4, 5, 6]⟩ [2] (by norm_num) rfl rfl).1
    (by simp [Dict.get?])
  exact ⟨r, h1, h2⟩

end Laplax.Props
