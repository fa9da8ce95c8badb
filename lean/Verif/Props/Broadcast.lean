import Verif.Lib.BroadcastLemmas
import Verif.Props.ApiEvaluation

/-! # C57: unequal shapes -/

namespace Laplax.Props
open Laplax Laplax.Spec
open scoped BigOperators Matrix

variable {X K A : Type} {p : ℕ}

/-! ### Arrays -/

/-- **C57 (broadcasting).** Combining two arrays with an operation succeeds exactly when the shapes, aligned on the right, agree axis by
axis or one of the two axes has length one; every entry of the result combines the entries the two arrays have at the trailing part of
the multi-index (index 0 on axes of length one). Otherwise `TypeError` (equally many axes) or `ValueError`. -/
theorem C57_broadcast {α β γ : Type} (f : α → β → γ) (a : Arr α) (b : Arr β) (ha : a.WF) (hb : b.WF) :
    (Compatible a.shape b.shape → ∃ r, Arr.bcast2 f a b = .ok r ∧ r.WF ∧ r.shape.length = max a.shape.length b.shape.length ∧
      (∀ k, axisFromRight r.shape k = if axisFromRight a.shape k = 1 then axisFromRight b.shape k else axisFromRight a.shape k) ∧
      ∀ ix, IsIndex r.shape ix → ∃ x y, entryAt a (seenBy a.shape ix) = some x ∧ entryAt b (seenBy b.shape ix) = some y ∧
        entryAt r ix = some (f x y)) ∧
    (¬ Compatible a.shape b.shape → Arr.bcast2 f a b =
      .error (if a.shape.length = b.shape.length then .typeError else .valueError)) :=
  ⟨bcast2_ok f a b ha hb, bcast2_error f a b⟩

/-! ### Pytrees -/

theorem zipWith_eq_bcast2 {α : Type} (f : α → α → α) (a b : Arr α) (ha : a.WF) (hb : b.WF) : Arr.zipWith f a b = Arr.bcast2 f a b := by
  unfold Arr.zipWith
  split
  · next h => rw [bcast2_same f a b ha hb h]
  · rfl

theorem tmap2_bcast {α : Type} (f : α → α → α) (t u : PyTree α) (hd : t.treedef = u.treedef) (ht : WFTree t) (hu : WFTree u) (r : PyTree α) :
    Tree.tmap2 (Arr.zipWith f) t u = .ok r ↔ r.treedef = t.treedef ∧
      List.Forall₂ (fun (p : Arr α × Arr α) c => Arr.bcast2 f p.1 p.2 = .ok c) (t.leaves.zip u.leaves) r.leaves := by
  have hlen : t.leaves.length = u.leaves.length := by
    rw [← Tree.length_leaves_treedef, ← Tree.length_leaves_treedef u, hd]
  unfold Tree.tmap2
  rw [if_pos ((Tree.defEq_iff _ _).2 hd), zipStrict_eq_ok _ _ hlen]
  simp only [ok_bind]
  have hcongr : mapE (fun p : Arr α × Arr α => Arr.zipWith f p.1 p.2) (t.leaves.zip u.leaves) =
      mapE (fun p : Arr α × Arr α => Arr.bcast2 f p.1 p.2) (t.leaves.zip u.leaves) :=
    mapE_congr fun q hq => zipWith_eq_bcast2 f _ _ (ht _ (List.of_mem_zip hq).1) (hu _ (List.of_mem_zip hq).2)
  rw [hcongr, bind_ok_iff]
  constructor
  · rintro ⟨ls, h1, h2⟩
    rw [Tree.unflatten_ok_iff] at h2
    rw [mapE_ok_iff] at h1
    exact ⟨h2.1, h2.2 ▸ h1⟩
  · rintro ⟨h1, h2⟩
    exact ⟨r.leaves, (mapE_ok_iff _ _ _).2 h2, (Tree.unflatten_ok_iff _ _ _).2 ⟨h1, rfl⟩⟩

theorem tmap2_bcast_exists {α : Type} (f : α → α → α) (t u : PyTree α) (hd : t.treedef = u.treedef) (ht : WFTree t) (hu : WFTree u) :
    (∃ r, Tree.tmap2 (Arr.zipWith f) t u = .ok r) ↔ ∀ q ∈ t.leaves.zip u.leaves, Compatible q.1.shape q.2.shape := by
  have hlen : t.leaves.length = u.leaves.length := by
    rw [← Tree.length_leaves_treedef, ← Tree.length_leaves_treedef u, hd]
  constructor
  · rintro ⟨r, hr⟩ q hq
    rw [tmap2_bcast f t u hd ht hu] at hr
    by_contra hc
    obtain ⟨c, -, hc'⟩ := forall₂_left hr.2 q hq
    rw [bcast2_error f _ _ hc] at hc'
    cases hc'
  · intro h
    obtain ⟨cs, hcs⟩ : ∃ cs, List.Forall₂ (fun (p : Arr α × Arr α) c => Arr.bcast2 f p.1 p.2 = .ok c) (t.leaves.zip u.leaves) cs := by
      generalize hl : t.leaves.zip u.leaves = l at h
      have hw : ∀ q ∈ l, q.1.WF ∧ q.2.WF := fun q hq =>
        ⟨ht _ (List.of_mem_zip (hl ▸ hq)).1, hu _ (List.of_mem_zip (hl ▸ hq)).2⟩
      clear hl
      induction l with
      | nil => exact ⟨[], .nil⟩
      | cons q l ih =>
        obtain ⟨cs, hcs⟩ := ih (fun q hq => h q (by simp [hq])) fun q hq => hw q (by simp [hq])
        obtain ⟨c, hc, -⟩ := bcast2_ok f q.1 q.2 (hw q (by simp)).1 (hw q (by simp)).2 (h q (by simp))
        exact ⟨c :: cs, .cons hc hcs⟩
    obtain ⟨r, hr⟩ := Tree.unflatten_isOk t.treedef cs (by
      rw [Tree.length_leaves_treedef, ← hcs.length_eq]; simp [hlen])
    rw [Tree.unflatten_ok_iff] at hr
    exact ⟨r, (tmap2_bcast f t u hd ht hu r).2 ⟨hr.1, hr.2 ▸ hcs⟩⟩

/-- **C57 (addition and subtraction of pytrees).** `add` and `sub` of pytrees of the same structure check nothing but broadcast
compatibility, leaf by leaf: they succeed exactly when every pair of leaves is compatible, and then the leaves of the result are the
broadcast sums or differences; a result leaf can be larger than both operands. -/
theorem C57_tree_add_sub {α : Type} [AddGroup α] (t u : PyTree α) (hd : t.treedef = u.treedef) (ht : WFTree t) (hu : WFTree u) :
    ((∃ r, treeAdd t u = .ok r) ↔ ∀ q ∈ t.leaves.zip u.leaves, Compatible q.1.shape q.2.shape) ∧
    ((∃ r, treeSub t u = .ok r) ↔ ∀ q ∈ t.leaves.zip u.leaves, Compatible q.1.shape q.2.shape) ∧
    (∀ r, treeAdd t u = .ok r ↔ r.treedef = t.treedef ∧
      List.Forall₂ (fun (p : Arr α × Arr α) c => Arr.bcast2 (· + ·) p.1 p.2 = .ok c) (t.leaves.zip u.leaves) r.leaves) ∧
    (∀ r, treeSub t u = .ok r ↔ r.treedef = t.treedef ∧
      List.Forall₂ (fun (p : Arr α × Arr α) c => Arr.bcast2 (· - ·) p.1 p.2 = .ok c) (t.leaves.zip u.leaves) r.leaves) := by
  obtain ⟨n, n1, n2, n3⟩ : ∃ n, treeNeg u = .ok n ∧ n.treedef = u.treedef ∧ n.leaves = u.leaves.map (fun a => a.map1 (- ·)) := by
    have h1 : mapE (fun a : Arr α => Except.ok (a.map1 (- ·))) u.leaves = .ok (u.leaves.map fun a => a.map1 (- ·)) :=
      mapE_of_forall _ _ _ fun _ _ => rfl
    obtain ⟨n, hn⟩ := Tree.unflatten_isOk u.treedef (u.leaves.map fun a => a.map1 (- ·)) (by
      rw [Tree.length_leaves_treedef]; simp)
    refine ⟨n, ?_, (Tree.unflatten_ok_iff _ _ _).1 hn⟩
    simp only [treeNeg, Tree.tmap, h1, ok_bind, hn]
  have hn : WFTree n := by
    intro a ha
    rw [n3, List.mem_map] at ha
    obtain ⟨b, hb, rfl⟩ := ha
    simpa [Arr.WF, Arr.map1] using hu b hb
  have hsub : treeSub t u = Tree.tmap2 (Arr.zipWith (· + ·)) t n := by simp only [treeSub, n1, ok_bind]; rfl
  have hz : t.leaves.zip n.leaves = (t.leaves.zip u.leaves).map fun q => (q.1, q.2.map1 (- ·)) := by
    rw [n3, List.zip_map_right]; rfl
  refine ⟨tmap2_bcast_exists _ t u hd ht hu, ?_, fun r => tmap2_bcast _ t u hd ht hu r, fun r => ?_⟩
  · rw [hsub, tmap2_bcast_exists _ t n (hd.trans n2.symm) ht hn, hz]
    constructor
    · intro h q hq
      exact h (q.1, q.2.map1 (- ·)) (List.mem_map.2 ⟨q, hq, rfl⟩)
    · intro h q hq
      obtain ⟨w, hw, rfl⟩ := List.mem_map.1 hq
      exact h w hw
  · rw [hsub, tmap2_bcast _ t n (hd.trans n2.symm) ht hn, hz, List.forall₂_map_left_iff]
    have e : ∀ q : Arr α × Arr α, Arr.bcast2 (· + ·) q.1 (q.2.map1 (- ·)) = Arr.bcast2 (· - ·) q.1 q.2 := by
      intro q
      exact bcast2_map_right _ _
    simp only [e]

/-! ### Regression scores on arrays of any shape -/

theorem sum_blocks {n m : ℕ} (g : Fin n → Fin m → ℝ) : ((List.ofFn fun i => List.ofFn (g i)).flatten).sum = ∑ i, ∑ j, g i j := by
  rw [List.sum_flatten, List.map_ofFn, List.sum_ofFn]
  refine Finset.sum_congr rfl fun i _ => ?_
  simp [List.sum_ofFn]

theorem mean_blocks {n m : ℕ} (sh : List ℕ) (g : Fin n → Fin m → ℝ) :
    meanArr ⟨sh, (List.ofFn fun i => List.ofFn (g i)).flatten⟩ = (∑ i, ∑ j, g i j) / ((n : ℝ) * m) := by
  unfold meanArr
  rw [sum_blocks]
  congr 1
  simp [List.length_flatten, Function.comp_def]

/-- **C57 (equal shapes).** For arrays of equal shapes the root mean squared error and the chi-squared value are the documented
averages over the entries, whatever the shape. -/
theorem C57_equal_shapes (sh : List ℕ) (m s t : Fin (shapeSize sh) → ℝ) :
    estimateRmseArr (arrOf sh m) (arrOf sh t) = .ok (Real.sqrt ((∑ k, (t k - m k) ^ 2) / shapeSize sh)) ∧
    chiSquaredArr (arrOf sh m) (arrOf sh s) (arrOf sh t) = .ok ((∑ k, ((t k - m k) / s k) ^ 2) / shapeSize sh) := by
  have hw : ∀ v : Fin (shapeSize sh) → ℝ, (arrOf sh v).WF := fun v => by simp [Arr.WF, arrOf]
  constructor
  · unfold estimateRmseArr
    rw [bcast2_same _ _ _ (hw m) (hw t) rfl]
    simp only [ok_bind, meanArr, arrOf, zipWith_ofFn, List.sum_ofFn, List.length_ofFn]
    refine congrArg (fun q => Except.ok (Real.sqrt (q / _))) (Finset.sum_congr rfl fun k _ => ?_)
    ring
  · unfold chiSquaredArr
    rw [bcast2_same _ _ _ (hw m) (hw t) rfl]
    simp only [ok_bind]
    rw [show (⟨(arrOf sh m).shape, List.zipWith (fun x y => x - y) (arrOf sh m).data (arrOf sh t).data⟩ : Arr ℝ) = arrOf sh fun k => m k - t k from by
      simp [arrOf, zipWith_ofFn], bcast2_same _ _ _ (hw fun k => m k - t k) (hw s) rfl]
    simp only [ok_bind, meanArr, arrOf, zipWith_ofFn, List.sum_ofFn, List.length_ofFn]
    refine congrArg (fun q => Except.ok (q / _)) (Finset.sum_congr rfl fun k _ => ?_)
    rw [div_pow]; ring

/-- **C57 (finding: a missing or an extra axis).** Predictions of shape `(n, 1)` with targets of shape `(m,)`, or predictions `(m,)` with
targets `(n, 1)`, are not rejected: the error is averaged over all pairs of a prediction and a target. -/
theorem C57_rmse_all_pairs {n m : ℕ} (x : Fin n → ℝ) (y : Fin m → ℝ) :
    estimateRmseArr ⟨[n, 1], List.ofFn x⟩ ⟨[m], List.ofFn y⟩ = .ok (Real.sqrt ((∑ i, ∑ j, (y j - x i) ^ 2) / ((n : ℝ) * m))) ∧
    estimateRmseArr ⟨[m], List.ofFn y⟩ ⟨[n, 1], List.ofFn x⟩ = .ok (Real.sqrt ((∑ i, ∑ j, (y j - x i) ^ 2) / ((n : ℝ) * m))) := by
  constructor
  · unfold estimateRmseArr
    rw [bcast2_col_row]
    simp only [ok_bind, mean_blocks]
    refine congrArg (fun q => Except.ok (Real.sqrt (q / _))) (Finset.sum_congr rfl fun i _ => Finset.sum_congr rfl fun j _ => ?_)
    ring
  · unfold estimateRmseArr
    rw [bcast2_row_col]
    simp only [ok_bind, mean_blocks]
    rfl

/-- **C57 (finding, consequence).** With such shapes the RMSE of perfect predictions is not zero but `√2` times the standard deviation
of the targets: it is zero only if all targets are equal. -/
theorem C57_rmse_of_perfect_predictions {n : ℕ} (hn : 0 < n) (y : Fin n → ℝ) :
    ∃ r, estimateRmseArr ⟨[n, 1], List.ofFn y⟩ ⟨[n], List.ofFn y⟩ = .ok r ∧
      r = Real.sqrt (2 * ((∑ i, (y i - (∑ j, y j) / n) ^ 2) / n)) ∧ (r = 0 ↔ ∀ i j, y i = y j) := by
  have hn' : (n : ℝ) ≠ 0 := by positivity
  have key : (∑ i, ∑ j, (y j - y i) ^ 2) / ((n : ℝ) * n) = 2 * ((∑ i, (y i - (∑ j, y j) / n) ^ 2) / n) := by
    have e1 : ∑ i, ∑ j, (y j - y i) ^ 2 = 2 * n * (∑ i, y i ^ 2) - 2 * (∑ i, y i) ^ 2 := by
      have : ∀ i j, (y j - y i) ^ 2 = y j ^ 2 + y i ^ 2 - 2 * (y i * y j) := fun i j => by ring
      simp only [this, Finset.sum_sub_distrib, Finset.sum_add_distrib, ← Finset.mul_sum, Finset.sum_const, Finset.card_univ, Fintype.card_fin,
        nsmul_eq_mul, ← Finset.sum_mul]
      ring
    have e2 : ∑ i, (y i - (∑ j, y j) / n) ^ 2 = (∑ i, y i ^ 2) - (∑ i, y i) ^ 2 / n := by
      have : ∀ i, (y i - (∑ j, y j) / n) ^ 2 = y i ^ 2 - 2 * ((∑ j, y j) / n) * y i + ((∑ j, y j) / n) ^ 2 := fun i => by ring
      simp only [this, Finset.sum_sub_distrib, Finset.sum_add_distrib, ← Finset.mul_sum, Finset.sum_const, Finset.card_univ, Fintype.card_fin,
        nsmul_eq_mul]
      field_simp; ring
    rw [e1, e2]
    field_simp
  refine ⟨_, (C57_rmse_all_pairs y y).1, by rw [key], ?_⟩
  rw [Real.sqrt_eq_zero (by positivity), div_eq_zero_iff, or_iff_left (by positivity),
    Finset.sum_eq_zero_iff_of_nonneg fun i _ => Finset.sum_nonneg fun j _ => sq_nonneg _]
  constructor
  · intro h i j
    have := (Finset.sum_eq_zero_iff_of_nonneg fun j _ => sq_nonneg _).1 (h j (Finset.mem_univ j)) i (Finset.mem_univ i)
    exact sub_eq_zero.1 (pow_eq_zero_iff (by norm_num) |>.1 this)
  · intro h i _
    exact Finset.sum_eq_zero fun j _ => by rw [h j i]; ring

/-- **C57 (finding: chi-squared).** The same for the chi-squared value, with means and standard deviations of one shape. -/
theorem C57_chi_squared_all_pairs {n m : ℕ} (x s : Fin n → ℝ) (y : Fin m → ℝ) :
    chiSquaredArr ⟨[n, 1], List.ofFn x⟩ ⟨[n, 1], List.ofFn s⟩ ⟨[m], List.ofFn y⟩ =
      .ok ((∑ i, ∑ j, ((y j - x i) / s i) ^ 2) / ((n : ℝ) * m)) ∧
    chiSquaredArr ⟨[n], List.ofFn x⟩ ⟨[n], List.ofFn s⟩ ⟨[m, 1], List.ofFn y⟩ =
      .ok ((∑ j, ∑ i, ((y j - x i) / s i) ^ 2) / ((m : ℝ) * n)) := by
  constructor
  · unfold chiSquaredArr
    rw [bcast2_col_row]
    simp only [ok_bind]
    rw [bcast2_mat_col]
    simp only [ok_bind, mean_blocks]
    refine congrArg (fun q => Except.ok (q / _)) (Finset.sum_congr rfl fun i _ => Finset.sum_congr rfl fun j _ => ?_)
    rw [div_pow]; ring
  · unfold chiSquaredArr
    rw [bcast2_row_col]
    simp only [ok_bind]
    rw [bcast2_mat_row]
    simp only [ok_bind, mean_blocks]
    refine congrArg (fun q => Except.ok (q / _)) (Finset.sum_congr rfl fun i _ => Finset.sum_congr rfl fun j _ => ?_)
    rw [div_pow]; ring

/-- **C57 (which scores reject).** RMSE and chi-squared raise only for shapes that do not broadcast; the negative log-likelihood and
the CRPS raise `ValueError` whenever the shapes are not equal. -/
theorem C57_rejections (m s t : Arr ℝ) :
    (¬ Compatible m.shape t.shape → ∃ e, estimateRmseArr m t = .error e ∧ chiSquaredArr m s t = .error e ∧
      (e = .typeError ∨ e = .valueError)) ∧
    (m.WF → t.WF → Compatible m.shape t.shape → ∃ r, estimateRmseArr m t = .ok r) ∧
    (¬ (m.shape = s.shape ∧ s.shape = t.shape) →
      nllGaussian m.toNd s.toNd t.toNd = .error .valueError ∧ crpsGaussian m.toNd s.toNd t.toNd = .error .valueError) := by
  refine ⟨fun h => ⟨bcError m.shape t.shape, ?_, ?_, ?_⟩, fun hm ht h => ?_, fun h => C32_shape_mismatch _ _ _ true h⟩
  · unfold estimateRmseArr
    rw [bcast2_error _ _ _ h]; rfl
  · unfold chiSquaredArr
    rw [bcast2_error _ _ _ h]; rfl
  · unfold bcError; split <;> simp
  · obtain ⟨r, hr, -⟩ := bcast2_ok (fun x y : ℝ => (x - y) ^ 2) m t hm ht h
    unfold estimateRmseArr
    rw [hr]
    exact ⟨_, rfl⟩

/-- **C57 (metrics).** The metric functions called with keyword arguments are these functions, for arrays of any shapes. -/
theorem C57_keyword_metrics (d : Dict (Arr ℝ)) (m s t : Arr ℝ) (hm : d.get? "pred_mean" = some m) (hs : d.get? "pred_std" = some s)
    (ht : d.get? "target" = some t) (h1 : m.WF) (h2 : s.WF) (h3 : t.WF) :
    rmseKw d = (estimateRmseArr m t).map (fun r => ⟨[], [r]⟩) ∧ chi2Kw d = (chiSquaredArr m s t).map (fun r => ⟨[], [r]⟩) ∧
    chi2Metric d = (chiSquaredArr m s t).map (fun r => |r - 1|) := by
  have harr : ∀ (b : Arr ℝ) (sh : List ℕ), b.WF → b.shape = sh → b = arrOf sh (fun i : Fin (shapeSize sh) => b.data.getD i.val 0) := by
    rintro ⟨sh, dat⟩ _ hb rfl
    unfold arrOf
    congr 1
    apply List.ext_getElem?
    intro k
    rw [List.getElem?_ofFn]
    split
    · next hk => rw [List.getD_eq_getElem?_getD, List.getElem?_eq_getElem (by rw [hb]; exact hk)]; rfl
    · next hk => rw [List.getElem?_eq_none (by rw [hb]; omega)]
  have hsum : ∀ sh, ∀ f g : Fin (shapeSize sh) → ℝ, ∑ k, (f k - g k) ^ 2 = ∑ k, (g k - f k) ^ 2 := fun sh f g =>
    Finset.sum_congr rfl fun k _ => by ring
  refine ⟨?_, ?_, ?_⟩
  · simp only [rmseKw, kwArg, hm, ht, ok_bind]
    split
    · next h =>
      conv_rhs => rw [harr m m.shape h1 rfl, harr t m.shape h3 h.symm, (C57_equal_shapes m.shape _ (fun _ => 0) _).1]
      simp only [estimateRmse, jnpMean, hsum]
      rfl
    · cases estimateRmseArr m t <;> rfl
  · simp only [chi2Kw, kwArg, hm, hs, ht, ok_bind]
    split
    · next h =>
      conv_rhs => rw [harr m m.shape h1 rfl, harr s m.shape h2 h.1.symm, harr t m.shape h3 (h.1.trans h.2).symm, (C57_equal_shapes m.shape _ _ _).2]
      simp only [chiSquared, jnpMean, if_true]
      refine congrArg (fun q => Except.ok (⟨[], [q / _]⟩ : Arr ℝ)) (Finset.sum_congr rfl fun k _ => ?_)
      rw [div_pow]; ring
    · cases chiSquaredArr m s t <;> rfl
  · simp only [chi2Metric, kwArg, hm, hs, ht, ok_bind]
    split
    · next h =>
      conv_rhs => rw [harr m m.shape h1 rfl, harr s m.shape h2 h.1.symm, harr t m.shape h3 (h.1.trans h.2).symm, (C57_equal_shapes m.shape _ _ _).2]
      simp only [chiSquaredZero, chiSquared, jnpMean, if_true]
      refine congrArg (fun q => Except.ok |q / _ - 1|) (Finset.sum_congr rfl fun k _ => ?_)
      rw [div_pow]; ring
    · cases chiSquaredArr m s t <;> rfl

/-! ### Calibration and evaluation: one output per point, targets without that axis -/

theorem ens_unit {N : ℕ} {sh : List ℕ} (h : sh = [1]) (g : Fin N → Vec (shapeSize sh)) :
    ensArr sh g = ⟨[N, 1], List.ofFn fun i => ∑ k, g i k⟩ := by
  subst h
  unfold ensArr
  congr 1
  rw [← ofFn_singletons fun i => ∑ k, g i k]
  congr 2
  funext i
  have hs : ∀ w : Fin 1 → ℝ, List.ofFn w = [∑ k, w k] := by intro w; simp [List.ofFn_succ]
  exact hs (g i)

theorem unit_sum {sh : List ℕ} (h : sh = [1]) (g : Vec (shapeSize sh)) (k : Fin (shapeSize sh)) : ∑ k, g k = g k := by
  subst h
  show ∑ k : Fin 1, g k = g k
  have : k = (0 : Fin 1) := Subsingleton.elim (α := Fin 1) _ _
  rw [this]
  exact Fintype.sum_subsingleton (ι := Fin 1) _ 0

theorem chi_ok (m s t : Arr ℝ) (hm : m.WF) (hs : s.WF) (ht : t.WF) (hms : m.shape = s.shape) (h : Compatible m.shape t.shape) :
    ∃ r, chiSquaredArr m s t = .ok r := by
  obtain ⟨d, d1, d2, -, d4, -⟩ := bcast2_ok (fun x y : ℝ => x - y) m t hm ht h
  obtain ⟨v, v1, -⟩ := bcast2_ok (fun x y : ℝ => x ^ 2 / y ^ 2) d s d2 hs (by
    intro k
    rw [d4, ← hms]
    split
    · next hk => exact Or.inr (Or.inr hk)
    · exact Or.inl rfl)
  unfold chiSquaredArr
  rw [d1, ok_bind, v1]
  exact ⟨_, rfl⟩

/-- The default regression metrics of one data point whose target has another shape that broadcasts. -/
theorem regression_point_raises (sh : List ℕ) (pred : X → Except Err (Dict (Arr ℝ))) (x : X) (r : Dict (Arr ℝ)) (hx : pred x = .ok r)
    (m s : Vec (shapeSize sh)) (t : Arr ℝ) (ht : t.WF) (hne : t.shape ≠ sh) (hc : Compatible sh t.shape)
    (hm : r.get? "pred_mean" = some (arrOf sh m)) (hs : r.get? "pred_std" = some (arrOf sh s))
    (tt : Arr ℝ) (kw : Dict (Arr ℝ)) (hkw : kw ∈ [[], [("has_batch", tt)]]) :
    evaluatePoint pred defaultRegressionMetrics kw (x, t) = .error .valueError := by
  have hw : ∀ v : Fin (shapeSize sh) → ℝ, (arrOf sh v).WF := fun v => by simp [Arr.WF, arrOf]
  have g1 : (r.set "target" t).get? "pred_mean" = some (arrOf sh m) := by rw [Dict.get?_set, if_neg (by decide), hm]
  have g2 : (r.set "target" t).get? "pred_std" = some (arrOf sh s) := by rw [Dict.get?_set, if_neg (by decide), hs]
  have g3 : (r.set "target" t).get? "target" = some t := by rw [Dict.get?_set, if_pos rfl]
  have hpairs : resolvePairs [] (r.set "target" t) [("pred_mean", "pred_mean"), ("pred_std", "pred_std"), ("target", "target")] =
      .ok (some [("pred_mean", arrOf sh m), ("pred_std", arrOf sh s), ("target", t)]) := by
    simp only [resolvePairs, lookupPairs, Dict.get?, g1, g2, g3]
    rfl
  obtain ⟨d, hd⟩ : ∃ d : Dict (Arr ℝ), d = [("pred_mean", arrOf sh m), ("pred_std", arrOf sh s), ("target", t)] := ⟨_, rfl⟩
  have hany : kw.keys.any (fun k => d.mem k) = false := by
    rw [hd]
    rcases List.mem_cons.1 hkw with rfl | h
    · rfl
    · rw [List.mem_singleton.1 h]; rfl
  obtain ⟨k1, k2, -⟩ := C57_keyword_metrics (d ++ kw) (arrOf sh m) (arrOf sh s) t (by rw [hd]; rfl) (by rw [hd]; rfl) (by rw [hd]; rfl)
    (hw m) (hw s) ht
  obtain ⟨v1, hv1⟩ := (C57_rejections (arrOf sh m) (arrOf sh s) t).2.1 (hw m) ht hc
  obtain ⟨v2, hv2⟩ := chi_ok _ _ t (hw m) (hw s) ht rfl hc
  have e1 : callKw rmseKw d kw = .ok ⟨[], [v1]⟩ := by
    simp only [callKw, hany, Bool.false_eq_true, if_false, k1, hv1]; rfl
  have e2 : callKw chi2Kw d kw = .ok ⟨[], [v2]⟩ := by
    simp only [callKw, hany, Bool.false_eq_true, if_false, k2, hv2]; rfl
  have a1 : kwArg (d ++ kw) "pred_mean" = .ok (arrOf sh m) := by rw [hd]; rfl
  have a2 : kwArg (d ++ kw) "pred_std" = .ok (arrOf sh s) := by rw [hd]; rfl
  have a3 : kwArg (d ++ kw) "target" = .ok t := by rw [hd]; rfl
  have e3 : callKw nllKw d kw = .error .valueError := by
    simp only [callKw, hany, Bool.false_eq_true, if_false, nllKw, a1, a2, a3, ok_bind]
    rw [((C57_rejections (arrOf sh m) (arrOf sh s) t).2.2 fun hh => hne hh.2.symm).1]
    rfl
  simp only [evaluatePoint, hx, ok_bind, finalizeFns, defaultRegressionMetrics, finalizeLoop, applyFns, hpairs, resolveNames,
    List.length_cons, List.length_nil, ne_eq, not_true_eq_false, if_false, List.map_cons, List.map_nil, List.zip_cons_cons, List.zip_nil_right,
    applyLoop, Option.getD_some, if_true, ← hd, e1, e2, e3]
  rfl

theorem stack_scalars {N : ℕ} (y : Fin N → ℝ) : (List.ofFn fun i => (⟨[], [y i]⟩ : Arr ℝ).data).flatten = List.ofFn y :=
  ofFn_singletons y

section
variable (lower : String → String) (rows : A → Except Err (List A)) (points : PyObj A → PyObj A → Except Err (List (X × Arr ℝ)))
  (pushforward predictive objective method metrics : EnumArg) (pr : String) (a : PredictiveArgs X K p) (θ : Vec p) (est e : CurvEstimate p)
  (data : PyObj A) (loss : (B : ℕ) → HessLossArg B (shapeSize a.net.shape)) (options : Dict (CalMethod (PyObj A) (WithTop ℝ))) (kw : GridKwargs)
  {N : ℕ} (xs : Fin N → X)

/-- **C57 (finding: chi-squared calibration).** For a network with output shape `(1,)` and targets given as plain numbers (a batch of
shape `(N,)`), `calibration` with the chi-squared objective raises nothing: it chooses the prior precision by comparing every prediction
with every target. -/
theorem C57_chi_squared_calibration (h : ApiLinear lower pushforward predictive pr a θ est) (hcls : NoPredictive predictive)
    (hsh : a.net.shape = [1]) (ho : convertToEnum lower calibrationObjectiveValues false objective = .ok (.member "chi_squared"))
    (hm : convertToEnum lower calibrationMethodValues true method = .ok (.member "grid_search")) (hn : 0 < kw.gridSize.getD 50)
    (hN : 0 < N) (ys : Fin N → ℝ) (hb : BatchIs points data xs fun i => ⟨[], [ys i]⟩)
    (hJ : ∀ i k, ∃ j, jacobian (a.net.fn (xs i)) θ k j ≠ 0) :
    ∃ q tried set eps R, calibration lower rows points a data loss e predictive pushforward none objective method options kw =
        .ok (⟨some q, none⟩, set, tried) ∧ 0 < q ∧
      ChosenBy (precGrid (kw.logPriorPrecMin.getD (-3)) (kw.logPriorPrecMax.getD 3) (kw.gridSize.getD 50))
        (fun τ => (|(∑ i, ∑ j, ∑ k, (ys j - a.net.fn (xs i) θ k) ^ 2 / predCovAt a.net.fn θ est τ (xs i) k k) / ((N : ℝ) * N) - 1| : ℝ))
        kw.patience q tried ∧
      Draws a.rng (some a.key) a.params eps ∧ LinearPredictive a θ est pr eps R q (set ⟨some q, none⟩) := by
  rw [← isClassification_false_iff] at hcls
  obtain ⟨fns, eps, R, h1, h2, h3⟩ := api_linear h
  obtain ⟨xy, b1, b2⟩ := hb
  obtain ⟨q, tried, c1, c2, c3⟩ := calibration_grid lower rows points a data loss e predictive pushforward none objective method options kw
    .lin fns h1 .chi2 (by rw [build_objective _ ho, hcls]; rfl) hm b1 _ b2 hn
    (fun τ => ((|(∑ i, ∑ j, ∑ k, (ys j - a.net.fn (xs i) θ k) ^ 2 / predCovAt a.net.fn θ est τ (xs i) k k) / ((N : ℝ) * N) - 1| : ℝ) : WithTop ℝ))
    (fun τ hτ => by
      obtain ⟨D, d1, d2, d3, d4, d5, -⟩ := stacked_predictions hN (h3 τ hτ) xs (fun i => (⟨[], [ys i]⟩ : Arr ℝ)) chi2Metric
      rw [stack_scalars] at d2
      rw [ens_unit hsh] at d4 d5
      simp only [objectiveFn, d1]
      rw [(C57_keyword_metrics D _ _ _ d4 d5 d2 (by simp [Arr.WF, shapeSize]) (by simp [Arr.WF, shapeSize]) (by simp [Arr.WF, shapeSize])).2.2,
        (C57_chi_squared_all_pairs _ _ _).1]
      simp only [Except.map, toObjRes, evalObjective]
      congr 5
      refine Finset.sum_congr rfl fun i _ => Finset.sum_congr rfl fun j _ => ?_
      obtain ⟨k, hk⟩ : ∃ k : Fin (shapeSize a.net.shape), True := ⟨⟨0, by rw [hsh]; simp [shapeSize]⟩, trivial⟩
      rw [unit_sum hsh _ k, unit_sum hsh _ k, unit_sum hsh _ k, div_pow, Real.sq_sqrt (predVar_pos h hτ (xs i) k (hJ i k)).le])
  exact ⟨q, tried, _, eps, R q, c1, c3, c2, h2, h3 q c3⟩

/-- **C57 (finding: evidence calibration).** With the same shapes and loss `"mse"`, the marginal likelihood is that of the squared
errors of every prediction against every target. -/
theorem C57_evidence_calibration (h : ApiLinear lower pushforward predictive pr a θ est)
    (hsh : a.net.shape = [1]) (ho : convertToEnum lower calibrationObjectiveValues false objective = .ok (.member "marginal_log_likelihood"))
    (hm : convertToEnum lower calibrationMethodValues true method = .ok (.member "grid_search")) (hn : 0 < kw.gridSize.getD 50)
    (he : EstimatePsd e) (hk : ∀ r (t : LowRankTerms p r), e ≠ .lowRank t)
    (hN : 0 < N) (ys : Fin N → ℝ) (hb : BatchIs points data xs fun i => ⟨[], [ys i]⟩) (hL : loss N = .name "mse") :
    ∃ q tried set eps R, calibration lower rows points a data loss e predictive pushforward none objective method options kw =
        .ok (⟨some q, none⟩, set, tried) ∧ 0 < q ∧
      ChosenBy (precGrid (kw.logPriorPrecMin.getD (-3)) (kw.logPriorPrecMax.getD 3) (kw.gridSize.getD 50))
        (fun τ => (mllScore θ e (∑ i, ∑ j, ∑ k, (a.net.fn (xs i) θ k - ys j) ^ 2) τ : ℝ)) kw.patience q tried ∧
      Draws a.rng (some a.key) a.params eps ∧ LinearPredictive a θ est pr eps R q (set ⟨some q, none⟩) := by
  obtain ⟨fns, eps, R, h1, h2, h3⟩ := api_linear h
  obtain ⟨xy, b1, b2⟩ := hb
  obtain ⟨q, tried, c1, c2, c3⟩ := calibration_grid lower rows points a data loss e predictive pushforward none objective method options kw
    .lin fns h1 .mll (by rw [build_objective _ ho]; cases isClassification predictive <;> rfl) hm b1 _ b2 hn
    (fun τ => ((mllScore θ e (∑ i, ∑ j, ∑ k, (a.net.fn (xs i) θ k - ys j) ^ 2) τ : ℝ) : WithTop ℝ)) (fun τ hτ => by
      obtain ⟨err, herr⟩ : ∃ err, mapE (fun dp : X × Arr ℝ => do
          let t ← lossTarget a.net.shape dp.2
          return (dp.1, t)) (List.ofFn fun i => (xs i, (⟨[], [ys i]⟩ : Arr ℝ))) = .error err := by
        obtain ⟨n, rfl⟩ : ∃ n, N = n + 1 := ⟨N - 1, by omega⟩
        rw [List.ofFn_succ]
        refine ⟨.unmodelled, mapE_first_error _ _ _ _ ?_⟩
        simp only [lossTarget]
        rw [if_neg (by rw [hsh]; simp)]
        rfl
      have hcall : mapE (fun dp : X × Arr ℝ => a.net.call dp.1 a.params) (List.ofFn fun i => (xs i, (⟨[], [ys i]⟩ : Arr ℝ))) =
          .ok (List.ofFn fun i => arrOf a.net.shape (a.net.fn (xs i) θ)) :=
        mapE_ofFn _ _ _ fun i => by simp only [Net.call, asParams_eq h.params, ok_bind]; rfl
      have hstack : stackOf (List.ofFn fun i => arrOf a.net.shape (a.net.fn (xs i) θ)) = .ok (ensArr a.net.shape fun i => a.net.fn (xs i) θ) := by
        obtain ⟨n, rfl⟩ : ∃ n, N = n + 1 := ⟨N - 1, by omega⟩
        simp [stackOf, stackArr, ensArr, arrOf, List.ofFn_succ, List.map_ofFn, Function.comp_def]
      have hstack' : stackOf ((List.ofFn fun i => (xs i, (⟨[], [ys i]⟩ : Arr ℝ))).map (·.2)) = .ok ⟨[N], List.ofFn ys⟩ := by
        rw [← stack_scalars ys]
        obtain ⟨n, rfl⟩ : ∃ n, N = n + 1 := ⟨N - 1, by omega⟩
        simp [stackOf, stackArr, List.ofFn_succ, List.map_ofFn, Function.comp_def]
      have hl : loss (List.ofFn fun i => (xs i, (⟨[], [ys i]⟩ : Arr ℝ))).length = .name "mse" := by rw [List.length_ofFn]; exact hL
      obtain ⟨G, hG⟩ : ∃ G : PyTree ℝ → Except Err ℝ, G = (fun t => do
          let my ← stackedOutputs a.net (List.ofFn fun i => (xs i, (⟨[], [ys i]⟩ : Arr ℝ))) t
          mseLossArr my.1 my.2) := ⟨_, rfl⟩
      have hfull : G a.params = .ok (∑ i, ∑ j, ∑ k, (a.net.fn (xs i) θ k - ys j) ^ 2) := by
        have hso : stackedOutputs a.net (List.ofFn fun i => (xs i, (⟨[], [ys i]⟩ : Arr ℝ))) a.params =
            .ok (ensArr a.net.shape fun i => a.net.fn (xs i) θ, ⟨[N], List.ofFn ys⟩) := by
          simp only [stackedOutputs, hcall, ok_bind, hstack, hstack']
          rfl
        simp only [hG, hso, ok_bind, mseLossArr]
        rw [ens_unit hsh, bcast2_col_row]
        simp only [ok_bind, sum_blocks]
        refine congrArg Except.ok (Finset.sum_congr rfl fun i _ => Finset.sum_congr rfl fun j _ => ?_)
        obtain ⟨k, hk⟩ : ∃ k : Fin (shapeSize a.net.shape), True := ⟨⟨0, by rw [hsh]; simp [shapeSize]⟩, trivial⟩
        rw [unit_sum hsh _ k, unit_sum hsh _ k]
      obtain ⟨l, l1, l2⟩ := mll_of_loss a.params h.wf h.nonempty θ h.params e he hk G _ hfull τ hτ
      simp only [objectiveFn, mllObjective, herr, mllBroadcast, hl, if_true]
      rw [← hG, l1, ok_bind, ← l2]
      rfl)
  exact ⟨q, tried, _, eps, R q, c1, c3, c2, h2, h3 q c3⟩

/-- **C57 (evaluation).** `evaluation` with the default regression metrics raises `ValueError` if the targets do not have the shape of the
outputs but broadcast against it: then RMSE and chi-squared accept them, and the negative log-likelihood rejects them. -/
theorem C57_evaluation_raises (h : ApiLinear lower pushforward predictive pr a θ est)
    (hmet : convertToEnum lower defaultMetricsValues false metrics = .ok (.member "regression")) (prior : PriorArgs) (tt : Arr ℝ) (τ : ℝ)
    (hτ : prior.priorPrec = some τ) (hτ0 : 0 < τ) (hσ : 0 ≤ prior.sigmaSquared.getD 1)
    (ts : Fin N → Arr ℝ) (hts : ∀ i, (ts i).WF ∧ (ts i).shape ≠ a.net.shape ∧ Compatible a.net.shape (ts i).shape)
    (hd : PointsAre points data (List.ofFn fun i => (xs i, ts i))) (reduce : Arr ℝ → Except Err (Arr ℝ)) :
    evaluation lower rows points a prior data (.enum metrics) predictive pushforward none reduce tt = .error .valueError := by
  obtain ⟨fns, eps, h1, h2, h3⟩ := C51_linear_predictive lower pushforward predictive pr h.pushforward h.predictive a h.rng h.nonempty
    h.wf θ h.params est h.psd h.posterior h.usable
  obtain ⟨P, R, rfl, e1, e2, e3⟩ := h3 prior τ hτ hτ0 hσ
  have hm : resolveMetrics lower defaultRegressionMetrics defaultClassificationMetrics (.enum metrics) = .ok defaultRegressionMetrics := by
    cases metrics with
    | other => simp [convertToEnum] at hmet
    | member v => simp only [resolveMetrics, hmet, ok_bind]; rfl
    | str v => simp only [resolveMetrics, hmet, ok_bind]; rfl
  simp only [evaluation, hm, h1, ok_bind]
  rw [evaluationMetrics_error rows points _ tt _ _ _ _ hd .valueError]
  · rfl
  · intro kw hkw pt hpt
    obtain ⟨i, rfl⟩ := List.mem_ofFn.1 hpt
    obtain ⟨r, r1, r2⟩ := e3 (xs i)
    exact regression_point_raises a.net.shape _ (xs i) r r1 (a.net.fn (xs i) θ)
      (fun k => Real.sqrt (covAt a.net.fn θ (targetPrecision τ (prior.sigmaSquared.getD 1) 1 est) (xs i) k k)) (ts i) (hts i).1 (hts i).2.1 (hts i).2.2
      (by rw [r2]; simp [apiExpected]) (by rw [r2]; simp [apiExpected, covAt]) tt kw hkw

end

/-! ### Non-vacuity -/

/-- Two targets against three predictions: shapes `(3, 1)` and `(2,)` are compatible, `(3,)` and `(2,)` are not. -/
example : Compatible [3, 1] [2] ∧ ¬ Compatible [3] [2] := by
  constructor
  · rw [← compatible_iff]; decide
  · rw [← compatible_iff]; decide

/-- Perfect predictions of the targets 0, 2 as a column have RMSE `√2`. -/
example : estimateRmseArr ⟨[2, 1], [0, 2]⟩ ⟨[2], [0, 2]⟩ = .ok (Real.sqrt 2) := by
  obtain ⟨r, h1, h2, -⟩ := C57_rmse_of_perfect_predictions (n := 2) (by norm_num) ![0, 2]
  simp only [List.ofFn_succ, List.ofFn_zero] at h1
  have : (⟨[2, 1], [0, 2]⟩ : Arr ℝ) = ⟨[2, 1], [![0, 2] 0, ![0, 2] (Fin.succ 0)]⟩ := rfl
  rw [this, show (⟨[2], [0, 2]⟩ : Arr ℝ) = ⟨[2], [![0, 2] 0, ![0, 2] (Fin.succ 0)]⟩ from rfl, h1, h2]
  norm_num [Fin.sum_univ_two]

/-- A network with one output `x · θ₀`. -/
noncomputable def testNet1 : Net ℝ 2 := ⟨[1], fun x v _ => x * v 0⟩

/-- The arguments of the example with the one-output network. -/
noncomputable def testArgs1 : PredictiveArgs ℝ Unit 2 := { testArgs with net := testNet1 }

theorem test_apiLinear1 : ApiLinear (fun s => s) (.str "linear") (.member "none") "none" testArgs1 ![3, 5] (.full !![2, 2; 2, 2]) where
  pushforward := rfl
  predictive := rfl
  rng := testRng_ok
  nonempty := by norm_num
  wf := testMean_wf
  params := test_apiLinear.params
  psd := test_psd
  posterior := rfl
  usable := Or.inl rfl

/-- Two inputs with plain numbers as targets. -/
def testPoints1 : PyObj (List ℝ) → PyObj (List ℝ) → Except Err (List (ℝ × Arr ℝ))
  | .arr [x, x'], .arr [a, b] => .ok [(x, ⟨[], [a]⟩), (x', ⟨[], [b]⟩)]
  | _, _ => .error .valueError

theorem test_batch1 : BatchIs testPoints1 (.tup [.arr [1, 2], .arr [4, 5]]) ![1, 2] (fun i => ⟨[], [(![4, 5] : Fin 2 → ℝ) i]⟩) :=
  ⟨_, BatchOf.pair _ _, by simp [testPoints1, List.ofFn_succ]⟩

theorem test_gradient1 (x : ℝ) (hx : x ≠ 0) (k : Fin (shapeSize testNet1.shape)) : ∃ j, jacobian (testNet1.fn x) ![3, 5] k j ≠ 0 := by
  refine ⟨0, ?_⟩
  have hd : HasFDerivAt (testNet1.fn x) (ContinuousLinearMap.pi fun _ => x • (ContinuousLinearMap.proj 0 : Vec 2 →L[ℝ] ℝ)) ![3, 5] := by
    rw [hasFDerivAt_pi']
    intro i
    exact ((hasFDerivAt_apply (𝕜 := ℝ) 0 (![3, 5] : Vec 2)).const_mul x).congr_fderiv (by ext v; simp)
  show fderiv ℝ (testNet1.fn x) ![3, 5] (Pi.single 0 1) k ≠ 0
  rw [hd.fderiv]
  show x * (Pi.single 0 1 : Vec 2) 0 ≠ 0
  simpa using hx

/-- The hypotheses of the chi-squared finding are met. -/
example : ∃ q tried set, calibration (fun s => s) (fun _ => .error .valueError) testPoints1 testArgs1
      (.tup [.arr [1, 2], .arr [4, 5]]) (fun _ => .name "mse") (.full !![2, 2; 2, 2]) (.member "none") (.str "linear") none
      (.str "chi_squared") (.str "grid_search") [] {} = .ok (⟨some q, none⟩, set, tried) := by
  obtain ⟨q, tried, set, eps, R, h1, -⟩ := C57_chi_squared_calibration _ (fun _ => .error .valueError) testPoints1 (.str "linear") (.member "none")
    (.str "chi_squared") (.str "grid_search") "none" testArgs1 ![3, 5] (.full !![2, 2; 2, 2]) (.full !![2, 2; 2, 2])
    (.tup [.arr [1, 2], .arr [4, 5]]) (fun _ => .name "mse") [] {} ![1, 2] test_apiLinear1 (Or.inl rfl) rfl rfl rfl (by decide) (by norm_num) _
    test_batch1 (fun i k => by
      apply test_gradient1
      fin_cases i <;> simp)
  exact ⟨q, tried, set, h1⟩

/-- The hypotheses of the evidence finding are met. -/
example : ∃ q tried set, calibration (fun s => s) (fun _ => .error .valueError) testPoints1 testArgs1
      (.tup [.arr [1, 2], .arr [4, 5]]) (fun _ => .name "mse") (.full !![2, 2; 2, 2]) (.member "none") (.str "linear") none
      (.str "marginal_log_likelihood") (.str "grid_search") [] {} = .ok (⟨some q, none⟩, set, tried) := by
  obtain ⟨q, tried, set, eps, R, h1, -⟩ := C57_evidence_calibration _ (fun _ => .error .valueError) testPoints1 (.str "linear") (.member "none")
    (.str "marginal_log_likelihood") (.str "grid_search") "none" testArgs1 ![3, 5] (.full !![2, 2; 2, 2]) (.full !![2, 2; 2, 2])
    (.tup [.arr [1, 2], .arr [4, 5]]) (fun _ => .name "mse") [] {} ![1, 2] test_apiLinear1 rfl rfl rfl (by decide) test_psd
    (fun _ _ => by simp) (by norm_num) _ test_batch1 rfl
  exact ⟨q, tried, set, h1⟩

/-- The hypotheses of the evaluation theorem are met. -/
example : evaluation (fun s => s) (fun _ => .error .valueError) testPoints1 testArgs1 ⟨some 2, none⟩ (.tup [.arr [1, 2], .arr [4, 5]])
      (.enum (.str "regression")) (.member "none") (.str "linear") none .ok ⟨[], [1]⟩ = .error .valueError := by
  refine C57_evaluation_raises _ (fun _ => .error .valueError) testPoints1 (.str "linear") (.member "none") (.str "regression") "none" testArgs1
    ![3, 5] (.full !![2, 2; 2, 2]) (.tup [.arr [1, 2], .arr [4, 5]]) ![1, 2] test_apiLinear1 rfl ⟨some 2, none⟩ ⟨[], [1]⟩ 2 rfl (by norm_num)
    (by norm_num) (fun i => ⟨[], [(![4, 5] : Fin 2 → ℝ) i]⟩) (fun i => ⟨rfl, by simp [testArgs1, testNet1], ?_⟩) ?_ .ok
  · rw [← compatible_iff]; rfl
  · refine ⟨[(.arr [1, 2], .arr [4, 5])], fun _ => [(1, ⟨[], [4]⟩), (2, ⟨[], [5]⟩)], DataOf.single _ _ (BatchOf.pair _ _), ?_, ?_⟩
    · intro xy hxy
      rw [List.mem_singleton.1 hxy]
      exact ⟨rfl, by simp⟩
    · simp [List.ofFn_succ]

/-- The sum of a leaf of shape `(2,)` and a leaf of shape `(2, 1)` has shape `(2, 2)`. -/
example : ∃ r, treeAdd (.leaf ⟨[2], [1, 2]⟩ : PyTree ℤ) (.leaf ⟨[2, 1], [10, 20]⟩) = .ok r ∧
    r = .leaf ⟨[2, 2], [11, 12, 21, 22]⟩ := ⟨_, rfl, rfl⟩

end Laplax.Props
