import Verif.Lib.TreeLemmas2
import Mathlib.Data.List.GetD

/-! Auxiliary lemmas: elementwise operations, basis vectors, axis splitting. -/

namespace Laplax
open Spec
variable {α : Type}

theorem cumsumFrom_eq (s : Nat) (ns : List Nat) : cumsumFrom s ns = (cumsumFrom 0 ns).map (s + ·) := by
  induction ns generalizing s with
  | nil => rfl
  | cons n ns ih =>
    simp only [cumsumFrom, List.map_cons]
    rw [ih (s + n), ih (0 + n), List.map_map]
    simp [Function.comp_def, Nat.add_assoc]

theorem mapE_zipWith_ok (f : α → α → α) (xs ys : List (Arr α)) (h : xs.map Arr.shape = ys.map Arr.shape) :
    mapE (fun p => Arr.zipWith f p.1 p.2) (xs.zip ys) =
      .ok (List.zipWith (fun a b => ⟨a.shape, List.zipWith f a.data b.data⟩) xs ys) := by
  induction xs generalizing ys with
  | nil => cases ys <;> rfl
  | cons x xs ih => cases ys with
    | nil => simp at h
    | cons y ys =>
      simp only [List.map_cons, List.cons.injEq] at h
      simp only [List.zip_cons_cons, mapE, ih ys h.2, List.zipWith_cons_cons]
      rw [Arr.zipWith, if_pos h.1]
      rfl

theorem flatten_zipWith (f : α → α → α) (xs ys : List (Arr α)) (h : xs.map Arr.shape = ys.map Arr.shape)
    (hx : ∀ a ∈ xs, a.WF) (hy : ∀ a ∈ ys, a.WF) :
    ((List.zipWith (fun a b => (⟨a.shape, List.zipWith f a.data b.data⟩ : Arr α)) xs ys).map Arr.data).flatten =
      List.zipWith f (xs.map Arr.data).flatten (ys.map Arr.data).flatten := by
  induction xs generalizing ys with
  | nil => cases ys <;> simp
  | cons x xs ih => cases ys with
    | nil => simp at h
    | cons y ys =>
      simp only [List.map_cons, List.cons.injEq] at h
      have hxl : x.data.length = y.data.length := by
        rw [hx x (by simp), hy y (by simp), h.1]
      simp only [List.zipWith_cons_cons, List.map_cons, List.flatten_cons]
      rw [ih ys h.2 (fun a ha => hx a (by simp [ha])) (fun a ha => hy a (by simp [ha])), List.zipWith_append hxl]

theorem tmap2_zipWith (f : α → α → α) (t u : PyTree α) (h : SameLayout t u) (ht : WFTree t) (hu : WFTree u) :
    ∃ r, Tree.tmap2 (Arr.zipWith f) t u = .ok r ∧ SameLayout r t ∧ WFTree r ∧
      entries r = List.zipWith f (entries t) (entries u) := by
  have hlen : t.leaves.length = u.leaves.length := by simpa using congrArg List.length h.shapes
  unfold Tree.tmap2
  rw [if_pos ((Tree.defEq_iff _ _).2 h.treedef), zipStrict_eq_ok _ _ hlen]
  simp only [ok_bind]
  rw [mapE_zipWith_ok f _ _ h.shapes]
  simp only [ok_bind]
  obtain ⟨r, hr⟩ := Tree.unflatten_isOk t.treedef
    (List.zipWith (fun a b => (⟨a.shape, List.zipWith f a.data b.data⟩ : Arr α)) t.leaves u.leaves) (by
      rw [Tree.length_leaves_treedef]; simp [hlen])
  refine ⟨r, hr, ?_⟩
  rw [Tree.unflatten_ok_iff] at hr
  obtain ⟨h1, h2⟩ := hr
  refine ⟨sameLayout_of h1 ?_, ?_, ?_⟩
  · rw [h2, List.map_zipWith]
    apply List.ext_getElem
    · simp [hlen]
    · intro i _ _; simp
  · intro a ha
    rw [h2] at ha
    obtain ⟨i, hi, rfl⟩ := List.getElem_of_mem ha
    simp only [List.length_zipWith] at hi
    simp only [List.getElem_zipWith, Arr.WF, List.length_zipWith]
    rw [ht _ (List.getElem_mem (by omega)), hu _ (List.getElem_mem (by omega))]
    have := List.getElem_of_eq h.shapes (i := i) (by simp; omega)
    simp only [List.getElem_map] at this
    rw [this, Nat.min_self]
  · rw [entries, h2, flatten_zipWith f _ _ h.shapes ht hu]; rfl

theorem tmap_map1 (f : α → α) (t : PyTree α) (ht : WFTree t) :
    ∃ r, Tree.tmap (fun a => .ok (a.map1 f)) t = .ok r ∧ SameLayout r t ∧ WFTree r ∧
      entries r = (entries t).map f := by
  refine ⟨t.map (Arr.map1 f), Tree.tmap_ok _ t, ?_, ?_, ?_⟩
  · unfold SameLayout; rw [Tree.map_map]; rfl
  · intro a ha
    rw [Tree.leaves_map] at ha
    obtain ⟨b, hb, rfl⟩ := List.mem_map.1 ha
    simp [Arr.WF, Arr.map1]; exact ht b hb
  · simp [entries, Tree.leaves_map, List.map_map, Function.comp_def, Arr.map1, List.map_flatten]

theorem flatten_replicate' (ss : List Nat) (c : α) :
    (ss.map (fun s => List.replicate s c)).flatten = List.replicate ss.sum c := by
  induction ss with
  | nil => rfl
  | cons s ss ih => simp [ih, List.replicate_append_replicate]

theorem tmap_const (c : α) (t : PyTree α) :
    ∃ r, Tree.tmap (fun a => .ok ⟨a.shape, List.replicate (shapeSize a.shape) c⟩) t = .ok r ∧ SameLayout r t ∧ WFTree r ∧
      entries r = List.replicate (numEntries t) c ∧
      r.leaves = t.leaves.map (fun a => ⟨a.shape, List.replicate (shapeSize a.shape) c⟩) := by
  refine ⟨t.map (fun a => ⟨a.shape, List.replicate (shapeSize a.shape) c⟩), Tree.tmap_ok _ t, ?_, ?_, ?_, Tree.leaves_map _ _⟩
  · unfold SameLayout; rw [Tree.map_map]; rfl
  · intro a ha
    rw [Tree.leaves_map] at ha
    obtain ⟨b, hb, rfl⟩ := List.mem_map.1 ha
    simp [Arr.WF]
  · simp only [entries, Tree.leaves_map, List.map_map, Function.comp_def, numEntries_eq]
    rw [← flatten_replicate', List.map_map]; rfl

/-! ### Basis vectors -/

theorem unitVec_eq_set [OfNat α 0] [OfNat α 1] (n i : Nat) : unitVec α n i = (List.replicate n (0 : α)).set i 1 := by
  apply List.ext_getElem
  · simp [unitVec]
  · intro j h h'
    simp only [unitVec, List.getElem_map, List.getElem_range, List.getElem_set, List.getElem_replicate]
    by_cases hij : j = i
    · subst hij; simp
    · rw [if_neg hij, if_neg (fun h => hij h.symm)]

theorem countP_cumsumFrom (s : Nat) (ns : List Nat) (idx : Nat) (h : s ≤ idx) :
    (cumsumFrom s ns).countP (· ≤ idx) = (cumsumFrom 0 ns).countP (· ≤ idx - s) := by
  rw [cumsumFrom_eq s, List.countP_map]
  apply List.countP_congr
  intro x _
  simp [Function.comp]; omega

/-- The list-level heart of `basis_vector_from_index`. -/
theorem basis_aux [OfNat α 0] [OfNat α 1] (ss : List Nat) (idx : Nat) :
    ((ss.mapIdx (fun i s => if i = (cumsum ss).countP (· ≤ idx)
        then (List.replicate s (0 : α)).set
          (idx - (if (cumsum ss).countP (· ≤ idx) > 0 then (cumsum ss).getD ((cumsum ss).countP (· ≤ idx) - 1) 0 else 0)) 1
        else List.replicate s 0)).flatten) = (List.replicate ss.sum (0 : α)).set idx 1 := by
  induction ss generalizing idx with
  | nil => simp
  | cons s ss ih =>
    simp only [cumsum, cumsumFrom, Nat.zero_add]
    by_cases hlt : idx < s
    · have hz : (s :: cumsumFrom s ss).countP (· ≤ idx) = 0 := by
        rw [List.countP_eq_zero]
        intro x hx
        rw [cumsumFrom_eq] at hx
        simp at hx ⊢
        rcases hx with rfl | ⟨a, _, rfl⟩ <;> omega
      rw [hz]
      simp only [List.mapIdx_cons, if_true, List.flatten_cons, Nat.succ_ne_zero, if_false, Nat.not_lt_zero, Nat.sub_zero, gt_iff_lt,
        List.sum_cons]
      have : (ss.mapIdx (fun (i s : Nat) => List.replicate s (0 : α))) = ss.map (fun s => List.replicate s 0) := by
        apply List.ext_getElem <;> simp
      rw [this, flatten_replicate', ← List.replicate_append_replicate, List.set_append_left _ _ (by simpa using hlt)]
    · have hs : s ≤ idx := Nat.le_of_not_lt hlt
      have hk : (s :: cumsumFrom s ss).countP (· ≤ idx) = (cumsum ss).countP (· ≤ idx - s) + 1 := by
        rw [List.countP_cons, countP_cumsumFrom s ss idx hs]; simp [hs, cumsum]
      rw [hk]
      simp only [List.mapIdx_cons, Nat.zero_ne_add_one, if_false, List.flatten_cons, List.sum_cons, Nat.add_right_cancel_iff]
      rw [← List.replicate_append_replicate, List.set_append_right _ _ (by simpa using hs)]
      congr 1
      simp only [List.length_replicate]
      rw [← ih (idx - s)]
      congr 2
      funext i n
      by_cases hi : i = (cumsum ss).countP (· ≤ idx - s)
      · rw [if_pos hi, if_pos hi]
        congr 1
        simp only [Nat.add_sub_cancel, gt_iff_lt, Nat.zero_lt_succ, if_true]
        generalize hkk : (cumsum ss).countP (· ≤ idx - s) = k
        have hkl : k ≤ (cumsum ss).length := by rw [← hkk]; exact List.countP_le_length
        cases k with
        | zero => simp
        | succ k =>
          rw [cumsumFrom_eq]
          have hk2 : k < (cumsumFrom 0 ss).length := hkl
          simp only [Nat.zero_lt_succ, if_true, Nat.add_sub_cancel, List.getD_cons_succ, cumsum]
          rw [List.getD_eq_getElem _ _ (by simpa using hk2), List.getD_eq_getElem _ _ hk2, List.getElem_map]
          omega
      · rw [if_neg hi, if_neg hi]

/-! ### Axis splitting -/

theorem cumsumFrom_dropLast (s : Nat) (ns : List Nat) : cumsumFrom s ns.dropLast = (cumsumFrom s ns).dropLast := by
  induction ns generalizing s with
  | nil => rfl
  | cons n ns ih => cases ns with
    | nil => rfl
    | cons m ns => simp only [List.dropLast_cons_cons, cumsumFrom] at ih ⊢; rw [ih]

theorem length_cumsumFrom (s : Nat) (ns : List Nat) : (cumsumFrom s ns).length = ns.length := by
  induction ns generalizing s with
  | nil => rfl
  | cons n ns ih => simp [cumsumFrom, ih]

theorem length_chunks (n k : Nat) (xs : List α) : (chunks n k xs).length = k := by
  induction k generalizing xs with
  | zero => rfl
  | succ k ih => simp [chunks, ih]

theorem getElem_chunks (n k : Nat) (xs : List α) (i : Nat) (h : i < (chunks n k xs).length) :
    (chunks n k xs)[i] = (xs.drop (i * n)).take n := by
  induction k generalizing xs i with
  | zero => simp [chunks] at h
  | succ k ih => cases i with
    | zero => simp [chunks]
    | succ i =>
      simp only [chunks, List.getElem_cons_succ, ih, List.drop_drop]
      rw [Nat.add_mul, Nat.one_mul, Nat.add_comm]

theorem length_of_mem_chunks (n k : Nat) (xs : List α) (h : xs.length = k * n) (c : List α) (hc : c ∈ chunks n k xs) :
    c.length = n := by
  induction k generalizing xs with
  | zero => simp [chunks] at hc
  | succ k ih =>
    have : xs.length = k * n + n := by rw [h, Nat.add_mul, Nat.one_mul]
    simp only [chunks, List.mem_cons] at hc
    rcases hc with rfl | hc
    · simp; omega
    · exact ih (xs.drop n) (by simp; omega) hc

theorem drop_take_flatten (ds : List (List α)) (s : Nat) (h : ∀ d ∈ ds, d.length = s) (i : Nat) (hi : i < ds.length) :
    (ds.flatten.drop (i * s)).take s = ds[i] := by
  induction ds generalizing i with
  | nil => simp at hi
  | cons d ds ih =>
    have hd := h d (by simp)
    cases i with
    | zero => rw [← hd]; simp
    | succ i =>
      simp only [List.flatten_cons, List.getElem_cons_succ]
      rw [Nat.add_mul, Nat.one_mul, Nat.add_comm, ← List.drop_drop]
      have : (d ++ ds.flatten).drop s = ds.flatten := by rw [← hd]; simp
      rw [this]
      exact ih (fun d hd => h d (by simp [hd])) i (by simpa using hi)

theorem foldl_mul (sh : List Nat) (a : Nat) : sh.foldl (· * ·) a = a * shapeSize sh := by
  unfold shapeSize
  induction sh generalizing a with
  | nil => simp
  | cons n sh ih => simp only [List.foldl_cons]; rw [ih (a * n), ih (1 * n), Nat.one_mul, Nat.mul_assoc]

theorem shapeSize_cons (n : Nat) (sh : List Nat) : shapeSize (n :: sh) = n * shapeSize sh := by
  show (n :: sh).foldl (· * ·) 1 = _
  rw [List.foldl_cons, foldl_mul, Nat.one_mul]

theorem shapeSize_append (a b : List Nat) : shapeSize (a ++ b) = shapeSize a * shapeSize b := by
  show (a ++ b).foldl (· * ·) 1 = _
  rw [List.foldl_append, foldl_mul]; rfl

end Laplax
