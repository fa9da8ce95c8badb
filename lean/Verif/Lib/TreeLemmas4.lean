import Verif.Lib.TreeLemmas3

/-! Auxiliary lemmas: `unravel_array_into_pytree`, `eye_like`, partial flattening. -/

namespace Laplax
open Spec
variable {α : Type}

theorem mapE_reshape_of_lengths (ds : List (List α)) (shs : List (List Nat))
    (h : ds.map List.length = shs.map shapeSize) :
    mapE (fun p => reshape p.1 p.2) (ds.zip shs) = .ok (List.zipWith Arr.mk shs ds) := by
  have hl : ds.length = shs.length := by simpa using congrArg List.length h
  rw [mapE_reshape_zip _ _ hl]
  refine ⟨?_, ?_, ?_⟩
  · rw [List.map_zipWith]; apply List.ext_getElem
    · simp [hl]
    · intro i _ _; simp
  · rw [List.map_zipWith]; apply List.ext_getElem
    · simp [hl]
    · intro i _ _; simp
  · intro a ha
    obtain ⟨i, hi, rfl⟩ := List.getElem_of_mem ha
    simp only [List.length_zipWith] at hi
    have := List.getElem_of_eq h (i := i) (by simp; omega)
    simpa [Arr.WF] using this

theorem unflattenLike_eq (L : PyTree α) (hL : L.leaves ≠ []) (v : List α) (hv : v.length = numEntries L) :
    unflattenLike L v = Tree.unflatten L.treedef
      (List.zipWith Arr.mk (L.leaves.map Arr.shape) (segs ((L.leaves.map Arr.shape).map shapeSize) v)) := by
  unfold unflattenLike
  have hne : (L.leaves.map Arr.shape).map shapeSize ≠ [] := by simpa using hL
  simp only [jnpSplit_cumsum _ hne]
  rw [zipStrict_eq_ok _ _ (by rw [length_segs]; simp), ok_bind, mapE_reshape_of_lengths, ok_bind]
  exact map_length_segs _ _ (by rw [← numEntries_eq, hv])

theorem unravel_rows (L : PyTree α) (hL : L.leaves ≠ []) (n : Nat) (data : List α)
    (hlen : data.length = n * numEntries L) :
    ∃ r, unravelArrayIntoPytree L (1 : Int) ⟨[n, numEntries L], data⟩ = .ok r ∧ r.treedef = L.treedef ∧
      r.leaves.map Arr.shape = L.leaves.map (fun a => n :: a.shape) ∧ WFTree r ∧
      ∀ i < n, Tree.tmap (Arr.row i) r =
        unflattenLike L ((data.drop (i * numEntries L)).take (numEntries L)) := by
  generalize hP : numEntries L = P at *
  let shs := L.leaves.map Arr.shape
  let sizes := shs.map shapeSize
  have hne : sizes ≠ [] := by simp [sizes, shs, hL]
  let rows := chunks P n data
  let ds : List (List α) := (List.range sizes.length).map (fun j => (rows.map (fun b => (segs sizes b).getD j [])).flatten)
  have hrow : ∀ b ∈ rows, b.length = P := fun b hb => length_of_mem_chunks P n data hlen b hb
  have hsegs : ∀ b ∈ rows, (segs sizes b).map List.length = sizes := by
    intro b hb
    apply map_length_segs
    rw [hrow b hb, ← hP, numEntries_eq]
  have hpiece : ∀ j (hj : j < sizes.length), ∀ b ∈ rows, ((segs sizes b).getD j []).length = sizes[j] := by
    intro j hj b hb
    have hj' : j < (segs sizes b).length := by rw [length_segs]; exact hj
    have := List.getElem_of_eq (hsegs b hb) (i := j) (by simpa using hj')
    rw [List.getD_eq_getElem _ _ hj', ← this, List.getElem_map]
  have hds : ds.map List.length = (shs.map (fun sh => n :: sh)).map shapeSize := by
    apply List.ext_getElem
    · simp [ds, sizes]
    · intro j h1 h2
      simp only [List.length_map, ds, List.length_range] at h1
      simp only [ds, List.getElem_map, List.getElem_range, shapeSize_cons]
      rw [← sum_map_length, List.map_map]
      have : (rows.map (List.length ∘ fun b => (segs sizes b).getD j [])) = List.replicate n sizes[j] := by
        rw [List.eq_replicate_iff]
        refine ⟨by simp [rows, length_chunks], ?_⟩
        intro x hx
        obtain ⟨b, hb, rfl⟩ := List.mem_map.1 hx
        exact hpiece j h1 b hb
      rw [this]; simp [sizes, List.sum_replicate_nat]
  have hev : unravelArrayIntoPytree L (1 : Int) ⟨[n, P], data⟩ =
      Tree.unflatten L.treedef (List.zipWith Arr.mk (shs.map (fun sh => n :: sh)) ds) := by
    unfold unravelArrayIntoPytree
    have e1 : (cumsum (L.leaves.dropLast.map (fun l => shapeSize l.shape))) = (cumsum sizes).dropLast := by
      rw [List.map_dropLast]
      have : L.leaves.map (fun l => shapeSize l.shape) = sizes := by simp [sizes, shs, Function.comp_def]
      rw [this]; exact cumsumFrom_dropLast 0 sizes
    have e2 : shapeSize [n] = n := by simp [shapeSize]
    have e3 : shapeSize ([] : List Nat) = 1 := rfl
    have e4 : L.leaves.map (fun l => [n] ++ l.shape ++ []) = shs.map (fun sh => n :: sh) := by
      simp [shs, List.map_map]
    have e5 : splitAxis n P 1 (cumsum sizes).dropLast data = ds := by
      unfold splitAxis
      simp only [Nat.mul_one, List.map_id', jnpSplit_cumsum _ hne]
      have : (cumsum sizes).dropLast.length + 1 = sizes.length := by
        rw [List.length_dropLast, cumsum, length_cumsumFrom]
        have : sizes.length ≠ 0 := by simpa using hne
        omega
      rw [this]
      simp only [List.map_map]; rfl
    have hax : ((1 : Int) % (([n, P] : List Nat).length : Int)).toNat = 1 := rfl
    simp only [hax, Nat.reduceAdd, List.take_succ_cons, List.take_zero,
      List.drop_succ_cons, List.drop_zero, List.drop_nil, List.headD_cons, e1, e2, e3, e4, Nat.mul_one, e5]
    rw [if_neg (by simp), zipStrict_eq_ok _ _ (by simp [ds, sizes]), ok_bind, mapE_reshape_of_lengths _ _ hds, ok_bind]
  obtain ⟨r, hr⟩ := Tree.unflatten_isOk L.treedef (List.zipWith Arr.mk (shs.map (fun sh => n :: sh)) ds) (by
    rw [Tree.length_leaves_treedef]; simp [ds, sizes, shs])
  refine ⟨r, by rw [hev, hr], ?_⟩
  rw [Tree.unflatten_ok_iff] at hr
  obtain ⟨htd, hls⟩ := hr
  refine ⟨htd, ?_, ?_, ?_⟩
  · rw [hls, List.map_zipWith]
    apply List.ext_getElem
    · simp [ds, sizes, shs]
    · intro j _ _; simp [shs]
  · intro a ha
    rw [hls] at ha
    obtain ⟨j, hj, rfl⟩ := List.getElem_of_mem ha
    simp only [List.length_zipWith] at hj
    have := List.getElem_of_eq hds (i := j) (by simp; omega)
    simpa [Arr.WF] using this
  · intro i hi
    have hir : i < rows.length := by simp [rows, length_chunks, hi]
    have hrowi : rows[i] = (data.drop (i * P)).take P := getElem_chunks P n data i hir
    rw [← hrowi, unflattenLike_eq L hL _ (by rw [hrow _ (List.getElem_mem hir), hP])]
    unfold Tree.tmap
    have : mapE (Arr.row i) r.leaves = .ok (List.zipWith Arr.mk shs (segs sizes rows[i])) := by
      rw [mapE_ok_iff, hls, List.forall₂_iff_get]
      refine ⟨by simp [ds, length_segs, sizes], ?_⟩
      intro j h1 h2
      have hj : j < sizes.length := by simpa [ds, sizes] using h1
      have hj' : j < (segs sizes rows[i]).length := by rw [length_segs]; exact hj
      simp only [List.get_eq_getElem, List.getElem_zipWith, List.getElem_map, ds, List.getElem_range, Arr.row, if_pos hi]
      congr 2
      have hsz : sizes[j] = shapeSize (shs[j]'(by simpa [sizes] using hj)) := by simp [sizes]
      rw [drop_take_flatten _ _ (by
        intro d hd
        obtain ⟨b, hb, rfl⟩ := List.mem_map.1 hd
        rw [hpiece j hj b hb, hsz]) i (by simpa using hir)]
      rw [List.getElem_map, List.getD_eq_getElem _ _ hj']
    rw [this, ok_bind, htd]

theorem zerosLike_ok [OfNat α 0] (t : PyTree α) :
    ∃ r, zerosLike t = .ok r ∧ SameLayout r t ∧ WFTree r ∧ entries r = List.replicate (numEntries t) 0 ∧
      r.leaves = t.leaves.map (fun a => ⟨a.shape, List.replicate (shapeSize a.shape) 0⟩) := tmap_const 0 t

theorem cumsumFrom_getD_le (ss : List Nat) (a idx : Nat) (h : 0 < (cumsumFrom a ss).countP (fun c => decide (c ≤ idx))) :
    (cumsumFrom a ss).getD ((cumsumFrom a ss).countP (fun c => decide (c ≤ idx)) - 1) 0 ≤ idx := by
  induction ss generalizing a with
  | nil => simp [cumsumFrom] at h
  | cons s ss ih =>
    simp only [cumsumFrom, List.countP_cons] at h ⊢
    by_cases hs : a + s ≤ idx
    · simp only [hs, decide_true, if_true, Nat.add_sub_cancel]
      rcases Nat.eq_zero_or_pos ((cumsumFrom (a + s) ss).countP (fun c => decide (c ≤ idx))) with h0 | h0
      · rw [h0]; simpa using hs
      · obtain ⟨j, hj⟩ := Nat.exists_eq_add_of_lt h0
        have := ih (a + s) h0
        rw [hj] at this ⊢
        simpa using this
    · have h0 : (cumsumFrom (a + s) ss).countP (fun c => decide (c ≤ idx)) = 0 := by
        rw [List.countP_eq_zero]
        intro x hx
        rw [cumsumFrom_eq] at hx
        obtain ⟨y, _, rfl⟩ := List.mem_map.1 hx
        simp; omega
      simp [hs, h0] at h

theorem jaxSet_nonneg {B : Type} (xs : List B) (i c : Nat) (hc : c ≤ i) (v : B) :
    jaxSet xs ((i : Int) - (c : Int)) v = xs.set (i - c) v := by
  have h1 : ¬ ((i : Int) - (c : Int) < 0) := by omega
  have h2 : ((i : Int) - (c : Int)).toNat = i - c := by omega
  simp only [jaxSet, h1, if_false, h2]

theorem jaxGet_of_lt {B : Type} (xs : List B) (i : Nat) (h : i < xs.length) : jaxGet xs (i : Int) = .ok xs[i] := by
  have h1 : ¬ ((i : Int) < 0) := by omega
  have h2 : min (i : Int).toNat (xs.length - 1) = i := by omega
  simp only [jaxGet, h1, if_false, h2, List.getElem?_eq_getElem h]

theorem jaxGet_map {B C : Type} (f : B → C) (xs : List B) (i : Int) : jaxGet (xs.map f) i = (jaxGet xs i).map f := by
  simp only [jaxGet, List.length_map, List.getElem?_map]
  cases xs[min (if i < 0 then i + (xs.length : Int) else i).toNat (xs.length - 1)]? <;> rfl

theorem basisVector_ok [OfNat α 0] [OfNat α 1] (idx : Nat) (t : PyTree α) :
    ∃ r, basisVectorFromIndex idx t = .ok r ∧ SameLayout r t ∧ WFTree r ∧
      entries r = (List.replicate (numEntries t) (0 : α)).set idx 1 := by
  obtain ⟨z, hz, hzl, hzw, _, hzleaves⟩ := zerosLike_ok (α := α) t
  unfold basisVectorFromIndex
  rw [hz, ok_bind]
  let sizes := (t.leaves.map Arr.shape).map shapeSize
  have hsz : z.leaves.map (fun a => shapeSize a.shape) = sizes := by
    rw [hzleaves, List.map_map]; simp [sizes, Function.comp_def]
  simp only [hsz, searchsortedRight, Int.ofNat_le]
  have hle : (if 0 < (cumsum sizes).countP (fun c => decide (c ≤ idx)) then
      (cumsum sizes).getD ((cumsum sizes).countP (fun c => decide (c ≤ idx)) - 1) 0 else 0) ≤ idx := by
    split
    · next h => exact cumsumFrom_getD_le sizes 0 idx h
    · omega
  generalize hk : (cumsum sizes).countP (· ≤ idx) = k at hle ⊢
  simp only [gt_iff_lt]
  rw [show (fun (i : Nat) (a : Arr α) => if i = k then (⟨a.shape, jaxSet a.data ((idx : Int) -
      ((if 0 < k then (cumsum sizes).getD (k - 1) 0 else 0 : Nat) : Int)) 1⟩ : Arr α) else a) =
    (fun i a => if i = k then ⟨a.shape, a.data.set (idx - (if k > 0 then (cumsum sizes).getD (k - 1) 0 else 0)) 1⟩ else a) from by
      funext i a; rw [jaxSet_nonneg _ _ _ hle]]
  generalize hc : idx - (if k > 0 then (cumsum sizes).getD (k - 1) 0 else 0) = c
  let upd := z.leaves.mapIdx (fun i a => if i = k then (⟨a.shape, a.data.set c 1⟩ : Arr α) else a)
  obtain ⟨r, hr⟩ := Tree.unflatten_isOk z.treedef upd (by rw [Tree.length_leaves_treedef]; simp [upd])
  refine ⟨r, hr, ?_⟩
  rw [Tree.unflatten_ok_iff] at hr
  obtain ⟨h1, h2⟩ := hr
  refine ⟨(sameLayout_of h1 ?_).trans hzl, ?_, ?_⟩
  · rw [h2]
    apply List.ext_getElem
    · simp [upd]
    · intro i _ _
      simp only [upd, List.getElem_map, List.getElem_mapIdx]
      split <;> rfl
  · intro a ha
    rw [h2] at ha
    obtain ⟨i, hi, rfl⟩ := List.getElem_of_mem ha
    simp only [upd, List.length_mapIdx] at hi
    have := hzw _ (List.getElem_mem hi)
    simp only [upd, List.getElem_mapIdx]
    split
    · simpa [Arr.WF] using this
    · exact this
  · have := basis_aux (α := α) sizes idx
    rw [hk, hc] at this
    rw [numEntries_eq, ← this, entries, h2]
    congr 1
    apply List.ext_getElem
    · simp [upd, hzleaves, sizes]
    · intro i _ _
      simp only [upd, List.getElem_map, List.getElem_mapIdx, hzleaves, sizes]
      split <;> simp

/-- Negative indices: only the first leaf is touched. -/
theorem basisVector_neg [OfNat α 0] [OfNat α 1] (m : Nat) (hm : 0 < m) (t : PyTree α) (a : Arr α) (as : List (Arr α))
    (hl : t.leaves = a :: as) :
    ∃ r, basisVectorFromIndex (-(m : Int)) t = .ok r ∧ SameLayout r t ∧ WFTree r ∧
      entries r = if m ≤ shapeSize a.shape then (List.replicate (numEntries t) (0 : α)).set (shapeSize a.shape - m) 1
        else List.replicate (numEntries t) 0 := by
  obtain ⟨z, hz, hzl, hzw, hze, hzleaves⟩ := zerosLike_ok (α := α) t
  unfold basisVectorFromIndex
  rw [hz, ok_bind]
  have hk : searchsortedRight (cumsum (z.leaves.map (fun a => shapeSize a.shape))) (-(m : Int)) = 0 := by
    simp only [searchsortedRight]
    rw [List.countP_eq_zero]
    intro x _; simp; omega
  simp only [hk, Nat.lt_irrefl, if_false, gt_iff_lt]
  have hset : jaxSet (List.replicate (shapeSize a.shape) (0 : α)) (-(m : Int) - ((0 : Nat) : Int)) 1 =
      if m ≤ shapeSize a.shape then (List.replicate (shapeSize a.shape) (0 : α)).set (shapeSize a.shape - m) 1
        else List.replicate (shapeSize a.shape) 0 := by
    have h1 : (-(m : Int) - ((0 : Nat) : Int)) < 0 := by omega
    simp only [jaxSet, h1, if_true, List.length_replicate]
    by_cases h : m ≤ shapeSize a.shape
    · have h2 : ¬ (-(m : Int) - ((0 : Nat) : Int) + (shapeSize a.shape : Int) < 0) := by omega
      have h3 : (-(m : Int) - ((0 : Nat) : Int) + (shapeSize a.shape : Int)).toNat = shapeSize a.shape - m := by omega
      simp only [h, h2, if_true, if_false, h3]
    · have h2 : (-(m : Int) - ((0 : Nat) : Int) + (shapeSize a.shape : Int) < 0) := by omega
      simp only [h, h2, if_true, if_false]
  generalize hv : (if m ≤ shapeSize a.shape then (List.replicate (shapeSize a.shape) (0 : α)).set (shapeSize a.shape - m) 1
        else List.replicate (shapeSize a.shape) 0) = v at hset
  have hvl : v.length = shapeSize a.shape := by rw [← hv]; split <;> simp
  let zs : List (Arr α) := as.map (fun a => ⟨a.shape, List.replicate (shapeSize a.shape) 0⟩)
  have hupd : z.leaves.mapIdx (fun i b => if i = 0 then (⟨b.shape, jaxSet b.data (-(m : Int) - ((0 : Nat) : Int)) 1⟩ : Arr α) else b)
      = ⟨a.shape, v⟩ :: zs := by
    rw [hzleaves, hl]
    simp only [List.map_cons, List.mapIdx_cons, if_true, hset, zs]
    congr 1
    simp [List.mapIdx_eq_iff]
    intro i
    cases as[i]? <;> simp
  rw [hupd]
  obtain ⟨r, hr⟩ := Tree.unflatten_isOk z.treedef (⟨a.shape, v⟩ :: zs) (by
    rw [Tree.length_leaves_treedef, hzleaves, hl]; simp [zs])
  refine ⟨r, hr, ?_⟩
  rw [Tree.unflatten_ok_iff] at hr
  obtain ⟨h1, h2⟩ := hr
  have hN : numEntries t = shapeSize a.shape + (as.map (fun a => shapeSize a.shape)).sum := by
    rw [numEntries_eq, hl]; simp [Function.comp_def]
  have hzs : (zs.map Arr.data).flatten = List.replicate (as.map (fun a => shapeSize a.shape)).sum (0 : α) := by
    clear h2 hupd hl hN
    induction as with
    | nil => simp [zs]
    | cons b bs ih => simp only [zs, List.map_cons, List.flatten_cons, List.sum_cons] at ih ⊢; rw [ih, List.replicate_append_replicate]
  refine ⟨(sameLayout_of h1 ?_).trans hzl, ?_, ?_⟩
  · rw [h2, hzleaves, hl]; simp [zs]
  · intro b hb
    rw [h2] at hb
    rcases List.mem_cons.1 hb with rfl | hb
    · simpa [Arr.WF] using hvl
    · obtain ⟨c, _, rfl⟩ := List.mem_map.1 hb; simp [Arr.WF]
  · rw [entries, h2, List.map_cons, List.flatten_cons, hzs, ← hv, hN, ← List.replicate_append_replicate]
    split
    · next h => rw [List.set_append_left _ _ (by simp; omega)]
    · rfl

theorem eye_rows [OfNat α 0] [OfNat α 1] (n : Nat) :
    (jnpEye α n).data.length = n * n ∧
    ∀ i < n, (((jnpEye α n).data.drop (i * n)).take n) = (List.replicate n (0 : α)).set i 1 := by
  have hmem : ∀ d ∈ ((List.range n).map (fun i => (List.replicate n (0 : α)).set i 1)), d.length = n := by
    intro d hd; obtain ⟨i, _, rfl⟩ := List.mem_map.1 hd; simp
  constructor
  · simp only [jnpEye]
    rw [← sum_map_length]
    have : ((List.range n).map (fun i => (List.replicate n (0 : α)).set i 1)).map List.length = List.replicate n n := by
      rw [List.eq_replicate_iff]; refine ⟨by simp, ?_⟩
      intro x hx; obtain ⟨d, hd, rfl⟩ := List.mem_map.1 hx; exact hmem d hd
    rw [this]; simp [List.sum_replicate_nat]
  · intro i hi
    simp only [jnpEye]
    rw [drop_take_flatten _ n hmem i (by simpa using hi)]
    simp

end Laplax
