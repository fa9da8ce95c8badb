import Verif.Lib.TreeLemmas5

/-! # C03: `unravel_array_into_pytree` along any axis of an array of any rank -/

namespace Laplax
open Spec
variable {α : Type}

theorem getD_segs (sizes : List Nat) (xs : List α) (h : sizes.sum = xs.length) (j : Nat) (hj : j < sizes.length) :
    (segs sizes xs).getD j [] = (xs.drop (sizes.take j).sum).take sizes[j] := by
  induction sizes generalizing xs j with
  | nil => simp at hj
  | cons n ns ih =>
    cases ns with
    | nil =>
      have : j = 0 := by simpa using hj
      subst this
      simp only [List.sum_cons, List.sum_nil] at h
      have hn : xs.length ≤ n := by omega
      simp [segs, List.take_of_length_le hn]
    | cons m ns =>
      cases j with
      | zero => simp [segs]
      | succ j =>
        have h' : (m :: ns).sum = (xs.drop n).length := by
          simp only [List.sum_cons] at h ⊢; simp; omega
        have := ih (xs.drop n) h' j (by simpa using hj)
        simp only [segs, List.getD_cons_succ, this, List.take_succ_cons, List.sum_cons, List.getElem_cons_succ, List.drop_drop]

/-- The tree `unravel_array_into_pytree` builds, leaf by leaf. -/
theorem unravel_eq (L : PyTree α) (hL : L.leaves ≠ []) (before after : List Nat) (axis : Int) (arr : Arr α) (hw : arr.WF)
    (hsh : arr.shape = before ++ numEntries L :: after)
    (hax : axis % (arr.shape.length : Int) = (before.length : Int)) :
    ∃ r, unravelArrayIntoPytree L axis arr = .ok r ∧ r.treedef = L.treedef ∧
      r.leaves.map Arr.shape = L.leaves.map (fun l => before ++ l.shape ++ after) ∧ WFTree r ∧
      ∀ j (h : j < r.leaves.length) (h' : j < L.leaves.length), ∀ b < shapeSize before, ∀ i < shapeSize L.leaves[j].shape, ∀ a < shapeSize after,
        r.leaves[j].data[(b * shapeSize L.leaves[j].shape + i) * shapeSize after + a]? =
          arr.data[(b * numEntries L + (((L.leaves.take j).map (fun l => shapeSize l.shape)).sum + i)) * shapeSize after + a]? := by
  obtain ⟨shape, data⟩ := arr
  simp only at hsh hax
  subst hsh
  have hlen : data.length = shapeSize before * (numEntries L * shapeSize after) := by
    have : data.length = shapeSize (before ++ numEntries L :: after) := hw
    rw [this, shapeSize_append, shapeSize_cons]
  generalize hP : numEntries L = P at *
  generalize hpre : shapeSize before = pre at *
  generalize hpost : shapeSize after = post at *
  let szs := L.leaves.map (fun l => shapeSize l.shape)
  let sizes := szs.map (· * post)
  have hszs : szs.sum = P := by rw [← hP, numEntries_eq]; simp [szs, List.map_map, Function.comp_def]
  have hsum : sizes.sum = P * post := by
    rw [← hszs]; simp only [sizes]
    generalize szs = zs
    induction zs with
    | nil => simp
    | cons z zs ih => simp [ih, Nat.add_mul]
  have hlenL : szs.length = L.leaves.length := by simp [szs]
  have hne : sizes ≠ [] := by simp [sizes, szs, hL]
  let rows := chunks (P * post) pre data
  let ds : List (List α) := (List.range sizes.length).map (fun j => (rows.map (fun b => (segs sizes b).getD j [])).flatten)
  have hrow : ∀ b ∈ rows, b.length = P * post := fun b hb => length_of_mem_chunks _ pre data hlen b hb
  have hpiece : ∀ j (hj : j < sizes.length), ∀ b ∈ rows, ((segs sizes b).getD j []).length = sizes[j] := by
    intro j hj b hb
    have hj' : j < (segs sizes b).length := by rw [length_segs]; exact hj
    have := List.getElem_of_eq (map_length_segs sizes b (by rw [hsum, hrow b hb])) (i := j) (by simpa using hj')
    rw [List.getD_eq_getElem _ _ hj', ← this, List.getElem_map]
  let shs := L.leaves.map (fun l => before ++ l.shape ++ after)
  have hds : ds.map List.length = shs.map shapeSize := by
    apply List.ext_getElem
    · simp [ds, sizes, shs, szs]
    · intro j h1 h2
      simp only [List.length_map, ds, List.length_range] at h1
      simp only [ds, List.getElem_map, List.getElem_range, shs]
      rw [← sum_map_length, List.map_map]
      have : (rows.map (List.length ∘ fun b => (segs sizes b).getD j [])) = List.replicate pre sizes[j] := by
        rw [List.eq_replicate_iff]
        refine ⟨by simp [rows, length_chunks], ?_⟩
        intro x hx
        obtain ⟨b, hb, rfl⟩ := List.mem_map.1 hx
        exact hpiece j h1 b hb
      rw [this, shapeSize_append, shapeSize_append, hpre, hpost]
      simp [sizes, szs, List.sum_replicate_nat, Nat.mul_assoc]
  have hev : unravelArrayIntoPytree L axis ⟨before ++ P :: after, data⟩ =
      Tree.unflatten L.treedef (List.zipWith Arr.mk shs ds) := by
    unfold unravelArrayIntoPytree
    have e1 : ((cumsum (L.leaves.dropLast.map (fun l => shapeSize l.shape))).map (· * post)) = (cumsum sizes).dropLast := by
      have h1 : cumsum (L.leaves.dropLast.map (fun l => shapeSize l.shape)) = (cumsum szs).dropLast := by
        rw [List.map_dropLast]; exact cumsumFrom_dropLast 0 szs
      rw [h1, List.map_dropLast, cumsum, cumsumFrom_mul, Nat.zero_mul]; rfl
    have e5 : splitAxis pre (P * post) post (cumsum (L.leaves.dropLast.map (fun l => shapeSize l.shape))) data = ds := by
      unfold splitAxis
      simp only [e1, jnpSplit_cumsum _ hne]
      have : (cumsum (L.leaves.dropLast.map (fun l => shapeSize l.shape))).length + 1 = sizes.length := by
        simp only [cumsum, length_cumsumFrom, List.length_map, List.length_dropLast, sizes, hlenL]
        have : L.leaves.length ≠ 0 := by simpa using hL
        omega
      rw [this]
      simp only [List.map_map]; rfl
    have hax' : (axis % ((before ++ P :: after).length : Int)).toNat = before.length := by rw [hax]; simp
    have e6 : (before ++ P :: after).take before.length = before := by simp
    have e7 : (before ++ P :: after).drop (before.length + 1) = after := by
      rw [← List.drop_drop]; simp
    have e8 : ((before ++ P :: after).drop before.length).headD 1 = P := by simp
    simp only [hax', e6, e7, e8, hpre, hpost, e5]
    rw [if_neg (by simp), zipStrict_eq_ok _ _ (by simp [ds, sizes, szs]), ok_bind, mapE_reshape_of_lengths _ _ hds, ok_bind]
  obtain ⟨r, hr⟩ := Tree.unflatten_isOk L.treedef (List.zipWith Arr.mk shs ds) (by
    rw [Tree.length_leaves_treedef]; simp [ds, sizes, shs, szs])
  refine ⟨r, by rw [hev, hr], ?_⟩
  rw [Tree.unflatten_ok_iff] at hr
  obtain ⟨htd, hls⟩ := hr
  refine ⟨htd, ?_, ?_, ?_⟩
  · rw [hls, List.map_zipWith]
    apply List.ext_getElem
    · simp [ds, sizes, shs, szs]
    · intro j _ _; simp [shs]
  · intro a ha
    rw [hls] at ha
    obtain ⟨j, hj, rfl⟩ := List.getElem_of_mem ha
    simp only [List.length_zipWith] at hj
    have := List.getElem_of_eq hds (i := j) (by simp; omega)
    simpa [Arr.WF] using this
  · intro j h h' b hb i hi a ha
    have hj : j < sizes.length := by simpa [sizes, szs] using h'
    have hsj : sizes[j] = shapeSize L.leaves[j].shape * post := by simp [sizes, szs]
    have hdj : r.leaves[j].data = (rows.map (fun b => (segs sizes b).getD j [])).flatten := by
      simp only [hls, List.getElem_zipWith, ds, List.getElem_map, List.getElem_range]
    rw [hdj]
    generalize hz : shapeSize L.leaves[j].shape = z at *
    have hbr : b < rows.length := by simp [rows, length_chunks, hb]
    have hblk := drop_take_flatten (rows.map (fun b => (segs sizes b).getD j [])) (z * post) (by
      intro d hd
      obtain ⟨c, hc, rfl⟩ := List.mem_map.1 hd
      rw [hpiece j hj c hc, hsj]) b (by simpa using hbr)
    rw [List.getElem_map] at hblk
    have hlt : i * post + a < z * post := by
      calc i * post + a < i * post + post := by omega
        _ = (i + 1) * post := by rw [Nat.add_mul, Nat.one_mul]
        _ ≤ z * post := Nat.mul_le_mul_right _ hi
    have e1 : (b * z + i) * post + a = b * (z * post) + (i * post + a) := by
      rw [Nat.add_mul, Nat.mul_assoc]; omega
    rw [e1, ← List.getElem?_drop, ← List.getElem?_take_of_lt hlt, hblk,
      getD_segs sizes _ (by rw [hsum, hrow _ (List.getElem_mem hbr)]) j hj, hsj, List.getElem?_take_of_lt hlt, List.getElem?_drop]
    have hoff : (sizes.take j).sum = ((L.leaves.take j).map (fun l => shapeSize l.shape)).sum * post := by
      simp only [sizes, szs, ← List.map_take]
      generalize (L.leaves.take j) = zs
      induction zs with
      | nil => simp
      | cons z zs ih => simp only [List.map_cons, List.sum_cons, ih, Nat.add_mul]
    rw [hoff]
    generalize ((L.leaves.take j).map (fun l => shapeSize l.shape)).sum = off at *
    have hle : off * post + z * post ≤ P * post := by
      have h1 : (sizes.take j).sum + sizes[j] ≤ sizes.sum := by
        have : (sizes.take j).sum + (sizes.drop j).sum = sizes.sum := by
          rw [← List.sum_append, List.take_append_drop]
        rw [List.drop_eq_getElem_cons hj, List.sum_cons] at this
        omega
      rw [hoff, hsj, hsum] at h1; exact h1
    have hrowb : rows[b] = (data.drop (b * (P * post))).take (P * post) := getElem_chunks _ pre data b hbr
    rw [hrowb, List.getElem?_take_of_lt (by omega), List.getElem?_drop]
    congr 1
    rw [Nat.add_mul, Nat.add_mul, Nat.mul_assoc]; omega

end Laplax

namespace Laplax.Props
open Spec
variable {α : Type}

/-- **C03 (any axis, any rank).** Unravelling an array of shape `(*before, P, *after)` along its axis `before.length` (given as
any integer congruent to it modulo the rank, so negative axes too) returns a tree with the containers of the layout, whose
`j`-th leaf has shape `(*before, *leaf_j.shape, *after)`, and whose entry at (flat) position `(b, i, a)` is the array's entry
at `(b, offset_j + i, a)`, where `offset_j` is the number of parameters in the leaves before the `j`-th. -/
theorem C03_unravel_any_axis (layout : PyTree α) (hne : layout.leaves ≠ []) (before after : List Nat) (axis : Int) (arr : Arr α)
    (hw : arr.WF) (hsh : arr.shape = before ++ numEntries layout :: after)
    (hax : axis % (arr.shape.length : Int) = (before.length : Int)) :
    ∃ r, unravelArrayIntoPytree layout axis arr = .ok r ∧ r.map Arr.shape = layout.map (fun l => before ++ l.shape ++ after) ∧
      WFTree r ∧
      ∀ j (h : j < r.leaves.length) (h' : j < layout.leaves.length), ∀ b < shapeSize before, ∀ i < shapeSize layout.leaves[j].shape,
        ∀ a < shapeSize after,
        r.leaves[j].data[(b * shapeSize layout.leaves[j].shape + i) * shapeSize after + a]? =
          arr.data[(b * numEntries layout + (((layout.leaves.take j).map (fun l => shapeSize l.shape)).sum + i)) *
            shapeSize after + a]? := by
  obtain ⟨r, h1, h2, h3, h4, h5⟩ := unravel_eq layout hne before after axis arr hw hsh hax
  exact ⟨r, h1, Tree.map_eq_of h2 h3, h4, h5⟩

/-- A 0-dimensional array cannot be unravelled (`axis %= 0`). -/
theorem C03_unravel_scalar_raises (layout : PyTree α) (axis : Int) (x : List α) :
    unravelArrayIntoPytree layout axis ⟨[], x⟩ = .error .zeroDivisionError := by
  simp [unravelArrayIntoPytree]

/-- Two leaves (2 + 1 parameters), a `(2, 3, 2)` array, unravelled along its middle axis, here given as `-2`. -/
example : let layout : PyTree Int := .node "tuple" [.leaf ⟨[2], [0, 0]⟩, .leaf ⟨[], [0]⟩]
    let arr : Arr Int := ⟨[2, 3, 2], [0, 1, 2, 3, 4, 5, 6, 7, 8, 9, 10, 11]⟩
    layout.leaves ≠ [] ∧ arr.WF ∧ arr.shape = [2] ++ numEntries layout :: [2] ∧
      (-2) % (arr.shape.length : Int) = (([2] : List Nat).length : Int) ∧
      unravelArrayIntoPytree layout (-2) arr =
        .ok (.node "tuple" [.leaf ⟨[2, 2, 2], [0, 1, 2, 3, 6, 7, 8, 9]⟩, .leaf ⟨[2, 2], [4, 5, 10, 11]⟩]) := by
  refine ⟨by simp [Tree.leaves, Tree.leavesL], by simp [Arr.WF, shapeSize], by simp [numEntries, Tree.leaves, Tree.leavesL], by simp, ?_⟩
  rfl

end Laplax.Props
