import Verif.Lib.TreeLemmas
import Verif.Spec.Tree

/-! Auxiliary lemmas for the property files on trees. -/

namespace Laplax
open Spec
variable {α : Type}

theorem Spec.SameLayout.treedef {t u : PyTree α} (h : SameLayout t u) : t.treedef = u.treedef :=
  Tree.treedef_of_map_eq h
theorem Spec.SameLayout.shapes {t u : PyTree α} (h : SameLayout t u) : t.leaves.map Arr.shape = u.leaves.map Arr.shape :=
  Tree.leaves_of_map_eq h
theorem Spec.SameLayout.symm {t u : PyTree α} (h : SameLayout t u) : SameLayout u t := Eq.symm h
theorem Spec.SameLayout.refl (t : PyTree α) : SameLayout t t := rfl
theorem Spec.SameLayout.trans {t u w : PyTree α} (h : SameLayout t u) (h' : SameLayout u w) : SameLayout t w := Eq.trans h h'
theorem sameLayout_of {t u : PyTree α} (h1 : t.treedef = u.treedef)
    (h2 : t.leaves.map Arr.shape = u.leaves.map Arr.shape) : SameLayout t u := Tree.map_eq_of h1 h2

theorem numEntries_eq (t : PyTree α) : numEntries t = ((t.leaves.map Arr.shape).map shapeSize).sum := by
  simp [numEntries, shapeSize, List.map_map, Function.comp_def]

theorem getSize_eq (t : PyTree α) : getSize t = numEntries t := by
  simp [getSize, numEntries, shapeSize]

theorem Spec.SameLayout.numEntries {t u : PyTree α} (h : SameLayout t u) : numEntries t = Spec.numEntries u := by
  rw [numEntries_eq, numEntries_eq, h.shapes]

theorem map_length_of_WF {ls : List (Arr α)} (h : ∀ a ∈ ls, a.WF) :
    (ls.map Arr.data).map List.length = (ls.map Arr.shape).map shapeSize := by
  rw [List.map_map, List.map_map]
  apply List.map_congr_left
  intro a ha; exact h a ha

theorem length_entries {t : PyTree α} (h : WFTree t) : (entries t).length = numEntries t := by
  rw [numEntries_eq, entries, ← sum_map_length, map_length_of_WF h]

theorem fullFlatten_eq {t : PyTree α} (h : t.leaves ≠ []) : fullFlatten t = .ok (entries t) := by
  unfold fullFlatten entries
  cases hl : t.leaves with
  | nil => exact absurd hl h
  | cons a as => simp [jnpConcatenate]

/-- Complete description of successful unflattening. -/
theorem unflattenLike_ok_iff (L : PyTree α) (hL : L.leaves ≠ []) (v : List α) (t : PyTree α) :
    unflattenLike L v = .ok t ↔ SameLayout t L ∧ WFTree t ∧ entries t = v := by
  unfold unflattenLike
  have hne : (L.leaves.map Arr.shape).map shapeSize ≠ [] := by simpa using hL
  simp only [jnpSplit_cumsum _ hne]
  rw [zipStrict_eq_ok _ _ (by rw [length_segs]; simp)]
  change (do let ls ← mapE _ _; Tree.unflatten L.treedef ls) = _ ↔ _
  cases hm : mapE (fun p => reshape p.1 p.2)
      ((segs ((L.leaves.map Arr.shape).map shapeSize) v).zip (L.leaves.map Arr.shape)) with
  | error e =>
    constructor
    · intro h; cases h
    · rintro ⟨h1, h2, h3⟩
      have : mapE (fun p => reshape p.1 p.2)
          ((segs ((L.leaves.map Arr.shape).map shapeSize) v).zip (L.leaves.map Arr.shape)) = .ok t.leaves := by
        rw [mapE_reshape_zip _ _ (by rw [length_segs]; simp)]
        refine ⟨h1.shapes, ?_, h2⟩
        rw [← h3]
        symm
        apply segs_flatten
        rw [map_length_of_WF h2, h1.shapes]
      rw [this] at hm; cases hm
  | ok ls =>
    change Tree.unflatten L.treedef ls = _ ↔ _
    rw [mapE_reshape_zip _ _ (by rw [length_segs]; simp)] at hm
    obtain ⟨h1, h2, h3⟩ := hm
    rw [Tree.unflatten_ok_iff]
    constructor
    · rintro ⟨htd, hls⟩
      subst hls
      exact ⟨sameLayout_of htd h1, h3, by rw [entries, h2, flatten_segs _ hne]⟩
    · rintro ⟨hs, hw, he⟩
      refine ⟨hs.treedef, ?_⟩
      have hd : t.leaves.map Arr.data = ls.map Arr.data := by
        rw [h2, ← he]; symm; apply segs_flatten
        rw [map_length_of_WF hw, hs.shapes]
      have hsh : t.leaves.map Arr.shape = ls.map Arr.shape := by rw [hs.shapes, h1]
      clear he hw h3 h2 h1 hs
      generalize t.leaves = xs at hd hsh
      induction xs generalizing ls with
      | nil => cases ls with
        | nil => rfl
        | cons => simp at hd
      | cons x xs ih => cases ls with
        | nil => simp at hd
        | cons y ys =>
          simp only [List.map_cons, List.cons.injEq] at hd hsh
          rw [ih ys hd.2 hsh.2]
          obtain ⟨_, _⟩ := x; obtain ⟨_, _⟩ := y
          simp only at hd hsh
          rw [hd.1, hsh.1]

theorem unflattenLike_isOk (L : PyTree α) (hL : L.leaves ≠ []) (v : List α) (hv : v.length = numEntries L) :
    ∃ t, unflattenLike L v = .ok t := by
  have hne : (L.leaves.map Arr.shape).map shapeSize ≠ [] := by simpa using hL
  have hlen : (segs ((L.leaves.map Arr.shape).map shapeSize) v).length = (L.leaves.map Arr.shape).length := by
    rw [length_segs]; simp
  let ls : List (Arr α) := List.zipWith Arr.mk (L.leaves.map Arr.shape) (segs ((L.leaves.map Arr.shape).map shapeSize) v)
  have hml := map_length_segs ((L.leaves.map Arr.shape).map shapeSize) v (by rw [← numEntries_eq, hv])
  have h1 : ls.map Arr.shape = L.leaves.map Arr.shape := by
    simp only [ls, List.map_zipWith]
    apply List.ext_getElem
    · rw [List.length_zipWith, hlen, Nat.min_self]
    · intro i h h'; simp
  have h2 : ls.map Arr.data = segs ((L.leaves.map Arr.shape).map shapeSize) v := by
    simp only [ls, List.map_zipWith]
    apply List.ext_getElem
    · rw [List.length_zipWith, hlen, Nat.min_self]
    · intro i h h'; simp
  have h3 : ∀ a ∈ ls, a.WF := by
    have hh : (ls.map Arr.data).map List.length = (ls.map Arr.shape).map shapeSize := by rw [h1, h2, hml]
    rw [List.map_map, List.map_map] at hh
    intro a ha
    exact List.map_inj_left.1 hh a ha
  obtain ⟨t, ht⟩ := Tree.unflatten_isOk L.treedef ls (by
    rw [Tree.length_leaves_treedef]
    have := congrArg List.length h1
    simpa using this.symm)
  refine ⟨t, ?_⟩
  rw [Tree.unflatten_ok_iff] at ht
  obtain ⟨htd, hls⟩ := ht
  rw [unflattenLike_ok_iff L hL]
  rw [← hls] at h1 h2 h3
  exact ⟨sameLayout_of htd h1, h3, by rw [entries, h2, flatten_segs _ hne]⟩

end Laplax
