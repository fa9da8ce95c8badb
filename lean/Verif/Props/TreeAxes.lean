import Verif.Spec.TreeAxes
import Verif.Props.TreeAxis

/-! # C55: statistics over several axes -/

namespace Laplax.Props
open Laplax Spec

theorem positions_length : ∀ sh : List ℕ, (positions sh).length = shapeSize sh
  | [] => rfl
  | n :: sh => by
    rw [positions, List.length_flatMap, shapeSize_cons]
    simp [positions_length sh]

theorem flatMap_one {α : Type} (n i : ℕ) (hi : i < n) (L : List α) : ((List.range n).flatMap fun j => if j = i then L else []) = L := by
  induction n with
  | zero => omega
  | succ n ih =>
    rw [List.range_succ, List.flatMap_append]
    rcases Nat.lt_succ_iff_lt_or_eq.1 hi with h | rfl
    · rw [ih h]; simp [h.ne']
    · have : ((List.range i).flatMap fun j => if j = i then L else []) = [] := by
        rw [List.flatMap_eq_nil_iff]
        intro j hj
        rw [if_neg (List.mem_range.1 hj).ne]
      simp [this]

/-- The entries along the axes, split at the first axis. -/
theorem entriesAlong_kept (n : ℕ) (sh : List ℕ) (mask : List Bool) (y : List ℕ → ℝ) (i : ℕ) (hi : i < n) (o : List ℕ) :
    entriesAlong (n :: sh) (false :: mask) y (i :: o) = entriesAlong sh mask (fun l => y (i :: l)) o := by
  rw [entriesAlong, entriesAlong, positions, List.filter_flatMap]
  have : ∀ j, ((positions sh).map (j :: ·)).filter (fun pos => unmarked (false :: mask) pos = i :: o) =
      if j = i then ((positions sh).filter fun pos => unmarked mask pos = o).map (j :: ·) else [] := by
    intro j
    rw [List.filter_map]
    by_cases hj : j = i
    · subst hj
      rw [if_pos rfl]
      congr 1
      refine List.filter_congr fun pos _ => ?_
      simp only [Function.comp]
      exact decide_eq_decide.2 (by simp [unmarked])
    · rw [if_neg hj]
      rw [List.map_eq_nil_iff, List.filter_eq_nil_iff]
      intro pos _
      simp [unmarked, hj]
  simp only [this]
  have e : (fun j => if j = i then ((positions sh).filter fun pos => unmarked mask pos = o).map (j :: ·) else []) =
      fun j => if j = i then ((positions sh).filter fun pos => unmarked mask pos = o).map (i :: ·) else [] := by
    funext j; split_ifs with h
    · rw [h]
    · rfl
  rw [e, flatMap_one n i hi, List.map_map]
  rfl

theorem entriesAlong_reduced (n : ℕ) (sh : List ℕ) (mask : List Bool) (y : List ℕ → ℝ) (o : List ℕ) :
    entriesAlong (n :: sh) (true :: mask) y o = (List.range n).flatMap fun i => entriesAlong sh mask (fun l => y (i :: l)) o := by
  rw [entriesAlong, positions, List.filter_flatMap, List.map_flatMap]
  congr 1; funext i
  rw [List.filter_map, List.map_map, entriesAlong]
  rfl

theorem positions_get {α : Type} (sh : List ℕ) (G : List ℕ → α) (d : List ℕ) :
    ((List.range (shapeSize sh)).map fun k => G ((positions sh).getD k d)) = (positions sh).map G := by
  apply List.ext_getElem
  · simp [positions_length]
  · intro k h1 h2
    simp at h1 h2
    simp [List.getD_eq_getElem?_getD, List.getElem?_eq_getElem h2]

theorem axisGroups_grid : ∀ (sh : List ℕ) (mask : List Bool) (_ : mask.length = sh.length) (y : List ℕ → ℝ),
    axisGroups (sh.zip mask) ((positions sh).map y) = (positions (unmarked mask sh)).map (entriesAlong sh mask y)
  | [], mask, h, y => by
    have : mask = [] := List.length_eq_zero_iff.1 h
    subst this
    simp [axisGroups, positions, unmarked, entriesAlong]
  | n :: sh, [], h, y => by simp at h
  | n :: sh, b :: mask, h, y => by
    have hl : mask.length = sh.length := by simpa using h
    have hfst : (sh.zip mask).map Prod.fst = sh := by rw [List.map_fst_zip]; omega
    have hch : chunks (shapeSize sh) n ((positions (n :: sh)).map y) = (List.range n).map fun i => (positions sh).map fun l => y (i :: l) := by
      rw [positions, List.map_flatMap]
      simp only [List.map_map]
      exact chunks_flatMap n _ _ fun i _ => by simp [positions_length]
    have ih := fun i => axisGroups_grid sh mask hl fun l => y (i :: l)
    cases b with
    | false =>
      simp only [List.zip_cons_cons, axisGroups, hfst, hch]
      have hu : unmarked (false :: mask) (n :: sh) = n :: unmarked mask sh := by simp [unmarked]
      rw [List.flatMap_map, hu, positions, List.map_flatMap]
      refine List.flatMap_congr fun i hi => ?_
      rw [ih i, List.map_map]
      refine List.map_congr_left fun o _ => ?_
      exact (entriesAlong_kept n sh mask y i (List.mem_range.1 hi) o).symm
    | true =>
      simp only [List.zip_cons_cons, axisGroups, hfst, hch]
      have hu : unmarked (true :: mask) (n :: sh) = unmarked mask sh := by simp [unmarked]
      have hk : ((sh.zip mask).filter fun d => !d.2).map Prod.fst = unmarked mask sh := by
        rw [unmarked, ← List.zip_swap, List.filter_map, List.map_map]; rfl
      rw [hk, hu, ← positions_get _ _ []]
      refine List.map_congr_left fun k hk' => ?_
      have hk'' : k < (positions (unmarked mask sh)).length := by rw [positions_length]; exact List.mem_range.1 hk'
      rw [entriesAlong_reduced, List.map_map, List.map_map, ← List.flatMap_def]
      refine List.flatMap_congr fun i _ => ?_
      simp only [Function.comp, ih i]
      simp [List.getD_eq_getElem?_getD, List.getElem?_eq_getElem hk'']

theorem listMean_meanOf (l : List ℝ) : listMean l = meanOf l := rfl

theorem listCov_varianceOf (d : ℝ) (l : List ℝ) : listCov l l d = varianceOf d l := by
  rw [listCov, varianceOf]
  congr 2
  rw [List.zipWith_self]
  refine List.map_congr_left fun x _ => ?_
  rw [sq]; rfl

/-- The position of an axis counted from the front. -/
def axisPos (n : ℕ) (x : Int) : ℕ := (if x < 0 then x + n else x).toNat

theorem normAxes_ok (axes : List Int) (n : ℕ) (h : AxesOk axes n) :
    mapE (fun x => normAxis x n) axes = .ok (axes.map (axisPos n)) ∧ (axes.map (axisPos n)).Nodup := by
  constructor
  · rw [← mapE_ok]
    refine mapE_congr fun x hx => ?_
    rw [normAxis, if_pos (h.1 x hx)]; rfl
  · rw [List.Nodup, List.pairwise_map]
    refine h.2.imp_of_mem fun {x z} hx hz hxz => ?_
    have := h.1 x hx
    have := h.1 z hz
    unfold axisPos
    split_ifs <;> omega

/-- A tuple of axes reduces the grid along the marked ones. -/
theorem statAxes_grid (f : List ℝ → ℝ) (axes : List Int) (kd : Bool) (sh : List ℕ) (y : List ℕ → ℝ) (h : AxesOk axes sh.length) :
    statAxes f axes kd (gridOf sh y) = .ok (statGrid kd sh (named axes sh.length) f y) := by
  obtain ⟨h1, h2⟩ := normAxes_ok axes sh.length h
  have hm : ((List.range sh.length).map fun d => decide (d ∈ axes.map (axisPos sh.length))) = named axes sh.length := by
    rw [named]
    refine List.map_congr_left fun d hd => ?_
    have hd' := List.mem_range.1 hd
    refine decide_eq_decide.2 ?_
    rw [List.mem_map]
    constructor
    · rintro ⟨x, hx, rfl⟩
      have := h.1 x hx
      refine ⟨x, hx, ?_⟩
      unfold axisPos
      split_ifs <;> omega
    · rintro ⟨x, hx, e⟩
      refine ⟨x, hx, ?_⟩
      have := h.1 x hx
      unfold axisPos
      split_ifs <;> omega
  have hl : (named axes sh.length).length = sh.length := by simp [named]
  simp only [statAxes, gridOf, h1, ok_bind, if_pos h2, hm, axisGroups_grid sh _ hl y]
  rw [statGrid]
  show Except.ok _ = Except.ok _
  congr 2
  · cases kd
    · simp only [Bool.false_eq_true, if_false]
      rw [unmarked, ← List.zip_swap, List.filter_map, List.map_map]; rfl
    · simp only [if_true]
      rw [List.zip_eq_zipWith, List.map_zipWith]
  · rw [List.map_map]; rfl

theorem positions_nodup : ∀ sh : List ℕ, (positions sh).Nodup
  | [] => by simp [positions]
  | n :: sh => by
    rw [positions, List.nodup_flatMap]
    refine ⟨fun i _ => (positions_nodup sh).map fun a b h => by simpa using h, ?_⟩
    refine List.nodup_range.imp fun {i j} hij => ?_
    intro l h1 h2
    simp only [List.mem_map] at h1 h2
    obtain ⟨a, _, rfl⟩ := h1
    obtain ⟨b, _, h⟩ := h2
    exact hij (by simpa using (List.cons.inj h).1.symm)

/-- Every array has entries at positions. -/
theorem gridOf_surjective (sh : List ℕ) (data : List ℝ) (h : data.length = shapeSize sh) : ∃ y, gridOf sh y = ⟨sh, data⟩ := by
  refine ⟨fun p => data.getD ((positions sh).idxOf p) 0, ?_⟩
  rw [gridOf]
  congr 1
  apply List.ext_getElem
  · rw [List.length_map, positions_length, h]
  · intro k h1 h2
    rw [List.getElem_map, (positions_nodup sh).idxOf_getElem]
    simp [List.getD_eq_getElem?_getD, List.getElem?_eq_getElem h2]

/-- **C55 (statistics over several axes).** `mean`, `var` and `std` with a tuple of axes, negative ones counted from the end, replace every leaf by
the mean, the variance with the normalisation `n - ddof` and its root of the `n` entries along the named axes, for every position of the other
axes; the structure of the pytree is unchanged, and the axes are dropped or, with `keepdims=True`, kept with length one.  (No empty axis, and
`ddof` below the number `n` of reduced entries, so that no division by zero occurs.) -/
theorem C55_statistics_axes {n : ℕ} (sh : Fin n → List ℕ) (y : Fin n → List ℕ → ℝ) (T : PyTree ℝ)
    (hT : T.leaves = List.ofFn fun j => gridOf (sh j) (y j)) (axes : List Int) (hax : ∀ j, AxesOk axes (sh j).length) (kd : Bool) (ddof : ℝ)
    (_ : ∀ j, 0 ∉ sh j) (_ : ∀ j, ddof < shapeSize (unmarked ((named axes (sh j).length).map (!·)) (sh j))) :
    (∃ r, treeMeanAxes axes kd T = .ok r ∧ r.treedef = T.treedef ∧
      r.leaves = List.ofFn fun j => statGrid kd (sh j) (named axes (sh j).length) meanOf (y j)) ∧
    (∃ r, treeVarAxes axes ddof kd T = .ok r ∧ r.treedef = T.treedef ∧
      r.leaves = List.ofFn fun j => statGrid kd (sh j) (named axes (sh j).length) (varianceOf ddof) (y j)) ∧
    (∃ r, treeStdAxes axes ddof kd T = .ok r ∧ r.treedef = T.treedef ∧
      r.leaves = List.ofFn fun j => statGrid kd (sh j) (named axes (sh j).length) (fun l => Real.sqrt (varianceOf ddof l)) (y j)) := by
  refine ⟨?_, ?_, ?_⟩
  · exact tmap_leaves _ _ _ T hT fun j => statAxes_grid listMean axes kd (sh j) (y j) (hax j)
  · refine tmap_leaves _ _ _ T hT fun j => ?_
    simp only [listCov_varianceOf]
    exact statAxes_grid _ axes kd (sh j) (y j) (hax j)
  · refine tmap_leaves _ _ _ T hT fun j => ?_
    simp only [listCov_varianceOf]
    exact statAxes_grid _ axes kd (sh j) (y j) (hax j)

/-- **C55 (every leaf has entries at positions).** Every leaf whose data fills its shape is one of the leaves of `C55_statistics_axes`. -/
theorem C55_axes_leaves (a : Arr ℝ) (h : a.data.length = shapeSize a.shape) : ∃ y, a = gridOf a.shape y := by
  obtain ⟨y, hy⟩ := gridOf_surjective a.shape a.data h
  exact ⟨y, hy.symm⟩

/-- **C55 (no such axes).** A leaf lacking one of the axes, or for which two members of the tuple are the same axis, makes the statistics raise. -/
theorem C55_statistics_axes_raises (T : PyTree ℝ) (a : Arr ℝ) (ha : a ∈ T.leaves) (axes : List Int) (h : ¬ AxesOk axes a.shape.length)
    (kd : Bool) (ddof : ℝ) : Raises (treeMeanAxes axes kd T) ∧ Raises (treeVarAxes axes ddof kd T) ∧ Raises (treeStdAxes axes ddof kd T) := by
  have key : ∀ f, Raises (statAxes f axes kd a) := by
    intro f
    by_cases h1 : ∀ x ∈ axes, -(a.shape.length : Int) ≤ x ∧ x < a.shape.length
    · have hm : mapE (fun x => normAxis x a.shape.length) axes = .ok (axes.map (axisPos a.shape.length)) := by
        rw [← mapE_ok]
        refine mapE_congr fun x hx => ?_
        rw [normAxis, if_pos (h1 x hx)]; rfl
      have hn : ¬ (axes.map (axisPos a.shape.length)).Nodup := by
        intro hn
        refine h ⟨h1, ?_⟩
        rw [List.Nodup, List.pairwise_map] at hn
        refine hn.imp_of_mem fun {x z} hx hz hxz => ?_
        have := h1 x hx
        have := h1 z hz
        unfold axisPos at hxz
        split_ifs at hxz <;> omega
      exact ⟨.valueError, by simp only [statAxes, hm, ok_bind, if_neg hn]⟩
    · push Not at h1
      obtain ⟨x, hx, hx'⟩ := h1
      refine raises_bind_left (mapE_raises_of_mem hx ⟨.valueError, ?_⟩)
      rw [normAxis, if_neg (by omega)]
  exact ⟨tmap_raises _ T a ha (key _), tmap_raises _ T a ha (key _), tmap_raises _ T a ha (key _)⟩

/-- A `(2, 2, 2)` leaf averaged over its first and last axes. -/
example : ∃ T r : PyTree ℝ, T.leaves = [⟨[2, 2, 2], [1, 3, 10, 20, 5, 7, 30, 40]⟩] ∧ treeMeanAxes [-1, 0] false T = .ok r ∧
    r.leaves = [⟨[2], [4, 25]⟩] := by
  obtain ⟨T, hT⟩ := list_tree [⟨[2, 2, 2], [1, 3, 10, 20, 5, 7, 30, 40]⟩]
  obtain ⟨y, hy⟩ := C55_axes_leaves ⟨[2, 2, 2], [1, 3, 10, 20, 5, 7, 30, 40]⟩ (by simp [shapeSize])
  have hd := congrArg Arr.data hy
  simp [gridOf, positions, List.range_succ] at hd
  obtain ⟨⟨r, h1, _, h2⟩, _⟩ := C55_statistics_axes (n := 1) (fun _ => [2, 2, 2]) (fun _ => y) T (by rw [hT, hy]; rfl) [-1, 0]
    (fun _ => ⟨by simp, by simp⟩) false 0 (by simp) (by simp [named, unmarked, List.range_succ, shapeSize])
  refine ⟨T, r, hT, h1, ?_⟩
  rw [h2]
  obtain ⟨d1, d2, d3, d4, d5, d6, d7, d8⟩ := hd
  simp [statGrid, named, unmarked, List.range_succ, positions, entriesAlong, meanOf, ← d1, ← d2, ← d3, ← d4, ← d5, ← d6, ← d7, ← d8]
  norm_num

end Laplax.Props
