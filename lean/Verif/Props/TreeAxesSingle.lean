import Verif.Props.TreeAxes

/-! # C55: a tuple with one axis is that axis, the tuple of all axes is no axis -/

namespace Laplax.Props
open Laplax Spec

theorem chunks_range (w : ℕ) : ∀ (n : ℕ) (l : List ℝ), chunks w n l = (List.range n).map fun i => (l.drop (i * w)).take w
  | 0, l => rfl
  | n + 1, l => by
    rw [chunks, chunks_range w n, List.range_succ_eq_map, List.map_cons, List.map_map]
    simp only [Nat.zero_mul, List.drop_zero]
    congr 1
    refine List.map_congr_left fun i _ => ?_
    simp only [Function.comp, List.drop_drop, Nat.succ_mul]
    rw [Nat.add_comm]

theorem chunks_add (w : ℕ) (m : ℕ) : ∀ (b : ℕ) (l : List ℝ), chunks w (b + m) l = chunks w b (l.take (b * w)) ++ chunks w m (l.drop (b * w))
  | 0, l => by simp [chunks]
  | b + 1, l => by
    rw [show b + 1 + m = (b + m) + 1 by omega, chunks, chunks_add w m b, chunks, List.cons_append, List.take_take, List.drop_drop,
      List.drop_take, show min w ((b + 1) * w) = w by rw [Nat.succ_mul]; omega,
      show (b + 1) * w - w = b * w by rw [Nat.succ_mul]; omega, show w + b * w = (b + 1) * w by rw [Nat.succ_mul]; omega]

theorem chunks_mul (w b : ℕ) : ∀ (n : ℕ) (l : List ℝ), (chunks (b * w) n l).flatMap (chunks w b) = chunks w (n * b) l
  | 0, l => by simp [chunks]
  | n + 1, l => by
    rw [chunks, List.flatMap_cons, chunks_mul w b n, show (n + 1) * b = b + n * b by rw [Nat.succ_mul]; omega, chunks_add]

theorem axisGroups_keep : ∀ (sh : List ℕ) (l : List ℝ) (_ : l.length = shapeSize sh),
    axisGroups (sh.map fun n => (n, false)) l = l.map fun x => [x]
  | [], l, h => by
    obtain ⟨x, rfl⟩ := List.length_eq_one_iff.1 (h.trans (by rfl))
    rfl
  | n :: sh, l, h => by
    rw [shapeSize_cons] at h
    have hf : (sh.map fun n => (n, false)).map Prod.fst = sh := by simp [Function.comp_def]
    simp only [List.map_cons, axisGroups, hf]
    induction n generalizing l with
    | zero =>
      have : l = [] := List.length_eq_zero_iff.1 (by simpa using h)
      simp [this, chunks]
    | succ n ih =>
      rw [Nat.succ_mul] at h
      rw [chunks, List.flatMap_cons, ih _ (by rw [List.length_drop, h]; omega), axisGroups_keep sh _ (by rw [List.length_take, h]; omega), ← List.map_append,
        List.take_append_drop]

theorem axisGroups_prefix (rest : List (ℕ × Bool)) : ∀ (before : List ℕ) (l : List ℝ),
    l.length = shapeSize before * shapeSize (rest.map Prod.fst) →
    axisGroups ((before.map fun n => (n, false)) ++ rest) l =
      (chunks (shapeSize (rest.map Prod.fst)) (shapeSize before) l).flatMap (axisGroups rest)
  | [], l, h => by
    have h' : l.length = shapeSize (rest.map Prod.fst) := by simpa [shapeSize] using h
    simp [shapeSize, chunks, ← h']
    rw [show (List.foldl (fun x1 x2 => x1 * x2) 1 (rest.map Prod.fst)) = l.length from h'.symm, List.take_length]
  | n :: before, l, h => by
    have hf : ((before.map fun n => (n, false)) ++ rest).map Prod.fst = before ++ rest.map Prod.fst := by simp [Function.comp_def]
    rw [shapeSize_cons] at h ⊢
    simp only [List.map_cons, List.cons_append, axisGroups, hf, shapeSize_append]
    rw [← chunks_mul, List.flatMap_assoc]
    refine List.flatMap_congr fun c hc => ?_
    refine axisGroups_prefix rest before c ?_
    rw [chunks_range] at hc
    obtain ⟨i, hi, rfl⟩ := List.mem_map.1 hc
    have hi' := List.mem_range.1 hi
    rw [List.length_take, List.length_drop, h]
    have : (i + 1) * (shapeSize before * shapeSize (rest.map Prod.fst)) ≤ n * (shapeSize before * shapeSize (rest.map Prod.fst)) :=
      Nat.mul_le_mul_right _ hi'
    rw [Nat.succ_mul] at this
    rw [Nat.mul_assoc]
    omega

theorem axisGroups_head (S : ℕ) (after : List ℕ) (l : List ℝ) (h : l.length = S * shapeSize after) :
    axisGroups ((S, true) :: after.map fun n => (n, false)) l =
      (List.range (shapeSize after)).map fun k => (List.range S).map fun s => l.getD (s * shapeSize after + k) 0 := by
  have hf : (after.map fun n => (n, false)).map Prod.fst = after := by simp [Function.comp_def]
  have hk : ((after.map fun n => (n, false)).filter fun d : ℕ × Bool => !d.2).map Prod.fst = after := by
    rw [List.filter_eq_self.2 (by simp), hf]
  simp only [axisGroups, hf, hk]
  refine List.map_congr_left fun k hk => ?_
  have hk' := List.mem_range.1 hk
  rw [chunks_range, List.map_map, List.map_map, ← List.flatMap_def, List.map_eq_flatMap (f := fun s => l.getD (s * shapeSize after + k) 0)]
  refine List.flatMap_congr fun s hs => ?_
  have hs' := List.mem_range.1 hs
  have hb : (s + 1) * shapeSize after ≤ S * shapeSize after := Nat.mul_le_mul_right _ hs'
  rw [Nat.succ_mul] at hb
  have hl : ((l.drop (s * shapeSize after)).take (shapeSize after)).length = shapeSize after := by
    rw [List.length_take, List.length_drop]; omega
  simp only [Function.comp, axisGroups_keep after _ hl]
  have e : ((l.drop (s * shapeSize after)).take (shapeSize after))[k]? = some (l.getD (s * shapeSize after + k) 0) := by
    rw [List.getElem?_take_of_lt hk', List.getElem?_drop, List.getD_eq_getElem?_getD, List.getElem?_eq_getElem (by omega)]
    rfl
  show ((List.map (fun x => [x]) _).getD k []) = [l.getD (s * shapeSize after + k) 0]
  rw [List.getD_eq_getElem?_getD, List.getElem?_map, e]
  rfl

theorem statAxes_single (f : List ℝ → ℝ) (x : Int) (kd : Bool) (a : Arr ℝ) (h : a.data.length = shapeSize a.shape) :
    statAxes f [x] kd a = statAxis f (some x) kd a := by
  by_cases hx : -(a.shape.length : Int) ≤ x ∧ x < a.shape.length
  · obtain ⟨sh, d⟩ := a
    simp only at h hx
    obtain ⟨p, hp⟩ : ∃ p, p = axisPos sh.length x := ⟨_, rfl⟩
    have hpl : p < sh.length := by
      rw [hp]; unfold axisPos; split_ifs <;> omega
    have hn : normAxis x sh.length = .ok p := by rw [normAxis, if_pos hx, hp]; rfl
    obtain ⟨before, S, after, hsh, hb⟩ : ∃ before S after, sh = before ++ S :: after ∧ before.length = p :=
      ⟨sh.take p, sh[p], sh.drop (p + 1), by rw [← List.drop_eq_getElem_cons hpl, List.take_append_drop], by rw [List.length_take]; omega⟩
    have hd1 : sh.drop (p + 1) = after := by rw [hsh, ← hb, ← List.drop_drop, List.drop_left]; rfl
    have hd : (sh.drop p).headD 1 = S := by rw [hsh, ← hb, List.drop_left]; rfl
    have ht : sh.take p = before := by rw [hsh, ← hb, List.take_left]
    have hz : sh.zip ((List.range sh.length).map fun i => decide (i ∈ [p])) =
        (before.map fun n => (n, false)) ++ (S, true) :: after.map fun n => (n, false) := by
      subst hsh
      apply List.ext_getElem
      · simp
      · intro i h1 h2
        simp only [List.getElem_zip, List.getElem_map, List.getElem_range, List.mem_singleton]
        rcases Nat.lt_trichotomy i p with hi | hi | hi
        · rw [List.getElem_append_left (by omega), List.getElem_append_left (by simp; omega)]
          simp [hi.ne]
        · subst hi
          simp [List.getElem_append_right, ← hb]
        · obtain ⟨j, rfl⟩ : ∃ j, i = p + 1 + j := ⟨i - p - 1, by omega⟩
          rw [List.getElem_append_right (by omega), List.getElem_append_right (by simp; omega)]
          have e1 : p + 1 + j - before.length = j + 1 := by omega
          have e2 : p + 1 + j - (before.map fun n => (n, false)).length = j + 1 := by simp; omega
          simp only [e1, e2, List.getElem_cons_succ, List.getElem_map]
          simp; omega
    have hm : mapE (fun x => normAxis x sh.length) [x] = .ok [p] := by simp only [mapE, hn, ok_bind]; rfl
    simp only [statAxes, hm, ok_bind, List.nodup_singleton, if_true, statAxis, hn, hz, hd1, hd, ht]
    have hf : (after.map fun n => (n, false)).map Prod.fst = after := by simp [Function.comp_def]
    have hdl : d.length = shapeSize before * (S * shapeSize after) := by rw [h, hsh, shapeSize_append, shapeSize_cons]
    have hg := axisGroups_prefix ((S, true) :: after.map fun n => (n, false)) before d (by
      rw [List.map_cons, hf, shapeSize_cons]; exact hdl)
    rw [List.map_cons, hf, shapeSize_cons] at hg
    rw [hg]
    show Except.ok _ = Except.ok _
    congr 2
    · cases kd
      · simp [List.filter_append, List.filter_map, Function.comp_def]
      · simp [Function.comp_def]
    · rw [chunks_range, List.flatMap_map, List.map_flatMap, ← List.flatMap_def]
      refine List.flatMap_congr fun i hi => ?_
      have hi' := List.mem_range.1 hi
      have hb : (i + 1) * (S * shapeSize after) ≤ shapeSize before * (S * shapeSize after) := Nat.mul_le_mul_right _ hi'
      rw [Nat.succ_mul] at hb
      have hlen : ((d.drop (i * (S * shapeSize after))).take (S * shapeSize after)).length = S * shapeSize after := by
        rw [List.length_take, List.length_drop, hdl]; exact Nat.min_eq_left (by omega)
      rw [axisGroups_head S after _ hlen, List.map_map]
      refine List.map_congr_left fun k hk => ?_
      simp only [Function.comp]
      congr 1
      refine List.map_congr_left fun s hs => ?_
      have hk' := List.mem_range.1 hk
      have hs' := List.mem_range.1 hs
      have hb2 : (s + 1) * shapeSize after ≤ S * shapeSize after := Nat.mul_le_mul_right _ hs'
      rw [Nat.succ_mul] at hb2
      rw [List.getD_eq_getElem?_getD, List.getD_eq_getElem?_getD, List.getElem?_take_of_lt (by omega), List.getElem?_drop]
      congr 2
      ring
  · have hn : normAxis x a.shape.length = .error .valueError := by rw [normAxis, if_neg hx]
    simp only [statAxes, statAxis, mapE, hn, error_bind]

/-- **C55 (a tuple with one axis).** For leaves whose data fills their shape, `axis=(x,)` is `axis=x`: the same result or the same exception. -/
theorem C55_statistics_one_axis (T : PyTree ℝ) (hT : ∀ a ∈ T.leaves, a.data.length = shapeSize a.shape) (x : Int) (kd : Bool) (ddof : ℝ) :
    treeMeanAxes [x] kd T = treeMeanWith (some x) kd T ∧ treeVarAxes [x] ddof kd T = treeVarWith (some x) ddof kd T ∧
    treeStdAxes [x] ddof kd T = treeStdWith (some x) ddof kd T := by
  have key : ∀ f, Tree.tmap (statAxes f [x] kd) T = Tree.tmap (statAxis f (some x) kd) T := by
    intro f
    unfold Tree.tmap
    congr 1
    exact mapE_congr fun a ha => statAxes_single f x kd a (hT a ha)
  exact ⟨key _, key _, key _⟩

theorem axisGroups_all : ∀ (sh : List ℕ) (l : List ℝ) (_ : l.length = shapeSize sh), axisGroups (sh.map fun n => (n, true)) l = [l]
  | [], _, _ => rfl
  | n :: sh, l, h => by
    rw [shapeSize_cons] at h
    have hf : (sh.map fun n => (n, true)).map Prod.fst = sh := by simp [Function.comp_def]
    have hk : ((sh.map fun n => (n, true)).filter fun d : ℕ × Bool => !d.2).map Prod.fst = [] := by
      rw [List.map_eq_nil_iff, List.filter_eq_nil_iff]; simp
    have hc : ∀ c ∈ chunks (shapeSize sh) n l, axisGroups (sh.map fun n => (n, true)) c = [c] := by
      intro c hc
      refine axisGroups_all sh c ?_
      rw [chunks_range] at hc
      obtain ⟨i, hi, rfl⟩ := List.mem_map.1 hc
      have hb : (i + 1) * shapeSize sh ≤ n * shapeSize sh := Nat.mul_le_mul_right _ (List.mem_range.1 hi)
      rw [Nat.succ_mul] at hb
      rw [List.length_take, List.length_drop, h]
      exact Nat.min_eq_left (by omega)
    have hfl : ∀ (n : ℕ) (l : List ℝ), l.length = n * shapeSize sh → (chunks (shapeSize sh) n l).flatten = l := by
      intro n
      induction n with
      | zero => intro l hl; rw [List.length_eq_zero_iff.1 (hl.trans (Nat.zero_mul _))]; rfl
      | succ n ih =>
        intro l hl
        rw [Nat.succ_mul] at hl
        rw [chunks, List.flatten_cons, ih _ (by rw [List.length_drop]; omega), List.take_append_drop]
    simp only [List.map_cons, axisGroups, hf, hk]
    rw [show shapeSize [] = 1 from rfl, List.range_one, List.map_singleton, List.map_map, ← List.flatMap_def]
    congr 1
    refine Eq.trans (List.flatMap_congr fun c h' => ?_) (List.flatMap_id.trans (hfl n l h))
    simp only [Function.comp, hc c h']
    rfl

theorem statAxes_all (f : List ℝ → ℝ) (axes : List Int) (kd : Bool) (a : Arr ℝ) (h : a.data.length = shapeSize a.shape)
    (hok : AxesOk axes a.shape.length) (hall : ∀ d : ℕ, d < a.shape.length → ∃ x ∈ axes, x = (d : Int) ∨ x = (d : Int) - a.shape.length) :
    statAxes f axes kd a = statAxis f none kd a := by
  obtain ⟨h1, h2⟩ := normAxes_ok axes _ hok
  have hz : a.shape.zip ((List.range a.shape.length).map fun d => decide (d ∈ axes.map (axisPos a.shape.length))) =
      a.shape.map fun n => (n, true) := by
    apply List.ext_getElem
    · simp
    · intro i g1 g2
      simp only [List.getElem_zip, List.getElem_map, List.getElem_range]
      congr 1
      refine decide_eq_true ?_
      obtain ⟨x, hx, e⟩ := hall i (by simpa using g2)
      refine List.mem_map.2 ⟨x, hx, ?_⟩
      have := hok.1 x hx
      have hi : i < a.shape.length := by simpa using g2
      unfold axisPos
      split_ifs <;> omega
  have hk : ((a.shape.map fun n => (n, true)).filter fun d : ℕ × Bool => !d.2).map Prod.fst = [] := by
    rw [List.map_eq_nil_iff, List.filter_eq_nil_iff]; simp
  simp only [statAxes, h1, ok_bind, if_pos h2, hz, axisGroups_all a.shape a.data h, hk, statAxis]
  show Except.ok _ = Except.ok _
  congr 2
  cases kd <;> simp [Function.comp_def]

/-- **C55 (a tuple with all axes).** Naming every axis once is the same as `axis=None`. -/
theorem C55_statistics_every_axis (T : PyTree ℝ) (hT : ∀ a ∈ T.leaves, a.data.length = shapeSize a.shape) (axes : List Int)
    (hax : ∀ a ∈ T.leaves, AxesOk axes a.shape.length ∧
      ∀ d : ℕ, d < a.shape.length → ∃ x ∈ axes, x = (d : Int) ∨ x = (d : Int) - a.shape.length) (kd : Bool) (ddof : ℝ) :
    treeMeanAxes axes kd T = treeMeanWith none kd T ∧ treeVarAxes axes ddof kd T = treeVarWith none ddof kd T ∧
    treeStdAxes axes ddof kd T = treeStdWith none ddof kd T := by
  have key : ∀ f, Tree.tmap (statAxes f axes kd) T = Tree.tmap (statAxis f none kd) T := by
    intro f
    unfold Tree.tmap
    congr 1
    exact mapE_congr fun a ha => statAxes_all f axes kd a (hT a ha) (hax a ha).1 (hax a ha).2
  exact ⟨key _, key _, key _⟩

/-- The axes `(-1, 0)` of a `(2, 3)` leaf are all its axes. -/
example : ∃ T : PyTree ℝ, T.leaves = [⟨[2, 3], [1, 2, 3, 4, 6, 8]⟩] ∧ treeMeanAxes [-1, 0] true T = treeMeanWith none true T := by
  obtain ⟨T, hT⟩ := list_tree [⟨[2, 3], [1, 2, 3, 4, 6, 8]⟩]
  refine ⟨T, hT, (C55_statistics_every_axis T (by rw [hT]; simp [shapeSize]) [-1, 0] ?_ true 0).1⟩
  rw [hT]
  intro a ha
  simp only [List.mem_singleton] at ha
  subst ha
  refine ⟨⟨by simp, by simp⟩, ?_⟩
  intro d hd
  simp only [List.length_cons, List.length_nil] at hd
  rcases (by omega : d = 0 ∨ d = 1) with rfl | rfl
  · exact ⟨0, by simp, by simp⟩
  · exact ⟨-1, by simp, by simp⟩

/-- A `(2, 3)` leaf meets the hypothesis. -/
example : ∃ T : PyTree ℝ, T.leaves = [⟨[2, 3], [1, 2, 3, 4, 6, 8]⟩] ∧ treeMeanAxes [-1] true T = treeMeanWith (some (-1)) true T := by
  obtain ⟨T, hT⟩ := list_tree [⟨[2, 3], [1, 2, 3, 4, 6, 8]⟩]
  exact ⟨T, hT, (C55_statistics_one_axis T (by rw [hT]; simp [shapeSize]) (-1) true 0).1⟩

end Laplax.Props
