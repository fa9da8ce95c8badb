import Verif.Model.TreeAxis
import Verif.Props.TreeStats
import Verif.Props.LoaderAxis

/-! # C55: statistics along any axis, covariances with any keywords, slices with any python bounds -/

namespace Laplax.Spec
open Laplax
open scoped BigOperators

/-- The array of shape `(*before, S, *after)` with the entries `y i s k` (`i` and `k` flat positions of the axes before and after). -/
def cubeArr {S : ℕ} (before after : List ℕ) (y : Fin (shapeSize before) → Fin S → Fin (shapeSize after) → ℝ) : Arr ℝ :=
  ⟨before ++ S :: after, (List.ofFn fun i => (List.ofFn fun s => List.ofFn fun k => y i s k).flatten).flatten⟩

/-- The array with the axis removed (`keepdims=False`) or of length one (`keepdims=True`). -/
def reducedArr (keepdims : Bool) (before after : List ℕ) (z : Fin (shapeSize before) → Fin (shapeSize after) → ℝ) : Arr ℝ :=
  ⟨before ++ (if keepdims then 1 :: after else after), (List.ofFn fun i => List.ofFn fun k => z i k).flatten⟩

/-- The average of `S` numbers. -/
noncomputable def average {S : ℕ} (x : Fin S → ℝ) : ℝ := (∑ s, x s) / S

/-- The sum of squared deviations from the average over `S - ddof`. -/
noncomputable def variance {S : ℕ} (ddof : ℝ) (x : Fin S → ℝ) : ℝ := (∑ s, (x s - average x) ^ 2) / (S - ddof)

/-- How `S` samples of `c` variables are stored for `jnp.cov`: variables along the rows (`rowvar=True`) or along the columns, or as a plain list
for a single variable. -/
def HoldsSamples {S c : ℕ} (rowvar : Bool) (a : Arr ℝ) (y : Fin S → Fin c → ℝ) : Prop :=
  (a = if rowvar then ⟨[c, S], (List.ofFn fun k => List.ofFn fun s => y s k).flatten⟩
      else ⟨[S, c], (List.ofFn fun s => List.ofFn fun k => y s k).flatten⟩) ∨
  (c = 1 ∧ a = ⟨[S], (List.ofFn fun s => List.ofFn fun k => y s k).flatten⟩)

/-- A python index counted from the end when negative. -/
def pyPos (n : ℕ) (i : Int) : Int := if i < 0 then i + n else i

/-- The members of `ts` at the positions from `lo` up to, not including, `hi` (`None`: no bound). -/
def sliceMembers {β : Type} (ts : List β) (lo hi : Option Int) : List β :=
  (ts.zipIdx.filter fun ti => decide ((∀ a ∈ lo, pyPos ts.length a ≤ ti.2) ∧ ∀ b ∈ hi, (ti.2 : Int) < pyPos ts.length b)).map (·.1)

end Laplax.Spec

namespace Laplax.Props
open Laplax Laplax.Spec
open scoped BigOperators Matrix

theorem getD_flatten (w : ℕ) (L : List (List ℝ)) (h : ∀ l ∈ L, l.length = w) (i k : ℕ) (hk : k < w) :
    L.flatten.getD (i * w + k) 0 = (L.getD i []).getD k 0 := by
  induction L generalizing i with
  | nil => simp
  | cons l L ih =>
    have hl := h l (by simp)
    cases i with
    | zero =>
      rw [Nat.zero_mul, Nat.zero_add, List.flatten_cons, List.getD_append _ _ _ _ (by omega)]; rfl
    | succ i =>
      rw [List.flatten_cons, List.getD_append_right _ _ _ _ (by rw [hl, Nat.succ_mul]; omega),
        show (i + 1) * w + k - l.length = i * w + k by rw [hl, Nat.succ_mul]; omega, ih fun l' hl' => h l' (by simp [hl'])]
      rfl

theorem cubeArr_getD {S : ℕ} (before after : List ℕ) (y : Fin (shapeSize before) → Fin S → Fin (shapeSize after) → ℝ)
    (i : Fin (shapeSize before)) (s : Fin S) (k : Fin (shapeSize after)) :
    (cubeArr before after y).data.getD ((i.val * S + s.val) * shapeSize after + k.val) 0 = y i s k := by
  have h1 : ∀ l ∈ List.ofFn (fun i => (List.ofFn fun s => List.ofFn fun k => y i s k).flatten), l.length = S * shapeSize after := by
    intro l hl
    obtain ⟨i, rfl⟩ := (List.mem_ofFn' _ _).1 hl
    rw [List.length_flatten]; simp [List.map_ofFn, Function.comp_def, List.sum_ofFn]
  have hlt : s.val * shapeSize after + k.val < S * shapeSize after := by
    have := s.isLt; have := k.isLt; nlinarith
  have e : (i.val * S + s.val) * shapeSize after + k.val = i.val * (S * shapeSize after) + (s.val * shapeSize after + k.val) := by ring
  rw [e]
  show (List.ofFn _).flatten.getD _ 0 = _
  rw [getD_flatten _ _ h1 _ _ hlt]
  have : (List.ofFn (fun i => (List.ofFn fun s => List.ofFn fun k => y i s k).flatten)).getD i.val [] =
      (List.ofFn fun s => List.ofFn fun k => y i s k).flatten := by
    simp [List.getD_eq_getElem?_getD]
  rw [this, flatten_ofFn_getD (fun s k => y i s k) s k]

theorem statAxis_cube {S : ℕ} (f : List ℝ → ℝ) (kd : Bool) (before after : List ℕ)
    (y : Fin (shapeSize before) → Fin S → Fin (shapeSize after) → ℝ) (axis : Int)
    (hax : axis = before.length ∨ axis = -((after.length : Int) + 1)) :
    statAxis f (some axis) kd (cubeArr before after y) = .ok (reducedArr kd before after fun i k => f (List.ofFn fun s => y i s k)) := by
  have h1 : (before ++ S :: after).drop (before.length + 1) = after := by
    rw [← List.drop_drop, List.drop_left]; rfl
  have hsh : (cubeArr before after y).shape = before ++ S :: after := rfl
  simp only [statAxis, hsh, normAxis_ok before after S axis hax, ok_bind, List.take_left, List.drop_left, List.headD_cons, h1, reducedArr]
  show Except.ok _ = Except.ok _
  congr 3
  rw [range_map_eq_ofFn]
  congr 1; funext i
  rw [range_map_eq_ofFn]
  congr 1; funext k
  rw [range_map_eq_ofFn]
  congr 2; funext s
  exact cubeArr_getD before after y i s k

theorem tmap_leaves {n : ℕ} (f : Arr ℝ → Except Err (Arr ℝ)) (a b : Fin n → Arr ℝ) (T : PyTree ℝ) (hT : T.leaves = List.ofFn a)
    (h : ∀ j, f (a j) = .ok (b j)) : ∃ r, Tree.tmap f T = .ok r ∧ r.treedef = T.treedef ∧ r.leaves = List.ofFn b := by
  obtain ⟨r, hr⟩ := Tree.unflatten_isOk T.treedef (List.ofFn b) (by rw [Tree.length_leaves_treedef, hT]; simp)
  obtain ⟨hr1, hr2⟩ := (Tree.unflatten_ok_iff _ _ _).1 hr
  refine ⟨r, (tmap_ok_iff _ _ _).2 ⟨hr1, ?_⟩, hr1, hr2⟩
  rw [hT, hr2, List.forall₂_iff_get]
  refine ⟨by simp, fun i h1 h2 => ?_⟩
  simpa using h ⟨i, by simpa using h1⟩

theorem listVar_ofFn {S : ℕ} (x : Fin S → ℝ) (d : ℝ) : listCov (List.ofFn x) (List.ofFn x) d = variance d x := by
  rw [listCov_ofFn, variance]
  congr 1
  exact Finset.sum_congr rfl fun s _ => by rw [sq]; rfl

/-- **C55 (statistics along any axis).** `mean`, `var` and `std` with `axis=axis` (counted from the front or, negative, from the end) replace every
leaf by the average, the variance with the normalisation `S - ddof` and its root of the `S` entries along that axis, position by position; the
structure of the pytree is unchanged, and the axis is dropped or, with `keepdims=True`, kept with length one.  (At least one entry, and
`ddof < S`, so that no division by zero occurs.) -/
theorem C55_statistics_axis {n : ℕ} (S : Fin n → ℕ) (bs as : Fin n → List ℕ)
    (y : ∀ j, Fin (shapeSize (bs j)) → Fin (S j) → Fin (shapeSize (as j)) → ℝ) (T : PyTree ℝ)
    (hT : T.leaves = List.ofFn fun j => cubeArr (bs j) (as j) (y j)) (axis : Int)
    (hax : ∀ j, axis = (bs j).length ∨ axis = -(((as j).length : Int) + 1)) (kd : Bool) (ddof : ℝ) (_ : ∀ j, 0 < S j)
    (_ : ∀ j, ddof < S j) :
    (∃ r, treeMeanWith (some axis) kd T = .ok r ∧ r.treedef = T.treedef ∧
      r.leaves = List.ofFn fun j => reducedArr kd (bs j) (as j) fun i k => average fun s => y j i s k) ∧
    (∃ r, treeVarWith (some axis) ddof kd T = .ok r ∧ r.treedef = T.treedef ∧
      r.leaves = List.ofFn fun j => reducedArr kd (bs j) (as j) fun i k => variance ddof fun s => y j i s k) ∧
    (∃ r, treeStdWith (some axis) ddof kd T = .ok r ∧ r.treedef = T.treedef ∧
      r.leaves = List.ofFn fun j => reducedArr kd (bs j) (as j) fun i k => Real.sqrt (variance ddof fun s => y j i s k)) := by
  refine ⟨?_, ?_, ?_⟩
  · obtain ⟨r, h1, h2, h3⟩ := tmap_leaves _ _ _ T hT fun j => statAxis_cube listMean kd (bs j) (as j) (y j) axis (hax j)
    exact ⟨r, h1, h2, by rw [h3]; simp only [listMean_ofFn]; rfl⟩
  · obtain ⟨r, h1, h2, h3⟩ := tmap_leaves _ _ _ T hT fun j =>
      statAxis_cube (fun c => listCov c c ddof) kd (bs j) (as j) (y j) axis (hax j)
    exact ⟨r, h1, h2, by rw [h3]; simp only [listVar_ofFn]⟩
  · obtain ⟨r, h1, h2, h3⟩ := tmap_leaves _ _ _ T hT fun j =>
      statAxis_cube (fun c => Real.sqrt (listCov c c ddof)) kd (bs j) (as j) (y j) axis (hax j)
    exact ⟨r, h1, h2, by rw [h3]; simp only [listVar_ofFn]⟩

/-- **C55 (statistics of all entries).** Without an axis (`axis=None`, the default) every leaf becomes one number: the statistic of all its
entries, as a scalar or, with `keepdims=True`, with all axes of length one. -/
theorem C55_statistics_all {n : ℕ} (N : Fin n → ℕ) (sh : Fin n → List ℕ) (y : ∀ j, Fin (N j) → ℝ) (T : PyTree ℝ)
    (hT : T.leaves = List.ofFn fun j => ⟨sh j, List.ofFn (y j)⟩) (kd : Bool) (ddof : ℝ) (_ : ∀ j, 0 < N j) (_ : ∀ j, ddof < N j) :
    (∃ r, treeMeanWith none kd T = .ok r ∧ r.treedef = T.treedef ∧
      r.leaves = List.ofFn fun j => ⟨if kd then List.replicate (sh j).length 1 else [], [average (y j)]⟩) ∧
    (∃ r, treeVarWith none ddof kd T = .ok r ∧ r.treedef = T.treedef ∧
      r.leaves = List.ofFn fun j => ⟨if kd then List.replicate (sh j).length 1 else [], [variance ddof (y j)]⟩) ∧
    (∃ r, treeStdWith none ddof kd T = .ok r ∧ r.treedef = T.treedef ∧
      r.leaves = List.ofFn fun j => ⟨if kd then List.replicate (sh j).length 1 else [], [Real.sqrt (variance ddof (y j))]⟩) := by
  refine ⟨?_, ?_, ?_⟩
  · refine tmap_leaves _ _ _ T hT fun j => ?_
    simp only [statAxis, List.map_const', listMean_ofFn]; rfl
  · refine tmap_leaves _ _ _ T hT fun j => ?_
    simp only [statAxis, List.map_const', listVar_ofFn]
  · refine tmap_leaves _ _ _ T hT fun j => ?_
    simp only [statAxis, List.map_const', listVar_ofFn]

theorem tmap_raises (f : Arr ℝ → Except Err (Arr ℝ)) (T : PyTree ℝ) (a : Arr ℝ) (ha : a ∈ T.leaves) (h : Raises (f a)) :
    Raises (Tree.tmap f T) := by
  unfold Tree.tmap
  exact raises_bind_left (mapE_raises_of_mem ha h)

/-- **C55 (no such axis).** A leaf without that axis makes the statistics raise. -/
theorem C55_statistics_axis_raises (T : PyTree ℝ) (a : Arr ℝ) (ha : a ∈ T.leaves) (axis : Int)
    (h : axis < -(a.shape.length : Int) ∨ (a.shape.length : Int) ≤ axis) (kd : Bool) (ddof : ℝ) :
    Raises (treeMeanWith (some axis) kd T) ∧ Raises (treeVarWith (some axis) ddof kd T) ∧ Raises (treeStdWith (some axis) ddof kd T) := by
  have hn : normAxis axis a.shape.length = .error .valueError := by
    rw [normAxis, if_neg (by omega)]
  have key : ∀ f, Raises (statAxis f (some axis) kd a) := fun f => ⟨.valueError, by simp only [statAxis, hn, error_bind]⟩
  exact ⟨tmap_raises _ T a ha (key _), tmap_raises _ T a ha (key _), tmap_raises _ T a ha (key _)⟩

/-- **C55 (axis 0).** `axis=0` gives the statistics of the other C55 theorems. -/
theorem C55_statistics_axis_zero (T : PyTree ℝ) : treeMeanWith (some 0) false T = treeMean T ∧
    treeVarWith (some 0) 0 false T = treeVar T ∧ treeStdWith (some 0) 0 false T = treeStd T := by
  have key : ∀ (f : List ℝ → ℝ) (a : Arr ℝ), statAxis f (some 0) false a =
      (match a.shape with
      | [] => .error .valueError
      | S :: sh => .ok ⟨sh, (List.range (shapeSize sh)).map fun j => f (colAxis0 a S (shapeSize sh) j)⟩) := by
    rintro f ⟨sh, d⟩
    cases sh with
    | nil => simp [statAxis, normAxis, error_bind]
    | cons S sh =>
      have hn : normAxis 0 (S :: sh).length = .ok 0 := by
        rw [normAxis, if_pos (by simp only [List.length_cons]; omega)]; rfl
      simp only [statAxis, hn, ok_bind, List.take_zero, List.drop_zero, List.headD_cons, List.drop_succ_cons, shapeSize, List.foldr_nil]
      simp [colAxis0]
      rfl
  refine ⟨?_, ?_, ?_⟩
  · unfold treeMeanWith treeMean; congr 1; funext a; rw [key]; rfl
  · unfold treeVarWith treeVar; congr 1; funext a; rw [key]; rfl
  · unfold treeStdWith treeStd; congr 1; funext a; rw [key]
    obtain ⟨sh, d⟩ := a
    cases sh with
    | nil => rfl
    | cons S sh => simp only [stdAxis0, varAxis0, ok_bind, Arr.map1, List.map_map]; rfl

theorem covRows_samples {S c : ℕ} (rowvar : Bool) (a : Arr ℝ) (y : Fin S → Fin c → ℝ) (h : HoldsSamples rowvar a y) :
    covRows rowvar a = .ok (List.ofFn fun k => List.ofFn fun s => y s k) := by
  rcases h with h | ⟨rfl, h⟩
  · cases rowvar
    · simp only [Bool.false_eq_true, if_false] at h
      subst h
      simp only [covRows, Bool.false_eq_true, if_false]
      rw [range_map_eq_ofFn]
      congr 2; funext k
      rw [range_map_eq_ofFn]
      congr 1; funext s
      exact flatten_ofFn_getD y s k
    · simp only [if_true] at h
      subst h
      simp only [covRows, if_true]
      have := chunks_flatten (List.ofFn fun k => List.ofFn fun s => y s k) S (by simp [List.mem_ofFn])
      rw [List.length_ofFn] at this
      rw [this]
  · subst h
    cases rowvar <;> simp [covRows, List.ofFn_succ] <;> exact flatten_singles fun s => y s 0

/-- **C55 (covariances with any keywords).** `cov(tree, rowvar=…, bias=…, ddof=…)` holds for every leaf — samples of variables along the columns
(`rowvar=False`), along the rows (`rowvar=True`) or of one variable — the covariance of the variables with the normalisation `S - ddof`, where `ddof`
is 1 unless given or `bias=True` (then 0); a single variable gives a scalar. -/
theorem C55_covariance_keywords {n : ℕ} {S c : Fin n → ℕ} (rowvar bias : Bool) (ddof : Option ℝ) (a : Fin n → Arr ℝ)
    (y : ∀ j, Fin (S j) → Fin (c j) → ℝ) (hy : ∀ j, HoldsSamples rowvar (a j) (y j)) (T : PyTree ℝ) (hT : T.leaves = List.ofFn a) (d : ℝ)
    (hd : d = match ddof with | some d => d | none => if bias then 0 else 1) (_ : ∀ j, d < S j) :
    ∃ r, treeCovWith rowvar bias ddof T = .ok r ∧ r.treedef = T.treedef ∧ r.leaves = List.ofFn fun j => covArrOf (ensCov (y j) d) := by
  have hd' : ddof.getD (if bias then 0 else 1) = d := by rw [hd]; cases ddof <;> rfl
  refine tmap_leaves _ _ _ T hT fun j => ?_
  simp only [jnpCov, covRows_samples rowvar (a j) (y j) (hy j), ok_bind, hd', List.length_ofFn]
  have hm : ((List.ofFn fun k => List.ofFn fun s => y j s k).map fun x =>
      (List.ofFn fun k => List.ofFn fun s => y j s k).map fun z => listCov x z d) =
      List.ofFn fun k => List.ofFn fun l => ensCov (y j) d k l := by
    rw [List.map_ofFn]
    congr 1; funext k
    simp only [Function.comp, List.map_ofFn]
    congr 1; funext l
    simp only [Function.comp, listCov_ofFn]; rfl
  rw [hm]
  show Except.ok _ = Except.ok _
  congr 1
  unfold covArrOf denseArr
  by_cases hc : c j = 1
  · rw [if_pos hc, if_pos hc]
    congr 1
    generalize ensCov (y j) d = M
    revert M
    rw [hc]
    intro M
    simp [List.ofFn_succ]
  · rw [if_neg hc, if_neg hc]

theorem filter_zipIdx {β : Type} (l : List β) (k L H : ℕ) :
    ((l.zipIdx k).filter fun ti => decide (L ≤ ti.2 ∧ ti.2 < H)).map (·.1) = (l.take (H - k)).drop (L - k) := by
  induction l generalizing k with
  | nil => simp
  | cons x l ih =>
    rw [List.zipIdx_cons, List.filter_cons]
    by_cases h1 : k < H
    · obtain ⟨m, hm⟩ : ∃ m, H - k = m + 1 := ⟨H - k - 1, by omega⟩
      have hm' : H - (k + 1) = m := by omega
      by_cases h2 : L ≤ k
      · rw [if_pos (by simp [h1, h2]), List.map_cons, ih, hm, hm', List.take_succ_cons, show L - k = 0 by omega, show L - (k + 1) = 0 by omega]
        simp
      · obtain ⟨m2, hm2⟩ : ∃ m, L - k = m + 1 := ⟨L - k - 1, by omega⟩
        rw [if_neg (by simp; omega), ih, hm, hm', hm2, List.take_succ_cons, List.drop_succ_cons, show L - (k + 1) = m2 by omega]
    · rw [if_neg (by simp; omega), ih, show H - k = 0 by omega, show H - (k + 1) = 0 by omega]
      simp

theorem sliceMembers_eq {β : Type} (ts : List β) (lo hi : Option Int) : sliceMembers ts lo hi =
    (ts.take ((hi.map (sliceBound ts.length)).getD ts.length)).drop ((lo.map (sliceBound ts.length)).getD 0) := by
  have := filter_zipIdx ts 0 ((lo.map (sliceBound ts.length)).getD 0) ((hi.map (sliceBound ts.length)).getD ts.length)
  rw [Nat.sub_zero, Nat.sub_zero] at this
  rw [← this, sliceMembers]
  congr 1
  apply List.filter_congr
  intro ti hti
  have hlt : ti.2 < ts.length := by
    obtain ⟨x, i⟩ := ti
    have := List.mem_zipIdx hti
    simpa using this.2.1
  congr 1
  apply propext
  refine and_congr ?_ ?_
  · cases lo with
    | none => simp
    | some a =>
      simp only [Option.mem_def, Option.some.injEq, forall_eq', Option.map_some, Option.getD_some, pyPos, sliceBound]
      split <;> omega
  · cases hi with
    | none => simp [hlt]
    | some b =>
      simp only [Option.mem_def, Option.some.injEq, forall_eq', Option.map_some, Option.getD_some, pyPos, sliceBound]
      split <;> omega

/-- **C55 (leaves that cannot be read).** `cov` raises if some leaf has more than two axes, whatever the keywords; `tree_slice` raises if some leaf is a
0-dimensional array, whatever the bounds. -/
theorem C55_unreadable_leaves (T : PyTree ℝ) (a : Arr ℝ) (ha : a ∈ T.leaves) :
    (2 < a.shape.length → ∀ (rowvar bias : Bool) (ddof : Option ℝ), Raises (treeCovWith rowvar bias ddof T)) ∧
    (a.shape = [] → ∀ lo hi : Option Int, Raises (treePySlice T lo hi)) := by
  refine ⟨fun h rowvar bias ddof => tmap_raises _ T a ha ⟨.valueError, ?_⟩, fun h lo hi => tmap_raises _ T a ha ⟨.indexError, ?_⟩⟩
  · have hr : covRows rowvar a = .error .valueError := by
      unfold covRows
      split
      · rename_i h0; rw [h0] at h; simp at h
      · rename_i h0; rw [h0] at h; simp at h
      · rename_i h0; rw [h0] at h; simp at h
      · rfl
    simp only [jnpCov, hr, error_bind]
  · simp only [Arr.pySlice, h]

/-- **C55 (slices with any bounds).** `tree_slice(tree, a, b)` of a stacked ensemble is the stack of the members at the positions from `a` up to, not
including, `b`, in order, where negative bounds count from the end and bounds out of range (or `None`) do not restrict. -/
theorem C55_slice_bounds {P : ℕ} (L : PyTree ℝ) (ts : List (PyTree ℝ)) (x : Fin ts.length → Fin P → ℝ) (h : TreeEnsemble L ts x)
    (T : PyTree ℝ) (hT : StackedTree L ts T) (lo hi : Option Int) :
    ∃ r, treePySlice T lo hi = .ok r ∧ StackedTree L (sliceMembers ts lo hi) r := by
  obtain ⟨r, hr, hs⟩ := C55_slice L ts x h T hT ((lo.map (sliceBound ts.length)).getD 0) ((hi.map (sliceBound ts.length)).getD ts.length)
  refine ⟨r, ?_, by rw [sliceMembers_eq]; exact hs⟩
  rw [← hr]
  have hleaf : ∀ a ∈ T.leaves, ∃ sh, a.shape = ts.length :: sh := by
    intro a ha
    obtain ⟨j, hj, rfl⟩ := List.getElem_of_mem ha
    have hj' : j < L.leaves.length := by rw [← hT.2.1]; exact hj
    have e := hT.2.2 j _ (List.getElem?_eq_getElem hj')
    rw [List.getElem?_eq_getElem hj] at e
    rw [Option.some.inj e]
    exact ⟨_, rfl⟩
  unfold treePySlice treeSlice Tree.tmap
  congr 1
  apply mapE_congr
  intro a ha
  obtain ⟨sh, hsh⟩ := hleaf a ha
  simp only [Arr.pySlice, hsh]

/-- The last two of five members, without knowing their number. -/
example : sliceMembers [10, 20, 30, 40, 50] (some (-2)) none = [40, 50] ∧ sliceMembers [10, 20, 30, 40, 50] (some 1) (some (-1)) = [20, 30, 40] ∧
    sliceMembers [10, 20, 30, 40, 50] (some (-9)) (some 2) = [10, 20] := by decide

/-- A `(2, 3)` leaf averaged along its last axis. -/
example : ∃ T r : PyTree ℝ, T.leaves = [⟨[2, 3], [1, 2, 3, 4, 6, 8]⟩] ∧ treeMeanWith (some (-1)) true T = .ok r ∧ r.leaves = [⟨[2, 1], [2, 6]⟩] := by
  obtain ⟨T, hT⟩ := list_tree [⟨[2, 3], [1, 2, 3, 4, 6, 8]⟩]
  obtain ⟨⟨r, h1, _, h2⟩, _⟩ := C55_statistics_axis (n := 1) (fun _ => 3) (fun _ => [2]) (fun _ => [])
    (fun _ i s _ => (if i.val = 0 then (![1, 2, 3] : Fin 3 → ℝ) else ![4, 6, 8]) s) T
    (by rw [hT]; simp [cubeArr, shapeSize, List.ofFn_succ]) (-1) (fun _ => .inr (by simp)) true 0 (by simp) (by simp)
  refine ⟨T, r, hT, h1, ?_⟩
  rw [h2]
  simp [reducedArr, shapeSize, List.ofFn_succ, average, Fin.sum_univ_succ]
  norm_num

/-- Two variables with three samples stored along the rows: the default `rowvar=True` reads them correctly. -/
example : ∃ T r : PyTree ℝ, T.leaves = [⟨[2, 3], [1, 2, 3, 2, 4, 6]⟩] ∧ treeCovWith (t := T) = .ok r ∧ r.leaves = [⟨[2, 2], [1, 2, 2, 4]⟩] := by
  obtain ⟨T, hT⟩ := list_tree [⟨[2, 3], [1, 2, 3, 2, 4, 6]⟩]
  obtain ⟨r, h1, _, h2⟩ := C55_covariance_keywords (n := 1) (S := fun _ => 3) (c := fun _ => 2) true false none
    (fun _ => ⟨[2, 3], [1, 2, 3, 2, 4, 6]⟩) (fun _ s k => ((s.val : ℝ) + 1) * (k.val + 1))
    (fun _ => by
      left
      simp [List.ofFn_succ]
      norm_num) T (by rw [hT]; simp) 1 (by simp) (by norm_num)
  refine ⟨T, r, hT, h1, ?_⟩
  rw [h2]
  simp [covArrOf, denseArr, List.ofFn_succ, ensCov, ensMean, Fin.sum_univ_succ]
  norm_num

end Laplax.Props
