import Verif.Lib.TreeStatsLemmas

/-! # C55: statistics, slices, block products and comparison of pytrees -/

namespace Laplax.Props
open Laplax Laplax.Spec
open scoped BigOperators Matrix

/-! ### Statistics over an ensemble of pytrees -/

/-- `mean`, `var` and `std` with `axis=0` of a stacked ensemble of pytrees return a pytree of the members' layout holding, entry by
entry, the average, the (population) variance and its root of the members' entries. -/
theorem C55_ensemble_statistics {P : ℕ} (L : PyTree ℝ) (ts : List (PyTree ℝ)) (x : Fin ts.length → Fin P → ℝ)
    (h : TreeEnsemble L ts x) (T : PyTree ℝ) (hT : StackedTree L ts T) :
    (∃ r, treeMean T = .ok r ∧ SameLayout r L ∧ WFTree r ∧ entries r = List.ofFn (ensMean x)) ∧
    (∃ r, treeVar T = .ok r ∧ SameLayout r L ∧ WFTree r ∧ entries r = List.ofFn fun k => ensCov x 0 k k) ∧
    (∃ r, treeStd T = .ok r ∧ SameLayout r L ∧ WFTree r ∧ entries r = List.ofFn fun k => Real.sqrt (ensCov x 0 k k)) := by
  refine ⟨?_, ?_, ?_⟩
  · obtain ⟨r, h1, h2, h3, h4⟩ := tmap_colStat listMean h T hT
    refine ⟨r, by rw [treeMean, meanAxis0_colStat]; exact h1, h2, h3, ?_⟩
    rw [h4]; simp only [listMean_ofFn]; rfl
  · obtain ⟨r, h1, h2, h3, h4⟩ := tmap_colStat (fun c => listCov c c 0) h T hT
    refine ⟨r, by rw [treeVar, varAxis0_colStat]; exact h1, h2, h3, ?_⟩
    rw [h4]; simp only [listCov_ofFn]; rfl
  · obtain ⟨r, h1, h2, h3, h4⟩ := tmap_colStat (fun c => Real.sqrt (listCov c c 0)) h T hT
    refine ⟨r, by rw [treeStd, stdAxis0_colStat]; exact h1, h2, h3, ?_⟩
    rw [h4]; simp only [listCov_ofFn]; rfl

/-- A pytree with a 0-D leaf has no leading axis: the statistics raise. -/
theorem C55_scalar_leaf_raises (T : PyTree ℝ) (a : Arr ℝ) (ha : a ∈ T.leaves) (h0 : a.shape = []) :
    Raises (treeMean T) ∧ Raises (treeVar T) ∧ Raises (treeStd T) ∧ ∀ lo hi, Raises (treeSlice T lo hi) := by
  have key : ∀ f : Arr ℝ → Except Err (Arr ℝ), Raises (f a) → Raises (Tree.tmap f T) := by
    intro f ⟨e, hf⟩
    cases h : Tree.tmap f T with
    | error e => exact ⟨e, rfl⟩
    | ok u =>
      obtain ⟨_, h2⟩ := (tmap_ok_iff _ _ _).1 h
      obtain ⟨i, hi, rfl⟩ := List.getElem_of_mem ha
      have := (List.forall₂_iff_get.1 h2).2 i hi (by rw [← h2.length_eq]; exact hi)
      rw [List.get_eq_getElem, hf] at this; cases this
  obtain ⟨sh, d⟩ := a
  simp only at h0; subst h0
  exact ⟨key _ ⟨_, rfl⟩, key _ ⟨_, rfl⟩, key _ ⟨_, rfl⟩, fun lo hi => key _ ⟨_, rfl⟩⟩

/-- `cov(tree, rowvar=False)` returns for every leaf (of samples of a number or a vector) the sample covariance of its entries, with
the `n - 1` normalisation. -/
theorem C55_ensemble_covariance {S n : ℕ} {s : Fin n → ℕ} (sh : Fin n → List ℕ) (hsh : ∀ j, shapeSize (sh j) = s j)
    (h1 : ∀ j, (sh j).length ≤ 1) (_ : 2 ≤ S) (y : ∀ j, Fin S → Fin (s j) → ℝ) (T : PyTree ℝ)
    (hT : T.leaves = List.ofFn fun j => ensArr (sh j) (y j)) :
    ∃ r, treeCov T = .ok r ∧ r.treedef = T.treedef ∧ r.leaves = List.ofFn fun j => covArrOf (ensCov (y j) 1) := by
  have hleaf : ∀ (sh : List ℕ) (c : ℕ) (_ : shapeSize sh = c) (_ : sh.length ≤ 1) (y : Fin S → Fin c → ℝ),
      covLeaf (ensArr sh y) = .ok (covArrOf (ensCov y 1)) := by
    intro sh c hc hl y
    subst hc
    have hcov : covLeaf (ensArr sh y) = covAxis0 (ensArr sh y) := by
      match sh, hl with
      | [], _ => rfl
      | [m], _ => rfl
    rw [hcov, covAxis0_ens]; rfl
  obtain ⟨r, hr⟩ := Tree.unflatten_isOk T.treedef (List.ofFn fun j => covArrOf (ensCov (y j) 1))
    (by rw [Tree.length_leaves_treedef, hT]; simp)
  obtain ⟨hr1, hr2⟩ := (Tree.unflatten_ok_iff _ _ _).1 hr
  refine ⟨r, (tmap_ok_iff _ _ _).2 ⟨hr1, ?_⟩, hr1, hr2⟩
  rw [hT, hr2, List.forall₂_iff_get]
  refine ⟨by simp, fun i h1' h2' => ?_⟩
  simpa using hleaf _ _ (hsh ⟨i, by simpa using h1'⟩) (h1 _) (y _)

/-- `cov(tree, rowvar=False)` raises `ValueError` on a pytree (without 0-D leaves) some leaf of which has more than two axes, so samples
of matrix-valued parameters have no covariance. -/
theorem C55_covariance_rejects (T : PyTree ℝ) (h0 : ∀ a ∈ T.leaves, a.shape ≠ []) (a : Arr ℝ) (ha : a ∈ T.leaves) (h3 : 2 < a.shape.length) :
    treeCov T = .error .valueError := by
  have key : ∀ l : List (Arr ℝ), (∀ b ∈ l, b.shape ≠ []) → a ∈ l → mapE covLeaf l = .error .valueError := by
    intro l
    induction l with
    | nil => intro _ h; simp at h
    | cons b l ih =>
      intro hl hm
      have hb : (∃ r, covLeaf b = .ok r) ∨ covLeaf b = .error .valueError := by
        obtain ⟨sh, d⟩ := b
        match sh, hl ⟨sh, d⟩ (by simp) with
        | [n], _ => exact .inl ⟨_, rfl⟩
        | [n, m], _ => exact .inl ⟨_, rfl⟩
        | n :: m :: k :: sh, _ => exact .inr rfl
      have ha' : covLeaf a = .error .valueError := by
        obtain ⟨sh, d⟩ := a
        match sh, h3 with
        | n :: m :: k :: sh, _ => rfl
      rcases hb with ⟨r, hr⟩ | hr
      · rcases List.mem_cons.1 hm with rfl | hm
        · rw [ha'] at hr; cases hr
        · simp only [mapE, hr, ok_bind, ih (fun b hb => hl b (by simp [hb])) hm, error_bind]
      · simp only [mapE, hr, error_bind]
  simp only [treeCov, Tree.tmap, key T.leaves h0 ha, error_bind]

/-- `C55_covariance_rejects` applies to three samples of a `2 × 2` matrix beside three samples of a number. -/
example : treeCov (.node "tuple" [.leaf ⟨[3], [1, 2, 3]⟩, .leaf ⟨[3, 2, 2], [1, 2, 3, 4, 5, 6, 7, 8, 9, 10, 11, 12]⟩]) = .error .valueError :=
  C55_covariance_rejects _ (by simp [Tree.leaves, Tree.leavesL]) ⟨[3, 2, 2], [1, 2, 3, 4, 5, 6, 7, 8, 9, 10, 11, 12]⟩
    (by simp [Tree.leaves, Tree.leavesL]) (by norm_num)

/-- `tree_slice(tree, a, b)` of a stacked ensemble is the stack of the members `a, …, b - 1` (clamped as python's slices are), in
order. -/
theorem C55_slice {P : ℕ} (L : PyTree ℝ) (ts : List (PyTree ℝ)) (x : Fin ts.length → Fin P → ℝ) (h : TreeEnsemble L ts x)
    (T : PyTree ℝ) (hT : StackedTree L ts T) (lo hi : ℕ) :
    ∃ r, treeSlice T lo hi = .ok r ∧ StackedTree L ((ts.take hi).drop lo) r := by
  obtain ⟨hTd, hTl, hTj⟩ := hT
  obtain ⟨r, hr⟩ := Tree.unflatten_isOk T.treedef ((L.leaves.zipIdx).map fun lj =>
    (⟨((ts.take hi).drop lo).length :: lj.1.shape,
      (((ts.take hi).drop lo).map fun t => (t.leaves.getD lj.2 ⟨[], []⟩).data).flatten⟩ : Arr ℝ))
    (by rw [Tree.length_leaves_treedef, hTl]; simp)
  obtain ⟨hr1, hr2⟩ := (Tree.unflatten_ok_iff _ _ _).1 hr
  have hrj : ∀ (j : ℕ) (l : Arr ℝ), L.leaves[j]? = some l → r.leaves[j]? = some ⟨((ts.take hi).drop lo).length :: l.shape,
      (((ts.take hi).drop lo).map fun t => (t.leaves.getD j ⟨[], []⟩).data).flatten⟩ := by
    intro j l hl
    rw [hr2, List.getElem?_map, List.getElem?_zipIdx, hl]; simp
  refine ⟨r, (tmap_ok_iff _ _ _).2 ⟨hr1, ?_⟩, hr1.trans hTd, by rw [hr2]; simp, hrj⟩
  rw [List.forall₂_iff_get]
  refine ⟨by rw [hr2, hTl]; simp, fun j h1 h2 => ?_⟩
  have hj : j < L.leaves.length := by omega
  have hl : L.leaves[j]? = some L.leaves[j] := List.getElem?_eq_getElem hj
  have e1 := hTj j _ hl
  rw [List.getElem?_eq_getElem h1] at e1
  have e2 := hrj j _ hl
  rw [List.getElem?_eq_getElem h2] at e2
  rw [List.get_eq_getElem, List.get_eq_getElem, Option.some.inj e1, Option.some.inj e2]
  have := slice_stack (ts.map fun t => (t.leaves.getD j ⟨[], []⟩).data) L.leaves[j].shape (by
    intro d hd
    obtain ⟨t, ht, rfl⟩ := List.mem_map.1 hd
    obtain ⟨a, ha, _, h3⟩ := h.leaf t ht j _ hl
    simp only [List.getD_eq_getElem?_getD, ha, Option.getD_some, h3]) lo hi
  rw [← List.map_take, ← List.map_drop, List.length_map, List.length_map] at this
  exact this

/-! ### Roots and inverses -/

/-- `sqrt` acts entry by entry; for non-negative entries its square is the input. -/
theorem C55_sqrt (t : PyTree ℝ) (ht : WFTree t) :
    ∃ r, treeSqrt t = .ok r ∧ SameLayout r t ∧ WFTree r ∧ entries r = (entries t).map Real.sqrt ∧
      ((∀ y ∈ entries t, 0 ≤ y) → (entries r).map (fun y => y * y) = entries t ∧ ∀ y ∈ entries r, 0 ≤ y) := by
  obtain ⟨r, h1, h2, h3, h4⟩ := tmap_map1 Real.sqrt t ht
  refine ⟨r, h1, h2, h3, h4, fun hn => ⟨?_, ?_⟩⟩
  · rw [h4, List.map_map]
    conv_rhs => rw [← List.map_id (entries t)]
    apply List.map_congr_left
    intro y hy; exact Real.mul_self_sqrt (hn y hy)
  · rw [h4]; intro y hy
    obtain ⟨z, _, rfl⟩ := List.mem_map.1 hy
    exact Real.sqrt_nonneg z

/-- `invert` is no inverse: it raises on every pytree with a floating-point leaf (`jnp.invert` is the bitwise complement). -/
theorem C55_invert_raises (t : PyTree ℝ) (ht : t.leaves ≠ []) : treeInvert t = .error .typeError := by
  unfold treeInvert Tree.tmap
  cases h : t.leaves with
  | nil => exact absurd h ht
  | cons a l => rfl

/-! ### Block products -/

/-- `tree_matvec(tree, vector)`: if `tree` lists the blocks `B i j` of a matrix column by column (`i` the block column, `j` the block
row), the result is a pytree like `vector` holding the product of the matrix with the concatenated vector, block row by block row. -/
theorem C55_tree_matvec {n : ℕ} {s : Fin n → ℕ} (hn : 0 < n) (hs : ∀ j, 0 < s j) (tree vector : PyTree ℝ)
    (B : ∀ i j, Matrix (Fin (s j)) (Fin (s i)) ℝ) (hB : ColumnBlocks tree B)
    (v : ∀ j, Fin (s j) → ℝ) (hv : LeavesAre vector v) :
    ∃ r, treeMatvec tree vector = .ok r ∧ SameLayout r vector ∧ WFTree r ∧ LeavesAre r fun j => ∑ i, B i j *ᵥ v i := by
  obtain ⟨sh, hsh, hvl⟩ := hv
  obtain ⟨r, h1, h2, h3⟩ := treeMatvec_blocks hn hs tree vector B hB sh hsh v hvl
  refine ⟨r, h1, sameLayout_of h2 ?_, ?_, sh, hsh, h3⟩
  · rw [h3, hvl, List.map_ofFn, List.map_ofFn]; rfl
  · intro a ha
    rw [h3] at ha
    obtain ⟨j, rfl⟩ := (List.mem_ofFn' _ _).1 ha
    simp [Arr.WF, hsh]

theorem flatten_singles {n : ℕ} (f : Fin n → ℝ) : (List.ofFn fun r => [f r]).flatten = List.ofFn f := by
  have key : ∀ l : List ℝ, (l.map fun x => [x]).flatten = l := by
    intro l; induction l with
    | nil => rfl
    | cons a l ih => simp [ih]
  have := key (List.ofFn f)
  rw [List.map_ofFn] at this
  exact this

theorem mapE_raises_of_mem {β γ : Type} {f : β → Except Err γ} {xs : List β} {x : β} (hx : x ∈ xs) (h : Raises (f x)) : Raises (mapE f xs) := by
  obtain ⟨e, he⟩ := h
  cases hm : mapE f xs with
  | error e => exact ⟨e, rfl⟩
  | ok ys =>
    obtain ⟨i, hi, rfl⟩ := List.getElem_of_mem hx
    have h2 := (mapE_ok_iff _ _ _).1 hm
    have := (List.forall₂_iff_get.1 h2).2 i hi (by rw [← h2.length_eq]; exact hi)
    rw [List.get_eq_getElem, he] at this; cases this

theorem raises_bind_left {β γ : Type} {x : Except Err β} {f : β → Except Err γ} (h : Raises x) : Raises (x >>= f) := by
  obtain ⟨e, rfl⟩ := h; exact ⟨e, rfl⟩

theorem forall₂_append_iff {β : Type} {R : β → β → Prop} {a b c d : List β} (h : a.length = b.length) :
    List.Forall₂ R (a ++ c) (b ++ d) ↔ List.Forall₂ R a b ∧ List.Forall₂ R c d := by
  induction a generalizing b with
  | nil => cases b with
    | nil => simp
    | cons y b => simp at h
  | cons x a ih => cases b with
    | nil => simp at h
    | cons y b => simp [ih (by simpa using h), and_assoc]

theorem list_tree (ls : List (Arr ℝ)) : ∃ t : PyTree ℝ, t.leaves = ls := by
  refine ⟨.node "list" (ls.map .leaf), ?_⟩
  rw [Tree.leaves]
  induction ls with
  | nil => rfl
  | cons a l ih => rw [List.map_cons, Tree.leavesL, Tree.leaves, ih]; rfl

theorem rowMajor_transpose {m n : ℕ} (M : Matrix (Fin m) (Fin n) ℝ) (h : m = 1 ∨ n = 1) : rowMajor Mᵀ = rowMajor M := by
  rcases h with rfl | rfl
  · simp only [rowMajor, List.ofFn_succ, List.ofFn_zero, Matrix.transpose_apply]
    rw [List.flatten_cons, List.flatten_nil, List.append_nil]
    exact flatten_singles fun c => M 0 c
  · simp only [rowMajor, List.ofFn_succ, List.ofFn_zero, Matrix.transpose_apply]
    rw [List.flatten_cons, List.flatten_nil, List.append_nil]
    exact (flatten_singles fun c => M c 0).symm

/-- The `n × m` matrix with the same row-major data as an `m × n` matrix. -/
def reread {m n : ℕ} (M : Matrix (Fin m) (Fin n) ℝ) : Matrix (Fin n) (Fin m) ℝ :=
  Matrix.of fun r c => (rowMajor M).getD (r.val * m + c.val) 0

theorem rowMajor_get {m n : ℕ} (M : Matrix (Fin m) (Fin n) ℝ) (r : Fin m) (c : Fin n) : (rowMajor M)[r.val * n + c.val]? = some (M r c) := by
  unfold rowMajor
  rw [flatten_get _ n (by intro d hd; obtain ⟨i, rfl⟩ := (List.mem_ofFn' _ _).1 hd; simp) r.val c.val (by simp) c.isLt]
  simp

theorem rowMajor_reread {m n : ℕ} (M : Matrix (Fin m) (Fin n) ℝ) : rowMajor (reread M) = rowMajor M := by
  apply List.ext_getElem?
  intro k
  by_cases hk : k < m * n
  · have hm : 0 < m := Nat.pos_of_ne_zero fun h => by subst h; simp at hk
    have hr : k / m < n := Nat.div_lt_of_lt_mul hk
    have hc : k % m < m := Nat.mod_lt _ hm
    have h1 := rowMajor_get (reread M) ⟨k / m, hr⟩ ⟨k % m, hc⟩
    simp only [Nat.div_add_mod'] at h1
    rw [h1]
    show some ((rowMajor M).getD (k / m * m + k % m) 0) = _
    rw [Nat.div_add_mod', List.getD_eq_getElem?_getD, List.getElem?_eq_getElem (by rw [length_rowMajor]; exact hk)]
    rfl
  · rw [List.getElem?_eq_none (by rw [length_rowMajor, Nat.mul_comm]; omega), List.getElem?_eq_none (by rw [length_rowMajor]; omega)]

/-- On the pytree of second derivatives of a function (the layout `jax.hessian` returns) `tree_matvec` is the Hessian-vector product for
every symmetric Hessian and every vector exactly if of any two different leaves at least one holds a single number: otherwise the
off-diagonal blocks are re-read in the wrong shape instead of being transposed. -/
theorem C55_hessian_product_iff {n : ℕ} {s : Fin n → ℕ} (hn : 0 < n) (hs : ∀ j, 0 < s j) :
    (∀ (tree vector : PyTree ℝ) (H : ∀ i j, Matrix (Fin (s i)) (Fin (s j)) ℝ) (v : ∀ j, Fin (s j) → ℝ), HessianTree tree H →
      (∀ i j, H j i = (H i j)ᵀ) → LeavesAre vector v →
      ∃ r, treeMatvec tree vector = .ok r ∧ SameLayout r vector ∧ LeavesAre r fun i => ∑ j, H i j *ᵥ v j) ↔
      ∀ i j, i ≠ j → s i = 1 ∨ s j = 1 := by
  constructor
  · intro h i j hij
    by_contra hc
    have hi : 2 ≤ s i := by have := hs i; omega
    have hj : 2 ≤ s j := by have := hs j; omega
    -- a single unit entry in block `(i, j)`, mirrored in block `(j, i)`
    obtain ⟨H, hH⟩ : ∃ H : ∀ k l, Matrix (Fin (s k)) (Fin (s l)) ℝ, H = fun k l => Matrix.of fun r c =>
        if (k = i ∧ l = j ∧ r.val = 0 ∧ c.val = 1) ∨ (k = j ∧ l = i ∧ r.val = 1 ∧ c.val = 0) then 1 else 0 := ⟨_, rfl⟩
    have hHe : ∀ k l r c, H k l r c = if (k = i ∧ l = j ∧ r.val = 0 ∧ c.val = 1) ∨ (k = j ∧ l = i ∧ r.val = 1 ∧ c.val = 0) then 1 else 0 := by
      intro k l r c; rw [hH]; rfl
    have hsymm : ∀ k l, H l k = (H k l)ᵀ := by
      intro k l; ext r c
      rw [Matrix.transpose_apply, hHe, hHe]
      congr 1
      apply propext
      constructor <;> rintro (⟨a, b, c, d⟩ | ⟨a, b, c, d⟩) <;> simp [a, b, c, d]
    obtain ⟨v, hv⟩ : ∃ v : ∀ k, Fin (s k) → ℝ, v = fun k c => if k = i ∧ c.val = 0 then 1 else 0 := ⟨_, rfl⟩
    obtain ⟨vector, hvec⟩ : ∃ t : PyTree ℝ, t.leaves = List.ofFn fun j => ⟨[s j], List.ofFn (v j)⟩ := list_tree _
    have hone : ∀ m : ℕ, shapeSize [m] = m := by intro m; simp [shapeSize]
    have hva : LeavesAre vector v := ⟨fun j => [s j], fun j => hone _, hvec⟩
    obtain ⟨tree, htree⟩ : ∃ t : PyTree ℝ, HessianTree t H := by
      obtain ⟨t, ht⟩ := list_tree (((List.ofFn fun k => List.ofFn fun l => rowMajor (H k l)).flatten).map fun d => ⟨[d.length], d⟩)
      refine ⟨t, ?_⟩
      unfold HessianTree
      rw [ht, List.map_map]
      simp [Function.comp_def]
    obtain ⟨r, hr, _, sh', _, hr'⟩ := h tree vector H v htree hsymm hva
    obtain ⟨r2, hr2, _, _, sh2, _, hr2'⟩ := C55_tree_matvec hn hs tree vector (fun k l => reread (H k l)) (by
      unfold ColumnBlocks; rw [htree]; simp only [rowMajor_reread]) v hva
    rw [hr] at hr2
    have : r = r2 := by simpa using hr2
    subst this
    rw [hr'] at hr2'
    have hj' := congrArg (fun l => (l[j.val]?).map Arr.data) hr2'
    simp only [List.getElem?_ofFn, Fin.is_lt, dite_true, Option.map_some, Fin.eta, Option.some.injEq] at hj'
    have hj'' := congrFun (List.ofFn_injective hj') ⟨1, hj⟩
    rw [Finset.sum_apply, Finset.sum_apply, Finset.sum_eq_single i, Finset.sum_eq_single i] at hj''
    · rw [Matrix.mulVec, dotProduct, Finset.sum_eq_single ⟨0, by omega⟩, Matrix.mulVec, dotProduct, Finset.sum_eq_single ⟨0, by omega⟩] at hj''
      · rw [hHe] at hj''
        have h0 : reread (H i j) ⟨1, hj⟩ ⟨0, by omega⟩ = 0 := by
          show (rowMajor (H i j)).getD (1 * s i + 0) 0 = 0
          rw [List.getD_eq_getElem?_getD]
          have hk : s i < s i * s j := by nlinarith
          have hd := rowMajor_get (H i j) ⟨s i / s j, Nat.div_lt_of_lt_mul (by rw [Nat.mul_comm]; exact hk)⟩ ⟨s i % s j, Nat.mod_lt _ (by omega)⟩
          simp only [Nat.div_add_mod'] at hd
          rw [show 1 * s i + 0 = s i by omega, hd, Option.getD_some, hHe, if_neg]
          rintro (⟨_, _, h3, h4⟩ | ⟨h1, _⟩)
          · simp only at h3 h4
            have := Nat.div_add_mod' (s i) (s j)
            rw [h3, h4] at this; omega
          · exact hij h1
        rw [h0] at hj''
        simp [hv] at hj''
      · intro b _ hb
        have : b.val ≠ 0 := fun h => hb (Fin.ext h)
        simp [hv, this]
      · intro h; exact absurd (Finset.mem_univ _) h
      · intro b _ hb
        have : b.val ≠ 0 := fun h => hb (Fin.ext h)
        simp [hv, this]
      · intro h; exact absurd (Finset.mem_univ _) h
    · intro k _ hk
      have : v k = 0 := by funext c; simp [hv, hk]
      rw [this, Matrix.mulVec_zero]; rfl
    · intro h; exact absurd (Finset.mem_univ _) h
    · intro k _ hk
      have : v k = 0 := by funext c; simp [hv, hk]
      rw [this, Matrix.mulVec_zero]; rfl
    · intro h; exact absurd (Finset.mem_univ _) h
  · intro hone tree vector H v hH hsymm hv
    obtain ⟨r, h1, h2, _, h4⟩ := C55_tree_matvec hn hs tree vector (fun i j => H j i) (by
      unfold ColumnBlocks
      rw [hH]
      congr 2; funext i; congr 1; funext j
      by_cases hij : i = j
      · subst hij; rfl
      · show rowMajor (H i j) = rowMajor (H j i)
        rw [hsymm i j, rowMajor_transpose _ (hone i j hij)]) v hv
    exact ⟨r, h1, h2, h4⟩

/-- `tree_matvec` looks at the first `n²` leaves of `tree` only (`n` the number of leaves of `vector`): leaves beyond them change
nothing, and with fewer leaves it raises. -/
theorem C55_tree_matvec_leaves (tree tree' vector : PyTree ℝ) :
    (tree.leaves.take (vector.leaves.length * vector.leaves.length) = tree'.leaves.take (vector.leaves.length * vector.leaves.length) →
      treeMatvec tree vector = treeMatvec tree' vector) ∧
    (tree.leaves.length < vector.leaves.length * vector.leaves.length → Raises (treeMatvec tree vector)) := by
  obtain ⟨n, hn⟩ : ∃ n, n = vector.leaves.length := ⟨_, rfl⟩
  have hlt : ∀ i j, i < n → j < n → i * n + j < n * n := by intro i j hi hj; nlinarith
  constructor
  · intro h
    unfold treeMatvec
    simp only [← hn] at h ⊢
    congr 1
    apply mapE_congr
    intro jv hjv
    have hj : jv.1 < n := List.mem_range.1 (List.of_mem_zip hjv).1
    congr 1
    apply mapE_congr
    intro i hi
    have hi : i < n := List.mem_range.1 hi
    have : tree.leaves[i * n + jv.1]? = tree'.leaves[i * n + jv.1]? := by
      have := congrArg (fun l => l[i * n + jv.1]?) h
      simpa [List.getElem?_take, hlt i jv.1 hi hj] using this
    rw [this]
  · intro h
    have hn0 : 0 < n := by
      apply Nat.pos_of_ne_zero; intro h0; rw [← hn, h0] at h; simp at h
    unfold treeMatvec
    simp only [← hn] at h ⊢
    obtain ⟨a, ha⟩ : ∃ a, vector.leaves[n - 1]? = some a := ⟨_, List.getElem?_eq_getElem (by omega)⟩
    have hmem : ((n - 1, a) : ℕ × Arr ℝ) ∈ (List.range n).zip vector.leaves := by
      rw [List.mem_iff_getElem?]
      refine ⟨n - 1, ?_⟩
      rw [List.getElem?_zip_eq_some]
      exact ⟨by rw [List.getElem?_range (by omega)], ha⟩
    refine raises_bind_left (mapE_raises_of_mem hmem ?_)
    refine raises_bind_left (mapE_raises_of_mem (x := n - 1) (by simp; omega) ?_)
    have : tree.leaves[(n - 1) * n + (n - 1)]? = none := by
      apply List.getElem?_eq_none
      have : (n - 1) * n + (n - 1) = n * n - 1 := by
        obtain ⟨m, rfl⟩ : ∃ m, n = m + 1 := ⟨n - 1, by omega⟩
        simp only [Nat.add_sub_cancel]; ring_nf; omega
      omega
    simp only [this]
    exact ⟨_, rfl⟩

/-- `tree_partialmatvec(tree, v)` contracts the last axis of every leaf with `v`: a leaf holding the rows of `M` becomes `M v`. -/
theorem C55_tree_partialmatvec {n K : ℕ} {s : Fin n → ℕ} (sh : Fin n → List ℕ) (hsh : ∀ j, shapeSize (sh j) = s j)
    (M : ∀ j, Matrix (Fin (s j)) (Fin K) ℝ) (tree : PyTree ℝ) (ht : tree.leaves = List.ofFn fun j => ⟨sh j ++ [K], rowMajor (M j)⟩)
    (w : Fin K → ℝ) :
    ∃ r, treePartialmatvec tree (List.ofFn w) = .ok r ∧ r.treedef = tree.treedef ∧
      r.leaves = List.ofFn fun j => ⟨sh j, List.ofFn (M j *ᵥ w)⟩ := by
  obtain ⟨r, hr⟩ := Tree.unflatten_isOk tree.treedef (List.ofFn fun j => (⟨sh j, List.ofFn (M j *ᵥ w)⟩ : Arr ℝ))
    (by rw [Tree.length_leaves_treedef, ht]; simp)
  obtain ⟨hr1, hr2⟩ := (Tree.unflatten_ok_iff _ _ _).1 hr
  refine ⟨r, (tmap_ok_iff _ _ _).2 ⟨hr1, ?_⟩, hr1, hr2⟩
  rw [ht, hr2, List.forall₂_iff_get]
  refine ⟨by simp, fun i h1 h2 => ?_⟩
  have hi : i < n := by simpa using h1
  simp only [List.get_eq_getElem, List.getElem_ofFn]
  simp only [Arr.matmulVec, List.getLast?_append, List.getLast?_singleton, Option.some_or, matmulLast, List.length_ofFn, if_true,
    List.dropLast_concat]
  rw [hsh, range_eq_ofFn, List.map_ofFn]
  congr 3; funext r
  simp only [Function.comp_def]
  rw [rowMajor_row, zipWith_ofFn_sum]
  rfl

/-- A leaf whose last axis has another length than the vector, or no axis at all, makes `tree_partialmatvec` raise. -/
theorem C55_tree_partialmatvec_raises (tree : PyTree ℝ) (v : List ℝ) (a : Arr ℝ) (ha : a ∈ tree.leaves)
    (h : a.shape.getLast? ≠ some v.length) : Raises (treePartialmatvec tree v) := by
  unfold treePartialmatvec Tree.tmap
  refine raises_bind_left (mapE_raises_of_mem ha ?_)
  unfold Arr.matmulVec
  cases hl : a.shape.getLast? with
  | none => exact ⟨_, rfl⟩
  | some k =>
    have : k ≠ v.length := fun e => h (by rw [hl, e])
    simp only [matmulLast, if_neg this]
    exact ⟨_, rfl⟩

/-! ### Comparison -/

/-- `allclose(t1, t2)` of pytrees of equal layout is true exactly if all pairs of entries are close, and raises on pytrees of different
structure. -/
theorem C55_allclose (t1 t2 : PyTree ℝ) :
    (SameLayout t1 t2 → WFTree t1 → WFTree t2 →
      ∃ b, treeAllclose t1 t2 = .ok b ∧ (b = true ↔ List.Forall₂ Close (entries t1) (entries t2))) ∧
    (t1.treedef ≠ t2.treedef → Raises (treeAllclose t1 t2)) := by
  constructor
  · intro hlay hw1 hw2
    have hlen : t1.leaves.length = t2.leaves.length := by simpa using congrArg List.length hlay.shapes
    obtain ⟨bs, hbs⟩ : ∃ bs : List Bool, bs = List.zipWith (fun a b : Arr ℝ =>
      (List.zipWith (fun x y => @decide (|x - y| ≤ 1 / 10 ^ 8 + 1 / 10 ^ 5 * |y|) (Classical.propDecidable _)) a.data b.data).all id)
        t1.leaves t2.leaves := ⟨_, rfl⟩
    obtain ⟨u, hu⟩ := Tree.unflatten_isOk t1.treedef bs (by rw [Tree.length_leaves_treedef, hbs]; simp [hlen])
    obtain ⟨hu1, hu2⟩ := (Tree.unflatten_ok_iff _ _ _).1 hu
    have hmap : Tree.tmap2 jnpAllclose t1 t2 = .ok u := by
      rw [tmap2_ok_iff _ _ _ hlay.treedef]
      refine ⟨hu1, ?_⟩
      rw [hu2, hbs, List.forall₂_iff_get]
      refine ⟨by simp, fun i h1 h2 => ?_⟩
      have hi : i < t1.leaves.length := by simp at h1; omega
      have hsi := List.getElem_of_eq hlay.shapes (i := i) (by simpa using hi)
      simp only [List.getElem_map] at hsi
      simp only [List.get_eq_getElem, List.getElem_zip, List.getElem_zipWith, jnpAllclose, hsi, if_true]
    refine ⟨u.leaves.all id, by rw [treeAllclose, hmap]; rfl, ?_⟩
    rw [hu2, hbs]
    unfold entries
    have : ∀ as bs : List (Arr ℝ), as.map Arr.shape = bs.map Arr.shape → (∀ a ∈ as, a.WF) → (∀ b ∈ bs, b.WF) →
        ((List.zipWith (fun a b : Arr ℝ => (List.zipWith (fun x y => @decide (|x - y| ≤ 1 / 10 ^ 8 + 1 / 10 ^ 5 * |y|)
          (Classical.propDecidable _)) a.data b.data).all id) as bs).all id = true ↔
          List.Forall₂ Close (as.map Arr.data).flatten (bs.map Arr.data).flatten) := by
      intro as
      induction as with
      | nil => intro bs hs _ _; cases bs with
        | nil => simp
        | cons b bs => simp at hs
      | cons a as ih =>
        intro bs hs ha hb
        cases bs with
        | nil => simp at hs
        | cons b bs =>
          simp only [List.map_cons, List.cons.injEq] at hs
          have hl : a.data.length = b.data.length := by rw [ha a (by simp), hb b (by simp), hs.1]
          simp only [List.zipWith_cons_cons, List.all_cons, Bool.and_eq_true, List.map_cons, List.flatten_cons, id]
          rw [ih bs hs.2 (fun a h => ha a (by simp [h])) (fun b h => hb b (by simp [h])), forall₂_append_iff hl]
          refine and_congr_left fun _ => ?_
          rw [List.all_eq_true, List.forall₂_iff_get]
          constructor
          · intro h
            refine ⟨hl, fun i h1 h2 => ?_⟩
            have := h _ (List.getElem_mem (l := List.zipWith _ a.data b.data) (n := i) (by simp; omega))
            simpa [Close] using this
          · rintro ⟨_, h⟩ x hx
            obtain ⟨i, hi, rfl⟩ := List.getElem_of_mem hx
            simp only [List.length_zipWith] at hi
            have := h i (by omega) (by omega)
            simpa [Close] using this
    exact this _ _ hlay.shapes hw1 hw2
  · intro hne
    refine raises_bind_left ?_
    unfold Tree.tmap2
    rw [if_neg (by rw [Tree.defEq_iff]; exact hne)]
    exact ⟨_, rfl⟩

/-- The comparison is reflexive, but not symmetric: the tolerance is relative to the second argument. -/
theorem C55_allclose_order :
    (∀ t : PyTree ℝ, WFTree t → treeAllclose t t = .ok true) ∧
    ∃ t1 t2 : PyTree ℝ, SameLayout t1 t2 ∧ WFTree t1 ∧ WFTree t2 ∧ treeAllclose t1 t2 = .ok true ∧ treeAllclose t2 t1 = .ok false := by
  constructor
  · intro t ht
    obtain ⟨b, h1, h2⟩ := (C55_allclose t t).1 rfl ht ht
    rw [h1, h2.2]
    rw [List.forall₂_same]
    intro x _
    simp only [Close, sub_self, abs_zero]; positivity
  · have hw : ∀ y : ℝ, WFTree (.leaf ⟨[], [y]⟩ : PyTree ℝ) := by
      intro y a ha
      simp only [Tree.leaves, List.mem_singleton] at ha
      subst ha; rfl
    refine ⟨.leaf ⟨[], [99999]⟩, .leaf ⟨[], [100000]⟩, rfl, hw _, hw _, ?_, ?_⟩
    · obtain ⟨b, h1, h2⟩ := (C55_allclose (.leaf ⟨[], [99999]⟩) (.leaf ⟨[], [100000]⟩)).1 rfl (hw _) (hw _)
      rw [h1, h2.2]
      simp only [entries, Tree.leaves, List.map_cons, List.map_nil, List.flatten_cons, List.flatten_nil, List.append_nil]
      refine .cons ?_ .nil
      unfold Close; norm_num [abs_of_nonneg, abs_of_neg]
    · obtain ⟨b, h1, h2⟩ := (C55_allclose (.leaf ⟨[], [100000]⟩) (.leaf ⟨[], [99999]⟩)).1 rfl (hw _) (hw _)
      rw [h1]
      cases b with
      | false => rfl
      | true =>
        have := h2.1 rfl
        simp only [entries, Tree.leaves, List.map_cons, List.map_nil, List.flatten_cons, List.flatten_nil, List.append_nil,
          List.forall₂_cons, Close] at this
        norm_num [abs_of_nonneg] at this

/-! ### Concrete cases -/

/-- Two members with a matrix leaf and a number leaf, and their stack. -/
example : ∃ (L T : PyTree ℝ) (ts : List (PyTree ℝ)) (x : Fin ts.length → Fin 3 → ℝ), TreeEnsemble L ts x ∧ StackedTree L ts T ∧
    (∃ r, treeMean T = .ok r ∧ entries r = [2, 3, 5]) ∧ ∃ r, treeVar T = .ok r ∧ entries r = [1, 1, 4] := by
  obtain ⟨mk, hmk⟩ : ∃ mk : ℝ → ℝ → ℝ → PyTree ℝ, mk = fun a b c => .node "dict:b,w" [.leaf ⟨[1, 2], [a, b]⟩, .leaf ⟨[], [c]⟩] := ⟨_, rfl⟩
  have hw : ∀ a b c, WFTree (mk a b c) := by
    intro a b c l hl
    simp only [hmk, Tree.leaves, Tree.leavesL, List.append_nil, List.mem_append, List.mem_singleton] at hl
    rcases hl with rfl | rfl <;> rfl
  have hens : TreeEnsemble (P := 3) (mk 0 0 0) [mk 1 2 3, mk 3 4 7] (![![1, 2, 3], ![3, 4, 7]] : Fin 2 → Fin 3 → ℝ) := by
    refine ⟨?_, ?_, ?_, by simp⟩
    · intro t ht
      simp only [List.mem_cons, List.not_mem_nil, or_false] at ht
      rcases ht with rfl | rfl <;> simp [SameLayout, hmk, Tree.map, Tree.mapL]
    · intro t ht
      simp only [List.mem_cons, List.not_mem_nil, or_false] at ht
      rcases ht with rfl | rfl <;> exact hw _ _ _
    · intro i
      fin_cases i <;> simp [entries, hmk, Tree.leaves, Tree.leavesL]
  have hst : StackedTree (mk 0 0 0) [mk 1 2 3, mk 3 4 7] (.node "dict:b,w" [.leaf ⟨[2, 1, 2], [1, 2, 3, 4]⟩, .leaf ⟨[2], [3, 7]⟩]) := by
    refine ⟨by simp [hmk, Tree.treedef, Tree.map, Tree.mapL], by simp [hmk, Tree.leaves, Tree.leavesL], ?_⟩
    intro j l hl
    match j, hl with
    | 0, hl =>
      simp [hmk, Tree.leaves, Tree.leavesL] at hl
      subst hl; simp [hmk, Tree.leaves, Tree.leavesL]
    | 1, hl =>
      simp [hmk, Tree.leaves, Tree.leavesL] at hl
      subst hl; simp [hmk, Tree.leaves, Tree.leavesL]
    | j + 2, hl => simp [hmk, Tree.leaves, Tree.leavesL] at hl
  obtain ⟨⟨r, h1, _, _, h2⟩, ⟨r', h1', _, _, h2'⟩, _⟩ := C55_ensemble_statistics _ _ _ hens _ hst
  refine ⟨_, _, _, _, hens, hst, ⟨r, h1, ?_⟩, r', h1', ?_⟩
  · rw [h2]; simp [List.ofFn_succ, ensMean, Fin.sum_univ_succ]; norm_num
  · rw [h2']; simp [List.ofFn_succ, ensCov, ensMean, Fin.sum_univ_succ]; norm_num

/-- A 3×3 matrix in blocks of sizes 2 and 1. -/
example : ∃ (tree vector : PyTree ℝ) (s : Fin 2 → ℕ) (H : ∀ i j, Matrix (Fin (s i)) (Fin (s j)) ℝ) (v : ∀ j, Fin (s j) → ℝ),
    (∀ j, 0 < s j) ∧ HessianTree tree H ∧ (∀ i j, H j i = (H i j)ᵀ) ∧ LeavesAre vector v ∧ (∀ i j, i ≠ j → s i = 1 ∨ s j = 1) ∧
    H 0 1 ≠ 0 ∧ s 0 = 2 := by
  obtain ⟨t, ht⟩ := list_tree [⟨[2, 2], [1, 2, 2, 4]⟩, ⟨[2, 1], [3, 6]⟩, ⟨[1, 2], [3, 6]⟩, ⟨[1, 1], [9]⟩]
  obtain ⟨u, hu⟩ := list_tree [⟨[2], [1, 1]⟩, ⟨[1], [1]⟩]
  refine ⟨t, u, ![2, 1], fun i j => Matrix.of fun r c => (2 * (i.val : ℝ) + r.val + 1) * (2 * (j.val : ℝ) + c.val + 1), fun j _ => 1, ?_, ?_,
    ?_, ⟨fun j => [(![2, 1] : Fin 2 → ℕ) j], ?_, ?_⟩, ?_, ?_, rfl⟩
  · intro j; fin_cases j <;> simp
  · unfold HessianTree
    rw [ht]
    simp [rowMajor, List.ofFn_succ]
    norm_num
  · intro i j; ext r c
    show (_ : ℝ) = _
    exact mul_comm _ _
  · intro j; fin_cases j <;> simp [shapeSize]
  · rw [hu]; simp [List.ofFn_succ]
  · intro i j hij; fin_cases i <;> fin_cases j <;> simp at hij ⊢
  · intro h
    have : (2 * (((0 : Fin 2).val : ℕ) : ℝ) + ((0 : Fin 2).val : ℕ) + 1) * (2 * (((1 : Fin 2).val : ℕ) : ℝ) + ((0 : Fin 1).val : ℕ) + 1) = 0 :=
      congrFun (congrFun h (0 : Fin 2)) (0 : Fin 1)
    norm_num at this

end Laplax.Props
