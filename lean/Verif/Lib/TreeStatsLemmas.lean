import Verif.Model.TreeStats
import Verif.Spec.TreeStats
import Verif.Lib.PushforwardLemmas
import Verif.Lib.TreeLemmas5

/-! # Lemmas about pytree ensembles and block products -/

namespace Laplax
open Laplax.Spec
open scoped BigOperators Matrix

theorem flatten_get {β : Type} (ds : List (List β)) (n : ℕ) (h : ∀ d ∈ ds, d.length = n) (i j : ℕ) (hi : i < ds.length) (hj : j < n) :
    ds.flatten[i * n + j]? = ds[i][j]? := by
  induction ds generalizing i with
  | nil => simp at hi
  | cons d ds ih =>
    have hd := h d (by simp)
    cases i with
    | zero => simp [List.getElem?_append, hd, hj]
    | succ i =>
      rw [List.flatten_cons, List.getElem?_append_right (by rw [hd]; nlinarith)]
      rw [show (i + 1) * n + j - d.length = i * n + j by rw [hd, Nat.add_mul]; omega]
      simpa using ih (fun d hd => h d (by simp [hd])) i (by simpa using hi)

theorem length_rowMajor {m n : ℕ} (B : Matrix (Fin m) (Fin n) ℝ) : (rowMajor B).length = m * n := by
  simp [rowMajor, List.length_flatten, List.map_ofFn, Function.comp_def, List.sum_ofFn]

theorem rowMajor_row {m n : ℕ} (B : Matrix (Fin m) (Fin n) ℝ) (r : Fin m) :
    ((rowMajor B).drop (r.val * n)).take n = List.ofFn fun c => B r c := by
  unfold rowMajor
  rw [drop_take_flatten _ n (by intro d hd; obtain ⟨i, rfl⟩ := (List.mem_ofFn' _ _).1 hd; simp) r.val (by simp)]
  simp

/-- A product of concatenated segments is the sum of the segments' products. -/
theorem zipWith_flatten_sum {ι : Type} (l : List ι) (f g : ι → List ℝ) (h : ∀ i ∈ l, (f i).length = (g i).length) :
    (List.zipWith (· * ·) (l.map f).flatten (l.map g).flatten).sum = (l.map fun i => (List.zipWith (· * ·) (f i) (g i)).sum).sum := by
  induction l with
  | nil => simp
  | cons a l ih =>
    simp only [List.map_cons, List.flatten_cons, List.sum_cons]
    rw [List.zipWith_append (h a (by simp)), List.sum_append, ih fun i hi => h i (by simp [hi])]

theorem zipWith_ofFn_sum {n : ℕ} (f g : Fin n → ℝ) : (List.zipWith (· * ·) (List.ofFn f) (List.ofFn g)).sum = ∑ k, f k * g k := by
  have : List.zipWith (· * ·) (List.ofFn f) (List.ofFn g) = List.ofFn fun k => f k * g k := by
    apply List.ext_getElem
    · simp
    · intro i h1 h2; simp
  rw [this, List.sum_ofFn]

theorem mapE_ofFn' {β γ : Type} {n : ℕ} (f : β → Except Err γ) (g : Fin n → β) (r : Fin n → γ) (h : ∀ i, f (g i) = .ok (r i)) :
    mapE f (List.ofFn g) = .ok (List.ofFn r) := by
  rw [mapE_ok_iff]
  rw [List.forall₂_iff_get]
  refine ⟨by simp, fun i h1 h2 => ?_⟩
  simpa using h ⟨i, by simpa using h1⟩

theorem range_eq_ofFn (n : ℕ) : List.range n = List.ofFn fun i : Fin n => i.val := by
  apply List.ext_getElem <;> simp

/-- The row `j` of the block product. -/
theorem block_row {n : ℕ} {s : Fin n → ℕ} (sh : List ℕ) (j : Fin n) (hsh : shapeSize sh = s j) (hn : 0 < n)
    (B : ∀ i j, Matrix (Fin (s j)) (Fin (s i)) ℝ) (v : ∀ i, Fin (s i) → ℝ) :
    (do
      let c ← concatLast sh (List.ofFn fun i => (s i, rowMajor (B i j)))
      matmulLast sh c ((List.ofFn fun i => List.ofFn (v i)).flatten)) =
      .ok ⟨sh, List.ofFn (∑ i, B i j *ᵥ v i)⟩ := by
  have hne : ∃ a l, (List.ofFn fun i => ((s i, rowMajor (B i j)) : ℕ × List ℝ)) = a :: l := by
    cases h : (List.ofFn fun i => ((s i, rowMajor (B i j)) : ℕ × List ℝ)) with
    | nil => have := congrArg List.length h; simp at this; omega
    | cons a l => exact ⟨a, l, rfl⟩
  have hc : concatLast sh (List.ofFn fun i => (s i, rowMajor (B i j))) =
      .ok ((∑ i, s i), (List.ofFn fun r : Fin (s j) => (List.ofFn fun i => List.ofFn fun c => B i j r c).flatten).flatten) := by
    obtain ⟨a, l, hl⟩ := hne
    have : concatLast sh (List.ofFn fun i => (s i, rowMajor (B i j))) =
        .ok (((List.ofFn fun i => ((s i, rowMajor (B i j)) : ℕ × List ℝ)).map Prod.fst).sum,
          ((List.range (shapeSize sh)).map fun r => ((List.ofFn fun i => ((s i, rowMajor (B i j)) : ℕ × List ℝ)).map
            fun a => (a.2.drop (r * a.1)).take a.1).flatten).flatten) := by
      rw [hl]; rfl
    rw [this, hsh, range_eq_ofFn]
    simp only [List.map_ofFn, Function.comp_def, List.sum_ofFn, rowMajor_row]
  rw [hc, ok_bind, matmulLast]
  simp only
  have hlen : ((List.ofFn fun i => List.ofFn (v i)).flatten).length = ∑ i, s i := by
    simp [List.length_flatten, List.map_ofFn, Function.comp_def, List.sum_ofFn]
  rw [if_pos hlen.symm, hsh, range_eq_ofFn]
  refine congrArg (fun d => Except.ok (⟨sh, d⟩ : Arr ℝ)) ?_
  rw [List.map_ofFn]
  congr 1
  funext r
  simp only [Function.comp_def]
  rw [drop_take_flatten _ (∑ i, s i) (by
    intro d hd
    obtain ⟨i, rfl⟩ := (List.mem_ofFn' _ _).1 hd
    simp [List.length_flatten, List.map_ofFn, Function.comp_def, List.sum_ofFn]) r.val (by simp)]
  simp only [List.getElem_ofFn]
  have key := zipWith_flatten_sum (List.finRange n) (fun i => List.ofFn fun c => B i j r c) (fun i => List.ofFn (v i)) (by simp)
  rw [← List.ofFn_eq_map, ← List.ofFn_eq_map] at key
  rw [key]
  simp only [zipWith_ofFn_sum, ← List.ofFn_eq_map, List.sum_ofFn, Finset.sum_apply, Matrix.mulVec, dotProduct]

/-- The block product on trees. -/
theorem treeMatvec_blocks {n : ℕ} {s : Fin n → ℕ} (hn : 0 < n) (hs : ∀ j, 0 < s j) (tree vector : PyTree ℝ)
    (B : ∀ i j, Matrix (Fin (s j)) (Fin (s i)) ℝ) (hB : ColumnBlocks tree B) (sh : Fin n → List ℕ) (hsh : ∀ j, shapeSize (sh j) = s j)
    (v : ∀ j, Fin (s j) → ℝ) (hv : vector.leaves = List.ofFn fun j => ⟨sh j, List.ofFn (v j)⟩) :
    ∃ r, treeMatvec tree vector = .ok r ∧ r.treedef = vector.treedef ∧
      r.leaves = List.ofFn fun j => ⟨sh j, List.ofFn (∑ i, B i j *ᵥ v i)⟩ := by
  have hget : ∀ i j : Fin n, ∃ a : Arr ℝ, tree.leaves[i.val * n + j.val]? = some a ∧ a.data = rowMajor (B i j) := by
    intro i j
    have h1 : (tree.leaves.map Arr.data)[i.val * n + j.val]? = some (rowMajor (B i j)) := by
      rw [hB, flatten_get _ n (by intro d hd; obtain ⟨i, rfl⟩ := (List.mem_ofFn' _ _).1 hd; simp) i.val j.val (by simp) j.isLt]
      simp
    rw [List.getElem?_map] at h1
    cases h : tree.leaves[i.val * n + j.val]? with
    | none => rw [h] at h1; simp at h1
    | some a => rw [h] at h1; exact ⟨a, rfl, by simpa using h1⟩
  have hlen : vector.leaves.length = n := by rw [hv]; simp
  have hzip : (List.range n).zip vector.leaves = List.ofFn fun j : Fin n => (j.val, (⟨sh j, List.ofFn (v j)⟩ : Arr ℝ)) := by
    rw [hv, range_eq_ofFn]
    apply List.ext_getElem
    · simp
    · intro i h1 h2; simp
  have hflat : jnpConcatenate (vector.leaves.map Arr.data) = .ok ((List.ofFn fun i => List.ofFn (v i)).flatten) := by
    have : vector.leaves.map Arr.data = List.ofFn fun i => List.ofFn (v i) := by rw [hv, List.map_ofFn]; rfl
    rw [this]
    cases h : (List.ofFn fun i => List.ofFn (v i)) with
    | nil => have := congrArg List.length h; simp at this; omega
    | cons a l => rfl
  have hcl : ∀ j, ∃ c, concatLast (sh j) (List.ofFn fun i => (s i, rowMajor (B i j))) = .ok c := by
    intro j
    cases h : concatLast (sh j) (List.ofFn fun i => (s i, rowMajor (B i j))) with
    | ok c => exact ⟨c, rfl⟩
    | error e =>
      have := block_row (sh j) j (hsh j) hn B v
      rw [h] at this; cases this
  choose c hc using hcl
  have hrows : mapE (fun jv : ℕ × Arr ℝ => do
      let blocks ← mapE (fun i => match tree.leaves[i * n + jv.1]? with
        | none => .error .indexError
        | some a => reshapeTail jv.2.shape a) (List.range n)
      let c ← concatLast jv.2.shape blocks
      return (jv.2.shape, c)) (List.ofFn fun j : Fin n => (j.val, (⟨sh j, List.ofFn (v j)⟩ : Arr ℝ))) =
      .ok (List.ofFn fun j => (sh j, c j)) := by
    refine mapE_ofFn' _ _ _ fun j => ?_
    have hb : mapE (fun i => match tree.leaves[i * n + j.val]? with
        | none => .error .indexError
        | some a => reshapeTail (sh j) a) (List.range n) = .ok (List.ofFn fun i => (s i, rowMajor (B i j))) := by
      rw [range_eq_ofFn]
      refine mapE_ofFn' _ _ _ fun i => ?_
      obtain ⟨a, h1, h2⟩ := hget i j
      rw [h1]
      have hsj := hs j
      simp only [reshapeTail, hsh, h2, length_rowMajor]
      rw [if_neg (by omega), if_pos (Nat.mul_mod_right _ _), Nat.mul_div_cancel_left _ hsj]
    simp only [hb, ok_bind, hc]
    rfl
  have houts : mapE (fun r : List ℕ × (ℕ × List ℝ) => matmulLast r.1 r.2 ((List.ofFn fun i => List.ofFn (v i)).flatten))
      (List.ofFn fun j => (sh j, c j)) = .ok (List.ofFn fun j => ⟨sh j, List.ofFn (∑ i, B i j *ᵥ v i)⟩) := by
    refine mapE_ofFn' _ _ _ fun j => ?_
    have := block_row (sh j) j (hsh j) hn B v
    rw [hc, ok_bind] at this
    exact this
  obtain ⟨r, hr⟩ := Tree.unflatten_isOk vector.treedef (List.ofFn fun j => (⟨sh j, List.ofFn (∑ i, B i j *ᵥ v i)⟩ : Arr ℝ))
    (by rw [Tree.length_leaves_treedef, hlen]; simp)
  refine ⟨r, ?_, ((Tree.unflatten_ok_iff _ _ _).1 hr).1, ((Tree.unflatten_ok_iff _ _ _).1 hr).2⟩
  simp only [treeMatvec, hlen, hzip]
  erw [hrows]
  rw [ok_bind, hflat, ok_bind, houts, ok_bind]
  exact hr

/-! ### Ensembles -/

/-- A statistic of the columns of concatenated members is the concatenation of the statistics. -/
theorem cols_flatten {ι : Type} (φ : (ι → ℝ) → ℝ) (Ls : List (ℕ × (ι → List ℝ))) (h : ∀ l ∈ Ls, ∀ i, (l.2 i).length = l.1) :
    (Ls.map fun l => (List.range l.1).map fun k => φ fun i => (l.2 i).getD k 0).flatten =
      (List.range (Ls.map Prod.fst).sum).map fun k => φ fun i => ((Ls.map fun l => l.2 i).flatten).getD k 0 := by
  induction Ls with
  | nil => simp
  | cons l Ls ih =>
    rw [List.map_cons, List.flatten_cons, ih fun l' hl' => h l' (by simp [hl'])]
    simp only [List.map_cons, List.sum_cons, List.flatten_cons]
    rw [List.range_add, List.map_append, List.map_map]
    congr 1
    · apply List.map_congr_left
      intro k hk
      have hk : k < l.1 := List.mem_range.1 hk
      congr 1; funext i
      simp only [List.getD_eq_getElem?_getD]
      rw [List.getElem?_append_left (by rw [h l (by simp)]; exact hk)]
    · apply List.map_congr_left
      intro k hk
      simp only [Function.comp]
      congr 1; funext i
      simp only [List.getD_eq_getElem?_getD]
      rw [List.getElem?_append_right (by rw [h l (by simp)]; omega), h l (by simp)]
      simp

/-- A column statistic of the leading axis. -/
def colStat (φ : List ℝ → ℝ) (a : Arr ℝ) : Except Err (Arr ℝ) :=
  match a.shape with
  | [] => .error .valueError
  | S :: sh => .ok ⟨sh, (List.range (shapeSize sh)).map fun j => φ (colAxis0 a S (shapeSize sh) j)⟩

theorem meanAxis0_colStat : meanAxis0 = colStat listMean := by
  funext a; obtain ⟨sh, d⟩ := a; cases sh <;> rfl

theorem varAxis0_colStat : varAxis0 = colStat fun c => listCov c c 0 := by
  funext a; obtain ⟨sh, d⟩ := a; cases sh <;> rfl

theorem stdAxis0_colStat : stdAxis0 = colStat fun c => Real.sqrt (listCov c c 0) := by
  funext a; obtain ⟨sh, d⟩ := a
  cases sh with
  | nil => rfl
  | cons S sh => simp [stdAxis0, varAxis0, colStat, ok_bind, Arr.map1, pure, Except.pure, Function.comp_def]

theorem _root_.Laplax.Spec.TreeEnsemble.leaf {P : ℕ} {L : PyTree ℝ} {ts : List (PyTree ℝ)} {x : Fin ts.length → Fin P → ℝ}
    (h : TreeEnsemble L ts x) (t : PyTree ℝ) (ht : t ∈ ts) (j : ℕ) (l : Arr ℝ) (hl : L.leaves[j]? = some l) :
    ∃ a, t.leaves[j]? = some a ∧ a.shape = l.shape ∧ a.data.length = shapeSize l.shape := by
  have hs := congrArg (fun l => l[j]?) (h.layout t ht).shapes
  simp only [List.getElem?_map, hl, Option.map_some] at hs
  cases ha : t.leaves[j]? with
  | none => rw [ha] at hs; simp at hs
  | some a =>
    rw [ha] at hs
    have hs : a.shape = l.shape := by simpa using hs
    refine ⟨a, rfl, hs, ?_⟩
    rw [← hs]; exact h.wf t ht a (List.mem_of_getElem? ha)

/-- Every leafwise column statistic of a stacked ensemble is the statistic of the members' entries. -/
theorem tmap_colStat {P : ℕ} {L : PyTree ℝ} {ts : List (PyTree ℝ)} {x : Fin ts.length → Fin P → ℝ} (φ : List ℝ → ℝ)
    (h : TreeEnsemble L ts x) (T : PyTree ℝ) (hT : StackedTree L ts T) :
    ∃ r, Tree.tmap (colStat φ) T = .ok r ∧ SameLayout r L ∧ WFTree r ∧
      entries r = List.ofFn fun k => φ (List.ofFn fun i => x i k) := by
  obtain ⟨hTd, hTl, hTj⟩ := hT
  -- the data of leaf `j` of member `i`
  obtain ⟨D, hD⟩ : ∃ D : ℕ → Fin ts.length → List ℝ, D = fun j i => (ts[i].leaves.getD j ⟨[], []⟩).data := ⟨_, rfl⟩
  have hDlen : ∀ (j : ℕ) (l : Arr ℝ), L.leaves[j]? = some l → ∀ i, (D j i).length = shapeSize l.shape := by
    intro j l hl i
    obtain ⟨a, ha, _, h3⟩ := h.leaf ts[i] (List.getElem_mem _) j l hl
    simp only [hD, List.getD_eq_getElem?_getD, ha, Option.getD_some, h3]
  have hcol : ∀ (j : ℕ) (l : Arr ℝ), L.leaves[j]? = some l → ∀ k < shapeSize l.shape,
      colAxis0 ⟨ts.length :: l.shape, (ts.map fun t => (t.leaves.getD j ⟨[], []⟩).data).flatten⟩ ts.length (shapeSize l.shape) k =
        List.ofFn fun i => (D j i).getD k 0 := by
    intro j l hl k hk
    rw [colAxis0, range_map_eq_ofFn]
    congr 1; funext i
    simp only [List.getD_eq_getElem?_getD]
    have hg := flatten_get (ts.map fun t => (t.leaves.getD j ⟨[], []⟩).data) (shapeSize l.shape) (by
      intro d hd
      obtain ⟨t, ht, rfl⟩ := List.mem_map.1 hd
      obtain ⟨a, ha, _, h3⟩ := h.leaf t ht j l hl
      simp only [List.getD_eq_getElem?_getD, ha, Option.getD_some, h3]) i.val k (by simp) hk
    simp only [List.getD_eq_getElem?_getD] at hg
    rw [hg]
    simp [hD]
  obtain ⟨outs, houts⟩ : ∃ outs : List (Arr ℝ), outs = (L.leaves.zipIdx).map fun lj =>
    ⟨lj.1.shape, (List.range (shapeSize lj.1.shape)).map fun k => φ (List.ofFn fun i => (D lj.2 i).getD k 0)⟩ := ⟨_, rfl⟩
  obtain ⟨r, hr⟩ := Tree.unflatten_isOk T.treedef outs (by rw [Tree.length_leaves_treedef, hTl, houts]; simp)
  obtain ⟨hr1, hr2⟩ := (Tree.unflatten_ok_iff _ _ _).1 hr
  refine ⟨r, (tmap_ok_iff _ _ _).2 ⟨hr1, ?_⟩, sameLayout_of (hr1.trans hTd) ?_, ?_, ?_⟩
  · rw [List.forall₂_iff_get]
    refine ⟨by rw [hr2, houts, hTl]; simp, fun j h1 h2 => ?_⟩
    have hj : j < L.leaves.length := by omega
    have hl : L.leaves[j]? = some L.leaves[j] := List.getElem?_eq_getElem hj
    have := hTj j _ hl
    rw [List.getElem?_eq_getElem h1] at this
    have hTe : T.leaves.get ⟨j, h1⟩ = _ := Option.some.inj this
    rw [hTe]
    have hre : r.leaves.get ⟨j, h2⟩ = ⟨L.leaves[j].shape,
        (List.range (shapeSize L.leaves[j].shape)).map fun k => φ (List.ofFn fun i => (D j i).getD k 0)⟩ := by
      rw [List.get_eq_getElem]; simp only [hr2, houts]; simp
    rw [hre]
    simp only [colStat]
    congr 2
    apply List.map_congr_left
    intro k hk
    rw [hcol j _ hl k (List.mem_range.1 hk)]
  · rw [hr2, houts, List.map_map]
    apply List.ext_getElem
    · simp
    · intro i h1 h2; simp
  · intro a ha
    rw [hr2, houts] at ha
    obtain ⟨lj, _, rfl⟩ := List.mem_map.1 ha
    simp [Arr.WF]
  · rw [entries, hr2, houts, List.map_map]
    have hc := cols_flatten (ι := Fin ts.length) (fun f => φ (List.ofFn f))
      ((L.leaves.zipIdx).map fun lj => (shapeSize lj.1.shape, D lj.2)) (by
        intro l hl i
        obtain ⟨lj, hlj, rfl⟩ := List.mem_map.1 hl
        exact hDlen lj.2 lj.1 (List.mem_zipIdx_iff_getElem?.1 hlj) i)
    simp only [List.map_map, Function.comp_def] at hc ⊢
    rw [hc]
    have hent : ∀ i, ((L.leaves.zipIdx).map fun lj => D lj.2 i).flatten = List.ofFn (x i) := by
      intro i
      rw [← h.values i, entries]
      congr 1
      have hlen : ts[i].leaves.length = L.leaves.length := by
        simpa using congrArg List.length (h.layout ts[i] (List.getElem_mem _)).shapes
      have hlen' := hlen
      simp only [Fin.getElem_fin] at hlen'
      apply List.ext_getElem
      · simp [hlen']
      · intro j h1 h2
        simp only [List.length_map, List.length_zipIdx] at h1
        simp [hD, List.getD_eq_getElem?_getD, List.getElem?_eq_getElem (show j < ts[i.val].leaves.length by
          have := hlen; simp only [Fin.getElem_fin] at this; omega)]
    have hsum : ((L.leaves.zipIdx).map fun lj => shapeSize lj.1.shape).sum = P := by
      have hpos : 0 < ts.length := List.length_pos_iff.2 h.nonempty
      have e := congrArg List.length (hent ⟨0, hpos⟩)
      rw [List.length_ofFn, List.length_flatten, List.map_map] at e
      rw [← e]
      congr 1
      apply List.map_congr_left
      intro lj hlj
      exact (hDlen lj.2 lj.1 (List.mem_zipIdx_iff_getElem?.1 hlj) _).symm
    rw [hsum, range_map_eq_ofFn]
    congr 1; funext k
    simp only [hent]
    congr 2; funext i
    simp

/-! ### Slices -/

theorem flatten_take {β : Type} (ds : List (List β)) (n : ℕ) (h : ∀ d ∈ ds, d.length = n) (k : ℕ) (hk : k ≤ ds.length) :
    ds.flatten.take (k * n) = (ds.take k).flatten := by
  induction ds generalizing k with
  | nil => simp
  | cons d ds ih =>
    cases k with
    | zero => simp
    | succ k =>
      have hd := h d (by simp)
      rw [List.flatten_cons, List.take_append, hd, List.take_of_length_le (by rw [hd]; nlinarith),
        show (k + 1) * n - n = k * n by rw [Nat.add_mul]; omega, ih (fun d hd => h d (by simp [hd])) k (by simpa using hk)]
      simp

theorem flatten_drop {β : Type} (ds : List (List β)) (n : ℕ) (h : ∀ d ∈ ds, d.length = n) (k : ℕ) (hk : k ≤ ds.length) :
    ds.flatten.drop (k * n) = (ds.drop k).flatten := by
  have h1 := flatten_take ds n h k hk
  have h2 : ds.flatten = (ds.take k).flatten ++ (ds.drop k).flatten := by rw [← List.flatten_append, List.take_append_drop]
  have h3 : (ds.take k).flatten.length = k * n := by
    rw [← h1, List.length_take]
    have : ds.flatten.length = ds.length * n := by
      rw [List.length_flatten, List.map_eq_replicate_iff.2 h]; simp
    rw [this]; exact Nat.min_eq_left (Nat.mul_le_mul_right _ hk)
  conv_lhs => rw [h2]
  rw [← h3, List.drop_left]

theorem slice_stack {β : Type} (ds : List (List β)) (sh : List ℕ) (h : ∀ d ∈ ds, d.length = shapeSize sh) (lo hi : ℕ) :
    Arr.slice lo hi ⟨ds.length :: sh, ds.flatten⟩ = .ok ⟨((ds.take hi).drop lo).length :: sh, ((ds.take hi).drop lo).flatten⟩ := by
  simp only [Arr.slice]
  obtain ⟨l, hl⟩ : ∃ l, l = min lo ds.length := ⟨_, rfl⟩
  obtain ⟨u, hu⟩ : ∃ u, u = max l (min hi ds.length) := ⟨_, rfl⟩
  rw [← hl, ← hu]
  have hlu : l ≤ u := by omega
  have hun : u ≤ ds.length := by omega
  have e : (ds.take hi).drop lo = (ds.take u).drop l := by
    by_cases hc : min lo ds.length ≤ min hi ds.length
    · have hu' : u = min hi ds.length := by omega
      have ht : ds.take u = ds.take hi := by
        rw [hu']; apply List.take_eq_take_iff.2; simp
      rw [ht]
      by_cases h1 : lo ≤ ds.length
      · rw [hl, Nat.min_eq_left h1]
      · rw [List.drop_eq_nil_of_le (by simp; omega), List.drop_eq_nil_of_le (by simp; omega)]
    · rw [List.drop_eq_nil_of_le (by simp; omega), List.drop_eq_nil_of_le (by simp; omega)]
  rw [e, flatten_take ds _ h u hun, flatten_drop (ds.take u) _ (fun d hd => h d (List.mem_of_mem_take hd)) l (by simp; omega)]
  congr 3
  simp; omega

end Laplax
