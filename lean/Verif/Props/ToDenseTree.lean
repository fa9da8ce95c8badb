import Verif.Props.Mv
import Verif.Spec.Dense
import Verif.Lib.BroadcastLemmas
import Verif.Lib.TreeStatsLemmas

/-! # Property C08 for pytree-valued products -/

namespace Laplax.Props
open Laplax Laplax.Spec
variable {α : Type}

theorem position_snoc (d i : Nat) : ∀ (sh ix : List Nat), IsIndex sh ix →
    position (sh ++ [d]) (ix ++ [i]) = position sh ix * d + i
  | [], [], _ => by simp [position, shapeSize]
  | n :: sh, k :: ix, h => by
    have ih := position_snoc d i sh ix h.2
    simp only [List.cons_append, position]
    rw [ih, shapeSize_append]
    simp only [shapeSize_cons]
    have : shapeSize ([] : List Nat) = 1 := rfl
    rw [this]
    ring
  | [], _ :: _, h => h.elim
  | _ :: _, [], h => h.elim

theorem isIndex_snoc (d i : Nat) (hi : i < d) : ∀ (sh ix : List Nat), IsIndex sh ix → IsIndex (sh ++ [d]) (ix ++ [i])
  | [], [], _ => ⟨hi, trivial⟩
  | n :: sh, k :: ix, h => ⟨h.1, isIndex_snoc d i hi sh ix h.2⟩
  | [], _ :: _, h => h.elim
  | _ :: _, [], h => h.elim

theorem isIndex_reverse : ∀ (sh ix : List Nat), IsIndex sh ix → IsIndex sh.reverse ix.reverse
  | [], [], _ => trivial
  | n :: sh, k :: ix, h => by
    rw [List.reverse_cons, List.reverse_cons]
    exact isIndex_snoc n k h.1 _ _ (isIndex_reverse sh ix h.2)
  | [], _ :: _, h => h.elim
  | _ :: _, [], h => h.elim

theorem shapeSize_reverse (sh : List Nat) : shapeSize sh.reverse = shapeSize sh := by
  induction sh with
  | nil => rfl
  | cons d sh ih =>
    rw [List.reverse_cons, shapeSize_append, ih]
    simp only [shapeSize_cons]
    have : shapeSize ([] : List Nat) = 1 := rfl
    rw [this]; ring

/-- `jnp.transpose` reverses the multi-index. -/
theorem transposeData_entry [Inhabited α] : ∀ (sh ix : List Nat) (xs : List α), xs.length = shapeSize sh → IsIndex sh ix →
    (transposeData sh xs)[position sh.reverse ix.reverse]? = xs[position sh ix]?
  | [], [], xs, _, _ => rfl
  | d :: sh, i :: ix, xs, hx, h => by
    have hp : position sh.reverse ix.reverse < shapeSize sh := by
      have := position_lt (isIndex_reverse sh ix h.2)
      rwa [shapeSize_reverse] at this
    have hchunk : (chunks (shapeSize sh) d xs)[i]? = some ((xs.drop (i * shapeSize sh)).take (shapeSize sh)) := by
      rw [List.getElem?_eq_getElem (by rw [length_chunks]; exact h.1), getElem_chunks]
    have hlen : ((xs.drop (i * shapeSize sh)).take (shapeSize sh)).length = shapeSize sh := by
      rw [List.length_take, List.length_drop, hx, shapeSize_cons, Nat.min_eq_left]
      have : (i + 1) * shapeSize sh ≤ d * shapeSize sh := Nat.mul_le_mul_right _ h.1
      rw [Nat.succ_mul] at this; omega
    have ih := transposeData_entry sh ix _ hlen h.2
    rw [List.reverse_cons, List.reverse_cons, position_snoc _ _ _ _ (isIndex_reverse sh ix h.2)]
    unfold transposeData
    dsimp only
    rw [flatten_get _ d _ _ _ (by simpa using hp) h.1]
    · simp only [List.getElem_map, List.getElem_range, List.getElem?_map, hchunk, Option.map_some]
      rw [List.getD_eq_getElem?_getD, ih, List.getElem?_take_of_lt (position_lt h.2), List.getElem?_drop]
      have hlt : i * shapeSize sh + position sh ix < xs.length := by
        have := position_lt (sh := d :: sh) (ix := i :: ix) h
        rw [hx]; exact this
      simp only [position]
      rw [List.getElem?_eq_getElem hlt]; rfl
    · intro r hr
      obtain ⟨k, -, rfl⟩ := List.mem_map.1 hr
      simp [length_chunks]
  | [], _ :: _, _, _, h => h.elim
  | _ :: _, [], _, _, h => h.elim

theorem stack_entry {n : Nat} (sh : List Nat) (as : Fin n → Arr α) (hs : ∀ j, (as j).shape = sh) (hw : ∀ j, (as j).WF) (j : Fin n)
    (ix : List Nat) (h : IsIndex sh ix) :
    (stackArr sh (List.ofFn as)).data[position (n :: sh) (j.val :: ix)]? = entryAt (as j) ix := by
  simp only [stackArr, position, entryAt, hs]
  rw [flatten_get _ (shapeSize sh) _ _ _ (by simp) (position_lt h)]
  · simp
  · intro d hd
    simp only [List.map_ofFn, List.mem_ofFn, Function.comp] at hd
    obtain ⟨k, rfl⟩ := hd
    rw [← hs k]; exact hw k

theorem transposeData_length [Inhabited α] (sh : List Nat) (xs : List α) (h : xs.length = shapeSize sh) :
    (transposeData sh xs).length = shapeSize sh := by
  cases sh with
  | nil => exact h
  | cons d sh =>
    unfold transposeData
    simp only [List.length_flatten, List.map_map, Function.comp_def, List.length_map, length_chunks]
    rw [shapeSize_cons]
    simp [Nat.mul_comm]

theorem stack_transpose_tree [Inhabited α] {n : Nat} (hn : 0 < n) (y : Fin n → PyTree α) (hl : ∀ i j, SameLayout (y i) (y j))
    (hw : ∀ j, WFTree (y j)) :
    ∃ out, (do
      let st ← stackTrees (List.ofFn y)
      Tree.tmap (fun a => .ok a.transpose) st) = Except.ok out ∧ IsDenseOf y out := by
  obtain ⟨m, rfl⟩ : ∃ m, n = m + 1 := ⟨n - 1, by omega⟩
  have htd : ∀ j, (y j).treedef = (y 0).treedef := fun j => Tree.treedef_of_map_eq (hl j 0)
  have hsh : ∀ j, (y j).leaves.map Arr.shape = (y 0).leaves.map Arr.shape := fun j => (hl j 0).shapes
  have hlen : ∀ j, (y j).leaves.length = (y 0).leaves.length := fun j => by simpa using congrArg List.length (hsh j)
  have hget : ∀ j l (h : l < (y 0).leaves.length), ((y j).leaves[l]'(by rw [hlen j]; exact h)).shape = (y 0).leaves[l].shape := by
    intro j l h
    have := congrArg (fun L => L[l]?) (hsh j)
    simp only [List.getElem?_map] at this
    rw [List.getElem?_eq_getElem (by rw [hlen j]; exact h), List.getElem?_eq_getElem h] at this
    simpa using this
  have hst : ∃ st, stackTrees (List.ofFn y) = .ok st ∧ st.treedef = (y 0).treedef ∧
      st.leaves = (y 0).leaves.mapIdx (fun j l => stackArr l.shape ((List.ofFn y).map (fun u => u.leaves.getD j ⟨[], []⟩))) := by
    obtain ⟨st, h⟩ := Tree.unflatten_isOk (y 0).treedef
      ((y 0).leaves.mapIdx (fun j l => stackArr l.shape ((List.ofFn y).map (fun u => u.leaves.getD j ⟨[], []⟩))))
      (by rw [Tree.length_leaves_treedef]; simp)
    refine ⟨st, ?_, ((Tree.unflatten_ok_iff _ _ _).1 h)⟩
    rw [← h]
    rw [List.ofFn_succ]; rfl
  obtain ⟨st, h1, h2, h3⟩ := hst
  have hcol : ∀ l (h : l < (y 0).leaves.length), (List.ofFn y).map (fun u => u.leaves.getD l ⟨[], []⟩)
      = List.ofFn (fun j => (y j).leaves[l]'(by rw [hlen j]; exact h)) := by
    intro l h
    rw [List.map_ofFn]
    congr 1
    funext j
    simp only [Function.comp]
    rw [List.getD_eq_getElem?_getD, List.getElem?_eq_getElem (by rw [hlen j]; exact h)]; rfl
  have hstl : ∀ l (h : l < (y 0).leaves.length), st.leaves[l]? =
      some (stackArr (y 0).leaves[l].shape (List.ofFn (fun j => (y j).leaves[l]'(by rw [hlen j]; exact h)))) := by
    intro l h
    rw [h3, List.getElem?_mapIdx, List.getElem?_eq_getElem h, Option.map_some, hcol l h]
  have hstlen : st.leaves.length = (y 0).leaves.length := by rw [h3]; simp
  have hstw : ∀ l (h : l < (y 0).leaves.length),
      (stackArr (y 0).leaves[l].shape (List.ofFn (fun j => (y j).leaves[l]'(by rw [hlen j]; exact h)))).data.length
        = shapeSize ((m + 1) :: (y 0).leaves[l].shape) := by
    intro l h
    simp only [stackArr, List.map_ofFn, List.length_flatten, Function.comp_def]
    rw [shapeSize_cons]
    have : ∀ j, ((y j).leaves[l]'(by rw [hlen j]; exact h)).data.length = shapeSize (y 0).leaves[l].shape := by
      intro j
      rw [← hget j l h]
      exact hw j _ (List.getElem_mem _)
    simp only [this, List.sum_ofFn, Finset.sum_const, Finset.card_univ, Fintype.card_fin, smul_eq_mul]
  refine ⟨st.map Arr.transpose, by rw [h1, ok_bind]; exact Tree.tmap_ok _ _, ?_⟩
  have houtl : ∀ l (h : l < (y 0).leaves.length), (st.map Arr.transpose).leaves[l]? =
      some (Arr.transpose (stackArr (y 0).leaves[l].shape (List.ofFn (fun j => (y j).leaves[l]'(by rw [hlen j]; exact h))))) := by
    intro l h
    rw [Tree.leaves_map, List.getElem?_map, hstl l h]; rfl
  refine ⟨fun j => by rw [Tree.treedef_map, h2, htd j], fun j l => ?_, ?_, ?_⟩
  · by_cases h : l < (y 0).leaves.length
    · rw [houtl l h, List.getElem?_eq_getElem (by rw [hlen j]; exact h)]
      simp only [Option.map_some, Arr.transpose, stackArr, List.length_ofFn, List.reverse_cons, hget j l h]
    · rw [List.getElem?_eq_none (by rw [Tree.leaves_map, List.length_map, hstlen]; omega),
        List.getElem?_eq_none (by rw [hlen j]; omega)]; rfl
  · intro a ha
    obtain ⟨l, hl', rfl⟩ := List.getElem_of_mem ha
    have hl0 : l < (y 0).leaves.length := by rwa [Tree.leaves_map, List.length_map, hstlen] at hl'
    have e := houtl l hl0
    rw [List.getElem?_eq_getElem hl', Option.some.injEq] at e
    rw [e]
    show (transposeData _ _).length = shapeSize _
    simp only [Arr.transpose]
    rw [shapeSize_reverse]
    have hw' := hstw l hl0
    have : (stackArr (y 0).leaves[l].shape (List.ofFn (fun j => (y j).leaves[l]'(by rw [hlen j]; exact hl0)))).shape
      = (m + 1) :: (y 0).leaves[l].shape := by simp [stackArr]
    rw [this]
    exact transposeData_length _ _ hw'
  · intro j l a b ha hb ix hix
    obtain ⟨hl1, rfl⟩ := List.getElem?_eq_some_iff.1 ha
    have hl0 : l < (y 0).leaves.length := by rwa [hlen j] at hl1
    rw [houtl l hl0, Option.some.injEq] at hb
    subst hb
    rw [hget j l hl0] at hix
    have hsh' : (stackArr (y 0).leaves[l].shape (List.ofFn (fun j => (y j).leaves[l]'(by rw [hlen j]; exact hl0)))).shape
      = (m + 1) :: (y 0).leaves[l].shape := by simp [stackArr]
    have ht := transposeData_entry ((m + 1) :: (y 0).leaves[l].shape) (j.val :: ix) _ (hstw l hl0) ⟨j.isLt, hix⟩
    rw [List.reverse_cons, List.reverse_cons] at ht
    have hs := stack_entry (y 0).leaves[l].shape (fun j => (y j).leaves[l]'(by rw [hlen j]; exact hl0)) (fun j => hget j l hl0)
      (fun j => hw j _ (List.getElem_mem _)) j ix hix
    rw [hs] at ht
    rw [← ht]
    simp only [entryAt, Arr.transpose]
    rw [hsh', List.reverse_cons]

/-- **C08 (pytree-valued products).** For any product, linear or not, that maps the `j`-th basis pytree of the layout to `y j`
(pytrees of one common layout), `to_dense` stacks the columns leaf by leaf along a new *last* axis and reverses the axes of each
leaf: for a leaf of shape `(d_1, …, d_r)` the result is the array of shape `(d_r, …, d_1, n)`. -/
theorem C08_to_dense_tree_valued [Inhabited α] [OfNat α 0] [OfNat α 1] {n : Nat} (hn : 0 < n) (layout : PyTree α)
    (hne : layout.leaves ≠ []) (hsz : numEntries layout = n) (mv : PyTree α → Except Err (PyTree α)) (y : Fin n → PyTree α)
    (hl : ∀ i j, SameLayout (y i) (y j)) (hw : ∀ j, WFTree (y j))
    (hmv : ∀ j e, SameLayout e layout → WFTree e → entries e = List.ofFn (unitFn α n j) → mv e = .ok (y j))
    (batch : Option Nat) (hb : batch ≠ some 0) :
    ∃ out, toDense mv (.tree layout) batch = .ok out ∧ IsDenseOf y out := by
  subst hsz
  obtain ⟨r, hr, _, hrow⟩ := C07_eye_like_slices (α := α) layout hne
  choose b hb' using fun i => basisVector_ok (α := α) i layout
  unfold toDense
  simp only [hr, ok_bind, laxMap_eq batch hb, getSize_eq]
  rw [mapE_of_forall _ b _ (fun i hi => by
    rw [hrow i (by simpa using hi)]; exact (hb' i).1), ok_bind]
  have hro : (List.range (numEntries layout)).map b = List.ofFn (fun i : Fin (numEntries layout) => b i) := by
    apply List.ext_getElem
    · simp
    · intro i _ _; simp
  rw [hro, mapE_ofFn mv _ y, ok_bind]
  · exact stack_transpose_tree hn y hl hw
  · intro j
    apply hmv j (b j) (hb' j).2.1 (hb' j).2.2.1
    rw [(hb' j).2.2.2, ofFn_single]; rfl

/-- **C08 (pytree-valued products, integer layout).** -/
theorem C08_to_dense_int_tree_valued [Inhabited α] [OfNat α 0] [OfNat α 1] {n : Nat} (hn : 0 < n)
    (mv : PyTree α → Except Err (PyTree α)) (y : Fin n → PyTree α) (hl : ∀ i j, SameLayout (y i) (y j)) (hw : ∀ j, WFTree (y j))
    (hmv : ∀ j, mv (.leaf ⟨[n], List.ofFn (unitFn α n j)⟩) = .ok (y j)) (batch : Option Nat) (hb : batch ≠ some 0) :
    ∃ out, toDense mv (.int n) batch = .ok out ∧ IsDenseOf y out := by
  unfold toDense
  simp only [laxMap_eq batch hb, chunks_eye, List.map_ofFn]
  rw [mapE_ofFn mv _ y, ok_bind]
  · exact stack_transpose_tree hn y hl hw
  · intro j
    simp only [Function.comp, flatLeaf, List.length_ofFn]
    exact hmv j

/-- Non-vacuity: a product on a dictionary of a matrix and a vector, here the identity, is turned into a pytree whose first leaf
has shape `(3, 2, 8)`. -/
example : ∃ out, toDense (α := Int) (fun t => .ok t)
      (.tree (.node "dict[a,b]" [.leaf ⟨[2, 3], [0, 0, 0, 0, 0, 0]⟩, .leaf ⟨[2], [0, 0]⟩])) = .ok out ∧
      out.leaves.map Arr.shape = [[3, 2, 8], [2, 8]] := by
  have hne : (Tree.node "dict[a,b]" [.leaf ⟨[2, 3], [0, 0, 0, 0, 0, 0]⟩, .leaf ⟨[2], [0, 0]⟩] : PyTree Int).leaves ≠ [] := by
    simp [Tree.leaves, Tree.leavesL]
  choose b hb' using fun i => basisVector_ok (α := Int) i
    (Tree.node "dict[a,b]" [.leaf ⟨[2, 3], [0, 0, 0, 0, 0, 0]⟩, .leaf ⟨[2], [0, 0]⟩] : PyTree Int)
  obtain ⟨out, h1, h2⟩ := C08_to_dense_tree_valued (n := 8) (by norm_num)
    (Tree.node "dict[a,b]" [.leaf ⟨[2, 3], [0, 0, 0, 0, 0, 0]⟩, .leaf ⟨[2], [0, 0]⟩] : PyTree Int) hne rfl (fun t => .ok t)
    (fun j => b j) (fun i j => (hb' i).2.1.trans (hb' j).2.1.symm) (fun j => (hb' j).2.2.1)
    (fun j e h h' he => by
      congr 1
      have h1 := (unflattenLike_ok_iff _ hne _ e).2 ⟨h, h', he⟩
      have h2 := (unflattenLike_ok_iff _ hne (List.ofFn (unitFn Int 8 j)) (b j)).2 ⟨(hb' j).2.1, (hb' j).2.2.1, by
        rw [(hb' j).2.2.2]; exact ofFn_single ..⟩
      exact Except.ok.inj (h1.symm.trans h2))
    none (by simp)
  refine ⟨out, h1, ?_⟩
  have hs := h2.shape 0
  have hshape : (b 0).leaves.map Arr.shape = [[2, 3], [2]] := (hb' 0).2.1.shapes
  apply List.ext_getElem?
  intro l
  rw [List.getElem?_map, hs l]
  have : (b 0).leaves[l]?.map (fun a => a.shape.reverse ++ [8]) = ((b 0).leaves.map Arr.shape)[l]?.map (fun s => s.reverse ++ [8]) := by
    rw [List.getElem?_map, Option.map_map]; rfl
  show (b 0).leaves[l]?.map (fun a => a.shape.reverse ++ [8]) = _
  rw [this, hshape]
  rcases l with _ | _ | l <;> rfl

end Laplax.Props
