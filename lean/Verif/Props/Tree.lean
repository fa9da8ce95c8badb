import Verif.Lib.TreeLemmas5
import Mathlib.Algebra.Group.Defs

/-!
# Properties C01–C07: pytrees and flat vectors

The model is `Verif.Model.Flatten` / `Verif.Model.TreeOps`; the vocabulary of the statements
(`SameLayout`, `WFTree`, `entries`, `numEntries`, `Raises`, `unitVec`) is `Verif.Spec.Tree`.
-/

namespace Laplax.Props
open Laplax Laplax.Spec
variable {α : Type}

/-- A concrete, non-trivial pytree used for the non-vacuity examples: a dict with a matrix, a nested list with a
zero-size leaf and a scalar leaf, and a `None`. -/
def sampleTree : PyTree Int :=
  .node "dict:a,b,c" [.leaf ⟨[2, 2], [1, 2, 3, 4]⟩, .node "list" [.leaf ⟨[0, 3], []⟩, .leaf ⟨[], [5]⟩], .node "None" []]

example : WFTree sampleTree ∧ sampleTree.leaves ≠ [] ∧ numEntries sampleTree = 5 := by
  simp [sampleTree, WFTree, Tree.leaves, Tree.leavesL, numEntries, Arr.WF, shapeSize]

/-! ## C01 round trips -/

/-- **C01 (tree → vector → tree).** For the flattener created from any non-empty layout, unflattening the flattened
tree gives the tree back, for every tree of that layout. -/
theorem C01_unflatten_flatten (layout t : PyTree α) (hne : layout.leaves ≠ []) (hl : SameLayout t layout)
    (hw : WFTree t) :
    ((createPytreeFlattener layout).1 t >>= (createPytreeFlattener layout).2) = .ok t := by
  have ht : t.leaves ≠ [] := by
    intro h; apply hne
    have := congrArg List.length hl.shapes
    simp [h] at this
    exact List.eq_nil_of_length_eq_zero this.symm
  simp only [createPytreeFlattener, fullFlatten_eq ht, ok_bind]
  exact (unflattenLike_ok_iff layout hne _ t).2 ⟨hl, hw, rfl⟩

/-- **C01 (vector → tree → vector).** Every vector of the right length unflattens to a tree of the layout, whose
flattening is that vector. -/
theorem C01_flatten_unflatten (layout : PyTree α) (hne : layout.leaves ≠ []) (v : List α)
    (hv : v.length = numEntries layout) :
    ∃ t, (createPytreeFlattener layout).2 v = .ok t ∧ SameLayout t layout ∧ WFTree t ∧
      (createPytreeFlattener layout).1 t = .ok v := by
  obtain ⟨t, ht⟩ := unflattenLike_isOk layout hne v hv
  have h := (unflattenLike_ok_iff layout hne v t).1 ht
  refine ⟨t, ht, h.1, h.2.1, ?_⟩
  have htne : t.leaves ≠ [] := by
    intro h'; apply hne
    have := congrArg List.length h.1.shapes
    simp [h'] at this
    exact List.eq_nil_of_length_eq_zero this.symm
  show fullFlatten t = _
  rw [fullFlatten_eq htne, h.2.2]

/-- **C01 (wrong length).** A vector of any other length makes `unflatten` raise. -/
theorem C01_wrong_length_raises (layout : PyTree α) (v : List α) (hv : v.length ≠ numEntries layout) :
    Raises ((createPytreeFlattener layout).2 v) := by
  cases h : (createPytreeFlattener layout).2 v with
  | error e => exact ⟨e, rfl⟩
  | ok t =>
    exfalso
    by_cases hne : layout.leaves = []
    · have : unflattenLike layout v = .ok t := h
      simp [unflattenLike, hne, jnpSplit, cumsum, cumsumFrom, splitFrom, zipStrict, error_bind] at this
    · have := (unflattenLike_ok_iff layout hne v t).1 h
      apply hv
      rw [← this.2.2, length_entries this.2.1, this.1.numEntries]

example : SameLayout sampleTree sampleTree ∧ WFTree sampleTree ∧ ([9, 8, 7, 6, 5] : List Int).length = numEntries sampleTree := by
  refine ⟨rfl, ?_, rfl⟩
  simp [sampleTree, WFTree, Tree.leaves, Tree.leavesL, Arr.WF, shapeSize]

/-! ## C02 flattening of empty and non-empty trees -/

/-- **C02.** `full_flatten` raises exactly for leafless trees; otherwise it returns the leaves' entries in order, and
their number is `get_size`. A leafless layout makes `unflatten` raise for every vector. -/
theorem C02_full_flatten (t : PyTree α) :
    (t.leaves = [] → Raises (fullFlatten t) ∧ ∀ v, Raises (unflattenLike t v)) ∧
    (t.leaves ≠ [] → fullFlatten t = .ok (entries t) ∧ (WFTree t → (entries t).length = getSize t)) := by
  refine ⟨fun h => ⟨⟨.valueError, by simp [fullFlatten, h, jnpConcatenate]⟩, fun v => ⟨.valueError, ?_⟩⟩, fun h => ⟨fullFlatten_eq h, fun hw => ?_⟩⟩
  · simp [unflattenLike, h, jnpSplit, cumsum, cumsumFrom, splitFrom, zipStrict, error_bind]
  · rw [length_entries hw, getSize_eq]

example : (Tree.node "None" [] : PyTree Int).leaves = [] ∧ sampleTree.leaves ≠ [] := by
  simp [Tree.leaves, Tree.leavesL, sampleTree]

/-! ## C03 partial flattening and axis unravelling -/

/-- **C03 (partial flatten → unflatten).** If all leaves share the positive last dimension `R`, the partial flattener
returns a `(rows, R)` matrix and its inverse restores the tree. -/
theorem C03_partial_roundtrip (layout t : PyTree α) (hne : layout.leaves ≠ []) (hl : SameLayout t layout)
    (hw : WFTree t) (R : Nat) (hR0 : R ≠ 0) (hR : ∀ a ∈ layout.leaves, a.shape.getLast? = some R) :
    ∃ m, partialFlatten t = .ok m ∧ m.shape = [(entries t).length / R, R] ∧ m.WF ∧ m.data = entries t ∧
      partialUnflatten layout m = .ok t := by
  have ht : t.leaves ≠ [] := by
    intro h; apply hne
    have := congrArg List.length hl.shapes
    simp [h] at this
    exact List.eq_nil_of_length_eq_zero this.symm
  have hRt : ∀ a ∈ t.leaves, a.shape.getLast? = some R := by
    intro a ha
    have : a.shape ∈ layout.leaves.map Arr.shape := by rw [← hl.shapes]; exact List.mem_map_of_mem ha
    obtain ⟨b, hb, hbe⟩ := List.mem_map.1 this
    rw [← hbe]; exact hR b hb
  refine ⟨_, partialFlatten_eq t ht R hR0 hRt, rfl, ?_, rfl, ?_⟩
  · have hd : R ∣ (entries t).length := by
      rw [length_entries hw, numEntries_eq]
      have : ∀ xs : List (Arr α), (∀ a ∈ xs, a.shape.getLast? = some R) → R ∣ ((xs.map Arr.shape).map shapeSize).sum := by
        intro xs hxs
        induction xs with
        | nil => simp
        | cons x xs ih =>
          simp only [List.map_cons, List.sum_cons]
          refine Nat.dvd_add ?_ (ih (fun a ha => hxs a (by simp [ha])))
          rw [← shapeSize_dropLast _ R (hxs x (by simp))]
          exact Nat.dvd_mul_left _ _
      exact this _ hRt
    show (entries t).length = shapeSize [(entries t).length / R, R]
    simp [shapeSize, Nat.div_mul_cancel hd]
  · rw [partialUnflatten_eq layout hne R _ hR, unflattenLike_ok_iff layout hne]
    exact ⟨hl, hw, rfl⟩

/-- **C03 (partial unflatten → flatten).** Every matrix with `R` columns and the right number of entries is restored. -/
theorem C03_partial_roundtrip_inv (layout : PyTree α) (hne : layout.leaves ≠ []) (R : Nat) (hR0 : R ≠ 0)
    (hR : ∀ a ∈ layout.leaves, a.shape.getLast? = some R) (n : Nat) (xs : List α)
    (hn : n * R = numEntries layout) (hx : xs.length = n * R) :
    ∃ t, partialUnflatten layout ⟨[n, R], xs⟩ = .ok t ∧ SameLayout t layout ∧ partialFlatten t = .ok ⟨[n, R], xs⟩ := by
  obtain ⟨t, ht⟩ := unflattenLike_isOk layout hne xs (by rw [hx, hn])
  have h := (unflattenLike_ok_iff layout hne xs t).1 ht
  refine ⟨t, by rw [partialUnflatten_eq layout hne R n hR, ht], h.1, ?_⟩
  have hRt : ∀ a ∈ t.leaves, a.shape.getLast? = some R := by
    intro a ha
    have : a.shape ∈ layout.leaves.map Arr.shape := by rw [← h.1.shapes]; exact List.mem_map_of_mem ha
    obtain ⟨b, hb, hbe⟩ := List.mem_map.1 this
    rw [← hbe]; exact hR b hb
  have htne : t.leaves ≠ [] := by
    intro h'; apply hne
    have := congrArg List.length h.1.shapes
    simp [h'] at this
    exact List.eq_nil_of_length_eq_zero this.symm
  rw [partialFlatten_eq t htne R hR0 hRt, h.2.2, hx, Nat.mul_div_cancel _ (Nat.pos_of_ne_zero hR0)]

/-- **C03 (axis unravelling).** Unravelling an `(n, P)` matrix along axis 1 gives a tree whose leaves have shape
`(n, *leaf.shape)` and whose `i`-th slice is `unflatten(M[i])`. -/
theorem C03_unravel_rows (layout : PyTree α) (hne : layout.leaves ≠ []) (n : Nat) (M : List (List α))
    (hn : M.length = n) (hM : ∀ row ∈ M, row.length = numEntries layout) :
    ∃ r, unravelArrayIntoPytree layout 1 ⟨[n, numEntries layout], M.flatten⟩ = .ok r ∧
      r.map Arr.shape = layout.map (fun a => n :: a.shape) ∧ WFTree r ∧
      ∀ i (hi : i < M.length), Tree.tmap (Arr.row i) r = (createPytreeFlattener layout).2 M[i] := by
  have hlen : M.flatten.length = n * numEntries layout := by
    rw [← sum_map_length]
    have : M.map List.length = List.replicate n (numEntries layout) := by
      rw [List.eq_replicate_iff]; refine ⟨by simp [hn], ?_⟩
      intro x hx; obtain ⟨d, hd, rfl⟩ := List.mem_map.1 hx; exact hM d hd
    rw [this]; simp
  obtain ⟨r, h1, h2, h3, h4, h5⟩ := unravel_rows layout hne n M.flatten hlen
  refine ⟨r, h1, Tree.map_eq_of h2 h3, h4, ?_⟩
  intro i hi
  rw [h5 i (by omega), drop_take_flatten M _ hM i hi]; rfl

/-- A tree with common last dimension 2. -/
def sampleTree2 : PyTree Int := .node "tuple" [.leaf ⟨[2, 2], [1, 2, 3, 4]⟩, .leaf ⟨[2], [5, 6]⟩]
example : sampleTree2.leaves ≠ [] ∧ WFTree sampleTree2 ∧ (∀ a ∈ sampleTree2.leaves, a.shape.getLast? = some 2) ∧
    3 * 2 = numEntries sampleTree2 := by
  simp [sampleTree2, WFTree, Tree.leaves, Tree.leavesL, Arr.WF, shapeSize, numEntries]

/-! ## C04 wrap_function -/

theorem wrapFunction_split {A B : Type} (fn : List A → Except Err B) (g : Option (A → Except Err A)) (h : Option (B → Except Err B))
    (pre post : List A) (a : A) (k : Int) (hk : k = pre.length ∨ k = -(post.length + 1 : Int) ∧ post ≠ []) :
    wrapFunction fn g h k (pre ++ a :: post) =
      (do let a' ← g.getD (fun x => .ok x) a; let r ← fn (pre ++ a' :: post); h.getD (fun x => .ok x) r) := by
  have hi : pyItem (pre ++ a :: post) k = .ok a := by
    unfold pyItem
    rcases hk with rfl | ⟨rfl, -⟩
    · simp
    · rw [if_neg (by omega), if_pos (by simp; omega)]
      have : (((pre ++ a :: post).length : Int) + -(post.length + 1 : Int)).toNat = pre.length := by simp; omega
      rw [this]; simp
  have h1 : pyCut (pre ++ a :: post).length k = pre.length := by
    unfold pyCut
    rcases hk with rfl | ⟨rfl, -⟩
    · simp
    · rw [if_neg (by omega)]; simp; omega
  have h2 : pyCut (pre ++ a :: post).length (k + 1) = pre.length + 1 := by
    unfold pyCut
    rcases hk with rfl | ⟨rfl, hp⟩
    · rw [if_pos (by omega)]; simp
    · have : 0 < post.length := List.length_pos_iff.2 hp
      rw [if_neg (by omega)]; simp; omega
  have hd : (pre ++ a :: post).drop (pre.length + 1) = post := by
    rw [show pre ++ a :: post = (pre ++ [a]) ++ post by simp]
    rw [List.drop_left' (by simp)]
  simp only [wrapFunction, hi, h1, h2, hd, ok_bind, List.take_left' rfl]
  simp

/-- **C04 (conjugation).** With the transformed argument at position `pre.length` (counted from the front, or from the back unless it
is the last), the wrapped function is `h (fn (pre, g a, post))`; missing transforms are identities. -/
theorem C04_wrap_function {A B : Type} (fn : List A → Except Err B) (g : A → Except Err A) (h : B → Except Err B)
    (pre post : List A) (a : A) (k : Int) (hk : k = pre.length ∨ k = -(post.length + 1 : Int) ∧ post ≠ []) :
    wrapFunction fn (some g) (some h) k (pre ++ a :: post) =
      (do let a' ← g a; let r ← fn (pre ++ a' :: post); h r) ∧
    wrapFunction fn none (some h) k (pre ++ a :: post) = (do let r ← fn (pre ++ a :: post); h r) ∧
    wrapFunction fn (some g) none k (pre ++ a :: post) = (do let a' ← g a; fn (pre ++ a' :: post)) ∧
    wrapFunction fn none none k (pre ++ a :: post) = fn (pre ++ a :: post) := by
  refine ⟨?_, ?_, ?_, ?_⟩ <;>
    simp only [wrapFunction_split fn _ _ pre post a k hk, Option.getD_some, Option.getD_none, ok_bind]
  · congr 1; funext x; cases fn (pre ++ x :: post) <;> rfl
  · cases fn (pre ++ a :: post) <;> rfl

/-- **C04 (finding: `argnums = -1`).** For the last argument counted from the back, the wrapped function receives all the arguments a
second time: `args[argnums + 1:]` is then `args[0:]`. -/
theorem C04_last_argument_negative {A B : Type} (fn : List A → Except Err B) (g : A → Except Err A) (h : B → Except Err B)
    (pre : List A) (a : A) :
    wrapFunction fn (some g) (some h) (-1) (pre ++ [a]) =
      (do let a' ← g a; let r ← fn (pre ++ [a'] ++ (pre ++ [a])); h r) := by
  have hi : pyItem (pre ++ [a]) (-1) = .ok a := by
    unfold pyItem
    rw [if_neg (by omega), if_pos (by simp; omega)]
    have : (((pre ++ [a]).length : Int) + -1).toNat = pre.length := by simp; omega
    rw [this]; simp
  have h1 : pyCut (pre ++ [a]).length (-1) = pre.length := by simp [pyCut]; omega
  have h2 : pyCut (pre ++ [a]).length (-1 + 1) = 0 := by simp [pyCut]
  simp only [wrapFunction, hi, h1, h2, ok_bind, List.take_left' rfl, List.drop_zero, Option.getD_some]

/-- **C04 (position out of range).** -/
theorem C04_wrap_function_out_of_range {A B : Type} (fn : List A → Except Err B) (g : Option (A → Except Err A))
    (h : Option (B → Except Err B)) (k : Int) (args : List A) (hk : (args.length : Int) ≤ k ∨ k < -(args.length : Int)) :
    wrapFunction fn g h k args = .error .indexError := by
  have : pyItem args k = .error .indexError := by
    unfold pyItem
    rcases hk with hk | hk
    · rw [if_pos (by omega), List.getElem?_eq_none (by omega)]
    · rw [if_neg (by omega), if_neg (by omega)]
  simp only [wrapFunction, this, error_bind]

/-- **C04 (wrapping twice composes).** For every position but `-1`. -/
theorem C04_wrap_twice {A B : Type} (fn : List A → Except Err B) (g g' : A → Except Err A) (h h' : B → Except Err B)
    (k : Int) (hk1 : k ≠ -1) :
    wrapFunction (wrapFunction fn (some g) (some h) k) (some g') (some h') k =
      wrapFunction fn (some (fun a => g' a >>= g)) (some (fun b => h b >>= h')) k := by
  funext args
  by_cases hk : (args.length : Int) ≤ k ∨ k < -(args.length : Int)
  · rw [C04_wrap_function_out_of_range _ _ _ _ _ hk, C04_wrap_function_out_of_range _ _ _ _ _ hk]
  · obtain ⟨pre, a, post, rfl, hs⟩ : ∃ pre a post, args = pre ++ a :: post ∧ (k = pre.length ∨ k = -(post.length + 1 : Int) ∧ post ≠ []) := by
      have hcut : ∀ j, j < args.length → ∃ pre a post, args = pre ++ a :: post ∧ pre.length = j ∧ post.length + 1 + j = args.length := by
        intro j hj
        refine ⟨args.take j, args[j], args.drop (j+1), ?_, by simp; omega, by simp; omega⟩
        rw [List.getElem_cons_drop, List.take_append_drop]
      by_cases h0 : 0 ≤ k
      · obtain ⟨pre, a, post, e1, e2, -⟩ := hcut k.toNat (by omega)
        exact ⟨pre, a, post, e1, Or.inl (by omega)⟩
      · obtain ⟨pre, a, post, e1, e2, e3⟩ := hcut ((args.length : Int) + k).toNat (by omega)
        refine ⟨pre, a, post, e1, Or.inr ⟨by omega, ?_⟩⟩
        intro h00
        rw [h00] at e3
        simp at e3
        omega
    rw [(C04_wrap_function _ g' h' pre post a k hs).1, (C04_wrap_function fn _ _ pre post a k hs).1]
    cases g' a with
    | error e => rfl
    | ok a' =>
      simp only [ok_bind]
      rw [(C04_wrap_function fn g h pre post a' k hs).1]
      cases g a' with
      | error e => rfl
      | ok a'' =>
        simp only [ok_bind]
        cases fn (pre ++ a'' :: post) with
        | error e => rfl
        | ok r => rfl

/-- **C04 (factories).** Every function produced by a wrapped factory is the wrapped product of the factory. -/
theorem C04_wrap_factory {A B C : Type} (factory : C → Except Err (List A → Except Err B))
    (g : Option (A → Except Err A)) (h : Option (B → Except Err B)) (c : C) (fn : List A → Except Err B)
    (hf : factory c = .ok fn) : wrapFactory factory g h c = .ok (wrapFunction fn g h 0) := by
  simp [wrapFactory, hf]

/-- **C04 (flatten_function).** On the flattening of any tree of the layout, the flattened function returns the
flattening of `fn tree`. -/
theorem C04_flatten_function (fn : PyTree α → Except Err (PyTree α)) (layout t : PyTree α) (hne : layout.leaves ≠ [])
    (hl : SameLayout t layout) (hw : WFTree t) (r : PyTree α) (hr : fn t = .ok r) (hrne : r.leaves ≠ []) :
    flattenFunction fn layout (entries t) = .ok (entries r) := by
  have := (unflattenLike_ok_iff layout hne (entries t) t).2 ⟨hl, hw, rfl⟩
  simp [flattenFunction, createPytreeFlattener, this, ok_bind, hr, fullFlatten_eq hrne]

example : wrapFunction (fun (xs : List Int) => .ok (xs.foldl (· - ·) 0)) (some (fun x => .ok (x * 10))) (some (fun x => .ok (-x))) 1 [1, 2, 3]
    = .ok 24 := by rfl

/-- From the back: position `-2` of three arguments is position 1; position `-1` passes all arguments again. -/
example : wrapFunction (fun (xs : List Int) => .ok xs) (some (fun x => .ok (x * 10))) none (-2) [1, 2, 3] = .ok [1, 20, 3] ∧
    wrapFunction (fun (xs : List Int) => .ok xs) (some (fun x => .ok (x * 10))) none (-1) [1, 2, 3] = .ok [1, 2, 30, 1, 2, 3] := ⟨rfl, rfl⟩

/-! ## C05 tree arithmetic -/

/-- **C05.** On trees of equal layout, `add`, `sub`, `neg`, `mul` succeed, keep the layout and act entrywise. -/
theorem C05_tree_arithmetic [AddGroup α] [Mul α] (t u : PyTree α) (hl : SameLayout t u) (ht : WFTree t) (hu : WFTree u)
    (c : α) :
    (∃ r, treeAdd t u = .ok r ∧ SameLayout r t ∧ WFTree r ∧ entries r = List.zipWith (· + ·) (entries t) (entries u)) ∧
    (∃ r, treeSub t u = .ok r ∧ SameLayout r t ∧ WFTree r ∧ entries r = List.zipWith (· - ·) (entries t) (entries u)) ∧
    (∃ r, treeNeg t = .ok r ∧ SameLayout r t ∧ WFTree r ∧ entries r = (entries t).map (- ·)) ∧
    (∃ r, treeMul c t = .ok r ∧ SameLayout r t ∧ WFTree r ∧ entries r = (entries t).map (c * ·)) := by
  refine ⟨tmap2_zipWith _ t u hl ht hu, ?_, tmap_map1 _ t ht, tmap_map1 _ t ht⟩
  obtain ⟨n, hn, hnl, hnw, hne⟩ := tmap_map1 (- ·) u hu
  obtain ⟨r, hr, hrl, hrw, hre⟩ := tmap2_zipWith (· + ·) t n (hl.trans hnl.symm) ht hnw
  refine ⟨r, ?_, hrl, hrw, ?_⟩
  · unfold treeSub treeNeg; rw [hn, ok_bind]; exact hr
  · rw [hre, hne, List.zipWith_map_right]; simp only [sub_eq_add_neg]

/-- **C05 (constants).** `zeros_like` / `ones_like` keep the layout and are constant. -/
theorem C05_constants [OfNat α 0] [OfNat α 1] (t : PyTree α) :
    (∃ r, zerosLike t = .ok r ∧ SameLayout r t ∧ WFTree r ∧ entries r = List.replicate (numEntries t) 0) ∧
    (∃ r, onesLike t = .ok r ∧ SameLayout r t ∧ WFTree r ∧ entries r = List.replicate (numEntries t) 1) := by
  obtain ⟨r, h1, h2, h3, h4, _⟩ := tmap_const (0 : α) t
  obtain ⟨s, g1, g2, g3, g4, _⟩ := tmap_const (1 : α) t
  exact ⟨⟨r, h1, h2, h3, h4⟩, ⟨s, g1, g2, g3, g4⟩⟩

/-- **C05 (different structure).** Adding or subtracting trees with different containers raises. -/
theorem C05_structure_mismatch_raises [AddGroup α] (t u : PyTree α) (h : t.treedef ≠ u.treedef) :
    Raises (treeAdd t u) ∧ Raises (treeSub t u) := by
  have key : ∀ w : PyTree α, t.treedef ≠ w.treedef → Raises (treeAdd t w) := by
    intro w hw
    refine ⟨.valueError, ?_⟩
    unfold treeAdd Tree.tmap2
    rw [if_neg]
    intro h'; exact hw ((Tree.defEq_iff _ _).1 h')
  refine ⟨key u h, ?_⟩
  unfold treeSub treeNeg
  rw [Tree.tmap_ok, ok_bind]
  apply key
  rw [Tree.treedef_map]; exact h

example : sampleTree.treedef ≠ sampleTree2.treedef := by
  rw [Ne, ← Tree.defEq_iff]; decide

/-! ## C06 basis vectors -/

/-- **C06.** For every index below the size, `basis_vector_from_index` is the tree of the layout whose flattening is
the unit vector; beyond the size it is the zero tree. -/
theorem C06_basis_vector [OfNat α 0] [OfNat α 1] (idx : Nat) (t : PyTree α) :
    ∃ r, basisVectorFromIndex idx t = .ok r ∧ SameLayout r t ∧ WFTree r ∧
      (idx < numEntries t → entries r = unitVec α (numEntries t) idx) ∧
      (numEntries t ≤ idx → entries r = List.replicate (numEntries t) 0) := by
  obtain ⟨r, h1, h2, h3, h4⟩ := basisVector_ok (α := α) idx t
  refine ⟨r, h1, h2, h3, fun _ => by rw [h4, unitVec_eq_set], fun h => ?_⟩
  rw [h4, List.set_eq_of_length_le]; simpa using h

/-- **C06 (negative indices).** A negative index counts from the end of the *first leaf*, not of the whole tree: index
`-m` gives the unit vector at position (size of the first leaf) − `m`, and the zero tree when the first leaf has fewer than
`m` entries. -/
theorem C06_negative_index [OfNat α 0] [OfNat α 1] (m : Nat) (hm : 0 < m) (t : PyTree α) (a : Arr α) (as : List (Arr α))
    (hl : t.leaves = a :: as) :
    ∃ r, basisVectorFromIndex (-(m : Int)) t = .ok r ∧ SameLayout r t ∧ WFTree r ∧
      (m ≤ shapeSize a.shape → entries r = unitVec α (numEntries t) (shapeSize a.shape - m)) ∧
      (shapeSize a.shape < m → entries r = List.replicate (numEntries t) 0) := by
  obtain ⟨r, h1, h2, h3, h4⟩ := basisVector_neg (α := α) m hm t a as hl
  refine ⟨r, h1, h2, h3, fun h => ?_, fun h => ?_⟩
  · rw [h4, if_pos h, unitVec_eq_set]
  · rw [h4, if_neg (by omega)]

/-- `tree_vec_get` is one (clamping, JAX) read of the flattened tree. -/
theorem treeVecGet_eq (t : PyTree α) (h : entries t ≠ []) (idx : Int) : treeVecGet t idx = jaxGet (entries t) idx := by
  cases t with
  | leaf a =>
    have he : entries (Tree.leaf a) = a.data := by simp [entries, Tree.leaves]
    simp only [treeVecGet, he]
  | node tag ks =>
    have hne : (Tree.node tag ks : PyTree α).leaves ≠ [] := by
      intro h'; simp [entries, h'] at h
    have hf : jnpConcatenate ((Tree.node tag ks : PyTree α).leaves.map Arr.data) = .ok (entries (Tree.node tag ks)) := by
      have := fullFlatten_eq hne
      rwa [fullFlatten] at this
    simp only [treeVecGet, hf, ok_bind]

/-- **C06.** `tree_vec_get` reads the flattened tree (both for a bare array and for a container). -/
theorem C06_tree_vec_get (t : PyTree α) (idx : Nat) (h : idx < (entries t).length) :
    treeVecGet t idx = .ok (entries t)[idx] := by
  rw [treeVecGet_eq t (by intro h'; simp [h'] at h), jaxGet_of_lt _ _ h]

/-- **C06 (indices out of range).** No index raises on a tree with at least one number: `-m` reads the `m`-th number from
the end of the whole tree (unlike `basis_vector_from_index`), an index beyond either end reads the number at that end. -/
theorem C06_tree_vec_get_clamps (t : PyTree α) (h : entries t ≠ []) (m : Nat) :
    ((entries t).length ≤ m → treeVecGet t m = .ok ((entries t).getLast h)) ∧
    (∀ _ : 0 < m, ∀ hl : m ≤ (entries t).length, treeVecGet t (-(m : Int)) = .ok ((entries t)[(entries t).length - m])) ∧
    ((entries t).length ≤ m → 0 < m → treeVecGet t (-(m : Int)) = .ok ((entries t).head h)) := by
  rw [treeVecGet_eq t h, treeVecGet_eq t h]
  have hpos : 0 < (entries t).length := List.length_pos_of_ne_nil h
  refine ⟨fun hm => ?_, fun hm hl => ?_, fun hl hm => ?_⟩
  · have h1 : ¬ ((m : Int) < 0) := by omega
    have h2 : min (m : Int).toNat ((entries t).length - 1) = (entries t).length - 1 := by omega
    simp only [jaxGet, h1, if_false, h2, List.getElem?_eq_getElem (show (entries t).length - 1 < (entries t).length by omega),
      List.getLast_eq_getElem]
  · have h1 : -(m : Int) < 0 := by omega
    have h2 : min (-(m : Int) + (entries t).length).toNat ((entries t).length - 1) = (entries t).length - m := by omega
    simp only [jaxGet, h1, if_true, h2, List.getElem?_eq_getElem (show (entries t).length - m < (entries t).length by omega)]
  · have h1 : -(m : Int) < 0 := by omega
    have h2 : min (-(m : Int) + (entries t).length).toNat ((entries t).length - 1) = 0 := by omega
    simp only [jaxGet, h1, if_true, h2, List.getElem?_eq_getElem hpos, List.head_eq_getElem]

/-- The first leaf of the sample tree has at least two entries, and the tree has more: index `-2` is met. -/
example : ∃ a as, sampleTree.leaves = a :: as ∧ 2 ≤ shapeSize a.shape ∧ shapeSize a.shape < numEntries sampleTree ∧
    entries sampleTree ≠ [] :=
  ⟨_, _, rfl, by decide, by decide, by decide⟩

example : 4 < numEntries sampleTree ∧ 4 < (entries sampleTree).length ∧
    unitVec Int (numEntries sampleTree) 4 = [0, 0, 0, 0, 1] := by
  simp [sampleTree, numEntries, entries, Tree.leaves, Tree.leavesL]; decide

/-! ## C07 identity trees -/

/-- **C07.** `eye_like` and `eye_like_with_basis_vector` return the same tree, for every layout with a leaf. -/
theorem C07_eye_like_agree [OfNat α 0] [OfNat α 1] (t : PyTree α) (hne : t.leaves ≠ []) :
    (∃ r, eyeLike t = .ok r) ∧ eyeLike t = eyeLikeWithBasisVector t :=
  ⟨(eyeLike_eq_stack t hne).2, (eyeLike_eq_stack t hne).1⟩

/-- **C07.** Slice `i` of `eye_like(tree)` is `basis_vector_from_index(i, tree)`. -/
theorem C07_eye_like_slices [OfNat α 0] [OfNat α 1] (t : PyTree α) (hne : t.leaves ≠ []) :
    ∃ r, eyeLike t = .ok r ∧ r.map Arr.shape = t.map (fun a => numEntries t :: a.shape) ∧
      ∀ i < numEntries t, Tree.tmap (Arr.row i) r = basisVectorFromIndex i t := by
  obtain ⟨hel, her⟩ := eye_rows (α := α) (numEntries t)
  obtain ⟨r, hr, htd, hsh, hwf, hrow⟩ := unravel_rows t hne (numEntries t) (jnpEye α (numEntries t)).data hel
  refine ⟨r, by unfold eyeLike; rw [getSize_eq]; exact hr, Tree.map_eq_of htd hsh, ?_⟩
  intro i hi
  obtain ⟨b, hb, hbl, hbw, hbe⟩ := basisVector_ok (α := α) i t
  rw [hrow i hi, her i hi, hb, unflattenLike_ok_iff t hne]
  exact ⟨hbl, hbw, hbe⟩

/-- **C07 (no leaves).** Both constructions differ on leafless trees: `eye_like` raises. -/
theorem C07_eye_like_no_leaves [OfNat α 0] [OfNat α 1] (t : PyTree α) (h : t.leaves = []) : Raises (eyeLike t) := by
  refine ⟨.valueError, ?_⟩
  simp [eyeLike, unravelArrayIntoPytree, h, jnpEye, splitAxis, cumsum, cumsumFrom, zipStrict, error_bind]

example : sampleTree.leaves ≠ [] := by simp [sampleTree, Tree.leaves, Tree.leavesL]

end Laplax.Props
