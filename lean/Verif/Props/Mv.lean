import Verif.Lib.MvLemmas
import Verif.Props.Tree
import Mathlib.Data.Real.Basic
import Mathlib.LinearAlgebra.Matrix.ToLin

/-! # Properties C08, C09, C13: dense representations, diagonals, precomputation -/

namespace Laplax.Props
open Laplax Laplax.Spec
variable {α : Type}

/-- A linear map is determined by its columns: `M` with columns `f e_j` satisfies `M v = f v`. -/
theorem matrix_of_columns {K : Type} [CommRing K] {m n : Nat} (f : (Fin n → K) →ₗ[K] (Fin m → K)) (v : Fin n → K) :
    (Matrix.of (fun i j => f (unitFn K n j) i)).mulVec v = f v := by
  have hu : ∀ j, unitFn K n j = Pi.single j 1 := by
    intro j; funext i; simp only [unitFn, Pi.single_apply]
  have h : (Matrix.of (fun i j => f (unitFn K n j) i)) = LinearMap.toMatrix' f := by
    ext i j; rw [LinearMap.toMatrix'_apply, Matrix.of_apply, hu]
  rw [h, ← Matrix.toLin'_apply, Matrix.toLin'_toMatrix']

/-! ## C08 to_dense -/

/-- **C08 (columns, integer layout).** For *any* product on flat vectors, `to_dense(mv, n)` is the matrix whose `j`-th
column is `mv(e_j)`, for every admissible batch size. -/
theorem C08_to_dense_int_columns [Inhabited α] [OfNat α 0] [OfNat α 1] {m n : Nat} (hn : 0 < n)
    (mv : PyTree α → Except Err (PyTree α)) (f : (Fin n → α) → (Fin m → α)) (hmv : RepresentsFlat mv f)
    (batch : Option Nat) (hb : batch ≠ some 0) :
    toDense mv (.int n) batch = .ok (.leaf (denseArr (Matrix.of (fun i j => f (unitFn α n j) i)))) := by
  unfold toDense
  simp only [laxMap_eq batch hb, chunks_eye, List.map_ofFn]
  rw [mapE_ofFn mv _ (fun j : Fin n => (Tree.leaf ⟨[m], List.ofFn (f (unitFn α n j))⟩ : PyTree α)), ok_bind]
  · exact stack_transpose hn (Matrix.of (fun i j => f (unitFn α n j) i))
  · intro j
    have := hmv (unitFn α n j)
    simp only [Function.comp, flatLeaf, List.length_ofFn]
    exact this

/-- **C08 (columns, pytree layout).** The same with a pytree layout: column `j` is `mv(basis_vector(j))`. -/
theorem C08_to_dense_tree_columns [Inhabited α] [OfNat α 0] [OfNat α 1] {m n : Nat} (layout : PyTree α)
    (hne : layout.leaves ≠ []) (hsz : numEntries layout = n) (hn : 0 < n)
    (mv : PyTree α → Except Err (PyTree α)) (f : (Fin n → α) → (Fin m → α)) (hmv : RepresentsTreeToFlat layout mv f)
    (batch : Option Nat) (hb : batch ≠ some 0) :
    toDense mv (.tree layout) batch = .ok (.leaf (denseArr (Matrix.of (fun i j => f (unitFn α n j) i)))) := by
  subst hsz
  obtain ⟨r, hr, _, hrow⟩ := C07_eye_like_slices (α := α) layout hne
  choose b hb' using fun i => basisVector_ok (α := α) i layout
  unfold toDense
  simp only [hr, ok_bind, laxMap_eq batch hb, getSize_eq]
  rw [mapE_of_forall _ b _ (fun i hi => by
    rw [hrow i (by simpa using hi)]; exact (hb' i).1), ok_bind]
  have hro : (List.range (numEntries layout)).map b = List.ofFn (fun i : Fin (numEntries layout) => b i) := by
    apply List.ext_getElem
    · simp
    · intro i _ _; simp
  rw [hro, mapE_ofFn mv _ (fun j : Fin (numEntries layout) =>
    (Tree.leaf ⟨[m], List.ofFn (f (unitFn α _ j))⟩ : PyTree α)), ok_bind]
  · exact stack_transpose hn (Matrix.of (fun i j => f (unitFn α _ j) i))
  · intro j
    apply hmv (unitFn α _ j) (b j) (hb' j).2.1 (hb' j).2.2.1
    have := (hb' j).2.2.2
    rw [entries] at this
    rw [this, ofFn_single]; rfl

/-- **C08 (linear maps).** For a linear product, the dense matrix reproduces it: `M @ v = mv(v)` for every `v`,
with integer and pytree layouts and every batch size. -/
theorem C08_to_dense_linear {K : Type} [CommRing K] [Inhabited K] {m n : Nat} (hn : 0 < n)
    (f : (Fin n → K) →ₗ[K] (Fin m → K)) (batch : Option Nat) (hb : batch ≠ some 0) :
    ∃ M : Matrix (Fin m) (Fin n) K, (∀ v, M.mulVec v = f v) ∧
      (∀ mv, RepresentsFlat mv f → toDense mv (.int n) batch = .ok (.leaf (denseArr M))) ∧
      (∀ layout mv, layout.leaves ≠ [] → numEntries layout = n → RepresentsTreeToFlat layout mv f →
        toDense mv (.tree layout) batch = .ok (.leaf (denseArr M))) :=
  ⟨Matrix.of (fun i j => f (unitFn K n j) i), matrix_of_columns f,
    fun mv h => C08_to_dense_int_columns hn mv f h batch hb,
    fun layout mv h1 h2 h3 => C08_to_dense_tree_columns layout h1 h2 hn mv f h3 batch hb⟩

/-- **C08 (missing layout).** `to_dense(mv, None)` always raises (although the docstring promises a default). -/
theorem C08_to_dense_none_raises [Inhabited α] [OfNat α 0] [OfNat α 1] (mv : PyTree α → Except Err (PyTree α))
    (batch : Option Nat) : Raises (toDense mv .none batch) := by
  obtain ⟨e, he⟩ := C07_eye_like_no_leaves (α := α) (Tree.node "None" []) (by simp [Tree.leaves, Tree.leavesL])
  exact ⟨e, by simp only [toDense, he, error_bind]⟩

/-- Non-vacuity: a concrete callable representing a concrete linear map. -/
example : ∃ (mv : PyTree Int → Except Err (PyTree Int)) (f : (Fin 2 → Int) →ₗ[Int] (Fin 2 → Int)),
    RepresentsFlat mv f ∧ f ![1, 2] = ![2, 1] := by
  refine ⟨fun t => match t with
    | .leaf ⟨_, [a, b]⟩ => .ok (.leaf ⟨[2], [b, a]⟩)
    | _ => .error .typeError, ⟨⟨fun x => ![x 1, x 0], ?_⟩, ?_⟩, ?_, ?_⟩
  · intro x y; ext i; fin_cases i <;> simp
  · intro c x; ext i; fin_cases i <;> simp
  · intro x; simp
  · rfl

/-! ## C09 diagonal -/

/-- **C09 (integer layout).** `diagonal(mv, n)` lists `mv(e_i)[i]`. -/
theorem C09_diagonal_int [OfNat α 0] [OfNat α 1] {n : Nat} (mv : PyTree α → Except Err (PyTree α))
    (f : (Fin n → α) → (Fin n → α)) (hmv : RepresentsFlat mv f) (batch : Option Nat) (hb : batch ≠ some 0) :
    diagonal (.callable mv) (.int n) batch = .ok (List.ofFn (fun i => f (unitFn α n i) i)) := by
  have hro : List.range n = List.ofFn (fun i : Fin n => (i : Nat)) := by
    apply List.ext_getElem
    · simp
    · intro i _ _; simp
  simp only [diagonal, laxMap_eq batch hb]
  rw [hro]
  apply mapE_ofFn
  intro i
  have h := hmv (unitFn α n i)
  have e : flatLeaf ((List.replicate n (0 : α)).set i 1) = .leaf ⟨[n], List.ofFn (unitFn α n i)⟩ := by
    rw [ofFn_single]; simp only [flatLeaf, List.length_ofFn]; rfl
  rw [e, h, ok_bind, C06_tree_vec_get _ _ (by simp [entries, Tree.leaves])]
  simp [entries, Tree.leaves]

/-- **C09 (pytree layout).** `diagonal(mv, tree)` lists the `i`-th entry of `mv(basis_vector(i))`. -/
theorem C09_diagonal_tree [OfNat α 0] [OfNat α 1] {n : Nat} (layout : PyTree α) (hsz : numEntries layout = n)
    (mv : PyTree α → Except Err (PyTree α))
    (f : (Fin n → α) → (Fin n → α)) (hmv : RepresentsTree layout mv f) (batch : Option Nat) (hb : batch ≠ some 0) :
    diagonal (.callable mv) (.tree layout) batch = .ok (List.ofFn (fun i => f (unitFn α n i) i)) := by
  subst hsz
  have hro : List.range (numEntries layout) = List.ofFn (fun i : Fin (numEntries layout) => (i : Nat)) := by
    apply List.ext_getElem
    · simp
    · intro i _ _; simp
  simp only [diagonal, laxMap_eq batch hb, getSize_eq]
  rw [hro]
  apply mapE_ofFn
  intro i
  obtain ⟨b, hb1, hb2, hb3, hb4⟩ := basisVector_ok (α := α) i layout
  obtain ⟨r, hr, hre⟩ := hmv (unitFn α _ i) b hb2 hb3 (by
    rw [entries] at hb4; rw [hb4, ofFn_single]; rfl)
  rw [hb1, ok_bind, hr, ok_bind, C06_tree_vec_get _ _ (by rw [entries, hre]; simp)]
  congr 1
  have : entries r = List.ofFn (f (unitFn α _ i)) := hre
  simp [this]

/-- **C09 (agreement).** Extracting the diagonal matrix-free and extracting it from the dense matrix are the same, for
every product, layout kind and pair of batch sizes. -/
theorem C09_diagonal_eq_diag_of_dense [Inhabited α] [OfNat α 0] [OfNat α 1] {n : Nat} (hn : 0 < n)
    (f : (Fin n → α) → (Fin n → α)) (batch batch' : Option Nat) (hb : batch ≠ some 0) (hb' : batch' ≠ some 0) :
    ∃ M : Matrix (Fin n) (Fin n) α,
      (∀ mv, RepresentsFlat mv f → toDense mv (.int n) batch = .ok (.leaf (denseArr M)) ∧
        diagonal (.callable mv) (.int n) batch' = .ok (List.ofFn (fun i => M i i))) ∧
      (∀ layout mv, numEntries layout = n → RepresentsTree layout mv f →
        diagonal (.callable mv) (.tree layout) batch' = .ok (List.ofFn (fun i => M i i))) ∧
      (∀ layout, diagonal (.dense (List.ofFn (fun i => List.ofFn (fun j => M i j)))) layout batch' =
        .ok (List.ofFn (fun i => M i i))) := by
  refine ⟨Matrix.of (fun i j => f (unitFn α n j) i), fun mv h => ⟨C08_to_dense_int_columns hn mv f h batch hb, ?_⟩, ?_, ?_⟩
  · exact C09_diagonal_int mv f h batch' hb'
  · intro layout mv h1 h2
    exact C09_diagonal_tree layout h1 mv f h2 batch' hb'
  · intro layout
    have : diagonal (.dense (List.ofFn (fun i => List.ofFn (fun j => Matrix.of (fun i j => f (unitFn α n j) i) i j)))) layout batch'
        = .ok ((List.ofFn (fun i => List.ofFn (fun j => Matrix.of (fun i j => f (unitFn α n j) i) i j))).mapIdx
            (fun i r => r[i]?)).reduceOption := by
      cases layout <;> rfl
    rw [this]
    congr 1
    have hm : (List.ofFn (fun i => List.ofFn (fun j => Matrix.of (fun i j => f (unitFn α n j) i) i j))).mapIdx (fun i r => r[i]?)
        = (List.ofFn (fun i => Matrix.of (fun i j => f (unitFn α n j) i) i i)).map some := by
      apply List.ext_getElem
      · simp
      · intro i h1 h2
        have hi : i < n := by simpa using h2
        simp [hi]
    rw [hm]
    simp [List.reduceOption, List.filterMap_map]

/-- **C09 (missing layout).** A callable without layout is a `TypeError`. -/
theorem C09_diagonal_no_layout [OfNat α 0] [OfNat α 1] (mv : PyTree α → Except Err (PyTree α)) (batch : Option Nat) :
    diagonal (.callable mv) .none batch = .error .typeError := rfl

example : ∃ (layout : PyTree Int) (mv : PyTree Int → Except Err (PyTree Int)) (f : (Fin 5 → Int) → (Fin 5 → Int)),
    numEntries layout = 5 ∧ RepresentsTree layout mv f ∧ (fun i => f (unitFn Int 5 i) i) ≠ 0 := by
  refine ⟨sampleTree, fun t => .ok t, id, rfl, ?_, ?_⟩
  · intro x t _ _ h; exact ⟨t, rfl, h⟩
  · intro h; have := congrFun h 0; simp [unitFn] at this

/-! ## C13 precompute_list -/

/-- **C13.** With precomputation the getter returns `func(items[i])` for every index in range; with `items = range(n)`
the precomputed getter and the direct function agree on every `i < n`, whatever the setting and batch size. -/
theorem C13_precompute {B : Type} (func : Nat → B) (items : List Nat) (batch : Option Nat) (hb : batch ≠ some 0) :
    (∃ get, precomputeList (fun i => .ok (func i)) items (some true) batch = .ok get ∧
      ∀ i (h : i < items.length), get i = .ok (func items[i])) ∧
    (∀ n (setting : Option Bool), ∃ get, precomputeList (fun i => .ok (func i)) (List.range n) setting batch = .ok get ∧
      ∀ i, i < n → get i = .ok (func i)) := by
  have key : ∀ items : List Nat, ∃ get, precomputeList (fun i => .ok (func i)) items (some true) batch = .ok get ∧
      ∀ i (h : i < items.length), get i = .ok (func items[i]) := by
    intro items
    refine ⟨fun index => jaxGet (items.map func) index, ?_, ?_⟩
    · simp only [precomputeList, Option.getD_some, laxMap_eq batch hb, mapE_ok, ok_bind]; rfl
    · intro i h
      show jaxGet (List.map func items) (i : Int) = _
      rw [jaxGet_of_lt _ _ (by simpa using h)]; simp
  refine ⟨key items, fun n setting => ?_⟩
  obtain ⟨get, h1, h2⟩ := key (List.range n)
  match setting with
  | none => exact ⟨get, h1, fun i hi => by
      have := h2 i (by simpa using hi)
      rwa [List.getElem_range] at this⟩
  | some true => exact ⟨get, h1, fun i hi => by
      have := h2 i (by simpa using hi)
      rwa [List.getElem_range] at this⟩
  | some false => exact ⟨_, rfl, fun i _ => rfl⟩

/-- **C13 (indices beyond the list).** The precomputed getter does not raise: it returns the result of the *last* item,
whereas without precomputation the function is called on the index itself. -/
theorem C13_beyond_the_list {B : Type} (func : Nat → B) (items : List Nat) (hne : items ≠ []) (batch : Option Nat)
    (hb : batch ≠ some 0) :
    (∃ get, precomputeList (fun i => .ok (func i)) items (some true) batch = .ok get ∧
      ∀ i, items.length ≤ i → get i = .ok (func (items.getLast hne))) ∧
    (∃ get, precomputeList (fun i => .ok (func i)) items (some false) batch = .ok get ∧ ∀ i, get i = .ok (func i)) := by
  refine ⟨⟨fun index => jaxGet (items.map func) index, ?_, ?_⟩, _, rfl, fun i => rfl⟩
  · simp only [precomputeList, Option.getD_some, laxMap_eq batch hb, mapE_ok, ok_bind]; rfl
  · intro i hi
    have hpos : 0 < items.length := List.length_pos_of_ne_nil hne
    have h1 : ¬ ((i : Int) < 0) := by omega
    have h2 : min (i : Int).toNat ((items.map func).length - 1) = items.length - 1 := by simp; omega
    simp only [jaxGet, h1, if_false, h2]
    rw [List.getElem?_eq_getElem (by simp; omega)]
    simp [List.getLast_eq_getElem]

/-- **C13 (errors).** When some item makes the function raise, precomputation raises at construction (with the error of the
first such item); without precomputation construction never raises and exactly the calls on failing indices do. -/
theorem C13_errors {B : Type} (func : Nat → Except Err B) (items : List Nat) (batch : Option Nat) (hb : batch ≠ some 0) :
    ((∃ get, precomputeList func items (some true) batch = .ok get) ↔ ∀ i ∈ items, ∃ b, func i = .ok b) ∧
    (∀ pre i rest e, items = pre ++ i :: rest → (∀ j ∈ pre, ∃ b, func j = .ok b) → func i = .error e →
      precomputeList func items none batch = .error e) ∧
    precomputeList func items (some false) batch = .ok func := by
  have hfirst : ∀ pre i rest e, (∀ j ∈ pre, ∃ b, func j = .ok b) → func i = .error e →
      mapE func (pre ++ i :: rest) = .error e := by
    intro pre i rest e hp he
    induction pre with
    | nil => simp [mapE, he, error_bind]
    | cons j pre ih =>
      obtain ⟨b, hb'⟩ := hp j (by simp)
      simp only [List.cons_append, mapE, hb', ok_bind, ih (fun k hk => hp k (by simp [hk])), error_bind]
  have hall : ∀ xs : List Nat, (∃ ys, mapE func xs = .ok ys) ↔ ∀ i ∈ xs, ∃ b, func i = .ok b := by
    intro xs
    induction xs with
    | nil => simp [mapE]
    | cons x xs ih =>
      simp only [mapE, List.mem_cons, forall_eq_or_imp, ← ih]
      cases hx : func x with
      | error e => simp [error_bind]
      | ok b =>
        cases hxs : mapE func xs with
        | error e => simp [ok_bind, error_bind]
        | ok ys => simp only [ok_bind]; exact ⟨fun _ => ⟨⟨b, rfl⟩, ys, rfl⟩, fun _ => ⟨_, rfl⟩⟩
  refine ⟨⟨fun ⟨get, h⟩ i hi => ?_, fun h => ?_⟩, ?_, rfl⟩
  · simp only [precomputeList, Option.getD_some, laxMap_eq batch hb] at h
    obtain ⟨ys, hys, _⟩ := (bind_ok_iff _ _ _).1 h
    exact (hall items).1 ⟨ys, hys⟩ i hi
  · obtain ⟨ys, hys⟩ := (hall items).2 h
    refine ⟨fun index => jaxGet ys index, ?_⟩
    simp only [precomputeList, Option.getD_some, laxMap_eq batch hb]
    rw [hys, ok_bind]
    rfl
  · rintro pre i rest e rfl hp he
    simp only [precomputeList, Option.getD_none, laxMap_eq batch hb, hfirst pre i rest e hp he, error_bind]

example : (some 3 : Option Nat) ≠ some 0 ∧ 2 < (List.range 5).length ∧ List.range 5 ≠ [] := by decide

end Laplax.Props
