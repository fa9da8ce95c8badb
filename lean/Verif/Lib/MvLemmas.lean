import Verif.Lib.TreeLemmas5
import Verif.Spec.Linear

namespace Laplax
open Spec
variable {α : Type}

theorem mapE_append {A B : Type} (f : A → Except Err B) (xs ys : List A) :
    mapE f (xs ++ ys) = (do let a ← mapE f xs; let b ← mapE f ys; return a ++ b) := by
  induction xs with
  | nil =>
    simp only [List.nil_append, mapE, ok_bind]
    cases mapE f ys <;> rfl
  | cons x xs ih =>
    simp only [List.cons_append, mapE, ih]
    cases f x with
    | error e => rfl
    | ok b =>
      simp only [ok_bind]
      cases mapE f xs with
      | error e => rfl
      | ok bs =>
        simp only [ok_bind]
        cases mapE f ys with
        | error e => rfl
        | ok cs => rfl

theorem mapE_flatten {A B : Type} (f : A → Except Err B) (L : List (List A)) :
    mapE f L.flatten = (do let a ← mapE (mapE f) L; return a.flatten) := by
  induction L with
  | nil => rfl
  | cons l L ih =>
    simp only [List.flatten_cons, mapE_append, ih]
    conv_rhs => rw [mapE]
    cases mapE f l with
    | error e => rfl
    | ok b =>
      simp only [ok_bind]
      cases mapE (mapE f) L with
      | error e => rfl
      | ok bs => rfl

theorem flatten_chunks_append {A : Type} (b k : Nat) (xs : List A) (h : k * b ≤ xs.length) :
    (chunks b k xs).flatten ++ xs.drop (k * b) = xs := by
  induction k generalizing xs with
  | zero => simp [chunks]
  | succ k ih =>
    have h' : k * b + b ≤ xs.length := by rw [← Nat.succ_mul]; exact h
    simp only [chunks, List.flatten_cons, List.append_assoc]
    have := ih (xs.drop b) (by simp; omega)
    rw [List.drop_drop] at this
    rw [show (k + 1) * b = b + k * b by rw [Nat.succ_mul, Nat.add_comm], this, List.take_append_drop]

/-- Batching never changes the result of `lax.map`. -/
theorem laxMap_eq {A B : Type} (batch : Option Nat) (hb : batch ≠ some 0) (f : A → Except Err B) (xs : List A) :
    laxMap batch f xs = mapE f xs := by
  match batch with
  | none => rfl
  | some 0 => exact absurd rfl hb
  | some (b + 1) =>
    have hle : xs.length / (b + 1) * (b + 1) ≤ xs.length := Nat.div_mul_le_self _ _
    simp only [laxMap]
    conv_rhs => rw [← flatten_chunks_append (b + 1) (xs.length / (b + 1)) xs hle, mapE_append, mapE_flatten]
    cases mapE (mapE f) (chunks (b + 1) (xs.length / (b + 1)) xs) <;> rfl

theorem ofFn_single [OfNat α 0] [OfNat α 1] (n : Nat) (i : Fin n) :
    (List.replicate n (0 : α)).set i 1 = List.ofFn (fun j : Fin n => if j = i then (1 : α) else 0) := by
  apply List.ext_getElem
  · simp
  · intro k h1 h2
    simp only [List.getElem_set, List.getElem_replicate, List.getElem_ofFn, Fin.ext_iff]
    by_cases h : (i : Nat) = k
    · subst h; simp
    · rw [if_neg h, if_neg (fun h' => h h'.symm)]

theorem chunks_eye [OfNat α 0] [OfNat α 1] (n : Nat) :
    chunks n n (jnpEye α n).data = List.ofFn (fun i : Fin n => List.ofFn (fun j : Fin n => if j = i then (1 : α) else 0)) := by
  apply List.ext_getElem
  · simp [length_chunks]
  · intro i h1 h2
    have hi : i < n := by simpa [length_chunks] using h1
    rw [getElem_chunks, (eye_rows n).2 i hi, List.getElem_ofFn, ← ofFn_single n ⟨i, hi⟩]

theorem chunks_one (xs : List α) : chunks 1 xs.length xs = xs.map (fun x => [x]) := by
  induction xs with
  | nil => rfl
  | cons x xs ih => simp [chunks, ih]

theorem transposeData_one [Inhabited α] (xs : List α) : transposeData [xs.length] xs = xs := by
  unfold transposeData
  simp only [show shapeSize ([] : List Nat) = 1 from rfl, chunks_one, List.map_map]
  simp [transposeData, Function.comp_def]

theorem transposeData_two [Inhabited α] {m n : Nat} (M : Matrix (Fin m) (Fin n) α) :
    transposeData [n, m] (List.ofFn (fun j => List.ofFn (fun i => M i j))).flatten = (denseArr M).data := by
  unfold transposeData
  have hs : shapeSize [m] = m := by simp [shapeSize]
  have hc : chunks m n (List.ofFn (fun j => List.ofFn (fun i => M i j))).flatten = List.ofFn (fun j => List.ofFn (fun i => M i j)) := by
    apply List.ext_getElem
    · simp [length_chunks]
    · intro j h1 h2
      rw [getElem_chunks]
      rw [drop_take_flatten _ m (by
        intro d hd
        rw [List.mem_ofFn] at hd
        obtain ⟨k, rfl⟩ := hd
        simp) j h2]
  simp only [hs, hc]
  have ht : (List.ofFn (fun j => List.ofFn (fun i => M i j))).map (transposeData [m]) =
      List.ofFn (fun j => List.ofFn (fun i => M i j)) := by
    conv_rhs => rw [← List.map_id (List.ofFn fun j => List.ofFn (fun i => M i j))]
    apply List.map_congr_left
    intro d hd
    rw [List.mem_ofFn] at hd
    obtain ⟨k, rfl⟩ := hd
    have := transposeData_one (List.ofFn (fun i => M i k))
    simpa using this
  rw [ht]
  unfold denseArr
  congr 1
  apply List.ext_getElem
  · simp
  · intro i h1 h2
    have hi : i < m := by simpa using h2
    simp only [List.getElem_map, List.getElem_range, List.getElem_ofFn]
    apply List.ext_getElem
    · simp
    · intro j g1 g2
      simp [hi]

/-- Stacking flat results and transposing gives the matrix with those columns. -/
theorem stack_transpose [Inhabited α] {m n : Nat} (hn : 0 < n) (M : Matrix (Fin m) (Fin n) α) :
    (do let st ← stackTrees (List.ofFn (fun j : Fin n => (Tree.leaf ⟨[m], List.ofFn (fun i => M i j)⟩ : PyTree α)))
        Tree.tmap (fun a : Arr α => .ok a.transpose) st) = .ok (.leaf (denseArr M)) := by
  have hst : stackTrees (List.ofFn (fun j : Fin n => (Tree.leaf ⟨[m], List.ofFn (fun i => M i j)⟩ : PyTree α))) =
      .ok (.leaf ⟨[n, m], (List.ofFn (fun j => List.ofFn (fun i => M i j))).flatten⟩) := by
    obtain ⟨k, rfl⟩ : ∃ k, n = k + 1 := ⟨n - 1, by omega⟩
    rw [List.ofFn_succ]
    unfold stackTrees
    simp only
    rw [← List.ofFn_succ (f := fun j : Fin (k+1) => (Tree.leaf ⟨[m], List.ofFn (fun i => M i j)⟩ : PyTree α))]
    rw [Tree.unflatten_ok_iff]
    constructor
    · simp [Tree.treedef, Tree.map]
    · simp only [Tree.leaves, List.mapIdx_cons, List.mapIdx_nil, stackArr, List.map_ofFn, Function.comp_def, List.length_ofFn]
      simp
  rw [hst, ok_bind, Tree.tmap_ok]
  simp only [Tree.map, Arr.transpose, List.reverse_cons, List.reverse_nil, List.nil_append, List.cons_append, transposeData_two]
  rfl

theorem mapE_ofFn {A B : Type} {n : Nat} (f : A → Except Err B) (a : Fin n → A) (b : Fin n → B) (h : ∀ i, f (a i) = .ok (b i)) :
    mapE f (List.ofFn a) = .ok (List.ofFn b) := by
  rw [mapE_ok_iff, List.forall₂_iff_get]
  refine ⟨by simp, ?_⟩
  intro i h1 h2
  simp [h]

end Laplax
