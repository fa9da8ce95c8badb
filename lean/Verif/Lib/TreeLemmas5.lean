import Verif.Lib.TreeLemmas4

/-! Auxiliary lemmas: partial flattening, the two identity constructions. -/

namespace Laplax
open Spec
variable {α : Type}

theorem cumsumFrom_mul (s : Nat) (ns : List Nat) (R : Nat) :
    (cumsumFrom s ns).map (· * R) = cumsumFrom (s * R) (ns.map (· * R)) := by
  induction ns generalizing s with
  | nil => rfl
  | cons n ns ih => simp only [cumsumFrom, List.map_cons, ih, Nat.add_mul]

theorem shapeSize_dropLast (sh : List Nat) (R : Nat) (h : sh.getLast? = some R) :
    shapeSize sh.dropLast * R = shapeSize sh := by
  have : sh = sh.dropLast ++ [R] := by
    have hne : sh ≠ [] := by intro h'; subst h'; simp at h
    rw [List.getLast?_eq_getLast_of_ne_nil hne] at h
    injection h with h
    rw [← h, List.dropLast_append_getLast]
  conv => rhs; rw [this]
  rw [shapeSize_append]; simp [shapeSize]

/-- A tree whose leaves all have last dimension `R`. -/
theorem partial_split (L : PyTree α) (hL : L.leaves ≠ []) (R : Nat)
    (hR : ∀ a ∈ L.leaves, a.shape.getLast? = some R) (xs : List α) :
    jnpSplit xs ((cumsum ((L.leaves.map Arr.shape).map (fun sh => shapeSize sh.dropLast))).dropLast.map (· * R)) =
      segs ((L.leaves.map Arr.shape).map shapeSize) xs := by
  rw [List.map_dropLast, cumsum, cumsumFrom_mul, Nat.zero_mul, List.map_map]
  have : (L.leaves.map Arr.shape).map ((· * R) ∘ fun sh => shapeSize sh.dropLast) =
      (L.leaves.map Arr.shape).map shapeSize := by
    apply List.map_congr_left
    intro sh hsh
    obtain ⟨a, ha, rfl⟩ := List.mem_map.1 hsh
    exact shapeSize_dropLast _ R (hR a ha)
  rw [this]
  exact jnpSplit_cumsum _ (by simpa using hL) xs

theorem partialUnflatten_eq (L : PyTree α) (hL : L.leaves ≠ []) (R n : Nat)
    (hR : ∀ a ∈ L.leaves, a.shape.getLast? = some R) (xs : List α) :
    partialUnflatten L ⟨[n, R], xs⟩ = unflattenLike L xs := by
  unfold partialUnflatten unflattenLike
  have hne : (L.leaves.map Arr.shape).map shapeSize ≠ [] := by simpa using hL
  simp only [partial_split L hL R hR, jnpSplit_cumsum _ hne]
  rw [zipStrict_eq_ok _ _ (by rw [length_segs]; simp), ok_bind, if_neg (by rw [length_segs]; simp)]

theorem partialFlatten_eq (t : PyTree α) (ht : t.leaves ≠ []) (R : Nat) (hR0 : R ≠ 0)
    (hR : ∀ a ∈ t.leaves, a.shape.getLast? = some R) :
    partialFlatten t = .ok ⟨[(entries t).length / R, R], entries t⟩ := by
  unfold partialFlatten entries
  cases hl : t.leaves with
  | nil => exact absurd hl ht
  | cons a as =>
    rw [hl] at hR
    simp only [hR a (by simp)]
    cases R with
    | zero => exact absurd rfl hR0
    | succ R =>
      rw [if_pos]
      rw [List.all_eq_true]
      intro b hb; simp [hR b hb]

theorem flatten_chunks (n k : Nat) (xs : List α) (h : xs.length = k * n) : (chunks n k xs).flatten = xs := by
  induction k generalizing xs with
  | zero => simp [chunks]; symm; simpa using h
  | succ k ih =>
    simp only [chunks, List.flatten_cons]
    rw [ih, List.take_append_drop]
    rw [List.length_drop, h, Nat.add_mul, Nat.one_mul]; omega

/-- An array is the stack of its rows. -/
theorem stack_of_rows (a : Arr α) (n : Nat) (sh : List Nat) (hs : a.shape = n :: sh) (hw : a.WF)
    (rows : List (Arr α)) (hl : rows.length = n) (hrows : ∀ i (h : i < rows.length), a.row i = .ok rows[i]) :
    a = stackArr sh rows := by
  obtain ⟨shape, data⟩ := a
  simp only at hs; subst hs
  unfold stackArr
  rw [hl]
  have hlen : data.length = n * shapeSize sh := by rw [← shapeSize_cons]; exact hw
  congr 1
  rw [← flatten_chunks (shapeSize sh) n data hlen]
  congr 1
  apply List.ext_getElem
  · simp [length_chunks, hl]
  · intro i h1 h2
    rw [getElem_chunks]
    simp only [List.length_map] at h2
    have := hrows i h2
    simp only [Arr.row, if_pos (show i < n by omega)] at this
    injection this with this
    simp [← this]

theorem mapE_of_forall {β γ : Type} (f : β → Except Err γ) (g : β → γ) (xs : List β) (h : ∀ x ∈ xs, f x = .ok (g x)) :
    mapE f xs = .ok (xs.map g) := by
  rw [← mapE_ok]; exact mapE_congr h

theorem eyeLike_eq_stack [OfNat α 0] [OfNat α 1] (t : PyTree α) (ht : t.leaves ≠ []) :
    eyeLike t = eyeLikeWithBasisVector t ∧ ∃ r, eyeLike t = .ok r := by
  obtain ⟨hel, her⟩ := eye_rows (α := α) (numEntries t)
  obtain ⟨r, hr, htd, hsh, hwf, hrow⟩ := unravel_rows t ht (numEntries t) (jnpEye α (numEntries t)).data hel
  have hr' : eyeLike t = .ok r := by
    unfold eyeLike; rw [getSize_eq]; exact hr
  refine ⟨?_, r, hr'⟩
  rw [hr']
  unfold eyeLikeWithBasisVector laxMapTree
  rw [getSize_eq]
  choose b hb using fun i => basisVector_ok (α := α) i t
  rw [mapE_of_forall (fun i : ℕ => basisVectorFromIndex i t) b _ (fun i _ => (hb i).1), ok_bind]
  symm
  rw [Tree.unflatten_ok_iff]
  refine ⟨htd, ?_⟩
  have hlen : r.leaves.length = t.leaves.length := by simpa using congrArg List.length hsh
  have hbrow : ∀ i, i < numEntries t → Tree.tmap (Arr.row i) r = .ok (b i) := by
    intro i hi
    rw [hrow i hi, her i hi, unflattenLike_ok_iff t ht]
    exact ⟨(hb i).2.1, (hb i).2.2.1, (hb i).2.2.2⟩
  apply List.ext_getElem
  · simp [hlen]
  · intro j h1 h2
    rw [List.getElem_mapIdx]
    have hj : j < t.leaves.length := by omega
    have hs : (r.leaves[j]).shape = numEntries t :: (t.leaves[j]).shape := by
      have := List.getElem_of_eq hsh (i := j) (by simpa using h1)
      simpa using this
    apply stack_of_rows _ (numEntries t) _ hs (hwf _ (List.getElem_mem h1))
    · simp
    · intro i hi
      have hi' : i < numEntries t := by simpa using hi
      have := hbrow i hi'
      unfold Tree.tmap at this
      rw [bind_ok_iff] at this
      obtain ⟨ls, hm, hu⟩ := this
      rw [Tree.unflatten_ok_iff] at hu
      rw [mapE_ok_iff, List.forall₂_iff_get] at hm
      have hjl : j < ls.length := by rw [← hm.1]; exact h1
      have := hm.2 j h1 hjl
      simp only [List.get_eq_getElem] at this
      rw [this]
      simp [hu.2, List.getElem?_eq_getElem hjl]

end Laplax
