import Verif.Model.Loader
import Verif.Spec.Loader
import Verif.Lib.MvLemmas
import Mathlib.Algebra.Field.Defs
import Mathlib.Tactic.Abel

namespace Laplax
open Spec
variable {α : Type}

theorem length_colSum [AddCommMonoid α] (s : Nat) (rows : List (List α)) : (colSum s rows).length = s := by
  simp [colSum]

theorem addL_colSum [AddCommMonoid α] (s : Nat) (xs ys : List (List α)) :
    addL (colSum s xs) (colSum s ys) = colSum s (xs ++ ys) := by
  apply List.ext_getElem
  · simp [addL, colSum]
  · intro k h1 h2
    simp [addL, colSum]

theorem colSum_nil [AddCommMonoid α] (s : Nat) : colSum s ([] : List (List α)) = List.replicate s 0 := by
  apply List.ext_getElem
  · simp [colSum]
  · intro k h1 h2; simp [colSum]

theorem colSum_singleton [AddCommMonoid α] (s : Nat) (r : List α) (h : r.length = s) : colSum s [r] = r := by
  apply List.ext_getElem
  · simp [colSum, h]
  · intro k h1 h2; simp [colSum, h2]

theorem foldl_addL [AddCommMonoid α] (s : Nat) (rows pre : List (List α)) (h : ∀ r ∈ rows, r.length = s) :
    rows.foldl addL (colSum s pre) = colSum s (pre ++ rows) := by
  induction rows generalizing pre with
  | nil => simp
  | cons r rows ih =>
    have h1 := ih (pre ++ [r]) (fun r hr => h r (by simp [hr]))
    have h2 := addL_colSum s pre [r]
    rw [colSum_singleton s r (h r (by simp))] at h2
    rw [List.foldl_cons, h2, h1]; simp

theorem sumRows_eq [AddCommMonoid α] (s : Nat) (rows : List (List α)) (h : ∀ r ∈ rows, r.length = s) :
    sumRows s rows = colSum s rows := by
  have := foldl_addL s rows [] h
  rw [colSum_nil] at this
  exact this

theorem chunks_flatten (ds : List (List α)) (s : Nat) (h : ∀ d ∈ ds, d.length = s) :
    chunks s ds.length ds.flatten = ds := by
  apply List.ext_getElem
  · simp [length_chunks]
  · intro i h1 h2
    rw [getElem_chunks, drop_take_flatten ds s h i h2]

theorem batchArr_sumAxis0 [AddCommMonoid α] {X : Type} (kd : Bool) (sh : List Nat) (g : X → List α)
    (hg : ∀ x, (g x).length = shapeSize sh) (batch : List X) :
    (batchArr sh g batch).sumAxis0 kd = .ok ⟨if kd then 1 :: sh else sh, colSum (shapeSize sh) (batch.map g)⟩ := by
  have hrow : ∀ r ∈ batch.map g, r.length = shapeSize sh := by
    intro r hr; obtain ⟨x, _, rfl⟩ := List.mem_map.1 hr; exact hg x
  simp only [Arr.sumAxis0, batchArr]
  have := chunks_flatten (batch.map g) (shapeSize sh) hrow
  rw [List.length_map] at this
  rw [this, sumRows_eq _ _ hrow]

/-- Loop invariant rule for `process_batches`. -/
theorem processLoop_inv {B R S : Type} (function : B → Except Err R) (reduce : R → Option S → Except Err (R × S))
    (Inv : List B → R → S → Prop)
    (h0 : ∀ b, ∃ r rs, function b = .ok r ∧ reduce r none = .ok rs ∧ Inv [b] rs.1 rs.2)
    (h1 : ∀ pre b r₀ s₀, pre ≠ [] → Inv pre r₀ s₀ →
      ∃ r rs, function b = .ok r ∧ reduce r (some s₀) = .ok rs ∧ Inv (pre ++ [b]) rs.1 rs.2)
    (batches : List B) (hne : batches ≠ []) :
    ∃ r s, processBatches function reduce batches = .ok r ∧ Inv batches r s := by
  have loop : ∀ (bs pre : List B) (r₀ : R) (s₀ : S), pre ≠ [] → Inv pre r₀ s₀ →
      ∃ r s, processLoop function reduce (some (r₀, s₀)) bs = .ok (some (r, s)) ∧ Inv (pre ++ bs) r s := by
    intro bs
    induction bs with
    | nil => intro pre r₀ s₀ _ hi; exact ⟨r₀, s₀, rfl, by simpa using hi⟩
    | cons b bs ih =>
      intro pre r₀ s₀ hp hi
      obtain ⟨r, rs, hf, hr, hi'⟩ := h1 pre b r₀ s₀ hp hi
      obtain ⟨r', s', hl, hi''⟩ := ih (pre ++ [b]) rs.1 rs.2 (by simp) hi'
      refine ⟨r', s', ?_, by simpa using hi''⟩
      simp only [processLoop, hf, ok_bind, Option.map_some, hr]
      exact hl
  cases batches with
  | nil => exact absurd rfl hne
  | cons b bs =>
    obtain ⟨r, rs, hf, hr, hi⟩ := h0 b
    obtain ⟨r', s', hl, hi'⟩ := loop bs [b] rs.1 rs.2 (by simp) hi
    refine ⟨r', s', ?_, by simpa using hi'⟩
    simp only [processBatches, processLoop, hf, ok_bind, Option.map_none, hr]
    rw [show (some rs : Option (R × S)) = some (rs.1, rs.2) from rfl, hl]; rfl

theorem zipWith_arr (f : α → α → α) (sh : List Nat) (xs ys : List α) :
    Arr.zipWith f ⟨sh, xs⟩ ⟨sh, ys⟩ = .ok ⟨sh, List.zipWith f xs ys⟩ := by
  simp [Arr.zipWith]

theorem addL_comm [AddCommMonoid α] (xs ys : List α) : addL xs ys = addL ys xs := by
  unfold addL; rw [List.zipWith_comm]; simp only [add_comm]

/-! ### Pytree lifting -/

theorem tmap_ok_iff {β γ : Type} (f : β → Except Err γ) (t : Tree β) (u : Tree γ) :
    Tree.tmap f t = .ok u ↔ u.treedef = t.treedef ∧ List.Forall₂ (fun x y => f x = .ok y) t.leaves u.leaves := by
  unfold Tree.tmap
  rw [bind_ok_iff]
  simp only [mapE_ok_iff, Tree.unflatten_ok_iff]
  constructor
  · rintro ⟨a, h1, h2, h3⟩; subst h3; exact ⟨h2, h1⟩
  · rintro ⟨h1, h2⟩; exact ⟨_, h2, h1, rfl⟩

theorem tmap2_ok_iff {β γ δ : Type} (f : β → γ → Except Err δ) (t1 : Tree β) (t2 : Tree γ) (h : t1.treedef = t2.treedef)
    (u : Tree δ) :
    Tree.tmap2 f t1 t2 = .ok u ↔ u.treedef = t1.treedef ∧
      List.Forall₂ (fun p y => f p.1 p.2 = .ok y) (t1.leaves.zip t2.leaves) u.leaves := by
  have hl : t1.leaves.length = t2.leaves.length := by
    rw [← Tree.length_leaves_treedef, h, Tree.length_leaves_treedef]
  unfold Tree.tmap2
  rw [if_pos ((Tree.defEq_iff _ _).2 h), zipStrict_eq_ok _ _ hl, ok_bind, bind_ok_iff]
  simp only [mapE_ok_iff, Tree.unflatten_ok_iff]
  constructor
  · rintro ⟨a, h1, h2, h3⟩; subst h3; exact ⟨h2, h1⟩
  · rintro ⟨h1, h2⟩; exact ⟨_, h2, h1, rfl⟩

/-- Build a tree from a structure and an indexed family of leaves. -/
theorem exists_tree {β : Type} (td : Tree Unit) (k : Nat) (hk : td.leaves.length = k) (f : Fin k → β) :
    ∃ t : Tree β, t.treedef = td ∧ t.leaves = List.ofFn f := by
  obtain ⟨t, ht⟩ := Tree.unflatten_isOk td (List.ofFn f) (by simp [hk])
  exact ⟨t, (Tree.unflatten_ok_iff _ _ _).1 ht⟩

/-- If every leaf position satisfies a leaf-level loop invariant, the pytree reduction satisfies it leafwise. -/
theorem processBatches_lift {B S : Type} (red : Arr α → Option S → Except Err (Arr α × S)) (td : Tree Unit) (k : Nat)
    (hk : td.leaves.length = k) (F : B → PyTree α) (leaf : Fin k → B → Arr α)
    (hF : ∀ b, (F b).treedef = td ∧ (F b).leaves = List.ofFn (fun j => leaf j b))
    (Inv : Fin k → List B → Arr α → S → Prop)
    (h0 : ∀ j b, ∃ rs, red (leaf j b) none = .ok rs ∧ Inv j [b] rs.1 rs.2)
    (h1 : ∀ j pre b r₀ s₀, pre ≠ [] → Inv j pre r₀ s₀ →
      ∃ rs, red (leaf j b) (some s₀) = .ok rs ∧ Inv j (pre ++ [b]) rs.1 rs.2)
    (batches : List B) (hne : batches ≠ []) :
    ∃ t : PyTree α, processBatches (fun b => .ok (F b)) (liftReduce red) batches = .ok t ∧ t.treedef = td ∧
      ∃ (r : Fin k → Arr α) (s : Fin k → S), t.leaves = List.ofFn r ∧ ∀ j, Inv j batches (r j) (s j) := by
  let TInv : List B → PyTree α → Tree S → Prop := fun pre t st =>
    t.treedef = td ∧ st.treedef = td ∧ ∃ (r : Fin k → Arr α) (s : Fin k → S), t.leaves = List.ofFn r ∧
      st.leaves = List.ofFn s ∧ ∀ j, Inv j pre (r j) (s j)
  have key := fun a c => processLoop_inv (fun b => .ok (F b)) (liftReduce red) TInv a c batches hne
  obtain ⟨t, s, h, hi⟩ := key (by
    intro b
    choose rs hrs hinv using fun j => h0 j b
    obtain ⟨u, hu, hul⟩ := exists_tree td k hk rs
    refine ⟨F b, (u.map Prod.fst, u.map Prod.snd), rfl, ?_, ?_⟩
    · have : Tree.tmap (fun a => red a none) (F b) = .ok u := by
        rw [tmap_ok_iff]
        refine ⟨by rw [hu, (hF b).1], ?_⟩
        rw [(hF b).2, hul, List.forall₂_iff_get]
        refine ⟨by simp, ?_⟩
        intro i g1 g2; simp [hrs]
      simp only [liftReduce, this, ok_bind]; rfl
    · refine ⟨by rw [Tree.treedef_map, hu], by rw [Tree.treedef_map, hu], fun j => (rs j).1, fun j => (rs j).2, ?_, ?_, hinv⟩
      · rw [Tree.leaves_map, hul, List.map_ofFn]; rfl
      · rw [Tree.leaves_map, hul, List.map_ofFn]; rfl) (by
    rintro pre b t₀ st₀ hp ⟨ht, hst, r₀, s₀, hr, hs, hinv⟩
    choose rs hrs hinv' using fun j => h1 j pre b (r₀ j) (s₀ j) hp (hinv j)
    obtain ⟨u, hu, hul⟩ := exists_tree td k hk rs
    refine ⟨F b, (u.map Prod.fst, u.map Prod.snd), rfl, ?_, ?_⟩
    · have : Tree.tmap2 (fun a s => red a (some s)) (F b) st₀ = .ok u := by
        rw [tmap2_ok_iff _ _ _ (by rw [(hF b).1, hst])]
        refine ⟨by rw [hu, (hF b).1], ?_⟩
        rw [(hF b).2, hs, hul, List.forall₂_iff_get]
        refine ⟨by simp, ?_⟩
        intro i g1 g2; simp [hrs]
      simp only [liftReduce, this, ok_bind]; rfl
    · refine ⟨by rw [Tree.treedef_map, hu], by rw [Tree.treedef_map, hu], fun j => (rs j).1, fun j => (rs j).2, ?_, ?_, hinv'⟩
      · rw [Tree.leaves_map, hul, List.map_ofFn]; rfl
      · rw [Tree.leaves_map, hul, List.map_ofFn]; rfl)
  obtain ⟨ht, _, r, s, h2, _, h4⟩ := hi
  exact ⟨t, h, ht, r, s, h2, h4⟩

end Laplax
