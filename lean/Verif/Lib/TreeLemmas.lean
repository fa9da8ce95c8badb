import Verif.Model.TreeOps
import Mathlib.Data.List.Forall2

/-! Auxiliary lemmas about `mapE`, `zipStrict`, trees and splitting. -/

namespace Laplax

theorem ok_bind {ε α β : Type} (a : α) (f : α → Except ε β) : ((Except.ok a : Except ε α) >>= f) = f a := rfl
theorem error_bind {ε α β : Type} (e : ε) (f : α → Except ε β) :
    ((Except.error e : Except ε α) >>= f) = .error e := rfl
theorem bind_ok_iff {ε α β : Type} (x : Except ε α) (f : α → Except ε β) (b : β) :
    (x >>= f) = .ok b ↔ ∃ a, x = .ok a ∧ f a = .ok b := by
  cases x with
  | error e => simp [error_bind]
  | ok a => simp [ok_bind]

theorem mapE_ok {α β} (f : α → β) (xs : List α) : mapE (fun a => (.ok (f a) : Except Err β)) xs = .ok (xs.map f) := by
  induction xs with
  | nil => rfl
  | cons a as ih => simp only [mapE, ih]; rfl

theorem mapE_ok_iff {α β} (f : α → Except Err β) (xs : List α) (ys : List β) :
    mapE f xs = .ok ys ↔ List.Forall₂ (fun x y => f x = .ok y) xs ys := by
  induction xs generalizing ys with
  | nil =>
    simp only [mapE, List.forall₂_nil_left_iff]
    constructor
    · intro h; cases h; rfl
    · intro h; rw [h]
  | cons a as ih =>
    simp only [mapE]
    cases ha : f a with
    | error e =>
      constructor
      · intro h; cases h
      · intro h; cases h with | cons h1 _ => rw [ha] at h1; cases h1
    | ok b =>
      cases hr : mapE f as with
      | error e =>
        constructor
        · intro h; simp [bind, Except.bind] at h
        · intro h; cases h with
          | cons h1 h2 => have := (ih _).2 h2; rw [hr] at this; cases this
      | ok bs =>
        constructor
        · intro h
          have h' : b :: bs = ys := by injection h
          subst h'
          exact .cons ha ((ih _).1 hr)
        · intro h
          cases h with
          | cons h1 h2 =>
            have := (ih _).2 h2
            rw [hr] at this; injection this with this; subst this
            rw [ha] at h1; injection h1 with h1; subst h1; rfl

theorem mapE_congr {α β} {f g : α → Except Err β} {xs : List α} (h : ∀ x ∈ xs, f x = g x) :
    mapE f xs = mapE g xs := by
  induction xs with
  | nil => rfl
  | cons a as ih =>
    simp only [mapE]
    rw [h a (by simp), ih (fun x hx => h x (by simp [hx]))]

theorem zipStrict_eq_ok {α β} (as : List α) (bs : List β) (h : as.length = bs.length) :
    zipStrict as bs = .ok (as.zip bs) := by
  induction as generalizing bs with
  | nil => cases bs with
    | nil => rfl
    | cons => simp at h
  | cons a as ih => cases bs with
    | nil => simp at h
    | cons b bs =>
      simp only [zipStrict, ih bs (by simpa using h)]; rfl

theorem zipStrict_ok {α β} {as : List α} {bs : List β} {r} (h : zipStrict as bs = .ok r) :
    as.length = bs.length ∧ r = as.zip bs := by
  by_cases hl : as.length = bs.length
  · rw [zipStrict_eq_ok as bs hl] at h; injection h with h; exact ⟨hl, h.symm⟩
  · exfalso
    induction as generalizing bs r with
    | nil => cases bs with
      | nil => simp at hl
      | cons => cases h
    | cons a as ih => cases bs with
      | nil => cases h
      | cons b bs =>
        simp only [zipStrict] at h
        cases hz : zipStrict as bs with
        | error e => rw [hz] at h; cases h
        | ok r' => exact ih hz (by simpa using hl)

namespace Tree
variable {β γ δ : Type}

mutual
theorem fill_leaves (t : Tree β) (r : List β) : fill t.treedef (t.leaves ++ r) = some (t, r) := by
  cases t with
  | leaf b => simp [treedef, map, leaves, fill]
  | node tag ks =>
    simp only [treedef, map, leaves, fill]
    rw [fillL_leaves ks r]
theorem fillL_leaves (ts : List (Tree β)) (r : List β) :
    fillL (mapL (fun _ => ()) ts) (leavesL ts ++ r) = some (ts, r) := by
  cases ts with
  | nil => simp [mapL, leavesL, fillL]
  | cons t ts =>
    have h1 := fill_leaves t (leavesL ts ++ r)
    have h2 := fillL_leaves ts r
    simp only [mapL, leavesL, fillL, List.append_assoc]
    simp only [treedef] at h1
    rw [h1]; simp only; rw [h2]
end

mutual
theorem fill_some (td : Tree Unit) (bs : List β) (t : Tree β) (r : List β)
    (h : fill td bs = some (t, r)) : t.treedef = td ∧ bs = t.leaves ++ r := by
  cases td with
  | leaf u => cases bs with
    | nil => simp [fill] at h
    | cons b bs => simp [fill] at h; obtain ⟨rfl, rfl⟩ := h; simp [treedef, map, leaves]
  | node tag ks =>
    simp only [fill] at h
    cases hk : fillL ks bs with
    | none => rw [hk] at h; simp at h
    | some p =>
      obtain ⟨ks', r'⟩ := p
      rw [hk] at h; simp at h; obtain ⟨rfl, rfl⟩ := h
      have := fillL_some ks bs ks' r' hk
      simp [treedef, map, leaves, this]
theorem fillL_some (tds : List (Tree Unit)) (bs : List β) (ts : List (Tree β)) (r : List β)
    (h : fillL tds bs = some (ts, r)) : mapL (fun _ => ()) ts = tds ∧ bs = leavesL ts ++ r := by
  cases tds with
  | nil => simp [fillL] at h; obtain ⟨rfl, rfl⟩ := h; simp [mapL, leavesL]
  | cons td tds =>
    simp only [fillL] at h
    cases h1 : fill td bs with
    | none => rw [h1] at h; simp at h
    | some p =>
      obtain ⟨t', r1⟩ := p
      rw [h1] at h; simp only at h
      cases h2 : fillL tds r1 with
      | none => rw [h2] at h; simp at h
      | some q =>
        obtain ⟨ts', r2⟩ := q
        rw [h2] at h; simp at h; obtain ⟨rfl, rfl⟩ := h
        have a := fill_some td bs t' r1 h1
        have b := fillL_some tds r1 ts' r2 h2
        simp only [treedef] at a
        simp [mapL, leavesL, a, b]
end

mutual
theorem fill_isSome (td : Tree Unit) (bs : List β) (h : td.leaves.length ≤ bs.length) :
    ∃ t r, fill td bs = some (t, r) ∧ r.length = bs.length - td.leaves.length := by
  cases td with
  | leaf u => cases bs with
    | nil => simp [leaves] at h
    | cons b bs => exact ⟨leaf b, bs, by simp only [fill], by simp [leaves]⟩
  | node tag ks =>
    simp only [leaves] at h ⊢
    obtain ⟨ts, r, h1, h2⟩ := fillL_isSome ks bs h
    exact ⟨node tag ts, r, by simp only [fill, h1], h2⟩
theorem fillL_isSome (tds : List (Tree Unit)) (bs : List β) (h : (leavesL tds).length ≤ bs.length) :
    ∃ t r, fillL tds bs = some (t, r) ∧ r.length = bs.length - (leavesL tds).length := by
  cases tds with
  | nil => exact ⟨[], bs, by simp [fillL], by simp [leavesL]⟩
  | cons td tds =>
    simp only [leavesL, List.length_append] at h ⊢
    obtain ⟨t, r, h1, h2⟩ := fill_isSome td bs (by omega)
    obtain ⟨ts, r', h3, h4⟩ := fillL_isSome tds r (by omega)
    exact ⟨t :: ts, r', by simp only [fillL, h1, h3], by omega⟩
end

theorem unflatten_ok_iff (td : Tree Unit) (bs : List β) (t : Tree β) :
    unflatten td bs = .ok t ↔ t.treedef = td ∧ t.leaves = bs := by
  unfold unflatten
  constructor
  · intro h
    split at h
    · next t' heq =>
      injection h with h; subst h
      have := fill_some _ _ _ _ heq
      simpa [eq_comm] using this
    · cases h
  · rintro ⟨rfl, rfl⟩
    have := fill_leaves t []
    rw [List.append_nil] at this
    rw [this]

theorem unflatten_leaves (t : Tree β) : unflatten t.treedef t.leaves = .ok t :=
  (unflatten_ok_iff _ _ _).2 ⟨rfl, rfl⟩

theorem unflatten_isOk (td : Tree Unit) (bs : List β) (h : td.leaves.length = bs.length) :
    ∃ t, unflatten td bs = .ok t := by
  obtain ⟨t, r, h1, h2⟩ := fill_isSome td bs (by omega)
  have : r = [] := by apply List.eq_nil_of_length_eq_zero; omega
  subst this
  exact ⟨t, by simp [unflatten, h1]⟩

/-- Trees with equal structure and equal leaves are equal. -/
theorem ext_leaves {t u : Tree β} (h1 : t.treedef = u.treedef) (h2 : t.leaves = u.leaves) : t = u := by
  have a := unflatten_leaves t
  have b := unflatten_leaves u
  rw [h1, h2, b] at a; injection a with a; exact a.symm

mutual
theorem leaves_map (f : β → γ) (t : Tree β) : (t.map f).leaves = t.leaves.map f := by
  cases t with
  | leaf b => simp [map, leaves]
  | node tag ks => simp only [map, leaves]; exact leavesL_mapL f ks
theorem leavesL_mapL (f : β → γ) (ts : List (Tree β)) : leavesL (mapL f ts) = (leavesL ts).map f := by
  cases ts with
  | nil => simp [mapL, leavesL]
  | cons t ts => simp only [mapL, leavesL, List.map_append, leaves_map f t, leavesL_mapL f ts]
end

mutual
theorem map_map (f : β → γ) (g : γ → δ) (t : Tree β) : (t.map f).map g = t.map (g ∘ f) := by
  cases t with
  | leaf b => simp [map]
  | node tag ks => simp only [map]; rw [mapL_mapL f g ks]
theorem mapL_mapL (f : β → γ) (g : γ → δ) (ts : List (Tree β)) : mapL g (mapL f ts) = mapL (g ∘ f) ts := by
  cases ts with
  | nil => simp [mapL]
  | cons t ts => simp only [mapL, map_map f g t, mapL_mapL f g ts]
end

theorem treedef_map (f : β → γ) (t : Tree β) : (t.map f).treedef = t.treedef := by
  simp only [treedef, map_map, Function.comp_def]

theorem length_leaves_treedef (t : Tree β) : t.treedef.leaves.length = t.leaves.length := by
  simp [treedef, leaves_map]

mutual
theorem defEq_iff (t u : Tree Unit) : defEq t u = true ↔ t = u := by
  cases t with
  | leaf a => cases u <;> simp [defEq]
  | node s ks => cases u with
    | leaf b => simp [defEq]
    | node s' ks' => simp only [defEq, Bool.and_eq_true, beq_iff_eq, defEqL_iff ks ks', node.injEq]
theorem defEqL_iff (t u : List (Tree Unit)) : defEqL t u = true ↔ t = u := by
  cases t with
  | nil => cases u <;> simp [defEqL]
  | cons a as => cases u with
    | nil => simp [defEqL]
    | cons b bs => simp only [defEqL, Bool.and_eq_true, defEq_iff a b, defEqL_iff as bs, List.cons.injEq]
end

theorem unflatten_map (f : β → γ) (t : Tree β) : unflatten t.treedef (t.leaves.map f) = .ok (t.map f) := by
  rw [unflatten_ok_iff]; exact ⟨treedef_map f t, leaves_map f t⟩

theorem tmap_ok (f : β → γ) (t : Tree β) : tmap (fun b => .ok (f b)) t = .ok (t.map f) := by
  unfold tmap; rw [mapE_ok]; exact unflatten_map f t

/-- Two trees with the same image under `map f` have equal structure. -/
theorem treedef_of_map_eq {f : β → γ} {g : δ → γ} {t : Tree β} {u : Tree δ} (h : t.map f = u.map g) :
    t.treedef = u.treedef := by
  rw [← treedef_map f t, h, treedef_map]

theorem leaves_of_map_eq {f : β → γ} {g : δ → γ} {t : Tree β} {u : Tree δ} (h : t.map f = u.map g) :
    t.leaves.map f = u.leaves.map g := by
  rw [← leaves_map, h, leaves_map]

theorem map_eq_of {f : β → γ} {g : δ → γ} {t : Tree β} {u : Tree δ} (h1 : t.treedef = u.treedef)
    (h2 : t.leaves.map f = u.leaves.map g) : t.map f = u.map g := by
  apply ext_leaves
  · rw [treedef_map, treedef_map, h1]
  · rw [leaves_map, leaves_map, h2]

end Tree

/-! ### Splitting -/
variable {α : Type}

/-- Reference splitter: consecutive segments, the last one takes everything left. -/
def segs : List Nat → List α → List (List α)
  | [], _ => []
  | [_], xs => [xs]
  | n :: m :: ns, xs => xs.take n :: segs (m :: ns) (xs.drop n)

theorem splitFrom_cumsum (sizes : List Nat) (h : sizes ≠ []) (s : Nat) (xs : List α) :
    splitFrom s (cumsumFrom s sizes).dropLast xs = segs sizes (xs.drop s) := by
  induction sizes generalizing s with
  | nil => exact absurd rfl h
  | cons n ns ih => cases ns with
    | nil => simp [cumsumFrom, splitFrom, segs]
    | cons m ns =>
      have ih' := ih (by simp) (s + n)
      simp only [cumsumFrom] at ih'
      simp only [cumsumFrom, List.dropLast_cons_cons, splitFrom, segs, ih', List.drop_drop, List.drop_take,
        Nat.add_sub_cancel_left]

theorem jnpSplit_cumsum (sizes : List Nat) (h : sizes ≠ []) (xs : List α) :
    jnpSplit xs (cumsum sizes).dropLast = segs sizes xs := by
  have := splitFrom_cumsum sizes h 0 xs
  simpa [jnpSplit, cumsum] using this

theorem length_segs (sizes : List Nat) (xs : List α) : (segs sizes xs).length = sizes.length := by
  induction sizes generalizing xs with
  | nil => rfl
  | cons n ns ih => cases ns with
    | nil => rfl
    | cons m ns => simp only [segs, List.length_cons, ih]

theorem flatten_segs (sizes : List Nat) (h : sizes ≠ []) (xs : List α) : (segs sizes xs).flatten = xs := by
  induction sizes generalizing xs with
  | nil => exact absurd rfl h
  | cons n ns ih => cases ns with
    | nil => simp [segs]
    | cons m ns => simp only [segs, List.flatten_cons, ih (by simp), List.take_append_drop]

/-- Splitting a concatenation at the lengths of its parts gives the parts back. -/
theorem segs_flatten (ds : List (List α)) (sizes : List Nat) (h : ds.map List.length = sizes) :
    segs sizes ds.flatten = ds := by
  induction ds generalizing sizes with
  | nil => subst h; rfl
  | cons d ds ih =>
    subst h
    cases ds with
    | nil => simp [segs]
    | cons e ds =>
      have := ih _ rfl
      simp only [List.map_cons] at this
      simp only [List.map_cons, segs]
      rw [List.flatten_cons, List.take_left' rfl, List.drop_left' rfl, this]

theorem map_length_segs (sizes : List Nat) (xs : List α) (h : sizes.sum = xs.length) :
    (segs sizes xs).map List.length = sizes := by
  induction sizes generalizing xs with
  | nil => rfl
  | cons n ns ih => cases ns with
    | nil => simp [segs] at h ⊢; exact h.symm
    | cons m ns =>
      have h' : n + (m + ns.sum) = xs.length := by simpa using h
      simp only [segs, List.map_cons]
      rw [ih (xs.drop n) (by simp; omega), List.length_take]
      congr 1; omega

theorem sum_map_length (ds : List (List α)) : (ds.map List.length).sum = ds.flatten.length := by
  rw [List.length_flatten]

theorem reshape_ok_iff (xs : List α) (sh : List Nat) (a : Arr α) :
    reshape xs sh = .ok a ↔ xs.length = shapeSize sh ∧ a = ⟨sh, xs⟩ := by
  unfold reshape
  split
  · next h =>
    constructor
    · intro h'; injection h' with h'; exact ⟨h, h'.symm⟩
    · rintro ⟨_, rfl⟩; rfl
  · next h =>
    constructor
    · intro h'; cases h'
    · rintro ⟨h', _⟩; exact absurd h' h

/-- Result of the split-and-reshape step shared by the unflatteners. -/
theorem mapE_reshape_zip (ds : List (List α)) (shs : List (List Nat)) (h : ds.length = shs.length) (ls : List (Arr α)) :
    mapE (fun p => reshape p.1 p.2) (ds.zip shs) = .ok ls ↔
      ls.map Arr.shape = shs ∧ ls.map Arr.data = ds ∧ ∀ a ∈ ls, a.WF := by
  rw [mapE_ok_iff]
  induction ds generalizing shs ls with
  | nil => cases shs with
    | cons => simp at h
    | nil =>
      simp only [List.zip_nil_left, List.forall₂_nil_left_iff, List.map_eq_nil_iff]
      constructor
      · intro h; subst h; simp
      · intro h; exact h.1
  | cons d ds ih => cases shs with
    | nil => simp at h
    | cons sh shs =>
      simp only [List.zip_cons_cons]
      constructor
      · intro hf
        cases hf with
        | cons h1 h2 =>
          obtain ⟨a, b, c⟩ := (ih shs (by simpa using h) _).1 h2
          rw [reshape_ok_iff] at h1
          obtain ⟨hl, rfl⟩ := h1
          refine ⟨by simp [a], by simp [b], ?_⟩
          intro x hx
          cases hx with
          | head => exact hl
          | tail _ hx => exact c x hx
      · rintro ⟨h1, h2, h3⟩
        cases ls with
        | nil => simp at h1
        | cons a ls =>
          simp only [List.map_cons, List.cons.injEq] at h1 h2
          refine .cons ?_ ((ih shs (by simpa using h) ls).2 ⟨h1.2, h2.2, fun x hx => h3 x (by simp [hx])⟩)
          rw [reshape_ok_iff]
          have := h3 a (by simp)
          obtain ⟨s, d'⟩ := a
          simp only at h1 h2
          obtain ⟨rfl, _⟩ := h1
          obtain ⟨rfl, _⟩ := h2
          exact ⟨this, rfl⟩

end Laplax
