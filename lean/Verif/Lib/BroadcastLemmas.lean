import Verif.Model.Broadcast
import Verif.Spec.Broadcast
import Verif.Lib.TreeLemmas3
import Mathlib.Algebra.Group.Defs

namespace Laplax
open Spec
variable {α β γ : Type}

/-- Source position for a flat position of the result (auxiliary). -/
def srcIdx : List Nat → List Nat → Nat → Nat
  | s :: sh, _ :: out, k => (if s = 1 then 0 else k / shapeSize out) * shapeSize sh + srcIdx sh out (k % shapeSize out)
  | _, _, _ => 0

/-- Every axis of the first shape has the length of the second or one. -/
def FitsInto : List Nat → List Nat → Prop
  | [], [] => True
  | s :: sh, o :: out => (s = o ∨ s = 1) ∧ FitsInto sh out
  | _, _ => False

theorem fits_of_bcAligned : ∀ {s t out : List Nat}, bcAligned s t = some out → FitsInto s out ∧ FitsInto t out
  | [], [], out, h => by simp only [bcAligned, Option.some.injEq] at h; subst h; exact ⟨trivial, trivial⟩
  | a :: s, b :: t, out, h => by
    rw [bcAligned] at h
    split at h
    · next d r hd hr =>
      injection h with h; subst h
      obtain ⟨h1, h2⟩ := fits_of_bcAligned hr
      unfold bcDim at hd
      refine ⟨⟨?_, h1⟩, ⟨?_, h2⟩⟩ <;> split at hd <;> try split at hd <;> try split at hd
      all_goals simp_all
    · exact absurd h (by simp)
  | [], _ :: _, out, h => by simp [bcAligned] at h
  | _ :: _, [], out, h => by simp [bcAligned] at h

theorem getElem?_flatten_of_length (ds : List (List α)) (m : Nat) (h : ∀ d ∈ ds, d.length = m) (k : Nat) (hm : 0 < m)
    (hk : k < ds.length * m) : ds.flatten[k]? = (ds[k / m]?.bind fun d => d[k % m]?) := by
  induction ds generalizing k with
  | nil => simp at hk
  | cons d ds ih =>
    have hd := h d (by simp)
    rw [List.flatten_cons]
    by_cases hlt : k < m
    · rw [List.getElem?_append_left (by omega), Nat.div_eq_of_lt hlt, Nat.mod_eq_of_lt hlt]; rfl
    · rw [List.getElem?_append_right (by omega), hd, ih (fun d hd' => h d (by simp [hd'])) (k - m)]
      · have e1 : k / m = (k - m) / m + 1 := by
          rw [← Nat.div_eq_sub_div hm (by omega)]
        have e2 : k % m = (k - m) % m := Nat.mod_eq_sub_mod (by omega)
        rw [e1, e2]; simp
      · simp only [List.length_cons, Nat.succ_mul] at hk; omega

theorem bcTo_length : ∀ {sh out : List Nat} {xs : List α}, FitsInto sh out → xs.length = shapeSize sh →
    (bcTo sh out xs).length = shapeSize out
  | [], [], xs, _, h => by simpa [bcTo] using h
  | s :: sh, o :: out, xs, hf, h => by
    rw [shapeSize_cons] at h ⊢
    rw [bcTo]
    split
    · next hso =>
      subst hso
      rw [List.length_flatten, List.map_map]
      have : List.map (List.length ∘ fun i => bcTo sh out ((xs.drop (i * shapeSize sh)).take (shapeSize sh))) (List.range s) =
          List.replicate s (shapeSize out) := by
        rw [List.eq_replicate_iff]
        refine ⟨by simp, ?_⟩
        intro b hb
        obtain ⟨i, hi, rfl⟩ := List.mem_map.1 hb
        rw [List.mem_range] at hi
        refine bcTo_length hf.2 ?_
        rw [List.length_take, List.length_drop, h]
        have : (i + 1) * shapeSize sh ≤ s * shapeSize sh := Nat.mul_le_mul_right _ hi
        rw [Nat.succ_mul] at this; omega
      rw [this]; simp
    · next hso =>
      have h1 : s = 1 := (hf.1.resolve_left hso)
      subst h1
      rw [Nat.one_mul] at h
      rw [List.length_flatten, List.map_replicate, bcTo_length hf.2 h]; simp
  | [], _ :: _, _, hf, _ => hf.elim
  | _ :: _, [], _, hf, _ => hf.elim

theorem bcTo_getElem? : ∀ {sh out : List Nat} {xs : List α}, FitsInto sh out → xs.length = shapeSize sh → ∀ k < shapeSize out,
    (bcTo sh out xs)[k]? = xs[srcIdx sh out k]?
  | [], [], xs, _, h, k, hk => by
    have : k = 0 := by simp [shapeSize] at hk; exact hk
    subst this; rfl
  | s :: sh, o :: out, xs, hf, h, k, hk => by
    rw [shapeSize_cons] at h hk
    have hpos : 0 < shapeSize out := by
      rcases Nat.eq_zero_or_pos (shapeSize out) with h0 | h0
      · rw [h0, Nat.mul_zero] at hk; omega
      · exact h0
    have hq : k / shapeSize out < o := by rw [Nat.div_lt_iff_lt_mul hpos]; exact hk
    have hm : k % shapeSize out < shapeSize out := Nat.mod_lt _ hpos
    rw [bcTo, srcIdx]
    split
    · next hso =>
      subst hso
      have hchunk : ∀ i < s, ((xs.drop (i * shapeSize sh)).take (shapeSize sh)).length = shapeSize sh := by
        intro i hi
        rw [List.length_take, List.length_drop, h]
        have : (i + 1) * shapeSize sh ≤ s * shapeSize sh := Nat.mul_le_mul_right _ hi
        rw [Nat.succ_mul] at this; omega
      rw [getElem?_flatten_of_length _ (shapeSize out) _ _ hpos (by simpa using hk)]
      · rw [List.getElem?_map, List.getElem?_range hq]
        simp only [Option.map_some, Option.bind_some]
        rw [bcTo_getElem? hf.2 (hchunk _ hq) _ hm]
        have hidx : srcIdx sh out (k % shapeSize out) < shapeSize sh := by
          have := bcTo_getElem? hf.2 (hchunk _ hq) _ hm
          rw [List.getElem?_eq_getElem (by rw [bcTo_length hf.2 (hchunk _ hq)]; exact hm)] at this
          have h2 := (List.getElem?_eq_some_iff.1 this.symm).1
          rwa [hchunk _ hq] at h2
        rw [List.getElem?_take_of_lt hidx, List.getElem?_drop]
        by_cases h1 : s = 1
        · have : k / shapeSize out = 0 := Nat.lt_one_iff.1 (h1 ▸ hq)
          rw [if_pos h1, this]
        · rw [if_neg h1]
      · intro d hd
        obtain ⟨i, hi, rfl⟩ := List.mem_map.1 hd
        exact bcTo_length hf.2 (hchunk i (List.mem_range.1 hi))
    · next hso =>
      have h1 : s = 1 := (hf.1.resolve_left hso)
      subst h1
      rw [Nat.one_mul] at h
      rw [getElem?_flatten_of_length _ (shapeSize out) _ _ hpos (by simpa using hk)]
      · rw [List.getElem?_replicate, if_pos hq]
        simp only [Option.bind_some]
        rw [bcTo_getElem? hf.2 h _ hm]; simp
      · intro d hd
        rw [List.eq_of_mem_replicate hd]; exact bcTo_length hf.2 h
  | [], _ :: _, _, hf, _, _, _ => hf.elim
  | _ :: _, [], _, hf, _, _, _ => hf.elim

theorem position_lt : ∀ {sh ix : List Nat}, IsIndex sh ix → position sh ix < shapeSize sh
  | [], [], _ => by simp [position, shapeSize]
  | n :: sh, i :: ix, h => by
    rw [position, shapeSize_cons]
    have h1 := position_lt h.2
    have h2 : (i + 1) * shapeSize sh ≤ n * shapeSize sh := Nat.mul_le_mul_right _ h.1
    rw [Nat.succ_mul] at h2; omega
  | [], _ :: _, h => h.elim
  | _ :: _, [], h => h.elim

/-- Source position of a multi-index, for aligned shapes. -/
theorem srcIdx_position : ∀ {sh out ix : List Nat}, FitsInto sh out → IsIndex out ix →
    srcIdx sh out (position out ix) = position sh (List.zipWith (fun n i => if n = 1 then 0 else i) sh ix)
  | [], [], [], _, _ => rfl
  | s :: sh, o :: out, i :: ix, hf, hi => by
    have hlt := position_lt hi.2
    have hpos : 0 < shapeSize out := by omega
    have e1 : (i * shapeSize out + position out ix) / shapeSize out = i := by
      rw [Nat.add_comm, Nat.add_mul_div_right _ _ hpos, Nat.div_eq_of_lt hlt]; omega
    have e2 : (i * shapeSize out + position out ix) % shapeSize out = position out ix := by
      rw [Nat.add_comm, Nat.add_mul_mod_self_right, Nat.mod_eq_of_lt hlt]
    rw [position, srcIdx, e1, e2, srcIdx_position hf.2 hi.2, List.zipWith_cons_cons, position]
  | [], [], _ :: _, _, h => h.elim
  | _ :: _, _ :: _, [], _, h => h.elim
  | [], _ :: _, _, h, _ => h.elim
  | _ :: _, [], _, h, _ => h.elim

theorem isIndex_length : ∀ {sh ix : List Nat}, IsIndex sh ix → ix.length = sh.length
  | [], [], _ => rfl
  | _ :: _, _ :: _, h => by simp [isIndex_length h.2]
  | [], _ :: _, h => h.elim
  | _ :: _, [], h => h.elim

theorem fits_length : ∀ {s t : List Nat}, FitsInto s t → s.length = t.length
  | [], [], _ => rfl
  | _ :: _, _ :: _, h => by simp [fits_length h.2]
  | [], _ :: _, h => h.elim
  | _ :: _, [], h => h.elim

theorem shapeSize_pad (r : Nat) (sh : List Nat) : shapeSize (padShape r sh) = shapeSize sh := by
  unfold padShape
  rw [shapeSize_append]
  have : ∀ n, shapeSize (List.replicate n 1) = 1 := by
    intro n
    induction n with
    | zero => rfl
    | succ n ih => rw [List.replicate_succ, shapeSize_cons, ih]
  rw [this, Nat.one_mul]

theorem position_pad (j : Nat) (sh ix : List Nat) :
    position (List.replicate j 1 ++ sh) (List.zipWith (fun n i => if n = 1 then 0 else i) (List.replicate j 1 ++ sh) ix) =
      position sh (List.zipWith (fun n i => if n = 1 then 0 else i) sh (ix.drop j)) := by
  induction j generalizing ix with
  | zero => rfl
  | succ j ih =>
    cases ix with
    | nil => 
      simp only [List.zipWith_nil_right, List.drop_nil]
      cases sh <;> rfl
    | cons i ix =>
      rw [List.replicate_succ, List.cons_append, List.zipWith_cons_cons, position, if_pos rfl, Nat.zero_mul, Nat.zero_add, ih]
      rfl

theorem bcast_entry (a : Arr α) (ha : a.WF) (out : List Nat) (hf : FitsInto (padShape out.length a.shape) out) (ix : List Nat)
    (hi : IsIndex out ix) :
    (bcTo (padShape out.length a.shape) out a.data)[position out ix]? = entryAt a (seenBy a.shape ix) := by
  rw [bcTo_getElem? hf (by rw [shapeSize_pad]; exact ha) _ (position_lt hi), srcIdx_position hf hi]
  unfold entryAt seenBy
  rw [padShape, position_pad, isIndex_length hi]

/-! Compatibility. -/

theorem bcAligned_isSome_iff : ∀ {s t : List Nat}, s.length = t.length →
    ((bcAligned s t).isSome ↔ ∀ k (h : k < s.length) (h' : k < t.length), s[k] = t[k] ∨ s[k] = 1 ∨ t[k] = 1)
  | [], [], _ => by simp [bcAligned]
  | a :: s, b :: t, hl => by
    have ih := bcAligned_isSome_iff (s := s) (t := t) (by simpa using hl)
    have hb : (bcAligned (a :: s) (b :: t)).isSome ↔ (bcDim a b).isSome ∧ (bcAligned s t).isSome := by
      rw [bcAligned]
      cases bcDim a b <;> cases bcAligned s t <;> simp
    have hd : (bcDim a b).isSome ↔ (a = b ∨ a = 1 ∨ b = 1) := by
      unfold bcDim
      split <;> try split <;> try split
      all_goals simp_all
    rw [hb, hd, ih]
    constructor
    · rintro ⟨h0, h1⟩ k hk hk'
      cases k with
      | zero => exact h0
      | succ k => exact h1 k (by simpa using hk) (by simpa using hk')
    · intro h
      exact ⟨h 0 (by simp) (by simp), fun k hk hk' => h (k + 1) (by simpa using hk) (by simpa using hk')⟩
  | [], _ :: _, h => by simp at h
  | _ :: _, [], h => by simp at h

theorem pad_length {r : Nat} {sh : List Nat} (h : sh.length ≤ r) : (padShape r sh).length = r := by
  simp [padShape]; omega

theorem pad_getElem {r : Nat} {sh : List Nat} (h : sh.length ≤ r) (k : Nat) (hk : k < r) :
    (padShape r sh)[r - 1 - k]'(by rw [pad_length h]; omega) = axisFromRight sh k := by
  unfold axisFromRight
  rw [List.getD_eq_getElem?_getD]
  have : (padShape r sh)[r - 1 - k]? = some ((sh.reverse[k]?).getD 1) := by
    unfold padShape
    by_cases hks : k < sh.length
    · rw [List.getElem?_append_right (by simp; omega), List.length_replicate, List.getElem?_reverse hks]
      have : r - 1 - k - (r - sh.length) = sh.length - 1 - k := by omega
      rw [this, List.getElem?_eq_getElem (by omega)]; rfl
    · rw [List.getElem?_append_left (by simp; omega), List.getElem?_replicate, if_pos (by omega),
        List.getElem?_eq_none (by simp; omega)]; rfl
  exact (List.getElem?_eq_some_iff.1 this).2

theorem compatible_iff (s t : List Nat) : (bcShapes s t).isSome ↔ Compatible s t := by
  unfold bcShapes
  have hs := pad_length (Nat.le_max_left s.length t.length)
  have ht := pad_length (Nat.le_max_right s.length t.length)
  rw [bcAligned_isSome_iff (hs.trans ht.symm)]
  constructor
  · intro h k
    by_cases hk : k < max s.length t.length
    · have := h (max s.length t.length - 1 - k) (by omega) (by omega)
      rwa [pad_getElem (Nat.le_max_left s.length t.length) k hk, pad_getElem (Nat.le_max_right s.length t.length) k hk] at this
    · right; left
      unfold axisFromRight
      rw [List.getD_eq_getElem?_getD, List.getElem?_eq_none (by simp; omega)]; rfl
  · intro h k hk hk'
    have hk2 : k < max s.length t.length := by omega
    have := h (max s.length t.length - 1 - k)
    rw [← pad_getElem (Nat.le_max_left s.length t.length) _ (by omega),
      ← pad_getElem (Nat.le_max_right s.length t.length) _ (by omega)] at this
    have e : max s.length t.length - 1 - (max s.length t.length - 1 - k) = k := by omega
    simpa only [e] using this

theorem bcAligned_length {s t out : List Nat} (h : bcAligned s t = some out) : out.length = s.length ∧ out.length = t.length :=
  ⟨(fits_length (fits_of_bcAligned h).1).symm, (fits_length (fits_of_bcAligned h).2).symm⟩

theorem bcShapes_length {s t out : List Nat} (h : bcShapes s t = some out) : out.length = max s.length t.length := by
  have := (bcAligned_length h).1
  rwa [pad_length (Nat.le_max_left _ _)] at this

theorem bcShapes_fits {s t out : List Nat} (h : bcShapes s t = some out) :
    FitsInto (padShape out.length s) out ∧ FitsInto (padShape out.length t) out := by
  rw [bcShapes_length h]; exact fits_of_bcAligned h

theorem bcast2_error (f : α → β → γ) (a : Arr α) (b : Arr β) (h : ¬ Compatible a.shape b.shape) :
    Arr.bcast2 f a b = .error (bcError a.shape b.shape) := by
  rw [← compatible_iff] at h
  unfold Arr.bcast2
  cases hs : bcShapes a.shape b.shape with
  | none => rfl
  | some o => rw [hs] at h; simp at h

theorem bcAligned_axis : ∀ {s t out : List Nat}, bcAligned s t = some out →
    ∀ k (h : k < out.length) (h1 : k < s.length) (h2 : k < t.length), out[k] = if s[k] = 1 then t[k] else s[k]
  | [], [], out, h => by simp only [bcAligned, Option.some.injEq] at h; subst h; intro k hk; simp at hk
  | a :: s, b :: t, out, h => by
    rw [bcAligned] at h
    split at h
    · next d r hd hr =>
      injection h with h; subst h
      intro k hk h1 h2
      cases k with
      | zero =>
        simp only [List.getElem_cons_zero]
        unfold bcDim at hd
        split at hd <;> try split at hd <;> try split at hd
        all_goals simp_all
      | succ k =>
        simp only [List.getElem_cons_succ]
        exact bcAligned_axis hr k (by simpa using hk) (by simpa using h1) (by simpa using h2)
    · exact absurd h (by simp)
  | [], _ :: _, out, h => by simp [bcAligned] at h
  | _ :: _, [], out, h => by simp [bcAligned] at h

theorem bcShapes_axis {s t out : List Nat} (h : bcShapes s t = some out) (k : Nat) :
    axisFromRight out k = if axisFromRight s k = 1 then axisFromRight t k else axisFromRight s k := by
  have hl := bcShapes_length h
  by_cases hk : k < max s.length t.length
  · have := bcAligned_axis h (max s.length t.length - 1 - k) (by omega) (by rw [pad_length (Nat.le_max_left _ _)]; omega)
      (by rw [pad_length (Nat.le_max_right _ _)]; omega)
    rw [pad_getElem (Nat.le_max_left s.length t.length) k hk, pad_getElem (Nat.le_max_right s.length t.length) k hk] at this
    rw [← this]
    have e := pad_getElem (sh := out) (r := max s.length t.length) (by omega) k hk
    rw [← e]
    congr 1
    simp [padShape, hl]
  · have e : ∀ u : List Nat, u.length ≤ max s.length t.length → axisFromRight u k = 1 := by
      intro u hu
      unfold axisFromRight
      rw [List.getD_eq_getElem?_getD, List.getElem?_eq_none (by simp; omega)]; rfl
    rw [e out (by omega), e s (by omega), e t (by omega)]; rfl

theorem bcast2_ok (f : α → β → γ) (a : Arr α) (b : Arr β) (ha : a.WF) (hb : b.WF) (h : Compatible a.shape b.shape) :
    ∃ r, Arr.bcast2 f a b = .ok r ∧ r.WF ∧ r.shape.length = max a.shape.length b.shape.length ∧
      (∀ k, axisFromRight r.shape k = if axisFromRight a.shape k = 1 then axisFromRight b.shape k else axisFromRight a.shape k) ∧
      ∀ ix, IsIndex r.shape ix → ∃ x y, entryAt a (seenBy a.shape ix) = some x ∧ entryAt b (seenBy b.shape ix) = some y ∧
        entryAt r ix = some (f x y) := by
  rw [← compatible_iff] at h
  unfold Arr.bcast2
  cases hs : bcShapes a.shape b.shape with
  | none => rw [hs] at h; simp at h
  | some o =>
    obtain ⟨f1, f2⟩ := bcShapes_fits hs
    have l1 := bcTo_length (xs := a.data) f1 (by rw [shapeSize_pad]; exact ha)
    have l2 := bcTo_length (xs := b.data) f2 (by rw [shapeSize_pad]; exact hb)
    refine ⟨_, rfl, ?_, bcShapes_length hs, bcShapes_axis hs, fun ix hi => ?_⟩
    · simp [Arr.WF, l1, l2]
    · have e1 := bcast_entry a ha o f1 ix hi
      have e2 := bcast_entry b hb o f2 ix hi
      have hp : position o ix < shapeSize o := position_lt hi
      rw [List.getElem?_eq_getElem (by omega)] at e1
      rw [List.getElem?_eq_getElem (by omega)] at e2
      refine ⟨_, _, e1.symm, e2.symm, ?_⟩
      show (List.zipWith f _ _)[position o ix]? = _
      rw [List.getElem?_zipWith, List.getElem?_eq_getElem (by omega), List.getElem?_eq_getElem (by omega)]

theorem bcAligned_self : ∀ s : List Nat, bcAligned s s = some s
  | [] => rfl
  | a :: s => by simp [bcAligned, bcDim, bcAligned_self s]

theorem padShape_self {r : Nat} {s : List Nat} (h : s.length = r) : padShape r s = s := by
  subst h; simp [padShape]

theorem bcTo_blocks {n : Nat} (sh out : List Nat) (g : Fin n → List α) (h : ∀ i, (g i).length = shapeSize sh) :
    bcTo (n :: sh) (n :: out) (List.ofFn g).flatten = (List.ofFn fun i => bcTo sh out (g i)).flatten := by
  rw [bcTo, if_pos rfl]
  congr 1
  apply List.ext_getElem?
  intro i
  by_cases hi : i < n
  · rw [List.getElem?_map, List.getElem?_range hi, Option.map_some, List.getElem?_ofFn, dif_pos hi]
    congr 2
    apply List.ext_getElem?
    intro k
    rw [List.getElem?_take]
    split
    · next hk =>
      have hn : i * shapeSize sh + k < n * shapeSize sh := by
        calc i * shapeSize sh + k < i * shapeSize sh + shapeSize sh := by omega
          _ = (i + 1) * shapeSize sh := by rw [Nat.succ_mul]
          _ ≤ n * shapeSize sh := Nat.mul_le_mul_right _ hi
      rw [List.getElem?_drop, getElem?_flatten_of_length _ (shapeSize sh) (by
          intro d hd; obtain ⟨j, rfl⟩ := List.mem_ofFn.1 hd; exact h j) _ (by omega) (by simpa using hn)]
      have e1 : (i * shapeSize sh + k) / shapeSize sh = i := by
        rw [Nat.mul_comm, Nat.mul_add_div (by omega), Nat.div_eq_of_lt hk]; rfl
      have e2 : (i * shapeSize sh + k) % shapeSize sh = k := by
        rw [Nat.mul_comm, Nat.mul_add_mod, Nat.mod_eq_of_lt hk]
      rw [e1, e2, List.getElem?_ofFn, dif_pos hi]; rfl
    · rw [List.getElem?_eq_none (by rw [h]; omega)]
  · rw [List.getElem?_eq_none (by simp; omega), List.getElem?_eq_none (by simp; omega)]

theorem bcTo_self : ∀ (sh : List Nat) (xs : List α), xs.length = shapeSize sh → bcTo sh sh xs = xs := by
  intro sh xs h
  apply List.ext_getElem?
  intro k
  have hf : ∀ s : List Nat, FitsInto s s := by
    intro s; induction s with
    | nil => trivial
    | cons a s ih => exact ⟨Or.inl rfl, ih⟩
  have hsrc : ∀ (s : List Nat) k, k < shapeSize s → srcIdx s s k = k := by
    intro s
    induction s with
    | nil => intro k hk; simp [shapeSize] at hk; simp [srcIdx, hk]
    | cons a s ih =>
      intro k hk
      rw [shapeSize_cons] at hk
      have h0 : 0 < shapeSize s := by
        rcases Nat.eq_zero_or_pos (shapeSize s) with h | h
        · rw [h] at hk; simp at hk
        · exact h
      rw [srcIdx, ih _ (Nat.mod_lt _ h0)]
      split
      · next ha => subst ha; rw [Nat.one_mul] at hk; rw [Nat.mod_eq_of_lt hk]; simp
      · rw [Nat.mul_comm]; exact Nat.div_add_mod k _
  by_cases hk : k < shapeSize sh
  · rw [bcTo_getElem? (hf sh) h k hk, hsrc sh k hk]
  · rw [List.getElem?_eq_none (by rw [bcTo_length (hf sh) h]; omega), List.getElem?_eq_none (by omega)]

theorem bcast2_same (f : α → β → γ) (a : Arr α) (b : Arr β) (ha : a.WF) (hb : b.WF) (h : a.shape = b.shape) :
    Arr.bcast2 f a b = .ok ⟨a.shape, List.zipWith f a.data b.data⟩ := by
  unfold Arr.bcast2 bcShapes
  rw [h, Nat.max_self, padShape_self rfl, bcAligned_self]
  simp only [padShape_self rfl]
  rw [bcTo_self _ _ (by rw [← h]; exact ha), bcTo_self _ _ hb]

theorem bcTo_map {δ : Type} (g : α → δ) : ∀ (sh out : List Nat) (xs : List α), bcTo sh out (xs.map g) = (bcTo sh out xs).map g
  | [], _, xs => by simp [bcTo]
  | _ :: _, [], xs => by simp [bcTo]
  | s :: sh, o :: out, xs => by
    rw [bcTo, bcTo]
    split
    · rw [List.map_flatten, List.map_map]
      congr 2
      funext i
      simp only [Function.comp_apply]
      rw [← bcTo_map g sh out, List.map_take, List.map_drop]
    · rw [bcTo_map g sh out, List.map_flatten, List.map_replicate]

theorem bcast2_map_right [AddGroup α] (a b : Arr α) :
    Arr.bcast2 (· + ·) a ⟨b.shape, b.data.map (- ·)⟩ = Arr.bcast2 (· - ·) a b := by
  unfold Arr.bcast2
  split
  · next h => simp only [h]
  · next o h =>
    simp only [h, bcTo_map, List.zipWith_map_right, sub_eq_add_neg]

theorem forall₂_left {R : α → β → Prop} : ∀ {xs : List α} {ys : List β}, List.Forall₂ R xs ys → ∀ x ∈ xs, ∃ y, y ∈ ys ∧ R x y
  | _, _, .nil, x, hx => by simp at hx
  | _, _, .cons h t, x, hx => by
    rcases List.mem_cons.1 hx with rfl | hx
    · exact ⟨_, by simp, h⟩
    · obtain ⟨y, hy, hr⟩ := forall₂_left t x hx
      exact ⟨y, by simp [hy], hr⟩

/-! Columns, rows and matrices. -/

theorem ofFn_singletons {n : Nat} (g : Fin n → α) : (List.ofFn fun i => [g i]).flatten = List.ofFn g := by
  induction n with
  | zero => rfl
  | succ n ih => rw [List.ofFn_succ, List.ofFn_succ, List.flatten_cons, ih fun i => g i.succ]; rfl

theorem zipWith_blocks {n : Nat} (f : α → β → γ) (g : Fin n → List α) (h : Fin n → List β) (hl : ∀ i, (g i).length = (h i).length) :
    List.zipWith f (List.ofFn g).flatten (List.ofFn h).flatten = (List.ofFn fun i => List.zipWith f (g i) (h i)).flatten := by
  induction n with
  | zero => rfl
  | succ n ih =>
    rw [List.ofFn_succ, List.ofFn_succ, List.ofFn_succ, List.flatten_cons, List.flatten_cons, List.flatten_cons,
      List.zipWith_append (hl 0), ih _ _ fun i => hl i.succ]

theorem zipWith_ofFn {n : Nat} (f : α → β → γ) (x : Fin n → α) (y : Fin n → β) :
    List.zipWith f (List.ofFn x) (List.ofFn y) = List.ofFn fun i => f (x i) (y i) := by
  induction n with
  | zero => rfl
  | succ n ih => rw [List.ofFn_succ, List.ofFn_succ, List.ofFn_succ, List.zipWith_cons_cons, ih]

theorem bcTo_unit (m : Nat) (x : α) : bcTo [1] [m] [x] = List.ofFn fun _ : Fin m => x := by
  rw [bcTo]
  split
  · next h => subst h; simp [bcTo, List.ofFn_succ, shapeSize]
  · apply List.ext_getElem? 
    intro k
    simp [bcTo, List.getElem?_ofFn, List.flatten_replicate_singleton, List.getElem?_replicate]

theorem bcTo_col {n : Nat} (m : Nat) (x : Fin n → α) :
    bcTo [n, 1] [n, m] (List.ofFn x) = (List.ofFn fun i => List.ofFn fun _ : Fin m => x i).flatten := by
  rw [← ofFn_singletons, bcTo_blocks _ _ _ (by simp [shapeSize])]
  simp only [bcTo_unit]

theorem bcTo_mat {n m : Nat} (g : Fin n → Fin m → α) :
    bcTo [n, m] [n, m] (List.ofFn fun i => List.ofFn (g i)).flatten = (List.ofFn fun i => List.ofFn (g i)).flatten := by
  rw [bcTo_blocks _ _ _ (by simp [shapeSize])]
  congr 2; funext i
  exact bcTo_self _ _ (by simp [shapeSize])

theorem bcTo_row (n : Nat) {m : Nat} (y : Fin m → α) :
    bcTo [1, m] [n, m] (List.ofFn y) = (List.ofFn fun _ : Fin n => List.ofFn y).flatten := by
  by_cases h : n = 1
  · subst h
    exact (bcTo_self _ _ (by simp [shapeSize])).trans (by simp [List.ofFn_succ])
  · rw [bcTo, if_neg (fun e => h e.symm), bcTo_self _ _ (by simp [shapeSize])]
    congr 1
    apply List.ext_getElem?
    intro k
    simp [List.getElem?_ofFn, List.getElem?_replicate]

/-- The arrays of the special cases: a column `(n, 1)`, a row `(m,)`, a matrix `(n, m)`. -/
theorem bcast2_col_row {n m : Nat} (f : α → β → γ) (x : Fin n → α) (y : Fin m → β) :
    Arr.bcast2 f ⟨[n, 1], List.ofFn x⟩ ⟨[m], List.ofFn y⟩ = .ok ⟨[n, m], (List.ofFn fun i => List.ofFn fun j => f (x i) (y j)).flatten⟩ := by
  have hs : bcShapes [n, 1] [m] = some [n, m] := by
    simp [bcShapes, padShape, bcAligned, bcDim]
    by_cases h : n = 1 <;> by_cases h' : 1 = m <;> simp [h, h'] <;> subst h' <;> simp [h]
  unfold Arr.bcast2
  simp only [hs]
  rw [show padShape [n, m].length [n, 1] = [n, 1] from rfl, show padShape [n, m].length [m] = [1, m] from rfl, bcTo_col, bcTo_row,
    zipWith_blocks _ _ _ (by simp)]
  simp only [zipWith_ofFn]

theorem bcast2_row_col {n m : Nat} (f : α → β → γ) (x : Fin m → α) (y : Fin n → β) :
    Arr.bcast2 f ⟨[m], List.ofFn x⟩ ⟨[n, 1], List.ofFn y⟩ = .ok ⟨[n, m], (List.ofFn fun i => List.ofFn fun j => f (x j) (y i)).flatten⟩ := by
  have hs : bcShapes [m] [n, 1] = some [n, m] := by
    simp [bcShapes, padShape, bcAligned, bcDim]
    by_cases h : n = 1 <;> by_cases h' : m = 1 <;> simp [h, h', eq_comm]
  unfold Arr.bcast2
  simp only [hs]
  rw [show padShape [n, m].length [n, 1] = [n, 1] from rfl, show padShape [n, m].length [m] = [1, m] from rfl, bcTo_col, bcTo_row,
    zipWith_blocks _ _ _ (by simp)]
  simp only [zipWith_ofFn]

theorem bcast2_mat_col {n m : Nat} (f : α → β → γ) (g : Fin n → Fin m → α) (y : Fin n → β) :
    Arr.bcast2 f ⟨[n, m], (List.ofFn fun i => List.ofFn (g i)).flatten⟩ ⟨[n, 1], List.ofFn y⟩ =
      .ok ⟨[n, m], (List.ofFn fun i => List.ofFn fun j => f (g i j) (y i)).flatten⟩ := by
  have hs : bcShapes [n, m] [n, 1] = some [n, m] := by
    simp [bcShapes, padShape, bcAligned, bcDim]
    by_cases h' : m = 1 <;> simp [h']
  unfold Arr.bcast2
  simp only [hs]
  rw [show padShape [n, m].length [n, 1] = [n, 1] from rfl, show padShape [n, m].length [n, m] = [n, m] from rfl, bcTo_col, bcTo_mat,
    zipWith_blocks _ _ _ (by simp)]
  simp only [zipWith_ofFn]

theorem bcast2_mat_row {n m : Nat} (f : α → β → γ) (g : Fin n → Fin m → α) (y : Fin m → β) :
    Arr.bcast2 f ⟨[n, m], (List.ofFn fun i => List.ofFn (g i)).flatten⟩ ⟨[m], List.ofFn y⟩ =
      .ok ⟨[n, m], (List.ofFn fun i => List.ofFn fun j => f (g i j) (y j)).flatten⟩ := by
  have hs : bcShapes [n, m] [m] = some [n, m] := by
    simp [bcShapes, padShape, bcAligned, bcDim]
    by_cases h : n = 1 <;> simp [h]
  unfold Arr.bcast2
  simp only [hs]
  rw [show padShape [n, m].length [m] = [1, m] from rfl, show padShape [n, m].length [n, m] = [n, m] from rfl, bcTo_row, bcTo_mat,
    zipWith_blocks _ _ _ (by simp)]
  simp only [zipWith_ofFn]

end Laplax
