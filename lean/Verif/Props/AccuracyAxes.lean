import Verif.Props.MetricsArr
import Verif.Props.ToDenseTree

/-! # C77: `accuracy` on predictions with more than two axes -/

namespace Laplax.Props
open Laplax Laplax.Spec
open scoped BigOperators

variable {n c : ℕ}

/-! ### Transposed data, counted column by column -/

theorem transpose_columns {d : ℕ} (rest : List ℕ) (R : Fin d → List ℝ) (hR : ∀ i, (R i).length = shapeSize rest) :
    transposeData (d :: rest) (List.ofFn R).flatten =
      (List.ofFn fun q : Fin (shapeSize rest) => List.ofFn fun i => (transposeData rest (R i)).getD q.val default).flatten := by
  have hch := chunks_flatten (List.ofFn R) (shapeSize rest) (by
    intro l hl
    obtain ⟨i, rfl⟩ := (List.mem_ofFn' _ _).1 hl
    exact hR i)
  rw [List.length_ofFn] at hch
  have h : transposeData (d :: rest) (List.ofFn R).flatten = ((List.range (shapeSize rest)).map fun k =>
      ((chunks (shapeSize rest) d (List.ofFn R).flatten).map (transposeData rest)).map fun r => r.getD k default).flatten := rfl
  rw [h, hch, range_map_eq_ofFn]
  simp only [List.map_ofFn, Function.comp_def]

theorem ofFn_getD {Q : ℕ} (T : List ℝ) (hT : T.length = Q) (p : ℝ → Bool) :
    (List.ofFn fun q : Fin Q => p (T.getD q.val default)) = T.map p := by
  subst hT
  apply List.ext_getElem
  · simp
  · intro i h1 h2
    simp

theorem columns_count {d Q : ℕ} (T : Fin d → List ℝ) (hT : ∀ i, (T i).length = Q) (p : Fin d → ℝ → Bool) (t : ℕ) :
    (((List.ofFn fun q : Fin Q => List.ofFn fun i => p i ((T i).getD q.val default)).take t).flatten.countP (· = true)) =
      ∑ i, ((T i).take t).countP (p i) := by
  rw [count_columns t fun (q : Fin Q) (i : Fin d) => p i ((T i).getD q.val default)]
  refine Finset.sum_congr rfl fun i _ => ?_
  rw [ofFn_getD (T i) (hT i) (p i), ← List.map_take, List.countP_map]
  congr 1
  funext x
  simp

theorem take_blocks {α : Type} (ds : List (List α)) (s t : ℕ) (h : ∀ d ∈ ds, d.length = s) : ds.flatten.take (t * s) = (ds.take t).flatten := by
  induction ds generalizing t with
  | nil => simp
  | cons d ds ih =>
    cases t with
    | zero => simp
    | succ t =>
      have hd := h d (by simp)
      rw [List.flatten_cons, List.take_succ_cons, List.flatten_cons, List.take_append, hd, ← ih t fun e he => h e (by simp [he])]
      have h1 : s ≤ (t + 1) * s := by rw [Nat.succ_mul]; omega
      rw [List.take_of_length_le (by omega)]
      congr 2
      rw [Nat.succ_mul]; omega

theorem split_blocks {α : Type} (d s : ℕ) (L : List α) (h : L.length = d * s) :
    L = (List.ofFn fun i : Fin d => (L.drop (i.val * s)).take s).flatten := by
  induction d generalizing L with
  | zero => simpa using h
  | succ d ih =>
    rw [List.ofFn_succ, List.flatten_cons]
    simp only [Fin.val_zero, zero_mul, List.drop_zero, Fin.val_succ]
    have h1 := ih (L.drop s) (by rw [List.length_drop, h, Nat.succ_mul]; omega)
    conv_lhs => rw [← List.take_append_drop s L, h1]
    congr 3
    funext i
    rw [List.drop_drop, Nat.succ_mul, Nat.add_comm]

theorem transpose_vector (K : ℕ) (r : List ℝ) (h : r.length = K) : transposeData [K] r = r := by
  unfold transposeData
  simp only [transposeData, shapeSize, List.prod_nil, List.foldr_nil, List.range_one, List.map_cons, List.map_nil, List.flatten_cons, List.flatten_nil,
    List.append_nil]
  apply List.ext_getElem
  · simp [length_chunks, h]
  · intro i h1 h2
    simp [getElem_chunks, h2]

theorem transpose_count (p : ℝ → Bool) : ∀ (inner : List ℕ) (K t : ℕ) (L : List (List ℝ)), L.length = shapeSize inner → (∀ r ∈ L, r.length = K) →
    ((transposeData (inner ++ [K]) L.flatten).take (t * shapeSize inner)).countP p = (L.map fun r => (r.take t).countP p).sum
  | [], K, t, L, hl, hr => by
    obtain ⟨r, rfl⟩ : ∃ r, L = [r] := List.length_eq_one_iff.1 hl
    have := hr r (by simp)
    simp only [List.nil_append, List.flatten_cons, List.flatten_nil, List.append_nil, transpose_vector K r this]
    simp [shapeSize]
  | d :: inner, K, t, L, hl, hr => by
    rw [shapeSize_cons] at hl
    obtain ⟨B, hB⟩ : ∃ B : Fin d → List (List ℝ), B = fun i => (L.drop (i.val * shapeSize inner)).take (shapeSize inner) := ⟨_, rfl⟩
    have hsplit : L = (List.ofFn B).flatten := by rw [hB]; exact split_blocks d _ L hl
    have hBl : ∀ i, (B i).length = shapeSize inner := by
      intro i
      rw [hB]
      simp only [List.length_take, List.length_drop, hl]
      have : (i.val + 1) * shapeSize inner ≤ d * shapeSize inner := Nat.mul_le_mul_right _ i.isLt
      rw [Nat.succ_mul] at this; omega
    have hBr : ∀ i, ∀ r ∈ B i, r.length = K := by
      intro i r h
      refine hr r ?_
      rw [hB] at h
      exact List.mem_of_mem_drop (List.mem_of_mem_take h)
    have hlen : ∀ i, ((B i).flatten).length = shapeSize (inner ++ [K]) := by
      intro i
      rw [List.length_flatten, shapeSize_append]
      have : (B i).map List.length = List.replicate (B i).length K := by
        rw [List.eq_replicate_iff]
        refine ⟨by simp, fun b hb => ?_⟩
        obtain ⟨r, h1, rfl⟩ := List.mem_map.1 hb
        exact hBr i r h1
      rw [this, List.sum_replicate, hBl]
      simp [shapeSize]
    have hfl : L.flatten = (List.ofFn fun i => (B i).flatten).flatten := by
      conv_lhs => rw [hsplit, List.flatten_flatten]
      simp only [List.map_ofFn, Function.comp_def]
    rw [hfl, List.cons_append, transpose_columns (inner ++ [K]) (fun i => (B i).flatten) hlen, shapeSize_cons,
      show t * (d * shapeSize inner) = (t * shapeSize inner) * d by ring, take_blocks _ d _ (by
        intro l hl'
        obtain ⟨q, rfl⟩ := (List.mem_ofFn' _ _).1 hl'
        simp)]
    have hc := columns_count (fun i => transposeData (inner ++ [K]) (B i).flatten) (fun i => transposeData_length _ _ (hlen i)) (fun _ => p)
      (t * shapeSize inner)
    have hmap : ∀ M : List (List ℝ), M.flatten.countP p = (M.map (List.map p)).flatten.countP (· = true) := by
      intro M
      rw [← List.map_flatten, List.countP_map]
      congr 1
      funext x
      simp
    rw [hmap, List.map_take, List.map_ofFn]
    simp only [Function.comp_def, List.map_ofFn]
    rw [hc]
    simp only [transpose_count p inner K t (B _) (hBl _) (hBr _)]
    conv_rhs => rw [hsplit, List.map_flatten, List.sum_flatten]
    rw [List.map_ofFn, List.map_ofFn, List.sum_ofFn]
    rfl

/-! ### Broadcasting the labels against the transposed ranks -/

theorem bcTo_lastAxis (y : List ℝ) : ∀ out : List ℕ,
    bcTo (List.replicate out.length 1 ++ [y.length]) (out ++ [y.length]) y = (List.replicate (shapeSize out) y).flatten
  | [] => by
    simp only [List.length_nil, List.replicate_zero, List.nil_append]
    rw [bcTo_self _ _ (by simp [shapeSize])]
    simp [shapeSize]
  | o :: out => by
    have ih := bcTo_lastAxis y out
    rw [List.length_cons, List.replicate_succ, List.cons_append, List.cons_append, bcTo, shapeSize_cons]
    have hs : shapeSize (List.replicate out.length 1 ++ [y.length]) = y.length := by
      rw [shapeSize_append]
      have : shapeSize (List.replicate out.length 1) = 1 := by
        generalize out.length = k
        induction k with
        | zero => rfl
        | succ k ih => rw [List.replicate_succ, shapeSize_cons, ih]
      rw [this]; simp [shapeSize]
    by_cases h : 1 = o
    · subst h
      rw [if_pos rfl]
      simp only [List.range_one, List.map_cons, List.map_nil, Nat.zero_mul, List.drop_zero, List.flatten_cons, List.flatten_nil, List.append_nil, Nat.one_mul]
      rw [hs, List.take_length, ih]
    · rw [if_neg h, ih, ← List.flatten_replicate_replicate, List.flatten_flatten, List.map_replicate]

theorem bcAligned_lastAxis (d : ℕ) : ∀ out : List ℕ, bcAligned (out ++ [d]) (List.replicate out.length 1 ++ [d]) = some (out ++ [d])
  | [] => by simp [bcAligned, bcDim]
  | o :: out => by
    rw [List.length_cons, List.replicate_succ, List.cons_append, List.cons_append, bcAligned, bcAligned_lastAxis d out]
    have : bcDim o 1 = some o := by
      unfold bcDim
      by_cases h : o = 1 <;> simp [h]
    rw [this]

theorem bcast2_lastAxis {α : Type} {d : ℕ} (f : ℝ → ℝ → α) (out : List ℕ) (hout : out ≠ []) (T : Fin (shapeSize out) → Fin d → ℝ) (y : Fin d → ℝ) :
    Arr.bcast2 f ⟨out ++ [d], (List.ofFn fun q => List.ofFn (T q)).flatten⟩ ⟨[1, d], List.ofFn y⟩ =
      .ok ⟨out ++ [d], (List.ofFn fun q => List.ofFn fun i => f (T q i) (y i)).flatten⟩ := by
  have hlen : 1 ≤ out.length := by
    cases out with
    | nil => exact absurd rfl hout
    | cons => simp
  have hmax : max (out ++ [d]).length [1, d].length = out.length + 1 := by simp; omega
  have hp1 : padShape (out.length + 1) (out ++ [d]) = out ++ [d] := by simp [padShape]
  have hp2 : padShape (out.length + 1) [1, d] = List.replicate out.length 1 ++ [d] := by
    unfold padShape
    obtain ⟨k, hk⟩ : ∃ k, out.length = k + 1 := ⟨out.length - 1, by omega⟩
    rw [hk, show k + 1 + 1 - [1, d].length = k by simp, show ([1, d] : List ℕ) = [1] ++ [d] from rfl, ← List.append_assoc,
      List.replicate_succ']
  have hs : bcShapes (out ++ [d]) [1, d] = some (out ++ [d]) := by
    unfold bcShapes
    rw [hmax, hp1, hp2, bcAligned_lastAxis]
  unfold Arr.bcast2
  simp only [hs]
  have hb := bcTo_lastAxis (List.ofFn y) out
  rw [List.length_ofFn] at hb
  have hwf : ((List.ofFn fun q => List.ofFn (T q)).flatten).length = shapeSize (out ++ [d]) := by
    simp [List.length_flatten, Function.comp_def, shapeSize_append]
    simp [shapeSize]
  rw [show (out ++ [d]).length = out.length + 1 by simp, hp1, hp2, hb, bcTo_self _ _ hwf]
  have hrep : List.replicate (shapeSize out) (List.ofFn y) = List.ofFn fun _ : Fin (shapeSize out) => List.ofFn y := by
    rw [List.ofFn_const]
  rw [hrep, zipWith_blocks _ _ _ (by simp)]
  simp only [zipWith_ofFn]

/-! ### The accuracy -/

theorem grid_getD {inner : List ℕ} (pred : Fin n → Fin (shapeSize inner) → Fin c → ℝ) (i : Fin n) (s : Fin (shapeSize inner)) (j : Fin c) :
    (gridArr inner pred).data.getD ((i.val * shapeSize inner + s.val) * c + j.val) 0 = pred i s j := by
  have hl : ∀ l ∈ (List.ofFn fun s => List.ofFn (pred i s)), l.length = c := by
    intro l h
    obtain ⟨k, rfl⟩ := (List.mem_ofFn' _ _).1 h
    simp
  have hj : s.val * c + j.val < shapeSize inner * c := by
    have : (s.val + 1) * c ≤ shapeSize inner * c := Nat.mul_le_mul_right _ s.isLt
    rw [Nat.succ_mul] at this
    omega
  have h1 := flatten_get (List.ofFn fun i => (List.ofFn fun s => List.ofFn (pred i s)).flatten) (shapeSize inner * c) (by
    intro l h
    obtain ⟨k, rfl⟩ := (List.mem_ofFn' _ _).1 h
    simp [List.length_flatten, Function.comp_def]) i.val (s.val * c + j.val) (by simp) hj
  have h2 := flatten_get (List.ofFn fun s => List.ofFn (pred i s)) c hl s.val j.val (by simp) j.isLt
  unfold gridArr
  rw [List.getD_eq_getElem?_getD, show (i.val * shapeSize inner + s.val) * c + j.val = i.val * (shapeSize inner * c) + (s.val * c + j.val) by ring, h1]
  simp only [List.getElem_ofFn]
  rw [h2]
  simp

theorem range_grid {α : Type} (a b : ℕ) (g : ℕ → List α) :
    ((List.range (a * b)).map g).flatten = (List.ofFn fun i : Fin a => (List.ofFn fun s : Fin b => g (i.val * b + s.val)).flatten).flatten := by
  induction a generalizing g with
  | zero => simp
  | succ a ih =>
    rw [Nat.succ_mul, Nat.add_comm, List.range_add, List.map_append, List.flatten_append, List.ofFn_succ, List.flatten_cons, range_map_eq_ofFn]
    simp only [Fin.val_zero, Nat.zero_mul, Nat.zero_add]
    congr 1
    rw [List.map_map, ih]
    congr 2
    funext i
    congr 2
    funext s
    simp only [Function.comp, Fin.val_succ]
    congr 1
    ring

theorem topKLast_grid {inner : List ℕ} (pred : Fin n → Fin (shapeSize inner) → Fin c → ℝ) (k : ℤ) (h0 : 0 ≤ k) (h1 : k ≤ c) :
    topKLast (n :: inner) c (gridArr inner pred).data k = .ok ⟨n :: (inner ++ [k.toNat]),
      (List.ofFn fun i => (List.ofFn fun s => (laxTopK (pred i s) k.toNat).map fun j => (j.val : ℝ)).flatten).flatten⟩ := by
  unfold topKLast
  rw [if_neg (by omega), shapeSize_cons, range_grid]
  simp only [grid_getD, List.cons_append]

/-- **C77 (accuracy with more than two axes).** For predictions `(n, m, …, c)` and labels `(n,)`: every rank `k` is cut to the length `m` of the *second* axis
(not to the number of classes), the label of sample `i` is compared with the best `min k m` classes at every position of the inner axes, and
all hits are counted, but the count is divided by `n` alone.  `ValueError` if the largest rank, so cut, exceeds the number of classes. -/
theorem C77_accuracy_more_axes (m : ℕ) (rest : List ℕ) (pred : Fin n → Fin (shapeSize (m :: rest)) → Fin c → ℝ) (y : Fin n → Fin c) (ks : List ℕ)
    (hks : ks ≠ []) :
    (∀ M, IsGreatest {k | k ∈ ks} M → min M m ≤ c →
      accuracyArr (gridArr (m :: rest) pred) (vectorArr fun i => ((y i).val : ℝ)) (ks.map fun k : ℕ => (k : ℤ)) =
        .ok (ks.map fun k => ((gridHits pred y (min k m)).card : ℝ) * 100 / n)) ∧
    (∀ M, IsGreatest {k | k ∈ ks} M → c < min M m →
      accuracyArr (gridArr (m :: rest) pred) (vectorArr fun i => ((y i).val : ℝ)) (ks.map fun k : ℕ => (k : ℤ)) = .error .valueError) := by
  obtain ⟨M0, hM0, hle⟩ := max?_cast ks hks
  have hMmem : M0 ∈ ks := by
    have := (List.max?_eq_some_iff.1 hM0).1
    obtain ⟨a, ha, he⟩ := List.mem_map.1 this
    have : a = M0 := by exact_mod_cast he
    exact this ▸ ha
  have hMeq : ∀ M, IsGreatest {k | k ∈ ks} M → M = M0 := fun M hM => le_antisymm (hle M hM.1) (hM.2 hMmem)
  have hshape : (gridArr (m :: rest) pred).shape = n :: m :: (rest ++ [c]) := by simp [gridArr]
  have hdl : (n :: m :: (rest ++ [c])).dropLast = n :: m :: rest := by simp [List.dropLast_cons_of_ne_nil]
  have hgl : (rest ++ [c]).getLastD 0 = c := by simp
  have htv : targetArr ⟨[n], List.ofFn fun i => ((y i).val : ℝ)⟩ = .ok ⟨[n], List.ofFn fun i => ((y i).val : ℝ)⟩ := targetArr_vector _
  obtain ⟨body, hbody⟩ : ∃ body : Except Err (List ℝ), body = (do
      let ranks ← topKLast (n :: m :: rest) c (gridArr (m :: rest) pred).data (min (M0 : ℤ) (m : ℤ))
      let corr ← Arr.bcast2 (fun x y => decide (x = y)) ranks.transpose ⟨[1, n], List.ofFn fun i => ((y i).val : ℝ)⟩
      return (ks.map fun k : ℕ => (k : ℤ)).map fun k =>
        ((pySliceTo (chunks (shapeSize (corr.shape.drop 1)) (corr.shape.headD 0) corr.data) (min k (min (M0 : ℤ) (m : ℤ)))).flatten.countP (· = true) : ℝ) * 100 / n) :=
    ⟨_, rfl⟩
  have hunf : accuracyArr (gridArr (m :: rest) pred) (vectorArr fun i => ((y i).val : ℝ)) (ks.map fun k : ℕ => (k : ℤ)) = body := by
    rw [hbody]
    unfold accuracyArr
    rw [hM0]
    simp only [ok_bind]
    rw [hshape]
    cases rest with
    | nil =>
      simp only [List.nil_append]
      rw [show ([n, m, c] : List ℕ).dropLast = [n, m] from rfl, show ([c] : List ℕ).getLastD 0 = c from rfl]
      simp only [vectorArr, ok_bind, htv, List.length_ofFn]
    | cons r rest =>
      simp only [List.cons_append] at hdl hgl ⊢
      rw [hdl, hgl]
      simp only [vectorArr, ok_bind, htv, List.length_ofFn]
  rw [hunf, hbody]
  constructor
  · intro M hM hMc
    rw [hMeq M hM] at hMc
    have hK : (min (M0 : ℤ) (m : ℤ)).toNat = min M0 m := by omega
    rw [topKLast_grid pred _ (by omega) (by omega), ok_bind, hK]
    obtain ⟨K, hKdef⟩ : ∃ K, K = min M0 m := ⟨_, rfl⟩
    rw [← hKdef] at hMc ⊢
    obtain ⟨R, hR⟩ : ∃ R : Fin n → Fin (shapeSize (m :: rest)) → List ℝ, R = fun i s => (laxTopK (pred i s) K).map fun j => (j.val : ℝ) := ⟨_, rfl⟩
    have hRl : ∀ i s, (R i s).length = K := by
      intro i s
      rw [hR, List.length_map, laxTopK_length _ _ hMc]
    have hRl' : ∀ i, ((List.ofFn (R i)).flatten).length = shapeSize ((m :: rest) ++ [K]) := by
      intro i
      simp only [List.length_flatten, List.map_ofFn, Function.comp_def, hRl, shapeSize_append]
      simp [shapeSize]
    have htr : (⟨n :: ((m :: rest) ++ [K]), (List.ofFn fun i => (List.ofFn fun s => (laxTopK (pred i s) K).map fun j => (j.val : ℝ)).flatten).flatten⟩ :
        Arr ℝ).transpose = ⟨K :: (m :: rest).reverse ++ [n], (List.ofFn fun q : Fin (shapeSize ((m :: rest) ++ [K])) => List.ofFn fun i =>
          (transposeData ((m :: rest) ++ [K]) (List.ofFn (R i)).flatten).getD q.val default).flatten⟩ := by
      unfold Arr.transpose
      congr 1
      · simp
      · have := transpose_columns ((m :: rest) ++ [K]) (fun i => (List.ofFn (R i)).flatten) hRl'
        rw [hR] at this ⊢
        exact this
    rw [htr]
    have hsz : shapeSize ((m :: rest) ++ [K]) = shapeSize (K :: (m :: rest).reverse) := by
      rw [shapeSize_append, shapeSize_cons K (m :: rest).reverse, shapeSize_reverse]
      simp [shapeSize, Nat.mul_comm]
    obtain ⟨T, hT⟩ : ∃ T : Fin n → List ℝ, T = fun i => transposeData ((m :: rest) ++ [K]) (List.ofFn (R i)).flatten := ⟨_, rfl⟩
    have hTl : ∀ i, (T i).length = shapeSize (K :: (m :: rest).reverse) := by
      intro i
      rw [hT, ← hsz]
      exact transposeData_length _ _ (hRl' i)
    have hdata : (List.ofFn fun q : Fin (shapeSize ((m :: rest) ++ [K])) => List.ofFn fun i =>
          (transposeData ((m :: rest) ++ [K]) (List.ofFn (R i)).flatten).getD q.val default) =
        List.ofFn fun q : Fin (shapeSize (K :: (m :: rest).reverse)) => List.ofFn fun i => (T i).getD q.val default := by
      rw [← range_map_eq_ofFn _ fun q => List.ofFn fun i => (T i).getD q default, ← hsz, range_map_eq_ofFn, hT]
    rw [hdata, bcast2_lastAxis (fun x y : ℝ => decide (x = y)) (K :: (m :: rest).reverse) (by simp)
      (fun q i => (T i).getD q.val default) fun i => ((y i).val : ℝ), ok_bind]
    show Except.ok _ = Except.ok _
    congr 1
    rw [List.map_map]
    apply List.map_congr_left
    intro k hk
    simp only [Function.comp]
    congr 2
    have hkM := hle k hk
    have hmin : min (k : ℤ) (min (M0 : ℤ) (m : ℤ)) = ((min k m : ℕ) : ℤ) := by omega
    have hkK : min k m ≤ K := by omega
    rw [hmin]
    unfold pySliceTo
    rw [if_pos (by positivity), Int.toNat_natCast]
    obtain ⟨t, ht⟩ : ∃ t, t = min k m := ⟨_, rfl⟩
    rw [← ht] at hkK ⊢
    simp only [List.cons_append, List.drop_succ_cons, List.drop_zero, List.headD_cons]
    obtain ⟨D, hD⟩ : ∃ D : List (List Bool), D = List.ofFn fun q : Fin (shapeSize (K :: (m :: rest).reverse)) => List.ofFn fun i =>
      decide ((T i).getD q.val default = ((y i).val : ℝ)) := ⟨_, rfl⟩
    have hDl : ∀ d ∈ D, d.length = n := by
      intro d hd
      rw [hD] at hd
      obtain ⟨q, rfl⟩ := (List.mem_ofFn' _ _).1 hd
      simp
    obtain ⟨S, hS⟩ : ∃ S, S = shapeSize ((m :: rest).reverse ++ [n]) := ⟨_, rfl⟩
    have hSn : S = shapeSize (m :: rest) * n := by
      rw [hS, shapeSize_append, shapeSize_reverse]
      simp [shapeSize]
    have hDlen : D.flatten.length = K * S := by
      have : D.map List.length = List.replicate D.length n := by
        rw [List.eq_replicate_iff]
        refine ⟨by simp, fun b hb => ?_⟩
        obtain ⟨r, h1, rfl⟩ := List.mem_map.1 hb
        exact hDl r h1
      rw [List.length_flatten, this, List.sum_replicate, hD, List.length_ofFn, shapeSize_cons, shapeSize_reverse, hSn]
      simp [Nat.mul_assoc]
    have hchunks : ((chunks S K D.flatten).take t).flatten = (D.take (t * shapeSize (m :: rest))).flatten := by
      have h1 : ∀ d ∈ chunks S K D.flatten, d.length = S := by
        intro d hd
        obtain ⟨j, hj, rfl⟩ := List.mem_iff_getElem.1 hd
        rw [getElem_chunks]
        rw [length_chunks] at hj
        rw [List.length_take, List.length_drop, hDlen]
        have : (j + 1) * S ≤ K * S := Nat.mul_le_mul_right _ hj
        rw [Nat.succ_mul] at this
        omega
      have h2 : (chunks S K D.flatten).flatten = D.flatten := by
        have := split_blocks K S D.flatten hDlen
        conv_rhs => rw [this]
        congr 1
        apply List.ext_getElem
        · simp [length_chunks]
        · intro j h3 h4
          rw [getElem_chunks]
          simp
      rw [← take_blocks _ S t h1, h2, hSn, ← Nat.mul_assoc, take_blocks D n _ hDl]
    rw [← hS]
    have hflat : (List.ofFn fun q : Fin (shapeSize (K :: (m :: rest).reverse)) => List.ofFn fun i =>
      decide ((T i).getD q.val default = ((y i).val : ℝ))).flatten = D.flatten := by rw [hD]
    rw [hflat, hchunks, hD]
    have hcount := columns_count T hTl (fun i x => decide (x = ((y i).val : ℝ))) (t * shapeSize (m :: rest))
    rw [hcount]
    have hone : ∀ i, ((T i).take (t * shapeSize (m :: rest))).countP (fun x => decide (x = ((y i).val : ℝ))) =
        ∑ s, (by classical exact if AmongTop (pred i s) t (y i) then 1 else 0) := by
      intro i
      rw [hT]
      simp only
      rw [transpose_count _ (m :: rest) K t (List.ofFn (R i)) (by simp) (by
        intro r hr
        obtain ⟨s, rfl⟩ := (List.mem_ofFn' _ _).1 hr
        exact hRl i s), List.map_ofFn, List.sum_ofFn]
      refine Finset.sum_congr rfl fun s _ => ?_
      simp only [Function.comp]
      rw [hR]
      simp only
      have hslice : (laxTopK (pred i s) K).take t = (ranking (pred i s)).take t := by
        rw [laxTopK, List.take_take, ← ranking, Nat.min_eq_left hkK]
      rw [← List.map_take, hslice, List.countP_map]
      have hl := countP_label ((ranking (pred i s)).take t) ((ranking_nodup _).sublist (List.take_sublist _ _)) ((y i).val : ℤ)
      have hfun : ((fun x : ℝ => decide (x = ((y i).val : ℝ))) ∘ fun j : Fin c => (j.val : ℝ)) = fun j => decide ((j.val : ℤ) = ((y i).val : ℤ)) := by
        funext j
        refine decide_eq_decide.2 ?_
        show ((j.val : ℝ) = ((y i).val : ℝ)) ↔ _
        norm_cast
      rw [hfun, hl]
      have hiff : (∃ l ∈ (ranking (pred i s)).take t, (l.val : ℤ) = ((y i).val : ℤ)) ↔ AmongTop (pred i s) t (y i) := by
        rw [← mem_take_ranking]
        refine ⟨fun ⟨l, h1, h2⟩ => ?_, fun h => ⟨_, h, rfl⟩⟩
        rwa [show y i = l from Fin.ext (by exact_mod_cast h2.symm)]
      by_cases h : AmongTop (pred i s) t (y i)
      · rw [if_pos h, if_pos (hiff.2 h)]
      · rw [if_neg h, if_neg fun h' => h (hiff.1 h')]
    simp only [hone]
    classical
    rw [gridHits, Finset.card_filter, Fintype.sum_prod_type]
  · intro M hM hMc
    rw [hMeq M hM] at hMc
    have : ¬ ((min (M0 : ℤ) (m : ℤ)) ≤ c) := by omega
    unfold topKLast
    rw [if_pos (by omega), error_bind]

/-- **C77 (finding: top-`c` accuracy with more than two axes).** On the predictions `(n, m, c)` of a batch of `n > 0` samples at `m ≤ c` positions: asking for the top
`k ≥ c` — which every label reaches — gives 100 percent exactly if at the `m` positions together each sample has on average one hit among its
`m` (not `k`) best classes; if the label is the best class everywhere, the result is `100 m` percent. -/
theorem C77_accuracy_three_axes (m : ℕ) (pred : Fin n → Fin (shapeSize [m]) → Fin c → ℝ) (y : Fin n → Fin c) (k : ℕ) (hn : 0 < n) (hm : 0 < m) (hmc : m ≤ c)
    (hk : c ≤ k) :
    (accuracyArr (gridArr [m] pred) (vectorArr fun i => ((y i).val : ℝ)) [(k : ℤ)] = .ok [100] ↔ (gridHits pred y m).card = n) ∧
    ((∀ i s, IsFirstMax (pred i s) (y i)) → accuracyArr (gridArr [m] pred) (vectorArr fun i => ((y i).val : ℝ)) [(k : ℤ)] = .ok [100 * (m : ℝ)]) := by
  have h := (C77_accuracy_more_axes m [] pred y [k] (by simp)).1 k ⟨by simp, fun a ha => by simpa using (List.mem_singleton.1 ha).le⟩ (by omega)
  simp only [List.map_cons, List.map_nil] at h
  rw [h, show min k m = m by omega]
  have hn' : (n : ℝ) ≠ 0 := by positivity
  constructor
  · rw [Except.ok.injEq, List.cons.injEq, and_iff_left rfl, div_eq_iff hn']
    constructor
    · intro he
      have : ((gridHits pred y m).card : ℝ) = n := by linarith
      exact_mod_cast this
    · intro he
      rw [he]; ring
  · intro hall
    have hcard : (gridHits pred y m).card = n * m := by
      classical
      rw [gridHits, Finset.filter_true_of_mem]
      · rw [Finset.card_univ, Fintype.card_prod, Fintype.card_fin, Fintype.card_fin]
        simp [shapeSize]
      · intro q _
        exact amongTop_mono _ (by omega) _ ((amongTop_one_iff _ _).2 (hall q.1 q.2))
    rw [hcard]
    congr 2
    push_cast
    field_simp

/-- **C77 (accuracy with more than two axes: which calls raise).** A target without axes raises `IndexError`; only negative ranks raise `ValueError`. -/
theorem C77_accuracy_more_axes_errors (m : ℕ) (rest : List ℕ) (pred : Fin n → Fin (shapeSize (m :: rest)) → Fin c → ℝ) (k : ℤ) :
    (∀ v, accuracyArr (gridArr (m :: rest) pred) ⟨[], [v]⟩ [k] = .error .indexError) ∧
    (∀ y : Fin n → ℝ, k < 0 → accuracyArr (gridArr (m :: rest) pred) (vectorArr y) [k] = .error .valueError) := by
  have hshape : (gridArr (m :: rest) pred).shape = n :: m :: (rest ++ [c]) := by simp [gridArr]
  constructor
  · intro v
    unfold accuracyArr
    simp only [max?_one, ok_bind]
    rw [hshape]
    cases rest with
    | nil => rfl
    | cons r rest => rfl
  · intro y hk
    have hneg : min k (m : ℤ) < 0 := by omega
    unfold accuracyArr
    simp only [max?_one, ok_bind]
    rw [hshape]
    cases rest with
    | nil => simp [vectorArr, ok_bind, topKLast, hneg, error_bind, hk]
    | cons r rest => simp [vectorArr, ok_bind, topKLast, hneg, error_bind, hk]

/-- Two samples at two positions, the label is the best class everywhere: 200 percent. -/
example : accuracyArr (gridArr [2] fun (_ : Fin 2) (_ : Fin (shapeSize [2])) => ![2, 1]) (vectorArr fun _ : Fin 2 => (((0 : Fin 2).val : ℕ) : ℝ)) [((2 : ℕ) : ℤ)] =
    .ok [100 * ((2 : ℕ) : ℝ)] :=
  (C77_accuracy_three_axes 2 (fun (_ : Fin 2) (_ : Fin (shapeSize [2])) => ![2, 1]) (fun _ => (0 : Fin 2)) 2 (by norm_num) (by norm_num) (by norm_num)
    (by norm_num)).2 fun _ _ => ⟨fun j => by fin_cases j <;> simp, fun j hj => absurd hj (Fin.not_lt_zero j)⟩

end Laplax.Props
