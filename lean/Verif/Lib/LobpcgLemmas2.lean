import Verif.Lib.LobpcgLemmas
import Mathlib.LinearAlgebra.Matrix.Trace
import Mathlib.LinearAlgebra.Matrix.DotProduct
import Mathlib.LinearAlgebra.FiniteDimensional.Lemmas
import Mathlib.LinearAlgebra.Matrix.ToLin
import Mathlib.LinearAlgebra.Dimension.Constructions

/-! # Lemmas about the block eigensolver, part 2: one iteration -/

namespace Laplax
open scoped BigOperators Matrix
open Laplax.Spec

variable {n k : ℕ}

/-! ### `_svqb` on a well-conditioned block -/

/-- The columns of `X`, scaled to length one. -/
theorem svqb_ortho [NeZero k] (K : Kernels) (hK : GoodKernels K) (eps : ℝ) (heps : 0 ≤ eps) (X : Mat n k)
    (h0 : ∀ j, ∃ i, X i j ≠ 0)
    (hw : ∀ v : Vec k, v ≠ 0 → eps * k * (v ⬝ᵥ v) < (svqbX1 X *ᵥ v) ⬝ᵥ (svqbX1 X *ᵥ v)) :
    OrthonormalCols (svqb K eps X) := by
  classical
  have hn : ∀ j, colNorm X j ≠ 0 := fun j e => by
    obtain ⟨i, hi⟩ := h0 j; exact hi ((colNorm_eq_zero X j).1 e i)
  have hdiag : ∀ j, ((svqbX1 X)ᵀ * svqbX1 X) j j = 1 := by
    intro j
    have := (normalise_zeroOrtho' X j (hn j))
    exact this
  obtain ⟨e1, e2, e3, e4⟩ := eighAscending_spec K hK ((svqbX1 X)ᵀ * svqbX1 X) (gram_symm _)
  have ec := eighAscending_conj K hK ((svqbX1 X)ᵀ * svqbX1 X) (gram_symm _)
  change (svqbE K X).2ᵀ * (svqbE K X).2 = 1 at e1
  change (svqbE K X).2ᵀ * ((svqbX1 X)ᵀ * svqbX1 X) * (svqbE K X).2 = Matrix.diagonal (svqbE K X).1 at ec
  have hwj : ∀ j, eps * k < (svqbE K X).1 j := by
    intro j
    have hv : (fun i => (svqbE K X).2 i j) ⬝ᵥ (fun i => (svqbE K X).2 i j) = 1 := by
      have := congrFun (congrFun e1 j) j
      rw [gram_apply, Matrix.one_apply_eq] at this
      exact this
    have hne : (fun i => (svqbE K X).2 i j) ≠ 0 := by
      intro e; rw [e] at hv; simp at hv
    have := hw _ hne
    rw [hv, mul_one] at this
    have h2 : (svqbE K X).1 j = (svqbX1 X *ᵥ fun i => (svqbE K X).2 i j) ⬝ᵥ (svqbX1 X *ᵥ fun i => (svqbE K X).2 i j) := by
      have := congrFun (congrFun ec j) j
      rw [Matrix.diagonal_apply_eq] at this
      rw [← this, Matrix.mul_assoc, Matrix.mul_assoc, ← Matrix.mul_assoc, ← Matrix.transpose_mul, gram_apply]
      rfl
    rw [h2]; exact this
  have hk0 : (0 : ℝ) ≤ eps * k := mul_nonneg heps (Nat.cast_nonneg _)
  have htr : ∑ j, (svqbE K X).1 j = k := by
    have h1 : Matrix.trace (Matrix.diagonal (svqbE K X).1) = ∑ j, (svqbE K X).1 j := by simp [Matrix.trace]
    rw [← h1, ← ec, Matrix.mul_assoc, Matrix.trace_mul_comm, Matrix.mul_assoc, mul_eq_one_comm.1 e1, Matrix.mul_one]
    simp [Matrix.trace, hdiag]
  have hw0 : (svqbE K X).1 0 ≤ k := by
    rw [← htr]
    exact Finset.single_le_sum (f := fun j => (svqbE K X).1 j) (fun j _ => hk0.trans (hwj j).le) (Finset.mem_univ 0)
  have htau : ∀ j, svqbTau K eps X < (svqbE K X).1 j := fun j =>
    lt_of_le_of_lt (mul_le_mul_of_nonneg_left hw0 heps) (hwj j)
  refine (svqb_zeroOrtho K eps X hK).ortho fun j => ?_
  by_contra hcon
  push Not at hcon
  have hkeep : svqbKeep K eps X j := ⟨htau j, by rw [hdiag]; norm_num⟩
  have hpos : 0 < (svqbY K eps X)ᵀ.mulVec (fun i => svqbY K eps X i j) j := by
    have := congrFun (congrFun (svqbY_gram K eps X hK) j) j
    rw [Matrix.diagonal_apply_eq, if_pos hkeep, mul_one] at this
    have hs : 0 < svqbScale K eps X j := by
      unfold svqbScale
      apply Real.rpow_pos_of_pos
      split_ifs with h
      · exact lt_max_of_lt_right h
      · norm_num
    have : (svqbY K eps X)ᵀ.mulVec (fun i => svqbY K eps X i j) j = svqbScale K eps X j ^ 2 * (svqbE K X).1 j := this
    rw [this]
    exact mul_pos (pow_pos hs 2) (lt_of_le_of_lt hk0 (hwj j))
  have hpos' : 0 < colNorm (svqbY K eps X) j := by
    have h2 := colNorm_sq (svqbY K eps X) j
    have h3 : ((svqbY K eps X)ᵀ * svqbY K eps X) j j = (svqbY K eps X)ᵀ.mulVec (fun i => svqbY K eps X i j) j := rfl
    rw [h3] at h2
    rcases (colNorm_nonneg (svqbY K eps X) j).lt_or_eq with h | h
    · exact h
    · rw [← h] at h2; simp only [ne_eq, OfNat.ofNat_ne_zero, not_false_eq_true, zero_pow] at h2; linarith
  have h4 : ∀ i, svqbY K eps X i j = 0 := by
    intro i
    have := hcon i
    rw [svqb_eq, Matrix.of_apply, if_pos ⟨hkeep, hpos'⟩, div_eq_zero_iff] at this
    exact this.resolve_right hpos'.ne'
  exact hpos'.ne' ((colNorm_eq_zero _ _).2 h4)

theorem svqbX1_of_ortho {U : Mat n k} (h : OrthonormalCols U) : svqbX1 U = U := by
  ext i j; simp [svqbX1, h.colNorm_one]

theorem ortho_mulVec {U : Mat n k} (h : OrthonormalCols U) (v : Vec k) : (U *ᵥ v) ⬝ᵥ (U *ᵥ v) = v ⬝ᵥ v := by
  unfold OrthonormalCols at h
  rw [Matrix.dotProduct_mulVec, ← Matrix.mulVec_transpose, Matrix.mulVec_mulVec, h, Matrix.one_mulVec]

theorem orthonormalize_ortho [NeZero k] (K : Kernels) (hK : GoodKernels K) (eps : ℝ) (heps : 0 ≤ eps) (hk : eps * k < 1)
    (X : Mat n k) (h0 : ∀ j, ∃ i, X i j ≠ 0)
    (hw : ∀ v : Vec k, v ≠ 0 → eps * k * (v ⬝ᵥ v) < (svqbX1 X *ᵥ v) ⬝ᵥ (svqbX1 X *ᵥ v)) :
    OrthonormalCols (orthonormalize K eps X) := by
  have h1 := svqb_ortho K hK eps heps X h0 hw
  refine svqb_ortho K hK eps heps _ ?_ ?_
  · intro j
    by_contra hcon
    push Not at hcon
    have := h1.colNorm_one j
    rw [(colNorm_eq_zero _ _).2 hcon] at this
    exact zero_ne_one this
  · intro v hv
    rw [svqbX1_of_ortho h1, ortho_mulVec h1]
    have hpos : 0 < v ⬝ᵥ v := by
      rcases (show (0:ℝ) ≤ v ⬝ᵥ v from Finset.sum_nonneg fun i _ => mul_self_nonneg _).lt_or_eq with h | h
      · exact h
      · exact absurd (dotProduct_self_eq_zero.1 h.symm) hv
    nlinarith

/-- If `U = X C` has orthonormal columns then `X` can be recovered from `U`. -/
theorem span_eq_of_ortho {X U : Mat n k} (hU : OrthonormalCols U) (h : ∃ C : Mat k k, U = X * C) : ∃ D : Mat k k, X = U * D := by
  obtain ⟨C, rfl⟩ := h
  unfold OrthonormalCols at hU
  have h1 : ((X * C)ᵀ * X) * C = 1 := by rw [Matrix.mul_assoc]; exact hU
  have h2 := mul_eq_one_comm.1 h1
  exact ⟨(X * C)ᵀ * X, by rw [Matrix.mul_assoc, h2, Matrix.mul_one]⟩

/-! ### `_extend_basis` -/

/-- A block Householder reflection. -/
theorem householder {m : ℕ} (X Z W : Mat n k) (O : Mat n m) (vt D : Mat k k) (s d : Vec k)
    (hX : Xᵀ * X = 1) (hZ : Zᵀ * Z = 1) (hO : Oᵀ * O = 1) (hZO : Zᵀ * O = 0) (hv : vtᵀ * vt = 1)
    (hXZ : Xᵀ * Z = vtᵀ * Matrix.diagonal s * vt) (hd : ∀ j, d j ^ 2 * (2 * (1 + s j)) = 1)
    (hD : D = vtᵀ * Matrix.diagonal d) (hW : W = (X + Z) * D) :
    Xᵀ * (O - (2 : ℝ) • (W * (Wᵀ * O))) = 0 ∧ (O - (2 : ℝ) • (W * (Wᵀ * O)))ᵀ * (O - (2 : ℝ) • (W * (Wᵀ * O))) = 1 := by
  have hv' : vt * vtᵀ = 1 := mul_eq_one_comm.1 hv
  have hZX : Zᵀ * X = vtᵀ * Matrix.diagonal s * vt := by
    have := congrArg Matrix.transpose hXZ
    rw [Matrix.transpose_mul, Matrix.transpose_transpose] at this
    rw [this, Matrix.transpose_mul, Matrix.transpose_mul, Matrix.transpose_transpose, Matrix.diagonal_transpose, Matrix.mul_assoc]
  set Λ := Matrix.diagonal s with hΛ
  have hDs : ∀ (e : Vec k), Matrix.diagonal d * Matrix.diagonal e = Matrix.diagonal e * Matrix.diagonal d := fun e => by
    rw [Matrix.diagonal_mul_diagonal, Matrix.diagonal_mul_diagonal]; congr 1; funext j; ring
  have hdd : (2 : ℝ) • ((1 + Λ) * (Matrix.diagonal d * Matrix.diagonal d)) = 1 := by
    rw [hΛ, ← Matrix.diagonal_one, Matrix.diagonal_add, Matrix.diagonal_mul_diagonal, Matrix.diagonal_mul_diagonal,
      ← Matrix.diagonal_smul]
    congr 1; funext j
    have := hd j
    simp only [Pi.smul_apply, smul_eq_mul]
    linarith
  have hXW : Xᵀ * W = vtᵀ * ((1 + Λ) * Matrix.diagonal d) := by
    rw [hW, hD, ← Matrix.mul_assoc, Matrix.mul_add, hX, hXZ]
    have : (1 + vtᵀ * Λ * vt) * vtᵀ = vtᵀ * (1 + Λ) := by
      rw [Matrix.add_mul, Matrix.one_mul, Matrix.mul_assoc, hv', Matrix.mul_one, Matrix.mul_add, Matrix.mul_one]
    rw [← Matrix.mul_assoc, this, Matrix.mul_assoc]
  have hZW : Zᵀ * W = vtᵀ * ((1 + Λ) * Matrix.diagonal d) := by
    rw [hW, hD, ← Matrix.mul_assoc, Matrix.mul_add, hZ, hZX]
    have : (vtᵀ * Λ * vt + 1) * vtᵀ = vtᵀ * (1 + Λ) := by
      rw [Matrix.add_mul, Matrix.one_mul, Matrix.mul_assoc, hv', Matrix.mul_one, Matrix.mul_add, Matrix.mul_one, add_comm]
    rw [← Matrix.mul_assoc, this, Matrix.mul_assoc]
  have hDT : Dᵀ = Matrix.diagonal d * vt := by
    rw [hD, Matrix.transpose_mul, Matrix.transpose_transpose, Matrix.diagonal_transpose]
  have hWW : Wᵀ * W = 1 := by
    conv_lhs => rw [hW]
    rw [Matrix.transpose_mul, Matrix.transpose_add, Matrix.mul_assoc, ← hW, Matrix.add_mul, hXW, hZW, hDT, Matrix.mul_assoc,
      ← Matrix.mul_add, ← Matrix.mul_assoc vt, hv', Matrix.one_mul, ← two_smul ℝ, Matrix.mul_smul]
    refine Eq.trans ?_ hdd
    congr 1
    have := hDs (fun j => 1 + s j)
    have e : Matrix.diagonal (fun j => 1 + s j) = 1 + Λ := by rw [hΛ, ← Matrix.diagonal_one, Matrix.diagonal_add]
    rw [e] at this
    rw [← Matrix.mul_assoc, this, Matrix.mul_assoc]
  have hWO : Wᵀ * O = Dᵀ * (Xᵀ * O) := by
    rw [hW, Matrix.transpose_mul, Matrix.transpose_add, Matrix.mul_assoc, Matrix.add_mul, hZO, add_zero]
  constructor
  · rw [Matrix.mul_sub, Matrix.mul_smul, ← Matrix.mul_assoc, hXW, hWO, hDT]
    have : (2 : ℝ) • (vtᵀ * ((1 + Λ) * Matrix.diagonal d) * (Matrix.diagonal d * vt * (Xᵀ * O))) = Xᵀ * O := by
      calc _ = vtᵀ * ((2 : ℝ) • ((1 + Λ) * (Matrix.diagonal d * Matrix.diagonal d))) * vt * (Xᵀ * O) := by
            simp only [Matrix.mul_assoc, Matrix.mul_smul, Matrix.smul_mul]
        _ = _ := by rw [hdd, Matrix.mul_one, hv, Matrix.one_mul]
    rw [this, sub_self]
  · have hT : (O - (2 : ℝ) • (W * (Wᵀ * O)))ᵀ = Oᵀ - (2 : ℝ) • ((Oᵀ * W) * Wᵀ) := by
      rw [Matrix.transpose_sub, Matrix.transpose_smul, Matrix.transpose_mul, Matrix.transpose_mul, Matrix.transpose_transpose]
    rw [hT, Matrix.sub_mul, Matrix.mul_sub, Matrix.mul_sub, hO]
    simp only [Matrix.smul_mul, Matrix.mul_smul]
    have : Oᵀ * W * Wᵀ * (W * (Wᵀ * O)) = Oᵀ * W * (Wᵀ * O) := by
      rw [Matrix.mul_assoc (Oᵀ * W), ← Matrix.mul_assoc Wᵀ W, hWW, Matrix.one_mul]
    rw [this, ← Matrix.mul_assoc Oᵀ, Matrix.mul_assoc (Oᵀ * W) Wᵀ O]
    module

/-- The columns `e_k, …, e_(k+m-1)`. -/
def unitBlock (n k m : ℕ) : Mat n m := Matrix.of fun i b => if i.val = k + b.val then 1 else 0

theorem unitBlock_ortho {m : ℕ} (h : k + m ≤ n) : (unitBlock n k m)ᵀ * unitBlock n k m = 1 := by
  ext a b
  rw [gram_apply]
  simp only [unitBlock, Matrix.of_apply]
  rw [Finset.sum_eq_single ⟨k + a.val, by omega⟩]
  · simp [Matrix.one_apply, Fin.ext_iff]
  · intro i _ hi
    rw [if_neg (fun e => hi (Fin.ext e)), zero_mul]
  · simp

/-- The first `k` rows of an `n × k` matrix given by a square matrix, the rest zero. -/
def padRows (n : ℕ) (M : Mat k k) : Mat n k := Matrix.of fun i j => if h : i.val < k then M ⟨i, h⟩ j else 0

theorem sum_upper (h : k ≤ n) (f : Fin n → ℝ) (hf : ∀ i : Fin n, k ≤ i.val → f i = 0) :
    ∑ i, f i = ∑ i : Fin k, f (Fin.castLE h i) := by
  obtain ⟨l, rfl⟩ := Nat.exists_eq_add_of_le h
  have h0 : ∑ i : Fin l, f (Fin.natAdd k i) = 0 := Finset.sum_eq_zero fun i _ => hf _ (by simp)
  rw [Fin.sum_univ_add, h0, add_zero]
  rfl

theorem padRows_gram (h : k ≤ n) {a : ℕ} (M : Mat k k) (B : Mat n a) :
    (padRows n M)ᵀ * B = Mᵀ * (Matrix.of fun i j => B (Fin.castLE h i) j : Mat k a) := by
  ext i j
  rw [gram_apply, gram_apply, sum_upper h]
  · simp [padRows]
  · intro r hr; simp [padRows, not_lt.2 hr]

theorem extendBasis_eq (K : Kernels) (X : Mat n k) (m : ℕ) (hn : k + m ≤ n) :
    ∃ (Xu : Mat k k), Xu = Matrix.of (fun i j => X (Fin.castLE (by omega) i) j) ∧
    ∃ W : Mat n k, W = (X + padRows n ((K.svd Xu).1 * (K.svd Xu).2.2)) *
        ((K.svd Xu).2.2ᵀ * Matrix.diagonal fun j => (2 * (1 + (K.svd Xu).2.1 j)) ^ (-1 / 2 : ℝ)) ∧
      extendBasis K X m = unitBlock n k m - (2 : ℝ) • (W * (Wᵀ * unitBlock n k m)) := by
  refine ⟨_, rfl, _, rfl, ?_⟩
  set Xu : Mat k k := Matrix.of (fun i j => X (Fin.castLE (by omega : k ≤ n) i) j) with hXu
  have hup : (Matrix.of fun i j => if h : i.val < n then X ⟨i, h⟩ j else 0 : Mat k k) = Xu := by
    ext i j
    simp only [Matrix.of_apply, hXu]
    rw [dif_pos (by omega)]; rfl
  have hy : (Matrix.of fun i j => X i j + (if h : i.val < k then ((K.svd Xu).1 * (K.svd Xu).2.2) ⟨i, h⟩ j else 0) : Mat n k) =
      X + padRows n ((K.svd Xu).1 * (K.svd Xu).2.2) := by
    ext i j; simp [padRows]
  have hs : (Matrix.of fun i j => (K.svd Xu).2.2ᵀ i j * (2 * (1 + (K.svd Xu).2.1 j)) ^ (-1 / 2 : ℝ) : Mat k k) =
      (K.svd Xu).2.2ᵀ * Matrix.diagonal fun j => (2 * (1 + (K.svd Xu).2.1 j)) ^ (-1 / 2 : ℝ) := scale_cols _ _
  unfold extendBasis
  simp only [hup, hy, hs]
  generalize (X + padRows n ((K.svd Xu).1 * (K.svd Xu).2.2)) *
    ((K.svd Xu).2.2ᵀ * Matrix.diagonal fun j => (2 * (1 + (K.svd Xu).2.1 j)) ^ (-1 / 2 : ℝ)) = W
  have hunit : ∀ (r : Fin n) (b : Fin m), (if k ≤ r.val then (if r.val - k = b.val then (1 : ℝ) else 0) else 0) =
      unitBlock n k m r b := by
    intro r b
    simp only [unitBlock, Matrix.of_apply]
    split_ifs <;> first | rfl | omega
  have hlow : (Matrix.of fun a b => ∑ r : Fin n, if k ≤ r.val then W r a * (if r.val - k = b.val then 1 else 0) else 0 : Mat k m) =
      Wᵀ * unitBlock n k m := by
    ext a b
    rw [gram_apply, Matrix.of_apply]
    refine Finset.sum_congr rfl fun r _ => ?_
    rw [← hunit]; split_ifs <;> simp
  rw [hlow]
  ext i b
  have := hunit i b
  simp only [Matrix.of_apply, Matrix.sub_apply, Matrix.smul_apply, smul_eq_mul]
  rw [← this]
  split_ifs <;> ring

theorem extendBasis_spec (K : Kernels) (hK : GoodKernels K) (X : Mat n k) (hX : OrthonormalCols X) (m : ℕ) (hn : k + m ≤ n) :
    Xᵀ * extendBasis K X m = 0 ∧ OrthonormalCols (extendBasis K X m) := by
  obtain ⟨Xu, hXu, W, hW, he⟩ := extendBasis_eq K X m hn
  obtain ⟨s1, s2, s3, s4⟩ := hK.svd Xu
  rw [he]
  have hkn : k ≤ n := by omega
  have hpad : (Matrix.of fun i j => padRows n ((K.svd Xu).1 * (K.svd Xu).2.2) (Fin.castLE hkn i) j : Mat k k) =
      (K.svd Xu).1 * (K.svd Xu).2.2 := by
    ext i j; simp [padRows]
  have huv : ((K.svd Xu).1 * (K.svd Xu).2.2)ᵀ * ((K.svd Xu).1 * (K.svd Xu).2.2) = 1 := by
    rw [Matrix.transpose_mul, Matrix.mul_assoc, ← Matrix.mul_assoc _ (K.svd Xu).1, s1, Matrix.one_mul, s2]
  have hZX : (padRows n ((K.svd Xu).1 * (K.svd Xu).2.2))ᵀ * X =
      (K.svd Xu).2.2ᵀ * Matrix.diagonal (K.svd Xu).2.1 * (K.svd Xu).2.2 := by
    rw [padRows_gram hkn, ← hXu, Matrix.transpose_mul]
    generalize (K.svd Xu).1 = u at *
    generalize (K.svd Xu).2.1 = s at *
    generalize (K.svd Xu).2.2 = vt at *
    rw [s4]
    calc vtᵀ * uᵀ * (u * Matrix.diagonal s * vt) = vtᵀ * (uᵀ * u) * Matrix.diagonal s * vt := by simp only [Matrix.mul_assoc]
      _ = _ := by rw [s1, Matrix.mul_one]
  refine householder X (padRows n ((K.svd Xu).1 * (K.svd Xu).2.2)) W (unitBlock n k m) (K.svd Xu).2.2 _ (K.svd Xu).2.1
    (fun j => (2 * (1 + (K.svd Xu).2.1 j)) ^ (-1 / 2 : ℝ)) hX ?_ (unitBlock_ortho hn) ?_ s2 ?_ ?_ rfl hW
  · rw [padRows_gram hkn, hpad, huv]
  · rw [padRows_gram hkn]
    have : (Matrix.of fun i j => unitBlock n k m (Fin.castLE hkn i) j : Mat k m) = 0 := by
      ext i j
      simp only [unitBlock, Matrix.of_apply, Matrix.zero_apply, Fin.val_castLE]
      rw [if_neg (by omega)]
    rw [this, Matrix.mul_zero]
  · have := congrArg Matrix.transpose hZX
    rw [Matrix.transpose_mul, Matrix.transpose_transpose] at this
    rw [this, Matrix.transpose_mul, Matrix.transpose_mul, Matrix.transpose_transpose, Matrix.diagonal_transpose, Matrix.mul_assoc]
  · intro j
    have hp : 0 < 2 * (1 + (K.svd Xu).2.1 j) := by have := s3 j; linarith
    rw [← Real.rpow_natCast, ← Real.rpow_mul hp.le]
    norm_num
    rw [Real.rpow_neg_one]
    exact inv_mul_cancel₀ hp.ne'

end Laplax
