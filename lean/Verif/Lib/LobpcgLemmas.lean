import Verif.Spec.LobpcgRun
import Verif.Model.Lobpcg
import Verif.Spec.Lobpcg
import Mathlib.Algebra.BigOperators.Field

/-! # Lemmas about the block eigensolver -/

namespace Laplax
open scoped BigOperators Matrix
open Laplax.Spec

variable {n k : ℕ}

theorem gram_apply {a b : ℕ} (A : Mat n a) (B : Mat n b) (i : Fin a) (j : Fin b) : (Aᵀ * B) i j = ∑ r, A r i * B r j := rfl

theorem colNorm_sq (X : Mat n k) (j : Fin k) : colNorm X j ^ 2 = (Xᵀ * X) j j := by
  rw [colNorm, Real.sq_sqrt (Finset.sum_nonneg fun i _ => sq_nonneg _), gram_apply]
  exact Finset.sum_congr rfl fun i _ => pow_two _

theorem colNorm_nonneg (X : Mat n k) (j : Fin k) : 0 ≤ colNorm X j := Real.sqrt_nonneg _

theorem gram_self_zero (X : Mat n k) (j : Fin k) (h : (Xᵀ * X) j j = 0) (i : Fin n) : X i j = 0 := by
  rw [gram_apply] at h
  have := (Finset.sum_eq_zero_iff_of_nonneg fun i _ => mul_self_nonneg (X i j)).1 h i (Finset.mem_univ _)
  exact mul_self_eq_zero.1 this

theorem colNorm_eq_zero (X : Mat n k) (j : Fin k) : colNorm X j = 0 ↔ ∀ i, X i j = 0 := by
  constructor
  · intro h
    have := colNorm_sq X j
    rw [h] at this
    exact gram_self_zero X j (by rw [← this]; norm_num)
  · intro h; simp [colNorm, h]

/-- Scaling columns is multiplication by a diagonal matrix. -/
theorem scale_cols (X : Mat n k) (d : Vec k) : (Matrix.of fun i j => X i j * d j : Mat n k) = X * Matrix.diagonal d := by
  ext i j; rw [Matrix.mul_diagonal, Matrix.of_apply]

/-- Normalising pairwise orthogonal columns. -/
theorem normalise_zeroOrtho (Y : Mat n k) (hY : ∀ i j, i ≠ j → (Yᵀ * Y) i j = 0) (c : Vec k)
    (hc : ∀ j, (∀ i, Y i j = 0) ∨ c j = colNorm Y j) :
    ZeroOrOrthonormalCols (Matrix.of fun i j => Y i j / c j : Mat n k) := by
  constructor
  · intro i j hij
    have := hY i j hij
    rw [gram_apply] at this ⊢
    simp only [Matrix.of_apply]
    have e : ∑ r, Y r i / c i * (Y r j / c j) = (∑ r, Y r i * Y r j) / (c i * c j) := by
      rw [Finset.sum_div]; exact Finset.sum_congr rfl fun r _ => by rw [div_mul_div_comm]
    rw [e, this, zero_div]
  · intro j
    by_cases h0 : ∀ i, Y i j = 0
    · left; intro i; simp [h0]
    · right
      have hcj : c j = colNorm Y j := (hc j).resolve_left h0
      have hne : colNorm Y j ≠ 0 := fun e => h0 ((colNorm_eq_zero Y j).1 e)
      rw [gram_apply]
      simp only [Matrix.of_apply]
      have e : ∑ r, Y r j / c j * (Y r j / c j) = (∑ r, Y r j * Y r j) / (c j) ^ 2 := by
        rw [Finset.sum_div]; exact Finset.sum_congr rfl fun r _ => by rw [div_mul_div_comm, pow_two]
      rw [e, hcj, colNorm_sq, gram_apply]
      rw [div_self]
      have := colNorm_sq Y j
      rw [gram_apply] at this
      rw [← this]; exact pow_ne_zero 2 hne

theorem revCols_mul {r : ℕ} (V : Mat r r) (w : Vec r) :
    (Matrix.of fun i j => V i (Fin.rev j) : Mat r r) * Matrix.diagonal (fun j => w (Fin.rev j)) * (Matrix.of fun i j => V i (Fin.rev j) : Mat r r)ᵀ =
      V * Matrix.diagonal w * Vᵀ := by
  ext a b
  rw [Matrix.mul_apply, Matrix.mul_apply]
  simp only [Matrix.mul_diagonal, Matrix.transpose_apply]
  exact Equiv.sum_comp Fin.revPerm (fun x => V a x * w x * V b x)

/-- `_eigh_ascending` returns orthonormal eigenvectors with *descending* eigenvalues. -/
theorem eighAscending_spec (K : Kernels) (hK : GoodKernels K) {r : ℕ} (M : Mat r r) (hM : Mᵀ = M) :
    (eighAscending K M).2ᵀ * (eighAscending K M).2 = 1 ∧ (eighAscending K M).2 * (eighAscending K M).2ᵀ = 1 ∧
    M = (eighAscending K M).2 * Matrix.diagonal (eighAscending K M).1 * (eighAscending K M).2ᵀ ∧
    Antitone (eighAscending K M).1 := by
  obtain ⟨h1, h2, h3⟩ := hK.eigh M hM
  have h4 : (eighAscending K M).2ᵀ * (eighAscending K M).2 = 1 := by
    ext i j
    have := congrFun (congrFun h1 i.rev) j.rev
    rw [gram_apply] at this ⊢
    simp only [eighAscending, Matrix.of_apply]
    rw [this]
    simp [Matrix.one_apply]
  refine ⟨h4, mul_eq_one_comm.1 h4, ?_, ?_⟩
  · conv_lhs => rw [h2]
    exact (revCols_mul _ _).symm
  · intro i j hij
    exact h3 (Fin.rev_le_rev.2 hij)

/-- `Vᵀ M V = diag w`. -/
theorem eighAscending_conj (K : Kernels) (hK : GoodKernels K) {r : ℕ} (M : Mat r r) (hM : Mᵀ = M) :
    (eighAscending K M).2ᵀ * M * (eighAscending K M).2 = Matrix.diagonal (eighAscending K M).1 := by
  obtain ⟨h1, _, h3, _⟩ := eighAscending_spec K hK M hM
  generalize (eighAscending K M).2 = V at *
  generalize (eighAscending K M).1 = w at *
  subst h3
  calc Vᵀ * (V * Matrix.diagonal w * Vᵀ) * V = (Vᵀ * V) * Matrix.diagonal w * (Vᵀ * V) := by simp only [Matrix.mul_assoc]
    _ = _ := by rw [h1]; simp

theorem gram_symm {a : ℕ} (X : Mat n a) : (Xᵀ * X)ᵀ = Xᵀ * X := by simp

section svqb
variable [NeZero k] (K : Kernels) (eps : ℝ) (X : Mat n k)

/-- The column-normalised block of `_svqb`. -/
noncomputable def svqbX1 : Mat n k := Matrix.of fun i j => X i j / (if colNorm X j = 0 then 1 else colNorm X j)
/-- The eigendecomposition in `_svqb`. -/
noncomputable def svqbE : Vec k × Mat k k := eighAscending K ((svqbX1 X)ᵀ * svqbX1 X)
noncomputable def svqbTau : ℝ := eps * (svqbE K X).1 0
noncomputable def svqbScale : Vec k := fun j =>
  (if svqbTau K eps X > 0 then max ((svqbE K X).1 j) (svqbTau K eps X) else 1) ^ (-(1 / 2) : ℝ)
abbrev svqbKeep (j : Fin k) : Prop := (svqbE K X).1 j > svqbTau K eps X ∧ ((svqbX1 X)ᵀ * svqbX1 X) j j > 0
open Classical in
noncomputable def svqbY : Mat n k := Matrix.of fun i j =>
  (svqbX1 X * (Matrix.of fun i j => (svqbE K X).2 i j * svqbScale K eps X j : Mat k k)) i j * (if svqbKeep K eps X j then 1 else 0)

open Classical in
theorem svqb_eq : svqb K eps X = Matrix.of fun i j => svqbY K eps X i j /
    (if svqbKeep K eps X j ∧ colNorm (svqbY K eps X) j > 0 then colNorm (svqbY K eps X) j else 1) := by
  rfl

open Classical in
theorem svqbY_eq : svqbY K eps X = svqbX1 X * ((svqbE K X).2 *
    Matrix.diagonal (fun j => svqbScale K eps X j * (if svqbKeep K eps X j then 1 else 0))) := by
  ext i j
  rw [svqbY, Matrix.of_apply, scale_cols, ← Matrix.mul_assoc, Matrix.mul_diagonal, ← Matrix.mul_assoc, Matrix.mul_diagonal, mul_assoc]

omit [NeZero k] in
theorem normalise_zeroOrtho' (j : Fin k) (h : colNorm X j ≠ 0) : ((svqbX1 X)ᵀ * svqbX1 X) j j = 1 := by
  rw [gram_apply]
  simp only [svqbX1, Matrix.of_apply, if_neg h]
  have e : ∑ r, X r j / colNorm X j * (X r j / colNorm X j) = (∑ r, X r j * X r j) / (colNorm X j) ^ 2 := by
    rw [Finset.sum_div]; exact Finset.sum_congr rfl fun r _ => by rw [div_mul_div_comm, pow_two]
  rw [e, colNorm_sq, gram_apply, div_self]
  have := colNorm_sq X j
  rw [gram_apply] at this
  rw [← this]; exact pow_ne_zero 2 h

variable (hK : GoodKernels K)
include hK

open Classical in
theorem svqbY_gram : (svqbY K eps X)ᵀ * svqbY K eps X =
    Matrix.diagonal (fun j => (svqbScale K eps X j * (if svqbKeep K eps X j then 1 else 0)) ^ 2 * (svqbE K X).1 j) := by
  rw [svqbY_eq, Matrix.transpose_mul, Matrix.transpose_mul, Matrix.diagonal_transpose]
  have := eighAscending_conj K hK ((svqbX1 X)ᵀ * svqbX1 X) (gram_symm _)
  change (svqbE K X).2ᵀ * _ * (svqbE K X).2 = Matrix.diagonal (svqbE K X).1 at this
  have e : (fun j => (svqbScale K eps X j * (if svqbKeep K eps X j then 1 else 0)) ^ 2 * (svqbE K X).1 j) =
    fun j => (fun j => svqbScale K eps X j * (if svqbKeep K eps X j then (1:ℝ) else 0)) j ^ 2 * (svqbE K X).1 j := rfl
  rw [e]
  generalize (fun j => svqbScale K eps X j * (if svqbKeep K eps X j then (1:ℝ) else 0)) = d at *
  calc Matrix.diagonal d * (svqbE K X).2ᵀ * (svqbX1 X)ᵀ * (svqbX1 X * ((svqbE K X).2 * Matrix.diagonal d))
      = Matrix.diagonal d * ((svqbE K X).2ᵀ * ((svqbX1 X)ᵀ * svqbX1 X) * (svqbE K X).2) * Matrix.diagonal d := by
        simp only [Matrix.mul_assoc]
    _ = _ := by
        rw [this, Matrix.diagonal_mul_diagonal, Matrix.diagonal_mul_diagonal]
        congr 1; funext j; ring

theorem svqb_zeroOrtho : ZeroOrOrthonormalCols (svqb K eps X) := by
  classical
  rw [svqb_eq]
  refine normalise_zeroOrtho (svqbY K eps X) ?_ (fun j => _) ?_
  · intro i j hij
    rw [svqbY_gram K eps X hK, Matrix.diagonal_apply_ne _ hij]
  · intro j
    by_cases h : svqbKeep K eps X j ∧ colNorm (svqbY K eps X) j > 0
    · right; simp only [if_pos h]
    · left
      rw [not_and_or] at h
      rcases h with h | h
      · intro i; simp [svqbY, h]
      · exact (colNorm_eq_zero _ _).1 (le_antisymm (not_lt.1 h) (colNorm_nonneg _ _))

omit hK in
theorem svqbX1_eq : svqbX1 X = X * Matrix.diagonal (fun j => 1 / (if colNorm X j = 0 then 1 else colNorm X j)) := by
  rw [← scale_cols]; ext i j; simp [svqbX1, div_eq_mul_inv]

omit hK in
theorem svqb_span : ∃ C : Mat k k, svqb K eps X = X * C := by
  classical
  have : svqb K eps X = svqbY K eps X * Matrix.diagonal (fun j =>
      1 / (if svqbKeep K eps X j ∧ colNorm (svqbY K eps X) j > 0 then colNorm (svqbY K eps X) j else 1)) := by
    rw [svqb_eq, ← scale_cols]; ext i j; rw [Matrix.of_apply, Matrix.of_apply, div_eq_mul_one_div]
  rw [this]
  generalize (fun j => 1 / (if svqbKeep K eps X j ∧ colNorm (svqbY K eps X) j > 0 then colNorm (svqbY K eps X) j else 1)) = d
  rw [svqbY_eq]
  generalize (svqbE K X).2 * _ = C
  rw [svqbX1_eq]
  exact ⟨_, by simp only [Matrix.mul_assoc]; rfl⟩

theorem orthonormalize_zeroOrtho : ZeroOrOrthonormalCols (orthonormalize K eps X) := svqb_zeroOrtho K eps _ hK

omit hK in
theorem orthonormalize_span : ∃ C : Mat k k, orthonormalize K eps X = X * C := by
  obtain ⟨C, hC⟩ := svqb_span K eps X
  obtain ⟨D, hD⟩ := svqb_span K eps (svqb K eps X)
  exact ⟨C * D, by rw [orthonormalize, hD, hC, Matrix.mul_assoc]⟩

end svqb

/-! ### Zero-or-orthonormal blocks -/

theorem Spec.ZeroOrOrthonormalCols.proj {a : ℕ} {B : Mat n a} (h : ZeroOrOrthonormalCols B) : Bᵀ * (B * Bᵀ) = Bᵀ := by
  rw [← Matrix.mul_assoc]
  ext i r
  rw [Matrix.mul_apply, Finset.sum_eq_single i]
  · rcases h.2 i with h0 | h1
    · simp [h0]
    · rw [h1, one_mul]
  · intro j _ hj
    rw [h.1 i j hj.symm, zero_mul]
  · simp

theorem projectOnce_orth {a : ℕ} {B : Mat n a} (h : ZeroOrOrthonormalCols B) (U : Mat n k) : Bᵀ * projectOnce B U = 0 := by
  rw [projectOnce, Matrix.mul_sub, ← Matrix.mul_assoc B, ← Matrix.mul_assoc Bᵀ, h.proj, sub_self]

theorem projectOnce_of_orth {a : ℕ} {B : Mat n a} {U : Mat n k} (h : Bᵀ * U = 0) : projectOnce B U = U := by
  rw [projectOnce, h, Matrix.mul_zero, sub_zero]

theorem orth_of_span {a : ℕ} {B : Mat n a} {U W : Mat n k} (h : Bᵀ * U = 0) (hW : ∃ C : Mat k k, W = U * C) : Bᵀ * W = 0 := by
  obtain ⟨C, rfl⟩ := hW
  rw [← Matrix.mul_assoc, h, Matrix.zero_mul]

theorem Spec.ZeroOrOrthonormalCols.colNorm {U : Mat n k} (h : ZeroOrOrthonormalCols U) (j : Fin k) :
    (∀ i, U i j = 0) ∨ Laplax.colNorm U j = 1 := by
  rcases h.2 j with h | h
  · exact .inl h
  · right
    rw [← colNorm_sq] at h
    nlinarith [colNorm_nonneg U j]

/-- `_project_out` with a zero-or-orthonormal basis returns its last orthonormalised block, unchanged by the final safeguards. -/
theorem projectOut_eq [NeZero k] (K : Kernels) (hK : GoodKernels K) (eps : ℝ) {a : ℕ} {B : Mat n a}
    (hB : ZeroOrOrthonormalCols B) (U : Mat n k) :
    projectOut K eps B U = orthonormalize K eps (orthonormalize K eps (projectOnce B U)) ∧ Bᵀ * projectOut K eps B U = 0 := by
  have h1 : Bᵀ * orthonormalize K eps (projectOnce B U) = 0 :=
    orth_of_span (projectOnce_orth hB U) (orthonormalize_span K eps _)
  have h2 : Bᵀ * orthonormalize K eps (orthonormalize K eps (projectOnce B U)) = 0 :=
    orth_of_span h1 (orthonormalize_span K eps _)
  have key : projectOut K eps B U = orthonormalize K eps (orthonormalize K eps (projectOnce B U)) := by
    unfold projectOut
    simp only [projectOnce_of_orth h1, projectOnce_of_orth h2]
    ext i j
    rw [Matrix.of_apply]
    rcases (orthonormalize_zeroOrtho K eps (orthonormalize K eps (projectOnce B U)) hK).colNorm j with h | h
    · rw [h i, zero_mul]
    · rw [h, if_pos (by norm_num), mul_one]
  exact ⟨key, by rw [key, h2]⟩

theorem projectOut_zeroOrtho [NeZero k] (K : Kernels) (hK : GoodKernels K) (eps : ℝ) {a : ℕ} {B : Mat n a}
    (hB : ZeroOrOrthonormalCols B) (U : Mat n k) : ZeroOrOrthonormalCols (projectOut K eps B U) := by
  rw [(projectOut_eq K hK eps hB U).1]; exact orthonormalize_zeroOrtho K eps _ hK

/-! ### Concatenation -/

theorem hcat_gram {a b c d : ℕ} (A : Mat n a) (B : Mat n b) (C : Mat n c) (D : Mat n d) :
    (∀ i j, ((hcat A B)ᵀ * hcat C D) (Fin.castAdd b i) (Fin.castAdd d j) = (Aᵀ * C) i j) ∧
    (∀ i j, ((hcat A B)ᵀ * hcat C D) (Fin.castAdd b i) (Fin.natAdd c j) = (Aᵀ * D) i j) ∧
    (∀ i j, ((hcat A B)ᵀ * hcat C D) (Fin.natAdd a i) (Fin.castAdd d j) = (Bᵀ * C) i j) ∧
    (∀ i j, ((hcat A B)ᵀ * hcat C D) (Fin.natAdd a i) (Fin.natAdd c j) = (Bᵀ * D) i j) := by
  refine ⟨?_, ?_, ?_, ?_⟩ <;> intro i j <;>
    simp only [gram_apply, hcat, Matrix.of_apply, Fin.append_left, Fin.append_right]

theorem hcat_zeroOrtho {a b : ℕ} {A : Mat n a} {B : Mat n b} (hA : ZeroOrOrthonormalCols A) (hB : ZeroOrOrthonormalCols B)
    (hAB : Aᵀ * B = 0) : ZeroOrOrthonormalCols (hcat A B) := by
  have hBA : Bᵀ * A = 0 := by
    have := congrArg Matrix.transpose hAB
    rwa [Matrix.transpose_mul, Matrix.transpose_transpose, Matrix.transpose_zero] at this
  obtain ⟨h1, h2, h3, h4⟩ := hcat_gram A B A B
  constructor
  · intro i j
    refine Fin.addCases (fun i => ?_) (fun i => ?_) i <;> refine Fin.addCases (fun j => ?_) (fun j => ?_) j <;> intro hij
    · rw [h1]; exact hA.1 i j fun e => hij (by rw [e])
    · rw [h2, hAB]; rfl
    · rw [h3, hBA]; rfl
    · rw [h4]; exact hB.1 i j fun e => hij (by rw [e])
  · intro j
    refine Fin.addCases (fun j => ?_) (fun j => ?_) j
    · rw [h1]; simpa [hcat] using hA.2 j
    · rw [h4]; simpa [hcat] using hB.2 j

theorem hcat_ortho {a b : ℕ} {A : Mat n a} {B : Mat n b} (hA : OrthonormalCols A) (hB : OrthonormalCols B)
    (hAB : Aᵀ * B = 0) : OrthonormalCols (hcat A B) := by
  have hBA : Bᵀ * A = 0 := by
    have := congrArg Matrix.transpose hAB
    rwa [Matrix.transpose_mul, Matrix.transpose_transpose, Matrix.transpose_zero] at this
  obtain ⟨h1, h2, h3, h4⟩ := hcat_gram A B A B
  unfold OrthonormalCols at *
  ext i j
  refine Fin.addCases (fun i => ?_) (fun i => ?_) i <;> refine Fin.addCases (fun j => ?_) (fun j => ?_) j
  · rw [h1, hA]; simp [Matrix.one_apply]
  · rw [h2, hAB]; simp [Matrix.one_apply, Fin.ext_iff]; omega
  · rw [h3, hBA]; simp [Matrix.one_apply, Fin.ext_iff]; omega
  · rw [h4, hB]; simp [Matrix.one_apply, Fin.ext_iff]

theorem Spec.OrthonormalCols.zeroOr {U : Mat n k} (h : OrthonormalCols U) : ZeroOrOrthonormalCols U := by
  unfold OrthonormalCols at h
  constructor
  · intro i j hij; rw [h, Matrix.one_apply_ne hij]
  · intro j; right; rw [h, Matrix.one_apply_eq]

theorem Spec.ZeroOrOrthonormalCols.ortho {U : Mat n k} (h : ZeroOrOrthonormalCols U) (h0 : ∀ j, ∃ i, U i j ≠ 0) :
    OrthonormalCols U := by
  unfold OrthonormalCols
  ext i j
  by_cases hij : i = j
  · subst hij
    rw [Matrix.one_apply_eq]
    rcases h.2 i with h1 | h1
    · obtain ⟨r, hr⟩ := h0 i; exact absurd (h1 r) hr
    · exact h1
  · rw [h.1 i j hij, Matrix.one_apply_ne hij]

theorem Spec.OrthonormalCols.colNorm_one {U : Mat n k} (h : OrthonormalCols U) (j : Fin k) : colNorm U j = 1 := by
  unfold OrthonormalCols at h
  have := colNorm_sq U j
  rw [h, Matrix.one_apply_eq] at this
  nlinarith [colNorm_nonneg U j]

theorem Spec.OrthonormalCols.div_norm {U : Mat n k} (h : OrthonormalCols U) : (Matrix.of fun i j => U i j / colNorm U j : Mat n k) = U := by
  ext i j; rw [Matrix.of_apply, h.colNorm_one, div_one]

end Laplax
