import Verif.Lib.LobpcgLemmas2

/-! # Lemmas about the block eigensolver, part 3: Rayleigh–Ritz -/

namespace Laplax
open scoped BigOperators Matrix
open Laplax.Spec

variable {n k : ℕ}

theorem matmat_mulVec (A : Mat n n) {a : ℕ} (X : Mat n a) : matmat (fun v => A *ᵥ v) X = A * X := by
  ext i j; rfl

theorem compress_symm (A : Mat n n) (hA : Aᵀ = A) {r : ℕ} (S : Mat n r) : (Sᵀ * (A * S))ᵀ = Sᵀ * (A * S) := by
  rw [Matrix.transpose_mul, Matrix.transpose_mul, Matrix.transpose_transpose, hA, Matrix.mul_assoc]

/-- Selecting orthonormal columns. -/
theorem ortho_select {a b : ℕ} {Q : Mat n a} (hQ : OrthonormalCols Q) (f : Fin b → Fin a) (hf : Function.Injective f) :
    OrthonormalCols (Matrix.of fun i j => Q i (f j) : Mat n b) := by
  unfold OrthonormalCols at *
  ext i j
  have := congrFun (congrFun hQ (f i)) (f j)
  rw [gram_apply] at this ⊢
  simp only [Matrix.of_apply]
  rw [this]
  simp [Matrix.one_apply, hf.eq_iff]

theorem ortho_mul {a b : ℕ} {S : Mat n a} {C : Mat a b} (hS : OrthonormalCols S) (hC : OrthonormalCols C) :
    OrthonormalCols (S * C) := by
  unfold OrthonormalCols at *
  rw [Matrix.transpose_mul, Matrix.mul_assoc, ← Matrix.mul_assoc Sᵀ, hS, Matrix.one_mul, hC]

theorem hcat_tmul {a b c : ℕ} (A : Mat n a) (B : Mat n b) (C : Mat n c) :
    (∀ i j, ((hcat A B)ᵀ * C) (Fin.castAdd b i) j = (Aᵀ * C) i j) ∧
    (∀ i j, ((hcat A B)ᵀ * C) (Fin.natAdd a i) j = (Bᵀ * C) i j) := by
  constructor <;> intro i j <;> simp only [gram_apply, hcat, Matrix.of_apply, Fin.append_left, Fin.append_right]

theorem tmul_hcat {a b c : ℕ} (A : Mat n a) (B : Mat n b) (C : Mat n c) :
    (∀ i j, (Cᵀ * hcat A B) i (Fin.castAdd b j) = (Cᵀ * A) i j) ∧
    (∀ i j, (Cᵀ * hcat A B) i (Fin.natAdd a j) = (Cᵀ * B) i j) := by
  constructor <;> intro i j <;> simp only [gram_apply, hcat, Matrix.of_apply, Fin.append_left, Fin.append_right]

/-- The first `b` unit vectors. -/
def leadCols (a b : ℕ) : Mat a b := Matrix.of fun r c => if r.val = c.val then 1 else 0

theorem leadCols_ortho {a b : ℕ} (h : b ≤ a) : OrthonormalCols (leadCols a b) := by
  unfold OrthonormalCols
  ext i j
  rw [gram_apply]
  simp only [leadCols, Matrix.of_apply]
  rw [Finset.sum_eq_single ⟨i.val, by omega⟩]
  · simp [Matrix.one_apply, Fin.ext_iff]
  · intro r _ hr
    rw [if_neg (fun e => hr (Fin.ext e)), zero_mul]
  · simp

theorem hcat_leadCols {a b c : ℕ} (A : Mat n a) (B : Mat n b) (h : c ≤ a) :
    hcat A B * leadCols (a + b) c = Matrix.of fun r (i : Fin c) => A r ⟨i, by omega⟩ := by
  ext r i
  rw [Matrix.mul_apply, Finset.sum_eq_single (Fin.castAdd b ⟨i.val, by omega⟩)]
  · simp only [leadCols, hcat, Matrix.of_apply, Fin.append_left, Fin.val_castAdd, if_true, mul_one]
  · intro x _ hx
    simp only [leadCols, Matrix.of_apply]
    rw [if_neg (fun e => hx (Fin.ext (by simpa using e))), mul_zero]
  · simp

theorem quad_compress (A : Mat n n) {r : ℕ} (S : Mat n r) (x : Vec r) :
    (S *ᵥ x) ⬝ᵥ (A *ᵥ (S *ᵥ x)) = x ⬝ᵥ ((Sᵀ * (A * S)) *ᵥ x) := by
  rw [← Matrix.mulVec_mulVec, ← Matrix.mulVec_mulVec, Matrix.dotProduct_mulVec x, Matrix.vecMul_transpose]

/-- The Rayleigh–Ritz step on an orthonormal basis `S = [X, P, R]`. -/
theorem firstStep_spec (K : Kernels) (hK : GoodKernels K) (A : Mat n n) (hA : Aᵀ = A) (X P R : Mat n k)
    (hS : OrthonormalCols (hcat X (hcat P R))) :
    let S := hcat X (hcat P R)
    let e := eighAscending K (Sᵀ * (A * S))
    let fs := iterationFirstStep K X P R (matmat (fun v => A *ᵥ v) S)
    fs.1 = S * (Matrix.of fun i j => e.2 i (Fin.castAdd (k + k) j)) ∧ fs.2.2 = e.1 ∧
    OrthonormalCols fs.1 ∧ OrthonormalCols fs.2.1 ∧ fs.1ᵀ * fs.2.1 = 0 ∧
    fs.1ᵀ * (A * fs.1) = Matrix.diagonal (fun j => fs.2.2 (Fin.castAdd (k + k) j)) := by
  intro S e fs
  obtain ⟨e1, e2, e3, e4⟩ := eighAscending_spec K hK (Sᵀ * (A * S)) (compress_symm A hA S)
  have ec := eighAscending_conj K hK (Sᵀ * (A * S)) (compress_symm A hA S)
  set Q := e.2 with hQ
  have hQo : OrthonormalCols Q := e1
  set B : Mat (k + (k + k)) k := Matrix.of fun i j => Q i (Fin.castAdd (k + k) j) with hB
  set Q2 : Mat (k + (k + k)) (k + k) := Matrix.of fun i j => Q i (Fin.natAdd k j) with hQ2
  have hBo : OrthonormalCols B := ortho_select hQo _ (Fin.castAdd_injective _ _)
  have hQ2o : OrthonormalCols Q2 := ortho_select hQo _ (Fin.natAdd_injective _ _)
  have hBQ2 : Bᵀ * Q2 = 0 := by
    ext i j
    have := congrFun (congrFun e1 (Fin.castAdd (k + k) i)) (Fin.natAdd k j)
    rw [gram_apply] at this ⊢
    simp only [hB, hQ2, Matrix.of_apply, Matrix.zero_apply]
    rw [this, Matrix.one_apply_ne]
    intro h; have := congrArg Fin.val h; simp at this; omega
  set q : Mat (k + k) k := K.qr (Matrix.of fun (i : Fin (k + k)) (j : Fin k) => Q (Fin.castAdd (k + k) j) (Fin.natAdd k i)) with hq
  have hqo : OrthonormalCols q := hK.qr _ (by omega)
  have hX : OrthonormalCols (S * B) := ortho_mul hS hBo
  have hP : OrthonormalCols (S * (Q2 * q)) := ortho_mul hS (ortho_mul hQ2o hqo)
  have h1 : fs.1 = S * B := by
    show (Matrix.of fun i j => (S * (Matrix.of fun i j => B i j / colNorm B j)) i j /
      colNorm (S * (Matrix.of fun i j => B i j / colNorm B j)) j : Mat n k) = S * B
    rw [hBo.div_norm, hX.div_norm]
  have h2 : fs.2.1 = S * (Q2 * q) := by
    show (Matrix.of fun i j => (S * (Q2 * q)) i j / (if colNorm (S * (Q2 * q)) j = 0 then 1 else colNorm (S * (Q2 * q)) j) : Mat n k) = _
    ext i j
    rw [Matrix.of_apply, hP.colNorm_one, if_neg one_ne_zero, div_one]
  have h3 : fs.2.2 = e.1 := rfl
  refine ⟨h1, h3, h1 ▸ hX, h2 ▸ hP, ?_, ?_⟩
  · rw [h1, h2, Matrix.transpose_mul, Matrix.mul_assoc, ← Matrix.mul_assoc Sᵀ]
    have : Sᵀ * S = 1 := hS
    rw [this, Matrix.one_mul, ← Matrix.mul_assoc, hBQ2, Matrix.zero_mul]
  · rw [h1, h3]
    have : (S * B)ᵀ * (A * (S * B)) = Bᵀ * (Sᵀ * (A * S)) * B := by
      rw [Matrix.transpose_mul]; simp only [Matrix.mul_assoc]
    rw [this]
    ext i j
    have h4 := congrFun (congrFun ec (Fin.castAdd (k + k) i)) (Fin.castAdd (k + k) j)
    have h5 : (Bᵀ * (Sᵀ * (A * S)) * B) i j = (Qᵀ * (Sᵀ * (A * S)) * Q) (Fin.castAdd (k + k) i) (Fin.castAdd (k + k) j) := by
      simp only [Matrix.mul_apply, Matrix.transpose_apply, hB, Matrix.of_apply]
    rw [h5, h4, Matrix.diagonal_apply, Matrix.diagonal_apply]
    simp [Fin.ext_iff]; rfl

/-- A frame on which the quadratic form of `M` is at least `t` bounds the eigenvalue of the same index from below. -/
theorem eig_lower {r : ℕ} (M Q : Mat r r) (w : Vec r) (hQ : Qᵀ * Q = 1) (hM : M = Q * Matrix.diagonal w * Qᵀ)
    (hw : Antitone w) (j : Fin r) (F : Mat r (j.val + 1)) (hF : OrthonormalCols F) (t : ℝ)
    (ht : ∀ c : Vec (j.val + 1), t * (c ⬝ᵥ c) ≤ (F *ᵥ c) ⬝ᵥ (M *ᵥ (F *ᵥ c))) : t ≤ w j := by
  -- a combination of the frame orthogonal to the first `j` eigenvectors
  let L : Vec (j.val + 1) →ₗ[ℝ] Vec j.val :=
    (LinearMap.funLeft ℝ ℝ (fun i : Fin j.val => (⟨i, by omega⟩ : Fin r))).comp ((Qᵀ * F).mulVecLin)
  have hker : LinearMap.ker L ≠ ⊥ := LinearMap.ker_ne_bot_of_finrank_lt (by simp)
  obtain ⟨c, hc, hc0⟩ := (Submodule.ne_bot_iff _).1 hker
  set x : Vec r := (Qᵀ * F) *ᵥ c with hx
  have hx0 : ∀ i : Fin r, i.val < j.val → x i = 0 := by
    intro i hi
    have := congrFun (LinearMap.mem_ker.1 hc) ⟨i.val, hi⟩
    exact this
  have hQt : OrthonormalCols Qᵀ := by
    unfold OrthonormalCols; rw [Matrix.transpose_transpose]; exact mul_eq_one_comm.1 hQ
  have hxx : x ⬝ᵥ x = c ⬝ᵥ c := ortho_mulVec (ortho_mul hQt hF) c
  have hquad : (F *ᵥ c) ⬝ᵥ (M *ᵥ (F *ᵥ c)) = ∑ i, w i * x i ^ 2 := by
    have e1 : M *ᵥ (F *ᵥ c) = Q *ᵥ (Matrix.diagonal w *ᵥ x) := by
      rw [hM, hx]; simp only [Matrix.mulVec_mulVec, Matrix.mul_assoc]
    rw [e1, Matrix.dotProduct_mulVec, ← Matrix.mulVec_transpose, Matrix.mulVec_mulVec, ← hx]
    simp only [dotProduct, Matrix.mulVec_diagonal]
    exact Finset.sum_congr rfl fun i _ => by ring
  have hcc : 0 < c ⬝ᵥ c := by
    rcases (show (0:ℝ) ≤ c ⬝ᵥ c from Finset.sum_nonneg fun i _ => mul_self_nonneg _).lt_or_eq with h | h
    · exact h
    · exact absurd (dotProduct_self_eq_zero.1 h.symm) hc0
  have hle : ∑ i, w i * x i ^ 2 ≤ w j * (x ⬝ᵥ x) := by
    rw [dotProduct, Finset.mul_sum]
    refine Finset.sum_le_sum fun i _ => ?_
    rcases lt_or_ge i.val j.val with h | h
    · rw [hx0 i h]; simp
    · have := hw (show j ≤ i from h)
      nlinarith [sq_nonneg (x i)]
  have := ht c
  rw [hquad] at this
  rw [hxx] at hle
  nlinarith

end Laplax
