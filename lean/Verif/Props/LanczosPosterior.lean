import Verif.Props.LaplaceKwargs

/-! # C64: the posterior of a Lanczos estimate -/

namespace Laplax.Props
open Laplax Laplax.Spec
open scoped Matrix BigOperators

variable {n : ℕ}

section Spectral
variable {m : Type} [Fintype m] [DecidableEq m]

/-- Two spectral decompositions of the same matrix: eigenvalues meet wherever the eigenvectors overlap. -/
theorem spectral_overlap (Q Z : Matrix m m ℝ) (d e : m → ℝ) (hQ : Qᵀ * Q = 1) (hZ : Zᵀ * Z = 1)
    (h : Q * Matrix.diagonal d * Qᵀ = Z * Matrix.diagonal e * Zᵀ) (i j : m) :
    (Zᵀ * Q) i j * d j = e i * (Zᵀ * Q) i j := by
  have h1 : Zᵀ * Q * Matrix.diagonal d = Matrix.diagonal e * (Zᵀ * Q) := by
    calc Zᵀ * Q * Matrix.diagonal d = Zᵀ * (Q * Matrix.diagonal d * Qᵀ) * Q := by
          simp only [Matrix.mul_assoc, hQ, Matrix.mul_one]
      _ = (Zᵀ * Z) * Matrix.diagonal e * (Zᵀ * Q) := by rw [h]; simp only [Matrix.mul_assoc]
      _ = _ := by rw [hZ, Matrix.one_mul]
  have := congrFun (congrFun h1 i) j
  rwa [Matrix.mul_diagonal, Matrix.diagonal_mul] at this

/-- A function of a symmetric matrix does not depend on the spectral decomposition. -/
theorem spectral_unique (Q Z : Matrix m m ℝ) (d e : m → ℝ) (hQ : Qᵀ * Q = 1) (hZ : Zᵀ * Z = 1)
    (h : Q * Matrix.diagonal d * Qᵀ = Z * Matrix.diagonal e * Zᵀ) (f : ℝ → ℝ) :
    Q * Matrix.diagonal (fun j => f (d j)) * Qᵀ = Z * Matrix.diagonal (fun j => f (e j)) * Zᵀ := by
  have h1 : Zᵀ * Q * Matrix.diagonal (fun j => f (d j)) = Matrix.diagonal (fun j => f (e j)) * (Zᵀ * Q) := by
    ext i j
    rw [Matrix.mul_diagonal, Matrix.diagonal_mul]
    have := spectral_overlap Q Z d e hQ hZ h i j
    by_cases h0 : (Zᵀ * Q) i j = 0
    · rw [h0]; ring
    · have : d j = e i := by
        apply mul_left_cancel₀ h0; rw [this]; ring
      rw [this]; ring
  have hZ' : Z * Zᵀ = 1 := mul_eq_one_comm.1 hZ
  have hQ' : Q * Qᵀ = 1 := mul_eq_one_comm.1 hQ
  calc Q * Matrix.diagonal (fun j => f (d j)) * Qᵀ = (Z * Zᵀ) * (Q * Matrix.diagonal (fun j => f (d j))) * Qᵀ := by
        rw [hZ', Matrix.one_mul]
    _ = Z * (Zᵀ * Q * Matrix.diagonal (fun j => f (d j))) * Qᵀ := by simp only [Matrix.mul_assoc]
    _ = Z * Matrix.diagonal (fun j => f (e j)) * Zᵀ * (Q * Qᵀ) := by rw [h1]; simp only [Matrix.mul_assoc]
    _ = _ := by rw [hQ', Matrix.mul_one]

/-- Every eigenvalue of one decomposition occurs in the other. -/
theorem spectral_mem (Q Z : Matrix m m ℝ) (d e : m → ℝ) (hQ : Qᵀ * Q = 1) (hZ : Zᵀ * Z = 1)
    (h : Q * Matrix.diagonal d * Qᵀ = Z * Matrix.diagonal e * Zᵀ) (j : m) : ∃ i, d j = e i := by
  by_contra hne
  push Not at hne
  have h0 : ∀ i, (Zᵀ * Q) i j = 0 := fun i => by
    have := spectral_overlap Q Z d e hQ hZ h i j
    by_contra h0
    exact hne i (mul_left_cancel₀ h0 (by rw [this]; ring))
  have hW : (Zᵀ * Q)ᵀ * (Zᵀ * Q) = 1 := by
    rw [Matrix.transpose_mul, Matrix.transpose_transpose]
    calc Qᵀ * Z * (Zᵀ * Q) = Qᵀ * (Z * Zᵀ) * Q := by simp only [Matrix.mul_assoc]
      _ = 1 := by rw [mul_eq_one_comm.1 hZ, Matrix.mul_one, hQ]
  have := congrFun (congrFun hW j) j
  rw [Matrix.mul_apply, Matrix.one_apply_eq] at this
  simp [h0] at this

end Spectral

/-- Entries of the tridiagonal matrix by position. -/
def triEntry (alpha beta : ℕ → ℝ) (i j : ℕ) : ℝ :=
  if i = j then alpha i else if i + 1 = j then beta i else if j + 1 = i then beta j else 0

theorem triEntry_eq (k : ℕ) (alpha beta : ℕ → ℝ) (i j : Fin k) :
    constructTridiagonal k alpha beta i j = triEntry alpha beta i.val j.val := by
  unfold constructTridiagonal triEntry
  by_cases h : i = j
  · rw [if_pos h, if_pos (by rw [h])]
  · rw [if_neg h, if_neg (fun h' => h (Fin.ext h'))]

/-- The tridiagonal matrix after a breakdown: the one before it and copies of the last coefficient. -/
theorem tridiagonal_after_breakdown (k m : ℕ) (alpha beta : ℕ → ℝ) (hb : ∀ j, k ≤ j → j < k + 1 + m → beta j = 0)
    (ha : ∀ j, k ≤ j → j < k + 1 + m → alpha j = alpha k) :
    constructTridiagonal (k + 1 + m) alpha beta =
      (Matrix.fromBlocks (constructTridiagonal (k + 1) alpha beta) 0 0 (alpha k • (1 : Matrix (Fin m) (Fin m) ℝ))).submatrix
        finSumFinEquiv.symm finSumFinEquiv.symm := by
  ext i j
  obtain ⟨i, rfl⟩ := finSumFinEquiv.surjective i
  obtain ⟨j, rfl⟩ := finSumFinEquiv.surjective j
  rw [Matrix.submatrix_apply, Equiv.symm_apply_apply, Equiv.symm_apply_apply, triEntry_eq]
  rcases i with i | i <;> rcases j with j | j
  · rw [finSumFinEquiv_apply_left, finSumFinEquiv_apply_left, Matrix.fromBlocks_apply₁₁, triEntry_eq, Fin.val_castAdd, Fin.val_castAdd]
  · rw [finSumFinEquiv_apply_left, finSumFinEquiv_apply_right, Matrix.fromBlocks_apply₁₂, Fin.val_castAdd, Fin.val_natAdd]
    unfold triEntry
    rw [if_neg (by omega), Matrix.zero_apply]
    by_cases h : i.val + 1 = k + 1 + j.val
    · rw [if_pos h]; exact hb _ (by omega) (by omega)
    · rw [if_neg h, if_neg (by omega)]
  · rw [finSumFinEquiv_apply_left, finSumFinEquiv_apply_right, Matrix.fromBlocks_apply₂₁, Fin.val_castAdd, Fin.val_natAdd]
    unfold triEntry
    rw [if_neg (by omega), if_neg (by omega), Matrix.zero_apply]
    by_cases h : j.val + 1 = k + 1 + i.val
    · rw [if_pos h]; exact hb _ (by omega) (by omega)
    · rw [if_neg h]
  · rw [finSumFinEquiv_apply_right, finSumFinEquiv_apply_right, Matrix.fromBlocks_apply₂₂, Fin.val_natAdd, Fin.val_natAdd,
      Matrix.smul_apply, Matrix.one_apply, smul_eq_mul]
    unfold triEntry
    by_cases h : i = j
    · rw [if_pos (by rw [h]), if_pos h, ha _ (by omega) (by omega), mul_one]
    · have h' : i.val ≠ j.val := fun h' => h (Fin.ext h')
      rw [if_neg (by omega), if_neg h, mul_zero, hb _ (by omega) (by omega), hb _ (by omega) (by omega)]
      split_ifs <;> rfl

/-- The Lanczos factors after a breakdown, for every function of the values: those before it, and copies of the last vector. -/
theorem breakdown_function (matvec : Vec n → Vec n) (b : Vec n) (hb : b ≠ 0) (tol : ℝ) (k rank : ℕ) (hr : k < rank)
    (hβ : ∀ j < k, (lanczosIterations matvec b rank tol true).beta j ≠ 0) (hz : (lanczosIterations matvec b rank tol true).beta k = 0)
    (eigh : Matrix (Fin rank) (Fin rank) ℝ → Vec rank × Matrix (Fin rank) (Fin rank) ℝ) (he : IsEigh eigh)
    (eigh' : Matrix (Fin (k + 1)) (Fin (k + 1)) ℝ → Vec (k + 1) × Matrix (Fin (k + 1)) (Fin (k + 1)) ℝ) (he' : IsEigh eigh')
    (t : LowRankTerms n rank) (ht : t = lanczosLowrankTerms rank eigh matvec b tol true)
    (t' : LowRankTerms n (k + 1)) (ht' : t' = lanczosLowrankTerms (k + 1) eigh' matvec b tol true) :
    (∀ f : ℝ → ℝ, t.U * Matrix.diagonal (fun i => f (t.S i)) * t.Uᵀ = t'.U * Matrix.diagonal (fun i => f (t'.S i)) * t'.Uᵀ +
      (((rank - 1 - k : ℕ) : ℝ) * f (lzA matvec b tol true k)) •
        Matrix.vecMulVec (lzV matvec b tol true k) (lzV matvec b tol true k)) ∧
    ∀ j, (∃ i, t.S j = t'.S i) ∨ t.S j = lzA matvec b tol true k := by
  obtain ⟨m, rfl⟩ : ∃ m, rank = k + 1 + m := ⟨rank - (k + 1), by omega⟩
  have hk : ∀ j < k, lzB matvec b tol true j ≠ 0 := fun j hj => by
    have := hβ j hj; rwa [lz_beta _ _ _ _ _ j (by omega)] at this
  have hz' : lzB matvec b tol true k = 0 := by rwa [lz_beta _ _ _ _ _ k hr] at hz
  have hafter := fun j hj => lz_after_breakdown matvec b hb tol k hk hz' j hj
  have hT : constructTridiagonal (k + 1 + m) (lanczosIterations matvec b (k + 1 + m) tol true).alpha
      (lanczosIterations matvec b (k + 1 + m) tol true).beta = constructTridiagonal (k + 1 + m) (lzA matvec b tol true) (lzB matvec b tol true) := by
    ext i j
    have := i.isLt
    have := j.isLt
    simp only [constructTridiagonal]
    rw [lz_alpha _ _ _ _ _ i (by omega), lz_beta _ _ _ _ _ i (by omega), lz_beta _ _ _ _ _ j (by omega)]
  have hT' : constructTridiagonal (k + 1) (lanczosIterations matvec b (k + 1) tol true).alpha
      (lanczosIterations matvec b (k + 1) tol true).beta = constructTridiagonal (k + 1) (lzA matvec b tol true) (lzB matvec b tol true) := by
    ext i j
    have := i.isLt
    have := j.isLt
    simp only [constructTridiagonal]
    rw [lz_alpha _ _ _ _ _ i (by omega), lz_beta _ _ _ _ _ i (by omega), lz_beta _ _ _ _ _ j (by omega)]
  obtain ⟨T, hTd⟩ : ∃ T, T = constructTridiagonal (k + 1 + m) (lzA matvec b tol true) (lzB matvec b tol true) := ⟨_, rfl⟩
  obtain ⟨T', hTd'⟩ : ∃ T', T' = constructTridiagonal (k + 1) (lzA matvec b tol true) (lzB matvec b tol true) := ⟨_, rfl⟩
  obtain ⟨α, hα⟩ : ∃ α, α = lzA matvec b tol true k := ⟨_, rfl⟩
  have hblock := tridiagonal_after_breakdown k m (lzA matvec b tol true) (lzB matvec b tol true)
    (fun j h _ => (hafter j h).2.1) (fun j h _ => (hafter j h).2.2)
  rw [← hTd, ← hTd', ← hα] at hblock
  obtain ⟨q1, q2⟩ := he T (by rw [hTd]; exact tridiagonal_symm _ _ _)
  obtain ⟨q1', q2'⟩ := he' T' (by rw [hTd']; exact tridiagonal_symm _ _ _)
  have hU : t.U = lanczosBasis (k + 1 + m) (lanczosIterations matvec b (k + 1 + m) tol true).V * (eigh T).2 := by
    rw [ht, hTd, ← hT]; rfl
  have hS : t.S = (eigh T).1 := by rw [ht, hTd, ← hT]; rfl
  have hU' : t'.U = lanczosBasis (k + 1) (lanczosIterations matvec b (k + 1) tol true).V * (eigh' T').2 := by
    rw [ht', hTd', ← hT']; rfl
  have hS' : t'.S = (eigh' T').1 := by rw [ht', hTd', ← hT']; rfl
  clear ht ht' hTd hTd' hT hT' hβ hz
  obtain ⟨Q, hQ⟩ : ∃ Q, Q = (eigh T).2 := ⟨_, rfl⟩
  obtain ⟨Q', hQ'⟩ : ∃ Q', Q' = (eigh' T').2 := ⟨_, rfl⟩
  rw [← hQ] at q1 q2 hU
  rw [← hQ'] at q1' q2' hU'
  rw [← hS] at q2
  rw [← hS'] at q2'
  -- the block decomposition
  obtain ⟨Z, hZ⟩ : ∃ Z : Matrix (Fin (k + 1 + m)) (Fin (k + 1 + m)) ℝ,
    Z = (Matrix.fromBlocks Q' 0 0 (1 : Matrix (Fin m) (Fin m) ℝ)).submatrix finSumFinEquiv.symm finSumFinEquiv.symm := ⟨_, rfl⟩
  obtain ⟨e, hE⟩ : ∃ e : Fin (k + 1 + m) → ℝ, e = fun i => Sum.elim t'.S (fun _ => α) (finSumFinEquiv.symm i) := ⟨_, rfl⟩
  have hZZ : Zᵀ * Z = 1 := by
    rw [hZ, Matrix.transpose_submatrix, Matrix.submatrix_mul_equiv, Matrix.fromBlocks_transpose, Matrix.fromBlocks_multiply]
    simp only [q1', Matrix.transpose_zero, Matrix.zero_mul, Matrix.mul_zero, add_zero, zero_add, Matrix.transpose_one, Matrix.mul_one,
      Matrix.fromBlocks_one, Matrix.submatrix_one_equiv]
  have hdiag : ∀ g : ℝ → ℝ, Matrix.diagonal (fun i => g (e i)) = (Matrix.fromBlocks (Matrix.diagonal fun i => g (t'.S i)) 0 0
      (g α • (1 : Matrix (Fin m) (Fin m) ℝ))).submatrix finSumFinEquiv.symm finSumFinEquiv.symm := by
    intro g
    ext i j
    obtain ⟨i, rfl⟩ := finSumFinEquiv.surjective i
    obtain ⟨j, rfl⟩ := finSumFinEquiv.surjective j
    rw [Matrix.submatrix_apply, Equiv.symm_apply_apply, Equiv.symm_apply_apply, Matrix.diagonal_apply, hE]
    simp only [EmbeddingLike.apply_eq_iff_eq, Equiv.symm_apply_apply]
    rcases i with i | i <;> rcases j with j | j <;> simp [Matrix.diagonal_apply, Matrix.one_apply]
  have hTe : Q * Matrix.diagonal t.S * Qᵀ = Z * Matrix.diagonal e * Zᵀ := by
    have := hdiag id
    simp only [id] at this
    rw [← q2, hblock, this, hZ, Matrix.transpose_submatrix, Matrix.submatrix_mul_equiv, Matrix.submatrix_mul_equiv,
      Matrix.fromBlocks_transpose, Matrix.fromBlocks_multiply, Matrix.fromBlocks_multiply]
    congr 1
    simp only [Matrix.transpose_zero, Matrix.zero_mul, Matrix.mul_zero, add_zero, zero_add, Matrix.transpose_one, Matrix.mul_one, Matrix.one_mul]
    rw [← q2']
  refine ⟨fun f => ?_, fun j => ?_⟩
  · have hspec := spectral_unique Q Z t.S e q1 hZZ hTe f
    rw [hU, hU', Matrix.transpose_mul, Matrix.transpose_mul]
    obtain ⟨V, hV⟩ : ∃ V, V = lanczosBasis (k + 1 + m) (lanczosIterations matvec b (k + 1 + m) tol true).V := ⟨_, rfl⟩
    obtain ⟨V', hV'⟩ : ∃ V', V' = lanczosBasis (k + 1) (lanczosIterations matvec b (k + 1) tol true).V := ⟨_, rfl⟩
    rw [← hV, ← hV']
    have e1 : V * Q * Matrix.diagonal (fun i => f (t.S i)) * (Qᵀ * Vᵀ) = V * Z * Matrix.diagonal (fun i => f (e i)) * (V * Z)ᵀ := by
      calc V * Q * Matrix.diagonal (fun i => f (t.S i)) * (Qᵀ * Vᵀ) = V * (Q * Matrix.diagonal (fun i => f (t.S i)) * Qᵀ) * Vᵀ := by
            simp only [Matrix.mul_assoc]
        _ = _ := by rw [hspec, Matrix.transpose_mul]; simp only [Matrix.mul_assoc]
    have e2 : V' * Q' * Matrix.diagonal (fun i => f (t'.S i)) * (Q'ᵀ * V'ᵀ) =
        (V' * Q') * Matrix.diagonal (fun i => f (t'.S i)) * (V' * Q')ᵀ := by rw [Matrix.transpose_mul]
    rw [e1, e2]
    have hleft : ∀ x i, (V * Z) x (Fin.castAdd m i) = (V' * Q') x i := by
      intro x i
      rw [Matrix.mul_apply, Matrix.mul_apply, Fin.sum_univ_add]
      have h2 : ∑ j : Fin m, V x (Fin.natAdd (k + 1) j) * Z (Fin.natAdd (k + 1) j) (Fin.castAdd m i) = 0 := by
        refine Finset.sum_eq_zero fun j _ => ?_
        rw [hZ, Matrix.submatrix_apply, finSumFinEquiv_symm_apply_natAdd, finSumFinEquiv_symm_apply_castAdd]
        simp
      rw [h2, add_zero]
      refine Finset.sum_congr rfl fun j _ => ?_
      rw [hZ, Matrix.submatrix_apply, finSumFinEquiv_symm_apply_castAdd, finSumFinEquiv_symm_apply_castAdd, Matrix.fromBlocks_apply₁₁,
        hV, hV', lanczosBasis_apply, lanczosBasis_apply]
      rfl
    have hright : ∀ x i, (V * Z) x (Fin.natAdd (k + 1) i) = lzV matvec b tol true k x := by
      intro x i
      rw [Matrix.mul_apply, Fin.sum_univ_add]
      have h2 : ∑ j : Fin (k + 1), V x (Fin.castAdd m j) * Z (Fin.castAdd m j) (Fin.natAdd (k + 1) i) = 0 := by
        refine Finset.sum_eq_zero fun j _ => ?_
        rw [hZ, Matrix.submatrix_apply, finSumFinEquiv_symm_apply_natAdd, finSumFinEquiv_symm_apply_castAdd]
        simp
      rw [h2, zero_add, Finset.sum_eq_single i]
      · rw [hZ, Matrix.submatrix_apply, finSumFinEquiv_symm_apply_natAdd, Matrix.fromBlocks_apply₂₂, Matrix.one_apply_eq, mul_one,
          hV, lanczosBasis_apply, (hafter _ (by simp only [Fin.val_natAdd]; omega)).1]
      · intro j _ hj
        rw [hZ, Matrix.submatrix_apply, finSumFinEquiv_symm_apply_natAdd, finSumFinEquiv_symm_apply_natAdd, Matrix.fromBlocks_apply₂₂,
          Matrix.one_apply_ne hj, mul_zero]
      · simp
    have hentry : ∀ {l : ℕ} (B : Matrix (Fin n) (Fin l) ℝ) (g : Fin l → ℝ) (x y : Fin n),
        (B * Matrix.diagonal g * Bᵀ) x y = ∑ i, B x i * g i * B y i := by
      intro l B g x y
      rw [Matrix.mul_apply]
      exact Finset.sum_congr rfl fun i _ => by rw [Matrix.mul_diagonal, Matrix.transpose_apply]
    ext x y
    rw [Matrix.add_apply, hentry, hentry, Fin.sum_univ_add, Matrix.smul_apply, Matrix.vecMulVec_apply]
    congr 1
    · refine Finset.sum_congr rfl fun i _ => ?_
      rw [hleft, hleft, hE]
      simp only [finSumFinEquiv_symm_apply_castAdd, Sum.elim_inl]
    · simp only [hright, hE, finSumFinEquiv_symm_apply_natAdd, Sum.elim_inr, Finset.sum_const, Finset.card_univ, Fintype.card_fin,
        nsmul_eq_mul, smul_eq_mul, ← hα]
      rw [show k + 1 + m - 1 - k = m by omega]
      ring
  · obtain ⟨i, hi⟩ := spectral_mem Q Z t.S e q1 hZZ hTe j
    rw [hE] at hi
    obtain ⟨i, rfl⟩ := finSumFinEquiv.surjective i
    simp only [Equiv.symm_apply_apply] at hi
    rcases i with i | i
    · exact .inl ⟨i, hi⟩
    · exact .inr (by rw [← hα]; exact hi)

/-- The products reported for a low-rank estimate, whatever `U` is. -/
theorem lowRank_state_mv {r : ℕ} (t : LowRankTerms n r) (hS : ∀ k, 0 ≤ t.S k) (a : PriorArgs) (τ : ℝ) (hτ : a.priorPrec = some τ) (hτ0 : 0 < τ)
    (hσ : 0 ≤ a.sigmaSquared.getD 1) (s : ℝ) (hs : 0 < s) :
    ∃ st, posteriorState (.lowRank t) a s = .ok st ∧
      (∀ v, covMvOfState st v = ((1 / (τ / s)) • (1 : Matrix (Fin n) (Fin n) ℝ) +
        t.U * Matrix.diagonal (fun k => 1 / (τ / s + a.sigmaSquared.getD 1 * t.S k) - 1 / (τ / s)) * t.Uᵀ) *ᵥ v) ∧
      ∀ v, scaleMvOfState st v = ((1 / √(τ / s)) • (1 : Matrix (Fin n) (Fin n) ℝ) +
        t.U * Matrix.diagonal (fun k => 1 / √(τ / s + a.sigmaSquared.getD 1 * t.S k) - 1 / √(τ / s)) * t.Uᵀ) *ᵥ v := by
  have hq : 0 < τ / s := by positivity
  refine ⟨.lowRank (lowRankScale ⟨t.U, fun k => a.sigmaSquared.getD 1 * t.S k, τ / s⟩), ?_, ?_, ?_⟩
  · simp only [posteriorState, lowRankCurvatureToPrecision, PriorArgs.getPriorPrec, PriorArgs.getSigmaSquared, hτ]
    rfl
  · intro v
    refine (createLowRankMv_eq _ v).trans ?_
    congr 1
    simp only [lowRankMatrix, lowRankSquare, lowRankScale, div_pow (1 : ℝ) (√(τ / s)), one_pow, Real.sq_sqrt hq.le]
    congr 3
    congr 1
    funext k
    have h1 : 0 ≤ a.sigmaSquared.getD 1 * t.S k + τ / s := by have := hS k; positivity
    rw [sub_add_cancel, div_pow, one_pow, Real.sq_sqrt h1, add_comm (τ / s)]
  · intro v
    refine (createLowRankMv_eq _ v).trans ?_
    congr 1
    simp only [lowRankMatrix, lowRankScale]
    congr 3
    congr 1
    funext k
    rw [add_comm (τ / s)]

section
variable (A : Matrix (Fin n) (Fin n) ℝ) (hA : A.PosSemidef) (b : Vec n) (hb : b ≠ 0) (tol : ℝ) (k rank : ℕ) (hr : k < rank)
  (l : LanczosState n) (hl : l = lanczosIterations (fun v => A *ᵥ v) b rank tol true)
  (hβ : ∀ j < k, l.beta j ≠ 0) (hz : l.beta k = 0)
  (eigh : Matrix (Fin rank) (Fin rank) ℝ → Vec rank × Matrix (Fin rank) (Fin rank) ℝ) (he : IsEigh eigh)
  (a : PriorArgs) (τ : ℝ) (hτ : a.priorPrec = some τ) (hτ0 : 0 < τ) (σ : ℝ) (hσe : σ = a.sigmaSquared.getD 1) (hσ : 0 ≤ σ)
  (s : ℝ) (hs : 0 < s) (q : ℝ) (hq : q = τ / s)

include hA in
theorem psd_transpose : Aᵀ = A := by rw [← Matrix.conjTranspose_eq_transpose_of_trivial]; exact hA.isHermitian.eq

include hA hb hr hl hβ hz he hτ hτ0 hσe hσ hs hq in
/-- **C64 (after a breakdown).** Let the first breakdown happen at iteration `k < rank`, and let `P` be the orthogonal projector on the span of
the `k + 1` vectors found.  With `N = q I + σ² P A P` the precision for the compression of the curvature `A` to this space (`q = τ / s`), the
reported covariance is *not* `N⁻¹` but `N⁻¹` plus `rank - 1 - k` copies of the (negative) correction of the last direction; the reported scale
has the corresponding error. -/
theorem C64_breakdown_posterior : ∃ (P : Matrix (Fin n) (Fin n) ℝ) (R : Matrix (Fin n) (Fin n) ℝ) (st : PosteriorState n),
    Pᵀ = P ∧ P * P = P ∧ (∀ j ≤ k, P *ᵥ l.V j = l.V j) ∧ (∀ x, P *ᵥ x ∈ Submodule.span ℝ {x | ∃ i < k + 1, x = l.V i}) ∧
    (q • (1 : Matrix (Fin n) (Fin n) ℝ) + σ • (P * A * P)).PosDef ∧ R * Rᵀ = (q • (1 : Matrix (Fin n) (Fin n) ℝ) + σ • (P * A * P))⁻¹ ∧
    l.V k ⬝ᵥ l.V k = 1 ∧ l.alpha k = l.V k ⬝ᵥ (A *ᵥ l.V k) ∧
    posteriorState (.lowRank (lanczosLowrankTerms rank eigh (fun v => A *ᵥ v) b tol true)) a s = .ok st ∧
    (∀ v, covMvOfState st v = (q • (1 : Matrix (Fin n) (Fin n) ℝ) + σ • (P * A * P))⁻¹ *ᵥ v -
      (((rank - 1 - k : ℕ) : ℝ) * (1 / q - 1 / (q + σ * l.alpha k)) * (l.V k ⬝ᵥ v)) • l.V k) ∧
    ∀ v, scaleMvOfState st v = R *ᵥ v -
      (((rank - 1 - k : ℕ) : ℝ) * (1 / √q - 1 / √(q + σ * l.alpha k)) * (l.V k ⬝ᵥ v)) • l.V k := by
  subst hl hσe hq
  obtain ⟨eigh', he'⟩ := C23_eigh_exists (k + 1)
  have hAt := psd_transpose A hA
  have hV : ∀ j ≤ rank, (lanczosIterations (fun v => A *ᵥ v) b rank tol true).V j = lzV (fun v => A *ᵥ v) b tol true j := fun j hj =>
    lz_V _ _ _ _ rank j hj
  have hαk : (lanczosIterations (fun v => A *ᵥ v) b rank tol true).alpha k = lzA (fun v => A *ᵥ v) b tol true k := lz_alpha _ _ _ _ rank k hr
  have hβ' : ∀ j, j + 1 < k + 1 → (lanczosIterations (fun v => A *ᵥ v) b (k + 1) tol true).beta j ≠ 0 := fun j hj => by
    have := hβ j (by omega)
    rw [lz_beta _ _ _ _ rank j (by omega)] at this
    rwa [lz_beta _ _ _ _ (k + 1) j (by omega)]
  obtain ⟨hU, -, -, hS, P, hP, hPt, hPP, hPm, hPx, hPAP⟩ := C23_low_rank_terms A hAt b hb tol (k + 1) eigh' he' hβ' _ rfl
  have hspan := C23_krylov A hAt b hb tol (k + 1) (k + 1) le_rfl _ rfl hβ'
  have hset : {x | ∃ i < k + 1, x = (lanczosIterations (fun v => A *ᵥ v) b (k + 1) tol true).V i} =
      {x | ∃ i < k + 1, x = (lanczosIterations (fun v => A *ᵥ v) b rank tol true).V i} := by
    ext x
    constructor
    · rintro ⟨i, hi, rfl⟩; exact ⟨i, hi, by rw [hV i (by omega), lz_V _ _ _ _ (k + 1) i (by omega)]⟩
    · rintro ⟨i, hi, rfl⟩; exact ⟨i, hi, by rw [hV i (by omega), lz_V _ _ _ _ (k + 1) i (by omega)]⟩
  rw [hset] at hspan
  obtain ⟨hf, hmem⟩ := breakdown_function (fun v => A *ᵥ v) b hb tol k rank hr hβ hz eigh he eigh' he' _ rfl _ rfl
  have hα : lzA (fun v => A *ᵥ v) b tol true k = lzV (fun v => A *ᵥ v) b tol true k ⬝ᵥ (A *ᵥ lzV (fun v => A *ᵥ v) b tol true k) :=
    lzA_eq _ _ _ _ _
  have hα0 : 0 ≤ lzA (fun v => A *ᵥ v) b tol true k := by
    rw [hα]; simpa using hA.dotProduct_mulVec_nonneg (lzV (fun v => A *ᵥ v) b tol true k)
  have hS0 : ∀ j, 0 ≤ (lanczosLowrankTerms rank eigh (fun v => A *ᵥ v) b tol true).S j := fun j => by
    rcases hmem j with ⟨i, hi⟩ | hi
    · rw [hi]; exact hS hA i
    · rw [hi]; exact hα0
  obtain ⟨st, p1, p2, p3⟩ := lowRank_state_mv _ hS0 a τ hτ hτ0 hσ s hs
  obtain ⟨st', p1', p2', p3'⟩ := lowRank_state_mv _ (hS hA) a τ hτ hτ0 hσ s hs
  obtain ⟨st'', k1, ⟨k2, k3, k4, R, k5, k6⟩, -⟩ := C21_low_rank_posterior _ hU (hS hA) a τ hτ hτ0 hσ s hs
  obtain rfl : st' = st'' := by rw [p1'] at k1; exact Except.ok.inj k1
  rw [hPAP] at k2 k3 k4 k6
  refine ⟨P, R, st, hPt, hPP, fun j hj => ?_, fun x => ?_, ?_, k6, ?_, ?_, p1, fun v => ?_, fun v => ?_⟩
  · apply hPx
    rw [← hspan]
    exact Submodule.subset_span ⟨j, by omega, rfl⟩
  · rw [hspan]; exact hPm x
  · have := k3.inv
    rwa [Matrix.nonsing_inv_nonsing_inv] at this
    exact (Matrix.isUnit_iff_isUnit_det _).1 (IsUnit.of_mul_eq_one _ k2)
  · rw [C23_orthonormal _ b hb tol rank k (by omega) hβ k k le_rfl le_rfl, if_pos rfl]
  · rw [hαk, hα, hV k (by omega)]
  · rw [← k4, p2, p2', hf (fun x => 1 / (τ / s + a.sigmaSquared.getD 1 * x) - 1 / (τ / s)), hαk, hV k (by omega), ← add_assoc, Matrix.add_mulVec _ _ v,
      sub_eq_add_neg]
    congr 1
    rw [Matrix.smul_mulVec, Matrix.vecMulVec_mulVec]
    funext i
    simp only [Pi.neg_apply, Pi.smul_apply, smul_eq_mul, MulOpposite.smul_eq_mul_unop, MulOpposite.unop_op]
    ring
  · rw [← k5, p3, p3', hf (fun x => 1 / √(τ / s + a.sigmaSquared.getD 1 * x) - 1 / √(τ / s)), hαk, hV k (by omega), ← add_assoc,
      Matrix.add_mulVec _ _ v, sub_eq_add_neg]
    congr 1
    rw [Matrix.smul_mulVec, Matrix.vecMulVec_mulVec]
    funext i
    simp only [Pi.neg_apply, Pi.smul_apply, smul_eq_mul, MulOpposite.smul_eq_mul_unop, MulOpposite.unop_op]
    ring

include hA hb hr hl hβ hz he hτ hτ0 hσe hσ hs hq in
/-- **C64 (when is it a covariance).** After a breakdown at iteration `k`, the reported covariance is positive semidefinite exactly if
`(rank - 1 - k) σ² α_k ≤ q`: as soon as the surplus iterations times the curvature in the last direction exceed the prior precision, some
directions have *negative* reported variance. -/
theorem C64_positive_semidefinite_iff : ∃ st : PosteriorState n,
    posteriorState (.lowRank (lanczosLowrankTerms rank eigh (fun v => A *ᵥ v) b tol true)) a s = .ok st ∧
    ((∀ v, 0 ≤ v ⬝ᵥ covMvOfState st v) ↔ ((rank - 1 - k : ℕ) : ℝ) * (σ * l.alpha k) ≤ q) := by
  obtain ⟨P, R, st, hPt, hPP, hPv, -, hN, hR, hv1, hα, h1, h2, -⟩ := C64_breakdown_posterior A hA b hb tol k rank hr l hl hβ hz eigh he a τ hτ hτ0 σ
    hσe hσ s hs q hq
  refine ⟨st, h1, ?_⟩
  have hq0 : 0 < q := by rw [hq]; positivity
  obtain ⟨N, hNd⟩ : ∃ N, N = q • (1 : Matrix (Fin n) (Fin n) ℝ) + σ • (P * A * P) := ⟨_, rfl⟩
  rw [← hNd] at hN hR h2
  have hα0 : 0 ≤ l.alpha k := by rw [hα]; simpa using hA.dotProduct_mulVec_nonneg (l.V k)
  have hunit : IsUnit N.det := (Matrix.isUnit_iff_isUnit_det _).1 hN.isUnit
  have hNt : Nᵀ = N := psd_transpose N hN.posSemidef
  have hPk := hPv k le_rfl
  -- the quadratic form of N in the last direction
  have hNv : l.V k ⬝ᵥ (N *ᵥ l.V k) = q + σ * l.alpha k := by
    rw [hNd, Matrix.add_mulVec, Matrix.smul_mulVec, Matrix.smul_mulVec, Matrix.one_mulVec, dotProduct_add, dotProduct_smul, dotProduct_smul, hv1,
      ← Matrix.mulVec_mulVec, ← Matrix.mulVec_mulVec, hPk, Matrix.dotProduct_mulVec, ← Matrix.mulVec_transpose, hPt, hPk, ← hα]
    simp
  have hd : 0 < q + σ * l.alpha k := by positivity
  obtain ⟨m, hm⟩ : ∃ m, m = ((rank - 1 - k : ℕ) : ℝ) := ⟨_, rfl⟩
  have hm0 : 0 ≤ m := by rw [hm]; positivity
  rw [← hm] at h2 ⊢
  obtain ⟨α, hαd⟩ : ∃ α, α = l.alpha k := ⟨_, rfl⟩
  obtain ⟨w, hw⟩ : ∃ w, w = l.V k := ⟨_, rfl⟩
  rw [← hαd] at h2 hNv hd hα0 ⊢
  rw [← hw] at h2 hNv hv1
  have hform : ∀ v, v ⬝ᵥ covMvOfState st v = v ⬝ᵥ (N⁻¹ *ᵥ v) - m * (1 / q - 1 / (q + σ * α)) * (w ⬝ᵥ v) ^ 2 := by
    intro v
    rw [h2, dotProduct_sub, dotProduct_smul, smul_eq_mul, dotProduct_comm v w]; ring
  have hc : 1 / q - 1 / (q + σ * α) = σ * α / (q * (q + σ * α)) := by field_simp; ring
  constructor
  · intro h
    have := h (N *ᵥ w)
    rw [hform, Matrix.mulVec_mulVec, Matrix.nonsing_inv_mul _ hunit, Matrix.one_mulVec, dotProduct_comm, hNv, hc] at this
    have h3 : (q + σ * α) - m * (σ * α / (q * (q + σ * α))) * (q + σ * α) ^ 2 = (q + σ * α) / q * (q - m * (σ * α)) := by field_simp
    rw [h3] at this
    have h4 : 0 < (q + σ * α) / q := by positivity
    have := nonneg_of_mul_nonneg_right this h4
    linarith
  · intro h v
    have hcs : (w ⬝ᵥ v) ^ 2 ≤ (v ⬝ᵥ (N⁻¹ *ᵥ v)) * (q + σ * α) := by
      have hRt : ∀ u, u ⬝ᵥ (N⁻¹ *ᵥ u) = (Rᵀ *ᵥ u) ⬝ᵥ (Rᵀ *ᵥ u) := fun u => by
        rw [← hR, ← Matrix.mulVec_mulVec, Matrix.dotProduct_mulVec, ← Matrix.mulVec_transpose]
      have h5 : w ⬝ᵥ v = (Rᵀ *ᵥ (N *ᵥ w)) ⬝ᵥ (Rᵀ *ᵥ v) := by
        rw [Matrix.dotProduct_mulVec, ← Matrix.mulVec_transpose, Matrix.transpose_transpose, Matrix.mulVec_mulVec, hR, Matrix.mulVec_mulVec,
          Matrix.nonsing_inv_mul _ hunit, Matrix.one_mulVec]
      have h6 : (Rᵀ *ᵥ (N *ᵥ w)) ⬝ᵥ (Rᵀ *ᵥ (N *ᵥ w)) = q + σ * α := by
        rw [← hRt, Matrix.mulVec_mulVec, Matrix.nonsing_inv_mul _ hunit, Matrix.one_mulVec, dotProduct_comm, hNv]
      rw [h5, hRt, ← h6, mul_comm]
      simp only [dotProduct, ← pow_two]
      exact Finset.sum_mul_sq_le_sq_mul_sq _ _ _
    rw [hform, hc]
    have h7 : m * (σ * α / (q * (q + σ * α))) * (w ⬝ᵥ v) ^ 2 ≤ m * (σ * α / (q * (q + σ * α))) * ((v ⬝ᵥ (N⁻¹ *ᵥ v)) * (q + σ * α)) :=
      mul_le_mul_of_nonneg_left hcs (by positivity)
    have h8 : m * (σ * α / (q * (q + σ * α))) * ((v ⬝ᵥ (N⁻¹ *ᵥ v)) * (q + σ * α)) = (m * (σ * α)) / q * (v ⬝ᵥ (N⁻¹ *ᵥ v)) := by field_simp
    have h9 : 0 ≤ v ⬝ᵥ (N⁻¹ *ᵥ v) := by simpa using hN.inv.posSemidef.dotProduct_mulVec_nonneg v
    have h10 : (m * (σ * α)) / q ≤ 1 := by rw [div_le_one hq0]; exact h
    nlinarith
include hA hb hτ hτ0 hσe hσ hs hq he in
/-- **C64 (holds without breakdown).** If no breakdown happens before the last iteration, the posterior is the Gaussian with precision
`q I + σ² P A P`, `P` the orthogonal projector on the Krylov space of the start vector.  Missing: after a breakdown it is not
(`C64_breakdown_posterior`), and need not be a Gaussian at all (`C64_positive_semidefinite_iff`). -/
theorem C64_without_breakdown_partial (hβ' : ∀ j, j + 1 < rank → (lanczosIterations (fun v => A *ᵥ v) b rank tol true).beta j ≠ 0) :
    ∃ (P : Matrix (Fin n) (Fin n) ℝ) (st : PosteriorState n), Pᵀ = P ∧ P * P = P ∧ (∀ x, P *ᵥ x ∈ krylov A b rank) ∧
      (∀ x ∈ krylov A b rank, P *ᵥ x = x) ∧
      posteriorState (.lowRank (lanczosLowrankTerms rank eigh (fun v => A *ᵥ v) b tol true)) a s = .ok st ∧
      IsPosterior (q • (1 : Matrix (Fin n) (Fin n) ℝ) + σ • (P * A * P)) (covMvOfState st) (scaleMvOfState st) := by
  subst hσe hq
  obtain ⟨hU, -, -, hS, P, hP, hPt, hPP, hPm, hPx, hPAP⟩ := C23_low_rank_terms A (psd_transpose A hA) b hb tol rank eigh he hβ' _ rfl
  obtain ⟨st, k1, k2, -⟩ := C21_low_rank_posterior _ hU (hS hA) a τ hτ hτ0 hσ s hs
  rw [hPAP] at k2
  exact ⟨P, st, hPt, hPP, hPm, hPx, k1, k2⟩

include hA hb hτ hτ0 hσe hσ hs hq he in
/-- **C64 (more iterations than parameters).** With `rank > n` and curvature at least `lam` in every direction, the reported covariance has a
direction of negative variance as soon as `(rank - n) σ² lam > q`. -/
theorem C64_rank_exceeds_parameters (hn : n < rank) (lam : ℝ) (hlam : ∀ v : Vec n, lam * (v ⬝ᵥ v) ≤ v ⬝ᵥ (A *ᵥ v))
    (hbig : q < ((rank - n : ℕ) : ℝ) * (σ * lam)) : ∃ st : PosteriorState n,
    posteriorState (.lowRank (lanczosLowrankTerms rank eigh (fun v => A *ᵥ v) b tol true)) a s = .ok st ∧
    ∃ v, v ⬝ᵥ covMvOfState st v < 0 := by
  classical
  have hex : ∃ k, k < n ∧ (lanczosIterations (fun v => A *ᵥ v) b rank tol true).beta k = 0 :=
    C23_rank_exceeds_dimension _ b hb tol rank hn.le
  obtain ⟨hk1, hk2⟩ := Nat.find_spec hex
  have hmin : ∀ j < Nat.find hex, (lanczosIterations (fun v => A *ᵥ v) b rank tol true).beta j ≠ 0 := fun j hj h0 =>
    Nat.find_min hex hj ⟨by omega, h0⟩
  obtain ⟨P, R, -, -, -, -, -, -, -, hv1, hα, -⟩ := C64_breakdown_posterior A hA b hb tol (Nat.find hex) rank (by omega) _ rfl hmin hk2 eigh he a τ
    hτ hτ0 σ hσe hσ s hs q hq
  obtain ⟨st, h1, h2⟩ := C64_positive_semidefinite_iff A hA b hb tol (Nat.find hex) rank (by omega) _ rfl hmin hk2 eigh he a τ hτ hτ0 σ hσe hσ
    s hs q hq
  refine ⟨st, h1, ?_⟩
  by_contra hne
  push Not at hne
  have h3 := h2.1 hne
  have h4 : lam ≤ (lanczosIterations (fun v => A *ᵥ v) b rank tol true).alpha (Nat.find hex) := by
    have := hlam ((lanczosIterations (fun v => A *ᵥ v) b rank tol true).V (Nat.find hex))
    rwa [hv1, mul_one, ← hα] at this
  have hq0 : 0 < q := by rw [hq]; positivity
  have h5 : ((rank - n : ℕ) : ℝ) ≤ ((rank - 1 - Nat.find hex : ℕ) : ℝ) := by exact_mod_cast (by omega)
  have h6 : σ * lam ≤ σ * (lanczosIterations (fun v => A *ᵥ v) b rank tol true).alpha (Nat.find hex) := mul_le_mul_of_nonneg_left h4 hσ
  have h7 : 0 ≤ σ * (lanczosIterations (fun v => A *ᵥ v) b rank tol true).alpha (Nat.find hex) := by
    refine mul_nonneg hσ ?_
    rw [hα]; simpa using hA.dotProduct_mulVec_nonneg _
  have h8 : ((rank - n : ℕ) : ℝ) * (σ * lam) ≤ ((rank - n : ℕ) : ℝ) * (σ * (lanczosIterations (fun v => A *ᵥ v) b rank tol true).alpha (Nat.find hex)) :=
    mul_le_mul_of_nonneg_left h6 (by positivity)
  have h9 := mul_le_mul_of_nonneg_right h5 h7
  linarith
end

/-- **C64 (one parameter).** For a model with one parameter and curvature `c`, `rank` Lanczos iterations report the variance
`rank / (q + σ² c) - (rank - 1) / q` instead of `1 / (q + σ² c)`, and the scale `rank / √(q + σ² c) - (rank - 1) / √q` instead of
`1 / √(q + σ² c)`: growing data push the variance towards `-(rank - 1) / q`. -/
theorem C64_one_parameter (A : Matrix (Fin 1) (Fin 1) ℝ) (hA : A.PosSemidef) (b : Vec 1) (hb : b ≠ 0) (tol : ℝ) (rank : ℕ) (hr : 0 < rank)
    (eigh : Matrix (Fin rank) (Fin rank) ℝ → Vec rank × Matrix (Fin rank) (Fin rank) ℝ) (he : IsEigh eigh)
    (a : PriorArgs) (τ : ℝ) (hτ : a.priorPrec = some τ) (hτ0 : 0 < τ) (σ : ℝ) (hσe : σ = a.sigmaSquared.getD 1) (hσ : 0 ≤ σ)
    (s : ℝ) (hs : 0 < s) (q : ℝ) (hq : q = τ / s) : ∃ st : PosteriorState 1,
    posteriorState (.lowRank (lanczosLowrankTerms rank eigh (fun v => A *ᵥ v) b tol true)) a s = .ok st ∧
    (∀ v, covMvOfState st v = ((rank : ℝ) / (q + σ * A 0 0) - ((rank : ℝ) - 1) / q) • v) ∧
    ∀ v, scaleMvOfState st v = ((rank : ℝ) / √(q + σ * A 0 0) - ((rank : ℝ) - 1) / √q) • v := by
  obtain ⟨k, hk, hz⟩ := C23_rank_exceeds_dimension (fun v => A *ᵥ v) b hb tol rank hr
  obtain rfl : k = 0 := by omega
  subst hσe hq
  have hz' : lzB (fun v => A *ᵥ v) b tol true 0 = 0 := by rwa [lz_beta _ _ _ _ rank 0 hr] at hz
  obtain ⟨eigh', he'⟩ := C23_eigh_exists 1
  obtain ⟨t', ht'⟩ : ∃ t', t' = lanczosLowrankTerms 1 eigh' (fun v => A *ᵥ v) b tol true := ⟨_, rfl⟩
  obtain ⟨hf, hmem⟩ := breakdown_function (fun v => A *ᵥ v) b hb tol 0 rank hr (by omega) hz eigh he eigh' he' _ rfl t' ht'
  obtain ⟨hU, hUAU, -, hS, -⟩ := C23_low_rank_terms A (psd_transpose A hA) b hb tol 1 eigh' he' (by omega) t' ht'
  have hA00 : 0 ≤ A 0 0 := by
    have := hA.dotProduct_mulVec_nonneg (fun _ => 1)
    simpa [dotProduct, Matrix.mulVec] using this
  have hu : t'.U 0 0 * t'.U 0 0 = 1 := by
    have := congrFun (congrFun hU 0) 0
    simpa [Matrix.mul_apply] using this
  have hS0 : t'.S 0 = A 0 0 := by
    have := congrFun (congrFun hUAU 0) 0
    simp only [Matrix.mul_apply, Matrix.transpose_apply, Matrix.diagonal_apply_eq, Fin.sum_univ_one, Fin.isValue] at this
    rw [← this]; linear_combination (A 0 0) * hu
  have hvv : lzV (fun v => A *ᵥ v) b tol true 0 0 * lzV (fun v => A *ᵥ v) b tol true 0 0 = 1 := by
    have := lzV_zero_norm (fun v => A *ᵥ v) b tol true hb
    simpa [dotProduct] using this
  have hα : lzA (fun v => A *ᵥ v) b tol true 0 = A 0 0 := by
    rw [lzA_eq]
    simp only [dotProduct, Matrix.mulVec, Fin.sum_univ_one, Fin.isValue]
    linear_combination (A 0 0) * hvv
  have hS0' : ∀ j, 0 ≤ (lanczosLowrankTerms rank eigh (fun v => A *ᵥ v) b tol true).S j := fun j => by
    rcases hmem j with ⟨i, hi⟩ | hi
    · rw [hi]; exact hS hA i
    · rw [hi, hα]; exact hA00
  obtain ⟨st, p1, p2, p3⟩ := lowRank_state_mv _ hS0' a τ hτ hτ0 hσ s hs
  have hcast : ((rank - 1 - 0 : ℕ) : ℝ) = (rank : ℝ) - 1 := by rw [Nat.sub_zero, Nat.cast_sub (by omega)]; simp
  have hval : ∀ f : ℝ → ℝ, (t'.U * Matrix.diagonal (fun i => f (t'.S i)) * t'.Uᵀ) 0 0 = f (A 0 0) := by
    intro f
    rw [Matrix.mul_apply, Fin.sum_univ_one, Matrix.mul_diagonal, Matrix.transpose_apply, hS0]
    linear_combination (f (A 0 0)) * hu
  have hentry : ∀ (c : ℝ) (f : ℝ → ℝ), (c • (1 : Matrix (Fin 1) (Fin 1) ℝ) +
      (lanczosLowrankTerms rank eigh (fun v => A *ᵥ v) b tol true).U *
        Matrix.diagonal (fun i => f ((lanczosLowrankTerms rank eigh (fun v => A *ᵥ v) b tol true).S i)) *
        (lanczosLowrankTerms rank eigh (fun v => A *ᵥ v) b tol true).Uᵀ) 0 0 = c + rank * f (A 0 0) := by
    intro c f
    rw [hf f, Matrix.add_apply, Matrix.add_apply, hval, Matrix.smul_apply, Matrix.smul_apply, Matrix.vecMulVec_apply, hvv, hα, hcast]
    simp
    ring
  have hmv : ∀ (M : Matrix (Fin 1) (Fin 1) ℝ) (v : Vec 1), M *ᵥ v = M 0 0 • v := by
    intro M v
    funext i
    obtain rfl : i = 0 := Subsingleton.elim _ _
    simp [Matrix.mulVec, dotProduct]
  refine ⟨st, p1, fun v => ?_, fun v => ?_⟩
  · rw [p2, hmv, hentry (1 / (τ / s)) (fun x => 1 / (τ / s + a.sigmaSquared.getD 1 * x) - 1 / (τ / s))]
    congr 1; ring
  · rw [p3, hmv, hentry (1 / √(τ / s)) (fun x => 1 / √(τ / s + a.sigmaSquared.getD 1 * x) - 1 / √(τ / s))]
    congr 1; ring

section
variable {p c : ℕ} {B X Y Key : Type} (E : LowRankExt Key) (jit : Bool) (lower : String → String) (rows : B → Except Err (List B))
    (points : PyObj B → PyObj B → Except Err (List (X × Y))) (model : X → Vec p → Vec c)
    (bmodel : PyObj B → Except Err (Σ N : ℕ, Vec p → Fin N → Vec c)) (params : PyTree ℝ) (θ : Vec p) (data : PyObj B)
    (ps : List (PyObj B × PyObj B)) (decode : PyObj B × PyObj B → List (X × Y)) (h : ReadableData points params θ data ps decode)
    (hd : ∀ s ∈ ps.flatMap decode, DifferentiableAt ℝ (model s.1) θ)
    (loss : String) (H : Vec c → Vec c → Y → Vec c) (hH : createLossHessianMv (.name loss : LossArg c Y) = .ok H)
    (numCurv numTotal : ℕ) (hN : numTotal ≠ 0)

include h hd hH hN in
/-- **C64 (`laplace` with Lanczos and default rank).** For every model with fewer than 20 parameters, every data set, batching and named loss:
`laplace(..., curv_type="lanczos", key=key)` without further keywords succeeds, and if the curvature `num_curv/num_total Σ Jᵀ H J` is at least `lam`
in every direction with `(20 - p) σ² lam > τ / s`, the covariance product of the returned posterior has a pytree direction with negative variance. -/
theorem C64_laplace_negative_variance (curvType : EnumArg) (hct : convertToEnum lower curvApproxValues false curvType = .ok (.member "lanczos"))
    (hp : p < 20) (key : Key) (hkey : E.normal key p ≠ 0) (hE : IsEigh (E.kernels.eigh (r := 20)))
    (prior : PriorArgs) (τ : ℝ) (hτ : prior.priorPrec = some τ) (hτ0 : 0 < τ) (hσ : 0 ≤ prior.sigmaSquared.getD 1) (s : ℝ) (hs : 0 < s)
    (lam : ℝ) (hlam : ∀ v : Vec p, lam * (v ⬝ᵥ v) ≤ v ⬝ᵥ (((numCurv : ℝ) / numTotal) • ggnSamples model θ H (ps.flatMap decode) v))
    (hbig : τ / s < ((20 - p : ℕ) : ℝ) * (prior.sigmaSquared.getD 1 * lam)) :
    ∃ (posteriorFn : PriorArgs → ℝ → Except Err (Posterior p)) (est : CurvEstimate p) (post : Posterior p)
      (cov : List (PyTree ℝ) → Except Err (PyTree ℝ)) (f : Vec p → Vec p),
      laplaceKw E ⟨true, jit⟩ lower rows points model bmodel params data (.name loss) curvType numCurv numTotal { kw := { key := some key } } =
        .ok (posteriorFn, est) ∧
      posteriorFn prior s = .ok post ∧ post.covMv post.state = .ok cov ∧ ActsOnTrees params cov f ∧ ∃ v, v ⬝ᵥ f v < 0 := by
  obtain ⟨G, hG, hL⟩ := C59_low_rank_keywords E jit lower rows points model bmodel params θ data ps decode h hd (.name loss) H hH numCurv numTotal hN
    curvType "lanczos" (.inl rfl) hct { kw := { key := some key } } (by simp)
  have hgood := goodLossHess_named loss H hH
  have hGm : G = ggnMatrix model θ H hgood ((numCurv : ℝ) / numTotal) (ps.flatMap decode) := by
    apply Matrix.toLin'.injective
    apply LinearMap.ext; intro v
    rw [Matrix.toLin'_apply, Matrix.toLin'_apply, hG, ggnMatrix_mulVec]
  have hpsd : G.PosSemidef := by rw [hGm]; exact ggnMatrix_posSemidef model θ H hgood _ (by positivity) _ hd
  have hrun := (C49_lanczos E G h.hp _ _ (IsOperator.matrix .none) { key := some key }).1 (E.normal key p) (.inr ⟨rfl, key, rfl, rfl⟩)
  rcases hL with ⟨e, h1, -⟩ | ⟨r, t, h1, h2⟩
  · simp only [Option.getD_none] at h1
    rw [hrun] at h1; cases h1
  · simp only [Option.getD_none] at h1
    rw [hrun] at h1
    simp only [Except.ok.injEq, Sigma.mk.injEq, heq_eq_eq, true_and] at h1
    obtain ⟨rfl, h1⟩ := h1
    obtain rfl := eq_of_heq h1
    obtain ⟨st, hst, v, hv⟩ := C64_rank_exceeds_parameters G hpsd (E.normal key p) hkey 1e-6 20 E.kernels.eigh hE prior τ hτ hτ0 _ rfl hσ s hs _ rfl hp
      lam (fun v => by rw [hG]; exact hlam v) hbig
    have hsz : numEntries params = p := by rw [← length_entries h.hwf, h.hθ, List.length_ofFn]
    obtain ⟨post, g1, g2, g3⟩ := C26_pytree_products _ params hsz h.hp prior s st hst
    obtain ⟨cov, scale, c1, c2, c3⟩ := g3 post.state
    exact ⟨_, _, post, cov, covMvOfState post.state, h2, g1, c1, fun u x hu hx => (c3 u x hu hx).1, v, by rw [g2]; exact hv⟩

end

/-! ### Non-vacuity -/

/-- `C64_breakdown_posterior`, `C64_positive_semidefinite_iff`: a curvature matrix on which a run of three iterations breaks down at once, and for
which the condition of the theorem fails (`2 · 3 > 1`). -/
example : ∃ (A : Matrix (Fin 2) (Fin 2) ℝ) (b : Vec 2), A.PosSemidef ∧ b ≠ 0 ∧
    (lanczosIterations (fun v => A *ᵥ v) b 3 1e-6 true).beta 0 = 0 ∧
    ¬ ((3 - 1 - 0 : ℕ) : ℝ) * (1 * (lanczosIterations (fun v => A *ᵥ v) b 3 1e-6 true).alpha 0) ≤ 1 := by
  have hv0 : lzV (fun v => (3 • (1 : Matrix (Fin 2) (Fin 2) ℝ)) *ᵥ v) ![1, 0] 1e-6 true 0 = ![1, 0] := by
    rw [lzV_zero]; simp [norm2, dotProduct]
  have hA : ∀ v : Vec 2, (3 • (1 : Matrix (Fin 2) (Fin 2) ℝ)) *ᵥ v = (3 : ℝ) • v := fun v => by
    rw [Matrix.smul_mulVec, Matrix.one_mulVec]; funext i; simp
  have ha : lzA (fun v => (3 • (1 : Matrix (Fin 2) (Fin 2) ℝ)) *ᵥ v) ![1, 0] 1e-6 true 0 = 3 := by
    rw [lzA_eq, hv0]; simp only [hA]; simp [dotProduct]
  have hw : lzW (fun v => (3 • (1 : Matrix (Fin 2) (Fin 2) ℝ)) *ᵥ v) ![1, 0] 1e-6 true 0 = 0 := by
    simp only [lzW, hv0]
    simp only [hA, reorthogonalize, List.range_zero, List.foldl_nil, if_true]
    funext i; fin_cases i <;> simp [dotProduct]
  refine ⟨3 • 1, ![1, 0], Matrix.PosSemidef.one.smul (by norm_num), fun h => by simpa using congrFun h 0, ?_, ?_⟩
  · rw [lz_beta _ _ _ _ 3 0 (by norm_num), (lzStep _ _ _ _ 0).1, hw]; norm_num [norm2]
  · rw [lz_alpha _ _ _ _ 3 0 (by norm_num), ha]; norm_num

/-- The rows `(x, 1)` of the Jacobian of the straight line. -/
def wRow (x : ℝ) : Matrix (Fin 1) (Fin 2) ℝ := !![x, 1]

theorem wModel_jacobian (x : ℝ) (θ : Vec 2) : jacobian (wModel 1 x) θ = wRow x := by
  have h : wModel 1 x = fun t => wRow x *ᵥ t := by
    funext t k
    simp [wModel, wRow, Matrix.mulVec, dotProduct, Fin.sum_univ_succ]
  have h' : HasFDerivAt (wModel 1 x) (LinearMap.toContinuousLinearMap (Matrix.toLin' (wRow x))) θ := by
    rw [h]
    exact (LinearMap.toContinuousLinearMap (Matrix.toLin' (wRow x))).hasFDerivAt
  ext k j
  simp [jacobian, h'.fderiv]

/-- `C64_laplace_negative_variance` (and with it `C64_rank_exceeds_parameters`): a straight line fitted to four points with the default
keywords and prior precision 1 gets a posterior "covariance" with a negative variance. -/
example : ∃ (E : LowRankExt ℕ) (posteriorFn : PriorArgs → ℝ → Except Err (Posterior 2)) (est : CurvEstimate 2) (post : Posterior 2)
    (cov : List (PyTree ℝ) → Except Err (PyTree ℝ)) (f : Vec 2 → Vec 2),
    laplaceKw E ⟨true, true⟩ (fun s => s) (fun _ => .error .typeError) wPoints (wModel 1) (wBatchModel 1) wParams
      (.iter (.reiterable [.tup [.arr [1, 2], .arr [5, 6]], .tup [.arr [3, 4], .arr [7, 8]]])) (.name "mse") (.str "lanczos") 4 4
      { kw := { key := some 7 } } = .ok (posteriorFn, est) ∧
    posteriorFn ⟨some 1, none⟩ 1 = .ok post ∧ post.covMv post.state = .ok cov ∧ ActsOnTrees wParams cov f ∧ ∃ v, v ⬝ᵥ f v < 0 := by
  choose eigh heigh using C23_eigh_exists
  obtain ⟨E, h1, h2⟩ : ∃ E : LowRankExt ℕ, E.normal 7 2 ≠ 0 ∧ IsEigh (E.kernels.eigh (r := 20)) :=
    ⟨⟨fun _ _ _ => 1, fun _ _ _ => 0, 0, ⟨fun {r} => eigh r, fun {_ _} M => M, fun {_} M => (M, 0, M)⟩, 0, fun {_ _} _ _ => .done (.error .valueError)⟩,
      fun h => one_ne_zero (congrFun h 0), heigh 20⟩
  refine ⟨E, C64_laplace_negative_variance E true (fun s => s) (fun _ => .error .typeError) wPoints (wModel 1) (wBatchModel 1) wParams ![2, 3] _ wPs
    wDecode wReadable (wDiff 1) "mse" (fun jv _ _ => mseHessianMv jv) rfl 4 4 (by norm_num) (.str "lanczos") rfl (by norm_num) 7 h1 h2 ⟨some 1, none⟩ 1 rfl
    one_pos (by norm_num) 1 one_pos 1 (fun v => ?_) (by norm_num)⟩
  have hs : wPs.flatMap wDecode = [(1, 5), (2, 6), (3, 7), (4, 8)] := rfl
  rw [hs]
  simp only [ggnSamples, List.map_cons, List.map_nil, List.sum_cons, List.sum_nil, wModel_jacobian, wRow, dotProduct, Fin.sum_univ_two, Pi.smul_apply,
    Pi.add_apply, Pi.zero_apply, Matrix.mulVec, mseHessianMv, Matrix.transpose_apply, Fin.sum_univ_one, smul_eq_mul]
  simp
  nlinarith [sq_nonneg (20 * v 0 + 7 * v 1), sq_nonneg (v 0)]

end Laplax.Props
