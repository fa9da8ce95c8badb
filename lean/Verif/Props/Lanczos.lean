import Verif.Lib.LanczosLemmas
import Verif.Spec.Lanczos
import Verif.Props.Posterior
import Mathlib.Analysis.Matrix.Spectrum

/-! # C23: Lanczos -/

namespace Laplax.Props
open Laplax Laplax.Spec
open scoped Matrix BigOperators

variable {n : ℕ}

/-- C23: with full reorthogonalisation the returned vectors are orthonormal up to the first breakdown (the first zero
`beta`), whatever the matrix-vector product does. -/
theorem C23_orthonormal (matvec : Vec n → Vec n) (b : Vec n) (hb : b ≠ 0) (tol : ℝ) (m k : ℕ) (hk : k ≤ m)
    (hβ : ∀ j < k, (lanczosIterations matvec b m tol true).beta j ≠ 0) (i j : ℕ) (hi : i ≤ k) (hj : j ≤ k) :
    (lanczosIterations matvec b m tol true).V i ⬝ᵥ (lanczosIterations matvec b m tol true).V j = if i = j then 1 else 0 := by
  rw [lz_V _ _ _ _ m i (by omega), lz_V _ _ _ _ m j (by omega)]
  exact lz_orthonormal matvec b tol hb k (fun l hl => by rw [← lz_beta _ _ _ _ m l (by omega)]; exact hβ l hl) i hi j hj

/-- The start vector is the normalised `b`. -/
theorem C23_first_vector (matvec : Vec n → Vec n) (b : Vec n) (tol : ℝ) (m : ℕ) (fr : Bool) :
    (lanczosIterations matvec b m tol fr).V 0 = (1 / Real.sqrt (b ⬝ᵥ b)) • b := by
  rw [lz_V _ _ _ _ m 0 (by omega), lzV_zero]; rfl

/-- C23: the three-term recurrence for a symmetric matrix, up to and including the first breakdown, with a residual that is
`beta_i v_(i+1)` when `beta_i ≠ 0` and shorter than `tol` (or zero) when `beta_i = 0`. -/
theorem C23_recurrence (A : Matrix (Fin n) (Fin n) ℝ) (hA : Aᵀ = A) (b : Vec n) (hb : b ≠ 0) (tol : ℝ) (m i : ℕ)
    (hi : i < m) (s : LanczosState n) (hs : s = lanczosIterations (fun v => A *ᵥ v) b m tol true)
    (hβ : ∀ j < i, s.beta j ≠ 0) :
    ∃ res : Vec n, A *ᵥ s.V i =
        (if i = 0 then 0 else s.beta (i - 1) • s.V (i - 1)) + s.alpha i • s.V i + res ∧
      (s.beta i ≠ 0 → res = s.beta i • s.V (i + 1)) ∧
      (s.beta i = 0 → Real.sqrt (res ⬝ᵥ res) < tol ∨ res = 0) := by
  subst hs
  have hβ' : ∀ j < i, lzB (fun v => A *ᵥ v) b tol true j ≠ 0 := fun l hl => by
    rw [← lz_beta _ _ _ _ m l (by omega)]; exact hβ l hl
  refine ⟨lzW (fun v => A *ᵥ v) b tol true i, ?_, ?_, ?_⟩
  · have := lz_recurrence A b tol hA hb i hβ' i le_rfl
    rw [lz_V _ _ _ _ m i (by omega), lz_alpha _ _ _ _ m i hi, this]
    congr 2
    by_cases h : i = 0
    · simp [h]
    · rw [if_neg h, if_neg h, lz_V _ _ _ _ m (i - 1) (by omega), lz_beta _ _ _ _ m (i - 1) (by omega)]
  · intro h
    rw [lz_beta _ _ _ _ m i hi] at h ⊢
    rw [lz_V _ _ _ _ m (i + 1) (by omega)]
    exact lzW_eq_of_ne b tol _ i h
  · intro h
    rw [lz_beta _ _ _ _ m i hi, (lzStep (fun v => A *ᵥ v) b tol true i).1] at h
    by_cases h' : norm2 (lzW (fun v => A *ᵥ v) b tol true i) < tol
    · exact Or.inl h'
    · rw [if_neg h'] at h
      right
      by_contra hne
      exact absurd h (norm2_pos hne).ne'

/-- `lanczosBasis` of the result in terms of the vector sequence. -/
theorem lanczosBasis_apply (matvec : Vec n → Vec n) (b : Vec n) (tol : ℝ) (fr : Bool) (m : ℕ) (x : Fin n) (j : Fin m) :
    lanczosBasis m (lanczosIterations matvec b m tol fr).V x j = lzV matvec b tol fr j x := by
  simp only [lanczosBasis]; rw [lz_V _ _ _ _ m j (by omega)]

theorem basis_orthonormal (matvec : Vec n → Vec n) (b : Vec n) (hb : b ≠ 0) (tol : ℝ) (m : ℕ)
    (hβ : ∀ j, j + 1 < m → (lanczosIterations matvec b m tol true).beta j ≠ 0) :
    (lanczosBasis m (lanczosIterations matvec b m tol true).V)ᵀ * lanczosBasis m (lanczosIterations matvec b m tol true).V
      = 1 := by
  ext i j
  have hm : 0 < m := by have := i.isLt; omega
  have := C23_orthonormal matvec b hb tol m (m - 1) (by omega) (fun j hj => hβ j (by omega)) i j (by omega) (by omega)
  rw [Matrix.mul_apply, Matrix.one_apply]
  simp only [Fin.ext_iff]
  simpa [dotProduct, lanczosBasis] using this

/-- C23: `A V = V T + beta v eᵀ` with `T` the returned tridiagonal matrix, when no breakdown occurred before the last
iteration; and `Vᵀ A V = T`. -/
theorem C23_tridiagonal (A : Matrix (Fin n) (Fin n) ℝ) (hA : Aᵀ = A) (b : Vec n) (hb : b ≠ 0) (tol : ℝ) (m : ℕ)
    (s : LanczosState n) (hs : s = lanczosIterations (fun v => A *ᵥ v) b m tol true)
    (hβ : ∀ j, j + 1 < m → s.beta j ≠ 0) :
    (∃ res : Vec n, A * lanczosBasis m s.V =
        lanczosBasis m s.V * constructTridiagonal m s.alpha s.beta +
          Matrix.of (fun x (j : Fin m) => if j.val + 1 = m then res x else 0) ∧
      (0 < m → s.beta (m - 1) ≠ 0 → res = s.beta (m - 1) • s.V m)) ∧
    (lanczosBasis m s.V)ᵀ * A * lanczosBasis m s.V = constructTridiagonal m s.alpha s.beta := by
  have hrec := fun i hi => C23_recurrence A hA b hb tol m i hi s hs
  have hQ : (lanczosBasis m s.V)ᵀ * lanczosBasis m s.V = 1 := by
    subst hs; exact basis_orthonormal _ b hb tol m hβ
  -- residual of the last step
  set W := lzW (fun v => A *ᵥ v) b tol true (m - 1) with hW
  have hβ' : ∀ j < m - 1, lzB (fun v => A *ᵥ v) b tol true j ≠ 0 := fun l hl => by
    rw [← lz_beta _ _ _ _ m l (by omega)]; rw [hs] at hβ; exact hβ l (by omega)
  have hAV : A * lanczosBasis m s.V = lanczosBasis m s.V * constructTridiagonal m s.alpha s.beta +
      Matrix.of (fun x (j : Fin m) => if j.val + 1 = m then W x else 0) := by
    ext x j
    have hcol := tridiagonal_col m s.alpha s.beta (fun i => s.V i x) j
    rw [Matrix.add_apply, Matrix.mul_apply, Matrix.mul_apply, Matrix.of_apply]
    have e1 : ∑ i, lanczosBasis m s.V x i * constructTridiagonal m s.alpha s.beta i j =
        ∑ i : Fin m, s.V i x * constructTridiagonal m s.alpha s.beta i j := rfl
    rw [e1, hcol]
    have e2 : ∑ i, A x i * lanczosBasis m s.V i j = (A *ᵥ s.V j) x := rfl
    rw [e2]
    have hj := j.isLt
    have hr := lz_recurrence A b tol hA hb (m - 1) hβ' j (by omega)
    have hVj : s.V j = lzV (fun v => A *ᵥ v) b tol true j := by rw [hs]; exact lz_V _ _ _ _ m j (by omega)
    rw [hVj, hr]
    simp only [Pi.add_apply, Pi.smul_apply, smul_eq_mul]
    have ha : s.alpha j = lzA (fun v => A *ᵥ v) b tol true j := by rw [hs]; exact lz_alpha _ _ _ _ m j hj
    rw [ha]
    have h1 : (if j.val = 0 then (0 : Vec n) else lzB (fun v => A *ᵥ v) b tol true (j - 1) •
        lzV (fun v => A *ᵥ v) b tol true (j - 1)) x = if j.val = 0 then 0 else s.beta (j - 1) * s.V (j - 1) x := by
      split
      · rfl
      · rw [hs, lz_beta _ _ _ _ m _ (by omega), lz_V _ _ _ _ m _ (by omega)]; rfl
    rw [h1]
    by_cases hlast : j.val + 1 = m
    · rw [if_neg (show ¬ j.val + 1 < m by omega), if_pos hlast, hW]
      have : m - 1 = j.val := by omega
      rw [this]; ring
    · rw [if_pos (show j.val + 1 < m by omega), if_neg hlast, lzW_eq_of_ne b tol _ j (hβ' j (by omega))]
      have hb1 : s.beta j = lzB (fun v => A *ᵥ v) b tol true j := by rw [hs]; exact lz_beta _ _ _ _ m j hj
      have hv1 : s.V (j + 1) = lzV (fun v => A *ᵥ v) b tol true (j + 1) := by rw [hs]; exact lz_V _ _ _ _ m _ (by omega)
      rw [hb1, hv1, Pi.smul_apply, smul_eq_mul]; ring
  have hres : 0 < m → s.beta (m - 1) ≠ 0 → W = s.beta (m - 1) • s.V m := by
    intro hm h
    have hb1 : s.beta (m - 1) = lzB (fun v => A *ᵥ v) b tol true (m - 1) := by
      rw [hs]; exact lz_beta _ _ _ _ m _ (by omega)
    have hv1 : s.V m = lzV (fun v => A *ᵥ v) b tol true (m - 1 + 1) := by
      rw [hs, show m - 1 + 1 = m by omega]; exact lz_V _ _ _ _ m _ le_rfl
    rw [hb1] at h ⊢
    rw [hv1]; exact lzW_eq_of_ne b tol _ _ h
  refine ⟨⟨W, hAV, hres⟩, ?_⟩
  rw [Matrix.mul_assoc, hAV, Matrix.mul_add, ← Matrix.mul_assoc, hQ, Matrix.one_mul]
  convert add_zero _ using 2
  ext i j
  rw [Matrix.mul_apply]
  simp only [Matrix.transpose_apply, Matrix.of_apply, Matrix.zero_apply]
  by_cases hlast : j.val + 1 = m
  · simp only [hlast, if_true]
    -- the residual is orthogonal to the basis
    have hi := i.isLt
    have hVi : ∀ x, lanczosBasis m s.V x i = lzV (fun v => A *ᵥ v) b tol true i x := by
      intro x; rw [hs]; exact lanczosBasis_apply _ _ _ _ _ _ _
    simp only [hVi]
    have ho := lz_orthonormal (fun v => A *ᵥ v) b tol hb (m - 1) hβ'
    have hproj := lzW_eq_proj b tol (fun v => A *ᵥ v) hb (m - 1) hβ'
    change lzV (fun v => A *ᵥ v) b tol true i ⬝ᵥ W = 0
    rw [hW, hproj, dotProduct_sub, dotProduct_sub, dotProduct_smul, dotProduct_sum]
    by_cases him : i.val = m - 1
    · rw [Finset.sum_eq_zero, him, ho _ le_rfl _ le_rfl, lzA_eq]
      · simp
      · intro k hk
        have := Finset.mem_range.1 hk
        rw [dotProduct_smul, ho _ (by omega) _ (by omega), if_neg (by omega), smul_zero]
    · rw [Finset.sum_eq_single_of_mem i.val (Finset.mem_range.2 (by omega)), dotProduct_smul,
        ho i.val (by omega) i.val (by omega), ho i.val (by omega) (m - 1) le_rfl]
      · simp [him]
      · intro k hk hki
        have := Finset.mem_range.1 hk
        rw [dotProduct_smul, ho _ (by omega) _ (by omega), if_neg (Ne.symm hki), smul_zero]
  · simp [hlast]

/-! ### Krylov space -/

/-- C23: until breakdown the first `k` vectors span the Krylov space of `b`. -/
theorem C23_krylov (A : Matrix (Fin n) (Fin n) ℝ) (hA : Aᵀ = A) (b : Vec n) (hb : b ≠ 0) (tol : ℝ) (m k : ℕ) (hk : k ≤ m)
    (s : LanczosState n) (hs : s = lanczosIterations (fun v => A *ᵥ v) b m tol true)
    (hβ : ∀ j, j + 1 < k → s.beta j ≠ 0) :
    Submodule.span ℝ {x | ∃ i < k, x = s.V i} = krylov A b k := by
  set V := lzV (fun v => A *ᵥ v) b tol true with hV
  set B := lzB (fun v => A *ᵥ v) b tol true with hB
  have hVs : ∀ i ≤ m, s.V i = V i := fun i hi => by rw [hs]; exact lz_V _ _ _ _ m i hi
  have hβ' : ∀ j, j + 1 < k → B j ≠ 0 := fun l hl => by
    have := hβ l hl
    rw [hs, lz_beta _ _ _ _ m l (by omega)] at this; exact this
  have hrec : ∀ i, i < k → A *ᵥ V i = (if i = 0 then 0 else B (i - 1) • V (i - 1)) +
      lzA (fun v => A *ᵥ v) b tol true i • V i + lzW (fun v => A *ᵥ v) b tol true i :=
    fun i hi => lz_recurrence A b tol hA hb i (fun j hj => hβ' j (by omega)) i le_rfl
  have hW : ∀ i, i + 1 < k → lzW (fun v => A *ᵥ v) b tol true i = B i • V (i + 1) :=
    fun i hi => lzW_eq_of_ne b tol _ i (hβ' i hi)
  have hset : {x | ∃ i < k, x = s.V i} = {x | ∃ i < k, x = V i} := by
    ext x; constructor
    · rintro ⟨i, hi, rfl⟩; exact ⟨i, hi, hVs i (by omega)⟩
    · rintro ⟨i, hi, rfl⟩; exact ⟨i, hi, (hVs i (by omega)).symm⟩
  rw [hset]
  have hmono : ∀ i j, i ≤ j → krylov A b i ≤ krylov A b j := by
    intro i j hij
    apply Submodule.span_mono
    rintro x ⟨l, hl, rfl⟩; exact ⟨l, by omega, rfl⟩
  have hmap : ∀ i (x : Vec n), x ∈ krylov A b i → A *ᵥ x ∈ krylov A b (i + 1) := by
    intro i x hx
    refine Submodule.span_induction ?_ ?_ ?_ ?_ hx
    · rintro y ⟨l, hl, rfl⟩
      refine Submodule.subset_span ⟨l + 1, by omega, ?_⟩
      rw [Matrix.mulVec_mulVec, ← pow_succ']
    · rw [Matrix.mulVec_zero]; exact Submodule.zero_mem _
    · intro y z _ _ hy hz; rw [Matrix.mulVec_add]; exact Submodule.add_mem _ hy hz
    · intro c y _ hy; rw [Matrix.mulVec_smul]; exact Submodule.smul_mem _ _ hy
  apply le_antisymm
  · rw [Submodule.span_le]
    rintro x ⟨i, hi, rfl⟩
    have key : ∀ i, i < k → V i ∈ krylov A b (i + 1) := by
      intro i
      induction i using Nat.strong_induction_on with
      | _ i ih =>
        intro hi
        cases i with
        | zero =>
          rw [hV, lzV_zero]
          exact Submodule.smul_mem _ _ (Submodule.subset_span ⟨0, by omega, by simp⟩)
        | succ i =>
          have h1 := ih i (by omega) (by omega)
          have hv : V (i + 1) = (B i)⁻¹ • (A *ᵥ V i - (if i = 0 then 0 else B (i - 1) • V (i - 1)) -
              lzA (fun v => A *ᵥ v) b tol true i • V i) := by
            rw [hrec i (by omega), hW i hi]
            have : (if i = 0 then (0 : Vec n) else B (i - 1) • V (i - 1)) + lzA (fun v => A *ᵥ v) b tol true i • V i +
                B i • V (i + 1) - (if i = 0 then 0 else B (i - 1) • V (i - 1)) -
                lzA (fun v => A *ᵥ v) b tol true i • V i = B i • V (i + 1) := by abel
            rw [this, smul_smul, inv_mul_cancel₀ (hβ' i hi), one_smul]
          rw [hv]
          refine Submodule.smul_mem _ _ (Submodule.sub_mem _ (Submodule.sub_mem _ (hmap _ _ h1) ?_)
            (Submodule.smul_mem _ _ (hmono _ _ (by omega) h1)))
          split
          · exact Submodule.zero_mem _
          · exact Submodule.smul_mem _ _ (hmono _ _ (by omega) (ih (i - 1) (by omega) (by omega)))
    exact hmono _ _ (by omega) (key i hi)
  · unfold krylov
    rw [Submodule.span_le]
    rintro x ⟨i, hi, rfl⟩
    have hmonoV : ∀ i j, i ≤ j → Submodule.span ℝ {x | ∃ l < i, x = V l} ≤ Submodule.span ℝ {x | ∃ l < j, x = V l} := by
      intro i j hij
      apply Submodule.span_mono
      rintro x ⟨l, hl, rfl⟩; exact ⟨l, by omega, rfl⟩
    have hmapV : ∀ i (x : Vec n), i < k → x ∈ Submodule.span ℝ {x | ∃ l < i, x = V l} →
        A *ᵥ x ∈ Submodule.span ℝ {x | ∃ l < i + 1, x = V l} := by
      intro i x hi hx
      refine Submodule.span_induction ?_ ?_ ?_ ?_ hx
      · rintro y ⟨l, hl, rfl⟩
        rw [hrec l (by omega), hW l (by omega)]
        refine Submodule.add_mem _ (Submodule.add_mem _ ?_ ?_) ?_
        · split
          · exact Submodule.zero_mem _
          · exact Submodule.smul_mem _ _ (Submodule.subset_span ⟨l - 1, by omega, rfl⟩)
        · exact Submodule.smul_mem _ _ (Submodule.subset_span ⟨l, by omega, rfl⟩)
        · exact Submodule.smul_mem _ _ (Submodule.subset_span ⟨l + 1, by omega, rfl⟩)
      · rw [Matrix.mulVec_zero]; exact Submodule.zero_mem _
      · intro y z _ _ hy hz; rw [Matrix.mulVec_add]; exact Submodule.add_mem _ hy hz
      · intro c y _ hy; rw [Matrix.mulVec_smul]; exact Submodule.smul_mem _ _ hy
    have key : ∀ i, i < k → (A ^ i) *ᵥ b ∈ Submodule.span ℝ {x | ∃ l < i + 1, x = V l} := by
      intro i
      induction i with
      | zero =>
        intro _
        have : (A ^ 0) *ᵥ b = norm2 b • V 0 := by
          rw [hV, lzV_zero, smul_smul, mul_one_div_cancel (norm2_pos hb).ne', one_smul, pow_zero, Matrix.one_mulVec]
        rw [this]
        exact Submodule.smul_mem _ _ (Submodule.subset_span ⟨0, by omega, rfl⟩)
      | succ i ih =>
        intro hi
        rw [pow_succ', ← Matrix.mulVec_mulVec]
        exact hmapV _ _ hi (ih (by omega))
    exact hmonoV _ _ (by omega) (key i hi)

/-! ### The low-rank factors -/

/-- What is assumed of `eigh` is satisfiable (spectral theorem). -/
theorem C23_eigh_exists (k : ℕ) : ∃ eigh : Matrix (Fin k) (Fin k) ℝ → Vec k × Matrix (Fin k) (Fin k) ℝ, IsEigh eigh := by
  classical
  refine ⟨fun T => if h : T.IsHermitian then (h.eigenvalues, (h.eigenvectorUnitary : Matrix (Fin k) (Fin k) ℝ)) else (0, 0), ?_⟩
  intro T hT
  have hH : T.IsHermitian := by rw [Matrix.IsHermitian, Matrix.conjTranspose_eq_transpose_of_trivial, hT]
  simp only [hH, dif_pos]
  have hU := Unitary.coe_star_mul_self hH.eigenvectorUnitary
  rw [Matrix.star_eq_conjTranspose, Matrix.conjTranspose_eq_transpose_of_trivial] at hU
  refine ⟨hU, ?_⟩
  have := hH.spectral_theorem
  conv_lhs => rw [this]
  simp [Unitary.conjStarAlgAut_apply, Matrix.star_eq_conjTranspose, Matrix.conjTranspose_eq_transpose_of_trivial]

/-- `U diag(S) Uᵀ = V T Vᵀ` for the returned factors, always (with or without breakdown or reorthogonalisation). -/
theorem lowrank_reconstruct (rank : ℕ) (eigh : Matrix (Fin rank) (Fin rank) ℝ → Vec rank × Matrix (Fin rank) (Fin rank) ℝ)
    (he : IsEigh eigh) (matvec : Vec n → Vec n) (b : Vec n) (tol : ℝ) (fr : Bool) :
    (lanczosLowrankTerms rank eigh matvec b tol fr).U * Matrix.diagonal (lanczosLowrankTerms rank eigh matvec b tol fr).S *
      (lanczosLowrankTerms rank eigh matvec b tol fr).Uᵀ =
    lanczosBasis rank (lanczosIterations matvec b rank tol fr).V *
      constructTridiagonal rank (lanczosIterations matvec b rank tol fr).alpha (lanczosIterations matvec b rank tol fr).beta *
      (lanczosBasis rank (lanczosIterations matvec b rank tol fr).V)ᵀ := by
  obtain ⟨_, h2⟩ := he _ (tridiagonal_symm rank (lanczosIterations matvec b rank tol fr).alpha
    (lanczosIterations matvec b rank tol fr).beta)
  simp only [lanczosLowrankTerms, computeEigendecomposition, Matrix.transpose_mul]
  set T := constructTridiagonal rank (lanczosIterations matvec b rank tol fr).alpha
    (lanczosIterations matvec b rank tol fr).beta
  set Q := lanczosBasis rank (lanczosIterations matvec b rank tol fr).V
  conv_rhs => rw [h2]
  simp only [Matrix.mul_assoc]

/-- C23: without breakdown before the last iteration the returned `U` is orthonormal, its columns span the Krylov space,
`U diag(S) Uᵀ` is the compression `P A P` of `A` to the Krylov space (`P` the orthogonal projector), `Uᵀ A U = diag S`, the
reported scalar is 0, and `S ≥ 0` for positive semidefinite `A`. -/
theorem C23_low_rank_terms (A : Matrix (Fin n) (Fin n) ℝ) (hA : Aᵀ = A) (b : Vec n) (hb : b ≠ 0) (tol : ℝ) (rank : ℕ)
    (eigh : Matrix (Fin rank) (Fin rank) ℝ → Vec rank × Matrix (Fin rank) (Fin rank) ℝ) (he : IsEigh eigh)
    (hβ : ∀ j, j + 1 < rank → (lanczosIterations (fun v => A *ᵥ v) b rank tol true).beta j ≠ 0)
    (t : LowRankTerms n rank) (ht : t = lanczosLowrankTerms rank eigh (fun v => A *ᵥ v) b tol true) :
    t.Uᵀ * t.U = 1 ∧ t.Uᵀ * A * t.U = Matrix.diagonal t.S ∧ t.scalar = 0 ∧
      (A.PosSemidef → ∀ k, 0 ≤ t.S k) ∧
      ∃ P : Matrix (Fin n) (Fin n) ℝ, P = t.U * t.Uᵀ ∧ Pᵀ = P ∧ P * P = P ∧
        (∀ x, P *ᵥ x ∈ krylov A b rank) ∧ (∀ x ∈ krylov A b rank, P *ᵥ x = x) ∧
        t.U * Matrix.diagonal t.S * t.Uᵀ = P * A * P := by
  set s := lanczosIterations (fun v => A *ᵥ v) b rank tol true with hs
  set V := lanczosBasis rank s.V with hVdef
  set T := constructTridiagonal rank s.alpha s.beta with hT
  obtain ⟨q1, q2⟩ := he T (tridiagonal_symm _ _ _)
  have hrecon := lowrank_reconstruct rank eigh he (fun v => A *ᵥ v) b tol true
  rw [← ht, ← hs, ← hVdef, ← hT] at hrecon
  have hQ : Vᵀ * V = 1 := basis_orthonormal _ b hb tol rank hβ
  have hVAV : Vᵀ * A * V = T := (C23_tridiagonal A hA b hb tol rank s hs hβ).2
  have hU : t.U = V * (eigh T).2 := by rw [ht]; rfl
  have hS : t.S = (eigh T).1 := by rw [ht]; rfl
  have q3 : (eigh T).2 * (eigh T).2ᵀ = 1 := mul_eq_one_comm.1 q1
  have hUU : t.Uᵀ * t.U = 1 := by
    rw [hU, Matrix.transpose_mul]
    calc (eigh T).2ᵀ * Vᵀ * (V * (eigh T).2) = (eigh T).2ᵀ * (Vᵀ * V) * (eigh T).2 := by simp only [Matrix.mul_assoc]
      _ = 1 := by rw [hQ, Matrix.mul_one, q1]
  have hUAU : t.Uᵀ * A * t.U = Matrix.diagonal t.S := by
    rw [hU, Matrix.transpose_mul, hS]
    calc (eigh T).2ᵀ * Vᵀ * A * (V * (eigh T).2) = (eigh T).2ᵀ * (Vᵀ * A * V) * (eigh T).2 := by
          simp only [Matrix.mul_assoc]
      _ = (eigh T).2ᵀ * ((eigh T).2 * Matrix.diagonal (eigh T).1 * (eigh T).2ᵀ) * (eigh T).2 := by rw [hVAV, ← q2]
      _ = ((eigh T).2ᵀ * (eigh T).2) * Matrix.diagonal (eigh T).1 * ((eigh T).2ᵀ * (eigh T).2) := by
          simp only [Matrix.mul_assoc]
      _ = _ := by rw [q1, Matrix.one_mul, Matrix.mul_one]
  have hPr : t.U * t.Uᵀ = V * Vᵀ := by
    rw [hU, Matrix.transpose_mul]
    calc V * (eigh T).2 * ((eigh T).2ᵀ * Vᵀ) = V * ((eigh T).2 * (eigh T).2ᵀ) * Vᵀ := by simp only [Matrix.mul_assoc]
      _ = _ := by rw [q3, Matrix.mul_one]
  have hspan := C23_krylov A hA b hb tol rank rank le_rfl s hs hβ
  refine ⟨hUU, hUAU, by rw [ht]; rfl, ?_, t.U * t.Uᵀ, rfl, ?_, ?_, ?_, ?_, ?_⟩
  · intro hpsd k
    have h1 : (t.Uᵀ * A * t.U).PosSemidef := by
      have := hpsd.conjTranspose_mul_mul_same t.U
      simpa using this
    rw [hUAU] at h1
    exact (Matrix.posSemidef_diagonal_iff.1 h1) k
  · simp [Matrix.transpose_mul]
  · calc t.U * t.Uᵀ * (t.U * t.Uᵀ) = t.U * (t.Uᵀ * t.U) * t.Uᵀ := by simp only [Matrix.mul_assoc]
      _ = _ := by rw [hUU, Matrix.mul_one]
  · intro x
    rw [hPr, ← Matrix.mulVec_mulVec, ← hspan]
    set y := Vᵀ *ᵥ x
    have : V *ᵥ y = ∑ j : Fin rank, y j • s.V j := by
      funext i
      simp only [Matrix.mulVec, dotProduct, hVdef, lanczosBasis, Finset.sum_apply, Pi.smul_apply, smul_eq_mul]
      exact Finset.sum_congr rfl fun j _ => mul_comm _ _
    rw [this]
    exact Submodule.sum_mem _ fun j _ => Submodule.smul_mem _ _ (Submodule.subset_span ⟨j, j.isLt, rfl⟩)
  · intro x hx
    rw [← hspan] at hx
    rw [hPr]
    refine Submodule.span_induction ?_ ?_ ?_ ?_ hx
    · rintro y ⟨l, hl, rfl⟩
      have : s.V l = V *ᵥ (Pi.single (⟨l, hl⟩ : Fin rank) 1) := by
        funext i; simp [hVdef, lanczosBasis]
      rw [this, Matrix.mulVec_mulVec, Matrix.mul_assoc, hQ, Matrix.mul_one]
    · rw [Matrix.mulVec_zero]
    · intro y z _ _ hy hz; rw [Matrix.mulVec_add, hy, hz]
    · intro c y _ hy; rw [Matrix.mulVec_smul, hy]
  · rw [hrecon, hPr, ← hVAV]
    simp only [Matrix.mul_assoc]

/-- C23: with `rank` equal to the dimension and no breakdown, `U diag(S) Uᵀ` is `A` itself. -/
theorem C23_full_rank_exact (A : Matrix (Fin n) (Fin n) ℝ) (hA : Aᵀ = A) (b : Vec n) (hb : b ≠ 0) (tol : ℝ)
    (eigh : Matrix (Fin n) (Fin n) ℝ → Vec n × Matrix (Fin n) (Fin n) ℝ) (he : IsEigh eigh)
    (hβ : ∀ j, j + 1 < n → (lanczosIterations (fun v => A *ᵥ v) b n tol true).beta j ≠ 0)
    (t : LowRankTerms n n) (ht : t = lanczosLowrankTerms n eigh (fun v => A *ᵥ v) b tol true) :
    t.U * Matrix.diagonal t.S * t.Uᵀ = A := by
  obtain ⟨h1, _, _, _, P, h2, _, _, _, _, h3⟩ := C23_low_rank_terms A hA b hb tol n eigh he hβ t ht
  have : t.U * t.Uᵀ = 1 := mul_eq_one_comm.1 h1
  rw [h3, h2, this, Matrix.one_mul, Matrix.mul_one]

/-! ### Breakdown -/

theorem lz_after_breakdown (matvec : Vec n → Vec n) (b : Vec n) (hb : b ≠ 0) (tol : ℝ) (k : ℕ)
    (hk : ∀ j < k, lzB matvec b tol true j ≠ 0) (hz : lzB matvec b tol true k = 0) (j : ℕ) (hj : k ≤ j) :
    lzV matvec b tol true j = lzV matvec b tol true k ∧ lzB matvec b tol true j = 0 ∧
      lzA matvec b tol true j = lzA matvec b tol true k := by
  set V := lzV matvec b tol true with hV
  have ho := lz_orthonormal matvec b tol hb k hk
  rw [← hV] at ho
  have hfam : ∀ i < k, ∀ l < k, V i ⬝ᵥ V l = if i = l then 1 else 0 := fun i hi l hl => ho i hi.le l hl.le
  induction j using Nat.strong_induction_on with
  | _ j ih =>
    rcases Nat.eq_or_lt_of_le hj with h | h
    · subst h; exact ⟨rfl, hz, rfl⟩
    · obtain ⟨j, rfl⟩ : ∃ i, j = i + 1 := ⟨j - 1, by omega⟩
      obtain ⟨h1, h2, _⟩ := ih j (by omega) (by omega)
      have hv : V (j + 1) = V k := by
        have := (lzStep matvec b tol true j).2
        rw [if_neg (by rw [h2]; exact lt_irrefl 0)] at this
        exact this.trans h1
      set w := matvec (V k) - (V k ⬝ᵥ matvec (V k)) • V k with hw
      set r := reorthogonalize w V k with hr
      have hr0 : ∀ i ≤ k, V i ⬝ᵥ r = 0 := by
        intro i hi
        rcases Nat.lt_or_eq_of_le hi with h | rfl
        · exact reorth_orth _ _ _ hfam i h
        · rw [hr, reorth_eq _ _ _ hfam, dotProduct_sub, dotProduct_sum, Finset.sum_eq_zero, sub_zero, hw,
            dotProduct_sub, dotProduct_smul]
          · rw [ho i le_rfl i le_rfl]; simp
          · intro l hl
            have hl' := Finset.mem_range.1 hl
            rw [dotProduct_smul, ho i le_rfl l (by omega), if_neg (by omega), smul_zero]
      have hVall : ∀ i < j + 1, V i ⬝ᵥ r = 0 := by
        intro i hi
        by_cases hik : i ≤ k
        · exact hr0 i hik
        · rw [(ih i (by omega) (by omega)).1]; exact hr0 k le_rfl
      have hlong : ∀ i, k ≤ i → i ≤ j + 1 → reorthogonalize w V i = r := by
        intro i hki
        induction i with
        | zero => intro _; obtain rfl : k = 0 := by omega
                  rfl
        | succ i ih2 =>
          intro hi
          rcases Nat.eq_or_lt_of_le hki with h | h
          · rw [← h]
          · have := ih2 (by omega) (by omega)
            unfold reorthogonalize at this ⊢
            rw [List.range_succ, List.foldl_append, this]
            simp [reorthBody, hVall i (by omega)]
      have hWk : lzW matvec b tol true k = r := by
        have : lzW matvec b tol true k = reorthogonalize (reorthogonalize w V k) V k := by simp [lzW, ← hV, hw]
        rw [this, ← hr]; exact reorth_of_orth _ _ _ (fun i hi => hr0 i hi.le)
      have hWj : lzW matvec b tol true (j + 1) = r := by
        have : lzW matvec b tol true (j + 1) = reorthogonalize (reorthogonalize w V (j + 1)) V (j + 1) := by
          simp [lzW, ← hV, hv, hw]
        rw [this, hlong (j + 1) (by omega) le_rfl]
        exact reorth_of_orth _ _ _ hVall
      refine ⟨hv, ?_, ?_⟩
      · rw [(lzStep matvec b tol true (j + 1)).1, hWj, ← hWk, ← (lzStep matvec b tol true k).1, hz]
      · rw [lzA_eq, lzA_eq, ← hV, hv]

/-- `V T Vᵀ` entrywise. -/
theorem vtv_apply (matvec : Vec n → Vec n) (b : Vec n) (tol : ℝ) (fr : Bool) (m : ℕ) (x y : Fin n) :
    (lanczosBasis m (lanczosIterations matvec b m tol fr).V *
      constructTridiagonal m (lanczosIterations matvec b m tol fr).alpha (lanczosIterations matvec b m tol fr).beta *
      (lanczosBasis m (lanczosIterations matvec b m tol fr).V)ᵀ) x y =
    ∑ j ∈ Finset.range m, ((if j = 0 then 0 else lzB matvec b tol fr (j - 1) * lzV matvec b tol fr (j - 1) x) +
      lzA matvec b tol fr j * lzV matvec b tol fr j x +
      (if j + 1 < m then lzB matvec b tol fr j * lzV matvec b tol fr (j + 1) x else 0)) * lzV matvec b tol fr j y := by
  rw [Matrix.mul_apply, ← Fin.sum_univ_eq_sum_range (fun j => ((if j = 0 then 0 else lzB matvec b tol fr (j - 1) *
    lzV matvec b tol fr (j - 1) x) + lzA matvec b tol fr j * lzV matvec b tol fr j x +
      (if j + 1 < m then lzB matvec b tol fr j * lzV matvec b tol fr (j + 1) x else 0)) * lzV matvec b tol fr j y)]
  refine Finset.sum_congr rfl fun j _ => ?_
  have hj := j.isLt
  rw [Matrix.transpose_apply, lanczosBasis_apply, Matrix.mul_apply]
  congr 1
  have := tridiagonal_col m (lanczosIterations matvec b m tol fr).alpha (lanczosIterations matvec b m tol fr).beta
    (fun i => (lanczosIterations matvec b m tol fr).V i x) j
  refine Eq.trans this ?_
  rw [lz_alpha _ _ _ _ m j hj, lz_V _ _ _ _ m j hj.le, lz_beta _ _ _ _ m j hj]
  congr 1
  · congr 1
    by_cases h : j.val = 0
    · simp [h]
    · rw [if_neg h, if_neg h, lz_V _ _ _ _ m _ (by omega), lz_beta _ _ _ _ m _ (by omega)]
  · by_cases h : j.val + 1 < m
    · rw [if_pos h, if_pos h, lz_V _ _ _ _ m _ (by omega)]
    · rw [if_neg h, if_neg h]

/-- C23, breakdown (full reorthogonalisation, any symmetric or unsymmetric product): if the first breakdown happens at
iteration `k` and `rank > k`, every later vector is a copy of `v_k`, and `U diag(S) Uᵀ` is the rank-`k+1` result plus one
spurious copy of `alpha_k v_k v_kᵀ` per extra iteration - the low-rank approximation is then *not* a compression of `A`. -/
theorem C23_breakdown_duplicates (matvec : Vec n → Vec n) (b : Vec n) (hb : b ≠ 0) (tol : ℝ) (k rank : ℕ) (hr : k < rank)
    (s : LanczosState n) (hs : s = lanczosIterations matvec b rank tol true)
    (hβ : ∀ j < k, s.beta j ≠ 0) (hz : s.beta k = 0)
    (eigh : Matrix (Fin rank) (Fin rank) ℝ → Vec rank × Matrix (Fin rank) (Fin rank) ℝ) (he : IsEigh eigh)
    (eigh' : Matrix (Fin (k + 1)) (Fin (k + 1)) ℝ → Vec (k + 1) × Matrix (Fin (k + 1)) (Fin (k + 1)) ℝ) (he' : IsEigh eigh')
    (t : LowRankTerms n rank) (ht : t = lanczosLowrankTerms rank eigh matvec b tol true)
    (t' : LowRankTerms n (k + 1)) (ht' : t' = lanczosLowrankTerms (k + 1) eigh' matvec b tol true) :
    (∀ j, k ≤ j → j ≤ rank → s.V j = s.V k) ∧
    t.U * Matrix.diagonal t.S * t.Uᵀ = t'.U * Matrix.diagonal t'.S * t'.Uᵀ +
      ((rank - 1 - k : ℕ) : ℝ) • (s.alpha k • Matrix.vecMulVec (s.V k) (s.V k)) := by
  have hk : ∀ j < k, lzB matvec b tol true j ≠ 0 := fun j hj => by
    have := hβ j hj; rw [hs, lz_beta _ _ _ _ rank j (by omega)] at this; exact this
  have hz' : lzB matvec b tol true k = 0 := by rw [hs, lz_beta _ _ _ _ rank k hr] at hz; exact hz
  have hafter := fun j hj => lz_after_breakdown matvec b hb tol k hk hz' j hj
  constructor
  · intro j h1 h2
    rw [hs, lz_V _ _ _ _ rank j h2, lz_V _ _ _ _ rank k (by omega)]; exact (hafter j h1).1
  · have e1 := lowrank_reconstruct rank eigh he matvec b tol true
    have e2 := lowrank_reconstruct (k + 1) eigh' he' matvec b tol true
    rw [← ht] at e1; rw [← ht'] at e2
    rw [e1, e2, hs, lz_alpha _ _ _ _ rank k hr, lz_V _ _ _ _ rank k (by omega)]
    ext x y
    rw [Matrix.add_apply, vtv_apply, vtv_apply]
    simp only [Matrix.smul_apply, Matrix.vecMulVec_apply, smul_eq_mul]
    clear e1 e2 ht ht' he he' hβ hz hs t t' eigh eigh' s
    induction rank, hr using Nat.le_induction with
    | base => simp
    | succ m hm ih =>
      rw [Finset.sum_range_succ]
      have hlast : m ≠ 0 := by omega
      have hb1 : lzB matvec b tol true (m - 1) = 0 := (hafter (m - 1) (by omega)).2.1
      rw [if_neg hlast, hb1, (hafter m (by omega)).1, (hafter m (by omega)).2.2, if_neg (by omega)]
      have hcongr : ∀ j ∈ Finset.range m, ((if j = 0 then 0 else lzB matvec b tol true (j - 1) * lzV matvec b tol true (j - 1) x) +
          lzA matvec b tol true j * lzV matvec b tol true j x +
          (if j + 1 < m + 1 then lzB matvec b tol true j * lzV matvec b tol true (j + 1) x else 0)) * lzV matvec b tol true j y =
          ((if j = 0 then 0 else lzB matvec b tol true (j - 1) * lzV matvec b tol true (j - 1) x) +
          lzA matvec b tol true j * lzV matvec b tol true j x +
          (if j + 1 < m then lzB matvec b tol true j * lzV matvec b tol true (j + 1) x else 0)) * lzV matvec b tol true j y := by
        intro j hj
        have hj' := Finset.mem_range.1 hj
        congr 2
        by_cases h : j + 1 < m
        · rw [if_pos h, if_pos (by omega)]
        · have : j = m - 1 := by omega
          rw [if_neg h, if_pos (by omega), this, hb1, zero_mul]
      rw [Finset.sum_congr rfl hcongr]
      rw [ih]
      have hc : ((m + 1 - 1 - k : ℕ) : ℝ) = ((m - 1 - k : ℕ) : ℝ) + 1 := by
        rw [show m + 1 - 1 - k = (m - 1 - k) + 1 by omega]; push_cast; ring
      rw [hc]; ring

/-- C23, breakdown witness: for `A = c I` and rank 2, every start vector breaks down at once and the returned factors
reconstruct `2 c v vᵀ` instead of the compression `c v vᵀ`. -/
theorem C23_breakdown_identity (c : ℝ) (b : Vec n) (hb : b ≠ 0) (tol : ℝ) (htol : 0 < tol)
    (eigh : Matrix (Fin 2) (Fin 2) ℝ → Vec 2 × Matrix (Fin 2) (Fin 2) ℝ) (he : IsEigh eigh)
    (t : LowRankTerms n 2) (ht : t = lanczosLowrankTerms 2 eigh (fun v => c • v) b tol true) (v : Vec n)
    (hv : v = (1 / Real.sqrt (b ⬝ᵥ b)) • b) :
    t.U * Matrix.diagonal t.S * t.Uᵀ = (2 * c) • Matrix.vecMulVec v v := by
  have hV0 : lzV (fun v => c • v) b tol true 0 = v := by rw [lzV_zero, hv]; rfl
  have hvv : v ⬝ᵥ v = 1 := by rw [← hV0]; exact lzV_zero_norm _ b tol true hb
  have hW : lzW (fun v => c • v) b tol true 0 = 0 := by
    simp [lzW, reorthogonalize, hV0, hvv]
  have hB0 : lzB (fun v => c • v) b tol true 0 = 0 := by
    rw [(lzStep _ b tol true 0).1, hW, if_pos]; simpa [norm2] using htol
  have hA0 : lzA (fun v => c • v) b tol true 0 = c := by rw [lzA_eq, hV0]; simp [hvv]
  have h1 := lz_after_breakdown (fun v => c • v) b hb tol 0 (fun j hj => absurd hj (by omega)) hB0 1 (by omega)
  rw [ht, lowrank_reconstruct 2 eigh he]
  ext x y
  rw [vtv_apply, Finset.sum_range_succ, Finset.sum_range_one]
  simp only [hB0, hA0, h1.1, h1.2.2, hV0, Matrix.smul_apply, Matrix.vecMulVec_apply, smul_eq_mul]
  simp; ring

/-- C23, `full_reorthogonalize=False`: the code then never subtracts `beta_(i-1) v_(i-1)`, so orthogonality already fails
after two steps without any breakdown: for `A = [[0,1],[1,0]]` and `b = e₀` the third vector is the first one again. -/
theorem C23_no_reorthogonalisation_fails :
    ∃ (A : Matrix (Fin 2) (Fin 2) ℝ) (b : Vec 2), Aᵀ = A ∧ b ≠ 0 ∧
      (∀ j < 2, (lanczosIterations (fun v => A *ᵥ v) b 2 1e-6 false).beta j = 1) ∧
      (lanczosIterations (fun v => A *ᵥ v) b 2 1e-6 false).V 2 ⬝ᵥ (lanczosIterations (fun v => A *ᵥ v) b 2 1e-6 false).V 0 = 1 := by
  refine ⟨!![0, 1; 1, 0], ![1, 0], ?_, ?_, ?_, ?_⟩
  · ext i j; fin_cases i <;> fin_cases j <;> rfl
  · intro h; have := congrFun h 0; simp at this
  all_goals
    set A : Matrix (Fin 2) (Fin 2) ℝ := !![0, 1; 1, 0]
    have hA0 : A *ᵥ ![1, 0] = ![0, 1] := by funext i; fin_cases i <;> simp [A, Matrix.mulVec, dotProduct]
    have hA1 : A *ᵥ ![0, 1] = ![1, 0] := by funext i; fin_cases i <;> simp [A, Matrix.mulVec, dotProduct]
    have hn0 : norm2 ![(1 : ℝ), 0] = 1 := by simp [norm2, dotProduct]
    have hn1 : norm2 ![(0 : ℝ), 1] = 1 := by simp [norm2, dotProduct]
    have v0 : lzV (fun v => A *ᵥ v) ![1, 0] 1e-6 false 0 = ![1, 0] := by rw [lzV_zero, hn0]; simp
    have w0 : lzW (fun v => A *ᵥ v) ![1, 0] 1e-6 false 0 = ![0, 1] := by
      simp [lzW, v0, hA0, dotProduct]
    have b0 : lzB (fun v => A *ᵥ v) ![1, 0] 1e-6 false 0 = 1 := by
      rw [(lzStep _ _ _ _ 0).1, w0, hn1, if_neg (by norm_num)]
    have v1 : lzV (fun v => A *ᵥ v) ![1, 0] 1e-6 false 1 = ![0, 1] := by
      rw [(lzStep _ _ _ _ 0).2, b0, w0]; simp
    have w1 : lzW (fun v => A *ᵥ v) ![1, 0] 1e-6 false 1 = ![1, 0] := by
      simp [lzW, v1, hA1, dotProduct]
    have b1 : lzB (fun v => A *ᵥ v) ![1, 0] 1e-6 false 1 = 1 := by
      rw [(lzStep _ _ _ _ 1).1, w1, hn0, if_neg (by norm_num)]
    have v2 : lzV (fun v => A *ᵥ v) ![1, 0] 1e-6 false 2 = ![1, 0] := by
      rw [(lzStep _ _ _ _ 1).2, b1, w1]; simp
  · intro j hj
    rw [lz_beta _ _ _ _ 2 j hj]
    interval_cases j
    · exact b0
    · exact b1
  · rw [lz_V _ _ _ _ 2 2 le_rfl, lz_V _ _ _ _ 2 0 (by omega), v2, v0]
    simp [dotProduct]

/-- Non-vacuity: a symmetric matrix, start vector and tolerance with no breakdown before the last iteration. -/
example : ∃ (A : Matrix (Fin 2) (Fin 2) ℝ) (b : Vec 2), Aᵀ = A ∧ b ≠ 0 ∧
    ∀ j, j + 1 < 2 → (lanczosIterations (fun v => A *ᵥ v) b 2 1e-6 true).beta j ≠ 0 := by
  refine ⟨!![0, 1; 1, 0], ![1, 0], ?_, ?_, ?_⟩
  · ext i j; fin_cases i <;> fin_cases j <;> rfl
  · intro h; have := congrFun h 0; simp at this
  · intro j hj
    obtain rfl : j = 0 := by omega
    set A : Matrix (Fin 2) (Fin 2) ℝ := !![0, 1; 1, 0]
    have hA0 : A *ᵥ ![1, 0] = ![0, 1] := by funext i; fin_cases i <;> simp [A, Matrix.mulVec, dotProduct]
    have hn0 : norm2 ![(1 : ℝ), 0] = 1 := by simp [norm2, dotProduct]
    have hn1 : norm2 ![(0 : ℝ), 1] = 1 := by simp [norm2, dotProduct]
    have v0 : lzV (fun v => A *ᵥ v) ![1, 0] 1e-6 true 0 = ![1, 0] := by rw [lzV_zero, hn0]; simp
    have w0 : lzW (fun v => A *ᵥ v) ![1, 0] 1e-6 true 0 = ![0, 1] := by
      simp [lzW, v0, hA0, dotProduct, reorthogonalize]
    rw [lz_beta _ _ _ _ 2 0 (by omega), (lzStep _ _ _ _ 0).1, w0, hn1, if_neg (by norm_num)]
    norm_num

/-- C23: with at least as many iterations as dimensions breakdown is unavoidable: some `beta_k`, `k < n`, is zero. So the
default `rank = 20` always ends in the breakdown regime (`C23_breakdown_duplicates`) for models with fewer than 20
parameters. -/
theorem C23_rank_exceeds_dimension (matvec : Vec n → Vec n) (b : Vec n) (hb : b ≠ 0) (tol : ℝ) (rank : ℕ) (hr : n ≤ rank) :
    ∃ k < n, (lanczosIterations matvec b rank tol true).beta k = 0 := by
  by_contra hne
  push Not at hne
  have ho := C23_orthonormal matvec b hb tol rank n hr hne
  set Q : Matrix (Fin n) (Fin (n + 1)) ℝ := fun x j => (lanczosIterations matvec b rank tol true).V j x with hQ
  have hQQ : Qᵀ * Q = 1 := by
    ext i j
    have := ho i j (by omega) (by omega)
    rw [Matrix.mul_apply, Matrix.one_apply]
    simp only [Fin.ext_iff]
    exact this
  have h1 : (Qᵀ * Q).rank = n + 1 := by rw [hQQ, Matrix.rank_one]; simp
  have h2 : (Qᵀ * Q).rank ≤ n := (Matrix.rank_mul_le_right _ _).trans (by simpa using Matrix.rank_le_height Q)
  omega

/-- C21/C23 together: for a positive semidefinite curvature, `rank` equal to the number of parameters and no early
breakdown, the posterior from Lanczos factors coincides with the FULL posterior (loss scaling 1). -/
theorem C23_lanczos_posterior_eq_full (C : Matrix (Fin n) (Fin n) ℝ) (hC : C.PosSemidef) (b : Vec n) (hb : b ≠ 0) (tol : ℝ)
    (eigh : Matrix (Fin n) (Fin n) ℝ → Vec n × Matrix (Fin n) (Fin n) ℝ) (he : IsEigh eigh)
    (hβ : ∀ j, j + 1 < n → (lanczosIterations (fun v => C *ᵥ v) b n tol true).beta j ≠ 0)
    (a : PriorArgs) (τ : ℝ) (hτ : a.priorPrec = some τ) (hτ0 : 0 < τ) (hσ : 0 ≤ a.sigmaSquared.getD 1) :
    ∃ st st', posteriorState (.lowRank (lanczosLowrankTerms n eigh (fun v => C *ᵥ v) b tol true)) a 1 = .ok st ∧
      posteriorState (.full C) a 1 = .ok st' ∧ ∀ v, covMvOfState st v = covMvOfState st' v := by
  have hA : Cᵀ = C := by have := hC.isHermitian; rwa [Matrix.IsHermitian, Matrix.conjTranspose_eq_transpose_of_trivial] at this
  obtain ⟨h1, _, _, h2, _⟩ := C23_low_rank_terms C hA b hb tol n eigh he hβ _ rfl
  exact C21_low_rank_eq_full C _ h1 (h2 hC) (C23_full_rank_exact C hA b hb tol eigh he hβ _ rfl).symm a τ hτ hτ0 hσ

end Laplax.Props
