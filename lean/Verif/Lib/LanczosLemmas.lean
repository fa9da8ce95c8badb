import Verif.Model.Lanczos
import Mathlib.Data.Matrix.Mul
import Mathlib.LinearAlgebra.Matrix.DotProduct
import Mathlib.Tactic.Linarith
import Mathlib.Tactic.Ring

/-! # Invariants of the Lanczos loop -/

namespace Laplax
open scoped BigOperators Matrix

variable {n : ℕ}

theorem norm2_sq (w : Vec n) : norm2 w * norm2 w = w ⬝ᵥ w :=
  Real.mul_self_sqrt (by simpa [dotProduct] using Finset.sum_nonneg (fun i _ => mul_self_nonneg (w i)))

theorem norm2_nonneg (w : Vec n) : 0 ≤ norm2 w := Real.sqrt_nonneg _

theorem norm2_pos {w : Vec n} (h : w ≠ 0) : 0 < norm2 w := by
  rcases (norm2_nonneg w).lt_or_eq with h' | h'
  · exact h'
  · exfalso; apply h
    have := norm2_sq w
    rw [← h', zero_mul] at this
    exact dotProduct_self_eq_zero.1 this.symm

/-- Reorthogonalisation against an orthonormal family is one projection. -/
theorem reorth_eq (V : ℕ → Vec n) (w : Vec n) (i : ℕ) (hV : ∀ j < i, ∀ k < i, V j ⬝ᵥ V k = if j = k then 1 else 0) :
    reorthogonalize w V i = w - ∑ j ∈ Finset.range i, (V j ⬝ᵥ w) • V j := by
  induction i with
  | zero => simp [reorthogonalize]
  | succ i ih =>
    have ih' := ih (fun j hj k hk => hV j (by omega) k (by omega))
    unfold reorthogonalize at ih' ⊢
    rw [List.range_succ, List.foldl_append, ih']
    simp only [List.foldl_cons, List.foldl_nil, reorthBody]
    have : V i ⬝ᵥ (w - ∑ j ∈ Finset.range i, (V j ⬝ᵥ w) • V j) = V i ⬝ᵥ w := by
      rw [dotProduct_sub, dotProduct_sum, Finset.sum_eq_zero, sub_zero]
      intro j hj
      rw [Finset.mem_range] at hj
      rw [dotProduct_smul, hV i (by omega) j (by omega), if_neg (by omega), smul_zero]
    rw [this, Finset.sum_range_succ]
    abel

/-- After reorthogonalisation the vector is orthogonal to the family. -/
theorem reorth_orth (V : ℕ → Vec n) (w : Vec n) (i : ℕ) (hV : ∀ j < i, ∀ k < i, V j ⬝ᵥ V k = if j = k then 1 else 0)
    (j : ℕ) (hj : j < i) : V j ⬝ᵥ reorthogonalize w V i = 0 := by
  rw [reorth_eq V w i hV, dotProduct_sub, dotProduct_sum,
    Finset.sum_eq_single_of_mem j (Finset.mem_range.2 hj)]
  · rw [dotProduct_smul, hV j hj j hj, if_pos rfl, smul_eq_mul, mul_one, sub_self]
  · intro k hk hkj
    rw [dotProduct_smul, hV j hj k (Finset.mem_range.1 hk), if_neg (Ne.symm hkj), smul_zero]

theorem reorth_of_orth (V : ℕ → Vec n) (w : Vec n) (i : ℕ) (h : ∀ j < i, V j ⬝ᵥ w = 0) :
    reorthogonalize w V i = w := by
  induction i with
  | zero => simp [reorthogonalize]
  | succ i ih =>
    have ih' := ih (fun j hj => h j (by omega))
    unfold reorthogonalize at ih' ⊢
    rw [List.range_succ, List.foldl_append, ih']
    simp [reorthBody, h i (by omega)]

variable (matvec : Vec n → Vec n) (b : Vec n) (tol : ℝ) (fr : Bool)

/-- The result of `k` iterations. -/
noncomputable abbrev lz (k : ℕ) : LanczosState n := lanczosIterations matvec b k tol fr

theorem lz_succ (k : ℕ) :
    lz matvec b tol fr (k + 1) = iterationStep tol fr (lz matvec b tol fr k) (matvec (lz matvec b tol fr k).v) k := by
  simp [lanczosIterations, List.range_succ, List.foldl_append]

theorem lz_v (k : ℕ) : (lz matvec b tol fr k).v = (lz matvec b tol fr k).V k := by
  cases k with
  | zero => simp [lanczosIterations]
  | succ k => rw [lz_succ]; simp [iterationStep]

/-- Rows, once written, are never overwritten. -/
theorem lz_V_stable (k m : ℕ) (j : ℕ) (hj : j ≤ k) (hm : k ≤ m) :
    (lz matvec b tol fr m).V j = (lz matvec b tol fr k).V j := by
  induction m with
  | zero => obtain rfl : k = 0 := by omega
            rfl
  | succ m ih =>
    by_cases h : k = m + 1
    · rw [h]
    · rw [lz_succ]; simp only [iterationStep]
      rw [Function.update_of_ne (by omega)]; exact ih (by omega)

theorem lz_alpha_stable (k m : ℕ) (j : ℕ) (hj : j < k) (hm : k ≤ m) :
    (lz matvec b tol fr m).alpha j = (lz matvec b tol fr k).alpha j := by
  induction m with
  | zero => omega
  | succ m ih =>
    by_cases h : k = m + 1
    · rw [h]
    · rw [lz_succ]; simp only [iterationStep]
      rw [Function.update_of_ne (by omega)]; exact ih (by omega)

theorem lz_beta_stable (k m : ℕ) (j : ℕ) (hj : j < k) (hm : k ≤ m) :
    (lz matvec b tol fr m).beta j = (lz matvec b tol fr k).beta j := by
  induction m with
  | zero => omega
  | succ m ih =>
    by_cases h : k = m + 1
    · rw [h]
    · rw [lz_succ]; simp only [iterationStep]
      rw [Function.update_of_ne (by omega)]; exact ih (by omega)

/-- The sequence of Lanczos vectors, independent of the number of iterations. -/
noncomputable def lzV (j : ℕ) : Vec n := (lz matvec b tol fr j).V j
noncomputable def lzA (j : ℕ) : ℝ := (lz matvec b tol fr (j + 1)).alpha j
noncomputable def lzB (j : ℕ) : ℝ := (lz matvec b tol fr (j + 1)).beta j

theorem lz_V (m j : ℕ) (h : j ≤ m) : (lz matvec b tol fr m).V j = lzV matvec b tol fr j :=
  lz_V_stable matvec b tol fr j m j le_rfl h
theorem lz_alpha (m j : ℕ) (h : j < m) : (lz matvec b tol fr m).alpha j = lzA matvec b tol fr j :=
  lz_alpha_stable matvec b tol fr (j + 1) m j (by omega) h
theorem lz_beta (m j : ℕ) (h : j < m) : (lz matvec b tol fr m).beta j = lzB matvec b tol fr j :=
  lz_beta_stable matvec b tol fr (j + 1) m j (by omega) h

/-- The residual of step `i` before normalisation. -/
noncomputable def lzW (i : ℕ) : Vec n :=
  let v := lzV matvec b tol fr i
  let w := matvec v - (v ⬝ᵥ matvec v) • v
  if fr then reorthogonalize (reorthogonalize w (lzV matvec b tol fr) i) (lzV matvec b tol fr) i else w

theorem reorth_congr (V V' : ℕ → Vec n) (w : Vec n) (i : ℕ) (h : ∀ j < i, V j = V' j) :
    reorthogonalize w V i = reorthogonalize w V' i := by
  unfold reorthogonalize
  apply List.foldl_ext
  intro w j hj
  simp [reorthBody, h j (List.mem_range.1 hj)]

theorem lzA_eq (i : ℕ) : lzA matvec b tol fr i = lzV matvec b tol fr i ⬝ᵥ matvec (lzV matvec b tol fr i) := by
  unfold lzA
  rw [lz_succ]; simp only [iterationStep, Function.update_self]
  rw [lz_v, lz_V _ _ _ _ i i le_rfl]

theorem lzStep (i : ℕ) :
    lzB matvec b tol fr i = (if norm2 (lzW matvec b tol fr i) < tol then 0 else norm2 (lzW matvec b tol fr i)) ∧
    lzV matvec b tol fr (i + 1) = if lzB matvec b tol fr i > 0 then (1 / lzB matvec b tol fr i) • lzW matvec b tol fr i
      else lzV matvec b tol fr i := by
  have hv : (lz matvec b tol fr i).v = lzV matvec b tol fr i := by rw [lz_v]; rfl
  have hr : ∀ w, reorthogonalize w (lz matvec b tol fr i).V i = reorthogonalize w (lzV matvec b tol fr) i :=
    fun w => reorth_congr _ _ _ _ (fun j hj => lz_V _ _ _ _ i j hj.le)
  have h1 : lzB matvec b tol fr i =
      (if norm2 (lzW matvec b tol fr i) < tol then 0 else norm2 (lzW matvec b tol fr i)) := by
    unfold lzB
    rw [lz_succ]
    cases fr <;> simp [iterationStep, hv, hr, lzW]
  refine ⟨h1, ?_⟩
  rw [h1]
  unfold lzV
  rw [lz_succ]
  cases fr <;> simp [iterationStep, hv, hr, lzW, lzV]

theorem lzV_zero : lzV matvec b tol fr 0 = (1 / norm2 b) • b := by
  simp [lzV, lanczosIterations]

theorem lzV_zero_norm (hb : b ≠ 0) : lzV matvec b tol fr 0 ⬝ᵥ lzV matvec b tol fr 0 = 1 := by
  rw [lzV_zero, smul_dotProduct, dotProduct_smul, smul_eq_mul, smul_eq_mul, ← norm2_sq]
  have := norm2_pos hb
  field_simp

theorem lzB_nonneg (i : ℕ) : 0 ≤ lzB matvec b tol fr i := by
  rw [(lzStep matvec b tol fr i).1]
  split
  · exact le_rfl
  · exact norm2_nonneg _

/-- Orthonormality until breakdown, with full reorthogonalisation, for any matrix-vector product. -/
theorem lz_orthonormal (hb : b ≠ 0) (m : ℕ) (hm : ∀ k < m, lzB matvec b tol true k ≠ 0) :
    ∀ i ≤ m, ∀ j ≤ m, lzV matvec b tol true i ⬝ᵥ lzV matvec b tol true j = if i = j then 1 else 0 := by
  induction m with
  | zero =>
    intro i hi j hj
    obtain rfl : i = 0 := by omega
    obtain rfl : j = 0 := by omega
    simp [lzV_zero_norm matvec b tol true hb]
  | succ m ih =>
    have ih' := ih (fun k hk => hm k (by omega))
    obtain ⟨hB, hV⟩ := lzStep matvec b tol true m
    have hβ := hm m (by omega)
    have hβ0 : 0 < lzB matvec b tol true m := lt_of_le_of_ne (lzB_nonneg _ _ _ _ _) (Ne.symm hβ)
    have hβn : lzB matvec b tol true m = norm2 (lzW matvec b tol true m) := by
      rw [hB] at hβ ⊢
      split
      · rename_i h; rw [if_pos h] at hβ; exact absurd rfl hβ
      · rfl
    rw [if_pos hβ0] at hV
    have horthW : ∀ j ≤ m, lzV matvec b tol true j ⬝ᵥ lzW matvec b tol true m = 0 := by
      set v := lzV matvec b tol true m with hv
      set w := matvec v - (v ⬝ᵥ matvec v) • v with hw
      have hfam : ∀ j < m, ∀ k < m, lzV matvec b tol true j ⬝ᵥ lzV matvec b tol true k = if j = k then 1 else 0 :=
        fun j hj k hk => ih' j hj.le k hk.le
      have hW : lzW matvec b tol true m = reorthogonalize w (lzV matvec b tol true) m := by
        have e : lzW matvec b tol true m = reorthogonalize (reorthogonalize w (lzV matvec b tol true) m)
          (lzV matvec b tol true) m := by simp [lzW, ← hv, hw]
        rw [e]
        exact reorth_of_orth _ _ _ (fun j hj => reorth_orth _ _ _ hfam j hj)
      intro j hj
      rw [hW]
      rcases Nat.lt_or_eq_of_le hj with h | rfl
      · exact reorth_orth _ _ _ hfam j h
      · rw [reorth_eq _ _ _ hfam, dotProduct_sub, dotProduct_sum, Finset.sum_eq_zero, sub_zero, hw, dotProduct_sub,
          dotProduct_smul]
        · rw [← hv, ih' j le_rfl j le_rfl]; simp
        · intro k hk
          have hk' := Finset.mem_range.1 hk
          rw [dotProduct_smul, ih' j le_rfl k (by omega), if_neg (by omega), smul_zero]
    have hnew : ∀ j ≤ m, lzV matvec b tol true j ⬝ᵥ lzV matvec b tol true (m + 1) = 0 := by
      intro j hj; rw [hV, dotProduct_smul, horthW j hj, smul_zero]
    have hself : lzV matvec b tol true (m + 1) ⬝ᵥ lzV matvec b tol true (m + 1) = 1 := by
      rw [hV, smul_dotProduct, dotProduct_smul, smul_eq_mul, smul_eq_mul, ← norm2_sq, ← hβn]
      field_simp
    intro i hi j hj
    rcases Nat.lt_or_eq_of_le hi with h | h <;> rcases Nat.lt_or_eq_of_le hj with h' | h'
    · exact ih' i (by omega) j (by omega)
    · rw [h', hnew i (by omega), if_neg (by omega)]
    · rw [h, dotProduct_comm, hnew j (by omega), if_neg (by omega)]
    · rw [h, h', hself, if_pos rfl]

end Laplax

namespace Laplax
open scoped BigOperators Matrix

variable {n : ℕ} (A : Matrix (Fin n) (Fin n) ℝ) (b : Vec n) (tol : ℝ)

theorem symm_dot (hA : Aᵀ = A) (x y : Vec n) : x ⬝ᵥ (A *ᵥ y) = (A *ᵥ x) ⬝ᵥ y := by
  rw [Matrix.dotProduct_mulVec, ← Matrix.mulVec_transpose, hA]

/-- The residual is the remainder of `A v_i` after the three-term recurrence. -/
theorem lzW_eq_of_ne (matvec : Vec n → Vec n) (i : ℕ) (h : lzB matvec b tol true i ≠ 0) :
    lzW matvec b tol true i = lzB matvec b tol true i • lzV matvec b tol true (i + 1) := by
  obtain ⟨_, hV⟩ := lzStep matvec b tol true i
  have h0 : 0 < lzB matvec b tol true i := lt_of_le_of_ne (lzB_nonneg _ _ _ _ _) (Ne.symm h)
  rw [hV, if_pos h0, smul_smul, mul_one_div_cancel h, one_smul]

theorem lzW_eq_proj (matvec : Vec n → Vec n) (hb : b ≠ 0) (m : ℕ) (hm : ∀ k < m, lzB matvec b tol true k ≠ 0) :
    lzW matvec b tol true m = matvec (lzV matvec b tol true m) - lzA matvec b tol true m • lzV matvec b tol true m -
      ∑ j ∈ Finset.range m, (lzV matvec b tol true j ⬝ᵥ matvec (lzV matvec b tol true m)) • lzV matvec b tol true j := by
  have ho := lz_orthonormal matvec b tol hb m hm
  have hfam : ∀ j < m, ∀ k < m, lzV matvec b tol true j ⬝ᵥ lzV matvec b tol true k = if j = k then 1 else 0 :=
    fun j hj k hk => ho j hj.le k hk.le
  have e : lzW matvec b tol true m = reorthogonalize (reorthogonalize
      (matvec (lzV matvec b tol true m) - lzA matvec b tol true m • lzV matvec b tol true m) (lzV matvec b tol true) m)
        (lzV matvec b tol true) m := by
    rw [lzA_eq]; simp [lzW]
  rw [e, reorth_of_orth _ _ _ (fun j hj => reorth_orth _ _ _ hfam j hj), reorth_eq _ _ _ hfam]
  congr 1
  refine Finset.sum_congr rfl fun j hj => ?_
  have hj' := Finset.mem_range.1 hj
  rw [dotProduct_sub, dotProduct_smul, ho j hj'.le m le_rfl, if_neg (by omega), smul_zero, sub_zero]

/-- Three-term recurrence with explicit residual, until breakdown, for a symmetric matrix. -/
theorem lz_recurrence (hA : Aᵀ = A) (hb : b ≠ 0) (m : ℕ)
    (hm : ∀ k < m, lzB (fun v => A *ᵥ v) b tol true k ≠ 0) :
    ∀ i ≤ m, A *ᵥ lzV (fun v => A *ᵥ v) b tol true i =
      (if i = 0 then 0 else lzB (fun v => A *ᵥ v) b tol true (i - 1) • lzV (fun v => A *ᵥ v) b tol true (i - 1)) +
      lzA (fun v => A *ᵥ v) b tol true i • lzV (fun v => A *ᵥ v) b tol true i + lzW (fun v => A *ᵥ v) b tol true i := by
  set V := lzV (fun v => A *ᵥ v) b tol true with hV
  set B := lzB (fun v => A *ᵥ v) b tol true with hB
  set W := lzW (fun v => A *ᵥ v) b tol true with hW
  set a := lzA (fun v => A *ᵥ v) b tol true with ha
  intro i
  induction i using Nat.strong_induction_on with
  | _ i ih =>
    intro hi
    have ho := lz_orthonormal (fun v => A *ᵥ v) b tol hb m hm
    have hp := lzW_eq_proj b tol (fun v => A *ᵥ v) hb i (fun k hk => hm k (by omega))
    simp only [← hV, ← hW, ← ha] at hp ho
    have hcoef : ∀ j ∈ Finset.range i, (V j ⬝ᵥ A *ᵥ V i) • V j = if j + 1 = i then B (i - 1) • V (i - 1) else 0 := by
      intro j hj
      have hj' := Finset.mem_range.1 hj
      have hWj : W j = B j • V (j + 1) := lzW_eq_of_ne b tol _ j (hm j (by omega))
      rw [symm_dot A hA, ih j hj' (by omega), hWj]
      simp only [add_dotProduct, smul_dotProduct]
      rw [ho j (by omega) i hi, ho (j + 1) (by omega) i hi, if_neg (show ¬ j = i by omega)]
      have h0 : (if j = 0 then (0 : Vec n) else B (j - 1) • V (j - 1)) ⬝ᵥ V i = 0 := by
        split
        · simp
        · rw [smul_dotProduct, ho (j - 1) (by omega) i hi, if_neg (by omega), smul_zero]
      rw [h0]
      by_cases h : j + 1 = i
      · subst h; simp
      · simp [h]
    rw [Finset.sum_congr rfl hcoef] at hp
    rw [hp]
    have hsum : ∑ j ∈ Finset.range i, (if j + 1 = i then B (i - 1) • V (i - 1) else (0 : Vec n)) =
        if i = 0 then 0 else B (i - 1) • V (i - 1) := by
      cases i with
      | zero => simp
      | succ i =>
        rw [Finset.sum_eq_single_of_mem i (by simp)]
        · simp
        · intro j _ hj; rw [if_neg (by omega)]
    rw [hsum]; abel

/-- Column `j` of `F T` for the tridiagonal matrix `T`. -/
theorem tridiagonal_col (m : ℕ) (alpha beta f : ℕ → ℝ) (j : Fin m) :
    ∑ i : Fin m, f i * constructTridiagonal m alpha beta i j =
      (if j.val = 0 then 0 else beta (j - 1) * f (j - 1)) + alpha j * f j +
        (if j.val + 1 < m then beta j * f (j + 1) else 0) := by
  obtain ⟨j, hj⟩ := j
  have h1 : ∑ i : Fin m, f i * constructTridiagonal m alpha beta i ⟨j, hj⟩ =
      ∑ i ∈ Finset.range m, ((if i = j then alpha j * f j else 0) + (if i = j - 1 then (if j = 0 then 0 else beta (j - 1) * f (j - 1)) else 0) +
        (if i = j + 1 then beta j * f (j + 1) else 0)) := by
    rw [← Fin.sum_univ_eq_sum_range (fun i => ((if i = j then alpha j * f j else 0) + (if i = j - 1 then (if j = 0 then 0 else beta (j - 1) * f (j - 1)) else 0) +
        (if i = j + 1 then beta j * f (j + 1) else 0)))]
    refine Finset.sum_congr rfl fun i _ => ?_
    obtain ⟨i, hi⟩ := i
    simp only [constructTridiagonal, Fin.mk.injEq]
    by_cases h1 : i = j
    · subst h1
      have : ¬ i = i + 1 := by omega
      by_cases h0 : i = 0
      · subst h0; simp; ring
      · simp [h0, show ¬ i = i - 1 by omega]; ring
    · by_cases h2 : i + 1 = j
      · subst h2; simp [show ¬ i = i + 1 + 1 by omega]; ring
      · by_cases h3 : j + 1 = i
        · subst h3; simp [show ¬ j + 1 = j - 1 by omega, show ¬ j + 1 + 1 = j by omega]; ring
        · have h4 : (if i = j - 1 then (if j = 0 then 0 else beta (j - 1) * f (j - 1)) else 0) = 0 := by
            by_cases h5 : j = 0
            · simp [h5]
            · rw [if_neg (by omega)]
          rw [h4]
          simp [h1, h2, h3, Ne.symm h3]
  rw [h1, Finset.sum_add_distrib, Finset.sum_add_distrib, Finset.sum_ite_eq', Finset.sum_ite_eq', Finset.sum_ite_eq']
  simp only [Finset.mem_range, hj, if_true, show j - 1 < m by omega]
  ring

theorem tridiagonal_symm (m : ℕ) (alpha beta : ℕ → ℝ) : (constructTridiagonal m alpha beta)ᵀ = constructTridiagonal m alpha beta := by
  ext i j
  simp only [Matrix.transpose_apply, constructTridiagonal]
  by_cases h : i = j
  · subst h; simp
  · rw [if_neg (Ne.symm h), if_neg h]
    by_cases h1 : i.val + 1 = j.val
    · rw [if_neg (by omega), if_pos h1, if_pos h1]
    · rw [if_neg h1]
      by_cases h2 : j.val + 1 = i.val
      · rw [if_pos h2, if_neg h1]
      · rw [if_neg h2, if_neg h1]

end Laplax
