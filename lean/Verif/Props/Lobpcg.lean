import Verif.Lib.LobpcgLemmas3
import Verif.Props.Lanczos
import Mathlib.Data.Fin.Tuple.Sort
import Mathlib.Analysis.InnerProductSpace.PiL2

/-! # C48: the block eigensolver (non-jitted LOBPCG) -/

namespace Laplax.Props
open Laplax Laplax.Spec
open scoped BigOperators Matrix

variable {n k : ℕ}

/-! ### The assumptions on the kernels are satisfiable -/

/-- Every real square matrix has a singular value decomposition. -/
theorem exists_svd {r : ℕ} (M : Mat r r) : ∃ e : Mat r r × Vec r × Mat r r, IsSvd M e := by
  obtain ⟨eigh, he⟩ := C23_eigh_exists r
  obtain ⟨h1, h2⟩ := he (Mᵀ * M) (by simp)
  set V := (eigh (Mᵀ * M)).2 with hV
  set w := (eigh (Mᵀ * M)).1 with hw
  have hVV : V * Vᵀ = 1 := mul_eq_one_comm.1 h1
  -- columns of `M V` are orthogonal with squared lengths `w`
  have hG : (M * V)ᵀ * (M * V) = Matrix.diagonal w := by
    calc (M * V)ᵀ * (M * V) = Vᵀ * (Mᵀ * M) * V := by rw [Matrix.transpose_mul]; simp only [Matrix.mul_assoc]
      _ = (Vᵀ * V) * Matrix.diagonal w * (Vᵀ * V) := by conv_lhs => rw [h2]
                                                        simp only [Matrix.mul_assoc]
      _ = _ := by rw [h1]; simp
  have hGe : ∀ i j, ∑ r, (M * V) r i * (M * V) r j = if i = j then w i else 0 := by
    intro i j
    have := congrFun (congrFun hG i) j
    rw [Matrix.diagonal_apply] at this
    exact this
  have hw0 : ∀ j, 0 ≤ w j := by
    intro j
    have := hGe j j
    rw [if_pos rfl] at this
    rw [← this]; exact Finset.sum_nonneg fun i _ => mul_self_nonneg _
  let s : Vec r := fun j => Real.sqrt (w j)
  let v : Fin r → EuclideanSpace ℝ (Fin r) := fun j => WithLp.toLp 2 fun i => (M * V) i j / s j
  have hs : ∀ j, w j ≠ 0 → s j ≠ 0 := fun j h => (Real.sqrt_pos.2 (lt_of_le_of_ne (hw0 j) h.symm)).ne'
  have hort : Orthonormal ℝ ({j | w j ≠ 0}.restrict v) := by
    rw [orthonormal_iff_ite]
    rintro ⟨i, hi⟩ ⟨j, hj⟩
    have e : inner ℝ (v i) (v j) = (∑ r, (M * V) r i * (M * V) r j) / (s i * s j) := by
      rw [Finset.sum_div]
      simp only [v, PiLp.inner_apply, RCLike.inner_apply, conj_trivial]
      exact Finset.sum_congr rfl fun r _ => by rw [div_mul_div_comm, mul_comm ((M * V) r j), mul_comm (s j)]
    show inner ℝ (v i) (v j) = _
    rw [e, hGe]
    by_cases hij : i = j
    · subst hij
      simp only [if_true]
      rw [div_eq_one_iff_eq (mul_ne_zero (hs i hi) (hs i hi))]
      exact (Real.mul_self_sqrt (hw0 i)).symm
    · simp [hij]
  obtain ⟨b, hb⟩ := hort.exists_orthonormalBasis_extension_of_card_eq (by simp)
  let u : Mat r r := Matrix.of fun i j => b j i
  refine ⟨(u, s, Vᵀ), ?_, ?_, fun j => Real.sqrt_nonneg _, ?_⟩
  · ext i j
    rw [gram_apply, Matrix.one_apply]
    have := orthonormal_iff_ite.1 b.orthonormal i j
    rw [← this]
    simp only [u, Matrix.of_apply, PiLp.inner_apply, RCLike.inner_apply, conj_trivial]
    exact Finset.sum_congr rfl fun r _ => mul_comm _ _
  · show Vᵀᵀ * Vᵀ = 1
    rw [Matrix.transpose_transpose, hVV]
  · have key : M * V = u * Matrix.diagonal s := by
      ext i j
      rw [Matrix.mul_diagonal]
      by_cases h : w j = 0
      · have h3 := hGe j j
        rw [if_pos rfl, h] at h3
        have h4 := (Finset.sum_eq_zero_iff_of_nonneg fun i _ => mul_self_nonneg ((M * V) i j)).1 h3 i (Finset.mem_univ _)
        rw [mul_self_eq_zero.1 h4]
        simp [s, h]
      · have h5 := hb j h
        have : u i j = (M * V) i j / s j := by
          simp only [u, Matrix.of_apply, h5, v]
        rw [this, div_mul_cancel₀ _ (hs j h)]
    show M = u * Matrix.diagonal s * Vᵀ
    rw [← key, Matrix.mul_assoc, hVV, Matrix.mul_one]

/-- Every real symmetric matrix has an orthonormal eigendecomposition with ascending eigenvalues. -/
theorem exists_ascendingEigh {r : ℕ} (M : Mat r r) (hM : Mᵀ = M) : ∃ e : Vec r × Mat r r, IsAscendingEigh M e := by
  obtain ⟨eigh, he⟩ := C23_eigh_exists r
  obtain ⟨h1, h2⟩ := he M hM
  set V := (eigh M).2
  set w := (eigh M).1
  let σ := Tuple.sort w
  refine ⟨(w ∘ σ, Matrix.of fun i j => V i (σ j)), ortho_select h1 σ σ.injective, ?_, Tuple.monotone_sort w⟩
  rw [h2]
  ext a b
  rw [Matrix.mul_apply, Matrix.mul_apply]
  simp only [Matrix.mul_diagonal, Matrix.transpose_apply, Matrix.of_apply, Function.comp]
  exact (Equiv.sum_comp σ (fun x => V a x * w x * V b x)).symm

/-- What is assumed of `eigh`, `qr` and `svd` is satisfiable. -/
theorem C48_kernels_exist : ∃ K : Kernels, GoodKernels K := by
  classical
  refine ⟨{ eigh := fun M => if h : Mᵀ = M then (exists_ascendingEigh M h).choose else (0, 0)
            qr := fun {a b} _ => if h : b ≤ a then Matrix.of fun i j => if i = Fin.castLE h j then 1 else 0 else 0
            svd := fun M => (exists_svd M).choose }, ?_, ?_, ?_⟩
  · intro r M hM
    simp only [hM, dif_pos]
    exact (exists_ascendingEigh M hM).choose_spec
  · intro a b M h
    simp only [h, dif_pos]
    exact ortho_select (Q := (1 : Mat a a)) (by simp [OrthonormalCols]) (Fin.castLE h) (Fin.castLE_injective h)
  · intro r M
    exact (exists_svd M).choose_spec

/-! ### Orthogonalisation helpers -/

/-- **C48 (orthonormalisation).** For every input block, the result of the orthonormalisation has pairwise orthogonal columns,
each zero or of length one, inside the column span of the input.  If no column is zero and the input with columns scaled to length
one is well-conditioned relative to the machine epsilon, the result is an orthonormal basis of the same span. -/
theorem C48_orthonormalize [NeZero k] (K : Kernels) (hK : GoodKernels K) (eps : ℝ) (X : Mat n k) :
    ZeroOrOrthonormalCols (orthonormalize K eps X) ∧ (∃ C : Mat k k, orthonormalize K eps X = X * C) ∧
    ((0 ≤ eps) → eps * k < 1 → (∀ j, ∃ i, X i j ≠ 0) →
      (∀ v : Vec k, v ≠ 0 → eps * k * ∑ j, v j ^ 2 < ∑ i, (∑ j, X i j / colLength X j * v j) ^ 2) →
      OrthonormalCols (orthonormalize K eps X) ∧ ∃ D : Mat k k, X = orthonormalize K eps X * D) := by
  refine ⟨orthonormalize_zeroOrtho K eps X hK, orthonormalize_span K eps X, fun h0 h1 h2 h3 => ?_⟩
  have := orthonormalize_ortho K hK eps h0 h1 X h2 (by
    intro v hv
    have h := h3 v hv
    have e1 : v ⬝ᵥ v = ∑ j, v j ^ 2 := by simp only [dotProduct, pow_two]
    have hn : ∀ j, colNorm X j ≠ 0 := fun j e => by
      obtain ⟨i, hi⟩ := h2 j; exact hi ((colNorm_eq_zero X j).1 e i)
    have e2 : (svqbX1 X *ᵥ v) ⬝ᵥ (svqbX1 X *ᵥ v) = ∑ i, (∑ j, X i j / colLength X j * v j) ^ 2 := by
      rw [dotProduct]
      refine Finset.sum_congr rfl fun i _ => ?_
      rw [← pow_two]
      congr 1
      rw [Matrix.mulVec, dotProduct]
      refine Finset.sum_congr rfl fun j _ => ?_
      simp only [svqbX1, Matrix.of_apply, if_neg (hn j)]
      rfl
    rw [e1, e2]; exact h)
  exact ⟨this, span_eq_of_ortho this (orthonormalize_span K eps X)⟩

/-- **C48 (basis extension).** For every block `X` of `k` orthonormal columns and `m` with `k + m ≤ n`, the extension has `m`
orthonormal columns, all orthogonal to `X`. -/
theorem C48_extend_basis (K : Kernels) (hK : GoodKernels K) (X : Mat n k) (hX : OrthonormalCols X) (m : ℕ) (hn : k + m ≤ n) :
    OrthonormalCols (extendBasis K X m) ∧ Xᵀ * extendBasis K X m = 0 :=
  (extendBasis_spec K hK X hX m hn).symm

/-- **C48 (projection).** For every basis whose columns are orthonormal or zero and every block, the projected block is orthogonal
to the basis, its columns are orthonormal or zero, and together with the basis they are again orthonormal or zero. -/
theorem C48_project_out [NeZero k] (K : Kernels) (hK : GoodKernels K) (eps : ℝ) {a : ℕ} (B : Mat n a)
    (hB : ZeroOrOrthonormalCols B) (U : Mat n k) :
    Bᵀ * projectOut K eps B U = 0 ∧ ZeroOrOrthonormalCols (projectOut K eps B U) ∧
    ZeroOrOrthonormalCols (hcat B (projectOut K eps B U)) := by
  have h1 := (projectOut_eq K hK eps hB U).2
  have h2 := projectOut_zeroOrtho K hK eps hB U
  exact ⟨h1, h2, hcat_zeroOrtho hB h2 h1⟩

/-! ### The iteration -/

theorem lobpcgIter_succ [NeZero k] (K : Kernels) (eps : ℝ) (A : Mat n n) (tol : ℝ) (X0 : Mat n k) (i : ℕ) :
    lobpcgIter K eps A tol X0 (i + 1) = lobpcgStep K eps (fun v => A *ᵥ v) tol (lobpcgIter K eps A tol X0 i) :=
  Function.iterate_succ_apply' _ _ _

/-- Invariant of the loop: `[X, P]` is orthonormal. -/
def Inv (s : LobpcgState n k) : Prop := OrthonormalCols s.X ∧ OrthonormalCols s.P ∧ s.Xᵀ * s.P = 0

theorem basis_ortho [NeZero k] (K : Kernels) (hK : GoodKernels K) (eps : ℝ) (s : LobpcgState n k) (h : Inv s)
    (hR : ∀ j, ∃ i, searchBlock K eps s i j ≠ 0) : OrthonormalCols (hcat s.X (hcat s.P (searchBlock K eps s))) := by
  obtain ⟨h1, h2, h3⟩ := h
  have hXP := hcat_ortho h1 h2 h3
  obtain ⟨p1, p2, _⟩ := C48_project_out K hK eps (hcat s.X s.P) hXP.zeroOr s.R
  have hRo : OrthonormalCols (searchBlock K eps s) := p2.ortho hR
  have hX : s.Xᵀ * searchBlock K eps s = 0 := by
    ext i j
    rw [← (hcat_tmul s.X s.P (searchBlock K eps s)).1]
    exact congrFun (congrFun p1 (Fin.castAdd k i)) j
  have hP : s.Pᵀ * searchBlock K eps s = 0 := by
    ext i j
    rw [← (hcat_tmul s.X s.P (searchBlock K eps s)).2]
    exact congrFun (congrFun p1 (Fin.natAdd k i)) j
  refine hcat_ortho h1 (hcat_ortho h2 hRo hP) ?_
  ext i j
  refine Fin.addCases (fun j => ?_) (fun j => ?_) j
  · rw [(tmul_hcat _ _ _).1, h3]; rfl
  · rw [(tmul_hcat _ _ _).2, hX]; rfl

theorem step_spec [NeZero k] (K : Kernels) (hK : GoodKernels K) (eps : ℝ) (A : Mat n n) (hA : Aᵀ = A) (tol : ℝ)
    (s : LobpcgState n k) (h : Inv s) (hR : ∀ j, ∃ i, searchBlock K eps s i j ≠ 0) :
    let s' := lobpcgStep K eps (fun v => A *ᵥ v) tol s
    Inv s' ∧ s'.Xᵀ * (A * s'.X) = Matrix.diagonal s'.theta ∧ Antitone s'.theta ∧
      s'.R = A * s'.X - s'.X * Matrix.diagonal s'.theta := by
  intro s'
  have hS := basis_ortho K hK eps s h hR
  obtain ⟨f1, f2, f3, f4, f5, f6⟩ := firstStep_spec K hK A hA s.X s.P (searchBlock K eps s) hS
  have e4 := (eighAscending_spec K hK _ (compress_symm A hA (hcat s.X (hcat s.P (searchBlock K eps s))))).2.2.2
  refine ⟨⟨f3, f4, f5⟩, f6, ?_, ?_⟩
  · intro i j hij
    exact e4 (show Fin.castAdd (k + k) i ≤ Fin.castAdd (k + k) j from hij)
  · ext i j
    rw [Matrix.sub_apply, Matrix.mul_diagonal]
    show (A * s'.X) i j - s'.theta j * s'.X i j = _
    ring

theorem init_inv [NeZero k] (K : Kernels) (hK : GoodKernels K) (eps : ℝ) (mv : Vec n → Vec n) (X0 : Mat n k) (hn : k * 5 < n)
    (h0 : OrthonormalCols (orthonormalize K eps X0)) : Inv (lobpcgInit K eps mv X0) := by
  obtain ⟨h1, h2⟩ := C48_extend_basis K hK (orthonormalize K eps X0) h0 k (by omega)
  exact ⟨h0, h1, h2⟩

theorem iter_inv [NeZero k] (K : Kernels) (hK : GoodKernels K) (eps : ℝ) (A : Mat n n) (hA : Aᵀ = A) (tol : ℝ)
    (X0 : Mat n k) (hn : k * 5 < n) (h0 : OrthonormalCols (orthonormalize K eps X0)) (i : ℕ)
    (hR : ∀ l < i, ∀ j, ∃ r, searchBlock K eps (lobpcgIter K eps A tol X0 l) r j ≠ 0) :
    Inv (lobpcgIter K eps A tol X0 i) := by
  induction i with
  | zero => exact init_inv K hK eps _ X0 hn h0
  | succ i ih =>
    rw [lobpcgIter_succ]
    exact (step_spec K hK eps A hA tol _ (ih fun l hl => hR l (by omega)) (hR i (by omega))).1

theorem loop_iter [NeZero k] (K : Kernels) (eps : ℝ) (mv : Vec n → Vec n) (tol : ℝ) (f : ℕ) (s : LobpcgState n k) :
    ∃ i ≤ f, lobpcgLoop K eps mv tol f s = (lobpcgStep K eps mv tol)^[i] s ∧
      (i < f → ¬ ((lobpcgStep K eps mv tol)^[i] s).converged < k) := by
  induction f generalizing s with
  | zero => exact ⟨0, le_refl _, rfl, by simp⟩
  | succ f ih =>
    by_cases h : s.converged < k
    · obtain ⟨i, hi, h1, h2⟩ := ih (lobpcgStep K eps mv tol s)
      refine ⟨i + 1, by omega, ?_, ?_⟩
      · rw [lobpcgLoop, if_pos h, h1, Function.iterate_succ_apply]
      · intro hlt; rw [Function.iterate_succ_apply]; exact h2 (by omega)
    · exact ⟨0, by omega, by rw [lobpcgLoop, if_neg h]; rfl, fun _ => h⟩

theorem iter_count [NeZero k] (K : Kernels) (eps : ℝ) (A : Mat n n) (tol : ℝ) (X0 : Mat n k) (i : ℕ) :
    (lobpcgIter K eps A tol X0 i).i = i := by
  induction i with
  | zero => rfl
  | succ i ih => rw [lobpcgIter_succ]; show _ + 1 = _; rw [ih]

/-- **C48 (result).** For every symmetric operator on `n > 5k` coordinates, every tolerance and iteration limit: the solver returns
`(S, U, i)` with `i ≤ m`.  If the start block could be orthonormalised and no search direction was dropped in the iterations
performed, the columns of `U` are orthonormal; if at least one iteration was performed, `Uᵀ A U = diag S`, the values are descending, and
they lie between the extreme values of the quadratic form of `A`. -/
theorem C48_ritz_pairs [NeZero k] (K : Kernels) (hK : GoodKernels K) (eps : ℝ) (A : Mat n n) (hA : Aᵀ = A) (X0 : Mat n k)
    (m : ℕ) (tol : Option ℝ) (hn : k * 5 < n) :
    ∃ S U i, lobpcgStandard K eps (fun v => A *ᵥ v) X0 m tol = .ok (S, U, i) ∧ i ≤ m ∧
      (OrthonormalCols (orthonormalize K eps X0) →
        (∀ l < i, ∀ j, ∃ r, searchBlock K eps (lobpcgIter K eps A (tol.getD eps) X0 l) r j ≠ 0) →
        OrthonormalCols U ∧
        (0 < i → Uᵀ * A * U = Matrix.diagonal S ∧ Antitone S ∧
          ∀ lo hi : ℝ, (∀ v : Vec n, lo * (v ⬝ᵥ v) ≤ v ⬝ᵥ (A *ᵥ v) ∧ v ⬝ᵥ (A *ᵥ v) ≤ hi * (v ⬝ᵥ v)) → ∀ j, lo ≤ S j ∧ S j ≤ hi)) := by
  obtain ⟨i, hi, h1, h2⟩ := loop_iter K eps (fun v => A *ᵥ v) (tol.getD eps) m (lobpcgInit K eps (fun v => A *ᵥ v) X0)
  change lobpcgLoop _ _ _ _ _ _ = lobpcgIter K eps A (tol.getD eps) X0 i at h1
  refine ⟨(lobpcgIter K eps A (tol.getD eps) X0 i).theta, (lobpcgIter K eps A (tol.getD eps) X0 i).X, i, ?_, hi, ?_⟩
  · simp only [lobpcgStandard, lobpcgCheckInputs, if_neg (not_le.2 hn), h1, iter_count]
    rfl
  · intro h0 hR
    have hinv := iter_inv K hK eps A hA (tol.getD eps) X0 hn h0 i hR
    refine ⟨hinv.1, fun hpos => ?_⟩
    obtain ⟨l, rfl⟩ : ∃ l, i = l + 1 := ⟨i - 1, by omega⟩
    have hl := iter_inv K hK eps A hA (tol.getD eps) X0 hn h0 l fun l' hl' => hR l' (by omega)
    obtain ⟨_, s2, s3, _⟩ := step_spec K hK eps A hA (tol.getD eps) _ hl (hR l (by omega))
    rw [← lobpcgIter_succ] at s2 s3
    refine ⟨by rw [Matrix.mul_assoc]; exact s2, s3, ?_⟩
    intro lo hi' hq j
    have hq1 := hq fun r => (lobpcgIter K eps A (tol.getD eps) X0 (l + 1)).X r j
    have e1 : (fun r => (lobpcgIter K eps A (tol.getD eps) X0 (l + 1)).X r j) ⬝ᵥ
        (fun r => (lobpcgIter K eps A (tol.getD eps) X0 (l + 1)).X r j) = 1 := by
      have := congrFun (congrFun hinv.1 j) j
      rw [Matrix.one_apply_eq] at this
      exact this
    have e2 : (fun r => (lobpcgIter K eps A (tol.getD eps) X0 (l + 1)).X r j) ⬝ᵥ
        (A *ᵥ fun r => (lobpcgIter K eps A (tol.getD eps) X0 (l + 1)).X r j) =
        (lobpcgIter K eps A (tol.getD eps) X0 (l + 1)).theta j := by
      have := congrFun (congrFun s2 j) j
      rw [Matrix.diagonal_apply_eq] at this
      exact this
    rw [e1, e2] at hq1
    constructor <;> linarith [hq1.1, hq1.2]

/-- **C48 (stopping).** If the solver stops before the iteration limit, every returned pair has a small residual:
`‖A u_j − S_j u_j‖ < tol · 10 n (‖A u_j‖ + S_j)`; the limit is never exceeded. (No assumption on the operator or the kernels; `tol=None`
means the machine epsilon.) -/
theorem C48_stopping [NeZero k] (K : Kernels) (eps : ℝ) (A : Mat n n) (X0 : Mat n k) (m : ℕ) (tol : Option ℝ)
    (S : Vec k) (U : Mat n k) (i : ℕ) (h : lobpcgStandard K eps (fun v => A *ᵥ v) X0 m tol = .ok (S, U, i)) :
    i ≤ m ∧ (i < m → ∀ j, colLength (A * U - U * Matrix.diagonal S) j <
      tol.getD eps * ((colLength (A * U) j + S j) * n * 10)) := by
  have hn : ¬ n ≤ k * 5 := by
    intro hn
    simp only [lobpcgStandard, lobpcgCheckInputs, if_pos hn] at h
    cases h
  obtain ⟨l, hl, h1, h2⟩ := loop_iter K eps (fun v => A *ᵥ v) (tol.getD eps) m (lobpcgInit K eps (fun v => A *ᵥ v) X0)
  change lobpcgLoop _ _ _ _ _ _ = lobpcgIter K eps A (tol.getD eps) X0 l at h1
  change l < m → ¬ (lobpcgIter K eps A (tol.getD eps) X0 l).converged < k at h2
  simp only [lobpcgStandard, lobpcgCheckInputs, if_neg hn, h1, ok_bind] at h
  obtain ⟨rfl, rfl, rfl⟩ : S = (lobpcgIter K eps A (tol.getD eps) X0 l).theta ∧ U = (lobpcgIter K eps A (tol.getD eps) X0 l).X ∧
      i = (lobpcgIter K eps A (tol.getD eps) X0 l).i := by
    cases h; exact ⟨rfl, rfl, rfl⟩
  rw [iter_count]
  refine ⟨hl, fun hlt j => ?_⟩
  have h3 := h2 hlt
  obtain ⟨l', rfl⟩ : ∃ l', l = l' + 1 := by
    refine ⟨l - 1, ?_⟩
    rcases Nat.eq_zero_or_pos l with rfl | h
    · exact absurd (Nat.pos_of_ne_zero (NeZero.ne k)) h3
    · omega
  have hc : ∀ s : LobpcgState n k, (lobpcgStep K eps (fun v => A *ᵥ v) (tol.getD eps) s).converged =
      (Finset.univ.filter fun j => colNorm (lobpcgStep K eps (fun v => A *ᵥ v) (tol.getD eps) s).R j <
        tol.getD eps * ((colNorm (A * (lobpcgStep K eps (fun v => A *ᵥ v) (tol.getD eps) s).X) j +
          (lobpcgStep K eps (fun v => A *ᵥ v) (tol.getD eps) s).theta j) * n * 10)).card := fun s => rfl
  have hR : ∀ s : LobpcgState n k, (lobpcgStep K eps (fun v => A *ᵥ v) (tol.getD eps) s).R =
      A * (lobpcgStep K eps (fun v => A *ᵥ v) (tol.getD eps) s).X - (lobpcgStep K eps (fun v => A *ᵥ v) (tol.getD eps) s).X *
        Matrix.diagonal (lobpcgStep K eps (fun v => A *ᵥ v) (tol.getD eps) s).theta := by
    intro s
    ext i j
    rw [Matrix.sub_apply, Matrix.mul_diagonal, mul_comm]
    rfl
  rw [lobpcgIter_succ] at h3 ⊢
  rw [hc, not_lt] at h3
  have hall : (Finset.univ.filter fun j => colNorm (lobpcgStep K eps (fun v => A *ᵥ v) (tol.getD eps) (lobpcgIter K eps A (tol.getD eps) X0 l')).R j <
        tol.getD eps * ((colNorm (A * (lobpcgStep K eps (fun v => A *ᵥ v) (tol.getD eps) (lobpcgIter K eps A (tol.getD eps) X0 l')).X) j +
          (lobpcgStep K eps (fun v => A *ᵥ v) (tol.getD eps) (lobpcgIter K eps A (tol.getD eps) X0 l')).theta j) * n * 10)) = Finset.univ := by
    apply Finset.eq_univ_of_card
    rw [Fintype.card_fin]
    exact le_antisymm (by simpa using Finset.card_filter_le (Finset.univ : Finset (Fin k)) _) h3
  have := (Finset.mem_filter.1 (hall ▸ Finset.mem_univ j)).2
  rw [hR] at this
  exact this

/-- **C48 (progress).** In a non-degenerate run, no Ritz value ever decreases: from the first iteration on, the `j`-th value after one
more iteration is at least the `j`-th value before it; and it never exceeds the `j`-th largest eigenvalue of the operator. -/
theorem C48_monotone_and_bounded [NeZero k] (K : Kernels) (hK : GoodKernels K) (eps : ℝ) (A : Mat n n) (hA : Aᵀ = A) (tol : ℝ)
    (X0 : Mat n k) (hn : k * 5 < n) (h0 : OrthonormalCols (orthonormalize K eps X0)) (i : ℕ) (hi : 0 < i)
    (hR : ∀ l < i + 1, ∀ j, ∃ r, searchBlock K eps (lobpcgIter K eps A tol X0 l) r j ≠ 0) (j : Fin k) :
    (lobpcgIter K eps A tol X0 i).theta j ≤ (lobpcgIter K eps A tol X0 (i + 1)).theta j ∧
    ∀ (w : Vec n) (V : Mat n n), Vᵀ * V = 1 → A = V * Matrix.diagonal w * Vᵀ → Antitone w →
      (lobpcgIter K eps A tol X0 (i + 1)).theta j ≤ w ⟨j, by omega⟩ := by
  have hinv := iter_inv K hK eps A hA tol X0 hn h0 i fun l hl => hR l (by omega)
  obtain ⟨l, rfl⟩ : ∃ l, i = l + 1 := ⟨i - 1, by omega⟩
  have hl := iter_inv K hK eps A hA tol X0 hn h0 l fun l' hl' => hR l' (by omega)
  obtain ⟨_, s2, s3, _⟩ := step_spec K hK eps A hA tol _ hl (hR l (by omega))
  rw [← lobpcgIter_succ] at s2 s3
  obtain ⟨t1, t2, t3, _⟩ := step_spec K hK eps A hA tol _ hinv (hR (l + 1) (by omega))
  have hS := basis_ortho K hK eps _ hinv (hR (l + 1) (by omega))
  obtain ⟨f1, f2, _⟩ := firstStep_spec K hK A hA (lobpcgIter K eps A tol X0 (l + 1)).X (lobpcgIter K eps A tol X0 (l + 1)).P
    (searchBlock K eps (lobpcgIter K eps A tol X0 (l + 1))) hS
  rw [lobpcgIter_succ K eps A tol X0 (l + 1)]
  generalize hs : lobpcgIter K eps A tol X0 (l + 1) = s at *
  -- quadratic form of a diagonal compression on the leading columns
  have hquad : ∀ (X : Mat n k) (θ : Vec k), Xᵀ * (A * X) = Matrix.diagonal θ → Antitone θ → ∀ c : Vec (j.val + 1),
      θ j * (c ⬝ᵥ c) ≤ ((Matrix.of fun r (a : Fin (j.val + 1)) => X r ⟨a, by omega⟩ : Mat n (j.val + 1)) *ᵥ c) ⬝ᵥ
        (A *ᵥ ((Matrix.of fun r (a : Fin (j.val + 1)) => X r ⟨a, by omega⟩ : Mat n (j.val + 1)) *ᵥ c)) := by
    intro X θ hX hθ c
    set F : Mat n (j.val + 1) := Matrix.of fun r (a : Fin (j.val + 1)) => X r ⟨a, by omega⟩ with hF
    have hFF : Fᵀ * (A * F) = Matrix.diagonal fun a : Fin (j.val + 1) => θ ⟨a, by omega⟩ := by
      ext a b
      have := congrFun (congrFun hX ⟨a, by omega⟩) ⟨b, by omega⟩
      rw [Matrix.diagonal_apply] at this ⊢
      simp only [Fin.ext_iff] at this ⊢
      rw [← this]
      simp only [Matrix.mul_apply, Matrix.transpose_apply, hF, Matrix.of_apply]
    rw [quad_compress, hFF, dotProduct, dotProduct, Finset.mul_sum]
    refine Finset.sum_le_sum fun a _ => ?_
    rw [Matrix.mulVec_diagonal]
    have := hθ (show (⟨a, by omega⟩ : Fin k) ≤ j from by show a.val ≤ j.val; omega)
    nlinarith [mul_self_nonneg (c a)]
  refine ⟨?_, ?_⟩
  · -- new Ritz values dominate the old ones
    set S := hcat s.X (hcat s.P (searchBlock K eps s)) with hSdef
    obtain ⟨e1, e2, e3, e4⟩ := eighAscending_spec K hK (Sᵀ * (A * S)) (compress_symm A hA S)
    have key := eig_lower (Sᵀ * (A * S)) (eighAscending K (Sᵀ * (A * S))).2 (eighAscending K (Sᵀ * (A * S))).1 e1 e3 e4
      (Fin.castAdd (k + k) j) (leadCols _ _) (leadCols_ortho (by show j.val + 1 ≤ _; omega)) (s.theta j) ?_
    · exact key
    · intro c
      have h5 := hquad s.X s.theta s2 s3 c
      have h6 := hcat_leadCols s.X (hcat s.P (searchBlock K eps s)) (c := j.val + 1) (by omega)
      rw [← h6, ← hSdef, ← Matrix.mulVec_mulVec, quad_compress] at h5
      exact h5
  · intro w V hV hAV hw
    refine eig_lower A V w hV hAV hw ⟨j, by omega⟩
      (Matrix.of fun r (a : Fin (j.val + 1)) => (lobpcgStep K eps (fun v => A *ᵥ v) tol s).X r ⟨a, by omega⟩) ?_ _ ?_
    · exact ortho_select t1.1 (fun a : Fin (j.val + 1) => (⟨a, by omega⟩ : Fin k)) (fun a b h => by
          simpa [Fin.ext_iff] using h)
    · exact hquad _ _ t2 t3

/-! ### The low-rank factors -/

/-- **C48 (low-rank factors).** In a non-degenerate run of the non-jitted solver on a symmetric operator, the returned factors satisfy:
`U` orthonormal, `Uᵀ A U = diag S`, `U diag(S) Uᵀ = (U Uᵀ) A (U Uᵀ)` (the compression of the operator to the span of `U`), `S` descending,
`S ≥ 0` for a positive semidefinite operator, and `scalar = 0`. -/
theorem C48_low_rank_terms [NeZero k] (K : Kernels) (hK : GoodKernels K) (eps : ℝ) (A : Mat n n) (hA : Aᵀ = A) (X0 : Mat n k)
    (tol : ℝ) (hn : k * 5 < n) (h0 : OrthonormalCols (orthonormalize K eps X0))
    (hR : ∀ l < k, ∀ j, ∃ r, searchBlock K eps (lobpcgIter K eps A tol X0 l) r j ≠ 0) :
    ∃ T, lobpcgLowrankTerms K eps (fun v => A *ᵥ v) X0 tol = .ok T ∧ OrthonormalCols T.U ∧
      T.Uᵀ * A * T.U = Matrix.diagonal T.S ∧ T.U * Matrix.diagonal T.S * T.Uᵀ = (T.U * T.Uᵀ) * A * (T.U * T.Uᵀ) ∧
      Antitone T.S ∧ ((∀ v : Vec n, 0 ≤ v ⬝ᵥ (A *ᵥ v)) → ∀ j, 0 ≤ T.S j) ∧ T.scalar = 0 := by
  obtain ⟨S, U, i, h1, h2, h3⟩ := C48_ritz_pairs K hK eps A hA X0 k (some tol) hn
  obtain ⟨h4, h5⟩ := h3 h0 fun l hl => hR l (by omega)
  have hi : 0 < i := by
    rcases Nat.eq_zero_or_pos i with rfl | h
    · exfalso
      have hk : 0 < k := Nat.pos_of_ne_zero (NeZero.ne k)
      obtain ⟨i', hi', g1, g2⟩ := loop_iter K eps (fun v => A *ᵥ v) tol k (lobpcgInit K eps (fun v => A *ᵥ v) X0)
      change lobpcgLoop _ _ _ _ _ _ = lobpcgIter K eps A tol X0 i' at g1
      simp only [lobpcgStandard, lobpcgCheckInputs, if_neg (not_le.2 hn), Option.getD_some, g1, ok_bind, iter_count] at h1
      obtain rfl : i' = 0 := by
        have := Except.ok.inj h1
        exact congrArg (fun x => x.2.2) this
      exact g2 hk (by show (0 : ℕ) < k; exact hk)
    · exact h
  obtain ⟨h6, h7, h8⟩ := h5 hi
  refine ⟨{ U := U, S := S, scalar := 0 }, ?_, h4, h6, ?_, h7, ?_, rfl⟩
  · simp only [lobpcgLowrankTerms, h1]; rfl
  · show U * Matrix.diagonal S * Uᵀ = _
    rw [← h6]; simp only [Matrix.mul_assoc]
  · intro hpsd j
    have hv : (fun r => U r j) ⬝ᵥ (A *ᵥ fun r => U r j) = S j := by
      have := congrFun (congrFun h6 j) j
      rw [Matrix.diagonal_apply_eq, Matrix.mul_assoc] at this
      exact this
    show 0 ≤ S j
    rw [← hv]; exact hpsd _

/-! ### A concrete non-degenerate run -/

theorem orthonormalize_single (K : Kernels) (hK : GoodKernels K) (eps : ℝ) (h0 : 0 ≤ eps) (h1 : eps < 1) (X : Mat n 1)
    (hX : ∃ i, X i 0 ≠ 0) : OrthonormalCols (orthonormalize K eps X) := by
  have hX' : ∀ j : Fin 1, ∃ i, X i j ≠ 0 := fun j => by rw [Subsingleton.elim j 0]; exact hX
  refine orthonormalize_ortho K hK eps h0 (by simpa using h1) X hX' ?_
  intro v hv
  have hn : colNorm X 0 ≠ 0 := fun e => by obtain ⟨i, hi⟩ := hX; exact hi ((colNorm_eq_zero X 0).1 e i)
  have ho : OrthonormalCols (svqbX1 X) := by
    unfold OrthonormalCols
    ext i j
    rw [Subsingleton.elim i 0, Subsingleton.elim j 0, normalise_zeroOrtho' X 0 hn, Matrix.one_apply_eq]
  rw [ortho_mulVec ho]
  have hpos : 0 < v ⬝ᵥ v := by
    rcases (show (0:ℝ) ≤ v ⬝ᵥ v from Finset.sum_nonneg fun i _ => mul_self_nonneg _).lt_or_eq with h | h
    · exact h
    · exact absurd (dotProduct_self_eq_zero.1 h.symm) hv
  simp only [Nat.cast_one, mul_one]
  nlinarith

/-- A first LOBPCG step on a `6 × 6` operator whose column 0 is supported on rows 0 and 2, with start block `e_0`: the search direction does
not vanish. -/
theorem first_search_block (K : Kernels) (hK : GoodKernels K) (tol : ℝ) (A : Mat 6 6) (hA0 : ∀ i, i ≠ 0 → i ≠ 2 → A i 0 = 0)
    (hA2 : A 2 0 ≠ 0) (X0 : Mat 6 1) (hX0 : X0 = Matrix.of fun i _ => if i = 0 then 1 else 0) :
    OrthonormalCols (orthonormalize K (1/2) X0) ∧
    ∀ l < 1, ∀ j, ∃ r, searchBlock K (1/2) (lobpcgIter K (1/2) A tol X0 l) r j ≠ 0 := by
  have ho : OrthonormalCols (orthonormalize K (1/2) X0) :=
    orthonormalize_single K hK _ (by norm_num) (by norm_num) X0 ⟨0, by simp [hX0]⟩
  refine ⟨ho, ?_⟩
  intro l hl j
  obtain rfl : l = 0 := by omega
  rw [Subsingleton.elim j 0]
  set s := lobpcgIter K (1/2) A tol X0 0 with hs
  have hinv : Inv s := init_inv K hK (1/2) _ X0 (by norm_num) ho
  have hXP := (hcat_ortho hinv.1 hinv.2.1 hinv.2.2).zeroOr
  -- `X` is supported on row 0
  have hX : ∀ i : Fin 6, i ≠ 0 → s.X i 0 = 0 := by
    intro i hi
    obtain ⟨C, hC⟩ := orthonormalize_span K (1/2) X0
    show orthonormalize K (1/2) X0 i 0 = 0
    rw [hC, Matrix.mul_apply]
    simp [hX0, hi]
  have hX1 : s.X 0 0 ^ 2 = 1 := by
    have := congrFun (congrFun hinv.1 0) 0
    rw [gram_apply, Fin.sum_univ_succ, Matrix.one_apply_eq] at this
    rw [Finset.sum_eq_zero (fun i _ => by rw [hX _ (Fin.succ_ne_zero i), zero_mul]), add_zero] at this
    rw [pow_two]; exact this
  -- `P` vanishes on row 2
  have hP : s.P 2 0 = 0 := by
    show extendBasis K (orthonormalize K (1/2) X0) 1 2 0 = 0
    obtain ⟨Xu, hXu, W, hW, he⟩ := extendBasis_eq K (orthonormalize K (1/2) X0) 1 (by norm_num : 1 + 1 ≤ 6)
    rw [he]
    have hW2 : W 2 0 = 0 := by
      rw [hW, Matrix.mul_apply]
      have h3 : orthonormalize K (1/2) X0 2 0 = 0 := hX 2 (by decide)
      simp [padRows]
      left; rw [← one_div]; exact h3
    rw [Matrix.sub_apply, Matrix.smul_apply, Matrix.mul_apply]
    simp [hW2, unitBlock]
  have hP0 : s.P 0 0 = 0 := by
    have := congrFun (congrFun hinv.2.2 0) 0
    rw [gram_apply, Fin.sum_univ_succ] at this
    rw [Finset.sum_eq_zero (fun i _ => by rw [hX _ (Fin.succ_ne_zero i), zero_mul]), add_zero] at this
    have hne : s.X 0 0 ≠ 0 := fun e => by rw [e] at hX1; norm_num at hX1
    exact (mul_eq_zero.1 this).resolve_left hne
  -- the residual is a multiple of `e_2`
  have hAX : ∀ i, (A * s.X) i 0 = A i 0 * s.X 0 0 := by
    intro i
    rw [Matrix.mul_apply, Finset.sum_eq_single 0]
    · intro b _ hb; rw [hX b hb, mul_zero]
    · simp
  have hth : s.theta 0 = A 0 0 := by
    show ∑ i, s.X i 0 * (A * s.X) i 0 = _
    rw [Finset.sum_eq_single 0]
    · rw [hAX]; linear_combination A 0 0 * hX1
    · intro b _ hb; rw [hX b hb, zero_mul]
    · simp
  have hRes : ∀ i, s.R i 0 = if i = 2 then A 2 0 * s.X 0 0 else 0 := by
    intro i
    show (A * s.X) i 0 - s.theta 0 * s.X i 0 = _
    rw [hth, hAX]
    by_cases h : i = 2
    · rw [h, hX 2 (by decide), mul_zero, sub_zero, if_pos rfl]
    · rw [if_neg h]
      by_cases h0 : i = 0
      · rw [h0, sub_self]
      · rw [hA0 i h0 h, hX i h0]; ring
  have hBR : (hcat s.X s.P)ᵀ * s.R = 0 := by
    ext i j
    rw [Subsingleton.elim j 0]
    refine Fin.addCases (fun i => ?_) (fun i => ?_) i
    · rw [(hcat_tmul _ _ _).1, gram_apply, Subsingleton.elim i 0]
      refine Finset.sum_eq_zero fun r _ => ?_
      rw [hRes]
      by_cases h : r = 2
      · rw [h, hX 2 (by decide), zero_mul]
      · rw [if_neg h, mul_zero]
    · rw [(hcat_tmul _ _ _).2, gram_apply, Subsingleton.elim i 0]
      refine Finset.sum_eq_zero fun r _ => ?_
      rw [hRes]
      by_cases h : r = 2
      · rw [h, hP, zero_mul]
      · rw [if_neg h, mul_zero]
  have hout := (projectOut_eq K hK (1/2) hXP s.R).1
  rw [projectOnce_of_orth hBR] at hout
  have h1 : OrthonormalCols (orthonormalize K (1/2) s.R) :=
    orthonormalize_single K hK _ (by norm_num) (by norm_num) s.R ⟨2, by
      rw [hRes, if_pos rfl]; refine mul_ne_zero hA2 fun e => ?_; rw [e] at hX1; norm_num at hX1⟩
  have hne : ∀ {U : Mat 6 1}, OrthonormalCols U → ∃ i, U i 0 ≠ 0 := by
    intro U hU
    by_contra hcon
    push Not at hcon
    have := hU.colNorm_one 0
    rw [(colNorm_eq_zero U 0).2 hcon] at this
    exact zero_ne_one this
  have h2 := orthonormalize_single K hK (1/2) (by norm_num) (by norm_num) _ (hne h1)
  show ∃ r, projectOut K (1/2) (hcat s.X s.P) s.R r 0 ≠ 0
  rw [hout]
  exact hne h2

/-- The hypotheses of `C48_ritz_pairs`, `C48_monotone_and_bounded` (first step) and `C48_low_rank_terms` are met by a run on a
`6 × 6` operator with `k = 1`, for all admissible kernels: the operator swaps the coordinates 0 and 2, the start block is `e_0`. -/
example (K : Kernels) (hK : GoodKernels K) (tol : ℝ) :
    let A : Mat 6 6 := Matrix.of fun i j => if (i = 0 ∧ j = 2) ∨ (i = 2 ∧ j = 0) then 1 else 0
    let X0 : Mat 6 1 := Matrix.of fun i _ => if i = 0 then 1 else 0
    Aᵀ = A ∧ OrthonormalCols (orthonormalize K (1/2) X0) ∧
    ∀ l < 1, ∀ j, ∃ r, searchBlock K (1/2) (lobpcgIter K (1/2) A tol X0 l) r j ≠ 0 := by
  intro A X0
  have hA : Aᵀ = A := by
    ext i j; simp only [A, Matrix.transpose_apply, Matrix.of_apply]; congr 1; simp only [eq_iff_iff]; tauto
  exact ⟨hA, first_search_block K hK tol A (fun i h0 h2 => by simp [A, h0, h2]) (by simp [A]) X0 rfl⟩

/-! ### Degenerate inputs -/

/-- **C48 (finding: a usable column is lost).** The mask that removes unusable columns compares eigenvalue `j` with the norm of *input
column* `j`.  For a block whose first column is zero and whose second column is a unit vector, the result is the zero block for all
admissible kernels and machine epsilons: the direction of the second column is lost. -/
theorem C48_zero_column_loses_direction (K : Kernels) (hK : GoodKernels K) (eps : ℝ) (h0 : 0 ≤ eps) (e : Vec n)
    (he : e ⬝ᵥ e = 1) : svqb K eps (Matrix.of fun i (j : Fin 2) => if j = 0 then 0 else e i) = 0 := by
  set X : Mat n 2 := Matrix.of fun i (j : Fin 2) => if j = 0 then 0 else e i with hX
  have hc0 : colNorm X 0 = 0 := (colNorm_eq_zero X 0).2 fun i => by simp [hX]
  have hc1 : colNorm X 1 = 1 := by
    have : ∑ i, X i 1 ^ 2 = 1 := by rw [← he]; simp [hX, dotProduct, pow_two]
    rw [colNorm, this, Real.sqrt_one]
  have hX1 : svqbX1 X = X := by
    ext i j
    fin_cases j
    · simp [svqbX1, hc0]
    · simp [svqbX1, hc1]
  have hG : (svqbX1 X)ᵀ * svqbX1 X = Matrix.diagonal ![0, 1] := by
    rw [hX1]
    ext i j
    rw [gram_apply]
    fin_cases i <;> fin_cases j <;> simp [hX]
    simpa [dotProduct] using he
  obtain ⟨e1, e2, e3, e4⟩ := eighAscending_spec K hK ((svqbX1 X)ᵀ * svqbX1 X) (gram_symm _)
  change Antitone (svqbE K X).1 at e4
  change (svqbE K X).2ᵀ * (svqbE K X).2 = 1 at e1
  change _ = (svqbE K X).2 * Matrix.diagonal (svqbE K X).1 * (svqbE K X).2ᵀ at e3
  have hdet : (svqbE K X).1 0 * (svqbE K X).1 1 = 0 := by
    have h1 := congrArg Matrix.det e3
    have h2 := congrArg Matrix.det e1
    rw [hG, Matrix.det_mul, Matrix.det_mul, Matrix.det_diagonal, Matrix.det_diagonal, Fin.prod_univ_two, Fin.prod_univ_two,
      Matrix.det_transpose] at h1
    rw [Matrix.det_mul, Matrix.det_transpose, Matrix.det_one] at h2
    simp only [Matrix.cons_val_zero, zero_mul] at h1
    have : (svqbE K X).1 0 * (svqbE K X).1 1 = (svqbE K X).2.det * ((svqbE K X).1 0 * (svqbE K X).1 1) * (svqbE K X).2.det := by
      calc _ = (svqbE K X).1 0 * (svqbE K X).1 1 * ((svqbE K X).2.det * (svqbE K X).2.det) := by rw [h2, mul_one]
        _ = _ := by ring
    rw [this, ← h1]
  have htr : (svqbE K X).1 0 + (svqbE K X).1 1 = 1 := by
    have h1 := congrArg Matrix.trace e3
    rw [hG, Matrix.mul_assoc, Matrix.trace_mul_comm, Matrix.mul_assoc, e1, Matrix.mul_one] at h1
    simp [Matrix.trace, Fin.sum_univ_two] at h1
    linarith
  have hle : (svqbE K X).1 1 ≤ (svqbE K X).1 0 := e4 (by decide)
  have hw1 : (svqbE K X).1 1 = 0 := by
    rcases mul_eq_zero.1 hdet with h | h
    · linarith
    · exact h
  have hw0 : (svqbE K X).1 0 = 1 := by linarith
  have hk : ∀ j, ¬ svqbKeep K eps X j := by
    intro j hj
    fin_cases j
    · have := hj.2; rw [hG] at this; simp at this
    · have := hj.1
      simp only [svqbTau, hw0, mul_one] at this
      change (svqbE K X).1 1 > eps at this
      linarith
  rw [svqb_eq]
  ext i j
  simp [svqbY, hk j]

example : ∃ e : Vec 3, e ⬝ᵥ e = 1 := ⟨![1, 0, 0], by simp [dotProduct, Fin.sum_univ_succ]⟩

end Laplax.Props
