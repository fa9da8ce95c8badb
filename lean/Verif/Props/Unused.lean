import Verif.Props.InvarianceEvidence
import Verif.Spec.Unused

/-! # C70: parameters that the model does not use keep their prior and change no prediction -/

namespace Laplax.Props
open Laplax Spec
open scoped BigOperators Matrix

variable {p q c : ℕ} {A X Y K : Type}

/-- The 0/1 matrix that reads the entries at the positions `ι`. -/
def readMat (ι : Fin p → Fin q) : Matrix (Fin p) (Fin q) ℝ := Matrix.of fun i j => if j = ι i then 1 else 0

theorem readMat_mulVec (ι : Fin p → Fin q) (v : Vec q) : readMat ι *ᵥ v = v ∘ ι := by
  funext i
  simp [readMat, Matrix.mulVec, dotProduct]

theorem readMat_mul_transpose {ι : Fin p → Fin q} (hι : Function.Injective ι) : readMat ι * (readMat ι)ᵀ = 1 := by
  ext i j
  simp only [readMat, Matrix.mul_apply, Matrix.transpose_apply, Matrix.of_apply, Matrix.one_apply]
  by_cases h : i = j
  · subst h; simp
  · have : ι j ≠ ι i := fun e => h (hι e.symm)
    simp [h, this]

theorem readMat_unused {ι : Fin p → Fin q} {j : Fin q} (hj : Unused ι j) : readMat ι *ᵥ Pi.single j 1 = 0 := by
  rw [readMat_mulVec]
  funext i
  simp [hj i]

theorem jacobian_reading (f : Vec p → Vec c) {ι : Fin p → Fin q} (hι : Function.Injective ι) (w : Vec q) :
    jacobian (fun v : Vec q => f (v ∘ ι)) w = jacobian f (w ∘ ι) * readMat ι := by
  let L : Vec q →L[ℝ] Vec p := LinearMap.toContinuousLinearMap (Matrix.toLin' (readMat ι))
  let R : Vec p →L[ℝ] Vec q := LinearMap.toContinuousLinearMap (Matrix.toLin' (readMat ι)ᵀ)
  have hL : ∀ v, L v = v ∘ ι := fun v => by
    show Matrix.toLin' (readMat ι) v = _
    rw [Matrix.toLin'_apply, readMat_mulVec]
  have hLR : ∀ v, L (R v) = v := fun v => by
    show Matrix.toLin' (readMat ι) (Matrix.toLin' (readMat ι)ᵀ v) = _
    rw [Matrix.toLin'_apply, Matrix.toLin'_apply, Matrix.mulVec_mulVec, readMat_mul_transpose hι, Matrix.one_mulVec]
  have hf : (fun v : Vec q => f (v ∘ ι)) = f ∘ L := by funext v; rw [Function.comp, hL]
  by_cases hd : DifferentiableAt ℝ f (L w)
  · ext i j
    rw [jacobian, hf, Matrix.of_apply, fderiv_comp _ hd L.differentiableAt, L.fderiv]
    show (fderiv ℝ f (L w)) (L (Pi.single j 1)) i = _
    rw [hL, hL]
    have h2 : (Pi.single j 1 : Vec q) ∘ ι = ∑ m, (if j = ι m then (1 : ℝ) else 0) • (Pi.single m 1 : Vec p) := by
      funext k
      rw [Finset.sum_apply]
      simp [Pi.single_apply, eq_comm]
    rw [h2, map_sum, Finset.sum_apply, Matrix.mul_apply]
    refine Finset.sum_congr rfl fun m _ => ?_
    rw [map_smul, Pi.smul_apply, smul_eq_mul]
    simp only [jacobian, readMat, Matrix.of_apply]
    ring
  · have hd' : ¬ DifferentiableAt ℝ (f ∘ L) w := by
      intro h
      apply hd
      have e : f = fun v => (f ∘ L) (w + R (v - L w)) := by
        funext v
        rw [Function.comp, map_add, hLR, add_sub_cancel]
      have e0 : w + R (L w - L w) = w := by rw [sub_self, map_zero, add_zero]
      rw [e]
      refine DifferentiableAt.comp (g := f ∘ L) (f := fun v => w + R (v - L w)) (L w) (by rw [e0]; exact h) ?_
      exact (R.differentiableAt.comp (L w) (differentiableAt_id.sub_const _)).const_add w
    have z1 : jacobian (fun v : Vec q => f (v ∘ ι)) w = 0 := by
      ext i j
      rw [jacobian, hf, Matrix.of_apply, fderiv_zero_of_not_differentiableAt hd']; rfl
    have z2 : jacobian f (w ∘ ι) = 0 := by
      ext i j
      rw [hL] at hd
      rw [jacobian, Matrix.of_apply, fderiv_zero_of_not_differentiableAt hd]; rfl
    rw [z1, z2, Matrix.zero_mul]

theorem ggn_reading (f : X → Vec p → Vec c) {ι : Fin p → Fin q} (hι : Function.Injective ι) (w : Vec q) (H : Vec c → Vec c → Y → Vec c)
    (ss : List (X × Y)) (v : Vec q) :
    ggnSamples (fun x w => f x (w ∘ ι)) w H ss v = (readMat ι)ᵀ *ᵥ ggnSamples f (w ∘ ι) H ss (readMat ι *ᵥ v) := by
  induction ss with
  | nil => simp [ggnSamples]
  | cons s ss ih =>
    simp only [ggnSamples, List.map_cons, List.sum_cons] at ih ⊢
    rw [ih, jacobian_reading (f s.1) hι w, Matrix.mulVec_add, Matrix.transpose_mul, ← Matrix.mulVec_mulVec, ← Matrix.mulVec_mulVec]

theorem matrix_reading {f : X → Vec p → Vec c} {ι : Fin p → Fin q} (hι : Function.Injective ι) {w : Vec q} {H : Vec c → Vec c → Y → Vec c}
    {ss : List (X × Y)} {r : ℝ} {G : Matrix (Fin p) (Fin p) ℝ} {G' : Matrix (Fin q) (Fin q) ℝ}
    (h : ∀ v, G *ᵥ v = r • ggnSamples f (w ∘ ι) H ss v)
    (h' : ∀ v, G' *ᵥ v = r • ggnSamples (fun x w => f x (w ∘ ι)) w H ss v) : G' = (readMat ι)ᵀ * G * readMat ι := by
  apply Matrix.toLin'.injective
  apply LinearMap.ext; intro v
  rw [Matrix.toLin'_apply, Matrix.toLin'_apply, h', ggn_reading f hι w H ss, ← Matrix.mulVec_mulVec, ← Matrix.mulVec_mulVec, h,
    Matrix.mulVec_smul]

/-- Diagonal matrices are read as diagonal matrices. -/
theorem diag_reading {ι : Fin p → Fin q} (hι : Function.Injective ι) (G : Matrix (Fin p) (Fin p) ℝ) :
    Matrix.diagonal (fun j => ((readMat ι)ᵀ * G * readMat ι) j j) = (readMat ι)ᵀ * Matrix.diagonal (fun i => G i i) * readMat ι := by
  have key : ∀ (M : Matrix (Fin p) (Fin p) ℝ) (i j : Fin q),
      ((readMat ι)ᵀ * M * readMat ι) i j = ∑ b, ∑ a, (if i = ι a then 1 else 0) * M a b * (if j = ι b then 1 else 0) := by
    intro M i j
    rw [Matrix.mul_apply]
    refine Finset.sum_congr rfl fun b _ => ?_
    rw [Matrix.mul_apply, Finset.sum_mul]
    rfl
  ext i j
  rw [key, Matrix.diagonal_apply]
  by_cases hij : i = j
  · subst hij
    rw [if_pos rfl, key]
    refine Finset.sum_congr rfl fun b _ => Finset.sum_congr rfl fun a _ => ?_
    by_cases ha : i = ι a <;> by_cases hb : i = ι b
    · have : a = b := hι (ha ▸ hb)
      subst this; simp
    all_goals first | (rw [if_neg ha]; simp; done) | (rw [if_neg hb]; simp; done)
  · rw [if_neg hij]
    symm
    refine Finset.sum_eq_zero fun b _ => Finset.sum_eq_zero fun a _ => ?_
    by_cases ha : i = ι a <;> by_cases hb : j = ι b
    · have : a ≠ b := fun e => hij (by rw [ha, hb, e])
      simp [Matrix.diagonal_apply, this]
    all_goals first | (rw [if_neg ha]; simp; done) | (rw [if_neg hb]; simp; done)

variable {ι : Fin p → Fin q}

theorem precision_reading (hι : Function.Injective ι) (G : Matrix (Fin p) (Fin p) ℝ) (τ σ s : ℝ) :
    precision ((readMat ι)ᵀ * G * readMat ι) τ σ s * (readMat ι)ᵀ = (readMat ι)ᵀ * precision G τ σ s := by
  have hE := readMat_mul_transpose hι
  simp only [precision]
  rw [Matrix.smul_mul, Matrix.mul_smul, Matrix.add_mul, Matrix.mul_add, Matrix.smul_mul, Matrix.mul_smul, Matrix.smul_mul, Matrix.mul_smul,
    Matrix.mul_assoc _ (readMat ι), hE, Matrix.mul_one, Matrix.one_mul, Matrix.mul_one]

/-- `J E (P')⁻¹ Eᵀ Jᵀ = J P⁻¹ Jᵀ`. -/
theorem inv_reading (hι : Function.Injective ι) {P : Matrix (Fin p) (Fin p) ℝ} {P' : Matrix (Fin q) (Fin q) ℝ} (hP : IsUnit P.det)
    (hP' : IsUnit P'.det) (h : P' * (readMat ι)ᵀ = (readMat ι)ᵀ * P) : readMat ι * P'⁻¹ * (readMat ι)ᵀ = P⁻¹ := by
  have hE := readMat_mul_transpose hι
  have : P'⁻¹ * (readMat ι)ᵀ = (readMat ι)ᵀ * P⁻¹ := by
    have h1 : P'⁻¹ * (P' * (readMat ι)ᵀ) * P⁻¹ = P'⁻¹ * ((readMat ι)ᵀ * P) * P⁻¹ := by rw [h]
    rw [← Matrix.mul_assoc, Matrix.nonsing_inv_mul _ hP', Matrix.one_mul, ← Matrix.mul_assoc, Matrix.mul_assoc _ P, Matrix.mul_nonsing_inv _ hP,
      Matrix.mul_one] at h1
    exact h1.symm
  rw [Matrix.mul_assoc, this, ← Matrix.mul_assoc, hE, Matrix.one_mul]

theorem covAt_reading (f : X → Vec p → Vec c) (hι : Function.Injective ι) (w : Vec q) {P : Matrix (Fin p) (Fin p) ℝ} {P' : Matrix (Fin q) (Fin q) ℝ}
    (hP : IsUnit P.det) (hP' : IsUnit P'.det) (h : P' * (readMat ι)ᵀ = (readMat ι)ᵀ * P) (x : X) :
    covAt (fun x w => f x (w ∘ ι)) w P' x = covAt f (w ∘ ι) P x := by
  rw [covAt, covAt, jacobian_reading (f x) hι w, ← inv_reading hι hP hP' h, Matrix.transpose_mul]
  simp only [Matrix.mul_assoc]

/-- The determinant of the larger precision: the unused parameters contribute their prior precision. -/
theorem det_reading (hι : Function.Injective ι) (G : Matrix (Fin p) (Fin p) ℝ) {τ σ s : ℝ} (hτ : 0 < τ) (hs : 0 < s) :
    (precision ((readMat ι)ᵀ * G * readMat ι) τ σ s).det = (τ / s) ^ (q - p) * (precision G τ σ s).det := by
  have hE := readMat_mul_transpose hι
  have hpq : p ≤ q := by simpa using Fintype.card_le_of_injective ι hι
  have hts : τ / s ≠ 0 := (div_pos hτ hs).ne'
  have e1 : precision ((readMat ι)ᵀ * G * readMat ι) τ σ s = (τ / s) • (1 + (readMat ι)ᵀ * (((σ / τ) • G) * readMat ι)) := by
    simp only [precision]
    rw [smul_add, smul_smul, smul_add, smul_smul, add_comm, Matrix.smul_mul, Matrix.mul_smul, smul_smul, Matrix.mul_assoc]
    congr 2 <;> field_simp
  have e2 : precision G τ σ s = (τ / s) • (1 + (((σ / τ) • G) * readMat ι) * (readMat ι)ᵀ) := by
    simp only [precision]
    rw [Matrix.mul_assoc, hE, Matrix.mul_one, smul_add, smul_smul, smul_add, smul_smul, add_comm, smul_smul]
    congr 2 <;> field_simp
  rw [e1, e2, Matrix.det_smul, Matrix.det_smul, Matrix.det_one_add_mul_comm, Fintype.card_fin, Fintype.card_fin, ← mul_assoc, ← pow_add,
    Nat.sub_add_cancel hpq]

theorem targetPrecision_dense (est : CurvEstimate p) (h : ∀ r (t : LowRankTerms p r), est ≠ .lowRank t) (τ σ s : ℝ) :
    targetPrecision τ σ s est = precision (curvOf est) τ σ s := by
  cases est with
  | full G => rfl
  | diagonal d => rfl
  | lowRank t => exact absurd rfl (h _ t)

/-- The estimates for the two models. -/
theorem estimate_reading (hι : Function.Injective ι) (G : Matrix (Fin p) (Fin p) ℝ) {k : LaplaceKind p} {k' : LaplaceKind q} (hk : SameKind k k') :
    ∃ est est', EstimateFrom G k est ∧ EstimateFrom ((readMat ι)ᵀ * G * readMat ι) k' est' ∧
      curvOf est' = (readMat ι)ᵀ * curvOf est * readMat ι ∧
      (∀ r (t : LowRankTerms p r), est ≠ .lowRank t) ∧ (∀ r (t : LowRankTerms q r), est' ≠ .lowRank t) ∧
      (∀ e, EstimateFrom G k e → e = est) ∧ ∀ e, EstimateFrom ((readMat ι)ᵀ * G * readMat ι) k' e → e = est' := by
  rcases hk with ⟨rfl, rfl⟩ | ⟨rfl, rfl⟩
  · refine ⟨.full G, .full _, Or.inl ⟨rfl, rfl⟩, Or.inl ⟨rfl, rfl⟩, rfl, by simp, by simp, ?_, ?_⟩ <;>
      · rintro e (⟨-, h⟩ | ⟨h, -⟩ | ⟨r, a, t, h, -⟩)
        · exact h
        · cases h
        · cases h
  · refine ⟨.diagonal fun i => G i i, .diagonal fun j => ((readMat ι)ᵀ * G * readMat ι) j j, Or.inr (Or.inl ⟨rfl, rfl⟩),
      Or.inr (Or.inl ⟨rfl, rfl⟩), diag_reading hι G, by simp, by simp, ?_, ?_⟩ <;>
      · rintro e (⟨h, -⟩ | ⟨-, h⟩ | ⟨r, a, t, h, -⟩)
        · cases h
        · exact h
        · cases h

/-- The covariances of the two posteriors. -/
theorem cov_reading (hι : Function.Injective ι) {C : Matrix (Fin p) (Fin p) ℝ} {τ σ s : ℝ} (hτ : 0 < τ) (hs : 0 < s)
    (hP : IsUnit (precision C τ σ s).det) (hP' : IsUnit (precision ((readMat ι)ᵀ * C * readMat ι) τ σ s).det) :
    (∀ j, Unused ι j → (precision ((readMat ι)ᵀ * C * readMat ι) τ σ s)⁻¹ *ᵥ Pi.single j 1 = Pi.single j (s / τ)) ∧
    ∀ v : Vec q, (∀ j, Unused ι j → v j = 0) →
      ((precision ((readMat ι)ᵀ * C * readMat ι) τ σ s)⁻¹ *ᵥ v) ∘ ι = (precision C τ σ s)⁻¹ *ᵥ (v ∘ ι) ∧
      ∀ j, Unused ι j → ((precision ((readMat ι)ᵀ * C * readMat ι) τ σ s)⁻¹ *ᵥ v) j = 0 := by
  have hE := readMat_mul_transpose hι
  have h1 := precision_reading hι C τ σ s
  have hunit : ∀ j, Unused ι j → precision ((readMat ι)ᵀ * C * readMat ι) τ σ s *ᵥ Pi.single j (s / τ) = Pi.single j 1 := by
    intro j hj
    have e : (Pi.single j (s / τ) : Vec q) = (s / τ) • Pi.single j 1 := by
      funext k; by_cases hk : k = j <;> simp [Pi.single_apply, hk]
    rw [e, Matrix.mulVec_smul, precision, Matrix.smul_mulVec, Matrix.add_mulVec, Matrix.smul_mulVec, Matrix.smul_mulVec, ← Matrix.mulVec_mulVec,
      readMat_unused hj, Matrix.mulVec_zero, smul_zero, zero_add, Matrix.one_mulVec, smul_smul, smul_smul]
    have : s / τ * (s⁻¹ * τ) = 1 := by field_simp
    rw [← mul_assoc] at this
    rw [mul_assoc, mul_comm] 
    rw [show s⁻¹ * τ * (s / τ) = 1 by field_simp, one_smul]
  have hsupp : ∀ v : Vec q, (∀ j, Unused ι j → v j = 0) → (readMat ι)ᵀ *ᵥ (v ∘ ι) = v := by
    intro v hv
    funext j
    simp only [Matrix.mulVec, dotProduct, Matrix.transpose_apply, readMat, Matrix.of_apply]
    by_cases hj : Unused ι j
    · rw [hv j hj]
      refine Finset.sum_eq_zero fun i _ => ?_
      rw [if_neg fun h => hj i h.symm, zero_mul]
    · simp only [Unused, not_forall, not_not] at hj
      obtain ⟨i, rfl⟩ := hj
      rw [Finset.sum_eq_single i]
      · simp
      · intro b _ hb
        rw [if_neg fun h => hb (hι h.symm), zero_mul]
      · simp
  have hinv : ∀ u : Vec p, (precision ((readMat ι)ᵀ * C * readMat ι) τ σ s)⁻¹ *ᵥ ((readMat ι)ᵀ *ᵥ u) =
      (readMat ι)ᵀ *ᵥ ((precision C τ σ s)⁻¹ *ᵥ u) := by
    intro u
    have h2 : precision ((readMat ι)ᵀ * C * readMat ι) τ σ s *ᵥ ((readMat ι)ᵀ *ᵥ ((precision C τ σ s)⁻¹ *ᵥ u)) = (readMat ι)ᵀ *ᵥ u := by
      rw [Matrix.mulVec_mulVec, h1, Matrix.mulVec_mulVec, Matrix.mul_assoc, Matrix.mul_nonsing_inv _ hP, Matrix.mul_one]
    rw [← h2, Matrix.mulVec_mulVec, Matrix.nonsing_inv_mul _ hP', Matrix.one_mulVec]
  refine ⟨fun j hj => ?_, fun v hv => ⟨?_, fun j hj => ?_⟩⟩
  · rw [← hunit j hj, Matrix.mulVec_mulVec, Matrix.nonsing_inv_mul _ hP', Matrix.one_mulVec]
  · conv_lhs => rw [← hsupp v hv]
    rw [hinv, ← readMat_mulVec, Matrix.mulVec_mulVec, hE, Matrix.one_mulVec]
  · conv_lhs => rw [← hsupp v hv]
    rw [hinv]
    simp only [Matrix.mulVec, dotProduct, Matrix.transpose_apply, readMat, Matrix.of_apply]
    refine Finset.sum_eq_zero fun i _ => ?_
    rw [if_neg fun h => hj i h.symm, zero_mul]

end Laplax.Props
