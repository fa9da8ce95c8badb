import Verif.Spec.SearchQuality
import Verif.Props.PriorLimits
import Verif.Props.UnusedWorkflow
import Mathlib.Analysis.SpecialFunctions.Log.Base

/-! # C76: how good the prior precision found by calibration is -/

namespace Laplax.Props
open Laplax Spec Filter Topology
open scoped BigOperators Matrix

variable {p c : ℕ} {A X K : Type}

/-- In a single valley, the first minimum found under patience is the first minimum of all. -/
theorem valley_min {R : Type} [LinearOrder R] {s : ℕ → R} {len n i : ℕ} (hv : SingleValley s len) {pat : Int} (hp : 1 ≤ pat)
    (hn : n ≤ len) (hstop : MustStop s len (some pat) none n) (hi : IsFirstMin s n i) : IsFirstMin s len i := by
  rcases hstop with rfl | ⟨p', hp', h2, h3, h4⟩ | ⟨m, hm, -⟩
  · exact hi
  · cases hp'
    have hpt : 1 ≤ pat.toNat := by omega
    obtain ⟨a1, a2, a3⟩ := hi
    have hinc : s (n - 2) < s (n - 2 + 1) := h4 (n - 2) (by omega) (by omega)
    refine ⟨by omega, fun j hj => ?_, a3⟩
    rcases Nat.lt_or_ge j n with hjn | hjn
    · exact a2 j hjn
    · have h5 : s (n - 2 + 1) ≤ max (s (n - 2)) (s j) := hv (n - 2) (n - 2 + 1) j (by omega) (by omega) hj
      rcases le_max_iff.1 h5 with h6 | h6
      · exact absurd hinc (not_lt.2 h6)
      · exact (a2 (n - 2 + 1) (by omega)).trans h6
  · cases hm

theorem firstMin_unique {R : Type} [LinearOrder R] {s : ℕ → R} {n i j : ℕ} (hi : IsFirstMin s n i) (hj : IsFirstMin s n j) : i = j := by
  rcases lt_trichotomy i j with h | h | h
  · exact absurd (hj.2.2 i h) (not_lt.2 (hi.2.1 j hj.1))
  · exact h
  · exact absurd (hi.2.2 j h) (not_lt.2 (hj.2.1 i hi.1))

/-- **C76 (patience is harmless in a single valley).** For every list of candidates, every objective whose scores (NaN and `ValueError` counted
as the largest score) fall and then rise, and every patience of at least 1: `grid_search` with that patience returns the same candidate as without
— the first best of all — after trying a prefix of the candidates. -/
theorem C76_patience_single_valley {P R : Type} [LinearOrder R] [Top R] (obj : P → ObjRes R) (pat : Int) (hp : 1 ≤ pat) (xs : List P)
    (hne : xs ≠ []) (s : ℕ → R) (hs : ∀ j (h : j < xs.length), evalObjective (obj xs[j]) = .ok (s j)) (hv : SingleValley s xs.length) :
    ∃ q n, gridSearch xs obj (some pat) none = .ok (q, xs.take n) ∧ gridSearch xs obj none none = .ok (q, xs) := by
  obtain ⟨n, i, hi, h1, h2, h3, -, h5, h6⟩ := C28_grid_search obj (some pat) none xs hne s hs
  obtain ⟨j, hj, g1, g2⟩ := C28_unlimited obj xs hne s hs
  have e : i = j := firstMin_unique (valley_min hv hp h2 h3 h5) g1
  subst e
  exact ⟨_, n, h6, g2⟩

/-- **C76 (patience can miss the best).** Without the single-valley assumption no patience is safe: for every patience `k ≥ 1` there are scores on
`k + 2` candidates for which the search stops early and returns a candidate that is not the best. -/
theorem C76_patience_can_miss (k : ℕ) (hk : 1 ≤ k) :
    ∃ (obj : ℕ → ObjRes (WithTop ℝ)) (s : ℕ → ℝ), (∀ j, obj j = .num (s j)) ∧
      gridSearch (List.range (k + 2)) obj (some k) none = .ok (0, List.range (k + 1)) ∧
      gridSearch (List.range (k + 2)) obj none none = .ok (k + 1, List.range (k + 2)) ∧ s (k + 1) < s 0 := by
  refine ⟨fun j => .num ((if j ≤ k then (j : ℝ) else -1 : ℝ) : WithTop ℝ), fun j => if j ≤ k then (j : ℝ) else -1, fun j => rfl, ?_, ?_, ?_⟩
  · obtain ⟨n, i, hi, h1, h2, h3, h4, h5, h6⟩ := C28_grid_search (R := WithTop ℝ)
      (fun j : ℕ => .num ((if j ≤ k then (j : ℝ) else -1 : ℝ) : WithTop ℝ)) (some k) none (List.range (k + 2)) (by simp)
      (fun j => ((if j ≤ k then (j : ℝ) else -1 : ℝ) : WithTop ℝ)) (fun j hj => by simp [evalObjective])
    have hstop : MustStop (fun j : ℕ => ((if j ≤ k then (j : ℝ) else -1 : ℝ) : WithTop ℝ)) (List.range (k + 2)).length (some (k : Int)) none (k + 1) := by
      refine Or.inr (Or.inl ⟨k, rfl, by omega, by simp, fun i hi hi' => ?_⟩)
      have e1 : i ≤ k := by omega
      have e2 : i + 1 ≤ k := by omega
      simp only [e1, e2, if_true]
      exact_mod_cast Nat.lt_succ_self i
    have hnot : ∀ m, 1 ≤ m → m < k + 1 →
        ¬ MustStop (fun j : ℕ => ((if j ≤ k then (j : ℝ) else -1 : ℝ) : WithTop ℝ)) (List.range (k + 2)).length (some (k : Int)) none m := by
      intro m hm1 hm2 hms
      rcases hms with h | ⟨p', hp', -, h, -⟩ | ⟨m', hm', -⟩
      · simp at h; omega
      · cases hp'; simp at h; omega
      · cases hm'
    have hn : n = k + 1 := by
      rcases lt_trichotomy n (k + 1) with h | h | h
      · exact absurd h3 (hnot n h1 h)
      · exact h
      · exact absurd hstop (h4 (k + 1) (by omega) h)
    subst hn
    have hi0 : i = 0 := by
      rcases Nat.eq_zero_or_pos i with h | h
      · exact h
      · have := h5.2.1 0 (by omega)
        have hik : i ≤ k := by have := h5.1; omega
        simp only [hik, if_true, Nat.zero_le, Nat.cast_zero, WithTop.coe_le_coe] at this
        have : i ≤ 0 := by exact_mod_cast this
        omega
    subst hi0
    rw [h6]
    simp [List.take_range]
  · obtain ⟨j, hj, g1, g2⟩ := C28_unlimited (R := WithTop ℝ) (fun j : ℕ => .num ((if j ≤ k then (j : ℝ) else -1 : ℝ) : WithTop ℝ))
      (List.range (k + 2)) (by simp) (fun j => ((if j ≤ k then (j : ℝ) else -1 : ℝ) : WithTop ℝ)) (fun j hj => by simp [evalObjective])
    rw [g2]
    have hj' : j < k + 2 := by simpa using hj
    have e : j = k + 1 := by
      by_contra hne
      have hjk : j ≤ k := by omega
      have := g1.2.1 (k + 1) (by simp)
      simp only [hjk, if_true, show ¬ (k + 1 ≤ k) by omega, if_false, WithTop.coe_le_coe] at this
      have h0 : (0 : ℝ) ≤ (j : ℝ) := Nat.cast_nonneg _
      linarith
    simp [e]
  · simp

/-! ### Fine grids -/

theorem precGrid_get {lo hi : ℝ} {n : ℕ} (i : Fin n) :
    (10 : ℝ) ^ (lo + (i.val : ℝ) * ((hi - lo) / ((n : ℝ) - 1))) ∈ precGrid lo hi n := by
  simp only [precGrid, List.mem_ofFn]; exact ⟨i, rfl⟩

/-- Every exponent in the interval is within one step of a grid exponent. -/
theorem grid_near {lo hi t : ℝ} (h1 : lo ≤ t) (h2 : t ≤ hi) {n : ℕ} (hn : 2 ≤ n) :
    ∃ i : Fin n, lo ≤ lo + (i.val : ℝ) * ((hi - lo) / ((n : ℝ) - 1)) ∧ lo + (i.val : ℝ) * ((hi - lo) / ((n : ℝ) - 1)) ≤ t ∧
      t - (lo + (i.val : ℝ) * ((hi - lo) / ((n : ℝ) - 1))) ≤ (hi - lo) / ((n : ℝ) - 1) := by
  have hn1 : (0 : ℝ) < (n : ℝ) - 1 := by
    have : (2 : ℝ) ≤ n := by exact_mod_cast hn
    linarith
  rcases (h1.trans h2).lt_or_eq with hlt | heq
  · have hd : 0 < (hi - lo) / ((n : ℝ) - 1) := div_pos (by linarith) hn1
    obtain ⟨d, hdd⟩ : ∃ d, d = (hi - lo) / ((n : ℝ) - 1) := ⟨_, rfl⟩
    rw [← hdd] at hd ⊢
    have hle : ⌊(t - lo) / d⌋₊ ≤ n - 1 := by
      rw [← Nat.floor_natCast (R := ℝ) (n - 1)]
      refine Nat.floor_mono ?_
      rw [Nat.cast_sub (by omega), Nat.cast_one, div_le_iff₀ hd, hdd, mul_div_cancel₀ _ hn1.ne']
      linarith
    refine ⟨⟨⌊(t - lo) / d⌋₊, by omega⟩, ?_, ?_, ?_⟩
    · have : 0 ≤ (⌊(t - lo) / d⌋₊ : ℝ) * d := by positivity
      show lo ≤ lo + (⌊(t - lo) / d⌋₊ : ℝ) * d
      linarith
    · have := mul_le_mul_of_nonneg_right (Nat.floor_le (show 0 ≤ (t - lo) / d from div_nonneg (by linarith) hd.le)) hd.le
      rw [div_mul_cancel₀ _ hd.ne'] at this
      show lo + (⌊(t - lo) / d⌋₊ : ℝ) * d ≤ t
      linarith
    · have := mul_lt_mul_of_pos_right (Nat.lt_floor_add_one ((t - lo) / d)) hd
      rw [div_mul_cancel₀ _ hd.ne'] at this
      show t - (lo + (⌊(t - lo) / d⌋₊ : ℝ) * d) ≤ d
      linarith
  · refine ⟨⟨0, by omega⟩, ?_, ?_, ?_⟩ <;> simp
    · exact h1
    · have : t = lo := by linarith
      rw [this, heq]; simp

/-- A continuous score: the best point of a fine enough grid is nearly the best of the interval. -/
theorem fine_grid {score : ℝ → ℝ} {lo hi : ℝ} (hlh : lo ≤ hi) (hc : ContinuousOn score (Set.Ioi 0)) {ε : ℝ} (hε : 0 < ε) :
    ∃ n₀, ∀ n, n₀ ≤ n → ∀ q, BestOf (precGrid lo hi n) (fun τ => (score τ : WithTop ℝ)) q → WithinOfBest score lo hi ε q := by
  have h10 : Continuous fun t : ℝ => (10 : ℝ) ^ t := Real.continuous_const_rpow (by norm_num)
  have hg : ContinuousOn (fun t : ℝ => score ((10 : ℝ) ^ t)) (Set.Icc lo hi) :=
    hc.comp h10.continuousOn fun t _ => Real.rpow_pos_of_pos (by norm_num) t
  have hu := isCompact_Icc.uniformContinuousOn_of_continuous hg
  obtain ⟨δ, hδ, hd⟩ := Metric.uniformContinuousOn_iff.1 hu ε hε
  obtain ⟨m, hm⟩ := exists_nat_gt ((hi - lo) / δ)
  refine ⟨m + 2, fun n hn q hq => ?_⟩
  have hn1 : (m : ℝ) + 1 ≤ (n : ℝ) - 1 := by
    have : ((m + 2 : ℕ) : ℝ) ≤ n := by exact_mod_cast hn
    push_cast at this; linarith
  have hm0 : (0 : ℝ) ≤ m := Nat.cast_nonneg _
  have hstep : (hi - lo) / ((n : ℝ) - 1) < δ := by
    rw [div_lt_iff₀ (by linarith)]
    rw [div_lt_iff₀ hδ] at hm
    nlinarith
  have hstep0 : 0 ≤ (hi - lo) / ((n : ℝ) - 1) := div_nonneg (by linarith) (by linarith)
  obtain ⟨hmem, hbest, -⟩ := hq
  have hrange : (10 : ℝ) ^ lo ≤ q ∧ q ≤ (10 : ℝ) ^ hi := by
    simp only [precGrid, List.mem_ofFn] at hmem
    obtain ⟨i, rfl⟩ := hmem
    have hi1 : (i.val : ℝ) ≤ (n : ℝ) - 1 := by
      have : (i.val : ℝ) + 1 ≤ n := by exact_mod_cast i.isLt
      linarith
    have hi0 : (0 : ℝ) ≤ i.val := Nat.cast_nonneg _
    constructor
    · refine Real.rpow_le_rpow_of_exponent_le (by norm_num) ?_
      have := mul_nonneg hi0 hstep0
      linarith
    · refine Real.rpow_le_rpow_of_exponent_le (by norm_num) ?_
      have := mul_le_mul_of_nonneg_right hi1 hstep0
      rw [mul_div_cancel₀ _ (show (n : ℝ) - 1 ≠ 0 by linarith)] at this
      linarith
  refine ⟨hrange.1, hrange.2, fun τ h1 h2 => ?_⟩
  have hτ : 0 < τ := (Real.rpow_pos_of_pos (by norm_num) lo).trans_le h1
  obtain ⟨t, rfl⟩ : ∃ t : ℝ, (10 : ℝ) ^ t = τ := ⟨Real.logb 10 τ, Real.rpow_logb (by norm_num) (by norm_num) hτ⟩
  have t1 : lo ≤ t := (Real.rpow_le_rpow_left_iff (by norm_num)).1 h1
  have t2 : t ≤ hi := (Real.rpow_le_rpow_left_iff (by norm_num)).1 h2
  obtain ⟨i, i1, i2, i3⟩ := grid_near t1 t2 (show 2 ≤ n by omega)
  have h3 := hbest _ (precGrid_get i)
  have h4 := hd _ ⟨i1, i2.trans t2⟩ t ⟨t1, t2⟩ (by
    rw [Real.dist_eq, abs_lt]; constructor <;> linarith)
  rw [Real.dist_eq, abs_lt] at h4
  have h3' : score q ≤ score ((10 : ℝ) ^ (lo + (i.val : ℝ) * ((hi - lo) / ((n : ℝ) - 1)))) := WithTop.coe_le_coe.1 h3
  linarith [h4.2]

/-! ### The scores of calibration are continuous in the prior precision -/

theorem predCov_continuous {est : CurvEstimate p} (he : EstimatePsd est) (f : X → Vec p → Vec c) (θ : Vec p) (x : X) (k : Fin c) :
    ContinuousOn (fun τ => predCovAt f θ est τ x k k) (Set.Ioi 0) := by
  have h := quad_continuousOn (reg_continuousOn ((curvOf_posSemidef he).smul (zero_le_one : (0 : ℝ) ≤ 1))) (jacobian (f x) θ k) (jacobian (f x) θ k)
  refine h.congr fun τ _ => ?_
  show covAt f θ (targetPrecision τ 1 1 est) x k k = _
  rw [covAt_diag, targetPrecision_eq]

theorem nllScore_continuous {lower : String → String} {pushforward predictive : EnumArg} {pr : String} {a : PredictiveArgs X K p} {θ : Vec p}
    {est : CurvEstimate p} (h : ApiLinear lower pushforward predictive pr a θ est) {N : ℕ} (xs : Fin N → X)
    (ys : Fin N → Vec (shapeSize a.net.shape)) (hJ : ∀ i k, ∃ j, jacobian (a.net.fn (xs i)) θ k j ≠ 0) :
    ContinuousOn (nllScore a.net.fn θ est xs ys) (Set.Ioi 0) := by
  have hpos : ∀ τ ∈ Set.Ioi (0 : ℝ), ∀ i k, 0 < predCovAt a.net.fn θ est τ (xs i) k k := fun τ hτ i k => predVar_pos h hτ (xs i) k (hJ i k)
  have hV := fun i k => predCov_continuous h.psd a.net.fn θ (xs i) k
  refine ContinuousOn.div_const (continuousOn_finsetSum _ fun i _ => continuousOn_finsetSum _ fun k _ => ?_) _
  have e : ∀ τ ∈ Set.Ioi (0 : ℝ), negLogDensity (a.net.fn (xs i) θ k) (Real.sqrt (predCovAt a.net.fn θ est τ (xs i) k k)) (ys i k) =
      (Real.log (2 * Real.pi * predCovAt a.net.fn θ est τ (xs i) k k) + (a.net.fn (xs i) θ k - ys i k) ^ 2 / predCovAt a.net.fn θ est τ (xs i) k k) / 2 := by
    intro τ hτ
    have hp := hpos τ hτ i k
    rw [← logpdf_eq _ _ _ (Real.sqrt_pos.2 hp), normLogpdf, Real.sq_sqrt hp.le]
    ring
  refine ContinuousOn.congr ?_ e
  refine ContinuousOn.div_const (ContinuousOn.add (ContinuousOn.log ((hV i k).const_smul (2 * Real.pi)) fun τ hτ => ?_)
    (continuousOn_const.div (hV i k) fun τ hτ => (hpos τ hτ i k).ne')) _
  have := hpos τ hτ i k
  exact (mul_pos (by positivity) this).ne'

theorem chi2Score_continuous {lower : String → String} {pushforward predictive : EnumArg} {pr : String} {a : PredictiveArgs X K p} {θ : Vec p}
    {est : CurvEstimate p} (h : ApiLinear lower pushforward predictive pr a θ est) {N : ℕ} (xs : Fin N → X)
    (ys : Fin N → Vec (shapeSize a.net.shape)) (hJ : ∀ i k, ∃ j, jacobian (a.net.fn (xs i)) θ k j ≠ 0) :
    ContinuousOn (chi2Score a.net.fn θ est xs ys) (Set.Ioi 0) := by
  refine ContinuousOn.abs (ContinuousOn.sub (ContinuousOn.div_const (continuousOn_finsetSum _ fun i _ => continuousOn_finsetSum _ fun k _ => ?_) _)
    continuousOn_const)
  exact continuousOn_const.div (predCov_continuous h.psd a.net.fn θ (xs i) k) fun τ hτ => (predVar_pos h hτ (xs i) k (hJ i k)).ne'

theorem mllScore_continuous {e : CurvEstimate p} (he : EstimatePsd e) (θ : Vec p) (L : ℝ) : ContinuousOn (mllScore θ e L) (Set.Ioi 0) := by
  have h1 : ContinuousOn (fun τ : ℝ => ((2 * Real.pi)⁻¹ • targetPrecision τ 1 1 e).det) (Set.Ioi 0) := by
    have : Continuous fun τ : ℝ => ((2 * Real.pi)⁻¹ • targetPrecision τ 1 1 e).det := by
      simp only [targetPrecision_eq]
      exact Continuous.matrix_det (by fun_prop)
    exact this.continuousOn
  have h2 : ContinuousOn (fun τ : ℝ => logPrior τ (List.ofFn θ)) (Set.Ioi 0) := by
    refine ContinuousOn.congr ?_ fun τ hτ => logPrior_eq τ hτ _
    exact ((continuousOn_const.mul continuousOn_id).mul continuousOn_const).add
      (continuousOn_const.mul (continuousOn_const.sub (Real.continuousOn_log.mono fun τ hτ => (Set.mem_Ioi.1 hτ).ne')))
  refine ContinuousOn.neg ((continuousOn_const.add h2).sub (continuousOn_const.mul (h1.log fun τ hτ => ?_)))
  exact ((targetPrecision_posDef he hτ zero_le_one).smul (by positivity : (0 : ℝ) < (2 * Real.pi)⁻¹)).det_pos.ne'

section
variable (lower : String → String) (rows : A → Except Err (List A)) (points : PyObj A → PyObj A → Except Err (List (X × Arr ℝ)))
  (pushforward predictive objective method : EnumArg) (pr : String) (a : PredictiveArgs X K p) (θ : Vec p) (est e : CurvEstimate p)
  (data : PyObj A) (loss : (B : ℕ) → HessLossArg B (shapeSize a.net.shape)) (options : Dict (CalMethod (PyObj A) (WithTop ℝ))) (kw : GridKwargs)
  {N : ℕ} (xs : Fin N → X)

/-- **C76 (NLL: fine grids).** For every model, data and interval of exponents, and every tolerance `ε > 0`, all sufficiently large grid sizes
make a calibration by NLL without patience return a prior precision whose score is within `ε` of the best score over *all* precisions from
`10^lo` to `10^hi`, not only the grid points. -/
theorem C76_nll_fine_grid (h : ApiLinear lower pushforward predictive pr a θ est) (hcls : NoPredictive predictive)
    (ho : convertToEnum lower calibrationObjectiveValues false objective = .ok (.member "nll"))
    (hm : convertToEnum lower calibrationMethodValues true method = .ok (.member "grid_search"))
    (hN : 0 < N) (ys : Fin N → Vec (shapeSize a.net.shape)) (hb : BatchIs points data xs fun i => arrOf a.net.shape (ys i))
    (hJ : ∀ i k, ∃ j, jacobian (a.net.fn (xs i)) θ k j ≠ 0) {lo hi : ℝ} (hlh : lo ≤ hi) {ε : ℝ} (hε : 0 < ε) :
    ∃ n₀, ∀ n, n₀ ≤ n → ∃ q set tried,
      calibration lower rows points a data loss e predictive pushforward none objective method options
        { kw with logPriorPrecMin := some lo, logPriorPrecMax := some hi, gridSize := some n, patience := none } = .ok (⟨some q, none⟩, set, tried) ∧
      WithinOfBest (nllScore a.net.fn θ est xs ys) lo hi ε q := by
  obtain ⟨n₀, h0⟩ := fine_grid hlh (nllScore_continuous h xs ys hJ) hε
  refine ⟨n₀ + 1, fun n hn => ?_⟩
  obtain ⟨q, tried, set, eps, R, h1, -, h3, -⟩ := C52_nll lower rows points pushforward predictive objective method pr a θ est e data loss options
    { kw with logPriorPrecMin := some lo, logPriorPrecMax := some hi, gridSize := some n, patience := none } xs h hcls ho hm
    (by simp only [Option.getD_some]; omega) hN ys hb hJ
  exact ⟨q, set, tried, h1, h0 n (by omega) q (best_of_chosen h3).2⟩

/-- **C76 (chi-squared: fine grids).** The same for the chi-squared objective. -/
theorem C76_chi_squared_fine_grid (h : ApiLinear lower pushforward predictive pr a θ est) (hcls : NoPredictive predictive)
    (ho : convertToEnum lower calibrationObjectiveValues false objective = .ok (.member "chi_squared"))
    (hm : convertToEnum lower calibrationMethodValues true method = .ok (.member "grid_search"))
    (hN : 0 < N) (ys : Fin N → Vec (shapeSize a.net.shape)) (hb : BatchIs points data xs fun i => arrOf a.net.shape (ys i))
    (hJ : ∀ i k, ∃ j, jacobian (a.net.fn (xs i)) θ k j ≠ 0) {lo hi : ℝ} (hlh : lo ≤ hi) {ε : ℝ} (hε : 0 < ε) :
    ∃ n₀, ∀ n, n₀ ≤ n → ∃ q set tried,
      calibration lower rows points a data loss e predictive pushforward none objective method options
        { kw with logPriorPrecMin := some lo, logPriorPrecMax := some hi, gridSize := some n, patience := none } = .ok (⟨some q, none⟩, set, tried) ∧
      WithinOfBest (chi2Score a.net.fn θ est xs ys) lo hi ε q := by
  obtain ⟨n₀, h0⟩ := fine_grid hlh (chi2Score_continuous h xs ys hJ) hε
  refine ⟨n₀ + 1, fun n hn => ?_⟩
  obtain ⟨q, tried, set, eps, R, h1, -, h3, -⟩ := C52_chi_squared lower rows points pushforward predictive objective method pr a θ est e data loss options
    { kw with logPriorPrecMin := some lo, logPriorPrecMax := some hi, gridSize := some n, patience := none } xs h hcls ho hm
    (by simp only [Option.getD_some]; omega) hN ys hb hJ
  exact ⟨q, set, tried, h1, h0 n (by omega) q (best_of_chosen h3).2⟩

/-- **C76 (evidence: fine grids).** The same for the marginal-likelihood objective with a dense or diagonal estimate and a scalar loss: the chosen
precision maximises the log evidence over the whole interval up to `ε`. -/
theorem C76_evidence_fine_grid (h : ApiLinear lower pushforward predictive pr a θ est)
    (ho : convertToEnum lower calibrationObjectiveValues false objective = .ok (.member "marginal_log_likelihood"))
    (hm : convertToEnum lower calibrationMethodValues true method = .ok (.member "grid_search"))
    (he : EstimatePsd e) (hk : ∀ r (t : LowRankTerms p r), e ≠ .lowRank t)
    (ys : Fin N → Vec (shapeSize a.net.shape)) (hb : BatchIs points data xs fun i => arrOf a.net.shape (ys i)) (L : ℝ)
    (hL : BatchLoss a.net.fn θ (loss N) xs ys L) {lo hi : ℝ} (hlh : lo ≤ hi) {ε : ℝ} (hε : 0 < ε) :
    ∃ n₀, ∀ n, n₀ ≤ n → ∃ q set tried,
      calibration lower rows points a data loss e predictive pushforward none objective method options
        { kw with logPriorPrecMin := some lo, logPriorPrecMax := some hi, gridSize := some n, patience := none } = .ok (⟨some q, none⟩, set, tried) ∧
      WithinOfBest (mllScore θ e L) lo hi ε q := by
  obtain ⟨n₀, h0⟩ := fine_grid hlh (mllScore_continuous he θ L) hε
  refine ⟨n₀ + 1, fun n hn => ?_⟩
  obtain ⟨q, tried, set, eps, R, h1, -, h3, -⟩ := C52_marginal_likelihood lower rows points pushforward predictive objective method pr a θ est e data loss
    options { kw with logPriorPrecMin := some lo, logPriorPrecMax := some hi, gridSize := some n, patience := none } xs h ho hm
    (by simp only [Option.getD_some]; omega) he hk ys hb L hL
  exact ⟨q, set, tried, h1, h0 n (by omega) q (best_of_chosen h3).2⟩

/-- The choice under patience in a single valley is the choice without. -/
theorem chosen_valley {grid : List ℝ} {s : ℝ → ℝ} {pat : Int} (hp : 1 ≤ pat) {q q' : ℝ} {tried tried' : List ℝ}
    (hv : SingleValley (fun i => s (grid.getD i 0)) grid.length)
    (h : ChosenBy grid (fun τ => (s τ : WithTop ℝ)) (some pat) q tried) (h' : ChosenBy grid (fun τ => (s τ : WithTop ℝ)) none q' tried') : q = q' := by
  obtain ⟨n, i, h1, h2, h3, h4, h5, h6, h7⟩ := h
  obtain ⟨n', i', g1, g2, g3, g4, g5, g6, g7⟩ := h'
  have hn' : n' = grid.length := by
    rcases g3 with g | ⟨p', hp', -⟩ | ⟨m, hm, -⟩
    · exact g
    · cases hp'
    · cases hm
  subst hn'
  have hv' : SingleValley (fun j => ((s (grid.getD j 0) : ℝ) : WithTop ℝ)) grid.length := fun i j l hij hjl hl => by
    have := hv i j l hij hjl hl
    rcases le_max_iff.1 this with h | h
    · exact le_max_of_le_left (WithTop.coe_le_coe.2 h)
    · exact le_max_of_le_right (WithTop.coe_le_coe.2 h)
  have e := firstMin_unique (valley_min hv' hp h2 h3 h5) g5
  subst e
  exact Option.some.inj (h6.symm.trans g6)

/-- **C76 (NLL: patience).** Calibration by NLL with patience (at least 1) returns the prior precision it returns without patience whenever the
scores of the grid points fall and then rise. -/
theorem C76_nll_patience (h : ApiLinear lower pushforward predictive pr a θ est) (hcls : NoPredictive predictive)
    (ho : convertToEnum lower calibrationObjectiveValues false objective = .ok (.member "nll"))
    (hm : convertToEnum lower calibrationMethodValues true method = .ok (.member "grid_search")) (hn : 0 < kw.gridSize.getD 50)
    (hN : 0 < N) (ys : Fin N → Vec (shapeSize a.net.shape)) (hb : BatchIs points data xs fun i => arrOf a.net.shape (ys i))
    (hJ : ∀ i k, ∃ j, jacobian (a.net.fn (xs i)) θ k j ≠ 0) (pat : Int) (hp : 1 ≤ pat)
    (hv : SingleValley (fun i => nllScore a.net.fn θ est xs ys
      ((precGrid (kw.logPriorPrecMin.getD (-3)) (kw.logPriorPrecMax.getD 3) (kw.gridSize.getD 50)).getD i 0)) (kw.gridSize.getD 50)) :
    ∃ q set set' tried tried',
      calibration lower rows points a data loss e predictive pushforward none objective method options { kw with patience := some pat } =
        .ok (⟨some q, none⟩, set, tried) ∧
      calibration lower rows points a data loss e predictive pushforward none objective method options { kw with patience := none } =
        .ok (⟨some q, none⟩, set', tried') := by
  obtain ⟨q, tried, set, -, -, h1, -, h3, -⟩ := C52_nll lower rows points pushforward predictive objective method pr a θ est e data loss options
    { kw with patience := some pat } xs h hcls ho hm hn hN ys hb hJ
  obtain ⟨q', tried', set', -, -, g1, -, g3, -⟩ := C52_nll lower rows points pushforward predictive objective method pr a θ est e data loss options
    { kw with patience := none } xs h hcls ho hm hn hN ys hb hJ
  have e := chosen_valley hp (by simpa only [precGrid, List.length_ofFn] using hv) h3 g3
  subst e
  exact ⟨q, set, set', tried, tried', h1, g1⟩

/-- **C76 (evidence: patience).** The same for the marginal-likelihood objective. -/
theorem C76_evidence_patience (h : ApiLinear lower pushforward predictive pr a θ est)
    (ho : convertToEnum lower calibrationObjectiveValues false objective = .ok (.member "marginal_log_likelihood"))
    (hm : convertToEnum lower calibrationMethodValues true method = .ok (.member "grid_search")) (hn : 0 < kw.gridSize.getD 50)
    (he : EstimatePsd e) (hk : ∀ r (t : LowRankTerms p r), e ≠ .lowRank t)
    (ys : Fin N → Vec (shapeSize a.net.shape)) (hb : BatchIs points data xs fun i => arrOf a.net.shape (ys i)) (L : ℝ)
    (hL : BatchLoss a.net.fn θ (loss N) xs ys L) (pat : Int) (hp : 1 ≤ pat)
    (hv : SingleValley (fun i => mllScore θ e L
      ((precGrid (kw.logPriorPrecMin.getD (-3)) (kw.logPriorPrecMax.getD 3) (kw.gridSize.getD 50)).getD i 0)) (kw.gridSize.getD 50)) :
    ∃ q set set' tried tried',
      calibration lower rows points a data loss e predictive pushforward none objective method options { kw with patience := some pat } =
        .ok (⟨some q, none⟩, set, tried) ∧
      calibration lower rows points a data loss e predictive pushforward none objective method options { kw with patience := none } =
        .ok (⟨some q, none⟩, set', tried') := by
  obtain ⟨q, tried, set, -, -, h1, -, h3, -⟩ := C52_marginal_likelihood lower rows points pushforward predictive objective method pr a θ est e data loss
    options { kw with patience := some pat } xs h ho hm hn he hk ys hb L hL
  obtain ⟨q', tried', set', -, -, g1, -, g3, -⟩ := C52_marginal_likelihood lower rows points pushforward predictive objective method pr a θ est e data loss
    options { kw with patience := none } xs h ho hm hn he hk ys hb L hL
  have e' := chosen_valley hp (by simpa only [precGrid, List.length_ofFn] using hv) h3 g3
  subst e'
  exact ⟨q, set, set', tried, tried', h1, g1⟩

end

/-! ### Non-vacuity -/

/-- The hypotheses of the fine-grid theorem are met by the running example. -/
example : ∃ n₀, ∀ n, n₀ ≤ n → ∃ q set tried,
    calibration (fun s => if s = "Linear" then "linear" else s) (fun _ => .error .valueError) testPoints testArgs
      (.tup [.arr [1, 2], .arr [4, 5, 6, 7]]) (fun _ => .name "mse") (.full !![2, 2; 2, 2]) (.member "none") (.str "Linear") none
      (.str "nll") (.str "grid_search") [] ⟨some (-3), some 3, some n, none, none⟩ = .ok (⟨some q, none⟩, set, tried) ∧
    WithinOfBest (nllScore testNet.fn ![3, 5] (.full !![2, 2; 2, 2]) ![1, 2] ![![4, 5], ![6, 7]]) (-3) 3 (1 / 100) q :=
  C76_nll_fine_grid _ (fun _ => .error .valueError) testPoints (.str "Linear") (.member "none")
    (.str "nll") (.str "grid_search") "none" testArgs ![3, 5] (.full !![2, 2; 2, 2]) (.full !![2, 2; 2, 2])
    (.tup [.arr [1, 2], .arr [4, 5, 6, 7]]) (fun _ => .name "mse") [] {} ![1, 2] test_apiLinear (Or.inl rfl) rfl rfl (by norm_num) _
    test_batch (fun i k => by
      apply test_gradient
      fin_cases i <;> simp) (by norm_num) (by norm_num)

/-- A single valley with its bottom inside: `(i - 2)²` on seven candidates. -/
example : SingleValley (fun i : ℕ => ((i : ℝ) - 2) ^ 2) 7 := by
  intro i j l hij hjl _
  have h1 : (i : ℝ) ≤ j := by exact_mod_cast hij
  have h2 : (j : ℝ) ≤ l := by exact_mod_cast hjl
  rcases le_total (j : ℝ) 2 with h | h
  · exact le_max_of_le_left (by nlinarith)
  · exact le_max_of_le_right (by nlinarith)

/-- With a grid of at most two points the scores always form a single valley, so the patience theorem applies to the running example. -/
example : ∃ q set set' tried tried',
    calibration (fun s => if s = "Linear" then "linear" else s) (fun _ => .error .valueError) testPoints testArgs
      (.tup [.arr [1, 2], .arr [4, 5, 6, 7]]) (fun _ => .name "mse") (.full !![2, 2; 2, 2]) (.member "none") (.str "Linear") none
      (.str "nll") (.str "grid_search") [] ⟨none, none, some 2, some 1, none⟩ = .ok (⟨some q, none⟩, set, tried) ∧
    calibration (fun s => if s = "Linear" then "linear" else s) (fun _ => .error .valueError) testPoints testArgs
      (.tup [.arr [1, 2], .arr [4, 5, 6, 7]]) (fun _ => .name "mse") (.full !![2, 2; 2, 2]) (.member "none") (.str "Linear") none
      (.str "nll") (.str "grid_search") [] ⟨none, none, some 2, none, none⟩ = .ok (⟨some q, none⟩, set', tried') :=
  C76_nll_patience _ (fun _ => .error .valueError) testPoints (.str "Linear") (.member "none")
    (.str "nll") (.str "grid_search") "none" testArgs ![3, 5] (.full !![2, 2; 2, 2]) (.full !![2, 2; 2, 2])
    (.tup [.arr [1, 2], .arr [4, 5, 6, 7]]) (fun _ => .name "mse") [] ⟨none, none, some 2, none, none⟩ ![1, 2] test_apiLinear (Or.inl rfl) rfl rfl
    (by decide) (by norm_num) _ test_batch (fun i k => by
      apply test_gradient
      fin_cases i <;> simp) 1 (by norm_num) (by
      intro i j l hij hjl hl
      have hl' : l < 2 := hl
      have : j = i ∨ j = l := by omega
      rcases this with rfl | rfl
      · exact le_max_left _ _
      · exact le_max_right _ _)

end Laplax.Props
