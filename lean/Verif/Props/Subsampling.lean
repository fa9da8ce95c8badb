import Verif.Props.Ggn
import Verif.Props.Invariance

/-! # C42: curvature from a random part of the data is right on average -/

namespace Laplax.Props
open Laplax Spec
open scoped BigOperators Matrix

variable {p c B N : ℕ} {A X Y : Type}

/-- In a random order every position holds every element equally often. -/
theorem perm_average {E : Type} [AddCommGroup E] [Module ℝ E] (f : Fin N → E) (i : Fin N) :
    ((N : ℝ) / (Nat.factorial N : ℝ)) • ∑ π : Equiv.Perm (Fin N), f (π i) = ∑ n, f n := by
  have hN : (N : ℝ) ≠ 0 := by
    have := i.pos
    exact_mod_cast this.ne'
  have h1 : ∀ j : Fin N, ∑ π : Equiv.Perm (Fin N), f (π j) = ∑ π : Equiv.Perm (Fin N), f (π i) := by
    intro j
    rw [← Equiv.sum_comp (Equiv.mulRight (Equiv.swap i j)) fun π : Equiv.Perm (Fin N) => f (π j)]
    refine Finset.sum_congr rfl fun π _ => ?_
    simp
  have h2 : ∑ j : Fin N, ∑ π : Equiv.Perm (Fin N), f (π j) = (N : ℝ) • ∑ π : Equiv.Perm (Fin N), f (π i) := by
    simp only [h1, Finset.sum_const, Finset.card_univ, Fintype.card_fin, Nat.cast_smul_eq_nsmul]
  have h3 : ∑ j : Fin N, ∑ π : Equiv.Perm (Fin N), f (π j) = (Nat.factorial N : ℝ) • ∑ n, f n := by
    rw [Finset.sum_comm]
    simp only [Equiv.sum_comp]
    rw [Finset.sum_const, Finset.card_univ, Fintype.card_perm, Fintype.card_fin, Nat.cast_smul_eq_nsmul]
  have hf : (Nat.factorial N : ℝ) ≠ 0 := by exact_mod_cast Nat.factorial_ne_zero N
  rw [div_eq_inv_mul, ← smul_smul, ← h2, h3, smul_smul, inv_mul_cancel₀ hf, one_smul]

/-- Drawing with replacement likewise. -/
theorem tuple_average {E : Type} [AddCommGroup E] [Module ℝ E] (hN : N ≠ 0) (f : Fin N → E) (i : Fin B) :
    ((N : ℝ) / (N : ℝ) ^ B) • ∑ ω : Fin B → Fin N, f (ω i) = ∑ n, f n := by
  obtain ⟨b, rfl⟩ : ∃ b, B = b + 1 := ⟨B - 1, by have := i.pos; omega⟩
  have hN' : (N : ℝ) ≠ 0 := by exact_mod_cast hN
  have h : ∑ ω : Fin (b + 1) → Fin N, f (ω i) = (N ^ b : ℕ) • ∑ n, f n := by
    rw [← Equiv.sum_comp (Fin.insertNthEquiv (fun _ => Fin N) i) fun ω : Fin (b + 1) → Fin N => f (ω i), Fintype.sum_prod_type]
    simp only [Fin.insertNthEquiv, Equiv.coe_fn_mk, Fin.insertNth_apply_same, Finset.sum_const, Finset.card_univ]
    rw [Finset.smul_sum]
    simp
  rw [h, ← Nat.cast_smul_eq_nsmul ℝ, smul_smul]
  rw [show (N : ℝ) / (N : ℝ) ^ (b + 1) * ((N ^ b : ℕ) : ℝ) = 1 by push_cast; field_simp; ring, one_smul]

/-- **C42 (a random batch is right on average, functional interface).** Take the first `B` of the `N` data points in a uniformly random order
(a shuffled loader's first batch) and pass `num_total_samples = N` to `create_ggn_mv`: the average of the product over all orders is the
product of the whole data set. -/
theorem C42_shuffled_batch_unbiased (model : X → Vec p → Vec c) (θ : Vec p) (data : Fin N → X × Y) (s : String)
    (hs : ∃ H : Vec c → Vec c → Y → Vec c, createLossHessianMv (.name s) = .ok H) (hB : B ≠ 0) (hBN : B ≤ N)
    (hd : ∀ i, DifferentiableAt ℝ (model (data i).1) θ) :
    ∃ (mv : Equiv.Perm (Fin N) → Vec p → Vec p) (full : Vec p → Vec p),
      (∀ π, createGgnMv model θ (fun i : Fin B => data (π (Fin.castLE hBN i))) (.name s) none (some N) none = .ok (mv π)) ∧
      createGgnMv model θ data (.name s) none none none = .ok full ∧
      ∀ v, (Nat.factorial N : ℝ)⁻¹ • ∑ π, mv π v = full v := by
  obtain ⟨H, hH⟩ := hs
  have hN : N ≠ 0 := by omega
  have k1 := fun π : Equiv.Perm (Fin N) => C42_functional_scaling model θ (fun i : Fin B => data (π (Fin.castLE hBN i))) s H hH none (some N)
    (by simpa using hB) (fun i => hd _)
  choose mv h1 h2 using k1
  obtain ⟨full, h3, h4⟩ := C42_functional_scaling model θ data s H hH none none (by simpa using hN) hd
  refine ⟨mv, full, h1, h3, fun v => ?_⟩
  have hB' : (B : ℝ) ≠ 0 := by exact_mod_cast hB
  have hN' : (N : ℝ) ≠ 0 := by exact_mod_cast hN
  simp only [h2, h4, ggnSum, Option.getD]
  rw [← Finset.smul_sum, Finset.sum_comm, smul_smul, Finset.smul_sum]
  have key := fun i : Fin B => perm_average (fun n : Fin N => (jacobian (model (data n).1) θ)ᵀ *ᵥ H (jacobian (model (data n).1) θ *ᵥ v) (model (data n).1 θ) (data n).2) (Fin.castLE hBN i)
  have e : (Nat.factorial N : ℝ)⁻¹ * ((N : ℝ) / B) = (B : ℝ)⁻¹ * ((N : ℝ) / Nat.factorial N) := by ring
  simp only [e, ← smul_smul, key]
  rw [Finset.sum_const, Finset.card_univ, Fintype.card_fin, ← Nat.cast_smul_eq_nsmul ℝ, smul_smul, mul_inv_cancel₀ hB', div_self hN']

/-- **C42 (drawing with replacement, functional interface).** Likewise for `B` points drawn independently and uniformly with replacement: the
average of the product over all `N^B` draws is the product of the whole data set. -/
theorem C42_resampled_batch_unbiased (model : X → Vec p → Vec c) (θ : Vec p) (data : Fin N → X × Y) (s : String)
    (hs : ∃ H : Vec c → Vec c → Y → Vec c, createLossHessianMv (.name s) = .ok H) (hB : B ≠ 0) (hN : N ≠ 0)
    (hd : ∀ i, DifferentiableAt ℝ (model (data i).1) θ) :
    ∃ (mv : (Fin B → Fin N) → Vec p → Vec p) (full : Vec p → Vec p),
      (∀ ω, createGgnMv model θ (fun i => data (ω i)) (.name s) none (some N) none = .ok (mv ω)) ∧
      createGgnMv model θ data (.name s) none none none = .ok full ∧
      ∀ v, ((N : ℝ) ^ B)⁻¹ • ∑ ω, mv ω v = full v := by
  obtain ⟨H, hH⟩ := hs
  have k1 := fun ω : Fin B → Fin N => C42_functional_scaling model θ (fun i => data (ω i)) s H hH none (some N)
    (by simpa using hB) (fun i => hd _)
  choose mv h1 h2 using k1
  obtain ⟨full, h3, h4⟩ := C42_functional_scaling model θ data s H hH none none (by simpa using hN) hd
  refine ⟨mv, full, h1, h3, fun v => ?_⟩
  have hB' : (B : ℝ) ≠ 0 := by exact_mod_cast hB
  have hN' : (N : ℝ) ≠ 0 := by exact_mod_cast hN
  simp only [h2, h4, ggnSum, Option.getD]
  rw [← Finset.smul_sum, Finset.sum_comm, smul_smul, Finset.smul_sum]
  have key := fun i : Fin B => tuple_average hN (fun n : Fin N => (jacobian (model (data n).1) θ)ᵀ *ᵥ H (jacobian (model (data n).1) θ *ᵥ v) (model (data n).1 θ) (data n).2) i
  have e : ((N : ℝ) ^ B)⁻¹ * ((N : ℝ) / B) = (B : ℝ)⁻¹ * ((N : ℝ) / (N : ℝ) ^ B) := by ring
  simp only [e, ← smul_smul, key]
  rw [Finset.sum_const, Finset.card_univ, Fintype.card_fin, ← Nat.cast_smul_eq_nsmul ℝ, smul_smul, mul_inv_cancel₀ hB', div_self hN']

/-- **C42 (a random batch through `laplace`).** With `num_curv_samples = B` and `num_total_samples = N` the curvature matrix that `laplace`
returns for the first `B` points of a random order is on average `(B/N)²` times the curvature of the whole data set (the correct factor 1
only for `B = N`). -/
theorem C42_laplace_shuffled_batch (lower : String → String) (rows : A → Except Err (List A))
    (points : PyObj A → PyObj A → Except Err (List (X × Y))) (model : X → Vec p → Vec c) (params : PyTree ℝ) (θ : Vec p)
    (pts : Fin N → X × Y) (hBN : B ≤ N) (hN : N ≠ 0) (data : Equiv.Perm (Fin N) → PyObj A) (all : PyObj A) (loss : String)
    (H : Vec c → Vec c → Y → Vec c) (curvType ct : EnumArg)
    (h : ∀ π, LaplaceCall lower points model params θ (data π) (List.ofFn fun i : Fin B => pts (π (Fin.castLE hBN i))) loss H curvType ct)
    (hall : LaplaceCall lower points model params θ all (List.ofFn pts) loss H curvType ct)
    (kind : EnumArg → LaplaceKind p) (hk : kind ct = .full) :
    ∃ (G : Equiv.Perm (Fin N) → Matrix (Fin p) (Fin p) ℝ) (F : Matrix (Fin p) (Fin p) ℝ),
      (∀ π, ∃ post, laplace lower rows points model params (data π) (.name loss) curvType kind B N = .ok (post, .full (G π))) ∧
      (∃ post, laplace lower rows points model params all (.name loss) curvType kind N N = .ok (post, .full F)) ∧
      (Nat.factorial N : ℝ)⁻¹ • ∑ π, G π = ((B : ℝ) / N) ^ 2 • F := by
  have k1 := fun π => C47_laplace_curvature lower rows points model params θ (data π) _ loss H curvType ct (h π) kind B N hN
  choose G g1 g2 g3 using k1
  obtain ⟨F, f1, f2, f3⟩ := C47_laplace_curvature lower rows points model params θ all _ loss H curvType ct hall kind N N hN
  have hN' : (N : ℝ) ≠ 0 := by exact_mod_cast hN
  refine ⟨G, F, fun π => ⟨_, by rw [g3, hk]; rfl⟩, ⟨_, by rw [f3, hk]; rfl⟩, ?_⟩
  apply Matrix.toLin'.injective
  apply LinearMap.ext; intro v
  rw [Matrix.toLin'_apply, Matrix.toLin'_apply, Matrix.smul_mulVec, Matrix.smul_mulVec, f2, Matrix.sum_mulVec]
  simp only [g2, ggnSamples, List.map_ofFn, List.sum_ofFn, Function.comp]
  rw [← Finset.smul_sum, Finset.sum_comm, smul_smul, Finset.smul_sum, div_self hN', one_smul]
  have key := fun i : Fin B => perm_average (fun n : Fin N => (jacobian (model (pts n).1) θ)ᵀ *ᵥ H (jacobian (model (pts n).1) θ *ᵥ v) (model (pts n).1 θ) (pts n).2) (Fin.castLE hBN i)
  have e : (Nat.factorial N : ℝ)⁻¹ * ((B : ℝ) / N) = (B : ℝ) / N ^ 2 * ((N : ℝ) / Nat.factorial N) := by field_simp
  simp only [e, ← smul_smul, key]
  rw [Finset.sum_const, Finset.card_univ, Fintype.card_fin, ← Nat.cast_smul_eq_nsmul ℝ, smul_smul]
  congr 1
  ring

/-! ### Non-vacuity -/

theorem test_lists (xs ys : List ℝ) :
    LaplaceCall (fun s => s) testPairs testNet.fn testMean ![3, 5] (.tup [.arr xs, .arr ys]) (xs.zip ys) "mse"
    (fun jv _ _ => mseHessianMv jv) (.str "full") (.member "full") := by
  refine ⟨by norm_num, testMean_wf, by simp [testMean, entries, Tree.leaves, Tree.leavesL], ?_, fun s _ => testNet_differentiable _ _, rfl, rfl⟩
  refine ⟨[(.arr xs, .arr ys)], fun xy => (testPairs xy.1 xy.2).toOption.getD [],
    DataOf.single _ _ (BatchOf.pair _ _), ?_, by simp [testPairs, Except.toOption]⟩
  intro xy hxy; simp at hxy; subst hxy; rfl

theorem test_zip {n : ℕ} (pts : Fin n → ℝ × ℝ) :
    LaplaceCall (fun s => s) testPairs testNet.fn testMean ![3, 5]
      (.tup [.arr (List.ofFn fun i => (pts i).1), .arr (List.ofFn fun i => (pts i).2)]) (List.ofFn pts) "mse"
      (fun jv _ _ => mseHessianMv jv) (.str "full") (.member "full") := by
  have := test_lists (List.ofFn fun i => (pts i).1) (List.ofFn fun i => (pts i).2)
  have e : (List.ofFn fun i => (pts i).1).zip (List.ofFn fun i => (pts i).2) = List.ofFn pts := by
    apply List.ext_getElem
    · simp
    · intro k h1 h2; simp
  rwa [e] at this

/-- Batches of two of five data points of the example network, functional interface. -/
example (pts : Fin 5 → ℝ × Unit) : ∃ (mv : Equiv.Perm (Fin 5) → Vec 2 → Vec 2) (full : Vec 2 → Vec 2),
    (∀ π, createGgnMv testNet.fn ![3, 5] (fun i : Fin 2 => pts (π (Fin.castLE (by norm_num) i))) (.name "mse") none (some 5) none = .ok (mv π)) ∧
    createGgnMv testNet.fn ![3, 5] pts (.name "mse") none none none = .ok full ∧ ∀ v, (120 : ℝ)⁻¹ • ∑ π, mv π v = full v := by
  have := C42_shuffled_batch_unbiased (B := 2) testNet.fn ![3, 5] pts "mse" ⟨_, rfl⟩ (by norm_num) (by norm_num) fun i => testNet_differentiable _ _
  simpa [Nat.factorial] using this

/-- The same through `laplace`: on average `4/25` of the curvature of the five points. -/
example (pts : Fin 5 → ℝ × ℝ) : ∃ (G : Equiv.Perm (Fin 5) → Matrix (Fin 2) (Fin 2) ℝ) (F : Matrix (Fin 2) (Fin 2) ℝ),
    (∀ π, ∃ post, laplace (fun s => s) (fun _ => .error .valueError) testPairs testNet.fn testMean
      (.tup [.arr (List.ofFn fun i : Fin 2 => (pts (π (Fin.castLE (by norm_num) i))).1), .arr (List.ofFn fun i : Fin 2 => (pts (π (Fin.castLE (by norm_num) i))).2)])
      (.name "mse") (.str "full") (fun _ => .full) 2 5 = .ok (post, .full (G π))) ∧
    (∃ post, laplace (fun s => s) (fun _ => .error .valueError) testPairs testNet.fn testMean
      (.tup [.arr (List.ofFn fun i => (pts i).1), .arr (List.ofFn fun i => (pts i).2)]) (.name "mse") (.str "full") (fun _ => .full) 5 5 = .ok (post, .full F)) ∧
    (120 : ℝ)⁻¹ • ∑ π, G π = (4 / 25 : ℝ) • F := by
  obtain ⟨G, F, h1, h2, h3⟩ := C42_laplace_shuffled_batch (B := 2) (fun s => s) (fun _ => .error .valueError) testPairs testNet.fn testMean ![3, 5] pts (by norm_num) (by norm_num)
    (fun π => .tup [.arr (List.ofFn fun i : Fin 2 => (pts (π (Fin.castLE (by norm_num) i))).1), .arr (List.ofFn fun i : Fin 2 => (pts (π (Fin.castLE (by norm_num) i))).2)])
    _ "mse" _ _ _ (fun π => test_zip fun i : Fin 2 => pts (π (Fin.castLE (by norm_num) i))) (test_zip pts) (fun _ => .full) rfl
  refine ⟨G, F, h1, h2, ?_⟩
  have e : (((2 : ℕ) : ℝ) / ((5 : ℕ) : ℝ)) ^ 2 = 4 / 25 := by norm_num
  rw [e] at h3
  simpa [Nat.factorial] using h3

end Laplax.Props
