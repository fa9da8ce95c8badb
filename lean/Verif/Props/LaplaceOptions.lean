import Verif.Spec.LaplaceOptions
import Verif.Props.Laplace
import Mathlib.Analysis.Calculus.ContDiff.Basic
import Mathlib.Analysis.Calculus.ContDiff.Operations

/-! # C58: the options of `laplace` change how the model is called, not what is computed -/

namespace Laplax.Props
open Spec
open scoped BigOperators Matrix

variable {p c : ℕ} {A X Y YB : Type}

/-! ### The jitted product -/

theorem passJit_eq {data : PyObj A} {ps : List (PyObj A × PyObj A)} {b : Bound A} {rows : A → Except Err (List A)}
    {mv : PyTree ℝ → PyObj A → PyObj A → Except Err (PyTree ℝ)}
    (hb : ∀ g : (PyTree ℝ → Except Err (PyTree ℝ)) → Except Err (PyTree ℝ), b.pass rows mv (liftReduce reduceAdd) g data =
          (processBatches (fun xy => g (fun v => mv v xy.1 xy.2)) (liftReduce reduceAdd) ps, data))
    (g : (PyTree ℝ → Except Err (PyTree ℝ)) → Except Err (PyTree ℝ)) :
    b.passJit rows mv (liftReduce reduceAdd) g data =
      (g (fun v => processBatches (fun xy => mv v xy.1 xy.2) (liftReduce reduceAdd) ps), data) := by
  cases b with
  | single d =>
    have : mvOnBatch mv d = fun v => processBatches (fun xy => mv v xy.1 xy.2) (liftReduce reduceAdd) ps := by
      funext v
      exact congrArg Prod.fst (hb (fun m => m v))
    simp only [Bound.passJit, this]
  | stream tr =>
    have h1 : ∀ v, ((Bound.stream tr).pass rows mv (liftReduce reduceAdd) (fun m => m v) data).1 =
        processBatches (fun xy => mv v xy.1 xy.2) (liftReduce reduceAdd) ps := fun v => congrArg Prod.fst (hb (fun m => m v))
    have h2 : (data.iterAll rows).2 = data := congrArg Prod.snd (hb (fun m => m (Tree.node "" [])))
    simp only [Bound.passJit, h1, h2]

theorem runJit_curvAlg (rows : A → Except Err (List A)) (params : PyTree ℝ) (hp : 0 < p) (hsz : numEntries params = p)
    (data : PyObj A) (ps : List (PyObj A × PyObj A)) (hne : ps ≠ []) (b : Bound A)
    (mv : PyTree ℝ → PyObj A → PyObj A → Except Err (PyTree ℝ))
    (hb : ∀ g : (PyTree ℝ → Except Err (PyTree ℝ)) → Except Err (PyTree ℝ), b.pass rows mv (liftReduce reduceAdd) g data =
          (processBatches (fun xy => g (fun v => mv v xy.1 xy.2)) (liftReduce reduceAdd) ps, data))
    (f : PyObj A × PyObj A → Vec p →ₗ[ℝ] Vec p)
    (hmv : ∀ xy ∈ ps, ∀ x t, IsTree params x t → ∃ w, mv t xy.1 xy.2 = .ok w ∧ IsTree params (f xy x) w) (k : LaplaceKind p) :
    (curvAlgOf params k).runJit rows mv (liftReduce reduceAdd) b data = estimateOf (LinearMap.toMatrix' (ps.map f).sum) k := by
  -- the same run, on one pseudo batch whose product is the sum over the loader
  let mv' : PyTree ℝ → PyObj A → PyObj A → Except Err (PyTree ℝ) := fun v _ _ =>
    processBatches (fun xy => mv v xy.1 xy.2) (liftReduce reduceAdd) ps
  let d : PyObj A := .dct [("input", .other), ("target", .other)]
  have hd : mvOnBatch mv' d = fun v => processBatches (fun xy => mv v xy.1 xy.2) (liftReduce reduceAdd) ps := rfl
  have hb' : ∀ g : (PyTree ℝ → Except Err (PyTree ℝ)) → Except Err (PyTree ℝ),
      (Bound.single d).pass rows mv' (liftReduce reduceAdd) g data =
        (processBatches (fun xy => g (fun v => mv' v xy.1 xy.2)) (liftReduce reduceAdd) [(.other, .other)], data) := by
    intro g
    rw [processBatches_singleton]; rfl
  have hrun := run_curvAlg rows params hp hsz data [(.other, .other)] (by simp) (Bound.single d) mv' hb' (fun _ => (ps.map f).sum)
    (fun xy _ x t ht => batches_call params (fun xy v => mv v xy.1 xy.2) f ps hne hmv x t ht) k
  have hsame : ∀ (alg : CurvAlg (PyTree ℝ) (PyTree ℝ) (CurvEstimate p)),
      alg.runJit rows mv (liftReduce reduceAdd) b data = alg.run rows mv' (liftReduce reduceAdd) (Bound.single d) data := by
    intro alg
    induction alg with
    | done r => rfl
    | pass g k ih =>
      simp only [CurvAlg.runJit, CurvAlg.run, passJit_eq hb g, Bound.pass, hd]
      cases g (fun v => processBatches (fun xy => mv v xy.1 xy.2) (liftReduce reduceAdd) ps) with
      | error e => rfl
      | ok w => exact ih w
  rw [hsame, hrun]
  simp

/-! ### `laplace` for an arbitrary product -/

theorem convertToEnum_idem {lower : String → String} {vals : List String} {e ct : EnumArg}
    (h : convertToEnum lower vals false e = .ok ct) : convertToEnum lower vals false ct = .ok ct := by
  cases e with
  | member v => simp only [convertToEnum, Except.ok.injEq] at h; subst h; rfl
  | str s =>
    simp only [convertToEnum] at h
    split at h
    · simp only [Except.ok.injEq] at h; subst h; rfl
    · simp at h
  | other => simp [convertToEnum] at h

/-- Whatever product is used: if it is a linear map on every batch, `laplace` returns the estimate of the sum. -/
theorem laplaceWith_generic (opts : LaplaceOptions) (lower : String → String) (rows : A → Except Err (List A))
    (points : PyObj A → PyObj A → Except Err (List (X × Y))) (model : X → Vec p → Vec c)
    (bmodel : PyObj A → Except Err (Σ B : ℕ, Vec p → Fin B → Vec c)) (params : PyTree ℝ) (hp : 0 < p) (hwf : WFTree params)
    (θ : Vec p) (hθ : entries params = List.ofFn θ) (data : PyObj A) (ps : List (PyObj A × PyObj A)) (hdata : DataOf data ps)
    (lossFn : LossObj c Y (PyObj A)) (curvType ct : EnumArg) (hct : convertToEnum lower curvApproxValues false curvType = .ok ct)
    (kind : EnumArg → LaplaceKind p) (numCurv numTotal : ℕ) (hN : numTotal ≠ 0)
    (mv : PyTree ℝ → PyObj A → PyObj A → Except Err (PyTree ℝ))
    (hm : ggnTreeProduct opts.vmapOverData points model bmodel params lossFn ((numCurv : ℝ) / numTotal) = .ok mv)
    (f : PyObj A × PyObj A → Vec p →ₗ[ℝ] Vec p)
    (hmv : ∀ xy ∈ ps, ∀ x t, IsTree params x t → ∃ w, mv t xy.1 xy.2 = .ok w ∧ IsTree params (f xy x) w) :
    laplaceWith opts lower rows points model bmodel params data lossFn curvType kind numCurv numTotal =
      (estimateOf (LinearMap.toMatrix' (ps.map f).sum) (kind ct)).map
        (fun est => (fun a s => setPosteriorFn est (.tree params) a s, est)) := by
  have hsz : numEntries params = p := by rw [← length_entries hwf, hθ, List.length_ofFn]
  obtain ⟨hne, b, hb1, hb2⟩ := dataOf_pass hdata rows
  obtain ⟨w, hw1, hw2⟩ := batches_call params (fun xy v => mv v xy.1 xy.2) f ps hne hmv θ params ⟨rfl, hwf, hθ⟩
  have hrun := run_curvAlg rows params hp hsz data ps hne b mv (hb2 mv) f hmv (kind ct)
  have hrunJ := runJit_curvAlg rows params hp hsz data ps hne b mv (hb2 mv) f hmv (kind ct)
  have hg : ggnApi rows mv (liftReduce reduceAdd) (shapesMatchParams params) params data none = .ok (b, data) := by
    simp only [ggnApi, hb1, ok_bind, hb2, hw1, shapesMatchParams_true params w hw2.1, if_true]
    rfl
  simp only [laplaceWith, hct, ok_bind, hN, if_false, hm, hg]
  cases opts.curvMvJit with
  | false =>
    simp only [hrun]
    cases estimateOf (LinearMap.toMatrix' (ps.map f).sum) (kind ct) <;> rfl
  | true =>
    simp only [hrunJ]
    cases estimateOf (LinearMap.toMatrix' (ps.map f).sum) (kind ct) <;> rfl

/-! ### The products are linear -/

theorem lossHess_lin {lossFn : LossArg c Y} {H : Vec c → Vec c → Y → Vec c} (h : createLossHessianMv lossFn = .ok H)
    (z : Vec c) (t : Y) (a b : ℝ) (u v : Vec c) : H (a • u + b • v) z t = a • H u z t + b • H v z t := by
  cases lossFn with
  | none => simp [createLossHessianMv] at h
  | name s => exact (goodLossHess_named s H h).lin z t a b u v
  | callable ℓ =>
    simp only [createLossHessianMv, Except.ok.injEq] at h
    subst h
    simp only [hvp, map_add, map_smul]
  | other => simp [createLossHessianMv] at h

/-- The GGN product of one batch as a linear map. -/
noncomputable def ggnLin (model : X → Vec p → Vec c) (θ : Vec p) (H : Vec c → Vec c → Y → Vec c)
    (hH : ∀ (z : Vec c) (t : Y) (a b : ℝ) (u v : Vec c), H (a • u + b • v) z t = a • H u z t + b • H v z t) (factor : ℝ) (ss : List (X × Y)) : Vec p →ₗ[ℝ] Vec p :=
  LinearMap.mk (⟨fun v => ggnMvWithoutData model θ H factor v (fun i : Fin ss.length => ss[i]), by
      intro u v
      funext j
      have h1 : ∀ i : Fin ss.length, ∀ z t, H (fderiv ℝ (fwd model fun i : Fin ss.length => ss[i]) θ (u + v) i) z t =
          H (fderiv ℝ (fwd model fun i : Fin ss.length => ss[i]) θ u i) z t +
          H (fderiv ℝ (fwd model fun i : Fin ss.length => ss[i]) θ v i) z t := by
        intro i z t
        have := hH z t 1 1 (fderiv ℝ (fwd model fun i : Fin ss.length => ss[i]) θ u i) (fderiv ℝ (fwd model fun i : Fin ss.length => ss[i]) θ v i)
        simpa only [one_smul, map_add, Pi.add_apply] using this
      simp only [ggnMvWithoutData, linTranspose, Pi.add_apply, h1, mul_add, Finset.sum_add_distrib]⟩) (by
    intro a v
    funext j
    have h1 : ∀ i : Fin ss.length, ∀ z t, H (fderiv ℝ (fwd model fun i : Fin ss.length => ss[i]) θ (a • v) i) z t =
        a • H (fderiv ℝ (fwd model fun i : Fin ss.length => ss[i]) θ v i) z t := by
      intro i z t
      have := hH z t a 0 (fderiv ℝ (fwd model fun i : Fin ss.length => ss[i]) θ v i) 0
      simpa only [zero_smul, add_zero, map_smul, Pi.smul_apply] using this
    simp only [ggnMvWithoutData, linTranspose, Pi.smul_apply, h1, smul_eq_mul, RingHom.id_apply, Finset.mul_sum]
    exact Finset.sum_congr rfl fun i _ => Finset.sum_congr rfl fun k _ => by ring)

theorem ggnTreeMv_lin (points : PyObj A → PyObj A → Except Err (List (X × Y))) (model : X → Vec p → Vec c)
    (params : PyTree ℝ) (hp : 0 < p) (hsz : numEntries params = p) (θ : Vec p) (hθ : entries params = List.ofFn θ)
    (H : Vec c → Vec c → Y → Vec c) (hH : ∀ (z : Vec c) (t : Y) (a b : ℝ) (u v : Vec c), H (a • u + b • v) z t = a • H u z t + b • H v z t) (factor : ℝ)
    (x y : PyObj A) (ss : List (X × Y)) (hss : points x y = .ok ss) (v : Vec p) (t : PyTree ℝ) (ht : IsTree params v t) :
    ∃ w, ggnTreeMv points model params H factor t x y = .ok w ∧ IsTree params (ggnLin model θ H hH factor ss v) w := by
  have hlne : params.leaves ≠ [] := leaves_ne_of_entries hp hθ
  obtain ⟨w, hw⟩ := unflattenLike_isOk params hlne (List.ofFn (ggnLin model θ H hH factor ss v)) (by simp [hsz])
  refine ⟨w, ?_, (unflattenLike_ok_iff params hlne _ w).1 hw⟩
  simp only [ggnTreeMv, asParams_eq hθ, asParams_eq ht.2.2, hss, ok_bind]
  exact hw

/-! ### One call per batch instead of one per sample -/

theorem hvp2_sum {B : ℕ} (s : ℝ) (ℓ : Fin B → Vec c → ℝ) (hℓ : ∀ i, ContDiff ℝ 2 (ℓ i)) (z v : Fin B → Vec c) :
    hvp2 (fun z => s * ∑ i, ℓ i (z i)) z v = fun i => s • hvp (ℓ i) (z i) (v i) := by
  have hd : ∀ i x, HasFDerivAt (ℓ i) (fderiv ℝ (ℓ i) x) x := fun i x =>
    ((hℓ i).differentiable (by norm_num) x).hasFDerivAt
  have hL : ∀ z : Fin B → Vec c, HasFDerivAt (fun z : Fin B → Vec c => s * ∑ i, ℓ i (z i))
      (s • ∑ i, (fderiv ℝ (ℓ i) (z i)).comp (ContinuousLinearMap.proj i)) z := by
    intro z
    refine HasFDerivAt.const_mul (HasFDerivAt.fun_sum fun i _ => ?_) s
    exact (hd i (z i)).comp z (ContinuousLinearMap.proj (R := ℝ) (φ := fun _ : Fin B => Vec c) i).hasFDerivAt
  have hg : jaxGrad2 (fun z : Fin B → Vec c => s * ∑ i, ℓ i (z i)) = fun z i => s • jaxGrad (ℓ i) (z i) := by
    funext z i k
    simp only [jaxGrad2, (hL z).fderiv, smul_apply, sum_apply,
      ContinuousLinearMap.comp_apply, ContinuousLinearMap.proj_apply, Pi.smul_apply, jaxGrad]
    congr 1
    rw [Finset.sum_eq_single i]
    · simp
    · intro j _ hj
      rw [Pi.single_eq_of_ne hj, map_zero]
    · simp
  have hgd : ∀ i x, HasFDerivAt (jaxGrad (ℓ i)) (fderiv ℝ (jaxGrad (ℓ i)) x) x := by
    intro i x
    have h1 : ContDiff ℝ 1 (fderiv ℝ (ℓ i)) := (hℓ i).fderiv_right (by norm_num)
    refine DifferentiableAt.hasFDerivAt ?_
    rw [differentiableAt_pi]
    intro k
    exact ((h1.differentiable (by norm_num)) x).clm_apply (differentiableAt_const _)
  have hG : HasFDerivAt (fun z : Fin B → Vec c => fun i => s • jaxGrad (ℓ i) (z i))
      (ContinuousLinearMap.pi fun i => s • (fderiv ℝ (jaxGrad (ℓ i)) (z i)).comp (ContinuousLinearMap.proj i)) z := by
    rw [hasFDerivAt_pi]
    intro i
    exact ((hgd i (z i)).comp z (ContinuousLinearMap.proj (R := ℝ) (φ := fun _ : Fin B => Vec c) i).hasFDerivAt).const_smul s
  rw [hvp2, hg, hG.fderiv]
  rfl

/-- If the loss Hessian product of a batch is computed row by row, both calling conventions give the same product. -/
theorem ggnMvBatch_eq (model : X → Vec p → Vec c) (θ : Vec p) (H : Vec c → Vec c → Y → Vec c)
    (H' : (B : ℕ) → (Fin B → Vec c) → (Fin B → Vec c) → YB → Except Err (Fin B → Vec c)) (factor : ℝ) (ss : List (X × Y))
    (f : Σ B : ℕ, Vec p → Fin B → Vec c) (hf : BatchForward model ss f) (y : YB)
    (hrow : ∀ jv z : Fin ss.length → Vec c, H' ss.length jv z y = .ok fun i => H (jv i) (z i) (ss[i]).2) (v : Vec p) :
    ggnMvBatch f.2 θ (H' f.1) factor v y = .ok (ggnMvWithoutData model θ H factor v (fun i : Fin ss.length => ss[i])) := by
  obtain ⟨B, f⟩ := f
  obtain ⟨rfl, h2⟩ := hf
  have e : f = fwd model (fun i : Fin ss.length => ss[i]) := by
    funext θ i
    have := congrArg (fun l => l[i.val]?) (h2 θ)
    simpa [List.getElem?_ofFn, i.isLt, fwd] using this
  subst e
  simp only [ggnMvBatch, hrow, ok_bind]
  rfl

theorem rowwise_of_actsBySample {lossFn : LossObj c Y YB} {ss : List (X × Y)} {y : YB} (h : ActsBySample lossFn ss y)
    {H : Vec c → Vec c → Y → Vec c} (hH : createLossHessianMv lossFn.perSample = .ok H) :
    ∃ H', createLossHessianMvBatch lossFn = .ok H' ∧
      ∀ jv z : Fin ss.length → Vec c, H' ss.length jv z y = .ok fun i => H (jv i) (z i) (ss[i]).2 := by
  rcases h with rfl | rfl | rfl | ⟨single, batch, rfl, hc, hs⟩
  · obtain rfl : (fun jv _ _ => mseHessianMv jv : Vec c → Vec c → Y → Vec c) = H := by
      simpa [LossObj.perSample, createLossHessianMv] using hH
    exact ⟨fun _ jv _ _ => .ok fun i => mseHessianMv (jv i), by simp [createLossHessianMvBatch], fun _ _ => rfl⟩
  · obtain rfl : (fun jv pred _ => bceHessianMv jv pred : Vec c → Vec c → Y → Vec c) = H := by
      simpa [LossObj.perSample, createLossHessianMv] using hH
    exact ⟨fun _ jv pred _ => .ok fun i => bceHessianMv (jv i) (pred i), by simp [createLossHessianMvBatch], fun _ _ => rfl⟩
  · obtain rfl : (fun jv _ _ => jv : Vec c → Vec c → Y → Vec c) = H := by
      simpa [LossObj.perSample, createLossHessianMv] using hH
    exact ⟨fun _ jv _ _ => .ok jv, by simp [createLossHessianMvBatch], fun _ _ => rfl⟩
  · simp only [LossObj.perSample, createLossHessianMv, Except.ok.injEq] at hH
    subst hH
    refine ⟨_, rfl, fun jv z => ?_⟩
    have e : (fun z : Fin ss.length → Vec c => batch ss.length z y) =
        fun z => (1 : ℝ) * ∑ i, (fun i : Fin ss.length => fun x : Vec c => single x (ss[i]).2) i (z i) := by
      funext z; rw [one_mul]; exact hs z
    simp only [e, hvp2_sum 1 (fun i : Fin ss.length => fun x : Vec c => single x (ss[i]).2)
      (fun i => hc _ (List.getElem_mem i.isLt)) z jv, one_smul]

/-! ### The claims -/

/-- **C58 (defaults).** With the default options this is the function of C47. -/
theorem C58_default_options (lower : String → String) (rows : A → Except Err (List A))
    (points : PyObj A → PyObj A → Except Err (List (X × Y))) (model : X → Vec p → Vec c)
    (bmodel : PyObj A → Except Err (Σ B : ℕ, Vec p → Fin B → Vec c)) (params : PyTree ℝ) (data : PyObj A)
    (lossFn : LossObj c Y (PyObj A)) (curvType : EnumArg) (kind : EnumArg → LaplaceKind p) (numCurv numTotal : ℕ) :
    laplaceWith {} lower rows points model bmodel params data lossFn curvType kind numCurv numTotal =
      laplace lower rows points model params data lossFn.perSample curvType kind numCurv numTotal := by
  simp only [laplaceWith, laplace]
  cases hct : convertToEnum lower curvApproxValues false curvType with
  | error e => rfl
  | ok ct =>
    simp only [ok_bind]
    by_cases hN : numTotal = 0
    · simp only [hN, if_true]
    · simp only [hN, if_false, ggnTreeProduct]
      cases createLossHessianMv lossFn.perSample with
      | error e => rfl
      | ok H =>
        simp only [ok_bind, laplaceCurv, convertToEnum_idem hct, hN, if_false, pure, Except.pure]
        cases ggnApi rows (ggnTreeMv points model params H ((numCurv : ℝ) / numTotal)) (liftReduce reduceAdd)
          (shapesMatchParams params) params data none <;> rfl

/-- **C58 (the options do not change the result).** On data whose batches can be read as samples, `curv_mv_jit=True` gives the same
curvature estimate and posterior function as `curv_mv_jit=False`, for every loss, curvature kind and batching; and so does
`vmap_over_data=False`, provided the model maps a whole batch of inputs to one output row per sample and the loss is a sum over the
samples (`mse`, `binary_cross_entropy`, `none`, or such a callable). -/
theorem C58_options_do_not_matter_partial (opts : LaplaceOptions) (lower : String → String) (rows : A → Except Err (List A))
    (points : PyObj A → PyObj A → Except Err (List (X × Y))) (model : X → Vec p → Vec c)
    (bmodel : PyObj A → Except Err (Σ B : ℕ, Vec p → Fin B → Vec c)) (params : PyTree ℝ) (θ : Vec p) (data : PyObj A)
    (ps : List (PyObj A × PyObj A)) (decode : PyObj A × PyObj A → List (X × Y)) (h : ReadableData points params θ data ps decode)
    (lossFn : LossObj c Y (PyObj A))
    (hb : opts.vmapOverData = false → ∀ xy ∈ ps, (∃ f, bmodel xy.1 = .ok f ∧ BatchForward model (decode xy) f) ∧
      ActsBySample lossFn (decode xy) xy.2)
    (curvType : EnumArg) (kind : EnumArg → LaplaceKind p) (numCurv numTotal : ℕ) :
    laplaceWith opts lower rows points model bmodel params data lossFn curvType kind numCurv numTotal =
      laplace lower rows points model params data lossFn.perSample curvType kind numCurv numTotal := by
  rw [← C58_default_options lower rows points model bmodel]
  cases hct : convertToEnum lower curvApproxValues false curvType with
  | error e => simp only [laplaceWith, hct, error_bind]
  | ok ct =>
  by_cases hN : numTotal = 0
  · simp only [laplaceWith, hct, ok_bind, hN, if_true]
  have hsz : numEntries params = p := by rw [← length_entries h.hwf, h.hθ, List.length_ofFn]
  set factor : ℝ := (numCurv : ℝ) / numTotal with hfac
  cases hH : createLossHessianMv lossFn.perSample with
  | error e =>
    have hm : ∀ o : LaplaceOptions, o.vmapOverData = true →
        ggnTreeProduct o.vmapOverData points model bmodel params lossFn factor = .error e := by
      intro o ho; rw [ho]; simp only [ggnTreeProduct, hH, error_bind]
    by_cases ho : opts.vmapOverData = true
    · simp only [laplaceWith, hct, ok_bind, hN, if_false, ← hfac, hm opts ho, hm {} rfl, error_bind]
    · exfalso
      obtain ⟨hne, -⟩ := dataOf_pass h.hdata rows
      obtain ⟨xy, hxy⟩ := List.exists_mem_of_ne_nil _ hne
      have := (hb (by simpa using ho) xy hxy).2
      rcases this with rfl | rfl | rfl | ⟨single, batch, rfl, -, -⟩ <;> simp [LossObj.perSample, createLossHessianMv] at hH
  | ok H =>
    let f : PyObj A × PyObj A → Vec p →ₗ[ℝ] Vec p := fun xy => ggnLin model θ H (lossHess_lin hH) factor (decode xy)
    have hmv : ∀ xy ∈ ps, ∀ x t, IsTree params x t →
        ∃ w, ggnTreeMv points model params H factor t xy.1 xy.2 = .ok w ∧ IsTree params (f xy x) w := fun xy hxy x t ht =>
      ggnTreeMv_lin points model params h.hp hsz θ h.hθ H (lossHess_lin hH) factor _ _ _ (h.hdec xy hxy) x t ht
    have hm : ∀ o : LaplaceOptions, o.vmapOverData = true →
        ggnTreeProduct o.vmapOverData points model bmodel params lossFn factor = .ok (ggnTreeMv points model params H factor) := by
      intro o ho; rw [ho]; simp only [ggnTreeProduct, hH, ok_bind]; rfl
    rw [laplaceWith_generic {} lower rows points model bmodel params h.hp h.hwf θ h.hθ data ps h.hdata lossFn curvType ct hct kind
      numCurv numTotal hN _ (hm {} rfl) f hmv]
    by_cases ho : opts.vmapOverData = true
    · exact laplaceWith_generic opts lower rows points model bmodel params h.hp h.hwf θ h.hθ data ps h.hdata lossFn curvType ct hct kind
        numCurv numTotal hN _ (hm opts ho) f hmv
    · have ho' : opts.vmapOverData = false := by simpa using ho
      obtain ⟨hne, -⟩ := dataOf_pass h.hdata rows
      obtain ⟨xy0, hxy0⟩ := List.exists_mem_of_ne_nil _ hne
      obtain ⟨H', hH', -⟩ := rowwise_of_actsBySample (hb ho' xy0 hxy0).2 hH
      refine laplaceWith_generic opts lower rows points model bmodel params h.hp h.hwf θ h.hθ data ps h.hdata lossFn curvType ct hct kind
        numCurv numTotal hN (ggnTreeMvNoVmap bmodel params H' factor) ?_ f ?_
      · rw [ho']; simp only [ggnTreeProduct, hH', ok_bind]; rfl
      · intro xy hxy x t ht
        obtain ⟨w, hw1, hw2⟩ := hmv xy hxy x t ht
        refine ⟨w, ?_, hw2⟩
        rw [← hw1]
        obtain ⟨⟨g, hg1, hg2⟩, hact⟩ := hb ho' xy hxy
        obtain ⟨H'', hH'', hrow⟩ := rowwise_of_actsBySample hact hH
        obtain rfl : H' = H'' := by rw [hH'] at hH''; exact Except.ok.inj hH''
        simp only [ggnTreeMvNoVmap, ggnTreeMv, asParams_eq h.hθ, asParams_eq ht.2.2, ok_bind, hg1, h.hdec xy hxy,
          ggnMvBatch_eq model θ H H' factor (decode xy) g hg2 xy.2 hrow]

/-- **C58 (Hessian).** The Hessian product of a model called once per batch is the one of the model called sample by sample, for
every loss and every scaling (including the exceptions). -/
theorem C58_hessian {B : ℕ} (model : X → Vec p → Vec c) (θ : Vec p) (data : Fin B → X × Vec c) (f : Vec p → Fin B → Vec c)
    (hf : ∀ θ i, f θ i = model (data i).1 θ) (lossFn : HessLossArg B c) (numCurv numTotal : Option ℕ) :
    createHessianMvBatch f θ (fun i => (data i).2) lossFn numCurv numTotal = createHessianMv model θ data lossFn numCurv numTotal := by
  obtain rfl : f = fwd model data := by funext θ i; exact hf θ i
  simp only [createHessianMvBatch, createHessianMv]
  cases curvScalingFactor B numCurv numTotal with
  | error e => rfl
  | ok factor =>
    simp only [ok_bind]
    cases lossFn with
    | other => rfl
    | callable ℓ => rfl
    | name s =>
      simp only [concatenateModelAndLossFnBatch, concatenateModelAndLossFn]
      split
      · rfl
      · split <;> rfl

theorem processBatches_first_error {B R S : Type} {function : B → Except Err R} {reduce : R → Option S → Except Err (R × S)} {b : B}
    {bs : List B} {e : Err} (h : function b = .error e) : processBatches function reduce (b :: bs) = .error e := by
  simp only [processBatches, processLoop, h, error_bind]

/-- **C58 (softmax cross-entropy needs `vmap_over_data=True`).** With `loss_fn="cross_entropy"` and at least two classes,
`vmap_over_data=False` makes `laplace` raise `TypeError`, whatever the other arguments are, as soon as the first batch has a
sample: the softmax Hessian product flattens the whole batch of probabilities. -/
theorem C58_cross_entropy_raises (jit : Bool) (lower : String → String) (rows : A → Except Err (List A))
    (points : PyObj A → PyObj A → Except Err (List (X × Y))) (model : X → Vec p → Vec c)
    (bmodel : PyObj A → Except Err (Σ B : ℕ, Vec p → Fin B → Vec c)) (params : PyTree ℝ) (θ : Vec p) (data : PyObj A)
    (ps : List (PyObj A × PyObj A)) (decode : PyObj A × PyObj A → List (X × Y)) (h : ReadableData points params θ data ps decode)
    (hc : 2 ≤ c) (hfirst : ∃ xy rest f, ps = xy :: rest ∧ bmodel xy.1 = .ok f ∧ 0 < f.1)
    (curvType ct : EnumArg) (hct : convertToEnum lower curvApproxValues false curvType = .ok ct) (kind : EnumArg → LaplaceKind p)
    (numCurv numTotal : ℕ) (hN : numTotal ≠ 0) :
    laplaceWith ⟨false, jit⟩ lower rows points model bmodel params data (.name "cross_entropy") curvType kind numCurv numTotal =
      .error .typeError := by
  obtain ⟨xy, rest, f, rfl, hf, hB⟩ := hfirst
  obtain ⟨-, b, hb1, hb2⟩ := dataOf_pass h.hdata rows
  have hm : ggnTreeProduct false points model bmodel params (.name "cross_entropy") ((numCurv : ℝ) / numTotal) =
      .ok (ggnTreeMvNoVmap bmodel params (fun _ jv pred _ => ceHessianMvBatch jv pred) ((numCurv : ℝ) / numTotal)) := by
    simp [ggnTreeProduct, createLossHessianMvBatch]
  have hne : ¬ f.1 * c = f.1 := by
    intro e
    have := Nat.mul_le_mul_left f.1 hc
    omega
  have herr : ggnTreeMvNoVmap bmodel params (fun _ jv pred _ => ceHessianMvBatch jv pred) ((numCurv : ℝ) / numTotal) params xy.1 xy.2 =
      .error .typeError := by
    simp only [ggnTreeMvNoVmap, asParams_eq h.hθ, ok_bind, hf, ggnMvBatch, ceHessianMvBatch, hne, dif_neg, not_false_eq_true, error_bind]
  have hpe : processBatches (fun xy => ggnTreeMvNoVmap bmodel params (fun _ jv pred _ => ceHessianMvBatch jv pred)
      ((numCurv : ℝ) / numTotal) params xy.1 xy.2) (liftReduce reduceAdd) (xy :: rest) = .error .typeError :=
    processBatches_first_error herr
  simp only [laplaceWith, hct, ok_bind, hN, if_false, hm, ggnApi, hb1, hb2, hpe, error_bind]

/-- **C58 (mean losses).** A batched loss that returns the *mean* over the samples of the batch divides the curvature by the batch
size: with batches of `B` samples each, `laplace(..., num_total_samples=N, vmap_over_data=False)` is
`laplace(..., num_total_samples=N·B, vmap_over_data=True)` with the loss of one sample. -/
theorem C58_mean_loss (jit : Bool) (lower : String → String) (rows : A → Except Err (List A))
    (points : PyObj A → PyObj A → Except Err (List (X × Y))) (model : X → Vec p → Vec c)
    (bmodel : PyObj A → Except Err (Σ B : ℕ, Vec p → Fin B → Vec c)) (params : PyTree ℝ) (θ : Vec p) (data : PyObj A)
    (ps : List (PyObj A × PyObj A)) (decode : PyObj A × PyObj A → List (X × Y)) (h : ReadableData points params θ data ps decode)
    (B : ℕ) (hB : ∀ xy ∈ ps, (decode xy).length = B) (hB0 : B ≠ 0)
    (hm : ∀ xy ∈ ps, ∃ f, bmodel xy.1 = .ok f ∧ BatchForward model (decode xy) f)
    (single : Vec c → Y → ℝ) (batch : (B : ℕ) → (Fin B → Vec c) → PyObj A → ℝ) (hc : ∀ t, ContDiff ℝ 2 fun z => single z t)
    (hmean : ∀ xy ∈ ps, ∀ z : Fin (decode xy).length → Vec c,
      batch (decode xy).length z xy.2 = (∑ i, single (z i) ((decode xy)[i]).2) / (decode xy).length)
    (curvType : EnumArg) (kind : EnumArg → LaplaceKind p) (numCurv numTotal : ℕ) :
    laplaceWith ⟨false, jit⟩ lower rows points model bmodel params data (.callable single batch) curvType kind numCurv numTotal =
      laplace lower rows points model params data (.callable single) curvType kind numCurv (numTotal * B) := by
  have e0 : (LossArg.callable single : LossArg c Y) = LossObj.perSample (YB := PyObj A) (.callable single batch) := rfl
  rw [e0, ← C58_default_options lower rows points model bmodel]
  cases hct : convertToEnum lower curvApproxValues false curvType with
  | error e => simp only [laplaceWith, hct, error_bind]
  | ok ct =>
  by_cases hN : numTotal = 0
  · simp only [laplaceWith, hct, ok_bind, hN, zero_mul, if_true]
  have hsz : numEntries params = p := by rw [← length_entries h.hwf, h.hθ, List.length_ofFn]
  have hH : createLossHessianMv (LossArg.callable single : LossArg c Y) = .ok (fun jv z t => hvp (fun x => single x t) z jv) := rfl
  set H : Vec c → Vec c → Y → Vec c := fun jv z t => hvp (fun x => single x t) z jv with hHd
  set factor : ℝ := (numCurv : ℝ) / ((numTotal * B : ℕ) : ℝ) with hfac
  let f : PyObj A × PyObj A → Vec p →ₗ[ℝ] Vec p := fun xy => ggnLin model θ H (lossHess_lin hH) factor (decode xy)
  have hmv : ∀ xy ∈ ps, ∀ x t, IsTree params x t →
      ∃ w, ggnTreeMv points model params H factor t xy.1 xy.2 = .ok w ∧ IsTree params (f xy x) w := fun xy hxy x t ht =>
    ggnTreeMv_lin points model params h.hp hsz θ h.hθ H (lossHess_lin hH) factor _ _ _ (h.hdec xy hxy) x t ht
  rw [laplaceWith_generic {} lower rows points model bmodel params h.hp h.hwf θ h.hθ data ps h.hdata _ curvType ct hct kind
      numCurv (numTotal * B) (Nat.mul_ne_zero hN hB0) (ggnTreeMv points model params H factor) rfl f hmv]
  let H' : (B : ℕ) → (Fin B → Vec c) → (Fin B → Vec c) → PyObj A → Except Err (Fin B → Vec c) :=
    fun B jv pred target => .ok (hvp2 (fun z => batch B z target) pred jv)
  refine laplaceWith_generic ⟨false, jit⟩ lower rows points model bmodel params h.hp h.hwf θ h.hθ data ps h.hdata _ curvType ct hct kind
    numCurv numTotal hN (ggnTreeMvNoVmap bmodel params H' ((numCurv : ℝ) / numTotal)) rfl f ?_
  intro xy hxy x t ht
  obtain ⟨w, hw1, hw2⟩ := hmv xy hxy x t ht
  refine ⟨w, ?_, hw2⟩
  rw [← hw1]
  obtain ⟨g, hg1, hg2⟩ := hm xy hxy
  have hlen : ((decode xy).length : ℝ) = B := by exact_mod_cast hB xy hxy
  have hrow : ∀ jv z : Fin (decode xy).length → Vec c, H' (decode xy).length jv z xy.2 =
      .ok fun i => (fun jv z t => ((B : ℝ)⁻¹) • H jv z t) (jv i) (z i) ((decode xy)[i]).2 := by
    intro jv z
    have e : (fun z : Fin (decode xy).length → Vec c => batch (decode xy).length z xy.2) =
        fun z => ((B : ℝ)⁻¹) * ∑ i, (fun i : Fin (decode xy).length => fun x : Vec c => single x ((decode xy)[i]).2) i (z i) := by
      funext z; rw [hmean xy hxy z, hlen, div_eq_inv_mul]
    simp only [H', e, hvp2_sum _ (fun i : Fin (decode xy).length => fun x : Vec c => single x ((decode xy)[i]).2) (fun i => hc _) z jv, hHd]
  suffices hsc : ggnMvWithoutData model θ (fun jv z t => ((B : ℝ)⁻¹) • H jv z t) ((numCurv : ℝ) / numTotal) x
      (fun i : Fin (decode xy).length => (decode xy)[i]) =
      ggnMvWithoutData model θ H factor x (fun i : Fin (decode xy).length => (decode xy)[i]) by
    simp only [ggnTreeMvNoVmap, ggnTreeMv, asParams_eq h.hθ, asParams_eq ht.2.2, ok_bind, hg1, h.hdec xy hxy,
      ggnMvBatch_eq model θ (fun jv z t => ((B : ℝ)⁻¹) • H jv z t) H' _ (decode xy) g hg2 xy.2 hrow, hsc]
  funext j
  simp only [ggnMvWithoutData, linTranspose, Pi.smul_apply, smul_eq_mul, hfac, Finset.mul_sum]
  refine Finset.sum_congr rfl fun i _ => Finset.sum_congr rfl fun k _ => ?_
  have : (numTotal : ℝ) ≠ 0 := by exact_mod_cast hN
  have : (B : ℝ) ≠ 0 := by exact_mod_cast hB0
  push_cast
  field_simp

/-- **C58 (one output).** With a single output the softmax is constant and the curvature of `"cross_entropy"` is zero; with
`vmap_over_data=False` the code instead subtracts the *sum of the Jacobian products of the whole batch* from each of them. -/
theorem C58_cross_entropy_one_output {B : ℕ} (jv pred : Fin B → Vec 1) :
    ceHessianMvBatch jv pred = .ok (fun i k => jv i k - ∑ m, jv m k) ∧ ∀ i, ceHessianMv (jv i) (pred i) = 0 := by
  have hs : ∀ z : Vec 1, softmax z = fun _ => 1 := by
    intro z; funext k
    simp [softmax, Subsingleton.elim k 0, Real.exp_ne_zero]
  refine ⟨?_, fun i => ?_⟩
  · simp only [ceHessianMvBatch, mul_one, dif_pos, hs, one_mul]
  · funext k
    simp [ceHessianMv, hs, dotProduct, Subsingleton.elim k 0]

/-! ### Concrete cases that meet the hypotheses -/

section witness

/-- Two batches of two samples, read from arrays. -/
def wPoints : PyObj (List ℝ) → PyObj (List ℝ) → Except Err (List (ℝ × ℝ)) := fun x y => match x, y with
  | .arr xs, .arr ys => .ok (xs.zip ys)
  | _, _ => .error .typeError

def wDecode : PyObj (List ℝ) × PyObj (List ℝ) → List (ℝ × ℝ) := fun xy => match xy.1, xy.2 with
  | .arr xs, .arr ys => xs.zip ys
  | _, _ => []

def wParams : PyTree ℝ := .node "dict(a,b)" [.leaf ⟨[1], [2]⟩, .leaf ⟨[], [3]⟩]

def wPs : List (PyObj (List ℝ) × PyObj (List ℝ)) := [(.arr [1, 2], .arr [5, 6]), (.arr [3, 4], .arr [7, 8])]

def wModel (c : ℕ) : ℝ → Vec 2 → Vec c := fun x t _ => x * t 0 + t 1

/-- The forward pass on a whole array of inputs. -/
def wBatchModel (c : ℕ) : PyObj (List ℝ) → Except Err (Σ B : ℕ, Vec 2 → Fin B → Vec c) := fun x => match x with
  | .arr xs => .ok ⟨xs.length, fun t i _ => xs[i] * t 0 + t 1⟩
  | _ => .error .typeError

theorem wReadable : ReadableData wPoints wParams ![(2 : ℝ), 3]
    (.iter (.reiterable [.tup [.arr [1, 2], .arr [5, 6]], .tup [.arr [3, 4], .arr [7, 8]]])) wPs wDecode where
  hp := by norm_num
  hwf := by
    intro a ha
    simp [wParams, Tree.leaves, Tree.leavesL] at ha
    rcases ha with rfl | rfl <;> rfl
  hθ := by simp [wParams, entries, Tree.leaves, Tree.leavesL, List.ofFn_succ]
  hdata := DataOf.pairs wPs (by simp [wPs])
  hdec := by intro xy hxy; simp [wPs] at hxy; rcases hxy with rfl | rfl <;> rfl

theorem wBatched (c : ℕ) : ∀ xy ∈ wPs, ∃ f, wBatchModel c xy.1 = .ok f ∧ BatchForward (wModel c) (wDecode xy) f := by
  intro xy hxy
  simp [wPs] at hxy
  rcases hxy with rfl | rfl <;>
    exact ⟨_, rfl, rfl, fun θ => by simp [wDecode, List.ofFn_succ]; constructor <;> funext k <;> simp [wModel]⟩

/-- The fourth power of the error of one sample, and its sum and mean over a batch. -/
def wLoss {c : ℕ} (z : Vec (c + 1)) (t : ℝ) : ℝ := (z 0 - t) ^ 4

def wBatchLoss (c : ℕ) (B : ℕ) (z : Fin B → Vec (c + 1)) (y : PyObj (List ℝ)) : ℝ := match y with
  | .arr ys => ∑ i, wLoss (z i) (ys.getD i 0)
  | _ => 0

theorem wLoss_smooth (c : ℕ) (t : ℝ) : ContDiff ℝ 2 fun z : Vec (c + 1) => wLoss z t := by
  unfold wLoss; fun_prop

theorem wBatchLoss_eq (c : ℕ) : ∀ xy ∈ wPs, ∀ z : Fin (wDecode xy).length → Vec (c + 1),
    wBatchLoss c (wDecode xy).length z xy.2 = ∑ i, wLoss (z i) ((wDecode xy)[i]).2 := by
  intro xy hxy
  simp [wPs] at hxy
  rcases hxy with rfl | rfl <;> intro z <;> refine Finset.sum_congr rfl fun i _ => ?_ <;>
    (change Fin 2 at i; fin_cases i <;> rfl)

/-- The hypotheses of `C58_options_do_not_matter_partial` hold for a smooth custom loss and for `"mse"`. -/
example : ReadableData wPoints wParams ![(2 : ℝ), 3]
      (.iter (.reiterable [.tup [.arr [1, 2], .arr [5, 6]], .tup [.arr [3, 4], .arr [7, 8]]])) wPs wDecode ∧
    ∀ lossFn : LossObj 1 ℝ (PyObj (List ℝ)), lossFn = .name "mse" ∨ lossFn = .callable wLoss (wBatchLoss 0) →
      ∀ xy ∈ wPs, (∃ f, wBatchModel 1 xy.1 = .ok f ∧ BatchForward (wModel 1) (wDecode xy) f) ∧ ActsBySample lossFn (wDecode xy) xy.2 := by
  refine ⟨wReadable, fun lossFn h xy hxy => ⟨wBatched 1 xy hxy, ?_⟩⟩
  rcases h with rfl | rfl
  · exact Or.inl rfl
  · exact Or.inr (Or.inr (Or.inr ⟨_, _, rfl, fun s _ => wLoss_smooth 0 _, wBatchLoss_eq 0 xy hxy⟩))

/-- The hypotheses of `C58_mean_loss` hold: batches of two samples and the mean of the same loss. -/
example : (∀ xy ∈ wPs, (wDecode xy).length = 2) ∧ ∀ xy ∈ wPs, ∀ z : Fin (wDecode xy).length → Vec 1,
    (fun B z y => wBatchLoss 0 B z y / B) (wDecode xy).length z xy.2 = (∑ i, wLoss (z i) ((wDecode xy)[i]).2) / (wDecode xy).length := by
  refine ⟨fun xy hxy => ?_, fun xy hxy z => ?_⟩
  · simp [wPs] at hxy
    rcases hxy with rfl | rfl <;> rfl
  · simp only [wBatchLoss_eq 0 xy hxy z]

/-- `C58_cross_entropy_raises` applies to a two-class model on the same data. -/
example : laplaceWith ⟨false, true⟩ (fun s => s) (fun _ => .error .typeError) wPoints (wModel 2) (wBatchModel 2) wParams
    (.iter (.reiterable [.tup [.arr [1, 2], .arr [5, 6]], .tup [.arr [3, 4], .arr [7, 8]]])) (.name "cross_entropy") (.str "full")
    (fun _ => .full) 4 4 = .error .typeError :=
  C58_cross_entropy_raises true _ _ _ _ _ _ _ _ _ _ wReadable le_rfl ⟨_, _, _, rfl, rfl, by decide⟩ _ (.member "full") rfl _ 4 4 (by norm_num)

/-- With one output and two samples the product of `"cross_entropy"` without `vmap` has a *negative* eigenvalue: for the model
`f(x, θ) = θ` it is `-2`. -/
example : ggnMvBatch (p := 1) (c := 1) (B := 2) (YB := Unit) (fun θ _ => θ) (fun _ => 0) (fun jv z _ => ceHessianMvBatch jv z) 1
    (fun _ => 1) () = .ok (fun _ => -2) := by
  have hd : fderiv ℝ (fun (θ : Vec 1) (_ : Fin 2) => θ) (fun _ => 0) = ContinuousLinearMap.pi fun _ => ContinuousLinearMap.id ℝ (Vec 1) := by
    exact (ContinuousLinearMap.pi fun _ : Fin 2 => ContinuousLinearMap.id ℝ (Vec 1)).fderiv
  simp only [ggnMvBatch, (C58_cross_entropy_one_output _ _).1, hd, ok_bind, pure, Except.pure, Except.ok.injEq]
  funext j
  simp [linTranspose, Subsingleton.elim j 0]
  norm_num

end witness

end Laplax.Props
