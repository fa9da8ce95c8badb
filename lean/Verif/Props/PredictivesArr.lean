import Verif.Spec.PredictivesArr
import Verif.Props.MetricsArr
import Verif.Props.NonlinSpecial
import Verif.Props.Predictives

/-! # C78: class probabilities of outputs with any number of axes -/

namespace Laplax.Props
open Laplax Laplax.Spec
open scoped BigOperators Matrix

variable {X K : Type} {p n c : ℕ}

/-! ### Entries -/

theorem flatten_ofFn_get? {a b : ℕ} (g : Fin a → Vec b) (i : Fin a) (k : Fin b) :
    ((List.ofFn fun i => List.ofFn (g i)).flatten)[i.val * b + k.val]? = some (g i k) := by
  have hlen : ((List.ofFn fun i => List.ofFn (g i)).flatten).length = a * b := by
    simp [List.length_flatten, List.map_ofFn, Function.comp_def]
  have hlt : i.val * b + k.val < ((List.ofFn fun i => List.ofFn (g i)).flatten).length := by
    rw [hlen]
    calc i.val * b + k.val < i.val * b + b := by have := k.isLt; omega
      _ = (i.val + 1) * b := by ring
      _ ≤ a * b := Nat.mul_le_mul_right _ i.isLt
  have h := flatten_ofFn_getD g i k
  rw [List.getD_eq_getElem?_getD, List.getElem?_eq_getElem hlt] at h
  rw [List.getElem?_eq_getElem hlt]
  exact congrArg some h

theorem length_blocks {a b : ℕ} (g : Fin a → Vec b) : ((List.ofFn fun i => List.ofFn (g i)).flatten).length = a * b := by
  simp [List.length_flatten, List.map_ofFn, Function.comp_def]

/-- An array cut into blocks along the last axis. -/
theorem scoresAt_blocks {sh : List ℕ} (g : Fin (shapeSize sh) → Vec c) {ix : List ℕ} (hi : IsIndex sh ix) :
    ScoresAt ⟨sh ++ [c], (List.ofFn fun b => List.ofFn (g b)).flatten⟩ ix (g ⟨position sh ix, position_lt hi⟩) := by
  intro k
  unfold entryAt
  rw [position_lastAxis sh ix c k hi]
  exact flatten_ofFn_get? g ⟨position sh ix, position_lt hi⟩ k

/-- An array cut into blocks along the first axis. -/
theorem alongFirst_blocks {rest : List ℕ} (g : Fin c → Vec (shapeSize rest)) {ix : List ℕ} (hi : IsIndex rest ix) :
    AlongFirst ⟨c :: rest, (List.ofFn fun k => List.ofFn (g k)).flatten⟩ ix (fun k => g k ⟨position rest ix, position_lt hi⟩) := by
  intro k
  unfold entryAt
  rw [position]
  exact flatten_ofFn_get? g k ⟨position rest ix, position_lt hi⟩

theorem alongFirst_firstAxis {a : Arr ℝ} {rest : List ℕ} (h : a.shape = c :: rest) (ha : a.WF) {ix : List ℕ} (hi : IsIndex rest ix) :
    AlongFirst a ix (firstAxis a c (shapeSize rest) (position rest ix)) := by
  intro k
  have hlt := position_lt hi
  unfold entryAt firstAxis
  rw [h, position, List.getD_eq_getElem?_getD]
  have : k.val * shapeSize rest + position rest ix < a.data.length := by
    rw [ha, h, shapeSize_cons]
    calc k.val * shapeSize rest + position rest ix < k.val * shapeSize rest + shapeSize rest := by omega
      _ = (k.val + 1) * shapeSize rest := by ring
      _ ≤ c * shapeSize rest := Nat.mul_le_mul_right _ k.isLt
  rw [List.getElem?_eq_getElem this]; rfl

/-! ### The predictives as functions of arrays -/

/-- **C78 (`mean_field_0`).** On means and variances of any shape `(*sh, c)` the probabilities are computed separately at every position of the axes
`sh`, *along the last axis*. -/
theorem C78_mean_field_0 (m v : Arr ℝ) (sh : List ℕ) (hm : m.shape = sh ++ [c]) (hv : v.shape = m.shape) (hmw : m.WF) (hvw : v.WF) :
    ∃ r, meanField0Arr m v = .ok r ∧ r.WF ∧ r.shape = m.shape ∧ ∀ ix, IsIndex sh ix → ∃ z w : Fin c → ℝ,
      ScoresAt m ix z ∧ ScoresAt v ix w ∧ ScoresAt r ix (meanField0Of z w) := by
  refine ⟨⟨m.shape, (List.ofFn fun b : Fin (shapeSize sh) => List.ofFn (meanField0 (lastAxis m c b.val) (lastAxis v c b.val))).flatten⟩, ?_, ?_, rfl, ?_⟩
  · unfold meanField0Arr
    rw [hm, List.getLast?_append]
    simp only [List.getLast?_singleton, Option.some_or, hv, hm, ne_eq, not_true_eq_false, if_false, List.dropLast_concat, range_map_eq_ofFn]
  · simp only [Arr.WF, length_blocks, hm, shapeSize_append]
    simp [shapeSize]
  · intro ix hi
    refine ⟨rowAt m sh c ix, rowAt v sh c ix, scoresAt_row hm hmw hi, scoresAt_row (hv.trans hm) hvw hi, ?_⟩
    have := scoresAt_blocks (fun b : Fin (shapeSize sh) => meanField0 (lastAxis m c b.val) (lastAxis v c b.val)) hi
    rw [hm]
    exact this

/-- **C78 (`mean_field_1`).** On means and variances of any shape `(c, *sh)` the classes are taken *along the first axis*, separately at every position
of the others. -/
theorem C78_mean_field_1 (m v : Arr ℝ) (sh : List ℕ) (hm : m.shape = c :: sh) (hv : v.shape = m.shape) (hmw : m.WF) (hvw : v.WF) :
    ∃ r, meanField1Arr m v = .ok r ∧ r.WF ∧ r.shape = m.shape ∧ ∀ ix, IsIndex sh ix → ∃ z w : Fin c → ℝ,
      AlongFirst m ix z ∧ AlongFirst v ix w ∧ AlongFirst r ix (meanField1Of z w) := by
  refine ⟨⟨m.shape, (List.ofFn fun k : Fin c => List.ofFn fun r : Fin (shapeSize sh) =>
      meanField1 (firstAxis m c (shapeSize sh) r.val) (firstAxis v c (shapeSize sh) r.val) k).flatten⟩, ?_, ?_, rfl, ?_⟩
  · simp only [meanField1Arr, hm, hv, ne_eq, not_true_eq_false, if_false]
  · simp only [Arr.WF, length_blocks, hm, shapeSize_cons]
  · intro ix hi
    refine ⟨_, _, alongFirst_firstAxis hm hmw hi, alongFirst_firstAxis (hv.trans hm) hvw hi, ?_⟩
    have := alongFirst_blocks (fun (k : Fin c) (r : Fin (shapeSize sh)) =>
      meanField1 (firstAxis m c (shapeSize sh) r.val) (firstAxis v c (shapeSize sh) r.val) k) hi
    rw [hm]
    exact this

/-- **C78 (Laplace bridge).** On means and positive variances of any shape `(c, k, *sh)` with `k ≥ 2`, all entries are positive and the
*whole array* sums to one; with fewer than two axes it raises `IndexError`. -/
theorem C78_laplace_bridge (m v : Arr ℝ) (uc : Bool) :
    (∀ k sh, m.shape = c :: k :: sh → v.shape = m.shape → v.WF → 0 < c → 2 ≤ k → 0 < shapeSize sh → (∀ y ∈ v.data, 0 < y) →
      ∃ r, laplaceBridgeArr m v uc = .ok r ∧ r.WF ∧ r.shape = m.shape ∧ (∀ y ∈ r.data, 0 < y) ∧ r.data.sum = 1) ∧
    (m.shape.length ≤ 1 → laplaceBridgeArr m v uc = .error .indexError) := by
  constructor
  · intro k sh hm hv hvw hc hk hpos hvp
    set R := shapeSize (k :: sh) with hR
    have hR0 : 0 < R := by rw [hR, shapeSize_cons]; exact Nat.mul_pos (by omega) hpos
    have hlen : v.data.length = c * R := by rw [hvw, hv, hm, shapeSize_cons]
    have hvpos : ∀ (j : Fin c) (r : Fin R), 0 < v.data.getD (j.val * R + r.val) 0 := by
      intro j r
      have hlt : j.val * R + r.val < v.data.length := by
        rw [hlen]
        calc j.val * R + r.val < j.val * R + R := by have := r.isLt; omega
          _ = (j.val + 1) * R := by ring
          _ ≤ c * R := Nat.mul_le_mul_right _ j.isLt
      rw [List.getD_eq_getElem?_getD, List.getElem?_eq_getElem hlt]
      exact hvp _ (List.getElem_mem hlt)
    obtain ⟨h1, h2⟩ := bridge_blocks_mass (N := k) hc hR0 hk (fun (j : Fin c) (r : Fin R) => m.data.getD (j.val * R + r.val) 0)
      (fun j r => v.data.getD (j.val * R + r.val) 0) hvpos uc
    refine ⟨⟨m.shape, (List.ofFn fun j => List.ofFn (laplaceBridgeBlocks k (fun (j : Fin c) (r : Fin R) => m.data.getD (j.val * R + r.val) 0)
      (fun j r => v.data.getD (j.val * R + r.val) 0) uc j)).flatten⟩, ?_, ?_, rfl, ?_, ?_⟩
    · simp only [laplaceBridgeArr, hm, hv, ne_eq, not_true_eq_false, if_false]
      rfl
    · simp only [Arr.WF, length_blocks, hm, shapeSize_cons]
      rw [hR, shapeSize_cons]
    · intro y hy
      simp only [List.mem_flatten, List.mem_ofFn] at hy
      obtain ⟨l, ⟨j, rfl⟩, hy⟩ := hy
      obtain ⟨r, rfl⟩ := (List.mem_ofFn' _ _).1 hy
      exact h1 j r
    · rw [List.sum_flatten, List.map_ofFn, List.sum_ofFn]
      simp only [Function.comp_def, List.sum_ofFn]
      exact h2
  · intro h
    unfold laplaceBridgeArr
    match hs : m.shape, h with
    | [], _ => rfl
    | [_], _ => rfl

/-- **C78 (Laplace bridge, values).** On means and variances of any shape `(c, k, *sh)`: with the Dirichlet parameters of the bridge - number of classes `k`,
the *second* axis, classes along the *first* - at every position of the axes behind the first, all entries are divided by one number, the sum of all of them. -/
theorem C78_laplace_bridge_values (m v : Arr ℝ) (uc : Bool) (k : ℕ) (sh : List ℕ) (hm : m.shape = c :: k :: sh) (hv : v.shape = m.shape) (hmw : m.WF)
    (hvw : v.WF) :
    ∃ r, laplaceBridgeArr m v uc = .ok r ∧ IsBridge c k sh uc m v r := by
  set R := shapeSize (k :: sh) with hR
  let zf : Fin R → Fin c → ℝ := fun n => firstAxis m c R n.val
  let wf : Fin R → Fin c → ℝ := fun n => firstAxis v c R n.val
  let g : Fin R → Fin c → ℝ := fun n => if uc then bridgeCorrectedOf k (zf n) (wf n) else bridgeOf k (zf n) (wf n)
  have hval : ∀ (j : Fin c) (n : Fin R), laplaceBridgeBlocks k (fun (j : Fin c) (r : Fin R) => m.data.getD (j.val * R + r.val) 0)
      (fun j r => v.data.getD (j.val * R + r.val) 0) uc j n = g n j / ∑ j, ∑ n, g n j := by
    intro j n
    have hp : ∀ (j : Fin c) (n : Fin R), (1 - 2 / (k : ℝ) + Real.exp ((if uc = true then fun (j : Fin c) (n : Fin R) => zf n j / Real.sqrt ((∑ i, wf n i) / Real.sqrt ((k : ℝ) / 2)) else fun j n => zf n j) j n) *
        (∑ i, Real.exp (-(if uc = true then fun (j : Fin c) (n : Fin R) => zf n j / Real.sqrt ((∑ i, wf n i) / Real.sqrt ((k : ℝ) / 2)) else fun j n => zf n j) i n)) / (k : ℝ) ^ 2) /
        (if uc = true then fun (j : Fin c) (n : Fin R) => wf n j / ((∑ i, wf n i) / Real.sqrt ((k : ℝ) / 2)) else fun j n => wf n j) j n = g n j := by
      intro j n
      cases uc <;> rfl
    have := hp
    unfold laplaceBridgeBlocks dirichletPredictive
    simp only
    refine congrArg₂ (· / ·) (hp j n) ?_
    exact Finset.sum_congr rfl fun j _ => Finset.sum_congr rfl fun n _ => hp j n
  refine ⟨⟨m.shape, (List.ofFn fun j => List.ofFn fun n => g n j / ∑ j, ∑ n, g n j).flatten⟩, ?_, ?_, rfl, g, ?_⟩
  · have : laplaceBridgeArr m v uc = .ok ⟨m.shape, (List.ofFn fun j => List.ofFn (laplaceBridgeBlocks k (fun (j : Fin c) (r : Fin R) => m.data.getD (j.val * R + r.val) 0)
        (fun j r => v.data.getD (j.val * R + r.val) 0) uc j)).flatten⟩ := by
      simp only [laplaceBridgeArr, hm, hv, ne_eq, not_true_eq_false, if_false]
      rfl
    rw [this]
    congr 3
    congr 1; funext j; congr 1; funext n; exact hval j n
  · simp only [Arr.WF, length_blocks, hm, shapeSize_cons]
    rw [hR, shapeSize_cons]
  · intro ix hi
    refine ⟨zf ⟨position (k :: sh) ix, position_lt hi⟩, wf ⟨position (k :: sh) ix, position_lt hi⟩, ⟨position (k :: sh) ix, position_lt hi⟩,
      alongFirst_firstAxis hm hmw hi, alongFirst_firstAxis (hv.trans hm) hvw hi, rfl, rfl, ?_⟩
    rw [hm]
    exact alongFirst_blocks (rest := k :: sh) (fun (j : Fin c) (n : Fin R) => g n j / ∑ j, ∑ n, g n j) hi

/-- **C78 (single numbers).** For outputs without axes every class-probability function raises: `mean_field_0` and the averaged softmax `ValueError`,
`mean_field_1`, `mean_field_2` and the Laplace bridge `IndexError`. -/
theorem C78_scalar_outputs (y : ℝ) (v : Arr ℝ) (uc : Bool) (S : ℕ) (s : List ℝ) :
    meanField0Arr ⟨[], [y]⟩ v = .error .valueError ∧ meanSoftmaxAxis1 ⟨[S], s⟩ = .error .valueError ∧
    meanField1Arr ⟨[], [y]⟩ v = .error .indexError ∧ meanField2Arr ⟨[], [y]⟩ v = .error .indexError ∧
    laplaceBridgeArr ⟨[], [y]⟩ v uc = .error .indexError :=
  ⟨rfl, rfl, rfl, rfl, rfl⟩

/-! ### Through the linearised pushforward -/

/-- The run of the linearised pushforward up to some point, and what the remaining functions do from there. -/
theorem lin_run (rng : Prng K) (hrng : RngOk rng) (net : Net X p) (mean : PyTree ℝ) (hp : 0 < p)
    (hwf : WFTree mean) (θ : Vec p) (hθ : entries mean = List.ofFn θ)
    (posteriorFn : PriorArgs → ℝ → Except Err (Posterior p)) (prior : PriorArgs) (lsf : ℝ) (post : Posterior p)
    (hpost : posteriorFn prior lsf = .ok post) (cov scale : List (PyTree ℝ) → Except Err (PyTree ℝ))
    (hcov : post.covMv post.state = .ok cov) (hscale : post.scaleMv post.state = .ok scale)
    (C R : Matrix (Fin p) (Fin p) ℝ) (hC : ActsOnTrees mean cov (fun v => C *ᵥ v)) (hR : ActsOnTrees mean scale (fun v => R *ᵥ v))
    (kw : PfKwargs K) (hkw : kw.precompute = none) (hb1 : kw.precomputeListBatchSize ≠ some 0)
    (hb2 : kw.linSamplesBatchSize ≠ some 0) (hb3 : kw.weightBatchSize ≠ some 0) (x : X) :
    ∃ (eps : Fin (kw.numSamples.getD 0) → Vec p) (ctx : PfCtx X K p) (aux : PfAux X), Draws rng kw.key mean eps ∧ ctx.kw = kw ∧
      (Setting.mk net mean θ C cov).Ok ∧ LinCtx (Setting.mk net mean θ C cov) x (kw.numSamples.getD 0) (fun i => R *ᵥ eps i) ctx aux ∧
      ∀ fns : List LinFn, (∀ fn ∈ fns, LinUsable net.shape (kw.numSamples.getD 0) (kw.specialPredType.getD "mean_field_0") fn) →
        ∃ r', Meets (linExp (Setting.mk net mean θ C cov) x (fun i => R *ᵥ eps i) (kw.specialPredType.getD "mean_field_0")) r' ∧
          (r'.get? "map").isSome ∧ (∀ fn ∈ fns, (r'.get? (linKey fn)).isSome) ∧ ∀ rest : List LinFn,
            linPushforward rng net mean posteriorFn prior lsf ((LinFn.setup :: fns ++ rest).map LinFn.step) kw x =
              (finalizeLoop ctx (rest.map (LinFn.step (X := X) (K := K) (p := p))) r' aux >>= fun q => .ok q.1) := by
  have hsz : numEntries mean = p := by rw [← length_entries hwf, hθ, List.length_ofFn]
  obtain ⟨z0, hz1, hz2, hz3, hz4, _⟩ := zerosLike_ok (α := ℝ) mean
  have hz4' : entries z0 = List.ofFn (fun _ : Fin p => (0 : ℝ)) := by
    rw [hz4, hsz]; simp
  obtain ⟨g, eps, hg1, hg2, hg3⟩ := weight_samples rng hrng kw.key z0 mean hz2 hz3 hsz (fun _ => 0) hz4' scale
    (fun v => R *ᵥ v) hR (kw.numSamples.getD 0) kw hkw hb1
  let st : Setting X p := ⟨net, mean, θ, C, cov⟩
  have hst : st.Ok := ⟨hp, hwf, hθ, hC⟩
  let dist : DistState X p := ⟨post, kw.numSamples.getD 0, some (pfVjp net mean), some (pfJvp net mean), if kw.numSamples.getD 0 > 0 then some g else none⟩
  let ctx : PfCtx X K p := ⟨x, dist, kw⟩
  let aux0 : PfAux X := { modelFn := net.call, meanParams := mean }
  let cm : Arr ℝ → Except Err (Arr ℝ) := fun vec => do
    let u ← pfVjp net mean x vec
    let w ← cov [u]
    pfJvp net mean x w
  let aux : PfAux X := { modelFn := net.call, meanParams := mean, covMv := some cm, jacMv := some (pfJvp net mean x) }
  have hc : LinCtx st x (kw.numSamples.getD 0) (fun i => R *ᵥ eps i) ctx aux := by
    refine ⟨rfl, rfl, rfl, rfl, rfl, rfl, hcov, ?_, hb2, hb3⟩
    intro hpos
    refine ⟨g, by simp only [ctx, dist]; rw [if_pos hpos], fun i => ?_⟩
    obtain ⟨w, h1, _, _, h4⟩ := hg3 i
    refine ⟨w, h1, ?_⟩
    rw [h4]; congr 1; funext j; simp
  have hdist : getDistState rng mean net post true (kw.numSamples.getD 0) kw.key kw = .ok dist := by
    simp only [getDistState, weightSampleEntry, weightSampleEntry.weightSampleMean, if_true, hz1, ok_bind, hscale, hg1, dist]
    by_cases h : kw.numSamples.getD 0 > 0
    · simp only [h, if_true]; rfl
    · simp only [h, if_false]; rfl
  refine ⟨eps, ctx, aux, hg2, rfl, hst, hc, fun fns hu => ?_⟩
  have hinit : Meets (linExp st x (fun i => R *ᵥ eps i) (kw.specialPredType.getD "mean_field_0"))
      [("map", arrOf net.shape (net.fn x θ))] := by
    intro k v hk
    simp only [Dict.get?] at hk
    split_ifs at hk with h
    subst h
    simp only [Option.some.injEq] at hk
    subst hk
    simp [linExp, linExpected, st]
  obtain ⟨r', g1, g2, g3, g4⟩ := linRun_ok hst hc fns hu _ hinit (by simp [Dict.get?])
  refine ⟨r', g2, g3 _ (by simp [Dict.get?]), g4, fun rest => ?_⟩
  simp only [linPushforward, hpost, ok_bind, hdist, probPredictive, call_eq net x hθ]
  have hset : linSetup (X := X) (K := K) (p := p) [("map", arrOf net.shape (net.fn x θ))] aux0 ctx =
      .ok ([("map", arrOf net.shape (net.fn x θ))], aux) := by
    simp only [linSetup, entryE, ok_bind, ctx, dist, hcov]; rfl
  simp only [List.cons_append, List.map_cons, finalizeFns, finalizeLoop]
  rw [show LinFn.step LinFn.setup = (linSetup : PfStep X K p) from rfl, hset, ok_bind]
  simp only [List.map_append, finalizeLoop_append]
  erw [g1]
  rfl

/-- The ensemble as one array, averaged: the softmax is taken along the first output axis. -/
theorem meanSoftmax_any {S : ℕ} (rest : List ℕ) (s : Fin S → Vec (shapeSize (c :: rest))) :
    ∃ a, meanSoftmaxAxis1 (ensArr (c :: rest) s) = .ok a ∧ a.WF ∧ a.shape = c :: rest ∧ ∀ ix, IsIndex rest ix →
      ∃ z : Fin S → Fin c → ℝ, (∀ i, AlongFirst (arrOf (c :: rest) (s i)) ix (z i)) ∧ AlongFirst a ix (ensSoftmax z) := by
  have hsz : shapeSize (c :: rest) = c * shapeSize rest := shapeSize_cons _ _
  have hpos : ∀ (i : Fin S) (j : Fin c) (r : Fin (shapeSize rest)),
      (ensArr (c :: rest) s).data.getD ((i.val * c + j.val) * shapeSize rest + r.val) 0 = firstAxis (arrOf (c :: rest) (s i)) c (shapeSize rest) r.val j := by
    intro i j r
    have hlt : j.val * shapeSize rest + r.val < shapeSize (c :: rest) := by
      rw [hsz]
      calc j.val * shapeSize rest + r.val < j.val * shapeSize rest + shapeSize rest := by have := r.isLt; omega
        _ = (j.val + 1) * shapeSize rest := by ring
        _ ≤ c * shapeSize rest := Nat.mul_le_mul_right _ j.isLt
    have h := flatten_ofFn_getD s i ⟨j.val * shapeSize rest + r.val, hlt⟩
    rw [show (i.val * c + j.val) * shapeSize rest + r.val = i.val * shapeSize (c :: rest) + (j.val * shapeSize rest + r.val) by rw [hsz]; ring]
    refine h.trans ?_
    simp [firstAxis, arrOf, hlt]
  refine ⟨⟨c :: rest, (List.ofFn fun k : Fin c => List.ofFn fun r : Fin (shapeSize rest) =>
    ensSoftmax (fun i => firstAxis (arrOf (c :: rest) (s i)) c (shapeSize rest) r.val) k).flatten⟩, ?_, ?_, rfl, ?_⟩
  · have h : meanSoftmaxAxis1 (ensArr (c :: rest) s) = .ok ⟨c :: rest, (List.ofFn fun k : Fin c => List.ofFn fun r : Fin (shapeSize rest) =>
      listMean ((List.range S).map fun i =>
        softmax (fun j : Fin c => (ensArr (c :: rest) s).data.getD ((i * c + j.val) * shapeSize rest + r.val) 0) k)).flatten⟩ := rfl
    rw [h]
    simp only [range_map_eq_ofFn, hpos, listMean_ofFn]
    rfl
  · simp only [Arr.WF, length_blocks, shapeSize_cons]
  · intro ix hi
    refine ⟨fun i => firstAxis (arrOf (c :: rest) (s i)) c (shapeSize rest) (position rest ix), fun i => ?_, ?_⟩
    · exact alongFirst_firstAxis rfl (by simp [Arr.WF, arrOf]) hi
    · exact alongFirst_blocks (fun (k : Fin c) (r : Fin (shapeSize rest)) => ensSoftmax (fun i => firstAxis (arrOf (c :: rest) (s i)) c (shapeSize rest) r.val) k) hi

theorem meanSoftmax_any' {S : ℕ} {sh : List ℕ} (rest : List ℕ) (h : sh = c :: rest) (s : Fin S → Vec (shapeSize sh)) :
    ∃ a, meanSoftmaxAxis1 (ensArr sh s) = .ok a ∧ a.WF ∧ a.shape = sh ∧ ∀ ix, IsIndex rest ix →
      ∃ z : Fin S → Fin c → ℝ, (∀ i, AlongFirst (arrOf sh (s i)) ix (z i)) ∧ AlongFirst a ix (ensSoftmax z) := by
  subst h; exact meanSoftmax_any rest s

theorem meanSoftmax_scalar {S : ℕ} {sh : List ℕ} (h : sh = []) (s : Fin S → Vec (shapeSize sh)) :
    meanSoftmaxAxis1 (ensArr sh s) = .error .valueError := by
  subst h; rfl

theorem arrOf_wf (sh : List ℕ) (f : Vec (shapeSize sh)) : (arrOf sh f).WF := by simp [Arr.WF, arrOf]

/-- **C78 (averaged softmax, linearised).** For every model whose output has shape `(c, *sh)`, posterior, positive `num_samples` and every list of
functions before it: `mc_pred_act` is, at every position of the axes `sh`, the average over *all* the drawn samples of the softmax of the sample's
entries *along the first axis*.  For a model returning a single number it raises `ValueError`. -/
theorem C78_linearized_average (rng : Prng K) (hrng : RngOk rng) (net : Net X p) (mean : PyTree ℝ) (hp : 0 < p)
    (hwf : WFTree mean) (θ : Vec p) (hθ : entries mean = List.ofFn θ)
    (posteriorFn : PriorArgs → ℝ → Except Err (Posterior p)) (prior : PriorArgs) (lsf : ℝ) (post : Posterior p)
    (hpost : posteriorFn prior lsf = .ok post) (cov scale : List (PyTree ℝ) → Except Err (PyTree ℝ))
    (hcov : post.covMv post.state = .ok cov) (hscale : post.scaleMv post.state = .ok scale)
    (C R : Matrix (Fin p) (Fin p) ℝ) (hC : ActsOnTrees mean cov (fun v => C *ᵥ v)) (hR : ActsOnTrees mean scale (fun v => R *ᵥ v))
    (kw : PfKwargs K) (hkw : kw.precompute = none) (hb1 : kw.precomputeListBatchSize ≠ some 0)
    (hb2 : kw.linSamplesBatchSize ≠ some 0) (hb3 : kw.weightBatchSize ≠ some 0) (hS : 0 < kw.numSamples.getD 0) (x : X) :
    ∃ eps : Fin (kw.numSamples.getD 0) → Vec p, Draws rng kw.key mean eps ∧
      ∀ s : Fin (kw.numSamples.getD 0) → Vec (shapeSize net.shape), (s = fun i => net.fn x θ + jacobian (net.fn x) θ *ᵥ (R *ᵥ eps i)) →
      ∀ fns : List LinFn, (∀ fn ∈ fns, LinUsable net.shape (kw.numSamples.getD 0) (kw.specialPredType.getD "mean_field_0") fn) →
        (∀ c sh, net.shape = c :: sh →
          ∃ r a, linPushforward rng net mean posteriorFn prior lsf ((LinFn.setup :: fns ++ [LinFn.mcPredAct]).map LinFn.step) kw x = .ok r ∧
            r.get? "mc_pred_act" = some a ∧ r.get? "samples" = some (ensArr net.shape s) ∧ a.WF ∧ a.shape = net.shape ∧
            ∀ ix, IsIndex sh ix → ∃ z : Fin (kw.numSamples.getD 0) → Fin c → ℝ,
              (∀ i, AlongFirst (arrOf net.shape (s i)) ix (z i)) ∧ AlongFirst a ix (ensSoftmax z)) ∧
        (net.shape = [] → ∀ rest : List LinFn,
          linPushforward rng net mean posteriorFn prior lsf ((LinFn.setup :: fns ++ LinFn.mcPredAct :: rest).map LinFn.step) kw x = .error .valueError) := by
  obtain ⟨eps, ctx, aux, hd, hkwc, hst, hc, hrun⟩ := lin_run rng hrng net mean hp hwf θ hθ posteriorFn prior lsf post hpost cov scale hcov hscale C R
    hC hR kw hkw hb1 hb2 hb3 x
  refine ⟨eps, hd, fun s hs fns hu => ?_⟩
  obtain ⟨r', g1, g2, -, g4⟩ := hrun fns hu
  obtain ⟨r1, k1, k2, k3, k4⟩ := (linSamples_ok hst hc (kw.specialPredType.getD "mean_field_0") hS).ensure g1 g2
  have e3 : linExp (Setting.mk net mean θ C cov) x (fun i => R *ᵥ eps i) (kw.specialPredType.getD "mean_field_0") "samples" = some (ensArr net.shape s) := by
    rw [hs]; simp [linExp, linExpected]
  have hs1 : r1.get? "samples" = some (ensArr net.shape s) := by
    obtain ⟨v, hv⟩ := Option.isSome_iff_exists.1 k4
    rw [hv, ← k2 _ _ hv, e3]
  constructor
  · intro c sh hsh
    obtain ⟨a, h1, h2, h3, h4⟩ := meanSoftmax_any' sh hsh s
    refine ⟨r1.set "mc_pred_act" a, a, ?_, by simp [Dict.get?_set], by simp [Dict.get?_set, hs1], h2, h3, h4⟩
    rw [g4]
    simp only [List.map_cons, List.map_nil, finalizeLoop]
    rw [show LinFn.step LinFn.mcPredAct = (linMcPredAct : PfStep X K p) from rfl]
    simp only [linMcPredAct, k1, ok_bind, Dict.getE, hs1, h1]; rfl
  · intro hsh rest
    rw [g4]
    simp only [List.map_cons, finalizeLoop]
    rw [show LinFn.step LinFn.mcPredAct = (linMcPredAct : PfStep X K p) from rfl]
    simp only [linMcPredAct, k1, ok_bind, Dict.getE, hs1, meanSoftmax_scalar hsh s]; rfl

/-- The linearised mean and variance are in place when a variance-based special predictive starts. -/
theorem lin_mean_var {S : ℕ} {s : Setting X p} {x : X} {z : Fin S → Vec p} {ctx : PfCtx X K p} {aux : PfAux X} (hs : s.Ok) (hc : LinCtx s x S z ctx aux)
    (kind : String) {r : Dict (Arr ℝ)} (hr : Meets (linExp s x z kind) r) (hm : (r.get? "map").isSome) :
    ∃ r1 r2, ensureKey "pred_mean" linPredMean r aux ctx = .ok (r1, aux) ∧ r1.getE "pred_mean" = .ok (arrOf s.net.shape (s.net.fn x s.θ)) ∧
      ensureKey "pred_var" linPredVar r1 aux ctx = .ok (r2, aux) ∧ r2.getE "pred_var" = .ok (arrOf s.net.shape fun i => s.kernel x x i i) := by
  obtain ⟨r1, g1, g2, g3, g4⟩ := (linPredMean_ok (aux := aux) (ctx := ctx) (s := s) (x := x) (z := z) kind).ensure hr hm
  have e2 : linExp s x z kind "pred_mean" = some (arrOf s.net.shape (s.net.fn x s.θ)) := by simp [linExp, linExpected]
  have e3 : linExp s x z kind "pred_var" = some (arrOf s.net.shape (fun i => s.kernel x x i i)) := by simp [linExp, linExpected]
  obtain ⟨r2, q1, q2, q3, q4⟩ := (linPredVar_ok hs hc kind).ensure g2 (g3 _ hm)
  exact ⟨r1, r2, g1, getE_of_meets g2 e2 g4, q1, getE_of_meets q2 e3 q4⟩

/-- The dense output covariance of a model whose output has two or more axes has three or more. -/
theorem dense_cov_rank {s : Setting X p} (hs : s.Ok) (x : X) (hrank : 2 ≤ s.net.shape.length) (hpos : 0 < shapeSize s.net.shape) :
    ∃ c, toDense (onLeaf (fun vec => do
          let u ← pfVjp s.net s.mean x vec
          let w ← s.covg [u]
          pfJvp s.net s.mean x w)) (.tree (.leaf (arrOf s.net.shape (s.net.fn x s.θ)))) = .ok (.leaf c) ∧ 3 ≤ c.shape.length := by
  refine ⟨_, toDense_tree_stack (m := shapeSize s.net.shape) (n := shapeSize s.net.shape) _ (by simp [Tree.leaves]) ?_ hpos s.net.shape _ (fun w => s.kernel x x *ᵥ w) ?_, ?_⟩
  · simp [numEntries, Tree.leaves, arrOf, shapeSize]
  · intro w t h1 h2 h3
    cases t with
    | node tag ks => simp [SameLayout, Tree.map] at h1
    | leaf a =>
      have ha : a = ⟨a.shape, List.ofFn w⟩ := by
        cases a; simp [entries, Tree.leaves] at h3; simp [h3]
      rw [ha]
      simp only [onLeaf]
      erw [kernel_product s hs x x a.shape w]; rfl
  · simp [Arr.transpose]; omega

theorem meanField2Arr_rank {m c : Arr ℝ} (hm : m.shape ≠ []) (hc : 3 ≤ c.shape.length) : meanField2Arr m c = .error .valueError := by
  obtain ⟨msh, md⟩ := m
  obtain ⟨csh, cd⟩ := c
  match msh, csh, hm, hc with
  | [_], _ :: _ :: _ :: _, _, _ => rfl
  | _ :: _ :: _, _ :: _ :: _ :: _, _, _ => rfl

/-- **C78 (special predictives, linearised).** For every model whose output has any number of axes, and every list of functions before: with the linearised
mean `f` and variance `v = diag(J C Jᵀ)`, `mean_field_0` gives `softmax(f/√(1+π/8·v))` along the *last* axis at every position of the others, `mean_field_1` gives
`1/Σ_j exp((f_j-f_i)/√(1+π/8·(v_i+v_j)))` along the *first* axis; `mean_field_2` raises `ValueError` for outputs with two or more axes;
`laplace_bridge` gives the bridge of mean and variance for outputs with two or more axes, with the correction exactly when `use_correction` is absent or true. -/
theorem C78_linearized_special (rng : Prng K) (hrng : RngOk rng) (net : Net X p) (mean : PyTree ℝ) (hp : 0 < p)
    (hwf : WFTree mean) (θ : Vec p) (hθ : entries mean = List.ofFn θ)
    (posteriorFn : PriorArgs → ℝ → Except Err (Posterior p)) (prior : PriorArgs) (lsf : ℝ) (post : Posterior p)
    (hpost : posteriorFn prior lsf = .ok post) (cov scale : List (PyTree ℝ) → Except Err (PyTree ℝ))
    (hcov : post.covMv post.state = .ok cov) (hscale : post.scaleMv post.state = .ok scale)
    (C R : Matrix (Fin p) (Fin p) ℝ) (hC : ActsOnTrees mean cov (fun v => C *ᵥ v)) (hR : ActsOnTrees mean scale (fun v => R *ᵥ v))
    (kw : PfKwargs K) (hkw : kw.precompute = none) (hb1 : kw.precomputeListBatchSize ≠ some 0)
    (hb2 : kw.linSamplesBatchSize ≠ some 0) (hb3 : kw.weightBatchSize ≠ some 0) (x : X)
    (kind : String) (hkind : kw.specialPredType.getD "mean_field_0" = kind)
    (V : Matrix (Fin (shapeSize net.shape)) (Fin (shapeSize net.shape)) ℝ) (hV : V = jacobian (net.fn x) θ * C * (jacobian (net.fn x) θ)ᵀ)
    (fns : List LinFn) (hu : ∀ fn ∈ fns, LinUsable net.shape (kw.numSamples.getD 0) kind fn)
    (run : List LinFn → Except Err (Dict (Arr ℝ)))
    (hrun : run = fun l => linPushforward rng net mean posteriorFn prior lsf ((LinFn.setup :: fns ++ l).map LinFn.step) kw x) :
    (kind = "mean_field_0" → ∀ (c : ℕ) sh, net.shape = sh ++ [c] → ∃ r a, run [.specialPredAct] = .ok r ∧ r.get? "special_pred_act" = some a ∧
      a.WF ∧ a.shape = net.shape ∧ ∀ ix, IsIndex sh ix → ∃ z w : Fin c → ℝ, ScoresAt (arrOf net.shape (net.fn x θ)) ix z ∧
        ScoresAt (arrOf net.shape fun i => V i i) ix w ∧ ScoresAt a ix (meanField0Of z w)) ∧
    (kind = "mean_field_1" → ∀ (c : ℕ) sh, net.shape = c :: sh → ∃ r a, run [.specialPredAct] = .ok r ∧ r.get? "special_pred_act" = some a ∧
      a.WF ∧ a.shape = net.shape ∧ ∀ ix, IsIndex sh ix → ∃ z w : Fin c → ℝ, AlongFirst (arrOf net.shape (net.fn x θ)) ix z ∧
        AlongFirst (arrOf net.shape fun i => V i i) ix w ∧ AlongFirst a ix (meanField1Of z w)) ∧
    (kind = "mean_field_2" → 2 ≤ net.shape.length → 0 < shapeSize net.shape → ∀ rest, run (.specialPredAct :: rest) = .error .valueError) ∧
    (kind = "laplace_bridge" → ∀ (c k : ℕ) sh, net.shape = c :: k :: sh → ∃ r a, run [.specialPredAct] = .ok r ∧ r.get? "special_pred_act" = some a ∧
      IsBridge c k sh (kw.useCorrection.getD true) (arrOf net.shape (net.fn x θ)) (arrOf net.shape fun i => V i i) a) := by
  obtain ⟨eps, ctx, aux, hd, hkwc, hst, hc, hall⟩ := lin_run rng hrng net mean hp hwf θ hθ posteriorFn prior lsf post hpost cov scale hcov hscale C R
    hC hR kw hkw hb1 hb2 hb3 x
  rw [hkind] at hall
  obtain ⟨r', g1, g2, -, g4⟩ := hall fns hu
  obtain ⟨r1, r2, k1, k2, k3, k4⟩ := lin_mean_var hst hc kind g1 g2
  have hk : ctx.kw.specialPredType.getD "mean_field_0" = kind := by rw [hkwc, hkind]
  have hVk : (Setting.mk net mean θ C cov).kernel x x = V := by rw [hV]; rfl
  rw [hVk] at k4
  have step : ∀ f a, varPredFn (ctx.kw.useCorrection.getD true) kind = some f → f (arrOf net.shape (net.fn x θ)) (arrOf net.shape fun i => V i i) = .ok a →
      ∃ r, run [.specialPredAct] = .ok r ∧ r.get? "special_pred_act" = some a := by
    intro f a hf ha
    refine ⟨r2.set "special_pred_act" a, ?_, by simp [Dict.get?_set]⟩
    rw [hrun]
    simp only
    rw [g4]
    simp only [List.map_cons, List.map_nil, finalizeLoop]
    rw [show LinFn.step LinFn.specialPredAct = (specialPredAct true : PfStep X K p) from rfl]
    simp only [specialPredAct, if_true, k1, ok_bind, k2, hk, hf, k3, k4, ha]; rfl
  refine ⟨fun h0 c sh hsh => ?_, fun h1 c sh hsh => ?_, fun h2 hrank hpos rest => ?_, fun h3 c k sh hsh => ?_⟩
  · obtain ⟨a, a1, a2, a3, a4⟩ := C78_mean_field_0 (c := c) (arrOf net.shape (net.fn x θ)) (arrOf net.shape fun i => V i i) sh hsh rfl (arrOf_wf _ _) (arrOf_wf _ _)
    obtain ⟨r, r1, r2⟩ := step meanField0Arr a (by rw [h0]; simp [varPredFn]) a1
    exact ⟨r, a, r1, r2, a2, a3, a4⟩
  · obtain ⟨a, a1, a2, a3, a4⟩ := C78_mean_field_1 (c := c) (arrOf net.shape (net.fn x θ)) (arrOf net.shape fun i => V i i) sh hsh rfl (arrOf_wf _ _) (arrOf_wf _ _)
    obtain ⟨r, r1, r2⟩ := step meanField1Arr a (by rw [h1]; simp [varPredFn]) a1
    exact ⟨r, a, r1, r2, a2, a3, a4⟩
  · subst h2
    have hne : net.shape ≠ [] := by intro h; rw [h] at hrank; simp at hrank
    obtain ⟨r1, f1, f2, f3, f4⟩ := (linPredMean_ok (aux := aux) (ctx := ctx) (s := Setting.mk net mean θ C cov) (x := x) (z := fun i => R *ᵥ eps i) "mean_field_2").ensure g1 g2
    have e2 : linExp (Setting.mk net mean θ C cov) x (fun i => R *ᵥ eps i) "mean_field_2" "pred_mean" = some (arrOf net.shape (net.fn x θ)) := by
      simp [linExp, linExpected]
    have hm := getE_of_meets f2 e2 f4
    have hno : r1.mem "pred_cov" = false := by
      cases hq : r1.get? "pred_cov" with
      | none => simp [Dict.mem, hq]
      | some v =>
        exfalso
        have := f2 _ _ hq
        simp only [linExp, linExpected] at this
        rw [if_neg (by decide), if_neg (by decide), if_pos trivial, if_neg hne, if_neg (by omega)] at this
        exact absurd this (by simp)
    have hin : ensureKey "pred_mean" linPredMean r1 aux ctx = .ok (r1, aux) := by
      rw [ensureKey, if_pos (by simpa [Dict.mem] using f4)]
    obtain ⟨cv, c1, c2⟩ := dense_cov_rank hst x hrank hpos
    have hcovstep : ensureKey "pred_cov" linPredCov r1 aux ctx = .ok (r1.set "pred_cov" cv, aux) := by
      rw [ensureKey, if_neg (by simp [hno])]
      simp only [linPredCov, hin, ok_bind, hm, hc.covMv, entryE]
      erw [c1]; rfl
    rw [hrun]
    simp only
    rw [g4]
    simp only [List.map_cons, finalizeLoop]
    rw [show LinFn.step LinFn.specialPredAct = (specialPredAct true : PfStep X K p) from rfl]
    have hv : varPredFn (ctx.kw.useCorrection.getD true) "mean_field_2" = none := by simp [varPredFn]
    have hg : (r1.set "pred_cov" cv).getE "pred_cov" = .ok cv := by simp [Dict.getE, Dict.get?_set]
    have hb : meanField2Arr (arrOf net.shape (net.fn x θ)) cv = .error .valueError := meanField2Arr_rank hne c2
    simp only [specialPredAct, if_true, f1, ok_bind, hm, hk, hv, hcovstep, hg, covPredFn, hb]; rfl
  · obtain ⟨a, a1, a2⟩ := C78_laplace_bridge_values (c := c) (arrOf net.shape (net.fn x θ)) (arrOf net.shape fun i => V i i) (ctx.kw.useCorrection.getD true) k sh hsh rfl
      (arrOf_wf _ _) (arrOf_wf _ _)
    obtain ⟨r, r1, r2⟩ := step (fun m v => laplaceBridgeArr m v (ctx.kw.useCorrection.getD true)) a (by rw [h3]; simp [varPredFn]) a1
    rw [hkwc] at a2
    exact ⟨r, a, r1, r2, a2⟩

/-! ### Through the sampled pushforward -/

/-- **C78 (averaged softmax, sampled).** As for the linearised predictive, over the first five samples (those reported as `samples`). -/
theorem C78_sampled_average (rng : Prng K) (hrng : RngOk rng) (net : Net X p) (mean : PyTree ℝ)
    (hwf : WFTree mean) (θ : Vec p) (hθ : entries mean = List.ofFn θ)
    (posteriorFn : PriorArgs → ℝ → Except Err (Posterior p)) (prior : PriorArgs) (lsf : ℝ) (post : Posterior p)
    (hpost : posteriorFn prior lsf = .ok post) (scale : List (PyTree ℝ) → Except Err (PyTree ℝ))
    (hscale : post.scaleMv post.state = .ok scale)
    (R : Matrix (Fin p) (Fin p) ℝ) (hR : ActsOnTrees mean scale (fun v => R *ᵥ v)) (key : Option K) (S : ℕ) (hS : 0 < S)
    (kw : PfKwargs K) (hkw : kw.precompute = none) (hb1 : kw.precomputeListBatchSize ≠ some 0)
    (hb2 : kw.nonlinSetupBatchSize ≠ some 0) (hb3 : kw.weightBatchSize ≠ some 0) :
    ∃ eps : Fin S → Vec p, Draws rng key mean eps ∧ ∀ (x : X) (s : Fin S → Vec (shapeSize net.shape)), (s = fun i => net.fn x (θ + R *ᵥ eps i)) →
      ∀ fns : List NonlinFn, (∀ fn ∈ fns, NonlinUsable net.shape fn) → (.predCov ∈ fns → 2 ≤ S) →
        (∀ c sh, net.shape = c :: sh →
          ∃ r a, nonlinPushforward rng net mean posteriorFn prior key lsf ((NonlinFn.setup :: fns ++ [NonlinFn.mcPredAct]).map NonlinFn.step) S kw x = .ok r ∧
            r.get? "mc_pred_act" = some a ∧ r.get? "samples" = some (ensArr net.shape (ensTake 5 s)) ∧ a.WF ∧ a.shape = net.shape ∧
            ∀ ix, IsIndex sh ix → ∃ z : Fin S → Fin c → ℝ,
              (∀ i, AlongFirst (arrOf net.shape (s i)) ix (z i)) ∧ AlongFirst a ix (ensSoftmax (ensTake 5 z))) ∧
        (net.shape = [] → ∀ rest : List NonlinFn,
          nonlinPushforward rng net mean posteriorFn prior key lsf ((NonlinFn.setup :: fns ++ NonlinFn.mcPredAct :: rest).map NonlinFn.step) S kw x =
            .error .valueError) := by
  obtain ⟨eps, hd, h⟩ := nonlin_prefix rng hrng net mean hwf θ hθ posteriorFn prior lsf post hpost scale hscale R hR key S hS kw hkw hb1 hb2 hb3
  refine ⟨eps, hd, fun x s hs fns hu _ => ?_⟩
  obtain ⟨ctx, aux, r, hc, hens, hcov, ⟨hsp, huc⟩, hr, hall⟩ := h x fns hu
  have hW : ensOf net x (fun i => θ + R *ᵥ eps i) = s := by rw [hs]; rfl
  rw [hW] at hens
  have hr' : ∀ k, r.get? k = nonlinExpected net.shape (net.fn x θ) s fns k := fun k => by rw [← hW]; exact hr k
  obtain ⟨r1, e1, e2⟩ : ∃ r1, ensureKey "samples" nonlinSamples r aux ctx = .ok (r1, aux) ∧
      r1.get? "samples" = some (ensArr net.shape (ensTake 5 s)) := by
    have h0 := hr' "samples"
    have hexp : nonlinExpected net.shape (net.fn x θ) s fns "samples" =
        if .samples ∈ fns ∨ .mcPredAct ∈ fns then some (ensArr net.shape (ensTake 5 s)) else none := by simp [nonlinExpected]
    rw [hexp] at h0
    by_cases h : NonlinFn.samples ∈ fns ∨ NonlinFn.mcPredAct ∈ fns
    · rw [if_pos h] at h0
      exact ⟨r, by rw [ensureKey, if_pos (by simp [Dict.mem, h0])], h0⟩
    · rw [if_neg h] at h0
      refine ⟨r.set "samples" (ensArr net.shape (ensTake 5 s)), ?_, by simp [Dict.get?_set]⟩
      rw [ensureKey_absent h0]
      simp only [nonlinSamples, hens, entryE, ok_bind, hc.kwNum, Option.getD_none, slice_ens _ _ rfl]; rfl
  constructor
  · intro c sh hsh
    obtain ⟨a, h1, h2, h3, h4⟩ := meanSoftmax_any' sh hsh (ensTake 5 s)
    refine ⟨r1.set "mc_pred_act" a, a, ?_, by simp [Dict.get?_set], by simp [Dict.get?_set, e2], h2, h3, fun ix hi => ?_⟩
    · rw [hall]
      simp only [List.map_cons, List.map_nil, finalizeLoop]
      rw [show NonlinFn.step NonlinFn.mcPredAct = (nonlinMcPredAct : PfStep X K p) from rfl]
      simp only [nonlinMcPredAct, e1, ok_bind, Dict.getE, e2, h1]; rfl
    · obtain ⟨z, z1, z2⟩ := h4 ix hi
      have hall' : ∀ i, AlongFirst (arrOf net.shape (s i)) ix (firstAxis (arrOf net.shape (s i)) c (shapeSize sh) (position sh ix)) :=
        fun i => alongFirst_firstAxis hsh (arrOf_wf _ _) hi
      refine ⟨fun i => firstAxis (arrOf net.shape (s i)) c (shapeSize sh) (position sh ix), hall', ?_⟩
      have : z = ensTake 5 (fun i => firstAxis (arrOf net.shape (s i)) c (shapeSize sh) (position sh ix)) := by
        funext i k
        have q1 := z1 i k
        have q2 := hall' ⟨i.val, by omega⟩ k
        have q3 : arrOf net.shape (ensTake 5 s i) = arrOf net.shape (s ⟨i.val, by omega⟩) := rfl
        rw [q3, q2] at q1
        exact (Option.some.inj q1).symm
      rw [← this]; exact z2
  · intro hsh rest
    rw [hall]
    simp only [List.map_cons, finalizeLoop]
    rw [show NonlinFn.step NonlinFn.mcPredAct = (nonlinMcPredAct : PfStep X K p) from rfl]
    simp only [nonlinMcPredAct, e1, ok_bind, Dict.getE, e2, meanSoftmax_scalar hsh (ensTake 5 s)]; rfl

/-- `mean_field_2` on a mean of shape `(a, b)`, `a, b ≥ 2`, and an `(ab, ab)` covariance. -/
theorem meanField2_table {a b : ℕ} (ha : 2 ≤ a) (hb : 2 ≤ b) (m : List ℝ) (V : List ℝ) :
    meanField2Arr ⟨[a, b], m⟩ ⟨[a * b, a * b], V⟩ = .error .valueError := by
  have hne : b ≠ a * b := by nlinarith
  have h : Arr.bcast2 (fun d s => Real.exp (d / Real.sqrt (1 + lambda0 * s))) (muDiff ⟨[a, b], m⟩ a [b]) (sSum ⟨[a * b, a * b], V⟩ (a * b)) = .error .valueError := by
    have hs : bcShapes [a, a, b] [a * b, a * b] = none := by
      have h1 : b ≠ 1 := by omega
      have h2 : a * b ≠ 1 := by nlinarith
      simp [bcShapes, padShape, bcAligned, bcDim, hne, h1, h2]
    unfold Arr.bcast2
    rw [show (muDiff ⟨[a, b], m⟩ a [b]).shape = [a, a, b] from rfl, show (sSum ⟨[a * b, a * b], V⟩ (a * b)).shape = [a * b, a * b] from rfl, hs]
    rfl
  simp only [meanField2Arr, if_true, h]; rfl

/-- `mean_field_2` on a mean of shape `(1, b)` and a `(b, b)` covariance: all entries are `1/b`, whatever the numbers. -/
theorem meanField2_row {b : ℕ} (m V : List ℝ) :
    meanField2Arr ⟨[1, b], m⟩ ⟨[b, b], V⟩ = .ok ⟨[1, b], List.ofFn fun _ : Fin b => (1 : ℝ) / b⟩ := by
  have hs : bcShapes [1, 1, b] [b, b] = some [1, b, b] := by
    simp [bcShapes, padShape, bcAligned, bcDim]
    try (by_cases h : 1 = b <;> simp [h])
  have hmu : muDiff ⟨[1, b], m⟩ 1 [b] = ⟨[1, 1, b], (List.replicate b ()).map fun _ => (0 : ℝ)⟩ := by
    simp [muDiff, List.ofFn_succ]
    simp [shapeSize, List.ofFn_const]
  have hA : (bcTo [1, 1, b] [1, b, b] ((List.replicate b ()).map fun _ => (0 : ℝ))) = List.replicate (b * b) 0 := by
    have hl : (bcTo [1, 1, b] [1, b, b] (List.replicate b ())).length = b * b := by
      rw [bcTo_length (by simp [FitsInto]) (by simp [shapeSize])]; simp [shapeSize]
    rw [bcTo_map, List.map_const', hl]
  have hB : (bcTo [1, b, b] [1, b, b] (sSum ⟨[b, b], V⟩ b).data).length = b * b := by
    have hl : (sSum ⟨[b, b], V⟩ b).data.length = b * b := by
      simp only [sSum]; exact length_blocks _
    rw [bcTo_self _ _ (by rw [hl]; simp [shapeSize]), hl]
  have hbc : Arr.bcast2 (fun d s => Real.exp (d / Real.sqrt (1 + lambda0 * s))) (muDiff ⟨[1, b], m⟩ 1 [b]) (sSum ⟨[b, b], V⟩ b) =
      .ok ⟨[1, b, b], List.replicate (b * b) 1⟩ := by
    rw [hmu]
    unfold Arr.bcast2
    rw [show (sSum ⟨[b, b], V⟩ b).shape = [b, b] from rfl, hs]
    simp only [Except.ok.injEq, Arr.mk.injEq, true_and]
    rw [show padShape [1, b, b].length [1, 1, b] = [1, 1, b] from rfl, show padShape [1, b, b].length [b, b] = [1, b, b] from rfl, hA]
    apply List.ext_getElem
    · simp [hB]
    · intro i h1 h2; simp
  simp only [meanField2Arr, if_true, hbc, ok_bind, sumAxis1]
  simp only [pure, Except.pure, Except.ok.injEq, Arr.mk.injEq, true_and]
  simp only [List.ofFn_succ, List.ofFn_zero, List.flatten_cons, List.flatten_nil, List.append_nil, List.map_ofFn]
  apply List.ext_getElem
  · simp [shapeSize]
  · intro i h1 h2
    have hi : i < b := by simpa using h2
    simp only [List.getElem_ofFn, Function.comp_def]
    have hone : ∀ j : Fin b, (List.replicate (b * b) (1 : ℝ)).getD (((0 : Fin 1).val * b + j.val) * shapeSize [b] + i) 0 = 1 := by
      intro j
      have hlt : ((0 : Fin 1).val * b + j.val) * shapeSize [b] + i < b * b := by
        have : shapeSize [b] = b := by simp [shapeSize]
        rw [this]
        have hj := j.isLt
        calc ((0 : Fin 1).val * b + j.val) * b + i = j.val * b + i := by simp
          _ < j.val * b + b := by omega
          _ = (j.val + 1) * b := by ring
          _ ≤ b * b := Nat.mul_le_mul_right _ hj
      rw [List.getD_eq_getElem?_getD, List.getElem?_replicate, if_pos hlt]; rfl
    simp only [hone, Finset.sum_const, Finset.card_univ, Fintype.card_fin, nsmul_eq_mul, mul_one]

/-- `mean_field_2` on a mean of shape `(a, 1)` and an `(a, a)` covariance: a table of shape `(a, a)` instead. -/
theorem meanField2_column {a : ℕ} (ha : 2 ≤ a) (m : Vec a) (V : Matrix (Fin a) (Fin a) ℝ) :
    meanField2Arr ⟨[a, 1], List.ofFn m⟩ (denseArr V) = .ok ⟨[a, a], (List.ofFn fun i => List.ofFn fun k =>
      1 / ∑ j, Real.exp ((m j - m i) / Real.sqrt (1 + Real.pi / 8 * (V j j + V k k - 2 * V j k)))).flatten⟩ := by
  have hs : bcShapes [a, a, 1] [a, a] = some [a, a, a] := by
    simp [bcShapes, padShape, bcAligned, bcDim]
    have h1 : a ≠ 1 := by omega
    simp [h1, Ne.symm h1]
  have hentry : ∀ j k : Fin a, (denseArr V).data.getD (j.val * a + k.val) 0 = V j k := fun j k => flatten_ofFn_getD (fun j k => V j k) j k
  have hS : (sSum (denseArr V) a).data = (List.ofFn fun j => List.ofFn fun k => V j j + V k k - 2 * V j k).flatten := by
    simp only [sSum, hentry]
  have hm : ∀ j : Fin a, firstAxis ⟨[a, 1], List.ofFn m⟩ a (shapeSize [1]) 0 j = m j := by
    intro j; simp [firstAxis, shapeSize]
  have hM : (muDiff ⟨[a, 1], List.ofFn m⟩ a [1]).data = (List.ofFn fun i => (List.ofFn fun j => m j - m i)).flatten := by
    have h1 : shapeSize [1] = 1 := rfl
    have : ∀ i j : Fin a, (List.ofFn fun r : Fin (shapeSize [1]) => firstAxis ⟨[a, 1], List.ofFn m⟩ a (shapeSize [1]) r.val j -
        firstAxis ⟨[a, 1], List.ofFn m⟩ a (shapeSize [1]) r.val i) = [m j - m i] := by
      intro i j
      rw [← hm j, ← hm i]
      exact List.ofFn_succ.trans (by simp)
    simp only [muDiff, this]
    congr 2; funext i
    exact ofFn_singletons _
  have hbc : Arr.bcast2 (fun d s => Real.exp (d / Real.sqrt (1 + lambda0 * s))) (muDiff ⟨[a, 1], List.ofFn m⟩ a [1]) (sSum (denseArr V) a) =
      .ok ⟨[a, a, a], (List.ofFn fun i => (List.ofFn fun j => List.ofFn fun k =>
        Real.exp ((m j - m i) / Real.sqrt (1 + lambda0 * (V j j + V k k - 2 * V j k)))).flatten).flatten⟩ := by
    unfold Arr.bcast2
    rw [show (muDiff ⟨[a, 1], List.ofFn m⟩ a [1]).shape = [a, a, 1] from rfl, show (sSum (denseArr V) a).shape = [a, a] from rfl, hs]
    simp only [Except.ok.injEq, Arr.mk.injEq, true_and]
    rw [show padShape [a, a, a].length [a, a, 1] = [a, a, 1] from rfl, show padShape [a, a, a].length [a, a] = [1, a, a] from rfl, hM, hS,
      bcTo_blocks _ _ _ (by simp [shapeSize])]
    simp only [bcTo_col]
    rw [bcTo, if_neg (by omega), bcTo_mat]
    rw [show List.replicate a ((List.ofFn fun j => List.ofFn fun k => V j j + V k k - 2 * V j k).flatten) =
      List.ofFn (fun _ : Fin a => (List.ofFn fun j => List.ofFn fun k => V j j + V k k - 2 * V j k).flatten) from (List.ofFn_const _ _).symm]
    rw [zipWith_blocks _ _ _ (by intro i; rw [length_blocks, length_blocks])]
    congr 2; funext i
    rw [zipWith_blocks _ _ _ (by simp)]
    simp only [zipWith_ofFn]
  have hcase : meanField2Arr ⟨[a, 1], List.ofFn m⟩ (denseArr V) = (Arr.bcast2 (fun d s => Real.exp (d / Real.sqrt (1 + lambda0 * s)))
      (muDiff ⟨[a, 1], List.ofFn m⟩ a [1]) (sSum (denseArr V) a) >>= fun e => sumAxis1 e >>= fun s => .ok ⟨s.shape, s.data.map (1 / ·)⟩) := by
    simp only [meanField2Arr, denseArr, if_true]; rfl
  rw [hcase, hbc, ok_bind]
  simp only [sumAxis1, ok_bind, Except.ok.injEq, Arr.mk.injEq, true_and]
  rw [List.map_flatten, List.map_ofFn]
  congr 2; funext i
  simp only [Function.comp_def, List.map_ofFn]
  apply List.ext_getElem
  · simp [shapeSize]
  · intro k h1 h2
    have hk : k < a := by simpa using h2
    simp only [List.getElem_ofFn]
    congr 1
    apply Finset.sum_congr rfl
    intro j _
    have hsz : shapeSize [a] = a := by simp [shapeSize]
    rw [hsz, show (i.val * a + j.val) * a + k = i.val * (a * a) + (j.val * a + k) by ring]
    have hlen : ∀ d ∈ (List.ofFn fun i : Fin a => (List.ofFn fun j : Fin a => List.ofFn fun k : Fin a =>
        Real.exp ((m j - m i) / Real.sqrt (1 + lambda0 * (V j j + V k k - 2 * V j k)))).flatten), d.length = a * a := by
      intro d hd
      obtain ⟨i, rfl⟩ := (List.mem_ofFn' _ _).1 hd
      exact length_blocks _
    have hjk : j.val * a + k < a * a := by
      calc j.val * a + k < j.val * a + a := by omega
        _ = (j.val + 1) * a := by ring
        _ ≤ a * a := Nat.mul_le_mul_right _ j.isLt
    rw [List.getD_eq_getElem?_getD, flatten_get _ _ hlen i.val (j.val * a + k) (by simp) hjk]
    simp only [List.getElem_ofFn]
    have := flatten_ofFn_get? (fun j k : Fin a => Real.exp ((m j - m i) / Real.sqrt (1 + lambda0 * (V j j + V k k - 2 * V j k)))) j ⟨k, hk⟩
    simp only at this
    rw [this]
    rfl

/-- **C78 (special predictives, sampled).** For every model whose output has any number of axes, with the ensemble `s_i = f(x, θ + R eps_i)` and after any
usable requests:
(1, 2) `mean_field_0` along the last axis and `mean_field_1` along the first, of the ensemble mean and the variance reported as `pred_var`;
(3) `mean_field_2` on outputs of shape `(a, b)` with `a, b ≥ 2`: `ValueError`;
(4) `mean_field_2` on outputs of shape `(1, b)`, `b ≥ 2`: *every* class gets probability `1/b`, whatever the model and the data;
(5) `mean_field_2` on outputs of shape `(a, 1)`, `a ≥ 2`: the result has shape `(a, a)`;
(6) `laplace_bridge` on outputs with two or more axes: the bridge of the ensemble mean and the variance reported as `pred_var`. -/
theorem C78_sampled_special (rng : Prng K) (hrng : RngOk rng) (net : Net X p) (mean : PyTree ℝ)
    (hwf : WFTree mean) (θ : Vec p) (hθ : entries mean = List.ofFn θ)
    (posteriorFn : PriorArgs → ℝ → Except Err (Posterior p)) (prior : PriorArgs) (lsf : ℝ) (post : Posterior p)
    (hpost : posteriorFn prior lsf = .ok post) (scale : List (PyTree ℝ) → Except Err (PyTree ℝ))
    (hscale : post.scaleMv post.state = .ok scale)
    (R : Matrix (Fin p) (Fin p) ℝ) (hR : ActsOnTrees mean scale (fun v => R *ᵥ v)) (key : Option K) (S : ℕ) (hS : 0 < S)
    (kw : PfKwargs K) (hkw : kw.precompute = none) (hb1 : kw.precomputeListBatchSize ≠ some 0)
    (hb2 : kw.nonlinSetupBatchSize ≠ some 0) (hb3 : kw.weightBatchSize ≠ some 0)
    (kind : String) (hkind : kw.specialPredType.getD "mean_field_0" = kind) :
    ∃ eps : Fin S → Vec p, Draws rng key mean eps ∧ ∀ (x : X) (fns : List NonlinFn), (∀ fn ∈ fns, NonlinUsable net.shape fn) →
      (.predCov ∈ fns → 2 ≤ S) →
      ∀ (run : List NonlinFn → Except Err (Dict (Arr ℝ))),
      (run = fun l => nonlinPushforward rng net mean posteriorFn prior key lsf ((NonlinFn.setup :: fns ++ l).map NonlinFn.step) S kw x) →
      ∀ s : Fin S → Vec (shapeSize net.shape), (s = fun i => net.fn x (θ + R *ᵥ eps i)) →
      (kind = "mean_field_0" → ∀ (c : ℕ) sh, net.shape = sh ++ [c] → ∀ d : ℝ,
        nonlinExpected net.shape (net.fn x θ) s fns "pred_var" = some (arrOf net.shape fun j => ensCov s d j j) →
        ∃ r a, run [.specialPredAct] = .ok r ∧ r.get? "special_pred_act" = some a ∧ a.WF ∧ a.shape = net.shape ∧
          ∀ ix, IsIndex sh ix → ∃ z w : Fin c → ℝ, ScoresAt (arrOf net.shape (ensMean s)) ix z ∧
            ScoresAt (arrOf net.shape fun j => ensCov s d j j) ix w ∧ ScoresAt a ix (meanField0Of z w)) ∧
      (kind = "mean_field_1" → ∀ (c : ℕ) sh, net.shape = c :: sh → ∀ d : ℝ,
        nonlinExpected net.shape (net.fn x θ) s fns "pred_var" = some (arrOf net.shape fun j => ensCov s d j j) →
        ∃ r a, run [.specialPredAct] = .ok r ∧ r.get? "special_pred_act" = some a ∧ a.WF ∧ a.shape = net.shape ∧
          ∀ ix, IsIndex sh ix → ∃ z w : Fin c → ℝ, AlongFirst (arrOf net.shape (ensMean s)) ix z ∧
            AlongFirst (arrOf net.shape fun j => ensCov s d j j) ix w ∧ AlongFirst a ix (meanField1Of z w)) ∧
      (kind = "mean_field_2" → ∀ a b, 2 ≤ a → 2 ≤ b → net.shape = [a, b] → 2 ≤ S → ∀ rest, run (.specialPredAct :: rest) = .error .valueError) ∧
      (kind = "mean_field_2" → ∀ b, 2 ≤ b → net.shape = [1, b] → 2 ≤ S → ∃ r, run [.specialPredAct] = .ok r ∧
        r.get? "special_pred_act" = some ⟨[1, b], List.ofFn fun _ : Fin b => (1 : ℝ) / b⟩) ∧
      (kind = "mean_field_2" → ∀ a, 2 ≤ a → net.shape = [a, 1] → 2 ≤ S → ∃ r y, run [.specialPredAct] = .ok r ∧
        r.get? "special_pred_act" = some y ∧ y.shape = [a, a] ∧ ∀ i k : Fin (shapeSize net.shape), entryAt y [i.val, k.val] =
          some (1 / ∑ j, Real.exp ((ensMean s j - ensMean s i) / Real.sqrt (1 + Real.pi / 8 * (ensCov s 1 j j + ensCov s 1 k k - 2 * ensCov s 1 j k))))) ∧
      (kind = "laplace_bridge" → ∀ (c k : ℕ) sh, net.shape = c :: k :: sh → ∀ d : ℝ,
        nonlinExpected net.shape (net.fn x θ) s fns "pred_var" = some (arrOf net.shape fun j => ensCov s d j j) →
        ∃ r a, run [.specialPredAct] = .ok r ∧ r.get? "special_pred_act" = some a ∧
          IsBridge c k sh (kw.useCorrection.getD true) (arrOf net.shape (ensMean s)) (arrOf net.shape fun j => ensCov s d j j) a) := by
  obtain ⟨eps, hd, h⟩ := nonlin_prefix rng hrng net mean hwf θ hθ posteriorFn prior lsf post hpost scale hscale R hR key S hS kw hkw hb1 hb2 hb3
  refine ⟨eps, hd, fun x fns hu _ run hrun s hs => ?_⟩
  obtain ⟨ctx, aux, r, hc, hens, hcov, ⟨hsp, huc⟩, hr, hall⟩ := h x fns hu
  have hk : ctx.kw.specialPredType.getD "mean_field_0" = kind := by rw [hsp, hkind]
  have hW : ensOf net x (fun i => θ + R *ᵥ eps i) = s := by rw [hs]; rfl
  rw [hW] at hens
  have hr' : ∀ k, r.get? k = nonlinExpected net.shape (net.fn x θ) s fns k := fun k => by rw [← hW]; exact hr k
  obtain ⟨r1, e1, e2, e3⟩ : ∃ r1, ensureKey "pred_mean" (if false = true then linPredMean else nonlinPredMean) r aux ctx = .ok (r1, aux) ∧
      r1.get? "pred_mean" = some (arrOf net.shape (ensMean s)) ∧ ∀ k, k ≠ "pred_mean" → r1.get? k = r.get? k := by
    have h0 := hr' "pred_mean"
    have hexp : nonlinExpected net.shape (net.fn x θ) s fns "pred_mean" =
        if .predMean ∈ fns then some (arrOf net.shape (ensMean s)) else none := by simp [nonlinExpected]
    rw [hexp] at h0
    by_cases hm : NonlinFn.predMean ∈ fns
    · rw [if_pos hm] at h0
      exact ⟨r, by rw [ensureKey, if_pos (by simp [Dict.mem, h0])], h0, fun _ _ => rfl⟩
    · rw [if_neg hm] at h0
      refine ⟨r.set "pred_mean" (arrOf net.shape (ensMean s)), ?_, by simp [Dict.get?_set], fun k hk => by rw [Dict.get?_set, if_neg (Ne.symm hk)]⟩
      rw [ensureKey_absent h0]
      simp only [Bool.false_eq_true, if_false, nonlinPredMean, hens, entryE, ok_bind, meanAxis0_ens]; rfl
  have hstep : ∀ l, run l = (finalizeLoop ctx (l.map NonlinFn.step) r aux >>= fun q => .ok q.1) := by
    intro l; rw [hrun]; exact hall l
  have herr : ∀ rest e, specialPredAct false r aux ctx = .error e → run (.specialPredAct :: rest) = .error e := by
    intro rest e he
    rw [hstep, List.map_cons, finalizeLoop, show NonlinFn.step NonlinFn.specialPredAct = (specialPredAct false : PfStep X K p) from rfl, he]
    rfl
  have hok : ∀ r2, specialPredAct false r aux ctx = .ok (r2, aux) → run [.specialPredAct] = .ok r2 := by
    intro r2 he
    rw [hstep, List.map_cons, finalizeLoop, show NonlinFn.step NonlinFn.specialPredAct = (specialPredAct false : PfStep X K p) from rfl, he]
    rfl
  have hvar : ∀ f (d : ℝ) a, varPredFn (ctx.kw.useCorrection.getD true) kind = some f →
      nonlinExpected net.shape (net.fn x θ) s fns "pred_var" = some (arrOf net.shape fun j => ensCov s d j j) →
      f (arrOf net.shape (ensMean s)) (arrOf net.shape fun j => ensCov s d j j) = .ok a →
      ∃ r, run [.specialPredAct] = .ok r ∧ r.get? "special_pred_act" = some a := by
    intro f d a hf hv hval
    have hv1 : r1.get? "pred_var" = some (arrOf net.shape fun j => ensCov s d j j) := by rw [e3 _ (by decide), hr', hv]
    have g1 : ensureKey "pred_var" linPredVar r1 aux ctx = .ok (r1, aux) := by rw [ensureKey, if_pos (by simp [Dict.mem, hv1])]
    refine ⟨r1.set "special_pred_act" a, hok _ ?_, by simp [Dict.get?_set]⟩
    simp only [specialPredAct, e1, ok_bind, Dict.getE, e2, hk, hf, g1, hv1, hval]; rfl
  refine ⟨fun h0 c sh hsh d hv => ?_, fun h1 c sh hsh d hv => ?_, ?_⟩
  · obtain ⟨a, a1, a2, a3, a4⟩ := C78_mean_field_0 (c := c) (arrOf net.shape (ensMean s)) (arrOf net.shape fun j => ensCov s d j j) sh hsh rfl
      (arrOf_wf _ _) (arrOf_wf _ _)
    obtain ⟨r, r1, r2⟩ := hvar meanField0Arr d a (by rw [h0]; simp [varPredFn]) hv a1
    exact ⟨r, a, r1, r2, a2, a3, a4⟩
  · obtain ⟨a, a1, a2, a3, a4⟩ := C78_mean_field_1 (c := c) (arrOf net.shape (ensMean s)) (arrOf net.shape fun j => ensCov s d j j) sh hsh rfl
      (arrOf_wf _ _) (arrOf_wf _ _)
    obtain ⟨r, r1, r2⟩ := hvar meanField1Arr d a (by rw [h1]; simp [varPredFn]) hv a1
    exact ⟨r, a, r1, r2, a2, a3, a4⟩
  · obtain ⟨r2, q1, q2⟩ : ∃ r2, ensureKey "pred_cov" (if false = true then linPredCov else nonlinPredCov) r1 aux ctx = .ok (r2, aux) ∧
        r2.get? "pred_cov" = some (covArrOf (ensCov s 1)) := by
      have h0 := hr' "pred_cov"
      have hexp : nonlinExpected net.shape (net.fn x θ) s fns "pred_cov" =
          if (ddofs fns).cov then some (covArrOf (ensCov s 1)) else none := by simp [nonlinExpected]
      rw [hexp, ← e3 _ (by decide)] at h0
      by_cases hm : (ddofs fns).cov
      · rw [if_pos hm] at h0
        exact ⟨r1, by rw [ensureKey, if_pos (by simp [Dict.mem, h0])], h0⟩
      · rw [if_neg hm] at h0
        refine ⟨r1.set "pred_cov" (covArrOf (ensCov s 1)), ?_, by simp [Dict.get?_set]⟩
        rw [ensureKey_absent h0]
        simp only [Bool.false_eq_true, if_false, nonlinPredCov, hens, entryE, ok_bind, covAxis0_ens']; rfl
    have key2 : kind = "mean_field_2" → specialPredAct false r aux ctx =
        (meanField2Arr (arrOf net.shape (ensMean s)) (covArrOf (ensCov s 1)) >>= fun y => .ok (r2.set "special_pred_act" y, aux)) := by
      intro h2
      have hv : varPredFn (ctx.kw.useCorrection.getD true) kind = none := by rw [h2]; simp [varPredFn]
      simp only [specialPredAct, e1, ok_bind, Dict.getE, e2, hk, hv, if_pos h2, q1, q2, covPredFn]; rfl
    have hdense : shapeSize net.shape ≠ 1 → covArrOf (ensCov s 1) = denseArr (ensCov s 1) := by
      intro hne; simp only [covArrOf]; rw [if_neg hne]
    refine ⟨fun h2 a b ha hb hsh _ rest => herr _ _ ?_, fun h2 b hb hsh _ => ?_, fun h2 a ha hsh _ => ?_, fun h3 c k sh hsh d hv => ?_⟩
    · have hsz : shapeSize net.shape = a * b := by rw [hsh]; simp [shapeSize]
      rw [key2 h2, hdense (by rw [hsz]; nlinarith)]
      have : meanField2Arr (arrOf net.shape (ensMean s)) (denseArr (ensCov s 1)) = .error .valueError := by
        have := meanField2_table ha hb (List.ofFn (ensMean s)) (denseArr (ensCov s 1)).data
        rw [← this]; congr 1
        · simp only [arrOf, hsh]
        · simp only [denseArr, hsz]
      rw [this]; rfl
    · have hsz : shapeSize net.shape = b := by rw [hsh]; simp [shapeSize]
      refine ⟨r2.set "special_pred_act" ⟨[1, b], List.ofFn fun _ : Fin b => (1 : ℝ) / b⟩, hok _ ?_, by simp [Dict.get?_set]⟩
      rw [key2 h2, hdense (by omega)]
      have : meanField2Arr (arrOf net.shape (ensMean s)) (denseArr (ensCov s 1)) = .ok ⟨[1, b], List.ofFn fun _ : Fin b => (1 : ℝ) / b⟩ := by
        have := meanField2_row (b := b) (List.ofFn (ensMean s)) (denseArr (ensCov s 1)).data
        rw [← this]; congr 1
        · simp only [arrOf, hsh]
        · simp only [denseArr, hsz]
      rw [this]; rfl
    · have hsz : shapeSize net.shape = a := by rw [hsh]; simp [shapeSize]
      obtain ⟨y, y1, y2⟩ : ∃ y, meanField2Arr (arrOf net.shape (ensMean s)) (denseArr (ensCov s 1)) = .ok y ∧ y.shape = [a, a] ∧
          ∀ i k : Fin (shapeSize net.shape), entryAt y [i.val, k.val] =
            some (1 / ∑ j, Real.exp ((ensMean s j - ensMean s i) / Real.sqrt (1 + Real.pi / 8 * (ensCov s 1 j j + ensCov s 1 k k - 2 * ensCov s 1 j k)))) := by
        generalize ensMean s = mm
        generalize ensCov s 1 = VV
        revert mm VV
        rw [hsh]
        intro mm VV
        have hsz' : shapeSize [a, 1] = a := by simp [shapeSize]
        have key : ∀ n, n = a → ∀ (mm : Vec n) (VV : Matrix (Fin n) (Fin n) ℝ), ∃ y, meanField2Arr ⟨[a, 1], List.ofFn mm⟩ (denseArr VV) = .ok y ∧ y.shape = [a, a] ∧
            ∀ i k : Fin n, entryAt y [i.val, k.val] = some (1 / ∑ j, Real.exp ((mm j - mm i) / Real.sqrt (1 + Real.pi / 8 * (VV j j + VV k k - 2 * VV j k)))) := by
          rintro n rfl mm VV
          refine ⟨_, meanField2_column ha mm VV, rfl, fun i k => ?_⟩
          unfold entryAt
          have hpos : position [n, n] [i.val, k.val] = i.val * n + k.val := by simp [position, shapeSize]
          rw [hpos]
          exact flatten_ofFn_get? (fun i k : Fin n => 1 / ∑ j, Real.exp ((mm j - mm i) / Real.sqrt (1 + Real.pi / 8 * (VV j j + VV k k - 2 * VV j k)))) i k
        exact key _ hsz' mm VV
      refine ⟨r2.set "special_pred_act" y, y, hok _ ?_, by simp [Dict.get?_set], y2⟩
      rw [key2 h2, hdense (by omega), y1]; rfl
    · obtain ⟨a, a1, a2⟩ := C78_laplace_bridge_values (c := c) (arrOf net.shape (ensMean s)) (arrOf net.shape fun j => ensCov s d j j) (ctx.kw.useCorrection.getD true) k sh
        hsh rfl (arrOf_wf _ _) (arrOf_wf _ _)
      obtain ⟨r, r1, r2⟩ := hvar (fun m v => laplaceBridgeArr m v (ctx.kw.useCorrection.getD true)) d a (by rw [h3]; simp [varPredFn]) hv a1
      rw [huc] at a2
      exact ⟨r, a, r1, r2, a2⟩

/-! ### What the axis means -/

theorem ensSoftmax_mass {S c : ℕ} (hS : 0 < S) (hc : 0 < c) (z : Fin S → Fin c → ℝ) : (∀ k, 0 < ensSoftmax z k) ∧ ∑ k, ensSoftmax z k = 1 := by
  have hD : ∀ i, 0 < ∑ j, Real.exp (z i j) := fun i => Finset.sum_pos (fun j _ => Real.exp_pos _) ⟨⟨0, hc⟩, Finset.mem_univ _⟩
  have hSr : (0 : ℝ) < S := by exact_mod_cast hS
  constructor
  · intro k
    unfold ensSoftmax softmaxOf
    refine div_pos (Finset.sum_pos (fun i _ => div_pos (Real.exp_pos _) (hD i)) ⟨⟨0, hS⟩, Finset.mem_univ _⟩) hSr
  · unfold ensSoftmax softmaxOf
    rw [← Finset.sum_div, Finset.sum_comm]
    have : ∀ i : Fin S, ∑ k, Real.exp (z i k) / ∑ j, Real.exp (z i j) = 1 := by
      intro i; rw [← Finset.sum_div, div_self (hD i).ne']
    simp only [this, Finset.sum_const, Finset.card_univ, Fintype.card_fin, nsmul_eq_mul, mul_one]
    exact div_self hSr.ne'

/-- **C78 (what sums to one).** The averaged softmax and `mean_field_0` are probability distributions along their axis - the first and the last one.  When the
first axis has length one (a batch of one, shape `(1, k)`), the averaged softmax and `mean_field_1` are *one for every class*. -/
theorem C78_what_sums_to_one {S : ℕ} :
    (0 < S → 0 < c → ∀ z : Fin S → Fin c → ℝ, (∀ k, 0 < ensSoftmax z k) ∧ ∑ k, ensSoftmax z k = 1) ∧
    (0 < c → ∀ f v : Fin c → ℝ, (∀ k, 0 < meanField0Of f v k) ∧ ∑ k, meanField0Of f v k = 1) ∧
    (0 < S → ∀ (z : Fin S → Fin 1 → ℝ) (k : Fin 1), ensSoftmax z k = 1) ∧
    (∀ (f v : Fin 1 → ℝ) (k : Fin 1), meanField1Of f v k = 1) := by
  refine ⟨fun hS hc z => ensSoftmax_mass hS hc z, fun hc f v => ?_, fun hS z k => ?_, fun f v k => ?_⟩
  · have hD : 0 < ∑ j, Real.exp (f j / Real.sqrt (1 + Real.pi / 8 * v j)) := Finset.sum_pos (fun j _ => Real.exp_pos _) ⟨⟨0, hc⟩, Finset.mem_univ _⟩
    unfold meanField0Of softmaxOf
    exact ⟨fun k => div_pos (Real.exp_pos _) hD, by rw [← Finset.sum_div, div_self hD.ne']⟩
  · have := (ensSoftmax_mass hS Nat.one_pos z).2
    rw [Fin.sum_univ_one] at this
    rw [Subsingleton.elim k 0]; exact this
  · unfold meanField1Of
    rw [Fin.sum_univ_one, Subsingleton.elim k 0]; simp

/-- Outputs of shape `(1, 2)`. -/
def testRowNet : Net ℝ 2 := ⟨[1, 2], fun x θ => (fun i : Fin 2 => if i = 0 then θ 0 * θ 1 else x * θ 0)⟩

theorem isIndex_pair (j : Fin 2) : IsIndex [2] [j.val] := by
  fin_cases j <;> simp [IsIndex]

/-- All hypotheses are met: the default requests of a linearised predictive with outputs of shape `(1, 2)` but without the covariance, then the class
probabilities.  Both classes get probability one. -/
example (x : ℝ) : ∃ r a, linPushforward testRng testRowNet testMean (fun a s => createPosteriorFn .full testMv (.tree testMean) a s)
      ⟨some 1, none⟩ 1 ((LinFn.setup :: [LinFn.predMean, .predVar, .predStd, .samples] ++ [LinFn.mcPredAct]).map LinFn.step) { numSamples := some 3 } x = .ok r ∧
    r.get? "mc_pred_act" = some a ∧ ∀ j : Fin 2, entryAt a [0, j.val] = some 1 := by
  obtain ⟨post, cov, scale, h1, h2, h3, fc, fs, hpost, hact⟩ :=
    C26_create_posterior_full (p := 2) testMean (by simp [testMean, numEntries, Tree.leaves, Tree.leavesL]) (by norm_num) testMv
      !![2, 2; 2, 2] testMv_ok test_psd ⟨some 1, none⟩ 1 rfl (by norm_num) (by norm_num) 1 (by norm_num)
  obtain ⟨_, _, hC1, R, hR1, hR2⟩ := hpost
  obtain ⟨eps, hd, h⟩ := C78_linearized_average testRng testRng_ok testRowNet testMean (by norm_num) testMean_wf ![3, 5]
    (by simp [testMean, entries, Tree.leaves, Tree.leavesL]) (fun a s => createPosteriorFn .full testMv (.tree testMean) a s)
    ⟨some 1, none⟩ 1 post h1 cov scale h2 h3 _ R
    (fun u y hu hy => by have := (hact u y hu hy).1; simp only [hC1] at this; exact this)
    (fun u y hu hy => by have := (hact u y hu hy).2; simp only [hR1] at this; exact this)
    { numSamples := some 3 } rfl (by simp) (by simp) (by simp) (by norm_num) x
  obtain ⟨r, a, g1, g2, -, -, -, g3⟩ := (h _ rfl [.predMean, .predVar, .predStd, .samples] (by simp [LinUsable])).1 1 [2] rfl
  refine ⟨r, a, g1, g2, fun j => ?_⟩
  obtain ⟨z, -, z2⟩ := g3 [j.val] (isIndex_pair j)
  exact (z2 0).trans (congrArg some (C78_what_sums_to_one (c := 1).2.2.1 (by norm_num) z 0))

/-- All hypotheses are met: `mean_field_2` of a sampled predictive with outputs of shape `(1, 2)` is a half for both classes, at every input. -/
example : ∀ x : ℝ, ∃ r, nonlinPushforward testRng testRowNet testMean (fun a s => createPosteriorFn .full testMv (.tree testMean) a s)
      ⟨some 1, none⟩ none 1 ((NonlinFn.setup :: [] ++ [NonlinFn.specialPredAct]).map NonlinFn.step) 3 { specialPredType := some "mean_field_2" } x = .ok r ∧
    r.get? "special_pred_act" = some ⟨[1, 2], [1 / 2, 1 / 2]⟩ := by
  obtain ⟨post, cov, scale, h1, h2, h3, fc, fs, hpost, hact⟩ :=
    C26_create_posterior_full (p := 2) testMean (by simp [testMean, numEntries, Tree.leaves, Tree.leavesL]) (by norm_num) testMv
      !![2, 2; 2, 2] testMv_ok test_psd ⟨some 1, none⟩ 1 rfl (by norm_num) (by norm_num) 1 (by norm_num)
  obtain ⟨_, _, _, R, hR1, hR2⟩ := hpost
  obtain ⟨eps, hd, h⟩ := C78_sampled_special testRng testRng_ok testRowNet testMean testMean_wf ![3, 5]
    (by simp [testMean, entries, Tree.leaves, Tree.leavesL]) (fun a s => createPosteriorFn .full testMv (.tree testMean) a s)
    ⟨some 1, none⟩ 1 post h1 scale h3 R
    (fun u y hu hy => by have := (hact u y hu hy).2; simp only [hR1] at this; exact this)
    none 3 (by norm_num) { specialPredType := some "mean_field_2" } rfl (by simp) (by simp) (by simp) "mean_field_2" rfl
  intro x
  obtain ⟨_, _, _, g, _⟩ := h x [] (by simp) (by simp) _ rfl _ rfl
  obtain ⟨r, r1, r2⟩ := g rfl 2 le_rfl rfl (by norm_num)
  exact ⟨r, r1, r2.trans (by simp [List.ofFn_succ])⟩

end Laplax.Props
