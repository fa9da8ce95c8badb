import Verif.Spec.Predictive
import Verif.Lib.PushforwardLemmas
import Mathlib.LinearAlgebra.Matrix.PosDef
import Mathlib.Algebra.Order.Star.Real

/-! # C35: the linearised predictive -/

namespace Laplax.Props
open Laplax Laplax.Spec
open scoped BigOperators Matrix

variable {X K : Type} {p : ℕ}

theorem exists_vec {xs : List ℝ} (h : xs.length = p) : ∃ x : Vec p, xs = List.ofFn x :=
  ⟨fun i => xs[i.val]'(by omega), by subst h; simp⟩

theorem randnLike_ok (rng : Prng K) (hr : RngOk rng) (k : K) (mean : PyTree ℝ) (hsz : numEntries mean = p) :
    ∃ t, randnLike rng.split rng.normal k mean = .ok t ∧ SameLayout t mean ∧ WFTree t ∧ ∃ x : Vec p, entries t = List.ofFn x := by
  have hlen : (rng.split k mean.leaves.length).length = mean.leaves.length := hr.split _ _
  have hls : ((rng.split k mean.leaves.length).zip mean.leaves).map (fun q => rng.normal q.1 q.2.shape) =
      List.zipWith (fun k l => rng.normal k l.shape) (rng.split k mean.leaves.length) mean.leaves := by
    rw [List.zip, List.map_zipWith]
  obtain ⟨t, ht⟩ := Tree.unflatten_isOk mean.treedef
    (List.zipWith (fun k l => rng.normal k l.shape) (rng.split k mean.leaves.length) mean.leaves)
    (by rw [Tree.length_leaves_treedef]; simp [hlen])
  obtain ⟨h1, h2⟩ := (Tree.unflatten_ok_iff _ _ _).1 ht
  have hshapes : t.leaves.map Arr.shape = mean.leaves.map Arr.shape := by
    rw [h2]
    apply List.ext_getElem
    · simp [hlen]
    · intro i g1 g2; simp [hr.shape]
  have hsl : SameLayout t mean := sameLayout_of h1 hshapes
  have hwf : WFTree t := by
    intro a ha
    rw [h2] at ha
    obtain ⟨i, hi, rfl⟩ := List.getElem_of_mem ha
    simp only [List.getElem_zipWith]; exact hr.wf _ _
  refine ⟨t, ?_, hsl, hwf, exists_vec ?_⟩
  · simp only [randnLike, zipStrict_eq_ok _ _ hlen, ok_bind, mapE_ok, hls, ht]
  · rw [length_entries hwf, hsl.numEntries, hsz]

theorem randnLike_congr (rng : Prng K) (k : K) {t u : PyTree ℝ} (h : SameLayout t u) :
    randnLike rng.split rng.normal k t = randnLike rng.split rng.normal k u := by
  have hl : t.leaves.length = u.leaves.length := by simpa using congrArg List.length h.shapes
  have key : ∀ ks : List K, (zipStrict ks t.leaves >>= fun ps => mapE (fun q => (.ok (rng.normal q.1 q.2.shape) : Except Err (Arr ℝ))) ps) =
      (zipStrict ks u.leaves >>= fun ps => mapE (fun q => (.ok (rng.normal q.1 q.2.shape) : Except Err (Arr ℝ))) ps) := by
    have hs := h.shapes
    generalize t.leaves = a at hs
    generalize u.leaves = b at hs
    intro ks
    induction ks generalizing a b with
    | nil => cases a <;> cases b <;> simp_all [zipStrict]
    | cons k ks ih =>
      cases a with
      | nil => cases b <;> simp_all [zipStrict]
      | cons x a => cases b with
        | nil => simp at hs
        | cons y b =>
          simp only [List.map_cons, List.cons.injEq] at hs
          have := ih a b hs.2
          simp only [zipStrict]
          cases h1 : zipStrict ks a <;> cases h2 : zipStrict ks b <;> simp only [h1, h2, ok_bind, error_bind] at this ⊢ <;>
            simp_all [mapE, pure, Except.pure, ok_bind, error_bind, mapE_ok]
  have := key (rng.split k u.leaves.length)
  simp only [randnLike, hl, h.treedef]
  rw [← bind_assoc, ← bind_assoc, this]

/-- A weight sample is `mean + S eps`. -/
theorem normalLike_ok (rng : Prng K) (hr : RngOk rng) (k : K) (base mean : PyTree ℝ) (hl : SameLayout base mean) (hwb : WFTree base)
    (hsz : numEntries mean = p) (b : Vec p) (hb : entries base = List.ofFn b) (scale : List (PyTree ℝ) → Except Err (PyTree ℝ))
    (f : Vec p → Vec p) (hs : ActsOnTrees mean scale f) :
    ∃ (t w : PyTree ℝ) (eps : Vec p), randnLike rng.split rng.normal k mean = .ok t ∧ entries t = List.ofFn eps ∧
      normalLike rng.split rng.normal k base (call1 scale) = .ok w ∧ SameLayout w mean ∧ WFTree w ∧
      entries w = List.ofFn (b + f eps) := by
  obtain ⟨t, h1, h2, h3, eps, h4⟩ := randnLike_ok rng hr k mean hsz
  obtain ⟨w, g1, g2, g3, g4⟩ := hs t eps h2 h4
  obtain ⟨r, k1, k2, k3, k4⟩ := tmap2_zipWith (· + ·) base w (hl.trans g2.symm) hwb g3
  refine ⟨t, r, eps, h1, h4, ?_, k2.trans hl, k3, ?_⟩
  · simp only [normalLike, randnLike_congr rng k hl, h1, ok_bind, call1, g1, treeAdd, k1]
  · rw [k4, hb, g4]
    apply List.ext_getElem
    · simp
    · intro i _ _; simp

/-- The weight-sample function built by `set_get_weight_sample`, whatever the precomputation setting. -/
theorem weight_samples (rng : Prng K) (hr : RngOk rng) (key : Option K) (base mean : PyTree ℝ) (hl : SameLayout base mean)
    (hwb : WFTree base) (hsz : numEntries mean = p) (b : Vec p) (hb : entries base = List.ofFn b)
    (scale : List (PyTree ℝ) → Except Err (PyTree ℝ)) (f : Vec p → Vec p) (hs : ActsOnTrees mean scale f) (S : ℕ)
    (kw : PfKwargs K) (hkw : kw.precompute = none) (hbs : kw.precomputeListBatchSize ≠ some 0) :
    ∃ (g : ℕ → Except Err (PyTree ℝ)) (eps : Fin S → Vec p),
      setGetWeightSample rng key base (call1 scale) S kw = .ok g ∧ Draws rng key mean eps ∧
      ∀ i : Fin S, ∃ w, g i.val = .ok w ∧ SameLayout w mean ∧ WFTree w ∧ entries w = List.ofFn (b + f (eps i)) := by
  have hlen := hr.split (key.getD rng.key0) S
  choose t w eps h1 h2 h3 h4 h5 h6 using fun k => normalLike_ok rng hr k base mean hl hwb hsz b hb scale f hs
  set ks := rng.split (key.getD rng.key0) S with hks
  have hkey : ∀ i, i < S → ∃ k, ks[i]? = some k := fun i hi => ⟨ks[i]'(by omega), by simp⟩
  set W : ℕ → PyTree ℝ := fun i => w (ks.getD i rng.key0) with hW
  obtain ⟨hA, hB⟩ := C13_precompute W (List.range S) kw.precomputeListBatchSize hbs
  have hget : ∀ i ∈ List.range S, (do
      let k ← jaxGet ks (i : Int)
      normalLike rng.split rng.normal k base (call1 scale)) = .ok (W i) := by
    intro i hi
    obtain ⟨k, hk⟩ := hkey i (by simpa using hi)
    have hi' : i < ks.length := by have : i < S := by simpa using hi
                                   omega
    have hk' : ks[i] = k := by rw [List.getElem?_eq_getElem hi'] at hk; exact Option.some.inj hk
    simp only [jaxGet_of_lt _ _ hi', hk', ok_bind, h3, hW, List.getD_eq_getElem?_getD, hk, Option.getD_some]
  refine ⟨fun i => jaxGet ((List.range S).map W) (i : Int), fun i => eps (ks.getD i.val rng.key0), ?_, ?_, ?_⟩
  · simp only [setGetWeightSample, hkw, Option.isSome_none, Bool.false_eq_true, if_false, ← hks]
    have e0 : (kw.setGetWeightSamplePrecompute <|> (none : Option Bool)) = kw.setGetWeightSamplePrecompute := by
      cases kw.setGetWeightSamplePrecompute <;> rfl
    rw [e0]
    unfold precomputeList
    cases hp : kw.setGetWeightSamplePrecompute.getD true with
    | true =>
      simp only [laxMap_eq _ hbs]
      erw [mapE_of_forall _ W _ hget]; rw [ok_bind]
      rfl
    | false =>
      simp only
      congr 1; funext i
      have hWk : (List.range S).map W = ks.map w := by
        apply List.ext_getElem
        · simp [hlen]
        · intro j h _
          have hj : j < ks.length := by simp at h; omega
          simp [hW, hj]
      rw [hWk, jaxGet_map]
      cases jaxGet ks (i : Int) with
      | error e => rw [error_bind]; rfl
      | ok k => rw [ok_bind, h3]; rfl
  · intro i
    obtain ⟨k, hk⟩ := hkey i i.isLt
    refine ⟨k, t k, hk, h1 k, ?_⟩
    simp only [List.getD_eq_getElem?_getD, hk, Option.getD_some, h2]
  · intro i
    refine ⟨W i, ?_, h4 _, h5 _, ?_⟩
    · show jaxGet ((List.range S).map W) (i.val : Int) = _
      rw [jaxGet_of_lt _ _ (by simp)]; simp
    rw [hW]; exact h6 _

/-! ### The linearised steps -/

/-- The context of a linearised run: what `get_dist_state` put into the distribution state. -/
structure LinCtx (s : Setting X p) (x : X) (S : ℕ) (z : Fin S → Vec p) (ctx : PfCtx X K p) (aux : PfAux X) : Prop where
  input : ctx.input = x
  num : ctx.distState.numSamples = S
  covMv : aux.covMv = some (fun vec => do
        let u ← pfVjp s.net s.mean x vec
        let w ← s.covg [u]
        pfJvp s.net s.mean x w)
  jacMv : aux.jacMv = some (pfJvp s.net s.mean x)
  jvp : ctx.distState.jvp = some (pfJvp s.net s.mean)
  vjp : ctx.distState.vjp = some (pfVjp s.net s.mean)
  post : ctx.distState.posterior.covMv ctx.distState.posterior.state = .ok s.covg
  get : 0 < S → ∃ g, ctx.distState.getWeightSamples = some g ∧ ∀ i : Fin S, ∃ w, g i.val = .ok w ∧ entries w = List.ofFn (z i)
  batch : ctx.kw.linSamplesBatchSize ≠ some 0 ∧ ctx.kw.weightBatchSize ≠ some 0

variable {s : Setting X p} {x : X} {S : ℕ} {z : Fin S → Vec p} {ctx : PfCtx X K p} {aux : PfAux X}

/-- The values every key must hold. -/
noncomputable abbrev linExp (s : Setting X p) (x : X) (z : Fin S → Vec p) (kind : String) : String → Option (Arr ℝ) :=
  linExpected s.net.shape (s.net.fn x s.θ) (s.kernel x x)
    (fun i => s.net.fn x s.θ + jacobian (s.net.fn x) s.θ *ᵥ z i) (specialOf kind (s.net.fn x s.θ) (s.kernel x x))

theorem linPredMean_ok (kind : String) : StepOk (linExp s x z kind) (linPredMean (X := X) (K := K) (p := p)) aux ctx "pred_mean" := by
  intro r hr hm
  have e1 : linExp s x z kind "map" = some (arrOf s.net.shape (s.net.fn x s.θ)) := by simp [linExp, linExpected]
  have e2 : linExp s x z kind "pred_mean" = some (arrOf s.net.shape (s.net.fn x s.θ)) := by simp [linExp, linExpected]
  obtain ⟨h1, h2, h3⟩ := set_meets hr e2
  exact ⟨_, by simp only [linPredMean, getE_of_meets hr e1 hm, ok_bind]; rfl, h1, h2, h3⟩

theorem reshape_ofFn (sh : List ℕ) (y : Vec (shapeSize sh)) : reshape (List.ofFn y) sh = .ok (arrOf sh y) := by
  simp [reshape, arrOf]

theorem jnpDiag_one {n : ℕ} (M : Matrix (Fin n) (Fin n) ℝ) (h : n = 1) :
    jnpDiag ⟨[1], List.ofFn fun i => M i i⟩ = .ok (List.ofFn fun i => M i i) := by
  subst h
  simp [jnpDiag, List.range_succ, List.ofFn_succ]

theorem transpose_scalar {n : ℕ} (M : Matrix (Fin n) (Fin n) ℝ) (h : n = 1) :
    (⟨[1], List.ofFn fun i => M i i⟩ : Arr ℝ) = Arr.transpose ⟨n :: [], (List.ofFn fun j => List.ofFn (M *ᵥ unitFn ℝ n j)).flatten⟩ := by
  have hcol : ∀ j i, (M *ᵥ unitFn ℝ n j) i = M i j := fun j i => mulVec_unitFn _ _ _
  subst h
  simp [Arr.transpose, transposeData, List.ofFn_succ, hcol, shapeSize, chunks]

theorem linPredVar_ok (hs : s.Ok) (hc : LinCtx s x S z ctx aux) (kind : String) :
    StepOk (linExp s x z kind) (linPredVar (X := X) (K := K) (p := p)) aux ctx "pred_var" := by
  intro r hr hm
  obtain ⟨r1, g1, g2, g3, g4⟩ := (linPredMean_ok (aux := aux) (ctx := ctx) (s := s) (x := x) (z := z) kind).ensure hr hm
  have e2 : linExp s x z kind "pred_mean" = some (arrOf s.net.shape (s.net.fn x s.θ)) := by simp [linExp, linExpected]
  have e3 : linExp s x z kind "pred_var" = some (arrOf s.net.shape (fun i => s.kernel x x i i)) := by simp [linExp, linExpected]
  obtain ⟨k1, k2, k3⟩ := set_meets g2 e3
  refine ⟨_, ?_, k1, g3.trans k2, k3⟩
  have hd : linDiag (r.get? "pred_cov") (fun vec => do
          let u ← pfVjp s.net s.mean x vec
          let w ← s.covg [u]
          pfJvp s.net s.mean x w) (shapeSize s.net.shape) = .ok (List.ofFn fun i => s.kernel x x i i) := by
    unfold linDiag
    cases hcov : r.get? "pred_cov" with
    | none =>
      simp only
      apply diagonal_leaf s.net.shape
      intro w
      exact kernel_product s hs x x _ w
    | some c =>
      simp only
      have := hr _ _ hcov
      simp only [linExp, linExpected] at this
      simp only [show ("pred_cov" = "map") = False by simp, show ("pred_cov" = "pred_mean") = False by simp, if_false, if_true] at this
      split_ifs at this with h1 h2
      · simp only [Option.some.injEq] at this
        subst this
        exact jnpDiag_one _ (by rw [h1]; rfl)
      · simp only [Option.some.injEq] at this
        subst this
        exact jnpDiag_dense _
  simp only [linPredVar, hc.covMv, entryE, ok_bind, g1, getE_of_meets g2 e2 g4]
  have hsh : (arrOf s.net.shape (s.net.fn x s.θ)).shape = s.net.shape := rfl
  rw [hsh, hd, ok_bind, reshape_ofFn, ok_bind]; rfl

theorem linPredStd_ok (hs : s.Ok) (hc : LinCtx s x S z ctx aux) (kind : String) :
    StepOk (linExp s x z kind) (linPredStd (X := X) (K := K) (p := p)) aux ctx "pred_std" := by
  intro r hr hm
  obtain ⟨r1, g1, g2, g3, g4⟩ := (linPredVar_ok hs hc kind).ensure hr hm
  have e3 : linExp s x z kind "pred_var" = some (arrOf s.net.shape (fun i => s.kernel x x i i)) := by simp [linExp, linExpected]
  have e4 : linExp s x z kind "pred_std" = some (arrOf s.net.shape (fun i => Real.sqrt (s.kernel x x i i))) := by simp [linExp, linExpected]
  obtain ⟨k1, k2, k3⟩ := set_meets g2 e4
  refine ⟨_, ?_, k1, g3.trans k2, k3⟩
  simp only [linPredStd, ok_bind, g1, getE_of_meets g2 e3 g4, map1_arrOf]; rfl

theorem linPredCov_ok (hs : s.Ok) (hc : LinCtx s x S z ctx aux) (kind : String) (hd : s.net.shape.length ≤ 1)
    (hpos : 0 < shapeSize s.net.shape) :
    StepOk (linExp s x z kind) (linPredCov (X := X) (K := K) (p := p)) aux ctx "pred_cov" := by
  intro r hr hm
  obtain ⟨r1, g1, g2, g3, g4⟩ := (linPredMean_ok (aux := aux) (ctx := ctx) (s := s) (x := x) (z := z) kind).ensure hr hm
  have e2 : linExp s x z kind "pred_mean" = some (arrOf s.net.shape (s.net.fn x s.θ)) := by simp [linExp, linExpected]
  obtain ⟨c, hcv, hce⟩ : ∃ c, toDense (onLeaf (fun vec => do
          let u ← pfVjp s.net s.mean x vec
          let w ← s.covg [u]
          pfJvp s.net s.mean x w)) (.tree (.leaf (arrOf s.net.shape (s.net.fn x s.θ)))) = .ok (.leaf c) ∧
      linExp s x z kind "pred_cov" = some c := by
    refine ⟨_, toDense_tree_stack (m := shapeSize s.net.shape) (n := shapeSize s.net.shape) _ (by simp [Tree.leaves]) ?_ hpos s.net.shape _ (fun w => s.kernel x x *ᵥ w) ?_, ?_⟩
    · simp [numEntries, Tree.leaves, arrOf, shapeSize]
    · intro w t h1 h2 h3
      cases t with
      | node tag ks => simp [SameLayout, Tree.map] at h1
      | leaf a =>
        have ha : a = ⟨a.shape, List.ofFn w⟩ := by
          cases a; simp [entries, Tree.leaves] at h3; simp [h3]
        rw [ha]
        simp only [onLeaf]
        erw [kernel_product s hs x x a.shape w]; rfl
    · simp only [linExp, linExpected]
      simp only [show ("pred_cov" = "map") = False by simp, show ("pred_cov" = "pred_mean") = False by simp, if_false, if_true]
      have hcol : ∀ j i, (s.kernel x x *ᵥ unitFn ℝ _ j) i = s.kernel x x i j := fun j i => mulVec_unitFn _ _ _
      split_ifs with h1 h2
      · simp only [Option.some.injEq]
        rw [transpose_scalar _ (by rw [h1]; rfl)]
        congr 2
        exact congrArg (List.cons _) h1.symm
      · simp only [Option.some.injEq]
        have hsh : s.net.shape = [shapeSize s.net.shape] := by
          obtain ⟨n, hn⟩ := List.length_eq_one_iff.1 h2
          rw [hn]; simp [shapeSize]
        have e : (⟨shapeSize s.net.shape :: s.net.shape, (List.ofFn fun j => List.ofFn (s.kernel x x *ᵥ unitFn ℝ (shapeSize s.net.shape) j)).flatten⟩ : Arr ℝ)
            = ⟨[shapeSize s.net.shape, shapeSize s.net.shape], (List.ofFn fun j => List.ofFn (fun i => s.kernel x x i j)).flatten⟩ := by
          congr 1
          · exact congrArg _ hsh
          · congr 1; congr 1; funext j; congr 1; funext i; exact hcol j i
        rw [e]
        simp only [Arr.transpose, List.reverse_cons, List.reverse_nil, List.nil_append, List.cons_append, transposeData_two]
        rfl
      · exfalso
        cases hsh : s.net.shape with
        | nil => exact h1 hsh
        | cons a l => rw [hsh] at hd h2; simp at hd h2; exact h2 hd
  obtain ⟨k1, k2, k3⟩ := set_meets g2 hce
  refine ⟨_, ?_, k1, g3.trans k2, k3⟩
  simp only [linPredCov, hc.covMv, entryE, ok_bind, g1, getE_of_meets g2 e2 g4]
  rw [hcv]; rfl

theorem laxMapArr_ok {c : ℕ} (sh : List ℕ) (batch : Option ℕ) (hb : batch ≠ some 0) (n : ℕ) (hn : 0 < n) (f : ℕ → Except Err (Arr ℝ))
    (y : Fin n → Vec c) (h : ∀ i : Fin n, f i.val = .ok (arrOf sh (y i))) : laxMapArr batch f n = .ok (ensArr sh y) := by
  have hro : List.range n = List.ofFn (fun i : Fin n => (i : Nat)) := by
    apply List.ext_getElem
    · simp
    · intro i _ _; simp
  simp only [laxMapArr, laxMap_eq _ hb]
  rw [hro, mapE_ofFn f _ (fun i => arrOf sh (y i)) h, ok_bind]
  obtain ⟨k, rfl⟩ : ∃ k, n = k + 1 := ⟨n - 1, by omega⟩
  rw [List.ofFn_succ]
  simp [stackOf, stackArr, ensArr, arrOf, List.ofFn_succ, List.map_ofFn, Function.comp_def]

theorem linSamples_ok (hs : s.Ok) (hc : LinCtx s x S z ctx aux) (kind : String) (hS : 0 < S) :
    StepOk (linExp s x z kind) (linSamples (X := X) (K := K) (p := p)) aux ctx "samples" := by
  intro r hr hm
  obtain ⟨r1, g1, g2, g3, g4⟩ := (linPredMean_ok (aux := aux) (ctx := ctx) (s := s) (x := x) (z := z) kind).ensure hr hm
  have e2 : linExp s x z kind "pred_mean" = some (arrOf s.net.shape (s.net.fn x s.θ)) := by simp [linExp, linExpected]
  have e3 : linExp s x z kind "samples" = some (ensArr s.net.shape (fun i => s.net.fn x s.θ + jacobian (s.net.fn x) s.θ *ᵥ z i)) := by
    simp [linExp, linExpected]
  obtain ⟨g, hg, hgw⟩ := hc.get hS
  obtain ⟨k1, k2, k3⟩ := set_meets g2 e3
  refine ⟨_, ?_, k1, g3.trans k2, k3⟩
  have hb : (ctx.kw.linSamplesBatchSize <|> ctx.kw.weightBatchSize) ≠ some 0 := by
    have h1 := hc.batch.1; have h2 := hc.batch.2
    cases h : ctx.kw.linSamplesBatchSize with
    | none => simpa using h2
    | some b => rw [h] at h1; simpa using h1
  simp only [linSamples, hc.jacMv, hg, entryE, ok_bind, g1, getE_of_meets g2 e2 g4, hc.num]
  rw [laxMapArr_ok s.net.shape _ hb S hS _ (fun i => s.net.fn x s.θ + jacobian (s.net.fn x) s.θ *ᵥ z i)]
  · rfl
  · intro i
    obtain ⟨w, hw1, hw2⟩ := hgw i
    rw [hw1, ok_bind, pfJvp_eq s.net s.mean s.θ hs.entries x hw2, ok_bind]
    simp only [Arr.zipWith, arrOf, if_true]
    congr 2
    apply List.ext_getElem
    · simp
    · intro i _ _; simp

theorem linMc_ok (hs : s.Ok) (hc : LinCtx s x S z ctx aux) (kind : String) (hS : 0 < S) (h1 : s.net.shape.length = 1) :
    StepOk (linExp s x z kind) (linMcPredAct (X := X) (K := K) (p := p)) aux ctx "mc_pred_act" := by
  intro r hr hm
  obtain ⟨r1, g1, g2, g3, g4⟩ := (linSamples_ok hs hc kind hS).ensure hr hm
  have e3 : linExp s x z kind "samples" = some (ensArr s.net.shape (fun i => s.net.fn x s.θ + jacobian (s.net.fn x) s.θ *ᵥ z i)) := by
    simp [linExp, linExpected]
  have e4 : linExp s x z kind "mc_pred_act" = some (arrOf s.net.shape (ensSoftmax fun i => s.net.fn x s.θ + jacobian (s.net.fn x) s.θ *ᵥ z i)) := by
    simp [linExp, linExpected]
  obtain ⟨k1, k2, k3⟩ := set_meets g2 e4
  refine ⟨_, ?_, k1, g3.trans k2, k3⟩
  have hsh : s.net.shape = [shapeSize s.net.shape] := by
    obtain ⟨n, hn⟩ := List.length_eq_one_iff.1 h1
    rw [hn]; simp [shapeSize]
  simp only [linMcPredAct, ok_bind, g1, getE_of_meets g2 e3 g4, meanSoftmax_ens _ hsh]; rfl

theorem asVec_arrOf {n : ℕ} (sh : List ℕ) (y : Vec n) : asVec n (.leaf (arrOf sh y)) = .ok y := by simp [asVec, arrOf]

theorem linSpecial_ok (hs : s.Ok) (hc : LinCtx s x S z ctx aux) (h1 : s.net.shape.length = 1) (hpos : 0 < shapeSize s.net.shape)
    (hk : ctx.kw.specialPredType.getD "mean_field_0" ∈ ["mean_field_0", "mean_field_1", "mean_field_2"]) :
    StepOk (linExp s x z (ctx.kw.specialPredType.getD "mean_field_0")) (specialPredAct (X := X) (K := K) (p := p) true) aux ctx "special_pred_act" := by
  set kind := ctx.kw.specialPredType.getD "mean_field_0" with hkind
  intro r hr hm
  have hsh : s.net.shape = [shapeSize s.net.shape] := by
    obtain ⟨n, hn⟩ := List.length_eq_one_iff.1 h1
    rw [hn]; simp [shapeSize]
  obtain ⟨r1, g1, g2, g3, g4⟩ := (linPredMean_ok (aux := aux) (ctx := ctx) (s := s) (x := x) (z := z) kind).ensure hr hm
  have e2 : linExp s x z kind "pred_mean" = some (arrOf s.net.shape (s.net.fn x s.θ)) := by simp [linExp, linExpected]
  have e3 : linExp s x z kind "pred_var" = some (arrOf s.net.shape (fun i => s.kernel x x i i)) := by simp [linExp, linExpected]
  have e5 : linExp s x z kind "pred_cov" = some (denseArr (s.kernel x x)) := by
    simp only [linExp, linExpected]
    simp only [show ("pred_cov" = "map") = False by simp, show ("pred_cov" = "pred_mean") = False by simp, if_false, if_true, h1]
    rw [if_neg (by rw [hsh]; simp)]
  have e4 : linExp s x z kind "special_pred_act" = some (arrOf s.net.shape (specialOf kind (s.net.fn x s.θ) (s.kernel x x))) := by
    simp [linExp, linExpected]
  have hm1 : (r1.get? "map").isSome := g3 _ hm
  have branch : ∀ f, varPredFn (ctx.kw.useCorrection.getD true) kind = some f → (f (arrOf s.net.shape (s.net.fn x s.θ)) (arrOf s.net.shape fun i => s.kernel x x i i) =
        .ok (arrOf s.net.shape (specialOf kind (s.net.fn x s.θ) (s.kernel x x)))) →
      ∃ r', specialPredAct (X := X) (K := K) (p := p) true r aux ctx = .ok (r', aux) ∧ Meets (linExp s x z kind) r' ∧ Ext r r' ∧ (r'.get? "special_pred_act").isSome := by
    intro f hf hval
    obtain ⟨r2, q1, q2, q3, q4⟩ := (linPredVar_ok hs hc kind).ensure g2 hm1
    obtain ⟨k1, k2, k3⟩ := set_meets q2 e4
    refine ⟨_, ?_, k1, (g3.trans q3).trans k2, k3⟩
    simp only [specialPredAct, ok_bind, if_true, g1, getE_of_meets g2 e2 g4, ← hkind, hf, q1, getE_of_meets q2 e3 q4, hval]; rfl
  simp only [List.mem_cons, List.not_mem_nil, or_false] at hk
  rcases hk with hk | hk | hk
  · refine branch _ (by rw [hk]; simp [varPredFn]; rfl) ?_
    rw [hk]; simp only [specialOf, if_true]
    exact meanField0Arr_1d _ h1 _ _
  · refine branch _ (by rw [hk]; simp [varPredFn]; rfl) ?_
    rw [hk]; simp only [specialOf]; rw [if_neg (by simp), if_pos trivial]
    exact meanField1Arr_1d _ h1 _ _
  · obtain ⟨r2, q1, q2, q3, q4⟩ := (linPredCov_ok hs hc kind (by omega) hpos).ensure g2 hm1
    obtain ⟨k1, k2, k3⟩ := set_meets q2 e4
    refine ⟨_, ?_, k1, (g3.trans q3).trans k2, k3⟩
    have hf : varPredFn (ctx.kw.useCorrection.getD true) kind = none := by
      rw [hk]; simp only [varPredFn]; rw [if_neg (by simp), if_neg (by simp), if_neg (by simp)]
    have hval : covPredFn kind (arrOf s.net.shape (s.net.fn x s.θ)) (denseArr (s.kernel x x)) =
        .ok (arrOf s.net.shape (specialOf kind (s.net.fn x s.θ) (s.kernel x x))) := by
      rw [hk]
      simp only [covPredFn, if_true, specialOf]
      rw [if_neg (by simp), if_neg (by simp)]
      exact meanField2Arr_1d _ h1 _ _
    have hk2 : (kind = "mean_field_2") = True := by simp [hk]
    simp only [specialPredAct, ok_bind, if_true, g1, getE_of_meets g2 e2 g4, ← hkind, hf, q1, getE_of_meets q2 e5 q4, hval, hk2]; rfl

theorem linSetup_ok (hc : LinCtx s x S z ctx aux) (kind : String) :
    StepOk (linExp s x z kind) (linSetup (X := X) (K := K) (p := p)) aux ctx "map" := by
  intro r hr hm
  refine ⟨r, ?_, hr, Ext.refl r, hm⟩
  simp only [linSetup, hc.jvp, hc.vjp, hc.post, entryE, ok_bind, hc.input]
  have : ({ aux with covMv := some (fun vec => do
        let u ← pfVjp s.net s.mean x vec
        let w ← s.covg [u]
        pfJvp s.net s.mean x w), jacMv := some (pfJvp s.net s.mean x) } : PfAux X) = aux := by
    rw [← hc.covMv, ← hc.jacMv]
  rw [this]; rfl

theorem linStep_ok (hs : s.Ok) (hc : LinCtx s x S z ctx aux) (fn : LinFn)
    (hu : LinUsable s.net.shape S (ctx.kw.specialPredType.getD "mean_field_0") fn) :
    StepOk (linExp s x z (ctx.kw.specialPredType.getD "mean_field_0")) (fn.step (X := X) (K := K) (p := p)) aux ctx (linKey fn) := by
  cases fn with
  | setup => exact linSetup_ok hc _
  | predMean => exact linPredMean_ok _
  | predVar => exact linPredVar_ok hs hc _
  | predStd => exact linPredStd_ok hs hc _
  | predCov => exact linPredCov_ok hs hc _ hu.1 hu.2
  | samples => exact linSamples_ok hs hc _ hu
  | mcPredAct => exact linMc_ok hs hc _ hu.1 hu.2
  | specialPredAct => exact linSpecial_ok hs hc hu.1 hu.2.1 hu.2.2

theorem finalizeLoop_append {R A L : Type} (kw : L) (fs gs : List (R → A → L → Except Err (R × A))) (r : R) (a : A) :
    finalizeLoop kw (fs ++ gs) r a = (finalizeLoop kw fs r a >>= fun q => finalizeLoop kw gs q.1 q.2) := by
  induction fs generalizing r a with
  | nil => rfl
  | cons f fs ih =>
    simp only [List.cons_append, finalizeLoop, bind_assoc]
    congr 1; funext q
    exact ih q.1 q.2

theorem linRun_ok (hs : s.Ok) (hc : LinCtx s x S z ctx aux) (fns : List LinFn)
    (hu : ∀ fn ∈ fns, LinUsable s.net.shape S (ctx.kw.specialPredType.getD "mean_field_0") fn) (r : Dict (Arr ℝ))
    (hr : Meets (linExp s x z (ctx.kw.specialPredType.getD "mean_field_0")) r) (hm : (r.get? "map").isSome) :
    ∃ r', finalizeLoop ctx (fns.map (LinFn.step (X := X) (K := K) (p := p))) r aux = .ok (r', aux) ∧
      Meets (linExp s x z (ctx.kw.specialPredType.getD "mean_field_0")) r' ∧ Ext r r' ∧ ∀ fn ∈ fns, (r'.get? (linKey fn)).isSome := by
  induction fns generalizing r with
  | nil => exact ⟨r, rfl, hr, Ext.refl r, by simp⟩
  | cons fn fns ih =>
    obtain ⟨r1, h1, h2, h3, h4⟩ := linStep_ok hs hc fn (hu fn (by simp)) r hr hm
    obtain ⟨r2, g1, g2, g3, g4⟩ := ih (fun f hf => hu f (by simp [hf])) r1 h2 (h3 _ hm)
    refine ⟨r2, ?_, g2, h3.trans g3, ?_⟩
    · simp only [List.map_cons, finalizeLoop, h1, ok_bind, g1]
    · intro f hf
      rcases List.mem_cons.1 hf with rfl | hf
      · exact g3 _ h4
      · exact g4 f hf

/-- **C35 (linearised predictive).** For every model, parameter pytree, posterior whose products act as `Σ` and `R` on parameter
pytrees, keyword arguments, input and every list of pushforward functions that begins with `lin_setup` and uses only functions
applicable to the output shape: the prediction succeeds; every key of the result holds what it must — `map` and `pred_mean`
the model at the parameters, `pred_cov = J Σ Jᵀ`, `pred_var` its diagonal, `pred_std` the root of `pred_var`, `samples`
`f + J R eps` for the draws `eps`, `mc_pred_act` the mean softmax of the samples — whatever the order and subset of the
requested functions, and the key of every requested function is present. -/
theorem C35_linearized_predictive (rng : Prng K) (hrng : RngOk rng) (net : Net X p) (mean : PyTree ℝ) (hp : 0 < p)
    (hwf : WFTree mean) (θ : Vec p) (hθ : entries mean = List.ofFn θ)
    (posteriorFn : PriorArgs → ℝ → Except Err (Posterior p)) (prior : PriorArgs) (lsf : ℝ) (post : Posterior p)
    (hpost : posteriorFn prior lsf = .ok post) (cov scale : List (PyTree ℝ) → Except Err (PyTree ℝ))
    (hcov : post.covMv post.state = .ok cov) (hscale : post.scaleMv post.state = .ok scale)
    (C R : Matrix (Fin p) (Fin p) ℝ) (hC : ActsOnTrees mean cov (fun v => C *ᵥ v)) (hR : ActsOnTrees mean scale (fun v => R *ᵥ v))
    (kw : PfKwargs K) (hkw : kw.precompute = none) (hb1 : kw.precomputeListBatchSize ≠ some 0)
    (hb2 : kw.linSamplesBatchSize ≠ some 0) (hb3 : kw.weightBatchSize ≠ some 0)
    (fns : List LinFn)
    (hu : ∀ fn ∈ fns, LinUsable net.shape (kw.numSamples.getD 0) (kw.specialPredType.getD "mean_field_0") fn) (x : X) :
    ∃ (r : Dict (Arr ℝ)) (eps : Fin (kw.numSamples.getD 0) → Vec p), Draws rng kw.key mean eps ∧
      linPushforward rng net mean posteriorFn prior lsf ((LinFn.setup :: fns).map LinFn.step) kw x = .ok r ∧
      (∀ key v, r.get? key = some v →
        linExpected net.shape (net.fn x θ) (jacobian (net.fn x) θ * C * (jacobian (net.fn x) θ)ᵀ)
          (fun i => net.fn x θ + jacobian (net.fn x) θ *ᵥ (R *ᵥ eps i))
          (specialOf (kw.specialPredType.getD "mean_field_0") (net.fn x θ) (jacobian (net.fn x) θ * C * (jacobian (net.fn x) θ)ᵀ))
          key = some v) ∧
      ∀ fn ∈ fns, (r.get? (linKey fn)).isSome := by
  have hsz : numEntries mean = p := by rw [← length_entries hwf, hθ, List.length_ofFn]
  generalize hS : kw.numSamples.getD 0 = S at hu ⊢
  obtain ⟨z0, hz1, hz2, hz3, hz4, _⟩ := zerosLike_ok (α := ℝ) mean
  have hz4' : entries z0 = List.ofFn (fun _ : Fin p => (0 : ℝ)) := by
    rw [hz4, hsz]; simp
  obtain ⟨g, eps, hg1, hg2, hg3⟩ := weight_samples rng hrng kw.key z0 mean hz2 hz3 hsz (fun _ => 0) hz4' scale
    (fun v => R *ᵥ v) hR S kw hkw hb1
  let st : Setting X p := ⟨net, mean, θ, C, cov⟩
  have hst : st.Ok := ⟨hp, hwf, hθ, hC⟩
  let dist : DistState X p := ⟨post, S, some (pfVjp net mean), some (pfJvp net mean), if S > 0 then some g else none⟩
  let ctx : PfCtx X K p := ⟨x, dist, kw⟩
  let aux0 : PfAux X := { modelFn := net.call, meanParams := mean }
  let cm : Arr ℝ → Except Err (Arr ℝ) := fun vec => do
    let u ← pfVjp net mean x vec
    let w ← cov [u]
    pfJvp net mean x w
  let aux : PfAux X := { modelFn := net.call, meanParams := mean, covMv := some cm, jacMv := some (pfJvp net mean x) }
  have hc : LinCtx st x S (fun i => R *ᵥ eps i) ctx aux := by
    refine ⟨rfl, rfl, rfl, rfl, rfl, rfl, hcov, ?_, hb2, hb3⟩
    intro hpos
    refine ⟨g, by simp only [ctx, dist]; rw [if_pos hpos], fun i => ?_⟩
    obtain ⟨w, h1, _, _, h4⟩ := hg3 i
    refine ⟨w, h1, ?_⟩
    rw [h4]; congr 1; funext j; simp
  have hdist : getDistState rng mean net post true S kw.key kw = .ok dist := by
    simp only [getDistState, weightSampleEntry, weightSampleEntry.weightSampleMean, if_true, hz1, ok_bind, hscale, hg1, dist]
    by_cases h : S > 0
    · simp only [h, if_true]; rfl
    · simp only [h, if_false]; rfl
  have hinit : Meets (linExp st x (fun i => R *ᵥ eps i) (kw.specialPredType.getD "mean_field_0")) [("map", arrOf net.shape (net.fn x θ))] := by
    intro k v hk
    simp only [Dict.get?] at hk
    split_ifs at hk with h
    subst h
    simp only [Option.some.injEq] at hk
    subst hk
    simp [linExp, linExpected, st]
  obtain ⟨r', h1, h2, _, h4⟩ := linRun_ok hst hc fns hu _ hinit (by simp [Dict.get?])
  refine ⟨r', eps, hg2, ?_, h2, h4⟩
  simp only [linPushforward, hpost, ok_bind, hdist, hS, probPredictive, call_eq net x hθ]
  have hset : linSetup (X := X) (K := K) (p := p) [("map", arrOf net.shape (net.fn x θ))] aux0 ctx =
      .ok ([("map", arrOf net.shape (net.fn x θ))], aux) := by
    simp only [linSetup, entryE, ok_bind, ctx, dist, hcov]; rfl
  simp only [List.map_cons, finalizeFns, finalizeLoop, LinFn.step]
  rw [hset, ok_bind]
  rw [h1]; rfl

/-- **C35 (symmetric, positive semidefinite).** With a positive semidefinite posterior covariance the predictive covariance is
symmetric positive semidefinite, its variances non-negative and `pred_std² = pred_var`. -/
theorem C35_predictive_covariance_psd {c : ℕ} (J : Matrix (Fin c) (Fin p) ℝ) (C : Matrix (Fin p) (Fin p) ℝ) (hC : C.PosSemidef) :
    (J * C * Jᵀ).PosSemidef ∧ (J * C * Jᵀ)ᵀ = J * C * Jᵀ ∧ (∀ i, 0 ≤ (J * C * Jᵀ) i i) ∧
      ∀ i, Real.sqrt ((J * C * Jᵀ) i i) ^ 2 = (J * C * Jᵀ) i i := by
  have h : (J * C * Jᵀ).PosSemidef := by
    have := hC.mul_mul_conjTranspose_same J
    rwa [Matrix.conjTranspose_eq_transpose_of_trivial] at this
  have hs := h.isHermitian
  refine ⟨h, ?_, fun i => h.diag_nonneg, fun i => Real.sq_sqrt h.diag_nonneg⟩
  rw [Matrix.IsHermitian, Matrix.conjTranspose_eq_transpose_of_trivial] at hs
  exact hs

/-- **C35 end to end.** With `create_posterior_fn("full", mv, layout=params)`, `mv` computing the product with a positive
semidefinite curvature `G`, every prediction is that of the Gaussian with precision `P = (σ² G + τ I)/s`: `pred_cov = J P⁻¹ Jᵀ` and
the samples use a scale `R` with `R Rᵀ = P⁻¹`. -/
theorem C35_full_laplace_predictive (rng : Prng K) (hrng : RngOk rng) (net : Net X p) (mean : PyTree ℝ) (hp : 0 < p)
    (hwf : WFTree mean) (θ : Vec p) (hθ : entries mean = List.ofFn θ)
    (mv : PyTree ℝ → Except Err (PyTree ℝ)) (G : Matrix (Fin p) (Fin p) ℝ) (hmv : RepresentsTree mean mv (fun v => G *ᵥ v))
    (hG : G.PosSemidef) (prior : PriorArgs) (τ : ℝ) (hτ : prior.priorPrec = some τ) (hτ0 : 0 < τ)
    (hσ : 0 ≤ prior.sigmaSquared.getD 1) (lsf : ℝ) (hlsf : 0 < lsf)
    (kw : PfKwargs K) (hkw : kw.precompute = none) (hb1 : kw.precomputeListBatchSize ≠ some 0)
    (hb2 : kw.linSamplesBatchSize ≠ some 0) (hb3 : kw.weightBatchSize ≠ some 0)
    (fns : List LinFn)
    (hu : ∀ fn ∈ fns, LinUsable net.shape (kw.numSamples.getD 0) (kw.specialPredType.getD "mean_field_0") fn) :
    ∃ R : Matrix (Fin p) (Fin p) ℝ, R * Rᵀ = (precision G τ (prior.sigmaSquared.getD 1) lsf)⁻¹ ∧
      ∀ x : X, ∃ (r : Dict (Arr ℝ)) (eps : Fin (kw.numSamples.getD 0) → Vec p), Draws rng kw.key mean eps ∧
      linPushforward rng net mean (fun a s => createPosteriorFn .full mv (.tree mean) a s) prior lsf
        ((LinFn.setup :: fns).map LinFn.step) kw x = .ok r ∧
      (∀ key v, r.get? key = some v →
        let V := jacobian (net.fn x) θ * (precision G τ (prior.sigmaSquared.getD 1) lsf)⁻¹ * (jacobian (net.fn x) θ)ᵀ
        V.PosSemidef ∧
        linExpected net.shape (net.fn x θ) V (fun i => net.fn x θ + jacobian (net.fn x) θ *ᵥ (R *ᵥ eps i))
          (specialOf (kw.specialPredType.getD "mean_field_0") (net.fn x θ) V) key = some v) ∧
      ∀ fn ∈ fns, (r.get? (linKey fn)).isSome := by
  have hsz : numEntries mean = p := by rw [← length_entries hwf, hθ, List.length_ofFn]
  obtain ⟨post, cov, scale, h1, h2, h3, fc, fs, hpost, hact⟩ :=
    C26_create_posterior_full mean hsz hp mv G hmv hG prior τ hτ hτ0 hσ lsf hlsf
  obtain ⟨_, hpd, hcov, R, hR1, hR2⟩ := hpost
  refine ⟨R, hR2, fun x => ?_⟩
  obtain ⟨r, eps, g1, g2, g3, g4⟩ := C35_linearized_predictive rng hrng net mean hp hwf θ hθ
    (fun a s => createPosteriorFn .full mv (.tree mean) a s) prior lsf post h1 cov scale h2 h3 _ R
    (fun u y hu hy => by have := (hact u y hu hy).1; simp only [hcov] at this; exact this)
    (fun u y hu hy => by have := (hact u y hu hy).2; simp only [hR1] at this; exact this)
    kw hkw hb1 hb2 hb3 fns hu x
  exact ⟨r, eps, g1, g2, fun key v hv => ⟨(C35_predictive_covariance_psd _ _ hpd.posSemidef).1, g3 key v hv⟩, g4⟩

/-- The state before `lin_setup` has run: no products, and only `map` and possibly `pred_mean` computed. -/
structure NoSetup (r : Dict (Arr ℝ)) (aux : PfAux X) : Prop where
  cov : aux.covMv = none
  jac : aux.jacMv = none
  map : (r.get? "map").isSome
  var : r.get? "pred_var" = none
  pcov : r.get? "pred_cov" = none
  samples : r.get? "samples" = none

theorem linPredMean_noSetup {r : Dict (Arr ℝ)} {aux : PfAux X} (h : NoSetup r aux) (ctx : PfCtx X K p) :
    ∃ r', linPredMean r aux ctx = .ok (r', aux) ∧ NoSetup r' aux ∧ (r'.get? "pred_mean").isSome := by
  obtain ⟨m, hm⟩ := Option.isSome_iff_exists.1 h.map
  refine ⟨r.set "pred_mean" m, by simp only [linPredMean, Dict.getE, hm, ok_bind]; rfl, ⟨h.cov, h.jac, ?_, ?_, ?_, ?_⟩, ?_⟩ <;>
    simp [Dict.get?_set, h.map, h.var, h.pcov, h.samples]

theorem ensureMean_noSetup {r : Dict (Arr ℝ)} {aux : PfAux X} (h : NoSetup r aux) (ctx : PfCtx X K p) :
    ∃ r' m, ensureKey "pred_mean" linPredMean r aux ctx = .ok (r', aux) ∧ NoSetup r' aux ∧ r'.getE "pred_mean" = .ok m := by
  by_cases hk : r.mem "pred_mean"
  · obtain ⟨m, hm⟩ := Option.isSome_iff_exists.1 (show (r.get? "pred_mean").isSome by simpa [Dict.mem] using hk)
    exact ⟨r, m, by rw [ensureKey, if_pos hk], h, by simp [Dict.getE, hm]⟩
  · obtain ⟨r', h1, h2, h3⟩ := linPredMean_noSetup h ctx
    obtain ⟨m, hm⟩ := Option.isSome_iff_exists.1 h3
    exact ⟨r', m, by rw [ensureKey, if_neg hk]; exact h1, h2, by simp [Dict.getE, hm]⟩

theorem ensureKey_absent {r : Dict (Arr ℝ)} {k : String} (h : r.get? k = none) (step : PfStep X K p) (aux : PfAux X) (ctx : PfCtx X K p) :
    ensureKey k step r aux ctx = step r aux ctx := by simp [ensureKey, Dict.mem, h]

theorem linStep_noSetup {r : Dict (Arr ℝ)} {aux : PfAux X} (h : NoSetup r aux) (ctx : PfCtx X K p) (fn : LinFn)
    (hfn : fn ≠ .setup ∧ fn ≠ .predMean) : fn.step r aux ctx = .error .keyError := by
  have hvar : ∀ {r : Dict (Arr ℝ)}, NoSetup r aux → linPredVar r aux ctx = .error .keyError := by
    intro r h
    simp only [linPredVar, h.cov, entryE, error_bind]
  have hcov : ∀ {r : Dict (Arr ℝ)}, NoSetup r aux → linPredCov r aux ctx = .error .keyError := by
    intro r h
    obtain ⟨r', m, h1, h2, h3⟩ := ensureMean_noSetup h ctx
    simp only [linPredCov, h1, h3, h2.cov, ok_bind, entryE, error_bind]
  have hsam : ∀ {r : Dict (Arr ℝ)}, NoSetup r aux → linSamples r aux ctx = .error .keyError := by
    intro r h
    obtain ⟨r', m, h1, h2, h3⟩ := ensureMean_noSetup h ctx
    simp only [linSamples, h1, h2.jac, ok_bind, entryE, error_bind]
  cases fn with
  | setup => exact absurd rfl hfn.1
  | predMean => exact absurd rfl hfn.2
  | predVar => exact hvar h
  | predStd => simp only [LinFn.step, linPredStd, ensureKey_absent h.var, hvar h, error_bind]
  | predCov => exact hcov h
  | samples => exact hsam h
  | mcPredAct => simp only [LinFn.step, linMcPredAct, ensureKey_absent h.samples, hsam h, error_bind]
  | specialPredAct =>
    obtain ⟨r', m, h1, h2, h3⟩ := ensureMean_noSetup h ctx
    simp only [LinFn.step, specialPredAct, if_true, h1, h3, ok_bind]
    cases varPredFn (ctx.kw.useCorrection.getD true) (ctx.kw.specialPredType.getD "mean_field_0") with
    | some f => simp only [ensureKey_absent h2.var, hvar h2, error_bind]
    | none =>
      simp only [ensureKey_absent h2.pcov, hcov h2, error_bind]
      split_ifs <;> rfl

/-- **C35 (setup is required).** In every list whose first function other than `lin_pred_mean` is not `lin_setup`, the
prediction raises `KeyError`. -/
theorem C35_setup_required (net : Net X p) (mean : PyTree ℝ) (θ : Vec p) (hθ : entries mean = List.ofFn θ) (dist : DistState X p)
    (n : ℕ) (post : List LinFn) (fn : LinFn)
    (hfn : fn ≠ .setup ∧ fn ≠ .predMean) (kw : PfKwargs K) (x : X) :
    probPredictive net mean dist ((List.replicate n LinFn.predMean ++ fn :: post).map LinFn.step) kw x = .error .keyError := by
  simp only [probPredictive, call_eq net x hθ, ok_bind, finalizeFns]
  have key : ∀ (r : Dict (Arr ℝ)) (aux : PfAux X) (ctx : PfCtx X K p), NoSetup r aux →
      finalizeLoop ctx ((List.replicate n LinFn.predMean ++ fn :: post).map LinFn.step) r aux = .error .keyError := by
    intro r aux ctx h
    induction n generalizing r with
    | zero => simp only [List.replicate_zero, List.nil_append, List.map_cons, finalizeLoop, linStep_noSetup h ctx fn hfn, error_bind]
    | succ n ih =>
      obtain ⟨r', h1, h2, _⟩ := linPredMean_noSetup h ctx
      simp only [List.replicate_succ, List.cons_append, List.map_cons, finalizeLoop]
      rw [show LinFn.step LinFn.predMean = (linPredMean : PfStep X K p) from rfl, h1]
      exact ih r' h2
  rw [key]
  · rfl
  · exact ⟨rfl, rfl, by simp [Dict.get?], by simp [Dict.get?], by simp [Dict.get?], by simp [Dict.get?]⟩

/-- **C35 (finding: matrix outputs).** For every model whose output has two or more axes, `pred_var` requested right after
`pred_cov` (as in the default list) raises `ValueError`: the dense covariance comes back with the output axes unflattened and
`jnp.diag` rejects it. -/
theorem C35_matrix_outputs_raise (rng : Prng K) (hrng : RngOk rng) (net : Net X p) (mean : PyTree ℝ) (hp : 0 < p)
    (hwf : WFTree mean) (θ : Vec p) (hθ : entries mean = List.ofFn θ)
    (posteriorFn : PriorArgs → ℝ → Except Err (Posterior p)) (prior : PriorArgs) (lsf : ℝ) (post : Posterior p)
    (hpost : posteriorFn prior lsf = .ok post) (cov scale : List (PyTree ℝ) → Except Err (PyTree ℝ))
    (hcov : post.covMv post.state = .ok cov) (hscale : post.scaleMv post.state = .ok scale)
    (C R : Matrix (Fin p) (Fin p) ℝ) (hC : ActsOnTrees mean cov (fun v => C *ᵥ v)) (hR : ActsOnTrees mean scale (fun v => R *ᵥ v))
    (kw : PfKwargs K) (hkw : kw.precompute = none) (hb1 : kw.precomputeListBatchSize ≠ some 0)
    (hrank : 2 ≤ net.shape.length) (hpos : 0 < shapeSize net.shape) (mid : List LinFn) (hmid : mid = [] ∨ mid = [.predMean])
    (rest : List LinFn) (x : X) :
    linPushforward rng net mean posteriorFn prior lsf ((.setup :: mid ++ .predCov :: .predVar :: rest).map LinFn.step) kw x =
      .error .valueError := by
  have hsz : numEntries mean = p := by rw [← length_entries hwf, hθ, List.length_ofFn]
  generalize hS : kw.numSamples.getD 0 = S
  obtain ⟨z0, hz1, hz2, hz3, hz4, _⟩ := zerosLike_ok (α := ℝ) mean
  have hz4' : entries z0 = List.ofFn (fun _ : Fin p => (0 : ℝ)) := by
    rw [hz4, hsz]; simp
  obtain ⟨g, eps, hg1, hg2, hg3⟩ := weight_samples rng hrng kw.key z0 mean hz2 hz3 hsz (fun _ => 0) hz4' scale
    (fun v => R *ᵥ v) hR S kw hkw hb1
  let st : Setting X p := ⟨net, mean, θ, C, cov⟩
  have hst : st.Ok := ⟨hp, hwf, hθ, hC⟩
  let dist : DistState X p := ⟨post, S, some (pfVjp net mean), some (pfJvp net mean), if S > 0 then some g else none⟩
  have hdist : getDistState rng mean net post true S kw.key kw = .ok dist := by
    simp only [getDistState, weightSampleEntry, weightSampleEntry.weightSampleMean, if_true, hz1, ok_bind, hscale, hg1, dist]
    by_cases h : S > 0
    · simp only [h, if_true]; rfl
    · simp only [h, if_false]; rfl
  let cm : Arr ℝ → Except Err (Arr ℝ) := fun vec => do
    let u ← pfVjp net mean x vec
    let w ← cov [u]
    pfJvp net mean x w
  let aux : PfAux X := { modelFn := net.call, meanParams := mean, covMv := some cm, jacMv := some (pfJvp net mean x) }
  let ctx : PfCtx X K p := ⟨x, dist, kw⟩
  have hset : linSetup (X := X) (K := K) (p := p) [("map", arrOf net.shape (net.fn x θ))] { modelFn := net.call, meanParams := mean } ctx =
      .ok ([("map", arrOf net.shape (net.fn x θ))], aux) := by
    simp only [linSetup, entryE, ok_bind, ctx, dist, hcov]; rfl
  obtain ⟨c, hc1, hc2⟩ : ∃ c, toDense (onLeaf cm) (.tree (.leaf (arrOf net.shape (net.fn x θ)))) = .ok (.leaf c) ∧
      3 ≤ c.shape.length := by
    refine ⟨_, toDense_tree_stack (m := shapeSize net.shape) (n := shapeSize net.shape) _ (by simp [Tree.leaves]) ?_ hpos net.shape _
      (fun w => st.kernel x x *ᵥ w) ?_, ?_⟩
    · simp [numEntries, Tree.leaves, arrOf, shapeSize]
    · intro w t h1 h2 h3
      cases t with
      | node tag ks => simp [SameLayout, Tree.map] at h1
      | leaf a =>
        have ha : a = ⟨a.shape, List.ofFn w⟩ := by
          cases a; simp [entries, Tree.leaves] at h3; simp [h3]
        rw [ha]
        simp only [onLeaf, cm]
        erw [kernel_product st hst x x a.shape w]; rfl
    · simp [Arr.transpose]; omega
  have hdiag : jnpDiag c = .error .valueError := by
    obtain ⟨csh, cd⟩ := c
    match csh, hc2 with
    | _ :: _ :: _ :: _, _ => rfl
  have hfin : ∀ r : Dict (Arr ℝ), r.get? "map" = some (arrOf net.shape (net.fn x θ)) →
      (∀ v, r.get? "pred_mean" = some v → v = arrOf net.shape (net.fn x θ)) →
      finalizeLoop ctx ((.predCov :: .predVar :: rest : List LinFn).map LinFn.step) r aux = .error .valueError := by
    intro r hr hm
    obtain ⟨r1, h1, h2⟩ : ∃ r1, ensureKey "pred_mean" linPredMean r aux ctx = .ok (r1, aux) ∧
        r1.get? "pred_mean" = some (arrOf net.shape (net.fn x θ)) := by
      by_cases hk : r.mem "pred_mean"
      · obtain ⟨m, hm'⟩ := Option.isSome_iff_exists.1 (show (r.get? "pred_mean").isSome by simpa [Dict.mem] using hk)
        exact ⟨r, by rw [ensureKey, if_pos hk], by rw [hm', hm m hm']⟩
      · refine ⟨r.set "pred_mean" (arrOf net.shape (net.fn x θ)), ?_, by simp [Dict.get?_set]⟩
        rw [ensureKey, if_neg hk]
        simp only [linPredMean, Dict.getE, hr, ok_bind]; rfl
    have e1 : linPredCov r aux ctx = .ok (r1.set "pred_cov" c, aux) := by
      simp only [linPredCov, h1, ok_bind, Dict.getE, h2, entryE, aux, hc1]
      rfl
    have e2 : linPredVar (r1.set "pred_cov" c) aux ctx = .error .valueError := by
      have e3 : ensureKey "pred_mean" linPredMean (r1.set "pred_cov" c) aux ctx = .ok (r1.set "pred_cov" c, aux) := by
        rw [ensureKey, if_pos]; simp [Dict.mem, Dict.get?_set, h2]
      have f1 : (r1.set "pred_cov" c).getE "pred_mean" = .ok (arrOf net.shape (net.fn x θ)) := by simp [Dict.getE, Dict.get?_set, h2]
      have f2 : (r1.set "pred_cov" c).get? "pred_cov" = some c := by simp [Dict.get?_set]
      simp only [linPredVar, e3, ok_bind, entryE, aux, linDiag, f1, f2, hdiag]
      rfl
    simp only [List.map_cons, finalizeLoop]
    rw [show LinFn.step LinFn.predCov = (linPredCov : PfStep X K p) from rfl, e1, ok_bind]
    simp only
    rw [show LinFn.step LinFn.predVar = (linPredVar : PfStep X K p) from rfl, e2, error_bind]
  simp only [linPushforward, hpost, ok_bind, hdist, hS, probPredictive, call_eq net x hθ]
  simp only [List.cons_append, List.map_cons, finalizeFns, finalizeLoop]
  rw [show LinFn.step LinFn.setup = (linSetup : PfStep X K p) from rfl, hset, ok_bind]
  simp only
  rcases hmid with rfl | rfl
  · rw [List.nil_append, hfin _ (by simp [Dict.get?]) (by simp [Dict.get?])]; rfl
  · simp only [List.cons_append, List.nil_append, List.map_cons, finalizeLoop]
    have : linPredMean (X := X) (K := K) (p := p) [("map", arrOf net.shape (net.fn x θ))] aux ctx =
        .ok ([("map", arrOf net.shape (net.fn x θ)), ("pred_mean", arrOf net.shape (net.fn x θ))], aux) := rfl
    rw [show LinFn.step LinFn.predMean = (linPredMean : PfStep X K p) from rfl, this, ok_bind]
    have := hfin [("map", arrOf net.shape (net.fn x θ)), ("pred_mean", arrOf net.shape (net.fn x θ))] (by simp [Dict.get?])
      (by simp [Dict.get?])
    simp only [List.map_cons, finalizeLoop] at this
    simp only
    rw [this]; rfl


/-- **C35 (finding: the bridge is unusable).** For every model with a 1-D output, requesting the special predictive with type
`laplace_bridge` raises `IndexError`, whatever (usable) functions are requested before and whatever after: the bridge reads
`mean.shape[1]`. -/
theorem C35_laplace_bridge_raises (rng : Prng K) (hrng : RngOk rng) (net : Net X p) (mean : PyTree ℝ) (hp : 0 < p)
    (hwf : WFTree mean) (θ : Vec p) (hθ : entries mean = List.ofFn θ)
    (posteriorFn : PriorArgs → ℝ → Except Err (Posterior p)) (prior : PriorArgs) (lsf : ℝ) (post : Posterior p)
    (hpost : posteriorFn prior lsf = .ok post) (cov scale : List (PyTree ℝ) → Except Err (PyTree ℝ))
    (hcov : post.covMv post.state = .ok cov) (hscale : post.scaleMv post.state = .ok scale)
    (C R : Matrix (Fin p) (Fin p) ℝ) (hC : ActsOnTrees mean cov (fun v => C *ᵥ v)) (hR : ActsOnTrees mean scale (fun v => R *ᵥ v))
    (kw : PfKwargs K) (hkw : kw.precompute = none) (hb1 : kw.precomputeListBatchSize ≠ some 0)
    (hb2 : kw.linSamplesBatchSize ≠ some 0) (hb3 : kw.weightBatchSize ≠ some 0) (h1 : net.shape.length = 1)
    (hkind : kw.specialPredType = some "laplace_bridge") (fns rest : List LinFn)
    (hu : ∀ fn ∈ fns, LinUsable net.shape (kw.numSamples.getD 0) "laplace_bridge" fn) (x : X) :
    linPushforward rng net mean posteriorFn prior lsf ((.setup :: fns ++ .specialPredAct :: rest).map LinFn.step) kw x =
      .error .indexError := by
  have hsz : numEntries mean = p := by rw [← length_entries hwf, hθ, List.length_ofFn]
  generalize hS : kw.numSamples.getD 0 = S at hu
  obtain ⟨z0, hz1, hz2, hz3, hz4, _⟩ := zerosLike_ok (α := ℝ) mean
  have hz4' : entries z0 = List.ofFn (fun _ : Fin p => (0 : ℝ)) := by
    rw [hz4, hsz]; simp
  obtain ⟨g, eps, hg1, hg2, hg3⟩ := weight_samples rng hrng kw.key z0 mean hz2 hz3 hsz (fun _ => 0) hz4' scale
    (fun v => R *ᵥ v) hR S kw hkw hb1
  let st : Setting X p := ⟨net, mean, θ, C, cov⟩
  have hst : st.Ok := ⟨hp, hwf, hθ, hC⟩
  let dist : DistState X p := ⟨post, S, some (pfVjp net mean), some (pfJvp net mean), if S > 0 then some g else none⟩
  let ctx : PfCtx X K p := ⟨x, dist, kw⟩
  let aux0 : PfAux X := { modelFn := net.call, meanParams := mean }
  let cm : Arr ℝ → Except Err (Arr ℝ) := fun vec => do
    let u ← pfVjp net mean x vec
    let w ← cov [u]
    pfJvp net mean x w
  let aux : PfAux X := { modelFn := net.call, meanParams := mean, covMv := some cm, jacMv := some (pfJvp net mean x) }
  have hc : LinCtx st x S (fun i => R *ᵥ eps i) ctx aux := by
    refine ⟨rfl, rfl, rfl, rfl, rfl, rfl, hcov, ?_, hb2, hb3⟩
    intro hpos
    refine ⟨g, by simp only [ctx, dist]; rw [if_pos hpos], fun i => ?_⟩
    obtain ⟨w, h1, _, _, h4⟩ := hg3 i
    refine ⟨w, h1, ?_⟩
    rw [h4]; congr 1; funext j; simp
  have hdist : getDistState rng mean net post true S kw.key kw = .ok dist := by
    simp only [getDistState, weightSampleEntry, weightSampleEntry.weightSampleMean, if_true, hz1, ok_bind, hscale, hg1, dist]
    by_cases h : S > 0
    · simp only [h, if_true]; rfl
    · simp only [h, if_false]; rfl
  have hk : ctx.kw.specialPredType.getD "mean_field_0" = "laplace_bridge" := by simp [ctx, hkind]
  have hinit : Meets (linExp st x (fun i => R *ᵥ eps i) (ctx.kw.specialPredType.getD "mean_field_0"))
      [("map", arrOf net.shape (net.fn x θ))] := by
    intro k v hk
    simp only [Dict.get?] at hk
    split_ifs at hk with h
    subst h
    simp only [Option.some.injEq] at hk
    subst hk
    simp [linExp, linExpected, st]
  obtain ⟨r', g1, g2, g3, _⟩ := linRun_ok hst hc fns (by rw [hk]; exact hu) _ hinit (by simp [Dict.get?])
  have hm : (r'.get? "map").isSome := g3 _ (by simp [Dict.get?])
  obtain ⟨r1, k1, k2, k3, k4⟩ := (linPredMean_ok (aux := aux) (ctx := ctx) (s := st) (x := x) (z := fun i => R *ᵥ eps i)
    (ctx.kw.specialPredType.getD "mean_field_0")).ensure g2 hm
  obtain ⟨r2, q1, q2, q3, q4⟩ := (linPredVar_ok hst hc (ctx.kw.specialPredType.getD "mean_field_0")).ensure k2 (k3 _ hm)
  have e2 : linExp st x (fun i => R *ᵥ eps i) (ctx.kw.specialPredType.getD "mean_field_0") "pred_mean" =
      some (arrOf net.shape (net.fn x θ)) := by simp [linExp, linExpected, st]
  have e3 : linExp st x (fun i => R *ᵥ eps i) (ctx.kw.specialPredType.getD "mean_field_0") "pred_var" =
      some (arrOf net.shape (fun i => st.kernel x x i i)) := by simp [linExp, linExpected, st]
  have hsh : net.shape = [shapeSize net.shape] := by
    obtain ⟨n, hn⟩ := List.length_eq_one_iff.1 h1
    rw [hn]; simp [shapeSize]
  have hbr : laplaceBridgeArr (arrOf net.shape (net.fn x θ)) (arrOf net.shape (fun i => st.kernel x x i i)) (ctx.kw.useCorrection.getD true) =
      .error .indexError := laplaceBridgeArr_1d _ (by omega) _ _ _
  have hsp : specialPredAct (X := X) (K := K) (p := p) true r' aux ctx = .error .indexError := by
    have hv : varPredFn (ctx.kw.useCorrection.getD true) "laplace_bridge" = some fun m v => laplaceBridgeArr m v (ctx.kw.useCorrection.getD true) := by
      simp [varPredFn]
    simp only [specialPredAct, if_true, k1, ok_bind, getE_of_meets k2 e2 k4, hk, hv, q1, getE_of_meets q2 e3 q4, hbr]
    rfl
  simp only [linPushforward, hpost, ok_bind, hdist, hS, probPredictive, call_eq net x hθ]
  have hset : linSetup (X := X) (K := K) (p := p) [("map", arrOf net.shape (net.fn x θ))] aux0 ctx =
      .ok ([("map", arrOf net.shape (net.fn x θ))], aux) := by
    simp only [linSetup, entryE, ok_bind, ctx, dist, hcov]; rfl
  simp only [List.cons_append, List.map_cons, finalizeFns, finalizeLoop]
  rw [show LinFn.step LinFn.setup = (linSetup : PfStep X K p) from rfl, hset, ok_bind]
  simp only [List.map_append, List.map_cons, finalizeLoop_append, finalizeLoop]
  erw [g1]
  rw [ok_bind]
  rw [show LinFn.step LinFn.specialPredAct = (specialPredAct true : PfStep X K p) from rfl]
  erw [hsp]; rfl

/-! ### Non-vacuity -/

/-- A PRNG meeting the assumptions. -/
noncomputable def testRng : Prng Unit := ⟨(), fun _ n => List.replicate n (), fun _ sh => ⟨sh, List.replicate (shapeSize sh) (1 / 2)⟩⟩

theorem testRng_ok : RngOk testRng := ⟨by simp [testRng], by simp [testRng], by simp [testRng, Arr.WF]⟩

/-- A model with two parameters and two outputs, `f(x, (a, b)) = (a b, x a)`. -/
def testNet : Net ℝ 2 := ⟨[2], fun x θ => (fun i : Fin 2 => if i = 0 then θ 0 * θ 1 else x * θ 0)⟩

/-- Parameters `{a: 3, b: [5]}`. -/
def testMean : PyTree ℝ := .node "dict(a,b)" [.leaf ⟨[], [3]⟩, .leaf ⟨[1], [5]⟩]

/-- A curvature product that is not diagonal. -/
def testMv : PyTree ℝ → Except Err (PyTree ℝ) := fun t => match entries t with
  | [x, y] => .ok (.node "dict(a,b)" [.leaf ⟨[], [2 * x + 2 * y]⟩, .leaf ⟨[1], [2 * x + 2 * y]⟩])
  | _ => .error .typeError

theorem testMean_wf : WFTree testMean := by
  intro a ha; simp [testMean, Tree.leaves, Tree.leavesL] at ha; rcases ha with rfl | rfl <;> simp [Arr.WF, shapeSize]

theorem testMv_ok : RepresentsTree testMean testMv (fun v => (!![2, 2; 2, 2] : Matrix (Fin 2) (Fin 2) ℝ) *ᵥ v) := by
  intro x t _ _ ht
  have ht' : entries t = [x 0, x 1] := by
    have : entries t = List.ofFn x := ht
    rw [this]; simp [List.ofFn_succ]
  refine ⟨.node "dict(a,b)" [.leaf ⟨[], [2 * x 0 + 2 * x 1]⟩, .leaf ⟨[1], [2 * x 0 + 2 * x 1]⟩], by simp only [testMv, ht'], ?_⟩
  simp [Tree.leaves, Tree.leavesL, List.ofFn_succ, dotProduct, Fin.sum_univ_two]

theorem test_psd : (!![2, 2; 2, 2] : Matrix (Fin 2) (Fin 2) ℝ).PosSemidef := by
  have := Matrix.posSemidef_conjTranspose_mul_self (!![1, 1; 1, 1] : Matrix (Fin 2) (Fin 2) ℝ)
  convert this using 1
  ext i j; fin_cases i <;> fin_cases j <;> norm_num [Matrix.mul_apply, Fin.sum_univ_two, Matrix.conjTranspose_apply]

/-- All hypotheses of the end-to-end theorem are met by the network above with three samples and the default list. -/
example : ∃ R : Matrix (Fin 2) (Fin 2) ℝ, ∀ x : ℝ, ∃ (r : Dict (Arr ℝ)) (eps : Fin 3 → Vec 2), Draws testRng none testMean eps ∧
    linPushforward testRng testNet testMean (fun a s => createPosteriorFn .full testMv (.tree testMean) a s)
      ⟨some 1, none⟩ 1 (defaultLinFns.map LinFn.step) { numSamples := some 3 } x = .ok r ∧
    r.get? "samples" = some (ensArr [2] fun i => testNet.fn x ![3, 5] + jacobian (testNet.fn x) ![3, 5] *ᵥ (R *ᵥ eps i)) := by
  obtain ⟨R, _, h⟩ := C35_full_laplace_predictive testRng testRng_ok testNet testMean (by norm_num)
    testMean_wf
    ![3, 5] (by simp [testMean, entries, Tree.leaves, Tree.leavesL])
    testMv (!![2, 2; 2, 2]) testMv_ok test_psd
    ⟨some 1, none⟩ 1 rfl (by norm_num) (by norm_num) 1 (by norm_num)
    { numSamples := some 3 } rfl (by simp) (by simp) (by simp) [.predMean, .predCov, .predVar, .predStd, .samples]
    (by simp [LinUsable, testNet, shapeSize])
  refine ⟨R, fun x => ?_⟩
  obtain ⟨r, eps, h1, h2, h3, h4⟩ := h x
  refine ⟨r, eps, h1, h2, ?_⟩
  obtain ⟨v, hv⟩ := Option.isSome_iff_exists.1 (h4 .samples (by simp))
  have := (h3 _ v hv).2
  simp only [linKey] at hv
  rw [hv, ← this]
  simp [linExpected, linKey, testNet]


end Laplax.Props
