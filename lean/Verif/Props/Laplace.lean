import Verif.Spec.Laplace
import Verif.Props.Loader
import Verif.Props.Ggn
import Verif.Props.Cov
import Verif.Props.Pushforward

/-! # C47: `laplace` end to end -/

namespace Laplax.Props
open Spec
open scoped BigOperators Matrix

variable {p c : ℕ} {A X Y : Type}

/-! ### Data routing -/

theorem liftReduceAdd_none (r : PyTree ℝ) : liftReduce reduceAdd r none = .ok (r, r) := by
  have : Tree.tmap (fun a => reduceAdd a none) r = .ok (r.map (fun a => (a, a))) := Tree.tmap_ok _ _
  simp only [liftReduce, this, ok_bind, Tree.map_map]
  have h7 : ∀ g : Arr ℝ × Arr ℝ → Arr ℝ, (g ∘ fun a => (a, a)) = id → r.map (g ∘ fun a => (a, a)) = r := by
    intro g hg; rw [hg]; apply Tree.ext_leaves
    · rw [Tree.treedef_map]
    · rw [Tree.leaves_map]; simp
  rw [h7 Prod.fst rfl, h7 Prod.snd rfl]; rfl

theorem processLoop_map {B B' R S : Type} (h : B → B') (f : B' → Except Err R) (red : R → Option S → Except Err (R × S))
    (acc : Option (R × S)) (bs : List B) : processLoop f red acc (bs.map h) = processLoop (fun b => f (h b)) red acc bs := by
  induction bs generalizing acc with
  | nil => rfl
  | cons b bs ih => simp only [List.map_cons, processLoop, ih]

theorem processBatches_map {B B' R S : Type} (h : B → B') (f : B' → Except Err R) (red : R → Option S → Except Err (R × S))
    (bs : List B) : processBatches f red (bs.map h) = processBatches (fun b => f (h b)) red bs := by
  simp only [processBatches, processLoop_map]

theorem processLoop_forall2 {B B' R S : Type} (f : B → Except Err R) (f' : B' → Except Err R)
    (red : R → Option S → Except Err (R × S)) (bs : List B) (bs' : List B') (h : List.Forall₂ (fun b b' => f b = f' b') bs bs')
    (acc : Option (R × S)) : processLoop f red acc bs = processLoop f' red acc bs' := by
  induction h generalizing acc with
  | nil => rfl
  | cons h _ ih => simp only [processLoop, h, ih]

theorem processBatches_singleton (f : PyObj A × PyObj A → Except Err (PyTree ℝ)) (xy : PyObj A × PyObj A) :
    processBatches f (liftReduce reduceAdd) [xy] = f xy := by
  simp only [processBatches, processLoop]
  cases f xy with
  | error e => rfl
  | ok r => simp only [ok_bind, Option.map_none, liftReduceAdd_none]; rfl

theorem mvOnBatch_batch {V W : Type} {b : PyObj A} {xy : PyObj A × PyObj A} (h : BatchOf b xy)
    (rows : A → Except Err (List A)) (mv : V → PyObj A → PyObj A → Except Err W) :
    ∃ tr d, b.validateAndGetTransform rows = .ok tr ∧ tr b = .ok d ∧ mvOnBatch mv d = fun v => mv v xy.1 xy.2 := by
  cases h with
  | pair x y => exact ⟨_, _, rfl, rfl, rfl⟩
  | mapping kvs x y hx hy =>
    refine ⟨fun d => .ok d, .dct kvs, by simp [PyObj.validateAndGetTransform, Dict.mem, hx, hy], rfl, ?_⟩
    funext v; simp [mvOnBatch, PyObj.field, Dict.getE, hx, hy, ok_bind]

/-- Every use of the bound product is the additive reduction over the batches, and leaves the data as it was. -/
theorem dataOf_pass {data : PyObj A} {ps : List (PyObj A × PyObj A)} (h : DataOf data ps) (rows : A → Except Err (List A)) :
    ps ≠ [] ∧ ∃ b, maybeWrap rows data none = .ok (b, data) ∧
      ∀ (mv : PyTree ℝ → PyObj A → PyObj A → Except Err (PyTree ℝ)) (g : (PyTree ℝ → Except Err (PyTree ℝ)) → Except Err (PyTree ℝ)),
        b.pass rows mv (liftReduce reduceAdd) g data =
          (processBatches (fun xy => g (fun v => mv v xy.1 xy.2)) (liftReduce reduceAdd) ps, data) := by
  cases h with
  | single _ xy h =>
    refine ⟨by simp, ?_⟩
    cases h with
    | pair x y =>
      refine ⟨_, rfl, fun mv g => ?_⟩
      rw [processBatches_singleton]; rfl
    | mapping kvs x y hx hy =>
      obtain ⟨⟨b, h1, h2⟩, -⟩ := C43_mapping_is_one_batch (V := PyTree ℝ) (W := PyTree ℝ) (S := PyTree ℝ) rows kvs x y hx hy
      refine ⟨b, h1, fun mv g => ?_⟩
      rw [processBatches_singleton, h2]
  | pairs _ h =>
    refine ⟨h, ?_⟩
    cases ps with
    | nil => exact absurd rfl h
    | cons p0 ps =>
      refine ⟨.stream (PyObj.inputTargetSplit rows), rfl, fun mv g => ?_⟩
      have := processBatches_map (fun xy : PyObj A × PyObj A => PyObj.tup [xy.1, xy.2]) (fun b => do
        let d ← PyObj.inputTargetSplit rows b
        g (mvOnBatch mv d)) (liftReduce reduceAdd) (p0 :: ps)
      exact Prod.ext this rfl
  | mappings ds _ h hb =>
    refine ⟨h, ?_⟩
    cases hb with
    | nil => exact absurd rfl h
    | @cons d0 p0 ds' ps' hd hb' =>
      have hval : PyObj.validateAndGetTransform rows (.dct d0) = .ok (fun d => .ok d) := by
        simp [PyObj.validateAndGetTransform, Dict.mem, hd.1, hd.2]
      refine ⟨.stream (fun d => .ok d), ?_, fun mv g => ?_⟩
      · simp [maybeWrap, PyObj.isDataLoader, PyObj.isIterable, PyObj.next, Loader.peek, ok_bind, hval, pure, Except.pure]
      · refine Prod.ext ((processBatches_map PyObj.dct (fun b => do
          let d ← (fun d => .ok d : PyObj A → Except Err (PyObj A)) b
          g (mvOnBatch mv d)) (liftReduce reduceAdd) (d0 :: ds')).trans ?_) rfl
        simp only [processBatches]
        rw [processLoop_forall2]
        refine List.Forall₂.imp ?_ (List.Forall₂.cons hd hb')
        rintro kvs xy ⟨hx, hy⟩
        have : mvOnBatch mv (.dct kvs) = fun v => mv v xy.1 xy.2 := by
          funext v; simp [mvOnBatch, PyObj.field, Dict.getE, hx, hy, ok_bind]
        simp only [ok_bind, this]

/-! ### The curvature matrix -/

/-- `v ↦ Jᵀ H J v` for one sample. -/
noncomputable def sampleOp (model : X → Vec p → Vec c) (θ : Vec p) (H : Vec c → Vec c → Y → Vec c) (hH : GoodLossHess H)
    (s : X × Y) : Vec p →ₗ[ℝ] Vec p where
  toFun v := (jacobian (model s.1) θ)ᵀ *ᵥ H (jacobian (model s.1) θ *ᵥ v) (model s.1 θ) s.2
  map_add' u v := by
    have := hH.lin (model s.1 θ) s.2 1 1 (jacobian (model s.1) θ *ᵥ u) (jacobian (model s.1) θ *ᵥ v)
    simp only [one_smul] at this
    rw [Matrix.mulVec_add, this, Matrix.mulVec_add]
  map_smul' a v := by
    have := hH.lin (model s.1 θ) s.2 a 0 (jacobian (model s.1) θ *ᵥ v) 0
    simp only [zero_smul, add_zero] at this
    rw [Matrix.mulVec_smul, this, Matrix.mulVec_smul]; rfl

theorem ggn_list (model : X → Vec p → Vec c) (θ : Vec p) (H : Vec c → Vec c → Y → Vec c) (hH : GoodLossHess H) (factor : ℝ)
    (ss : List (X × Y)) (hd : ∀ s ∈ ss, DifferentiableAt ℝ (model s.1) θ) (v : Vec p) :
    ggnMvWithoutData model θ H factor v (fun i : Fin ss.length => ss[i]) = (factor • (ss.map (sampleOp model θ H hH)).sum) v := by
  refine (C15_ggn_formula model θ H factor (fun i : Fin ss.length => ss[i]) (fun i => hd _ (List.getElem_mem i.isLt)) v).trans ?_
  rw [LinearMap.smul_apply]
  congr 1
  have : (ss.map (sampleOp model θ H hH)).sum v = (ss.map (fun s => sampleOp model θ H hH s v)).sum := by
    induction ss with
    | nil => rfl
    | cons s ss ih => simp only [List.map_cons, List.sum_cons, LinearMap.add_apply, ih (fun s hs => hd s (by simp [hs]))]
  rw [this, ← List.ofFn_getElem (xs := ss.map _), List.sum_ofFn]
  simp only [Spec.ggnSum, List.getElem_map]
  exact (Fintype.sum_equiv (finCongr (List.length_map _)) _ _ (fun i => rfl)).symm

theorem ggnSamples_eq (model : X → Vec p → Vec c) (θ : Vec p) (H : Vec c → Vec c → Y → Vec c) (hH : GoodLossHess H)
    (ss : List (X × Y)) (v : Vec p) : ggnSamples model θ H ss v = (ss.map (sampleOp model θ H hH)).sum v := by
  induction ss with
  | nil => rfl
  | cons s ss ih =>
    simp only [List.map_cons, List.sum_cons, LinearMap.add_apply, ← ih]
    rfl

/-! ### Reductions over the batches -/

section Core
variable {B : Type} (params : PyTree ℝ) (hp : 0 < p) (hsz : numEntries params = p)
  (mvb : B → PyTree ℝ → Except Err (PyTree ℝ)) (f : B → Vec p →ₗ[ℝ] Vec p) (ps : List B) (hne : ps ≠ [])
  (hmv : ∀ b ∈ ps, ∀ x t, IsTree params x t → ∃ w, mvb b t = .ok w ∧ IsTree params (f b x) w)

include hne hmv in
theorem batches_call (x : Vec p) (t : PyTree ℝ) (ht : IsTree params x t) :
    ∃ w, processBatches (fun b => mvb b t) (liftReduce reduceAdd) ps = .ok w ∧ IsTree params ((ps.map f).sum x) w := by
  choose F hF1 hF2 using fun b : {b // b ∈ ps} => hmv b.1 b.2 x t ht
  obtain ⟨w, h1, h2⟩ := reduceAdd_trees params F (fun b => f b.1 x) hF2 (fun b => mvb b.1 t) hF1 ps.attach (by simpa using hne)
  have e := processBatches_map Subtype.val (fun b => mvb b t) (liftReduce reduceAdd) ps.attach
  rw [List.attach_map_subtype_val] at e
  refine ⟨w, e.trans h1, ?_⟩
  rw [sum_apply_list f]
  rwa [show ps.attach.map (fun b => f b.1 x) = ps.map (fun b => f b x) by
    conv_rhs => rw [← List.attach_map_subtype_val ps]
    rw [List.map_map]; rfl] at h2

/-- The `DataLoaderMV` over the attached batches. -/
def attObj : DataLoaderMV {b // b ∈ ps} (PyTree ℝ) (PyTree ℝ) (PyTree ℝ) (PyTree ℝ) (PyTree ℝ) :=
  DataLoaderMV.new (fun v b => mvb b.1 v) ps.attach (liftReduce reduceAdd)

theorem sum_attach : (ps.attach.map (fun b => f b.1)).sum = (ps.map f).sum := by
  conv_rhs => rw [← List.attach_map_subtype_val ps]
  rw [List.map_map]; rfl

include hsz hne hmv in
theorem batches_diagonal :
    processBatches (fun b => do
        let xs ← Laplax.diagonal (.callable (mvb b)) (.tree params)
        return flatLeaf xs) (liftReduce reduceAdd) ps =
      .ok (flatLeaf (List.ofFn fun i => LinearMap.toMatrix' (ps.map f).sum i i)) := by
  have hL : LinearLoaderMV (attObj mvb ps) params params params params (fun b => f b.1) LinearMap.id LinearMap.id :=
    ⟨rfl, fun x t ht => ⟨t, rfl, ht⟩, fun b x t ht => hmv b.1 b.2 x t ht, fun y t ht => ⟨t, rfl, ht⟩⟩
  obtain ⟨d, h1, h2, -⟩ := C12_diagonal hsz hL (by simpa [attObj, DataLoaderMV.new] using hne)
  have e := processBatches_map Subtype.val (fun b => do
        let xs ← Laplax.diagonal (.callable (mvb b)) (.tree params)
        return flatLeaf xs) (liftReduce reduceAdd) ps.attach
  rw [List.attach_map_subtype_val] at e
  rw [e]
  have e2 : ∀ b : {b // b ∈ ps}, (fun x => do
      let v ← (attObj mvb ps).inputTransform x
      let w ← (attObj mvb ps).mv v b
      (attObj mvb ps).outputTransform w) = mvb b.1 := by
    intro b; funext x
    show (do let w ← mvb b.1 x; Except.ok w) = _
    cases mvb b.1 x <;> rfl
  simp only [DataLoaderMV.lowerFunc, e2] at h2
  refine h2.trans ?_
  simp only [flatLeaf, List.length_ofFn]
  congr 4
  funext i
  rw [h1]
  have hs : (List.map (fun b : {b // b ∈ ps} => f b.1) (attObj mvb ps).loader).sum = (ps.map f).sum := sum_attach f ps
  rw [hs, LinearMap.toMatrix'_apply]
  simp only [LinearMap.id_apply]
  have hu : unitFn ℝ p i = Pi.single i 1 := by funext k; simp [unitFn, Pi.single_apply]
  rw [hu]

/-- The object wrapped by `create_full_curvature`. -/
def attObjFlat : DataLoaderMV {b // b ∈ ps} (PyTree ℝ) (PyTree ℝ) (PyTree ℝ) (PyTree ℝ) (PyTree ℝ) :=
  (attObj mvb ps).wrap (fun v => match v with
    | .leaf a => (createPytreeFlattener params).2 a.data
    | .node _ _ => .error .typeError) (fun w => do
      let xs ← (createPytreeFlattener params).1 w
      return flatLeaf xs)

include hp hsz hne hmv in
theorem batches_dense :
    processBatches (fun b => toDense (wrapMv params (mvb b)) (.int (getSize params))) (liftReduce reduceAdd) ps =
      .ok (.leaf (denseArr (LinearMap.toMatrix' (ps.map f).sum))) := by
  have hlne : params.leaves ≠ [] := by
    intro h0; simp [numEntries, h0] at hsz; omega
  have hL : LinearLoaderMV (attObjFlat params mvb ps) (Tree.leaf ⟨[p], List.replicate p 0⟩) params params
      (Tree.leaf ⟨[p], List.replicate p 0⟩) (fun b => f b.1) LinearMap.id LinearMap.id := by
    refine ⟨rfl, fun x t ht => ?_, fun b x t ht => hmv b.1 b.2 x t ht, fun y t ht => ?_⟩
    · rw [isTree_flat _ (by simp)] at ht
      subst ht
      obtain ⟨u, hu⟩ := unflattenLike_isOk params hlne (List.ofFn x) (by simp [hsz])
      obtain ⟨h1, h2, h3⟩ := (unflattenLike_ok_iff params hlne _ u).1 hu
      refine ⟨u, ?_, h1, h2, h3⟩
      show (unflattenLike params (List.ofFn x) >>= fun v => .ok v) = _
      rw [hu]; rfl
    · obtain ⟨h1, h2, h3⟩ := ht
      have hwne : t.leaves ≠ [] := leaves_ne_of_entries hp h3
      refine ⟨_, ?_, (isTree_flat _ (by simp) _ _).2 rfl⟩
      show (Except.ok t >>= fun w => do let xs ← fullFlatten w; return flatLeaf xs) = _
      simp only [ok_bind, fullFlatten_eq hwne, h3, flatLeaf, List.length_ofFn]
      rfl
  obtain ⟨M, h1, h2, -⟩ := C12_to_dense hp _ _ (by simp) (by simp) hL (by simpa [attObjFlat, attObj, DataLoaderMV.wrap, DataLoaderMV.new] using hne) none (by simp)
  have e := processBatches_map Subtype.val (fun b => toDense (wrapMv params (mvb b)) (.int (getSize params)))
    (liftReduce reduceAdd) ps.attach
  rw [List.attach_map_subtype_val] at e
  rw [e]
  have e2 : ∀ b : {b // b ∈ ps}, (fun x => do
      let v ← (attObjFlat params mvb ps).inputTransform x
      let w ← (attObjFlat params mvb ps).mv v b
      (attObjFlat params mvb ps).outputTransform w) = wrapMv params (mvb b.1) := by
    intro b; funext x
    cases x with
    | node k ts => rfl
    | leaf a =>
      show (do let v ← (unflattenLike params a.data >>= fun v => .ok v)
               let w ← mvb b.1 v
               (Except.ok w >>= fun w => do let xs ← fullFlatten w; return flatLeaf xs)) = _
      simp only [wrapMv, createPytreeFlattener]
      cases unflattenLike params a.data <;> rfl
  simp only [DataLoaderMV.lowerFunc, e2] at h2
  rw [getSize_eq, hsz]
  refine h2.trans ?_
  congr 3
  have hs : (List.map (fun b : {b // b ∈ ps} => f b.1) (attObjFlat params mvb ps).loader).sum = (ps.map f).sum := sum_attach f ps
  rw [hs] at h1
  apply Matrix.toLin'.injective
  ext1 x
  apply LinearMap.ext
  intro y
  simp only [LinearMap.comp_apply, Matrix.toLin'_apply, h1, Matrix.toLin'_toMatrix', LinearMap.id_apply]

end Core

/-! ### The curvature matrix of the data -/

/-- `factor · Σ J_sᵀ H_s J_s` over all samples, as a matrix. -/
noncomputable def ggnMatrix (model : X → Vec p → Vec c) (θ : Vec p) (H : Vec c → Vec c → Y → Vec c) (hH : GoodLossHess H)
    (factor : ℝ) (ss : List (X × Y)) : Matrix (Fin p) (Fin p) ℝ :=
  LinearMap.toMatrix' (factor • (ss.map (sampleOp model θ H hH)).sum)

theorem ggnMatrix_mulVec (model : X → Vec p → Vec c) (θ : Vec p) (H : Vec c → Vec c → Y → Vec c) (hH : GoodLossHess H)
    (factor : ℝ) (ss : List (X × Y)) (v : Vec p) :
    ggnMatrix model θ H hH factor ss *ᵥ v = factor • ggnSamples model θ H ss v := by
  rw [ggnMatrix, ← Matrix.toLin'_apply, Matrix.toLin'_toMatrix', ggnSamples_eq model θ H hH, LinearMap.smul_apply]

theorem ggnMatrix_posSemidef (model : X → Vec p → Vec c) (θ : Vec p) (H : Vec c → Vec c → Y → Vec c) (hH : GoodLossHess H)
    (factor : ℝ) (hf : 0 ≤ factor) (ss : List (X × Y)) (hd : ∀ s ∈ ss, DifferentiableAt ℝ (model s.1) θ) :
    (ggnMatrix model θ H hH factor ss).PosSemidef := by
  have hg : ∀ v, ggnMatrix model θ H hH factor ss *ᵥ v =
      ggnMvWithoutData model θ H factor v (fun i : Fin ss.length => ss[i]) := by
    intro v
    rw [ggn_list model θ H hH factor ss hd, ggnMatrix, ← Matrix.toLin'_apply, Matrix.toLin'_toMatrix']
  obtain ⟨-, h2, h3⟩ := C15_ggn_psd model θ H hH factor (fun i : Fin ss.length => ss[i]) (fun i => hd _ (List.getElem_mem i.isLt))
  refine Matrix.PosSemidef.of_dotProduct_mulVec_nonneg ?_ ?_
  · ext i j
    have h := h2 (Pi.single i 1) (Pi.single j 1)
    rw [← hg, ← hg] at h
    simpa [Matrix.conjTranspose_apply] using h.symm
  · intro x
    have h := h3 hf x
    rw [← hg] at h
    simpa using h

/-- The per-batch product of `laplace` on pytrees. -/
theorem ggnTreeMv_isTree (points : PyObj A → PyObj A → Except Err (List (X × Y))) (model : X → Vec p → Vec c)
    (params : PyTree ℝ) (hp : 0 < p) (hsz : numEntries params = p) (θ : Vec p) (hθ : entries params = List.ofFn θ)
    (H : Vec c → Vec c → Y → Vec c) (hH : GoodLossHess H) (factor : ℝ) (x y : PyObj A) (ss : List (X × Y)) (hss : points x y = .ok ss)
    (hd : ∀ s ∈ ss, DifferentiableAt ℝ (model s.1) θ) (v : Vec p) (t : PyTree ℝ) (ht : IsTree params v t) :
    ∃ w, ggnTreeMv points model params H factor t x y = .ok w ∧
      IsTree params ((factor • (ss.map (sampleOp model θ H hH)).sum) v) w := by
  have hlne : params.leaves ≠ [] := leaves_ne_of_entries hp hθ
  obtain ⟨w, hw⟩ := unflattenLike_isOk params hlne (List.ofFn ((factor • (ss.map (sampleOp model θ H hH)).sum) v)) (by simp [hsz])
  refine ⟨w, ?_, (unflattenLike_ok_iff params hlne _ w).1 hw⟩
  simp only [ggnTreeMv, asParams_eq hθ, asParams_eq ht.2.2, hss, ok_bind]
  rw [ggn_list model θ H hH factor ss hd, hw]

theorem shapesMatchParams_true (params t : PyTree ℝ) (h : SameLayout t params) : shapesMatchParams params t = .ok true := by
  have htd : t.treedef = params.treedef := h.treedef
  obtain ⟨u, hu1, hu2⟩ := exists_tree t.treedef t.leaves.length (Tree.length_leaves_treedef t) (fun _ => true)
  have : Tree.tmap2 (fun a b => .ok (decide (a.shape = b.shape))) t params = .ok u := by
    rw [tmap2_ok_iff _ _ _ htd]
    refine ⟨hu1, ?_⟩
    rw [hu2, List.forall₂_iff_get]
    have hlen : t.leaves.length = params.leaves.length := by simpa using congrArg List.length h.shapes
    refine ⟨by simp [hlen], fun i h1 h2 => ?_⟩
    have hs := congrArg (fun l => l[i]?) h.shapes
    simp only [List.length_zip, hlen, min_self] at h1
    simp only [List.getElem?_map, List.getElem?_eq_getElem h1, List.getElem?_eq_getElem (hlen ▸ h1), Option.map_some, Option.some.injEq] at hs
    simp [hs]
  simp only [shapesMatchParams, this, ok_bind, hu2]
  congr 1
  simp [List.mem_ofFn]

/-- Running the estimation on the bound product gives the estimate of the summed curvature. -/
theorem run_curvAlg (rows : A → Except Err (List A)) (params : PyTree ℝ) (hp : 0 < p) (hsz : numEntries params = p)
    (data : PyObj A) (ps : List (PyObj A × PyObj A)) (hne : ps ≠ []) (b : Bound A)
    (mv : PyTree ℝ → PyObj A → PyObj A → Except Err (PyTree ℝ))
    (hb : ∀ g : (PyTree ℝ → Except Err (PyTree ℝ)) → Except Err (PyTree ℝ), b.pass rows mv (liftReduce reduceAdd) g data =
          (processBatches (fun xy => g (fun v => mv v xy.1 xy.2)) (liftReduce reduceAdd) ps, data))
    (f : PyObj A × PyObj A → Vec p →ₗ[ℝ] Vec p)
    (hmv : ∀ xy ∈ ps, ∀ x t, IsTree params x t → ∃ w, mv t xy.1 xy.2 = .ok w ∧ IsTree params (f xy x) w) (k : LaplaceKind p) :
    (curvAlgOf params k).run rows mv (liftReduce reduceAdd) b data = estimateOf (LinearMap.toMatrix' (ps.map f).sum) k := by
  have hlne : params.leaves ≠ [] := by
    intro h0; simp [numEntries, h0] at hsz; omega
  cases k with
  | full =>
    have h := batches_dense params hp hsz (fun xy v => mv v xy.1 xy.2) f ps hne hmv
    simp only [curvAlgOf, CurvAlg.run, hb, h, asMatrix_denseArr, ok_bind, estimateOf]
    rfl
  | diagonal =>
    have h := batches_diagonal params hsz (fun xy v => mv v xy.1 xy.2) f ps hne hmv
    simp only [curvAlgOf, CurvAlg.run, hb]
    erw [h]
    simp only [asVec_ofFn, ok_bind, estimateOf]
    rfl
  | lowRank r alg =>
    simp only [curvAlgOf, estimateOf]
    induction alg with
    | done t => cases t <;> rfl
    | call v k ih =>
      obtain ⟨u, hu⟩ := unflattenLike_isOk params hlne (List.ofFn v) (by simp [hsz])
      obtain ⟨w, hw1, hw2⟩ := batches_call params (fun xy v => mv v xy.1 xy.2) f ps hne hmv v u
        ((unflattenLike_ok_iff params hlne _ u).1 hu)
      have hwne : w.leaves ≠ [] := leaves_ne_of_entries hp hw2.2.2
      have hu' : (createPytreeFlattener params).2 (List.ofFn v) = .ok u := hu
      have hf' : (createPytreeFlattener params).1 w = .ok (entries w) := fullFlatten_eq hwne
      have e : (LinearMap.toMatrix' (ps.map f).sum) *ᵥ v = (ps.map f).sum v := by
        rw [← Matrix.toLin'_apply, Matrix.toLin'_toMatrix']
      simp only [MvAlg.toCurvAlg, CurvAlg.run, hb, hu', ok_bind, hw1, hf', hw2.2.2, asVec_ofFn, runAlg, e]
      exact ih _

theorem sum_batches (model : X → Vec p → Vec c) (θ : Vec p) (H : Vec c → Vec c → Y → Vec c) (hH : GoodLossHess H) (factor : ℝ)
    (decode : PyObj A × PyObj A → List (X × Y)) (ps : List (PyObj A × PyObj A)) :
    (ps.map (fun xy => factor • ((decode xy).map (sampleOp model θ H hH)).sum)).sum =
      factor • ((ps.flatMap decode).map (sampleOp model θ H hH)).sum := by
  induction ps with
  | nil => simp
  | cons a ps ih => simp only [List.map_cons, List.sum_cons, ih, List.flatMap_cons, List.map_append, List.sum_append, smul_add]

/-- `laplace` for any loss with a linear, symmetric, positive semidefinite Hessian product. -/
theorem laplace_core (lower : String → String) (rows : A → Except Err (List A))
    (points : PyObj A → PyObj A → Except Err (List (X × Y))) (model : X → Vec p → Vec c) (params : PyTree ℝ) (hp : 0 < p)
    (hwf : WFTree params) (θ : Vec p) (hθ : entries params = List.ofFn θ) (data : PyObj A) (ps : List (PyObj A × PyObj A))
    (hdata : DataOf data ps) (decode : PyObj A × PyObj A → List (X × Y)) (hdec : ∀ xy ∈ ps, points xy.1 xy.2 = .ok (decode xy))
    (hd : ∀ s ∈ ps.flatMap decode, DifferentiableAt ℝ (model s.1) θ)
    (lossFn : LossArg c Y) (H : Vec c → Vec c → Y → Vec c) (hH : createLossHessianMv lossFn = .ok H) (hG : GoodLossHess H)
    (curvType ct : EnumArg) (hct : convertToEnum lower curvApproxValues false curvType = .ok ct)
    (kind : EnumArg → LaplaceKind p) (numCurv numTotal : ℕ) (hN : numTotal ≠ 0) :
    laplace lower rows points model params data lossFn curvType kind numCurv numTotal =
      (estimateOf (ggnMatrix model θ H hG ((numCurv : ℝ) / numTotal) (ps.flatMap decode)) (kind ct)).map
        (fun est => (fun a s => setPosteriorFn est (.tree params) a s, est)) := by
  have hsz : numEntries params = p := by rw [← length_entries hwf, hθ, List.length_ofFn]
  obtain ⟨hne, b, hb1, hb2⟩ := dataOf_pass hdata rows
  set factor : ℝ := (numCurv : ℝ) / numTotal with hfac
  let f : PyObj A × PyObj A → Vec p →ₗ[ℝ] Vec p := fun xy => factor • ((decode xy).map (sampleOp model θ H hG)).sum
  have hmv : ∀ xy ∈ ps, ∀ x t, IsTree params x t →
      ∃ w, ggnTreeMv points model params H factor t xy.1 xy.2 = .ok w ∧ IsTree params (f xy x) w := by
    intro xy hxy x t ht
    exact ggnTreeMv_isTree points model params hp hsz θ hθ H hG factor _ _ _ (hdec xy hxy)
      (fun s hs => hd s (List.mem_flatMap.2 ⟨xy, hxy, hs⟩)) x t ht
  obtain ⟨w, hw1, hw2⟩ := batches_call params (fun xy v => ggnTreeMv points model params H factor v xy.1 xy.2) f ps hne hmv θ params
    ⟨rfl, hwf, hθ⟩
  have hrun := run_curvAlg rows params hp hsz data ps hne b (ggnTreeMv points model params H factor)
    (hb2 (ggnTreeMv points model params H factor)) f hmv (kind ct)
  rw [sum_batches model θ H hG factor decode ps] at hrun
  have hct2 : convertToEnum lower curvApproxValues false ct = .ok ct := by
    cases curvType with
    | member v => simp only [convertToEnum, Except.ok.injEq] at hct; subst hct; rfl
    | str s =>
      simp only [convertToEnum] at hct
      split at hct
      · simp only [Except.ok.injEq] at hct; subst hct; rfl
      · simp at hct
    | other => simp [convertToEnum] at hct
  simp only [laplace, hct, ok_bind, hN, if_false, hH, laplaceCurv, hct2, ← hfac, ggnApi, hb1, hb2, hw1, shapesMatchParams_true params w hw2.1,
    if_true]
  simp only [pure, Except.pure, ok_bind, hrun, ggnMatrix]
  cases estimateOf (LinearMap.toMatrix' (factor • ((ps.flatMap decode).map (sampleOp model θ H hG)).sum)) (kind ct) <;> rfl

/-! ### The claims -/

/-- **C47 (curvature).** For every model, parameter pytree, named loss, accepted curvature type and data set — one batch or a
re-iterable loader of batches, as pairs or mappings, of any sizes — `laplace` returns the estimate of its kind (full matrix,
diagonal, or the low-rank algorithm run with this matrix) for the positive semidefinite matrix
`num_curv_samples/num_total_samples · Σ_samples Jᵀ H J`, and the posterior function of exactly this estimate. -/
theorem C47_laplace_curvature (lower : String → String) (rows : A → Except Err (List A))
    (points : PyObj A → PyObj A → Except Err (List (X × Y))) (model : X → Vec p → Vec c) (params : PyTree ℝ) (θ : Vec p)
    (data : PyObj A) (samples : List (X × Y)) (loss : String) (H : Vec c → Vec c → Y → Vec c) (curvType ct : EnumArg)
    (h : LaplaceCall lower points model params θ data samples loss H curvType ct)
    (kind : EnumArg → LaplaceKind p) (numCurv numTotal : ℕ) (hN : numTotal ≠ 0) :
    ∃ G : Matrix (Fin p) (Fin p) ℝ, G.PosSemidef ∧
      (∀ v, G *ᵥ v = ((numCurv : ℝ) / numTotal) • ggnSamples model θ H samples v) ∧
      laplace lower rows points model params data (.name loss) curvType kind numCurv numTotal =
        (estimateOf G (kind ct)).map (fun est => (fun a s => setPosteriorFn est (.tree params) a s, est)) := by
  obtain ⟨ps, decode, h1, h2, rfl⟩ := h.hdata
  have hG := goodLossHess_named loss H h.hH
  exact ⟨ggnMatrix model θ H hG ((numCurv : ℝ) / numTotal) (ps.flatMap decode),
    ggnMatrix_posSemidef model θ H hG _ (by positivity) _ h.hd, ggnMatrix_mulVec model θ H hG _ _,
    laplace_core lower rows points model params h.hp h.hwf θ h.hθ data ps h1 decode h2 h.hd _ H h.hH hG curvType ct h.hct kind
      numCurv numTotal hN⟩

/-- **C47 (what `laplace` rejects before looking at the data).** A string that is none of the four built-in names in any
capitalisation raises `ValueError` — in particular the name of every method added with `register_curvature_method`, so that
registered methods can only be used through the functional interface; an object that is no string raises `AttributeError`; zero
total samples raise `ZeroDivisionError`; a loss name that is not supported raises what `create_loss_hessian_mv` raises. -/
theorem C47_rejected_calls (lower : String → String) (rows : A → Except Err (List A))
    (points : PyObj A → PyObj A → Except Err (List (X × Y))) (model : X → Vec p → Vec c) (params : PyTree ℝ) (data : PyObj A)
    (lossFn : LossArg c Y) (kind : EnumArg → LaplaceKind p) (numCurv numTotal : ℕ) :
    (∀ name, lower name ∉ ["full", "diagonal", "lanczos", "lobpcg"] →
      laplace lower rows points model params data lossFn (.str name) kind numCurv numTotal = .error .valueError) ∧
    laplace lower rows points model params data lossFn .other kind numCurv numTotal = .error .attributeError ∧
    (∀ v, laplace lower rows points model params data lossFn (.member v) kind numCurv 0 = .error .zeroDivisionError) ∧
    (∀ v e, numTotal ≠ 0 → createLossHessianMv lossFn = .error e →
      laplace lower rows points model params data lossFn (.member v) kind numCurv numTotal = .error e) := by
  refine ⟨fun name h => ?_, rfl, fun v => rfl, fun v e hN he => ?_⟩
  · have h' : lower name ∉ curvApproxValues := h
    simp only [laplace, convertToEnum, h', if_false, Bool.false_eq_true, error_bind]
  · simp only [laplace, convertToEnum, ok_bind, hN, if_false, he, error_bind]

/-- **C47 (batching and order do not matter).** Two data sources whose samples are the same up to order — however they are
batched, as pairs or mappings, in one batch or in a loader — give equal results. -/
theorem C47_batching_independent (lower : String → String) (rows : A → Except Err (List A))
    (points : PyObj A → PyObj A → Except Err (List (X × Y))) (model : X → Vec p → Vec c) (params : PyTree ℝ) (θ : Vec p)
    (data data' : PyObj A) (samples samples' : List (X × Y)) (hperm : samples.Perm samples') (loss : String)
    (H : Vec c → Vec c → Y → Vec c) (curvType ct : EnumArg)
    (h : LaplaceCall lower points model params θ data samples loss H curvType ct)
    (h' : LaplaceCall lower points model params θ data' samples' loss H curvType ct)
    (kind : EnumArg → LaplaceKind p) (numCurv numTotal : ℕ) (hN : numTotal ≠ 0) :
    laplace lower rows points model params data (.name loss) curvType kind numCurv numTotal =
      laplace lower rows points model params data' (.name loss) curvType kind numCurv numTotal := by
  obtain ⟨G, -, h2, h3⟩ := C47_laplace_curvature lower rows points model params θ data samples loss H curvType ct h kind numCurv numTotal hN
  obtain ⟨G', -, h2', h3'⟩ := C47_laplace_curvature lower rows points model params θ data' samples' loss H curvType ct h' kind numCurv numTotal hN
  have hs : ∀ v, ggnSamples model θ H samples v = ggnSamples model θ H samples' v := by
    intro v; exact (hperm.map _).sum_eq
  have : G = G' := by
    apply Matrix.toLin'.injective
    apply LinearMap.ext; intro v
    rw [Matrix.toLin'_apply, Matrix.toLin'_apply, h2, h2', hs]
  rw [h3, h3', this]

theorem posterior_of_estimate (params : PyTree ℝ) (hsz : numEntries params = p) (hp : 0 < p) (est : CurvEstimate p)
    (he : EstimatePsd est) (a : PriorArgs) (τ : ℝ) (hτ : a.priorPrec = some τ) (hτ0 : 0 < τ) (hσ : 0 ≤ a.sigmaSquared.getD 1)
    (s : ℝ) (hs : 0 < s) :
    ∃ post cov scale, setPosteriorFn est (.tree params) a s = .ok post ∧ post.covMv post.state = .ok cov ∧
      post.scaleMv post.state = .ok scale ∧
      ∃ R : Matrix (Fin p) (Fin p) ℝ,
        IsPosterior (targetPrecision τ (a.sigmaSquared.getD 1) s est)
          (fun v => (targetPrecision τ (a.sigmaSquared.getD 1) s est)⁻¹ *ᵥ v) (fun v => R *ᵥ v) ∧
        ActsOnTrees params cov (fun v => (targetPrecision τ (a.sigmaSquared.getD 1) s est)⁻¹ *ᵥ v) ∧
        ActsOnTrees params scale (fun v => R *ᵥ v) := by
  have key : ∃ st, posteriorState est a s = .ok st ∧
      IsPosterior (targetPrecision τ (a.sigmaSquared.getD 1) s est) (covMvOfState st) (scaleMvOfState st) := by
    cases est with
    | full G =>
      obtain ⟨st, k1, k2, -⟩ := C19_full_posterior G a τ hτ s (precision_posDef he hτ0 hσ hs)
      exact ⟨st, k1, k2⟩
    | diagonal d =>
      have he' : ∀ i, 0 ≤ d i := he
      exact C20_diagonal_is_posterior d a τ hτ s (fun i => by have := he' i; positivity)
    | lowRank t =>
      obtain ⟨st, k1, k2, -⟩ := C21_low_rank_posterior t he.1 he.2 a τ hτ hτ0 hσ s hs
      exact ⟨st, k1, k2⟩
  obtain ⟨st, k1, k2⟩ := key
  obtain ⟨post, g1, g2, g3⟩ := C26_pytree_products est params hsz hp a s st k1
  obtain ⟨cov, scale, c1, c2, c3⟩ := g3 post.state
  obtain ⟨e1, e2, e3, R, e4, e5⟩ := k2
  have hc : covMvOfState st = fun v => (targetPrecision τ (a.sigmaSquared.getD 1) s est)⁻¹ *ᵥ v := by funext v; exact e3 v
  have hs' : scaleMvOfState st = fun v => R *ᵥ v := by funext v; exact e4 v
  refine ⟨post, cov, scale, g1, c1, c2, R, ⟨e1, e2, fun v => rfl, R, fun v => rfl, e5⟩, ?_, ?_⟩
  · intro u x h1 h2; obtain ⟨w, hw⟩ := (c3 u x h1 h2).1
    rw [g2, hc] at hw; exact ⟨w, hw⟩
  · intro u x h1 h2; obtain ⟨w, hw⟩ := (c3 u x h1 h2).2
    rw [g2, hs'] at hw; exact ⟨w, hw⟩

theorem posSemidef_diag_nonneg {G : Matrix (Fin p) (Fin p) ℝ} (h : G.PosSemidef) (i : Fin p) : 0 ≤ G i i := by
  have := h.dotProduct_mulVec_nonneg (Pi.single i 1)
  simpa using this

/-- **C47 (posterior).** For every curvature kind: if the estimation succeeds (always for FULL and DIAGONAL; for low rank, if the
algorithm run with the curvature matrix returns orthonormal columns and non-negative values), `laplace` returns a posterior
function whose products, for every prior with positive precision `τ`, noise `σ² ≥ 0` and loss scaling `s > 0`, act on parameter
pytrees as the covariance and a square root of it of the Gaussian with the target precision of that estimate. -/
theorem C47_posterior (lower : String → String) (rows : A → Except Err (List A))
    (points : PyObj A → PyObj A → Except Err (List (X × Y))) (model : X → Vec p → Vec c) (params : PyTree ℝ) (θ : Vec p)
    (data : PyObj A) (samples : List (X × Y)) (loss : String) (H : Vec c → Vec c → Y → Vec c) (curvType ct : EnumArg)
    (h : LaplaceCall lower points model params θ data samples loss H curvType ct)
    (kind : EnumArg → LaplaceKind p) (numCurv numTotal : ℕ) (hN : numTotal ≠ 0) :
    ∃ G : Matrix (Fin p) (Fin p) ℝ,
      (∀ v, G *ᵥ v = ((numCurv : ℝ) / numTotal) • ggnSamples model θ H samples v) ∧
      ∀ est, (kind ct = .full ∧ est = .full G ∨ kind ct = .diagonal ∧ est = .diagonal (fun i => G i i) ∨
          ∃ (r : ℕ) (alg : MvAlg p r) (t : LowRankTerms p r), kind ct = .lowRank r alg ∧ runAlg G alg = .ok t ∧ est = .lowRank t ∧
            t.Uᵀ * t.U = 1 ∧ ∀ k, 0 ≤ t.S k) →
        ∃ posteriorFn, laplace lower rows points model params data (.name loss) curvType kind numCurv numTotal = .ok (posteriorFn, est) ∧
          ∀ (a : PriorArgs) (τ : ℝ), a.priorPrec = some τ → 0 < τ → 0 ≤ a.sigmaSquared.getD 1 → ∀ s : ℝ, 0 < s →
            ∃ post cov scale, posteriorFn a s = .ok post ∧ post.covMv post.state = .ok cov ∧ post.scaleMv post.state = .ok scale ∧
              ∃ R : Matrix (Fin p) (Fin p) ℝ,
                IsPosterior (targetPrecision τ (a.sigmaSquared.getD 1) s est)
                  (fun v => (targetPrecision τ (a.sigmaSquared.getD 1) s est)⁻¹ *ᵥ v) (fun v => R *ᵥ v) ∧
                ActsOnTrees params cov (fun v => (targetPrecision τ (a.sigmaSquared.getD 1) s est)⁻¹ *ᵥ v) ∧
                ActsOnTrees params scale (fun v => R *ᵥ v) := by
  obtain ⟨G, h1, h2, h3⟩ := C47_laplace_curvature lower rows points model params θ data samples loss H curvType ct h kind numCurv numTotal hN
  have hsz : numEntries params = p := by rw [← length_entries h.hwf, h.hθ, List.length_ofFn]
  refine ⟨G, h2, fun est hest => ⟨_, ?_, fun a τ hτ hτ0 hσ s hs => posterior_of_estimate params hsz h.hp est ?_ a τ hτ hτ0 hσ s hs⟩⟩
  · rcases hest with ⟨hk, rfl⟩ | ⟨hk, rfl⟩ | ⟨r, alg, t, hk, hr, rfl, -⟩
    · rw [h3, hk]; rfl
    · rw [h3, hk]; rfl
    · rw [h3, hk]; simp only [estimateOf, hr]; rfl
  · rcases hest with ⟨hk, rfl⟩ | ⟨hk, rfl⟩ | ⟨r, alg, t, hk, hr, rfl, h5⟩
    · exact h1
    · exact posSemidef_diag_nonneg h1
    · exact h5

/-- **C47 (linearised predictive of a Laplace approximation).** `laplace` with FULL curvature followed by the linearised
pushforward: at every input `x` the recorded predictive is the one with mean `f(x, θ)` and covariance `J_x P⁻¹ J_xᵀ`, where
`P = (σ² N_curv/N_total Σ Jᵀ H J + τ I)/s`, and samples `f(x, θ) + J_x R ε` with `R Rᵀ = P⁻¹`. -/
theorem C47_linearized_predictive_full {K : Type} (lower : String → String) (rows : A → Except Err (List A)) (net : Net X p)
    (points : PyObj A → PyObj A → Except Err (List (X × Y))) (params : PyTree ℝ) (θ : Vec p)
    (data : PyObj A) (samples : List (X × Y)) (loss : String) (H : Vec (shapeSize net.shape) → Vec (shapeSize net.shape) → Y → Vec (shapeSize net.shape))
    (curvType ct : EnumArg) (h : LaplaceCall lower points net.fn params θ data samples loss H curvType ct)
    (kind : EnumArg → LaplaceKind p) (hk : kind ct = .full) (numCurv numTotal : ℕ) (hN : numTotal ≠ 0)
    (prior : PriorArgs) (τ : ℝ) (hτ : prior.priorPrec = some τ) (hτ0 : 0 < τ) (hσ : 0 ≤ prior.sigmaSquared.getD 1) (s : ℝ) (hs : 0 < s)
    (rng : Prng K) (hrng : RngOk rng) (kw : PfKwargs K) (hkw : kw.precompute = none) (hb1 : kw.precomputeListBatchSize ≠ some 0)
    (hb2 : kw.linSamplesBatchSize ≠ some 0) (hb3 : kw.weightBatchSize ≠ some 0) (fns : List LinFn)
    (hu : ∀ fn ∈ fns, LinUsable net.shape (kw.numSamples.getD 0) (kw.specialPredType.getD "mean_field_0") fn) :
    ∃ (G P R : Matrix (Fin p) (Fin p) ℝ) (posteriorFn : PriorArgs → ℝ → Except Err (Posterior p)),
      (∀ v, G *ᵥ v = ((numCurv : ℝ) / numTotal) • ggnSamples net.fn θ H samples v) ∧
      P = s⁻¹ • (prior.sigmaSquared.getD 1 • G + τ • (1 : Matrix (Fin p) (Fin p) ℝ)) ∧ P * P⁻¹ = 1 ∧ R * Rᵀ = P⁻¹ ∧
      laplace lower rows points net.fn params data (.name loss) curvType kind numCurv numTotal = .ok (posteriorFn, .full G) ∧
      ∀ x : X, ∃ (r : Dict (Arr ℝ)) (eps : Fin (kw.numSamples.getD 0) → Vec p), Draws rng kw.key params eps ∧
        linPushforward rng net params posteriorFn prior s ((LinFn.setup :: fns).map LinFn.step) kw x = .ok r ∧
        (∀ key v, r.get? key = some v →
          linExpected net.shape (net.fn x θ) (jacobian (net.fn x) θ * P⁻¹ * (jacobian (net.fn x) θ)ᵀ)
            (fun i => net.fn x θ + jacobian (net.fn x) θ *ᵥ (R *ᵥ eps i))
            (specialOf (kw.specialPredType.getD "mean_field_0") (net.fn x θ) (jacobian (net.fn x) θ * P⁻¹ * (jacobian (net.fn x) θ)ᵀ))
            key = some v) ∧
        ∀ fn ∈ fns, (r.get? (linKey fn)).isSome := by
  obtain ⟨G, h2, h3⟩ := C47_posterior lower rows points net.fn params θ data samples loss H curvType ct h kind numCurv numTotal hN
  obtain ⟨posteriorFn, h4, h5⟩ := h3 (.full G) (Or.inl ⟨hk, rfl⟩)
  obtain ⟨post, cov, scale, k1, k2, k3, R, k4, k5, k6⟩ := h5 prior τ hτ hτ0 hσ s hs
  obtain ⟨e1, -, -, S, e4, e5⟩ := k4
  have hRS : R = S := by
    apply Matrix.toLin'.injective
    apply LinearMap.ext; intro v
    rw [Matrix.toLin'_apply, Matrix.toLin'_apply]; exact e4 v
  refine ⟨G, targetPrecision τ (prior.sigmaSquared.getD 1) s (.full G), R, posteriorFn, h2, ?_, e1, by rw [hRS]; exact e5, h4, fun x => ?_⟩
  · rfl
  · exact C35_linearized_predictive rng hrng net params h.hp h.hwf θ h.hθ posteriorFn prior s post k1 cov scale k2 k3 _ R k5 k6 kw hkw
      hb1 hb2 hb3 fns hu x

/-- **C47 (linearised predictive, every curvature kind).** As above for every estimate `laplace` can return: the dense matrix, its
diagonal, or low-rank terms with orthonormal columns and non-negative values; `P` is the target precision of that estimate. -/
theorem C47_linearized_predictive {K : Type} (lower : String → String) (rows : A → Except Err (List A)) (net : Net X p)
    (points : PyObj A → PyObj A → Except Err (List (X × Y))) (params : PyTree ℝ) (θ : Vec p)
    (data : PyObj A) (samples : List (X × Y)) (loss : String) (H : Vec (shapeSize net.shape) → Vec (shapeSize net.shape) → Y → Vec (shapeSize net.shape))
    (curvType ct : EnumArg) (h : LaplaceCall lower points net.fn params θ data samples loss H curvType ct)
    (kind : EnumArg → LaplaceKind p) (numCurv numTotal : ℕ) (hN : numTotal ≠ 0)
    (prior : PriorArgs) (τ : ℝ) (hτ : prior.priorPrec = some τ) (hτ0 : 0 < τ) (hσ : 0 ≤ prior.sigmaSquared.getD 1) (s : ℝ) (hs : 0 < s)
    (rng : Prng K) (hrng : RngOk rng) (kw : PfKwargs K) (hkw : kw.precompute = none) (hb1 : kw.precomputeListBatchSize ≠ some 0)
    (hb2 : kw.linSamplesBatchSize ≠ some 0) (hb3 : kw.weightBatchSize ≠ some 0) (fns : List LinFn)
    (hu : ∀ fn ∈ fns, LinUsable net.shape (kw.numSamples.getD 0) (kw.specialPredType.getD "mean_field_0") fn) :
    ∃ G : Matrix (Fin p) (Fin p) ℝ, G.PosSemidef ∧
      (∀ v, G *ᵥ v = ((numCurv : ℝ) / numTotal) • ggnSamples net.fn θ H samples v) ∧
      ∀ est, (kind ct = .full ∧ est = .full G ∨ kind ct = .diagonal ∧ est = .diagonal (fun i => G i i) ∨
          ∃ (r : ℕ) (alg : MvAlg p r) (t : LowRankTerms p r), kind ct = .lowRank r alg ∧ runAlg G alg = .ok t ∧ est = .lowRank t ∧
            t.Uᵀ * t.U = 1 ∧ ∀ k, 0 ≤ t.S k) →
        ∃ (P R : Matrix (Fin p) (Fin p) ℝ) (posteriorFn : PriorArgs → ℝ → Except Err (Posterior p)),
          P = targetPrecision τ (prior.sigmaSquared.getD 1) s est ∧ P * P⁻¹ = 1 ∧ R * Rᵀ = P⁻¹ ∧
          laplace lower rows points net.fn params data (.name loss) curvType kind numCurv numTotal = .ok (posteriorFn, est) ∧
          ∀ x : X, ∃ (r : Dict (Arr ℝ)) (eps : Fin (kw.numSamples.getD 0) → Vec p), Draws rng kw.key params eps ∧
            linPushforward rng net params posteriorFn prior s ((LinFn.setup :: fns).map LinFn.step) kw x = .ok r ∧
            (∀ key v, r.get? key = some v →
              linExpected net.shape (net.fn x θ) (jacobian (net.fn x) θ * P⁻¹ * (jacobian (net.fn x) θ)ᵀ)
                (fun i => net.fn x θ + jacobian (net.fn x) θ *ᵥ (R *ᵥ eps i))
                (specialOf (kw.specialPredType.getD "mean_field_0") (net.fn x θ) (jacobian (net.fn x) θ * P⁻¹ * (jacobian (net.fn x) θ)ᵀ))
                key = some v) ∧
            ∀ fn ∈ fns, (r.get? (linKey fn)).isSome := by
  obtain ⟨G, h2, h3⟩ := C47_posterior lower rows points net.fn params θ data samples loss H curvType ct h kind numCurv numTotal hN
  obtain ⟨G', g1, g2, -⟩ := C47_laplace_curvature lower rows points net.fn params θ data samples loss H curvType ct h kind numCurv numTotal hN
  have hGG : G = G' := by
    apply Matrix.toLin'.injective
    apply LinearMap.ext; intro v
    rw [Matrix.toLin'_apply, Matrix.toLin'_apply, h2, g2]
  refine ⟨G, hGG ▸ g1, h2, fun est hest => ?_⟩
  obtain ⟨posteriorFn, h4, h5⟩ := h3 est hest
  obtain ⟨post, cov, scale, k1, k2, k3, R, k4, k5, k6⟩ := h5 prior τ hτ hτ0 hσ s hs
  obtain ⟨e1, -, -, S, e4, e5⟩ := k4
  have hRS : R = S := by
    apply Matrix.toLin'.injective
    apply LinearMap.ext; intro v
    rw [Matrix.toLin'_apply, Matrix.toLin'_apply]; exact e4 v
  refine ⟨_, R, posteriorFn, rfl, e1, by rw [hRS]; exact e5, h4, fun x => ?_⟩
  exact C35_linearized_predictive rng hrng net params h.hp h.hwf θ h.hθ posteriorFn prior s post k1 cov scale k2 k3 _ R k5 k6 kw hkw
      hb1 hb2 hb3 fns hu x

/-- Non-vacuity: a linear regression model on a parameter dictionary, with a loader of two batches (two samples and one sample)
as pairs, and the same three samples in another order in a single mapping. -/
example : ∃ (points : PyObj (List ℝ) → PyObj (List ℝ) → Except Err (List (ℝ × Unit))) (model : ℝ → Vec 2 → Vec 1) (params : PyTree ℝ)
    (θ : Vec 2) (data data' : PyObj (List ℝ)) (samples samples' : List (ℝ × Unit)) (H : Vec 1 → Vec 1 → Unit → Vec 1),
    samples.Perm samples' ∧ samples ≠ samples' ∧
    LaplaceCall (fun s => s) points model params θ data samples "mse" H (.str "full") (.member "full") ∧
    LaplaceCall (fun s => s) points model params θ data' samples' "mse" H (.str "full") (.member "full") := by
  let points : PyObj (List ℝ) → PyObj (List ℝ) → Except Err (List (ℝ × Unit)) := fun x _ => match x with
    | .arr xs => .ok (xs.map fun r => (r, ()))
    | _ => .error .typeError
  let model : ℝ → Vec 2 → Vec 1 := fun x t _ => x * t 0 + t 1
  have hdiff : ∀ x θ, DifferentiableAt ℝ (model x) θ := by
    intro x θ
    rw [differentiableAt_pi]
    intro _
    show DifferentiableAt ℝ (fun t : Vec 2 => x * t 0 + t 1) θ
    fun_prop
  let params : PyTree ℝ := .node "dict(a,b)" [.leaf ⟨[1], [2]⟩, .leaf ⟨[], [3]⟩]
  have hwf : WFTree params := by
    intro a ha
    simp [params, Tree.leaves, Tree.leavesL] at ha
    rcases ha with rfl | rfl <;> rfl
  have hent : entries params = List.ofFn ![(2 : ℝ), 3] := by
    simp [params, entries, Tree.leaves, Tree.leavesL, List.ofFn_succ]
  let decode : PyObj (List ℝ) × PyObj (List ℝ) → List (ℝ × Unit) := fun xy => match xy.1 with
    | .arr xs => xs.map fun r => (r, ())
    | _ => []
  refine ⟨points, model, params, ![2, 3], .iter (.reiterable [.tup [.arr [1, 2], .arr []], .tup [.arr [3], .arr []]]),
    .dct [("input", .arr [3, 1, 2]), ("target", .arr [])], [(1, ()), (2, ()), (3, ())], [(3, ()), (1, ()), (2, ())],
    fun jv _ _ => mseHessianMv jv, ?_, ?_, ?_, ?_⟩
  · exact (List.perm_append_comm (l₁ := [((1 : ℝ), ()), (2, ())]) (l₂ := [(3, ())]))
  · simp
  · refine ⟨by norm_num, hwf, hent, ?_, fun s _ => hdiff _ _, rfl, rfl⟩
    refine ⟨[(.arr [1, 2], .arr []), (.arr [3], .arr [])], decode, DataOf.pairs [(.arr [1, 2], .arr []), (.arr [3], .arr [])] (by simp), ?_, rfl⟩
    intro xy hxy; simp at hxy; rcases hxy with rfl | rfl <;> rfl
  · refine ⟨by norm_num, hwf, hent, ?_, fun s _ => hdiff _ _, rfl, rfl⟩
    refine ⟨[(.arr [3, 1, 2], .arr [])], decode, DataOf.single _ _ (.mapping _ _ _ rfl rfl), ?_, rfl⟩
    intro xy hxy; simp at hxy; subst hxy; rfl

end Laplax.Props
