import Verif.Model.Pushforward
import Verif.Spec.Pushforward
import Verif.Props.Cov
import Verif.Props.EvalUtils
import Verif.Lib.LoaderLemmas

/-! # Lemmas on the pushforward model -/

namespace Laplax
open Laplax.Spec Laplax.Props
open scoped BigOperators Matrix

variable {X K : Type} {p : ℕ}

theorem asParams_eq {t : PyTree ℝ} {x : Vec p} (h : entries t = List.ofFn x) : asParams p t = .ok x := by
  unfold asParams
  have h' : (t.leaves.map Arr.data).flatten = List.ofFn x := h
  have hl : ((t.leaves.map Arr.data).flatten).length = p := by rw [h']; simp
  rw [dif_pos hl]
  congr 1; funext i
  simp [h']

theorem call_eq (net : Net X p) (x : X) {t : PyTree ℝ} {θ : Vec p} (h : entries t = List.ofFn θ) :
    net.call x t = .ok (arrOf net.shape (net.fn x θ)) := by
  simp only [Net.call, asParams_eq h, ok_bind]; rfl

theorem fderiv_eq_jacobian {c : ℕ} (f : Vec p → Vec c) (θ v : Vec p) : fderiv ℝ f θ v = jacobian f θ *ᵥ v := by
  have := matrix_of_columns (K := ℝ) (fderiv ℝ f θ : Vec p →ₗ[ℝ] Vec c) v
  rw [show fderiv ℝ f θ v = (fderiv ℝ f θ : Vec p →ₗ[ℝ] Vec c) v from rfl, ← this]
  congr 1
  ext i j
  simp only [Matrix.of_apply, jacobian]
  have hu : unitFn ℝ p j = Pi.single j 1 := by funext i; simp only [unitFn, Pi.single_apply]
  rw [hu]; rfl

theorem pfJvp_eq (net : Net X p) (mean : PyTree ℝ) (θ : Vec p) (hm : entries mean = List.ofFn θ) (x : X) {t : PyTree ℝ} {v : Vec p}
    (h : entries t = List.ofFn v) :
    pfJvp net mean x t = .ok (arrOf net.shape (jacobian (net.fn x) θ *ᵥ v)) := by
  simp only [pfJvp, asParams_eq hm, asParams_eq h, ok_bind, fderiv_eq_jacobian]; rfl

theorem pfVjp_eq (net : Net X p) (mean : PyTree ℝ) (hne : mean.leaves ≠ []) (hsz : numEntries mean = p) (θ : Vec p)
    (hm : entries mean = List.ofFn θ) (x : X) (sh : List ℕ) (w : Vec (shapeSize net.shape)) :
    ∃ u, pfVjp net mean x ⟨sh, List.ofFn w⟩ = .ok u ∧ SameLayout u mean ∧ WFTree u ∧
      entries u = List.ofFn ((jacobian (net.fn x) θ)ᵀ *ᵥ w) := by
  obtain ⟨u, hu⟩ := unflattenLike_isOk mean hne (List.ofFn ((jacobian (net.fn x) θ)ᵀ *ᵥ w)) (by simp [hsz])
  obtain ⟨h1, h2, h3⟩ := (unflattenLike_ok_iff mean hne _ u).1 hu
  refine ⟨u, ?_, h1, h2, h3⟩
  have hr : reshape (List.ofFn w) net.shape = .ok ⟨net.shape, List.ofFn w⟩ := by simp [reshape]
  have ha : asParams (shapeSize net.shape) (.leaf ⟨net.shape, List.ofFn w⟩) = .ok w := asParams_eq (by simp [entries, Tree.leaves])
  simp only [pfVjp, asParams_eq hm, hr, ok_bind, ha]
  rw [← hu]
  congr 2

/-- The network, parameters and products a prediction depends on. -/
structure Setting (X : Type) (p : ℕ) where
  net : Net X p
  mean : PyTree ℝ
  θ : Vec p
  cov : Matrix (Fin p) (Fin p) ℝ
  covg : List (PyTree ℝ) → Except Err (PyTree ℝ)

/-- The setting is consistent. -/
structure Setting.Ok (s : Setting X p) : Prop where
  pos : 0 < p
  wf : WFTree s.mean
  entries : entries s.mean = List.ofFn s.θ
  acts : ActsOnTrees s.mean s.covg (fun v => s.cov *ᵥ v)

theorem Setting.Ok.ne {s : Setting X p} (h : s.Ok) : s.mean.leaves ≠ [] := leaves_ne_of_entries h.pos h.entries

theorem Setting.Ok.size {s : Setting X p} (h : s.Ok) : numEntries s.mean = p := by
  rw [← length_entries h.wf, h.entries, List.length_ofFn]

/-- `J₁ Σ J₂ᵀ`. -/
noncomputable def Setting.kernel (s : Setting X p) (x1 x2 : X) : Matrix (Fin (shapeSize s.net.shape)) (Fin (shapeSize s.net.shape)) ℝ :=
  jacobian (s.net.fn x1) s.θ * s.cov * (jacobian (s.net.fn x2) s.θ)ᵀ

theorem kernel_product (s : Setting X p) (h : s.Ok) (x1 x2 : X) (sh : List ℕ) (w : Vec (shapeSize s.net.shape)) :
    (do let u ← pfVjp s.net s.mean x2 ⟨sh, List.ofFn w⟩
        let v ← s.covg [u]
        pfJvp s.net s.mean x1 v) = .ok (arrOf s.net.shape (s.kernel x1 x2 *ᵥ w)) := by
  obtain ⟨u, hu, h1, h2, h3⟩ := pfVjp_eq s.net s.mean h.ne h.size s.θ h.entries x2 sh w
  obtain ⟨v, hv, g1, g2, g3⟩ := h.acts u _ h1 h3
  rw [hu, ok_bind, hv, ok_bind, pfJvp_eq s.net s.mean s.θ h.entries x1 g3]
  simp only [Setting.kernel, Matrix.mulVec_mulVec, Matrix.mul_assoc]

/-! ### Dense and diagonal of leaf-valued products -/

/-- `to_dense` with a pytree layout of a product with leaf outputs of shape `sh`. -/
theorem toDense_tree_stack {m n : ℕ} (layout : PyTree ℝ) (hne : layout.leaves ≠ []) (hsz : numEntries layout = n) (hn : 0 < n)
    (sh : List ℕ) (mv : PyTree ℝ → Except Err (PyTree ℝ)) (f : Vec n → Vec m)
    (hmv : ∀ (x : Vec n) (t : PyTree ℝ), SameLayout t layout → WFTree t → entries t = List.ofFn x →
      mv t = .ok (.leaf ⟨sh, List.ofFn (f x)⟩)) :
    toDense mv (.tree layout) = .ok (.leaf (Arr.transpose ⟨n :: sh, (List.ofFn fun j => List.ofFn (f (unitFn ℝ n j))).flatten⟩)) := by
  subst hsz
  obtain ⟨r, hr, _, hrow⟩ := C07_eye_like_slices (α := ℝ) layout hne
  choose b hb' using fun i => basisVector_ok (α := ℝ) i layout
  unfold toDense
  simp only [hr, ok_bind, laxMap_eq none (by simp), getSize_eq]
  rw [mapE_of_forall _ b _ (fun i hi => by
    rw [hrow i (by simpa using hi)]; exact (hb' i).1), ok_bind]
  have hro : (List.range (numEntries layout)).map b = List.ofFn (fun i : Fin (numEntries layout) => b i) := by
    apply List.ext_getElem
    · simp
    · intro i _ _; simp
  rw [hro, mapE_ofFn mv _ (fun j : Fin (numEntries layout) =>
    (Tree.leaf ⟨sh, List.ofFn (f (unitFn ℝ _ j))⟩ : PyTree ℝ)), ok_bind]
  · generalize numEntries layout = n at *
    have hst : stackTrees (List.ofFn (fun j : Fin n => (Tree.leaf ⟨sh, List.ofFn (f (unitFn ℝ _ j))⟩ : PyTree ℝ))) =
        .ok (.leaf ⟨n :: sh, (List.ofFn (fun j => List.ofFn (f (unitFn ℝ n j)))).flatten⟩) := by
      obtain ⟨k, rfl⟩ : ∃ k, n = k + 1 := ⟨n - 1, by omega⟩
      rw [List.ofFn_succ]
      unfold stackTrees
      simp only
      rw [← List.ofFn_succ (f := fun j : Fin (k+1) => (Tree.leaf ⟨sh, List.ofFn (f (unitFn ℝ _ j))⟩ : PyTree ℝ))]
      rw [Tree.unflatten_ok_iff]
      constructor
      · simp [Tree.treedef, Tree.map]
      · simp only [Tree.leaves, List.mapIdx_cons, List.mapIdx_nil, stackArr, List.map_ofFn, Function.comp_def, List.length_ofFn]
        simp
    rw [hst, ok_bind, Tree.tmap_ok]
    rfl
  · intro j
    apply hmv (unitFn ℝ _ j) (b j) (hb' j).2.1 (hb' j).2.2.1
    rw [(hb' j).2.2.2, ofFn_single]; rfl

theorem mulVec_unitFn {m n : ℕ} (M : Matrix (Fin m) (Fin n) ℝ) (j : Fin n) (i : Fin m) : (M *ᵥ unitFn ℝ n j) i = M i j := by
  simp [unitFn, Matrix.mulVec, dotProduct]

theorem diagonal_leaf {n : ℕ} (sh : List ℕ) (mv : Arr ℝ → Except Err (Arr ℝ)) (M : Matrix (Fin n) (Fin n) ℝ)
    (hmv : ∀ w : Vec n, mv ⟨[n], List.ofFn w⟩ = .ok ⟨sh, List.ofFn (M *ᵥ w)⟩) :
    diagonal (.callable (onLeaf mv)) (.int n) = .ok (List.ofFn fun i => M i i) := by
  have hro : List.range n = List.ofFn (fun i : Fin n => (i : Nat)) := by
    apply List.ext_getElem
    · simp
    · intro i _ _; simp
  simp only [diagonal, laxMap_eq none (by simp)]
  rw [hro]
  apply mapE_ofFn
  intro i
  have : flatLeaf ((List.replicate n (0 : ℝ)).set i.val 1) = .leaf ⟨[n], List.ofFn (unitFn ℝ n i)⟩ := by
    have := ofFn_single (α := ℝ) n i
    simp [flatLeaf, this]; rfl
  rw [this]
  simp only [onLeaf, hmv, ok_bind]
  simp only [treeVecGet, pure, Except.pure, ok_bind]
  rw [jaxGet_of_lt _ _ (by simp)]
  simp [mulVec_unitFn]

/-! ### Array functions on ensembles -/

theorem flatten_ofFn_getD {S c : ℕ} (s : Fin S → Vec c) (i : Fin S) (j : Fin c) :
    (List.ofFn fun i => List.ofFn (s i)).flatten.getD (i.val * c + j.val) 0 = s i j := by
  have hrow := drop_take_flatten (List.ofFn fun i => List.ofFn (s i)) c (by simp [List.mem_ofFn]) i.val (by simp)
  have h2 := congrArg (fun l => l[j.val]?) hrow
  simp only [List.getElem_ofFn] at h2
  rw [List.getElem?_take, if_pos j.isLt, List.getElem?_drop] at h2
  rw [List.getD_eq_getElem?_getD, h2]; simp

theorem range_map_eq_ofFn {A : Type} (n : ℕ) (g : ℕ → A) : (List.range n).map g = List.ofFn (fun i : Fin n => g i.val) := by
  apply List.ext_getElem
  · simp
  · intro i _ _; simp

theorem colAxis0_ens {S c : ℕ} (sh : List ℕ) (s : Fin S → Vec c) (j : Fin c) :
    colAxis0 (ensArr sh s) S c j.val = List.ofFn (fun i => s i j) := by
  simp only [colAxis0, ensArr, range_map_eq_ofFn, flatten_ofFn_getD]

theorem listMean_ofFn {S : ℕ} (y : Fin S → ℝ) : listMean (List.ofFn y) = (∑ i, y i) / S := by
  simp [listMean, List.sum_ofFn]

theorem listCov_ofFn {S : ℕ} (y z : Fin S → ℝ) (d : ℝ) : listCov (List.ofFn y) (List.ofFn z) d =
    (∑ i, (y i - (∑ i, y i) / S) * (z i - (∑ i, z i) / S)) / (S - d) := by
  have : List.zipWith (fun x w => (x - (∑ i, y i) / S) * (w - (∑ i, z i) / S)) (List.ofFn y) (List.ofFn z) =
      List.ofFn (fun i => (y i - (∑ i, y i) / S) * (z i - (∑ i, z i) / S)) := by
    apply List.ext_getElem
    · simp
    · intro i _ _; simp
  simp only [listCov, listMean_ofFn, this, List.sum_ofFn, List.length_ofFn]

theorem meanAxis0_ens {S : ℕ} (sh : List ℕ) (s : Fin S → Vec (shapeSize sh)) :
    meanAxis0 (ensArr sh s) = .ok (arrOf sh (ensMean s)) := by
  have : meanAxis0 (ensArr sh s) = .ok ⟨sh, (List.range (shapeSize sh)).map (fun j => listMean (colAxis0 (ensArr sh s) S (shapeSize sh) j))⟩ := rfl
  rw [this, range_map_eq_ofFn]
  simp only [colAxis0_ens, listMean_ofFn]; rfl

theorem varAxis0_ens {S : ℕ} (sh : List ℕ) (s : Fin S → Vec (shapeSize sh)) :
    varAxis0 (ensArr sh s) = .ok (arrOf sh fun j => ensCov s 0 j j) := by
  have : varAxis0 (ensArr sh s) = .ok ⟨sh, (List.range (shapeSize sh)).map (fun j =>
      listCov (colAxis0 (ensArr sh s) S (shapeSize sh) j) (colAxis0 (ensArr sh s) S (shapeSize sh) j) 0)⟩ := rfl
  rw [this, range_map_eq_ofFn]
  simp only [colAxis0_ens, listCov_ofFn]; rfl

theorem map1_arrOf {c : ℕ} (g : ℝ → ℝ) (sh : List ℕ) (y : Vec c) : (arrOf sh y).map1 g = arrOf sh (fun j => g (y j)) := by
  simp only [Arr.map1, arrOf, List.map_ofFn]; rfl

theorem stdAxis0_ens {S : ℕ} (sh : List ℕ) (s : Fin S → Vec (shapeSize sh)) :
    stdAxis0 (ensArr sh s) = .ok (arrOf sh fun j => Real.sqrt (ensCov s 0 j j)) := by
  simp only [stdAxis0, varAxis0_ens, ok_bind, map1_arrOf]; rfl

theorem covAxis0_ens {S : ℕ} (sh : List ℕ) (s : Fin S → Vec (shapeSize sh)) :
    covAxis0 (ensArr sh s) = .ok (if shapeSize sh = 1 then ⟨[], List.ofFn fun j => ensCov s 1 j j⟩ else denseArr (ensCov s 1)) := by
  have : covAxis0 (ensArr sh s) = .ok (if shapeSize sh = 1 then ⟨[], ((List.range (shapeSize sh)).map (fun j => (List.range (shapeSize sh)).map (fun k =>
      listCov (colAxis0 (ensArr sh s) S (shapeSize sh) j) (colAxis0 (ensArr sh s) S (shapeSize sh) k) 1))).flatten⟩ else ⟨[shapeSize sh, shapeSize sh], ((List.range (shapeSize sh)).map (fun j => (List.range (shapeSize sh)).map (fun k =>
      listCov (colAxis0 (ensArr sh s) S (shapeSize sh) j) (colAxis0 (ensArr sh s) S (shapeSize sh) k) 1))).flatten⟩) := rfl
  rw [this]
  simp only [range_map_eq_ofFn, colAxis0_ens, listCov_ofFn]
  congr 1
  have key : (List.ofFn fun j => List.ofFn fun k => (∑ i, (s i j - (∑ i, s i j) / S) * (s i k - (∑ i, s i k) / S)) / ((S : ℝ) - 1)) =
      List.ofFn fun j => List.ofFn fun k => ensCov s 1 j k := rfl
  rw [key]
  split_ifs with h
  · congr 1
    generalize ensCov s 1 = M at *
    clear this key
    generalize shapeSize sh = n at *
    subst h
    simp [List.ofFn_succ]
  · rfl

theorem flatten_singletons {α : Type} {n : ℕ} (f : Fin n → α) : (List.ofFn fun i => [f i]).flatten = List.ofFn f := by
  induction n with
  | zero => simp
  | succ n ih => rw [List.ofFn_succ, List.flatten_cons, ih, List.ofFn_succ]; rfl

theorem meanSoftmax_ens {S n : ℕ} (sh : List ℕ) (hsh : sh = [n]) (s : Fin S → Vec n) :
    meanSoftmaxAxis1 (ensArr sh s) = .ok (arrOf sh (ensSoftmax s)) := by
  subst hsh
  have : meanSoftmaxAxis1 (ensArr [n] s) = .ok ⟨[n], (List.ofFn (fun k : Fin n =>
      [listMean ((List.range S).map (fun i => softmax (fun j : Fin n => (ensArr [n] s).data.getD ((i * n + j.val) * 1 + 0) 0) k))])).flatten⟩ := rfl
  rw [this, flatten_singletons]
  simp only [range_map_eq_ofFn, ensArr, flatten_ofFn_getD, listMean_ofFn, mul_one, add_zero]; rfl

theorem lastAxis_ofFn {n : ℕ} (sh : List ℕ) (y : Vec n) : lastAxis ⟨sh, List.ofFn y⟩ n 0 = y := by
  funext k
  simp [lastAxis]

theorem firstAxis_ofFn {n : ℕ} (sh : List ℕ) (y : Vec n) : firstAxis ⟨sh, List.ofFn y⟩ n 1 0 = y := by
  funext k
  simp [firstAxis]

theorem meanField0Arr_1d (sh : List ℕ) (h1 : sh.length = 1) (a b : Vec (shapeSize sh)) :
    meanField0Arr (arrOf sh a) (arrOf sh b) = .ok (arrOf sh (meanField0 a b)) := by
  obtain ⟨n, rfl⟩ := List.length_eq_one_iff.1 h1
  have hn : shapeSize [n] = n := by simp [shapeSize]
  have : ∀ a b : Vec n, meanField0Arr (arrOf [n] a) (arrOf [n] b) = .ok (arrOf [n] (meanField0 a b)) := by
    intro a b
    simp only [meanField0Arr, arrOf, List.getLast?_singleton, ne_eq, not_true_eq_false, if_false, List.dropLast_singleton]
    rw [show shapeSize [] = 1 from rfl]
    simp only [List.range_one, List.map_cons, List.map_nil, List.flatten_cons, List.flatten_nil, List.append_nil, lastAxis_ofFn]
  revert a b
  rw [hn]
  exact this

theorem meanField1Arr_1d (sh : List ℕ) (h1 : sh.length = 1) (a b : Vec (shapeSize sh)) :
    meanField1Arr (arrOf sh a) (arrOf sh b) = .ok (arrOf sh (meanField1 a b)) := by
  obtain ⟨n, rfl⟩ := List.length_eq_one_iff.1 h1
  have hn : shapeSize [n] = n := by simp [shapeSize]
  have : ∀ a b : Vec n, meanField1Arr (arrOf [n] a) (arrOf [n] b) = .ok (arrOf [n] (meanField1 a b)) := by
    intro a b
    have h : meanField1Arr (arrOf [n] a) (arrOf [n] b) = .ok ⟨[n], (List.ofFn fun k : Fin n =>
      [meanField1 (firstAxis (arrOf [n] a) n 1 0) (firstAxis (arrOf [n] b) n 1 0) k]).flatten⟩ := by
      simp only [meanField1Arr, arrOf, ne_eq, not_true_eq_false, if_false]
      rfl
    rw [h, flatten_singletons]
    simp only [arrOf, firstAxis_ofFn]
  revert a b
  rw [hn]
  exact this

theorem meanField2Arr_1d (sh : List ℕ) (h1 : sh.length = 1) (a : Vec (shapeSize sh)) (V : Matrix (Fin (shapeSize sh)) (Fin (shapeSize sh)) ℝ) :
    meanField2Arr (arrOf sh a) (denseArr V) = .ok (arrOf sh (meanField2 a V)) := by
  obtain ⟨n, rfl⟩ := List.length_eq_one_iff.1 h1
  have hn : shapeSize [n] = n := by simp [shapeSize]
  have : ∀ (a : Vec n) (V : Matrix (Fin n) (Fin n) ℝ), meanField2Arr (arrOf [n] a) (denseArr V) = .ok (arrOf [n] (meanField2 a V)) := by
    intro a V
    simp only [meanField2Arr, arrOf, denseArr, true_and, if_true, lastAxis_ofFn]
    congr 5
    funext i j
    simp only [Matrix.of_apply, lastAxis]
    exact flatten_ofFn_getD (fun i j => V i j) i j
  revert a V
  rw [hn]
  exact this

theorem laplaceBridgeArr_1d (sh : List ℕ) (h1 : sh.length ≤ 1) (a b : Vec (shapeSize sh)) (uc : Bool) :
    laplaceBridgeArr (arrOf sh a) (arrOf sh b) uc = .error .indexError := by
  match sh, h1 with
  | [], _ => rfl
  | [_], _ => rfl

theorem jnpDiag_dense {n : ℕ} (M : Matrix (Fin n) (Fin n) ℝ) : jnpDiag (denseArr M) = .ok (List.ofFn fun i => M i i) := by
  have h1 : jnpDiag (denseArr M) = diagonal (.dense (chunks n n (denseArr M).data)) .none := rfl
  rw [h1]
  have hc : chunks n n (denseArr M).data = List.ofFn (fun i => List.ofFn (fun j => M i j)) := by
    have := chunks_flatten (List.ofFn (fun i => List.ofFn (fun j => M i j))) n (by simp [List.mem_ofFn])
    simpa [denseArr] using this
  rw [hc]
  simp only [diagonal]
  congr 1
  have : (List.mapIdx (fun i r => r[i]?) (List.ofFn fun i => List.ofFn fun j => M i j)) = (List.ofFn fun i => M i i).map some := by
    apply List.ext_getElem
    · simp
    · intro i g1 g2
      simp at g1
      simp [g1]
  rw [this]
  simp [List.reduceOption]

/-! ### Keyed dictionaries of expected values -/

/-- Every entry of `r` is the expected one. -/
def Meets (exp : String → Option (Arr ℝ)) (r : Dict (Arr ℝ)) : Prop := ∀ k v, r.get? k = some v → exp k = some v

/-- Keys are only added. -/
def Ext (r r' : Dict (Arr ℝ)) : Prop := ∀ k, (r.get? k).isSome → (r'.get? k).isSome

theorem Ext.refl (r : Dict (Arr ℝ)) : Ext r r := fun _ h => h
theorem Ext.trans {a b c : Dict (Arr ℝ)} (h : Ext a b) (h' : Ext b c) : Ext a c := fun k hk => h' k (h k hk)

theorem set_meets {exp : String → Option (Arr ℝ)} {r : Dict (Arr ℝ)} (h : Meets exp r) {k : String} {v : Arr ℝ} (hv : exp k = some v) :
    Meets exp (r.set k v) ∧ Ext r (r.set k v) ∧ ((r.set k v).get? k).isSome := by
  refine ⟨?_, ?_, by simp [Dict.get?_set]⟩
  · intro k' v' h'
    rw [Dict.get?_set] at h'
    split_ifs at h' with hk
    · subst hk; rw [hv, h']
    · exact h k' v' h'
  · intro k' h'
    rw [Dict.get?_set]
    split_ifs <;> simp [h']

theorem getE_of_meets {exp : String → Option (Arr ℝ)} {r : Dict (Arr ℝ)} (h : Meets exp r) {k : String} {v : Arr ℝ} (hv : exp k = some v)
    (hs : (r.get? k).isSome) : r.getE k = .ok v := by
  obtain ⟨w, hw⟩ := Option.isSome_iff_exists.1 hs
  have := h k w hw
  rw [hv] at this
  simp only [Option.some.injEq] at this
  subst this
  simp [Dict.getE, hw]

/-- What a step does on dictionaries meeting the expectations: it succeeds, keeps them, and its key is there afterwards. -/
def StepOk (exp : String → Option (Arr ℝ)) (step : PfStep X K p) (aux : PfAux X) (ctx : PfCtx X K p) (key : String) : Prop :=
  ∀ r, Meets exp r → (r.get? "map").isSome →
    ∃ r', step r aux ctx = .ok (r', aux) ∧ Meets exp r' ∧ Ext r r' ∧ (r'.get? key).isSome

theorem StepOk.ensure {exp : String → Option (Arr ℝ)} {step : PfStep X K p} {aux : PfAux X} {ctx : PfCtx X K p} {key : String}
    (h : StepOk exp step aux ctx key) {r : Dict (Arr ℝ)} (hr : Meets exp r) (hm : (r.get? "map").isSome) :
    ∃ r', ensureKey key step r aux ctx = .ok (r', aux) ∧ Meets exp r' ∧ Ext r r' ∧
      (r'.get? key).isSome := by
  by_cases hk : r.mem key
  · refine ⟨r, by rw [ensureKey, if_pos hk], hr, Ext.refl r, ?_⟩
    simpa [Dict.mem] using hk
  · obtain ⟨r', h1, h2⟩ := h r hr hm
    exact ⟨r', by rw [ensureKey, if_neg hk]; exact h1, h2⟩

end Laplax
