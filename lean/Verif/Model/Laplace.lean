import Verif.Model.Api
import Verif.Model.Ggn
import Verif.Model.Pushforward

/-! # Model of `laplace` and `GGN` (laplax/api.py:558-706), end to end

`Verif.Model.Api` models the data routing of these functions with abstract numerics; here the pieces are put together: the GGN
product on parameter pytrees, the data routing, the curvature estimation and the posterior.  Defaults for
`vmap_over_data` and `curv_mv_jit`; both options are in `Verif.Model.LaplaceOptions`. -/

namespace Laplax
open scoped BigOperators

variable {p c : ℕ} {A X Y : Type}

/-- `ggn_mv` (curv/ggn.py:252-269) on parameter pytrees, `vmap_over_data = True`: `points input target` are the samples of the
batch (`jax.vmap` runs over the leading axes; external).  `jax.linearize`/`jax.linear_transpose` return pytrees like the
parameters.  (JAX also rejects a vector with the right number of entries but other containers; not modelled.) -/
noncomputable def ggnTreeMv (points : PyObj A → PyObj A → Except Err (List (X × Y))) (model : X → Vec p → Vec c)
    (params : PyTree ℝ) (H : Vec c → Vec c → Y → Vec c) (factor : ℝ) (vec : PyTree ℝ) (x y : PyObj A) : Except Err (PyTree ℝ) := do
  let θ ← asParams p params
  let v ← asParams p vec
  let ss ← points x y
  unflattenLike params (List.ofFn (ggnMvWithoutData model θ H factor v (fun i : Fin ss.length => ss[i])))

/-- The shape check of `GGN` (api.py:604-609): `jax.tree.map` of a shape comparison; other containers raise. -/
def shapesMatchParams (params test : PyTree ℝ) : Except Err Bool := do
  let t ← Tree.tmap2 (fun a b => .ok (decide (a.shape = b.shape))) test params
  return t.leaves.all id

/-- A low-rank algorithm as laplax runs it: finitely many matrix-vector products, each vector depending on the earlier results,
then the low-rank terms (curv/lanczos.py:146-244, curv/lobpcg.py:281-407). -/
inductive MvAlg (p r : ℕ) where
  | done (t : Except Err (LowRankTerms p r))
  | call (v : Vec p) (k : Vec p → MvAlg p r)

/-- The `curv_type` members with the estimation they stand for (enums.py:13-17); the low-rank drivers are parameters. -/
inductive LaplaceKind (p : ℕ) where
  | full
  | diagonal
  | lowRank (r : ℕ) (alg : MvAlg p r)

/-- The flat product of `get_matvec` (curv/utils.py:53-100) inside a driver: unflatten the vector, use the product, flatten the
result. -/
noncomputable def MvAlg.toCurvAlg {r : ℕ} (params : PyTree ℝ) : MvAlg p r → CurvAlg (PyTree ℝ) (PyTree ℝ) (CurvEstimate p)
  | .done (.ok t) => .done (.ok (.lowRank t))
  | .done (.error e) => .done (.error e)
  | .call v k => .pass (fun m => do
      let u ← (createPytreeFlattener params).2 (List.ofFn v)
      m u) (fun w => match (do let xs ← (createPytreeFlattener params).1 w; asVec p (flatLeaf xs)) with
        | .ok y => MvAlg.toCurvAlg params (k y)
        | .error e => .done (.error e))

/-- `estimate_curvature` (curv/cov.py:101-130) with `layout = params` on the bound product: FULL and DIAGONAL are one use each
(`to_dense`/`diagonal`, lowered per batch for a `DataLoaderMV`, util/loader.py:355-372), low rank one use per product. -/
noncomputable def curvAlgOf (params : PyTree ℝ) : LaplaceKind p → CurvAlg (PyTree ℝ) (PyTree ℝ) (CurvEstimate p)
  | .full => .pass (fun m => toDense (wrapMv params m) (.int (getSize params))) (fun w => .done (do
      let M ← asMatrix p w
      return .full M))
  | .diagonal => .pass (fun m => do
      let xs ← Laplax.diagonal (.callable m) (.tree params)
      return flatLeaf xs) (fun w => .done (do
      let d ← asVec p w
      return .diagonal d))
  | .lowRank _ alg => alg.toCurvAlg params

/-- `laplace` (api.py:614-706): `kind` gives the estimation a `CurvApprox` value stands for (curv/cov.py:51-58).  Returns the
posterior function and the curvature estimate. -/
noncomputable def laplace (lower : String → String) (rows : A → Except Err (List A))
    (points : PyObj A → PyObj A → Except Err (List (X × Y))) (model : X → Vec p → Vec c) (params : PyTree ℝ) (data : PyObj A)
    (lossFn : LossArg c Y) (curvType : EnumArg) (kind : EnumArg → LaplaceKind p) (numCurv numTotal : ℕ) :
    Except Err ((PriorArgs → ℝ → Except Err (Posterior p)) × CurvEstimate p) := do
  let ct ← convertToEnum lower curvApproxValues false curvType
  if numTotal = 0 then .error .zeroDivisionError else do
  let H ← createLossHessianMv lossFn
  let e ← laplaceCurv lower rows (fun f => ggnTreeMv points model params H f) (liftReduce reduceAdd) (shapesMatchParams params) params
    data (ct) numCurv numTotal (fun ct => curvAlgOf params (kind ct))
  return (fun a s => setPosteriorFn e (.tree params) a s, e)

end Laplax
