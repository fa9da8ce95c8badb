import Verif.Model.LaplaceOptions
import Verif.Model.LowRank

/-! # `laplace(..., **curv_kwargs)` (laplax/api.py:614-706): how keyword arguments reach the estimation -/

namespace Laplax
open scoped BigOperators Matrix

variable {p c : ℕ} {A X Y Key : Type}

/-- The `**curv_kwargs` of `laplace` (api.py:624): the keyword arguments of the low-rank drivers, `low_rank_method`, and the names
of all other keywords (their values are never used, see curv/full.py:43, curv/diagonal.py:36, curv/lanczos.py:190,
curv/lobpcg.py:348, curv/cov.py:157).  The dtype keywords are not modelled here (C24). -/
structure CurvKwargs (Key : Type) where
  method : Option String := none
  kw : LowRankKw Key := {}
  others : List String := []

/-- `create_low_rank_curvature(mv, layout=params, low_rank_method=method, **kwargs)` (curv/low_rank.py:21-60) for a product of
dimension `p`, as an estimation `laplace` can run.  The dictionary lookup comes first (`KeyError`); a keyword `A` clashes with the
positional operator of the driver (`TypeError`). -/
noncomputable def lowRankKind (E : LowRankExt Key) (kws : CurvKwargs Key) (method : String) : LaplaceKind p :=
  if method = "lanczos" then
    if "A" ∈ kws.others then .lowRank 0 (.done (.error .typeError))
    else match lanczosStart E kws.kw p with
      | .error e => .lowRank 0 (.done (.error e))
      | .ok b => .lowRank kws.kw.rank (lanczosAlg kws.kw.rank E.kernels.eigh b kws.kw.tol kws.kw.fullReorth)
  else if method = "lobpcg" then
    if "A" ∈ kws.others then .lowRank 0 (.done (.error .typeError))
    else if h : lobpcgRank p kws.kw.rank = 0 then .lowRank 0 (.done (.error .valueError))
    else
      have : NeZero (lobpcgRank p kws.kw.rank) := ⟨h⟩
      let start := E.normalMat (kws.kw.key.getD E.key0) p (lobpcgRank p kws.kw.rank)
      .lowRank (lobpcgRank p kws.kw.rank)
        (if kws.kw.mvJit then E.jaxLobpcg start kws.kw.tol else lobpcgAlg E.kernels E.eps start kws.kw.tol)
  else .lowRank 0 (.done (.error .keyError))

/-- `estimate_curvature(curv_type=ct, mv=ggn_mv, layout=params, **curv_kwargs)` (api.py:686-691, curv/cov.py:51-58, 101-122): a
keyword `mv` or `layout` is given twice (`TypeError`); FULL and DIAGONAL ignore the keywords; LANCZOS is
`create_low_rank_curvature`, LOBPCG a `functools.partial` of it whose `low_rank_method` a call keyword replaces. -/
noncomputable def kindOfKwargs (E : LowRankExt Key) (kws : CurvKwargs Key) (ct : EnumArg) : LaplaceKind p :=
  if "mv" ∈ kws.others ∨ "layout" ∈ kws.others then .lowRank 0 (.done (.error .typeError))
  else if ct = .member "full" then .full
  else if ct = .member "diagonal" then .diagonal
  else if ct = .member "lanczos" then lowRankKind E kws (kws.method.getD "lanczos")
  else if ct = .member "lobpcg" then lowRankKind E kws (kws.method.getD "lobpcg")
  else .lowRank 0 (.done (.error .keyError))

/-- `laplace` (api.py:614-706) with its options and keyword arguments; a keyword `curv_estimate` is given twice to
`set_posterior_fn` (api.py:695-700), after the estimation. -/
noncomputable def laplaceKw (E : LowRankExt Key) (opts : LaplaceOptions) (lower : String → String) (rows : A → Except Err (List A))
    (points : PyObj A → PyObj A → Except Err (List (X × Y))) (model : X → Vec p → Vec c)
    (bmodel : PyObj A → Except Err (Σ B : ℕ, Vec p → Fin B → Vec c)) (params : PyTree ℝ) (data : PyObj A)
    (lossFn : LossObj c Y (PyObj A)) (curvType : EnumArg) (numCurv numTotal : ℕ) (kws : CurvKwargs Key) :
    Except Err ((PriorArgs → ℝ → Except Err (Posterior p)) × CurvEstimate p) := do
  let r ← laplaceWith opts lower rows points model bmodel params data lossFn curvType (kindOfKwargs E kws) numCurv numTotal
  if "curv_estimate" ∈ kws.others then .error .typeError else return r

end Laplax
