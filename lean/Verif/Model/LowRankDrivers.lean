import Verif.Model.TreeOps

/-! # Model of the drivers `lanczos_lowrank` and `lobpcg_lowrank`: global precision flag, dtype selection, rank adjustment.

The process-wide `jax_enable_x64` flag is explicit state that survives exceptions.  The numerical work (user matvec,
JAX kernels) is a parameter: an arbitrary function of the flag in force that may return anything or raise; assumed only not
to write the flag itself. The Lanczos numerics proper are in `Model/Lanczos.lean`. -/

namespace Laplax

/-- The dtypes `jnp.float32`/`jnp.float64` compared at curv/lanczos.py:201 and curv/lobpcg.py:359. -/
inductive FloatType where
  | f32
  | f64
  deriving DecidableEq, Repr

/-- Computations that read/write the global flag and may raise; the flag persists when an exception is raised.
(the global `jax.config` state read and written by curv/lanczos.py:146-244 and curv/lobpcg.py:281-407) -/
def X64M (α : Type) : Type := Bool → Except Err α × Bool

namespace X64M
/-- Sequencing in the state monad above (external: python statement order). -/
def pure {α : Type} (a : α) : X64M α := fun f => (.ok a, f)
/-- Sequencing in the state monad above: an exception skips the remaining statements (external: python semantics). -/
def bind {α β : Type} (m : X64M α) (k : α → X64M β) : X64M β := fun f =>
  match m f with
  | (.ok a, f') => k a f'
  | (.error e, f') => (.error e, f')
instance : Monad X64M where
  pure := pure
  bind := bind
/-- `jax.config.read("jax_enable_x64")` -/
def read : X64M Bool := fun f => (.ok f, f)
/-- `jax.config.update("jax_enable_x64", b)` -/
def update (b : Bool) : X64M Unit := fun _ => (.ok (), b)
/-- A call that depends on the flag, may raise, does not write the flag.
(the numerical calls in curv/lanczos.py:146-244, curv/lobpcg.py:281-407) -/
def call {α : Type} (g : Bool → Except Err α) : X64M α := fun f => (g f, f)
/-- Python `raise` (curv/utils.py:83, 95). -/
def throw {α : Type} (e : Err) : X64M α := fun f => (.error e, f)
end X64M

/-- The operator argument `A` of the drivers.  (the `A` argument of curv/utils.py:53-100) -/
inductive OpArg (F : Type) where
  | array (shape : List Nat)
  | callable (f : F)

/-- The `layout` argument: `None`, `int` or a pytree.  (the `layout` argument of curv/utils.py:53-100) -/
inductive LayoutArg (α : Type) where
  | none
  | int (n : Nat)
  | tree (t : PyTree α)

/-- curv/utils.py:53-100 `get_matvec`, its `size` result and its error behaviour (the returned function is `A`, or `A`
conjugated with flatten/unflatten, see C04).  A 0-d array has no `shape[0]`: `IndexError`. A leafless layout makes
`create_pytree_flattener`/`get_size` succeed with size 0. -/
def getMatvecSize {F α : Type} : OpArg F → LayoutArg α → Except Err Nat
  | .array (n :: _), _ => .ok n
  | .array [], _ => .error .indexError
  | .callable _, .none => .error .typeError
  | .callable _, .int n => .ok n
  | .callable _, .tree t => .ok (getSize t)

/-- Arguments of `lanczos_lowrank` (curv/lanczos.py:146-160) relevant to control flow. -/
structure LanczosArgs (F α Key Vec : Type) where
  op : OpArg F
  layout : LayoutArg α
  key : Option Key
  b : Option Vec
  rank : Nat
  mvDtype : Option FloatType
  calcDtype : FloatType
  returnDtype : Option FloatType

/-- The external calls of `lanczos_lowrank`: arbitrary, flag-dependent, possibly raising. -/
structure LanczosCalls (Key Vec Iter Eig Res : Type) where
  asarray : Vec → FloatType → Bool → Except Err Vec
  normal : Key → Nat → FloatType → Bool → Except Err Vec
  iterations : Vec → Nat → FloatType → FloatType → Bool → Except Err Iter
  eigh : Iter → Bool → Except Err Eig
  convert : Eig → FloatType → Bool → Except Err Res

/-- `jnp.float64 if original_float64_enabled else jnp.float32` (lanczos.py:196,199; lobpcg.py:354,357). -/
def defaultDtype (orig : Bool) : FloatType := if orig then .f64 else .f32

/-- lanczos.py:215-221: choice of the start vector. -/
def startVector {F α Key Vec Iter Eig Res : Type} (c : LanczosCalls Key Vec Iter Eig Res)
    (a : LanczosArgs F α Key Vec) (size : Nat) : X64M Vec :=
  match a.b, a.key with
  | some b, _ => X64M.call (c.asarray b a.calcDtype)
  | none, some k => X64M.call (c.normal k size a.calcDtype)
  | none, none => X64M.throw .valueError

/-- lanczos.py:146-244 `lanczos_lowrank`. -/
def lanczosLowrank {F α Key Vec Iter Eig Res : Type} (c : LanczosCalls Key Vec Iter Eig Res)
    (a : LanczosArgs F α Key Vec) : X64M Res := do
  let orig ← X64M.read                                                     -- 193
  let mvDtype := a.mvDtype.getD (defaultDtype orig)                        -- 195-196
  let returnDtype := a.returnDtype.getD (defaultDtype orig)                -- 198-199
  X64M.update (decide (a.calcDtype = .f64))                                -- 201
  let size ← X64M.call (fun _ => getMatvecSize a.op a.layout)              -- 204
  let b ← startVector c a size                                             -- 215-221
  let it ← X64M.call (c.iterations b a.rank mvDtype a.calcDtype)           -- 224-232
  let eig ← X64M.call (c.eigh it)                                          -- 233
  let res ← X64M.call (c.convert eig returnDtype)                          -- 236-240
  X64M.update orig                                                         -- 243
  return res

/-- lobpcg.py:368-369, the rank actually used. -/
def lobpcgRank (size rank : Nat) : Nat := if size < rank * 5 then max 1 (size / 5 - 1) else rank

/-- `jax.experimental.sparse.linalg._check_inputs` (called by both branches of lobpcg.py:111-115): the search block must
satisfy `5 * k < n`. -/
def lobpcgCheckInputs (n k : Nat) : Except Err Unit := if n ≤ k * 5 then .error .valueError else .ok ()

/-- The arguments of `lobpcg_lowrank` (curv/lobpcg.py:281-296). -/
structure LobpcgArgs (F α Key : Type) where
  op : OpArg F
  layout : LayoutArg α
  key : Option Key
  rank : Nat
  mvDtype : Option FloatType
  calcDtype : FloatType
  returnDtype : Option FloatType

/-- The numerical calls of `lobpcg_lowrank` (curv/lobpcg.py:337-405), as parameters. -/
structure LobpcgCalls (Key Mat Eig Res : Type) where
  key0 : Bool → Except Err Key
  normal : Key → Nat → Nat → FloatType → Bool → Except Err Mat
  solve : Mat → Nat → FloatType → FloatType → Bool → Except Err Eig
  convert : Eig → FloatType → Bool → Except Err Res

/-- lobpcg.py:382-383: `jax.random.key(0)` if no key is given. -/
def lobpcgKey {F α Key Mat Eig Res : Type} (c : LobpcgCalls Key Mat Eig Res) (a : LobpcgArgs F α Key) : X64M Key :=
  match a.key with
  | some k => X64M.pure k
  | none => X64M.call c.key0

/-- lobpcg.py:281-407 `lobpcg_lowrank`, returning also the rank handed to the solver. -/
def lobpcgLowrank {F α Key Mat Eig Res : Type} (c : LobpcgCalls Key Mat Eig Res) (a : LobpcgArgs F α Key) :
    X64M (Res × Nat) := do
  let orig ← X64M.read                                                     -- 351
  let mvDtype := a.mvDtype.getD (defaultDtype orig)                        -- 353-354
  let returnDtype := a.returnDtype.getD (defaultDtype orig)                -- 356-357
  X64M.update (decide (a.calcDtype = .f64))                                -- 359
  let size ← X64M.call (fun _ => getMatvecSize a.op a.layout)              -- 362
  let rank := lobpcgRank size a.rank                                       -- 368-371
  let key ← lobpcgKey c a                                                  -- 382-383
  let x ← X64M.call (c.normal key size rank a.calcDtype)                   -- 384
  X64M.call (fun _ => lobpcgCheckInputs size rank)                         -- 387 → 111-115
  let eig ← X64M.call (c.solve x rank mvDtype a.calcDtype)                 -- 387-395
  let res ← X64M.call (c.convert eig returnDtype)                          -- 398-402
  X64M.update orig                                                         -- 405
  return (res, rank)

end Laplax
