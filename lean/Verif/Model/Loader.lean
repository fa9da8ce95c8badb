import Verif.Model.Mv

/-! # Model of `laplax/util/loader.py`

Batches are values of an arbitrary type `B`.  The results reduced by `reduce_*` are pytrees in the code and are
processed leaf by leaf through `jax.tree.map`; here a result is a single array (`Arr α`). -/

namespace Laplax

/-- The data source handed to laplax: a re-iterable container/DataLoader, or a one-shot iterator (generator) with the
batches it has not yielded yet.  (the `data_loader` argument of util/loader.py:163-204) -/
inductive Loader (B : Type) where
  | reiterable (batches : List B)
  | oneShot (remaining : List B)

namespace Loader
variable {B : Type}
/-- Batches a full `for` loop over the loader sees.  (util/loader.py:191) -/
def pending : Loader B → List B
  | reiterable bs => bs
  | oneShot bs => bs
/-- Loader state after a full `for` loop.  (util/loader.py:191) -/
def exhausted : Loader B → Loader B
  | reiterable bs => reiterable bs
  | oneShot _ => oneShot []
/-- `next(iter(data))`: first batch and the loader state afterwards; `StopIteration` when
there is none.  (api.py:173, 957) -/
def peek : Loader B → Except Err (B × Loader B)
  | reiterable [] => .error .stopIteration
  | reiterable (b :: bs) => .ok (b, reiterable (b :: bs))
  | oneShot [] => .error .stopIteration
  | oneShot (b :: bs) => .ok (b, oneShot bs)
end Loader

variable {α : Type}

/-- Entrywise sum of two equally long lists.  (external: `jnp.add`, util/loader.py:63-79) -/
def addL [Add α] (xs ys : List α) : List α := List.zipWith (· + ·) xs ys

/-- External: `jnp.sum(x, axis=0)` on row-major data with `n` rows of `s` entries. -/
def sumRows [Add α] [OfNat α 0] (s : Nat) (rows : List (List α)) : List α :=
  rows.foldl addL (List.replicate s 0)

/-- External: `jnp.sum(x, axis=0, keepdims=keepdims)`; `axis = 0` of a scalar raises (`ValueError`). -/
def Arr.sumAxis0 [Add α] [OfNat α 0] (keepdims : Bool) (a : Arr α) : Except Err (Arr α) :=
  match a.shape with
  | [] => .error .valueError
  | n :: sh => .ok ⟨if keepdims then 1 :: sh else sh, sumRows (shapeSize sh) (chunks (shapeSize sh) n a.data)⟩

/-- `reduce_sum` (laplax/util/loader.py:42-60) with `axis = 0` (other axes: `Model/LoaderAxis`), one leaf. -/
def reduceSum [Add α] [OfNat α 0] (keepdims : Bool) (resNew : Arr α) (state : Option (Arr α)) :
    Except Err (Arr α × Arr α) := do
  let summed ← resNew.sumAxis0 keepdims
  match state with
  | none => return (summed, summed)
  | some st => do
    let newState ← Arr.zipWith (· + ·) st summed
    return (newState, newState)

/-- `reduce_add` (laplax/util/loader.py:63-79), one leaf. -/
def reduceAdd [Add α] (resNew : Arr α) (state : Option (Arr α)) : Except Err (Arr α × Arr α) :=
  match state with
  | none => .ok (resNew, resNew)
  | some st => do
    let newState ← Arr.zipWith (· + ·) resNew st
    return (newState, newState)

/-- `concat` (laplax/util/loader.py:82-99) with `axis = 0`, one leaf: `ValueError` for a zero-dimensional first array, `TypeError` when the
other dimensions differ. -/
def concatAxis0 (a b : Arr α) : Except Err (Arr α) :=
  match a.shape, b.shape with
  | [], _ => .error .valueError
  | n :: sh, m :: sh' => if sh = sh' then .ok ⟨(n + m) :: sh, a.data ++ b.data⟩ else .error .typeError
  | _ :: _, [] => .error .typeError

/-- `reduce_concat` (laplax/util/loader.py:102-121) with `axis = 0`, one leaf. -/
def reduceConcat (resNew : Arr α) (state : Option (Arr α)) : Except Err (Arr α × Arr α) :=
  match state with
  | none => .ok (resNew, resNew)
  | some st => do
    let newState ← concatAxis0 st resNew
    return (newState, newState)

/-- Division of an array by a python integer (`operator.truediv`). -/
def Arr.divNat [Div α] [NatCast α] (a : Arr α) (n : Nat) : Arr α := ⟨a.shape, a.data.map (· / (n : α))⟩

/-- `reduce_online_mean` (laplax/util/loader.py:124-155), one leaf.  Leaves with `ndim = 0` count as one sample
(137-141). State: `(count, running sum)`. -/
def reduceOnlineMean [Add α] [OfNat α 0] [Div α] [NatCast α] (resNew : Arr α) (state : Option (Nat × Arr α)) :
    Except Err (Arr α × (Nat × Arr α)) := do
  let batchSize := match resNew.shape with
    | [] => 1
    | n :: _ => n
  let batchSum ← match resNew.shape with
    | [] => .ok resNew
    | _ :: _ => resNew.sumAxis0 false
  match state with
  | none => return (batchSum.divNat batchSize, (batchSize, batchSum))
  | some (oldCount, oldSum) => do
    let totalCount := oldCount + batchSize
    let newSum ← Arr.zipWith (· + ·) oldSum batchSum
    return (newSum.divNat totalCount, (totalCount, newSum))

/-- The `for` loop of `process_batches` (laplax/util/loader.py:189-195); `acc` is `(result, state)` once a batch has
been seen. -/
def processLoop {B R S : Type} (function : B → Except Err R) (reduce : R → Option S → Except Err (R × S)) :
    Option (R × S) → List B → Except Err (Option (R × S))
  | acc, [] => .ok acc
  | acc, b :: bs => do
    let r ← function b
    let rs ← reduce r (acc.map Prod.snd)
    processLoop function reduce (some rs) bs

/-- `process_batches` (laplax/util/loader.py:163-199).  `function` already includes `transform` and the extra
arguments (`function(*args, data=transform(batch), **kwargs)`).  `if result is None: raise ValueError`. -/
def processBatches {B R S : Type} (function : B → Except Err R) (reduce : R → Option S → Except Err (R × S))
    (batches : List B) : Except Err R := do
  let acc ← processLoop function reduce none batches
  match acc with
  | none => .error .valueError
  | some (r, _) => return r

/-- `process_batches` on a loader with iterator state: result and loader state afterwards.  (The loader is also
advanced when a batch raises; only the normal and empty outcomes carry the new state here.)  (util/loader.py:163-204) -/
def processLoader {B R S : Type} (function : B → Except Err R) (reduce : R → Option S → Except Err (R × S))
    (l : Loader B) : Except Err R × Loader B :=
  (processBatches function reduce l.pending, l.exhausted)

/-- `execute_with_data_loader` (laplax/util/loader.py:207-232); `jit` is the identity. -/
def executeWithDataLoader {B D R S : Type} (function : D → Except Err R) (loader : List B) (transform : B → D)
    (reduce : R → Option S → Except Err (R × S)) : Except Err R :=
  processBatches (fun b => function (transform b)) reduce loader

/-- `wrap_function_with_data_loader` (laplax/util/loader.py:235-265). -/
def wrapFunctionWithDataLoader {A B D R S : Type} (function : A → D → Except Err R) (loader : List B) (transform : B → D)
    (reduce : R → Option S → Except Err (R × S)) : A → Except Err R :=
  fun a => processBatches (fun b => function a (transform b)) reduce loader

/-- `DataLoaderMV` (laplax/util/loader.py:273-303): the object's fields.  `X` is the type of vectors passed by the
caller, `V`/`W` input/output of the per-batch product, `Y` the type returned. Vectors and results are abstract so that
pytrees, flat arrays and matrices are all instances. -/
structure DataLoaderMV (B X V W Y S : Type) where
  mv : V → B → Except Err W
  loader : List B
  reduce : W → Option S → Except Err (W × S)
  inputTransform : X → Except Err V
  outputTransform : W → Except Err Y

/-- `DataLoaderMV.__call__` (laplax/util/loader.py:305-323). -/
def DataLoaderMV.call {B X V W Y S : Type} (m : DataLoaderMV B X V W Y S) (vec : X) : Except Err Y := do
  let v ← m.inputTransform vec
  let r ← processBatches (fun b => m.mv v b) m.reduce m.loader
  m.outputTransform r

/-- `DataLoaderMV.lower_func` (laplax/util/loader.py:325-352): `func` is applied per batch to the fully wrapped
per-batch product, and the *results of `func`* are reduced by the same `reduce` (python's `reduce` is polymorphic;
`reduceZ` is its instance at the result type). -/
def DataLoaderMV.lowerFunc {B X V W Y S Z SZ : Type} (m : DataLoaderMV B X V W Y S)
    (reduceZ : Z → Option SZ → Except Err (Z × SZ)) (func : (X → Except Err Y) → Except Err Z) : Except Err Z :=
  processBatches
    (fun b => func (fun x => do
      let v ← m.inputTransform x
      let w ← m.mv v b
      m.outputTransform w)) reduceZ m.loader

/-- `wrap_function` registered for `DataLoaderMV` (laplax/util/loader.py:375-402): a new object whose transforms are
`mv.input_transform ∘ input_fn` and `output_fn ∘ mv.output_transform`. -/
def DataLoaderMV.wrap {B X X' V W Y Y' S : Type} (m : DataLoaderMV B X V W Y S) (inputFn : X' → Except Err X)
    (outputFn : Y → Except Err Y') : DataLoaderMV B X' V W Y' S where
  mv := m.mv
  loader := m.loader
  reduce := m.reduce
  inputTransform := fun x => inputFn x >>= m.inputTransform
  outputTransform := fun w => m.outputTransform w >>= outputFn

/-- Constructor (laplax/util/loader.py:297-303): identity transforms. -/
def DataLoaderMV.new {B V W S : Type} (mv : V → B → Except Err W) (loader : List B)
    (reduce : W → Option S → Except Err (W × S)) : DataLoaderMV B V V W W S :=
  ⟨mv, loader, reduce, .ok, .ok⟩

end Laplax

namespace Laplax

/-- `reduce_*` on pytree results: every reduction of laplax/util/loader.py:42-155 works leaf by leaf through
`jax.tree.map` (lines 56-59, 78, 97-99, 137-153), so the pytree version is the leafwise lifting of the leaf version.
(For `reduce_online_mean` the code keeps a pair of trees `(counts, sums)` where this keeps a tree of pairs.) -/
def liftReduce {α S : Type} (red : Arr α → Option S → Except Err (Arr α × S)) (resNew : PyTree α)
    (state : Option (Tree S)) : Except Err (PyTree α × Tree S) :=
  match state with
  | none => do
    let ps ← Tree.tmap (fun a => red a none) resNew
    return (ps.map Prod.fst, ps.map Prod.snd)
  | some st => do
    let ps ← Tree.tmap2 (fun a s => red a (some s)) resNew st
    return (ps.map Prod.fst, ps.map Prod.snd)

end Laplax
