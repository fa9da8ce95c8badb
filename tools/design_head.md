# A Lean 4 model of laplax

Source: `/repo` (python, read as text only; never executed). Proof assistant: Lean 4.33.0 with Mathlib.

## 1. Shape of the development

* `lean/Verif/Model/*.lean` – the model, function by function; each definition cites the `/repo` file and lines it models and says
  where it simplifies. Definitions marked "External" model a JAX / python function laplax calls.
* `lean/Verif/Spec/*.lean` – small stand-alone specifications: what the English property talks about, in mathematical terms.
* `lean/Verif/Props/*.lean` – the theorems (`Cxx_…`), with an `example` beside them showing that the hypotheses can be met.
* `lean/Verif/Lib/*.lean` – auxiliary lemmas only.
* `properties.jsonl`, `MANIFEST.json` – the properties and which theorems prove them (generated by `tools/`).
* `seeded/LOG.jsonl` – the wrong programs tried against the theorems.

Conventions

* A python call that may raise returns `Except Err α`; theorems about success give the value, theorems about errors the exception class.
  `Err.unmodelled` marks inputs on which real code does something the model does not describe (e.g. broadcasting of unequal shapes);
  no theorem claims anything about such inputs.
* Arrays are a shape and a row-major list of entries (`Arr`), pytrees an inductive type (`Tree`) whose node tag stands for container type and
  keys. `entries t` is the list of all numbers of a pytree in flattening order, `SameLayout` equality up to the numbers.
* Vectors in linear algebra are `Fin n → ℝ`, matrices `Matrix (Fin m) (Fin n) ℝ`. **Exact real arithmetic replaces floating point**; dtype
  casts are identities. Lean's `x / 0 = 0` and `√x = 0` for `x < 0` differ from JAX's inf/NaN: the theorems exclude these cases by hypotheses, or say
  explicitly that the case is excluded.
* `jax.jvp`, `jax.vjp`, `jax.grad`, `jax.linearize` are the Fréchet derivative and its transpose (the semantics JAX documents for differentiable
  functions), not JAX's tracing. At points of non-differentiability `fderiv = 0`, where JAX would return some sub-gradient: theorems about derivatives assume
  differentiability.
* `jax.lax.map` and `jax.vmap`, with any batch size, are `map`; `jax.jit` is the identity.
* Randomness: a PRNG is an arbitrary family of functions (`split`, `normal`); theorems quantify over all of them. Only C50 assumes a distribution.
* Loops are structural recursion; the dispatch tables, the `jax_enable_x64` flag, consumed iterators and the caller's metric list are explicit state.
* Linear algebra kernels (`eigh`, `qr`, `svd`) are parameters constrained by a specification; existence of kernels meeting it is proved. Cholesky
  factorisation and the triangular solve are written out and proved correct.
* Indices: reading a JAX array clamps an index out of range, writing drops it, negative indices count from the end (`jaxGet`, `jaxSet`);
  reading from an empty axis is not modelled.

## 2. Trusted base

* Lean's kernel and the axioms `propext`, `Classical.choice`, `Quot.sound`; nothing else (section 4). No axioms of our own, no compiled evaluation.
* The hand translation from python to `Verif/Model` (the tie to the code is the line citation on every definition).
* The assumed behaviour of external calls: the definitions marked "External" in `Verif/Model`, and the conventions above.
* Modelled modules: `util/flatten.py`, `util/tree.py`, `util/mv.py`,
  `util/ops.py`, `util/loader.py`, `curv/ggn.py`, `curv/hessian.py`, `curv/utils.py`, `curv/full.py`, `curv/diagonal.py`, `curv/low_rank.py`, `curv/lanczos.py`,
  `curv/lobpcg.py` (the non-jitted solver; for `A_jit=True` laplax calls JAX's own), `curv/cov.py`, `eval/metrics.py`, `eval/predictives.py`,
  `eval/likelihood.py`, `eval/calibrate.py`, `eval/utils.py`, `eval/pushforward.py`, `register.py`, `enums.py`, `api.py` (`GGN`, `laplace`, `calibration`,
  `evaluation` and their helpers).
* Not modelled: floating-point rounding, dtypes, JIT/tracing, device placement, statistical quality of the PRNG, performance, logging/`tqdm`,
  plotting, `examples/`, `docs/`; see the section "Not modelled" at the end for functions left out.
