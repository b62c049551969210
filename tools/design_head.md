# DESIGN: a Lean 4 model of TensorKit

All paths below are relative to `lean/Verif/` (Lean) and `/repo/src/tenkit/` (Python). Section 3 is produced
by `tools/gen_design.py` from `tools/design_methods.py`, `properties.jsonl` and `MANIFEST.json`.

## 1. Shape of the model

The model is shallow: each Python function becomes a total Lean function that follows it branch by branch.
Python exceptions are values (`Py α = Except PyErr α`). Where the state left behind by an exception can be
observed (checkpoint files, loggers, experiment files, fitted objects) functions are in the state monad
`EStateM PyErr`, in which an exception keeps the state reached so far.

| layer | files | what it models |
|---|---|---|
| Python | `Py/Err`, `Py/Float`, `Py/Names` | exception classes, Python (negative) indexing, `inf`/`nan` results where control flow depends on them (`FV`), `str.format` of numbers (`{:05d}`) |
| NumPy | `ND/Basic`, `ND/Ops` | arrays with dynamic shape and C-order data: `reshape` (with -1), `moveaxis`, transposition, broadcasting, `@`; shape errors are `ValueError` |
| `base.py` | `Model/Base`, `Model/Solvers` | unfold, fold, khatri_rao, kron, MTTKRP with its three-way fast paths, flatten/unflatten; the right-solvers |
| `decompositions.py` | `Model/Kruskal`, `Model/Evolving`, `Model/Serialize`, `Model/Container`, `Model/Convert`, `Model/CoreP2` | the containers, their constructors, normalisation, random starts, HDF5 round trips |
| `metrics.py` | `Model/Metrics`, `Model/Scores`, `Model/CoreP2` | factor match scores, congruence, core consistency, leverage, explained variance |
| `utils.py` | `Model/Signs`, `Model/Kruskal` | sign helpers, normalisation helpers, permutations, data generators |
| `cp.py` | `Model/CP`, `Model/CPFit`, `Model/Rounded` | ALS updates, SSE cache, constraints, initialisation dispatch, `fit`, `fit_transform` |
| `parafac2.py` | `Model/Heap`, `Model/Parafac2`, `Model/Parafac2Fit` | a heap of arrays with references (the inner `CP_ALS` shares arrays with the PARAFAC2 tensor), projection updates, initialisation, whole fits |
| `cmtf.py` | `Model/CMTF` | coupled matrices, updates, normalisation, whole fits |
| `base_decomposer.py`, `logger.py` | `Model/Decomposer`, `Model/H5`, `Model/Logger` | fit loops as a state machine over an HDF5 file value; checkpoints; loggers. Generic in a record `Method`, instantiated by CP, PARAFAC2 and CMTF |
| `log.py` | `Model/Log`, `Model/Experiment` | `HDF5Logger` (with crash points inside `save_logs`), `Experiment` |
| specifications | `Spec/*`, heads of `Props/*` | small independent definitions: sums over multi-indices, squared errors, orthonormality, optimality, file contents |
| mathematics | `LinAlg/*` | least squares, thin SVD, Procrustes with truncation, existence of SVD/QR/NNLS |
| properties | `Props/*` | the theorems, non-vacuity examples and refutations (`Lemmas/*` has the auxiliary facts) |

### What is modelled

Every definition cites the lines it models. By file:

| file | modelled | not modelled |
|---|---|---|
| `base.py` | every function (7-276) | - |
| `metrics.py` | every function | `calculate_core_consistencies` (177-188) is inside a string literal, so not code |
| `utils.py` | every function | - |
| `decompositions.py` | every method of the four classes | docstrings; the abstract base class has no behaviour of its own except `store`/`from_file`, which are modelled |
| `cp.py` | every method of `BaseCP` and `CP_ALS` | - |
| `parafac2.py` | every method of `BaseParafac2` and `Parafac2_ALS` | the `RuntimeWarning` of the constructor |
| `cmtf.py` | every method that is called | `_update_als_factor_` (191-285), which nothing calls |
| `base_decomposer.py` | all | - |
| `logging/logger.py` | all | - |
| `log.py` | the second `Logger`, `HDF5Logger`, `Experiment` | the first class `Logger` (8-28), which the second definition of the same name replaces at import |
| `base_tensor_decomposition.py` | - | all: unfinished code that nothing imports |

## 2. Trusted base

* The Lean 4.33.0 kernel, and the definitions of Mathlib used in statements (`ℝ`, `Finset.sum`, `Matrix`, `Equiv.Perm`, ...).
* Axioms: `propext`, `Classical.choice`, `Quot.sound` only. There is no axiom of our own, no `sorry`, no
  `native_decide` and no `bv_decide`. `#print axioms` of any theorem of the manifest lists a subset of these three.
* That the model reads the Python text correctly. Every definition cites its lines and says where it simplifies.
* The idealisations:
  * `float64` is `ℝ` (any commutative semiring for structural code): no rounding, overflow or denormals.
    The exception is C134 to C136 and C140 (`Model/Rounded`, `Model/RoundedFits`,
    `Model/RoundedMetrics`, `Model/RoundedKruskal`), in which every operation of `construct_tensor`, `construct_slices`, the
    MTTKRP, `SSE`, `factor_match_score` and `normalize_components` is followed by a rounding and sums are evaluated in any order; overflow and denormals are outside there too.
    Division by zero gives the value the surrounding control flow sees (`FV`), where that matters;
    elsewhere `x / 0` is excluded by hypothesis or is shown to be unreachable.
  * `float32` storage of `HDF5Logger` is an arbitrary rounding function.
  * Random draws are arbitrary arrays of the right shape (and range): theorems hold for every draw.
  * `np.empty` has arbitrary contents (`garbage`), so theorems show that the contents do not matter, or that they do.
  * HDF5 files are values: a tree of attributes, datasets and groups; creating an existing name raises.
    Partially flushed files are outside, except for the crash points inside `HDF5Logger.save_logs`.
  * Sharing of memory is represented in the model of PARAFAC2 (`Model/Heap`) and, for `CP_ALS.fit` and
    `normalize_components`, in `Model/HeapFit` (C89, C90); the other theorems about CP and CMTF are about factor
    matrices that do not share memory (as after every initialisation the code offers, except a precomputed
    decomposition that lists one array twice). Two different views of one buffer are not represented.
* Contracts of external routines. They are fields of a record `Ext` (or arguments) and the contracts are
  hypotheses of the theorems that need them:

| contract | routine | content | satisfiable |
|---|---|---|---|
| `Ext.SVDOk` | `np.linalg.svd(A, full_matrices=False)` | orthonormal factors, product `A`, sorted non-negative singular values | `exists_ext` |
| `Ext.NNLSOk` | `scipy.optimize.nnls` | non-negative minimiser of the residual | `exists_ext` |
| `Ext.QROk` | `np.linalg.qr` | orthonormal `Q`, triangular `R`, product `A` | `exists_ext` |
| `FullSVDOk` | `np.linalg.svd(A)` | square orthogonal factors, as above | `exists_fullSVD` |
| `LstsqOk` | `np.linalg.lstsq(A, B)` | solves the normal equations | `exists_lstsq` |

`exists_ext` (in `LinAlg/Exists.lean`) proves that one record meets the three contracts at the same time, so no
theorem that assumes them is vacuous. Theorems that need no contract do not assume one; several hold
for every routine (C78).

## 3. Properties: method and result

One line of plan, then the result. "false of the code" means that the property as stated in
`properties.jsonl` is refuted by a theorem with a concrete witness; the `_partial` theorem keeps the part that holds.

