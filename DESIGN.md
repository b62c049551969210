# DESIGN: a Lean 4 model of TensorKit

All paths below are relative to `lean/Verif/` (Lean) and `/repo/src/tenkit/` (Python). Section 3 is produced
by `tools/gen_design.py` from `tools/design_methods.py`, `properties.jsonl` and `MANIFEST.json`.

## 1. Shape of the model

The model is shallow: each Python function becomes a total Lean function that follows it branch by branch.
Python exceptions are values (`Py α = Except PyErr α`). Where the state left behind by an exception can be
observed (checkpoint files, loggers, experiment files, fitted objects) functions are in the state monad
`EStateM PyErr`, in which an exception keeps the state reached so far.

| layer | files | what it models |
|---|---|---|
| Python | `Py/Err`, `Py/Float`, `Py/Names` | exception classes, Python (negative) indexing, `inf`/`nan` results where control flow depends on them (`FV`), `str.format` of numbers (`{:05d}`) |
| NumPy | `ND/Basic`, `ND/Ops` | arrays with dynamic shape and C-order data: `reshape` (with -1), `moveaxis`, transposition, broadcasting, `@`; shape errors are `ValueError` |
| `base.py` | `Model/Base`, `Model/Solvers` | unfold, fold, khatri_rao, kron, MTTKRP with its three-way fast paths, flatten/unflatten; the right-solvers |
| `decompositions.py` | `Model/Kruskal`, `Model/Evolving`, `Model/Serialize`, `Model/Container`, `Model/Convert`, `Model/CoreP2` | the containers, their constructors, normalisation, random starts, HDF5 round trips |
| `metrics.py` | `Model/Metrics`, `Model/Scores`, `Model/CoreP2` | factor match scores, congruence, core consistency, leverage, explained variance |
| `utils.py` | `Model/Signs`, `Model/Kruskal` | sign helpers, normalisation helpers, permutations, data generators |
| `cp.py` | `Model/CP`, `Model/CPFit`, `Model/Rounded` | ALS updates, SSE cache, constraints, initialisation dispatch, `fit`, `fit_transform` |
| `parafac2.py` | `Model/Heap`, `Model/Parafac2`, `Model/Parafac2Fit` | a heap of arrays with references (the inner `CP_ALS` shares arrays with the PARAFAC2 tensor), projection updates, initialisation, whole fits |
| `cmtf.py` | `Model/CMTF` | coupled matrices, updates, normalisation, whole fits |
| `base_decomposer.py`, `logger.py` | `Model/Decomposer`, `Model/H5`, `Model/Logger` | fit loops as a state machine over an HDF5 file value; checkpoints; loggers. Generic in a record `Method`, instantiated by CP, PARAFAC2 and CMTF |
| `log.py` | `Model/Log`, `Model/Experiment` | `HDF5Logger` (with crash points inside `save_logs`), `Experiment` |
| specifications | `Spec/*`, heads of `Props/*` | small independent definitions: sums over multi-indices, squared errors, orthonormality, optimality, file contents |
| mathematics | `LinAlg/*` | least squares, thin SVD, Procrustes with truncation, existence of SVD/QR/NNLS |
| properties | `Props/*` | the theorems, non-vacuity examples and refutations (`Lemmas/*` has the auxiliary facts) |

### What is modelled

Every definition cites the lines it models. By file:

| file | modelled | not modelled |
|---|---|---|
| `base.py` | every function (7-276) | - |
| `metrics.py` | every function | `calculate_core_consistencies` (177-188) is inside a string literal, so not code |
| `utils.py` | every function | - |
| `decompositions.py` | every method of the four classes | docstrings; the abstract base class has no behaviour of its own except `store`/`from_file`, which are modelled |
| `cp.py` | every method of `BaseCP` and `CP_ALS` | - |
| `parafac2.py` | every method of `BaseParafac2` and `Parafac2_ALS` | the `RuntimeWarning` of the constructor |
| `cmtf.py` | every method that is called | `_update_als_factor_` (191-285), which nothing calls |
| `base_decomposer.py` | all | - |
| `logging/logger.py` | all | - |
| `log.py` | the second `Logger`, `HDF5Logger`, `Experiment` | the first class `Logger` (8-28), which the second definition of the same name replaces at import |
| `base_tensor_decomposition.py` | - | all: unfinished code that nothing imports |

## 2. Trusted base

* The Lean 4.33.0 kernel, and the definitions of Mathlib used in statements (`ℝ`, `Finset.sum`, `Matrix`, `Equiv.Perm`, ...).
* Axioms: `propext`, `Classical.choice`, `Quot.sound` only. There is no axiom of our own, no `sorry`, no
  `native_decide` and no `bv_decide`. `#print axioms` of any theorem of the manifest lists a subset of these three.
* That the model reads the Python text correctly. Every definition cites its lines and says where it simplifies.
* The idealisations:
  * `float64` is `ℝ` (any commutative semiring for structural code): no rounding, overflow or denormals.
    The exception is C134 to C136 and C140 (`Model/Rounded`, `Model/RoundedFits`,
    `Model/RoundedMetrics`, `Model/RoundedKruskal`), in which every operation of `construct_tensor`, `construct_slices`, the
    MTTKRP, `SSE`, `factor_match_score` and `normalize_components` is followed by a rounding and sums are evaluated in any order; overflow and denormals are outside there too.
    Division by zero gives the value the surrounding control flow sees (`FV`), where that matters;
    elsewhere `x / 0` is excluded by hypothesis or is shown to be unreachable.
  * `float32` storage of `HDF5Logger` is an arbitrary rounding function.
  * Random draws are arbitrary arrays of the right shape (and range): theorems hold for every draw.
  * `np.empty` has arbitrary contents (`garbage`), so theorems show that the contents do not matter, or that they do.
  * HDF5 files are values: a tree of attributes, datasets and groups; creating an existing name raises.
    Partially flushed files are outside, except for the crash points inside `HDF5Logger.save_logs`.
  * Sharing of memory is represented in the model of PARAFAC2 (`Model/Heap`) and, for `CP_ALS.fit` and
    `normalize_components`, in `Model/HeapFit` (C89, C90); the other theorems about CP and CMTF are about factor
    matrices that do not share memory (as after every initialisation the code offers, except a precomputed
    decomposition that lists one array twice). Two different views of one buffer are not represented.
* Contracts of external routines. They are fields of a record `Ext` (or arguments) and the contracts are
  hypotheses of the theorems that need them:

| contract | routine | content | satisfiable |
|---|---|---|---|
| `Ext.SVDOk` | `np.linalg.svd(A, full_matrices=False)` | orthonormal factors, product `A`, sorted non-negative singular values | `exists_ext` |
| `Ext.NNLSOk` | `scipy.optimize.nnls` | non-negative minimiser of the residual | `exists_ext` |
| `Ext.QROk` | `np.linalg.qr` | orthonormal `Q`, triangular `R`, product `A` | `exists_ext` |
| `FullSVDOk` | `np.linalg.svd(A)` | square orthogonal factors, as above | `exists_fullSVD` |
| `LstsqOk` | `np.linalg.lstsq(A, B)` | solves the normal equations | `exists_lstsq` |

`exists_ext` (in `LinAlg/Exists.lean`) proves that one record meets the three contracts at the same time, so no
theorem that assumes them is vacuous. Theorems that need no contract do not assume one; several hold
for every routine (C78).

## 3. Properties: method and result

One line of plan, then the result. "false of the code" means that the property as stated in
`properties.jsonl` is refuted by a theorem with a concrete witness; the `_partial` theorem keeps the part that holds.

* **C01** unfold places every entry. Plan: `moveaxis` and `reshape` on flat C-order data; extensionality over multi-indices; the index map is shown bijective. Result: proved. Theorems: `C01_unfold_entries`, `C01_unfold_bijective`, `C01_unfold_bad_mode`, `C01_unfold_empty_mode`.
* **C02** fold inverts unfold. Plan: composition of the two index maps of C01. Result: proved (an empty mode is excluded because unfold raises there (C01)). Theorems: `C02_fold_unfold`.
* **C03** unfold inverts fold. Plan: as C02, in the other order; size mismatch is the exception of `reshape`. Result: proved. Theorems: `C03_unfold_fold`, `C03_fold_bad_size`.
* **C04** khatri_rao is the column-wise Kronecker product. Plan: the slice-assignment loop over arbitrary initial memory; induction over the list of factors. Result: proved. Theorems: `C04_khatri_rao`, `C04_khatri_rao_skip`, `C04_khatri_rao_errors`, `C04_khatri_rao_memory`.
* **C05** kron is the Kronecker product. Plan: as C04 for the Kronecker product, matrices and vectors. Result: proved. Theorems: `C05_kron`, `C05_kron_vectors`.
* **C06** Gram matrix of a Khatri-Rao product. Plan: the sum over multi-indices factorises; induction over the list. Result: proved. Theorems: `C06_gram`.
* **C07** matrix_khatri_rao_product is the MTTKRP. Plan: unfold formula and Khatri-Rao formula, reindexing of the sum; the fast paths by case analysis. Result: proved (modes -2 and -3 of a third-order tensor return None (C07_three_way_negative)). Theorems: `C07_mttkrp`, `C07_fast_path_agrees`, `C07_wrong_number`, `C07_three_way_negative`.
* **C08** KruskalTensor.construct_tensor is the weighted sum of rank-one terms. Plan: from C04 and `fold`: entry = sum over components of weights times factor entries. Result: proved. Theorems: `C08_construct_tensor`, `C08_single_mode`.
* **C09** unfolding of a Kruskal tensor. Plan: C08 and C01. Result: proved. Theorems: `C09_unfold_construct`.
* **C10** flatten_factors / unflatten_factors are inverse. Plan: induction over the list with the running offset; short inputs raise. Result: proved. Theorems: `C10_flatten`, `C10_flatten_empty`, `C10_unflatten_flatten`, `C10_flatten_unflatten`, `C10_unflatten_short`.
* **C100** Range of the explained variance. Plan: optimality of the last update over all matrices makes the residual orthogonal to the model (a quadratic that is minimal at 0), hence Pythagoras; for Parafac2 through the projected tensor, using that projections do not increase norms; witness for the constraint; with one component the non-negative update is optimal along the ray through the model, which gives orthogonality to the model itself (NonNegSweep.orthogonal); with a penalty on the last mode the residual has a non-negative inner product with the model, because the Gram matrix is positive semidefinite (ridge_short; ridge_short_one for one non-negative component). Result: partial (False of the code with a constraint on the last mode: explained variance -1/19 for a 2 x 3 matrix with a non-negativity constraint. Proved for CP_ALS and Parafac2_ALS if the last mode has no constraint and there are no penalties (in Parafac2_ALS also no orthogonality constraints): the residual is orthogonal to the model. With one component it also holds with non-negativity constraints on any modes (C100_one_partial, C100_parafac2_one_partial). With ridge penalties and no constraint on the last mode (one component: it may be non-negative) the explained variance is also between 0 and 1 (C100_ridge_partial, C100_parafac2_ridge_partial).). Theorems: `C100_fit_partial`, `C100_range_partial`, `C100_fails`, `C100_parafac2_partial`, `C100_parafac2_random`, `C100_one_partial`, `C100_parafac2_one_partial`, `C100_ridge_partial`, `C100_parafac2_ridge_partial`, `C100_parafac2_ridge_random`.
* **C101** Exact starts are kept. Plan: every solver minimises the residual of the normal equations over its constraint set, which is 0 at the true matrix; a zero residual is a least-squares solution, hence exact; induction over modes and iterations. Witness 1 x 1 for the weights. Result: partial (Proved for fits with at least one iteration, and for any fit if the weights of the start are 1. False of the code otherwise: _init_fit resets the weights, and if the changed model is within the tolerance of the relative loss the fit returns it.). Theorems: `C101_recovers_partial`, `C101_exact_start_partial`, `C101_fails`.
* **C102** Movement of the CP model is bounded by the decrease of the error. Plan: optimality of an update makes the residual orthogonal to all models with another matrix in that mode, hence Pythagoras for every update; Cauchy-Schwarz over the modes of a sweep, telescoping over the iterations. Result: proved (Each update leaves a residual orthogonal to the change it makes, so the squared distance of the models is the decrease of the error.). Theorems: `C102_movement`.
* **C103** Limits of CP fits are stationary. Plan: the optimality of each update passes to the limit (continuity of the squared error); for accumulation points the movements tend to 0 by C102 and the updated matrix is recovered from the model by the inverse of the Gram matrix of the other modes; the derivative is the sum of the inner products of the residual with models changed in one mode. Result: proved (Stationarity is stated with a derivative of the squared error along all joint directions. Convergence of the factor matrices itself is not claimed (it is not true in general).). Theorems: `C103_limit`, `C103_accumulation`, `C103_steps`.
* **C104** Printing does not affect the fit. Plan: a second model of the loop that also produces the printed lines; simulation of the loop without printing by induction over the budget. The lines can be computed because every iteration has just computed the loss. Result: partial (Proved for CP_ALS and CMTF_ALS for every value, and for Parafac2_ALS for every value except 0. False of the code: Parafac2_ALS computes the remainder before it tests the sign, so 0 raises ZeroDivisionError after the first iteration, and its default is 10 although the documentation says None.). Theorems: `C104_run_partial`, `C104_fit_partial`, `C104_continue_partial`, `C104_cp`, `C104_cp_quiet`, `C104_cp_default`, `C104_cmtf`, `C104_parafac2_partial`, `C104_zero_fails`, `C104_default_fails`, `C104_cp_line`, `C104_parafac2_line`, `C104_cmtf_line`.
* **C105** A high factor match score means similar components. Plan: inner product of two rank-one tensors as product over the modes; the score times the square of the larger size is at most its absolute value; expand the squared distance. Result: proved (The sign cannot be dropped from the statement (C105_sign_needed): the score takes the absolute value mode by mode.). Theorems: `C105_components`, `C105_tensors`, `C105_kruskal`, `C105_directions`, `C105_sign_needed`.
* **C106** Checkpointing does not affect the fit. Plan: simulation of the run with checkpoints by the run without, induction over the budget; store_checkpoint changes only the file and the write positions of the loggers. Second induction for the path None. Result: partial (Proved for all runs that return. False of the code: with checkpoint_path=None and a positive checkpoint_frequency, TypeError is raised as soon as a checkpoint is due.). Theorems: `C106_run_partial`, `C106_fit_partial`, `C106_noPath_fails`, `C106_cp_fails`.
* **C107** Fitting in two parts. Plan: loop of a+b iterations = loop of a followed by loop of b (induction over a), with the early stop of the first part carried over; the budget does not influence the loop. Parafac2_ALS: simulation relation (all but the weights and target of the inner CP object), preserved by an iteration and established by preparing again. Concrete witnesses for CMTF_ALS and for an orthonormality constraint. Result: partial (Proved for CP_ALS and every decomposer whose _fit does nothing around its loop, including the exceptions raised; for Parafac2_ALS without orthonormality constraints. False of Parafac2_ALS with an orthonormality constraint (_fit starts by orthonormalising the stored factor again, while the loop works on the factor rescaled by the weights) and of CMTF_ALS (_fit ends by moving the column norms into weights that the updates ignore).). Theorems: `C107_run_partial`, `C107_fit_partial`, `C107_checkpoints_partial`, `C107_run_sim`, `C107_cp_partial`, `C107_parafac2_partial`, `C107_parafac2_random`, `C107_parafac2_orthonormal_fails`, `C107_cmtf_fails`.
* **C108** Parafac2 fits started from a CP model. Plan: C80 for states in which slices share an array (the last write wins), the invariant `dec.P = replicate K q` along the orbit, the zero Procrustes solution for a zero slice; concrete witness with two 1×1 slices. Result: partial (The start is the CP model and the fit completes; slices of different sizes raise ValueError. False of the code: all slices share one projection array, so the result is always a CP model (C108_always_cp), the projection depends on the last slice only (C108_last_zero), and the fit can end worse than its start (C108_gets_worse).). Theorems: `C108_fit_partial`, `C108_one_slice_partial`, `C108_sizes_raise`, `C108_always_cp`, `C108_last_zero`, `C108_gets_worse`.
* **C109** No fit depends on the choice of singular vectors. Plan: `U f(S) Vᵀ` does not depend on the decomposition: polynomial functional calculus of `AᵀA` (odd spectral functions), for the pseudo-inverse and the polar factor; equality of the solvers lifts to equality of all functions of the model that use them. Result: proved (Equality of the whole fit functions (exceptions and resulting states included) for two libraries that differ in the singular value decompositions only. Generalises C98. The svd initialisation takes its singular vectors as an input of the model, the same for both.). Theorems: `C109_rightsolve`, `C109_orthogonalSolve`, `C109_orthogonalRightsolve`, `C109_cp`, `C109_cmtf`, `C109_parafac2`, `C109_memory`.
* **C11** rightsolve returns a least-squares solution. Plan: normal equations from the thin SVD; completion of the square gives global optimality. Result: proved (assumes the contract of np.linalg.svd (SVDOk); TK.exists_ext shows that routines with the contracts exist). Theorems: `C11_rightsolve`.
* **C110** Rotating the slices of Parafac2 data. Plan: simulation relation between the two runs (all arrays equal, projections rotated), preserved by an iteration because the Procrustes solution of a rotated matrix is the rotated solution and the projected tensor is the same; established by the start. Result: proved (For all constraints and penalties; the arrays of the start are distinct objects (a start with shared arrays is C108).). Theorems: `C110_parafac2`, `C110_precomputed`.
* **C111** Rejected fits. Plan: a predicate `KeepsOnError` on programs, closed under sequencing; each init_components has it. Concrete witness: a rejected fit after the fit of diag(4, 1). Result: partial (A rejected fit keeps the decomposition, constraints, max_its, loggers and checkpoint file (CP_ALS, Parafac2_ALS, and CMTF_ALS if the decomposition is rejected). False of the code: the data and current_iteration have been replaced, so the SSE reported afterwards can be negative (C111_cp_fails); CMTF_ALS has also replaced its decomposition if the coupled matrices are not accepted (C111_cmtf_fails).). Theorems: `C111_load_partial`, `C111_cp_partial`, `C111_cp_sizes`, `C111_parafac2_partial`, `C111_cmtf_partial`, `C111_cmtf_checkpoint`, `C111_cp_fails`, `C111_cmtf_fails`.
* **C112** Order of the rows with constraints. Plan: each solver commutes with a permutation of the rows of the right hand side (the orthonormal one by C110's lemma for the permutation matrix); hence one update, all iterates, the errors and the stopping tests. Result: proved (Every solver (unconstrained, non-negative, orthonormal, each with a ridge penalty) commutes with moving the rows of the right hand side. Modes that are orthonormalised at the start keep their order, because a QR decomposition depends on it.). Theorems: `C112_rows`.
* **C113** Order of the slices. Plan: simulation relation between the two runs: the projection updates are equal slice by slice and the inner CP problem has its first and last modes moved (C112's lemmas). Result: proved (With any constraints and penalties; A and C may only be moved if they have no orthonormality constraint.). Theorems: `C113_parafac2`, `C113_precomputed`.
* **C114** The unit of Parafac2 data. Plan: simulation relation between the two runs; orthogonal_solve of scaled data by uniqueness of spectral functions of a thin SVD and the relative threshold; the inner problem by C95's lemmas. Result: proved (The threshold of orthogonal_solve on the singular values is relative, so that the projection updates do not depend on the unit.). Theorems: `C114_units`, `C114_units_precomputed`.
* **C115** Order and signs of Parafac2 components. Plan: the same simulation relation as C114 with permuted and signed components. Result: proved (Also shows that the projection matrices do not change at all.). Theorems: `C115_components`, `C115_components_precomputed`.
* **C116** Initial projection matrices. Plan: the first iteration overwrites P and then A; the states after it are related as in C114. Result: proved (The restriction to tolerances that are not positive is part of the property: the initial projection matrices enter the initial loss and with it the first relative change.). Theorems: `C116_same_start`, `C116_same_start_precomputed`.
* **C117** Order of the rows and columns of a coupled problem. Plan: simulation relation between the two runs; a row of an update is the unique solution of its normal equations in the row space of their matrix (`rightsolve_rows`), which the rearrangement respects; likewise the right factors, the error and both normalisations. Result: proved (cmtf_fit_moved is the general statement (rows, columns, components, signs and library at once).). Theorems: `C117_cmtf_rows`, `cmtf_fit_moved`.
* **C118** Order and signs of the components of a coupled problem. Plan: the same simulation relation as C117. Result: proved (The draws of the right factors are part of the start; they have to be moved too.). Theorems: `C118_cmtf_components`, `cmtf_fit_moved`.
* **C119** Choice of the singular value decomposition in coupled problems. Plan: the relation of C117 with nothing moved and two libraries. Result: proved (Exact arithmetic; the contract of the singular value decomposition is Ext.SVDOk.). Theorems: `C119_cmtf_library`.
* **C12** ridge rightsolve minimises the ridge objective. Plan: the stacked system: its residual is the ridge objective. Result: proved (assumes SVDOk / NNLSOk; l >= 0). Theorems: `C12_ridge`, `C12_ridge_nonneg`.
* **C120** Decompositions that do not fit together are not compared. Plan: the loop over the modes stops at the first mode with columns of different lengths; induction over the modes. For the numbers of modes: the zipped lists are those of the common modes. Result: partial (proved for different sizes of a common mode; false of the code for different numbers of modes (zip ends with the shorter list)). Theorems: `C120_sizes_partial`, `C120_kruskal_partial`, `C120_extra_modes`, `C120_fails`.
* **C121** Components given as vectors. Plan: the reshaped vector is the matrix with this column, then the closed form of C26. Result: partial (holds for _factor_match_score; factor_match_score raises IndexError for vectors). Theorems: `C121_vectors_partial`, `C121_value_partial`, `C121_fails`, `C121_estimate_fails`.
* **C122** Data with one component are recovered. Plan: the normal equations of an update (orthogonality of the residual) make the new column a multiple of the one of the data; the factor is a product of inner products, not zero by induction over the modes and iterations; the last update of a sweep can reach error 0. Result: proved (no constraints and no ridge penalties). Theorems: `C122_rank_one`.
* **C123** Coupled matrices of the wrong size are rejected. Plan: the computation of the first error stops at the first matrix that cannot be broadcast; for the first matrix of a mode the right-hand side of the update cannot be put together, whatever the state. Refutation by simulation: the fit with a row is related step by step to the fit with copies of the row. Result: partial (proved if neither number is 1 (ValueError before the first iteration) and for the first matrix of a mode (no iteration is performed); false of the code for other matrices with one row, which are broadcast). Theorems: `C123_rejected_partial`, `C123_first_partial`, `C123_fails`.
* **C124** Parafac2_ALS and CMTF_ALS objects can be fitted again. Plan: the used and the new object are related step by step until all that differs has been overwritten; for CMTF_ALS the number of the last updated mode may differ to the end and is never used. The constraints after any history are those given, with None replaced by a list. Refutation: the list has an entry for a mode that does not exist. Result: partial (proved for Parafac2_ALS, and for CMTF_ALS if all tensors have the same number of modes; false of the code otherwise, since None is replaced by a list of the length of the first tensor's number of modes). Theorems: `C124_parafac2`, `C124_cmtf_partial`, `C124_lower_order`, `C124_higher_order`, `C124_fails`.
* **C125** A Parafac2 fit leaves the decompositions of the caller alone. Plan: an invariant of all states of the call: the heap agrees with the one before outside the arrays passed, and all arrays of the decomposition and of the inner CP_ALS object are new or passed; every write goes to one of them. Refutation: the decomposition of the object is the one passed, and a run with 1 x 1 slices changes it. Result: partial (proved for every start except a precomputed decomposition; false of the code for that one, whose arrays are overwritten with the fitted model). Theorems: `C125_frame_partial`, `C125_kept_partial`, `C125_earlier_result_partial`, `C125_continue`, `C125_same_object`, `C125_fails`.
* **C126** CMTF_ALS without coupled matrices fits the CP model. Plan: the updates of a CMTF_ALS object with an empty dictionary are those of a CP_ALS state with the same factor matrices; that state is the one of the CP_ALS fit with the modes multiplied by constants, so that the invariant of C95 applies from the first iteration on. Equal errors give equal stopping decisions. Refutation: a 1 x 1 tensor with an exact start. Result: partial (proved without constraints and penalties when all columns of a mode of the start have the same length and the product of the lengths is one (such as SVD starts); in general the result is wrong by the factor of the product of the lengths, because _init_fit moves the lengths to weights that the updates ignore). Theorems: `C126_alone_partial`, `C126_fails`.
* **C127** Conversion of any decomposition to an evolving tensor. Plan: case distinction on the class of the argument; for arrays the broadcast of line 341 is computed for all sizes and shown to have one axis too many, from which the slice shapes of the result follow. Result: partial (an evolving tensor whose B is an array of shape (K, J, R) is accepted without the flag and gives a tensor with one slice of width K). Theorems: `C127_same_class`, `C127_kruskal`, `C127_bad_order`, `C127_rejected_partial`, `C127_array_fails`.
* **C128** Order of the coupled matrices. Plan: simulation between the two objects (`CMTFState.Reordered`): every step of the fit is shown to keep the relation, the dictionaries are related through their first entries, the sums over the matrices are permuted; a witness with two matrices on one mode for other orders. Result: partial (holds for orders in which the first matrix of every mode is still the first one; false for two matrices on one mode). Theorems: `C128_order_partial`, `C128_order_distinct`, `C128_loggers`, `C128_fails`.
* **C129** What the core consistency does not depend on. Plan: the best core of the changed problem is obtained from that of the original one by reindexing and dividing (`core_moved`), since the best core is unique; the sums of squares are then reindexed. For scales the balanced columns are compared, with a bound on the change and a witness. Result: partial (exact for orders and signs; for scales the core entries change by factors within eps/delta of one, and the claim is false for columns of length 1e-15). Theorems: `C129_components`, `C129_first_modes`, `C129_last_modes`, `C129_scale_partial`, `C129_scale_fails`.
* **C13** non_negative_rightsolve is feasible and optimal. Plan: row by row from the NNLS contract. Result: partial (two-dimensional B proved; the code fails for one-dimensional B (C13_one_dimensional_fails)). Theorems: `C13_nonneg_partial`, `C13_bad_size`, `C13_no_rows`, `C13_rejects_iff`, `C13_one_dimensional_fails`.
* **C130** The order of the modes. Plan: products over the modes and sums over the indices are reindexed by the permutation (`prod_move`, `sumIdx_listed`), and the values of the functions are those of C26, C65 and `constructTensor_eq`; the two sides of the least squares problem of a mode are the same arrays in both orders (`mttkrp_exchanged`, `gramProd_exchanged`), so updates and sweeps correspond; the fit is refuted with diag(2, 1), which is its own transpose. Result: partial (holds of the model, its scores and every sequence of updates taken for the same modes; false of the fit, which updates mode 0 first). Theorems: `C130_tensor_partial`, `C130_error`, `C130_fms`, `C130_degeneracy`, `C130_update`, `C130_sse`, `C130_sweep_partial`, `C130_fails`.
* **C131** Relations between samples carry over to the scores. Plan: the unconstrained solvers multiply the right hand side from the right; for the orthonormal one a reflection along the relation leaves the right hand side alone and so leaves the (unique) truncated polar factor alone; for equal rows the exchange of the two does this for every solver, also the non-negative one; then induction over the modes and the iterations. Result: partial (proved for CP_ALS; false for A of PARAFAC2 with an orthonormality constraint, which keeps its start, and for the right factors of further matrices of a mode, which are never updated). Theorems: `C131_solver`, `C131_update`, `C131_iterate`, `C131_cp_fit`, `C131_equal_samples`, `C131_zero_sample`, `C131_parafac2_iteration`, `C131_parafac2_partial`, `C131_parafac2_fails`, `C131_cmtf_update`, `C131_cmtf_iteration`, `C131_cmtf_partial`.
* **C132** Fits of compressed data. Plan: the Gram matrices of the factors and the products of the data with the factors are the same for the small and the large problem, or multiplied by the matrix; the solvers multiply the right hand side from the right, so each update preserves the relation; induction over modes and iterations, for PARAFAC2 with the projection matrices being equal because the orthogonal solver only sees the product of its arguments; for CMTF with the normal equations having one solution in the row space, and lengths of columns being preserved by the normalisation. Result: proved. Theorems: `C132_solver`, `C132_update`, `C132_error`, `C132_cp_fit`, `C132_model`, `C132_zero_slices`, `C132_parafac2`, `C132_parafac2_precomputed`, `C132_cmtf_update`, `C132_cmtf`.
* **C133** Layout of the files. Plan: the specification writes the names out and pads numbers with the functions of the standard library, whose agreement with the formatting of the model is proved by induction over the digits; contents by induction over the list of matrices; the attributes of checkpoint files are an invariant of every step of a fit, whether it returns or raises. Result: partial (proved for all decompositions and for the checkpoint files of CP_ALS and Parafac2_ALS; those of CMTF_ALS never name the class, and stored evolving tensors cannot be loaded (C21)). Theorems: `C133_kruskal`, `C133_evolving`, `C133_parafac2`, `C133_kruskal_read`, `C133_parafac2_read`, `C133_cp_typed_partial`, `C133_parafac2_typed_partial`, `C133_cmtf_untyped`, `C133_cmtf_fails`.
* **C134** Reported errors in floating point. Plan: floating-point evaluation is a relation: sums and products of matrices may be evaluated in any order (inductively over finite sets of summands), every operation is followed by an arbitrary function with relative error at most u. A calculus of approximations (value, exact value, size of the terms, number of roundings) is propagated through the Khatri-Rao products, the matrix products, the norms and the inner product. Double precision is rounding to 53 bits, ties to even, which is proved to satisfy the hypothesis; the counterexample is evaluated with it. With the identity as rounding the relation gives the value of the exact model. Result: partial (the bounds are proved for all roundings; that the error is not negative holds before the first update and is false after it (exact rank-one decomposition of ones(3,1,1) in double precision)). Theorems: `C134_construct`, `C134_error_bound`, `C134_start_nonneg_partial`, `C134_evaluates`, `C134_exact`, `C134_negative`, `C134_explained_above_one`, `C134_rmse_nan`.
* **C135** Reported errors of PARAFAC2 and coupled models in floating point. Plan: as C134, with induction over the zipped lists of slices and of coupled matrices; sums of squares stay nonnegative under every rounding with relative error at most one. Double precision is shown to round numbers up to one to numbers up to one. Result: proved (in contrast to CP_ALS (C134): both classes add squares of residuals). Theorems: `C135_parafac2_nonneg`, `C135_parafac2_error_bound`, `C135_cmtf_nonneg`, `C135_cmtf_error_bound`, `C135_explained_le_one`, `C135_parafac2_evaluates`, `C135_cmtf_evaluates`, `C135_parafac2_exact`, `C135_cmtf_exact`.
* **C136** Factor match score in floating point. Plan: relative errors are tracked in both directions through norms, the guard, quotients and products (`Near`), absolute ones through the inner products of the normalised columns, whose terms sum to at most one in absolute value by Cauchy-Schwarz; the relative difference of sizes is one minus a quotient. Minimum, mean and maximum over the assignments do not enlarge the error. The witness is evaluated for every order of summation. Result: proved (the score of a decomposition compared with itself can exceed one in double precision (C136_above_one), so the range [0, 1] of C26 holds in exact arithmetic only). Theorems: `C136_score`, `C136_exact`, `C136_double`, `C136_returns`, `C136_above_one`.
* **C137** Movement and limits of coupled fits. Plan: each block update is a linear least squares problem, so the error along a line through its solution is a quadratic function without linear term, and the decrease equals the squared movement; Cauchy-Schwarz over the updates of an iteration gives the bound. Optimality for each block passes to limits by continuity, and the derivative in a joint direction is the sum of the derivatives in the blocks. Result: proved (stated for the objective of the updates: the updates ignore the weights and all but the first matrix of a mode (C57, C82)). Theorems: `C137_movement`, `C137_limit`, `C137_accumulation`, `C137_steps`.
* **C138** Factor matrices that do not fit the tensor. Plan: the Khatri-Rao product is computed for arbitrary sizes; outside the middle mode its number of rows meets the unfolding in one multiplication. For the middle mode, induction over the blocks up to the first one that has too few rows. Result: partial (ValueError if the products of the other sizes differ, except for the middle mode of a third-order tensor, where rows of the Khatri-Rao product beyond the last block are ignored; sizes with the same product are accepted everywhere, and the theorems say what is computed then). Theorems: `C138_rejected_partial`, `C138_same_product`, `C138_middle`, `C138_not_rejected`.
* **C139** Limits of PARAFAC2 fits. Plan: an iteration is a step: optimal projection matrices for the old factor matrices (Procrustes bound without dropped singular values), then cp_updates sweeps on the projected data, for which the error is that of a CP model up to a constant. Optimality of each block passes to the limit by continuity; for subsequences the decrease of the error bounds the movement within the last sweep, and independence of the rank-one terms recovers the factor matrices before each update. Result: partial (fits in which the projection update treats no singular value as zero; in the limit theorem the blueprint matrix and stationarity only for cp_updates = 1, in the accumulation theorem for any number, with linearly independent rank-one terms. Missing: runs in which singular values are treated as zero (projection matrices that are not orthonormal, C52/C53)). Theorems: `C139_limit_partial`, `C139_accumulation_partial`.
* **C14** orthogonal_solve returns an orthonormal minimiser. Plan: Procrustes: trace bound by contraction, with the singular values below the cut-off accounted for. Result: partial (proved when no singular value is dropped; orthonormality fails exactly otherwise (C14_orthonormal_iff, C14_zero_fails); the loss is near optimal always). Theorems: `C14_orthogonal_solve_partial`, `C14_orthogonal_rightsolve_partial`, `C14_orthonormal_iff`, `C14_near_optimal_partial`, `C14_zero_fails`.
* **C140** Normalising a Kruskal tensor in floating point. Plan: induction over the modes: the relative errors of norms, guard and quotients in both directions (`Near`, from C136) give the lengths, products of signed relative errors (`Approx`) the weights and the entries; the rest is the factor of C16. Result: proved (overflow and underflow are not modelled). Theorems: `C140_columns`, `C140_weights`, `C140_tensor`, `C140_returns`, `C140_double`, `C140_unit_double`.
* **C141** Exact models are the same. Plan: linear functionals dual to the independent columns turn the equality of the tensors into a simultaneous diagonalisation; its eigenvectors have one entry that is not zero each because no two components are proportional in the other modes (`rank_one_terms_unique`). Equal rank-one terms have proportional columns (induction over the modes), whose congruences are the guards. Two modes: the identity matrix as I I and as H H/2. Result: proved (with the weight penalty for decompositions with unit weights, since the score ignores the weights (C76)). Theorems: `C141_components`, `C141_score`, `C141_fits`, `C141_recovery`, `C141_two_modes`.
* **C142** Sizes of components and existence of best models. Plan: the inner products of non-negative components are non-negative, those of components that are orthogonal in one mode are zero, so the squared norms add up to at most that of the model, which is bounded through the triangle inequality. Existence: the lengths of the columns are moved into the weights; then the models of a class whose components do not cancel and whose error is at most a given one lie in a compact set (Tychonoff), on which the error is continuous. Non-existence: Cayley's hyperdeterminant of a sum of two components is a square, which forces two proportional columns. Result: proved (that the fits reach these best models is not claimed (C38, C39: constrained updates can increase the error)). Theorems: `C142_nonneg`, `C142_orth`, `C142_fit`, `C142_best_nonneg`, `C142_best_orth`, `C142_best_one`, `C142_large_components`, `C142_no_best`, `C142_fits_no_best`, `C142_best_ridge`, `C142_ridge_bound`.
* **C143** Exact coupled models are the same. Plan: an error of zero means that the tensor and each matrix are exact; C141 gives the order and the factors by which the columns differ, and the independent columns of the shared factor matrix determine the uncoupled one. Result: proved. Theorems: `C143_coupled`, `C143_dependent`.
* **C144** A PARAFAC2 fit is not worse than its start. Plan: the singular values dropped by orthogonal_solve are at most sqrt(rank · columns) · 1e-8 times the largest one, so the loss of optimality of the projection update is bounded by the norms of the data and of the model (C52); a sweep of exact least squares updates makes the model an orthogonal projection of the data, which bounds the norm of the model, and the bound is summed over the iterations. For an exact start the cross products have the rank of the slices, and nothing is dropped. Result: proved (assumes SVDOk, NNLSOk, QROk; unconstrained fits without penalties). Theorems: `C144_fit`, `C144_exact_start`.
* **C145** Fits without random start are reproducible. Plan: the branches of init_components that draw numbers are not taken and nothing else in the configuration of the fit depends on them; for CMTF_ALS the drawn columns are divided by their norms. Refutation: one iteration of least squares on a 1 × 1 problem in which the drawn factor -1 makes the first update zero. Result: partial (true of CP_ALS and Parafac2_ALS; false of CMTF_ALS, which draws the uncoupled factor matrices in every fit (C145_coupled_depends: an exact start is kept or lost, depending on the sign of a drawn number)). Theorems: `C145_cp`, `C145_parafac2`, `C145_parafac2_sources`, `C145_coupled_partial`, `C145_coupled_depends`.
* **C146** Components that start equal or zero. Plan: exchanging the equal components, or changing the signs of the two zero columns, does not change the start; by C96, C115 and C118 it changes the result in the same way, so the result has the same symmetry. Result: proved (assumes SVDOk, NNLSOk, QROk). Theorems: `C146_equal`, `C146_zero`, `C146_parafac2_equal`, `C146_parafac2_zero`, `C146_coupled_zero`.
* **C147** PARAFAC2 data with one component are recovered. Plan: the single singular value of a slice is not treated as zero, so the new projection vector is best; comparison with x_k / |x_k| and the equality case of Cauchy-Schwarz show that it is that vector up to sign, the sign making all projected entries agree with the start. The projected data have one component, which the first sweep finds (C122); exact states stay exact (C144). Result: proved (assumes SVDOk, NNLSOk, QROk). Theorems: `C147_rank_one`.
* **C148** Exact PARAFAC2 models are the same. Plan: both models have the column space of A, so A' = A T^-1, and the matrices diag(c_k) D^T D diag(c_k) of the two are congruent by T. The 2 x 2 minors that vanish for the entries of the second give equations of degree four in c_k, which by general position hold for all weights; taking unit vectors and sums of two for the weights shows that T has one nonzero entry per row and column. Result: proved (C148_few_slices: with a single slice the conclusion is false). Theorems: `C148_components`, `C148_fits`, `C148_recovery`, `C148_few_slices`.
* **C149** Factor match score of equal PARAFAC2 models. Plan: for positive C the signs of C148 are determined, so all three columns of matched components are proportional and their sizes agree; then as for C141 through C85. The witness flips the sign of one of two slices. Result: partial (false: the sign of a slice (of its row of C and its projection matrix) is not determined, and the score compares C and the stacked P_k D without regard to it; holds for positive C). Theorems: `C149_score_partial`, `C149_fails`.
* **C15** KruskalTensor construction validates its arguments. Plan: case analysis of the constructor. Result: proved. Theorems: `C15_init_ok`, `C15_init_error`.
* **C150** Coupled data with one component are recovered. Plan: the normal equation of an update in the direction of a unit vector says that the new column is a multiple of the column of the data; the factor is nonzero if the column is, and positive for positive inner products. Then the right factors fit their matrices exactly, the update of a mode without a coupled matrix makes the tensor exact, and later updates keep it so because error zero is attainable. Result: partial (false: the weights of the start, which the updates ignore, stay in the decomposition, so the tensor is multiplied by the lengths of the columns of the start; exact for the factor matrices and the coupled matrices that are the first ones of their modes). Theorems: `C150_iterates_partial`, `C150_result_partial`, `C150_fails`.
* **C151** Limits of fits with non-negative factor matrices. Plan: the residual of the normal equations is a quarter of the sum of the squares of the partial derivatives of the squared error in the entries of the factor matrix. Iterations are sweeps of such minimisations; the minimality passes to the limit by continuity. At a positive limit small steps in the direction of the gradient are admissible, so its image under the Gram matrix, and then the gradient itself, vanishes. With one component both minimisations agree. The refutation is a fit that never moves. Result: partial (false: the update of a non-negative mode minimises the residual of the normal equations, not the squared error, and fits can be stuck at a point with error 13 next to admissible points with error 12.5; true for one component, for limits with positive entries, and for the modes without the constraint; in general the limit has the smallest sum of squared partial derivatives among the non-negative matrices). Theorems: `C151_limit_partial`, `C151_interior_partial`, `C151_one_partial`, `C151_fails`.
* **C152** Limits of fits with ridge penalties. Plan: as for C151, with the penalty added to a quarter of the sum of squared partial derivatives: `C12_ridge` and `C12_ridge_nonneg` give one step, iterations are sweeps of such steps, and the minimality passes to the limit by continuity. If the rank-one terms of the other modes are orthogonal with squared length g, the quarter of the squared slopes is g times the squared error plus a constant. The refutation is a fit that never moves. Result: partial (false: the penalty is added to the residual of the normal equations instead of the squared error; for the 1 x 1 data 5 with penalties 4 and 4 the fit from 2 * 2 never moves, its loss is 33, and the zero model has the loss 25; true where the rank-one terms of the other modes are orthonormal; if they are orthogonal with squared length g (always so for one component) the limit is optimal for the penalty divided by g). Theorems: `C152_limit_partial`, `C152_orthogonal_partial`, `C152_fails`.
* **C153** Fits of matrices approach the truncated SVD. Plan: one iteration is a step of subspace iteration: the normal equations (C12, `Sweep`) turn a second factor matrix (V + Z) K with V the leading right singular vectors, VᵀZ = 0 and K invertible into one of the same form with ‖Z‖² smaller by (ρ/σ)⁴; induction over the iterations. The error of the model is compared with `fsq M - Σ d²` and this with all models by an Eckart-Young theorem proved from Bessel's inequality (LinAlg/SubspaceIteration.lean). Result: proved (C153_orthogonal_start shows that the condition on the start is needed: from e2 all fits of diag(2, 1) with one component have the error 4, the best model has 1). Theorems: `C153_rate`, `C153_best`, `C153_limit`, `C153_orthogonal_start`.
* **C154** SVD start of a matrix gives the best model. Plan: C73 gives orthonormal columns that capture as much of the matrix as any others; the first update of the first mode is at least as good as M B0, whose model is the projection onto these columns; every other model lies in the span of R orthonormal columns (`exists_orth_factor`); later iterations do not increase the error (C34). Result: proved (fits that stop before the first iteration (possible if the start meets the tolerance) are left out). Theorems: `C154_svd_start`.
* **C155** Models explain at most as much as principal components. Plan: the models of one mode are products A Bᵀ with R columns (B is the weighted Khatri-Rao product, the stack of the P_k D diag(C_k), or that above the right factors of the coupled matrices). A thin SVD of A gives orthonormal columns Q; projecting on them is at least as good, and Ky Fan's maximum principle bounds what they capture by the R largest eigenvalues (LinAlg/Pca.lean). The reported errors are the true ones by C74, C80, C83. Result: proved (stated with the eigenvalues of the matrix of the inner products of the rows (the squared singular values of the unfolding; rowGram_unfold relates it to unfold, C155_exist shows that they exist)). Theorems: `C155_cp`, `C155_parafac2`, `C155_cmtf`, `C155_model`, `C155_slices`, `C155_coupled`, `C155_exist`, `rowGram_unfold`.
* **C156** The lengths of the columns of the start do not matter. Plan: each update is a minimiser of the squared error (Sweep), the residual of a minimiser is orthogonal to all models that differ in one mode, so two minimisers give the same model and, by independence, are the same matrix (optimal_unique). Hence the rescaled minimiser for one start is the minimiser for the other (scaled_step); induction over the modes and iterations. From the second iteration on the stopping criterion sees the same numbers. Result: proved (the condition on the updates is stated with the factor matrices of successive iterations (Determined); determined_matrix21 gives a fit that meets it). Theorems: `C156_scale`, `scaled_orbit`, `determined_matrix21`.
* **C157** Fits depend continuously on the data and the start. Plan: the minimiser of an update meets the normal equations, whose matrix has a determinant other than zero when the rank-one terms of the other modes are independent; Cramer's rule (cramer_update) gives the entries of the new factor matrix as a continuous function of the data and the other factor matrices. Induction over modes and iterations (continuous_step, continuous_sweep, continuous_orbit). With tolerances (Props/ContinuityTol): errors and norms converge in every iteration, so each stopping test of a nearby fit is decided as in the limiting fit unless that is a tie; the tested values form a countable set that does not depend on the tolerances. Discontinuity without the condition: C156, C153 and C146 for diag(2, 1) and starts (0, 1/(n+1)). Result: proved (for fits that perform the same number of iterations (C157_full: tolerances that are not positive). With positive tolerances nearby fits make the same number of iterations unless a stopping test of the limiting fit is an exact tie (C157_tolerances), which happens for countably many tolerances only (C157_ties_countable). The condition on the updates is needed (C157_underdetermined)). Theorems: `C157_continuous`, `C157_full`, `C157_tolerances`, `C157_ties_countable`, `C157_underdetermined`, `continuous_orbit`.
* **C158** Stricter tolerances and larger budgets. Plan: both fits perform iterations of the same step from the same state (C74, C83, C80); the comparisons of the stop test are monotone in the tolerances, so the stricter fit cannot stop before the other one. For CMTF_ALS cmtf_fit_unfold_start identifies the start; the fits are compared before the normalisation at the end. Result: proved. Theorems: `C158_cp`, `C158_cmtf`, `C158_parafac2`.
* **C159** The tolerances bound the number of iterations. Plan: the update of the last mode is at least as good as the zero matrix, so the error after the first iteration is at most the squared norm of the data (NonNegSweep.le_zero); sweeps from admissible matrices do not increase it (le_start); then orbit_geometric (C91) from the state after the first iteration. For CMTF_ALS (C159_cmtf) the same with the coupled loss, which is at most the sum of the squared norms after one sweep (CoupledSweep.le_zero). Result: proved. Theorems: `C159_bound`, `C159_defaults`, `C159_cmtf`.
* **C16** normalize_components keeps the tensor. Plan: loop invariant: weights times column norms is constant where norms exceed eps. Result: proved (factor matrices that do not share memory). Theorems: `C16_normalize_components`, `C16_relative_change`, `C16_keep_weights`.
* **C160** A fit is at least as good as the models in its start. Plan: a model in the columns of the start is a model of the start with another first factor matrix (gathered, cpEntry_gathered); the first update is at least as good (first_iteration_best), and later iterations do not increase the error. Result: proved. Theorems: `C160_contains`, `C160_more`.
* **C161** Explained variance of coupled models. Plan: the final state has the sizes and the tensor norm of the start (cmtf_fit_norm), so the property is one minus the true loss over the squared norm (cmtf_explained); lower bound from CoupledSweep.le_zero; witness: ten times the identity has distance at least 10 from every rank-one matrix (ten_eye_err). Result: partial (At most 1, and 1 exactly for reproduced data: proved. Not negative: false, the error of the coupled matrices is divided by the norm of the tensor alone (C161_fails); the proved lower bound is minus the ratio of the squared norms.). Theorems: `C161_value_partial`, `C161_lower_partial`, `C161_fails`.
* **C162** The factor match score is continuous. Plan: the score is the maximum over the finite set of assignments (IsBest.eq_sup) of scores that are continuous: products of guarded cosines (tendsto_congruenceProd), sizes (tendsto_compSize), minimum or mean; for fits with C157; witness: components 1/(n+1). Result: partial (proved without the size penalty at all limits, and with it where no two compared components are both zero; there it is false (C162_fails: the score jumps to -1).). Theorems: `C162_continuous_partial`, `C162_fits`, `C162_fails`.
* **C163** The reported error, the noise and the distance to the truth. Plan: the reported SSE is the true squared distance of the data and the model at the end of every fit (C74_fit_completes, C80_fit_completes, C83_fit_completes), the triangle inequality over all entries (entryDist_triangle, slicesDist_triangle, dataDist_triangle), and C160_contains for the recovery. Result: proved. Theorems: `C163_cp`, `C163_recovered`, `C163_parafac2`, `C163_coupled`.
* **C164** Fits keep the symmetries of the data and the start. Plan: the fit of moved data from a moved start is the moved fit (C112, C113, C117); for data and start that do not change, both are the same run; witness with the swap of rows and columns. Result: proved. Theorems: `C164_cp`, `C164_stuck`, `C164_parafac2`, `C164_coupled`.
* **C165** Core consistency of fits with one component. Plan: the update of the last mode makes the residual orthogonal to the model (C100_fit_partial); for one component the error of a core g is then R + (1 - rho g)^2 M, which has the single minimum 1/rho (core_of_orthogonal); the guard is bounded by C63_guard. For PARAFAC2 the same holds for the projected data (p2_iteration_orthogonal, C84_projected). Result: proved (assumes SVDOk, NNLSOk, QROk). Theorems: `C165_one_component`, `C165_parafac2`, `C165_nonneg`, `C165_parafac2_nonneg`.
* **C166** Fitted models are not longer than the data. Plan: the squared error is not negative and at most the difference of the squared norms of the data and the model (C100); for PARAFAC2 through the inner model, because the projection matrices do not increase lengths. Result: proved (assumes SVDOk, NNLSOk, QROk). Theorems: `C166_shorter`, `C166_one_component`, `C166_parafac2`, `C166_parafac2_random`.
* **C17** normalize_factor(s) is exact and safe. Plan: direct, including zero columns. Result: proved. Theorems: `C17_normalize_factor`, `C17_normalize_factors`.
* **C18** components add up to the tensor. Plan: finite sums over components. Result: proved. Theorems: `C18_single_component`, `C18_components_sum`, `C18_bad_component`.
* **C19** KruskalTensor survives store / from_file. Plan: HDF5 group as finite map; names `factor_matrix{i}` are injective for all numbers. Result: proved. Theorems: `C19_kruskal_roundtrip`, `C19_kruskal_rejected`, `C19_names_distinct`.
* **C20** Parafac2Tensor survives store / from_file. Plan: as C19 for the projection matrices. Result: proved. Theorems: `C20_parafac2_roundtrip`, `C20_parafac2_rejected`.
* **C21** EvolvingTensor survives store / from_file. Plan: `load_from_hdf5_group` passes a keyword the constructor does not have. Result: partial (false of the code: loading an EvolvingTensor never succeeds; what is stored is complete). Theorems: `C21_evolving_store_partial`, `C21_evolving_load_fails`.
* **C22** EvolvingTensor.construct_tensor. Plan: sums; the zero-padding loop writes disjoint slices. Result: proved. Theorems: `C22_slices`, `C22_slice`, `C22_construct_tensor`, `C22_warning`.
* **C23** from_kruskaltensor represents the same tensor. Plan: direct; the weights are dropped. Result: partial (false of the code when the weights are not all one (C23_fails)). Theorems: `C23_from_kruskal_partial`, `C23_bad_order`, `C23_fails`.
* **C24** PARAFAC2 constraint. Plan: orthonormality of the projections gives B_k^T B_k = B^T B. Result: proved. Theorems: `C24_parafac2_constraint`, `C24_parafac2_pairs`.
* **C25** PARAFAC2 components add up to the slices. Plan: finite sums. Result: proved. Theorems: `C25_components_sum`.
* **C26** factor match score is a score in [0, 1] attained by the returned permutation. Plan: fold over all permutations (maximum of a list), Cauchy-Schwarz for each congruence. Result: proved (the score is nan (and the assignment never chosen) only if two zero components are compared with the weight penalty). Theorems: `C26_factor_match_score`, `C26_bad_reduction`.
* **C27** factor match score ignores component order and sign. Plan: bijection of the set of permutations; absolute values. Result: proved. Theorems: `C27_permutation`, `C27_signs`.
* **C28** factor match score is symmetric. Plan: inverse permutations; finite products commute. Result: proved. Theorems: `C28_symmetric`.
* **C29** factor match score of a decomposition with itself. Plan: the identity attains 1 and C26 bounds by 1; zero columns are guarded by the code. Result: proved. Theorems: `C29_self`, `C29_guard`, `C29_zero_component`.
* **C30** factor match score with too few estimated components. Plan: case analysis on the number of columns. Result: proved. Theorems: `C30_too_few`.
* **C31** separate_mode_factor_match_score works mode by mode. Plan: mode by mode use of C26; for evolving tensors with the evolving factor matrices stacked (C31_evolving). Result: partial (the function is proved; the method of KruskalTensor always raises AttributeError (C31_kruskal_fails)). Theorems: `C31_separate`, `C31_joint_le`, `C31_evolving`, `C31_kruskal_fails`.
* **C32** sign canonicalisation. Plan: loops over columns; case analysis of the first non-zero entry. Result: proved (flip_factors and prepare_for_comparison; the flipped matrix does not depend on the signs of the columns). Theorems: `C32_flip`, `C32_sign_free`, `C32_idempotent`, `C32_prepare`.
* **C33** KruskalTensor.get_signs is consistent. Plan: the product of signs after the correction of one mode. Result: partial (holds when no score is zero; a zero score gives sign 0 and the signs multiply to 0, also for an exactly represented tensor). Theorems: `C33_signs_partial`, `C33_tensor_partial`, `C33_zero_score`, `C33_fails`.
* **C34** one ALS update never increases the loss. Plan: quadratic expansion around the normal equations; induction over the history of updates. Result: proved (assumes the contract of np.linalg.svd (SVDOk); factor matrices that do not share memory). Theorems: `C34_update_core`, `C34_update_optimal`, `C34_updates_monotone`, `C34_iterations_monotone`, `C34_first_fit`.
* **C35** the reported SSE is the true SSE. Plan: invariant of the cached MTTKRP over all update histories. Result: proved (for the first fit of an object; the cached value goes stale in a second fit (C36)). Theorems: `C35_sse`, `C35_update`, `C35_updateModes`, `C35_iteration`, `C35_iterate`, `C35_init`, `C35_first_fit`.
* **C36** a decomposer can be fitted again. Plan: state machine; two-fit witness. Result: partial (false of the code: the second fit of a CP_ALS object reads a stale cache or raises). Theorems: `C36_refit_partial`, `C36_refit_fails`, `C36_refit_type_error`.
* **C37** ridge-penalised ALS decreases the documented loss. Plan: the code solves the regularised normal equations in the least-squares sense, which is another problem; witness. Result: partial (false of the code: the penalised loss can grow (C37_ridge_increases)). Theorems: `C37_loss`, `C37_ridge_partial`, `C37_ridge_increases`.
* **C38** non-negative ALS decreases the loss. Plan: as C37 with NNLS on the normal equations; witness. With one component the normal equations have a single unknown per row, so that the update minimises the SSE; induction over the sweeps. Result: partial (false of the code: the SSE can grow (C38_nonneg_increases); proved for whole fits with one component (C38_one_partial)). Theorems: `C38_nonneg_partial`, `C38_one_partial`, `C38_nonneg_increases`.
* **C39** orthonormal ALS decreases the loss. Plan: as C37 with the orthogonal solver; witness. Result: partial (false of the code: the SSE can grow (C39_orthonormal_increases)). Theorems: `C39_orthonormal_partial`, `C39_orthonormal_increases`.
* **C40** constraints hold after fitting. Plan: solver contract and loop invariant. Result: proved. Theorems: `C40_update_nonneg`, `C40_updates`, `C40_nonneg_after_fit`, `C40_both_update`, `C40_both_iteration`.
* **C41** iteration budget. Plan: induction on the remaining budget, for every `Method`. Result: proved (for every decomposer (record Method); the loop is shared by CP_ALS, Parafac2_ALS and CMTF_ALS). Theorems: `C41_loop`, `C41_run`, `C41_run_any`, `C41_continue`, `C41_fit`, `C41_sequence`.
* **C42** continue_fit on an exhausted budget is a no-op. Plan: case analysis on the empty loop (`it` never assigned). Result: partial (false of CP_ALS and CMTF_ALS (UnboundLocalError); holds for the other loop form without checkpointing). Theorems: `C42_raises`, `C42_noop_partial`, `C42_store_again`.
* **C43** checkpoint schedule. Plan: induction on the loop with the file as part of the state. Result: partial (the regular schedule is proved; false of the code for the last iteration (C43_early_stop_lost, C43_current_iteration_lost)). Theorems: `C43_schedule`, `C43_final_partial`, `C43_early_stop_lost`, `C43_current_iteration_lost`, `C43_current_iteration_partial`.
* **C44** no periodic checkpointing: only the last iteration is stored. Plan: `it % -1 == 0` together with the test for a positive frequency. Result: partial (false of the code: nothing is ever stored (C44_nothing_stored)). Theorems: `C44_nothing_stored`, `C44_default`, `C44_zero_raises`.
* **C45** checkpoint file bookkeeping. Plan: file invariant over histories of `store_checkpoint`. Result: partial (holds for different iteration numbers; a failing call corrupts checkpoint_its, and CMTF_ALS does not write it). Theorems: `C45_bookkeeping_partial`, `C45_collision_corrupts`, `C45_no_list`, `C45_cmtf_no_list`.
* **C46** continuing a fit keeps checkpointing. Plan: two runs in sequence; collision of group names. Result: partial (false of the code when the frequency divides N+1, or when the fit had converged). Theorems: `C46_fails`, `C46_converged_fails`, `C46_partial`.
* **C47** resuming from a checkpoint continues the run. Plan: comparison of the resumed run with the uninterrupted one. Result: partial (false of the code: a resumed run performs one more iteration (C47_fails has a concrete run), and cannot store into the same file; resuming from the final checkpoint of a run whose length the frequency does not divide is proved correct (C47_partial)). Theorems: `C47_partial`, `C47_extra_iteration`, `C47_same_file_fails`, `C47_fails`.
* **C48** load_checkpoint finds what store_checkpoint wrote. Plan: finite maps: what was written is found. Result: proved. Theorems: `C48_load`, `C48_load_default`, `C48_no_checkpoints`, `C48_missing`, `C48_no_file`, `C48_not_valid`.
* **C49** iter_checkpoints goes in iteration order. Plan: lexicographic order of zero-padded decimal names. Result: partial (false of the code from iteration 100000 on). Theorems: `C49_order_partial`, `C49_order_fails`.
* **C50** loggers lose and duplicate nothing. Plan: invariant over all operation lists. Result: proved (loggers of different classes; for two loggers of one class see C75). Theorems: `C50_history`, `C50_no_write`, `C50_run`, `C50_checkpoint`, `C50_entries`.
* **C51** HDF5Logger file contents. Plan: invariant of the file and the buffers; crash after every prefix of writes. Result: partial (proved between calls; false of the code for a crash inside save_logs (C51_crash gives the exact contents, C51_crash_fails a witness)). Theorems: `C51_history`, `C51_continue`, `C51_stored`, `C51_log`, `C51_crash`, `C51_crash_fails`, `C51_zero_frequency`, `C51_no_targets`.
* **C52** PARAFAC2 projection update. Plan: Procrustes per slice (C14), with the dropped singular values in the bound. Result: partial (The literal claim is false: a slice whose cross product has singular values at most J_k * sigma_1 * 1e-16 (for instance a zero row of C) gets a projection matrix that is not orthonormal, and the SSE can increase. Proved: the update is optimal among all orthonormal families up to twice the dropped singular values, orthonormality holds exactly if none is dropped.). Theorems: `C52_projection_update_partial`, `C52_full_rank_partial`, `C52_dropped_le`, `C52_not_orthonormal`, `C52_sse_increases`.
* **C53** one PARAFAC2 iteration never increases the loss. Plan: C52 and C34 for the inner problem; Pythagoras between slices and their projections. Result: partial (Monotone error holds when every projection update keeps all directions (full rank cross products) and the inner modes are unconstrained; refuted in general: the truncated projection update can increase the SSE in a state reachable from the code's own preparation.). Theorems: `C53_iteration_partial`, `C53_full_rank_partial`, `C53_trajectory_partial`, `C53_sse_increases`.
* **C54** PARAFAC2 slices keep their own projection matrices. Plan: heap model: disjointness of addresses, or all slices at one address. Result: partial (holds for the random start and for decompositions loaded or supplied with different arrays; false of the code for init=cp, where all slices share one array and every slice ends up with the projection matrix of the last one). Theorems: `C54_distinct_partial`, `C54_random_partial`, `C54_loaded_partial`, `C54_cp_last`, `C54_cp_fails`.
* **C55** PARAFAC2 sub-solver results reach the decomposition. Plan: heap model: which addresses the inner decomposer writes. Result: partial (Outer and inner factor matrices stay the same arrays through every iteration when no orthonormality constraint is set; with a constraint the inner decomposer works on a fresh array and the PARAFAC2 factor is never updated.). Theorems: `C55_shared_partial`, `C55_orthonormal_fails`.
* **C56** fit_transform is fit followed by returning the decomposition. Plan: equality of programs; a witness for the dropped arguments. Result: partial (proved for CP_ALS and CMTF_ALS; false of the code for Parafac2_ALS, whose fit_transform drops max_its and initial_decomposition). Theorems: `C56_cp_fit_transform`, `C56_cmtf_fit_transform`, `C56_parafac2_fit_transform_partial`, `C56_parafac2_ignored`, `C56_parafac2_precomputed_raises`, `C56_parafac2_fails`.
* **C57** CMTF update never increases the coupled loss. Plan: block least squares of the coupled problem; witnesses for shared and negative modes. Result: partial (assumes SVDOk, NNLSOk; false of the code for several matrices on one mode and for negative modes, both with witnesses). Theorems: `C57_partial`, `C57_first_matrices`, `C57_shared_mode_fails`, `C57_negative_mode_fails`.
* **C58** CMTF fits every coupled matrix. Plan: frame argument over the updates, then over whole fits. Result: partial (only the first matrix coupled to a mode is fitted; the others keep their initial draw, and their data has no influence on the updates). Theorems: `C58_partial`, `C58_fit_partial`, `C58_fails`, `C58_data_ignored`.
* **C59** CMTF supports non-negativity constraints. Plan: the branch looks up a method that does not exist. Result: partial (false of the code: the non-negative branch calls a method that does not exist; C59_partial covers flags that are all false). Theorems: `C59_partial`, `C59_fails`, `C59_fit_raises`.
* **C60** CMTF normalisation keeps the model. Plan: loop over columns as in C16, for both kinds of factors. Result: proved. Theorems: `C60_normalisation`.
* **C61** initialisation dispatch. Plan: case analysis of the dispatch, `str.lower` on characters. Result: partial (all of it for CP_ALS; for Parafac2_ALS the Warning is missing (false of the code)). Theorems: `C61_case_insensitive`, `C61_precomputed`, `C61_precomputed_missing`, `C61_warning`, `C61_unknown`, `C61_path`, `C61_parafac2_case_insensitive`, `C61_parafac2_precomputed`, `C61_parafac2_unknown`, `C61_parafac2_no_warning`, `C61_no_checkpoint_file`, `C61_parafac2_no_checkpoint_file`.
* **C62** supplied decompositions are validated. Plan: loop over the supplied factors, `zip` stops early. Result: partial (false of the code for a wrong number of factor or projection matrices). Theorems: `C62_check_partial`, `C62_fewer_accepted`, `C62_more_index_error`, `C62_parafac2_check_partial`, `C62_parafac2_fewer_accepted`.
* **C63** core consistency of an exact model. Plan: Kronecker structure of the least-squares problem, uniqueness under full column rank. Result: proved (assumes QROk). Theorems: `C63_value`, `C63_exact`, `C63_guard`.
* **C64** leverage scores. Plan: diagonal of the hat matrix: trace and Cauchy-Schwarz. Result: proved. Theorems: `C64_leverage`, `C64_dependent`.
* **C65** degeneracy scores. Plan: products of cosines: Cauchy-Schwarz. Result: proved. Theorems: `C65_kruskal`, `C65_evolving`, `C65_zero_column`.
* **C66** explained variance and completion score. Plan: arithmetic with `FV`. Result: proved. Theorems: `C66_percent_explained`, `C66_zero_tensor`, `C66_explained_variance`, `C66_completion_mask`, `C66_completion_value`.
* **C67** MSE is the mean squared error. Plan: counting; witnesses. Result: partial (holds for CP_ALS, also RMSE; false of the code for Parafac2_ALS (divides by the number of columns only) and for CMTF_ALS (adds the sizes of the factor matrices, not of the data)). Theorems: `C67_cp_partial`, `C67_cp_rmse`, `C67_parafac2_partial`, `C67_parafac2_wrong`, `C67_parafac2_fails`, `C67_cmtf_partial`, `C67_cmtf_wrong`, `C67_cmtf_fails`.
* **C68** random initialisation. Plan: arbitrary draws. Result: proved. Theorems: `C68_kruskal_random_init`, `C68_kruskal_bad_method`, `C68_parafac2_random_init`, `C68_parafac2_random_init_small`, `C68_cp_start`.
* **C69** synthetic data helpers. Plan: look-up of a module attribute that does not exist. Result: partial (refuted: create_data and create_non_negative_data look up base.ktensor, which does not exist; the random factors are as documented). Theorems: `C69_factors_partial`, `C69_fails`.
* **C70** sign fixing of evolving tensors. Plan: keyword binding of a call with wrong arguments. Result: partial (refuted: get_signs is called with arguments it does not have, so fixing signs raises TypeError unless there are no slices). Theorems: `C70_fails`, `C70_normal_fails`, `C70_empty_partial`.
* **C71** PARAFAC2 factor match score. Plan: case analysis over the number of modes used. Result: partial (false of the code: mode B is ignored, the detailed variant compares the estimate with itself). Theorems: `C71_two_modes_partial`, `C71_evolving_ignored`, `C71_fails`, `C71_default_raises`, `C71_truth_ignored`, `C71_score_is_length`.
* **C72** PARAFAC2 SVD initialisation. Plan: shape arithmetic of `init_svd` with a list where a number is needed. Result: partial (false of the code: init_svd raises TypeError for every input). Theorems: `C72_svd_raises`, `C72_fit_raises`.
* **C73** SVD initialisation. Plan: columns of the left singular matrix. Result: proved (assumes the contract of the full np.linalg.svd (FullSVDOk, satisfiable by exists_fullSVD)). Theorems: `C73_svd_start`, `C73_svd_rank`.
* **C74** a fit completes. Plan: total correctness: every step of `fit` succeeds; C34 for the bound. Result: proved (assumes SVDOk, NNLSOk, QROk; factor matrices that do not share memory). Theorems: `C74_fit_completes`, `C74_fit_improves`, `C74_random_fit`.
* **C75** loggers do not interfere. Plan: invariant over two loggers in one group. Result: partial (false of the code for two loggers of the same class). Theorems: `C75_partial`, `C75_same_class_mixed`, `C75_fails`.
* **C76** factor match score of Kruskal tensors. Plan: the weights do not occur in the call. Result: partial (false of the code: the weights are ignored (C76_fails)). Theorems: `C76_unit_weights_partial`, `C76_rank_mismatch`, `C76_weights_ignored`, `C76_fails`.
* **C77** core consistency of a Kruskal tensor. Plan: as C76, on top of C63. Result: partial (false of the code: the weights are ignored (C77_fails)). Theorems: `C77_value`, `C77_unit_weights_partial`, `C77_order`, `C77_fails`.
* **C78** get_signs follows the data. Plan: linearity of the least-squares solution. Result: proved (for every routine that returns least-squares solutions). Theorems: `C78_equivariant`, `C78_fixed`, `C78_no_data`, `C78_sizes`.
* **C79** permuting components keeps the tensor. Plan: reindexing of a finite sum by a permutation. Result: proved. Theorems: `C79_permute`.
* **C80** a PARAFAC2 fit completes. Plan: total correctness over the heap model; C53 for the bound. Result: proved (assumes SVDOk, NNLSOk, QROk; the SSE bound of C80_fit_improves_partial has the terms dropped by the projection update (see C52, C53); C144 bounds them by the data). Theorems: `C80_fit_completes`, `C80_fit_improves_partial`, `C80_random_fit`, `p2_startsFrom_random`, `p2_startsFrom_precomputed`.
* **C81** the PARAFAC2 loss. Plan: the loss read off the heap equals the specification on arrays. Result: proved. Theorems: `P2State.C81_loss`.
* **C82** a CMTF fit is not worse than its start. Plan: C57 along the whole fit; witness where normalisation changes the start. Result: partial (assumes SVDOk, NNLSOk, QROk; false of the code: the start is normalised into weights that the updates ignore; C82_partial: the objective of the updates does not increase, and the SSE does not when the start has unit norm products). Theorems: `C82_partial`, `C82_fit_gets_worse`.
* **C83** a CMTF fit completes. Plan: total correctness of the CMTF fit. Result: proved (assumes SVDOk, NNLSOk, QROk; no non-negativity flags (see C59)). Theorems: `C83_fit_completes`.
* **C84** core consistency of a PARAFAC2 model. Plan: projection of the slices, then C63; Pythagoras. Result: proved (any slice sizes; C84_missing_matrices shows that with fewer projection matrices than rows of C the result is that of uninitialised memory (outside the statement)). Theorems: `C84_projected`, `C84_value`, `C84_exact`, `C63_guard`, `C84_missing_matrices`.
* **C85** factor match score of PARAFAC2 tensors. Plan: reshape of the stacked slices against the list of slices. Result: partial (holds for slices of one size; slices of different sizes raise ValueError, although the overridden method of EvolvingTensor handles them (C85_evolving)). Theorems: `C85_value_partial`, `C85_representation`, `C85_rank_raises`, `C85_evolving`, `C85_irregular_raises`, `C85_irregular_other_raises`, `C85_fails`.
* **C86** experiments are recorded faithfully. Plan: finite maps; one group per experiment name. Result: partial (first runs and continued runs are recorded; a parameter called init never is; a second run raises after the parameters were replaced, so the file mixes two runs; metadata names can be used once per file only). Theorems: `C86_run_partial`, `C86_continue`, `C86_open`, `C86_metadata`, `C86_init_never_stored`, `C86_rerun_mixes`, `C86_continue_interrupted`, `C86_metadata_once`, `C86_example`.
* **C87** access to the factor matrices of a decomposition. Plan: Python indexing of lists, the unpacking protocol, argument binding. Result: partial (all of it for Kruskal tensors; unpacking for all classes; evolving tensors refuse negative numbers, from_factor_matrices forgets the flag warning, and both class methods of Parafac2Tensor that take factor matrices raise TypeError). Theorems: `C87_kruskal_index`, `C87_kruskal_unpack`, `C87_kruskal_rebuild`, `C87_evolving_unpack`, `C87_parafac2_unpack`, `C87_evolving_rebuild_partial`, `C87_negative_fails`, `C87_parafac2_rebuild_fails`.
* **C88** attributes of decompositions describe the tensor. Plan: direct from C22 and the closed form of the constructed tensor; PARAFAC2 tensors by the evolving tensor with the same factor matrices; counting; witness. Result: partial (shape, slice_shapes and all_same_size are right; num_elements counts columns instead of entries; D has one matrix per component, made of the columns of C). Theorems: `C88_shape`, `C88_kruskal_shape`, `C88_parafac2`, `C88_slice_shapes`, `C88_num_elements_partial`, `C88_num_elements_wrong`, `C88_D_value`, `C88_D_partial`, `C88_D_fails`.
* **C89** a fit leaves the decompositions of the caller alone. Plan: model with references (objects and arrays in a heap); simulation between the fit on values and the fit in memory, whose relation says which arrays may have changed. Result: partial (true for every initialisation scheme except precomputed, and for all decompositions that share no array with the initial one; the initial decomposition itself is overwritten (C89_overwritten), a second fit from it gives another result (C89_fails)). Theorems: `C89_partial`, `C90_fit_partial`, `C89_overwritten`, `C89_fails`.
* **C90** decompositions that use one array for several modes. Plan: same simulation, for objects that use every array once; witnesses with a shared 1x1 array. Result: partial (true of decompositions that use every array once; with a shared array normalize_components changes the tensor and a fit of CP_ALS ends with a wrong (negative) SSE). Theorems: `C90_fit_partial`, `C90_normalize_partial`, `C90_normalize_fails`, `C90_fit_fails`.
* **C91** a fit stops by itself. Plan: geometric decrease of the SSE as long as the test does not stop the fit (uses C34), for all budgets; the same for `Parafac2_ALS` (C53) and `CMTF_ALS` (C57); for zero data, induction that every test sees nan, infinity or 1. `C91_parafac2_start_partial`: a step ends at most at the error of the zero model (P2Step.le_zero), so the bound for Parafac2_ALS does not depend on the error of the start; the lower bound is that of principal components (C155). Result: partial (true of CP_ALS without constraints and penalties for every tensor that is not zero, with an explicit bound; of CMTF_ALS from starts with norm product one; of Parafac2_ALS as long as no singular value is treated as zero and no model of the rank fits exactly. False for the zero tensor (the ratios are 0/0 and the fit uses its whole budget) and for Parafac2_ALS on slices of zeros. Not covered: constrained problems with more than one component (one component: C159)). Theorems: `C91_bound_partial`, `C91_stops_partial`, `C91_parafac2_bound_partial`, `C91_parafac2_stops_partial`, `C91_parafac2_start_partial`, `C91_parafac2_pca`, `C91_cmtf_bound_partial`, `C91_cmtf_stops_partial`, `C91_zero_fails`, `C91_parafac2_exact`, `C91_parafac2_fails`.
* **C92** the documented stopping rule. Plan: the state before and after the last iteration of a completed fit (C74) and the values that the test saw; witness diag(2,1). Result: partial (the code divides by the previous error: the ratio with the documented denominator is below tol/(1-tol); diag(2,1) with tol=0.5 stops although the documented change is 0.875). Theorems: `C92_partial`, `C92_fails`.
* **C93** The error reported after loading a checkpoint. Plan: loadCheckpoint composed with the cached SSE; exact value by the inner product of the data with mixed factor matrices; witness diag(4,1). Result: partial (False of the code: the inner product with the data is taken from the cache of the last update, i.e. with the old factor matrices in the other modes (C93_reported_partial gives the exact value); a fit of diag(4,1) reports -5 for a loaded decomposition with error 13. Holds if nothing was updated before or the other modes agree.). Theorems: `C93_sse_partial`, `C93_reported_partial`, `C93_fails`.
* **C94** Continuing from a loaded checkpoint. Plan: an iteration does not read what is remembered of the last one, except for the relative change; witness diag(4,1). Result: partial (False of the code: in the run of C93_fails continue_fit stops at once because the reported SSE is negative. Holds if the tolerances are not positive, the reported SSE is not negative and no mode is orthonormal.). Theorems: `C94_continue_partial`, `C94_fails`.
* **C95** The unit of the data. Plan: simulation of two runs: factor matrices related by scalars per mode, errors by the square; normal equations and minimum norm determine the update. Result: partial (Proved if the start is scaled as well. With the same start for both tensors it holds for tolerances that are not positive, and fails otherwise: the relative change of the first iteration depends on the unit.). Theorems: `C95_scale_partial`, `C95_same_start_partial`, `C95_fails`.
* **C96** Order and signs of the components. Plan: the same simulation with a permutation of components and signs. Result: proved (Without constraints and penalties; any order of the tensor.). Theorems: `C96_components`.
* **C97** Order of the rows. Plan: the same simulation with permutations of the rows of every mode. Result: proved (Without constraints and penalties; any order of the tensor.). Theorems: `C97_rows`.
* **C98** Independence of the numerical library. Plan: the same simulation with the identity and two libraries: the update is the unique solution of minimum norm. Result: proved (Without constraints and penalties.). Theorems: `C98_library`.
* **C99** The initial factor matrix of the first mode. Plan: the first iterate is the same; the runs agree from then on if the tolerances do not stop them. Result: partial (False of the code for positive tolerances: the matrix enters the initial SSE and the relative change of the first iteration. Proved for tolerances that are not positive.). Theorems: `C99_first_mode_partial`, `C99_fails`.

## 4. Where the code disagrees with the property

Each line is a theorem with a concrete witness (or a statement for every input of the kind described).

| property | theorem | what happens |
|---|---|---|
| C13 | `C13_one_dimensional_fails` | `non_negative_rightsolve` with a one-dimensional `B` raises |
| C14 | `C14_zero_fails` | a rank deficient target gives a matrix that is not orthonormal: directions below the cut-off are dropped |
| C21 | `C21_evolving_load_fails` | `EvolvingTensor.from_file` always raises `TypeError` (keyword `all_same_size`) |
| C23 | `C23_fails` | `from_kruskaltensor` drops the weights |
| C31 | `C31_kruskal_fails` | `KruskalTensor.seperate_mode_factor_match_score` looks up a misspelt name and always raises |
| C33 | `C33_fails` | a zero score gives sign 0 |
| C36 | `C36_refit_fails`, `C36_refit_type_error` | a second `fit` of one `CP_ALS` object uses the SSE cache of the first |
| C37-C39 | `C37_ridge_increases`, `C38_nonneg_increases`, `C39_orthonormal_increases` | constrained updates apply the solver to the normal equations; the loss can grow |
| C42 | `C42_raises` | `continue_fit` with an exhausted budget raises `UnboundLocalError` (CP, CMTF) |
| C43 | `C43_early_stop_lost`, `C43_current_iteration_lost` | the last iteration is not stored if the fit stops early; PARAFAC2 tests another iteration number |
| C44 | `C44_nothing_stored` | without a frequency nothing is stored although a path is given |
| C45 | `C45_collision_corrupts`, `C45_cmtf_no_list` | a failing call leaves `checkpoint_its` with an entry too many; CMTF never writes the list |
| C46 | `C46_fails`, `C46_converged_fails` | continuing a fit stores the same name twice and raises |
| C47 | `C47_fails`, `C47_same_file_fails` | a resumed run performs one more iteration, and cannot write into the same file |
| C49 | `C49_order_fails` | names of 6 digits sort before names of 5 digits |
| C51 | `C51_crash_fails` | a crash inside `save_logs` leaves data sets of different lengths |
| C52, C53 | `C52_not_orthonormal`, `C52_sse_increases`, `C53_sse_increases` | the truncated projection update loses orthonormality and can raise the SSE |
| C54 | `C54_cp_fails` | `init='cp'` gives all slices one projection array; all end up with the last projection |
| C55 | `C55_orthonormal_fails` | with an orthonormality constraint the inner factor is another array, and its updates are lost |
| C56 | `C56_parafac2_fails`, `C56_parafac2_precomputed_raises` | `Parafac2_ALS.fit_transform` ignores `max_its` and `initial_decomposition` |
| C57, C58 | `C57_shared_mode_fails`, `C57_negative_mode_fails`, `C58_fails`, `C58_data_ignored` | only the first matrix of a mode is fitted; negative modes are not recognised |
| C59 | `C59_fails`, `C59_fit_raises` | non-negativity in CMTF raises `AttributeError` |
| C61 | `C61_parafac2_no_warning` | no warning for an ignored initial decomposition in PARAFAC2 |
| C62 | `C62_fewer_accepted`, `C62_parafac2_fewer_accepted` | too few factor (projection) matrices are accepted |
| C67 | `C67_parafac2_fails`, `C67_cmtf_fails` | `MSE` divides by the wrong number |
| C69 | `C69_fails` | `create_data` raises `AttributeError` (`base.ktensor`) |
| C70 | `C70_fails`, `C70_normal_fails` | sign fixing of evolving tensors raises `TypeError` |
| C71 | `C71_fails`, `C71_truth_ignored`, `C71_default_raises` | the PARAFAC2 factor match score ignores mode B and compares the estimate with itself |
| C72 | `C72_svd_raises` | `Parafac2_ALS(init='svd')` always raises |
| C75 | `C75_fails` | two loggers of one class write into one group |
| C76, C77 | `C76_fails`, `C77_fails` | the weights of a Kruskal tensor are ignored |
| C82 | `C82_fit_gets_worse` | a CMTF fit can end worse than its start, because the start is normalised into weights the updates ignore |
| C85 | `C85_fails` | slices of different sizes raise |
| C86 | `C86_rerun_mixes`, `C86_init_never_stored`, `C86_metadata_once` | a second run mixes parameters and results of two runs; `init` is never stored |
| C87 | `C87_negative_fails`, `C87_parafac2_rebuild_fails` | evolving tensors refuse negative numbers; PARAFAC2 tensors cannot be rebuilt from their parts |
| C88 | `C88_num_elements_wrong`, `C88_D_fails` | `num_elements` counts columns; `D` is made of the columns of C |
| C89 | `C89_fails` | a fit from a supplied decomposition overwrites it; the second fit from it gives another result |
| C90 | `C90_normalize_fails`, `C90_fit_fails` | an array used for two modes is updated twice; SSE of -15 |
| C91 | `C91_zero_fails`, `C91_parafac2_exact`, `C91_parafac2_fails` | zero data: 0/0 in both tests, the fit runs until `max_its`; `Parafac2_ALS` does not test the loss itself, so an exact fit never stops it |
| C92 | `C92_fails` | the code divides the change by the error before the iteration, the documentation by the error after it |
| C93 | `C93_fails` | `load_checkpoint` keeps the cached product of the last update: SSE `-5` for a decomposition with error 13 |
| C94 | `C94_fails` | because of that SSE `continue_fit` stops before its first iteration, with both tolerances zero |
| C95 | `C95_fails` | the relative change of the first iteration compares with the error of the start, which does not scale with the data |
| C99 | `C99_fails` | the initial matrix of the first mode enters the error of the start, and with it the test after the first iteration |
| C100 | `C100_fails` | the constrained update of the last mode minimises the residual of the normal equations: one iteration on a 2 x 3 matrix ends with explained variance `-1/19` |
| C101 | `C101_fails` | an exact start with weights `1 + e`: `_init_fit` sets the weights to 1, and if that model is within `rel_loss_tol` the fit stops there, with SSE `e^2` |
| C104 | `C104_zero_fails`, `C104_default_fails` | `Parafac2_ALS(print_frequency=0)` raises `ZeroDivisionError` after the first iteration (parafac2.py:399); the default of `Parafac2_ALS` is 10, not `None` as documented |
| C106 | `C106_noPath_fails`, `C106_cp_fails` | `checkpoint_path=None` with a positive frequency: `h5py.File(None)` raises `TypeError` when the first checkpoint is due (documented: nothing is stored) |
| C107 | `C107_cmtf_fails` | X = (2), Y = (2), rank 1: `fit(1)` has SSE < 1/100, `continue_fit(2)` raises it above 3, `fit(2)` keeps it below 1/100 |
| C107 | `C107_parafac2_orthonormal_fails` | `Parafac2_ALS`, slices (3) and (4), rank 1, orthonormal C: A = ±5 after `fit(2)`, ±7/√2 after `fit(1)`, `continue_fit(2)` |
| C108 | `C108_gets_worse` | `init="cp"`, slices (1) and (0), rank 1: error below 1e-20 at the start, 1 after every number of iterations ≥ 1 |
| C108 | `C108_always_cp` | all data: the result of a fit with `init="cp"` is a CP model |
| C111 | `C111_cp_fails` | `diag(4, 1)` is fitted, then `fit` with a zero matrix and a start of the wrong size raises: the object has the new data, `current_iteration` 0 and reports SSE -205/13 |
| C111 | `C111_cmtf_fails` | a coupling mode without a matrix: `IndexError`, the decomposition has been replaced by the start |
| C120 | `C120_extra_modes`, `C120_fails` | without the weight penalty additional modes are ignored; a matrix and a tensor of order three get a score of one |
| C121 | `C121_fails`, `C121_estimate_fails` | `true_factors[0].shape[1]` of a vector is an `IndexError`, the conversion to columns comes later |
| C123 | `C123_fails` | a second matrix for the same mode may have a single row: `Y - U Vᵀ` is broadcast, and the updates never look at it |
| C124 | `C124_fails` | `CMTF_ALS` replaces constraints that are `None` by `[False] * n` in the object, so that it cannot be fitted to tensors with another number of modes |
| C125 | `C125_fails` | `Parafac2_ALS.fit` with `init='precomputed'` works on the arrays that were passed, so that they are overwritten with the fitted model |
| C126 | `C126_fails` | `CMTF_ALS._init_fit` normalises the start and puts the column lengths into the weights, which the updates ignore but the reconstruction uses: without coupled matrices an exact start of a `1 × 1` tensor with value 4 becomes 16 |
| C127 | `C127_array_fails` | `from_kruskaltensor` without `allow_same_class` accepts an evolving tensor whose `B` is an array of shape `(K, J, R)` and returns a tensor with one slice of width `K` |
| C128 | `C128_fails` | of two matrices coupled to the same mode only the first one in the list is fitted, so exchanging them changes the result of the fit |
| C129 | `C129_scale_fails` | `normalize_factors` divides by the length plus 1e-15, so a component with columns of length 1e-15, 1e15 and 1 gets another core consistency than the same component with columns of length 1 |
| C130 | `C130_fails` | `_update_als_factors` updates mode 0 first, so the model fitted to the transposed data is not the transposed model: one iteration on diag(2, 1) from equal factor matrices gives a tensor that is not symmetric |
| C131 | `C131_parafac2_fails` | with an orthonormality constraint of the first mode, `Parafac2_ALS` never updates its own `A`, so equal samples keep the different rows of the start |
| C133 | `C133_cmtf_untyped`, `C133_cmtf_fails` | `CMTF_ALS.store_checkpoint` does not write `decomposition_type`, so a reader cannot tell from the file which decomposer wrote it |
| C134 | `C134_negative`, `C134_explained_above_one`, `C134_rmse_nan` | `BaseCP.SSE` subtracts twice the inner product from the sum of two squared norms: for the exact rank-one decomposition of `ones((3, 1, 1))` double precision gives the error -2^-50, whatever the order of summation, and an explained variance of 1 + 2^-52 (so that `RMSE` is nan) |
| C26, C136 | `C136_above_one` | in double precision the factor match score of a decomposition with itself can be 1 + 2^-52: three modes, one component, all entries 16 (the guard 1e-15 is absorbed by norms of 16 and more) |
| C138 | `C138_not_rejected` | a first factor matrix with two rows is accepted for the middle mode of a 1 x 1 x 1 tensor (the second row is ignored); factor matrices for a 1 x 3 x 2 tensor are accepted for a 1 x 2 x 3 tensor |
| C145 | `C145_coupled_depends` | `_init_coupled_matrices` draws the uncoupled factor matrices also when the start is given: from the same exact start of a 1 x 1 problem the model becomes zero or reproduces the tensor, depending on the sign of the drawn number |
| C149 | `C149_fails` | the sign of a slice is not determined by the data: changing it in a row of C and in the projection matrix gives the same slices and components, but `factor_match_score` compares the columns of C and of the stacked P_k D with their signs, and can drop from one to zero |
| C150 | `C150_fails` | the start is normalised into weights which the updates ignore: for the 1 x 1 tensor [2] with the coupled matrix [2] the updates find factors that reproduce both, but the tensor is multiplied by the lengths 2 and 2 of the columns of the start, and the SSE is above 30 |
| C151 | `C151_fails` | `non_negative_rightsolve` solves the normal equations in the sense of non-negative least squares; for [[1, 0], [1, 1], [-2, 3]] with two components and a non-negative first mode the fit stays at its start with error 13 for ever, while changing one entry from 0 to 1/2 gives 12.5 |
| C152 | `C152_fails` | `add_rightsolve_ridge` penalises the residual of the normal equations; for the data [[5]] with penalties 4 and 4 the fit stays at 2 · 2 with the reported loss 33 for ever, while the model zero has the loss 25 |
| C161 | `C161_fails` | `CMTF_ALS` inherits `explained_variance`, which divides the error of tensor and coupled matrices by the squared norm of the tensor alone: for a tensor of ones (fitted exactly by one component) with ten times the identity coupled to it, it is at most -24 for every start and budget |
| C162 | `C162_fails` | with the size penalty, comparing two zero components gives `nan`, so the score of a decomposition with itself jumps to -1 when its only component tends to zero |

Observations that are not violations of a property as stated: `C07_three_way_negative` (modes -2 and -3 of a
third-order tensor give `None`), `C29_zero_component` (`nan`), `C84_missing_matrices` (uninitialised memory).

## 5. Testing the theorems against wrong programs

`tools/mutate.py` copies the project, applies one edit to a definition of the model, rebuilds and records in
`seeded/LOG.jsonl` which theorems stop to compile. An edit that leaves everything compiling is a survivor:
either the claim is not touched by it (said in the entry), or a theorem was added or tightened (`tightened`).
`failed` has the theorems with an error of their own; `properties_lost` additionally has the theorems in
modules that could not be built because they come after the first error (a text-based over-approximation).
