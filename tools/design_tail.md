
## 4. Where the code disagrees with the property

Each line is a theorem with a concrete witness (or a statement for every input of the kind described).

| property | theorem | what happens |
|---|---|---|
| C13 | `C13_one_dimensional_fails` | `non_negative_rightsolve` with a one-dimensional `B` raises |
| C14 | `C14_zero_fails` | a rank deficient target gives a matrix that is not orthonormal: directions below the cut-off are dropped |
| C21 | `C21_evolving_load_fails` | `EvolvingTensor.from_file` always raises `TypeError` (keyword `all_same_size`) |
| C23 | `C23_fails` | `from_kruskaltensor` drops the weights |
| C31 | `C31_kruskal_fails` | `KruskalTensor.seperate_mode_factor_match_score` looks up a misspelt name and always raises |
| C33 | `C33_fails` | a zero score gives sign 0 |
| C36 | `C36_refit_fails`, `C36_refit_type_error` | a second `fit` of one `CP_ALS` object uses the SSE cache of the first |
| C37-C39 | `C37_ridge_increases`, `C38_nonneg_increases`, `C39_orthonormal_increases` | constrained updates apply the solver to the normal equations; the loss can grow |
| C42 | `C42_raises` | `continue_fit` with an exhausted budget raises `UnboundLocalError` (CP, CMTF) |
| C43 | `C43_early_stop_lost`, `C43_current_iteration_lost` | the last iteration is not stored if the fit stops early; PARAFAC2 tests another iteration number |
| C44 | `C44_nothing_stored` | without a frequency nothing is stored although a path is given |
| C45 | `C45_collision_corrupts`, `C45_cmtf_no_list` | a failing call leaves `checkpoint_its` with an entry too many; CMTF never writes the list |
| C46 | `C46_fails`, `C46_converged_fails` | continuing a fit stores the same name twice and raises |
| C47 | `C47_fails`, `C47_same_file_fails` | a resumed run performs one more iteration, and cannot write into the same file |
| C49 | `C49_order_fails` | names of 6 digits sort before names of 5 digits |
| C51 | `C51_crash_fails` | a crash inside `save_logs` leaves data sets of different lengths |
| C52, C53 | `C52_not_orthonormal`, `C52_sse_increases`, `C53_sse_increases` | the truncated projection update loses orthonormality and can raise the SSE |
| C54 | `C54_cp_fails` | `init='cp'` gives all slices one projection array; all end up with the last projection |
| C55 | `C55_orthonormal_fails` | with an orthonormality constraint the inner factor is another array, and its updates are lost |
| C56 | `C56_parafac2_fails`, `C56_parafac2_precomputed_raises` | `Parafac2_ALS.fit_transform` ignores `max_its` and `initial_decomposition` |
| C57, C58 | `C57_shared_mode_fails`, `C57_negative_mode_fails`, `C58_fails`, `C58_data_ignored` | only the first matrix of a mode is fitted; negative modes are not recognised |
| C59 | `C59_fails`, `C59_fit_raises` | non-negativity in CMTF raises `AttributeError` |
| C61 | `C61_parafac2_no_warning` | no warning for an ignored initial decomposition in PARAFAC2 |
| C62 | `C62_fewer_accepted`, `C62_parafac2_fewer_accepted` | too few factor (projection) matrices are accepted |
| C67 | `C67_parafac2_fails`, `C67_cmtf_fails` | `MSE` divides by the wrong number |
| C69 | `C69_fails` | `create_data` raises `AttributeError` (`base.ktensor`) |
| C70 | `C70_fails`, `C70_normal_fails` | sign fixing of evolving tensors raises `TypeError` |
| C71 | `C71_fails`, `C71_truth_ignored`, `C71_default_raises` | the PARAFAC2 factor match score ignores mode B and compares the estimate with itself |
| C72 | `C72_svd_raises` | `Parafac2_ALS(init='svd')` always raises |
| C75 | `C75_fails` | two loggers of one class write into one group |
| C76, C77 | `C76_fails`, `C77_fails` | the weights of a Kruskal tensor are ignored |
| C82 | `C82_fit_gets_worse` | a CMTF fit can end worse than its start, because the start is normalised into weights the updates ignore |
| C85 | `C85_fails` | slices of different sizes raise |
| C86 | `C86_rerun_mixes`, `C86_init_never_stored`, `C86_metadata_once` | a second run mixes parameters and results of two runs; `init` is never stored |
| C87 | `C87_negative_fails`, `C87_parafac2_rebuild_fails` | evolving tensors refuse negative numbers; PARAFAC2 tensors cannot be rebuilt from their parts |
| C88 | `C88_num_elements_wrong`, `C88_D_fails` | `num_elements` counts columns; `D` is made of the columns of C |
| C89 | `C89_fails` | a fit from a supplied decomposition overwrites it; the second fit from it gives another result |
| C90 | `C90_normalize_fails`, `C90_fit_fails` | an array used for two modes is updated twice; SSE of -15 |
| C91 | `C91_zero_fails`, `C91_parafac2_exact`, `C91_parafac2_fails` | zero data: 0/0 in both tests, the fit runs until `max_its`; `Parafac2_ALS` does not test the loss itself, so an exact fit never stops it |
| C92 | `C92_fails` | the code divides the change by the error before the iteration, the documentation by the error after it |
| C93 | `C93_fails` | `load_checkpoint` keeps the cached product of the last update: SSE `-5` for a decomposition with error 13 |
| C94 | `C94_fails` | because of that SSE `continue_fit` stops before its first iteration, with both tolerances zero |
| C95 | `C95_fails` | the relative change of the first iteration compares with the error of the start, which does not scale with the data |
| C99 | `C99_fails` | the initial matrix of the first mode enters the error of the start, and with it the test after the first iteration |
| C100 | `C100_fails` | the constrained update of the last mode minimises the residual of the normal equations: one iteration on a 2 x 3 matrix ends with explained variance `-1/19` |
| C101 | `C101_fails` | an exact start with weights `1 + e`: `_init_fit` sets the weights to 1, and if that model is within `rel_loss_tol` the fit stops there, with SSE `e^2` |
| C104 | `C104_zero_fails`, `C104_default_fails` | `Parafac2_ALS(print_frequency=0)` raises `ZeroDivisionError` after the first iteration (parafac2.py:399); the default of `Parafac2_ALS` is 10, not `None` as documented |
| C106 | `C106_noPath_fails`, `C106_cp_fails` | `checkpoint_path=None` with a positive frequency: `h5py.File(None)` raises `TypeError` when the first checkpoint is due (documented: nothing is stored) |
| C107 | `C107_cmtf_fails` | X = (2), Y = (2), rank 1: `fit(1)` has SSE < 1/100, `continue_fit(2)` raises it above 3, `fit(2)` keeps it below 1/100 |
| C107 | `C107_parafac2_orthonormal_fails` | `Parafac2_ALS`, slices (3) and (4), rank 1, orthonormal C: A = ±5 after `fit(2)`, ±7/√2 after `fit(1)`, `continue_fit(2)` |
| C108 | `C108_gets_worse` | `init="cp"`, slices (1) and (0), rank 1: error below 1e-20 at the start, 1 after every number of iterations ≥ 1 |
| C108 | `C108_always_cp` | all data: the result of a fit with `init="cp"` is a CP model |
| C111 | `C111_cp_fails` | `diag(4, 1)` is fitted, then `fit` with a zero matrix and a start of the wrong size raises: the object has the new data, `current_iteration` 0 and reports SSE -205/13 |
| C111 | `C111_cmtf_fails` | a coupling mode without a matrix: `IndexError`, the decomposition has been replaced by the start |
| C120 | `C120_extra_modes`, `C120_fails` | without the weight penalty additional modes are ignored; a matrix and a tensor of order three get a score of one |
| C121 | `C121_fails`, `C121_estimate_fails` | `true_factors[0].shape[1]` of a vector is an `IndexError`, the conversion to columns comes later |
| C123 | `C123_fails` | a second matrix for the same mode may have a single row: `Y - U Vᵀ` is broadcast, and the updates never look at it |
| C124 | `C124_fails` | `CMTF_ALS` replaces constraints that are `None` by `[False] * n` in the object, so that it cannot be fitted to tensors with another number of modes |
| C125 | `C125_fails` | `Parafac2_ALS.fit` with `init='precomputed'` works on the arrays that were passed, so that they are overwritten with the fitted model |
| C126 | `C126_fails` | `CMTF_ALS._init_fit` normalises the start and puts the column lengths into the weights, which the updates ignore but the reconstruction uses: without coupled matrices an exact start of a `1 × 1` tensor with value 4 becomes 16 |
| C127 | `C127_array_fails` | `from_kruskaltensor` without `allow_same_class` accepts an evolving tensor whose `B` is an array of shape `(K, J, R)` and returns a tensor with one slice of width `K` |
| C128 | `C128_fails` | of two matrices coupled to the same mode only the first one in the list is fitted, so exchanging them changes the result of the fit |
| C129 | `C129_scale_fails` | `normalize_factors` divides by the length plus 1e-15, so a component with columns of length 1e-15, 1e15 and 1 gets another core consistency than the same component with columns of length 1 |
| C130 | `C130_fails` | `_update_als_factors` updates mode 0 first, so the model fitted to the transposed data is not the transposed model: one iteration on diag(2, 1) from equal factor matrices gives a tensor that is not symmetric |
| C131 | `C131_parafac2_fails` | with an orthonormality constraint of the first mode, `Parafac2_ALS` never updates its own `A`, so equal samples keep the different rows of the start |
| C133 | `C133_cmtf_untyped`, `C133_cmtf_fails` | `CMTF_ALS.store_checkpoint` does not write `decomposition_type`, so a reader cannot tell from the file which decomposer wrote it |
| C134 | `C134_negative`, `C134_explained_above_one`, `C134_rmse_nan` | `BaseCP.SSE` subtracts twice the inner product from the sum of two squared norms: for the exact rank-one decomposition of `ones((3, 1, 1))` double precision gives the error -2^-50, whatever the order of summation, and an explained variance of 1 + 2^-52 (so that `RMSE` is nan) |
| C26, C136 | `C136_above_one` | in double precision the factor match score of a decomposition with itself can be 1 + 2^-52: three modes, one component, all entries 16 (the guard 1e-15 is absorbed by norms of 16 and more) |
| C138 | `C138_not_rejected` | a first factor matrix with two rows is accepted for the middle mode of a 1 x 1 x 1 tensor (the second row is ignored); factor matrices for a 1 x 3 x 2 tensor are accepted for a 1 x 2 x 3 tensor |
| C145 | `C145_coupled_depends` | `_init_coupled_matrices` draws the uncoupled factor matrices also when the start is given: from the same exact start of a 1 x 1 problem the model becomes zero or reproduces the tensor, depending on the sign of the drawn number |
| C149 | `C149_fails` | the sign of a slice is not determined by the data: changing it in a row of C and in the projection matrix gives the same slices and components, but `factor_match_score` compares the columns of C and of the stacked P_k D with their signs, and can drop from one to zero |
| C150 | `C150_fails` | the start is normalised into weights which the updates ignore: for the 1 x 1 tensor [2] with the coupled matrix [2] the updates find factors that reproduce both, but the tensor is multiplied by the lengths 2 and 2 of the columns of the start, and the SSE is above 30 |
| C151 | `C151_fails` | `non_negative_rightsolve` solves the normal equations in the sense of non-negative least squares; for [[1, 0], [1, 1], [-2, 3]] with two components and a non-negative first mode the fit stays at its start with error 13 for ever, while changing one entry from 0 to 1/2 gives 12.5 |
| C152 | `C152_fails` | `add_rightsolve_ridge` penalises the residual of the normal equations; for the data [[5]] with penalties 4 and 4 the fit stays at 2 · 2 with the reported loss 33 for ever, while the model zero has the loss 25 |
| C161 | `C161_fails` | `CMTF_ALS` inherits `explained_variance`, which divides the error of tensor and coupled matrices by the squared norm of the tensor alone: for a tensor of ones (fitted exactly by one component) with ten times the identity coupled to it, it is at most -24 for every start and budget |
| C162 | `C162_fails` | with the size penalty, comparing two zero components gives `nan`, so the score of a decomposition with itself jumps to -1 when its only component tends to zero |

Observations that are not violations of a property as stated: `C07_three_way_negative` (modes -2 and -3 of a
third-order tensor give `None`), `C29_zero_component` (`nan`), `C84_missing_matrices` (uninitialised memory).

## 5. Testing the theorems against wrong programs

`tools/mutate.py` copies the project, applies one edit to a definition of the model, rebuilds and records in
`seeded/LOG.jsonl` which theorems stop to compile. An edit that leaves everything compiling is a survivor:
either the claim is not touched by it (said in the entry), or a theorem was added or tightened (`tightened`).
`failed` has the theorems with an error of their own; `properties_lost` additionally has the theorems in
modules that could not be built because they come after the first error (a text-based over-approximation).
