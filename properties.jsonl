{"id": "C01", "title": "unfold places every entry", "statement": "unfold(A, n) is a matrix with A.shape[n] rows whose entry (i_n, j) is A[i_0,...,i_{d-1}], where j is the C-order (row-major) position of the remaining indices in the remaining shape; it never loses, duplicates or reorders entries. Negative modes count from the end; a mode outside [-d, d) or an empty mode is rejected with an exception.", "quantifier": "every array, every number of modes and sizes, every mode (also negative and out of range)", "why_tests_cant": "infinitely many shapes and numbers of modes; the existing tests only exercise order 3", "anchors": ["src/tenkit/base.py:unfold"]}
{"id": "C02", "title": "fold inverts unfold", "statement": "fold(unfold(A, n), n, A.shape) returns an array equal to A.", "quantifier": "every array, order, shape and valid (also negative) mode", "why_tests_cant": "all orders and shapes", "anchors": ["src/tenkit/base.py:fold", "src/tenkit/base.py:unfold"]}
{"id": "C03", "title": "unfold inverts fold", "statement": "For a matrix M whose size is compatible with shape along mode n, unfold(fold(M, n, shape), n) equals M; if the sizes do not match, fold raises ValueError.", "quantifier": "every matrix, shape and valid mode", "why_tests_cant": "all shapes", "anchors": ["src/tenkit/base.py:fold", "src/tenkit/base.py:unfold"]}
{"id": "C04", "title": "khatri_rao is the column-wise Kronecker product", "statement": "khatri_rao(F_1,...,F_k) has prod(rows) rows, and its entry at row (C-order position of (i_1,...,i_k)) and column r is the product of F_m[i_m, r]. The result does not depend on what np.empty returned. skip=m gives the product without the m-th factor, also for negative m.", "quantifier": "every list of at least one matrix with equal column counts, every skip", "why_tests_cant": "arbitrary number of factors and sizes, arbitrary uninitialised memory", "anchors": ["src/tenkit/base.py:khatri_rao", "src/tenkit/base.py:khatri_rao_binary"]}
{"id": "C05", "title": "kron is the Kronecker product", "statement": "kron(F_1,...,F_k) has entry prod F_m[i_m, j_m] at (C-order position of i, C-order position of j).", "quantifier": "every list of at least one matrix", "why_tests_cant": "arbitrary number and sizes of factors", "anchors": ["src/tenkit/base.py:kron", "src/tenkit/base.py:kron_binary"]}
{"id": "C06", "title": "Gram matrix of a Khatri-Rao product", "statement": "The matrix that CP_ALS uses on the left-hand side of its least-squares problem (the entrywise product of the Gram matrices of all factors but one) equals K^T K for K = khatri_rao(factors, skip=mode).", "quantifier": "every list of factor matrices with equal rank, every mode", "why_tests_cant": "all sizes, ranks and numbers of modes", "anchors": ["src/tenkit/decomposition/cp.py:CP_ALS._get_als_lhs", "src/tenkit/base.py:khatri_rao"]}
{"id": "C07", "title": "matrix_khatri_rao_product is the MTTKRP", "statement": "matrix_khatri_rao_product(X, factors, mode) returns the matrix whose entry (i, r) is the sum over all indices with i_mode = i of X[index] times the product over the other modes of factors[m][i_m, r]; in particular the three-mode fast paths agree with the general path.", "quantifier": "every tensor, every number of modes >= 2, every mode documented as valid", "why_tests_cant": "all sizes; fast path versus general path for every size", "anchors": ["src/tenkit/base.py:matrix_khatri_rao_product", "src/tenkit/base.py:_mttkrp3", "src/tenkit/base.py:_mttkrp_mid", "src/tenkit/base.py:_mttkrp_mid_with_krp"]}
{"id": "C08", "title": "KruskalTensor.construct_tensor is the weighted sum of rank-one terms", "statement": "construct_tensor() has shape (rows of each factor) and entry [i_0,...,i_{d-1}] = sum_r w_r * prod_m U_m[i_m, r].", "quantifier": "every Kruskal tensor with at least two modes", "why_tests_cant": "all orders, sizes and ranks", "anchors": ["src/tenkit/decomposition/decompositions.py:KruskalTensor.construct_tensor"]}
{"id": "C09", "title": "unfolding of a Kruskal tensor", "statement": "unfold(construct_tensor(), n) = U_n diag(w) khatri_rao(factors, skip=n)^T for every mode n; this is the identity on which ALS rests.", "quantifier": "every Kruskal tensor with at least two modes, every mode", "why_tests_cant": "all orders, sizes, ranks", "anchors": ["src/tenkit/decomposition/decompositions.py:KruskalTensor.construct_tensor", "src/tenkit/base.py:unfold", "src/tenkit/base.py:khatri_rao"]}
{"id": "C10", "title": "flatten_factors / unflatten_factors are inverse", "statement": "unflatten_factors(flatten_factors(F), rank, sizes) equals F, and flatten_factors(unflatten_factors(v, rank, sizes)) equals v when v has the matching length, whatever np.empty returned; the list of no factor matrices raises TypeError.", "quantifier": "every non-empty list of factor matrices of equal rank, every vector of matching length", "why_tests_cant": "all list lengths and sizes", "anchors": ["src/tenkit/base.py:flatten_factors", "src/tenkit/base.py:unflatten_factors"]}
{"id": "C11", "title": "rightsolve returns a least-squares solution", "statement": "X = rightsolve(A, B) minimises ||X A - B||_F over all X, and among the minimisers it has the least Frobenius norm; if some X0 satisfies X0 A = B then X A = B.", "quantifier": "every pair of real matrices with the same number of columns, also rank deficient and zero A", "why_tests_cant": "quantifies over all competitors X and all (also singular) A", "anchors": ["src/tenkit/base.py:rightsolve"]}
{"id": "C12", "title": "ridge rightsolve minimises the ridge objective", "statement": "add_rightsolve_ridge(rightsolve, l)(A, B) minimises ||X A - B||^2 + l ||X||^2 over all X, for l >= 0, and is the only minimiser when l > 0; with non_negative_rightsolve it minimises the same objective over non-negative X.", "quantifier": "every A, B and l >= 0", "why_tests_cant": "quantifies over all competitors", "anchors": ["src/tenkit/base.py:add_rightsolve_ridge", "src/tenkit/base.py:rightsolve", "src/tenkit/base.py:non_negative_rightsolve"]}
{"id": "C13", "title": "non_negative_rightsolve is feasible and optimal", "statement": "non_negative_rightsolve(A, B) has only non-negative entries and minimises ||X A - B||_F over all entrywise non-negative X. (A one-dimensional B, which the code explicitly handles, is treated as a single row.)", "quantifier": "every A, B of matching size", "why_tests_cant": "quantifies over all feasible competitors", "anchors": ["src/tenkit/base.py:non_negative_rightsolve"]}
{"id": "C14", "title": "orthogonal_solve returns an orthonormal minimiser", "statement": "X = orthogonal_solve(A, B) has orthonormal rows (X X^T = I) and minimises ||A X - B||_F among all such X; orthogonal_rightsolve is its transposed counterpart.", "quantifier": "every A (n x r), B (n x m) with r <= m", "why_tests_cant": "quantifies over all orthonormal competitors and includes rank-deficient B^T A", "anchors": ["src/tenkit/base.py:orthogonal_solve", "src/tenkit/base.py:orthogonal_rightsolve"]}
{"id": "C15", "title": "KruskalTensor construction validates its arguments", "statement": "KruskalTensor(F, w) succeeds exactly when all factor matrices have the same number of columns and w is None or has that many entries, and raises ValueError otherwise; omitted weights are all one.", "quantifier": "every non-empty list of matrices, every weight vector", "why_tests_cant": "all shapes", "anchors": ["src/tenkit/decomposition/decompositions.py:KruskalTensor.__init__"]}
{"id": "C16", "title": "normalize_components keeps the tensor", "statement": "normalize_components() leaves every entry of construct_tensor() unchanged up to the documented eps guard: component r is multiplied by exactly prod_m n_mr/(n_mr+eps), where n_mr are the old column norms, so zero columns stay zero and the relative change is at most sum_m eps/(n_mr+eps). Afterwards every column has norm n/(n+eps) <= 1.", "quantifier": "every Kruskal tensor, eps > 0", "why_tests_cant": "all orders and values, including zero columns", "anchors": ["src/tenkit/decomposition/decompositions.py:KruskalTensor.normalize_components"]}
{"id": "C17", "title": "normalize_factor(s) is exact and safe", "statement": "normalize_factor(F) never divides by zero, returns the true column norms, and normalised * (norms + eps) recovers F; each output column has norm n/(n+eps).", "quantifier": "every matrix, every eps > 0", "why_tests_cant": "all values including zero columns", "anchors": ["src/tenkit/utils.py:normalize_factor", "src/tenkit/utils.py:normalize_factors"]}
{"id": "C18", "title": "components add up to the tensor", "statement": "The sum over c of get_single_component_decomposition(c).construct_tensor() equals construct_tensor(), each term has rank 1 and carries the weight of component c.", "quantifier": "every Kruskal tensor with at least two modes", "why_tests_cant": "all orders, sizes, ranks", "anchors": ["src/tenkit/decomposition/decompositions.py:KruskalTensor.get_single_component_decomposition"]}
{"id": "C19", "title": "KruskalTensor survives store / from_file", "statement": "KruskalTensor.from_file(f) after t.store(f) returns a tensor with the same factor matrices in the same order and the same weights; a stored KruskalTensor is rejected by the loader of every other class.", "quantifier": "every Kruskal tensor, any number of modes (also more than 1000, where the 3-digit template overflows)", "why_tests_cant": "any number of factor matrices", "anchors": ["src/tenkit/decomposition/decompositions.py:KruskalTensor.store_in_hdf5_group", "src/tenkit/decomposition/decompositions.py:KruskalTensor.load_from_hdf5_group", "src/tenkit/decomposition/decompositions.py:BaseDecomposedTensor._check_hdf5_group"]}
{"id": "C20", "title": "Parafac2Tensor survives store / from_file", "statement": "Parafac2Tensor.from_file(f) after t.store(f) returns the same A, blueprint, C, projection matrices in order, and warning flag.", "quantifier": "every PARAFAC2 tensor, any number of slices", "why_tests_cant": "any number of slices", "anchors": ["src/tenkit/decomposition/decompositions.py:Parafac2Tensor.store_in_hdf5_group", "src/tenkit/decomposition/decompositions.py:Parafac2Tensor.load_from_hdf5_group"]}
{"id": "C21", "title": "EvolvingTensor survives store / from_file", "statement": "EvolvingTensor.from_file(f) after t.store(f) returns the same A, B_k, C and warning flag.", "quantifier": "every evolving tensor, any number of slices", "why_tests_cant": "any number of slices", "anchors": ["src/tenkit/decomposition/decompositions.py:EvolvingTensor.store_in_hdf5_group", "src/tenkit/decomposition/decompositions.py:EvolvingTensor.load_from_hdf5_group"]}
{"id": "C22", "title": "EvolvingTensor.construct_tensor", "statement": "construct_slices()[k][i, j] = sum_r A[i,r] C[k,r] B_k[j,r]; construct_tensor() has shape (I, max_k J_k, K), holds slice k in [:, :J_k, k] and zero elsewhere; when slice sizes differ and warning is set it raises Warning instead.", "quantifier": "every evolving tensor, regular or irregular", "why_tests_cant": "all irregular slice-size profiles", "anchors": ["src/tenkit/decomposition/decompositions.py:EvolvingTensor.construct_slice", "src/tenkit/decomposition/decompositions.py:EvolvingTensor.construct_slices", "src/tenkit/decomposition/decompositions.py:EvolvingTensor.construct_tensor", "src/tenkit/decomposition/decompositions.py:EvolvingTensor.shape"]}
{"id": "C23", "title": "from_kruskaltensor represents the same tensor", "statement": "EvolvingTensor.from_kruskaltensor(t).construct_tensor() equals t.construct_tensor() for a third-order t; a t of another order raises ValueError.", "quantifier": "every Kruskal tensor", "why_tests_cant": "all weights, not just ones", "anchors": ["src/tenkit/decomposition/decompositions.py:EvolvingTensor.from_kruskaltensor"]}
{"id": "C24", "title": "PARAFAC2 constraint", "statement": "If every projection matrix P_k has orthonormal columns then B_k^T B_k is the same matrix for all k (it equals blueprint_B^T blueprint_B), also for irregular slices.", "quantifier": "every PARAFAC2 tensor with orthonormal P_k, every pair of slices", "why_tests_cant": "all sizes and numbers of slices", "anchors": ["src/tenkit/decomposition/decompositions.py:Parafac2Tensor", "src/tenkit/decomposition/decompositions.py:ProjectedFactor.__getitem__"]}
{"id": "C25", "title": "PARAFAC2 components add up to the slices", "statement": "The slices of the single-component decompositions add up to the slices of the PARAFAC2 tensor (regular slice sizes).", "quantifier": "every regular PARAFAC2 tensor", "why_tests_cant": "all sizes and ranks", "anchors": ["src/tenkit/decomposition/decompositions.py:Parafac2Tensor.get_single_component_decomposition"]}
{"id": "C26", "title": "factor match score is a score in [0, 1] attained by the returned permutation", "statement": "For factor lists without zero columns, factor_match_score returns a value in [0, 1] and a permutation which attains that value, no injective assignment of estimated components scores higher, and 'mean'/'min' are the only accepted reductions (ValueError otherwise).", "quantifier": "every pair of factor lists with rank <= estimated rank", "why_tests_cant": "maximum over rank! assignments and all real factor values", "anchors": ["src/tenkit/metrics.py:factor_match_score", "src/tenkit/metrics.py:_factor_match_score"]}
{"id": "C27", "title": "factor match score ignores component order and sign", "statement": "Permuting the components of the estimate, or flipping signs of any of its columns, does not change the factor match score.", "quantifier": "every permutation, every sign pattern, every factor list", "why_tests_cant": "all permutations and values", "anchors": ["src/tenkit/metrics.py:factor_match_score", "src/tenkit/utils.py:permute_factors"]}
{"id": "C28", "title": "factor match score is symmetric", "statement": "factor_match_score(a, b)[0] = factor_match_score(b, a)[0] when both have the same rank.", "quantifier": "every pair of factor lists of equal rank", "why_tests_cant": "all permutations and values", "anchors": ["src/tenkit/metrics.py:factor_match_score"]}
{"id": "C29", "title": "factor match score of a decomposition with itself", "statement": "Comparing a decomposition without zero columns with itself gives prod_m (n_m/(n_m+eps))^2 for each component under the identity permutation, i.e. a score of 1 up to the eps guard, with weight_penalty on or off.", "quantifier": "every factor list without zero columns", "why_tests_cant": "all values", "anchors": ["src/tenkit/metrics.py:factor_match_score", "src/tenkit/metrics.py:weight_score"]}
{"id": "C30", "title": "factor match score with too few estimated components", "statement": "If the estimate has fewer components than the truth there is no assignment: the function returns (-1, None) rather than raising.", "quantifier": "every pair with estimated rank < rank", "why_tests_cant": "all ranks", "anchors": ["src/tenkit/metrics.py:factor_match_score"]}
{"id": "C31", "title": "separate_mode_factor_match_score works mode by mode", "statement": "separate_mode_factor_match_score returns for each mode the best score over assignments for this mode alone (weights ignored), and the joint factor match score without weight penalty never exceeds any of them; KruskalTensor.seperate_mode_factor_match_score gives the same result; EvolvingTensor.separate_mode_factor_match_score gives the scores of A, of the matrices B_k one below the other, and of C.", "quantifier": "every pair of factor lists", "why_tests_cant": "all permutations", "anchors": ["src/tenkit/metrics.py:separate_mode_factor_match_score", "src/tenkit/decomposition/decompositions.py:KruskalTensor.seperate_mode_factor_match_score", "src/tenkit/decomposition/decompositions.py:EvolvingTensor.separate_mode_factor_match_score"]}
{"id": "C32", "title": "sign canonicalisation", "statement": "flip_factors multiplies each column by +1 or -1 (0 only for a zero column), afterwards each non-zero column has a non-negative majority of signs with ties broken so that the first non-zero entry is positive, and applying it twice changes nothing more. The input list is not modified.", "quantifier": "every list of matrices", "why_tests_cant": "all values, tie patterns and zero entries", "anchors": ["src/tenkit/utils.py:flip_factors", "src/tenkit/utils.py:_find_first_nonzero_sign", "src/tenkit/utils.py:prepare_for_comparison"]}
{"id": "C33", "title": "KruskalTensor.get_signs is consistent", "statement": "For every component the signs returned for the different modes multiply to +1, so that flipping by them does not change the tensor; at most one mode differs from the sign of its score.", "quantifier": "every Kruskal tensor, every vector of sign scores", "why_tests_cant": "all score patterns, including zero scores", "anchors": ["src/tenkit/decomposition/decompositions.py:KruskalTensor.get_signs"]}
{"id": "C34", "title": "one ALS update never increases the loss", "statement": "Without constraints and penalties, each call that updates one factor of CP_ALS gives the factor which minimises the sum of squared errors over all possible values of that factor; so the SSE never increases, over any number of updates.", "quantifier": "every tensor, order >= 2, rank, state of the factors (also rank deficient), every mode and iteration count", "why_tests_cant": "all real inputs, all iteration counts; tests check monotonicity on random data with rtol 1e-4", "anchors": ["src/tenkit/decomposition/cp.py:CP_ALS._update_als_factor", "src/tenkit/decomposition/cp.py:CP_ALS._update_als_factors", "src/tenkit/base.py:rightsolve"]}
{"id": "C35", "title": "the reported SSE is the true SSE", "statement": "At every moment during the first fit, decomposer.SSE (which after the first update is computed from cached quantities) equals the sum of squared differences between X and the reconstruction.", "quantifier": "every tensor, every sequence of ALS updates", "why_tests_cant": "all update histories", "anchors": ["src/tenkit/decomposition/cp.py:BaseCP.SSE", "src/tenkit/decomposition/cp.py:BaseCP._inner_prod_X_reconstructed_X"]}
{"id": "C36", "title": "a decomposer can be fitted again", "statement": "Calling fit a second time on the same CP_ALS object works and behaves like fitting a fresh object.", "quantifier": "every history fit; fit", "why_tests_cant": "histories", "anchors": ["src/tenkit/decomposition/cp.py:CP_ALS._init_fit", "src/tenkit/decomposition/cp.py:BaseCP.SSE"]}
{"id": "C37", "title": "ridge-penalised ALS decreases the documented loss", "statement": "With ridge_penalties, each factor update does not increase the documented loss L + sum_i l_i ||U_i||^2.", "quantifier": "every tensor, penalties, state", "why_tests_cant": "all inputs", "anchors": ["src/tenkit/decomposition/cp.py:CP_ALS._get_rightsolve", "src/tenkit/decomposition/cp.py:BaseCP.loss", "src/tenkit/base.py:add_rightsolve_ridge"]}
{"id": "C38", "title": "non-negative ALS decreases the loss", "statement": "With a non-negativity constraint on a mode, updating that mode does not increase the SSE when the current factor is feasible.", "quantifier": "every tensor, state with a feasible factor", "why_tests_cant": "all inputs", "anchors": ["src/tenkit/decomposition/cp.py:CP_ALS._get_rightsolve", "src/tenkit/base.py:non_negative_rightsolve"]}
{"id": "C39", "title": "orthonormal ALS decreases the loss", "statement": "With an orthonormality constraint on a mode, updating that mode does not increase the SSE when the current factor is feasible.", "quantifier": "every tensor, state with a feasible factor", "why_tests_cant": "all inputs", "anchors": ["src/tenkit/decomposition/cp.py:CP_ALS._get_rightsolve", "src/tenkit/base.py:orthogonal_rightsolve"]}
{"id": "C40", "title": "constraints hold after fitting", "statement": "After at least one iteration of CP_ALS every mode with a non-negativity constraint has only non-negative entries; requesting non-negativity and orthonormality for the same mode raises ValueError.", "quantifier": "every tensor, init, number of iterations >= 1, constraint pattern", "why_tests_cant": "all iteration counts and patterns", "anchors": ["src/tenkit/decomposition/cp.py:CP_ALS._get_rightsolve", "src/tenkit/decomposition/cp.py:CP_ALS._update_als_factor"]}
{"id": "C41", "title": "iteration budget", "statement": "fit and continue_fit perform at most max_its iterations in total, current_iteration equals the number of iterations performed, the fit stops early only when the stated convergence criterion holds, and max_its given to fit/continue_fit overrides the constructor's.", "quantifier": "every decomposer configuration and convergence behaviour, every sequence of fit / continue_fit calls", "why_tests_cant": "all schedules", "anchors": ["src/tenkit/decomposition/cp.py:CP_ALS._fit", "src/tenkit/decomposition/parafac2.py:Parafac2_ALS._fit", "src/tenkit/decomposition/base_decomposer.py:BaseDecomposer.continue_fit", "src/tenkit/decomposition/base_decomposer.py:BaseDecomposer._init_fit"]}
{"id": "C42", "title": "continue_fit on an exhausted budget is a no-op", "statement": "Calling continue_fit() when current_iteration has already reached max_its leaves the decomposition unchanged and does not raise.", "quantifier": "every finished decomposer", "why_tests_cant": "histories", "anchors": ["src/tenkit/decomposition/cp.py:CP_ALS._fit", "src/tenkit/decomposition/parafac2.py:Parafac2_ALS._fit"]}
{"id": "C43", "title": "checkpoint schedule", "statement": "With checkpoint_frequency f > 0, a fit stores a checkpoint named by the iteration number after every f-th iteration, and the decomposition at the end of the fit is always the content of the latest stored checkpoint.", "quantifier": "every f, every number of iterations, every convergence point", "why_tests_cant": "all frequencies and stopping points", "anchors": ["src/tenkit/decomposition/base_decomposer.py:BaseDecomposer._after_fit_iteration", "src/tenkit/decomposition/cp.py:CP_ALS._fit", "src/tenkit/decomposition/parafac2.py:Parafac2_ALS._fit"]}
{"id": "C44", "title": "no periodic checkpointing: only the last iteration is stored", "statement": "With checkpoint_frequency None or negative, the last iteration (and only it) is checkpointed, as documented.", "quantifier": "every configuration with f = None or f < 0", "why_tests_cant": "all stopping points", "anchors": ["src/tenkit/decomposition/base_decomposer.py:BaseDecomposer", "src/tenkit/decomposition/cp.py:CP_ALS._fit", "src/tenkit/decomposition/parafac2.py:Parafac2_ALS._fit"]}
{"id": "C45", "title": "checkpoint file bookkeeping", "statement": "In a checkpoint file, checkpoint_its lists exactly the iterations for which a checkpoint group exists, in order, final_iteration is the last of them, and no checkpoint is overwritten.", "quantifier": "every sequence of store_checkpoint calls", "why_tests_cant": "all histories, including failing calls", "anchors": ["src/tenkit/decomposition/base_decomposer.py:BaseDecomposer.store_checkpoint", "src/tenkit/decomposition/cmtf.py:CMTF_ALS.store_checkpoint"]}
{"id": "C46", "title": "continuing a fit keeps checkpointing", "statement": "fit followed by continue_fit with the same checkpoint path stores further checkpoints without failing.", "quantifier": "every frequency, every split of the iterations over fit and continue_fit", "why_tests_cant": "histories", "anchors": ["src/tenkit/decomposition/base_decomposer.py:BaseDecomposer.continue_fit", "src/tenkit/decomposition/base_decomposer.py:BaseDecomposer.store_checkpoint", "src/tenkit/decomposition/cp.py:CP_ALS._fit"]}
{"id": "C47", "title": "resuming from a checkpoint continues the run", "statement": "Loading a checkpoint and continuing to max_its iterations gives the same decomposition as the uninterrupted run of max_its iterations, and can store its checkpoints in the same file.", "quantifier": "every frequency, crash point and max_its", "why_tests_cant": "crash points", "anchors": ["src/tenkit/decomposition/base_decomposer.py:BaseDecomposer.load_checkpoint", "src/tenkit/decomposition/cp.py:BaseCP.init_components"]}
{"id": "C48", "title": "load_checkpoint finds what store_checkpoint wrote", "statement": "load_checkpoint(path, it) returns the decomposition stored for iteration it, by default the most recently stored one; a file without checkpoints or a missing iteration raises ValueError.", "quantifier": "every sequence of stored checkpoints, every iteration number (also with more than 5 digits)", "why_tests_cant": "all histories and iteration numbers", "anchors": ["src/tenkit/decomposition/base_decomposer.py:BaseDecomposer.load_checkpoint", "src/tenkit/decomposition/base_decomposer.py:BaseDecomposer.store_checkpoint"]}
{"id": "C49", "title": "iter_checkpoints goes in iteration order", "statement": "iter_checkpoints yields exactly the checkpoint groups of the file, in increasing iteration order, ignoring the logger groups.", "quantifier": "every checkpoint file", "why_tests_cant": "unbounded iteration numbers", "anchors": ["src/tenkit/utils.py:iter_checkpoints"]}
{"id": "C50", "title": "loggers lose and duplicate nothing", "statement": "After any interleaving of log() and write_to_hdf5_group() calls, the datasets in the file hold exactly the logged iterations and values up to the last write, once each, in order, and the two datasets are aligned.", "quantifier": "every interleaving of log and checkpoint calls, any number of them", "why_tests_cant": "all histories", "anchors": ["src/tenkit/decomposition/logging/logger.py:BaseLogger.log", "src/tenkit/decomposition/logging/logger.py:BaseLogger.write_to_hdf5_group", "src/tenkit/decomposition/logging/logger.py:BaseLogger._write_sequence_to_hd5_group"]}
{"id": "C51", "title": "HDF5Logger file contents", "statement": "At every moment (also after a crash) each dataset of an HDF5Logger holds the first store_frequency * floor(n/store_frequency) of the n logged values, in order; a logger opened with continue_old appends after the existing values and all targets stay aligned.", "quantifier": "every number of log calls, store_frequency > 0, any initial file length, any number of targets", "why_tests_cant": "crash points and histories", "anchors": ["src/tenkit/log.py:HDF5Logger.log", "src/tenkit/log.py:HDF5Logger.save_logs", "src/tenkit/log.py:Logger.log"]}
{"id": "C52", "title": "PARAFAC2 projection update", "statement": "Updating the projection matrices does not increase the PARAFAC2 SSE, and afterwards every P_k has orthonormal columns.", "quantifier": "every set of slices (also irregular), every A, blueprint, C, with J_k >= rank and current orthonormal P_k", "why_tests_cant": "all sizes and rank-deficient slices", "anchors": ["src/tenkit/decomposition/parafac2.py:BaseParafac2._update_projection_matrices", "src/tenkit/base.py:orthogonal_solve"]}
{"id": "C53", "title": "one PARAFAC2 iteration never increases the loss", "statement": "Without constraints and penalties, an iteration of Parafac2_ALS (projection update followed by CP updates on the projected tensor) does not increase the SSE.", "quantifier": "every set of slices, every state with orthonormal P_k", "why_tests_cant": "all inputs and iteration counts", "anchors": ["src/tenkit/decomposition/parafac2.py:Parafac2_ALS._update_parafac2_factors", "src/tenkit/decomposition/parafac2.py:BaseParafac2.projected_X", "src/tenkit/decomposition/parafac2.py:BaseParafac2.SSE"]}
{"id": "C54", "title": "PARAFAC2 slices keep their own projection matrices", "statement": "After a projection update each slice k has the projection matrix computed from slice k, for every initialisation scheme.", "quantifier": "every init scheme, every number of slices", "why_tests_cant": "aliasing histories", "anchors": ["src/tenkit/decomposition/parafac2.py:BaseParafac2.init_cp", "src/tenkit/decomposition/parafac2.py:BaseParafac2._update_projection_matrices"]}
{"id": "C55", "title": "PARAFAC2 sub-solver results reach the decomposition", "statement": "The factor matrices computed by the inner CP updates are the factor matrices of the PARAFAC2 decomposition, for every setting of the constraints.", "quantifier": "every constraint pattern, any number of iterations", "why_tests_cant": "aliasing histories", "anchors": ["src/tenkit/decomposition/parafac2.py:Parafac2_ALS._prepare_cp_decomposer", "src/tenkit/decomposition/parafac2.py:Parafac2_ALS._update_parafac2_factors", "src/tenkit/decomposition/cp.py:CP_ALS._init_fit"]}
{"id": "C56", "title": "fit_transform is fit followed by returning the decomposition", "statement": "For CP_ALS and Parafac2_ALS, fit_transform(X, max_its=m, initial_decomposition=d) behaves as fit with the same arguments.", "quantifier": "every argument combination", "why_tests_cant": "all argument combinations", "anchors": ["src/tenkit/decomposition/cp.py:BaseCP.fit_transform", "src/tenkit/decomposition/parafac2.py:BaseParafac2.fit_transform"]}
{"id": "C57", "title": "CMTF update never increases the coupled loss", "statement": "Without constraints and with unit weights, one iteration of CMTF_ALS (all factor updates and the update of the uncoupled factors) does not increase the coupled SSE ||X - [[U]]||^2 + sum_i ||Y_i - U_{m_i} V_i^T||^2.", "quantifier": "every tensor, coupled matrices, coupling modes", "why_tests_cant": "all inputs", "anchors": ["src/tenkit/decomposition/cmtf.py:CMTF_ALS._update_als_factors", "src/tenkit/decomposition/cmtf.py:CMTF_ALS._get_als_lhs", "src/tenkit/decomposition/cmtf.py:CMTF_ALS._get_als_rhs", "src/tenkit/decomposition/cmtf.py:CMTF_ALS._update_uncoupled_matrix_factors"]}
{"id": "C58", "title": "CMTF fits every coupled matrix", "statement": "Every coupled matrix takes part in the fit: its uncoupled factor is updated in each iteration, also when several matrices share a mode.", "quantifier": "every list of coupling modes", "why_tests_cant": "all coupling patterns", "anchors": ["src/tenkit/decomposition/cmtf.py:CMTF_ALS._set_mode_to_coupled_matrix_mapping", "src/tenkit/decomposition/cmtf.py:CMTF_ALS._update_uncoupled_matrix_factors"]}
{"id": "C59", "title": "CMTF supports non-negativity constraints", "statement": "CMTF_ALS accepts non_negativity_constraints and fits with them.", "quantifier": "every constraint pattern with a constrained mode", "why_tests_cant": "all patterns", "anchors": ["src/tenkit/decomposition/cmtf.py:CMTF_ALS._update_als_factors"]}
{"id": "C60", "title": "CMTF normalisation keeps the model", "statement": "The final normalisation of CMTF_ALS leaves the reconstruction of X and of every coupled matrix unchanged up to the eps guard.", "quantifier": "every state", "why_tests_cant": "all values", "anchors": ["src/tenkit/decomposition/cmtf.py:CMTF_ALS._normalize_components"]}
{"id": "C61", "title": "initialisation dispatch", "statement": "The init option is case-insensitive; 'precomputed' uses exactly the supplied decomposition after checking it; passing an initial decomposition with another init raises Warning; an unknown init raises ValueError.", "quantifier": "every init string and argument combination", "why_tests_cant": "all strings", "anchors": ["src/tenkit/decomposition/cp.py:BaseCP.init_components", "src/tenkit/decomposition/parafac2.py:BaseParafac2.init_components"]}
{"id": "C62", "title": "supplied decompositions are validated", "statement": "A supplied decomposition is accepted only if it has one factor matrix per mode of X, each with the right number of rows and the model's rank; otherwise ValueError is raised.", "quantifier": "every tensor and supplied decomposition", "why_tests_cant": "all shapes", "anchors": ["src/tenkit/decomposition/cp.py:BaseCP._check_valid_components", "src/tenkit/decomposition/parafac2.py:BaseParafac2._check_valid_components"]}
{"id": "C63", "title": "core consistency of an exact model", "statement": "core_consistency(X, A, B, C) is 100 (up to the eps guard in the normalisation) when X is exactly the CP tensor of A, B, C with linearly independent columns, and never exceeds 100.", "quantifier": "all such X, A, B, C", "why_tests_cant": "all sizes and values", "anchors": ["src/tenkit/metrics.py:core_consistency", "src/tenkit/base.py:kron"]}
{"id": "C64", "title": "leverage scores", "statement": "leverage(F) of a matrix with linearly independent columns lies in [0, 1] and sums to the number of columns.", "quantifier": "every full column rank matrix", "why_tests_cant": "all values", "anchors": ["src/tenkit/metrics.py:leverage"]}
{"id": "C65", "title": "degeneracy scores", "statement": "degeneracy() is symmetric, has ones on the diagonal and entries in [-1, 1] for tensors without zero columns.", "quantifier": "every Kruskal or evolving tensor without zero columns", "why_tests_cant": "all values", "anchors": ["src/tenkit/decomposition/decompositions.py:KruskalTensor.degeneracy", "src/tenkit/decomposition/decompositions.py:EvolvingTensor.degeneracy", "src/tenkit/metrics.py:_tucker_congruence"]}
{"id": "C66", "title": "explained variance and completion score", "statement": "percent_explained and explained_variance are at most 1 and equal 1 exactly when the reconstruction is exact (X non-zero); tensor_completion_score depends only on entries with W = 0.", "quantifier": "all tensors, reconstructions and masks", "why_tests_cant": "all values", "anchors": ["src/tenkit/metrics.py:percent_explained", "src/tenkit/decomposition/base_decomposer.py:BaseDecomposer.explained_variance", "src/tenkit/metrics.py:tensor_completion_score"]}
{"id": "C67", "title": "MSE is the mean squared error", "statement": "decomposer.MSE is the sum of squared errors divided by the number of data entries, for CP_ALS, Parafac2_ALS and CMTF_ALS, and decomposer.RMSE is its square root.", "quantifier": "every decomposer state", "why_tests_cant": "all shapes", "anchors": ["src/tenkit/decomposition/base_decomposer.py:BaseDecomposer.MSE", "src/tenkit/decomposition/parafac2.py:BaseParafac2.MSE", "src/tenkit/decomposition/decompositions.py:EvolvingTensor.num_elements", "src/tenkit/decomposition/cmtf.py:CMTF_ALS.MSE"]}
{"id": "C68", "title": "random initialisation", "statement": "KruskalTensor.random_init gives unit weights, the requested sizes and columns of norm n/(n+eps); with non-negativity constraints CP_ALS starts from non-negative factors; Parafac2Tensor.random_init gives orthonormal projection matrices; an unknown random_method raises ValueError.", "quantifier": "every draw of the random numbers, sizes and ranks", "why_tests_cant": "all random draws", "anchors": ["src/tenkit/decomposition/decompositions.py:KruskalTensor.random_init", "src/tenkit/decomposition/decompositions.py:Parafac2Tensor.random_init", "src/tenkit/decomposition/cp.py:CP_ALS.init_random"]}
{"id": "C69", "title": "synthetic data helpers", "statement": "create_data / create_non_negative_data return the tensor of the returned factors plus noise of the requested relative size.", "quantifier": "every size, rank and noise level", "why_tests_cant": "all random draws", "anchors": ["src/tenkit/utils.py:create_data", "src/tenkit/utils.py:create_non_negative_data"]}
{"id": "C70", "title": "sign fixing of evolving tensors", "statement": "fix_signs_evolving_tensor returns a tensor representing the same slices with the signs of B_k and C[k] fixed consistently.", "quantifier": "every evolving tensor with at least one slice and data", "why_tests_cant": "all values", "anchors": ["src/tenkit/utils.py:fix_signs_evolving_tensor", "src/tenkit/utils.py:signfix_evolving_factors", "src/tenkit/utils.py:signfix_normal_factors", "src/tenkit/utils.py:get_signs"]}
{"id": "C71", "title": "PARAFAC2 factor match score", "statement": "The PARAFAC2 factor match score depends on all three modes and on both arguments.", "quantifier": "all pairs of PARAFAC2 factor lists", "why_tests_cant": "all values", "anchors": ["src/tenkit/metrics.py:factor_match_score_parafac2", "src/tenkit/metrics.py:_factor_match_score_parafac2"]}
{"id": "C72", "title": "PARAFAC2 SVD initialisation", "statement": "Parafac2_ALS(init='svd') initialises the decomposition from the data for regular tensors.", "quantifier": "every regular tensor", "why_tests_cant": "all inputs", "anchors": ["src/tenkit/decomposition/parafac2.py:BaseParafac2.init_svd", "src/tenkit/decomposition/parafac2.py:BaseParafac2.set_target"]}
{"id": "C73", "title": "SVD initialisation", "statement": "CP_ALS(init='svd') starts from factor matrices whose columns are orthonormal and, among all matrices with orthonormal columns of the model's rank, capture the most of the corresponding unfolding of X; the weights are one. A rank larger than the size of a mode raises ValueError.", "quantifier": "every tensor and rank", "why_tests_cant": "all sizes and values", "anchors": ["src/tenkit/decomposition/cp.py:BaseCP.init_svd", "src/tenkit/decomposition/cp.py:BaseCP.init_components"]}
{"id": "C74", "title": "a fit completes", "statement": "A fit of a new CP_ALS object with admissible options, started from random factors, from the SVD or from a supplied decomposition of the right sizes, never raises: it performs at most max_its iterations, stops early only when the stopping criterion holds, current_iteration and the checkpoint file agree with the iterations performed, the reported SSE is the true one, and without constraints it is not worse than at the start.", "quantifier": "every tensor of order at least two, admissible options, start, max_its > 0, checkpoint frequency, loggers", "why_tests_cant": "whole executions of unbounded length", "anchors": ["src/tenkit/decomposition/cp.py:BaseCP.fit", "src/tenkit/decomposition/cp.py:CP_ALS._init_fit", "src/tenkit/decomposition/cp.py:CP_ALS._fit", "src/tenkit/decomposition/base_decomposer.py:BaseDecomposer._after_fit_iteration"]}
{"id": "C75", "title": "loggers do not interfere", "statement": "Each logger of a decomposer finds its own log in the checkpoint file, whatever other loggers there are.", "quantifier": "every list of loggers, every run", "why_tests_cant": "all combinations and histories", "anchors": ["src/tenkit/decomposition/logging/logger.py:BaseLogger.write_to_hdf5_group", "src/tenkit/decomposition/base_decomposer.py:BaseDecomposer.store_checkpoint"]}
{"id": "C76", "title": "factor match score of Kruskal tensors", "statement": "KruskalTensor.factor_match_score with the weight penalty compares the sizes of the components, wherever the size is stored (weights or factor matrices): two Kruskal tensors representing the same components get the same score.", "quantifier": "every pair of Kruskal tensors", "why_tests_cant": "all values and weights", "anchors": ["src/tenkit/decomposition/decompositions.py:KruskalTensor.factor_match_score", "src/tenkit/metrics.py:factor_match_score"]}
{"id": "C77", "title": "core consistency of a Kruskal tensor", "statement": "KruskalTensor.core_consistency(X) judges the model it is called on: for a three-way Kruskal tensor with linearly independent columns and X its own tensor, it is 100 up to the eps guard, whatever the weights; a tensor without three modes raises ValueError.", "quantifier": "every Kruskal tensor", "why_tests_cant": "all values and weights", "anchors": ["src/tenkit/decomposition/decompositions.py:KruskalTensor.core_consistency", "src/tenkit/metrics.py:core_consistency"]}
{"id": "C78", "title": "get_signs follows the data", "statement": "For a factor matrix with linearly independent columns, flipping the sign of columns flips exactly the signs and weights that get_signs(factor_matrix, X) returns for them; after multiplying the factor matrix by the returned (non-zero) signs, get_signs returns +1 for every component and the absolute values of the weights. Without X, the sign is that of the column sum, +1 for a zero sum.", "quantifier": "every factor matrix with independent columns, every X, every sign pattern, every least-squares routine", "why_tests_cant": "all real inputs and sign patterns", "anchors": ["src/tenkit/utils.py:get_signs"]}
{"id": "C79", "title": "permuting components keeps the tensor", "statement": "permute_factors_and_weights(permutation, factors, weights) permutes the columns of all factor matrices and the weights consistently, so that the represented tensor does not change.", "quantifier": "every Kruskal tensor, every permutation", "why_tests_cant": "all orders, ranks and permutations", "anchors": ["src/tenkit/utils.py:permute_factors_and_weights", "src/tenkit/utils.py:permute_factors"]}
{"id": "C80", "title": "a PARAFAC2 fit completes", "statement": "A fit of a new Parafac2_ALS object with admissible options, started from random factors or from a supplied decomposition of the right sizes whose matrices are different arrays, never raises: it performs at most max_its iterations, stops early only when the stopping criterion holds, current_iteration and the checkpoint file agree with the iterations performed, the reported SSE is the true one, all matrices keep their sizes.", "quantifier": "every list of slices, admissible options, start, max_its, checkpoint frequency, loggers", "why_tests_cant": "whole executions of unbounded length", "anchors": ["src/tenkit/decomposition/parafac2.py:BaseParafac2.fit", "src/tenkit/decomposition/parafac2.py:BaseParafac2._init_fit", "src/tenkit/decomposition/parafac2.py:Parafac2_ALS._prepare_cp_decomposer", "src/tenkit/decomposition/parafac2.py:Parafac2_ALS._fit"]}
{"id": "C81", "title": "the PARAFAC2 loss", "statement": "Parafac2_ALS.loss is the sum of squared errors over all slices plus, for every ridge penalty that is given, the penalty times the sum of squares of its matrix, in the order A, blueprint B, C.", "quantifier": "every decomposer state, every list of penalties", "why_tests_cant": "all values and sizes", "anchors": ["src/tenkit/decomposition/parafac2.py:Parafac2_ALS.loss", "src/tenkit/decomposition/parafac2.py:BaseParafac2.SSE"]}
{"id": "C82", "title": "a CMTF fit is not worse than its start", "statement": "Without constraints and penalties, the coupled SSE after a fit of CMTF_ALS is not larger than that of the decomposition it started from.", "quantifier": "every tensor, coupled matrices, coupling modes, start, max_its", "why_tests_cant": "whole executions of unbounded length", "anchors": ["src/tenkit/decomposition/cmtf.py:CMTF_ALS._init_fit", "src/tenkit/decomposition/cmtf.py:CMTF_ALS._fit", "src/tenkit/decomposition/cmtf.py:CMTF_ALS._normalize_components"]}
{"id": "C83", "title": "a CMTF fit completes", "statement": "A fit of a new CMTF_ALS object with admissible options (no non-negativity constraints), started from random factors, from the SVD or from a supplied decomposition of the right sizes, never raises: it performs at most max_its iterations, stops early only when the stopping criterion holds, current_iteration and the checkpoint file agree with the iterations performed, and the reported SSE is the true coupled one.", "quantifier": "every tensor of order at least two, coupled matrices, coupling modes, options, start, max_its > 0, checkpoint frequency, loggers", "why_tests_cant": "whole executions of unbounded length", "anchors": ["src/tenkit/decomposition/cmtf.py:CMTF_ALS.fit", "src/tenkit/decomposition/cmtf.py:CMTF_ALS._init_fit", "src/tenkit/decomposition/cmtf.py:CMTF_ALS.init_components", "src/tenkit/decomposition/cmtf.py:CMTF_ALS._fit"]}
{"id": "C84", "title": "core consistency of a PARAFAC2 model", "statement": "core_consistency_parafac2(X, P, A, F, C), called with one projection matrix with orthonormal columns per slice and factor matrices with linearly independent columns, is 100(1 - ||G - T||^2/R) for the core G that fits the slices themselves best in the model X_k = (sum of G_pqr a_p b_q^T c_kr) P_k^T; it never exceeds 100 and is 100 (up to the eps guard) when the slices follow the PARAFAC2 model exactly, whatever was in the uninitialised memory.", "quantifier": "all slices of any sizes, all such matrices, all contents of uninitialised memory", "why_tests_cant": "all sizes and values; the unit test is one random example", "anchors": ["src/tenkit/metrics.py:core_consistency_parafac2", "src/tenkit/metrics.py:core_consistency"]}
{"id": "C85", "title": "factor match score of PARAFAC2 tensors", "statement": "Parafac2Tensor.factor_match_score(other) is the best score over all assignments of the components, comparing A, C and the evolving factor matrices B_k stacked below each other, for slices of any sizes; it does not depend on how B_k is split into projection matrix and blueprint; different ranks raise AssertionError.", "quantifier": "all pairs of PARAFAC2 tensors of the same sizes", "why_tests_cant": "all sizes, values and splittings", "anchors": ["src/tenkit/decomposition/decompositions.py:Parafac2Tensor.factor_match_score", "src/tenkit/decomposition/decompositions.py:EvolvingTensor.factor_match_score", "src/tenkit/decomposition/decompositions.py:EvolvingTensor.B_unfolded"]}
{"id": "C86", "title": "experiments are recorded faithfully", "statement": "After Experiment.run_experiment returns, every output and every final metric is a dataset of the group of the experiment and every parameter an attribute, and nothing else in the file has changed; with continue_old the stored outputs are replaced; if a run raises, parameters and outputs in the file still belong together; an experiment can be opened with the metadata of the file.", "quantifier": "every file, experiment function, parameters, outputs and metrics", "why_tests_cant": "all histories of a file", "anchors": ["src/tenkit/log.py:Experiment.run_experiment", "src/tenkit/log.py:Experiment._init_h5_file", "src/tenkit/log.py:Experiment._init_h5_metadata"]}
{"id": "C87", "title": "access to the factor matrices of a decomposition", "statement": "t[i] is factor matrix i of a decomposition, with negative numbers counting from the end, as in the list of factor matrices; unpacking a decomposition gives exactly its factor matrices, in order; building a decomposition of the same class from what was unpacked (with the weights of a Kruskal tensor) gives the same decomposition.", "quantifier": "every Kruskal, evolving and PARAFAC2 tensor, every index", "why_tests_cant": "all orders and indices", "anchors": ["src/tenkit/decomposition/decompositions.py:KruskalTensor.__getitem__", "src/tenkit/decomposition/decompositions.py:EvolvingTensor.__getitem__", "src/tenkit/decomposition/decompositions.py:EvolvingTensor.from_factor_matrices", "src/tenkit/decomposition/decompositions.py:EvolvingTensor.from_kruskaltensor"]}
{"id": "C88", "title": "attributes of decompositions describe the tensor", "statement": "shape is the shape of the constructed tensor, slice_shapes are the shapes of the constructed slices, all_same_size says whether these agree, num_elements is the number of entries of all slices together, and D of a PARAFAC2 tensor holds the diagonal matrices D_k with X_k = A D_k B_k^T.", "quantifier": "every Kruskal, evolving and PARAFAC2 tensor", "why_tests_cant": "all sizes and values", "anchors": ["src/tenkit/decomposition/decompositions.py:EvolvingTensor.shape", "src/tenkit/decomposition/decompositions.py:EvolvingTensor.__init__", "src/tenkit/decomposition/decompositions.py:Parafac2Tensor.D"]}
{"id": "C89", "title": "a fit leaves the decompositions of the caller alone", "statement": "Calling fit on a CP_ALS object changes no decomposition that the caller holds: an initial decomposition passed with init='precomputed' can be inspected or used again for further fits, which then give the same result.", "quantifier": "every tensor, options, initial decomposition, and every other decomposition in the program", "why_tests_cant": "aliasing over whole executions of unbounded length", "anchors": ["src/tenkit/decomposition/cp.py:BaseCP.init_components", "src/tenkit/decomposition/cp.py:CP_ALS._update_als_factor", "src/tenkit/decomposition/cp.py:CP_ALS._init_fit"]}
{"id": "C90", "title": "decompositions that use one array for several modes", "statement": "A decomposition behaves according to the values of its factor matrices: a fit from it and normalize_components give what they give for a decomposition with its own copy of every matrix.", "quantifier": "every decomposition, with and without shared arrays", "why_tests_cant": "aliasing over whole executions of unbounded length", "anchors": ["src/tenkit/decomposition/cp.py:CP_ALS._update_als_factor", "src/tenkit/decomposition/decompositions.py:KruskalTensor.normalize_components"]}
{"id": "C91", "title": "a fit stops by itself", "statement": "With positive convergence_tol and rel_loss_tol, a fit of CP_ALS or Parafac2_ALS makes a number of iterations that does not depend on max_its: the stopping test ends it, however large max_its is.", "quantifier": "every tensor, rank, initialisation, positive tolerances and max_its", "why_tests_cant": "termination for every input and every budget", "anchors": ["src/tenkit/decomposition/cp.py:CP_ALS._fit", "src/tenkit/decomposition/cp.py:CP_ALS._update_convergence", "src/tenkit/decomposition/parafac2.py:Parafac2_ALS._fit", "src/tenkit/decomposition/parafac2.py:Parafac2_ALS._update_convergence"]}
{"id": "C92", "title": "the documented stopping rule", "statement": "A fit of CP_ALS that ends before max_its without reaching rel_loss_tol made a last iteration whose relative change of the SSE, (L_i - L_(i+1)) / L_(i+1) as documented, is below convergence_tol.", "quantifier": "every fit that ends before its budget", "why_tests_cant": "the rule concerns the last two states of runs of unbounded length", "anchors": ["src/tenkit/decomposition/cp.py:BaseCP", "src/tenkit/decomposition/cp.py:CP_ALS._fit", "src/tenkit/decomposition/cp.py:CP_ALS._update_convergence"]}
{"id": "C93", "title": "The error reported after loading a checkpoint", "statement": "After CP_ALS.load_checkpoint(path, n), SSE (and with it MSE, RMSE, loss and explained variance) describe the decomposition that was loaded.", "quantifier": "all data tensors, options, fits and checkpoints of the same size", "why_tests_cant": "the SSE is computed from quantities remembered from the last update; a test that loads into a new object never has any", "anchors": ["src/tenkit/decomposition/cp.py:BaseCP.SSE", "src/tenkit/decomposition/cp.py:BaseCP._inner_prod_X_reconstructed_X", "src/tenkit/decomposition/base_decomposer.py:BaseDecomposer.load_checkpoint"]}
{"id": "C94", "title": "Continuing from a loaded checkpoint", "statement": "After load_checkpoint(path, n), continue_fit(max_its=M) performs the iterations n, ..., M-1 starting at the loaded decomposition, exactly as a new object that is started from it.", "quantifier": "all fits, checkpoints and budgets M > n", "why_tests_cant": "whether the stopping test at the start is affected by the earlier fit depends on the relation of two decompositions", "anchors": ["src/tenkit/decomposition/base_decomposer.py:BaseDecomposer.load_checkpoint", "src/tenkit/decomposition/base_decomposer.py:BaseDecomposer.continue_fit", "src/tenkit/decomposition/cp.py:CP_ALS._fit"]}
{"id": "C95", "title": "The unit of the data", "statement": "Multiplying the data tensor by a number a multiplies the model that CP_ALS returns by a and the SSE by the square of a; the number of iterations does not change.", "quantifier": "all tensors, numbers a != 0, initial decompositions and options without constraints and penalties", "why_tests_cant": "relates two runs of any length; rounding hides it in a test", "anchors": ["src/tenkit/decomposition/cp.py:CP_ALS._fit", "src/tenkit/decomposition/cp.py:CP_ALS._update_convergence", "src/tenkit/decomposition/cp.py:CP_ALS._update_als_factor"]}
{"id": "C96", "title": "Order and signs of the components", "statement": "Giving CP_ALS an initial decomposition with permuted components, or with changed signs that cancel within each component, gives the result with the same permutation and sign changes; the model tensor, its error and the number of iterations are the same.", "quantifier": "all tensors of any order, initial decompositions, permutations and signs, without constraints and penalties", "why_tests_cant": "relates two runs of any length for all permutations and signs", "anchors": ["src/tenkit/decomposition/cp.py:CP_ALS._update_als_factor", "src/tenkit/decomposition/cp.py:CP_ALS._fit"]}
{"id": "C97", "title": "Order of the rows", "statement": "Permuting the slices of the data tensor along its modes, and the rows of the initial factor matrices in the same way, permutes the rows of the factor matrices that CP_ALS returns and changes nothing else.", "quantifier": "all tensors of any order, initial decompositions and permutations, without constraints and penalties", "why_tests_cant": "relates two runs of any length for all permutations", "anchors": ["src/tenkit/decomposition/cp.py:CP_ALS._update_als_factor", "src/tenkit/decomposition/cp.py:CP_ALS._fit"]}
{"id": "C98", "title": "Independence of the numerical library", "statement": "The result of CP_ALS without constraints and penalties does not depend on which of the possible singular value decompositions the numerical library returns (signs of singular vectors, bases for repeated singular values, vectors of the null space), also for rank-deficient systems.", "quantifier": "all tensors, initial decompositions, and all pairs of libraries that meet the definition of an SVD", "why_tests_cant": "tests run with one library", "anchors": ["src/tenkit/base.py:rightsolve", "src/tenkit/decomposition/cp.py:CP_ALS._update_als_factor", "src/tenkit/decomposition/cp.py:CP_ALS._fit"]}
{"id": "C99", "title": "The initial factor matrix of the first mode", "statement": "CP_ALS updates the first mode first, so the result of a fit does not depend on the initial factor matrix of the first mode.", "quantifier": "all tensors and pairs of initial decompositions that agree in the other modes", "why_tests_cant": "relates two runs of any length", "anchors": ["src/tenkit/decomposition/cp.py:CP_ALS._update_als_factors", "src/tenkit/decomposition/cp.py:CP_ALS._update_convergence", "src/tenkit/decomposition/cp.py:CP_ALS._init_fit"]}
{"id": "C100", "title": "Range of the explained variance", "statement": "After a fit of a non-zero tensor the explained_variance is between 0 and 1, whatever the initial decomposition.", "quantifier": "all tensors, initial decompositions, options and budgets", "why_tests_cant": "that the residual is orthogonal to the model after a sweep is a fact about least squares for all data", "anchors": ["src/tenkit/decomposition/base_decomposer.py:BaseDecomposer.explained_variance", "src/tenkit/decomposition/cp.py:CP_ALS._update_als_factor", "src/tenkit/decomposition/parafac2.py:Parafac2_ALS._fit"]}
{"id": "C101", "title": "Exact starts are kept", "statement": "If the data are a CP model, CP_ALS started from the factor matrices of that model in all modes but the first (the first and the weights arbitrary) reproduces the data exactly after any number of iterations; in particular a start that reproduces the data leads to a result that reproduces the data.", "quantifier": "all models of any order and rank, starts and budgets, with or without non-negativity constraints (met by the model), without penalties and orthogonality constraints", "why_tests_cant": "exactness after every number of iterations, also for rank-deficient models, where a test sees rounding errors", "anchors": ["src/tenkit/decomposition/cp.py:CP_ALS._update_als_factor", "src/tenkit/decomposition/cp.py:CP_ALS._init_fit", "src/tenkit/decomposition/cp.py:CP_ALS._fit"]}
{"id": "C102", "title": "Movement of the CP model is bounded by the decrease of the error", "statement": "In a CP_ALS fit without constraints and penalties each iteration moves the reconstruction by at most the number of modes times the decrease of the squared error, all iterations together by at most that number times the total decrease, and if the relative-change test ends the fit, the last iteration moved it by at most convergence_tol times the number of modes times the previous squared error.", "quantifier": "all tensors, ranks, starts, tolerances, budgets and numbers of iterations", "why_tests_cant": "a statement about every iteration of every fit; the number of iterations is unbounded", "anchors": ["src/tenkit/decomposition/cp.py:CP_ALS._update_als_factor", "src/tenkit/decomposition/cp.py:CP_ALS._update_als_factors", "src/tenkit/decomposition/cp.py:CP_ALS._fit"]}
{"id": "C103", "title": "Limits of CP fits are stationary", "statement": "If the factor matrices that CP_ALS (no constraints, no penalties) returns after 1, 2, 3, ... iterations from the same start converge, no change of a single factor matrix of the limit lowers the squared error and its derivative vanishes there in every joint direction. The same holds for accumulation points at which the rank-one terms of the other modes are linearly independent. The steps of the reconstruction always tend to 0.", "quantifier": "all tensors, ranks and starts; all infinite sequences of iterations", "why_tests_cant": "a statement about limits of infinitely many iterations", "anchors": ["src/tenkit/decomposition/cp.py:CP_ALS._update_als_factor", "src/tenkit/decomposition/cp.py:CP_ALS._update_als_factors", "src/tenkit/decomposition/cp.py:CP_ALS._fit"]}
{"id": "C104", "title": "Printing does not affect the fit", "statement": "For every value of print_frequency the methods fit and continue_fit have the same outcome (exception, decomposer, loggers, checkpoint file) as without printing. None, values that are not positive, and the default print nothing; a positive value f prints one line, with MSE, loss and relative change, for exactly those iterations whose number is a multiple of f.", "quantifier": "all decomposers, data, starts, budgets and values of print_frequency", "why_tests_cant": "covers every run, including the ones that raise, and every value of the option", "anchors": ["src/tenkit/decomposition/cp.py:CP_ALS._fit", "src/tenkit/decomposition/parafac2.py:Parafac2_ALS._fit", "src/tenkit/decomposition/parafac2.py:Parafac2_ALS.__init__", "src/tenkit/decomposition/base_decomposer.py:BaseDecomposer.__init__"]}
{"id": "C105", "title": "A high factor match score means similar components", "statement": "If factor_match_score with the weight penalty returns the score v and a permutation, then, up to its sign, every component differs from the component assigned to it by at most 2(1 - v) times the square of the larger size (sum of squared differences over all tensor entries; R times that for the mean reduction), and the sums of the components differ correspondingly little; without the penalty the same holds for the components scaled to unit size.", "quantifier": "all factor lists of any order, sizes and ranks without pairs of zero components, both reductions", "why_tests_cant": "an inequality between the score and the distance of all pairs of models; a test can only look at chosen pairs", "anchors": ["src/tenkit/metrics.py:factor_match_score", "src/tenkit/metrics.py:_factor_match_score", "src/tenkit/decomposition/decompositions.py:KruskalTensor.factor_match_score"]}
{"id": "C106", "title": "Checkpointing does not affect the fit", "statement": "For every checkpoint_frequency and checkpoint_path, fit performs the same iterations and returns the same decomposition, iteration number and logs as without checkpointing; if the path is None (documented: nothing is stored to disk) the frequency has no effect.", "quantifier": "all decomposers, starts, budgets, frequencies, paths and contents of the checkpoint file", "why_tests_cant": "relates two complete runs for every frequency and file content", "anchors": ["src/tenkit/decomposition/base_decomposer.py:BaseDecomposer.store_checkpoint", "src/tenkit/decomposition/base_decomposer.py:BaseDecomposer._after_fit_iteration", "src/tenkit/decomposition/base_decomposer.py:BaseDecomposer.fit", "src/tenkit/decomposition/cp.py:CP_ALS._fit", "src/tenkit/decomposition/parafac2.py:Parafac2_ALS._fit"]}
{"id": "C107", "title": "Fitting in two parts", "statement": "fit(X, max_its=N) followed by continue_fit(max_its=M) with M > N gives the same decomposition, iteration number and logs as fit(X, max_its=M).", "quantifier": "all decomposers, data, starts, constraints and budgets N < M, without checkpointing (and with it, as far as the calls return)", "why_tests_cant": "relates two sequences of calls for every pair of budgets; the runs are of unbounded length", "anchors": ["src/tenkit/decomposition/base_decomposer.py:BaseDecomposer.continue_fit", "src/tenkit/decomposition/base_decomposer.py:BaseDecomposer.fit", "src/tenkit/decomposition/cp.py:CP_ALS._fit", "src/tenkit/decomposition/parafac2.py:Parafac2_ALS._fit", "src/tenkit/decomposition/cmtf.py:CMTF_ALS._fit"]}
{"id": "C108", "title": "Parafac2 fits started from a CP model", "statement": "With init='cp', Parafac2_ALS starts from the CP model that 20 iterations of CP_ALS give for the stacked slices; the fit then completes, ends with a model that fits the slices at least as well as this CP model, and can give the slices different evolving factors B_k. Slices of different sizes are rejected.", "quantifier": "all slices, ranks, options, random draws and budgets", "why_tests_cant": "relates the result of a fit of unbounded length to its start, for all data; needs the sharing of one array by all slices, which is invisible in the values", "anchors": ["src/tenkit/decomposition/parafac2.py:BaseParafac2.init_cp", "src/tenkit/decomposition/parafac2.py:BaseParafac2._update_projection_matrices", "src/tenkit/decomposition/parafac2.py:Parafac2_ALS._fit"]}
{"id": "C109", "title": "No fit depends on the choice of singular vectors", "statement": "The results of CP_ALS, CMTF_ALS and Parafac2_ALS, with any constraints, penalties and initial factor matrices, do not depend on which of the possible singular value decompositions of the matrices the numerical library returns (signs of singular vectors, bases for repeated singular values, vectors of the null space); nor do rightsolve and orthogonal_solve, also for rank-deficient matrices.", "quantifier": "all data, options, starts, object states, and all pairs of libraries that meet the definition of an SVD", "why_tests_cant": "tests run with one library", "anchors": ["src/tenkit/base.py:rightsolve", "src/tenkit/base.py:orthogonal_solve", "src/tenkit/decomposition/cp.py:CP_ALS._fit", "src/tenkit/decomposition/parafac2.py:Parafac2_ALS._fit", "src/tenkit/decomposition/cmtf.py:CMTF_ALS._fit"]}
{"id": "C110", "title": "Rotating the slices of Parafac2 data", "statement": "Multiplying every slice X_k from the right by an orthogonal matrix Q_k of its size (for example a permutation of its columns), and the initial projection matrices P_k from the left by the transpose of Q_k, changes nothing in a Parafac2_ALS fit but the projection matrices, which are multiplied by the transpose of Q_k as well: same number of iterations, A, blueprint, C, SSE, loss and relative change.", "quantifier": "all slices of any sizes, orthogonal matrices, starts, ranks, constraints, penalties, tolerances and budgets", "why_tests_cant": "relates two runs of any length for all orthogonal matrices; rounding hides it in a test", "anchors": ["src/tenkit/decomposition/parafac2.py:BaseParafac2._update_projection_matrices", "src/tenkit/decomposition/parafac2.py:Parafac2_ALS._fit", "src/tenkit/decomposition/parafac2.py:Parafac2_ALS._update_parafac2"]}
{"id": "C111", "title": "Rejected fits", "statement": "If fit (or load_checkpoint) raises because the initial decomposition, the checkpoint or the init option is not accepted, the object is as it was before the call: its decomposition, data, iteration number and SSE still belong to the last fit.", "quantifier": "all objects in all states, data, options and rejected arguments", "why_tests_cant": "the state after an exception, for every earlier history of the object", "anchors": ["src/tenkit/decomposition/base_decomposer.py:BaseDecomposer._init_fit", "src/tenkit/decomposition/base_decomposer.py:BaseDecomposer.load_checkpoint", "src/tenkit/decomposition/cp.py:BaseCP.init_components", "src/tenkit/decomposition/parafac2.py:BaseParafac2.init_components", "src/tenkit/decomposition/cmtf.py:CMTF_ALS.init_components"]}
{"id": "C112", "title": "Order of the rows with constraints", "statement": "Exchanging rows of the data along with the rows of the initial factor matrices exchanges the rows of the fitted factor matrices and changes nothing else, also with non-negativity constraints, orthonormality constraints (on modes whose rows are not exchanged) and ridge penalties.", "quantifier": "all tensors, constraints, penalties, permutations of the rows of each mode without an orthonormality constraint, starts and numbers of iterations", "why_tests_cant": "permutations of whole runs under every combination of constraints", "anchors": ["src/tenkit/decomposition/cp.py:CP_ALS._update_als_factor", "src/tenkit/decomposition/cp.py:CP_ALS._get_rightsolve", "src/tenkit/base.py:non_negative_rightsolve", "src/tenkit/base.py:orthogonal_rightsolve", "src/tenkit/base.py:add_rightsolve_ridge"]}
{"id": "C113", "title": "Order of the slices", "statement": "Putting the slices of a Parafac2 problem and their rows in another order, along with the rows of C and A and the projection matrices of the start, gives the fitted decomposition in the new order and changes nothing else (A and C are only put in another order if they have no orthonormality constraint).", "quantifier": "all lists of slices of any sizes, constraints, penalties, permutations, starts and numbers of iterations", "why_tests_cant": "permutations of whole runs", "anchors": ["src/tenkit/decomposition/parafac2.py:BaseParafac2._update_projection_matrices", "src/tenkit/decomposition/parafac2.py:Parafac2_ALS._update_parafac2_factors", "src/tenkit/decomposition/parafac2.py:Parafac2_ALS._prepare_cp_decomposer"]}
{"id": "C114", "title": "The unit of Parafac2 data", "statement": "Multiplying all slices by a number, and the factor matrices of the start by numbers whose product it is, multiplies the fitted factor matrices by the same numbers and the error by its square, and leaves the projection matrices, the relative changes and the number of iterations alone (no constraints or penalties).", "quantifier": "all slices, numbers other than zero, starts, tolerances and numbers of iterations", "why_tests_cant": "two whole runs for every unit", "anchors": ["src/tenkit/decomposition/parafac2.py:BaseParafac2._update_projection_matrices", "src/tenkit/decomposition/parafac2.py:Parafac2_ALS._update_parafac2_factors", "src/tenkit/base.py:orthogonal_solve", "src/tenkit/base.py:rightsolve"]}
{"id": "C115", "title": "Order and signs of Parafac2 components", "statement": "Putting the components of a Parafac2 start in another order, and changing signs of columns such that those of a component multiply to one, does the same to the fitted components and changes nothing else (no constraints or penalties).", "quantifier": "all slices, permutations and signs of the components, starts and numbers of iterations", "why_tests_cant": "all permutations and signs of whole runs", "anchors": ["src/tenkit/decomposition/parafac2.py:BaseParafac2._update_projection_matrices", "src/tenkit/decomposition/parafac2.py:Parafac2_ALS._update_parafac2_factors"]}
{"id": "C116", "title": "Initial projection matrices", "statement": "With a convergence tolerance that is not positive, the result of a Parafac2 fit does not depend on the projection matrices of the start, and multiplying all slices by a positive number only multiplies the fitted A by it (no constraints or penalties).", "quantifier": "all slices, positive numbers, starts with the same A, blueprint matrix and C, and numbers of iterations from one", "why_tests_cant": "two whole runs for all initial projection matrices", "anchors": ["src/tenkit/decomposition/parafac2.py:Parafac2_ALS._fit", "src/tenkit/decomposition/parafac2.py:BaseParafac2._update_projection_matrices", "src/tenkit/decomposition/parafac2.py:Parafac2_ALS._update_parafac2_factors"]}
{"id": "C117", "title": "Order of the rows and columns of a coupled problem", "statement": "Putting the rows of a mode in another order, in the tensor, in every matrix coupled to the mode and in the start, and the columns of a coupled matrix together with the rows of its drawn right factor, does the same to the factor matrices and right factors of a CMTF fit and changes nothing else (no constraints or penalties).", "quantifier": "all tensors, coupled matrices, coupling modes (also negative or shared ones), permutations, starts, draws, tolerances and numbers of iterations", "why_tests_cant": "all permutations of whole runs", "anchors": ["src/tenkit/decomposition/cmtf.py:CMTF_ALS._get_als_lhs", "src/tenkit/decomposition/cmtf.py:CMTF_ALS._get_als_rhs", "src/tenkit/decomposition/cmtf.py:CMTF_ALS._update_uncoupled_matrix_factors", "src/tenkit/decomposition/cmtf.py:CMTF_ALS._normalize_components"]}
{"id": "C118", "title": "Order and signs of the components of a coupled problem", "statement": "Putting the components of the start and of the drawn right factors of a CMTF fit in another order, and changing signs of columns such that those of a component multiply to one over the modes, does the same to the fitted components and right factors and changes neither the modelled tensor and matrices nor anything else (no constraints or penalties).", "quantifier": "all tensors, coupled matrices, coupling modes, permutations and signs of the components, starts, draws and numbers of iterations", "why_tests_cant": "all permutations and signs of whole runs", "anchors": ["src/tenkit/decomposition/cmtf.py:CMTF_ALS._get_als_lhs", "src/tenkit/decomposition/cmtf.py:CMTF_ALS._get_als_rhs", "src/tenkit/decomposition/cmtf.py:CMTF_ALS._update_uncoupled_matrix_factors", "src/tenkit/decomposition/cmtf.py:CMTF_ALS._init_fit"]}
{"id": "C119", "title": "Choice of the singular value decomposition in coupled problems", "statement": "The result of a CMTF fit without constraints and penalties does not depend on which singular value decomposition the numerical library returns where there is a choice.", "quantifier": "all libraries that meet the contract of the singular value decomposition, all tensors, coupled matrices, starts and draws", "why_tests_cant": "libraries differ between machines", "anchors": ["src/tenkit/decomposition/cmtf.py:CMTF_ALS._update_als_factors", "src/tenkit/base.py:rightsolve"]}
{"id": "C120", "title": "Decompositions that do not fit together are not compared", "statement": "factor_match_score of two lists of factor matrices that do not belong to tensors of the same shape raises an exception: ValueError if a mode has different sizes, and likewise if the numbers of modes differ.", "quantifier": "all pairs of lists of factor matrices, all sizes, ranks, values and reductions", "why_tests_cant": "all sizes and ranks", "anchors": ["src/tenkit/metrics.py:factor_match_score", "src/tenkit/metrics.py:_factor_match_score"]}
{"id": "C121", "title": "Components given as vectors", "statement": "A decomposition with one component can be given as a list of vectors: factor_match_score and _factor_match_score treat each vector as a matrix with one column.", "quantifier": "all lists of vectors, as the truth or as the estimate", "why_tests_cant": "all lengths and values", "anchors": ["src/tenkit/metrics.py:factor_match_score", "src/tenkit/metrics.py:_factor_match_score"]}
{"id": "C122", "title": "Data with one component are recovered", "statement": "If the data are one component (an outer product of vectors, not zero), CP_ALS with rank one and without constraints finds it in one iteration from any start whose vectors are not orthogonal to those of the data: a fit that performs at least one iteration reproduces the data exactly, with factor matrices that are multiples of the vectors of the data.", "quantifier": "all orders and shapes, all components, all starts that are not orthogonal in the modes after the first, all budgets, loggers and checkpoint settings", "why_tests_cant": "all data and starts", "anchors": ["src/tenkit/decomposition/cp.py:_update_als_factors", "src/tenkit/decomposition/cp.py:_update_als_factor", "src/tenkit/decomposition/cp.py:_fit"]}
{"id": "C123", "title": "Coupled matrices of the wrong size are rejected", "statement": "CMTF_ALS.fit raises an exception if a coupled matrix does not have as many rows as its mode of the tensor; no iteration is performed with such data.", "quantifier": "all tensors, all lists of coupled matrices and coupling modes, all starts, budgets, loggers and checkpoint settings", "why_tests_cant": "all sizes and numbers of matrices", "anchors": ["src/tenkit/decomposition/cmtf.py:fit", "src/tenkit/decomposition/cmtf.py:_get_als_rhs", "src/tenkit/decomposition/cmtf.py:coupled_factor_matrices_SSE"]}
{"id": "C124", "title": "Parafac2_ALS and CMTF_ALS objects can be fitted again", "statement": "Whatever fits were made with a Parafac2_ALS or CMTF_ALS object before, fit does the same as for a new object with the same options, max_its, loggers and checkpoint file: it returns if and only if the fit of the new object does, with the same decomposition, history and file.", "quantifier": "all objects with any history of fits, all data, starts, budgets, loggers and checkpoint settings", "why_tests_cant": "all histories and data", "anchors": ["src/tenkit/decomposition/parafac2.py:_prepare_cp_decomposer", "src/tenkit/decomposition/parafac2.py:init_components", "src/tenkit/decomposition/cp.py:_init_fit", "src/tenkit/decomposition/cmtf.py:fit", "src/tenkit/decomposition/base_decomposer.py:fit"]}
{"id": "C125", "title": "A Parafac2 fit leaves the decompositions of the caller alone", "statement": "Parafac2_ALS.fit and continue_fit change no array that existed before, except for the arrays of the decomposition of the object that continue_fit works on: a decomposition held by the caller, whether passed as a start or obtained from an earlier fit with the same object, looks the same afterwards, whether the call returns or raises.", "quantifier": "all options, data, starts, budgets, loggers and checkpoint settings, all decompositions of the caller, all outcomes", "why_tests_cant": "aliasing is a statement about every array of the program, not about results", "anchors": ["src/tenkit/decomposition/parafac2.py:init_components", "src/tenkit/decomposition/parafac2.py:_update_projection_matrices", "src/tenkit/decomposition/parafac2.py:_update_parafac2_factors", "src/tenkit/decomposition/parafac2.py:_prepare_cp_decomposer"]}
{"id": "C126", "title": "CMTF_ALS without coupled matrices fits the CP model", "statement": "CMTF_ALS.fit with an empty list of coupled matrices fits the same model as CP_ALS with the same options from the same start: it makes as many iterations, and its decomposition represents the same tensor up to the normalisation of its columns.", "quantifier": "all tensors, ranks, options, starts and budgets", "why_tests_cant": "it relates two whole runs of different classes, of any length", "anchors": ["src/tenkit/decomposition/cmtf.py:_init_fit", "src/tenkit/decomposition/cmtf.py:_update_als_factors", "src/tenkit/decomposition/cmtf.py:_get_als_lhs", "src/tenkit/decomposition/cmtf.py:_get_als_rhs", "src/tenkit/decomposition/cp.py:_update_als_factor"]}
{"id": "C127", "title": "Conversion of any decomposition to an evolving tensor", "statement": "EvolvingTensor.from_kruskaltensor and the inherited method of Parafac2Tensor return their argument when it already is of the class and allow_same_class is set; without the flag they accept Kruskal tensors of third order only, and every other argument raises an exception.", "quantifier": "all Kruskal, evolving and PARAFAC2 tensors, both classes, both values of the flag", "why_tests_cant": "the cases depend on the class of the argument, on the subclass relation and on how the evolving mode is stored", "anchors": ["src/tenkit/decomposition/decompositions.py:EvolvingTensor.from_kruskaltensor", "src/tenkit/decomposition/decompositions.py:EvolvingTensor.factor_matrices", "src/tenkit/decomposition/decompositions.py:ProjectedFactor.__getitem__"]}
{"id": "C128", "title": "Order of the coupled matrices", "statement": "A fit of CMTF_ALS does not depend on the order in which the coupled matrices are passed: with the matrices, their coupling modes and the numbers drawn for them in another order, the decomposition, the logged values and the checkpoints are the same, and every matrix gets the same right factor.", "quantifier": "all data, orders, numbers of matrices, starts, configurations", "why_tests_cant": "the space of orders and data is infinite; the dictionary of coupling modes is built in the order of the list", "anchors": ["src/tenkit/decomposition/cmtf.py:CMTF_ALS._set_mode_to_coupled_matrix_mapping", "src/tenkit/decomposition/cmtf.py:CMTF_ALS._get_als_lhs", "src/tenkit/decomposition/cmtf.py:CMTF_ALS._update_uncoupled_matrix_factors", "src/tenkit/decomposition/cmtf.py:CMTF_ALS.fit"]}
{"id": "C129", "title": "What the core consistency does not depend on", "statement": "core_consistency does not change when the components are listed in another order, when signs are moved between the columns of a component, when scale is moved between the columns of a component, when rows of the data and of the factor matrices are listed in another order, or when the modes of the data and of the model are listed in another order.", "quantifier": "all third-order tensors, all factor matrices with independent columns, all permutations, all signs, all positive scalings", "why_tests_cant": "the value is the solution of a least squares problem with a Kronecker product; equality for all real inputs cannot be tested", "anchors": ["src/tenkit/metrics.py:core_consistency", "src/tenkit/utils.py:normalize_factors"]}
{"id": "C130", "title": "The order of the modes", "statement": "Listing the modes of a CP model in another order transposes its tensor. It changes neither the error against the data transposed alike, nor the factor match score and the best assignment, nor the degeneracy scores. A fit of the transposed data from the start transposed alike gives the transposed model.", "quantifier": "all orders of the modes, all numbers of modes and sizes, all models and data", "why_tests_cant": "all orders and all real entries are infinitely many cases; whether a fit depends on the order of its updates cannot be seen from examples in which it does not", "anchors": ["src/tenkit/decomposition/decompositions.py:KruskalTensor", "src/tenkit/metrics.py:factor_match_score", "src/tenkit/decomposition/cp.py:CP_ALS"]}
{"id": "C131", "title": "Relations between samples carry over to the scores", "statement": "If a linear combination of the slices of the data along a mode is zero (two samples are equal, one is the sum of two others, one has no signal at all), the same combination of the rows of the fitted factor matrix of this mode is zero, whatever the start, the constraints and the penalties; in a mode with a non-negativity constraint this is claimed for equal samples only. For PARAFAC2 this concerns the factor A (rows of all slices) and the evolving factors (columns of one slice); for coupled problems the relation has to hold in the coupled matrices too, and one between the columns of a coupled matrix holds between the rows of its right factor.", "quantifier": "all data, relations, starts, numbers of components, constraints, penalties and numbers of iterations from one on", "why_tests_cant": "relations between real data, constraints and iterations are infinitely many cases; after rounding a test cannot tell a relation that holds from one that nearly holds", "anchors": ["src/tenkit/base.py:rightsolve", "src/tenkit/decomposition/cp.py:CP_ALS", "src/tenkit/decomposition/parafac2.py:Parafac2_ALS", "src/tenkit/decomposition/cmtf.py:CMTF_ALS"]}
{"id": "C132", "title": "Fits of compressed data", "statement": "Let the data be those of a smaller tensor, multiplied along a mode without constraints by a matrix with orthonormal columns (data reduced to a basis before the analysis, rotated axes, samples without any signal appended). The fit of the large data from the start multiplied alike is the fit of the small data: the same number of iterations, errors and stopping decisions, equal factors in the other modes, and in this mode the factor of the small fit times the matrix. For PARAFAC2 this holds for the common mode A of the slices, with equal evolving factors. For coupled problems the matrices coupled to this mode are multiplied as well; weights and right factors are equal.", "quantifier": "all data, sizes, matrices with orthonormal columns, starts, penalties, constraints of the other modes (coupled problems: no constraints and penalties) and numbers of iterations", "why_tests_cant": "bases and data are real matrices of any size; rounding makes the two fits of a test differ, so it cannot tell whether they agree exactly", "anchors": ["src/tenkit/base.py:rightsolve", "src/tenkit/decomposition/cp.py:CP_ALS", "src/tenkit/decomposition/parafac2.py:Parafac2_ALS", "src/tenkit/decomposition/cmtf.py:CMTF_ALS"]}
{"id": "C133", "title": "Layout of the files", "statement": "A program that opens a stored decomposition without tenkit finds everything under fixed names: the attribute type with the name of the class, the number of matrices, the matrices as datasets with the documented prefix and a number padded to three digits, in order, and nothing else; and every group with these names, whoever wrote it and whatever else it contains, is loaded as that decomposition. A checkpoint file names the class of the decomposer in the attribute decomposition_type, however the fit that wrote it has ended.", "quantifier": "all decompositions, numbers of matrices (also above 999), groups, fits, starts, and exceptions at any point", "why_tests_cant": "the numbers of matrices, the other contents of the groups and the points at which a fit can fail are unbounded", "anchors": ["src/tenkit/decomposition/decompositions.py:KruskalTensor", "src/tenkit/decomposition/decompositions.py:Parafac2Tensor", "src/tenkit/decomposition/decompositions.py:EvolvingTensor", "src/tenkit/decomposition/base_decomposer.py:BaseDecomposer.store_checkpoint", "src/tenkit/decomposition/cmtf.py:CMTF_ALS"]}
{"id": "C134", "title": "Reported errors in floating point", "statement": "In floating point, with any order of summation and with or without fused multiply-adds, the squared error that CP_ALS reports differs from the squared error of its decomposition by at most what a number of roundings, linear in the size of the problem, can make of the terms it is computed from; it is not negative, and never is more than all of the variance explained. The same bound holds for each entry of the tensor that construct_tensor returns.", "quantifier": "all roundings with a relative error of at most u (among them double precision without over- and underflow), all data, decompositions, modes and orders of summation", "why_tests_cant": "unit tests see one rounding mode, one order of summation and a few data sets", "anchors": ["src/tenkit/decomposition/cp.py:BaseCP.SSE", "src/tenkit/decomposition/decompositions.py:KruskalTensor.construct_tensor", "src/tenkit/base.py:khatri_rao", "src/tenkit/base.py:matrix_khatri_rao_product", "src/tenkit/decomposition/base_decomposer.py:BaseDecomposer.explained_variance"]}
{"id": "C135", "title": "Reported errors of PARAFAC2 and coupled models in floating point", "statement": "In floating point, with any order of summation and with or without fused multiply-adds, the squared error that Parafac2_ALS or CMTF_ALS reports is not negative, no more than all of the variance is reported as explained, and the error differs from the squared error of the current model by at most what a number of roundings, linear in the size of the problem, can make of the terms it is computed from.", "quantifier": "all roundings with a relative error of at most u (for the explained variance: that do not carry numbers across one), all data, sizes of slices, numbers of coupled matrices and orders of summation", "why_tests_cant": "unit tests see one rounding mode, one order of summation and a few data sets", "anchors": ["src/tenkit/decomposition/parafac2.py:BaseParafac2.SSE", "src/tenkit/decomposition/cmtf.py:CMTF_ALS.SSE", "src/tenkit/decomposition/cmtf.py:CMTF_ALS.coupled_factor_matrices_SSE", "src/tenkit/decomposition/decompositions.py:EvolvingTensor.construct_slices", "src/tenkit/decomposition/base_decomposer.py:BaseDecomposer.explained_variance"]}
{"id": "C136", "title": "Factor match score in floating point", "statement": "In floating point, with any order of summation and with or without fused multiply-adds, factor_match_score returns a score within delta of the score in exact arithmetic, at most 1 + delta, and an assignment of components whose exact score is within 2 delta of the best; delta depends on the numbers of rows, modes and components only (in double precision: their number of roundings divided by 2^52), not on the entries.", "quantifier": "all roundings with a relative error of at most u <= 1/2, all factor matrices with matching numbers of rows in which no zero component meets a zero component, both reductions, with and without the size penalty, all orders of summation", "why_tests_cant": "unit tests compare with a tolerance on a few random factors; badly scaled columns and ties between assignments are not sampled", "anchors": ["src/tenkit/metrics.py:_factor_match_score", "src/tenkit/metrics.py:factor_match_score", "src/tenkit/metrics.py:weight_score", "src/tenkit/utils.py:normalize_factors"]}
{"id": "C137", "title": "Movement and limits of coupled fits", "statement": "When CMTF_ALS runs without constraints and penalties and with coupling modes given as 0, 1, ..., each iteration moves the coupled model (the tensor and those coupled matrices that are the first of their mode, all with unit weights) by at most the number of modes plus one times the decrease of the coupled error, so the squared movements of a fit sum up to at most a multiple of its total decrease and tend to zero. If the matrices converge, no change of a single factor matrix or right factor of the limit lowers the coupled error, and the gradient of the coupled error vanishes there. The same holds for every accumulation point at which, for each mode, the rank-one terms formed by the other modes are linearly independent.", "quantifier": "all data, starts, ranks, numbers of modes and of coupled matrices, SVD routines and numbers of iterations", "why_tests_cant": "a limit is not reached in any test, and a test sees the movement in one fit only", "anchors": ["src/tenkit/decomposition/cmtf.py:CMTF_ALS._update_als_factors", "src/tenkit/decomposition/cmtf.py:CMTF_ALS._get_als_lhs", "src/tenkit/decomposition/cmtf.py:CMTF_ALS._get_als_rhs", "src/tenkit/decomposition/cmtf.py:CMTF_ALS._update_uncoupled_matrix_factors", "src/tenkit/decomposition/cp.py:CP_ALS._fit"]}
{"id": "C138", "title": "Factor matrices that do not fit the tensor", "statement": "matrix_khatri_rao_product raises an error for factor matrices whose numbers of rows do not match the tensor, so that a wrong shape never gives a result that looks like an MTTKRP.", "quantifier": "all tensors, modes, ranks and sizes of factor matrices", "why_tests_cant": "shapes can disagree in infinitely many ways, and the paths for the modes behave differently", "anchors": ["src/tenkit/base.py:matrix_khatri_rao_product", "src/tenkit/base.py:_mttkrp3", "src/tenkit/base.py:_mttkrp_mid_with_krp"]}
{"id": "C139", "title": "Limits of PARAFAC2 fits", "statement": "If the matrices of Parafac2_ALS fits with more and more iterations converge, without constraints and penalties, the limit cannot be improved by changing the projection matrices, A, the blueprint matrix or C alone, and is a stationary point of the error; this also holds for limits of subsequences whose factor matrices are not degenerate.", "quantifier": "all data, ranks, starts, numbers of inner updates, and infinite runs", "why_tests_cant": "statements about infinite runs cannot be observed in any finite test", "anchors": ["src/tenkit/decomposition/parafac2.py:Parafac2_ALS._update_parafac2_factors", "src/tenkit/decomposition/parafac2.py:BaseParafac2._update_projection_matrices", "src/tenkit/decomposition/parafac2.py:Parafac2_ALS._fit", "src/tenkit/decomposition/cp.py:CP_ALS._update_als_factors"]}
{"id": "C140", "title": "Normalising a Kruskal tensor in floating point", "statement": "normalize_components in floating point leaves columns of length n / (n + eps), n the length of the old column, changes the weights by the product of the lengths, and changes every entry of the tensor only by the guard eps and by rounding: in double precision by at most N / 2^52 + the sum of eps / (n + eps) over the modes, relative to the terms behind the entry, with N two for every row of a factor matrix plus five for every mode. With update_weights=False the weights stay as they are.", "quantifier": "all Kruskal tensors, guards, rounding functions with relative error at most 1/2, and orders of summation", "why_tests_cant": "rounding errors depend on the numbers, and on the order in which the library sums", "anchors": ["src/tenkit/decomposition/decompositions.py:KruskalTensor.normalize_components"]}
{"id": "C141", "title": "Exact models are the same", "statement": "Two Kruskal tensors with the same number of components that represent the same tensor have the same components up to their order, and a factor match score of one up to the guard eps, if two of the factor matrices of one of them have linearly independent columns and no two of its components are proportional in the other modes. Hence fits that report the error zero found the same components, and those the data were built from. With two modes this fails.", "quantifier": "all tensors with any number of modes, all ranks, all decompositions", "why_tests_cant": "uniqueness quantifies over all decompositions of a tensor", "anchors": ["src/tenkit/decomposition/decompositions.py:KruskalTensor.construct_tensor", "src/tenkit/decomposition/decompositions.py:KruskalTensor.factor_match_score", "src/tenkit/metrics.py:factor_match_score", "src/tenkit/decomposition/cp.py:BaseCP.SSE"]}
{"id": "C142", "title": "Sizes of components and existence of best models", "statement": "With non-negativity constraints on all modes, or an orthonormal factor matrix in one mode, the components of a model cannot cancel: after a fit with non-negativity constraints and at least one iteration no component is larger than the norm of the data plus the square root of the reported SSE. Every tensor has a best non-negative model, a best model with an orthonormal mode, a best model with one component, and (with positive ridge penalties on all modes) a model with the least documented loss. Without such constraints there need not be a best model: there is a tensor that two components fit with arbitrarily small errors but not exactly, and whenever a tensor is not the sum of R components, models with R components and small errors have large components.", "quantifier": "all tensors, all ranks, all decompositions, all fits", "why_tests_cant": "existence of a minimum, and its absence, quantify over all decompositions", "anchors": ["src/tenkit/decomposition/cp.py:CP_ALS", "src/tenkit/decomposition/cp.py:BaseCP.SSE", "src/tenkit/decomposition/cp.py:BaseCP.loss", "src/tenkit/decomposition/decompositions.py:KruskalTensor.construct_tensor"]}
{"id": "C143", "title": "Exact coupled models are the same", "statement": "Two coupled fits (CMTF_ALS) of the same tensor and matrices that both report the error zero have the same components of the tensor up to their order, and with the same order the same components of every coupled matrix, if the model of the tensor is identifiable (C141) and the factor matrix of the mode of the coupled matrix has linearly independent columns. With dependent columns the components of the coupled matrix are not determined.", "quantifier": "all data, numbers of modes, ranks and coupled matrices", "why_tests_cant": "uniqueness quantifies over all pairs of exact fits", "anchors": ["src/tenkit/decomposition/cmtf.py:CMTF_ALS.SSE", "src/tenkit/decomposition/cmtf.py:CMTF_ALS.coupled_factor_matrices", "src/tenkit/decomposition/cmtf.py:CMTF_ALS.reconstructed_coupled_matrices"]}
{"id": "C144", "title": "A PARAFAC2 fit is not worse than its start", "statement": "After an unconstrained fit of Parafac2_ALS without penalties of k iterations from orthonormal projection matrices, SSE is at most (1 + 2d) times the error of the start plus (2k + 1) d times the sum of the squares of the data, where d is the rank times the largest number of columns of a slice times 1e-16 (orthogonal_solve treats small singular values as zero). In particular a start that reproduces the data is kept up to that bound, and exactly if the singular values of the slices that the rank needs are not treated as zero.", "quantifier": "all data, sizes of slices, ranks, starts, numbers of iterations and cp_updates > 0", "why_tests_cant": "bounds the worst case over all data and all lengths of runs; C53 shows that the error can increase in a step", "anchors": ["src/tenkit/decomposition/parafac2.py:Parafac2_ALS._fit", "src/tenkit/decomposition/parafac2.py:BaseParafac2._update_projection_matrices", "src/tenkit/base.py:orthogonal_solve"]}
{"id": "C145", "title": "Fits without random start are reproducible", "statement": "A fit whose start is given, computed by SVD or loaded from a file gives the same result, logs and checkpoints whatever numbers the random generator produces.", "quantifier": "all data, options, starts and random numbers", "why_tests_cant": "reproducibility quantifies over all states of the random generator", "anchors": ["src/tenkit/decomposition/cp.py:CP_ALS.init_components", "src/tenkit/decomposition/parafac2.py:BaseParafac2.init_components", "src/tenkit/decomposition/cmtf.py:CMTF_ALS._init_coupled_matrices"]}
{"id": "C146", "title": "Components that start equal or zero", "statement": "Without constraints and penalties, a fit does not separate components whose columns are equal at the start up to signs that multiply to one (CP_ALS, Parafac2_ALS), and does not change columns of a component that are zero at the start in two modes (in CMTF_ALS two modes without coupled matrices): such starts fit fewer components than asked for.", "quantifier": "all data, ranks, starts of this kind and numbers of iterations", "why_tests_cant": "an invariant of all iterations for all data; it also depends on which of the least squares solutions is returned when the problem is singular", "anchors": ["src/tenkit/decomposition/cp.py:CP_ALS._fit", "src/tenkit/decomposition/parafac2.py:Parafac2_ALS._fit", "src/tenkit/decomposition/cmtf.py:CMTF_ALS._fit", "src/tenkit/base.py:rightsolve"]}
{"id": "C147", "title": "PARAFAC2 data with one component are recovered", "statement": "If the slices of the data are outer products X_k = a x_k^T with the same vector a and no x_k zero, a Parafac2_ALS fit of rank one without constraints and penalties, with at least one CP update per iteration and a positive number of iterations, runs at least one iteration, ends with SSE 0 and orthonormal projection matrices, and reproduces every entry of the data, from any start in which the column of A is not orthogonal to a and blueprint_B and C have no zeros.", "quantifier": "all such data with fewer than 10^16 columns per slice, starts, configurations and numbers of iterations", "why_tests_cant": "a test samples a few data sets and starts, and cannot tell an exact recovery in one iteration from convergence", "anchors": ["src/tenkit/decomposition/parafac2.py:Parafac2_ALS._fit", "src/tenkit/decomposition/parafac2.py:BaseParafac2._update_projection_matrices", "src/tenkit/decomposition/parafac2.py:Parafac2_ALS._update_parafac2_factors", "src/tenkit/base.py:orthogonal_solve"]}
{"id": "C148", "title": "Exact PARAFAC2 models are the same", "statement": "Two PARAFAC2 models with the same number R of components and orthonormal projection matrices that have the same slices have the same components up to their order, if A and the blueprint of one of them have linearly independent columns and the rows of its C are in general position (no nonzero form of degree four vanishes on all of them): there is a permutation such that corresponding components add the same to every entry of every slice, the columns of A are multiples of each other, and the absolute values of the columns of C are too. So two Parafac2_ALS fits of the same data with SSE 0 found the same components, and a fit with SSE 0 of data built from a Parafac2Tensor found the components of that tensor.", "quantifier": "all Parafac2Tensors and fits of any numbers of slices, sizes of slices and components", "why_tests_cant": "uniqueness is a statement about all other models of the same data; tests compare one fit with one truth", "anchors": ["src/tenkit/decomposition/decompositions.py:Parafac2Tensor.construct_slices", "src/tenkit/decomposition/parafac2.py:Parafac2_ALS.SSE", "src/tenkit/decomposition/decompositions.py:Parafac2Tensor.factor_match_score"]}
{"id": "C149", "title": "Factor match score of equal PARAFAC2 models", "statement": "Two identifiable PARAFAC2 models with the same slices (C148) and slices of one size have a factor match score that is one up to the guard in the denominators.", "quantifier": "all such pairs of Parafac2Tensors, with and without weight penalty, for both reductions", "why_tests_cant": "tests score a few pairs of models, mostly the truth against itself", "anchors": ["src/tenkit/decomposition/decompositions.py:Parafac2Tensor.factor_match_score", "src/tenkit/metrics.py:factor_match_score"]}
{"id": "C150", "title": "Coupled data with one component are recovered", "statement": "If the tensor is a single outer product that is not zero and the coupled matrices are outer products that share its columns, CMTF_ALS with one component and without constraints finds the component: after two iterations (after one, if the last mode has no coupled matrix) the fitted model reproduces the tensor and the matrices, provided some mode has no coupled matrix and no column becomes zero on the way, which is so if the start and the drawn numbers have positive inner products with the columns of the data.", "quantifier": "all such tensors and matrices of any orders and sizes, all starts and draws with positive inner products", "why_tests_cant": "recovery in two iterations for all data and starts; tests fit a few random problems and look at the factors, not at the reconstruction", "anchors": ["src/tenkit/decomposition/cmtf.py:CMTF_ALS._update_als_factors", "src/tenkit/decomposition/cmtf.py:CMTF_ALS._update_uncoupled_matrix_factors", "src/tenkit/decomposition/cmtf.py:CMTF_ALS._init_fit"]}
{"id": "C151", "title": "Limits of fits with non-negative factor matrices", "statement": "If the factor matrices of CP_ALS fits with non-negative modes and more and more iterations converge, the limit is optimal mode by mode: no change of a single factor matrix that keeps the required signs lowers the squared error.", "quantifier": "all tensors, ranks, flags and starts for which the factor matrices converge", "why_tests_cant": "optimality of a limit over all matrices of a mode; a test sees finitely many iterations and compares with few alternatives", "anchors": ["src/tenkit/decomposition/cp.py:CP_ALS._update_als_factor", "src/tenkit/decomposition/cp.py:CP_ALS._fit", "src/tenkit/base.py:non_negative_rightsolve"]}
{"id": "C152", "title": "Limits of fits with ridge penalties", "statement": "If the factor matrices of CP_ALS fits with ridge penalties and more and more iterations converge, the limit is optimal mode by mode: no admissible change of a single factor matrix lowers the documented loss, the squared error plus the penalties.", "quantifier": "all tensors, ranks, non-negative penalties, flags and starts for which the factor matrices converge", "why_tests_cant": "optimality of a limit over all matrices of a mode; a test sees finitely many iterations and compares with few alternatives", "anchors": ["src/tenkit/decomposition/cp.py:CP_ALS._update_als_factor", "src/tenkit/decomposition/cp.py:CP_ALS._fit", "src/tenkit/base.py:add_rightsolve_ridge"]}
{"id": "C153", "title": "Fits of matrices approach the truncated SVD", "statement": "Given a matrix whose R-th singular value is larger than the next, CP_ALS with R components, without constraints or penalties, approaches the best approximation of that rank: the reported error differs from the smallest possible by at most a multiple of the ratio of the two singular values to the power 4k after k + 1 iterations, and so does the model from the truncated singular value decomposition.", "quantifier": "all matrices with such a gap, all ranks and all starts whose second factor matrix has an invertible product with the leading right singular vectors (needed: a start orthogonal to them stays away for ever); fits of any length", "why_tests_cant": "a rate of convergence to a global optimum; a test observes finitely many iterations of finitely many matrices", "anchors": ["src/tenkit/decomposition/cp.py:CP_ALS._update_als_factor", "src/tenkit/decomposition/cp.py:CP_ALS._update_als_factors", "src/tenkit/decomposition/cp.py:CP_ALS._fit", "src/tenkit/base.py:rightsolve"]}
{"id": "C154", "title": "SVD start of a matrix gives the best model", "statement": "With init='svd' the model of a matrix after one or more iterations is a best approximation: no pair of factor matrices with the same number of components has a smaller squared error.", "quantifier": "all matrices, all ranks not larger than both sizes, all numbers of iterations, any routine with the contract of np.linalg.svd; no gap between singular values", "why_tests_cant": "comparison with all models; tests compare with few", "anchors": ["src/tenkit/decomposition/cp.py:BaseCP.init_svd", "src/tenkit/decomposition/cp.py:CP_ALS._update_als_factor", "src/tenkit/decomposition/cp.py:CP_ALS._fit", "src/tenkit/decomposition/cp.py:BaseCP.SSE"]}
{"id": "C155", "title": "Models explain at most as much as principal components", "statement": "The error reported by a fit with R components is at least what the R leading principal components leave of the unfolded data: for CP_ALS of every unfolding, for Parafac2_ALS of the slices side by side, for CMTF_ALS of an unfolding with the matrices coupled to its mode beside it.", "quantifier": "all data, ranks, constraints, penalties, starts and numbers of iterations", "why_tests_cant": "a lower bound for the errors of all models; a test looks at few of them", "anchors": ["src/tenkit/decomposition/cp.py:BaseCP.SSE", "src/tenkit/decomposition/cp.py:CP_ALS._fit", "src/tenkit/decomposition/parafac2.py:BaseParafac2.SSE", "src/tenkit/decomposition/cmtf.py:CMTF_ALS.SSE"]}
{"id": "C156", "title": "The lengths of the columns of the start do not matter", "statement": "Two starts of CP_ALS whose factor matrices differ only by factors on the columns (and arbitrarily in the first mode) give the same model and the same reported error after the same number of iterations; the columns of the results still differ by these factors. If both fits perform more than one iteration, they perform the same number.", "quantifier": "all data, ranks, starts and factors other than zero, without constraints and penalties, as long as no update is underdetermined (the rank-one terms of the other modes are linearly independent)", "why_tests_cant": "relates two fits over all starts and scales", "anchors": ["src/tenkit/decomposition/cp.py:CP_ALS._update_als_factors", "src/tenkit/decomposition/cp.py:CP_ALS._fit", "src/tenkit/decomposition/cp.py:BaseCP.init_components"]}
{"id": "C157", "title": "Fits depend continuously on the data and the start", "statement": "If data converge to X and starts converge to t (in the modes after the first), then the factor matrices, the models and the reported errors of the fits of CP_ALS with a given number of iterations converge to those of the fit of X from t: small changes of the data or the start lead to small changes of the result.", "quantifier": "all convergent sequences of data and starts, all ranks and numbers of iterations, without constraints and penalties, as long as no update of the limiting fit is underdetermined", "why_tests_cant": "a statement about limits over all sequences of inputs", "anchors": ["src/tenkit/decomposition/cp.py:CP_ALS._update_als_factor", "src/tenkit/decomposition/cp.py:CP_ALS._fit", "src/tenkit/base.py:rightsolve"]}
{"id": "C158", "title": "Stricter tolerances and larger budgets", "statement": "A fit with smaller tolerances and a larger max_its, of the same data from the same start, performs at least as many iterations, and passes through the result of the other fit: its result is what further iterations make of that result. Without constraints and penalties the error of CP_ALS is not larger.", "quantifier": "all data, ranks, starts, constraints, pairs of tolerances and budgets; CP_ALS, CMTF_ALS and Parafac2_ALS", "why_tests_cant": "relates two runs with unbounded numbers of iterations for all options", "anchors": ["src/tenkit/decomposition/cp.py:CP_ALS._fit", "src/tenkit/decomposition/parafac2.py:Parafac2_ALS._fit", "src/tenkit/decomposition/base_decomposer.py:BaseDecomposer.fit"]}
{"id": "C159", "title": "The tolerances bound the number of iterations", "statement": "If (1 - convergence_tol)^N < rel_loss_tol, a fit of CP_ALS of any tensor that is not zero makes at most N + 1 iterations, whatever the start and max_its are: the bound does not depend on the data. With the default tolerances this is at most 24000001. For CMTF_ALS with starts of norm product one the same holds if (1 - convergence_tol)^N times the sum of the squared norms of tensor and matrices is below rel_loss_tol times the squared norm of the tensor.", "quantifier": "all tensors that are not zero, ranks, starts and budgets, without constraints and penalties; with one component also with non-negative factor matrices", "why_tests_cant": "a bound over all data and unbounded runs", "anchors": ["src/tenkit/decomposition/cp.py:CP_ALS._fit", "src/tenkit/decomposition/cp.py:CP_ALS._update_als_factor", "src/tenkit/decomposition/cp.py:CP_ALS._update_convergence"]}
{"id": "C160", "title": "A fit is at least as good as the models in its start", "statement": "A fit of CP_ALS that makes an iteration ends with an error that is at most that of any model, of any number of components, weights and first factor matrix, whose columns in the modes after the first are multiples of columns of the start. In particular a fit with more components, started from the result of another fit and any further columns, is not worse than that fit.", "quantifier": "all tensors, ranks, starts, models and budgets, without constraints and penalties", "why_tests_cant": "relates a run of any length to infinitely many models", "anchors": ["src/tenkit/decomposition/cp.py:CP_ALS._fit", "src/tenkit/decomposition/cp.py:CP_ALS._update_als_factor"]}
{"id": "C161", "title": "Explained variance of coupled models", "statement": "After a fit of CMTF_ALS to a tensor that is not zero, explained_variance is between 0 and 1, and it is 1 exactly if the model reproduces the tensor and all coupled matrices.", "quantifier": "all tensors, coupled matrices, modes, ranks, starts, options and budgets", "why_tests_cant": "a fit of any length to arbitrary coupled data", "anchors": ["src/tenkit/decomposition/base_decomposer.py:BaseDecomposer.explained_variance", "src/tenkit/decomposition/cmtf.py:CMTF_ALS.SSE"]}
{"id": "C162", "title": "The factor match score is continuous", "statement": "If the entries of the factor matrices converge, factor_match_score converges to the score of the limits, for both reductions, with and without the size penalty: small changes of the decompositions change the score little. In particular, fits of data that converge have, compared with the fit of the limit, scores that converge to the score of that fit with itself.", "quantifier": "all converging sequences of factor matrices of any sizes and numbers of components, at all limits", "why_tests_cant": "a statement about limits of scores over infinitely many pairs of decompositions", "anchors": ["src/tenkit/metrics.py:factor_match_score"]}
{"id": "C163", "title": "The reported error, the noise and the distance to the truth", "statement": "If the data (for CMTF_ALS the tensor and the coupled matrices together) are the sum of some truth and noise, the distance of the fitted model to the truth is at least the difference and at most the sum of the square root of the reported SSE and the norm of the noise. A fit of CP_ALS without constraints and penalties that makes an iteration, and whose start contains the columns of the truth in the modes after the first, is not further from the truth than twice the norm of the noise.", "quantifier": "all tensors, slices, truths, noise, starts, constraints, penalties and budgets (positive for CP_ALS and CMTF_ALS) of CP_ALS, Parafac2_ALS and CMTF_ALS", "why_tests_cant": "quantifies over all truths and runs of any length; tests only compare with a known truth up to a tolerance", "anchors": ["src/tenkit/decomposition/cp.py:CP_ALS._fit", "src/tenkit/decomposition/cp.py:BaseCP.SSE", "src/tenkit/decomposition/parafac2.py:Parafac2_ALS._fit", "src/tenkit/decomposition/parafac2.py:BaseParafac2.SSE", "src/tenkit/decomposition/cmtf.py:CMTF_ALS.SSE"]}
{"id": "C164", "title": "Fits keep the symmetries of the data and the start", "statement": "If exchanging rows of the modes leaves the data and the initial decomposition as they are, it leaves the fitted decomposition as it is, whatever the budget. So a fit from a symmetric start never finds a better model that is not symmetric: from equal rows, a fit of [[2,-1],[-1,2]] with one component ends with an error of at least 9, although a model with error 1 exists.", "quantifier": "all tensors, slices and coupled matrices, all permutations of the rows (not of modes with an orthonormality constraint), starts, budgets; for CP_ALS and Parafac2_ALS all non-negativity constraints and penalties, for CMTF_ALS none", "why_tests_cant": "a statement about runs of any length on infinitely many symmetric data sets", "anchors": ["src/tenkit/decomposition/cp.py:CP_ALS._fit", "src/tenkit/decomposition/parafac2.py:Parafac2_ALS._fit", "src/tenkit/decomposition/cmtf.py:CMTF_ALS._fit"]}
{"id": "C165", "title": "Core consistency of fits with one component", "statement": "After every fit of CP_ALS or Parafac2_ALS with one component that makes an iteration and does not end with the zero model, core_consistency (core_consistency_parafac2) of the fitted decomposition is 100 up to the eps guard of the normalisation, whatever the data, the start and the explained variance are; so it cannot warn of a bad fit with one component.", "quantifier": "all third-order tensors and lists of slices, starts, budgets, non-negativity of any modes, and for CP_ALS orthonormality of the modes before the last; no penalties", "why_tests_cant": "the value after runs of any length on any data; tests use exact data only", "anchors": ["src/tenkit/decomposition/cp.py:CP_ALS._fit", "src/tenkit/decomposition/parafac2.py:Parafac2_ALS._fit", "src/tenkit/metrics.py:core_consistency", "src/tenkit/metrics.py:core_consistency_parafac2", "src/tenkit/decomposition/decompositions.py:KruskalTensor.core_consistency"]}
{"id": "C166", "title": "Fitted models are not longer than the data", "statement": "After every fit of CP_ALS or Parafac2_ALS that makes an iteration, construct_tensor (construct_slices) of the fitted decomposition has at most the norm of the data, and so no entry is larger than this norm, however large single components become (degeneracy).", "quantifier": "all tensors and lists of slices, ranks, starts, budgets, constraints on the modes before the last (Parafac2_ALS: non-negativity), ridge penalties that are not negative; with one component also non-negativity of any modes, with and without penalties", "why_tests_cant": "a bound for all data and runs; the components themselves are not bounded", "anchors": ["src/tenkit/decomposition/cp.py:CP_ALS._fit", "src/tenkit/decomposition/parafac2.py:Parafac2_ALS._fit", "src/tenkit/decomposition/decompositions.py:KruskalTensor.construct_tensor", "src/tenkit/decomposition/decompositions.py:Parafac2Tensor.construct_slices"]}
