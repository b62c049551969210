#!/usr/bin/env python3
"""Writes /verif/properties.jsonl (one property per line)."""
import json, os
P = []
def p(title, statement, quantifier, why, *anchors):
    P.append(dict(id=f"C{len(P)+1:02d}", title=title, statement=statement, quantifier=quantifier,
                  why_tests_cant=why, anchors=list(anchors)))
B="src/tenkit/base.py"; U="src/tenkit/utils.py"; M="src/tenkit/metrics.py"; L="src/tenkit/log.py"
D="src/tenkit/decomposition/decompositions.py"; BD="src/tenkit/decomposition/base_decomposer.py"
CP="src/tenkit/decomposition/cp.py"; CM="src/tenkit/decomposition/cmtf.py"; P2="src/tenkit/decomposition/parafac2.py"
LG="src/tenkit/decomposition/logging/logger.py"

p("unfold places every entry", "unfold(A, n) is a matrix with A.shape[n] rows whose entry (i_n, j) is A[i_0,...,i_{d-1}], where j is the C-order (row-major) position of the remaining indices in the remaining shape; it never loses, duplicates or reorders entries. Negative modes count from the end; a mode outside [-d, d) or an empty mode is rejected with an exception.",
  "every array, every number of modes and sizes, every mode (also negative and out of range)", "infinitely many shapes and numbers of modes; the existing tests only exercise order 3", f"{B}:unfold")
p("fold inverts unfold", "fold(unfold(A, n), n, A.shape) returns an array equal to A.", "every array, order, shape and valid (also negative) mode", "all orders and shapes", f"{B}:fold", f"{B}:unfold")
p("unfold inverts fold", "For a matrix M whose size is compatible with shape along mode n, unfold(fold(M, n, shape), n) equals M; if the sizes do not match, fold raises ValueError.", "every matrix, shape and valid mode", "all shapes", f"{B}:fold", f"{B}:unfold")
p("khatri_rao is the column-wise Kronecker product", "khatri_rao(F_1,...,F_k) has prod(rows) rows, and its entry at row (C-order position of (i_1,...,i_k)) and column r is the product of F_m[i_m, r]. The result does not depend on what np.empty returned. skip=m gives the product without the m-th factor, also for negative m.", "every list of at least one matrix with equal column counts, every skip", "arbitrary number of factors and sizes, arbitrary uninitialised memory", f"{B}:khatri_rao", f"{B}:khatri_rao_binary")
p("kron is the Kronecker product", "kron(F_1,...,F_k) has entry prod F_m[i_m, j_m] at (C-order position of i, C-order position of j).", "every list of at least one matrix", "arbitrary number and sizes of factors", f"{B}:kron", f"{B}:kron_binary")
p("Gram matrix of a Khatri-Rao product", "The matrix that CP_ALS uses on the left-hand side of its least-squares problem (the entrywise product of the Gram matrices of all factors but one) equals K^T K for K = khatri_rao(factors, skip=mode).", "every list of factor matrices with equal rank, every mode", "all sizes, ranks and numbers of modes", f"{CP}:CP_ALS._get_als_lhs", f"{B}:khatri_rao")
p("matrix_khatri_rao_product is the MTTKRP", "matrix_khatri_rao_product(X, factors, mode) returns the matrix whose entry (i, r) is the sum over all indices with i_mode = i of X[index] times the product over the other modes of factors[m][i_m, r]; in particular the three-mode fast paths agree with the general path.", "every tensor, every number of modes >= 2, every mode documented as valid", "all sizes; fast path versus general path for every size", f"{B}:matrix_khatri_rao_product", f"{B}:_mttkrp3", f"{B}:_mttkrp_mid", f"{B}:_mttkrp_mid_with_krp")
p("KruskalTensor.construct_tensor is the weighted sum of rank-one terms", "construct_tensor() has shape (rows of each factor) and entry [i_0,...,i_{d-1}] = sum_r w_r * prod_m U_m[i_m, r].", "every Kruskal tensor with at least two modes", "all orders, sizes and ranks", f"{D}:KruskalTensor.construct_tensor")
p("unfolding of a Kruskal tensor", "unfold(construct_tensor(), n) = U_n diag(w) khatri_rao(factors, skip=n)^T for every mode n; this is the identity on which ALS rests.", "every Kruskal tensor with at least two modes, every mode", "all orders, sizes, ranks", f"{D}:KruskalTensor.construct_tensor", f"{B}:unfold", f"{B}:khatri_rao")
p("flatten_factors / unflatten_factors are inverse", "unflatten_factors(flatten_factors(F), rank, sizes) equals F, and flatten_factors(unflatten_factors(v, rank, sizes)) equals v when v has the matching length, whatever np.empty returned; the list of no factor matrices raises TypeError.", "every non-empty list of factor matrices of equal rank, every vector of matching length", "all list lengths and sizes", f"{B}:flatten_factors", f"{B}:unflatten_factors")
p("rightsolve returns a least-squares solution", "X = rightsolve(A, B) minimises ||X A - B||_F over all X, and among the minimisers it has the least Frobenius norm; if some X0 satisfies X0 A = B then X A = B.", "every pair of real matrices with the same number of columns, also rank deficient and zero A", "quantifies over all competitors X and all (also singular) A", f"{B}:rightsolve")
p("ridge rightsolve minimises the ridge objective", "add_rightsolve_ridge(rightsolve, l)(A, B) minimises ||X A - B||^2 + l ||X||^2 over all X, for l >= 0, and is the only minimiser when l > 0; with non_negative_rightsolve it minimises the same objective over non-negative X.", "every A, B and l >= 0", "quantifies over all competitors", f"{B}:add_rightsolve_ridge", f"{B}:rightsolve", f"{B}:non_negative_rightsolve")
p("non_negative_rightsolve is feasible and optimal", "non_negative_rightsolve(A, B) has only non-negative entries and minimises ||X A - B||_F over all entrywise non-negative X. (A one-dimensional B, which the code explicitly handles, is treated as a single row.)", "every A, B of matching size", "quantifies over all feasible competitors", f"{B}:non_negative_rightsolve")
p("orthogonal_solve returns an orthonormal minimiser", "X = orthogonal_solve(A, B) has orthonormal rows (X X^T = I) and minimises ||A X - B||_F among all such X; orthogonal_rightsolve is its transposed counterpart.", "every A (n x r), B (n x m) with r <= m", "quantifies over all orthonormal competitors and includes rank-deficient B^T A", f"{B}:orthogonal_solve", f"{B}:orthogonal_rightsolve")
p("KruskalTensor construction validates its arguments", "KruskalTensor(F, w) succeeds exactly when all factor matrices have the same number of columns and w is None or has that many entries, and raises ValueError otherwise; omitted weights are all one.", "every non-empty list of matrices, every weight vector", "all shapes", f"{D}:KruskalTensor.__init__")
p("normalize_components keeps the tensor", "normalize_components() leaves every entry of construct_tensor() unchanged up to the documented eps guard: component r is multiplied by exactly prod_m n_mr/(n_mr+eps), where n_mr are the old column norms, so zero columns stay zero and the relative change is at most sum_m eps/(n_mr+eps). Afterwards every column has norm n/(n+eps) <= 1.", "every Kruskal tensor, eps > 0", "all orders and values, including zero columns", f"{D}:KruskalTensor.normalize_components")
p("normalize_factor(s) is exact and safe", "normalize_factor(F) never divides by zero, returns the true column norms, and normalised * (norms + eps) recovers F; each output column has norm n/(n+eps).", "every matrix, every eps > 0", "all values including zero columns", f"{U}:normalize_factor", f"{U}:normalize_factors")
p("components add up to the tensor", "The sum over c of get_single_component_decomposition(c).construct_tensor() equals construct_tensor(), each term has rank 1 and carries the weight of component c.", "every Kruskal tensor with at least two modes", "all orders, sizes, ranks", f"{D}:KruskalTensor.get_single_component_decomposition")
p("KruskalTensor survives store / from_file", "KruskalTensor.from_file(f) after t.store(f) returns a tensor with the same factor matrices in the same order and the same weights; a stored KruskalTensor is rejected by the loader of every other class.", "every Kruskal tensor, any number of modes (also more than 1000, where the 3-digit template overflows)", "any number of factor matrices", f"{D}:KruskalTensor.store_in_hdf5_group", f"{D}:KruskalTensor.load_from_hdf5_group", f"{D}:BaseDecomposedTensor._check_hdf5_group")
p("Parafac2Tensor survives store / from_file", "Parafac2Tensor.from_file(f) after t.store(f) returns the same A, blueprint, C, projection matrices in order, and warning flag.", "every PARAFAC2 tensor, any number of slices", "any number of slices", f"{D}:Parafac2Tensor.store_in_hdf5_group", f"{D}:Parafac2Tensor.load_from_hdf5_group")
p("EvolvingTensor survives store / from_file", "EvolvingTensor.from_file(f) after t.store(f) returns the same A, B_k, C and warning flag.", "every evolving tensor, any number of slices", "any number of slices", f"{D}:EvolvingTensor.store_in_hdf5_group", f"{D}:EvolvingTensor.load_from_hdf5_group")
p("EvolvingTensor.construct_tensor", "construct_slices()[k][i, j] = sum_r A[i,r] C[k,r] B_k[j,r]; construct_tensor() has shape (I, max_k J_k, K), holds slice k in [:, :J_k, k] and zero elsewhere; when slice sizes differ and warning is set it raises Warning instead.", "every evolving tensor, regular or irregular", "all irregular slice-size profiles", f"{D}:EvolvingTensor.construct_slice", f"{D}:EvolvingTensor.construct_slices", f"{D}:EvolvingTensor.construct_tensor", f"{D}:EvolvingTensor.shape")
p("from_kruskaltensor represents the same tensor", "EvolvingTensor.from_kruskaltensor(t).construct_tensor() equals t.construct_tensor() for a third-order t; a t of another order raises ValueError.", "every Kruskal tensor", "all weights, not just ones", f"{D}:EvolvingTensor.from_kruskaltensor")
p("PARAFAC2 constraint", "If every projection matrix P_k has orthonormal columns then B_k^T B_k is the same matrix for all k (it equals blueprint_B^T blueprint_B), also for irregular slices.", "every PARAFAC2 tensor with orthonormal P_k, every pair of slices", "all sizes and numbers of slices", f"{D}:Parafac2Tensor", f"{D}:ProjectedFactor.__getitem__")
p("PARAFAC2 components add up to the slices", "The slices of the single-component decompositions add up to the slices of the PARAFAC2 tensor (regular slice sizes).", "every regular PARAFAC2 tensor", "all sizes and ranks", f"{D}:Parafac2Tensor.get_single_component_decomposition")
p("factor match score is a score in [0, 1] attained by the returned permutation", "For factor lists without zero columns, factor_match_score returns a value in [0, 1] and a permutation which attains that value, no injective assignment of estimated components scores higher, and 'mean'/'min' are the only accepted reductions (ValueError otherwise).", "every pair of factor lists with rank <= estimated rank", "maximum over rank! assignments and all real factor values", f"{M}:factor_match_score", f"{M}:_factor_match_score")
p("factor match score ignores component order and sign", "Permuting the components of the estimate, or flipping signs of any of its columns, does not change the factor match score.", "every permutation, every sign pattern, every factor list", "all permutations and values", f"{M}:factor_match_score", f"{U}:permute_factors")
p("factor match score is symmetric", "factor_match_score(a, b)[0] = factor_match_score(b, a)[0] when both have the same rank.", "every pair of factor lists of equal rank", "all permutations and values", f"{M}:factor_match_score")
p("factor match score of a decomposition with itself", "Comparing a decomposition without zero columns with itself gives prod_m (n_m/(n_m+eps))^2 for each component under the identity permutation, i.e. a score of 1 up to the eps guard, with weight_penalty on or off.", "every factor list without zero columns", "all values", f"{M}:factor_match_score", f"{M}:weight_score")
p("factor match score with too few estimated components", "If the estimate has fewer components than the truth there is no assignment: the function returns (-1, None) rather than raising.", "every pair with estimated rank < rank", "all ranks", f"{M}:factor_match_score")
p("separate_mode_factor_match_score works mode by mode", "separate_mode_factor_match_score returns for each mode the best score over assignments for this mode alone (weights ignored), and the joint factor match score without weight penalty never exceeds any of them; KruskalTensor.seperate_mode_factor_match_score gives the same result; EvolvingTensor.separate_mode_factor_match_score gives the scores of A, of the matrices B_k one below the other, and of C.", "every pair of factor lists", "all permutations", f"{M}:separate_mode_factor_match_score", f"{D}:KruskalTensor.seperate_mode_factor_match_score", f"{D}:EvolvingTensor.separate_mode_factor_match_score")
p("sign canonicalisation", "flip_factors multiplies each column by +1 or -1 (0 only for a zero column), afterwards each non-zero column has a non-negative majority of signs with ties broken so that the first non-zero entry is positive, and applying it twice changes nothing more. The input list is not modified.", "every list of matrices", "all values, tie patterns and zero entries", f"{U}:flip_factors", f"{U}:_find_first_nonzero_sign", f"{U}:prepare_for_comparison")
p("KruskalTensor.get_signs is consistent", "For every component the signs returned for the different modes multiply to +1, so that flipping by them does not change the tensor; at most one mode differs from the sign of its score.", "every Kruskal tensor, every vector of sign scores", "all score patterns, including zero scores", f"{D}:KruskalTensor.get_signs")
p("one ALS update never increases the loss", "Without constraints and penalties, each call that updates one factor of CP_ALS gives the factor which minimises the sum of squared errors over all possible values of that factor; so the SSE never increases, over any number of updates.", "every tensor, order >= 2, rank, state of the factors (also rank deficient), every mode and iteration count", "all real inputs, all iteration counts; tests check monotonicity on random data with rtol 1e-4", f"{CP}:CP_ALS._update_als_factor", f"{CP}:CP_ALS._update_als_factors", f"{B}:rightsolve")
p("the reported SSE is the true SSE", "At every moment during the first fit, decomposer.SSE (which after the first update is computed from cached quantities) equals the sum of squared differences between X and the reconstruction.", "every tensor, every sequence of ALS updates", "all update histories", f"{CP}:BaseCP.SSE", f"{CP}:BaseCP._inner_prod_X_reconstructed_X")
p("a decomposer can be fitted again", "Calling fit a second time on the same CP_ALS object works and behaves like fitting a fresh object.", "every history fit; fit", "histories", f"{CP}:CP_ALS._init_fit", f"{CP}:BaseCP.SSE")
p("ridge-penalised ALS decreases the documented loss", "With ridge_penalties, each factor update does not increase the documented loss L + sum_i l_i ||U_i||^2.", "every tensor, penalties, state", "all inputs", f"{CP}:CP_ALS._get_rightsolve", f"{CP}:BaseCP.loss", f"{B}:add_rightsolve_ridge")
p("non-negative ALS decreases the loss", "With a non-negativity constraint on a mode, updating that mode does not increase the SSE when the current factor is feasible.", "every tensor, state with a feasible factor", "all inputs", f"{CP}:CP_ALS._get_rightsolve", f"{B}:non_negative_rightsolve")
p("orthonormal ALS decreases the loss", "With an orthonormality constraint on a mode, updating that mode does not increase the SSE when the current factor is feasible.", "every tensor, state with a feasible factor", "all inputs", f"{CP}:CP_ALS._get_rightsolve", f"{B}:orthogonal_rightsolve")
p("constraints hold after fitting", "After at least one iteration of CP_ALS every mode with a non-negativity constraint has only non-negative entries; requesting non-negativity and orthonormality for the same mode raises ValueError.", "every tensor, init, number of iterations >= 1, constraint pattern", "all iteration counts and patterns", f"{CP}:CP_ALS._get_rightsolve", f"{CP}:CP_ALS._update_als_factor")
p("iteration budget", "fit and continue_fit perform at most max_its iterations in total, current_iteration equals the number of iterations performed, the fit stops early only when the stated convergence criterion holds, and max_its given to fit/continue_fit overrides the constructor's.", "every decomposer configuration and convergence behaviour, every sequence of fit / continue_fit calls", "all schedules", f"{CP}:CP_ALS._fit", f"{P2}:Parafac2_ALS._fit", f"{BD}:BaseDecomposer.continue_fit", f"{BD}:BaseDecomposer._init_fit")
p("continue_fit on an exhausted budget is a no-op", "Calling continue_fit() when current_iteration has already reached max_its leaves the decomposition unchanged and does not raise.", "every finished decomposer", "histories", f"{CP}:CP_ALS._fit", f"{P2}:Parafac2_ALS._fit")
p("checkpoint schedule", "With checkpoint_frequency f > 0, a fit stores a checkpoint named by the iteration number after every f-th iteration, and the decomposition at the end of the fit is always the content of the latest stored checkpoint.", "every f, every number of iterations, every convergence point", "all frequencies and stopping points", f"{BD}:BaseDecomposer._after_fit_iteration", f"{CP}:CP_ALS._fit", f"{P2}:Parafac2_ALS._fit")
p("no periodic checkpointing: only the last iteration is stored", "With checkpoint_frequency None or negative, the last iteration (and only it) is checkpointed, as documented.", "every configuration with f = None or f < 0", "all stopping points", f"{BD}:BaseDecomposer", f"{CP}:CP_ALS._fit", f"{P2}:Parafac2_ALS._fit")
p("checkpoint file bookkeeping", "In a checkpoint file, checkpoint_its lists exactly the iterations for which a checkpoint group exists, in order, final_iteration is the last of them, and no checkpoint is overwritten.", "every sequence of store_checkpoint calls", "all histories, including failing calls", f"{BD}:BaseDecomposer.store_checkpoint", f"{CM}:CMTF_ALS.store_checkpoint")
p("continuing a fit keeps checkpointing", "fit followed by continue_fit with the same checkpoint path stores further checkpoints without failing.", "every frequency, every split of the iterations over fit and continue_fit", "histories", f"{BD}:BaseDecomposer.continue_fit", f"{BD}:BaseDecomposer.store_checkpoint", f"{CP}:CP_ALS._fit")
p("resuming from a checkpoint continues the run", "Loading a checkpoint and continuing to max_its iterations gives the same decomposition as the uninterrupted run of max_its iterations, and can store its checkpoints in the same file.", "every frequency, crash point and max_its", "crash points", f"{BD}:BaseDecomposer.load_checkpoint", f"{CP}:BaseCP.init_components")
p("load_checkpoint finds what store_checkpoint wrote", "load_checkpoint(path, it) returns the decomposition stored for iteration it, by default the most recently stored one; a file without checkpoints or a missing iteration raises ValueError.", "every sequence of stored checkpoints, every iteration number (also with more than 5 digits)", "all histories and iteration numbers", f"{BD}:BaseDecomposer.load_checkpoint", f"{BD}:BaseDecomposer.store_checkpoint")
p("iter_checkpoints goes in iteration order", "iter_checkpoints yields exactly the checkpoint groups of the file, in increasing iteration order, ignoring the logger groups.", "every checkpoint file", "unbounded iteration numbers", f"{U}:iter_checkpoints")
p("loggers lose and duplicate nothing", "After any interleaving of log() and write_to_hdf5_group() calls, the datasets in the file hold exactly the logged iterations and values up to the last write, once each, in order, and the two datasets are aligned.", "every interleaving of log and checkpoint calls, any number of them", "all histories", f"{LG}:BaseLogger.log", f"{LG}:BaseLogger.write_to_hdf5_group", f"{LG}:BaseLogger._write_sequence_to_hd5_group")
p("HDF5Logger file contents", "At every moment (also after a crash) each dataset of an HDF5Logger holds the first store_frequency * floor(n/store_frequency) of the n logged values, in order; a logger opened with continue_old appends after the existing values and all targets stay aligned.", "every number of log calls, store_frequency > 0, any initial file length, any number of targets", "crash points and histories", f"{L}:HDF5Logger.log", f"{L}:HDF5Logger.save_logs", f"{L}:Logger.log")
p("PARAFAC2 projection update", "Updating the projection matrices does not increase the PARAFAC2 SSE, and afterwards every P_k has orthonormal columns.", "every set of slices (also irregular), every A, blueprint, C, with J_k >= rank and current orthonormal P_k", "all sizes and rank-deficient slices", f"{P2}:BaseParafac2._update_projection_matrices", f"{B}:orthogonal_solve")
p("one PARAFAC2 iteration never increases the loss", "Without constraints and penalties, an iteration of Parafac2_ALS (projection update followed by CP updates on the projected tensor) does not increase the SSE.", "every set of slices, every state with orthonormal P_k", "all inputs and iteration counts", f"{P2}:Parafac2_ALS._update_parafac2_factors", f"{P2}:BaseParafac2.projected_X", f"{P2}:BaseParafac2.SSE")
p("PARAFAC2 slices keep their own projection matrices", "After a projection update each slice k has the projection matrix computed from slice k, for every initialisation scheme.", "every init scheme, every number of slices", "aliasing histories", f"{P2}:BaseParafac2.init_cp", f"{P2}:BaseParafac2._update_projection_matrices")
p("PARAFAC2 sub-solver results reach the decomposition", "The factor matrices computed by the inner CP updates are the factor matrices of the PARAFAC2 decomposition, for every setting of the constraints.", "every constraint pattern, any number of iterations", "aliasing histories", f"{P2}:Parafac2_ALS._prepare_cp_decomposer", f"{P2}:Parafac2_ALS._update_parafac2_factors", f"{CP}:CP_ALS._init_fit")
p("fit_transform is fit followed by returning the decomposition", "For CP_ALS and Parafac2_ALS, fit_transform(X, max_its=m, initial_decomposition=d) behaves as fit with the same arguments.", "every argument combination", "all argument combinations", f"{CP}:BaseCP.fit_transform", f"{P2}:BaseParafac2.fit_transform")
p("CMTF update never increases the coupled loss", "Without constraints and with unit weights, one iteration of CMTF_ALS (all factor updates and the update of the uncoupled factors) does not increase the coupled SSE ||X - [[U]]||^2 + sum_i ||Y_i - U_{m_i} V_i^T||^2.", "every tensor, coupled matrices, coupling modes", "all inputs", f"{CM}:CMTF_ALS._update_als_factors", f"{CM}:CMTF_ALS._get_als_lhs", f"{CM}:CMTF_ALS._get_als_rhs", f"{CM}:CMTF_ALS._update_uncoupled_matrix_factors")
p("CMTF fits every coupled matrix", "Every coupled matrix takes part in the fit: its uncoupled factor is updated in each iteration, also when several matrices share a mode.", "every list of coupling modes", "all coupling patterns", f"{CM}:CMTF_ALS._set_mode_to_coupled_matrix_mapping", f"{CM}:CMTF_ALS._update_uncoupled_matrix_factors")
p("CMTF supports non-negativity constraints", "CMTF_ALS accepts non_negativity_constraints and fits with them.", "every constraint pattern with a constrained mode", "all patterns", f"{CM}:CMTF_ALS._update_als_factors")
p("CMTF normalisation keeps the model", "The final normalisation of CMTF_ALS leaves the reconstruction of X and of every coupled matrix unchanged up to the eps guard.", "every state", "all values", f"{CM}:CMTF_ALS._normalize_components")
p("initialisation dispatch", "The init option is case-insensitive; 'precomputed' uses exactly the supplied decomposition after checking it; passing an initial decomposition with another init raises Warning; an unknown init raises ValueError.", "every init string and argument combination", "all strings", f"{CP}:BaseCP.init_components", f"{P2}:BaseParafac2.init_components")
p("supplied decompositions are validated", "A supplied decomposition is accepted only if it has one factor matrix per mode of X, each with the right number of rows and the model's rank; otherwise ValueError is raised.", "every tensor and supplied decomposition", "all shapes", f"{CP}:BaseCP._check_valid_components", f"{P2}:BaseParafac2._check_valid_components")
p("core consistency of an exact model", "core_consistency(X, A, B, C) is 100 (up to the eps guard in the normalisation) when X is exactly the CP tensor of A, B, C with linearly independent columns, and never exceeds 100.", "all such X, A, B, C", "all sizes and values", f"{M}:core_consistency", f"{B}:kron")
p("leverage scores", "leverage(F) of a matrix with linearly independent columns lies in [0, 1] and sums to the number of columns.", "every full column rank matrix", "all values", f"{M}:leverage")
p("degeneracy scores", "degeneracy() is symmetric, has ones on the diagonal and entries in [-1, 1] for tensors without zero columns.", "every Kruskal or evolving tensor without zero columns", "all values", f"{D}:KruskalTensor.degeneracy", f"{D}:EvolvingTensor.degeneracy", f"{M}:_tucker_congruence")
p("explained variance and completion score", "percent_explained and explained_variance are at most 1 and equal 1 exactly when the reconstruction is exact (X non-zero); tensor_completion_score depends only on entries with W = 0.", "all tensors, reconstructions and masks", "all values", f"{M}:percent_explained", f"{BD}:BaseDecomposer.explained_variance", f"{M}:tensor_completion_score")
p("MSE is the mean squared error", "decomposer.MSE is the sum of squared errors divided by the number of data entries, for CP_ALS, Parafac2_ALS and CMTF_ALS, and decomposer.RMSE is its square root.", "every decomposer state", "all shapes", f"{BD}:BaseDecomposer.MSE", f"{P2}:BaseParafac2.MSE", f"{D}:EvolvingTensor.num_elements", f"{CM}:CMTF_ALS.MSE")
p("random initialisation", "KruskalTensor.random_init gives unit weights, the requested sizes and columns of norm n/(n+eps); with non-negativity constraints CP_ALS starts from non-negative factors; Parafac2Tensor.random_init gives orthonormal projection matrices; an unknown random_method raises ValueError.", "every draw of the random numbers, sizes and ranks", "all random draws", f"{D}:KruskalTensor.random_init", f"{D}:Parafac2Tensor.random_init", f"{CP}:CP_ALS.init_random")
p("synthetic data helpers", "create_data / create_non_negative_data return the tensor of the returned factors plus noise of the requested relative size.", "every size, rank and noise level", "all random draws", f"{U}:create_data", f"{U}:create_non_negative_data")
p("sign fixing of evolving tensors", "fix_signs_evolving_tensor returns a tensor representing the same slices with the signs of B_k and C[k] fixed consistently.", "every evolving tensor with at least one slice and data", "all values", f"{U}:fix_signs_evolving_tensor", f"{U}:signfix_evolving_factors", f"{U}:signfix_normal_factors", f"{U}:get_signs")
p("PARAFAC2 factor match score", "The PARAFAC2 factor match score depends on all three modes and on both arguments.", "all pairs of PARAFAC2 factor lists", "all values", f"{M}:factor_match_score_parafac2", f"{M}:_factor_match_score_parafac2")
p("PARAFAC2 SVD initialisation", "Parafac2_ALS(init='svd') initialises the decomposition from the data for regular tensors.", "every regular tensor", "all inputs", f"{P2}:BaseParafac2.init_svd", f"{P2}:BaseParafac2.set_target")
p("SVD initialisation", "CP_ALS(init='svd') starts from factor matrices whose columns are orthonormal and, among all matrices with orthonormal columns of the model's rank, capture the most of the corresponding unfolding of X; the weights are one. A rank larger than the size of a mode raises ValueError.", "every tensor and rank", "all sizes and values", f"{CP}:BaseCP.init_svd", f"{CP}:BaseCP.init_components")
p("a fit completes", "A fit of a new CP_ALS object with admissible options, started from random factors, from the SVD or from a supplied decomposition of the right sizes, never raises: it performs at most max_its iterations, stops early only when the stopping criterion holds, current_iteration and the checkpoint file agree with the iterations performed, the reported SSE is the true one, and without constraints it is not worse than at the start.", "every tensor of order at least two, admissible options, start, max_its > 0, checkpoint frequency, loggers", "whole executions of unbounded length", f"{CP}:BaseCP.fit", f"{CP}:CP_ALS._init_fit", f"{CP}:CP_ALS._fit", f"{BD}:BaseDecomposer._after_fit_iteration")
p("loggers do not interfere", "Each logger of a decomposer finds its own log in the checkpoint file, whatever other loggers there are.", "every list of loggers, every run", "all combinations and histories", f"{LG}:BaseLogger.write_to_hdf5_group", f"{BD}:BaseDecomposer.store_checkpoint")
p("factor match score of Kruskal tensors", "KruskalTensor.factor_match_score with the weight penalty compares the sizes of the components, wherever the size is stored (weights or factor matrices): two Kruskal tensors representing the same components get the same score.", "every pair of Kruskal tensors", "all values and weights", f"{D}:KruskalTensor.factor_match_score", f"{M}:factor_match_score")
p("core consistency of a Kruskal tensor", "KruskalTensor.core_consistency(X) judges the model it is called on: for a three-way Kruskal tensor with linearly independent columns and X its own tensor, it is 100 up to the eps guard, whatever the weights; a tensor without three modes raises ValueError.", "every Kruskal tensor", "all values and weights", f"{D}:KruskalTensor.core_consistency", f"{M}:core_consistency")
p("get_signs follows the data", "For a factor matrix with linearly independent columns, flipping the sign of columns flips exactly the signs and weights that get_signs(factor_matrix, X) returns for them; after multiplying the factor matrix by the returned (non-zero) signs, get_signs returns +1 for every component and the absolute values of the weights. Without X, the sign is that of the column sum, +1 for a zero sum.", "every factor matrix with independent columns, every X, every sign pattern, every least-squares routine", "all real inputs and sign patterns", f"{U}:get_signs")
p("permuting components keeps the tensor", "permute_factors_and_weights(permutation, factors, weights) permutes the columns of all factor matrices and the weights consistently, so that the represented tensor does not change.", "every Kruskal tensor, every permutation", "all orders, ranks and permutations", f"{U}:permute_factors_and_weights", f"{U}:permute_factors")
p("a PARAFAC2 fit completes", "A fit of a new Parafac2_ALS object with admissible options, started from random factors or from a supplied decomposition of the right sizes whose matrices are different arrays, never raises: it performs at most max_its iterations, stops early only when the stopping criterion holds, current_iteration and the checkpoint file agree with the iterations performed, the reported SSE is the true one, all matrices keep their sizes.", "every list of slices, admissible options, start, max_its, checkpoint frequency, loggers", "whole executions of unbounded length", f"{P2}:BaseParafac2.fit", f"{P2}:BaseParafac2._init_fit", f"{P2}:Parafac2_ALS._prepare_cp_decomposer", f"{P2}:Parafac2_ALS._fit")
p("the PARAFAC2 loss", "Parafac2_ALS.loss is the sum of squared errors over all slices plus, for every ridge penalty that is given, the penalty times the sum of squares of its matrix, in the order A, blueprint B, C.", "every decomposer state, every list of penalties", "all values and sizes", f"{P2}:Parafac2_ALS.loss", f"{P2}:BaseParafac2.SSE")
p("a CMTF fit is not worse than its start", "Without constraints and penalties, the coupled SSE after a fit of CMTF_ALS is not larger than that of the decomposition it started from.", "every tensor, coupled matrices, coupling modes, start, max_its", "whole executions of unbounded length", f"{CM}:CMTF_ALS._init_fit", f"{CM}:CMTF_ALS._fit", f"{CM}:CMTF_ALS._normalize_components")
p("a CMTF fit completes", "A fit of a new CMTF_ALS object with admissible options (no non-negativity constraints), started from random factors, from the SVD or from a supplied decomposition of the right sizes, never raises: it performs at most max_its iterations, stops early only when the stopping criterion holds, current_iteration and the checkpoint file agree with the iterations performed, and the reported SSE is the true coupled one.", "every tensor of order at least two, coupled matrices, coupling modes, options, start, max_its > 0, checkpoint frequency, loggers", "whole executions of unbounded length", f"{CM}:CMTF_ALS.fit", f"{CM}:CMTF_ALS._init_fit", f"{CM}:CMTF_ALS.init_components", f"{CM}:CMTF_ALS._fit")
p("core consistency of a PARAFAC2 model", "core_consistency_parafac2(X, P, A, F, C), called with one projection matrix with orthonormal columns per slice and factor matrices with linearly independent columns, is 100(1 - ||G - T||^2/R) for the core G that fits the slices themselves best in the model X_k = (sum of G_pqr a_p b_q^T c_kr) P_k^T; it never exceeds 100 and is 100 (up to the eps guard) when the slices follow the PARAFAC2 model exactly, whatever was in the uninitialised memory.", "all slices of any sizes, all such matrices, all contents of uninitialised memory", "all sizes and values; the unit test is one random example", f"{M}:core_consistency_parafac2", f"{M}:core_consistency")
p("factor match score of PARAFAC2 tensors", "Parafac2Tensor.factor_match_score(other) is the best score over all assignments of the components, comparing A, C and the evolving factor matrices B_k stacked below each other, for slices of any sizes; it does not depend on how B_k is split into projection matrix and blueprint; different ranks raise AssertionError.", "all pairs of PARAFAC2 tensors of the same sizes", "all sizes, values and splittings", f"{D}:Parafac2Tensor.factor_match_score", f"{D}:EvolvingTensor.factor_match_score", f"{D}:EvolvingTensor.B_unfolded")
p("experiments are recorded faithfully", "After Experiment.run_experiment returns, every output and every final metric is a dataset of the group of the experiment and every parameter an attribute, and nothing else in the file has changed; with continue_old the stored outputs are replaced; if a run raises, parameters and outputs in the file still belong together; an experiment can be opened with the metadata of the file.", "every file, experiment function, parameters, outputs and metrics", "all histories of a file", "src/tenkit/log.py:Experiment.run_experiment", "src/tenkit/log.py:Experiment._init_h5_file", "src/tenkit/log.py:Experiment._init_h5_metadata")
p("access to the factor matrices of a decomposition", "t[i] is factor matrix i of a decomposition, with negative numbers counting from the end, as in the list of factor matrices; unpacking a decomposition gives exactly its factor matrices, in order; building a decomposition of the same class from what was unpacked (with the weights of a Kruskal tensor) gives the same decomposition.", "every Kruskal, evolving and PARAFAC2 tensor, every index", "all orders and indices", f"{D}:KruskalTensor.__getitem__", f"{D}:EvolvingTensor.__getitem__", f"{D}:EvolvingTensor.from_factor_matrices", f"{D}:EvolvingTensor.from_kruskaltensor")
p("attributes of decompositions describe the tensor", "shape is the shape of the constructed tensor, slice_shapes are the shapes of the constructed slices, all_same_size says whether these agree, num_elements is the number of entries of all slices together, and D of a PARAFAC2 tensor holds the diagonal matrices D_k with X_k = A D_k B_k^T.", "every Kruskal, evolving and PARAFAC2 tensor", "all sizes and values", f"{D}:EvolvingTensor.shape", f"{D}:EvolvingTensor.__init__", f"{D}:Parafac2Tensor.D")
p("a fit leaves the decompositions of the caller alone", "Calling fit on a CP_ALS object changes no decomposition that the caller holds: an initial decomposition passed with init='precomputed' can be inspected or used again for further fits, which then give the same result.", "every tensor, options, initial decomposition, and every other decomposition in the program", "aliasing over whole executions of unbounded length", f"src/tenkit/decomposition/cp.py:BaseCP.init_components", f"src/tenkit/decomposition/cp.py:CP_ALS._update_als_factor", f"src/tenkit/decomposition/cp.py:CP_ALS._init_fit")
p("decompositions that use one array for several modes", "A decomposition behaves according to the values of its factor matrices: a fit from it and normalize_components give what they give for a decomposition with its own copy of every matrix.", "every decomposition, with and without shared arrays", "aliasing over whole executions of unbounded length", f"src/tenkit/decomposition/cp.py:CP_ALS._update_als_factor", f"{D}:KruskalTensor.normalize_components")
p("a fit stops by itself", "With positive convergence_tol and rel_loss_tol, a fit of CP_ALS or Parafac2_ALS makes a number of iterations that does not depend on max_its: the stopping test ends it, however large max_its is.", "every tensor, rank, initialisation, positive tolerances and max_its", "termination for every input and every budget", f"src/tenkit/decomposition/cp.py:CP_ALS._fit", f"src/tenkit/decomposition/cp.py:CP_ALS._update_convergence", f"src/tenkit/decomposition/parafac2.py:Parafac2_ALS._fit", f"src/tenkit/decomposition/parafac2.py:Parafac2_ALS._update_convergence")
p("the documented stopping rule", "A fit of CP_ALS that ends before max_its without reaching rel_loss_tol made a last iteration whose relative change of the SSE, (L_i - L_(i+1)) / L_(i+1) as documented, is below convergence_tol.", "every fit that ends before its budget", "the rule concerns the last two states of runs of unbounded length", f"src/tenkit/decomposition/cp.py:BaseCP", f"src/tenkit/decomposition/cp.py:CP_ALS._fit", f"src/tenkit/decomposition/cp.py:CP_ALS._update_convergence")
p("The error reported after loading a checkpoint","After CP_ALS.load_checkpoint(path, n), SSE (and with it MSE, RMSE, loss and explained variance) describe the decomposition that was loaded.","all data tensors, options, fits and checkpoints of the same size","the SSE is computed from quantities remembered from the last update; a test that loads into a new object never has any",f"{CP}:BaseCP.SSE",f"{CP}:BaseCP._inner_prod_X_reconstructed_X",f"{BD}:BaseDecomposer.load_checkpoint")
p("Continuing from a loaded checkpoint","After load_checkpoint(path, n), continue_fit(max_its=M) performs the iterations n, ..., M-1 starting at the loaded decomposition, exactly as a new object that is started from it.","all fits, checkpoints and budgets M > n","whether the stopping test at the start is affected by the earlier fit depends on the relation of two decompositions",f"{BD}:BaseDecomposer.load_checkpoint",f"{BD}:BaseDecomposer.continue_fit",f"{CP}:CP_ALS._fit")
p("The unit of the data","Multiplying the data tensor by a number a multiplies the model that CP_ALS returns by a and the SSE by the square of a; the number of iterations does not change.","all tensors, numbers a != 0, initial decompositions and options without constraints and penalties","relates two runs of any length; rounding hides it in a test",f"{CP}:CP_ALS._fit",f"{CP}:CP_ALS._update_convergence",f"{CP}:CP_ALS._update_als_factor")
p("Order and signs of the components","Giving CP_ALS an initial decomposition with permuted components, or with changed signs that cancel within each component, gives the result with the same permutation and sign changes; the model tensor, its error and the number of iterations are the same.","all tensors of any order, initial decompositions, permutations and signs, without constraints and penalties","relates two runs of any length for all permutations and signs",f"{CP}:CP_ALS._update_als_factor",f"{CP}:CP_ALS._fit")
p("Order of the rows","Permuting the slices of the data tensor along its modes, and the rows of the initial factor matrices in the same way, permutes the rows of the factor matrices that CP_ALS returns and changes nothing else.","all tensors of any order, initial decompositions and permutations, without constraints and penalties","relates two runs of any length for all permutations",f"{CP}:CP_ALS._update_als_factor",f"{CP}:CP_ALS._fit")
p("Independence of the numerical library","The result of CP_ALS without constraints and penalties does not depend on which of the possible singular value decompositions the numerical library returns (signs of singular vectors, bases for repeated singular values, vectors of the null space), also for rank-deficient systems.","all tensors, initial decompositions, and all pairs of libraries that meet the definition of an SVD","tests run with one library","src/tenkit/base.py:rightsolve",f"{CP}:CP_ALS._update_als_factor",f"{CP}:CP_ALS._fit")
p("The initial factor matrix of the first mode","CP_ALS updates the first mode first, so the result of a fit does not depend on the initial factor matrix of the first mode.","all tensors and pairs of initial decompositions that agree in the other modes","relates two runs of any length",f"{CP}:CP_ALS._update_als_factors",f"{CP}:CP_ALS._update_convergence",f"{CP}:CP_ALS._init_fit")
p("Range of the explained variance","After a fit of a non-zero tensor the explained_variance is between 0 and 1, whatever the initial decomposition.","all tensors, initial decompositions, options and budgets","that the residual is orthogonal to the model after a sweep is a fact about least squares for all data",f"{BD}:BaseDecomposer.explained_variance",f"{CP}:CP_ALS._update_als_factor",f"{P2}:Parafac2_ALS._fit")
p("Exact starts are kept","If the data are a CP model, CP_ALS started from the factor matrices of that model in all modes but the first (the first and the weights arbitrary) reproduces the data exactly after any number of iterations; in particular a start that reproduces the data leads to a result that reproduces the data.","all models of any order and rank, starts and budgets, with or without non-negativity constraints (met by the model), without penalties and orthogonality constraints","exactness after every number of iterations, also for rank-deficient models, where a test sees rounding errors",f"{CP}:CP_ALS._update_als_factor",f"{CP}:CP_ALS._init_fit",f"{CP}:CP_ALS._fit")
p("Movement of the CP model is bounded by the decrease of the error","In a CP_ALS fit without constraints and penalties each iteration moves the reconstruction by at most the number of modes times the decrease of the squared error, all iterations together by at most that number times the total decrease, and if the relative-change test ends the fit, the last iteration moved it by at most convergence_tol times the number of modes times the previous squared error.","all tensors, ranks, starts, tolerances, budgets and numbers of iterations","a statement about every iteration of every fit; the number of iterations is unbounded",f"{CP}:CP_ALS._update_als_factor",f"{CP}:CP_ALS._update_als_factors",f"{CP}:CP_ALS._fit")
p("Limits of CP fits are stationary","If the factor matrices that CP_ALS (no constraints, no penalties) returns after 1, 2, 3, ... iterations from the same start converge, no change of a single factor matrix of the limit lowers the squared error and its derivative vanishes there in every joint direction. The same holds for accumulation points at which the rank-one terms of the other modes are linearly independent. The steps of the reconstruction always tend to 0.","all tensors, ranks and starts; all infinite sequences of iterations","a statement about limits of infinitely many iterations",f"{CP}:CP_ALS._update_als_factor",f"{CP}:CP_ALS._update_als_factors",f"{CP}:CP_ALS._fit")
p("Printing does not affect the fit","For every value of print_frequency the methods fit and continue_fit have the same outcome (exception, decomposer, loggers, checkpoint file) as without printing. None, values that are not positive, and the default print nothing; a positive value f prints one line, with MSE, loss and relative change, for exactly those iterations whose number is a multiple of f.","all decomposers, data, starts, budgets and values of print_frequency","covers every run, including the ones that raise, and every value of the option",f"{CP}:CP_ALS._fit",f"{P2}:Parafac2_ALS._fit",f"{P2}:Parafac2_ALS.__init__",f"{BD}:BaseDecomposer.__init__")
p("A high factor match score means similar components","If factor_match_score with the weight penalty returns the score v and a permutation, then, up to its sign, every component differs from the component assigned to it by at most 2(1 - v) times the square of the larger size (sum of squared differences over all tensor entries; R times that for the mean reduction), and the sums of the components differ correspondingly little; without the penalty the same holds for the components scaled to unit size.","all factor lists of any order, sizes and ranks without pairs of zero components, both reductions","an inequality between the score and the distance of all pairs of models; a test can only look at chosen pairs","src/tenkit/metrics.py:factor_match_score","src/tenkit/metrics.py:_factor_match_score",f"{D}:KruskalTensor.factor_match_score")
p("Checkpointing does not affect the fit","For every checkpoint_frequency and checkpoint_path, fit performs the same iterations and returns the same decomposition, iteration number and logs as without checkpointing; if the path is None (documented: nothing is stored to disk) the frequency has no effect.","all decomposers, starts, budgets, frequencies, paths and contents of the checkpoint file","relates two complete runs for every frequency and file content",f"{BD}:BaseDecomposer.store_checkpoint",f"{BD}:BaseDecomposer._after_fit_iteration",f"{BD}:BaseDecomposer.fit",f"{CP}:CP_ALS._fit",f"{P2}:Parafac2_ALS._fit")
p("Fitting in two parts","fit(X, max_its=N) followed by continue_fit(max_its=M) with M > N gives the same decomposition, iteration number and logs as fit(X, max_its=M).","all decomposers, data, starts, constraints and budgets N < M, without checkpointing (and with it, as far as the calls return)","relates two sequences of calls for every pair of budgets; the runs are of unbounded length",f"{BD}:BaseDecomposer.continue_fit",f"{BD}:BaseDecomposer.fit",f"{CP}:CP_ALS._fit",f"{P2}:Parafac2_ALS._fit",f"{CM}:CMTF_ALS._fit")
p("Parafac2 fits started from a CP model","With init='cp', Parafac2_ALS starts from the CP model that 20 iterations of CP_ALS give for the stacked slices; the fit then completes, ends with a model that fits the slices at least as well as this CP model, and can give the slices different evolving factors B_k. Slices of different sizes are rejected.","all slices, ranks, options, random draws and budgets","relates the result of a fit of unbounded length to its start, for all data; needs the sharing of one array by all slices, which is invisible in the values",f"{P2}:BaseParafac2.init_cp",f"{P2}:BaseParafac2._update_projection_matrices",f"{P2}:Parafac2_ALS._fit")
p("No fit depends on the choice of singular vectors","The results of CP_ALS, CMTF_ALS and Parafac2_ALS, with any constraints, penalties and initial factor matrices, do not depend on which of the possible singular value decompositions of the matrices the numerical library returns (signs of singular vectors, bases for repeated singular values, vectors of the null space); nor do rightsolve and orthogonal_solve, also for rank-deficient matrices.","all data, options, starts, object states, and all pairs of libraries that meet the definition of an SVD","tests run with one library","src/tenkit/base.py:rightsolve","src/tenkit/base.py:orthogonal_solve",f"{CP}:CP_ALS._fit",f"{P2}:Parafac2_ALS._fit",f"{CM}:CMTF_ALS._fit")
p("Rotating the slices of Parafac2 data","Multiplying every slice X_k from the right by an orthogonal matrix Q_k of its size (for example a permutation of its columns), and the initial projection matrices P_k from the left by the transpose of Q_k, changes nothing in a Parafac2_ALS fit but the projection matrices, which are multiplied by the transpose of Q_k as well: same number of iterations, A, blueprint, C, SSE, loss and relative change.","all slices of any sizes, orthogonal matrices, starts, ranks, constraints, penalties, tolerances and budgets","relates two runs of any length for all orthogonal matrices; rounding hides it in a test",f"{P2}:BaseParafac2._update_projection_matrices",f"{P2}:Parafac2_ALS._fit",f"{P2}:Parafac2_ALS._update_parafac2")
p("Rejected fits","If fit (or load_checkpoint) raises because the initial decomposition, the checkpoint or the init option is not accepted, the object is as it was before the call: its decomposition, data, iteration number and SSE still belong to the last fit.","all objects in all states, data, options and rejected arguments","the state after an exception, for every earlier history of the object",f"{BD}:BaseDecomposer._init_fit",f"{BD}:BaseDecomposer.load_checkpoint",f"{CP}:BaseCP.init_components",f"{P2}:BaseParafac2.init_components",f"{CM}:CMTF_ALS.init_components")
p("Order of the rows with constraints","Exchanging rows of the data along with the rows of the initial factor matrices exchanges the rows of the fitted factor matrices and changes nothing else, also with non-negativity constraints, orthonormality constraints (on modes whose rows are not exchanged) and ridge penalties.","all tensors, constraints, penalties, permutations of the rows of each mode without an orthonormality constraint, starts and numbers of iterations","permutations of whole runs under every combination of constraints",f"{CP}:CP_ALS._update_als_factor",f"{CP}:CP_ALS._get_rightsolve",f"{B}:non_negative_rightsolve",f"{B}:orthogonal_rightsolve",f"{B}:add_rightsolve_ridge")
p("Order of the slices","Putting the slices of a Parafac2 problem and their rows in another order, along with the rows of C and A and the projection matrices of the start, gives the fitted decomposition in the new order and changes nothing else (A and C are only put in another order if they have no orthonormality constraint).","all lists of slices of any sizes, constraints, penalties, permutations, starts and numbers of iterations","permutations of whole runs",f"{P2}:BaseParafac2._update_projection_matrices",f"{P2}:Parafac2_ALS._update_parafac2_factors",f"{P2}:Parafac2_ALS._prepare_cp_decomposer")
p("The unit of Parafac2 data","Multiplying all slices by a number, and the factor matrices of the start by numbers whose product it is, multiplies the fitted factor matrices by the same numbers and the error by its square, and leaves the projection matrices, the relative changes and the number of iterations alone (no constraints or penalties).","all slices, numbers other than zero, starts, tolerances and numbers of iterations","two whole runs for every unit",f"{P2}:BaseParafac2._update_projection_matrices",f"{P2}:Parafac2_ALS._update_parafac2_factors",f"{B}:orthogonal_solve",f"{B}:rightsolve")
p("Order and signs of Parafac2 components","Putting the components of a Parafac2 start in another order, and changing signs of columns such that those of a component multiply to one, does the same to the fitted components and changes nothing else (no constraints or penalties).","all slices, permutations and signs of the components, starts and numbers of iterations","all permutations and signs of whole runs",f"{P2}:BaseParafac2._update_projection_matrices",f"{P2}:Parafac2_ALS._update_parafac2_factors")
p("Initial projection matrices","With a convergence tolerance that is not positive, the result of a Parafac2 fit does not depend on the projection matrices of the start, and multiplying all slices by a positive number only multiplies the fitted A by it (no constraints or penalties).","all slices, positive numbers, starts with the same A, blueprint matrix and C, and numbers of iterations from one","two whole runs for all initial projection matrices",f"{P2}:Parafac2_ALS._fit",f"{P2}:BaseParafac2._update_projection_matrices",f"{P2}:Parafac2_ALS._update_parafac2_factors")
p("Order of the rows and columns of a coupled problem","Putting the rows of a mode in another order, in the tensor, in every matrix coupled to the mode and in the start, and the columns of a coupled matrix together with the rows of its drawn right factor, does the same to the factor matrices and right factors of a CMTF fit and changes nothing else (no constraints or penalties).","all tensors, coupled matrices, coupling modes (also negative or shared ones), permutations, starts, draws, tolerances and numbers of iterations","all permutations of whole runs",f"{CM}:CMTF_ALS._get_als_lhs",f"{CM}:CMTF_ALS._get_als_rhs",f"{CM}:CMTF_ALS._update_uncoupled_matrix_factors",f"{CM}:CMTF_ALS._normalize_components")
p("Order and signs of the components of a coupled problem","Putting the components of the start and of the drawn right factors of a CMTF fit in another order, and changing signs of columns such that those of a component multiply to one over the modes, does the same to the fitted components and right factors and changes neither the modelled tensor and matrices nor anything else (no constraints or penalties).","all tensors, coupled matrices, coupling modes, permutations and signs of the components, starts, draws and numbers of iterations","all permutations and signs of whole runs",f"{CM}:CMTF_ALS._get_als_lhs",f"{CM}:CMTF_ALS._get_als_rhs",f"{CM}:CMTF_ALS._update_uncoupled_matrix_factors",f"{CM}:CMTF_ALS._init_fit")
p("Choice of the singular value decomposition in coupled problems","The result of a CMTF fit without constraints and penalties does not depend on which singular value decomposition the numerical library returns where there is a choice.","all libraries that meet the contract of the singular value decomposition, all tensors, coupled matrices, starts and draws","libraries differ between machines",f"{CM}:CMTF_ALS._update_als_factors",f"{B}:rightsolve")
p("Decompositions that do not fit together are not compared","factor_match_score of two lists of factor matrices that do not belong to tensors of the same shape raises an exception: ValueError if a mode has different sizes, and likewise if the numbers of modes differ.","all pairs of lists of factor matrices, all sizes, ranks, values and reductions","all sizes and ranks",f"{M}:factor_match_score",f"{M}:_factor_match_score")
p("Components given as vectors","A decomposition with one component can be given as a list of vectors: factor_match_score and _factor_match_score treat each vector as a matrix with one column.","all lists of vectors, as the truth or as the estimate","all lengths and values",f"{M}:factor_match_score",f"{M}:_factor_match_score")
p("Data with one component are recovered","If the data are one component (an outer product of vectors, not zero), CP_ALS with rank one and without constraints finds it in one iteration from any start whose vectors are not orthogonal to those of the data: a fit that performs at least one iteration reproduces the data exactly, with factor matrices that are multiples of the vectors of the data.","all orders and shapes, all components, all starts that are not orthogonal in the modes after the first, all budgets, loggers and checkpoint settings","all data and starts",f"{CP}:_update_als_factors",f"{CP}:_update_als_factor",f"{CP}:_fit")
p("Coupled matrices of the wrong size are rejected","CMTF_ALS.fit raises an exception if a coupled matrix does not have as many rows as its mode of the tensor; no iteration is performed with such data.","all tensors, all lists of coupled matrices and coupling modes, all starts, budgets, loggers and checkpoint settings","all sizes and numbers of matrices",f"{CM}:fit",f"{CM}:_get_als_rhs",f"{CM}:coupled_factor_matrices_SSE")
p("Parafac2_ALS and CMTF_ALS objects can be fitted again","Whatever fits were made with a Parafac2_ALS or CMTF_ALS object before, fit does the same as for a new object with the same options, max_its, loggers and checkpoint file: it returns if and only if the fit of the new object does, with the same decomposition, history and file.","all objects with any history of fits, all data, starts, budgets, loggers and checkpoint settings","all histories and data",f"{P2}:_prepare_cp_decomposer",f"{P2}:init_components",f"{CP}:_init_fit",f"{CM}:fit",f"{BD}:fit")
p("A Parafac2 fit leaves the decompositions of the caller alone","Parafac2_ALS.fit and continue_fit change no array that existed before, except for the arrays of the decomposition of the object that continue_fit works on: a decomposition held by the caller, whether passed as a start or obtained from an earlier fit with the same object, looks the same afterwards, whether the call returns or raises.","all options, data, starts, budgets, loggers and checkpoint settings, all decompositions of the caller, all outcomes","aliasing is a statement about every array of the program, not about results",f"{P2}:init_components",f"{P2}:_update_projection_matrices",f"{P2}:_update_parafac2_factors",f"{P2}:_prepare_cp_decomposer")
p("CMTF_ALS without coupled matrices fits the CP model","CMTF_ALS.fit with an empty list of coupled matrices fits the same model as CP_ALS with the same options from the same start: it makes as many iterations, and its decomposition represents the same tensor up to the normalisation of its columns.","all tensors, ranks, options, starts and budgets","it relates two whole runs of different classes, of any length",f"{CM}:_init_fit",f"{CM}:_update_als_factors",f"{CM}:_get_als_lhs",f"{CM}:_get_als_rhs",f"{CP}:_update_als_factor")
p("Conversion of any decomposition to an evolving tensor","EvolvingTensor.from_kruskaltensor and the inherited method of Parafac2Tensor return their argument when it already is of the class and allow_same_class is set; without the flag they accept Kruskal tensors of third order only, and every other argument raises an exception.","all Kruskal, evolving and PARAFAC2 tensors, both classes, both values of the flag","the cases depend on the class of the argument, on the subclass relation and on how the evolving mode is stored",f"{D}:EvolvingTensor.from_kruskaltensor",f"{D}:EvolvingTensor.factor_matrices",f"{D}:ProjectedFactor.__getitem__")
p("Order of the coupled matrices","A fit of CMTF_ALS does not depend on the order in which the coupled matrices are passed: with the matrices, their coupling modes and the numbers drawn for them in another order, the decomposition, the logged values and the checkpoints are the same, and every matrix gets the same right factor.","all data, orders, numbers of matrices, starts, configurations","the space of orders and data is infinite; the dictionary of coupling modes is built in the order of the list",f"{CM}:CMTF_ALS._set_mode_to_coupled_matrix_mapping",f"{CM}:CMTF_ALS._get_als_lhs",f"{CM}:CMTF_ALS._update_uncoupled_matrix_factors",f"{CM}:CMTF_ALS.fit")
p("What the core consistency does not depend on","core_consistency does not change when the components are listed in another order, when signs are moved between the columns of a component, when scale is moved between the columns of a component, when rows of the data and of the factor matrices are listed in another order, or when the modes of the data and of the model are listed in another order.","all third-order tensors, all factor matrices with independent columns, all permutations, all signs, all positive scalings","the value is the solution of a least squares problem with a Kronecker product; equality for all real inputs cannot be tested",f"{M}:core_consistency",f"{U}:normalize_factors")
p("The order of the modes","Listing the modes of a CP model in another order transposes its tensor. It changes neither the error against the data transposed alike, nor the factor match score and the best assignment, nor the degeneracy scores. A fit of the transposed data from the start transposed alike gives the transposed model.","all orders of the modes, all numbers of modes and sizes, all models and data","all orders and all real entries are infinitely many cases; whether a fit depends on the order of its updates cannot be seen from examples in which it does not",f"{D}:KruskalTensor",f"{M}:factor_match_score",f"{CP}:CP_ALS")
p("Relations between samples carry over to the scores","If a linear combination of the slices of the data along a mode is zero (two samples are equal, one is the sum of two others, one has no signal at all), the same combination of the rows of the fitted factor matrix of this mode is zero, whatever the start, the constraints and the penalties; in a mode with a non-negativity constraint this is claimed for equal samples only. For PARAFAC2 this concerns the factor A (rows of all slices) and the evolving factors (columns of one slice); for coupled problems the relation has to hold in the coupled matrices too, and one between the columns of a coupled matrix holds between the rows of its right factor.","all data, relations, starts, numbers of components, constraints, penalties and numbers of iterations from one on","relations between real data, constraints and iterations are infinitely many cases; after rounding a test cannot tell a relation that holds from one that nearly holds",f"{B}:rightsolve",f"{CP}:CP_ALS",f"{P2}:Parafac2_ALS",f"{CM}:CMTF_ALS")
p("Fits of compressed data","Let the data be those of a smaller tensor, multiplied along a mode without constraints by a matrix with orthonormal columns (data reduced to a basis before the analysis, rotated axes, samples without any signal appended). The fit of the large data from the start multiplied alike is the fit of the small data: the same number of iterations, errors and stopping decisions, equal factors in the other modes, and in this mode the factor of the small fit times the matrix. For PARAFAC2 this holds for the common mode A of the slices, with equal evolving factors. For coupled problems the matrices coupled to this mode are multiplied as well; weights and right factors are equal.","all data, sizes, matrices with orthonormal columns, starts, penalties, constraints of the other modes (coupled problems: no constraints and penalties) and numbers of iterations","bases and data are real matrices of any size; rounding makes the two fits of a test differ, so it cannot tell whether they agree exactly",f"{B}:rightsolve",f"{CP}:CP_ALS",f"{P2}:Parafac2_ALS",f"{CM}:CMTF_ALS")
p("Layout of the files","A program that opens a stored decomposition without tenkit finds everything under fixed names: the attribute type with the name of the class, the number of matrices, the matrices as datasets with the documented prefix and a number padded to three digits, in order, and nothing else; and every group with these names, whoever wrote it and whatever else it contains, is loaded as that decomposition. A checkpoint file names the class of the decomposer in the attribute decomposition_type, however the fit that wrote it has ended.","all decompositions, numbers of matrices (also above 999), groups, fits, starts, and exceptions at any point","the numbers of matrices, the other contents of the groups and the points at which a fit can fail are unbounded",f"{D}:KruskalTensor",f"{D}:Parafac2Tensor",f"{D}:EvolvingTensor",f"{BD}:BaseDecomposer.store_checkpoint",f"{CM}:CMTF_ALS")
p("Reported errors in floating point","In floating point, with any order of summation and with or without fused multiply-adds, the squared error that CP_ALS reports differs from the squared error of its decomposition by at most what a number of roundings, linear in the size of the problem, can make of the terms it is computed from; it is not negative, and never is more than all of the variance explained. The same bound holds for each entry of the tensor that construct_tensor returns.","all roundings with a relative error of at most u (among them double precision without over- and underflow), all data, decompositions, modes and orders of summation","unit tests see one rounding mode, one order of summation and a few data sets",f"{CP}:BaseCP.SSE",f"{D}:KruskalTensor.construct_tensor",f"{B}:khatri_rao",f"{B}:matrix_khatri_rao_product",f"{BD}:BaseDecomposer.explained_variance")
p("Reported errors of PARAFAC2 and coupled models in floating point","In floating point, with any order of summation and with or without fused multiply-adds, the squared error that Parafac2_ALS or CMTF_ALS reports is not negative, no more than all of the variance is reported as explained, and the error differs from the squared error of the current model by at most what a number of roundings, linear in the size of the problem, can make of the terms it is computed from.","all roundings with a relative error of at most u (for the explained variance: that do not carry numbers across one), all data, sizes of slices, numbers of coupled matrices and orders of summation","unit tests see one rounding mode, one order of summation and a few data sets",f"{P2}:BaseParafac2.SSE",f"{CM}:CMTF_ALS.SSE",f"{CM}:CMTF_ALS.coupled_factor_matrices_SSE",f"{D}:EvolvingTensor.construct_slices",f"{BD}:BaseDecomposer.explained_variance")
p("Factor match score in floating point","In floating point, with any order of summation and with or without fused multiply-adds, factor_match_score returns a score within delta of the score in exact arithmetic, at most 1 + delta, and an assignment of components whose exact score is within 2 delta of the best; delta depends on the numbers of rows, modes and components only (in double precision: their number of roundings divided by 2^52), not on the entries.","all roundings with a relative error of at most u <= 1/2, all factor matrices with matching numbers of rows in which no zero component meets a zero component, both reductions, with and without the size penalty, all orders of summation","unit tests compare with a tolerance on a few random factors; badly scaled columns and ties between assignments are not sampled",f"{M}:_factor_match_score",f"{M}:factor_match_score",f"{M}:weight_score",f"{U}:normalize_factors")
p("Movement and limits of coupled fits","When CMTF_ALS runs without constraints and penalties and with coupling modes given as 0, 1, ..., each iteration moves the coupled model (the tensor and those coupled matrices that are the first of their mode, all with unit weights) by at most the number of modes plus one times the decrease of the coupled error, so the squared movements of a fit sum up to at most a multiple of its total decrease and tend to zero. If the matrices converge, no change of a single factor matrix or right factor of the limit lowers the coupled error, and the gradient of the coupled error vanishes there. The same holds for every accumulation point at which, for each mode, the rank-one terms formed by the other modes are linearly independent.","all data, starts, ranks, numbers of modes and of coupled matrices, SVD routines and numbers of iterations","a limit is not reached in any test, and a test sees the movement in one fit only",f"{CM}:CMTF_ALS._update_als_factors",f"{CM}:CMTF_ALS._get_als_lhs",f"{CM}:CMTF_ALS._get_als_rhs",f"{CM}:CMTF_ALS._update_uncoupled_matrix_factors",f"{CP}:CP_ALS._fit")
p("Factor matrices that do not fit the tensor","matrix_khatri_rao_product raises an error for factor matrices whose numbers of rows do not match the tensor, so that a wrong shape never gives a result that looks like an MTTKRP.","all tensors, modes, ranks and sizes of factor matrices","shapes can disagree in infinitely many ways, and the paths for the modes behave differently",f"{B}:matrix_khatri_rao_product",f"{B}:_mttkrp3",f"{B}:_mttkrp_mid_with_krp")
p("Limits of PARAFAC2 fits","If the matrices of Parafac2_ALS fits with more and more iterations converge, without constraints and penalties, the limit cannot be improved by changing the projection matrices, A, the blueprint matrix or C alone, and is a stationary point of the error; this also holds for limits of subsequences whose factor matrices are not degenerate.","all data, ranks, starts, numbers of inner updates, and infinite runs","statements about infinite runs cannot be observed in any finite test",f"{P2}:Parafac2_ALS._update_parafac2_factors",f"{P2}:BaseParafac2._update_projection_matrices",f"{P2}:Parafac2_ALS._fit",f"{CP}:CP_ALS._update_als_factors")
p("Normalising a Kruskal tensor in floating point","normalize_components in floating point leaves columns of length n / (n + eps), n the length of the old column, changes the weights by the product of the lengths, and changes every entry of the tensor only by the guard eps and by rounding: in double precision by at most N / 2^52 + the sum of eps / (n + eps) over the modes, relative to the terms behind the entry, with N two for every row of a factor matrix plus five for every mode. With update_weights=False the weights stay as they are.","all Kruskal tensors, guards, rounding functions with relative error at most 1/2, and orders of summation","rounding errors depend on the numbers, and on the order in which the library sums",f"{D}:KruskalTensor.normalize_components")
p("Exact models are the same","Two Kruskal tensors with the same number of components that represent the same tensor have the same components up to their order, and a factor match score of one up to the guard eps, if two of the factor matrices of one of them have linearly independent columns and no two of its components are proportional in the other modes. Hence fits that report the error zero found the same components, and those the data were built from. With two modes this fails.","all tensors with any number of modes, all ranks, all decompositions","uniqueness quantifies over all decompositions of a tensor",f"{D}:KruskalTensor.construct_tensor",f"{D}:KruskalTensor.factor_match_score",f"{M}:factor_match_score",f"{CP}:BaseCP.SSE")
p("Sizes of components and existence of best models","With non-negativity constraints on all modes, or an orthonormal factor matrix in one mode, the components of a model cannot cancel: after a fit with non-negativity constraints and at least one iteration no component is larger than the norm of the data plus the square root of the reported SSE. Every tensor has a best non-negative model, a best model with an orthonormal mode, a best model with one component, and (with positive ridge penalties on all modes) a model with the least documented loss. Without such constraints there need not be a best model: there is a tensor that two components fit with arbitrarily small errors but not exactly, and whenever a tensor is not the sum of R components, models with R components and small errors have large components.","all tensors, all ranks, all decompositions, all fits","existence of a minimum, and its absence, quantify over all decompositions",f"{CP}:CP_ALS",f"{CP}:BaseCP.SSE",f"{CP}:BaseCP.loss",f"{D}:KruskalTensor.construct_tensor")
p("Exact coupled models are the same","Two coupled fits (CMTF_ALS) of the same tensor and matrices that both report the error zero have the same components of the tensor up to their order, and with the same order the same components of every coupled matrix, if the model of the tensor is identifiable (C141) and the factor matrix of the mode of the coupled matrix has linearly independent columns. With dependent columns the components of the coupled matrix are not determined.","all data, numbers of modes, ranks and coupled matrices","uniqueness quantifies over all pairs of exact fits",f"{CM}:CMTF_ALS.SSE",f"{CM}:CMTF_ALS.coupled_factor_matrices",f"{CM}:CMTF_ALS.reconstructed_coupled_matrices")
p("A PARAFAC2 fit is not worse than its start","After an unconstrained fit of Parafac2_ALS without penalties of k iterations from orthonormal projection matrices, SSE is at most (1 + 2d) times the error of the start plus (2k + 1) d times the sum of the squares of the data, where d is the rank times the largest number of columns of a slice times 1e-16 (orthogonal_solve treats small singular values as zero). In particular a start that reproduces the data is kept up to that bound, and exactly if the singular values of the slices that the rank needs are not treated as zero.","all data, sizes of slices, ranks, starts, numbers of iterations and cp_updates > 0","bounds the worst case over all data and all lengths of runs; C53 shows that the error can increase in a step",f"{P2}:Parafac2_ALS._fit",f"{P2}:BaseParafac2._update_projection_matrices",f"{B}:orthogonal_solve")
p("Fits without random start are reproducible","A fit whose start is given, computed by SVD or loaded from a file gives the same result, logs and checkpoints whatever numbers the random generator produces.","all data, options, starts and random numbers","reproducibility quantifies over all states of the random generator",f"{CP}:CP_ALS.init_components",f"{P2}:BaseParafac2.init_components",f"{CM}:CMTF_ALS._init_coupled_matrices")
p("Components that start equal or zero","Without constraints and penalties, a fit does not separate components whose columns are equal at the start up to signs that multiply to one (CP_ALS, Parafac2_ALS), and does not change columns of a component that are zero at the start in two modes (in CMTF_ALS two modes without coupled matrices): such starts fit fewer components than asked for.","all data, ranks, starts of this kind and numbers of iterations","an invariant of all iterations for all data; it also depends on which of the least squares solutions is returned when the problem is singular",f"{CP}:CP_ALS._fit",f"{P2}:Parafac2_ALS._fit",f"{CM}:CMTF_ALS._fit",f"{B}:rightsolve")
p("PARAFAC2 data with one component are recovered","If the slices of the data are outer products X_k = a x_k^T with the same vector a and no x_k zero, a Parafac2_ALS fit of rank one without constraints and penalties, with at least one CP update per iteration and a positive number of iterations, runs at least one iteration, ends with SSE 0 and orthonormal projection matrices, and reproduces every entry of the data, from any start in which the column of A is not orthogonal to a and blueprint_B and C have no zeros.","all such data with fewer than 10^16 columns per slice, starts, configurations and numbers of iterations","a test samples a few data sets and starts, and cannot tell an exact recovery in one iteration from convergence",f"{P2}:Parafac2_ALS._fit",f"{P2}:BaseParafac2._update_projection_matrices",f"{P2}:Parafac2_ALS._update_parafac2_factors",f"{B}:orthogonal_solve")
p("Exact PARAFAC2 models are the same","Two PARAFAC2 models with the same number R of components and orthonormal projection matrices that have the same slices have the same components up to their order, if A and the blueprint of one of them have linearly independent columns and the rows of its C are in general position (no nonzero form of degree four vanishes on all of them): there is a permutation such that corresponding components add the same to every entry of every slice, the columns of A are multiples of each other, and the absolute values of the columns of C are too. So two Parafac2_ALS fits of the same data with SSE 0 found the same components, and a fit with SSE 0 of data built from a Parafac2Tensor found the components of that tensor.","all Parafac2Tensors and fits of any numbers of slices, sizes of slices and components","uniqueness is a statement about all other models of the same data; tests compare one fit with one truth",f"{D}:Parafac2Tensor.construct_slices",f"{P2}:Parafac2_ALS.SSE",f"{D}:Parafac2Tensor.factor_match_score")
p("Factor match score of equal PARAFAC2 models","Two identifiable PARAFAC2 models with the same slices (C148) and slices of one size have a factor match score that is one up to the guard in the denominators.","all such pairs of Parafac2Tensors, with and without weight penalty, for both reductions","tests score a few pairs of models, mostly the truth against itself",f"{D}:Parafac2Tensor.factor_match_score",f"{M}:factor_match_score")
p("Coupled data with one component are recovered","If the tensor is a single outer product that is not zero and the coupled matrices are outer products that share its columns, CMTF_ALS with one component and without constraints finds the component: after two iterations (after one, if the last mode has no coupled matrix) the fitted model reproduces the tensor and the matrices, provided some mode has no coupled matrix and no column becomes zero on the way, which is so if the start and the drawn numbers have positive inner products with the columns of the data.","all such tensors and matrices of any orders and sizes, all starts and draws with positive inner products","recovery in two iterations for all data and starts; tests fit a few random problems and look at the factors, not at the reconstruction",f"{CM}:CMTF_ALS._update_als_factors",f"{CM}:CMTF_ALS._update_uncoupled_matrix_factors",f"{CM}:CMTF_ALS._init_fit")
p("Limits of fits with non-negative factor matrices","If the factor matrices of CP_ALS fits with non-negative modes and more and more iterations converge, the limit is optimal mode by mode: no change of a single factor matrix that keeps the required signs lowers the squared error.","all tensors, ranks, flags and starts for which the factor matrices converge","optimality of a limit over all matrices of a mode; a test sees finitely many iterations and compares with few alternatives",f"{CP}:CP_ALS._update_als_factor",f"{CP}:CP_ALS._fit",f"{B}:non_negative_rightsolve")
p("Limits of fits with ridge penalties","If the factor matrices of CP_ALS fits with ridge penalties and more and more iterations converge, the limit is optimal mode by mode: no admissible change of a single factor matrix lowers the documented loss, the squared error plus the penalties.","all tensors, ranks, non-negative penalties, flags and starts for which the factor matrices converge","optimality of a limit over all matrices of a mode; a test sees finitely many iterations and compares with few alternatives",f"{CP}:CP_ALS._update_als_factor",f"{CP}:CP_ALS._fit",f"{B}:add_rightsolve_ridge")
p("Fits of matrices approach the truncated SVD","Given a matrix whose R-th singular value is larger than the next, CP_ALS with R components, without constraints or penalties, approaches the best approximation of that rank: the reported error differs from the smallest possible by at most a multiple of the ratio of the two singular values to the power 4k after k + 1 iterations, and so does the model from the truncated singular value decomposition.","all matrices with such a gap, all ranks and all starts whose second factor matrix has an invertible product with the leading right singular vectors (needed: a start orthogonal to them stays away for ever); fits of any length","a rate of convergence to a global optimum; a test observes finitely many iterations of finitely many matrices",f"{CP}:CP_ALS._update_als_factor",f"{CP}:CP_ALS._update_als_factors",f"{CP}:CP_ALS._fit",f"{B}:rightsolve")
p("SVD start of a matrix gives the best model","With init='svd' the model of a matrix after one or more iterations is a best approximation: no pair of factor matrices with the same number of components has a smaller squared error.","all matrices, all ranks not larger than both sizes, all numbers of iterations, any routine with the contract of np.linalg.svd; no gap between singular values","comparison with all models; tests compare with few",f"{CP}:BaseCP.init_svd",f"{CP}:CP_ALS._update_als_factor",f"{CP}:CP_ALS._fit",f"{CP}:BaseCP.SSE")
p("Models explain at most as much as principal components","The error reported by a fit with R components is at least what the R leading principal components leave of the unfolded data: for CP_ALS of every unfolding, for Parafac2_ALS of the slices side by side, for CMTF_ALS of an unfolding with the matrices coupled to its mode beside it.","all data, ranks, constraints, penalties, starts and numbers of iterations","a lower bound for the errors of all models; a test looks at few of them",f"{CP}:BaseCP.SSE",f"{CP}:CP_ALS._fit",f"{P2}:BaseParafac2.SSE",f"{CM}:CMTF_ALS.SSE")
p("The lengths of the columns of the start do not matter","Two starts of CP_ALS whose factor matrices differ only by factors on the columns (and arbitrarily in the first mode) give the same model and the same reported error after the same number of iterations; the columns of the results still differ by these factors. If both fits perform more than one iteration, they perform the same number.","all data, ranks, starts and factors other than zero, without constraints and penalties, as long as no update is underdetermined (the rank-one terms of the other modes are linearly independent)","relates two fits over all starts and scales",f"{CP}:CP_ALS._update_als_factors",f"{CP}:CP_ALS._fit",f"{CP}:BaseCP.init_components")
p("Fits depend continuously on the data and the start","If data converge to X and starts converge to t (in the modes after the first), then the factor matrices, the models and the reported errors of the fits of CP_ALS with a given number of iterations converge to those of the fit of X from t: small changes of the data or the start lead to small changes of the result.","all convergent sequences of data and starts, all ranks and numbers of iterations, without constraints and penalties, as long as no update of the limiting fit is underdetermined","a statement about limits over all sequences of inputs",f"{CP}:CP_ALS._update_als_factor",f"{CP}:CP_ALS._fit",f"{B}:rightsolve")
p("Stricter tolerances and larger budgets","A fit with smaller tolerances and a larger max_its, of the same data from the same start, performs at least as many iterations, and passes through the result of the other fit: its result is what further iterations make of that result. Without constraints and penalties the error of CP_ALS is not larger.","all data, ranks, starts, constraints, pairs of tolerances and budgets; CP_ALS, CMTF_ALS and Parafac2_ALS","relates two runs with unbounded numbers of iterations for all options",f"{CP}:CP_ALS._fit",f"{P2}:Parafac2_ALS._fit",f"{BD}:BaseDecomposer.fit")
p("The tolerances bound the number of iterations","If (1 - convergence_tol)^N < rel_loss_tol, a fit of CP_ALS of any tensor that is not zero makes at most N + 1 iterations, whatever the start and max_its are: the bound does not depend on the data. With the default tolerances this is at most 24000001. For CMTF_ALS with starts of norm product one the same holds if (1 - convergence_tol)^N times the sum of the squared norms of tensor and matrices is below rel_loss_tol times the squared norm of the tensor.","all tensors that are not zero, ranks, starts and budgets, without constraints and penalties; with one component also with non-negative factor matrices","a bound over all data and unbounded runs",f"{CP}:CP_ALS._fit",f"{CP}:CP_ALS._update_als_factor",f"{CP}:CP_ALS._update_convergence")
p("A fit is at least as good as the models in its start","A fit of CP_ALS that makes an iteration ends with an error that is at most that of any model, of any number of components, weights and first factor matrix, whose columns in the modes after the first are multiples of columns of the start. In particular a fit with more components, started from the result of another fit and any further columns, is not worse than that fit.","all tensors, ranks, starts, models and budgets, without constraints and penalties","relates a run of any length to infinitely many models",f"{CP}:CP_ALS._fit",f"{CP}:CP_ALS._update_als_factor")
p("Explained variance of coupled models","After a fit of CMTF_ALS to a tensor that is not zero, explained_variance is between 0 and 1, and it is 1 exactly if the model reproduces the tensor and all coupled matrices.","all tensors, coupled matrices, modes, ranks, starts, options and budgets","a fit of any length to arbitrary coupled data",f"{BD}:BaseDecomposer.explained_variance",f"{CM}:CMTF_ALS.SSE")
p("The factor match score is continuous","If the entries of the factor matrices converge, factor_match_score converges to the score of the limits, for both reductions, with and without the size penalty: small changes of the decompositions change the score little. In particular, fits of data that converge have, compared with the fit of the limit, scores that converge to the score of that fit with itself.","all converging sequences of factor matrices of any sizes and numbers of components, at all limits","a statement about limits of scores over infinitely many pairs of decompositions",f"{M}:factor_match_score")
p("The reported error, the noise and the distance to the truth","If the data (for CMTF_ALS the tensor and the coupled matrices together) are the sum of some truth and noise, the distance of the fitted model to the truth is at least the difference and at most the sum of the square root of the reported SSE and the norm of the noise. A fit of CP_ALS without constraints and penalties that makes an iteration, and whose start contains the columns of the truth in the modes after the first, is not further from the truth than twice the norm of the noise.","all tensors, slices, truths, noise, starts, constraints, penalties and budgets (positive for CP_ALS and CMTF_ALS) of CP_ALS, Parafac2_ALS and CMTF_ALS","quantifies over all truths and runs of any length; tests only compare with a known truth up to a tolerance",f"{CP}:CP_ALS._fit",f"{CP}:BaseCP.SSE",f"{P2}:Parafac2_ALS._fit",f"{P2}:BaseParafac2.SSE",f"{CM}:CMTF_ALS.SSE")
p("Fits keep the symmetries of the data and the start","If exchanging rows of the modes leaves the data and the initial decomposition as they are, it leaves the fitted decomposition as it is, whatever the budget. So a fit from a symmetric start never finds a better model that is not symmetric: from equal rows, a fit of [[2,-1],[-1,2]] with one component ends with an error of at least 9, although a model with error 1 exists.","all tensors, slices and coupled matrices, all permutations of the rows (not of modes with an orthonormality constraint), starts, budgets; for CP_ALS and Parafac2_ALS all non-negativity constraints and penalties, for CMTF_ALS none","a statement about runs of any length on infinitely many symmetric data sets",f"{CP}:CP_ALS._fit",f"{P2}:Parafac2_ALS._fit",f"{CM}:CMTF_ALS._fit")
p("Core consistency of fits with one component","After every fit of CP_ALS or Parafac2_ALS with one component that makes an iteration and does not end with the zero model, core_consistency (core_consistency_parafac2) of the fitted decomposition is 100 up to the eps guard of the normalisation, whatever the data, the start and the explained variance are; so it cannot warn of a bad fit with one component.","all third-order tensors and lists of slices, starts, budgets, non-negativity of any modes, and for CP_ALS orthonormality of the modes before the last; no penalties","the value after runs of any length on any data; tests use exact data only",f"{CP}:CP_ALS._fit",f"{P2}:Parafac2_ALS._fit",f"{M}:core_consistency",f"{M}:core_consistency_parafac2",f"{D}:KruskalTensor.core_consistency")
p("Fitted models are not longer than the data","After every fit of CP_ALS or Parafac2_ALS that makes an iteration, construct_tensor (construct_slices) of the fitted decomposition has at most the norm of the data, and so no entry is larger than this norm, however large single components become (degeneracy).","all tensors and lists of slices, ranks, starts, budgets, constraints on the modes before the last (Parafac2_ALS: non-negativity), ridge penalties that are not negative; with one component also non-negativity of any modes, with and without penalties","a bound for all data and runs; the components themselves are not bounded",f"{CP}:CP_ALS._fit",f"{P2}:Parafac2_ALS._fit",f"{D}:KruskalTensor.construct_tensor",f"{D}:Parafac2Tensor.construct_slices")
out=os.path.join(os.path.dirname(os.path.dirname(os.path.abspath(__file__))),"properties.jsonl")
with open(out,"w") as f:
    for q in P: f.write(json.dumps(q)+"\n")
print(len(P))
