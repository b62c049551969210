M = {
"C01": "`moveaxis` and `reshape` on flat C-order data; extensionality over multi-indices; the index map is shown bijective.",
"C02": "composition of the two index maps of C01.",
"C03": "as C02, in the other order; size mismatch is the exception of `reshape`.",
"C04": "the slice-assignment loop over arbitrary initial memory; induction over the list of factors.",
"C05": "as C04 for the Kronecker product, matrices and vectors.",
"C06": "the sum over multi-indices factorises; induction over the list.",
"C07": "unfold formula and Khatri-Rao formula, reindexing of the sum; the fast paths by case analysis.",
"C08": "from C04 and `fold`: entry = sum over components of weights times factor entries.",
"C09": "C08 and C01.",
"C10": "induction over the list with the running offset; short inputs raise.",
"C11": "normal equations from the thin SVD; completion of the square gives global optimality.",
"C12": "the stacked system: its residual is the ridge objective.",
"C13": "row by row from the NNLS contract.",
"C14": "Procrustes: trace bound by contraction, with the singular values below the cut-off accounted for.",
"C15": "case analysis of the constructor.",
"C16": "loop invariant: weights times column norms is constant where norms exceed eps.",
"C17": "direct, including zero columns.",
"C18": "finite sums over components.",
"C19": "HDF5 group as finite map; names `factor_matrix{i}` are injective for all numbers.",
"C20": "as C19 for the projection matrices.",
"C21": "`load_from_hdf5_group` passes a keyword the constructor does not have.",
"C22": "sums; the zero-padding loop writes disjoint slices.",
"C23": "direct; the weights are dropped.",
"C24": "orthonormality of the projections gives B_k^T B_k = B^T B.",
"C25": "finite sums.",
"C26": "fold over all permutations (maximum of a list), Cauchy-Schwarz for each congruence.",
"C27": "bijection of the set of permutations; absolute values.",
"C28": "inverse permutations; finite products commute.",
"C29": "the identity attains 1 and C26 bounds by 1; zero columns are guarded by the code.",
"C30": "case analysis on the number of columns.",
"C31": "mode by mode use of C26; for evolving tensors with the evolving factor matrices stacked (C31_evolving).",
"C32": "loops over columns; case analysis of the first non-zero entry.",
"C33": "the product of signs after the correction of one mode.",
"C34": "quadratic expansion around the normal equations; induction over the history of updates.",
"C35": "invariant of the cached MTTKRP over all update histories.",
"C36": "state machine; two-fit witness.",
"C37": "the code solves the regularised normal equations in the least-squares sense, which is another problem; witness.",
"C38": "as C37 with NNLS on the normal equations; witness. With one component the normal equations have a single unknown per row, so that the update minimises the SSE; induction over the sweeps.",
"C39": "as C37 with the orthogonal solver; witness.",
"C40": "solver contract and loop invariant.",
"C41": "induction on the remaining budget, for every `Method`.",
"C42": "case analysis on the empty loop (`it` never assigned).",
"C43": "induction on the loop with the file as part of the state.",
"C44": "`it % -1 == 0` together with the test for a positive frequency.",
"C45": "file invariant over histories of `store_checkpoint`.",
"C46": "two runs in sequence; collision of group names.",
"C47": "comparison of the resumed run with the uninterrupted one.",
"C48": "finite maps: what was written is found.",
"C49": "lexicographic order of zero-padded decimal names.",
"C50": "invariant over all operation lists.",
"C51": "invariant of the file and the buffers; crash after every prefix of writes.",
"C52": "Procrustes per slice (C14), with the dropped singular values in the bound.",
"C53": "C52 and C34 for the inner problem; Pythagoras between slices and their projections.",
"C54": "heap model: disjointness of addresses, or all slices at one address.",
"C55": "heap model: which addresses the inner decomposer writes.",
"C56": "equality of programs; a witness for the dropped arguments.",
"C57": "block least squares of the coupled problem; witnesses for shared and negative modes.",
"C58": "frame argument over the updates, then over whole fits.",
"C59": "the branch looks up a method that does not exist.",
"C60": "loop over columns as in C16, for both kinds of factors.",
"C61": "case analysis of the dispatch, `str.lower` on characters.",
"C62": "loop over the supplied factors, `zip` stops early.",
"C63": "Kronecker structure of the least-squares problem, uniqueness under full column rank.",
"C64": "diagonal of the hat matrix: trace and Cauchy-Schwarz.",
"C65": "products of cosines: Cauchy-Schwarz.",
"C66": "arithmetic with `FV`.",
"C67": "counting; witnesses.",
"C68": "arbitrary draws.",
"C69": "look-up of a module attribute that does not exist.",
"C70": "keyword binding of a call with wrong arguments.",
"C71": "case analysis over the number of modes used.",
"C72": "shape arithmetic of `init_svd` with a list where a number is needed.",
"C73": "columns of the left singular matrix.",
"C74": "total correctness: every step of `fit` succeeds; C34 for the bound.",
"C75": "invariant over two loggers in one group.",
"C76": "the weights do not occur in the call.",
"C77": "as C76, on top of C63.",
"C78": "linearity of the least-squares solution.",
"C79": "reindexing of a finite sum by a permutation.",
"C80": "total correctness over the heap model; C53 for the bound.",
"C81": "the loss read off the heap equals the specification on arrays.",
"C82": "C57 along the whole fit; witness where normalisation changes the start.",
"C83": "total correctness of the CMTF fit.",
"C84": "projection of the slices, then C63; Pythagoras.",
"C85": "reshape of the stacked slices against the list of slices.",
"C86": "finite maps; one group per experiment name.",
"C87": "Python indexing of lists, the unpacking protocol, argument binding.",
"C88": "direct from C22 and the closed form of the constructed tensor; PARAFAC2 tensors by the evolving tensor with the same factor matrices; counting; witness.",
"C89": "model with references (objects and arrays in a heap); simulation between the fit on values and the fit in memory, whose relation says which arrays may have changed.",
"C90": "same simulation, for objects that use every array once; witnesses with a shared 1x1 array.",
"C91": "geometric decrease of the SSE as long as the test does not stop the fit (uses C34), for all budgets; the same for `Parafac2_ALS` (C53) and `CMTF_ALS` (C57); for zero data, induction that every test sees nan, infinity or 1. `C91_parafac2_start_partial`: a step ends at most at the error of the zero model (P2Step.le_zero), so the bound for Parafac2_ALS does not depend on the error of the start; the lower bound is that of principal components (C155).",
"C92": "the state before and after the last iteration of a completed fit (C74) and the values that the test saw; witness diag(2,1).",
"C93": "loadCheckpoint composed with the cached SSE; exact value by the inner product of the data with mixed factor matrices; witness diag(4,1).",
"C94": "an iteration does not read what is remembered of the last one, except for the relative change; witness diag(4,1).",
"C95": "simulation of two runs: factor matrices related by scalars per mode, errors by the square; normal equations and minimum norm determine the update.",
"C96": "the same simulation with a permutation of components and signs.",
"C97": "the same simulation with permutations of the rows of every mode.",
"C98": "the same simulation with the identity and two libraries: the update is the unique solution of minimum norm.",
"C99": "the first iterate is the same; the runs agree from then on if the tolerances do not stop them.",
"C100": "optimality of the last update over all matrices makes the residual orthogonal to the model (a quadratic that is minimal at 0), hence Pythagoras; for Parafac2 through the projected tensor, using that projections do not increase norms; witness for the constraint; with one component the non-negative update is optimal along the ray through the model, which gives orthogonality to the model itself (NonNegSweep.orthogonal); with a penalty on the last mode the residual has a non-negative inner product with the model, because the Gram matrix is positive semidefinite (ridge_short; ridge_short_one for one non-negative component).",
"C101": "every solver minimises the residual of the normal equations over its constraint set, which is 0 at the true matrix; a zero residual is a least-squares solution, hence exact; induction over modes and iterations. Witness 1 x 1 for the weights.",
"C102": "optimality of an update makes the residual orthogonal to all models with another matrix in that mode, hence Pythagoras for every update; Cauchy-Schwarz over the modes of a sweep, telescoping over the iterations.",
"C103": "the optimality of each update passes to the limit (continuity of the squared error); for accumulation points the movements tend to 0 by C102 and the updated matrix is recovered from the model by the inverse of the Gram matrix of the other modes; the derivative is the sum of the inner products of the residual with models changed in one mode.",
"C104": "a second model of the loop that also produces the printed lines; simulation of the loop without printing by induction over the budget. The lines can be computed because every iteration has just computed the loss.",
"C105": "inner product of two rank-one tensors as product over the modes; the score times the square of the larger size is at most its absolute value; expand the squared distance.",
"C106": "simulation of the run with checkpoints by the run without, induction over the budget; store_checkpoint changes only the file and the write positions of the loggers. Second induction for the path None.",
"C107": "loop of a+b iterations = loop of a followed by loop of b (induction over a), with the early stop of the first part carried over; the budget does not influence the loop. Parafac2_ALS: simulation relation (all but the weights and target of the inner CP object), preserved by an iteration and established by preparing again. Concrete witnesses for CMTF_ALS and for an orthonormality constraint.",
"C108": "C80 for states in which slices share an array (the last write wins), the invariant `dec.P = replicate K q` along the orbit, the zero Procrustes solution for a zero slice; concrete witness with two 1×1 slices.",
"C109": "`U f(S) Vᵀ` does not depend on the decomposition: polynomial functional calculus of `AᵀA` (odd spectral functions), for the pseudo-inverse and the polar factor; equality of the solvers lifts to equality of all functions of the model that use them.",
"C110": "simulation relation between the two runs (all arrays equal, projections rotated), preserved by an iteration because the Procrustes solution of a rotated matrix is the rotated solution and the projected tensor is the same; established by the start.",
"C111": "a predicate `KeepsOnError` on programs, closed under sequencing; each init_components has it. Concrete witness: a rejected fit after the fit of diag(4, 1).",
"C112": "each solver commutes with a permutation of the rows of the right hand side (the orthonormal one by C110's lemma for the permutation matrix); hence one update, all iterates, the errors and the stopping tests.",
"C113": "simulation relation between the two runs: the projection updates are equal slice by slice and the inner CP problem has its first and last modes moved (C112's lemmas).",
"C114": "simulation relation between the two runs; orthogonal_solve of scaled data by uniqueness of spectral functions of a thin SVD and the relative threshold; the inner problem by C95's lemmas.",
"C115": "the same simulation relation as C114 with permuted and signed components.",
"C116": "the first iteration overwrites P and then A; the states after it are related as in C114.",
"C117": "simulation relation between the two runs; a row of an update is the unique solution of its normal equations in the row space of their matrix (`rightsolve_rows`), which the rearrangement respects; likewise the right factors, the error and both normalisations.",
"C118": "the same simulation relation as C117.",
"C119": "the relation of C117 with nothing moved and two libraries.",
"C120": "the loop over the modes stops at the first mode with columns of different lengths; induction over the modes. For the numbers of modes: the zipped lists are those of the common modes.",
"C121": "the reshaped vector is the matrix with this column, then the closed form of C26.",
"C122": "the normal equations of an update (orthogonality of the residual) make the new column a multiple of the one of the data; the factor is a product of inner products, not zero by induction over the modes and iterations; the last update of a sweep can reach error 0.",
"C123": "the computation of the first error stops at the first matrix that cannot be broadcast; for the first matrix of a mode the right-hand side of the update cannot be put together, whatever the state. Refutation by simulation: the fit with a row is related step by step to the fit with copies of the row.",
"C124": "the used and the new object are related step by step until all that differs has been overwritten; for CMTF_ALS the number of the last updated mode may differ to the end and is never used. The constraints after any history are those given, with None replaced by a list. Refutation: the list has an entry for a mode that does not exist.",
"C125": "an invariant of all states of the call: the heap agrees with the one before outside the arrays passed, and all arrays of the decomposition and of the inner CP_ALS object are new or passed; every write goes to one of them. Refutation: the decomposition of the object is the one passed, and a run with 1 x 1 slices changes it.",
"C126": "the updates of a CMTF_ALS object with an empty dictionary are those of a CP_ALS state with the same factor matrices; that state is the one of the CP_ALS fit with the modes multiplied by constants, so that the invariant of C95 applies from the first iteration on. Equal errors give equal stopping decisions. Refutation: a 1 x 1 tensor with an exact start.",
"C127": "case distinction on the class of the argument; for arrays the broadcast of line 341 is computed for all sizes and shown to have one axis too many, from which the slice shapes of the result follow.",
"C128": "simulation between the two objects (`CMTFState.Reordered`): every step of the fit is shown to keep the relation, the dictionaries are related through their first entries, the sums over the matrices are permuted; a witness with two matrices on one mode for other orders.",
"C129": "the best core of the changed problem is obtained from that of the original one by reindexing and dividing (`core_moved`), since the best core is unique; the sums of squares are then reindexed. For scales the balanced columns are compared, with a bound on the change and a witness.",
"C130": "products over the modes and sums over the indices are reindexed by the permutation (`prod_move`, `sumIdx_listed`), and the values of the functions are those of C26, C65 and `constructTensor_eq`; the two sides of the least squares problem of a mode are the same arrays in both orders (`mttkrp_exchanged`, `gramProd_exchanged`), so updates and sweeps correspond; the fit is refuted with diag(2, 1), which is its own transpose.",
"C131": "the unconstrained solvers multiply the right hand side from the right; for the orthonormal one a reflection along the relation leaves the right hand side alone and so leaves the (unique) truncated polar factor alone; for equal rows the exchange of the two does this for every solver, also the non-negative one; then induction over the modes and the iterations.",
"C132": "the Gram matrices of the factors and the products of the data with the factors are the same for the small and the large problem, or multiplied by the matrix; the solvers multiply the right hand side from the right, so each update preserves the relation; induction over modes and iterations, for PARAFAC2 with the projection matrices being equal because the orthogonal solver only sees the product of its arguments; for CMTF with the normal equations having one solution in the row space, and lengths of columns being preserved by the normalisation.",
"C133": "the specification writes the names out and pads numbers with the functions of the standard library, whose agreement with the formatting of the model is proved by induction over the digits; contents by induction over the list of matrices; the attributes of checkpoint files are an invariant of every step of a fit, whether it returns or raises.",
"C134": "floating-point evaluation is a relation: sums and products of matrices may be evaluated in any order (inductively over finite sets of summands), every operation is followed by an arbitrary function with relative error at most u. A calculus of approximations (value, exact value, size of the terms, number of roundings) is propagated through the Khatri-Rao products, the matrix products, the norms and the inner product. Double precision is rounding to 53 bits, ties to even, which is proved to satisfy the hypothesis; the counterexample is evaluated with it. With the identity as rounding the relation gives the value of the exact model.",
"C135": "as C134, with induction over the zipped lists of slices and of coupled matrices; sums of squares stay nonnegative under every rounding with relative error at most one. Double precision is shown to round numbers up to one to numbers up to one.",
"C136": "relative errors are tracked in both directions through norms, the guard, quotients and products (`Near`), absolute ones through the inner products of the normalised columns, whose terms sum to at most one in absolute value by Cauchy-Schwarz; the relative difference of sizes is one minus a quotient. Minimum, mean and maximum over the assignments do not enlarge the error. The witness is evaluated for every order of summation.",
"C137": "each block update is a linear least squares problem, so the error along a line through its solution is a quadratic function without linear term, and the decrease equals the squared movement; Cauchy-Schwarz over the updates of an iteration gives the bound. Optimality for each block passes to limits by continuity, and the derivative in a joint direction is the sum of the derivatives in the blocks.",
"C138": "the Khatri-Rao product is computed for arbitrary sizes; outside the middle mode its number of rows meets the unfolding in one multiplication. For the middle mode, induction over the blocks up to the first one that has too few rows.",
"C139": "an iteration is a step: optimal projection matrices for the old factor matrices (Procrustes bound without dropped singular values), then cp_updates sweeps on the projected data, for which the error is that of a CP model up to a constant. Optimality of each block passes to the limit by continuity; for subsequences the decrease of the error bounds the movement within the last sweep, and independence of the rank-one terms recovers the factor matrices before each update.",
"C140": "induction over the modes: the relative errors of norms, guard and quotients in both directions (`Near`, from C136) give the lengths, products of signed relative errors (`Approx`) the weights and the entries; the rest is the factor of C16.",
"C141": "linear functionals dual to the independent columns turn the equality of the tensors into a simultaneous diagonalisation; its eigenvectors have one entry that is not zero each because no two components are proportional in the other modes (`rank_one_terms_unique`). Equal rank-one terms have proportional columns (induction over the modes), whose congruences are the guards. Two modes: the identity matrix as I I and as H H/2.",
"C142": "the inner products of non-negative components are non-negative, those of components that are orthogonal in one mode are zero, so the squared norms add up to at most that of the model, which is bounded through the triangle inequality. Existence: the lengths of the columns are moved into the weights; then the models of a class whose components do not cancel and whose error is at most a given one lie in a compact set (Tychonoff), on which the error is continuous. Non-existence: Cayley's hyperdeterminant of a sum of two components is a square, which forces two proportional columns.",
"C143": "an error of zero means that the tensor and each matrix are exact; C141 gives the order and the factors by which the columns differ, and the independent columns of the shared factor matrix determine the uncoupled one.",
"C144": "the singular values dropped by orthogonal_solve are at most sqrt(rank · columns) · 1e-8 times the largest one, so the loss of optimality of the projection update is bounded by the norms of the data and of the model (C52); a sweep of exact least squares updates makes the model an orthogonal projection of the data, which bounds the norm of the model, and the bound is summed over the iterations. For an exact start the cross products have the rank of the slices, and nothing is dropped.",
"C145": "the branches of init_components that draw numbers are not taken and nothing else in the configuration of the fit depends on them; for CMTF_ALS the drawn columns are divided by their norms. Refutation: one iteration of least squares on a 1 × 1 problem in which the drawn factor -1 makes the first update zero.",
"C146": "exchanging the equal components, or changing the signs of the two zero columns, does not change the start; by C96, C115 and C118 it changes the result in the same way, so the result has the same symmetry.",
"C147": "the single singular value of a slice is not treated as zero, so the new projection vector is best; comparison with x_k / |x_k| and the equality case of Cauchy-Schwarz show that it is that vector up to sign, the sign making all projected entries agree with the start. The projected data have one component, which the first sweep finds (C122); exact states stay exact (C144).",
"C148": "both models have the column space of A, so A' = A T^-1, and the matrices diag(c_k) D^T D diag(c_k) of the two are congruent by T. The 2 x 2 minors that vanish for the entries of the second give equations of degree four in c_k, which by general position hold for all weights; taking unit vectors and sums of two for the weights shows that T has one nonzero entry per row and column.",
"C149": "for positive C the signs of C148 are determined, so all three columns of matched components are proportional and their sizes agree; then as for C141 through C85. The witness flips the sign of one of two slices.",
"C150": "the normal equation of an update in the direction of a unit vector says that the new column is a multiple of the column of the data; the factor is nonzero if the column is, and positive for positive inner products. Then the right factors fit their matrices exactly, the update of a mode without a coupled matrix makes the tensor exact, and later updates keep it so because error zero is attainable.",
"C151": "the residual of the normal equations is a quarter of the sum of the squares of the partial derivatives of the squared error in the entries of the factor matrix. Iterations are sweeps of such minimisations; the minimality passes to the limit by continuity. At a positive limit small steps in the direction of the gradient are admissible, so its image under the Gram matrix, and then the gradient itself, vanishes. With one component both minimisations agree. The refutation is a fit that never moves.",
"C152": "as for C151, with the penalty added to a quarter of the sum of squared partial derivatives: `C12_ridge` and `C12_ridge_nonneg` give one step, iterations are sweeps of such steps, and the minimality passes to the limit by continuity. If the rank-one terms of the other modes are orthogonal with squared length g, the quarter of the squared slopes is g times the squared error plus a constant. The refutation is a fit that never moves.",
"C153": "one iteration is a step of subspace iteration: the normal equations (C12, `Sweep`) turn a second factor matrix (V + Z) K with V the leading right singular vectors, VᵀZ = 0 and K invertible into one of the same form with ‖Z‖² smaller by (ρ/σ)⁴; induction over the iterations. The error of the model is compared with `fsq M - Σ d²` and this with all models by an Eckart-Young theorem proved from Bessel's inequality (LinAlg/SubspaceIteration.lean).",
"C154": "C73 gives orthonormal columns that capture as much of the matrix as any others; the first update of the first mode is at least as good as M B0, whose model is the projection onto these columns; every other model lies in the span of R orthonormal columns (`exists_orth_factor`); later iterations do not increase the error (C34).",
"C155": "the models of one mode are products A Bᵀ with R columns (B is the weighted Khatri-Rao product, the stack of the P_k D diag(C_k), or that above the right factors of the coupled matrices). A thin SVD of A gives orthonormal columns Q; projecting on them is at least as good, and Ky Fan's maximum principle bounds what they capture by the R largest eigenvalues (LinAlg/Pca.lean). The reported errors are the true ones by C74, C80, C83.",
"C156": "each update is a minimiser of the squared error (Sweep), the residual of a minimiser is orthogonal to all models that differ in one mode, so two minimisers give the same model and, by independence, are the same matrix (optimal_unique). Hence the rescaled minimiser for one start is the minimiser for the other (scaled_step); induction over the modes and iterations. From the second iteration on the stopping criterion sees the same numbers.",
"C157": "the minimiser of an update meets the normal equations, whose matrix has a determinant other than zero when the rank-one terms of the other modes are independent; Cramer's rule (cramer_update) gives the entries of the new factor matrix as a continuous function of the data and the other factor matrices. Induction over modes and iterations (continuous_step, continuous_sweep, continuous_orbit). With tolerances (Props/ContinuityTol): errors and norms converge in every iteration, so each stopping test of a nearby fit is decided as in the limiting fit unless that is a tie; the tested values form a countable set that does not depend on the tolerances. Discontinuity without the condition: C156, C153 and C146 for diag(2, 1) and starts (0, 1/(n+1)).",
"C158": "both fits perform iterations of the same step from the same state (C74, C83, C80); the comparisons of the stop test are monotone in the tolerances, so the stricter fit cannot stop before the other one. For CMTF_ALS cmtf_fit_unfold_start identifies the start; the fits are compared before the normalisation at the end.",
"C159": "the update of the last mode is at least as good as the zero matrix, so the error after the first iteration is at most the squared norm of the data (NonNegSweep.le_zero); sweeps from admissible matrices do not increase it (le_start); then orbit_geometric (C91) from the state after the first iteration. For CMTF_ALS (C159_cmtf) the same with the coupled loss, which is at most the sum of the squared norms after one sweep (CoupledSweep.le_zero).",
"C160": "a model in the columns of the start is a model of the start with another first factor matrix (gathered, cpEntry_gathered); the first update is at least as good (first_iteration_best), and later iterations do not increase the error.",
"C161": "the final state has the sizes and the tensor norm of the start (cmtf_fit_norm), so the property is one minus the true loss over the squared norm (cmtf_explained); lower bound from CoupledSweep.le_zero; witness: ten times the identity has distance at least 10 from every rank-one matrix (ten_eye_err).",
"C162": "the score is the maximum over the finite set of assignments (IsBest.eq_sup) of scores that are continuous: products of guarded cosines (tendsto_congruenceProd), sizes (tendsto_compSize), minimum or mean; for fits with C157; witness: components 1/(n+1).",
"C163": "the reported SSE is the true squared distance of the data and the model at the end of every fit (C74_fit_completes, C80_fit_completes, C83_fit_completes), the triangle inequality over all entries (entryDist_triangle, slicesDist_triangle, dataDist_triangle), and C160_contains for the recovery.",
"C164": "the fit of moved data from a moved start is the moved fit (C112, C113, C117); for data and start that do not change, both are the same run; witness with the swap of rows and columns.",
"C165": "the update of the last mode makes the residual orthogonal to the model (C100_fit_partial); for one component the error of a core g is then R + (1 - rho g)^2 M, which has the single minimum 1/rho (core_of_orthogonal); the guard is bounded by C63_guard. For PARAFAC2 the same holds for the projected data (p2_iteration_orthogonal, C84_projected).",
"C166": "the squared error is not negative and at most the difference of the squared norms of the data and the model (C100); for PARAFAC2 through the inner model, because the projection matrices do not increase lengths.",
}
