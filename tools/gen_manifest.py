"""Writes MANIFEST.json from the table below."""
import json, os
P, Q, N = "proved", "partial", "not_applicable"
claims = {
 "C01": (P, ["TK.C01_unfold_entries", "TK.C01_unfold_bijective", "TK.C01_unfold_bad_mode", "TK.C01_unfold_empty_mode"], ""),
 "C02": (P, ["TK.C02_fold_unfold"], "an empty mode is excluded because unfold raises there (C01)"),
 "C03": (P, ["TK.C03_unfold_fold", "TK.C03_fold_bad_size"], ""),
 "C04": (P, ["TK.C04_khatri_rao", "TK.C04_khatri_rao_skip", "TK.C04_khatri_rao_errors", "TK.C04_khatri_rao_memory"], ""),
 "C05": (P, ["TK.C05_kron", "TK.C05_kron_vectors"], ""),
 "C07": (P, ["TK.C07_mttkrp", "TK.C07_fast_path_agrees", "TK.C07_wrong_number", "TK.C07_three_way_negative"], "modes -2 and -3 of a third-order tensor return None (C07_three_way_negative)"),
 "C08": (P, ["TK.C08_construct_tensor", "TK.C08_single_mode"], ""),
 "C09": (P, ["TK.C09_unfold_construct"], ""),
 "C10": (P, ["TK.C10_flatten", "TK.C10_flatten_empty", "TK.C10_unflatten_flatten", "TK.C10_flatten_unflatten", "TK.C10_unflatten_short"], ""),
 "C11": (P, ["TK.C11_rightsolve"], "assumes the contract of np.linalg.svd (SVDOk); TK.exists_ext shows that routines with the contracts exist"),
 "C12": (P, ["TK.C12_ridge", "TK.C12_ridge_nonneg"], "assumes SVDOk / NNLSOk; l >= 0"),
 "C13": (Q, ["TK.C13_nonneg_partial", "TK.C13_bad_size", "TK.C13_no_rows", "TK.C13_rejects_iff", "TK.C13_one_dimensional_fails"], "two-dimensional B proved; the code fails for one-dimensional B (C13_one_dimensional_fails)"),
 "C14": (Q, ["TK.C14_orthogonal_solve_partial", "TK.C14_orthogonal_rightsolve_partial", "TK.C14_orthonormal_iff", "TK.C14_near_optimal_partial", "TK.C14_zero_fails"], "proved when no singular value is dropped; orthonormality fails exactly otherwise (C14_orthonormal_iff, C14_zero_fails); the loss is near optimal always"),
 "C15": (P, ["TK.C15_init_ok", "TK.C15_init_error"], ""),
 "C16": (P, ["TK.C16_normalize_components", "TK.C16_relative_change", "TK.C16_keep_weights"], "factor matrices that do not share memory"),
 "C17": (P, ["TK.C17_normalize_factor", "TK.C17_normalize_factors"], ""),
 "C18": (P, ["TK.C18_single_component", "TK.C18_components_sum", "TK.C18_bad_component"], ""),
 "C19": (P, ["TK.C19_kruskal_roundtrip", "TK.C19_kruskal_rejected", "TK.C19_names_distinct"], ""),
 "C20": (P, ["TK.C20_parafac2_roundtrip", "TK.C20_parafac2_rejected"], ""),
 "C21": (Q, ["TK.C21_evolving_store_partial", "TK.C21_evolving_load_fails"], "false of the code: loading an EvolvingTensor never succeeds; what is stored is complete"),
 "C22": (P, ["TK.C22_slices", "TK.C22_slice", "TK.C22_construct_tensor", "TK.C22_warning"], ""),
 "C23": (Q, ["TK.C23_from_kruskal_partial", "TK.C23_bad_order", "TK.C23_fails"], "false of the code when the weights are not all one (C23_fails)"),
 "C24": (P, ["TK.C24_parafac2_constraint", "TK.C24_parafac2_pairs"], ""),
 "C25": (P, ["TK.C25_components_sum"], ""),
 "C06": (P, ["TK.C06_gram"], ""),
 "C34": (P, ["TK.C34_update_core", "TK.C34_update_optimal", "TK.C34_updates_monotone", "TK.C34_iterations_monotone", "TK.C34_first_fit"], "assumes the contract of np.linalg.svd (SVDOk); factor matrices that do not share memory"),
 "C35": (P, ["TK.C35_sse", "TK.C35_update", "TK.C35_updateModes", "TK.C35_iteration", "TK.C35_iterate", "TK.C35_init", "TK.C35_first_fit"], "for the first fit of an object; the cached value goes stale in a second fit (C36)"),
 "C36": (Q, ["TK.C36_refit_partial", "TK.C36_refit_fails", "TK.C36_refit_type_error"], "false of the code: the second fit of a CP_ALS object reads a stale cache or raises"),
 "C37": (Q, ["TK.C37_loss", "TK.C37_ridge_partial", "TK.C37_ridge_increases"], "false of the code: the penalised loss can grow (C37_ridge_increases)"),
 "C38": (Q, ["TK.C38_nonneg_partial", "TK.C38_one_partial", "TK.C38_nonneg_increases"], "false of the code: the SSE can grow (C38_nonneg_increases); proved for whole fits with one component (C38_one_partial)"),
 "C39": (Q, ["TK.C39_orthonormal_partial", "TK.C39_orthonormal_increases"], "false of the code: the SSE can grow (C39_orthonormal_increases)"),
 "C40": (P, ["TK.C40_update_nonneg", "TK.C40_updates", "TK.C40_nonneg_after_fit", "TK.C40_both_update", "TK.C40_both_iteration"], ""),
 "C41": (P, ["TK.C41_loop", "TK.C41_run", "TK.C41_run_any", "TK.C41_continue", "TK.C41_fit", "TK.C41_sequence"], "for every decomposer (record Method); the loop is shared by CP_ALS, Parafac2_ALS and CMTF_ALS"),
 "C42": (Q, ["TK.C42_raises", "TK.C42_noop_partial", "TK.C42_store_again"], "false of CP_ALS and CMTF_ALS (UnboundLocalError); holds for the other loop form without checkpointing"),
 "C43": (Q, ["TK.C43_schedule", "TK.C43_final_partial", "TK.C43_early_stop_lost", "TK.C43_current_iteration_lost", "TK.C43_current_iteration_partial"], "the regular schedule is proved; false of the code for the last iteration (C43_early_stop_lost, C43_current_iteration_lost)"),
 "C44": (Q, ["TK.C44_nothing_stored", "TK.C44_default", "TK.C44_zero_raises"], "false of the code: nothing is ever stored (C44_nothing_stored)"),
 "C46": (Q, ["TK.C46_fails", "TK.C46_converged_fails", "TK.C46_partial"], "false of the code when the frequency divides N+1, or when the fit had converged"),
 "C48": (P, ["TK.C48_load", "TK.C48_load_default", "TK.C48_no_checkpoints", "TK.C48_missing", "TK.C48_no_file", "TK.C48_not_valid"], ""),
 "C49": (Q, ["TK.C49_order_partial", "TK.C49_order_fails"], "false of the code from iteration 100000 on"),
 "C47": (Q, ["TK.C47_partial", "TK.C47_extra_iteration", "TK.C47_same_file_fails", "TK.C47_fails"], "false of the code: a resumed run performs one more iteration (C47_fails has a concrete run), and cannot store into the same file; resuming from the final checkpoint of a run whose length the frequency does not divide is proved correct (C47_partial)"),
 "C68": (P, ["TK.C68_kruskal_random_init", "TK.C68_kruskal_bad_method", "TK.C68_parafac2_random_init", "TK.C68_parafac2_random_init_small", "TK.C68_cp_start"], ""),
 "C73": (P, ["TK.C73_svd_start", "TK.C73_svd_rank"], "assumes the contract of the full np.linalg.svd (FullSVDOk, satisfiable by exists_fullSVD)"),
 "C50": (P, ["TK.C50_history", "TK.C50_no_write", "TK.C50_run", "TK.C50_checkpoint", "TK.C50_entries"], "loggers of different classes; for two loggers of one class see C75"),
 "C51": (Q, ["TK.C51_history", "TK.C51_continue", "TK.C51_stored", "TK.C51_log", "TK.C51_crash", "TK.C51_crash_fails", "TK.C51_zero_frequency", "TK.C51_no_targets"], "proved between calls; false of the code for a crash inside save_logs (C51_crash gives the exact contents, C51_crash_fails a witness)"),
 "C75": (Q, ["TK.C75_partial", "TK.C75_same_class_mixed", "TK.C75_fails"], "false of the code for two loggers of the same class"),
 "C26": (P, ["TK.C26_factor_match_score", "TK.C26_bad_reduction"], "the score is nan (and the assignment never chosen) only if two zero components are compared with the weight penalty"),
 "C27": (P, ["TK.C27_permutation", "TK.C27_signs"], ""),
 "C28": (P, ["TK.C28_symmetric"], ""),
 "C29": (P, ["TK.C29_self", "TK.C29_guard", "TK.C29_zero_component"], ""),
 "C30": (P, ["TK.C30_too_few"], ""),
 "C31": (Q, ["TK.C31_separate", "TK.C31_joint_le", "TK.C31_evolving", "TK.C31_kruskal_fails"], "the function is proved; the method of KruskalTensor always raises AttributeError (C31_kruskal_fails)"),
 "C76": (Q, ["TK.C76_unit_weights_partial", "TK.C76_rank_mismatch", "TK.C76_weights_ignored", "TK.C76_fails"], "false of the code: the weights are ignored (C76_fails)"),
 "C63": (P, ["TK.C63_value", "TK.C63_exact", "TK.C63_guard"], "assumes QROk"),
 "C64": (P, ["TK.C64_leverage", "TK.C64_dependent"], ""),
 "C65": (P, ["TK.C65_kruskal", "TK.C65_evolving", "TK.C65_zero_column"], ""),
 "C66": (P, ["TK.C66_percent_explained", "TK.C66_zero_tensor", "TK.C66_explained_variance", "TK.C66_completion_mask", "TK.C66_completion_value"], ""),
 "C71": (Q, ["TK.C71_two_modes_partial", "TK.C71_evolving_ignored", "TK.C71_fails", "TK.C71_default_raises", "TK.C71_truth_ignored", "TK.C71_score_is_length"], "false of the code: mode B is ignored, the detailed variant compares the estimate with itself"),
 "C77": (Q, ["TK.C77_value", "TK.C77_unit_weights_partial", "TK.C77_order", "TK.C77_fails"], "false of the code: the weights are ignored (C77_fails)"),
 "C32": (P, ["TK.C32_flip", "TK.C32_sign_free", "TK.C32_idempotent", "TK.C32_prepare"], "flip_factors and prepare_for_comparison; the flipped matrix does not depend on the signs of the columns"),
 "C33": (Q, ["TK.C33_signs_partial", "TK.C33_tensor_partial", "TK.C33_zero_score", "TK.C33_fails"], "holds when no score is zero; a zero score gives sign 0 and the signs multiply to 0, also for an exactly represented tensor"),
 "C70": (Q, ["TK.C70_fails", "TK.C70_normal_fails", "TK.C70_empty_partial"], "refuted: get_signs is called with arguments it does not have, so fixing signs raises TypeError unless there are no slices"),
 "C78": (P, ["TK.C78_equivariant", "TK.C78_fixed", "TK.C78_no_data", "TK.C78_sizes"], "for every routine that returns least-squares solutions"),
 "C79": (P, ["TK.C79_permute"], ""),
 "C69": (Q, ["TK.C69_factors_partial", "TK.C69_fails"], "refuted: create_data and create_non_negative_data look up base.ktensor, which does not exist; the random factors are as documented"),
 "C52": (Q, ["TK.C52_projection_update_partial", "TK.C52_full_rank_partial", "TK.C52_dropped_le", "TK.C52_not_orthonormal", "TK.C52_sse_increases"], "The literal claim is false: a slice whose cross product has singular values at most J_k * sigma_1 * 1e-16 (for instance a zero row of C) gets a projection matrix that is not orthonormal, and the SSE can increase. Proved: the update is optimal among all orthonormal families up to twice the dropped singular values, orthonormality holds exactly if none is dropped."),
 "C53": (Q, ['TK.C53_iteration_partial', 'TK.C53_full_rank_partial', 'TK.C53_trajectory_partial', 'TK.C53_sse_increases'], "Monotone error holds when every projection update keeps all directions (full rank cross products) and the inner modes are unconstrained; refuted in general: the truncated projection update can increase the SSE in a state reachable from the code's own preparation."),
 "C55": (Q, ["TK.C55_shared_partial", "TK.C55_orthonormal_fails"], "Outer and inner factor matrices stay the same arrays through every iteration when no orthonormality constraint is set; with a constraint the inner decomposer works on a fresh array and the PARAFAC2 factor is never updated."),
 "C54": (Q, ["TK.C54_distinct_partial", "TK.C54_random_partial", "TK.C54_loaded_partial", "TK.C54_cp_last", "TK.C54_cp_fails"], "holds for the random start and for decompositions loaded or supplied with different arrays; false of the code for init=cp, where all slices share one array and every slice ends up with the projection matrix of the last one"),
 "C61": (Q, ["TK.C61_case_insensitive", "TK.C61_precomputed", "TK.C61_precomputed_missing", "TK.C61_warning", "TK.C61_unknown", "TK.C61_path", "TK.C61_parafac2_case_insensitive", "TK.C61_parafac2_precomputed", "TK.C61_parafac2_unknown", "TK.C61_parafac2_no_warning", "TK.C61_no_checkpoint_file", "TK.C61_parafac2_no_checkpoint_file"], "all of it for CP_ALS; for Parafac2_ALS the Warning is missing (false of the code)"),
 "C62": (Q, ["TK.C62_check_partial", "TK.C62_fewer_accepted", "TK.C62_more_index_error", "TK.C62_parafac2_check_partial", "TK.C62_parafac2_fewer_accepted"], "false of the code for a wrong number of factor or projection matrices"),
 "C72": (Q, ["TK.C72_svd_raises", "TK.C72_fit_raises"], "false of the code: init_svd raises TypeError for every input"),
 "C74": (P, ["TK.C74_fit_completes", "TK.C74_fit_improves", "TK.C74_random_fit"], "assumes SVDOk, NNLSOk, QROk; factor matrices that do not share memory"),
 "C80": (P, ["TK.C80_fit_completes", "TK.C80_fit_improves_partial", "TK.C80_random_fit", "TK.p2_startsFrom_random", "TK.p2_startsFrom_precomputed"], "assumes SVDOk, NNLSOk, QROk; the SSE bound of C80_fit_improves_partial has the terms dropped by the projection update (see C52, C53); C144 bounds them by the data"),
 "C81": (P, ["TK.P2State.C81_loss"], ""),
 "C57": (Q, ["TK.C57_partial", "TK.C57_first_matrices", "TK.C57_shared_mode_fails", "TK.C57_negative_mode_fails"], "assumes SVDOk, NNLSOk; false of the code for several matrices on one mode and for negative modes, both with witnesses"),
 "C60": (P, ["TK.C60_normalisation"], ""),
 "C83": (P, ["TK.C83_fit_completes"], "assumes SVDOk, NNLSOk, QROk; no non-negativity flags (see C59)"),
 "C56": (Q, ["TK.C56_cp_fit_transform", "TK.C56_cmtf_fit_transform", "TK.C56_parafac2_fit_transform_partial", "TK.C56_parafac2_ignored", "TK.C56_parafac2_precomputed_raises", "TK.C56_parafac2_fails"], "proved for CP_ALS and CMTF_ALS; false of the code for Parafac2_ALS, whose fit_transform drops max_its and initial_decomposition"),
 "C58": (Q, ["TK.C58_partial", "TK.C58_fit_partial", "TK.C58_fails", "TK.C58_data_ignored"], "only the first matrix coupled to a mode is fitted; the others keep their initial draw, and their data has no influence on the updates"),
 "C59": (Q, ["TK.C59_partial", "TK.C59_fails", "TK.C59_fit_raises"], "false of the code: the non-negative branch calls a method that does not exist; C59_partial covers flags that are all false"),
 "C82": (Q, ["TK.C82_partial", "TK.C82_fit_gets_worse"], "assumes SVDOk, NNLSOk, QROk; false of the code: the start is normalised into weights that the updates ignore; C82_partial: the objective of the updates does not increase, and the SSE does not when the start has unit norm products"),
 "C84": (P, ["TK.C84_projected", "TK.C84_value", "TK.C84_exact", "TK.C63_guard", "TK.C84_missing_matrices"], "any slice sizes; C84_missing_matrices shows that with fewer projection matrices than rows of C the result is that of uninitialised memory (outside the statement)"),
 "C85": (Q, ["TK.C85_value_partial", "TK.C85_representation", "TK.C85_rank_raises", "TK.C85_evolving", "TK.C85_irregular_raises", "TK.C85_irregular_other_raises", "TK.C85_fails"], "holds for slices of one size; slices of different sizes raise ValueError, although the overridden method of EvolvingTensor handles them (C85_evolving)"),
 "C86": (Q, ["TK.C86_run_partial", "TK.C86_continue", "TK.C86_open", "TK.C86_metadata", "TK.C86_init_never_stored", "TK.C86_rerun_mixes", "TK.C86_continue_interrupted", "TK.C86_metadata_once", "TK.C86_example"], "first runs and continued runs are recorded; a parameter called init never is; a second run raises after the parameters were replaced, so the file mixes two runs; metadata names can be used once per file only"),
 "C45": (Q, ["TK.C45_bookkeeping_partial", "TK.C45_collision_corrupts", "TK.C45_no_list", "TK.C45_cmtf_no_list"], "holds for different iteration numbers; a failing call corrupts checkpoint_its, and CMTF_ALS does not write it"),
 "C87": (Q, ["TK.C87_kruskal_index", "TK.C87_kruskal_unpack", "TK.C87_kruskal_rebuild", "TK.C87_evolving_unpack", "TK.C87_parafac2_unpack", "TK.C87_evolving_rebuild_partial", "TK.C87_negative_fails", "TK.C87_parafac2_rebuild_fails"], "all of it for Kruskal tensors; unpacking for all classes; evolving tensors refuse negative numbers, from_factor_matrices forgets the flag warning, and both class methods of Parafac2Tensor that take factor matrices raise TypeError"),
 "C88": (Q, ["TK.C88_shape", "TK.C88_kruskal_shape", "TK.C88_parafac2", "TK.C88_slice_shapes", "TK.C88_num_elements_partial", "TK.C88_num_elements_wrong", "TK.C88_D_value", "TK.C88_D_partial", "TK.C88_D_fails"], "shape, slice_shapes and all_same_size are right; num_elements counts columns instead of entries; D has one matrix per component, made of the columns of C"),
 "C67": (Q, ["TK.C67_cp_partial", "TK.C67_cp_rmse", "TK.C67_parafac2_partial", "TK.C67_parafac2_wrong", "TK.C67_parafac2_fails", "TK.C67_cmtf_partial", "TK.C67_cmtf_wrong", "TK.C67_cmtf_fails"], "holds for CP_ALS, also RMSE; false of the code for Parafac2_ALS (divides by the number of columns only) and for CMTF_ALS (adds the sizes of the factor matrices, not of the data)"),
 "C89": (Q, ["TK.C89_partial", "TK.C90_fit_partial", "TK.C89_overwritten", "TK.C89_fails"], "true for every initialisation scheme except precomputed, and for all decompositions that share no array with the initial one; the initial decomposition itself is overwritten (C89_overwritten), a second fit from it gives another result (C89_fails)"),
 "C90": (Q, ["TK.C90_fit_partial", "TK.C90_normalize_partial", "TK.C90_normalize_fails", "TK.C90_fit_fails"], "true of decompositions that use every array once; with a shared array normalize_components changes the tensor and a fit of CP_ALS ends with a wrong (negative) SSE"),
 "C92": (Q, ["TK.C92_partial", "TK.C92_fails"], "the code divides by the previous error: the ratio with the documented denominator is below tol/(1-tol); diag(2,1) with tol=0.5 stops although the documented change is 0.875"),
 "C93": (Q, ["TK.C93_sse_partial", "TK.C93_reported_partial", "TK.C93_fails"], "False of the code: the inner product with the data is taken from the cache of the last update, i.e. with the old factor matrices in the other modes (C93_reported_partial gives the exact value); a fit of diag(4,1) reports -5 for a loaded decomposition with error 13. Holds if nothing was updated before or the other modes agree."),
 "C94": (Q, ["TK.C94_continue_partial", "TK.C94_fails"], "False of the code: in the run of C93_fails continue_fit stops at once because the reported SSE is negative. Holds if the tolerances are not positive, the reported SSE is not negative and no mode is orthonormal."),
 "C95": (Q, ["TK.C95_scale_partial", "TK.C95_same_start_partial", "TK.C95_fails"], "Proved if the start is scaled as well. With the same start for both tensors it holds for tolerances that are not positive, and fails otherwise: the relative change of the first iteration depends on the unit."),
 "C96": (P, ["TK.C96_components"], "Without constraints and penalties; any order of the tensor."),
 "C97": (P, ["TK.C97_rows"], "Without constraints and penalties; any order of the tensor."),
 "C98": (P, ["TK.C98_library"], "Without constraints and penalties."),
 "C99": (Q, ["TK.C99_first_mode_partial", "TK.C99_fails"], "False of the code for positive tolerances: the matrix enters the initial SSE and the relative change of the first iteration. Proved for tolerances that are not positive."),
 "C100": (Q, ["TK.C100_fit_partial", "TK.C100_range_partial", "TK.C100_fails", "TK.C100_parafac2_partial", "TK.C100_parafac2_random", "TK.C100_one_partial", "TK.C100_parafac2_one_partial", "TK.C100_ridge_partial", "TK.C100_parafac2_ridge_partial", "TK.C100_parafac2_ridge_random"], "False of the code with a constraint on the last mode: explained variance -1/19 for a 2 x 3 matrix with a non-negativity constraint. Proved for CP_ALS and Parafac2_ALS if the last mode has no constraint and there are no penalties (in Parafac2_ALS also no orthogonality constraints): the residual is orthogonal to the model. With one component it also holds with non-negativity constraints on any modes (C100_one_partial, C100_parafac2_one_partial). With ridge penalties and no constraint on the last mode (one component: it may be non-negative) the explained variance is also between 0 and 1 (C100_ridge_partial, C100_parafac2_ridge_partial)."),
 "C101": (Q, ["TK.C101_recovers_partial", "TK.C101_exact_start_partial", "TK.C101_fails"], "Proved for fits with at least one iteration, and for any fit if the weights of the start are 1. False of the code otherwise: _init_fit resets the weights, and if the changed model is within the tolerance of the relative loss the fit returns it."),
 "C102": (P, ["TK.C102_movement"], "Each update leaves a residual orthogonal to the change it makes, so the squared distance of the models is the decrease of the error."),
 "C103": (P, ["TK.C103_limit", "TK.C103_accumulation", "TK.C103_steps"], "Stationarity is stated with a derivative of the squared error along all joint directions. Convergence of the factor matrices itself is not claimed (it is not true in general)."),
 "C105": (P, ["TK.C105_components", "TK.C105_tensors", "TK.C105_kruskal", "TK.C105_directions", "TK.C105_sign_needed"], "The sign cannot be dropped from the statement (C105_sign_needed): the score takes the absolute value mode by mode."),
 "C106": (Q, ["TK.C106_run_partial", "TK.C106_fit_partial", "TK.C106_noPath_fails", "TK.C106_cp_fails"], "Proved for all runs that return. False of the code: with checkpoint_path=None and a positive checkpoint_frequency, TypeError is raised as soon as a checkpoint is due."),
 "C107": (Q, ["TK.C107_run_partial", "TK.C107_fit_partial", "TK.C107_checkpoints_partial", "TK.C107_run_sim", "TK.C107_cp_partial", "TK.C107_parafac2_partial", "TK.C107_parafac2_random", "TK.C107_parafac2_orthonormal_fails", "TK.C107_cmtf_fails"], "Proved for CP_ALS and every decomposer whose _fit does nothing around its loop, including the exceptions raised; for Parafac2_ALS without orthonormality constraints. False of Parafac2_ALS with an orthonormality constraint (_fit starts by orthonormalising the stored factor again, while the loop works on the factor rescaled by the weights) and of CMTF_ALS (_fit ends by moving the column norms into weights that the updates ignore)."),
 "C108": (Q, ["TK.C108_fit_partial", "TK.C108_one_slice_partial", "TK.C108_sizes_raise", "TK.C108_always_cp", "TK.C108_last_zero", "TK.C108_gets_worse"], "The start is the CP model and the fit completes; slices of different sizes raise ValueError. False of the code: all slices share one projection array, so the result is always a CP model (C108_always_cp), the projection depends on the last slice only (C108_last_zero), and the fit can end worse than its start (C108_gets_worse)."),
 "C109": (P, ["TK.C109_rightsolve", "TK.C109_orthogonalSolve", "TK.C109_orthogonalRightsolve", "TK.C109_cp", "TK.C109_cmtf", "TK.C109_parafac2", "TK.C109_memory"], "Equality of the whole fit functions (exceptions and resulting states included) for two libraries that differ in the singular value decompositions only. Generalises C98. The svd initialisation takes its singular vectors as an input of the model, the same for both."),
 "C110": (P, ["TK.C110_parafac2", "TK.C110_precomputed"], "For all constraints and penalties; the arrays of the start are distinct objects (a start with shared arrays is C108)."),
 "C111": (Q, ["TK.C111_load_partial", "TK.C111_cp_partial", "TK.C111_cp_sizes", "TK.C111_parafac2_partial", "TK.C111_cmtf_partial", "TK.C111_cmtf_checkpoint", "TK.C111_cp_fails", "TK.C111_cmtf_fails"], "A rejected fit keeps the decomposition, constraints, max_its, loggers and checkpoint file (CP_ALS, Parafac2_ALS, and CMTF_ALS if the decomposition is rejected). False of the code: the data and current_iteration have been replaced, so the SSE reported afterwards can be negative (C111_cp_fails); CMTF_ALS has also replaced its decomposition if the coupled matrices are not accepted (C111_cmtf_fails)."),
 "C112": (P, ["TK.C112_rows"], "Every solver (unconstrained, non-negative, orthonormal, each with a ridge penalty) commutes with moving the rows of the right hand side. Modes that are orthonormalised at the start keep their order, because a QR decomposition depends on it."),
 "C113": (P, ["TK.C113_parafac2", "TK.C113_precomputed"], "With any constraints and penalties; A and C may only be moved if they have no orthonormality constraint."),
 "C114": (P, ["TK.C114_units", "TK.C114_units_precomputed"], "The threshold of orthogonal_solve on the singular values is relative, so that the projection updates do not depend on the unit."),
 "C115": (P, ["TK.C115_components", "TK.C115_components_precomputed"], "Also shows that the projection matrices do not change at all."),
 "C116": (P, ["TK.C116_same_start", "TK.C116_same_start_precomputed"], "The restriction to tolerances that are not positive is part of the property: the initial projection matrices enter the initial loss and with it the first relative change."),
 "C117": (P, ["TK.C117_cmtf_rows", "TK.cmtf_fit_moved"], "cmtf_fit_moved is the general statement (rows, columns, components, signs and library at once)."),
 "C118": (P, ["TK.C118_cmtf_components", "TK.cmtf_fit_moved"], "The draws of the right factors are part of the start; they have to be moved too."),
 "C119": (P, ["TK.C119_cmtf_library"], "Exact arithmetic; the contract of the singular value decomposition is Ext.SVDOk."),
 "C120": (Q, ["TK.C120_sizes_partial", "TK.C120_kruskal_partial", "TK.C120_extra_modes", "TK.C120_fails"], "proved for different sizes of a common mode; false of the code for different numbers of modes (zip ends with the shorter list)"),
 "C121": (Q, ["TK.C121_vectors_partial", "TK.C121_value_partial", "TK.C121_fails", "TK.C121_estimate_fails"], "holds for _factor_match_score; factor_match_score raises IndexError for vectors"),
 "C122": (P, ["TK.C122_rank_one"], "no constraints and no ridge penalties"),
 "C123": (Q, ["TK.C123_rejected_partial", "TK.C123_first_partial", "TK.C123_fails"], "proved if neither number is 1 (ValueError before the first iteration) and for the first matrix of a mode (no iteration is performed); false of the code for other matrices with one row, which are broadcast"),
 "C124": (Q, ['TK.C124_parafac2', 'TK.C124_cmtf_partial', 'TK.C124_lower_order', 'TK.C124_higher_order', 'TK.C124_fails'], "proved for Parafac2_ALS, and for CMTF_ALS if all tensors have the same number of modes; false of the code otherwise, since None is replaced by a list of the length of the first tensor's number of modes"),
 "C104": (Q, ["TK.C104_run_partial", "TK.C104_fit_partial", "TK.C104_continue_partial", "TK.C104_cp", "TK.C104_cp_quiet", "TK.C104_cp_default", "TK.C104_cmtf", "TK.C104_parafac2_partial", "TK.C104_zero_fails", "TK.C104_default_fails", "TK.C104_cp_line", "TK.C104_parafac2_line", "TK.C104_cmtf_line"], "Proved for CP_ALS and CMTF_ALS for every value, and for Parafac2_ALS for every value except 0. False of the code: Parafac2_ALS computes the remainder before it tests the sign, so 0 raises ZeroDivisionError after the first iteration, and its default is 10 although the documentation says None."),
 "C125": (Q, ["TK.C125_frame_partial", "TK.C125_kept_partial", "TK.C125_earlier_result_partial", "TK.C125_continue", "TK.C125_same_object", "TK.C125_fails"], "proved for every start except a precomputed decomposition; false of the code for that one, whose arrays are overwritten with the fitted model"),
 "C126": (Q, ["TK.C126_alone_partial", "TK.C126_fails"], "proved without constraints and penalties when all columns of a mode of the start have the same length and the product of the lengths is one (such as SVD starts); in general the result is wrong by the factor of the product of the lengths, because _init_fit moves the lengths to weights that the updates ignore"),
 "C127": (Q, ["TK.C127_same_class", "TK.C127_kruskal", "TK.C127_bad_order", "TK.C127_rejected_partial", "TK.C127_array_fails"], "an evolving tensor whose B is an array of shape (K, J, R) is accepted without the flag and gives a tensor with one slice of width K"),
 "C128": (Q, ["TK.C128_order_partial", "TK.C128_order_distinct", "TK.C128_loggers", "TK.C128_fails"], "holds for orders in which the first matrix of every mode is still the first one; false for two matrices on one mode"),
 "C129": (Q, ["TK.C129_components", "TK.C129_first_modes", "TK.C129_last_modes", "TK.C129_scale_partial", "TK.C129_scale_fails"], "exact for orders and signs; for scales the core entries change by factors within eps/delta of one, and the claim is false for columns of length 1e-15"),
 "C130": (Q, ["TK.C130_tensor_partial", "TK.C130_error", "TK.C130_fms", "TK.C130_degeneracy", "TK.C130_update", "TK.C130_sse", "TK.C130_sweep_partial", "TK.C130_fails"], "holds of the model, its scores and every sequence of updates taken for the same modes; false of the fit, which updates mode 0 first"),
 "C131": (Q, ["TK.C131_solver", "TK.C131_update", "TK.C131_iterate", "TK.C131_cp_fit", "TK.C131_equal_samples", "TK.C131_zero_sample", "TK.C131_parafac2_iteration", "TK.C131_parafac2_partial", "TK.C131_parafac2_fails", "TK.C131_cmtf_update", "TK.C131_cmtf_iteration", "TK.C131_cmtf_partial"], "proved for CP_ALS; false for A of PARAFAC2 with an orthonormality constraint, which keeps its start, and for the right factors of further matrices of a mode, which are never updated"),
 "C132": (P, ["TK.C132_solver", "TK.C132_update", "TK.C132_error", "TK.C132_cp_fit", "TK.C132_model", "TK.C132_zero_slices", "TK.C132_parafac2", "TK.C132_parafac2_precomputed", "TK.C132_cmtf_update", "TK.C132_cmtf"], ""),
 "C133": (Q, ["TK.C133_kruskal", "TK.C133_evolving", "TK.C133_parafac2", "TK.C133_kruskal_read", "TK.C133_parafac2_read", "TK.C133_cp_typed_partial", "TK.C133_parafac2_typed_partial", "TK.C133_cmtf_untyped", "TK.C133_cmtf_fails"], "proved for all decompositions and for the checkpoint files of CP_ALS and Parafac2_ALS; those of CMTF_ALS never name the class, and stored evolving tensors cannot be loaded (C21)"),
 "C134": (Q, ["TK.C134_construct", "TK.C134_error_bound", "TK.C134_start_nonneg_partial", "TK.C134_evaluates", "TK.C134_exact", "TK.C134_negative", "TK.C134_explained_above_one", "TK.C134_rmse_nan"], "the bounds are proved for all roundings; that the error is not negative holds before the first update and is false after it (exact rank-one decomposition of ones(3,1,1) in double precision)"),
 "C135": (P, ["TK.C135_parafac2_nonneg", "TK.C135_parafac2_error_bound", "TK.C135_cmtf_nonneg", "TK.C135_cmtf_error_bound", "TK.C135_explained_le_one", "TK.C135_parafac2_evaluates", "TK.C135_cmtf_evaluates", "TK.C135_parafac2_exact", "TK.C135_cmtf_exact"], "in contrast to CP_ALS (C134): both classes add squares of residuals"),
 "C91": (Q, ["TK.C91_bound_partial", "TK.C91_stops_partial", "TK.C91_parafac2_bound_partial", "TK.C91_parafac2_stops_partial", "TK.C91_parafac2_start_partial", "TK.C91_parafac2_pca", "TK.C91_cmtf_bound_partial", "TK.C91_cmtf_stops_partial", "TK.C91_zero_fails", "TK.C91_parafac2_exact", "TK.C91_parafac2_fails"], "true of CP_ALS without constraints and penalties for every tensor that is not zero, with an explicit bound; of CMTF_ALS from starts with norm product one; of Parafac2_ALS as long as no singular value is treated as zero and no model of the rank fits exactly. False for the zero tensor (the ratios are 0/0 and the fit uses its whole budget) and for Parafac2_ALS on slices of zeros. Not covered: constrained problems with more than one component (one component: C159)"),
 "C136": (P, ["TK.C136_score", "TK.C136_exact", "TK.C136_double", "TK.C136_returns", "TK.C136_above_one"], "the score of a decomposition compared with itself can exceed one in double precision (C136_above_one), so the range [0, 1] of C26 holds in exact arithmetic only"),
 "C137": (P, ["TK.C137_movement", "TK.C137_limit", "TK.C137_accumulation", "TK.C137_steps"], "stated for the objective of the updates: the updates ignore the weights and all but the first matrix of a mode (C57, C82)"),
 "C138": (Q, ["TK.C138_rejected_partial", "TK.C138_same_product", "TK.C138_middle", "TK.C138_not_rejected"], "ValueError if the products of the other sizes differ, except for the middle mode of a third-order tensor, where rows of the Khatri-Rao product beyond the last block are ignored; sizes with the same product are accepted everywhere, and the theorems say what is computed then"),
 "C139": (Q, ["TK.C139_limit_partial", "TK.C139_accumulation_partial"], "fits in which the projection update treats no singular value as zero; in the limit theorem the blueprint matrix and stationarity only for cp_updates = 1, in the accumulation theorem for any number, with linearly independent rank-one terms. Missing: runs in which singular values are treated as zero (projection matrices that are not orthonormal, C52/C53)"),
 "C140": (P, ["TK.C140_columns", "TK.C140_weights", "TK.C140_tensor", "TK.C140_returns", "TK.C140_double", "TK.C140_unit_double"], "overflow and underflow are not modelled"),
 "C141": (P, ["TK.C141_components", "TK.C141_score", "TK.C141_fits", "TK.C141_recovery", "TK.C141_two_modes"], "with the weight penalty for decompositions with unit weights, since the score ignores the weights (C76)"),
 "C142": (P, ["TK.C142_nonneg", "TK.C142_orth", "TK.C142_fit", "TK.C142_best_nonneg", "TK.C142_best_orth", "TK.C142_best_one", "TK.C142_large_components", "TK.C142_no_best", "TK.C142_fits_no_best", "TK.C142_best_ridge", "TK.C142_ridge_bound"], "that the fits reach these best models is not claimed (C38, C39: constrained updates can increase the error)"),
 "C143": (P, ["TK.C143_coupled", "TK.C143_dependent"], ""),
 "C144": (P, ["TK.C144_fit", "TK.C144_exact_start"], "assumes SVDOk, NNLSOk, QROk; unconstrained fits without penalties"),
 "C145": (Q, ["TK.C145_cp", "TK.C145_parafac2", "TK.C145_parafac2_sources", "TK.C145_coupled_partial", "TK.C145_coupled_depends"], "true of CP_ALS and Parafac2_ALS; false of CMTF_ALS, which draws the uncoupled factor matrices in every fit (C145_coupled_depends: an exact start is kept or lost, depending on the sign of a drawn number)"),
 "C146": (P, ["TK.C146_equal", "TK.C146_zero", "TK.C146_parafac2_equal", "TK.C146_parafac2_zero", "TK.C146_coupled_zero"], "assumes SVDOk, NNLSOk, QROk"),
 "C147": (P, ["TK.C147_rank_one"], "assumes SVDOk, NNLSOk, QROk"),
 "C148": (P, ["TK.C148_components", "TK.C148_fits", "TK.C148_recovery", "TK.C148_few_slices"], "C148_few_slices: with a single slice the conclusion is false"),
 "C149": (Q, ["TK.C149_score_partial", "TK.C149_fails"], "false: the sign of a slice (of its row of C and its projection matrix) is not determined, and the score compares C and the stacked P_k D without regard to it; holds for positive C"),
 "C150": (Q, ["TK.C150_iterates_partial", "TK.C150_result_partial", "TK.C150_fails"], "false: the weights of the start, which the updates ignore, stay in the decomposition, so the tensor is multiplied by the lengths of the columns of the start; exact for the factor matrices and the coupled matrices that are the first ones of their modes"),
 "C151": (Q, ["TK.C151_limit_partial", "TK.C151_interior_partial", "TK.C151_one_partial", "TK.C151_fails"], "false: the update of a non-negative mode minimises the residual of the normal equations, not the squared error, and fits can be stuck at a point with error 13 next to admissible points with error 12.5; true for one component, for limits with positive entries, and for the modes without the constraint; in general the limit has the smallest sum of squared partial derivatives among the non-negative matrices"),
 "C152": (Q, ["TK.C152_limit_partial", "TK.C152_orthogonal_partial", "TK.C152_fails"], "false: the penalty is added to the residual of the normal equations instead of the squared error; for the 1 x 1 data 5 with penalties 4 and 4 the fit from 2 * 2 never moves, its loss is 33, and the zero model has the loss 25; true where the rank-one terms of the other modes are orthonormal; if they are orthogonal with squared length g (always so for one component) the limit is optimal for the penalty divided by g"),
 "C153": (P, ["TK.C153_rate", "TK.C153_best", "TK.C153_limit", "TK.C153_orthogonal_start"], "C153_orthogonal_start shows that the condition on the start is needed: from e2 all fits of diag(2, 1) with one component have the error 4, the best model has 1"),
 "C154": (P, ["TK.C154_svd_start"], "fits that stop before the first iteration (possible if the start meets the tolerance) are left out"),
 "C155": (P, ["TK.C155_cp", "TK.C155_parafac2", "TK.C155_cmtf", "TK.C155_model", "TK.C155_slices", "TK.C155_coupled", "TK.C155_exist", "TK.rowGram_unfold"], "stated with the eigenvalues of the matrix of the inner products of the rows (the squared singular values of the unfolding; rowGram_unfold relates it to unfold, C155_exist shows that they exist)"),
 "C156": (P, ["TK.C156_scale", "TK.scaled_orbit", "TK.determined_matrix21"], "the condition on the updates is stated with the factor matrices of successive iterations (Determined); determined_matrix21 gives a fit that meets it"),
 "C157": (P, ["TK.C157_continuous", "TK.C157_full", "TK.C157_tolerances", "TK.C157_ties_countable", "TK.C157_underdetermined", "TK.continuous_orbit"], "for fits that perform the same number of iterations (C157_full: tolerances that are not positive). With positive tolerances nearby fits make the same number of iterations unless a stopping test of the limiting fit is an exact tie (C157_tolerances), which happens for countably many tolerances only (C157_ties_countable). The condition on the updates is needed (C157_underdetermined)"),
 "C158": (P, ["TK.C158_cp", "TK.C158_cmtf", "TK.C158_parafac2"], ""),
 "C159": (P, ["TK.C159_bound", "TK.C159_defaults", "TK.C159_cmtf"], ""),
 "C160": (P, ["TK.C160_contains", "TK.C160_more"], ""),
 "C161": (Q, ["TK.C161_value_partial", "TK.C161_lower_partial", "TK.C161_fails"], "At most 1, and 1 exactly for reproduced data: proved. Not negative: false, the error of the coupled matrices is divided by the norm of the tensor alone (C161_fails); the proved lower bound is minus the ratio of the squared norms."),
 "C162": (Q, ["TK.C162_continuous_partial", "TK.C162_fits", "TK.C162_fails"], "proved without the size penalty at all limits, and with it where no two compared components are both zero; there it is false (C162_fails: the score jumps to -1)."),
 "C163": (P, ["TK.C163_cp", "TK.C163_recovered", "TK.C163_parafac2", "TK.C163_coupled"], ""),
 "C164": (P, ["TK.C164_cp", "TK.C164_stuck", "TK.C164_parafac2", "TK.C164_coupled"], ""),
 "C165": (P, ["TK.C165_one_component", "TK.C165_parafac2", "TK.C165_nonneg", "TK.C165_parafac2_nonneg"], "assumes SVDOk, NNLSOk, QROk"),
 "C166": (P, ["TK.C166_shorter", "TK.C166_one_component", "TK.C166_parafac2", "TK.C166_parafac2_random"], "assumes SVDOk, NNLSOk, QROk"),
}
out = {"claims": [{"property": k, "status": s, "theorems": t, "note": n} for k, (s, t, n) in sorted(claims.items())]}
json.dump(out, open(os.path.join(os.path.dirname(__file__), "..", "MANIFEST.json"), "w"), indent=1)
