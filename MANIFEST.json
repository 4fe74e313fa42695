{"claims": [
{"property": "C01", "status": "proved", "theorems": ["LDT.Fq.C01_next_add", "LDT.Fq.C01_next_zero", "LDT.Fq.C01_same_observable"], "note": "all classes; for lists the stored item outside the list is compared up to the place denoted"},
{"property": "C02", "status": "partial", "theorems": ["LDT.Fq.C02_minus_next_partial", "LDT.Fq.C02_minus_next_self_partial", "LDT.Fq.C02_violated_single_day_range", "LDT.Fq.C02_violated_zero_multiple"], "note": "proved for all well-formed non-list classes except daily-in-week ranges consisting of one weekday, where the code is wrong (C02_violated_single_day_range); year multiple 0 is undefined behaviour (C02_violated_zero_multiple)"},
{"property": "C03", "status": "partial", "theorems": ["LDT.Fq.C03_compare_next_partial", "LDT.Fq.C03_compare_antisymm", "LDT.Fq.C03_compare_trans", "LDT.Fq.C03_compare_zero_partial", "LDT.Fq.C03_violated_list"], "note": "false for lists once outside the list (C03_violated_list); proved for all other classes"},
{"property": "C04", "status": "partial", "theorems": ["LDT.Fq.C04_position_in_range", "LDT.Fq.C04_year_any_multiple", "LDT.Fq.C04_violated_parse"], "note": "holds for the constructors; text parsing accepts out-of-range positions (C04_violated_parse)"},
{"property": "C05", "status": "partial", "theorems": ["LDT.Fq.C05_text_round_trip", "LDT.Fq.C05_norm_of_constructor", "LDT.Fq.C05_list_round_trip_partial", "LDT.Fq.C05_date_list_round_trip", "LDT.Fq.C05_violated_list_separator", "LDT.Fq.C05_violated_list_general"], "note": "all non-list classes and date lists; string lists only when items contain no ';' (C05_violated_list_separator) and through the typed parser (C05_violated_list_general)"},
{"property": "C06", "status": "partial", "theorems": ["LDT.Fq.C06_forward", "LDT.Fq.C06_backward", "LDT.Fq.C06_minus_partial"], "note": "forward/backward proved for every range; the difference needs ranges of more than one day (see C02)"},
{"property": "C07", "status": "partial", "theorems": ["LDT.Fq.C07_isInRange", "LDT.Fq.C07_isOutsideRange", "LDT.Fq.C07_length_partial", "LDT.Fq.C07_violated_length", "LDT.Fq.C07_distance_forward", "LDT.Fq.C07_distance_backward_partial", "LDT.Fq.C07_violated_distance_backward"], "note": "length and backward distance are wrong for some ranges; proved elsewhere"},
{"property": "C08", "status": "partial", "theorems": ["LDT.Fq.C08_list_next_inside", "LDT.Fq.C08_list_return", "LDT.Fq.C08_list_compare_partial"], "note": "inside the list everything holds; comparison ignores the out-of-list index"},
{"property": "C09", "status": "partial", "theorems": ["LDT.Arr.C09_range_tight", "LDT.Arr.C09_invalid_iff_partial", "LDT.Arr.C09_missing_flag", "LDT.Arr.C09_violated_empty"], "note": "the empty array is reported as a valid range"},
{"property": "C10", "status": "proved", "theorems": ["LDT.Var.C10_trim", "LDT.Var.C10_all_missing", "LDT.Var.C10_empty_undefined"], "note": ""},
{"property": "C11", "status": "proved", "theorems": ["LDT.Arr.C11_interpolate"], "note": ""},
{"property": "C12", "status": "partial", "theorems": ["LDT.Arr.C12_forward", "LDT.Arr.C12_fromEnd_partial", "LDT.Arr.C12_fromEnd_indivisible_partial", "LDT.Arr.C12_violated_fromEnd", "LDT.Arr.C12_size_zero"], "note": "fromEnd with an exact multiple yields an empty first part (C12_violated_fromEnd)"},
{"property": "C13", "status": "partial", "theorems": ["LDT.Var.C13_table_partial", "LDT.Var.C13_empty", "LDT.Var.C13_mixed_class", "LDT.Var.C13_violated_off_grid", "LDT.Var.C13_violated_list"], "note": "proved for variables on one grid of a class with working order and difference; false for lists and for variables of one class off the grid (witnesses)"},
{"property": "C14", "status": "partial", "theorems": ["LDT.Var.C14_multi_daily_partial", "LDT.Var.C14_weekly", "LDT.Var.C14_year_parts_partial", "LDT.Var.C14_daily_in_week_partial", "LDT.Var.C14_date_list_partial", "LDT.Var.C14_violated_from_end", "LDT.Var.C14_violated_yearly", "LDT.Var.C14_violated_many_parts", "LDT.Var.C14_violated_monthly", "LDT.Var.C14_violated_mid_week", "LDT.Var.C14_violated_single_day", "LDT.Var.C14_violated_list_start"], "note": "multi-daily from the start, weekly, 2..365 parts a year, daily-in-week from the first weekday, date list from its first item; the other cases are false of the code (seven witnesses)"},
{"property": "C15", "status": "partial", "theorems": ["LDT.Arr.C15_running_sums", "LDT.Arr.C15_mean_variance", "LDT.Arr.C15_noskip_poison", "LDT.Arr.C15_violated_zero_weight_first", "LDT.Arr.C15_skewness_kurtosis"], "note": "a first observation of weight zero poisons the sums (C15_violated_zero_weight_first)"},
{"property": "C16", "status": "partial", "theorems": ["LDT.Arr.C16_merge", "LDT.Arr.C16_order", "LDT.Arr.C16_any_division", "LDT.Arr.C16_empty_neutral", "LDT.Arr.C16_merge_statistics_partial", "LDT.Arr.C16_violated_constant_sample"], "note": "merging statistics fails on constant samples (0/0) (C16_violated_constant_sample)"},
{"property": "C17", "status": "proved", "theorems": ["LDT.Srch.C17_enumerates", "LDT.Srch.C17_enumerates_targets"], "note": ""},
{"property": "C18", "status": "partial", "theorems": ["LDT.Srch.C18_announced_partial", "LDT.Srch.C18_effective_partial", "LDT.Srch.C18_announced_sim_partial", "LDT.Srch.C18_announced_targets_partial", "LDT.Srch.C18_violated_empty_partition"], "note": "all partition structures without empty partitions; an empty partition is announced as 0 models but counted as 1 failed model (C18_violated_empty_partition); fixed items (never set by the R interface) not covered"},
{"property": "C19", "status": "proved", "theorems": ["LDT.Srch.C19_enumerates_fixed"], "note": ""},
{"property": "C20", "status": "proved", "theorems": ["LDT.Srch.C20_top_k", "LDT.Srch.C20_order_independent", "LDT.Srch.C20_ties_keep_first", "LDT.Srch.C20_zero", "LDT.Srch.C20_all_models"], "note": ""},
{"property": "C21", "status": "partial", "theorems": ["LDT.Score.C21_combine_gof", "LDT.Score.C21_combine_sco", "LDT.Srch.C21_combine_partial", "LDT.Srch.C21_distribution_independent_partial", "LDT.Srch.C21_violated_weight"], "note": "proved with the code's own weight functions in exact real arithmetic (C21_combine_gof, C21_combine_sco); the code compares weights and not metrics, so where floating-point weights collapse (exp underflow) the claim fails (C21_violated_weight)"},
{"property": "C22", "status": "partial", "theorems": ["LDT.Srch.C22_bounds_partial", "LDT.Srch.C22_violated_negative", "LDT.Srch.C22_combined_partial"], "note": "the upper bound starts at the smallest positive double, so it is wrong when all upper ends are negative (C22_violated_negative); proved otherwise"},
{"property": "C23", "status": "proved", "theorems": ["LDT.Srch.C23_failures_accounted", "LDT.Srch.C23_reports_are_answers", "LDT.Srch.C23_combined"], "note": ""},
{"property": "C24", "status": "proved", "theorems": ["LDT.Srch.C24_cancel"], "note": ""},
{"property": "C25", "status": "proved", "theorems": ["LDT.Score.C25_gof_monotone", "LDT.Score.C25_sco_monotone", "LDT.Score.C25_gof_roundtrip", "LDT.Score.C25_sco_roundtrip", "LDT.Score.C25_gof_orientation", "LDT.Score.C25_sco_orientation", "LDT.Score.C25_gof_weight_roundtrip", "LDT.Score.C25_sco_weight_roundtrip"], "note": ""},
{"property": "C26", "status": "partial", "theorems": ["LDT.Score.C26_gof_names", "LDT.Score.C26_sco_names_partial", "LDT.Score.C26_violated_rmspe", "LDT.Score.C26_violated_rmspe_unreachable", "LDT.Score.C26_names_rejected", "LDT.Score.C26_names_injective"], "note": "'rmspe' parses as rmse, so that measure cannot be requested by name (C26_violated_rmspe); every other name round trips"},
{"property": "C27", "status": "proved", "theorems": ["LDT.Roc.C27_auc_is_rank_probability", "LDT.Roc.C27_one_class", "LDT.Roc.C27_auc_with_costs"], "note": ""},
{"property": "C28", "status": "proved", "theorems": ["LDT.Roc.C28_order_independent", "LDT.Roc.C28_monotone_rescaling", "LDT.Roc.C28_reversed", "LDT.Roc.C28_range"], "note": ""},
{"property": "C29", "status": "partial", "theorems": ["LDT.FCost.C29_charges_partial", "LDT.FCost.C29_average_range_partial", "LDT.FCost.C29_check", "LDT.FCost.C29_violated_outside", "LDT.FCost.C29_violated_other_class"], "note": "proved when the last threshold of every cost table covers the probabilities; Check does not require that: the code then reads outside the table or another class's cost (two witnesses)"},
{"property": "C30", "status": "proved", "theorems": ["LDT.Split.C30_split_is_partition", "LDT.Split.C30_train_size"], "note": ""},
{"property": "C31", "status": "partial", "theorems": ["LDT.Split.C31_stratified_split_partial", "LDT.Split.C31_class_sizes", "LDT.Split.C31_stratum_size", "LDT.Split.C31_prepared_iff", "LDT.Split.C31_violated_overflow", "LDT.Split.C31_violated_fixed_size"], "note": "whenever it succeeds it is a partition with every class; it succeeds exactly when the planned sizes fit (C31_class_sizes), but when they do not fit the code may write behind the storage before it throws (two witnesses)"},
{"property": "C32", "status": "partial", "theorems": ["LDT.Arr.C32_sort_partial", "LDT.Arr.C32_violated_nan"], "note": "vectors without missing values; with a NaN among different numbers the comparator is not a strict weak order"},
{"property": "C33", "status": "partial", "theorems": ["LDT.Mx.C33_rejects", "LDT.Mx.C33_null", "LDT.Mx.C33_set_get", "LDT.Mx.C33_safe", "LDT.Mx.C33_linear", "LDT.Mx.C33_violated_last", "LDT.Mx.C33_set_linear", "LDT.Mx.C33_restructure"], "note": "all accessors safe; Last() reads one cell behind the matrix (C33_violated_last)"},
{"property": "C34", "status": "proved", "theorems": ["LDT.Mx.C34_in_range", "LDT.Mx.C34_injective", "LDT.Mx.C34_surjective", "LDT.Mx.C34_set_get"], "note": ""},
{"property": "C35", "status": "partial", "theorems": ["LDT.Mx.C35_set_sub", "LDT.Mx.C35_set_sub_rejects", "LDT.Mx.C35_set_sub_t", "LDT.Mx.C35_get_sub_partial", "LDT.Mx.C35_violated_get_sub", "LDT.Mx.C35_violated_get_sub_overlap", "LDT.Mx.C35_violated_negative_start", "LDT.Mx.C35_get_sub_indexes", "LDT.Mx.C35_get_sub_range"], "note": "SetSub, SetSub_t and the index-list variants proved for all non-negative arguments; GetSub(block) only for a storage of exactly the needed size because its size check is reversed (two witnesses); negative starts are not rejected (witness)"},
{"property": "C36", "status": "proved", "theorems": ["LDT.Mx.C36_rows", "LDT.Mx.C36_dataset_missing", "LDT.Mx.C36_dataset_all", "LDT.Mx.C36_selection_required"], "note": ""},
{"property": "C37", "status": "proved", "theorems": ["LDT.Arr.C37_formula", "LDT.Arr.C37_inverse_after", "LDT.Arr.C37_after_inverse", "LDT.Arr.C37_array_round_trip", "LDT.Arr.C37_strict_mono", "LDT.Arr.C37_needs_positive"], "note": ""},
{"property": "C38", "status": "proved", "theorems": ["LDT.Text.C38_split_join", "LDT.Text.C38_join_split", "LDT.Text.C38_split_many"], "note": ""},
{"property": "C39", "status": "proved", "theorems": ["LDT.Cal.C39_dayNumber_injective", "LDT.Cal.C39_date_of_dayNumber", "LDT.Cal.C39_parse_print", "LDT.Cal.C39_parse_accepts", "LDT.Cal.C39_iso_round_trip", "LDT.Cal.C39_iso_valid", "LDT.Cal.C39_iso_injective", "LDT.Cal.C39_weekday_step", "LDT.Cal.C39_weekday_ymd"], "note": ""},
{"property": "C40", "status": "partial", "theorems": ["LDT.Arr.C40_min", "LDT.Arr.C40_max", "LDT.Arr.C40_no_observation", "LDT.Arr.C40_first_last", "LDT.Arr.C40_mean_variance_partial", "LDT.Arr.C40_violated_mean_empty"], "note": "mean of an empty array is 0/0 style: see C40_violated_mean_empty"},
{"property": "C41", "status": "partial", "theorems": ["LDT.Roc.C41_below_ordinary_partial", "LDT.Roc.C41_violated_perfect", "LDT.Roc.C41_violated_last_group"], "note": "never above the ordinary area; but the code pushes (sumFP,0) for the tied groups and ignores the last one, so it is not the ties-as-losses area (two witnesses)"},
{"property": "C42", "status": "proved", "theorems": ["LDT.Roc.C42_area_between", "LDT.Roc.C42_additive", "LDT.Roc.C42_full_range", "LDT.Roc.C42_range", "LDT.Roc.C42_rejects"], "note": ""},
{"property": "C43", "status": "proved", "theorems": ["LDT.Mx.C43_remove_nan_vector", "LDT.Mx.C43_remove_columns", "LDT.Mx.C43_remove_columns_nan"], "note": ""},
{"property": "C44", "status": "partial", "theorems": ["LDT.Mx.C44_get_row", "LDT.Mx.C44_get_column", "LDT.Mx.C44_sort_columns_partial", "LDT.Mx.C44_set_row_from_row", "LDT.Mx.C44_set_column_from_column_partial", "LDT.Mx.C44_violated_set_column_taller", "LDT.Mx.C44_violated_set_column_from_row", "LDT.Mx.C44_sort_rows_partial", "LDT.Mx.C44_violated_sort_empty"], "note": "SetColumnFromColumn needs equal row counts, SetColumnFromRow loops over the wrong count, sorting an empty matrix is undefined (three witnesses)"},
{"property": "C45", "status": "partial", "theorems": ["LDT.Mx.C45_ranges", "LDT.Mx.C45_window_partial", "LDT.Mx.C45_violated_disjoint", "LDT.Mx.C45_violated_gap"], "note": "proved when the common window is not empty; series without a common period are accepted and give a negative number of rows; gaps inside the window stay missing (witnesses)"},
{"property": "C46", "status": "proved", "theorems": ["LDT.Poly.C46_multiply", "LDT.Poly.C46_multiply_exact", "LDT.Poly.C46_multiply_throws", "LDT.Poly.C46_trim"], "note": ""},
{"property": "C47", "status": "partial", "theorems": ["LDT.Poly.C47_power", "LDT.Poly.C47_power_exact", "LDT.Poly.C47_power_throws", "LDT.Poly.C47_power_violated_overflow"], "note": "proved for maximum length 0 (none) or at least the length of the base; a shorter maximum makes the routine copy the base behind its storage (C47_power_violated_overflow)"},
{"property": "C48", "status": "proved", "theorems": ["LDT.Poly.C48_diffPoly", "LDT.Poly.C48_diffPoly_annihilates"], "note": ""},
{"property": "C49", "status": "proved", "theorems": ["LDT.Poly.C49_invert", "LDT.Poly.C49_invert_unique", "LDT.Poly.C49_invert_throws"], "note": ""},
{"property": "C50", "status": "partial", "theorems": ["LDT.Varma.C50_ar", "LDT.Varma.C50_ma", "LDT.Varma.C50_maInf", "LDT.Varma.C50_maInf_violated_overflow"], "note": "AR/MA blocks proved; MA-infinity equation proved for every case in which the recursion runs; with neither AR nor differencing the copy writes one matrix more than the storage it asks for (C50_maInf_violated_overflow)"},
{"property": "C51", "status": "partial", "theorems": ["LDT.Varma.C51_lags_mem", "LDT.Varma.C51_lags_sorted", "LDT.Varma.C51_lags_violated_duplicate", "LDT.Varma.C51_max_violated", "LDT.Varma.C51_sizes"], "note": "membership for all orders; order and maximum for p < s; otherwise lags are duplicated (C51_lags_violated_duplicate) and the stored maximum is not the maximum (C51_max_violated)"},
{"property": "C52", "status": "proved", "theorems": ["LDT.Varma.C52_difference", "LDT.Varma.C52_undifference", "LDT.Varma.C52_roundtrip"], "note": ""},
{"property": "C53", "status": "proved", "theorems": ["LDT.Varma.C53_variance", "LDT.Varma.C53_variance_monotone"], "note": ""},
{"property": "C54", "status": "partial", "theorems": ["LDT.Varma.C54_general", "LDT.Varma.C54_general_violated_overrun", "LDT.Varma.C54_general_count", "LDT.Varma.C54_general_violated_duplicates", "LDT.Varma.C54_final"], "note": "general restrictions proved for distinct indexes whose number is the announced one; a smaller number or duplicates write behind the storage before the exception (two witnesses); final form proved"},
{"property": "C55", "status": "partial", "theorems": ["LDT.Varma.C55_sample", "LDT.Varma.C55_sample_violated_lag"], "note": "proved for lag lists without a lag above the stored maximum (orders below the season, proper_of_makeSizes); otherwise the code reads before the data (C55_sample_violated_lag)"},
{"property": "C56", "status": "partial", "theorems": ["LDT.Varma.C56_residuals", "LDT.Varma.C56_residuals_violated_order"], "note": "proved for sorted lag lists (orders below the season); otherwise the update stops early (C56_residuals_violated_order)"},
{"property": "C57", "status": "partial", "theorems": ["LDT.Varma.C57_forecast", "LDT.Varma.C57_forecast_violated_short"], "note": "proved for samples not shorter than the largest MA lag; otherwise residuals before the first column are read (C57_forecast_violated_short)"},
{"property": "C58", "status": "proved", "theorems": ["LDT.Mx.C58_transpose_to", "LDT.Mx.C58_transpose_in", "LDT.Mx.C58_transpose_twice", "LDT.Mx.C58_transpose_in_empty"], "note": ""},
{"property": "C59", "status": "proved", "theorems": ["LDT.Mx.C59_kron", "LDT.Mx.C59_kron_iden", "LDT.Mx.C59_iden_kron", "LDT.Mx.C59_tr_kron_iden"], "note": ""},
{"property": "C60", "status": "proved", "theorems": ["LDT.Mx.C60_dot", "LDT.Mx.C60_dotTr", "LDT.Mx.C60_trDot", "LDT.Mx.C60_trDotTr"], "note": "relative to the BLAS contract of dgemm (DESIGN.md, trusted base), with its argument checks modelled"},
{"property": "C61", "status": "partial", "theorems": ["LDT.Mx.C61_dotAAt", "LDT.Mx.C61_dotAtA", "LDT.Mx.C61_symDot", "LDT.Mx.C61_dotSym_partial", "LDT.Mx.C61_violated_dotSym_flag", "LDT.Mx.C61_diagDot", "LDT.Mx.C61_dotDiag_partial", "LDT.Mx.C61_violated_dotDiag_wide", "LDT.Mx.C61_violated_dotDiag_tall"], "note": "A A', A' A and SymDot proved; DotSym inverts its triangle flag, so it is right only when both triangles agree (C61_dotSym_partial, C61_violated_dotSym_flag); DotDiag runs over the wrong count, so it is right for square matrices only (two witnesses)"},
{"property": "C62", "status": "proved", "theorems": ["LDT.Mx.C62_number", "LDT.Mx.C62_scale", "LDT.Mx.C62_matrices", "LDT.Mx.C62_hadamard", "LDT.Mx.C62_number_in", "LDT.Mx.C62_matrices_in", "LDT.Mx.C62_add_subtract", "LDT.Mx.C62_apply", "LDT.Mx.C62_apply_pairs", "LDT.Mx.C62_apply_row_column"], "note": ""},
{"property": "C63", "status": "proved", "theorems": ["LDT.Mx.C63_value", "LDT.Mx.C63_sequence", "LDT.Mx.C63_diag", "LDT.Mx.C63_diag_off", "LDT.Mx.C63_off_diag", "LDT.Mx.C63_get_diag", "LDT.Mx.C63_triangular"], "note": ""},
{"property": "C64", "status": "proved", "theorems": ["LDT.Mx.C64_symmetric", "LDT.Mx.C64_diagonal", "LDT.Mx.C64_equals", "LDT.Mx.C64_equals_value", "LDT.Mx.C64_any_all", "LDT.Mx.C64_indices", "LDT.Mx.C64_sort_by_vector"], "note": ""},
{"property": "C65", "status": "partial", "theorems": ["LDT.Mx.C65_covariance_partial", "LDT.Mx.C65_covariance_small", "LDT.Mx.C65_violated_covariance_nothing", "LDT.Mx.C65_covariance_self", "LDT.Mx.C65_correlation_partial", "LDT.Mx.C65_correlation_bounds", "LDT.Mx.C65_correlation_self", "LDT.Mx.C65_violated_correlation_variance", "LDT.Mx.C65_violated_correlation_nothing", "LDT.Mx.C65_correlation_range", "LDT.Mx.C65_mean", "LDT.Mx.C65_mean_checked_partial", "LDT.Mx.C65_violated_mean_position", "LDT.Mx.C65_violated_mean_nothing", "LDT.Mx.C65_variance_partial", "LDT.Mx.C65_violated_variance_nothing", "LDT.Mx.C65_variance_column_partial"], "note": "with NaN checking Mean divides by the position instead of the number of values used (C65_violated_mean_position); data without numbers give 0 instead of NaN; CorrelationColumn divides its variances by all rows although pairs were skipped (C65_violated_correlation_variance) and returns 1 without a common observation; everything else is proved"},
{"property": "C66", "status": "proved", "theorems": ["LDT.Mx.C66_sum", "LDT.Mx.C66_trace", "LDT.Mx.C66_rows_sum", "LDT.Mx.C66_columns_sum", "LDT.Mx.C66_columns_mean", "LDT.Mx.C66_covariance_matrix", "LDT.Mx.C66_columns_means", "LDT.Mx.C66_columns_variances", "LDT.Mx.C66_standardize", "LDT.Mx.C66_standardized"], "note": ""},
{"property": "C67", "status": "partial", "theorems": ["LDT.Mx.C67_extremes", "LDT.Mx.C67_positions", "LDT.Mx.C67_rows_columns", "LDT.Mx.C67_violated_no_rows"], "note": "proved for matrices with rows; max/min of a matrix without rows divide by zero (C67_violated_no_rows)"},
{"property": "C68", "status": "proved", "theorems": ["LDT.Cl.C68_dendrogram", "LDT.Cl.C68_nan_refused", "LDT.Cl.C68_length_refused", "LDT.Cl.C68_no_points"], "note": ""},
{"property": "C69", "status": "proved", "theorems": ["LDT.Cl.C69_heights", "LDT.Cl.C69_monotone", "LDT.Cl.C69_cut_partition", "LDT.Cl.C69_greedy", "LDT.Cl.C69_value_unique", "LDT.Cl.C69_inertia"], "note": ""},
{"property": "C70", "status": "proved", "theorems": ["LDT.Cl.C70_groups", "LDT.Cl.C70_groups_of_dendrogram", "LDT.Cl.C70_more_groups_than_points", "LDT.Cl.C70_disjoint"], "note": ""},
{"property": "C71", "status": "proved", "theorems": ["LDT.Cl.C71_mergeR", "LDT.Cl.C71_one_point"], "note": "for n >= 2; for one point the routine sorts an empty vector and dereferences its end (C71_one_point); order has n-1 entries, the merge permutation"},
{"property": "C72", "status": "partial", "theorems": ["LDT.Cl.C72_groups", "LDT.Cl.C72_filter_partial", "LDT.Cl.C72_first_stays", "LDT.Cl.C72_violated_removed", "LDT.Cl.C72_violated_distances"], "note": "without a threshold proved; with one, the filter compares distances that the clustering has overwritten (C72_filter_partial says what is kept, C72_violated_distances) and Removed collects positions inside groups instead of variables (C72_violated_removed)"},
{"property": "C73", "status": "partial", "theorems": ["LDT.Ds.C73_checked", "LDT.Ds.C73_unchecked", "LDT.Ds.C73_refuses", "LDT.Ds.C73_violated_fewer_columns", "LDT.Ds.C73_metric"], "note": "proved, except that an object made for more columns than the data have keeps a result of the announced size whose surplus cells were never written (C73_violated_fewer_columns)"},
{"property": "C74", "status": "partial", "theorems": ["LDT.Co.C74_refused", "LDT.Co.C74_calculate_full", "LDT.Co.C74_calculate_checked", "LDT.Co.C74_semidefinite", "LDT.Co.C74_covariance_full", "LDT.Co.C74_correlation_full", "LDT.Co.C74_covariance_checked", "LDT.Co.C74_correlation_checked_partial", "LDT.Co.C74_violated_counts", "LDT.Co.C74_bounds", "LDT.Co.C74_agree"], "note": "Pearson's method, at least two rows with the check and one without; the diagonal of ResultCounts is never written for correlations (C74_violated_counts); two columns without a common row give what C65 says; BLAS contract for A'A"},
{"property": "C75", "status": "proved", "theorems": ["LDT.Co.C75_unchecked", "LDT.Co.C75_checked", "LDT.Co.C75_metric", "LDT.Co.C75_zero"], "note": ""},
{"property": "C76", "status": "proved", "theorems": ["LDT.Rk.C76_sort", "LDT.Rk.C76_refused", "LDT.Rk.C76_undefined_missing"], "note": "std::sort is modelled by its result; a NaN beside two different numbers makes the comparison no strict weak ordering (C76_undefined_missing: undefined behaviour, no check)"},
{"property": "C77", "status": "proved", "theorems": ["LDT.Rk.C77_ranks", "LDT.Rk.C77_refused", "LDT.Rk.C77_order", "LDT.Rk.C77_permutation", "LDT.Rk.C77_monotone", "LDT.Rk.C77_antitone"], "note": "ranks count from 0 and ties share the lowest rank in either order; a NaN cell of a comparable column is not written at all"},
{"property": "C78", "status": "partial", "theorems": ["LDT.Co.C78_covariance_full", "LDT.Co.C78_correlation_full", "LDT.Co.C78_correlation_checked", "LDT.Co.C78_covariance_checked", "LDT.Co.C78_refused", "LDT.Co.C78_formula", "LDT.Co.C78_monotone", "LDT.Co.C78_bounds", "LDT.Co.C78_same_order", "LDT.Co.C78_negate_partial", "LDT.Co.C78_violated_ties"], "note": "requires at least one complete row for every pair (BLAS gets a leading dimension 0 otherwise); tied cells do not share the mean of their ranks (C78_violated_ties), so the classical formula and the reversal theorem are for columns without ties"},
{"property": "C79", "status": "partial", "theorems": ["LDT.De.C79_extremes", "LDT.De.C79_extremes_none", "LDT.De.C79_extremes_sorted", "LDT.De.C79_sum", "LDT.De.C79_squares", "LDT.De.C79_mean_partial", "LDT.De.C79_violated_sample", "LDT.De.C79_violated_differs", "LDT.De.C79_moments_population", "LDT.De.C79_moments_sample", "LDT.De.C79_moments_few", "LDT.De.C79_moments_constant", "LDT.De.C79_moments_nan"], "note": "the variance of MeanVariance divides by n for a sample and by n-1 otherwise (C79_violated_sample), so only its mean is proved (C79_mean_partial); int overflow of count*count for n > 46340 not modelled; exact arithmetic"},
{"property": "C80", "status": "partial", "theorems": ["LDT.De.C80_value", "LDT.De.C80_bounds", "LDT.De.C80_monotone", "LDT.De.C80_ends", "LDT.De.C80_order_statistic", "LDT.De.C80_median", "LDT.De.C80_affine", "LDT.De.C80_symmetric", "LDT.De.C80_violated_empty"], "note": "numbers only (no NaN); an empty array is read in front of its end (C80_violated_empty)"},
{"property": "C81", "status": "partial", "theorems": ["LDT.De.C81_recursive", "LDT.De.C81_recursive_refused", "LDT.De.C81_recursive_unique", "LDT.De.C81_recursive_linear", "LDT.De.C81_average_partial", "LDT.De.C81_average_refused", "LDT.De.C81_violated_no_coefficient", "LDT.De.C81_average_ends", "LDT.De.C81_average_constant", "LDT.De.C81_inverse", "LDT.De.C81_average_bounds"], "note": "no coefficient makes FilterMa write in front of the storage (C81_violated_no_coefficient); the rest is proved for at least one coefficient"},
{"property": "C82", "status": "proved", "theorems": ["LDT.De.C82_periodic", "LDT.De.C82_additive", "LDT.De.C82_multiplicative", "LDT.De.C82_unobserved", "LDT.De.C82_refused"], "note": "with coefficients given (without them the call always throws, C82_refused), a positive period, and a trend without zero for the multiplicative version (infinities are not told apart from NaN)"},
{"property": "C83", "status": "proved", "theorems": ["LDT.De.C83_least_squares", "LDT.De.C83_exact_line", "LDT.De.C83_refused", "LDT.De.C83_affine", "LDT.De.C83_inverse"], "note": "exact arithmetic: the determinant test is isinf(1/det)"},
{"property": "C84", "status": "partial", "theorems": ["LDT.Ls.C84_estimate", "LDT.Ls.C84_residuals", "LDT.Ls.C84_singular", "LDT.Ls.C84_refused", "LDT.Ls.C84_equivariant", "LDT.Ls.C84_basis", "LDT.Ls.C84_violated_variance", "LDT.Ls.C84_announced", "LDT.Ls.C84_violated_smaller", "LDT.Ls.C84_violated_larger"], "note": "estimate, uniqueness, residuals, equivariance, refusal of a singular design proved (LAPACK getrf/getri as a contract, exact arithmetic); violated: the size check is inverted (smaller data refused, larger data read out of bounds: C84_violated_smaller, C84_violated_larger) and the returned variance is the undivided cross product (C84_violated_variance)"},
{"property": "C85", "status": "partial", "theorems": ["LDT.Ls.C85_estimate", "LDT.Ls.C85_residuals", "LDT.Ls.C85_scalar", "LDT.Ls.C85_refused", "LDT.Ls.C85_singular", "LDT.Ls.C85_announced", "LDT.Ls.C85_violated_smaller", "LDT.Ls.C85_violated_omega"], "note": "estimate, uniqueness, residuals, scalar weights, singular weights proved; violated: inverted size check (C85_violated_smaller), the shape of the weight matrix is not checked (C85_violated_omega)"},
{"property": "C86", "status": "partial", "theorems": ["LDT.Hi.C86_total", "LDT.Hi.C86_bins_partial", "LDT.Hi.C86_equal_partial", "LDT.Hi.C86_step_partial", "LDT.Hi.C86_inside", "LDT.Hi.C86_refused", "LDT.Hi.C86_violated_single", "LDT.Hi.C86_given", "LDT.Hi.C86_empty_range", "LDT.Hi.C86_automatic", "LDT.Hi.C86_step_size", "LDT.Hi.C86_bin_count", "LDT.Hi.C86_violated_negative", "LDT.Hi.C86_violated_inner_break", "LDT.Hi.C86_violated_last_break"], "note": "counts sum to the number of data for all data and breaks; the bins are proved if the greatest datum is not on a break (C86_bins_partial, C86_equal_partial, C86_step_partial); violated at breaks (C86_violated_inner_break, C86_violated_last_break), with one bin (C86_violated_single), with a negative number of bins (C86_violated_negative); with a given range and a positive number of bins the given width is ignored (C86_given holds for every step); iqr = 0 makes the automatic number of bins undefined (C86_bin_count)"},
{"property": "C87", "status": "proved", "theorems": ["LDT.Hi.C87_remove", "LDT.Hi.C87_histogram"], "note": "infinite values are not modelled (removeInf is therefore the same as not)"},
{"property": "C88", "status": "proved", "theorems": ["LDT.Su.C88_estimate", "LDT.Su.C88_refused", "LDT.Su.C88_sizes", "LDT.Su.C88_announced", "LDT.Su.C88_rows"], "note": "exact arithmetic; LAPACK inversion and Cholesky determinant as contracts (see Model/Sur.lean); condition numbers and the numbers computed from the logarithm of the determinant are not modelled (the determinant itself is)"},
{"property": "C89", "status": "partial", "theorems": ["LDT.Su.C89_estimate_partial", "LDT.Su.C89_identity", "LDT.Su.C89_refused", "LDT.Su.C89_estimate_violated"], "note": "everything proved if the residuals of the unrestricted fit are independent (C89_estimate_partial); violated otherwise: the result of inverting the residual covariances is not looked at, and wrong coefficients are returned without an error (C89_estimate_violated)"},
{"property": "C90", "status": "partial", "theorems": ["LDT.Su.C90_search_partial", "LDT.Su.C90_refused", "LDT.Su.C90_details_violated"], "note": "everything proved except the details when every coefficient is significant at once (C90_search_partial): then the restriction matrix is still zero, so every reported standard deviation is 0 and every t infinite (C90_details_violated)"},
{"property": "C91", "status": "partial", "theorems": ["LDT.Mx.C91_set_row_partial", "LDT.Mx.C91_set_row_violated", "LDT.Mx.C91_set_column_partial", "LDT.Mx.C91_set_column_violated", "LDT.Mx.C91_row_from_diag", "LDT.Mx.C91_column_from_diag", "LDT.Mx.C91_sub_row_partial", "LDT.Mx.C91_sub_row_violated", "LDT.Mx.C91_sub_vector_partial", "LDT.Mx.C91_sub_vector_violated", "LDT.Mx.C91_get_sub_vector_partial", "LDT.Mx.C91_get_sub_vector_violated", "LDT.Mx.C91_remove_nan"], "note": "positive cases, frames and the checks that exist are proved; violated: SetRow, SetColumn, SetSubVector and GetSubVector do not check the size of the source (or the start), SetSubRow not the sign of the start, so memory outside is read or written"},
{"property": "C92", "status": "partial", "theorems": ["LDT.Mx.C92_dot_vector", "LDT.Mx.C92_t_dot_vector", "LDT.Mx.C92_vector_dot_vector", "LDT.Mx.C92_dot_AtA_nan", "LDT.Mx.C92_sort_indices_partial", "LDT.Mx.C92_sort_indices_violated"], "note": "exact arithmetic, BLAS gemv as its reference algorithm; everything proved except sorting a vector with missing cells, which is undefined (C92_sort_indices_violated)"},
{"property": "C93", "status": "proved", "theorems": ["LDT.Su.C93_projection", "LDT.Su.C93_projection_restricted", "LDT.Su.C93_refused", "LDT.Su.C93_refused_sizes", "LDT.Su.C93_after_estimate"], "note": "exact arithmetic; the model is taken from an estimate with the given coefficients and covariances (C93_after_estimate joins it with C88)"},
{"property": "C94", "status": "partial", "theorems": ["LDT.Su.C94_r2", "LDT.Su.C94_r2_nested", "LDT.Su.C94_r2_restricted", "LDT.Su.C94_r2_constant", "LDT.Su.C94_f_degrees_violated"], "note": "everything proved except the degrees of freedom of F (C94_f_degrees_violated): the first is m(N-1); logarithm-based criteria are not modelled; refusal without degrees of freedom is part of C88_refused"},
{"property": "C95", "status": "partial", "theorems": ["LDT.Op.C95_found", "LDT.Op.C95_longer", "LDT.Op.C95_failing_violated", "LDT.Op.C95_unbounded_violated", "LDT.Op.C95_refused", "LDT.Op.C95_empty_violated", "LDT.Op.C95_penalty"], "note": "everything proved, for any arithmetic, if the minimised function is finite at a corner of the first simplex and nowhere minus infinity; violated: if it is infinite or missing everywhere, or minus infinity at all corners, the simplex is read at index -1 (C95_failing_violated, C95_unbounded_violated); with no variables the class asks for no work space and uses one number (C95_empty_violated)"},
{"property": "C96", "status": "partial", "theorems": ["LDT.Op.C96_found", "LDT.Op.C96_inside", "LDT.Op.C96_flat_violated", "LDT.Op.C96_bounds_violated"], "note": "descent, number of iterations and the local minimum proved for any arithmetic; violated: the penalty is 1e5 x^2, not the distance to the bound, so zero is never penalised and the result may be outside (C96_bounds_violated); on a flat objective the search walks away and never stops early (C96_flat_violated)"},
{"property": "C97", "status": "partial", "theorems": ["LDT.Op.C97_path", "LDT.Op.C97_descent", "LDT.Op.C97_refused", "LDT.Op.C97_quadratic", "LDT.Op.C97_plain_violated", "LDT.Op.C97_hessian_violated"], "note": "path, descent, stopping, refusals, exactness for quadratics proved with line search; dposv as a contract; violated: without line search the gradient is never recomputed (C97_plain_violated); Hessian holds a Cholesky factor afterwards (C97_hessian_violated)"},
{"property": "C98", "status": "partial", "theorems": ["LDT.Dv.C98_first_table", "LDT.Dv.C98_first_partial", "LDT.Dv.C98_first_quadratic", "LDT.Dv.C98_second_table", "LDT.Dv.C98_second_partial", "LDT.Dv.C98_second_cubic", "LDT.Dv.C98_local", "LDT.Dv.C98_refused", "LDT.Dv.C98_smaller_violated", "LDT.Dv.C98_space", "LDT.Dv.C98_exact_violated"], "note": "table, exactness for polynomials (if no quotient is below 1e-16; unconditionally up to degree 2 and 3), symmetry, locality, refusals and space proved in exact arithmetic; violated: one tiny quotient makes the derivative zero for good (C98_exact_violated), a point smaller than the maximum is refused (C98_smaller_violated)"},
{"property": "C99", "status": "partial", "theorems": ["LDT.Di.C99_poisson", "LDT.Di.C99_geometric", "LDT.Di.C99_bernoulli", "LDT.Di.C99_binomial", "LDT.Di.C99_uniform", "LDT.Di.C99_parameters_violated", "LDT.Di.C99_between_violated", "LDT.Di.C99_property_violated", "LDT.Di.C99_property"], "note": "proved over the reals for all parameters describing a law; violated: rate 0, probability 0, non-integer bounds are accepted without describing a law (C99_parameters_violated), the mass is positive between the integers (C99_between_violated), GetProperty(maximum) is the minimum (C99_property_violated)"},
{"property": "C100", "status": "partial", "theorems": ["LDT.Di.C100_normal", "LDT.Di.C100_lognormal_partial", "LDT.Di.C100_lognormal_violated", "LDT.Di.C100_uniform", "LDT.Di.C100_gamma", "LDT.Di.C100_chi2", "LDT.Di.C100_exponential", "LDT.Di.C100_beta", "LDT.Di.C100_t", "LDT.Di.C100_t_none", "LDT.Di.C100_f", "LDT.Di.C100_f_none", "LDT.Di.C100_degenerate_violated"], "note": "proved over the reals, by integration; violated: the standard deviation of the log-normal is 1/mu (C100_lognormal_violated), degenerate parameters are accepted and give NaN (C100_degenerate_violated)"},
{"property": "C101", "status": "partial", "theorems": ["LDT.Di.C101_normal", "LDT.Di.C101_lognormal", "LDT.Di.C101_t", "LDT.Di.C101_chi2", "LDT.Di.C101_gamma", "LDT.Di.C101_f", "LDT.Di.C101_exponential", "LDT.Di.C101_uniform", "LDT.Di.C101_beta", "LDT.Di.C101_poisson", "LDT.Di.C101_geometric", "LDT.Di.C101_binomial_partial", "LDT.Di.C101_bernoulli_partial", "LDT.Di.C101_uniform_discrete", "LDT.Di.C101_bernoulli_violated", "LDT.Di.C101_binomial_violated", "LDT.Di.C101_between_violated", "LDT.Di.C101_degenerate_violated"], "note": "proved over the reals for every type, with the special functions characterised by their integrals (a structure shown inhabited); partial: Bernoulli only off [0,1), binomial only below n and p > 0, because there the code is wrong (C101_bernoulli_violated, C101_binomial_violated); geometric is not floored between integers (C101_between_violated); degenerate parameters give NaN (C101_degenerate_violated)"},
{"property": "C102", "status": "partial", "theorems": ["LDT.Di.C102_ends", "LDT.Di.C102_normal", "LDT.Di.C102_lognormal", "LDT.Di.C102_chi2", "LDT.Di.C102_gamma", "LDT.Di.C102_f", "LDT.Di.C102_beta", "LDT.Di.C102_exponential", "LDT.Di.C102_uniform", "LDT.Di.C102_t", "LDT.Di.C102_poisson_partial", "LDT.Di.C102_geometric_partial", "LDT.Di.C102_binomial_partial", "LDT.Di.C102_bernoulli_violated", "LDT.Di.C102_bernoulli_median_violated", "LDT.Di.C102_binomial_violated", "LDT.Di.C102_geometric_violated", "LDT.Di.C102_uniform_discrete_violated"], "note": "proved for all continuous types; discrete: what the search returns is a quantile whenever the search ends in time; violated: Bernoulli always 1, binomial beyond its maximum, geometric NaN after 100 steps, discrete uniform NaN"},
{"property": "C103", "status": "partial", "theorems": ["LDT.Di.C103_normal", "LDT.Di.C103_lognormal", "LDT.Di.C103_t", "LDT.Di.C103_gamma", "LDT.Di.C103_chi2", "LDT.Di.C103_exponential_partial", "LDT.Di.C103_beta", "LDT.Di.C103_uniform_f", "LDT.Di.C103_uniform_discrete", "LDT.Di.C103_poisson", "LDT.Di.C103_geometric", "LDT.Di.C103_bernoulli", "LDT.Di.C103_binomial", "LDT.Di.C103_exponential_violated", "LDT.Di.C103_zero_violated"], "note": "proved for all types where the density is positive; violated: exponential at 0 is -inf, zero times log zero gives NaN (gamma shape 1 at 0, geometric p = 1, binomial p = 0)"},
{"property": "C104", "status": "partial", "theorems": ["LDT.Di.C104_size_uniform", "LDT.Di.C104_size_binomial", "LDT.Di.C104_size_unbounded", "LDT.Di.C104_points", "LDT.Di.C104_complete", "LDT.Di.C104_plot", "LDT.Di.C104_refused", "LDT.Di.C104_window_violated"], "note": "proved for all windows with bounds inside the support or for bounded supports; violated: negative windows for Poisson/geometric, empty intersections and fractional bounds are miscounted (C104_window_violated)"},
{"property": "C105", "status": "partial", "theorems": ["LDT.Di.C105_normal", "LDT.Di.C105_lognormal", "LDT.Di.C105_t", "LDT.Di.C105_uniform", "LDT.Di.C105_exponential", "LDT.Di.C105_none", "LDT.Di.C105_bernoulli", "LDT.Di.C105_geometric", "LDT.Di.C105_uniform_discrete", "LDT.Di.C105_chi2_violated", "LDT.Di.C105_poisson_violated", "LDT.Di.C105_geometric_violated", "LDT.Di.C105_binomial_violated"], "note": "proved for normal, log-normal, t, uniform, exponential, Bernoulli, geometric (0<p<1) and discrete uniform; F, gamma, beta report NaN; violated: chi-squared and Poisson are approximations (chi2(2); Poisson 1/100 reports -2), geometric p=1 reports 1, binomial rounds np down"},
{"property": "C106", "status": "partial", "theorems": ["LDT.Di.C106_normal", "LDT.Di.C106_lognormal", "LDT.Di.C106_t", "LDT.Di.C106_uniform", "LDT.Di.C106_exponential", "LDT.Di.C106_gamma", "LDT.Di.C106_chi2", "LDT.Di.C106_f", "LDT.Di.C106_beta_partial", "LDT.Di.C106_poisson", "LDT.Di.C106_geometric", "LDT.Di.C106_bernoulli", "LDT.Di.C106_binomial_partial", "LDT.Di.C106_none", "LDT.Di.C106_beta_violated", "LDT.Di.C106_binomial_violated"], "note": "proved for all types that report a mode; partial: beta only if the first parameter is below one or the second at least one, binomial only for p<1; violated elsewhere (C106_beta_violated, C106_binomial_violated)"},
{"property": "C107", "status": "proved", "theorems": ["LDT.Di.C107_accepted", "LDT.Di.C107_both", "LDT.Di.C107_density", "LDT.Di.C107_mass", "LDT.Di.C107_cdf", "LDT.Di.C107_cdf_mass", "LDT.Di.C107_cdf_average", "LDT.Di.C107_minimum", "LDT.Di.C107_maximum", "LDT.Di.C107_log"], "note": "components are the distributions of distributions_uni.cpp; hypotheses about them are discharged by C99-C102"},
{"property": "C108", "status": "partial", "theorems": ["LDT.Di.C108_continuous", "LDT.Di.C108_continuous_two", "LDT.Di.C108_discrete", "LDT.Di.C108_normal", "LDT.Di.C108_missing_violated", "LDT.Di.C108_degenerate_violated"], "note": "violated: a component without a mean (NaN) is left out of the mean instead of making it undefined; components with variance zero make skewness and kurtosis NaN (C108_missing_violated, C108_degenerate_violated)"},
{"property": "C109", "status": "partial", "theorems": ["LDT.Di.C109_size", "LDT.Di.C109_points", "LDT.Di.C109_plot", "LDT.Di.C109_refused", "LDT.Di.C109_complete", "LDT.Di.C109_negative_violated", "LDT.Di.C109_choice"], "note": "violated for ranges that end below zero: the largest value starts at the smallest positive double (C109_negative_violated)"},
{"property": "C110", "status": "partial", "theorems": ["LDT.Em.C110_cdf", "LDT.Em.C110_quantile", "LDT.Em.C110_quantile_tails", "LDT.Em.C110_inverse", "LDT.Em.C110_quantile_rises", "LDT.Em.C110_tails_violated", "LDT.Em.C110_nan_violated", "LDT.Em.C110_combine_single", "LDT.Em.C110_combine"], "note": "violated: outside the outermost quantiles GetCDFApprox goes the wrong way (grows to the left, falls to the right, beyond all bounds), for every quantile vector; GetCDFApprox(NaN) reads behind the array"},
{"property": "C111", "status": "proved", "theorems": ["LDT.Dc.C111_ordered", "LDT.Dc.C111_binary", "LDT.Dc.C111_cumulative", "LDT.Dc.C111_positive", "LDT.Dc.C111_fitted", "LDT.Dc.C111_shift", "LDT.Dc.C111_latent"], "note": "exact arithmetic; the overflow branch of exp is not modelled"},
{"property": "C112", "status": "proved", "theorems": ["LDT.Dc.C112_likelihood", "LDT.Dc.C112_gradient", "LDT.Dc.C112_hessian", "LDT.Dc.C112_definite", "LDT.Dc.C112_maximum", "LDT.Dc.C112_repeated"], "note": "exact arithmetic; erfc by its definition"},
{"property": "C113", "status": "proved", "theorems": ["LDT.Dc.C113_likelihood", "LDT.Dc.C113_unordered", "LDT.Dc.C113_gradient", "LDT.Dc.C113_hessian", "LDT.Dc.C113_definite", "LDT.Dc.C113_maximum", "LDT.Dc.C113_repeated"], "note": "exact arithmetic; erfc by its definition; log-concavity of the normal law between two cutoffs is proved"},
{"property": "C114", "status": "partial", "theorems": ["LDT.Dc.C114_binary_refused", "LDT.Dc.C114_binary_counts", "LDT.Dc.C114_binary_likelihood", "LDT.Dc.C114_binary_maximum", "LDT.Dc.C114_binary_variance", "LDT.Dc.C114_ordered_outside_violated", "LDT.Dc.C114_ordered_refused", "LDT.Dc.C114_ordered_counts", "LDT.Dc.C114_ordered_cutoffs", "LDT.Dc.C114_ordered_likelihood", "LDT.Dc.C114_ordered_maximum", "LDT.Dc.C114_ordered_variance", "LDT.Dc.C114_memory", "LDT.Dc.C114_refused", "LDT.Dc.C114_accepted", "LDT.Dc.C114_stays", "LDT.Dc.C114_binary_outside_violated", "LDT.Dc.C114_repeated"], "note": "exact arithmetic; LAPACK by contract; the optimiser is the model of C97. Violated: an observation with a choice out of range is not reported (unweighted binary: wrong counts; weighted or ordered: a write outside the array)"},
{"property": "C115", "status": "partial", "theorems": ["LDT.Dc.C115_binary", "LDT.Dc.C115_binary_refused", "LDT.Dc.C115_ordered", "LDT.Dc.C115_increasing", "LDT.Dc.C115_start_violated"], "note": "exact arithmetic. Violated: where the first coefficient of the regression is zero the start of the ordered model is not made of numbers although the model can be estimated"},
{"property": "C116", "status": "partial", "theorems": ["LDT.Dc.C116_sample", "LDT.Dc.C116_forecast", "LDT.Dc.C116_scores", "LDT.Dc.C116_brier_range", "LDT.Dc.C116_auc", "LDT.Dc.C116_cost", "LDT.Dc.C116_sizes", "LDT.Dc.C116_memory", "LDT.Dc.C116_ordered", "LDT.Dc.C116_forecast_violated", "LDT.Dc.C116_reuse_violated", "LDT.Dc.C116_brier_violated"], "note": "exact arithmetic, no restriction; the optimiser is the model of C97. Violated: the work array ignores the number of forecast rows; an object used again writes behind its storage; with missing cells the Brier score is taken over rows that do not exist"},
{"property": "C117", "status": "partial", "theorems": ["LDT.Dc.C117_valid", "LDT.Dc.C117_fails", "LDT.Dc.C117_costs", "LDT.Dc.C117_auc", "LDT.Dc.C117_table", "LDT.Dc.C117_brier_violated", "LDT.Dc.C117_ordered", "LDT.Dc.C117_out_of_sample", "LDT.Dc.C117_memory", "LDT.Dc.C117_memory_violated"], "note": "exact arithmetic; object made for the sizes of the table. Violated: the Brier score is that of the last valid simulation; a small training sample makes the model write outside the work array"},
{"property": "C118", "status": "partial", "theorems": ["LDT.Srch.C118_mixture", "LDT.Srch.C118_mixture_division", "LDT.Srch.C118_probability", "LDT.Srch.C118_inclusion", "LDT.Srch.C118_lists", "LDT.Srch.C118_bounds", "LDT.Srch.C118_accepts", "LDT.Srch.C118_no_summary", "LDT.Srch.C118_violated_zero_weight_first", "LDT.Srch.C118_zero_weights", "LDT.Srch.C118_negative_weights", "LDT.Srch.C118_violated_negative_weight", "LDT.Srch.C118_total", "LDT.Srch.C118_example"], "note": "exact arithmetic. Violated: an estimate with weight zero that comes first makes the averaged probabilities NaN and drops all the estimates of this searcher; a cost larger than one gives a negative weight and a probability larger than one"},
{"property": "C119", "status": "proved", "theorems": ["LDT.Srch.C119_estimator_input", "LDT.Srch.C119_models_kept", "LDT.Srch.C119_coefficients_kept", "LDT.Srch.C119_outcome", "LDT.Srch.C119_counted", "LDT.Srch.C119_mixture", "LDT.Srch.C119_probability", "LDT.Srch.C119_inclusion", "LDT.Srch.C119_search", "LDT.Srch.C119_no_target", "LDT.Srch.C119_example"], "note": "exact arithmetic; the estimation of a single model is arbitrary; projections (Length2) are not kept by the code; variables in range (an index out of range makes Push throw)"},
{"property": "C120", "status": "partial", "theorems": ["LDT.SOpt.C120_refused", "LDT.SOpt.C120_updated", "LDT.SOpt.C120_orientation", "LDT.SOpt.C120_positions_partial", "LDT.SOpt.C120_position_unique", "LDT.SOpt.C120_again", "LDT.SOpt.C120_violated_other_metrics", "LDT.SOpt.C120_items", "LDT.SOpt.C120_checks_refused", "LDT.SOpt.C120_checks", "LDT.SOpt.C120_condition_partial", "LDT.SOpt.C120_violated_condition", "LDT.SOpt.C120_example"], "note": "violated: options used again with other metrics keep the old positions (map.insert does not overwrite), and the limit of the condition number is not in force if the estimation is switched on only because of an in-sample metric or another limit"},
{"property": "C121", "status": "partial", "theorems": ["LDT.Dc.C121_estimated", "LDT.Dc.C121_violated_first", "LDT.Dc.C121_scores_partial", "LDT.Dc.C121_search_models", "LDT.Dc.C121_search_coefficients", "LDT.Dc.C121_violated_missing", "LDT.Dc.C121_refused", "LDT.Dc.C121_violated_dof", "LDT.Dc.C121_cancelled", "LDT.Dc.C121_simulation", "LDT.Dc.C121_violated_missing_rows", "LDT.Dc.C121_violated_ordered", "LDT.Dc.C121_violated_minimum", "LDT.Dc.C121_violated_condition", "LDT.Dc.C121_sizes"], "note": "violated: a score that is the first of the in-sample metrics is never computed (reported as 0); the Brier score reads unwritten memory if rows are missing; the degrees of freedom are counted with the wrong sign (4 too few); MinOutSim has no effect; with missing rows and a fixed training size no model is reported; for more than two choices the limit of the condition number is not applied and no out-of-sample metric is ever reported"},
{"property": "C122", "status": "partial", "theorems": ["LDT.Dc.C122_accepted", "LDT.Dc.C122_violated_no_number", "LDT.Dc.C122_searchers", "LDT.Dc.C122_memory", "LDT.Dc.C122_search", "LDT.Dc.C122_start", "LDT.Dc.C122_shuffled", "LDT.Dc.C122_counts_partial", "LDT.Dc.C122_violated_size", "LDT.Dc.C122_violated_brier", "LDT.Dc.C122_violated_cutoffs", "LDT.Dc.C122_violated_dependent", "LDT.Dc.C122_example", "LDT.Dc.C122_violated_accepted"], "note": "partial: counts for no fixed items, no empty partitions. violated: no number in the first column is undefined behaviour; the dependent variable is accepted as an explanatory one (and then no model with it is reported); cost tables are not checked if the costs are the first metric; sizes beyond the number of partitions are accepted, the run throws; the Brier score alone is refused out of the sample; nothing is kept for the cutoffs"},
{"property": "C123", "status": "proved", "theorems": ["LDT.Su.C123_estimate", "LDT.Su.C123_model", "LDT.Su.C123_refused", "LDT.Su.C123_sample"], "note": "without principal components; C123_estimate for systems without restrictions, C123_model/C123_refused for all settings"},
{"property": "C124", "status": "partial", "theorems": ["LDT.Su.C124_unrestricted", "LDT.Su.C124_restricted_partial", "LDT.Su.C124_restricted_violated"], "note": "partial: with restrictions the number is that of another product. violated: for one coefficient with the restriction r it is 1/|r| whatever the data"},
{"property": "C125", "status": "partial", "theorems": ["LDT.Su.C125_valid", "LDT.Su.C125_fails_iff", "LDT.Su.C125_refused", "LDT.Su.C125_not_implemented", "LDT.Su.C125_scores", "LDT.Su.C125_no_valid", "LDT.Su.C125_memory", "LDT.Su.C125_iteration", "LDT.Su.C125_out_of_sample", "LDT.Su.C125_boxcox_violated", "LDT.Su.C125_all_valid"], "note": "without principal components. C125_iteration/C125_out_of_sample/C125_all_valid for systems without restrictions. violated: after a Box-Cox transformation the standard deviation goes through the inverse transformation of the variable itself (C125_boxcox_violated); if all iterations may be dropped the scores are NaN instead of an exception (C125_no_valid)"},
{"property": "C126", "status": "partial", "theorems": ["LDT.Su.C126_memory", "LDT.Su.C126_estimate", "LDT.Su.C126_search_models", "LDT.Su.C126_search_equations", "LDT.Su.C126_search_coefs_partial", "LDT.Su.C126_search_violated", "LDT.Su.C126_example_violated", "LDT.Su.C126_zero_violated", "LDT.Su.C126_scores", "LDT.Su.C126_simulation_throws", "LDT.Su.C126_cancelled", "LDT.Su.C126_boxcox_violated"], "note": "without a search for significant coefficients (C126_estimate, C126_scores). violated: metrics in the sample other than AIC and SIC are reported as 0 (C126_zero_violated); in a group whose targets do not come first, a target gets the coefficients of the equation of another variable (C126_search_violated, C126_example_violated); a Box-Cox parameter is chosen by the position in the group instead of the variable (C126_boxcox_violated). C126_search_coefs_partial holds for groups whose targets come first"},
{"property": "C127", "status": "partial", "theorems": ["LDT.Su.C127_accepted", "LDT.Su.C127_searchers", "LDT.Su.C127_memory", "LDT.Su.C127_counts_partial", "LDT.Su.C127_size_violated", "LDT.Su.C127_groups_partial", "LDT.Su.C127_skipped_violated", "LDT.Su.C127_boundary_violated", "LDT.Su.C127_search", "LDT.Su.C127_example", "LDT.Su.C127_example_violated", "LDT.Su.C127_group_violated"], "note": "C127_accepted is exact; C127_search without a search for significant coefficients. violated: a group with a target is silently left out if its first variable is behind the targets (C127_skipped_violated); a group without a target whose first variable directly follows the targets makes the whole request fail instead of being left out (C127_boundary_violated, off by one); members of groups are not checked, the search reads outside of the data (C127_group_violated); sizes above the number of partitions are accepted and the search throws (C127_size_violated). C127_counts_partial for no fixed items and no empty partitions"},
{"property": "C128", "status": "partial", "theorems": ["LDT.Crps.C128_normal", "LDT.Crps.C128_normal_refused", "LDT.Crps.C128_lognormal", "LDT.Crps.C128_lognormal_point_partial", "LDT.Crps.C128_lognormal_violated", "LDT.Crps.C128_zero", "LDT.Crps.C128_proper", "LDT.Crps.C128_systems"], "note": "The special functions are what they are defined to be (Special). Exact arithmetic. violated: a log-normal forecast with deviation 0 that is exactly right scores NaN instead of 0 (C128_lognormal_violated); C128_lognormal_point_partial is the rest of that case"},
{"property": "C129", "status": "partial", "theorems": ["LDT.Sd.C129_sizes", "LDT.Sd.C129_calculate", "LDT.Sd.C129_refused", "LDT.Sd.C129_moments", "LDT.Sd.C129_same_map", "LDT.Sd.C129_one_row_violated"], "note": "Real arithmetic; data without NaN. violated: one row with scaling gives NaN that is not removed (C129_one_row_violated)"},
{"property": "C130", "status": "partial", "theorems": ["LDT.Pc.C130_calculate", "LDT.Pc.C130_sizes", "LDT.Pc.C130_variances", "LDT.Pc.C130_total", "LDT.Pc.C130_shares", "LDT.Pc.C130_refused", "LDT.Pc.C130_wide_violated", "LDT.Pc.C130_check_violated"], "note": "Real arithmetic; dgesvd is a parameter with its contract (Lapack.Correct). violated: with fewer rows than columns the remaining directions are uninitialised (C130_wide_violated); an accepted table can be written behind the end of the array (C130_check_violated)"},
{"property": "C131", "status": "partial", "theorems": ["LDT.Pc.C131_cutoff", "LDT.Pc.C131_enough", "LDT.Pc.C131_check", "LDT.Pc.C131_count", "LDT.Pc.C131_model", "LDT.Pc.C131_exact_violated", "LDT.Pc.C131_constant_violated", "LDT.Pc.C131_negative_violated"], "note": "violated: more components than columns are accepted (C131_exact_violated), constant unscaled columns (C131_constant_violated) and negative numbers (C131_negative_violated)"},
{"property": "C132", "status": "partial", "theorems": ["LDT.Vs.C132_valid", "LDT.Vs.C132_honest", "LDT.Vs.C132_scores", "LDT.Vs.C132_percentages", "LDT.Vs.C132_fails_iff", "LDT.Vs.C132_refused", "LDT.Vs.C132_later_horizons_violated", "LDT.Vs.C132_order_violated", "LDT.Vs.C132_window", "LDT.Vs.C132_extended", "LDT.Vs.C132_extended_details", "LDT.Vs.C132_extended_scores", "LDT.Vs.C132_extended_none", "LDT.Vs.C132_crps"], "note": "Real arithmetic with NaN and infinities; the estimation with the forecast is a parameter with a state that may fail. violated: with a first horizon beyond 1 the end of the loop counts as a failure (C132_later_horizons_violated); horizons that are not ascending give NaN (C132_order_violated)"},
{"property": "C133", "status": "partial", "theorems": ["LDT.Vm.C133_sample", "LDT.Vm.C133_memory", "LDT.Vm.C133_reports", "LDT.Vm.C133_refused", "LDT.Vm.C133_condition", "LDT.Vm.C133_scores", "LDT.Vm.C133_unscored", "LDT.Vm.C133_accepts", "LDT.Vm.C133_bounds_iff", "LDT.Vm.C133_bounds_unused_violated", "LDT.Vm.C133_prediction_violated", "LDT.Vm.C133_zero_violated", "LDT.Vm.C133_boxcox_violated", "LDT.Vm.C133_bounds_horizon_violated", "LDT.Vm.C133_memory_violated", "LDT.Vm.C133_disjoint_violated", "LDT.Vm.C133_target_violated", "LDT.Vm.C133_memory_example_violated", "LDT.Vm.C133_short_violated", "LDT.Vm.C133_disjoint_example_violated"], "note": "Real arithmetic with NaN and infinities; estimation, forecast and the estimations of the simulations are parameters that may fail; without cancellation. violated: a model without the first series can need more memory than planned (C133_memory_violated, C133_memory_example_violated); with lags longer than the data the work array is too small (C133_short_violated); series without a common period (C133_disjoint_violated); targets that are not the first variables of the model (C133_target_violated); Box-Cox parameters by position (C133_boxcox_violated); horizons beyond the horizon of the predictions (C133_bounds_horizon_violated); bounds without simulations are not checked (C133_bounds_unused_violated); predictions without estimation (C133_prediction_violated); other metrics are 0 (C133_zero_violated)"},
{"property": "C134", "status": "partial", "theorems": ["LDT.Vm.C134_accepted", "LDT.Vm.C134_orders", "LDT.Vm.C134_searchers", "LDT.Vm.C134_work", "LDT.Vm.C134_memory_partial", "LDT.Vm.C134_endogenous_violated", "LDT.Vm.C134_weights", "LDT.Vm.C134_counts_partial", "LDT.Vm.C134_search_models", "LDT.Vm.C134_search_forecasts_partial", "LDT.Vm.C134_horizon_violated", "LDT.Vm.C134_groups_violated", "LDT.Vm.C134_groups_fail_violated", "LDT.Vm.C134_room_violated", "LDT.Vm.C134_lags_violated", "LDT.Vm.C134_nothing_violated"], "note": "Real arithmetic; estimations are parameters that may fail; lags are assumed to fit an int (Small). violated: partitions of variables that are not endogenous are accepted, and a series is then endogenous and exogenous at once (C134_endogenous_violated); groups of exogenous variables are not checked (C134_groups_violated, C134_groups_fail_violated); a size without room for the fixed partitions, or an order with too many lags for the simulations, refuses the whole search (C134_room_violated, C134_lags_violated); a request without lags is accepted and has no models (C134_nothing_violated); forecasts beyond the horizon of the checks make all models fail (C134_horizon_violated)"},
{"property": "C135", "status": "partial", "theorems": ["LDT.Gl.C135_accepted", "LDT.Gl.C135_quantile", "LDT.Gl.C135_density", "LDT.Gl.C135_increasing", "LDT.Gl.C135_range", "LDT.Gl.C135_quantiles", "LDT.Gl.C135_density_of", "LDT.Gl.C135_symmetric", "LDT.Gl.C135_infinite_violated", "LDT.Gl.C135_from_moments", "LDT.Gl.C135_objective", "LDT.Gl.C135_types", "LDT.Gl.C135_type8_violated", "LDT.Gl.C135_sample_violated", "LDT.Gl.C135_outside_violated", "LDT.Gl.C135_mean", "LDT.Gl.C135_mean_missing", "LDT.Gl.C135_variance", "LDT.Gl.C135_skewness", "LDT.Gl.C135_kurtosis", "LDT.Gl.C135_missing", "LDT.Gl.C135_moments_agree"], "note": "Exact arithmetic with infinities and NaN; boost's functions are parameters with the specification that beta is its integral and that digamma and polygamma are derivatives of the logarithm of gamma; the minimizer is a parameter (C95). violated: the penalty of the S-shaped type 8 multiplies the distance of the kurtosis, so that the kurtosis is ignored for S-shaped curves and other shapes are optimal (C135_type8_violated); GetSample1 returns the uniform number and not its quantile (C135_sample_violated); the quantile function that R uses does not check probabilities (C135_outside_violated); infinite shapes, the second minus infinity, have no quantile (C135_infinite_violated)"},
{"property": "C136", "status": "partial", "theorems": ["LDT.Ve.C136_least_squares", "LDT.Ve.C136_innovations", "LDT.Ve.C136_pure", "LDT.Ve.C136_restricted", "LDT.Ve.C136_restricted_variance", "LDT.Ve.C136_accepted", "LDT.Ve.C136_accepted_ma", "LDT.Ve.C136_accepted_restricted", "LDT.Ve.C136_variance_violated"], "note": "Exact arithmetic; matrices as functions (no buffers); the optional matrices r and ma_resid are null. violated: a restriction, even one that restricts nothing, reports the inverse of the cross products as the variance of the coefficients, without the covariance of the residuals (C136_variance_violated, C136_restricted_variance)"},
{"property": "C137", "status": "partial", "theorems": ["LDT.Ve.C137_residuals", "LDT.Ve.C137_residuals_ma", "LDT.Ve.C137_residuals_restricted", "LDT.Ve.C137_last_point", "LDT.Ve.C137_value", "LDT.Ve.C137_bounds", "LDT.Ve.C137_bounds_example", "LDT.Ve.C137_perfect_fit", "LDT.Ve.C137_last_point_violated", "LDT.Ve.C137_last_point_example", "LDT.Ve.C137_likelihood_example", "LDT.Ve.C137_two_example", "LDT.Ve.C137_least_squares", "LDT.Ve.C137_likelihood", "LDT.Ve.C137_sample_end_violated", "LDT.Ve.C137_likelihood_violated", "LDT.Ve.C137_criteria", "LDT.Ve.C137_criteria_violated", "LDT.Ve.C137_no_details_violated", "LDT.Ve.C137_restricted_ar_violated", "LDT.Ve.C137_std", "LDT.Ve.C137_std_restricted", "LDT.Ve.C137_std_violated"], "note": "Exact arithmetic; the optimizer (setulb) and the numerical derivatives are arbitrary parameters, for the points at which they evaluate; points of the search are finite. violated: without the variances the residuals are those of the last derivative and not of the coefficients (C137_last_point_violated); with an MA part or a restriction the objective divides by n - gamma.ColsCount, so the likelihood is not that of the reported residuals (C137_likelihood_violated); observations left out at the end are counted in the likelihood (C137_sample_end_violated); the criteria count restricted coefficients (C137_criteria_violated); without the details a model with an MA part writes outside its memory (C137_no_details_violated); a restricted model without MA part is always refused (C137_restricted_ar_violated); the standard errors of a restriction that does not select are wrong (C137_std_violated)"},
{"property": "C138", "status": "partial", "theorems": ["LDT.Vx.C138_sample", "LDT.Vx.C138_refused", "LDT.Vx.C138_made", "LDT.Vx.C138_made_refused", "LDT.Vx.C138_missing", "LDT.Vx.C138_empty", "LDT.Vx.C138_condition", "LDT.Vx.C138_pca_y_partial", "LDT.Vx.C138_pca_reduced_violated", "LDT.Vx.C138_pca_sizes_violated", "LDT.Vx.C138_pca_x_partial", "LDT.Vx.C138_disjoint", "LDT.Vx.C138_history_violated", "LDT.Vx.C138_unchecked_violated"], "note": "Exact arithmetic; the decomposition, the estimation and the forecasts are parameters (C130, C131, C136, C137, C56); the checks of the sizes of the arrays and the transpositions are not represented. partial: components are proved for options that do not reduce the number of variables. violated: with more endogenous variables than CutoffCountMax + IgnoreFirstCount the remaining ones take the place of the exogenous variables (C138_pca_reduced_violated); the restriction is made for the number of variables before the components are chosen (C138_pca_sizes_violated); after one table with a gap every table is refused (C138_history_violated); without the check for missing values the future values are rows of the sample (C138_unchecked_violated)"},
{"property": "C139", "status": "partial", "theorems": ["LDT.Var.C139_combined_partial", "LDT.Var.C139_unique", "LDT.Var.C139_classes", "LDT.Var.C139_empty_violated", "LDT.Var.C139_missing_violated", "LDT.Var.C139_off_grid_violated"], "note": "Exact arithmetic; messages are not represented. partial: both series have an observation and lie on a common grid of a class for which order and differences of dates are right (C02, C03). violated: a series without cells is read outside of its memory (C139_empty_violated); a series without observations keeps its missing cells at the ends (C139_missing_violated); weekly series of different weekdays are moved instead of refused and a zero replaces an observation (C139_off_grid_violated)"},
{"property": "C140", "status": "partial", "theorems": ["LDT.Fh.C140_handles_partial", "LDT.Fh.C140_no_leak", "LDT.Fh.C140_careful", "LDT.Fh.C140_shared_violated", "LDT.Fh.C140_texts", "LDT.Fh.C140_second_call", "LDT.Fh.C140_round_trip", "LDT.Fh.C140_date_list", "LDT.Fh.C140_text_list_partial", "LDT.Fh.C140_refused", "LDT.Fh.C140_minus", "LDT.Fh.C140_safe_partial"], "note": "Texts have no null characters; addresses are not reused (so that freed memory is visible); of the message of the last error it is represented whether it is empty; the handles of LDT_VariableCombine are not in the histories. partial: no list is disposed of while copies of it are alive, items without the separator. violated: a copy of a list shares its items with the original, so that disposing of one of them makes advancing, printing and disposing of the other undefined behaviour (C140_shared_violated)"},
{"property": "C141", "status": "partial", "theorems": ["LDT.Rs.C141_returns", "LDT.Rs.C141_results", "LDT.Rs.C141_stable", "LDT.Rs.C141_memory", "LDT.Rs.C141_interrupt", "LDT.Rs.C141_cancelled", "LDT.Rs.C141_progress", "LDT.Rs.C141_percentage", "LDT.Rs.C141_silent", "LDT.Rs.C141_prepare", "LDT.Rs.C141_throws_violated", "LDT.Rs.C141_openmp_violated", "LDT.Rs.C141_example"], "note": "Schedules are infinite sequences of steps of two threads in which neither is forgotten; the unsynchronised bool `estimating` is taken as sequentially consistent; a model is one step; the texts of the report are represented by second and number of models. violated: if Start throws, the loop never ends and the error is not reported; this happens to every parallel search in a build without OpenMP (C141_throws_violated, C141_openmp_violated)"},
{"property": "C142", "status": "partial", "theorems": ["LDT.Rs.C142_results", "LDT.Rs.C142_found", "LDT.Rs.C142_refused", "LDT.Rs.C142_table", "LDT.Rs.C142_options", "LDT.Rs.C142_asked", "LDT.Rs.C142_inclusion", "LDT.Rs.C142_mixture", "LDT.Rs.C142_bounds", "LDT.Rs.C142_dcNames", "LDT.Rs.C142_counts", "LDT.Rs.C142_weighted_violated", "LDT.Rs.C142_goal_violated", "LDT.Rs.C142_example", "LDT.Rs.C142_violated_index"], "note": "What the searchers have gathered is given by functions (C21, C22, C118, C119 are about them); the names of the elements of the lists of R and of extra are not represented. violated: weightedEval has no effect in a search for discrete choice models since SearchDc passes isDc = false (C142_weighted_violated); a request is accepted for which nothing is given (C142_goal_violated)"},
{"property": "C143", "status": "partial", "theorems": ["LDT.RStat.C143_accepted", "LDT.RStat.C143_metric_roundtrip", "LDT.RStat.C143_weight_roundtrip", "LDT.RStat.C143_letter_case", "LDT.RStat.C143_same_in_both", "LDT.RStat.C143_monotone", "LDT.RStat.C143_formula_in_sample", "LDT.RStat.C143_formula_out_of_sample_partial", "LDT.RStat.C143_violated_rmspe"], "note": "Texts are ASCII and doubles real numbers. violated: rmspe gets the formula of rmse since its name is never reached (C143_violated_rmspe)"},
{"property": "C144", "status": "partial", "theorems": ["LDT.RStat.C144_variables", "LDT.RStat.C144_linkage_names", "LDT.RStat.C144_linkage_refused", "LDT.RStat.C144_violated_printed_names", "LDT.RStat.C144_distance_words", "LDT.RStat.C144_distance_names", "LDT.RStat.C144_cluster", "LDT.RStat.C144_refused", "LDT.RStat.C144_groups", "LDT.RStat.C144_filtered", "LDT.RStat.C144_negative_threshold"], "note": "Doubles are real numbers: the square root is exact; vectors are at most 2^52 long as in R. The loop of the clustering gets 3(n-1) rounds, which suffice (C68). violated: the printed names of the two average linkages are refused (C144_violated_printed_names)"},
{"property": "C145", "status": "partial", "theorems": ["LDT.RStat.C145_pooled_partial", "LDT.RStat.C145_order_partial", "LDT.RStat.C145_violated_constant"], "note": "partial: both samples must vary (C145_pooled_partial); the list of a constant sample is ignored, with its weight and count (C145_violated_constant). Doubles are real numbers"},
{"property": "C146", "status": "partial", "theorems": ["LDT.RStat.C146_refused", "LDT.RStat.C146_area", "LDT.RStat.C146_observations", "LDT.RStat.C146_calculation", "LDT.RStat.C146_violated_costs", "LDT.RStat.C146_violated_label"], "note": "Whether the arguments are numeric vectors is not modelled. violated: labels between 0 and 1 are accepted as positive (C146_violated_label); too few costs, a small cost matrix and integer costs, whose converted copy ends before it is used, are not refused (C146_violated_costs)"}
]}
