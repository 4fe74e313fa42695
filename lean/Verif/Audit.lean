import Verif.Props.Api
import Verif.Props.ApiFreq
import Verif.Props.Array
import Verif.Props.Average
import Verif.Props.AverageMore
import Verif.Props.BoxCox
import Verif.Props.Calendar
import Verif.Props.ChoiceEstimate
import Verif.Props.ChoiceExtended
import Verif.Props.ChoiceFit
import Verif.Props.ChoiceMore
import Verif.Props.ChoicePrior
import Verif.Props.ChoiceProb
import Verif.Props.ChoiceScores
import Verif.Props.ChoiceSearch
import Verif.Props.ChoiceSearchExample
import Verif.Props.ChoiceSearchLink
import Verif.Props.ChoiceSearchMore
import Verif.Props.ChoiceSet
import Verif.Props.ChoiceSetMore
import Verif.Props.ChoiceSetSearch
import Verif.Props.ChoiceSim
import Verif.Props.Cluster
import Verif.Props.ClusterGroup
import Verif.Props.Convert
import Verif.Props.CorrDistance
import Verif.Props.Correlation
import Verif.Props.Crps
import Verif.Props.DataSplit
import Verif.Props.Dataset
import Verif.Props.DatasetTs
import Verif.Props.Derivative
import Verif.Props.Descriptive
import Verif.Props.DistCdf
import Verif.Props.DistContinuous
import Verif.Props.DistDiscrete
import Verif.Props.DistLog
import Verif.Props.DistMedian
import Verif.Props.DistMode
import Verif.Props.DistQuantile
import Verif.Props.DistSupport
import Verif.Props.Distance
import Verif.Props.Empirical
import Verif.Props.Filter
import Verif.Props.Freq
import Verif.Props.FreqCost
import Verif.Props.Gld
import Verif.Props.GldEx
import Verif.Props.GldFit
import Verif.Props.GldMoments
import Verif.Props.GldShape
import Verif.Props.Gls
import Verif.Props.Histogram
import Verif.Props.Matrix
import Verif.Props.MatrixAlg
import Verif.Props.MatrixCols
import Verif.Props.MatrixCov
import Verif.Props.MatrixElem
import Verif.Props.MatrixExt
import Verif.Props.MatrixFill
import Verif.Props.MatrixMore
import Verif.Props.MatrixOps
import Verif.Props.MatrixProd
import Verif.Props.MatrixStat
import Verif.Props.MatrixStd
import Verif.Props.MatrixTest
import Verif.Props.MatrixVec
import Verif.Props.MatrixVecProd
import Verif.Props.Mixture
import Verif.Props.MixtureSupport
import Verif.Props.Moments
import Verif.Props.NelderMead
import Verif.Props.NelderMead1
import Verif.Props.Newton
import Verif.Props.Ols
import Verif.Props.Pca
import Verif.Props.PcaOptions
import Verif.Props.Poly
import Verif.Props.Quantile
import Verif.Props.RCluster
import Verif.Props.RCombine
import Verif.Props.RResults
import Verif.Props.RRoc
import Verif.Props.RSearch
import Verif.Props.RStat
import Verif.Props.Rank
import Verif.Props.Roc
import Verif.Props.RocPartial
import Verif.Props.Scoring
import Verif.Props.Search
import Verif.Props.SearchOptions
import Verif.Props.SearchReg
import Verif.Props.SearchRegMore
import Verif.Props.Season
import Verif.Props.Sort
import Verif.Props.Spearman
import Verif.Props.SpearmanFacts
import Verif.Props.Standardize
import Verif.Props.Summary
import Verif.Props.Sur
import Verif.Props.SurCond
import Verif.Props.SurExt
import Verif.Props.SurFit
import Verif.Props.SurProj
import Verif.Props.SurR
import Verif.Props.SurSearch
import Verif.Props.SurSearcher
import Verif.Props.SurSearcherLink
import Verif.Props.SurSearcherSim
import Verif.Props.SurSet
import Verif.Props.SurSetSearch
import Verif.Props.SurSim
import Verif.Props.SurSimFit
import Verif.Props.Text
import Verif.Props.Trend
import Verif.Props.Variable
import Verif.Props.Varma
import Verif.Props.VarmaExt
import Verif.Props.VarmaExtEx
import Verif.Props.VarmaExtPca
import Verif.Props.VarmaExtUse
import Verif.Props.VarmaFit
import Verif.Props.VarmaForecast
import Verif.Props.VarmaMean
import Verif.Props.VarmaMl
import Verif.Props.VarmaMlBounds
import Verif.Props.VarmaMlEx
import Verif.Props.VarmaMlLik
import Verif.Props.VarmaRestrict
import Verif.Props.VarmaSearcher
import Verif.Props.VarmaSearcherExt
import Verif.Props.VarmaSearcherViol
import Verif.Props.VarmaSet
import Verif.Props.VarmaSetEx
import Verif.Props.VarmaSetExt
import Verif.Props.VarmaSim
import Verif.Props.VarmaSimExt
import Verif.Props.VarmaSizes
import Verif.Props.VarmaVariance
/-!
# Axiom audit (generated by tools/manifest.py)

Every property theorem must print at most `propext`, `Classical.choice`, `Quot.sound`.
-/
#print axioms LDT.Fq.C01_next_add
#print axioms LDT.Fq.C01_next_zero
#print axioms LDT.Fq.C01_same_observable
#print axioms LDT.Fq.C02_minus_next_partial
#print axioms LDT.Fq.C02_minus_next_self_partial
#print axioms LDT.Fq.C02_violated_single_day_range
#print axioms LDT.Fq.C02_violated_zero_multiple
#print axioms LDT.Fq.C03_compare_next_partial
#print axioms LDT.Fq.C03_compare_antisymm
#print axioms LDT.Fq.C03_compare_trans
#print axioms LDT.Fq.C03_compare_zero_partial
#print axioms LDT.Fq.C03_violated_list
#print axioms LDT.Fq.C04_position_in_range
#print axioms LDT.Fq.C04_year_any_multiple
#print axioms LDT.Fq.C04_violated_parse
#print axioms LDT.Fq.C05_text_round_trip
#print axioms LDT.Fq.C05_norm_of_constructor
#print axioms LDT.Fq.C05_list_round_trip_partial
#print axioms LDT.Fq.C05_date_list_round_trip
#print axioms LDT.Fq.C05_violated_list_separator
#print axioms LDT.Fq.C05_violated_list_general
#print axioms LDT.Fq.C06_forward
#print axioms LDT.Fq.C06_backward
#print axioms LDT.Fq.C06_minus_partial
#print axioms LDT.Fq.C07_isInRange
#print axioms LDT.Fq.C07_isOutsideRange
#print axioms LDT.Fq.C07_length_partial
#print axioms LDT.Fq.C07_violated_length
#print axioms LDT.Fq.C07_distance_forward
#print axioms LDT.Fq.C07_distance_backward_partial
#print axioms LDT.Fq.C07_violated_distance_backward
#print axioms LDT.Fq.C08_list_next_inside
#print axioms LDT.Fq.C08_list_return
#print axioms LDT.Fq.C08_list_compare_partial
#print axioms LDT.Arr.C09_range_tight
#print axioms LDT.Arr.C09_invalid_iff_partial
#print axioms LDT.Arr.C09_missing_flag
#print axioms LDT.Arr.C09_violated_empty
#print axioms LDT.Var.C10_trim
#print axioms LDT.Var.C10_all_missing
#print axioms LDT.Var.C10_empty_undefined
#print axioms LDT.Arr.C11_interpolate
#print axioms LDT.Arr.C12_forward
#print axioms LDT.Arr.C12_fromEnd_partial
#print axioms LDT.Arr.C12_fromEnd_indivisible_partial
#print axioms LDT.Arr.C12_violated_fromEnd
#print axioms LDT.Arr.C12_size_zero
#print axioms LDT.Var.C13_table_partial
#print axioms LDT.Var.C13_empty
#print axioms LDT.Var.C13_mixed_class
#print axioms LDT.Var.C13_violated_off_grid
#print axioms LDT.Var.C13_violated_list
#print axioms LDT.Var.C14_multi_daily_partial
#print axioms LDT.Var.C14_weekly
#print axioms LDT.Var.C14_year_parts_partial
#print axioms LDT.Var.C14_daily_in_week_partial
#print axioms LDT.Var.C14_date_list_partial
#print axioms LDT.Var.C14_violated_from_end
#print axioms LDT.Var.C14_violated_yearly
#print axioms LDT.Var.C14_violated_many_parts
#print axioms LDT.Var.C14_violated_monthly
#print axioms LDT.Var.C14_violated_mid_week
#print axioms LDT.Var.C14_violated_single_day
#print axioms LDT.Var.C14_violated_list_start
#print axioms LDT.Arr.C15_running_sums
#print axioms LDT.Arr.C15_mean_variance
#print axioms LDT.Arr.C15_noskip_poison
#print axioms LDT.Arr.C15_violated_zero_weight_first
#print axioms LDT.Arr.C15_skewness_kurtosis
#print axioms LDT.Arr.C16_merge
#print axioms LDT.Arr.C16_order
#print axioms LDT.Arr.C16_any_division
#print axioms LDT.Arr.C16_empty_neutral
#print axioms LDT.Arr.C16_merge_statistics_partial
#print axioms LDT.Arr.C16_violated_constant_sample
#print axioms LDT.Srch.C17_enumerates
#print axioms LDT.Srch.C17_enumerates_targets
#print axioms LDT.Srch.C18_announced_partial
#print axioms LDT.Srch.C18_effective_partial
#print axioms LDT.Srch.C18_announced_sim_partial
#print axioms LDT.Srch.C18_announced_targets_partial
#print axioms LDT.Srch.C18_violated_empty_partition
#print axioms LDT.Srch.C19_enumerates_fixed
#print axioms LDT.Srch.C20_top_k
#print axioms LDT.Srch.C20_order_independent
#print axioms LDT.Srch.C20_ties_keep_first
#print axioms LDT.Srch.C20_zero
#print axioms LDT.Srch.C20_all_models
#print axioms LDT.Score.C21_combine_gof
#print axioms LDT.Score.C21_combine_sco
#print axioms LDT.Srch.C21_combine_partial
#print axioms LDT.Srch.C21_distribution_independent_partial
#print axioms LDT.Srch.C21_violated_weight
#print axioms LDT.Srch.C22_bounds_partial
#print axioms LDT.Srch.C22_violated_negative
#print axioms LDT.Srch.C22_combined_partial
#print axioms LDT.Srch.C23_failures_accounted
#print axioms LDT.Srch.C23_reports_are_answers
#print axioms LDT.Srch.C23_combined
#print axioms LDT.Srch.C24_cancel
#print axioms LDT.Score.C25_gof_monotone
#print axioms LDT.Score.C25_sco_monotone
#print axioms LDT.Score.C25_gof_roundtrip
#print axioms LDT.Score.C25_sco_roundtrip
#print axioms LDT.Score.C25_gof_orientation
#print axioms LDT.Score.C25_sco_orientation
#print axioms LDT.Score.C25_gof_weight_roundtrip
#print axioms LDT.Score.C25_sco_weight_roundtrip
#print axioms LDT.Score.C26_gof_names
#print axioms LDT.Score.C26_sco_names_partial
#print axioms LDT.Score.C26_violated_rmspe
#print axioms LDT.Score.C26_violated_rmspe_unreachable
#print axioms LDT.Score.C26_names_rejected
#print axioms LDT.Score.C26_names_injective
#print axioms LDT.Roc.C27_auc_is_rank_probability
#print axioms LDT.Roc.C27_one_class
#print axioms LDT.Roc.C27_auc_with_costs
#print axioms LDT.Roc.C28_order_independent
#print axioms LDT.Roc.C28_monotone_rescaling
#print axioms LDT.Roc.C28_reversed
#print axioms LDT.Roc.C28_range
#print axioms LDT.FCost.C29_charges_partial
#print axioms LDT.FCost.C29_average_range_partial
#print axioms LDT.FCost.C29_check
#print axioms LDT.FCost.C29_violated_outside
#print axioms LDT.FCost.C29_violated_other_class
#print axioms LDT.Split.C30_split_is_partition
#print axioms LDT.Split.C30_train_size
#print axioms LDT.Split.C31_stratified_split_partial
#print axioms LDT.Split.C31_class_sizes
#print axioms LDT.Split.C31_stratum_size
#print axioms LDT.Split.C31_prepared_iff
#print axioms LDT.Split.C31_violated_overflow
#print axioms LDT.Split.C31_violated_fixed_size
#print axioms LDT.Arr.C32_sort_partial
#print axioms LDT.Arr.C32_violated_nan
#print axioms LDT.Mx.C33_rejects
#print axioms LDT.Mx.C33_null
#print axioms LDT.Mx.C33_set_get
#print axioms LDT.Mx.C33_safe
#print axioms LDT.Mx.C33_linear
#print axioms LDT.Mx.C33_violated_last
#print axioms LDT.Mx.C33_set_linear
#print axioms LDT.Mx.C33_restructure
#print axioms LDT.Mx.C34_in_range
#print axioms LDT.Mx.C34_injective
#print axioms LDT.Mx.C34_surjective
#print axioms LDT.Mx.C34_set_get
#print axioms LDT.Mx.C35_set_sub
#print axioms LDT.Mx.C35_set_sub_rejects
#print axioms LDT.Mx.C35_set_sub_t
#print axioms LDT.Mx.C35_get_sub_partial
#print axioms LDT.Mx.C35_violated_get_sub
#print axioms LDT.Mx.C35_violated_get_sub_overlap
#print axioms LDT.Mx.C35_violated_negative_start
#print axioms LDT.Mx.C35_get_sub_indexes
#print axioms LDT.Mx.C35_get_sub_range
#print axioms LDT.Mx.C36_rows
#print axioms LDT.Mx.C36_dataset_missing
#print axioms LDT.Mx.C36_dataset_all
#print axioms LDT.Mx.C36_selection_required
#print axioms LDT.Arr.C37_formula
#print axioms LDT.Arr.C37_inverse_after
#print axioms LDT.Arr.C37_after_inverse
#print axioms LDT.Arr.C37_array_round_trip
#print axioms LDT.Arr.C37_strict_mono
#print axioms LDT.Arr.C37_needs_positive
#print axioms LDT.Text.C38_split_join
#print axioms LDT.Text.C38_join_split
#print axioms LDT.Text.C38_split_many
#print axioms LDT.Cal.C39_dayNumber_injective
#print axioms LDT.Cal.C39_date_of_dayNumber
#print axioms LDT.Cal.C39_parse_print
#print axioms LDT.Cal.C39_parse_accepts
#print axioms LDT.Cal.C39_iso_round_trip
#print axioms LDT.Cal.C39_iso_valid
#print axioms LDT.Cal.C39_iso_injective
#print axioms LDT.Cal.C39_weekday_step
#print axioms LDT.Cal.C39_weekday_ymd
#print axioms LDT.Arr.C40_min
#print axioms LDT.Arr.C40_max
#print axioms LDT.Arr.C40_no_observation
#print axioms LDT.Arr.C40_first_last
#print axioms LDT.Arr.C40_mean_variance_partial
#print axioms LDT.Arr.C40_violated_mean_empty
#print axioms LDT.Roc.C41_below_ordinary_partial
#print axioms LDT.Roc.C41_violated_perfect
#print axioms LDT.Roc.C41_violated_last_group
#print axioms LDT.Roc.C42_area_between
#print axioms LDT.Roc.C42_additive
#print axioms LDT.Roc.C42_full_range
#print axioms LDT.Roc.C42_range
#print axioms LDT.Roc.C42_rejects
#print axioms LDT.Mx.C43_remove_nan_vector
#print axioms LDT.Mx.C43_remove_columns
#print axioms LDT.Mx.C43_remove_columns_nan
#print axioms LDT.Mx.C44_get_row
#print axioms LDT.Mx.C44_get_column
#print axioms LDT.Mx.C44_sort_columns_partial
#print axioms LDT.Mx.C44_set_row_from_row
#print axioms LDT.Mx.C44_set_column_from_column_partial
#print axioms LDT.Mx.C44_violated_set_column_taller
#print axioms LDT.Mx.C44_violated_set_column_from_row
#print axioms LDT.Mx.C44_sort_rows_partial
#print axioms LDT.Mx.C44_violated_sort_empty
#print axioms LDT.Mx.C45_ranges
#print axioms LDT.Mx.C45_window_partial
#print axioms LDT.Mx.C45_violated_disjoint
#print axioms LDT.Mx.C45_violated_gap
#print axioms LDT.Poly.C46_multiply
#print axioms LDT.Poly.C46_multiply_exact
#print axioms LDT.Poly.C46_multiply_throws
#print axioms LDT.Poly.C46_trim
#print axioms LDT.Poly.C47_power
#print axioms LDT.Poly.C47_power_exact
#print axioms LDT.Poly.C47_power_throws
#print axioms LDT.Poly.C47_power_violated_overflow
#print axioms LDT.Poly.C48_diffPoly
#print axioms LDT.Poly.C48_diffPoly_annihilates
#print axioms LDT.Poly.C49_invert
#print axioms LDT.Poly.C49_invert_unique
#print axioms LDT.Poly.C49_invert_throws
#print axioms LDT.Varma.C50_ar
#print axioms LDT.Varma.C50_ma
#print axioms LDT.Varma.C50_maInf
#print axioms LDT.Varma.C50_maInf_violated_overflow
#print axioms LDT.Varma.C51_lags_mem
#print axioms LDT.Varma.C51_lags_sorted
#print axioms LDT.Varma.C51_lags_violated_duplicate
#print axioms LDT.Varma.C51_max_violated
#print axioms LDT.Varma.C51_sizes
#print axioms LDT.Varma.C52_difference
#print axioms LDT.Varma.C52_undifference
#print axioms LDT.Varma.C52_roundtrip
#print axioms LDT.Varma.C53_variance
#print axioms LDT.Varma.C53_variance_monotone
#print axioms LDT.Varma.C54_general
#print axioms LDT.Varma.C54_general_violated_overrun
#print axioms LDT.Varma.C54_general_count
#print axioms LDT.Varma.C54_general_violated_duplicates
#print axioms LDT.Varma.C54_final
#print axioms LDT.Varma.C55_sample
#print axioms LDT.Varma.C55_sample_violated_lag
#print axioms LDT.Varma.C56_residuals
#print axioms LDT.Varma.C56_residuals_violated_order
#print axioms LDT.Varma.C57_forecast
#print axioms LDT.Varma.C57_forecast_violated_short
#print axioms LDT.Mx.C58_transpose_to
#print axioms LDT.Mx.C58_transpose_in
#print axioms LDT.Mx.C58_transpose_twice
#print axioms LDT.Mx.C58_transpose_in_empty
#print axioms LDT.Mx.C59_kron
#print axioms LDT.Mx.C59_kron_iden
#print axioms LDT.Mx.C59_iden_kron
#print axioms LDT.Mx.C59_tr_kron_iden
#print axioms LDT.Mx.C60_dot
#print axioms LDT.Mx.C60_dotTr
#print axioms LDT.Mx.C60_trDot
#print axioms LDT.Mx.C60_trDotTr
#print axioms LDT.Mx.C61_dotAAt
#print axioms LDT.Mx.C61_dotAtA
#print axioms LDT.Mx.C61_symDot
#print axioms LDT.Mx.C61_dotSym_partial
#print axioms LDT.Mx.C61_violated_dotSym_flag
#print axioms LDT.Mx.C61_diagDot
#print axioms LDT.Mx.C61_dotDiag_partial
#print axioms LDT.Mx.C61_violated_dotDiag_wide
#print axioms LDT.Mx.C61_violated_dotDiag_tall
#print axioms LDT.Mx.C62_number
#print axioms LDT.Mx.C62_scale
#print axioms LDT.Mx.C62_matrices
#print axioms LDT.Mx.C62_hadamard
#print axioms LDT.Mx.C62_number_in
#print axioms LDT.Mx.C62_matrices_in
#print axioms LDT.Mx.C62_add_subtract
#print axioms LDT.Mx.C62_apply
#print axioms LDT.Mx.C62_apply_pairs
#print axioms LDT.Mx.C62_apply_row_column
#print axioms LDT.Mx.C63_value
#print axioms LDT.Mx.C63_sequence
#print axioms LDT.Mx.C63_diag
#print axioms LDT.Mx.C63_diag_off
#print axioms LDT.Mx.C63_off_diag
#print axioms LDT.Mx.C63_get_diag
#print axioms LDT.Mx.C63_triangular
#print axioms LDT.Mx.C64_symmetric
#print axioms LDT.Mx.C64_diagonal
#print axioms LDT.Mx.C64_equals
#print axioms LDT.Mx.C64_equals_value
#print axioms LDT.Mx.C64_any_all
#print axioms LDT.Mx.C64_indices
#print axioms LDT.Mx.C64_sort_by_vector
#print axioms LDT.Mx.C65_covariance_partial
#print axioms LDT.Mx.C65_covariance_small
#print axioms LDT.Mx.C65_violated_covariance_nothing
#print axioms LDT.Mx.C65_covariance_self
#print axioms LDT.Mx.C65_correlation_partial
#print axioms LDT.Mx.C65_correlation_bounds
#print axioms LDT.Mx.C65_correlation_self
#print axioms LDT.Mx.C65_violated_correlation_variance
#print axioms LDT.Mx.C65_violated_correlation_nothing
#print axioms LDT.Mx.C65_correlation_range
#print axioms LDT.Mx.C65_mean
#print axioms LDT.Mx.C65_mean_checked_partial
#print axioms LDT.Mx.C65_violated_mean_position
#print axioms LDT.Mx.C65_violated_mean_nothing
#print axioms LDT.Mx.C65_variance_partial
#print axioms LDT.Mx.C65_violated_variance_nothing
#print axioms LDT.Mx.C65_variance_column_partial
#print axioms LDT.Mx.C66_sum
#print axioms LDT.Mx.C66_trace
#print axioms LDT.Mx.C66_rows_sum
#print axioms LDT.Mx.C66_columns_sum
#print axioms LDT.Mx.C66_columns_mean
#print axioms LDT.Mx.C66_covariance_matrix
#print axioms LDT.Mx.C66_columns_means
#print axioms LDT.Mx.C66_columns_variances
#print axioms LDT.Mx.C66_standardize
#print axioms LDT.Mx.C66_standardized
#print axioms LDT.Mx.C67_extremes
#print axioms LDT.Mx.C67_positions
#print axioms LDT.Mx.C67_rows_columns
#print axioms LDT.Mx.C67_violated_no_rows
#print axioms LDT.Cl.C68_dendrogram
#print axioms LDT.Cl.C68_nan_refused
#print axioms LDT.Cl.C68_length_refused
#print axioms LDT.Cl.C68_no_points
#print axioms LDT.Cl.C69_heights
#print axioms LDT.Cl.C69_monotone
#print axioms LDT.Cl.C69_cut_partition
#print axioms LDT.Cl.C69_greedy
#print axioms LDT.Cl.C69_value_unique
#print axioms LDT.Cl.C69_inertia
#print axioms LDT.Cl.C70_groups
#print axioms LDT.Cl.C70_groups_of_dendrogram
#print axioms LDT.Cl.C70_more_groups_than_points
#print axioms LDT.Cl.C70_disjoint
#print axioms LDT.Cl.C71_mergeR
#print axioms LDT.Cl.C71_one_point
#print axioms LDT.Cl.C72_groups
#print axioms LDT.Cl.C72_filter_partial
#print axioms LDT.Cl.C72_first_stays
#print axioms LDT.Cl.C72_violated_removed
#print axioms LDT.Cl.C72_violated_distances
#print axioms LDT.Ds.C73_checked
#print axioms LDT.Ds.C73_unchecked
#print axioms LDT.Ds.C73_refuses
#print axioms LDT.Ds.C73_violated_fewer_columns
#print axioms LDT.Ds.C73_metric
#print axioms LDT.Co.C74_refused
#print axioms LDT.Co.C74_calculate_full
#print axioms LDT.Co.C74_calculate_checked
#print axioms LDT.Co.C74_semidefinite
#print axioms LDT.Co.C74_covariance_full
#print axioms LDT.Co.C74_correlation_full
#print axioms LDT.Co.C74_covariance_checked
#print axioms LDT.Co.C74_correlation_checked_partial
#print axioms LDT.Co.C74_violated_counts
#print axioms LDT.Co.C74_bounds
#print axioms LDT.Co.C74_agree
#print axioms LDT.Co.C75_unchecked
#print axioms LDT.Co.C75_checked
#print axioms LDT.Co.C75_metric
#print axioms LDT.Co.C75_zero
#print axioms LDT.Rk.C76_sort
#print axioms LDT.Rk.C76_refused
#print axioms LDT.Rk.C76_undefined_missing
#print axioms LDT.Rk.C77_ranks
#print axioms LDT.Rk.C77_refused
#print axioms LDT.Rk.C77_order
#print axioms LDT.Rk.C77_permutation
#print axioms LDT.Rk.C77_monotone
#print axioms LDT.Rk.C77_antitone
#print axioms LDT.Co.C78_covariance_full
#print axioms LDT.Co.C78_correlation_full
#print axioms LDT.Co.C78_correlation_checked
#print axioms LDT.Co.C78_covariance_checked
#print axioms LDT.Co.C78_refused
#print axioms LDT.Co.C78_formula
#print axioms LDT.Co.C78_monotone
#print axioms LDT.Co.C78_bounds
#print axioms LDT.Co.C78_same_order
#print axioms LDT.Co.C78_negate_partial
#print axioms LDT.Co.C78_violated_ties
#print axioms LDT.De.C79_extremes
#print axioms LDT.De.C79_extremes_none
#print axioms LDT.De.C79_extremes_sorted
#print axioms LDT.De.C79_sum
#print axioms LDT.De.C79_squares
#print axioms LDT.De.C79_mean_partial
#print axioms LDT.De.C79_violated_sample
#print axioms LDT.De.C79_violated_differs
#print axioms LDT.De.C79_moments_population
#print axioms LDT.De.C79_moments_sample
#print axioms LDT.De.C79_moments_few
#print axioms LDT.De.C79_moments_constant
#print axioms LDT.De.C79_moments_nan
#print axioms LDT.De.C80_value
#print axioms LDT.De.C80_bounds
#print axioms LDT.De.C80_monotone
#print axioms LDT.De.C80_ends
#print axioms LDT.De.C80_order_statistic
#print axioms LDT.De.C80_median
#print axioms LDT.De.C80_affine
#print axioms LDT.De.C80_symmetric
#print axioms LDT.De.C80_violated_empty
#print axioms LDT.De.C81_recursive
#print axioms LDT.De.C81_recursive_refused
#print axioms LDT.De.C81_recursive_unique
#print axioms LDT.De.C81_recursive_linear
#print axioms LDT.De.C81_average_partial
#print axioms LDT.De.C81_average_refused
#print axioms LDT.De.C81_violated_no_coefficient
#print axioms LDT.De.C81_average_ends
#print axioms LDT.De.C81_average_constant
#print axioms LDT.De.C81_inverse
#print axioms LDT.De.C81_average_bounds
#print axioms LDT.De.C82_periodic
#print axioms LDT.De.C82_additive
#print axioms LDT.De.C82_multiplicative
#print axioms LDT.De.C82_unobserved
#print axioms LDT.De.C82_refused
#print axioms LDT.De.C83_least_squares
#print axioms LDT.De.C83_exact_line
#print axioms LDT.De.C83_refused
#print axioms LDT.De.C83_affine
#print axioms LDT.De.C83_inverse
#print axioms LDT.Ls.C84_estimate
#print axioms LDT.Ls.C84_residuals
#print axioms LDT.Ls.C84_singular
#print axioms LDT.Ls.C84_refused
#print axioms LDT.Ls.C84_equivariant
#print axioms LDT.Ls.C84_basis
#print axioms LDT.Ls.C84_violated_variance
#print axioms LDT.Ls.C84_announced
#print axioms LDT.Ls.C84_violated_smaller
#print axioms LDT.Ls.C84_violated_larger
#print axioms LDT.Ls.C85_estimate
#print axioms LDT.Ls.C85_residuals
#print axioms LDT.Ls.C85_scalar
#print axioms LDT.Ls.C85_refused
#print axioms LDT.Ls.C85_singular
#print axioms LDT.Ls.C85_announced
#print axioms LDT.Ls.C85_violated_smaller
#print axioms LDT.Ls.C85_violated_omega
#print axioms LDT.Hi.C86_total
#print axioms LDT.Hi.C86_bins_partial
#print axioms LDT.Hi.C86_equal_partial
#print axioms LDT.Hi.C86_step_partial
#print axioms LDT.Hi.C86_inside
#print axioms LDT.Hi.C86_refused
#print axioms LDT.Hi.C86_violated_single
#print axioms LDT.Hi.C86_given
#print axioms LDT.Hi.C86_empty_range
#print axioms LDT.Hi.C86_automatic
#print axioms LDT.Hi.C86_step_size
#print axioms LDT.Hi.C86_bin_count
#print axioms LDT.Hi.C86_violated_negative
#print axioms LDT.Hi.C86_violated_inner_break
#print axioms LDT.Hi.C86_violated_last_break
#print axioms LDT.Hi.C87_remove
#print axioms LDT.Hi.C87_histogram
#print axioms LDT.Su.C88_estimate
#print axioms LDT.Su.C88_refused
#print axioms LDT.Su.C88_sizes
#print axioms LDT.Su.C88_announced
#print axioms LDT.Su.C88_rows
#print axioms LDT.Su.C89_estimate_partial
#print axioms LDT.Su.C89_identity
#print axioms LDT.Su.C89_refused
#print axioms LDT.Su.C89_estimate_violated
#print axioms LDT.Su.C90_search_partial
#print axioms LDT.Su.C90_refused
#print axioms LDT.Su.C90_details_violated
#print axioms LDT.Mx.C91_set_row_partial
#print axioms LDT.Mx.C91_set_row_violated
#print axioms LDT.Mx.C91_set_column_partial
#print axioms LDT.Mx.C91_set_column_violated
#print axioms LDT.Mx.C91_row_from_diag
#print axioms LDT.Mx.C91_column_from_diag
#print axioms LDT.Mx.C91_sub_row_partial
#print axioms LDT.Mx.C91_sub_row_violated
#print axioms LDT.Mx.C91_sub_vector_partial
#print axioms LDT.Mx.C91_sub_vector_violated
#print axioms LDT.Mx.C91_get_sub_vector_partial
#print axioms LDT.Mx.C91_get_sub_vector_violated
#print axioms LDT.Mx.C91_remove_nan
#print axioms LDT.Mx.C92_dot_vector
#print axioms LDT.Mx.C92_t_dot_vector
#print axioms LDT.Mx.C92_vector_dot_vector
#print axioms LDT.Mx.C92_dot_AtA_nan
#print axioms LDT.Mx.C92_sort_indices_partial
#print axioms LDT.Mx.C92_sort_indices_violated
#print axioms LDT.Su.C93_projection
#print axioms LDT.Su.C93_projection_restricted
#print axioms LDT.Su.C93_refused
#print axioms LDT.Su.C93_refused_sizes
#print axioms LDT.Su.C93_after_estimate
#print axioms LDT.Su.C94_r2
#print axioms LDT.Su.C94_r2_nested
#print axioms LDT.Su.C94_r2_restricted
#print axioms LDT.Su.C94_r2_constant
#print axioms LDT.Su.C94_f_degrees_violated
#print axioms LDT.Op.C95_found
#print axioms LDT.Op.C95_longer
#print axioms LDT.Op.C95_failing_violated
#print axioms LDT.Op.C95_unbounded_violated
#print axioms LDT.Op.C95_refused
#print axioms LDT.Op.C95_empty_violated
#print axioms LDT.Op.C95_penalty
#print axioms LDT.Op.C96_found
#print axioms LDT.Op.C96_inside
#print axioms LDT.Op.C96_flat_violated
#print axioms LDT.Op.C96_bounds_violated
#print axioms LDT.Op.C97_path
#print axioms LDT.Op.C97_descent
#print axioms LDT.Op.C97_refused
#print axioms LDT.Op.C97_quadratic
#print axioms LDT.Op.C97_plain_violated
#print axioms LDT.Op.C97_hessian_violated
#print axioms LDT.Dv.C98_first_table
#print axioms LDT.Dv.C98_first_partial
#print axioms LDT.Dv.C98_first_quadratic
#print axioms LDT.Dv.C98_second_table
#print axioms LDT.Dv.C98_second_partial
#print axioms LDT.Dv.C98_second_cubic
#print axioms LDT.Dv.C98_local
#print axioms LDT.Dv.C98_refused
#print axioms LDT.Dv.C98_smaller_violated
#print axioms LDT.Dv.C98_space
#print axioms LDT.Dv.C98_exact_violated
#print axioms LDT.Di.C99_poisson
#print axioms LDT.Di.C99_geometric
#print axioms LDT.Di.C99_bernoulli
#print axioms LDT.Di.C99_binomial
#print axioms LDT.Di.C99_uniform
#print axioms LDT.Di.C99_parameters_violated
#print axioms LDT.Di.C99_between_violated
#print axioms LDT.Di.C99_property_violated
#print axioms LDT.Di.C99_property
#print axioms LDT.Di.C100_normal
#print axioms LDT.Di.C100_lognormal_partial
#print axioms LDT.Di.C100_lognormal_violated
#print axioms LDT.Di.C100_uniform
#print axioms LDT.Di.C100_gamma
#print axioms LDT.Di.C100_chi2
#print axioms LDT.Di.C100_exponential
#print axioms LDT.Di.C100_beta
#print axioms LDT.Di.C100_t
#print axioms LDT.Di.C100_t_none
#print axioms LDT.Di.C100_f
#print axioms LDT.Di.C100_f_none
#print axioms LDT.Di.C100_degenerate_violated
#print axioms LDT.Di.C101_normal
#print axioms LDT.Di.C101_lognormal
#print axioms LDT.Di.C101_t
#print axioms LDT.Di.C101_chi2
#print axioms LDT.Di.C101_gamma
#print axioms LDT.Di.C101_f
#print axioms LDT.Di.C101_exponential
#print axioms LDT.Di.C101_uniform
#print axioms LDT.Di.C101_beta
#print axioms LDT.Di.C101_poisson
#print axioms LDT.Di.C101_geometric
#print axioms LDT.Di.C101_binomial_partial
#print axioms LDT.Di.C101_bernoulli_partial
#print axioms LDT.Di.C101_uniform_discrete
#print axioms LDT.Di.C101_bernoulli_violated
#print axioms LDT.Di.C101_binomial_violated
#print axioms LDT.Di.C101_between_violated
#print axioms LDT.Di.C101_degenerate_violated
#print axioms LDT.Di.C102_ends
#print axioms LDT.Di.C102_normal
#print axioms LDT.Di.C102_lognormal
#print axioms LDT.Di.C102_chi2
#print axioms LDT.Di.C102_gamma
#print axioms LDT.Di.C102_f
#print axioms LDT.Di.C102_beta
#print axioms LDT.Di.C102_exponential
#print axioms LDT.Di.C102_uniform
#print axioms LDT.Di.C102_t
#print axioms LDT.Di.C102_poisson_partial
#print axioms LDT.Di.C102_geometric_partial
#print axioms LDT.Di.C102_binomial_partial
#print axioms LDT.Di.C102_bernoulli_violated
#print axioms LDT.Di.C102_bernoulli_median_violated
#print axioms LDT.Di.C102_binomial_violated
#print axioms LDT.Di.C102_geometric_violated
#print axioms LDT.Di.C102_uniform_discrete_violated
#print axioms LDT.Di.C103_normal
#print axioms LDT.Di.C103_lognormal
#print axioms LDT.Di.C103_t
#print axioms LDT.Di.C103_gamma
#print axioms LDT.Di.C103_chi2
#print axioms LDT.Di.C103_exponential_partial
#print axioms LDT.Di.C103_beta
#print axioms LDT.Di.C103_uniform_f
#print axioms LDT.Di.C103_uniform_discrete
#print axioms LDT.Di.C103_poisson
#print axioms LDT.Di.C103_geometric
#print axioms LDT.Di.C103_bernoulli
#print axioms LDT.Di.C103_binomial
#print axioms LDT.Di.C103_exponential_violated
#print axioms LDT.Di.C103_zero_violated
#print axioms LDT.Di.C104_size_uniform
#print axioms LDT.Di.C104_size_binomial
#print axioms LDT.Di.C104_size_unbounded
#print axioms LDT.Di.C104_points
#print axioms LDT.Di.C104_complete
#print axioms LDT.Di.C104_plot
#print axioms LDT.Di.C104_refused
#print axioms LDT.Di.C104_window_violated
#print axioms LDT.Di.C105_normal
#print axioms LDT.Di.C105_lognormal
#print axioms LDT.Di.C105_t
#print axioms LDT.Di.C105_uniform
#print axioms LDT.Di.C105_exponential
#print axioms LDT.Di.C105_none
#print axioms LDT.Di.C105_bernoulli
#print axioms LDT.Di.C105_geometric
#print axioms LDT.Di.C105_uniform_discrete
#print axioms LDT.Di.C105_chi2_violated
#print axioms LDT.Di.C105_poisson_violated
#print axioms LDT.Di.C105_geometric_violated
#print axioms LDT.Di.C105_binomial_violated
#print axioms LDT.Di.C106_normal
#print axioms LDT.Di.C106_lognormal
#print axioms LDT.Di.C106_t
#print axioms LDT.Di.C106_uniform
#print axioms LDT.Di.C106_exponential
#print axioms LDT.Di.C106_gamma
#print axioms LDT.Di.C106_chi2
#print axioms LDT.Di.C106_f
#print axioms LDT.Di.C106_beta_partial
#print axioms LDT.Di.C106_poisson
#print axioms LDT.Di.C106_geometric
#print axioms LDT.Di.C106_bernoulli
#print axioms LDT.Di.C106_binomial_partial
#print axioms LDT.Di.C106_none
#print axioms LDT.Di.C106_beta_violated
#print axioms LDT.Di.C106_binomial_violated
#print axioms LDT.Di.C107_accepted
#print axioms LDT.Di.C107_both
#print axioms LDT.Di.C107_density
#print axioms LDT.Di.C107_mass
#print axioms LDT.Di.C107_cdf
#print axioms LDT.Di.C107_cdf_mass
#print axioms LDT.Di.C107_cdf_average
#print axioms LDT.Di.C107_minimum
#print axioms LDT.Di.C107_maximum
#print axioms LDT.Di.C107_log
#print axioms LDT.Di.C108_continuous
#print axioms LDT.Di.C108_continuous_two
#print axioms LDT.Di.C108_discrete
#print axioms LDT.Di.C108_normal
#print axioms LDT.Di.C108_missing_violated
#print axioms LDT.Di.C108_degenerate_violated
#print axioms LDT.Di.C109_size
#print axioms LDT.Di.C109_points
#print axioms LDT.Di.C109_plot
#print axioms LDT.Di.C109_refused
#print axioms LDT.Di.C109_complete
#print axioms LDT.Di.C109_negative_violated
#print axioms LDT.Di.C109_choice
#print axioms LDT.Em.C110_cdf
#print axioms LDT.Em.C110_quantile
#print axioms LDT.Em.C110_quantile_tails
#print axioms LDT.Em.C110_inverse
#print axioms LDT.Em.C110_quantile_rises
#print axioms LDT.Em.C110_tails_violated
#print axioms LDT.Em.C110_nan_violated
#print axioms LDT.Em.C110_combine_single
#print axioms LDT.Em.C110_combine
#print axioms LDT.Dc.C111_ordered
#print axioms LDT.Dc.C111_binary
#print axioms LDT.Dc.C111_cumulative
#print axioms LDT.Dc.C111_positive
#print axioms LDT.Dc.C111_fitted
#print axioms LDT.Dc.C111_shift
#print axioms LDT.Dc.C111_latent
#print axioms LDT.Dc.C112_likelihood
#print axioms LDT.Dc.C112_gradient
#print axioms LDT.Dc.C112_hessian
#print axioms LDT.Dc.C112_definite
#print axioms LDT.Dc.C112_maximum
#print axioms LDT.Dc.C112_repeated
#print axioms LDT.Dc.C113_likelihood
#print axioms LDT.Dc.C113_unordered
#print axioms LDT.Dc.C113_gradient
#print axioms LDT.Dc.C113_hessian
#print axioms LDT.Dc.C113_definite
#print axioms LDT.Dc.C113_maximum
#print axioms LDT.Dc.C113_repeated
#print axioms LDT.Dc.C114_binary_refused
#print axioms LDT.Dc.C114_binary_counts
#print axioms LDT.Dc.C114_binary_likelihood
#print axioms LDT.Dc.C114_binary_maximum
#print axioms LDT.Dc.C114_binary_variance
#print axioms LDT.Dc.C114_ordered_outside_violated
#print axioms LDT.Dc.C114_ordered_refused
#print axioms LDT.Dc.C114_ordered_counts
#print axioms LDT.Dc.C114_ordered_cutoffs
#print axioms LDT.Dc.C114_ordered_likelihood
#print axioms LDT.Dc.C114_ordered_maximum
#print axioms LDT.Dc.C114_ordered_variance
#print axioms LDT.Dc.C114_memory
#print axioms LDT.Dc.C114_refused
#print axioms LDT.Dc.C114_accepted
#print axioms LDT.Dc.C114_stays
#print axioms LDT.Dc.C114_binary_outside_violated
#print axioms LDT.Dc.C114_repeated
#print axioms LDT.Dc.C115_binary
#print axioms LDT.Dc.C115_binary_refused
#print axioms LDT.Dc.C115_ordered
#print axioms LDT.Dc.C115_increasing
#print axioms LDT.Dc.C115_start_violated
#print axioms LDT.Dc.C116_sample
#print axioms LDT.Dc.C116_forecast
#print axioms LDT.Dc.C116_scores
#print axioms LDT.Dc.C116_brier_range
#print axioms LDT.Dc.C116_auc
#print axioms LDT.Dc.C116_cost
#print axioms LDT.Dc.C116_sizes
#print axioms LDT.Dc.C116_memory
#print axioms LDT.Dc.C116_ordered
#print axioms LDT.Dc.C116_forecast_violated
#print axioms LDT.Dc.C116_reuse_violated
#print axioms LDT.Dc.C116_brier_violated
#print axioms LDT.Dc.C117_valid
#print axioms LDT.Dc.C117_fails
#print axioms LDT.Dc.C117_costs
#print axioms LDT.Dc.C117_auc
#print axioms LDT.Dc.C117_table
#print axioms LDT.Dc.C117_brier_violated
#print axioms LDT.Dc.C117_ordered
#print axioms LDT.Dc.C117_out_of_sample
#print axioms LDT.Dc.C117_memory
#print axioms LDT.Dc.C117_memory_violated
#print axioms LDT.Srch.C118_mixture
#print axioms LDT.Srch.C118_mixture_division
#print axioms LDT.Srch.C118_probability
#print axioms LDT.Srch.C118_inclusion
#print axioms LDT.Srch.C118_lists
#print axioms LDT.Srch.C118_bounds
#print axioms LDT.Srch.C118_accepts
#print axioms LDT.Srch.C118_no_summary
#print axioms LDT.Srch.C118_violated_zero_weight_first
#print axioms LDT.Srch.C118_zero_weights
#print axioms LDT.Srch.C118_negative_weights
#print axioms LDT.Srch.C118_violated_negative_weight
#print axioms LDT.Srch.C118_total
#print axioms LDT.Srch.C118_example
#print axioms LDT.Srch.C119_estimator_input
#print axioms LDT.Srch.C119_models_kept
#print axioms LDT.Srch.C119_coefficients_kept
#print axioms LDT.Srch.C119_outcome
#print axioms LDT.Srch.C119_counted
#print axioms LDT.Srch.C119_mixture
#print axioms LDT.Srch.C119_probability
#print axioms LDT.Srch.C119_inclusion
#print axioms LDT.Srch.C119_search
#print axioms LDT.Srch.C119_no_target
#print axioms LDT.Srch.C119_example
#print axioms LDT.SOpt.C120_refused
#print axioms LDT.SOpt.C120_updated
#print axioms LDT.SOpt.C120_orientation
#print axioms LDT.SOpt.C120_positions_partial
#print axioms LDT.SOpt.C120_position_unique
#print axioms LDT.SOpt.C120_again
#print axioms LDT.SOpt.C120_violated_other_metrics
#print axioms LDT.SOpt.C120_items
#print axioms LDT.SOpt.C120_checks_refused
#print axioms LDT.SOpt.C120_checks
#print axioms LDT.SOpt.C120_condition_partial
#print axioms LDT.SOpt.C120_violated_condition
#print axioms LDT.SOpt.C120_example
#print axioms LDT.Dc.C121_estimated
#print axioms LDT.Dc.C121_violated_first
#print axioms LDT.Dc.C121_scores_partial
#print axioms LDT.Dc.C121_search_models
#print axioms LDT.Dc.C121_search_coefficients
#print axioms LDT.Dc.C121_violated_missing
#print axioms LDT.Dc.C121_refused
#print axioms LDT.Dc.C121_violated_dof
#print axioms LDT.Dc.C121_cancelled
#print axioms LDT.Dc.C121_simulation
#print axioms LDT.Dc.C121_violated_missing_rows
#print axioms LDT.Dc.C121_violated_ordered
#print axioms LDT.Dc.C121_violated_minimum
#print axioms LDT.Dc.C121_violated_condition
#print axioms LDT.Dc.C121_sizes
#print axioms LDT.Dc.C122_accepted
#print axioms LDT.Dc.C122_violated_no_number
#print axioms LDT.Dc.C122_searchers
#print axioms LDT.Dc.C122_memory
#print axioms LDT.Dc.C122_search
#print axioms LDT.Dc.C122_start
#print axioms LDT.Dc.C122_shuffled
#print axioms LDT.Dc.C122_counts_partial
#print axioms LDT.Dc.C122_violated_size
#print axioms LDT.Dc.C122_violated_brier
#print axioms LDT.Dc.C122_violated_cutoffs
#print axioms LDT.Dc.C122_violated_dependent
#print axioms LDT.Dc.C122_example
#print axioms LDT.Dc.C122_violated_accepted
#print axioms LDT.Su.C123_estimate
#print axioms LDT.Su.C123_model
#print axioms LDT.Su.C123_refused
#print axioms LDT.Su.C123_sample
#print axioms LDT.Su.C124_unrestricted
#print axioms LDT.Su.C124_restricted_partial
#print axioms LDT.Su.C124_restricted_violated
#print axioms LDT.Su.C125_valid
#print axioms LDT.Su.C125_fails_iff
#print axioms LDT.Su.C125_refused
#print axioms LDT.Su.C125_not_implemented
#print axioms LDT.Su.C125_scores
#print axioms LDT.Su.C125_no_valid
#print axioms LDT.Su.C125_memory
#print axioms LDT.Su.C125_iteration
#print axioms LDT.Su.C125_out_of_sample
#print axioms LDT.Su.C125_boxcox_violated
#print axioms LDT.Su.C125_all_valid
#print axioms LDT.Su.C126_memory
#print axioms LDT.Su.C126_estimate
#print axioms LDT.Su.C126_search_models
#print axioms LDT.Su.C126_search_equations
#print axioms LDT.Su.C126_search_coefs_partial
#print axioms LDT.Su.C126_search_violated
#print axioms LDT.Su.C126_example_violated
#print axioms LDT.Su.C126_zero_violated
#print axioms LDT.Su.C126_scores
#print axioms LDT.Su.C126_simulation_throws
#print axioms LDT.Su.C126_cancelled
#print axioms LDT.Su.C126_boxcox_violated
#print axioms LDT.Su.C127_accepted
#print axioms LDT.Su.C127_searchers
#print axioms LDT.Su.C127_memory
#print axioms LDT.Su.C127_counts_partial
#print axioms LDT.Su.C127_size_violated
#print axioms LDT.Su.C127_groups_partial
#print axioms LDT.Su.C127_skipped_violated
#print axioms LDT.Su.C127_boundary_violated
#print axioms LDT.Su.C127_search
#print axioms LDT.Su.C127_example
#print axioms LDT.Su.C127_example_violated
#print axioms LDT.Su.C127_group_violated
#print axioms LDT.Crps.C128_normal
#print axioms LDT.Crps.C128_normal_refused
#print axioms LDT.Crps.C128_lognormal
#print axioms LDT.Crps.C128_lognormal_point_partial
#print axioms LDT.Crps.C128_lognormal_violated
#print axioms LDT.Crps.C128_zero
#print axioms LDT.Crps.C128_proper
#print axioms LDT.Crps.C128_systems
#print axioms LDT.Sd.C129_sizes
#print axioms LDT.Sd.C129_calculate
#print axioms LDT.Sd.C129_refused
#print axioms LDT.Sd.C129_moments
#print axioms LDT.Sd.C129_same_map
#print axioms LDT.Sd.C129_one_row_violated
#print axioms LDT.Pc.C130_calculate
#print axioms LDT.Pc.C130_sizes
#print axioms LDT.Pc.C130_variances
#print axioms LDT.Pc.C130_total
#print axioms LDT.Pc.C130_shares
#print axioms LDT.Pc.C130_refused
#print axioms LDT.Pc.C130_wide_violated
#print axioms LDT.Pc.C130_check_violated
#print axioms LDT.Pc.C131_cutoff
#print axioms LDT.Pc.C131_enough
#print axioms LDT.Pc.C131_check
#print axioms LDT.Pc.C131_count
#print axioms LDT.Pc.C131_model
#print axioms LDT.Pc.C131_exact_violated
#print axioms LDT.Pc.C131_constant_violated
#print axioms LDT.Pc.C131_negative_violated
#print axioms LDT.Vs.C132_valid
#print axioms LDT.Vs.C132_honest
#print axioms LDT.Vs.C132_scores
#print axioms LDT.Vs.C132_percentages
#print axioms LDT.Vs.C132_fails_iff
#print axioms LDT.Vs.C132_refused
#print axioms LDT.Vs.C132_later_horizons_violated
#print axioms LDT.Vs.C132_order_violated
#print axioms LDT.Vs.C132_window
#print axioms LDT.Vs.C132_extended
#print axioms LDT.Vs.C132_extended_details
#print axioms LDT.Vs.C132_extended_scores
#print axioms LDT.Vs.C132_extended_none
#print axioms LDT.Vs.C132_crps
#print axioms LDT.Vm.C133_sample
#print axioms LDT.Vm.C133_memory
#print axioms LDT.Vm.C133_reports
#print axioms LDT.Vm.C133_refused
#print axioms LDT.Vm.C133_condition
#print axioms LDT.Vm.C133_scores
#print axioms LDT.Vm.C133_unscored
#print axioms LDT.Vm.C133_accepts
#print axioms LDT.Vm.C133_bounds_iff
#print axioms LDT.Vm.C133_bounds_unused_violated
#print axioms LDT.Vm.C133_prediction_violated
#print axioms LDT.Vm.C133_zero_violated
#print axioms LDT.Vm.C133_boxcox_violated
#print axioms LDT.Vm.C133_bounds_horizon_violated
#print axioms LDT.Vm.C133_memory_violated
#print axioms LDT.Vm.C133_disjoint_violated
#print axioms LDT.Vm.C133_target_violated
#print axioms LDT.Vm.C133_memory_example_violated
#print axioms LDT.Vm.C133_short_violated
#print axioms LDT.Vm.C133_disjoint_example_violated
#print axioms LDT.Vm.C134_accepted
#print axioms LDT.Vm.C134_orders
#print axioms LDT.Vm.C134_searchers
#print axioms LDT.Vm.C134_work
#print axioms LDT.Vm.C134_memory_partial
#print axioms LDT.Vm.C134_endogenous_violated
#print axioms LDT.Vm.C134_weights
#print axioms LDT.Vm.C134_counts_partial
#print axioms LDT.Vm.C134_search_models
#print axioms LDT.Vm.C134_search_forecasts_partial
#print axioms LDT.Vm.C134_horizon_violated
#print axioms LDT.Vm.C134_groups_violated
#print axioms LDT.Vm.C134_groups_fail_violated
#print axioms LDT.Vm.C134_room_violated
#print axioms LDT.Vm.C134_lags_violated
#print axioms LDT.Vm.C134_nothing_violated
#print axioms LDT.Gl.C135_accepted
#print axioms LDT.Gl.C135_quantile
#print axioms LDT.Gl.C135_density
#print axioms LDT.Gl.C135_increasing
#print axioms LDT.Gl.C135_range
#print axioms LDT.Gl.C135_quantiles
#print axioms LDT.Gl.C135_density_of
#print axioms LDT.Gl.C135_symmetric
#print axioms LDT.Gl.C135_infinite_violated
#print axioms LDT.Gl.C135_from_moments
#print axioms LDT.Gl.C135_objective
#print axioms LDT.Gl.C135_types
#print axioms LDT.Gl.C135_type8_violated
#print axioms LDT.Gl.C135_sample_violated
#print axioms LDT.Gl.C135_outside_violated
#print axioms LDT.Gl.C135_mean
#print axioms LDT.Gl.C135_mean_missing
#print axioms LDT.Gl.C135_variance
#print axioms LDT.Gl.C135_skewness
#print axioms LDT.Gl.C135_kurtosis
#print axioms LDT.Gl.C135_missing
#print axioms LDT.Gl.C135_moments_agree
#print axioms LDT.Ve.C136_least_squares
#print axioms LDT.Ve.C136_innovations
#print axioms LDT.Ve.C136_pure
#print axioms LDT.Ve.C136_restricted
#print axioms LDT.Ve.C136_restricted_variance
#print axioms LDT.Ve.C136_accepted
#print axioms LDT.Ve.C136_accepted_ma
#print axioms LDT.Ve.C136_accepted_restricted
#print axioms LDT.Ve.C136_variance_violated
#print axioms LDT.Ve.C137_residuals
#print axioms LDT.Ve.C137_residuals_ma
#print axioms LDT.Ve.C137_residuals_restricted
#print axioms LDT.Ve.C137_last_point
#print axioms LDT.Ve.C137_value
#print axioms LDT.Ve.C137_bounds
#print axioms LDT.Ve.C137_bounds_example
#print axioms LDT.Ve.C137_perfect_fit
#print axioms LDT.Ve.C137_last_point_violated
#print axioms LDT.Ve.C137_last_point_example
#print axioms LDT.Ve.C137_likelihood_example
#print axioms LDT.Ve.C137_two_example
#print axioms LDT.Ve.C137_least_squares
#print axioms LDT.Ve.C137_likelihood
#print axioms LDT.Ve.C137_sample_end_violated
#print axioms LDT.Ve.C137_likelihood_violated
#print axioms LDT.Ve.C137_criteria
#print axioms LDT.Ve.C137_criteria_violated
#print axioms LDT.Ve.C137_no_details_violated
#print axioms LDT.Ve.C137_restricted_ar_violated
#print axioms LDT.Ve.C137_std
#print axioms LDT.Ve.C137_std_restricted
#print axioms LDT.Ve.C137_std_violated
#print axioms LDT.Vx.C138_sample
#print axioms LDT.Vx.C138_refused
#print axioms LDT.Vx.C138_made
#print axioms LDT.Vx.C138_made_refused
#print axioms LDT.Vx.C138_missing
#print axioms LDT.Vx.C138_empty
#print axioms LDT.Vx.C138_condition
#print axioms LDT.Vx.C138_pca_y_partial
#print axioms LDT.Vx.C138_pca_reduced_violated
#print axioms LDT.Vx.C138_pca_sizes_violated
#print axioms LDT.Vx.C138_pca_x_partial
#print axioms LDT.Vx.C138_disjoint
#print axioms LDT.Vx.C138_history_violated
#print axioms LDT.Vx.C138_unchecked_violated
#print axioms LDT.Var.C139_combined_partial
#print axioms LDT.Var.C139_unique
#print axioms LDT.Var.C139_classes
#print axioms LDT.Var.C139_empty_violated
#print axioms LDT.Var.C139_missing_violated
#print axioms LDT.Var.C139_off_grid_violated
#print axioms LDT.Fh.C140_handles_partial
#print axioms LDT.Fh.C140_no_leak
#print axioms LDT.Fh.C140_careful
#print axioms LDT.Fh.C140_shared_violated
#print axioms LDT.Fh.C140_texts
#print axioms LDT.Fh.C140_second_call
#print axioms LDT.Fh.C140_round_trip
#print axioms LDT.Fh.C140_date_list
#print axioms LDT.Fh.C140_text_list_partial
#print axioms LDT.Fh.C140_refused
#print axioms LDT.Fh.C140_minus
#print axioms LDT.Fh.C140_safe_partial
#print axioms LDT.Rs.C141_returns
#print axioms LDT.Rs.C141_results
#print axioms LDT.Rs.C141_stable
#print axioms LDT.Rs.C141_memory
#print axioms LDT.Rs.C141_interrupt
#print axioms LDT.Rs.C141_cancelled
#print axioms LDT.Rs.C141_progress
#print axioms LDT.Rs.C141_percentage
#print axioms LDT.Rs.C141_silent
#print axioms LDT.Rs.C141_prepare
#print axioms LDT.Rs.C141_throws_violated
#print axioms LDT.Rs.C141_openmp_violated
#print axioms LDT.Rs.C141_example
#print axioms LDT.Rs.C142_results
#print axioms LDT.Rs.C142_found
#print axioms LDT.Rs.C142_refused
#print axioms LDT.Rs.C142_table
#print axioms LDT.Rs.C142_options
#print axioms LDT.Rs.C142_asked
#print axioms LDT.Rs.C142_inclusion
#print axioms LDT.Rs.C142_mixture
#print axioms LDT.Rs.C142_bounds
#print axioms LDT.Rs.C142_dcNames
#print axioms LDT.Rs.C142_counts
#print axioms LDT.Rs.C142_weighted_violated
#print axioms LDT.Rs.C142_goal_violated
#print axioms LDT.Rs.C142_example
#print axioms LDT.Rs.C142_violated_index
#print axioms LDT.RStat.C143_accepted
#print axioms LDT.RStat.C143_metric_roundtrip
#print axioms LDT.RStat.C143_weight_roundtrip
#print axioms LDT.RStat.C143_letter_case
#print axioms LDT.RStat.C143_same_in_both
#print axioms LDT.RStat.C143_monotone
#print axioms LDT.RStat.C143_formula_in_sample
#print axioms LDT.RStat.C143_formula_out_of_sample_partial
#print axioms LDT.RStat.C143_violated_rmspe
#print axioms LDT.RStat.C144_variables
#print axioms LDT.RStat.C144_linkage_names
#print axioms LDT.RStat.C144_linkage_refused
#print axioms LDT.RStat.C144_violated_printed_names
#print axioms LDT.RStat.C144_distance_words
#print axioms LDT.RStat.C144_distance_names
#print axioms LDT.RStat.C144_cluster
#print axioms LDT.RStat.C144_refused
#print axioms LDT.RStat.C144_groups
#print axioms LDT.RStat.C144_filtered
#print axioms LDT.RStat.C144_negative_threshold
#print axioms LDT.RStat.C145_pooled_partial
#print axioms LDT.RStat.C145_order_partial
#print axioms LDT.RStat.C145_violated_constant
#print axioms LDT.RStat.C146_refused
#print axioms LDT.RStat.C146_area
#print axioms LDT.RStat.C146_observations
#print axioms LDT.RStat.C146_calculation
#print axioms LDT.RStat.C146_violated_costs
#print axioms LDT.RStat.C146_violated_label
