{
 "C01": "all classes; for lists the stored item outside the list is compared up to the place denoted",
 "C02": "proved for all well-formed non-list classes except daily-in-week ranges consisting of one weekday, where the code is wrong (C02_violated_single_day_range); year multiple 0 is undefined behaviour (C02_violated_zero_multiple)",
 "C03": "false for lists once outside the list (C03_violated_list); proved for all other classes",
 "C04": "holds for the constructors; text parsing accepts out-of-range positions (C04_violated_parse)",
 "C05": "all non-list classes and date lists; string lists only when items contain no ';' (C05_violated_list_separator) and through the typed parser (C05_violated_list_general)",
 "C06": "forward/backward proved for every range; the difference needs ranges of more than one day (see C02)",
 "C07": "length and backward distance are wrong for some ranges; proved elsewhere",
 "C08": "inside the list everything holds; comparison ignores the out-of-list index",
 "C09": "the empty array is reported as a valid range",
 "C12": "fromEnd with an exact multiple yields an empty first part (C12_violated_fromEnd)",
 "C15": "a first observation of weight zero poisons the sums (C15_violated_zero_weight_first)",
 "C16": "merging statistics fails on constant samples (0/0) (C16_violated_constant_sample)",
 "C40": "mean of an empty array is 0/0 style: see C40_violated_mean_empty",
 "C13": "proved for variables on one grid of a class with working order and difference; false for lists and for variables of one class off the grid (witnesses)",
 "C14": "multi-daily from the start, weekly, 2..365 parts a year, daily-in-week from the first weekday, date list from its first item; the other cases are false of the code (seven witnesses)",
 "C32": "vectors without missing values; with a NaN among different numbers the comparator is not a strict weak order",
 "C18": "all partition structures without empty partitions; an empty partition is announced as 0 models but counted as 1 failed model (C18_violated_empty_partition); fixed items (never set by the R interface) not covered",
 "C21": "proved with the code's own weight functions in exact real arithmetic (C21_combine_gof, C21_combine_sco); the code compares weights and not metrics, so where floating-point weights collapse (exp underflow) the claim fails (C21_violated_weight)",
 "C22": "the upper bound starts at the smallest positive double, so it is wrong when all upper ends are negative (C22_violated_negative); proved otherwise",
 "C26": "'rmspe' parses as rmse, so that measure cannot be requested by name (C26_violated_rmspe); every other name round trips",
 "C41": "never above the ordinary area; but the code pushes (sumFP,0) for the tied groups and ignores the last one, so it is not the ties-as-losses area (two witnesses)",
 "C33": "all accessors safe; Last() reads one cell behind the matrix (C33_violated_last)",
 "C35": "SetSub, SetSub_t and the index-list variants proved for all non-negative arguments; GetSub(block) only for a storage of exactly the needed size because its size check is reversed (two witnesses); negative starts are not rejected (witness)",
 "C44": "SetColumnFromColumn needs equal row counts, SetColumnFromRow loops over the wrong count, sorting an empty matrix is undefined (three witnesses)",
 "C45": "proved when the common window is not empty; series without a common period are accepted and give a negative number of rows; gaps inside the window stay missing (witnesses)",
 "C29": "proved when the last threshold of every cost table covers the probabilities; Check does not require that: the code then reads outside the table or another class's cost (two witnesses)",
 "C31": "whenever it succeeds it is a partition with every class; it succeeds exactly when the planned sizes fit (C31_class_sizes), but when they do not fit the code may write behind the storage before it throws (two witnesses)",
 "C47": "proved for maximum length 0 (none) or at least the length of the base; a shorter maximum makes the routine copy the base behind its storage (C47_power_violated_overflow)",
 "C50": "AR/MA blocks proved; MA-infinity equation proved for every case in which the recursion runs; with neither AR nor differencing the copy writes one matrix more than the storage it asks for (C50_maInf_violated_overflow)",
 "C51": "membership for all orders; order and maximum for p < s; otherwise lags are duplicated (C51_lags_violated_duplicate) and the stored maximum is not the maximum (C51_max_violated)",
 "C54": "general restrictions proved for distinct indexes whose number is the announced one; a smaller number or duplicates write behind the storage before the exception (two witnesses); final form proved",
 "C55": "proved for lag lists without a lag above the stored maximum (orders below the season, proper_of_makeSizes); otherwise the code reads before the data (C55_sample_violated_lag)",
 "C56": "proved for sorted lag lists (orders below the season); otherwise the update stops early (C56_residuals_violated_order)",
 "C57": "proved for samples not shorter than the largest MA lag; otherwise residuals before the first column are read (C57_forecast_violated_short)",
 "C60": "relative to the BLAS contract of dgemm (DESIGN.md, trusted base), with its argument checks modelled",
 "C61": "A A', A' A and SymDot proved; DotSym inverts its triangle flag, so it is right only when both triangles agree (C61_dotSym_partial, C61_violated_dotSym_flag); DotDiag runs over the wrong count, so it is right for square matrices only (two witnesses)",
 "C65": "with NaN checking Mean divides by the position instead of the number of values used (C65_violated_mean_position); data without numbers give 0 instead of NaN; CorrelationColumn divides its variances by all rows although pairs were skipped (C65_violated_correlation_variance) and returns 1 without a common observation; everything else is proved",
 "C67": "proved for matrices with rows; max/min of a matrix without rows divide by zero (C67_violated_no_rows)",
 "C71": "for n >= 2; for one point the routine sorts an empty vector and dereferences its end (C71_one_point); order has n-1 entries, the merge permutation",
 "C72": "without a threshold proved; with one, the filter compares distances that the clustering has overwritten (C72_filter_partial says what is kept, C72_violated_distances) and Removed collects positions inside groups instead of variables (C72_violated_removed)",
 "C73": "proved, except that an object made for more columns than the data have keeps a result of the announced size whose surplus cells were never written (C73_violated_fewer_columns)",
 "C74": "Pearson's method, at least two rows with the check and one without; the diagonal of ResultCounts is never written for correlations (C74_violated_counts); two columns without a common row give what C65 says; BLAS contract for A'A",
 "C76": "std::sort is modelled by its result; a NaN beside two different numbers makes the comparison no strict weak ordering (C76_undefined_missing: undefined behaviour, no check)",
 "C77": "ranks count from 0 and ties share the lowest rank in either order; a NaN cell of a comparable column is not written at all",
 "C78": "requires at least one complete row for every pair (BLAS gets a leading dimension 0 otherwise); tied cells do not share the mean of their ranks (C78_violated_ties), so the classical formula and the reversal theorem are for columns without ties",
 "C79": "the variance of MeanVariance divides by n for a sample and by n-1 otherwise (C79_violated_sample), so only its mean is proved (C79_mean_partial); int overflow of count*count for n > 46340 not modelled; exact arithmetic",
 "C80": "numbers only (no NaN); an empty array is read in front of its end (C80_violated_empty)",
 "C81": "no coefficient makes FilterMa write in front of the storage (C81_violated_no_coefficient); the rest is proved for at least one coefficient",
 "C82": "with coefficients given (without them the call always throws, C82_refused), a positive period, and a trend without zero for the multiplicative version (infinities are not told apart from NaN)",
 "C83": "exact arithmetic: the determinant test is isinf(1/det)",
 "C84": "estimate, uniqueness, residuals, equivariance, refusal of a singular design proved (LAPACK getrf/getri as a contract, exact arithmetic); violated: the size check is inverted (smaller data refused, larger data read out of bounds: C84_violated_smaller, C84_violated_larger) and the returned variance is the undivided cross product (C84_violated_variance)",
 "C85": "estimate, uniqueness, residuals, scalar weights, singular weights proved; violated: inverted size check (C85_violated_smaller), the shape of the weight matrix is not checked (C85_violated_omega)",
 "C86": "counts sum to the number of data for all data and breaks; the bins are proved if the greatest datum is not on a break (C86_bins_partial, C86_equal_partial, C86_step_partial); violated at breaks (C86_violated_inner_break, C86_violated_last_break), with one bin (C86_violated_single), with a negative number of bins (C86_violated_negative); with a given range and a positive number of bins the given width is ignored (C86_given holds for every step); iqr = 0 makes the automatic number of bins undefined (C86_bin_count)",
 "C87": "infinite values are not modelled (removeInf is therefore the same as not)",
 "C88": "exact arithmetic; LAPACK inversion and Cholesky determinant as contracts (see Model/Sur.lean); condition numbers and the numbers computed from the logarithm of the determinant are not modelled (the determinant itself is)",
 "C89": "everything proved if the residuals of the unrestricted fit are independent (C89_estimate_partial); violated otherwise: the result of inverting the residual covariances is not looked at, and wrong coefficients are returned without an error (C89_estimate_violated)",
 "C90": "everything proved except the details when every coefficient is significant at once (C90_search_partial): then the restriction matrix is still zero, so every reported standard deviation is 0 and every t infinite (C90_details_violated)",
 "C91": "positive cases, frames and the checks that exist are proved; violated: SetRow, SetColumn, SetSubVector and GetSubVector do not check the size of the source (or the start), SetSubRow not the sign of the start, so memory outside is read or written",
 "C92": "exact arithmetic, BLAS gemv as its reference algorithm; everything proved except sorting a vector with missing cells, which is undefined (C92_sort_indices_violated)",
 "C93": "exact arithmetic; the model is taken from an estimate with the given coefficients and covariances (C93_after_estimate joins it with C88)",
 "C94": "everything proved except the degrees of freedom of F (C94_f_degrees_violated): the first is m(N-1); logarithm-based criteria are not modelled; refusal without degrees of freedom is part of C88_refused",
 "C95": "everything proved, for any arithmetic, if the minimised function is finite at a corner of the first simplex and nowhere minus infinity; violated: if it is infinite or missing everywhere, or minus infinity at all corners, the simplex is read at index -1 (C95_failing_violated, C95_unbounded_violated); with no variables the class asks for no work space and uses one number (C95_empty_violated)",
 "C96": "descent, number of iterations and the local minimum proved for any arithmetic; violated: the penalty is 1e5 x^2, not the distance to the bound, so zero is never penalised and the result may be outside (C96_bounds_violated); on a flat objective the search walks away and never stops early (C96_flat_violated)",
 "C97": "path, descent, stopping, refusals, exactness for quadratics proved with line search; dposv as a contract; violated: without line search the gradient is never recomputed (C97_plain_violated); Hessian holds a Cholesky factor afterwards (C97_hessian_violated)",
 "C98": "table, exactness for polynomials (if no quotient is below 1e-16; unconditionally up to degree 2 and 3), symmetry, locality, refusals and space proved in exact arithmetic; violated: one tiny quotient makes the derivative zero for good (C98_exact_violated), a point smaller than the maximum is refused (C98_smaller_violated)",
 "C99": "proved over the reals for all parameters describing a law; violated: rate 0, probability 0, non-integer bounds are accepted without describing a law (C99_parameters_violated), the mass is positive between the integers (C99_between_violated), GetProperty(maximum) is the minimum (C99_property_violated)",
 "C100": "proved over the reals, by integration; violated: the standard deviation of the log-normal is 1/mu (C100_lognormal_violated), degenerate parameters are accepted and give NaN (C100_degenerate_violated)",
 "C101": "proved over the reals for every type, with the special functions characterised by their integrals (a structure shown inhabited); partial: Bernoulli only off [0,1), binomial only below n and p > 0, because there the code is wrong (C101_bernoulli_violated, C101_binomial_violated); geometric is not floored between integers (C101_between_violated); degenerate parameters give NaN (C101_degenerate_violated)",
 "C102": "proved for all continuous types; discrete: what the search returns is a quantile whenever the search ends in time; violated: Bernoulli always 1, binomial beyond its maximum, geometric NaN after 100 steps, discrete uniform NaN",
 "C103": "proved for all types where the density is positive; violated: exponential at 0 is -inf, zero times log zero gives NaN (gamma shape 1 at 0, geometric p = 1, binomial p = 0)",
 "C104": "proved for all windows with bounds inside the support or for bounded supports; violated: negative windows for Poisson/geometric, empty intersections and fractional bounds are miscounted (C104_window_violated)",
 "C105": "proved for normal, log-normal, t, uniform, exponential, Bernoulli, geometric (0<p<1) and discrete uniform; F, gamma, beta report NaN; violated: chi-squared and Poisson are approximations (chi2(2); Poisson 1/100 reports -2), geometric p=1 reports 1, binomial rounds np down",
 "C106": "proved for all types that report a mode; partial: beta only if the first parameter is below one or the second at least one, binomial only for p<1; violated elsewhere (C106_beta_violated, C106_binomial_violated)",
 "C107": "components are the distributions of distributions_uni.cpp; hypotheses about them are discharged by C99-C102",
 "C108": "violated: a component without a mean (NaN) is left out of the mean instead of making it undefined; components with variance zero make skewness and kurtosis NaN (C108_missing_violated, C108_degenerate_violated)",
 "C109": "violated for ranges that end below zero: the largest value starts at the smallest positive double (C109_negative_violated)",
 "C110": "violated: outside the outermost quantiles GetCDFApprox goes the wrong way (grows to the left, falls to the right, beyond all bounds), for every quantile vector; GetCDFApprox(NaN) reads behind the array",
 "C111": "exact arithmetic; the overflow branch of exp is not modelled",
 "C112": "exact arithmetic; erfc by its definition",
 "C113": "exact arithmetic; erfc by its definition; log-concavity of the normal law between two cutoffs is proved",
 "C114": "exact arithmetic; LAPACK by contract; the optimiser is the model of C97. Violated: an observation with a choice out of range is not reported (unweighted binary: wrong counts; weighted or ordered: a write outside the array)",
 "C115": "exact arithmetic. Violated: where the first coefficient of the regression is zero the start of the ordered model is not made of numbers although the model can be estimated",
 "C116": "exact arithmetic, no restriction; the optimiser is the model of C97. Violated: the work array ignores the number of forecast rows; an object used again writes behind its storage; with missing cells the Brier score is taken over rows that do not exist",
 "C117": "exact arithmetic; object made for the sizes of the table. Violated: the Brier score is that of the last valid simulation; a small training sample makes the model write outside the work array",
 "C118": "exact arithmetic. Violated: an estimate with weight zero that comes first makes the averaged probabilities NaN and drops all the estimates of this searcher; a cost larger than one gives a negative weight and a probability larger than one",
 "C119": "exact arithmetic; the estimation of a single model is arbitrary; projections (Length2) are not kept by the code; variables in range (an index out of range makes Push throw)",
 "C120": "violated: options used again with other metrics keep the old positions (map.insert does not overwrite), and the limit of the condition number is not in force if the estimation is switched on only because of an in-sample metric or another limit",
 "C121": "violated: a score that is the first of the in-sample metrics is never computed (reported as 0); the Brier score reads unwritten memory if rows are missing; the degrees of freedom are counted with the wrong sign (4 too few); MinOutSim has no effect; with missing rows and a fixed training size no model is reported; for more than two choices the limit of the condition number is not applied and no out-of-sample metric is ever reported",
 "C122": "partial: counts for no fixed items, no empty partitions. violated: no number in the first column is undefined behaviour; the dependent variable is accepted as an explanatory one (and then no model with it is reported); cost tables are not checked if the costs are the first metric; sizes beyond the number of partitions are accepted, the run throws; the Brier score alone is refused out of the sample; nothing is kept for the cutoffs",
 "C123": "without principal components; C123_estimate for systems without restrictions, C123_model/C123_refused for all settings",
 "C124": "partial: with restrictions the number is that of another product. violated: for one coefficient with the restriction r it is 1/|r| whatever the data",
 "C125": "without principal components. C125_iteration/C125_out_of_sample/C125_all_valid for systems without restrictions. violated: after a Box-Cox transformation the standard deviation goes through the inverse transformation of the variable itself (C125_boxcox_violated); if all iterations may be dropped the scores are NaN instead of an exception (C125_no_valid)",
 "C126": "without a search for significant coefficients (C126_estimate, C126_scores). violated: metrics in the sample other than AIC and SIC are reported as 0 (C126_zero_violated); in a group whose targets do not come first, a target gets the coefficients of the equation of another variable (C126_search_violated, C126_example_violated); a Box-Cox parameter is chosen by the position in the group instead of the variable (C126_boxcox_violated). C126_search_coefs_partial holds for groups whose targets come first",
 "C127": "C127_accepted is exact; C127_search without a search for significant coefficients. violated: a group with a target is silently left out if its first variable is behind the targets (C127_skipped_violated); a group without a target whose first variable directly follows the targets makes the whole request fail instead of being left out (C127_boundary_violated, off by one); members of groups are not checked, the search reads outside of the data (C127_group_violated); sizes above the number of partitions are accepted and the search throws (C127_size_violated). C127_counts_partial for no fixed items and no empty partitions",
 "C128": "The special functions are what they are defined to be (Special). Exact arithmetic. violated: a log-normal forecast with deviation 0 that is exactly right scores NaN instead of 0 (C128_lognormal_violated); C128_lognormal_point_partial is the rest of that case",
 "C129": "Real arithmetic; data without NaN. violated: one row with scaling gives NaN that is not removed (C129_one_row_violated)",
 "C130": "Real arithmetic; dgesvd is a parameter with its contract (Lapack.Correct). violated: with fewer rows than columns the remaining directions are uninitialised (C130_wide_violated); an accepted table can be written behind the end of the array (C130_check_violated)",
 "C131": "violated: more components than columns are accepted (C131_exact_violated), constant unscaled columns (C131_constant_violated) and negative numbers (C131_negative_violated)",
 "C132": "Real arithmetic with NaN and infinities; the estimation with the forecast is a parameter with a state that may fail. violated: with a first horizon beyond 1 the end of the loop counts as a failure (C132_later_horizons_violated); horizons that are not ascending give NaN (C132_order_violated)",
 "C133": "Real arithmetic with NaN and infinities; estimation, forecast and the estimations of the simulations are parameters that may fail; without cancellation. violated: a model without the first series can need more memory than planned (C133_memory_violated, C133_memory_example_violated); with lags longer than the data the work array is too small (C133_short_violated); series without a common period (C133_disjoint_violated); targets that are not the first variables of the model (C133_target_violated); Box-Cox parameters by position (C133_boxcox_violated); horizons beyond the horizon of the predictions (C133_bounds_horizon_violated); bounds without simulations are not checked (C133_bounds_unused_violated); predictions without estimation (C133_prediction_violated); other metrics are 0 (C133_zero_violated)",
 "C134": "Real arithmetic; estimations are parameters that may fail; lags are assumed to fit an int (Small). violated: partitions of variables that are not endogenous are accepted, and a series is then endogenous and exogenous at once (C134_endogenous_violated); groups of exogenous variables are not checked (C134_groups_violated, C134_groups_fail_violated); a size without room for the fixed partitions, or an order with too many lags for the simulations, refuses the whole search (C134_room_violated, C134_lags_violated); a request without lags is accepted and has no models (C134_nothing_violated); forecasts beyond the horizon of the checks make all models fail (C134_horizon_violated)",
 "C135": "Exact arithmetic with infinities and NaN; boost's functions are parameters with the specification that beta is its integral and that digamma and polygamma are derivatives of the logarithm of gamma; the minimizer is a parameter (C95). violated: the penalty of the S-shaped type 8 multiplies the distance of the kurtosis, so that the kurtosis is ignored for S-shaped curves and other shapes are optimal (C135_type8_violated); GetSample1 returns the uniform number and not its quantile (C135_sample_violated); the quantile function that R uses does not check probabilities (C135_outside_violated); infinite shapes, the second minus infinity, have no quantile (C135_infinite_violated)",
 "C136": "Exact arithmetic; matrices as functions (no buffers); the optional matrices r and ma_resid are null. violated: a restriction, even one that restricts nothing, reports the inverse of the cross products as the variance of the coefficients, without the covariance of the residuals (C136_variance_violated, C136_restricted_variance)",
 "C137": "Exact arithmetic; the optimizer (setulb) and the numerical derivatives are arbitrary parameters, for the points at which they evaluate; points of the search are finite. violated: without the variances the residuals are those of the last derivative and not of the coefficients (C137_last_point_violated); with an MA part or a restriction the objective divides by n - gamma.ColsCount, so the likelihood is not that of the reported residuals (C137_likelihood_violated); observations left out at the end are counted in the likelihood (C137_sample_end_violated); the criteria count restricted coefficients (C137_criteria_violated); without the details a model with an MA part writes outside its memory (C137_no_details_violated); a restricted model without MA part is always refused (C137_restricted_ar_violated); the standard errors of a restriction that does not select are wrong (C137_std_violated)",
 "C138": "Exact arithmetic; the decomposition, the estimation and the forecasts are parameters (C130, C131, C136, C137, C56); the checks of the sizes of the arrays and the transpositions are not represented. partial: components are proved for options that do not reduce the number of variables. violated: with more endogenous variables than CutoffCountMax + IgnoreFirstCount the remaining ones take the place of the exogenous variables (C138_pca_reduced_violated); the restriction is made for the number of variables before the components are chosen (C138_pca_sizes_violated); after one table with a gap every table is refused (C138_history_violated); without the check for missing values the future values are rows of the sample (C138_unchecked_violated)",
 "C139": "Exact arithmetic; messages are not represented. partial: both series have an observation and lie on a common grid of a class for which order and differences of dates are right (C02, C03). violated: a series without cells is read outside of its memory (C139_empty_violated); a series without observations keeps its missing cells at the ends (C139_missing_violated); weekly series of different weekdays are moved instead of refused and a zero replaces an observation (C139_off_grid_violated)",
 "C140": "Texts have no null characters; addresses are not reused (so that freed memory is visible); of the message of the last error it is represented whether it is empty; the handles of LDT_VariableCombine are not in the histories. partial: no list is disposed of while copies of it are alive, items without the separator. violated: a copy of a list shares its items with the original, so that disposing of one of them makes advancing, printing and disposing of the other undefined behaviour (C140_shared_violated)",
 "C141": "Schedules are infinite sequences of steps of two threads in which neither is forgotten; the unsynchronised bool `estimating` is taken as sequentially consistent; a model is one step; the texts of the report are represented by second and number of models. violated: if Start throws, the loop never ends and the error is not reported; this happens to every parallel search in a build without OpenMP (C141_throws_violated, C141_openmp_violated)",
 "C142": "What the searchers have gathered is given by functions (C21, C22, C118, C119 are about them); the names of the elements of the lists of R and of extra are not represented. violated: weightedEval has no effect in a search for discrete choice models since SearchDc passes isDc = false (C142_weighted_violated); a request is accepted for which nothing is given (C142_goal_violated)",
 "C143": "Texts are ASCII and doubles real numbers. violated: rmspe gets the formula of rmse since its name is never reached (C143_violated_rmspe)",
 "C144": "Doubles are real numbers: the square root is exact; vectors are at most 2^52 long as in R. The loop of the clustering gets 3(n-1) rounds, which suffice (C68). violated: the printed names of the two average linkages are refused (C144_violated_printed_names)",
 "C145": "partial: both samples must vary (C145_pooled_partial); the list of a constant sample is ignored, with its weight and count (C145_violated_constant). Doubles are real numbers",
 "C146": "Whether the arguments are numeric vectors is not modelled. violated: labels between 0 and 1 are accepted as positive (C146_violated_label); too few costs, a small cost matrix and integer costs, whose converted copy ends before it is used, are not refused (C146_violated_costs)"
}
