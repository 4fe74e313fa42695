{"id": "C01", "title": "Advancing a frequency is additive", "statement": "For every well-formed frequency, advancing by a and then by b gives the same frequency as advancing once by a+b, advancing by 0 changes nothing, and so advancing by a then -a comes back to the start.", "quantifier": "all frequency classes (cross-section, year-based with any partition count and year multiple, weekly, multi-weekly, daily, multi-daily, daily-in-week with any range, any sub-daily class, lists) and all integers a, b of either sign", "why_tests_cant": "The carry logic (year/day rollover, weekend skipping, leaving a list) depends on position and step sizes; tests sample a handful of steps.", "anchors": ["src/frequency/*.cpp:Next"]}
{"id": "C02", "title": "Difference inverts advance", "statement": "For every well-formed frequency f and integer n, (f advanced by n) minus f is n.", "quantifier": "all frequency classes and all n", "why_tests_cant": "Difference is computed by closed formulas with truncating divisions, unlike the advance loop; agreement must hold at every boundary.", "anchors": ["src/frequency/*.cpp:Minus", "src/frequency/*.cpp:Next"]}
{"id": "C03", "title": "Comparison agrees with time order", "statement": "On frequencies of one class string, comparison is a total order: antisymmetric, transitive, equal only for the same period; and f advanced by n is newer, equal or older than f exactly when n is positive, zero or negative.", "quantifier": "all pairs and triples of frequencies of one class, all n", "why_tests_cant": "Order laws quantify over all triples.", "anchors": ["src/frequency/*.cpp:CompareTo", "src/frequency/f_base.cpp:IsNewerThan"]}
{"id": "C04", "title": "Positions stay inside their period", "statement": "For every frequency made by the public constructors, after any sequence of advances 1 <= position <= number of partitions holds.", "quantifier": "all constructor arguments the constructor accepts and all histories of advances", "why_tests_cant": "It is an invariant over histories.", "anchors": ["src/frequency/f_year_based.cpp", "src/frequency/f_day_based.cpp"]}
{"id": "C05", "title": "Frequency text round trip", "statement": "Parsing the text and class text printed for a frequency gives the same frequency back, and the class printed selects the same class.", "quantifier": "all constructible frequencies whose integers fit the C++ int type", "why_tests_cant": "Round trip over an infinite set of values; the class dispatcher is prefix based so one class can capture another's text.", "anchors": ["src/frequency/*.cpp:ToString", "src/frequency/*.cpp:Parse0", "src/frequency/f_base.cpp:GetClass"]}
{"id": "C06", "title": "Daily-in-week visits exactly the working days", "statement": "Advancing a daily-in-week frequency by n>0 lands on the n-th day after it that lies in the week range; by n<0 on the |n|-th earlier one; no excluded weekday is ever produced, and the difference of two such frequencies is the signed number of working days between them.", "quantifier": "all week ranges, dates and n", "why_tests_cant": "49 ranges x 7 start days x unbounded n.", "anchors": ["src/frequency/f_week_based.cpp:Next", "src/frequency/f_week_based.cpp:Minus", "src/frequency/f_base.cpp:DayOfWeekRange"]}
{"id": "C07", "title": "Day-of-week distance and length", "statement": "The length of a week range is the number of days in it, and the forward (backward) distance between two days is the number of steps forward (backward) from the first to the second.", "quantifier": "all pairs of days of the week", "why_tests_cant": "Finite, but the shipped tests do not cover it; the model decides the whole table.", "anchors": ["src/frequency/f_base.cpp:DayOfWeekRange::GetLength", "src/frequency/f_base.cpp:DayOfWeekRange::Distance"]}
{"id": "C08", "title": "List frequencies navigate their list", "statement": "Advancing inside a duplicate-free list moves to the item that many places away; leaving the list and coming back restores the item; comparison orders items and out-of-list positions by place.", "quantifier": "all duplicate-free lists, items and step sequences", "why_tests_cant": "Stateful out-of-list index; histories are unbounded.", "anchors": ["src/frequency/f_list.cpp"]}
{"id": "C09", "title": "Data range is tight", "statement": "The range reported for a data array starts at the first and ends at the last non-missing value, is invalid exactly when every value is missing, and the missing flag is set exactly when a missing value lies strictly inside.", "quantifier": "all arrays", "why_tests_cant": "All placements of missing values and all lengths.", "anchors": ["include/array.h:GetRange"]}
{"id": "C10", "title": "Trim keeps dates", "statement": "Trimming a variable removes exactly its leading and trailing missing values and every remaining observation keeps its date.", "quantifier": "all variables with at least one non-missing value, all frequency classes", "why_tests_cant": "Relates slicing with frequency arithmetic for all lengths.", "anchors": ["src/variable/variable.cpp:Trim"]}
{"id": "C11", "title": "Interpolation fills gaps linearly", "statement": "After interpolation no missing value remains between the first and last observation, all observed values and outer missing values are unchanged, filled values lie on the straight line between the neighbouring observations, and the returned count is the number of values filled.", "quantifier": "all arrays with missing values anywhere", "why_tests_cant": "All gap patterns.", "anchors": ["include/array.h:Interpolate"]}
{"id": "C12", "title": "Equal partitioning loses nothing", "statement": "Partitioning an array in chunks of a positive size yields chunks whose concatenation is the array, all full except one at the open end, none empty.", "quantifier": "all arrays, all positive sizes, both directions", "why_tests_cant": "All length/size combinations.", "anchors": ["include/array.h:PartitionEqual"]}
{"id": "C13", "title": "Aligning variables keeps every observation at its date", "statement": "Combining variables of one frequency class in a table starts at the earliest start, ends at the latest end, and puts every observation in the row of its own date; other cells are missing.", "quantifier": "all non-empty sets of variables of one class", "why_tests_cant": "Unbounded sets of variables with arbitrary offsets.", "anchors": ["src/variable/variables.cpp"]}
{"id": "C14", "title": "Aggregating to a lower frequency partitions the observations", "statement": "Converting a daily series to multi-daily, weekly or within-year periods assigns every observation to exactly one output period, in order, and the period is the one its date belongs to.", "quantifier": "all start dates, lengths, partition sizes", "why_tests_cant": "Calendar alignment for every date.", "anchors": ["src/variable/variable.cpp:ConvertTo_Weekly", "src/variable/variable.cpp:ConvertTo_MultiDaily", "src/variable/variable.cpp:ConvertTo_XxYear"]}
{"id": "C15", "title": "Running moments equal batch moments", "statement": "After any sequence of weighted pushes, the running weight, mean, variance, skewness and kurtosis are those of the pushed sample; missing values are skipped when asked.", "quantifier": "all finite sequences of values and non-zero-sum weights", "why_tests_cant": "One-pass update formulas up to fourth order for every sequence.", "anchors": ["include/array.h:update_single_pass", "include/math/statistics/running.h"]}
{"id": "C16", "title": "Merging running moments equals pushing everything", "statement": "Combining two running-moment accumulators equals one accumulator fed with both samples, so the result does not depend on how the work was divided or on the merging order; combining with an empty one changes nothing.", "quantifier": "all pairs of samples and all divisions of a sample", "why_tests_cant": "Quantifies over all ways of splitting work among searchers.", "anchors": ["include/array.h:update_single_pass_combine", "include/math/statistics/running.h:Combine"]}
{"id": "C17", "title": "Search enumerates every model exactly once", "statement": "A searcher over partitions of size k estimates exactly one model for each choice of k different partitions and one item from each, in a fixed order, and then stops.", "quantifier": "all numbers of partitions, partition sizes and k", "why_tests_cant": "Combinatorial state machine; tests only do small sizes.", "anchors": ["include/math/statistics/inference/searchers.h:Searcher", "src/ldt_statistics/modeling/search/searcher.cpp"]}
{"id": "C18", "title": "Announced number of models is the number searched", "statement": "The number of models a searcher announces equals the number of models it then counts, when it is not cancelled; the model set's total is the sum.", "quantifier": "all partition structures, with or without fixed partitions", "why_tests_cant": "A closed-form count against an enumeration.", "anchors": ["src/ldt_statistics/modeling/search/searcher.cpp:GetCount", "src/ldt_statistics/modeling/search/searcher.cpp:Start"]}
{"id": "C19", "title": "Fixed partitions appear in every model", "statement": "With f fixed partitions every searched model contains one item from each of the first f partitions, and all such models are searched.", "quantifier": "all partition structures and f", "why_tests_cant": "All structures.", "anchors": ["src/ldt_statistics/modeling/search/searcher.cpp:next"]}
{"id": "C20", "title": "Best-model list is the true top K", "statement": "The best list kept for a target and metric always contains the K best pushed models (all if fewer), best first, whatever the order of arrival.", "quantifier": "all sequences of pushes, all K", "why_tests_cant": "All arrival orders.", "anchors": ["src/ldt_statistics/modeling/search/summary.cpp:Push"]}
{"id": "C21", "title": "Combining searchers' best lists gives the global top K", "statement": "Combining the best lists of all searchers yields the K best models of the union of everything searched, independent of how models were distributed over searchers and of the order of searchers.", "quantifier": "all distributions of models over searchers", "why_tests_cant": "All schedules/distributions.", "anchors": ["src/ldt_statistics/modeling/search/modelset.cpp:CombineBests"]}
{"id": "C22", "title": "Extreme bounds contain all pushed intervals", "statement": "After pushing estimates the reported lower (upper) extreme bound is the smallest lower (largest upper) bound of the pushed estimates.", "quantifier": "all sequences of estimates, any sign", "why_tests_cant": "All sequences of reals.", "anchors": ["src/ldt_statistics/modeling/search/summary.cpp", "src/ldt_statistics/modeling/search/modelset.cpp:CombineExtremeBounds"]}
{"id": "C23", "title": "Failures are all accounted for", "statement": "For every searcher run, the number of searched models equals successes plus the sum of failure counts by message, and combining searchers adds them up without loss.", "quantifier": "all outcomes of the estimations and all searchers", "why_tests_cant": "All failure patterns.", "anchors": ["src/ldt_statistics/modeling/search/searcher.cpp:AddState", "src/ldt_statistics/modeling/search/modelset.cpp:CombineInfo"]}
{"id": "C24", "title": "Cancelling stops the search soundly", "statement": "When cancellation is requested at any point, the searcher stops before estimating another model and what it has counted is a prefix of the full enumeration.", "quantifier": "every cancellation point", "why_tests_cant": "All cancellation times.", "anchors": ["src/ldt_statistics/modeling/search/searcher.cpp:Start"]}
{"id": "C25", "title": "Metric weights are monotone and invertible", "statement": "Converting a metric to a weight is strictly monotone in quality (better metric, larger weight) and converting the weight back returns the metric.", "quantifier": "all metric types and all real metric values", "why_tests_cant": "All reals.", "anchors": ["include/math/statistics/scoring.h:ToWeight", "include/math/statistics/scoring.h:FromWeight", "src/ldt_statistics/scoring/scoring.cpp"]}
{"id": "C26", "title": "Metric names round trip", "statement": "Every metric type is recovered from its printed name.", "quantifier": "all metric types", "why_tests_cant": "The parser is prefix based; the table is finite but order dependent.", "anchors": ["include/math/statistics/scoring.h:FromString_ScoringType", "include/math/statistics/scoring.h:FromString_GoodnessOfFitType"]}
{"id": "C27", "title": "AUC is the ranking probability", "statement": "The area computed by the ROC routine equals the (weighted) probability that a random positive is ranked above a random negative, counting ties one half.", "quantifier": "all score vectors, labels and positive weights", "why_tests_cant": "All orders, tie patterns and weights.", "anchors": ["src/ldt_statistics/scoring/roc.cpp"]}
{"id": "C28", "title": "AUC lies in [0,1] and ignores monotone rescaling", "statement": "The AUC is between 0 and 1, does not depend on the order of observations, and is unchanged when scores are transformed by a strictly increasing function; reversing scores gives one minus it.", "quantifier": "all inputs with both classes present", "why_tests_cant": "All inputs.", "anchors": ["src/ldt_statistics/scoring/roc.cpp", "src/ldt_math/auc.cpp"]}
{"id": "C29", "title": "Frequency cost reads inside its table", "statement": "The frequency-cost routine charges every observation the cost of the first threshold row at or above its probability, never reads outside the cost table, and the reported ratio lies between the minimum and maximum cost ratio.", "quantifier": "all cost matrices the check accepts and all probabilities", "why_tests_cant": "All tables and probabilities.", "anchors": ["src/ldt_statistics/scoring/frequency_cost.cpp"]}
{"id": "C30", "title": "Random split is a partition", "statement": "Every split puts each row in exactly one of the two samples, with the requested training size, for every shuffle.", "quantifier": "all datasets, ratios, fixed sizes and shuffles", "why_tests_cant": "All permutations.", "anchors": ["src/ldt_statistics/data_split.cpp:DataSplit"]}
{"id": "C31", "title": "Stratified split keeps every class and is a partition", "statement": "The stratified split puts each row in exactly one sample, has the requested training size, and every class has at least one training row.", "quantifier": "all label vectors, ratios and shuffles", "why_tests_cant": "All label distributions.", "anchors": ["src/ldt_statistics/data_split.cpp:DataSplitDiscrete"]}
{"id": "C32", "title": "Sorting indexes", "statement": "The index sort returns a permutation that orders the data in the requested direction and keeps the order of equal values.", "quantifier": "all vectors", "why_tests_cant": "All inputs.", "anchors": ["include/helpers.h:SortIndexes"]}
{"id": "C33", "title": "Matrix cells do not alias", "statement": "Each in-range (row, column) pair of a matrix addresses its own cell inside the storage; writing one cell changes only that cell, and out-of-range access by the checked accessors is rejected.", "quantifier": "all sizes and positions", "why_tests_cant": "All sizes.", "anchors": ["src/matrix/matrix.cpp:Get", "src/matrix/matrix.cpp:Set"]}
{"id": "C34", "title": "Packed symmetric matrices store each pair once", "statement": "Packed symmetric storage maps unordered index pairs one-to-one onto 0..length-1, with the same cell for (i,j) and (j,i).", "quantifier": "all dimensions", "why_tests_cant": "Quadratic index formula for every n.", "anchors": ["src/matrix/matrix_sym.cpp"]}
{"id": "C35", "title": "Submatrix copy stays in bounds and copies the block", "statement": "Copying a block to a storage either is rejected or fills the storage exactly with the block, without touching memory outside it.", "quantifier": "all matrices, offsets and storages", "why_tests_cant": "Memory safety for all shapes.", "anchors": ["src/matrix/matrix.cpp:GetSub", "src/matrix/matrix.cpp:SetSub", "src/matrix/matrix.cpp:Last"]}
{"id": "C36", "title": "Rows with missing values are removed, others kept in order", "statement": "The data set used for estimation consists of exactly the rows without missing values in the selected columns, in their original order.", "quantifier": "all matrices and column selections", "why_tests_cant": "All missing patterns.", "anchors": ["src/matrix/dataset.cpp", "src/matrix/matrix.cpp:GetAnyNanRow"]}
{"id": "C37", "title": "Box-Cox transformation is invertible", "statement": "Applying the Box-Cox transformation and then its inverse with the same parameter returns the value, for all positive values.", "quantifier": "all positive reals and all parameters including 0 and missing", "why_tests_cant": "All reals.", "anchors": ["include/array.h:BoxCox0", "include/array.h:BoxCoxInv0"]}
{"id": "C38", "title": "Text split and join round trip", "statement": "Joining items and splitting on the separator returns the items, when no item contains the separator; splitting never loses characters.", "quantifier": "all item lists", "why_tests_cant": "All strings.", "anchors": ["include/helpers.h:SplitMultiple", "include/helpers.h:Split", "include/helpers.h:Join"]}
{"id": "C39", "title": "Calendar dates round trip", "statement": "A date printed as YYYYMMDD and parsed is the same day; an eight-character text is accepted only if it is a real date, and that date prints back as the same text; consecutive days have consecutive weekdays.", "quantifier": "all dates of the supported calendar years", "why_tests_cant": "All dates.", "anchors": ["src/frequency/f_week_based.cpp:ToString", "src/frequency/f_week_based.cpp:Parse0"]}
{"id": "C40", "title": "Descriptive statistics of an array", "statement": "Minimum, maximum, sum and mean of an array (skipping missing values on request) are the mathematical ones; the index functions return the first position of the extreme.", "quantifier": "all arrays", "why_tests_cant": "All arrays.", "anchors": ["include/array.h:Min", "include/array.h:Max", "include/array.h:MinIndex", "include/array.h:Mean"]}
{"id": "C41", "title": "Pessimistic area counts ties as losses", "statement": "With the pessimistic option the reported area never exceeds the ordinary one and counts every tied (event, non-event) pair as a loss.", "quantifier": "all label, score and weight vectors", "why_tests_cant": "All tie patterns.", "anchors": ["src/ldt_statistics/scoring/roc.cpp", "include/math/statistics/scoring.h:RocOptions"]}
{"id": "C42", "title": "Partial area between two thresholds", "statement": "The partial area is the area of the curve between the two thresholds divided by the length of the interval; areas over adjacent intervals add up, the full range gives the ordinary area, the value is between 0 and 1 and invalid thresholds are rejected.", "quantifier": "all curves and thresholds", "why_tests_cant": "All curves, all thresholds.", "anchors": ["src/ldt_statistics/scoring/roc.cpp", "include/math/statistics/scoring.h:RocOptions"]}
{"id": "C43", "title": "In-place removal of missing values and columns", "statement": "Removing missing values from a vector keeps all other values in order; removing columns (listed, or with missing values) keeps exactly the other columns, in order, with their contents.", "quantifier": "all matrices, missing patterns and column lists", "why_tests_cant": "In-place overlapping moves for all shapes.", "anchors": ["src/matrix/matrix.cpp:RemoveNanVector_in", "src/matrix/matrix.cpp:RemoveColumnsIn", "src/matrix/matrix.cpp:RemoveColumnsAnyNan_in"]}
{"id": "C44", "title": "Moving rows and columns between matrices", "statement": "Copying a row or column changes that row or column only and copies the requested one; reordering rows by an index list gives row idx[a] at position a, and lists that are not valid are rejected.", "quantifier": "all matrices, positions and index lists", "why_tests_cant": "All shapes and index lists.", "anchors": ["src/matrix/matrix.cpp:SetRowFromRow", "src/matrix/matrix.cpp:SetColumnFromColumn", "src/matrix/matrix.cpp:SetColumnFromRow", "src/matrix/matrix.cpp:SortRowsBy"]}
{"id": "C45", "title": "Estimation sample of time series is the largest common window", "statement": "For selected series the sample runs from the latest first observation to the earliest last observation, contains every window in which all are observed, holds exactly the values of that window and has no missing value.", "quantifier": "all panels of series, missing patterns and selections", "why_tests_cant": "All missing patterns.", "anchors": ["src/matrix/dataset.cpp:DatasetTs", "include/matrix_utils.h:DatasetTs"]}
{"id": "C46", "title": "Polynomial product", "statement": "Multiplying two polynomials gives the coefficients of the product, cut at the requested maximum length; the storage request is exact, too small storage is rejected, and trimming a polynomial never changes the polynomial.", "quantifier": "all coefficient vectors over any ring, all maximum lengths", "why_tests_cant": "All lengths and truncation points.", "anchors": ["include/math/polynomial.h:PolynomialMultiply", "src/ldt_math/polynomials/polynomial.cpp:PolynomialMultiply"]}
{"id": "C47", "title": "Polynomial power", "statement": "Raising a polynomial to a non-negative power gives the repeated product, cut at the maximum length, for every exponent.", "quantifier": "all polynomials, exponents and maximum lengths", "why_tests_cant": "Iterated truncation over unbounded exponents; intermediate buffers swap.", "anchors": ["include/math/polynomial.h:PolynomialPower", "src/ldt_math/polynomials/polynomial.cpp:PolynomialPower"]}
{"id": "C48", "title": "Differencing polynomial", "statement": "The differencing coefficients of a (seasonal) integrated model are those of (1-L)^d (1-L^s)^D, and the operator annihilates polynomials of degree below d and seasonal patterns.", "quantifier": "all orders d, D and seasonal periods s", "why_tests_cant": "All orders and periods.", "anchors": ["src/ldt_statistics/modeling/time_series/varma/varma_sizes.cpp:Calculate", "include/math/statistics/inference/models/varma.h:VarmaSizes"]}
{"id": "C49", "title": "Inverse of a matrix polynomial", "statement": "The inverse of a (matrix) polynomial multiplied by the polynomial is one up to the requested length, on both sides, is the only such sequence, and a non-invertible leading coefficient or too small storage is rejected.", "quantifier": "all matrix polynomials with invertible leading coefficient, all lengths", "why_tests_cant": "A recursion of unbounded length in a non-commutative ring.", "anchors": ["src/ldt_math/polynomials/mpolynomial.cpp:PolynomialMInvert", "include/math/polynomial.h:PolynomialMInvert"]}
{"id": "C50", "title": "AR, MA and MA-infinity representations", "statement": "The AR and MA polynomials read from the coefficient matrix put each lag's block at its lag, with the identity at lag 0, and the MA-infinity coefficients Psi satisfy A(L) Delta(L) Psi(L) = M(L) up to the requested length.", "quantifier": "all VARMA orders, coefficient matrices and horizons", "why_tests_cant": "All orders and horizons.", "anchors": ["src/ldt_statistics/modeling/time_series/varma/varma_arma.cpp", "include/math/statistics/inference/models/varma.h:VarmaArma"]}
{"id": "C51", "title": "Lags and sizes of a seasonal model", "statement": "The lags in use are exactly i and s*j for the orders given, in increasing order, and the derived sizes (number of AR, MA and exogenous regressors, observations lost) are consistent with them.", "quantifier": "all orders (p,d,q)(P,D,Q) with seasonal period", "why_tests_cant": "All orders.", "anchors": ["src/ldt_statistics/modeling/time_series/varma/varma_sizes.cpp", "include/math/statistics/inference/models/varma.h:VarmaSizes"]}
{"id": "C52", "title": "Differencing and undifferencing", "statement": "Differencing applies the difference polynomial to every row, undifferencing inverts it given the initial values, and the round trip restores the data.", "quantifier": "all data matrices and difference polynomials", "why_tests_cant": "All lengths and orders.", "anchors": ["src/ldt_statistics/modeling/time_series/varma/varma_sizes.cpp", "src/ldt_statistics/modeling/time_series/varma/varma.cpp:Difference", "src/ldt_statistics/modeling/time_series/varma/varma.cpp:UnDiferences"]}
{"id": "C53", "title": "Forecast error variance", "statement": "The variance reported at horizon h is the sum of Psi_i Sigma Psi_i' over i<h, and no variance decreases with the horizon when Sigma is a covariance matrix.", "quantifier": "all horizons, MA-infinity coefficients and covariance matrices", "why_tests_cant": "Unbounded horizons.", "anchors": ["src/ldt_statistics/modeling/time_series/varma/varma_forecast.cpp:Calculate", "include/math/statistics/inference/models/varma.h:VarmaForecast"]}
{"id": "C54", "title": "Restriction matrices select the free coefficients", "statement": "The restriction matrix maps the free parameters to the coefficients: every restricted coefficient is zero, every other one is its own free parameter (general restrictions), and the final-MA form makes every MA matrix one free number times the identity.", "quantifier": "all parameter counts and restricted index sets", "why_tests_cant": "All index sets.", "anchors": ["src/ldt_statistics/modeling/time_series/varma/varma_restriction.cpp", "include/math/statistics/inference/models/varma.h:VarmaRestriction"]}
{"id": "C55", "title": "The VARMA estimation sample is aligned", "statement": "For every observation of the sample, the left-hand side is the differenced data of that time, each AR column holds the differenced data exactly that lag earlier, each exogenous column the exogenous data of the same time, and MA columns start at zero.", "quantifier": "all data, lag sets, differencing polynomials, exogenous data and sample ends", "why_tests_cant": "All lags, differencing degrees and sample sizes.", "anchors": ["src/ldt_statistics/modeling/time_series/varma/varma.cpp:EstimateOls", "include/math/statistics/inference/models/varma.h:Varma"]}
{"id": "C56", "title": "VARMA residuals solve the model equation", "statement": "The residuals computed for given coefficients satisfy, at every time and in every equation, residual = differenced data minus AR part, exogenous part and MA part evaluated at the earlier residuals (zero before the sample).", "quantifier": "all coefficients, data, lag sets and sample sizes", "why_tests_cant": "The recursion runs over the whole sample.", "anchors": ["src/ldt_statistics/modeling/time_series/varma/varma.cpp:MlUpdateResid", "include/math/statistics/inference/models/varma.h:Varma"]}
{"id": "C57", "title": "VARMA forecasts solve the model equation", "statement": "The first columns of the forecast are the last observations, and every later column satisfies the estimated equation in differences with past residuals where they exist and zero future residuals; levels are restored from the differences.", "quantifier": "all coefficients, data, residuals, horizons, lag sets, differencing polynomials, new or appended exogenous data", "why_tests_cant": "Unbounded horizons.", "anchors": ["src/ldt_statistics/modeling/time_series/varma/varma_forecast.cpp:Calculate", "src/ldt_statistics/modeling/time_series/varma/varma_forecast.cpp:xtprime", "src/ldt_statistics/modeling/time_series/varma/varma.cpp:UnDiferences"]}
{"id": "C58", "title": "Transposition", "statement": "Transposing into a second matrix and transposing in place both give the matrix whose cell (j,i) is the old cell (i,j); transposing twice in place restores every cell; a storage of the wrong shape is refused.", "quantifier": "all matrices of every shape", "why_tests_cant": "The in-place version follows the cycles of a permutation of all cells; its correctness is a fact about every shape.", "anchors": ["src/matrix/matrix_la.cpp:Transpose", "include/matrix.h:Transpose"]}
{"id": "C59", "title": "Kronecker products", "statement": "The four Kronecker routines (A x B, A x I, I x A, A' x I) write exactly the block matrix they name and refuse a storage of another shape.", "quantifier": "all matrices, shapes and identity sizes", "why_tests_cant": "All shapes; four nested loops with computed indexes.", "anchors": ["src/matrix/matrix_la.cpp:Kron", "include/matrix.h:KronIden"]}
{"id": "C60", "title": "Matrix products", "statement": "Dot, DotTr, TrDot and TrDotTr write alpha*op(A)*op(B)+beta*C for every non-empty conformable shape, and refuse exactly the shapes that do not conform.", "quantifier": "all matrices, scalars and shapes", "why_tests_cant": "The leading dimensions, transposition flags and counts handed to BLAS must be right for every shape.", "anchors": ["src/matrix/matrix_la.cpp:Dot", "src/matrix/matrix_la.cpp:TrDot", "include/matrix.h:DotTr"]}
{"id": "C61", "title": "Products of structured matrices", "statement": "A A' and A' A (with the mirrored lower triangle), the products with a symmetric operand, and the products with a diagonal matrix equal the ordinary product and touch only the result.", "quantifier": "all matrices, scalars, triangle choices and shapes", "why_tests_cant": "All shapes; only one triangle is read or written by BLAS.", "anchors": ["src/matrix/matrix_la.cpp:Dot_AAt", "src/matrix/matrix_la.cpp:Dot_AtA", "src/matrix/matrix_la.cpp:SymDot", "src/matrix/matrix_la.cpp:DotDiag"]}
{"id": "C62", "title": "Element-wise arithmetic", "statement": "Adding, subtracting, multiplying or dividing a matrix by a number or by a matrix of the same shape, into a storage or in place, gives in every cell the operation on the corresponding cells (plus beta times the old storage where beta is offered) and nothing else; other shapes are refused; Apply maps every cell, Apply_in pairs of cells, ApplyRow_in/ApplyColumn_in one row or column only.", "quantifier": "all matrices, shapes, numbers and functions", "why_tests_cant": "All shapes and all cells.", "anchors": ["src/matrix/matrix.cpp:Add_in", "src/matrix/matrix.cpp:Multiply0", "src/matrix/matrix.cpp:Apply_in", "include/matrix.h:ApplyColumn_in"]}
{"id": "C63", "title": "Filling, diagonals and triangles", "statement": "SetValue, SetSequence, SetValueDiag, SetValueOffDiag and Diagonal write exactly the cells they name; GetDiag reads the diagonal; MakeTriangular puts the k-th element in the k-th cell of the chosen triangle (mirroring it when both are asked for); non-square matrices and wrong element counts are refused.", "quantifier": "all matrices, element vectors, triangle choices and sizes", "why_tests_cant": "The indexes are computed incrementally; correctness is a fact about every size.", "anchors": ["src/matrix/matrix.cpp:SetSequence", "src/matrix/matrix.cpp:MakeTriangular0", "src/matrix/matrix.cpp:GetDiag", "include/matrix.h:SetValueOffDiag"]}
{"id": "C64", "title": "Comparing and searching cells", "statement": "IsSymmetric, IsDiagonal, Equals, EqualsValue, Any and All answer exactly the question about all cells (with the documented treatment of NaN); IndicesOfVector returns exactly the positions of a value in increasing order; SortByVector permutes by the given indexes.", "quantifier": "all matrices, values, tolerances, NaN policies and index lists", "why_tests_cant": "Universally quantified over cells; early exits.", "anchors": ["src/matrix/matrix.cpp:IsSymmetric", "src/matrix/matrix.cpp:IsDiagonal", "src/matrix/matrix.cpp:Equals", "src/matrix/matrix.cpp:IndicesOfVector", "src/matrix/matrix.cpp:SortByVector"]}
{"id": "C65", "title": "Mean, variance, covariance and correlation of cells", "statement": "Mean, Variance, VarianceColumn, CovarianceColumn and CorrelationColumn return the mean, the (sample or population) variance, covariance and Pearson correlation of the values concerned; with NaN checking the missing cells (or incomplete pairs) are left out and the number used is reported; without it one missing cell makes the result missing. A correlation of numbers with positive variances lies in [-1, 1], a column correlates 1 with itself and its covariance with itself is its variance.", "quantifier": "all matrices, columns, NaN patterns, sample/population choices", "why_tests_cant": "One-pass recurrences: that they equal the definitions is an induction over arbitrary data.", "anchors": ["src/matrix/matrix.cpp:Mean", "src/matrix/matrix.cpp:Variance", "src/matrix/matrix.cpp:VarianceColumn", "src/matrix/matrix.cpp:CovarianceColumn", "src/matrix/matrix.cpp:CorrelationColumn", "include/matrix.h:CorrelationColumn"]}
{"id": "C66", "title": "Sums, covariance matrices and standardization", "statement": "Sum and Trace add the cells they name; RowsSum, ColumnsSum and ColumnsMean give one number per (selected) row or column; ColumnsVariance writes the full symmetric covariance matrix of the columns; ColumnsMeans, ColumnsVariances and ColumnsMeansVariances give one number per column; ColumnsStandard maps every cell to (x - mean)/sd, so that afterwards every column has the mean 0 and variance 1.", "quantifier": "all matrices, index selections, flags and sizes", "why_tests_cant": "All shapes; a relation between input and output of several passes.", "anchors": ["src/matrix/matrix.cpp:RowsSum", "src/matrix/matrix.cpp:ColumnsVariance", "src/matrix/matrix.cpp:ColumnsStandard", "src/matrix/matrix.cpp:ColumnsMeansVariances", "include/matrix.h:ColumnsSum"]}
{"id": "C67", "title": "Extreme cells and their positions", "statement": "Maximum and Minimum return the extreme number of the matrix, ignoring NaN, or an infinity if there is none; max and min also return the position of its first occurrence in column order; MaximumInRow, MinimumInRow, MaximumInColumn and MinimumInColumn do the same within one row or column.", "quantifier": "all matrices, rows, columns and NaN patterns", "why_tests_cant": "Universally quantified over the cells; ties.", "anchors": ["src/matrix/matrix.cpp:Maximum", "src/matrix/matrix.cpp:MaximumInRow", "src/matrix/matrix.cpp:MinimumInColumn", "include/matrix.h:MaximumInRow"]}
{"id": "C68", "title": "Hierarchical clustering ends and builds a dendrogram", "statement": "For every linkage, every number of points and all finite distances HCluster::Calculate ends within 3(n-1) rounds, touches nothing outside its containers, and its node list is a dendrogram: n points followed by n-1 merges, children before parents, every node but the last with exactly one parent, every node knowing its number of points, and the last one containing each point exactly once. A NaN distance, a matrix of the wrong size and an empty set are refused.", "quantifier": "all linkages, numbers of points and finite distances (any ties, negative ones too)", "why_tests_cant": "Termination of the neighbour chain depends on ties and on the reducibility of the linkage, over all distance matrices.", "anchors": ["src/ldt_statistics/clustering/hcluster.cpp:Calculate", "src/ldt_statistics/clustering/hcluster.cpp:Merge2", "src/ldt_statistics/clustering/hcluster.cpp:GetNearestNeighbor"]}
{"id": "C69", "title": "Heights are linkage distances and the result is the greedy one", "statement": "The height of every merge equals the single, complete, UPGMA, WPGMA or Ward distance of the two clusters computed from the given point distances; no merge is lower than those inside it; cutting at any level partitions the points, and any two of the clusters at that level are further apart than the level, which is what always merging the closest pair gives.", "quantifier": "all linkages, distances, merges and levels", "why_tests_cant": "A statement about all clusters of all cuts; the Lance-Williams updates overwrite the input distances in place.", "anchors": ["src/ldt_statistics/clustering/hcluster.cpp:CalculateDistance", "src/ldt_statistics/clustering/hcluster.cpp:Calculate", "include/math/statistics/clustering.h:leftDistanceRight"]}
{"id": "C70", "title": "Cutting the dendrogram into groups", "statement": "For 1 <= k <= n, Group with k requested groups returns k non-empty groups that contain every point exactly once, each the points of one of the clusters that exist after undoing the last k-1 merges, its members in increasing order. With more groups than points the surplus groups are empty.", "quantifier": "all dendrograms (hence all linkages and distances), all n and k", "why_tests_cant": "The recursive split visits nodes in an order of its own; correctness is a statement about all trees and all k.", "anchors": ["src/ldt_statistics/clustering/hcluster.cpp:Group", "src/ldt_statistics/clustering/hcluster.cpp:set_group_var", "include/math/statistics/clustering.h:Group"]}
{"id": "C71", "title": "Merge table in R's convention", "statement": "MergeR returns the n-1 merges by increasing height; a row names a point i by -(i+1) and an earlier merge by its row number, every row uses only points and earlier rows, each point and each row but the last is used exactly once, and row j describes the merge with the j-th height. The last row joins all points.", "quantifier": "all linkages, distances and n >= 2", "why_tests_cant": "Rows are renumbered after a sort; ties and reordering over every possible tree.", "anchors": ["src/ldt_statistics/clustering/hcluster.cpp:MergeR", "include/math/statistics/clustering.h:MergeR"]}
{"id": "C72", "title": "Grouping variables and dropping near duplicates", "statement": "GroupData without a threshold returns the groups of the clustering with missing distances replaced by 0 (and says so). With a threshold it removes from each group the variables nearer than the threshold to an earlier one of the group, reports which variables it removed, and keeps at least one variable of every group.", "quantifier": "all data distances, linkages, group counts and thresholds", "why_tests_cant": "A relation between input distances, groups and the removed list for every input.", "anchors": ["src/ldt_statistics/clustering/group_data.cpp:Calculate", "include/math/statistics/clustering.h:Removed"]}
{"id": "C73", "title": "Distances between variables", "statement": "Distance::Calculate stores for every pair of columns the Euclidean, Manhattan or maximum distance over the rows in which both cells are numbers (with the NaN check), or a NaN if one is missing (Euclidean and Manhattan without it), readable in both orders; each of them is a metric on columns of numbers; data with more columns than announced are refused.", "quantifier": "all metrics, matrices, NaN patterns and declared sizes", "why_tests_cant": "All pairs of columns of all shapes; being a metric is a statement about triples of arbitrary columns.", "anchors": ["src/ldt_statistics/clustering/distance.cpp:Calculate", "include/math/statistics/clustering.h:DistanceMethod"]}
{"id": "C74", "title": "Covariance and correlation matrices", "statement": "Correlation::Calculate (Pearson) fills the matrix with the covariance, or the coefficient of correlation, of every two columns: over the rows in which both have numbers (with the NaN check, reporting how many there were) or over all rows (missing as soon as a cell is missing); the result is symmetric, coefficients lie in [-1, 1], covariance matrices of numbers are positive semidefinite, both routines agree on complete data, and the parts of the storage array fit exactly into the announced StorageSize.", "quantifier": "all matrices, NaN patterns, adjustments, declared sizes", "why_tests_cant": "Statements about all pairs of columns of all shapes and about quadratic forms; memory layout for all sizes.", "anchors": ["src/ldt_statistics/correlation.cpp:pearson", "src/ldt_statistics/correlation.cpp:Calculate", "include/math/statistics/correlation.h:ResultCounts"]}
{"id": "C75", "title": "Distances based on correlations", "statement": "The two correlation distances are sqrt((1-r)/2) and sqrt(1-r^2) of the coefficient of correlation of the two columns; on columns that are not constant both lie between 0 and 1, are symmetric and obey the triangle inequality, and they are zero exactly when one column is an increasing (respectively any non-constant) linear function of the other.", "quantifier": "all matrices, NaN patterns and triples of columns", "why_tests_cant": "The triangle inequality and the zero set are statements about all columns.", "anchors": ["src/ldt_statistics/clustering/distance.cpp:Calculate", "include/math/statistics/clustering.h:kAbsCorrelation"]}
{"id": "C76", "title": "Sorting the columns of a matrix", "statement": "Matrix::Sort fills the storage with every column of the matrix sorted by itself in the chosen order, keeping multiplicities, leaves the rest of the memory alone and refuses a storage of another shape.", "quantifier": "all matrices in which no column has a NaN beside two different numbers (then the call is undefined), both orders", "why_tests_cant": "A statement about all columns of all lengths, with ties.", "anchors": ["src/matrix/matrix.cpp:Sort", "include/matrix.h:Sort"]}
{"id": "C77", "title": "Ranks", "statement": "Rank::Calculate replaces every number by the number of cells of its column that come before it in the chosen order: ranks follow the order of the values, equal values share a rank, different numbers get 0, ..., n-1 each once, increasing transformations change no rank, and a decreasing one swaps the two orders. A matrix with more cells than announced is refused.", "quantifier": "all matrices without incomparable cells, both orders, all declared sizes", "why_tests_cant": "Tie handling and invariance over all columns and all monotone functions.", "anchors": ["src/ldt_statistics/statistics/statistics.cpp:Rank", "include/math/statistics/statistics.h:Rank"]}
{"id": "C78", "title": "Spearman's coefficient", "statement": "Correlation::Calculate with Spearman's method gives the covariance or correlation of the ranks of every two columns, over the complete rows of each pair with the NaN check (reporting their number) and over all rows without it. The coefficient is in [-1, 1], only depends on the order within the columns, is 1 for the same order, equals 1 - 6 sum d^2 / (n (n^2 - 1)) without ties, and does not change when both columns are negated. Exactly the matrices that do not fit are refused.", "quantifier": "all matrices, NaN patterns, adjustments, declared sizes; all monotone transformations", "why_tests_cant": "Invariance and the closed formula quantify over all columns of all lengths.", "anchors": ["src/ldt_statistics/correlation.cpp:spearman", "src/ldt_statistics/correlation.cpp:Calculate", "include/math/statistics/correlation.h:kSpearman"]}
{"id": "C79", "title": "Descriptive statistics", "statement": "Class Descriptive: Minimum and Maximum give the least and the greatest number (NaNs skipped; NaN without cells, infinities for NaNs only), their sorted versions the ends; Sum, SumOfSquares, MeanVariance and MeanVarianceKurtosisSkewness give the sum, the sums of squares, the mean, variance, skewness and kurtosis of the formulas documented (population and sample), NaN where too few numbers are given or all numbers are equal, and NaN as soon as a cell is NaN.", "quantifier": "all arrays of numbers and NaNs, both values of each option", "why_tests_cant": "Running one-pass formulas equal the textbook moments for arrays of every length.", "anchors": ["src/ldt_statistics/statistics/descriptive.cpp:MeanVarianceKurtosisSkewness", "src/ldt_statistics/statistics/descriptive.cpp:MeanVariance", "src/ldt_statistics/statistics/descriptive.cpp:SumOfSquares", "src/ldt_statistics/statistics/descriptive.cpp:Minimum"]}
{"id": "C80", "title": "Quantiles", "statement": "QuantileSorted(tau) is the point at the position (n + 1/3) tau + 1/3 of the broken line through the sorted data: within the range of the data, monotone in tau, the end points at both ends, the k-th number at its plotting position, the usual median, equivariant under changes of origin and scale and symmetric under reversal.", "quantifier": "all sorted arrays and all numbers tau", "why_tests_cant": "Monotonicity and equivariance quantify over all data and all pairs of probabilities.", "anchors": ["src/ldt_statistics/statistics/descriptive.cpp:QuantileSorted"]}
{"id": "C81", "title": "Recursive filter and moving average", "statement": "FilterAr solves y_i = x_i + c_0 y_(i-1) + c_1 y_(i-2) + ... behind a start that is copied; FilterMa gives sum c_j x_(i-j) (one-sided or centred), NaN where the window leaves the series. Both write only cells of the series, refuse storage that is too short; the recursion has one solution, both filters are linear, the moving average with coefficients 1, -c_0, -c_1, ... takes the recursive filter back, and weights give averages within the range of the series.", "quantifier": "all series, coefficients and storages", "why_tests_cant": "Recursions over series of any length; superposition over all pairs of series.", "anchors": ["src/ldt_statistics/statistics/descriptive.cpp:FilterAr", "src/ldt_statistics/statistics/descriptive.cpp:FilterMa"]}
{"id": "C82", "title": "Seasonal decomposition", "statement": "SeasonalDecompositionMa gives the centred (or one-sided) moving average as trend, a seasonal part that repeats with the period and is the average of each season of the series without trend, normalised (sum zero or average one), and a residual such that the three parts add up (or multiply) to the series wherever there is a trend.", "quantifier": "all series, coefficients, periods and both versions", "why_tests_cant": "An identity at every time of every series with any period.", "anchors": ["src/ldt_statistics/statistics/descriptive.cpp:SeasonalDecompositionMa"]}
{"id": "C83", "title": "Regression trend and the inverse of a 2 x 2 matrix", "statement": "RegressionTrend stores the constant and the slope of the line with the least sum of squared distances from the series at the times 1, ..., n - the only one - recovers an exact line, follows changes of origin and scale, and throws for fewer than two numbers. Inv2x2 replaces a matrix with a determinant by its inverse and reports any other matrix, leaving it unchanged.", "quantifier": "all series and all 2 x 2 matrices, in exact arithmetic", "why_tests_cant": "Optimality quantifies over all competing lines and series of every length.", "anchors": ["src/ldt_statistics/statistics/descriptive.cpp:RegressionTrend", "src/matrix/matrix_la.cpp:Inv2x2"]}
{"id": "C84", "title": "Least squares: the estimate of Ols minimises the sum of squares and its residuals are exact", "statement": "For a design matrix of full column rank, the least-squares routine returns exactly the coefficient matrix for which, in every equation, no other coefficients give a smaller sum of squared residuals, and it is the only one; the returned residuals are the data minus the fitted values and are orthogonal to every regressor; the fitted values do not change when the regressors are replaced by another basis, and adding a linear combination of the regressors to the response shifts the coefficients by exactly that combination. A design without full rank is refused with an error, never answered with numbers. The residual variance returned is the variance of the residuals.", "quantifier": "all sizes, all data, all designs (full rank or not), exact arithmetic", "why_tests_cant": "optimality is a statement about all alternative coefficient matrices; tests compare a few fits with reference numbers", "anchors": ["src/ldt_statistics/statistics/statistics.cpp:Ols", "include/math/statistics/statistics.h:Ols", "src/matrix/matrix_la.cpp:Inv00"]}
{"id": "C85", "title": "Generalised least squares: the estimate of Gls minimises the weighted sum of squares", "statement": "For a positive definite weight matrix, the generalised least-squares routine returns the only coefficients that minimise the weighted sum of squares of the residuals, the residuals are exact, and with a multiple of the identity as weights it is ordinary least squares. Data of a wrong size, a singular weight matrix and a weight matrix of a wrong shape are refused with an error.", "quantifier": "all sizes, all data, all symmetric positive definite weights, given directly or as an inverse; exact arithmetic", "why_tests_cant": "optimality ranges over all coefficient vectors", "anchors": ["src/ldt_statistics/statistics/statistics.cpp:Gls", "include/math/statistics/statistics.h:Gls"]}
{"id": "C86", "title": "Histogram: every datum is counted once, in the bin that contains it", "statement": "The counts of a histogram sum to the number of data; the first count is the number of data below the first break, each further one the number from a break (included) to the next (not included; included for the last bin), and the last one the number above. With bins of the same width the breaks are min + i*(max - min)/bincount, and if the range is that of the data nothing is counted outside. A given range and number of bins are used as they are; the automatic range is that of the data, cut at a multiple of the interquartile range from the quartiles, and is never empty. Missing sizes, an empty range, zero bins or a zero width are refused.", "quantifier": "all data, all breaks, all widths, ranges and numbers of bins (exact arithmetic)", "why_tests_cant": "the property is about every datum and every set of breaks, including data that lie on breaks", "anchors": ["src/ldt_statistics/distributions/histogram.cpp:fill", "src/ldt_statistics/distributions/histogram.cpp:Compute", "src/ldt_statistics/distributions/histogram.cpp:ComputeV"]}
{"id": "C87", "title": "Histograms of data with missing cells are those of the numbers alone", "statement": "Removing the missing cells of the data in place keeps exactly the numbers of it in their order, sets the length to their number, keeps a row a row and a column a column, and touches no memory outside the vector; histograms that are asked to skip missing cells are those of the numbers alone, and a vector without numbers is refused.", "quantifier": "all vectors, all patterns of missing cells", "why_tests_cant": "there are exponentially many patterns of missing cells", "anchors": ["src/matrix/matrix.cpp:RemoveNanVector_in", "src/ldt_statistics/distributions/histogram.cpp:ComputeV"]}
{"id": "C88", "title": "Systems of regressions without restrictions: each equation gets its least squares", "statement": "Calculating a system of m regressions with common regressors, for independent regressors and residuals, stores coefficients that are, in each equation, the only ones with the least sum of squared residuals; the fitted values, residuals and residual covariances that belong to them; as covariance of two coefficients the covariance of their equations times the entry of the inverse of X'X; and, if details are asked for, the roots of the variances, the quotients and their probabilities. Dependent regressors, dependent residuals of several equations, empty data and data larger than announced are refused with an error; smaller data is accepted; nothing outside the announced storage and work is touched.", "quantifier": "all sizes, data, announced sizes and contents of the work arrays; exact arithmetic", "why_tests_cant": "optimality ranges over all competing coefficients, and memory safety over all sizes and layouts", "anchors": ["src/ldt_statistics/modeling/linear/sur.cpp:Sur::Calculate", "src/ldt_statistics/modeling/linear/sur.cpp:Sur::estim_un", "include/math/statistics/inference/models/sur.h:Sur"]}
{"id": "C89", "title": "Systems of regressions with linear restrictions: feasible generalised least squares", "statement": "With restrictions vec(B) = R g, calculating the system stores the only g with the least sum of squares of the whole system, weighted with the inverse of the covariances of the residuals of the unrestricted fit; B is R g, fitted values, residuals and covariances belong to B, and the covariances of g are the inverse of R'(S^-1 x X'X)R. If R is the identity this is the equation-by-equation regression. Dependent regressors or restrictions, restrictions for another number of coefficients, or residuals without invertible covariances are refused with an error, never answered with other numbers.", "quantifier": "all sizes, data, restrictions and announced sizes; exact arithmetic", "why_tests_cant": "optimality ranges over all restricted coefficients; the failing case needs collinear residuals", "anchors": ["src/ldt_statistics/modeling/linear/sur.cpp:Sur::estim_r", "src/ldt_statistics/modeling/linear/sur.cpp:Sur::calculate_details"]}
{"id": "C90", "title": "The search for significant coefficients ends, keeps significant coefficients only, and reports their numbers", "statement": "With a number of search rounds, the calculation ends after at most that many rounds (and at most one per coefficient); if it ends before the last round, every kept coefficient is significant at the given level, the others are exactly zero, and the estimate is the restricted least-squares estimate for the kept ones; the details reported belong to that estimate, also if every coefficient was significant at once. If no coefficient is significant in some round an error is reported. A search without a square restriction matrix or with level zero is refused.", "quantifier": "all data, all levels, all numbers of rounds", "why_tests_cant": "the set of kept coefficients depends on the whole history of rounds", "anchors": ["src/ldt_statistics/modeling/linear/sur.cpp:Sur::estim_search", "src/ldt_statistics/modeling/linear/sur.cpp:Sur::calculate_details"]}
{"id": "C91", "title": "Writing rows, columns and parts of vectors changes exactly those cells", "statement": "Setting a row or a column (from a vector or from the diagonal of a square matrix), a part of a row or a part of a vector changes exactly the named cells to the cells of the source and leaves every other cell and the shape alone; an index outside, a part beyond the end and a source that does not fit are refused with an error, never read or written past the end. Copying a part of a vector out and dropping missing cells give the cells asked for, in their order.", "quantifier": "all matrices, sources, positions and lengths, including negative ones", "why_tests_cant": "the frame condition is about every other cell for every shape, and the out-of-range cases are silent in tests", "anchors": ["src/matrix/matrix.cpp:SetRow", "src/matrix/matrix.cpp:SetColumn", "src/matrix/matrix.cpp:SetSubRow", "src/matrix/matrix.cpp:SetSubVector", "src/matrix/matrix.cpp:SetRowFromDiag", "src/matrix/matrix.cpp:RemoveNanVector"]}
{"id": "C92", "title": "Products of matrices with vectors, products that skip missing cells, and sorted positions of a vector", "statement": "DotVector and tDotVector give alpha times the product with the matrix (or its transpose) plus beta times the old vector; the product of two vectors is the sum of the products of their cells; A'A with missing cells gives, for every two columns, the sum over the rows in which both have numbers and how many these are; operands that are no vectors or do not fit are refused. The sorted positions of a vector are each position once, in the order of the values, equal values in their old order.", "quantifier": "all matrices, vectors, factors, patterns of missing cells", "why_tests_cant": "an algebraic identity for matrices of every size", "anchors": ["src/matrix/matrix_la.cpp:DotVector", "src/matrix/matrix_la.cpp:tDotVector", "src/matrix/matrix_la.cpp:VectorDotVector", "src/matrix/matrix_la.cpp:Dot_AtA_nan", "src/matrix/matrix.cpp:SortIndicesVector"]}
{"id": "C93", "title": "Projections of a system of regressions are x B, with the covariance of a new observation", "statement": "For an estimated system and new regressors, the projection of every row in every equation is the sum of regressors times coefficients; the covariance of the projection errors is that of the residuals plus (I x x')V(I x x), with V the covariance of the coefficients (R V R' under restrictions); without restrictions the variance in an equation is its residual variance times 1 + x (X'X)^-1 x'. New data with another number of regressors, or more of it than announced, is refused, and nothing outside the announced arrays is touched.", "quantifier": "all sizes, estimates, restrictions, new data and announced sizes; exact arithmetic", "why_tests_cant": "holds for all numbers of rows and all layouts of the work array", "anchors": ["src/ldt_statistics/modeling/linear/sur_projection.cpp:Calculate", "src/ldt_statistics/modeling/linear/sur_projection.cpp:SurProjection"]}
{"id": "C94", "title": "Goodness of fit of a system of regressions", "statement": "With details, the coefficient of determination reported is 1 minus the sum of the squared residuals over the sum of the squared distances from the means; it is at most one, one exactly without residuals, not negative (and zero exactly if the means fit as well) if the constant is among the regressors, never smaller with more regressors, never greater with restrictions, and not a number if the variables are all constant. The F statistic is (R2/d1)/((1-R2)/d2), with the degrees of freedom of the test that all slopes are zero, and its probability is reported if it is not negative. Without more observations than regressors details are refused.", "quantifier": "all sizes and data, all competing coefficients; exact arithmetic", "why_tests_cant": "bounds and comparisons between all nested models", "anchors": ["src/ldt_statistics/modeling/linear/sur.cpp:R2", "src/ldt_statistics/modeling/linear/sur.cpp:F", "src/ldt_statistics/modeling/linear/sur.cpp:Sur::calculate_details"]}
{"id": "C95", "title": "Nelder-Mead: the reported minimum is the objective at the reported point and never worse than the start", "statement": "Minimize first moves the starting point to the nearest point of the box given by the bounds (a missing starting value or crossed bounds are refused). What is minimised is the objective plus the multiplier times the squared distances to the box; a point where the objective fails counts as infinitely bad. For any such objective the search ends after at most MaxIteration iterations, the reported minimum is the minimised function at the reported point, it is not worse than at the starting point or at any corner of the first simplex, a larger MaxIteration never gives a worse minimum, and if fewer iterations were made then the values at the corners of the simplex differ by less than the tolerance.", "quantifier": "all objectives (including failing, missing and infinite values), starting points, bounds, parameters; any rounding of the arithmetic", "why_tests_cant": "the objective is an arbitrary function; a test runs a few smooth ones", "anchors": ["src/ldt_math/optimization/nelder_mead.cpp:NelderMead::Minimize", "src/ldt_math/optimization/nelder_mead.cpp:PenaltyFunction", "include/math/optimization.h:NelderMead"]}
{"id": "C96", "title": "Nelder-Mead for one variable: within the bounds, never worse than the start, stops at a local minimum", "statement": "Minimize1 returns a point between the bounds where the objective is not larger than at the (moved) starting point, after at most max_iter iterations; if it made fewer, the objective is strictly larger at distance s on both sides for some s below the tolerance; it stops as soon as the tolerance is met.", "quantifier": "all objectives, starting points, bounds, steps and tolerances; any rounding of the arithmetic", "why_tests_cant": "the objective is an arbitrary function", "anchors": ["src/ldt_math/optimization/nelder_mead.cpp:Minimize1", "include/math/optimization.h:Minimize1"]}
{"id": "C97", "title": "Newton: descent by Wolfe steps, values that belong to the final point, exactness for quadratics", "statement": "Minimize reaches the final point by at most IterationMax steps along Newton directions; the reported function value, gradient and Hessian are those of the final point; with line search every step satisfies the weak Wolfe conditions or does not move, and the value is never larger than at the start; if fewer iterations were made, the norm of the gradient or the last change is below its tolerance. For a strictly convex quadratic one step gives the only minimum, with or without line search. A Hessian that is not positive definite and too many variables are refused.", "quantifier": "all functions with finite gradients and Hessians (values may be missing or infinite), all starting points and settings; exact arithmetic", "why_tests_cant": "the function is arbitrary; the invariants hold along every path", "anchors": ["src/ldt_math/optimization/newton.cpp:Newton::minimize", "src/ldt_math/optimization/newton.cpp:wolfe_weak", "src/ldt_math/optimization/newton.cpp:norm2", "include/math/optimization.h:Newton"]}
{"id": "C98", "title": "Numerical derivatives: extrapolated difference quotients, exact for polynomials", "statement": "CalculateFirst and CalculateSecond report the Richardson extrapolation of the central difference quotients with steps h, h/T, h/T^2, ...; they are exact for polynomials of total degree up to count (first) or count + 1 (second), one more if count is odd; the matrix of second derivatives is symmetric; derivatives up to 1e-16 are reported as zero; the function is only called at points whose coordinates are within the step of x; n is the maximum dimension of x, a larger x or a derivative not asked for is refused; the blocks fit into the announced work array.", "quantifier": "all functions, polynomials, points, step settings, factors T > 1, counts and dimensions; exact arithmetic", "why_tests_cant": "exactness is an algebraic identity for every polynomial and every count, a test compares a few functions up to a tolerance", "anchors": ["src/ldt_math/derivative.cpp:Derivative::CalculateFirst", "src/ldt_math/derivative.cpp:Derivative::CalculateSecond", "include/math/functionx.h:Derivative"]}
{"id": "C99", "title": "Discrete distributions: the mass function and its moments", "statement": "For every accepted parameter that describes a law, GetPdfOrPmf of the Poisson, geometric, Bernoulli, binomial and discrete uniform distributions is non-negative and sums to one over the integers, and GetMean, GetVariance, GetSandardDeviation, GetSkewness and GetKurtosis are the mean, variance, standard deviation, skewness and excess kurtosis of that mass function; GetProperty returns the property it is asked for.", "quantifier": "all rates, probabilities, numbers of trials and integer bounds accepted by the constructor", "why_tests_cant": "sums over infinitely many points, for every parameter value", "anchors": ["src/ldt_statistics/distributions/distributions_uni.cpp:GetPdfOrPmf", "src/ldt_statistics/distributions/distributions_uni.cpp:GetMean", "include/math/statistics/distributions.h:Distribution"]}
{"id": "C100", "title": "Continuous distributions: the density and its moments", "statement": "For every accepted parameter that describes a law, GetPdfOrPmf of the normal, log-normal, continuous uniform, gamma, chi-squared, exponential, beta, Student t and F distributions is non-negative with integral one, and GetMean, GetVariance, GetSandardDeviation, GetSkewness and GetKurtosis are those of that density; for t and F a moment is reported as a number exactly if it exists.", "quantifier": "all real parameters accepted by the constructor", "why_tests_cant": "integrals over the line, for every parameter value; no test evaluates them", "anchors": ["src/ldt_statistics/distributions/distributions_uni.cpp:GetPdfOrPmf", "src/ldt_statistics/distributions/distributions_uni.cpp:GetVariance", "include/math/statistics/distributions.h:Distribution"]}
{"id": "C101", "title": "Distributions: GetCdf accumulates the density or mass", "statement": "For every accepted parameter that describes a law and every x, GetCdf(x) is the integral of GetPdfOrPmf up to x (continuous types), or the sum of the masses at integers not above x (discrete types, at integers x): never below zero, never decreasing, tending to one.", "quantifier": "all parameters accepted by the constructor, all x", "why_tests_cant": "integrals and infinite sums for every parameter and every x", "anchors": ["src/ldt_statistics/distributions/distributions_uni.cpp:GetCdf", "src/ldt_statistics/distributions/distributions_uni.cpp:GetPdfOrPmf"]}
{"id": "C102", "title": "Distributions: GetQuantile inverts GetCdf", "statement": "For 0 < p < 1 GetQuantile(p) of a continuous distribution is the point up to which the density integrates to p, and of a discrete distribution the smallest integer whose cumulated mass reaches p; for p <= 0 it is the minimum and for p >= 1 the maximum of the support.", "quantifier": "all parameters accepted by the constructor, all probabilities", "why_tests_cant": "the search for discrete types starts at a normal approximation and stops after a bounded number of steps; which inputs it misses is not seen by sampling", "anchors": ["src/ldt_statistics/distributions/distributions_uni.cpp:GetQuantile", "src/ldt_statistics/distributions/distributions_uni.cpp:GetCdf"]}
{"id": "C103", "title": "Distributions: GetPdfOrPmfLog is the logarithm of GetPdfOrPmf", "statement": "Wherever GetPdfOrPmf is positive, GetPdfOrPmfLog is its natural logarithm; where it is zero, GetPdfOrPmfLog is minus infinity.", "quantifier": "all parameters accepted by the constructor, all x", "why_tests_cant": "two separately coded formulas must agree for all parameters and all x", "anchors": ["src/ldt_statistics/distributions/distributions_uni.cpp:GetPdfOrPmfLog", "src/ldt_statistics/distributions/distributions_uni.cpp:GetPdfOrPmf"]}
{"id": "C104", "title": "Distributions: listing a discrete support", "statement": "For a window of integers, GetPmfSupportSize is the number of possible integers in it, and GetPmfSupport lists consecutive integers, each once, with its mass (or log-mass); a window around a bounded support lists masses that add up to one; plot mode puts each value between two zeros at the same point; continuous types are refused.", "quantifier": "all discrete types and parameters, all windows and lengths", "why_tests_cant": "counts and lists for every window, of any length", "anchors": ["src/ldt_statistics/distributions/distributions_uni.cpp:GetPmfSupportSize", "src/ldt_statistics/distributions/distributions_uni.cpp:GetPmfSupport", "src/ldt_statistics/distributions/distributions_uni.cpp:GetPmfSupportIncrement"]}
{"id": "C105", "title": "Distributions: GetMedian is a median", "statement": "GetMedian of a continuous distribution is a number up to which the density integrates to one half; of a discrete distribution, a number that a value does not exceed with probability at least one half and does not fall below with probability at least one half; no number is reported for the types without a formula.", "quantifier": "all parameters accepted by the constructor", "why_tests_cant": "the claim is about integrals and sums for every parameter value", "anchors": ["src/ldt_statistics/distributions/distributions_uni.cpp:GetMedian", "src/ldt_statistics/distributions/distributions_uni.cpp:GetPdfOrPmf"]}
{"id": "C106", "title": "Distributions: GetMode is where the density is largest", "statement": "Wherever GetMode reports a number m, GetPdfOrPmf(y) <= GetPdfOrPmf(m) for every y (every integer y for a discrete distribution).", "quantifier": "all parameters accepted by the constructor, all points y", "why_tests_cant": "a maximum over the whole line, for every parameter value", "anchors": ["src/ldt_statistics/distributions/distributions_uni.cpp:GetMode", "src/ldt_statistics/distributions/distributions_uni.cpp:GetPdfOrPmf"]}
{"id": "C107", "title": "Mixtures: density, mass function, distribution function and range are those of the weighted components", "statement": "A mixture is accepted exactly for equally many positive weights and components, at least one. Its GetPdfOrPmf is a density (continuous components) or mass function (discrete components), the weighted average of the components'; GetCdf is the integral or sum of it; GetMinimum and GetMaximum are the smallest and largest of the components'; mixed types are refused.", "quantifier": "all lists of weights and components, all points", "why_tests_cant": "integrals and sums over the whole line for every list of components", "anchors": ["src/ldt_statistics/distributions/mixture.cpp:DistributionMixture", "src/ldt_statistics/distributions/mixture.cpp:GetCdf", "src/ldt_statistics/distributions/mixture.cpp:GetPdfOrPmf"]}
{"id": "C108", "title": "Mixtures: GetMoments gives the moments of the mixture", "statement": "If the components report the mean, variance, skewness and kurtosis of their densities or mass functions, GetMoments reports those of the mixture's; GetMomentsNormal does so for normal components.", "quantifier": "all lists of positive weights and components with positive variance", "why_tests_cant": "moments are integrals, for every list of components", "anchors": ["src/ldt_statistics/distributions/mixture.cpp:GetMoments", "src/ldt_statistics/distributions/mixture.cpp:GetMomentsNormal"]}
{"id": "C109", "title": "Mixtures: support of a discrete mixture, and choice of components in sampling", "statement": "GetPmfSupportSize counts the integers of the window inside the range of the mixture; GetPmfSupport lists them in order with the mixture's masses (or logarithms; or with zeros around each for a plot), and a window around a bounded range lists masses that add up to one. GetSample draws from a component exactly for an interval of draws as long as its weight.", "quantifier": "all mixtures of discrete components, all integer windows and lengths, all draws", "why_tests_cant": "quantifies over all windows and mixtures", "anchors": ["src/ldt_statistics/distributions/mixture.cpp:GetPmfSupportSize", "src/ldt_statistics/distributions/mixture.cpp:GetPmfSupport", "src/ldt_statistics/distributions/mixture.cpp:GetSample"]}
{"id": "C110", "title": "Distributions by 103 quantiles: interpolation, inverse and combination", "statement": "GetQuantileApprox and GetCDFApprox join the points (0.0001, 0.001, 0.01..0.99, 0.999, 0.9999; quantiles) by straight lines, are inverse to each other between the outermost points, and the quantile function rises and goes on along the outer lines; Combine copies a single distribution and gives 103 values, each not farther from its probability than the value before it.", "quantifier": "all strictly increasing lists of 103 quantiles, all arguments, all lists of distributions and weights", "why_tests_cant": "quantifies over all arguments and all quantile vectors", "anchors": ["src/ldt_statistics/distributions/empirical103.cpp:GetCDFApprox", "src/ldt_statistics/distributions/empirical103.cpp:GetQuantileApprox", "src/ldt_statistics/distributions/empirical103.cpp:Combine"]}
{"id": "C111", "title": "Discrete choice: predicted probabilities", "statement": "GetProbabilities writes, for each row of regressors, the probability of each choice in the latent-variable model (logistic or normal error, cutoffs 0 and the fitted ones): cumulative sums are the distribution function at the cutoffs, all choices sum to one, all are positive if the cutoffs increase (which they do after a fit in which each choice is observed and has a likelihood), larger indexes move probability upwards, nothing else is written.", "quantifier": "all coefficients, cutoffs, regressors, numbers of choices; logit and probit; two or more choices", "why_tests_cant": "quantifies over all real coefficients and all numbers of choices", "anchors": ["src/ldt_statistics/modeling/discrete/discrete_choice.cpp:GetProbabilities", "src/ldt_statistics/modeling/discrete/discrete_choice.cpp:ordermu"]}
{"id": "C112", "title": "Binary logit and probit: what is maximised", "statement": "The objective of a binary estimation is minus the weighted logarithm of the likelihood; its gradient and Hessian functions are its derivatives in every direction; the Hessian is symmetric, positive semidefinite, and positive definite for independent regressors; a point with zero gradient is the maximum over all coefficients, the only one for independent regressors; integer weights are repeated observations.", "quantifier": "all data with choices 0/1, all regressors, nonnegative weights and coefficients", "why_tests_cant": "derivatives and global maxima are statements about all real coefficients", "anchors": ["src/ldt_statistics/modeling/discrete/discrete_choice.cpp:EstimateBinary"]}
{"id": "C113", "title": "Ordered logit and probit: what is maximised", "statement": "The objective of an ordered estimation is minus the weighted logarithm of the likelihood where the observed choices have positive probability (NaN for cutoffs in the wrong order around an observed choice); its gradient and Hessian functions are its derivatives in every direction and touch no cell behind the last cutoff; the Hessian is positive semidefinite, and definite if each middle choice is observed and the regressors are independent; a point with zero gradient is the maximum over all coefficients and increasing cutoffs; integer weights are repeated observations.", "quantifier": "all data, numbers of choices >= 3, regressors, nonnegative weights, coefficients and cutoffs", "why_tests_cant": "derivatives and global maxima are statements about all real coefficients", "anchors": ["src/ldt_statistics/modeling/discrete/discrete_choice.cpp:EstimateOrdered"]}
{"id": "C114", "title": "Discrete choice: the estimated model", "statement": "An estimation refuses data without observations, without coefficients or with a choice that does not occur (and arguments of other sizes); else, if it returns, the counts are the weights of the observations with each choice, LogL is the log-likelihood at the estimates and not below that at the start, Aic and Sic follow from it, the cutoffs increase, a zero gradient means the (only) maximum over all coefficients, BetaVar is the inverse of the second derivatives there, positive definite, with standard errors, z and two-sided normal probabilities that follow from it; a start that is the maximum is returned; weights that are numbers of observations give the results of repeated observations; all blocks fit in the arrays the constructor announced; and an observation whose choice is out of range is reported.", "quantifier": "all data, regressors, weights, starts, options of the optimiser, numbers of choices; logit and probit", "why_tests_cant": "quantifies over all data and over all coefficients the estimates are compared with", "anchors": ["src/ldt_statistics/modeling/discrete/discrete_choice.cpp:Calculate", "src/ldt_statistics/modeling/discrete/discrete_choice.cpp:EstimateBinary", "src/ldt_statistics/modeling/discrete/discrete_choice.cpp:EstimateOrdered"]}
{"id": "C115", "title": "Discrete choice: starting values", "statement": "Without starting values the estimation starts from coefficients (proportional to those) of the least squares regression weighted with the inverse variances that follow from a first one, which is the only best one for independent regressors and refused for others; the starting cutoffs increase and give each choice its share in the sample; whenever the model can be estimated the start is made of numbers.", "quantifier": "all data, regressors, nonnegative weights, numbers of choices; logit and probit", "why_tests_cant": "quantifies over all data and all competing coefficients", "anchors": ["src/ldt_statistics/modeling/discrete/discrete_choice.cpp:EstimatePriorBinary", "src/ldt_statistics/modeling/discrete/discrete_choice.cpp:EstimatePriorOrdered"]}
{"id": "C116", "title": "Discrete choice: estimation from a table with scores", "statement": "The sample is the complete rows of the table in their order (all rows without the check), with the choice in the first column, the weights in the second if there are any and the regressors in the others; the model is that estimated from this sample; the probabilities it reports for other rows of regressors and for the sample are those of the estimated model; for two choices the score is the weighted mean squared error of the probability of choice 1 (between 0 and 1, 0 only for exact probabilities) and the area under the curve the weighted share of correctly ordered pairs; the object's arrays suffice for the sizes it was made for; with more than two choices there are no scores.", "quantifier": "all tables (with missing cells), weights, regressors, options, rows whose probabilities are wanted; logit and probit", "why_tests_cant": "quantifies over all tables and over all sizes of the object and of the table", "anchors": ["src/ldt_statistics/modeling/discrete/discrete_choice_extended.cpp:Calculate", "src/ldt_statistics/modeling/discrete/discrete_choice_extended.cpp:DiscreteChoiceExtended"]}
{"id": "C117", "title": "Discrete choice: out-of-sample scores", "statement": "In every simulation each row of the table is either in the training or in the test sample, the model is estimated from the training sample alone and the scores use its probabilities for the test sample; simulations whose model cannot be estimated are left out, and if they are too many or all there is no result; the ratio of a cost matrix is the total cost divided by the total count of all valid simulations, the area the mean of the areas, the cell of the table the (weighted) number of test observations of a choice whose probability is in the range of the row, the score the mean of the scores; the work array suffices.", "quantifier": "all tables, cost matrices, options, numbers of simulations, orders of shuffling, failures of the estimation", "why_tests_cant": "quantifies over all orders in which the rows are shuffled and over all patterns of failing estimations", "anchors": ["src/ldt_statistics/modeling/discrete/discrete_choice_sim.cpp:Calculate", "src/ldt_statistics/modeling/discrete/discrete_choice_sim.cpp:DiscreteChoiceSim"]}
{"id": "C118", "title": "Averages over the models of a search", "statement": "However the models are divided over the searchers and in whatever order they are estimated and combined, the combined mixture is the number, the sum of the weights and the mean, variance, skewness and kurtosis of the mixture of normal distributions whose weights, means and variances are those of the estimates; the combined probability at each requested point is the probability this mixture gives to the values up to the point; the inclusion weight of a variable is the average weight of the models that contain it; the extreme bounds enclose all intervals; a summary keeps the best models in order and, if asked for, all models; a request for a summary that does not exist is refused.", "quantifier": "all sequences of models and estimates, all weights, all divisions over searchers, all requested points", "why_tests_cant": "quantifies over all sequences of models and all divisions over the searchers", "anchors": ["src/ldt_statistics/modeling/search/summary.cpp:Push", "src/ldt_statistics/modeling/search/modelset.cpp:CombineInclusionWeights", "src/ldt_statistics/modeling/search/modelset.cpp:CombineCdfAt", "src/ldt_statistics/modeling/search/modelset.cpp:CombineMixture"]}
{"id": "C119", "title": "A search over regression models keeps exactly the models that were estimated", "statement": "Whatever was estimated before, the estimator works on the columns of the model (endogenous variables, weight, exogenous variables) and finds its targets; a search that is not cancelled tries every model once; each summary has received exactly the models that were estimated, contain the target and have the metric, with the weight of the metric (relative to the smallest metric given for the target), and the coefficients that the model has; a model that fails leaves no trace and is counted as a failure; the averages, probabilities and inclusion weights reported for the whole search are those over all these models of all searchers.", "quantifier": "all options, all combinations, all sequences of calls, all estimators (also ones that remember, fail or throw), cancellation at any time", "why_tests_cant": "quantifies over all sequences of models and all behaviours of the estimation", "anchors": ["src/ldt_statistics/modeling/search/searcher_reg.cpp:EstimateOne", "src/ldt_statistics/modeling/search/searcher_reg.cpp:SearcherReg"]}
{"id": "C120", "title": "The options of a search mean what they say after they are updated", "statement": "The metric options are refused exactly if they contradict themselves (out-of-sample metrics without simulations, simulations without a training sample, horizons without metrics or the converse); otherwise each metric is marked with its orientation, each metric has its position among the chosen ones, a fixed training size overrides the ratio; a model is estimated on the full sample exactly if that is asked for, or an in-sample metric is chosen, or a limit is set; every limit that is set is in force; updating again changes nothing.", "quantifier": "all options, all lists of metrics, all previous contents of the options", "why_tests_cant": "quantifies over all combinations of options, not only the usual ones", "anchors": ["src/ldt_statistics/modeling/search/summary.cpp:SearchMetricOptions::Update", "src/ldt_statistics/modeling/search/summary.cpp:SearchModelChecks::Update", "src/ldt_statistics/modeling/search/summary.cpp:SearchItems::Update"]}
{"id": "C121", "title": "A search over discrete choice models reports the results of the models it estimated", "statement": "For every combination of variables: the sample is made of the complete rows of the chosen columns; what is reported as AIC, SIC, coefficients and variances is that of the model estimated for this sample; in-sample scores are those of its fitted probabilities and out-of-sample scores those of the simulations; a model beyond a limit of the search (observations, degrees of freedom, condition number, AIC, SIC, valid simulations) is not reported and one within the limits is; a cancelled call is the only one that returns early; the memory that was reserved suffices.", "quantifier": "all data (also with missing cells), all sets of columns, all options of the search, all moments of cancellation", "why_tests_cant": "quantifies over all data and all combinations of options, metrics and limits", "anchors": ["src/ldt_statistics/modeling/discrete/discrete_choice_modelset.cpp:DiscreteChoiceSearcher::EstimateOneReg", "src/ldt_statistics/modeling/discrete/discrete_choice_modelset.cpp:DiscreteChoiceSearcher::DiscreteChoiceSearcher"]}
{"id": "C122", "title": "A search over discrete choice models is set up exactly for possible requests and tries the wanted models", "statement": "Setting up a search either succeeds or throws: it succeeds exactly for the requests that can be carried out (at least two choices, a constant, existing variables, valid cost tables where costs are wanted, possible sizes, usable options). There is one searcher for each size and each law, with its own seed; their work arrays fit into the memory that is announced; each tries every model of its size with the fixed variables exactly once, and keeps the metrics and coefficients of the models that were estimated; the number of models counted is the one announced; the order in which the searchers run has no influence, and a cancellation leaves the remaining ones untouched.", "quantifier": "all data, options, lists of partitions, sizes and cost tables, all orders of the searchers and moments of cancellation", "why_tests_cant": "quantifies over all requests, permutations and cancellation points", "anchors": ["src/ldt_statistics/modeling/discrete/discrete_choice_modelset.cpp:DiscreteChoiceModelset::DiscreteChoiceModelset", "src/ldt_statistics/modeling/search/modelset.cpp:ModelSet::ModelSet", "src/ldt_statistics/modeling/search/modelset.cpp:ModelSet::Start", "src/ldt_statistics/modeling/search/modelset.cpp:ModelSet::GetExpectedNumberOfModels"]}
{"id": "C123", "title": "From a table to a checked and projected system of regressions", "statement": "Estimating a system of regressions from a table with missing cells uses exactly the complete rows, in their order; it throws if there are fewer rows or degrees of freedom than the checks ask for, if the system cannot be estimated, or if the condition number, a criterion or the coefficient of determination of that estimate is beyond its bound (a value that is NaN is never beyond); otherwise it holds the least-squares estimate of those rows, the logarithm of the likelihood, Akaike's and Schwarz's criterion and the coefficient of determination of it, and for the new rows the projections with the variances s_jj (1 + z'(X'X)^-1 z). New rows with another number of columns and a search without a matrix are refused.", "quantifier": "all tables, numbers of equations and regressors, new rows, checks and options", "why_tests_cant": "quantifies over all tables and checks", "anchors": ["src/ldt_statistics/modeling/linear/sur_extended.cpp:SurExtended::SurExtended", "src/ldt_statistics/modeling/linear/sur_extended.cpp:SurExtended::Calculate", "src/ldt_statistics/modeling/linear/sur.cpp:Sur::calculate_details"]}
{"id": "C124", "title": "The condition number of a system of regressions", "statement": "The condition number reported for a system of regressions is the product of the norms (greatest column sum) of the moments of the regressors and of their inverse: it is at least one, one for orthogonal regressors of the same length, and does not depend on a common unit of the regressors. With restrictions it is that of the matrix that is inverted.", "quantifier": "all regressors, restrictions and sizes", "why_tests_cant": "quantifies over all matrices", "anchors": ["src/ldt_statistics/modeling/linear/sur.cpp:Sur::estim_un", "src/ldt_statistics/modeling/linear/sur.cpp:Sur::estim_r", "src/matrix/matrix_la.cpp:Matrix<Tw>::Norm"]}
{"id": "C125", "title": "Out-of-sample scores of a system of regressions", "statement": "Simulating a system of regressions repeats: split the table into two samples, estimate on the first, project the second, compare. Whatever the random orders, each iteration scores only rows that were not used to estimate; an iteration whose system cannot be estimated or whose condition number is beyond the limit is dropped. The score reported for a variable and a metric is that of the mean loss over all observations of all valid iterations. There is no result if more iterations are dropped than allowed, the number of iterations is not positive, or a sample is empty. The deviations used for the CRPS are those of the projected variable.", "quantifier": "all tables, split ratios, orders of the rows, numbers of iterations, metrics, limits and Box-Cox transformations", "why_tests_cant": "quantifies over all random orders and tables", "anchors": ["src/ldt_statistics/modeling/linear/sur_simulation.cpp:SurSimulation::SurSimulation", "src/ldt_statistics/modeling/linear/sur_simulation.cpp:sumScores", "src/ldt_statistics/modeling/linear/sur_simulation.cpp:SurSimulation::Calculate"]}
{"id": "C126", "title": "One model of a search over systems of regressions", "statement": "For each set of variables the searcher estimates the system of the group of dependent variables on the selected regressors, with the complete rows of these columns only. The memory it asked for holds every block. A model that cannot be estimated, has too few observations or a criterion beyond its limit is not used. Otherwise the reported AIC and SIC are those of the least squares system, a kept coefficient and variance for a target are those of the equation of that target, the scores are those of the simulations of that system, and every metric that is asked for is reported.", "quantifier": "all data with missing cells, groups, selections, options, checks and orders of the simulations", "why_tests_cant": "quantifies over all data sets, groups and selections", "anchors": ["src/ldt_statistics/modeling/linear/sur_modelset.cpp:SurSearcher::SurSearcher", "src/ldt_statistics/modeling/linear/sur_modelset.cpp:SurSearcher::EstimateOneReg", "src/ldt_statistics/modeling/search/searcher_reg.cpp:SearcherReg::EstimateOne"]}
{"id": "C127", "title": "A search over systems of regressions", "statement": "Making the search throws exactly for requests that contradict themselves. Otherwise there is one searcher for each size (with room for the fixed partitions) and each group of dependent variables with a target, in the order of the request, with its own seed; each tries every model of its size exactly once, and its summaries receive only least squares systems of the complete rows of their columns, within the limits. Groups without a target are left out. The work array is large enough for every searcher; the announced number of models is the number tried.", "quantifier": "all requests: data, partitions, sizes, groups, options, checks, limits", "why_tests_cant": "quantifies over all requests and all models of each searcher", "anchors": ["src/ldt_statistics/modeling/linear/sur_modelset.cpp:SurModelset::SurModelset", "src/ldt_statistics/modeling/linear/sur_modelset.cpp:SurSearcher::SurSearcher", "src/ldt_statistics/modeling/search/modelset.cpp:ModelSet::Start"]}
{"id": "C128", "title": "Continuous ranked probability scores", "statement": "The score of a normal (log-normal) forecast at an observation is the integral over all x of the squared difference between the distribution function of the law and the step at the observation. It is never negative, is 0 only for a certain forecast that is right, is proper (the true law has the smallest expected score), and is what the simulations of systems of regressions average over all observations of the valid test samples.", "quantifier": "all observations, means and standard deviations", "why_tests_cant": "an identity with an improper integral, for all real arguments", "anchors": ["src/ldt_statistics/scoring/scoring.cpp:Scoring::GetScoreCrpsNormal", "src/ldt_statistics/scoring/scoring.cpp:Scoring::GetScoreCrpsLogNormal", "src/ldt_statistics/modeling/linear/sur_simulation.cpp:sumScores"]}
{"id": "C129", "title": "Standardizing a table", "statement": "Standardizing subtracts from every column its mean (or a given mean) and divides by the square root of its variance (or of a given variance), as asked for; if asked for, exactly the columns without variance are removed and reported. Centred and scaled columns have mean 0 and variance 1, and rows standardized later with the reported means and variances get the same map. A table larger than the object was made for is refused.", "quantifier": "all tables, all choices of centring, scaling, removal and given moments", "why_tests_cant": "all tables of all sizes", "anchors": ["src/matrix/dataset.cpp:MatrixStandardized::MatrixStandardized", "src/matrix/dataset.cpp:MatrixStandardized::Calculate"]}
{"id": "C130", "title": "Principal component analysis", "statement": "The analysis reports orthonormal directions, the standard deviations of the components in descending order, their shares in the total variance, and the components (the standardized data in these directions): they are uncorrelated, have the reported standard deviations, together give the data back and have the total variance of the data; each direction has the largest variance among those orthogonal to the earlier ones. Forecast rows are mapped by the means, the variances and the directions of the data. Tables that do not fit are refused.", "quantifier": "all tables, all choices of centring, scaling, removal, forecasts", "why_tests_cant": "an optimality property for all tables and directions", "anchors": ["src/ldt_statistics/pca.cpp:PcaAnalysis::PcaAnalysis", "src/ldt_statistics/pca.cpp:PcaAnalysis::Calculate"]}
{"id": "C131", "title": "Replacing regressors by principal components", "statement": "The number of components is the given one or the smallest one whose shares exceed the given rate (at most the given limit). The first columns that are to be ignored stay as they are, and the others are replaced by that many components, in the data and in the forecast rows. A constant column is refused. Options that cannot be used are refused.", "quantifier": "all options, all tables", "why_tests_cant": "all tables, all options", "anchors": ["src/ldt_statistics/pca.cpp:PcaAnalysis::GetCutoffColumn", "src/ldt_statistics/pca.cpp:PcaAnalysisOptions::CheckValidity", "src/ldt_statistics/pca.cpp:PcaAnalysisOptions::GetFinalCount", "src/ldt_statistics/pca.cpp:PcaAnalysisOptions::CalculateForModel"]}
{"id": "C132", "title": "Out-of-sample scores of a VARMA model", "statement": "Simulating a VARMA model leaves out the last count, count-1, ..., 1 periods in turn, estimates without them and compares the forecasts at the given horizons with the periods left out: the forecast h periods ahead with the observation h periods after the last one used, so never with an observation the estimation has used. The score of a variable and a metric is that of the mean loss over all horizons of all simulations that succeed (the direction and sign are hit rates, percentages need positive values). There is no result if none succeeds or more fail than allowed; the extended version works on the largest window without missing values, counts the error messages and can keep every comparison.", "quantifier": "all series, horizons, metrics, numbers of simulations, limits and estimators (with failures and kept state)", "why_tests_cant": "quantifies over all series, horizons and patterns of failures", "anchors": ["src/ldt_statistics/modeling/time_series/varma/varma_simulation.cpp:VarmaSimulation::VarmaSimulation", "src/ldt_statistics/modeling/time_series/varma/varma_simulation.cpp:GetScore", "src/ldt_statistics/modeling/time_series/varma/varma_simulation.cpp:VarmaSimulation::Calculate", "src/ldt_statistics/modeling/time_series/varma/varma_simulation.cpp:VarmaSimulation::CalculateE", "src/ldt_statistics/modeling/time_series/varma/varma_simulation.cpp:VarmaSimulation::AddError"]}
{"id": "C133", "title": "One VARMA model of a search", "statement": "A VARMA model of a search is estimated with the data of all periods in which all of its variables can be observed (its exogenous variables until the end of the data, for the forecasts) and, if wanted, with a limit for the condition number. It is reported exactly if there are enough observations and degrees of freedom, the estimation succeeds, AIC and SIC are not above their limits, and, if predictions are wanted, the forecasts are numbers within their bounds at every horizon, and at least one simulation (if wanted) is valid. What is reported is its AIC and SIC, the scores of its simulations, its forecasts and their variances at each horizon, and its parameters p, d, q, P, D, Q. The memory that was planned is enough for every model that has no more observations than its sizes were made for.", "quantifier": "all data with missing values, sets of endogenous and exogenous variables, options, limits, bounds, sizes and estimators (with failures)", "why_tests_cant": "quantifies over all data, models and results of estimations", "anchors": ["src/ldt_statistics/modeling/time_series/varma/varma_modelset.cpp:VarmaSearcher::VarmaSearcher", "src/ldt_statistics/modeling/time_series/varma/varma_modelset.cpp:VarmaSearcher::EstimateOneReg"]}
{"id": "C134", "title": "The set of all VARMA models of a search", "statement": "A VARMA search is made exactly for acceptable requests: options that can be completed, at least one target that fits the data and the partitions, six nonnegative orders, sizes that are positive and have room for the fixed partitions, and, for simulations, enough periods after the lags of every order; otherwise it is refused. It has one searcher for each size, order and group of exogenous variables, in that order, where the orders (p,d,q,P,D,Q) are all below their maxima with at least one lag, each once, one after the other. Its work array is large enough for each searcher, and enough for the data and estimation of all models with the first series. Searches announce the number of models that they visit. What they keep is the AIC or SIC of an estimated model within its limits, and its forecasts with their variances at each horizon.", "quantifier": "all requests (data with missing values, sizes, partitions, groups, orders, options), models and results of estimations", "why_tests_cant": "quantifies over all requests and results of estimations", "anchors": ["src/ldt_statistics/modeling/time_series/varma/varma_modelset.cpp:VarmaModelset::VarmaModelset"]}
{"id": "C135", "title": "The generalized lambda distribution", "statement": "A distribution is made exactly for a positive scale. The quantile of a probability between 0 and 1 is the location plus the difference of the integrals of the two power tails (from the probability to 1, and from 1 minus the probability to 1) over the scale, with logarithms for shapes that are zero and no tail for infinite shapes; outside it is the minimum or maximum, which are the infimum and supremum of the quantiles and infinite exactly if a shape is not positive. Quantiles increase strictly and are symmetric about the location if both shapes are equal, and the reported density is the reciprocal of their slope. Mean, variance, skewness and excess kurtosis are those of the quantile of a uniform variable; they are NaN exactly if a shape is too small. A fit to moments of a type minimizes the squared distances of skewness and excess kurtosis within the bounds of the type, and what it returns are parameters of a distribution of that type that has the mean and the variance.", "quantifier": "all parameters, probabilities, moments, types and found shapes", "why_tests_cant": "quantifies over real parameters and probabilities; moments are integrals", "anchors": ["src/ldt_statistics/distributions/distribution_gld.cpp:DistributionGld::GetQuantile", "src/ldt_statistics/distributions/distribution_gld.cpp:DistributionGld::GetDensityQuantile", "src/ldt_statistics/distributions/distribution_gld.cpp:DistributionGld::GetMk", "src/ldt_statistics/distributions/distribution_gld.cpp:DistributionGld::GetMs", "src/ldt_statistics/distributions/distribution_gld.cpp:DistributionGld::GetFromMoments", "src/ldt_statistics/distributions/distribution_gld.cpp:DistributionGld::GetGldFklmRegion", "src/ldt_statistics/distributions/distributions_uni.cpp:kGldFkml"]}
{"id": "C136", "title": "The first step of a VARMA estimation is least squares", "statement": "Without an MA part the coefficients of each equation are the least squares coefficients, unique, with the covariance of least squares for the reported residual covariance. With an MA part, and with a restriction, the lagged residuals of a first regression (zero before the sample) are added to the regressors, and the coefficients (the free ones, over all equations together) are least squares again. The estimation fails exactly if the regressors of a step are linearly dependent (or the free coefficients not identified) or the condition number exceeds the limit, and then with an error. A restriction that restricts nothing does not change the result.", "quantifier": "all observations, regressors, lags, restrictions and limits", "why_tests_cant": "quantifies over all real data, coefficients and restrictions", "anchors": ["src/ldt_statistics/modeling/time_series/varma/varma.cpp:Varma::EstimateOls"]}
{"id": "C137", "title": "What a VARMA estimation reports", "statement": "The reported residuals are those of the reported coefficients (they solve the equation of the model, with earlier residuals among the regressors), the reported covariance is that of the reported residuals, the reported likelihood is that of normal errors with this covariance; the information criteria count the free coefficients, the standard errors are the roots of the variances of the coefficients and the p-values those of Student's distribution; requests without details and restricted models without MA part are served.", "quantifier": "all data, restrictions, requests, optimizers and numerical derivatives", "why_tests_cant": "quantifies over all data and every course of the optimizer", "anchors": ["src/ldt_statistics/modeling/time_series/varma/varma.cpp:Varma::EstimateMl", "src/ldt_statistics/modeling/time_series/varma/varma.cpp:Varma::CalculateGoodness", "src/ldt_statistics/modeling/time_series/varma/varma.cpp:SetDetails"]}
{"id": "C138", "title": "A VARMA model takes its variables and its sample from the table", "statement": "Of a table with a row for each period and the endogenous variables first, the sample are the periods in which every variable is observed; a model is estimated with the endogenous columns of the sample, the exogenous variables are the other columns, and the future values are those of the periods that follow the sample less the periods left out. Tables with a gap, with an empty variable, without common periods, and without enough future values are refused, whatever tables were given before; principal components replace the variables that are not ignored, with the same directions for the future values, and the other variables stay; a model whose condition number exceeds the limit is refused.", "quantifier": "all tables, numbers of variables, horizons, options and limits", "why_tests_cant": "quantifies over all tables of all sizes, and over the tables an object was given before", "anchors": ["src/ldt_statistics/modeling/time_series/varma/varma_extended.cpp:VarmaExtended::Calculate"]}
{"id": "C139", "title": "Two series combine into one over all of their dates", "statement": "Combining two series of the same frequency gives a series that begins at the first and ends at the last date at which one of them is observed; at each date it has the observation of the second series if there is one, else that of the first, else it is missing. The largest relative change, in percent, over the dates of two observations is reported. With too little room nothing is written but the number of periods that are needed; series of different classes are refused with a null handle.", "quantifier": "all pairs of series, buffers and buffer lengths", "why_tests_cant": "quantifies over all series of all lengths, over all frequencies and over all buffers", "anchors": ["src/api.cpp:LDT_VariableCombine"]}
{"id": "C140", "title": "Handles of frequencies behave like values", "statement": "Through the C interface a frequency is created from its texts, copied, advanced, printed, subtracted and disposed of by handles: a call changes the frequency of its own handle only, a copy is independent of its original, refused texts give a null handle and an error, nothing leaks and no freed memory is used; a too small buffer is not written to and the length that is reported suffices for the second call; the printed texts create the same frequency again, lists with their items.", "quantifier": "all histories of calls", "why_tests_cant": "quantifies over all histories of calls on all handles, texts and buffers", "anchors": ["src/api.cpp:LDT_FrequencyCreate", "src/api.cpp:LDT_FrequencyCopy", "src/api.cpp:LDT_FrequencyToString", "src/api.cpp:LDT_DisposeFrequency"]}
{"id": "C141", "title": "A search that is called from R comes back with the results of all models", "statement": "A search that is called from R and not interrupted comes back with the results of all its models, whatever the order in which the worker and the reporting loop run; the results are never those of an unfinished search; an interruption ends the search without starting a further model and comes back as an interruption; when the call comes back nothing that can be freed is still being used; progress is printed at most once in ReportInterval + 1 seconds with increasing percentages.", "quantifier": "all schedules of the two threads, all searches and intervals", "why_tests_cant": "quantifies over all interleavings of two threads", "anchors": ["Rpackage/src/r_ldt.cpp:ReportProgress", "Rpackage/src/r_ldt.cpp:ReportProgressInner", "Rpackage/src/r_dc.cpp:SearchDc", "Rpackage/src/r_sur.cpp:SearchSur", "Rpackage/src/r_varma.cpp:SearchVarma"]}
{"id": "C142", "title": "The results of a search that is called from R", "statement": "R gets, metric by metric and target by target, exactly the items that were asked for, in a fixed order: the best and all models with the names of their variables (with or without weights between them), inclusion weights with a row for each variable, best items, cdfs, bounds and moments of each parameter; requests are refused exactly if nothing is wanted, and wrong numbers of names are refused; options arrive as they were given; failures are counted.", "quantifier": "all requests, names and gathered results", "why_tests_cant": "quantifies over all requests and all results of searches", "anchors": ["Rpackage/src/r_ldt.cpp:GetModelSetResults", "Rpackage/src/r_ldt.cpp:add_CoefInfo", "Rpackage/src/r_ldt.cpp:add_Lengthi", "Rpackage/src/r_ldt.cpp:UpdateSearchItems", "Rpackage/src/r_ldt.cpp:UpdatemetricOptions", "Rpackage/src/r_dc.cpp:SearchDc"]}
{"id": "C143", "title": "Weights and metrics called from R", "statement": "Exactly the names that begin with one of eleven words, in small or capital letters, are accepted, and all others throw; a metric converted to a weight and back is the metric, and conversely; the weight orders the values one way for each name; names known in-sample and out of sample give one result; every name is converted with the formula of the metric it names.", "quantifier": "all names, values and minima", "why_tests_cant": "quantifies over all real values and all texts", "anchors": ["Rpackage/src/r_statistics.cpp:GetWeightFromMetric", "Rpackage/src/r_statistics.cpp:GetMetricFromWeight"]}
{"id": "C144", "title": "Hierarchical clustering called from R", "statement": "A vector of distances is accepted exactly if its length is the number of pairs of n >= 2 variables, no distance is missing and the linkage is known; R then gets a merge matrix in its convention, from a complete clustering of the n variables; groups contain each column number from 1 to n once; the names that the library prints are accepted back.", "quantifier": "all distance vectors, linkages and numbers of groups", "why_tests_cant": "quantifies over all sizes and distances", "anchors": ["Rpackage/src/r_clustering.cpp:ClusterH", "Rpackage/src/r_clustering.cpp:ClusterHGroup", "include/math/statistics/clustering.h:FromString_HClusterLinkage", "include/math/statistics/clustering.h:FromString_DistanceMethod"]}
{"id": "C145", "title": "Combining the statistics of samples from R", "statement": "From the mean, variance, skewness, kurtosis, weight and count of two samples, CombineStats4 returns those of the two samples put together, in either order.", "quantifier": "all pairs of weighted samples", "why_tests_cant": "quantifies over all samples", "anchors": ["Rpackage/src/r_statistics.cpp:CombineStats4"]}
{"id": "C146", "title": "ROC called from R", "statement": "Vectors of different lengths and labels that are not 0 and 1 are refused; otherwise the area is the weighted share of pairs in which the positive observation has the smaller score, ties one half; costs that do not fit are refused.", "quantifier": "all labels, scores, weights and costs", "why_tests_cant": "quantifies over all vectors", "anchors": ["Rpackage/src/r_statistics.cpp:GetRoc", "Rpackage/src/r_ldt.cpp:UpdateRocOptions"]}
