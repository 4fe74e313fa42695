# A Lean 4 model of rmojab63/LDT (C++ core)

Everything is read from `/repo` as text; nothing of it is compiled or run here.

## Layout

* `lean/Verif/Model/*.lean` – executable (or at least total) definitions, each citing file and lines.
* `lean/Verif/Spec/*.lean` – small specifications that do not mention model helpers (only where a spec is
  not already a one-liner in the theorem statement).
* `lean/Verif/Lemmas/*.lean` – helper lemmas.
* `lean/Verif/Props/*.lean` – the property theorems (and their non-vacuity `example`s). Names start with `Cxx_`.
* `lean/Verif/Audit.lean` – `#print axioms` for the property theorems.
* `seeded/LOG.jsonl` – mutation log.  `MANIFEST.json` – property -> theorems.

## Modelling conventions

* `Ti` (C++ `int`) and `size_t` are unbounded `Int`/`Nat`; overflow is outside the model unless a definition
  says otherwise (`std::stoi` does check the 32-bit range).
* `Tv` (C++ `double`) is an exact number: an element of a (linear ordered) field, or `ℝ` where `exp/log/pow/sqrt`
  occur; `NaN` is a separate value (`none`/`nan`), infinities are modelled where the code uses them. Rounding,
  signed zero and overflow to infinity are not modelled: every numeric theorem is about exact arithmetic.
* `std::string` is `List Char`. Exceptions, undefined behaviour (out-of-bounds access, null dereference, integer
  division by zero) and non-termination are distinct outcomes (`Outcome`).
* Random shuffles are arbitrary permutations given as input: theorems hold for every shuffle.
* Estimation routines called by searchers are parameters (arbitrary functions); the theorems hold for all.

## Plan per property

| id | what is modelled | how it is proved |
|----|------------------|------------------|
| C01 | all `Frequency` classes, `Next` | ordinal map `ord : Freq -> Int`, `ord (next n f) = ord f + n`, injectivity |
| C02 | `Minus` | closed formula equals difference of ordinals; omega |
| C03 | `CompareTo` | sign of the difference of ordinals; negation for lists |
| C04 | constructors + `Next` | invariant by induction on histories; negation for `Parse0` |
| C05 | `ToString`, `ToClassString`, `GetClass`, `Parse0`, `std::stoi/to_string` | decimal round trip, split lemma, dispatch by cases |
| C06 | `DayOfWeekRange`, `Next`, `Minus` for daily-in-week | finite table for the loops, induction on n, count of working days |
| C07 | `GetLength`, `Distance` | whole table by `decide`; negations for the wrong entries |
| C08 | `FrequencyList` | index arithmetic; negation for comparison |
| C09 | `GetRange` | scans by induction on the array |
| C10 | `Trim` | C09 + C01 |
| C11 | `Interpolate` | loop invariant |
| C12 | `PartitionEqual` | induction; negation for `fromEnd` with exact multiples |
| C13 | `Variables` constructor | C01-C03, padding lengths |
| C14 | `ConvertTo_*` | C12 + calendar arithmetic; negation for partial first week |
| C15, C16 | `update_single_pass(_combine)`, `RunningMoments` | invariant "fields = power sums about the mean"; field_simp/ring |
| C17-C19, C24 | `next`, `move_next`, `Start` | odometer + lexicographic successor: enumeration list equals sorted list of all combinations |
| C18 | `GetCount` | length of that list |
| C20-C23 | `SearcherSummary::Push`, `ModelSet::Combine*` | sorted insertion lemmas; permutation invariance; negation for the upper extreme bound |
| C25, C26 | weights, names | real analysis lemmas; whole table; negation for rmspe |
| C27, C28 | ROC | induction over sorted groups; sum rearrangement |
| C29 | frequency cost | scan lemma; negation (read past the table) |
| C30, C31 | data split | permutation lemmas |
| C32 | SortIndexes | stable sort lemmas |
| C33-C35 | matrix storage | arithmetic; negations for `Last`, `GetSub` |
| C36 | NaN removal | filter lemmas |
| C37 | Box-Cox | rpow/log lemmas |
| C38 | split/join | induction |
| C39 | Gregorian calendar (boost) | omega |
| C40 | Min/Max/... | folds |

| C41, C42 | pessimistic and partial ROC area | scan lemmas; negations for the pessimistic version |
| C43, C44 | in-place removal, row/column moves of `Matrix` | invariants on the memory list; negations |
| C45 | `DatasetTs` window (select path) | max/min of the ranges |
| C46-C49 | `Polynomial*`, `PolynomialM*` | coefficients of `Mathlib.Polynomial`/power series, strong induction on the index |
| C50-C52 | `VarmaArma`, `VarmaSizes`, differencing | loop invariants over the memory, polynomial identities |
| C53 | forecast variance | sum formula; quadratic-form monotonicity |
| C54 | `VarmaRestriction` | counting lemma for the free parameters |
| C55-C57 | `Varma::EstimateOls` sample, `MlUpdateResid`, `VarmaForecast` mean | band lemmas for the regressor column, induction over time |
| C58 | `Matrix::Transpose` (both) | permutation cycles of `a -> cols*a mod (n-1)`; visited-set invariant |
| C59 | `Kron*` | running indexes equal `i*p+ii`, `j*q+jj` |
| C60, C61 | `Dot*` wrappers over the BLAS contract | each cell written once; index arithmetic of the leading dimensions |
| C62, C63, C64 | element-wise operations, fills, triangles, comparisons of `Matrix` | one cell-loop lemma; triangular running index equals the closed form; `allLoop` = bounded quantifier |
| C65 | `Mean`, `Variance`, `VarianceColumn`, `CovarianceColumn`, `CorrelationColumn` over an ordered field with NaN (`Option`) | Welford recurrences equal the definitions in `Spec/Stat.lean` by induction from the right; Cauchy-Schwarz for the bounds |
| C66 | row and column sums, means, covariance matrix, standardization | one loop invariant per output memory; moments of a standardized list |
| C67 | `Maximum`, `max`, `MaximumInRow`, ... | first extreme of a list by induction from the right; index translation |
| C68 | `HCluster::Calculate`, `Merge2`, `GetNearestNeighbor` with fuel | loop invariant: the stack is a chain of nearest neighbours (ties by position, so keys decrease strictly), the number of active nodes is counted, and the merge keeps the forest; potential `3 (2n-1-n_i) + 1 - |stack|` |
| C69 | the same, `CalculateDistance` | Lance-Williams rules against `Spec/Cluster.lean`'s definitions over points; reducibility of all five linkages; induction on trees |
| C70 | the same, `Group`, `set_group_var` | recursion on the tree with the set of clusters not yet split as invariant; `TopBelow`/`IsGrouping` in `Spec/Cluster.lean` |
| C71 | the same, `MergeR` | sorted permutation of the merges (C32); `RowTree` gives each row the tree it denotes |
| C72 | `group_data.cpp`, `Calculate` from the distances on | on top of C68-C70; the erase loop; two witnesses |
| C73 | `distance.cpp`, the three metrics with and without the NaN check | generic double loop over a symmetric matrix; `euclid`, `manhattan`, `IsMaxDist` in `Spec/Distance.lean`; triangle inequality through Mathlib's Euclidean space |
| C74 | `correlation.cpp`, Pearson's method, `Calculate` with its storage layout | pairwise loop invariant over written pairs on top of C65; `A'A` over doubles with NaN (`Lemmas/AtA.lean`) on top of C66; `covOf`, `corOf` in `Spec/Correlation.lean` |
| C75 | `distance.cpp`, the two correlation metrics | unit vectors in Mathlib's Euclidean space (and their outer products for the absolute one) |
| C76 | `matrix.cpp` `Sort` | insertion sort as the result of `std::sort` (unique for numbers), column slices, loop invariant |
| C77 | `statistics.cpp` `Rank` | first hit of the linear search in a sorted column = number of cells before; `rankIn` in `Spec/Rank.lean` |
| C78 | `correlation.cpp` `spearman` (both template variants) with the layout of the work array | C36 for the complete rows, C77, C74; sums over permutations of 0..n-1 for the classical formula |
| C79 | `descriptive.cpp` `Minimum`, `Maximum`, `Sum`, `SumOfSquares`, `MeanVariance`, `MeanVarianceKurtosisSkewness` | loop folds by prefix induction against central moments; NaN absorbing; the swapped divisor is a proved violation |
| C80 | `QuantileSorted` | case split on the position against a broken line through the order statistics; floor/fract algebra |
| C81 | `FilterAr`, `FilterMa` | loop invariants cell by cell; induction over prefixes for uniqueness and linearity |
| C82 | `SeasonalDecompositionMa` (all loops, in-place storage) | C81 for the trend, counting invariants per season, then algebra of averages |
| C83 | `RegressionTrend`, `Inv2x2` | closed forms of the power sums, normal equations, completing the square |
| C84 | `Ols` (with the BLAS/LAPACK calls as contracts) | program matrices represent Mathlib matrices (`IsM`); the Pythagorean split of the weighted sum of squares |
| C85 | `Gls` | the same with a positive definite weight; `Ols` is the case of the identity |
| C86 | `Histogram::Compute`, `ComputeV`, `fill` | the bin of a number is the number of breaks not above it; loop invariant on the counts and on the start of the search |
| C87 | `RemoveNanVector_in` | loop invariant: the front holds the numbers so far, the back is untouched |
| C88 | `Sur::Calculate` without restrictions, `estim_un`, `calculate_details`, `StorageSize`/`WorkSize` | normal equations; layout of the storage; contracts of the inversion and the Cholesky determinant |
| C89 | `Sur::estim_r` | vec/Kronecker identities turn the weighted sum of squares into a quadratic form; completing the square; failing case as witness |
| C90 | `Sur::estim_search` | induction on the rounds left: the kept coefficients decrease strictly |
| C91 | `SetRow`, `SetColumn`, `SetRowFromDiag`, `SetColumnFromDiag`, `SetSubRow`, `SetSubVector`, `GetSubVector`, `RemoveNanVector` | loop invariants with a frame; witnesses for missing checks |
| C92 | `DotVector`, `tDotVector`, `VectorDotVector`, `Dot_AtA_nan`, `SortIndicesVector` | gemv is gemm with one column (C60); pairwise loop over columns; C32 for sorting |
| C93 | `SurProjection` | invariant over the rows of the new data; `I x x` written out by the numbering of the coefficients (C88) |
| C94 | `R2`, `F`, end of `Sur::calculate_details` | the loops give the sums; least squares of C88 compared with the means and with the restricted or smaller model |
| C95 | `NelderMead::Minimize` on IEEE-like numbers with an arbitrary arithmetic | invariant of the simplex: vertices carry their values, the best is at most the bound; extreme-index loop; a longer run continues a shorter one |
| C96 | `NelderMead::Minimize1` | induction on the iterations |
| C97 | `Newton::minimize`, `wolfe_weak`; `dposv` as a contract | induction on the iterations; positive definiteness makes the direction a descent direction; completing the square for quadratics |
| C98 | `Derivative::Derivative`, `CalculateFirst`, `CalculateSecond` (with the moving point `x0`), `MakeTriangular0` | closed form of the table of quotients; restriction of a multivariate polynomial to lines; level k removes power k |
| C99 | `Distribution` of a discrete type: constructor, `GetPdfOrPmf`, moments, `GetProperty` | factorial moments as sums over the naturals, central moments by linearity of the average |
| C100 | `Distribution` of a continuous type: constructor, `GetPdfOrPmf`, moments | Gamma, Beta and Gaussian integrals by substitution; central moments by linearity |
| C101 | `Distribution::GetCdf` with `erfc`, `gamma_p`, `ibeta` as functions with their defining integrals | fundamental theorem of calculus, substitution, incomplete Gamma/Beta recurrences for Poisson and binomial |
| C102 | `Distribution::GetQuantile`, including the discrete search | inverse functions for continuous types; search invariant for discrete types |
| C103 | `Distribution::GetPdfOrPmfLog` | logarithm rules per type |
| C104 | `GetPmfSupportSize`, `GetPmfSupportIncrement`, `GetPmfSupport` | counting integers, list induction |
| C105 | `Distribution::GetMedian` | `GetCdf` at the reported number (C101), counting |
| C106 | `Distribution::GetMode` | Gibbs' inequality for beta and F, log x <= x - 1 for gamma, rising and falling masses for discrete types |
| C107 | `DistributionMixture`: constructor, `GetPdfOrPmf`, `GetCdf`, `GetMinimum`, `GetMaximum` | running weighted means are weighted averages; linearity of integrals and sums |
| C108 | `DistributionMixture::GetMoments`, `GetMomentsNormal` | moments about the mixture's mean by linearity from those of the components |
| C109 | `DistributionMixture::GetPmfSupportSize`, `GetPmfSupport`, the choice in `GetSample` | folds for the range, lists of consecutive integers, partial sums of weights |
| C110 | `DistributionEmpirical103::GetCDFApprox`, `GetQuantileApprox`, `Combine` | interval found by the search; lines and their inverses; C96 for the search in `Combine` |
| C111 | `DiscreteChoice::GetProbabilities`, `ordermu` | loop invariant for a row; Stieltjes measures of both laws |
| C112 | `fun`, `gfun`, `hfun` of `EstimateBinary` | closed forms of the loops; one abstract `Link` (distribution function, density, slope and its convexity inequalities) for both laws; convexity along segments |
| C113 | `fun`, `gfun`, `hfun` of `EstimateOrdered` | the four cases as two linear forms per observation; Hessian closed form incl. mirroring; determinant inequality for the normal law by derivatives |
| C114 | `Calculate`, `EstimateBinary`, `EstimateOrdered`, `setestimdetails`, the constructor | the optimiser's contract (C97) with the functions of C112/C113; positive definite inverse; block sums against the sizes of the constructor |
| C115 | `EstimatePriorBinary`, `EstimatePriorOrdered` | least squares (C84) on scaled rows as weighted least squares; quantiles of both laws |
| C116 | `DiscreteChoiceExtended` (constructor, `Calculate`) | inversion of the run into stages; C36 for the sample, C111 for probabilities, C27 for the area; block sums; concrete runs for the violations |
| C117 | `DiscreteChoiceSim` (constructor, `Calculate`) | relation `Ran` between shuffles and valid simulations; induction over the loop for every score; C31 for the split |
| C118 | `SearcherSummary::Push`, `ModelSet::CombineInclusionWeights`, `CombineCdfAt`, `CombineMixture` | every estimate is seen as three weighted points with the same first four moments (`Sees`), C15/C16 for the accumulators; Gaussian integrals for the mixture; induction over pushes and searchers |
| C119 | `SearcherReg` (constructor, `EstimateOne`), `Push0`, `Push1`, the lists of `CombineInfo` | invariant: every summary is a new summary fed with the kept estimates; induction over cells, coefficients and calls; C118 for the averages, C19 for completeness, C23 for the counts |
| C120 | `SearchMetricOptions::Update`, `SearchModelChecks::Update`, `SearchItems::Update` | case analysis; positions by induction over the list; two counterexamples |
| C121 | `DiscreteChoiceSearcher` (constructor, `EstimateOneReg`) on top of C36, C114, C116, C117, C119 | inversion of the run into its parts, cells of the tables, composition with the properties of the parts; counterexamples as general theorems |
| C122 | `DiscreteChoiceModelset` (constructor), `ModelSet` (constructor, sequential `Start`, counts) | decision lemmas for each constructor (`Decided`), composition with C18, C19, C119, C120, C121; the shuffle as an arbitrary permutation; parallel execution not modelled |
| C123 | `SurExtended` (constructor, `Calculate`, no principal components), `logL`, `aic`, `sic` of `Sur` | the table of C36 cut into two blocks, then C88/C93/C94 composed; the determinant of a covariance matrix is not negative |
| C124 | `condition_number` in `estim_un`, `estim_r`; `Matrix::Norm('1')` by the contract of `?lange` | the greatest column sum is submultiplicative; explicit case 1x1 for the violation |
| C125 | `SurSimulation` (constructor, `Calculate`, `sumScores`, no principal components) | induction over the iterations: a relation between the iterations and the forecasts that count; C30 and C123 composed for one iteration; sums of losses |
| C126 | `SurSearcher` (constructor, `EstimateOneReg`), composed with `SearcherReg::EstimateOne` (C119), `SurExtended` (C123), `SurSimulation` (C125), `Dataset` (C36) | composition; closed form of the loops that fill the tables; list lemmas for the positions of the targets |
| C127 | `SurModelset` (constructor), composed with `ModelSet`, C119, C126 | `Decided` combinators: each part succeeds exactly under its condition and throws otherwise; induction over sizes and groups with the number of searchers made so far |
| C128 | `GetScoreCrpsNormal`, `GetScoreCrpsLogNormal` | kernel representation of the score (Fubini): E abs(X-y) - E abs(X-X')/2; normal: antiderivative of (x-m) times the density, law of the difference by convolution; log-normal: exponential tilting; laws are Mathlib's `gaussianReal`; propriety by a second use of Fubini |
| C129 | `MatrixStandardized` | branch by branch on the results of C43, C64-C66; moments by algebra |
| C130 | `PcaAnalysis`, `MatrixSvd` | `dgesvd` as a parameter with the contract of a singular value decomposition; orthogonality, optimality (Bessel) and the totals from the decomposition; array layout followed cell by cell |
| C131 | `GetCutoffColumn`, `PcaAnalysisOptions` | induction over the shares; copying into a view of the data |
| C132 | `VarmaSimulation` | the estimator is a parameter with a state; induction over the simulations with a relation for those that succeed and fail; induction over the horizons for the sums |
| C133 | `VarmaSearcher` | the window from the ranges of the data (C45); sizes as polynomials in the number of observations, monotone; tables as for C126; the checks as a relation of reasons to refuse; scores from C132 |
| C134 | `VarmaModelset` | the loops over sizes, orders and groups as `flatMap`; accepted/refused by `Decided`; memory, counts and kept results from C133, C18 and the searcher theorems |
| C135 | `DistributionGld`, `kGldFkml` | the curve by `HasDerivAt` and the mean value theorem; moments as interval integrals (beta integrals, `integral_rpow`; with a zero shape derivatives of the moment generating function of a logarithm or logit, digamma and its derivatives at 1 by their series), positivity of the variance from monotonicity; missing moments by `MemLp`; `C135_types` by cases |
| C136 | `Varma::EstimateOls` | matrices with named columns; normal equations by the least squares lemmas of C09 (`best_fit`), `gram_det_ne`, Kronecker products; acceptance as an equivalence with full rank and the condition number |
| C137 | `Varma::EstimateMl`, `MlUpdateResid`, `MlFunction`, `CalculateGoodness` | well-founded recursion for the residuals, uniqueness by strong induction over observations; the optimizer as an arbitrary state machine, invariants of its loop (`search_*`); likelihood from `log det` |
| C138 | `VarmaExtended` and its `Calculate` | tables as matrices of C35 with optional cells; loading by the ranges of C45 (`load`), views by memory offsets (`view`), components by C131; the object's flag as part of the state (`Ext.after`) |
| C139 | `LDT_VariableCombine` | `combine` over the table of C13; the specification is stated by dates and not by rows (`Combines`), and `C139_unique` shows that it determines the result |
| C140 | the frequency functions of `api.cpp` | memory as two maps (`Heap`), simulated by a table of values (`Table`) over histories of calls (`run_sim`); texts by C05 |
| C141 | `ReportProgress`, `ReportProgressInner` and the threads of `SearchDc`, `SearchSur`, `SearchVarma` (R package) | two-thread transition system; inductive invariant (`inv_run`) for all schedules, measures for fair schedules (`todo_zero`, `ready_back`), separate invariant for the printed lines |
| C142 | `UpdateSearchItems`, the weighted option of `UpdatemetricOptions`, `extractElements`, `add_CoefInfo`, `as_matrix`, `add_Lengthi`, `GetModelSetResults`, the names in `SearchDc` (R package) | functions into `Outcome`; equality with a list of wanted items (`results_ok`), then filters by metric, target and type |
| C143 | `GetWeightFromMetric`, `GetMetricFromWeight` (R package) on the names of C26 | functions into `Outcome`; cases on the selected metric and C25 |
| C144 | `ClusterH`, `ClusterHGroup`, `FromString_HClusterLinkage`, `FromString_DistanceMethod` | the number of variables with the real square root and floor; composition with C68, C71, C72 |
| C145 | `CombineStats4` on `RunningMoments` | specification by weighted central sums; C15, C16 |
| C146 | `GetRoc`, `UpdateRocOptions` | checks as functions into `Outcome`, reads out of bounds and of ended memory as `.ub`; composition with C27 |

Nothing in the list is inexpressible; what the model does not carry is floating-point rounding, integer overflow,
threads (`boost::asio` pools: the parallel search is modelled as an arbitrary distribution of searchers' results)
and LAPACK.

## Disagreements between code and property

The model follows the code. Where the English property is false of the code, the theorems carry the exact
hypotheses under which it holds, and a `Cxx_..._violated...` theorem exhibits an input (usually a whole family) on
which it fails; such a property is listed as `partial`. Found so far:

* **Frequencies** – a daily-in-week range of one day has length 8; backward `Distance` is `7-s+e`; list `CompareTo`
  ignores the out-of-list index; a year multiple of 0 divides by zero in `Minus`; `Parse0` does not validate
  positions; the general parser of lists leaves a null items pointer; list items containing `;` do not round trip.
* **Arrays** – `GetRange` of an empty array is "valid", `Trim` of empty data is undefined; `PartitionEqual` from the
  end yields an empty first part on exact multiples and does not end for size 0; a zero-weight first observation
  poisons running moments; merging statistics of a constant sample is 0/0; the mean of nothing; `SortIndexes` with
  NaN has no strict weak order.
* **Variables / conversion** – off-grid variables mix columns and invent zeros; lists throw; `ConvertTo_MultiDaily`
  from the end mislabels; `ConvertTo_XxYear` merges years for x=1, skips parts for x>365, labels 1 March as month 2
  for x=12; `ConvertTo_Daily` from the middle of a week, from a one-day range or from the middle of a list gives
  wrong dates.
* **Search** – an empty partition is announced as 0 models and counted as 1; with fixed items `move_next` stops the
  whole search when the first item is not fixed; best lists are merged by weight; extreme bounds start at the smallest
  positive number; the guard `inner_group.at(0) > LengthTargets` should be `>=`; `SearchModelChecks::Update` derives
  one flag before the flag it depends on is set.
* **Scoring** – `rmspe` parses to rmse; the pessimistic ROC drops tied groups; frequency cost reads outside its table
  or another class; stratified split writes behind its storage before throwing.
* **Matrix** – `Last` reads outside; `GetSub` has its size check reversed and accepts negative starts;
  `SetColumnFromRow0` and `SetColumnFromColumn0` use the wrong counts; sorting an empty matrix is undefined;
  `DotDiag0` loops to the row count in both directions; `DotSym` inverts its triangle flag; in-place `Transpose` of an
  empty non-square matrix throws; empty shapes hand BLAS an illegal leading dimension.
* **Time series** – `DatasetTs` accepts disjoint series; gaps stay missing although documented otherwise; the flags of
  a previous call survive.
* **VARMA** – lags are duplicated when p >= s and the stored maximum lag is the last one; MA-infinity writes one matrix
  too many; `PolynomialPower` copies a base longer than its maximum; general restrictions write before they check;
  `xtprime` reads residuals before the first column for samples shorter than the MA lag; `MlUpdateResid` stops at the
  first lag reaching before the sample even if later ones are smaller.

* **C95** - `NelderMead::Minimize`: `MinIndex`/`MaxIndex` leave the index at -1 if all values are `INFINITY`/`NaN` (`-INFINITY`/`NaN`); the simplex is then read at -1. `NelderMead(0)` asks for no work space.
* **C96** - `Minimize1`: the penalty is `1e5 * x^2` instead of the squared distance to the bound; ties move to the right, so flat objectives are never left by convergence.
* **C97** - `Newton::minimize` without line search never recomputes the gradient; `Hessian` is overwritten by `dposv`.
* **C98** - `Derivative`: `Result1.Restructure(n, 1)` throws if `n` is smaller than the declared maximum although the comment says "in case n is smaller"; a first quotient below 1e-16 makes the derivative zero (10^12 x^3 - 25 x at 0); `count = 0` reads `As[0]` of an empty vector.
* **C99** - `Distribution`: `GetProperty(kMaximum)` calls `GetMinimum()`; parameters such as rate zero are accepted although the mass function is then `NaN` or zero; the discrete mass functions do not check that `x` is an integer.
* **C100** - `GetSandardDeviation` of the log-normal distribution is `1 / mParam1`; a standard deviation of zero or an empty interval is accepted and the density is `NaN`.
* **C101** - `GetCdf`: Bernoulli is 0 on [0,1) instead of 1-p; binomial is `NaN` at its maximum and for p = 0 (`ibeta` with a zero argument); geometric does not floor x; degenerate parameters give `NaN`.
* **C102** - `GetQuantile`: the discrete search passes the variance where the normal quantile expects the standard deviation, gives `NaN` after its step limit, and can step beyond the maximum; Bernoulli is always 1.
* **C103** - `GetPdfOrPmfLog` of the exponential is `-inf` at 0 although the density there is the rate; `0 * log(0)` gives `NaN` where the density is positive.
* **C104** - `GetPmfSupportSize` counts negative integers for Poisson and geometric, can be negative for disjoint windows, and truncates fractional windows.
* **C105** - `GetMedian`: chi-squared and Poisson use approximations that are not medians (and can be negative), geometric with p = 1 reports 1 although all mass is at 0, binomial reports floor(n p).
* **C106** - `GetMode`: beta with second parameter below one (the code tests `<= 0` and `< 0` on parameters that are positive), binomial with p = 1 reports n + 1.
* **C108** - `DistributionMixture::GetMoments`: `RunningMoments` skips NaN, so a Cauchy (t with one degree of freedom) component is left out of the mean of the mixture; components of variance zero give inf * 0 = NaN for skewness and kurtosis.
* **C109** - `DistributionMixture::GetPmfSupportSize` starts its maximum at `numeric_limits<Tv>::min()`, the smallest positive number: mixtures with only negative values are counted up to zero.
* **C110** - `DistributionEmpirical103::GetCDFApprox` subtracts the shift in both tails (`y - shift` with `shift = (x - Quantiles[0]) * ...`): left of the smallest quantile the value grows above 0.0001 without bound, right of the largest it falls. For NaN the loop ends with `i == 103` and `Quantiles[103]` is read.
* **C114** - an observation whose choice is out of range is not reported: unweighted binary data count it by the sum of `y` (`C114_binary_outside_violated`); ordered data write outside `Counts` (`C114_ordered_outside_violated`).
* **C115** - the start of the ordered model divides by the first coefficient of the regression: if it is zero (`C115_start_violated`) the start is not made of numbers.
* **C116** - the work array does not depend on the number of rows whose probabilities are wanted (`C116_forecast_violated`); an object that is used again for a smaller table with more rows to predict writes behind its storage (`C116_reuse_violated`); rows with missing cells: the Brier score is taken over as many rows as the table has (`C116_brier_violated`).
* **C117** - `BrierScore` is overwritten by each simulation (`C117_brier_violated`); with 100 observations of which 10 are for training every simulation whose model can be estimated writes outside the work array (`C117_memory_violated`).
* **C118** - if the first estimate pushed into a summary has weight zero the moments are 0/0 and stay NaN; `Combine` then leaves out all the estimates of this summary (`C118_violated_zero_weight_first`; such weights exist, `C118_zero_weights`); a cost larger than one gives a negative weight (`C118_negative_weights`) and with it an averaged probability larger than one (`C118_violated_negative_weight`).
* **C120** - `SearchMetricOptions::Update` fills `MetricInIndices` and `MetricOutIndices` with `map::insert`, which keeps old entries: options that are used a second time with other metrics have wrong positions. `SearchModelChecks::Update` computes `mCheckCN_all` from `Estimation` before it switches `Estimation` on: with `Estimation = false`, an in-sample metric and a finite `MaxConditionNumber`, every model is estimated and the limit is ignored.
* **C121** - `EstimateOneReg` of the discrete choice search: tests `> 0` instead of `>= 0` for the position of a score in the sample; loops over `Source.RowsCount` rows for the Brier score although `Y` has fewer; counts `numExo + numChoices + 2` parameters; passes `SimFixSize - MinOutSim` as the argument `checkSizes`; reuses a simulation object made for the full data, whose training model is too small if rows are missing. Each is a theorem `C121_violated_*`.
* **C122** - the constructor of the discrete choice model set: the tests of the cost tables compare the position of the metric with `> 0`, so that tables are not checked if the costs are the first metric; elements of partitions are compared with 0 although column 0 is the dependent variable; the sizes are not compared with the number of partitions; the maximum of a column without a number is cast to an integer. Each is a theorem `C122_violated_*`.
* **C124** - `estim_r` takes the norm of `R'(S^-1 o X'X)` before the multiplication by `R`, but inverts the product with `R`: the reported condition number depends on the unit of the free coefficients (`C124_restricted_violated`).
* **C125** - the standard deviations of the projections are back-transformed with the Box-Cox inverse itself: with a logarithm the deviation becomes exp(sigma) >= 1, whatever the mean and even for a certain projection (`C125_boxcox_violated`).
* **C126** - `SurSearcher::EstimateOneReg`: column t of the tables is for the t-th target of the group, but the coefficients are read from the t-th equation: with the group (0, 2, 1) and targets 0 and 1, target 1 gets the coefficients of variable 2 (`C126_example_violated`).
* **C126** - metrics in the sample other than AIC and SIC are accepted and reported as 0 for every model (`C126_zero_violated`).
* **C126** - Box-Cox parameters are looked up by the position in the group (`C126_boxcox_violated`).
* **C127** - `SurModelset`: the test for groups without a target is `e.at(0) > LengthTargets`; it should be `>=`. A group that starts with variable number LengthTargets gets a searcher, whose constructor throws: nothing is searched (`C127_example_violated`).
* **C127** - a group whose first variable is no target but that has a target is left out silently (`C127_skipped_violated`).
* **C127** - indices in the groups are not checked against the data; (0, 7) with four columns is accepted and read out of bounds (`C127_group_violated`).
* **C128** - `GetScoreCrpsLogNormal(exp(m), m, 0)` is NaN (`0/0` in the distribution function); the score is 0. `GetScoreCrpsNormal` has a case for deviation 0 (`C128_lognormal_violated`).
* **C129** - scaling a table with one row gives NaN in every cell; the columns are not removed although they have no variance (`C129_one_row_violated`).
* **C130** - `PcaAnalysis` keeps `cols` directions, `dgesvd` writes `min(rows, cols)` of them; the others (and their components and forecasts) are computed from uninitialised memory (`C130_wide_violated`). The size check compares total sizes, but the beginning of the forecasts depends on the size of the standardization the object was made for: an object for 10 rows accepts 2 rows with 8 forecasts and writes behind the array (`C130_check_violated`).
* **C131** - `ExactCount` is not compared with the number of columns (`C131_exact_violated`), may be negative (`C131_negative_violated`); the cut-off of NaN shares is one more than the number of components (`C131_constant_violated`).
* **C132** - `VarmaSimulation::Calculate` increments `invalidCounts` before it leaves the loop because fewer periods are left out than the first horizon: with a first horizon beyond 1 and no failure allowed (in a search: `MinOutSim` equal to the number of simulations) there is never a result (`C132_later_horizons_violated`). The sums skip a horizon without moving to the next column, so the horizons must be ascending, which nothing checks: 1, 3, 2 gives NaN for perfect forecasts (`C132_order_violated`).
* **C133** - the sizes of all models of a VARMA search are made for the observations until the last one of the first series. A model without that series can have more: its results then overlap the next block of the work array and its estimation needs more than the array (`C133_memory_violated`, an instance with four observations in `C133_memory_example_violated`). With lags longer than the data the number of observations after lags is negative, and so are sizes that are added to the size of the work array: nine observations with a lag of twelve periods are written in an array of seven (`C133_short_violated`). If one series ends before another begins, the number of observations is negative and the exogenous data are written before the array (`C133_disjoint_violated`).
* **C133** - the columns of the tables are the first variables of the model, so a group of variables in which a target comes after another variable reports the forecasts of that variable for the target (`C133_target_violated`); the parameter of the Box-Cox transformation is that of the position, not of the variable (`C133_boxcox_violated`). Bounds of predictions are compared at the horizons of the simulations: without simulations never (`C133_bounds_unused_violated`), and with a horizon beyond that of the predictions behind the forecasts (`C133_bounds_horizon_violated`). Predictions without the estimation of the whole sample give NaN (`C133_prediction_violated`); metrics in the sample other than AIC and SIC are reported as 0 (`C133_zero_violated`).
* **C134** - the set of models accepts partitions that contain a variable after the endogenous ones, so that a series can be endogenous and exogenous in the same model (`C134_endogenous_violated`), and does not check the groups of exogenous variables (`C134_groups_violated`); all models of a group with a variable that the data do not have fail (`C134_groups_fail_violated`). A size below the number of fixed partitions refuses the whole search (`C134_room_violated`) where SUR and discrete choice sets skip it; one order that has too many lags for the simulations does the same (`C134_lags_violated`). Maximum orders without any lag are accepted and give a search without models (`C134_nothing_violated`). If the horizon of the checks is shorter than that of the forecasts, no model is reported (`C134_horizon_violated`).
* **C135** - `GetFromMoments` for S-shaped curves (type 8) multiplies the penalty by the distance of the kurtosis instead of adding it, so the kurtosis is ignored exactly where the shapes are allowed, and the shapes 1.5 and 1.5 (U-shaped) are optimal for a skewness of 0 (`C135_type8_violated`). `Distribution<kGldFkml>::GetSample1` returns its uniform number where `GetSample` returns the quantile of it (`C135_sample_violated`). The static `GetQuantile` does not check the probability (`C135_outside_violated`).
* **C136** - `Varma::EstimateOls` with a restriction sets `gammavar` to the inverse of the cross products and does not multiply by the variance of the residuals: with a restriction that restricts nothing the variance of a mean changes from 2 to 1/2 (`C136_variance_violated`).
* **C137** - `Varma::EstimateMl`: `Result.resid` is overwritten by every evaluation of the objective and not recomputed unless the variances are requested (`C137_last_point_violated`); `MlFunction` divides by `T - gamma.ColsCount`, which is neither the number of observations nor their number less the number of coefficients of an equation if there is a restriction (`C137_likelihood_violated`); the likelihood counts observations left out at the end (`C137_sample_end_violated`); AIC and SIC count restricted coefficients (`C137_criteria_violated`); without details `coef` has no memory and is written (`C137_no_details_violated`); restrictions of models without MA part are always refused (`C137_restricted_ar_violated`); `R->Dot0(mdig)` for the standard errors takes R and not its squares (`C137_std_violated`).
* **C138** - `VarmaExtended` reduces `Sizes.EqsCount` to `min(EqsCount, CutoffCountMax + IgnoreFirstCount)` before the data are split, so the variables beyond it are not analysed and are taken for the exogenous ones (`C138_pca_reduced_violated`; in the example the future value becomes NaN); `Restriction` and the model are sized with that maximum although fewer components may be kept (`C138_pca_sizes_violated`); `DatasetTs::HasMissingData` is never reset (`C138_history_violated`); with `checkNan = false` `Data.End` stays 0 (`C138_unchecked_violated`).
* **C139** - `LDT_VariableCombine` reads outside of the memory of an empty series (`C139_empty_violated`), starts at missing cells of a series without observations (`C139_missing_violated`), and moves a weekly series to the weekday of the other one, the last cell being replaced by 0 (`C139_off_grid_violated`).
* **C140** - `LDT_FrequencyCopy` clones lists with their pointer to the items and `LDT_DisposeFrequency` frees the items, so a list and its copy cannot both be disposed of, and neither can be used after the other is (`C140_shared_violated`).
* **C141** - an exception that leaves `Start` skips `estimating = false`, so that `while (estimating)` in `ReportProgress` never ends and the exception in the future is never looked at (`C141_throws_violated`); `ModelSet::Start` throws for every parallel search without OpenMP (`C141_openmp_violated`). The error "calculations is canceled" is dead code (`C141_cancelled`).
* **C142** - `SearchDc` calls `UpdateOptions` with `isDc = false`, so `metrics$weightedEval` is never read and the evaluation of discrete choice models in a search is never weighted (`C142_weighted_violated`). `UpdateSearchItems` accepts requests whose only goals are about parameters that are not kept (`C142_goal_violated`).
* **C143** - from R, `rmspe` is converted as `rmse` (no division by 100), while `mape` is divided (`C143_violated_rmspe`).
* **C144** - `ToString(HClusterLinkage)` gives `AverageU (UPGMA)`, which `FromString_HClusterLinkage` refuses (`C144_violated_printed_names`).
* **C145** - `CombineStats4` drops a constant sample with its weight and count (`C145_violated_constant`).
* **C146** - `GetRoc` accepts a label such as 0.5 and counts it as positive (`C146_violated_label`); neither the number of costs nor the size of the cost matrix is checked, and for integer vectors `UpdateRocOptions` keeps pointers into copies that end with it (`C146_violated_costs`).
* **Also seen** - `SetRow`/`SetColumn`/`SetSubVector`/`GetSubVector` do not check source sizes; `SetSubRow` with a negative start writes in front of the matrix; `RemoveNanVector` returns the length of the storage instead of the number of numbers; `Matrix::QR` frees `tau` twice; `gemv` leaves the storage as it was for empty matrices; after a search that keeps everything projections lose the uncertainty of the coefficients (`R` is zero); `Sur`: the result of `resid_var.Inv0()` is ignored; after a search that keeps everything `R` is zero, so the details (and later projections) lose all variances; the degrees of freedom of the F statistic are `m(N-1)` and AIC/SIC/HQIC count all `k m` parameters even if restricted; `Ols`/`Gls` check the sizes the wrong way round (data smaller than announced is refused, larger is accepted and overruns the storage); the `sigma` of `Ols` is documented as a variance but never divided; `Gls` does not check the shape of `omega` and inverts it in place; `Histogram`: the greatest datum on a break goes below it, one bin takes everything, a negative `bincount` is documented to be replaced but is not, `step` is ignored when range and number are given; `Matrix::Last()` reads `Data[length()]`; `MeanVariance` swaps the two divisors; `QuantileSorted` of no data reads a cell; `FilterMa` without coefficients writes in front
  of its storage; `count * count` overflows `int` for more than 46340 data in the kurtosis; `SeasonalDecompositionMa` without
  coefficients always throws although a default is documented, and a period 0 leaves its arrays; `Rank` and Spearman do not average ties, the comment in `Rank` about ties in descending order is wrong, `Sort`
  of a column with NaN is undefined; `SortByVector`/`SortRowsBy` of an empty index list dereference `end()` and do not check negative
  indexes; `Apply`/`Apply_in` compare only lengths; `IsSymmetric` counts NaN as equal; `Equals` calls an unqualified
  `abs` (modelled as the absolute value of reals); `Mean(check_nan)` divides by the position; an all-NaN mean, variance
  or covariance is 0; `CorrelationColumn` divides its variances by all rows although pairs were skipped, gives 1
  without common observations and leaves its count unset for at most one row; `max`/`min` without rows divide by zero
  and `MaximumInRow` and its kin leave the index untouched when there is no number; `Matrix::QR` frees the
  memory of a `unique_ptr` and then throws "not implemented"; `VarmaForecast` without `undiff_y` subtracts the sample
  end twice; `EstimateMl` computes goodness of fit with the untruncated `T`; with an infinite distance
  `GetNearestNeighbor` can return the null pointer, which `Calculate` dereferences (distances are finite in C68); `MergeR` of one point dereferences the end of an empty vector and its
  `order` has n-1 entries (merges), not n; `GroupData` says it removes the first of two near columns and removes the
  second, and never resets `Removed` and `NaNDistanceFound`; the maximum distance ignores NaN even without the check;
  columns without a common row are at distance 0 (Euclidean, Manhattan) or minus infinity (maximum); without the check two constant columns
  have no correlation, with it their correlation is 1.

## Trusted base

Lean 4.33.0 kernel; axioms `propext`, `Classical.choice`, `Quot.sound` only (see `lean/Verif/Audit.lean`);
the faithfulness of the reading of `/repo`; for C60/C61 and the products inside VARMA, the BLAS contract of
`dgemm`, `dsyrk`, `dsymm` written down in `Model/MatrixAlg.lean` (including their argument checks). LAPACK routines
(inversion, Cholesky, QR, SVD) are not modelled; where code calls them the theorems take the result as a parameter.
32-bit overflow (for example of `ColsCount*a` in the in-place transposition of very large matrices) is not modelled.
