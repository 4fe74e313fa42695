import Verif.Model.Api
import Verif.Model.ApiFreq
import Verif.Model.Array
import Verif.Model.Average
import Verif.Model.Basic
import Verif.Model.BoxCox
import Verif.Model.Calendar
import Verif.Model.Choice
import Verif.Model.ChoiceEstimate
import Verif.Model.ChoiceSearch
import Verif.Model.ChoiceSet
import Verif.Model.ChoiceSim
import Verif.Model.Cluster
import Verif.Model.Correlation
import Verif.Model.Crps
import Verif.Model.DataSplit
import Verif.Model.DatasetTs
import Verif.Model.Derivative
import Verif.Model.Descriptive
import Verif.Model.Distance
import Verif.Model.Distribution
import Verif.Model.Empirical
import Verif.Model.Freq
import Verif.Model.FreqCost
import Verif.Model.Gld
import Verif.Model.Histogram
import Verif.Model.Matrix
import Verif.Model.MatrixAlg
import Verif.Model.MatrixElem
import Verif.Model.MatrixExt
import Verif.Model.MatrixStat
import Verif.Model.MatrixVec
import Verif.Model.Mixture
import Verif.Model.NelderMead
import Verif.Model.Newton
import Verif.Model.Ols
import Verif.Model.Pca
import Verif.Model.Poly
import Verif.Model.RResults
import Verif.Model.RSearch
import Verif.Model.RStat
import Verif.Model.Rank
import Verif.Model.Roc
import Verif.Model.Running
import Verif.Model.Scoring
import Verif.Model.Search
import Verif.Model.SearchOptions
import Verif.Model.SearchReg
import Verif.Model.Sort
import Verif.Model.Standardize
import Verif.Model.Summary
import Verif.Model.Sur
import Verif.Model.SurExt
import Verif.Model.SurFit
import Verif.Model.SurProj
import Verif.Model.SurSearcher
import Verif.Model.SurSet
import Verif.Model.SurSim
import Verif.Model.Text
import Verif.Model.Variable
import Verif.Model.Varma
import Verif.Model.VarmaExt
import Verif.Model.VarmaFit
import Verif.Model.VarmaForecast
import Verif.Model.VarmaMl
import Verif.Model.VarmaSearcher
import Verif.Model.VarmaSet
import Verif.Model.VarmaSim
import Verif.Spec.Api
import Verif.Spec.ApiFreq
import Verif.Spec.Average
import Verif.Spec.Choice
import Verif.Spec.ChoiceEstimate
import Verif.Spec.ChoiceSearch
import Verif.Spec.ChoiceSet
import Verif.Spec.ChoiceSim
import Verif.Spec.Cluster
import Verif.Spec.Correlation
import Verif.Spec.Crps
import Verif.Spec.Derivative
import Verif.Spec.Descriptive
import Verif.Spec.Distance
import Verif.Spec.Distribution
import Verif.Spec.Filter
import Verif.Spec.Freq
import Verif.Spec.Gld
import Verif.Spec.Histogram
import Verif.Spec.Matrix
import Verif.Spec.NelderMead
import Verif.Spec.Newton
import Verif.Spec.Ols
import Verif.Spec.Pca
import Verif.Spec.Poly
import Verif.Spec.Quantile
import Verif.Spec.RResults
import Verif.Spec.RSearch
import Verif.Spec.Rank
import Verif.Spec.Roc
import Verif.Spec.Search
import Verif.Spec.SearchOptions
import Verif.Spec.SearchReg
import Verif.Spec.Season
import Verif.Spec.Spearman
import Verif.Spec.Standardize
import Verif.Spec.Stat
import Verif.Spec.Summary
import Verif.Spec.Sur
import Verif.Spec.SurExt
import Verif.Spec.SurFit
import Verif.Spec.SurProj
import Verif.Spec.SurSearcher
import Verif.Spec.SurSet
import Verif.Spec.SurSim
import Verif.Spec.Trend
import Verif.Spec.Varma
import Verif.Spec.VarmaExt
import Verif.Spec.VarmaFit
import Verif.Spec.VarmaMl
import Verif.Spec.VarmaSearcher
import Verif.Spec.VarmaSet
import Verif.Spec.VarmaSim
import Verif.Lemmas.Api
import Verif.Lemmas.ApiFreq
import Verif.Lemmas.Array
import Verif.Lemmas.AtA
import Verif.Lemmas.Average
import Verif.Lemmas.AverageFeed
import Verif.Lemmas.AverageMix
import Verif.Lemmas.Calendar
import Verif.Lemmas.ChoiceBinary
import Verif.Lemmas.ChoiceCode
import Verif.Lemmas.ChoiceEstimate
import Verif.Lemmas.ChoiceFit
import Verif.Lemmas.ChoiceLaw
import Verif.Lemmas.ChoiceLik
import Verif.Lemmas.ChoiceMore
import Verif.Lemmas.ChoicePrior
import Verif.Lemmas.ChoiceSearch
import Verif.Lemmas.ChoiceSearchCells
import Verif.Lemmas.ChoiceSearchSim
import Verif.Lemmas.ChoiceSet
import Verif.Lemmas.ChoiceSim
import Verif.Lemmas.ChoiceTally
import Verif.Lemmas.Cluster
import Verif.Lemmas.ClusterChain
import Verif.Lemmas.ClusterFilter
import Verif.Lemmas.ClusterGreedy
import Verif.Lemmas.ClusterGroup
import Verif.Lemmas.ClusterInertia
import Verif.Lemmas.ClusterLink
import Verif.Lemmas.ClusterMergeR
import Verif.Lemmas.ClusterTree
import Verif.Lemmas.Convert
import Verif.Lemmas.CorrNan
import Verif.Lemmas.Crps
import Verif.Lemmas.CrpsLog
import Verif.Lemmas.CrpsProper
import Verif.Lemmas.DataSplit
import Verif.Lemmas.Dense
import Verif.Lemmas.Dense2
import Verif.Lemmas.Derivative
import Verif.Lemmas.DerivativePoly
import Verif.Lemmas.DistCdf
import Verif.Lemmas.DistContinuous
import Verif.Lemmas.DistDiscrete
import Verif.Lemmas.DistGood
import Verif.Lemmas.DistInt
import Verif.Lemmas.DistMoments
import Verif.Lemmas.DistQuantile
import Verif.Lemmas.DistTF
import Verif.Lemmas.FreqAll
import Verif.Lemmas.FreqMinus
import Verif.Lemmas.FreqYear
import Verif.Lemmas.Gld
import Verif.Lemmas.GldLog
import Verif.Lemmas.GldMoments
import Verif.Lemmas.GldPsi
import Verif.Lemmas.GldZero
import Verif.Lemmas.Histogram
import Verif.Lemmas.Matrix
import Verif.Lemmas.MatrixAlg
import Verif.Lemmas.MatrixCols
import Verif.Lemmas.MatrixElem
import Verif.Lemmas.MatrixRemove
import Verif.Lemmas.MatrixVec
import Verif.Lemmas.Mixture
import Verif.Lemmas.Moments
import Verif.Lemmas.NelderMead
import Verif.Lemmas.Ols
import Verif.Lemmas.Outcome
import Verif.Lemmas.Pca
import Verif.Lemmas.PcaAll
import Verif.Lemmas.PcaFit
import Verif.Lemmas.PcaMath
import Verif.Lemmas.PcaOptions
import Verif.Lemmas.PcaRun
import Verif.Lemmas.Poly
import Verif.Lemmas.RResults
import Verif.Lemmas.RSearch
import Verif.Lemmas.Rank
import Verif.Lemmas.Roc
import Verif.Lemmas.Search
import Verif.Lemmas.SearchReg
import Verif.Lemmas.SearchRegRun
import Verif.Lemmas.Season
import Verif.Lemmas.Sort
import Verif.Lemmas.Spearman
import Verif.Lemmas.Standardize
import Verif.Lemmas.Stat
import Verif.Lemmas.SurAlg
import Verif.Lemmas.SurAll
import Verif.Lemmas.SurCond
import Verif.Lemmas.SurEst
import Verif.Lemmas.SurExt
import Verif.Lemmas.SurFit
import Verif.Lemmas.SurProj
import Verif.Lemmas.SurSearch
import Verif.Lemmas.SurSearcher
import Verif.Lemmas.SurSet
import Verif.Lemmas.SurSim
import Verif.Lemmas.SurSys
import Verif.Lemmas.SurTables
import Verif.Lemmas.Text
import Verif.Lemmas.Variable
import Verif.Lemmas.Varma
import Verif.Lemmas.VarmaExt
import Verif.Lemmas.VarmaExtMake
import Verif.Lemmas.VarmaFit
import Verif.Lemmas.VarmaForecast
import Verif.Lemmas.VarmaMl
import Verif.Lemmas.VarmaSearcher
import Verif.Lemmas.VarmaSet
import Verif.Lemmas.VarmaSim
import Verif.Lemmas.VarmaSimRun
import Verif.Lemmas.Vector
import Verif.Lemmas.Week
import Verif.Props.Api
import Verif.Props.ApiFreq
import Verif.Props.Array
import Verif.Props.Average
import Verif.Props.AverageMore
import Verif.Props.BoxCox
import Verif.Props.Calendar
import Verif.Props.ChoiceEstimate
import Verif.Props.ChoiceExtended
import Verif.Props.ChoiceFit
import Verif.Props.ChoiceMore
import Verif.Props.ChoicePrior
import Verif.Props.ChoiceProb
import Verif.Props.ChoiceScores
import Verif.Props.ChoiceSearch
import Verif.Props.ChoiceSearchExample
import Verif.Props.ChoiceSearchLink
import Verif.Props.ChoiceSearchMore
import Verif.Props.ChoiceSet
import Verif.Props.ChoiceSetMore
import Verif.Props.ChoiceSetSearch
import Verif.Props.ChoiceSim
import Verif.Props.Cluster
import Verif.Props.ClusterGroup
import Verif.Props.Convert
import Verif.Props.CorrDistance
import Verif.Props.Correlation
import Verif.Props.Crps
import Verif.Props.DataSplit
import Verif.Props.Dataset
import Verif.Props.DatasetTs
import Verif.Props.Derivative
import Verif.Props.Descriptive
import Verif.Props.DistCdf
import Verif.Props.DistContinuous
import Verif.Props.DistDiscrete
import Verif.Props.DistLog
import Verif.Props.DistMedian
import Verif.Props.DistMode
import Verif.Props.DistQuantile
import Verif.Props.DistSupport
import Verif.Props.Distance
import Verif.Props.Empirical
import Verif.Props.Filter
import Verif.Props.Freq
import Verif.Props.FreqCost
import Verif.Props.Gld
import Verif.Props.GldEx
import Verif.Props.GldFit
import Verif.Props.GldMoments
import Verif.Props.GldShape
import Verif.Props.Gls
import Verif.Props.Histogram
import Verif.Props.Matrix
import Verif.Props.MatrixAlg
import Verif.Props.MatrixCols
import Verif.Props.MatrixCov
import Verif.Props.MatrixElem
import Verif.Props.MatrixExt
import Verif.Props.MatrixFill
import Verif.Props.MatrixMore
import Verif.Props.MatrixOps
import Verif.Props.MatrixProd
import Verif.Props.MatrixStat
import Verif.Props.MatrixStd
import Verif.Props.MatrixTest
import Verif.Props.MatrixVec
import Verif.Props.MatrixVecProd
import Verif.Props.Mixture
import Verif.Props.MixtureSupport
import Verif.Props.Moments
import Verif.Props.NelderMead
import Verif.Props.NelderMead1
import Verif.Props.Newton
import Verif.Props.Ols
import Verif.Props.Pca
import Verif.Props.PcaOptions
import Verif.Props.Poly
import Verif.Props.Quantile
import Verif.Props.RCluster
import Verif.Props.RCombine
import Verif.Props.RResults
import Verif.Props.RRoc
import Verif.Props.RSearch
import Verif.Props.RStat
import Verif.Props.Rank
import Verif.Props.Roc
import Verif.Props.RocPartial
import Verif.Props.Scoring
import Verif.Props.Search
import Verif.Props.SearchOptions
import Verif.Props.SearchReg
import Verif.Props.SearchRegMore
import Verif.Props.Season
import Verif.Props.Sort
import Verif.Props.Spearman
import Verif.Props.SpearmanFacts
import Verif.Props.Standardize
import Verif.Props.Summary
import Verif.Props.Sur
import Verif.Props.SurCond
import Verif.Props.SurExt
import Verif.Props.SurFit
import Verif.Props.SurProj
import Verif.Props.SurR
import Verif.Props.SurSearch
import Verif.Props.SurSearcher
import Verif.Props.SurSearcherLink
import Verif.Props.SurSearcherSim
import Verif.Props.SurSet
import Verif.Props.SurSetSearch
import Verif.Props.SurSim
import Verif.Props.SurSimFit
import Verif.Props.Text
import Verif.Props.Trend
import Verif.Props.Variable
import Verif.Props.Varma
import Verif.Props.VarmaExt
import Verif.Props.VarmaExtEx
import Verif.Props.VarmaExtPca
import Verif.Props.VarmaExtUse
import Verif.Props.VarmaFit
import Verif.Props.VarmaForecast
import Verif.Props.VarmaMean
import Verif.Props.VarmaMl
import Verif.Props.VarmaMlBounds
import Verif.Props.VarmaMlEx
import Verif.Props.VarmaMlLik
import Verif.Props.VarmaRestrict
import Verif.Props.VarmaSearcher
import Verif.Props.VarmaSearcherExt
import Verif.Props.VarmaSearcherViol
import Verif.Props.VarmaSet
import Verif.Props.VarmaSetEx
import Verif.Props.VarmaSetExt
import Verif.Props.VarmaSim
import Verif.Props.VarmaSimExt
import Verif.Props.VarmaSizes
import Verif.Props.VarmaVariance
import Verif.Audit
