import Verif.Lemmas.AggState
import Verif.Lemmas.Aggregation
import Verif.Lemmas.Array
import Verif.Lemmas.Beam
import Verif.Lemmas.BenchmarkRegions
import Verif.Lemmas.BoolStatistics
import Verif.Lemmas.Cells
import Verif.Lemmas.Chunking
import Verif.Lemmas.Dct
import Verif.Lemmas.DimNames
import Verif.Lemmas.Energy
import Verif.Lemmas.Ensemble
import Verif.Lemmas.Evaluated
import Verif.Lemmas.ExampleStatistic
import Verif.Lemmas.ExampleValue
import Verif.Lemmas.ExampleWeights
import Verif.Lemmas.Locality
import Verif.Lemmas.Mean
import Verif.Lemmas.MetricAlone
import Verif.Lemmas.MetricN
import Verif.Lemmas.NestedState
import Verif.Lemmas.OneDim
import Verif.Lemmas.Perfect
import Verif.Lemmas.Pipeline
import Verif.Lemmas.PipelineGrid
import Verif.Lemmas.PipelineState
import Verif.Lemmas.PipelineTimes
import Verif.Lemmas.Relabel
import Verif.Lemmas.Repeated
import Verif.Lemmas.Roles
import Verif.Lemmas.Samples
import Verif.Lemmas.Select
import Verif.Lemmas.Separate
import Verif.Lemmas.Serialize
import Verif.Lemmas.SerializeTree
import Verif.Lemmas.StateTable
import Verif.Lemmas.Table
import Verif.Lemmas.TimeChunks
import Verif.Lemmas.Transport
import Verif.Lemmas.Tree
import Verif.Lemmas.Units
import Verif.Lemmas.VaryingAgg
import Verif.Lemmas.VaryingBins
import Verif.Lemmas.WMean
import Verif.Model.Aggregation
import Verif.Model.Array
import Verif.Model.AtomicWrite
import Verif.Model.Autodiff
import Verif.Model.Baseline
import Verif.Model.Basic
import Verif.Model.Beam
import Verif.Model.Benchmark
import Verif.Model.BenchmarkRegions
import Verif.Model.Binning
import Verif.Model.BoolStatistics
import Verif.Model.Bootstrap
import Verif.Model.Categorical
import Verif.Model.CombineResults
import Verif.Model.Dashboard
import Verif.Model.Datasets
import Verif.Model.DefinePipeline
import Verif.Model.Deterministic
import Verif.Model.EconomicValue
import Verif.Model.Ensemble
import Verif.Model.ExampleEvaluation
import Verif.Model.FV
import Verif.Model.Interpolation
import Verif.Model.Load
import Verif.Model.LoaderThreads
import Verif.Model.Loaders
import Verif.Model.MaskLayout
import Verif.Model.MetricsBase
import Verif.Model.Naming
import Verif.Model.ObservationLatency
import Verif.Model.Opportunism
import Verif.Model.OptimalThresholds
import Verif.Model.Parquet
import Verif.Model.PublicConfigs
import Verif.Model.ReferenceClip
import Verif.Model.RelativeIntensity
import Verif.Model.Reliability
import Verif.Model.Rounding
import Verif.Model.SeepsClimatology
import Verif.Model.Serialize
import Verif.Model.SetArguments
import Verif.Model.Spatial
import Verif.Model.StationaryBootstrap
import Verif.Model.TTest
import Verif.Model.TimeChunks
import Verif.Model.Transforms
import Verif.Model.Tree
import Verif.Model.Unaggregated
import Verif.Model.Wasserstein
import Verif.Model.Weighting
import Verif.Model.Wrappers
import Verif.Model.XarrayLatency
import Verif.Props.ACC
import Verif.Props.AggState
import Verif.Props.Altitude
import Verif.Props.AtomicWrite
import Verif.Props.Autodiff
import Verif.Props.Baseline
import Verif.Props.BaselineMethods
import Verif.Props.Benchmark
import Verif.Props.BenchmarkNames
import Verif.Props.BenchmarkRegions
import Verif.Props.BenchmarkScores
import Verif.Props.BootstrapIntervals
import Verif.Props.BootstrapResample
import Verif.Props.CRPS
import Verif.Props.CRPSSpread
import Verif.Props.Categorical
import Verif.Props.Chunking
import Verif.Props.Climatology
import Verif.Props.CombineAll
import Verif.Props.CombineEnd
import Verif.Props.CombineErrors
import Verif.Props.CombineResults
import Verif.Props.CoordBins
import Verif.Props.Copies
import Verif.Props.Corners
import Verif.Props.Dashboard
import Verif.Props.DashboardFindings
import Verif.Props.DefinePipeline
import Verif.Props.Deterministic
import Verif.Props.DimNames
import Verif.Props.DimNamesEnsemble
import Verif.Props.DimNamesGrid
import Verif.Props.DimNamesMore
import Verif.Props.EconomicValue
import Verif.Props.Encodings
import Verif.Props.EnsembleMoments
import Verif.Props.EnsembleRPS
import Verif.Props.EnsembleScores
import Verif.Props.EnsembleScoresExamples
import Verif.Props.ExampleEvaluation
import Verif.Props.Exceedance
import Verif.Props.Exchange
import Verif.Props.ExchangeMetrics
import Verif.Props.FSS
import Verif.Props.FSSMissing
import Verif.Props.HiddenCases
import Verif.Props.HiddenEnsemble
import Verif.Props.HiddenMembers
import Verif.Props.Improved
import Verif.Props.ImprovedEnsemble
import Verif.Props.ImprovedExamples
import Verif.Props.ImprovedMore
import Verif.Props.Inflation
import Verif.Props.Interpolation
import Verif.Props.InterpolationArrays
import Verif.Props.InterpolationMany
import Verif.Props.InterpolationSelect
import Verif.Props.Latency
import Verif.Props.LaterTimes
import Verif.Props.LaterTimesMore
import Verif.Props.Load
import Verif.Props.LoadChunk
import Verif.Props.LoaderThreads
import Verif.Props.Loaders
import Verif.Props.Locality
import Verif.Props.LocalityClimatology
import Verif.Props.LocalityMore
import Verif.Props.LocalityPipeline
import Verif.Props.LocalityWrappers
import Verif.Props.MaskLayout
import Verif.Props.Mean
import Verif.Props.MetricExtensional
import Verif.Props.MetricsBase
import Verif.Props.Naming
import Verif.Props.ObservationLatency
import Verif.Props.Observations
import Verif.Props.Opportunism
import Verif.Props.OptimalThresholds
import Verif.Props.Parquet
import Verif.Props.ParquetMore
import Verif.Props.Perfect
import Verif.Props.PerfectEnsemble
import Verif.Props.PerfectMore
import Verif.Props.Pipeline
import Verif.Props.PipelineCrashes
import Verif.Props.PipelineFiles
import Verif.Props.PipelineFilesExample
import Verif.Props.PipelineStateFile
import Verif.Props.Pooling
import Verif.Props.PoolingExamples
import Verif.Props.PoolingMetrics
import Verif.Props.PublicConfigs
import Verif.Props.PublicTables
import Verif.Props.RPS
import Verif.Props.RankHistogram
import Verif.Props.ReferenceCoords
import Verif.Props.Regions
import Verif.Props.Relabel
import Verif.Props.RelabelClimatology
import Verif.Props.RelabelEnsemble
import Verif.Props.RelabelExamples
import Verif.Props.RelabelGrid
import Verif.Props.RelabelMore
import Verif.Props.RelativeIntensity
import Verif.Props.Reliability
import Verif.Props.Rename
import Verif.Props.RenameMore
import Verif.Props.Repeated
import Verif.Props.RepeatedEnsemble
import Verif.Props.RepeatedGrid
import Verif.Props.Roles
import Verif.Props.RolesMore
import Verif.Props.Rounding
import Verif.Props.RoundingBinary
import Verif.Props.SampleWeights
import Verif.Props.Samples
import Verif.Props.SamplesEnsemble
import Verif.Props.SamplesMore
import Verif.Props.Seeps
import Verif.Props.SeepsClimatology
import Verif.Props.Select
import Verif.Props.SelectEnsemble
import Verif.Props.SelectExamples
import Verif.Props.SelectMetrics
import Verif.Props.SelectMore
import Verif.Props.SelectThresholds
import Verif.Props.Separate
import Verif.Props.SeparateMetrics
import Verif.Props.Serialize
import Verif.Props.SetArguments
import Verif.Props.Slices
import Verif.Props.Spatial
import Verif.Props.StationaryBootstrap
import Verif.Props.StationaryCellwise
import Verif.Props.Survive
import Verif.Props.TTest
import Verif.Props.TimeBins
import Verif.Props.TimeChunks
import Verif.Props.Transforms
import Verif.Props.Unaggregated
import Verif.Props.UniqueNames
import Verif.Props.UniqueNamesMore
import Verif.Props.UniqueNamesOpportunism
import Verif.Props.Units
import Verif.Props.UnitsEnsemble
import Verif.Props.UnitsMore
import Verif.Props.UnitsThresholds
import Verif.Props.Wasserstein
import Verif.Props.WeightUnits
import Verif.Props.Weighting
import Verif.Props.Wind
import Verif.Props.Wrappers
import Verif.Props.XarrayLatency
import Verif.Spec.Aggregation
import Verif.Spec.Array
import Verif.Spec.BenchmarkRegions
import Verif.Spec.Calendar
import Verif.Spec.Copies
import Verif.Spec.DefinePipeline
import Verif.Spec.DimNames
import Verif.Spec.Ensemble
import Verif.Spec.EnsembleScores
import Verif.Spec.Evaluated
import Verif.Spec.ExampleEvaluation
import Verif.Spec.Exchange
import Verif.Spec.HiddenCases
import Verif.Spec.Improved
import Verif.Spec.Inference
import Verif.Spec.Interpolation
import Verif.Spec.LaterTimes
import Verif.Spec.Locality
import Verif.Spec.MetricsBase
import Verif.Spec.Perfect
import Verif.Spec.Pipeline
import Verif.Spec.Pooling
import Verif.Spec.Relabel
import Verif.Spec.Rename
import Verif.Spec.Renaming
import Verif.Spec.Repeated
import Verif.Spec.Roles
import Verif.Spec.Rounding
import Verif.Spec.Samples
import Verif.Spec.Seeps
import Verif.Spec.Select
import Verif.Spec.Separate
import Verif.Spec.Serialize
import Verif.Spec.Spatial
import Verif.Spec.Store
import Verif.Spec.Table
import Verif.Spec.Transforms
import Verif.Spec.Transport
import Verif.Spec.Tree
import Verif.Spec.UniqueNames
import Verif.Spec.Units
import Verif.Spec.WeightUnits
import Verif.Spec.Weighting
