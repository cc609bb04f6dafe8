import Verif.Lemmas.Affine
import Verif.Lemmas.Aggregation
import Verif.Lemmas.Anniversary
import Verif.Lemmas.AvailFill
import Verif.Lemmas.AvailRecover
import Verif.Lemmas.AvailRuns
import Verif.Lemmas.AvailUnits
import Verif.Lemmas.Calendar
import Verif.Lemmas.CalendarMonth
import Verif.Lemmas.CalendarYear
import Verif.Lemmas.Chains
import Verif.Lemmas.ChainsAgree
import Verif.Lemmas.ChainsAnalysis
import Verif.Lemmas.ChainsDaily
import Verif.Lemmas.ChainsMemory
import Verif.Lemmas.ChainsNormalized
import Verif.Lemmas.ChainsSim
import Verif.Lemmas.ChainsSoiling
import Verif.Lemmas.ChainsTwin
import Verif.Lemmas.ClearskyPoa
import Verif.Lemmas.ClipDetect
import Verif.Lemmas.ClipFine
import Verif.Lemmas.ClipLogic
import Verif.Lemmas.ClipRegular
import Verif.Lemmas.ClipScale
import Verif.Lemmas.ClipXgb
import Verif.Lemmas.CodsAffine
import Verif.Lemmas.CodsBootstrap
import Verif.Lemmas.CodsCollapse
import Verif.Lemmas.CodsConst
import Verif.Lemmas.CodsDecomp
import Verif.Lemmas.CodsDetect
import Verif.Lemmas.CodsInv
import Verif.Lemmas.CodsKalman
import Verif.Lemmas.CodsNoIndex
import Verif.Lemmas.CodsStages
import Verif.Lemmas.Degradation
import Verif.Lemmas.DegradationMove
import Verif.Lemmas.DegradationStats
import Verif.Lemmas.Energy
import Verif.Lemmas.EnergyApi
import Verif.Lemmas.EnergyCal
import Verif.Lemmas.EnergyCalGrid
import Verif.Lemmas.EnergyGaps
import Verif.Lemmas.EnergyLinear
import Verif.Lemmas.EnergyMove
import Verif.Lemmas.EnergySign
import Verif.Lemmas.EnergyTrap
import Verif.Lemmas.Filtering
import Verif.Lemmas.Frame
import Verif.Lemmas.Interpolate
import Verif.Lemmas.Percentile
import Verif.Lemmas.Quantile
import Verif.Lemmas.Scaling
import Verif.Lemmas.SrrDaily
import Verif.Lemmas.SrrExample
import Verif.Lemmas.SrrFit
import Verif.Lemmas.SrrFull
import Verif.Lemmas.SrrLevels
import Verif.Lemmas.SrrLinear
import Verif.Lemmas.SrrMonte
import Verif.Lemmas.SrrMove
import Verif.Lemmas.SrrSawtooth
import Verif.Lemmas.SrrShift
import Verif.Lemmas.SrrSplit
import Verif.Lemmas.SrrTable
import Verif.Lemmas.Stats
import Verif.Lemmas.Tactics
import Verif.Lemmas.Version
import Verif.Model.Aggregation
import Verif.Model.AggregationAlign
import Verif.Model.AggregationCal
import Verif.Model.Availability
import Verif.Model.Basic
import Verif.Model.Bootstrap
import Verif.Model.Calendar
import Verif.Model.Chains
import Verif.Model.ChainsClear
import Verif.Model.ChainsDaily
import Verif.Model.ChainsNumeric
import Verif.Model.ChainsSoiling
import Verif.Model.ClearskyFilter
import Verif.Model.ClearskyPoa
import Verif.Model.ClearskySeries
import Verif.Model.ClearskyTemp
import Verif.Model.ClipLoad
import Verif.Model.ClipLogic
import Verif.Model.ClipXgb
import Verif.Model.CodsBootstrap
import Verif.Model.CodsDecomp
import Verif.Model.CodsEvents
import Verif.Model.CodsFull
import Verif.Model.CodsKalman
import Verif.Model.CodsYoy
import Verif.Model.Degradation
import Verif.Model.DegradationStats
import Verif.Model.Deprecation
import Verif.Model.EnergyCal
import Verif.Model.FilterDict
import Verif.Model.Filtering
import Verif.Model.Flt
import Verif.Model.Frame
import Verif.Model.Normalization
import Verif.Model.Normalize
import Verif.Model.Plotting
import Verif.Model.ProgressBar
import Verif.Model.Rescale
import Verif.Model.Soiling
import Verif.Model.Stats
import Verif.Model.Utilities
import Verif.Model.Version
import Verif.Model.VersionGit
import Verif.Model.VersionKeywords
import Verif.Props.Aggregation
import Verif.Props.AggregationAlign
import Verif.Props.AggregationBins
import Verif.Props.AggregationCal
import Verif.Props.AggregationCalSteps
import Verif.Props.AggregationSteps
import Verif.Props.AvailBand
import Verif.Props.AvailColumns
import Verif.Props.AvailEnergy
import Verif.Props.AvailOutages
import Verif.Props.AvailOverlap
import Verif.Props.AvailPeriods
import Verif.Props.AvailRecover
import Verif.Props.AvailRollup
import Verif.Props.AvailRules
import Verif.Props.AvailState
import Verif.Props.AvailSubsystem
import Verif.Props.AvailUnits
import Verif.Props.Bootstrap
import Verif.Props.ChainsAccepted
import Verif.Props.ChainsClearOutcome
import Verif.Props.ChainsConfig
import Verif.Props.ChainsFilter
import Verif.Props.ChainsGrid
import Verif.Props.ChainsMemory
import Verif.Props.ChainsOutcome
import Verif.Props.ChainsRecover
import Verif.Props.ChainsSoiling
import Verif.Props.ChainsState
import Verif.Props.ChainsUnits
import Verif.Props.Classical
import Verif.Props.ClearskyFilter
import Verif.Props.ClearskyPoa
import Verif.Props.ClearskySeries
import Verif.Props.ClearskyTemp
import Verif.Props.ClipExact
import Verif.Props.ClipFeatureValues
import Verif.Props.ClipFeatures
import Verif.Props.ClipFine
import Verif.Props.ClipLoad
import Verif.Props.ClipLogic
import Verif.Props.ClipPlateau
import Verif.Props.ClipWarn
import Verif.Props.ClipXgb
import Verif.Props.CodsBootstrap
import Verif.Props.CodsCollapse
import Verif.Props.CodsDecomp
import Verif.Props.CodsDetect
import Verif.Props.CodsEventsList
import Verif.Props.CodsFlat
import Verif.Props.CodsFull
import Verif.Props.CodsFullError
import Verif.Props.CodsIntervals
import Verif.Props.CodsIterate
import Verif.Props.CodsKalman
import Verif.Props.CodsMedian
import Verif.Props.CodsOrigin
import Verif.Props.CodsPass
import Verif.Props.CodsRatio
import Verif.Props.CodsReported
import Verif.Props.CodsRevise
import Verif.Props.CodsRun
import Verif.Props.CodsSeasonal
import Verif.Props.CodsSoilingEvents
import Verif.Props.CodsUnits
import Verif.Props.CodsYoy
import Verif.Props.Confidence
import Verif.Props.DegradationMove
import Verif.Props.DegradationStats
import Verif.Props.Deprecation
import Verif.Props.Energy
import Verif.Props.EnergyCal
import Verif.Props.EnergyExtend
import Verif.Props.EnergyInst
import Verif.Props.EnergyLinear
import Verif.Props.EnergyMove
import Verif.Props.EnergyRegular
import Verif.Props.FilterDict
import Verif.Props.FilterMono
import Verif.Props.FilterMonoChain
import Verif.Props.Filtering
import Verif.Props.Interpolate
import Verif.Props.MannKendall
import Verif.Props.Normalize
import Verif.Props.NormalizePvwatts
import Verif.Props.Ols
import Verif.Props.OlsOrder
import Verif.Props.Outliers
import Verif.Props.PlotAvailability
import Verif.Props.PlotBand
import Verif.Props.PlotFilter
import Verif.Props.PlotSoiling
import Verif.Props.PlotSummary
import Verif.Props.PlotTimeseries
import Verif.Props.ProgressBar
import Verif.Props.Rescale
import Verif.Props.RescaleOrder
import Verif.Props.SrrDaily
import Verif.Props.SrrIntervals
import Verif.Props.SrrLevels
import Verif.Props.SrrMono
import Verif.Props.SrrMonte
import Verif.Props.SrrMonthly
import Verif.Props.SrrRecenter
import Verif.Props.SrrRecover
import Verif.Props.SrrRobust
import Verif.Props.SrrShifts
import Verif.Props.SrrSummaries
import Verif.Props.SrrTheil
import Verif.Props.SrrUnits
import Verif.Props.Utilities
import Verif.Props.Version
import Verif.Props.VersionArchive
import Verif.Props.VersionImport
import Verif.Props.VersionKeywords
import Verif.Props.VersionPre
import Verif.Props.YearOnYear
import Verif.Props.YoYEmpty
import Verif.Props.YoYExtend
import Verif.Props.YoYIntervals
import Verif.Props.YoYRobust
import Verif.Props.YoYSeason
import Verif.Spec.Aggregation
import Verif.Spec.AvailRecover
import Verif.Spec.Availability
import Verif.Spec.ClipLogic
import Verif.Spec.ClipXgb
import Verif.Spec.Cods
import Verif.Spec.Degradation
import Verif.Spec.Filtering
import Verif.Spec.Normalization
import Verif.Spec.Quantile
import Verif.Spec.Soiling
import Verif.Spec.SrrSawtooth
import Verif.Spec.SrrShift
import Verif.Spec.YoYSeason
