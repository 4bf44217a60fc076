import Verif.Props.Order
import Verif.Props.Items
import Verif.Props.Access
import Verif.Props.OpsScalar
import Verif.Props.OpsMap
import Verif.Props.OpsDiff
import Verif.Props.Inplace
import Verif.Props.Merge
import Verif.Props.Heap
import Verif.Props.Labels
import Verif.Props.Validity
import Verif.Props.Sampling
import Verif.Props.Metrics
import Verif.Props.Interp
import Verif.Props.Transform
import Verif.Props.Aggregate
import Verif.Props.TransformClaims
import Verif.Props.TransformMore
import Verif.Props.Text
import Verif.Props.CsvRows
import Verif.Props.Csv
import Verif.Props.CsvSlots
import Verif.Props.Conversions
import Verif.Model.Models
import Verif.Props.Models
import Verif.Model.Windows
import Verif.Props.Windows
import Verif.Props.Reconstruct
import Verif.Model.Periodic
import Verif.Props.Periodic
import Verif.Props.PeriodicForecast
import Verif.Model.Forecast
import Verif.Props.Forecast
import Verif.Props.ForecastClaims
import Verif.Model.Events
import Verif.Props.Events
import Verif.Model.Anomaly
import Verif.Props.AnomalyIndex
import Verif.Props.Anomaly
import Verif.Props.AnomalyClaims
import Verif.Model.Units
import Verif.Props.Units
import Verif.Model.Plots
import Verif.Props.Plots
import Verif.Props.InplaceMore
import Verif.Model.DetectorFit
import Verif.Props.DetectorFit
import Verif.Props.DetectorFitClaims
import Verif.Props.DetectorSave
import Verif.Props.Tightened
import Verif.Model.SaveLoad
import Verif.Props.SaveLoad
import Verif.Model.Statistical
import Verif.Props.Statistical
import Verif.Model.ListMethods
import Verif.Props.ListMethods
import Verif.Model.Create
import Verif.Props.Create
import Verif.Model.Query
import Verif.Props.Query
import Verif.Props.Tightened2
import Verif.Model.TransformFront
import Verif.Props.TransformFront
import Verif.Model.Evaluate
import Verif.Props.Evaluate
import Verif.Model.Periodicity
import Verif.Props.Periodicity
import Verif.Model.CvArgs
import Verif.Props.CvArgs
import Verif.Props.IntegralMore
import Verif.Props.Tightened3
import Verif.Model.Guess
import Verif.Model.GetItem
import Verif.Props.Guess
import Verif.Props.GetItem
import Verif.Model.RemoveIndex
import Verif.Model.Inspect
import Verif.Props.RemoveIndex
import Verif.Props.Inspect
import Verif.Props.Tightened4
import Verif.Props.CarriedLoss
import Verif.Model.CsumOffset
import Verif.Model.SourceRange
import Verif.Props.CsumOffset
import Verif.Props.SourceRange
import Verif.Model.Pipeline
import Verif.Props.Pipeline
import Verif.Props.Laws
import Verif.Props.Tightened5
import Verif.Model.Session
import Verif.Props.Session
import Verif.Model.Distribution
import Verif.Props.Distribution
import Verif.Model.Options
import Verif.Props.Options
import Verif.Model.Summary
import Verif.Props.Summary
import Verif.Props.MergeLaws
import Verif.Props.Tightened6
import Verif.Props.MeanValues
import Verif.Model.ViewObj
import Verif.Props.ViewObj
import Verif.Props.Tightened7
import Verif.Model.SlotOps
import Verif.Props.SlotStats
import Verif.Props.Tightened8
import Verif.Model.CsvTime
import Verif.Props.CsvTime
import Verif.Props.CsvColumns
import Verif.Props.Tightened9
import Verif.Model.MergeKinds
import Verif.Props.MergeKinds
import Verif.Model.UserOps
import Verif.Props.UserOps
import Verif.Model.ViewOps
import Verif.Props.ViewOps
import Verif.Props.Tightened10
import Verif.Model.BaseSeries
import Verif.Props.BaseSeries
import Verif.Model.PlainOps
import Verif.Props.PlainOps
import Verif.Model.Floats
import Verif.Lemmas.Binary64
import Verif.Props.Floats
import Verif.Props.Floats2
import Verif.Props.Tightened11
import Verif.Model.AnyData
import Verif.Props.AnyData
import Verif.Model.SharedZones
import Verif.Props.SharedZones
import Verif.Model.DetectorArgs
import Verif.Props.DetectorArgs
import Verif.Model.StorageSession
import Verif.Props.StorageSession
import Verif.Model.Nans
import Verif.Props.Nans
import Verif.Model.NanStore
import Verif.Props.NanStore
import Verif.Props.FloatsExact
import Verif.Props.Tightened12
import Verif.Model.PlotOutput
import Verif.Props.PlotOutput
import Verif.Model.IndexArgs
import Verif.Props.IndexArgs
import Verif.Model.EventsLive
import Verif.Props.EventsLive
import Verif.Model.World
import Verif.Props.World
import Verif.Props.Tightened13
import Verif.Props.CsvTypes
import Verif.Model.FloatOps
import Verif.Props.FloatOps
import Verif.Props.CsvSlotRows
import Verif.Model.ForceTz
import Verif.Props.ForceTz
import Verif.Props.WorldDuplicates
import Verif.Model.StorageFail
import Verif.Props.StorageFail
import Verif.Props.Witnesses
import Verif.Model.PlotTime
import Verif.Model.DataChecks
import Verif.Props.PlotTime
import Verif.Props.DataChecks
import Verif.Props.Tightened14
import Verif.Model.ListTransform
import Verif.Props.ListTransform
import Verif.Model.UniformTransform
import Verif.Props.UniformTransform
import Verif.Props.Tightened15
import Verif.Model.UniformAggregate
import Verif.Props.UniformAggregate
import Verif.Props.SameTimes
import Verif.Props.SlotGaps
import Verif.Props.WorldInsert
import Verif.Model.FloatWindows
import Verif.Props.FloatWindows
import Verif.Model.Describe
import Verif.Props.Describe
import Verif.Props.CsumLists
import Verif.Props.IntegralArea
import Verif.Model.FloatIntegral
import Verif.Props.FloatIntegral
