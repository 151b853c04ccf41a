import Verif.Props.TimeFrame
import Verif.Props.TimeFrameGroup
import Verif.Props.HDF
import Verif.Props.CSV
import Verif.Props.AllData
import Verif.Props.Energy
import Verif.Props.Results
import Verif.Props.GoodSections
import Verif.Props.Dropout
import Verif.Props.Histogram
import Verif.Props.Measurement
import Verif.Props.Key
import Verif.Props.Node
import Verif.Props.Utils
import Verif.Props.Convert
import Verif.Props.CO
import Verif.Props.FHMM
import Verif.Props.Hart
import Verif.Props.SteadyStates
import Verif.Props.Mean
import Verif.Props.Group
import Verif.Props.Combine
import Verif.Props.ApiDropna
import Verif.Props.Split
import Verif.Props.Metrics
import Verif.Props.Fraction
import Verif.Props.Activations
import Verif.Props.Cache
import Verif.Props.Select
import Verif.Props.Correlation
import Verif.Props.Experiment
import Verif.Props.Losses
import Verif.Props.Import
import Verif.Props.Switch
import Verif.Props.Resample
import Verif.Props.Activity
import Verif.Props.Wiring
import Verif.Props.Proportion
import Verif.Props.GSCache
import Verif.Props.FrameOfMeters
import Verif.Props.FromList
import Verif.Props.Pairwise
import Verif.Props.HartDisagg
import Verif.Props.GroupLoad
import Verif.Props.GroupStats
import Verif.Props.FHMMTrain
import Verif.Props.Redd
import Verif.Props.DataSet
import Verif.Props.ExperimentRun
import Verif.Props.GroupBy
import Verif.Props.Script
import Verif.Props.Store
import Verif.Props.CsvStore
import Verif.Props.LegacyDisag
import Verif.Props.Export
import Verif.Props.Across
import Verif.Props.MeanSave
import Verif.Props.Columns
import Verif.Props.COTrain
import Verif.Props.DataportCsv
import Verif.Props.GSUnify
import Verif.Model.Eco
import Verif.Props.Eco
import Verif.Model.Rmse
import Verif.Props.Rmse
import Verif.Model.MetricTables
import Verif.Props.MetricTables
import Verif.Model.Ideal
import Verif.Props.Ideal
import Verif.Model.Labels
import Verif.Props.Labels
import Verif.Model.Smart
import Verif.Props.Smart
import Verif.Model.LegacyHart
import Verif.Props.LegacyHart
import Verif.Model.DataportDb
import Verif.Props.DataportDb
import Verif.Model.Session
import Verif.Props.Session
import Verif.Model.MeterEnergy
import Verif.Props.MeterEnergy
import Verif.Props.MeterSections
import Verif.Model.MeterUptime
import Verif.Props.MeterUptime
import Verif.Model.MeterPower
import Verif.Props.MeterPower
import Verif.Model.MeterDropout
import Verif.Props.MeterDropout
import Verif.Model.MeterAverage
import Verif.Props.MeterAverage
import Verif.Model.MeterProportion
import Verif.Props.MeterProportion
import Verif.Model.Describe
import Verif.Props.Describe
import Verif.Model.MeterShare
import Verif.Props.MeterShare
import Verif.Model.StoredLoad
import Verif.Props.StoredLoad
import Verif.Model.StoredExperiment
import Verif.Props.StoredExperiment
import Verif.Props.MeterCumulative
import Verif.Props.Refusals
import Verif.Props.ColumnsEnergy
import Verif.Model.Hes
import Verif.Props.Hes
import Verif.Model.Greend
import Verif.Props.Greend
import Verif.Model.Ampds
import Verif.Props.Ampds
import Verif.Model.Iawe
import Verif.Props.Iawe
import Verif.Model.Caxe
import Verif.Props.Caxe
import Verif.Model.Slice
import Verif.Props.Slice
import Verif.Model.Vampire
import Verif.Props.Vampire
import Verif.Model.Pipeline
import Verif.Props.Pipeline
import Verif.Model.NodeMetadata
import Verif.Props.NodeMetadata
import Verif.Model.Mle
import Verif.Props.Mle
import Verif.Model.MleDisag
import Verif.Props.MleDisag
import Verif.Model.MleStore
import Verif.Props.MleStore
import Verif.Model.OpenStore
import Verif.Props.OpenStore
import Verif.Model.MleMetadata
import Verif.Props.MleMetadata
