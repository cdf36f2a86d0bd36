import Verif.Lemmas.Api
import Verif.Lemmas.Archives
import Verif.Lemmas.ArithCongr
import Verif.Lemmas.BandDouble
import Verif.Lemmas.BinaryCascade
import Verif.Lemmas.BinaryGroups
import Verif.Lemmas.BinaryUnits
import Verif.Lemmas.BruteForce
import Verif.Lemmas.CachedSearch
import Verif.Lemmas.Cells
import Verif.Lemmas.Cli
import Verif.Lemmas.CliOutput
import Verif.Lemmas.CosineRounded
import Verif.Lemmas.DataFiles
import Verif.Lemmas.Dataset
import Verif.Lemmas.DatasetFail
import Verif.Lemmas.DatasetOps
import Verif.Lemmas.DatasetProps
import Verif.Lemmas.Dbl
import Verif.Lemmas.Decimal
import Verif.Lemmas.Double
import Verif.Lemmas.Dtw
import Verif.Lemmas.DtwInst
import Verif.Lemmas.DtwMore
import Verif.Lemmas.DtwOpt
import Verif.Lemmas.EndToEnd
import Verif.Lemmas.Exact
import Verif.Lemmas.Float
import Verif.Lemmas.Group
import Verif.Lemmas.GroupDist
import Verif.Lemmas.GroupMulti
import Verif.Lemmas.Grouping
import Verif.Lemmas.Interface
import Verif.Lemmas.KSearch
import Verif.Lemmas.KSearchAll
import Verif.Lemmas.Lazy
import Verif.Lemmas.Lemire
import Verif.Lemmas.LemireChk
import Verif.Lemmas.Listing
import Verif.Lemmas.LockStep
import Verif.Lemmas.LowerBounds
import Verif.Lemmas.Machine
import Verif.Lemmas.MachineArith
import Verif.Lemmas.MachineBrute
import Verif.Lemmas.MachineDist
import Verif.Lemmas.MachinePaa
import Verif.Lemmas.MachineRun
import Verif.Lemmas.MachineSearch
import Verif.Lemmas.MachineSizes
import Verif.Lemmas.MachineThreads
import Verif.Lemmas.Memory
import Verif.Lemmas.MetricLaws
import Verif.Lemmas.Moved
import Verif.Lemmas.Normalize
import Verif.Lemmas.NumberText
import Verif.Lemmas.OldFormat
import Verif.Lemmas.OldFormatSearch
import Verif.Lemmas.Overflow
import Verif.Lemmas.OverflowAll
import Verif.Lemmas.OverflowData
import Verif.Lemmas.OverflowEval
import Verif.Lemmas.OverflowSet
import Verif.Lemmas.Paa
import Verif.Lemmas.Pairwise
import Verif.Lemmas.Py
import Verif.Lemmas.PyAnswer
import Verif.Lemmas.PyDouble
import Verif.Lemmas.Ring
import Verif.Lemmas.Rounded
import Verif.Lemmas.RoundedBack
import Verif.Lemmas.RoundedData
import Verif.Lemmas.RoundedError
import Verif.Lemmas.RoundedSearch
import Verif.Lemmas.Scratch
import Verif.Lemmas.Search
import Verif.Lemmas.SearchDist
import Verif.Lemmas.Serialize
import Verif.Lemmas.SeriesArchive
import Verif.Lemmas.Similarity
import Verif.Lemmas.SimilarityRounded
import Verif.Lemmas.Stable
import Verif.Lemmas.StdAlgo
import Verif.Lemmas.Terminal
import Verif.Lemmas.TerminalDouble
import Verif.Lemmas.Text
import Verif.Lemmas.ThreadPool
import Verif.Lemmas.TimeSeriesObj
import Verif.Lemmas.TopK
import Verif.Lemmas.Traverse
import Verif.Lemmas.UcrAny
import Verif.Lemmas.UcrBounds
import Verif.Lemmas.UcrDtw
import Verif.Lemmas.UcrFiles
import Verif.Lemmas.UcrNear
import Verif.Lemmas.UcrOverflow
import Verif.Lemmas.UcrOverflowScan
import Verif.Lemmas.UcrPath
import Verif.Lemmas.UcrRounded
import Verif.Lemmas.UcrRoundedScan
import Verif.Lemmas.UcrRoundedWindow
import Verif.Lemmas.UcrScan
import Verif.Lemmas.UcrStat
import Verif.Lemmas.UcrSums
import Verif.Lemmas.UcrTrue
import Verif.Lemmas.UcrWindow
import Verif.Lemmas.UnitGroups
import Verif.Lemmas.UnitTerminal
import Verif.Lemmas.Units
import Verif.Model.Api
import Verif.Model.BruteForce
import Verif.Model.CachedSearch
import Verif.Model.Cells
import Verif.Model.Cli
import Verif.Model.CliExperiment
import Verif.Model.CliOutput
import Verif.Model.Dataset
import Verif.Model.Dbl
import Verif.Model.Distance
import Verif.Model.Group
import Verif.Model.Lazy
import Verif.Model.Lemire
import Verif.Model.LowerBounds
import Verif.Model.Machine
import Verif.Model.MachineBrute
import Verif.Model.MachineDist
import Verif.Model.MachinePaa
import Verif.Model.MachineRun
import Verif.Model.MachineSearch
import Verif.Model.MachineThreads
import Verif.Model.NumberText
import Verif.Model.OldFormat
import Verif.Model.Overflow
import Verif.Model.Paa
import Verif.Model.Py
import Verif.Model.Rounded
import Verif.Model.RoundedData
import Verif.Model.Scratch
import Verif.Model.ScriptGroups
import Verif.Model.Scripts
import Verif.Model.Serialize
import Verif.Model.SeriesArchive
import Verif.Model.StdAlgo
import Verif.Model.ThreadPool
import Verif.Model.TimeSeriesObj
import Verif.Model.Traverse
import Verif.Model.Ucr
import Verif.Model.UcrRounded
import Verif.Props.Api
import Verif.Props.Approx
import Verif.Props.Archives
import Verif.Props.BandDouble
import Verif.Props.BinaryGroups
import Verif.Props.BinaryUnits
import Verif.Props.BruteForce
import Verif.Props.CachedSearch
import Verif.Props.Cells
import Verif.Props.Cli
import Verif.Props.CliExperiment
import Verif.Props.CliOutput
import Verif.Props.DataFiles
import Verif.Props.Dataset
import Verif.Props.Decimal
import Verif.Props.Double
import Verif.Props.Dtw
import Verif.Props.EndToEnd
import Verif.Props.Group
import Verif.Props.Interface
import Verif.Props.KSearch
import Verif.Props.Lazy
import Verif.Props.Listing
import Verif.Props.LowerBounds
import Verif.Props.Machine
import Verif.Props.MachineBrute
import Verif.Props.MachineDist
import Verif.Props.MachineKBest
import Verif.Props.MachinePaa
import Verif.Props.MachineRun
import Verif.Props.MachineSearch
import Verif.Props.MachineThreads
import Verif.Props.Memory
import Verif.Props.Moved
import Verif.Props.OldFormat
import Verif.Props.Overflow
import Verif.Props.OverflowAll
import Verif.Props.Paa
import Verif.Props.Pairwise
import Verif.Props.Py
import Verif.Props.PyAnswer
import Verif.Props.PyDouble
import Verif.Props.Rounded
import Verif.Props.RoundedApprox
import Verif.Props.RoundedBack
import Verif.Props.RoundedData
import Verif.Props.RoundedError
import Verif.Props.RoundedSearch
import Verif.Props.Scratch
import Verif.Props.ScreenNumbers
import Verif.Props.ScriptGroups
import Verif.Props.Scripts
import Verif.Props.Search
import Verif.Props.Serialize
import Verif.Props.SeriesArchive
import Verif.Props.Similarity
import Verif.Props.SimilarityRounded
import Verif.Props.Stable
import Verif.Props.Terminal
import Verif.Props.TerminalDouble
import Verif.Props.TextInterface
import Verif.Props.ThreadPool
import Verif.Props.TimeSeriesObj
import Verif.Props.Traverse
import Verif.Props.Ucr
import Verif.Props.UcrOverflow
import Verif.Props.UcrRounded
import Verif.Props.UcrTrue
import Verif.Props.UnitGroups
import Verif.Props.UnitTerminal
import Verif.Props.Units
import Verif.Spec.Align
import Verif.Spec.Api
import Verif.Spec.Archives
import Verif.Spec.Band
import Verif.Spec.BandDouble
import Verif.Spec.BinaryUnits
import Verif.Spec.CachedSearch
import Verif.Spec.Cells
import Verif.Spec.Cli
import Verif.Spec.CliExperiment
import Verif.Spec.CliOutput
import Verif.Spec.DataFiles
import Verif.Spec.Dataset
import Verif.Spec.Decimal
import Verif.Spec.Double
import Verif.Spec.EndToEnd
import Verif.Spec.Float
import Verif.Spec.Group
import Verif.Spec.Interface
import Verif.Spec.Listing
import Verif.Spec.Machine
import Verif.Spec.MachinePaa
import Verif.Spec.MachineRun
import Verif.Spec.Moved
import Verif.Spec.Near
import Verif.Spec.NumberText
import Verif.Spec.OldFormat
import Verif.Spec.Overflow
import Verif.Spec.OverflowAll
import Verif.Spec.Paa
import Verif.Spec.Pairwise
import Verif.Spec.Pool
import Verif.Spec.Py
import Verif.Spec.PyAnswer
import Verif.Spec.PyDouble
import Verif.Spec.Race
import Verif.Spec.Ready
import Verif.Spec.Scripts
import Verif.Spec.Search
import Verif.Spec.Similarity
import Verif.Spec.Terminal
import Verif.Spec.TerminalDouble
import Verif.Spec.Text
import Verif.Spec.TimeSeriesObj
import Verif.Spec.Ucr
import Verif.Spec.UcrRounded
import Verif.Spec.UcrTrue
import Verif.Spec.UnitTerminal
import Verif.Spec.Units
import Verif.Spec.Window
import Verif.Tests.Api
import Verif.Tests.Data
import Verif.Tests.Dataset
import Verif.Tests.Distance
import Verif.Tests.Groups
import Verif.Tests.Harness
import Verif.Tests.Series
