import Verif.Props.Schedule
import Verif.Props.ScheduleMore
import Verif.Props.ParallelSchedule
import Verif.Props.ParallelScheduleMore
import Verif.Props.F32
import Verif.Props.DBDashMap
import Verif.Props.NumberGrid
import Verif.Props.ObjectGrid
import Verif.Props.NewestObject
import Verif.Props.RandomBag
import Verif.Props.Torus
import Verif.Props.Field2D
import Verif.Props.Network
import Verif.Props.NetworkPA
import Verif.Props.NetworkBA
import Verif.Props.HNetwork
import Verif.Props.HNetworkSlices
import Verif.Props.KdTree
import Verif.Props.Distributed
import Verif.Props.Driver
import Verif.Props.Explore
import Verif.Props.Genetic
import Verif.Props.GeneticMpi
import Verif.Props.GeneticAws
import Verif.Props.Search
import Verif.Props.Monitor
import Verif.Props.ParGrid
import Verif.Props.ParField2D
import Verif.Props.ParNetwork
import Verif.Props.ParNetworkBA
import Verif.Props.Terminal
import Verif.Props.Visual
import Verif.Props.Flockers
import Verif.Props.Synchronous
import Verif.Props.SyncNodes
import Verif.Props.SyncHyper
import Verif.Props.SyncCells
import Verif.Props.Scent
import Verif.Props.NetworkOrder
import Verif.Props.NetworkDisplay
import Verif.Props.NetworkParallel
import Verif.Props.Keys
import Verif.Props.Frame
import Verif.Props.Picture
import Verif.Props.Charts
import Verif.Props.Render
import Verif.Props.Locks
import Verif.Props.Borrows
import Verif.Props.Flocking
import Verif.Props.SingleTorus
import Verif.Props.SingleField
import Verif.Props.SingleSearch
import Verif.Props.SingleCorners
import Verif.Props.Panics
import Verif.Props.TerminalModes
import Verif.Props.DenseI32
import Verif.Props.ScheduleU32
import Verif.Props.Machine
import Verif.Props.Arranged
import Verif.Props.MachineAgents
import Verif.Props.ParMachine
import Verif.Props.MachineSchedule
import Verif.Props.MachineStall
import Verif.Lemmas.MachineIeee
import Verif.Props.MachineIeee
import Verif.Props.KdMachine
import Verif.Conformance.NumberGrids
import Verif.Conformance.Objects
import Verif.Conformance.Networks
import Verif.Conformance.Parallel
import Verif.Conformance.Docs
import Verif.Props.GeneticMore
import Verif.Props.GeneticAwsLoop
import Verif.Props.Gauges
import Verif.Props.PlotArgs
import Verif.Props.Slider
import Verif.Props.Texts
import Verif.Props.Builder
import Verif.Props.Dispatch
import Verif.Props.DBDashCpus
import Verif.Props.Docs
import Verif.Props.Births
import Verif.Props.Reproduce
import Verif.Props.Repeats
import Verif.Props.FieldTwice
import Verif.Props.FieldNear
import Verif.Props.KdRemoved
import Verif.Model.Simulations
import Verif.Props.Simulations
import Verif.Model.CsvText
import Verif.Props.CsvText
import Verif.Model.Exchange
import Verif.Props.Exchange
import Verif.Spec.OneField
import Verif.Props.OneField
import Verif.Model.Tabs
import Verif.Props.Tabs
import Verif.Model.Interrupt
import Verif.Props.Interrupt
import Verif.Model.Plots
import Verif.Props.Plots
import Verif.Model.CsvBytes
import Verif.Spec.CsvBytes
import Verif.Props.CsvBytes
import Verif.Model.NetworkSeed
import Verif.Spec.NetworkSeed
import Verif.Props.NetworkSeed
import Verif.Model.Improvement
import Verif.Spec.Improvement
import Verif.Lemmas.Improvement
import Verif.Props.Improvement
import Verif.Spec.Chance
import Verif.Lemmas.Chance
import Verif.Props.Chance
import Verif.Spec.Moments
import Verif.Model.DBDashThreads
import Verif.Lemmas.Moments
import Verif.Props.Moments
import Verif.Props.Balance
import Verif.Props.Mutual
import Verif.Props.Metric
import Verif.Props.Degrees
import Verif.Props.Homogeneous
import Verif.Props.Retime
import Verif.Props.RetimeWhole
import Verif.Props.Permute
import Verif.Props.Units
import Verif.Props.UnitsSingle
import Verif.Props.OthersDense
import Verif.Props.OthersSparse
import Verif.Props.OthersField
import Verif.Spec.Reorder
import Verif.Props.ReorderDense
import Verif.Props.ReorderSparse
import Verif.Props.ReorderField
import Verif.Spec.Mirror
import Verif.Props.MirrorField
import Verif.Props.MirrorGrid
import Verif.Spec.Rename
import Verif.Props.RenameGrid
import Verif.Props.RenameField
import Verif.Props.RenameSchedule
import Verif.Model.Popup
import Verif.Spec.Popup
import Verif.Props.Popup
import Verif.Spec.RenameNetwork
import Verif.Props.RenameNetwork
import Verif.Spec.RenameHNetwork
import Verif.Props.RenameHNetwork
import Verif.Spec.HyperDegrees
import Verif.Props.HyperDegrees
import Verif.Spec.MachineAlike
import Verif.Props.MachineAlike
import Verif.Spec.Hashes
import Verif.Props.Hashes
import Verif.Spec.HashesNetwork
import Verif.Lemmas.HashesNetwork
import Verif.Props.HashesNetwork
import Verif.Spec.ParOthers
import Verif.Props.ParOthers
import Verif.Spec.ParReorder
import Verif.Props.ParReorder
import Verif.Spec.ParMirror
import Verif.Props.ParMirror
import Verif.Spec.MachineMirror
import Verif.Props.MachineMirror
import Verif.Model.GeneticRuns
import Verif.Spec.GeneticRuns
import Verif.Props.GeneticRuns
import Verif.Spec.MutualMachine
import Verif.Props.MutualMachine
import Verif.Spec.MachineSame
import Verif.Props.MachineSame
import Verif.Spec.NetworkParts
import Verif.Props.NetworkParts
import Verif.Spec.Watchers
import Verif.Props.Watchers
import Verif.Props.Farther
import Verif.Props.MachineWatchers
import Verif.Spec.HyperParts
import Verif.Props.HyperParts
import Verif.Props.ParNetworkParts
import Verif.Props.TakeBack
import Verif.Props.ParTakeBack
import Verif.Props.NetworkEnds
import Verif.Props.ParNetworkEnds
import Verif.Props.OnlyOrder
import Verif.Props.Repeated
import Verif.Spec.Reach
import Verif.Props.Reach
import Verif.Props.ReachCells
import Verif.Spec.ReachNodes
import Verif.Props.ReachNodes
import Verif.Spec.Turned
import Verif.Props.Turned
import Verif.Props.TurnedCells
import Verif.Spec.Isomorphic
import Verif.Props.Isomorphic
import Verif.Props.RepeatedParallel
import Verif.Spec.Border
import Verif.Props.Border
import Verif.Spec.Split
import Verif.Props.Split
import Verif.Spec.Beside
import Verif.Props.Beside
import Verif.Spec.Longer
import Verif.Props.Longer
import Verif.Props.ParWatchers
import Verif.Props.Fixed
import Verif.Props.Part
import Verif.Props.Later
import Verif.Props.Commuting
