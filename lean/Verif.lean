import Verif.Model.Args
import Verif.Model.Attribute
import Verif.Model.Bytes
import Verif.Model.Clap
import Verif.Model.Cli
import Verif.Model.Compare
import Verif.Model.Concurrent
import Verif.Model.Constraint
import Verif.Model.Crash
import Verif.Model.Cycle
import Verif.Model.Disk
import Verif.Model.DiskSession
import Verif.Model.Equality
import Verif.Model.Faults
import Verif.Model.Format
import Verif.Model.Graph
import Verif.Model.History
import Verif.Model.Iter
import Verif.Model.Main
import Verif.Model.MaxFlow
import Verif.Model.Messages
import Verif.Model.Num
import Verif.Model.Objects
import Verif.Model.Output
import Verif.Model.Path
import Verif.Model.Paths
import Verif.Model.Power
import Verif.Model.Prog
import Verif.Model.Random
import Verif.Model.Reads
import Verif.Model.Regex
import Verif.Model.Release
import Verif.Model.Search
import Verif.Model.ShortestPath
import Verif.Model.StdHeap
import Verif.Model.Store
import Verif.Model.Stream
import Verif.Model.Terminal
import Verif.Model.Text
import Verif.Model.Topo
import Verif.Model.Unlink
import Verif.Spec.Announce
import Verif.Spec.AnyWeights
import Verif.Spec.Args
import Verif.Spec.Attribute
import Verif.Spec.BestOrder
import Verif.Spec.Bytes
import Verif.Spec.Chordless
import Verif.Spec.Cli
import Verif.Spec.Compact
import Verif.Spec.Compare
import Verif.Spec.Concurrent
import Verif.Spec.Constraint
import Verif.Spec.CspEnds
import Verif.Spec.Cycle
import Verif.Spec.CycleReport
import Verif.Spec.Disk
import Verif.Spec.DuringBuild
import Verif.Spec.Fit
import Verif.Spec.Format
import Verif.Spec.Frame
import Verif.Spec.Graph
import Verif.Spec.Heap
import Verif.Spec.History
import Verif.Spec.Ignored
import Verif.Spec.Iter
import Verif.Spec.Larger
import Verif.Spec.LastWord
import Verif.Spec.Loops
import Verif.Spec.Lost
import Verif.Spec.Main
import Verif.Spec.Manual
import Verif.Spec.MaxFlow
import Verif.Spec.Memory
import Verif.Spec.NoScore
import Verif.Spec.NoWait
import Verif.Spec.Objects
import Verif.Spec.Options
import Verif.Spec.Order
import Verif.Spec.Output
import Verif.Spec.Paths
import Verif.Spec.Pieces
import Verif.Spec.Random
import Verif.Spec.Reads
import Verif.Spec.Regex
import Verif.Spec.Release
import Verif.Spec.Renamed
import Verif.Spec.Residual
import Verif.Spec.Reweighted
import Verif.Spec.Rewrite
import Verif.Spec.SameFrom
import Verif.Spec.SameTo
import Verif.Spec.ShortestPath
import Verif.Spec.Store
import Verif.Spec.Stream
import Verif.Spec.Swap
import Verif.Spec.Terminal
import Verif.Spec.Tgf
import Verif.Spec.Topo
import Verif.Spec.Unlink
import Verif.Spec.Work
import Verif.Proofs.Adaptors
import Verif.Proofs.Agree
import Verif.Proofs.Alike
import Verif.Proofs.AnyWeights
import Verif.Proofs.Args
import Verif.Proofs.Attribute
import Verif.Proofs.BellmanFord
import Verif.Proofs.BestOrder
import Verif.Proofs.BuildReaders
import Verif.Proofs.Builds
import Verif.Proofs.Bytes
import Verif.Proofs.Checker
import Verif.Proofs.Cli
import Verif.Proofs.Compact
import Verif.Proofs.Concurrent
import Verif.Proofs.Constrained
import Verif.Proofs.ConstrainedOrder
import Verif.Proofs.Crash
import Verif.Proofs.CrashSteps
import Verif.Proofs.CspEnds
import Verif.Proofs.Cycle
import Verif.Proofs.DagPaths
import Verif.Proofs.Debug
import Verif.Proofs.Dfs
import Verif.Proofs.Disk
import Verif.Proofs.DiskSession
import Verif.Proofs.DuringBuild
import Verif.Proofs.Faults
import Verif.Proofs.Finite
import Verif.Proofs.FirstInit
import Verif.Proofs.Fit
import Verif.Proofs.Flow
import Verif.Proofs.Format
import Verif.Proofs.Frame
import Verif.Proofs.Graph
import Verif.Proofs.GraphCommands
import Verif.Proofs.HMap
import Verif.Proofs.History
import Verif.Proofs.Iter
import Verif.Proofs.Killed
import Verif.Proofs.Larger
import Verif.Proofs.Lost
import Verif.Proofs.Main
import Verif.Proofs.MaxFlow
import Verif.Proofs.Memory
import Verif.Proofs.NoCapacity
import Verif.Proofs.NoWait
import Verif.Proofs.Num
import Verif.Proofs.Objects
import Verif.Proofs.OneWriter
import Verif.Proofs.OnlyReached
import Verif.Proofs.OnlyUnpruned
import Verif.Proofs.OnlyWalks
import Verif.Proofs.Options
import Verif.Proofs.Order
import Verif.Proofs.PanicOrigin
import Verif.Proofs.Path
import Verif.Proofs.Paths
import Verif.Proofs.Pieces
import Verif.Proofs.Prog
import Verif.Proofs.Random
import Verif.Proofs.Readable
import Verif.Proofs.Reads
import Verif.Proofs.Refine
import Verif.Proofs.Regex
import Verif.Proofs.Relax
import Verif.Proofs.Release
import Verif.Proofs.Renamed
import Verif.Proofs.Residual
import Verif.Proofs.Reversed
import Verif.Proofs.Reweighted
import Verif.Proofs.SameFrom
import Verif.Proofs.SameTo
import Verif.Proofs.Samples
import Verif.Proofs.Scaled
import Verif.Proofs.SearchOrder
import Verif.Proofs.StdHeap
import Verif.Proofs.Store
import Verif.Proofs.Stream
import Verif.Proofs.TargetCost
import Verif.Proofs.Terminal
import Verif.Proofs.Text
import Verif.Proofs.Tgf
import Verif.Proofs.Topo
import Verif.Proofs.TopoLevels
import Verif.Proofs.Unlink
import Verif.Proofs.Walk
import Verif.Proofs.Within
import Verif.Proofs.Work
import Verif.Proofs.Worklist
import Verif.Proofs.Wrapped
import Verif.Proofs.Zigzag
import Verif.Props.Agree
import Verif.Props.Announce
import Verif.Props.AnyWeights
import Verif.Props.Args
import Verif.Props.Attribute
import Verif.Props.BestOrder
import Verif.Props.BuildReaders
import Verif.Props.Builds
import Verif.Props.Bytes
import Verif.Props.Cli
import Verif.Props.Compact
import Verif.Props.Compare
import Verif.Props.Concurrent
import Verif.Props.ConstrainedOrder
import Verif.Props.Constraint
import Verif.Props.Crash
import Verif.Props.CrashSteps
import Verif.Props.CspEnds
import Verif.Props.Cycle
import Verif.Props.CycleReport
import Verif.Props.Debug
import Verif.Props.Disk
import Verif.Props.DiskSession
import Verif.Props.DuringBuild
import Verif.Props.EachPath
import Verif.Props.EndToEnd
import Verif.Props.Equality
import Verif.Props.Faults
import Verif.Props.FirstInit
import Verif.Props.Fit
import Verif.Props.Format
import Verif.Props.Frame
import Verif.Props.Graph
import Verif.Props.History
import Verif.Props.Ignored
import Verif.Props.Iter
import Verif.Props.Larger
import Verif.Props.LastWord
import Verif.Props.Library
import Verif.Props.LoopWeights
import Verif.Props.Loops
import Verif.Props.Lost
import Verif.Props.Main
import Verif.Props.Manual
import Verif.Props.MaxFlow
import Verif.Props.Memory
import Verif.Props.NoWait
import Verif.Props.Num
import Verif.Props.Objects
import Verif.Props.OneWriter
import Verif.Props.OnlyReached
import Verif.Props.OnlyUnpruned
import Verif.Props.OnlyWalks
import Verif.Props.Options
import Verif.Props.Output
import Verif.Props.PanicOrigin
import Verif.Props.Paths
import Verif.Props.Pieces
import Verif.Props.Power
import Verif.Props.Random
import Verif.Props.RandomOptions
import Verif.Props.RandomQueries
import Verif.Props.Readable
import Verif.Props.Reads
import Verif.Props.Refine
import Verif.Props.Regex
import Verif.Props.Release
import Verif.Props.Renamed
import Verif.Props.Residual
import Verif.Props.Reversed
import Verif.Props.Reweighted
import Verif.Props.Rewrite
import Verif.Props.SameFrom
import Verif.Props.SameOrder
import Verif.Props.SameTo
import Verif.Props.Scaled
import Verif.Props.Search
import Verif.Props.Seeds
import Verif.Props.ShortestPath
import Verif.Props.StdHeap
import Verif.Props.Store
import Verif.Props.Stream
import Verif.Props.Swap
import Verif.Props.TargetCost
import Verif.Props.Terminal
import Verif.Props.Tgf
import Verif.Props.Told
import Verif.Props.Topo
import Verif.Props.TopoLevels
import Verif.Props.Unlink
import Verif.Props.Work
import Verif.Props.Zigzag
import Verif.Tests.Algorithm
import Verif.Tests.Chain
import Verif.Tests.Checker
import Verif.Tests.Common
import Verif.Tests.Constraint
import Verif.Tests.DirectedGraph
import Verif.Tests.Format
import Verif.Tests.Iter
