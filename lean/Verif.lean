import Verif.Lemmas.Advection
import Verif.Lemmas.Amount
import Verif.Lemmas.Arkode
import Verif.Lemmas.Assembly
import Verif.Lemmas.BlockArith
import Verif.Lemmas.BlockVector
import Verif.Lemmas.CellFields
import Verif.Lemmas.Choice
import Verif.Lemmas.Clamp
import Verif.Lemmas.ClampedBar
import Verif.Lemmas.Components
import Verif.Lemmas.Connect
import Verif.Lemmas.ContourFile
import Verif.Lemmas.Coordination
import Verif.Lemmas.Cutoff
import Verif.Lemmas.CutoffLoop
import Verif.Lemmas.Cycle
import Verif.Lemmas.DebugValues
import Verif.Lemmas.Detect
import Verif.Lemmas.Dfs
import Verif.Lemmas.DomainIntegrals
import Verif.Lemmas.Ellipsoid
import Verif.Lemmas.Energy
import Verif.Lemmas.FastKernel
import Verif.Lemmas.FastSums
import Verif.Lemmas.FileNames
import Verif.Lemmas.Flood
import Verif.Lemmas.Frame
import Verif.Lemmas.FrameMotion
import Verif.Lemmas.FreeEnergy
import Verif.Lemmas.Fronts
import Verif.Lemmas.FrontsUniform
import Verif.Lemmas.GhostSync
import Verif.Lemmas.Grain
import Verif.Lemmas.GrainBoundary
import Verif.Lemmas.GrainGrowth
import Verif.Lemmas.GrainStats
import Verif.Lemmas.Grid
import Verif.Lemmas.Guess
import Verif.Lemmas.HistBlocks
import Verif.Lemmas.History
import Verif.Lemmas.Info
import Verif.Lemmas.Inverse
import Verif.Lemmas.JacobianFree
import Verif.Lemmas.Levels
import Verif.Lemmas.Locality
import Verif.Lemmas.MaxVal
import Verif.Lemmas.MeshStats
import Verif.Lemmas.MobilityParts
import Verif.Lemmas.Neighbors
import Verif.Lemmas.OpBase
import Verif.Lemmas.OutTrack
import Verif.Lemmas.OutputFields
import Verif.Lemmas.OutputTable
import Verif.Lemmas.Overhead
import Verif.Lemmas.Owned
import Verif.Lemmas.Params
import Verif.Lemmas.PrecondOperators
import Verif.Lemmas.Prepared
import Verif.Lemmas.PureRun
import Verif.Lemmas.Readers
import Verif.Lemmas.Reassign
import Verif.Lemmas.Relabel
import Verif.Lemmas.Remap
import Verif.Lemmas.RemapExec
import Verif.Lemmas.RemapOld
import Verif.Lemmas.RemapRanks
import Verif.Lemmas.Retry
import Verif.Lemmas.RunStats
import Verif.Lemmas.Schedule
import Verif.Lemmas.Section
import Verif.Lemmas.Shared
import Verif.Lemmas.Stitch
import Verif.Lemmas.Surfaces
import Verif.Lemmas.TimeLoop
import Verif.Lemmas.Timers
import Verif.Lemmas.Track
import Verif.Lemmas.TrackerBench
import Verif.Lemmas.Tracking
import Verif.Lemmas.Wavefront
import Verif.Lemmas.Weighted
import Verif.Model.Advection
import Verif.Model.Amount
import Verif.Model.Apps
import Verif.Model.Arkode
import Verif.Model.Assembly
import Verif.Model.BaseTools
import Verif.Model.BlockVector
import Verif.Model.BoxFilter
import Verif.Model.CellFields
import Verif.Model.CellSplit
import Verif.Model.Choice
import Verif.Model.Clamp
import Verif.Model.ClampedBar
import Verif.Model.Cloud
import Verif.Model.Components
import Verif.Model.Connect
import Verif.Model.Connectivity
import Verif.Model.ConstraintHelper
import Verif.Model.ContactPairs
import Verif.Model.ContourFile
import Verif.Model.Coordination
import Verif.Model.CopyResults
import Verif.Model.Csv
import Verif.Model.Cutoff
import Verif.Model.CutoffLoop
import Verif.Model.Cycle
import Verif.Model.DebugValues
import Verif.Model.Densification
import Verif.Model.Detect
import Verif.Model.DomainIntegrals
import Verif.Model.Ellipsoid
import Verif.Model.Energy
import Verif.Model.Explicit
import Verif.Model.FastKernel
import Verif.Model.FileNames
import Verif.Model.Flood
import Verif.Model.FreeEnergy
import Verif.Model.GhostSync
import Verif.Model.Grain
import Verif.Model.GrainBoundary
import Verif.Model.GrainGrowth
import Verif.Model.GrainStats
import Verif.Model.Greenquist
import Verif.Model.Grid
import Verif.Model.Guess
import Verif.Model.HistBlocks
import Verif.Model.History
import Verif.Model.Inelastic
import Verif.Model.Info
import Verif.Model.InitialValues
import Verif.Model.Inverse
import Verif.Model.JacobianFree
import Verif.Model.Labels
import Verif.Model.Levels
import Verif.Model.LinearSolvers
import Verif.Model.Material
import Verif.Model.MergedLog
import Verif.Model.Mesh
import Verif.Model.MeshStats
import Verif.Model.Microstructure
import Verif.Model.Mobility
import Verif.Model.MobilityParts
import Verif.Model.Newton
import Verif.Model.NewtonSetup
import Verif.Model.Numerics
import Verif.Model.OMap
import Verif.Model.OpBase
import Verif.Model.OutTrack
import Verif.Model.Output
import Verif.Model.OutputFields
import Verif.Model.OutputTable
import Verif.Model.Overhead
import Verif.Model.Owned
import Verif.Model.Packing
import Verif.Model.Params
import Verif.Model.Pores
import Verif.Model.PrecondOperators
import Verif.Model.Prepared
import Verif.Model.PrintParticles
import Verif.Model.PureRun
import Verif.Model.Quality
import Verif.Model.Readers
import Verif.Model.Reassign
import Verif.Model.Relabel
import Verif.Model.Remap
import Verif.Model.RemapOld
import Verif.Model.RemapRanks
import Verif.Model.Res
import Verif.Model.Restart
import Verif.Model.Retry
import Verif.Model.RunStats
import Verif.Model.Runner
import Verif.Model.Schedule
import Verif.Model.Section
import Verif.Model.Serialize
import Verif.Model.Shared
import Verif.Model.SimpleNewton
import Verif.Model.SinteringKernel
import Verif.Model.Stitch
import Verif.Model.Structural
import Verif.Model.Surfaces
import Verif.Model.TimeData
import Verif.Model.TimeLoop
import Verif.Model.Timers
import Verif.Model.Track
import Verif.Model.TrackerBench
import Verif.Model.Tracking
import Verif.Model.Wavefront
import Verif.Model.Weighted
import Verif.Props.Advection
import Verif.Props.Amount
import Verif.Props.Apps
import Verif.Props.Arkode
import Verif.Props.Assembly
import Verif.Props.BaseTools
import Verif.Props.BlockVector
import Verif.Props.BoxFilter
import Verif.Props.CellFields
import Verif.Props.CellSplit
import Verif.Props.Choice
import Verif.Props.Clamp
import Verif.Props.ClampedBar
import Verif.Props.Cloud
import Verif.Props.Connectivity
import Verif.Props.ConstraintHelper
import Verif.Props.ContactPairs
import Verif.Props.ContourFile
import Verif.Props.Coordination
import Verif.Props.CopyResults
import Verif.Props.Csv
import Verif.Props.Cutoff
import Verif.Props.CutoffLoop
import Verif.Props.Cycle
import Verif.Props.DebugValues
import Verif.Props.Densification
import Verif.Props.Detect
import Verif.Props.DomainIntegrals
import Verif.Props.Ellipsoid
import Verif.Props.Energy
import Verif.Props.Explicit
import Verif.Props.FastKernel
import Verif.Props.FileNames
import Verif.Props.Flood
import Verif.Props.Frame
import Verif.Props.FreeEnergy
import Verif.Props.GhostSync
import Verif.Props.Grain
import Verif.Props.GrainBoundary
import Verif.Props.GrainGrowth
import Verif.Props.GrainStats
import Verif.Props.Greenquist
import Verif.Props.Grid
import Verif.Props.Guess
import Verif.Props.HistBlocks
import Verif.Props.History
import Verif.Props.Inelastic
import Verif.Props.Info
import Verif.Props.InitialValues
import Verif.Props.JacobianFree
import Verif.Props.Labels
import Verif.Props.Levels
import Verif.Props.LinearSolvers
import Verif.Props.Locality
import Verif.Props.Material
import Verif.Props.MergedLog
import Verif.Props.Mesh
import Verif.Props.MeshStats
import Verif.Props.Microstructure
import Verif.Props.Mobility
import Verif.Props.MobilityParts
import Verif.Props.Newton
import Verif.Props.NewtonSetup
import Verif.Props.NumericTangent
import Verif.Props.Numerics
import Verif.Props.OpBase
import Verif.Props.OutTrack
import Verif.Props.Output
import Verif.Props.OutputFields
import Verif.Props.OutputTable
import Verif.Props.Overhead
import Verif.Props.Owned
import Verif.Props.Packing
import Verif.Props.Params
import Verif.Props.Pores
import Verif.Props.PrecondBlocks
import Verif.Props.PrecondOperators
import Verif.Props.Prepared
import Verif.Props.PrintParticles
import Verif.Props.PureRun
import Verif.Props.Quality
import Verif.Props.Readers
import Verif.Props.Reassign
import Verif.Props.Relabel
import Verif.Props.Remap
import Verif.Props.RemapOld
import Verif.Props.RemapRanks
import Verif.Props.Restart
import Verif.Props.Retry
import Verif.Props.RunStats
import Verif.Props.Runner
import Verif.Props.Schedule
import Verif.Props.Section
import Verif.Props.Serialize
import Verif.Props.Shared
import Verif.Props.SimpleNewton
import Verif.Props.SinteringKernel
import Verif.Props.Stitch
import Verif.Props.Structural
import Verif.Props.Surfaces
import Verif.Props.TimeLoop
import Verif.Props.Timers
import Verif.Props.TrackerBench
import Verif.Props.Tracking
import Verif.Props.Voronoi
import Verif.Props.Wavefront
import Verif.Props.Weighted
import Verif.Props.Weights
import Verif.Spec.Amount
import Verif.Spec.Apps
import Verif.Spec.Arkode
import Verif.Spec.Assembly
import Verif.Spec.CellFields
import Verif.Spec.CellSplit
import Verif.Spec.Choice
import Verif.Spec.Clamp
import Verif.Spec.ClampedBar
import Verif.Spec.Connect
import Verif.Spec.Connectivity
import Verif.Spec.ContactPairs
import Verif.Spec.ContourFile
import Verif.Spec.Coordination
import Verif.Spec.CutoffLoop
import Verif.Spec.Cycle
import Verif.Spec.DebugValues
import Verif.Spec.Detect
import Verif.Spec.DomainIntegrals
import Verif.Spec.Ellipsoid
import Verif.Spec.Energy
import Verif.Spec.FastKernel
import Verif.Spec.FileNames
import Verif.Spec.Flood
import Verif.Spec.Frame
import Verif.Spec.GhostSync
import Verif.Spec.GrainBoundary
import Verif.Spec.GrainStats
import Verif.Spec.Grid
import Verif.Spec.Guess
import Verif.Spec.History
import Verif.Spec.Info
import Verif.Spec.JacobianFree
import Verif.Spec.Labels
import Verif.Spec.Levels
import Verif.Spec.Locality
import Verif.Spec.Material
import Verif.Spec.MergedLog
import Verif.Spec.MeshStats
import Verif.Spec.NewtonSetup
import Verif.Spec.OpBase
import Verif.Spec.OutTrack
import Verif.Spec.OutputFields
import Verif.Spec.OutputTable
import Verif.Spec.Overhead
import Verif.Spec.Owned
import Verif.Spec.Packing
import Verif.Spec.Params
import Verif.Spec.Prepared
import Verif.Spec.PrintParticles
import Verif.Spec.PureRun
import Verif.Spec.Reassign
import Verif.Spec.Relabel
import Verif.Spec.Remap
import Verif.Spec.RemapOld
import Verif.Spec.RemapRanks
import Verif.Spec.Retry
import Verif.Spec.RunStats
import Verif.Spec.Runner
import Verif.Spec.Schedule
import Verif.Spec.Section
import Verif.Spec.Shared
import Verif.Spec.SimpleNewton
import Verif.Spec.Stitch
import Verif.Spec.Structural
import Verif.Spec.Surfaces
import Verif.Spec.TimeLoop
import Verif.Spec.Timers
import Verif.Spec.Track
import Verif.Spec.TrackerBench
import Verif.Spec.Tracking
import Verif.Spec.Wavefront
import Verif.Spec.Weighted
