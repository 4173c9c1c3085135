import Verif.Model.Tensor
import Verif.Model.Pad1d
import Verif.Spec.Extension
import Verif.Proofs.TensorLemmas
import Verif.Proofs.Window
import Verif.Proofs.Chunk
import Verif.Proofs.Pad1dA
import Verif.Proofs.Pad1dB
import Verif.Proofs.ExtLaws
import Verif.Proofs.Pad1dC
import Verif.Proofs.Pad1dD
import Verif.Model.NdSpec
import Verif.Model.Validation
import Verif.Model.Padder
import Verif.Spec.PadNd
import Verif.Proofs.PadNd
import Verif.Spec.Axes
import Verif.Proofs.PadCall
import Verif.Spec.PadCoord
import Verif.Proofs.PadLaws
import Verif.Props.PadForward
import Verif.Proofs.PadModes
import Verif.Props.PadModes
import Verif.Spec.Given
import Verif.Proofs.IdxCongr
import Verif.Proofs.SpecForms
import Verif.Proofs.PadAxis
import Verif.Proofs.EmptyAxis
import Verif.Props.PadMisc
import Verif.Model.Misc
import Verif.Model.ConvLike
import Verif.Spec.Counts
import Verif.Spec.Nested
import Verif.Proofs.ConvLike
import Verif.Proofs.NdSpecLaws
import Verif.Proofs.Outer
import Verif.Proofs.Nested
import Verif.Props.Shapes
import Verif.Props.NdSpec
import Verif.Model.Pool
import Verif.Spec.Pool
import Verif.Proofs.PoolOps
import Verif.Proofs.PoolCall
import Verif.Proofs.SameWidth
import Verif.Proofs.PoolSame
import Verif.Proofs.PoolLaws
import Verif.Proofs.PoolBuilt
import Verif.Props.Pool
import Verif.Proofs.AnyConv
import Verif.Proofs.WindowMean
import Verif.Proofs.Exclude
import Verif.Props.PoolMore
import Verif.Model.Gaussian
import Verif.Model.Edges
import Verif.Spec.Gaussian
import Verif.Proofs.Gaussian
import Verif.Props.Gaussian
import Verif.Spec.Edges
import Verif.Proofs.Edges
import Verif.Proofs.EdgesMag
import Verif.Props.Edges
import Verif.Props.EdgesGauss
import Verif.Props.Sharpen
import Verif.Model.Cfa
import Verif.Spec.Cfa
import Verif.Proofs.Planes
import Verif.Proofs.Cfa
import Verif.Proofs.CfaConv
import Verif.Proofs.CfaMalvar
import Verif.Props.Cfa
import Verif.Model.Metrics
import Verif.Spec.Metrics
import Verif.Spec.Ssim
import Verif.Proofs.Reduce
import Verif.Props.Mse
import Verif.Proofs.SsimSym
import Verif.Proofs.Ssim
import Verif.Proofs.SsimCall
import Verif.Props.Ssim
import Verif.Proofs.SsimOne
import Verif.Props.SsimOne
import Verif.Spec.MsSsim
import Verif.Proofs.MsSsim
import Verif.Props.MsSsim
import Verif.Proofs.MsRun
import Verif.Props.MsExclude
import Verif.Model.Power
import Verif.Model.Random
import Verif.Model.Stats
import Verif.Spec.Misc
import Verif.Props.Misc
import Verif.Props.Power
import Verif.Proofs.Crop
import Verif.Props.Random
import Verif.Props.Stats
import Verif.Model.EdgeLoss
import Verif.Spec.EdgeLoss
import Verif.Proofs.EdgeLoss
import Verif.Props.EdgeLoss
import Verif.Spec.PadQuiet
import Verif.Proofs.PadQuiet
import Verif.Proofs.SsimQuiet
import Verif.Props.PadQuiet
import Verif.Proofs.SsimExclude
import Verif.Props.SsimExclude
import Verif.Spec.Compose
import Verif.Proofs.Compose
import Verif.Props.Compose
import Verif.Spec.Flip
import Verif.Proofs.Flip
import Verif.Props.Flip
import Verif.Proofs.FlipMetrics
import Verif.Props.FlipMetrics
import Verif.Spec.Batch
import Verif.Proofs.Batch
import Verif.Props.Batch
import Verif.Spec.Transpose
import Verif.Proofs.Transpose
import Verif.Props.Transpose
import Verif.Spec.Grey
import Verif.Proofs.Grey
import Verif.Props.Grey
import Verif.Spec.Interior
import Verif.Proofs.Interior
import Verif.Props.Interior
import Verif.Props.InteriorEdges
import Verif.Spec.Callable
import Verif.Proofs.Callable
import Verif.Props.Callable
import Verif.Spec.Order
import Verif.Proofs.Order
import Verif.Props.Order
import Verif.Model.RaggedArray
import Verif.Spec.Arrays
import Verif.Proofs.Arrays
import Verif.Props.Arrays
import Verif.Spec.Axiswise
import Verif.Proofs.Axiswise
import Verif.Props.Axiswise
import Verif.Spec.Roll
import Verif.Proofs.Roll
import Verif.Props.Roll
import Verif.Props.Cases
import Verif.Props.CasesEdges
import Verif.Proofs.MsOne
import Verif.Proofs.Shift
import Verif.Proofs.EdgeSym
import Verif.Props.MsOne
import Verif.Props.CasesMetrics
import Verif.Props.Steps
import Verif.Props.Wider
import Verif.Spec.CfaSym
import Verif.Spec.Shift
import Verif.Spec.EdgeSym
import Verif.Spec.SharpenSym
import Verif.Props.CfaSym
import Verif.Props.Shift
import Verif.Props.EdgeSym
import Verif.Props.SharpenSym
import Verif.Spec.Coincide
import Verif.Proofs.Coincide
import Verif.Props.Coincide
import Verif.Spec.EdgeChange
import Verif.Proofs.EdgeChange
import Verif.Props.EdgeChange
import Verif.Spec.Border
import Verif.Proofs.Border
import Verif.Props.Border
import Verif.Proofs.Parts
import Verif.Props.Parts
import Verif.Proofs.Geometry
import Verif.Props.Geometry
import Verif.Props.NdSpecMore
import Verif.Spec.Energy
import Verif.Proofs.Energy
import Verif.Props.Energy
import Verif.Spec.Strides
import Verif.Proofs.Strides
import Verif.Props.Strides
import Verif.Props.GaussShape
import Verif.Props.StatsLaws
import Verif.Props.PowerLaws
import Verif.Props.MiscLaws
import Verif.Spec.Waves
import Verif.Proofs.Waves
import Verif.Props.Waves
import Verif.Props.NdGrid
import Verif.Props.Rejects
import Verif.Props.Repeat
import Verif.Props.Alias
import Verif.Props.Adjoint
import Verif.Props.Rounding
import Verif.Props.Integers
import Verif.Props.IntPad
import Verif.Props.IntImage
import Verif.Props.IntEdges
import Verif.Props.IntSharpen
import Verif.Props.IntMse
import Verif.Props.IntSsim
import Verif.Props.Flt
import Verif.Props.FltMore
import Verif.Model.FltSsim
import Verif.Spec.FltSsim
import Verif.Proofs.Support
import Verif.Proofs.FltSsim
import Verif.Props.FltSsim
import Verif.Model.RoundedMore
import Verif.Spec.RoundingMore
import Verif.Proofs.RoundingMore
import Verif.Props.RoundingMore
import Verif.Model.CfaWith
import Verif.Spec.CfaWith
import Verif.Proofs.CfaWith
import Verif.Props.CfaWith
import Verif.Proofs.Periodize
import Verif.Props.Periodize
import Verif.Props.FlipPeriodize
import Verif.Proofs.CfaOdd
import Verif.Props.CfaOdd
import Verif.Proofs.ExcludeShape
import Verif.Props.PoolExact
import Verif.Props.ExactMore
import Verif.Model.MiscWith
import Verif.Spec.MiscWith
import Verif.Proofs.MiscWith
import Verif.Props.MiscWith
import Verif.Model.IntMs
import Verif.Props.IntMs
import Verif.Model.EdgeLossWord
import Verif.Props.EdgeLossWord
import Verif.Model.EdgeLossFlt
import Verif.Proofs.EdgeLossFlt
import Verif.Props.EdgeLossFlt
import Verif.Model.MsFlt
import Verif.Spec.MsFlt
import Verif.Proofs.MsFlt
import Verif.Props.MsFlt
import Verif.Spec.Smooth
import Verif.Proofs.Smooth
import Verif.Props.Smooth
import Verif.Props.SmoothEdges
import Verif.Props.SmoothSharpen
import Verif.Spec.History
import Verif.Proofs.History
import Verif.Props.History
import Verif.Spec.HistoryMixed
import Verif.Proofs.HistoryMixed
import Verif.Props.HistoryMixed
import Verif.Proofs.Blend
import Verif.Props.Blend
import Verif.Props.Convex
import Verif.Props.SmoothWeights
import Verif.Props.Kernels
import Verif.Props.SsimWindow
import Verif.Props.GaussLimit
import Verif.Props.EdgeWeights
import Verif.Props.EdgeGaussWeights
import Verif.Props.EdgeLimit
import Verif.Props.SharpenLimit
import Verif.Props.SharpenWeights
import Verif.Props.EdgeLossLimit
