import Verif.Props.Sample
import Verif.Props.Matmul
import Verif.Props.Im2col
import Verif.Props.Elementwise
import Verif.Props.Shapes
import Verif.Props.Conv
import Verif.Props.Pool
import Verif.Props.Gradients
import Verif.Props.Activation
import Verif.Props.Norm
import Verif.Props.Utility
import Verif.Props.Summary
import Verif.Props.Crc
import Verif.Props.CrcErrors
import Verif.Props.IO
import Verif.Props.Tar
import Verif.Props.Models
import Verif.Props.Layers
import Verif.Props.PoolLayer
import Verif.Props.LayerMemory
import Verif.Props.Safety
import Verif.Props.SafetyMore
import Verif.Props.ConvLaws
import Verif.Props.ConvGrad
import Verif.Props.Rounding
import Verif.Props.RoundingLayers
import Verif.Props.Nan
import Verif.Props.Train
import Verif.Props.Vgg16
import Verif.Model.Functional
import Verif.Props.Functional
import Verif.Props.NetLaws
import Verif.Props.PoolPolicy
import Verif.Props.Batch
import Verif.Props.BatchVgg
import Verif.Props.Extras
import Verif.Props.PoolLaws
import Verif.Props.ConvMerge
import Verif.Model.Files
import Verif.Props.Restore
import Verif.Props.Symmetry
import Verif.Spec.Backprop
import Verif.Lemmas.Backprop
import Verif.Props.Backprop
import Verif.Model.Examples
import Verif.Spec.Examples
import Verif.Props.Examples
import Verif.Spec.LinearSample
import Verif.Props.LinearSample
import Verif.Props.InPlace
import Verif.Props.RoundingSoftmax
import Verif.Props.Concat
import Verif.Lemmas.Convex
import Verif.Props.Convergence
import Verif.Props.Exact
import Verif.Props.UnitTests
import Verif.Props.Overflow
import Verif.Model.PoolInt
import Verif.Props.PoolInt
import Verif.Spec.Binary
import Verif.Lemmas.Binary
import Verif.Props.Binary
import Verif.Props.BinaryLayers
import Verif.Model.UtilityOps
import Verif.Props.Axis
import Verif.Model.EngineOrder
import Verif.Spec.Order
import Verif.Lemmas.EngineOrder
import Verif.Props.EngineOrder
import Verif.Props.Locality
import Verif.Props.Patches
import Verif.Props.Accumulate
import Verif.Props.Robust
import Verif.Props.RoundingTrain
import Verif.Props.Units
import Verif.Props.Separable
import Verif.Props.InputFold
import Verif.Props.Relational
import Verif.Props.LayerOwned
import Verif.Props.DualNumbers
import Verif.Props.Tape
import Verif.Props.Affine
import Verif.Props.Convex
import Verif.Props.Scaling
import Verif.Model.Testing
import Verif.Props.Testing
import Verif.Props.Layouts
import Verif.Props.ForwardReverse
import Verif.Props.NegativePadding
import Verif.Props.Convert
import Verif.Props.Quantised
import Verif.Props.Compare
import Verif.Props.Show
import Verif.Lemmas.Scatter
import Verif.Props.GradOrder
import Verif.Props.NegativeGrad
import Verif.Model.Shared
import Verif.Lemmas.Shared
import Verif.Props.Shared
import Verif.Props.SharedOps
import Verif.Props.RoundingGrad
import Verif.Props.Threads
import Verif.Props.Access
import Verif.Props.RoundingRun
import Verif.Props.ThreadNet
import Verif.Props.ThreadTrain
import Verif.Props.TarOutcome
import Verif.Props.RoundingGrowth
import Verif.Props.ThreadRounding
import Verif.Props.ThreadRun
import Verif.Props.Races
