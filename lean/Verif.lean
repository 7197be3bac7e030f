import Verif.Model.Activations
import Verif.Model.AdvOps
import Verif.Model.Basic
import Verif.Model.Datasets
import Verif.Model.Draws
import Verif.Model.Examples
import Verif.Model.Heap
import Verif.Model.IntCounter
import Verif.Model.Layers
import Verif.Model.Losses
import Verif.Model.Network
import Verif.Model.Optimizers
import Verif.Model.Parallel
import Verif.Model.Print
import Verif.Model.Random
import Verif.Model.Scalar
import Verif.Model.Shape
import Verif.Model.Simd
import Verif.Model.Tensor
import Verif.Model.TensorOps
import Verif.Model.Threads
import Verif.Model.Views
import Verif.Spec.Answers
import Verif.Spec.AnswersAll
import Verif.Spec.Bounded
import Verif.Spec.Broadcast
import Verif.Spec.Calculus
import Verif.Spec.Capacity
import Verif.Spec.Columns
import Verif.Spec.Datasets
import Verif.Spec.Decay
import Verif.Spec.Draws
import Verif.Spec.EqualFeatures
import Verif.Spec.FreshDense
import Verif.Spec.Ieee
import Verif.Spec.Im2col
import Verif.Spec.Index
import Verif.Spec.Intact
import Verif.Spec.Labels
import Verif.Spec.Layers
import Verif.Spec.Linear
import Verif.Spec.Losses
import Verif.Spec.Mirrored
import Verif.Spec.NormReach
import Verif.Spec.Oblivious
import Verif.Spec.Optimizers
import Verif.Spec.Parallel
import Verif.Spec.Proper
import Verif.Spec.Range
import Verif.Spec.RealFns
import Verif.Spec.Reduce
import Verif.Spec.Rewrite
import Verif.Spec.Rising
import Verif.Spec.Rounding
import Verif.Spec.Settled
import Verif.Spec.Silent
import Verif.Spec.Slice
import Verif.Spec.Store
import Verif.Spec.Superposed
import Verif.Spec.Thinned
import Verif.Spec.Unlit
import Verif.Spec.Unseen
import Verif.Spec.Whole
import Verif.Proofs.Answers
import Verif.Proofs.AnswersAll
import Verif.Proofs.BatchNorm
import Verif.Proofs.BatchRows
import Verif.Proofs.Bounded
import Verif.Proofs.Broadcast
import Verif.Proofs.Calculus
import Verif.Proofs.Capacity
import Verif.Proofs.Columns
import Verif.Proofs.ColumnsOpt
import Verif.Proofs.Conv
import Verif.Proofs.Datasets
import Verif.Proofs.Decay
import Verif.Proofs.Dense
import Verif.Proofs.Draws
import Verif.Proofs.DropoutLaw
import Verif.Proofs.Elementwise
import Verif.Proofs.EqualFeatures
import Verif.Proofs.EvenOn
import Verif.Proofs.Flatten
import Verif.Proofs.FreshDense
import Verif.Proofs.Frozen
import Verif.Proofs.Heap
import Verif.Proofs.Ieee
import Verif.Proofs.IeeeRange
import Verif.Proofs.Im2col
import Verif.Proofs.Index
import Verif.Proofs.Intact
import Verif.Proofs.Joint
import Verif.Proofs.Labels
import Verif.Proofs.LinearCalculus
import Verif.Proofs.Loops
import Verif.Proofs.Losses
import Verif.Proofs.Matmul
import Verif.Proofs.MatmulDispatch
import Verif.Proofs.MaxPool
import Verif.Proofs.Mean
import Verif.Proofs.Mirrored
import Verif.Proofs.MirroredOpt
import Verif.Proofs.Nan
import Verif.Proofs.NormReach
import Verif.Proofs.Oblivious
import Verif.Proofs.Optimizers
import Verif.Proofs.Parallel
import Verif.Proofs.Pooling
import Verif.Proofs.Print
import Verif.Proofs.Races
import Verif.Proofs.Random
import Verif.Proofs.Range
import Verif.Proofs.RealFns
import Verif.Proofs.Reshape
import Verif.Proofs.Rewrite
import Verif.Proofs.Rising
import Verif.Proofs.Rounding
import Verif.Proofs.Scatter
import Verif.Proofs.Settled
import Verif.Proofs.Shape
import Verif.Proofs.Silent
import Verif.Proofs.SilentOn
import Verif.Proofs.SilentUnit
import Verif.Proofs.Slices
import Verif.Proofs.Softmax
import Verif.Proofs.SoftmaxReal
import Verif.Proofs.Sums
import Verif.Proofs.Superposed
import Verif.Proofs.TensorOps
import Verif.Proofs.Thinned
import Verif.Proofs.Typed
import Verif.Proofs.Unlit
import Verif.Proofs.Unseen
import Verif.Proofs.Views
import Verif.Proofs.Whole
import Verif.Props.Activations
import Verif.Props.Answers
import Verif.Props.AnswersAll
import Verif.Props.Backprop
import Verif.Props.BatchMean
import Verif.Props.BatchNorm
import Verif.Props.BatchNormGrad
import Verif.Props.BatchRows
import Verif.Props.BestFit
import Verif.Props.Bounded
import Verif.Props.Capacity
import Verif.Props.Classifier
import Verif.Props.Columns
import Verif.Props.Conv
import Verif.Props.ConvDescent
import Verif.Props.ConvGrad
import Verif.Props.Convergence
import Verif.Props.Datasets
import Verif.Props.Decay
import Verif.Props.DeepRounding
import Verif.Props.Dense
import Verif.Props.Descent
import Verif.Props.Draws
import Verif.Props.DrawsIndep
import Verif.Props.Dropout
import Verif.Props.DropoutLaw
import Verif.Props.DropoutMean
import Verif.Props.EqualFeatures
import Verif.Props.EvalMode
import Verif.Props.Examples
import Verif.Props.Flatten
import Verif.Props.Footprint
import Verif.Props.FreshConv
import Verif.Props.FreshDense
import Verif.Props.Frozen
import Verif.Props.Guards
import Verif.Props.Heap
import Verif.Props.Im2col
import Verif.Props.Intact
import Verif.Props.Interrupted
import Verif.Props.InterruptedFlatten
import Verif.Props.Labels
import Verif.Props.Linear
import Verif.Props.LongRun
import Verif.Props.Losses
import Verif.Props.MaxPool
import Verif.Props.Mirrored
import Verif.Props.Nan
import Verif.Props.NanImages
import Verif.Props.NanLoss
import Verif.Props.NormReach
import Verif.Props.Oblivious
import Verif.Props.Optimizers
import Verif.Props.Parallel
import Verif.Props.ParallelWindows
import Verif.Props.Predict
import Verif.Props.Print
import Verif.Props.Proper
import Verif.Props.Races
import Verif.Props.Random
import Verif.Props.Range
import Verif.Props.Reductions
import Verif.Props.Renamed
import Verif.Props.Rewrite
import Verif.Props.RewriteConv
import Verif.Props.Rising
import Verif.Props.Rounding
import Verif.Props.RowOrder
import Verif.Props.RowSamples
import Verif.Props.Samples
import Verif.Props.Scale
import Verif.Props.Schedule
import Verif.Props.Sensitivity
import Verif.Props.Setters
import Verif.Props.Settled
import Verif.Props.Shape
import Verif.Props.Silent
import Verif.Props.Simd
import Verif.Props.SliceProducts
import Verif.Props.SmallStep
import Verif.Props.Special
import Verif.Props.Superposed
import Verif.Props.TensorOps
import Verif.Props.Thinned
import Verif.Props.Threads
import Verif.Props.Train
import Verif.Props.Translate
import Verif.Props.TwoModels
import Verif.Props.Typed
import Verif.Props.Unlit
import Verif.Props.Unseen
import Verif.Props.Untrainable
import Verif.Props.UpdateWeights
import Verif.Props.Views
import Verif.Props.Whole
