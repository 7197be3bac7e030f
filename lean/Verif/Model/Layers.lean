import Verif.Model.Random
import Verif.Model.Activations
import Verif.Model.Optimizers

/-!
# Layers (smart_dnn/Layer.hpp, smart_dnn/Layers/*, smart_dnn/Regularisation/*)

A layer is its member variables; `forward` and `backward` are `Mut` actions, so that what an exception
leaves behind is part of the model.  The members are private in the C++ code and are only reached
through these functions and the setters.
-/

namespace SmartDNN

/-- `*opt` for a `std::optional`: undefined behaviour when it is empty. -/
def derefOpt {α : Type} : Option α → Res α
  | some a => .ok a
  | none => .error .ub

/-! ### FullyConnectedLayer -/

/-- Members of `FullyConnectedLayer` (Layers/FullyConnectedLayer.hpp:140-146).  `weights` and `biases` are
optionals that the only constructor fills (17-20); they are modelled as plain tensors. -/
structure FC (T : Type) where
  weights : Tensor T
  biases : Tensor T
  input : Option (Tensor T) := none
  weightGradients : Option (Tensor T) := none
  biasGradients : Option (Tensor T) := none

namespace FC
variable {T : Type}

/-- Constructor (FullyConnectedLayer.hpp:17-20). -/
def new {ρ : Type} [LT T] [DecidableLT T] [Zero T] [One T] (E : Engine ρ T) (inputSize outputSize : Int) (r : ρ) :
    Res (FC T × ρ) := do
  let s ← Shape.make [inputSize, outputSize]
  let (w, r) ← Tensor.rand E s r
  let sb ← Shape.make [1, outputSize]
  return ({ weights := w, biases := Tensor.zeros sb }, r)

/-- "Ensure 2-D" (FullyConnectedLayer.hpp:34-37, 61-65, 68-71). -/
def ensure2D (t : Tensor T) : Res (Tensor T) :=
  if t.shape.rank = 1 then do
    let n ← t.shape.get 0
    t.reshaped [1, n]
  else .ok t

variable [Zero T] [Add T] [Mul T]

/-- The computation of `forward` (FullyConnectedLayer.hpp:34-44). -/
def affine (weights biases input : Tensor T) : Res (Tensor T) := do
  let reshapedInput ← ensure2D input
  let output ← reshapedInput.matmul weights
  let output ← output.add biases
  if input.shape.rank = 1 then
    let n ← output.shape.get 1
    output.reshaped [n]
  else return output

/-- `forward` (FullyConnectedLayer.hpp:32-45): the input is stored first. -/
def forward (input : Tensor T) : Mut (FC T) (Tensor T) := do
  Mut.modify (fun l => { l with input := some input })
  let l ← Mut.get
  Mut.lift (affine l.weights l.biases input)

/-- Weight gradient (FullyConnectedLayer.hpp:74-75). -/
def weightGrad (input2D grad2D : Tensor T) : Res (Tensor T) := do
  let inputTransposed ← input2D.transpose 0 1
  inputTransposed.matmul grad2D

/-- Bias gradient (FullyConnectedLayer.hpp:78-81). -/
def biasGrad (biases grad2D : Tensor T) : Res (Tensor T) := do
  let s ← grad2D.sumAxis 0
  let n ← biases.shape.get 1
  s.reshaped [1, n]

/-- Input gradient (FullyConnectedLayer.hpp:84-85). -/
def inputGrad (weights grad2D : Tensor T) : Res (Tensor T) := do
  let weightsTransposed ← weights.transpose 0 1
  grad2D.matmul weightsTransposed

/-- `backward` (FullyConnectedLayer.hpp:56-88). -/
def backward (gradOutput : Tensor T) : Mut (FC T) (Tensor T) := do
  let l ← Mut.get
  match l.input with
  | none => Mut.lift (.error .runtimeError)
  | some input =>
    let inputTensor ← Mut.lift (ensure2D input)
    let grad ← Mut.lift (ensure2D gradOutput)
    let wg ← Mut.lift (weightGrad inputTensor grad)
    Mut.modify (fun l => { l with weightGradients := some wg })
    let bg ← Mut.lift (biasGrad l.biases grad)
    Mut.modify (fun l => { l with biasGradients := some bg })
    Mut.lift (inputGrad l.weights grad)

omit [Zero T] [Add T] [Mul T] in
/-- `setWeights` (FullyConnectedLayer.hpp:121-123). -/
def setWeights (w : Tensor T) : Mut (FC T) Unit := Mut.modify (fun l => { l with weights := w })

omit [Zero T] [Add T] [Mul T] in
/-- `setBiases` (FullyConnectedLayer.hpp:125-130). -/
def setBiases (b : Tensor T) : Mut (FC T) Unit := do
  if b.shape.rank ≠ 2 then Mut.lift (.error .invalidArgument)
  else
    let d ← Mut.lift (b.shape.get 0)
    if d ≠ 1 then Mut.lift (.error .invalidArgument)
    else Mut.modify (fun l => { l with biases := b })

omit [Zero T] [Add T] [Mul T] in
/-- `setWeightGradient` (FullyConnectedLayer.hpp:136-138). -/
def setWeightGradient (g : Tensor T) : Mut (FC T) Unit := Mut.modify (fun l => { l with weightGradients := some g })

omit [Zero T] [Add T] [Mul T] in
/-- `setBiasGradient` (FullyConnectedLayer.hpp:132-134). -/
def setBiasGradient (g : Tensor T) : Mut (FC T) Unit := Mut.modify (fun l => { l with biasGradients := some g })

omit [Zero T] [Add T] [Mul T] in
/-- `getWeightGradients`, `getBiasGradients` (FullyConnectedLayer.hpp:113-119): `operator*` of an empty `optional` is undefined
(`getWeights`, `getBiases`, 105-111, read the members). -/
def getGradients (l : FC T) : Res (Tensor T) × Res (Tensor T) := (derefOpt l.weightGradients, derefOpt l.biasGradients)

end FC

/-! ### FlattenLayer -/

/-- Members of `FlattenLayer` (Layers/FlattenLayer.hpp:55). -/
structure Flatten where
  originalShape : Option Shape := none

namespace Flatten
variable {T : Type}

/-- `forward` (FlattenLayer.hpp:25-39).  `size() / batchSize` converts `batchSize` to `size_t`; a zero
dimension cannot occur in a constructed `Shape`. -/
def forward (input : Tensor T) : Mut Flatten (Tensor T) := do
  if input.shape.rank < 2 then Mut.lift (.error .invalidArgument)
  else if input.shape.rank = 2 then return input
  else
    Mut.modify (fun l => { l with originalShape := some input.shape })
    let batchSize ← Mut.lift (input.shape.get 0)
    Mut.lift (input.reshaped [batchSize, toInt32 (input.shape.size / toSizeT batchSize : Nat)])

/-- `backward` (FlattenLayer.hpp:50-52); `*originalShape` is undefined behaviour if nothing was stored. -/
def backward (gradOutput : Tensor T) : Mut Flatten (Tensor T) := do
  let l ← Mut.get
  let s ← Mut.lift (derefOpt l.originalShape)
  Mut.lift (gradOutput.reshape s.dims)

end Flatten

/-! ### ActivationLayer -/

/-- Members of `ActivationLayer` (Layers/ActivationLayer.hpp:29-30). -/
structure ActLayer (T : Type) where
  activation : Act T
  input : Option (Tensor T) := none

namespace ActLayer
variable {T : Type} [Zero T] [One T] [Add T] [Sub T] [Mul T] [Div T] [Neg T] [NatCast T] [IntCast T] [LT T] [DecidableLT T]
  [LE T] [DecidableLE T] [MathFn T]

/-- `forward` (ActivationLayer.hpp:19-22). -/
def forward (input : Tensor T) : Mut (ActLayer T) (Tensor T) := do
  Mut.modify (fun l => { l with input := some input })
  let l ← Mut.get
  Mut.lift (l.activation.forward input)

/-- `backward` (ActivationLayer.hpp:24-26). -/
def backward (gradOutput : Tensor T) : Mut (ActLayer T) (Tensor T) := do
  let l ← Mut.get
  let input ← Mut.lift (derefOpt l.input)
  Mut.lift (l.activation.backward input gradOutput)

end ActLayer

/-! ### MaxPooling2DLayer -/

/-- Members of `MaxPooling2DLayer` (Regularisation/MaxPooling2DLayer.hpp:78-81).  `negInf` is the constant
`-std::numeric_limits<T>::infinity()` of line 84. -/
structure MaxPool (T : Type) where
  poolSize : Int
  stride : Int
  padding : Int
  negInf : T
  input : Option (Tensor T) := none

namespace MaxPool
variable {T : Type}

/-- Constructors (MaxPooling2DLayer.hpp:15-17). -/
def new (negInf : T) (poolSize stride padding : Int) : MaxPool T := ⟨poolSize, stride, padding, negInf, none⟩

/-- `findMaxInPoolWindow` (MaxPooling2DLayer.hpp:83-107).  `break` is modelled as skipping: the row and
column numbers only grow, so every later iteration of the same loop would break too. -/
def findMax [LT T] [DecidableLT T] (l : MaxPool T) (t : Tensor T) (n ic oh ow : Int) : Res (T × Int × Int) := do
  let h ← t.shape.get 2
  let w ← t.shape.get 3
  let ihStart := oh * l.stride - l.padding
  let iwStart := ow * l.stride - l.padding
  forI l.poolSize (l.negInf, 0, 0) (fun ph st =>
    if ihStart + ph ≥ h then .ok st
    else
      forI l.poolSize st (fun pw st =>
        if iwStart + pw ≥ w then .ok st
        else do
          let val ← t.at_ [n, ic, ihStart + ph, iwStart + pw]
          return if st.1 < val then (val, ihStart + ph, iwStart + pw) else st))

/-- Output extent (MaxPooling2DLayer.hpp:32-33): `int` division, truncating; division by zero is undefined
behaviour. -/
def outDim (l : MaxPool T) (inDim : Int) : Res Int :=
  if l.stride = 0 then .error .ub else .ok ((inDim - l.poolSize).tdiv l.stride + 1)

/-- The computation of `forward` (MaxPooling2DLayer.hpp:26-48). -/
def pool [Zero T] [LT T] [DecidableLT T] (l : MaxPool T) (input : Tensor T) : Res (Tensor T) := do
  let batchSize ← input.shape.get 0
  let inputChannels ← input.shape.get 1
  let inputHeight ← input.shape.get 2
  let inputWidth ← input.shape.get 3
  let outputHeight ← l.outDim inputHeight
  let outputWidth ← l.outDim inputWidth
  let s ← Shape.make [batchSize, inputChannels, outputHeight, outputWidth]
  forI batchSize (Tensor.zeros s) (fun n output =>
    forI inputChannels output (fun ic output =>
      forI outputHeight output (fun oh output =>
        forI outputWidth output (fun ow output => do
          let m ← l.findMax input n ic oh ow
          output.setAt [n, ic, oh, ow] m.1))))

/-- `forward` (MaxPooling2DLayer.hpp:19-49). -/
def forward [Zero T] [LT T] [DecidableLT T] (input : Tensor T) : Mut (MaxPool T) (Tensor T) := do
  if input.shape.rank ≠ 4 then Mut.lift (.error .runtimeError)
  else
    Mut.modify (fun l => { l with input := some input })
    let l ← Mut.get
    Mut.lift (l.pool input)

/-- The computation of `backward` (MaxPooling2DLayer.hpp:56-74). -/
def unpool [Zero T] [Add T] [LT T] [DecidableLT T] (l : MaxPool T) (input gradOutput : Tensor T) :
    Res (Tensor T) := do
  let batchSize ← input.shape.get 0
  let inputChannels ← input.shape.get 1
  let outputHeight ← gradOutput.shape.get 2
  let outputWidth ← gradOutput.shape.get 3
  forI batchSize (Tensor.full input.shape 0) (fun n gradInput =>
    forI inputChannels gradInput (fun ic gradInput =>
      forI outputHeight gradInput (fun oh gradInput =>
        forI outputWidth gradInput (fun ow gradInput => do
          let m ← l.findMax input n ic oh ow
          let g ← gradOutput.at_ [n, ic, oh, ow]
          gradInput.modifyAt [n, ic, m.2.1, m.2.2] (· + g)))))

/-- `backward` (MaxPooling2DLayer.hpp:51-75). -/
def backward [Zero T] [Add T] [LT T] [DecidableLT T] (gradOutput : Tensor T) : Mut (MaxPool T) (Tensor T) := do
  let l ← Mut.get
  match l.input with
  | none => Mut.lift (.error .runtimeError)
  | some input => Mut.lift (l.unpool input gradOutput)

end MaxPool

/-! ### DropoutLayer -/

/-- Members of `DropoutLayer` (Regularisation/DropoutLayer.hpp:36-37). -/
structure Dropout (T : Type) where
  dropoutRate : T
  mask : Option (Tensor T) := none

namespace Dropout
variable {ρ T : Type} [Zero T] [One T] [Sub T] [Mul T] [Div T] [LT T] [DecidableLT T]

/-- `forward` (DropoutLayer.hpp:15-23). -/
def forward (E : Engine ρ T) (training : Bool) (input : Tensor T) : Mut (Dropout T × ρ) (Tensor T) := do
  if training then
    let s ← Mut.get
    let m ← Mut.lift (Tensor.rand E input.shape s.2)
    Mut.set ({ s.1 with mask := some m.1 }, m.2)
    let mask ← Mut.lift (m.1.apply (fun x => if s.1.dropoutRate < x then 1 else 0))
    Mut.modify (fun s => ({ s.1 with mask := some mask }, s.2))
    let masked ← Mut.lift (input.mul mask)
    Mut.lift (masked.mulScalar (1 / (1 - s.1.dropoutRate)))
  else return input

omit [One T] [Sub T] [Div T] [LT T] [DecidableLT T] in
/-- `backward` (DropoutLayer.hpp:25-33); `*mask` is undefined behaviour if there is no mask. -/
def backward (training : Bool) (gradOutput : Tensor T) : Mut (Dropout T) (Tensor T) := do
  let l ← Mut.get
  let mask ← Mut.lift (derefOpt l.mask)
  if !(gradOutput.shape.beq mask.shape) then Mut.lift (.error .invalidArgument)
  else if training then Mut.lift (gradOutput.mul mask)
  else return gradOutput

end Dropout

/-! ### BatchNormalizationLayer -/

/-- Members of `BatchNormalizationLayer` (Regularisation/BatchNormalizationLayer.hpp:108-122), without the
unused `numFeatures`.  `recipEps` is the default argument `T(1e-12)` of `reciprocal`
(AdvancedTensorOperations.hpp:98). -/
structure BatchNorm (T : Type) where
  epsilon : T
  momentum : T
  recipEps : T
  gamma : Tensor T
  beta : Tensor T
  runningMean : Tensor T
  runningVariance : Tensor T
  batchMean : Option (Tensor T) := none
  batchVariance : Option (Tensor T) := none
  normalizedInput : Option (Tensor T) := none
  gammaGrad : Option (Tensor T) := none
  betaGrad : Option (Tensor T) := none

namespace BatchNorm
variable {T : Type}

/-- Constructor (BatchNormalizationLayer.hpp:16-19). -/
def new [Zero T] [One T] (numFeatures : Int) (epsilon momentum recipEps : T) : Res (BatchNorm T) := do
  let s ← Shape.make [1, numFeatures]
  return { epsilon := epsilon, momentum := momentum, recipEps := recipEps,
           gamma := Tensor.full s 1, beta := Tensor.full s 0,
           runningMean := Tensor.full s 0, runningVariance := Tensor.full s 1 }

/-- `reshapeForBroadcast` (BatchNormalizationLayer.hpp:124-135).  `tensor.getShape()[1]` and
`newShape[1]` are unchecked accesses. -/
def reshapeForBroadcast (tensor : Tensor T) (target : Shape) : Res (Tensor T) := do
  let c ← tensor.shape.get 1
  let newShape ← wr (List.replicate target.rank (1 : Int)) 1 c
  let newShape ← if target.rank = 2 then wr newShape 0 1 else .ok newShape
  tensor.reshaped newShape

/-- `reshapeForBroadcast` (BatchNormalizationLayer.hpp:124-135) in a build where the read of `tensor.getShape()[1]` from a shape
of rank 1 (127, undefined behaviour) happens to return `v` and does no other harm. -/
def reshapeReading (v : Int) (tensor : Tensor T) (target : Shape) : Res (Tensor T) :=
  if tensor.shape.rank = 1 then do
    let newShape ← wr (List.replicate target.rank (1 : Int)) 1 v
    let newShape ← if target.rank = 2 then wr newShape 0 1 else .ok newShape
    tensor.reshaped newShape
  else reshapeForBroadcast tensor target

/-- `reductionAxes` (BatchNormalizationLayer.hpp:28, 66). -/
def axes (s : Shape) : List Nat := if s.rank = 4 then [0, 2, 3] else [0]

variable [Zero T] [One T] [Add T] [Sub T] [Mul T] [Div T] [Neg T] [NatCast T] [IntCast T] [DecidableEq T]
  [LT T] [DecidableLT T] [MathFn T]

omit [NatCast T] [IntCast T] [DecidableEq T] [LT T] [DecidableLT T] [Neg T] in
/-- `(input - mean) / (variance + epsilon).sqrt()` (BatchNormalizationLayer.hpp:40, 53). -/
def normalise (input mean variance : Tensor T) (epsilon : T) : Res (Tensor T) := do
  let a ← input.sub mean
  let b ← variance.addScalar epsilon
  let c ← b.apply MathFn.sqrt
  a.div c

omit [NatCast T] [IntCast T] [DecidableEq T] [LT T] [DecidableLT T] [Neg T] [Div T] [MathFn T] [One T] [Sub T] in
/-- `normalized * gamma + beta` (BatchNormalizationLayer.hpp:41, 54). -/
def scaleShift (normalized gamma beta : Tensor T) : Res (Tensor T) := do
  let a ← normalized.mul gamma
  a.add beta

omit [NatCast T] [IntCast T] [DecidableEq T] [LT T] [DecidableLT T] [Neg T] [Div T] [MathFn T] in
/-- `momentum * running + (1 - momentum) * batch` (BatchNormalizationLayer.hpp:43-44). -/
def blend (momentum : T) (running batch : Tensor T) : Res (Tensor T) := do
  let a ← running.mulScalar momentum
  let b ← batch.mulScalar (1 - momentum)
  a.add b

/-- `forward` (BatchNormalizationLayer.hpp:21-56). -/
def forward (training : Bool) (input : Tensor T) : Mut (BatchNorm T) (Tensor T) := do
  let shape := input.shape
  if shape.rank ≠ 2 ∧ shape.rank ≠ 4 then Mut.lift (.error .runtimeError)
  else if training then
    let l ← Mut.get
    let bm ← Mut.lift (input.meanAxes (axes shape))
    Mut.modify (fun l => { l with batchMean := some bm })
    let bv ← Mut.lift (input.varianceAxes bm (axes shape))
    Mut.modify (fun l => { l with batchVariance := some bv })
    let rm ← Mut.lift (reshapeForBroadcast bm shape)
    let rv ← Mut.lift (reshapeForBroadcast bv shape)
    let rg ← Mut.lift (reshapeForBroadcast l.gamma shape)
    let rb ← Mut.lift (reshapeForBroadcast l.beta shape)
    let ni ← Mut.lift (normalise input rm rv l.epsilon)
    Mut.modify (fun l => { l with normalizedInput := some ni })
    let output ← Mut.lift (scaleShift ni rg rb)
    let nm ← Mut.lift (blend l.momentum l.runningMean bm)
    Mut.modify (fun l => { l with runningMean := nm })
    let nv ← Mut.lift (blend l.momentum l.runningVariance bv)
    Mut.modify (fun l => { l with runningVariance := nv })
    return output
  else
    let l ← Mut.get
    let rm ← Mut.lift (reshapeForBroadcast l.runningMean shape)
    let rv ← Mut.lift (reshapeForBroadcast l.runningVariance shape)
    let rg ← Mut.lift (reshapeForBroadcast l.gamma shape)
    let rb ← Mut.lift (reshapeForBroadcast l.beta shape)
    let ni ← Mut.lift (normalise input rm rv l.epsilon)
    Mut.lift (scaleShift ni rg rb)

/-- The computation of `backward` (BatchNormalizationLayer.hpp:63-95): input gradient, gamma gradient, beta
gradient; `rfb` is `reshapeForBroadcast`.  The literals `T(-0.5)`, `T(2)` and `T(-1)` are written with the operations of `T`. -/
def gradsWith (rfb : Tensor T → Shape → Res (Tensor T)) (l : BatchNorm T) (batchVariance normalizedInput gradOutput : Tensor T) :
    Res (Tensor T × Tensor T × Tensor T) := do
  let inputShape := gradOutput.shape
  let batchSize ← inputShape.get 0
  let reshapedGamma ← rfb l.gamma inputShape
  let gn ← gradOutput.mul normalizedInput
  let dGamma ← gn.sumAxes (axes inputShape)
  let dBeta ← gradOutput.sumAxes (axes inputShape)
  let dNormalized ← gradOutput.mul reshapedGamma
  let ve ← batchVariance.addScalar l.epsilon
  let variance ← rfb ve inputShape
  let stdDev ← variance.apply MathFn.sqrt
  let invStdDev ← stdDev.reciprocal (fun x e => decide (e < (if x < 0 then -x else x))) l.recipEps
  let dn ← dNormalized.mul normalizedInput
  let dVariance ← dn.sumAxes (axes inputShape)
  let dVariance ← rfb dVariance invStdDev.shape
  let dVariance ← dVariance.mulScalar (-1 / (1 + 1))
  let dVariance ← dVariance.mul invStdDev
  let dVariance ← dVariance.mul invStdDev
  let dVariance ← dVariance.mul invStdDev
  let dVariance ← rfb dVariance inputShape
  let di ← dNormalized.mul invStdDev
  let dm ← di.mulScalar (-1)
  let dMean ← dm.sumAxes (axes inputShape)
  let dMean ← rfb dMean inputShape
  let t1 ← dNormalized.mul invStdDev
  let t2 ← dVariance.mulScalar (1 + 1)
  let t2 ← t2.mul normalizedInput
  let t2 ← t2.divScalar (batchSize : T)
  let t3 ← dMean.divScalar (batchSize : T)
  let s ← t1.add t2
  let dInput ← s.add t3
  return (dInput, dGamma, dBeta)

/-- `backward` (BatchNormalizationLayer.hpp:58-96) with `rfb` for `reshapeForBroadcast`. -/
def backwardWith (rfb : Tensor T → Shape → Res (Tensor T)) (gradOutput : Tensor T) : Mut (BatchNorm T) (Tensor T) := do
  let l ← Mut.get
  match l.batchMean, l.batchVariance, l.normalizedInput with
  | some _, some bv, some ni =>
    let r ← Mut.lift (l.gradsWith rfb bv ni gradOutput)
    Mut.modify (fun l => { l with gammaGrad := some r.2.1, betaGrad := some r.2.2 })
    return r.1
  | _, _, _ => Mut.lift (.error .runtimeError)

/-- `backward` (BatchNormalizationLayer.hpp:58-96). -/
def backward (gradOutput : Tensor T) : Mut (BatchNorm T) (Tensor T) := backwardWith reshapeForBroadcast gradOutput

/-- `backward` (BatchNormalizationLayer.hpp:58-96) in a build where the reads past the end of a shape return `v`. -/
def backwardReading (v : Int) (gradOutput : Tensor T) : Mut (BatchNorm T) (Tensor T) := backwardWith (reshapeReading v) gradOutput

end BatchNorm

/-! ### Conv2DLayer -/

/-- Members of `Conv2DLayer` (Layers/Conv2DLayer.hpp:177-189).  `weights` and `biases` are optionals that the
constructors fill (22-27). -/
structure Conv (T : Type) where
  inputChannels : Int
  outputChannels : Int
  kernelHeight : Int
  kernelWidth : Int
  stride : Int
  padding : Int
  dilation : Int
  weights : Tensor T
  biases : Tensor T
  input : Option (Tensor T) := none
  weightGradients : Option (Tensor T) := none
  biasGradients : Option (Tensor T) := none

namespace Conv
variable {T : Type}

/-- Constructor and `initializeWeights` (Conv2DLayer.hpp:22-27, 191-194). -/
def new {ρ : Type} [LT T] [DecidableLT T] [Zero T] [One T] (E : Engine ρ T)
    (inputChannels outputChannels kernelHeight kernelWidth stride padding dilation : Int) (r : ρ) :
    Res (Conv T × ρ) := do
  let s ← Shape.make [outputChannels, inputChannels, kernelHeight, kernelWidth]
  let (w, r) ← Tensor.rand E s r
  let sb ← Shape.make [outputChannels, 1]
  return ({ inputChannels, outputChannels, kernelHeight, kernelWidth, stride, padding, dilation,
            weights := w, biases := Tensor.zeros sb }, r)

variable [Zero T] [Add T] [Mul T] [MathFn T]

/-- The computation of `forward` (Conv2DLayer.hpp:42-75).  The accumulator is a `float`, whatever `T`
is. -/
def correlate (l : Conv T) (input : Tensor T) : Res (Tensor T) := do
  let batchSize ← input.shape.get 0
  let inputHeight ← input.shape.get 2
  let inputWidth ← input.shape.get 3
  let outputHeight := inputHeight - l.kernelHeight + 1
  let outputWidth := inputWidth - l.kernelWidth + 1
  let s ← Shape.make [batchSize, l.outputChannels, outputHeight, outputWidth]
  forI batchSize (Tensor.zeros s) (fun b output =>
    forI l.outputChannels output (fun oc output =>
      forI outputHeight output (fun oh output =>
        forI outputWidth output (fun ow output => do
          let sum ← forI l.kernelHeight (0 : T) (fun kh sum =>
            forI l.kernelWidth sum (fun kw sum => do
              let x ← input.at_ [b, 0, oh + kh, ow + kw]
              let w ← l.weights.at_ [oc, 0, kh, kw]
              return MathFn.toFloat (sum + x * w)))
          let bias ← l.biases.at_ [oc, 0]
          output.setAt [b, oc, oh, ow] (MathFn.toFloat (sum + bias))))))

/-- `forward` (Conv2DLayer.hpp:35-76).  The assertions are active in the shipped build (no `NDEBUG`); a
failed one aborts the program. -/
def forward (input : Tensor T) : Mut (Conv T) (Tensor T) := do
  let l ← Mut.get
  if input.shape.rank ≠ 4 then Mut.lift (.error .abort)
  else
    let c ← Mut.lift (input.shape.get 1)
    if c ≠ l.inputChannels then Mut.lift (.error .abort)
    else
      Mut.modify (fun l => { l with input := some input })
      Mut.lift (l.correlate input)

/-- Bias gradient loop (Conv2DLayer.hpp:98-105). -/
def biasGrad (l : Conv T) (gradOutput : Tensor T) : Res (Tensor T) := do
  let h ← gradOutput.shape.get 2
  forI h (Tensor.zeros l.biases.shape) (fun oh bg => do
    let w ← gradOutput.shape.get 3
    forI w bg (fun ow bg => do
      let g ← gradOutput.at_ [0, 0, oh, ow]
      let b ← bg.get 0
      bg.set 0 (b + g)))

/-- Kernel gradient loop (Conv2DLayer.hpp:97, 108-118). -/
def weightGrad (l : Conv T) (input gradOutput : Tensor T) : Res (Tensor T) :=
  forI l.kernelHeight (Tensor.zeros l.weights.shape) (fun kh wg =>
    forI l.kernelWidth wg (fun kw wg => do
      let h ← gradOutput.shape.get 2
      let sum ← forI h (0 : T) (fun oh sum => do
        let w ← gradOutput.shape.get 3
        forI w sum (fun ow sum => do
          let x ← input.at_ [0, 0, oh + kh, ow + kw]
          let g ← gradOutput.at_ [0, 0, oh, ow]
          return MathFn.toFloat (sum + x * g)))
      wg.setAt [0, 0, kh, kw] sum))

/-- Input gradient loop (Conv2DLayer.hpp:121-134). -/
def inputGrad (l : Conv T) (input gradOutput : Tensor T) : Res (Tensor T) := do
  let h ← gradOutput.shape.get 2
  forI h (Tensor.full input.shape 0) (fun oh gi => do
    let w ← gradOutput.shape.get 3
    forI w gi (fun ow gi =>
      forI l.kernelHeight gi (fun kh gi =>
        forI l.kernelWidth gi (fun kw gi => do
          let wt ← l.weights.at_ [0, 0, kh, kw]
          let g ← gradOutput.at_ [0, 0, oh, ow]
          gi.modifyAt [0, 0, oh + kh, ow + kw] (· + wt * g)))))

/-- `backward` (Conv2DLayer.hpp:84-135).  Simplification: if a loop throws half-way, the gradient member it
was filling is left at zero in the model (partially filled in the code). -/
def backward (gradOutput : Tensor T) : Mut (Conv T) (Tensor T) := do
  let l ← Mut.get
  match l.input with
  | none => Mut.lift (.error .runtimeError)
  | some input =>
    Mut.modify (fun l => { l with
      weightGradients := some (Tensor.zeros l.weights.shape)
      biasGradients := some (Tensor.zeros l.biases.shape) })
    let bg ← Mut.lift (l.biasGrad gradOutput)
    Mut.modify (fun l => { l with biasGradients := some bg })
    let wg ← Mut.lift (l.weightGrad input gradOutput)
    Mut.modify (fun l => { l with weightGradients := some wg })
    Mut.lift (l.inputGrad input gradOutput)

omit [Zero T] [Add T] [Mul T] [MathFn T] in
/-- `setWeights` (Conv2DLayer.hpp:168-170). -/
def setWeights (w : Tensor T) : Mut (Conv T) Unit := Mut.modify (fun l => { l with weights := w })

omit [Zero T] [Add T] [Mul T] [MathFn T] in
/-- `setBiases` (Conv2DLayer.hpp:172-174). -/
def setBiases (b : Tensor T) : Mut (Conv T) Unit := Mut.modify (fun l => { l with biases := b })

/-- Number of windows (Conv2DLayer.hpp:202-203, 244-245). -/
def colDim (inDim kernel stride padding dilation : Int) : Res Int :=
  if stride = 0 then .error .ub
  else .ok ((inDim + 2 * padding - dilation * (kernel - 1) - 1).tdiv stride + 1)

omit [Add T] [Mul T] [MathFn T] in
/-- `im2col` (Conv2DLayer.hpp:196-236), sequential order. -/
def im2col (input : Tensor T) (kernelHeight kernelWidth stride padding dilation : Int) : Res (Tensor T) := do
  let batchSize ← input.shape.get 0
  let inputChannels ← input.shape.get 1
  let inputHeight ← input.shape.get 2
  let inputWidth ← input.shape.get 3
  let outputHeight ← colDim inputHeight kernelHeight stride padding dilation
  let outputWidth ← colDim inputWidth kernelWidth stride padding dilation
  let s ← Shape.make [inputChannels * kernelHeight * kernelWidth, outputHeight * outputWidth * batchSize]
  let s0 ← rd input.shape.stride 0
  let s1 ← rd input.shape.stride 1
  let s2 ← rd input.shape.stride 2
  let s3 ← rd input.shape.stride 3
  forI batchSize (Tensor.zeros s) (fun n col =>
    forI inputChannels col (fun c col =>
      forI kernelHeight col (fun kh col =>
        forI kernelWidth col (fun kw col =>
          forI outputHeight col (fun oh col =>
            forI outputWidth col (fun ow col => do
              let ih := oh * stride + kh * dilation - padding
              let iw := ow * stride + kw * dilation - padding
              let row := c * kernelHeight * kernelWidth + kh * kernelWidth + kw
              let wcol := (n * outputHeight + oh) * outputWidth + ow
              if ih ≥ 0 ∧ ih < inputHeight ∧ iw ≥ 0 ∧ iw < inputWidth then do
                let x ← input.get (n * s0 + c * s1 + ih * s2 + iw * s3)
                col.setAt [row, wcol] x
              else col.setAt [row, wcol] 0))))))

omit [Mul T] [MathFn T] in
/-- `col2im` (Conv2DLayer.hpp:238-277), sequential order. -/
def col2im (colMatrix : Tensor T) (outputShape : Shape)
    (kernelHeight kernelWidth stride padding dilation : Int) : Res (Tensor T) := do
  let batchSize ← outputShape.get 0
  let inputChannels ← outputShape.get 1
  let inputHeight ← outputShape.get 2
  let inputWidth ← outputShape.get 3
  let outputHeight ← colDim inputHeight kernelHeight stride padding dilation
  let outputWidth ← colDim inputWidth kernelWidth stride padding dilation
  let output : Tensor T := Tensor.zeros outputShape
  let output ← output.fill 0
  let s0 ← rd outputShape.stride 0
  let s1 ← rd outputShape.stride 1
  let s2 ← rd outputShape.stride 2
  let s3 ← rd outputShape.stride 3
  forI batchSize output (fun n output =>
    forI inputChannels output (fun c output =>
      forI kernelHeight output (fun kh output =>
        forI kernelWidth output (fun kw output =>
          forI outputHeight output (fun oh output =>
            forI outputWidth output (fun ow output => do
              let ih := oh * stride + kh * dilation - padding
              let iw := ow * stride + kw * dilation - padding
              let row := c * kernelHeight * kernelWidth + kh * kernelWidth + kw
              let wcol := (n * outputHeight + oh) * outputWidth + ow
              if ih ≥ 0 ∧ ih < inputHeight ∧ iw ≥ 0 ∧ iw < inputWidth then do
                let x ← colMatrix.at_ [row, wcol]
                let k : Int := n * s0 + c * s1 + ih * s2 + iw * s3
                let y ← output.get k
                output.set k (y + x)
              else .ok output))))))

end Conv

/-! ### Layer -/

/-- The concrete layer classes. -/
inductive LayerKind (T : Type) where
  | fc (l : FC T)
  | conv (l : Conv T)
  | flatten (l : Flatten)
  | maxPool (l : MaxPool T)
  | batchNorm (l : BatchNorm T)
  | dropout (l : Dropout T)
  | activation (l : ActLayer T)

/-- A layer object: the `trainingMode` member of the base class (Layer.hpp:21, initially `true`) and the
members of the derived class. -/
structure Layer (T : Type) where
  kind : LayerKind T
  trainingMode : Bool := true

namespace Layer
variable {ρ T : Type} [Zero T] [One T] [Add T] [Sub T] [Mul T] [Div T] [Neg T] [NatCast T] [IntCast T]
  [LT T] [DecidableLT T] [LE T] [DecidableLE T] [DecidableEq T] [MathFn T]

/-- Run an action on the members of a derived class. -/
def onKind {σ σ' α : Type} (wrap : σ → σ') (m : Mut σ α) (s : σ) : Res α × σ' :=
  ((m s).1, wrap (m s).2)

/-- Virtual `forward` (Layer.hpp:14) dispatched to the derived class. -/
def forward (E : Engine ρ T) (input : Tensor T) : Mut (Layer T × ρ) (Tensor T) := fun s =>
  match s.1.kind with
  | .fc l => onKind (fun l => ({ s.1 with kind := .fc l }, s.2)) (FC.forward input) l
  | .conv l => onKind (fun l => ({ s.1 with kind := .conv l }, s.2)) (Conv.forward input) l
  | .flatten l => onKind (fun l => ({ s.1 with kind := .flatten l }, s.2)) (Flatten.forward input) l
  | .maxPool l => onKind (fun l => ({ s.1 with kind := .maxPool l }, s.2)) (MaxPool.forward input) l
  | .batchNorm l =>
    onKind (fun l => ({ s.1 with kind := .batchNorm l }, s.2)) (BatchNorm.forward s.1.trainingMode input) l
  | .dropout l =>
    onKind (fun p => ({ s.1 with kind := .dropout p.1 }, p.2)) (Dropout.forward E s.1.trainingMode input) (l, s.2)
  | .activation l => onKind (fun l => ({ s.1 with kind := .activation l }, s.2)) (ActLayer.forward input) l

/-- Virtual `backward` (Layer.hpp:15) dispatched to the derived class. -/
def backward (gradOutput : Tensor T) : Mut (Layer T) (Tensor T) := fun s =>
  match s.kind with
  | .fc l => onKind (fun l => { s with kind := .fc l }) (FC.backward gradOutput) l
  | .conv l => onKind (fun l => { s with kind := .conv l }) (Conv.backward gradOutput) l
  | .flatten l => onKind (fun l => { s with kind := .flatten l }) (Flatten.backward gradOutput) l
  | .maxPool l => onKind (fun l => { s with kind := .maxPool l }) (MaxPool.backward gradOutput) l
  | .batchNorm l => onKind (fun l => { s with kind := .batchNorm l }) (BatchNorm.backward gradOutput) l
  | .dropout l => onKind (fun l => { s with kind := .dropout l }) (Dropout.backward s.trainingMode gradOutput) l
  | .activation l => onKind (fun l => { s with kind := .activation l }) (ActLayer.backward gradOutput) l

/-- `setTrainingMode` (Layer.hpp:18). -/
def setTrainingMode (mode : Bool) (l : Layer T) : Layer T := { l with trainingMode := mode }

/-- `optimizer.optimize({p0, p1}, {g0, g1})` with the default `learningRateOverride` of -1 (Optimizer.hpp) on
two parameter tensors at the addresses `k0 ≠ k1`. -/
def optimizePair {K : Type} [DecidableEq K] (k0 k1 : K) (opt : Optimizer K T) (p0 p1 g0 g1 : Tensor T) :
    Res Unit × Tensor T × Tensor T × Optimizer K T :=
  let r := World.optimizeM ⟨[k0, k1], [g0, g1], -1⟩ ⟨fun k => if k = k0 then p0 else p1, opt⟩
  (r.1, r.2.mem k0, r.2.mem k1, r.2.opt)

/-- Virtual `updateWeights` (Layer.hpp:17; FullyConnectedLayer.hpp:90-97, Conv2DLayer.hpp:137-144,
BatchNormalizationLayer.hpp:98-105). -/
def updateWeights {K : Type} [DecidableEq K] (k0 k1 : K) : Mut (Layer T × Optimizer K T) Unit := fun s =>
  match s.1.kind with
  | .fc l =>
    match l.weightGradients, l.biasGradients with
    | some wg, some bg =>
      let r := optimizePair k0 k1 s.2 l.weights l.biases wg bg
      (r.1, { s.1 with kind := .fc { l with weights := r.2.1, biases := r.2.2.1 } }, r.2.2.2)
    | _, _ => (.error .runtimeError, s)
  | .conv l =>
    match l.weightGradients, l.biasGradients with
    | some wg, some bg =>
      let r := optimizePair k0 k1 s.2 l.weights l.biases wg bg
      (r.1, { s.1 with kind := .conv { l with weights := r.2.1, biases := r.2.2.1 } }, r.2.2.2)
    | _, _ => (.error .runtimeError, s)
  | .batchNorm l =>
    match l.gammaGrad, l.betaGrad with
    | some gg, some bg =>
      let r := optimizePair k0 k1 s.2 l.gamma l.beta gg bg
      (r.1, { s.1 with kind := .batchNorm { l with gamma := r.2.1, beta := r.2.2.1 } }, r.2.2.2)
    | _, _ => (.error .runtimeError, s)
  | _ => (.ok (), s)

end Layer
end SmartDNN
