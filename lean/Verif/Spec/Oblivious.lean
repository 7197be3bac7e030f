import Verif.Props.Intact

/-!
# Outcomes that depend on shapes alone (specification for C104)

When two programs that differ only in the numbers they work with count as the same: tensors of the same shape, layers of the same
class and settings, models of the same make, calls with data of the same shapes.  The two programs may even use different number
types, for instance real numbers and floating point.
-/

namespace SmartDNN
open Net Spec

/-- Both calls return, with related results, or both fail in the same way. -/
def Spec.SameOutcome {α β : Type} (P : α → β → Prop) : Res α → Res β → Prop
  | .ok a, .ok b => P a b
  | .error e, .error e' => e = e'
  | _, _ => False

/-- Two tensors of the same shape (and amount of storage) whose elements are related one by one. -/
def Spec.Twin {T T' : Type} (R : T → T' → Prop) (t : Tensor T) (t' : Tensor T') : Prop :=
  t.shape = t'.shape ∧ List.Forall₂ R t.data t'.data

/-- Two tensors of the same shape and amount of storage, whatever their elements. -/
abbrev Spec.SameForm {T T' : Type} (t : Tensor T) (t' : Tensor T') : Prop := Twin (fun _ _ => True) t t'

/-- A whole number is zero in one arithmetic exactly if it is in the other. -/
structure Spec.SameZeros (T T' : Type) [Zero T] [Zero T'] [NatCast T] [NatCast T'] [IntCast T] [IntCast T'] : Prop where
  nat : ∀ n : Nat, (n : T) = 0 ↔ (n : T') = 0
  int : ∀ n : Int, (n : T) = 0 ↔ (n : T') = 0

/-- Two activation functions of the same class (the slope of a leaky ReLU may differ). -/
def Spec.SameAct {T T' : Type} : Act T → Act T' → Prop
  | .relu, .relu => True
  | .leakyRelu _, .leakyRelu _ => True
  | .sigmoid, .sigmoid => True
  | .tanh, .tanh => True
  | .swish, .swish => True
  | .mish, .mish => True
  | .softmax, .softmax => True
  | _, _ => False

/-- Two loss functions of the same class. -/
def Spec.SameLoss {T T' : Type} : Loss T → Loss T' → Prop
  | .mse, .mse => True
  | .crossEntropy _, .crossEntropy _ => True
  | _, _ => False

/-- Both are missing, or both are there and have the same form. -/
def Spec.SameOpt {T T' : Type} : Option (Tensor T) → Option (Tensor T') → Prop
  | some t, some t' => SameForm t t'
  | none, none => True
  | _, _ => False

/-- Two fully connected layers whose tensors have the same form. -/
structure Spec.SameFC {T T' : Type} (l : FC T) (l' : FC T') : Prop where
  weights : SameForm l.weights l'.weights
  biases : SameForm l.biases l'.biases
  input : SameOpt l.input l'.input
  weightGradients : SameOpt l.weightGradients l'.weightGradients
  biasGradients : SameOpt l.biasGradients l'.biasGradients

/-- Two convolution layers for the same channels and kernel size whose tensors have the same form (stride, padding and dilation are stored
but never used by the code, so they need not agree). -/
structure Spec.SameConv {T T' : Type} (l : Conv T) (l' : Conv T') : Prop where
  inputChannels : l.inputChannels = l'.inputChannels
  outputChannels : l.outputChannels = l'.outputChannels
  kernelHeight : l.kernelHeight = l'.kernelHeight
  kernelWidth : l.kernelWidth = l'.kernelWidth
  weights : SameForm l.weights l'.weights
  biases : SameForm l.biases l'.biases
  input : SameOpt l.input l'.input
  weightGradients : SameOpt l.weightGradients l'.weightGradients
  biasGradients : SameOpt l.biasGradients l'.biasGradients

/-- Two batch normalisation layers whose tensors have the same form. -/
structure Spec.SameBN {T T' : Type} (l : BatchNorm T) (l' : BatchNorm T') : Prop where
  gamma : SameForm l.gamma l'.gamma
  beta : SameForm l.beta l'.beta
  runningMean : SameForm l.runningMean l'.runningMean
  runningVariance : SameForm l.runningVariance l'.runningVariance
  batchMean : SameOpt l.batchMean l'.batchMean
  batchVariance : SameOpt l.batchVariance l'.batchVariance
  normalizedInput : SameOpt l.normalizedInput l'.normalizedInput
  gammaGrad : SameOpt l.gammaGrad l'.gammaGrad
  betaGrad : SameOpt l.betaGrad l'.betaGrad

/-- Two pooling layers with the same settings whose tensors have the same form. -/
structure Spec.SamePool {T T' : Type} (l : MaxPool T) (l' : MaxPool T') : Prop where
  poolSize : l.poolSize = l'.poolSize
  stride : l.stride = l'.stride
  padding : l.padding = l'.padding
  input : SameOpt l.input l'.input

/-- Two activation layers of the same class. -/
def Spec.SameActLayer {T T' : Type} (l : ActLayer T) (l' : ActLayer T') : Prop := SameAct l.activation l'.activation ∧ SameOpt l.input l'.input

/-- Two dropout layers whose masks have the same form. -/
def Spec.SameDropout {T T' : Type} (l : Dropout T) (l' : Dropout T') : Prop := SameOpt l.mask l'.mask

/-- Two layers of the same class with the same settings whose tensors have the same form; their numbers may differ. -/
def Spec.SameKind {T T' : Type} : LayerKind T → LayerKind T' → Prop
  | .fc l, .fc l' => SameFC l l'
  | .conv l, .conv l' => SameConv l l'
  | .flatten l, .flatten l' => l = l'
  | .maxPool l, .maxPool l' => SamePool l l' ∧ 0 ≤ l.padding
  | .batchNorm l, .batchNorm l' => SameBN l l'
  | .dropout l, .dropout l' => SameDropout l l'
  | .activation l, .activation l' => SameActLayer l l'
  | _, _ => False

/-- Two layers of the same make, in the same mode. -/
def Spec.SameLayer {T T' : Type} (l : Layer T) (l' : Layer T') : Prop := SameKind l.kind l'.kind ∧ l.trainingMode = l'.trainingMode

/-- Two optimizers of the same class whose buffers have the same form; of the options only the switches count (momentum on or off,
centred or not). -/
def Spec.SameOptimizer {K T T' : Type} [Zero T] [LT T] [Zero T'] [LT T'] : Optimizer K T → Optimizer K T' → Prop
  | .sgd o, .sgd o' => (o.opts.momentum = 0 ↔ o'.opts.momentum = 0) ∧ ∀ k, SameOpt (o.momentumBuffers k) (o'.momentumBuffers k)
  | .rmsprop o, .rmsprop o' => o.opts.centered = o'.opts.centered ∧ (0 < o.opts.momentum ↔ 0 < o'.opts.momentum) ∧
      (∀ k, SameOpt (o.squaredGrads k) (o'.squaredGrads k)) ∧ (∀ k, SameOpt (o.meanGrads k) (o'.meanGrads k)) ∧
      ∀ k, SameOpt (o.velocityBuffers k) (o'.velocityBuffers k)
  | .adam o, .adam o' => (∀ k, SameOpt (o.m k) (o'.m k)) ∧ ∀ k, SameOpt (o.v k) (o'.v k)
  | _, _ => False

/-- Two optional things are both missing, or both there and related. -/
def Spec.BothOr {α β : Type} (P : α → β → Prop) : Option α → Option β → Prop
  | some a, some b => P a b
  | none, none => True
  | _, _ => False

/-- Two models of the same make: layer by layer the same class, settings, mode and forms of tensors, the same class of loss and
optimizer.  The numbers in them, and the states of their random engines, may differ. -/
structure Spec.SameNet {ρ ρ' T T' : Type} [Zero T] [LT T] [Zero T'] [LT T'] (net : Net ρ T) (net' : Net ρ' T') : Prop where
  layers : List.Forall₂ SameLayer net.layers net'.layers
  loss : BothOr SameLoss net.loss net'.loss
  optimizer : BothOr SameOptimizer net.optimizer net'.optimizer

section
variable {ρ T T' : Type} [Zero T] [One T] [Add T] [Sub T] [Mul T] [Div T] [Neg T] [NatCast T] [IntCast T]
  [LT T] [DecidableLT T] [LE T] [DecidableLE T] [DecidableEq T] [MathFn T]
  [Zero T'] [LT T']

/-- What the caller of a member function of a model sees: the tensors returned or printed, or the exception. -/
def Spec.Visit.outcome (E : Engine ρ T) (net : Net ρ T) : Visit T → Res (List (Tensor T))
  | .train xs ys n => (trainCall E xs ys n net).1.map fun _ => (trainCall E xs ys n net).2.2
  | .predict x => (Net.predict E x net).1.map fun y => [y]
  | .predictAll xs => (Net.predictAll E xs net).1
  | .backward g => (Net.backward g net).1.map fun _ => []
  | .updateWeights => (Net.updateWeights net).1.map fun _ => []
  | _ => .ok []

/-- The outcomes of a history of calls, in order; calls go on after an exception, on the model it left behind. -/
def Spec.outcomes (E : Engine ρ T) : List (Visit T) → Net ρ T → List (Res (List (Tensor T)))
  | [], _ => []
  | v :: vs, net => v.outcome E net :: outcomes E vs (v.apply E net).1

/-- The same call with data of the same shapes, and with layers and optimizers of the same make. -/
def Spec.SameVisit : Visit T → Visit T' → Prop
  | .train xs ys n, .train xs' ys' n' => List.Forall₂ SameForm xs xs' ∧ List.Forall₂ SameForm ys ys' ∧ n = n'
  | .predict x, .predict x' => SameForm x x'
  | .predictAll xs, .predictAll xs' => List.Forall₂ SameForm xs xs'
  | .updateWeights, .updateWeights => True
  | .mode b, .mode b' => b = b'
  | .compile L o, .compile L' o' => SameLoss L L' ∧ SameOptimizer o o'
  | .addLayer l, .addLayer l' => SameLayer l l'
  | .setLayer i l, .setLayer i' l' => i = i' ∧ SameLayer l l'
  | _, _ => False

end
end SmartDNN
