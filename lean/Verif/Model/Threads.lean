import Verif.Model.Network
import Verif.Model.Parallel

/-!
# Predictions from several threads

`predict` (SmartDNN.impl.hpp:51-58) as a sequence of accesses to memory that several threads can reach.  Only
`predict` calls run at the same time, so what `forward` never assigns (weights, options, `trainingMode`) is read
without counting as an access: a race needs a write.  Each tensor or shape member is one place; in the code it is
many, so the model has fewer interleavings than the code.
-/

namespace SmartDNN

/-- The members of layers that some `forward` assigns (FullyConnectedLayer.hpp:33, Conv2DLayer.hpp:40,
ActivationLayer.hpp:20, MaxPooling2DLayer.hpp:24, FlattenLayer.hpp:34, DropoutLayer.hpp:17-18,
BatchNormalizationLayer.hpp:31-44). -/
inductive Member where
  | input | originalShape | mask | batchMean | batchVariance | normalizedInput | runningMean | runningVariance
  deriving DecidableEq

/-- What threads that predict share: members of layer number `layer` of model number `model`, the process-wide
random engine (RandomEngine.hpp:8-11), and a place for the result of each call. -/
inductive PLoc where
  | member (model layer : Nat) (f : Member)
  | engine
  | out (model call : Nat)
  deriving DecidableEq

/-- Contents of a place. -/
inductive PCell (ρ T : Type) where
  | tensor (t : Option (Tensor T))
  | shape (s : Option Shape)
  | state (r : ρ)

section
variable {ρ T : Type}

/-- Read a tensor member that must hold a value. -/
def readTensor (l : PLoc) (k : Tensor T → Prog PLoc (PCell ρ T)) : Prog PLoc (PCell ρ T) :=
  .read l fun c => match c with
    | .tensor (some t) => k t
    | _ => .fail .ub

/-- Read a shape member that must hold a value. -/
def readShape (l : PLoc) (k : Shape → Prog PLoc (PCell ρ T)) : Prog PLoc (PCell ρ T) :=
  .read l fun c => match c with
    | .shape (some s) => k s
    | _ => .fail .ub

/-- Go on with the result of a thread-local computation, which may throw. -/
def orFail {α : Type} (r : Res α) (k : α → Prog PLoc (PCell ρ T)) : Prog PLoc (PCell ρ T) :=
  match r with
  | .ok a => k a
  | .error e => .fail e

/-- The member `f` of a layer object; `none` if its class has no such member. -/
def Layer.member (l : Layer T) (f : Member) : Option (PCell ρ T) :=
  match l.kind, f with
  | .fc l, .input => some (.tensor l.input)
  | .conv l, .input => some (.tensor l.input)
  | .maxPool l, .input => some (.tensor l.input)
  | .activation l, .input => some (.tensor l.input)
  | .flatten l, .originalShape => some (.shape l.originalShape)
  | .dropout l, .mask => some (.tensor l.mask)
  | .batchNorm l, .batchMean => some (.tensor l.batchMean)
  | .batchNorm l, .batchVariance => some (.tensor l.batchVariance)
  | .batchNorm l, .normalizedInput => some (.tensor l.normalizedInput)
  | .batchNorm l, .runningMean => some (.tensor (some l.runningMean))
  | .batchNorm l, .runningVariance => some (.tensor (some l.runningVariance))
  | _, _ => none

variable [Zero T] [One T] [Add T] [Sub T] [Mul T] [Div T] [Neg T] [NatCast T] [IntCast T]
  [LT T] [DecidableLT T] [LE T] [DecidableLE T] [DecidableEq T] [MathFn T]

/-- Accesses of `forward` of a fully connected layer (FullyConnectedLayer.hpp:32-45). -/
def FC.forwardProg (at_ : Member → PLoc) (l : FC T) (x : Tensor T) (k : Tensor T → Prog PLoc (PCell ρ T)) :
    Prog PLoc (PCell ρ T) :=
  .write (at_ .input) (.tensor (some x)) <|
  orFail (FC.affine l.weights l.biases x) k

/-- Accesses of `forward` of a convolution layer (Conv2DLayer.hpp:35-76). -/
def Conv.forwardProg (at_ : Member → PLoc) (l : Conv T) (x : Tensor T) (k : Tensor T → Prog PLoc (PCell ρ T)) :
    Prog PLoc (PCell ρ T) :=
  if x.shape.rank ≠ 4 then .fail .abort
  else orFail (x.shape.get 1) fun c =>
    if c ≠ l.inputChannels then .fail .abort
    else .write (at_ .input) (.tensor (some x)) <| orFail (l.correlate x) k

/-- Accesses of `forward` of a flatten layer (FlattenLayer.hpp:25-39): `originalShape` is assigned and then read
back twice. -/
def Flatten.forwardProg (at_ : Member → PLoc) (x : Tensor T) (k : Tensor T → Prog PLoc (PCell ρ T)) :
    Prog PLoc (PCell ρ T) :=
  if x.shape.rank < 2 then .fail .invalidArgument
  else if x.shape.rank = 2 then k x
  else .write (at_ .originalShape) (.shape (some x.shape)) <|
    readShape (at_ .originalShape) fun s =>
    orFail (s.get 0) fun batchSize =>
    readShape (at_ .originalShape) fun s' =>
    orFail (x.reshaped [batchSize, toInt32 (s'.size / toSizeT batchSize : Nat)]) k

/-- Accesses of `forward` of a max pooling layer (MaxPooling2DLayer.hpp:19-49). -/
def MaxPool.forwardProg (at_ : Member → PLoc) (l : MaxPool T) (x : Tensor T) (k : Tensor T → Prog PLoc (PCell ρ T)) :
    Prog PLoc (PCell ρ T) :=
  if x.shape.rank ≠ 4 then .fail .runtimeError
  else .write (at_ .input) (.tensor (some x)) <| orFail (l.pool x) k

/-- Accesses of `forward` of an activation layer (ActivationLayer.hpp:19-22). -/
def ActLayer.forwardProg (at_ : Member → PLoc) (l : ActLayer T) (x : Tensor T)
    (k : Tensor T → Prog PLoc (PCell ρ T)) : Prog PLoc (PCell ρ T) :=
  .write (at_ .input) (.tensor (some x)) <| orFail (l.activation.forward x) k

/-- Accesses of `forward` of a dropout layer (DropoutLayer.hpp:15-23).  The draws of `rand` are merged into one
read and one write of the engine. -/
def Dropout.forwardProg (E : Engine ρ T) (at_ : Member → PLoc) (l : Dropout T) (training : Bool) (x : Tensor T)
    (k : Tensor T → Prog PLoc (PCell ρ T)) : Prog PLoc (PCell ρ T) :=
  if training then
    .read .engine fun c => match c with
    | .state r =>
      orFail (Tensor.rand E x.shape r) fun m =>
      .write .engine (.state m.2) <|
      .write (at_ .mask) (.tensor (some m.1)) <|
      readTensor (at_ .mask) fun raw =>
      orFail (raw.apply (fun x => if l.dropoutRate < x then 1 else 0)) fun decided =>
      .write (at_ .mask) (.tensor (some decided)) <|
      readTensor (at_ .mask) fun mask =>
      orFail (x.mul mask) fun masked =>
      orFail (masked.mulScalar (1 / (1 - l.dropoutRate))) k
    | _ => .fail .ub
  else k x

/-- Accesses of `forward` of a batch normalisation layer (BatchNormalizationLayer.hpp:21-56). -/
def BatchNorm.forwardProg (at_ : Member → PLoc) (l : BatchNorm T) (training : Bool) (x : Tensor T)
    (k : Tensor T → Prog PLoc (PCell ρ T)) : Prog PLoc (PCell ρ T) :=
  if x.shape.rank ≠ 2 ∧ x.shape.rank ≠ 4 then .fail .runtimeError
  else if training then
    orFail (x.meanAxes (axes x.shape)) fun bm =>
    .write (at_ .batchMean) (.tensor (some bm)) <|
    readTensor (at_ .batchMean) fun bm =>
    orFail (x.varianceAxes bm (axes x.shape)) fun bv =>
    .write (at_ .batchVariance) (.tensor (some bv)) <|
    readTensor (at_ .batchMean) fun bm =>
    orFail (reshapeForBroadcast bm x.shape) fun rm =>
    readTensor (at_ .batchVariance) fun bv =>
    orFail (reshapeForBroadcast bv x.shape) fun rv =>
    orFail (reshapeForBroadcast l.gamma x.shape) fun rg =>
    orFail (reshapeForBroadcast l.beta x.shape) fun rb =>
    orFail (normalise x rm rv l.epsilon) fun ni =>
    .write (at_ .normalizedInput) (.tensor (some ni)) <|
    readTensor (at_ .normalizedInput) fun ni =>
    orFail (scaleShift ni rg rb) fun output =>
    readTensor (at_ .runningMean) fun rm =>
    readTensor (at_ .batchMean) fun bm =>
    orFail (blend l.momentum rm bm) fun nm =>
    .write (at_ .runningMean) (.tensor (some nm)) <|
    readTensor (at_ .runningVariance) fun rv =>
    readTensor (at_ .batchVariance) fun bv =>
    orFail (blend l.momentum rv bv) fun nv =>
    .write (at_ .runningVariance) (.tensor (some nv)) <|
    k output
  else
    readTensor (at_ .runningMean) fun rm =>
    orFail (reshapeForBroadcast rm x.shape) fun rm =>
    readTensor (at_ .runningVariance) fun rv =>
    orFail (reshapeForBroadcast rv x.shape) fun rv =>
    orFail (reshapeForBroadcast l.gamma x.shape) fun rg =>
    orFail (reshapeForBroadcast l.beta x.shape) fun rb =>
    orFail (normalise x rm rv l.epsilon) fun ni =>
    orFail (scaleShift ni rg rb) k

/-- Accesses of the virtual `forward` (Layer.hpp:14) of the layer at `at_`; `l` gives its class and the members
no `forward` assigns. -/
def Layer.forwardProg (E : Engine ρ T) (at_ : Member → PLoc) (l : Layer T) (x : Tensor T)
    (k : Tensor T → Prog PLoc (PCell ρ T)) : Prog PLoc (PCell ρ T) :=
  match l.kind with
  | .fc f => f.forwardProg at_ x k
  | .conv f => f.forwardProg at_ x k
  | .flatten _ => Flatten.forwardProg at_ x k
  | .maxPool f => f.forwardProg at_ x k
  | .batchNorm f => f.forwardProg at_ l.trainingMode x k
  | .dropout f => f.forwardProg E at_ l.trainingMode x k
  | .activation f => f.forwardProg at_ x k

/-- The loop of `predict` (SmartDNN.impl.hpp:54-56) in model number `m` from layer number `p` on. -/
def layersProg (E : Engine ρ T) (m : Nat) : Nat → List (Layer T) → Tensor T → (Tensor T → Prog PLoc (PCell ρ T)) →
    Prog PLoc (PCell ρ T)
  | _, [], x, k => k x
  | p, l :: ls, x, k => l.forwardProg E (.member m p) x fun y => layersProg E m (p + 1) ls y k

/-- A thread that calls `predict` (SmartDNN.impl.hpp:51-58) of model number `m` on each of `xs` and keeps the
results, from call number `j` on. -/
def predictionsProg (E : Engine ρ T) (m : Nat) (ls : List (Layer T)) : Nat → List (Tensor T) → Prog PLoc (PCell ρ T)
  | _, [] => .done
  | j, x :: xs => layersProg E m 0 ls x fun y => .write (.out m j) (.tensor (some y)) (predictionsProg E m ls (j + 1) xs)

omit [Zero T] [One T] [Add T] [Sub T] [Mul T] [Div T] [Neg T] [NatCast T] [IntCast T] [LT T] [DecidableLT T] [LE T]
  [DecidableLE T] [DecidableEq T] [MathFn T] in
/-- Memory that holds the models (layer `p` of model `m` is `layers m p`), the engine and the results so far. -/
def modelsMem (layers : Nat → Nat → Option (Layer T)) (r : ρ) (outs : Nat → List (Option (Tensor T))) :
    Mem PLoc (PCell ρ T)
  | .member m p f => (layers m p).bind fun l => l.member f
  | .engine => some (.state r)
  | .out m j => (outs m)[j]?.map PCell.tensor

end
end SmartDNN
