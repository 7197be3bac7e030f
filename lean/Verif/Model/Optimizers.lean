import Verif.Model.Scalar

/-!
# Optimizers (smart_dnn/Optimizers/*.hpp)

Weights are tensor objects in memory, identified by a key of type `K`: the address of the tensor
object (Adam) or of its buffer (SGD, RMSProp).  The optimizers keep `std::unordered_map`s from these
addresses to tensors; a map is modelled as a function `K → Option (Tensor T)`.

Simplifications: the gradients of a call are passed by value (the library never passes a weight tensor
as its own gradient); tensors stay at their address while they are alive (weights are only updated in
place); `iterations` is a natural number (overflow of the `int` after 2^31 calls: Model/IntCounter.lean).
-/

namespace SmartDNN

/-- An `std::unordered_map` from addresses to tensors. -/
abbrev TMap (K T : Type) := K → Option (Tensor T)

/-- Point update of a function on addresses. -/
def assign {K V : Type} [DecidableEq K] (m : K → V) (k : K) (v : V) : K → V :=
  fun j => if j = k then v else m j

/-- The entry for `k`, created as a zero tensor of the weight's shape if missing: the
`find … == end()` / insert / lookup sequences (SGDOptimizer.hpp:57-61, RMSPropOptimizer.hpp:57-60,
67-70, 78-81, AdamOptimizer.hpp:95-100 with 86-87). -/
def lookupOrZero {K T : Type} [Zero T] (m : TMap K T) (k : K) (s : Shape) : Tensor T :=
  match m k with
  | some t => t
  | none => Tensor.full s 0

/-- One call of `optimize`: the weights (by address), the gradients, the learning rate override
(default `T(-1)`). -/
structure Call (K T : Type) where
  weights : List K
  gradients : List (Tensor T)
  lr : T

section
variable {K T : Type} [DecidableEq K] [Zero T] [One T] [Add T] [Sub T] [Mul T] [Div T] [Neg T] [NatCast T]
  [IntCast T] [LT T] [DecidableLT T] [LE T] [DecidableLE T] [DecidableEq T] [MathFn T]

/-! ### SGD -/

/-- `SGDOptions` (SGDOptimizer.hpp:13-19). -/
structure SGDOptions (T : Type) where
  learningRate : T
  momentum : T
  dampening : T
  weightDecay : T
  nesterov : Bool

/-- Members of `SGDOptimizer` (SGDOptimizer.hpp:91-98). -/
structure SGD (K T : Type) where
  opts : SGDOptions T
  momentumBuffers : TMap K T

/-- The element loop of `updateTensor` (SGDOptimizer.hpp:65-88) on the weight and its momentum
buffer. -/
def SGD.loop (o : SGDOptions T) (weight buffer gradient : Tensor T) (currentLR : T) :
    Res (Tensor T × Tensor T) :=
  forN weight.shape.size (weight, buffer) (fun j st => do
    let grad ← rd gradient.data j
    let w ← rd st.1.data j
    let grad := if o.weightDecay ≠ 0 then grad + o.weightDecay * w else grad
    if o.momentum ≠ 0 then
      let v ← st.2.get j
      let v' := o.momentum * v + (1 - o.dampening) * grad
      let buffer ← st.2.set j v'
      let grad := if o.nesterov then grad + o.momentum * v' else v'
      let weight ← st.1.set j (w - currentLR * grad)
      return (weight, buffer)
    else
      let weight ← st.1.set j (w - currentLR * grad)
      return (weight, st.2))

/-- `updateTensor` (SGDOptimizer.hpp:46-89). -/
def SGD.updateTensor (o : SGD K T) (mem : K → Tensor T) (k : K) (gradient : Tensor T) (currentLR : T) :
    Res (SGD K T × (K → Tensor T)) := do
  let buffer := lookupOrZero o.momentumBuffers k (mem k).shape
  let r ← SGD.loop o.opts (mem k) buffer gradient currentLR
  return ({ o with momentumBuffers := assign o.momentumBuffers k (some r.2) }, assign mem k r.1)

/-! ### RMSProp -/

/-- `RMSPropOptions` (RMSPropOptimizer.hpp:13-20). -/
structure RMSPropOptions (T : Type) where
  learningRate : T
  alpha : T
  epsilon : T
  momentum : T
  centered : Bool
  weightDecay : T

/-- Members of `RMSPropOptimizer` (RMSPropOptimizer.hpp:123-133). -/
structure RMSProp (K T : Type) where
  opts : RMSPropOptions T
  squaredGrads : TMap K T
  meanGrads : TMap K T
  velocityBuffers : TMap K T

/-- The tensors touched by one `updateTensor`: weight, squared averages, mean averages, velocity. -/
structure RMSState (T : Type) where
  weight : Tensor T
  sq : Tensor T
  mean : Tensor T
  vel : Tensor T

/-- The element loop of `updateTensor` (RMSPropOptimizer.hpp:85-120). -/
def RMSProp.loop (o : RMSPropOptions T) (s : RMSState T) (gradient : Tensor T) (currentLR : T) :
    Res (RMSState T) :=
  forN s.weight.shape.size s (fun j s => do
    let grad ← rd gradient.data j
    let w ← rd s.weight.data j
    let grad := if o.weightDecay ≠ 0 then grad + o.weightDecay * w else grad
    let q ← s.sq.get j
    let q' := o.alpha * q + (1 - o.alpha) * grad * grad
    let sq ← s.sq.set j q'
    let s := { s with sq := sq }
    let (s, denom) ← (if o.centered then do
        let m ← s.mean.get j
        let m' := o.alpha * m + (1 - o.alpha) * grad
        let mean ← s.mean.set j m'
        return ({ s with mean := mean }, MathFn.sqrt (q' - m' * m' + o.epsilon))
      else return (s, MathFn.sqrt (q' + o.epsilon)) : Res (RMSState T × T))
    let update := grad / denom
    if 0 < o.momentum then
      let v ← s.vel.get j
      let v' := o.momentum * v + update
      let vel ← s.vel.set j v'
      let weight ← s.weight.set j (w - currentLR * v')
      return { s with vel := vel, weight := weight }
    else
      let weight ← s.weight.set j (w - currentLR * update)
      return { s with weight := weight })

/-- `updateTensor` (RMSPropOptimizer.hpp:48-121); the mean and velocity maps only get an entry when
`centered` / `momentum > 0`. -/
def RMSProp.updateTensor (o : RMSProp K T) (mem : K → Tensor T) (k : K) (gradient : Tensor T) (currentLR : T) :
    Res (RMSProp K T × (K → Tensor T)) := do
  let s : RMSState T := {
    weight := mem k
    sq := lookupOrZero o.squaredGrads k (mem k).shape
    mean := lookupOrZero o.meanGrads k (mem k).shape
    vel := lookupOrZero o.velocityBuffers k (mem k).shape }
  let r ← RMSProp.loop o.opts s gradient currentLR
  return ({ o with
      squaredGrads := assign o.squaredGrads k (some r.sq)
      meanGrads := if o.opts.centered then assign o.meanGrads k (some r.mean) else o.meanGrads
      velocityBuffers := if 0 < o.opts.momentum then assign o.velocityBuffers k (some r.vel)
        else o.velocityBuffers },
    assign mem k r.weight)

/-! ### Adam -/

/-- `AdamOptions` (AdamOptimizer.hpp:12-21).  `tiny` stands for `std::numeric_limits<T>::min()`
(AdamOptimizer.hpp:79-80). -/
structure AdamOptions (T : Type) where
  learningRate : T
  beta1 : T
  beta2 : T
  epsilon : T
  l1Strength : T
  l2Strength : T
  decay : T
  batchSize : Int
  tiny : T

/-- Members of `AdamOptimizer` (AdamOptimizer.hpp:53-64). -/
structure Adam (K T : Type) where
  opts : AdamOptions T
  learningRate : T
  iterations : Nat
  m : TMap K T
  v : TMap K T

/-- `updateLearningRate` (AdamOptimizer.hpp:66-73). -/
def Adam.updateLearningRate (o : Adam K T) (override : T) : Adam K T :=
  let it := o.iterations + 1
  { o with
    iterations := it
    learningRate :=
      if override ≤ 0 then
        o.opts.learningRate * (if 0 < o.opts.decay then 1 / (1 + o.opts.decay * (it : T)) else 1)
      else override }

/-- `updateParameter` (AdamOptimizer.hpp:102-128) on the values weight, gradient, m, v. -/
def Adam.updateParameter (o : AdamOptions T) (learningRate : T) (iterations : Nat)
    (weight gradient mValue vValue alphaT : T) : T × T × T :=
  let averagedGradient := gradient / (o.batchSize : T)
  let mValue := o.beta1 * mValue + (1 - o.beta1) * averagedGradient
  let vValue := o.beta2 * vValue + (1 - o.beta2) * averagedGradient * averagedGradient
  let mHat := mValue / (1 - MathFn.powi o.beta1 iterations)
  let vHat := vValue / (1 - MathFn.powi o.beta2 iterations)
  let update := alphaT * mHat / (MathFn.sqrt vHat + o.epsilon)
  let update := if 0 < o.l1Strength then
      update + learningRate * o.l1Strength * (if 0 < weight then 1 else if weight < 0 then -1 else 0)
    else update
  let update := if 0 < o.l2Strength then update + learningRate * o.l2Strength * weight else update
  (weight - update, mValue, vValue)

/-- `alphaT` (AdamOptimizer.hpp:79-81). -/
def Adam.alphaT (o : AdamOptions T) (learningRate : T) (iterations : Nat) : T :=
  let beta1Power := cmax (MathFn.powi o.beta1 iterations) o.tiny
  let beta2Power := cmax (MathFn.powi o.beta2 iterations) o.tiny
  learningRate * MathFn.sqrt (1 - beta2Power) / (1 - beta1Power)

/-- The element loop of `updateTensor` (AdamOptimizer.hpp:83-92), iterations in increasing order (any
order and interleaving: `Model/Parallel.lean`). -/
def Adam.loop (o : AdamOptions T) (learningRate : T) (iterations : Nat)
    (s : Tensor T × Tensor T × Tensor T) (gradient : Tensor T) : Res (Tensor T × Tensor T × Tensor T) :=
  forN s.1.shape.size s (fun j s => do
    let w ← rd s.1.data j
    let g ← rd gradient.data j
    let m ← s.2.1.get j
    let v ← s.2.2.get j
    let r := Adam.updateParameter o learningRate iterations w g m v (Adam.alphaT o learningRate iterations)
    let mT ← s.2.1.set j r.2.1
    let vT ← s.2.2.set j r.2.2
    let wT ← s.1.set j r.1
    return (wT, mT, vT))

/-- `updateTensor` (AdamOptimizer.hpp:75-93).  `m` and `v` get their entries together
(AdamOptimizer.hpp:95-100). -/
def Adam.updateTensor (o : Adam K T) (mem : K → Tensor T) (k : K) (gradient : Tensor T) :
    Res (Adam K T × (K → Tensor T)) := do
  let r ← Adam.loop o.opts o.learningRate o.iterations
    (mem k, lookupOrZero o.m k (mem k).shape, lookupOrZero o.v k (mem k).shape) gradient
  return ({ o with m := assign o.m k (some r.2.1), v := assign o.v k (some r.2.2) }, assign mem k r.1)

/-! ### The `Optimizer` interface -/

/-- A concrete `Optimizer<T>` object. -/
inductive Optimizer (K T : Type) where
  | sgd (o : SGD K T)
  | rmsprop (o : RMSProp K T)
  | adam (o : Adam K T)

/-- Memory as seen by the optimizer: the weight tensors and the optimizer object. -/
structure World (K T : Type) where
  mem : K → Tensor T
  opt : Optimizer K T

/-- Freshly constructed optimizers (SGDOptimizer.hpp:24-29, RMSPropOptimizer.hpp:25-31,
AdamOptimizer.hpp:26-36). -/
def Optimizer.newSGD (o : SGDOptions T) : Optimizer K T := .sgd ⟨o, fun _ => none⟩
/-- See `newSGD`. -/
def Optimizer.newRMSProp (o : RMSPropOptions T) : Optimizer K T :=
  .rmsprop ⟨o, fun _ => none, fun _ => none, fun _ => none⟩
/-- See `newSGD`. -/
def Optimizer.newAdam (o : AdamOptions T) : Optimizer K T :=
  .adam ⟨o, o.learningRate, 0, fun _ => none, fun _ => none⟩

/-- The rate used by a call of SGD or RMSProp (SGDOptimizer.hpp:38, RMSPropOptimizer.hpp:40). -/
def currentLR (configured override : T) : T := if 0 < override then override else configured

/-- The loop over the tensors of one call (SGDOptimizer.hpp:40-42, RMSPropOptimizer.hpp:42-44,
AdamOptimizer.hpp:47-49), after the learning rate has been settled. -/
def World.updateTensors (w : World K T) (override : T) (ps : List (K × Tensor T)) : Res (World K T) :=
  ps.foldlM (fun w p =>
    match w.opt with
    | .sgd o => do
      let r ← o.updateTensor w.mem p.1 p.2 (currentLR o.opts.learningRate override)
      return ⟨r.2, .sgd r.1⟩
    | .rmsprop o => do
      let r ← o.updateTensor w.mem p.1 p.2 (currentLR o.opts.learningRate override)
      return ⟨r.2, .rmsprop r.1⟩
    | .adam o => do
      let r ← o.updateTensor w.mem p.1 p.2
      return ⟨r.2, .adam r.1⟩) w

/-- Start of a call: Adam advances its counter and sets the rate (AdamOptimizer.hpp:45). -/
def World.begin (w : World K T) (override : T) : World K T :=
  match w.opt with
  | .adam o => { w with opt := .adam (o.updateLearningRate override) }
  | _ => w

/-- `optimize(weights, gradients, learningRateOverride)` (SGDOptimizer.hpp:31-43,
RMSPropOptimizer.hpp:33-45, AdamOptimizer.hpp:38-50).  The only exception is thrown by the count check
before anything is changed; a later failure is undefined behaviour. -/
def World.optimizeM (c : Call K T) : Mut (World K T) Unit := fun w =>
  if c.weights.length ≠ c.gradients.length then (.error .invalidArgument, w)
  else
    match (w.begin c.lr).updateTensors c.lr (c.weights.zip c.gradients) with
    | .ok w' => (.ok (), w')
    | .error e => (.error e, w)

/-- A sequence of calls. -/
def World.run (w : World K T) (cs : List (Call K T)) : Res (World K T) :=
  cs.foldlM (fun w c => (World.optimizeM c).exec w) w

end
end SmartDNN
