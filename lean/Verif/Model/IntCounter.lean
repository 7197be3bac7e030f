import Verif.Model.Network

/-!
# The `int` counter of Adam

`AdamOptimizer::iterations` is an `int` (Optimizers/AdamOptimizer.hpp:61) and every call of `optimize` starts with `iterations++`
(AdamOptimizer.hpp:67): the call that finds it at 2147483647 is undefined behaviour.  `Model/Optimizers.lean` counts without a bound;
here are `updateWeights` and `train` with the bound.  Everything but the check is as in `Model/Network.lean`.
-/

namespace SmartDNN

section
variable {K T : Type}

/-- `iterations++` overflows (AdamOptimizer.hpp:61, 67; `int` has 32 bits). -/
def Optimizer.counterFull : Optimizer K T → Bool
  | .adam o => decide (2 ^ 31 ≤ o.iterations + 1)
  | _ => false

/-- Does `updateWeights` of the layer reach the call of `optimize` (FullyConnectedLayer.hpp:90-97, Conv2DLayer.hpp:137-144,
BatchNormalizationLayer.hpp:98-105)?  The gradients have to be there; activation, flatten, pooling and dropout layers have nothing to
update. -/
def Layer.callsOptimizer (l : Layer T) : Bool :=
  match l.kind with
  | .fc l => l.weightGradients.isSome && l.biasGradients.isSome
  | .conv l => l.weightGradients.isSome && l.biasGradients.isSome
  | .batchNorm l => l.gammaGrad.isSome && l.betaGrad.isSome
  | _ => false

end

section
variable {ρ K T : Type} [DecidableEq K] [Zero T] [One T] [Add T] [Sub T] [Mul T] [Div T] [Neg T] [NatCast T] [IntCast T]
  [LT T] [DecidableLT T] [LE T] [DecidableLE T] [DecidableEq T] [MathFn T]

/-- Virtual `updateWeights` (Layer.hpp:17) with the counter of Adam an `int`. -/
def Layer.updateWeightsInt (k0 k1 : K) : Mut (Layer T × Optimizer K T) Unit := fun s =>
  if s.1.callsOptimizer && s.2.counterFull then (.error .ub, s) else Layer.updateWeights k0 k1 s

namespace Net

/-- The loop of `updateWeights` (SmartDNN.impl.hpp:19-21) from layer number `i` on. -/
def updateLayersInt : Nat → List (Layer T) → Optimizer (Nat × Bool) T → Res Unit × List (Layer T) × Optimizer (Nat × Bool) T
  | _, [], opt => (.ok (), [], opt)
  | i, l :: ls, opt =>
    match Layer.updateWeightsInt (i, false) (i, true) (l, opt) with
    | (.error e, l', opt') => (.error e, l' :: ls, opt')
    | (.ok (), l', opt') =>
      match updateLayersInt (i + 1) ls opt' with
      | (res, ls', opt'') => (res, l' :: ls', opt'')

/-- `updateWeights` (SmartDNN.impl.hpp:17-22). -/
def updateWeightsInt : Mut (Net ρ T) Unit := fun net =>
  match net.layers, net.optimizer with
  | [], _ => (.ok (), net)
  | _ :: _, none => (.error .ub, net)
  | ls@(_ :: _), some opt =>
    match updateLayersInt 0 ls opt with
    | (res, ls', opt') => (res, { net with layers := ls', optimizer := some opt' })

/-- One sample of `train` (SmartDNN.impl.hpp:36-45). -/
def trainSampleInt (E : Engine ρ T) (input : Tensor T) (targets : List (Tensor T)) (i : Nat) :
    Mut (Session ρ T) Unit := do
  let prediction ← Session.onNet (predict E input)
  let s ← Mut.get
  let loss ← Mut.lift (derefOpt s.net.loss)
  let target ← Mut.lift (rd targets i)
  let value ← Mut.lift (loss.compute prediction target)
  let total ← Mut.lift (s.total.addAssign (some value))
  Mut.modify (fun s => { s with total := total })
  let gradOutput ← Mut.lift (loss.gradient prediction target)
  let _ ← Session.onNet (backward gradOutput)
  Session.onNet updateWeightsInt

/-- The sample loop (SmartDNN.impl.hpp:35-46) over the inputs from number `i` on. -/
def trainSamplesInt (E : Engine ρ T) (targets : List (Tensor T)) : Nat → List (Tensor T) → Mut (Session ρ T) Unit
  | _, [] => pure ()
  | i, x :: xs => do
    trainSampleInt E x targets i
    trainSamplesInt E targets (i + 1) xs

/-- One epoch (SmartDNN.impl.hpp:32-47). -/
def trainEpochInt (E : Engine ρ T) (inputs targets : List (Tensor T)) : Mut (Session ρ T) Unit := do
  let shape ← Mut.lift (Shape.make [1])
  Mut.modify (fun s => { s with total := Tensor.full shape 0 })
  trainSamplesInt E targets 0 inputs
  let s ← Mut.get
  let report ← Mut.lift (s.total.divScalar (inputs.length : T))
  Mut.modify (fun s => { s with printed := s.printed ++ [report] })

/-- `train` (SmartDNN.impl.hpp:29-49). -/
def trainInt (E : Engine ρ T) (inputs targets : List (Tensor T)) (epochs : Int) : Mut (Session ρ T) Unit :=
  Mut.forN epochs.toNat (fun _ => trainEpochInt E inputs targets)

end Net
end
end SmartDNN
