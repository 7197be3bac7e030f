import Verif.Model.Layers
import Verif.Model.Losses

/-!
# The model class (smart_dnn/SmartDNN.hpp, smart_dnn/SmartDNN/SmartDNN.impl.hpp)

`saveModel` and `loadModel` are declared but not defined in the code; there is nothing to model.
-/

namespace SmartDNN

/-- Members of `SmartDNN` (SmartDNN.hpp:47-49) and the state of the random engine shared by all layers.  The
parameter tensors of layer number `i` live at the addresses `(i, false)` and `(i, true)`: layers are heap
objects owned by `unique_ptr`s, so their tensors keep their addresses. -/
structure Net (ρ T : Type) where
  layers : List (Layer T)
  loss : Option (Loss T) := none
  optimizer : Option (Optimizer (Nat × Bool) T) := none
  rng : ρ

namespace Net
variable {ρ T : Type}

/-- Default constructor (SmartDNN.hpp:15). -/
def new (r : ρ) : Net ρ T := { layers := [], rng := r }

/-- `addLayer` (SmartDNN.hpp:18-21): appends a copy or moved value of the layer. -/
def addLayer (l : Layer T) (net : Net ρ T) : Net ρ T := { net with layers := net.layers ++ [l] }

/-- `compile` (SmartDNN.hpp:23-27). -/
def compile (loss : Loss T) (opt : Optimizer (Nat × Bool) T) (net : Net ρ T) : Net ρ T :=
  { net with loss := some loss, optimizer := some opt }

variable [Zero T] [One T] [Add T] [Sub T] [Mul T] [Div T] [Neg T] [NatCast T] [IntCast T]
  [LT T] [DecidableLT T] [LE T] [DecidableLE T] [DecidableEq T] [MathFn T]

/-- The loop `for (layer : layers) prediction = layer->forward(prediction)` (SmartDNN.impl.hpp:37-39,
54-56), started at the given layers.  The result holds the new layer states, also after an exception. -/
def forwardLayers (E : Engine ρ T) : List (Layer T) → Tensor T → ρ → Res (Tensor T) × List (Layer T) × ρ
  | [], x, r => (.ok x, [], r)
  | l :: ls, x, r =>
    match Layer.forward E x (l, r) with
    | (.error e, l', r') => (.error e, l' :: ls, r')
    | (.ok y, l', r') =>
      match forwardLayers E ls y r' with
      | (res, ls', r'') => (res, l' :: ls', r'')

/-- `predict(input)` (SmartDNN.impl.hpp:51-58); also the forward part of `train` (36-39). -/
def predict (E : Engine ρ T) (input : Tensor T) : Mut (Net ρ T) (Tensor T) := fun net =>
  match forwardLayers E net.layers input net.rng with
  | (res, ls', r') => (res, { net with layers := ls', rng := r' })

/-- `predict(inputs)` (SmartDNN.impl.hpp:60-68). -/
def predictAll (E : Engine ρ T) : List (Tensor T) → Mut (Net ρ T) (List (Tensor T))
  | [] => pure []
  | x :: xs => do
    let y ← predict E x
    let ys ← predictAll E xs
    return y :: ys

/-- The reverse loop of `backward` (SmartDNN.impl.hpp:11-14). -/
def backwardLayers : List (Layer T) → Tensor T → Res (Tensor T) × List (Layer T)
  | [], g => (.ok g, [])
  | l :: ls, g =>
    match backwardLayers ls g with
    | (.error e, ls') => (.error e, l :: ls')
    | (.ok g', ls') =>
      match Layer.backward g' l with
      | (res, l') => (res, l' :: ls')

/-- `backward` (SmartDNN.impl.hpp:9-15); the last `grad` is dropped by the code, the model returns it. -/
def backward (gradOutput : Tensor T) : Mut (Net ρ T) (Tensor T) := fun net =>
  match backwardLayers net.layers gradOutput with
  | (res, ls') => (res, { net with layers := ls' })

/-- The loop of `updateWeights` (SmartDNN.impl.hpp:19-21) from layer number `i` on. -/
def updateLayers : Nat → List (Layer T) → Optimizer (Nat × Bool) T →
    Res Unit × List (Layer T) × Optimizer (Nat × Bool) T
  | _, [], opt => (.ok (), [], opt)
  | i, l :: ls, opt =>
    match Layer.updateWeights (i, false) (i, true) (l, opt) with
    | (.error e, l', opt') => (.error e, l' :: ls, opt')
    | (.ok (), l', opt') =>
      match updateLayers (i + 1) ls opt' with
      | (res, ls', opt'') => (res, l' :: ls', opt'')

/-- `updateWeights` (SmartDNN.impl.hpp:17-22); `*optimizer` is undefined behaviour before `compile`, if there
is a layer. -/
def updateWeights : Mut (Net ρ T) Unit := fun net =>
  match net.layers, net.optimizer with
  | [], _ => (.ok (), net)
  | _ :: _, none => (.error .ub, net)
  | ls@(_ :: _), some opt =>
    match updateLayers 0 ls opt with
    | (res, ls', opt') => (res, { net with layers := ls', optimizer := some opt' })

/-- `getLayer` (SmartDNN.impl.hpp:24-27): unchecked. -/
def getLayer (net : Net ρ T) (i : Nat) : Res (Layer T) := rd net.layers i

/-- `setTrainingMode`, with `trainingMode` and `evalMode` (SmartDNN.impl.hpp:70-85). -/
def setTrainingMode (mode : Bool) (net : Net ρ T) : Net ρ T :=
  { net with layers := net.layers.map (Layer.setTrainingMode mode) }

/-- What `train` works on: the model, the local `totalLoss`, and the losses printed so far (one per finished
epoch). -/
structure Session (ρ T : Type) where
  net : Net ρ T
  total : Tensor T
  printed : List (Tensor T)

/-- Run a member function of the model. -/
def Session.onNet {α : Type} (m : Mut (Net ρ T) α) : Mut (Session ρ T) α := fun s =>
  match m s.net with
  | (res, net') => (res, { s with net := net' })

/-- One sample of `train` (SmartDNN.impl.hpp:36-45).  `lossFunction->` is undefined behaviour before
`compile`, `targets[i]` beyond the end of the list. -/
def trainSample (E : Engine ρ T) (input : Tensor T) (targets : List (Tensor T)) (i : Nat) :
    Mut (Session ρ T) Unit := do
  let prediction ← Session.onNet (predict E input)
  let s ← Mut.get
  let loss ← Mut.lift (derefOpt s.net.loss)
  let target ← Mut.lift (rd targets i)
  let value ← Mut.lift (loss.compute prediction target)
  let total ← Mut.lift (s.total.addAssign (some value))
  Mut.modify (fun s => { s with total := total })
  let gradOutput ← Mut.lift (loss.gradient prediction target)
  let _ ← Session.onNet (backward gradOutput)
  Session.onNet updateWeights

/-- The sample loop (SmartDNN.impl.hpp:35-46) over the inputs from number `i` on. -/
def trainSamples (E : Engine ρ T) (targets : List (Tensor T)) : Nat → List (Tensor T) → Mut (Session ρ T) Unit
  | _, [] => pure ()
  | i, x :: xs => do
    trainSample E x targets i
    trainSamples E targets (i + 1) xs

/-- One epoch (SmartDNN.impl.hpp:32-47). -/
def trainEpoch (E : Engine ρ T) (inputs targets : List (Tensor T)) : Mut (Session ρ T) Unit := do
  let shape ← Mut.lift (Shape.make [1])
  Mut.modify (fun s => { s with total := Tensor.full shape 0 })
  trainSamples E targets 0 inputs
  let s ← Mut.get
  let report ← Mut.lift (s.total.divScalar (inputs.length : T))
  Mut.modify (fun s => { s with printed := s.printed ++ [report] })

/-- `train` (SmartDNN.impl.hpp:29-49). -/
def train (E : Engine ρ T) (inputs targets : List (Tensor T)) (epochs : Int) : Mut (Session ρ T) Unit :=
  Mut.forN epochs.toNat (fun _ => trainEpoch E inputs targets)

end Net
end SmartDNN
