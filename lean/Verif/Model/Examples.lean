import Verif.Model.Network
import Verif.Model.Datasets

/-!
# The two example programs (examples/)

The numeric constants of the programs that are not exactly representable (learning rate, epsilons, dropout rate) are
parameters, so the theorems hold for any of them.  Printing of the final prediction is left out.
-/

namespace SmartDNN

section
variable {ρ T γ : Type} [Zero T] [One T] [Add T] [Sub T] [Mul T] [Div T] [Neg T] [NatCast T] [IntCast T]
  [LT T] [DecidableLT T] [LE T] [DecidableLE T] [DecidableEq T] [MathFn T]

/-- `train` as called from outside: the losses it prints, with an arbitrary value for the local `totalLoss` that
each epoch overwrites first (SmartDNN.impl.hpp:33). -/
def Net.runTrain (E : Engine ρ T) (inputs targets : List (Tensor T)) (epochs : Int) (total : Tensor T) (net : Net ρ T) :
    Res Unit × Net ρ T × List (Tensor T) :=
  match Net.train E inputs targets epochs ⟨net, total, []⟩ with
  | (res, s) => (res, s.net, s.printed)

/-- The model of examples/SimpleLinearRegressionModel.cpp:22-30, with the given random engine. -/
def linearRegressionModel (E : Engine ρ T) (o : AdamOptions T) (r : ρ) : Res (Net ρ T) := do
  let (l1, r) ← FC.new E 1 10 r
  let (l2, r) ← FC.new E 10 1 r
  return (((Net.new r).addLayer ⟨.fc l1, true⟩).addLayer ⟨.activation { activation := .relu }, true⟩).addLayer ⟨.fc l2, true⟩
    |>.compile .mse (.newAdam o)

/-- The training call of `main` (examples/SimpleLinearRegressionModel.cpp:33, examples/MNistModel.cpp:63) on a model and data that may have failed to be
built. -/
def trainLoaded (E : Engine ρ T) (epochs : Int) (total : Tensor T) :
    Res (Net ρ T) → Res (List (Tensor T) × List (Tensor T)) → Res (Net ρ T) × List (Tensor T)
  | .error e, _ => (.error e, [])
  | .ok _, .error e => (.error e, [])
  | .ok net, .ok (inputs, targets) =>
    match Net.runTrain E inputs targets epochs total net with
    | (.error e, _, printed) => (.error e, printed)
    | (.ok (), net, printed) => (.ok net, printed)

/-- `main` of examples/SimpleLinearRegressionModel.cpp:11-45: the prediction for the input `ten`, and the losses
printed by `train`.  `total` is the value `totalLoss` has before each epoch overwrites it. -/
def linearRegressionMain (E : Engine ρ T) (S : Source γ T) (o : AdamOptions T) (ten : T) (total : Tensor T) (g : γ) (r : ρ) :
    Res (Tensor T) × List (Tensor T) :=
  match trainLoaded E 100 total (linearRegressionModel E o r) (generateLinearDataset S 100 g) with
  | (.error e, printed) => (.error e, printed)
  | (.ok net, printed) =>
    (do
      let shape ← Shape.make [1]
      (Net.predict E (Tensor.full shape ten) (net.setTrainingMode false)).1, printed)

/-- The numeric constants of examples/MNistModel.cpp. -/
structure MNistConstants (T : Type) where
  bnEpsilon : T
  bnMomentum : T
  bnRecipEps : T
  negInf : T
  rate : T
  lossEpsilon : T
  adam : AdamOptions T

/-- The model of examples/MNistModel.cpp:27-52. -/
def mnistModel (E : Engine ρ T) (c : MNistConstants T) (r : ρ) : Res (Net ρ T) := do
  let (l1, r) ← Conv.new E 1 32 3 3 1 0 1 r
  let l2 ← BatchNorm.new 32 c.bnEpsilon c.bnMomentum c.bnRecipEps
  let (l7, r) ← FC.new E 5408 128 r
  let l8 ← BatchNorm.new 128 c.bnEpsilon c.bnMomentum c.bnRecipEps
  let (l11, r) ← FC.new E 128 10 r
  let kinds : List (LayerKind T) := [.conv l1, .batchNorm l2, .activation { activation := .relu },
    .maxPool (MaxPool.new c.negInf 2 2 0), .dropout { dropoutRate := c.rate }, .flatten {}, .fc l7, .batchNorm l8,
    .activation { activation := .relu }, .dropout { dropoutRate := c.rate }, .fc l11, .activation { activation := .softmax }]
  let net := kinds.foldl (fun net k => net.addLayer ⟨k, true⟩) (Net.new r)
  return net.compile (.crossEntropy c.lossEpsilon) (.newAdam c.adam)

/-- `main` of examples/MNistModel.cpp:16-63 up to the end of the training call, given the contents of the two data
files; `total` is the value `totalLoss` has before each epoch overwrites it.  The rest of `main` (evaluation on the
last batches) is not modelled: it is not reached, see `C74_mnist_refuted`. -/
def mnistMain (E : Engine ρ T) (c : MNistConstants T) (images labels : Option (List Byte)) (total : Tensor T) (r : ρ) :
    Res (Net ρ T) × List (Tensor T) :=
  trainLoaded E 10 total (mnistModel E c r) ((MNISTLoader.mk images labels 8 1000).loadData (T := T))

end
end SmartDNN
