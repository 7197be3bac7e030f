import Verif.Model.Scalar

/-!
# Loss functions (smart_dnn/Loss/*.hpp)
-/

namespace SmartDNN

variable {T : Type} [Zero T] [One T] [Add T] [Sub T] [Mul T] [Div T] [Neg T] [NatCast T] [IntCast T]
  [LT T] [DecidableLT T] [DecidableEq T] [MathFn T]

/-- The concrete `Loss<T>` classes.  `epsilon` of the cross entropy is `T(1e-7)`
(CategoricalCrossEntropyLoss.hpp:15); the model keeps it as a parameter. -/
inductive Loss (T : Type) where
  | mse
  | crossEntropy (epsilon : T)

namespace Loss

/-- The `reshapedTarget` prologue of `MSELoss::compute` and `gradient` (MSELoss.hpp:18-26, 34-42). -/
def mseTarget (prediction target : Tensor T) : Res (Tensor T) := do
  if !(prediction.shape.beq target.shape) then
    if target.shape.rank = 1 then
      let t0 ← target.shape.get 0
      let p0 ← prediction.shape.get 0
      if t0 = p0 then target.reshaped prediction.shape.dims else throw .invalidArgument
    else throw .invalidArgument
  else return target

/-- `std::min(std::max(p, epsilon), T(1.0) - epsilon)` (CategoricalCrossEntropyLoss.hpp:36, 64). -/
def clamp (eps p : T) : T := cmin (cmax p eps) (1 - eps)

/-- `compute` (MSELoss.hpp:17-31, CategoricalCrossEntropyLoss.hpp:25-42). -/
def compute : Loss T → Tensor T → Tensor T → Res (Tensor T)
  | mse, p, t => do
    let t ← mseTarget p t
    let diff ← p.sub t
    let sq ← diff.mul diff
    let s ← sq.sumAll
    s.divScalar (diff.shape.size : T)
  | crossEntropy eps, p, t => do
    if !(p.shape.beq t.shape) then throw .invalidArgument
    let batchSize ← p.shape.get 0
    let numClasses ← p.shape.get 1
    let loss ← forI batchSize (0 : T) (fun i loss =>
      forI numClasses loss (fun j loss => do
        let x ← p.at_ [i, j]
        let y ← t.at_ [i, j]
        return loss - y * MathFn.log (clamp eps x)))
    let sh ← Shape.make [1]
    return Tensor.full sh (loss / (batchSize : T))

/-- `gradient` (MSELoss.hpp:33-46, CategoricalCrossEntropyLoss.hpp:51-70). -/
def gradient : Loss T → Tensor T → Tensor T → Res (Tensor T)
  | mse, p, t => do
    let t' ← mseTarget p t
    let diff ← p.sub t'
    let d2 ← diff.mulScalar ((2 : Nat) : T)
    d2.divScalar (p.shape.size : T)
  | crossEntropy eps, p, t => do
    if !(p.shape.beq t.shape) then throw .invalidArgument
    let batchSize ← p.shape.get 0
    let numClasses ← p.shape.get 1
    let grad ← forI batchSize (Tensor.zeros p.shape) (fun i grad =>
      forI numClasses grad (fun j grad => do
        let x ← p.at_ [i, j]
        let y ← t.at_ [i, j]
        grad.setAt [i, j] (clamp eps x - y)))
    grad.divScalar (batchSize : T)

end Loss
end SmartDNN
