import Verif.Model.Scalar

/-!
# Activation functions (smart_dnn/Activations/*.hpp)
-/

namespace SmartDNN

variable {T : Type} [Zero T] [One T] [Add T] [Sub T] [Mul T] [Div T] [Neg T] [NatCast T]
  [LT T] [DecidableLT T] [LE T] [DecidableLE T] [MathFn T]

/-- The concrete `Activation<T>` classes with their members. -/
inductive Act (T : Type) where
  | relu
  | leakyRelu (alpha : T)
  | sigmoid
  | tanh
  | swish
  | mish
  | softmax

namespace Act

/-- `1 / (1 + exp(-x))`: Sigmoid (Sigmoid.hpp:23, with its `float` parameter), and the local
`sigmoid_x` of Swish (Swish.hpp:25, 32) and Mish (Mish.hpp:36). -/
def sig (x : T) : T := 1 / (1 + MathFn.exp (-x))

/-- `log(1 + exp(x))` (Mish.hpp:27, 34). -/
def softplus (x : T) : T := MathFn.log (1 + MathFn.exp x)

/-- Integer quotient `input.getShape().size() / batchSize` converted to `int` (Softmax.hpp:36, 72); a
zero divisor is UB. -/
def featuresSize (s : Shape) (batchSize : Int) : Res Int :=
  if toSizeT batchSize = 0 then .error .ub else .ok (toInt32 ((s.size / toSizeT batchSize : Nat) : Int))

/-- `Softmax::forward` (Softmax.hpp:26-57). -/
def softmaxForward (input : Tensor T) : Res (Tensor T) := do
  if input.shape.rank < 2 then throw .invalidArgument
  let output : Tensor T := Tensor.zeros input.shape
  let batchSize ← input.shape.get 0
  let features ← featuresSize input.shape batchSize
  forI batchSize output (fun b output => do
    let maxVal ← maxElement input.data (b * features) features
    let st ← forI features (output, (0 : T)) (fun i st => do
      let x ← rd input.data (b * features + i)
      let e := MathFn.exp (x - maxVal)
      let o ← st.1.set (b * features + i) e
      return (o, st.2 + e))
    forI features st.1 (fun i output => do
      let e ← output.get (b * features + i)
      output.set (b * features + i) (e / st.2)))

/-- `Softmax::backward` (Softmax.hpp:59-93).  The shape of `gradOutput` is only checked for its rank;
its buffer is indexed with the input's sizes. -/
def softmaxBackward (input gradOutput : Tensor T) : Res (Tensor T) := do
  if input.shape.rank < 2 ∨ gradOutput.shape.rank < 2 then throw .invalidArgument
  let fo ← softmaxForward input
  let gradInput : Tensor T := Tensor.zeros input.shape
  let batchSize ← input.shape.get 0
  let features ← featuresSize input.shape batchSize
  forI batchSize gradInput (fun b gradInput =>
    forI features gradInput (fun i gradInput => do
      let gradient ← forI features (0 : T) (fun j gradient => do
        let oi ← rd fo.data (b * features + i)
        let oj ← rd fo.data (b * features + j)
        let g ← rd gradOutput.data (b * features + j)
        if i = j then return gradient + oi * (1 - oj) * g
        else return gradient - oi * oj * g)
      gradInput.set (b * features + i) gradient))

/-- `forward` of the activation classes (ReLU.hpp:21-23, LeakyReLU.hpp:25-28, Sigmoid.hpp:22-24,
Tanh.hpp:22-24, Swish.hpp:23-28, Mish.hpp:25-30, Softmax.hpp:26-57). -/
def forward : Act T → Tensor T → Res (Tensor T)
  | relu, t => t.apply (fun x => cmax 0 x)
  | leakyRelu alpha, t => t.apply (fun x => if 0 < x then x else alpha * x)
  | sigmoid, t => t.apply (fun x => sig (MathFn.toFloat x))
  | tanh, t => t.apply (fun x =>
      (MathFn.exp (x * ((2 : Nat) : T)) - 1) / (MathFn.exp (x * ((2 : Nat) : T)) + 1))
  | swish, t => t.apply (fun x => x * sig x)
  | mish, t => t.apply (fun x => x * MathFn.tanh (softplus x))
  | softmax, t => softmaxForward t

/-- `backward(input, gradOutput)` of the activation classes (ReLU.hpp:25-27, LeakyReLU.hpp:30-33,
Sigmoid.hpp:26-29, Tanh.hpp:26-28, Swish.hpp:30-36, Mish.hpp:32-41, Softmax.hpp:59-93). -/
def backward : Act T → Tensor T → Tensor T → Res (Tensor T)
  | relu, x, g => do
    let d ← x.apply (fun x => if 0 < x then 1 else 0)
    d.mul g
  | leakyRelu alpha, x, g => x.applyPair g (fun x g => if 0 ≤ x then g else alpha * g)
  | sigmoid, x, g => do
    let s ← forward sigmoid x
    let c ← Tensor.scalarSub 1 s
    let p ← s.mul c
    p.mul g
  | tanh, x, g => do
    let d ← x.apply (fun x => 1 - MathFn.tanh x * MathFn.tanh x)
    d.mul g
  | swish, x, g => x.applyPair g (fun x g =>
      let s := sig x
      let derivative := s * (1 + x * (1 - s))
      g * derivative)
  | mish, x, g => x.applyPair g (fun x g =>
      let t := MathFn.tanh (softplus x)
      let s := sig x
      let sech2 := 1 - t * t
      let derivative := t + x * sech2 * s
      g * derivative)
  | softmax, x, g => softmaxBackward x g

end Act
end SmartDNN
