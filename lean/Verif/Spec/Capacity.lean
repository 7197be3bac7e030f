import Verif.Spec.Rewrite
import Verif.Spec.RealFns

/-!
# What models can fit (specification for C111)
-/

namespace SmartDNN
open Net Spec

/-- The training data are consistent: equal inputs (rows of `x`) have equal targets (rows of `y`). -/
def Spec.Consistent (b n m : Nat) (x y : List Nat → ℝ) : Prop :=
  ∀ i < b, ∀ k < b, (∀ j < n, x [i, j] = x [k, j]) → ∀ o < m, y [i, o] = y [k, o]

/-- The model with one hidden layer of `h` units with ReLU: dense, ReLU, dense. -/
def Spec.oneHidden (n h m : Nat) (w1 b1 w2 b2 : List Nat → ℝ) : List (Layer ℝ) :=
  [denseLayer (ofFn [n, h] w1) (ofFn [1, h] b1), actLayer .relu, denseLayer (ofFn [h, m] w2) (ofFn [1, m] b2)]

/-- Dense layers, one directly after the other, from `n` inputs to `m` outputs, for batches of `b` samples. -/
inductive Spec.OnlyDense (b : Nat) : List (Layer ℝ) → Nat → Nat → Prop where
  | nil (n : Nat) : OnlyDense b [] n n
  | cons {l : FC ℝ} {mode : Bool} {ls : List (Layer ℝ)} {n k m : Nat} {w bias : List Nat → ℝ} (hd : Dims [b, k]) (hw : l.weights = ofFn [n, k] w)
      (hb : l.biases = ofFn [1, k] bias) (hls : OnlyDense b ls k m) : OnlyDense b (⟨.fc l, mode⟩ :: ls) n m

/-- The four inputs of exclusive or, and its values. -/
def Spec.xorInputs : List Nat → ℝ
  | [1, 1] | [2, 0] | [3, 0] | [3, 1] => 1
  | _ => 0
def Spec.xorTargets : List Nat → ℝ
  | [1, 0] | [2, 0] => 1
  | _ => 0

end SmartDNN
