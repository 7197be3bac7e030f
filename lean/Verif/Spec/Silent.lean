import Verif.Props.Frozen
import Verif.Props.Typed

/-!
# Hidden units that never fire (specification for C113)
-/

namespace SmartDNN
open Net Spec

/-- Use of a model whose first layer has the weights `w` and the biases `bias`: training on batches for which the hidden unit `j` is silent, that is, its value
in front of the ReLU is not positive in any row; predictions, on which nothing is required. -/
def Spec.Use.SilentFor (b n : Nat) (es : List Nat) (j : Nat) (w bias : List Nat → ℝ) : Use → Prop
  | .train xs ys _ => xs ≠ [] ∧ xs.length ≤ ys.length ∧ (∀ x ∈ xs, ∃ f, x = ofFn [b, n] f ∧ ∀ i < b, affine n w bias f [i, j] ≤ 0) ∧ ∀ y ∈ ys, HasDims es y
  | .predict x => HasDims [b, n] x
  | _ => False

end SmartDNN
