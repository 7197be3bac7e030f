import Verif.Props.Frozen
import Verif.Props.Typed

/-!
# Input features that are always zero (specification for C115)
-/

namespace SmartDNN
open Net Spec

/-- What may stand in front of the first dense layer: nothing, or a flatten layer. -/
def Spec.Front (pre : List (Layer ℝ)) : Prop := pre = [] ∨ ∃ f m, pre = [⟨.flatten f, m⟩]

/-- Use of a model on samples of dimensions `ds`, in batches of `b`: training on batches in which the entry `idx` of every sample is zero; predictions, on
which nothing is required. -/
def Spec.Use.UnlitAt (b : Nat) (ds es idx : List Nat) : Use → Prop
  | .train xs ys _ => xs ≠ [] ∧ xs.length ≤ ys.length ∧ (∀ x ∈ xs, ∃ f, x = ofFn (b :: ds) f ∧ ∀ i < b, f (i :: idx) = 0) ∧ ∀ y ∈ ys, HasDims es y
  | .predict x => HasDims (b :: ds) x
  | _ => False

end SmartDNN
