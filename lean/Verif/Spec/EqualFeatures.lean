import Verif.Spec.Unlit

/-!
# Input features that are always equal (specification for C117)
-/

namespace SmartDNN
open Net Spec

/-- Use of a model on samples of dimensions `ds`, in batches of `b`: training on batches in which the entries `i1` and `i2` of every sample are equal; predictions,
on which nothing is required. -/
def Spec.Use.EqualAt (b : Nat) (ds es i1 i2 : List Nat) : Use → Prop
  | .train xs ys _ => xs ≠ [] ∧ xs.length ≤ ys.length ∧ (∀ x ∈ xs, ∃ f, x = ofFn (b :: ds) f ∧ ∀ i < b, f (i :: i1) = f (i :: i2)) ∧ ∀ y ∈ ys, HasDims es y
  | .predict x => HasDims (b :: ds) x
  | _ => False

end SmartDNN
