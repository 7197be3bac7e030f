import Mathlib.Data.Real.Basic
import Mathlib.Algebra.BigOperators.Group.Finset.Basic

/-!
# What the losses ask for (specification for C110)
-/

namespace SmartDNN

/-- The element-wise average of some tensors. -/
noncomputable def Spec.averageOf (ts : List (List Nat → ℝ)) : List Nat → ℝ := fun i => (ts.map fun t => t i).sum / ts.length

/-- Every one of the `b` rows of `k` numbers is a probability distribution. -/
def Spec.Distributions (b k : Nat) (p : List Nat → ℝ) : Prop :=
  (∀ i j, i < b → j < k → 0 ≤ p [i, j]) ∧ ∀ i, i < b → ∑ j ∈ Finset.range k, p [i, j] = 1

end SmartDNN
