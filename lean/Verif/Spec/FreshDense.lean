import Verif.Model.Layers
import Verif.Spec.Layers
import Verif.Proofs.Index
import Mathlib.Data.Real.Basic

/-!
# Outputs of a fully connected layer (specification for C123)
-/

namespace SmartDNN

/-- Output `j` of the layer is 0 for every batch of inputs. -/
def Spec.DeadOutput (n m j : Nat) (l : FC ℝ) : Prop :=
  ∀ b, Dims [b, m] → ∀ x : List Nat → ℝ, ∃ y l', FC.forward (ofFn [b, n] x) l = (.ok (ofFn [b, m] y), l') ∧ ∀ i < b, y [i, j] = 0

/-- Outputs `j` and `k` of the layer are equal for every batch of inputs. -/
def Spec.AlikeOutputs (n m j k : Nat) (l : FC ℝ) : Prop :=
  ∀ b, Dims [b, m] → ∀ x : List Nat → ℝ, ∃ y l', FC.forward (ofFn [b, n] x) l = (.ok (ofFn [b, m] y), l') ∧ ∀ i < b, y [i, j] = y [i, k]

end SmartDNN
