import Verif.Proofs.Columns

/-!
# Linear regression (specification for C121)
-/

namespace SmartDNN
open Net Spec

variable {ρ : Type}

/-- A model that ends with a dense layer `n → m`, with weights `w` and bias `c`, behind the layers `pre`; it is compiled with the squared error and SGD, which remembers the
momentum `v` of the weights and `u` of the bias; the random engine has the state `r`. -/
def Spec.Regression (pre : List (Layer ℝ)) (n m : Nat) (o : SGDOptions ℝ) (r : ρ) (net : Net ρ ℝ) (w c v u : List Nat → ℝ) : Prop :=
  (∃ f mode, net.layers = pre ++ [⟨.fc f, mode⟩] ∧ f.weights = ofFn [n, m] w ∧ f.biases = ofFn [1, m] c) ∧ net.loss = some .mse ∧ net.rng = r ∧
    ∃ M, net.optimizer = some (.sgd ⟨o, M⟩) ∧ lookupOrZero M (pre.length, false) (shapeOf [n, m]) = ofFn [n, m] v ∧
      lookupOrZero M (pre.length, true) (shapeOf [1, m]) = ofFn [1, m] u

/-- The combination of two functions. -/
def Spec.combine (α β : ℝ) (f g : List Nat → ℝ) : List Nat → ℝ := fun i => α * f i + β * g i

/-- Three models with the same layers in front of the dense layer, which is layer `p`; the parameters of the third are combined from those of the others. -/
def Spec.Superposed (α β : ℝ) (ds : List Nat) (p b n m : Nat) (net₁ net₂ net₃ : Net ρ ℝ) : Prop :=
  ∃ pre o r w₁ c₁ v₁ u₁ w₂ c₂ v₂ u₂, pre.length = p ∧ Chain pre ds [b, n] ∧ (∀ l ∈ pre, params l = none) ∧ Regression pre n m o r net₁ w₁ c₁ v₁ u₁ ∧
    Regression pre n m o r net₂ w₂ c₂ v₂ u₂ ∧
    Regression pre n m o r net₃ (combine α β w₁ w₂) (combine α β c₁ c₂) (combine α β v₁ v₂) (combine α β u₁ u₂)

end SmartDNN
