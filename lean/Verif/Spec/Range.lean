import Verif.Spec.Intact

/-!
# Ranges of predictions and losses (specification for C102)
-/

namespace SmartDNN
open Net Spec

/-- Every element satisfies `P`. -/
def Spec.Elements {T : Type} (P : T → Prop) (t : Tensor T) : Prop := ∀ x ∈ t.data, P x

/-- The model's last layer is an activation layer with the activation `a`. -/
def Spec.EndsIn {ρ T : Type} (a : Act T) (net : Net ρ T) : Prop :=
  ∃ ls l b, net.layers = ls ++ [⟨.activation l, b⟩] ∧ l.activation = a

/-- What a user may expect of a prediction of a model that ends in the activation `a`. -/
def Spec.InRange : Act ℝ → Tensor ℝ → Prop
  | .relu, y => Elements (fun x => 0 ≤ x) y
  | .sigmoid, y => Elements (fun x => 0 < x ∧ x < 1) y
  | .tanh, y => Elements (fun x => -1 < x ∧ x < 1) y
  | .softmax, y => (y.shape.dims.map Int.toNat).prod < 2 ^ 31 → ∃ d ds p, Dims (d :: ds) ∧ y = ofFn (d :: ds) p ∧
      (∀ idx, ValidIdx (d :: ds) idx → 0 < p idx ∧ p idx ≤ 1) ∧ ∀ b, b < d → total ds (fun y => p (b :: y)) = 1
  | _, _ => True

/-- Which data a loss function has to be given for a non-negative value: nothing for the squared error; targets without negative
entries for the cross entropy. -/
def Spec.GoodTarget : Loss ℝ → Tensor ℝ → Prop
  | .mse, _ => True
  | .crossEntropy eps, t => 0 ≤ eps ∧ eps ≤ 1 ∧ Elements (fun y => 0 ≤ y) t

/-- The call does not change the list of layers. -/
def Spec.Visit.KeepsLayers {T : Type} : Visit T → Prop
  | .addLayer _ | .setLayer _ _ => False
  | _ => True

end SmartDNN
