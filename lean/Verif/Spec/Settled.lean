import Verif.Spec.Range
import Verif.Props.Train

/-!
# Models that fit their data (specification for C103)
-/

namespace SmartDNN
open Net Spec

/-- Targets that the loss function compares with predictions without distorting them: any for the squared error; entries between `eps` and
`1 - eps` for the cross entropy, which replaces predictions outside this range by its ends. -/
def Spec.Undistorted : Loss ℝ → Tensor ℝ → Prop
  | .mse, _ => True
  | .crossEntropy eps, t => Elements (fun y => eps ≤ y ∧ y ≤ 1 - eps) t

/-- The model fits the data: whatever it returns for an input is exactly the target at the same position. -/
def Spec.FitsData {ρ : Type} (E : Engine ρ ℝ) (net : Net ρ ℝ) (xs ys : List (Tensor ℝ)) : Prop :=
  ∀ (i : Nat) x y p, xs[i]? = some x → ys[i]? = some y → (predict E x net).1 = .ok p → p = y ∧ ∀ l, net.loss = some l → Undistorted l y

/-- Training on data that the model `net` fits, and predictions. -/
def Spec.Visit.Calm {ρ : Type} (E : Engine ρ ℝ) (net : Net ρ ℝ) : Visit ℝ → Prop
  | .train xs ys _ => FitsData E net xs ys
  | .predict _ | .predictAll _ => True
  | _ => False

/-- One dense layer. -/
def Spec.single {ρ : Type} (n k : Nat) (w bias : List Nat → ℝ) (rng : ρ) : Net ρ ℝ :=
  ⟨[⟨.fc { weights := ofFn [n, k] w, biases := ofFn [1, k] bias }, true⟩], none, none, rng⟩

end SmartDNN
