import Verif.Spec.Unlit
import Verif.Spec.Settled

/-!
# Directions that the data never show (specification for C118)
-/

namespace SmartDNN
open Net Spec

variable {ρ : Type}

/-- The sum of the entries of a sample of dimensions `ds`, each times its entry in `u`. -/
noncomputable def Spec.along (ds : List Nat) (u f : List Nat → ℝ) : ℝ := ((indices ds).map fun idx => u idx * f idx).sum

/-- Use of a model on samples of dimensions `ds`, in batches of `b`: training on batches in which every sample is orthogonal to `u`; predictions, on which nothing
is required. -/
def Spec.Use.OrthogonalTo (b : Nat) (ds es : List Nat) (u : List Nat → ℝ) : Use → Prop
  | .train xs ys _ => xs ≠ [] ∧ xs.length ≤ ys.length ∧ (∀ x ∈ xs, ∃ f, x = ofFn (b :: ds) f ∧ ∀ i < b, along ds u (fun idx => f (i :: idx)) = 0) ∧
      ∀ y ∈ ys, HasDims es y
  | .predict x => HasDims (b :: ds) x
  | _ => False

/-- What the refutations are about: one dense layer from two features to one unit, with all parameters zero. -/
noncomputable def Spec.twoToOne (rng : ρ) (opt : Optimizer (Nat × Bool) ℝ) : Net ρ ℝ :=
  (single 2 1 (fun _ => 0) (fun _ => 0) rng).compile .mse opt

/-- The sample `(1, 2)`. -/
def Spec.oneTwo : List Nat → ℝ := fun i => if i.getD 1 0 = 0 then 1 else 2

/-- The vector `(2, -1)`, orthogonal to the sample. -/
def Spec.twoMinus : List Nat → ℝ := fun i => if i.getD 0 0 = 0 then 2 else -1

end SmartDNN
