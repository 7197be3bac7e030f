import Verif.Props.Renamed

/-!
# The order of features and of classes (specification for C116)
-/

namespace SmartDNN
open Net Spec

/-- What may stand behind the layers with renamed units: nothing, or softmax. -/
inductive Spec.SameEnd : List (Layer ℝ) → List (Layer ℝ) → Prop where
  | nothing : SameEnd [] []
  | softmax {a a' : ActLayer ℝ} {mode : Bool} (ha : a.activation = .softmax) (ha' : a'.activation = .softmax) :
      SameEnd [⟨.activation a, mode⟩] [⟨.activation a', mode⟩]

/-- `net'` is `net` with its input features renamed by `σ`, its outputs (the classes, say) by `υ`, and the units in between by what `Rs` says. -/
def Spec.Relabelled {ρ : Type} (Rs : List Renaming) (σ υ : Nat → Nat) (net net' : Net ρ ℝ) : Prop :=
  (∃ ls ls' es es', net.layers = ls ++ es ∧ net'.layers = ls' ++ es' ∧ RenamedAll Rs σ υ ls ls' ∧ SameEnd es es') ∧ net'.loss = net.loss ∧ net'.rng = net.rng ∧
    ∃ opt opt', net.optimizer = some opt ∧ net'.optimizer = some opt' ∧ OptTwin (frame Rs) opt opt'

/-- The columns of the data are renamed by `σ`. -/
def Spec.columns (σ : Nat → Nat) (x : List Nat → ℝ) : List Nat → ℝ := fun i => x (ren id σ i)

end SmartDNN
