import Verif.Spec.Oblivious

/-!
# Rewriting models (specification for C109)
-/

namespace SmartDNN
open Net Spec

section
variable {ρ T : Type} [Zero T] [One T] [Add T] [Sub T] [Mul T] [Div T] [Neg T] [NatCast T] [IntCast T]
  [LT T] [DecidableLT T] [LE T] [DecidableLE T] [DecidableEq T] [MathFn T]

/-- What a list of layers makes of a tensor, one layer after the other, and the state in which it leaves the random engine. -/
def Spec.answer (E : Engine ρ T) (ls : List (Layer T)) (x : Tensor T) (r : ρ) : Res (Tensor T) × ρ :=
  ((forwardLayers E ls x r).1, (forwardLayers E ls x r).2.2)

/-- Two lists of layers that make the same of every tensor with the dimensions `ds`, whatever its elements. -/
def Spec.Interchangeable (E : Engine ρ T) (ds : List Nat) (ls ls' : List (Layer T)) : Prop :=
  ∀ (f : List Nat → T) (r : ρ), answer E ls (ofFn ds f) r = answer E ls' (ofFn ds f) r

end

/-- A fully connected layer with these parameters, as `setWeights` and `setBiases` leave it. -/
def Spec.denseLayer {T : Type} (w b : Tensor T) : Layer T := ⟨.fc ⟨w, b, none, none, none⟩, true⟩

/-- An activation layer. -/
def Spec.actLayer {T : Type} (a : Act T) : Layer T := ⟨.activation ⟨a, none⟩, true⟩

/-- A layer of a network without biases whose activations are ReLU or leaky ReLU. -/
def Spec.Homogeneous (l : Layer ℝ) : Prop :=
  match l.kind with
  | .fc a => ∀ v ∈ a.biases.data, v = 0
  | .conv a => ∀ v ∈ a.biases.data, v = 0
  | .flatten _ => True
  | .dropout _ => l.trainingMode = false
  | .activation a => a.activation = .relu ∨ ∃ α, a.activation = .leakyRelu α
  | _ => False

end SmartDNN
