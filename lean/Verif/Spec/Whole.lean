import Verif.Spec.Rising

/-!
# Whole numbers in floating point (specification for C108)
-/

namespace SmartDNN
open Net Spec

variable {ρ : Type} {rd : ℝ → ℝ}

/-- A number of the rounding arithmetic and a real number stand for the same whole number. -/
def Spec.Whole (a : Rounded rd) (b : ℝ) : Prop := a.val = b ∧ ∃ n : ℤ, b = n

/-- Two tensors of the same shape that hold the same whole numbers. -/
def Spec.SameWhole (t : Tensor (Rounded rd)) (t' : Tensor ℝ) : Prop := Twin Whole t t'

/-- The tensor with every element replaced by its absolute value. -/
noncomputable def Spec.magnitudes (t : Tensor ℝ) : Tensor ℝ := ⟨t.shape, t.data.map fun v => |v|⟩

/-- Two layers of the same class with the same settings and the same whole numbers as parameters: dense layers, convolutions,
flattening, max pooling, ReLU, and dropout outside training. -/
def Spec.WholeLayer (l : Layer (Rounded rd)) (l' : Layer ℝ) : Prop :=
  match l.kind, l'.kind with
  | .fc a, .fc a' => SameWhole a.weights a'.weights ∧ SameWhole a.biases a'.biases
  | .conv a, .conv a' => a.inputChannels = a'.inputChannels ∧ a.outputChannels = a'.outputChannels ∧ a.kernelHeight = a'.kernelHeight ∧
      a.kernelWidth = a'.kernelWidth ∧ SameWhole a.weights a'.weights ∧ SameWhole a.biases a'.biases
  | .flatten _, .flatten _ => True
  | .maxPool a, .maxPool a' => a.poolSize = a'.poolSize ∧ a.stride = a'.stride ∧ a.padding = a'.padding ∧ Whole a.negInf a'.negInf
  | .dropout _, .dropout _ => l.trainingMode = false ∧ l'.trainingMode = false
  | .activation a, .activation a' => a.activation = .relu ∧ a'.activation = .relu
  | _, _ => False

/-- On this input the sums of the layer stay below `P`, even if every product counts with its absolute value: the layer with the
absolute values of its parameters is applied to the absolute values of the input. -/
def Spec.KeepsSmall (P : ℝ) (l : Layer ℝ) (x : Tensor ℝ) : Prop :=
  match l.kind with
  | .fc a => ∀ s, FC.affine (magnitudes a.weights) (magnitudes a.biases) (magnitudes x) = .ok s → ∀ v ∈ s.data, v < P
  | .conv a => ∀ s, Conv.correlate { a with weights := magnitudes a.weights, biases := magnitudes a.biases } (magnitudes x) = .ok s →
      ∀ v ∈ s.data, v < P
  | _ => True

/-- Every layer of the list stays below `P` on what the layers before it computed (in exact arithmetic). -/
def Spec.AllKeepSmall (E : Engine ρ ℝ) (P : ℝ) : List (Layer ℝ) → Tensor ℝ → ρ → Prop
  | [], _, _ => True
  | l :: ls, x, r => KeepsSmall P l x ∧ ∀ y l1 r1, Layer.forward E x (l, r) = (.ok y, l1, r1) → AllKeepSmall E P ls y r1

end SmartDNN
