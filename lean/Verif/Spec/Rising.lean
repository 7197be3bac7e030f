import Verif.Props.Oblivious
import Verif.Spec.Rounding
import Mathlib.Analysis.SpecialFunctions.Exp

/-!
# Models whose answers rise with their inputs (specification for C105)
-/

namespace SmartDNN
open Net Spec

/-- An arithmetic whose operations respect the order: the real numbers, and every arithmetic that rounds exact results in a monotone way. -/
structure Spec.MonotoneArithmetic (T : Type) [Zero T] [Add T] [Sub T] [Mul T] [Div T] [LT T] [LE T] [MathFn T] : Prop where
  refl : ∀ a : T, a ≤ a
  trans : ∀ a b c : T, a ≤ b → b ≤ c → a ≤ c
  total : ∀ a b : T, a ≤ b ∨ b ≤ a
  lt_iff : ∀ a b : T, a < b ↔ ¬ b ≤ a
  add : ∀ a a' b b' : T, a ≤ a' → b ≤ b' → a + b ≤ a' + b'
  sub : ∀ a a' b : T, a ≤ a' → a - b ≤ a' - b
  mul : ∀ a a' w : T, 0 ≤ w → a ≤ a' → a * w ≤ a' * w
  div : ∀ a a' d : T, 0 ≤ d → a ≤ a' → a / d ≤ a' / d
  sqrt : ∀ a : T, 0 ≤ MathFn.sqrt a
  toFloat : ∀ a a' : T, a ≤ a' → MathFn.toFloat a ≤ MathFn.toFloat a'

section
variable {ρ T : Type} [Zero T] [One T] [Add T] [Sub T] [Mul T] [Div T] [Neg T] [NatCast T]
  [IntCast T] [LT T] [DecidableLT T] [LE T] [DecidableLE T] [DecidableEq T] [MathFn T]

/-- The activation function works element by element and never decreases: seen through its `forward` on tensors of one element. -/
def Spec.RisingAct (a : Act T) : Prop := (match a with | .softmax => False | _ => True) ∧
  ∀ x y u v : T, x ≤ y → a.forward (ofFn [1] fun _ => x) = .ok (ofFn [1] fun _ => u) → a.forward (ofFn [1] fun _ => y) = .ok (ofFn [1] fun _ => v) → u ≤ v

/-- A layer that never turns a rise into a fall: weights and scales are not negative, the activation rises, and layers that behave
differently during training are in evaluation mode. -/
def Spec.RisingLayer (l : Layer T) : Prop :=
  match l.kind with
  | .fc l => ∀ w ∈ l.weights.data, 0 ≤ w
  | .conv l => ∀ w ∈ l.weights.data, 0 ≤ w
  | .flatten _ => True
  | .maxPool _ => True
  | .batchNorm b => l.trainingMode = false ∧ ∀ w ∈ b.gamma.data, 0 ≤ w
  | .dropout _ => l.trainingMode = false
  | .activation l => RisingAct l.activation

/-- The first tensor has the same shape as the second and is nowhere larger. -/
def Spec.Below (t t' : Tensor T) : Prop := Twin (· ≤ ·) t t'

end

/-- Numbers with an arithmetic that computes exactly and then rounds by `rd`.  With `rd = id` these are the real numbers; with
`rd = rnd 23 (-149)` it is single precision as long as nothing overflows. -/
@[ext] structure Spec.Rounded (rd : ℝ → ℝ) where
  val : ℝ

section
variable {rd : ℝ → ℝ}
noncomputable instance : Zero (Rounded rd) := ⟨⟨0⟩⟩
noncomputable instance : One (Rounded rd) := ⟨⟨1⟩⟩
noncomputable instance : Add (Rounded rd) := ⟨fun a b => ⟨rd (a.val + b.val)⟩⟩
noncomputable instance : Sub (Rounded rd) := ⟨fun a b => ⟨rd (a.val - b.val)⟩⟩
noncomputable instance : Mul (Rounded rd) := ⟨fun a b => ⟨rd (a.val * b.val)⟩⟩
noncomputable instance : Div (Rounded rd) := ⟨fun a b => ⟨rd (a.val / b.val)⟩⟩
noncomputable instance : Neg (Rounded rd) := ⟨fun a => ⟨-a.val⟩⟩
noncomputable instance : NatCast (Rounded rd) := ⟨fun n => ⟨rd n⟩⟩
noncomputable instance : IntCast (Rounded rd) := ⟨fun n => ⟨rd n⟩⟩
noncomputable instance : LinearOrder (Rounded rd) := LinearOrder.lift' Rounded.val fun _ _ h => Rounded.ext h
noncomputable instance : MathFn (Rounded rd) where
  exp x := ⟨rd (Real.exp x.val)⟩
  log x := ⟨rd (Real.log x.val)⟩
  sqrt x := ⟨rd (Real.sqrt x.val)⟩
  tanh x := ⟨rd (Real.tanh x.val)⟩
  powi x n := ⟨rd (x.val ^ n)⟩
  toFloat x := ⟨rd x.val⟩

end

end SmartDNN
