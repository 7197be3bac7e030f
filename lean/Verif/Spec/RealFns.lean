import Verif.Model.Scalar
import Verif.Spec.Calculus
import Mathlib.Analysis.SpecialFunctions.Log.Basic
import Mathlib.Analysis.SpecialFunctions.Trigonometric.DerivHyp
import Mathlib.Analysis.SpecialFunctions.Sqrt

/-!
# The library at the exact real numbers, and the mathematical functions it documents
-/

namespace SmartDNN

/-- Exact real arithmetic (no rounding, conversions to `float` are the identity). -/
noncomputable instance : MathFn ℝ where
  exp := Real.exp
  log := Real.log
  sqrt := Real.sqrt
  tanh := Real.tanh
  powi := fun x n => x ^ n
  toFloat := fun x => x

namespace Spec

/-- Logistic function. -/
noncomputable def sigmoid (x : ℝ) : ℝ := 1 / (1 + Real.exp (-x))
/-- Swish: `x * sigmoid x`. -/
noncomputable def swish (x : ℝ) : ℝ := x * sigmoid x
/-- Mish: `x * tanh (ln (1 + e^x))`. -/
noncomputable def mish (x : ℝ) : ℝ := x * Real.tanh (Real.log (1 + Real.exp x))
/-- Rectifier. -/
noncomputable def relu (x : ℝ) : ℝ := max 0 x
/-- Leaky rectifier. -/
noncomputable def leaky (alpha x : ℝ) : ℝ := if 0 < x then x else alpha * x

/-- Softmax of an array of dimensions `d :: ds` over all coordinates but the first (batch) one. -/
noncomputable def softmax (ds : List Nat) (f : List Nat → ℝ) (idx : List Nat) : ℝ :=
  Real.exp (f idx) / total ds (fun y => Real.exp (f (idx.headD 0 :: y)))

end Spec
end SmartDNN
