import Verif.Spec.Index
import Mathlib.Analysis.Calculus.Deriv.Basic

/-!
# Specification of gradients

Arrays of dimensions `ds` are functions on index tuples.  A function of an array is differentiated
along arbitrary curves of arrays: this is the chain-rule form of differentiability, it includes all
partial and directional derivatives, and needs no norm on arrays.
-/

namespace SmartDNN
namespace Spec

/-- `c` is a curve of arrays of dimensions `ds` that passes through `f` at time 0 with velocity
`v`. -/
def CurveAt (ds : List Nat) (c : ℝ → List Nat → ℝ) (f v : List Nat → ℝ) : Prop :=
  (∀ i, ValidIdx ds i → c 0 i = f i) ∧ ∀ i, ValidIdx ds i → HasDerivAt (fun t => c t i) (v i) 0

/-- Sum of an array. -/
def total (ds : List Nat) (f : List Nat → ℝ) : ℝ := ((indices ds).map f).sum

/-- `r` is the gradient at `f` of the scalar function `L` of arrays of dimensions `ds`: along every
curve through `f` the derivative of `L` is the inner product of `r` with the velocity. -/
def HasGradient (ds : List Nat) (L : (List Nat → ℝ) → ℝ) (f r : List Nat → ℝ) : Prop :=
  ∀ c v, CurveAt ds c f v → HasDerivAt (fun t => L (c t)) (total ds (fun i => r i * v i)) 0

/-- `A` is the transposed derivative (vector-Jacobian product) at `f` of the function `F` from arrays
of dimensions `ds` to arrays of dimensions `es`: for every output gradient `g`, `A g` is the gradient
of the scalar function `x ↦ ∑ j, g j * F x j`. -/
def HasVJP (ds es : List Nat) (F : (List Nat → ℝ) → List Nat → ℝ) (f : List Nat → ℝ)
    (A : (List Nat → ℝ) → List Nat → ℝ) : Prop :=
  ∀ g, HasGradient ds (fun x => total es (fun j => g j * F x j)) f (A g)

/-- The array `f` with the entry at `idx` replaced by `x`. -/
def setEntry (f : List Nat → ℝ) (idx : List Nat) (x : ℝ) : List Nat → ℝ :=
  fun j => if j = idx then x else f j

/-- A real function and its derivative everywhere. -/
def IsDeriv (φ D : ℝ → ℝ) : Prop := ∀ x, HasDerivAt φ (D x) x

end Spec
end SmartDNN
