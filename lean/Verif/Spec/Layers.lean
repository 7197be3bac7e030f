import Verif.Spec.Linear
import Verif.Spec.Calculus
import Mathlib.Algebra.BigOperators.Group.Finset.Basic
import Mathlib.Data.Real.Archimedean

/-!
# Specification of the layers
-/

namespace SmartDNN
namespace Spec

/-- Affine map of a batch: row `i` of the result is row `i` of `x` times the matrix `w` plus the row
`b`. -/
def affine {T : Type} [NonUnitalNonAssocSemiring T] (n : Nat) (w b x : List Nat → T) : List Nat → T :=
  fun idx => (∑ k ∈ Finset.range n, x [idx.getD 0 0, k] * w [k, idx.getD 1 0]) + b [0, idx.getD 1 0]

/-- Affine map of a single sample. -/
def affine1 {T : Type} [NonUnitalNonAssocSemiring T] (n : Nat) (w b x : List Nat → T) : List Nat → T :=
  fun idx => (∑ k ∈ Finset.range n, x [k] * w [k, idx.getD 0 0]) + b [0, idx.getD 0 0]

/-! ### Convolution -/

/-- Entry `(y, x)` of channel `c` of sample `b`, with `q` rows and columns of zeros added on every side of the
`h` by `w` planes. -/
def padded {T : Type} [Zero T] (q h w : Nat) (x : List Nat → T) (b c y z : Nat) : T :=
  if q ≤ y ∧ y < q + h ∧ q ≤ z ∧ z < q + w then x [b, c, y - q, z - q] else 0

/-- Number of kernel positions along an axis of length `n` for kernel size `k`, stride `s`, padding `q`,
dilation `d`. -/
def convOut (k s q d n : Nat) : Nat := (n + 2 * q - d * (k - 1) - 1) / s + 1

/-- Cross-correlation of `x` (planes `h` by `w`, `C` channels) with the kernels `k` (`kh` by `kw`), plus
bias; stride `s`, padding `q`, dilation `d`. -/
def conv {T : Type} [NonUnitalNonAssocSemiring T] (C kh kw s q d h w : Nat) (k bias x : List Nat → T) : List Nat → T :=
  fun idx => (∑ c ∈ Finset.range C, ∑ u ∈ Finset.range kh, ∑ v ∈ Finset.range kw,
      padded q h w x (idx.getD 0 0) c (idx.getD 2 0 * s + u * d) (idx.getD 3 0 * s + v * d) *
        k [idx.getD 1 0, c, u, v]) + bias [idx.getD 1 0, 0]

/-! ### Batch normalisation -/

/-- All positions of an array of dimensions `ds` (batch, feature, ...) that belong to feature `c`. -/
def featureIdx (ds : List Nat) (c : Nat) : List (List Nat) := (indices ds).filter (fun i => decide (i.getD 1 0 = c))

/-- Average of feature `c`. -/
noncomputable def featMean (ds : List Nat) (f : List Nat → ℝ) (c : Nat) : ℝ :=
  ((featureIdx ds c).map f).sum / ((featureIdx ds c).length : ℝ)

/-- Variance (mean squared deviation) of feature `c`. -/
noncomputable def featVar (ds : List Nat) (f : List Nat → ℝ) (c : Nat) : ℝ :=
  ((featureIdx ds c).map (fun i => (f i - featMean ds f c) ^ 2)).sum / ((featureIdx ds c).length : ℝ)

/-- Exponential average of a history: each new value is blended in with weight `1 - m`. -/
def runningAvg {T : Type} [One T] [Add T] [Sub T] [Mul T] (m init : T) (xs : List T) : T :=
  xs.foldl (fun r x => r * m + x * (1 - m)) init

/-! ### Max pooling -/

/-- Cell `(y, x)` of an `h` by `w` plane belongs to the `p` by `p` pool window number `(oh, ow)` at stride
`s`. -/
def InWindow (p s h w oh ow y x : Nat) : Prop :=
  oh * s ≤ y ∧ y < oh * s + p ∧ y < h ∧ ow * s ≤ x ∧ x < ow * s + p ∧ x < w

/-- `m` is the maximum of the plane `g` over pool window `(oh, ow)`. -/
def IsWindowMax {T : Type} [LE T] (p s h w : Nat) (g : Nat → Nat → T) (oh ow : Nat) (m : T) : Prop :=
  (∃ y x, InWindow p s h w oh ow y x ∧ g y x = m) ∧ ∀ y x, InWindow p s h w oh ow y x → g y x ≤ m

/-- `(y, x)` is the first cell, in row-major order, at which the plane `g` attains its maximum over pool
window `(oh, ow)`. -/
def IsFirstMax {T : Type} [LE T] [LT T] (p s h w : Nat) (g : Nat → Nat → T) (oh ow y x : Nat) : Prop :=
  InWindow p s h w oh ow y x ∧ (∀ y' x', InWindow p s h w oh ow y' x' → g y' x' ≤ g y x) ∧
    ∀ y' x', InWindow p s h w oh ow y' x' → (y' < y ∨ (y' = y ∧ x' < x)) → g y' x' < g y x

/-- Number of pool windows along an axis of length `n`; a window larger than the axis is cut off. -/
def poolOut (p s n : Nat) : Nat := if p ≤ n then (n - p) / s + 1 else 1

/-- Max pooling of an array of `h` by `w` planes: entry `[i, j, oh, ow]` is the maximum of plane `[i, j]` over pool window
`(oh, ow)`, or `ninf` if that is larger (`ninf` stands for minus infinity). -/
noncomputable def poolMax (p s h w : Nat) (ninf : ℝ) (x : List Nat → ℝ) : List Nat → ℝ := fun idx =>
  sSup (insert ninf {v | ∃ y z, InWindow p s h w (idx.getD 2 0) (idx.getD 3 0) y z ∧ v = x [idx.getD 0 0, idx.getD 1 0, y, z]})

/-- Cell `(y, z)` is the only one at which the plane `g` attains its maximum over pool window `(oh, ow)`. -/
def IsOnlyMax (p s h w : Nat) (g : Nat → Nat → ℝ) (oh ow y z : Nat) : Prop :=
  InWindow p s h w oh ow y z ∧ ∀ y' z', InWindow p s h w oh ow y' z' → (y', z') ≠ (y, z) → g y' z' < g y z

end Spec
end SmartDNN
