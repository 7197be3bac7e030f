import Verif.Spec.RealFns

/-!
# Specification of the losses
-/

namespace SmartDNN
namespace Spec

/-- Mean squared difference of two arrays of dimensions `ds`. -/
noncomputable def mse (ds : List Nat) (p t : List Nat → ℝ) : ℝ :=
  total ds (fun i => (p i - t i) ^ 2) / (ds.prod : ℝ)

/-- Clamp to `[eps, 1 - eps]`. -/
noncomputable def clampTo (eps x : ℝ) : ℝ := min (max x eps) (1 - eps)

/-- Batch-averaged cross entropy of `b × k` predictions `p` (clamped) and targets `t`. -/
noncomputable def crossEntropy (eps : ℝ) (b k : Nat) (p t : List Nat → ℝ) : ℝ :=
  -(total [b, k] (fun i => t i * Real.log (clampTo eps (p i)))) / (b : ℝ)

end Spec
end SmartDNN
