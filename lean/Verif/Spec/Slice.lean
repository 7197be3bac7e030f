import Verif.Spec.Index

/-!
# Specification of strided windows and fixed-coordinate slices
-/

namespace SmartDNN
namespace Spec

/-- Number of positions `start, start+step, ...` below `stop`. -/
def windowCount (stop start step : Nat) : Nat := (stop - start + step - 1) / step

/-- Dimensions of the strided window. -/
def windowDims : List Nat → List Nat → List Nat → List Nat
  | e :: es, s :: ss, t :: ts => windowCount e s t :: windowDims es ss ts
  | _, _, _ => []

/-- The index in the original of entry `idx` of the window. -/
def windowIdx : List Nat → List Nat → List Nat → List Nat
  | s :: ss, t :: ts, i :: is => (s + i * t) :: windowIdx ss ts is
  | _, _, _ => []

end Spec
end SmartDNN
