import Verif.Spec.Index

/-!
# Specification of broadcasting (the NumPy rule)
-/

namespace SmartDNN
namespace Spec

/-- The `i`-th dimension counted from the right; missing dimensions count as 1. -/
def dimR (ds : List Nat) (i : Nat) : Nat := ds.reverse.getD i 1

/-- Two dimension lists are compatible if, aligned at the right, all pairs are equal or contain 1. -/
def Compat (a b : List Nat) : Prop := ∀ i, dimR a i = dimR b i ∨ dimR a i = 1 ∨ dimR b i = 1

/-- The broadcast dimensions: larger rank, pairwise maximum from the right. -/
def bdims (a b : List Nat) : List Nat :=
  ((List.range (max a.length b.length)).map (fun i => max (dimR a i) (dimR b i))).reverse

/-- `a` can be stretched to the dimensions `r`: it has at most as many dimensions, and each is 1 or
equal to the corresponding one of `r`. -/
def Stretches (a r : List Nat) : Prop :=
  a.length ≤ r.length ∧ ∀ i, dimR a i = dimR r i ∨ dimR a i = 1

/-- The index tuple of the source element shown at `idx` of the broadcast array: drop the extra
leading coordinates and pin the coordinates of 1-sized dimensions to 0. -/
def proj (ds idx : List Nat) : List Nat :=
  List.zipWith (fun d i => if d = 1 then 0 else i) ds (idx.drop (idx.length - ds.length))

end Spec
end SmartDNN
