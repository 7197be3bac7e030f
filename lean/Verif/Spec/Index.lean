import Verif.Model.Tensor
import Mathlib.Algebra.BigOperators.Group.List.Basic

/-!
# Specification of n-dimensional arrays

Independent of the model's index arithmetic: an array of dimensions `ds` is a function on index
tuples, stored in lexicographic (row-major) order.
-/

namespace SmartDNN
namespace Spec

/-- Dimension lists of tensors in the library's working range: non-empty, positive, fewer than `2^31`
elements (the library stores flat indices in `int`). -/
structure Dims (ds : List Nat) : Prop where
  ne : ds ≠ []
  pos : ∀ d ∈ ds, 0 < d
  lt : ds.prod < 2 ^ 31

/-- `idx` is an index tuple of an array with dimensions `ds`. -/
def ValidIdx (ds idx : List Nat) : Prop := List.Forall₂ (fun i d => i < d) idx ds

/-- All index tuples in lexicographic order. -/
def indices : List Nat → List (List Nat)
  | [] => [[]]
  | d :: ds => (List.range d).flatMap (fun i => (indices ds).map (fun is => i :: is))

/-- Row-major rank of an index tuple. -/
def ravel : List Nat → List Nat → Nat
  | _ :: ds, i :: is => i * ds.prod + ravel ds is
  | _, _ => 0

/-- The index tuple of an array of dimensions `ds` at the same row-major position as `idx` in an array
of dimensions `es`. -/
def reindex (es ds idx : List Nat) : List Nat := (indices ds).getD (ravel es idx) []

/-- Row-major strides: the product of the later dimensions. -/
def strides : List Nat → List Nat
  | [] => []
  | _ :: ds => ds.prod :: strides ds

/-- A list of naturals as a C++ `std::vector<int>`. -/
def ints (l : List Nat) : List Int := List.map (fun n : Nat => (n : Int)) l

/-- The shape object of an array of dimensions `ds`. -/
def shapeOf (ds : List Nat) : Shape := { dims := ints ds, size := ds.prod, stride := strides ds }

/-- The tensor of dimensions `ds` that holds `f idx` at every index tuple `idx`. -/
def ofFn {T : Type} (ds : List Nat) (f : List Nat → T) : Tensor T :=
  { shape := shapeOf ds, data := (indices ds).map f }

/-- A tensor object in a consistent state: positive dimensions, matching size, strides and buffer.
(Established by every constructor, see `C01`/`C04`; broken only by a moved-from object.) -/
def Valid {T : Type} (t : Tensor T) : Prop :=
  ∃ ds, Dims ds ∧ t.shape = shapeOf ds ∧ t.data.length = ds.prod

end Spec
end SmartDNN
