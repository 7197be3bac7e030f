import Verif.Spec.Index

/-!
# Specification of reductions
-/

namespace SmartDNN
namespace Spec

variable {T : Type}

/-- Left-to-right sum of a list starting from 0, in the order of the list (no algebraic law is used,
so this is also the floating-point sum in that order). -/
def lsum [Zero T] [Add T] (l : List T) : T := l.foldl (· + ·) 0

/-- The elements of the array `f` along `axis` through the reduced index `j`, in increasing order of
the coordinate on that axis. -/
def line (d axis : Nat) (f : List Nat → T) (j : List Nat) : List T :=
  (List.range d).map (fun k => f (j.insertIdx axis k))

/-- Keep only the entries at positions outside `axes`. -/
def off {α : Type} (axes : List Nat) (l : List α) : List α :=
  (l.zipIdx.filter (fun p => decide (p.2 ∉ axes))).map Prod.fst

/-- The dimensions with those at `axes` replaced by 1. -/
def keepDims (axes : List Nat) (ds : List Nat) : List Nat :=
  ds.mapIdx (fun i d => if i ∈ axes then 1 else d)

/-- Number of elements averaged per result element. -/
def axesCount (axes : List Nat) (ds : List Nat) : Nat :=
  (ds.mapIdx (fun i d => if i ∈ axes then d else 1)).prod

/-- Two index tuples agree outside `axes`. -/
def agreeOff (axes : List Nat) (x y : List Nat) : Prop := off axes x = off axes y

instance (axes x y : List Nat) : Decidable (agreeOff axes x y) := inferInstanceAs (Decidable (_ = _))

/-- The elements of the array that agree with `idx` outside `axes`, in row-major order. -/
def fibre (ds axes : List Nat) (f : List Nat → T) (idx : List Nat) : List T :=
  ((indices ds).filter (fun i => decide (agreeOff axes i idx))).map f

end Spec
end SmartDNN
