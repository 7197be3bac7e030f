import Verif.Spec.Reduce

/-!
# Specification of transposition and matrix products
-/

namespace SmartDNN
namespace Spec

variable {T : Type}

/-- `x` with the entries at positions `a` and `b` exchanged. -/
def swapped {α : Type} (a b : Nat) (x : List α) : List α :=
  x.mapIdx (fun i v => if i = a then x.getD b v else if i = b then x.getD a v else v)

/-- Inner product of length `k`, accumulated in increasing order. -/
def dot [Zero T] [Add T] [Mul T] (k : Nat) (x y : Nat → T) : T :=
  lsum ((List.range k).map (fun p => x p * y p))

end Spec
end SmartDNN
