import Verif.Model.AdvOps

/-!
# Vectorised reductions (AdvancedTensorOperations.hpp:290-293, 357-360)

`#pragma omp simd reduction(+:x)` lets the compiler give every lane its own copy of `x`, initialised to 0, let every lane add the
terms of its iterations to its copy, and add the copies and the original value of `x` in an order of its choice.  A `Reduction` is
one such choice; `dotProductSimd` and `matrixVectorMulSimd` are the two functions under given choices.
-/

namespace SmartDNN

/-- How the parts of a reduction are added: the original variable, the copy of the lane that runs the iterations `is` in this
order, or the sum of two parts. -/
inductive Reduction where
  | start
  | lane (is : List Nat)
  | join (l r : Reduction)

/-- Terms of the iterations `is` added one after the other to a copy that starts at 0. -/
def laneSum {T : Type} [Zero T] [Add T] (body : Nat → Res T) (is : List Nat) : Res T :=
  is.foldlM (fun acc i => do
    let x ← body i
    return acc + x) 0

/-- Value of a reduction of a variable that starts at 0 (AdvancedTensorOperations.hpp:285, 356), where iteration `i` adds `body i`. -/
def Reduction.eval {T : Type} [Zero T] [Add T] (body : Nat → Res T) : Reduction → Res T
  | .start => .ok 0
  | .lane is => laneSum body is
  | .join l r => do
    let a ← l.eval body
    let b ← r.eval body
    return a + b

namespace Tensor
variable {T : Type}

/-- `dotProduct` (AdvancedTensorOperations.hpp:280-296) with the loop of lines 290-293 reduced as `red` says. -/
def dotProductSimd [Zero T] [Add T] [Mul T] (red : Reduction) (a b : Tensor T) : Res (Tensor T) := do
  let a0 ← a.shape.get 0
  let b0 ← b.shape.get 0
  if a0 ≠ b0 then throw .invalidArgument
  let s ← red.eval (fun i => do
    let x ← a.get i
    let y ← b.get i
    return x * y)
  let sh ← Shape.make [1]
  fromList sh [s]

/-- `matrixVectorMul` (AdvancedTensorOperations.hpp:341-365) with the loop of lines 357-360 reduced as `reds i` says for row `i`. -/
def matrixVectorMulSimd [Zero T] [Add T] [Mul T] (reds : Nat → Reduction) (a b : Tensor T) : Res (Tensor T) := do
  let m ← a.shape.get 0
  let n ← a.shape.get 1
  let b0 ← b.shape.get 0
  if n ≠ b0 then throw .invalidArgument
  let sh ← Shape.make [m]
  forI m (full sh 0) (fun i result => do
    let s ← (reds i.toNat).eval (fun j => do
      let x ← a.get (i * n + j)
      let y ← b.get j
      return x * y)
    result.set i s)

/-- `matmul` (AdvancedTensorOperations.hpp:246-265) with vectorised loops in the two branches that have them; the other branches
have no reduction clause. -/
def matmulSimd [Zero T] [Add T] [Mul T] (reds : Nat → Reduction) (a b : Tensor T) : Res (Tensor T) :=
  if a.shape.rank = 1 ∧ b.shape.rank = 1 then dotProductSimd (reds 0) a b
  else if a.shape.rank = 2 ∧ b.shape.rank = 1 then matrixVectorMulSimd reds a b
  else matmul a b

end Tensor
end SmartDNN
