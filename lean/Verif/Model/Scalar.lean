import Verif.Model.AdvOps

/-!
# Scalar functions used by activations, losses and optimizers
-/

namespace SmartDNN

/-- The `<cmath>` functions the library calls, for an arbitrary element type `T`.  `toFloat` is the
conversion of an argument of type `T` to `float` and back (the lambda of Sigmoid takes a `float`,
Activations/Sigmoid.hpp:23). -/
class MathFn (T : Type) where
  exp : T → T
  log : T → T
  sqrt : T → T
  tanh : T → T
  /-- `std::pow(x, n)` with an `int` exponent `n >= 0`. -/
  powi : T → Nat → T
  toFloat : T → T

section
variable {T : Type} [LT T] [DecidableLT T]

/-- `std::max(a, b)`: `(a < b) ? b : a`. -/
def cmax (a b : T) : T := if a < b then b else a

/-- `std::min(a, b)`: `(b < a) ? b : a`. -/
def cmin (a b : T) : T := if b < a then b else a

/-- `*std::max_element(p, p + n)` on the buffer `d` from position `off`: the first largest element;
reading an empty range is UB (here: when there is no element at `off`; `n >= 1` in all callers). -/
def maxElement (d : List T) (off : Int) (n : Int) : Res T := do
  let first ← rd d off
  forI (n - 1) first (fun i m => do
    let x ← rd d (off + (i + 1))
    return if m < x then x else m)

end
end SmartDNN
