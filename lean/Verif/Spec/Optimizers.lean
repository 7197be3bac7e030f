import Verif.Spec.RealFns
import Mathlib.Algebra.BigOperators.Group.Finset.Basic

/-!
# Update rules of the optimizers, for one scalar parameter

Sequences indexed by the call number: `g i` is the gradient of call `i`, `rate i` the learning rate of
call `i`.  The `n`-th member is the value after `n` calls.
-/

namespace SmartDNN.Spec

/-- SGD with momentum `mu`, dampening `d`, weight decay `wd`: (weight, velocity). -/
def sgd {T : Type} [CommRing T] [DecidableEq T] (mu d wd : T) (nesterov : Bool) (rate g : Nat → T) (w0 : T) :
    Nat → T × T
  | 0 => (w0, 0)
  | n + 1 =>
    let (w, v) := sgd mu d wd nesterov rate g w0 n
    let g' := g n + wd * w
    let v' := mu * v + (1 - d) * g'
    let step := if mu = 0 then g' else if nesterov then g' + mu * v' else v'
    (w - rate n * step, v')

/-- RMSProp state: weight, running average of squares, running mean, velocity. -/
structure RMS where
  w : ℝ
  sq : ℝ
  mean : ℝ
  vel : ℝ

/-- RMSProp. -/
noncomputable def rmsprop (alpha eps mu wd : ℝ) (centered : Bool) (rate g : Nat → ℝ) (w0 : ℝ) : Nat → RMS
  | 0 => ⟨w0, 0, 0, 0⟩
  | n + 1 =>
    let s := rmsprop alpha eps mu wd centered rate g w0 n
    let g' := g n + wd * s.w
    let sq := alpha * s.sq + (1 - alpha) * g' ^ 2
    let mean := alpha * s.mean + (1 - alpha) * g'
    let u := g' / Real.sqrt (sq - (if centered then mean ^ 2 else 0) + eps)
    let vel := mu * s.vel + u
    ⟨s.w - rate n * (if 0 < mu then vel else u), sq, mean, vel⟩

/-- Exponential moving average with decay `beta` of the gradients of the calls that include the
parameter (`none`: call without it). -/
def ema (beta : ℝ) (g : Nat → Option ℝ) : Nat → ℝ
  | 0 => 0
  | n + 1 =>
    match g n with
    | none => ema beta g n
    | some x => beta * ema beta g n + (1 - beta) * x

/-- Sign. -/
noncomputable def sign (x : ℝ) : ℝ := if 0 < x then 1 else if x < 0 then -1 else 0

/-- Adam with a step factor `c t` (1 in the published algorithm): weight after `n` calls; the bias
corrections use the call number `t = n + 1`; a strength `<= 0` switches the penalty off. -/
noncomputable def adam (c : Nat → ℝ) (beta1 beta2 eps l1 l2 : ℝ) (rate : Nat → ℝ) (g : Nat → Option ℝ)
    (w0 : ℝ) : Nat → ℝ
  | 0 => w0
  | n + 1 =>
    let w := adam c beta1 beta2 eps l1 l2 rate g w0 n
    match g n with
    | none => w
    | some _ =>
      let mHat := ema beta1 g (n + 1) / (1 - beta1 ^ (n + 1))
      let vHat := ema beta2 (fun i => (g i).map (· ^ 2)) (n + 1) / (1 - beta2 ^ (n + 1))
      w - (rate n * c (n + 1) * mHat / (Real.sqrt vHat + eps) +
        rate n * max l1 0 * sign w + rate n * max l2 0 * w)

end SmartDNN.Spec
