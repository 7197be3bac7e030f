import Verif.Props.Descent
import Verif.Spec.Bounded

/-!
# What weight decay does (specification for C107)
-/

namespace SmartDNN
open Net Spec

/-- SGD without momentum, with learning rate `lr` and weight decay `wd`, in any state. -/
def Spec.DecaySGD {K : Type} (lr wd : ℝ) (opt : Optimizer K ℝ) : Prop :=
  ∃ o : SGD K ℝ, opt = .sgd o ∧ o.opts.learningRate = lr ∧ o.opts.momentum = 0 ∧ o.opts.weightDecay = wd

/-- The penalty on the parameters `w`: half the weight decay times the sum of their squares. -/
noncomputable def Spec.penalty (wd : ℝ) (ds : List Nat) (w : List Nat → ℝ) : ℝ := wd / 2 * total ds fun i => w i ^ 2

/-- How far from zero Adam can take a parameter when its L2 strength is positive. -/
noncomputable def Spec.adamReach (o : AdamOptions ℝ) : ℝ :=
  ((1 - o.beta1) * √(o.beta2 / ((1 - o.beta2) * (o.beta2 - o.beta1 ^ 2))) / (1 - o.tiny) + max o.l1Strength 0) / o.l2Strength

/-- Options of Adam with an L2 strength, otherwise as in C100, and a reach of at most `R`. -/
structure Spec.DecayAdam (R : ℝ) (o : AdamOptions ℝ) : Prop where
  tame : TameAdam { o with l2Strength := 0 }
  l2 : 0 < o.l2Strength
  small : o.learningRate * o.l2Strength ≤ 1
  reach : adamReach o ≤ R

/-- All elements lie between `-R` and `R`. -/
def Spec.UpToR (R : ℝ) (t : Tensor ℝ) : Prop := ∀ x ∈ t.data, |x| ≤ R

/-- All parameters of all layers lie between `-R` and `R`. -/
def Spec.ParamsUpToR (R : ℝ) (ls : List (Layer ℝ)) : Prop := ∀ l ∈ ls, ∀ p, params l = some p → UpToR R p.1 ∧ UpToR R p.2

/-- A freshly constructed Adam whose L2 strength keeps parameters between `-R` and `R`. -/
def Spec.Anchor {K : Type} (R : ℝ) (opt : Optimizer K ℝ) : Prop := ∃ o : AdamOptions ℝ, opt = .newAdam o ∧ DecayAdam R o

end SmartDNN
