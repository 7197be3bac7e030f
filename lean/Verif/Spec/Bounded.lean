import Verif.Props.Frozen
import Verif.Props.Interrupted

/-!
# How far training can move a parameter (specification for C100)
-/

namespace SmartDNN
open Net Spec

/-- What the options of Adam have to satisfy. -/
structure Spec.TameAdam (o : AdamOptions ℝ) : Prop where
  rate : 0 ≤ o.learningRate
  beta1_nonneg : 0 ≤ o.beta1
  beta1_lt : o.beta1 < 1
  beta2_lt : o.beta2 < 1
  betas : o.beta1 ^ 2 < o.beta2
  correction : 1 - o.beta2 ≤ (1 - o.beta1) ^ 2
  epsilon : 0 < o.epsilon
  batch : o.batchSize ≠ 0
  tiny_nonneg : 0 ≤ o.tiny
  tiny_lt : o.tiny < 1
  noL2 : o.l2Strength ≤ 0

/-- What the options of RMSProp have to satisfy. -/
structure Spec.TameRMSProp (o : RMSPropOptions ℝ) : Prop where
  rate : 0 ≤ o.learningRate
  alpha_nonneg : 0 ≤ o.alpha
  alpha_lt : o.alpha < 1
  epsilon : 0 < o.epsilon
  momentum : o.momentum < 1
  plain : o.centered = false

/-- The longest step of Adam: a multiple of the learning rate that depends on the two betas, and the L1 term. -/
noncomputable def Spec.adamStep (o : AdamOptions ℝ) : ℝ :=
  o.learningRate * ((1 - o.beta1) * √(o.beta2 / ((1 - o.beta2) * (o.beta2 - o.beta1 ^ 2))) / (1 - o.tiny) + max o.l1Strength 0)

/-- The longest step of RMSProp. -/
noncomputable def Spec.rmsStep (o : RMSPropOptions ℝ) : ℝ :=
  o.learningRate * (1 / (√(1 - o.alpha) * (1 - max o.momentum 0)))

/-- Two tensors of the same size with elements at most `d` apart. -/
def Spec.MovedBy (d : ℝ) (t t' : Tensor ℝ) : Prop :=
  t'.shape = t.shape ∧ t'.data.length = t.data.length ∧ ∀ j, |t'.data.getD j 0 - t.data.getD j 0| ≤ d

/-- No parameter differs by more than `d`: layers without parameters stay such, the others keep the shapes of both parameters. -/
def Spec.PairMoved (d : ℝ) : Option (Tensor ℝ × Tensor ℝ) → Option (Tensor ℝ × Tensor ℝ) → Prop
  | none, none => True
  | some p, some q => MovedBy d p.1 q.1 ∧ MovedBy d p.2 q.2
  | _, _ => False

/-- Every parameter of every layer is within `d` of what it was. -/
def Spec.ParamsMoved (d : ℝ) (ls ls' : List (Layer ℝ)) : Prop := List.Forall₂ (fun l l' => PairMoved d (params l) (params l')) ls ls'

/-- Freshly constructed Adam or RMSProp (not centered) with sensible options and a longest step of at most `B`. -/
inductive Spec.Tame {K : Type} (B : ℝ) : Optimizer K ℝ → Prop where
  | adam (o : AdamOptions ℝ) (h : TameAdam o) (hB : adamStep o ≤ B) : Tame B (.newAdam o)
  | rmsprop (o : RMSPropOptions ℝ) (h : TameRMSProp o) (hB : rmsStep o ≤ B) : Tame B (.newRMSProp o)

/-- How many updates of the weights a call can make: one for every sample of every epoch of training, one for a direct call. -/
def Spec.Use.updates : Use → Nat
  | .train inputs _ epochs => epochs.toNat * inputs.length
  | .updateWeights => 1
  | _ => 0

/-- The same for a history of calls. -/
def Spec.updates (us : List Use) : Nat := (us.map Use.updates).sum

end SmartDNN
