import Verif.Props.Answers
import Verif.Props.BatchNorm
import Verif.Props.MaxPool

/-!
# Data of the wrong shape, with batch normalisation and padded pooling (specification for C99)
-/

namespace SmartDNN
open Net Spec

/-- A layer of one of the kinds of `Plan`, batch normalisation of `F` features, or max pooling with padding. -/
inductive Spec.FullPlan where
  | plain (p : Plan)
  /-- Batch normalisation of `F` features. -/
  | norm (F : Nat)
  /-- Max pooling, window `p`, stride `s`, padding `q`. -/
  | padded (p s q : Nat)
  deriving DecidableEq

/-- The table continued.  Batch normalisation takes matrices and batches of images; a batch with one feature is stretched to the features of the layer, and a layer for
one feature takes any number of features.  Padded pooling takes nothing. -/
def Spec.FullPlan.answer : FullPlan → List Nat → Answer
  | plain p, ds => p.answer ds
  | norm F, [n, G] => if G = F ∨ F = 1 then .accepts [n, G] else if G = 1 then .accepts [n, F] else .throws
  | norm F, [n, G, h, w] => if G = F ∨ F = 1 then .accepts [n, G, h, w] else if G = 1 then .accepts [n, F, h, w] else .throws
  | norm _, _ => .throws
  | padded _ _ _, _ => .throws

/-- The layers one after the other: the first one that does not accept what comes in decides. -/
def Spec.FullPlan.run : List FullPlan → List Nat → Answer
  | [], ds => .accepts ds
  | p :: ps, ds =>
    match p.answer ds with
    | .accepts es => FullPlan.run ps es
    | a => a

/-- Room for what a layer computes on the way. -/
def Spec.FullPlan.room : FullPlan → List Nat → Prop
  | plain p, ds => p.room ds
  | _, _ => True

/-- All arrays along the way have fewer than `2^31` elements. -/
def Spec.FullPlan.HasRoom : List FullPlan → List Nat → Prop
  | [], ds => Dims ds
  | p :: ps, ds => Dims ds ∧ p.room ds ∧ ∀ es, p.answer ds = .accepts es → FullPlan.HasRoom ps es

/-- The layer is of the kind and sizes the plan says; running statistics as a new layer has them, or a layer that was used on vectors. -/
inductive Spec.FollowsFull : Layer ℝ → FullPlan → Prop where
  | plain {l : Layer ℝ} {p : Plan} (h : Follows l p) : FollowsFull l (.plain p)
  | norm {F : Nat} {γ β m v : List Nat → ℝ} {l : BatchNorm ℝ} {mode : Bool} (hd : Dims [1, F]) (hγ : l.gamma = ofFn [1, F] γ) (hβ : l.beta = ofFn [1, F] β)
      (hm : l.runningMean = ofFn [1, F] m) (hv : l.runningVariance = ofFn [1, F] v) : FollowsFull ⟨.batchNorm l, mode⟩ (.norm F)
  | padded {p s q : Nat} {ninf : ℝ} {inp : Option (Tensor ℝ)} {mode : Bool} (hp : 0 < p) (hs : 0 < s) (hq : 0 < q) :
      FollowsFull ⟨.maxPool ⟨p, s, q, ninf, inp⟩, mode⟩ (.padded p s q)

end SmartDNN
