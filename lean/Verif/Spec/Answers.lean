import Verif.Props.Typed
import Verif.Props.RowSamples
import Verif.Props.Flatten
import Verif.Props.Reductions
import Verif.Proofs.BatchNorm

/-!
# Data of the wrong shape (C99)

What a model does with data of *any* dimensions: a table says, for every kind of layer and all dimensions that come in, whether the
layer accepts the data and what dimensions come out, or throws, or stops the program.  `predict` follows the table, and `train`
ends normally or with an exception, also when samples, targets and layers do not fit together.
-/

namespace SmartDNN
open Net Spec

/-! ### Specification -/

/-- What becomes of data of some dimensions. -/
inductive Spec.Answer where
  /-- The call succeeds and returns data of dimensions `es`. -/
  | accepts (es : List Nat)
  /-- A C++ exception is thrown. -/
  | throws
  /-- An assertion fails: the program is aborted. -/
  | aborts
  deriving DecidableEq

/-- The kinds of layer and the sizes they are built with. -/
inductive Spec.Plan where
  /-- Fully connected, `i` inputs, `o` outputs. -/
  | dense (i o : Nat)
  /-- An activation other than softmax. -/
  | elementwise
  | softmax
  | flatten
  /-- Convolution of `ic` channels to `oc` channels with a kernel of `kh` by `kw`. -/
  | conv (ic oc kh kw : Nat)
  /-- Max pooling, window `p`, stride `s`, no padding. -/
  | pool (p s : Nat)
  /-- Dropout, in training mode or not. -/
  | dropout (training : Bool)
  deriving DecidableEq

/-- The table: what a layer does with data of dimensions `ds`. -/
def Spec.Plan.answer : Plan → List Nat → Answer
  | dense i o, [n] => if n = i then .accepts [o] else .throws
  | dense i o, [b, n] => if n = i then .accepts [b, o] else .throws
  | dense i o, [b, m, n] => if n = i then .accepts [b, m, o] else .throws
  | dense _ _, _ => .throws
  | elementwise, ds => .accepts ds
  | softmax, ds => if 2 ≤ ds.length then .accepts ds else .throws
  | flatten, ds => if 2 ≤ ds.length then .accepts [ds.headD 0, ds.tail.prod] else .throws
  | conv ic oc kh kw, [n, c, h, w] =>
    if c ≠ ic then .aborts else if kh ≤ h ∧ kw ≤ w then .accepts [n, oc, h - kh + 1, w - kw + 1] else .throws
  | conv _ _ _ _, _ => .aborts
  | pool p s, [n, c, h, w] =>
    if (p ≤ h ∨ p - h < s) ∧ (p ≤ w ∨ p - w < s) then
      .accepts [n, c, if p ≤ h then (h - p) / s + 1 else 1, if p ≤ w then (w - p) / s + 1 else 1]
    else .throws
  | pool _ _, _ => .throws
  | dropout _, ds => .accepts ds

/-- The layers one after the other: the first one that does not accept what comes in decides. -/
def Spec.run : List Plan → List Nat → Answer
  | [], ds => .accepts ds
  | p :: ps, ds =>
    match p.answer ds with
    | .accepts es => run ps es
    | a => a

/-- Room for what a layer computes on the way: fewer than `2^31` elements. -/
def Spec.Plan.room : Plan → List Nat → Prop
  | dense _ o, [b, m, _] => max m b * (b * o) < 2 ^ 31
  | conv _ oc _ _, [n, _, h, w] => n * oc * h * w < 2 ^ 31
  | _, _ => True

/-- All arrays along the way have fewer than `2^31` elements. -/
def Spec.HasRoom : List Plan → List Nat → Prop
  | [], ds => Dims ds
  | p :: ps, ds => Dims ds ∧ p.room ds ∧ ∀ es, p.answer ds = .accepts es → HasRoom ps es

/-- `Follows l p`: the layer `l` is of the kind and sizes `p` says.  Nothing is said about the numbers and about what earlier calls
left in the layer. -/
inductive Spec.Follows : Layer ℝ → Plan → Prop where
  | dense {i o : Nat} {w bias : List Nat → ℝ} {l : FC ℝ} {mode : Bool} (hd : Dims [i, o])
      (hw : l.weights = ofFn [i, o] w) (hb : l.biases = ofFn [1, o] bias) : Follows ⟨.fc l, mode⟩ (.dense i o)
  | elementwise {l : ActLayer ℝ} {mode : Bool} (ha : l.activation ≠ .softmax) : Follows ⟨.activation l, mode⟩ .elementwise
  | softmax {l : ActLayer ℝ} {mode : Bool} (ha : l.activation = .softmax) : Follows ⟨.activation l, mode⟩ .softmax
  | flatten {l : Flatten} {mode : Bool} : Follows ⟨.flatten l, mode⟩ .flatten
  | conv {ic oc kh kw : Nat} {k b : List Nat → ℝ} {l : Conv ℝ} {mode : Bool} (hd : Dims [oc, ic, kh, kw])
      (h0 : l.inputChannels = ic) (h1 : l.outputChannels = oc) (h2 : l.kernelHeight = kh) (h3 : l.kernelWidth = kw)
      (hw : l.weights = ofFn [oc, ic, kh, kw] k) (hb : l.biases = ofFn [oc, 1] b) :
      Follows ⟨.conv l, mode⟩ (.conv ic oc kh kw)
  | pool {p s : Nat} {ninf : ℝ} {inp : Option (Tensor ℝ)} {mode : Bool} (hp : 0 < p) (hs : 0 < s) :
      Follows ⟨.maxPool ⟨p, s, 0, ninf, inp⟩, mode⟩ (.pool p s)
  | dropout {l : Dropout ℝ} {mode : Bool} : Follows ⟨.dropout l, mode⟩ (.dropout mode)

/-- The outcome of a call is as the table says. -/
def Spec.Outcome (r : Res (Tensor ℝ)) : Answer → Prop
  | .accepts es => ∃ f, r = .ok (ofFn es f)
  | .throws => ∃ e, r = .error e ∧ e.isException = true
  | .aborts => r = .error .abort

/-- Which models can be trained without undefined behaviour: flatten layers get three or more dimensions (`deep` says that the data
coming in have three or more; behind a convolution or a pooling they have four), and dropout layers are in training mode. -/
def Spec.TrainablePlan (deep : Bool) : List Plan → Prop
  | [] => True
  | .dense _ _ :: ps => TrainablePlan false ps
  | .elementwise :: ps => TrainablePlan deep ps
  | .softmax :: ps => TrainablePlan deep ps
  | .flatten :: ps => deep = true ∧ TrainablePlan false ps
  | .conv _ _ _ _ :: ps => TrainablePlan true ps
  | .pool _ _ :: ps => TrainablePlan true ps
  | .dropout training :: ps => training = true ∧ TrainablePlan deep ps

variable {ρ : Type}

/-- A compiled model whose layers are as planned and whose optimizer is fresh or has only been used on this model. -/
def Spec.Planned (net : Net ρ ℝ) (ps : List Plan) (L : Loss ℝ) : Prop :=
  List.Forall₂ Follows net.layers ps ∧ net.loss = some L ∧ ∃ opt, net.optimizer = some opt ∧ RemembersFrom opt 0 net.layers

/-- A sample that the theorem speaks about: dimensions for which there is room in the model, at least three if the model relies on
it. -/
def Spec.Sample (ps : List Plan) (deep : Bool) (t : Tensor ℝ) : Prop :=
  ∃ ds f, t = ofFn ds f ∧ HasRoom ps ds ∧ (deep = true → 3 ≤ ds.length)

/-- A target: any dimensions, but not one dimension if the loss is the cross entropy. -/
def Spec.Target (L : Loss ℝ) (t : Tensor ℝ) : Prop := ∃ ds f, t = ofFn ds f ∧ Dims ds ∧ (L = .mse ∨ ds.length ≠ 1)

end SmartDNN
