import Verif.Props.Train

/-!
# Consistent tensors (specification for C101)

Which tensors a program can get from the library, and what it means that a tensor agrees with its shape.
-/

namespace SmartDNN
open Net Spec

/-- The tensor is intact: its shape is the one the constructor of `Shape` builds from its dimensions (so there is at least one
dimension, all are positive, and size and strides agree with them), and its buffer holds exactly `size` elements. -/
def Spec.Intact {T : Type} (t : Tensor T) : Prop := Shape.make t.shape.dims = .ok t.shape ∧ t.data.length = t.shape.size

/-- A stored tensor, if there is one, is intact. -/
def Spec.IntactOpt {T : Type} (o : Option (Tensor T)) : Prop := ∀ t, o = some t → Intact t

/-- Every tensor a fully connected layer owns is intact. -/
structure Spec.IntactFC {T : Type} (l : FC T) : Prop where
  weights : Intact l.weights
  biases : Intact l.biases
  input : IntactOpt l.input
  weightGradients : IntactOpt l.weightGradients
  biasGradients : IntactOpt l.biasGradients

/-- Every tensor a convolution layer owns is intact. -/
structure Spec.IntactConv {T : Type} (l : Conv T) : Prop where
  weights : Intact l.weights
  biases : Intact l.biases
  input : IntactOpt l.input
  weightGradients : IntactOpt l.weightGradients
  biasGradients : IntactOpt l.biasGradients

/-- Every tensor a batch normalisation layer owns is intact. -/
structure Spec.IntactBN {T : Type} (l : BatchNorm T) : Prop where
  gamma : Intact l.gamma
  beta : Intact l.beta
  runningMean : Intact l.runningMean
  runningVariance : Intact l.runningVariance
  batchMean : IntactOpt l.batchMean
  batchVariance : IntactOpt l.batchVariance
  normalizedInput : IntactOpt l.normalizedInput
  gammaGrad : IntactOpt l.gammaGrad
  betaGrad : IntactOpt l.betaGrad

/-- Every tensor a layer owns is intact. -/
def Spec.IntactLayer {T : Type} (l : Layer T) : Prop :=
  match l.kind with
  | .fc l => IntactFC l
  | .conv l => IntactConv l
  | .flatten _ => True
  | .maxPool l => IntactOpt l.input
  | .batchNorm l => IntactBN l
  | .dropout l => IntactOpt l.mask
  | .activation l => IntactOpt l.input

/-- Every buffer an optimizer keeps is intact. -/
def Spec.IntactOptimizer {K T : Type} : Optimizer K T → Prop
  | .sgd o => ∀ k, IntactOpt (o.momentumBuffers k)
  | .rmsprop o => (∀ k, IntactOpt (o.squaredGrads k)) ∧ (∀ k, IntactOpt (o.meanGrads k)) ∧ ∀ k, IntactOpt (o.velocityBuffers k)
  | .adam o => (∀ k, IntactOpt (o.m k)) ∧ ∀ k, IntactOpt (o.v k)

/-- Every tensor a model owns is intact. -/
structure Spec.IntactNet {ρ T : Type} (net : Net ρ T) : Prop where
  layers : ∀ l ∈ net.layers, IntactLayer l
  optimizer : ∀ opt, net.optimizer = some opt → IntactOptimizer opt

section
variable {ρ T : Type} [Zero T] [One T] [Add T] [Sub T] [Mul T] [Div T] [Neg T] [NatCast T] [IntCast T]
  [LT T] [DecidableLT T] [LE T] [DecidableLE T] [DecidableEq T] [MathFn T]

/-- The tensors a program can get hold of: made by a constructor or a factory, or returned by an operation on such tensors, or left
behind in a variable by an operation that works in place, also when that operation throws. -/
inductive Spec.Reachable (E : Engine ρ T) : Tensor T → Prop where
  | full {ds s} (h : Shape.make ds = .ok s) (v : T) : Reachable E (.full s v)
  | zeros {ds s} (h : Shape.make ds = .ok s) : Reachable E (.zeros s)
  | fromList {ds s out} (h : Shape.make ds = .ok s) (values : List T) (e : Tensor.fromList s values = .ok out) : Reachable E out
  | fromPtr {ds s out} (h : Shape.make ds = .ok s) (src : List T) (e : Tensor.fromPtr s src = .ok out) : Reachable E out
  | identity {n : Int} {out} (h : n < 2 ^ 31) (e : Tensor.identity n = .ok out) : Reachable E out
  | zerosN {n out} (e : Tensor.zerosN n = .ok out) : Reachable E out
  | onesN {n out} (e : Tensor.onesN n = .ok out) : Reachable E out
  | rand {ds s r out} (h : Shape.make ds = .ok s) (e : Tensor.rand E s r = .ok out) : Reachable E out.1
  | randn {ds s lo hi r out} (h : Shape.make ds = .ok s) (e : Tensor.randn E s lo hi r = .ok out) : Reachable E out.1
  | set {t i v out} (h : Reachable E t) (e : t.set i v = .ok out) : Reachable E out
  | setAt {t idx v out} (h : Reachable E t) (e : t.setAt idx v = .ok out) : Reachable E out
  | modifyAt {t idx f out} (h : Reachable E t) (e : t.modifyAt idx f = .ok out) : Reachable E out
  | fill {t v out} (h : Reachable E t) (e : t.fill v = .ok out) : Reachable E out
  | reshape {t ds} (h : Reachable E t) : Reachable E (Tensor.reshapeM ds t).2
  | reshaped {t ds out} (h : Reachable E t) (e : t.reshaped ds = .ok out) : Reachable E out
  | slice {t d i out} (h : Reachable E t) (e : t.slice d i = .ok out) : Reachable E out
  | add {a b out} (ha : Reachable E a) (hb : Reachable E b) (e : a.add b = .ok out) : Reachable E out
  | sub {a b out} (ha : Reachable E a) (hb : Reachable E b) (e : a.sub b = .ok out) : Reachable E out
  | mul {a b out} (ha : Reachable E a) (hb : Reachable E b) (e : a.mul b = .ok out) : Reachable E out
  | div {a b out} (ha : Reachable E a) (hb : Reachable E b) (e : a.div b = .ok out) : Reachable E out
  | inPlace {a : Tensor T} (op : T → T → T) (b : Option (Tensor T)) (ha : Reachable E a) : Reachable E (Tensor.binopInPlaceM op b a).2
  | apply {t f out} (h : Reachable E t) (e : t.apply f = .ok out) : Reachable E out
  | mapInPlace {t f out} (h : Reachable E t) (e : t.mapInPlace f = .ok out) : Reachable E out
  | addScalar {t s out} (h : Reachable E t) (e : t.addScalar s = .ok out) : Reachable E out
  | subScalar {t s out} (h : Reachable E t) (e : t.subScalar s = .ok out) : Reachable E out
  | mulScalar {t s out} (h : Reachable E t) (e : t.mulScalar s = .ok out) : Reachable E out
  | divScalar {t s out} (h : Reachable E t) (e : t.divScalar s = .ok out) : Reachable E out
  | neg {t out} (h : Reachable E t) (e : t.neg = .ok out) : Reachable E out
  | scalarSub {s t out} (h : Reachable E t) (e : Tensor.scalarSub s t = .ok out) : Reachable E out
  | scalarDiv {s t out} (h : Reachable E t) (e : Tensor.scalarDiv s t = .ok out) : Reachable E out
  | applyPair {a b f out} (ha : Reachable E a) (hb : Reachable E b) (e : a.applyPair b f = .ok out) : Reachable E out
  | reciprocal {t g eps out} (h : Reachable E t) (e : t.reciprocal g eps = .ok out) : Reachable E out
  | sumAll {t out} (h : Reachable E t) (e : t.sumAll = .ok out) : Reachable E out
  | sumAxis {t a out} (h : Reachable E t) (e : t.sumAxis a = .ok out) : Reachable E out
  | sumAxes {t as out} (h : Reachable E t) (e : t.sumAxes as = .ok out) : Reachable E out
  | meanAll {t out} (h : Reachable E t) (e : t.meanAll = .ok out) : Reachable E out
  | meanAxes {t as out} (h : Reachable E t) (e : t.meanAxes as = .ok out) : Reachable E out
  | varianceAll {t m out} (h : Reachable E t) (hm : Reachable E m) (e : t.varianceAll m = .ok out) : Reachable E out
  | varianceAxes {t m as out} (h : Reachable E t) (hm : Reachable E m) (e : t.varianceAxes m as = .ok out) : Reachable E out
  | transpose {t i j out} (h : Reachable E t) (e : t.transpose i j = .ok out) : Reachable E out
  | matmul {a b out} (ha : Reachable E a) (hb : Reachable E b) (e : a.matmul b = .ok out) : Reachable E out
  | activate {t out} (a : Act T) (h : Reachable E t) (e : a.forward t = .ok out) : Reachable E out
  | activateBack {t g out} (a : Act T) (h : Reachable E t) (hg : Reachable E g) (e : a.backward t g = .ok out) : Reachable E out
  | loss {p t out} (L : Loss T) (hp : Reachable E p) (ht : Reachable E t) (e : L.compute p t = .ok out) : Reachable E out
  | lossBack {p t out} (L : Loss T) (hp : Reachable E p) (ht : Reachable E t) (e : L.gradient p t = .ok out) : Reachable E out
  | im2col {t kh kw s p d out} (h : Reachable E t) (e : Conv.im2col t kh kw s p d = .ok out) : Reachable E out
  | col2im {t ds sh kh kw s p d out} (h : Reachable E t) (hs : Shape.make ds = .ok sh) (e : Conv.col2im t sh kh kw s p d = .ok out) :
      Reachable E out

/-- The calls of the public interface of a model, with the layers and optimizers they take. -/
inductive Spec.Visit (T : Type) where
  | train (inputs targets : List (Tensor T)) (epochs : Int)
  | predict (input : Tensor T)
  | predictAll (inputs : List (Tensor T))
  | backward (gradOutput : Tensor T)
  | updateWeights
  | mode (training : Bool)
  | compile (loss : Loss T) (opt : Optimizer (Nat × Bool) T)
  | addLayer (l : Layer T)
  | setLayer (i : Nat) (l : Layer T)

/-- The tensors a call hands out: predictions, and the losses a training prints. -/
def Spec.handed {α : Type} (f : α → List (Tensor T)) : Res α → List (Tensor T)
  | .ok a => f a
  | .error _ => []

/-- The model after a call, whether it returns or throws, and the tensors handed out. -/
def Spec.Visit.apply (E : Engine ρ T) (net : Net ρ T) : Visit T → Net ρ T × List (Tensor T)
  | .train xs ys n => ((trainCall E xs ys n net).2.1, (trainCall E xs ys n net).2.2)
  | .predict x => ((Net.predict E x net).2, handed (fun y => [y]) (Net.predict E x net).1)
  | .predictAll xs => ((Net.predictAll E xs net).2, handed id (Net.predictAll E xs net).1)
  | .backward g => ((Net.backward g net).2, [])
  | .updateWeights => ((Net.updateWeights net).2, [])
  | .mode b => (net.setTrainingMode b, [])
  | .compile L opt => (net.compile L opt, [])
  | .addLayer l => (net.addLayer l, [])
  | .setLayer i l => ({ net with layers := net.layers.set i l }, [])

/-- What the caller passes is intact: data, layers, optimizers (targets need not be). -/
def Spec.Visit.Proper : Visit T → Prop
  | .train xs _ _ => ∀ x ∈ xs, Intact x
  | .predict x => Intact x
  | .predictAll xs => ∀ x ∈ xs, Intact x
  | .backward g => Intact g
  | .compile _ opt => IntactOptimizer opt
  | .addLayer l => IntactLayer l
  | .setLayer _ l => IntactLayer l
  | _ => True

/-- A history of calls: the last state of the model and everything handed out on the way. -/
def Spec.visits (E : Engine ρ T) : List (Visit T) → Net ρ T → Net ρ T × List (Tensor T)
  | [], net => (net, [])
  | v :: vs, net => ((visits E vs (v.apply E net).1).1, (v.apply E net).2 ++ (visits E vs (v.apply E net).1).2)

end
end SmartDNN
