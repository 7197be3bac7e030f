import Verif.Props.Renamed
import Verif.Props.Frozen

/-!
# Signs of features, units and targets, and where the targets have their zero (specification for C119)
-/

namespace SmartDNN
open Net Spec

/-- Every value is 1 or -1. -/
def Spec.Signs (σ : Nat → ℝ) : Prop := ∀ i, σ i = 1 ∨ σ i = -1

/-- No sign is changed. -/
def Spec.plus : Nat → ℝ := fun _ => 1

/-- Nothing is added. -/
def Spec.nought : Nat → ℝ := fun _ => 0

/-- A batch of rows with the column number `j` multiplied by `σ j` and increased by `d j`; a tensor that is not of rank two keeps its values. -/
def Spec.measured (σ d : Nat → ℝ) (f : List Nat → ℝ) : List Nat → ℝ
  | [i, j] => σ j * f [i, j] + d j
  | idx => f idx

/-- What happens to a layer: nothing, or the inputs of a dense layer `n → m` have their signs changed by `σ` and its outputs by `τ`, and `d` is added to its
biases. -/
inductive Spec.Mirroring where
  | keep
  | units (n m : Nat) (σ τ d : Nat → ℝ)

/-- `Mirrored R σ τ d l l'`: `l'` is the layer `l` for inputs whose signs have been changed by `σ`, giving outputs whose signs are changed by `τ` and to which `d`
is added.  A dense layer can do that by the signs of its weights and biases; tanh passes signs on; any layer can be kept as it is if there is nothing to change. -/
inductive Spec.Mirrored : Mirroring → (Nat → ℝ) → (Nat → ℝ) → (Nat → ℝ) → Layer ℝ → Layer ℝ → Prop where
  | dense {n m : Nat} {σ τ d : Nat → ℝ} {w bias : List Nat → ℝ} {f f' : FC ℝ} {mode : Bool} (hσ : Signs σ) (hτ : Signs τ)
      (hw : f.weights = ofFn [n, m] w) (hb : f.biases = ofFn [1, m] bias)
      (hw' : f'.weights = ofFn [n, m] fun i => σ (i.getD 0 0) * τ (i.getD 1 0) * w i)
      (hb' : f'.biases = ofFn [1, m] fun i => τ (i.getD 1 0) * bias i + d (i.getD 1 0)) :
      Mirrored (.units n m σ τ d) σ τ d ⟨.fc f, mode⟩ ⟨.fc f', mode⟩
  | tanh {σ : Nat → ℝ} {a a' : ActLayer ℝ} {mode : Bool} (hσ : Signs σ) (h : a.activation = .tanh) (h' : a'.activation = .tanh) :
      Mirrored .keep σ σ nought ⟨.activation a, mode⟩ ⟨.activation a', mode⟩
  | same (l : Layer ℝ) : Mirrored .keep plus plus nought l l

/-- The layers of a model with signs changed; only the last layer adds something. -/
inductive Spec.MirroredAll : List Mirroring → (Nat → ℝ) → (Nat → ℝ) → (Nat → ℝ) → List (Layer ℝ) → List (Layer ℝ) → Prop where
  | last {R : Mirroring} {σ τ d : Nat → ℝ} {l l' : Layer ℝ} (h : Mirrored R σ τ d l l') : MirroredAll [R] σ τ d [l] [l']
  | cons {R : Mirroring} {Rs : List Mirroring} {σ τ υ d : Nat → ℝ} {l l' : Layer ℝ} {ls ls' : List (Layer ℝ)} (h : Mirrored R σ τ nought l l')
      (hs : MirroredAll Rs τ υ d ls ls') : MirroredAll (R :: Rs) σ υ d (l :: ls) (l' :: ls')

/-- How the tensors of a parameter correspond: dimensions, signs, what is added. -/
abbrev Spec.MFrame := Option (List Nat × (List Nat → ℝ) × (List Nat → ℝ))

/-- The correspondence of the weights (`false`) and biases (`true`) of layer `k.1`. -/
def Spec.mframe (Rs : List Mirroring) (k : Nat × Bool) : MFrame :=
  match Rs[k.1]? with
  | some (.units n m σ τ d) => if k.2 then some ([1, m], fun i => τ (i.getD 1 0), fun i => d (i.getD 1 0))
      else some ([n, m], fun i => σ (i.getD 0 0) * τ (i.getD 1 0), fun _ => 0)
  | _ => none

/-- Gradients and averages of gradients correspond by signs alone. -/
def Spec.MFrame.signs : MFrame → MFrame := Option.map fun F => (F.1, F.2.1, fun _ => 0)

/-- Averages of squared gradients are the same. -/
def Spec.MFrame.same : MFrame → MFrame := Option.map fun F => (F.1, fun _ => 1, fun _ => 0)

/-- `t'` is `t` with the signs changed and something added. -/
def Spec.TensorMirror : MFrame → Tensor ℝ → Tensor ℝ → Prop
  | none, t, t' => t = t'
  | some (ds, s, d), t, t' => ∃ v : List Nat → ℝ, t = ofFn ds v ∧ t' = ofFn ds fun i => s i * v i + d i

/-- The entries of two optimizers about every parameter correspond. -/
def Spec.MapMirror {K : Type} (fr : K → MFrame) (M M' : TMap K ℝ) : Prop :=
  ∀ k, (M k = none ∧ M' k = none) ∨ ∃ t t', M k = some t ∧ M' k = some t' ∧ TensorMirror (fr k) t t'

/-- Two optimizers with the same options whose memories correspond. -/
def Spec.OptMirror {K : Type} (fr : K → MFrame) : Optimizer K ℝ → Optimizer K ℝ → Prop
  | .sgd o, .sgd o' => o.opts = o'.opts ∧ MapMirror (fun k => (fr k).signs) o.momentumBuffers o'.momentumBuffers
  | .rmsprop o, .rmsprop o' => o.opts = o'.opts ∧ MapMirror (fun k => (fr k).same) o.squaredGrads o'.squaredGrads ∧
      MapMirror (fun k => (fr k).signs) o.meanGrads o'.meanGrads ∧ MapMirror (fun k => (fr k).signs) o.velocityBuffers o'.velocityBuffers
  | .adam o, .adam o' => o.opts = o'.opts ∧ o.learningRate = o'.learningRate ∧ o.iterations = o'.iterations ∧ MapMirror (fun k => (fr k).signs) o.m o'.m ∧
      MapMirror (fun k => (fr k).same) o.v o'.v
  | _, _ => False

/-- Neither weight decay nor penalties. -/
def Spec.NoDecay {K : Type} : Optimizer K ℝ → Prop
  | .sgd o => o.opts.weightDecay = 0
  | .rmsprop o => o.opts.weightDecay = 0
  | .adam o => o.opts.l1Strength ≤ 0 ∧ o.opts.l2Strength ≤ 0

/-- `net'` is `net` for inputs with the signs `σ` and for outputs with the signs `υ`, counted from `d`.  Something other than zero is only added if nothing pulls
the parameters towards zero, and outputs are only changed if the loss is the squared error. -/
def Spec.Mirrors {ρ : Type} (Rs : List Mirroring) (σ υ d : Nat → ℝ) (net net' : Net ρ ℝ) : Prop :=
  MirroredAll Rs σ υ d net.layers net'.layers ∧ net'.loss = net.loss ∧ net'.rng = net.rng ∧ (net.loss = some .mse ∨ (υ = plus ∧ d = nought)) ∧
    ∃ opt opt', net.optimizer = some opt ∧ net'.optimizer = some opt' ∧ OptMirror (mframe Rs) opt opt' ∧ (NoDecay opt ∨ d = nought)

/-- Layers `p` and `p + 2` are dense, and unit `i` between them has only zeros as incoming weights, bias and outgoing weights. -/
def Spec.ZeroUnit (ls : List (Layer ℝ)) (p i : Nat) : Prop :=
  ∃ (f g : FC ℝ) (mode mode' : Bool) (n h m : Nat) (w b v : List Nat → ℝ), ls[p]? = some ⟨.fc f, mode⟩ ∧ ls[p + 2]? = some ⟨.fc g, mode'⟩ ∧
    f.weights = ofFn [n, h] w ∧ f.biases = ofFn [1, h] b ∧ g.weights = ofFn [h, m] v ∧ i < h ∧ (∀ q < n, w [q, i] = 0) ∧ b [0, i] = 0 ∧ ∀ q < m, v [i, q] = 0

/-- Training and predictions with data of the dimensions `ds` and `es`. -/
def Spec.Use.Fits (ds es : List Nat) : Use → Prop
  | .train xs ys _ => xs ≠ [] ∧ xs.length ≤ ys.length ∧ (∀ x ∈ xs, HasDims ds x) ∧ ∀ y ∈ ys, HasDims es y
  | .predict x => HasDims ds x
  | _ => False

end SmartDNN
