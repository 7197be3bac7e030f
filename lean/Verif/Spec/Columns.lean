import Verif.Props.Renamed

/-!
# One output among others (specification for C120)
-/

namespace SmartDNN
open Net Spec

/-- Both tensors have the dimensions `ds`, and they have the same values in column `j`. -/
def Spec.SameColumn (j : Nat) (ds : List Nat) (t t' : Tensor ℝ) : Prop :=
  ∃ v v' : List Nat → ℝ, t = ofFn ds v ∧ t' = ofFn ds v' ∧ ∀ i, ValidIdx ds i → i.getD 1 0 = j → v' i = v i

/-- What corresponds in two layers: everything, or one column of the parameters of a dense layer `n → m`. -/
inductive Spec.Part where
  | whole
  | column (n m : Nat)

/-- `Aligned j R s s' l l'`: in front of the dense layer (`s' = false`) the layers are the same and have no parameters; the dense layers have the same weights and the
same bias for output `j`; behind (`s = true`) there are the same elementwise activations. -/
inductive Spec.Aligned (j : Nat) : Part → Bool → Bool → Layer ℝ → Layer ℝ → Prop where
  | front (l : Layer ℝ) (h : params l = none) : Aligned j .whole false false l l
  | dense {n m : Nat} {f f' : FC ℝ} {mode : Bool} (hw : SameColumn j [n, m] f.weights f'.weights) (hb : SameColumn j [1, m] f.biases f'.biases) :
      Aligned j (.column n m) false true ⟨.fc f, mode⟩ ⟨.fc f', mode⟩
  | behind {a a' : ActLayer ℝ} {mode : Bool} (ha : a.activation ≠ .softmax) (h : a'.activation = a.activation) :
      Aligned j .whole true true ⟨.activation a, mode⟩ ⟨.activation a', mode⟩

/-- The layers of two models that correspond in output `j`. -/
inductive Spec.AlignedAll (j : Nat) : List Part → Bool → Bool → List (Layer ℝ) → List (Layer ℝ) → Prop where
  | nil (s : Bool) : AlignedAll j [] s s [] []
  | cons {R : Part} {Rs : List Part} {s s' s'' : Bool} {l l' : Layer ℝ} {ls ls' : List (Layer ℝ)} (h : Aligned j R s s' l l')
      (hs : AlignedAll j Rs s' s'' ls ls') : AlignedAll j (R :: Rs) s s'' (l :: ls) (l' :: ls')

/-- The dimensions of the parameters of layer `k.1` if they correspond in one column. -/
def Spec.cframe (Rs : List Part) (k : Nat × Bool) : Option (List Nat) :=
  match Rs[k.1]? with
  | some (.column n m) => if k.2 then some [1, m] else some [n, m]
  | _ => none

/-- The tensors are the same, or the same in column `j`. -/
def Spec.TensorAligned (j : Nat) : Option (List Nat) → Tensor ℝ → Tensor ℝ → Prop
  | none, t, t' => t = t'
  | some ds, t, t' => SameColumn j ds t t'

/-- The entries of two optimizers about every parameter correspond. -/
def Spec.MapAligned {K : Type} (j : Nat) (fr : K → Option (List Nat)) (M M' : TMap K ℝ) : Prop :=
  ∀ k, (M k = none ∧ M' k = none) ∨ ∃ t t', M k = some t ∧ M' k = some t' ∧ TensorAligned j (fr k) t t'

/-- Two optimizers with the same options whose memories correspond. -/
def Spec.OptAligned {K : Type} (j : Nat) (fr : K → Option (List Nat)) : Optimizer K ℝ → Optimizer K ℝ → Prop
  | .sgd o, .sgd o' => o.opts = o'.opts ∧ MapAligned j fr o.momentumBuffers o'.momentumBuffers
  | .rmsprop o, .rmsprop o' => o.opts = o'.opts ∧ MapAligned j fr o.squaredGrads o'.squaredGrads ∧ MapAligned j fr o.meanGrads o'.meanGrads ∧
      MapAligned j fr o.velocityBuffers o'.velocityBuffers
  | .adam o, .adam o' => o.opts = o'.opts ∧ o.learningRate = o'.learningRate ∧ o.iterations = o'.iterations ∧ MapAligned j fr o.m o'.m ∧
      MapAligned j fr o.v o'.v
  | _, _ => False

/-- Two models with one dense layer that correspond in output `j`. -/
def Spec.SameOutput {ρ : Type} (j : Nat) (Rs : List Part) (net net' : Net ρ ℝ) : Prop :=
  AlignedAll j Rs false true net.layers net'.layers ∧ net'.loss = net.loss ∧ net'.rng = net.rng ∧
    ∃ opt opt', net.optimizer = some opt ∧ net'.optimizer = some opt' ∧ OptAligned j (cframe Rs) opt opt'

end SmartDNN
