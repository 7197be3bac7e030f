import Verif.Props.Backprop
import Verif.Props.Dropout

/-!
# Training with dropout (specification for C112)
-/

namespace SmartDNN
open Net Spec

/-- `Thinned E ls r ds es F x κ r'`: the layers `ls`, some of them dropout layers in training mode, document the composed function `F`, differentiable at
`x`, when the random engine is in the state `r`: every dropout layer thins its input (`dropout`) with the numbers `u` that the engine delivers when the layer
is reached.  `κ` is the product of the keep rates `1 - rate` of the dropout layers, `r'` the state of the engine afterwards. -/
inductive Spec.Thinned {ρ : Type} (E : Engine ρ ℝ) :
    List (Layer ℝ) → ρ → List Nat → List Nat → ((List Nat → ℝ) → List Nat → ℝ) → (List Nat → ℝ) → ℝ → ρ → Prop where
  | nil (ds : List Nat) (x : List Nat → ℝ) (r : ρ) : Thinned E [] r ds ds (fun x => x) x 1 r
  | plain {l : Layer ℝ} {ls : List (Layer ℝ)} {r r' : ρ} {ds es hs : List Nat} {F G : (List Nat → ℝ) → List Nat → ℝ} {x : List Nat → ℝ} {κ : ℝ}
      (hl : LayerAt l ds es F x) (hls : Thinned E ls r es hs G (F x) κ r') : Thinned E (l :: ls) r ds hs (fun x => G (F x)) x κ r'
  | dropout {l : Dropout ℝ} {ls : List (Layer ℝ)} {r r1 r' : ρ} {ds hs : List Nat} {G : (List Nat → ℝ) → List Nat → ℝ} {u x : List Nat → ℝ} {κ : ℝ}
      (hd : Dims ds) (hp : l.dropoutRate ≠ 1) (hu : Tensor.rand E (shapeOf ds) r = .ok (ofFn ds u, r1))
      (hls : Thinned E ls r1 ds hs G (Spec.dropout l.dropoutRate u x) κ r') :
      Thinned E (⟨.dropout l, true⟩ :: ls) r ds hs (fun x => G (Spec.dropout l.dropoutRate u x)) x ((1 - l.dropoutRate) * κ) r'

/-- The share of the numbers that a layer is expected to keep: `1 - rate` for a dropout layer, all for the others. -/
noncomputable def Spec.keepRate (l : Layer ℝ) : ℝ :=
  match l.kind with
  | .dropout d => 1 - d.dropoutRate
  | _ => 1

end SmartDNN
