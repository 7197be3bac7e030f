import Verif.Props.Interrupted
import Verif.Props.RowOrder
import Verif.Props.Answers

/-!
# A training call that throws, with a flatten layer that gets matrices (C92)
-/

namespace SmartDNN
open Net Spec

/-- **False for flatten layers that get matrices.**  A model of one flatten layer that has seen `(n,b,1)` images is trained on a batch of `(c,d,1)` images with a target
of the wrong shape.  `train` throws, but the layer has taken over the dimensions of the failing sample: training on an `(n,b)` matrix, which works before, throws
afterwards. -/
theorem C92_flatten_refuted {ρ : Type} (E : Engine ρ ℝ) {n b c d : Nat} (h1 : Dims [n, b, 1]) (h2 : Dims [c, d, 1]) (hne : n * b ≠ c * d) {es : List Nat} (he : Dims es)
    (hes : [c, d] ≠ es) (he1 : es.length ≠ 1) (f t x y : List Nat → ℝ) (net : Net ρ ℝ) (mode : Bool) (hn : net.layers = [⟨.flatten ⟨some (shapeOf [n, b, 1])⟩, mode⟩])
    (hL : net.loss = some .mse) (opt : Optimizer (Nat × Bool) ℝ) (ho : net.optimizer = some opt) (epochs : Int) (h0 : 0 < epochs) :
    ∃ e net', trainCall E [ofFn [c, d, 1] f] [ofFn es t] epochs net = (.error e, net', []) ∧ e.isException = true ∧
      (trainCall E [ofFn [n, b] x] [ofFn [n, b] y] 1 net).1 = .ok () ∧
      ∃ e', (trainCall E [ofFn [n, b] x] [ofFn [n, b] y] 1 net').1 = .error e' ∧ e'.isException = true := by
  have d1 : Dims [n, b] := ⟨by simp, fun a ha => h1.pos a (by simp at ha ⊢; tauto), by simpa using h1.lt⟩
  have d2 : Dims [c, d] := ⟨by simp, fun a ha => h2.pos a (by simp at ha ⊢; tauto), by simpa using h2.lt⟩
  have hp : predict E (ofFn [c, d, 1] f) net = (.ok (ofFn [c, d] fun i => f (i ++ [0])), { net with layers := [⟨.flatten ⟨some (shapeOf [c, d, 1])⟩, mode⟩] }) := by
    unfold predict
    simp only [hn, forwardLayers, Layer.forward, Layer.onKind, flatten_forward h2 (by simp)]
    refine Prod.ext (congrArg Except.ok ?_) rfl
    show (⟨shapeOf [c, [d, 1].prod], (indices [c, d, 1]).map f⟩ : Tensor ℝ) = ⟨shapeOf [c, d], (indices [c, d]).map fun i => f (i ++ [0])⟩
    rw [show [d, 1].prod = d by simp]
    congr 1
    simp [indices, List.map_flatMap]
  have hm : ∀ (m : Net ρ ℝ) (l : Flatten), m.layers = [⟨.flatten l, mode⟩] → predict E (ofFn [n, b] x) m = (.ok (ofFn [n, b] x), m) := by
    intro m l hml
    have hf : Flatten.forward (ofFn [n, b] x) l = (.ok (ofFn [n, b] x), l) := by
      unfold Flatten.forward
      rw [if_neg (by simp), if_pos (by simp)]
      rfl
    unfold predict
    simp only [hml, forwardLayers, Layer.forward, Layer.onKind, hf]
    refine Prod.ext rfl ?_
    rw [← hml]
  obtain ⟨e, hex, hcomp⟩ := (C29_mismatch d2 he hes (by tauto) (fun i => f (i ++ [0])) t).1
  refine ⟨e, _, train_loss_fails E _ _ _ net _ e epochs h0 hp hL hcomp, hex, ?_, ?_⟩
  · have hg := mse_gradient_ofFn d1 x y
    obtain ⟨g, hg⟩ : ∃ g, Loss.mse.gradient (ofFn [n, b] x) (ofFn [n, b] y) = .ok (ofFn [n, b] g) := ⟨_, hg⟩
    have hb : backward (ofFn [n, b] g) net = (.ok ⟨shapeOf [n, b, 1], (ofFn [n, b] g).data⟩, net) := by
      have hf : Flatten.backward (ofFn [n, b] g) ⟨some (shapeOf [n, b, 1])⟩ = (.ok ⟨shapeOf [n, b, 1], (ofFn [n, b] g).data⟩, ⟨some (shapeOf [n, b, 1])⟩) := by
        show (Tensor.reshape _ _, _) = _
        rw [shapeOf_dims, reshaped_eq (ds := [n, b]) _ rfl h1 (by simp)]
      unfold backward
      simp only [hn, backwardLayers, Layer.backward, Layer.onKind, hf]
      refine Prod.ext rfl ?_
      rw [← hn]
    have hu : ∃ net3, updateWeights net = (.ok (), net3) := by
      rw [net_updateWeights_eq net opt ho]
      simp only [hn, updateLayers]
      exact ⟨_, rfl⟩
    obtain ⟨net3, hu⟩ := hu
    obtain ⟨rs, hr⟩ := train_once E net net net net3 (ofFn [n, b] x) _ x y g d1 (hm net _ hn) hL hg hb hu
    rw [hr]
  · set net' : Net ρ ℝ := { net with layers := [⟨.flatten ⟨some (shapeOf [c, d, 1])⟩, mode⟩] } with hnet
    refine ⟨.runtimeError, first_fails (net1 := net') (.backward (hm net' _ rfl) hL (C29_compute d1 x y) (mse_gradient_ofFn d1 x y) ?_) (by norm_num), rfl⟩
    have hf : Flatten.backward (ofFn [n, b] fun i => (x i - y i) * 2 / ([n, b].prod : Nat)) ⟨some (shapeOf [c, d, 1])⟩ = (.error .runtimeError, ⟨some (shapeOf [c, d, 1])⟩) := by
      show (Tensor.reshape _ _, _) = _
      have hr := reshaped_mismatch (rs := [n, b]) h2 (by simpa using hne.symm) fun i => (x i - y i) * 2 / (([n, b].prod : Nat) : ℝ)
      unfold Tensor.reshaped at hr
      rw [make_dims h2] at hr
      rw [show Tensor.reshape _ _ = _ from hr]
    show backward _ net' = (_, net')
    unfold backward
    simp only [hnet, backwardLayers, Layer.backward, Layer.onKind, hf]

/-- The hypotheses of `C92_flatten_refuted` hold: images of two by two pixels, then images of two by three with a target of one row. -/
example {ρ : Type} (r : ρ) (opt : Optimizer (Nat × Bool) ℝ) :
    Dims [2, 2, 1] ∧ Dims [2, 3, 1] ∧ 2 * 2 ≠ 2 * 3 ∧ Dims [1, 3] ∧ [2, 3] ≠ [1, 3] ∧ [1, 3].length ≠ 1 ∧
    (⟨[⟨.flatten ⟨some (shapeOf [2, 2, 1])⟩, true⟩], some .mse, some opt, r⟩ : Net ρ ℝ).layers = [⟨.flatten ⟨some (shapeOf [2, 2, 1])⟩, true⟩] :=
  ⟨⟨by simp, by simp, by norm_num⟩, ⟨by simp, by simp, by norm_num⟩, by norm_num, ⟨by simp, by simp, by norm_num⟩, by simp, by simp, rfl⟩

end SmartDNN
