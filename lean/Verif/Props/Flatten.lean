import Verif.Proofs.Flatten

/-!
# Flatten layer (C39)
-/

namespace SmartDNN
open Spec

section
variable {T : Type}

/-- Rank 3 and more: the batch dimension is kept, the others are merged, the element order is
unchanged. -/
theorem C39_forward {d : Nat} {ds : List Nat} (h : Dims (d :: ds)) (hr : 2 ≤ ds.length) (f : List Nat → T) (l : Flatten) :
    ∃ t, (Flatten.forward (ofFn (d :: ds) f) l).1 = .ok t ∧ t.shape = shapeOf [d, ds.prod] ∧
      t.data = (ofFn (d :: ds) f).data := by
  rw [flatten_forward h hr]
  exact ⟨_, rfl, rfl, rfl⟩

/-- Rank 2: returned unchanged. -/
theorem C39_forward_matrix (a b : Nat) (f : List Nat → T) (l : Flatten) :
    (Flatten.forward (ofFn [a, b] f) l).1 = .ok (ofFn [a, b] f) := by
  unfold Flatten.forward
  rw [if_neg (by simp), if_pos (by simp)]
  rfl

/-- Rank 1 is rejected, and the layer is not changed. -/
theorem C39_rank1 (a : Nat) (f : List Nat → T) (l : Flatten) :
    Flatten.forward (ofFn [a] f) l = (.error .invalidArgument, l) := by
  unfold Flatten.forward
  rw [if_pos (by simp)]
  rfl

/-- `backward(forward(x)) = x` for inputs of rank 3 and more, whatever state earlier calls left.
Missing for the full property: inputs of rank 2, see `C39_matrix_fresh_refuted` and
`C39_matrix_stale_refuted`. -/
theorem C39_roundtrip_partial {d : Nat} {ds : List Nat} (h : Dims (d :: ds)) (hr : 2 ≤ ds.length) (f : List Nat → T)
    (l : Flatten) :
    ∃ y l', Flatten.forward (ofFn (d :: ds) f) l = (.ok y, l') ∧ (Flatten.backward y l').1 = .ok (ofFn (d :: ds) f) := by
  refine ⟨_, _, flatten_forward h hr f l, ?_⟩
  show (Tensor.reshape _ _) = _
  rw [shapeOf_dims, reshaped_eq _ rfl h (by simp)]
  rfl

/-- The gradient of any content is reshaped back to the input's dimensions in the same flat order, and
this is the adjoint of `forward`. -/
theorem C39_backward_adjoint {d : Nat} {ds : List Nat} (h : Dims (d :: ds)) (hr : 2 ≤ ds.length)
    (f g : List Nat → ℝ) (l : Flatten) :
    ∃ (F A : (List Nat → ℝ) → List Nat → ℝ) (l' : Flatten),
      (∀ x, (Flatten.forward (ofFn (d :: ds) x) l) = (.ok (ofFn [d, ds.prod] (F x)), l')) ∧
      HasVJP (d :: ds) [d, ds.prod] F f A ∧
      (Flatten.backward (ofFn [d, ds.prod] g) l').1 = .ok (ofFn (d :: ds) (A g)) := by
  have hp : [d, ds.prod].prod = (d :: ds).prod := by simp
  refine ⟨fun x j => x (reindex [d, ds.prod] (d :: ds) j), _, { l with originalShape := some (shapeOf (d :: ds)) },
    fun x => ?_, hasVJP_reindex hp f, ?_⟩
  · rw [flatten_forward h hr, reinterpret_ofFn hp]
  · show (Tensor.reshape _ _) = _
    rw [shapeOf_dims, reshape_back h hp.symm]

/-- A fresh layer accepts every matrix, and `backward` of the result is then undefined behaviour. -/
theorem C39_matrix_fresh_refuted (a b : Nat) (f : List Nat → T) :
    ∃ y l', Flatten.forward (ofFn [a, b] f) {} = (.ok y, l') ∧ (Flatten.backward y l').1 = .error .ub := by
  refine ⟨ofFn [a, b] f, {}, ?_, rfl⟩
  unfold Flatten.forward
  rw [if_neg (by simp), if_pos (by simp)]
  rfl

/-- After a batch of images, `backward(forward(x))` for a matrix `x` has the dimensions of the earlier
input. -/
theorem C39_matrix_stale_refuted {d : Nat} {ds : List Nat} (h : Dims (d :: ds)) (hr : 2 ≤ ds.length) (e f : List Nat → T) :
    ∃ y l', Flatten.forward (ofFn [d, ds.prod] f) (Flatten.forward (ofFn (d :: ds) e) {}).2 = (.ok y, l') ∧
      ∃ t, (Flatten.backward y l').1 = .ok t ∧ t.shape ≠ (ofFn [d, ds.prod] f).shape := by
  rw [flatten_forward h hr]
  refine ⟨ofFn [d, ds.prod] f, { originalShape := some (shapeOf (d :: ds)) }, ?_, ?_⟩
  · unfold Flatten.forward
    rw [if_neg (by simp), if_pos (by simp)]
    rfl
  · refine ⟨ofFn (d :: ds) (fun idx => f (reindex (d :: ds) [d, ds.prod] idx)), ?_, ?_⟩
    · show (Tensor.reshape _ _) = _
      rw [shapeOf_dims, reshape_back h (by simp)]
    · intro hs
      have := congrArg (fun s => s.dims.length) hs
      simp at this
      omega

example : ∃ y l', Flatten.forward (ofFn [2, 1, 3] (fun i => i.sum)) {} = (.ok y, l') ∧
    (Flatten.backward y l').1 = .ok (ofFn [2, 1, 3] (fun i => i.sum)) :=
  C39_roundtrip_partial (by constructor <;> simp) (by simp) _ _

end
end SmartDNN
