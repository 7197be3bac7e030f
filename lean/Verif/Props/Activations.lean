import Verif.Proofs.SoftmaxReal

/-!
# Properties of the activation functions (C25-C28)
-/

namespace SmartDNN
open Spec

/-! ### C25: ReLU and LeakyReLU -/

theorem C25_relu_forward (ds : List Nat) (f : List Nat → ℝ) :
    Act.relu.forward (ofFn ds f) = .ok (ofFn ds (fun i => relu (f i))) := by
  simp only [Act.forward, Tensor.apply]
  rw [map_ofFn]
  congr 1
  apply ofFn_congr
  intro i _
  unfold cmax relu
  split
  · exact (max_eq_right (by linarith)).symm
  · exact (max_eq_left (by linarith)).symm

theorem C25_leaky_forward (alpha : ℝ) (ds : List Nat) (f : List Nat → ℝ) :
    (Act.leakyRelu alpha).forward (ofFn ds f) = .ok (ofFn ds (fun i => leaky alpha (f i))) := by
  simp only [Act.forward, Tensor.apply]
  rw [map_ofFn]
  rfl

/-- ReLU backward multiplies the gradient by a function `D` that is the derivative of `max(0,·)` at
every `x ≠ 0` and has the documented value 0 at `x = 0`. -/
theorem C25_relu_backward {ds : List Nat} (hd : Dims ds) (f g : List Nat → ℝ) :
    ∃ D : ℝ → ℝ, (∀ x, x ≠ 0 → HasDerivAt relu (D x) x) ∧ D 0 = 0 ∧
      Act.relu.backward (ofFn ds f) (ofFn ds g) = .ok (ofFn ds (fun i => D (f i) * g i)) := by
  refine ⟨fun x => if 0 < x then 1 else 0, ?_, by simp, ?_⟩
  · intro x hx
    rw [relu_eq_leaky]
    exact hasDerivAt_leaky hx
  · simp only [Act.backward, Tensor.apply]
    rw [map_ofFn]
    exact mul_same hd _ _

/-- LeakyReLU backward multiplies the gradient by the derivative at every `x ≠ 0`; missing for the
full C25: the header's value `alpha` at `x = 0` (the code uses 1 there, see
`C25_leaky_at_zero_refuted`). -/
theorem C25_leaky_backward_partial (alpha : ℝ) (ds : List Nat) (f g : List Nat → ℝ) :
    ∃ D : ℝ → ℝ, (∀ x, x ≠ 0 → HasDerivAt (leaky alpha) (D x) x) ∧ D 0 = 1 ∧
      (Act.leakyRelu alpha).backward (ofFn ds f) (ofFn ds g) = .ok (ofFn ds (fun i => D (f i) * g i)) := by
  refine ⟨fun x => if 0 ≤ x then 1 else alpha, ?_, by simp, ?_⟩
  · intro x hx
    have := hasDerivAt_leaky (alpha := alpha) hx
    convert this using 1
    beta_reduce
    rcases lt_or_gt_of_ne hx with h | h
    · rw [if_neg (by linarith), if_neg (by linarith)]
    · rw [if_pos h.le, if_pos h]
  · simp only [Act.backward]
    rw [applyPair_ofFn]
    congr 1
    apply ofFn_congr
    intro i _
    split <;> simp

/-- The header documents `f'(x) = 1 if x > 0, else alpha`, but at `x = 0` backward returns the gradient
unscaled: for every `alpha ≠ 1` and every nonzero gradient this is not `alpha * g`. -/
theorem C25_leaky_at_zero_refuted (alpha g : ℝ) (ha : alpha ≠ 1) (hg : g ≠ 0) :
    (Act.leakyRelu alpha).backward (ofFn [1] (fun _ => 0)) (ofFn [1] (fun _ => g)) ≠
      .ok (ofFn [1] (fun _ => alpha * g)) := by
  simp only [Act.backward]
  rw [applyPair_ofFn]
  intro h
  have := ofFn_inj (Except.ok.inj h) (idx := [0]) (ValidIdx.cons.2 ⟨by omega, validIdx_nil⟩)
  simp at this
  exact ha (mul_right_cancel₀ hg (by linarith : alpha * g = 1 * g))

/-- Gradients of a different shape are rejected by LeakyReLU, Swish and Mish. -/
theorem C25_pair_shape_mismatch {a b : List Nat} (h : a ≠ b) (f g : List Nat → ℝ) (alpha : ℝ) :
    (Act.leakyRelu alpha).backward (ofFn a f) (ofFn b g) = .error .invalidArgument ∧
    Act.swish.backward (ofFn a f) (ofFn b g) = .error .invalidArgument ∧
    Act.mish.backward (ofFn a f) (ofFn b g) = .error .invalidArgument :=
  ⟨applyPair_err h _ _ _, applyPair_err h _ _ _, applyPair_err h _ _ _⟩

example : Dims [2, 3] := ⟨by simp, by simp, by decide⟩
example : (0.01 : ℝ) ≠ 1 ∧ (2 : ℝ) ≠ 0 := by norm_num
example : ([2, 3] : List Nat) ≠ [3, 2] := by decide

/-! ### C26: smooth activations -/

/-- The four smooth activations and the functions they document. -/
noncomputable def smoothFn : Act ℝ → Option (ℝ → ℝ)
  | .sigmoid => some sigmoid
  | .tanh => some Real.tanh
  | .swish => some swish
  | .mish => some mish
  | _ => none

theorem C26_forward {a : Act ℝ} {φ : ℝ → ℝ} (ha : smoothFn a = some φ) (ds : List Nat) (f : List Nat → ℝ) :
    a.forward (ofFn ds f) = .ok (ofFn ds (fun i => φ (f i))) := by
  cases a <;> simp only [smoothFn, Option.some.injEq, reduceCtorEq] at ha
  all_goals
    subst ha
    simp only [Act.forward, Tensor.apply]
    rw [map_ofFn]
  · rfl
  · congr 1
    apply ofFn_congr
    intro i _
    rw [tanh_eq_exp]
    simp [MathFn.exp]
  · rfl
  · rfl

/-- backward multiplies the incoming gradient by the derivative of the function that forward
applies. -/
theorem C26_backward {a : Act ℝ} {φ : ℝ → ℝ} (ha : smoothFn a = some φ) {ds : List Nat} (hd : Dims ds)
    (f g : List Nat → ℝ) :
    ∃ D : ℝ → ℝ, (∀ x, HasDerivAt φ (D x) x) ∧
      a.backward (ofFn ds f) (ofFn ds g) = .ok (ofFn ds (fun i => g i * D (f i))) := by
  cases a <;> simp only [smoothFn, Option.some.injEq, reduceCtorEq] at ha
  all_goals subst ha
  · refine ⟨_, hasDerivAt_sigmoid, ?_⟩
    simp only [Act.backward]
    rw [C26_forward (a := .sigmoid) rfl]
    simp only [Except.bind_ok', scalarSub_ofFn, mul_same hd]
    congr 1
    apply ofFn_congr
    intro i _
    ring
  · refine ⟨_, hasDerivAt_tanh', ?_⟩
    simp only [Act.backward, Tensor.apply]
    rw [map_ofFn]
    simp only [Except.bind_ok', mul_same hd]
    congr 1
    apply ofFn_congr
    intro i _
    exact mul_comm _ _
  · refine ⟨_, hasDerivAt_swish, ?_⟩
    simp only [Act.backward]
    rw [applyPair_ofFn]
    rfl
  · refine ⟨_, hasDerivAt_mish, ?_⟩
    simp only [Act.backward]
    rw [applyPair_ofFn]
    rfl

/-- The same as a vector-Jacobian product of the whole tensor function. -/
theorem C26_vjp {a : Act ℝ} {φ : ℝ → ℝ} (ha : smoothFn a = some φ) {ds : List Nat} (hd : Dims ds)
    (f : List Nat → ℝ) :
    ∃ A, (∀ g, a.backward (ofFn ds f) (ofFn ds g) = .ok (ofFn ds (A g))) ∧
      HasVJP ds ds (fun x i => φ (x i)) f A := by
  obtain ⟨D, hD, _⟩ := C26_backward ha hd f f
  refine ⟨fun g i => g i * D (f i), ?_, hasVJP_map (fun i _ => hD (f i))⟩
  intro g
  obtain ⟨D', hD', h⟩ := C26_backward ha hd f g
  rw [h]
  have : D' = D := funext (fun x => (hD' x).unique (hD x))
  rw [this]

theorem C26_sigmoid_range (ds : List Nat) (f : List Nat → ℝ) :
    ∃ h, Act.sigmoid.forward (ofFn ds f) = .ok (ofFn ds h) ∧ (∀ i, 0 < h i ∧ h i < 1) ∧
      ∀ i j, f i < f j ↔ h i < h j :=
  ⟨_, C26_forward (a := .sigmoid) rfl ds f, fun _ => ⟨sigmoid_pos _, sigmoid_lt_one _⟩,
    fun _ _ => sigmoid_strictMono.lt_iff_lt.symm⟩

theorem C26_tanh_range (ds : List Nat) (f : List Nat → ℝ) :
    ∃ h, Act.tanh.forward (ofFn ds f) = .ok (ofFn ds h) ∧ (∀ i, -1 < h i ∧ h i < 1) ∧
      ∀ i j, f i < f j ↔ h i < h j :=
  ⟨_, C26_forward (a := .tanh) rfl ds f, fun _ => ⟨neg_one_lt_tanh' _, tanh_lt_one' _⟩,
    fun _ _ => tanh_strictMono'.lt_iff_lt.symm⟩

example : smoothFn .mish = some mish := rfl

/-! ### C27: softmax forward -/

/-- The value of every output element, exactly as computed: exponent of the difference to a row
maximum, divided by the row sum of these exponentials.  The maximum is attained in the row, no
exponent is positive and the divisor is at least 1. -/
theorem C27_computation {d : Nat} {ds : List Nat} (hd : Dims (d :: ds)) (hne : ds ≠ []) (f : List Nat → ℝ) :
    ∃ M : Nat → ℝ, (∀ b, ∃ y, ValidIdx ds y ∧ M b = f (b :: y)) ∧
      (∀ b y, ValidIdx ds y → f (b :: y) - M b ≤ 0) ∧
      (∀ b, 1 ≤ total ds (fun y => Real.exp (f (b :: y) - M b))) ∧
      Act.softmax.forward (ofFn (d :: ds) f) = .ok (ofFn (d :: ds) (fun idx =>
        Real.exp (f idx - M (idx.headD 0)) /
          total ds (fun y => Real.exp (f (idx.headD 0 :: y) - M (idx.headD 0))))) := by
  have hp : ∀ d ∈ ds, 0 < d := fun x hx => hd.pos x (by simp [hx])
  refine ⟨rowMax ds f, fun b => (rowMax_spec hp f b).1, ?_, ?_, ?_⟩
  · intro b y hy
    have := (rowMax_spec hp f b).2 y hy
    linarith
  · intro b
    rw [← rowSum_eq]
    exact one_le_rowSum hp f b
  · have : Act.softmax.forward (ofFn (d :: ds) f) = Act.softmaxForward (ofFn (d :: ds) f) := rfl
    rw [this, softmaxForward_ofFn hd hne]
    congr 1
    apply ofFn_congr
    intro idx _
    rw [rowSum_eq]
    rfl

/-- Mathematically this is softmax over all coordinates of a batch entry. -/
theorem C27_forward {d : Nat} {ds : List Nat} (hd : Dims (d :: ds)) (hne : ds ≠ []) (f : List Nat → ℝ) :
    Act.softmax.forward (ofFn (d :: ds) f) = .ok (ofFn (d :: ds) (softmax ds f)) :=
  softmaxForward_real hd hne f

/-- Every batch entry becomes a probability distribution whose order follows the inputs. -/
theorem C27_distribution {d : Nat} {ds : List Nat} (hd : Dims (d :: ds)) (hne : ds ≠ []) (f : List Nat → ℝ) :
    ∃ p, Act.softmax.forward (ofFn (d :: ds) f) = .ok (ofFn (d :: ds) p) ∧
      (∀ idx, ValidIdx (d :: ds) idx → 0 < p idx) ∧
      (∀ b, b < d → total ds (fun y => p (b :: y)) = 1) ∧
      (∀ b x y, b < d → (f (b :: x) < f (b :: y) ↔ p (b :: x) < p (b :: y))) := by
  have hp : ∀ d ∈ ds, 0 < d := fun x hx => hd.pos x (by simp [hx])
  have hZ : ∀ b, 0 < total ds (fun y => Real.exp (f (b :: y))) :=
    fun b => total_pos hp (fun y _ => Real.exp_pos _)
  refine ⟨_, C27_forward hd hne f, ?_, ?_, ?_⟩
  · intro idx _
    exact div_pos (Real.exp_pos _) (hZ _)
  · intro b _
    unfold softmax
    simp only [List.headD_cons, div_eq_mul_inv]
    rw [total_mul_right]
    exact mul_inv_cancel₀ (hZ b).ne'
  · intro b x y _
    unfold softmax
    simp only [List.headD_cons]
    rw [div_lt_div_iff_of_pos_right (hZ b), Real.exp_lt_exp]

/-- Adding a constant to a batch entry changes nothing. -/
theorem C27_shift_invariant {d : Nat} {ds : List Nat} (hd : Dims (d :: ds)) (hne : ds ≠ []) (f : List Nat → ℝ)
    (k : Nat → ℝ) :
    Act.softmax.forward (ofFn (d :: ds) (fun idx => f idx + k (idx.headD 0))) =
      Act.softmax.forward (ofFn (d :: ds) f) := by
  rw [C27_forward hd hne, C27_forward hd hne]
  congr 1
  apply ofFn_congr
  intro idx _
  have := softmax_shift ds f (fun b => - k b) idx
  simp only [sub_neg_eq_add] at this
  rw [← this]
  rfl

/-- Fewer than two dimensions: `std::invalid_argument`. -/
theorem C27_rank1 {ds : List Nat} (h : ds.length < 2) (f : List Nat → ℝ) :
    Act.softmax.forward (ofFn ds f) = .error .invalidArgument := softmaxForward_rank1 h f

example : Dims [2, 3, 4] ∧ ([3, 4] : List Nat) ≠ [] := ⟨⟨by simp, by simp, by decide⟩, by simp⟩
example : ([5] : List Nat).length < 2 := by decide

/-! ### C28: softmax backward -/

/-- backward is the vector-Jacobian product of softmax. -/
theorem C28_vjp {d : Nat} {ds : List Nat} (hd : Dims (d :: ds)) (hne : ds ≠ []) (f : List Nat → ℝ) :
    ∃ A, (∀ g, Act.softmax.backward (ofFn (d :: ds) f) (ofFn (d :: ds) g) = .ok (ofFn (d :: ds) (A g))) ∧
      HasVJP (d :: ds) (d :: ds) (softmax ds) f A :=
  ⟨_, fun g => softmaxBackward_real hd hne f g,
    hasVJP_softmax (fun x hx => hd.pos x (by simp [hx])) f⟩

/-- Coordinate form: each entry of backward's result is the partial derivative of
`∑ j, g j * softmax(x) j` along that coordinate. -/
theorem C28_partials {d : Nat} {ds : List Nat} (hd : Dims (d :: ds)) (hne : ds ≠ []) (f g : List Nat → ℝ) :
    ∃ r, Act.softmax.backward (ofFn (d :: ds) f) (ofFn (d :: ds) g) = .ok (ofFn (d :: ds) r) ∧
      ∀ idx, ValidIdx (d :: ds) idx →
        HasDerivAt (fun x => total (d :: ds) (fun j => g j * softmax ds (setEntry f idx x) j)) (r idx) (f idx) := by
  obtain ⟨A, h1, h2⟩ := C28_vjp hd hne f
  exact ⟨A g, h1 g, fun idx hv => (h2 g).partial hv⟩

/-- The gradient entries of a batch entry sum to 0. -/
theorem C28_row_sum_zero {d : Nat} {ds : List Nat} (hd : Dims (d :: ds)) (hne : ds ≠ []) (f g : List Nat → ℝ) :
    ∃ r, Act.softmax.backward (ofFn (d :: ds) f) (ofFn (d :: ds) g) = .ok (ofFn (d :: ds) r) ∧
      ∀ b, b < d → total ds (fun y => r (b :: y)) = 0 := by
  refine ⟨_, softmaxBackward_real hd hne f g, ?_⟩
  intro b hb
  obtain ⟨p, h1, _, h3, _⟩ := C27_distribution hd hne f
  have hs : total ds (fun y => softmax ds f (b :: y)) = 1 := by
    rw [C27_forward hd hne] at h1
    rw [← h3 b hb]
    exact total_congr (fun y hy => ofFn_inj (Except.ok.inj h1) (ValidIdx.cons.2 ⟨hb, hy⟩))
  simp only [List.headD_cons]
  have : ∀ G, total ds (fun y => softmax ds f (b :: y) * (g (b :: y) - G)) =
      total ds (fun y => softmax ds f (b :: y) * g (b :: y)) - G := by
    intro G
    have e : (G : ℝ) = total ds (fun y => softmax ds f (b :: y) * G) := by
      rw [total_mul_right, hs, one_mul]
    conv_rhs => rw [e]
    rw [← total_sub]
    exact total_congr (fun y _ => by ring)
  rw [this]
  ring

/-- A gradient of another shape but rank ≥ 2 and a smaller buffer is read out of range. -/
theorem C28_small_gradient_unchecked :
    Act.softmax.backward (ofFn [1, 2] (fun _ => (0 : ℝ))) (ofFn [1, 1] (fun _ => (1 : ℝ))) = .error .ub := by
  have hd : Dims [1, 2] := ⟨by simp, by simp, by decide⟩
  have : Act.softmax.backward (ofFn [1, 2] (fun _ => (0 : ℝ))) (ofFn [1, 1] (fun _ => (1 : ℝ))) =
    Act.softmaxBackward (ofFn [1, 2] (fun _ => (0 : ℝ))) (ofFn [1, 1] (fun _ => (1 : ℝ))) := rfl
  rw [this]
  unfold Act.softmaxBackward
  rw [softmaxForward_real hd (by simp)]
  simp only [ofFn_shape, shapeOf_rank, Except.bind_ok', Except.pure_eq', get0, featuresSize_ofFn hd, zeros_shapeOf]
  rfl

end SmartDNN
