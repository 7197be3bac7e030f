import Verif.Proofs.Losses
import Verif.Props.Activations

/-!
# Properties of the losses (C29-C31)
-/

namespace SmartDNN
open Spec

/-! ### C29: mean squared error -/

theorem C29_compute {ds : List Nat} (hd : Dims ds) (p t : List Nat → ℝ) :
    Loss.mse.compute (ofFn ds p) (ofFn ds t) = .ok (ofFn [1] (fun _ => mse ds p t)) :=
  mse_compute_ofFn hd p t

/-- A rank-1 target of the prediction's batch size and element count is compared element by element
in row-major order. -/
theorem C29_rank1_target {ds : List Nat} {n : Nat} (hd : Dims ds) (h0 : ds.head? = some n) (hp : ds.prod = n)
    (p t : List Nat → ℝ) :
    Loss.mse.compute (ofFn ds p) (ofFn [n] t) =
      .ok (ofFn [1] (fun _ => mse ds p (fun idx => t [ravel ds idx]))) ∧
    Loss.mse.gradient (ofFn ds p) (ofFn [n] t) =
      Loss.mse.gradient (ofFn ds p) (ofFn ds (fun idx => t [ravel ds idx])) := by
  constructor
  · rw [← mse_compute_ofFn hd]
    simp only [Loss.compute, mseTarget_rank1 hd h0 hp, mseTarget_same]
  · simp only [Loss.gradient, mseTarget_rank1 hd h0 hp, mseTarget_same]

/-- The reported loss is never negative. -/
theorem C29_nonneg {ds : List Nat} (hd : Dims ds) (p t : List Nat → ℝ) :
    ∃ v, Loss.mse.compute (ofFn ds p) (ofFn ds t) = .ok (ofFn [1] fun _ => v) ∧ 0 ≤ v := by
  refine ⟨_, C29_compute hd p t, ?_⟩
  unfold mse total
  apply div_nonneg _ (by positivity)
  apply List.sum_nonneg
  intro x hx
  obtain ⟨i, _, rfl⟩ := List.mem_map.1 hx
  positivity

/-- Prediction and target can be exchanged. -/
theorem C29_symmetric {ds : List Nat} (hd : Dims ds) (p t : List Nat → ℝ) :
    Loss.mse.compute (ofFn ds p) (ofFn ds t) = Loss.mse.compute (ofFn ds t) (ofFn ds p) := by
  rw [C29_compute hd, C29_compute hd]
  congr 2
  funext _
  unfold mse
  congr 1
  exact total_congr (fun i _ => by ring)

/-- The reported loss is zero exactly when the tensors are equal. -/
theorem C29_zero_iff {ds : List Nat} (hd : Dims ds) (p t : List Nat → ℝ) :
    Loss.mse.compute (ofFn ds p) (ofFn ds t) = .ok (ofFn [1] (fun _ => 0)) ↔ ofFn ds p = ofFn ds t := by
  rw [mse_compute_ofFn hd]
  have hpos : (0 : ℝ) < ds.prod := by exact_mod_cast hd.prod_pos
  constructor
  · intro h
    have h1 : mse ds p t = 0 := ofFn_inj (Except.ok.inj h) (idx := [0]) (valid1_iff.2 ⟨0, rfl, by omega⟩)
    unfold mse at h1
    rw [div_eq_zero_iff] at h1
    have h2 := h1.resolve_right hpos.ne'
    unfold total at h2
    rw [sum_eq_zero_iff_of_nonneg] at h2
    · apply ofFn_congr
      intro i hi
      have := h2 _ (List.mem_map.2 ⟨i, mem_indices.2 hi, rfl⟩)
      have := pow_eq_zero_iff (two_ne_zero) |>.1 this
      linarith
    · intro x hx
      obtain ⟨i, _, rfl⟩ := List.mem_map.1 hx
      positivity
  · intro h
    have : mse ds p t = 0 := by
      unfold mse
      have : total ds (fun i => (p i - t i) ^ 2) = total ds (fun _ => 0) :=
        total_congr (fun i hi => by rw [ofFn_inj h hi]; ring)
      rw [this, total_zero, zero_div]
    rw [this]

/-- gradient is the derivative of the reported loss in the prediction. -/
theorem C29_gradient {ds : List Nat} (hd : Dims ds) (p t : List Nat → ℝ) :
    ∃ (r : List Nat → ℝ) (loss : (List Nat → ℝ) → ℝ), (∀ x, Loss.mse.compute (ofFn ds x) (ofFn ds t) = .ok (ofFn [1] fun _ => loss x)) ∧
      Loss.mse.gradient (ofFn ds p) (ofFn ds t) = .ok (ofFn ds r) ∧ HasGradient ds loss p r :=
  ⟨_, fun x => mse ds x t, fun x => C29_compute hd x t, mse_gradient_ofFn hd p t, hasGradient_mse ds p t⟩

/-- Each entry of gradient is the partial derivative of the reported loss in that entry of the prediction. -/
theorem C29_partials {ds : List Nat} (hd : Dims ds) (p t : List Nat → ℝ) :
    ∃ (r : List Nat → ℝ) (loss : (List Nat → ℝ) → ℝ), (∀ x, Loss.mse.compute (ofFn ds x) (ofFn ds t) = .ok (ofFn [1] fun _ => loss x)) ∧
      Loss.mse.gradient (ofFn ds p) (ofFn ds t) = .ok (ofFn ds r) ∧
      ∀ idx, ValidIdx ds idx → HasDerivAt (fun x => loss (setEntry p idx x)) (r idx) (p idx) := by
  obtain ⟨r, loss, h0, h1, h2⟩ := C29_gradient hd p t
  exact ⟨r, loss, h0, h1, fun idx hv => h2.partial hv⟩

/-- All other shape pairs throw, in compute and in gradient. -/
theorem C29_mismatch {a b : List Nat} (ha : Dims a) (hb : Dims b) (h : a ≠ b)
    (h1 : ¬ (b.length = 1 ∧ a.head? = b.head? ∧ a.prod = b.prod)) (p t : List Nat → ℝ) :
    (∃ e, e.isException = true ∧ Loss.mse.compute (ofFn a p) (ofFn b t) = .error e) ∧
    (∃ e, e.isException = true ∧ Loss.mse.gradient (ofFn a p) (ofFn b t) = .error e) := by
  rcases mseTarget_err ha h h1 hb p t with e | e
  · exact ⟨⟨.invalidArgument, rfl, by simp only [Loss.compute, e]; rfl⟩,
      ⟨.invalidArgument, rfl, by simp only [Loss.gradient, e]; rfl⟩⟩
  · exact ⟨⟨.runtimeError, rfl, by simp only [Loss.compute, e]; rfl⟩,
      ⟨.runtimeError, rfl, by simp only [Loss.gradient, e]; rfl⟩⟩

example : Dims [4, 1] ∧ ([4, 1] : List Nat).head? = some 4 ∧ ([4, 1] : List Nat).prod = 4 :=
  ⟨⟨by simp, by simp, by decide⟩, rfl, rfl⟩
example : ¬ (([4] : List Nat).length = 1 ∧ ([4, 2] : List Nat).head? = ([4] : List Nat).head? ∧
    ([4, 2] : List Nat).prod = ([4] : List Nat).prod) := by decide

/-! ### C30: cross entropy -/

theorem C30_compute {b k : Nat} (hd : Dims [b, k]) (eps : ℝ) (p t : List Nat → ℝ) :
    (Loss.crossEntropy eps).compute (ofFn [b, k] p) (ofFn [b, k] t) =
      .ok (ofFn [1] (fun _ => crossEntropy eps b k p t)) := cce_compute_ofFn hd eps p t

theorem total_mono {ds : List Nat} {f g : List Nat → ℝ} (h : ∀ i, ValidIdx ds i → f i ≤ g i) :
    total ds f ≤ total ds g := by
  unfold total
  apply List.sum_le_sum
  intro i hi
  exact h i (mem_indices.1 hi)

/-- With non-negative targets the loss is non-negative and bounded, whatever the predictions are. -/
theorem C30_bounds {b k : Nat} (hd : Dims [b, k]) {eps : ℝ} (h0 : 0 < eps) (h1 : eps ≤ 1 / 2) (p t : List Nat → ℝ)
    (ht : ∀ i, ValidIdx [b, k] i → 0 ≤ t i) :
    ∃ v, (Loss.crossEntropy eps).compute (ofFn [b, k] p) (ofFn [b, k] t) = .ok (ofFn [1] fun _ => v) ∧
      0 ≤ v ∧ v ≤ -Real.log eps * (total [b, k] t / b) := by
  refine ⟨_, C30_compute hd eps p t, ?_⟩
  have hb' : (0 : ℝ) < b := by exact_mod_cast hd.pos b (by simp)
  have hc : ∀ x, Real.log eps ≤ Real.log (clampTo eps x) ∧ Real.log (clampTo eps x) ≤ 0 := by
    intro x
    obtain ⟨c1, c2⟩ := clampTo_mem h1 x
    exact ⟨Real.log_le_log h0 c1, Real.log_nonpos (by linarith) (by linarith)⟩
  unfold crossEntropy
  constructor
  · apply div_nonneg _ hb'.le
    have := total_mono (ds := [b, k]) (f := fun i => t i * Real.log (clampTo eps (p i))) (g := fun _ => 0)
      (fun i hi => mul_nonpos_of_nonneg_of_nonpos (ht i hi) (hc _).2)
    rw [total_zero] at this
    linarith
  · rw [← mul_div_assoc]
    apply div_le_div_of_nonneg_right _ hb'.le
    have := total_mono (ds := [b, k]) (f := fun i => Real.log eps * t i)
      (g := fun i => t i * Real.log (clampTo eps (p i)))
      (fun i hi => by rw [mul_comm]; exact mul_le_mul_of_nonneg_left (hc _).1 (ht i hi))
    rw [total_mul_left] at this
    linarith

theorem C30_shape_mismatch {a b : List Nat} (h : a ≠ b) (eps : ℝ) (p t : List Nat → ℝ) :
    (Loss.crossEntropy eps).compute (ofFn a p) (ofFn b t) = .error .invalidArgument ∧
    (Loss.crossEntropy eps).gradient (ofFn a p) (ofFn b t) = .error .invalidArgument := by
  constructor
  · simp only [Loss.compute, ofFn_shape, beq_shapeOf, h, decide_false]; rfl
  · simp only [Loss.gradient, ofFn_shape, beq_shapeOf, h, decide_false]; rfl

theorem forN_first_error {σ : Type} {n : Nat} (hn : 0 < n) {s : σ} {f : Nat → σ → Res σ} {e : Err}
    (h : f 0 s = .error e) : forN n s f = .error e := by
  obtain ⟨m, rfl⟩ : ∃ m, n = m + 1 := ⟨n - 1, by omega⟩
  unfold forN
  rw [List.range_succ_eq_map, List.foldlM_cons, h]
  rfl

/-- Three or more dimensions throw. -/
theorem C30_rank3 {d e c : Nat} {ds : List Nat} (hd : Dims (d :: e :: c :: ds)) (eps : ℝ) (p t : List Nat → ℝ) :
    (Loss.crossEntropy eps).compute (ofFn (d :: e :: c :: ds) p) (ofFn (d :: e :: c :: ds) t) =
      .error .invalidArgument ∧
    (Loss.crossEntropy eps).gradient (ofFn (d :: e :: c :: ds) p) (ofFn (d :: e :: c :: ds) t) =
      .error .invalidArgument := by
  have hd0 := hd.pos d (by simp)
  have he0 := hd.pos e (by simp)
  have hat : ∀ i j : Int, (ofFn (d :: e :: c :: ds) p).at_ [i, j] = .error .invalidArgument := by
    intro i j
    unfold Tensor.at_
    rw [ofFn_shape, computeFlatIndex_rank (by simp)]
    rfl
  constructor
  · simp only [Loss.compute, ofFn_shape, beq_shapeOf, decide_true, Bool.not_true, Bool.false_eq_true, if_false,
      get0, get1, Except.bind_ok', forI_nat]
    rw [forN_first_error hd0 (forN_first_error he0 (by rw [hat]; rfl))]
    rfl
  · simp only [Loss.gradient, ofFn_shape, beq_shapeOf, decide_true, Bool.not_true, Bool.false_eq_true, if_false,
      get0, get1, Except.bind_ok', forI_nat]
    rw [forN_first_error hd0 (forN_first_error he0 (by rw [hat]; rfl))]
    rfl

/-- The code's own epsilon meets the hypotheses. -/
example : (0 : ℝ) < 1e-7 ∧ (1e-7 : ℝ) ≤ 1 / 2 := by norm_num
example : Dims [2, 3] := ⟨by simp, by simp, by decide⟩
example : Dims [2, 3, 4] := ⟨by simp, by simp, by decide⟩

/-! ### C31: cross-entropy gradient -/

/-- gradient returns `(clamp p - t) / batch`. -/
theorem C31_value {b k : Nat} (hd : Dims [b, k]) (eps : ℝ) (p t : List Nat → ℝ) :
    (Loss.crossEntropy eps).gradient (ofFn [b, k] p) (ofFn [b, k] t) =
      .ok (ofFn [b, k] (fun i => (clampTo eps (p i) - t i) / (b : ℝ))) := cce_gradient_ofFn hd eps p t

theorem hasDerivAt_log_clamp {eps : ℝ} {s : ℝ → ℝ} {s' : ℝ} (h : HasDerivAt s s' 0)
    (h0 : 0 < eps) (h1 : eps < s 0) (h2 : s 0 < 1 - eps) :
    HasDerivAt (fun t => Real.log (clampTo eps (s t))) (s' / s 0) 0 := by
  refine (h.log (by linarith)).congr_of_eventuallyEq ?_
  have hcont := h.continuousAt
  filter_upwards [hcont.eventually (Ioo_mem_nhds h1 h2)] with t ht
  have : clampTo eps (s t) = s t := by
    unfold clampTo
    rw [max_eq_left ht.1.le, min_eq_left ht.2.le]
  rw [this]

/-- What gradient returns is the derivative of the reported loss with respect to the *logits* of a
softmax in front of the loss (targets summing to 1 per row, predictions inside the clamp interval).
Missing for the full C31: it is not the derivative with respect to the prediction
(`C31_gradient_refuted`), so feeding it to the softmax layer's backward applies the softmax Jacobian
twice (`C31_chain_refuted`). -/
theorem C31_logits_partial {b k : Nat} (hd : Dims [b, k]) {eps : ℝ} (h0 : 0 < eps) (z t : List Nat → ℝ)
    (hin : ∀ i, ValidIdx [b, k] i → eps < softmax [k] z i ∧ softmax [k] z i < 1 - eps)
    (ht : ∀ r, r < b → total [k] (fun y => t (r :: y)) = 1) :
    ∃ r, (Loss.crossEntropy eps).gradient (ofFn [b, k] (softmax [k] z)) (ofFn [b, k] t) = .ok (ofFn [b, k] r) ∧
      HasGradient [b, k] (fun x => crossEntropy eps b k (softmax [k] x) t) z r := by
  refine ⟨_, cce_gradient_ofFn hd eps _ t, ?_⟩
  intro c v hc
  have hp : ∀ d ∈ [k], 0 < d := fun x hx => hd.pos x (by simp at hx ⊢; exact Or.inr hx)
  have hS0 : ∀ i, ValidIdx [b, k] i → softmax [k] (c 0) i = softmax [k] z i := fun i hi =>
    extensional_softmax b [k] _ _ hc.1 i hi
  have h := ((hasDerivAt_total (ds := [b, k]) (fun i s => t i * Real.log (clampTo eps (softmax [k] (c s) i)))
    (fun i => t i * (v i - total [k] (fun y => softmax [k] z (i.headD 0 :: y) * v (i.headD 0 :: y)))) 0 (by
      intro i hi
      obtain ⟨r, x, rfl, hr, hx⟩ := validIdx_cons_iff.1 hi
      apply HasDerivAt.const_mul
      have h1 := hasDerivAt_softmax hp hc hr hx
      obtain ⟨i1, i2⟩ := hin _ hi
      have h2 := hasDerivAt_log_clamp h1 h0 (by rw [hS0 _ hi]; exact i1) (by rw [hS0 _ hi]; exact i2)
      refine h2.congr_deriv ?_
      rw [hS0 _ hi, mul_div_cancel_left₀ _ (by linarith : softmax [k] z (r :: x) ≠ 0)]
      rfl)).neg).div_const (b : ℝ)
  refine h.congr_deriv ?_
  have e1 : total [b, k] (fun i => (clampTo eps (softmax [k] z i) - t i) / (b : ℝ) * v i) =
      total [b, k] (fun i => (softmax [k] z i - t i) * v i) / b := by
    rw [div_eq_mul_inv, ← total_mul_right]
    apply total_congr
    intro i hi
    obtain ⟨i1, i2⟩ := hin _ hi
    have : clampTo eps (softmax [k] z i) = softmax [k] z i := by
      unfold clampTo
      rw [max_eq_left i1.le, min_eq_left i2.le]
    rw [this]
    ring
  rw [e1]
  congr 1
  rw [total_cons, total_cons, List.sum_neg]
  simp only [List.map_map, Function.comp_def]
  congr 1
  apply List.map_congr_left
  intro r hr
  rw [List.mem_range] at hr
  simp only [List.headD_cons]
  set V := total [k] (fun y => softmax [k] z (r :: y) * v (r :: y)) with hV
  have e2 : total [k] (fun x => t (r :: x) * (v (r :: x) - V)) = total [k] (fun x => t (r :: x) * v (r :: x)) - V := by
    have : total [k] (fun x => t (r :: x) * V) = V := by rw [total_mul_right, ht r hr, one_mul]
    conv_rhs => rw [← this]
    rw [← total_sub]
    exact total_congr (fun x _ => by ring)
  rw [e2, hV, neg_sub, ← total_sub]
  exact total_congr (fun x _ => by ring)

/-- gradient is not the derivative of compute: at prediction (1/2, 1/2), target (1, 0). -/
theorem C31_gradient_refuted {eps : ℝ} (h0 : 0 < eps) (h1 : eps < 1 / 2) :
    ∃ p t r, (Loss.crossEntropy eps).gradient (ofFn [1, 2] p) (ofFn [1, 2] t) = .ok (ofFn [1, 2] r) ∧
      ¬ HasGradient [1, 2] (fun x => crossEntropy eps 1 2 x t) p r := by
  have hd : Dims [1, 2] := ⟨by simp, by simp, by decide⟩
  refine ⟨fun _ => 1 / 2, fun i => if i = [0, 0] then 1 else 0, _, cce_gradient_ofFn hd eps _ _, ?_⟩
  intro h
  have hv : ValidIdx [1, 2] [0, 0] := valid2_iff.2 ⟨0, 0, rfl, by omega, by omega⟩
  have h2 := h _ _ (curveAt_setEntry [1, 2] (fun _ => 1 / 2) [0, 0])
  have h3 : HasDerivAt (fun t : ℝ => -Real.log (clampTo eps (1 / 2 + t))) (-(1 / (1 / 2 + 0))) 0 := by
    apply HasDerivAt.neg
    have := hasDerivAt_log_clamp (eps := eps) (s := fun t => 1 / 2 + t) (s' := 1)
      ((hasDerivAt_id (0 : ℝ)).const_add _) h0 (by simpa using h1) (by simp only [add_zero]; linarith)
    exact this
  have e : (fun s : ℝ => crossEntropy eps 1 2 (setEntry (fun _ => 1 / 2) [0, 0] (1 / 2 + s))
      (fun i => if i = [0, 0] then 1 else 0)) = fun s => -Real.log (clampTo eps (1 / 2 + s)) := by
    funext s
    unfold crossEntropy total setEntry
    simp [indices, List.range_succ]
  rw [e] at h2
  have := h2.unique h3
  have hc : clampTo eps (1 / 2) = 1 / 2 := by
    unfold clampTo
    rw [max_eq_left h1.le, min_eq_left (by linarith)]
  unfold total at this
  rw [hc] at this
  norm_num [indices, List.range_succ] at this

/-- End to end: for a softmax output layer trained with this loss, the gradient that reaches the
logits (loss gradient followed by softmax backward) is not the gradient of the loss. -/
theorem C31_chain_refuted {eps : ℝ} (h0 : 0 < eps) (h1 : eps < 1 / 2) :
    ∃ z t g r, (Loss.crossEntropy eps).gradient (ofFn [1, 2] (softmax [2] z)) (ofFn [1, 2] t) = .ok (ofFn [1, 2] g) ∧
      Act.softmax.backward (ofFn [1, 2] z) (ofFn [1, 2] g) = .ok (ofFn [1, 2] r) ∧
      ¬ HasGradient [1, 2] (fun x => crossEntropy eps 1 2 (softmax [2] x) t) z r := by
  have hd : Dims [1, 2] := ⟨by simp, by simp, by decide⟩
  have hs : ∀ i, ValidIdx [1, 2] i → softmax [2] (fun _ => 0) i = 1 / 2 := by
    intro i _
    unfold softmax total
    simp [indices, List.range_succ]
    norm_num
  have hs' : softmax [2] (fun _ => 0) = fun _ => 1 / 2 := by
    funext i
    unfold softmax total
    simp [indices, List.range_succ]
    norm_num
  obtain ⟨g, hg, hG⟩ := C31_logits_partial hd h0 (fun _ => 0) (fun i => if i = [0, 0] then 1 else 0)
    (fun i hi => by rw [hs i hi]; constructor <;> linarith)
    (fun r hr => by
      have : r = 0 := by omega
      subst this
      simp [total, indices, List.range_succ])
  refine ⟨fun _ => 0, _, g, _, hg, softmaxBackward_real hd (by simp) _ _, ?_⟩
  intro h
  have hv : ValidIdx [1, 2] [0, 0] := valid2_iff.2 ⟨0, 0, rfl, by omega, by omega⟩
  have hv1 : ValidIdx [1, 2] [0, 1] := valid2_iff.2 ⟨0, 1, rfl, by omega, by omega⟩
  have hu := h.unique hG hv
  have hc : clampTo eps (1 / 2) = 1 / 2 := by
    unfold clampTo
    rw [max_eq_left h1.le, min_eq_left (by linarith)]
  have hgv : ∀ i, ValidIdx [1, 2] i → g i = 1 / 2 - (if i = [0, 0] then 1 else 0) := by
    intro i hi
    rw [cce_gradient_ofFn hd] at hg
    rw [← ofFn_inj (Except.ok.inj hg) hi, hs i hi, hc]
    simp
  rw [hs'] at hu
  simp [total, indices, List.range_succ, hgv _ hv, hgv _ hv1] at hu
  norm_num at hu

example : ∃ z : List Nat → ℝ, (∀ i, ValidIdx [2, 3] i → (1e-7 : ℝ) < softmax [3] z i ∧
    softmax [3] z i < 1 - 1e-7) := by
  refine ⟨fun _ => 0, fun i _ => ?_⟩
  simp [softmax, total, indices, List.range_succ]
  norm_num

end SmartDNN
