import Verif.Props.SmallStep

/-!
# Training a softmax classifier with the cross entropy (C80)

The loss hands its gradient with respect to the logits to the softmax layer, which multiplies it by its Jacobian once more (C31).  Here
is what this means for the loss: on batches of one row a training step still goes downhill, on larger batches it can go uphill.
-/

namespace SmartDNN
open Net Spec

/-- A dense layer followed by softmax. -/
def Spec.classifier {ρ : Type} (n k : Nat) (w bias : List Nat → ℝ) (rng : ρ) : Net ρ ℝ :=
  ⟨[⟨.fc { weights := ofFn [n, k] w, biases := ofFn [1, k] bias }, true⟩, ⟨.activation ⟨.softmax, none⟩, true⟩], none, none, rng⟩

/-- The gradient a training step hands to the dense layer of the classifier with logits `z`. -/
noncomputable def Spec.logitGrad (eps : ℝ) (b k : Nat) (z t : List Nat → ℝ) (idx : List Nat) : ℝ :=
  softmax [k] z idx * ((clampTo eps (softmax [k] z idx) - t idx) / b - total [k] (fun y =>
    softmax [k] z (idx.headD 0 :: y) * ((clampTo eps (softmax [k] z (idx.headD 0 :: y)) - t (idx.headD 0 :: y)) / b)))

theorem classifier_stack {ρ : Type} {b n k : Nat} (hx : Dims [b, n]) (hw : Dims [n, k]) (hd : Dims [b, k]) (w bias x : List Nat → ℝ) (rng : ρ) :
    Stack (classifier n k w bias rng).layers [b, n] [b, k] (fun x => softmax [k] (affine n w bias x)) x :=
  .cons (F := affine n w bias) (.dense hx hw hd rfl rfl) (.cons (F := softmax [k]) (.softmax hd (by simp) rfl) (.nil _ _))

theorem classifier_train {ρ : Type} {b n k : Nat} (hx : Dims [b, n]) (hw : Dims [n, k]) (hd : Dims [b, k]) (w bias x t : List Nat → ℝ)
    (rng : ρ) (E : Engine ρ ℝ) (eps : ℝ) (o : SGDOptions ℝ) (hm : o.momentum = 0) (hwd : o.weightDecay = 0) :
    ∃ net' net'', trainCall E [ofFn [b, n] x] [ofFn [b, k] t] 1 ((classifier n k w bias rng).compile (.crossEntropy eps) (.newSGD o)) =
        (.ok (), net', [ofFn [1] fun _ => crossEntropy eps b k (softmax [k] (affine n w bias x)) t]) ∧
      net'.loss = some (.crossEntropy eps) ∧
      predict E (ofFn [b, n] x) net' = (.ok (ofFn [b, k] (softmax [k] (affine n
        (fun idx => w idx - o.learningRate * ∑ i ∈ Finset.range b, x [i, idx.getD 0 0] *
          logitGrad eps b k (affine n w bias x) t [i, idx.getD 1 0])
        (fun idx => bias idx - o.learningRate * ∑ i ∈ Finset.range b, logitGrad eps b k (affine n w bias x) t [i, idx.getD 1 0]) x))), net'') := by
  set z := affine n w bias x with hz
  obtain ⟨l', f1, j1⟩ := dense_joint (x := x) (mode := true) (l := { weights := ofFn [n, k] w, biases := ofFn [1, k] bias }) hx hw hd rfl rfl
  obtain ⟨S, ⟨l2, b1, -, u1⟩, -⟩ := j1 (logitGrad eps b k z t)
  obtain ⟨l3, opt', e1, -, -, w1⟩ := u1 o.learningRate 0 (.newSGD o) ⟨_, rfl, rfl, hm, hwd⟩
  obtain ⟨l4, k1⟩ := w1 ρ E rng x
  have sf : ∀ (inp : Option (Tensor ℝ)) (r : ρ) (y : List Nat → ℝ),
      Layer.forward E (ofFn [b, k] y) (⟨.activation ⟨.softmax, inp⟩, true⟩, r) =
      (.ok (ofFn [b, k] (softmax [k] y)), ⟨.activation ⟨.softmax, some (ofFn [b, k] y)⟩, true⟩, r) := fun inp r y =>
    congrArg (fun q => (q, (⟨⟨.activation ⟨.softmax, some (ofFn [b, k] y)⟩, true⟩, r⟩ : Layer ℝ × ρ))) (C27_forward hd (by simp) y)
  refine ⟨⟨[l3, ⟨.activation ⟨.softmax, some (ofFn [b, k] z)⟩, true⟩], some (.crossEntropy eps), some opt', rng⟩,
    ⟨[l4, ⟨.activation ⟨.softmax, some (ofFn [b, k] (affine n
      (fun idx => w idx - o.learningRate * ∑ i ∈ Finset.range b, x [i, idx.getD 0 0] * logitGrad eps b k z t [i, idx.getD 1 0])
      (fun idx => bias idx - o.learningRate * ∑ i ∈ Finset.range b, logitGrad eps b k z t [i, idx.getD 1 0]) x))⟩, true⟩],
      some (.crossEntropy eps), some opt', rng⟩, ?_, rfl, ?_⟩
  rotate_left
  · unfold predict
    simp only [k1, sf, forwardLayers]
  · refine (C55_train E _ _ 1 _ _ _ (by simp) (by simp)).2 ?_
    have hs : StepOk E (ofFn [b, n] x) (ofFn [b, k] t) ((classifier n k w bias rng).compile (.crossEntropy eps) (.newSGD o))
        ⟨[l3, ⟨.activation ⟨.softmax, some (ofFn [b, k] z)⟩, true⟩], some (.crossEntropy eps), some opt', rng⟩
        (crossEntropy eps b k (softmax [k] z) t) := by
      refine ⟨ofFn [b, k] (softmax [k] z), ⟨[l', ⟨.activation ⟨.softmax, some (ofFn [b, k] z)⟩, true⟩], some (.crossEntropy eps),
          some (.newSGD o), rng⟩, .crossEntropy eps, _,
        ofFn [b, n] (fun idx => ∑ j ∈ Finset.range k, logitGrad eps b k z t [idx.getD 0 0, j] * w [idx.getD 1 0, j]),
        ⟨[l2, ⟨.activation ⟨.softmax, some (ofFn [b, k] z)⟩, true⟩], some (.crossEntropy eps), some (.newSGD o), rng⟩, ?_, rfl,
        C30_compute hd eps _ t, C31_value hd eps _ t, ?_, ?_⟩
      · unfold predict
        simp only [Net.compile, classifier, forwardLayers_cons, f1, ← hz, sf, forwardLayers]
      · have sb : Layer.backward (ofFn [b, k] fun i => (clampTo eps (softmax [k] z i) - t i) / (b : ℝ))
            (⟨.activation ⟨.softmax, some (ofFn [b, k] z)⟩, true⟩ : Layer ℝ) = (.ok (ofFn [b, k] (logitGrad eps b k z t)),
            ⟨.activation ⟨.softmax, some (ofFn [b, k] z)⟩, true⟩) :=
          congrArg (fun q => (q, (⟨.activation ⟨.softmax, some (ofFn [b, k] z)⟩, true⟩ : Layer ℝ)))
            (softmaxBackward_real hd (by simp) z _)
        unfold backward
        simp only [backwardLayers, sb, b1]
      · rw [net_updateWeights_eq _ _ rfl]
        simp only [updateLayers_cons, e1]
        rfl
    have h := Epochs.succ (E := E) (Steps.cons (E := E) (ps := []) hs (.nil _)) (.zero _)
    simpa using h

/-- Rate of change of the cross entropy when the learning rate grows from 0: minus the inner product of the true gradient of the logits and
the gradient handed to the dense layer, each pair of rows weighted with the inner product of their inputs (and 1 for the bias). -/
theorem C80_slope {ρ : Type} {b n k : Nat} (hx : Dims [b, n]) (hw : Dims [n, k]) (hd : Dims [b, k]) (w bias x t : List Nat → ℝ)
    (rng : ρ) (E : Engine ρ ℝ) {eps : ℝ} (h0 : 0 < eps) (o : SGDOptions ℝ) (hm : o.momentum = 0) (hwd : o.weightDecay = 0)
    (hin : ∀ i, ValidIdx [b, k] i → eps < softmax [k] (affine n w bias x) i ∧ softmax [k] (affine n w bias x) i < 1 - eps)
    (ht : ∀ r, r < b → total [k] (fun y => t (r :: y)) = 1) :
    ∃ loss : ℝ → ℝ, HasDerivAt loss (-(total [b, k] fun i => (softmax [k] (affine n w bias x) i - t i) / b *
        ∑ s ∈ Finset.range b, (1 + ∑ j ∈ Finset.range n, x [i.getD 0 0, j] * x [s, j]) *
          logitGrad eps b k (affine n w bias x) t [s, i.getD 1 0])) 0 ∧
      ∀ lr, ∃ net', trainCall E [ofFn [b, n] x] [ofFn [b, k] t] 2
          ((classifier n k w bias rng).compile (.crossEntropy eps) (.newSGD { o with learningRate := lr })) =
        (.ok (), net', [ofFn [1] fun _ => loss 0, ofFn [1] fun _ => loss lr]) := by
  set z := affine n w bias x with hz
  set h := logitGrad eps b k z t with hh
  have hb : (b : ℝ) ≠ 0 := by
    have := hd.pos b (by simp)
    positivity
  let c : ℝ → List Nat → ℝ := fun lr => affine n (fun idx => w idx - lr * ∑ i ∈ Finset.range b, x [i, idx.getD 0 0] * h [i, idx.getD 1 0])
    (fun idx => bias idx - lr * ∑ i ∈ Finset.range b, h [i, idx.getD 1 0]) x
  let v : List Nat → ℝ := fun i => -∑ s ∈ Finset.range b, (1 + ∑ j ∈ Finset.range n, x [i.getD 0 0, j] * x [s, j]) * h [s, i.getD 1 0]
  have hcv : ∀ lr i, c lr i = z i + lr * v i := by
    intro lr i
    simp only [c, v, hz, affine, List.getD_cons_zero, List.getD_cons_succ, mul_sub, Finset.sum_sub_distrib, add_mul, one_mul,
      Finset.sum_add_distrib, mul_neg, mul_add, Finset.sum_mul]
    rw [Finset.sum_comm]
    have : ∑ j ∈ Finset.range n, x [i.getD 0 0, j] * (lr * ∑ s ∈ Finset.range b, x [s, j] * h [s, i.getD 1 0]) =
        lr * ∑ j ∈ Finset.range n, ∑ s ∈ Finset.range b, x [i.getD 0 0, j] * x [s, j] * h [s, i.getD 1 0] := by
      rw [Finset.mul_sum]
      refine Finset.sum_congr rfl fun j _ => ?_
      rw [Finset.mul_sum, Finset.mul_sum, Finset.mul_sum]
      exact Finset.sum_congr rfl fun s _ => by ring
    rw [this]
    ring
  have hc0 : c 0 = z := by funext i; rw [hcv]; ring
  have hcurve : CurveAt [b, k] c z v := by
    refine ⟨fun i _ => by rw [hc0], fun i _ => ?_⟩
    have := ((hasDerivAt_id (0 : ℝ)).mul_const (v i)).const_add (z i)
    simp only [hcv]
    simpa using this
  refine ⟨fun lr => crossEntropy eps b k (softmax [k] (c lr)) t, ?_, fun lr => ?_⟩
  · obtain ⟨r, hr, hg⟩ := C31_logits_partial hd h0 z t hin ht
    rw [C31_value hd] at hr
    refine (hg c v hcurve).congr_deriv ?_
    rw [← total_neg]
    refine total_congr fun i hi => ?_
    have e := ofFn_inj (Except.ok.inj hr) hi
    have hcl : clampTo eps (softmax [k] z i) = softmax [k] z i := by
      unfold clampTo
      rw [max_eq_left (hin i hi).1.le, min_eq_left (hin i hi).2.le]
    rw [← e, hcl]
    simp only [v]
    ring
  · obtain ⟨net1, net2, e1, e2, e3⟩ := classifier_train hx hw hd w bias x t rng E eps { o with learningRate := lr } hm hwd
    obtain ⟨net3, e5⟩ := second_epoch (C67_compiled _ (.crossEntropy eps) (stack_chain (classifier_stack hx hw hd w bias x rng))
      ⟨b, k, rfl, hd⟩ { o with learningRate := lr } ⟨0, 0, 0, 0, false, 0⟩ ⟨1, 1/2, 1/2, 1, 0, 0, 0, 1, 1⟩).1 e1 e2 e3 (C30_compute hd eps _ t)
    refine ⟨net3, ?_⟩
    beta_reduce
    rw [hc0]
    exact e5

theorem variance_pos {k : Nat} (p d : Nat → ℝ) (hp : ∀ j < k, 0 < p j) (h1 : ∑ j ∈ Finset.range k, p j = 1)
    (hd : ∑ j ∈ Finset.range k, d j = 0) (hne : ∃ j < k, d j ≠ 0) :
    0 < ∑ j ∈ Finset.range k, d j * (p j * (d j - ∑ y ∈ Finset.range k, p y * d y)) := by
  set M := ∑ y ∈ Finset.range k, p y * d y with hM
  have e : ∑ j ∈ Finset.range k, d j * (p j * (d j - M)) = ∑ j ∈ Finset.range k, p j * (d j - M) ^ 2 := by
    have h0 : ∑ j ∈ Finset.range k, p j * (d j - M) = 0 := by
      simp only [mul_sub, Finset.sum_sub_distrib]
      rw [← Finset.sum_mul, h1, ← hM]
      ring
    have : ∑ j ∈ Finset.range k, d j * (p j * (d j - M)) = ∑ j ∈ Finset.range k, (p j * (d j - M) ^ 2 + M * (p j * (d j - M))) :=
      Finset.sum_congr rfl fun j _ => by ring
    rw [this, Finset.sum_add_distrib, ← Finset.mul_sum, h0, mul_zero, add_zero]
  rw [e]
  obtain ⟨j, hj, hdj⟩ := hne
  by_cases hM0 : M = 0
  · exact Finset.sum_pos' (fun i hi => mul_nonneg (hp i (Finset.mem_range.1 hi)).le (sq_nonneg _))
      ⟨j, Finset.mem_range.2 hj, mul_pos (hp j hj) (by rw [hM0, sub_zero]; positivity)⟩
  · by_contra hcon
    have hz : ∑ j ∈ Finset.range k, p j * (d j - M) ^ 2 = 0 :=
      le_antisymm (not_lt.1 hcon) (Finset.sum_nonneg fun i hi => mul_nonneg (hp i (Finset.mem_range.1 hi)).le (sq_nonneg _))
    have hall := (Finset.sum_eq_zero_iff_of_nonneg fun i hi => mul_nonneg (hp i (Finset.mem_range.1 hi)).le (sq_nonneg _)).1 hz
    have heq : ∀ i ∈ Finset.range k, d i = M := by
      intro i hi
      have := hall i hi
      have := (mul_eq_zero.1 this).resolve_left (hp i (Finset.mem_range.1 hi)).ne'
      exact sub_eq_zero.1 (pow_eq_zero_iff (by norm_num) |>.1 this)
    rw [Finset.sum_congr rfl heq, Finset.sum_const, Finset.card_range, nsmul_eq_mul] at hd
    have hk : (k : ℝ) ≠ 0 := by
      have : 0 < k := by omega
      positivity
    exact hM0 ((mul_eq_zero.1 hd).resolve_left hk)

/-- On a single row with a target distribution (entries adding to 1) that the prediction does not match, every small enough learning rate lowers the
cross entropy.  Missing for the full C80: batches of several rows, for which it can rise (`C80_refuted`), and deeper models. -/
theorem C80_single_row_partial {ρ : Type} {n k : Nat} (hx : Dims [1, n]) (hw : Dims [n, k]) (hd : Dims [1, k]) (w bias x t : List Nat → ℝ)
    (rng : ρ) (E : Engine ρ ℝ) {eps : ℝ} (h0 : 0 < eps) (o : SGDOptions ℝ) (hm : o.momentum = 0) (hwd : o.weightDecay = 0)
    (hin : ∀ i, ValidIdx [1, k] i → eps < softmax [k] (affine n w bias x) i ∧ softmax [k] (affine n w bias x) i < 1 - eps)
    (ht : total [k] (fun y => t (0 :: y)) = 1) (hne : ∃ j < k, softmax [k] (affine n w bias x) [0, j] ≠ t [0, j]) :
    ∃ ε > 0, ∀ lr, 0 < lr → lr < ε → ∃ net' v1 v2, v2 < v1 ∧ trainCall E [ofFn [1, n] x] [ofFn [1, k] t] 2
          ((classifier n k w bias rng).compile (.crossEntropy eps) (.newSGD { o with learningRate := lr })) =
        (.ok (), net', [ofFn [1] fun _ => v1, ofFn [1] fun _ => v2]) := by
  obtain ⟨loss, h1, h2⟩ := C80_slope hx hw hd w bias x t rng E h0 o hm hwd hin (fun r hr => by
    have : r = 0 := by omega
    rw [this]; exact ht)
  have hneg : -(total [1, k] fun i => (softmax [k] (affine n w bias x) i - t i) / (1 : Nat) *
        ∑ s ∈ Finset.range 1, (1 + ∑ j ∈ Finset.range n, x [i.getD 0 0, j] * x [s, j]) *
          logitGrad eps 1 k (affine n w bias x) t [s, i.getD 1 0]) < 0 := by
    set z := affine n w bias x with hz
    obtain ⟨q, hq1, hq2, hq3, -⟩ := C27_distribution hd (by simp) z
    rw [C27_forward hd (by simp)] at hq1
    have hpq : ∀ j < k, softmax [k] z [0, j] = q [0, j] := fun j hj =>
      ofFn_inj (Except.ok.inj hq1) (valid2_iff.2 ⟨0, j, rfl, by simp, hj⟩)
    have hps : ∑ j ∈ Finset.range k, softmax [k] z [0, j] = 1 := by
      rw [Finset.sum_congr rfl fun j hj => hpq j (Finset.mem_range.1 hj), ← hq3 0 (by simp), total1]
    have hts : ∑ j ∈ Finset.range k, t [0, j] = 1 := by
      rw [← ht, total1]
    have hv := variance_pos (fun j => softmax [k] z [0, j]) (fun j => softmax [k] z [0, j] - t [0, j])
      (fun j hj => by
        have := hq2 [0, j] (valid2_iff.2 ⟨0, j, rfl, by simp, hj⟩)
        rw [← hpq j hj] at this
        exact this) hps (by rw [Finset.sum_sub_distrib, hps, hts, sub_self])
      (by obtain ⟨j, hj, h⟩ := hne; exact ⟨j, hj, sub_ne_zero.2 h⟩)
    have hcl : ∀ j < k, clampTo eps (softmax [k] z [0, j]) = softmax [k] z [0, j] := by
      intro j hj
      have := hin [0, j] (valid2_iff.2 ⟨0, j, rfl, by simp, hj⟩)
      unfold clampTo
      rw [max_eq_left this.1.le, min_eq_left this.2.le]
    have hlg : ∀ j < k, logitGrad eps 1 k z t [0, j] = softmax [k] z [0, j] * ((softmax [k] z [0, j] - t [0, j]) -
        ∑ y ∈ Finset.range k, softmax [k] z [0, y] * (softmax [k] z [0, y] - t [0, y])) := by
      intro j hj
      simp only [logitGrad, total1, List.headD_cons, Nat.cast_one, div_one, hcl j hj]
      congr 2
      refine Finset.sum_congr rfl fun y hy => ?_
      rw [hcl y (Finset.mem_range.1 hy)]
    have hX : 0 < 1 + ∑ j ∈ Finset.range n, x [0, j] * x [0, j] := by
      have : 0 ≤ ∑ j ∈ Finset.range n, x [0, j] * x [0, j] := Finset.sum_nonneg fun j _ => mul_self_nonneg _
      linarith
    rw [neg_lt_zero, total2, Finset.sum_range_one]
    simp only [List.getD_cons_zero, List.getD_cons_succ, Finset.sum_range_one, Nat.cast_one, div_one]
    rw [Finset.sum_congr rfl fun j hj => by rw [hlg j (Finset.mem_range.1 hj), mul_left_comm], ← Finset.mul_sum]
    exact mul_pos hX hv
  obtain ⟨ε, hε, hlt⟩ := lt_of_neg_slope h1 hneg
  refine ⟨ε, hε, fun lr a c => ?_⟩
  obtain ⟨net', e⟩ := h2 lr
  exact ⟨net', _, _, hlt lr a c, e⟩

/-- Hypotheses of `C80_single_row_partial` are met: two inputs, two classes, zero parameters, so that both classes get probability 1/2. -/
example : ∀ i, ValidIdx [1, 2] i → (1 / 10 : ℝ) < softmax [2] (affine 2 (fun _ => 0) (fun _ => 0) (fun _ => 1)) i ∧
    softmax [2] (affine 2 (fun _ => 0) (fun _ => 0) (fun _ => 1)) i < 1 - 1 / 10 := by
  intro i hi
  have : softmax [2] (affine 2 (fun _ => 0) (fun _ => 0) (fun _ => 1)) i = 1 / 2 := by
    simp only [softmax, total1, affine]
    norm_num [Finset.sum_range_succ]
  rw [this]
  norm_num

/-- Two samples with one feature each, two classes, in one batch: every small enough learning rate makes the printed cross entropy rise. -/
theorem C80_refuted (E : Engine Unit ℝ) {eps : ℝ} (h0 : 0 < eps) (h1 : eps < 1 / 4) :
    ∃ w bias x t : List Nat → ℝ, (∀ r < 2, total [2] (fun y => t (r :: y)) = 1) ∧ (∀ i, t i = 0 ∨ t i = 1) ∧
      ∃ ε > 0, ∀ lr, 0 < lr → lr < ε → ∃ net' v1 v2, v1 < v2 ∧ trainCall E [ofFn [2, 1] x] [ofFn [2, 2] t] 2
          ((classifier 1 2 w bias ()).compile (.crossEntropy eps) (.newSGD ⟨lr, 0, 0, 0, false⟩)) =
        (.ok (), net', [ofFn [1] fun _ => v1, ofFn [1] fun _ => v2]) := by
  let w : List Nat → ℝ := fun i => if i = [0, 0] then 3 / 8 * Real.log 3 else 0
  let bias : List Nat → ℝ := fun i => if i = [0, 0] then -9 / 2 * Real.log 3 else 0
  let x : List Nat → ℝ := fun i => if i = [0, 0] then 12 else 28 / 3
  let t : List Nat → ℝ := fun i => if i = [0, 1] ∨ i = [1, 0] then 1 else 0
  have ht : ∀ r < 2, total [2] (fun y => t (r :: y)) = 1 := by
    intro r hr
    interval_cases r <;> norm_num [total1, Finset.sum_range_succ, t]
  refine ⟨w, bias, x, t, ht, fun i => by by_cases h : i = [0, 1] ∨ i = [1, 0] <;> simp [t, h], ?_⟩
  set z := affine 1 w bias x with hz
  have z00 : z [0, 0] = 0 := by simp [hz, affine, w, bias, x]; ring
  have z01 : z [0, 1] = 0 := by simp [hz, affine, w, bias]
  have z10 : z [1, 0] = -Real.log 3 := by simp [hz, affine, w, bias, x]; ring
  have z11 : z [1, 1] = 0 := by simp [hz, affine, w, bias]
  have e3 : Real.exp (-Real.log 3) = 1 / 3 := by rw [Real.exp_neg, Real.exp_log (by norm_num)]; norm_num
  have p00 : softmax [2] z [0, 0] = 1 / 2 := by
    simp only [softmax, total1, List.headD_cons, Finset.sum_range_succ, Finset.sum_range_zero, z00, z01]; norm_num
  have p01 : softmax [2] z [0, 1] = 1 / 2 := by
    simp only [softmax, total1, List.headD_cons, Finset.sum_range_succ, Finset.sum_range_zero, z00, z01]; norm_num
  have p10 : softmax [2] z [1, 0] = 1 / 4 := by
    simp only [softmax, total1, List.headD_cons, Finset.sum_range_succ, Finset.sum_range_zero, z10, z11, e3]; norm_num
  have p11 : softmax [2] z [1, 1] = 3 / 4 := by
    simp only [softmax, total1, List.headD_cons, Finset.sum_range_succ, Finset.sum_range_zero, z10, z11, e3]; norm_num
  have cl : ∀ y : ℝ, 1 / 4 ≤ y → y ≤ 3 / 4 → clampTo eps y = y := by
    intro y a c
    unfold clampTo
    rw [max_eq_left (by linarith), min_eq_left (by linarith)]
  have c2 := cl (1 / 2) (by norm_num) (by norm_num)
  have c4 := cl (1 / 4) (by norm_num) (by norm_num)
  have c34 := cl (3 / 4) (by norm_num) (by norm_num)
  have d : ∀ {ds : List Nat}, ds ≠ [] → (∀ a ∈ ds, 0 < a) → ds.prod < 2 ^ 31 → Dims ds := fun a b c => ⟨a, b, c⟩
  obtain ⟨loss, s1, s2⟩ := C80_slope (b := 2) (n := 1) (k := 2) (d (by simp) (by simp) (by simp)) (d (by simp) (by simp) (by simp))
    (d (by simp) (by simp) (by simp)) w bias x t () E h0 ⟨0, 0, 0, 0, false⟩ rfl rfl (by
      intro i hi
      obtain ⟨a, c, rfl, ha, hc⟩ := valid2_iff.1 hi
      rw [← hz]
      interval_cases a <;> interval_cases c <;> simp only [p00, p01, p10, p11] <;> constructor <;> linarith) ht
  rw [← hz] at s1
  have hpos : -(total [2, 2] fun i => (softmax [2] z i - t i) / (2 : Nat) *
        ∑ s ∈ Finset.range 2, (1 + ∑ j ∈ Finset.range 1, x [i.getD 0 0, j] * x [s, j]) *
          logitGrad eps 2 2 z t [s, i.getD 1 0]) = 47 / 256 := by
    simp only [total2, logitGrad, total1, List.headD_cons, Finset.sum_range_succ, Finset.sum_range_zero, List.getD_cons_zero,
      List.getD_cons_succ, p00, p01, p10, p11, c2, c4, c34]
    norm_num [x, t]
  rw [hpos] at s1
  obtain ⟨ε, hε, hlt⟩ := lt_of_neg_slope s1.neg (by norm_num)
  refine ⟨ε, hε, fun lr a c => ?_⟩
  obtain ⟨net', e⟩ := s2 lr
  exact ⟨net', _, _, neg_lt_neg_iff.1 (hlt lr a c), e⟩

end SmartDNN
