import Verif.Proofs.Bounded

/-!
# How far training can move a parameter (C100)
-/

namespace SmartDNN
open Net Spec

variable {ρ : Type}

/-- C100 for one call: training moves no parameter by more than the longest step of the optimizer, times the number of
samples, times the number of epochs -- whatever the layers, the loss, the data and the outcome of the call. -/
theorem C100_train (E : Engine ρ ℝ) (inputs targets : List (Tensor ℝ)) (epochs : Int) (net : Net ρ ℝ)
    (opt : Optimizer (Nat × Bool) ℝ) (B : ℝ) (ho : net.optimizer = some opt) (h : Tame B opt) :
    ParamsMoved ((epochs.toNat * inputs.length : Nat) * B) net.layers (trainCall E inputs targets epochs net).2.1.layers := by
  have hB := tame_nonneg h
  have := train_within (base := net.layers) hB E inputs targets epochs ⟨net, ofFn [1] fun _ => 0, []⟩ 0
    (within_start fun o h' => by rw [ho] at h'; cases h'; exact h)
  rw [Nat.zero_add] at this
  exact this.1

/-- C100: over any history of calls the parameters of the layers that were there at the start stay within (number of updates) ×
(longest step) of their first values. -/
theorem C100_history (E : Engine ρ ℝ) (us : List Use) (net : Net ρ ℝ) (B : ℝ) (hB : 0 ≤ B)
    (h0 : ∀ opt, net.optimizer = some opt → Tame B opt) (hu : ∀ L opt, Use.compile L opt ∈ us → Tame B opt) :
    ParamsMoved (updates us * B) net.layers ((after E us net).layers.take net.layers.length) := by
  obtain ⟨extra, h⟩ := after_within hB E us hu (within_start h0)
  rw [Nat.zero_add] at h
  have := List.forall₂_take_append _ _ _ h.1.flip
  exact this.flip

/-- The library's defaults meet the conditions: one update with Adam moves no parameter by more than 7.3 times the learning
rate, one with RMSProp by no more than 10 times the learning rate.  (`tiny` is the smallest normal `float`.) -/
theorem C100_defaults (rate : ℝ) (h : 0 ≤ rate) :
    Tame (K := Nat × Bool) (7.3 * rate) (.newAdam ⟨rate, 0.9, 0.999, 1e-8, 0, 0, 0, 1, 1 / 2 ^ 126⟩) ∧
      Tame (K := Nat × Bool) (10 * rate) (.newRMSProp ⟨rate, 0.99, 1e-8, 0, false, 0⟩) := by
  constructor
  · refine .adam _ ⟨h, by norm_num, by norm_num, by norm_num, by norm_num, by norm_num, by norm_num, by norm_num, by norm_num,
      by norm_num, by norm_num⟩ ?_
    unfold adamStep
    rw [mul_comm]
    refine mul_le_mul_of_nonneg_right ?_ h
    have : √(0.999 / ((1 - 0.999) * (0.999 - 0.9 ^ 2))) ≤ (72.8 : ℝ) := by
      rw [Real.sqrt_le_left (by norm_num)]
      norm_num
    simp only [max_self, add_zero]
    rw [div_le_iff₀ (by norm_num)]
    norm_num at this ⊢
    linarith
  · refine .rmsprop _ ⟨h, by norm_num, by norm_num, by norm_num, by norm_num, rfl⟩ (le_of_eq ?_)
    unfold rmsStep
    have : √(1 - 0.99) = (0.1 : ℝ) := by
      rw [show (1 : ℝ) - 0.99 = 0.1 ^ 2 by norm_num, Real.sqrt_sq (by norm_num)]
    simp only [this]
    norm_num
    ring

/-- SGD has no such bound: for every positive learning rate and every distance there is a gradient that takes the parameter further. -/
theorem C100_sgd_unbounded (o : SGDOptions ℝ) (hm : o.momentum = 0) (hd : o.weightDecay = 0) (hr : 0 < o.learningRate) (d w0 : ℝ) :
    ∃ (g : ℝ) (w' : World Nat ℝ), World.run ⟨fun _ => ofFn [1] fun _ => w0, .newSGD o⟩ [⟨[0], [ofFn [1] fun _ => g], -1⟩] = .ok w' ∧
      ¬ MovedBy d (ofFn [1] fun _ => w0) (w'.mem 0) := by
  refine ⟨(|d| + 1) / o.learningRate, ?_⟩
  obtain ⟨w', h1, h2⟩ := C32_plain (K := Nat) o hm hd (fun _ => ofFn [1] fun _ => w0) 0 [1] (fun _ => w0) rfl
    (fun _ _ => (|d| + 1) / o.learningRate) (fun _ => -1) 1
  refine ⟨w', h1, fun h => ?_⟩
  have := h.2.2 0
  rw [h2, assign, if_pos rfl] at this
  simp only [Finset.sum_range_one, if_neg (show ¬ (0 : ℝ) < -1 by norm_num), mul_div_cancel₀ _ hr.ne'] at this
  have e : ∀ x : ℝ, (ofFn [1] fun _ => x).data.getD 0 0 = x := fun x => rfl
  rw [e, e, sub_sub_cancel_left, abs_neg, abs_of_nonneg (by positivity)] at this
  linarith [le_abs_self d]

/-- Every model compiled with default Adam: 100 epochs with 10 samples move no parameter by more than 7.3. -/
example (E : Engine ρ ℝ) (inputs targets : List (Tensor ℝ)) (hn : inputs.length = 10) (net : Net ρ ℝ)
    (ho : net.optimizer = some (.newAdam ⟨0.001, 0.9, 0.999, 1e-8, 0, 0, 0, 1, 1 / 2 ^ 126⟩)) :
    ParamsMoved 7.3 net.layers (trainCall E inputs targets 100 net).2.1.layers := by
  have := C100_train E inputs targets 100 net _ _ ho (C100_defaults 0.001 (by norm_num)).1
  rw [hn, show Int.toNat 100 = 100 from rfl] at this
  exact this.mono (by norm_num)

/-- A history with two optimizers, a failing call and a layer added in the middle. -/
example (E : Engine ρ ℝ) (net : Net ρ ℝ) (h0 : net.optimizer = none) (x y g : Tensor ℝ) (loss : Loss ℝ) (l : Layer ℝ) :
    ParamsMoved (4 * 0.1) net.layers ((after E [.updateWeights, .compile loss (.newRMSProp ⟨0.01, 0.99, 1e-8, 0, false, 0⟩), .train [x] [y] 2,
      .backward g, .addLayer l, .compile loss (.newAdam ⟨0.001, 0.9, 0.999, 1e-8, 0, 0, 0, 1, 1 / 2 ^ 126⟩), .train [x] [] 1] net).layers.take
        net.layers.length) := by
  have h := C100_history E [.updateWeights, .compile loss (.newRMSProp ⟨0.01, 0.99, 1e-8, 0, false, 0⟩), .train [x] [y] 2,
    .backward g, .addLayer l, .compile loss (.newAdam ⟨0.001, 0.9, 0.999, 1e-8, 0, 0, 0, 1, 1 / 2 ^ 126⟩), .train [x] [] 1] net 0.1
    (by norm_num) (by rw [h0]; intro _ h; cases h) ?_
  · exact h
  · intro L opt hm
    simp only [List.mem_cons, reduceCtorEq, false_or, Use.compile.injEq, List.not_mem_nil, or_false] at hm
    rcases hm with ⟨-, rfl⟩ | ⟨-, rfl⟩
    · have := (C100_defaults 0.01 (by norm_num)).2
      cases this with
      | rmsprop _ h hB => exact .rmsprop _ h (by linarith)
    · have := (C100_defaults 0.001 (by norm_num)).1
      cases this with
      | adam _ h hB => exact .adam _ h (by linarith)

end SmartDNN
