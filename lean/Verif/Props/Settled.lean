import Verif.Proofs.Settled

/-!
# C103: a model that already fits its data stays as it is
-/

namespace SmartDNN
open Net Spec

section
variable {ρ : Type}

/-- **C103.** Take any model of dense, convolution, pooling, flatten and activation layers, just compiled with any of the three optimizers
without weight decay, and any calls of `train` with data that it already fits (with the cross entropy: with targets between `eps` and
`1 - eps`), for any numbers of epochs, mixed with predictions.  Whether these calls return or throw, afterwards every parameter is
exactly what it was, and every prediction is exactly what the model returned before. -/
theorem C103_stays_partial (E : Engine ρ ℝ) {net : Net ρ ℝ} (hs : Stateless false net.layers)
    (ho : ∀ opt, net.optimizer = some opt → Unregularised opt) (vs : List (Visit ℝ)) (hv : ∀ v ∈ vs, v.Calm E net) :
    (visits E vs net).1.layers.map sansCaches = net.layers.map sansCaches ∧
    ∀ x, (Net.predict E x (visits E vs net).1).1 = (Net.predict E x net).1 := by
  have h := still_visits E hs vs hv (still_refl ho)
  exact ⟨h.layers, fun x => (still_predict E x hs h).1⟩

/-- **C103 (losses).** With the squared error, all the losses that such a call prints are zero, at any point of such a history. -/
theorem C103_losses (E : Engine ρ ℝ) {net : Net ρ ℝ} (hs : Stateless false net.layers)
    (ho : ∀ opt, net.optimizer = some opt → Unregularised opt) (vs : List (Visit ℝ)) (hv : ∀ v ∈ vs, v.Calm E net)
    (hm : net.loss = some .mse) {xs ys : List (Tensor ℝ)} (hf : FitsData E net xs ys) (epochs : Int) :
    ∀ p ∈ (trainCall E xs ys epochs (visits E vs net).1).2.2, ∀ v ∈ p.data, v = 0 :=
  fun p hp => (still_train E hs hf epochs (still_visits E hs vs hv (still_refl ho))).2 p hp hm

end

/-! ### Cross entropy and certain predictions -/

/-- **C103 refuted** for the cross entropy and certain predictions: a dense layer that predicts the one-hot target `[1]` exactly is moved
by a training step, for every learning rate other than 0 and every `eps` between 0 and 1/2, and then predicts `1 + 2 lr eps`.  The
gradient compares the target with the prediction cut off at `1 - eps`. -/
theorem C103_onehot_refuted {ρ : Type} (rng : ρ) (E : Engine ρ ℝ) {eps : ℝ} (h0 : 0 < eps) (h1 : eps ≤ 1 / 2) (o : SGDOptions ℝ) (hm : o.momentum = 0)
    (hwd : o.weightDecay = 0) (hlr : o.learningRate ≠ 0) :
    let net := (single 1 1 (fun _ => 1) (fun _ => 0) rng).compile (.crossEntropy eps) (.newSGD o)
    let x := ofFn [1, 1] fun _ => (1 : ℝ)
    Stateless false net.layers ∧ Unregularised (K := Nat × Bool) (.newSGD o) ∧ (predict E x net).1 = .ok x ∧
    ∃ net', (trainCall E [x] [x] 1 net).1 = .ok () ∧ (trainCall E [x] [x] 1 net).2.1 = net' ∧
      ∃ v : ℝ, v ≠ 1 ∧ v = 1 + 2 * (o.learningRate * eps) ∧ (predict E x net').1 = .ok (ofFn [1, 1] fun _ => v) := by
  intro net x
  have d11 : Dims [1, 1] := ⟨by simp, by simp, by simp⟩
  have ha : affine (T := ℝ) 1 (fun _ => 1) (fun _ => 0) (fun _ => 1) = fun _ => 1 := by
    funext i
    simp [affine]
  obtain ⟨net', net'', t1, t2⟩ := single_train d11 d11 d11 (fun _ => 1) (fun _ => 0) (fun _ => 1) (fun _ => 1) rng E eps o hm hwd
  refine ⟨trivial, .sgd o hwd, ?_, net', ?_, ?_, 1 + 2 * (o.learningRate * eps), ?_, rfl, ?_⟩
  · have := single_answer d11 d11 d11 (fun _ => 1) (fun _ => 0) (fun _ => 1) rng E (.crossEntropy eps) (.newSGD o)
    rw [ha] at this
    exact this
  · exact congrArg Prod.fst t1
  · exact congrArg (fun q => q.2.1) t1
  · intro h
    have : o.learningRate * eps = 0 := by linarith
    rcases mul_eq_zero.1 this with h | h
    · exact hlr h
    · exact h0.ne' h
  · rw [show predict E x net' = _ from t2]
    rw [ha]
    refine congrArg (fun f => Except.ok (ofFn [1, 1] f)) (funext fun i => ?_)
    have hc : clampTo eps (1 : ℝ) = 1 - eps := by
      unfold clampTo
      rw [max_eq_left (by linarith), min_eq_right (by linarith)]
    simp only [affine, hc, Finset.sum_range_one, Nat.cast_one, div_one]
    ring

/-- The hypotheses occur: a network of two dense layers and an activation with arbitrary weights, compiled with the squared error and
Adam, and three epochs of training on its own answers for two inputs.  The call returns and prints three losses; so the theorems say
that these are 0 and that the weights are unchanged. -/
example {ρ : Type} (E : Engine ρ ℝ) (rng : ρ) (w1 b1 w2 b2 x1 x2 : List Nat → ℝ) (o : AdamOptions ℝ) (hl1 : o.l1Strength ≤ 0) (hl2 : o.l2Strength ≤ 0) :
    let net := (⟨[⟨.fc { weights := ofFn [3, 5] w1, biases := ofFn [1, 5] b1 }, true⟩, ⟨.activation { activation := .relu }, true⟩,
      ⟨.fc { weights := ofFn [5, 2] w2, biases := ofFn [1, 2] b2 }, true⟩], none, none, rng⟩ : Net ρ ℝ).compile .mse (.newAdam o)
    ∃ y1 y2 net' rs, FitsData E net [ofFn [4, 3] x1, ofFn [4, 3] x2] [ofFn [4, 2] y1, ofFn [4, 2] y2] ∧
      trainCall E [ofFn [4, 3] x1, ofFn [4, 3] x2] [ofFn [4, 2] y1, ofFn [4, 2] y2] 3 net = (.ok (), net', rs) ∧ rs.length = 3 ∧
      (∀ p ∈ rs, ∀ v ∈ p.data, v = 0) ∧ net'.layers.map sansCaches = net.layers.map sansCaches := by
  intro net
  have d : ∀ {ds : List Nat}, ds ≠ [] → (∀ a ∈ ds, 0 < a) → ds.prod < 2 ^ 31 → Dims ds := fun a b c => ⟨a, b, c⟩
  have hc : Chain net.layers [4, 3] [4, 2] :=
    .cons (es := [4, 5]) (.dense (d (by simp) (by simp) (by simp)) (d (by simp) (by simp) (by simp)) (d (by simp) (by simp) (by simp)) rfl rfl)
      (.cons (es := [4, 5]) (.elementwise (d (by simp) (by simp) (by simp)) (by intro h; cases h))
        (.cons (es := [4, 2]) (.dense (d (by simp) (by simp) (by simp)) (d (by simp) (by simp) (by simp)) (d (by simp) (by simp) (by simp)) rfl rfl) (.nil _)))
  obtain ⟨y1, f1⟩ := chain_predict E hc x1
  obtain ⟨y2, f2⟩ := chain_predict E hc x2
  have hf : FitsData E net [ofFn [4, 3] x1, ofFn [4, 3] x2] [ofFn [4, 2] y1, ofFn [4, 2] y2] := by
    exact fits_two E rfl f1 f2
  have hw : WellShaped net [4, 3] [4, 2] :=
    (C67_compiled _ .mse hc (d (by simp) (by simp) (by simp)) ⟨0, 0, 0, 0, false⟩ ⟨0, 0, 0, 0, false, 0⟩ o).2.2
  obtain ⟨net', rs, t1, t2, -⟩ := C67_train E net hw [ofFn [4, 3] x1, ofFn [4, 3] x2] [ofFn [4, 2] y1, ofFn [4, 2] y2] 3 (by simp) (by simp)
    (by simpa using ⟨⟨x1, rfl⟩, ⟨x2, rfl⟩⟩) (by simpa using ⟨⟨y1, rfl⟩, ⟨y2, rfl⟩⟩)
  have hs : Stateless false net.layers := trivial
  have ho : ∀ opt, net.optimizer = some opt → Unregularised opt := by
    intro opt h
    cases h
    exact .adam o hl1 hl2
  refine ⟨y1, y2, net', rs, hf, t1, t2, ?_, ?_⟩
  · have := C103_losses E hs ho [] (by simp) rfl hf 3
    rw [show trainCall E _ _ 3 (visits E [] net).1 = _ from t1] at this
    exact this
  · have := (C103_stays_partial E hs ho [.train _ _ 3] (by intro v hv; rw [List.mem_singleton.1 hv]; exact hf)).1
    rw [visits_train, t1] at this
    exact this

end SmartDNN
