import Verif.Proofs.Decay

/-!
# What weight decay does (C107)
-/

namespace SmartDNN
open Net Spec

/-- **C107, SGD.** A model with mean squared error and SGD with weight decay `wd` and no momentum, and a dense layer anywhere in it.
Training on the single sample `(x, t)` succeeds, prints the mean squared error of the model's output without penalty, and moves that layer's
weights and biases by `-lr` times the gradient of the error plus `wd/2` times the sum of their squares. -/
theorem C107_step {ρ : Type} {ds es : List Nat} {b n m : Nat} {P G : (List Nat → ℝ) → List Nat → ℝ}
    {x w bias : List Nat → ℝ} (E : Engine ρ ℝ) (net : Net ρ ℝ) (pre post : List (Layer ℝ)) (l : FC ℝ) (mode : Bool)
    (hnet : net.layers = pre ++ ⟨.fc l, mode⟩ :: post)
    (hlw : l.weights = ofFn [n, m] w) (hlb : l.biases = ofFn [1, m] bias)
    (hx : Dims [b, n]) (hw : Dims [n, m]) (hd : Dims [b, m])
    (hpre : Stack pre ds [b, n] P x) (hpost : Stack post [b, m] es G (affine n w bias (P x)))
    (hwell : WellShaped net ds es) (hloss : net.loss = some .mse) (lr wd : ℝ)
    (hopt : ∃ opt, net.optimizer = some opt ∧ DecaySGD lr wd opt) (t : List Nat → ℝ) :
    ∃ (net' : Net ρ ℝ) (l' : FC ℝ) (gw gb : List Nat → ℝ),
      trainCall E [ofFn ds x] [ofFn es t] 1 net = (.ok (), net', [ofFn [1] fun _ => mse es (G (affine n w bias (P x))) t]) ∧
      net'.layers[pre.length]? = some ⟨.fc l', mode⟩ ∧
      l'.weights = ofFn [n, m] (fun i => w i - lr * gw i) ∧
      l'.biases = ofFn [1, m] (fun i => bias i - lr * gb i) ∧
      HasGradient [n, m] (fun w => mse es (G (affine n w bias (P x))) t + penalty wd [n, m] w) w gw ∧
      HasGradient [1, m] (fun bias => mse es (G (affine n w bias (P x))) t + penalty wd [1, m] bias) bias gb := by
  have hes : Dims es := by
    obtain ⟨-, ⟨L, hL, hf⟩, -⟩ := hwell
    rw [hloss] at hL
    cases hL
    exact hf
  obtain ⟨g, hg, hgrad⟩ : ∃ g, Loss.mse.gradient (ofFn es (G (affine n w bias (P x)))) (ofFn es t) = .ok (ofFn es g) ∧
      HasGradient es (fun y => mse es y t) (G (affine n w bias (P x))) g :=
    ⟨_, mse_gradient_ofFn hes _ t, hasGradient_mse es _ t⟩
  obtain ⟨net1, net2, r, gw, gb, p1, p2, p3, p4, p5, -⟩ := C54_dense_gradients E net pre post l mode hnet hlw hlb hx hw hd hpre
    hpost (fun y => mse es y t) g hgrad
  obtain ⟨net', v, hstep, -⟩ := C67_step E net hwell _ _ ⟨x, rfl⟩ ⟨t, rfl⟩
  obtain ⟨pred, n1, L, g1, g2, n2, s1, s2, s3, s4, s5, s6⟩ := hstep
  have q1 : pred = ofFn es (G (affine n w bias (P x))) ∧ n1 = net1 := by
    rw [p1] at s1
    simp only [Prod.mk.injEq, Except.ok.injEq] at s1
    exact ⟨s1.1.symm, s1.2.symm⟩
  obtain ⟨rfl, rfl⟩ := q1
  have hl1 : n1.loss = some .mse := by
    have := congrArg (fun q => q.2.loss) p1
    rw [← hloss]
    exact this.symm
  rw [hl1] at s2
  cases s2
  have q2 : g1 = ofFn es g := by
    rw [hg] at s4
    exact (Except.ok.inj s4).symm
  subst q2
  have q3 : n2 = net2 := by
    rw [p2] at s5
    simp only [Prod.mk.injEq] at s5
    exact s5.2.symm
  subst q3
  obtain ⟨opt, ho, hplain⟩ := hopt
  have ho2 : n2.optimizer = some opt := by
    have a1 : n1.optimizer = net.optimizer := (congrArg (fun q => q.2.optimizer) p1).symm
    have a2 : n2.optimizer = n1.optimizer := (congrArg (fun q => q.2.optimizer) p2).symm
    rw [a2, a1, ho]
  have hu := s6
  rw [net_updateWeights_eq n2 opt ho2] at hu
  rcases hul : updateLayers 0 n2.layers opt with ⟨res, ls', opt'⟩
  rw [hul] at hu
  simp only [Prod.mk.injEq] at hu
  obtain ⟨rfl, hn'⟩ := hu
  obtain ⟨o, o', l', r1, r2, r3⟩ := (updateLayers_each (DecaySGD lr wd) (fun i l opt h => layer_decay h l) n2.layers 0 opt ls' opt'
    hplain hul).2 pre.length _ p3
  obtain ⟨o2, hpair⟩ := decay_pair (k0 := (0 + pre.length, false)) (k1 := (0 + pre.length, true)) (by simp) r1 [n, m] [1, m] w bias gw gb
  simp only [Layer.updateWeights, hpair, Prod.mk.injEq] at r2
  refine ⟨net', ⟨ofFn [n, m] (fun i => w i - lr * (gw i + wd * w i)), ofFn [1, m] (fun i => bias i - lr * (gb i + wd * bias i)),
    some (ofFn [b, n] (P x)), some (ofFn [n, m] gw), some (ofFn [1, m] gb)⟩, _, _, ?_, ?_, rfl, rfl, hasGradient_penalised wd p4,
    hasGradient_penalised wd p5⟩
  · refine (C55_train E _ _ 1 net net' _ (by simp) (by simp)).2 ?_
    have h := Epochs.succ (E := E) (Steps.cons (E := E) (ps := []) ⟨_, n1, .mse, _, g2, n2, p1, hl1, C29_compute hes _ _, hg, s5, s6⟩ (.nil _)) (.zero _)
    simpa using h
  · rw [← hn', r2.2.1]
    exact r3

/-- Hypotheses of `C107_step` are met: dense 3→5, sigmoid, dense 5→2 on a batch of four rows, weight decay 0.01. -/
example (w1 b1 w2 b2 x : List Nat → ℝ) (lr : ℝ) :
    let l1 : Layer ℝ := ⟨.fc { weights := ofFn [3, 5] w1, biases := ofFn [1, 5] b1 }, true⟩
    let a : Layer ℝ := ⟨.activation ⟨.sigmoid, none⟩, true⟩
    let l2 : Layer ℝ := ⟨.fc { weights := ofFn [5, 2] w2, biases := ofFn [1, 2] b2 }, true⟩
    let net : Net Unit ℝ := Net.compile .mse (.newSGD ⟨lr, 0, 0, 0.01, false⟩) ⟨[l1, a, l2], none, none, ()⟩
    (∃ P G, Stack [] [4, 3] [4, 3] P x ∧ Stack [a, l2] [4, 5] [4, 2] G (affine 3 w1 b1 (P x))) ∧
    (∃ P G, Stack [l1, a] [4, 3] [4, 5] P x ∧ Stack [] [4, 2] [4, 2] G (affine 5 w2 b2 (P x))) ∧
    WellShaped net [4, 3] [4, 2] ∧ ∃ opt, net.optimizer = some opt ∧ DecaySGD lr 0.01 opt := by
  intro l1 a l2 net
  have d : ∀ {ds : List Nat}, ds ≠ [] → (∀ a ∈ ds, 0 < a) → ds.prod < 2 ^ 31 → Dims ds := fun a b c => ⟨a, b, c⟩
  have t1 : ∀ x, LayerAt l1 [4, 3] [4, 5] (affine 3 w1 b1) x := fun x =>
    .dense (d (by simp) (by simp) (by simp)) (d (by simp) (by simp) (by simp)) (d (by simp) (by simp) (by simp)) rfl rfl
  have t2 : ∀ x, LayerAt a [4, 5] [4, 5] (fun x i => sigmoid (x i)) x := fun x => .smooth (d (by simp) (by simp) (by simp)) rfl
  have t3 : ∀ x, LayerAt l2 [4, 5] [4, 2] (affine 5 w2 b2) x := fun x =>
    .dense (d (by simp) (by simp) (by simp)) (d (by simp) (by simp) (by simp)) (d (by simp) (by simp) (by simp)) rfl rfl
  refine ⟨⟨_, _, .nil _ _, .cons (t2 _) (.cons (t3 _) (.nil _ _))⟩, ⟨_, _, .cons (t1 _) (.cons (t2 _) (.nil _ _)), .nil _ _⟩, ?_,
    _, rfl, _, rfl, rfl, rfl, rfl⟩
  exact (C67_compiled ⟨[l1, a, l2], none, none, ()⟩ .mse
    (.cons (layerAt_typed (t1 x)) (.cons (layerAt_typed (t2 x)) (.cons (layerAt_typed (t3 x)) (.nil _))))
    (d (by simp) (by simp) (by simp)) ⟨lr, 0, 0, 0.01, false⟩ ⟨0, 0, 0, 0, false, 0⟩ ⟨1, 1/2, 1/2, 1, 0, 0, 0, 1, 1⟩).1

/-! ### Any history of gradients -/

variable {K : Type} [DecidableEq K]

theorem sgd_decay_bound {wd G R : ℝ} (hwd : 0 < wd) (hR : G ≤ wd * R) (d : ℝ) (nest : Bool) {rate g : Nat → ℝ} {w0 : ℝ}
    (hr : ∀ j, 0 ≤ rate j ∧ rate j * wd ≤ 1) (hg : ∀ j, |g j| ≤ G) (h0 : |w0| ≤ R) (n : Nat) :
    |(Spec.sgd 0 d wd nest rate g w0 n).1| ≤ R := by
  induction n with
  | zero => exact h0
  | succ n ih =>
    simp only [Spec.sgd, if_true]
    generalize (Spec.sgd 0 d wd nest rate g w0 n).1 = w at ih
    obtain ⟨h1, h2⟩ := hr n
    have e : w - rate n * (g n + wd * w) = (1 - rate n * wd) * w + -(rate n * g n) := by ring
    rw [e]
    refine (abs_add_le _ _).trans ?_
    rw [abs_neg, abs_mul, abs_mul, abs_of_nonneg (by linarith : 0 ≤ 1 - rate n * wd), abs_of_nonneg h1]
    have k1 := mul_le_mul_of_nonneg_left ih (by linarith : 0 ≤ 1 - rate n * wd)
    have k2 := mul_le_mul_of_nonneg_left ((hg n).trans hR) h1
    nlinarith

/-- **C107, SGD, any history.** With weight decay `wd > 0`, no momentum, and learning rates of at most `1 / wd`, gradients of at most `G` never take a
weight further from zero than where it started or than `G / wd`, over any number of calls.  (Without weight decay there is no such bound:
`C32_plain`.) -/
theorem C107_sgd_bounded (o : SGDOptions ℝ) (hm : o.momentum = 0) (hwd : 0 < o.weightDecay) {G R : ℝ} (hR : G / o.weightDecay ≤ R)
    (mem : K → Tensor ℝ) (k : K) (ds : List Nat) (w0 : List Nat → ℝ) (hk : mem k = ofFn ds w0) (h0 : ∀ i, |w0 i| ≤ R)
    (g : Nat → List Nat → ℝ) (hg : ∀ j i, |g j i| ≤ G) (lr : Nat → ℝ) (hl : 0 ≤ o.learningRate) (hl' : o.learningRate * o.weightDecay ≤ 1)
    (hlr : ∀ j, lr j * o.weightDecay ≤ 1) (n : Nat) :
    ∃ (a : World K ℝ) (w : List Nat → ℝ), World.run ⟨mem, .newSGD o⟩ (callsOn k ds g lr n) = .ok a ∧ a.mem k = ofFn ds w ∧ ∀ i, |w i| ≤ R := by
  obtain ⟨a, h1, h2⟩ := C32_recurrence o mem k ds w0 hk g lr n
  refine ⟨a, _, h1, by rw [h2, assign_same], fun i => ?_⟩
  rw [hm]
  refine sgd_decay_bound hwd ?_ _ _ ?_ (fun j => hg j i) (h0 i) n
  · rw [div_le_iff₀ hwd] at hR
    linarith
  · intro j
    split
    · next h => exact ⟨h.le, hlr j⟩
    · exact ⟨hl, hl'⟩

theorem sgd_idle (d wd : ℝ) (nest : Bool) (rate w0 : ℝ) (n : Nat) :
    (Spec.sgd 0 d wd nest (fun _ => rate) (fun _ => 0) w0 n).1 = (1 - rate * wd) ^ n * w0 := by
  induction n with
  | zero => simp [Spec.sgd]
  | succ n ih =>
    simp only [Spec.sgd, if_true]
    rw [ih, pow_succ]
    ring

theorem ema_idle (b : ℝ) (n : Nat) : ema b (fun _ => some 0) n = 0 := by
  induction n with
  | zero => rfl
  | succ n ih => simp [ema, ih]

theorem adam_idle (c : Nat → ℝ) (b1 b2 e l1 l2 rate w0 : ℝ) (hl1 : l1 ≤ 0) (hl2 : 0 ≤ l2) (n : Nat) :
    adam c b1 b2 e l1 l2 (fun _ => rate) (fun _ => some 0) w0 n = (1 - rate * l2) ^ n * w0 := by
  induction n with
  | zero => simp [adam]
  | succ n ih =>
    simp only [adam, ih, ema_idle, max_eq_right hl1, max_eq_left hl2, zero_div, mul_zero, zero_mul, zero_add]
    rw [pow_succ]
    ring

/-- **C107, without gradients.** As long as all gradients are zero, SGD with weight decay `wd` (no momentum) and Adam with L2 strength `wd` (no L1
strength, no decay of the rate) multiply the weights by `1 - lr * wd` in every call. -/
theorem C107_idle (o : SGDOptions ℝ) (hm : o.momentum = 0) (p : AdamOptions ℝ) (hp1 : p.l1Strength ≤ 0) (hp2 : 0 ≤ p.l2Strength)
    (hpd : p.decay ≤ 0) (mem : K → Tensor ℝ) (k : K) (ds : List Nat) (w0 : List Nat → ℝ) (hk : mem k = ofFn ds w0) (n : Nat) :
    (∃ a : World K ℝ, World.run ⟨mem, .newSGD o⟩ (callsOn k ds (fun _ _ => 0) (fun _ => -1) n) = .ok a ∧
      a.mem k = ofFn ds fun i => (1 - o.learningRate * o.weightDecay) ^ n * w0 i) ∧
    ∃ a : World K ℝ, World.run ⟨mem, .newAdam p⟩ (callsOpt k ds (fun _ => some fun _ => 0) (fun _ => -1) n) = .ok a ∧
      a.mem k = ofFn ds fun i => (1 - p.learningRate * p.l2Strength) ^ n * w0 i := by
  constructor
  · obtain ⟨a, h1, h2⟩ := C32_recurrence o mem k ds w0 hk (fun _ _ => 0) (fun _ => -1) n
    refine ⟨a, h1, ?_⟩
    rw [h2, assign_same, hm]
    congr 1
    funext i
    simp only [if_neg (show ¬ (0 : ℝ) < -1 by norm_num)]
    exact sgd_idle _ _ _ _ _ n
  · obtain ⟨a, h1, h2⟩ := C34_trajectory_partial p mem k ds w0 hk (fun _ => some fun _ => 0) (fun _ => -1) n
    refine ⟨a, h1, ?_⟩
    rw [h2, assign_same]
    congr 1
    funext i
    have hr : adamRate p (fun _ => -1) = fun _ => p.learningRate := by
      funext j
      unfold adamRate
      simp [not_lt.2 hpd]
    simp only [Option.map_some, zero_div, hr]
    exact adam_idle _ _ _ _ _ _ _ _ hp1 hp2 n

/-- RMSProp adds the decay to the gradient before it normalises it. -/
theorem rmsprop_cancel (a e wd rate w0 : ℝ) : ∀ n, rmsprop a e 0 wd false (fun _ => rate)
    (fun j => -1 - wd * (rmsprop a e 0 0 false (fun _ => rate) (fun _ => -1) w0 j).w) w0 n =
    rmsprop a e 0 0 false (fun _ => rate) (fun _ => -1) w0 n := by
  intro n
  induction n with
  | zero => rfl
  | succ n ih =>
    simp only [rmsprop, ih]
    simp

theorem rmsprop_drift {a e rate w0 : ℝ} (h0 : 0 ≤ a) (h1 : a ≤ 1) (he : 0 < e) (hr : 0 ≤ rate) : ∀ n : Nat,
    0 ≤ (rmsprop a e 0 0 false (fun _ => rate) (fun _ => -1) w0 n).sq ∧ (rmsprop a e 0 0 false (fun _ => rate) (fun _ => -1) w0 n).sq ≤ 1 ∧
    w0 + n * (rate / √(1 + e)) ≤ (rmsprop a e 0 0 false (fun _ => rate) (fun _ => -1) w0 n).w := by
  intro n
  induction n with
  | zero => simp [rmsprop]
  | succ n ih =>
    obtain ⟨i1, i2, i3⟩ := ih
    simp only [rmsprop, lt_irrefl, if_false, zero_mul, add_zero, Bool.false_eq_true, sub_zero]
    generalize rmsprop a e 0 0 false (fun _ => rate) (fun _ => -1) w0 n = s at i1 i2 i3
    have q0 : 0 ≤ a * s.sq + (1 - a) * (-1) ^ 2 := by nlinarith
    have q1 : a * s.sq + (1 - a) * (-1) ^ 2 ≤ 1 := by nlinarith
    refine ⟨q0, q1, ?_⟩
    have hs : rate / √(1 + e) ≤ rate / √(a * s.sq + (1 - a) * (-1) ^ 2 + e) :=
      div_le_div_of_nonneg_left hr (Real.sqrt_pos.2 (by linarith)) (Real.sqrt_le_sqrt (by linarith))
    have e2 : rate * (-1 / √(a * s.sq + (1 - a) * (-1) ^ 2 + e)) = -(rate / √(a * s.sq + (1 - a) * (-1) ^ 2 + e)) := by ring
    rw [e2]
    push_cast
    linarith

/-- **C107, RMSProp.** Weight decay of RMSProp does not bound the weights: it is added to the gradient, which is then normalised, so for every
weight decay there are gradients that take the weight as far as one likes. -/
theorem C107_rmsprop_unbounded (o : RMSPropOptions ℝ) (h0 : 0 ≤ o.alpha) (h1 : o.alpha ≤ 1) (he : 0 < o.epsilon) (hm : o.momentum = 0)
    (hc : o.centered = false) (hr : 0 < o.learningRate) (mem : K → Tensor ℝ) (k : K) (w0 : ℝ) (hk : mem k = ofFn [1] fun _ => w0) (R : ℝ) :
    ∃ (g : Nat → ℝ) (n : Nat) (a : World K ℝ) (w : ℝ),
      World.run ⟨mem, .newRMSProp o⟩ (callsOn k [1] (fun j _ => g j) (fun _ => -1) n) = .ok a ∧ a.mem k = ofFn [1] (fun _ => w) ∧ R < w := by
  have hp : 0 < o.learningRate / √(1 + o.epsilon) := div_pos hr (Real.sqrt_pos.2 (by linarith))
  obtain ⟨n, hn⟩ := exists_nat_gt ((R - w0) / (o.learningRate / √(1 + o.epsilon)))
  rw [div_lt_iff₀ hp] at hn
  refine ⟨fun j => -1 - o.weightDecay * (rmsprop o.alpha o.epsilon 0 0 false (fun _ => o.learningRate) (fun _ => -1) w0 j).w, n, ?_⟩
  obtain ⟨a, k1, k2⟩ := C33_recurrence o mem k [1] (fun _ => w0) hk
    (fun j _ => -1 - o.weightDecay * (rmsprop o.alpha o.epsilon 0 0 false (fun _ => o.learningRate) (fun _ => -1) w0 j).w) (fun _ => -1) n
  refine ⟨a, _, k1, by rw [k2, assign_same], ?_⟩
  simp only [if_neg (show ¬ (0 : ℝ) < -1 by norm_num), hm, hc, rmsprop_cancel]
  have := (rmsprop_drift (w0 := w0) h0 h1 he hr.le n).2.2
  linarith

/-! ### Adam, any history of calls -/

/-- **C107, Adam.** A model whose parameters are at most `R` in size and whose optimizers are Adam with an L2 strength that reaches no
further than `R`: whatever is done with it -- any training data, also data that make gradients arbitrarily large, predictions, direct calls of
`backward` and `updateWeights`, calls that throw, layers added and optimizers changed on the way -- no parameter ever leaves the interval
from `-R` to `R`. -/
theorem C107_adam_bounded {ρ : Type} (E : Engine ρ ℝ) (us : List Use) (net : Net ρ ℝ) (R : ℝ) (hp : ParamsUpToR R net.layers)
    (h0 : ∀ opt, net.optimizer = some opt → Anchor R opt) (hu : ∀ L opt, Use.compile L opt ∈ us → Anchor R opt)
    (ha : ∀ l, Use.addLayer l ∈ us → ParamsUpToR R [l]) : ParamsUpToR R (after E us net).layers := by
  have anchored : ∀ {opt : Optimizer (Nat × Bool) ℝ}, Anchor R opt → Anchored R opt := by
    rintro _ ⟨o, rfl, h⟩
    exact ⟨_, rfl, h, fun _ _ => momentsBound_zero _ _⟩
  refine (after_invariant (fun net : Net ρ ℝ => ParamsUpToR R net.layers ∧ ∀ opt, net.optimizer = some opt → Anchored R opt) ?_ ?_ E us
    ?_ ?_ ⟨hp, fun opt h => anchored (h0 opt h)⟩).1
  · intro net net' hs h
    refine ⟨fun l hl p hpp => ?_, by rw [hs.2.1]; exact h.2⟩
    have : some p ∈ net'.layers.map params := List.mem_map.2 ⟨l, hl, hpp⟩
    rw [hs.1] at this
    obtain ⟨l', hl', e⟩ := List.mem_map.1 this
    exact h.1 l' hl' p e
  · intro net h
    obtain ⟨layers, loss, optimizer, rng⟩ := net
    unfold updateWeights
    cases layers with
    | nil => exact h
    | cons l ls =>
      cases optimizer with
      | none => exact h
      | some opt =>
        obtain ⟨k1, k2⟩ := updateLayers_anchored (l :: ls) 0 (h.2 opt rfl) h.1
        exact ⟨k1, fun o ho => by cases ho; exact k2⟩
  · intro L opt hm net h
    exact ⟨h.1, fun o ho => by cases ho; exact anchored (hu L opt hm)⟩
  · intro l hm net h
    refine ⟨fun l' hl' => ?_, h.2⟩
    rcases List.mem_append.1 hl' with h1 | h1
    · exact h.1 l' h1
    · exact ha l hm l' h1

/-- The library's default betas and an L2 strength of 1/10: no parameter ever exceeds 73, if it starts there. -/
theorem C107_defaults (rate : ℝ) (h : 0 ≤ rate) (h1 : rate ≤ 10) :
    Anchor (K := Nat × Bool) 73 (.newAdam ⟨rate, 0.9, 0.999, 1e-8, 0, 0.1, 0, 1, 1 / 2 ^ 126⟩) := by
  refine ⟨_, rfl, ⟨h, by norm_num, by norm_num, by norm_num, by norm_num, by norm_num, by norm_num, by norm_num, by norm_num,
      by norm_num, by norm_num⟩, by norm_num, ?_, ?_⟩
  · show rate * 0.1 ≤ 1
    linarith
  unfold adamReach
  have : √(0.999 / ((1 - 0.999) * (0.999 - 0.9 ^ 2))) ≤ (72.8 : ℝ) := by
    rw [Real.sqrt_le_left (by norm_num)]
    norm_num
  simp only [max_self, add_zero]
  rw [div_le_iff₀ (by norm_num), div_le_iff₀ (by norm_num)]
  norm_num at this ⊢
  linarith

/-- A dense model with parameters up to 1, compiled in the course of the history, trained, and given a layer. -/
example (E : Engine Unit ℝ) (w b : List Nat → ℝ) (hw : ∀ i, |w i| ≤ 1) (hb : ∀ i, |b i| ≤ 1) (x y x' y' : Tensor ℝ) (loss : Loss ℝ) :
    ParamsUpToR 73 (after E [.compile loss (.newAdam ⟨0.001, 0.9, 0.999, 1e-8, 0, 0.1, 0, 1, 1 / 2 ^ 126⟩), .train [x] [y] 1000,
      .addLayer ⟨.activation ⟨.relu, none⟩, true⟩, .train [x', x] [y', y] 1000]
        ⟨[⟨.fc { weights := ofFn [3, 2] w, biases := ofFn [1, 2] b }, true⟩], none, none, ()⟩).layers := by
  refine C107_adam_bounded E _ _ 73 ?_ (by intro _ h; cases h) ?_ ?_
  · intro l hl p hp
    rw [List.mem_singleton] at hl
    subst hl
    cases hp
    constructor
    · intro v hv
      obtain ⟨i, -, rfl⟩ := List.mem_map.1 hv
      exact (hw i).trans (by norm_num)
    · intro v hv
      obtain ⟨i, -, rfl⟩ := List.mem_map.1 hv
      exact (hb i).trans (by norm_num)
  · intro L opt hm
    simp only [List.mem_cons, reduceCtorEq, false_or, Use.compile.injEq, List.not_mem_nil, or_false] at hm
    rw [hm.2]
    exact C107_defaults 0.001 (by norm_num) (by norm_num)
  · intro l hm
    simp only [List.mem_cons, reduceCtorEq, false_or, Use.addLayer.injEq, List.not_mem_nil, or_false] at hm
    subst hm
    intro l hl p hp
    rw [List.mem_singleton] at hl
    subst hl
    cases hp

/-- Hypotheses of `C107_sgd_bounded` and `C107_idle` are met: weight decay 0.5, rate 0.1, gradients between -1 and 1. -/
example (g : Nat → List Nat → ℝ) (hg : ∀ j i, |g j i| ≤ 1) (w0 : List Nat → ℝ) (h0 : ∀ i, |w0 i| ≤ 1) (n : Nat) :
    ∃ (a : World Nat ℝ) (w : List Nat → ℝ), World.run ⟨fun _ => ofFn [4, 2] w0, .newSGD ⟨0.1, 0, 0, 0.5, false⟩⟩
      (callsOn 0 [4, 2] g (fun _ => -1) n) = .ok a ∧ a.mem 0 = ofFn [4, 2] w ∧ ∀ i, |w i| ≤ 2 :=
  C107_sgd_bounded ⟨0.1, 0, 0, 0.5, false⟩ rfl (by norm_num) (G := 1) (by norm_num) _ 0 [4, 2] w0 rfl
    (fun i => (h0 i).trans (by norm_num)) g hg (fun _ => -1) (by norm_num) (by norm_num) (fun _ => by norm_num) n

end SmartDNN
