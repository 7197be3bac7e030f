import Verif.Proofs.Unseen

/-!
# Directions that the data never show (C118)
-/

namespace SmartDNN
open Net Spec

variable {ρ : Type}

/-- **C118, SGD.** A model that begins with a fully connected layer, or with flatten and a fully connected layer, with any layers behind, freshly compiled with SGD
without weight decay (any learning rate, momentum, dampening, with or without Nesterov).  If all training samples are orthogonal to a vector `u`, then training never
changes what the weights of any unit of this layer give along `u`. -/
theorem C118_sgd_partial {b h : Nat} {ds es : List Nat} (E : Engine ρ ℝ) (net : Net ρ ℝ) (pre rest : List (Layer ℝ)) (l : FC ℝ) (m : Bool)
    (hl : net.layers = pre ++ ⟨.fc l, m⟩ :: rest) (hf : Front pre) (w : List Nat → ℝ) (hlw : l.weights = ofFn [ds.prod, h] w)
    (hwell : WellShaped net (b :: ds) es) (o : SGDOptions ℝ) (ho : net.optimizer = some (.newSGD o)) (hd : o.weightDecay = 0)
    (u : List Nat → ℝ) (us : List Use) (hu : ∀ c ∈ us, c.OrthogonalTo b ds es u) :
    ∃ (pre' rest' : List (Layer ℝ)) (l' : FC ℝ) (w' : List Nat → ℝ), (after E us net).layers = pre' ++ ⟨.fc l', m⟩ :: rest' ∧ Front pre' ∧
      pre'.length = pre.length ∧ l'.weights = ofFn [ds.prod, h] w' ∧
      ∀ c < h, along ds u (fun idx => w' [ravel ds idx, c]) = along ds u (fun idx => w [ravel ds idx, c]) := by
  have hc := hwell.1
  rw [hl] at hc
  obtain ⟨-, -, -, ⟨bias, hlb⟩, -⟩ := silent_chain_dense (front_chain (ρ := ρ) hf hc hlw).1 hlw
  obtain ⟨-, ⟨pre', l', rest', w', bias', h1, h2, h3, h4, -, h6⟩, -⟩ := unseen_after (p := pre.length) (w := w) (m := m) (h := h) E us hu
    ⟨hwell, ⟨pre, l, rest, w, bias, hl, hf, rfl, hlw, hlb, fun _ _ => rfl⟩, fun opt h => by
      rw [ho] at h
      cases h
      exact ⟨hd, by intro t ht; cases ht⟩⟩
  exact ⟨pre', rest', l', w', h1, h2, h3, h4, h6⟩

/-- **C118 refuted for RMSProp**: for every RMSProp without weight decay, momentum and centring, one step on one sample moves the weights along a direction that is
orthogonal to it. -/
theorem C118_rmsprop_refuted (rng : ρ) (E : Engine ρ ℝ) (o : RMSPropOptions ℝ) (hd : o.weightDecay = 0) (hm : o.momentum ≤ 0) (hc : o.centered = false)
    (ha : o.alpha < 1) (he : 0 ≤ o.epsilon) (hlr : o.learningRate ≠ 0) :
    let u : Use := .train [ofFn [1, 2] oneTwo] [ofFn [1, 1] fun _ => -1 / 2] 1
    u.OrthogonalTo 1 [2] [1, 1] twoMinus ∧ ∃ (l' : FC ℝ) (w' : List Nat → ℝ), (after E [u] (twoToOne rng (.newRMSProp o))).layers = [⟨.fc l', true⟩] ∧
      l'.weights = ofFn [2, 1] w' ∧ along [2] twoMinus (fun idx => w' [ravel [2] idx, 0]) ≠ 0 := by
  intro u
  have d : ∀ {ds : List Nat}, ds ≠ [] → (∀ a ∈ ds, 0 < a) → ds.prod < 2 ^ 31 → Dims ds := fun a b c => ⟨a, b, c⟩
  obtain ⟨B, opt', h1⟩ := rms_first (k0 := (0, false)) (k1 := (0, true)) (by simp) o [2, 1] [1, 1] (fun _ => 0) (fun _ => 0)
    (fun idx => ∑ i ∈ Finset.range 1, oneTwo [i, idx.getD 0 0] *
      (fun i => (affine 2 (fun _ => (0 : ℝ)) (fun _ => 0) oneTwo i - (fun _ => -1 / 2 : List Nat → ℝ) i) * 2 / (([1, 1].prod : Nat) : ℝ)) [i, idx.getD 1 0])
    (fun idx => ∑ i ∈ Finset.range 1,
      (fun i => (affine 2 (fun _ => (0 : ℝ)) (fun _ => 0) oneTwo i - (fun _ => -1 / 2 : List Nat → ℝ) i) * 2 / (([1, 1].prod : Nat) : ℝ)) [i, idx.getD 1 0])
  obtain ⟨net', rs, l', t1, t2, t3⟩ := single_first (b := 1) (n := 2) (k := 1) (d (by simp) (by simp) (by simp)) (d (by simp) (by simp) (by simp))
    (d (by simp) (by simp) (by simp)) (fun _ => 0) (fun _ => 0) oneTwo (fun _ => -1 / 2) rng E _ opt' _ B _ rfl h1
  have e : after E [u] (twoToOne rng (.newRMSProp o)) = net' := congrArg (fun q => q.2.1) t1
  refine ⟨two_orthogonal 1, l', (fun idx => (rmsCell o o.learningRate (if idx.getD 0 0 = 0 then 1 else 2) (0, 0, 0, 0)).1), by rw [e]; exact t2,
    t3.trans (congrArg (ofFn [2, 1]) (funext fun idx => congrArg (fun g => (rmsCell o o.learningRate g (0, 0, 0, 0)).1) (two_gradient idx))), ?_⟩
  refine ne_of_eq_of_ne (two_along (fun idx => (rmsCell o o.learningRate (if idx.getD 0 0 = 0 then 1 else 2) (0, 0, 0, 0)).1)) ?_
  simp only [rmsCell, hd, hc, not_lt.2 hm, ne_eq, not_true_eq_false, if_false, List.getD_cons_zero, if_true, one_ne_zero, Bool.false_eq_true]
  set a := 1 - o.alpha with hadef
  have ha' : 0 < a := by linarith
  have p1 : 0 < √(a + o.epsilon) := Real.sqrt_pos.2 (by linarith)
  have p2 : 0 < √(4 * a + o.epsilon) := Real.sqrt_pos.2 (by linarith)
  have hlt : √(a + o.epsilon) < √(4 * a + o.epsilon) := Real.sqrt_lt_sqrt (by linarith) (by linarith)
  have q1 : MathFn.sqrt (o.alpha * 0 + a * 1 * 1 + o.epsilon) = √(a + o.epsilon) := by
    show √_ = _
    congr 1
    ring
  have q2 : MathFn.sqrt (o.alpha * 0 + a * 2 * 2 + o.epsilon) = √(4 * a + o.epsilon) := by
    show √_ = _
    congr 1
    ring
  rw [q1, q2]
  intro h
  have h' : o.learningRate * (2 / √(4 * a + o.epsilon) - 2 / √(a + o.epsilon)) = 0 := by
    rw [← h]
    ring
  rcases mul_eq_zero.1 h' with h' | h'
  · exact hlr h'
  · have : 2 / √(4 * a + o.epsilon) < 2 / √(a + o.epsilon) := div_lt_div_of_pos_left (by norm_num) p1 hlt
    linarith

/-- **C118 refuted for Adam**, likewise, for every Adam without penalties. -/
theorem C118_adam_refuted (rng : ρ) (E : Engine ρ ℝ) (o : AdamOptions ℝ) (h1 : o.l1Strength ≤ 0) (h2 : o.l2Strength ≤ 0) (hb1 : o.beta1 < 1)
    (hb2 : o.beta2 < 1) (ht : o.tiny < 1) (he : 0 ≤ o.epsilon) (hB : 0 < o.batchSize) (hlr : o.learningRate ≠ 0) :
    let u : Use := .train [ofFn [1, 2] oneTwo] [ofFn [1, 1] fun _ => -1 / 2] 1
    u.OrthogonalTo 1 [2] [1, 1] twoMinus ∧ ∃ (l' : FC ℝ) (w' : List Nat → ℝ), (after E [u] (twoToOne rng (.newAdam o))).layers = [⟨.fc l', true⟩] ∧
      l'.weights = ofFn [2, 1] w' ∧ along [2] twoMinus (fun idx => w' [ravel [2] idx, 0]) ≠ 0 := by
  intro u
  have d : ∀ {ds : List Nat}, ds ≠ [] → (∀ a ∈ ds, 0 < a) → ds.prod < 2 ^ 31 → Dims ds := fun a b c => ⟨a, b, c⟩
  obtain ⟨B, opt', h⟩ := adam_first (k0 := (0, false)) (k1 := (0, true)) (by simp) o [2, 1] [1, 1] (fun _ => 0) (fun _ => 0)
    (fun idx => ∑ i ∈ Finset.range 1, oneTwo [i, idx.getD 0 0] *
      (fun i => (affine 2 (fun _ => (0 : ℝ)) (fun _ => 0) oneTwo i - (fun _ => -1 / 2 : List Nat → ℝ) i) * 2 / (([1, 1].prod : Nat) : ℝ)) [i, idx.getD 1 0])
    (fun idx => ∑ i ∈ Finset.range 1,
      (fun i => (affine 2 (fun _ => (0 : ℝ)) (fun _ => 0) oneTwo i - (fun _ => -1 / 2 : List Nat → ℝ) i) * 2 / (([1, 1].prod : Nat) : ℝ)) [i, idx.getD 1 0])
  obtain ⟨net', rs, l', t1, t2, t3⟩ := single_first (b := 1) (n := 2) (k := 1) (d (by simp) (by simp) (by simp)) (d (by simp) (by simp) (by simp))
    (d (by simp) (by simp) (by simp)) (fun _ => 0) (fun _ => 0) oneTwo (fun _ => -1 / 2) rng E _ opt' _ B _ rfl h
  have e : after E [u] (twoToOne rng (.newAdam o)) = net' := congrArg (fun q => q.2.1) t1
  refine ⟨two_orthogonal 1, l', (fun idx => (adamCell o (o.learningRate * (if 0 < o.decay then 1 / (1 + o.decay * ((0 + 1 : Nat) : ℝ)) else 1)) (0 + 1) (if idx.getD 0 0 = 0 then 1 else 2) (0, 0, 0)).1), by rw [e]; exact t2,
    t3.trans (congrArg (ofFn [2, 1]) (funext fun idx => congrArg (fun g => (adamCell o (o.learningRate * (if 0 < o.decay then 1 / (1 + o.decay * ((0 + 1 : Nat) : ℝ)) else 1)) (0 + 1) g (0, 0, 0)).1) (two_gradient idx))), ?_⟩
  refine ne_of_eq_of_ne (two_along (fun idx => (adamCell o (o.learningRate * (if 0 < o.decay then 1 / (1 + o.decay * ((0 + 1 : Nat) : ℝ)) else 1)) (0 + 1) (if idx.getD 0 0 = 0 then 1 else 2) (0, 0, 0)).1)) ?_
  set lr := o.learningRate * (if 0 < o.decay then 1 / (1 + o.decay * ((0 + 1 : Nat) : ℝ)) else 1) with hlrd
  have hlr' : lr ≠ 0 := by
    refine mul_ne_zero hlr ?_
    split_ifs with hdec
    · have : (0 : ℝ) < 1 + o.decay * ((0 + 1 : Nat) : ℝ) := by push_cast; linarith
      exact (div_pos one_pos this).ne'
    · exact one_ne_zero
  have hA : Adam.alphaT o lr (0 + 1) ≠ 0 := by
    unfold Adam.alphaT
    have c1 : cmax (MathFn.powi o.beta1 (0 + 1)) o.tiny < 1 := by
      unfold cmax
      show (if o.beta1 ^ (0 + 1) < o.tiny then o.tiny else o.beta1 ^ (0 + 1)) < 1
      split_ifs
      · exact ht
      · simpa using hb1
    have c2 : cmax (MathFn.powi o.beta2 (0 + 1)) o.tiny < 1 := by
      unfold cmax
      show (if o.beta2 ^ (0 + 1) < o.tiny then o.tiny else o.beta2 ^ (0 + 1)) < 1
      split_ifs
      · exact ht
      · simpa using hb2
    refine div_ne_zero (mul_ne_zero hlr' ?_) (by linarith)
    exact (Real.sqrt_pos.2 (by linarith)).ne'
  have hBr : (0 : ℝ) < (o.batchSize : ℝ) := by exact_mod_cast hB
  have key : ∀ g : ℝ, 0 < g → (adamCell o lr (0 + 1) g (0, 0, 0)).1 = - (Adam.alphaT o lr (0 + 1) * (g / o.batchSize) / (g / o.batchSize + o.epsilon)) := by
    intro g hg
    have m1 : (o.beta1 * 0 + (1 - o.beta1) * (g / o.batchSize)) / (1 - MathFn.powi o.beta1 (0 + 1)) = g / o.batchSize := by
      show _ / (1 - o.beta1 ^ (0 + 1)) = _
      have : 1 - o.beta1 ≠ 0 := by linarith
      rw [zero_add, pow_one, mul_zero, zero_add, mul_comm, mul_div_assoc, div_self this, mul_one]
    have m2 : MathFn.sqrt ((o.beta2 * 0 + (1 - o.beta2) * (g / o.batchSize) * (g / o.batchSize)) / (1 - MathFn.powi o.beta2 (0 + 1))) = g / o.batchSize := by
      show √(_ / (1 - o.beta2 ^ (0 + 1))) = _
      have : 1 - o.beta2 ≠ 0 := by linarith
      have e : (o.beta2 * 0 + (1 - o.beta2) * (g / o.batchSize) * (g / o.batchSize)) / (1 - o.beta2 ^ (0 + 1)) = (g / o.batchSize) ^ 2 := by
        rw [zero_add, pow_one, mul_zero, zero_add, mul_assoc, mul_div_assoc, mul_comm, div_mul_cancel₀ _ this]
        ring
      rw [e]
      exact Real.sqrt_sq (div_pos hg hBr).le
    simp only [adamCell, Adam.updateParameter, not_lt.2 h1, not_lt.2 h2, if_false, m1, m2, zero_sub]
  simp only [List.getD_cons_zero, if_true, one_ne_zero, if_false]
  rw [key 1 one_pos, key 2 two_pos]
  set A := Adam.alphaT o lr (0 + 1)
  set r := 1 / (o.batchSize : ℝ) with hr
  have hr0 : 0 < r := div_pos one_pos hBr
  have e2 : 2 / (o.batchSize : ℝ) = 2 * r := by rw [hr]; ring
  rw [e2]
  intro h0
  have p1 : 0 < r + o.epsilon := by linarith
  have p2 : 0 < 2 * r + o.epsilon := by linarith
  have h' : A * (2 * r / (2 * r + o.epsilon) - 2 * r / (r + o.epsilon)) = 0 := by
    rw [← h0]
    ring
  rcases mul_eq_zero.1 h' with h' | h'
  · exact hA h'
  · have : 2 * r / (2 * r + o.epsilon) < 2 * r / (r + o.epsilon) := div_lt_div_of_pos_left (by linarith) p1 (by linarith)
    linarith

/-- Hypotheses of `C118_sgd_partial` are met: flatten, dense 4→2, softmax with cross entropy and SGD with momentum, on batches of three images of two by two pixels
in which every pixel of the second row is twice the one above; `u` compares the pixels of the left column. -/
example (lr mu : ℝ) (w bias x t : List Nat → ℝ) (hx : ∀ i, x [i, 1, 0] = 2 * x [i, 0, 0]) :
    let net : Net Unit ℝ := Net.compile (.crossEntropy (1 / 10)) (.newSGD ⟨lr, mu, 0, 0, false⟩) ⟨[⟨.flatten ⟨none⟩, true⟩,
      ⟨.fc { weights := ofFn [4, 2] w, biases := ofFn [1, 2] bias }, true⟩, ⟨.activation ⟨.softmax, none⟩, true⟩], none, none, ()⟩
    let u : List Nat → ℝ := fun i => if i = [0, 0] then 2 else if i = [1, 0] then -1 else 0
    WellShaped net [3, 2, 2] [3, 2] ∧ net.optimizer = some (.newSGD ⟨lr, mu, 0, 0, false⟩) ∧
    (Use.train [ofFn [3, 2, 2] x] [ofFn [3, 2] t] 100).OrthogonalTo 3 [2, 2] [3, 2] u := by
  intro net u
  have d : ∀ {ds : List Nat}, ds ≠ [] → (∀ a ∈ ds, 0 < a) → ds.prod < 2 ^ 31 → Dims ds := fun a b c => ⟨a, b, c⟩
  refine ⟨?_, rfl, by simp, by simp, ?_, ?_⟩
  · refine (C67_compiled (ds := [3, 2, 2]) (es := [3, 2]) _ (.crossEntropy (1 / 10)) ?_ ⟨3, 2, rfl, d (by simp) (by simp) (by simp)⟩ ⟨lr, mu, 0, 0, false⟩
      ⟨0, 0, 0, 0, false, 0⟩ ⟨1, 1/2, 1/2, 1, 0, 0, 0, 1, 1⟩).1
    refine .cons (es := [3, 4]) (.flatten (d (by simp) (by simp) (by simp)) (by simp)) ?_
    refine .cons (es := [3, 2]) (.dense (d (by simp) (by simp) (by simp)) (d (by simp) (by simp) (by simp)) (d (by simp) (by simp) (by simp)) rfl rfl) ?_
    exact .cons (es := [3, 2]) (.softmax (d (by simp) (by simp) (by simp)) (by simp) rfl) (.nil _)
  · intro y hy
    rw [List.mem_singleton] at hy
    refine ⟨x, hy, fun i _ => ?_⟩
    simp [along, indices, u, List.range_succ, hx]
  · intro y hy
    rw [List.mem_singleton] at hy
    exact ⟨t, hy⟩

end SmartDNN
