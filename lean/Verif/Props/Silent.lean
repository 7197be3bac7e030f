import Verif.Proofs.Silent

/-!
# Hidden units that never fire (C113)
-/

namespace SmartDNN
open Net Spec

variable {ρ : Type}

/-- **C113.** A model that begins with a fully connected layer and ReLU, with any layers behind, freshly compiled with any optimizer without weight decay.  If the
hidden unit `j` is silent on all training data, then training never changes the weights into it or its bias, however often and with whatever targets: what
the unit computes is the same before and after, for every input, and so it stays silent on these data for ever. -/
theorem C113_incoming {b n h : Nat} {es : List Nat} (E : Engine ρ ℝ) (net : Net ρ ℝ) (l : FC ℝ) (a : ActLayer ℝ) (m1 m2 : Bool) (rest : List (Layer ℝ))
    (hl : net.layers = ⟨.fc l, m1⟩ :: ⟨.activation a, m2⟩ :: rest) (ha : a.activation = .relu) (w bias : List Nat → ℝ) (hlw : l.weights = ofFn [n, h] w)
    (hlb : l.biases = ofFn [1, h] bias) (hwell : WellShaped net [b, n] es) (ho : ∀ opt, net.optimizer = some opt → Unregularised opt) {j : Nat} (hj : j < h)
    (us : List Use) (hu : ∀ u ∈ us, u.SilentFor b n es j w bias) :
    ∃ (l' : FC ℝ) (a' : ActLayer ℝ) (rest' : List (Layer ℝ)) (w' bias' : List Nat → ℝ),
      (after E us net).layers = ⟨.fc l', m1⟩ :: ⟨.activation a', m2⟩ :: rest' ∧ a'.activation = .relu ∧
      l'.weights = ofFn [n, h] w' ∧ l'.biases = ofFn [1, h] bias' ∧ (∀ i < n, w' [i, j] = w [i, j]) ∧ bias' [0, j] = bias [0, j] ∧
      ∀ x i, affine n w' bias' x [i, j] = affine n w bias x [i, j] := by
  obtain ⟨-, ⟨l', a', rest', w', bias', h1, h2, h3, h4, h5, h6, -⟩, -⟩ := asleep_after (m1 := m1) (m2 := m2) (w := w) (bias := bias) (n := n) E
    (tail_true E b h es j) hj us hu ⟨hwell, ⟨l, a, rest, w, bias, hl, ha, hlw, hlb, fun _ _ => rfl, rfl, trivial⟩,
      fun opt h => ⟨quietOn_fresh (ho opt h) _ _, quietOn_fresh (ho opt h) _ _, trivial⟩⟩
  refine ⟨l', a', rest', w', bias', h1, h2, h3, h4, h5, h6, fun x i => ?_⟩
  unfold affine
  simp only [List.getD_cons_succ, List.getD_cons_zero]
  rw [h6]
  congr 1
  exact Finset.sum_congr rfl fun q hq => by rw [h5 q (Finset.mem_range.1 hq)]

/-- **C113.** If the next layer is fully connected, the weights out of a silent unit do not change either. -/
theorem C113_outgoing {b n h k : Nat} {es : List Nat} (E : Engine ρ ℝ) (net : Net ρ ℝ) (l l2 : FC ℝ) (a : ActLayer ℝ) (m1 m2 m3 : Bool) (post : List (Layer ℝ))
    (hl : net.layers = ⟨.fc l, m1⟩ :: ⟨.activation a, m2⟩ :: ⟨.fc l2, m3⟩ :: post) (ha : a.activation = .relu) (w bias v bias2 : List Nat → ℝ)
    (hlw : l.weights = ofFn [n, h] w) (hlb : l.biases = ofFn [1, h] bias) (hlw2 : l2.weights = ofFn [h, k] v) (hlb2 : l2.biases = ofFn [1, k] bias2)
    (hwell : WellShaped net [b, n] es) (ho : ∀ opt, net.optimizer = some opt → Unregularised opt) {j : Nat} (hj : j < h)
    (us : List Use) (hu : ∀ u ∈ us, u.SilentFor b n es j w bias) :
    ∃ (l' l2' : FC ℝ) (a' : ActLayer ℝ) (post' : List (Layer ℝ)) (v' : List Nat → ℝ),
      (after E us net).layers = ⟨.fc l', m1⟩ :: ⟨.activation a', m2⟩ :: ⟨.fc l2', m3⟩ :: post' ∧ l2'.weights = ofFn [h, k] v' ∧
      ∀ c < k, v' [j, c] = v [j, c] := by
  obtain ⟨-, ⟨l', a', rest', w', bias', h1, h2, h3, h4, h5, h6, l2', post', v', b2', rfl, g1, g2, g3⟩, -⟩ := asleep_after (m1 := m1) (m2 := m2) (w := w)
    (bias := bias) (n := n) E (tail_row E b h k es hj m3 v) hj us hu ⟨hwell, ⟨l, a, _, w, bias, hl, ha, hlw, hlb, fun _ _ => rfl, rfl, l2, post, v, bias2, rfl, hlw2, hlb2, fun _ _ => rfl⟩,
      fun opt h => ⟨quietOn_fresh (ho opt h) _ _, quietOn_fresh (ho opt h) _ _, quietOn_fresh (ho opt h) _ _, quietOn_fresh (ho opt h) _ _⟩⟩
  exact ⟨l', l2', a', post', v', h1, g1, g3⟩

/-- Hypotheses of `C113_incoming` and `C113_outgoing` are met: dense 2→2, ReLU, dense 2→1 with Adam; with bias -10 the second hidden unit is silent on inputs
between -1 and 1, and the first one is not. -/
example (E : Engine Unit ℝ) (o : AdamOptions ℝ) (h1 : o.l1Strength ≤ 0) (h2 : o.l2Strength ≤ 0) (x : List Nat → ℝ) (hx : ∀ i, |x i| ≤ 1) (t : List Nat → ℝ) :
    let w : List Nat → ℝ := fun _ => 1
    let bias : List Nat → ℝ := fun i => if i = [0, 1] then -10 else 10
    let l1 : Layer ℝ := ⟨.fc { weights := ofFn [2, 2] w, biases := ofFn [1, 2] bias }, true⟩
    let a : Layer ℝ := ⟨.activation ⟨.relu, none⟩, true⟩
    let l2 : Layer ℝ := ⟨.fc { weights := ofFn [2, 1] w, biases := ofFn [1, 1] w }, true⟩
    let net : Net Unit ℝ := Net.compile .mse (.newAdam o) ⟨[l1, a, l2], none, none, ()⟩
    WellShaped net [4, 2] [4, 1] ∧ (∀ opt, net.optimizer = some opt → Unregularised opt) ∧
    (Use.train [ofFn [4, 2] x] [ofFn [4, 1] t] 100).SilentFor 4 2 [4, 1] 1 w bias ∧
    ¬ (Use.train [ofFn [4, 2] x] [ofFn [4, 1] t] 100).SilentFor 4 2 [4, 1] 0 w bias := by
  intro w bias l1 a l2 net
  have d : ∀ {ds : List Nat}, ds ≠ [] → (∀ a ∈ ds, 0 < a) → ds.prod < 2 ^ 31 → Dims ds := fun a b c => ⟨a, b, c⟩
  refine ⟨?_, ?_, ?_, ?_⟩
  · exact (C67_compiled ⟨[l1, a, l2], none, none, ()⟩ .mse
      (.cons (.dense (d (by simp) (by simp) (by simp)) (d (by simp) (by simp) (by simp)) (d (by simp) (by simp) (by simp)) rfl rfl)
        (.cons (.elementwise (d (by simp) (by simp) (by simp)) (by intro h; cases h))
          (.cons (.dense (d (by simp) (by simp) (by simp)) (d (by simp) (by simp) (by simp)) (d (by simp) (by simp) (by simp)) rfl rfl) (.nil _))))
      (d (by simp) (by simp) (by simp)) ⟨1, 0, 0, 0, false⟩ ⟨0, 0, 0, 0, false, 0⟩ o).2.2
  · rintro _ ⟨⟩
    exact .adam o h1 h2
  · refine ⟨by simp, by simp, ?_, ?_⟩
    · intro y hy
      rw [List.mem_singleton] at hy
      refine ⟨x, hy, fun i _ => ?_⟩
      simp only [affine, w, bias, List.getD_cons_succ, List.getD_cons_zero, mul_one, Finset.sum_range_succ, Finset.sum_range_zero, if_true]
      have a0 := abs_le.1 (hx [i, 0])
      have a1 := abs_le.1 (hx [i, 1])
      linarith [a0.2, a1.2]
    · intro y hy
      rw [List.mem_singleton] at hy
      exact ⟨t, hy⟩
  · rintro ⟨-, -, h3, -⟩
    obtain ⟨f, e, hf⟩ := h3 _ (List.mem_singleton.2 rfl)
    have e1 : ∀ i < 4, ∀ c < 2, x [i, c] = f [i, c] := fun i hi c hc => by
      have := congrArg (fun t : Tensor ℝ => t.data[ravel [4, 2] [i, c]]?) e
      rw [ofFn_getElem? _ _ (valid_two hi hc), ofFn_getElem? _ _ (valid_two hi hc)] at this
      exact Option.some.inj this
    have := hf 0 (by norm_num)
    simp only [affine, w, bias, List.getD_cons_succ, List.getD_cons_zero, mul_one, Finset.sum_range_succ, Finset.sum_range_zero] at this
    rw [if_neg (by simp), ← e1 0 (by norm_num) 0 (by norm_num), ← e1 0 (by norm_num) 1 (by norm_num)] at this
    have a0 := abs_le.1 (hx [0, 0])
    have a1 := abs_le.1 (hx [0, 1])
    linarith [a0.1, a1.1]

end SmartDNN
