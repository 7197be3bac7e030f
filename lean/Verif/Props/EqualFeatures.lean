import Verif.Proofs.EqualFeatures

/-!
# Input features that are always equal (C117)
-/

namespace SmartDNN
open Net Spec

variable {ρ : Type}

/-- **C117.** A model that begins with a fully connected layer, or with flatten and a fully connected layer, with any layers behind, freshly compiled with any
optimizer without weight decay.  If the entries `i1` and `i2` of the samples are equal in all training data, then training never changes the differences between
the weights of the one and of the other, however often and with whatever targets: the two features are never told apart more than the initial weights do. -/
theorem C117_difference {b h : Nat} {ds es i1 i2 : List Nat} (E : Engine ρ ℝ) (net : Net ρ ℝ) (pre rest : List (Layer ℝ)) (l : FC ℝ) (m : Bool)
    (hl : net.layers = pre ++ ⟨.fc l, m⟩ :: rest) (hf : Front pre) (w : List Nat → ℝ) (hlw : l.weights = ofFn [ds.prod, h] w)
    (hwell : WellShaped net (b :: ds) es) (ho : ∀ opt, net.optimizer = some opt → Unregularised opt) (hi1 : ValidIdx ds i1) (hi2 : ValidIdx ds i2)
    (us : List Use) (hu : ∀ u ∈ us, u.EqualAt b ds es i1 i2) :
    ∃ (pre' rest' : List (Layer ℝ)) (l' : FC ℝ) (w' : List Nat → ℝ), (after E us net).layers = pre' ++ ⟨.fc l', m⟩ :: rest' ∧ Front pre' ∧
      pre'.length = pre.length ∧ l'.weights = ofFn [ds.prod, h] w' ∧
      ∀ c < h, w' [ravel ds i1, c] - w' [ravel ds i2, c] = w [ravel ds i1, c] - w [ravel ds i2, c] := by
  have hc := hwell.1
  rw [hl] at hc
  obtain ⟨-, -, -, ⟨bias, hlb⟩, -⟩ := silent_chain_dense (front_chain (ρ := ρ) hf hc hlw).1 hlw
  obtain ⟨-, ⟨pre', l', rest', w', bias', h1, h2, h3, h4, -, h6⟩, -⟩ := equal_after (p := pre.length) (w := w) (m := m) (h := h) hi1 hi2 E us hu
    ⟨hwell, ⟨pre, l, rest, w, bias, hl, hf, rfl, hlw, hlb, fun _ _ => rfl⟩, fun opt h => evenOn_fresh (ho opt h) _ _ _⟩
  exact ⟨pre', rest', l', w', h1, h2, h3, h4, h6⟩

/-- **C117, seen from outside.**  In the same situation, moving an amount from the one feature to the other has the same effect on the outputs of the first dense
layer before and after any amount of training: the amount times the difference of the initial weights, whatever the other entries hold. -/
theorem C117_response {b h : Nat} {ds es i1 i2 : List Nat} (E : Engine ρ ℝ) (net : Net ρ ℝ) (pre rest : List (Layer ℝ)) (l : FC ℝ) (m : Bool)
    (hl : net.layers = pre ++ ⟨.fc l, m⟩ :: rest) (hf : Front pre) (w : List Nat → ℝ) (hlw : l.weights = ofFn [ds.prod, h] w)
    (hwell : WellShaped net (b :: ds) es) (ho : ∀ opt, net.optimizer = some opt → Unregularised opt) (hi1 : ValidIdx ds i1) (hi2 : ValidIdx ds i2)
    (hne : ravel ds i1 ≠ ravel ds i2) (us : List Use) (hu : ∀ u ∈ us, u.EqualAt b ds es i1 i2) (x x' : List Nat → ℝ) (d : Nat → ℝ)
    (hx : ∀ i < b, ∀ q < ds.prod, x' [i, q] = x [i, q] + (if q = ravel ds i1 then d i else if q = ravel ds i2 then - d i else 0)) :
    ∃ (l' : FC ℝ) (y y' : List Nat → ℝ), (after E us net).layers[pre.length]? = some ⟨.fc l', m⟩ ∧
      (FC.forward (ofFn [b, ds.prod] x) l').1 = .ok (ofFn [b, h] y) ∧ (FC.forward (ofFn [b, ds.prod] x') l').1 = .ok (ofFn [b, h] y') ∧
      ∀ i < b, ∀ c < h, y' [i, c] - y [i, c] = d i * (w [ravel ds i1, c] - w [ravel ds i2, c]) := by
  have hc := hwell.1
  rw [hl] at hc
  obtain ⟨-, d2, d3, ⟨bias, hlb⟩, -⟩ := silent_chain_dense (front_chain (ρ := ρ) hf hc hlw).1 hlw
  obtain ⟨-, ⟨pre', l', rest', w', bias', h1, h2, h3, h4, h5, h6⟩, -⟩ := equal_after (p := pre.length) (w := w) (m := m) (h := h) hi1 hi2 E us hu
    ⟨hwell, ⟨pre, l, rest, w, bias, hl, hf, rfl, hlw, hlb, fun _ _ => rfl⟩, fun opt h => evenOn_fresh (ho opt h) _ _ _⟩
  refine ⟨l', affine ds.prod w' bias' x, affine ds.prod w' bias' x', ?_, ?_, ?_, fun i hib c hch => ?_⟩
  · rw [h1, ← h3]; simp
  · rw [C37_batch d3 w' bias' x l' h4 h5]
  · rw [C37_batch d3 w' bias' x' l' h4 h5]
  · unfold affine
    simp only [List.getD_cons_succ, List.getD_cons_zero]
    rw [add_sub_add_right_eq_sub, ← Finset.sum_sub_distrib, ← h6 c hch]
    have e : ∀ q ∈ Finset.range ds.prod, x' [i, q] * w' [q, c] - x [i, q] * w' [q, c] =
        (if q = ravel ds i1 then d i * w' [q, c] else 0) + (if q = ravel ds i2 then - (d i * w' [q, c]) else 0) := by
      intro q hq
      rw [hx i hib q (Finset.mem_range.1 hq)]
      by_cases a : q = ravel ds i1
      · have a2 : q ≠ ravel ds i2 := fun h => hne (a.symm.trans h)
        rw [if_pos a, if_pos a, if_neg a2]
        ring
      · rw [if_neg a, if_neg a]
        split <;> ring
    rw [Finset.sum_congr rfl e, Finset.sum_add_distrib, Finset.sum_ite_eq', Finset.sum_ite_eq', if_pos (Finset.mem_range.2 (ravel_lt hi1)),
      if_pos (Finset.mem_range.2 (ravel_lt hi2))]
    ring

/-- Hypotheses of `C117_difference` and `C117_response` are met: flatten, dense 4→2, softmax with cross entropy and Adam, on batches of three images of two by two
pixels whose left and right pixel in the second row are equal. -/
example (o : AdamOptions ℝ) (h1 : o.l1Strength ≤ 0) (h2 : o.l2Strength ≤ 0) (w bias x t : List Nat → ℝ) (hx : ∀ i, x [i, 1, 0] = x [i, 1, 1]) :
    let net : Net Unit ℝ := Net.compile (.crossEntropy (1 / 10)) (.newAdam o) ⟨[⟨.flatten ⟨none⟩, true⟩,
      ⟨.fc { weights := ofFn [4, 2] w, biases := ofFn [1, 2] bias }, true⟩, ⟨.activation ⟨.softmax, none⟩, true⟩], none, none, ()⟩
    WellShaped net [3, 2, 2] [3, 2] ∧ (∀ opt, net.optimizer = some opt → Unregularised opt) ∧ ValidIdx [2, 2] [1, 0] ∧ ValidIdx [2, 2] [1, 1] ∧
    ravel [2, 2] [1, 0] ≠ ravel [2, 2] [1, 1] ∧ (Use.train [ofFn [3, 2, 2] x] [ofFn [3, 2] t] 100).EqualAt 3 [2, 2] [3, 2] [1, 0] [1, 1] := by
  intro net
  have d : ∀ {ds : List Nat}, ds ≠ [] → (∀ a ∈ ds, 0 < a) → ds.prod < 2 ^ 31 → Dims ds := fun a b c => ⟨a, b, c⟩
  refine ⟨?_, ?_, valid2_iff.2 ⟨1, 0, rfl, by norm_num, by norm_num⟩, valid2_iff.2 ⟨1, 1, rfl, by norm_num, by norm_num⟩, by simp [ravel], by simp, by simp, ?_, ?_⟩
  · refine (C67_compiled (ds := [3, 2, 2]) (es := [3, 2]) _ (.crossEntropy (1 / 10)) ?_ ⟨3, 2, rfl, d (by simp) (by simp) (by simp)⟩ ⟨1, 0, 0, 0, false⟩
      ⟨0, 0, 0, 0, false, 0⟩ o).2.2
    refine .cons (es := [3, 4]) (.flatten (d (by simp) (by simp) (by simp)) (by simp)) ?_
    refine .cons (es := [3, 2]) (.dense (d (by simp) (by simp) (by simp)) (d (by simp) (by simp) (by simp)) (d (by simp) (by simp) (by simp)) rfl rfl) ?_
    exact .cons (es := [3, 2]) (.softmax (d (by simp) (by simp) (by simp)) (by simp) rfl) (.nil _)
  · rintro _ ⟨⟩
    exact .adam o h1 h2
  · intro y hy
    rw [List.mem_singleton] at hy
    exact ⟨x, hy, fun i _ => hx i⟩
  · intro y hy
    rw [List.mem_singleton] at hy
    exact ⟨t, hy⟩

end SmartDNN
