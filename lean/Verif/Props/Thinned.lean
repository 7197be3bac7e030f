import Verif.Proofs.Thinned

/-!
# Training with dropout (C112)
-/

namespace SmartDNN
open Net Spec

/-- **C112.** A model in training mode, with dropout layers and a dense layer anywhere in it; `P` and `G` are what the layers before and after it compute with the
numbers of the model's random engine, so `L (G (affine n w bias (P x)))` is a function of the thinned model.  After `predict(x)` and `backward(g)`, with `g` the
gradient of `L`, the gradients stored by the dense layer are the exact gradients times `κ₂`, the product of the keep rates of the dropout layers after it. -/
theorem C112_gradients {ρ : Type} {ds es : List Nat} {b n m : Nat} {P G : (List Nat → ℝ) → List Nat → ℝ}
    {x w bias : List Nat → ℝ} {κ₁ κ₂ : ℝ} {r1 r2 : ρ} (E : Engine ρ ℝ) (net : Net ρ ℝ) (pre post : List (Layer ℝ)) (l : FC ℝ) (mode : Bool)
    (hnet : net.layers = pre ++ ⟨.fc l, mode⟩ :: post)
    (hlw : l.weights = ofFn [n, m] w) (hlb : l.biases = ofFn [1, m] bias)
    (hx : Dims [b, n]) (hw : Dims [n, m]) (hd : Dims [b, m])
    (hpre : Thinned E pre net.rng ds [b, n] P x κ₁ r1) (hpost : Thinned E post r1 [b, m] es G (affine n w bias (P x)) κ₂ r2)
    (L : (List Nat → ℝ) → ℝ) (g : List Nat → ℝ) (hg : HasGradient es L (G (affine n w bias (P x))) g) :
    ∃ (net1 net2 : Net ρ ℝ) (gx gw gb : List Nat → ℝ),
      predict E (ofFn ds x) net = (.ok (ofFn es (G (affine n w bias (P x)))), net1) ∧
      backward (ofFn es g) net1 = (.ok (ofFn ds fun i => κ₁ * (κ₂ * gx i)), net2) ∧
      net2.layers[pre.length]? = some ⟨.fc ⟨ofFn [n, m] w, ofFn [1, m] bias, some (ofFn [b, n] (P x)),
        some (ofFn [n, m] fun i => κ₂ * gw i), some (ofFn [1, m] fun i => κ₂ * gb i)⟩, mode⟩ ∧
      HasGradient [n, m] (fun w => L (G (affine n w bias (P x)))) w gw ∧
      HasGradient [1, m] (fun bias => L (G (affine n w bias (P x)))) bias gb ∧
      HasGradient ds (fun x => L (G (affine n w bias (P x)))) x gx := by
  obtain ⟨pre', A, a0, a1, a2, a3, a4⟩ := thinned_forward hpre
  obtain ⟨post', B, b0, b1, b2, b3, b4⟩ := thinned_forward hpost
  have hw1 : HasVJP [n, m] [b, m] (fun w => affine n w bias (P x)) w (fun g idx =>
      ∑ i ∈ Finset.range b, P x [i, idx.getD 0 0] * g [i, idx.getD 1 0]) :=
    fun g => hasGradient_affine_weights b n m w bias (P x) g
  have hb1 : HasVJP [1, m] [b, m] (fun bias => affine n w bias (P x)) bias (fun g idx =>
      ∑ i ∈ Finset.range b, g [i, idx.getD 1 0]) :=
    fun g => hasGradient_affine_bias b n m w bias (P x) g
  have hL : HasGradient [b, m] (fun y => L (G y)) (affine n w bias (P x)) (B g) := hg.comp b1 b2
  have hbk := fc_backprop hx hw hd w bias (P x) (fun i => κ₂ * B g i) l hlw hlb
  have e1 : ofFn [b, n] (fun idx => ∑ j ∈ Finset.range m, κ₂ * B g [idx.getD 0 0, j] * w [idx.getD 1 0, j]) =
      ofFn [b, n] (fun idx => κ₂ * ∑ j ∈ Finset.range m, B g [idx.getD 0 0, j] * w [idx.getD 1 0, j]) :=
    ofFn_congr fun i _ => by rw [Finset.mul_sum]; exact Finset.sum_congr rfl fun j _ => by ring
  have e2 : ofFn [n, m] (fun idx => ∑ i ∈ Finset.range b, P x [i, idx.getD 0 0] * (κ₂ * B g [i, idx.getD 1 0])) =
      ofFn [n, m] (fun idx => κ₂ * ∑ i ∈ Finset.range b, P x [i, idx.getD 0 0] * B g [i, idx.getD 1 0]) :=
    ofFn_congr fun i _ => by rw [Finset.mul_sum]; exact Finset.sum_congr rfl fun j _ => by ring
  have e3 : ofFn [1, m] (fun idx => ∑ i ∈ Finset.range b, κ₂ * B g [i, idx.getD 1 0]) =
      ofFn [1, m] (fun idx => κ₂ * ∑ i ∈ Finset.range b, B g [i, idx.getD 1 0]) :=
    ofFn_congr fun i _ => by rw [Finset.mul_sum]
  rw [e1, e2, e3] at hbk
  obtain ⟨gi, hgi⟩ : ∃ gi : List Nat → ℝ, gi = fun idx => ∑ j ∈ Finset.range m, B g [idx.getD 0 0, j] * w [idx.getD 1 0, j] := ⟨_, rfl⟩
  have hgi' : ∀ idx, gi idx = ∑ j ∈ Finset.range m, B g [idx.getD 0 0, j] * w [idx.getD 1 0, j] := fun _ => by rw [hgi]
  simp only [← hgi'] at hbk
  rcases hpb : backwardLayers post' (ofFn es g) with ⟨res, post2⟩
  have := b4 g
  rw [hpb] at this
  simp only at this
  subst this
  obtain ⟨lb, hlb'⟩ : ∃ lb : Layer ℝ, lb = ⟨.fc { l with
      input := some (ofFn [b, n] (P x))
      weightGradients := some (ofFn [n, m] fun idx => κ₂ * ∑ i ∈ Finset.range b, P x [i, idx.getD 0 0] * B g [i, idx.getD 1 0])
      biasGradients := some (ofFn [1, m] fun idx => κ₂ * ∑ i ∈ Finset.range b, B g [i, idx.getD 1 0]) }, mode⟩ := ⟨_, rfl⟩
  have hmid : backwardLayers (⟨.fc { l with input := some (ofFn [b, n] (P x)) }, mode⟩ :: post') (ofFn es g) =
      (.ok (ofFn [b, n] fun i => κ₂ * gi i), lb :: post2) := by
    unfold backwardLayers
    rw [hpb]
    simp only [Layer.backward, Layer.onKind]
    rw [hbk, hlb']
  have hall := backwardLayers_append (pre := pre') hmid
  rw [a4] at hall
  obtain ⟨pre2, hpre2⟩ : ∃ q, q = (backwardLayers pre' (ofFn [b, n] fun i => κ₂ * gi i)).2 := ⟨_, rfl⟩
  rw [← hpre2] at hall
  have e4 : ofFn ds (fun i => κ₁ * A (fun i => κ₂ * gi i) i) = ofFn ds (fun i => κ₁ * (κ₂ * A gi i)) :=
    ofFn_congr fun i hi => by rw [HasVJP.smul a1 κ₂ gi hi]
  rw [e4] at hall
  have hfw : forwardLayers E net.layers (ofFn ds x) net.rng =
      (.ok (ofFn es (G (affine n w bias (P x)))), pre' ++ ⟨.fc { l with input := some (ofFn [b, n] (P x)) }, mode⟩ :: post', r2) := by
    rw [hnet, forwardLayers_append E a3]
    have : forwardLayers E (⟨.fc l, mode⟩ :: post) (ofFn [b, n] (P x)) r1 =
        (.ok (ofFn es (G (affine n w bias (P x)))), ⟨.fc { l with input := some (ofFn [b, n] (P x)) }, mode⟩ :: post', r2) := by
      unfold forwardLayers
      simp only [Layer.forward, Layer.onKind]
      rw [C37_batch hd w bias (P x) l hlw hlb]
      simp only
      rw [b3]
    rw [this]
  refine ⟨{ net with layers := pre' ++ ⟨.fc { l with input := some (ofFn [b, n] (P x)) }, mode⟩ :: post', rng := r2 },
    { net with layers := pre2 ++ lb :: post2, rng := r2 }, A gi,
    fun idx => ∑ i ∈ Finset.range b, P x [i, idx.getD 0 0] * B g [i, idx.getD 1 0],
    fun idx => ∑ i ∈ Finset.range b, B g [i, idx.getD 1 0], ?_, ?_, ?_, ?_, ?_, ?_⟩
  · unfold predict
    rw [hfw]
  · unfold backward
    simp only
    rw [hall]
  · have hl2 : pre2.length = pre.length := by
      rcases hq : backwardLayers pre' (ofFn [b, n] fun i => κ₂ * gi i) with ⟨res, pre3⟩
      have := a4 fun i => κ₂ * gi i
      rw [hq] at this hpre2
      simp only at this hpre2
      subst this hpre2
      rw [((backwardLayers_ok_iff _ _ _ _).1 hq).1, a0]
    simp only
    rw [List.getElem?_append_right (by omega), hl2, Nat.sub_self, List.getElem?_cons_zero, hlb', ← hlw, ← hlb]
  · exact HasGradient.comp (F := fun w => affine n w bias (P x)) hL hw1 (extensional_affine_weights b n m bias (P x))
  · exact HasGradient.comp (F := fun bias => affine n w bias (P x)) hL hb1 (extensional_affine_bias b n m w (P x))
  · rw [hgi]
    exact (hL.comp (hasVJP_affine_input b n m w bias (P x)) (extensional_affine_input b n m w bias)).comp a1 a2

/-- **C112.** A model with mean squared error, plain SGD, and dropout layers in training mode.  Training on one sample succeeds, prints the mean squared
error of the *thinned* model, and moves the weights and biases of each dense layer by `-lr` times the product of the keep rates of the dropout layers after it times
the gradient of this error. -/
theorem C112_step {ρ : Type} {ds es : List Nat} {b n m : Nat} {P G : (List Nat → ℝ) → List Nat → ℝ}
    {x w bias : List Nat → ℝ} {κ₁ κ₂ : ℝ} {r1 r2 : ρ} (E : Engine ρ ℝ) (net : Net ρ ℝ) (pre post : List (Layer ℝ)) (l : FC ℝ) (mode : Bool)
    (hnet : net.layers = pre ++ ⟨.fc l, mode⟩ :: post)
    (hlw : l.weights = ofFn [n, m] w) (hlb : l.biases = ofFn [1, m] bias)
    (hx : Dims [b, n]) (hw : Dims [n, m]) (hd : Dims [b, m])
    (hpre : Thinned E pre net.rng ds [b, n] P x κ₁ r1) (hpost : Thinned E post r1 [b, m] es G (affine n w bias (P x)) κ₂ r2)
    (hwell : WellShaped net ds es) (hloss : net.loss = some .mse) (lr : ℝ)
    (hopt : ∃ opt, net.optimizer = some opt ∧ PlainSGD lr opt) (t : List Nat → ℝ) :
    ∃ (net' : Net ρ ℝ) (l' : FC ℝ) (gw gb : List Nat → ℝ),
      trainCall E [ofFn ds x] [ofFn es t] 1 net = (.ok (), net', [ofFn [1] fun _ => mse es (G (affine n w bias (P x))) t]) ∧
      net'.layers[pre.length]? = some ⟨.fc l', mode⟩ ∧
      l'.weights = ofFn [n, m] (fun i => w i - lr * κ₂ * gw i) ∧
      l'.biases = ofFn [1, m] (fun i => bias i - lr * κ₂ * gb i) ∧
      HasGradient [n, m] (fun w => mse es (G (affine n w bias (P x))) t) w gw ∧
      HasGradient [1, m] (fun bias => mse es (G (affine n w bias (P x))) t) bias gb := by
  have hes : Dims es := by
    obtain ⟨-, ⟨L, hL, hf⟩, -⟩ := hwell
    rw [hloss] at hL
    cases hL
    exact hf
  obtain ⟨g, hg, hgrad⟩ : ∃ g, Loss.mse.gradient (ofFn es (G (affine n w bias (P x)))) (ofFn es t) = .ok (ofFn es g) ∧
      HasGradient es (fun y => mse es y t) (G (affine n w bias (P x))) g :=
    ⟨_, mse_gradient_ofFn hes _ t, hasGradient_mse es _ t⟩
  obtain ⟨net1, net2, r, gw, gb, p1, p2, p3, p4, p5, -⟩ := C112_gradients E net pre post l mode hnet hlw hlb hx hw hd hpre
    hpost (fun y => mse es y t) g hgrad
  obtain ⟨net', v, hstep, -⟩ := C67_step E net hwell _ _ ⟨x, rfl⟩ ⟨t, rfl⟩
  obtain ⟨pred, n1, L, g1, g2, n2, s1, s2, s3, s4, s5, s6⟩ := hstep
  have q1 : pred = ofFn es (G (affine n w bias (P x))) ∧ n1 = net1 := by
    rw [p1] at s1
    simp only [Prod.mk.injEq, Except.ok.injEq] at s1
    exact ⟨s1.1.symm, s1.2.symm⟩
  obtain ⟨rfl, rfl⟩ := q1
  have hl1 : n1.loss = some .mse := by
    have := congrArg (fun q => q.2.loss) p1
    rw [← hloss]
    exact this.symm
  rw [hl1] at s2
  cases s2
  have q2 : g1 = ofFn es g := by
    rw [hg] at s4
    exact (Except.ok.inj s4).symm
  subst q2
  have q3 : n2 = net2 := by
    rw [p2] at s5
    simp only [Prod.mk.injEq] at s5
    exact s5.2.symm
  subst q3
  obtain ⟨opt, ho, hplain⟩ := hopt
  have ho2 : n2.optimizer = some opt := by
    have a1 : n1.optimizer = net.optimizer := (congrArg (fun q => q.2.optimizer) p1).symm
    have a2 : n2.optimizer = n1.optimizer := (congrArg (fun q => q.2.optimizer) p2).symm
    rw [a2, a1, ho]
  have hu := s6
  rw [net_updateWeights_eq n2 opt ho2] at hu
  rcases hul : updateLayers 0 n2.layers opt with ⟨res, ls', opt'⟩
  rw [hul] at hu
  simp only [Prod.mk.injEq] at hu
  obtain ⟨rfl, hn'⟩ := hu
  obtain ⟨o, o', l', r1, r2, r3⟩ := (updateLayers_each (PlainSGD lr) (fun i l opt h => layer_plain h l) n2.layers 0 opt ls' opt'
    hplain hul).2 pre.length _ p3
  obtain ⟨o2, hpair⟩ := plain_pair (k0 := (0 + pre.length, false)) (k1 := (0 + pre.length, true)) (by simp) r1 [n, m] [1, m] w bias
    (fun i => κ₂ * gw i) (fun i => κ₂ * gb i)
  simp only [Layer.updateWeights, hpair, Prod.mk.injEq] at r2
  refine ⟨net', ⟨ofFn [n, m] (fun i => w i - lr * (κ₂ * gw i)), ofFn [1, m] (fun i => bias i - lr * (κ₂ * gb i)), some (ofFn [b, n] (P x)),
    some (ofFn [n, m] fun i => κ₂ * gw i), some (ofFn [1, m] fun i => κ₂ * gb i)⟩, gw, gb, ?_, ?_, ?_, ?_, p4, p5⟩
  · refine (C55_train E _ _ 1 net net' _ (by simp) (by simp)).2 ?_
    have h := Epochs.succ (E := E) (Steps.cons (E := E) (ps := []) ⟨_, n1, .mse, _, g2, n2, p1, hl1, C29_compute hes _ _, hg, s5, s6⟩ (.nil _)) (.zero _)
    simpa using h
  · rw [← hn', r2.2.1]
    exact r3
  · exact ofFn_congr fun i _ => by ring
  · exact ofFn_congr fun i _ => by ring

theorem layerAt_keepRate {l : Layer ℝ} {ds es : List Nat} {F : (List Nat → ℝ) → List Nat → ℝ} {x : List Nat → ℝ} (h : LayerAt l ds es F x) :
    keepRate l = 1 := by
  cases h <;> rfl

/-- **C112.** The factor is the product of the keep rates.  With rates between 0 and 1 it is positive and at most 1, and it is smaller than 1 as soon as one dropout
layer is among the layers: every layer in front of a dropout layer is trained with a smaller learning rate. -/
theorem C112_factor {ρ : Type} {E : Engine ρ ℝ} {ls : List (Layer ℝ)} {r r' : ρ} {ds es : List Nat} {F : (List Nat → ℝ) → List Nat → ℝ} {x : List Nat → ℝ}
    {κ : ℝ} (h : Thinned E ls r ds es F x κ r') :
    κ = (ls.map keepRate).prod ∧
    ((∀ l ∈ ls, ∀ d, l.kind = .dropout d → 0 < d.dropoutRate ∧ d.dropoutRate < 1) →
      0 < κ ∧ κ ≤ 1 ∧ (κ < 1 ↔ ∃ l ∈ ls, ∃ d, l.kind = .dropout d)) := by
  induction h with
  | nil ds x r => exact ⟨by simp, fun _ => ⟨one_pos, le_refl _, by simp⟩⟩
  | @plain l ls r r' ds es hs F G x κ hl _ ih =>
    have hk := layerAt_keepRate hl
    have hn : ¬ ∃ d, l.kind = .dropout d := by
      cases hl <;> (rintro ⟨d, hd⟩; cases hd)
    obtain ⟨h1, h2⟩ := ih
    refine ⟨by rw [List.map_cons, List.prod_cons, hk, one_mul, h1], fun hr => ?_⟩
    obtain ⟨a1, a2, a3⟩ := h2 fun m hm => hr m (List.mem_cons_of_mem _ hm)
    refine ⟨a1, a2, a3.trans ?_⟩
    simp only [List.mem_cons, exists_eq_or_imp, hn, false_or]
  | @dropout l ls r r1 r' ds hs G u x κ hd hp hu _ ih =>
    obtain ⟨h1, h2⟩ := ih
    refine ⟨by rw [List.map_cons, List.prod_cons, ← h1]; rfl, fun hr => ?_⟩
    obtain ⟨a1, a2, a3⟩ := h2 fun m hm => hr m (List.mem_cons_of_mem _ hm)
    obtain ⟨b1, b2⟩ := hr _ List.mem_cons_self l rfl
    have hlt : (1 - l.dropoutRate) * κ < 1 := by nlinarith
    exact ⟨mul_pos (by linarith) a1, hlt.le, fun _ => ⟨_, List.mem_cons_self, l, rfl⟩, fun _ => hlt⟩

/-- Hypotheses of `C112_step` are met: dense 3→5, dropout with rate 1/4, dense 5→2 on a batch of four rows, with any engine; the first dense
layer has the factor 3/4, the second the factor 1. -/
example {ρ : Type} (E : Engine ρ ℝ) (r : ρ) (w1 b1 w2 b2 x : List Nat → ℝ) (lr : ℝ) :
    let l1 : Layer ℝ := ⟨.fc { weights := ofFn [3, 5] w1, biases := ofFn [1, 5] b1 }, true⟩
    let a : Layer ℝ := ⟨.dropout { dropoutRate := 1 / 4 }, true⟩
    let l2 : Layer ℝ := ⟨.fc { weights := ofFn [5, 2] w2, biases := ofFn [1, 2] b2 }, true⟩
    let net : Net ρ ℝ := Net.compile .mse (.newSGD ⟨lr, 0, 0, 0, false⟩) ⟨[l1, a, l2], none, none, r⟩
    (∃ P G r2, Thinned E [] net.rng [4, 3] [4, 3] P x 1 r ∧ Thinned E [a, l2] r [4, 5] [4, 2] G (affine 3 w1 b1 (P x)) (3 / 4) r2) ∧
    (∃ P G r2, Thinned E [l1, a] net.rng [4, 3] [4, 5] P x (3 / 4) r2 ∧ Thinned E [] r2 [4, 2] [4, 2] G (affine 5 w2 b2 (P x)) 1 r2) ∧
    WellShaped net [4, 3] [4, 2] ∧ ∃ opt, net.optimizer = some opt ∧ PlainSGD lr opt := by
  intro l1 a l2 net
  have d : ∀ {ds : List Nat}, ds ≠ [] → (∀ a ∈ ds, 0 < a) → ds.prod < 2 ^ 31 → Dims ds := fun a b c => ⟨a, b, c⟩
  have t1 : ∀ x, LayerAt l1 [4, 3] [4, 5] (affine 3 w1 b1) x := fun x =>
    .dense (d (by simp) (by simp) (by simp)) (d (by simp) (by simp) (by simp)) (d (by simp) (by simp) (by simp)) rfl rfl
  have t3 : ∀ x, LayerAt l2 [4, 5] [4, 2] (affine 5 w2 b2) x := fun x =>
    .dense (d (by simp) (by simp) (by simp)) (d (by simp) (by simp) (by simp)) (d (by simp) (by simp) (by simp)) rfl rfl
  have h45 : Dims [4, 5] := d (by simp) (by simp) (by simp)
  obtain ⟨u, r', hu⟩ : ∃ u r', Tensor.rand E (shapeOf [4, 5]) r = .ok (ofFn [4, 5] u, r') := ⟨_, _, createRandom_ofFn E [4, 5] 0 1 r⟩
  have e : ((1 : ℝ) - 1 / 4) * 1 = 3 / 4 := by norm_num
  have c1 := Thinned.dropout (E := E) (l := { dropoutRate := 1 / 4 }) (x := affine 3 w1 b1 x) h45 (by norm_num) hu (.plain (t3 _) (.nil _ _ _))
  have c2 := Thinned.plain (t1 x) (.dropout (E := E) (l := { dropoutRate := 1 / 4 }) h45 (by norm_num) hu (.nil _ _ _))
  simp only [e] at c1 c2
  refine ⟨⟨_, _, r', .nil _ _ _, c1⟩, ⟨_, _, r', c2, .nil _ _ _⟩, ?_, _, rfl, _, rfl, rfl, rfl, rfl⟩
  · exact (C67_compiled ⟨[l1, a, l2], none, none, r⟩ .mse
      (.cons (layerAt_typed (t1 x)) (.cons (.dropout h45) (.cons (layerAt_typed (t3 x)) (.nil _))))
      (d (by simp) (by simp) (by simp)) ⟨lr, 0, 0, 0, false⟩ ⟨0, 0, 0, 0, false, 0⟩ ⟨1, 1/2, 1/2, 1, 0, 0, 0, 1, 1⟩).1

end SmartDNN
