import Verif.Proofs.Joint

/-!
# Training with a small enough learning rate lowers the loss (C78)
-/

namespace SmartDNN
open Net Spec

/-- Result and effect of the first training step, for every learning rate at once. -/
theorem C78_rate {ρ : Type} {ds es : List Nat} {F : (List Nat → ℝ) → List Nat → ℝ} {x : List Nat → ℝ} (E : Engine ρ ℝ)
    (m : Net ρ ℝ) (hst : Stack m.layers ds es F x) (hes : Dims es) (t : List Nat → ℝ) (o : SGDOptions ℝ)
    (hm : o.momentum = 0) (hw : o.weightDecay = 0) :
    ∃ (S : ℝ) (out : ℝ → List Nat → ℝ),
      (∀ lr, ∃ net' net'', trainCall E [ofFn ds x] [ofFn es t] 1 (m.compile .mse (.newSGD { o with learningRate := lr })) =
          (.ok (), net', [ofFn [1] fun _ => mse es (F x) t]) ∧
        (net'.layers.map gradSq).sum = S ∧ net'.loss = some .mse ∧
        predict E (ofFn ds x) net' = (.ok (ofFn es (out lr)), net'')) ∧
      mse es (out 0) t = mse es (F x) t ∧
      HasDerivAt (fun lr => mse es (out lr) t) (-S) 0 := by
  obtain ⟨ls', f1, j⟩ := stack_joint hst
  obtain ⟨h, S, Φ, l2, b1, s1, u1, c1⟩ := j (fun i => (F x i - t i) * 2 / (es.prod : ℝ))
  refine ⟨S, fun lr => Φ lr x, fun lr => ?_, ?_, ?_⟩
  · obtain ⟨l3, opt', e1, -, q1, w1⟩ := u1 lr 0 (.newSGD { o with learningRate := lr }) ⟨_, rfl, rfl, hm, hw⟩
    obtain ⟨l4, k1⟩ := w1 ρ E m.rng x
    refine ⟨⟨l3, some .mse, some opt', m.rng⟩, ⟨l4, some .mse, some opt', m.rng⟩, ?_, q1, rfl, ?_⟩
    · refine (C55_train E _ _ 1 _ _ _ (by simp) (by simp)).2 ?_
      have hs : StepOk E (ofFn ds x) (ofFn es t) (m.compile .mse (.newSGD { o with learningRate := lr }))
          ⟨l3, some .mse, some opt', m.rng⟩ (mse es (F x) t) := by
        refine ⟨ofFn es (F x), ⟨ls', some .mse, some (.newSGD { o with learningRate := lr }), m.rng⟩, .mse, _, ofFn ds h,
          ⟨l2, some .mse, some (.newSGD { o with learningRate := lr }), m.rng⟩, ?_, rfl, C29_compute hes _ _,
          mse_gradient_ofFn hes _ t, ?_, ?_⟩
        · unfold predict
          simp only [Net.compile, f1 ρ E m.rng]
        · unfold backward
          simp only [b1]
        · rw [net_updateWeights_eq _ _ rfl]
          simp only [e1]
      have h := Epochs.succ (E := E) (Steps.cons (E := E) (ps := []) hs (.nil _)) (.zero _)
      simpa using h
    · unfold predict
      simp only [k1]
  all_goals
    obtain ⟨u, hu, he⟩ := c1 (fun _ => x) (fun _ => 0) ⟨fun _ _ => rfl, fun _ _ => hasDerivAt_const _ _⟩
  · simp only [mse]
    congr 1
    refine total_congr fun i hi => ?_
    have : Φ 0 x i = F x i := hu.1 i hi
    rw [this]
  · refine (hasGradient_mse es (F x) t _ u hu).congr_deriv ?_
    rw [he]
    simp [total_zero]

/-- The loss printed for a second epoch is that of the prediction made after the first. -/
theorem second_epoch {ρ : Type} {ds es : List Nat} {x t p : List Nat → ℝ} {E : Engine ρ ℝ} {net net1 net2 : Net ρ ℝ} {L : Loss ℝ} {v1 v : ℝ}
    (hwell : WellShaped net ds es) (e1 : trainCall E [ofFn ds x] [ofFn es t] 1 net = (.ok (), net1, [ofFn [1] fun _ => v1]))
    (e2 : net1.loss = some L) (e3 : predict E (ofFn ds x) net1 = (.ok (ofFn es p), net2))
    (e4 : L.compute (ofFn es p) (ofFn es t) = .ok (ofFn [1] fun _ => v)) :
    ∃ net3, trainCall E [ofFn ds x] [ofFn es t] 2 net = (.ok (), net3, [ofFn [1] fun _ => v1, ofFn [1] fun _ => v]) := by
  obtain ⟨net1', v1', s1, hw1⟩ := C67_step E _ hwell (ofFn ds x) (ofFn es t) ⟨x, rfl⟩ ⟨t, rfl⟩
  have hone : trainCall E [ofFn ds x] [ofFn es t] 1 net = (.ok (), net1', [ofFn [1] fun _ => v1']) := by
    refine (C55_train E _ _ 1 _ _ _ (by simp) (by simp)).2 ?_
    have h := Epochs.succ (E := E) (Steps.cons (E := E) (ps := []) s1 (.nil _)) (.zero _)
    simpa using h
  rw [e1] at hone
  simp only [Prod.mk.injEq, true_and, List.cons.injEq, and_true] at hone
  obtain ⟨rfl, hv1⟩ := hone
  obtain ⟨net3, v2, s2, -⟩ := C67_step E _ hw1 (ofFn ds x) (ofFn es t) ⟨x, rfl⟩ ⟨t, rfl⟩
  have hv2 : v2 = v := by
    obtain ⟨pred, n1, L', g, g', n2, a1, a2, a3, -⟩ := s2
    rw [e3] at a1
    simp only [Prod.mk.injEq, Except.ok.injEq] at a1
    obtain ⟨rfl, rfl⟩ := a1
    have hl : net2.loss = net1.loss := (congrArg (fun q => q.2.loss) e3).symm
    rw [hl, e2] at a2
    cases a2
    rw [e4] at a3
    have := congrArg Tensor.data (Except.ok.inj a3)
    simpa [ofFn_data, indices] using this.symm
  subst hv2
  refine ⟨net3, ?_⟩
  refine (C55_train E _ _ 2 _ _ _ (by simp) (by simp)).2 ?_
  rw [hv1]
  have h := Epochs.succ (E := E) (Steps.cons (E := E) (ps := []) s1 (.nil _))
    (.succ (Steps.cons (E := E) (ps := []) s2 (.nil _)) (.zero _))
  simpa using h

/-- A function with negative slope at 0 is smaller than its value there at all small enough positive arguments. -/
theorem lt_of_neg_slope {f : ℝ → ℝ} {s : ℝ} (h : HasDerivAt f s 0) (hs : s < 0) : ∃ ε > 0, ∀ r, 0 < r → r < ε → f r < f 0 := by
  have hev := (h.hasDerivWithinAt (s := Set.Ioi 0)).limsup_slope_le' (by simp) hs
  obtain ⟨ε, hε, hsub⟩ := (mem_nhdsGT_iff_exists_Ioo_subset).1 hev
  refine ⟨ε, hε, fun r hr hlt => ?_⟩
  have hsl : slope f 0 r < 0 := hsub ⟨hr, hlt⟩
  rw [slope_def_field, div_lt_iff₀ (by linarith), zero_mul] at hsl
  linarith

/-- **C78.** A model of the layers of C54, compiled with the mean squared error and SGD without momentum and weight decay, trained on
one sample.  The gradients stored during the first step do not depend on the learning rate.  Unless they all vanish, every
small enough learning rate makes the loss printed for the second epoch smaller than the one printed for the first. -/
theorem C78_decreases {ρ : Type} {ds es : List Nat} {F : (List Nat → ℝ) → List Nat → ℝ} {x : List Nat → ℝ} (E : Engine ρ ℝ)
    (m : Net ρ ℝ) (hst : Stack m.layers ds es F x) (hes : Dims es) (t : List Nat → ℝ) (o : SGDOptions ℝ)
    (hm : o.momentum = 0) (hw : o.weightDecay = 0)
    (hS : ∃ lr, 0 < ((trainCall E [ofFn ds x] [ofFn es t] 1
      (m.compile .mse (.newSGD { o with learningRate := lr }))).2.1.layers.map gradSq).sum) :
    ∃ ε > 0, ∀ lr, 0 < lr → lr < ε → ∃ net' v, v < mse es (F x) t ∧
      trainCall E [ofFn ds x] [ofFn es t] 2 (m.compile .mse (.newSGD { o with learningRate := lr })) =
        (.ok (), net', [ofFn [1] fun _ => mse es (F x) t, ofFn [1] fun _ => v]) := by
  obtain ⟨S, out, h1, h2, h3⟩ := C78_rate E m hst hes t o hm hw
  have hpos : 0 < S := by
    obtain ⟨lr, h⟩ := hS
    obtain ⟨net', _, e1, e2, -⟩ := h1 lr
    rw [e1, e2] at h
    exact h
  obtain ⟨ε, hε, hlt⟩ := lt_of_neg_slope h3 (neg_lt_zero.2 hpos)
  refine ⟨ε, hε, fun lr h0 h => ?_⟩
  obtain ⟨net1, net2, e1, -, e2, e3⟩ := h1 lr
  obtain ⟨net3, e5⟩ := second_epoch (C67_compiled m .mse (stack_chain hst) hes { o with learningRate := lr } ⟨0, 0, 0, 0, false, 0⟩
    ⟨1, 1/2, 1/2, 1, 0, 0, 0, 1, 1⟩).1 e1 e2 e3 (C29_compute hes _ t)
  exact ⟨net3, _, h2 ▸ hlt lr h0 h, e5⟩

theorem stack_append {pre post : List (Layer ℝ)} {ds hs es : List Nat} {P G : (List Nat → ℝ) → List Nat → ℝ} {x : List Nat → ℝ}
    (hpre : Stack pre ds hs P x) (hpost : Stack post hs es G (P x)) : Stack (pre ++ post) ds es (fun x => G (P x)) x := by
  induction hpre with
  | nil ds x => exact hpost
  | @cons l ls ds es hs F H x hl _ ih => exact .cons (F := F) (G := fun y => G (H y)) hl (ih hpost)

/-- `C78_decreases` with its hypothesis in terms of the loss: if the loss has a non-zero partial derivative with respect to some
weight or bias of some dense layer, every small enough learning rate lowers it. -/
theorem C78_dense {ρ : Type} {ds es : List Nat} {b n k : Nat} {P G : (List Nat → ℝ) → List Nat → ℝ}
    {x w bias : List Nat → ℝ} (E : Engine ρ ℝ) (m : Net ρ ℝ) (pre post : List (Layer ℝ)) (l : FC ℝ) (mode : Bool)
    (hnet : m.layers = pre ++ ⟨.fc l, mode⟩ :: post)
    (hlw : l.weights = ofFn [n, k] w) (hlb : l.biases = ofFn [1, k] bias)
    (hx : Dims [b, n]) (hw : Dims [n, k]) (hd : Dims [b, k])
    (hpre : Stack pre ds [b, n] P x) (hpost : Stack post [b, k] es G (affine n w bias (P x)))
    (hes : Dims es) (t : List Nat → ℝ) (o : SGDOptions ℝ) (hm : o.momentum = 0) (hwd : o.weightDecay = 0)
    (gw gb : List Nat → ℝ)
    (hgw : HasGradient [n, k] (fun w => mse es (G (affine n w bias (P x))) t) w gw)
    (hgb : HasGradient [1, k] (fun bias => mse es (G (affine n w bias (P x))) t) bias gb)
    (hne : (∃ i, ValidIdx [n, k] i ∧ gw i ≠ 0) ∨ ∃ i, ValidIdx [1, k] i ∧ gb i ≠ 0) :
    ∃ ε > 0, ∀ lr, 0 < lr → lr < ε → ∃ net' v, v < mse es (G (affine n w bias (P x))) t ∧
      trainCall E [ofFn ds x] [ofFn es t] 2 (m.compile .mse (.newSGD { o with learningRate := lr })) =
        (.ok (), net', [ofFn [1] fun _ => mse es (G (affine n w bias (P x))) t, ofFn [1] fun _ => v]) := by
  have hst : Stack m.layers ds es (fun x => G (affine n w bias (P x))) x := by
    rw [hnet]
    exact stack_append (G := fun y => G (affine n w bias y)) hpre (.cons (F := affine n w bias) (.dense hx hw hd hlw hlb) hpost)
  refine C78_decreases E m hst hes t o hm hwd ⟨0, ?_⟩
  have hwell := (C67_compiled m .mse (stack_chain hst) hes { o with learningRate := 0 } ⟨0, 0, 0, 0, false, 0⟩
    ⟨1, 1/2, 1/2, 1, 0, 0, 0, 1, 1⟩).1
  obtain ⟨net', v, hs, -⟩ := C67_step E _ hwell (ofFn ds x) (ofFn es t) ⟨x, rfl⟩ ⟨t, rfl⟩
  have hone : trainCall E [ofFn ds x] [ofFn es t] 1 (m.compile .mse (.newSGD { o with learningRate := 0 })) =
      (.ok (), net', [ofFn [1] fun _ => v]) := by
    refine (C55_train E _ _ 1 _ _ _ (by simp) (by simp)).2 ?_
    have h := Epochs.succ (E := E) (Steps.cons (E := E) (ps := []) hs (.nil _)) (.zero _)
    simpa using h
  rw [hone]
  obtain ⟨net1, net2, r, gw', gb', p1, p2, p3, p4, p5, -⟩ := C54_dense_gradients E
    (m.compile .mse (.newSGD { o with learningRate := 0 })) pre post l mode hnet hlw hlb hx hw hd hpre
    hpost (fun y => mse es y t) _ (hasGradient_mse es _ t)
  obtain ⟨pred, n1, L, g1, g2, n2, s1, s2, s3, s4, s5, s6⟩ := hs
  rw [p1] at s1
  simp only [Prod.mk.injEq, Except.ok.injEq] at s1
  obtain ⟨rfl, rfl⟩ := s1
  have hl1 : net1.loss = some .mse := (congrArg (fun q => q.2.loss) p1).symm
  rw [hl1] at s2
  cases s2
  rw [mse_gradient_ofFn hes] at s4
  cases s4
  rw [p2] at s5
  simp only [Prod.mk.injEq] at s5
  obtain ⟨-, rfl⟩ := s5
  have hch := (C56_changes net2).1
  rw [s6] at hch
  simp only at hch
  have hlen := hch.length_eq
  have hi : pre.length < net2.layers.length := by
    by_contra h
    rw [List.getElem?_eq_none (by omega)] at p3
    cases p3
  have hup := (List.forall₂_iff_get.1 hch).2 pre.length hi (by omega)
  have hg := updated_grads hup
  have h3 := p3
  rw [List.getElem?_eq_getElem hi] at h3
  simp only [List.get_eq_getElem] at hg
  rw [Option.some.inj h3] at hg
  have hle : gradSq net'.layers[pre.length] ≤ (net'.layers.map gradSq).sum :=
    List.single_le_sum (by simp only [List.mem_map]; rintro _ ⟨a, -, rfl⟩; exact gradSq_nonneg a) _
      (List.mem_map.2 ⟨_, List.getElem_mem _, rfl⟩)
  refine lt_of_lt_of_le ?_ hle
  unfold gradSq
  rw [hg]
  simp only [grads, Option.bind_some, Option.map_some]
  rw [data_sq, data_sq]
  have sq : ∀ (ds : List Nat) (a c : List Nat → ℝ), (∃ i, ValidIdx ds i ∧ a i ≠ 0) → (∀ i, ValidIdx ds i → a i = c i) →
      0 < total ds (fun i => c i ^ 2) := by
    rintro ds a c ⟨i, hi, ha⟩ hac
    have hc : 0 < c i ^ 2 := by
      have : c i ≠ 0 := hac i hi ▸ ha
      positivity
    exact lt_of_lt_of_le hc (List.single_le_sum (by simp only [List.mem_map]; rintro _ ⟨a, -, rfl⟩; positivity) _
      (List.mem_map.2 ⟨i, mem_indices.2 hi, rfl⟩))
  have nn : ∀ (ds : List Nat) (c : List Nat → ℝ), 0 ≤ total ds (fun i => c i ^ 2) := fun ds c =>
    List.sum_nonneg (by simp only [List.mem_map]; rintro _ ⟨a, -, rfl⟩; positivity)
  rcases hne with h | h
  · exact add_pos_of_pos_of_nonneg (sq _ _ _ h (fun _ hi => hgw.unique p4 hi)) (nn _ _)
  · exact add_pos_of_nonneg_of_pos (nn _ _) (sq _ _ _ h (fun _ hi => hgb.unique p5 hi))

/-- Hypotheses of `C78_decreases` and `C78_dense` are met: a dense layer 1→1 with zero parameters behind which a sigmoid sits, on the
sample `(1, 1)`; the loss is `(sigmoid (w + b) - 1)²`, whose derivative at 0 is -1/4. -/
example (E : Engine Unit ℝ) :
    ∃ ε > 0, ∀ lr, 0 < lr → lr < ε → ∃ net' v, v < 1 / 4 ∧
      trainCall E [ofFn [1, 1] fun _ => 1] [ofFn [1, 1] fun _ => 1] 2 (Net.compile .mse (.newSGD ⟨lr, 0, 0, 0, false⟩)
        ⟨[⟨.fc { weights := ofFn [1, 1] fun _ => 0, biases := ofFn [1, 1] fun _ => 0 }, true⟩,
          ⟨.activation ⟨.sigmoid, none⟩, true⟩], none, none, ()⟩) =
        (.ok (), net', [ofFn [1] fun _ => 1 / 4, ofFn [1] fun _ => v]) := by
  have d : Dims [1, 1] := ⟨by simp, by simp, by simp⟩
  have hpost : Stack [⟨.activation ⟨.sigmoid, none⟩, true⟩] [1, 1] [1, 1] (fun x i => sigmoid (x i))
      (affine 1 (fun _ => 0) (fun _ => 0) (fun _ => 1)) := .cons (.smooth d rfl) (.nil _ _)
  have h := C78_dense E ⟨[⟨.fc { weights := ofFn [1, 1] fun _ => 0, biases := ofFn [1, 1] fun _ => 0 }, true⟩,
          ⟨.activation ⟨.sigmoid, none⟩, true⟩], none, none, ()⟩ [] [⟨.activation ⟨.sigmoid, none⟩, true⟩] _ true rfl rfl rfl d d d
          (.nil [1, 1] (fun _ => 1)) hpost d (fun _ => 1) ⟨0, 0, 0, 0, false⟩ rfl rfl (fun _ => -1 / 4) (fun _ => -1 / 4)
  have s0 : sigmoid 0 = 1 / 2 := by unfold sigmoid; norm_num
  have i1 : indices [1, 1] = [[0, 0]] := rfl
  have v0 : mse [1, 1] (fun i => sigmoid (affine 1 (fun _ => 0) (fun _ => 0) (fun _ => 1) i)) (fun _ => 1) = 1 / 4 := by
    simp only [mse, total, i1, affine]
    norm_num [s0]
  have key : ∀ (c : ℝ → ℝ) (v : ℝ), c 0 = 0 → HasDerivAt c v 0 →
      HasDerivAt (fun t => (sigmoid (c t) - 1) ^ 2) (-1 / 4 * v) 0 := by
    intro c v h0 hc
    have h1 := hasDerivAt_sigmoid (c 0)
    rw [h0, s0] at h1
    have h2 : HasDerivAt (fun t => sigmoid (c t)) (1 / 2 * (1 - 1 / 2) * v) 0 := by
      rw [← h0] at h1
      exact h1.comp (0 : ℝ) hc
    have h3 := (h2.sub_const 1).fun_pow 2
    refine h3.congr_deriv ?_
    rw [h0, s0]
    norm_num
  have vz : ValidIdx [1, 1] [0, 0] := valid2_iff.2 ⟨0, 0, rfl, by simp, by simp⟩
  have h' := h (by
    intro c v hc
    have := key _ _ (hc.1 _ vz) (hc.2 _ vz)
    simpa [mse, total, i1, affine] using this) (by
    intro c v hc
    have := key _ _ (hc.1 _ vz) (hc.2 _ vz)
    simpa [mse, total, i1, affine] using this) (Or.inl ⟨[0, 0], vz, by norm_num⟩)
  simp only [v0] at h'
  exact h'

end SmartDNN
