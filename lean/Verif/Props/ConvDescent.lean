import Verif.Props.Descent

/-!
# C54 and C68 for convolutions
-/

namespace SmartDNN
open Spec Net

theorem extensional_conv_kernel (ic oh ow kh kw h w : Nat) (hic : 0 < ic) (hh : oh + kh ≤ h + 1) (hw : ow + kw ≤ w + 1) (b x : List Nat → ℝ) :
    Extensional [1, ic, kh, kw] [1, 1, oh, ow] (fun k => conv 1 kh kw 1 0 1 h w k b x) := by
  intro k k' hk j hj
  simp only
  rw [conv_single_eq oh ow kh kw h w hh hw k b x hj, conv_single_eq oh ow kh kw h w hh hw k' b x hj]
  congr 2
  refine List.map_congr_left fun a ha => ?_
  obtain ⟨u, v, rfl, hu, hv⟩ := valid2_iff.1 (mem_indices.1 ha)
  simp only [List.getD_cons_zero, List.getD_cons_succ]
  rw [hk _ (valid4_iff.2 ⟨0, 0, u, v, rfl, by omega, by omega, by omega, by omega⟩)]

theorem extensional_conv_bias (oh ow kh kw h w : Nat) (hh : oh + kh ≤ h + 1) (hw : ow + kw ≤ w + 1) (k x : List Nat → ℝ) :
    Extensional [1, 1] [1, 1, oh, ow] (fun b => conv 1 kh kw 1 0 1 h w k b x) := by
  intro b b' hb j hj
  simp only
  rw [conv_single_eq oh ow kh kw h w hh hw k b x hj, conv_single_eq oh ow kh kw h w hh hw k b' x hj,
    hb _ (valid2_iff.2 ⟨0, 0, rfl, by omega, by omega⟩)]

/-- **The stored gradients are gradients of the loss**, for convolutions.  Take any stack with a convolution (one channel, one image)
anywhere in it and let `g` be the gradient of a function `L` of the model's output.  After `predict(x)` and `backward(g)`, that
layer has kept its parameters and has stored the gradients of `L` of the model's output with respect to its kernel and its bias. -/
theorem C54_conv_gradients {ρ : Type} {ds es : List Nat} {h w kh kw : Nat} {P G : (List Nat → ℝ) → List Nat → ℝ}
    {x k bias : List Nat → ℝ} (E : Engine ρ ℝ) (net : Net ρ ℝ) (pre post : List (Layer ℝ)) (mode : Bool) (inp wg bg : Option (Tensor ℝ))
    (hnet : net.layers = pre ++ ⟨.conv ⟨1, 1, kh, kw, 1, 0, 1, ofFn [1, 1, kh, kw] k, ofFn [1, 1] bias, inp, wg, bg⟩, mode⟩ :: post)
    (hd : Dims [1, 1, h, w]) (hdk : Dims [1, 1, kh, kw]) (hk : kh ≤ h) (hkw : kw ≤ w)
    (hpre : Stack pre ds [1, 1, h, w] P x)
    (hpost : Stack post [1, 1, h - kh + 1, w - kw + 1] es G (conv 1 kh kw 1 0 1 h w k bias (P x)))
    (L : (List Nat → ℝ) → ℝ) (g : List Nat → ℝ) (hg : HasGradient es L (G (conv 1 kh kw 1 0 1 h w k bias (P x))) g) :
    ∃ (net1 net2 : Net ρ ℝ) (r gk gb : List Nat → ℝ),
      predict E (ofFn ds x) net = (.ok (ofFn es (G (conv 1 kh kw 1 0 1 h w k bias (P x)))), net1) ∧
      backward (ofFn es g) net1 = (.ok (ofFn ds r), net2) ∧
      net2.layers[pre.length]? = some ⟨.conv ⟨1, 1, kh, kw, 1, 0, 1, ofFn [1, 1, kh, kw] k, ofFn [1, 1] bias,
        some (ofFn [1, 1, h, w] (P x)), some (ofFn [1, 1, kh, kw] gk), some (ofFn [1, 1] gb)⟩, mode⟩ ∧
      HasGradient [1, 1, kh, kw] (fun k => L (G (conv 1 kh kw 1 0 1 h w k bias (P x)))) k gk ∧
      HasGradient [1, 1] (fun bias => L (G (conv 1 kh kw 1 0 1 h w k bias (P x)))) bias gb ∧
      HasGradient ds (fun x => L (G (conv 1 kh kw 1 0 1 h w k bias (P x)))) x r := by
  have hkp := hdk.pos kh (by simp)
  have hkwp := hdk.pos kw (by simp)
  have ho : 1 * 1 * h * w < 2 ^ 31 := by
    have := hd.lt
    simp only [List.prod_cons, List.prod_nil, one_mul, mul_one] at this
    rw [one_mul, one_mul]
    exact this
  have hdb : Dims [1, 1] := ⟨by simp, by simp, by simp⟩
  have hdo : Dims [1, 1, h - kh + 1, w - kw + 1] := dims_conv hd hk hkw ho Nat.one_pos hkp hkwp
  have ht : ∀ x : ℝ, MathFn.toFloat x = x := fun _ => rfl
  obtain ⟨pre', A, a0, a1, a2, a3, a4⟩ := stack_forward (ρ := ρ) hpre
  obtain ⟨post', B, b0, b1, b2, b3, b4⟩ := stack_forward (ρ := ρ) hpost
  have hL : HasGradient [1, 1, h - kh + 1, w - kw + 1] (fun y => L (G y)) (conv 1 kh kw 1 0 1 h w k bias (P x)) (B g) := hg.comp b1 b2
  have hw1 : HasVJP [1, 1, kh, kw] [1, 1, h - kh + 1, w - kw + 1] (fun k => conv 1 kh kw 1 0 1 h w k bias (P x)) k
      (convWeightGrad (h - kh + 1) (w - kw + 1) (P x)) := fun g =>
    hasGradient_conv_single_weights 1 _ _ kh kw h w Nat.one_pos (by omega) (by omega) k bias (P x) g
  have hb1 : HasVJP [1, 1] [1, 1, h - kh + 1, w - kw + 1] (fun bias => conv 1 kh kw 1 0 1 h w k bias (P x)) bias
      (convBiasGrad (h - kh + 1) (w - kw + 1)) := by
    intro g
    refine (hasGradient_conv_bias 1 1 (h - kh + 1) (w - kw + 1) 1 kh kw 1 0 1 h w k bias (P x) g).congr (fun _ => rfl) ?_
    intro i hi
    obtain ⟨c, z0, rfl, hc, hz⟩ := valid2_iff.1 hi
    obtain rfl : z0 = 0 := by omega
    obtain rfl : c = 0 := by omega
    simp [convBiasGrad]
  let l1 : Conv ℝ := ⟨1, 1, kh, kw, 1, 0, 1, ofFn [1, 1, kh, kw] k, ofFn [1, 1] bias, some (ofFn [1, 1, h, w] (P x)), wg, bg⟩
  let l2 : Conv ℝ := ⟨1, 1, kh, kw, 1, 0, 1, ofFn [1, 1, kh, kw] k, ofFn [1, 1] bias, some (ofFn [1, 1, h, w] (P x)),
    some (ofFn [1, 1, kh, kw] (convWeightGrad (h - kh + 1) (w - kw + 1) (P x) (B g))),
    some (ofFn [1, 1] (convBiasGrad (h - kh + 1) (w - kw + 1) (B g)))⟩
  have hbk : Conv.backward (ofFn [1, 1, h - kh + 1, w - kw + 1] (B g)) l1 =
      (.ok (ofFn [1, 1, h, w] (convInputGrad (h - kh + 1) (w - kw + 1) kh kw k (B g))), l2) :=
    conv_backward ht hd hdk hdo (by omega) (by omega) (P x) (B g) k bias l1 rfl rfl rfl rfl rfl
  rcases hpb : backwardLayers post' (ofFn es g) with ⟨res, post2⟩
  have := b4 g
  rw [hpb] at this
  simp only at this
  subst this
  have hmid : backwardLayers (⟨.conv l1, mode⟩ :: post') (ofFn es g) =
      (.ok (ofFn [1, 1, h, w] (convInputGrad (h - kh + 1) (w - kw + 1) kh kw k (B g))), ⟨.conv l2, mode⟩ :: post2) := by
    unfold backwardLayers
    rw [hpb]
    simp only [Layer.backward, Layer.onKind]
    rw [hbk]
  have hall := backwardLayers_append (pre := pre') hmid
  rw [a4] at hall
  obtain ⟨pre2, hpre2⟩ : ∃ q, q = (backwardLayers pre' (ofFn [1, 1, h, w] (convInputGrad (h - kh + 1) (w - kw + 1) kh kw k (B g)))).2 := ⟨_, rfl⟩
  rw [← hpre2] at hall
  have hfw : forwardLayers E net.layers (ofFn ds x) net.rng =
      (.ok (ofFn es (G (conv 1 kh kw 1 0 1 h w k bias (P x)))), pre' ++ ⟨.conv l1, mode⟩ :: post', net.rng) := by
    rw [hnet, forwardLayers_append E (a3 E net.rng)]
    have : forwardLayers E (⟨.conv ⟨1, 1, kh, kw, 1, 0, 1, ofFn [1, 1, kh, kw] k, ofFn [1, 1] bias, inp, wg, bg⟩, mode⟩ :: post)
        (ofFn [1, 1, h, w] (P x)) net.rng =
        (.ok (ofFn es (G (conv 1 kh kw 1 0 1 h w k bias (P x)))), ⟨.conv l1, mode⟩ :: post', net.rng) := by
      unfold forwardLayers
      simp only [Layer.forward, Layer.onKind]
      rw [conv_forward (n := 1) (oc := 1) ht hd hdk hdb hk hkw ho k bias (P x) _ rfl rfl rfl rfl rfl rfl]
      simp only
      rw [b3 E net.rng]
    rw [this]
  refine ⟨{ net with layers := pre' ++ ⟨.conv l1, mode⟩ :: post', rng := net.rng },
    { net with layers := pre2 ++ ⟨.conv l2, mode⟩ :: post2, rng := net.rng },
    A (convInputGrad (h - kh + 1) (w - kw + 1) kh kw k (B g)), _, _, ?_, ?_, ?_,
    HasGradient.comp (F := fun k => conv 1 kh kw 1 0 1 h w k bias (P x)) hL hw1
      (extensional_conv_kernel 1 _ _ kh kw h w Nat.one_pos (by omega) (by omega) bias (P x)),
    HasGradient.comp (F := fun bias => conv 1 kh kw 1 0 1 h w k bias (P x)) hL hb1
      (extensional_conv_bias _ _ kh kw h w (by omega) (by omega) k (P x)),
    (hL.comp (hasVJP_conv_single 1 _ _ kh kw h w Nat.one_pos (by omega) (by omega) k bias (P x))
      (extensional_conv_single 1 _ _ kh kw h w Nat.one_pos (by omega) (by omega) k bias)).comp a1 a2⟩
  · unfold predict
    rw [hfw]
  · unfold backward
    simp only
    rw [hall]
  · have hl2 : pre2.length = pre.length := by
      rcases hq : backwardLayers pre' (ofFn [1, 1, h, w] (convInputGrad (h - kh + 1) (w - kw + 1) kh kw k (B g))) with ⟨res, pre3⟩
      have := a4 (convInputGrad (h - kh + 1) (w - kw + 1) kh kw k (B g))
      rw [hq] at this hpre2
      simp only at this hpre2
      subst this hpre2
      rw [((backwardLayers_ok_iff _ _ _ _).1 hq).1, a0]
    simp only
    rw [List.getElem?_append_right (by omega), hl2, Nat.sub_self, List.getElem?_cons_zero]

/-- **C68 for convolutions.** A model with mean squared error and plain SGD, and a convolution (one channel, one image) anywhere in it.
Training on the single sample `(x, t)` succeeds, prints the mean squared error of the model's output, and moves the kernel and the
bias by `-lr` times the gradient of this error with respect to them, at the values before the step. -/
theorem C68_conv {ρ : Type} {ds es : List Nat} {h w kh kw : Nat} {P G : (List Nat → ℝ) → List Nat → ℝ}
    {x k bias : List Nat → ℝ} (E : Engine ρ ℝ) (net : Net ρ ℝ) (pre post : List (Layer ℝ)) (mode : Bool) (inp wg bg : Option (Tensor ℝ))
    (hnet : net.layers = pre ++ ⟨.conv ⟨1, 1, kh, kw, 1, 0, 1, ofFn [1, 1, kh, kw] k, ofFn [1, 1] bias, inp, wg, bg⟩, mode⟩ :: post)
    (hd : Dims [1, 1, h, w]) (hdk : Dims [1, 1, kh, kw]) (hk : kh ≤ h) (hkw : kw ≤ w)
    (hpre : Stack pre ds [1, 1, h, w] P x)
    (hpost : Stack post [1, 1, h - kh + 1, w - kw + 1] es G (conv 1 kh kw 1 0 1 h w k bias (P x)))
    (hwell : WellShaped net ds es) (hloss : net.loss = some .mse) (lr : ℝ)
    (hopt : ∃ opt, net.optimizer = some opt ∧ PlainSGD lr opt) (t : List Nat → ℝ) :
    ∃ (net' : Net ρ ℝ) (l' : Conv ℝ) (gk gb : List Nat → ℝ),
      trainCall E [ofFn ds x] [ofFn es t] 1 net =
        (.ok (), net', [ofFn [1] fun _ => mse es (G (conv 1 kh kw 1 0 1 h w k bias (P x))) t]) ∧
      net'.layers[pre.length]? = some ⟨.conv l', mode⟩ ∧
      l'.weights = ofFn [1, 1, kh, kw] (fun i => k i - lr * gk i) ∧
      l'.biases = ofFn [1, 1] (fun i => bias i - lr * gb i) ∧
      HasGradient [1, 1, kh, kw] (fun k => mse es (G (conv 1 kh kw 1 0 1 h w k bias (P x))) t) k gk ∧
      HasGradient [1, 1] (fun bias => mse es (G (conv 1 kh kw 1 0 1 h w k bias (P x))) t) bias gb := by
  have hes : Dims es := by
    obtain ⟨-, ⟨L, hL, hf⟩, -⟩ := hwell
    rw [hloss] at hL
    cases hL
    exact hf
  obtain ⟨g, hg, hgrad⟩ : ∃ g, Loss.mse.gradient (ofFn es (G (conv 1 kh kw 1 0 1 h w k bias (P x)))) (ofFn es t) = .ok (ofFn es g) ∧
      HasGradient es (fun y => mse es y t) (G (conv 1 kh kw 1 0 1 h w k bias (P x))) g :=
    ⟨_, mse_gradient_ofFn hes _ t, hasGradient_mse es _ t⟩
  obtain ⟨net1, net2, r, gw, gb, p1, p2, p3, p4, p5, -⟩ := C54_conv_gradients E net pre post mode inp wg bg hnet hd hdk hk hkw hpre
    hpost (fun y => mse es y t) g hgrad
  obtain ⟨net', v, hstep, -⟩ := C67_step E net hwell _ _ ⟨x, rfl⟩ ⟨t, rfl⟩
  obtain ⟨pred, n1, L, g1, g2, n2, s1, s2, s3, s4, s5, s6⟩ := hstep
  have q1 : pred = ofFn es (G (conv 1 kh kw 1 0 1 h w k bias (P x))) ∧ n1 = net1 := by
    rw [p1] at s1
    simp only [Prod.mk.injEq, Except.ok.injEq] at s1
    exact ⟨s1.1.symm, s1.2.symm⟩
  obtain ⟨rfl, rfl⟩ := q1
  have hl1 : n1.loss = some .mse := by
    have := congrArg (fun q => q.2.loss) p1
    rw [← hloss]
    exact this.symm
  rw [hl1] at s2
  cases s2
  have q2 : g1 = ofFn es g := by
    rw [hg] at s4
    exact (Except.ok.inj s4).symm
  subst q2
  have q3 : n2 = net2 := by
    rw [p2] at s5
    simp only [Prod.mk.injEq] at s5
    exact s5.2.symm
  subst q3
  obtain ⟨opt, ho, hplain⟩ := hopt
  have ho2 : n2.optimizer = some opt := by
    have a1 : n1.optimizer = net.optimizer := (congrArg (fun q => q.2.optimizer) p1).symm
    have a2 : n2.optimizer = n1.optimizer := (congrArg (fun q => q.2.optimizer) p2).symm
    rw [a2, a1, ho]
  have hu := s6
  rw [net_updateWeights_eq n2 opt ho2] at hu
  rcases hul : updateLayers 0 n2.layers opt with ⟨res, ls', opt'⟩
  rw [hul] at hu
  simp only [Prod.mk.injEq] at hu
  obtain ⟨rfl, hn'⟩ := hu
  obtain ⟨o, o', l', r1, r2, r3⟩ := (updateLayers_each (PlainSGD lr) (fun i l opt h => layer_plain h l) n2.layers 0 opt ls' opt'
    hplain hul).2 pre.length _ p3
  obtain ⟨o2, hpair⟩ := plain_pair (k0 := (0 + pre.length, false)) (k1 := (0 + pre.length, true)) (by simp) r1
    [1, 1, kh, kw] [1, 1] k bias gw gb
  simp only [Layer.updateWeights, hpair, Prod.mk.injEq] at r2
  refine ⟨net', ⟨1, 1, kh, kw, 1, 0, 1, ofFn [1, 1, kh, kw] (fun i => k i - lr * gw i), ofFn [1, 1] (fun i => bias i - lr * gb i),
    some (ofFn [1, 1, h, w] (P x)), some (ofFn [1, 1, kh, kw] gw), some (ofFn [1, 1] gb)⟩, gw, gb, ?_, ?_, rfl, rfl, p4, p5⟩
  · refine (C55_train E _ _ 1 net net' _ (by simp) (by simp)).2 ?_
    have h := Epochs.succ (E := E) (Steps.cons (E := E) (ps := []) ⟨_, n1, .mse, _, g2, n2, p1, hl1, C29_compute hes _ _, hg, s5, s6⟩ (.nil _)) (.zero _)
    simpa using h
  · rw [← hn', r2.2.1]
    exact r3

/-- The hypotheses are met: 3x3 convolution of one 6x6 image, tanh, flatten, dense 16→3. -/
example (k b w c x : List Nat → ℝ) (lr : ℝ) :
    let l1 : Layer ℝ := ⟨.conv ⟨1, 1, (3 : Nat), (3 : Nat), 1, 0, 1, ofFn [1, 1, 3, 3] k, ofFn [1, 1] b, none, none, none⟩, true⟩
    let a : Layer ℝ := ⟨.activation ⟨.tanh, none⟩, true⟩
    let fl : Layer ℝ := ⟨.flatten {}, true⟩
    let l2 : Layer ℝ := ⟨.fc { weights := ofFn [16, 3] w, biases := ofFn [1, 3] c }, true⟩
    let net : Net Unit ℝ := Net.compile .mse (.newSGD ⟨lr, 0, 0, 0, false⟩) ⟨[l1, a, fl, l2], none, none, ()⟩
    (∃ P G, Stack [] [1, 1, 6, 6] [1, 1, 6, 6] P x ∧ Stack [a, fl, l2] [1, 1, 6 - 3 + 1, 6 - 3 + 1] [1, 3] G (conv 1 3 3 1 0 1 6 6 k b (P x))) ∧
    WellShaped net [1, 1, 6, 6] [1, 3] ∧ ∃ opt, net.optimizer = some opt ∧ PlainSGD lr opt := by
  intro l1 a fl l2 net
  have d : ∀ {ds : List Nat}, ds ≠ [] → (∀ a ∈ ds, 0 < a) → ds.prod < 2 ^ 31 → Dims ds := fun a b c => ⟨a, b, c⟩
  have t1 : ∀ x, LayerAt l1 [1, 1, 6, 6] [1, 1, 4, 4] (conv 1 3 3 1 0 1 6 6 k b) x := fun x =>
    .conv (h := 6) (w := 6) (kh := 3) (kw := 3) (d (by simp) (by simp) (by simp)) (d (by simp) (by simp) (by simp)) (by omega) (by omega)
  have t2 : ∀ x, ∃ F, LayerAt a [1, 1, 4, 4] [1, 1, 4, 4] F x := fun x => ⟨_, .smooth (d (by simp) (by simp) (by simp)) rfl⟩
  have t3 : ∀ x, ∃ F, LayerAt fl [1, 1, 4, 4] [1, 16] F x := fun x => ⟨_, .flatten (d (by simp) (by simp) (by simp)) (by simp)⟩
  have t4 : ∀ x, LayerAt l2 [1, 16] [1, 3] (affine 16 w c) x := fun x =>
    .dense (d (by simp) (by simp) (by simp)) (d (by simp) (by simp) (by simp)) (d (by simp) (by simp) (by simp)) rfl rfl
  obtain ⟨F2, u2⟩ := t2 (conv 1 3 3 1 0 1 6 6 k b x)
  obtain ⟨F3, u3⟩ := t3 (F2 (conv 1 3 3 1 0 1 6 6 k b x))
  refine ⟨⟨_, _, .nil _ _, .cons u2 (.cons u3 (.cons (t4 _) (.nil _ _)))⟩, ?_, _, rfl, _, rfl, rfl, rfl, rfl⟩
  exact (C67_compiled ⟨[l1, a, fl, l2], none, none, ()⟩ .mse
    (.cons (layerAt_typed (t1 x)) (.cons (layerAt_typed u2) (.cons (layerAt_typed u3) (.cons (layerAt_typed (t4 x)) (.nil _)))))
    (d (by simp) (by simp) (by simp)) ⟨lr, 0, 0, 0, false⟩ ⟨0, 0, 0, 0, false, 0⟩ ⟨1, 1/2, 1/2, 1, 0, 0, 0, 1, 1⟩).1

end SmartDNN
