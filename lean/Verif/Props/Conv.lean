import Verif.Proofs.Conv

/-!
# Convolution layer (C43, C44)

`Spec.conv C kh kw s q d h w k bias x` is the specification: cross-correlation over `C` channels with stride
`s`, padding `q` and dilation `d`.
-/

namespace SmartDNN
open Spec

section
variable {T : Type} [CommSemiring T] [MathFn T]

/-- **C43, proved part.** One input channel, stride 1, padding 0, dilation 1: the output is the
cross-correlation, for every batch size, number of output channels, kernel size and plane size.  `ht` holds
for `T = float`, where the accumulator has type `T`.  Missing for the full property: other configurations,
where it is false (see below). -/
theorem C43_single_channel_partial {n oc h w kh kw : Nat} (ht : ∀ x : T, MathFn.toFloat x = x)
    (hd : Dims [n, 1, h, w]) (hdk : Dims [oc, 1, kh, kw]) (hdb : Dims [oc, 1])
    (hk : kh ≤ h) (hkw : kw ≤ w) (ho : n * oc * h * w < 2 ^ 31) (k b x : List Nat → T)
    (wg bg inp : Option (Tensor T)) :
    Conv.forward (ofFn [n, 1, h, w] x)
        ⟨1, oc, kh, kw, 1, 0, 1, ofFn [oc, 1, kh, kw] k, ofFn [oc, 1] b, inp, wg, bg⟩ =
      (.ok (ofFn [n, oc, convOut kh 1 0 1 h, convOut kw 1 0 1 w] (conv 1 kh kw 1 0 1 h w k b x)),
       ⟨1, oc, kh, kw, 1, 0, 1, ofFn [oc, 1, kh, kw] k, ofFn [oc, 1] b, some (ofFn [n, 1, h, w] x), wg, bg⟩) := by
  have e : ∀ a b : Nat, 0 < a → a ≤ b → convOut a 1 0 1 b = b - a + 1 := by
    intro a b h1 h2
    unfold convOut
    rw [Nat.div_one]
    omega
  rw [e kh h (hdk.pos kh (by simp)) hk, e kw w (hdk.pos kw (by simp)) hkw]
  exact conv_forward ht hd hdk hdb hk hkw ho k b x _ rfl rfl rfl rfl rfl rfl

/-- Hypotheses of `C43_single_channel_partial` are met: a batch of two 28x28 images, 8 kernels of 3x3. -/
example : Dims [2, 1, 28, 28] ∧ Dims [8, 1, 3, 3] ∧ Dims [8, 1] ∧ 2 * 8 * 28 * 28 < 2 ^ 31 :=
  ⟨⟨by simp, by simp, by simp⟩, ⟨by simp, by simp, by simp⟩, ⟨by simp, by simp, by simp⟩, by norm_num⟩

/-- The configured stride, padding and dilation never influence the output, and neither do the input channels
other than the first. -/
theorem C43_configuration_ignored {n oc ic h w kh kw : Nat} (ht : ∀ x : T, MathFn.toFloat x = x)
    (hd : Dims [n, ic, h, w]) (hdk : Dims [oc, ic, kh, kw]) (hdb : Dims [oc, 1])
    (hk : kh ≤ h) (hkw : kw ≤ w) (ho : n * oc * h * w < 2 ^ 31) (k b x : List Nat → T) (s q d : Int)
    (wg bg inp : Option (Tensor T)) :
    (Conv.forward (ofFn [n, ic, h, w] x)
        ⟨ic, oc, kh, kw, s, q, d, ofFn [oc, ic, kh, kw] k, ofFn [oc, 1] b, inp, wg, bg⟩).1 =
      .ok (ofFn [n, oc, h - kh + 1, w - kw + 1] (conv 1 kh kw 1 0 1 h w k b x)) := by
  rw [conv_forward ht hd hdk hdb hk hkw ho k b x _ rfl rfl rfl rfl rfl rfl]

/-- **C43 is false for strides of 2 or more** (unless the kernel is as high as the input): the output has not
the configured shape. -/
theorem C43_stride_refuted {n oc ic h w kh kw s : Nat} (ht : ∀ x : T, MathFn.toFloat x = x)
    (hd : Dims [n, ic, h, w]) (hdk : Dims [oc, ic, kh, kw]) (hdb : Dims [oc, 1])
    (hk : kh < h) (hkw : kw ≤ w) (ho : n * oc * h * w < 2 ^ 31) (k b x r : List Nat → T) (hs : 2 ≤ s)
    (wg bg inp : Option (Tensor T)) :
    (Conv.forward (ofFn [n, ic, h, w] x)
        ⟨ic, oc, kh, kw, s, 0, 1, ofFn [oc, ic, kh, kw] k, ofFn [oc, 1] b, inp, wg, bg⟩).1 ≠
      .ok (ofFn [n, oc, convOut kh s 0 1 h, convOut kw s 0 1 w] r) := by
  rw [C43_configuration_ignored ht hd hdk hdb hk.le hkw ho]
  intro he
  have h1 := ofFn_dims_inj (Except.ok.inj he)
  simp only [List.cons.injEq, true_and] at h1
  have h2 := h1.1
  have hkp := hdk.pos kh (by simp)
  unfold convOut at h2
  have h3 : h + 2 * 0 - 1 * (kh - 1) - 1 = h - kh := by omega
  rw [h3] at h2
  have h4 : (h - kh) / s < h - kh := Nat.div_lt_self (by omega) (by omega)
  omega

/-- **C43 is false for every positive padding.** -/
theorem C43_padding_refuted {n oc ic h w kh kw q : Nat} (ht : ∀ x : T, MathFn.toFloat x = x)
    (hd : Dims [n, ic, h, w]) (hdk : Dims [oc, ic, kh, kw]) (hdb : Dims [oc, 1])
    (hk : kh ≤ h) (hkw : kw ≤ w) (ho : n * oc * h * w < 2 ^ 31) (k b x r : List Nat → T) (hq : 0 < q)
    (wg bg inp : Option (Tensor T)) :
    (Conv.forward (ofFn [n, ic, h, w] x)
        ⟨ic, oc, kh, kw, 1, q, 1, ofFn [oc, ic, kh, kw] k, ofFn [oc, 1] b, inp, wg, bg⟩).1 ≠
      .ok (ofFn [n, oc, convOut kh 1 q 1 h, convOut kw 1 q 1 w] r) := by
  rw [C43_configuration_ignored ht hd hdk hdb hk hkw ho]
  intro he
  have h1 := ofFn_dims_inj (Except.ok.inj he)
  simp only [List.cons.injEq, true_and] at h1
  have h2 := h1.1
  have hkp := hdk.pos kh (by simp)
  unfold convOut at h2
  rw [Nat.div_one] at h2
  omega

/-- **C43 is false for every dilation of 2 or more** of a kernel with at least two rows. -/
theorem C43_dilation_refuted {n oc ic h w kh kw d : Nat} (ht : ∀ x : T, MathFn.toFloat x = x)
    (hd : Dims [n, ic, h, w]) (hdk : Dims [oc, ic, kh, kw]) (hdb : Dims [oc, 1])
    (hk : d * (kh - 1) + 1 ≤ h) (hkh : 2 ≤ kh) (hkw : kw ≤ w) (ho : n * oc * h * w < 2 ^ 31) (k b x r : List Nat → T)
    (hdil : 2 ≤ d) (wg bg inp : Option (Tensor T)) :
    (Conv.forward (ofFn [n, ic, h, w] x)
        ⟨ic, oc, kh, kw, 1, 0, d, ofFn [oc, ic, kh, kw] k, ofFn [oc, 1] b, inp, wg, bg⟩).1 ≠
      .ok (ofFn [n, oc, convOut kh 1 0 d h, convOut kw 1 0 d w] r) := by
  have h5 : 2 * (kh - 1) ≤ d * (kh - 1) := Nat.mul_le_mul_right _ hdil
  rw [C43_configuration_ignored ht hd hdk hdb (by omega) hkw ho]
  intro he
  have h1 := ofFn_dims_inj (Except.ok.inj he)
  simp only [List.cons.injEq, true_and] at h1
  have h2 := h1.1
  unfold convOut at h2
  rw [Nat.div_one] at h2
  omega

/-- **C43 is false for two or more input channels**: there are kernels and an input, in every such
configuration, on which the output differs from the cross-correlation. -/
theorem C43_channels_refuted [CharZero T] [NoZeroDivisors T] {n oc ic h w kh kw : Nat}
    (ht : ∀ x : T, MathFn.toFloat x = x) (hic : 2 ≤ ic)
    (hd : Dims [n, ic, h, w]) (hdk : Dims [oc, ic, kh, kw]) (hdb : Dims [oc, 1])
    (hk : kh ≤ h) (hkw : kw ≤ w) (ho : n * oc * h * w < 2 ^ 31) (b : List Nat → T)
    (wg bg inp : Option (Tensor T)) (hb : b [0, 0] = 0) :
    ∃ k x r : List Nat → T, (Conv.forward (ofFn [n, ic, h, w] x)
        ⟨ic, oc, kh, kw, 1, 0, 1, ofFn [oc, ic, kh, kw] k, ofFn [oc, 1] b, inp, wg, bg⟩).1 =
      .ok (ofFn [n, oc, h - kh + 1, w - kw + 1] r) ∧
      r [0, 0, 0, 0] ≠ conv ic kh kw 1 0 1 h w k b x [0, 0, 0, 0] := by
  refine ⟨fun _ => 1, fun idx => if idx.getD 1 0 = 1 then 1 else 0, _,
    C43_configuration_ignored ht hd hdk hdb hk hkw ho _ b _ 1 0 1 wg bg inp, ?_⟩
  have hkp := hdk.pos kh (by simp)
  have hkwp := hdk.pos kw (by simp)
  have e : ∀ C, 2 ≤ C → conv C kh kw 1 0 1 h w (fun _ => 1) b (fun idx => if idx.getD 1 0 = 1 then (1 : T) else 0) [0, 0, 0, 0] =
      ((kh * kw : Nat) : T) := by
    intro C hC
    unfold conv padded
    simp only [List.getD_cons_zero, List.getD_cons_succ, hb, add_zero, mul_one, zero_mul, zero_add, zero_le, true_and,
      Nat.sub_zero]
    rw [Finset.sum_eq_single 1]
    · simp only [if_true]
      rw [Finset.sum_congr rfl (g := fun _ => (kw : T))]
      · simp
      · intro u hu
        rw [Finset.sum_congr rfl (g := fun _ => (1 : T))]
        · simp
        · intro v hv
          rw [Finset.mem_range] at hu hv
          rw [if_pos ⟨by omega, by omega⟩]
    · intro c _ hc
      simp [hc]
    · intro hn
      exact (hn (Finset.mem_range.2 (by omega))).elim
  rw [e ic hic]
  have e0 : conv 1 kh kw 1 0 1 h w (fun _ => 1) b (fun idx => if idx.getD 1 0 = 1 then (1 : T) else 0) [0, 0, 0, 0] = 0 := by
    unfold conv padded
    simp [hb]
  rw [e0]
  exact (Nat.cast_ne_zero.2 (Nat.mul_pos hkp hkwp).ne').symm

/-- A wrong rank or channel count is an assertion failure, not an exception. -/
theorem C43_aborts (t : Tensor T) (l : Conv T)
    (h : t.shape.rank ≠ 4 ∨ ∃ c, t.shape.get 1 = .ok c ∧ c ≠ l.inputChannels) :
    Conv.forward t l = (.error .abort, l) := by
  unfold Conv.forward
  simp only [Mut.get_bind]
  by_cases h4 : t.shape.rank ≠ 4
  · rw [if_pos h4]
    rfl
  · rw [if_neg h4]
    rcases h with h | ⟨c, h1, h2⟩
    · exact (h4 h).elim
    · rw [h1]
      simp only [Mut.lift_ok_bind]
      rw [if_pos h2]
      rfl

/-- A kernel larger than the input is rejected with `std::invalid_argument`. -/
theorem C43_rejects_kernel {n oc ic h w kh kw : Nat} (x : List Nat → T) (wt bi : Tensor T) (s q d : Int)
    (wg bg inp : Option (Tensor T)) (hk : h < kh ∨ w < kw) :
    (Conv.forward (ofFn [n, ic, h, w] x) ⟨ic, oc, kh, kw, s, q, d, wt, bi, inp, wg, bg⟩).1 =
      .error .invalidArgument := by
  unfold Conv.forward
  simp only [Mut.get_bind]
  rw [if_neg (by simp)]
  rw [show (ofFn [n, ic, h, w] x).shape.get 1 = .ok (ic : Int) from rfl]
  simp only [Mut.lift_ok_bind]
  rw [if_neg (by simp)]
  simp only [Mut.modify_bind, Mut.lift_apply]
  unfold Conv.correlate
  simp only [ofFn_shape, get0, get2, get3, Except.bind_ok']
  rw [make_error]
  · rfl
  · rintro ⟨_, hpos⟩
    have h1 := hpos ((h : Int) - kh + 1) (by simp)
    have h2 := hpos ((w : Int) - kw + 1) (by simp)
    omega

end

/-! ### Backward -/

/-- The gradient of the specification with respect to the bias, for every configuration. -/
theorem hasGradient_conv_bias (n oc oh ow C kh kw s q d h w : Nat) (k b x g : List Nat → ℝ) :
    HasGradient [oc, 1] (fun b => total [n, oc, oh, ow] (fun j => g j * conv C kh kw s q d h w k b x j)) b
      (fun idx => ∑ i ∈ Finset.range n, ∑ y ∈ Finset.range oh, ∑ z ∈ Finset.range ow, g [i, idx.getD 0 0, y, z]) := by
  have h1 := hasVJP_gather (ds := [oc, 1]) (es := [n, oc, oh, ow]) [()] (fun _ _ => 1) (fun j _ => [j.getD 1 0, 0])
    (fun j => conv C kh kw s q d h w k (fun _ => 0) x j)
    (fun j hj _ _ => Or.inr (by
      obtain ⟨a, c, y, z, rfl, ha, hc, _⟩ := valid4_iff.1 hj
      exact valid2_iff.2 ⟨c, 0, rfl, hc, Nat.one_pos⟩)) b g
  refine h1.congr ?_ ?_
  · intro b'
    congr 1
    funext j
    congr 1
    simp only [List.map_cons, List.map_nil, List.sum_cons, List.sum_nil, one_mul, add_zero]
    unfold conv
    rw [add_zero, add_comm]
  · intro i hi
    obtain ⟨c, z0, rfl, hc, hz⟩ := valid2_iff.1 hi
    have : z0 = 0 := by omega
    subst this
    simp only [List.map_cons, List.map_nil, List.sum_cons, List.sum_nil, mul_one, add_zero]
    rw [total4]
    refine Finset.sum_congr rfl fun i _ => ?_
    refine ((Finset.sum_eq_single c ?_ ?_).trans ?_).symm
    · intro c' _ hcc
      simp [hcc]
    · intro hn
      exact (hn (Finset.mem_range.2 hc)).elim
    · simp

theorem conv_single_eq (oh ow kh kw h w : Nat) (hh : oh + kh ≤ h + 1) (hw : ow + kw ≤ w + 1) (k b x : List Nat → ℝ)
    {j : List Nat} (hj : ValidIdx [1, 1, oh, ow] j) :
    conv 1 kh kw 1 0 1 h w k b x j = ((indices [kh, kw]).map (fun a =>
      k [0, 0, a.getD 0 0, a.getD 1 0] * x [0, 0, j.getD 2 0 + a.getD 0 0, j.getD 3 0 + a.getD 1 0])).sum + b [0, 0] := by
  obtain ⟨i, c, y, z, rfl, hi, hc, hy, hz⟩ := valid4_iff.1 hj
  have : i = 0 := by omega
  subst this
  have : c = 0 := by omega
  subst this
  rw [sum_indices2]
  unfold conv padded
  simp only [List.getD_cons_zero, List.getD_cons_succ, Finset.range_one, Finset.sum_singleton, mul_one, zero_le, zero_add,
    true_and, Nat.sub_zero]
  congr 1
  refine Finset.sum_congr rfl fun u hu => Finset.sum_congr rfl fun v hv => ?_
  rw [Finset.mem_range] at hu hv
  rw [if_pos ⟨by omega, by omega⟩, mul_comm]

theorem hasVJP_conv_single (ic oh ow kh kw h w : Nat) (hic : 0 < ic) (hh : oh + kh ≤ h + 1) (hw : ow + kw ≤ w + 1) (k b x : List Nat → ℝ) :
    HasVJP [1, ic, h, w] [1, 1, oh, ow] (conv 1 kh kw 1 0 1 h w k b) x (convInputGrad oh ow kh kw k) := by
  intro g
  have h1 := hasVJP_gather (ds := [1, ic, h, w]) (es := [1, 1, oh, ow]) (indices [kh, kw])
    (fun _ a => k [0, 0, a.getD 0 0, a.getD 1 0]) (fun j a => [0, 0, j.getD 2 0 + a.getD 0 0, j.getD 3 0 + a.getD 1 0])
    (fun _ => b [0, 0])
    (fun j hj a ha => Or.inr (by
      obtain ⟨i, c, y, z, rfl, _, _, hy, hz⟩ := valid4_iff.1 hj
      obtain ⟨u, v, rfl, hu, hv⟩ := valid2_iff.1 (mem_indices.1 ha)
      exact valid4_iff.2 ⟨0, 0, y + u, z + v, rfl, by omega, by omega, by omega, by omega⟩)) x g
  refine h1.congr ?_ ?_
  · intro x'
    exact total_congr fun j hj => by rw [conv_single_eq oh ow kh kw h w hh hw k b x' hj]
  · intro i _
    beta_reduce
    rw [total4]
    unfold convInputGrad
    simp only [Finset.range_one, Finset.sum_singleton, sum_indices2, List.getD_cons_zero, List.getD_cons_succ]
    refine Finset.sum_congr rfl fun y _ => Finset.sum_congr rfl fun z _ => Finset.sum_congr rfl fun u _ =>
      Finset.sum_congr rfl fun v _ => ?_
    rw [mul_comm]

theorem extensional_conv_single (ic oh ow kh kw h w : Nat) (hic : 0 < ic) (hh : oh + kh ≤ h + 1) (hw : ow + kw ≤ w + 1) (k b : List Nat → ℝ) :
    Extensional [1, ic, h, w] [1, 1, oh, ow] (conv 1 kh kw 1 0 1 h w k b) := by
  intro x y hxy j hj
  rw [conv_single_eq oh ow kh kw h w hh hw k b x hj, conv_single_eq oh ow kh kw h w hh hw k b y hj]
  congr 2
  refine List.map_congr_left fun a ha => ?_
  obtain ⟨i, c, y, z, rfl, _, _, hy, hz⟩ := valid4_iff.1 hj
  obtain ⟨u, v, rfl, hu, hv⟩ := valid2_iff.1 (mem_indices.1 ha)
  simp only [List.getD_cons_zero, List.getD_cons_succ]
  rw [hxy _ (valid4_iff.2 ⟨0, 0, y + u, z + v, rfl, by omega, by omega, by omega, by omega⟩)]

theorem hasGradient_conv_single_weights (ic oh ow kh kw h w : Nat) (hic : 0 < ic) (hh : oh + kh ≤ h + 1) (hw : ow + kw ≤ w + 1)
    (k b x g : List Nat → ℝ) :
    HasGradient [1, ic, kh, kw] (fun k => total [1, 1, oh, ow] (fun j => g j * conv 1 kh kw 1 0 1 h w k b x j)) k
      (convWeightGrad oh ow x g) := by
  have h1 := hasVJP_gather (ds := [1, ic, kh, kw]) (es := [1, 1, oh, ow]) (indices [kh, kw])
    (fun j a => x [0, 0, j.getD 2 0 + a.getD 0 0, j.getD 3 0 + a.getD 1 0]) (fun _ a => [0, 0, a.getD 0 0, a.getD 1 0])
    (fun _ => b [0, 0])
    (fun j hj a ha => Or.inr (by
      obtain ⟨u, v, rfl, hu, hv⟩ := valid2_iff.1 (mem_indices.1 ha)
      exact valid4_iff.2 ⟨0, 0, u, v, rfl, by omega, by omega, hu, hv⟩)) k g
  refine h1.congr ?_ ?_
  · intro k'
    refine total_congr fun j hj => ?_
    rw [conv_single_eq oh ow kh kw h w hh hw k' b x hj]
    congr 3
    exact List.map_congr_left fun a _ => mul_comm _ _
  · intro i hi
    obtain ⟨a, c, u, v, rfl, ha, hc, hu, hv⟩ := valid4_iff.1 hi
    have : a = 0 := by omega
    subst this
    beta_reduce
    rw [total4]
    unfold convWeightGrad
    by_cases hc0 : c = 0
    · subst hc0
      simp only [Finset.range_one, Finset.sum_singleton, sum_indices2, List.getD_cons_zero, List.getD_cons_succ, and_self,
        if_true, List.cons.injEq, true_and, and_true]
      refine Finset.sum_congr rfl fun y _ => Finset.sum_congr rfl fun z _ => ?_
      rw [Finset.sum_eq_single u]
      · rw [Finset.sum_eq_single v]
        · simp [mul_comm]
        · intro v' _ hv'
          simp [hv']
        · intro hn
          exact (hn (Finset.mem_range.2 hv)).elim
      · intro u' _ hu'
        simp [hu']
      · intro hn
        exact (hn (Finset.mem_range.2 hu)).elim
    · rw [if_neg (by simp [hc0])]
      simp [sum_indices2, Ne.symm hc0]

/-- **C44, proved part.** Batch of one and one output channel, any number of input channels, any configured
stride, padding and dilation: after `forward(x)` and whatever came before it, `backward(g)` returns the
gradient of `∑ g * forward(x)` with respect to `x` and stores its gradients with respect to the kernel and the
bias, where `forward` is the function the layer computes (first conjunct; see C43 for how that differs from
the configured convolution).  Missing for the full property: larger batches and output channel counts, where
it is false (`C44_refuted`). -/
theorem C44_single_partial {ic h w kh kw : Nat} (hd : Dims [1, ic, h, w]) (hdk : Dims [1, ic, kh, kw])
    (hk : kh ≤ h) (hkw : kw ≤ w) (k b x g : List Nat → ℝ) (s q d : Int) (wg bg inp : Option (Tensor ℝ)) :
    ∃ (F : (List Nat → ℝ) → (List Nat → ℝ) → (List Nat → ℝ) → List Nat → ℝ) (rx rk rb : List Nat → ℝ),
      (∀ k b x wg bg inp, (Conv.forward (ofFn [1, ic, h, w] x)
            ⟨ic, 1, kh, kw, s, q, d, ofFn [1, ic, kh, kw] k, ofFn [1, 1] b, inp, wg, bg⟩).1 =
          .ok (ofFn [1, 1, h - kh + 1, w - kw + 1] (F k b x))) ∧
      Conv.backward (ofFn [1, 1, h - kh + 1, w - kw + 1] g)
          (Conv.forward (ofFn [1, ic, h, w] x)
            ⟨ic, 1, kh, kw, s, q, d, ofFn [1, ic, kh, kw] k, ofFn [1, 1] b, inp, wg, bg⟩).2 =
        (.ok (ofFn [1, ic, h, w] rx),
         ⟨ic, 1, kh, kw, s, q, d, ofFn [1, ic, kh, kw] k, ofFn [1, 1] b, some (ofFn [1, ic, h, w] x),
           some (ofFn [1, ic, kh, kw] rk), some (ofFn [1, 1] rb)⟩) ∧
      HasGradient [1, ic, h, w] (fun x => total [1, 1, h - kh + 1, w - kw + 1] (fun j => g j * F k b x j)) x rx ∧
      HasGradient [1, ic, kh, kw] (fun k => total [1, 1, h - kh + 1, w - kw + 1] (fun j => g j * F k b x j)) k rk ∧
      HasGradient [1, 1] (fun b => total [1, 1, h - kh + 1, w - kw + 1] (fun j => g j * F k b x j)) b rb ∧
      (ic = 1 → F = conv 1 kh kw 1 0 1 h w) := by
  have hkp := hdk.pos kh (by simp)
  have hkwp := hdk.pos kw (by simp)
  have hic := hd.pos ic (by simp)
  have ho : 1 * 1 * h * w < 2 ^ 31 := by
    have := hd.lt
    simp only [List.prod_cons, List.prod_nil, one_mul, mul_one] at this
    rw [one_mul, one_mul]
    exact lt_of_le_of_lt (Nat.le_mul_of_pos_left _ hic) this
  have hdb : Dims [1, 1] := ⟨by simp, by simp, by simp⟩
  have hdo : Dims [1, 1, h - kh + 1, w - kw + 1] := dims_conv hd hk hkw ho Nat.one_pos hkp hkwp
  have ht : ∀ x : ℝ, MathFn.toFloat x = x := fun _ => rfl
  rw [conv_forward (n := 1) (oc := 1) ht hd hdk hdb hk hkw ho k b x _ rfl rfl rfl rfl rfl rfl]
  refine ⟨conv 1 kh kw 1 0 1 h w, _, _, _, ?_, conv_backward ht hd hdk hdo (by omega) (by omega) x g k b _ rfl rfl rfl rfl rfl,
    hasVJP_conv_single ic _ _ kh kw h w hic (by omega) (by omega) k b x g,
    hasGradient_conv_single_weights ic _ _ kh kw h w hic (by omega) (by omega) k b x g,
    (hasGradient_conv_bias 1 1 (h - kh + 1) (w - kw + 1) 1 kh kw 1 0 1 h w k b x g).congr (fun _ => rfl) ?_, fun _ => rfl⟩
  · intro k b x wg bg inp
    rw [conv_forward (n := 1) (oc := 1) ht hd hdk hdb hk hkw ho k b x _ rfl rfl rfl rfl rfl rfl]
  intro i hi
  obtain ⟨c, z0, rfl, hc, hz⟩ := valid2_iff.1 hi
  have : z0 = 0 := by omega
  subst this
  have : c = 0 := by omega
  subst this
  simp [convBiasGrad]

/-- **C44 is false as soon as the batch or the number of output channels exceeds one**: for the gradient that is
1 at the last sample and channel and 0 elsewhere, in every such configuration and after any history, the bias
gradient `backward` stores is not the gradient. -/
theorem C44_refuted {n oc ic h w kh kw : Nat} (hbig : 2 ≤ n ∨ 2 ≤ oc) (hd : Dims [n, ic, h, w])
    (hdk : Dims [oc, ic, kh, kw]) (hdb : Dims [oc, 1]) (hk : kh ≤ h) (hkw : kw ≤ w) (ho : n * oc * h * w < 2 ^ 31)
    (k b x : List Nat → ℝ) (wg bg inp : Option (Tensor ℝ)) :
    ∃ g rx rk rb : List Nat → ℝ,
      Conv.backward (ofFn [n, oc, h - kh + 1, w - kw + 1] g)
          (Conv.forward (ofFn [n, ic, h, w] x)
            ⟨ic, oc, kh, kw, 1, 0, 1, ofFn [oc, ic, kh, kw] k, ofFn [oc, 1] b, inp, wg, bg⟩).2 =
        (.ok (ofFn [n, ic, h, w] rx),
         ⟨ic, oc, kh, kw, 1, 0, 1, ofFn [oc, ic, kh, kw] k, ofFn [oc, 1] b, some (ofFn [n, ic, h, w] x),
           some (ofFn [oc, ic, kh, kw] rk), some (ofFn [oc, 1] rb)⟩) ∧
      ¬ HasGradient [oc, 1] (fun b => total [n, oc, h - kh + 1, w - kw + 1]
        (fun j => g j * conv ic kh kw 1 0 1 h w k b x j)) b rb := by
  have hkp := hdk.pos kh (by simp)
  have hkwp := hdk.pos kw (by simp)
  have hn := hd.pos n (by simp)
  have hoc := hdk.pos oc (by simp)
  have ht : ∀ x : ℝ, MathFn.toFloat x = x := fun _ => rfl
  have hdo := dims_conv hd hk hkw ho hoc hkp hkwp
  refine ⟨fun idx => if idx = [n - 1, oc - 1, 0, 0] then 1 else 0, ?_⟩
  rw [conv_forward ht hd hdk hdb hk hkw ho k b x _ rfl rfl rfl rfl rfl rfl]
  refine ⟨_, _, _, conv_backward ht hd hdk hdo (by omega) (by omega) x _ k b _ rfl rfl rfl rfl rfl, ?_⟩
  intro hg
  have h1 := hasGradient_conv_bias n oc (h - kh + 1) (w - kw + 1) ic kh kw 1 0 1 h w k b x
    (fun idx => if idx = [n - 1, oc - 1, 0, 0] then 1 else 0)
  have h2 := hg.unique h1 (valid2_iff.2 ⟨oc - 1, 0, rfl, by omega, Nat.one_pos⟩)
  have h3 : convBiasGrad (h - kh + 1) (w - kw + 1) (fun idx => if idx = [n - 1, oc - 1, 0, 0] then (1 : ℝ) else 0) [oc - 1, 0] = 0 := by
    unfold convBiasGrad
    split
    · apply Finset.sum_eq_zero
      intro y _
      apply Finset.sum_eq_zero
      intro z _
      beta_reduce
      rw [if_neg]
      simp only [List.cons.injEq, not_and]
      omega
    · rfl
  rw [h3] at h2
  simp only [List.getD_cons_zero] at h2
  rw [Finset.sum_eq_single (n - 1) (fun i _ hi => by simp [hi]) (fun hn' => (hn' (Finset.mem_range.2 (by omega))).elim),
    Finset.sum_eq_single 0 (fun y _ hy => by simp [hy]) (fun hn' => (hn' (Finset.mem_range.2 (by omega))).elim),
    Finset.sum_eq_single 0 (fun z _ hz => by simp [hz]) (fun hn' => (hn' (Finset.mem_range.2 (by omega))).elim),
    if_pos rfl] at h2
  exact zero_ne_one h2

/-- Hypotheses of `C44_single_partial` and `C44_refuted` are met. -/
example : Dims [1, 1, 5, 4] ∧ Dims [1, 1, 3, 2] ∧ Dims [2, 3, 5, 4] ∧ Dims [4, 3, 3, 2] ∧ Dims [4, 1] ∧ 2 * 4 * 5 * 4 < 2 ^ 31 :=
  ⟨⟨by simp, by simp, by simp⟩, ⟨by simp, by simp, by simp⟩, ⟨by simp, by simp, by simp⟩, ⟨by simp, by simp, by simp⟩,
    ⟨by simp, by simp, by simp⟩, by norm_num⟩

end SmartDNN
