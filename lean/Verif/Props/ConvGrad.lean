import Verif.Props.Conv

/-!
# What the convolution layer's `backward` computes for every batch and channel count (C44)

For more than one sample or output channel C44 is false.  Here: what is returned and stored instead, for every shape,
and that the input and the kernel gradients are wrong too, not only the bias gradient.
-/

namespace SmartDNN
open Spec

/-- The part of an output gradient that belongs to sample 0 and output channel 0. -/
def Spec.firstOnly (g : List Nat → ℝ) : List Nat → ℝ := fun j => if j.getD 0 0 = 0 ∧ j.getD 1 0 = 0 then g j else 0

theorem conv_one_eq (n oc oh ow kh kw h w : Nat) (hh : oh + kh ≤ h + 1) (hw : ow + kw ≤ w + 1) (k b x : List Nat → ℝ)
    {j : List Nat} (hj : ValidIdx [n, oc, oh, ow] j) :
    conv 1 kh kw 1 0 1 h w k b x j = ((indices [kh, kw]).map (fun a =>
      k [j.getD 1 0, 0, a.getD 0 0, a.getD 1 0] * x [j.getD 0 0, 0, j.getD 2 0 + a.getD 0 0, j.getD 3 0 + a.getD 1 0])).sum +
        b [j.getD 1 0, 0] := by
  obtain ⟨i, c, y, z, rfl, hi, hc, hy, hz⟩ := valid4_iff.1 hj
  rw [sum_indices2]
  unfold conv padded
  simp only [List.getD_cons_zero, List.getD_cons_succ, Finset.range_one, Finset.sum_singleton, mul_one, zero_le, zero_add,
    true_and, Nat.sub_zero]
  congr 1
  refine Finset.sum_congr rfl fun u hu => Finset.sum_congr rfl fun v hv => ?_
  rw [Finset.mem_range] at hu hv
  rw [if_pos ⟨by omega, by omega⟩, mul_comm]

/-- The gradient with respect to the input, for every output gradient. -/
theorem hasVJP_conv_input (n oc ic oh ow kh kw h w : Nat) (hic : 0 < ic) (hh : oh + kh ≤ h + 1) (hw : ow + kw ≤ w + 1)
    (k b x : List Nat → ℝ) :
    HasVJP [n, ic, h, w] [n, oc, oh, ow] (conv 1 kh kw 1 0 1 h w k b) x (fun g idx =>
      ∑ i ∈ Finset.range n, ∑ c ∈ Finset.range oc, ∑ y ∈ Finset.range oh, ∑ z ∈ Finset.range ow,
        ∑ u ∈ Finset.range kh, ∑ v ∈ Finset.range kw,
          if [i, 0, y + u, z + v] = idx then g [i, c, y, z] * k [c, 0, u, v] else 0) := by
  intro g
  have h1 := hasVJP_gather (ds := [n, ic, h, w]) (es := [n, oc, oh, ow]) (indices [kh, kw])
    (fun j a => k [j.getD 1 0, 0, a.getD 0 0, a.getD 1 0])
    (fun j a => [j.getD 0 0, 0, j.getD 2 0 + a.getD 0 0, j.getD 3 0 + a.getD 1 0]) (fun j => b [j.getD 1 0, 0])
    (fun j hj a ha => Or.inr (by
      obtain ⟨i, c, y, z, rfl, hi, _, hy, hz⟩ := valid4_iff.1 hj
      obtain ⟨u, v, rfl, hu, hv⟩ := valid2_iff.1 (mem_indices.1 ha)
      exact valid4_iff.2 ⟨i, 0, y + u, z + v, rfl, hi, by omega, by omega, by omega⟩)) x g
  refine h1.congr ?_ ?_
  · intro x'
    exact total_congr fun j hj => by rw [conv_one_eq n oc oh ow kh kw h w hh hw k b x' hj]
  · intro i _
    beta_reduce
    rw [total4]
    simp only [sum_indices2, List.getD_cons_zero, List.getD_cons_succ]

/-- The gradient with respect to the kernel. -/
theorem hasGradient_conv_kernel (n oc ic oh ow kh kw h w : Nat) (hic : 0 < ic) (hh : oh + kh ≤ h + 1) (hw : ow + kw ≤ w + 1)
    (k b x g : List Nat → ℝ) :
    HasGradient [oc, ic, kh, kw] (fun k => total [n, oc, oh, ow] (fun j => g j * conv 1 kh kw 1 0 1 h w k b x j)) k
      (fun idx => ∑ i ∈ Finset.range n, ∑ c ∈ Finset.range oc, ∑ y ∈ Finset.range oh, ∑ z ∈ Finset.range ow,
        ∑ u ∈ Finset.range kh, ∑ v ∈ Finset.range kw,
          if [c, 0, u, v] = idx then g [i, c, y, z] * x [i, 0, y + u, z + v] else 0) := by
  have h1 := hasVJP_gather (ds := [oc, ic, kh, kw]) (es := [n, oc, oh, ow]) (indices [kh, kw])
    (fun j a => x [j.getD 0 0, 0, j.getD 2 0 + a.getD 0 0, j.getD 3 0 + a.getD 1 0])
    (fun j a => [j.getD 1 0, 0, a.getD 0 0, a.getD 1 0]) (fun j => b [j.getD 1 0, 0])
    (fun j hj a ha => Or.inr (by
      obtain ⟨i, c, y, z, rfl, hi, hc, hy, hz⟩ := valid4_iff.1 hj
      obtain ⟨u, v, rfl, hu, hv⟩ := valid2_iff.1 (mem_indices.1 ha)
      exact valid4_iff.2 ⟨c, 0, u, v, rfl, hc, by omega, hu, hv⟩)) k g
  refine h1.congr ?_ ?_
  · intro k'
    refine total_congr fun j hj => ?_
    rw [conv_one_eq n oc oh ow kh kw h w hh hw k' b x hj]
    congr 3
    exact List.map_congr_left fun a _ => mul_comm _ _
  · intro i _
    beta_reduce
    rw [total4]
    simp only [sum_indices2, List.getD_cons_zero, List.getD_cons_succ]

/-- Sums over samples and channels of something that vanishes except for the first of both. -/
theorem sum_first {n oc : Nat} (hn : 0 < n) (hoc : 0 < oc) (q : Nat → Nat → ℝ) (h : ∀ i c, ¬(i = 0 ∧ c = 0) → q i c = 0) :
    ∑ i ∈ Finset.range n, ∑ c ∈ Finset.range oc, q i c = q 0 0 := by
  rw [Finset.sum_eq_single 0, Finset.sum_eq_single 0]
  · exact fun c _ hc => h 0 c (by simp [hc])
  · exact fun hc => (hc (Finset.mem_range.2 hoc)).elim
  · exact fun i _ hi => Finset.sum_eq_zero fun c _ => h i c (by simp [hi])
  · exact fun hi => (hi (Finset.mem_range.2 hn)).elim

/-- **C44 for every shape, proved part.**  For any batch size, numbers of channels and configuration, after `forward(x)`
and whatever came before it, `backward(g)` returns the input gradient, and stores the kernel and bias gradients, of the part
of `∑ g * forward(x)` that belongs to the first sample and the first output channel.  Missing for the full property: all
other samples and output channels, which do not contribute (`C44_refuted`, `C44_kernel_refuted`, `C44_input_refuted`). -/
theorem C44_first_partial {n oc ic h w kh kw : Nat} (hd : Dims [n, ic, h, w]) (hdk : Dims [oc, ic, kh, kw]) (hdb : Dims [oc, 1])
    (hk : kh ≤ h) (hkw : kw ≤ w) (ho : n * oc * h * w < 2 ^ 31) (k b x g : List Nat → ℝ) (s q d : Int)
    (wg bg inp : Option (Tensor ℝ)) :
    ∃ (F : (List Nat → ℝ) → (List Nat → ℝ) → (List Nat → ℝ) → List Nat → ℝ) (rx rk rb : List Nat → ℝ),
      (∀ k b x wg bg inp, (Conv.forward (ofFn [n, ic, h, w] x)
            ⟨ic, oc, kh, kw, s, q, d, ofFn [oc, ic, kh, kw] k, ofFn [oc, 1] b, inp, wg, bg⟩).1 =
          .ok (ofFn [n, oc, h - kh + 1, w - kw + 1] (F k b x))) ∧
      Conv.backward (ofFn [n, oc, h - kh + 1, w - kw + 1] g)
          (Conv.forward (ofFn [n, ic, h, w] x)
            ⟨ic, oc, kh, kw, s, q, d, ofFn [oc, ic, kh, kw] k, ofFn [oc, 1] b, inp, wg, bg⟩).2 =
        (.ok (ofFn [n, ic, h, w] rx),
         ⟨ic, oc, kh, kw, s, q, d, ofFn [oc, ic, kh, kw] k, ofFn [oc, 1] b, some (ofFn [n, ic, h, w] x),
           some (ofFn [oc, ic, kh, kw] rk), some (ofFn [oc, 1] rb)⟩) ∧
      HasGradient [n, ic, h, w] (fun x => total [n, oc, h - kh + 1, w - kw + 1] (fun j => firstOnly g j * F k b x j)) x rx ∧
      HasGradient [oc, ic, kh, kw] (fun k => total [n, oc, h - kh + 1, w - kw + 1] (fun j => firstOnly g j * F k b x j)) k rk ∧
      HasGradient [oc, 1] (fun b => total [n, oc, h - kh + 1, w - kw + 1] (fun j => firstOnly g j * F k b x j)) b rb := by
  have hkp := hdk.pos kh (by simp)
  have hkwp := hdk.pos kw (by simp)
  have hic := hd.pos ic (by simp)
  have hn := hd.pos n (by simp)
  have hoc := hdk.pos oc (by simp)
  have hdo := dims_conv hd hk hkw ho hoc hkp hkwp
  have ht : ∀ x : ℝ, MathFn.toFloat x = x := fun _ => rfl
  have f0 : ∀ i c y z, ¬(i = 0 ∧ c = 0) → firstOnly g [i, c, y, z] = 0 := fun i c y z hne => if_neg hne
  have f1 : ∀ y z, firstOnly g [0, 0, y, z] = g [0, 0, y, z] := fun y z => if_pos ⟨rfl, rfl⟩
  rw [conv_forward ht hd hdk hdb hk hkw ho k b x _ rfl rfl rfl rfl rfl rfl]
  refine ⟨conv 1 kh kw 1 0 1 h w, _, _, _, ?_, conv_backward ht hd hdk hdo (by omega) (by omega) x g k b _ rfl rfl rfl rfl rfl,
    (hasVJP_conv_input n oc ic _ _ kh kw h w hic (by omega) (by omega) k b x (firstOnly g)).congr (fun _ => rfl) ?_,
    (hasGradient_conv_kernel n oc ic _ _ kh kw h w hic (by omega) (by omega) k b x (firstOnly g)).congr (fun _ => rfl) ?_,
    (hasGradient_conv_bias n oc (h - kh + 1) (w - kw + 1) 1 kh kw 1 0 1 h w k b x (firstOnly g)).congr (fun _ => rfl) ?_⟩
  · intro k b x wg bg inp
    rw [conv_forward ht hd hdk hdb hk hkw ho k b x _ rfl rfl rfl rfl rfl rfl]
  · intro i _
    beta_reduce
    rw [sum_first hn hoc]
    · unfold convInputGrad
      simp only [f1, mul_comm]
    · intro a c hac
      simp only [f0 a c _ _ hac, zero_mul, ite_self, Finset.sum_const_zero]
  · intro i hi
    obtain ⟨a, c, u, v, rfl, ha, hc, hu, hv⟩ := valid4_iff.1 hi
    rw [sum_first hn hoc]
    · unfold convWeightGrad
      by_cases hac : a = 0 ∧ c = 0
      · obtain ⟨rfl, rfl⟩ := hac
        simp only [List.getD_cons_zero, List.getD_cons_succ, and_self, if_true, List.cons.injEq, true_and, and_true, f1]
        refine Finset.sum_congr rfl fun y _ => Finset.sum_congr rfl fun z _ => ?_
        rw [Finset.sum_eq_single u]
        · rw [Finset.sum_eq_single v]
          · simp [mul_comm]
          · intro v' _ hv'
            simp [hv']
          · intro hn
            exact (hn (Finset.mem_range.2 hv)).elim
        · intro u' _ hu'
          simp [hu']
        · intro hn
          exact (hn (Finset.mem_range.2 hu)).elim
      · simp only [List.getD_cons_zero, List.getD_cons_succ]
        rw [if_neg hac]
        symm
        refine Finset.sum_eq_zero fun y _ => Finset.sum_eq_zero fun z _ => Finset.sum_eq_zero fun u' _ =>
          Finset.sum_eq_zero fun v' _ => ?_
        rw [if_neg]
        simp only [List.cons.injEq, not_and]
        intro h1 h2
        exact (hac ⟨h1.symm, h2.symm⟩).elim
    · intro a c hac
      simp only [f0 a c _ _ hac, zero_mul, ite_self, Finset.sum_const_zero]
  · intro i hi
    obtain ⟨c, z0, rfl, hc, hz⟩ := valid2_iff.1 hi
    have : z0 = 0 := by omega
    subst this
    unfold convBiasGrad
    simp only [List.getD_cons_zero]
    symm
    by_cases hc0 : c = 0
    · subst hc0
      rw [if_pos rfl, Finset.sum_eq_single (s := Finset.range n) 0]
      · simp only [f1]
      · intro i _ hi0
        simp only [f0 i 0 _ _ (by simp [hi0]), Finset.sum_const_zero]
      · exact fun hi => (hi (Finset.mem_range.2 hn)).elim
    · rw [if_neg (by simp [hc0])]
      simp only [f0 _ c _ _ (by simp [hc0]), Finset.sum_const_zero]

/-- The last sample and output channel. -/
def Spec.lastOne (n oc : Nat) : List Nat → ℝ := fun idx => if idx = [n - 1, oc - 1, 0, 0] then 1 else 0

theorem lastOne_first {n oc : Nat} (hbig : 2 ≤ n ∨ 2 ≤ oc) (y z : Nat) : lastOne n oc [0, 0, y, z] = 0 := by
  unfold lastOne
  rw [if_neg]
  simp only [List.cons.injEq, not_and]
  omega

theorem sum_lastOne {n oc oh ow : Nat} (hn : 0 < n) (hoc : 0 < oc) (hoh : 0 < oh) (how : 0 < ow) (q : Nat → Nat → Nat → Nat → ℝ)
    (hq : ∀ i c y z, ¬(i = n - 1 ∧ c = oc - 1 ∧ y = 0 ∧ z = 0) → q i c y z = 0) :
    ∑ i ∈ Finset.range n, ∑ c ∈ Finset.range oc, ∑ y ∈ Finset.range oh, ∑ z ∈ Finset.range ow, q i c y z =
      q (n - 1) (oc - 1) 0 0 := by
  rw [Finset.sum_eq_single (n - 1), Finset.sum_eq_single (oc - 1), Finset.sum_eq_single 0, Finset.sum_eq_single 0]
  · exact fun z _ hz => hq _ _ _ _ (by simp [hz])
  · exact fun hz => (hz (Finset.mem_range.2 how)).elim
  · exact fun y _ hy => Finset.sum_eq_zero fun z _ => hq _ _ _ _ (by simp [hy])
  · exact fun hz => (hz (Finset.mem_range.2 hoh)).elim
  · exact fun c _ hc => Finset.sum_eq_zero fun y _ => Finset.sum_eq_zero fun z _ => hq _ _ _ _ (by simp [hc])
  · exact fun hz => (hz (Finset.mem_range.2 (by omega))).elim
  · exact fun i _ hi => Finset.sum_eq_zero fun c _ => Finset.sum_eq_zero fun y _ => Finset.sum_eq_zero fun z _ =>
      hq _ _ _ _ (by simp [hi])
  · exact fun hz => (hz (Finset.mem_range.2 (by omega))).elim

/-- **C44 is false for the kernel gradient** as soon as the batch or the number of output channels exceeds one, also with
respect to the function `forward` really computes: every input that is not zero in its last sample's first value is a
counterexample, whatever the kernel, the bias and the history. -/
theorem C44_kernel_refuted {n oc ic h w kh kw : Nat} (hbig : 2 ≤ n ∨ 2 ≤ oc) (hd : Dims [n, ic, h, w])
    (hdk : Dims [oc, ic, kh, kw]) (hdb : Dims [oc, 1]) (hk : kh ≤ h) (hkw : kw ≤ w) (ho : n * oc * h * w < 2 ^ 31)
    (k b x : List Nat → ℝ) (hx : x [n - 1, 0, 0, 0] ≠ 0) (s q d : Int) (wg bg inp : Option (Tensor ℝ)) :
    ∃ (F : (List Nat → ℝ) → List Nat → ℝ) (g rx rk rb : List Nat → ℝ),
      (∀ k, (Conv.forward (ofFn [n, ic, h, w] x)
            ⟨ic, oc, kh, kw, s, q, d, ofFn [oc, ic, kh, kw] k, ofFn [oc, 1] b, inp, wg, bg⟩).1 =
          .ok (ofFn [n, oc, h - kh + 1, w - kw + 1] (F k))) ∧
      Conv.backward (ofFn [n, oc, h - kh + 1, w - kw + 1] g)
          (Conv.forward (ofFn [n, ic, h, w] x)
            ⟨ic, oc, kh, kw, s, q, d, ofFn [oc, ic, kh, kw] k, ofFn [oc, 1] b, inp, wg, bg⟩).2 =
        (.ok (ofFn [n, ic, h, w] rx),
         ⟨ic, oc, kh, kw, s, q, d, ofFn [oc, ic, kh, kw] k, ofFn [oc, 1] b, some (ofFn [n, ic, h, w] x),
           some (ofFn [oc, ic, kh, kw] rk), some (ofFn [oc, 1] rb)⟩) ∧
      ¬ HasGradient [oc, ic, kh, kw] (fun k => total [n, oc, h - kh + 1, w - kw + 1] (fun j => g j * F k j)) k rk := by
  have hkp := hdk.pos kh (by simp)
  have hkwp := hdk.pos kw (by simp)
  have hic := hd.pos ic (by simp)
  have hn := hd.pos n (by simp)
  have hoc := hdk.pos oc (by simp)
  have ht : ∀ x : ℝ, MathFn.toFloat x = x := fun _ => rfl
  have hdo := dims_conv hd hk hkw ho hoc hkp hkwp
  refine ⟨fun k => conv 1 kh kw 1 0 1 h w k b x, lastOne n oc, ?_⟩
  rw [conv_forward ht hd hdk hdb hk hkw ho k b x _ rfl rfl rfl rfl rfl rfl]
  refine ⟨_, _, _, ?_, conv_backward ht hd hdk hdo (by omega) (by omega) x _ k b _ rfl rfl rfl rfl rfl, ?_⟩
  · intro k
    rw [conv_forward ht hd hdk hdb hk hkw ho k b x _ rfl rfl rfl rfl rfl rfl]
  intro hg
  have h1 := hasGradient_conv_kernel n oc ic (h - kh + 1) (w - kw + 1) kh kw h w hic (by omega) (by omega) k b x (lastOne n oc)
  have h2 := hg.unique h1 (valid4_iff.2 ⟨oc - 1, 0, 0, 0, rfl, by omega, hic, hkp, hkwp⟩)
  have h3 : convWeightGrad (h - kh + 1) (w - kw + 1) x (lastOne n oc) [oc - 1, 0, 0, 0] = 0 := by
    unfold convWeightGrad
    split
    · simp only [lastOne_first hbig, mul_zero, Finset.sum_const_zero]
    · rfl
  rw [h3, sum_lastOne hn hoc (by omega) (by omega)] at h2
  · apply hx
    rw [Finset.sum_eq_single 0, Finset.sum_eq_single 0] at h2
    · simpa [lastOne] using h2.symm
    · exact fun v _ hv => if_neg (by simp [hv])
    · exact fun hz => (hz (Finset.mem_range.2 hkwp)).elim
    · exact fun u _ hu => Finset.sum_eq_zero fun v _ => if_neg (by simp [hu])
    · exact fun hz => (hz (Finset.mem_range.2 hkp)).elim
  · intro i c y z hne
    have : lastOne n oc [i, c, y, z] = 0 := by
      unfold lastOne
      rw [if_neg]
      simpa using hne
    simp only [this, zero_mul, ite_self, Finset.sum_const_zero]

/-- **C44 is false for the input gradient** too, for every kernel whose last output channel's first value is not zero. -/
theorem C44_input_refuted {n oc ic h w kh kw : Nat} (hbig : 2 ≤ n ∨ 2 ≤ oc) (hd : Dims [n, ic, h, w])
    (hdk : Dims [oc, ic, kh, kw]) (hdb : Dims [oc, 1]) (hk : kh ≤ h) (hkw : kw ≤ w) (ho : n * oc * h * w < 2 ^ 31)
    (k b x : List Nat → ℝ) (hk0 : k [oc - 1, 0, 0, 0] ≠ 0) (s q d : Int) (wg bg inp : Option (Tensor ℝ)) :
    ∃ (F : (List Nat → ℝ) → List Nat → ℝ) (g rx rk rb : List Nat → ℝ),
      (∀ x, (Conv.forward (ofFn [n, ic, h, w] x)
            ⟨ic, oc, kh, kw, s, q, d, ofFn [oc, ic, kh, kw] k, ofFn [oc, 1] b, inp, wg, bg⟩).1 =
          .ok (ofFn [n, oc, h - kh + 1, w - kw + 1] (F x))) ∧
      Conv.backward (ofFn [n, oc, h - kh + 1, w - kw + 1] g)
          (Conv.forward (ofFn [n, ic, h, w] x)
            ⟨ic, oc, kh, kw, s, q, d, ofFn [oc, ic, kh, kw] k, ofFn [oc, 1] b, inp, wg, bg⟩).2 =
        (.ok (ofFn [n, ic, h, w] rx),
         ⟨ic, oc, kh, kw, s, q, d, ofFn [oc, ic, kh, kw] k, ofFn [oc, 1] b, some (ofFn [n, ic, h, w] x),
           some (ofFn [oc, ic, kh, kw] rk), some (ofFn [oc, 1] rb)⟩) ∧
      ¬ HasGradient [n, ic, h, w] (fun x => total [n, oc, h - kh + 1, w - kw + 1] (fun j => g j * F x j)) x rx := by
  have hkp := hdk.pos kh (by simp)
  have hkwp := hdk.pos kw (by simp)
  have hic := hd.pos ic (by simp)
  have hn := hd.pos n (by simp)
  have hoc := hdk.pos oc (by simp)
  have ht : ∀ x : ℝ, MathFn.toFloat x = x := fun _ => rfl
  have hdo := dims_conv hd hk hkw ho hoc hkp hkwp
  refine ⟨fun x => conv 1 kh kw 1 0 1 h w k b x, lastOne n oc, ?_⟩
  rw [conv_forward ht hd hdk hdb hk hkw ho k b x _ rfl rfl rfl rfl rfl rfl]
  refine ⟨_, _, _, ?_, conv_backward ht hd hdk hdo (by omega) (by omega) x _ k b _ rfl rfl rfl rfl rfl, ?_⟩
  · intro x
    rw [conv_forward ht hd hdk hdb hk hkw ho k b x _ rfl rfl rfl rfl rfl rfl]
  intro hg
  have h1 := hasVJP_conv_input n oc ic (h - kh + 1) (w - kw + 1) kh kw h w hic (by omega) (by omega) k b x (lastOne n oc)
  have h2 := hg.unique h1 (valid4_iff.2 ⟨n - 1, 0, 0, 0, rfl, by omega, hic, by omega, by omega⟩)
  have h3 : convInputGrad (h - kh + 1) (w - kw + 1) kh kw k (lastOne n oc) [n - 1, 0, 0, 0] = 0 := by
    unfold convInputGrad
    simp only [lastOne_first hbig, mul_zero, ite_self, Finset.sum_const_zero]
  rw [h3] at h2
  beta_reduce at h2
  rw [sum_lastOne hn hoc (by omega) (by omega)] at h2
  · apply hk0
    rw [Finset.sum_eq_single 0, Finset.sum_eq_single 0] at h2
    · simpa [lastOne] using h2.symm
    · exact fun v _ hv => if_neg (by simp [hv])
    · exact fun hz => (hz (Finset.mem_range.2 hkwp)).elim
    · exact fun u _ hu => Finset.sum_eq_zero fun v _ => if_neg (by simp [hu])
    · exact fun hz => (hz (Finset.mem_range.2 hkp)).elim
  · intro i c y z hne
    have : lastOne n oc [i, c, y, z] = 0 := by
      unfold lastOne
      rw [if_neg]
      simpa using hne
    simp only [this, zero_mul, ite_self, Finset.sum_const_zero]

/-- Two samples, three input and four output channels meet the hypotheses. -/
example : (2 ≤ 2 ∨ 2 ≤ 4) ∧ Dims [2, 3, 5, 4] ∧ Dims [4, 3, 3, 2] ∧ Dims [4, 1] ∧ 3 ≤ 5 ∧ 2 ≤ 4 ∧ 2 * 4 * 5 * 4 < 2 ^ 31 ∧
    (fun _ : List Nat => (1 : ℝ)) [2 - 1, 0, 0, 0] ≠ 0 :=
  ⟨by omega, ⟨by simp, by simp, by simp⟩, ⟨by simp, by simp, by simp⟩, ⟨by simp, by simp, by simp⟩, by omega, by omega,
    by norm_num, by norm_num⟩

end SmartDNN
