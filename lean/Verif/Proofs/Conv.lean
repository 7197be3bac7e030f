import Verif.Proofs.MaxPool

/-!
# Lemmas about the convolution layer
-/

namespace SmartDNN
open Spec

section
variable {T : Type}

theorem sum_indices_cons [AddCommMonoid T] (d : Nat) (ds : List Nat) (q : List Nat → T) :
    ((indices (d :: ds)).map q).sum = ∑ a ∈ Finset.range d, ((indices ds).map (fun rest => q (a :: rest))).sum := by
  rw [← List.toFinset_range, List.sum_toFinset _ List.nodup_range]
  simp only [indices]
  induction List.range d with
  | nil => simp
  | cons b l ih =>
    simp only [List.flatMap_cons, List.map_append, List.sum_append, List.map_cons, List.sum_cons, ih,
      List.map_map, Function.comp_def]

theorem sum_indices2 [AddCommMonoid T] (a b : Nat) (q : List Nat → T) :
    ((indices [a, b]).map q).sum = ∑ i ∈ Finset.range a, ∑ j ∈ Finset.range b, q [i, j] := by
  simp only [sum_indices_cons]
  simp [indices]

theorem sum_indices4 [AddCommMonoid T] (a b c d : Nat) (q : List Nat → T) :
    ((indices [a, b, c, d]).map q).sum = ∑ i ∈ Finset.range a, ∑ j ∈ Finset.range b, ∑ k ∈ Finset.range c,
      ∑ l ∈ Finset.range d, q [i, j, k, l] := by
  simp only [sum_indices_cons]
  simp [indices]

theorem ints2 (i j : Nat) : ints [i, j] = [(i : Int), (j : Int)] := rfl

theorem dims_conv {n oc ic h w kh kw : Nat} (hd : Dims [n, ic, h, w]) (hk : kh ≤ h) (hkw : kw ≤ w)
    (ho : n * oc * h * w < 2 ^ 31) (hoc : 0 < oc) (hkp : 0 < kh) (hkwp : 0 < kw) :
    Dims [n, oc, h - kh + 1, w - kw + 1] := by
  have hn := hd.pos n (by simp)
  refine ⟨by simp, ?_, lt_of_le_of_lt ?_ ho⟩
  · intro d hd'
    simp only [List.mem_cons, List.not_mem_nil, or_false] at hd'
    rcases hd' with rfl | rfl | rfl | rfl <;> omega
  · simp only [List.prod_cons, List.prod_nil, mul_one]
    rw [mul_assoc (n * oc), mul_assoc n]
    exact Nat.mul_le_mul_left _ (Nat.mul_le_mul_left _ (Nat.mul_le_mul (by omega) (by omega)))

/-- What `forward` computes, in the code's order of evaluation: only channel 0, stride 1, padding 0, dilation 1. -/
theorem conv_correlate_raw [Zero T] [Add T] [Mul T] [MathFn T] {n oc ic h w kh kw : Nat} (ht : ∀ x : T, MathFn.toFloat x = x)
    (hd : Dims [n, ic, h, w]) (hdk : Dims [oc, ic, kh, kw]) (hdb : Dims [oc, 1])
    (hk : kh ≤ h) (hkw : kw ≤ w) (ho : n * oc * h * w < 2 ^ 31) (k b x : List Nat → T) (l : Conv T)
    (h1 : l.outputChannels = oc) (h2 : l.kernelHeight = kh) (h3 : l.kernelWidth = kw)
    (h4 : l.weights = ofFn [oc, ic, kh, kw] k) (h5 : l.biases = ofFn [oc, 1] b) :
    l.correlate (ofFn [n, ic, h, w] x) = .ok (ofFn [n, oc, h - kh + 1, w - kw + 1] (fun idx =>
      lsum ((indices [kh, kw]).map (fun a => x [idx.getD 0 0, 0, idx.getD 2 0 + a.getD 0 0, idx.getD 3 0 + a.getD 1 0] *
        k [idx.getD 1 0, 0, a.getD 0 0, a.getD 1 0])) + b [idx.getD 1 0, 0])) := by
  have hic := hd.pos ic (by simp)
  have hoc := hdk.pos oc (by simp)
  have hdo := dims_conv hd hk hkw ho hoc (hdk.pos kh (by simp)) (hdk.pos kw (by simp))
  unfold Conv.correlate
  simp only [ofFn_shape, get0, get2, get3, Except.bind_ok', h1, h2, h3]
  have e1 : (h : Int) - (kh : Int) + 1 = ((h - kh + 1 : Nat) : Int) := by omega
  have e2 : (w : Int) - (kw : Int) + 1 = ((w - kw + 1 : Nat) : Int) := by omega
  rw [e1, e2, ← ints4, make_dims hdo]
  simp only [Except.bind_ok', forI_nat, zeros_shapeOf]
  refine (forN_indices4 _ _ _ _ _ _).trans ?_
  apply foldlM_fill
  intro idx hv g
  obtain ⟨i, j, y, z, rfl, hi, hj, hy, hz⟩ := valid4_iff.1 hv
  simp only [List.getD_cons_zero, List.getD_cons_succ]
  have hsum : forN kh (0 : T) (fun u s => forN kw s (fun v s => do
      let xv ← (ofFn [n, ic, h, w] x).at_ [(i : Int), 0, (y : Int) + (u : Int), (z : Int) + (v : Int)]
      let wv ← l.weights.at_ [(j : Int), 0, (u : Int), (v : Int)]
      return MathFn.toFloat (s + xv * wv))) =
      .ok (lsum ((indices [kh, kw]).map (fun a => x [i, 0, y + a.getD 0 0, z + a.getD 1 0] * k [j, 0, a.getD 0 0, a.getD 1 0]))) := by
    refine (forN_indices2 _ _ _ _).trans ?_
    refine (foldlM_inv (mk := fun s : T => s)
      (step := fun s a => s + x [i, 0, y + a.getD 0 0, z + a.getD 1 0] * k [j, 0, a.getD 0 0, a.getD 1 0]) 0 ?_).trans ?_
    · intro a ha s
      obtain ⟨u, v, rfl, hu, hv'⟩ := valid2_iff.1 (mem_indices.1 ha)
      simp only [List.getD_cons_zero, List.getD_cons_succ]
      have a1 := at_ofFn hd x (valid4_iff.2 ⟨i, 0, y + u, z + v, rfl, hi, hic, by omega, by omega⟩)
      have a2 := at_ofFn hdk k (valid4_iff.2 ⟨j, 0, u, v, rfl, hj, hic, hu, hv'⟩)
      rw [ints4] at a1 a2
      push_cast at a1 a2
      rw [a1, h4, a2]
      simp only [Except.bind_ok', Except.pure_eq', ht]
    · rw [lsum, List.foldl_map]
  rw [hsum]
  simp only [Except.bind_ok']
  have a3 := at_ofFn hdb b (valid2_iff.2 ⟨j, 0, rfl, hj, Nat.one_pos⟩)
  rw [ints2] at a3
  push_cast at a3
  rw [h5, a3]
  simp only [Except.bind_ok', ht]
  rw [← ints4, setAt_ofFn hdo g hv]

variable [CommSemiring T] [MathFn T]

/-- What `forward` computes, for every stride, padding and dilation: only channel 0, stride 1, padding 0,
dilation 1. -/
theorem conv_correlate {n oc ic h w kh kw : Nat} (ht : ∀ x : T, MathFn.toFloat x = x)
    (hd : Dims [n, ic, h, w]) (hdk : Dims [oc, ic, kh, kw]) (hdb : Dims [oc, 1])
    (hk : kh ≤ h) (hkw : kw ≤ w) (ho : n * oc * h * w < 2 ^ 31) (k b x : List Nat → T) (l : Conv T)
    (h1 : l.outputChannels = oc) (h2 : l.kernelHeight = kh) (h3 : l.kernelWidth = kw)
    (h4 : l.weights = ofFn [oc, ic, kh, kw] k) (h5 : l.biases = ofFn [oc, 1] b) :
    l.correlate (ofFn [n, ic, h, w] x) = .ok (ofFn [n, oc, h - kh + 1, w - kw + 1] (conv 1 kh kw 1 0 1 h w k b x)) := by
  have hoc := hdk.pos oc (by simp)
  rw [conv_correlate_raw ht hd hdk hdb hk hkw ho k b x l h1 h2 h3 h4 h5]
  refine congrArg Except.ok (ofFn_congr fun idx hv => ?_)
  obtain ⟨i, j, y, z, rfl, hi, hj, hy, hz⟩ := valid4_iff.1 hv
  rw [lsum_eq_sum, sum_indices2]
  unfold conv padded
  simp only [List.getD_cons_zero, List.getD_cons_succ, Finset.range_one, Finset.sum_singleton, mul_one, zero_le, zero_add,
    true_and, Nat.sub_zero]
  congr 1
  apply Finset.sum_congr rfl
  intro u hu
  apply Finset.sum_congr rfl
  intro v hv'
  rw [Finset.mem_range] at hu hv'
  rw [if_pos ⟨by omega, by omega⟩]

theorem conv_forward {n oc ic h w kh kw : Nat} (ht : ∀ x : T, MathFn.toFloat x = x)
    (hd : Dims [n, ic, h, w]) (hdk : Dims [oc, ic, kh, kw]) (hdb : Dims [oc, 1])
    (hk : kh ≤ h) (hkw : kw ≤ w) (ho : n * oc * h * w < 2 ^ 31) (k b x : List Nat → T) (l : Conv T)
    (h0 : l.inputChannels = ic) (h1 : l.outputChannels = oc) (h2 : l.kernelHeight = kh) (h3 : l.kernelWidth = kw)
    (h4 : l.weights = ofFn [oc, ic, kh, kw] k) (h5 : l.biases = ofFn [oc, 1] b) :
    Conv.forward (ofFn [n, ic, h, w] x) l =
      (.ok (ofFn [n, oc, h - kh + 1, w - kw + 1] (conv 1 kh kw 1 0 1 h w k b x)),
       { l with input := some (ofFn [n, ic, h, w] x) }) := by
  unfold Conv.forward
  simp only [Mut.get_bind]
  rw [if_neg (by simp)]
  rw [show (ofFn [n, ic, h, w] x).shape.get 1 = .ok (ic : Int) from rfl]
  simp only [Mut.lift_ok_bind]
  rw [if_neg (by simp [h0])]
  simp only [Mut.modify_bind, Mut.lift_apply]
  rw [conv_correlate ht hd hdk hdb hk hkw ho k b x l h1 h2 h3 h4 h5]

end

/-! ### Backward -/

section
variable {T : Type} [CommSemiring T] [MathFn T]

/-- Bias gradient the code computes: the sum of the gradient plane of sample 0, channel 0, in entry 0. -/
def convBiasGrad (oh ow : Nat) (g : List Nat → T) : List Nat → T := fun idx =>
  if idx = [0, 0] then ∑ y ∈ Finset.range oh, ∑ z ∈ Finset.range ow, g [0, 0, y, z] else 0

/-- Kernel gradient the code computes: only for output channel 0 and input channel 0, from sample 0. -/
def convWeightGrad (oh ow : Nat) (x g : List Nat → T) : List Nat → T := fun idx =>
  if idx.getD 0 0 = 0 ∧ idx.getD 1 0 = 0 then
    ∑ y ∈ Finset.range oh, ∑ z ∈ Finset.range ow, x [0, 0, y + idx.getD 2 0, z + idx.getD 3 0] * g [0, 0, y, z]
  else 0

/-- Input gradient the code computes: only for sample 0 and channel 0. -/
def convInputGrad (oh ow kh kw : Nat) (k g : List Nat → T) : List Nat → T := fun idx =>
  ∑ y ∈ Finset.range oh, ∑ z ∈ Finset.range ow, ∑ u ∈ Finset.range kh, ∑ v ∈ Finset.range kw,
    if [0, 0, y + u, z + v] = idx then k [0, 0, u, v] * g [0, 0, y, z] else 0

theorem conv_biasGrad {n oc oh ow : Nat} (hdo : Dims [n, oc, oh, ow]) (g : List Nat → T) (l : Conv T) (b : List Nat → T)
    (h5 : l.biases = ofFn [oc, 1] b) :
    l.biasGrad (ofFn [n, oc, oh, ow] g) = .ok (ofFn [oc, 1] (convBiasGrad oh ow g)) := by
  have hn := hdo.pos n (by simp)
  have hoc := hdo.pos oc (by simp)
  unfold Conv.biasGrad
  simp only [ofFn_shape, get2, get3, Except.bind_ok', forI_nat, h5, zeros_shapeOf]
  refine (forN_indices2 _ _ _ _).trans ?_
  have hv0 : ValidIdx [oc, 1] [0, 0] := valid2_iff.2 ⟨0, 0, rfl, hoc, Nat.one_pos⟩
  refine (foldlM_inv (mk := fun q => ofFn [oc, 1] q)
    (step := fun q a => upd q [0, 0] (q [0, 0] + g [0, 0, a.getD 0 0, a.getD 1 0])) (fun _ => 0) ?_).trans ?_
  · intro a ha q
    obtain ⟨y, z, rfl, hy, hz⟩ := valid2_iff.1 (mem_indices.1 ha)
    simp only [List.getD_cons_zero, List.getD_cons_succ]
    have a1 := at_ofFn hdo g (valid4_iff.2 ⟨0, 0, y, z, rfl, hn, hoc, hy, hz⟩)
    rw [ints4] at a1
    push_cast at a1
    rw [a1]
    have a2 := get_ofFn q hv0
    have a3 := setFlat_ofFn q hv0 (q [0, 0] + g [0, 0, y, z])
    rw [ravel2] at a2 a3
    simp only [zero_mul, zero_add, Nat.cast_zero] at a2 a3
    simp only [Except.bind_ok', a2, a3]
  · congr 1
    apply ofFn_congr
    intro idx _
    rw [foldl_upd_acc (v := fun s (a : List Nat) => s + g [0, 0, a.getD 0 0, a.getD 1 0]) (p := fun _ : List Nat => [0, 0]), foldl_add_sum, zero_add]
    unfold convBiasGrad
    by_cases h : idx = [0, 0]
    · subst h
      simp only [decide_true, List.filter_true, if_true, sum_indices2, List.getD_cons_zero, List.getD_cons_succ]
    · rw [if_neg h]
      simp only [Ne.symm h, decide_false, List.filter_false]
      rfl

theorem conv_weightGrad {n oc ic h w kh kw oh ow : Nat} (ht : ∀ x : T, MathFn.toFloat x = x)
    (hd : Dims [n, ic, h, w]) (hdk : Dims [oc, ic, kh, kw]) (hdo : Dims [n, oc, oh, ow])
    (hh : oh + kh ≤ h + 1) (hw : ow + kw ≤ w + 1) (x g k : List Nat → T) (l : Conv T)
    (h2 : l.kernelHeight = kh) (h3 : l.kernelWidth = kw) (h4 : l.weights = ofFn [oc, ic, kh, kw] k) :
    l.weightGrad (ofFn [n, ic, h, w] x) (ofFn [n, oc, oh, ow] g) =
      .ok (ofFn [oc, ic, kh, kw] (convWeightGrad oh ow x g)) := by
  have hn := hdo.pos n (by simp)
  have hoc := hdo.pos oc (by simp)
  have hic := hd.pos ic (by simp)
  unfold Conv.weightGrad
  simp only [ofFn_shape, get2, get3, Except.bind_ok', forI_nat, h2, h3, h4, zeros_shapeOf]
  refine (forN_indices2 _ _ _ _).trans ?_
  refine (foldlM_inv (mk := fun q => ofFn [oc, ic, kh, kw] q)
    (step := fun q a => upd q [0, 0, a.getD 0 0, a.getD 1 0] (convWeightGrad oh ow x g [0, 0, a.getD 0 0, a.getD 1 0]))
    (fun _ => 0) ?_).trans ?_
  · intro a ha q
    obtain ⟨u, v, rfl, hu, hv⟩ := valid2_iff.1 (mem_indices.1 ha)
    simp only [List.getD_cons_zero, List.getD_cons_succ]
    have hsum : forN oh (0 : T) (fun y s => forN ow s (fun z s => do
        let xv ← (ofFn [n, ic, h, w] x).at_ [0, 0, (y : Int) + (u : Int), (z : Int) + (v : Int)]
        let gv ← (ofFn [n, oc, oh, ow] g).at_ [0, 0, (y : Int), (z : Int)]
        return MathFn.toFloat (s + xv * gv))) = .ok (convWeightGrad oh ow x g [0, 0, u, v]) := by
      refine (forN_indices2 _ _ _ _).trans ?_
      refine (foldlM_inv (mk := fun s : T => s)
        (step := fun s a => s + x [0, 0, a.getD 0 0 + u, a.getD 1 0 + v] * g [0, 0, a.getD 0 0, a.getD 1 0]) 0 ?_).trans ?_
      · intro a ha s
        obtain ⟨y, z, rfl, hy, hz⟩ := valid2_iff.1 (mem_indices.1 ha)
        simp only [List.getD_cons_zero, List.getD_cons_succ]
        have a1 := at_ofFn hd x (valid4_iff.2 ⟨0, 0, y + u, z + v, rfl, hn, hic, by omega, by omega⟩)
        have a2 := at_ofFn hdo g (valid4_iff.2 ⟨0, 0, y, z, rfl, hn, hoc, hy, hz⟩)
        rw [ints4] at a1 a2
        push_cast at a1 a2
        rw [a1, a2]
        simp only [Except.bind_ok', Except.pure_eq', ht]
      · rw [foldl_add_sum, sum_indices2, zero_add]
        simp only [convWeightGrad, List.getD_cons_zero, List.getD_cons_succ, and_self, if_true]
    rw [hsum]
    simp only [Except.bind_ok']
    have a3 := setAt_ofFn hdk q (valid4_iff.2 ⟨0, 0, u, v, rfl, hoc, hic, hu, hv⟩) (convWeightGrad oh ow x g [0, 0, u, v])
    rw [ints4] at a3
    push_cast at a3
    exact a3
  · congr 1
    apply ofFn_congr
    intro idx hv
    obtain ⟨a, b, u, v, rfl, ha, hb, hu, hv2⟩ := valid4_iff.1 hv
    rw [foldl_upd_eq (p := fun a : List Nat => [0, 0, a.getD 0 0, a.getD 1 0]) (w := convWeightGrad oh ow x g)]
    by_cases h0 : a = 0 ∧ b = 0
    · obtain ⟨rfl, rfl⟩ := h0
      rw [if_pos]
      exact List.mem_map.2 ⟨[u, v], mem_indices.2 (valid2_iff.2 ⟨u, v, rfl, hu, hv2⟩), rfl⟩
    · rw [if_neg]
      · unfold convWeightGrad
        rw [if_neg (by simpa using h0)]
      · intro hm
        obtain ⟨q, _, he⟩ := List.mem_map.1 hm
        simp only [List.cons.injEq] at he
        exact h0 ⟨he.1.symm, he.2.1.symm⟩

theorem conv_inputGrad {n oc ic h w kh kw oh ow : Nat}
    (hd : Dims [n, ic, h, w]) (hdk : Dims [oc, ic, kh, kw]) (hdo : Dims [n, oc, oh, ow])
    (hh : oh + kh ≤ h + 1) (hw : ow + kw ≤ w + 1) (x g k : List Nat → T) (l : Conv T)
    (h2 : l.kernelHeight = kh) (h3 : l.kernelWidth = kw) (h4 : l.weights = ofFn [oc, ic, kh, kw] k) :
    l.inputGrad (ofFn [n, ic, h, w] x) (ofFn [n, oc, oh, ow] g) =
      .ok (ofFn [n, ic, h, w] (convInputGrad oh ow kh kw k g)) := by
  have hn := hdo.pos n (by simp)
  have hoc := hdo.pos oc (by simp)
  have hic := hd.pos ic (by simp)
  unfold Conv.inputGrad
  simp only [ofFn_shape, get2, get3, Except.bind_ok', forI_nat, h2, h3, h4, full_shapeOf]
  refine (forN_indices4 _ _ _ _ _ _).trans ?_
  refine (foldlM_inv (mk := fun q => ofFn [n, ic, h, w] q)
    (step := fun q a => upd q [0, 0, a.getD 0 0 + a.getD 2 0, a.getD 1 0 + a.getD 3 0]
      (q [0, 0, a.getD 0 0 + a.getD 2 0, a.getD 1 0 + a.getD 3 0] +
        k [0, 0, a.getD 2 0, a.getD 3 0] * g [0, 0, a.getD 0 0, a.getD 1 0]))
    (fun _ => 0) ?_).trans ?_
  · intro a ha q
    obtain ⟨y, z, u, v, rfl, hy, hz, hu, hv⟩ := valid4_iff.1 (mem_indices.1 ha)
    simp only [List.getD_cons_zero, List.getD_cons_succ]
    have a1 := at_ofFn hdk k (valid4_iff.2 ⟨0, 0, u, v, rfl, hoc, hic, hu, hv⟩)
    have a2 := at_ofFn hdo g (valid4_iff.2 ⟨0, 0, y, z, rfl, hn, hoc, hy, hz⟩)
    have a3 := modifyAt_ofFn hd q (valid4_iff.2 ⟨0, 0, y + u, z + v, rfl, hn, hic, by omega, by omega⟩)
      (fun r => r + k [0, 0, u, v] * g [0, 0, y, z])
    rw [ints4] at a1 a2 a3
    push_cast at a1 a2 a3
    rw [a1, a2]
    simp only [Except.bind_ok']
    exact a3
  · congr 1
    apply ofFn_congr
    intro idx _
    rw [foldl_upd_acc (v := fun s (a : List Nat) => s + k [0, 0, a.getD 2 0, a.getD 3 0] * g [0, 0, a.getD 0 0, a.getD 1 0])
      (p := fun a : List Nat => [0, 0, a.getD 0 0 + a.getD 2 0, a.getD 1 0 + a.getD 3 0]), foldl_add_sum, zero_add, sum_filter_map,
      sum_indices4]
    unfold convInputGrad
    simp only [List.getD_cons_zero, List.getD_cons_succ, decide_eq_true_eq]

theorem conv_backward {n oc ic h w kh kw oh ow : Nat} (ht : ∀ x : T, MathFn.toFloat x = x)
    (hd : Dims [n, ic, h, w]) (hdk : Dims [oc, ic, kh, kw]) (hdo : Dims [n, oc, oh, ow])
    (hh : oh + kh ≤ h + 1) (hw : ow + kw ≤ w + 1) (x g k b : List Nat → T) (l : Conv T)
    (h2 : l.kernelHeight = kh) (h3 : l.kernelWidth = kw) (h4 : l.weights = ofFn [oc, ic, kh, kw] k)
    (h5 : l.biases = ofFn [oc, 1] b) (h6 : l.input = some (ofFn [n, ic, h, w] x)) :
    Conv.backward (ofFn [n, oc, oh, ow] g) l =
      (.ok (ofFn [n, ic, h, w] (convInputGrad oh ow kh kw k g)),
       { l with weightGradients := some (ofFn [oc, ic, kh, kw] (convWeightGrad oh ow x g))
                biasGradients := some (ofFn [oc, 1] (convBiasGrad oh ow g)) }) := by
  unfold Conv.backward
  simp only [Mut.get_bind, h6, Mut.modify_bind]
  rw [conv_biasGrad hdo g l b h5]
  simp only [Mut.lift_ok_bind, Mut.modify_bind]
  rw [conv_weightGrad ht hd hdk hdo hh hw x g k l h2 h3 h4]
  simp only [Mut.lift_ok_bind, Mut.modify_bind, Mut.lift_apply]
  rw [conv_inputGrad hd hdk hdo hh hw x g k l h2 h3 h4]

end
end SmartDNN
