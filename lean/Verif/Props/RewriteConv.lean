import Verif.Props.Rewrite
import Verif.Props.RowOrder
import Verif.Props.Conv

/-!
# C109: convolutions, flatten and dense layers
-/

namespace SmartDNN
open Net Spec

variable {ρ : Type} (E : Engine ρ ℝ)

theorem sum_range_rows (h w : Nat) (g : Nat → ℝ) : ∑ q ∈ Finset.range (h * w), g q = ∑ u ∈ Finset.range h, ∑ v ∈ Finset.range w, g (u * w + v) := by
  induction h with
  | zero => simp
  | succ h ih => rw [Nat.succ_mul, Finset.sum_range_add, ih, Finset.sum_range_succ]

theorem answer_flatten {d : Nat} {ds : List Nat} (h : Dims (d :: ds)) (hr : 2 ≤ ds.length) {m : Nat} (hm : ds.prod = m) (f : List Nat → ℝ) (ls : List (Layer ℝ)) (r : ρ) :
    answer E (⟨.flatten ⟨none⟩, true⟩ :: ls) (ofFn (d :: ds) f) r = answer E ls (ofFn [d, m] fun i => f (reindex [d, m] (d :: ds) i)) r := by
  subst hm
  refine answer_step (l' := ⟨.flatten ⟨some (shapeOf (d :: ds))⟩, true⟩) (r' := r) E ?_
  simp only [Layer.forward, Layer.onKind]
  rw [flatten_forward h hr, reinterpret_ofFn (by simp)]

/-- A convolution whose kernels are as large as the images, followed by flatten, is flatten followed by a dense layer: the weight of pixel `q` for output `c` is the entry of kernel `c`
at the row `q / w` and the column `q % w`. -/
theorem C109_conv_dense {n oc h w : Nat} (hd : Dims [n, 1, h, w]) (hdk : Dims [oc, 1, h, w]) (ho : n * oc * h * w < 2 ^ 31) (k b : List Nat → ℝ) :
    Interchangeable E [n, 1, h, w]
      [⟨.conv ⟨1, oc, h, w, 1, 0, 1, ofFn [oc, 1, h, w] k, ofFn [oc, 1] b, none, none, none⟩, true⟩, ⟨.flatten ⟨none⟩, true⟩]
      [⟨.flatten ⟨none⟩, true⟩, denseLayer (ofFn [h * w, oc] fun i => k [i.getD 1 0, 0, i.getD 0 0 / w, i.getD 0 0 % w]) (ofFn [1, oc] fun i => b [i.getD 1 0, 0])] := by
  intro f r
  have p1 : 0 < n := hd.pos n (by simp)
  have p2 : 0 < oc := hdk.pos oc (by simp)
  have p3 : 0 < h := hd.pos h (by simp)
  have p4 : 0 < w := hd.pos w (by simp)
  have hlt : n * oc < 2 ^ 31 := by
    refine lt_of_le_of_lt ?_ ho
    rw [Nat.mul_assoc (n * oc)]
    exact Nat.le_mul_of_pos_right _ (Nat.mul_pos p3 p4)
  have hlt' : oc < 2 ^ 31 := lt_of_le_of_lt (Nat.le_mul_of_pos_left _ p1) hlt
  have d2 : Dims [n, oc] := ⟨by simp, by simp [p1, p2], by simpa using hlt⟩
  have d4 : Dims [n, oc, 1, 1] := ⟨by simp, by simp [p1, p2], by simpa using hlt⟩
  have db : Dims [oc, 1] := ⟨by simp, by simp [p2], by simpa using hlt'⟩
  have hc := C43_single_channel_partial (T := ℝ) (fun _ => rfl) hd hdk db le_rfl le_rfl ho k b f none none none
  have e1 : ∀ m, 0 < m → convOut m 1 0 1 m = 1 := fun m hm => by
    unfold convOut
    rw [Nat.div_one]
    omega
  rw [e1 h p3, e1 w p4] at hc
  rw [answer_step (l' := ⟨.conv ⟨1, oc, h, w, 1, 0, 1, ofFn [oc, 1, h, w] k, ofFn [oc, 1] b, some (ofFn [n, 1, h, w] f), none, none⟩, true⟩) (r' := r)
    (y := ofFn [n, oc, 1, 1] (conv 1 h w 1 0 1 h w k b f)) E (by simp only [Layer.forward, Layer.onKind]; rw [hc])]
  rw [answer_flatten E d4 (by simp) (m := oc) (by simp), answer_flatten E hd (by simp) (m := h * w) (by simp), answer_dense E _ _ (fc_affine_batch d2 _ _ _)]
  congr 1
  refine ofFn_congr fun idx hi => ?_
  obtain ⟨i, c, rfl, hi, hc⟩ := valid2_iff.1 hi
  have r1 : reindex [n, oc] [n, oc, 1, 1] [i, c] = [i, c, 0, 0] := by
    have hv : ValidIdx [n, oc, 1, 1] [i, c, 0, 0] := valid4_iff.2 ⟨i, c, 0, 0, rfl, hi, hc, Nat.one_pos, Nat.one_pos⟩
    unfold reindex
    rw [show ravel [n, oc] [i, c] = ravel [n, oc, 1, 1] [i, c, 0, 0] by simp [ravel], List.getD_eq_getElem?_getD, indices_ravel hv]
    rfl
  have r2 : ∀ u < h, ∀ v < w, reindex [n, h * w] [n, 1, h, w] [i, u * w + v] = [i, 0, u, v] := fun u hu v hv => by
    have hv : ValidIdx [n, 1, h, w] [i, 0, u, v] := valid4_iff.2 ⟨i, 0, u, v, rfl, hi, Nat.one_pos, hu, hv⟩
    unfold reindex
    rw [show ravel [n, h * w] [i, u * w + v] = ravel [n, 1, h, w] [i, 0, u, v] by simp [ravel], List.getD_eq_getElem?_getD, indices_ravel hv]
    rfl
  simp only [r1]
  unfold denseRow conv
  simp only [dot_eq_sum, List.getD_cons_zero, List.getD_cons_succ, Finset.sum_range_one, sum_range_rows]
  congr 1
  refine Finset.sum_congr rfl fun u hu => Finset.sum_congr rfl fun v hv => ?_
  rw [Finset.mem_range] at hu hv
  rw [r2 u hu v hv]
  have q1 : (u * w + v) / w = u := by rw [Nat.add_comm, Nat.add_mul_div_right _ _ p4, Nat.div_eq_of_lt hv, Nat.zero_add]
  have q2 : (u * w + v) % w = v := by rw [Nat.add_comm, Nat.add_mul_mod_self_right, Nat.mod_eq_of_lt hv]
  rw [q1, q2]
  unfold padded
  rw [if_pos (by omega)]
  simp

/-- An elementwise activation and flatten can change places. -/
theorem C109_act_flatten {d : Nat} {ds : List Nat} (h : Dims (d :: ds)) (hr : 2 ≤ ds.length) (a : Act ℝ) (ha : a ≠ .softmax) :
    Interchangeable E (d :: ds) [actLayer a, ⟨.flatten ⟨none⟩, true⟩] [⟨.flatten ⟨none⟩, true⟩, actLayer a] := by
  intro f r
  obtain ⟨φ, ψ, hφ, -⟩ := act_pointwise a ha
  rw [answer_act E _ _ (hφ _ _).1, answer_flatten E h hr rfl, answer_flatten E h hr rfl, answer_act E _ _ (hφ _ _).1]

/-- A convolution with the kernel `[1]` and the bias 0 can be left out. -/
theorem C109_conv_identity {n h w : Nat} (hd : Dims [n, 1, h, w]) (k b : List Nat → ℝ) (hk : k [0, 0, 0, 0] = 1) (hb : b [0, 0] = 0) :
    Interchangeable E [n, 1, h, w] [⟨.conv ⟨1, 1, 1, 1, 1, 0, 1, ofFn [1, 1, 1, 1] k, ofFn [1, 1] b, none, none, none⟩, true⟩] [] := by
  intro f r
  have d4 : Dims [1, 1, 1, 1] := ⟨by simp, by simp, by simp⟩
  have d2 : Dims [1, 1] := ⟨by simp, by simp, by simp⟩
  have p3 : 0 < h := hd.pos h (by simp)
  have p4 : 0 < w := hd.pos w (by simp)
  have hlt : n * 1 * h * w < 2 ^ 31 := by
    have := hd.lt
    simp only [List.prod_cons, List.prod_nil, mul_one, one_mul] at this ⊢
    rwa [Nat.mul_assoc]
  have hc := C43_single_channel_partial (T := ℝ) (fun _ => rfl) hd d4 d2 p3 p4 hlt k b f none none none
  have e1 : ∀ m, 0 < m → convOut 1 1 0 1 m = m := fun m hm => by
    unfold convOut
    rw [Nat.div_one]
    omega
  rw [e1 h p3, e1 w p4] at hc
  simp only [Nat.cast_one] at hc
  rw [answer_step (l' := ⟨.conv ⟨1, 1, 1, 1, 1, 0, 1, ofFn [1, 1, 1, 1] k, ofFn [1, 1] b, some (ofFn [n, 1, h, w] f), none, none⟩, true⟩) (r' := r)
    (y := ofFn [n, 1, h, w] (conv 1 1 1 1 0 1 h w k b f)) E (by simp only [Layer.forward, Layer.onKind]; rw [hc])]
  congr 1
  refine ofFn_congr fun idx hi => ?_
  obtain ⟨i, c, u, v, rfl, hi, hc, hu, hv⟩ := valid4_iff.1 hi
  obtain rfl : c = 0 := by omega
  simp [conv, padded, hk, hb, hu, hv]

/-- Unpadded max pooling with windows of one element and stride 1 can be left out, as long as nothing is below the layer's minus infinity. -/
theorem C109_pool_identity {n c h w : Nat} (hd : Dims [n, c, h, w]) {ninf : ℝ} {f : List Nat → ℝ} (hf : ∀ i, ninf ≤ f i) (r : ρ) :
    answer E [⟨.maxPool ⟨1, 1, 0, ninf, none⟩, true⟩] (ofFn [n, c, h, w] f) r = answer E [] (ofFn [n, c, h, w] f) r := by
  have p3 : 0 < h := hd.pos h (by simp)
  have p4 : 0 < w := hd.pos w (by simp)
  obtain ⟨m, e1, h1⟩ := C40_window_max hd Nat.one_pos Nat.one_pos (.inl p3) (.inl p4) f ninf (fun i _ => hf i) none
  have e0 : ∀ m, 0 < m → poolOut 1 1 m = m := fun m hm => by
    unfold poolOut
    rw [if_pos (show 1 ≤ m from hm), Nat.div_one]
    omega
  rw [e0 h p3, e0 w p4] at e1 h1
  simp only [Nat.cast_one] at e1
  rw [answer_step (l' := ⟨.maxPool ⟨1, 1, 0, ninf, some (ofFn [n, c, h, w] f)⟩, true⟩) (r' := r) (y := _) E (by
      show ((MaxPool.forward (ofFn [n, c, h, w] f) ⟨1, 1, 0, ninf, none⟩).1, (⟨.maxPool (MaxPool.forward (ofFn [n, c, h, w] f) ⟨1, 1, 0, ninf, none⟩).2, true⟩ : Layer ℝ), r) = _
      rw [e1])]
  congr 1
  refine ofFn_congr fun idx hi => ?_
  have hv := hi
  obtain ⟨i, j, u, v, rfl, -, -, hu, hv'⟩ := valid4_iff.1 hi
  obtain ⟨⟨y, x, hw, ey⟩, -⟩ := h1 i j u v hv
  obtain ⟨a1, a2, -, a3, a4, -⟩ := hw
  obtain rfl : y = u := by omega
  obtain rfl : x = v := by omega
  exact ey.symm

/-- Hypotheses met: images of 3 by 2 pixels, four kernels of that size. -/
example : Dims [5, 1, 3, 2] ∧ Dims [4, 1, 3, 2] ∧ 5 * 4 * 3 * 2 < 2 ^ 31 ∧ 2 ≤ [1, 3, 2].length ∧ Act.tanh (T := ℝ) ≠ .softmax :=
  ⟨⟨by simp, by simp, by simp⟩, ⟨by simp, by simp, by simp⟩, by norm_num, by simp, by intro h; cases h⟩

/-- Layers of a network that sees images of 2 by 2 pixels: the answer of the convolution is that of the dense layer. -/
example (k b f : List Nat → ℝ) (r : ρ) : (answer E [⟨.flatten ⟨none⟩, true⟩, denseLayer (ofFn [2 * 2, 1] fun i => k [i.getD 1 0, 0, i.getD 0 0 / 2, i.getD 0 0 % 2])
      (ofFn [1, 1] fun i => b [i.getD 1 0, 0])] (ofFn [1, 1, 2, 2] f) r).1 =
    (answer E [⟨.conv ⟨1, 1, 2, 2, 1, 0, 1, ofFn [1, 1, 2, 2] k, ofFn [1, 1] b, none, none, none⟩, true⟩, ⟨.flatten ⟨none⟩, true⟩] (ofFn [1, 1, 2, 2] f) r).1 :=
  congrArg Prod.fst (C109_conv_dense (oc := 1) E ⟨by simp, by simp, by simp⟩ ⟨by simp, by simp, by simp⟩ (by norm_num) k b f r).symm

end SmartDNN
