import Verif.Proofs.NormReach

/-!
# What batch normalisation ignores and how far it reaches (C114)
-/

namespace SmartDNN
open Net Spec

section
variable {F : Nat} {ds ch : List Nat}

/-- **C114.** In training mode, adding a constant to a feature of the whole batch does not change the answer. -/
theorem C114_shift (hS : BNShape F ds ch) (hd : Dims ds) (l : BatchNorm ℝ) (hl : l.Ready F) (f : List Nat → ℝ) (s : Nat → ℝ) :
    ∃ y l1 l2, BatchNorm.forward true (ofFn ds f) l = (.ok y, l1) ∧ BatchNorm.forward true (ofFn ds fun i => f i + s (i.getD 1 0)) l = (.ok y, l2) := by
  obtain ⟨γ, hγ⟩ := hl.gamma
  obtain ⟨β, hβ⟩ := hl.beta
  obtain ⟨rs, m, v, hR, hr, hm, hv⟩ := hl.running
  refine ⟨_, _, _, bn_forward_train hS hd hR hr l γ β m v f hγ hβ hm hv,
    (bn_forward_train hS hd hR hr l γ β m v (fun i => f i + s (i.getD 1 0)) hγ hβ hm hv).trans (Prod.ext (congrArg Except.ok (ofFn_congr fun i hi => ?_)) rfl)⟩
  rw [featMean_shift hi, featVar_shift hi]
  unfold bnOut
  ring

/-- **C114.** Multiplying the batch by a positive number is the same as dividing `epsilon` by its square: apart from the effect of `epsilon`, the scale of
the data does not matter. -/
theorem C114_scale (hS : BNShape F ds ch) (hd : Dims ds) (l : BatchNorm ℝ) (hl : l.Ready F) (f : List Nat → ℝ) {k : ℝ} (hk : 0 < k) :
    ∃ y l1 l2, BatchNorm.forward true (ofFn ds f) { l with epsilon := l.epsilon / k ^ 2 } = (.ok y, l1) ∧
      BatchNorm.forward true (ofFn ds fun i => k * f i) l = (.ok y, l2) := by
  obtain ⟨γ, hγ⟩ := hl.gamma
  obtain ⟨β, hβ⟩ := hl.beta
  obtain ⟨rs, m, v, hR, hr, hm, hv⟩ := hl.running
  refine ⟨_, _, _, bn_forward_train hS hd hR hr { l with epsilon := l.epsilon / k ^ 2 } γ β m v f hγ hβ hm hv,
    (bn_forward_train hS hd hR hr l γ β m v (fun i => k * f i) hγ hβ hm hv).trans (Prod.ext (congrArg Except.ok (ofFn_congr fun i hi => ?_)) rfl)⟩
  rw [featMean_times, featVar_times, bnOut_scale hk]

/-- **C114.** No answer in training mode is further from the shift of its feature than the scale times the square root of one less than the number of values
averaged over, however large the inputs; and a feature that is constant over the batch is answered with its shift. -/
theorem C114_reach (hS : BNShape F ds ch) (hd : Dims ds) (l : BatchNorm ℝ) (hl : l.Ready F) (γ β f : List Nat → ℝ) (hγ : l.gamma = ofFn [1, F] γ)
    (hβ : l.beta = ofFn [1, F] β) (heps : 0 < l.epsilon) :
    ∃ g l', BatchNorm.forward true (ofFn ds f) l = (.ok (ofFn ds g), l') ∧
      (∀ i, ValidIdx ds i → |g i - β [0, i.getD 1 0]| ≤ |γ [0, i.getD 1 0]| * Real.sqrt ((perFeature ds : ℝ) - 1)) ∧
      ∀ c < F, (∀ i j, ValidIdx ds i → ValidIdx ds j → i.getD 1 0 = c → j.getD 1 0 = c → f i = f j) → ∀ i, ValidIdx ds i → i.getD 1 0 = c → g i = β [0, c] := by
  obtain ⟨rs, m, v, hR, hr, hm, hv⟩ := hl.running
  refine ⟨_, _, bn_forward_train hS hd hR hr l γ β m v f hγ hβ hm hv, fun i hi => ?_, ?_⟩
  · have h1 := samuelson hi f
    have hc := perFeature_count hS hd hi
    rw [hc] at h1
    have hp := featureIdx_pos hi
    rw [hc] at hp
    have h1' : (1 : ℝ) ≤ perFeature ds := by exact_mod_cast hp
    exact bnOut_reach heps (featVar_nonneg _ _ _) (by linarith) _ _ _ _ rfl h1
  · rintro c hc hf i hi rfl
    have hp := featureIdx_pos hi
    have h2 : featMean ds f (i.getD 1 0) = f i := by
      unfold featMean
      rw [List.map_congr_left (g := fun _ => 0 + f i) fun j hj => by
        beta_reduce; rw [zero_add]; exact hf j i (mem_indices.1 (List.mem_filter.1 hj).1) hi (mem_featureIdx hj) rfl, list_sum_add (featureIdx ds (i.getD 1 0)) (fun _ => 0) (f i)]
      simp only [List.map_const', List.sum_replicate, smul_zero, zero_add]
      field_simp
    beta_reduce
    unfold bnOut
    rw [h2, sub_self, zero_div, zero_mul, zero_add]

/-- **C114.** With scales that are not negative, a feature of one sample that is at least that of another sample of the batch is answered with at least its
answer. -/
theorem C114_order (hS : BNShape F ds ch) (hd : Dims ds) (l : BatchNorm ℝ) (hl : l.Ready F) (γ f : List Nat → ℝ) (hγ : l.gamma = ofFn [1, F] γ)
    (hp : ∀ c < F, 0 ≤ γ [0, c]) :
    ∃ g l', BatchNorm.forward true (ofFn ds f) l = (.ok (ofFn ds g), l') ∧
      ∀ i j, ValidIdx ds i → ValidIdx ds j → i.getD 1 0 = j.getD 1 0 → f i ≤ f j → g i ≤ g j := by
  obtain ⟨β, hβ⟩ := hl.beta
  obtain ⟨rs, m, v, hR, hr, hm, hv⟩ := hl.running
  refine ⟨_, _, bn_forward_train hS hd hR hr l γ β m v f hγ hβ hm hv, fun i j hi hj hij hf => ?_⟩
  have hc : j.getD 1 0 < F := by
    cases hS with
    | two n => obtain ⟨a, c, rfl, _, h⟩ := valid2_iff.1 hj; exact h
    | four n h w => obtain ⟨a, c, y, z, rfl, _, h, _⟩ := valid4_iff.1 hj; exact h
  beta_reduce
  rw [hij]
  unfold bnOut
  have := hp _ hc
  gcongr

end

variable {ρ : Type} (E : Engine ρ ℝ)

/-- What a model answers when its batch normalisation layer in training mode gets batches with the same answer. -/
theorem answer_norm {l : BatchNorm ℝ} {x y : Tensor ℝ} {l1 : BatchNorm ℝ} (h : BatchNorm.forward true x l = (.ok y, l1)) (ls : List (Layer ℝ)) (r : ρ) :
    answer E (⟨.batchNorm l, true⟩ :: ls) x r = answer E ls y r :=
  answer_step (l' := ⟨.batchNorm l1, true⟩) (r' := r) E (by
    show ((BatchNorm.forward true x l).1, (⟨.batchNorm (BatchNorm.forward true x l).2, true⟩ : Layer ℝ), r) = _
    rw [h])

/-- **C114.** The biases of a fully connected layer in front of batch normalisation in training mode have no effect: any biases give the same answers. -/
theorem C114_dense_bias {b n F : Nat} (hd : Dims [b, F]) (w bias bias' : List Nat → ℝ) (l : BatchNorm ℝ) (hl : l.Ready F) :
    Interchangeable E [b, n] [denseLayer (ofFn [n, F] w) (ofFn [1, F] bias), ⟨.batchNorm l, true⟩]
      [denseLayer (ofFn [n, F] w) (ofFn [1, F] bias'), ⟨.batchNorm l, true⟩] := by
  intro f e
  rw [answer_dense E _ _ (fc_affine_batch hd _ _ _), answer_dense E _ _ (fc_affine_batch hd _ _ _)]
  obtain ⟨y, l1, l2, h1, h2⟩ := C114_shift (.two b) hd l hl (denseRow n w bias f) fun c => bias' [0, c] - bias [0, c]
  rw [answer_norm E h1]
  refine (answer_norm E (l1 := l2) ?_ _ _).symm
  rw [← h2]
  congr 1
  refine ofFn_congr fun i _ => ?_
  unfold denseRow
  ring

/-- **C114.** The biases of a convolution in front of batch normalisation in training mode have no effect either. -/
theorem C114_conv_bias {n ic oc kh kw h w : Nat} (hd : Dims [n, ic, h, w]) (hdk : Dims [oc, ic, kh, kw]) (hdb : Dims [oc, 1]) (hk : kh ≤ h) (hkw : kw ≤ w)
    (ho : n * oc * h * w < 2 ^ 31) (hd' : Dims [n, oc, h - kh + 1, w - kw + 1]) (s q d : Int) (k bias bias' : List Nat → ℝ) (l : BatchNorm ℝ) (hl : l.Ready oc) :
    Interchangeable E [n, ic, h, w] [convLayer ic oc kh kw s q d (ofFn [oc, ic, kh, kw] k) (ofFn [oc, 1] bias), ⟨.batchNorm l, true⟩]
      [convLayer ic oc kh kw s q d (ofFn [oc, ic, kh, kw] k) (ofFn [oc, 1] bias'), ⟨.batchNorm l, true⟩] := by
  intro f e
  have hc : ∀ bs : List Nat → ℝ, ∀ ls, answer E (convLayer ic oc kh kw s q d (ofFn [oc, ic, kh, kw] k) (ofFn [oc, 1] bs) :: ls) (ofFn [n, ic, h, w] f) e =
      answer E ls (ofFn [n, oc, h - kh + 1, w - kw + 1] (conv 1 kh kw 1 0 1 h w k bs f)) e := by
    intro bs ls
    refine answer_step (l' := ⟨.conv (Conv.forward (ofFn [n, ic, h, w] f) ⟨ic, oc, kh, kw, s, q, d, ofFn [oc, ic, kh, kw] k, ofFn [oc, 1] bs, none, none, none⟩).2, true⟩) (r' := e) E ?_
    rw [← C43_configuration_ignored (fun _ => rfl) hd hdk hdb hk hkw ho k bs f s q d none none none]
    rfl
  rw [hc, hc]
  obtain ⟨y, l1, l2, h1, h2⟩ := C114_shift (.four n (h - kh + 1) (w - kw + 1)) hd' l hl (conv 1 kh kw 1 0 1 h w k bias f) fun c => bias' [c, 0] - bias [c, 0]
  rw [answer_norm E h1]
  refine (answer_norm E (l1 := l2) ?_ _ _).symm
  rw [← h2]
  congr 1
  refine ofFn_congr fun i _ => ?_
  unfold conv
  ring

/-- **C114.** So the predictions of a model in training mode do not depend on the biases of a fully connected layer that is followed by batch normalisation,
wherever in the model the two are. -/
theorem C114_predict {b n F : Nat} (hd : Dims [b, F]) (w bias bias' : List Nat → ℝ) (l : BatchNorm ℝ) (hl : l.Ready F) (pre post : List (Layer ℝ)) (net : Net ρ ℝ)
    {x : Tensor ℝ} (hx : ∀ y, (Net.predict E x { net with layers := pre }).1 = .ok y → ∃ f, y = ofFn [b, n] f) :
    (Net.predict E x { net with layers := pre ++ [denseLayer (ofFn [n, F] w) (ofFn [1, F] bias), ⟨.batchNorm l, true⟩] ++ post }).1 =
      (Net.predict E x { net with layers := pre ++ [denseLayer (ofFn [n, F] w) (ofFn [1, F] bias'), ⟨.batchNorm l, true⟩] ++ post }).1 :=
  C109_replace E (C114_dense_bias E hd w bias bias' l hl) net hx

/-- **C114.** A batch of one sample: batch normalisation in training mode, in which layers are by default, answers every vector with its shifts, so that a
model with such a layer predicts the same for every single sample. -/
theorem C114_single {F : Nat} (hd : Dims [1, F]) (l : BatchNorm ℝ) (hl : l.Ready F) (β : List Nat → ℝ) (hβ : l.beta = ofFn [1, F] β) (post : List (Layer ℝ))
    (net : Net ρ ℝ) (f : List Nat → ℝ) :
    (Net.predict E (ofFn [1, F] f) { net with layers := ⟨.batchNorm l, true⟩ :: post }).1 = (Net.predict E (ofFn [1, F] β) { net with layers := post }).1 := by
  obtain ⟨γ, hγ⟩ := hl.gamma
  obtain ⟨rs, m, v, hR, hr, hm, hv⟩ := hl.running
  have h := bn_forward_train (.two 1) hd hR hr l γ β m v f hγ hβ hm hv
  have e : ofFn [1, F] (fun i => bnOut l.epsilon (featMean [1, F] f (i.getD 1 0)) (featVar [1, F] f (i.getD 1 0)) (γ [0, i.getD 1 0]) (β [0, i.getD 1 0]) (f i)) = ofFn [1, F] β := by
    refine ofFn_congr fun i hi => ?_
    have h1 := samuelson hi f
    rw [perFeature_count (.two 1) hd hi, show perFeature [1, F] = 1 from rfl, Nat.cast_one, sub_self, zero_mul] at h1
    have h2 : f i - featMean [1, F] f (i.getD 1 0) = 0 := pow_eq_zero_iff (two_ne_zero) |>.1 (le_antisymm h1 (sq_nonneg _))
    obtain ⟨a, c, rfl, ha, -⟩ := valid2_iff.1 hi
    obtain rfl : a = 0 := by omega
    unfold bnOut
    rw [h2, zero_div, zero_mul, zero_add]
    rfl
  rw [e] at h
  have key : (answer E (⟨.batchNorm l, true⟩ :: post) (ofFn [1, F] f) net.rng).1 = (answer E post (ofFn [1, F] β) net.rng).1 :=
    congrArg Prod.fst (answer_norm E h post net.rng)
  exact key

/-- Hypotheses of the theorems for C114 are met: a new layer for two features and a batch of three samples. -/
example : ∃ l : BatchNorm ℝ, BatchNorm.new 2 (1 / 100) (9 / 10) 0 = .ok l ∧ l.Ready 2 ∧ 0 < l.epsilon ∧ Dims [3, 2] ∧ perFeature [3, 2] = 3 ∧ perFeature [3, 2, 4, 5] = 60 := by
  obtain ⟨l, h1, h2, h3, -⟩ := C45_constructed 2 ⟨by simp, by simp, by simp⟩ (1 / 100 : ℝ) (9 / 10) 0
  exact ⟨l, h1, h2, by rw [h3]; norm_num, ⟨by simp, by simp, by simp⟩, rfl, rfl⟩

end SmartDNN
