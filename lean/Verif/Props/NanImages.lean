import Verif.Props.Nan
import Verif.Props.RowOrder
import Verif.Proofs.Whole

/-!
# C82 for models with convolutions, dropout, batch normalisation and flatten layers
-/

namespace SmartDNN
open Spec Net Ieee
variable {R : Format} [MathFn (Ieee R)]

/-- Sample `r` of an array has a NaN; of an image: in its first channel (the only one a convolution reads, see C43). -/
def Spec.SampleNan (ds : List Nat) (x : List Nat → Ieee R) (r : Nat) : Prop :=
  ∃ i, ValidIdx ds (r :: i) ∧ x (r :: i) = .nan ∧ (ds.length = 4 → i.head? = some 0)

/-- Sample `r` of an array has nothing but NaN. -/
def Spec.SampleOnlyNan (ds : List Nat) (x : List Nat → Ieee R) (r : Nat) : Prop := ∀ i, ValidIdx ds (r :: i) → x (r :: i) = .nan

/-- A layer that takes arrays of dimensions `ds` to arrays of dimensions `es` and does not hide NaN: dense, convolution, flatten, dropout
in either mode, batch normalisation in evaluation mode, activations other than ReLU. -/
inductive Spec.Shows : Layer (Ieee R) → List Nat → List Nat → Prop where
  | dense {b n m : Nat} {w bias : List Nat → Ieee R} {l : FC (Ieee R)} {mode : Bool} (hw : Dims [n, m]) (hg : Dims [b, m])
      (hlw : l.weights = ofFn [n, m] w) (hlb : l.biases = ofFn [1, m] bias) : Shows ⟨.fc l, mode⟩ [b, n] [b, m]
  | conv {n oc ic h w kh kw : Nat} {k b : List Nat → Ieee R} {l : Conv (Ieee R)} {mode : Bool} (hd : Dims [n, ic, h, w])
      (hdk : Dims [oc, ic, kh, kw]) (hdb : Dims [oc, 1]) (hk : kh ≤ h) (hkw : kw ≤ w) (ho : n * oc * h * w < 2 ^ 31)
      (h0 : l.inputChannels = ic) (h1 : l.outputChannels = oc) (h2 : l.kernelHeight = kh) (h3 : l.kernelWidth = kw)
      (h4 : l.weights = ofFn [oc, ic, kh, kw] k) (h5 : l.biases = ofFn [oc, 1] b) :
      Shows ⟨.conv l, mode⟩ [n, ic, h, w] [n, oc, h - kh + 1, w - kw + 1]
  | flatten {d : Nat} {ds : List Nat} {l : Flatten} {mode : Bool} (hd : Dims (d :: ds)) (hr : 2 ≤ ds.length) :
      Shows ⟨.flatten l, mode⟩ (d :: ds) [d, ds.prod]
  | act {ds : List Nat} {l : ActLayer (Ieee R)} {mode : Bool} (hd : Dims ds) (ha : KeepsNan l.activation) (h2 : 2 ≤ ds.length) :
      Shows ⟨.activation l, mode⟩ ds ds
  | dropout {ds : List Nat} {l : Dropout (Ieee R)} {mode : Bool} (hd : Dims ds) : Shows ⟨.dropout l, mode⟩ ds ds
  | batchNorm {F : Nat} {ds ch : List Nat} {l : BatchNorm (Ieee R)} {γ β m v : List Nat → Ieee R} (hS : BNShape F ds ch) (hd : Dims ds)
      (hγ : l.gamma = ofFn [1, F] γ) (hβ : l.beta = ofFn [1, F] β) (hm : l.runningMean = ofFn [1, F] m)
      (hv : l.runningVariance = ofFn [1, F] v) : Shows ⟨.batchNorm l, false⟩ ds ds

/-- Layers that fit together. -/
inductive Spec.ShowsAll : List (Layer (Ieee R)) → List Nat → List Nat → Prop where
  | nil (ds : List Nat) : ShowsAll [] ds ds
  | cons {l : Layer (Ieee R)} {ls : List (Layer (Ieee R))} {ds es fs : List Nat} (hl : Shows l ds es) (hls : ShowsAll ls es fs) :
      ShowsAll (l :: ls) ds fs

theorem conv_entry_nan (L : Libm R) {kh kw : Nat} {p : List Nat → Ieee R} {q : List Nat → Ieee R} (b : Ieee R)
    (h : (∃ a, ValidIdx [kh, kw] a ∧ (p a = .nan ∨ q a = .nan)) ∨ b = .nan) :
    MathFn.toFloat ((indices [kh, kw]).foldl (fun s a => MathFn.toFloat (s + p a * q a)) 0 + b) = .nan := by
  rcases h with ⟨a, ha, h⟩ | h
  · rw [foldl_hits_nan (fun s a => MathFn.toFloat (s + p a * q a)) (fun y => by rw [nan_add, L.toFloat_nan]) (mem_indices.2 ha)
      (fun s => by rcases h with h | h <;> rw [h] <;> simp only [nan_mul, mul_nan, add_nan, L.toFloat_nan]), nan_add, L.toFloat_nan]
  · rw [h, add_nan, L.toFloat_nan]

/-- **C82 (convolution).** An output is NaN if there is a NaN in its window of the first channel, in its kernel or in its bias.  Missing: the other
channels, which are not read (`C82_channel_refuted`). -/
theorem C82_conv_partial (L : Libm R) {n oc ic h w kh kw : Nat} (hd : Dims [n, ic, h, w]) (hdk : Dims [oc, ic, kh, kw]) (hdb : Dims [oc, 1])
    (hk : kh ≤ h) (hkw : kw ≤ w) (ho : n * oc * h * w < 2 ^ 31) (k b x : List Nat → Ieee R) (l : Conv (Ieee R)) (h0 : l.inputChannels = ic)
    (h1 : l.outputChannels = oc) (h2 : l.kernelHeight = kh) (h3 : l.kernelWidth = kw) (h4 : l.weights = ofFn [oc, ic, kh, kw] k)
    (h5 : l.biases = ofFn [oc, 1] b) :
    ∃ y l', Conv.forward (ofFn [n, ic, h, w] x) l = (.ok (ofFn [n, oc, h - kh + 1, w - kw + 1] y), l') ∧
      ∀ r c i j, (∃ u < kh, ∃ v < kw, x [r, 0, i + u, j + v] = .nan ∨ k [c, 0, u, v] = .nan) ∨ b [c, 0] = .nan → y [r, c, i, j] = .nan := by
  have hf : (Conv.forward (ofFn [n, ic, h, w] x) l).1 = l.correlate (ofFn [n, ic, h, w] x) := by
    rw [conv_forward_eq, if_neg (by simp), show (ofFn [n, ic, h, w] x).shape.get 1 = .ok (ic : Int) from rfl, Except.bind_ok', if_neg (by simp [h0])]
  rw [conv_correlate_fold hd hdk hdb hk hkw ho k b x l h1 h2 h3 h4 h5] at hf
  refine ⟨_, (Conv.forward (ofFn [n, ic, h, w] x) l).2, Prod.ext hf rfl, fun r c i j hn => ?_⟩
  simp only [List.getD_cons_zero, List.getD_cons_succ]
  refine conv_entry_nan L (p := fun a => x [r, 0, i + a.getD 0 0, j + a.getD 1 0]) (q := fun a => k [c, 0, a.getD 0 0, a.getD 1 0]) _ ?_
  rcases hn with ⟨u, hu, v, hv, h⟩ | h
  · exact Or.inl ⟨[u, v], valid2_iff.2 ⟨u, v, rfl, hu, hv⟩, h⟩
  · exact Or.inr h

/-- **C82 fails for other channels**: a NaN in any channel but the first is not seen by a convolution. -/
theorem C82_channel_refuted {n oc ic h w kh kw : Nat} (hd : Dims [n, ic, h, w]) (hdk : Dims [oc, ic, kh, kw]) (hdb : Dims [oc, 1])
    (hk : kh ≤ h) (hkw : kw ≤ w) (ho : n * oc * h * w < 2 ^ 31) (k b x x' : List Nat → Ieee R) (l : Conv (Ieee R)) (h0 : l.inputChannels = ic)
    (h1 : l.outputChannels = oc) (h2 : l.kernelHeight = kh) (h3 : l.kernelWidth = kw) (h4 : l.weights = ofFn [oc, ic, kh, kw] k)
    (h5 : l.biases = ofFn [oc, 1] b) (hx : ∀ r i j, x' [r, 0, i, j] = x [r, 0, i, j]) :
    (Conv.forward (ofFn [n, ic, h, w] x') l).1 = (Conv.forward (ofFn [n, ic, h, w] x) l).1 := by
  rw [conv_forward_eq, conv_forward_eq, if_neg (by simp), if_neg (by simp), show (ofFn [n, ic, h, w] x).shape.get 1 = .ok (ic : Int) from rfl,
    show (ofFn [n, ic, h, w] x').shape.get 1 = .ok (ic : Int) from rfl, Except.bind_ok', Except.bind_ok', if_neg (by simp [h0]),
    conv_correlate_fold hd hdk hdb hk hkw ho k b x l h1 h2 h3 h4 h5, conv_correlate_fold hd hdk hdb hk hkw ho k b x' l h1 h2 h3 h4 h5]
  simp only [hx, h0, ne_eq, not_true, if_false]

/-- **C82 (dropout).** In either mode and for every state of the random engine NaN stays where it is, also where the mask is 0. -/
theorem C82_dropout {ρ : Type} (E : Engine ρ (Ieee R)) (mode : Bool) {ds : List Nat} (hd : Dims ds) (x : List Nat → Ieee R) (l : Dropout (Ieee R)) (rg : ρ) :
    ∃ y s, Dropout.forward E mode (ofFn ds x) (l, rg) = (.ok (ofFn ds y), s) ∧ ∀ i, x i = .nan → y i = .nan := by
  cases mode with
  | false => exact ⟨x, _, rfl, fun _ h => h⟩
  | true =>
    have hu : Tensor.rand E (shapeOf ds) rg = .ok (ofFn ds _, _) := createRandom_ofFn E ds 0 1 rg
    refine ⟨_, _, dropout_forward_training E hd x l rg hu, fun i h => ?_⟩
    beta_reduce
    rw [h, nan_mul, nan_mul]

/-- **C82 (batch normalisation).** In evaluation mode an output is NaN if its input is, or one of the four numbers of its feature. -/
theorem C82_batch_norm (hs : MathFn.sqrt (.nan : Ieee R) = .nan) {F : Nat} {ds ch : List Nat} (hS : BNShape F ds ch) (hd : Dims ds) (l : BatchNorm (Ieee R))
    (γ β m v x : List Nat → Ieee R) (hγ : l.gamma = ofFn [1, F] γ) (hβ : l.beta = ofFn [1, F] β) (hm : l.runningMean = ofFn [1, F] m)
    (hv : l.runningVariance = ofFn [1, F] v) :
    ∃ y, BatchNorm.forward false (ofFn ds x) l = (.ok (ofFn ds y), l) ∧ ∀ i, x i = .nan ∨ m [0, i.getD 1 0] = .nan ∨ v [0, i.getD 1 0] = .nan ∨
      γ [0, i.getD 1 0] = .nan ∨ β [0, i.getD 1 0] = .nan → y i = .nan := by
  refine ⟨_, bn_eval_fold hS hd l γ β m v x hγ hβ hm hv, fun i h => ?_⟩
  beta_reduce
  rcases h with h | h | h | h | h <;> rw [h]
  · rw [nan_sub, nan_div, nan_mul, nan_add]
  · rw [sub_nan, nan_div, nan_mul, nan_add]
  · rw [nan_add, hs, div_nan, nan_mul, nan_add]
  · rw [mul_nan, nan_add]
  · rw [add_nan]

theorem keeps_all {ds : List Nat} {x y : List Nat → Ieee R} (h : ∀ i, x i = .nan → y i = .nan) (r : Nat) :
    (SampleNan ds x r → SampleNan ds y r) ∧ (SampleOnlyNan ds x r → SampleOnlyNan ds y r) :=
  ⟨fun ⟨i, h1, h2, h3⟩ => ⟨i, h1, h _ h2, h3⟩, fun hx i hi => h _ (hx i hi)⟩

/-- The layer is fully connected. -/
def Spec.IsDense (l : Layer (Ieee R)) : Prop := ∃ f, l.kind = .fc f

theorem shows_step {ρ : Type} (L : Libm R) (hs : MathFn.sqrt (.nan : Ieee R) = .nan) (E : Engine ρ (Ieee R)) {l : Layer (Ieee R)} {ds es : List Nat}
    (h : Shows l ds es) (x : List Nat → Ieee R) (rg : ρ) :
    ∃ y s, Layer.forward E (ofFn ds x) (l, rg) = (.ok (ofFn es y), s) ∧ ∀ r, (SampleNan ds x r → SampleNan es y r) ∧
      (SampleOnlyNan ds x r → SampleOnlyNan es y r) ∧ (IsDense l → SampleNan ds x r → SampleOnlyNan es y r) := by
  cases h with
  | @dense b n m w bias l mode hw hg hlw hlb =>
    have hn : 0 < n := hw.pos n (by simp)
    have hm : 0 < m := hw.pos m (by simp)
    have hrow : ∀ r, SampleNan [b, n] x r → SampleOnlyNan [b, m] (denseRow n w bias x) r := by
      rintro r ⟨i, hi, h, -⟩ i' -
      obtain ⟨_, j, e, -, hj⟩ := valid2_iff.1 hi
      obtain ⟨rfl, rfl⟩ := List.cons.inj e
      show dot n _ _ + _ = _
      rw [dot_nan hj (Or.inl h), nan_add]
    have hf : FC.forward (ofFn [b, n] x) l = (.ok (ofFn [b, m] (denseRow n w bias x)), { l with input := some (ofFn [b, n] x) }) := by
      unfold FC.forward
      rw [Mut.modify_bind, Mut.get_bind, Mut.lift_apply, hlw, hlb, fc_affine_batch hg]
    refine ⟨denseRow n w bias x, (⟨.fc { l with input := some (ofFn [b, n] x) }, mode⟩, rg), by simp only [Layer.forward, Layer.onKind, hf],
      fun r => ⟨fun h => ?_, fun h i hi => ?_, fun _ h => hrow r h⟩⟩
    · have hr : r < b := by
        obtain ⟨i, hi, -, -⟩ := h
        obtain ⟨_, j, e, hr, -⟩ := valid2_iff.1 hi
        obtain ⟨rfl, rfl⟩ := List.cons.inj e
        exact hr
      have hv : ValidIdx [b, m] (r :: [0]) := valid2_iff.2 ⟨r, 0, rfl, hr, hm⟩
      exact ⟨[0], hv, hrow r h _ hv, by simp⟩
    · obtain ⟨_, j, e, hr, -⟩ := valid2_iff.1 hi
      obtain ⟨rfl, rfl⟩ := List.cons.inj e
      have hv : ValidIdx [b, n] (r :: [0]) := valid2_iff.2 ⟨r, 0, rfl, hr, hn⟩
      exact hrow r ⟨[0], hv, h _ hv, by simp⟩ _ hi
  | @conv n oc ic h w kh kw k b l mode hd hdk hdb hk hkw ho h0 h1 h2 h3 h4 h5 =>
    obtain ⟨y, l', hy, hN⟩ := C82_conv_partial L hd hdk hdb hk hkw ho k b x l h0 h1 h2 h3 h4 h5
    have hkh : 0 < kh := hdk.pos kh (by simp)
    have hkw' : 0 < kw := hdk.pos kw (by simp)
    refine ⟨y, (⟨.conv l', mode⟩, rg), by simp only [Layer.forward, Layer.onKind, hy], fun r => ⟨?_, ?_, ?_⟩⟩
    · rintro ⟨i, hi, hx, hc⟩
      obtain ⟨_, c, p, q, e, hr, -, hp, hq⟩ := valid4_iff.1 hi
      obtain ⟨rfl, rfl⟩ := List.cons.inj e
      obtain rfl : c = 0 := by simpa using hc rfl
      refine ⟨[0, min p (h - kh), min q (w - kw)], valid4_iff.2 ⟨_, _, _, _, rfl, hr, hdk.pos oc (by simp), by omega, by omega⟩,
        hN _ _ _ _ (Or.inl ⟨p - min p (h - kh), by omega, q - min q (w - kw), by omega, Or.inl ?_⟩), fun _ => rfl⟩
      rw [show min p (h - kh) + (p - min p (h - kh)) = p by omega, show min q (w - kw) + (q - min q (w - kw)) = q by omega]
      exact hx
    · intro hx i hi
      obtain ⟨_, c, p, q, e, hr, -, hp, hq⟩ := valid4_iff.1 hi
      obtain ⟨rfl, rfl⟩ := List.cons.inj e
      exact hN _ _ _ _ (Or.inl ⟨0, hkh, 0, hkw', Or.inl (hx [0, p + 0, q + 0] (valid4_iff.2 ⟨_, _, _, _, rfl, hr, hd.pos ic (by simp), by omega, by omega⟩))⟩)
    · rintro ⟨f, hf⟩
      cases hf
  | @flatten d ds l mode hd hr =>
    have hp : [d, ds.prod].prod = (d :: ds).prod := by simp
    refine ⟨fun j => x (reindex [d, ds.prod] (d :: ds) j), (⟨.flatten { l with originalShape := some (shapeOf (d :: ds)) }, mode⟩, rg), ?_, fun r => ⟨?_, ?_, ?_⟩⟩
    · simp only [Layer.forward, Layer.onKind, flatten_forward hd hr, reinterpret_ofFn hp]
    · rintro ⟨i, hi, h, -⟩
      obtain ⟨_, _, e, hr, hv⟩ := validIdx_cons_iff.1 hi
      obtain ⟨rfl, rfl⟩ := List.cons.inj e
      refine ⟨[ravel ds i], valid2_iff.2 ⟨_, _, rfl, hr, ravel_lt hv⟩, ?_, by simp⟩
      show x (reindex [d, ds.prod] (d :: ds) [r, ravel ds i]) = _
      rw [reindex_flat hr (ravel_lt hv), List.getD_eq_getElem?_getD, indices_ravel hv]
      exact h
    · intro h i hi
      obtain ⟨_, j, e, hr, hj⟩ := valid2_iff.1 hi
      obtain ⟨rfl, rfl⟩ := List.cons.inj e
      have h3 := (reindex_valid hp hi).1
      show x (reindex [d, ds.prod] (d :: ds) [r, j]) = _
      rw [reindex_flat hr hj] at h3 ⊢
      exact h _ h3
    · rintro ⟨f, hf⟩
      cases hf
  | @act ds l mode hd ha h2 =>
    by_cases hsm : l.activation = .softmax
    · obtain ⟨d, ds, rfl⟩ : ∃ d e, ds = d :: e := by
        cases ds with
        | nil => simp at h2
        | cons d e => exact ⟨d, e, rfl⟩
      obtain ⟨y, hy, hN⟩ := softmax_nan L hd (by rintro rfl; simp at h2) x
      refine ⟨y, (⟨.activation { l with input := some (ofFn (d :: ds) x) }, mode⟩, rg), ?_, fun r => ⟨?_, ?_, ?_⟩⟩
      · simp only [Layer.forward, Layer.onKind, ActLayer.forward, Mut.modify_bind, Mut.get_bind, Mut.lift_apply, hsm, hy]
      · rintro ⟨i, hi, h, hc⟩
        obtain ⟨_, _, e, hr, hv⟩ := validIdx_cons_iff.1 hi
        obtain ⟨rfl, rfl⟩ := List.cons.inj e
        exact ⟨i, hi, hN _ _ _ hv h, hc⟩
      · intro h i hi
        obtain ⟨_, _, e, hr, hv⟩ := validIdx_cons_iff.1 hi
        obtain ⟨rfl, rfl⟩ := List.cons.inj e
        exact hN _ _ _ hv (h _ hi)
      · rintro ⟨f, hf⟩
        cases hf
    · obtain ⟨y, hy, hN⟩ := act_nan L l.activation hsm ha ds x
      refine ⟨y, (⟨.activation { l with input := some (ofFn ds x) }, mode⟩, rg), ?_, fun r => ⟨(keeps_all hN r).1, (keeps_all hN r).2, ?_⟩⟩
      · simp only [Layer.forward, Layer.onKind, ActLayer.forward, Mut.modify_bind, Mut.get_bind, Mut.lift_apply, hy]
      · rintro ⟨f, hf⟩
        cases hf
  | @dropout ds l mode hd =>
    obtain ⟨y, s, hy, hN⟩ := C82_dropout E mode hd x l rg
    refine ⟨y, (⟨.dropout s.1, mode⟩, s.2), by simp only [Layer.forward, Layer.onKind, hy], fun r => ⟨(keeps_all hN r).1, (keeps_all hN r).2, ?_⟩⟩
    rintro ⟨f, hf⟩
    cases hf
  | @batchNorm F ds ch l γ β m v hS hd hγ hβ hm hv =>
    obtain ⟨y, hy, hN⟩ := C82_batch_norm hs hS hd l γ β m v x hγ hβ hm hv
    refine ⟨y, (⟨.batchNorm l, false⟩, rg), by simp only [Layer.forward, Layer.onKind, hy], fun r => ⟨(keeps_all (fun i h => hN i (Or.inl h)) r).1, (keeps_all (fun i h => hN i (Or.inl h)) r).2, ?_⟩⟩
    rintro ⟨f, hf⟩
    cases hf

theorem shows_stack {ρ : Type} (L : Libm R) (hs : MathFn.sqrt (.nan : Ieee R) = .nan) (E : Engine ρ (Ieee R)) {ls : List (Layer (Ieee R))} {ds es : List Nat}
    (h : ShowsAll ls ds es) : ∀ (x : List Nat → Ieee R) (rg : ρ),
    ∃ y ls' rg', forwardLayers E ls (ofFn ds x) rg = (.ok (ofFn es y), ls', rg') ∧ ∀ r, (SampleNan ds x r → SampleNan es y r) ∧
      (SampleOnlyNan ds x r → SampleOnlyNan es y r) ∧ ((∃ l ∈ ls, IsDense l) → SampleNan ds x r → SampleOnlyNan es y r) := by
  induction h with
  | nil ds => exact fun x rg => ⟨x, [], rg, rfl, fun r => ⟨id, id, by simp⟩⟩
  | @cons l ls ds es fs hl hls ih =>
    intro x rg
    obtain ⟨y, ⟨l', rg1⟩, f1, f2⟩ := shows_step L hs E hl x rg
    obtain ⟨z, ls', rg2, k1, k2⟩ := ih y rg1
    refine ⟨z, l' :: ls', rg2, ?_, fun r => ⟨fun h => (k2 r).1 ((f2 r).1 h), fun h => (k2 r).2.1 ((f2 r).2.1 h), ?_⟩⟩
    · unfold forwardLayers
      rw [f1]
      simp only
      rw [k1]
    · rintro ⟨a, ha, hda⟩ h
      rcases List.mem_cons.1 ha with rfl | ha
      · exact (k2 r).2.1 ((f2 r).2.2 hda h)
      · exact (k2 r).2.2 ⟨a, ha, hda⟩ ((f2 r).1 h)

/-- **C82 (`predict` on images).** In a model of dense, convolution, flatten, dropout and evaluation-mode batch normalisation layers and activations
other than ReLU, a sample with a NaN has a NaN in its prediction, and, if some layer is dense, nothing but NaN.  Missing: ReLU, max pooling and channels
other than the first (`C82_relu_refuted`, `C82_maxpool_refuted`, `C82_channel_refuted`). -/
theorem C82_images_partial {ρ : Type} (L : Libm R) (hs : MathFn.sqrt (.nan : Ieee R) = .nan) (E : Engine ρ (Ieee R)) {ds es : List Nat} (net : Net ρ (Ieee R))
    (h : ShowsAll net.layers ds es) (x : List Nat → Ieee R) :
    ∃ y net', predict E (ofFn ds x) net = (.ok (ofFn es y), net') ∧ ∀ r, (SampleNan ds x r → SampleNan es y r) ∧
      ((∃ l ∈ net.layers, IsDense l) → SampleNan ds x r → ∀ i, ValidIdx es (r :: i) → y (r :: i) = .nan) := by
  obtain ⟨y, ls', rg', f1, f2⟩ := shows_stack L hs E h x net.rng
  exact ⟨y, { net with layers := ls', rng := rg' }, by simp only [predict, f1], fun r => ⟨(f2 r).1, (f2 r).2.2⟩⟩

/-- A classifier of 28 by 28 images: convolution with 8 kernels, batch normalisation, tanh, dropout (in training mode), flatten, a dense layer and softmax. -/
example (k b γ β m v w c : List Nat → Ieee R) (e p : Ieee R) :
    ShowsAll (R := R) [⟨.conv ⟨1, 8, 3, 3, 1, 0, 1, ofFn [8, 1, 3, 3] k, ofFn [8, 1] b, none, none, none⟩, true⟩,
      ⟨.batchNorm ⟨e, e, e, ofFn [1, 8] γ, ofFn [1, 8] β, ofFn [1, 8] m, ofFn [1, 8] v, none, none, none, none, none⟩, false⟩,
      ⟨.activation ⟨.tanh, none⟩, true⟩, ⟨.dropout { dropoutRate := p }, true⟩, ⟨.flatten ⟨none⟩, true⟩,
      ⟨.fc ⟨ofFn [5408, 10] w, ofFn [1, 10] c, none, none, none⟩, true⟩, ⟨.activation ⟨.softmax, none⟩, true⟩] [4, 1, 28, 28] [4, 10] := by
  have h : Dims [4, 8, 26, 26] := ⟨by simp, by simp, by decide⟩
  refine .cons (.conv (n := 4) (oc := 8) (ic := 1) (h := 28) (w := 28) (kh := 3) (kw := 3) ⟨by simp, by simp, by decide⟩ ⟨by simp, by simp, by decide⟩ ⟨by simp, by simp, by decide⟩ (by omega) (by omega)
    (by omega) rfl rfl rfl rfl rfl rfl) (.cons (.batchNorm (.four 4 26 26) h rfl rfl rfl rfl) (.cons (.act h trivial (by simp)) (.cons (.dropout h)
    (.cons (.flatten h (by simp)) ?_))))
  rw [show [8, 26, 26].prod = 5408 from rfl]
  exact .cons (.dense ⟨by simp, by simp, by decide⟩ ⟨by simp, by simp, by decide⟩ rfl rfl) (.cons (.act ⟨by simp, by simp, by decide⟩ trivial (by simp)) (.nil _))

/-- Images with one NaN, in the corner of the third. -/
example : SampleNan (R := R) [4, 1, 28, 28] (fun i => if i = [2, 0, 27, 27] then .nan else 0) 2 :=
  ⟨[0, 27, 27], valid4_iff.2 ⟨_, _, _, _, rfl, by omega, by omega, by omega, by omega⟩, by simp, fun _ => rfl⟩

/-- Images whose second channel is NaN and whose first is not, as `C82_channel_refuted` requires. -/
example : ∀ r i j, (fun i => if i.getD 1 0 = 1 then .nan else 0 : List Nat → Ieee R) [r, 0, i, j] = (fun _ => 0 : List Nat → Ieee R) [r, 0, i, j] := by simp

end SmartDNN
