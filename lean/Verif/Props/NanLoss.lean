import Verif.Props.NanImages
import Verif.Props.Interrupted

/-!
# C82 for the losses printed in training, whatever the layers
-/

namespace SmartDNN
open Spec Net Ieee
variable {R : Format} [MathFn (Ieee R)] {ρ : Type}

theorem preserves_convShape (g : Tensor (Ieee R)) :
    Preserves (fun l : Conv (Ieee R) => ({ l with input := none, weightGradients := none, biasGradients := none } : Conv (Ieee R))) (Conv.backward g) := by
  unfold Conv.backward
  refine preserves_bind (preserves_get _) fun l => ?_
  cases l.input with
  | none => exact preserves_lift _ _
  | some x =>
    repeat first
      | exact preserves_lift _ _
      | refine preserves_bind (preserves_lift _ _) fun _ => ?_
      | refine preserves_bind (preserves_modify fun _ => rfl) fun _ => ?_

theorem preserves_bnStats (g : Tensor (Ieee R)) :
    Preserves (fun l : BatchNorm (Ieee R) => (l.gamma, l.beta, l.runningMean, l.runningVariance)) (BatchNorm.backward g) := by
  unfold BatchNorm.backward BatchNorm.backwardWith
  refine preserves_bind (preserves_get _) fun l => ?_
  split
  · refine preserves_bind (preserves_lift _ _) fun _ => ?_
    refine preserves_bind (preserves_modify fun _ => rfl) fun _ => ?_
    exact preserves_pure _ _
  · exact preserves_lift _ _

theorem shows_forward (E : Engine ρ (Ieee R)) (x : Tensor (Ieee R)) {l : Layer (Ieee R)} {ds es : List Nat} (h : Shows l ds es) (r : ρ) :
    Shows (Layer.forward E x (l, r)).2.1 ds es := by
  cases h with
  | @dense b n m w bias l mode hw hg hlw hlb => exact .dense hw hg hlw hlb
  | @conv n oc ic h w kh kw k b l mode hd hdk hdb hk hkw ho h0 h1 h2 h3 h4 h5 =>
    have hc := (conv_forward_res x l).2
    exact .conv hd hdk hdb hk hkw ho ((congrArg Conv.inputChannels hc).trans h0) ((congrArg Conv.outputChannels hc).trans h1)
      ((congrArg Conv.kernelHeight hc).trans h2) ((congrArg Conv.kernelWidth hc).trans h3) ((congrArg Conv.weights hc).trans h4)
      ((congrArg Conv.biases hc).trans h5)
  | flatten hd hr => exact .flatten hd hr
  | act hd ha h2 => exact .act hd ha h2
  | dropout hd => exact .dropout hd
  | @batchNorm F ds ch l γ β m v hS hd hγ hβ hm hv =>
    have e : (BatchNorm.forward false x l).2 = l := batchNorm_forward_eval x l
    show Shows ⟨.batchNorm (BatchNorm.forward false x l).2, false⟩ _ _
    rw [e]
    exact .batchNorm hS hd hγ hβ hm hv

theorem shows_backward (g : Tensor (Ieee R)) {l : Layer (Ieee R)} {ds es : List Nat} (h : Shows l ds es) : Shows (Layer.backward g l).2 ds es := by
  cases h with
  | @dense b n m w bias l mode hw hg hlw hlb =>
    have e := preserves_fcBackward g l
    exact .dense hw hg ((congrArg Prod.fst e).trans hlw) ((congrArg Prod.snd e).trans hlb)
  | @conv n oc ic h w kh kw k b l mode hd hdk hdb hk hkw ho h0 h1 h2 h3 h4 h5 =>
    have hc := preserves_convShape g l
    exact .conv hd hdk hdb hk hkw ho ((congrArg Conv.inputChannels hc).trans h0) ((congrArg Conv.outputChannels hc).trans h1)
      ((congrArg Conv.kernelHeight hc).trans h2) ((congrArg Conv.kernelWidth hc).trans h3) ((congrArg Conv.weights hc).trans h4)
      ((congrArg Conv.biases hc).trans h5)
  | flatten hd hr => exact .flatten hd hr
  | @act ds l mode hd ha h2 =>
    have e : Preserves (fun l : ActLayer (Ieee R) => l.activation) (ActLayer.backward g) := by
      unfold ActLayer.backward
      refine preserves_bind (preserves_get _) fun l => ?_
      repeat first
        | exact preserves_lift _ _
        | refine preserves_bind (preserves_lift _ _) fun _ => ?_
    exact .act hd (by rw [show (ActLayer.backward g l).2.activation = l.activation from e l]; exact ha) h2
  | dropout hd => exact .dropout hd
  | @batchNorm F ds ch l γ β m v hS hd hγ hβ hm hv =>
    have e := preserves_bnStats g l
    exact .batchNorm hS hd ((congrArg (·.1) e).trans hγ) ((congrArg (·.2.1) e).trans hβ) ((congrArg (·.2.2.1) e).trans hm)
      ((congrArg (·.2.2.2) e).trans hv)

omit [MathFn (Ieee R)] in
theorem updated_shows {l l' : Layer (Ieee R)} {ds es : List Nat} (hu : Updated l l') (h : Shows l ds es) : Shows l' ds es := by
  have key : ∀ {a b : Tensor (Ieee R)} {ds : List Nat} {f : List Nat → Ieee R}, Dims ds → SameShape a b → a = ofFn ds f → ∃ g, b = ofFn ds g := by
    rintro a b ds f hd ⟨s1, s2⟩ rfl
    exact exists_ofFn hd s1 (by rw [s2, ofFn_data]; simp)
  have row : ∀ {ds : List Nat} {m : Nat}, Dims ds → m ∈ ds → Dims [1, m] := by
    intro ds m hd hm
    refine ⟨by simp, by simpa using hd.pos m hm, ?_⟩
    simp only [List.prod_cons, List.prod_nil, mul_one, one_mul]
    exact lt_of_le_of_lt (Nat.le_of_dvd (prod_pos_of hd.pos) (List.dvd_prod hm)) hd.lt
  cases h with
  | @dense b n m w bias l mode hw hg hlw hlb =>
    cases hu with
    | fc _ _ w' b' h1 h2 =>
      obtain ⟨w2, e1⟩ := key hw h1 hlw
      obtain ⟨b2, e2⟩ := key (row hw (by simp)) h2 hlb
      exact .dense hw hg e1 e2
    | unchanged => exact .dense hw hg hlw hlb
  | @conv n oc ic h w kh kw k b l mode hd hdk hdb hk hkw ho h0 h1 h2 h3 h4 h5 =>
    cases hu with
    | conv _ _ w' b' s1 s2 =>
      obtain ⟨w2, e1⟩ := key hdk s1 h4
      obtain ⟨b2, e2⟩ := key hdb s2 h5
      exact .conv hd hdk hdb hk hkw ho h0 h1 h2 h3 e1 e2
    | unchanged => exact .conv hd hdk hdb hk hkw ho h0 h1 h2 h3 h4 h5
  | flatten hd hr => cases hu; exact .flatten hd hr
  | act hd ha h2 => cases hu; exact .act hd ha h2
  | dropout hd => cases hu; exact .dropout hd
  | @batchNorm F ds ch l γ β m v hS hd hγ hβ hm hv =>
    cases hu with
    | batchNorm _ _ w' b' s1 s2 =>
      have hF : F ∈ ds := by cases hS <;> simp
      obtain ⟨w2, e1⟩ := key (row hd hF) s1 hγ
      obtain ⟨b2, e2⟩ := key (row hd hF) s2 hβ
      exact .batchNorm hS hd e1 e2 hm hv
    | unchanged => exact .batchNorm hS hd hγ hβ hm hv

theorem showsAll_forward (E : Engine ρ (Ieee R)) {ls : List (Layer (Ieee R))} {ds es : List Nat} (h : ShowsAll ls ds es) :
    ∀ (x : Tensor (Ieee R)) (r : ρ), ShowsAll (forwardLayers E ls x r).2.1 ds es := by
  induction h with
  | nil ds => exact fun x r => .nil ds
  | @cons l ls ds es fs hl hls ih =>
    intro x r
    have h := shows_forward E x hl r
    unfold forwardLayers
    rcases hf : Layer.forward E x (l, r) with ⟨e | y, l', r'⟩
    · rw [hf] at h
      exact .cons h hls
    · rw [hf] at h
      exact .cons h (ih y r')

theorem showsAll_backward {ls : List (Layer (Ieee R))} {ds es : List Nat} (h : ShowsAll ls ds es) :
    ∀ (g : Tensor (Ieee R)), ShowsAll (backwardLayers ls g).2 ds es := by
  induction h with
  | nil ds => exact fun g => .nil ds
  | @cons l ls ds es fs hl hls ih =>
    intro g
    have h := ih g
    unfold backwardLayers
    rcases hf : backwardLayers ls g with ⟨e | g', ls'⟩
    · rw [hf] at h
      exact .cons hl h
    · rw [hf] at h
      exact .cons (shows_backward g' hl) h

omit [MathFn (Ieee R)] in
theorem updated_showsAll {ls ls' : List (Layer (Ieee R))} (hu : List.Forall₂ Updated ls ls') :
    ∀ {ds es : List Nat}, ShowsAll ls ds es → ShowsAll ls' ds es := by
  induction hu with
  | nil => exact fun h => h
  | cons h _ ih =>
    intro ds es hc
    cases hc with
    | cons hl hls => exact .cons (updated_shows h hl) (ih hls)

/-- A successful step keeps the kinds and sizes of the layers. -/
theorem step_shows {E : Engine ρ (Ieee R)} {x y : Tensor (Ieee R)} {net net' : Net ρ (Ieee R)} {v : Ieee R} (h : StepOk E x y net net' v) {ds es : List Nat}
    (hc : ShowsAll net.layers ds es) : ShowsAll net'.layers ds es := by
  obtain ⟨pred, net1, L, g, g', net2, h1, -, -, -, h5, h6⟩ := h
  have e1 : ShowsAll net1.layers ds es := by
    have := showsAll_forward E hc x net.rng
    have e : (predict E x net).2.layers = (forwardLayers E net.layers x net.rng).2.1 := rfl
    rw [← e, h1] at this
    exact this
  have e2 : ShowsAll net2.layers ds es := by
    have := showsAll_backward e1 g
    have e : (backward g net1).2.layers = (backwardLayers net1.layers g).2 := rfl
    rw [← e, h5] at this
    exact this
  have := updated_showsAll (C56_changes net2).1 e2
  rw [h6] at this
  exact this

theorem steps_shows (L : Libm R) (hs : MathFn.sqrt (.nan : Ieee R) = .nan) {E : Engine ρ (Ieee R)} {ds : List Nat} {b k : Nat} (hd : Dims [b, k])
    {ps : List ((List Nat → Ieee R) × (List Nat → Ieee R))} :
    ∀ {net net' : Net ρ (Ieee R)} {vs : List (Ieee R)}, Steps E (ps.map fun p => (ofFn ds p.1, ofFn [b, k] p.2)) net net' vs → ShowsAll net.layers ds [b, k] →
      ShowsAll net'.layers ds [b, k] ∧ ((∃ p ∈ ps, ∃ r < b, SampleNan ds p.1 r ∨ SampleNan [b, k] p.2 r) → .nan ∈ vs) := by
  induction ps with
  | nil =>
    intro net net' vs h hc
    cases h
    exact ⟨hc, by simp⟩
  | cons p ps ih =>
    intro net net' vs h hc
    cases h with
    | @cons _ _ _ _ net1 _ v vs h1 h2 =>
      obtain ⟨i1, i2⟩ := ih h2 (step_shows h1 hc)
      refine ⟨i1, ?_⟩
      rintro ⟨q, hq, r, hr, hn⟩
      rcases List.mem_cons.1 hq with rfl | hq
      · obtain ⟨y, n1, p1, p2⟩ := C82_images_partial L hs E net hc q.1
        obtain ⟨pred, n1', lo, g, g', n2, s1, -, s3, -⟩ := h1
        rw [p1] at s1
        simp only [Prod.mk.injEq, Except.ok.injEq] at s1
        obtain ⟨rfl, -⟩ := s1
        obtain ⟨v', g'', c1, -, c3⟩ := C82_loss L hd lo y q.2
        rw [c1] at s3
        have hv : v' = v := by
          have h0 := congrArg (fun t : Res (Tensor (Ieee R)) => t.map (·.data)) s3
          simpa [ofFn, indices, Except.map] using h0
        rw [← hv]
        rcases hn with hn | hn
        · obtain ⟨i, h3, h4, -⟩ := (p2 r).1 hn
          rw [(c3 _ h3 (.inl h4)).1]
          simp
        · obtain ⟨i, h3, h4, -⟩ := hn
          rw [(c3 _ h3 (.inr h4)).1]
          simp
      · exact List.mem_cons_of_mem _ (i2 ⟨q, hq, r, hr, hn⟩)

theorem epochs_shows (L : Libm R) (hs : MathFn.sqrt (.nan : Ieee R) = .nan) {E : Engine ρ (Ieee R)} {ds : List Nat} {b k : Nat} (hd : Dims [b, k])
    {ps : List ((List Nat → Ieee R) × (List Nat → Ieee R))} (hn : ∃ p ∈ ps, ∃ r < b, SampleNan ds p.1 r ∨ SampleNan [b, k] p.2 r) (m : Nat) :
    ∀ {net net' : Net ρ (Ieee R)} {rs : List (Tensor (Ieee R))}, Epochs E (ps.map fun p => (ofFn ds p.1, ofFn [b, k] p.2)) m net net' rs →
      ShowsAll net.layers ds [b, k] → ∀ t ∈ rs, t = ofFn [1] fun _ => .nan := by
  induction m with
  | zero =>
    intro net net' rs h hc
    cases h
    simp
  | succ m ih =>
    intro net net' rs h hc t ht
    cases h with
    | succ h1 h2 =>
      obtain ⟨k1, k2⟩ := steps_shows L hs hd h1 hc
      rcases List.mem_cons.1 ht with rfl | ht
      · rename_i vs _
        have h3 : vs.foldl (· + ·) 0 = (.nan : Ieee R) := lsum_nan (k2 hn)
        rw [h3, nan_div]
      · exact ih h2 k1 t ht

/-- **C82, losses, for models with any of the layers.**  A model of dense, convolution, flatten, dropout (in either mode) and evaluation-mode batch
normalisation layers and activations other than ReLU, any state, with any loss and optimizer, is trained on data with a NaN in an input or in a target.
Whether the call returns or throws, and for any number of epochs: every loss that it prints is NaN.  So a user who sees a number as a loss, be it a single
time, knows that there is no NaN in the data.  Missing: ReLU, max pooling and channels other than the first (`C82_relu_refuted`, `C82_maxpool_refuted`,
`C82_channel_refuted`). -/
theorem C82_losses_partial (L : Libm R) (hs : MathFn.sqrt (.nan : Ieee R) = .nan) (E : Engine ρ (Ieee R)) {ds : List Nat} {b k : Nat} (hd : Dims [b, k])
    (net : Net ρ (Ieee R)) (h : ShowsAll net.layers ds [b, k]) (ps : List ((List Nat → Ieee R) × (List Nat → Ieee R))) (epochs : Int)
    (hn : ∃ p ∈ ps, ∃ r < b, SampleNan ds p.1 r ∨ SampleNan [b, k] p.2 r) :
    ∀ t ∈ (trainCall E (ps.map fun p => ofFn ds p.1) (ps.map fun p => ofFn [b, k] p.2) epochs net).2.2, t = ofFn [1] fun _ => .nan := by
  intro t ht
  rcases hr : trainCall E (ps.map fun p => ofFn ds p.1) (ps.map fun p => ofFn [b, k] p.2) epochs net with ⟨e | _, net', rs⟩
  · obtain ⟨m, n1, n2, vs, -, he, -⟩ := C55_train_fails E _ _ epochs net net' rs e hr
    rw [List.zip_map'] at he
    rw [hr] at ht
    exact epochs_shows L hs hd hn m he h t ht
  · rw [hr] at ht
    have hne : ps ≠ [] := by
      rintro rfl
      simp at hn
    rw [C55_train E _ _ epochs net net' rs (by simp) (by rw [List.length_map]; exact natCast_ne_zero (List.length_pos_iff.2 hne)), List.zip_map'] at hr
    exact epochs_shows L hs hd hn _ hr h t ht

/-- The hypotheses are met by a convolution, dropout in training mode, flatten, a dense layer and tanh, on images with one NaN in the second. -/
example (k c w d t : List Nat → Ieee R) (p : Ieee R) :
    ShowsAll (R := R) [⟨.conv ⟨1, 2, 2, 2, 1, 0, 1, ofFn [2, 1, 2, 2] k, ofFn [2, 1] c, none, none, none⟩, true⟩, ⟨.dropout { dropoutRate := p }, true⟩,
      ⟨.flatten ⟨none⟩, true⟩, ⟨.fc ⟨ofFn [40, 3] w, ofFn [1, 3] d, none, none, none⟩, true⟩, ⟨.activation ⟨.tanh, none⟩, true⟩] [2, 1, 5, 6] [2, 3] ∧
    ∃ q ∈ [((fun i => if i = [1, 0, 4, 3] then .nan else 0 : List Nat → Ieee R), t)], ∃ r < 2, SampleNan [2, 1, 5, 6] q.1 r ∨ SampleNan [2, 3] q.2 r := by
  have h : Dims [2, 2, 4, 5] := ⟨by simp, by simp, by decide⟩
  have h3 : Dims [2, 3] := ⟨by simp, by simp, by decide⟩
  constructor
  · refine .cons (.conv (n := 2) (oc := 2) (ic := 1) (h := 5) (w := 6) (kh := 2) (kw := 2) ⟨by simp, by simp, by decide⟩ ⟨by simp, by simp, by decide⟩
      ⟨by simp, by simp, by decide⟩ (by omega) (by omega) (by omega) rfl rfl rfl rfl rfl rfl) (.cons (.dropout h) (.cons (.flatten h (by simp)) ?_))
    rw [show [2, 4, 5].prod = 40 from rfl]
    exact .cons (.dense ⟨by simp, by simp, by decide⟩ h3 rfl rfl) (.cons (.act h3 trivial (by simp)) (.nil _))
  · exact ⟨_, List.mem_singleton.2 rfl, 1, by omega, .inl ⟨[0, 4, 3], by simp [ValidIdx], by simp, by simp⟩⟩

end SmartDNN
