import Verif.Proofs.Frozen
import Verif.Props.ConvGrad
import Verif.Props.Descent

/-!
# Which parameters training reaches (C85)
-/

namespace SmartDNN
open Net Spec

/-! ### Specification -/

/-- Freshly constructed SGD or RMSProp without weight decay, or Adam without L1 and L2 regularisation (the defaults); learning
rate, momentum and the other options are arbitrary. -/
inductive Spec.Unregularised {K : Type} : Optimizer K ℝ → Prop where
  | sgd (o : SGDOptions ℝ) (h : o.weightDecay = 0) : Unregularised (.newSGD o)
  | rmsprop (o : RMSPropOptions ℝ) (h : o.weightDecay = 0) : Unregularised (.newRMSProp o)
  | adam (o : AdamOptions ℝ) (h1 : o.l1Strength ≤ 0) (h2 : o.l2Strength ≤ 0) : Unregularised (.newAdam o)

/-- The calls of the public interface of a model. -/
inductive Spec.Use where
  | train (inputs targets : List (Tensor ℝ)) (epochs : Int)
  | predict (input : Tensor ℝ)
  | predictAll (inputs : List (Tensor ℝ))
  | backward (gradOutput : Tensor ℝ)
  | updateWeights
  | mode (training : Bool)
  | compile (loss : Loss ℝ) (opt : Optimizer (Nat × Bool) ℝ)
  | addLayer (l : Layer ℝ)

variable {ρ : Type}

/-- The model after a call, whether it returns or throws. -/
noncomputable def Spec.Use.apply (E : Engine ρ ℝ) (net : Net ρ ℝ) : Use → Net ρ ℝ
  | .train xs ys n => (trainCall E xs ys n net).2.1
  | .predict x => (Net.predict E x net).2
  | .predictAll xs => (Net.predictAll E xs net).2
  | .backward g => (Net.backward g net).2
  | .updateWeights => (Net.updateWeights net).2
  | .mode b => net.setTrainingMode b
  | .compile L opt => net.compile L opt
  | .addLayer l => net.addLayer l

/-- The model after a history of calls. -/
noncomputable def Spec.after (E : Engine ρ ℝ) (us : List Use) (net : Net ρ ℝ) : Net ρ ℝ := us.foldl (Use.apply E) net

/-- The history compiles the model, if at all, with optimizers without weight decay. -/
def Spec.PlainHistory (us : List Use) : Prop := ∀ L opt, Use.compile L opt ∈ us → Unregularised opt

/-! ### The convolution layer -/

theorem forN_post_lt {σ : Type} {n : Nat} {body : Nat → σ → Res σ} (P : σ → Prop)
    (hb : ∀ j, j < n → ∀ s s', P s → body j s = .ok s' → P s') {s s' : σ} (h0 : P s) (h : forN n s body = .ok s') : P s' := by
  induction n generalizing s' with
  | zero => cases h; exact h0
  | succ n ih =>
    rw [forN_succ] at h
    obtain ⟨s1, h1, h2⟩ := bind_ok h
    exact hb n (by omega) s1 s' (ih (fun j hj => hb j (by omega)) h1) h2

/-- What stays true of a convolution layer with kernels `k` and biases `b` at the start. -/
structure Stuck (oc ic kh kw : Nat) (k b : List Nat → ℝ) (c : Conv ℝ) : Prop where
  ci : c.inputChannels = ic
  co : c.outputChannels = oc
  hh : c.kernelHeight = kh
  hw : c.kernelWidth = kw
  ws : c.weights.shape = shapeOf [oc, ic, kh, kw]
  wl : c.weights.data.length = [oc, ic, kh, kw].prod
  bs : c.biases.shape = shapeOf [oc, 1]
  bl : c.biases.data.length = [oc, 1].prod
  w : SameFrom (kh * kw) (ofFn [oc, ic, kh, kw] k).data c.weights.data
  b : SameFrom 1 (ofFn [oc, 1] b).data c.biases.data
  gw : ∀ t, c.weightGradients = some t → ZeroFrom (kh * kw) t.data
  gb : ∀ t, c.biasGradients = some t → ZeroFrom 1 t.data

theorem weightGrad_zero {oc ic kh kw : Nat} (hd : Dims [oc, ic, kh, kw]) {c : Conv ℝ} (hh : c.kernelHeight = kh)
    (hw : c.kernelWidth = kw) (ws : c.weights.shape = shapeOf [oc, ic, kh, kw]) {x g t : Tensor ℝ}
    (h : c.weightGrad x g = .ok t) : ZeroFrom (kh * kw) t.data := by
  unfold Conv.weightGrad forI at h
  rw [hh, Int.toNat_natCast] at h
  suffices hs : t.shape = shapeOf [oc, ic, kh, kw] ∧ ZeroFrom (kh * kw) t.data from hs.2
  refine forN_post_lt (fun t : Tensor ℝ => t.shape = shapeOf [oc, ic, kh, kw] ∧ ZeroFrom (kh * kw) t.data)
    (s := Tensor.zeros c.weights.shape) ?_ ⟨ws, zeroFrom_full _ _⟩ h
  intro u hu s s' hs h
  rw [hw, Int.toNat_natCast] at h
  refine forN_post_lt (fun t : Tensor ℝ => t.shape = shapeOf [oc, ic, kh, kw] ∧ ZeroFrom (kh * kw) t.data) ?_ hs h
  intro v hv s s' hs h
  obtain ⟨a1, -, h⟩ := bind_ok h
  obtain ⟨a2, -, h⟩ := bind_ok h
  unfold Tensor.setAt at h
  obtain ⟨o, ho, h⟩ := bind_ok h
  rw [hs.1, show ([0, 0, (u : Int), (v : Int)] : List Int) = ints [0, 0, u, v] from rfl,
    computeFlatIndex_valid hd.pos hd.lt64.le (valid4_iff.2 ⟨0, 0, u, v, rfl, hd.pos oc (by simp), hd.pos ic (by simp), hu, hv⟩)] at ho
  cases ho
  have hset : s.set (ravel [oc, ic, kh, kw] [0, 0, u, v]) a2 = .ok s' := h
  refine ⟨(set_nat_data hset).2.trans hs.1, zeroFrom_set hs.2 hset fun hle => ?_⟩
  exfalso
  simp only [ravel, List.prod_cons, List.prod_nil, mul_one, zero_mul, zero_add] at hle
  have : u * kw + v < kh * kw := by
    calc u * kw + v < u * kw + kw := by omega
      _ = (u + 1) * kw := by ring
      _ ≤ kh * kw := Nat.mul_le_mul_right _ hu
  omega

theorem biasGrad_zero {c : Conv ℝ} {g t : Tensor ℝ} (h : c.biasGrad g = .ok t) : ZeroFrom 1 t.data := by
  unfold Conv.biasGrad at h
  obtain ⟨a, -, h⟩ := bind_ok h
  unfold forI at h
  refine forN_post_lt (fun t : Tensor ℝ => ZeroFrom 1 t.data) ?_ (zeroFrom_full _ _) h
  intro u _ s s' hs h
  obtain ⟨a, -, h⟩ := bind_ok h
  refine forN_post_lt (fun t : Tensor ℝ => ZeroFrom 1 t.data) ?_ hs h
  intro v _ s s' hs h
  obtain ⟨a1, -, h⟩ := bind_ok h
  obtain ⟨a2, -, h⟩ := bind_ok h
  have hset : s.set ((0 : Nat) : Int) (a2 + a1) = .ok s' := h
  exact zeroFrom_set hs hset fun hle => by omega

theorem conv_forward_stuck {oc ic kh kw : Nat} {k b : List Nat → ℝ} {c : Conv ℝ} (h : Stuck oc ic kh kw k b c) (x : Tensor ℝ) :
    Stuck oc ic kh kw k b (Conv.forward x c).2 := by
  unfold Conv.forward
  simp only [Mut.get_bind]
  split
  · exact h
  · cases x.shape.get 1 with
    | error e => exact h
    | ok d =>
      rw [Mut.lift_ok_bind]
      split
      · exact h
      · exact { h with }

theorem conv_backward_stuck {oc ic kh kw : Nat} (hd : Dims [oc, ic, kh, kw]) {k b : List Nat → ℝ} {c : Conv ℝ}
    (h : Stuck oc ic kh kw k b c) (g : Tensor ℝ) : Stuck oc ic kh kw k b (Conv.backward g c).2 := by
  unfold Conv.backward
  simp only [Mut.get_bind]
  cases c.input with
  | none => exact h
  | some x =>
    simp only [Mut.modify_bind]
    have z1 : ∀ t, some (Tensor.zeros c.weights.shape) = some t → ZeroFrom (kh * kw) t.data := by
      intro t ht
      cases ht
      exact zeroFrom_full _ _
    have z2 : ∀ t, some (Tensor.zeros c.biases.shape) = some t → ZeroFrom 1 t.data := by
      intro t ht
      cases ht
      exact zeroFrom_full _ _
    cases hb : c.biasGrad g with
    | error e => exact { h with gw := z1, gb := z2 }
    | ok bg =>
      have z3 : ∀ t, some bg = some t → ZeroFrom 1 t.data := by
        intro t ht
        cases ht
        exact biasGrad_zero hb
      rw [Mut.lift_ok_bind]
      simp only [Mut.modify_bind]
      cases hw : c.weightGrad x g with
      | error e => exact { h with gw := z1, gb := z3 }
      | ok wg =>
        rw [Mut.lift_ok_bind]
        simp only [Mut.modify_bind, Mut.lift_apply]
        refine { h with gw := ?_, gb := z3 }
        intro t ht
        cases ht
        exact weightGrad_zero hd h.hh h.hw h.ws hw

/-! ### Layers -/

/-- The layer is such a convolution layer. -/
def StuckLayer (oc ic kh kw : Nat) (k b : List Nat → ℝ) (l : Layer ℝ) : Prop :=
  ∃ c mode, l = ⟨.conv c, mode⟩ ∧ Stuck oc ic kh kw k b c

theorem layer_forward_stuck {oc ic kh kw : Nat} {k b : List Nat → ℝ} {l : Layer ℝ} (h : StuckLayer oc ic kh kw k b l)
    (E : Engine ρ ℝ) (x : Tensor ℝ) (r : ρ) : StuckLayer oc ic kh kw k b (Layer.forward E x (l, r)).2.1 := by
  obtain ⟨c, mode, rfl, hc⟩ := h
  exact ⟨_, mode, rfl, conv_forward_stuck hc x⟩

theorem layer_backward_stuck {oc ic kh kw : Nat} (hd : Dims [oc, ic, kh, kw]) {k b : List Nat → ℝ} {l : Layer ℝ}
    (h : StuckLayer oc ic kh kw k b l) (g : Tensor ℝ) : StuckLayer oc ic kh kw k b (Layer.backward g l).2 := by
  obtain ⟨c, mode, rfl, hc⟩ := h
  exact ⟨_, mode, rfl, conv_backward_stuck hd hc g⟩

theorem forwardLayers_at (R : Layer ℝ → Prop) (E : Engine ρ ℝ) (hR : ∀ l x r, R l → R (Layer.forward E x (l, r)).2.1) :
    ∀ (ls : List (Layer ℝ)) (p : Nat) (x : Tensor ℝ) (r : ρ), (∃ l, ls[p]? = some l ∧ R l) →
      ∃ l, (forwardLayers E ls x r).2.1[p]? = some l ∧ R l := by
  intro ls
  induction ls with
  | nil => intro p x r h; exact h
  | cons a ls ih =>
    intro p x r h
    unfold forwardLayers
    have hx := hR a x r
    rcases hf : Layer.forward E x (a, r) with ⟨e | y, a', r'⟩
    · rw [hf] at hx
      cases p with
      | zero =>
        obtain ⟨l, h1, h2⟩ := h
        cases h1
        exact ⟨a', rfl, hx h2⟩
      | succ p => exact h
    · rw [hf] at hx
      cases p with
      | zero =>
        obtain ⟨l, h1, h2⟩ := h
        cases h1
        exact ⟨a', rfl, hx h2⟩
      | succ p => exact ih p y r' h

theorem backwardLayers_at (R : Layer ℝ → Prop) (hR : ∀ l g, R l → R (Layer.backward g l).2) :
    ∀ (ls : List (Layer ℝ)) (p : Nat) (g : Tensor ℝ), (∃ l, ls[p]? = some l ∧ R l) →
      ∃ l, (backwardLayers ls g).2[p]? = some l ∧ R l := by
  intro ls
  induction ls with
  | nil => intro p g h; exact h
  | cons a ls ih =>
    intro p g h
    unfold backwardLayers
    rcases hb : backwardLayers ls g with ⟨e | g', ls'⟩
    · cases p with
      | zero => exact h
      | succ p =>
        have := ih p g h
        rw [hb] at this
        exact this
    · cases p with
      | zero =>
        obtain ⟨l, h1, h2⟩ := h
        cases h1
        exact ⟨_, rfl, hR a g' h2⟩
      | succ p =>
        have := ih p g h
        rw [hb] at this
        exact this

/-- An update of another layer. -/
theorem layer_update_other {i : Nat} {key : Nat × Bool} {m : Nat} (hk : key.1 ≠ i) (l : Layer ℝ) (opt : Optimizer (Nat × Bool) ℝ)
    (hq : Quiet opt key m) : Quiet (Layer.updateWeights (i, false) (i, true) (l, opt)).2.2 key m := by
  have k0 : key ≠ (i, false) := fun h => hk (by rw [h])
  have k1 : key ≠ (i, true) := fun h => hk (by rw [h])
  obtain ⟨kind, mode⟩ := l
  cases kind with
  | fc c =>
    unfold Layer.updateWeights
    dsimp only
    rcases c.weightGradients with _ | wg
    · exact hq
    · rcases c.biasGradients with _ | bg
      · exact hq
      · exact optimizePair_other k0 k1 opt _ _ _ _ hq
  | conv c =>
    unfold Layer.updateWeights
    dsimp only
    rcases c.weightGradients with _ | wg
    · exact hq
    · rcases c.biasGradients with _ | bg
      · exact hq
      · exact optimizePair_other k0 k1 opt _ _ _ _ hq
  | batchNorm c =>
    unfold Layer.updateWeights
    dsimp only
    rcases c.gammaGrad with _ | wg
    · exact hq
    · rcases c.betaGrad with _ | bg
      · exact hq
      · exact optimizePair_other k0 k1 opt _ _ _ _ hq
  | flatten k => exact hq
  | maxPool k => exact hq
  | dropout k => exact hq
  | activation k => exact hq

/-- An update of the layer itself. -/
theorem layer_update_stuck {oc ic kh kw : Nat} {k b : List Nat → ℝ} {l : Layer ℝ} (h : StuckLayer oc ic kh kw k b l) (i : Nat)
    (opt : Optimizer (Nat × Bool) ℝ) (h0 : Quiet opt (i, false) (kh * kw)) (h1 : Quiet opt (i, true) 1) :
    StuckLayer oc ic kh kw k b (Layer.updateWeights (i, false) (i, true) (l, opt)).2.1 ∧
      Quiet (Layer.updateWeights (i, false) (i, true) (l, opt)).2.2 (i, false) (kh * kw) ∧
      Quiet (Layer.updateWeights (i, false) (i, true) (l, opt)).2.2 (i, true) 1 := by
  obtain ⟨c, mode, rfl, hc⟩ := h
  unfold Layer.updateWeights
  dsimp only
  rcases hw : c.weightGradients with _ | wg
  · exact ⟨⟨c, mode, rfl, hc⟩, h0, h1⟩
  · rcases hb : c.biasGradients with _ | bg
    · exact ⟨⟨c, mode, rfl, hc⟩, h0, h1⟩
    · have hne : ((i, false) : Nat × Bool) ≠ (i, true) := by simp
      obtain ⟨q0, q1, s0, s1⟩ := optimizePair_frozen hne opt c.weights c.biases wg bg h0 h1 (hc.gw wg hw) (hc.gb bg hb)
      obtain ⟨t0, t1⟩ := optimizePair_shape hne opt c.weights c.biases wg bg
      refine ⟨⟨_, mode, rfl, ?_⟩, q0, q1⟩
      exact { ci := hc.ci, co := hc.co, hh := hc.hh, hw := hc.hw, ws := t0.1.trans hc.ws, wl := t0.2.trans hc.wl, bs := t1.1.trans hc.bs,
              bl := t1.2.trans hc.bl, w := hc.w.trans s0, b := hc.b.trans s1,
              gw := fun t ht => hc.gw t (hw.trans ht), gb := fun t ht => hc.gb t (hb.trans ht) }

theorem updateLayers_at {oc ic kh kw : Nat} {k b : List Nat → ℝ} : ∀ (ls : List (Layer ℝ)) (i p : Nat)
    (opt : Optimizer (Nat × Bool) ℝ), (∃ l, ls[p]? = some l ∧ StuckLayer oc ic kh kw k b l) →
    Quiet opt (i + p, false) (kh * kw) → Quiet opt (i + p, true) 1 →
    (∃ l, (updateLayers i ls opt).2.1[p]? = some l ∧ StuckLayer oc ic kh kw k b l) ∧
      Quiet (updateLayers i ls opt).2.2 (i + p, false) (kh * kw) ∧ Quiet (updateLayers i ls opt).2.2 (i + p, true) 1 := by
  have others : ∀ (ls : List (Layer ℝ)) (i : Nat) (opt : Optimizer (Nat × Bool) ℝ) (key : Nat × Bool) (m : Nat), key.1 < i →
      Quiet opt key m → Quiet (updateLayers i ls opt).2.2 key m := by
    intro ls
    induction ls with
    | nil => intro i opt key m _ h; exact h
    | cons a ls ih =>
      intro i opt key m hi h
      unfold updateLayers
      have h1 := layer_update_other (key := key) (m := m) (i := i) (by omega) a opt h
      rcases hu : Layer.updateWeights (i, false) (i, true) (a, opt) with ⟨e | u, a', opt'⟩
      · rw [hu] at h1
        exact h1
      · rw [hu] at h1
        exact ih (i + 1) opt' key m (by omega) h1
  intro ls
  induction ls with
  | nil => intro i p opt h q0 q1; exact ⟨h, q0, q1⟩
  | cons a ls ih =>
    intro i p opt h q0 q1
    unfold updateLayers
    cases p with
    | zero =>
      obtain ⟨l, e, hl⟩ := h
      cases e
      have h1 := layer_update_stuck hl i opt q0 q1
      rcases hu : Layer.updateWeights (i, false) (i, true) (a, opt) with ⟨e | u, a', opt'⟩
      · rw [hu] at h1
        exact ⟨⟨a', rfl, h1.1⟩, h1.2.1, h1.2.2⟩
      · rw [hu] at h1
        exact ⟨⟨a', rfl, h1.1⟩, others ls (i + 1) opt' _ _ (by simp) h1.2.1, others ls (i + 1) opt' _ _ (by simp) h1.2.2⟩
    | succ p =>
      have h0 := layer_update_other (key := (i + (p + 1), false)) (i := i) (by simp) a opt q0
      have h1 := layer_update_other (key := (i + (p + 1), true)) (i := i) (by simp) a opt q1
      rcases hu : Layer.updateWeights (i, false) (i, true) (a, opt) with ⟨e | u, a', opt'⟩
      · rw [hu] at h0 h1
        exact ⟨h, h0, h1⟩
      · rw [hu] at h0 h1
        have := ih (i + 1) p opt' h (by rw [show i + 1 + p = i + (p + 1) by omega]; exact h0)
          (by rw [show i + 1 + p = i + (p + 1) by omega]; exact h1)
        rw [show i + 1 + p = i + (p + 1) by omega] at this
        exact this

/-! ### Models -/

/-- Layer number `p` is such a convolution layer, and the optimizer remembers no velocity for the part that gets no gradient. -/
def StuckNet (p oc ic kh kw : Nat) (k b : List Nat → ℝ) (net : Net ρ ℝ) : Prop :=
  (∃ l, net.layers[p]? = some l ∧ StuckLayer oc ic kh kw k b l) ∧
  ∀ opt, net.optimizer = some opt → Quiet opt (p, false) (kh * kw) ∧ Quiet opt (p, true) 1

section
variable {p oc ic kh kw : Nat} {k b : List Nat → ℝ}

theorem predict_stuck (E : Engine ρ ℝ) (x : Tensor ℝ) {net : Net ρ ℝ} (h : StuckNet p oc ic kh kw k b net) :
    StuckNet p oc ic kh kw k b (predict E x net).2 := by
  have := forwardLayers_at (StuckLayer oc ic kh kw k b) E (fun l x r hl => layer_forward_stuck hl E x r) net.layers p x net.rng h.1
  exact ⟨this, h.2⟩

theorem backward_stuck (hd : Dims [oc, ic, kh, kw]) (g : Tensor ℝ) {net : Net ρ ℝ} (h : StuckNet p oc ic kh kw k b net) :
    StuckNet p oc ic kh kw k b (backward g net).2 := by
  have := backwardLayers_at (StuckLayer oc ic kh kw k b) (fun l g hl => layer_backward_stuck hd hl g) net.layers p g h.1
  exact ⟨this, h.2⟩

theorem updateWeights_stuck {net : Net ρ ℝ} (h : StuckNet p oc ic kh kw k b net) :
    StuckNet p oc ic kh kw k b (updateWeights net).2 := by
  obtain ⟨layers, loss, optimizer, rng⟩ := net
  unfold updateWeights
  cases layers with
  | nil => exact h
  | cons l ls =>
    cases optimizer with
    | none => exact h
    | some opt =>
      obtain ⟨q0, q1⟩ := h.2 opt rfl
      have := updateLayers_at (l :: ls) 0 p opt h.1 (by rw [Nat.zero_add]; exact q0) (by rw [Nat.zero_add]; exact q1)
      rw [Nat.zero_add] at this
      refine ⟨this.1, ?_⟩
      intro o ho
      cases ho
      exact this.2

theorem predictAll_stuck (E : Engine ρ ℝ) (xs : List (Tensor ℝ)) : ∀ {net : Net ρ ℝ}, StuckNet p oc ic kh kw k b net →
    StuckNet p oc ic kh kw k b (predictAll E xs net).2 := by
  induction xs with
  | nil => intro net h; exact h
  | cons x xs ih =>
    intro net h
    have h1 := predict_stuck E x h
    unfold predictAll
    rw [Mut.bind_apply]
    rcases hp : predict E x net with ⟨e | y, n1⟩
    · rw [hp] at h1
      exact h1
    · rw [hp] at h1
      have h2 := ih h1
      simp only [Mut.bind_apply]
      rcases hq : predictAll E xs n1 with ⟨e | ys, n2⟩
      · rw [hq] at h2
        exact h2
      · rw [hq] at h2
        exact h2

/-- An action on a training session keeps the model in this state, whatever its outcome. -/
def Keeps {α : Type} (P : Net ρ ℝ → Prop) (m : Mut (Session ρ ℝ) α) : Prop := ∀ s, P s.net → P (m s).2.net

theorem keeps_bind {α β : Type} {P : Net ρ ℝ → Prop} {m : Mut (Session ρ ℝ) α} {f : α → Mut (Session ρ ℝ) β} (hm : Keeps P m)
    (hf : ∀ a, Keeps P (f a)) : Keeps P (m >>= f) := by
  intro s hs
  rw [Mut.bind_apply]
  have := hm s hs
  rcases h : m s with ⟨e | a, s'⟩
  · rw [h] at this; exact this
  · rw [h] at this; exact hf a s' this

theorem keeps_lift {α : Type} (P : Net ρ ℝ → Prop) (r : Res α) : Keeps P (Mut.lift r) := fun _ h => h

theorem keeps_onNet {α : Type} {P : Net ρ ℝ → Prop} {m : Mut (Net ρ ℝ) α} (h : ∀ net, P net → P (m net).2) :
    Keeps P (Session.onNet m) := fun s hs => h s.net hs

theorem keeps_train {P : Net ρ ℝ → Prop} (E : Engine ρ ℝ) (h1 : ∀ x net, P net → P (predict E x net).2)
    (h2 : ∀ g net, P net → P (backward g net).2) (h3 : ∀ net, P net → P (updateWeights net).2) (inputs targets : List (Tensor ℝ))
    (n : Int) : Keeps P (train E inputs targets n) := by
  have hs : ∀ x i, Keeps P (trainSample E x targets i) := by
    intro x i
    unfold trainSample
    refine keeps_bind (keeps_onNet (h1 x)) fun pred => ?_
    refine keeps_bind (fun s hs => hs) fun s => ?_
    refine keeps_bind (keeps_lift P _) fun L => keeps_bind (keeps_lift P _) fun t => keeps_bind (keeps_lift P _) fun v =>
      keeps_bind (keeps_lift P _) fun tot => keeps_bind (fun s hs => hs) fun _ => keeps_bind (keeps_lift P _) fun g =>
      keeps_bind (keeps_onNet (h2 g)) fun _ => keeps_onNet h3
  have hss : ∀ (xs : List (Tensor ℝ)) i, Keeps P (trainSamples E targets i xs) := by
    intro xs
    induction xs with
    | nil => exact fun _ _ h => h
    | cons x xs ih => exact fun i => keeps_bind (hs x i) fun _ => ih (i + 1)
  have he : Keeps P (trainEpoch E inputs targets) := by
    unfold trainEpoch
    exact keeps_bind (keeps_lift P _) fun _ => keeps_bind (fun s hs => hs) fun _ => keeps_bind (hss inputs 0) fun _ =>
      keeps_bind (fun s hs => hs) fun _ => keeps_bind (keeps_lift P _) fun _ => fun s hs => hs
  unfold train Mut.forN
  generalize List.range n.toNat = L
  induction L with
  | nil => exact fun _ h => h
  | cons a L ih => exact keeps_bind he fun _ => ih

theorem quiet_fresh {K : Type} [DecidableEq K] {opt : Optimizer K ℝ} (h : Unregularised opt) (key : K) (m : Nat) : Quiet opt key m := by
  cases h with
  | sgd o h => exact ⟨h, by intro t ht; cases ht⟩
  | rmsprop o h => exact ⟨h, by intro t ht; cases ht⟩
  | adam o h1 h2 => exact ⟨⟨h1, h2⟩, by intro t ht; cases ht⟩

theorem after_stuck (hd : Dims [oc, ic, kh, kw]) (E : Engine ρ ℝ) (us : List Use) : ∀ {net : Net ρ ℝ}, PlainHistory us →
    StuckNet p oc ic kh kw k b net → StuckNet p oc ic kh kw k b (after E us net) := by
  induction us with
  | nil => intro net _ h; exact h
  | cons u us ih =>
    intro net hu h
    refine ih (fun L opt hm => hu L opt (by simp [hm])) ?_
    cases u with
    | train xs ys n =>
      exact keeps_train E (fun x net => predict_stuck E x) (fun g net => backward_stuck hd g) (fun net => updateWeights_stuck)
        xs ys n ⟨net, ofFn [1] fun _ => 0, []⟩ h
    | predict x => exact predict_stuck E x h
    | predictAll xs => exact predictAll_stuck E xs h
    | backward g => exact backward_stuck hd g h
    | updateWeights => exact updateWeights_stuck h
    | mode m =>
      obtain ⟨⟨l, h1, c, md, rfl, h2⟩, h3⟩ := h
      refine ⟨⟨⟨.conv c, m⟩, ?_, c, m, rfl, h2⟩, h3⟩
      simp only [Use.apply, setTrainingMode, List.getElem?_map, h1, Option.map_some]
      rfl
    | compile L opt =>
      refine ⟨h.1, ?_⟩
      intro o ho
      cases ho
      have := hu L opt (by simp)
      exact ⟨quiet_fresh this _ _, quiet_fresh this _ _⟩
    | addLayer l =>
      obtain ⟨⟨l0, h1, h2⟩, h3⟩ := h
      refine ⟨⟨l0, ?_, h2⟩, h3⟩
      simp only [Use.apply, addLayer]
      rw [List.getElem?_append_left (List.getElem?_eq_some_iff.1 h1).1]
      exact h1

end

/-- The element of an array at a position given by indices. -/
theorem data_at {ds idx : List Nat} (f : List Nat → ℝ) (hv : ValidIdx ds idx) : (ofFn ds f).data[ravel ds idx]? = some (f idx) := by
  unfold ofFn
  rw [List.getElem?_map, indices_ravel hv]
  rfl

theorem after_layer {p oc ic kh kw : Nat} (hd : Dims [oc, ic, kh, kw]) (hdb : Dims [oc, 1]) (E : Engine ρ ℝ) (net : Net ρ ℝ)
    (c : Conv ℝ) (mode : Bool) (k b : List Nat → ℝ) (hp : net.layers[p]? = some ⟨.conv c, mode⟩)
    (hci : c.inputChannels = ic) (hco : c.outputChannels = oc) (hh : c.kernelHeight = kh) (hw : c.kernelWidth = kw)
    (hk : c.weights = ofFn [oc, ic, kh, kw] k) (hb : c.biases = ofFn [oc, 1] b)
    (hg : c.weightGradients = none ∧ c.biasGradients = none) (hopt : ∀ opt, net.optimizer = some opt → Unregularised opt)
    (us : List Use) (hu : PlainHistory us) :
    ∃ (c' : Conv ℝ) (mode' : Bool) (k' b' : List Nat → ℝ), (after E us net).layers[p]? = some ⟨.conv c', mode'⟩ ∧
      c'.weights = ofFn [oc, ic, kh, kw] k' ∧ c'.biases = ofFn [oc, 1] b' ∧
      (∀ o i y x, o < oc → i < ic → y < kh → x < kw → ¬(o = 0 ∧ i = 0) → k' [o, i, y, x] = k [o, i, y, x]) ∧
      (∀ o, o < oc → o ≠ 0 → b' [o, 0] = b [o, 0]) ∧ c'.inputChannels = ic ∧ c'.outputChannels = oc ∧ c'.kernelHeight = kh ∧
      c'.kernelWidth = kw := by
  have h0 : StuckNet p oc ic kh kw k b net := by
    refine ⟨⟨_, hp, c, mode, rfl, ?_⟩, fun opt ho => ⟨quiet_fresh (hopt opt ho) _ _, quiet_fresh (hopt opt ho) _ _⟩⟩
    exact { ci := hci, co := hco, hh := hh, hw := hw, ws := by rw [hk]; rfl, wl := by rw [hk]; simp, bs := by rw [hb]; rfl, bl := by rw [hb]; simp,
            w := by rw [hk]; exact fun _ _ => rfl, b := by rw [hb]; exact fun _ _ => rfl,
            gw := (by intro t ht; rw [hg.1] at ht; cases ht), gb := (by intro t ht; rw [hg.2] at ht; cases ht) }
  obtain ⟨⟨l, hl, c', mode', rfl, hs⟩, -⟩ := after_stuck hd E us hu h0
  obtain ⟨k', hk'⟩ := exists_ofFn hd hs.ws hs.wl
  obtain ⟨b', hb'⟩ := exists_ofFn hdb hs.bs hs.bl
  refine ⟨c', mode', k', b', hl, hk', hb', ?_, ?_, hs.ci, hs.co, hs.hh, hs.hw⟩
  · intro o i y x ho hi hy hx hne
    have hv : ValidIdx [oc, ic, kh, kw] [o, i, y, x] := valid4_iff.2 ⟨o, i, y, x, rfl, ho, hi, hy, hx⟩
    have := hs.w (ravel [oc, ic, kh, kw] [o, i, y, x]) (by
      simp only [ravel, List.prod_cons, List.prod_nil, mul_one]
      rcases Nat.eq_zero_or_pos o with rfl | hop
      · have hip : 1 ≤ i := by omega
        calc kh * kw ≤ i * (kh * kw) := Nat.le_mul_of_pos_left _ hip
          _ ≤ _ := by omega
      · calc kh * kw ≤ ic * (kh * kw) := Nat.le_mul_of_pos_left _ (by omega)
          _ ≤ o * (ic * (kh * kw)) := Nat.le_mul_of_pos_left _ hop
          _ ≤ _ := by omega)
    rw [hk', data_at _ hv, data_at _ hv, Option.some.injEq] at this
    exact this
  · intro o ho hne
    have hv : ValidIdx [oc, 1] [o, 0] := valid2_iff.2 ⟨o, 0, rfl, ho, by omega⟩
    have := hs.b (ravel [oc, 1] [o, 0]) (by
      simp only [ravel, List.prod_cons, List.prod_nil, mul_one]
      omega)
    rw [hb', data_at _ hv, data_at _ hv, Option.some.injEq] at this
    exact this

/-- **C85 refuted.**  A model with a convolution layer as layer number `p` — any numbers of channels and kernel sizes, any kernels
`k` and biases `b`, anything before and after it.  After any history of calls — training on any data with any loss, any number of
epochs and any optimizer without weight decay, predictions, changes of mode, new layers, calls that throw — the kernels of all
filters but the first, and of all input channels but the first, and the biases of all filters but the first are exactly what they
were when the layer was constructed. -/
theorem C85_filters_refuted {p oc ic kh kw : Nat} (hd : Dims [oc, ic, kh, kw]) (hdb : Dims [oc, 1]) (E : Engine ρ ℝ) (net : Net ρ ℝ)
    (c : Conv ℝ) (mode : Bool) (k b : List Nat → ℝ) (hp : net.layers[p]? = some ⟨.conv c, mode⟩)
    (hci : c.inputChannels = ic) (hco : c.outputChannels = oc) (hh : c.kernelHeight = kh) (hw : c.kernelWidth = kw)
    (hk : c.weights = ofFn [oc, ic, kh, kw] k) (hb : c.biases = ofFn [oc, 1] b)
    (hg : c.weightGradients = none ∧ c.biasGradients = none) (hopt : ∀ opt, net.optimizer = some opt → Unregularised opt)
    (us : List Use) (hu : PlainHistory us) :
    ∃ (c' : Conv ℝ) (mode' : Bool) (k' b' : List Nat → ℝ), (after E us net).layers[p]? = some ⟨.conv c', mode'⟩ ∧
      c'.weights = ofFn [oc, ic, kh, kw] k' ∧ c'.biases = ofFn [oc, 1] b' ∧
      (∀ o i y x, o < oc → i < ic → y < kh → x < kw → ¬(o = 0 ∧ i = 0) → k' [o, i, y, x] = k [o, i, y, x]) ∧
      ∀ o, o < oc → o ≠ 0 → b' [o, 0] = b [o, 0] := by
  obtain ⟨c', m', k', b', h1, h2, h3, h4, h5, -⟩ := after_layer hd hdb E net c mode k b hp hci hco hh hw hk hb hg hopt us hu
  exact ⟨c', m', k', b', h1, h2, h3, h4, h5⟩

/-- **C85 refuted, seen from outside.**  In the same situation, for every input the layer accepts, its outputs in all output
channels but the first are the same before and after any amount of training. -/
theorem C85_outputs_refuted {p oc ic kh kw : Nat} (hd : Dims [oc, ic, kh, kw]) (hdb : Dims [oc, 1]) (E E' : Engine ρ ℝ)
    (net : Net ρ ℝ) (c : Conv ℝ) (mode : Bool) (k b : List Nat → ℝ) (hp : net.layers[p]? = some ⟨.conv c, mode⟩)
    (hci : c.inputChannels = ic) (hco : c.outputChannels = oc) (hh : c.kernelHeight = kh) (hw : c.kernelWidth = kw)
    (hk : c.weights = ofFn [oc, ic, kh, kw] k) (hb : c.biases = ofFn [oc, 1] b)
    (hg : c.weightGradients = none ∧ c.biasGradients = none) (hopt : ∀ opt, net.optimizer = some opt → Unregularised opt)
    (us : List Use) (hu : PlainHistory us) {n h w : Nat} (hdx : Dims [n, ic, h, w]) (hkh : kh ≤ h) (hkw : kw ≤ w)
    (ho : n * oc * h * w < 2 ^ 31) (x : List Nat → ℝ) (r r' : ρ) :
    ∃ (l' : Layer ℝ) (y y' : List Nat → ℝ), (after E us net).layers[p]? = some l' ∧
      (Layer.forward E' (ofFn [n, ic, h, w] x) (⟨.conv c, mode⟩, r)).1 = .ok (ofFn [n, oc, h - kh + 1, w - kw + 1] y) ∧
      (Layer.forward E' (ofFn [n, ic, h, w] x) (l', r')).1 = .ok (ofFn [n, oc, h - kh + 1, w - kw + 1] y') ∧
      ∀ s o i j, o < oc → o ≠ 0 → y' [s, o, i, j] = y [s, o, i, j] := by
  obtain ⟨c', m', k', b', h1, h2, h3, h4, h5, h6, h7, h8, h9⟩ :=
    after_layer hd hdb E net c mode k b hp hci hco hh hw hk hb hg hopt us hu
  have ht : ∀ x : ℝ, MathFn.toFloat x = x := fun _ => rfl
  refine ⟨_, conv 1 kh kw 1 0 1 h w k b x, conv 1 kh kw 1 0 1 h w k' b' x, h1, ?_, ?_, ?_⟩
  · have := conv_forward ht hdx hd hdb hkh hkw ho k b x c hci hco hh hw hk hb
    exact congrArg Prod.fst this
  · have := conv_forward ht hdx hd hdb hkh hkw ho k' b' x c' h6 h7 h8 h9 h2 h3
    exact congrArg Prod.fst this
  · intro s o i j hoc hne
    unfold conv
    simp only [List.getD_cons_zero, List.getD_cons_succ]
    rw [h5 o hoc hne]
    congr 1
    refine Finset.sum_congr rfl fun a ha => Finset.sum_congr rfl fun u hu => Finset.sum_congr rfl fun v hv => ?_
    rw [Finset.mem_range] at ha hu hv
    rw [h4 o a u v hoc (by have := hd.pos ic (by simp); omega) hu hv (fun hx => hne hx.1)]

/-- A layer with parameters `w`, `b` (dimensions `ds`, `es`) for which `backward` has stored the gradients `gw`, `gb`. -/
inductive Spec.HasParams (ds es : List Nat) (w b gw gb : List Nat → ℝ) : Layer ℝ → Prop where
  | fc (c : FC ℝ) (mode : Bool) (h1 : c.weights = ofFn ds w) (h2 : c.biases = ofFn es b)
      (h3 : c.weightGradients = some (ofFn ds gw)) (h4 : c.biasGradients = some (ofFn es gb)) : HasParams ds es w b gw gb ⟨.fc c, mode⟩
  | conv (c : Conv ℝ) (mode : Bool) (h1 : c.weights = ofFn ds w) (h2 : c.biases = ofFn es b)
      (h3 : c.weightGradients = some (ofFn ds gw)) (h4 : c.biasGradients = some (ofFn es gb)) : HasParams ds es w b gw gb ⟨.conv c, mode⟩
  | batchNorm (c : BatchNorm ℝ) (mode : Bool) (h1 : c.gamma = ofFn ds w) (h2 : c.beta = ofFn es b)
      (h3 : c.gammaGrad = some (ofFn ds gw)) (h4 : c.betaGrad = some (ofFn es gb)) : HasParams ds es w b gw gb ⟨.batchNorm c, mode⟩

/-- **C85, proved part.**  With plain SGD of non-zero rate, an update changes a parameter exactly when the gradient that `backward`
stored for it is not zero.  With C38 (the stored gradients of dense layers are the true ones), every parameter of a dense layer that
influences the loss is trained.  Missing for the full property: convolution layers,
whose stored gradients are zero for all filters but the first (C44, `C85_filters_refuted`). -/
theorem C85_changes_partial {K : Type} [DecidableEq K] {k0 k1 : K} (hk : k0 ≠ k1) {lr : ℝ} (hlr : lr ≠ 0) {opt : Optimizer K ℝ}
    (ho : PlainSGD lr opt) {ds es : List Nat} {w b gw gb : List Nat → ℝ} {l : Layer ℝ} (h : HasParams ds es w b gw gb l) :
    ∃ l' opt' w' b', Layer.updateWeights k0 k1 (l, opt) = (.ok (), l', opt') ∧ HasParams ds es w' b' gw gb l' ∧
      (∀ i, w' i ≠ w i ↔ gw i ≠ 0) ∧ ∀ i, b' i ≠ b i ↔ gb i ≠ 0 := by
  obtain ⟨opt', hp⟩ := plain_pair hk ho ds es w b gw gb
  have hne : ∀ a g : ℝ, a - lr * g ≠ a ↔ g ≠ 0 := by
    intro a g
    rw [not_iff_not, sub_eq_self, mul_eq_zero, or_iff_right hlr]
  cases h with
  | fc c mode h1 h2 h3 h4 =>
    refine ⟨⟨.fc { c with weights := ofFn ds fun i => w i - lr * gw i, biases := ofFn es fun i => b i - lr * gb i }, mode⟩, opt', _, _,
      ?_, .fc _ mode rfl rfl h3 h4, fun i => hne _ _, fun i => hne _ _⟩
    unfold Layer.updateWeights
    dsimp only
    rw [h3, h4]
    dsimp only
    rw [h1, h2, hp]
  | conv c mode h1 h2 h3 h4 =>
    refine ⟨⟨.conv { c with weights := ofFn ds fun i => w i - lr * gw i, biases := ofFn es fun i => b i - lr * gb i }, mode⟩, opt', _, _,
      ?_, .conv _ mode rfl rfl h3 h4, fun i => hne _ _, fun i => hne _ _⟩
    unfold Layer.updateWeights
    dsimp only
    rw [h3, h4]
    dsimp only
    rw [h1, h2, hp]
  | batchNorm c mode h1 h2 h3 h4 =>
    refine ⟨⟨.batchNorm { c with gamma := ofFn ds fun i => w i - lr * gw i, beta := ofFn es fun i => b i - lr * gb i }, mode⟩, opt', _, _,
      ?_, .batchNorm _ mode rfl rfl h3 h4, fun i => hne _ _, fun i => hne _ _⟩
    unfold Layer.updateWeights
    dsimp only
    rw [h3, h4]
    dsimp only
    rw [h1, h2, hp]

/-- The situation occurs: a freshly constructed convolution layer with two filters in a model compiled with Adam and with a history
of training, and that some of the weights that never change matter (`C44_kernel_refuted`: the true gradient is not zero). -/
example (E : Engine Unit ℝ) (w : List Nat → ℝ) (xs ys : List (Tensor ℝ)) (n : Int) :
    ∃ (net : Net Unit ℝ) (c : Conv ℝ), net.layers[0]? = some ⟨.conv c, true⟩ ∧ c.weights = ofFn [2, 1, 3, 3] w ∧
      c.biases = ofFn [2, 1] (fun _ => 0) ∧ c.weightGradients = none ∧ c.biasGradients = none ∧
      (∀ opt, net.optimizer = some opt → Unregularised opt) ∧
      PlainHistory [.compile .mse (.newSGD ⟨1 / 10, 9 / 10, 0, 0, true⟩), .train xs ys n, .mode false, .updateWeights] := by
  refine ⟨{ layers := [⟨.conv ⟨1, 2, 3, 3, 1, 0, 1, ofFn [2, 1, 3, 3] w, ofFn [2, 1] (fun _ => 0), none, none, none⟩, true⟩],
            optimizer := some (.newAdam ⟨1 / 1000, 9 / 10, 999 / 1000, 1 / 100, 0, 0, 0, 1, 0⟩), rng := () },
    ⟨1, 2, 3, 3, 1, 0, 1, ofFn [2, 1, 3, 3] w, ofFn [2, 1] (fun _ => 0), none, none, none⟩, rfl, rfl, rfl, rfl, rfl, ?_, ?_⟩
  · intro opt ho
    cases ho
    exact .adam _ le_rfl le_rfl
  · intro L opt hm
    simp only [List.mem_cons, List.not_mem_nil, or_false, Use.compile.injEq, reduceCtorEq] at hm
    rw [hm.2]
    exact .sgd _ rfl

end SmartDNN
