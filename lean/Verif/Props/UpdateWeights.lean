import Verif.Model.Network
import Verif.Props.Optimizers

/-!
# updateWeights (C56)
-/

namespace SmartDNN
open Net Spec

section
variable {ρ K T : Type} [DecidableEq K] [Zero T] [One T] [Add T] [Sub T] [Mul T] [Div T] [Neg T] [NatCast T] [IntCast T]
  [LT T] [DecidableLT T] [LE T] [DecidableLE T] [DecidableEq T] [MathFn T]

/-- Two tensors with the same dimensions, strides and number of stored elements. -/
def Spec.SameShape (a b : Tensor T) : Prop := b.shape = a.shape ∧ b.data.length = a.data.length

theorem Spec.SameShape.refl (a : Tensor T) : SameShape a a := ⟨rfl, rfl⟩
theorem Spec.SameShape.trans {a b c : Tensor T} (h1 : SameShape a b) (h2 : SameShape b c) : SameShape a c :=
  ⟨h2.1.trans h1.1, h2.2.trans h1.2⟩

theorem tensor_set_sameShape {t t' : Tensor T} {k : Int} {v : T} (h : t.set k v = .ok t') : SameShape t t' := by
  unfold Tensor.set wr at h
  split at h
  · cases h
    exact ⟨rfl, by simp⟩
  · cases h

theorem forN_post {σ : Type} (P : σ → Prop) {body : Nat → σ → Res σ} (hb : ∀ j s s', P s → body j s = .ok s' → P s') :
    ∀ {n : Nat} {s s' : σ}, P s → forN n s body = .ok s' → P s' := by
  intro n s s' h0 h
  unfold forN at h
  generalize List.range n = L at h
  induction L generalizing s with
  | nil => cases h; exact h0
  | cons j L ih =>
    rw [List.foldlM_cons] at h
    cases hj : body j s with
    | error e => rw [hj] at h; cases h
    | ok s1 =>
      rw [hj] at h
      exact ih (hb j s s1 h0 hj) h

theorem bind_ok {α β : Type} {r : Res α} {f : α → Res β} {b : β} (h : (r >>= f) = .ok b) :
    ∃ a, r = .ok a ∧ f a = .ok b := by
  cases r with
  | error e => cases h
  | ok a => exact ⟨a, rfl, h⟩

theorem sgd_loop_shape {o : SGDOptions T} {w b g w' b' : Tensor T} {lr : T} (h : SGD.loop o w b g lr = .ok (w', b')) :
    SameShape w w' := by
  refine forN_post (fun s : Tensor T × Tensor T => SameShape w s.1) ?_ (SameShape.refl w) h
  intro j s s' hs hj
  obtain ⟨a1, -, hj⟩ := bind_ok hj
  obtain ⟨a2, -, hj⟩ := bind_ok hj
  by_cases hm : o.momentum ≠ 0
  · rw [if_pos hm] at hj
    obtain ⟨a3, -, hj⟩ := bind_ok hj
    obtain ⟨a4, -, hj⟩ := bind_ok hj
    obtain ⟨a5, h5, hj⟩ := bind_ok hj
    cases hj
    exact hs.trans (tensor_set_sameShape h5)
  · rw [if_neg hm] at hj
    obtain ⟨a5, h5, hj⟩ := bind_ok hj
    cases hj
    exact hs.trans (tensor_set_sameShape h5)

theorem rms_loop_shape {o : RMSPropOptions T} {g : Tensor T} {s s' : RMSState T} {lr : T}
    (h : RMSProp.loop o s g lr = .ok s') : SameShape s.weight s'.weight := by
  refine forN_post (fun r : RMSState T => SameShape s.weight r.weight) ?_ (SameShape.refl _) h
  intro j r r' hs hj
  obtain ⟨a1, -, hj⟩ := bind_ok hj
  obtain ⟨a2, -, hj⟩ := bind_ok hj
  obtain ⟨a3, -, hj⟩ := bind_ok hj
  obtain ⟨a4, -, hj⟩ := bind_ok hj
  obtain ⟨⟨a5, d⟩, h5, hj⟩ := bind_ok hj
  have e5 : a5.weight = r.weight := by
    by_cases hc : o.centered
    · rw [if_pos hc] at h5
      obtain ⟨b1, -, h5⟩ := bind_ok h5
      obtain ⟨b2, -, h5⟩ := bind_ok h5
      cases h5
      rfl
    · rw [if_neg hc] at h5
      cases h5
      rfl
  by_cases hm : 0 < o.momentum
  · simp only [if_pos hm] at hj
    obtain ⟨b1, -, hj⟩ := bind_ok hj
    obtain ⟨b2, -, hj⟩ := bind_ok hj
    obtain ⟨b3, h3, hj⟩ := bind_ok hj
    cases hj
    exact hs.trans (e5 ▸ tensor_set_sameShape h3)
  · simp only [if_neg hm] at hj
    obtain ⟨b3, h3, hj⟩ := bind_ok hj
    cases hj
    exact hs.trans (e5 ▸ tensor_set_sameShape h3)

theorem adam_loop_shape {o : AdamOptions T} {lr : T} {it : Nat} {g : Tensor T} {s s' : Tensor T × Tensor T × Tensor T}
    (h : Adam.loop o lr it s g = .ok s') : SameShape s.1 s'.1 := by
  refine forN_post (fun r : Tensor T × Tensor T × Tensor T => SameShape s.1 r.1) ?_ (SameShape.refl _) h
  intro j r r' hs hj
  obtain ⟨a1, -, hj⟩ := bind_ok hj
  obtain ⟨a2, -, hj⟩ := bind_ok hj
  obtain ⟨a3, -, hj⟩ := bind_ok hj
  obtain ⟨a4, -, hj⟩ := bind_ok hj
  obtain ⟨a5, -, hj⟩ := bind_ok hj
  obtain ⟨a6, -, hj⟩ := bind_ok hj
  obtain ⟨a7, h7, hj⟩ := bind_ok hj
  cases hj
  exact hs.trans (tensor_set_sameShape h7)

theorem assign_sameShape {mem : K → Tensor T} {k : K} {t : Tensor T} (h : SameShape (mem k) t) (j : K) :
    SameShape (mem j) (assign mem k t j) := by
  unfold assign
  split
  · next e => rw [e]; exact h
  · exact SameShape.refl _

theorem stepPair_shape {r : T} {w w' : World K T} {p : K × Tensor T} (h : stepPair r w p = .ok w') (j : K) :
    SameShape (w.mem j) (w'.mem j) := by
  obtain ⟨mem, o⟩ := w
  cases o with
  | sgd o =>
    obtain ⟨a, ha, h⟩ := bind_ok h
    cases h
    obtain ⟨b, hb, ha⟩ := bind_ok ha
    cases ha
    exact assign_sameShape (sgd_loop_shape hb) j
  | rmsprop o =>
    obtain ⟨a, ha, h⟩ := bind_ok h
    cases h
    obtain ⟨b, hb, ha⟩ := bind_ok ha
    cases ha
    have hs : SameShape (mem p.1) b.weight := rms_loop_shape hb
    exact assign_sameShape hs j
  | adam o =>
    obtain ⟨a, ha, h⟩ := bind_ok h
    cases h
    obtain ⟨b, hb, ha⟩ := bind_ok ha
    cases ha
    have hs : SameShape (mem p.1) b.1 := adam_loop_shape hb
    exact assign_sameShape hs j

theorem updateTensors_shape {r : T} (ps : List (K × Tensor T)) : ∀ {w w' : World K T},
    w.updateTensors r ps = .ok w' → ∀ j, SameShape (w.mem j) (w'.mem j) := by
  induction ps with
  | nil => intro w w' h j; cases h; exact SameShape.refl _
  | cons p ps ih =>
    intro w w' h j
    rw [updateTensors_eq, List.foldlM_cons] at h
    obtain ⟨a, ha, h⟩ := bind_ok h
    exact (stepPair_shape ha j).trans (ih h j)

theorem optimizeM_shape (c : Call K T) (w : World K T) (j : K) :
    SameShape (w.mem j) ((World.optimizeM c w).2.mem j) := by
  unfold World.optimizeM
  by_cases h : c.weights.length ≠ c.gradients.length
  · rw [if_pos h]; exact SameShape.refl _
  · rw [if_neg h]
    rcases hu : (w.begin c.lr).updateTensors c.lr (c.weights.zip c.gradients) with e | w'
    · exact SameShape.refl _
    · have := updateTensors_shape _ hu j
      have hm : (w.begin c.lr).mem = w.mem := by
        unfold World.begin
        split <;> rfl
      rw [hm] at this
      exact this

theorem optimizePair_shape {k0 k1 : K} (hk : k0 ≠ k1) (opt : Optimizer K T) (p0 p1 g0 g1 : Tensor T) :
    SameShape p0 (Layer.optimizePair k0 k1 opt p0 p1 g0 g1).2.1 ∧
    SameShape p1 (Layer.optimizePair k0 k1 opt p0 p1 g0 g1).2.2.1 := by
  have h := optimizeM_shape ⟨[k0, k1], [g0, g1], -1⟩ (⟨fun k => if k = k0 then p0 else p1, opt⟩ : World K T)
  constructor
  · have := h k0
    simp only [if_true] at this
    exact this
  · have := h k1
    simp only [if_neg hk.symm] at this
    exact this

/-! ### One layer -/

/-- `Updated l l'`: `l'` is `l` with possibly other values in the weights and biases (`gamma` and `beta` for batch
normalisation) and nothing else changed; other kinds of layers are unchanged. -/
inductive Spec.Updated : Layer T → Layer T → Prop where
  | fc (k : FC T) (mode : Bool) (w b : Tensor T) (hw : SameShape k.weights w) (hb : SameShape k.biases b) :
      Updated ⟨.fc k, mode⟩ ⟨.fc { k with weights := w, biases := b }, mode⟩
  | conv (k : Conv T) (mode : Bool) (w b : Tensor T) (hw : SameShape k.weights w) (hb : SameShape k.biases b) :
      Updated ⟨.conv k, mode⟩ ⟨.conv { k with weights := w, biases := b }, mode⟩
  | batchNorm (k : BatchNorm T) (mode : Bool) (w b : Tensor T) (hw : SameShape k.gamma w) (hb : SameShape k.beta b) :
      Updated ⟨.batchNorm k, mode⟩ ⟨.batchNorm { k with gamma := w, beta := b }, mode⟩
  | unchanged (l : Layer T) : Updated l l

/-- Layers with parameters: fully connected, convolution, batch normalisation. -/
def Spec.Trainable (l : Layer T) : Prop :=
  match l.kind with
  | .fc _ | .conv _ | .batchNorm _ => True
  | _ => False

/-- `backward` has stored the gradients of both parameters. -/
def Spec.HasGradients (l : Layer T) : Prop :=
  match l.kind with
  | .fc k => k.weightGradients.isSome ∧ k.biasGradients.isSome
  | .conv k => k.weightGradients.isSome ∧ k.biasGradients.isSome
  | .batchNorm k => k.gammaGrad.isSome ∧ k.betaGrad.isSome
  | _ => False

/-- `updateWeights` of a layer changes nothing in the layer but the values of its parameters. -/
theorem C56_layer_changes {k0 k1 : K} (hk : k0 ≠ k1) (l : Layer T) (opt : Optimizer K T) :
    Updated l (Layer.updateWeights k0 k1 (l, opt)).2.1 := by
  obtain ⟨kind, mode⟩ := l
  cases kind with
  | fc k =>
    unfold Layer.updateWeights
    rcases hw : k.weightGradients with _ | wg
    · simp only [hw]; exact .unchanged _
    · rcases hb : k.biasGradients with _ | bg
      · simp only [hw, hb]; exact .unchanged _
      · simp only [hw, hb]
        have := optimizePair_shape hk opt k.weights k.biases wg bg
        have h2 := Updated.fc k mode _ _ this.1 this.2
        rw [hw, hb] at h2
        exact h2
  | conv k =>
    unfold Layer.updateWeights
    rcases hw : k.weightGradients with _ | wg
    · simp only [hw]; exact .unchanged _
    · rcases hb : k.biasGradients with _ | bg
      · simp only [hw, hb]; exact .unchanged _
      · simp only [hw, hb]
        have := optimizePair_shape hk opt k.weights k.biases wg bg
        have h2 := Updated.conv k mode _ _ this.1 this.2
        rw [hw, hb] at h2
        exact h2
  | batchNorm k =>
    unfold Layer.updateWeights
    rcases hw : k.gammaGrad with _ | wg
    · simp only [hw]; exact .unchanged _
    · rcases hb : k.betaGrad with _ | bg
      · simp only [hw, hb]; exact .unchanged _
      · simp only [hw, hb]
        have := optimizePair_shape hk opt k.gamma k.beta wg bg
        have h2 := Updated.batchNorm k mode _ _ this.1 this.2
        rw [hw, hb] at h2
        exact h2
  | flatten k => exact .unchanged _
  | maxPool k => exact .unchanged _
  | dropout k => exact .unchanged _
  | activation k => exact .unchanged _

/-- Layers without parameters: nothing happens, and the optimizer is not called. -/
theorem C56_layer_other (k0 k1 : K) (l : Layer T) (opt : Optimizer K T) (h : ¬ Trainable l) :
    Layer.updateWeights k0 k1 (l, opt) = (.ok (), (l, opt)) := by
  obtain ⟨kind, mode⟩ := l
  cases kind <;> first | rfl | exact absurd trivial h

/-- A trainable layer without gradients throws `std::runtime_error`; layer and optimizer are unchanged. -/
theorem C56_layer_missing (k0 k1 : K) (l : Layer T) (opt : Optimizer K T) (h : Trainable l) (hg : ¬ HasGradients l) :
    Layer.updateWeights k0 k1 (l, opt) = (.error .runtimeError, (l, opt)) := by
  obtain ⟨kind, mode⟩ := l
  cases kind with
  | fc k =>
    unfold Layer.updateWeights
    simp only [HasGradients] at hg
    rcases hw : k.weightGradients with _ | wg
    · simp only [hw]
    · rcases hb : k.biasGradients with _ | bg
      · simp only [hw, hb]
      · exact absurd ⟨by simp [hw], by simp [hb]⟩ hg
  | conv k =>
    unfold Layer.updateWeights
    simp only [HasGradients] at hg
    rcases hw : k.weightGradients with _ | wg
    · simp only [hw]
    · rcases hb : k.biasGradients with _ | bg
      · simp only [hw, hb]
      · exact absurd ⟨by simp [hw], by simp [hb]⟩ hg
  | batchNorm k =>
    unfold Layer.updateWeights
    simp only [HasGradients] at hg
    rcases hw : k.gammaGrad with _ | wg
    · simp only [hw]
    · rcases hb : k.betaGrad with _ | bg
      · simp only [hw, hb]
      · exact absurd ⟨by simp [hw], by simp [hb]⟩ hg
  | flatten k => exact h.elim
  | maxPool k => exact h.elim
  | dropout k => exact h.elim
  | activation k => exact h.elim

/-! ### When the optimizer succeeds -/

theorem tensor_set_ok (t : Tensor T) (k : Nat) (v : T) (h : k < t.data.length) :
    ∃ t', t.set k v = .ok t' ∧ SameShape t t' := by
  refine ⟨{ t with data := t.data.set k v }, ?_, rfl, by simp⟩
  unfold Tensor.set
  rw [wr_lt h]
  rfl

theorem rd_ok' {d : List T} {k : Nat} (h : k < d.length) : ∃ x, rd d k = .ok x := ⟨d[k], rd_lt h⟩

theorem forN_total {σ : Type} (P : σ → Prop) {body : Nat → σ → Res σ} {n : Nat} {s : σ} (h0 : P s)
    (hb : ∀ j, j < n → ∀ s, P s → ∃ s', body j s = .ok s' ∧ P s') : ∃ s', forN n s body = .ok s' ∧ P s' := by
  induction n with
  | zero => exact ⟨s, rfl, h0⟩
  | succ n ih =>
    obtain ⟨s1, h1, p1⟩ := ih (fun j hj => hb j (by omega))
    obtain ⟨s2, h2, p2⟩ := hb n (by omega) s1 p1
    exact ⟨s2, by rw [forN_succ, h1]; exact h2, p2⟩

theorem sgd_loop_ok (o : SGDOptions T) (w b g : Tensor T) (lr : T) (hw : w.shape.size ≤ w.data.length)
    (hb : w.shape.size ≤ b.data.length) (hg : w.shape.size ≤ g.data.length) :
    ∃ r, SGD.loop o w b g lr = .ok r ∧ SameShape w r.1 ∧ SameShape b r.2 := by
  refine forN_total (fun r : Tensor T × Tensor T => SameShape w r.1 ∧ SameShape b r.2)
    ⟨SameShape.refl _, SameShape.refl _⟩ ?_
  rintro j hj ⟨w1, b1⟩ ⟨h1, h2⟩
  obtain ⟨x1, e1⟩ := rd_ok' (d := g.data) (k := j) (by omega)
  obtain ⟨x2, e2⟩ := rd_ok' (d := w1.data) (k := j) (by rw [h1.2]; omega)
  obtain ⟨x3, e3⟩ := rd_ok' (d := b1.data) (k := j) (by rw [h2.2]; omega)
  have e3' : b1.get j = .ok x3 := e3
  simp only [e1, e2, e3', Except.bind_ok']
  by_cases hm : o.momentum ≠ 0
  · rw [if_pos hm]
    obtain ⟨b', e4, h4⟩ := tensor_set_ok b1 j (o.momentum * x3 + (1 - o.dampening) *
      (if o.weightDecay ≠ 0 then x1 + o.weightDecay * x2 else x1)) (by rw [h2.2]; omega)
    rw [e4, Except.bind_ok']
    obtain ⟨w', e5, h5⟩ := tensor_set_ok w1 j (x2 - lr * (if o.nesterov then
      (if o.weightDecay ≠ 0 then x1 + o.weightDecay * x2 else x1) + o.momentum *
      (o.momentum * x3 + (1 - o.dampening) * (if o.weightDecay ≠ 0 then x1 + o.weightDecay * x2 else x1)) else
      (o.momentum * x3 + (1 - o.dampening) * (if o.weightDecay ≠ 0 then x1 + o.weightDecay * x2 else x1))))
      (by rw [h1.2]; omega)
    rw [e5]
    exact ⟨(w', b'), rfl, h1.trans h5, h2.trans h4⟩
  · rw [if_neg hm]
    obtain ⟨w', e5, h5⟩ := tensor_set_ok w1 j (x2 - lr *
      (if o.weightDecay ≠ 0 then x1 + o.weightDecay * x2 else x1)) (by rw [h1.2]; omega)
    rw [e5]
    exact ⟨(w', b1), rfl, h1.trans h5, h2⟩

theorem rms_loop_ok (o : RMSPropOptions T) (s : RMSState T) (g : Tensor T) (lr : T)
    (hw : s.weight.shape.size ≤ s.weight.data.length) (hq : s.weight.shape.size ≤ s.sq.data.length)
    (hm : s.weight.shape.size ≤ s.mean.data.length) (hv : s.weight.shape.size ≤ s.vel.data.length)
    (hg : s.weight.shape.size ≤ g.data.length) :
    ∃ r, RMSProp.loop o s g lr = .ok r ∧ SameShape s.weight r.weight ∧ SameShape s.sq r.sq ∧
      SameShape s.mean r.mean ∧ SameShape s.vel r.vel := by
  refine forN_total (fun r : RMSState T => SameShape s.weight r.weight ∧ SameShape s.sq r.sq ∧
      SameShape s.mean r.mean ∧ SameShape s.vel r.vel)
    ⟨SameShape.refl _, SameShape.refl _, SameShape.refl _, SameShape.refl _⟩ ?_
  rintro j hj ⟨w1, q1, m1, v1⟩ ⟨h1, h2, h3, h4⟩
  simp only at h1 h2 h3 h4
  obtain ⟨x1, e1⟩ := rd_ok' (d := g.data) (k := j) (by omega)
  obtain ⟨x2, e2⟩ := rd_ok' (d := w1.data) (k := j) (by rw [h1.2]; omega)
  obtain ⟨x3, e3⟩ := rd_ok' (d := q1.data) (k := j) (by rw [h2.2]; omega)
  obtain ⟨x4, e4⟩ := rd_ok' (d := m1.data) (k := j) (by rw [h3.2]; omega)
  obtain ⟨x5, e5⟩ := rd_ok' (d := v1.data) (k := j) (by rw [h4.2]; omega)
  have e3' : q1.get j = .ok x3 := e3
  have e4' : m1.get j = .ok x4 := e4
  have e5' : v1.get j = .ok x5 := e5
  simp only [e1, e2, e3', e4', e5', Except.bind_ok']
  generalize (if o.weightDecay ≠ 0 then x1 + o.weightDecay * x2 else x1) = gr
  obtain ⟨q', e6, h6⟩ := tensor_set_ok q1 j (o.alpha * x3 + (1 - o.alpha) * gr * gr) (by rw [h2.2]; omega)
  rw [e6]
  simp only [Except.bind_ok']
  obtain ⟨m', e7, h7⟩ := tensor_set_ok m1 j (o.alpha * x4 + (1 - o.alpha) * gr) (by rw [h3.2]; omega)
  rw [e7]
  by_cases hc : o.centered
  · simp only [if_pos hc, Except.bind_ok', Except.pure_eq', e5']
    generalize gr / _ = up
    by_cases hm : 0 < o.momentum
    · simp only [if_pos hm]
      obtain ⟨v', e8, h8⟩ := tensor_set_ok v1 j (o.momentum * x5 + up) (by rw [h4.2]; omega)
      obtain ⟨w', e9, h9⟩ := tensor_set_ok w1 j (x2 - lr * (o.momentum * x5 + up)) (by rw [h1.2]; omega)
      rw [e8, Except.bind_ok', e9]
      exact ⟨_, rfl, h1.trans h9, h2.trans h6, h3.trans h7, h4.trans h8⟩
    · simp only [if_neg hm]
      obtain ⟨w', e9, h9⟩ := tensor_set_ok w1 j (x2 - lr * up) (by rw [h1.2]; omega)
      rw [e9]
      exact ⟨_, rfl, h1.trans h9, h2.trans h6, h3.trans h7, h4⟩
  · simp only [if_neg hc, Except.bind_ok', Except.pure_eq', e5']
    generalize gr / _ = up
    by_cases hm : 0 < o.momentum
    · simp only [if_pos hm]
      obtain ⟨v', e8, h8⟩ := tensor_set_ok v1 j (o.momentum * x5 + up) (by rw [h4.2]; omega)
      obtain ⟨w', e9, h9⟩ := tensor_set_ok w1 j (x2 - lr * (o.momentum * x5 + up)) (by rw [h1.2]; omega)
      rw [e8, Except.bind_ok', e9]
      exact ⟨_, rfl, h1.trans h9, h2.trans h6, h3, h4.trans h8⟩
    · simp only [if_neg hm]
      obtain ⟨w', e9, h9⟩ := tensor_set_ok w1 j (x2 - lr * up) (by rw [h1.2]; omega)
      rw [e9]
      exact ⟨_, rfl, h1.trans h9, h2.trans h6, h3, h4⟩

theorem adam_loop_ok (o : AdamOptions T) (lr : T) (it : Nat) (s : Tensor T × Tensor T × Tensor T) (g : Tensor T)
    (hw : s.1.shape.size ≤ s.1.data.length) (hm : s.1.shape.size ≤ s.2.1.data.length)
    (hv : s.1.shape.size ≤ s.2.2.data.length) (hg : s.1.shape.size ≤ g.data.length) :
    ∃ r, Adam.loop o lr it s g = .ok r ∧ SameShape s.1 r.1 ∧ SameShape s.2.1 r.2.1 ∧ SameShape s.2.2 r.2.2 := by
  refine forN_total (fun r : Tensor T × Tensor T × Tensor T => SameShape s.1 r.1 ∧ SameShape s.2.1 r.2.1 ∧
      SameShape s.2.2 r.2.2) ⟨SameShape.refl _, SameShape.refl _, SameShape.refl _⟩ ?_
  rintro j hj ⟨w1, m1, v1⟩ ⟨h1, h2, h3⟩
  simp only at h1 h2 h3
  obtain ⟨x1, e1⟩ := rd_ok' (d := g.data) (k := j) (by omega)
  obtain ⟨x2, e2⟩ := rd_ok' (d := w1.data) (k := j) (by rw [h1.2]; omega)
  obtain ⟨x3, e3⟩ := rd_ok' (d := m1.data) (k := j) (by rw [h2.2]; omega)
  obtain ⟨x4, e4⟩ := rd_ok' (d := v1.data) (k := j) (by rw [h3.2]; omega)
  have e3' : m1.get j = .ok x3 := e3
  have e4' : v1.get j = .ok x4 := e4
  simp only [e1, e2, e3', e4', Except.bind_ok']
  generalize Adam.updateParameter o lr it x2 x1 x3 x4 (Adam.alphaT o lr it) = r
  obtain ⟨m', e6, h6⟩ := tensor_set_ok m1 j r.2.1 (by rw [h2.2]; omega)
  obtain ⟨v', e7, h7⟩ := tensor_set_ok v1 j r.2.2 (by rw [h3.2]; omega)
  obtain ⟨w', e8, h8⟩ := tensor_set_ok w1 j r.1 (by rw [h1.2]; omega)
  rw [e6, Except.bind_ok', e7, Except.bind_ok', e8]
  exact ⟨_, rfl, h1.trans h8, h2.trans h6, h3.trans h7⟩

/-- The entry for address `k` of a map of the optimizer, if there is one, has room for `n` elements. -/
def Spec.Room (m : TMap K T) (k : K) (n : Nat) : Prop := ∀ t, m k = some t → n ≤ t.data.length

/-- What the optimizer remembers about the tensor at address `k`, if anything, has room for `n` elements.  True of
any `n` for a fresh optimizer, and of the size of the tensor once it has been updated. -/
def Spec.Remembers (opt : Optimizer K T) (k : K) (n : Nat) : Prop :=
  match opt with
  | .sgd o => Room o.momentumBuffers k n
  | .rmsprop o => Room o.squaredGrads k n ∧ Room o.meanGrads k n ∧ Room o.velocityBuffers k n
  | .adam o => Room o.m k n ∧ Room o.v k n

theorem room_lookup {m : TMap K T} {k : K} {s : Shape} (h : Room m k s.size) :
    s.size ≤ (lookupOrZero m k s).data.length := by
  unfold lookupOrZero
  rcases hm : m k with _ | t
  · simp [Tensor.full]
  · exact h t hm

theorem room_assign_same (m : TMap K T) (k : K) (t : Tensor T) {n : Nat} (h : n ≤ t.data.length) :
    Room (assign m k (some t)) k n := by
  intro t' ht
  rw [assign_same] at ht
  cases ht
  exact h

theorem room_assign_ne (m : TMap K T) {k k' : K} (hk : k' ≠ k) (t : Option (Tensor T)) {n : Nat} (h : Room m k' n) :
    Room (assign m k t) k' n := by
  intro t' ht
  rw [assign_ne _ _ hk] at ht
  exact h t' ht

theorem stepPair_ok (r : T) (w : World K T) (k : K) (g : Tensor T)
    (hw : (w.mem k).shape.size ≤ (w.mem k).data.length) (hg : (w.mem k).shape.size ≤ g.data.length)
    (hr : Remembers w.opt k (w.mem k).shape.size) :
    ∃ w', stepPair r w (k, g) = .ok w' ∧ Remembers w'.opt k (w.mem k).shape.size ∧
      (∀ k' n, k' ≠ k → Remembers w.opt k' n → Remembers w'.opt k' n) ∧ (∀ k', k' ≠ k → w'.mem k' = w.mem k') := by
  obtain ⟨mem, o⟩ := w
  simp only at hw hg
  cases o with
  | sgd o =>
    obtain ⟨l, hl, h1, h2⟩ := sgd_loop_ok o.opts (mem k) (lookupOrZero o.momentumBuffers k (mem k).shape) g
      (currentLR o.opts.learningRate r) hw (room_lookup hr) hg
    refine ⟨⟨assign mem k l.1, .sgd { o with momentumBuffers := assign o.momentumBuffers k (some l.2) }⟩, ?_, ?_, ?_, ?_⟩
    · show (SGD.updateTensor o mem k g _ >>= _) = _
      unfold SGD.updateTensor
      simp only [hl]
      rfl
    · exact room_assign_same _ _ _ (by rw [h2.2]; exact room_lookup hr)
    · exact fun k' n hk h => room_assign_ne _ hk _ h
    · exact fun k' hk => assign_ne _ _ hk
  | rmsprop o =>
    obtain ⟨hr1, hr2, hr3⟩ := hr
    obtain ⟨l, hl, h1, h2, h3, h4⟩ := rms_loop_ok o.opts ⟨mem k, lookupOrZero o.squaredGrads k (mem k).shape,
      lookupOrZero o.meanGrads k (mem k).shape, lookupOrZero o.velocityBuffers k (mem k).shape⟩ g
      (currentLR o.opts.learningRate r) hw (room_lookup hr1) (room_lookup hr2) (room_lookup hr3) hg
    refine ⟨⟨assign mem k l.weight, .rmsprop { o with
      squaredGrads := assign o.squaredGrads k (some l.sq)
      meanGrads := if o.opts.centered then assign o.meanGrads k (some l.mean) else o.meanGrads
      velocityBuffers := if 0 < o.opts.momentum then assign o.velocityBuffers k (some l.vel)
        else o.velocityBuffers }⟩, ?_, ⟨?_, ?_, ?_⟩, ?_, ?_⟩
    · show (RMSProp.updateTensor o mem k g _ >>= _) = _
      unfold RMSProp.updateTensor
      simp only [hl]
      rfl
    · exact room_assign_same _ _ _ (by rw [h2.2]; exact room_lookup hr1)
    · simp only
      split
      · exact room_assign_same _ _ _ (by rw [h3.2]; exact room_lookup hr2)
      · exact hr2
    · simp only
      split
      · exact room_assign_same _ _ _ (by rw [h4.2]; exact room_lookup hr3)
      · exact hr3
    · rintro k' n hk ⟨g1, g2, g3⟩
      refine ⟨room_assign_ne _ hk _ g1, ?_, ?_⟩
      · simp only
        split
        · exact room_assign_ne _ hk _ g2
        · exact g2
      · simp only
        split
        · exact room_assign_ne _ hk _ g3
        · exact g3
    · exact fun k' hk => assign_ne _ _ hk
  | adam o =>
    obtain ⟨hr1, hr2⟩ := hr
    obtain ⟨l, hl, h1, h2, h3⟩ := adam_loop_ok o.opts o.learningRate o.iterations
      (mem k, lookupOrZero o.m k (mem k).shape, lookupOrZero o.v k (mem k).shape) g hw (room_lookup hr1)
      (room_lookup hr2) hg
    refine ⟨⟨assign mem k l.1, .adam { o with m := assign o.m k (some l.2.1), v := assign o.v k (some l.2.2) }⟩,
      ?_, ⟨?_, ?_⟩, ?_, ?_⟩
    · show (Adam.updateTensor o mem k g >>= _) = _
      unfold Adam.updateTensor
      rw [hl]
      rfl
    · exact room_assign_same _ _ _ (by rw [h2.2]; exact room_lookup hr1)
    · exact room_assign_same _ _ _ (by rw [h3.2]; exact room_lookup hr2)
    · rintro k' n hk ⟨g1, g2⟩
      exact ⟨room_assign_ne _ hk _ g1, room_assign_ne _ hk _ g2⟩
    · exact fun k' hk => assign_ne _ _ hk

theorem begin_mem (w : World K T) (r : T) : (w.begin r).mem = w.mem := by
  unfold World.begin
  split <;> rfl

theorem begin_remembers (w : World K T) (r : T) (k : K) (n : Nat) (h : Remembers w.opt k n) :
    Remembers (w.begin r).opt k n := by
  obtain ⟨mem, o⟩ := w
  cases o <;> exact h

/-- A tensor has at least as many stored elements as its shape says (all tensors the library makes do). -/
def Spec.Full (t : Tensor T) : Prop := t.shape.size ≤ t.data.length

theorem optimizePair_ok {k0 k1 : K} (hk : k0 ≠ k1) (opt : Optimizer K T) (p0 p1 g0 g1 : Tensor T)
    (h0 : Full p0) (h1 : Full p1) (hg0 : p0.shape.size ≤ g0.data.length) (hg1 : p1.shape.size ≤ g1.data.length)
    (r0 : Remembers opt k0 p0.shape.size) (r1 : Remembers opt k1 p1.shape.size) :
    (Layer.optimizePair k0 k1 opt p0 p1 g0 g1).1 = .ok () ∧
    Remembers (Layer.optimizePair k0 k1 opt p0 p1 g0 g1).2.2.2 k0 p0.shape.size ∧
    Remembers (Layer.optimizePair k0 k1 opt p0 p1 g0 g1).2.2.2 k1 p1.shape.size ∧
    (∀ k n, k ≠ k0 → k ≠ k1 → Remembers opt k n →
      Remembers (Layer.optimizePair k0 k1 opt p0 p1 g0 g1).2.2.2 k n) := by
  let w0 : World K T := ⟨fun k => if k = k0 then p0 else p1, opt⟩
  have m0 : (w0.begin (-1)).mem k0 = p0 := by rw [begin_mem]; exact if_pos rfl
  have m1 : (w0.begin (-1)).mem k1 = p1 := by rw [begin_mem]; exact if_neg hk.symm
  obtain ⟨wa, ea, ra0, ra, ma⟩ := stepPair_ok (-1) (w0.begin (-1)) k0 g0 (by rw [m0]; exact h0) (by rw [m0]; exact hg0)
    (by rw [m0]; exact begin_remembers w0 _ _ _ r0)
  have m1a : wa.mem k1 = p1 := (ma k1 hk.symm).trans m1
  obtain ⟨wb, eb, rb1, rb, mb⟩ := stepPair_ok (-1) wa k1 g1 (by rw [m1a]; exact h1) (by rw [m1a]; exact hg1)
    (by rw [m1a]; exact ra _ _ hk.symm (begin_remembers w0 _ _ _ r1))
  have hu : (w0.begin (-1)).updateTensors (-1) [(k0, g0), (k1, g1)] = .ok wb := by
    rw [updateTensors_eq, List.foldlM_cons, ea, Except.bind_ok', List.foldlM_cons, eb]
    rfl
  have ho : World.optimizeM ⟨[k0, k1], [g0, g1], -1⟩ w0 = (.ok (), wb) := by
    unfold World.optimizeM
    rw [if_neg (by simp)]
    show (match (w0.begin (-1)).updateTensors (-1) [(k0, g0), (k1, g1)] with
      | .ok w' => ((.ok () : Res Unit), w')
      | .error e => (.error e, w0)) = _
    rw [hu]
  have hp : Layer.optimizePair k0 k1 opt p0 p1 g0 g1 = (.ok (), wb.mem k0, wb.mem k1, wb.opt) := by
    show ((World.optimizeM ⟨[k0, k1], [g0, g1], -1⟩ w0).1, (World.optimizeM ⟨[k0, k1], [g0, g1], -1⟩ w0).2.mem k0,
      (World.optimizeM ⟨[k0, k1], [g0, g1], -1⟩ w0).2.mem k1, (World.optimizeM ⟨[k0, k1], [g0, g1], -1⟩ w0).2.opt) = _
    rw [ho]
  rw [hp]
  rw [m1a] at rb1
  rw [m0] at ra0
  exact ⟨rfl, rb _ _ hk ra0, rb1, fun k n n0 n1 h => rb _ _ n1 (ra _ _ n0 (begin_remembers w0 _ _ _ h))⟩

/-! ### The two parameters of a layer and their gradients -/

/-- The two parameter tensors of a layer. -/
def Spec.params (l : Layer T) : Option (Tensor T × Tensor T) :=
  match l.kind with
  | .fc k => some (k.weights, k.biases)
  | .conv k => some (k.weights, k.biases)
  | .batchNorm k => some (k.gamma, k.beta)
  | _ => none

/-- The gradients stored by `backward`, if both are there. -/
def Spec.grads (l : Layer T) : Option (Tensor T × Tensor T) :=
  match l.kind with
  | .fc k => k.weightGradients.bind fun a => k.biasGradients.map fun b => (a, b)
  | .conv k => k.weightGradients.bind fun a => k.biasGradients.map fun b => (a, b)
  | .batchNorm k => k.gammaGrad.bind fun a => k.betaGrad.map fun b => (a, b)
  | _ => none

theorem params_trainable (l : Layer T) : Trainable l ↔ ∃ p, params l = some p := by
  obtain ⟨kind, mode⟩ := l
  cases kind <;> simp [Trainable, params]

theorem grads_iff (l : Layer T) : HasGradients l ↔ ∃ g, grads l = some g := by
  obtain ⟨kind, mode⟩ := l
  cases kind <;> simp [HasGradients, grads, Option.isSome_iff_exists, Option.bind_eq_some_iff]

/-- `updateWeights` of a trainable layer with gradients: the optimizer is called once, with the two parameters and
their two gradients in this order, and its results become the new parameters. -/
theorem C56_layer_values (k0 k1 : K) (l : Layer T) (opt : Optimizer K T) (p g : Tensor T × Tensor T)
    (hp : params l = some p) (hg : grads l = some g) :
    (Layer.updateWeights k0 k1 (l, opt)).1 = (Layer.optimizePair k0 k1 opt p.1 p.2 g.1 g.2).1 ∧
    params (Layer.updateWeights k0 k1 (l, opt)).2.1 = some ((Layer.optimizePair k0 k1 opt p.1 p.2 g.1 g.2).2.1,
      (Layer.optimizePair k0 k1 opt p.1 p.2 g.1 g.2).2.2.1) ∧
    (Layer.updateWeights k0 k1 (l, opt)).2.2 = (Layer.optimizePair k0 k1 opt p.1 p.2 g.1 g.2).2.2.2 := by
  obtain ⟨kind, mode⟩ := l
  cases kind with
  | fc k =>
    simp only [grads, Option.bind_eq_some_iff, Option.map_eq_some_iff] at hg
    obtain ⟨a, ha, b, hb, rfl⟩ := hg
    cases hp
    unfold Layer.updateWeights
    simp only [ha, hb]
    exact ⟨trivial, rfl, trivial⟩
  | conv k =>
    simp only [grads, Option.bind_eq_some_iff, Option.map_eq_some_iff] at hg
    obtain ⟨a, ha, b, hb, rfl⟩ := hg
    cases hp
    unfold Layer.updateWeights
    simp only [ha, hb]
    exact ⟨trivial, rfl, trivial⟩
  | batchNorm k =>
    simp only [grads, Option.bind_eq_some_iff, Option.map_eq_some_iff] at hg
    obtain ⟨a, ha, b, hb, rfl⟩ := hg
    cases hp
    unfold Layer.updateWeights
    simp only [ha, hb]
    exact ⟨trivial, rfl, trivial⟩
  | flatten k => cases hp
  | maxPool k => cases hp
  | dropout k => cases hp
  | activation k => cases hp

/-- A layer that `updateWeights` can handle: it has no parameters, or both gradients are there with at least as many
elements as the parameters. -/
def Spec.Ready (l : Layer T) : Prop :=
  ∀ p, params l = some p → ∃ g, grads l = some g ∧ Full p.1 ∧ Full p.2 ∧
    p.1.shape.size ≤ g.1.data.length ∧ p.2.shape.size ≤ g.2.data.length

theorem updated_params {l l' : Layer T} (h : Updated l l') :
    (params l = none ∧ params l' = none) ∨
    ∃ p p', params l = some p ∧ params l' = some p' ∧ SameShape p.1 p'.1 ∧ SameShape p.2 p'.2 := by
  cases h with
  | fc k mode w b hw hb => exact Or.inr ⟨_, _, rfl, rfl, hw, hb⟩
  | conv k mode w b hw hb => exact Or.inr ⟨_, _, rfl, rfl, hw, hb⟩
  | batchNorm k mode w b hw hb => exact Or.inr ⟨_, _, rfl, rfl, hw, hb⟩
  | unchanged l =>
    rcases params l with _ | p
    · exact Or.inl ⟨rfl, rfl⟩
    · exact Or.inr ⟨p, p, rfl, rfl, SameShape.refl _, SameShape.refl _⟩

theorem updated_grads {l l' : Layer T} (h : Updated l l') : grads l' = grads l := by cases h <;> rfl

theorem updated_ready {l l' : Layer T} (h : Updated l l') (hr : Ready l) : Ready l' := by
  intro p' hp'
  rcases updated_params h with ⟨-, h2⟩ | ⟨p, p2, h1, h2, s1, s2⟩
  · rw [h2] at hp'; cases hp'
  · rw [h2] at hp'
    cases hp'
    obtain ⟨g, hg, f1, f2, f3, f4⟩ := hr p h1
    refine ⟨g, (updated_grads h).trans hg, ?_, ?_, ?_, ?_⟩
    · unfold Full at f1 ⊢; rw [s1.1, s1.2]; exact f1
    · unfold Full at f2 ⊢; rw [s2.1, s2.2]; exact f2
    · rw [s1.1]; exact f3
    · rw [s2.1]; exact f4

/-- What the optimizer remembers for a layer with parameters at addresses `k0` and `k1` fits its parameters. -/
def Spec.RemembersLayer (opt : Optimizer K T) (k0 k1 : K) (l : Layer T) : Prop :=
  ∀ p, params l = some p → Remembers opt k0 p.1.shape.size ∧ Remembers opt k1 p.2.shape.size

theorem layer_update_ok {k0 k1 : K} (hk : k0 ≠ k1) (l : Layer T) (opt : Optimizer K T) (hl : Ready l)
    (hr : RemembersLayer opt k0 k1 l) :
    ∃ l' opt', Layer.updateWeights k0 k1 (l, opt) = (.ok (), (l', opt')) ∧ Updated l l' ∧
      RemembersLayer opt' k0 k1 l' ∧ (∀ k n, k ≠ k0 → k ≠ k1 → Remembers opt k n → Remembers opt' k n) := by
  rcases hp : params l with _ | p
  · have hn : ¬ Trainable l := by rw [params_trainable, hp]; rintro ⟨p, h⟩; cases h
    refine ⟨l, opt, C56_layer_other k0 k1 l opt hn, .unchanged l, hr, fun k n _ _ h => h⟩
  · obtain ⟨g, hg, f1, f2, f3, f4⟩ := hl p hp
    obtain ⟨r1, r2⟩ := hr p hp
    obtain ⟨v1, v2, v3⟩ := C56_layer_values k0 k1 l opt p g hp hg
    obtain ⟨o1, o2, o3, o4⟩ := optimizePair_ok hk opt p.1 p.2 g.1 g.2 f1 f2 f3 f4 r1 r2
    obtain ⟨s1, s2⟩ := optimizePair_shape hk opt p.1 p.2 g.1 g.2
    refine ⟨(Layer.updateWeights k0 k1 (l, opt)).2.1, (Layer.updateWeights k0 k1 (l, opt)).2.2, ?_,
      C56_layer_changes hk l opt, ?_, ?_⟩
    · refine Prod.ext ?_ rfl
      exact v1.trans o1
    · intro p' hp'
      rw [v2] at hp'
      cases hp'
      rw [v3]
      constructor
      · show Remembers _ k0 (Layer.optimizePair k0 k1 opt p.1 p.2 g.1 g.2).2.1.shape.size
        rw [s1.1]; exact o2
      · show Remembers _ k1 (Layer.optimizePair k0 k1 opt p.1 p.2 g.1 g.2).2.2.1.shape.size
        rw [s2.1]; exact o3
    · rw [v3]; exact o4

end

/-! ### The whole model -/

section
variable {ρ T : Type} [Zero T] [One T] [Add T] [Sub T] [Mul T] [Div T] [Neg T] [NatCast T] [IntCast T]
  [LT T] [DecidableLT T] [LE T] [DecidableLE T] [DecidableEq T] [MathFn T]

theorem addr_ne (i : Nat) : ((i, false) : Nat × Bool) ≠ (i, true) := by simp

theorem updateLayers_cons (i : Nat) (l : Layer T) (ls : List (Layer T)) (opt : Optimizer (Nat × Bool) T) :
    updateLayers i (l :: ls) opt = match Layer.updateWeights (i, false) (i, true) (l, opt) with
      | (.error e, l', opt') => (.error e, l' :: ls, opt')
      | (.ok (), l', opt') =>
        match updateLayers (i + 1) ls opt' with
        | (res, ls', opt'') => (res, l' :: ls', opt'') := rfl

theorem updateLayers_changes (ls : List (Layer T)) : ∀ (i : Nat) (opt : Optimizer (Nat × Bool) T),
    List.Forall₂ Updated ls (updateLayers i ls opt).2.1 := by
  induction ls with
  | nil => intro i opt; exact .nil
  | cons l ls ih =>
    intro i opt
    rw [updateLayers_cons]
    have hu := C56_layer_changes (addr_ne i) l opt
    rcases h : Layer.updateWeights (i, false) (i, true) (l, opt) with ⟨_ | _, l', opt'⟩
    · rw [h] at hu
      exact .cons hu (by clear ih; induction ls with
        | nil => exact .nil
        | cons a ls ih => exact .cons (.unchanged a) ih)
    · rw [h] at hu
      exact .cons hu (ih (i + 1) opt')

theorem updateLayers_append (pre post : List (Layer T)) : ∀ (i : Nat) (opt : Optimizer (Nat × Bool) T),
    updateLayers i (pre ++ post) opt = match updateLayers i pre opt with
      | (.error e, pre', opt') => (.error e, pre' ++ post, opt')
      | (.ok (), pre', opt') =>
        match updateLayers (i + pre.length) post opt' with
        | (res, post', opt'') => (res, pre' ++ post', opt'') := by
  induction pre with
  | nil => intro i opt; rfl
  | cons l pre ih =>
    intro i opt
    rw [List.cons_append, updateLayers_cons, updateLayers_cons]
    rcases h : Layer.updateWeights (i, false) (i, true) (l, opt) with ⟨_ | _, l', opt'⟩
    · rfl
    · simp only
      rw [ih (i + 1) opt']
      rcases updateLayers (i + 1) pre opt' with ⟨_ | _, pre', o2⟩
      · rfl
      · simp only [List.length_cons]
        rw [show i + 1 + pre.length = i + (pre.length + 1) by omega]
        rfl

/-- What the optimizer remembers fits the parameters of the layers numbered from `i` on. -/
def Spec.RemembersFrom (opt : Optimizer (Nat × Bool) T) (i : Nat) (ls : List (Layer T)) : Prop :=
  ∀ j l, ls[j]? = some l → RemembersLayer opt (i + j, false) (i + j, true) l

theorem updateLayers_ok (ls : List (Layer T)) : ∀ (i : Nat) (opt : Optimizer (Nat × Bool) T),
    (∀ l ∈ ls, Ready l) → RemembersFrom opt i ls →
    ∃ ls' opt', updateLayers i ls opt = (.ok (), ls', opt') ∧ RemembersFrom opt' i ls' ∧
      (∀ k n, k.1 < i → Remembers opt k n → Remembers opt' k n) ∧
      (∀ k n, i + ls.length ≤ k.1 → Remembers opt k n → Remembers opt' k n) := by
  induction ls with
  | nil =>
    intro i opt _ hr
    exact ⟨[], opt, rfl, hr, fun k n _ h => h, fun k n _ h => h⟩
  | cons l ls ih =>
    intro i opt hl hr
    obtain ⟨l', o1, e1, u1, r1, f1⟩ := layer_update_ok (addr_ne i) l opt (hl l (by simp)) (hr 0 l rfl)
    have hr' : RemembersFrom o1 (i + 1) ls := by
      intro j a ha p hp
      have := hr (j + 1) a (by simpa using ha) p hp
      rw [show i + 1 + j = i + (j + 1) by omega]
      refine ⟨f1 _ _ ?_ ?_ this.1, f1 _ _ ?_ ?_ this.2⟩ <;> simp
    obtain ⟨ls', o2, e2, r2, b2, a2⟩ := ih (i + 1) o1 (fun a ha => hl a (by simp [ha])) hr'
    refine ⟨l' :: ls', o2, ?_, ?_, ?_, ?_⟩
    · rw [updateLayers_cons, e1]
      simp only
      rw [e2]
    · intro j a ha p hp
      cases j with
      | zero =>
        simp only [List.getElem?_cons_zero, Option.some.injEq] at ha
        subst ha
        exact ⟨b2 _ _ (by simp) (r1 p hp).1, b2 _ _ (by simp) (r1 p hp).2⟩
      | succ j =>
        have := r2 j a (by simpa using ha) p hp
        rw [show i + (j + 1) = i + 1 + j by omega]
        exact this
    · intro k n hk h
      refine b2 _ _ (by omega) (f1 _ _ ?_ ?_ h)
      · rintro rfl; simp at hk
      · rintro rfl; simp at hk
    · intro k n hk h
      rw [List.length_cons] at hk
      refine a2 _ _ (by omega) (f1 _ _ ?_ ?_ h)
      · rintro rfl; simp at hk
      · rintro rfl; simp at hk

theorem net_updateWeights_eq (net : Net ρ T) (opt : Optimizer (Nat × Bool) T) (ho : net.optimizer = some opt) :
    updateWeights net = ((updateLayers 0 net.layers opt).1,
      { net with layers := (updateLayers 0 net.layers opt).2.1, optimizer := some (updateLayers 0 net.layers opt).2.2 }) := by
  obtain ⟨ls, loss, o, rng⟩ := net
  simp only at ho
  subst ho
  cases ls <;> rfl

/-- **C56.** Whatever the state and the outcome, `updateWeights` changes nothing in the layers but the values of
weights, biases, `gamma` and `beta`, keeping their shapes; loss function and random numbers are untouched. -/
theorem C56_changes (net : Net ρ T) :
    List.Forall₂ Updated net.layers (updateWeights net).2.layers ∧ (updateWeights net).2.loss = net.loss ∧
      (updateWeights net).2.rng = net.rng := by
  have refl : ∀ ls : List (Layer T), List.Forall₂ Updated ls ls := by
    intro ls
    induction ls with
    | nil => exact .nil
    | cons a ls ih => exact .cons (.unchanged a) ih
  rcases ho : net.optimizer with _ | opt
  · obtain ⟨ls, loss, o, rng⟩ := net
    simp only at ho
    subst ho
    cases ls <;> exact ⟨refl _, rfl, rfl⟩
  · rw [net_updateWeights_eq net opt ho]
    exact ⟨updateLayers_changes _ _ _, rfl, rfl⟩

/-- The model is compiled, every layer with parameters has gradients that fit, and so does what the optimizer remembers. -/
def Spec.NetReady (net : Net ρ T) : Prop :=
  (∀ l ∈ net.layers, Ready l) ∧ ∃ opt, net.optimizer = some opt ∧ RemembersFrom opt 0 net.layers

theorem forall₂_ready {ls ls' : List (Layer T)} (h : List.Forall₂ Updated ls ls') :
    (∀ l ∈ ls, Ready l) → ∀ l ∈ ls', Ready l := by
  induction h with
  | nil => intro _ l hl; cases hl
  | cons hu _ ih =>
    intro hr l hl
    rcases List.mem_cons.1 hl with rfl | hl
    · exact updated_ready hu (hr _ (by simp))
    · exact ih (fun a ha => hr a (by simp [ha])) l hl

/-- `updateWeights` succeeds once `backward` has stored fitting gradients, and can then be repeated any number of
times. -/
theorem C56_succeeds (net : Net ρ T) (h : NetReady net) :
    (updateWeights net).1 = .ok () ∧ NetReady (updateWeights net).2 := by
  obtain ⟨hl, opt, ho, hr⟩ := h
  have hc := (C56_changes net).1
  obtain ⟨ls', opt', e, r, -, -⟩ := updateLayers_ok net.layers 0 opt hl hr
  have hn := net_updateWeights_eq net opt ho
  rw [e] at hn
  refine ⟨by rw [hn], forall₂_ready hc hl, ?_⟩
  rw [hn]
  exact ⟨opt', rfl, r⟩

/-- `updateWeights` throws `std::runtime_error` when a layer with parameters has no gradients: the layers before it
have been updated, it and the layers behind it are unchanged. -/
theorem C56_missing (net : Net ρ T) (pre post : List (Layer T)) (l : Layer T) (opt : Optimizer (Nat × Bool) T)
    (hs : net.layers = pre ++ l :: post) (ho : net.optimizer = some opt) (hl : ∀ a ∈ pre, Ready a)
    (hr : RemembersFrom opt 0 pre) (ht : Trainable l) (hg : ¬ HasGradients l) :
    (updateWeights net).1 = .error .runtimeError ∧
    ∃ pre', List.Forall₂ Updated pre pre' ∧ (updateWeights net).2.layers = pre' ++ l :: post := by
  obtain ⟨pre', opt', e, -, -, -⟩ := updateLayers_ok pre 0 opt hl hr
  have hc := updateLayers_changes pre 0 opt
  have hn := net_updateWeights_eq net opt ho
  rw [hs, updateLayers_append, e] at hn
  simp only at hn
  rw [updateLayers_cons, C56_layer_missing _ _ _ _ ht hg] at hn
  rw [hn]
  rw [e] at hc
  exact ⟨rfl, pre', hc, rfl⟩

/-- `updateWeights` never succeeds while some layer with parameters has no gradients. -/
theorem C56_missing_never_ok (net : Net ρ T) (l : Layer T) (hm : l ∈ net.layers) (ht : Trainable l)
    (hg : ¬ HasGradients l) : (updateWeights net).1 ≠ .ok () := by
  obtain ⟨pre, post, hs⟩ := List.append_of_mem hm
  rcases ho : net.optimizer with _ | opt
  · obtain ⟨ls, loss, o, rng⟩ := net
    simp only at ho
    subst ho
    cases ls with
    | nil => cases hm
    | cons a ls => intro h; cases h
  · rw [net_updateWeights_eq net opt ho, hs, updateLayers_append]
    rcases updateLayers 0 pre opt with ⟨_ | _, pre', o2⟩
    · intro h; cases h
    · simp only
      rw [updateLayers_cons, C56_layer_missing _ _ _ _ ht hg]
      intro h; cases h

/-- A fresh optimizer remembers nothing, so anything fits. -/
theorem remembers_new {K : Type} (k : K) (n : Nat) (o1 : SGDOptions T) (o2 : RMSPropOptions T) (o3 : AdamOptions T) :
    Remembers (Optimizer.newSGD o1 : Optimizer K T) k n ∧ Remembers (Optimizer.newRMSProp o2 : Optimizer K T) k n ∧
      Remembers (Optimizer.newAdam o3 : Optimizer K T) k n := by
  refine ⟨?_, ⟨?_, ?_, ?_⟩, ?_, ?_⟩ <;> intro t h <;> cases h

end

section
noncomputable section
open Net Spec

/-- A dense layer 2 → 1 with gradients. -/
def exUpdateLayer : FC ℝ where
  weights := ofFn [2, 1] fun _ => 3
  biases := ofFn [1] fun _ => 5
  weightGradients := some (ofFn [2, 1] fun _ => 1)
  biasGradients := some (ofFn [1] fun _ => 2)
  input := none

/-- A compiled model with one dense layer. -/
def exUpdateNet : Net Unit ℝ where
  layers := [⟨.fc exUpdateLayer, true⟩]
  loss := some .mse
  optimizer := some (.newAdam ⟨1, 1/2, 1/2, 1, 0, 0, 0, 1, 1⟩)
  rng := ()

example : NetReady exUpdateNet := by
  refine ⟨?_, _, rfl, ?_⟩
  · intro l hl p hp
    simp only [exUpdateNet, List.mem_singleton] at hl
    subst hl
    cases hp
    refine ⟨_, rfl, ?_, ?_, ?_, ?_⟩ <;>
      simp [Full, exUpdateLayer, ofFn_shape, ofFn_data, shapeOf_size, length_indices]
  · intro j l _ p _
    exact ⟨(remembers_new _ _ ⟨0,0,0,0,false⟩ ⟨0,0,0,0,false,0⟩ _).2.2, (remembers_new _ _ ⟨0,0,0,0,false⟩ ⟨0,0,0,0,false,0⟩ _).2.2⟩

/-- The same layer before any `backward`: `updateWeights` throws. -/
example : (updateWeights { exUpdateNet with layers := [⟨.fc { exUpdateLayer with biasGradients := none }, true⟩] }).1 =
    .error .runtimeError := by
  refine (C56_missing _ [] [] _ (.newAdam ⟨1, 1/2, 1/2, 1, 0, 0, 0, 1, 1⟩) rfl rfl ?_ ?_ ?_ ?_).1
  · intro a ha; cases ha
  · intro j l h; cases h
  · exact trivial
  · rintro ⟨-, h⟩; cases h

end
end
end SmartDNN
