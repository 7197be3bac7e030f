import Verif.Proofs.SilentUnit

namespace SmartDNN
open Net Spec

variable {ρ : Type}

theorem silent_predict {b n h : Nat} {es : List Nat} (E : Engine ρ ℝ) {net : Net ρ ℝ} {l : FC ℝ} {a : ActLayer ℝ} {m1 m2 : Bool} {rest ls' : List (Layer ℝ)}
    {w bias x y : List Nat → ℝ} {r' : ρ} (hl : net.layers = ⟨.fc l, m1⟩ :: ⟨.activation a, m2⟩ :: rest) (ha : a.activation = .relu)
    (hlw : l.weights = ofFn [n, h] w) (hlb : l.biases = ofFn [1, h] bias) (d3 : Dims [b, h])
    (f1 : forwardLayers E rest (ofFn [b, h] fun i => relu (affine n w bias x i)) net.rng = (.ok (ofFn es y), ls', r')) :
    predict E (ofFn [b, n] x) net = (.ok (ofFn es y), { net with
      layers := ⟨.fc { l with input := some (ofFn [b, n] x) }, m1⟩ :: ⟨.activation ⟨.relu, some (ofFn [b, h] (affine n w bias x))⟩, m2⟩ :: ls', rng := r' }) := by
  obtain ⟨kind, tail⟩ := a
  simp only at ha
  subst ha
  unfold predict
  rw [hl]
  unfold forwardLayers
  simp only [Layer.forward, Layer.onKind]
  rw [C37_batch d3 w bias x l hlw hlb]
  simp only
  unfold forwardLayers
  simp only [Layer.forward, Layer.onKind]
  have : ActLayer.forward (ofFn [b, h] (affine n w bias x)) (⟨.relu, tail⟩ : ActLayer ℝ) =
      (.ok (ofFn [b, h] fun i => relu (affine n w bias x i)), ⟨.relu, some (ofFn [b, h] (affine n w bias x))⟩) := by
    refine Prod.ext ?_ rfl
    exact C25_relu_forward [b, h] (affine n w bias x)
  rw [this]
  simp only
  rw [f1]

theorem silent_pass {b n h : Nat} {es : List Nat} (E : Engine ρ ℝ) {net : Net ρ ℝ} {l : FC ℝ} {a : ActLayer ℝ} {m1 m2 : Bool} {rest : List (Layer ℝ)}
    {w bias x t : List Nat → ℝ} {j : Nat} (hl : net.layers = ⟨.fc l, m1⟩ :: ⟨.activation a, m2⟩ :: rest) (ha : a.activation = .relu)
    (hlw : l.weights = ofFn [n, h] w) (hlb : l.biases = ofFn [1, h] bias) (hwell : WellShaped net [b, n] es)
    (hs : ∀ i < b, affine n w bias x [i, j] ≤ 0) {net' : Net ρ ℝ} {v : ℝ} (hst : StepOk E (ofFn [b, n] x) (ofFn es t) net net' v) :
    ∃ (ls' ls'' : List (Layer ℝ)) (r' : ρ) (y g z gw gb : List Nat → ℝ) (inp : Option (Tensor ℝ)) (a' : ActLayer ℝ) (opt : Optimizer (Nat × Bool) ℝ),
      forwardLayers E rest (ofFn [b, h] fun i => relu (affine n w bias x i)) net.rng = (.ok (ofFn es y), ls', r') ∧
      backwardLayers ls' (ofFn es g) = (.ok (ofFn [b, h] z), ls'') ∧ net.optimizer = some opt ∧ a'.activation = .relu ∧
      (∀ i < n, gw [i, j] = 0) ∧ gb [0, j] = 0 ∧
      let ls := ⟨.fc ⟨l.weights, l.biases, inp, some (ofFn [n, h] gw), some (ofFn [1, h] gb)⟩, m1⟩ :: ⟨.activation a', m2⟩ :: ls''
      net'.layers = (updateLayers 0 ls opt).2.1 ∧ net'.optimizer = some (updateLayers 0 ls opt).2.2 := by
  obtain ⟨hc, ⟨L, hL, hfit⟩, opt, ho, hr⟩ := hwell
  rw [hl] at hc
  obtain ⟨d1, d2, d3, -, hc2⟩ := silent_chain_dense hc hlw
  obtain ⟨-, hc3⟩ := chain_relu hc2 ha
  obtain ⟨y, ls', r', f1, -, -, f4⟩ := chain_step hc3 E net.rng fun i => relu (affine n w bias x i)
  obtain ⟨v0, g, l1, l2⟩ := loss_ok hfit y t
  obtain ⟨z, ls'', k1, -, -, -⟩ := f4 g
  obtain ⟨D, D1, D2, D3⟩ := C25_relu_backward d3 (affine n w bias x) z
  obtain ⟨pred, n1, L', g', g2, n2, s1, s2, s3, s4, s5, s6⟩ := hst
  have hD : ∀ q ≤ 0, D q = 0 := by
    intro q hq
    rcases eq_or_lt_of_le hq with rfl | hq
    · exact D2
    · have h1 := D1 q hq.ne
      have h2 : HasDerivAt relu 0 q := by
        refine (hasDerivAt_const q (0 : ℝ)).congr_of_eventuallyEq ?_
        filter_upwards [Iio_mem_nhds hq] with u hu
        exact max_eq_left (le_of_lt hu) 
      exact h1.unique h2
  have hp := silent_predict E hl ha hlw hlb d3 f1
  rw [hp] at s1
  simp only [Prod.mk.injEq, Except.ok.injEq] at s1
  obtain ⟨rfl, rfl⟩ := s1
  simp only at s2
  rw [hL] at s2
  cases s2
  rw [l2] at s4
  cases s4
  have hab : ActLayer.backward (ofFn [b, h] z) (⟨.relu, some (ofFn [b, h] (affine n w bias x))⟩ : ActLayer ℝ) =
      (.ok (ofFn [b, h] fun i => D (affine n w bias x i) * z i), ⟨.relu, some (ofFn [b, h] (affine n w bias x))⟩) :=
    Prod.ext D3 rfl
  have hbk := fc_backprop d1 d2 d3 w bias x (fun i => D (affine n w bias x i) * z i) l hlw hlb
  have hb : backward (ofFn es g) { net with
      layers := ⟨.fc { l with input := some (ofFn [b, n] x) }, m1⟩ :: ⟨.activation ⟨.relu, some (ofFn [b, h] (affine n w bias x))⟩, m2⟩ :: ls', rng := r' } =
      (.ok (ofFn [b, n] fun idx => ∑ j ∈ Finset.range h, D (affine n w bias x [idx.getD 0 0, j]) * z [idx.getD 0 0, j] * w [idx.getD 1 0, j]), { net with
      layers := ⟨.fc { l with
        input := some (ofFn [b, n] x)
        weightGradients := some (ofFn [n, h] fun idx => ∑ i ∈ Finset.range b, x [i, idx.getD 0 0] * (D (affine n w bias x [i, idx.getD 1 0]) * z [i, idx.getD 1 0]))
        biasGradients := some (ofFn [1, h] fun idx => ∑ i ∈ Finset.range b, D (affine n w bias x [i, idx.getD 1 0]) * z [i, idx.getD 1 0]) }, m1⟩ ::
        ⟨.activation ⟨.relu, some (ofFn [b, h] (affine n w bias x))⟩, m2⟩ :: ls'', rng := r' }) := by
    unfold backward
    simp only
    unfold backwardLayers
    have : backwardLayers (⟨.activation ⟨.relu, some (ofFn [b, h] (affine n w bias x))⟩, m2⟩ :: ls') (ofFn es g) =
        (.ok (ofFn [b, h] fun i => D (affine n w bias x i) * z i), ⟨.activation ⟨.relu, some (ofFn [b, h] (affine n w bias x))⟩, m2⟩ :: ls'') := by
      unfold backwardLayers
      rw [k1]
      simp only [Layer.backward, Layer.onKind]
      rw [hab]
    rw [this]
    simp only [Layer.backward, Layer.onKind]
    rw [hbk]
  rw [hb] at s5
  simp only [Prod.mk.injEq, Except.ok.injEq] at s5
  obtain ⟨rfl, hn2⟩ := s5
  have ho2 : n2.optimizer = some opt := by rw [← hn2]; exact ho
  rw [net_updateWeights_eq n2 opt ho2, ← hn2] at s6
  simp only [Prod.mk.injEq] at s6
  refine ⟨ls', ls'', r', y, g, z,
    fun idx => ∑ i ∈ Finset.range b, x [i, idx.getD 0 0] * (D (affine n w bias x [i, idx.getD 1 0]) * z [i, idx.getD 1 0]),
    fun idx => ∑ i ∈ Finset.range b, D (affine n w bias x [i, idx.getD 1 0]) * z [i, idx.getD 1 0],
    some (ofFn [b, n] x), ⟨.relu, some (ofFn [b, h] (affine n w bias x))⟩, opt, f1, k1, ho, rfl, ?_, ?_, ?_⟩
  rotate_left 2
  · exact ⟨(congrArg Net.layers s6.2).symm, (congrArg Net.optimizer s6.2).symm⟩
  · intro i _
    refine Finset.sum_eq_zero fun q hq => ?_
    simp only [List.getD_cons_succ, List.getD_cons_zero]
    rw [hD _ (hs q (Finset.mem_range.1 hq)), zero_mul, mul_zero]
  · refine Finset.sum_eq_zero fun q hq => ?_
    simp only [List.getD_cons_succ, List.getD_cons_zero]
    rw [hD _ (hs q (Finset.mem_range.1 hq)), zero_mul]

/-- The model begins with a dense layer and ReLU, and what leads to the hidden unit `j` is as in `w` and `bias`. -/
def Asleep (b n h : Nat) (es : List Nat) (m1 m2 : Bool) (j : Nat) (w bias : List Nat → ℝ) (T : List (Layer ℝ) → Prop) (Q : Optimizer (Nat × Bool) ℝ → Prop)
    (net : Net ρ ℝ) : Prop :=
  WellShaped net [b, n] es ∧ (∃ (l : FC ℝ) (a : ActLayer ℝ) (rest : List (Layer ℝ)) (w' bias' : List Nat → ℝ),
    net.layers = ⟨.fc l, m1⟩ :: ⟨.activation a, m2⟩ :: rest ∧ a.activation = .relu ∧ l.weights = ofFn [n, h] w' ∧ l.biases = ofFn [1, h] bias' ∧
    (∀ i < n, w' [i, j] = w [i, j]) ∧ bias' [0, j] = bias [0, j] ∧ T rest) ∧
  ∀ opt, net.optimizer = some opt → QuietOn opt (0, false) (colOf n h j) ∧ QuietOn opt (0, true) (colOf 1 h j) ∧ Q opt

/-- What the rest of the model has to do for `Asleep` to be kept by training. -/
def TailKept (E : Engine ρ ℝ) (b h : Nat) (es : List Nat) (j : Nat) (T : List (Layer ℝ) → Prop) (Q : Optimizer (Nat × Bool) ℝ → Prop) : Prop :=
  (∀ (rest ls' : List (Layer ℝ)) (x y : List Nat → ℝ) (r r' : ρ), T rest → Chain rest [b, h] es →
    forwardLayers E rest (ofFn [b, h] x) r = (.ok (ofFn es y), ls', r') → T ls') ∧
  ∀ (rest ls' ls'' : List (Layer ℝ)) (x y g z : List Nat → ℝ) (r r' : ρ) (opt : Optimizer (Nat × Bool) ℝ), T rest → Chain rest [b, h] es → Q opt →
    (∀ i < b, x [i, j] = 0) → forwardLayers E rest (ofFn [b, h] x) r = (.ok (ofFn es y), ls', r') →
    backwardLayers ls' (ofFn es g) = (.ok (ofFn [b, h] z), ls'') →
    ∀ l0 l1, (∃ ks, (updateLayers 0 (l0 :: l1 :: ls'') opt).2.1.drop 2 = ks ∧ T ks) ∧ Q (updateLayers 0 (l0 :: l1 :: ls'') opt).2.2

theorem stepOk_unique {E : Engine ρ ℝ} {x y : Tensor ℝ} {net n1 n2 : Net ρ ℝ} {v1 v2 : ℝ} (h1 : StepOk E x y net n1 v1) (h2 : StepOk E x y net n2 v2) :
    n1 = n2 := by
  obtain ⟨p, a, L, g, g', c, s1, s2, -, s4, s5, s6⟩ := h1
  obtain ⟨p', a', L', k, k', c', t1, t2, -, t4, t5, t6⟩ := h2
  cases s1.symm.trans t1
  cases s2.symm.trans t2
  cases s4.symm.trans t4
  cases s5.symm.trans t5
  cases s6.symm.trans t6
  rfl

section
variable {b n h : Nat} {es : List Nat} {m1 m2 : Bool} {j : Nat} {w bias : List Nat → ℝ} {T : List (Layer ℝ) → Prop} {Q : Optimizer (Nat × Bool) ℝ → Prop}

theorem updated_fc {k : FC ℝ} {mode : Bool} {l' : Layer ℝ} {n h : Nat} {w bias : List Nat → ℝ} (hu : Updated ⟨.fc k, mode⟩ l') (hw : k.weights = ofFn [n, h] w)
    (hb : k.biases = ofFn [1, h] bias) (d1 : Dims [n, h]) (d2 : Dims [1, h]) :
    ∃ (k' : FC ℝ) (w' bias' : List Nat → ℝ), l' = ⟨.fc k', mode⟩ ∧ k'.weights = ofFn [n, h] w' ∧ k'.biases = ofFn [1, h] bias' := by
  have key : ∀ {a b : Tensor ℝ} {ds : List Nat} {f : List Nat → ℝ}, Dims ds → SameShape a b → a = ofFn ds f → ∃ g, b = ofFn ds g := by
    rintro a b ds f hd ⟨s1, s2⟩ rfl
    exact exists_ofFn hd s1 (by rw [s2, ofFn_data]; simp)
  cases hu with
  | fc _ _ w' b' s1 s2 =>
    obtain ⟨w2, e1⟩ := key d1 s1 hw
    obtain ⟨b2, e2⟩ := key d2 s2 hb
    exact ⟨_, w2, b2, rfl, e1, e2⟩
  | unchanged => exact ⟨k, w, bias, rfl, hw, hb⟩

theorem dims_bias {b h : Nat} (hd : Dims [b, h]) : Dims [1, h] := by
  have h1 := hd.pos b (by simp)
  have h2 := hd.pos h (by simp)
  have h3 := hd.lt
  simp only [List.prod_cons, List.prod_nil, mul_one] at h3
  exact ⟨by simp, by simpa using h2, by simp only [List.prod_cons, List.prod_nil, mul_one, one_mul]; nlinarith⟩

theorem asleep_step (E : Engine ρ ℝ) (ht : TailKept E b h es j T Q) {net net' : Net ρ ℝ} (hj : j < h) (hA : Asleep b n h es m1 m2 j w bias T Q net)
    {x t : List Nat → ℝ} (hs : ∀ i < b, affine n w bias x [i, j] ≤ 0) {v : ℝ} (hst : StepOk E (ofFn [b, n] x) (ofFn es t) net net' v)
    (hwell' : WellShaped net' [b, n] es) : Asleep b n h es m1 m2 j w bias T Q net' := by
  obtain ⟨hwell, ⟨l, a, rest, w', bias', hl, ha, hlw, hlb, hw, hb, hT⟩, hq⟩ := hA
  have haff : ∀ i, affine n w' bias' x [i, j] = affine n w bias x [i, j] := by
    intro i
    unfold affine
    simp only [List.getD_cons_succ, List.getD_cons_zero]
    rw [hb]
    congr 1
    exact Finset.sum_congr rfl fun q hq => by rw [hw q (Finset.mem_range.1 hq)]
  obtain ⟨ls', ls'', r', y, g, z, gw, gb, inp, a', opt, f1, k1, ho, ha', z0, z1, u1, u2⟩ := silent_pass E hl ha hlw hlb hwell
    (fun i hi => by rw [haff]; exact hs i hi) hst
  obtain ⟨q0, q1, q2⟩ := hq opt ho
  have hc : Chain rest [b, h] es := by
    have := hwell.1
    rw [hl] at this
    exact (chain_relu (silent_chain_dense this hlw).2.2.2.2 ha).2
  have zz0 : ZeroOn (colOf n h j) (ofFn [n, h] gw).data := zeroOn_col hj z0
  have zz1 : ZeroOn (colOf 1 h j) (ofFn [1, h] gb).data := zeroOn_col hj fun i hi => by
    rw [show i = 0 by omega]; exact z1
  obtain ⟨⟨c', e1, e2, e3⟩, e4, e5⟩ := updateLayers_frozen (c := ⟨l.weights, l.biases, inp, some (ofFn [n, h] gw), some (ofFn [1, h] gb)⟩) (mode := m1) rfl rfl
    zz0 zz1 (⟨.fc ⟨l.weights, l.biases, inp, some (ofFn [n, h] gw), some (ofFn [1, h] gb)⟩, m1⟩ :: ⟨.activation a', m2⟩ :: ls'') 0 0 opt rfl q0 q1
  obtain ⟨⟨ks, t1, t2⟩, t3⟩ := ht.2 rest ls' ls'' _ y g z _ r' opt hT hc q2 (fun i hi => by
    show relu _ = 0
    rw [haff]
    exact max_eq_left (hs i hi)) f1 k1 _ _
  have hup := updateLayers_changes (⟨.fc ⟨l.weights, l.biases, inp, some (ofFn [n, h] gw), some (ofFn [1, h] gb)⟩, m1⟩ ::
    ⟨.activation a', m2⟩ :: ls'') 0 opt
  refine ⟨hwell', ?_, ?_⟩
  · rw [u1]
    rcases hv : (updateLayers 0 (⟨.fc ⟨l.weights, l.biases, inp, some (ofFn [n, h] gw), some (ofFn [1, h] gb)⟩, m1⟩ ::
      ⟨.activation a', m2⟩ :: ls'') opt).2.1 with _ | ⟨p0, ps⟩
    · rw [hv] at hup; cases hup
    rw [hv] at hup e1 t1
    obtain ⟨v1, hup⟩ := List.forall₂_cons.1 hup
    rcases ps with _ | ⟨p1, ps⟩
    · cases hup
    obtain ⟨v2, hup⟩ := List.forall₂_cons.1 hup
    have hc0 := hwell.1
    rw [hl] at hc0
    obtain ⟨d1, d2, d3, -, -⟩ := silent_chain_dense hc0 hlw
    obtain ⟨k', w2, b2, rfl, x1, x2⟩ := updated_fc v1 hlw hlb d2 (dims_bias d3)
    cases v2
    simp only [List.getElem?_cons_zero, Option.some.injEq, Layer.mk.injEq, LayerKind.fc.injEq, and_true] at e1
    subst e1
    rw [show (⟨l.weights, l.biases, inp, some (ofFn [n, h] gw), some (ofFn [1, h] gb)⟩ : FC ℝ).weights = ofFn [n, h] w' from hlw, x1] at e2
    rw [show (⟨l.weights, l.biases, inp, some (ofFn [n, h] gw), some (ofFn [1, h] gb)⟩ : FC ℝ).biases = ofFn [1, h] bias' from hlb, x2] at e3
    simp only [List.drop_succ_cons, List.drop_zero] at t1
    subst t1
    exact ⟨k', a', ps, w2, b2, rfl, ha', x1, x2, fun i hi => (sameOn_col hj e2 i hi).trans (hw i hi), (sameOn_col hj e3 0 (by omega)).trans hb, t2⟩
  · intro o' ho'
    rw [u2] at ho'
    cases ho'
    exact ⟨e4, e5, t3⟩

theorem asleep_steps (E : Engine ρ ℝ) (ht : TailKept E b h es j T Q) (hj : j < h) {ps : List (Tensor ℝ × Tensor ℝ)}
    (hp : ∀ q ∈ ps, (∃ f, q.1 = ofFn [b, n] f ∧ ∀ i < b, affine n w bias f [i, j] ≤ 0) ∧ HasDims es q.2) {net net' : Net ρ ℝ} {vs : List ℝ}
    (hs : Steps E ps net net' vs) (hA : Asleep b n h es m1 m2 j w bias T Q net) : Asleep b n h es m1 m2 j w bias T Q net' := by
  induction hs with
  | nil => exact hA
  | @cons x y ps net net1 net2 v vs h1 _ ih =>
    obtain ⟨⟨f, rfl, hf⟩, ⟨t, rfl⟩⟩ := hp _ List.mem_cons_self
    refine ih (fun q hq => hp q (List.mem_cons_of_mem _ hq)) ?_
    obtain ⟨net1', v', s1, s2⟩ := C67_step E net hA.1 _ _ ⟨f, rfl⟩ ⟨t, rfl⟩
    have : net1' = net1 := stepOk_unique s1 h1
    exact asleep_step E ht hj hA hf h1 (this ▸ s2)

theorem asleep_epochs (E : Engine ρ ℝ) (ht : TailKept E b h es j T Q) (hj : j < h) {ps : List (Tensor ℝ × Tensor ℝ)}
    (hp : ∀ q ∈ ps, (∃ f, q.1 = ofFn [b, n] f ∧ ∀ i < b, affine n w bias f [i, j] ≤ 0) ∧ HasDims es q.2) {k : Nat} {net net' : Net ρ ℝ} {rs : List (Tensor ℝ)}
    (hs : Epochs E ps k net net' rs) (hA : Asleep b n h es m1 m2 j w bias T Q net) : Asleep b n h es m1 m2 j w bias T Q net' := by
  induction hs with
  | zero => exact hA
  | succ h1 _ ih => exact ih (asleep_steps E ht hj hp h1 hA)

theorem asleep_use (E : Engine ρ ℝ) (ht : TailKept E b h es j T Q) (hj : j < h) {net : Net ρ ℝ} (u : Use) (hu : u.SilentFor b n es j w bias)
    (hA : Asleep b n h es m1 m2 j w bias T Q net) : Asleep b n h es m1 m2 j w bias T Q (u.apply E net) := by
  cases u with
  | train xs ys k =>
    obtain ⟨h1, h2, h3, h4⟩ := hu
    obtain ⟨net', rs, t1, -, -⟩ := C67_train E net hA.1 xs ys k h1 h2 (fun x hx => by obtain ⟨f, rfl, -⟩ := h3 x hx; exact ⟨f, rfl⟩) h4
    have e : Use.apply E net (.train xs ys k) = net' := congrArg (fun q => q.2.1) t1
    rw [e]
    have hn : (xs.length : ℝ) ≠ 0 := by
      rw [Ne, Nat.cast_eq_zero, List.length_eq_zero_iff]
      exact h1
    exact asleep_epochs E ht hj (fun q hq => ⟨h3 _ (List.of_mem_zip hq).1, h4 _ (List.of_mem_zip hq).2⟩)
      ((C55_train E xs ys k net net' rs h2 hn).1 t1) hA
  | predict x =>
    obtain ⟨f, rfl⟩ := hu
    obtain ⟨y, net', p1, -, p3⟩ := C67_predict E net hA.1 (ofFn [b, n] f) ⟨f, rfl⟩
    have e : Use.apply E net (.predict (ofFn [b, n] f)) = net' := congrArg Prod.snd p1
    rw [e]
    obtain ⟨hwell, ⟨l, a, rest, w', bias', hl, ha, hlw, hlb, hw, hb, hT⟩, hq⟩ := hA
    have hc := hwell.1
    rw [hl] at hc
    obtain ⟨d1, d2, d3, -, hc2⟩ := silent_chain_dense hc hlw
    obtain ⟨-, hc3⟩ := chain_relu hc2 ha
    obtain ⟨y', ls', r', f1, -, -, -⟩ := chain_step hc3 E net.rng fun i => relu (affine n w' bias' f i)
    have := silent_predict E hl ha hlw hlb d3 f1
    rw [this] at p1
    simp only [Prod.mk.injEq] at p1
    obtain ⟨-, rfl⟩ := p1
    exact ⟨p3, ⟨_, _, ls', w', bias', rfl, rfl, hlw, hlb, hw, hb, ht.1 rest ls' _ y' _ r' hT hc3 f1⟩, hq⟩
  | _ => exact hu.elim

theorem asleep_after (E : Engine ρ ℝ) (ht : TailKept E b h es j T Q) (hj : j < h) : ∀ (us : List Use) {net : Net ρ ℝ},
    (∀ u ∈ us, u.SilentFor b n es j w bias) → Asleep b n h es m1 m2 j w bias T Q net → Asleep b n h es m1 m2 j w bias T Q (after E us net) := by
  intro us
  induction us with
  | nil => intro net _ h; exact h
  | cons u us ih =>
    intro net hu h
    exact ih (fun v hv => hu v (List.mem_cons_of_mem _ hv)) (asleep_use E ht hj u (hu u List.mem_cons_self) h)

end

section
variable {ρ : Type}

theorem tail_true (E : Engine ρ ℝ) (b h : Nat) (es : List Nat) (j : Nat) : TailKept E b h es j (fun _ => True) (fun _ => True) :=
  ⟨fun _ _ _ _ _ _ _ _ _ => trivial, fun _ _ _ _ _ _ _ _ _ _ _ _ _ _ _ _ _ _ => ⟨⟨_, rfl, trivial⟩, trivial⟩⟩

/-- The layers begin with a dense layer whose row `j` of weights is as in `v`. -/
def RowKept (h k j : Nat) (m3 : Bool) (v : List Nat → ℝ) (rest : List (Layer ℝ)) : Prop :=
  ∃ (l : FC ℝ) (post : List (Layer ℝ)) (v' bias' : List Nat → ℝ), rest = ⟨.fc l, m3⟩ :: post ∧ l.weights = ofFn [h, k] v' ∧ l.biases = ofFn [1, k] bias' ∧
    ∀ c < k, v' [j, c] = v [j, c]

theorem tail_row (E : Engine ρ ℝ) (b h k : Nat) (es : List Nat) {j : Nat} (hj : j < h) (m3 : Bool) (v : List Nat → ℝ) :
    TailKept E b h es j (RowKept h k j m3 v) (fun opt => QuietOn opt (2, false) (rowOf h k j) ∧ QuietOn opt (2, true) fun _ => False) := by
  refine ⟨?_, ?_⟩
  · rintro _ ls' x y r r' ⟨l, post, v', bias', rfl, hlw, hlb, hv⟩ hc hf
    obtain ⟨d1, d2, d3, -, hc2⟩ := silent_chain_dense hc hlw
    obtain ⟨y', post', r2, f1, -, -, -⟩ := chain_step hc2 E r (affine h v' bias' x)
    unfold forwardLayers at hf
    simp only [Layer.forward, Layer.onKind] at hf
    rw [C37_batch d3 v' bias' x l hlw hlb] at hf
    simp only at hf
    rw [f1] at hf
    simp only [Prod.mk.injEq] at hf
    obtain ⟨-, rfl, -⟩ := hf
    exact ⟨_, post', v', bias', rfl, hlw, hlb, hv⟩
  · rintro _ ls' ls'' x y g z r r' opt ⟨l, post, v', bias', rfl, hlw, hlb, hv⟩ hc ⟨q0, q1⟩ hx hf hb l0 l1
    obtain ⟨d1, d2, d3, -, hc2⟩ := silent_chain_dense hc hlw
    obtain ⟨y', post', r2, f1, -, -, f4⟩ := chain_step hc2 E r (affine h v' bias' x)
    unfold forwardLayers at hf
    simp only [Layer.forward, Layer.onKind] at hf
    rw [C37_batch d3 v' bias' x l hlw hlb] at hf
    simp only at hf
    rw [f1] at hf
    simp only [Prod.mk.injEq] at hf
    obtain ⟨-, rfl, -⟩ := hf
    obtain ⟨u, post'', k1, -, -, -⟩ := f4 g
    unfold backwardLayers at hb
    rw [k1] at hb
    simp only [Layer.backward, Layer.onKind] at hb
    rw [fc_backprop d1 d2 d3 v' bias' x u l hlw hlb] at hb
    simp only [Prod.mk.injEq] at hb
    obtain ⟨-, rfl⟩ := hb
    obtain ⟨⟨c', e1, e2, e3⟩, e4, e5⟩ := updateLayers_frozen (S1 := fun _ => False) (mode := m3)
      (c := { l with input := some (ofFn [b, h] x), weightGradients := some (ofFn [h, k] fun idx => ∑ i ∈ Finset.range b, x [i, idx.getD 0 0] * u [i, idx.getD 1 0]), biasGradients := some (ofFn [1, k] fun idx => ∑ i ∈ Finset.range b, u [i, idx.getD 1 0]) })
      rfl rfl (zeroOn_row (h := h) (k := k) (j := j) hj fun c _ => Finset.sum_eq_zero fun i hi => by
        simp only [List.getD_cons_zero]
        rw [hx i (Finset.mem_range.1 hi), zero_mul])
      (fun _ h => h.elim) (l0 :: l1 :: ⟨.fc { l with input := some (ofFn [b, h] x), weightGradients := some (ofFn [h, k] fun idx => ∑ i ∈ Finset.range b, x [i, idx.getD 0 0] * u [i, idx.getD 1 0]), biasGradients := some (ofFn [1, k] fun idx => ∑ i ∈ Finset.range b, u [i, idx.getD 1 0]) }, m3⟩ :: post'') 0 2 opt rfl q0 q1
    refine ⟨⟨_, rfl, ?_⟩, e4, e5⟩
    have hup := updateLayers_changes (l0 :: l1 :: ⟨.fc { l with input := some (ofFn [b, h] x), weightGradients := some (ofFn [h, k] fun idx => ∑ i ∈ Finset.range b, x [i, idx.getD 0 0] * u [i, idx.getD 1 0]), biasGradients := some (ofFn [1, k] fun idx => ∑ i ∈ Finset.range b, u [i, idx.getD 1 0]) }, m3⟩ :: post'') 0 opt
    generalize (updateLayers 0 (l0 :: l1 :: ⟨.fc { l with input := some (ofFn [b, h] x), weightGradients := some (ofFn [h, k] fun idx => ∑ i ∈ Finset.range b, x [i, idx.getD 0 0] * u [i, idx.getD 1 0]), biasGradients := some (ofFn [1, k] fun idx => ∑ i ∈ Finset.range b, u [i, idx.getD 1 0]) }, m3⟩ :: post'') opt).2.1 = R at hup e1
    rcases R with _ | ⟨p0, R⟩
    · cases hup
    obtain ⟨-, hup⟩ := List.forall₂_cons.1 hup
    rcases R with _ | ⟨p1, R⟩
    · cases hup
    obtain ⟨-, hup⟩ := List.forall₂_cons.1 hup
    rcases R with _ | ⟨p2, R⟩
    · cases hup
    obtain ⟨v3, hup⟩ := List.forall₂_cons.1 hup
    obtain ⟨k', w2, b2, rfl, x1, x2⟩ := updated_fc v3 hlw hlb d2 (dims_bias d3)
    simp only [List.getElem?_cons_zero, List.getElem?_cons_succ, Option.some.injEq, Layer.mk.injEq, LayerKind.fc.injEq, and_true] at e1
    subst e1
    simp only [hlw, x1] at e2
    exact ⟨k', R, w2, b2, rfl, x1, x2, fun c hc => (sameOn_row hj e2 c hc).trans (hv c hc)⟩

end

end SmartDNN
