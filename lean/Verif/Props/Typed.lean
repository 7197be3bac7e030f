import Verif.Proofs.Typed

/-!
# Well-shaped models never fail (C67)

The layer shapes of a model are checked once (`Chain`); after that no call of `predict`, `backward`,
`updateWeights` or `train` on data of the right shape throws or runs into undefined behaviour, whatever the
numbers are, and the shapes are the same afterwards.
-/

namespace SmartDNN
open Net Spec

/-! ### Specification -/

/-- `Typed l ds es`: the layer `l` maps arrays of dimensions `ds` to arrays of dimensions `es`.  Only shapes and
configuration are constrained, not the numbers or what earlier calls stored. -/
inductive Spec.Typed : Layer ℝ → List Nat → List Nat → Prop where
  /-- A fully connected layer `n → m` on a batch of `b` rows. -/
  | dense {b n m : Nat} {w bias : List Nat → ℝ} {l : FC ℝ} {mode : Bool}
      (hx : Dims [b, n]) (hw : Dims [n, m]) (hg : Dims [b, m])
      (hlw : l.weights = ofFn [n, m] w) (hlb : l.biases = ofFn [1, m] bias) : Typed ⟨.fc l, mode⟩ [b, n] [b, m]
  /-- An elementwise activation. -/
  | elementwise {ds : List Nat} {l : ActLayer ℝ} {mode : Bool} (hd : Dims ds) (ha : l.activation ≠ .softmax) :
      Typed ⟨.activation l, mode⟩ ds ds
  /-- Softmax on two or more dimensions. -/
  | softmax {d : Nat} {ds : List Nat} {l : ActLayer ℝ} {mode : Bool} (hd : Dims (d :: ds)) (hne : ds ≠ [])
      (ha : l.activation = .softmax) : Typed ⟨.activation l, mode⟩ (d :: ds) (d :: ds)
  /-- Flatten on three or more dimensions. -/
  | flatten {d : Nat} {ds : List Nat} {l : Flatten} {mode : Bool} (hd : Dims (d :: ds)) (hr : 2 ≤ ds.length) :
      Typed ⟨.flatten l, mode⟩ (d :: ds) [d, ds.prod]
  /-- A convolution, any batch size, channels, stride, padding and dilation (the last three are ignored by the
  code's output size). -/
  | conv {n ic oc h w kh kw : Nat} {k b : List Nat → ℝ} {l : Conv ℝ} {mode : Bool}
      (hd : Dims [n, ic, h, w]) (hdk : Dims [oc, ic, kh, kw]) (hdb : Dims [oc, 1]) (hk : kh ≤ h) (hkw : kw ≤ w)
      (ho : n * oc * h * w < 2 ^ 31) (h0 : l.inputChannels = ic) (h1 : l.outputChannels = oc)
      (h2 : l.kernelHeight = kh) (h3 : l.kernelWidth = kw)
      (h4 : l.weights = ofFn [oc, ic, kh, kw] k) (h5 : l.biases = ofFn [oc, 1] b) :
      Typed ⟨.conv l, mode⟩ [n, ic, h, w] [n, oc, h - kh + 1, w - kw + 1]
  /-- Max pooling without padding. -/
  | pool {n c h w p s : Nat} {ninf : ℝ} {inp : Option (Tensor ℝ)} {mode : Bool} (hd : Dims [n, c, h, w])
      (hp : 0 < p) (hs : 0 < s) (hph : p ≤ h) (hpw : p ≤ w) :
      Typed ⟨.maxPool ⟨p, s, 0, ninf, inp⟩, mode⟩ [n, c, h, w] [n, c, (h - p) / s + 1, (w - p) / s + 1]
  /-- Dropout in training mode. -/
  | dropout {ds : List Nat} {l : Dropout ℝ} (hd : Dims ds) : Typed ⟨.dropout l, true⟩ ds ds

/-- The layers fit together: each accepts the dimensions the previous one returns. -/
inductive Spec.Chain : List (Layer ℝ) → List Nat → List Nat → Prop where
  | nil (ds : List Nat) : Chain [] ds ds
  | cons {l : Layer ℝ} {ls : List (Layer ℝ)} {ds es hs : List Nat} (hl : Typed l ds es) (hls : Chain ls es hs) :
      Chain (l :: ls) ds hs

/-- The loss accepts predictions and targets of dimensions `es`. -/
def Spec.LossFits : Loss ℝ → List Nat → Prop
  | .mse, es => Dims es
  | .crossEntropy _, es => ∃ b k, es = [b, k] ∧ Dims [b, k]

/-! ### One layer -/

theorem ready_of_none {l : Layer ℝ} (h : params l = none) : Ready l := by
  intro p hp
  rw [h] at hp
  cases hp

theorem full_ofFn (ds : List Nat) (f : List Nat → ℝ) : Full (ofFn ds f) := by
  simp [Full, ofFn_shape, ofFn_data, shapeOf_size, length_indices]

theorem size_ofFn (ds : List Nat) (f g : List Nat → ℝ) : (ofFn ds f).shape.size ≤ (ofFn ds g).data.length := by
  simp [ofFn_shape, ofFn_data, shapeOf_size, length_indices]

theorem typed_step {ρ : Type} {l : Layer ℝ} {ds es : List Nat} (h : Typed l ds es) (E : Engine ρ ℝ) (r : ρ)
    (x : List Nat → ℝ) :
    ∃ y l' r', Layer.forward E (ofFn ds x) (l, r) = (.ok (ofFn es y), (l', r')) ∧ Typed l' ds es ∧ params l' = params l ∧
      ∀ g, ∃ z l'', Layer.backward (ofFn es g) l' = (.ok (ofFn ds z), l'') ∧ Typed l'' ds es ∧ Ready l'' ∧
        params l'' = params l := by
  cases h with
  | @dense b n m w bias l mode hx hw hg hlw hlb =>
    refine ⟨affine n w bias x, ⟨.fc { l with input := some (ofFn [b, n] x) }, mode⟩, r, ?_, .dense hx hw hg hlw hlb, rfl,
      fun g => ?_⟩
    · simp only [Layer.forward, Layer.onKind]
      rw [C37_batch hg w bias x l hlw hlb]
    · simp only [Layer.backward, Layer.onKind]
      rw [fc_backprop hx hw hg w bias x g l hlw hlb]
      refine ⟨_, _, rfl, .dense hx hw hg hlw hlb, ?_, rfl⟩
      intro p hp
      cases hp
      refine ⟨_, rfl, ?_, ?_, ?_, ?_⟩
      · simp only [hlw]; exact full_ofFn _ _
      · simp only [hlb]; exact full_ofFn _ _
      · simp only [hlw]; exact size_ofFn _ _ _
      · simp only [hlb]; exact size_ofFn _ _ _
  | @elementwise ds l mode hd ha =>
    obtain ⟨y, hy⟩ := act_forward_ok l.activation ha ds x
    refine ⟨y, ⟨.activation { l with input := some (ofFn ds x) }, mode⟩, r, ?_, .elementwise hd ha, rfl, fun g => ?_⟩
    · exact congrArg (fun y => (y, (⟨⟨.activation { l with input := some (ofFn ds x) }, mode⟩, r⟩ : Layer ℝ × ρ))) hy
    · obtain ⟨z, hz⟩ := act_backward_ok l.activation ha hd x g
      exact ⟨z, _, congrArg (fun y => (y, (⟨.activation { l with input := some (ofFn ds x) }, mode⟩ : Layer ℝ))) hz,
        .elementwise hd ha, ready_of_none rfl, rfl⟩
  | @softmax d ds l mode hd hne ha =>
    refine ⟨Spec.softmax ds x, ⟨.activation { l with input := some (ofFn (d :: ds) x) }, mode⟩, r, ?_, .softmax hd hne ha,
      rfl, fun g => ?_⟩
    · refine congrArg (fun y => (y, (⟨⟨.activation { l with input := some (ofFn (d :: ds) x) }, mode⟩, r⟩ : Layer ℝ × ρ))) ?_
      show Act.forward l.activation _ = _
      rw [ha]
      exact C27_forward hd hne x
    · obtain ⟨A, h1, -⟩ := C28_vjp hd hne x
      refine ⟨A g, _, congrArg (fun y => (y, (⟨.activation { l with input := some (ofFn (d :: ds) x) }, mode⟩ : Layer ℝ))) ?_,
        .softmax hd hne ha, ready_of_none rfl, rfl⟩
      show Act.backward l.activation _ _ = _
      rw [ha]
      exact h1 g
  | @flatten d ds l mode hd hr =>
    have hp : [d, ds.prod].prod = (d :: ds).prod := by simp
    refine ⟨fun j => x (reindex [d, ds.prod] (d :: ds) j),
      ⟨.flatten { l with originalShape := some (shapeOf (d :: ds)) }, mode⟩, r, ?_, .flatten hd hr, rfl, fun g => ?_⟩
    · simp only [Layer.forward, Layer.onKind]
      rw [flatten_forward hd hr, reinterpret_ofFn hp]
    · refine ⟨fun i => g (reindex (d :: ds) [d, ds.prod] i), _,
        congrArg (fun y => (y, (⟨.flatten { l with originalShape := some (shapeOf (d :: ds)) }, mode⟩ : Layer ℝ))) ?_,
        .flatten hd hr, ready_of_none rfl, rfl⟩
      show (Tensor.reshape _ _) = _
      rw [shapeOf_dims, reshape_back hd hp.symm]
  | @conv n ic oc h w kh kw k b l mode hd hdk hdb hk hkw ho h0 h1 h2 h3 h4 h5 =>
    have ht : ∀ x : ℝ, MathFn.toFloat x = x := fun _ => rfl
    have hkp := hdk.pos kh (by simp)
    have hkwp := hdk.pos kw (by simp)
    have hoc := hdk.pos oc (by simp)
    have hdo : Dims [n, oc, h - kh + 1, w - kw + 1] := dims_conv hd hk hkw ho hoc hkp hkwp
    refine ⟨Spec.conv 1 kh kw 1 0 1 h w k b x, ⟨.conv { l with input := some (ofFn [n, ic, h, w] x) }, mode⟩, r, ?_,
      .conv hd hdk hdb hk hkw ho h0 h1 h2 h3 h4 h5, rfl, fun g => ?_⟩
    · simp only [Layer.forward, Layer.onKind]
      rw [conv_forward ht hd hdk hdb hk hkw ho k b x l h0 h1 h2 h3 h4 h5]
    · simp only [Layer.backward, Layer.onKind]
      rw [conv_backward ht hd hdk hdo (by omega) (by omega) x g k b { l with input := some (ofFn [n, ic, h, w] x) }
        h2 h3 h4 h5 rfl]
      refine ⟨_, _, rfl, .conv hd hdk hdb hk hkw ho h0 h1 h2 h3 h4 h5, ?_, rfl⟩
      intro p hp
      cases hp
      refine ⟨_, rfl, ?_, ?_, ?_, ?_⟩
      · simp only [h4]; exact full_ofFn _ _
      · simp only [h5]; exact full_ofFn _ _
      · simp only [h4]; exact size_ofFn _ _ _
      · simp only [h5]; exact size_ofFn _ _ _
  | @pool n c h w p s ninf inp mode hd hp hs hph hpw =>
    have e1 : poolOut p s h = (h - p) / s + 1 := if_pos hph
    have e2 : poolOut p s w = (w - p) / s + 1 := if_pos hpw
    rw [← e1, ← e2]
    have ht : ∀ inp', Typed ⟨.maxPool ⟨p, s, 0, ninf, inp'⟩, mode⟩ [n, c, h, w] [n, c, poolOut p s h, poolOut p s w] := by
      intro inp'
      rw [e1, e2]
      exact .pool hd hp hs hph hpw
    obtain ⟨m, hm⟩ := pool_forward_ok hd hp hs (Or.inl hph) (Or.inl hpw) x ninf inp
    refine ⟨m, ⟨.maxPool ⟨p, s, 0, ninf, some (ofFn [n, c, h, w] x)⟩, mode⟩, r, ?_, ht _, rfl, fun g => ?_⟩
    · simp only [Layer.forward, Layer.onKind]
      rw [hm]
    · obtain ⟨z, hz⟩ := pool_backward_ok (s := s) hd hp x g ninf
      refine ⟨z, ⟨.maxPool ⟨p, s, 0, ninf, some (ofFn [n, c, h, w] x)⟩, mode⟩, ?_, ht _, ready_of_none rfl, rfl⟩
      simp only [Layer.backward, Layer.onKind]
      rw [hz]
  | @dropout ds l hd =>
    have hf := dropout_forward_training E hd x l r (createRandom_ofFn E ds 0 1 r)
    generalize hm : ofFn ds (fun i => if l.dropoutRate < cmin (cmax (drawAt E ds.prod (ravel ds i) r) 0) 1 then (1 : ℝ) else 0) =
      mask at hf
    refine ⟨fun i => x i * (if l.dropoutRate < cmin (cmax (drawAt E ds.prod (ravel ds i) r) 0) 1 then 1 else 0) *
        (1 / (1 - l.dropoutRate)), ⟨.dropout { l with mask := some mask }, true⟩, engineAfter E ds.prod ds.prod r, ?_,
        .dropout hd, rfl, fun g => ?_⟩
    · simp only [Layer.forward, Layer.onKind]
      rw [hf]
    · refine ⟨fun i => g i * (if l.dropoutRate < cmin (cmax (drawAt E ds.prod (ravel ds i) r) 0) 1 then 1 else 0),
        ⟨.dropout { l with mask := some mask }, true⟩, ?_, .dropout hd, ready_of_none rfl, rfl⟩
      subst hm
      simp only [Layer.backward, Layer.onKind, Dropout.backward, Mut.get_bind, derefOpt, Mut.lift_ok_bind, ofFn_shape,
        beq_shapeOf, decide_true, Bool.not_true, Bool.false_eq_true, if_false, if_true, Mut.lift_apply]
      rw [mul_same hd]

theorem updated_typed {l l' : Layer ℝ} {ds es : List Nat} (hu : Updated l l') (h : Typed l ds es) : Typed l' ds es := by
  have key : ∀ {a b : Tensor ℝ} {ds : List Nat} {f : List Nat → ℝ}, Dims ds → SameShape a b → a = ofFn ds f →
      ∃ g, b = ofFn ds g := by
    rintro a b ds f hd ⟨s1, s2⟩ rfl
    exact exists_ofFn hd s1 (by rw [s2, ofFn_data]; simp)
  cases h with
  | @dense b n m w bias l mode hx hw hg hlw hlb =>
    cases hu with
    | fc _ _ w' b' h1 h2 =>
      have hm := hw.pos m (by simp)
      have hb : Dims [1, m] := by
        refine ⟨by simp, by simpa using hm, ?_⟩
        have h3 := hw.lt
        have h4 := hw.pos n (by simp)
        simp only [List.prod_cons, List.prod_nil, mul_one, one_mul] at h3 ⊢
        exact lt_of_le_of_lt (Nat.le_mul_of_pos_left _ h4) h3
      obtain ⟨w2, e1⟩ := key hw h1 hlw
      obtain ⟨b2, e2⟩ := key hb h2 hlb
      exact .dense hx hw hg e1 e2
    | unchanged => exact .dense hx hw hg hlw hlb
  | @elementwise ds l mode hd ha =>
    cases hu
    exact .elementwise hd ha
  | @softmax d ds l mode hd hne ha =>
    cases hu
    exact .softmax hd hne ha
  | @flatten d ds l mode hd hr =>
    cases hu
    exact .flatten hd hr
  | @conv n ic oc h w kh kw k b l mode hd hdk hdb hk hkw ho h0 h1 h2 h3 h4 h5 =>
    cases hu with
    | conv _ _ w' b' s1 s2 =>
      obtain ⟨w2, e1⟩ := key hdk s1 h4
      obtain ⟨b2, e2⟩ := key hdb s2 h5
      exact .conv hd hdk hdb hk hkw ho h0 h1 h2 h3 e1 e2
    | unchanged => exact .conv hd hdk hdb hk hkw ho h0 h1 h2 h3 h4 h5
  | @pool n c h w p s ninf inp mode hd hp hs hph hpw =>
    cases hu
    exact .pool hd hp hs hph hpw
  | @dropout ds l hd =>
    cases hu
    exact .dropout hd

/-! ### The layers of a model -/

theorem chain_step {ρ : Type} {ls : List (Layer ℝ)} {ds es : List Nat} (h : Chain ls ds es) (E : Engine ρ ℝ) :
    ∀ (r : ρ) (x : List Nat → ℝ),
    ∃ y ls' r', forwardLayers E ls (ofFn ds x) r = (.ok (ofFn es y), ls', r') ∧ Chain ls' ds es ∧
      ls'.map params = ls.map params ∧
      ∀ g, ∃ z ls'', backwardLayers ls' (ofFn es g) = (.ok (ofFn ds z), ls'') ∧ Chain ls'' ds es ∧ (∀ l ∈ ls'', Ready l) ∧
        ls''.map params = ls.map params := by
  induction h with
  | nil ds => exact fun r x => ⟨x, [], r, rfl, .nil ds, rfl, fun g => ⟨g, [], rfl, .nil ds, by simp, rfl⟩⟩
  | @cons l ls ds es hs hl hls ih =>
    intro r x
    obtain ⟨y, l', r', f1, f2, f3, f4⟩ := typed_step hl E r x
    obtain ⟨z, ls', r'', k1, k2, k3, k4⟩ := ih r' y
    refine ⟨z, l' :: ls', r'', ?_, .cons f2 k2, by simp [f3, k3], fun g => ?_⟩
    · rw [forwardLayers_cons, f1]
      simp only
      rw [k1]
    · obtain ⟨u, ls'', b1, b2, b3, b4⟩ := k4 g
      obtain ⟨v, l'', c1, c2, c3, c4⟩ := f4 u
      refine ⟨v, l'' :: ls'', ?_, .cons c2 b2, ?_, by simp [c4, b4]⟩
      · unfold backwardLayers
        rw [b1]
        simp only
        rw [c1]
      · intro a ha
        rcases List.mem_cons.1 ha with rfl | ha
        · exact c3
        · exact b3 a ha

theorem updated_chain {ls ls' : List (Layer ℝ)} (hu : List.Forall₂ Updated ls ls') :
    ∀ {ds es : List Nat}, Chain ls ds es → Chain ls' ds es := by
  induction hu with
  | nil => exact fun h => h
  | cons h _ ih =>
    intro ds es hc
    cases hc with
    | cons hl hls => exact .cons (updated_typed h hl) (ih hls)

theorem remembersFrom_params {ls ls' : List (Layer ℝ)} (h : ls'.map params = ls.map params) {opt : Optimizer (Nat × Bool) ℝ}
    {i : Nat} (hr : RemembersFrom opt i ls) : RemembersFrom opt i ls' := by
  intro j l hj p hp
  have h1 : (ls'.map params)[j]? = some (some p) := by rw [List.getElem?_map, hj, Option.map_some, hp]
  rw [h, List.getElem?_map, Option.map_eq_some_iff] at h1
  obtain ⟨a, ha, hpa⟩ := h1
  exact hr j a ha p hpa

theorem loss_ok {L : Loss ℝ} {es : List Nat} (h : LossFits L es) (p t : List Nat → ℝ) :
    ∃ v g, L.compute (ofFn es p) (ofFn es t) = .ok (ofFn [1] fun _ => v) ∧ L.gradient (ofFn es p) (ofFn es t) = .ok (ofFn es g) := by
  cases L with
  | mse => exact ⟨_, _, C29_compute h p t, mse_gradient_ofFn h p t⟩
  | crossEntropy eps =>
    obtain ⟨b, k, rfl, hd⟩ := h
    exact ⟨_, _, C30_compute hd eps p t, C31_value hd eps p t⟩

/-! ### Models -/

/-- A compiled model whose layers fit together from `ds` to `es`, whose loss accepts `es`, and whose optimizer is
fresh or has only been used on this model (`RemembersFrom`: what it remembers about a parameter has the
parameter's size). -/
def Spec.WellShaped {ρ : Type} (net : Net ρ ℝ) (ds es : List Nat) : Prop :=
  Chain net.layers ds es ∧ (∃ L, net.loss = some L ∧ LossFits L es) ∧
    ∃ opt, net.optimizer = some opt ∧ RemembersFrom opt 0 net.layers

/-- Tensors of dimensions `ds`. -/
def Spec.HasDims (ds : List Nat) (t : Tensor ℝ) : Prop := ∃ f, t = ofFn ds f

/-- `predict` returns a tensor of dimensions `es` and leaves a well-shaped model. -/
theorem C67_predict {ρ : Type} {ds es : List Nat} (E : Engine ρ ℝ) (net : Net ρ ℝ) (h : WellShaped net ds es)
    (x : Tensor ℝ) (hx : HasDims ds x) :
    ∃ y net', predict E x net = (.ok y, net') ∧ HasDims es y ∧ WellShaped net' ds es := by
  obtain ⟨f, rfl⟩ := hx
  obtain ⟨hc, hl, opt, ho, hr⟩ := h
  obtain ⟨y, ls', r', h1, h2, h3, -⟩ := chain_step hc E net.rng f
  refine ⟨ofFn es y, { net with layers := ls', rng := r' }, ?_, ⟨y, rfl⟩, h2, hl, opt, ho, remembersFrom_params h3 hr⟩
  unfold predict
  rw [h1]

/-- One training step on an input and a target of the right shapes succeeds and leaves a well-shaped model. -/
theorem C67_step {ρ : Type} {ds es : List Nat} (E : Engine ρ ℝ) (net : Net ρ ℝ) (h : WellShaped net ds es)
    (x y : Tensor ℝ) (hx : HasDims ds x) (hy : HasDims es y) :
    ∃ net' v, StepOk E x y net net' v ∧ WellShaped net' ds es := by
  obtain ⟨f, rfl⟩ := hx
  obtain ⟨t, rfl⟩ := hy
  obtain ⟨hc, ⟨L, hL, hfit⟩, opt, ho, hr⟩ := h
  obtain ⟨p, ls', r', h1, h2, h3, h4⟩ := chain_step hc E net.rng f
  obtain ⟨v, g, l1, l2⟩ := loss_ok hfit p t
  obtain ⟨z, ls'', b1, b2, b3, b4⟩ := h4 g
  let net1 : Net ρ ℝ := { net with layers := ls', rng := r' }
  let net2 : Net ρ ℝ := { net with layers := ls'', rng := r' }
  have hready : NetReady net2 := ⟨b3, opt, ho, remembersFrom_params b4 hr⟩
  obtain ⟨u1, u2⟩ := C56_succeeds net2 hready
  obtain ⟨c1, c2, -⟩ := C56_changes net2
  obtain ⟨-, opt', o1, o2⟩ := u2
  refine ⟨(updateWeights net2).2, v, ⟨ofFn es p, net1, L, ofFn es g, ofFn ds z, net2, ?_, hL, l1, l2, ?_, ?_⟩,
    updated_chain c1 b2, ⟨L, c2.trans hL, hfit⟩, opt', o1, o2⟩
  · unfold predict
    rw [h1]
  · show backward (ofFn es g) net1 = _
    unfold backward
    rw [show net1.layers = ls' from rfl, b1]
  · exact Prod.ext u1 rfl

theorem steps_total {ρ : Type} {ds es : List Nat} (E : Engine ρ ℝ) (ps : List (Tensor ℝ × Tensor ℝ))
    (hp : ∀ q ∈ ps, HasDims ds q.1 ∧ HasDims es q.2) : ∀ (net : Net ρ ℝ), WellShaped net ds es →
    ∃ net' vs, Steps E ps net net' vs ∧ WellShaped net' ds es := by
  induction ps with
  | nil => exact fun net h => ⟨net, [], .nil net, h⟩
  | cons q ps ih =>
    intro net h
    obtain ⟨x, y⟩ := q
    obtain ⟨hx, hy⟩ := hp (x, y) (by simp)
    obtain ⟨net1, v, s1, s2⟩ := C67_step E net h x y hx hy
    obtain ⟨net2, vs, t1, t2⟩ := ih (fun q hq => hp q (by simp [hq])) net1 s2
    exact ⟨net2, v :: vs, .cons s1 t1, t2⟩

theorem epochs_total {ρ : Type} {ds es : List Nat} (E : Engine ρ ℝ) (ps : List (Tensor ℝ × Tensor ℝ))
    (hp : ∀ q ∈ ps, HasDims ds q.1 ∧ HasDims es q.2) (n : Nat) : ∀ (net : Net ρ ℝ), WellShaped net ds es →
    ∃ net' rs, Epochs E ps n net net' rs ∧ rs.length = n ∧ WellShaped net' ds es := by
  induction n with
  | zero => exact fun net h => ⟨net, [], .zero net, rfl, h⟩
  | succ n ih =>
    intro net h
    obtain ⟨net1, vs, s1, s2⟩ := steps_total E ps hp net h
    obtain ⟨net2, rs, t1, t2, t3⟩ := ih net1 s2
    exact ⟨net2, _ :: rs, .succ s1 t1, by rw [List.length_cons, t2], t3⟩

/-- **C67.** Training a well-shaped model on any non-empty data of the right shapes always succeeds, for every
number of epochs and whatever the numbers are; one loss is printed per epoch, and the model stays well-shaped. -/
theorem C67_train {ρ : Type} {ds es : List Nat} (E : Engine ρ ℝ) (net : Net ρ ℝ) (h : WellShaped net ds es)
    (inputs targets : List (Tensor ℝ)) (epochs : Int) (hne : inputs ≠ []) (hlen : inputs.length ≤ targets.length)
    (hx : ∀ x ∈ inputs, HasDims ds x) (hy : ∀ y ∈ targets, HasDims es y) :
    ∃ net' rs, trainCall E inputs targets epochs net = (.ok (), net', rs) ∧ rs.length = epochs.toNat ∧
      WellShaped net' ds es := by
  have hn : (inputs.length : ℝ) ≠ 0 := by
    rw [Ne, Nat.cast_eq_zero, List.length_eq_zero_iff]
    exact hne
  obtain ⟨net', rs, e1, e2, e3⟩ := epochs_total E (inputs.zip targets)
    (fun q hq => ⟨hx _ (List.of_mem_zip hq).1, hy _ (List.of_mem_zip hq).2⟩) epochs.toNat net h
  exact ⟨net', rs, (C55_train E inputs targets epochs net net' rs hlen hn).2 e1, e2, e3⟩

/-- Any freshly compiled model with fitting layers is well-shaped, for each of the three optimizers. -/
theorem C67_compiled {ρ : Type} {ds es : List Nat} (net : Net ρ ℝ) (L : Loss ℝ) (hc : Chain net.layers ds es) (hL : LossFits L es)
    (o1 : SGDOptions ℝ) (o2 : RMSPropOptions ℝ) (o3 : AdamOptions ℝ) :
    WellShaped (net.compile L (.newSGD o1)) ds es ∧ WellShaped (net.compile L (.newRMSProp o2)) ds es ∧
      WellShaped (net.compile L (.newAdam o3)) ds es := by
  refine ⟨⟨hc, ⟨L, rfl, hL⟩, _, rfl, ?_⟩, ⟨hc, ⟨L, rfl, hL⟩, _, rfl, ?_⟩, ⟨hc, ⟨L, rfl, hL⟩, _, rfl, ?_⟩⟩ <;>
    intro j l _ p _
  · exact ⟨(remembers_new _ _ o1 o2 o3).1, (remembers_new _ _ o1 o2 o3).1⟩
  · exact ⟨(remembers_new _ _ o1 o2 o3).2.1, (remembers_new _ _ o1 o2 o3).2.1⟩
  · exact ⟨(remembers_new _ _ o1 o2 o3).2.2, (remembers_new _ _ o1 o2 o3).2.2⟩

/-! ### A concrete model

Convolution 1 → 2 channels with a 3x3 kernel, ReLU, 2x2 pooling, dropout, flatten, dense 18 → 10, softmax, on a
batch of two 8x8 images: the hypotheses of `C67_train` are met. -/

section
noncomputable section

def exConvNet : Net Unit ℝ where
  layers := [
    ⟨.conv ⟨1, 2, 3, 3, 1, 0, 1, ofFn [2, 1, 3, 3] (fun _ => 1), ofFn [2, 1] (fun _ => 0), none, none, none⟩, true⟩,
    ⟨.activation { activation := .relu }, true⟩,
    ⟨.maxPool ⟨2, 2, 0, -1000, none⟩, true⟩,
    ⟨.dropout { dropoutRate := 1 / 4 }, true⟩,
    ⟨.flatten {}, true⟩,
    ⟨.fc { weights := ofFn [18, 10] (fun _ => 1), biases := ofFn [1, 10] (fun _ => 0) }, true⟩,
    ⟨.activation { activation := .softmax }, true⟩]
  rng := ()

theorem exConvNet_chain : Chain exConvNet.layers [2, 1, 8, 8] [2, 10] := by
  have d : ∀ {ds : List Nat}, ds ≠ [] → (∀ a ∈ ds, 0 < a) → ds.prod < 2 ^ 31 → Dims ds := fun a b c => ⟨a, b, c⟩
  refine .cons (es := [2, 2, 6, 6]) (.conv (n := 2) (ic := 1) (oc := 2) (h := 8) (w := 8) (kh := 3) (kw := 3)
    (d (by simp) (by simp) (by simp)) (d (by simp) (by simp) (by simp)) (d (by simp) (by simp) (by simp)) (by omega) (by omega)
    (by norm_num) rfl rfl rfl rfl rfl rfl) ?_
  refine .cons (es := [2, 2, 6, 6]) (.elementwise (d (by simp) (by simp) (by simp)) (by intro h; cases h)) ?_
  refine .cons (es := [2, 2, 3, 3]) (.pool (n := 2) (c := 2) (h := 6) (w := 6) (p := 2) (s := 2)
    (d (by simp) (by simp) (by simp)) (by omega) (by omega) (by omega) (by omega)) ?_
  refine .cons (es := [2, 2, 3, 3]) (.dropout (d (by simp) (by simp) (by simp))) ?_
  refine .cons (es := [2, 18]) (.flatten (d := 2) (ds := [2, 3, 3]) (d (by simp) (by simp) (by simp)) (by simp)) ?_
  refine .cons (es := [2, 10]) (.dense (d (by simp) (by simp) (by simp)) (d (by simp) (by simp) (by simp))
    (d (by simp) (by simp) (by simp)) rfl rfl) ?_
  exact .cons (es := [2, 10]) (.softmax (d (by simp) (by simp) (by simp)) (by simp) rfl) (.nil _)

example (E : Engine Unit ℝ) (epochs : Int) (o : AdamOptions ℝ) (x y : List Nat → ℝ) :
    (trainCall E [ofFn [2, 1, 8, 8] x] [ofFn [2, 10] y] epochs (exConvNet.compile (.crossEntropy (1 / 100)) (.newAdam o))).1 =
      .ok () := by
  obtain ⟨net', rs, h, -, -⟩ := C67_train E _ (C67_compiled exConvNet (.crossEntropy (1 / 100)) exConvNet_chain
    ⟨2, 10, rfl, by simp, by simp, by simp⟩ ⟨0, 0, 0, 0, false⟩ ⟨0, 0, 0, 0, false, 0⟩ o).2.2
    [ofFn [2, 1, 8, 8] x] [ofFn [2, 10] y] epochs (by simp) (by simp) (by simpa using ⟨x, rfl⟩) (by simpa using ⟨y, rfl⟩)
  rw [h]

/-- The same run is described by `C55_train`: its hypotheses are met and it has epochs to talk about. -/
example (E : Engine Unit ℝ) (o : AdamOptions ℝ) (x y : List Nat → ℝ) :
    ∃ net' rs, Epochs E ([ofFn [2, 1, 8, 8] x].zip [ofFn [2, 10] y]) 7
      (exConvNet.compile (.crossEntropy (1 / 100)) (.newAdam o)) net' rs ∧ rs.length = 7 := by
  obtain ⟨net', rs, h, h2, -⟩ := epochs_total E ([ofFn [2, 1, 8, 8] x].zip [ofFn [2, 10] y]) (by simpa using ⟨⟨x, rfl⟩, ⟨y, rfl⟩⟩) 7 _
    (C67_compiled exConvNet (.crossEntropy (1 / 100)) exConvNet_chain
    ⟨2, 10, rfl, by simp, by simp, by simp⟩ ⟨0, 0, 0, 0, false⟩ ⟨0, 0, 0, 0, false, 0⟩ o).2.2
  exact ⟨net', rs, h, h2⟩

end
end

end SmartDNN
