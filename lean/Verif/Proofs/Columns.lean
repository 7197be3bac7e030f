import Verif.Proofs.ColumnsOpt

/-!
# Models and one output (for C120)
-/

namespace SmartDNN
open Net Spec

/-- What the two models have between two layers: the same values in front of the dense layer, the same column behind it. -/
def Near (j : Nat) (s : Bool) (ds : List Nat) (f f' : List Nat → ℝ) : Prop :=
  (s = false → f' = f) ∧ (s = true → ∀ i, ValidIdx ds i → i.getD 1 0 = j → f' i = f i)

/-- Gradients: nothing is known in front of the dense layer. -/
def GNear (j : Nat) (s : Bool) (ds : List Nat) (f f' : List Nat → ℝ) : Prop := s = true → ∀ i, ValidIdx ds i → i.getD 1 0 = j → f' i = f i

/-- The gradients a layer has stored correspond. -/
def CGrad (j : Nat) : Part → Layer ℝ → Layer ℝ → Prop
  | .column n m, l, l' => ∃ a b a' b', grads l = some (a, b) ∧ grads l' = some (a', b') ∧ SameColumn j [n, m] a a' ∧ SameColumn j [1, m] b b'
  | .whole, l, l' => params l = none ∧ params l' = none

/-- A layer without parameters is not changed by `backward`. -/
theorem backward_keeps {l : Layer ℝ} (h : params l = none) (g : Tensor ℝ) : (Layer.backward g l).2 = l := by
  obtain ⟨kind, mode⟩ := l
  cases kind with
  | fc f => cases h
  | conv f => cases h
  | batchNorm f => cases h
  | flatten f =>
    obtain ⟨s⟩ := f
    cases s <;> rfl
  | activation a =>
    obtain ⟨act, inp⟩ := a
    cases inp <;> rfl
  | maxPool f =>
    obtain ⟨p, s, q, n, inp⟩ := f
    cases inp <;> rfl
  | dropout f =>
    obtain ⟨q, mask⟩ := f
    cases mask with
    | none => rfl
    | some t =>
      show (Layer.onKind (fun l => _) (Dropout.backward mode g) _).2 = _
      simp only [Layer.onKind, Dropout.backward, derefOpt, Mut.lift, Mut.get, bind, Mut.bind]
      split
      · rfl
      · split <;> rfl

theorem aligned_step {ρ : Type} {R : Part} {c : Nat} {s s' : Bool} {l l' : Layer ℝ} {ds es : List Nat} (h : Typed l ds es)
    (hr : Aligned c R s s' l l') (E : Engine ρ ℝ) (r : ρ) (x x' : List Nat → ℝ) (hx : Near c s ds x x') :
    ∃ y y' k k' r', Layer.forward E (ofFn ds x) (l, r) = (.ok (ofFn es y), (k, r')) ∧
      Layer.forward E (ofFn ds x') (l', r) = (.ok (ofFn es y'), (k', r')) ∧ Near c s' es y y' ∧
      Typed k ds es ∧ Aligned c R s s' k k' ∧ params k = params l ∧
      ∀ g g', GNear c s' es g g' → ∃ z z' j j', Layer.backward (ofFn es g) k = (.ok (ofFn ds z), j) ∧
        Layer.backward (ofFn es g') k' = (.ok (ofFn ds z'), j') ∧ GNear c s ds z z' ∧
        Typed j ds es ∧ Aligned c R s s' j j' ∧ CGrad c R j j' ∧ Ready j ∧ params j = params l := by
  cases hr with
  | front _ hp =>
    obtain rfl := hx.1 rfl
    obtain ⟨y, k, r', h1, h2, h3, h4⟩ := typed_step h E r x'
    have hk : params k = none := h3.trans hp
    refine ⟨y, y, k, k, r', h1, h1, ⟨fun _ => rfl, fun e => by cases e⟩, h2, .front k hk, h3, fun g g' _ => ?_⟩
    obtain ⟨z, j, b1, b2, b3, b4⟩ := h4 g
    obtain ⟨z', j', c1, -⟩ := h4 g'
    obtain rfl : j = k := (congrArg Prod.snd b1).symm.trans (backward_keeps hk _)
    obtain rfl : j' = j := (congrArg Prod.snd c1).symm.trans (backward_keeps hk _)
    exact ⟨z, z', j', j', b1, c1, (fun e => by cases e), b2, .front j' hk, ⟨hk, hk⟩, b3, b4⟩
  | @behind a a' mode ha hact =>
    have hx := hx.2 rfl
    cases h with
    | softmax hd hne hs => exact absurd hs ha
    | elementwise hd _ =>
      obtain ⟨φ, ψ, h1, -⟩ := act_pointwise a.activation ha
      refine ⟨fun i => φ (x i), fun i => φ (x' i), ⟨.activation { a with input := some (ofFn ds x) }, mode⟩,
        ⟨.activation { a' with input := some (ofFn ds x') }, mode⟩, r, ?_, ?_,
        ⟨(fun e => by cases e), fun _ i hv hi => by beta_reduce; rw [hx i hv hi]⟩, .elementwise hd ha, .behind ha hact, rfl, fun g g' hg => ?_⟩
      · exact congrArg (fun y => (y, (⟨⟨.activation { a with input := some (ofFn ds x) }, mode⟩, r⟩ : Layer ℝ × ρ))) (h1 _ x).1
      · have := (h1 ds x').1
        rw [← hact] at this
        exact congrArg (fun y => (y, (⟨⟨.activation { a' with input := some (ofFn ds x') }, mode⟩, r⟩ : Layer ℝ × ρ))) this
      · have b2 := (h1 ds x').2 hd g'
        rw [← hact] at b2
        exact ⟨fun i => ψ (x i) (g i), fun i => ψ (x' i) (g' i), ⟨.activation { a with input := some (ofFn ds x) }, mode⟩,
          ⟨.activation { a' with input := some (ofFn ds x') }, mode⟩,
          congrArg (fun y => (y, (⟨.activation { a with input := some (ofFn ds x) }, mode⟩ : Layer ℝ))) ((h1 _ x).2 hd g),
          congrArg (fun y => (y, (⟨.activation { a' with input := some (ofFn ds x') }, mode⟩ : Layer ℝ))) b2,
          (fun _ i hv hi => by beta_reduce; rw [hx i hv hi, hg rfl i hv hi]),
          .elementwise hd ha, .behind ha hact, ⟨rfl, rfl⟩, ready_of_none rfl, rfl⟩
  | @dense n m f f' mode hw hb =>
    obtain rfl := hx.1 rfl
    cases h with
    | @dense b n' m' w0 bias0 _ _ hdx hdw hg hlw hlb =>
      obtain ⟨w, w', e1, e1', ew⟩ := id hw
      obtain ⟨bias, bias', e2, e2', eb⟩ := id hb
      have hd := ofFn_dims_inj (e1.symm.trans hlw)
      simp only [List.cons.injEq, and_true] at hd
      obtain ⟨rfl, rfl⟩ := hd
      refine ⟨affine n w bias x', affine n w' bias' x', ⟨.fc { f with input := some (ofFn [b, n] x') }, mode⟩,
        ⟨.fc { f' with input := some (ofFn [b, n] x') }, mode⟩, r, ?_, ?_, ⟨(fun e => by cases e), fun _ i hv hi => ?_⟩, .dense hdx hdw hg e1 e2, .dense hw hb, rfl,
        fun g g' hgg => ?_⟩
      · simp only [Layer.forward, Layer.onKind]
        rw [C37_batch hg w bias x' f e1 e2]
      · simp only [Layer.forward, Layer.onKind]
        rw [C37_batch hg w' bias' x' f' e1' e2']
      · obtain ⟨a, q, rfl, ha, hq⟩ := valid2_iff.1 hv
        show (∑ p ∈ Finset.range n, x' [a, p] * w' [p, q]) + bias' [0, q] = (∑ p ∈ Finset.range n, x' [a, p] * w [p, q]) + bias [0, q]
        rw [eb [0, q] (valid2_iff.2 ⟨_, _, rfl, by omega, hq⟩) hi]
        congr 1
        refine Finset.sum_congr rfl fun p hp => ?_
        rw [ew [p, q] (valid2_iff.2 ⟨_, _, rfl, Finset.mem_range.1 hp, hq⟩) hi]
      · have b1 := fc_backprop hdx hdw hg w bias x' g f e1 e2
        have b2 := fc_backprop hdx hdw hg w' bias' x' g' f' e1' e2'
        have c1 : Layer.backward (ofFn [b, m] g) ⟨.fc { f with input := some (ofFn [b, n] x') }, mode⟩ = _ :=
          congrArg (fun p => (p.1, (⟨.fc p.2, mode⟩ : Layer ℝ))) b1
        have c2 : Layer.backward (ofFn [b, m] g') ⟨.fc { f' with input := some (ofFn [b, n] x') }, mode⟩ = _ :=
          congrArg (fun p => (p.1, (⟨.fc p.2, mode⟩ : Layer ℝ))) b2
        have hgg := hgg rfl
        refine ⟨_, _, _, _, c1, c2, (fun e => by cases e), .dense hdx hdw hg e1 e2, .dense hw hb,
          ⟨_, _, _, _, rfl, rfl, ⟨_, _, rfl, rfl, fun i hv hi => ?_⟩, ⟨_, _, rfl, rfl, fun i hv hi => ?_⟩⟩, ?_, rfl⟩
        · obtain ⟨a, q, rfl, ha, hq⟩ := valid2_iff.1 hv
          show ∑ p ∈ Finset.range b, x' [p, a] * g' [p, q] = ∑ p ∈ Finset.range b, x' [p, a] * g [p, q]
          refine Finset.sum_congr rfl fun p hp => ?_
          rw [hgg [p, q] (valid2_iff.2 ⟨_, _, rfl, Finset.mem_range.1 hp, hq⟩) hi]
        · obtain ⟨a, q, rfl, ha, hq⟩ := valid2_iff.1 hv
          show ∑ p ∈ Finset.range b, g' [p, q] = ∑ p ∈ Finset.range b, g [p, q]
          refine Finset.sum_congr rfl fun p hp => ?_
          rw [hgg [p, q] (valid2_iff.2 ⟨_, _, rfl, Finset.mem_range.1 hp, hq⟩) hi]
        · intro p hp
          cases hp
          refine ⟨_, rfl, ?_, ?_, ?_, ?_⟩
          · simp only [e1]; exact full_ofFn _ _
          · simp only [e2]; exact full_ofFn _ _
          · simp only [e1]; exact size_ofFn _ _ _
          · simp only [e2]; exact size_ofFn _ _ _

/-! ### The layers of a model -/

/-- Layer by layer. -/
inductive CGrads (j : Nat) : List Part → List (Layer ℝ) → List (Layer ℝ) → Prop where
  | nil : CGrads j [] [] []
  | cons {R : Part} {Rs : List Part} {l l' : Layer ℝ} {ls ls' : List (Layer ℝ)} (h : CGrad j R l l') (hs : CGrads j Rs ls ls') :
      CGrads j (R :: Rs) (l :: ls) (l' :: ls')

theorem aligned_chain {ρ : Type} (E : Engine ρ ℝ) {c : Nat} {Rs : List Part} {s s' : Bool} {ls ls' : List (Layer ℝ)}
    (hr : AlignedAll c Rs s s' ls ls') : ∀ {ds es : List Nat}, Chain ls ds es → ∀ (r : ρ) (x x' : List Nat → ℝ), Near c s ds x x' →
    ∃ y y' ks ks' r', forwardLayers E ls (ofFn ds x) r = (.ok (ofFn es y), ks, r') ∧
      forwardLayers E ls' (ofFn ds x') r = (.ok (ofFn es y'), ks', r') ∧ Near c s' es y y' ∧
      Chain ks ds es ∧ AlignedAll c Rs s s' ks ks' ∧ ks.map params = ls.map params ∧
      ∀ g g', GNear c s' es g g' → ∃ z z' js js', backwardLayers ks (ofFn es g) = (.ok (ofFn ds z), js) ∧
        backwardLayers ks' (ofFn es g') = (.ok (ofFn ds z'), js') ∧ GNear c s ds z z' ∧
        Chain js ds es ∧ AlignedAll c Rs s s' js js' ∧ CGrads c Rs js js' ∧ (∀ l ∈ js, Ready l) ∧ js.map params = ls.map params := by
  induction hr with
  | nil s =>
    intro ds es hc r x x' hx
    cases hc
    exact ⟨x, x', [], [], r, rfl, rfl, hx, .nil _, .nil s, rfl, fun g g' hg => ⟨g, g', [], [], rfl, rfl, hg, .nil _, .nil s, .nil, by simp, rfl⟩⟩
  | @cons R Rs s s' s'' l l' ls ls' hl hls ih =>
    intro ds es hc r x x' hx
    cases hc with
    | @cons _ _ _ es' _ ht hts =>
      obtain ⟨y, y', k, k', r', f1, f2, fn, f3, f4, f5, f6⟩ := aligned_step ht hl E r x x' hx
      obtain ⟨z, z', us, us', r'', k1, k2, kn, k3, k4, k5, k6⟩ := ih hts r' y y' fn
      refine ⟨z, z', k :: us, k' :: us', r'', ?_, ?_, kn, .cons f3 k3, .cons f4 k4, by simp [f5, k5], fun g g' hg => ?_⟩
      · rw [forwardLayers_cons, f1]
        simp only
        rw [k1]
      · rw [forwardLayers_cons, f2]
        simp only
        rw [k2]
      · obtain ⟨v, v', vs, vs', b1, b2, bn, b3, b4, b5, b6, b7⟩ := k6 g g' hg
        obtain ⟨w, w', j, j', c1, c2, cn, c3, c4, c5, c6, c7⟩ := f6 v v' bn
        refine ⟨w, w', j :: vs, j' :: vs', ?_, ?_, cn, .cons c3 b3, .cons c4 b4, .cons c5 b5, ?_, by simp [b7, c7]⟩
        · unfold backwardLayers
          rw [b1]
          simp only
          rw [c1]
        · unfold backwardLayers
          rw [b2]
          simp only
          rw [c2]
        · intro a ha
          rcases List.mem_cons.1 ha with rfl | ha
          · exact c6
          · exact b6 a ha

/-- `updateWeights` of one layer. -/
theorem aligned_update {c : Nat} {fr : Nat × Bool → Option (List Nat)} {R : Part} {s s' : Bool} {l l' : Layer ℝ} (hr : Aligned c R s s' l l')
    (hg : CGrad c R l l') {i : Nat} (hf : ∀ q, fr (i, q) = cframe [R] (0, q)) {opt opt' : Optimizer (Nat × Bool) ℝ}
    (ho : OptAligned c fr opt opt') :
    let u := Layer.updateWeights (i, false) (i, true) (l, opt)
    let u' := Layer.updateWeights (i, false) (i, true) (l', opt')
    u.1 = u'.1 ∧ Aligned c R s s' u.2.1 u'.2.1 ∧ OptAligned c fr u.2.2 u'.2.2 := by
  have hk : ((i, false) : Nat × Bool) ≠ (i, true) := by simp
  intro u u'
  cases hr with
  | front _ hp =>
    have hn : ¬ Trainable l := by rw [params_trainable, hp]; rintro ⟨p, h⟩; cases h
    have e := C56_layer_other (i, false) (i, true) l opt hn
    have e' := C56_layer_other (i, false) (i, true) l opt' hn
    simp only [u, u', e, e']
    exact ⟨trivial, .front l hp, ho⟩
  | behind ha h => exact ⟨rfl, .behind ha h, ho⟩
  | @dense n m f f' mode hw hb =>
    obtain ⟨a, b, a', b', g1, g2, t1, t2⟩ := hg
    have h0 : fr (i, false) = some [n, m] := hf false
    have h1 : fr (i, true) = some [1, m] := hf true
    obtain ⟨o1, o2, o3, o4⟩ := optimizePair_aligned (fr := fr) hk ho (p0 := f.weights) (p0' := f'.weights) (p1 := f.biases) (p1' := f'.biases)
      (g0 := a) (g0' := a') (g1 := b) (g1' := b') (by rw [h0]; exact hw) (by rw [h1]; exact hb) (by rw [h0]; exact t1) (by rw [h1]; exact t2)
    rw [h0] at o2
    rw [h1] at o3
    obtain ⟨q1, q2, q3⟩ : (∃ x, f.weightGradients = some x ∧ f.biasGradients = some b ∧ x = a) ∧
        (∃ x, f'.weightGradients = some x ∧ f'.biasGradients = some b' ∧ x = a') ∧ True := by
      simp only [grads, Option.bind_eq_some_iff, Option.map_eq_some_iff, Prod.mk.injEq] at g1 g2
      obtain ⟨x, hx, y, hy, rfl, rfl⟩ := g1
      obtain ⟨x', hx', y', hy', rfl, rfl⟩ := g2
      exact ⟨⟨_, hx, hy, rfl⟩, ⟨_, hx', hy', rfl⟩, trivial⟩
    obtain ⟨_, q1, q1', rfl⟩ := q1
    obtain ⟨_, q2, q2', rfl⟩ := q2
    simp only [u, u', Layer.updateWeights, q1, q1', q2, q2']
    exact ⟨o1, .dense o2 o3, o4⟩

theorem aligned_updates {c : Nat} {fr : Nat × Bool → Option (List Nat)} {Rs : List Part} {s s' : Bool} {ls ls' : List (Layer ℝ)}
    (hr : AlignedAll c Rs s s' ls ls') : CGrads c Rs ls ls' → ∀ (i : Nat), (∀ j q, fr (i + j, q) = cframe Rs (j, q)) →
    ∀ {opt opt' : Optimizer (Nat × Bool) ℝ}, OptAligned c fr opt opt' →
    (updateLayers i ls opt).1 = (updateLayers i ls' opt').1 ∧
      AlignedAll c Rs s s' (updateLayers i ls opt).2.1 (updateLayers i ls' opt').2.1 ∧
      OptAligned c fr (updateLayers i ls opt).2.2 (updateLayers i ls' opt').2.2 := by
  induction hr with
  | nil s => exact fun _ i _ opt opt' ho => ⟨rfl, .nil s, ho⟩
  | @cons R Rs s s' s'' l l' ls ls' hl hls ih =>
    intro hg i hf opt opt' ho
    cases hg with
    | cons g gs =>
      obtain ⟨h1, h2, h3⟩ := aligned_update (fr := fr) hl g (i := i) (fun q => hf 0 q) ho
      rw [updateLayers_cons, updateLayers_cons]
      rcases e : Layer.updateWeights (i, false) (i, true) (l, opt) with ⟨r, k, o⟩
      rcases e' : Layer.updateWeights (i, false) (i, true) (l', opt') with ⟨r', k', o'⟩
      rw [e, e'] at h1 h2 h3
      simp only at h1 h2 h3
      subst h1
      cases r with
      | error er => exact ⟨rfl, .cons h2 hls, h3⟩
      | ok u =>
        obtain ⟨q1, q2, q3⟩ := ih gs (i + 1) (fun j q => by rw [Nat.add_assoc, Nat.add_comm 1 j]; exact hf (j + 1) q) h3
        exact ⟨q1, .cons h2 q2, q3⟩

/-! ### Training -/

/-- The gradient of the losses at an output depends on this output and its target. -/
theorem loss_column {L : Loss ℝ} {es : List Nat} (h : LossFits L es) {c : Nat} (p p' t t' : List Nat → ℝ) (hp : Near c true es p p')
    (ht : ∀ i, ValidIdx es i → i.getD 1 0 = c → t' i = t i) :
    ∃ v v' g g', L.compute (ofFn es p) (ofFn es t) = .ok (ofFn [1] fun _ => v) ∧ L.gradient (ofFn es p) (ofFn es t) = .ok (ofFn es g) ∧
      L.compute (ofFn es p') (ofFn es t') = .ok (ofFn [1] fun _ => v') ∧ L.gradient (ofFn es p') (ofFn es t') = .ok (ofFn es g') ∧
      GNear c true es g g' := by
  have hp := hp.2 rfl
  cases L with
  | mse =>
    refine ⟨_, _, _, _, C29_compute h p t, mse_gradient_ofFn h p t, C29_compute h p' t', mse_gradient_ofFn h p' t', fun _ i hv hi => ?_⟩
    beta_reduce
    rw [hp i hv hi, ht i hv hi]
  | crossEntropy eps =>
    obtain ⟨b, k, rfl, hd⟩ := h
    refine ⟨_, _, _, _, C30_compute hd eps p t, C31_value hd eps p t, C30_compute hd eps p' t', C31_value hd eps p' t', fun _ i hv hi => ?_⟩
    beta_reduce
    rw [hp i hv hi, ht i hv hi]

theorem aligned_trainStep {ρ : Type} {c : Nat} {Rs : List Part} {ds es : List Nat} (E : Engine ρ ℝ) (net net' : Net ρ ℝ)
    (h : WellShaped net ds es) (ht : SameOutput c Rs net net') (x y y' : List Nat → ℝ) (hy : ∀ i, ValidIdx es i → i.getD 1 0 = c → y' i = y i) :
    ∃ v v' k k', StepOk E (ofFn ds x) (ofFn es y) net k v ∧ StepOk E (ofFn ds x) (ofFn es y') net' k' v' ∧
      SameOutput c Rs k k' ∧ WellShaped k ds es := by
  obtain ⟨hc, ⟨L, hL, hfit⟩, opt, ho, hr⟩ := h
  obtain ⟨a1, a2, a3, opt₁, opt', a4, a5, a6⟩ := ht
  obtain rfl : opt₁ = opt := Option.some.inj (a4.symm.trans ho)
  obtain ⟨p, p', ks, ks', r', h1, h2, hn, h3, h4, h5, h6⟩ := aligned_chain E a1 hc net.rng x x ⟨fun _ => rfl, fun e => by cases e⟩
  obtain ⟨v, v', g, g', l1, l2, l3, l4, ln⟩ := loss_column hfit p p' y y' hn hy
  obtain ⟨z, z', js, js', b1, b2, -, b3, b4, b5, b6, b7⟩ := h6 g g' ln
  let net1 : Net ρ ℝ := { net with layers := ks, rng := r' }
  let net1' : Net ρ ℝ := { net' with layers := ks', rng := r' }
  let net2 : Net ρ ℝ := { net with layers := js, rng := r' }
  let net2' : Net ρ ℝ := { net' with layers := js', rng := r' }
  have hready : NetReady net2 := ⟨b6, opt₁, ho, remembersFrom_params b7 hr⟩
  obtain ⟨u1, u2⟩ := C56_succeeds net2 hready
  obtain ⟨c1, c2, c3⟩ := C56_changes net2
  obtain ⟨-, opt'', o1, o2⟩ := u2
  obtain ⟨w1, w2, w3⟩ := aligned_updates (fr := cframe Rs) b4 b5 0 (fun j q => by rw [Nat.zero_add]) a6
  have q := net_updateWeights_eq net2 opt₁ ho
  have q' := net_updateWeights_eq net2' opt' a5
  refine ⟨v, v', (updateWeights net2).2, (updateWeights net2').2,
    ⟨_, net1, L, _, ofFn ds z, net2, ?_, hL, l1, l2, ?_, Prod.ext u1 rfl⟩,
    ⟨_, net1', L, _, ofFn ds z', net2', ?_, a2.trans hL, l3, l4, ?_, Prod.ext ?_ rfl⟩, ⟨?_, ?_, ?_, ?_⟩,
    ⟨updated_chain c1 b3, ⟨L, c2.trans hL, hfit⟩, opt'', o1, o2⟩⟩
  · unfold predict
    rw [h1]
  · show backward _ net1 = _
    unfold backward
    rw [show net1.layers = ks from rfl, b1]
  · unfold predict
    rw [a3, h2]
  · show backward _ net1' = _
    unfold backward
    rw [show net1'.layers = ks' from rfl, b2]
  · rw [q] at u1
    rw [q']
    rw [show net2.layers = js from rfl] at u1
    rw [show net2'.layers = js' from rfl]
    exact w1.symm.trans u1
  · rw [q, q']
    exact w2
  · rw [c2, (C56_changes net2').2.1]
    exact a2
  · rw [c3, (C56_changes net2').2.2]
  · rw [q, q']
    exact ⟨_, _, rfl, rfl, w3⟩

/-- The same inputs, and targets that are the same in column `c`. -/
def ColumnData (c : Nat) (ds es : List Nat) (p q : Tensor ℝ × Tensor ℝ) : Prop :=
  ∃ x y y', p = (ofFn ds x, ofFn es y) ∧ q = (ofFn ds x, ofFn es y') ∧ ∀ i, ValidIdx es i → i.getD 1 0 = c → y' i = y i

theorem aligned_steps {ρ : Type} {c : Nat} {Rs : List Part} {ds es : List Nat} (E : Engine ρ ℝ) {ps qs : List (Tensor ℝ × Tensor ℝ)}
    (hp : List.Forall₂ (ColumnData c ds es) ps qs) : ∀ (net net' : Net ρ ℝ), WellShaped net ds es → SameOutput c Rs net net' →
    ∃ vs vs' k k', Steps E ps net k vs ∧ Steps E qs net' k' vs' ∧ SameOutput c Rs k k' ∧ WellShaped k ds es := by
  induction hp with
  | nil => exact fun net net' h ha => ⟨[], [], net, net', .nil net, .nil net', ha, h⟩
  | cons hq _ ih =>
    intro net net' h ha
    obtain ⟨x, y, y', rfl, rfl, hy⟩ := hq
    obtain ⟨v, v', k, k', s1, s2, s3, s4⟩ := aligned_trainStep E net net' h ha x y y' hy
    obtain ⟨vs, vs', j, j', t1, t2, t3, t4⟩ := ih k k' s4 s3
    exact ⟨v :: vs, v' :: vs', j, j', .cons s1 t1, .cons s2 t2, t3, t4⟩

theorem aligned_epochs {ρ : Type} {c : Nat} {Rs : List Part} {ds es : List Nat} (E : Engine ρ ℝ) {ps qs : List (Tensor ℝ × Tensor ℝ)}
    (hp : List.Forall₂ (ColumnData c ds es) ps qs) (N : Nat) : ∀ (net net' : Net ρ ℝ), WellShaped net ds es → SameOutput c Rs net net' →
    ∃ rs rs' k k', Epochs E ps N net k rs ∧ Epochs E qs N net' k' rs' ∧ SameOutput c Rs k k' ∧ WellShaped k ds es := by
  induction N with
  | zero => exact fun net net' h ha => ⟨[], [], net, net', .zero net, .zero net', ha, h⟩
  | succ N ih =>
    intro net net' h ha
    obtain ⟨vs, vs', k, k', s1, s2, s3, s4⟩ := aligned_steps E hp net net' h ha
    obtain ⟨rs, rs', j, j', t1, t2, t3, t4⟩ := ih k k' s4 s3
    exact ⟨_ :: rs, _ :: rs', j, j', .succ s1 t1, .succ s2 t2, t3, t4⟩

end SmartDNN
