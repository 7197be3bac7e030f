import Verif.Proofs.MirroredOpt

/-!
# Models and signs (for C119)
-/

namespace SmartDNN
open Net Spec

theorem measured_plus (f : List Nat → ℝ) : measured plus nought f = f := by
  funext i
  unfold measured
  split
  · simp [plus, nought]
  · rfl

theorem signs_sq {σ : Nat → ℝ} (h : Signs σ) (i : Nat) : σ i * σ i = 1 := by rcases h i with e | e <;> rw [e] <;> norm_num

/-- The gradients a layer has stored correspond by signs. -/
def MGrad : Mirroring → Layer ℝ → Layer ℝ → Prop
  | .units n m σ τ _, l, l' => ∃ a b a' b', grads l = some (a, b) ∧ grads l' = some (a', b') ∧
      TensorMirror (some ([n, m], fun i => σ (i.getD 0 0) * τ (i.getD 1 0), fun _ => 0)) a a' ∧
      TensorMirror (some ([1, m], fun i => τ (i.getD 1 0), fun _ => 0)) b b'
  | .keep, l, l' => l = l' ∨ (params l = none ∧ params l' = none)

theorem tanh_forward_ofFn (ds : List Nat) (f : List Nat → ℝ) : Act.tanh.forward (ofFn ds f) = .ok (ofFn ds fun i => Real.tanh (f i)) :=
  C26_forward (a := .tanh) rfl ds f

theorem tanh_backward_ofFn {ds : List Nat} (hd : Dims ds) (f g : List Nat → ℝ) :
    Act.tanh.backward (ofFn ds f) (ofFn ds g) = .ok (ofFn ds fun i => (1 - Real.tanh (f i) * Real.tanh (f i)) * g i) := by
  simp only [Act.backward, Tensor.apply, map_ofFn, Except.bind_ok', mul_same hd]
  rfl

theorem mirrored_step {ρ : Type} {R : Mirroring} {σ τ d : Nat → ℝ} {l l' : Layer ℝ} {ds es : List Nat} (h : Typed l ds es)
    (hr : Mirrored R σ τ d l l') (E : Engine ρ ℝ) (r : ρ) (x : List Nat → ℝ) :
    ∃ y k k' r', Layer.forward E (ofFn ds x) (l, r) = (.ok (ofFn es y), (k, r')) ∧
      Layer.forward E (ofFn ds (measured σ nought x)) (l', r) = (.ok (ofFn es (measured τ d y)), (k', r')) ∧
      Typed k ds es ∧ Mirrored R σ τ d k k' ∧ params k = params l ∧
      ∀ g, ∃ z j j', Layer.backward (ofFn es g) k = (.ok (ofFn ds z), j) ∧
        Layer.backward (ofFn es (measured τ nought g)) k' = (.ok (ofFn ds (measured σ nought z)), j') ∧
        Typed j ds es ∧ Mirrored R σ τ d j j' ∧ MGrad R j j' ∧ Ready j ∧ params j = params l := by
  cases hr with
  | same =>
    obtain ⟨y, k, r', h1, h2, h3, h4⟩ := typed_step h E r x
    refine ⟨y, k, k, r', h1, by rw [measured_plus, measured_plus]; exact h1, h2, .same k, h3, fun g => ?_⟩
    obtain ⟨z, j, b1, b2, b3, b4⟩ := h4 g
    exact ⟨z, j, j, b1, by rw [measured_plus, measured_plus]; exact b1, b2, .same j, Or.inl rfl, b3, b4⟩
  | @tanh _ a a' mode hσ ha ha' =>
    have hne : a.activation ≠ .softmax := by rw [ha]; intro h; cases h
    cases h with
    | softmax hd hn hs => exact absurd hs hne
    | elementwise hd _ =>
      obtain ⟨act, inp⟩ := a
      obtain ⟨act', inp'⟩ := a'
      simp only at ha ha'
      subst ha ha'
      let x' := measured σ nought x
      refine ⟨fun i => Real.tanh (x i), ⟨.activation ⟨.tanh, some (ofFn ds x)⟩, mode⟩, ⟨.activation ⟨.tanh, some (ofFn ds x')⟩, mode⟩, r, ?_, ?_,
        .elementwise hd hne, .tanh hσ rfl rfl, rfl, fun g => ?_⟩
      · exact congrArg (fun y => (y, (⟨⟨.activation ⟨.tanh, some (ofFn ds x)⟩, mode⟩, r⟩ : Layer ℝ × ρ))) (tanh_forward_ofFn ds x)
      · refine congrArg (fun y => (y, (⟨⟨.activation ⟨.tanh, some (ofFn ds x')⟩, mode⟩, r⟩ : Layer ℝ × ρ)))
          ((tanh_forward_ofFn ds x').trans (congrArg (fun f => Except.ok (ofFn ds f)) (funext fun i => ?_)))
        simp only [x', measured]
        split
        · next i j =>
          simp only [nought, add_zero]
          rcases hσ j with e | e <;> rw [e] <;> simp [Real.tanh_neg]
        · rfl
      · refine ⟨fun i => (1 - Real.tanh (x i) * Real.tanh (x i)) * g i, ⟨.activation ⟨.tanh, some (ofFn ds x)⟩, mode⟩,
          ⟨.activation ⟨.tanh, some (ofFn ds x')⟩, mode⟩, ?_, ?_, .elementwise hd hne, .tanh hσ rfl rfl, Or.inr ⟨rfl, rfl⟩, ready_of_none rfl, rfl⟩
        · exact congrArg (fun y => (y, (⟨.activation ⟨.tanh, some (ofFn ds x)⟩, mode⟩ : Layer ℝ))) (tanh_backward_ofFn hd x g)
        · refine congrArg (fun y => (y, (⟨.activation ⟨.tanh, some (ofFn ds x')⟩, mode⟩ : Layer ℝ)))
            ((tanh_backward_ofFn hd x' (measured σ nought g)).trans (congrArg (fun f => Except.ok (ofFn ds f)) (funext fun i => ?_)))
          simp only [x', measured]
          split
          · next i j =>
            simp only [nought, add_zero]
            rcases hσ j with e | e <;> rw [e] <;> simp [Real.tanh_neg]
          · rfl
  | @dense n m _ _ _ w bias f f' mode hσ hτ hw hb hw' hb' =>
    cases h with
    | @dense b n' m' w0 bias0 _ _ hx hdw hg hlw hlb =>
      have hd := ofFn_dims_inj (hw.symm.trans hlw)
      simp only [List.cons.injEq, and_true] at hd
      obtain ⟨rfl, rfl⟩ := hd
      let x' : List Nat → ℝ := measured σ nought x
      refine ⟨affine n w bias x, ⟨.fc { f with input := some (ofFn [b, n] x) }, mode⟩,
        ⟨.fc { f' with input := some (ofFn [b, n] x') }, mode⟩, r, ?_, ?_, .dense hx hdw hg hw hb, .dense hσ hτ hw hb hw' hb', rfl,
        fun g => ?_⟩
      · simp only [Layer.forward, Layer.onKind]
        rw [C37_batch hg w bias x f hw hb]
      · simp only [Layer.forward, Layer.onKind]
        rw [C37_batch hg _ _ x' f' hw' hb']
        refine congrArg (fun y => ((.ok y : Res (Tensor ℝ)), _)) (ofFn_congr fun i hi => ?_)
        obtain ⟨a, c, rfl, ha, hc⟩ := valid2_iff.1 hi
        show (∑ p ∈ Finset.range n, (σ p * x [a, p] + 0) * (σ p * τ c * w [p, c])) + (τ c * bias [0, c] + d c) =
          τ c * ((∑ p ∈ Finset.range n, x [a, p] * w [p, c]) + bias [0, c]) + d c
        rw [mul_add, Finset.mul_sum, ← add_assoc]
        congr 2
        refine Finset.sum_congr rfl fun p _ => ?_
        linear_combination (x [a, p] * τ c * w [p, c]) * signs_sq hσ p
      · let g' : List Nat → ℝ := measured τ nought g
        have b1 := fc_backprop hx hdw hg w bias x g f hw hb
        have b2 := fc_backprop hx hdw hg _ _ x' g' f' hw' hb'
        have c1 : Layer.backward (ofFn [b, m] g) ⟨.fc { f with input := some (ofFn [b, n] x) }, mode⟩ = _ :=
          congrArg (fun p => (p.1, (⟨.fc p.2, mode⟩ : Layer ℝ))) b1
        have c2 : Layer.backward (ofFn [b, m] g') ⟨.fc { f' with input := some (ofFn [b, n] x') }, mode⟩ = _ :=
          congrArg (fun p => (p.1, (⟨.fc p.2, mode⟩ : Layer ℝ))) b2
        refine ⟨_, _, _, c1, c2.trans (congrArg (fun y => ((.ok y : Res (Tensor ℝ)), _)) (ofFn_congr fun i hi => ?_)),
          .dense hx hdw hg hw hb, .dense hσ hτ hw hb hw' hb', ⟨_, _, _, _, rfl, rfl, ⟨_, rfl, ?_⟩, ⟨_, rfl, ?_⟩⟩, ?_, rfl⟩
        · obtain ⟨a, c, rfl, ha, hc⟩ := valid2_iff.1 hi
          show ∑ j ∈ Finset.range m, (τ j * g [a, j] + 0) * (σ c * τ j * w [c, j]) = σ c * (∑ j ∈ Finset.range m, g [a, j] * w [c, j]) + 0
          rw [Finset.mul_sum, add_zero]
          refine Finset.sum_congr rfl fun p _ => ?_
          linear_combination (g [a, p] * σ c * w [c, p]) * signs_sq hτ p
        · refine ofFn_congr fun i hi => ?_
          obtain ⟨a, c, rfl, ha, hc⟩ := valid2_iff.1 hi
          show ∑ p ∈ Finset.range b, (σ a * x [p, a] + 0) * (τ c * g [p, c] + 0) = σ a * τ c * (∑ p ∈ Finset.range b, x [p, a] * g [p, c]) + 0
          rw [Finset.mul_sum, add_zero]
          exact Finset.sum_congr rfl fun p _ => by ring
        · refine ofFn_congr fun i hi => ?_
          obtain ⟨a, c, rfl, ha, hc⟩ := valid2_iff.1 hi
          show ∑ p ∈ Finset.range b, (τ c * g [p, c] + 0) = τ c * (∑ p ∈ Finset.range b, g [p, c]) + 0
          rw [Finset.mul_sum, add_zero]
          exact Finset.sum_congr rfl fun p _ => by ring
        · intro p hp
          cases hp
          refine ⟨_, rfl, ?_, ?_, ?_, ?_⟩
          · simp only [hw]; exact full_ofFn _ _
          · simp only [hb]; exact full_ofFn _ _
          · simp only [hw]; exact size_ofFn _ _ _
          · simp only [hb]; exact size_ofFn _ _ _

/-! ### The layers of a model -/

/-- Layer by layer. -/
inductive MGrads : List Mirroring → List (Layer ℝ) → List (Layer ℝ) → Prop where
  | nil : MGrads [] [] []
  | cons {R : Mirroring} {Rs : List Mirroring} {l l' : Layer ℝ} {ls ls' : List (Layer ℝ)} (h : MGrad R l l') (hs : MGrads Rs ls ls') :
      MGrads (R :: Rs) (l :: ls) (l' :: ls')

theorem mirrored_chain {ρ : Type} (E : Engine ρ ℝ) {Rs : List Mirroring} {σ υ d : Nat → ℝ} {ls ls' : List (Layer ℝ)}
    (hr : MirroredAll Rs σ υ d ls ls') : ∀ {ds es : List Nat}, Chain ls ds es → ∀ (r : ρ) (x : List Nat → ℝ),
    ∃ y ks ks' r', forwardLayers E ls (ofFn ds x) r = (.ok (ofFn es y), ks, r') ∧
      forwardLayers E ls' (ofFn ds (measured σ nought x)) r = (.ok (ofFn es (measured υ d y)), ks', r') ∧
      Chain ks ds es ∧ MirroredAll Rs σ υ d ks ks' ∧ ks.map params = ls.map params ∧
      ∀ g, ∃ z js js', backwardLayers ks (ofFn es g) = (.ok (ofFn ds z), js) ∧
        backwardLayers ks' (ofFn es (measured υ nought g)) = (.ok (ofFn ds (measured σ nought z)), js') ∧
        Chain js ds es ∧ MirroredAll Rs σ υ d js js' ∧ MGrads Rs js js' ∧ (∀ l ∈ js, Ready l) ∧ js.map params = ls.map params := by
  induction hr with
  | @last R σ τ d l l' hl =>
    intro ds es hc r x
    cases hc with
    | @cons _ _ _ es' _ ht hts =>
      cases hts
      obtain ⟨y, k, k', r', f1, f2, f3, f4, f5, f6⟩ := mirrored_step ht hl E r x
      refine ⟨y, [k], [k'], r', ?_, ?_, .cons f3 (.nil _), .last f4, by simp [f5], fun g => ?_⟩
      · rw [forwardLayers_cons, f1]
        rfl
      · rw [forwardLayers_cons, f2]
        rfl
      · obtain ⟨w, j, j', c1, c2, c3, c4, c5, c6, c7⟩ := f6 g
        refine ⟨w, [j], [j'], ?_, ?_, .cons c3 (.nil _), .last c4, .cons c5 .nil, ?_, by simp [c7]⟩
        · simp only [backwardLayers]
          rw [c1]
        · simp only [backwardLayers]
          rw [c2]
        · intro a ha
          rw [List.mem_singleton] at ha
          rw [ha]
          exact c6
  | @cons R Rs σ τ υ d l l' ls ls' hl hls ih =>
    intro ds es hc r x
    cases hc with
    | @cons _ _ _ es' _ ht hts =>
      obtain ⟨y, k, k', r', f1, f2, f3, f4, f5, f6⟩ := mirrored_step ht hl E r x
      obtain ⟨z, us, us', r'', k1, k2, k3, k4, k5, k6⟩ := ih hts r' y
      refine ⟨z, k :: us, k' :: us', r'', ?_, ?_, .cons f3 k3, .cons f4 k4, by simp [f5, k5], fun g => ?_⟩
      · rw [forwardLayers_cons, f1]
        simp only
        rw [k1]
      · rw [forwardLayers_cons, f2]
        simp only
        rw [k2]
      · obtain ⟨v, vs, vs', b1, b2, b3, b4, b5, b6, b7⟩ := k6 g
        obtain ⟨w, j, j', c1, c2, c3, c4, c5, c6, c7⟩ := f6 v
        refine ⟨w, j :: vs, j' :: vs', ?_, ?_, .cons c3 b3, .cons c4 b4, .cons c5 b5, ?_, by simp [b7, c7]⟩
        · unfold backwardLayers
          rw [b1]
          simp only
          rw [c1]
        · unfold backwardLayers
          rw [b2]
          simp only
          rw [c2]
        · intro a ha
          rcases List.mem_cons.1 ha with rfl | ha
          · exact c6
          · exact b6 a ha

/-- `updateWeights` of one layer. -/
theorem mirrored_update {fr : Nat × Bool → MFrame} {R : Mirroring} {σ τ d : Nat → ℝ} {l l' : Layer ℝ} (hr : Mirrored R σ τ d l l')
    (hg : MGrad R l l') {i : Nat} (hf : ∀ c, fr (i, c) = mframe [R] (0, c)) {opt opt' : Optimizer (Nat × Bool) ℝ}
    (ho : OptMirror fr opt opt') (hd : NoDecay opt ∨ d = nought) :
    let u := Layer.updateWeights (i, false) (i, true) (l, opt)
    let u' := Layer.updateWeights (i, false) (i, true) (l', opt')
    u.1 = u'.1 ∧ Mirrored R σ τ d u.2.1 u'.2.1 ∧ OptMirror fr u.2.2 u'.2.2 ∧ (NoDecay opt → NoDecay u.2.2) := by
  have hk : ((i, false) : Nat × Bool) ≠ (i, true) := by simp
  intro u u'
  cases hr with
  | same =>
    rcases hp : params l with _ | p
    · have hn : ¬ Trainable l := by rw [params_trainable, hp]; rintro ⟨p, h⟩; cases h
      have e := C56_layer_other (i, false) (i, true) l opt hn
      have e' := C56_layer_other (i, false) (i, true) l opt' hn
      simp only [u, u', e, e']
      exact ⟨trivial, .same l, ho, fun h => h⟩
    · have h0 : ∀ c, fr (i, c) = none := fun c => by rw [hf c]; rfl
      have hop : ∀ g : Tensor ℝ × Tensor ℝ, _ := fun g =>
        optimizePair_mirror (fr := fr) hk ho (by rw [h0]; trivial) (by rw [h0]; trivial) (p0 := p.1) (p0' := p.1) (p1 := p.2) (p1' := p.2) (g0 := g.1)
          (g0' := g.1) (g1 := g.2) (g1' := g.2) (by rw [h0]; rfl) (by rw [h0]; rfl) (by rw [h0]; rfl) (by rw [h0]; rfl)
      simp only [h0] at hop
      obtain ⟨kind, mode⟩ := l
      cases kind with
      | fc f =>
        cases hp
        simp only [u, u', Layer.updateWeights]
        rcases f.weightGradients with _ | a
        · exact ⟨rfl, .same _, ho, fun h => h⟩
        rcases f.biasGradients with _ | b
        · exact ⟨rfl, .same _, ho, fun h => h⟩
        obtain ⟨o1, o2, o3, o4⟩ := hop (a, b)
        simp only
        refine ⟨o1, ?_, o4⟩
        have o2' : _ = _ := o2
        have o3' : _ = _ := o3
        simp only at o2' o3'
        rw [o2', o3']
        exact .same _
      | conv f =>
        cases hp
        simp only [u, u', Layer.updateWeights]
        rcases f.weightGradients with _ | a
        · exact ⟨rfl, .same _, ho, fun h => h⟩
        rcases f.biasGradients with _ | b
        · exact ⟨rfl, .same _, ho, fun h => h⟩
        obtain ⟨o1, o2, o3, o4⟩ := hop (a, b)
        simp only
        refine ⟨o1, ?_, o4⟩
        have o2' : _ = _ := o2
        have o3' : _ = _ := o3
        simp only at o2' o3'
        rw [o2', o3']
        exact .same _
      | batchNorm f =>
        cases hp
        simp only [u, u', Layer.updateWeights]
        rcases f.gammaGrad with _ | a
        · exact ⟨rfl, .same _, ho, fun h => h⟩
        rcases f.betaGrad with _ | b
        · exact ⟨rfl, .same _, ho, fun h => h⟩
        obtain ⟨o1, o2, o3, o4⟩ := hop (a, b)
        simp only
        refine ⟨o1, ?_, o4⟩
        have o2' : _ = _ := o2
        have o3' : _ = _ := o3
        simp only at o2' o3'
        rw [o2', o3']
        exact .same _
      | _ => cases hp
  | tanh hσ h h' => exact ⟨rfl, .tanh hσ h h', ho, fun h => h⟩
  | @dense n m _ _ _ w bias f f' mode hσ hτ hw hb hw' hb' =>
    obtain ⟨a, b, a', b', g1, g2, t1, t2⟩ := hg
    have h0 : fr (i, false) = some ([n, m], fun i => σ (i.getD 0 0) * τ (i.getD 1 0), fun _ => 0) := hf false
    have h1 : fr (i, true) = some ([1, m], fun i => τ (i.getD 1 0), fun i => d (i.getD 1 0)) := hf true
    obtain ⟨o1, o2, o3, o4, o5⟩ := optimizePair_mirror (fr := fr) hk ho (by
        rw [h0]
        refine ⟨fun i => ?_, Or.inr fun _ => rfl⟩
        beta_reduce
        rcases hσ (i.getD 0 0) with e | e <;> rcases hτ (i.getD 1 0) with e' | e' <;> rw [e, e'] <;> norm_num) (by
        rw [h1]
        exact ⟨fun i => hτ _, hd.imp id fun e i => by rw [e]; rfl⟩) (p0 := f.weights) (p0' := f'.weights) (p1 := f.biases) (p1' := f'.biases)
      (g0 := a) (g0' := a') (g1 := b) (g1' := b') (by rw [h0]; exact ⟨w, hw, by rw [hw']; simp only [add_zero]⟩) (by rw [h1]; exact ⟨bias, hb, hb'⟩)
      (by rw [h0]; exact t1) (by rw [h1]; exact t2)
    rw [h0] at o2
    rw [h1] at o3
    obtain ⟨w2, e2, e2'⟩ := o2
    obtain ⟨b2, e3, e3'⟩ := o3
    obtain ⟨q1, q2, q3⟩ : (∃ x, f.weightGradients = some x ∧ f.biasGradients = some b ∧ x = a) ∧
        (∃ x, f'.weightGradients = some x ∧ f'.biasGradients = some b' ∧ x = a') ∧ True := by
      simp only [grads, Option.bind_eq_some_iff, Option.map_eq_some_iff, Prod.mk.injEq] at g1 g2
      obtain ⟨x, hx, y, hy, rfl, rfl⟩ := g1
      obtain ⟨x', hx', y', hy', rfl, rfl⟩ := g2
      exact ⟨⟨_, hx, hy, rfl⟩, ⟨_, hx', hy', rfl⟩, trivial⟩
    obtain ⟨_, q1, q1', rfl⟩ := q1
    obtain ⟨_, q2, q2', rfl⟩ := q2
    simp only [u, u', Layer.updateWeights, q1, q1', q2, q2']
    simp only [add_zero] at e2'
    exact ⟨o1, .dense hσ hτ e2 e3 e2' e3', o4, o5⟩

theorem mirrored_updates {fr : Nat × Bool → MFrame} {Rs : List Mirroring} {σ υ d : Nat → ℝ} {ls ls' : List (Layer ℝ)}
    (hr : MirroredAll Rs σ υ d ls ls') : MGrads Rs ls ls' → ∀ (i : Nat), (∀ j c, fr (i + j, c) = mframe Rs (j, c)) →
    ∀ {opt opt' : Optimizer (Nat × Bool) ℝ}, OptMirror fr opt opt' → (NoDecay opt ∨ d = nought) →
    (updateLayers i ls opt).1 = (updateLayers i ls' opt').1 ∧
      MirroredAll Rs σ υ d (updateLayers i ls opt).2.1 (updateLayers i ls' opt').2.1 ∧
      OptMirror fr (updateLayers i ls opt).2.2 (updateLayers i ls' opt').2.2 ∧ (NoDecay opt → NoDecay (updateLayers i ls opt).2.2) := by
  induction hr with
  | @last R σ τ d l l' hl =>
    intro hg i hf opt opt' ho hd
    cases hg with
    | cons g gs =>
      obtain ⟨h1, h2, h3, h4⟩ := mirrored_update (fr := fr) hl g (i := i) (fun c => hf 0 c) ho hd
      rw [updateLayers_cons, updateLayers_cons]
      rcases e : Layer.updateWeights (i, false) (i, true) (l, opt) with ⟨r, k, o⟩
      rcases e' : Layer.updateWeights (i, false) (i, true) (l', opt') with ⟨r', k', o'⟩
      rw [e, e'] at h1 h2 h3
      rw [e] at h4
      simp only at h1 h2 h3 h4
      subst h1
      cases r with
      | error er => exact ⟨rfl, .last h2, h3, h4⟩
      | ok u => exact ⟨rfl, .last h2, h3, h4⟩
  | @cons R Rs σ τ υ d l l' ls ls' hl hls ih =>
    intro hg i hf opt opt' ho hd
    cases hg with
    | cons g gs =>
      obtain ⟨h1, h2, h3, h4⟩ := mirrored_update (fr := fr) hl g (i := i) (fun c => hf 0 c) ho (Or.inr rfl)
      rw [updateLayers_cons, updateLayers_cons]
      rcases e : Layer.updateWeights (i, false) (i, true) (l, opt) with ⟨r, k, o⟩
      rcases e' : Layer.updateWeights (i, false) (i, true) (l', opt') with ⟨r', k', o'⟩
      rw [e, e'] at h1 h2 h3
      rw [e] at h4
      simp only at h1 h2 h3 h4
      subst h1
      cases r with
      | error er => exact ⟨rfl, .cons h2 hls, h3, h4⟩
      | ok u =>
        obtain ⟨q1, q2, q3, q4⟩ := ih gs (i + 1) (fun j c => by rw [Nat.add_assoc, Nat.add_comm 1 j]; exact hf (j + 1) c) h3 (hd.imp h4 id)
        exact ⟨q1, .cons h2 q2, q3, fun h => q4 (h4 h)⟩

/-! ### Training -/

/-- Loss and gradient. -/
theorem loss_mirror {L : Loss ℝ} {es : List Nat} (h : LossFits L es) {υ d : Nat → ℝ} (hυ : Signs υ) (hl : L = .mse ∨ (υ = plus ∧ d = nought)) (p t : List Nat → ℝ) :
    ∃ v g, L.compute (ofFn es p) (ofFn es t) = .ok (ofFn [1] fun _ => v) ∧ L.gradient (ofFn es p) (ofFn es t) = .ok (ofFn es g) ∧
      L.compute (ofFn es (measured υ d p)) (ofFn es (measured υ d t)) = .ok (ofFn [1] fun _ => v) ∧
      L.gradient (ofFn es (measured υ d p)) (ofFn es (measured υ d t)) = .ok (ofFn es (measured υ nought g)) := by
  rcases hl with rfl | ⟨rfl, rfl⟩
  · have hd : Dims es := h
    refine ⟨_, _, C29_compute hd p t, mse_gradient_ofFn hd p t, (C29_compute hd _ _).trans ?_, (mse_gradient_ofFn hd _ _).trans ?_⟩
    · have e : mse es (measured υ d p) (measured υ d t) = mse es p t := by
        unfold mse
        congr 2
        funext i
        unfold measured
        split
        · next i j => linear_combination ((p [i, j] - t [i, j]) ^ 2) * signs_sq hυ j
        · rfl
      rw [e]
    · refine congrArg (fun f => Except.ok (ofFn es f)) (funext fun i => ?_)
      unfold measured
      split
      · simp only [nought]
        ring
      · rfl
  · obtain ⟨v, g, h1, h2⟩ := loss_ok h p t
    exact ⟨v, g, h1, h2, by rw [measured_plus, measured_plus]; exact h1, by rw [measured_plus, measured_plus, measured_plus]; exact h2⟩

theorem mirrored_signs {Rs : List Mirroring} {σ υ d : Nat → ℝ} {ls ls' : List (Layer ℝ)} (hr : MirroredAll Rs σ υ d ls ls') : Signs υ := by
  induction hr with
  | last h =>
    cases h with
    | dense hσ hτ => exact hτ
    | tanh hσ => exact hσ
    | same => exact fun _ => Or.inl rfl
  | cons _ _ ih => exact ih

theorem mirrored_trainStep {ρ : Type} {Rs : List Mirroring} {σ υ d : Nat → ℝ} {ds es : List Nat} (E : Engine ρ ℝ) (net net' : Net ρ ℝ)
    (h : WellShaped net ds es) (ht : Mirrors Rs σ υ d net net') (x y : List Nat → ℝ) :
    ∃ v k k', StepOk E (ofFn ds x) (ofFn es y) net k v ∧ StepOk E (ofFn ds (measured σ nought x)) (ofFn es (measured υ d y)) net' k' v ∧
      Mirrors Rs σ υ d k k' ∧ WellShaped k ds es := by
  obtain ⟨hc, ⟨L, hL, hfit⟩, opt, ho, hr⟩ := h
  obtain ⟨a1, a2, a3, al, opt₁, opt', a4, a5, a6, a7⟩ := ht
  obtain rfl : opt₁ = opt := Option.some.inj (a4.symm.trans ho)
  obtain ⟨p, ks, ks', r', h1, h2, h3, h4, h5, h6⟩ := mirrored_chain E a1 hc net.rng x
  have al' : L = .mse ∨ (υ = plus ∧ d = nought) := al.imp (fun e => Option.some.inj (hL.symm.trans e)) id
  obtain ⟨v, g, l1, l2, l3, l4⟩ := loss_mirror hfit (mirrored_signs a1) al' p y
  obtain ⟨z, js, js', b1, b2, b3, b4, b5, b6, b7⟩ := h6 g
  let net1 : Net ρ ℝ := { net with layers := ks, rng := r' }
  let net1' : Net ρ ℝ := { net' with layers := ks', rng := r' }
  let net2 : Net ρ ℝ := { net with layers := js, rng := r' }
  let net2' : Net ρ ℝ := { net' with layers := js', rng := r' }
  have hready : NetReady net2 := ⟨b6, opt₁, ho, remembersFrom_params b7 hr⟩
  obtain ⟨u1, u2⟩ := C56_succeeds net2 hready
  obtain ⟨c1, c2, c3⟩ := C56_changes net2
  obtain ⟨-, opt'', o1, o2⟩ := u2
  obtain ⟨w1, w2, w3, w4⟩ := mirrored_updates (fr := mframe Rs) b4 b5 0 (fun j c => by rw [Nat.zero_add]) a6 a7
  have q := net_updateWeights_eq net2 opt₁ ho
  have q' := net_updateWeights_eq net2' opt' a5
  refine ⟨v, (updateWeights net2).2, (updateWeights net2').2,
    ⟨_, net1, L, _, ofFn ds z, net2, ?_, hL, l1, l2, ?_, Prod.ext u1 rfl⟩,
    ⟨_, net1', L, _, ofFn ds (measured σ nought z), net2', ?_, a2.trans hL, l3, l4, ?_, Prod.ext ?_ rfl⟩, ⟨?_, ?_, ?_, ?_, ?_⟩,
    ⟨updated_chain c1 b3, ⟨L, c2.trans hL, hfit⟩, opt'', o1, o2⟩⟩
  · unfold predict
    rw [h1]
  · show backward _ net1 = _
    unfold backward
    rw [show net1.layers = ks from rfl, b1]
  · unfold predict
    rw [a3, h2]
  · show backward _ net1' = _
    unfold backward
    rw [show net1'.layers = ks' from rfl, b2]
  · rw [q] at u1
    rw [q']
    rw [show net2.layers = js from rfl] at u1
    rw [show net2'.layers = js' from rfl]
    exact w1.symm.trans u1
  · rw [q, q']
    exact w2
  · rw [c2, (C56_changes net2').2.1]
    exact a2
  · rw [c3, (C56_changes net2').2.2]
  · rw [c2]
    exact al
  · rw [q, q']
    exact ⟨_, _, rfl, rfl, w3, a7.imp w4 id⟩

/-- The data of the one model, measured as the other model has them. -/
def Remeasured (σ υ d : Nat → ℝ) (ds es : List Nat) (p q : Tensor ℝ × Tensor ℝ) : Prop :=
  ∃ x y, p = (ofFn ds x, ofFn es y) ∧ q = (ofFn ds (measured σ nought x), ofFn es (measured υ d y))

theorem mirrored_steps {ρ : Type} {Rs : List Mirroring} {σ υ d : Nat → ℝ} {ds es : List Nat} (E : Engine ρ ℝ) {ps qs : List (Tensor ℝ × Tensor ℝ)}
    (hp : List.Forall₂ (Remeasured σ υ d ds es) ps qs) : ∀ (net net' : Net ρ ℝ), WellShaped net ds es → Mirrors Rs σ υ d net net' →
    ∃ vs k k', Steps E ps net k vs ∧ Steps E qs net' k' vs ∧ Mirrors Rs σ υ d k k' ∧ WellShaped k ds es := by
  induction hp with
  | nil => exact fun net net' h ha => ⟨[], net, net', .nil net, .nil net', ha, h⟩
  | cons hq _ ih =>
    intro net net' h ha
    obtain ⟨x, y, rfl, rfl⟩ := hq
    obtain ⟨v, k, k', s1, s2, s3, s4⟩ := mirrored_trainStep E net net' h ha x y
    obtain ⟨vs, j, j', t1, t2, t3, t4⟩ := ih k k' s4 s3
    exact ⟨v :: vs, j, j', .cons s1 t1, .cons s2 t2, t3, t4⟩

theorem mirrored_epochs {ρ : Type} {Rs : List Mirroring} {σ υ d : Nat → ℝ} {ds es : List Nat} (E : Engine ρ ℝ) {ps qs : List (Tensor ℝ × Tensor ℝ)}
    (hp : List.Forall₂ (Remeasured σ υ d ds es) ps qs) (N : Nat) : ∀ (net net' : Net ρ ℝ), WellShaped net ds es → Mirrors Rs σ υ d net net' →
    ∃ rs k k', Epochs E ps N net k rs ∧ Epochs E qs N net' k' rs ∧ rs.length = N ∧ Mirrors Rs σ υ d k k' ∧ WellShaped k ds es := by
  induction N with
  | zero => exact fun net net' h ha => ⟨[], net, net', .zero net, .zero net', rfl, ha, h⟩
  | succ N ih =>
    intro net net' h ha
    obtain ⟨vs, k, k', s1, s2, s3, s4⟩ := mirrored_steps E hp net net' h ha
    obtain ⟨rs, j, j', t1, t2, t3, t4, t5⟩ := ih k k' s4 s3
    refine ⟨_ :: rs, j, j', .succ s1 t1, ?_, by simp [t3], t4, t5⟩
    rw [hp.length_eq]
    exact .succ s2 t2

end SmartDNN
