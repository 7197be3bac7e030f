import Verif.Props.Descent

/-!
# Moving the parameters of all layers at once
-/

namespace SmartDNN
open Net Spec

theorem Spec.HasVJP.push {ds es : List Nat} {F : (List Nat → ℝ) → List Nat → ℝ} {f : List Nat → ℝ}
    {A : (List Nat → ℝ) → List Nat → ℝ} (hF : HasVJP ds es F f A) (hx : Extensional ds es F)
    {c : ℝ → List Nat → ℝ} {v : List Nat → ℝ} (hc : CurveAt ds c f v) :
    ∃ u, CurveAt es (fun t => F (c t)) (F f) u ∧
      ∀ g, total es (fun j => g j * u j) = total ds (fun i => A g i * v i) := by
  have h1 := hF.curve (fun x hxx j hj => hx x f hxx j hj) hc
  refine ⟨_, h1, fun g => ?_⟩
  have h4 : HasDerivAt (fun t => total es (fun j => g j * F (c t) j))
      (total es (fun j => g j * total ds (fun i => A (fun k => if k = j then 1 else 0) i * v i))) 0 :=
    hasDerivAt_total _ _ _ (fun j hj => (h1.2 j hj).const_mul (g j))
  exact h4.unique (hF g c v hc)

/-- Product rule for a layer whose outputs are `∑ k, w (q k) * x (p k) + b r`. -/
theorem bilinear_push {κ : Type} {dx dw db es : List Nat} (K : List κ) (p q : List Nat → κ → List Nat) (r : List Nat → List Nat)
    (Ψ : (List Nat → ℝ) → (List Nat → ℝ) → (List Nat → ℝ) → List Nat → ℝ)
    (hΨ : ∀ w b x j, ValidIdx es j → Ψ w b x j = (K.map fun k => w (q j k) * x (p j k)).sum + b (r j))
    (hp : ∀ j, ValidIdx es j → ∀ k ∈ K, ValidIdx dx (p j k)) (hq : ∀ j, ValidIdx es j → ∀ k ∈ K, ValidIdx dw (q j k))
    (hr : ∀ j, ValidIdx es j → ValidIdx db (r j))
    {cx cw cb : ℝ → List Nat → ℝ} {x w b vx vw vb : List Nat → ℝ}
    (hx : CurveAt dx cx x vx) (hw : CurveAt dw cw w vw) (hb : CurveAt db cb b vb) :
    ∃ u, CurveAt es (fun t => Ψ (cw t) (cb t) (cx t)) (Ψ w b x) u ∧ ∀ g ax aw ab : List Nat → ℝ,
      HasGradient dx (fun x => total es fun j => g j * Ψ w b x j) x ax →
      HasGradient dw (fun w => total es fun j => g j * Ψ w b x j) w aw →
      HasGradient db (fun b => total es fun j => g j * Ψ w b x j) b ab →
      total es (fun j => g j * u j) = total dx (fun i => ax i * vx i) + total dw (fun i => aw i * vw i) +
        total db (fun i => ab i * vb i) := by
  have key : ∀ {cx cw cb : ℝ → List Nat → ℝ} {vx vw vb : List Nat → ℝ},
      CurveAt dx cx x vx → CurveAt dw cw w vw → CurveAt db cb b vb → ∀ j, ValidIdx es j →
      HasDerivAt (fun t => Ψ (cw t) (cb t) (cx t) j)
        ((K.map fun k => vw (q j k) * x (p j k) + w (q j k) * vx (p j k)).sum + vb (r j)) 0 := by
    intro cx cw cb vx vw vb hx hw hb j hj
    have h1 : HasDerivAt (fun t => (K.map fun k => cw t (q j k) * cx t (p j k)).sum + cb t (r j))
        ((K.map fun k => vw (q j k) * x (p j k) + w (q j k) * vx (p j k)).sum + vb (r j)) 0 := by
      refine HasDerivAt.add ?_ (hb.2 _ (hr j hj))
      apply hasDerivAt_list_sum (f := fun k t => cw t (q j k) * cx t (p j k))
      intro k hk
      have := (hw.2 _ (hq j hj k hk)).mul (hx.2 _ (hp j hj k hk))
      rw [hw.1 _ (hq j hj k hk), hx.1 _ (hp j hj k hk)] at this
      exact this
    refine h1.congr_of_eventuallyEq (Filter.Eventually.of_forall fun t => hΨ _ _ _ j hj)
  have kx : CurveAt dx (fun _ => x) x (fun _ => 0) := ⟨fun _ _ => rfl, fun _ _ => hasDerivAt_const _ _⟩
  have kw : CurveAt dw (fun _ => w) w (fun _ => 0) := ⟨fun _ _ => rfl, fun _ _ => hasDerivAt_const _ _⟩
  have kb : CurveAt db (fun _ => b) b (fun _ => 0) := ⟨fun _ _ => rfl, fun _ _ => hasDerivAt_const _ _⟩
  refine ⟨fun j => (K.map fun k => vw (q j k) * x (p j k) + w (q j k) * vx (p j k)).sum + vb (r j),
    ⟨fun j hj => ?_, fun j hj => key hx hw hb j hj⟩, ?_⟩
  · beta_reduce
    rw [hΨ _ _ _ j hj, hΨ _ _ _ j hj, hb.1 _ (hr j hj)]
    congr 2
    exact List.map_congr_left fun k hk => by rw [hw.1 _ (hq j hj k hk), hx.1 _ (hp j hj k hk)]
  · intro g ax aw ab gx gw gb
    have d1 := (hasDerivAt_total (ds := es) _ _ 0 fun j hj => (key hx kw kb j hj).const_mul (g j)).unique (gx _ _ hx)
    have d2 := (hasDerivAt_total (ds := es) _ _ 0 fun j hj => (key kx hw kb j hj).const_mul (g j)).unique (gw _ _ hw)
    have d3 := (hasDerivAt_total (ds := es) _ _ 0 fun j hj => (key kx kw hb j hj).const_mul (g j)).unique (gb _ _ hb)
    rw [← d1, ← d2, ← d3, ← total_add, ← total_add]
    refine total_congr fun j _ => ?_
    simp only [zero_mul, mul_zero, zero_add, add_zero, List.sum_map_add, List.map_const', List.sum_replicate, smul_zero]
    ring

theorem curveAt_descend (ds : List Nat) (w g : List Nat → ℝ) : CurveAt ds (fun t i => w i - t * g i) w (fun i => - g i) := by
  refine ⟨fun i _ => by simp, fun i _ => ?_⟩
  have := ((hasDerivAt_id (0 : ℝ)).mul_const (g i)).const_sub (w i)
  simpa using this

/-! ### Squared length of the stored gradients -/

/-- Sum of the squares of all entries of the gradients a layer has stored. -/
noncomputable def Spec.gradSq (l : Layer ℝ) : ℝ :=
  match grads l with
  | some (a, b) => (a.data.map (· ^ 2)).sum + (b.data.map (· ^ 2)).sum
  | none => 0

theorem gradSq_nonneg (l : Layer ℝ) : 0 ≤ gradSq l := by
  unfold gradSq
  split
  · exact add_nonneg (List.sum_nonneg (by simp only [List.mem_map]; rintro _ ⟨a, -, rfl⟩; positivity))
      (List.sum_nonneg (by simp only [List.mem_map]; rintro _ ⟨a, -, rfl⟩; positivity))
  · exact le_refl _

theorem data_sq (ds : List Nat) (g : List Nat → ℝ) : ((ofFn ds g).data.map (· ^ 2)).sum = total ds (fun i => g i ^ 2) := by
  simp only [ofFn_data, List.map_map]
  rfl

/-! ### One layer -/

/-- What the last three stages of a training step with plain SGD do to one layer: `l'` is the layer after `forward`, `g` the gradient
it receives, `A g` the one it returns, `Φ lr` the function it computes after a step of rate `lr`. -/
structure JointStep (l' : Layer ℝ) (ds es : List Nat) (F : (List Nat → ℝ) → List Nat → ℝ) (x g h : List Nat → ℝ)
    (S : ℝ) (Φ : ℝ → (List Nat → ℝ) → List Nat → ℝ) : Prop where
  step : ∃ l2, Layer.backward (ofFn es g) l' = (.ok (ofFn ds h), l2) ∧ gradSq l2 = S ∧
    ∀ (lr : ℝ) (i : Nat) (opt : Optimizer (Nat × Bool) ℝ), PlainSGD lr opt →
      ∃ l3 opt', Layer.updateWeights (i, false) (i, true) (l2, opt) = (.ok (), l3, opt') ∧ PlainSGD lr opt' ∧ gradSq l3 = S ∧
        ∀ (ρ : Type) (E : Engine ρ ℝ) (r : ρ) (y : List Nat → ℝ), ∃ l4, Layer.forward E (ofFn ds y) (l3, r) =
          (.ok (ofFn es (Φ lr y)), l4, r)
  curve : ∀ c v, CurveAt ds c x v → ∃ u, CurveAt es (fun t => Φ t (c t)) (F x) u ∧
    total es (fun j => g j * u j) = total ds (fun i => h i * v i) - S

/-- Layers without parameters. -/
theorem jointStep_fixed {l' : Layer ℝ} {ds es : List Nat} {F : (List Nat → ℝ) → List Nat → ℝ} {x : List Nat → ℝ}
    {A : (List Nat → ℝ) → List Nat → ℝ} (hA : HasVJP ds es F x A) (hx : Extensional ds es F)
    (hn : ¬ Trainable l') (hg0 : grads l' = none) (g : List Nat → ℝ)
    (hb : Layer.backward (ofFn es g) l' = (.ok (ofFn ds (A g)), l'))
    (hf : ∀ (ρ : Type) (E : Engine ρ ℝ) (r : ρ) (y : List Nat → ℝ), ∃ l4, Layer.forward E (ofFn ds y) (l', r) = (.ok (ofFn es (F y)), l4, r)) :
    JointStep l' ds es F x g (A g) 0 (fun _ => F) := by
  have hg : gradSq l' = 0 := by unfold gradSq; rw [hg0]
  refine ⟨⟨l', hb, hg, fun lr i opt ho => ⟨l', opt, ?_, ho, hg, hf⟩⟩, fun c v hc => ?_⟩
  · rw [C56_layer_other _ _ l' opt hn]
  · obtain ⟨u, h1, h2⟩ := hA.push hx hc
    exact ⟨u, h1, by rw [h2 g, sub_zero]⟩

/-- Layers with two parameters that SGD moves along their gradients. -/
theorem jointStep_trained {κ : Type} {l' : Layer ℝ} {dx dw db es : List Nat} (K : List κ) (p q : List Nat → κ → List Nat)
    (r : List Nat → List Nat) (Ψ : (List Nat → ℝ) → (List Nat → ℝ) → (List Nat → ℝ) → List Nat → ℝ)
    (hΨ : ∀ w b x j, ValidIdx es j → Ψ w b x j = (K.map fun k => w (q j k) * x (p j k)).sum + b (r j))
    (hp : ∀ j, ValidIdx es j → ∀ k ∈ K, ValidIdx dx (p j k)) (hq : ∀ j, ValidIdx es j → ∀ k ∈ K, ValidIdx dw (q j k))
    (hr : ∀ j, ValidIdx es j → ValidIdx db (r j)) {w b x g h gw gb : List Nat → ℝ} {l2 : Layer ℝ}
    (gx : HasGradient dx (fun x => total es fun j => g j * Ψ w b x j) x h)
    (gW : HasGradient dw (fun w => total es fun j => g j * Ψ w b x j) w gw)
    (gB : HasGradient db (fun b => total es fun j => g j * Ψ w b x j) b gb)
    (hb : Layer.backward (ofFn es g) l' = (.ok (ofFn dx h), l2))
    (hp2 : params l2 = some (ofFn dw w, ofFn db b)) (hg2 : grads l2 = some (ofFn dw gw, ofFn db gb))
    (hf : ∀ (l3 : Layer ℝ) (w b : List Nat → ℝ), Updated l2 l3 → params l3 = some (ofFn dw w, ofFn db b) →
      ∀ (ρ : Type) (E : Engine ρ ℝ) (r : ρ) (y : List Nat → ℝ), ∃ l4, Layer.forward E (ofFn dx y) (l3, r) = (.ok (ofFn es (Ψ w b y)), l4, r)) :
    JointStep l' dx es (Ψ w b) x g h (gradSq l2) (fun t => Ψ (fun i => w i - t * gw i) (fun i => b i - t * gb i)) := by
  have hS : ∀ l : Layer ℝ, grads l = some (ofFn dw gw, ofFn db gb) →
      gradSq l = total dw (fun i => gw i ^ 2) + total db (fun i => gb i ^ 2) := by
    intro l hl
    unfold gradSq
    rw [hl]
    simp only [data_sq]
  refine ⟨⟨l2, hb, rfl, fun lr i opt ho => ?_⟩, fun c v hc => ?_⟩
  · obtain ⟨opt', hpair⟩ := plain_pair (k0 := (i, false)) (k1 := (i, true)) (by simp) ho dw db w b gw gb
    obtain ⟨v1, v2, v3⟩ := C56_layer_values (i, false) (i, true) l2 opt _ _ hp2 hg2
    rw [hpair] at v1 v2 v3
    have hup := C56_layer_changes (k0 := (i, false)) (k1 := (i, true)) (by simp) l2 opt
    have hpl := layer_plain (k0 := (i, false)) (k1 := (i, true)) ho l2
    rcases hu : Layer.updateWeights (i, false) (i, true) (l2, opt) with ⟨res, l3, o3⟩
    rw [hu] at v1 v2 v3 hup hpl
    simp only at v1 v2 v3 hup hpl
    subst v1
    exact ⟨l3, o3, rfl, hpl, by rw [hS l3 ((updated_grads hup).trans hg2), hS l2 hg2], hf l3 _ _ hup v2⟩
  · obtain ⟨u, h1, h2⟩ := bilinear_push K p q r Ψ hΨ hp hq hr hc (curveAt_descend dw w gw) (curveAt_descend db b gb)
    refine ⟨u, h1, ?_⟩
    rw [h2 g h gw gb gx gW gB, hS l2 hg2]
    have e : ∀ (ds : List Nat) (q : List Nat → ℝ), total ds (fun i => q i * -q i) = - total ds (fun i => q i ^ 2) := by
      intro ds q
      rw [← total_neg]
      exact total_congr fun i _ => by ring
    rw [e, e]
    ring

theorem affine_list (n : Nat) (w b x : List Nat → ℝ) (j : List Nat) :
    affine n w b x j = ((List.range n).map fun k => w [k, j.getD 1 0] * x [j.getD 0 0, k]).sum + b [0, j.getD 1 0] := by
  unfold affine
  rw [← List.sum_toFinset _ List.nodup_range, List.toFinset_range]
  congr 1
  exact Finset.sum_congr rfl fun k _ => mul_comm _ _

/-- A dense layer, with the moved parameters explicit. -/
theorem dense_joint {b n m : Nat} {w bias x : List Nat → ℝ} {l : FC ℝ} {mode : Bool} (hx : Dims [b, n]) (hw : Dims [n, m])
    (hg : Dims [b, m]) (hlw : l.weights = ofFn [n, m] w) (hlb : l.biases = ofFn [1, m] bias) :
    ∃ l', (∀ (ρ : Type) (E : Engine ρ ℝ) (r : ρ), Layer.forward E (ofFn [b, n] x) (⟨.fc l, mode⟩, r) =
        (.ok (ofFn [b, m] (affine n w bias x)), (l', r))) ∧
      ∀ g, ∃ S, JointStep l' [b, n] [b, m] (affine n w bias) x g
        (fun idx => ∑ j ∈ Finset.range m, g [idx.getD 0 0, j] * w [idx.getD 1 0, j]) S
        (fun t => affine n (fun idx => w idx - t * ∑ i ∈ Finset.range b, x [i, idx.getD 0 0] * g [i, idx.getD 1 0])
          (fun idx => bias idx - t * ∑ i ∈ Finset.range b, g [i, idx.getD 1 0])) := by
  refine ⟨⟨.fc { l with input := some (ofFn [b, n] x) }, mode⟩, fun ρ E r => ?_, fun g => ?_⟩
  · simp only [Layer.forward, Layer.onKind]
    rw [C37_batch hg w bias x l hlw hlb]
  · refine ⟨_, jointStep_trained (dw := [n, m]) (db := [1, m]) (List.range n) (fun j k => [j.getD 0 0, k])
      (fun j k => [k, j.getD 1 0]) (fun j => [0, j.getD 1 0]) (fun w b => affine n w b)
      (fun w b x j _ => affine_list n w b x j) ?_ ?_ ?_ (hasVJP_affine_input b n m w bias x g)
      (hasGradient_affine_weights b n m w bias x g) (hasGradient_affine_bias b n m w bias x g)
      (congrArg (fun q : Res (Tensor ℝ) × FC ℝ => (q.1, (⟨.fc q.2, mode⟩ : Layer ℝ))) (fc_backprop hx hw hg w bias x g l hlw hlb))
      ?_ rfl ?_⟩
    · intro j hj k hk
      obtain ⟨i, j, rfl, hi, -⟩ := valid2_iff.1 hj
      exact valid2_iff.2 ⟨i, k, rfl, hi, List.mem_range.1 hk⟩
    · intro j hj k hk
      obtain ⟨i, j, rfl, -, hj⟩ := valid2_iff.1 hj
      exact valid2_iff.2 ⟨k, j, rfl, List.mem_range.1 hk, hj⟩
    · intro j hj
      obtain ⟨i, j, rfl, -, hj⟩ := valid2_iff.1 hj
      exact valid2_iff.2 ⟨0, j, rfl, Nat.one_pos, hj⟩
    · simp only [params, hlw, hlb]
    · intro l3 w' b' hup hp3 ρ E r y
      have fin : ∀ k : FC ℝ, k.weights = ofFn [n, m] w' → k.biases = ofFn [1, m] b' →
          ∃ l4, Layer.forward E (ofFn [b, n] y) (⟨.fc k, mode⟩, r) = (.ok (ofFn [b, m] (affine n w' b' y)), l4, r) := by
        intro k h1 h2
        refine ⟨⟨.fc { k with input := some (ofFn [b, n] y) }, mode⟩, ?_⟩
        simp only [Layer.forward, Layer.onKind]
        rw [C37_batch hg w' b' y k h1 h2]
      cases hup with
      | fc =>
        simp only [params, Option.some.injEq, Prod.mk.injEq] at hp3
        exact fin _ hp3.1 hp3.2
      | unchanged =>
        simp only [params, Option.some.injEq, Prod.mk.injEq] at hp3
        exact fin _ hp3.1 hp3.2

theorem layerAt_joint {l : Layer ℝ} {ds es : List Nat} {F : (List Nat → ℝ) → List Nat → ℝ} {x : List Nat → ℝ}
    (hl : LayerAt l ds es F x) :
    ∃ l', (∀ (ρ : Type) (E : Engine ρ ℝ) (r : ρ), Layer.forward E (ofFn ds x) (l, r) = (.ok (ofFn es (F x)), (l', r))) ∧
      ∀ g, ∃ h S Φ, JointStep l' ds es F x g h S Φ := by
  cases hl with
  | @dense b n m w bias x l mode hx hw hg hlw hlb =>
    obtain ⟨l', h1, h2⟩ := dense_joint (x := x) (mode := mode) hx hw hg hlw hlb
    exact ⟨l', h1, fun g => ⟨_, _, _, (h2 g).choose_spec⟩⟩
  | @smooth ds x l mode φ hd ha =>
    obtain ⟨A, h1, h2⟩ := C26_vjp ha hd x
    have hf : ∀ (inp : Option (Tensor ℝ)) (ρ : Type) (E : Engine ρ ℝ) (r : ρ) (y : List Nat → ℝ),
        Layer.forward E (ofFn ds y) (⟨.activation { l with input := inp }, mode⟩, r) =
        (.ok (ofFn ds fun i => φ (y i)), ⟨.activation { l with input := some (ofFn ds y) }, mode⟩, r) := fun inp ρ E r y =>
      congrArg (fun q => (q, (⟨⟨.activation { l with input := some (ofFn ds y) }, mode⟩, r⟩ : Layer ℝ × ρ))) (C26_forward ha ds y)
    exact ⟨⟨.activation { l with input := some (ofFn ds x) }, mode⟩, fun ρ E r => hf _ ρ E r x, fun g =>
      ⟨_, _, _, jointStep_fixed h2 (extensional_map ds φ) id rfl g
        (congrArg (fun q => (q, (⟨.activation { l with input := some (ofFn ds x) }, mode⟩ : Layer ℝ))) (h1 g))
        fun ρ E r y => ⟨_, hf _ ρ E r y⟩⟩⟩
  | @relu ds x l mode hd ha hx =>
    obtain ⟨D, hD, -, -⟩ := C25_relu_backward hd x x
    have hf : ∀ (inp : Option (Tensor ℝ)) (ρ : Type) (E : Engine ρ ℝ) (r : ρ) (y : List Nat → ℝ),
        Layer.forward E (ofFn ds y) (⟨.activation { l with input := inp }, mode⟩, r) =
        (.ok (ofFn ds fun i => Spec.relu (y i)), ⟨.activation { l with input := some (ofFn ds y) }, mode⟩, r) := fun inp ρ E r y =>
      congrArg (fun q => (q, (⟨⟨.activation { l with input := some (ofFn ds y) }, mode⟩, r⟩ : Layer ℝ × ρ)))
        (by show Act.forward l.activation _ = _; rw [ha]; exact C25_relu_forward ds y)
    refine ⟨⟨.activation { l with input := some (ofFn ds x) }, mode⟩, fun ρ E r => hf _ ρ E r x, fun g =>
      ⟨_, _, _, jointStep_fixed (hasVJP_map (fun i hi => hD (x i) (hx i hi))) (extensional_map ds _) id rfl g
        (congrArg (fun q => (q, (⟨.activation { l with input := some (ofFn ds x) }, mode⟩ : Layer ℝ))) ?_)
        fun ρ E r y => ⟨_, hf _ ρ E r y⟩⟩⟩
    obtain ⟨D', hD', -, h'⟩ := C25_relu_backward hd x g
    show Act.backward l.activation _ _ = _
    rw [ha, h']
    congr 1
    refine ofFn_congr fun i hi => ?_
    rw [(hD' _ (hx i hi)).unique (hD _ (hx i hi)), mul_comm]
  | @leaky ds x l mode alpha hd ha hx =>
    obtain ⟨D, hD, -, -⟩ := C25_leaky_backward_partial alpha ds x x
    have hf : ∀ (inp : Option (Tensor ℝ)) (ρ : Type) (E : Engine ρ ℝ) (r : ρ) (y : List Nat → ℝ),
        Layer.forward E (ofFn ds y) (⟨.activation { l with input := inp }, mode⟩, r) =
        (.ok (ofFn ds fun i => Spec.leaky alpha (y i)), ⟨.activation { l with input := some (ofFn ds y) }, mode⟩, r) :=
      fun inp ρ E r y =>
      congrArg (fun q => (q, (⟨⟨.activation { l with input := some (ofFn ds y) }, mode⟩, r⟩ : Layer ℝ × ρ)))
        (by show Act.forward l.activation _ = _; rw [ha]; exact C25_leaky_forward alpha ds y)
    refine ⟨⟨.activation { l with input := some (ofFn ds x) }, mode⟩, fun ρ E r => hf _ ρ E r x, fun g =>
      ⟨_, _, _, jointStep_fixed (hasVJP_map (fun i hi => hD (x i) (hx i hi))) (extensional_map ds _) id rfl g
        (congrArg (fun q => (q, (⟨.activation { l with input := some (ofFn ds x) }, mode⟩ : Layer ℝ))) ?_)
        fun ρ E r y => ⟨_, hf _ ρ E r y⟩⟩⟩
    obtain ⟨D', hD', -, h'⟩ := C25_leaky_backward_partial alpha ds x g
    show Act.backward l.activation _ _ = _
    rw [ha, h']
    congr 1
    refine ofFn_congr fun i hi => ?_
    rw [(hD' _ (hx i hi)).unique (hD _ (hx i hi)), mul_comm]
  | @softmax d ds x l mode hd hne ha =>
    obtain ⟨A, h1, h2⟩ := C28_vjp hd hne x
    have hf : ∀ (inp : Option (Tensor ℝ)) (ρ : Type) (E : Engine ρ ℝ) (r : ρ) (y : List Nat → ℝ),
        Layer.forward E (ofFn (d :: ds) y) (⟨.activation { l with input := inp }, mode⟩, r) =
        (.ok (ofFn (d :: ds) (Spec.softmax ds y)), ⟨.activation { l with input := some (ofFn (d :: ds) y) }, mode⟩, r) :=
      fun inp ρ E r y =>
      congrArg (fun q => (q, (⟨⟨.activation { l with input := some (ofFn (d :: ds) y) }, mode⟩, r⟩ : Layer ℝ × ρ)))
        (by show Act.forward l.activation _ = _; rw [ha]; exact C27_forward hd hne y)
    exact ⟨⟨.activation { l with input := some (ofFn (d :: ds) x) }, mode⟩, fun ρ E r => hf _ ρ E r x, fun g =>
      ⟨_, _, _, jointStep_fixed h2 (extensional_softmax d ds) id rfl g
        (congrArg (fun q => (q, (⟨.activation { l with input := some (ofFn (d :: ds) x) }, mode⟩ : Layer ℝ)))
          (by show Act.backward l.activation _ _ = _; rw [ha, h1]))
        fun ρ E r y => ⟨_, hf _ ρ E r y⟩⟩⟩
  | @flatten d ds x l mode hd hr =>
    have hp : [d, ds.prod].prod = (d :: ds).prod := by simp
    have hf : ∀ (l : Flatten) (ρ : Type) (E : Engine ρ ℝ) (r : ρ) (y : List Nat → ℝ),
        Layer.forward E (ofFn (d :: ds) y) (⟨.flatten l, mode⟩, r) =
        (.ok (ofFn [d, ds.prod] fun j => y (reindex [d, ds.prod] (d :: ds) j)),
          ⟨.flatten { l with originalShape := some (shapeOf (d :: ds)) }, mode⟩, r) := by
      intro l ρ E r y
      simp only [Layer.forward, Layer.onKind]
      rw [flatten_forward hd hr, reinterpret_ofFn hp]
    refine ⟨⟨.flatten { l with originalShape := some (shapeOf (d :: ds)) }, mode⟩, fun ρ E r => hf l ρ E r x, fun g =>
      ⟨_, _, _, jointStep_fixed (hasVJP_reindex hp x) (fun x y hxy j hj => hxy _ (reindex_valid hp hj).1) id rfl g
        (congrArg (fun q => (q, (⟨.flatten { l with originalShape := some (shapeOf (d :: ds)) }, mode⟩ : Layer ℝ))) ?_)
        fun ρ E r y => ⟨_, hf _ ρ E r y⟩⟩⟩
    show (Tensor.reshape _ _) = _
    rw [shapeOf_dims, reshape_back hd hp.symm]
  | @conv h w kh kw k b x wg bg inp mode hd hdk hk hkw =>
    have hkp := hdk.pos kh (by simp)
    have hkwp := hdk.pos kw (by simp)
    have ho : 1 * 1 * h * w < 2 ^ 31 := by
      have := hd.lt
      simp only [List.prod_cons, List.prod_nil, one_mul, mul_one] at this
      rw [one_mul, one_mul]
      exact this
    have hdb : Dims [1, 1] := ⟨by simp, by simp, by simp⟩
    have hdo : Dims [1, 1, h - kh + 1, w - kw + 1] := dims_conv hd hk hkw ho Nat.one_pos hkp hkwp
    have ht : ∀ x : ℝ, MathFn.toFloat x = x := fun _ => rfl
    have hf : ∀ (c : Conv ℝ) (k b : List Nat → ℝ), c.inputChannels = 1 → c.outputChannels = 1 → c.kernelHeight = kh →
        c.kernelWidth = kw → c.weights = ofFn [1, 1, kh, kw] k → c.biases = ofFn [1, 1] b →
        ∀ (ρ : Type) (E : Engine ρ ℝ) (r : ρ) (y : List Nat → ℝ),
        Layer.forward E (ofFn [1, 1, h, w] y) (⟨.conv c, mode⟩, r) =
        (.ok (ofFn [1, 1, h - kh + 1, w - kw + 1] (Spec.conv 1 kh kw 1 0 1 h w k b y)),
          ⟨.conv { c with input := some (ofFn [1, 1, h, w] y) }, mode⟩, r) := by
      intro c k b h0 h1 h2 h3 h4 h5 ρ E r y
      simp only [Layer.forward, Layer.onKind]
      rw [conv_forward (n := 1) (oc := 1) ht hd hdk hdb hk hkw ho k b y _ h0 h1 h2 h3 h4 h5]
    refine ⟨⟨.conv ⟨1, 1, kh, kw, 1, 0, 1, ofFn [1, 1, kh, kw] k, ofFn [1, 1] b, some (ofFn [1, 1, h, w] x), wg, bg⟩, mode⟩,
      fun ρ E r => hf _ k b rfl rfl rfl rfl rfl rfl ρ E r x, fun g => ?_⟩
    have hbias : HasGradient [1, 1] (fun b => total [1, 1, h - kh + 1, w - kw + 1] (fun j => g j * Spec.conv 1 kh kw 1 0 1 h w k b x j)) b
        (convBiasGrad (h - kh + 1) (w - kw + 1) g) := by
      refine (hasGradient_conv_bias 1 1 _ _ 1 kh kw 1 0 1 h w k b x g).congr (fun _ => rfl) ?_
      intro i hi
      obtain ⟨a, c, rfl, ha, hc⟩ := valid2_iff.1 hi
      have : a = 0 := by omega
      subst this
      have : c = 0 := by omega
      subst this
      simp [convBiasGrad]
    refine ⟨_, _, _, jointStep_trained (dx := [1, 1, h, w]) (dw := [1, 1, kh, kw]) (db := [1, 1]) (indices [kh, kw])
        (fun j a => [0, 0, j.getD 2 0 + a.getD 0 0, j.getD 3 0 + a.getD 1 0])
        (fun _ a => [0, 0, a.getD 0 0, a.getD 1 0]) (fun _ => [0, 0]) (fun k b => Spec.conv 1 kh kw 1 0 1 h w k b)
        (fun k b x j hj => conv_single_eq _ _ kh kw h w (by omega) (by omega) k b x hj) ?_ ?_ ?_
        (hasVJP_conv_single 1 _ _ kh kw h w Nat.one_pos (by omega) (by omega) k b x g)
        (hasGradient_conv_single_weights 1 _ _ kh kw h w Nat.one_pos (by omega) (by omega) k b x g) hbias
        (congrArg (fun q : Res (Tensor ℝ) × Conv ℝ => (q.1, (⟨.conv q.2, mode⟩ : Layer ℝ)))
          (conv_backward ht hd hdk hdo (by omega) (by omega) x g k b _ rfl rfl rfl rfl rfl)) rfl rfl ?_⟩
    · intro j hj a ha
      obtain ⟨i, c, y, z, rfl, _, _, hy, hz⟩ := valid4_iff.1 hj
      obtain ⟨u, v, rfl, hu, hv⟩ := valid2_iff.1 (mem_indices.1 ha)
      exact valid4_iff.2 ⟨0, 0, y + u, z + v, rfl, by omega, by omega, by omega, by omega⟩
    · intro j hj a ha
      obtain ⟨u, v, rfl, hu, hv⟩ := valid2_iff.1 (mem_indices.1 ha)
      exact valid4_iff.2 ⟨0, 0, u, v, rfl, by omega, by omega, hu, hv⟩
    · intro j _
      exact valid2_iff.2 ⟨0, 0, rfl, by omega, by omega⟩
    · intro l3 k' b' hup hp3 ρ E r y
      cases hup with
      | conv =>
        simp only [params, Option.some.injEq, Prod.mk.injEq] at hp3
        exact ⟨_, hf _ k' b' rfl rfl rfl rfl hp3.1 hp3.2 ρ E r y⟩
      | unchanged =>
        simp only [params, Option.some.injEq, Prod.mk.injEq] at hp3
        exact ⟨_, hf _ k' b' rfl rfl rfl rfl hp3.1 hp3.2 ρ E r y⟩
  | @pool n c h w p s ninf x inp mode hd hp hs hph hpw hx hu =>
    have e1 : poolOut p s h = (h - p) / s + 1 := if_pos hph
    have e2 : poolOut p s w = (w - p) / s + 1 := if_pos hpw
    rw [← e1, ← e2] at hu ⊢
    obtain ⟨A, h1, h2⟩ := pool_vjp hd hp hs x ninf hx hu
    have hf : ∀ (inp : Option (Tensor ℝ)) (ρ : Type) (E : Engine ρ ℝ) (r : ρ) (y : List Nat → ℝ),
        Layer.forward E (ofFn [n, c, h, w] y) (⟨.maxPool ⟨p, s, 0, ninf, inp⟩, mode⟩, r) =
        (.ok (ofFn [n, c, poolOut p s h, poolOut p s w] (poolMax p s h w ninf y)),
          ⟨.maxPool ⟨p, s, 0, ninf, some (ofFn [n, c, h, w] y)⟩, mode⟩, r) := by
      intro inp ρ E r y
      simp only [Layer.forward, Layer.onKind]
      rw [pool_forward hd hp hs (Or.inl hph) (Or.inl hpw)]
    exact ⟨⟨.maxPool ⟨p, s, 0, ninf, some (ofFn [n, c, h, w] x)⟩, mode⟩, fun ρ E r => hf _ ρ E r x, fun g =>
      ⟨_, _, _, jointStep_fixed h1 (extensional_pool _ _ _ _ _ _ _ _ _) id rfl g
        (congrArg (fun q : Res (Tensor ℝ) × MaxPool ℝ => (q.1, (⟨.maxPool q.2, mode⟩ : Layer ℝ))) (h2 g))
        fun ρ E r y => ⟨_, hf _ ρ E r y⟩⟩⟩

/-! ### A stack of layers -/

theorem stack_joint {ls : List (Layer ℝ)} {ds es : List Nat} {F : (List Nat → ℝ) → List Nat → ℝ} {x : List Nat → ℝ}
    (hst : Stack ls ds es F x) :
    ∃ ls', (∀ (ρ : Type) (E : Engine ρ ℝ) (r : ρ), forwardLayers E ls (ofFn ds x) r = (.ok (ofFn es (F x)), ls', r)) ∧
      ∀ g, ∃ (h : List Nat → ℝ) (S : ℝ) (Φ : ℝ → (List Nat → ℝ) → List Nat → ℝ) (l2 : List (Layer ℝ)),
        backwardLayers ls' (ofFn es g) = (.ok (ofFn ds h), l2) ∧ (l2.map gradSq).sum = S ∧
        (∀ (lr : ℝ) (i : Nat) (opt : Optimizer (Nat × Bool) ℝ), PlainSGD lr opt →
          ∃ l3 opt', updateLayers i l2 opt = (.ok (), l3, opt') ∧ PlainSGD lr opt' ∧ (l3.map gradSq).sum = S ∧
            ∀ (ρ : Type) (E : Engine ρ ℝ) (r : ρ) (y : List Nat → ℝ), ∃ l4, forwardLayers E l3 (ofFn ds y) r =
              (.ok (ofFn es (Φ lr y)), l4, r)) ∧
        ∀ c v, CurveAt ds c x v → ∃ u, CurveAt es (fun t => Φ t (c t)) (F x) u ∧
          total es (fun j => g j * u j) = total ds (fun i => h i * v i) - S := by
  induction hst with
  | nil ds x =>
    refine ⟨[], fun _ _ _ => rfl, fun g => ⟨g, 0, fun _ x => x, [], rfl, rfl, fun lr i opt ho =>
      ⟨[], opt, rfl, ho, rfl, fun ρ E r y => ⟨[], rfl⟩⟩, fun c v hc => ⟨v, hc, by rw [sub_zero]⟩⟩⟩
  | @cons l ls ds es hs F G x hl _ ih =>
    obtain ⟨l', f1, j1⟩ := layerAt_joint hl
    obtain ⟨ls', f2, j2⟩ := ih
    refine ⟨l' :: ls', fun ρ E r => ?_, fun g => ?_⟩
    · rw [forwardLayers_cons, f1 ρ E r]
      simp only
      rw [f2 ρ E r]
    · obtain ⟨h2, S2, Φ2, l2s, b2, s2, u2, c2⟩ := j2 g
      obtain ⟨h1, S1, Φ1, ⟨l2, b1, s1, u1⟩, c1⟩ := j1 h2
      refine ⟨h1, S1 + S2, fun t y => Φ2 t (Φ1 t y), l2 :: l2s, ?_, by simp [s1, s2], fun lr i opt ho => ?_, fun c v hc => ?_⟩
      · unfold backwardLayers
        rw [b2]
        simp only
        rw [b1]
      · obtain ⟨l3, o3, e1, p1, q1, w1⟩ := u1 lr i opt ho
        obtain ⟨l3s, o4, e2, p2, q2, w2⟩ := u2 lr (i + 1) o3 p1
        refine ⟨l3 :: l3s, o4, ?_, p2, by simp [q1, q2], fun ρ E r y => ?_⟩
        · rw [updateLayers_cons, e1]
          simp only
          rw [e2]
        · obtain ⟨l4, k1⟩ := w1 ρ E r y
          obtain ⟨l4s, k2⟩ := w2 ρ E r (Φ1 lr y)
          refine ⟨l4 :: l4s, ?_⟩
          rw [forwardLayers_cons, k1]
          simp only
          rw [k2]
      · obtain ⟨u, a1, a2⟩ := c1 c v hc
        obtain ⟨u', a3, a4⟩ := c2 _ u a1
        exact ⟨u', a3, by rw [a4, a2]; ring⟩

end SmartDNN
