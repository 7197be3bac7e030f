import Verif.Spec.Superposed

/-!
# One step of linear regression (for C121)
-/

namespace SmartDNN
open Net Spec

variable {ρ : Type}

theorem forwardLayers_join (E : Engine ρ ℝ) (ls : List (Layer ℝ)) : ∀ (pre : List (Layer ℝ)) {x y : Tensor ℝ} {r r' r'' : ρ} {pre' ls' : List (Layer ℝ)}
    {res : Res (Tensor ℝ)}, forwardLayers E pre x r = (.ok y, pre', r') → forwardLayers E ls y r' = (res, ls', r'') →
    forwardLayers E (pre ++ ls) x r = (res, pre' ++ ls', r'') := by
  intro pre
  induction pre with
  | nil =>
    intro x y r r' r'' pre' ls' res h1 h2
    cases h1
    exact h2
  | cons l pre ih =>
    intro x y r r' r'' pre' ls' res h1 h2
    rw [List.cons_append, forwardLayers_cons]
    rw [forwardLayers_cons] at h1
    rcases e : Layer.forward E x (l, r) with ⟨_ | z, l', s⟩
    · rw [e] at h1
      cases h1
    · rw [e] at h1
      simp only at h1 ⊢
      rcases e' : forwardLayers E pre z s with ⟨q, ks, s'⟩
      rw [e'] at h1
      cases h1
      rw [ih e' h2]
      rfl

theorem backwardLayers_join (js : List (Layer ℝ)) {g v : Tensor ℝ} {js' : List (Layer ℝ)} (hj : backwardLayers js g = (.ok v, js')) :
    ∀ (ks : List (Layer ℝ)) {res : Res (Tensor ℝ)} {ks' : List (Layer ℝ)}, backwardLayers ks v = (res, ks') →
    backwardLayers (ks ++ js) g = (res, ks' ++ js') := by
  intro ks
  induction ks with
  | nil =>
    intro res ks' h
    cases h
    exact hj
  | cons l ks ih =>
    intro res ks' h
    rw [List.cons_append]
    unfold backwardLayers at h ⊢
    rcases e : backwardLayers ks v with ⟨q, us⟩
    rw [e] at h
    rw [ih e]
    cases q with
    | error er =>
      simp only at h ⊢
      cases h
      rfl
    | ok z =>
      simp only at h ⊢
      cases h
      rfl

theorem updateLayers_join (ls : List (Layer ℝ)) (opt : Optimizer (Nat × Bool) ℝ) : ∀ (pre : List (Layer ℝ)) (i : Nat), (∀ l ∈ pre, params l = none) →
    updateLayers i (pre ++ ls) opt =
      ((updateLayers (i + pre.length) ls opt).1, pre ++ (updateLayers (i + pre.length) ls opt).2.1, (updateLayers (i + pre.length) ls opt).2.2) := by
  intro pre
  induction pre with
  | nil => intro i _; rfl
  | cons l pre ih =>
    intro i h
    have hn : ¬ Trainable l := by
      rw [params_trainable, h l List.mem_cons_self]
      rintro ⟨p, h⟩
      cases h
    rw [List.cons_append, updateLayers_cons, C56_layer_other _ _ l opt hn]
    simp only
    rw [ih (i + 1) fun a ha => h a (List.mem_cons_of_mem _ ha)]
    simp only [List.length_cons, List.cons_append, Nat.add_assoc, Nat.add_comm 1]

/-- Layers without parameters. -/
theorem regression_front (E : Engine ρ ℝ) : ∀ (pre : List (Layer ℝ)) {ds ms : List Nat}, Chain pre ds ms → (∀ l ∈ pre, params l = none) → ∀ (r : ρ) (x : List Nat → ℝ),
    ∃ y pre' r', forwardLayers E pre (ofFn ds x) r = (.ok (ofFn ms y), pre', r') ∧ Chain pre' ds ms ∧ (∀ l ∈ pre', params l = none) ∧ pre'.length = pre.length ∧
      ∀ g, ∃ z, backwardLayers pre' (ofFn ms g) = (.ok (ofFn ds z), pre') := by
  intro pre
  induction pre with
  | nil =>
    intro ds ms hc _ r x
    cases hc
    exact ⟨x, [], r, rfl, .nil _, by simp, rfl, fun g => ⟨g, rfl⟩⟩
  | cons l pre ih =>
    intro ds ms hc hp r x
    cases hc with
    | @cons _ _ _ es _ ht hts =>
      obtain ⟨y, k, r', f1, f2, f3, f4⟩ := typed_step ht E r x
      obtain ⟨z, ks, r'', k1, k2, k3, k4, k5⟩ := ih hts (fun a ha => hp a (List.mem_cons_of_mem _ ha)) r' y
      have hk : params k = none := f3.trans (hp l List.mem_cons_self)
      refine ⟨z, k :: ks, r'', ?_, .cons f2 k2, ?_, by simp [k4], fun g => ?_⟩
      · rw [forwardLayers_cons, f1]
        simp only
        rw [k1]
      · intro a ha
        rcases List.mem_cons.1 ha with rfl | ha
        · exact hk
        · exact k3 a ha
      · obtain ⟨v, b1⟩ := k5 g
        obtain ⟨q, j, c1, -⟩ := f4 v
        obtain rfl : j = k := (congrArg Prod.snd c1).symm.trans (backward_keeps hk _)
        refine ⟨q, ?_⟩
        unfold backwardLayers
        rw [b1]
        simp only
        rw [c1]

/-- The gradient of the squared error at the prediction. -/
noncomputable def lossGrad (b n m : Nat) (y w c t : List Nat → ℝ) : List Nat → ℝ := fun i => (affine n w c y i - t i) * 2 / (([b, m].prod : Nat) : ℝ)

/-- Gradients of the weights and of the bias. -/
noncomputable def wGrad (b : Nat) (y g : List Nat → ℝ) : List Nat → ℝ := fun i => ∑ p ∈ Finset.range b, y [p, i.getD 0 0] * g [p, i.getD 1 0]

/-- See `wGrad`. -/
noncomputable def cGrad (b : Nat) (g : List Nat → ℝ) : List Nat → ℝ := fun i => ∑ p ∈ Finset.range b, g [p, i.getD 1 0]

/-- Both parameters in one call of SGD. -/
theorem sgd_pair {k0 k1 : Nat × Bool} (hk : k0 ≠ k1) (o : SGDOptions ℝ) (M : TMap (Nat × Bool) ℝ) {ds es : List Nat} {w c v u g h : List Nat → ℝ}
    (hv : lookupOrZero M k0 (shapeOf ds) = ofFn ds v) (hu : lookupOrZero M k1 (shapeOf es) = ofFn es u) :
    Layer.optimizePair k0 k1 (.sgd ⟨o, M⟩) (ofFn ds w) (ofFn es c) (ofFn ds g) (ofFn es h) =
      (.ok (), ofFn ds fun i => (sgdCell o o.learningRate (g i) (w i, v i)).1, ofFn es fun i => (sgdCell o o.learningRate (h i) (c i, u i)).1,
        .sgd ⟨o, assign (assign M k0 (some (ofFn ds fun i => (sgdCell o o.learningRate (g i) (w i, v i)).2))) k1
          (some (ofFn es fun i => (sgdCell o o.learningRate (h i) (c i, u i)).2))⟩) := by
  have hl : currentLR o.learningRate (-1) = o.learningRate := by norm_num [currentLR]
  have hu' : ∀ t, lookupOrZero (assign M k0 t) k1 (shapeOf es) = ofFn es u := fun t => by
    rw [← hu]
    unfold lookupOrZero
    rw [assign_ne _ _ hk.symm]
  unfold Layer.optimizePair World.optimizeM
  simp only [List.length_cons, List.length_nil, ne_eq, not_true_eq_false, if_false]
  rw [updateTensors_eq]
  simp only [List.zip_cons_cons, List.zip_nil_right, List.foldlM_cons, List.foldlM_nil, World.begin, stepPair,
      SGD.updateTensor, if_true, ofFn_shape, hv, hl, sgd_loop_ofFn, Except.bind_ok', Except.pure_eq']
  simp only [assign_ne _ _ hk.symm, if_neg hk.symm, ofFn_shape, hu', sgd_loop_ofFn, Except.bind_ok', Except.pure_eq']
  rw [assign_ne _ _ hk, assign_same, assign_same]

/-- A step of training: what the layers in front do is the same for all models. -/
theorem regression_step (E : Engine ρ ℝ) {pre : List (Layer ℝ)} {ds : List Nat} {b n m : Nat} (hx : Dims [b, n]) (hw : Dims [n, m]) (hg : Dims [b, m])
    (hc : Chain pre ds [b, n]) (hp : ∀ l ∈ pre, params l = none) (r : ρ) (x : List Nat → ℝ) :
    ∃ y pre' r', pre'.length = pre.length ∧ Chain pre' ds [b, n] ∧ (∀ l ∈ pre', params l = none) ∧
      ∀ (net : Net ρ ℝ) (o : SGDOptions ℝ) (w c v u : List Nat → ℝ), Regression pre n m o r net w c v u →
      (∃ k, predict E (ofFn ds x) net = (.ok (ofFn [b, m] (affine n w c y)), k)) ∧ ∀ t : List Nat → ℝ,
        ∃ e k, StepOk E (ofFn ds x) (ofFn [b, m] t) net k e ∧
          Regression pre' n m o r' k (fun i => (sgdCell o o.learningRate (wGrad b y (lossGrad b n m y w c t) i) (w i, v i)).1)
            (fun i => (sgdCell o o.learningRate (cGrad b (lossGrad b n m y w c t) i) (c i, u i)).1)
            (fun i => (sgdCell o o.learningRate (wGrad b y (lossGrad b n m y w c t) i) (w i, v i)).2)
            (fun i => (sgdCell o o.learningRate (cGrad b (lossGrad b n m y w c t) i) (c i, u i)).2) := by
  obtain ⟨y, pre', r', h1, h2, h3, h4, h5⟩ := regression_front E pre hc hp r x
  refine ⟨y, pre', r', h4, h2, h3, ?_⟩
  intro net o w c v u hR
  obtain ⟨⟨f, mode, hl, hfw, hfb⟩, hL, hr, M, ho, hv, hu⟩ := hR
  have p1 : forwardLayers E net.layers (ofFn ds x) net.rng =
      (.ok (ofFn [b, m] (affine n w c y)), pre' ++ [⟨.fc { f with input := some (ofFn [b, n] y) }, mode⟩], r') := by
    rw [hl, hr]
    refine forwardLayers_join E _ pre h1 ?_
    rw [forwardLayers_cons]
    simp only [Layer.forward, Layer.onKind]
    rw [C37_batch hg w c y f hfw hfb]
    rfl
  have p2 : predict E (ofFn ds x) net = (.ok (ofFn [b, m] (affine n w c y)),
      { net with layers := pre' ++ [⟨.fc { f with input := some (ofFn [b, n] y) }, mode⟩], rng := r' }) := by
    unfold predict
    rw [p1]
  refine ⟨⟨_, p2⟩, fun t => ?_⟩
  let g := lossGrad b n m y w c t
  have b1 := fc_backprop hx hw hg w c y g f hfw hfb
  have c1 : Layer.backward (ofFn [b, m] g) ⟨.fc { f with input := some (ofFn [b, n] y) }, mode⟩ = _ :=
    congrArg (fun p => (p.1, (⟨.fc p.2, mode⟩ : Layer ℝ))) b1
  obtain ⟨z, hz⟩ := h5 (fun idx => ∑ j ∈ Finset.range m, g [idx.getD 0 0, j] * w [idx.getD 1 0, j])
  have b2 := backwardLayers_join [⟨.fc { f with input := some (ofFn [b, n] y) }, mode⟩] (g := ofFn [b, m] g) (by
    simp only [backwardLayers]
    rw [c1]) pre' hz
  let F : FC ℝ := { f with input := some (ofFn [b, n] y), weightGradients := some (ofFn [n, m] (wGrad b y g)), biasGradients := some (ofFn [1, m] (cGrad b g)) }
  let net2 : Net ρ ℝ := { net with layers := pre' ++ [⟨.fc F, mode⟩], rng := r' }
  have hk : ((pre.length, false) : Nat × Bool) ≠ (pre.length, true) := by simp
  have q := net_updateWeights_eq net2 _ ho
  have hU : updateLayers 0 net2.layers (.sgd ⟨o, M⟩) = _ := updateLayers_join [⟨.fc F, mode⟩] (.sgd ⟨o, M⟩) pre' 0 h3
  rw [hU, Nat.zero_add, h4, updateLayers_cons] at q
  have hS := sgd_pair hk o M (w := w) (c := c) (g := wGrad b y g) (h := cGrad b g) hv hu
  rw [← hfw, ← hfb] at hS
  have hW : Layer.updateWeights (pre.length, false) (pre.length, true) ((⟨.fc F, mode⟩ : Layer ℝ), Optimizer.sgd ⟨o, M⟩) =
      (.ok (), ⟨.fc { F with weights := ofFn [n, m] fun i => (sgdCell o o.learningRate (wGrad b y g i) (w i, v i)).1,
                             biases := ofFn [1, m] fun i => (sgdCell o o.learningRate (cGrad b g i) (c i, u i)).1 }, mode⟩,
        .sgd ⟨o, assign (assign M (pre.length, false) (some (ofFn [n, m] fun i => (sgdCell o o.learningRate (wGrad b y g i) (w i, v i)).2))) (pre.length, true)
          (some (ofFn [1, m] fun i => (sgdCell o o.learningRate (cGrad b g i) (c i, u i)).2))⟩) := by
    show (let R := Layer.optimizePair (pre.length, false) (pre.length, true) (Optimizer.sgd ⟨o, M⟩) f.weights f.biases (ofFn [n, m] (wGrad b y g)) (ofFn [1, m] (cGrad b g))
      (R.1, (⟨.fc { F with weights := R.2.1, biases := R.2.2.1 }, mode⟩ : Layer ℝ), R.2.2.2)) = _
    rw [hS]
  rw [hW] at q
  refine ⟨_, _, ⟨_, _, .mse, _, ofFn ds z, net2, p2, hL, C29_compute hg _ t, mse_gradient_ofFn hg _ t, ?_, q⟩, ⟨_, mode, rfl, rfl, rfl⟩, hL, rfl, _, rfl, ?_, ?_⟩
  · show backward (ofFn [b, m] g) _ = _
    unfold backward
    simp only
    rw [b2]
    rfl
  · rw [h4]
    unfold lookupOrZero
    rw [assign_ne _ _ hk, assign_same]
  · rw [h4]
    unfold lookupOrZero
    rw [assign_same]

/-! ### Combinations -/

theorem affine_combine (α β : ℝ) (n : Nat) (y w w' c c' : List Nat → ℝ) :
    affine n (combine α β w w') (combine α β c c') y = combine α β (affine n w c y) (affine n w' c' y) := by
  funext i
  simp only [affine, combine, mul_add, Finset.mul_sum]
  rw [add_add_add_comm, ← Finset.sum_add_distrib]
  congr 1
  exact Finset.sum_congr rfl fun p _ => by ring

theorem lossGrad_combine (α β : ℝ) (b n m : Nat) (y w w' c c' t t' : List Nat → ℝ) :
    lossGrad b n m y (combine α β w w') (combine α β c c') (combine α β t t') = combine α β (lossGrad b n m y w c t) (lossGrad b n m y w' c' t') := by
  funext i
  unfold lossGrad
  rw [affine_combine]
  simp only [combine]
  ring

theorem wGrad_combine (α β : ℝ) (b : Nat) (y g g' : List Nat → ℝ) : wGrad b y (combine α β g g') = combine α β (wGrad b y g) (wGrad b y g') := by
  funext i
  simp only [wGrad, combine, Finset.mul_sum]
  rw [← Finset.sum_add_distrib]
  exact Finset.sum_congr rfl fun p _ => by ring

theorem cGrad_combine (α β : ℝ) (b : Nat) (g g' : List Nat → ℝ) : cGrad b (combine α β g g') = combine α β (cGrad b g) (cGrad b g') := by
  funext i
  simp only [cGrad, combine, Finset.mul_sum]
  rw [← Finset.sum_add_distrib]

theorem sgdCell_combine (α β : ℝ) (o : SGDOptions ℝ) (lr g g' w w' v v' : ℝ) :
    sgdCell o lr (α * g + β * g') (α * w + β * w', α * v + β * v') =
      (α * (sgdCell o lr g (w, v)).1 + β * (sgdCell o lr g' (w', v')).1, α * (sgdCell o lr g (w, v)).2 + β * (sgdCell o lr g' (w', v')).2) := by
  unfold sgdCell
  by_cases hd : o.weightDecay = 0 <;> by_cases hm : o.momentum = 0 <;> cases hn : o.nesterov <;> simp only [hd, hm, ne_eq, not_true_eq_false, not_false_eq_true, if_true, if_false,
    Bool.false_eq_true] <;> ext <;> dsimp only <;> ring

theorem superposed_trainStep (E : Engine ρ ℝ) {α β : ℝ} {ds : List Nat} {p b n m : Nat} (hx : Dims [b, n]) (hw : Dims [n, m]) (hg : Dims [b, m]) {net₁ net₂ net₃ : Net ρ ℝ}
    (h : Superposed α β ds p b n m net₁ net₂ net₃) (x t₁ t₂ : List Nat → ℝ) :
    ∃ e₁ e₂ e₃ k₁ k₂ k₃, StepOk E (ofFn ds x) (ofFn [b, m] t₁) net₁ k₁ e₁ ∧ StepOk E (ofFn ds x) (ofFn [b, m] t₂) net₂ k₂ e₂ ∧
      StepOk E (ofFn ds x) (ofFn [b, m] (combine α β t₁ t₂)) net₃ k₃ e₃ ∧ Superposed α β ds p b n m k₁ k₂ k₃ := by
  obtain ⟨pre, o, r, w₁, c₁, v₁, u₁, w₂, c₂, v₂, u₂, hl, hc, hp, R₁, R₂, R₃⟩ := h
  obtain ⟨y, pre', r', a0, a1, a2, a3⟩ := regression_step E hx hw hg hc hp r x
  obtain ⟨-, s₁⟩ := a3 net₁ o w₁ c₁ v₁ u₁ R₁
  obtain ⟨-, s₂⟩ := a3 net₂ o w₂ c₂ v₂ u₂ R₂
  obtain ⟨-, s₃⟩ := a3 net₃ o _ _ _ _ R₃
  obtain ⟨e₁, k₁, s₁, q₁⟩ := s₁ t₁
  obtain ⟨e₂, k₂, s₂, q₂⟩ := s₂ t₂
  obtain ⟨e₃, k₃, s₃, q₃⟩ := s₃ (combine α β t₁ t₂)
  refine ⟨e₁, e₂, e₃, k₁, k₂, k₃, s₁, s₂, s₃, pre', o, r', _, _, _, _, _, _, _, _, a0.trans hl, a1, a2, q₁, q₂, ?_⟩
  rw [lossGrad_combine, wGrad_combine, cGrad_combine] at q₃
  simp only [combine, sgdCell_combine] at q₃
  exact q₃

end SmartDNN
