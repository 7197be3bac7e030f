import Verif.Props.Typed

/-!
# One training step is a step of gradient descent (C68), Adam's step counter (C69)
-/

namespace SmartDNN
open Net Spec

/-! ### Plain SGD -/

/-- The optimizer is SGD with learning rate `lr`, without momentum and weight decay, in any state. -/
def Spec.PlainSGD {K : Type} (lr : ℝ) (opt : Optimizer K ℝ) : Prop :=
  ∃ o : SGD K ℝ, opt = .sgd o ∧ o.opts.learningRate = lr ∧ o.opts.momentum = 0 ∧ o.opts.weightDecay = 0

theorem sgd_plain_loop (o : SGDOptions ℝ) (hm : o.momentum = 0) (hd : o.weightDecay = 0) (ds : List Nat) (w g : List Nat → ℝ)
    (buf : Tensor ℝ) (lr : ℝ) :
    SGD.loop o (ofFn ds w) buf (ofFn ds g) lr = .ok (ofFn ds (fun i => w i - lr * g i), buf) := by
  unfold SGD.loop
  rw [ofFn_shape, shapeOf_size]
  refine (forN_pointwise (S := ℝ) (fun s => ((ofFn ds s, buf) : Tensor ℝ × Tensor ℝ)) _
    (fun idx s => s - lr * g idx) w ?_ ?_)
  · intro s s' h
    exact Prod.ext (ofFn_congr fun i hi => by rw [h i hi]) rfl
  · intro idx hv s
    simp only [rdData_ofFn _ hv, Except.bind_ok', setFlat_ofFn _ hv, Except.pure_eq', hm, hd, ne_eq, not_true_eq_false, if_false]

theorem plain_pair {K : Type} [DecidableEq K] {k0 k1 : K} (hk : k0 ≠ k1) {lr : ℝ} {opt : Optimizer K ℝ} (ho : PlainSGD lr opt)
    (ds es : List Nat) (w b gw gb : List Nat → ℝ) :
    ∃ opt', Layer.optimizePair k0 k1 opt (ofFn ds w) (ofFn es b) (ofFn ds gw) (ofFn es gb) =
      (.ok (), ofFn ds (fun i => w i - lr * gw i), ofFn es (fun i => b i - lr * gb i), opt') := by
  obtain ⟨o, rfl, h1, h2, h3⟩ := ho
  have hlr : currentLR o.opts.learningRate (-1 : ℝ) = lr := by
    unfold currentLR
    rw [if_neg (by norm_num), h1]
  simp only [Layer.optimizePair, World.optimizeM, World.begin, List.length_cons, List.length_nil, ne_eq, not_true_eq_false,
    if_false, List.zip_cons_cons, List.zip_nil_left, updateTensors_eq, List.foldlM_cons, List.foldlM_nil, stepPair,
    SGD.updateTensor, if_true, hlr, sgd_plain_loop o.opts h2 h3, Except.bind_ok', Except.pure_eq', assign, if_neg hk,
    if_neg hk.symm]
  exact ⟨_, rfl⟩

/-! ### The optimizer keeps its configuration -/

theorem stepPair_plain {K : Type} [DecidableEq K] {lr r : ℝ} {w w' : World K ℝ} {p : K × Tensor ℝ} (h : PlainSGD lr w.opt)
    (hs : stepPair r w p = .ok w') : PlainSGD lr w'.opt := by
  obtain ⟨mem, opt⟩ := w
  obtain ⟨o, ho, h1, h2, h3⟩ := h
  simp only at ho
  subst ho
  unfold stepPair at hs
  obtain ⟨a, ha, hs⟩ := bind_ok hs
  obtain ⟨b, -, ha⟩ := bind_ok ha
  cases ha
  cases hs
  exact ⟨_, rfl, h1, h2, h3⟩

theorem optimizePair_plain {K : Type} [DecidableEq K] {k0 k1 : K} {lr : ℝ} {opt : Optimizer K ℝ} (ho : PlainSGD lr opt)
    (p0 p1 g0 g1 : Tensor ℝ) : PlainSGD lr (Layer.optimizePair k0 k1 opt p0 p1 g0 g1).2.2.2 := by
  unfold Layer.optimizePair World.optimizeM
  rw [if_neg (by simp)]
  have hb : PlainSGD lr ((World.mk (fun k => if k = k0 then p0 else p1) opt : World K ℝ).begin (-1)).opt := by
    obtain ⟨o, rfl, h⟩ := ho
    exact ⟨o, rfl, h⟩
  simp only [updateTensors_eq, List.zip_cons_cons, List.zip_nil_left]
  rcases hu : List.foldlM (stepPair (-1)) ((World.mk (fun k => if k = k0 then p0 else p1) opt : World K ℝ).begin (-1))
    [(k0, g0), (k1, g1)] with e | w'
  · exact ho
  · simp only
    rw [List.foldlM_cons] at hu
    obtain ⟨w1, h1, hu⟩ := bind_ok hu
    rw [List.foldlM_cons] at hu
    obtain ⟨w2, h2, hu⟩ := bind_ok hu
    cases hu
    exact stepPair_plain (stepPair_plain hb h1) h2

theorem layer_plain {K : Type} [DecidableEq K] {k0 k1 : K} {lr : ℝ} {opt : Optimizer K ℝ} (ho : PlainSGD lr opt) (l : Layer ℝ) :
    PlainSGD lr (Layer.updateWeights k0 k1 (l, opt)).2.2 := by
  rcases hp : params l with _ | p
  · have hn : ¬ Trainable l := by rw [params_trainable, hp]; rintro ⟨p, h⟩; cases h
    rw [C56_layer_other k0 k1 l opt hn]
    exact ho
  · rcases hg : grads l with _ | g
    · rw [C56_layer_missing k0 k1 l opt ((params_trainable l).2 ⟨p, hp⟩) (by rw [grads_iff, hg]; rintro ⟨g, h⟩; cases h)]
      exact ho
    · rw [(C56_layer_values k0 k1 l opt p g hp hg).2.2]
      exact optimizePair_plain ho _ _ _ _

/-- A successful `updateWeights` calls every layer's `updateWeights` once, in order, each with the optimizer as the
previous layers left it. -/
theorem updateLayers_each (P : Optimizer (Nat × Bool) ℝ → Prop)
    (hP : ∀ i l opt, P opt → P (Layer.updateWeights (i, false) (i, true) (l, opt)).2.2) :
    ∀ (ls : List (Layer ℝ)) (i : Nat) (opt : Optimizer (Nat × Bool) ℝ) (ls' : List (Layer ℝ)) (opt' : Optimizer (Nat × Bool) ℝ),
    P opt → updateLayers i ls opt = (.ok (), ls', opt') → P opt' ∧
    ∀ j l, ls[j]? = some l → ∃ o o' l', P o ∧ Layer.updateWeights (i + j, false) (i + j, true) (l, o) = (.ok (), l', o') ∧
      ls'[j]? = some l' := by
  intro ls
  induction ls with
  | nil =>
    intro i opt ls' opt' hp h
    cases h
    exact ⟨hp, fun j l hj => by simp at hj⟩
  | cons a ls ih =>
    intro i opt ls' opt' hp h
    rw [updateLayers_cons] at h
    have h2 := hP i a opt hp
    rcases hu : Layer.updateWeights (i, false) (i, true) (a, opt) with ⟨e | u, a', opt1⟩
    · rw [hu] at h; cases h
    · rw [hu] at h h2
      simp only at h
      rcases hr : updateLayers (i + 1) ls opt1 with ⟨res, ls2, opt2⟩
      rw [hr] at h
      cases h
      obtain ⟨q1, q2⟩ := ih (i + 1) opt1 ls2 opt2 h2 hr
      refine ⟨q1, ?_⟩
      intro j l hj
      cases j with
      | zero =>
        simp only [List.getElem?_cons_zero, Option.some.injEq] at hj
        subst hj
        exact ⟨opt, opt1, a', hp, hu, rfl⟩
      | succ j =>
        rw [List.getElem?_cons_succ] at hj
        obtain ⟨o, o', l', r1, r2, r3⟩ := q2 j l hj
        exact ⟨o, o', l', r1, by rw [show i + (j + 1) = i + 1 + j by omega]; exact r2, by rw [List.getElem?_cons_succ]; exact r3⟩

/-! ### Gradient descent -/

theorem layerAt_typed {l : Layer ℝ} {ds es : List Nat} {F : (List Nat → ℝ) → List Nat → ℝ} {x : List Nat → ℝ}
    (h : LayerAt l ds es F x) : Typed l ds es := by
  cases h with
  | dense hx hw hg hlw hlb => exact .dense hx hw hg hlw hlb
  | smooth hd ha => exact .elementwise hd (by intro hs; rw [hs] at ha; cases ha)
  | relu hd ha hx => exact .elementwise hd (by rw [ha]; intro h; cases h)
  | leaky hd ha hx => exact .elementwise hd (by rw [ha]; intro h; cases h)
  | softmax hd hne ha => exact .softmax hd hne ha
  | flatten hd hr => exact .flatten hd hr
  | @conv h w kh kw k b x wg bg inp mode hd hdk hk hkw =>
    refine .conv hd hdk ⟨by simp, by simp, by simp⟩ hk hkw ?_ rfl rfl rfl rfl rfl rfl
    have := hd.lt
    simp only [List.prod_cons, List.prod_nil, one_mul, mul_one] at this ⊢
    exact this
  | pool hd hp hs hph hpw hx hu => exact .pool hd hp hs hph hpw

theorem stack_chain {ls : List (Layer ℝ)} {ds es : List Nat} {F : (List Nat → ℝ) → List Nat → ℝ} {x : List Nat → ℝ}
    (h : Stack ls ds es F x) : Chain ls ds es := by
  induction h with
  | nil ds x => exact .nil ds
  | cons hl _ ih => exact .cons (layerAt_typed hl) ih

/-- **C68.** A model with mean squared error and plain SGD, and a dense layer anywhere in it.  Training on
the single sample `(x, t)` succeeds, prints the mean squared error of the model's output, and moves that layer's weights and biases
by `-lr` times the gradient of this error with respect to them, at the values before the step. -/
theorem C68_gradient_descent {ρ : Type} {ds es : List Nat} {b n m : Nat} {P G : (List Nat → ℝ) → List Nat → ℝ}
    {x w bias : List Nat → ℝ} (E : Engine ρ ℝ) (net : Net ρ ℝ) (pre post : List (Layer ℝ)) (l : FC ℝ) (mode : Bool)
    (hnet : net.layers = pre ++ ⟨.fc l, mode⟩ :: post)
    (hlw : l.weights = ofFn [n, m] w) (hlb : l.biases = ofFn [1, m] bias)
    (hx : Dims [b, n]) (hw : Dims [n, m]) (hd : Dims [b, m])
    (hpre : Stack pre ds [b, n] P x) (hpost : Stack post [b, m] es G (affine n w bias (P x)))
    (hwell : WellShaped net ds es) (hloss : net.loss = some .mse) (lr : ℝ)
    (hopt : ∃ opt, net.optimizer = some opt ∧ PlainSGD lr opt) (t : List Nat → ℝ) :
    ∃ (net' : Net ρ ℝ) (l' : FC ℝ) (gw gb : List Nat → ℝ),
      trainCall E [ofFn ds x] [ofFn es t] 1 net = (.ok (), net', [ofFn [1] fun _ => mse es (G (affine n w bias (P x))) t]) ∧
      net'.layers[pre.length]? = some ⟨.fc l', mode⟩ ∧
      l'.weights = ofFn [n, m] (fun i => w i - lr * gw i) ∧
      l'.biases = ofFn [1, m] (fun i => bias i - lr * gb i) ∧
      HasGradient [n, m] (fun w => mse es (G (affine n w bias (P x))) t) w gw ∧
      HasGradient [1, m] (fun bias => mse es (G (affine n w bias (P x))) t) bias gb := by
  have hes : Dims es := by
    obtain ⟨-, ⟨L, hL, hf⟩, -⟩ := hwell
    rw [hloss] at hL
    cases hL
    exact hf
  obtain ⟨g, hg, hgrad⟩ : ∃ g, Loss.mse.gradient (ofFn es (G (affine n w bias (P x)))) (ofFn es t) = .ok (ofFn es g) ∧
      HasGradient es (fun y => mse es y t) (G (affine n w bias (P x))) g :=
    ⟨_, mse_gradient_ofFn hes _ t, hasGradient_mse es _ t⟩
  obtain ⟨net1, net2, r, gw, gb, p1, p2, p3, p4, p5, -⟩ := C54_dense_gradients E net pre post l mode hnet hlw hlb hx hw hd hpre
    hpost (fun y => mse es y t) g hgrad
  obtain ⟨net', v, hstep, -⟩ := C67_step E net hwell _ _ ⟨x, rfl⟩ ⟨t, rfl⟩
  obtain ⟨pred, n1, L, g1, g2, n2, s1, s2, s3, s4, s5, s6⟩ := hstep
  have q1 : pred = ofFn es (G (affine n w bias (P x))) ∧ n1 = net1 := by
    rw [p1] at s1
    simp only [Prod.mk.injEq, Except.ok.injEq] at s1
    exact ⟨s1.1.symm, s1.2.symm⟩
  obtain ⟨rfl, rfl⟩ := q1
  have hl1 : n1.loss = some .mse := by
    have := congrArg (fun q => q.2.loss) p1
    rw [← hloss]
    exact this.symm
  rw [hl1] at s2
  cases s2
  have q2 : g1 = ofFn es g := by
    rw [hg] at s4
    exact (Except.ok.inj s4).symm
  subst q2
  have q3 : n2 = net2 := by
    rw [p2] at s5
    simp only [Prod.mk.injEq] at s5
    exact s5.2.symm
  subst q3
  obtain ⟨opt, ho, hplain⟩ := hopt
  have ho2 : n2.optimizer = some opt := by
    have a1 : n1.optimizer = net.optimizer := (congrArg (fun q => q.2.optimizer) p1).symm
    have a2 : n2.optimizer = n1.optimizer := (congrArg (fun q => q.2.optimizer) p2).symm
    rw [a2, a1, ho]
  have hu := s6
  rw [net_updateWeights_eq n2 opt ho2] at hu
  rcases hul : updateLayers 0 n2.layers opt with ⟨res, ls', opt'⟩
  rw [hul] at hu
  simp only [Prod.mk.injEq] at hu
  obtain ⟨rfl, hn'⟩ := hu
  obtain ⟨o, o', l', r1, r2, r3⟩ := (updateLayers_each (PlainSGD lr) (fun i l opt h => layer_plain h l) n2.layers 0 opt ls' opt'
    hplain hul).2 pre.length _ p3
  obtain ⟨o2, hpair⟩ := plain_pair (k0 := (0 + pre.length, false)) (k1 := (0 + pre.length, true)) (by simp) r1 [n, m] [1, m] w bias gw gb
  simp only [Layer.updateWeights, hpair, Prod.mk.injEq] at r2
  refine ⟨net', ⟨ofFn [n, m] (fun i => w i - lr * gw i), ofFn [1, m] (fun i => bias i - lr * gb i), some (ofFn [b, n] (P x)),
    some (ofFn [n, m] gw), some (ofFn [1, m] gb)⟩, gw, gb, ?_, ?_, rfl, rfl, p4, p5⟩
  · refine (C55_train E _ _ 1 net net' _ (by simp) (by simp)).2 ?_
    have h := Epochs.succ (E := E) (Steps.cons (E := E) (ps := []) ⟨_, n1, .mse, _, g2, n2, p1, hl1, C29_compute hes _ _, hg, s5, s6⟩ (.nil _)) (.zero _)
    simpa using h
  · rw [← hn', r2.2.1]
    exact r3

/-- Hypotheses of `C68_gradient_descent` are met: dense 3→5, sigmoid, dense 5→2 on a batch of four rows, for either
dense layer. -/
example (w1 b1 w2 b2 x : List Nat → ℝ) (lr : ℝ) :
    let l1 : Layer ℝ := ⟨.fc { weights := ofFn [3, 5] w1, biases := ofFn [1, 5] b1 }, true⟩
    let a : Layer ℝ := ⟨.activation ⟨.sigmoid, none⟩, true⟩
    let l2 : Layer ℝ := ⟨.fc { weights := ofFn [5, 2] w2, biases := ofFn [1, 2] b2 }, true⟩
    let net : Net Unit ℝ := Net.compile .mse (.newSGD ⟨lr, 0, 0, 0, false⟩) ⟨[l1, a, l2], none, none, ()⟩
    (∃ P G, Stack [] [4, 3] [4, 3] P x ∧ Stack [a, l2] [4, 5] [4, 2] G (affine 3 w1 b1 (P x))) ∧
    (∃ P G, Stack [l1, a] [4, 3] [4, 5] P x ∧ Stack [] [4, 2] [4, 2] G (affine 5 w2 b2 (P x))) ∧
    WellShaped net [4, 3] [4, 2] ∧ ∃ opt, net.optimizer = some opt ∧ PlainSGD lr opt := by
  intro l1 a l2 net
  have d : ∀ {ds : List Nat}, ds ≠ [] → (∀ a ∈ ds, 0 < a) → ds.prod < 2 ^ 31 → Dims ds := fun a b c => ⟨a, b, c⟩
  have t1 : ∀ x, LayerAt l1 [4, 3] [4, 5] (affine 3 w1 b1) x := fun x =>
    .dense (d (by simp) (by simp) (by simp)) (d (by simp) (by simp) (by simp)) (d (by simp) (by simp) (by simp)) rfl rfl
  have t2 : ∀ x, LayerAt a [4, 5] [4, 5] (fun x i => sigmoid (x i)) x := fun x => .smooth (d (by simp) (by simp) (by simp)) rfl
  have t3 : ∀ x, LayerAt l2 [4, 5] [4, 2] (affine 5 w2 b2) x := fun x =>
    .dense (d (by simp) (by simp) (by simp)) (d (by simp) (by simp) (by simp)) (d (by simp) (by simp) (by simp)) rfl rfl
  refine ⟨⟨_, _, .nil _ _, .cons (t2 _) (.cons (t3 _) (.nil _ _))⟩, ⟨_, _, .cons (t1 _) (.cons (t2 _) (.nil _ _)), .nil _ _⟩, ?_,
    _, rfl, _, rfl, rfl, rfl, rfl⟩
  exact (C67_compiled ⟨[l1, a, l2], none, none, ()⟩ .mse
    (.cons (layerAt_typed (t1 x)) (.cons (layerAt_typed (t2 x)) (.cons (layerAt_typed (t3 x)) (.nil _))))
    (d (by simp) (by simp) (by simp)) ⟨lr, 0, 0, 0, false⟩ ⟨0, 0, 0, 0, false, 0⟩ ⟨1, 1/2, 1/2, 1, 0, 0, 0, 1, 1⟩).1

/-! ### Adam's step counter -/

/-- The number of `optimize` calls an Adam optimizer has seen. -/
def Spec.AdamSteps {K : Type} (n : Nat) (opt : Optimizer K ℝ) : Prop := ∃ o : Adam K ℝ, opt = .adam o ∧ o.iterations = n

theorem stepPair_adam {K : Type} [DecidableEq K] {n : Nat} {r : ℝ} {w w' : World K ℝ} {p : K × Tensor ℝ} (h : AdamSteps n w.opt)
    (hs : stepPair r w p = .ok w') : AdamSteps n w'.opt := by
  obtain ⟨mem, opt⟩ := w
  obtain ⟨o, ho, h1⟩ := h
  simp only at ho
  subst ho
  unfold stepPair at hs
  obtain ⟨a, ha, hs⟩ := bind_ok hs
  obtain ⟨b, -, ha⟩ := bind_ok ha
  cases ha
  cases hs
  exact ⟨_, rfl, h1⟩

theorem optimizePair_adam {K : Type} [DecidableEq K] {k0 k1 : K} {n : Nat} {opt : Optimizer K ℝ} (ho : AdamSteps n opt)
    (p0 p1 g0 g1 : Tensor ℝ) (hok : (Layer.optimizePair k0 k1 opt p0 p1 g0 g1).1 = .ok ()) :
    AdamSteps (n + 1) (Layer.optimizePair k0 k1 opt p0 p1 g0 g1).2.2.2 := by
  unfold Layer.optimizePair World.optimizeM at hok ⊢
  rw [if_neg (by simp)] at hok ⊢
  have hb : AdamSteps (n + 1) ((World.mk (fun k => if k = k0 then p0 else p1) opt : World K ℝ).begin (-1)).opt := by
    obtain ⟨o, rfl, h⟩ := ho
    exact ⟨_, rfl, by rw [← h]; rfl⟩
  simp only [updateTensors_eq, List.zip_cons_cons, List.zip_nil_left] at hok ⊢
  rcases hu : List.foldlM (stepPair (-1)) ((World.mk (fun k => if k = k0 then p0 else p1) opt : World K ℝ).begin (-1))
    [(k0, g0), (k1, g1)] with e | w'
  · rw [hu] at hok; cases hok
  · simp only
    rw [List.foldlM_cons] at hu
    obtain ⟨w1, h1, hu⟩ := bind_ok hu
    rw [List.foldlM_cons] at hu
    obtain ⟨w2, h2, hu⟩ := bind_ok hu
    cases hu
    exact stepPair_adam (stepPair_adam hb h1) h2

/-- How many layers have parameters. -/
noncomputable def Spec.trainableCount (ls : List (Layer ℝ)) : Nat := by classical exact ls.countP (fun l => decide (Trainable l))

theorem trainableCount_cons (l : Layer ℝ) (ls : List (Layer ℝ)) [Decidable (Trainable l)] :
    trainableCount (l :: ls) = trainableCount ls + if Trainable l then 1 else 0 := by
  unfold trainableCount
  rw [List.countP_cons]
  by_cases h : Trainable l <;> simp [h]

theorem updateLayers_adam : ∀ (ls : List (Layer ℝ)) (i n : Nat) (opt : Optimizer (Nat × Bool) ℝ) (ls' : List (Layer ℝ))
    (opt' : Optimizer (Nat × Bool) ℝ), AdamSteps n opt → updateLayers i ls opt = (.ok (), ls', opt') →
    AdamSteps (n + trainableCount ls) opt' := by
  intro ls
  induction ls with
  | nil =>
    intro i n opt ls' opt' hp h
    cases h
    exact hp
  | cons a ls ih =>
    intro i n opt ls' opt' hp h
    classical
    rw [updateLayers_cons] at h
    rcases hu : Layer.updateWeights (i, false) (i, true) (a, opt) with ⟨e | u, a', opt1⟩
    · rw [hu] at h; cases h
    · rw [hu] at h
      simp only at h
      rcases hr : updateLayers (i + 1) ls opt1 with ⟨res, ls2, opt2⟩
      rw [hr] at h
      cases h
      have h1 : AdamSteps (n + if Trainable a then 1 else 0) opt1 := by
        rcases hpa : params a with _ | p
        · have hn : ¬ Trainable a := by rw [params_trainable, hpa]; rintro ⟨p, h⟩; cases h
          rw [C56_layer_other (i, false) (i, true) a opt hn] at hu
          cases hu
          rw [if_neg hn]
          exact hp
        · have ht := (params_trainable a).2 ⟨p, hpa⟩
          rcases hg : grads a with _ | g
          · rw [C56_layer_missing (i, false) (i, true) a opt ht (by rw [grads_iff, hg]; rintro ⟨g, h⟩; cases h)] at hu
            cases hu
          · obtain ⟨v1, -, v3⟩ := C56_layer_values (i, false) (i, true) a opt p g hpa hg
            rw [hu] at v1 v3
            simp only at v1 v3
            rw [if_pos ht, v3]
            exact optimizePair_adam hp _ _ _ _ v1.symm
      have := ih (i + 1) _ opt1 ls2 opt2 h1 hr
      rw [trainableCount_cons]
      rw [show n + (trainableCount ls + if Trainable a then 1 else 0) = n + (if Trainable a then 1 else 0) + trainableCount ls by omega]
      exact this

theorem forward_trainable {ρ : Type} (E : Engine ρ ℝ) (x : Tensor ℝ) (l : Layer ℝ) (r : ρ) :
    Trainable (Layer.forward E x (l, r)).2.1 ↔ Trainable l := by
  obtain ⟨kind, mode⟩ := l
  cases kind <;> exact Iff.rfl

theorem backward_trainable (g : Tensor ℝ) (l : Layer ℝ) : Trainable (Layer.backward g l).2 ↔ Trainable l := by
  obtain ⟨kind, mode⟩ := l
  cases kind <;> exact Iff.rfl

theorem forwardLayers_count {ρ : Type} (E : Engine ρ ℝ) : ∀ (ls : List (Layer ℝ)) (x : Tensor ℝ) (r : ρ),
    trainableCount (forwardLayers E ls x r).2.1 = trainableCount ls := by
  intro ls
  induction ls with
  | nil => intro x r; rfl
  | cons l ls ih =>
    intro x r
    classical
    rw [forwardLayers_cons]
    have h := forward_trainable E x l r
    rcases hf : Layer.forward E x (l, r) with ⟨e | y, l', r'⟩
    · rw [hf] at h
      simp only at h ⊢
      rw [trainableCount_cons, trainableCount_cons]
      simp only [h]
    · rw [hf] at h
      simp only at h ⊢
      rw [trainableCount_cons, trainableCount_cons, ih]
      simp only [h]

theorem backwardLayers_count : ∀ (ls : List (Layer ℝ)) (g : Tensor ℝ),
    trainableCount (backwardLayers ls g).2 = trainableCount ls := by
  intro ls
  induction ls with
  | nil => intro g; rfl
  | cons l ls ih =>
    intro g
    classical
    have h0 := ih g
    unfold backwardLayers
    rcases hf : backwardLayers ls g with ⟨e | y, ls'⟩
    · rw [hf] at h0
      simp only at h0 ⊢
      rw [trainableCount_cons, trainableCount_cons, h0]
    · rw [hf] at h0
      simp only at h0 ⊢
      rw [trainableCount_cons, trainableCount_cons, h0]
      simp only [backward_trainable]

/-- What one training step with Adam does to its step counter: it is advanced once per layer with parameters, not
once per step. -/
theorem C69_counter {ρ : Type} (E : Engine ρ ℝ) (x y : Tensor ℝ) (net net' : Net ρ ℝ) (v : ℝ) (opt : Optimizer (Nat × Bool) ℝ) (n : Nat)
    (h : StepOk E x y net net' v) (ho : net.optimizer = some opt) (hn : AdamSteps n opt) :
    ∃ opt', net'.optimizer = some opt' ∧ AdamSteps (n + trainableCount net.layers) opt' := by
  obtain ⟨pred, n1, L, g1, g2, n2, s1, s2, s3, s4, s5, s6⟩ := h
  have a1 : n1.optimizer = net.optimizer := (congrArg (fun q => q.2.optimizer) s1).symm
  have a2 : n2.optimizer = n1.optimizer := (congrArg (fun q => q.2.optimizer) s5).symm
  have ho2 : n2.optimizer = some opt := by rw [a2, a1, ho]
  rw [net_updateWeights_eq n2 opt ho2] at s6
  rcases hul : updateLayers 0 n2.layers opt with ⟨res, ls', opt'⟩
  rw [hul] at s6
  simp only [Prod.mk.injEq] at s6
  obtain ⟨rfl, hn'⟩ := s6
  have := updateLayers_adam n2.layers 0 n opt ls' opt' hn hul
  have b1 : n1.layers = (forwardLayers E net.layers x net.rng).2.1 := (congrArg (fun q => q.2.layers) s1).symm
  have b2 : n2.layers = (backwardLayers n1.layers g1).2 := (congrArg (fun q => q.2.layers) s5).symm
  rw [b2, backwardLayers_count, b1, forwardLayers_count] at this
  exact ⟨opt', by rw [← hn'], this⟩

/-- With exactly one layer with parameters the counter counts training steps.  Missing for the full C69: models
with more such layers, where it does not (`C69_refuted`). -/
theorem C69_one_layer_partial {ρ : Type} (E : Engine ρ ℝ) (x y : Tensor ℝ) (net net' : Net ρ ℝ) (v : ℝ)
    (opt : Optimizer (Nat × Bool) ℝ) (n : Nat) (h : StepOk E x y net net' v) (ho : net.optimizer = some opt) (hn : AdamSteps n opt)
    (h1 : trainableCount net.layers = 1) : ∃ opt', net'.optimizer = some opt' ∧ AdamSteps (n + 1) opt' := by
  rw [← h1]
  exact C69_counter E x y net net' v opt n h ho hn

/-- Two dense layers, a fresh Adam: for every data of the right shape the training step succeeds and the counter
stands at 2 after it. -/
theorem C69_refuted (E : Engine Unit ℝ) (o : AdamOptions ℝ) (w1 b1 w2 b2 x t : List Nat → ℝ) :
    ∃ net' v, StepOk E (ofFn [4, 3] x) (ofFn [4, 2] t) (Net.compile .mse (.newAdam o)
      ⟨[⟨.fc { weights := ofFn [3, 5] w1, biases := ofFn [1, 5] b1 }, true⟩,
        ⟨.fc { weights := ofFn [5, 2] w2, biases := ofFn [1, 2] b2 }, true⟩], none, none, ()⟩) net' v ∧
      ∃ opt', net'.optimizer = some opt' ∧ AdamSteps 2 opt' ∧ ¬ AdamSteps 1 opt' := by
  have d : ∀ {ds : List Nat}, ds ≠ [] → (∀ a ∈ ds, 0 < a) → ds.prod < 2 ^ 31 → Dims ds := fun a b c => ⟨a, b, c⟩
  obtain ⟨net', v, h1, h2⟩ := C67_step E _ (C67_compiled
    ⟨[⟨.fc { weights := ofFn [3, 5] w1, biases := ofFn [1, 5] b1 }, true⟩,
        ⟨.fc { weights := ofFn [5, 2] w2, biases := ofFn [1, 2] b2 }, true⟩], none, none, ()⟩ .mse
    (.cons (es := [4, 5]) (.dense (d (by simp) (by simp) (by simp)) (d (by simp) (by simp) (by simp)) (d (by simp) (by simp) (by simp)) rfl rfl)
      (.cons (es := [4, 2]) (.dense (d (by simp) (by simp) (by simp)) (d (by simp) (by simp) (by simp)) (d (by simp) (by simp) (by simp)) rfl rfl)
        (.nil _)))
    (d (by simp) (by simp) (by simp)) ⟨0, 0, 0, 0, false⟩ ⟨0, 0, 0, 0, false, 0⟩ o).2.2 (ofFn [4, 3] x) (ofFn [4, 2] t) ⟨x, rfl⟩ ⟨t, rfl⟩
  refine ⟨net', v, h1, ?_⟩
  obtain ⟨opt', k1, k2⟩ := C69_counter E _ _ _ net' v (.newAdam o) 0 h1 rfl ⟨_, rfl, rfl⟩
  have hc : 0 + trainableCount [⟨.fc { weights := ofFn [3, 5] w1, biases := ofFn [1, 5] b1 }, true⟩,
        ⟨.fc { weights := ofFn [5, 2] w2, biases := ofFn [1, 2] b2 }, true⟩] = 2 := by
    classical
    rw [trainableCount_cons, trainableCount_cons, if_pos (by exact trivial), if_pos (by exact trivial)]
    rfl
  replace k2 : AdamSteps 2 opt' := by rw [← hc]; exact k2
  refine ⟨opt', k1, k2, ?_⟩
  rintro ⟨a, ha, ha1⟩
  obtain ⟨b, hb, hb1⟩ := k2
  rw [ha] at hb
  cases hb
  omega

end SmartDNN
