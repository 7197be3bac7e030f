import Verif.Props.Typed
import Verif.Props.TwoModels

/-!
# Training does not use more and more memory (C93)

What a model holds between two calls: the parameters, the gradients, the inputs and masks the layers remember, and the tensors
in the maps of the optimizer.
-/

namespace SmartDNN
open Net Spec

section
variable {ρ K T : Type} [DecidableEq K] [Zero T] [One T] [Add T] [Sub T] [Mul T] [Div T] [Neg T] [NatCast T] [IntCast T]
  [LT T] [DecidableLT T] [LE T] [DecidableLE T] [DecidableEq T] [MathFn T]

/-! ### Specification: counting the numbers a model holds -/

/-- The numbers in the buffer of a tensor that may be absent. -/
def Spec.numbers : Option (Tensor T) → Nat
  | some t => t.data.length
  | none => 0

/-- The numbers in all tensor members of a layer. -/
def Spec.heldByLayer (l : Layer T) : Nat :=
  match l.kind with
  | .fc k => numbers (some k.weights) + numbers (some k.biases) + numbers k.input + numbers k.weightGradients + numbers k.biasGradients
  | .conv k => numbers (some k.weights) + numbers (some k.biases) + numbers k.input + numbers k.weightGradients + numbers k.biasGradients
  | .flatten _ => 0
  | .maxPool k => numbers k.input
  | .batchNorm k => numbers (some k.gamma) + numbers (some k.beta) + numbers (some k.runningMean) + numbers (some k.runningVariance) +
      numbers k.batchMean + numbers k.batchVariance + numbers k.normalizedInput + numbers k.gammaGrad + numbers k.betaGrad
  | .dropout k => numbers k.mask
  | .activation k => numbers k.input

/-- The numbers in all entries of the optimizer's maps for the tensor at address `k`. -/
def Spec.entriesAt (opt : Optimizer K T) (k : K) : Nat :=
  match opt with
  | .sgd o => numbers (o.momentumBuffers k)
  | .rmsprop o => numbers (o.squaredGrads k) + numbers (o.meanGrads k) + numbers (o.velocityBuffers k)
  | .adam o => numbers (o.m k) + numbers (o.v k)

/-- The numbers the optimizer keeps for each number of the parameters: one for SGD, two for Adam, one to three for RMSProp. -/
def Spec.kept1 (opt : Optimizer K T) : Nat :=
  match opt with
  | .sgd _ => 1
  | .rmsprop o => 1 + (if o.opts.centered then 1 else 0) + (if 0 < o.opts.momentum then 1 else 0)
  | .adam _ => 2

/-- The numbers in the parameters of a layer. -/
def Spec.parameterCount (l : Layer T) : Nat :=
  match params l with
  | some p => p.1.data.length + p.2.data.length
  | none => 0

/-- The numbers in the parameters of a model. -/
def Spec.parametersOf (net : Net ρ T) : Nat := (net.layers.map parameterCount).sum

/-- The numbers in the optimizer's entries for the parameters of layers number `i`, `i + 1`, … (`n` layers). -/
def Spec.heldByOptimizer (opt : Optimizer (Nat × Bool) T) : Nat → Nat → Nat
  | _, 0 => 0
  | i, n + 1 => entriesAt opt (i, false) + entriesAt opt (i, true) + heldByOptimizer opt (i + 1) n

/-- All numbers a model holds. -/
def Spec.held (net : Net ρ T) : Nat :=
  (net.layers.map heldByLayer).sum +
    match net.optimizer with
    | some opt => heldByOptimizer opt 0 net.layers.length
    | none => 0

/-- The optimizer has no entries for anything but the parameters of the `n` layers of the model. -/
def Spec.NothingElse (opt : Optimizer (Nat × Bool) T) (ls : List (Layer T)) : Prop :=
  ∀ i b, (∀ l, ls[i]? = some l → params l = none) → entriesAt opt (i, b) = 0

/-! ### The optimizer -/

/-- The maps of the optimizer have entries of `n` numbers for the address `k` (`none`: no entries). -/
def KeyState (opt : Optimizer K T) (k : K) (n : Option Nat) : Prop :=
  match opt with
  | .sgd o => (o.momentumBuffers k).map (·.data.length) = n
  | .rmsprop o => (o.squaredGrads k).map (·.data.length) = n ∧
      (o.meanGrads k).map (·.data.length) = (if o.opts.centered then n else none) ∧
      (o.velocityBuffers k).map (·.data.length) = (if 0 < o.opts.momentum then n else none)
  | .adam o => (o.m k).map (·.data.length) = n ∧ (o.v k).map (·.data.length) = n

theorem numbers_map {t : Option (Tensor T)} {n : Nat} (h : t.map (·.data.length) = some n) : numbers t = n := by
  rcases t with _ | t
  · cases h
  · simpa [numbers] using h

theorem numbers_none {t : Option (Tensor T)} (h : t.map (·.data.length) = none) : numbers t = 0 := by
  rcases t with _ | t
  · rfl
  · cases h

theorem keyState_some {opt : Optimizer K T} {k : K} {n : Nat} (h : KeyState opt k (some n)) : entriesAt opt k = kept1 opt * n := by
  cases opt with
  | sgd o => simpa [entriesAt, kept1] using numbers_map h
  | rmsprop o =>
    obtain ⟨h1, h2, h3⟩ := h
    simp only [entriesAt, kept1]
    rw [numbers_map h1]
    by_cases c1 : o.opts.centered = true
    · rw [if_pos c1] at h2 ⊢
      rw [numbers_map h2]
      by_cases c2 : 0 < o.opts.momentum
      · rw [if_pos c2] at h3 ⊢
        rw [numbers_map h3]; ring
      · rw [if_neg c2] at h3 ⊢
        rw [numbers_none h3]; ring
    · rw [if_neg c1] at h2 ⊢
      rw [numbers_none h2]
      by_cases c2 : 0 < o.opts.momentum
      · rw [if_pos c2] at h3 ⊢
        rw [numbers_map h3]; ring
      · rw [if_neg c2] at h3 ⊢
        rw [numbers_none h3]; ring
  | adam o =>
    simp only [entriesAt, kept1]
    rw [numbers_map h.1, numbers_map h.2]; ring

theorem keyState_none {opt : Optimizer K T} {k : K} (h : KeyState opt k none) : entriesAt opt k = 0 := by
  cases opt with
  | sgd o => exact numbers_none h
  | rmsprop o =>
    obtain ⟨h1, h2, h3⟩ := h
    simp only [ite_self] at h2 h3
    simp only [entriesAt, numbers_none h1, numbers_none h2, numbers_none h3]
  | adam o => simp only [entriesAt, numbers_none h.1, numbers_none h.2]

theorem sgd_loop_buffer {o : SGDOptions T} {w b g w' b' : Tensor T} {lr : T} (h : SGD.loop o w b g lr = .ok (w', b')) :
    SameShape b b' := by
  refine forN_post (fun s : Tensor T × Tensor T => SameShape b s.2) ?_ (SameShape.refl b) h
  intro j s s' hs hj
  obtain ⟨a1, -, hj⟩ := bind_ok hj
  obtain ⟨a2, -, hj⟩ := bind_ok hj
  by_cases hm : o.momentum ≠ 0
  · rw [if_pos hm] at hj
    obtain ⟨a3, -, hj⟩ := bind_ok hj
    obtain ⟨a4, h4, hj⟩ := bind_ok hj
    obtain ⟨a5, -, hj⟩ := bind_ok hj
    cases hj
    exact hs.trans (tensor_set_sameShape h4)
  · rw [if_neg hm] at hj
    obtain ⟨a5, -, hj⟩ := bind_ok hj
    cases hj
    exact hs

theorem rms_loop_buffers {o : RMSPropOptions T} {g : Tensor T} {s s' : RMSState T} {lr : T}
    (h : RMSProp.loop o s g lr = .ok s') : SameShape s.sq s'.sq ∧ SameShape s.mean s'.mean ∧ SameShape s.vel s'.vel := by
  refine forN_post (fun r : RMSState T => SameShape s.sq r.sq ∧ SameShape s.mean r.mean ∧ SameShape s.vel r.vel) ?_
    ⟨SameShape.refl _, SameShape.refl _, SameShape.refl _⟩ h
  rintro j r r' ⟨hs1, hs2, hs3⟩ hj
  obtain ⟨a1, -, hj⟩ := bind_ok hj
  obtain ⟨a2, -, hj⟩ := bind_ok hj
  obtain ⟨a3, -, hj⟩ := bind_ok hj
  obtain ⟨a4, h4, hj⟩ := bind_ok hj
  obtain ⟨⟨a5, d⟩, h5, hj⟩ := bind_ok hj
  have e5 : SameShape s.sq a5.sq ∧ SameShape s.mean a5.mean ∧ SameShape s.vel a5.vel := by
    by_cases hc : o.centered
    · rw [if_pos hc] at h5
      obtain ⟨b1, -, h5⟩ := bind_ok h5
      obtain ⟨b2, hb2, h5⟩ := bind_ok h5
      cases h5
      exact ⟨hs1.trans (tensor_set_sameShape h4), hs2.trans (tensor_set_sameShape hb2), hs3⟩
    · rw [if_neg hc] at h5
      cases h5
      exact ⟨hs1.trans (tensor_set_sameShape h4), hs2, hs3⟩
  by_cases hm : 0 < o.momentum
  · simp only [if_pos hm] at hj
    obtain ⟨b1, -, hj⟩ := bind_ok hj
    obtain ⟨b2, hb2, hj⟩ := bind_ok hj
    obtain ⟨b3, h3, hj⟩ := bind_ok hj
    cases hj
    exact ⟨e5.1, e5.2.1, e5.2.2.trans (tensor_set_sameShape hb2)⟩
  · simp only [if_neg hm] at hj
    obtain ⟨b3, h3, hj⟩ := bind_ok hj
    cases hj
    exact e5

theorem adam_loop_buffers {o : AdamOptions T} {lr : T} {it : Nat} {g : Tensor T} {s s' : Tensor T × Tensor T × Tensor T}
    (h : Adam.loop o lr it s g = .ok s') : SameShape s.2.1 s'.2.1 ∧ SameShape s.2.2 s'.2.2 := by
  refine forN_post (fun r : Tensor T × Tensor T × Tensor T => SameShape s.2.1 r.2.1 ∧ SameShape s.2.2 r.2.2) ?_
    ⟨SameShape.refl _, SameShape.refl _⟩ h
  intro j r r' hs hj
  obtain ⟨a1, -, hj⟩ := bind_ok hj
  obtain ⟨a2, -, hj⟩ := bind_ok hj
  obtain ⟨a3, -, hj⟩ := bind_ok hj
  obtain ⟨a4, -, hj⟩ := bind_ok hj
  obtain ⟨a5, h5, hj⟩ := bind_ok hj
  obtain ⟨a6, h6, hj⟩ := bind_ok hj
  obtain ⟨a7, -, hj⟩ := bind_ok hj
  cases hj
  exact ⟨hs.1.trans (tensor_set_sameShape h5), hs.2.trans (tensor_set_sameShape h6)⟩

theorem lookup_length {m : TMap K T} {k : K} {s : Shape} {n : Nat} (hs : s.size = n)
    (h : (m k).map (·.data.length) = none ∨ (m k).map (·.data.length) = some n) : (lookupOrZero m k s).data.length = n := by
  unfold lookupOrZero
  rcases hm : m k with _ | t
  · simp [Tensor.full, hs]
  · rw [hm] at h
    simpa using h

theorem assign_length (m : TMap K T) (k : K) (t : Tensor T) {n : Nat} (h : t.data.length = n) :
    (assign m k (some t) k).map (·.data.length) = some n := by
  rw [assign_same]
  simp [h]

theorem stepPair_keys {r : T} {w w' : World K T} {k : K} {g : Tensor T} (h : stepPair r w (k, g) = .ok w') {n : Nat}
    (hn : (w.mem k).shape.size = n) (hs : KeyState w.opt k none ∨ KeyState w.opt k (some n)) :
    KeyState w'.opt k (some n) ∧ (∀ j s, j ≠ k → KeyState w.opt j s → KeyState w'.opt j s) ∧ kept1 w'.opt = kept1 w.opt := by
  obtain ⟨mem, o⟩ := w
  simp only at hn
  cases o with
  | sgd o =>
    obtain ⟨a, ha, h⟩ := bind_ok h
    cases h
    obtain ⟨b, hb, ha⟩ := bind_ok ha
    cases ha
    refine ⟨assign_length _ _ _ ?_, fun j s hj h => ?_, rfl⟩
    · rw [(sgd_loop_buffer hb).2]
      exact lookup_length hn hs
    · simpa [KeyState, assign_ne _ _ hj] using h
  | rmsprop o =>
    obtain ⟨a, ha, h⟩ := bind_ok h
    cases h
    obtain ⟨b, hb, ha⟩ := bind_ok ha
    cases ha
    obtain ⟨e1, e2, e3⟩ := rms_loop_buffers hb
    refine ⟨⟨?_, ?_, ?_⟩, fun j s hj h => ⟨?_, ?_, ?_⟩, rfl⟩
    · refine assign_length _ _ _ ?_
      rw [e1.2]
      exact lookup_length hn (hs.imp (fun h => h.1) (fun h => h.1))
    · simp only
      by_cases hc : o.opts.centered = true
      · rw [if_pos hc, if_pos hc]
        refine assign_length _ _ _ ?_
        rw [e2.2]
        refine lookup_length hn (hs.imp (fun h => ?_) (fun h => ?_))
        · have := h.2.1; rwa [if_pos hc] at this
        · have := h.2.1; rwa [if_pos hc] at this
      · rw [if_neg hc, if_neg hc]
        rcases hs with h | h
        · have := h.2.1; rwa [if_neg hc] at this
        · have := h.2.1; rwa [if_neg hc] at this
    · simp only
      by_cases hc : 0 < o.opts.momentum
      · rw [if_pos hc, if_pos hc]
        refine assign_length _ _ _ ?_
        rw [e3.2]
        refine lookup_length hn (hs.imp (fun h => ?_) (fun h => ?_))
        · have := h.2.2; rwa [if_pos hc] at this
        · have := h.2.2; rwa [if_pos hc] at this
      · rw [if_neg hc, if_neg hc]
        rcases hs with h | h
        · have := h.2.2; rwa [if_neg hc] at this
        · have := h.2.2; rwa [if_neg hc] at this
    · have := h.1
      simpa [assign_ne _ _ hj] using this
    · have := h.2.1
      simp only at this ⊢
      rw [← this]
      split
      · rw [assign_ne _ _ hj]
      · rfl
    · have := h.2.2
      simp only at this ⊢
      rw [← this]
      split
      · rw [assign_ne _ _ hj]
      · rfl
  | adam o =>
    obtain ⟨a, ha, h⟩ := bind_ok h
    cases h
    obtain ⟨b, hb, ha⟩ := bind_ok ha
    cases ha
    obtain ⟨e1, e2⟩ := adam_loop_buffers hb
    refine ⟨⟨assign_length _ _ _ ?_, assign_length _ _ _ ?_⟩, fun j s hj h => ?_, rfl⟩
    · rw [e1.2]
      exact lookup_length hn (hs.imp (fun h => h.1) (fun h => h.1))
    · rw [e2.2]
      exact lookup_length hn (hs.imp (fun h => h.2) (fun h => h.2))
    · simpa [KeyState, assign_ne _ _ hj] using h

theorem begin_keys (w : World K T) (r : T) (k : K) (n : Option Nat) (h : KeyState w.opt k n) : KeyState (w.begin r).opt k n := by
  obtain ⟨mem, o⟩ := w
  cases o <;> exact h

theorem begin_kept (w : World K T) (r : T) : kept1 (w.begin r).opt = kept1 w.opt := by
  obtain ⟨mem, o⟩ := w
  cases o <;> rfl

/-- The tensor has exactly as many elements as its shape says. -/
def Exact (t : Tensor T) : Prop := t.shape.size = t.data.length

theorem optimizePair_keys {k0 k1 : K} (hk : k0 ≠ k1) {opt opt' : Optimizer K T} {p0 p1 g0 g1 p0' p1' : Tensor T}
    (h : Layer.optimizePair k0 k1 opt p0 p1 g0 g1 = (.ok (), p0', p1', opt')) (h0 : Exact p0) (h1 : Exact p1)
    (s0 : KeyState opt k0 none ∨ KeyState opt k0 (some p0.data.length)) (s1 : KeyState opt k1 none ∨ KeyState opt k1 (some p1.data.length)) :
    KeyState opt' k0 (some p0.data.length) ∧ KeyState opt' k1 (some p1.data.length) ∧
      (∀ j s, j ≠ k0 → j ≠ k1 → KeyState opt j s → KeyState opt' j s) ∧ kept1 opt' = kept1 opt := by
  let w0 : World K T := ⟨fun k => if k = k0 then p0 else p1, opt⟩
  have m0 : (w0.begin (-1)).mem k0 = p0 := by rw [begin_mem]; exact if_pos rfl
  have m1 : (w0.begin (-1)).mem k1 = p1 := by rw [begin_mem]; exact if_neg hk.symm
  have hu : ∃ wb, (w0.begin (-1)).updateTensors (-1) [(k0, g0), (k1, g1)] = .ok wb ∧ wb.opt = opt' := by
    unfold Layer.optimizePair World.optimizeM at h
    rw [if_neg (by simp)] at h
    revert h
    show ((match (w0.begin (-1)).updateTensors (-1) [(k0, g0), (k1, g1)] with
      | .ok w' => ((.ok () : Res Unit), w')
      | .error e => (.error e, w0)).1, _, _, (match (w0.begin (-1)).updateTensors (-1) [(k0, g0), (k1, g1)] with
      | .ok w' => ((.ok () : Res Unit), w')
      | .error e => (.error e, w0)).2.opt) = _ → _
    rcases (w0.begin (-1)).updateTensors (-1) [(k0, g0), (k1, g1)] with e | wb
    · intro h; cases (Prod.mk.inj h).1
    · intro h
      exact ⟨wb, rfl, (Prod.mk.inj (Prod.mk.inj (Prod.mk.inj h).2).2).2⟩
  obtain ⟨wb, hu, rfl⟩ := hu
  rw [updateTensors_eq, List.foldlM_cons] at hu
  obtain ⟨wa, ha, hu⟩ := bind_ok hu
  rw [List.foldlM_cons] at hu
  obtain ⟨wc, hc, hu⟩ := bind_ok hu
  cases hu
  obtain ⟨a1, a2, a3⟩ := stepPair_keys ha (n := p0.data.length) (by rw [m0]; exact h0)
    (s0.imp (begin_keys w0 _ _ _) (begin_keys w0 _ _ _))
  have hsh := stepPair_shape ha k1
  rw [m1] at hsh
  obtain ⟨b1, b2, b3⟩ := stepPair_keys hc (n := p1.data.length) (by rw [hsh.1]; exact h1)
    (s1.imp (fun h => a2 _ _ hk.symm (begin_keys w0 _ _ _ h)) (fun h => a2 _ _ hk.symm (begin_keys w0 _ _ _ h)))
  exact ⟨b2 _ _ hk a1, b1, fun j s j0 j1 h => b2 _ _ j1 (a2 _ _ j0 (begin_keys w0 _ _ _ h)),
    b3.trans (a3.trans (begin_kept w0 _))⟩

theorem layer_update_keys {k0 k1 : K} (hk : k0 ≠ k1) {l l' : Layer T} {opt opt' : Optimizer K T}
    (h : Layer.updateWeights k0 k1 (l, opt) = (.ok (), (l', opt'))) :
    (params l = none ∧ opt' = opt) ∨ ∃ p, params l = some p ∧ (Exact p.1 → Exact p.2 →
      (KeyState opt k0 none ∨ KeyState opt k0 (some p.1.data.length)) → (KeyState opt k1 none ∨ KeyState opt k1 (some p.2.data.length)) →
      KeyState opt' k0 (some p.1.data.length) ∧ KeyState opt' k1 (some p.2.data.length) ∧
      (∀ j s, j ≠ k0 → j ≠ k1 → KeyState opt j s → KeyState opt' j s) ∧ kept1 opt' = kept1 opt) := by
  rcases hp : params l with _ | p
  · have hn : ¬ Trainable l := by rw [params_trainable, hp]; rintro ⟨p, h⟩; cases h
    rw [C56_layer_other k0 k1 l opt hn] at h
    exact .inl ⟨rfl, by cases h; rfl⟩
  · refine .inr ⟨p, rfl, fun e0 e1 s0 s1 => ?_⟩
    by_cases hg : HasGradients l
    · obtain ⟨g, hg⟩ := (grads_iff l).1 hg
      obtain ⟨v1, v2, v3⟩ := C56_layer_values k0 k1 l opt p g hp hg
      rw [h] at v1 v3
      refine optimizePair_keys hk (g0 := g.1) (g1 := g.2) (Prod.ext v1.symm (Prod.ext rfl (Prod.ext rfl v3.symm))) e0 e1 s0 s1
    · rw [C56_layer_missing k0 k1 l opt ((params_trainable l).2 ⟨p, hp⟩) hg] at h
      cases h

end

/-! ### The optimizer of a model -/

section
variable {ρ T : Type} [Zero T] [One T] [Add T] [Sub T] [Mul T] [Div T] [Neg T] [NatCast T] [IntCast T]
  [LT T] [DecidableLT T] [LE T] [DecidableLE T] [DecidableEq T] [MathFn T]

/-- The number of elements of the first (`false`) or second (`true`) parameter of layer number `j`. -/
def sizeAt (ls : List (Layer T)) (j : Nat) (b : Bool) : Option Nat :=
  (ls[j]?.bind params).map fun p => if b then p.2.data.length else p.1.data.length

theorem updateLayers_keys (ls : List (Layer T)) : ∀ (i : Nat) {ls' : List (Layer T)} {opt opt' : Optimizer (Nat × Bool) T},
    updateLayers i ls opt = (.ok (), ls', opt') → (∀ l ∈ ls, ∀ p, params l = some p → Exact p.1 ∧ Exact p.2) →
    (∀ j b, KeyState opt (i + j, b) none ∨ KeyState opt (i + j, b) (sizeAt ls j b)) →
    (∀ j b, KeyState opt' (i + j, b) (sizeAt ls j b)) ∧ (∀ k s, k.1 < i → KeyState opt k s → KeyState opt' k s) ∧
      kept1 opt' = kept1 opt := by
  induction ls with
  | nil =>
    intro i ls' opt opt' h _ hs
    cases h
    refine ⟨fun j b => ?_, fun k s _ h => h, rfl⟩
    rcases hs j b with h | h
    · exact h
    · exact h
  | cons l ls ih =>
    intro i ls' opt opt' h hex hs
    rw [updateLayers_cons] at h
    rcases hu : Layer.updateWeights (i, false) (i, true) (l, opt) with ⟨_ | _, l1, o1⟩
    · rw [hu] at h; cases (Prod.mk.inj h).1
    · rw [hu] at h
      simp only at h
      rcases hr : updateLayers (i + 1) ls o1 with ⟨res, ls1, o2⟩
      rw [hr] at h
      cases h
      have hkeys : (∀ b, KeyState o1 (i, b) (sizeAt (l :: ls) 0 b)) ∧ (∀ k s, k.1 ≠ i → KeyState opt k s → KeyState o1 k s) ∧
          kept1 o1 = kept1 opt := by
        rcases layer_update_keys (addr_ne i) hu with ⟨hp, rfl⟩ | ⟨p, hp, hall⟩
        · refine ⟨fun b => ?_, fun k s _ h => h, rfl⟩
          have := hs 0 b
          simp only [sizeAt, List.getElem?_cons_zero, Option.bind_some, hp, Option.map_none, or_self] at this ⊢
          exact this
        · obtain ⟨e0, e1⟩ := hex l (by simp) p hp
          have s0 := hs 0 false
          have s1 := hs 0 true
          simp only [sizeAt, List.getElem?_cons_zero, Option.bind_some, hp, Option.map_some, Nat.add_zero, Bool.false_eq_true, if_false,
            if_true] at s0 s1
          obtain ⟨k1, k2, k3, k4⟩ := hall e0 e1 s0 s1
          refine ⟨fun b => ?_, fun k s hk h => k3 k s (fun e => hk (by rw [e])) (fun e => hk (by rw [e])) h, k4⟩
          cases b
          · simpa [sizeAt, hp] using k1
          · simpa [sizeAt, hp] using k2
      obtain ⟨k1, k2, k3⟩ := hkeys
      obtain ⟨r1, r2, r3⟩ := ih (i + 1) hr (fun a ha => hex a (by simp [ha])) (fun j b => by
        have := hs (j + 1) b
        simp only [sizeAt, List.getElem?_cons_succ] at this ⊢
        rw [show i + (j + 1) = i + 1 + j by omega] at this
        exact this.imp (k2 _ _ (by simp; omega)) (k2 _ _ (by simp; omega)))
      refine ⟨fun j b => ?_, fun k s hk h => r2 _ _ (by omega) (k2 _ _ (by omega) h), r3.trans k3⟩
      cases j with
      | zero => exact r2 _ _ (by simp) (k1 b)
      | succ j =>
        rw [show i + (j + 1) = i + 1 + j by omega]
        exact r1 j b

theorem heldByOptimizer_eq {opt : Optimizer (Nat × Bool) T} (ls : List (Layer T)) : ∀ (i : Nat),
    (∀ j b, KeyState opt (i + j, b) (sizeAt ls j b)) → heldByOptimizer opt i ls.length = kept1 opt * (ls.map parameterCount).sum := by
  induction ls with
  | nil => intro i _; rfl
  | cons l ls ih =>
    intro i h
    have hr := ih (i + 1) (fun j b => by
      have := h (j + 1) b
      rw [show i + (j + 1) = i + 1 + j by omega] at this
      exact this)
    rw [List.length_cons, heldByOptimizer, hr, List.map_cons, List.sum_cons, mul_add]
    congr 1
    have h0 := h 0 false
    have h1 := h 0 true
    simp only [sizeAt, List.getElem?_cons_zero, Option.bind_some, Nat.add_zero] at h0 h1
    rcases hp : params l with _ | p
    · rw [hp] at h0 h1
      rw [keyState_none h0, keyState_none h1]
      simp [parameterCount, hp]
    · rw [hp] at h0 h1
      rw [keyState_some h0, keyState_some h1]
      simp [parameterCount, hp, mul_add]

theorem sizeAt_none {ls : List (Layer T)} {i : Nat} {b : Bool} (h : ∀ l, ls[i]? = some l → params l = none) : sizeAt ls i b = none := by
  unfold sizeAt
  rcases hl : ls[i]? with _ | l
  · rfl
  · simp [h l hl]

end

/-! ### The layers -/

/-- The numbers a layer remembers between `forward` and `backward` on an input of dimensions `ds`: the input, or the mask; flatten
remembers only the dimensions. -/
def Spec.remembered (l : Layer ℝ) (ds : List Nat) : Nat :=
  match l.kind with
  | .flatten _ => 0
  | _ => ds.prod

/-- `Remembered ls ds es n`: the layers fit together from `ds` to `es` and remember `n` numbers in all. -/
inductive Spec.Remembered : List (Layer ℝ) → List Nat → List Nat → Nat → Prop where
  | nil (ds : List Nat) : Remembered [] ds ds 0
  | cons {l : Layer ℝ} {ls : List (Layer ℝ)} {ds es hs : List Nat} {n : Nat} (hl : Typed l ds es) (hls : Remembered ls es hs n) :
      Remembered (l :: ls) ds hs (remembered l ds + n)

theorem numbers_ofFn (ds : List Nat) (f : List Nat → ℝ) : numbers (some (ofFn ds f)) = ds.prod := by
  simp [numbers, ofFn_data, length_indices]

theorem exact_ofFn (ds : List Nat) (f : List Nat → ℝ) : Exact (ofFn ds f) := by
  simp [Exact, ofFn_shape, ofFn_data, shapeOf_size, length_indices]

/-- What `forward` and `backward` leave in a layer: parameters, gradients of their sizes, and what is remembered. -/
theorem typed_held {ρ : Type} {l : Layer ℝ} {ds es : List Nat} (h : Typed l ds es) (E : Engine ρ ℝ) (r : ρ)
    (x : List Nat → ℝ) :
    ∃ y l' r', Layer.forward E (ofFn ds x) (l, r) = (.ok (ofFn es y), (l', r')) ∧ Typed l' ds es ∧ params l' = params l ∧
      remembered l' ds = remembered l ds ∧
      (∀ g1 g2, grads l = some (g1, g2) → (∀ p, params l = some p → g1.data.length = p.1.data.length ∧ g2.data.length = p.2.data.length) →
        heldByLayer l' = 2 * parameterCount l + remembered l ds) ∧ (params l = none → heldByLayer l' = remembered l ds) ∧
      grads l' = grads l ∧
      ∀ g, ∃ z l'', Layer.backward (ofFn es g) l' = (.ok (ofFn ds z), l'') ∧ Typed l'' ds es ∧ params l'' = params l ∧
        remembered l'' ds = remembered l ds ∧ heldByLayer l'' = 2 * parameterCount l + remembered l ds ∧
        (∀ p, params l = some p → Exact p.1 ∧ Exact p.2 ∧
          ∃ g1 g2, grads l'' = some (g1, g2) ∧ g1.data.length = p.1.data.length ∧ g2.data.length = p.2.data.length) := by
  cases h with
  | @dense b n m w bias l mode hx hw hg hlw hlb =>
    refine ⟨affine n w bias x, ⟨.fc { l with input := some (ofFn [b, n] x) }, mode⟩, r, ?_, .dense hx hw hg hlw hlb, rfl, rfl,
      ?_, fun h => (by cases h), rfl, fun g => ?_⟩
    · simp only [Layer.forward, Layer.onKind]
      rw [C37_batch hg w bias x l hlw hlb]
    · intro g1 g2 hgr hsz
      simp only [grads, Option.bind_eq_some_iff, Option.map_eq_some_iff] at hgr
      obtain ⟨a, ha, b', hb, he⟩ := hgr
      cases he
      obtain ⟨s1, s2⟩ := hsz _ rfl
      simp only [heldByLayer, parameterCount, params, remembered, ha, hb, numbers_ofFn]
      simp only [numbers, s1, s2]
      ring
    · simp only [Layer.backward, Layer.onKind]
      rw [fc_backprop hx hw hg w bias x g l hlw hlb]
      refine ⟨_, _, rfl, .dense hx hw hg hlw hlb, rfl, rfl, ?_, ?_⟩
      · simp only [heldByLayer, parameterCount, params, remembered, numbers_ofFn, hlw, hlb]
        simp [ofFn_data, length_indices]
        ring
      · intro p hp
        cases hp
        refine ⟨?_, ?_, _, _, rfl, ?_, ?_⟩
        · simp only [hlw]; exact exact_ofFn _ _
        · simp only [hlb]; exact exact_ofFn _ _
        · simp [hlw, ofFn_data, length_indices]
        · simp [hlb, ofFn_data, length_indices]
  | @elementwise ds l mode hd ha =>
    obtain ⟨y, hy⟩ := act_forward_ok l.activation ha ds x
    have hh : heldByLayer (⟨.activation { l with input := some (ofFn ds x) }, mode⟩ : Layer ℝ) = ds.prod := numbers_ofFn _ _
    refine ⟨y, ⟨.activation { l with input := some (ofFn ds x) }, mode⟩, r, ?_, .elementwise hd ha, rfl, rfl,
      fun g1 g2 h => (by cases h), fun _ => hh, rfl, fun g => ?_⟩
    · exact congrArg (fun y => (y, (⟨⟨.activation { l with input := some (ofFn ds x) }, mode⟩, r⟩ : Layer ℝ × ρ))) hy
    · obtain ⟨z, hz⟩ := act_backward_ok l.activation ha hd x g
      refine ⟨z, _, congrArg (fun y => (y, (⟨.activation { l with input := some (ofFn ds x) }, mode⟩ : Layer ℝ))) hz,
        .elementwise hd ha, rfl, rfl, ?_, fun p hp => (by cases hp)⟩
      rw [hh]
      simp [parameterCount, params, remembered]
  | @softmax d ds l mode hd hne ha =>
    have hh : heldByLayer (⟨.activation { l with input := some (ofFn (d :: ds) x) }, mode⟩ : Layer ℝ) = (d :: ds).prod := numbers_ofFn _ _
    refine ⟨Spec.softmax ds x, ⟨.activation { l with input := some (ofFn (d :: ds) x) }, mode⟩, r, ?_, .softmax hd hne ha,
      rfl, rfl, fun g1 g2 h => (by cases h), fun _ => hh, rfl, fun g => ?_⟩
    · refine congrArg (fun y => (y, (⟨⟨.activation { l with input := some (ofFn (d :: ds) x) }, mode⟩, r⟩ : Layer ℝ × ρ))) ?_
      show Act.forward l.activation _ = _
      rw [ha]
      exact C27_forward hd hne x
    · obtain ⟨A, h1, -⟩ := C28_vjp hd hne x
      refine ⟨A g, _, congrArg (fun y => (y, (⟨.activation { l with input := some (ofFn (d :: ds) x) }, mode⟩ : Layer ℝ))) ?_,
        .softmax hd hne ha, rfl, rfl, ?_, fun p hp => (by cases hp)⟩
      · show Act.backward l.activation _ _ = _
        rw [ha]
        exact h1 g
      · rw [hh]
        simp [parameterCount, params, remembered]
  | @flatten d ds l mode hd hr =>
    have hp : [d, ds.prod].prod = (d :: ds).prod := by simp
    refine ⟨fun j => x (reindex [d, ds.prod] (d :: ds) j),
      ⟨.flatten { l with originalShape := some (shapeOf (d :: ds)) }, mode⟩, r, ?_, .flatten hd hr, rfl, rfl,
      fun g1 g2 h => (by cases h), fun _ => rfl, rfl, fun g => ?_⟩
    · simp only [Layer.forward, Layer.onKind]
      rw [flatten_forward hd hr, reinterpret_ofFn hp]
    · refine ⟨fun i => g (reindex (d :: ds) [d, ds.prod] i), _,
        congrArg (fun y => (y, (⟨.flatten { l with originalShape := some (shapeOf (d :: ds)) }, mode⟩ : Layer ℝ))) ?_,
        .flatten hd hr, rfl, rfl, rfl, fun p hp => (by cases hp)⟩
      show (Tensor.reshape _ _) = _
      rw [shapeOf_dims, reshape_back hd hp.symm]
  | @conv n ic oc h w kh kw k b l mode hd hdk hdb hk hkw ho h0 h1 h2 h3 h4 h5 =>
    have ht : ∀ x : ℝ, MathFn.toFloat x = x := fun _ => rfl
    have hkp := hdk.pos kh (by simp)
    have hkwp := hdk.pos kw (by simp)
    have hoc := hdk.pos oc (by simp)
    have hdo : Dims [n, oc, h - kh + 1, w - kw + 1] := dims_conv hd hk hkw ho hoc hkp hkwp
    refine ⟨Spec.conv 1 kh kw 1 0 1 h w k b x, ⟨.conv { l with input := some (ofFn [n, ic, h, w] x) }, mode⟩, r, ?_,
      .conv hd hdk hdb hk hkw ho h0 h1 h2 h3 h4 h5, rfl, rfl, ?_, fun h => (by cases h), rfl, fun g => ?_⟩
    · simp only [Layer.forward, Layer.onKind]
      rw [conv_forward ht hd hdk hdb hk hkw ho k b x l h0 h1 h2 h3 h4 h5]
    · intro g1 g2 hgr hsz
      simp only [grads, Option.bind_eq_some_iff, Option.map_eq_some_iff] at hgr
      obtain ⟨a, ha, b', hb, he⟩ := hgr
      cases he
      obtain ⟨s1, s2⟩ := hsz _ rfl
      simp only [heldByLayer, parameterCount, params, remembered, ha, hb, numbers_ofFn]
      simp only [numbers, s1, s2]
      ring
    · simp only [Layer.backward, Layer.onKind]
      rw [conv_backward ht hd hdk hdo (by omega) (by omega) x g k b { l with input := some (ofFn [n, ic, h, w] x) }
        h2 h3 h4 h5 rfl]
      refine ⟨_, _, rfl, .conv hd hdk hdb hk hkw ho h0 h1 h2 h3 h4 h5, rfl, rfl, ?_, ?_⟩
      · simp only [heldByLayer, parameterCount, params, remembered, numbers_ofFn, h4, h5]
        simp [ofFn_data, length_indices]
        ring
      · intro p hp
        cases hp
        refine ⟨?_, ?_, _, _, rfl, ?_, ?_⟩
        · simp only [h4]; exact exact_ofFn _ _
        · simp only [h5]; exact exact_ofFn _ _
        · simp [h4, ofFn_data, length_indices]
        · simp [h5, ofFn_data, length_indices]
  | @pool n c h w p s ninf inp mode hd hp hs hph hpw =>
    have e1 : poolOut p s h = (h - p) / s + 1 := if_pos hph
    have e2 : poolOut p s w = (w - p) / s + 1 := if_pos hpw
    rw [← e1, ← e2]
    have ht : ∀ inp', Typed ⟨.maxPool ⟨p, s, 0, ninf, inp'⟩, mode⟩ [n, c, h, w] [n, c, poolOut p s h, poolOut p s w] := by
      intro inp'
      rw [e1, e2]
      exact .pool hd hp hs hph hpw
    have hh : heldByLayer (⟨.maxPool ⟨p, s, 0, ninf, some (ofFn [n, c, h, w] x)⟩, mode⟩ : Layer ℝ) = [n, c, h, w].prod := numbers_ofFn _ _
    obtain ⟨m, hm⟩ := pool_forward_ok hd hp hs (Or.inl hph) (Or.inl hpw) x ninf inp
    refine ⟨m, ⟨.maxPool ⟨p, s, 0, ninf, some (ofFn [n, c, h, w] x)⟩, mode⟩, r, ?_, ht _, rfl, rfl,
      fun g1 g2 h => (by cases h), fun _ => hh, rfl, fun g => ?_⟩
    · simp only [Layer.forward, Layer.onKind]
      rw [hm]
    · obtain ⟨z, hz⟩ := pool_backward_ok (s := s) hd hp x g ninf
      refine ⟨z, ⟨.maxPool ⟨p, s, 0, ninf, some (ofFn [n, c, h, w] x)⟩, mode⟩, ?_, ht _, rfl, rfl, ?_, fun p hp => (by cases hp)⟩
      · simp only [Layer.backward, Layer.onKind]
        rw [hz]
      · rw [hh]
        simp [parameterCount, params, remembered]
  | @dropout ds l hd =>
    have hf := dropout_forward_training E hd x l r (createRandom_ofFn E ds 0 1 r)
    generalize hm : ofFn ds (fun i => if l.dropoutRate < cmin (cmax (drawAt E ds.prod (ravel ds i) r) 0) 1 then (1 : ℝ) else 0) =
      mask at hf
    have hh : heldByLayer (⟨.dropout { l with mask := some mask }, true⟩ : Layer ℝ) = ds.prod := by
      subst hm
      exact numbers_ofFn _ _
    refine ⟨fun i => x i * (if l.dropoutRate < cmin (cmax (drawAt E ds.prod (ravel ds i) r) 0) 1 then 1 else 0) *
        (1 / (1 - l.dropoutRate)), ⟨.dropout { l with mask := some mask }, true⟩, engineAfter E ds.prod ds.prod r, ?_,
        .dropout hd, rfl, rfl, fun g1 g2 h => (by cases h), fun _ => hh, rfl, fun g => ?_⟩
    · simp only [Layer.forward, Layer.onKind]
      rw [hf]
    · refine ⟨fun i => g i * (if l.dropoutRate < cmin (cmax (drawAt E ds.prod (ravel ds i) r) 0) 1 then 1 else 0),
        ⟨.dropout { l with mask := some mask }, true⟩, ?_, .dropout hd, rfl, rfl, ?_, fun p hp => (by cases hp)⟩
      · subst hm
        simp only [Layer.backward, Layer.onKind, Dropout.backward, Mut.get_bind, derefOpt, Mut.lift_ok_bind, ofFn_shape,
          beq_shapeOf, decide_true, Bool.not_true, Bool.false_eq_true, if_false, if_true, Mut.lift_apply]
        rw [mul_same hd]
      · rw [hh]
        simp [parameterCount, params, remembered]

/-- Both gradients are there and have the sizes of the parameters. -/
def GradsFit (l : Layer ℝ) : Prop :=
  ∀ p, params l = some p → ∃ g1 g2, grads l = some (g1, g2) ∧ g1.data.length = p.1.data.length ∧ g2.data.length = p.2.data.length

theorem typed_exact {l : Layer ℝ} {ds es : List Nat} (h : Typed l ds es) {p : Tensor ℝ × Tensor ℝ} (hp : params l = some p) :
    Exact p.1 ∧ Exact p.2 := by
  obtain ⟨y, l', r', -, -, -, -, -, -, -, h⟩ := typed_held h (⟨fun _ => (), fun _ r => (0, r)⟩ : Engine Unit ℝ) () fun _ => 0
  obtain ⟨z, l'', -, -, -, -, -, h⟩ := h fun _ => 0
  exact ⟨(h p hp).1, (h p hp).2.1⟩

theorem remembered_exact {ls : List (Layer ℝ)} {ds es : List Nat} {n : Nat} (h : Remembered ls ds es n) :
    ∀ l ∈ ls, ∀ p, params l = some p → Exact p.1 ∧ Exact p.2 := by
  induction h with
  | nil => intro l hl; cases hl
  | cons hl _ ih =>
    intro l h p hp
    rcases List.mem_cons.1 h with rfl | h
    · exact typed_exact hl hp
    · exact ih l h p hp

theorem parameterCount_params {l l' : Layer ℝ} (h : params l' = params l) : parameterCount l' = parameterCount l := by
  unfold parameterCount
  rw [h]

theorem counts_params {ls ls' : List (Layer ℝ)} (h : ls'.map params = ls.map params) :
    ls'.map parameterCount = ls.map parameterCount := by
  have : ∀ ls : List (Layer ℝ), ls.map parameterCount =
      (ls.map params).map fun p => match p with | some p => p.1.data.length + p.2.data.length | none => 0 := by
    intro ls
    rw [List.map_map]
    exact List.map_congr_left fun l _ => by unfold parameterCount; simp only [Function.comp]; cases params l <;> rfl
  rw [this, this, h]

theorem sizeAt_params {ls ls' : List (Layer ℝ)} (h : ls'.map params = ls.map params) (j : Nat) (b : Bool) : sizeAt ls' j b = sizeAt ls j b := by
  have : ∀ ls : List (Layer ℝ), ls[j]?.bind params = (ls.map params)[j]?.bind id := by
    intro ls
    rw [List.getElem?_map]
    cases ls[j]? <;> rfl
  unfold sizeAt
  rw [this, this, h]

theorem chain_held {ρ : Type} {ls : List (Layer ℝ)} {ds es : List Nat} {n : Nat} (h : Remembered ls ds es n) (E : Engine ρ ℝ) :
    ∀ (r : ρ) (x : List Nat → ℝ),
    ∃ y ls' r', forwardLayers E ls (ofFn ds x) r = (.ok (ofFn es y), ls', r') ∧ Remembered ls' ds es n ∧
      ls'.map params = ls.map params ∧ ((∀ l ∈ ls, GradsFit l) → (∀ l ∈ ls', GradsFit l) ∧
        (ls'.map heldByLayer).sum = 2 * (ls.map parameterCount).sum + n) ∧
      ∀ g, ∃ z ls'', backwardLayers ls' (ofFn es g) = (.ok (ofFn ds z), ls'') ∧ Remembered ls'' ds es n ∧ (∀ l ∈ ls'', GradsFit l) ∧
        ls''.map params = ls.map params ∧ (ls''.map heldByLayer).sum = 2 * (ls.map parameterCount).sum + n := by
  induction h with
  | nil ds => exact fun r x => ⟨x, [], r, rfl, .nil ds, rfl, fun _ => ⟨by simp, rfl⟩, fun g => ⟨g, [], rfl, .nil ds, by simp, rfl, rfl⟩⟩
  | @cons l ls ds es hs n hl hls ih =>
    intro r x
    obtain ⟨y, l', r', f1, f2, f3, f4, f5, f6, f7, f8⟩ := typed_held hl E r x
    obtain ⟨z, ls', r'', k1, k2, k3, k4, k5⟩ := ih r' y
    refine ⟨z, l' :: ls', r'', ?_, f4 ▸ .cons f2 k2, by simp [f3, k3], fun hg => ⟨?_, ?_⟩, fun g => ?_⟩
    · rw [forwardLayers_cons, f1]
      simp only
      rw [k1]
    · intro a ha
      rcases List.mem_cons.1 ha with rfl | ha
      · intro p hp
        rw [f3] at hp
        rw [f7]
        exact hg l (by simp) p hp
      · exact (k4 fun a ha => hg a (by simp [ha])).1 a ha
    · have := (k4 fun a ha => hg a (by simp [ha])).2
      have hl0 : heldByLayer l' = 2 * parameterCount l + remembered l ds := by
        rcases hp : params l with _ | p
        · rw [f6 hp]
          simp [parameterCount, hp]
        · obtain ⟨g1, g2, e1, e2⟩ := hg l (by simp) p hp
          exact f5 g1 g2 e1 (fun q hq => by rw [hp] at hq; cases hq; exact e2)
      simp only [List.map_cons, List.sum_cons, this, hl0]
      ring
    · obtain ⟨u, ls'', b1, b2, b3, b4, b5⟩ := k5 g
      obtain ⟨v, l'', c1, c2, c3, c4, c5, c6⟩ := f8 u
      refine ⟨v, l'' :: ls'', ?_, c4 ▸ .cons c2 b2, ?_, by simp [c3, b4], ?_⟩
      · unfold backwardLayers
        rw [b1]
        simp only
        rw [c1]
      · intro a ha
        rcases List.mem_cons.1 ha with rfl | ha
        · intro p hp
          rw [c3] at hp
          exact (c6 p hp).2.2
        · exact b3 a ha
      · simp only [List.map_cons, List.sum_cons, b5, c5]
        ring

theorem updated_held {l l' : Layer ℝ} (h : Updated l l') :
    heldByLayer l' = heldByLayer l ∧ parameterCount l' = parameterCount l ∧ (∀ ds, remembered l' ds = remembered l ds) ∧
      (GradsFit l → GradsFit l') ∧ (∀ b, (params l').map (fun p => if b = true then p.2.data.length else p.1.data.length) =
        (params l).map fun p => if b = true then p.2.data.length else p.1.data.length) := by
  cases h with
  | fc k mode w b hw hb =>
    refine ⟨by simp [heldByLayer, numbers, hw.2, hb.2], by simp [parameterCount, params, hw.2, hb.2], fun ds => rfl, fun hg p hp => ?_,
      fun c => by simp [params, hw.2, hb.2]⟩
    cases hp
    obtain ⟨g1, g2, e1, e2, e3⟩ := hg _ rfl
    exact ⟨g1, g2, e1, e2.trans hw.2.symm, e3.trans hb.2.symm⟩
  | conv k mode w b hw hb =>
    refine ⟨by simp [heldByLayer, numbers, hw.2, hb.2], by simp [parameterCount, params, hw.2, hb.2], fun ds => rfl, fun hg p hp => ?_,
      fun c => by simp [params, hw.2, hb.2]⟩
    cases hp
    obtain ⟨g1, g2, e1, e2, e3⟩ := hg _ rfl
    exact ⟨g1, g2, e1, e2.trans hw.2.symm, e3.trans hb.2.symm⟩
  | batchNorm k mode w b hw hb =>
    refine ⟨by simp [heldByLayer, numbers, hw.2, hb.2], by simp [parameterCount, params, hw.2, hb.2], fun ds => rfl, fun hg p hp => ?_,
      fun c => by simp [params, hw.2, hb.2]⟩
    cases hp
    obtain ⟨g1, g2, e1, e2, e3⟩ := hg _ rfl
    exact ⟨g1, g2, e1, e2.trans hw.2.symm, e3.trans hb.2.symm⟩
  | unchanged l => exact ⟨rfl, rfl, fun _ => rfl, id, fun _ => rfl⟩

theorem updated_all {ls ls' : List (Layer ℝ)} (hu : List.Forall₂ Updated ls ls') :
    (ls'.map heldByLayer).sum = (ls.map heldByLayer).sum ∧ (ls'.map parameterCount).sum = (ls.map parameterCount).sum ∧
      (∀ {ds es : List Nat} {n : Nat}, Remembered ls ds es n → Remembered ls' ds es n) ∧
      ((∀ l ∈ ls, GradsFit l) → ∀ l ∈ ls', GradsFit l) ∧ ∀ j b, sizeAt ls' j b = sizeAt ls j b := by
  induction hu with
  | nil => exact ⟨rfl, rfl, id, fun h => h, fun _ _ => rfl⟩
  | @cons l l' ls ls' h hs ih =>
    obtain ⟨i1, i2, i3, i4, i5⟩ := ih
    obtain ⟨e1, e2, e3, e4, e5⟩ := updated_held h
    refine ⟨by simp [i1, e1], by simp [i2, e2], ?_, ?_, ?_⟩
    · intro ds es n hr
      cases hr with
      | cons hl hls => exact e3 ds ▸ .cons (updated_typed h hl) (i3 hls)
    · intro hg a ha
      rcases List.mem_cons.1 ha with rfl | ha
      · exact e4 (hg l (by simp))
      · exact i4 (fun a ha => hg a (by simp [ha])) a ha
    · intro j b
      cases j with
      | zero => simpa [sizeAt] using e5 b
      | succ j => simpa [sizeAt] using i5 j b

/-! ### Training -/

/-- A model that has not been trained, or has been trained on data of these dimensions. -/
structure Before {ρ : Type} (net : Net ρ ℝ) (ds es : List Nat) (n P m : Nat) (opt : Optimizer (Nat × Bool) ℝ) : Prop where
  rem : Remembered net.layers ds es n
  hopt : net.optimizer = some opt
  keys : ∀ j b, KeyState opt (0 + j, b) none ∨ KeyState opt (0 + j, b) (sizeAt net.layers j b)
  kept : kept1 opt = m
  count : (net.layers.map parameterCount).sum = P

/-- A model that has been trained. -/
structure After {ρ : Type} (net : Net ρ ℝ) (ds es : List Nat) (n P m : Nat) (opt : Optimizer (Nat × Bool) ℝ) : Prop where
  rem : Remembered net.layers ds es n
  hopt : net.optimizer = some opt
  keys : ∀ j b, KeyState opt (0 + j, b) (sizeAt net.layers j b)
  kept : kept1 opt = m
  count : (net.layers.map parameterCount).sum = P
  fit : ∀ l ∈ net.layers, GradsFit l
  held : (net.layers.map heldByLayer).sum = 2 * P + n

theorem After.before {ρ : Type} {net : Net ρ ℝ} {ds es : List Nat} {n P m : Nat} {opt : Optimizer (Nat × Bool) ℝ}
    (h : After net ds es n P m opt) : Before net ds es n P m opt := ⟨h.rem, h.hopt, fun j b => .inr (h.keys j b), h.kept, h.count⟩

theorem After.total {ρ : Type} {net : Net ρ ℝ} {ds es : List Nat} {n P m : Nat} {opt : Optimizer (Nat × Bool) ℝ}
    (h : After net ds es n P m opt) : Spec.held net = (2 + m) * P + n := by
  unfold Spec.held
  rw [h.hopt, h.held]
  simp only
  rw [heldByOptimizer_eq _ 0 h.keys, h.kept, h.count]
  ring

theorem After.nothingElse {ρ : Type} {net : Net ρ ℝ} {ds es : List Nat} {n P m : Nat} {opt : Optimizer (Nat × Bool) ℝ}
    (h : After net ds es n P m opt) : NothingElse opt net.layers := by
  intro i b hi
  have := h.keys i b
  rw [sizeAt_none hi, Nat.zero_add] at this
  exact keyState_none this

theorem stepOk_held {ρ : Type} {E : Engine ρ ℝ} {x y : Tensor ℝ} {net net' : Net ρ ℝ} {v : ℝ} (h : StepOk E x y net net' v)
    {ds es : List Nat} {n P m : Nat} {opt : Optimizer (Nat × Bool) ℝ} (hb : Before net ds es n P m opt)
    (hx : HasDims ds x) (hy : HasDims es y) (hL : ∃ L, net.loss = some L ∧ LossFits L es) :
    ∃ opt', After net' ds es n P m opt' := by
  obtain ⟨f, rfl⟩ := hx
  obtain ⟨t, rfl⟩ := hy
  obtain ⟨L, hL, hfit⟩ := hL
  obtain ⟨pred, net1, L', g, g', net2, h1, h2, h3, h4, h5, h6⟩ := h
  obtain ⟨p, ls', r', c1, c2, c3, -, c5⟩ := chain_held hb.rem E net.rng f
  have h1' : predict E (ofFn ds f) net = (.ok (ofFn es p), { net with layers := ls', rng := r' }) := by
    unfold predict
    rw [c1]
  rw [h1'] at h1
  cases h1
  rw [hL] at h2
  cases h2
  obtain ⟨v', gg, l1, l2⟩ := loss_ok hfit p t
  rw [l2] at h4
  cases h4
  obtain ⟨z, ls'', b1, b2, b3, b4, b5⟩ := c5 gg
  have h5' : backward (ofFn es gg) ({ net with layers := ls', rng := r' } : Net ρ ℝ) =
      (.ok (ofFn ds z), { net with layers := ls'', rng := r' }) := by
    unfold backward
    simp only [b1]
  rw [h5'] at h5
  cases h5
  have hu := C56_changes ({ net with layers := ls'', rng := r' } : Net ρ ℝ)
  rw [h6] at hu
  have h6' : ∃ opt', updateLayers 0 ls'' opt = (.ok (), net'.layers, opt') ∧ net'.optimizer = some opt' := by
    unfold updateWeights at h6
    cases ls'' with
    | nil =>
      cases h6
      exact ⟨opt, rfl, hb.hopt⟩
    | cons a as =>
      simp only [hb.hopt] at h6
      rcases hr : updateLayers 0 (a :: as) opt with ⟨res, ls3, o3⟩
      rw [hr] at h6
      cases h6
      exact ⟨o3, rfl, rfl⟩
  obtain ⟨opt', hup, hopt⟩ := h6'
  obtain ⟨k1, -, k3⟩ := updateLayers_keys ls'' 0 hup (remembered_exact b2) (fun j b => by rw [sizeAt_params b4]; exact hb.keys j b)
  obtain ⟨u1, u2, u3, u4, u5⟩ := updated_all hu.1
  exact ⟨opt', u3 b2, hopt, fun j b => by rw [u5]; exact k1 j b, k3.trans hb.kept,
    u2.trans ((congrArg List.sum (counts_params b4)).trans hb.count), u4 b3, u1.trans (by rw [b5, hb.count])⟩

theorem stepOk_keeps {ρ : Type} {E : Engine ρ ℝ} {x y : Tensor ℝ} {net net' : Net ρ ℝ} {v : ℝ} (h : StepOk E x y net net' v) :
    net'.loss = net.loss := by
  obtain ⟨pred, net1, L, g, g', net2, h1, -, -, -, h5, h6⟩ := h
  have e1 : net1.loss = net.loss := by
    unfold predict at h1
    rw [← (Prod.mk.inj h1).2]
  have e2 : net2.loss = net1.loss := by
    unfold backward at h5
    rw [← (Prod.mk.inj h5).2]
  have k3 := (C56_changes net2).2.1
  rw [h6] at k3
  exact k3.trans (e2.trans e1)

theorem steps_held {ρ : Type} {E : Engine ρ ℝ} {ps : List (Tensor ℝ × Tensor ℝ)} {net net' : Net ρ ℝ} {vs : List ℝ}
    (h : Steps E ps net net' vs) : ∀ {ds es : List Nat} {n P m : Nat} {opt : Optimizer (Nat × Bool) ℝ}, Before net ds es n P m opt →
      (∀ q ∈ ps, HasDims ds q.1 ∧ HasDims es q.2) → (∃ L, net.loss = some L ∧ LossFits L es) →
      net'.loss = net.loss ∧ (ps ≠ [] → ∃ opt', After net' ds es n P m opt') ∧
      (After net ds es n P m opt → ∃ opt', After net' ds es n P m opt') := by
  induction h with
  | nil net => exact fun hb _ _ => ⟨rfl, fun h => (h rfl).elim, fun h => ⟨_, h⟩⟩
  | @cons x y ps net net1 net2 v vs h hs ih =>
    intro ds es n P m opt hb hd hL
    obtain ⟨opt1, h1⟩ := stepOk_held h hb (hd (x, y) (by simp)).1 (hd (x, y) (by simp)).2 hL
    have hl := stepOk_keeps h
    obtain ⟨t1, t3, t4⟩ := ih h1.before (fun q hq => hd q (by simp [hq])) (by rw [hl]; exact hL)
    exact ⟨t1.trans hl, fun _ => t4 h1, fun _ => t4 h1⟩

theorem epochs_held {ρ : Type} {E : Engine ρ ℝ} {ps : List (Tensor ℝ × Tensor ℝ)} {k : Nat} {net net' : Net ρ ℝ} {rs : List (Tensor ℝ)}
    (h : Epochs E ps k net net' rs) : ∀ {ds es : List Nat} {n P m : Nat} {opt : Optimizer (Nat × Bool) ℝ}, Before net ds es n P m opt →
      (∀ q ∈ ps, HasDims ds q.1 ∧ HasDims es q.2) → (∃ L, net.loss = some L ∧ LossFits L es) → ps ≠ [] →
      (0 < k → ∃ opt', After net' ds es n P m opt') ∧ (After net ds es n P m opt → ∃ opt', After net' ds es n P m opt') := by
  induction h with
  | zero net => exact fun hb _ _ _ => ⟨fun h => (lt_irrefl _ h).elim, fun h => ⟨_, h⟩⟩
  | succ h hs ih =>
    intro ds es n P m opt hb hd hL hp
    obtain ⟨t1, t3, -⟩ := steps_held h hb hd hL
    obtain ⟨opt1, h1⟩ := t3 hp
    obtain ⟨-, e4⟩ := ih h1.before hd (by rw [t1]; exact hL) hp
    exact ⟨fun _ => e4 h1, fun _ => e4 h1⟩

theorem zip_ne_nil {α β : Type} {xs : List α} {ys : List β} (h : xs ≠ []) (hl : xs.length ≤ ys.length) : xs.zip ys ≠ [] := by
  cases xs with
  | nil => exact (h rfl).elim
  | cons a xs =>
    cases ys with
    | nil => simp at hl
    | cons b ys => simp

theorem remembered_chain {ls : List (Layer ℝ)} {ds es : List Nat} {n : Nat} (h : Remembered ls ds es n) : Chain ls ds es := by
  induction h with
  | nil ds => exact .nil ds
  | cons hl _ ih => exact .cons hl ih

/-- A freshly constructed optimizer. -/
def Spec.NewOptimizer (opt : Optimizer (Nat × Bool) ℝ) : Prop :=
  (∃ o, opt = .newSGD o) ∨ (∃ o, opt = .newRMSProp o) ∨ ∃ o, opt = .newAdam o

theorem new_keys {opt : Optimizer (Nat × Bool) ℝ} (h : NewOptimizer opt) (k : Nat × Bool) : KeyState opt k none := by
  rcases h with ⟨o, rfl⟩ | ⟨o, rfl⟩ | ⟨o, rfl⟩
  · rfl
  · refine ⟨rfl, ?_, ?_⟩
    · rw [ite_self]; rfl
    · rw [ite_self]; rfl
  · exact ⟨rfl, rfl⟩

/-- A call of `train` or `predict` on data of the dimensions `ds` and `es`. -/
def Spec.OfDims (ds es : List Nat) : Api ℝ → Prop
  | .train xs ys _ => xs ≠ [] ∧ xs.length ≤ ys.length ∧ (∀ x ∈ xs, HasDims ds x) ∧ ∀ y ∈ ys, HasDims es y
  | .predict x => HasDims ds x
  | .predictAll xs => ∀ x ∈ xs, HasDims ds x
  | _ => False

theorem predict_held {ρ : Type} (E : Engine ρ ℝ) {net : Net ρ ℝ} {ds es : List Nat} {n P m : Nat} {opt : Optimizer (Nat × Bool) ℝ}
    (h : After net ds es n P m opt) {x : Tensor ℝ} (hx : HasDims ds x) : After (predict E x net).2 ds es n P m opt := by
  obtain ⟨f, rfl⟩ := hx
  obtain ⟨p, ls', r', c1, c2, c3, c4, -⟩ := chain_held h.rem E net.rng f
  have e : predict E (ofFn ds f) net = (.ok (ofFn es p), { net with layers := ls', rng := r' }) := by
    unfold predict
    rw [c1]
  rw [e]
  obtain ⟨d1, d2⟩ := c4 h.fit
  exact ⟨c2, h.hopt, fun j b => by show KeyState _ _ (sizeAt ls' j b); rw [sizeAt_params c3]; exact h.keys j b, h.kept,
    (congrArg List.sum (counts_params c3)).trans h.count, d1, d2.trans (by rw [h.count])⟩

theorem predictAll_held {ρ : Type} (E : Engine ρ ℝ) {ds es : List Nat} {n P m : Nat} {opt : Optimizer (Nat × Bool) ℝ} (xs : List (Tensor ℝ)) :
    ∀ {net : Net ρ ℝ}, After net ds es n P m opt → WellShaped net ds es → (∀ x ∈ xs, HasDims ds x) →
      After (predictAll E xs net).2 ds es n P m opt ∧ WellShaped (predictAll E xs net).2 ds es := by
  induction xs with
  | nil => exact fun h hw _ => ⟨h, hw⟩
  | cons x xs ih =>
    intro net h hw hx
    obtain ⟨y, net1, e1, -, hw1⟩ := C67_predict E net hw x (hx x (by simp))
    have h1 := predict_held E h (hx x (by simp))
    rw [e1] at h1
    obtain ⟨i1, i2⟩ := ih h1 hw1 fun x hx' => hx x (by simp [hx'])
    have e : (predictAll E (x :: xs) net).2 = (predictAll E xs net1).2 := by
      show ((predict E x >>= fun y => predictAll E xs >>= fun ys => pure (y :: ys)) net).2 = _
      rw [Mut.bind_apply, e1]
      simp only
      rw [Mut.bind_apply]
      rcases predictAll E xs net1 with ⟨_ | _, net2⟩ <;> rfl
    rw [e]
    exact ⟨i1, i2⟩

theorem run_held {ρ : Type} (E : Engine ρ ℝ) {ds es : List Nat} {n P m : Nat} {opt : Optimizer (Nat × Bool) ℝ} {net : Net ρ ℝ}
    (h : After net ds es n P m opt) (hw : WellShaped net ds es) (u : Api ℝ) (hu : OfDims ds es u) :
    (∃ opt', After (u.run E net).2 ds es n P m opt') ∧ WellShaped (u.run E net).2 ds es := by
  cases u with
  | train xs ys k =>
    obtain ⟨u1, u2, u3, u4⟩ := hu
    obtain ⟨net', rs, e1, -, e2⟩ := C67_train E net hw xs ys k u1 u2 u3 u4
    have hn : (xs.length : ℝ) ≠ 0 := by
      rw [Ne, Nat.cast_eq_zero, List.length_eq_zero_iff]
      exact u1
    obtain ⟨-, t4⟩ := epochs_held ((C55_train E xs ys k net net' rs u2 hn).1 e1) h.before
      (fun q hq => ⟨u3 _ (List.of_mem_zip hq).1, u4 _ (List.of_mem_zip hq).2⟩) hw.2.1 (zip_ne_nil u1 u2)
    simp only [Api.run, e1]
    exact ⟨t4 h, e2⟩
  | predict x =>
    obtain ⟨y, net1, e1, -, hw1⟩ := C67_predict E net hw x hu
    have h1 := predict_held E h hu
    rw [e1] at h1
    simp only [Api.run, e1]
    exact ⟨⟨_, h1⟩, hw1⟩
  | predictAll xs =>
    obtain ⟨i1, i2⟩ := predictAll_held E xs h hw hu
    simp only [Api.run]
    exact ⟨⟨_, i1⟩, i2⟩
  | _ => exact hu.elim

theorem alone_held {ρ : Type} (E : Engine ρ ℝ) {ds es : List Nat} {n P m : Nat} (us : List (Api ℝ)) :
    ∀ {net : Net ρ ℝ} {opt : Optimizer (Nat × Bool) ℝ}, After net ds es n P m opt → WellShaped net ds es → (∀ u ∈ us, OfDims ds es u) →
    ∃ opt', After (alone E us net).2 ds es n P m opt' := by
  induction us with
  | nil => exact fun h _ _ => ⟨_, h⟩
  | cons u us ih =>
    intro net opt h hw hu
    obtain ⟨⟨opt1, h1⟩, w1⟩ := run_held E h hw u (hu u (by simp))
    exact ih h1 w1 fun u hu' => hu u (by simp [hu'])

theorem first_held {ρ : Type} (E : Engine ρ ℝ) (net : Net ρ ℝ) (L : Loss ℝ) (opt : Optimizer (Nat × Bool) ℝ) (hnew : NewOptimizer opt)
    {ds es : List Nat} {n : Nat} (hr : Remembered net.layers ds es n) (hL : LossFits L es)
    (inputs targets : List (Tensor ℝ)) (epochs : Int) (h0 : 0 < epochs) (hin : inputs ≠ []) (hlen : inputs.length ≤ targets.length)
    (hx : ∀ x ∈ inputs, HasDims ds x) (hy : ∀ y ∈ targets, HasDims es y) :
    ∃ net' rs opt', trainCall E inputs targets epochs (net.compile L opt) = (.ok (), net', rs) ∧ WellShaped net' ds es ∧
      After net' ds es n (parametersOf net) (kept1 opt) opt' := by
  have hw : WellShaped (net.compile L opt) ds es := by
    rcases hnew with ⟨o, rfl⟩ | ⟨o, rfl⟩ | ⟨o, rfl⟩
    · exact (C67_compiled net L (remembered_chain hr) hL o ⟨0, 0, 0, 0, false, 0⟩ ⟨1, 1/2, 1/2, 1, 0, 0, 0, 1, 1⟩).1
    · exact (C67_compiled net L (remembered_chain hr) hL ⟨0, 0, 0, 0, false⟩ o ⟨1, 1/2, 1/2, 1, 0, 0, 0, 1, 1⟩).2.1
    · exact (C67_compiled net L (remembered_chain hr) hL ⟨0, 0, 0, 0, false⟩ ⟨0, 0, 0, 0, false, 0⟩ o).2.2
  have hb : Before (net.compile L opt) ds es n (parametersOf net) (kept1 opt) opt :=
    ⟨hr, rfl, fun j b => .inl (new_keys hnew _), rfl, rfl⟩
  have hn : (inputs.length : ℝ) ≠ 0 := by
    rw [Ne, Nat.cast_eq_zero, List.length_eq_zero_iff]
    exact hin
  obtain ⟨net', rs, e1, -, e2⟩ := C67_train E _ hw inputs targets epochs hin hlen hx hy
  obtain ⟨t3, -⟩ := epochs_held ((C55_train E inputs targets epochs _ net' rs hlen hn).1 e1) hb
    (fun q hq => ⟨hx _ (List.of_mem_zip hq).1, hy _ (List.of_mem_zip hq).2⟩) hw.2.1 (zip_ne_nil hin hlen)
  obtain ⟨opt', h⟩ := t3 (by omega)
  exact ⟨net', rs, opt', e1, e2, h⟩

/-- **After training, a model holds its parameters, one gradient for each of them, the numbers the optimizer keeps for each of them
(one for SGD, two for Adam, one to three for RMSProp) and the last batch as it entered each layer, and nothing else**: however many
epochs and samples there were. -/
theorem C93_exact {ρ : Type} (E : Engine ρ ℝ) (net : Net ρ ℝ) (L : Loss ℝ) (opt : Optimizer (Nat × Bool) ℝ) (hnew : NewOptimizer opt)
    {ds es : List Nat} {n : Nat} (hr : Remembered net.layers ds es n) (hL : LossFits L es)
    (inputs targets : List (Tensor ℝ)) (epochs : Int) (h0 : 0 < epochs) (hin : inputs ≠ []) (hlen : inputs.length ≤ targets.length)
    (hx : ∀ x ∈ inputs, HasDims ds x) (hy : ∀ y ∈ targets, HasDims es y) :
    ∃ net' rs opt', trainCall E inputs targets epochs (net.compile L opt) = (.ok (), net', rs) ∧
      Spec.held net' = (2 + kept1 opt) * parametersOf net + n ∧ net'.optimizer = some opt' ∧ NothingElse opt' net'.layers := by
  obtain ⟨net', rs, opt', e1, -, h⟩ := first_held E net L opt hnew hr hL inputs targets epochs h0 hin hlen hx hy
  exact ⟨net', rs, opt', e1, h.total, h.hopt, h.nothingElse⟩

/-- **Training for longer, on more data, or predicting afterwards changes nothing**: after the first call of `train`, any number of
further calls of `train`, `predict` and `predictAll` on data of the same dimensions leave the model holding exactly as many numbers. -/
theorem C93_forever {ρ : Type} (E : Engine ρ ℝ) (net : Net ρ ℝ) (L : Loss ℝ) (opt : Optimizer (Nat × Bool) ℝ) (hnew : NewOptimizer opt)
    {ds es : List Nat} {n : Nat} (hr : Remembered net.layers ds es n) (hL : LossFits L es)
    (inputs targets : List (Tensor ℝ)) (epochs : Int) (h0 : 0 < epochs) (hin : inputs ≠ []) (hlen : inputs.length ≤ targets.length)
    (hx : ∀ x ∈ inputs, HasDims ds x) (hy : ∀ y ∈ targets, HasDims es y) (us : List (Api ℝ)) (hu : ∀ u ∈ us, OfDims ds es u) :
    Spec.held (alone E us (trainCall E inputs targets epochs (net.compile L opt)).2.1).2 = (2 + kept1 opt) * parametersOf net + n ∧
    ∃ opt', (alone E us (trainCall E inputs targets epochs (net.compile L opt)).2.1).2.optimizer = some opt' ∧
      NothingElse opt' (alone E us (trainCall E inputs targets epochs (net.compile L opt)).2.1).2.layers := by
  obtain ⟨net', rs, opt', e1, hw, h⟩ := first_held E net L opt hnew hr hL inputs targets epochs h0 hin hlen hx hy
  rw [e1]
  obtain ⟨opt2, h2⟩ := alone_held E us h hw hu
  exact ⟨h2.total, opt2, h2.hopt, h2.nothingElse⟩

/-! ### A concrete model

The convolutional model of `Props/Typed.lean`: 18 + 2 + 180 + 10 = 210 parameters; a batch of two 8x8 images leaves 128 numbers in the
convolution, 144 in the ReLU, 144 in the pooling layer, 36 in the dropout mask, 36 in the dense layer and 20 in the softmax. -/

theorem exConvNet_remembered : Remembered exConvNet.layers [2, 1, 8, 8] [2, 10] 508 := by
  have d : ∀ {ds : List Nat}, ds ≠ [] → (∀ a ∈ ds, 0 < a) → ds.prod < 2 ^ 31 → Dims ds := fun a b c => ⟨a, b, c⟩
  refine .cons (n := 380) (es := [2, 2, 6, 6]) (.conv (n := 2) (ic := 1) (oc := 2) (h := 8) (w := 8) (kh := 3) (kw := 3)
    (d (by simp) (by simp) (by simp)) (d (by simp) (by simp) (by simp)) (d (by simp) (by simp) (by simp)) (by omega) (by omega)
    (by norm_num) rfl rfl rfl rfl rfl rfl) ?_
  refine .cons (n := 236) (es := [2, 2, 6, 6]) (.elementwise (d (by simp) (by simp) (by simp)) (by intro h; cases h)) ?_
  refine .cons (n := 92) (es := [2, 2, 3, 3]) (.pool (n := 2) (c := 2) (h := 6) (w := 6) (p := 2) (s := 2)
    (d (by simp) (by simp) (by simp)) (by omega) (by omega) (by omega) (by omega)) ?_
  refine .cons (n := 56) (es := [2, 2, 3, 3]) (.dropout (d (by simp) (by simp) (by simp))) ?_
  refine .cons (n := 56) (es := [2, 18]) (.flatten (d := 2) (ds := [2, 3, 3]) (d (by simp) (by simp) (by simp)) (by simp)) ?_
  refine .cons (n := 20) (es := [2, 10]) (.dense (d (by simp) (by simp) (by simp)) (d (by simp) (by simp) (by simp))
    (d (by simp) (by simp) (by simp)) rfl rfl) ?_
  exact .cons (n := 0) (es := [2, 10]) (.softmax (d (by simp) (by simp) (by simp)) (by simp) rfl) (.nil _)

/-- With Adam the model holds 4 · 210 + 508 = 1348 numbers after training, whatever the data, the number of samples and of epochs, and
whatever is trained and predicted afterwards. -/
example (E : Engine Unit ℝ) (epochs : Nat) (o : AdamOptions ℝ) (xs : List ((List Nat → ℝ) × (List Nat → ℝ))) (hxs : xs ≠ [])
    (x y : List Nat → ℝ) (more : Nat) :
    Spec.held (alone E [.train [ofFn [2, 1, 8, 8] x] [ofFn [2, 10] y] more, .predict (ofFn [2, 1, 8, 8] y)]
      (trainCall E (xs.map fun q => ofFn [2, 1, 8, 8] q.1) (xs.map fun q => ofFn [2, 10] q.2) (epochs + 1)
        (exConvNet.compile (.crossEntropy (1 / 100)) (.newAdam o))).2.1).2 = 1348 := by
  rw [(C93_forever E exConvNet (.crossEntropy (1 / 100)) (.newAdam o) (.inr (.inr ⟨o, rfl⟩)) exConvNet_remembered
    ⟨2, 10, rfl, by simp, by simp, by simp⟩ _ _ _ (by omega) (by simpa using hxs) (by simp)
    (by intro t ht; obtain ⟨q, -, rfl⟩ := List.mem_map.1 ht; exact ⟨_, rfl⟩)
    (by intro t ht; obtain ⟨q, -, rfl⟩ := List.mem_map.1 ht; exact ⟨_, rfl⟩) _ ?_).1]
  · have : parametersOf exConvNet = 210 := by
      have e : ∀ (ds : List Nat) (f : List Nat → ℝ), (ofFn ds f).data.length = ds.prod := numbers_ofFn
      simp only [parametersOf, exConvNet, List.map, parameterCount, params, e, List.sum_cons, List.sum_nil, List.prod_cons, List.prod_nil]
      norm_num
    rw [this]
    show (2 + 2) * 210 + 508 = 1348
    norm_num
  · intro u hu
    simp only [List.mem_cons, List.not_mem_nil, or_false] at hu
    rcases hu with rfl | rfl
    · refine ⟨by simp, by simp, ?_, ?_⟩
      · simpa using ⟨x, rfl⟩
      · simpa using ⟨y, rfl⟩
    · exact ⟨y, rfl⟩

end SmartDNN
