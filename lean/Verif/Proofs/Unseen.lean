import Verif.Spec.Unseen
import Verif.Proofs.EqualFeatures
import Verif.Proofs.Settled
import Verif.Props.Losses

namespace SmartDNN
open Net Spec

variable {ρ : Type}

theorem along_linear (ds : List Nat) (u f g : List Nat → ℝ) (a b : ℝ) : along ds u (fun i => a * f i + b * g i) = a * along ds u f + b * along ds u g := by
  unfold along
  induction indices ds with
  | nil => simp
  | cons i is ih =>
    simp only [List.map_cons, List.sum_cons, ih]
    ring

theorem along_congr {ds : List Nat} {u f g : List Nat → ℝ} (h : ∀ idx, ValidIdx ds idx → f idx = g idx) : along ds u f = along ds u g := by
  unfold along
  congr 1
  refine List.map_congr_left fun idx hi => ?_
  rw [h idx (mem_indices.1 hi)]

theorem along_sum (ds : List Nat) (u : List Nat → ℝ) (n : Nat) (f : Nat → List Nat → ℝ) (z : Nat → ℝ) :
    along ds u (fun i => ∑ q ∈ Finset.range n, f q i * z q) = ∑ q ∈ Finset.range n, along ds u (f q) * z q := by
  unfold along
  induction indices ds with
  | nil => simp
  | cons i is ih =>
    rw [List.map_cons, List.sum_cons, ih]
    simp only [List.map_cons, List.sum_cons, add_mul, Finset.sum_add_distrib, Finset.mul_sum]
    congr 1
    exact Finset.sum_congr rfl fun q _ => by ring

/-- Column `c` of a matrix with a row for every entry of a sample of dimensions `ds`. -/
def column (ds : List Nat) (f : List Nat → ℝ) (c : Nat) (idx : List Nat) : ℝ := f [ravel ds idx, c]

/-- Every tensor remembered at `k` is a matrix whose columns are orthogonal to `u`. -/
def NullMap {K : Type} (M : TMap K ℝ) (k : K) (ds : List Nat) (h : Nat) (u : List Nat → ℝ) : Prop :=
  ∀ t, M k = some t → ∃ f, t = ofFn [ds.prod, h] f ∧ ∀ c < h, along ds u (column ds f c) = 0

/-- SGD without weight decay, whose velocity for the tensor at `k` is orthogonal to `u`. -/
def NullOn {K : Type} (opt : Optimizer K ℝ) (k : K) (ds : List Nat) (h : Nat) (u : List Nat → ℝ) : Prop :=
  match opt with
  | .sgd o => o.opts.weightDecay = 0 ∧ NullMap o.momentumBuffers k ds h u
  | _ => False

/-- A matrix whose columns are along `u` as those of `f`. -/
def Along (ds : List Nat) (h : Nat) (u f : List Nat → ℝ) (t : Tensor ℝ) : Prop :=
  ∃ f', t = ofFn [ds.prod, h] f' ∧ ∀ c < h, along ds u (column ds f' c) = along ds u (column ds f c)

section
variable {K : Type} [DecidableEq K]

theorem nullMap_assign {M : TMap K ℝ} {k k' : K} {ds : List Nat} {h : Nat} {u : List Nat → ℝ} {t : Tensor ℝ} (hM : NullMap M k ds h u)
    (ht : k' = k → ∃ f, t = ofFn [ds.prod, h] f ∧ ∀ c < h, along ds u (column ds f c) = 0) : NullMap (assign M k' (some t)) k ds h u := by
  intro x hx
  by_cases hk : k = k'
  · subst hk
    rw [assign_same] at hx
    cases hx
    exact ht rfl
  · rw [assign_ne _ _ hk] at hx
    exact hM x hx

theorem null_lookup {M : TMap K ℝ} {k : K} {ds : List Nat} {h : Nat} {u : List Nat → ℝ} (hM : NullMap M k ds h u) :
    ∃ f, lookupOrZero M k (shapeOf [ds.prod, h]) = ofFn [ds.prod, h] f ∧ ∀ c < h, along ds u (column ds f c) = 0 := by
  unfold lookupOrZero
  cases e : M k with
  | none => exact ⟨fun _ => 0, full_shapeOf _ 0, fun c _ => by simp [along, column]⟩
  | some t => exact hM t e

/-- The new velocity and the new weight of SGD are linear in the gradient, the weight and the velocity. -/
theorem sgdCell_linear (o : SGDOptions ℝ) (hd : o.weightDecay = 0) (lr : ℝ) : ∃ a b c d : ℝ, ∀ g w v : ℝ,
    (sgdCell o lr g (w, v)).1 = 1 * w + 1 * (a * g + b * v) ∧ (sgdCell o lr g (w, v)).2 = c * g + d * v := by
  by_cases hm : o.momentum = 0
  · refine ⟨-lr, 0, 0, 1, fun g w v => ?_⟩
    constructor <;> simp only [sgdCell, hd, hm, ne_eq, not_true_eq_false, if_false] <;> ring
  · by_cases hn : o.nesterov
    · refine ⟨-lr * (1 + o.momentum * (1 - o.dampening)), -lr * o.momentum ^ 2, 1 - o.dampening, o.momentum, fun g w v => ?_⟩
      constructor <;> simp only [sgdCell, hd, hm, hn, ne_eq, not_true_eq_false, not_false_eq_true, if_true, if_false] <;> ring
    · refine ⟨-lr * (1 - o.dampening), -lr * o.momentum, 1 - o.dampening, o.momentum, fun g w v => ?_⟩
      constructor <;> simp only [sgdCell, hd, hm, hn, ne_eq, not_true_eq_false, not_false_eq_true, if_true, if_false, Bool.false_eq_true] <;> ring

/-- One tensor update of SGD. -/
theorem stepPair_null {r : ℝ} {w w' : World K ℝ} {p : K × Tensor ℝ} (h : stepPair r w p = .ok w') {k : K} {ds : List Nat} {n : Nat} {u : List Nat → ℝ}
    (hq : NullOn w.opt k ds n u) : (p.1 ≠ k → NullOn w'.opt k ds n u) ∧ ∀ {f : List Nat → ℝ}, Along ds n u f (w.mem k) →
    (p.1 = k → ∃ γ, p.2 = ofFn [ds.prod, n] γ ∧ ∀ c < n, along ds u (column ds γ c) = 0) → NullOn w'.opt k ds n u ∧ Along ds n u f (w'.mem k) := by
  obtain ⟨mem, o⟩ := w
  obtain ⟨k', g⟩ := p
  cases o with
  | rmsprop o => exact hq.elim
  | adam o => exact hq.elim
  | sgd o =>
    obtain ⟨hd, hq⟩ := hq
    obtain ⟨a, ha, h⟩ := bind_ok h
    cases h
    obtain ⟨c, hc, ha⟩ := bind_ok ha
    cases ha
    refine ⟨fun hk => ⟨hd, nullMap_assign hq fun h => absurd h hk⟩, fun {f} hm hg => ?_⟩
    by_cases hk : k' = k
    · subst hk
      obtain ⟨γ, rfl, hγ⟩ := hg rfl
      obtain ⟨f', hf', hf⟩ := hm
      simp only at hf'
      obtain ⟨v, hv, hve⟩ := null_lookup hq
      dsimp only at hc
      rw [hf', ofFn_shape, hv, sgd_loop_ofFn] at hc
      cases hc
      obtain ⟨a, b, c, d, hlin⟩ := sgdCell_linear o.opts hd (currentLR o.opts.learningRate r)
      refine ⟨⟨hd, nullMap_assign hq fun _ => ⟨_, rfl, fun j hj => ?_⟩⟩, ⟨_, assign_same _ _ _, fun j hj => ?_⟩⟩
      · have e : column ds (fun i => (sgdCell o.opts (currentLR o.opts.learningRate r) (γ i) (f' i, v i)).2) j =
            fun idx => c * column ds γ j idx + d * column ds v j idx := funext fun idx => (hlin _ _ _).2
        rw [e, along_linear, hγ j hj, hve j hj]
        ring
      · have e : column ds (fun i => (sgdCell o.opts (currentLR o.opts.learningRate r) (γ i) (f' i, v i)).1) j =
            fun idx => 1 * column ds f' j idx + 1 * (fun idx => a * column ds γ j idx + b * column ds v j idx) idx := funext fun idx => (hlin _ _ _).1
        rw [e, along_linear, along_linear, hγ j hj, hve j hj, hf j hj]
        ring
    · refine ⟨⟨hd, nullMap_assign hq fun h => absurd h hk⟩, ?_⟩
      simp only [assign_ne_key (Ne.symm hk)]
      exact hm

theorem updateTensors_null {r : ℝ} {k : K} {ds : List Nat} {n : Nat} {u f : List Nat → ℝ} (ps : List (K × Tensor ℝ)) : ∀ {w w' : World K ℝ},
    w.updateTensors r ps = .ok w' → NullOn w.opt k ds n u → ((∀ p ∈ ps, p.1 ≠ k) → NullOn w'.opt k ds n u) ∧ (Along ds n u f (w.mem k) →
    (∀ p ∈ ps, p.1 = k → ∃ γ, p.2 = ofFn [ds.prod, n] γ ∧ ∀ c < n, along ds u (column ds γ c) = 0) → NullOn w'.opt k ds n u ∧ Along ds n u f (w'.mem k)) := by
  induction ps with
  | nil => intro w w' h hq; cases h; exact ⟨fun _ => hq, fun hm _ => ⟨hq, hm⟩⟩
  | cons p ps ih =>
    intro w w' h hq
    rw [updateTensors_eq, List.foldlM_cons] at h
    obtain ⟨a, ha, h⟩ := bind_ok h
    obtain ⟨s1, s2⟩ := stepPair_null ha hq
    refine ⟨fun hp => (ih h (s1 (hp p (by simp)))).1 fun p hp' => hp p (by simp [hp']), fun hm hz => ?_⟩
    obtain ⟨q1, m1⟩ := s2 hm (hz p (by simp))
    exact (ih h q1).2 m1 fun p hp => hz p (by simp [hp])

omit [DecidableEq K] in
theorem begin_nullOn {w : World K ℝ} {r : ℝ} {k : K} {ds : List Nat} {n : Nat} {u : List Nat → ℝ} (h : NullOn w.opt k ds n u) :
    NullOn (w.begin r).opt k ds n u := by
  obtain ⟨mem, o⟩ := w
  cases o <;> exact h

theorem optimizePair_otherNull {k0 k1 k : K} (h0 : k ≠ k0) (h1 : k ≠ k1) {ds : List Nat} {n : Nat} {u : List Nat → ℝ} (opt : Optimizer K ℝ)
    (p0 p1 g0 g1 : Tensor ℝ) (hq : NullOn opt k ds n u) : NullOn (Layer.optimizePair k0 k1 opt p0 p1 g0 g1).2.2.2 k ds n u := by
  let w : World K ℝ := ⟨fun k' => if k' = k0 then p0 else p1, opt⟩
  show NullOn (World.optimizeM ⟨[k0, k1], [g0, g1], -1⟩ w).2.opt k ds n u
  unfold World.optimizeM
  rw [if_neg (by simp)]
  rcases hu : (w.begin (-1)).updateTensors (-1) ([k0, k1].zip [g0, g1]) with e | w'
  · exact hq
  · refine (updateTensors_null (f := fun _ => 0) _ hu (begin_nullOn hq)).1 ?_
    intro p hp
    simp only [List.zip_cons_cons, List.zip_nil_right, List.mem_cons, List.not_mem_nil, or_false] at hp
    rcases hp with rfl | rfl
    · exact h0.symm
    · exact h1.symm

theorem optimizePair_null {k0 k1 : K} (hk : k0 ≠ k1) {ds : List Nat} {n : Nat} {u : List Nat → ℝ} (opt : Optimizer K ℝ) {p0 : Tensor ℝ}
    (p1 : Tensor ℝ) {g0 : Tensor ℝ} (g1 : Tensor ℝ) {f : List Nat → ℝ} (hq : NullOn opt k0 ds n u) (hp : Along ds n u f p0)
    (hg : ∃ γ, g0 = ofFn [ds.prod, n] γ ∧ ∀ c < n, along ds u (column ds γ c) = 0) :
    NullOn (Layer.optimizePair k0 k1 opt p0 p1 g0 g1).2.2.2 k0 ds n u ∧ Along ds n u f (Layer.optimizePair k0 k1 opt p0 p1 g0 g1).2.1 := by
  let w : World K ℝ := ⟨fun k' => if k' = k0 then p0 else p1, opt⟩
  have hp' : Along ds n u f (w.mem k0) := by
    simp only [w, if_true]
    exact hp
  show NullOn (World.optimizeM ⟨[k0, k1], [g0, g1], -1⟩ w).2.opt k0 ds n u ∧ Along ds n u f ((World.optimizeM ⟨[k0, k1], [g0, g1], -1⟩ w).2.mem k0)
  unfold World.optimizeM
  rw [if_neg (by simp)]
  rcases hu : (w.begin (-1)).updateTensors (-1) ([k0, k1].zip [g0, g1]) with e | w'
  · exact ⟨hq, hp'⟩
  · refine (updateTensors_null _ hu (begin_nullOn hq)).2 (by rw [begin_mem']; exact hp') ?_
    intro p hp he
    simp only [List.zip_cons_cons, List.zip_nil_right, List.mem_cons, List.not_mem_nil, or_false] at hp
    rcases hp with rfl | rfl
    · exact hg
    · exact (hk he.symm).elim

end

/-! ### The layers -/

theorem layer_update_otherNull {i : Nat} {key : Nat × Bool} {ds : List Nat} {n : Nat} {u : List Nat → ℝ} (hk : key.1 ≠ i) (l : Layer ℝ)
    (opt : Optimizer (Nat × Bool) ℝ) (hq : NullOn opt key ds n u) : NullOn (Layer.updateWeights (i, false) (i, true) (l, opt)).2.2 key ds n u := by
  have k0 : key ≠ (i, false) := fun h => hk (by rw [h])
  have k1 : key ≠ (i, true) := fun h => hk (by rw [h])
  rcases hp : params l with _ | p
  · have hn : ¬ Trainable l := by rw [params_trainable, hp]; rintro ⟨p, h⟩; cases h
    rw [C56_layer_other (i, false) (i, true) l opt hn]
    exact hq
  · rcases hg : grads l with _ | g
    · rw [C56_layer_missing (i, false) (i, true) l opt ((params_trainable l).2 ⟨p, hp⟩) (by rw [grads_iff, hg]; rintro ⟨g, h⟩; cases h)]
      exact hq
    · rw [(C56_layer_values (i, false) (i, true) l opt p g hp hg).2.2]
      exact optimizePair_otherNull k0 k1 opt _ _ _ _ hq

theorem updateLayers_otherNull : ∀ (ls : List (Layer ℝ)) (i : Nat) (opt : Optimizer (Nat × Bool) ℝ) (key : Nat × Bool) (ds : List Nat)
    (n : Nat) (u : List Nat → ℝ), key.1 < i → NullOn opt key ds n u → NullOn (updateLayers i ls opt).2.2 key ds n u := by
  intro ls
  induction ls with
  | nil => intro i opt key ds n w _ h; exact h
  | cons a ls ih =>
    intro i opt key ds n w hi h
    unfold updateLayers
    have h1 := layer_update_otherNull (key := key) (i := i) (by omega) a opt h
    rcases hu : Layer.updateWeights (i, false) (i, true) (a, opt) with ⟨e | o, a', opt'⟩
    · rw [hu] at h1
      exact h1
    · rw [hu] at h1
      exact ih (i + 1) opt' key ds n w (by omega) h1

theorem fc_update_null {c : FC ℝ} {mode : Bool} {wg bg : Tensor ℝ} (hw : c.weightGradients = some wg) (hb : c.biasGradients = some bg) {ds : List Nat} {n : Nat}
    {u f : List Nat → ℝ} (hg : ∃ γ, wg = ofFn [ds.prod, n] γ ∧ ∀ c < n, along ds u (column ds γ c) = 0) (hf : Along ds n u f c.weights) (i : Nat)
    (opt : Optimizer (Nat × Bool) ℝ) (q0 : NullOn opt (i, false) ds n u) :
    (∃ c', (Layer.updateWeights (i, false) (i, true) ((⟨.fc c, mode⟩ : Layer ℝ), opt)).2.1 = ⟨.fc c', mode⟩ ∧ Along ds n u f c'.weights) ∧
      NullOn (Layer.updateWeights (i, false) (i, true) ((⟨.fc c, mode⟩ : Layer ℝ), opt)).2.2 (i, false) ds n u := by
  unfold Layer.updateWeights
  dsimp only
  rw [hw, hb]
  obtain ⟨r0, s0⟩ := optimizePair_null (by simp : ((i, false) : Nat × Bool) ≠ (i, true)) opt c.biases bg q0 hf hg
  exact ⟨⟨_, rfl, s0⟩, r0⟩

/-- `updateWeights` of a model and the weights of the dense layer number `p`. -/
theorem updateLayers_null {wg bg : Tensor ℝ} {c : FC ℝ} {mode : Bool} (hw : c.weightGradients = some wg) (hb : c.biasGradients = some bg) {ds : List Nat} {n : Nat}
    {u f : List Nat → ℝ} (hg : ∃ γ, wg = ofFn [ds.prod, n] γ ∧ ∀ c < n, along ds u (column ds γ c) = 0) (hf : Along ds n u f c.weights) :
    ∀ (ls : List (Layer ℝ)) (i p : Nat) (opt : Optimizer (Nat × Bool) ℝ), ls[p]? = some ⟨.fc c, mode⟩ → NullOn opt (i + p, false) ds n u →
    (∃ c', ((updateLayers i ls opt).2.1[p]? = some ⟨.fc c', mode⟩) ∧ Along ds n u f c'.weights) ∧ NullOn (updateLayers i ls opt).2.2 (i + p, false) ds n u := by
  intro ls
  induction ls with
  | nil => intro i p opt h; cases h
  | cons a ls ih =>
    intro i p opt h q0
    unfold updateLayers
    cases p with
    | zero =>
      simp only [List.getElem?_cons_zero, Option.some.injEq] at h
      subst h
      obtain ⟨⟨c', e, s0⟩, r0⟩ := fc_update_null (mode := mode) hw hb hg hf i opt q0
      rcases hu : Layer.updateWeights (i, false) (i, true) ((⟨.fc c, mode⟩ : Layer ℝ), opt) with ⟨e' | o, a', opt'⟩
      · rw [hu] at e r0
        simp only at e
        subst e
        exact ⟨⟨c', rfl, s0⟩, r0⟩
      · rw [hu] at e r0
        simp only at e
        subst e
        exact ⟨⟨c', rfl, s0⟩, updateLayers_otherNull ls (i + 1) opt' _ _ _ _ (by simp) r0⟩
    | succ p =>
      have h0 := layer_update_otherNull (key := (i + (p + 1), false)) (i := i) (by simp) a opt q0
      rcases hu : Layer.updateWeights (i, false) (i, true) (a, opt) with ⟨e | o, a', opt'⟩
      · rw [hu] at h0
        exact ⟨⟨c, h, hf⟩, h0⟩
      · rw [hu] at h0
        have := ih (i + 1) p opt' h (by rw [show i + 1 + p = i + (p + 1) by omega]; exact h0)
        rw [show i + 1 + p = i + (p + 1) by omega] at this
        exact this

/-- The first dense layer is layer number `p`, and its weights are along `u` as those in `w`. -/
def Unseen (b h p : Nat) (ds es : List Nat) (m : Bool) (u w : List Nat → ℝ) (net : Net ρ ℝ) : Prop :=
  WellShaped net (b :: ds) es ∧ (∃ (pre : List (Layer ℝ)) (l : FC ℝ) (rest : List (Layer ℝ)) (w' bias' : List Nat → ℝ),
    net.layers = pre ++ ⟨.fc l, m⟩ :: rest ∧ Front pre ∧ pre.length = p ∧ l.weights = ofFn [ds.prod, h] w' ∧ l.biases = ofFn [1, h] bias' ∧
    ∀ c < h, along ds u (column ds w' c) = along ds u (column ds w c)) ∧
  ∀ opt, net.optimizer = some opt → NullOn opt (p, false) ds h u

theorem unseen_step {b h p : Nat} {ds es : List Nat} {m : Bool} {v w : List Nat → ℝ} (E : Engine ρ ℝ)
    {net net' : Net ρ ℝ} (hA : Unseen b h p ds es m v w net) {x t : List Nat → ℝ} (hx : ∀ i < b, along ds v (fun idx => x (i :: idx)) = 0) {loss : ℝ}
    (hst : StepOk E (ofFn (b :: ds) x) (ofFn es t) net net' loss) (hwell' : WellShaped net' (b :: ds) es) : Unseen b h p ds es m v w net' := by
  obtain ⟨hwell, ⟨pre, l, rest, w', bias', hl, hf, hp, hlw, hlb, hw⟩, hq⟩ := hA
  obtain ⟨hc, ⟨L, hL, hfit⟩, opt, ho, hr⟩ := hwell
  have hc1 := hc
  rw [hl] at hc1
  obtain ⟨d1, d2, d3, -, -⟩ := silent_chain_dense (front_chain (ρ := ρ) hf hc1 hlw).1 hlw
  obtain ⟨X, y, pre', ls', r', x1, x2, x3, x4, x5⟩ := unlit_predict E hl hf hlw hlb hc x
  have hX : ∀ i < b, along ds v (fun idx => X [i, ravel ds idx]) = 0 := fun i hi => by
    rw [← hx i hi]
    exact along_congr fun idx hv => x1 idx hv i hi
  obtain ⟨v0, g, l1, l2⟩ := loss_ok hfit y t
  obtain ⟨ls'', pre'', z, u, y1, y2, y3⟩ := x5 g
  obtain ⟨pred, n1, L', g', g2, n2, s1, s2, s3, s4, s5, s6⟩ := hst
  rw [x4] at s1
  simp only [Prod.mk.injEq, Except.ok.injEq] at s1
  obtain ⟨rfl, rfl⟩ := s1
  simp only at s2
  rw [hL] at s2
  cases s2
  rw [l2] at s4
  cases s4
  rw [y3] at s5
  simp only [Prod.mk.injEq, Except.ok.injEq] at s5
  obtain ⟨rfl, hn2⟩ := s5
  have ho2 : n2.optimizer = some opt := by rw [← hn2]; exact ho
  rw [net_updateWeights_eq n2 opt ho2, ← hn2] at s6
  simp only [Prod.mk.injEq] at s6
  have u1 := (congrArg Net.layers s6.2).symm
  have u2 := (congrArg Net.optimizer s6.2).symm
  simp only at u1 u2
  have q0 := hq opt ho
  set c : FC ℝ := { l with
    input := some (ofFn [b, ds.prod] X)
    weightGradients := some (ofFn [ds.prod, h] fun i => ∑ q ∈ Finset.range b, X [q, i.getD 0 0] * z [q, i.getD 1 0])
    biasGradients := some (ofFn [1, h] fun i => ∑ q ∈ Finset.range b, z [q, i.getD 1 0]) } with hcdef
  have hat : (pre'' ++ ⟨.fc c, m⟩ :: ls'')[p]? = some ⟨.fc c, m⟩ := by
    rw [List.getElem?_append_right (by omega), y2, hp]
    simp
  obtain ⟨⟨c', e1, e2⟩, e4⟩ := updateLayers_null (u := v) (f := w) (ds := ds) (n := h) (c := c) (mode := m) rfl rfl
    ⟨_, rfl, fun j _ => by
      have e : column ds (fun i => ∑ q ∈ Finset.range b, X [q, i.getD 0 0] * z [q, i.getD 1 0]) j =
        fun idx => ∑ q ∈ Finset.range b, (fun q idx => X [q, ravel ds idx]) q idx * z [q, j] := by
          funext idx
          simp [column]
      rw [e, along_sum ds v b (fun q idx => X [q, ravel ds idx]) fun q => z [q, j]]
      exact Finset.sum_eq_zero fun q hq' => by rw [hX q (Finset.mem_range.1 hq'), zero_mul]⟩
    ⟨w', hlw, hw⟩ _ 0 p opt hat (by rwa [zero_add])
  rw [zero_add] at e4
  refine ⟨hwell', ?_, ?_⟩
  · rw [u1]
    obtain ⟨R, hR, hup⟩ := front_updated y1 (updateLayers_changes (pre'' ++ ⟨.fc c, m⟩ :: ls'') 0 opt)
    rw [hR] at e1 ⊢
    rcases R with _ | ⟨p0, R⟩
    · cases hup
    obtain ⟨v3, hup⟩ := List.forall₂_cons.1 hup
    obtain ⟨k', w2, b2, rfl, k1, k2⟩ := updated_fc v3 hlw hlb d2 (dims_bias d3)
    rw [List.getElem?_append_right (by omega), y2, hp] at e1
    simp only [Nat.sub_self, List.getElem?_cons_zero, Option.some.injEq, Layer.mk.injEq, LayerKind.fc.injEq, and_true] at e1
    subst e1
    obtain ⟨w3, k3, k4⟩ := e2
    exact ⟨pre'', k', R, w3, b2, rfl, y1, y2.trans hp, k3, k2, k4⟩
  · intro o' ho'
    rw [u2] at ho'
    cases ho'
    exact e4

section
variable {b h p : Nat} {ds es : List Nat} {m : Bool} {v w : List Nat → ℝ}

theorem unseen_steps (E : Engine ρ ℝ) {ps : List (Tensor ℝ × Tensor ℝ)}
    (hp : ∀ q ∈ ps, (∃ f, q.1 = ofFn (b :: ds) f ∧ ∀ i < b, along ds v (fun idx => f (i :: idx)) = 0) ∧ HasDims es q.2) {net net' : Net ρ ℝ} {losses : List ℝ}
    (hs : Steps E ps net net' losses) (hA : Unseen b h p ds es m v w net) : Unseen b h p ds es m v w net' := by
  induction hs with
  | nil => exact hA
  | @cons x y ps net net1 net2 loss vs h1 _ ih =>
    obtain ⟨⟨f, rfl, hf⟩, ⟨t, rfl⟩⟩ := hp _ List.mem_cons_self
    refine ih (fun q hq => hp q (List.mem_cons_of_mem _ hq)) ?_
    obtain ⟨net1', v', s1, s2⟩ := C67_step E net hA.1 _ _ ⟨f, rfl⟩ ⟨t, rfl⟩
    have : net1' = net1 := stepOk_unique s1 h1
    exact unseen_step E hA hf h1 (this ▸ s2)

theorem unseen_epochs (E : Engine ρ ℝ) {ps : List (Tensor ℝ × Tensor ℝ)}
    (hp : ∀ q ∈ ps, (∃ f, q.1 = ofFn (b :: ds) f ∧ ∀ i < b, along ds v (fun idx => f (i :: idx)) = 0) ∧ HasDims es q.2) {k : Nat} {net net' : Net ρ ℝ} {rs : List (Tensor ℝ)}
    (hs : Epochs E ps k net net' rs) (hA : Unseen b h p ds es m v w net) : Unseen b h p ds es m v w net' := by
  induction hs with
  | zero => exact hA
  | succ h1 _ ih => exact ih (unseen_steps E hp h1 hA)

theorem unseen_use (E : Engine ρ ℝ) {net : Net ρ ℝ} (u : Use) (hu : u.OrthogonalTo b ds es v)
    (hA : Unseen b h p ds es m v w net) : Unseen b h p ds es m v w (u.apply E net) := by
  cases u with
  | train xs ys k =>
    obtain ⟨h1, h2, h3, h4⟩ := hu
    obtain ⟨net', rs, t1, -, -⟩ := C67_train E net hA.1 xs ys k h1 h2 (fun x hx => by obtain ⟨f, rfl, -⟩ := h3 x hx; exact ⟨f, rfl⟩) h4
    have e : Use.apply E net (.train xs ys k) = net' := congrArg (fun q => q.2.1) t1
    rw [e]
    have hn : (xs.length : ℝ) ≠ 0 := by
      rw [Ne, Nat.cast_eq_zero, List.length_eq_zero_iff]
      exact h1
    exact unseen_epochs E (fun q hq => ⟨h3 _ (List.of_mem_zip hq).1, h4 _ (List.of_mem_zip hq).2⟩)
      ((C55_train E xs ys k net net' rs h2 hn).1 t1) hA
  | predict x =>
    obtain ⟨f, rfl⟩ := hu
    obtain ⟨y, net', p1, -, p3⟩ := C67_predict E net hA.1 (ofFn (b :: ds) f) ⟨f, rfl⟩
    have e : Use.apply E net (.predict (ofFn (b :: ds) f)) = net' := congrArg Prod.snd p1
    rw [e]
    obtain ⟨hwell, ⟨pre, l, rest, w', bias', hl, hf, hpl, hlw, hlb, hw⟩, hq⟩ := hA
    obtain ⟨X, y, pre', ls', r', x1, x2, x3, x4, -⟩ := unlit_predict E hl hf hlw hlb hwell.1 f
    rw [x4] at p1
    simp only [Prod.mk.injEq] at p1
    obtain ⟨-, rfl⟩ := p1
    exact ⟨p3, ⟨pre', _, ls', w', bias', rfl, x2, x3.trans hpl, hlw, hlb, hw⟩, hq⟩
  | _ => exact hu.elim

theorem unseen_after (E : Engine ρ ℝ) : ∀ (us : List Use) {net : Net ρ ℝ},
    (∀ u ∈ us, u.OrthogonalTo b ds es v) → Unseen b h p ds es m v w net → Unseen b h p ds es m v w (after E us net) := by
  intro us
  induction us with
  | nil => intro net _ h; exact h
  | cons u us ih =>
    intro net hu h
    exact ih (fun v hv => hu v (List.mem_cons_of_mem _ hv)) (unseen_use E u (hu u List.mem_cons_self) h)

end

/-- One training step of one dense layer, whatever the optimizer does. -/
theorem single_first {b n k : Nat} (hx : Dims [b, n]) (hw : Dims [n, k]) (hd : Dims [b, k]) (w bias x t : List Nat → ℝ) (rng : ρ) (E : Engine ρ ℝ)
    (opt opt' : Optimizer (Nat × Bool) ℝ) (W B : Tensor ℝ) (g : List Nat → ℝ) (hg : g = fun i => (affine n w bias x i - t i) * 2 / (([b, k].prod : Nat) : ℝ))
    (ho : Layer.optimizePair (0, false) (0, true) opt (ofFn [n, k] w) (ofFn [1, k] bias)
      (ofFn [n, k] fun idx => ∑ i ∈ Finset.range b, x [i, idx.getD 0 0] * g [i, idx.getD 1 0])
      (ofFn [1, k] fun idx => ∑ i ∈ Finset.range b, g [i, idx.getD 1 0]) = (.ok (), W, B, opt')) :
    ∃ net' rs l', trainCall E [ofFn [b, n] x] [ofFn [b, k] t] 1 ((single n k w bias rng).compile .mse opt) = (.ok (), net', rs) ∧
      net'.layers = [⟨.fc l', true⟩] ∧ l'.weights = W := by
  let l : FC ℝ := { weights := ofFn [n, k] w, biases := ofFn [1, k] bias }
  have hb := fc_backprop hx hw hd w bias x g l rfl rfl
  set l2 : FC ℝ := { l with
    input := some (ofFn [b, n] x)
    weightGradients := some (ofFn [n, k] fun idx => ∑ i ∈ Finset.range b, x [i, idx.getD 0 0] * g [i, idx.getD 1 0])
    biasGradients := some (ofFn [1, k] fun idx => ∑ i ∈ Finset.range b, g [i, idx.getD 1 0]) } with hl2
  have hu : Layer.updateWeights (0, false) (0, true) ((⟨.fc l2, true⟩ : Layer ℝ), opt) = (.ok (), ⟨.fc { l2 with weights := W, biases := B }, true⟩, opt') := by
    unfold Layer.updateWeights
    dsimp only
    rw [show l2.weightGradients = some _ from rfl, show l2.biasGradients = some _ from rfl]
    dsimp only
    rw [show l2.weights = ofFn [n, k] w from rfl, show l2.biases = ofFn [1, k] bias from rfl, ho]
  have hs : StepOk E (ofFn [b, n] x) (ofFn [b, k] t) ((single n k w bias rng).compile .mse opt)
      ⟨[⟨.fc { l2 with weights := W, biases := B }, true⟩], some .mse, some opt', rng⟩ (mse [b, k] (affine n w bias x) t) := by
    refine ⟨ofFn [b, k] (affine n w bias x), ⟨[⟨.fc { l with input := some (ofFn [b, n] x) }, true⟩], some .mse, some opt, rng⟩, .mse, _,
      ofFn [b, n] fun idx => ∑ j ∈ Finset.range k, g [idx.getD 0 0, j] * w [idx.getD 1 0, j], ⟨[⟨.fc l2, true⟩], some .mse, some opt, rng⟩, ?_, rfl, C29_compute hd _ t, mse_gradient_ofFn hd _ t, ?_, ?_⟩
    · unfold predict
      simp only [Net.compile, single, forwardLayers, Layer.forward, Layer.onKind]
      rw [C37_batch hd w bias x _ rfl rfl]
    · rw [← hg]
      unfold backward
      simp only [backwardLayers, Layer.backward, Layer.onKind]
      rw [hb]
    · rw [net_updateWeights_eq _ _ rfl]
      simp only [updateLayers, hu]
  have h := Epochs.succ (E := E) (Steps.cons (E := E) (ps := []) hs (.nil _)) (.zero _)
  exact ⟨_, _, _, (C55_train E _ _ 1 _ _ _ (by simp) (by simp)).2 h, rfl, rfl⟩


theorem rms_first {K : Type} [DecidableEq K] {k0 k1 : K} (hk : k0 ≠ k1) (o : RMSPropOptions ℝ) (d0 d1 : List Nat) (w b g h : List Nat → ℝ) : ∃ B opt',
    Layer.optimizePair k0 k1 (.newRMSProp o) (ofFn d0 w) (ofFn d1 b) (ofFn d0 g) (ofFn d1 h) =
      (.ok (), ofFn d0 fun i => (rmsCell o o.learningRate (g i) (w i, 0, 0, 0)).1, B, opt') := by
  have hlr : currentLR o.learningRate (-1) = o.learningRate := by simp [currentLR]
  have h1 : ¬ k1 = k0 := fun h => hk h.symm
  unfold Layer.optimizePair World.optimizeM
  rw [if_neg (by simp)]
  by_cases hc : o.centered = true <;> by_cases hm : 0 < o.momentum <;>
  simp only [updateTensors_eq, List.zip_cons_cons, List.zip_nil_left, List.foldlM_cons, List.foldlM_nil, World.begin, Optimizer.newRMSProp, stepPair,
    RMSProp.updateTensor, if_true, hlr, ofFn_shape, lookupOrZero, full_shapeOf, rms_loop_ofFn, Except.bind_ok', Except.pure_eq', assign, h1, if_false, hk,
    hc, hm, Bool.false_eq_true] <;>
  refine ⟨_, _, rfl⟩

theorem adam_first {K : Type} [DecidableEq K] {k0 k1 : K} (hk : k0 ≠ k1) (o : AdamOptions ℝ) (d0 d1 : List Nat) (w b g h : List Nat → ℝ) : ∃ B opt',
    Layer.optimizePair k0 k1 (.newAdam o) (ofFn d0 w) (ofFn d1 b) (ofFn d0 g) (ofFn d1 h) =
      (.ok (), ofFn d0 fun i => (adamCell o (o.learningRate * (if 0 < o.decay then 1 / (1 + o.decay * ((0 + 1 : Nat) : ℝ)) else 1)) (0 + 1) (g i) (w i, 0, 0)).1,
        B, opt') := by
  have h1 : ¬ k1 = k0 := fun h => hk h.symm
  have hn : (-1 : ℝ) ≤ 0 := by norm_num
  unfold Layer.optimizePair World.optimizeM
  rw [if_neg (by simp)]
  simp only [updateTensors_eq, List.zip_cons_cons, List.zip_nil_left, List.foldlM_cons, List.foldlM_nil, World.begin, Optimizer.newAdam, stepPair,
    Adam.updateTensor, Adam.updateLearningRate, hn, if_true, ofFn_shape, lookupOrZero, full_shapeOf, adam_loop_ofFn, Except.bind_ok', Except.pure_eq', assign, h1,
    if_false, hk]
  refine ⟨_, _, rfl⟩


theorem two_orthogonal (e : Int) : (Use.train [ofFn [1, 2] oneTwo] [ofFn [1, 1] fun _ => -1 / 2] e).OrthogonalTo 1 [2] [1, 1] twoMinus := by
  refine ⟨by simp, by simp, ?_, ?_⟩
  · intro x hx
    rw [List.mem_singleton] at hx
    refine ⟨oneTwo, hx, fun i hi => ?_⟩
    simp [along, indices, oneTwo, twoMinus, List.range_succ]
  · intro y hy
    rw [List.mem_singleton] at hy
    exact ⟨_, hy⟩

theorem two_gradient (idx : List Nat) : (∑ i ∈ Finset.range 1, oneTwo [i, idx.getD 0 0] *
    (fun i => (affine 2 (fun _ => (0 : ℝ)) (fun _ => 0) oneTwo i - (fun _ => -1 / 2 : List Nat → ℝ) i) * 2 / (([1, 1].prod : Nat) : ℝ)) [i, idx.getD 1 0]) =
    if idx.getD 0 0 = 0 then 1 else 2 := by
  simp [affine, oneTwo]

theorem two_along (f : List Nat → ℝ) : along [2] twoMinus (fun idx => f [ravel [2] idx, 0]) = 2 * f [0, 0] - f [1, 0] := by
  simp [along, indices, twoMinus, List.range_succ, ravel]
  ring

end SmartDNN
