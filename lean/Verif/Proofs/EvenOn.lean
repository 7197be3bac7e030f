import Verif.Proofs.Unlit
import Verif.Props.Renamed

/-!
# Parameters with gradients that are always equal (for C117)
-/

namespace SmartDNN
open Net Spec

/-- Every tensor remembered at `k` has the dimensions `ds` and equal elements at positions related by `P`. -/
def EvenMap {K : Type} (M : TMap K ℝ) (k : K) (ds : List Nat) (P : List Nat → List Nat → Prop) : Prop :=
  ∀ t, M k = some t → ∃ f, t = ofFn ds f ∧ ∀ i j, P i j → f i = f j

/-- The optimizer neither decays nor regularises weights, and everything it remembers for the tensor at `k` is equal at positions related by `P`. -/
def EvenOn {K : Type} (opt : Optimizer K ℝ) (k : K) (ds : List Nat) (P : List Nat → List Nat → Prop) : Prop :=
  match opt with
  | .sgd o => o.opts.weightDecay = 0 ∧ EvenMap o.momentumBuffers k ds P
  | .rmsprop o => o.opts.weightDecay = 0 ∧ EvenMap o.squaredGrads k ds P ∧ EvenMap o.meanGrads k ds P ∧ EvenMap o.velocityBuffers k ds P
  | .adam o => (o.opts.l1Strength ≤ 0 ∧ o.opts.l2Strength ≤ 0) ∧ EvenMap o.m k ds P ∧ EvenMap o.v k ds P

/-- The tensor has dimensions `ds`, and its elements at positions related by `P` differ by as much as in `f`. -/
def Gap (ds : List Nat) (P : List Nat → List Nat → Prop) (f : List Nat → ℝ) (t : Tensor ℝ) : Prop :=
  ∃ f', t = ofFn ds f' ∧ ∀ i j, P i j → f' i - f' j = f i - f j

section
variable {K : Type} [DecidableEq K]

theorem evenMap_assign {M : TMap K ℝ} {k k' : K} {ds : List Nat} {P : List Nat → List Nat → Prop} {t : Tensor ℝ} (h : EvenMap M k ds P)
    (ht : k' = k → ∃ f, t = ofFn ds f ∧ ∀ i j, P i j → f i = f j) : EvenMap (assign M k' (some t)) k ds P := by
  intro u hu
  by_cases hk : k = k'
  · subst hk
    rw [assign_same] at hu
    cases hu
    exact ht rfl
  · rw [assign_ne _ _ hk] at hu
    exact h u hu

theorem even_lookup {M : TMap K ℝ} {k : K} {ds : List Nat} {P : List Nat → List Nat → Prop} (h : EvenMap M k ds P) :
    ∃ f, lookupOrZero M k (shapeOf ds) = ofFn ds f ∧ ∀ i j, P i j → f i = f j := by
  unfold lookupOrZero
  cases e : M k with
  | none => exact ⟨fun _ => 0, full_shapeOf ds 0, fun _ _ _ => rfl⟩
  | some t => exact h t e

/-- One tensor update: what is remembered stays even, and weights with equal gradients move together. -/
theorem stepPair_even {r : ℝ} {w w' : World K ℝ} {p : K × Tensor ℝ} (h : stepPair r w p = .ok w') {k : K} {ds : List Nat} {P : List Nat → List Nat → Prop}
    (hq : EvenOn w.opt k ds P) {f : List Nat → ℝ} (hm : Gap ds P f (w.mem k))
    (hg : p.1 = k → ∃ γ, p.2 = ofFn ds γ ∧ ∀ i j, P i j → γ i = γ j) : EvenOn w'.opt k ds P ∧ Gap ds P f (w'.mem k) := by
  obtain ⟨mem, o⟩ := w
  obtain ⟨k', g⟩ := p
  by_cases hk : k' = k
  · subst hk
    obtain ⟨γ, rfl, hγ⟩ := hg rfl
    obtain ⟨f', hf', hf⟩ := hm
    simp only at hf'
    cases o with
    | sgd o =>
      obtain ⟨hd, hq⟩ := hq
      obtain ⟨a, ha, h⟩ := bind_ok h
      cases h
      obtain ⟨c, hc, ha⟩ := bind_ok ha
      cases ha
      obtain ⟨v, hv, hve⟩ := even_lookup hq
      dsimp only at hc
      rw [hf', ofFn_shape, hv, sgd_loop_ofFn] at hc
      cases hc
      refine ⟨⟨hd, evenMap_assign hq fun _ => ⟨_, rfl, fun i j hij => ?_⟩⟩, ⟨_, assign_same _ _ _, fun i j hij => ?_⟩⟩
      · simp only [sgdCell, hd, ne_eq, not_true_eq_false, if_false, hγ i j hij, hve i j hij]
        split <;> rfl
      · rw [← hf i j hij]
        simp only [sgdCell, hd, ne_eq, not_true_eq_false, if_false, hγ i j hij, hve i j hij]
        split <;> ring
    | rmsprop o =>
      obtain ⟨hd, hq1, hq2, hq3⟩ := hq
      obtain ⟨a, ha, h⟩ := bind_ok h
      cases h
      obtain ⟨c, hc, ha⟩ := bind_ok ha
      cases ha
      obtain ⟨q, hq', hqe⟩ := even_lookup hq1
      obtain ⟨m, hm', hme⟩ := even_lookup hq2
      obtain ⟨v, hv, hve⟩ := even_lookup hq3
      dsimp only at hc
      rw [hf', ofFn_shape, hv, hq', hm', rms_loop_ofFn] at hc
      cases hc
      refine ⟨⟨hd, evenMap_assign hq1 fun _ => ⟨_, rfl, fun i j hij => ?_⟩, ?_, ?_⟩, ⟨_, assign_same _ _ _, fun i j hij => ?_⟩⟩
      · simp only [rmsCell, hd, ne_eq, not_true_eq_false, if_false, hγ i j hij, hve i j hij, hqe i j hij, hme i j hij]
      · dsimp only
        split
        · refine evenMap_assign hq2 fun _ => ⟨_, rfl, fun i j hij => ?_⟩
          simp only [rmsCell, hd, ne_eq, not_true_eq_false, if_false, hγ i j hij, hve i j hij, hqe i j hij, hme i j hij]
        · exact hq2
      · dsimp only
        split
        · refine evenMap_assign hq3 fun _ => ⟨_, rfl, fun i j hij => ?_⟩
          simp only [rmsCell, hd, ne_eq, not_true_eq_false, if_false, hγ i j hij, hve i j hij, hqe i j hij, hme i j hij]
        · exact hq3
      · rw [← hf i j hij]
        simp only [rmsCell, hd, ne_eq, not_true_eq_false, if_false, hγ i j hij, hve i j hij, hqe i j hij, hme i j hij]
        ring
    | adam o =>
      obtain ⟨hd, hq1, hq2⟩ := hq
      obtain ⟨a, ha, h⟩ := bind_ok h
      cases h
      obtain ⟨c, hc, ha⟩ := bind_ok ha
      cases ha
      obtain ⟨m, hm', hme⟩ := even_lookup hq1
      obtain ⟨v, hv, hve⟩ := even_lookup hq2
      dsimp only at hc
      rw [hf', ofFn_shape, hv, hm', adam_loop_ofFn] at hc
      cases hc
      refine ⟨⟨hd, evenMap_assign hq1 fun _ => ⟨_, rfl, fun i j hij => ?_⟩, evenMap_assign hq2 fun _ => ⟨_, rfl, fun i j hij => ?_⟩⟩,
        ⟨_, assign_same _ _ _, fun i j hij => ?_⟩⟩
      · simp only [adamCell, Adam.updateParameter, hγ i j hij, hve i j hij, hme i j hij]
      · simp only [adamCell, Adam.updateParameter, hγ i j hij, hve i j hij, hme i j hij]
      · rw [← hf i j hij]
        simp only [adamCell, Adam.updateParameter, hγ i j hij, hve i j hij, hme i j hij, not_lt.2 hd.1, not_lt.2 hd.2, if_false]
        ring
  · cases o with
    | sgd o =>
      obtain ⟨a, ha, h⟩ := bind_ok h
      cases h
      obtain ⟨c, hc, ha⟩ := bind_ok ha
      cases ha
      refine ⟨⟨hq.1, evenMap_assign hq.2 fun h => absurd h hk⟩, ?_⟩
      simp only [assign_ne_key (Ne.symm hk)]
      exact hm
    | rmsprop o =>
      obtain ⟨hd, hq1, hq2, hq3⟩ := hq
      obtain ⟨a, ha, h⟩ := bind_ok h
      cases h
      obtain ⟨c, hc, ha⟩ := bind_ok ha
      cases ha
      refine ⟨⟨hd, evenMap_assign hq1 fun h => absurd h hk, ?_, ?_⟩, ?_⟩
      · dsimp only
        split
        · exact evenMap_assign hq2 fun h => absurd h hk
        · exact hq2
      · dsimp only
        split
        · exact evenMap_assign hq3 fun h => absurd h hk
        · exact hq3
      · simp only [assign_ne_key (Ne.symm hk)]
        exact hm
    | adam o =>
      obtain ⟨a, ha, h⟩ := bind_ok h
      cases h
      obtain ⟨c, hc, ha⟩ := bind_ok ha
      cases ha
      refine ⟨⟨hq.1, evenMap_assign hq.2.1 fun h => absurd h hk, evenMap_assign hq.2.2 fun h => absurd h hk⟩, ?_⟩
      simp only [assign_ne_key (Ne.symm hk)]
      exact hm

theorem updateTensors_even {r : ℝ} {k : K} {ds : List Nat} {P : List Nat → List Nat → Prop} {f : List Nat → ℝ} (ps : List (K × Tensor ℝ)) : ∀ {w w' : World K ℝ},
    w.updateTensors r ps = .ok w' → EvenOn w.opt k ds P → Gap ds P f (w.mem k) →
    (∀ p ∈ ps, p.1 = k → ∃ γ, p.2 = ofFn ds γ ∧ ∀ i j, P i j → γ i = γ j) → EvenOn w'.opt k ds P ∧ Gap ds P f (w'.mem k) := by
  induction ps with
  | nil => intro w w' h hq hm _; cases h; exact ⟨hq, hm⟩
  | cons p ps ih =>
    intro w w' h hq hm hz
    rw [updateTensors_eq, List.foldlM_cons] at h
    obtain ⟨a, ha, h⟩ := bind_ok h
    obtain ⟨q1, s1⟩ := stepPair_even ha hq hm (hz p (by simp))
    exact ih h q1 s1 fun p hp => hz p (by simp [hp])

theorem begin_evenOn {w : World K ℝ} {r : ℝ} {k : K} {ds : List Nat} {P : List Nat → List Nat → Prop} (h : EvenOn w.opt k ds P) :
    EvenOn (w.begin r).opt k ds P := by
  obtain ⟨mem, o⟩ := w
  cases o <;> exact h

theorem optimizeM_even (c : Call K ℝ) (w : World K ℝ) {k : K} {ds : List Nat} {P : List Nat → List Nat → Prop} {f : List Nat → ℝ} (hq : EvenOn w.opt k ds P)
    (hm : Gap ds P f (w.mem k)) (hz : ∀ p ∈ c.weights.zip c.gradients, p.1 = k → ∃ γ, p.2 = ofFn ds γ ∧ ∀ i j, P i j → γ i = γ j) :
    EvenOn (World.optimizeM c w).2.opt k ds P ∧ Gap ds P f ((World.optimizeM c w).2.mem k) := by
  unfold World.optimizeM
  by_cases h : c.weights.length ≠ c.gradients.length
  · rw [if_pos h]; exact ⟨hq, hm⟩
  · rw [if_neg h]
    rcases hu : (w.begin c.lr).updateTensors c.lr (c.weights.zip c.gradients) with e | w'
    · exact ⟨hq, hm⟩
    · refine updateTensors_even _ hu (begin_evenOn hq) ?_ hz
      rw [begin_mem']
      exact hm

/-- Updating the two parameters at `k0`, `k1` does not disturb what is remembered for other addresses. -/
theorem optimizePair_otherEven {k0 k1 k : K} (h0 : k ≠ k0) (h1 : k ≠ k1) {ds : List Nat} {P : List Nat → List Nat → Prop} (opt : Optimizer K ℝ)
    (p0 p1 g0 g1 : Tensor ℝ) (hq : EvenOn opt k ds P) : EvenOn (Layer.optimizePair k0 k1 opt p0 p1 g0 g1).2.2.2 k ds P := by
  let w : World K ℝ := ⟨fun k' => if k' = k0 then p0 else p1, opt⟩
  unfold Layer.optimizePair
  show EvenOn (World.optimizeM ⟨[k0, k1], [g0, g1], -1⟩ w).2.opt k ds P
  unfold World.optimizeM
  rw [if_neg (by simp)]
  rcases hu : (w.begin (-1)).updateTensors (-1) ([k0, k1].zip [g0, g1]) with e | w'
  · exact hq
  · -- the memory at `k` plays no role: replace it by zeros
    have key : ∀ (ps : List (K × Tensor ℝ)) {u u' : World K ℝ}, u.updateTensors (-1) ps = .ok u' → (∀ p ∈ ps, p.1 ≠ k) → EvenOn u.opt k ds P →
        EvenOn u'.opt k ds P := by
      intro ps
      induction ps with
      | nil => intro u u' h _ hq; cases h; exact hq
      | cons p ps ih =>
        intro u u' h hp hq
        rw [updateTensors_eq, List.foldlM_cons] at h
        obtain ⟨a, ha, h⟩ := bind_ok h
        refine ih h (fun p hp' => hp p (by simp [hp'])) ?_
        have hk := hp p (by simp)
        obtain ⟨mem, o⟩ := u
        obtain ⟨k', g⟩ := p
        cases o with
        | sgd o =>
          obtain ⟨a', ha', h'⟩ := bind_ok ha
          cases h'
          obtain ⟨c, hc, ha'⟩ := bind_ok ha'
          cases ha'
          exact ⟨hq.1, evenMap_assign hq.2 fun h => absurd h hk⟩
        | rmsprop o =>
          obtain ⟨hd, hq1, hq2, hq3⟩ := hq
          obtain ⟨a', ha', h'⟩ := bind_ok ha
          cases h'
          obtain ⟨c, hc, ha'⟩ := bind_ok ha'
          cases ha'
          refine ⟨hd, evenMap_assign hq1 fun h => absurd h hk, ?_, ?_⟩
          · dsimp only
            split
            · exact evenMap_assign hq2 fun h => absurd h hk
            · exact hq2
          · dsimp only
            split
            · exact evenMap_assign hq3 fun h => absurd h hk
            · exact hq3
        | adam o =>
          obtain ⟨a', ha', h'⟩ := bind_ok ha
          cases h'
          obtain ⟨c, hc, ha'⟩ := bind_ok ha'
          cases ha'
          exact ⟨hq.1, evenMap_assign hq.2.1 fun h => absurd h hk, evenMap_assign hq.2.2 fun h => absurd h hk⟩
    refine key _ hu ?_ (begin_evenOn hq)
    intro p hp
    simp only [List.zip_cons_cons, List.zip_nil_right, List.mem_cons, List.not_mem_nil, or_false] at hp
    rcases hp with rfl | rfl
    · exact h0.symm
    · exact h1.symm

theorem optimizePair_even {k0 k1 : K} (hk : k0 ≠ k1) {ds : List Nat} {P : List Nat → List Nat → Prop} (opt : Optimizer K ℝ) {p0 : Tensor ℝ}
    (p1 : Tensor ℝ) {g0 : Tensor ℝ} (g1 : Tensor ℝ) {f : List Nat → ℝ} (hq : EvenOn opt k0 ds P) (hp : Gap ds P f p0)
    (hg : ∃ γ, g0 = ofFn ds γ ∧ ∀ i j, P i j → γ i = γ j) :
    EvenOn (Layer.optimizePair k0 k1 opt p0 p1 g0 g1).2.2.2 k0 ds P ∧ Gap ds P f (Layer.optimizePair k0 k1 opt p0 p1 g0 g1).2.1 := by
  refine optimizeM_even ⟨[k0, k1], [g0, g1], -1⟩ (⟨fun k => if k = k0 then p0 else p1, opt⟩ : World K ℝ) hq ?_ ?_
  · simp only [if_true]
    exact hp
  · intro p hp he
    simp only [List.zip_cons_cons, List.zip_nil_right, List.mem_cons, List.not_mem_nil, or_false] at hp
    rcases hp with rfl | rfl
    · exact hg
    · exact (hk he.symm).elim

end

/-! ### The layers -/

theorem layer_update_otherEven {i : Nat} {key : Nat × Bool} {ds : List Nat} {P : List Nat → List Nat → Prop} (hk : key.1 ≠ i) (l : Layer ℝ)
    (opt : Optimizer (Nat × Bool) ℝ) (hq : EvenOn opt key ds P) : EvenOn (Layer.updateWeights (i, false) (i, true) (l, opt)).2.2 key ds P := by
  have k0 : key ≠ (i, false) := fun h => hk (by rw [h])
  have k1 : key ≠ (i, true) := fun h => hk (by rw [h])
  rcases hp : params l with _ | p
  · have hn : ¬ Trainable l := by rw [params_trainable, hp]; rintro ⟨p, h⟩; cases h
    rw [C56_layer_other (i, false) (i, true) l opt hn]
    exact hq
  · rcases hg : grads l with _ | g
    · rw [C56_layer_missing (i, false) (i, true) l opt ((params_trainable l).2 ⟨p, hp⟩) (by rw [grads_iff, hg]; rintro ⟨g, h⟩; cases h)]
      exact hq
    · rw [(C56_layer_values (i, false) (i, true) l opt p g hp hg).2.2]
      exact optimizePair_otherEven k0 k1 opt _ _ _ _ hq

theorem updateLayers_otherEven : ∀ (ls : List (Layer ℝ)) (i : Nat) (opt : Optimizer (Nat × Bool) ℝ) (key : Nat × Bool) (ds : List Nat)
    (P : List Nat → List Nat → Prop), key.1 < i → EvenOn opt key ds P → EvenOn (updateLayers i ls opt).2.2 key ds P := by
  intro ls
  induction ls with
  | nil => intro i opt key ds P _ h; exact h
  | cons a ls ih =>
    intro i opt key ds P hi h
    unfold updateLayers
    have h1 := layer_update_otherEven (key := key) (i := i) (by omega) a opt h
    rcases hu : Layer.updateWeights (i, false) (i, true) (a, opt) with ⟨e | u, a', opt'⟩
    · rw [hu] at h1
      exact h1
    · rw [hu] at h1
      exact ih (i + 1) opt' key ds P (by omega) h1

theorem fc_update_even {c : FC ℝ} {mode : Bool} {wg bg : Tensor ℝ} (hw : c.weightGradients = some wg) (hb : c.biasGradients = some bg) {ds : List Nat}
    {P : List Nat → List Nat → Prop} {f : List Nat → ℝ} (hg : ∃ γ, wg = ofFn ds γ ∧ ∀ i j, P i j → γ i = γ j) (hf : Gap ds P f c.weights) (i : Nat)
    (opt : Optimizer (Nat × Bool) ℝ) (q0 : EvenOn opt (i, false) ds P) :
    (∃ c', (Layer.updateWeights (i, false) (i, true) ((⟨.fc c, mode⟩ : Layer ℝ), opt)).2.1 = ⟨.fc c', mode⟩ ∧ Gap ds P f c'.weights) ∧
      EvenOn (Layer.updateWeights (i, false) (i, true) ((⟨.fc c, mode⟩ : Layer ℝ), opt)).2.2 (i, false) ds P := by
  unfold Layer.updateWeights
  dsimp only
  rw [hw, hb]
  obtain ⟨r0, s0⟩ := optimizePair_even (by simp : ((i, false) : Nat × Bool) ≠ (i, true)) opt c.biases bg q0 hf hg
  exact ⟨⟨_, rfl, s0⟩, r0⟩

/-- `updateWeights` of a model and the parameters with equal gradients of the dense layer number `p`. -/
theorem updateLayers_even {wg bg : Tensor ℝ} {c : FC ℝ} {mode : Bool} (hw : c.weightGradients = some wg) (hb : c.biasGradients = some bg) {ds : List Nat}
    {P : List Nat → List Nat → Prop} {f : List Nat → ℝ} (hg : ∃ γ, wg = ofFn ds γ ∧ ∀ i j, P i j → γ i = γ j) (hf : Gap ds P f c.weights) :
    ∀ (ls : List (Layer ℝ)) (i p : Nat) (opt : Optimizer (Nat × Bool) ℝ), ls[p]? = some ⟨.fc c, mode⟩ → EvenOn opt (i + p, false) ds P →
    (∃ c', ((updateLayers i ls opt).2.1[p]? = some ⟨.fc c', mode⟩) ∧ Gap ds P f c'.weights) ∧ EvenOn (updateLayers i ls opt).2.2 (i + p, false) ds P := by
  intro ls
  induction ls with
  | nil => intro i p opt h; cases h
  | cons a ls ih =>
    intro i p opt h q0
    unfold updateLayers
    cases p with
    | zero =>
      simp only [List.getElem?_cons_zero, Option.some.injEq] at h
      subst h
      obtain ⟨⟨c', e, s0⟩, r0⟩ := fc_update_even (mode := mode) hw hb hg hf i opt q0
      rcases hu : Layer.updateWeights (i, false) (i, true) ((⟨.fc c, mode⟩ : Layer ℝ), opt) with ⟨e' | u, a', opt'⟩
      · rw [hu] at e r0
        simp only at e
        subst e
        exact ⟨⟨c', rfl, s0⟩, r0⟩
      · rw [hu] at e r0
        simp only at e
        subst e
        exact ⟨⟨c', rfl, s0⟩, updateLayers_otherEven ls (i + 1) opt' _ _ _ (by simp) r0⟩
    | succ p =>
      have h0 := layer_update_otherEven (key := (i + (p + 1), false)) (i := i) (by simp) a opt q0
      rcases hu : Layer.updateWeights (i, false) (i, true) (a, opt) with ⟨e | u, a', opt'⟩
      · rw [hu] at h0
        exact ⟨⟨c, h, hf⟩, h0⟩
      · rw [hu] at h0
        have := ih (i + 1) p opt' h (by rw [show i + 1 + p = i + (p + 1) by omega]; exact h0)
        rw [show i + 1 + p = i + (p + 1) by omega] at this
        exact this

theorem evenOn_fresh {K : Type} {opt : Optimizer K ℝ} (h : Unregularised opt) (key : K) (ds : List Nat) (P : List Nat → List Nat → Prop) : EvenOn opt key ds P := by
  cases h with
  | sgd o h => exact ⟨h, by intro t ht; cases ht⟩
  | rmsprop o h => exact ⟨h, (by intro t ht; cases ht), (by intro t ht; cases ht), (by intro t ht; cases ht)⟩
  | adam o h1 h2 => exact ⟨⟨h1, h2⟩, (by intro t ht; cases ht), (by intro t ht; cases ht)⟩

end SmartDNN
