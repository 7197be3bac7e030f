import Verif.Spec.Decay
import Verif.Proofs.Bounded

/-!
# What weight decay does (lemmas for C107)
-/

namespace SmartDNN
open Net Spec

theorem sgd_decay_loop (o : SGDOptions ℝ) (hm : o.momentum = 0) (ds : List Nat) (w g : List Nat → ℝ) (buf : Tensor ℝ) (lr : ℝ) :
    SGD.loop o (ofFn ds w) buf (ofFn ds g) lr = .ok (ofFn ds (fun i => w i - lr * (g i + o.weightDecay * w i)), buf) := by
  unfold SGD.loop
  rw [ofFn_shape, shapeOf_size]
  refine (forN_pointwise (S := ℝ) (fun s => ((ofFn ds s, buf) : Tensor ℝ × Tensor ℝ)) _
    (fun idx s => s - lr * (g idx + o.weightDecay * s)) w ?_ ?_)
  · intro s s' h
    exact Prod.ext (ofFn_congr fun i hi => by rw [h i hi]) rfl
  · intro idx hv s
    simp only [rdData_ofFn _ hv, Except.bind_ok', setFlat_ofFn _ hv, Except.pure_eq', hm, ne_eq, not_true_eq_false, if_false]
    by_cases hd : o.weightDecay = 0
    · simp only [hd, not_true_eq_false, if_false, zero_mul, add_zero]
    · simp only [hd, not_false_eq_true, if_true]

theorem decay_pair {K : Type} [DecidableEq K] {k0 k1 : K} (hk : k0 ≠ k1) {lr wd : ℝ} {opt : Optimizer K ℝ} (ho : DecaySGD lr wd opt)
    (ds es : List Nat) (w b gw gb : List Nat → ℝ) :
    ∃ opt', Layer.optimizePair k0 k1 opt (ofFn ds w) (ofFn es b) (ofFn ds gw) (ofFn es gb) =
      (.ok (), ofFn ds (fun i => w i - lr * (gw i + wd * w i)), ofFn es (fun i => b i - lr * (gb i + wd * b i)), opt') := by
  obtain ⟨o, rfl, h1, h2, rfl⟩ := ho
  have hlr : currentLR o.opts.learningRate (-1 : ℝ) = lr := by
    unfold currentLR
    rw [if_neg (by norm_num), h1]
  simp only [Layer.optimizePair, World.optimizeM, World.begin, List.length_cons, List.length_nil, ne_eq, not_true_eq_false,
    if_false, List.zip_cons_cons, List.zip_nil_left, updateTensors_eq, List.foldlM_cons, List.foldlM_nil, stepPair,
    SGD.updateTensor, if_true, hlr, sgd_decay_loop o.opts h2, Except.bind_ok', Except.pure_eq', assign, if_neg hk,
    if_neg hk.symm]
  exact ⟨_, rfl⟩

theorem stepPair_decay {K : Type} [DecidableEq K] {lr wd r : ℝ} {w w' : World K ℝ} {p : K × Tensor ℝ} (h : DecaySGD lr wd w.opt)
    (hs : stepPair r w p = .ok w') : DecaySGD lr wd w'.opt := by
  obtain ⟨mem, opt⟩ := w
  obtain ⟨o, ho, h1, h2, h3⟩ := h
  simp only at ho
  subst ho
  unfold stepPair at hs
  obtain ⟨a, ha, hs⟩ := bind_ok hs
  obtain ⟨b, -, ha⟩ := bind_ok ha
  cases ha
  cases hs
  exact ⟨_, rfl, h1, h2, h3⟩

theorem optimizePair_decay {K : Type} [DecidableEq K] {k0 k1 : K} {lr wd : ℝ} {opt : Optimizer K ℝ} (ho : DecaySGD lr wd opt)
    (p0 p1 g0 g1 : Tensor ℝ) : DecaySGD lr wd (Layer.optimizePair k0 k1 opt p0 p1 g0 g1).2.2.2 := by
  unfold Layer.optimizePair World.optimizeM
  rw [if_neg (by simp)]
  have hb : DecaySGD lr wd ((World.mk (fun k => if k = k0 then p0 else p1) opt : World K ℝ).begin (-1)).opt := by
    obtain ⟨o, rfl, h⟩ := ho
    exact ⟨o, rfl, h⟩
  simp only [updateTensors_eq, List.zip_cons_cons, List.zip_nil_left]
  rcases hu : List.foldlM (stepPair (-1)) ((World.mk (fun k => if k = k0 then p0 else p1) opt : World K ℝ).begin (-1))
    [(k0, g0), (k1, g1)] with e | w'
  · exact ho
  · simp only
    rw [List.foldlM_cons] at hu
    obtain ⟨w1, h1, hu⟩ := bind_ok hu
    rw [List.foldlM_cons] at hu
    obtain ⟨w2, h2, hu⟩ := bind_ok hu
    cases hu
    exact stepPair_decay (stepPair_decay hb h1) h2

theorem layer_decay {K : Type} [DecidableEq K] {k0 k1 : K} {lr wd : ℝ} {opt : Optimizer K ℝ} (ho : DecaySGD lr wd opt) (l : Layer ℝ) :
    DecaySGD lr wd (Layer.updateWeights k0 k1 (l, opt)).2.2 := by
  rcases hp : params l with _ | p
  · have hn : ¬ Trainable l := by rw [params_trainable, hp]; rintro ⟨p, h⟩; cases h
    rw [C56_layer_other k0 k1 l opt hn]
    exact ho
  · rcases hg : grads l with _ | g
    · rw [C56_layer_missing k0 k1 l opt ((params_trainable l).2 ⟨p, hp⟩) (by rw [grads_iff, hg]; rintro ⟨g, h⟩; cases h)]
      exact ho
    · rw [(C56_layer_values k0 k1 l opt p g hp hg).2.2]
      exact optimizePair_decay ho _ _ _ _

theorem hasGradient_penalised {ds : List Nat} {L : (List Nat → ℝ) → ℝ} {f r : List Nat → ℝ} (wd : ℝ) (h : HasGradient ds L f r) :
    HasGradient ds (fun x => L x + penalty wd ds x) f fun i => r i + wd * f i := by
  intro c v hc
  have h1 := h c v hc
  have h2 := (hasDerivAt_total (ds := ds) (fun i t => c t i ^ 2) (fun i => 2 * f i * v i) 0 (by
    intro i hi
    have := (hc.2 i hi).fun_pow 2
    rw [hc.1 i hi] at this
    simpa using this)).const_mul (wd / 2)
  refine (h1.add h2).congr_deriv ?_
  rw [← total_mul_left, ← total_add]
  exact total_congr (fun i _ => by ring)

theorem adam_parameter_reach {R : ℝ} {o : AdamOptions ℝ} (h : DecayAdam R o) {rate : ℝ} (hr0 : 0 ≤ rate) (hr1 : rate ≤ o.learningRate)
    {t : Nat} (ht : 1 ≤ t) {w : ℝ} (g : ℝ) {m v : ℝ} (hb : MomentsBound o.beta1 o.beta2 m v) (hw : |w| ≤ R) :
    |(Adam.updateParameter o rate t w g m v (Adam.alphaT o rate t)).1| ≤ R ∧
      MomentsBound o.beta1 o.beta2 (Adam.updateParameter o rate t w g m v (Adam.alphaT o rate t)).2.1
        (Adam.updateParameter o rate t w g m v (Adam.alphaT o rate t)).2.2 := by
  have ht' : TameAdam { o with l2Strength := 0, learningRate := rate } :=
    ⟨hr0, h.tame.2, h.tame.3, h.tame.4, h.tame.5, h.tame.6, h.tame.7, h.tame.8, h.tame.9, h.tame.10, le_rfl⟩
  obtain ⟨b1, b2⟩ := adam_parameter_bound ht' hr0 le_rfl ht w g hb
  refine ⟨?_, b2⟩
  have e : (Adam.updateParameter o rate t w g m v (Adam.alphaT o rate t)).1 =
      (Adam.updateParameter { o with l2Strength := 0, learningRate := rate } rate t w g m v
        (Adam.alphaT { o with l2Strength := 0, learningRate := rate } rate t)).1 - rate * o.l2Strength * w := by
    unfold Adam.updateParameter Adam.alphaT
    simp only [if_pos h.l2, lt_irrefl, if_false]
    ring
  rw [e]
  have hs : adamStep { o with l2Strength := 0, learningRate := rate } = rate * o.l2Strength * adamReach o := by
    unfold adamStep adamReach
    have := h.l2.ne'
    field_simp
  rw [hs] at b1
  generalize (Adam.updateParameter { o with l2Strength := 0, learningRate := rate } rate t w g m v
        (Adam.alphaT { o with l2Strength := 0, learningRate := rate } rate t)).1 = w' at b1 ⊢
  have k0 : 0 ≤ rate * o.l2Strength := mul_nonneg hr0 h.l2.le
  have k1 : rate * o.l2Strength ≤ 1 := (mul_le_mul_of_nonneg_right hr1 h.l2.le).trans h.small
  have b1' : |w' - w| ≤ rate * o.l2Strength * R := b1.trans (mul_le_mul_of_nonneg_left h.reach k0)
  have : w' - rate * o.l2Strength * w = (w' - w) + (1 - rate * o.l2Strength) * w := by ring
  rw [this]
  refine (abs_add_le _ _).trans ?_
  rw [abs_mul, abs_of_nonneg (by linarith : 0 ≤ 1 - rate * o.l2Strength)]
  have := mul_le_mul_of_nonneg_left hw (by linarith : 0 ≤ 1 - rate * o.l2Strength)
  nlinarith

theorem upToR_set {R x : ℝ} {a a' : Tensor ℝ} {k : Nat} (h : UpToR R a) (hs : a.set k x = .ok a') (hx : |x| ≤ R) : UpToR R a' := by
  intro y hy
  rw [(set_nat_data hs).1] at hy
  rcases List.mem_or_eq_of_mem_set hy with h1 | rfl
  · exact h y h1
  · exact hx

theorem adam_loop_reach {R : ℝ} {o : AdamOptions ℝ} (h : DecayAdam R o) {rate : ℝ} (hr0 : 0 ≤ rate) (hr1 : rate ≤ o.learningRate)
    {t : Nat} (ht : 1 ≤ t) {w m v g : Tensor ℝ} {r : Tensor ℝ × Tensor ℝ × Tensor ℝ}
    (hb : ∀ j, MomentsBound o.beta1 o.beta2 (m.data.getD j 0) (v.data.getD j 0)) (hw : UpToR R w)
    (hl : Adam.loop o rate t (w, m, v) g = .ok r) :
    UpToR R r.1 ∧ ∀ j, MomentsBound o.beta1 o.beta2 (r.2.1.data.getD j 0) (r.2.2.data.getD j 0) := by
  unfold Adam.loop at hl
  refine forN_post_idx (fun k (s : Tensor ℝ × Tensor ℝ × Tensor ℝ) => UpToR R s.1 ∧
      ∀ j, MomentsBound o.beta1 o.beta2 (s.2.1.data.getD j 0) (s.2.2.data.getD j 0)) ?_ ⟨hw, hb⟩ hl
  intro k s s' hP hs
  obtain ⟨wv, hw, hs⟩ := bind_ok hs
  obtain ⟨gv, hg, hs⟩ := bind_ok hs
  obtain ⟨mv, hm, hs⟩ := bind_ok hs
  obtain ⟨vv, hv, hs⟩ := bind_ok hs
  obtain ⟨mT, hmT, hs⟩ := bind_ok hs
  obtain ⟨vT, hvT, hs⟩ := bind_ok hs
  obtain ⟨wT, hwT, hs⟩ := bind_ok hs
  cases hs
  obtain ⟨hml, hm⟩ := rd_getD hm
  obtain ⟨hvl, hv⟩ := rd_getD hv
  have hp := hP.2 k
  rw [hm, hv] at hp
  obtain ⟨b1, b2⟩ := adam_parameter_reach h hr0 hr1 ht gv hp (hP.1 wv (List.mem_of_getElem? (rd_nat_some hw)))
  refine ⟨upToR_set hP.1 hwT b1, fun j => ?_⟩
  dsimp only
  rw [(set_nat_data hmT).1, (set_nat_data hvT).1, getD_set_real _ _ _ _ hml, getD_set_real _ _ _ _ hvl]
  split
  · exact b2
  · exact hP.2 j

section
variable {K : Type} [DecidableEq K]

/-- Between two calls. -/
def Anchored (R : ℝ) (opt : Optimizer K ℝ) : Prop :=
  ∃ o : Adam K ℝ, opt = .adam o ∧ DecayAdam R o.opts ∧ ∀ k j, MomentsBound o.opts.beta1 o.opts.beta2 (entry o.m k j) (entry o.v k j)

/-- During a call. -/
def AnchoredRun (R : ℝ) (opt : Optimizer K ℝ) : Prop :=
  ∃ o : Adam K ℝ, opt = .adam o ∧ DecayAdam R o.opts ∧ (∀ k j, MomentsBound o.opts.beta1 o.opts.beta2 (entry o.m k j) (entry o.v k j)) ∧
    1 ≤ o.iterations ∧ 0 ≤ o.learningRate ∧ o.learningRate ≤ o.opts.learningRate

theorem begin_anchored {R : ℝ} {w : World K ℝ} (h : Anchored R w.opt) : AnchoredRun R (w.begin (-1)).opt := by
  obtain ⟨mem, opt⟩ := w
  obtain ⟨o, ho, h1, h2⟩ := h
  simp only at ho
  subst ho
  refine ⟨_, rfl, h1, h2, by simp [Adam.updateLearningRate], ?_⟩
  have hr : 0 ≤ o.opts.learningRate := h1.tame.rate
  simp only [Adam.updateLearningRate, if_pos (show (-1 : ℝ) ≤ 0 by norm_num)]
  have k : 0 ≤ (if 0 < o.opts.decay then 1 / (1 + o.opts.decay * ((o.iterations + 1 : Nat) : ℝ)) else 1) ∧
      (if 0 < o.opts.decay then 1 / (1 + o.opts.decay * ((o.iterations + 1 : Nat) : ℝ)) else 1) ≤ (1 : ℝ) := by
    split
    · next hd =>
      have : 0 ≤ o.opts.decay * ((o.iterations + 1 : Nat) : ℝ) := mul_nonneg hd.le (Nat.cast_nonneg _)
      exact ⟨div_nonneg zero_le_one (by linarith), (div_le_one (by linarith)).2 (by linarith)⟩
    · exact ⟨zero_le_one, le_rfl⟩
  exact ⟨mul_nonneg hr k.1, mul_le_of_le_one_right hr k.2⟩

theorem stepPair_anchored {R : ℝ} {w w' : World K ℝ} {p : K × Tensor ℝ} (h : AnchoredRun R w.opt) (hw : ∀ k, UpToR R (w.mem k))
    (hs : stepPair (-1) w p = .ok w') : AnchoredRun R w'.opt ∧ ∀ k, UpToR R (w'.mem k) := by
  obtain ⟨mem, opt⟩ := w
  obtain ⟨o, ho, h1, h3, i1, i2, i3⟩ := h
  simp only at ho
  subst ho
  obtain ⟨a, ha, hs⟩ := bind_ok hs
  cases hs
  obtain ⟨r, hr, ha⟩ := bind_ok ha
  cases ha
  obtain ⟨k1, k2⟩ := adam_loop_reach h1 i2 i3 i1 (fun j => by rw [lookup_entry, lookup_entry]; exact h3 p.1 j) (hw p.1) hr
  refine ⟨⟨_, rfl, h1, fun k j => ?_, i1, i2, i3⟩, fun k => ?_⟩
  · dsimp only
    rw [entry_assign, entry_assign]
    split
    · exact k2 j
    · exact h3 k j
  · simp only [assign]
    split
    · exact k1
    · exact hw k

theorem anchored_of_run {R : ℝ} {opt : Optimizer K ℝ} (h : AnchoredRun R opt) : Anchored R opt := by
  obtain ⟨o, h1, h2, h3, -⟩ := h
  exact ⟨o, h1, h2, h3⟩

theorem optimizePair_anchored {R : ℝ} {k0 k1 : K} {opt : Optimizer K ℝ} (h : Anchored R opt) {p0 p1 : Tensor ℝ} (g0 g1 : Tensor ℝ)
    (h0 : UpToR R p0) (h1 : UpToR R p1) :
    UpToR R (Layer.optimizePair k0 k1 opt p0 p1 g0 g1).2.1 ∧ UpToR R (Layer.optimizePair k0 k1 opt p0 p1 g0 g1).2.2.1 ∧
      Anchored R (Layer.optimizePair k0 k1 opt p0 p1 g0 g1).2.2.2 := by
  unfold Layer.optimizePair World.optimizeM
  rw [if_neg (by simp)]
  rw [show ([k0, k1] : List K).zip [g0, g1] = [(k0, g0), (k1, g1)] from rfl]
  have hr := begin_anchored (w := ⟨fun k => if k = k0 then p0 else p1, opt⟩) h
  have hm : ∀ k, UpToR R (((⟨fun k => if k = k0 then p0 else p1, opt⟩ : World K ℝ).begin (-1)).mem k) := by
    have : ((⟨fun k => if k = k0 then p0 else p1, opt⟩ : World K ℝ).begin (-1)).mem = fun k => if k = k0 then p0 else p1 := by
      unfold World.begin
      split <;> rfl
    intro k
    rw [this]
    dsimp only
    split
    · exact h0
    · exact h1
  have hm0 : ∀ k, UpToR R (if k = k0 then p0 else p1) := by
    intro k
    split
    · exact h0
    · exact h1
  rcases hu : ((⟨fun k => if k = k0 then p0 else p1, opt⟩ : World K ℝ).begin (-1)).updateTensors (-1)
    [(k0, g0), (k1, g1)] with e | w'
  · exact ⟨hm0 k0, hm0 k1, h⟩
  · rw [updateTensors_eq] at hu
    obtain ⟨w1, h1, hu⟩ := bind_ok hu
    obtain ⟨w2, h2, hu⟩ := bind_ok hu
    cases hu
    obtain ⟨a1, a2⟩ := stepPair_anchored hr hm h1
    obtain ⟨b1, b2⟩ := stepPair_anchored a1 a2 h2
    exact ⟨b2 k0, b2 k1, anchored_of_run b1⟩

end

theorem updateLayers_anchored {R : ℝ} : ∀ (ls : List (Layer ℝ)) (i : Nat) {opt : Optimizer (Nat × Bool) ℝ}, Anchored R opt →
    ParamsUpToR R ls → ParamsUpToR R (updateLayers i ls opt).2.1 ∧ Anchored R (updateLayers i ls opt).2.2 := by
  have layer : ∀ (l : Layer ℝ) {k0 k1 : Nat × Bool} {opt : Optimizer (Nat × Bool) ℝ}, Anchored R opt → ParamsUpToR R [l] →
      ParamsUpToR R [(Layer.updateWeights k0 k1 (l, opt)).2.1] ∧ Anchored R (Layer.updateWeights k0 k1 (l, opt)).2.2 := by
    intro l k0 k1 opt ho hl
    have hl' := hl l (List.mem_singleton.2 rfl)
    rcases hp : params l with _ | p
    · have hn : ¬ Trainable l := by rw [params_trainable, hp]; rintro ⟨p, h⟩; cases h
      rw [C56_layer_other k0 k1 l opt hn]
      exact ⟨hl, ho⟩
    · rcases hg : grads l with _ | g
      · rw [C56_layer_missing k0 k1 l opt ((params_trainable l).2 ⟨p, hp⟩) (by rw [grads_iff, hg]; rintro ⟨g, h⟩; cases h)]
        exact ⟨hl, ho⟩
      · obtain ⟨-, c2, c3⟩ := C56_layer_values k0 k1 l opt p g hp hg
        obtain ⟨q1, q2⟩ := hl' p hp
        obtain ⟨d1, d2, d3⟩ := optimizePair_anchored (k0 := k0) (k1 := k1) ho g.1 g.2 q1 q2
        refine ⟨?_, ?_⟩
        · intro l' hl' p' hp'
          rw [List.mem_singleton] at hl'
          subst hl'
          rw [c2] at hp'
          cases hp'
          exact ⟨d1, d2⟩
        · rw [c3]
          exact d3
  intro ls
  induction ls with
  | nil => intro i opt h hp; exact ⟨hp, h⟩
  | cons a ls ih =>
    intro i opt h hp
    unfold updateLayers
    have h1 := layer a (k0 := (i, false)) (k1 := (i, true)) h (fun l hl => hp l (by rw [List.mem_singleton] at hl; simp [hl]))
    have hp2 : ParamsUpToR R ls := fun l hl => hp l (List.mem_cons_of_mem _ hl)
    have glue : ∀ {a' : Layer ℝ} {ls' : List (Layer ℝ)}, ParamsUpToR R [a'] → ParamsUpToR R ls' → ParamsUpToR R (a' :: ls') := by
      intro a' ls' q1 q2 l hl
      rcases List.mem_cons.1 hl with rfl | hl
      · exact q1 _ (List.mem_singleton.2 rfl)
      · exact q2 l hl
    rcases hu : Layer.updateWeights (i, false) (i, true) (a, opt) with ⟨e | u, a', opt'⟩
    · rw [hu] at h1
      exact ⟨glue h1.1 hp2, h1.2⟩
    · rw [hu] at h1
      obtain ⟨b1, b2⟩ := ih (i + 1) h1.2 hp2
      exact ⟨glue h1.1 b1, b2⟩

/-! ### Invariants of models under any history -/

section
variable {ρ : Type} (P : Net ρ ℝ → Prop)

/-- An invariant of everything a user can do with a model: what it says about parameters, loss and optimizer survives `updateWeights`. -/
theorem train_invariant (hl : ∀ {net net' : Net ρ ℝ}, SameLearned net net' → P net → P net') (hu : ∀ {net}, P net → P (updateWeights net).2)
    (E : Engine ρ ℝ) (inputs targets : List (Tensor ℝ)) (n : Int) (s : Session ρ ℝ) (h : P s.net) : P (train E inputs targets n s).2.net := by
  have bindI : ∀ {α β : Type} {m : Mut (Session ρ ℝ) α} {f : α → Mut (Session ρ ℝ) β}, (∀ s, P s.net → P (m s).2.net) →
      (∀ a s, P s.net → P (f a s).2.net) → ∀ s, P s.net → P ((m >>= f) s).2.net := by
    intro α β m f hm hf s hs
    rw [Mut.bind_apply]
    have := hm s hs
    rcases h : m s with ⟨e | a, s'⟩
    · rw [h] at this; exact this
    · rw [h] at this; exact hf a s' this
  have liftI : ∀ {α : Type} (r : Res α) (s : Session ρ ℝ), P s.net → P (Mut.lift r s).2.net := fun _ _ h => h
  have hs : ∀ x i s, P s.net → P (trainSample E x targets i s).2.net := by
    intro x i
    unfold trainSample
    refine bindI (fun s h => hl (predict_learned E x s.net) h) fun pred => ?_
    refine bindI (fun s h => h) fun s => ?_
    refine bindI (liftI _) fun L => bindI (liftI _) fun t => bindI (liftI _) fun v =>
      bindI (liftI _) fun tot => bindI (fun s h => h) fun _ => bindI (liftI _) fun g =>
      bindI (fun s h => hl (backward_learned g s.net) h) fun _ => fun s h => hu h
  have hss : ∀ (xs : List (Tensor ℝ)) i s, P s.net → P (trainSamples E targets i xs s).2.net := by
    intro xs
    induction xs with
    | nil => exact fun _ _ h => h
    | cons x xs ih =>
      intro i
      exact bindI (hs x i) fun _ => ih (i + 1)
  have he : ∀ s, P s.net → P (trainEpoch E inputs targets s).2.net := by
    unfold trainEpoch
    refine bindI (liftI _) fun _ => bindI (fun s h => h) fun _ => ?_
    refine bindI (hss inputs 0) fun _ => ?_
    exact bindI (fun s h => h) fun _ => bindI (liftI _) fun _ => fun s h => h
  revert s
  unfold train Mut.forN
  generalize List.range n.toNat = L
  induction L with
  | nil => exact fun s h => h
  | cons a L ih => exact bindI he fun _ => ih

theorem after_invariant (hl : ∀ {net net' : Net ρ ℝ}, SameLearned net net' → P net → P net') (hu : ∀ {net}, P net → P (updateWeights net).2)
    (E : Engine ρ ℝ) (us : List Use) : ∀ {net : Net ρ ℝ},
    (∀ L opt, Use.compile L opt ∈ us → ∀ net, P net → P (Net.compile L opt net)) → (∀ l, Use.addLayer l ∈ us → ∀ net, P net → P (addLayer l net)) →
    P net → P (after E us net) := by
  induction us with
  | nil => intro net _ _ h; exact h
  | cons u us ih =>
    intro net hc ha h
    refine ih (fun L opt hm => hc L opt (List.mem_cons_of_mem _ hm)) (fun l hm => ha l (List.mem_cons_of_mem _ hm)) ?_
    cases u with
    | train xs ys k => exact train_invariant P hl hu E xs ys k ⟨net, ofFn [1] fun _ => 0, []⟩ h
    | predict x => exact hl (predict_learned E x net) h
    | predictAll xs => exact hl (predictAll_learned E xs net) h
    | backward g => exact hl (backward_learned g net) h
    | updateWeights => exact hu h
    | mode m => exact hl (setTrainingMode_params net m) h
    | compile L opt => exact hc L opt (by simp) net h
    | addLayer l => exact ha l (by simp) net h

end

end SmartDNN
