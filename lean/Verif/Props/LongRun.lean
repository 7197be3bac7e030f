import Verif.Model.IntCounter
import Verif.Props.Descent
import Verif.Props.Typed

/-!
# Training can go on for as long as one likes (C94)
-/

namespace SmartDNN
open Net Spec

/-! ### Specification -/

/-- A call of `train` on a model, with the counter of Adam an `int`: the outcome, the model afterwards, and the losses printed. -/
noncomputable def Spec.trainCallInt {ρ : Type} (E : Engine ρ ℝ) (inputs targets : List (Tensor ℝ)) (epochs : Int) (net : Net ρ ℝ) :
    Res Unit × Net ρ ℝ × List (Tensor ℝ) :=
  let r := trainInt E inputs targets epochs ⟨net, ofFn [1] fun _ => 0, []⟩
  (r.1, r.2.net, r.2.printed)

/-- The optimizer can be called `m` more times: it is not Adam, or its counter stays below 2^31. -/
def Spec.CallsLeft {K : Type} (m : Nat) (opt : Optimizer K ℝ) : Prop := ∀ n, AdamSteps n opt → n + m < 2 ^ 31

/-! ### One layer -/

theorem room_mono {K : Type} {m k : Nat} {opt : Optimizer K ℝ} (h : CallsLeft m opt) (hk : k ≤ m) : CallsLeft k opt := fun n hn => by
  have := h n hn
  omega

theorem counterFull_iff {K : Type} (opt : Optimizer K ℝ) : opt.counterFull = true ↔ ∃ n, AdamSteps n opt ∧ 2 ^ 31 ≤ n + 1 := by
  cases opt with
  | sgd o =>
    constructor
    · intro h
      cases h
    · rintro ⟨n, ⟨a, ha, -⟩, -⟩
      cases ha
  | rmsprop o =>
    constructor
    · intro h
      cases h
    · rintro ⟨n, ⟨a, ha, -⟩, -⟩
      cases ha
  | adam o =>
    unfold Optimizer.counterFull
    rw [decide_eq_true_iff]
    constructor
    · exact fun h => ⟨_, ⟨o, rfl, rfl⟩, h⟩
    · rintro ⟨n, ⟨a, ha, h1⟩, h2⟩
      cases ha
      omega

theorem callsOptimizer_iff (l : Layer ℝ) : l.callsOptimizer = true ↔ Trainable l ∧ HasGradients l := by
  obtain ⟨kind, mode⟩ := l
  cases kind <;> simp [Layer.callsOptimizer, Trainable, HasGradients]

theorem stepPair_isAdam {K : Type} [DecidableEq K] {r : ℝ} {w w' : World K ℝ} {p : K × Tensor ℝ} (hs : stepPair r w p = .ok w')
    {n : Nat} (h : AdamSteps n w'.opt) : AdamSteps n w.opt := by
  obtain ⟨mem, opt⟩ := w
  unfold stepPair at hs
  cases opt with
  | sgd o =>
    obtain ⟨a, ha, hs⟩ := bind_ok hs
    cases hs
    obtain ⟨b, hb, -⟩ := h
    cases hb
  | rmsprop o =>
    obtain ⟨a, ha, hs⟩ := bind_ok hs
    cases hs
    obtain ⟨b, hb, -⟩ := h
    cases hb
  | adam o =>
    obtain ⟨a, ha, hs⟩ := bind_ok hs
    obtain ⟨b, -, ha⟩ := bind_ok ha
    cases ha
    cases hs
    obtain ⟨b, hb, h1⟩ := h
    cases hb
    exact ⟨o, rfl, h1⟩

theorem optimizePair_isAdam {K : Type} [DecidableEq K] {k0 k1 : K} {n : Nat} {opt : Optimizer K ℝ} (p0 p1 g0 g1 : Tensor ℝ)
    (hok : (Layer.optimizePair k0 k1 opt p0 p1 g0 g1).1 = .ok ())
    (h : AdamSteps n (Layer.optimizePair k0 k1 opt p0 p1 g0 g1).2.2.2) : ∃ m, AdamSteps m opt ∧ n = m + 1 := by
  unfold Layer.optimizePair World.optimizeM at hok h
  rw [if_neg (by simp)] at hok h
  simp only [updateTensors_eq, List.zip_cons_cons, List.zip_nil_left] at hok h
  rcases hu : List.foldlM (stepPair (-1)) ((World.mk (fun k => if k = k0 then p0 else p1) opt : World K ℝ).begin (-1))
    [(k0, g0), (k1, g1)] with e | w'
  · rw [hu] at hok; cases hok
  · rw [hu] at h
    rw [List.foldlM_cons] at hu
    obtain ⟨w1, h1, hu⟩ := bind_ok hu
    rw [List.foldlM_cons] at hu
    obtain ⟨w2, h2, hu⟩ := bind_ok hu
    cases hu
    have hb := stepPair_isAdam h1 (stepPair_isAdam h2 h)
    cases opt with
    | sgd o => obtain ⟨a, ha, -⟩ := hb; cases ha
    | rmsprop o => obtain ⟨a, ha, -⟩ := hb; cases ha
    | adam o =>
      obtain ⟨a, ha, h3⟩ := hb
      cases ha
      exact ⟨_, ⟨o, rfl, rfl⟩, h3.symm⟩

open Classical in
/-- The counter after a layer has updated its parameters. -/
theorem layer_counter {i : Nat} {l l' : Layer ℝ} {opt opt' : Optimizer (Nat × Bool) ℝ}
    (hu : Layer.updateWeights (i, false) (i, true) (l, opt) = (.ok (), l', opt')) (n : Nat) :
    AdamSteps n opt' ↔ ∃ m, AdamSteps m opt ∧ n = m + if Trainable l then 1 else 0 := by
  rcases hpa : params l with _ | p
  · have hn : ¬ Trainable l := by rw [params_trainable, hpa]; rintro ⟨p, h⟩; cases h
    rw [C56_layer_other (i, false) (i, true) l opt hn] at hu
    cases hu
    rw [if_neg hn]
    exact ⟨fun h => ⟨n, h, rfl⟩, fun ⟨m, h, e⟩ => by rw [e]; exact h⟩
  · have ht := (params_trainable l).2 ⟨p, hpa⟩
    rcases hg : grads l with _ | g
    · rw [C56_layer_missing (i, false) (i, true) l opt ht (by rw [grads_iff, hg]; rintro ⟨g, h⟩; cases h)] at hu
      cases hu
    · obtain ⟨v1, -, v3⟩ := C56_layer_values (i, false) (i, true) l opt p g hpa hg
      rw [hu] at v1 v3
      simp only at v1 v3
      rw [if_pos ht, v3]
      exact ⟨fun h => optimizePair_isAdam _ _ _ _ v1.symm h, fun ⟨m, h, e⟩ => by rw [e]; exact optimizePair_adam h _ _ _ _ v1.symm⟩

theorem layerInt_eq {i : Nat} {l : Layer ℝ} {opt : Optimizer (Nat × Bool) ℝ} (h : Trainable l → CallsLeft 1 opt) :
    Layer.updateWeightsInt (i, false) (i, true) (l, opt) = Layer.updateWeights (i, false) (i, true) (l, opt) := by
  unfold Layer.updateWeightsInt
  rw [if_neg]
  rw [Bool.and_eq_true]
  rintro ⟨h1, h2⟩
  obtain ⟨n, hn, h3⟩ := (counterFull_iff opt).1 h2
  have := h ((callsOptimizer_iff l).1 h1).1 n hn
  omega

theorem updateLayersInt_eq : ∀ (ls : List (Layer ℝ)) (i : Nat) (opt : Optimizer (Nat × Bool) ℝ), CallsLeft (trainableCount ls) opt →
    updateLayersInt i ls opt = updateLayers i ls opt := by
  intro ls
  induction ls with
  | nil => exact fun i opt _ => rfl
  | cons l ls ih =>
    intro i opt h
    classical
    rw [trainableCount_cons] at h
    unfold updateLayersInt updateLayers
    rw [layerInt_eq fun ht => room_mono h (by rw [if_pos ht]; omega)]
    rcases hu : Layer.updateWeights (i, false) (i, true) (l, opt) with ⟨e | u, l', opt1⟩
    · rfl
    · have hroom : CallsLeft (trainableCount ls) opt1 := by
        intro n hn
        obtain ⟨m, hm, e⟩ := (layer_counter hu n).1 hn
        have := h m hm
        omega
      simp only [ih (i + 1) opt1 hroom]

theorem updateLayersInt_ub : ∀ (ls : List (Layer ℝ)) (i n : Nat) (opt : Optimizer (Nat × Bool) ℝ) (ls' : List (Layer ℝ))
    (opt' : Optimizer (Nat × Bool) ℝ), AdamSteps n opt → n < 2 ^ 31 → 2 ^ 31 ≤ n + trainableCount ls →
    updateLayers i ls opt = (.ok (), ls', opt') → (updateLayersInt i ls opt).1 = .error .ub := by
  intro ls
  induction ls with
  | nil =>
    intro i n opt ls' opt' _ h1 h2 _
    have : trainableCount [] = 0 := by unfold trainableCount; rfl
    omega
  | cons l ls ih =>
    intro i n opt ls' opt' hn h1 h2 hu
    classical
    rw [trainableCount_cons] at h2
    unfold updateLayers at hu
    unfold updateLayersInt
    rcases hl : Layer.updateWeights (i, false) (i, true) (l, opt) with ⟨e | u, l1, opt1⟩
    · rw [hl] at hu
      cases hu
    · rw [hl] at hu
      simp only at hu
      rcases hr : updateLayers (i + 1) ls opt1 with ⟨res, ls2, opt2⟩
      rw [hr] at hu
      cases hu
      have hn1 := (layer_counter hl _).2 ⟨n, hn, rfl⟩
      by_cases hfull : Trainable l ∧ 2 ^ 31 ≤ n + 1
      · have hg : HasGradients l := by
          by_contra hg
          rw [C56_layer_missing _ _ l opt hfull.1 hg] at hl
          cases hl
        unfold Layer.updateWeightsInt
        rw [if_pos (by rw [Bool.and_eq_true]; exact ⟨(callsOptimizer_iff l).2 ⟨hfull.1, hg⟩, (counterFull_iff opt).2 ⟨n, hn, hfull.2⟩⟩)]
      · rw [layerInt_eq (fun ht k hk => by
          obtain ⟨a, ha, e1⟩ := hn
          obtain ⟨b, hb, e2⟩ := hk
          rw [ha] at hb
          cases hb
          by_contra hc
          exact hfull ⟨ht, by omega⟩), hl]
        simp only
        refine ih (i + 1) _ opt1 ls2 opt2 hn1 ?_ ?_ hr
        · by_cases ht : Trainable l
          · rw [if_pos ht]
            by_contra hc
            exact hfull ⟨ht, by omega⟩
          · rw [if_neg ht]
            exact h1
        · by_cases ht : Trainable l
          · rw [if_pos ht] at h2 ⊢
            omega
          · rw [if_neg ht] at h2 ⊢
            omega

/-! ### One sample -/

/-- The model can make `m` more training steps. -/
def Lasts {ρ : Type} (m : Nat) (net : Net ρ ℝ) : Prop := ∀ opt, net.optimizer = some opt → CallsLeft (m * trainableCount net.layers) opt

theorem net_updateWeightsInt_eq {ρ : Type} (net : Net ρ ℝ) (h : Lasts 1 net) : updateWeightsInt net = updateWeights net := by
  unfold updateWeightsInt updateWeights
  rcases hl : net.layers with _ | ⟨l, ls⟩
  · rfl
  · rcases ho : net.optimizer with _ | opt
    · rfl
    · simp only
      rw [updateLayersInt_eq]
      have := h opt ho
      rw [hl, Nat.one_mul] at this
      exact this

theorem bind_congr {σ α β : Type} {m : Mut σ α} {f g : α → Mut σ β} {s : σ} (h : ∀ a s', m s = (.ok a, s') → f a s' = g a s') :
    (m >>= f) s = (m >>= g) s := by
  rw [Mut.bind_apply, Mut.bind_apply]
  rcases hm : m s with ⟨e | a, s'⟩
  · rfl
  · exact h a s' hm

theorem lift_bind_congr {σ α β : Type} {r : Res α} {f g : α → Mut σ β} {s : σ} (h : ∀ a, f a s = g a s) :
    (Mut.lift r >>= f) s = (Mut.lift r >>= g) s := by
  cases r with
  | error e => rfl
  | ok a => exact h a

theorem onNet_ok {ρ α : Type} {m : Mut (Net ρ ℝ) α} {s s' : Session ρ ℝ} {a : α} (h : Session.onNet m s = (.ok a, s')) :
    m s.net = (.ok a, s'.net) := by
  unfold Session.onNet at h
  rcases hm : m s.net with ⟨r, net'⟩
  rw [hm] at h
  cases h
  rfl

theorem predict_lasts {ρ : Type} {E : Engine ρ ℝ} {x p : Tensor ℝ} {net net' : Net ρ ℝ} {k : Nat} (h : predict E x net = (.ok p, net'))
    (hl : Lasts k net) : Lasts k net' := by
  intro opt ho
  have e : net' = (predict E x net).2 := by rw [h]
  rw [e] at ho ⊢
  have := hl opt ho
  show CallsLeft (k * trainableCount (forwardLayers E net.layers x net.rng).2.1) opt
  rw [forwardLayers_count]
  exact this

theorem backward_lasts {ρ : Type} {g p : Tensor ℝ} {net net' : Net ρ ℝ} {k : Nat} (h : backward g net = (.ok p, net'))
    (hl : Lasts k net) : Lasts k net' := by
  intro opt ho
  have e : net' = (backward g net).2 := by rw [h]
  rw [e] at ho ⊢
  have := hl opt ho
  show CallsLeft (k * trainableCount (backwardLayers net.layers g).2) opt
  rw [backwardLayers_count]
  exact this

theorem sampleInt_eq {ρ : Type} (E : Engine ρ ℝ) (x : Tensor ℝ) (targets : List (Tensor ℝ)) (i : Nat) (s : Session ρ ℝ) (h : Lasts 1 s.net) :
    trainSampleInt E x targets i s = trainSample E x targets i s := by
  unfold trainSampleInt trainSample
  refine bind_congr fun p s1 h1 => ?_
  have l1 := predict_lasts (onNet_ok h1) h
  simp only [Mut.get_bind]
  refine lift_bind_congr fun L => lift_bind_congr fun y => lift_bind_congr fun v => lift_bind_congr fun t => ?_
  simp only [Mut.modify_bind]
  refine lift_bind_congr fun g => bind_congr fun g' s2 h2 => ?_
  have l2 := backward_lasts (onNet_ok h2) l1
  unfold Session.onNet
  rw [net_updateWeightsInt_eq _ l2]

theorem lasts_mono {ρ : Type} {m k : Nat} {net : Net ρ ℝ} (h : Lasts m net) (hk : k ≤ m) : Lasts k net := fun opt ho =>
  room_mono (h opt ho) (Nat.mul_le_mul_right _ hk)

theorem updateLayers_counter : ∀ (ls : List (Layer ℝ)) (i : Nat) (opt : Optimizer (Nat × Bool) ℝ) (ls' : List (Layer ℝ))
    (opt' : Optimizer (Nat × Bool) ℝ), updateLayers i ls opt = (.ok (), ls', opt') → ∀ n,
    AdamSteps n opt' → ∃ m, AdamSteps m opt ∧ n = m + trainableCount ls := by
  intro ls
  induction ls with
  | nil =>
    intro i opt ls' opt' h n hn
    cases h
    exact ⟨n, hn, rfl⟩
  | cons l ls ih =>
    intro i opt ls' opt' h n hn
    classical
    rw [updateLayers_cons] at h
    rcases hu : Layer.updateWeights (i, false) (i, true) (l, opt) with ⟨e | u, a', opt1⟩
    · rw [hu] at h; cases h
    · rw [hu] at h
      simp only at h
      rcases hr : updateLayers (i + 1) ls opt1 with ⟨res, ls2, opt2⟩
      rw [hr] at h
      cases h
      obtain ⟨m, hm, e⟩ := ih (i + 1) opt1 ls2 opt2 hr n hn
      obtain ⟨k, hk, e'⟩ := (layer_counter hu m).1 hm
      exact ⟨k, hk, by rw [trainableCount_cons]; omega⟩

theorem updated_count {ls ls' : List (Layer ℝ)} (h : List.Forall₂ Updated ls ls') : trainableCount ls' = trainableCount ls := by
  classical
  induction h with
  | nil => rfl
  | @cons a a' as as' h1 _ ih =>
    rw [trainableCount_cons, trainableCount_cons, ih]
    have : Trainable a' ↔ Trainable a := by
      cases h1 <;> exact Iff.rfl
    simp only [this]

theorem stepOk_counter {ρ : Type} {E : Engine ρ ℝ} {x y : Tensor ℝ} {net net' : Net ρ ℝ} {v : ℝ} (h : StepOk E x y net net' v) :
    trainableCount net'.layers = trainableCount net.layers ∧ ∀ opt', net'.optimizer = some opt' → ∀ n, AdamSteps n opt' →
      ∃ opt m, net.optimizer = some opt ∧ AdamSteps m opt ∧ n = m + trainableCount net.layers := by
  obtain ⟨pred, n1, L, g1, g2, n2, s1, s2, s3, s4, s5, s6⟩ := h
  have a1 : n1.optimizer = net.optimizer := (congrArg (fun q => q.2.optimizer) s1).symm
  have a2 : n2.optimizer = n1.optimizer := (congrArg (fun q => q.2.optimizer) s5).symm
  have b1 : n1.layers = (forwardLayers E net.layers x net.rng).2.1 := (congrArg (fun q => q.2.layers) s1).symm
  have b2 : n2.layers = (backwardLayers n1.layers g1).2 := (congrArg (fun q => q.2.layers) s5).symm
  have c2 : trainableCount n2.layers = trainableCount net.layers := by rw [b2, backwardLayers_count, b1, forwardLayers_count]
  have hu := (C56_changes n2).1
  rw [s6] at hu
  refine ⟨(updated_count hu).trans c2, fun opt' ho' n hn => ?_⟩
  rcases ho : net.optimizer with _ | opt
  · exfalso
    unfold updateWeights at s6
    have e2 : n2.optimizer = none := by rw [a2, a1, ho]
    rcases hl : n2.layers with _ | ⟨l, ls⟩
    · rw [hl] at s6
      cases s6
      rw [e2] at ho'
      cases ho'
    · rw [hl, e2] at s6
      cases s6
  · have ho2 : n2.optimizer = some opt := by rw [a2, a1, ho]
    rw [net_updateWeights_eq n2 opt ho2] at s6
    rcases hul : updateLayers 0 n2.layers opt with ⟨res, ls', opt1⟩
    rw [hul] at s6
    simp only [Prod.mk.injEq] at s6
    obtain ⟨rfl, hn'⟩ := s6
    rw [← hn'] at ho'
    cases ho'
    obtain ⟨m, hm, e⟩ := updateLayers_counter _ _ _ _ _ hul n hn
    exact ⟨opt, m, rfl, hm, by rw [e, c2]⟩

theorem stepOk_lasts {ρ : Type} {E : Engine ρ ℝ} {x y : Tensor ℝ} {net net' : Net ρ ℝ} {v : ℝ} (h : StepOk E x y net net' v) {k : Nat}
    (hl : Lasts (k + 1) net) : Lasts k net' := by
  obtain ⟨h1, h2⟩ := stepOk_counter h
  intro opt' ho' n hn
  obtain ⟨opt, m, ho, hm, e⟩ := h2 opt' ho' n hn
  have := hl opt ho m hm
  rw [h1]
  rw [Nat.add_mul] at this
  omega

theorem steps_lasts {ρ : Type} {E : Engine ρ ℝ} {ps : List (Tensor ℝ × Tensor ℝ)} {net net' : Net ρ ℝ} {vs : List ℝ}
    (h : Steps E ps net net' vs) : ∀ {k : Nat}, Lasts (k + ps.length) net → Lasts k net' := by
  induction h with
  | nil net => exact fun h => h
  | cons h _ ih => exact fun hl => ih (stepOk_lasts h (by rw [Nat.add_assoc]; exact hl))

/-! ### Training -/

theorem samplesInt_eq {ρ : Type} (E : Engine ρ ℝ) (targets : List (Tensor ℝ)) (xs : List (Tensor ℝ)) : ∀ (i : Nat) (net : Net ρ ℝ)
    (a : ℝ) (pr : List (Tensor ℝ)), Lasts xs.length net →
    trainSamplesInt E targets i xs ⟨net, ofFn [1] fun _ => a, pr⟩ = trainSamples E targets i xs ⟨net, ofFn [1] fun _ => a, pr⟩ := by
  induction xs with
  | nil => exact fun i net a pr _ => rfl
  | cons x xs ih =>
    intro i net a pr h
    show (trainSampleInt E x targets i >>= fun _ => trainSamplesInt E targets (i + 1) xs) _ =
      (trainSample E x targets i >>= fun _ => trainSamples E targets (i + 1) xs) _
    rw [Mut.bind_apply, Mut.bind_apply, sampleInt_eq E x targets i _ (lasts_mono h (by simp))]
    rcases sample_cases E x targets i net a pr with ⟨y, n1, v1, hy, hst, he⟩ | ⟨e, n1, t1, hst, he⟩
    · rw [he]
      exact ih (i + 1) n1 _ pr (stepOk_lasts hst h)
    · rw [he]

theorem epochInt_eq' {ρ : Type} (E : Engine ρ ℝ) (inputs targets : List (Tensor ℝ)) (s : Session ρ ℝ) :
    trainEpochInt E inputs targets s = (trainSamplesInt E targets 0 inputs >>= fun _ => (do
      let s ← Mut.get
      let report ← Mut.lift (s.total.divScalar (inputs.length : ℝ))
      Mut.modify (fun s => { s with printed := s.printed ++ [report] }) : Mut (Session ρ ℝ) Unit))
      ⟨s.net, ofFn [1] fun _ => 0, s.printed⟩ := by
  unfold trainEpochInt
  rw [make_one, Mut.lift_ok_bind, Mut.modify_bind]
  rfl

theorem epochInt_eq {ρ : Type} (E : Engine ρ ℝ) (inputs targets : List (Tensor ℝ)) (s : Session ρ ℝ) (h : Lasts inputs.length s.net) :
    trainEpochInt E inputs targets s = trainEpoch E inputs targets s := by
  rw [epochInt_eq', epoch_eq, Mut.bind_apply, Mut.bind_apply, samplesInt_eq E targets inputs 0 s.net 0 s.printed h]

theorem epoch_steps {ρ : Type} {E : Engine ρ ℝ} {inputs targets : List (Tensor ℝ)} {s s' : Session ρ ℝ}
    (h : trainEpoch E inputs targets s = (.ok (), s')) : inputs.length ≤ targets.length ∧ ∃ vs, Steps E (inputs.zip targets) s.net s'.net vs := by
  rcases samples_cases E targets inputs 0 s.net 0 s.printed with ⟨hlen, net1, vs, hs⟩ | ⟨k, x, net1, vs, e, net', t', hx, hs, hf, hr⟩
  · have hlen : inputs.length ≤ targets.length := hlen
    have hs : Steps E (inputs.zip targets) s.net net1 vs := hs
    by_cases hn : (inputs.length : ℝ) = 0
    · rw [epoch_zero E inputs targets s net1 vs hlen hn hs] at h
      cases h
    · rw [epoch_ok E inputs targets s net1 vs hlen hn hs] at h
      cases h
      exact ⟨hlen, vs, hs⟩
  · rw [epoch_fails E inputs targets s hr] at h
    cases h

theorem epochsInt_eq {ρ : Type} (E : Engine ρ ℝ) (inputs targets : List (Tensor ℝ)) (n : Nat) : ∀ (s : Session ρ ℝ),
    Lasts (n * inputs.length) s.net →
    Mut.forN n (fun _ => trainEpochInt E inputs targets) s = Mut.forN n (fun _ => trainEpoch E inputs targets) s := by
  induction n with
  | zero =>
    intro s _
    have e : ∀ m : Nat → Mut (Session ρ ℝ) Unit, Mut.forN 0 m s = (.ok (), s) := fun _ => rfl
    rw [e, e]
  | succ n ih =>
    intro s h
    rw [Nat.add_mul, Nat.one_mul] at h
    rw [forN_const_succ, forN_const_succ, Mut.bind_apply, Mut.bind_apply, epochInt_eq E inputs targets s (lasts_mono h (by omega))]
    rcases he : trainEpoch E inputs targets s with ⟨e | u, s'⟩
    · simp only
    · obtain ⟨hlen, vs, hs⟩ := epoch_steps he
      exact ih s' (steps_lasts hs (by rw [List.length_zip, Nat.min_eq_left hlen]; exact h))

/-! ### Overflow -/

theorem sampleInt_ub {ρ : Type} {E : Engine ρ ℝ} {x y : Tensor ℝ} {net net' : Net ρ ℝ} {v : ℝ} (h : StepOk E x y net net' v)
    {targets : List (Tensor ℝ)} {i : Nat} (hy : targets[i]? = some y) {opt : Optimizer (Nat × Bool) ℝ} {n : Nat}
    (ho : net.optimizer = some opt) (hn : AdamSteps n opt) (h1 : n < 2 ^ 31) (h2 : 2 ^ 31 ≤ n + trainableCount net.layers)
    (a : ℝ) (pr : List (Tensor ℝ)) : (trainSampleInt E x targets i ⟨net, ofFn [1] fun _ => a, pr⟩).1 = .error .ub := by
  obtain ⟨pred, n1, L, g1, g2, n2, s1, s2, s3, s4, s5, s6⟩ := h
  have a1 : n1.optimizer = net.optimizer := (congrArg (fun q => q.2.optimizer) s1).symm
  have a2 : n2.optimizer = n1.optimizer := (congrArg (fun q => q.2.optimizer) s5).symm
  have b1 : n1.layers = (forwardLayers E net.layers x net.rng).2.1 := (congrArg (fun q => q.2.layers) s1).symm
  have b2 : n2.layers = (backwardLayers n1.layers g1).2 := (congrArg (fun q => q.2.layers) s5).symm
  have c2 : trainableCount n2.layers = trainableCount net.layers := by rw [b2, backwardLayers_count, b1, forwardLayers_count]
  have ho2 : n2.optimizer = some opt := by rw [a2, a1, ho]
  unfold trainSampleInt
  have e1 : Session.onNet (predict E x) ⟨net, ofFn [1] fun _ => a, pr⟩ = (.ok pred, ⟨n1, ofFn [1] fun _ => a, pr⟩) := by
    unfold Session.onNet
    simp only [s1]
  rw [Mut.bind_apply, e1]
  simp only [Mut.get_bind]
  rw [s2, show derefOpt (some L) = .ok L from rfl, Mut.lift_ok_bind, rd_some hy, Mut.lift_ok_bind, s3, Mut.lift_ok_bind, addAssign_one,
    Mut.lift_ok_bind, Mut.modify_bind, s4, Mut.lift_ok_bind, Mut.bind_apply]
  have e4 : Session.onNet (backward g1) ⟨n1, ofFn [1] fun _ => a + v, pr⟩ = (.ok g2, ⟨n2, ofFn [1] fun _ => a + v, pr⟩) := by
    unfold Session.onNet
    simp only [s5]
  simp only [e4]
  have e5 : (updateWeightsInt n2).1 = .error .ub := by
    rw [net_updateWeights_eq n2 opt ho2] at s6
    rcases hul : updateLayers 0 n2.layers opt with ⟨res, ls', opt1⟩
    rw [hul] at s6
    simp only [Prod.mk.injEq] at s6
    obtain ⟨rfl, -⟩ := s6
    have := updateLayersInt_ub n2.layers 0 n opt ls' opt1 hn h1 (by rw [c2]; exact h2) hul
    unfold updateWeightsInt
    rcases hl : n2.layers with _ | ⟨l, ls⟩
    · rw [hl] at this
      cases this
    · rw [hl] at this
      simp only [ho2]
      exact this
  unfold Session.onNet
  simp only
  exact e5

theorem samplesInt_ub {ρ : Type} (E : Engine ρ ℝ) (ds es : List Nat) (targets : List (Tensor ℝ)) (hy : ∀ y ∈ targets, HasDims es y)
    (xs : List (Tensor ℝ)) : ∀ (i : Nat) (net : Net ρ ℝ) (opt : Optimizer (Nat × Bool) ℝ) (n : Nat) (a : ℝ) (pr : List (Tensor ℝ)),
    WellShaped net ds es → (∀ x ∈ xs, HasDims ds x) → i + xs.length ≤ targets.length → net.optimizer = some opt → AdamSteps n opt →
    n < 2 ^ 31 → 2 ^ 31 ≤ n + xs.length * trainableCount net.layers →
    (trainSamplesInt E targets i xs ⟨net, ofFn [1] fun _ => a, pr⟩).1 = .error .ub := by
  induction xs with
  | nil =>
    intro i net opt n a pr _ _ _ _ _ h1 h2
    rw [List.length_nil, Nat.zero_mul] at h2
    omega
  | cons x xs ih =>
    intro i net opt n a pr hw hx hlen ho hn h1 h2
    have hi : i < targets.length := by simp at hlen; omega
    have hyi : targets[i]? = some targets[i] := List.getElem?_eq_getElem hi
    obtain ⟨net', v, hst, hw'⟩ := C67_step E net hw x targets[i] (hx x (by simp)) (hy _ (List.getElem_mem hi))
    show ((trainSampleInt E x targets i >>= fun _ => trainSamplesInt E targets (i + 1) xs) _).1 = _
    rw [Mut.bind_apply]
    by_cases hc : 2 ^ 31 ≤ n + trainableCount net.layers
    · have := sampleInt_ub hst hyi ho hn h1 hc a pr
      rcases hr : trainSampleInt E x targets i ⟨net, ofFn [1] fun _ => a, pr⟩ with ⟨e | u, s'⟩
      · rw [hr] at this
        exact this
      · rw [hr] at this
        cases this
    · have hl : Lasts 1 net := by
        intro o ho' m hm
        rw [ho] at ho'
        cases ho'
        obtain ⟨p, hp, e1⟩ := hm
        obtain ⟨q, hq, e2⟩ := hn
        rw [hp] at hq
        cases hq
        omega
      rw [sampleInt_eq E x targets i _ hl]
      rcases sample_cases E x targets i net a pr with ⟨y, n1, v1, hy1, hst1, he⟩ | ⟨e, n1, t1, hst1, he⟩
      · rw [hyi] at hy1
        cases hy1
        obtain ⟨rfl, rfl⟩ := stepOk_det hst hst1
        rw [he]
        obtain ⟨opt', ho', hn'⟩ := C69_counter E x targets[i] net net' v opt n hst ho hn
        refine ih (i + 1) net' opt' _ _ pr hw' (fun x hx' => hx x (by simp [hx'])) (by simp at hlen; omega) ho' hn' (by omega) ?_
        rw [(stepOk_counter hst).1]
        rw [List.length_cons, Nat.add_mul] at h2
        omega
      · rw [hyi] at hst1
        exact (stepOk_not_fails hst hst1).elim

theorem steps_adam {ρ : Type} {E : Engine ρ ℝ} {ps : List (Tensor ℝ × Tensor ℝ)} {net net' : Net ρ ℝ} {vs : List ℝ}
    (h : Steps E ps net net' vs) : ∀ {opt : Optimizer (Nat × Bool) ℝ} {n : Nat}, net.optimizer = some opt → AdamSteps n opt →
    trainableCount net'.layers = trainableCount net.layers ∧
    ∃ opt', net'.optimizer = some opt' ∧ AdamSteps (n + ps.length * trainableCount net.layers) opt' := by
  induction h with
  | nil net => exact fun ho hn => ⟨rfl, _, ho, by rw [List.length_nil, Nat.zero_mul]; exact hn⟩
  | @cons x y ps net net1 net2 v vs h _ ih =>
    intro opt n ho hn
    obtain ⟨opt1, ho1, hn1⟩ := C69_counter E x y net net1 v opt n h ho hn
    obtain ⟨e, opt2, ho2, hn2⟩ := ih ho1 hn1
    have hc := (stepOk_counter h).1
    rw [hc] at e hn2
    refine ⟨e, opt2, ho2, ?_⟩
    rw [List.length_cons, Nat.add_mul, Nat.one_mul, Nat.add_comm (ps.length * _), ← Nat.add_assoc]
    exact hn2

theorem epochsInt_ub {ρ : Type} (E : Engine ρ ℝ) (ds es : List Nat) (inputs targets : List (Tensor ℝ)) (hx : ∀ x ∈ inputs, HasDims ds x)
    (hy : ∀ y ∈ targets, HasDims es y) (hlen : inputs.length ≤ targets.length) (k : Nat) : ∀ (s : Session ρ ℝ)
    (opt : Optimizer (Nat × Bool) ℝ) (n : Nat), WellShaped s.net ds es → s.net.optimizer = some opt → AdamSteps n opt → n < 2 ^ 31 →
    2 ^ 31 ≤ n + k * inputs.length * trainableCount s.net.layers →
    (Mut.forN k (fun _ => trainEpochInt E inputs targets) s).1 = .error .ub := by
  induction k with
  | zero =>
    intro s opt n _ _ _ h1 h2
    rw [Nat.zero_mul, Nat.zero_mul] at h2
    omega
  | succ k ih =>
    intro s opt n hw ho hn h1 h2
    rw [forN_const_succ, Mut.bind_apply]
    by_cases hc : 2 ^ 31 ≤ n + inputs.length * trainableCount s.net.layers
    · have := samplesInt_ub E ds es targets hy inputs 0 s.net opt n 0 s.printed hw hx (by omega) ho hn h1 hc
      rw [epochInt_eq', Mut.bind_apply]
      rcases hr : trainSamplesInt E targets 0 inputs ⟨s.net, ofFn [1] fun _ => 0, s.printed⟩ with ⟨e | u, s'⟩
      · rw [hr] at this
        exact this
      · rw [hr] at this
        cases this
    · have hl : Lasts inputs.length s.net := by
        intro o ho' m hm
        rw [ho] at ho'
        cases ho'
        obtain ⟨p, hp, e1⟩ := hm
        obtain ⟨q, hq, e2⟩ := hn
        rw [hp] at hq
        cases hq
        omega
      have hne : (inputs.length : ℝ) ≠ 0 := by
        rw [Ne, Nat.cast_eq_zero]
        intro e
        rw [e, Nat.mul_zero, Nat.zero_mul] at h2
        omega
      obtain ⟨net', vs, hs, hw'⟩ := steps_total E (inputs.zip targets)
        (fun q hq => ⟨hx _ (List.of_mem_zip hq).1, hy _ (List.of_mem_zip hq).2⟩) s.net hw
      rw [epochInt_eq E inputs targets s hl, epoch_ok E inputs targets s net' vs hlen hne hs]
      obtain ⟨e, opt', ho', hn'⟩ := steps_adam hs ho hn
      rw [List.length_zip, Nat.min_eq_left hlen] at hn'
      refine ih ⟨net', _, _⟩ opt' _ hw' ho' hn' (by omega) ?_
      show 2 ^ 31 ≤ _ + k * inputs.length * trainableCount net'.layers
      rw [e]
      rw [Nat.add_mul, Nat.one_mul, Nat.add_mul] at h2
      omega

/-! ### The claim -/

/-- **With SGD or RMSProp nothing counts the steps**: for every number of epochs and all data, `train` is the `train` all other theorems
are about. -/
theorem C94_sgd_rmsprop {ρ : Type} (E : Engine ρ ℝ) (inputs targets : List (Tensor ℝ)) (epochs : Int) (net : Net ρ ℝ)
    (h : ∀ o, net.optimizer ≠ some (.adam o)) : trainCallInt E inputs targets epochs net = trainCall E inputs targets epochs net := by
  have hl : Lasts (epochs.toNat * inputs.length) net := by
    rintro opt ho n ⟨o, rfl, -⟩
    exact absurd ho (h o)
  unfold trainCallInt trainCall trainInt train
  rw [epochsInt_eq E inputs targets epochs.toNat ⟨net, _, _⟩ hl]

/-- **With Adam, as long as the number of calls of `optimize`** (those so far, and one for each layer with parameters in each step of each
epoch) **stays below 2^31**: `train` is the `train` all other theorems are about, whether it succeeds or not.  Missing for the full C94:
longer runs, which are undefined behaviour (`C94_overflow`). -/
theorem C94_adam_partial {ρ : Type} (E : Engine ρ ℝ) (inputs targets : List (Tensor ℝ)) (epochs : Int) (net : Net ρ ℝ)
    (opt : Optimizer (Nat × Bool) ℝ) (ho : net.optimizer = some opt) (n : Nat) (hn : AdamSteps n opt)
    (h : n + epochs.toNat * inputs.length * trainableCount net.layers < 2 ^ 31) :
    trainCallInt E inputs targets epochs net = trainCall E inputs targets epochs net := by
  have hl : Lasts (epochs.toNat * inputs.length) net := by
    intro o ho' m hm
    rw [ho] at ho'
    cases ho'
    obtain ⟨p, hp, e1⟩ := hm
    obtain ⟨q, hq, e2⟩ := hn
    rw [hp] at hq
    cases hq
    omega
  unfold trainCallInt trainCall trainInt train
  rw [epochsInt_eq E inputs targets epochs.toNat ⟨net, _, _⟩ hl]

/-- **The call of `train` that makes the 2^31st call of `optimize` is undefined behaviour**, for every model whose layers fit together and
all data of the right dimensions. -/
theorem C94_overflow {ρ : Type} (E : Engine ρ ℝ) {ds es : List Nat} (inputs targets : List (Tensor ℝ)) (epochs : Int) (net : Net ρ ℝ)
    (hw : WellShaped net ds es) (hx : ∀ x ∈ inputs, HasDims ds x) (hy : ∀ y ∈ targets, HasDims es y)
    (hlen : inputs.length ≤ targets.length) (opt : Optimizer (Nat × Bool) ℝ) (ho : net.optimizer = some opt) (n : Nat)
    (hn : AdamSteps n opt) (h1 : n < 2 ^ 31) (h2 : 2 ^ 31 ≤ n + epochs.toNat * inputs.length * trainableCount net.layers) :
    (trainCallInt E inputs targets epochs net).1 = .error .ub :=
  epochsInt_ub E ds es inputs targets hx hy hlen epochs.toNat ⟨net, ofFn [1] fun _ => 0, []⟩ opt n hw ho hn h1 h2

theorem exConvNet_count : trainableCount exConvNet.layers = 2 := by
  classical
  unfold exConvNet
  simp only [trainableCount_cons]
  have e0 : trainableCount [] = 0 := by unfold trainableCount; rfl
  rw [e0]
  simp [Trainable]

/-- The convolutional model of `Props/Typed.lean` (two layers with parameters) with a fresh Adam on one batch: 2^30 epochs are undefined
behaviour, although nothing else is wrong (with a counter without bound training succeeds); one epoch less is fine. -/
theorem C94_refuted (E : Engine Unit ℝ) (o : AdamOptions ℝ) (x y : List Nat → ℝ) :
    (trainCallInt E [ofFn [2, 1, 8, 8] x] [ofFn [2, 10] y] (2 ^ 30) (exConvNet.compile (.crossEntropy (1 / 100)) (.newAdam o))).1 =
      .error .ub ∧
    (trainCall E [ofFn [2, 1, 8, 8] x] [ofFn [2, 10] y] (2 ^ 30) (exConvNet.compile (.crossEntropy (1 / 100)) (.newAdam o))).1 =
      .ok () ∧
    (trainCallInt E [ofFn [2, 1, 8, 8] x] [ofFn [2, 10] y] (2 ^ 30 - 1) (exConvNet.compile (.crossEntropy (1 / 100)) (.newAdam o))).1 =
      .ok () := by
  have hw := (C67_compiled exConvNet (.crossEntropy (1 / 100)) exConvNet_chain
    ⟨2, 10, rfl, by simp, by simp, by simp⟩ ⟨0, 0, 0, 0, false⟩ ⟨0, 0, 0, 0, false, 0⟩ o).2.2
  have hx : ∀ t ∈ [ofFn [2, 1, 8, 8] x], HasDims [2, 1, 8, 8] t := by simpa using ⟨x, rfl⟩
  have hy : ∀ t ∈ [ofFn [2, 10] y], HasDims [2, 10] t := by simpa using ⟨y, rfl⟩
  have hc : trainableCount (exConvNet.compile (.crossEntropy (1 / 100)) (.newAdam o)).layers = 2 := exConvNet_count
  have hok : ∀ k : Int, (trainCall E [ofFn [2, 1, 8, 8] x] [ofFn [2, 10] y] k
      (exConvNet.compile (.crossEntropy (1 / 100)) (.newAdam o))).1 = .ok () := by
    intro k
    obtain ⟨net', rs, h, -, -⟩ := C67_train E _ hw _ _ k (by simp) (by simp) hx hy
    rw [h]
  refine ⟨C94_overflow E _ _ _ _ hw hx hy (by simp) (.newAdam o) rfl 0 ⟨_, rfl, rfl⟩ (by norm_num) ?_, hok _, ?_⟩
  · rw [hc, List.length_singleton]
    omega
  · rw [C94_adam_partial E _ _ _ _ (.newAdam o) rfl 0 ⟨_, rfl, rfl⟩ (by rw [hc, List.length_singleton]; omega)]
    exact hok _

end SmartDNN
